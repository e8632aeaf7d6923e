import Verif.GeneratingProps
import Verif.ConfigProps

/-!
# C52: the compiled dimension and the metrics that are generated
-/

namespace Verif.Gen

open Cfg Text

theorem edgeStep_dims {env : Env} {s s' : Net} {c : GenCat} (h : edgeStep env s c = .ok s') :
    s'.edges.units.length = s.edges.units.length + c.newDims := by
  cases c with
  | info i id => cases i <;> simp only [edgeStep, Res.ok.injEq, reduceCtorEq] at h <;> subst h <;> rfl
  | custom u id d =>
    simp only [edgeStep, Res.bind_eq_ok, Res.pure_eq, Res.ok.injEq] at h
    obtain ⟨xs, -, rfl⟩ := h
    simp [addMetric, GenCat.newDims]
  | haversine u id =>
    simp only [edgeStep] at h
    split at h
    · simp only [Res.bind_eq_ok, Res.pure_eq, Res.ok.injEq] at h
      obtain ⟨xs, -, rfl⟩ := h
      simp [addMetric, GenCat.newDims]
    · exact absurd h (by simp)
  | copy src dst =>
    simp only [edgeStep, Res.bind_eq_ok, Res.pure_eq, Res.ok.injEq] at h
    obtain ⟨i, -, xs, -, rfl⟩ := h
    simp [addMetric, GenCat.newDims]
  | convert src dst =>
    simp only [edgeStep, Res.bind_eq_ok] at h
    obtain ⟨i, -, xs, -, h⟩ := h
    split at h
    · simp only [Res.pure_eq, Res.ok.injEq] at h
      subst h
      simp [GenCat.newDims]
    · exact absurd h (by simp)
  | «calc» r a b =>
    simp only [edgeStep, Res.bind_eq_ok, Res.pure_eq, Res.ok.injEq] at h
    obtain ⟨i, -, j, -, xs, -, rfl⟩ := h
    simp [addMetric, GenCat.newDims]
  | merge file hd edgeId cols =>
    simp only [edgeStep, Res.bind_eq_ok, Res.pure_eq, Res.ok.injEq] at h
    obtain ⟨lines, -, ms, -, rfl⟩ := h
    simp [GenCat.newDims]

theorem steps_dims {env : Env} {l : List GenCat} {s s' : Net} (h : l.foldlM (edgeStep env) s = .ok s') :
    s'.edges.units.length = s.edges.units.length + (l.map GenCat.newDims).sum := by
  induction l generalizing s with
  | nil =>
    simp only [List.foldlM_nil, Res.pure_eq, Res.ok.injEq] at h
    subst h
    simp
  | cons c l ih =>
    simp only [List.foldlM_cons, Res.bind_eq_ok] at h
    obtain ⟨t, h1, h2⟩ := h
    rw [ih h2, edgeStep_dims h1]
    simp only [List.map_cons, List.sum_cons]
    omega

theorem generate_dims {env : Env} {gen : Option Generating} {s s' : Net} (h : generate env gen s = .ok s') :
    s'.edges.units.length = s.edges.units.length + ((gen.elim [] Generating.edges).map GenCat.newDims).sum := by
  cases gen with
  | none => simp only [generate, Res.ok.injEq] at h; subst h; rfl
  | some gen =>
    simp only [generate, Res.bind_eq_ok] at h
    obtain ⟨t, h1, h⟩ := h
    split at h
    · exact absurd h (by simp)
    · rw [steps_dims h, (nodes_ok h1).2]
      rfl

/-- C52: if parsing starts, then the metrics that are parsed and those that are generated fit into the compiled
dimension. -/
theorem C52_dims {maxDim : Nat} {c : Parsing} (h : check maxDim c = .ok ⟨⟩) {env : Env} {s s' : Net}
    (hs : s.edges = c.edges) (hg : generate env c.generating s = .ok s') : s'.edges.units.length ≤ maxDim := by
  rw [generate_dims hg, hs]
  exact ((C52_check_iff maxDim c).mp h).2.2.2.1

/-- C52: nothing is rejected that fits: parsing is refused because of the dimension iff columns for nodes are complete and
generating would lead to more metrics than the compiled dimension. -/
theorem C52_too_many_iff {maxDim : Nat} {c : Parsing} {env : Env} {s s' : Net}
    (hs : s.edges = c.edges) (hg : generate env c.generating s = .ok s') :
    check maxDim c = .error .dimension ↔
      (∃ id, NodeCat.info .nodeId id ∈ c.nodes) ∧ (∃ id, NodeCat.metric .latitude id ∈ c.nodes) ∧
      (∃ id, NodeCat.metric .longitude id ∈ c.nodes) ∧ maxDim < s'.edges.units.length := by
  have hd := generate_dims hg
  rw [hs] at hd
  have h1 : (c.nodes.any fun | .info .nodeId _ => true | _ => false) = true ↔
      ∃ id, NodeCat.info .nodeId id ∈ c.nodes := by
    rw [List.any_eq_true]
    constructor
    · rintro ⟨x, hx, h⟩
      split at h
      · exact ⟨_, hx⟩
      · exact absurd h (by simp)
    · rintro ⟨id, h⟩
      exact ⟨_, h, rfl⟩
  have h2 : (c.nodes.any fun | .metric .latitude _ => true | _ => false) = true ↔
      ∃ id, NodeCat.metric .latitude id ∈ c.nodes := by
    rw [List.any_eq_true]
    constructor
    · rintro ⟨x, hx, h⟩
      split at h
      · exact ⟨_, hx⟩
      · exact absurd h (by simp)
    · rintro ⟨id, h⟩
      exact ⟨_, h, rfl⟩
  have h3 : (c.nodes.any fun | .metric .longitude _ => true | _ => false) = true ↔
      ∃ id, NodeCat.metric .longitude id ∈ c.nodes := by
    rw [List.any_eq_true]
    constructor
    · rintro ⟨x, hx, h⟩
      split at h
      · exact ⟨_, hx⟩
      · exact absurd h (by simp)
    · rintro ⟨id, h⟩
      exact ⟨_, h, rfl⟩
  obtain ⟨b1, b2, b3, e1, e2, e3, e⟩ : ∃ b1 b2 b3 : Bool, (b1 = true ↔ ∃ id, NodeCat.info .nodeId id ∈ c.nodes) ∧
      (b2 = true ↔ ∃ id, NodeCat.metric .latitude id ∈ c.nodes) ∧
      (b3 = true ↔ ∃ id, NodeCat.metric .longitude id ∈ c.nodes) ∧
      check maxDim c = if (!b1) = true then Except.error Err.noNodeId
        else if (!b2) = true then .error .noLatitude
        else if (!b3) = true then .error .noLongitude
        else if c.edges.units.length + ((c.generating.elim [] Generating.edges).map GenCat.newDims).sum > maxDim then
          .error .dimension
        else if c.edges.cats.countP EdgeCat.isShortcut > 0 ∧ c.edges.cats.countP EdgeCat.isShortcut ≠ 2 then
          .error .shortcutCount
        else .ok PUnit.unit := by
    refine ⟨_, _, _, h1, h2, h3, ?_⟩
    unfold check
    cases c.generating <;> rfl
  rw [← e1, ← e2, ← e3, e, hd]
  generalize c.edges.units.length + ((c.generating.elim [] Generating.edges).map GenCat.newDims).sum = n
  generalize c.edges.cats.countP EdgeCat.isShortcut = k
  by_cases hn : n > maxDim
  · cases b1 <;> cases b2 <;> cases b3 <;> simp [hn]
  · by_cases hk : k > 0 ∧ k ≠ 2
    · cases b1 <;> cases b2 <;> cases b3 <;> simp [hn, hk]
    · cases b1 <;> cases b2 <;> cases b3 <;> simp [hn, hk]

/-- C52: if parsing starts, then there are as many columns of replaced edges as zero or two. -/
theorem C52_shortcuts {maxDim : Nat} {c : Parsing} (h : check maxDim c = .ok ⟨⟩) :
    (c.edges.cats.filter fun x => match x with
      | .info i _ => decide (i = .shortcutIdx0) || decide (i = .shortcutIdx1)
      | _ => false).length ∈ [0, 2] := by
  have h' := ((C52_check_iff maxDim c).mp h).2.2.2.2
  have : (fun x : EdgeCat => match x with
      | .info i _ => decide (i = .shortcutIdx0) || decide (i = .shortcutIdx1)
      | _ => false) = EdgeCat.isShortcut := by
    funext x
    cases x with
    | info i _ => cases i <;> rfl
    | metric _ _ => rfl
    | ignored => rfl
  rw [this, ← List.countP_eq_length_filter]
  simpa using h'

/-- The sample generates four metrics beside the one that is parsed. -/
example : ∃ s', generate exEnv (some exGen) exNet = .ok s' ∧ s'.edges.units.length = 5 ∧
    check 5 { vehicle := .car, picky := false, nodes := exNet.nodes, edges := exNet.edges, generating := some exGen } =
      .ok ⟨⟩ ∧
    check 4 { vehicle := .car, picky := false, nodes := exNet.nodes, edges := exNet.edges, generating := some exGen } =
      .error .dimension := by
  have h : generate exEnv (some exGen) exNet = .ok (okNet (generate exEnv (some exGen) exNet)) := by decide +kernel
  exact ⟨_, h, by decide +kernel, by decide +kernel, by decide +kernel⟩

end Verif.Gen
