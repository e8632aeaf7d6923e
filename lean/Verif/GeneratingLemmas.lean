import Verif.GeneratingSpec
import Verif.BuildingLemmas
import Verif.ConfigProps
import Mathlib.Algebra.BigOperators.Group.List.Basic

/-!
# Lemmas about generating and normalizing
-/

namespace Verif.Gen

open Cfg

theorem lt_of_some {α : Type} {l : List α} {i : Nat} {a : α} (h : l[i]? = some a) : i < l.length := by
  by_contra hc
  rw [List.getElem?_eq_none (by omega)] at h
  exact absurd h (by simp)

/-! ## Topology -/

theorem SameTopology.refl (g : Graph) : SameTopology g g := ⟨rfl, rfl, rfl, rfl, rfl, rfl, rfl, rfl, rfl, rfl, rfl⟩

theorem SameTopology.trans {a b c : Graph} (h : SameTopology a b) (h' : SameTopology b c) :
    SameTopology a c :=
  ⟨h'.1.trans h.1, h'.2.trans h.2, h'.3.trans h.3, h'.4.trans h.4, h'.5.trans h.5, h'.6.trans h.6,
    h'.7.trans h.7, h'.8.trans h.8, h'.9.trans h.9, h'.10.trans h.10, h'.11.trans h.11⟩

theorem SameTopology.eq {g g' : Graph} (h : SameTopology g g') :
    g' = { g with metrics := g'.metrics, means := g'.means, edgeIds := g'.edgeIds, idMap := g'.idMap,
                  dim := g'.dim } := by
  obtain ⟨h1, h2, h3, h4, h5, h6, h7, h8, h9, h10, h11⟩ := h
  cases g'
  simp_all

theorem wellFormed_of_sameTopology {g g' : Graph} (hw : g.WellFormed) (h : SameTopology g g')
    (hm : g'.metrics.length = g.edgeCount) (hi : g'.edgeIds.length = g.edgeCount)
    (hid : ∀ e id, g'.tryIdxFrom id = .ok e ↔ g'.tryId e = .ok (some id)) : g'.WellFormed := by
  rw [h.eq] at hm hi hid ⊢
  exact ⟨hw.ids_sorted, hw.coords_len, hw.levels_len, hw.bwd_len, hm, hi, hw.ends_lt, hw.start,
    hw.covered_iff, hw.not_covered, hw.sc_ok, hw.sc_len, hid⟩

/-! ## Values -/

theorem newValues_ok {f : Nat → List ℚ → R ℚ} {e : Nat} {ms : List (List ℚ)} {xs : List ℚ}
    (h : newValues f e ms = .ok xs) :
    xs.length = ms.length ∧ ∀ (i : Nat) (m : List ℚ), ms[i]? = some m → ∃ x, f (e + i) m = .ok x ∧ xs[i]? = some x := by
  induction ms generalizing e xs with
  | nil =>
    simp only [newValues, Res.ok.injEq] at h
    subst h
    simp
  | cons m ms ih =>
    simp only [newValues, Res.bind_eq_ok, Res.pure_eq, Res.ok.injEq] at h
    obtain ⟨x, hx, xs', hxs, rfl⟩ := h
    obtain ⟨h1, h2⟩ := ih hxs
    refine ⟨by simp [h1], fun i m' hm' => ?_⟩
    cases i with
    | zero =>
      simp only [List.getElem?_cons_zero, Option.some.injEq] at hm'
      subst hm'
      exact ⟨x, hx, rfl⟩
    | succ i =>
      simp only [List.getElem?_cons_succ] at hm'
      obtain ⟨y, hy, hyi⟩ := h2 i m' hm'
      exact ⟨y, by rw [← hy]; congr 1; omega, by simpa using hyi⟩

theorem newValues_total {f : Nat → List ℚ → R ℚ} {e : Nat} {ms : List (List ℚ)}
    (h : ∀ (i : Nat) (m : List ℚ), ms[i]? = some m → ∃ x, f (e + i) m = .ok x) :
    ∃ xs, newValues f e ms = .ok xs := by
  induction ms generalizing e with
  | nil => exact ⟨[], rfl⟩
  | cons m ms ih =>
    obtain ⟨x, hx⟩ := h 0 m rfl
    obtain ⟨xs, hxs⟩ := ih (e := e + 1) (fun i m' hm' => by
      obtain ⟨y, hy⟩ := h (i + 1) m' (by simpa using hm')
      exact ⟨y, by rw [← hy]; congr 1; omega⟩)
    exact ⟨x :: xs, by simp [newValues, show f e m = .ok x from hx, hxs]⟩

theorem pushAll_length {ms : List (List ℚ)} {xs : List ℚ} (h : xs.length = ms.length) :
    (pushAll ms xs).length = ms.length := by simp [pushAll, h]

theorem setAll_length {i : Nat} {ms : List (List ℚ)} {xs : List ℚ} (h : xs.length = ms.length) :
    (setAll i ms xs).length = ms.length := by simp [setAll, h]

theorem pushAll_get {ms : List (List ℚ)} {xs : List ℚ} {e : Nat} {m : List ℚ} {x : ℚ}
    (hm : ms[e]? = some m) (hx : xs[e]? = some x) : (pushAll ms xs)[e]? = some (m ++ [x]) := by
  simp [pushAll, List.getElem?_zipWith, hm, hx]

theorem setAll_get {i : Nat} {ms : List (List ℚ)} {xs : List ℚ} {e : Nat} {m : List ℚ} {x : ℚ}
    (hm : ms[e]? = some m) (hx : xs[e]? = some x) : (setAll i ms xs)[e]? = some (m.set i x) := by
  simp [setAll, List.getElem?_zipWith, hm, hx]

theorem idxOf_ok {e : Edges} {id : Text} {i : Nat} (h : idxOf e id = .ok i) : e.ids[i]? = some id := by
  unfold idxOf at h
  split at h
  · rename_i j hj
    simp only [Res.ok.injEq] at h
    subst h
    unfold Edges.tryIdxOf at hj
    split at hj
    · rename_i k hk
      simp only [Except.ok.injEq] at hj
      subst hj
      rw [List.findIdx?_eq_some_iff_getElem] at hk
      obtain ⟨hlt, hk, -⟩ := hk
      rw [List.getElem?_eq_getElem hlt]
      simpa using hk
    · exact absurd hj (by simp)
  · exact absurd h (by simp)

theorem ofUnit_ok {r : Except Cfg.Err ℚ} {x : ℚ} (h : ofUnit r = .ok x) : r = .ok x := by
  unfold ofUnit at h
  split at h
  · simp only [Res.ok.injEq] at h
    rw [h]
  · exact absurd h (by simp)
  · exact absurd h (by simp)

/-! ## Steps -/

/-- What every step keeps. -/
structure Keeps (s s' : Net) : Prop where
  topo : SameTopology s.graph s'.graph
  nodes : s'.nodes = s.nodes
  norm : s'.edges.normalized = s.edges.normalized
  means : s'.graph.means = s.graph.means
  count : s'.graph.metrics.length = s.graph.metrics.length

theorem Keeps.refl (s : Net) : Keeps s s := ⟨.refl _, rfl, rfl, rfl, rfl⟩

theorem Keeps.trans {a b c : Net} (h : Keeps a b) (h' : Keeps b c) : Keeps a c :=
  ⟨h.1.trans h'.1, h'.2.trans h.2, h'.3.trans h.3, h'.4.trans h.4, h'.5.trans h.5⟩

theorem keeps_addInfo (s : Net) (i : MetaInfo) (id : Text) : Keeps s (addInfo s i id) :=
  ⟨⟨rfl, rfl, rfl, rfl, rfl, rfl, rfl, rfl, rfl, rfl, rfl⟩, rfl, rfl, rfl, rfl⟩

theorem keeps_addMetric {s : Net} {u : Cfg.Unit} {id : Text} {xs : List ℚ}
    (h : xs.length = s.graph.metrics.length) : Keeps s (addMetric s u id xs) :=
  ⟨⟨rfl, rfl, rfl, rfl, rfl, rfl, rfl, rfl, rfl, rfl, rfl⟩, rfl, rfl, rfl, pushAll_length h⟩

theorem mergeLine_length {env : Env} {s : Net} {edgeId : Text} {cols : List (Option Text)}
    {ms ms' : List (List ℚ)} {line : Text} (h : mergeLine env s edgeId cols ms line = .ok ms') :
    ms'.length = ms.length := by
  unfold mergeLine at h
  simp only [Res.bind_eq_ok] at h
  obtain ⟨o, -, h⟩ := h
  cases o with
  | none => exact absurd h (by simp)
  | some e =>
    simp only [Res.bind_eq_ok, Res.pure_eq, Res.ok.injEq] at h
    obtain ⟨m, -, m', -, rfl⟩ := h
    simp

theorem foldlM_ind {α β ε : Type} {f : β → α → Res ε β} {l : List α} {b b' : β}
    (h : l.foldlM f b = .ok b') (P : β → Prop) (h0 : P b)
    (hs : ∀ x ∈ l, ∀ c c', P c → f c x = .ok c' → P c') : P b' := by
  induction l generalizing b with
  | nil =>
    simp only [List.foldlM_nil, Res.pure_eq, Res.ok.injEq] at h
    exact h ▸ h0
  | cons a l ih =>
    simp only [List.foldlM_cons, Res.bind_eq_ok] at h
    obtain ⟨c, hc, h⟩ := h
    exact ih h (hs a (by simp) b c h0 hc) fun x hx => hs x (by simp [hx])

theorem foldlM_cons_ok {α β ε : Type} {f : β → α → Res ε β} {a : α} {l : List α} {b b' : β} :
    (a :: l).foldlM f b = .ok b' ↔ ∃ c, f b a = .ok c ∧ l.foldlM f c = .ok b' := by
  simp only [List.foldlM_cons, Res.bind_eq_ok]

theorem keeps_edgeStep {env : Env} {s s' : Net} {c : GenCat} (h : edgeStep env s c = .ok s') : Keeps s s' := by
  cases c with
  | info i id =>
    cases i <;> simp only [edgeStep, Res.ok.injEq, reduceCtorEq] at h
    all_goals subst h
    · exact ⟨⟨rfl, rfl, rfl, rfl, rfl, rfl, rfl, rfl, rfl, rfl, rfl⟩, rfl, rfl, rfl, rfl⟩
    all_goals exact keeps_addInfo _ _ _
  | custom u id d =>
    simp only [edgeStep, Res.bind_eq_ok, Res.pure_eq, Res.ok.injEq] at h
    obtain ⟨xs, hxs, rfl⟩ := h
    exact keeps_addMetric (newValues_ok hxs).1
  | haversine u id =>
    simp only [edgeStep] at h
    split at h
    · simp only [Res.bind_eq_ok, Res.pure_eq, Res.ok.injEq] at h
      obtain ⟨xs, hxs, rfl⟩ := h
      exact keeps_addMetric (newValues_ok hxs).1
    · exact absurd h (by simp)
  | copy src dst =>
    simp only [edgeStep, Res.bind_eq_ok, Res.pure_eq, Res.ok.injEq] at h
    obtain ⟨i, -, xs, hxs, rfl⟩ := h
    exact keeps_addMetric (newValues_ok hxs).1
  | convert src dst =>
    simp only [edgeStep, Res.bind_eq_ok] at h
    obtain ⟨i, -, xs, hxs, h⟩ := h
    split at h
    · simp only [Res.pure_eq, Res.ok.injEq] at h
      subst h
      exact ⟨⟨rfl, rfl, rfl, rfl, rfl, rfl, rfl, rfl, rfl, rfl, rfl⟩, rfl, rfl, rfl,
        setAll_length (newValues_ok hxs).1⟩
    · exact absurd h (by simp)
  | «calc» r a b =>
    simp only [edgeStep, Res.bind_eq_ok, Res.pure_eq, Res.ok.injEq] at h
    obtain ⟨i, -, j, -, xs, hxs, rfl⟩ := h
    exact keeps_addMetric (newValues_ok hxs).1
  | merge file hd edgeId cols =>
    simp only [edgeStep, Res.bind_eq_ok, Res.pure_eq, Res.ok.injEq] at h
    obtain ⟨lines, -, ms, hms, rfl⟩ := h
    refine ⟨⟨rfl, rfl, rfl, rfl, rfl, rfl, rfl, rfl, rfl, rfl, rfl⟩, rfl, rfl, rfl, ?_⟩
    exact foldlM_ind hms (fun ms => ms.length = s.graph.metrics.length) rfl
      fun _ _ c c' hc hcc => (mergeLine_length hcc).trans hc

theorem keeps_edges {env : Env} {l : List GenCat} {s s' : Net} (h : l.foldlM (edgeStep env) s = .ok s') :
    Keeps s s' :=
  foldlM_ind h (fun t => Keeps s t) (.refl _) fun _ _ _ _ hc hcc => hc.trans (keeps_edgeStep hcc)

theorem nodeStep_ok {s s' : Net} {c : GenNodeCat} (h : nodeStep s c = .ok s') :
    s'.graph = s.graph ∧ s'.edges = s.edges := by
  unfold nodeStep at h
  split at h
  · split at h
    · exact absurd h (by simp)
    · simp only [Res.ok.injEq] at h
      subst h
      exact ⟨rfl, rfl⟩
  · exact absurd h (by simp)
  · exact absurd h (by simp)

theorem nodes_ok {l : List GenNodeCat} {s s' : Net} (h : l.foldlM nodeStep s = .ok s') :
    s'.graph = s.graph ∧ s'.edges = s.edges :=
  foldlM_ind h (fun t => t.graph = s.graph ∧ t.edges = s.edges) ⟨rfl, rfl⟩ fun _ _ _ _ hc hcc =>
    ⟨(nodeStep_ok hcc).1.trans hc.1, (nodeStep_ok hcc).2.trans hc.2⟩

/-- Generating runs through the categories of the edges. -/
theorem generate_ok {env : Env} {gen : Generating} {s s' : Net} (h : generate env (some gen) s = .ok s') :
    ∃ t, t.graph = s.graph ∧ t.edges = s.edges ∧ idsExist s.edges gen.edges = false ∧
      gen.edges.foldlM (edgeStep env) t = .ok s' := by
  simp only [generate, Res.bind_eq_ok] at h
  obtain ⟨t, ht, h⟩ := h
  obtain ⟨h1, h2⟩ := nodes_ok ht
  split at h
  · exact absurd h (by simp)
  · rename_i hd
    exact ⟨t, h1, h2, by rw [← h2]; simpa using hd, h⟩

end Verif.Gen
