import Verif.FlattenSpec
import Verif.PathProps
import Verif.FuelMono

/-!
# When flattening succeeds (C21)
-/

namespace Verif.Path

open Graph

theorem sets_of_expands {g : Graph} {e : Nat} {l : List Nat} (h : Expands g e l) : ∃ d, SetsAside g e d := by
  induction h with
  | plain h => exact ⟨0, .plain h⟩
  | shortcut h _ _ iha ihb =>
    obtain ⟨m, hm⟩ := iha
    obtain ⟨n, hn⟩ := ihb
    exact ⟨_, .shortcut h hm hn⟩

theorem expands_of_sets {g : Graph} {e d : Nat} (h : SetsAside g e d) : ∃ l, Expands g e l := by
  induction h with
  | plain h => exact ⟨_, .plain h⟩
  | shortcut h _ _ iha ihb =>
    obtain ⟨la, ha⟩ := iha
    obtain ⟨lb, hb⟩ := ihb
    exact ⟨_, .shortcut h ha hb⟩

theorem sets_fun {g : Graph} {e d d' : Nat} (h : SetsAside g e d) (h' : SetsAside g e d') : d = d' := by
  induction h generalizing d' with
  | plain h =>
    cases h' with
    | plain => rfl
    | shortcut h1 => rw [h] at h1; cases h1
  | shortcut h _ _ iha ihb =>
    cases h' with
    | plain h1 => rw [h] at h1; cases h1
    | shortcut h1 ha hb =>
      rw [h] at h1
      cases h1
      rw [iha ha, ihb hb]

/-- Replacing an edge fails iff too many edges are set aside. -/
theorem flatGo_sets {g : Graph} {e d : Nat} (h : SetsAside g e d)
    (hm : ∀ e, g.scEdgesOf e = .ok none → e < g.metrics.length) :
    ∃ k l, ∀ fuel stack out costs,
      ((d = 0 ∨ stack.length + d ≤ g.edgeCount) → flatGo g (fuel + k) (some e) stack out costs =
        flatGo g fuel none stack (out ++ l) (addAll g costs l)) ∧
      (¬ (d = 0 ∨ stack.length + d ≤ g.edgeCount) →
        flatGo g (fuel + k) (some e) stack out costs = some (.err .cycle)) := by
  induction h with
  | @plain e h1 =>
    refine ⟨1, [e], fun fuel stack out costs => ⟨fun _ => ?_, fun h => absurd (.inl rfl) h⟩⟩
    simp [flatGo, h1, List.getElem?_eq_getElem (hm e h1), addAll]
  | @shortcut e a b m n h1 ha hb iha ihb =>
    obtain ⟨ka, la, hka⟩ := iha
    obtain ⟨kb, lb, hkb⟩ := ihb
    refine ⟨kb + 1 + ka + 1, la ++ lb, fun fuel stack out costs => ?_⟩
    have hs : flatGo g (fuel + (kb + 1 + ka + 1)) (some e) stack out costs =
        if (b :: stack).length > g.edgeCount then some (.err .cycle)
        else flatGo g (fuel + kb + 1 + ka) (some a) (b :: stack) out costs := by
      rw [show fuel + (kb + 1 + ka + 1) = (fuel + kb + 1 + ka) + 1 by omega]
      simp [flatGo, h1]
    have hp : flatGo g (fuel + kb + 1) none (b :: stack) (out ++ la) (addAll g costs la) =
        flatGo g (fuel + kb) (some b) stack (out ++ la) (addAll g costs la) := rfl
    rw [hs, List.length_cons]
    obtain ⟨a1, a2⟩ := hka (fuel + kb + 1) (b :: stack) out costs
    obtain ⟨b1, b2⟩ := hkb fuel stack (out ++ la) (addAll g costs la)
    rw [List.length_cons] at a1 a2
    rw [List.append_assoc, ← addAll_append] at b1
    constructor
    · intro hd
      rw [if_neg (by omega), a1 (by omega), hp, b1 (by omega)]
    · intro hd
      by_cases h2 : stack.length + 1 > g.edgeCount
      · rw [if_pos h2]
      · rw [if_neg h2]
        by_cases h3 : m = 0 ∨ stack.length + 1 + m ≤ g.edgeCount
        · rw [a1 h3, hp, b2 (by omega)]
        · exact a2 h3

/-- The same for all edges of a path, one after the other. -/
theorem flatGo_path {g : Graph} (hm : ∀ e, g.scEdgesOf e = .ok none → e < g.metrics.length) {es ds : List Nat}
    (h : List.Forall₂ (SetsAside g) es ds) :
    ∃ k, ∀ fuel out costs,
      ((∀ i d, ds[i]? = some d → d = 0 ∨ es.length - (i + 1) + d ≤ g.edgeCount) →
        ∃ r, flatGo g (fuel + k) none es out costs = some (.ok r)) ∧
      (¬ (∀ i d, ds[i]? = some d → d = 0 ∨ es.length - (i + 1) + d ≤ g.edgeCount) →
        flatGo g (fuel + k) none es out costs = some (.err .cycle)) := by
  induction h with
  | nil => exact ⟨1, fun fuel out costs => ⟨fun _ => ⟨_, rfl⟩, fun h => absurd (by simp) h⟩⟩
  | @cons e d es ds he hs ih =>
    obtain ⟨k, hk⟩ := ih
    obtain ⟨k', l, hk'⟩ := flatGo_sets he hm
    refine ⟨k + k' + 1, fun fuel out costs => ?_⟩
    have hf : flatGo g (fuel + (k + k' + 1)) none (e :: es) out costs =
        flatGo g (fuel + k + k') (some e) es out costs := by
      rw [show fuel + (k + k' + 1) = (fuel + k + k') + 1 by omega]
      rfl
    have hiff : (∀ i d', (d :: ds)[i]? = some d' → d' = 0 ∨ (e :: es).length - (i + 1) + d' ≤ g.edgeCount) ↔
        (d = 0 ∨ es.length + d ≤ g.edgeCount) ∧
          ∀ i d, ds[i]? = some d → d = 0 ∨ es.length - (i + 1) + d ≤ g.edgeCount := by
      constructor
      · intro h
        refine ⟨by simpa using h 0 d (by simp), fun i d' hi => ?_⟩
        have := h (i + 1) d' (by simpa using hi)
        rw [List.length_cons, show es.length + 1 - (i + 1 + 1) = es.length - (i + 1) by omega] at this
        exact this
      · rintro ⟨h1, h2⟩ i d' hi
        cases i with
        | zero =>
          simp only [List.getElem?_cons_zero, Option.some.injEq] at hi
          subst hi
          simpa using h1
        | succ i =>
          rw [List.length_cons, show es.length + 1 - (i + 1 + 1) = es.length - (i + 1) by omega]
          exact h2 i d' (by simpa using hi)
    rw [hf, hiff]
    obtain ⟨c1, c2⟩ := hk' (fuel + k) es out costs
    constructor
    · rintro ⟨h1, h2⟩
      rw [c1 h1]
      exact (hk fuel _ _).1 h2
    · intro h
      by_cases h1 : d = 0 ∨ es.length + d ≤ g.edgeCount
      · rw [c1 h1]
        exact (hk fuel _ _).2 fun h2 => h ⟨h1, h2⟩
      · exact c2 h1

/-- If the shortcuts of a path are not cyclic, then flattening ends, either successfully or with the error about
cycles. The latter happens iff the replaced edges and the remaining ones of the path are more than the edges of the
graph at some time. -/
theorem C21_outcome {dim : Nat} {es : List Build.ProtoEdge} {ns : List Build.ProtoNode} {g : Graph}
    (hb : Build.build dim es ns = .ok g) {p : Path} {ds : List Nat} (hds : List.Forall₂ (SetsAside g) p.edges ds) :
    ∃ k, ∀ fuel, k ≤ fuel →
      ((∀ i d, ds[i]? = some d → d = 0 ∨ p.edges.length - (i + 1) + d ≤ g.edgeCount) →
        ∃ q, tryFlatten g fuel p = some (.ok q)) ∧
      (¬ (∀ i d, ds[i]? = some d → d = 0 ∨ p.edges.length - (i + 1) + d ≤ g.edgeCount) →
        tryFlatten g fuel p = some (.err .cycle)) := by
  have hwf := Build.built_wellFormed hb
  obtain ⟨k, hk⟩ := flatGo_path (fun e h => by rw [hwf.metrics_len]; exact hwf.sc_len _ _ h) hds
  refine ⟨k, fun fuel hf => ?_⟩
  obtain ⟨f, rfl⟩ := Nat.exists_eq_add_of_le' hf
  obtain ⟨h1, h2⟩ := hk f [] (List.replicate g.dim 0)
  unfold tryFlatten
  constructor
  · intro h
    obtain ⟨r, hr⟩ := h1 h
    exact ⟨_, by rw [hr]; rfl⟩
  · intro h
    rw [h2 h]
    rfl

/-- The paths that are flattened successfully, for some and thus for every large number of steps. -/
theorem C21_succeeds_iff {dim : Nat} {es : List Build.ProtoEdge} {ns : List Build.ProtoNode} {g : Graph}
    (hb : Build.build dim es ns = .ok g) (p : Path) :
    (∃ fuel q, tryFlatten g fuel p = some (.ok q)) ↔ ∃ ds, List.Forall₂ (SetsAside g) p.edges ds ∧
      ∀ i d, ds[i]? = some d → d = 0 ∨ p.edges.length - (i + 1) + d ≤ g.edgeCount := by
  constructor
  · rintro ⟨fuel, q, h⟩
    obtain ⟨ls, h1, -⟩ := C21_expansion h
    obtain ⟨ds, hds⟩ : ∃ ds, List.Forall₂ (SetsAside g) p.edges ds := by
      clear h
      generalize p.edges = l at h1
      induction h1 with
      | nil => exact ⟨[], .nil⟩
      | cons h1 _ ih =>
        obtain ⟨ds, h2⟩ := ih
        obtain ⟨d, h3⟩ := sets_of_expands h1
        exact ⟨d :: ds, .cons h3 h2⟩
    refine ⟨ds, hds, ?_⟩
    by_contra hn
    obtain ⟨k, hk⟩ := C21_outcome hb hds
    have h2 := (hk (fuel + k) (by omega)).2 hn
    rw [tryFlatten_mono h k] at h2
    cases h2
  · rintro ⟨ds, h1, h2⟩
    obtain ⟨k, hk⟩ := C21_outcome hb h1
    exact ⟨k, (hk k le_rfl).1 h2⟩

/-- The edges of a shortcut of shortcuts. -/
def towerEdges : List Build.ProtoEdge :=
  [{ id := none, srcId := 1, dstId := 1, metrics := [1], sc := none },
    { id := none, srcId := 1, dstId := 1, metrics := [2], sc := some (0, 0) },
    { id := none, srcId := 1, dstId := 1, metrics := [4], sc := some (1, 1) }]

theorem tower_sets : SetsAside loopGraph 0 0 ∧ SetsAside loopGraph 1 1 ∧ SetsAside loopGraph 2 2 := by
  have h0 : SetsAside loopGraph 0 0 := .plain (by decide)
  have h1 : SetsAside loopGraph 1 1 := .shortcut (a := 0) (b := 0) (by decide) h0 h0
  exact ⟨h0, h1, .shortcut (a := 1) (b := 1) (by decide) h1 h1⟩

/-- Two of these shortcuts are flattened, three are not: the graph has three edges. -/
example : Build.build 1 towerEdges [{ id := 1, coord := ⟨0, 0⟩, level := none }] = .ok loopGraph ∧
    (∃ fuel q, tryFlatten loopGraph fuel (Path.new 0 1 0 1 [2, 2]) = some (.ok q)) ∧
    ¬ ∃ fuel q, tryFlatten loopGraph fuel (Path.new 0 1 0 1 [2, 2, 2]) = some (.ok q) := by
  have hb : Build.build 1 towerEdges [{ id := 1, coord := ⟨0, 0⟩, level := none }] = .ok loopGraph := by decide +kernel
  have h2 := tower_sets.2.2
  refine ⟨hb, (C21_succeeds_iff hb _).mpr ⟨[2, 2], .cons h2 (.cons h2 .nil), ?_⟩, fun h => ?_⟩
  · intro i d hd
    match i, hd with
    | 0, hd => right; cases hd; decide
    | 1, hd => right; cases hd; decide
  · obtain ⟨ds, h3, h4⟩ := (C21_succeeds_iff hb _).mp h
    cases h3 with
    | cons h3 _ =>
      cases sets_fun h2 h3
      have := h4 0 2 (by simp)
      revert this
      decide

end Verif.Path
