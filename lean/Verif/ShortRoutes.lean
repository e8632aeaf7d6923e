import Verif.NearProps

/-!
# Routes without detours

Every route can be shortened such that it has less edges than there are nodes, without costing more.
-/

namespace Verif.Dij

open Graph Search

/-- A route along permitted edges. -/
def Walk (R : Nat → Nat → Nat → Prop) : Nat → List Nat → Nat → Prop
  | u, [], v => u = v
  | u, e :: l, v => ∃ w, R e u w ∧ Walk R w l v

section
variable {R : Nat → Nat → Nat → Prop} {g : Graph} {al : List ℚ}

theorem walk_append {u v : Nat} {l l' : List Nat} :
    Walk R u (l ++ l') v ↔ ∃ w, Walk R u l w ∧ Walk R w l' v := by
  induction l generalizing u with
  | nil => exact ⟨fun h => ⟨u, rfl, h⟩, fun ⟨w, h1, h2⟩ => by cases h1; exact h2⟩
  | cons e l ih =>
    constructor
    · rintro ⟨x, hx, h⟩
      obtain ⟨w, h1, h2⟩ := ih.mp h
      exact ⟨w, ⟨x, hx, h1⟩, h2⟩
    · rintro ⟨w, ⟨x, hx, h1⟩, h2⟩
      exact ⟨x, hx, ih.mpr ⟨w, h1, h2⟩⟩

theorem routeCost_nonneg' (hm : NonnegMetrics g) (ha : ∀ x ∈ al, 0 ≤ x) (l : List Nat) : 0 ≤ routeCost g al l := by
  refine List.sum_nonneg ?_
  simp only [List.mem_map]
  rintro _ ⟨e, _, rfl⟩
  refine List.sum_nonneg ?_
  intro x hx
  rw [List.mem_iff_getElem] at hx
  obtain ⟨i, hi, rfl⟩ := hx
  rw [List.getElem_zipWith]
  refine mul_nonneg (ha _ (List.getElem_mem _)) ?_
  have hall : ∀ x ∈ (g.metrics[e]?).getD [], 0 ≤ x := by
    cases hme : g.metrics[e]? with
    | none => simp
    | some m => exact hm m (List.mem_of_getElem? hme)
  exact hall _ (List.getElem_mem _)

theorem walk_short (hm : NonnegMetrics g) (ha : ∀ x ∈ al, 0 ≤ x) {n : Nat} (hR : ∀ e u v, R e u v → v < n)
    {u v : Nat} (hu : u < n) {l : List Nat} (h : Walk R u l v) :
    ∃ l', Walk R u l' v ∧ l'.length < n ∧ routeCost g al l' ≤ routeCost g al l := by
  induction hk : l.length using Nat.strong_induction_on generalizing l with
  | _ k ih =>
    subst hk
    by_cases hlt : l.length < n
    · exact ⟨l, h, hlt, le_refl _⟩
    -- the nodes of the route
    have hsplit : ∀ i, ∃ w, Walk R u (l.take i) w ∧ Walk R w (l.drop i) v := fun i => by
      rw [← walk_append, List.take_append_drop]; exact h
    choose f hf using hsplit
    have hend : ∀ (l : List Nat) (a b : Nat), a < n → Walk R a l b → b < n := by
      intro l
      induction l with
      | nil => intro a b ha h; cases h; exact ha
      | cons e l ih => rintro a b _ ⟨w, h1, h2⟩; exact ih w b (hR _ _ _ h1) h2
    have hfn : ∀ i, f i < n := fun i => hend _ _ _ hu (hf i).1
    have hdup : ¬ ((List.range (l.length + 1)).map f).Nodup := by
      intro hnd
      have := length_le_of_nodup_lt hnd (n := n) (by
        intro x hx
        obtain ⟨i, _, rfl⟩ := List.mem_map.mp hx
        exact hfn i)
      simp at this
      omega
    have hij : ∃ i j, i < j ∧ j ≤ l.length ∧ f i = f j := by
      by_contra hcon
      push Not at hcon
      apply hdup
      rw [List.nodup_map_iff_inj_on List.nodup_range]
      intro i hi j hj hij
      rw [List.mem_range] at hi hj
      by_contra hne
      rcases lt_or_gt_of_ne hne with h | h
      · exact hcon i j h (by omega) hij
      · exact hcon j i h (by omega) hij.symm
    obtain ⟨i, j, hij, hj, hfe⟩ := hij
    have hw : Walk R u (l.take i ++ l.drop j) v :=
      walk_append.mpr ⟨f i, (hf i).1, by rw [hfe]; exact (hf j).2⟩
    have hle : routeCost g al (l.take i ++ l.drop j) ≤ routeCost g al l := by
      have e : l = l.take i ++ ((l.drop i).take (j - i) ++ l.drop j) := by
        have : l.drop j = (l.drop i).drop (j - i) := by rw [List.drop_drop]; congr 1; omega
        rw [this, List.take_append_drop, List.take_append_drop]
      conv_rhs => rw [e]
      rw [routeCost_append, routeCost_append, routeCost_append]
      have := routeCost_nonneg' hm ha ((l.drop i).take (j - i))
      linarith
    obtain ⟨l', h1, h2, h3⟩ := ih (l.take i ++ l.drop j).length (by
      rw [List.length_append, List.length_take, List.length_drop]; omega) hw rfl
    exact ⟨l', h1, h2, le_trans h3 hle⟩

theorem isRoute_walk {u v : Nat} {l : List Nat} : g.IsRoute u l v ↔ Walk g.IsEdge u l v := by
  induction l generalizing u with
  | nil => exact Iff.rfl
  | cons e l ih => simp only [IsRoute, Walk, ih]

theorem isUp_walk {u v : Nat} {l : List Nat} : IsUp g u l v ↔ Walk (fun e u w => g.IsEdge e u w ∧
    ∀ a b, g.nodeLevel u = .ok a → g.nodeLevel w = .ok b → a ≤ b) u l v := by
  induction l generalizing u with
  | nil => exact Iff.rfl
  | cons e l ih => simp only [IsUp, Walk, ih, and_assoc]

theorem isDown_walk {u v : Nat} {l : List Nat} : IsDown g u l v ↔ Walk (fun e u w => g.IsEdge e u w ∧
    ∀ a b, g.nodeLevel u = .ok a → g.nodeLevel w = .ok b → b ≤ a) u l v := by
  induction l generalizing u with
  | nil => exact Iff.rfl
  | cons e l ih => simp only [IsDown, Walk, ih, and_assoc]

/-- Every route can be shortened. -/
theorem route_short (hwf : g.WellFormed) (hm : NonnegMetrics g) (ha : ∀ x ∈ al, 0 ≤ x) {u v : Nat}
    (hu : u < g.nodeCount) {l : List Nat} (h : g.IsRoute u l v) :
    ∃ l', g.IsRoute u l' v ∧ l'.length < g.nodeCount ∧ routeCost g al l' ≤ routeCost g al l := by
  obtain ⟨l', h1, h2, h3⟩ := walk_short hm ha (R := g.IsEdge) (fun e u v h => (hwf.ends_lt .fwd e v h.1)) hu
    (isRoute_walk.mp h)
  exact ⟨l', isRoute_walk.mpr h1, h2, h3⟩

/-- Every route that goes up and then down can be shortened. -/
theorem upDown_short (hwf : g.WellFormed) (hm : NonnegMetrics g) (ha : ∀ x ∈ al, 0 ≤ x) {u v : Nat}
    (hu : u < g.nodeCount) {l : List Nat} (h : IsUpDown g u l v) :
    ∃ l', IsUpDown g u l' v ∧ l'.length ≤ 2 * g.nodeCount - 2 ∧ routeCost g al l' ≤ routeCost g al l := by
  obtain ⟨w, l1, l2, rfl, h1, h2⟩ := h
  obtain ⟨l1', h3, h4, h5⟩ := walk_short (g := g) hm ha (n := g.nodeCount)
    (fun e u v h => (hwf.ends_lt .fwd e v h.1.1)) hu (isUp_walk.mp h1)
  have hw : w < g.nodeCount := by
    have hend : ∀ (l : List Nat) (a b : Nat), a < g.nodeCount → IsUp g a l b → b < g.nodeCount := by
      intro l
      induction l with
      | nil => intro a b ha h; cases h; exact ha
      | cons e l ih => rintro a b _ ⟨w, h1, _, h2⟩; exact ih w b (hwf.ends_lt .fwd e w h1.1) h2
    exact hend _ _ _ hu h1
  obtain ⟨l2', h6, h7, h8⟩ := walk_short (g := g) hm ha (n := g.nodeCount)
    (fun e u v h => (hwf.ends_lt .fwd e v h.1.1)) hw (isDown_walk.mp h2)
  refine ⟨l1' ++ l2', ⟨w, l1', l2', rfl, isUp_walk.mpr h3, isDown_walk.mpr h6⟩, ?_, ?_⟩
  · rw [List.length_append]; omega
  · rw [routeCost_append, routeCost_append]; linarith

end
end Verif.Dij
