import Verif.BinHeap
import Verif.ApproxProps

/-!
# The binary heap loses nothing and pops a lowest element

The latter if the comparison is a total preorder on the elements that are pushed.
-/

namespace Verif.Dij

namespace BinHeap

section
variable {α : Type} {le : α → α → Bool}

theorem swap_perm (l : List α) (i j : Nat) : (swap l i j).Perm l := by
  unfold swap
  split
  · rename_i a b hi hj
    obtain ⟨hil, rfl⟩ := List.getElem?_eq_some_iff.mp hi
    obtain ⟨hjl, rfl⟩ := List.getElem?_eq_some_iff.mp hj
    by_cases hij : i = j
    · subst hij
      rw [List.set_set, List.set_getElem_self]
    · have hjl' : j < (l.set i l[j]).length := by rw [List.length_set]; exact hjl
      have h1 := List.set_perm_cons_eraseIdx hjl' l[i]
      have h2 := List.getElem_cons_eraseIdx_perm hjl'
      have h3 := List.set_perm_cons_eraseIdx hil l[j]
      rw [List.getElem_set_ne hij] at h2
      have h4 := (List.perm_cons _).mp (h2.trans h3)
      exact h1.trans ((h4.cons _).trans (List.getElem_cons_eraseIdx_perm hil))
  · exact List.Perm.refl _

theorem swap_getElem? {l : List α} {i j : Nat} {a b : α} (hi : l[i]? = some a) (hj : l[j]? = some b)
    (k : Nat) : (swap l i j)[k]? = if k = j then some a else if k = i then some b else l[k]? := by
  have hil := (List.getElem?_eq_some_iff.mp hi).1
  have hjl := (List.getElem?_eq_some_iff.mp hj).1
  simp only [swap, hi, hj]
  rw [List.getElem?_set, List.getElem?_set]
  by_cases hkj : k = j
  · subst hkj; simp [hjl]
  · rw [if_neg (Ne.symm hkj), if_neg hkj]
    by_cases hki : k = i
    · subst hki; simp [hil]
    · rw [if_neg (Ne.symm hki), if_neg hki]

theorem siftUp_perm {fuel : Nat} {l : List α} {pos : Nat} : (siftUp le fuel l pos).Perm l := by
  induction fuel generalizing l pos with
  | zero => exact List.Perm.refl _
  | succ n ih =>
    unfold siftUp
    split
    · exact List.Perm.refl _
    · split
      · split
        · exact List.Perm.refl _
        · exact ih.trans (swap_perm _ _ _)
      · exact List.Perm.refl _

theorem siftDown_perm {fuel : Nat} {l : List α} {pos : Nat} : (siftDown le fuel l pos).1.Perm l := by
  induction fuel generalizing l pos with
  | zero => exact List.Perm.refl _
  | succ n ih =>
    unfold siftDown
    split
    · exact ih.trans (swap_perm _ _ _)
    · exact List.Perm.refl _

theorem push_perm (l : List α) (x : α) : (push le l x).Perm (x :: l) :=
  siftUp_perm.trans (List.perm_append_comm (l₁ := l) (l₂ := [x]))

theorem pop_perm {l : List α} {x : α} {q : List α} (h : pop le l = some (x, q)) : l.Perm (x :: q) := by
  unfold pop at h
  split at h
  · cases h
  · rename_i z hz
    have hl : l = l.dropLast ++ [z] := by
      have hne : l ≠ [] := by rintro rfl; cases hz
      rw [List.getLast?_eq_getLast_of_ne_nil hne] at hz
      cases hz
      exact (List.dropLast_append_getLast hne).symm
    split at h
    · rename_i hd
      cases h
      rw [hd] at hl
      rw [hl]
      exact List.Perm.refl _
    · rename_i y r hd
      simp only [Option.some.injEq, Prod.mk.injEq] at h
      obtain ⟨rfl, rfl⟩ := h
      rw [hd] at hl
      rw [hl]
      refine List.Perm.trans ?_ ((siftUp_perm.trans siftDown_perm).symm.cons y)
      exact (List.perm_append_comm (l₁ := y :: r) (l₂ := [z])).trans (List.Perm.swap _ _ _)

theorem pop_none {l : List α} : pop le l = none ↔ l = [] := by
  constructor
  · intro h
    unfold pop at h
    split at h
    · rename_i hz
      exact List.getLast?_eq_none_iff.mp hz
    · split at h <;> cases h
  · rintro rfl; rfl

/-! ## Order -/

/-- No element is lower than its parent. -/
def Heaped (le : α → α → Bool) (l : List α) : Prop :=
  ∀ (i : Nat) (a b : α), 0 < i → l[i]? = some a → l[(i - 1) / 2]? = some b → le b a = true

/-- Heaped besides `p`, that may have to move up. -/
def UpTo (le : α → α → Bool) (l : List α) (p : Nat) : Prop :=
  (∀ (i : Nat) (a b : α), 0 < i → i ≠ p → l[i]? = some a → l[(i - 1) / 2]? = some b → le b a = true) ∧
  ∀ (i : Nat) (a b : α), 0 < p → 0 < i → (i - 1) / 2 = p → l[i]? = some a → l[(p - 1) / 2]? = some b →
    le b a = true

/-- Heaped besides `p` and its children. -/
def Hole (le : α → α → Bool) (l : List α) (p : Nat) : Prop :=
  (∀ (i : Nat) (a b : α), 0 < i → i ≠ p → (i - 1) / 2 ≠ p → l[i]? = some a → l[(i - 1) / 2]? = some b →
    le b a = true) ∧
  ∀ (i : Nat) (a b : α), 0 < p → 0 < i → (i - 1) / 2 = p → l[i]? = some a → l[(p - 1) / 2]? = some b →
    le b a = true

/-- A total preorder on the elements of `P`. -/
structure PreOn (le : α → α → Bool) (P : α → Prop) : Prop where
  total : ∀ a b, P a → P b → le a b = true ∨ le b a = true
  trans : ∀ a b c, P a → P b → P c → le a b = true → le b c = true → le a c = true

variable {P : α → Prop}

theorem siftUp_heaped (hle : PreOn le P) {fuel : Nat} {l : List α} {p : Nat} (hf : p < fuel)
    (hP : ∀ a ∈ l, P a) (hpl : p < l.length) (h : UpTo le l p) : Heaped le (siftUp le fuel l p) := by
  induction fuel generalizing l p with
  | zero => omega
  | succ n ih =>
    unfold siftUp
    split
    · rename_i hp
      subst hp
      intro i a b hi ha hb
      exact h.1 i a b hi (by omega) ha hb
    · rename_i hp
      have hq : (p - 1) / 2 < p := by omega
      have he : l[p]? = some l[p] := List.getElem?_eq_getElem hpl
      have hpa : l[(p - 1) / 2]? = some (l[(p - 1) / 2]'(by omega)) :=
        List.getElem?_eq_getElem (by omega)
      generalize l[p] = e at he
      generalize l[(p - 1) / 2]'(by omega) = pv at hpa
      rw [he, hpa]
      simp only
      have hPe : P e := hP e (List.mem_of_getElem? he)
      have hPp : P pv := hP pv (List.mem_of_getElem? hpa)
      split
      · rename_i hlep
        intro i a b hi ha hb
        by_cases hip : i = p
        · subst hip
          rw [he] at ha; rw [hpa] at hb
          cases ha; cases hb
          exact hlep
        · exact h.1 i a b hi hip ha hb
      · rename_i hlep
        have hep : le e pv = true := (hle.total e pv hPe hPp).resolve_right hlep
        refine ih (by omega) (fun a ha => hP a ((swap_perm _ _ _).mem_iff.mp ha))
          (by rw [(swap_perm _ _ _).length_eq]; omega) ?_
        have hsw := swap_getElem? he hpa
        constructor
        · intro i a b hi hiq ha hb
          rw [hsw] at ha hb
          rw [if_neg hiq] at ha
          by_cases hip : i = p
          · subst hip
            rw [if_pos rfl] at ha hb
            cases ha; cases hb
            exact hep
          · rw [if_neg hip] at ha
            by_cases h1 : (i - 1) / 2 = (p - 1) / 2
            · rw [if_pos h1] at hb
              cases hb
              have := h.1 i a pv hi hip ha (by rw [h1]; exact hpa)
              exact hle.trans _ _ _ hPe hPp (hP a (List.mem_of_getElem? ha)) hep this
            · rw [if_neg h1] at hb
              by_cases h2 : (i - 1) / 2 = p
              · rw [if_pos h2] at hb
                cases hb
                exact h.2 i a pv (by omega) hi h2 ha hpa
              · rw [if_neg h2] at hb
                exact h.1 i a b hi hip ha hb
        · intro i a b hq0 hi hiq ha hb
          have hgp : l[((p - 1) / 2 - 1) / 2]? = some b := by
            rw [hsw, if_neg (by omega), if_neg (by omega)] at hb
            exact hb
          have hgpp : le b pv = true := h.1 _ pv b hq0 (by omega) hpa hgp
          rw [hsw, if_neg (by omega)] at ha
          by_cases hip : i = p
          · rw [if_pos hip] at ha
            cases ha
            exact hgpp
          · rw [if_neg hip] at ha
            have := h.1 i a pv hi hip ha (by rw [hiq]; exact hpa)
            exact hle.trans _ _ _ (hP b (List.mem_of_getElem? hgp)) hPp (hP a (List.mem_of_getElem? ha))
              hgpp this

theorem lowerChild_some {l : List α} {p c : Nat} (hle : PreOn le P) (hP : ∀ a ∈ l, P a)
    (h : lowerChild le l p = some c) :
    (c = 2 * p + 1 ∨ c = 2 * p + 2) ∧ c < l.length ∧
    ∀ (i : Nat) (a b : α), (i = 2 * p + 1 ∨ i = 2 * p + 2) → l[i]? = some a → l[c]? = some b →
      le b a = true := by
  have hrefl : ∀ a, P a → le a a = true := fun a ha => (hle.total a a ha ha).elim id id
  unfold lowerChild at h
  split at h
  · rename_i a b ha hb
    have h1 := (List.getElem?_eq_some_iff.mp ha).1
    have h2 := (List.getElem?_eq_some_iff.mp hb).1
    have hPa := hP a (List.mem_of_getElem? ha)
    have hPb := hP b (List.mem_of_getElem? hb)
    cases h
    split
    · rename_i hba
      refine ⟨Or.inr rfl, h2, ?_⟩
      intro i x y hi hx hy
      rw [hb] at hy
      cases hy
      rcases hi with rfl | rfl
      · rw [ha] at hx; cases hx; exact hba
      · rw [hb] at hx; cases hx; exact hrefl _ hPb
    · rename_i hba
      refine ⟨Or.inl rfl, h1, ?_⟩
      intro i x y hi hx hy
      rw [ha] at hy
      cases hy
      rcases hi with rfl | rfl
      · rw [ha] at hx; cases hx; exact hrefl _ hPa
      · rw [hb] at hx; cases hx; exact (hle.total _ _ hPa hPb).resolve_right hba
  · rename_i a ha hb
    have h1 := (List.getElem?_eq_some_iff.mp ha).1
    cases h
    refine ⟨Or.inl rfl, h1, ?_⟩
    intro i x y hi hx hy
    rw [ha] at hy
    cases hy
    rcases hi with rfl | rfl
    · rw [ha] at hx; cases hx; exact hrefl _ (hP a (List.mem_of_getElem? ha))
    · rw [hb] at hx; cases hx
  · cases h

theorem lowerChild_none {l : List α} {p : Nat} (h : lowerChild le l p = none) :
    l.length ≤ 2 * p + 1 := by
  unfold lowerChild at h
  split at h
  · cases h
  · cases h
  · rename_i hn
    exact List.getElem?_eq_none_iff.mp hn

theorem siftDown_upTo (hle : PreOn le P) {fuel : Nat} {l : List α} {p : Nat}
    (hf : l.length ≤ p + fuel) (hP : ∀ a ∈ l, P a) (hpl : p < l.length) (h : Hole le l p) :
    UpTo le (siftDown le fuel l p).1 (siftDown le fuel l p).2 ∧
      (siftDown le fuel l p).2 < l.length := by
  induction fuel generalizing l p with
  | zero => omega
  | succ n ih =>
    unfold siftDown
    cases hc : lowerChild le l p with
    | none =>
      simp only
      have hlen := lowerChild_none hc
      refine ⟨⟨?_, ?_⟩, hpl⟩
      · intro i a b hi hip ha hb
        have := (List.getElem?_eq_some_iff.mp ha).1
        exact h.1 i a b hi hip (by omega) ha hb
      · intro i a b hp hi hip ha hb
        exact h.2 i a b hp hi hip ha hb
    | some c =>
      simp only
      obtain ⟨hcc, hcl, hlow⟩ := lowerChild_some hle hP hc
      have hlen : (swap l p c).length = l.length := (swap_perm _ _ _).length_eq
      rw [← hlen]
      refine ih (by rw [hlen]; omega) (fun a ha => hP a ((swap_perm _ _ _).mem_iff.mp ha))
        (by rw [hlen]; exact hcl) ?_
      have he : l[p]? = some l[p] := List.getElem?_eq_getElem hpl
      have hcv : l[c]? = some l[c] := List.getElem?_eq_getElem hcl
      generalize l[p] = e at he
      generalize l[c] = cv at hcv
      have hsw := swap_getElem? he hcv
      have hpc : (c - 1) / 2 = p := by omega
      constructor
      · intro i a b hi hic hpi ha hb
        rw [hsw] at ha hb
        rw [if_neg hic] at ha
        rw [if_neg hpi] at hb
        by_cases hip : i = p
        · subst hip
          rw [if_pos rfl] at ha
          rw [if_neg (by omega)] at hb
          cases ha
          exact h.2 c _ b hi (by omega) hpc hcv hb
        · rw [if_neg hip] at ha
          by_cases h1 : (i - 1) / 2 = p
          · rw [if_pos h1] at hb
            cases hb
            exact hlow i a cv (by omega) ha hcv
          · rw [if_neg h1] at hb
            exact h.1 i a b hi hip h1 ha hb
      · intro i a b hc0 hi hic ha hb
        rw [hpc, hsw, if_neg (by omega), if_pos rfl] at hb
        cases hb
        rw [hsw, if_neg (by omega), if_neg (by omega)] at ha
        exact h.1 i a cv hi (by omega) (by omega) ha (by rw [hic]; exact hcv)

/-- The first element is the lowest one. -/
theorem Heaped.root (hle : PreOn le P) {l : List α} (hP : ∀ a ∈ l, P a) (h : Heaped le l) {x : α}
    (hx : l[0]? = some x) (i : Nat) : ∀ a, l[i]? = some a → le x a = true := by
  induction i using Nat.strong_induction_on with
  | _ i ih =>
    intro a ha
    have hPx := hP x (List.mem_of_getElem? hx)
    have hPa := hP a (List.mem_of_getElem? ha)
    by_cases hi : i = 0
    · subst hi
      rw [hx] at ha
      cases ha
      exact (hle.total x x hPx hPx).elim id id
    · have hil := (List.getElem?_eq_some_iff.mp ha).1
      have hb : l[(i - 1) / 2]? = some (l[(i - 1) / 2]'(by omega)) := List.getElem?_eq_getElem (by omega)
      have h1 := ih ((i - 1) / 2) (by omega) _ hb
      exact hle.trans _ _ _ hPx (hP _ (List.mem_of_getElem? hb)) hPa h1
        (h i a _ (by omega) ha hb)

theorem push_heaped (hle : PreOn le P) {l : List α} (hP : ∀ a ∈ l, P a) {x : α} (hx : P x)
    (h : Heaped le l) : Heaped le (push le l x) := by
  refine siftUp_heaped hle (by omega) (fun a ha => ?_) (by simp) ⟨?_, ?_⟩
  · rcases List.mem_append.mp ha with ha | ha
    · exact hP a ha
    · rw [List.mem_singleton] at ha; subst ha; exact hx
  · intro i a b hi hil ha hb
    have hlt := (List.getElem?_eq_some_iff.mp ha).1
    rw [List.length_append] at hlt
    simp only [List.length_cons, List.length_nil] at hlt
    rw [List.getElem?_append_left (by omega)] at ha hb
    exact h i a b hi ha hb
  · intro i a b hp hi hil ha hb
    have hlt := (List.getElem?_eq_some_iff.mp ha).1
    rw [List.length_append] at hlt
    simp only [List.length_cons, List.length_nil] at hlt
    omega

theorem pop_heaped (hle : PreOn le P) {l : List α} (hP : ∀ a ∈ l, P a) (h : Heaped le l) {x : α}
    {q : List α} (hp : pop le l = some (x, q)) : Heaped le q ∧ ∀ a ∈ q, le x a = true := by
  have hperm := pop_perm hp
  unfold pop at hp
  split at hp
  · cases hp
  · rename_i z hz
    have hl : l = l.dropLast ++ [z] := by
      have hne : l ≠ [] := by rintro rfl; cases hz
      rw [List.getLast?_eq_getLast_of_ne_nil hne] at hz
      cases hz
      exact (List.dropLast_append_getLast hne).symm
    split at hp
    · cases hp
      refine ⟨?_, fun a ha => by cases ha⟩
      intro i a b _ ha
      simp at ha
    · rename_i y r hd
      simp only [Option.some.injEq, Prod.mk.injEq] at hp
      obtain ⟨rfl, rfl⟩ := hp
      rw [hd] at hl
      have hPz : ∀ a ∈ z :: r, P a := by
        intro a ha
        refine hP a ?_
        rw [hl]
        rcases List.mem_cons.mp ha with rfl | ha
        · simp
        · simp [ha]
      have hroot : l[0]? = some y := by rw [hl]; rfl
      constructor
      · have hhole : Hole le (z :: r) 0 := by
          constructor
          · intro i a b hi hi0 hpi ha hb
            have hlt := (List.getElem?_eq_some_iff.mp ha).1
            simp only [List.length_cons] at hlt
            refine h i a b hi ?_ ?_
            · rw [hl, List.getElem?_append_left (by simp only [List.length_cons]; omega)]
              obtain ⟨k, rfl⟩ : ∃ k, i = k + 1 := ⟨i - 1, by omega⟩
              simpa using ha
            · rw [hl, List.getElem?_append_left (by simp only [List.length_cons]; omega)]
              obtain ⟨k, hk⟩ : ∃ k, (i - 1) / 2 = k + 1 := ⟨(i - 1) / 2 - 1, by omega⟩
              rw [hk] at hb ⊢
              simpa using hb
          · intro i a b hp; omega
        have hd := siftDown_upTo hle (fuel := r.length + 1) (by simp) hPz (by simp) hhole
        have hlen : (siftDown le (r.length + 1) (z :: r) 0).1.length = (z :: r).length :=
          siftDown_perm.length_eq
        refine siftUp_heaped hle (by simpa using hd.2) (fun a ha => hPz a (siftDown_perm.mem_iff.mp ha))
          (by rw [hlen]; exact hd.2) hd.1
      · intro a ha
        have : a ∈ l := hperm.mem_iff.mpr (List.mem_cons_of_mem _ ha)
        obtain ⟨i, hi⟩ := List.mem_iff_getElem?.mp this
        exact h.root hle hP hroot i a hi

end
end BinHeap

/-- The queue of the router, `src/routing/dijkstra.rs:27`, given the comparison of costs. -/
def binHeap {K : Type} (cmp : K → K → Ordering) : Heap K where
  push := BinHeap.push (cnLe cmp)
  pop := BinHeap.pop (cnLe cmp)
  push_perm := fun q c => BinHeap.push_perm q c
  pop_perm := fun _ _ _ h => BinHeap.pop_perm h
  pop_none := fun _ => BinHeap.pop_none

/-- The queue of the router as it is: costs are compared approximately. -/
def codeHeap : Heap ℚ := binHeap Approx.cmp

theorem cnLe_iff {K : Type} [LinearOrder K] {cmp : K → K → Ordering} {a b : CN K}
    (h : cmp a.cost b.cost = compare a.cost b.cost) :
    cnLe cmp a b = true ↔ a.cost < b.cost ∨ (a.cost = b.cost ∧ (a.idx < b.idx ∨
      (a.idx = b.idx ∧ dirValue a.dir ≤ dirValue b.dir))) := by
  unfold cnLe cnCmp
  rw [h]
  rcases lt_trichotomy a.cost b.cost with h | h | h
  · rw [compare_lt_iff_lt.mpr h]; simp [Ordering.then, h]
  · rw [compare_eq_iff_eq.mpr h]
    simp only [Ordering.then, h, lt_irrefl, true_and, false_or]
    rcases lt_trichotomy a.idx b.idx with h | h | h
    · rw [compare_lt_iff_lt.mpr h]; simp [h]
    · rw [compare_eq_iff_eq.mpr h]
      cases a.dir <;> cases b.dir <;> simp [dirValue, h] <;> decide
    · rw [compare_gt_iff_gt.mpr h]
      simp [Nat.lt_asymm h, Nat.ne_of_gt h]
  · rw [compare_gt_iff_gt.mpr h]
    simp [Ordering.then, not_lt.mpr (le_of_lt h), ne_of_gt h]

/-- If costs are compared exactly on `V`, a cheapest element is popped. -/
theorem binHeap_min {K : Type} [LinearOrder K] {cmp : K → K → Ordering} {V : K → Prop}
    (hcmp : ∀ a b, V a → V b → cmp a b = compare a b) : (binHeap cmp).Min V := by
  have hpre : BinHeap.PreOn (cnLe cmp) (fun x : CN K => V x.cost) := by
    constructor
    · intro a b ha hb
      rw [cnLe_iff (hcmp _ _ ha hb), cnLe_iff (hcmp _ _ hb ha)]
      rcases lt_trichotomy a.cost b.cost with h | h | h
      · exact Or.inl (Or.inl h)
      · rcases lt_trichotomy a.idx b.idx with h' | h' | h'
        · exact Or.inl (Or.inr ⟨h, Or.inl h'⟩)
        · rcases le_total (dirValue a.dir) (dirValue b.dir) with h'' | h''
          · exact Or.inl (Or.inr ⟨h, Or.inr ⟨h', h''⟩⟩)
          · exact Or.inr (Or.inr ⟨h.symm, Or.inr ⟨h'.symm, h''⟩⟩)
        · exact Or.inr (Or.inr ⟨h.symm, Or.inl h'⟩)
      · exact Or.inr (Or.inl h)
    · intro a b c ha hb hc
      rw [cnLe_iff (hcmp _ _ ha hb), cnLe_iff (hcmp _ _ hb hc), cnLe_iff (hcmp _ _ ha hc)]
      rintro (h1 | ⟨h1, h2⟩) (h3 | ⟨h3, h4⟩)
      · exact Or.inl (lt_trans h1 h3)
      · exact Or.inl (h3 ▸ h1)
      · exact Or.inl (h1 ▸ h3)
      · refine Or.inr ⟨h1.trans h3, ?_⟩
        omega
  refine ⟨fun q => BinHeap.Heaped (cnLe cmp) q ∧ ∀ x ∈ q, V x.cost, ⟨?_, ?_⟩, ?_, ?_⟩
  · intro i a b _ ha; simp at ha
  · intro x hx; cases hx
  · rintro q c ⟨h1, h2⟩ hc
    refine ⟨BinHeap.push_heaped hpre h2 hc h1, fun x hx => ?_⟩
    rcases List.mem_cons.mp ((BinHeap.push_perm q c).mem_iff.mp hx) with rfl | hx
    · exact hc
    · exact h2 x hx
  · rintro q c q' ⟨h1, h2⟩ hp
    obtain ⟨h3, h4⟩ := BinHeap.pop_heaped hpre h2 h1 hp
    have hmem : ∀ x ∈ q', x ∈ q := fun x hx => (BinHeap.pop_perm hp).mem_iff.mpr (List.mem_cons_of_mem _ hx)
    have hc : c ∈ q := (BinHeap.pop_perm hp).mem_iff.mpr List.mem_cons_self
    refine ⟨⟨h3, fun x hx => h2 x (hmem x hx)⟩, fun x hx => ?_⟩
    rcases (cnLe_iff (hcmp _ _ (h2 c hc) (h2 x (hmem x hx)))).mp (h4 x hx) with h | h
    · exact le_of_lt h
    · exact le_of_eq h.1

/-- The router's queue pops a cheapest element if all costs are multiples of a step that is not too
small for the approximate comparison. -/
theorem codeHeap_min {u : ℚ} (hu : 3 / 2000000 ≤ u) : codeHeap.Min (fun x => ∃ i : ℤ, x = i * u) := by
  refine binHeap_min ?_
  rintro a b ⟨i, rfl⟩ ⟨j, rfl⟩
  rw [Approx.C25_grid_partial u hu]
  have hu0 : 0 < u := by linarith
  rcases lt_trichotomy i j with h | h | h
  · rw [compare_lt_iff_lt.mpr h]
    have : (i : ℚ) < j := by exact_mod_cast h
    exact (compare_lt_iff_lt.mpr (mul_lt_mul_of_pos_right this hu0)).symm
  · subst h; simp
  · rw [compare_gt_iff_gt.mpr h]
    have : (j : ℚ) < i := by exact_mod_cast h
    exact (compare_gt_iff_gt.mpr (mul_lt_mul_of_pos_right this hu0)).symm

end Verif.Dij
