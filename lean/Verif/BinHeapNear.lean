import Verif.BinHeapLemmas

/-!
# The binary heap with an inexact comparison

If the comparison is wrong by at most `δ`, every push makes the order of the heap worse by at most `δ`
and every pop by at most `2 δ`.
-/

namespace Verif.Dij

namespace BinHeap

/-- `i` is above `j` in the heap. -/
inductive Anc : Nat → Nat → Prop
  | parent {j : Nat} : 0 < j → Anc ((j - 1) / 2) j
  | up {i j : Nat} : 0 < j → Anc i ((j - 1) / 2) → Anc i j

theorem Anc.lt {i j : Nat} (h : Anc i j) : i < j := by
  induction h with
  | parent h => omega
  | up h _ ih => omega

theorem Anc.trans {i j k : Nat} (h : Anc i j) (h' : Anc j k) : Anc i k := by
  induction h' with
  | parent h0 => exact .up h0 h
  | up h0 _ ih => exact .up h0 (ih h)

theorem anc_iff {i j : Nat} : Anc i j ↔ 0 < j ∧ (i = (j - 1) / 2 ∨ Anc i ((j - 1) / 2)) := by
  constructor
  · intro h
    cases h with
    | parent h => exact ⟨h, Or.inl rfl⟩
    | up h h' => exact ⟨h, Or.inr h'⟩
  · rintro ⟨h, rfl | h'⟩
    · exact .parent h
    · exact .up h h'

/-- Below a node: one of the two children or below one of them. -/
theorem Anc.child {i j : Nat} (h : Anc i j) : ∃ c, (c = 2 * i + 1 ∨ c = 2 * i + 2) ∧ (j = c ∨ Anc c j) := by
  induction h with
  | @parent j h => exact ⟨j, by omega, Or.inl rfl⟩
  | @up i j h h' ih =>
    obtain ⟨c, hc, hj⟩ := ih
    refine ⟨c, hc, Or.inr ?_⟩
    rcases hj with hj | hj
    · subst hj; exact .parent h
    · exact .up h hj

theorem anc_zero (j : Nat) (h : 0 < j) : Anc 0 j := by
  induction j using Nat.strong_induction_on with
  | _ j ih =>
    by_cases h1 : (j - 1) / 2 = 0
    · rw [anc_iff]; exact ⟨h, Or.inl h1.symm⟩
    · exact .up h (ih _ (by omega) (by omega))

section
variable {α : Type} {le : α → α → Bool} {cost : α → ℚ} {δ : ℚ}

/-- The comparison is wrong by at most `δ`. -/
structure LeNear (le : α → α → Bool) (cost : α → ℚ) (δ : ℚ) : Prop where
  nonneg : 0 ≤ δ
  yes : ∀ a b, le a b = true → cost a ≤ cost b + δ
  no : ∀ a b, le a b = false → cost b ≤ cost a + δ

/-- Elements cost at most `D` more than those below. -/
def Slack (cost : α → ℚ) (D : ℚ) (l : List α) : Prop :=
  ∀ (i j : Nat) (a b : α), Anc i j → l[i]? = some a → l[j]? = some b → cost a ≤ cost b + D

/-- Besides `p`, elements cost at most `D` more than those below; `p` may have to move up. -/
def SlackUp (cost : α → ℚ) (δ D : ℚ) (l : List α) (p : Nat) : Prop :=
  (∀ (i j : Nat) (a b : α), Anc i j → i ≠ p → j ≠ p → l[i]? = some a → l[j]? = some b →
    cost a ≤ cost b + D) ∧
  ∀ (j : Nat) (a b : α), Anc p j → l[p]? = some a → l[j]? = some b → cost a ≤ cost b + (D + δ)

/-- Besides `p`, elements cost at most `D` more than those below; those above `p` at most `D + δ`. -/
def SlackDown (cost : α → ℚ) (δ D : ℚ) (l : List α) (p : Nat) : Prop :=
  ∀ (i j : Nat) (a b : α), Anc i j → i ≠ p → j ≠ p → l[i]? = some a → l[j]? = some b →
    (Anc i p → cost a ≤ cost b + (D + δ)) ∧ (¬ Anc i p → cost a ≤ cost b + D)

theorem siftUp_slack (hle : LeNear le cost δ) {D : ℚ} (hD : 0 ≤ D) {fuel : Nat} {l : List α} {p : Nat}
    (hf : p < fuel) (hpl : p < l.length) (h : SlackUp cost δ D l p) :
    Slack cost (D + δ) (siftUp le fuel l p) := by
  have hδ := hle.nonneg
  induction fuel generalizing l p with
  | zero => omega
  | succ n ih =>
    unfold siftUp
    split
    · rename_i hp
      subst hp
      intro i j a b hij ha hb
      have hj : j ≠ 0 := by have := hij.lt; omega
      by_cases hi : i = 0
      · subst hi; exact h.2 j a b hij ha hb
      · have := h.1 i j a b hij hi hj ha hb
        linarith
    · rename_i hp
      have he : l[p]? = some l[p] := List.getElem?_eq_getElem hpl
      have hpa : l[(p - 1) / 2]? = some (l[(p - 1) / 2]'(by omega)) :=
        List.getElem?_eq_getElem (by omega)
      generalize l[p] = e at he
      generalize l[(p - 1) / 2]'(by omega) = pv at hpa
      rw [he, hpa]
      simp only
      have hpar : Anc ((p - 1) / 2) p := .parent (by omega)
      split
      · rename_i hlep
        have hlep := hle.yes _ _ hlep
        intro i j a b hij ha hb
        by_cases hi : i = p
        · subst hi; exact h.2 j a b hij ha hb
        by_cases hj : j = p
        · subst hj
          rw [he] at hb; cases hb
          rcases (anc_iff.mp hij).2 with rfl | h'
          · rw [hpa] at ha; cases ha; linarith
          · have := h.1 i _ a pv h' hi (by omega) ha hpa
            linarith
        · have := h.1 i j a b hij hi hj ha hb
          linarith
      · rename_i hlep
        have hlep := hle.no _ _ (Bool.eq_false_iff.mpr hlep)
        refine ih (by omega) (by rw [(swap_perm _ _ _).length_eq]; omega) ?_
        have hsw := swap_getElem? he hpa
        have hq : (p - 1) / 2 ≠ p := by omega
        constructor
        · intro i j a b hij hi hj ha hb
          rw [hsw, if_neg hi] at ha
          rw [hsw, if_neg hj] at hb
          by_cases hip : i = p
          · subst hip
            rw [if_pos rfl] at ha; cases ha
            have hjp : j ≠ i := by have := hij.lt; omega
            rw [if_neg hjp] at hb
            exact h.1 _ j _ b (hpar.trans hij) hq hjp hpa hb
          · rw [if_neg hip] at ha
            by_cases hjp : j = p
            · subst hjp
              rw [if_pos rfl] at hb; cases hb
              exact h.1 i _ a _ ((anc_iff.mp hij).2.resolve_left hi) hip hq ha hpa
            · rw [if_neg hjp] at hb
              exact h.1 i j a b hij hip hjp ha hb
        · intro j a b hij ha hb
          rw [hsw, if_pos rfl] at ha; cases ha
          have hjq : j ≠ (p - 1) / 2 := by have := hij.lt; omega
          rw [hsw, if_neg hjq] at hb
          by_cases hjp : j = p
          · rw [if_pos hjp] at hb; cases hb
            linarith
          · rw [if_neg hjp] at hb
            have := h.1 _ j _ b hij hq hjp hpa hb
            linarith

theorem lowerChild_near (hle : LeNear le cost δ) {l : List α} {p c : Nat}
    (h : lowerChild le l p = some c) :
    (c = 2 * p + 1 ∨ c = 2 * p + 2) ∧ c < l.length ∧
    ∀ (i : Nat) (a b : α), (i = 2 * p + 1 ∨ i = 2 * p + 2) → l[i]? = some a → l[c]? = some b →
      cost b ≤ cost a + δ := by
  have hδ := hle.nonneg
  unfold lowerChild at h
  split at h
  · rename_i a b ha hb
    have h1 := (List.getElem?_eq_some_iff.mp ha).1
    have h2 := (List.getElem?_eq_some_iff.mp hb).1
    cases h
    split
    · rename_i hba
      refine ⟨Or.inr rfl, h2, ?_⟩
      intro i x y hi hx hy
      rw [hb] at hy
      cases hy
      rcases hi with rfl | rfl
      · rw [ha] at hx; cases hx; exact hle.yes _ _ hba
      · rw [hb] at hx; cases hx; linarith
    · rename_i hba
      refine ⟨Or.inl rfl, h1, ?_⟩
      intro i x y hi hx hy
      rw [ha] at hy
      cases hy
      rcases hi with rfl | rfl
      · rw [ha] at hx; cases hx; linarith
      · rw [hb] at hx; cases hx; exact hle.no _ _ (Bool.eq_false_iff.mpr hba)
  · rename_i a ha hb
    have h1 := (List.getElem?_eq_some_iff.mp ha).1
    cases h
    refine ⟨Or.inl rfl, h1, ?_⟩
    intro i x y hi hx hy
    rw [ha] at hy
    cases hy
    rcases hi with rfl | rfl
    · rw [ha] at hx; cases hx; linarith
    · rw [hb] at hx; cases hx
  · cases h

theorem siftDown_slack (hle : LeNear le cost δ) {D : ℚ} (hD : 0 ≤ D) {fuel : Nat} {l : List α} {p : Nat}
    (hf : l.length ≤ p + fuel) (hpl : p < l.length) (h : SlackDown cost δ D l p) :
    SlackUp cost δ (D + δ) (siftDown le fuel l p).1 (siftDown le fuel l p).2 ∧
      (siftDown le fuel l p).2 < l.length := by
  have hδ := hle.nonneg
  induction fuel generalizing l p with
  | zero => omega
  | succ n ih =>
    unfold siftDown
    cases hc : lowerChild le l p with
    | none =>
      simp only
      have hlen := lowerChild_none hc
      refine ⟨⟨?_, ?_⟩, hpl⟩
      · intro i j a b hij hi hj ha hb
        obtain ⟨h1, h2⟩ := h i j a b hij hi hj ha hb
        by_cases hip : Anc i p
        · exact h1 hip
        · have := h2 hip
          linarith
      · intro j a b hij ha hb
        have := (List.getElem?_eq_some_iff.mp hb).1
        obtain ⟨c, hc, hj⟩ := hij.child
        have : c ≤ j := by
          rcases hj with rfl | hj
          · exact Nat.le_refl _
          · exact Nat.le_of_lt hj.lt
        omega
    | some c =>
      simp only
      obtain ⟨hcc, hcl, hlow⟩ := lowerChild_near hle hc
      have hlen : (swap l p c).length = l.length := (swap_perm _ _ _).length_eq
      rw [← hlen]
      refine ih (by rw [hlen]; omega) (by rw [hlen]; exact hcl) ?_
      have he : l[p]? = some l[p] := List.getElem?_eq_getElem hpl
      have hcv : l[c]? = some l[c] := List.getElem?_eq_getElem hcl
      generalize l[p] = e at he
      generalize l[c] = cv at hcv
      have hsw := swap_getElem? he hcv
      have hpc : Anc p c := anc_iff.mpr ⟨by omega, Or.inl (by omega)⟩
      have hpar : (c - 1) / 2 = p := by omega
      have hanc : ∀ i, Anc i c ↔ i = p ∨ Anc i p := by
        intro i
        rw [anc_iff, hpar]
        constructor
        · exact fun h => h.2
        · exact fun h => ⟨by omega, h⟩
      have hcp : ∀ x, (x = 2 * p + 1 ∨ x = 2 * p + 2) → ¬ Anc x p := by
        intro x hx hcon
        have := hcon.lt
        omega
      intro i j a b hij hi hj ha hb
      rw [hsw, if_neg hi] at ha
      rw [hsw, if_neg hj] at hb
      by_cases hip : i = p
      · subst hip
        rw [if_pos rfl] at ha; cases ha
        have hjp : j ≠ i := by have := hij.lt; omega
        rw [if_neg hjp] at hb
        refine ⟨fun _ => ?_, fun hcon => absurd hpc hcon⟩
        obtain ⟨x, hx, hjx⟩ := hij.child
        rcases hjx with rfl | hjx
        · have := hlow j b _ hx hb hcv
          linarith
        · have hxl : x < l.length := by
            have := hjx.lt
            have := (List.getElem?_eq_some_iff.mp hb).1
            omega
          have hxv : l[x]? = some l[x] := List.getElem?_eq_getElem hxl
          have h1 := hlow x _ _ hx hxv hcv
          have h2 := (h x j _ b hjx (by omega) hjp hxv hb).2 (hcp x hx)
          linarith
      · rw [if_neg hip] at ha
        by_cases hjp : j = p
        · subst hjp
          rw [if_pos rfl] at hb; cases hb
          have h1 := h i c a _ (hij.trans hpc) hip (by omega) ha hcv
          exact ⟨fun _ => h1.1 hij, fun hcon => absurd (hij.trans hpc) hcon⟩
        · rw [if_neg hjp] at hb
          have h1 := h i j a b hij hip hjp ha hb
          refine ⟨fun hic => h1.1 (((hanc i).mp hic).resolve_left hip), fun hic => h1.2 ?_⟩
          exact fun hcon => hic ((hanc i).mpr (Or.inr hcon))

theorem push_slack (hle : LeNear le cost δ) {D : ℚ} (hD : 0 ≤ D) {l : List α} {x : α}
    (h : Slack cost D l) : Slack cost (D + δ) (push le l x) := by
  refine siftUp_slack hle hD (by omega) (by simp) ⟨?_, ?_⟩
  · intro i j a b hij hi hj ha hb
    have hlt := (List.getElem?_eq_some_iff.mp hb).1
    rw [List.length_append] at hlt
    simp only [List.length_cons, List.length_nil] at hlt
    have := hij.lt
    rw [List.getElem?_append_left (by omega)] at ha hb
    exact h i j a b hij ha hb
  · intro j a b hij ha hb
    have hlt := (List.getElem?_eq_some_iff.mp hb).1
    rw [List.length_append] at hlt
    simp only [List.length_cons, List.length_nil] at hlt
    have := hij.lt
    omega

theorem pop_slack (hle : LeNear le cost δ) {D : ℚ} (hD : 0 ≤ D) {l : List α} (h : Slack cost D l) {x : α}
    {q : List α} (hp : pop le l = some (x, q)) :
    Slack cost (D + δ + δ) q ∧ ∀ a ∈ q, cost x ≤ cost a + D := by
  have hδ := hle.nonneg
  have hperm := pop_perm hp
  unfold pop at hp
  split at hp
  · cases hp
  · rename_i z hz
    have hl : l = l.dropLast ++ [z] := by
      have hne : l ≠ [] := by rintro rfl; cases hz
      rw [List.getLast?_eq_getLast_of_ne_nil hne] at hz
      cases hz
      exact (List.dropLast_append_getLast hne).symm
    split at hp
    · cases hp
      refine ⟨?_, fun a ha => by cases ha⟩
      intro i j a b _ ha
      simp at ha
    · rename_i y r hd
      simp only [Option.some.injEq, Prod.mk.injEq] at hp
      obtain ⟨rfl, rfl⟩ := hp
      rw [hd] at hl
      have hroot : l[0]? = some y := by rw [hl]; rfl
      constructor
      · have hhole : SlackDown cost δ D (z :: r) 0 := by
          intro i j a b hij hi hj ha hb
          have hlt := (List.getElem?_eq_some_iff.mp hb).1
          have hlt' := hij.lt
          simp only [List.length_cons] at hlt
          have : cost a ≤ cost b + D := by
            refine h i j a b hij ?_ ?_
            · rw [hl, List.getElem?_append_left (by simp only [List.length_cons]; omega)]
              obtain ⟨k, rfl⟩ : ∃ k, i = k + 1 := ⟨i - 1, by omega⟩
              simpa using ha
            · rw [hl, List.getElem?_append_left (by simp only [List.length_cons]; omega)]
              obtain ⟨k, rfl⟩ : ∃ k, j = k + 1 := ⟨j - 1, by omega⟩
              simpa using hb
          exact ⟨fun _ => by linarith, fun _ => this⟩
        have hd := siftDown_slack hle hD (fuel := r.length + 1) (by simp) (by simp) hhole
        have hlen : (siftDown le (r.length + 1) (z :: r) 0).1.length = (z :: r).length :=
          siftDown_perm.length_eq
        exact siftUp_slack hle (by linarith) (by simpa using hd.2) (by rw [hlen]; exact hd.2) hd.1
      · intro a ha
        have : a ∈ l := hperm.mem_iff.mpr (List.mem_cons_of_mem _ ha)
        obtain ⟨i, hi⟩ := List.mem_iff_getElem?.mp this
        by_cases h0 : i = 0
        · subst h0
          rw [hroot] at hi; cases hi; linarith
        · exact h 0 i y a (anc_zero i (by omega)) hroot hi

end
end BinHeap

/-- Costs of popped elements: after pushing and popping for `n` times in total (a pop counts twice), an
element is popped that costs at most `n δ` more than any other one. -/
def Heap.Near (h : Heap ℚ) (δ : ℚ) : Prop :=
  ∃ ok : Nat → List (CN ℚ) → Prop, ok 0 [] ∧
    (∀ n q, ok n q → ok (n + 1) q) ∧
    (∀ n q x, ok n q → ok (n + 1) (h.push q x)) ∧
    ∀ n q x q', ok n q → h.pop q = some (x, q') → ok (n + 2) q' ∧ ∀ y ∈ q', x.cost ≤ y.cost + n * δ

theorem cnLe_near : BinHeap.LeNear (cnLe Approx.cmp) (fun x : CN ℚ => x.cost) (3 / 2000000) := by
  have hlt : ∀ a b : ℚ, Approx.cmp a b = .lt → a ≤ b := by
    intro a b h
    unfold Approx.cmp at h
    split at h
    · cases h
    · exact le_of_lt (compare_lt_iff_lt.mp h)
  have hgt : ∀ a b : ℚ, Approx.cmp a b = .gt → b ≤ a := by
    intro a b h
    unfold Approx.cmp at h
    split at h
    · cases h
    · exact le_of_lt (compare_gt_iff_gt.mp h)
  have heq : ∀ a b : ℚ, Approx.cmp a b = .eq → a ≤ b + 3 / 2000000 ∧ b ≤ a + 3 / 2000000 := by
    intro a b h
    unfold Approx.cmp at h
    split at h
    · rename_i he
      have := abs_lt.mp ((Approx.C24_eq_iff a b).mp he)
      constructor <;> linarith [this.1, this.2]
    · have := compare_eq_iff_eq.mp h
      constructor <;> linarith
  refine ⟨by norm_num, fun a b h => ?_, fun a b h => ?_⟩
  all_goals
    simp only [cnLe, cnCmp] at h
    cases hc : Approx.cmp a.cost b.cost with
    | lt => first | (have := hlt _ _ hc; linarith) | (rw [hc] at h; simp [Ordering.then] at h)
    | eq => have := heq _ _ hc; first | exact this.1 | exact this.2
    | gt => first | (have := hgt _ _ hc; linarith) | (rw [hc] at h; simp [Ordering.then] at h)

/-- The router's queue. -/
theorem codeHeap_near : codeHeap.Near (3 / 2000000) := by
  refine ⟨fun n q => BinHeap.Slack (fun x : CN ℚ => x.cost) (n * (3 / 2000000)) q, ?_, ?_, ?_, ?_⟩
  · intro i j a b _ ha
    simp at ha
  · intro n q h i j a b hij ha hb
    have := h i j a b hij ha hb
    push_cast
    linarith
  · intro n q x h
    have := BinHeap.push_slack cnLe_near (by positivity) (x := x) h
    push_cast
    rw [add_mul, one_mul]
    exact this
  · intro n q x q' h hp
    have := BinHeap.pop_slack cnLe_near (by positivity) h hp
    refine ⟨?_, this.2⟩
    push_cast
    convert this.1 using 1
    ring

end Verif.Dij
