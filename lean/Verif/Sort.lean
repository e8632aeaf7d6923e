import Mathlib.Data.List.Sort

/-!
# Stable sorting

std's `sort_by_key`/`sort_by` are stable sorts; `sort_unstable` sorts. The model uses a stable
insertion sort, which the kernel can evaluate. `stableSort_eq_mergeSort` shows that it computes the
same list as Lean's (stable) merge sort for every total preorder.
-/

namespace Verif

/-- Insert in front of the first element that is not smaller. -/
def insertSorted {α : Type} (le : α → α → Bool) (a : α) : List α → List α
  | [] => [a]
  | b :: l => if le a b then a :: b :: l else b :: insertSorted le a l

/-- Stable sort, used for std `sort_by_key`/`sort_unstable`
(`src/network/graph/building.rs:271,466-473,787,819-826`). -/
def stableSort {α : Type} (le : α → α → Bool) : List α → List α
  | [] => []
  | a :: l => insertSorted le a (stableSort le l)

variable {α : Type} {le : α → α → Bool}

theorem insertSorted_perm (a : α) (l : List α) : (insertSorted le a l).Perm (a :: l) := by
  induction l with
  | nil => exact .refl _
  | cons b l ih =>
    unfold insertSorted
    split
    · exact .refl _
    · exact (ih.cons b).trans (.swap a b l)

theorem stableSort_perm (l : List α) : (stableSort le l).Perm l := by
  induction l with
  | nil => exact .refl _
  | cons a l ih => exact (insertSorted_perm a _).trans (ih.cons a)

theorem mem_stableSort {l : List α} {x : α} : x ∈ stableSort le l ↔ x ∈ l :=
  (stableSort_perm l).mem_iff

theorem pairwise_insertSorted (htr : ∀ a b c, le a b = true → le b c = true → le a c = true)
    (htot : ∀ a b, (le a b || le b a) = true) (a : α) {l : List α}
    (h : l.Pairwise (fun a b => le a b = true)) :
    (insertSorted le a l).Pairwise (fun a b => le a b = true) := by
  induction l with
  | nil => simp [insertSorted]
  | cons b l ih =>
    rw [List.pairwise_cons] at h
    unfold insertSorted
    by_cases hab : le a b = true
    · rw [if_pos hab]
      refine List.pairwise_cons.mpr ⟨?_, List.pairwise_cons.mpr h⟩
      intro x hx
      rcases List.mem_cons.mp hx with rfl | hx
      · exact hab
      · exact htr _ _ _ hab (h.1 x hx)
    · rw [if_neg hab]
      refine List.pairwise_cons.mpr ⟨?_, ih h.2⟩
      intro x hx
      rcases List.mem_cons.mp ((insertSorted_perm a l).mem_iff.mp hx) with rfl | hx
      · have := htot x b
        simpa [hab] using this
      · exact h.1 x hx

theorem pairwise_stableSort (htr : ∀ a b c, le a b = true → le b c = true → le a c = true)
    (htot : ∀ a b, (le a b || le b a) = true) (l : List α) :
    (stableSort le l).Pairwise (fun a b => le a b = true) := by
  induction l with
  | nil => simp [stableSort]
  | cons a l ih => exact pairwise_insertSorted htr htot a ih

/-- The insertion sort used by the model is the stable sort. -/
theorem stableSort_eq_mergeSort (htr : ∀ a b c, le a b = true → le b c = true → le a c = true)
    (htot : ∀ a b, (le a b || le b a) = true) (l : List α) : stableSort le l = l.mergeSort le := by
  induction l with
  | nil => simp [stableSort]
  | cons a l ih =>
    obtain ⟨l₁, l₂, h1, h2, h3⟩ := List.mergeSort_cons htr htot a l
    rw [stableSort, ih, h2, h1]
    have hs := List.pairwise_mergeSort htr htot (a :: l)
    rw [h1] at hs
    clear ih h1 h2
    induction l₁ with
    | nil =>
      cases l₂ with
      | nil => rfl
      | cons b l₂ =>
        simp only [List.nil_append] at hs ⊢
        have := (List.pairwise_cons.mp hs).1 b (by simp)
        simp [insertSorted, this]
    | cons b l₁ ih =>
      have hb := h3 b (by simp)
      simp only [List.cons_append] at hs ⊢
      rw [insertSorted, if_neg (by simpa using hb),
        ih (fun x hx => h3 x (by simp [hx])) (List.pairwise_cons.mp hs).2]

end Verif
