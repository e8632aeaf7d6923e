import Verif.Lockstep

/-!
# Two binary heaps in lockstep

Heaps that compare the same way move the same elements.
-/

namespace Verif.Dij.BinHeap

variable {α β : Type} {le : α → α → Bool} {le' : β → β → Bool} {f : α → β} {P : α → Prop}

theorem swap_map (l : List α) (i j : Nat) : swap (l.map f) i j = (swap l i j).map f := by
  unfold swap
  rw [List.getElem?_map, List.getElem?_map]
  cases l[i]? with
  | none => rfl
  | some a =>
    cases l[j]? with
    | none => rfl
    | some b => simp [List.map_set]

theorem siftUp_map (hle : ∀ a b, P a → P b → le' (f a) (f b) = le a b) (fuel : Nat) {l : List α} (hl : ∀ x ∈ l, P x)
    (pos : Nat) : siftUp le' fuel (l.map f) pos = (siftUp le fuel l pos).map f := by
  induction fuel generalizing l pos with
  | zero => rfl
  | succ fuel ih =>
    unfold siftUp
    split
    · rfl
    · rw [List.getElem?_map, List.getElem?_map]
      cases h1 : l[pos]? with
      | none => rfl
      | some a =>
        cases h2 : l[(pos - 1) / 2]? with
        | none => rfl
        | some b =>
          simp only [Option.map_some]
          rw [hle _ _ (hl _ (List.mem_of_getElem? h2)) (hl _ (List.mem_of_getElem? h1)), swap_map]
          split
          · rfl
          · exact ih (fun x hx => hl x ((swap_perm _ _ _).mem_iff.mp hx)) _

theorem lowerChild_map (hle : ∀ a b, P a → P b → le' (f a) (f b) = le a b) {l : List α} (hl : ∀ x ∈ l, P x)
    (pos : Nat) : lowerChild le' (l.map f) pos = lowerChild le l pos := by
  unfold lowerChild
  rw [List.getElem?_map, List.getElem?_map]
  cases h1 : l[2 * pos + 1]? with
  | none => rfl
  | some a =>
    cases h2 : l[2 * pos + 2]? with
    | none => rfl
    | some b =>
      simp only [Option.map_some]
      rw [hle _ _ (hl _ (List.mem_of_getElem? h2)) (hl _ (List.mem_of_getElem? h1))]

theorem siftDown_map (hle : ∀ a b, P a → P b → le' (f a) (f b) = le a b) (fuel : Nat) {l : List α} (hl : ∀ x ∈ l, P x)
    (pos : Nat) : siftDown le' fuel (l.map f) pos = ((siftDown le fuel l pos).1.map f, (siftDown le fuel l pos).2) := by
  induction fuel generalizing l pos with
  | zero => rfl
  | succ fuel ih =>
    unfold siftDown
    rw [lowerChild_map hle hl]
    cases lowerChild le l pos with
    | none => rfl
    | some c =>
      simp only
      rw [swap_map]
      exact ih (fun x hx => hl x ((swap_perm _ _ _).mem_iff.mp hx)) _

theorem push_map (hle : ∀ a b, P a → P b → le' (f a) (f b) = le a b) {l : List α} (hl : ∀ x ∈ l, P x) {x : α}
    (hx : P x) : push le' (l.map f) (f x) = (push le l x).map f := by
  unfold push
  have e : l.map f ++ [f x] = (l ++ [x]).map f := by simp
  rw [e, List.length_map]
  exact siftUp_map hle _ (fun y hy => by
    rcases List.mem_append.mp hy with h | h
    · exact hl y h
    · rw [List.mem_singleton.mp h]; exact hx) _

theorem pop_map (hle : ∀ a b, P a → P b → le' (f a) (f b) = le a b) {l : List α} (hl : ∀ x ∈ l, P x) :
    pop le' (l.map f) = (pop le l).map fun x => (f x.1, x.2.map f) := by
  unfold pop
  rw [List.getLast?_map]
  cases hx : l.getLast? with
  | none => rfl
  | some x =>
    simp only [Option.map_some]
    rw [← List.map_dropLast]
    cases hd : l.dropLast with
    | nil => rfl
    | cons y r =>
      simp only [List.map_cons, Option.map_some, List.length_map]
      have hxr : ∀ z ∈ x :: r, P z := by
        intro z hz
        rcases List.mem_cons.mp hz with rfl | hz
        · exact hl _ (List.mem_of_getLast? hx)
        · exact hl _ ((List.dropLast_sublist l).subset (by rw [hd]; exact List.mem_cons_of_mem _ hz))
      rw [show f x :: r.map f = (x :: r).map f from rfl, siftDown_map hle _ hxr]
      simp only
      rw [siftUp_map hle _ (fun z hz => hxr z (siftDown_perm.mem_iff.mp hz))]

end Verif.Dij.BinHeap

namespace Verif.Dij

/-- Heaps with comparisons that agree on costs in `P`. -/
theorem binHeap_same {K K' : Type} {cmp : K → K → Ordering} {cmp' : K' → K' → Ordering} {φ : K → K'} {P : K → Prop}
    (hc : ∀ a b, P a → P b → cmp' (φ a) (φ b) = cmp a b) : (binHeap cmp).Same (binHeap cmp') φ P := by
  have hle : ∀ a b : CN K, P a.cost → P b.cost → cnLe cmp' (a.map φ) (b.map φ) = cnLe cmp a b := by
    intro a b ha hb
    unfold cnLe cnCmp CN.map
    rw [hc _ _ ha hb]
  exact ⟨fun q c hq hcc => BinHeap.push_map (P := fun x : CN K => P x.cost) hle hq hcc,
    fun q hq => BinHeap.pop_map (P := fun x : CN K => P x.cost) hle hq⟩

end Verif.Dij
