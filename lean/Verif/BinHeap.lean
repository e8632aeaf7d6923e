import Verif.Dijkstra
import Verif.Approx
import Mathlib.Data.List.Perm.Basic

/-!
# Model of `std::collections::BinaryHeap<Reverse<CostNode>>`

The queue of `src/routing/dijkstra.rs:27`. The algorithm of the standard library is modelled as it is
documented in its source (`sift_up`, `sift_down_to_bottom`), but with swaps instead of a moving hole,
which leads to the same array. The standard library is not part of the repository.
-/

namespace Verif.Dij

namespace BinHeap

section
variable {α : Type} (le : α → α → Bool)

/-- `slice::swap`. -/
def swap (l : List α) (i j : Nat) : List α :=
  match l[i]?, l[j]? with
  | some a, some b => (l.set i b).set j a
  | _, _ => l

/-- std `BinaryHeap::sift_up(0, pos)`. The loop is bounded by `fuel`, for which the length of the array
is enough. Reversed: an element moves up unless its parent is lower or equal. -/
def siftUp : Nat → List α → Nat → List α
  | 0, l, _ => l
  | fuel + 1, l, pos =>
    if pos = 0 then l
    else
      match l[pos]?, l[(pos - 1) / 2]? with
      | some e, some p => if le p e then l else siftUp fuel (swap l pos ((pos - 1) / 2)) ((pos - 1) / 2)
      | _, _ => l

/-- The child that is moved up: the right one if it is lower or equal. -/
def lowerChild (l : List α) (pos : Nat) : Option Nat :=
  match l[2 * pos + 1]?, l[2 * pos + 2]? with
  | some a, some b => some (if le b a then 2 * pos + 2 else 2 * pos + 1)
  | some _, none => some (2 * pos + 1)
  | none, _ => none

/-- std `BinaryHeap::sift_down_to_bottom`, first part: move down to a leaf; returns the leaf, too. -/
def siftDown : Nat → List α → Nat → List α × Nat
  | 0, l, pos => (l, pos)
  | fuel + 1, l, pos =>
    match lowerChild le l pos with
    | some c => siftDown fuel (swap l pos c) c
    | none => (l, pos)

/-- std `BinaryHeap::push`. -/
def push (l : List α) (x : α) : List α := siftUp le (l.length + 1) (l ++ [x]) l.length

/-- std `BinaryHeap::pop`: the last element replaces the first one, moves down to a leaf, and up. -/
def pop (l : List α) : Option (α × List α) :=
  match l.getLast? with
  | none => none
  | some x =>
    match l.dropLast with
    | [] => some (x, [])
    | y :: r =>
      some (y, siftUp le (r.length + 1) (siftDown le (r.length + 1) (x :: r) 0).1
        (siftDown le (r.length + 1) (x :: r) 0).2)

end
end BinHeap

/-- `src/routing/dijkstra.rs:420-432`: backward is lower than forward. -/
def dirValue : Dir → Nat
  | .fwd => 1
  | .bwd => 0

/-- `src/routing/dijkstra.rs:376-394` `CostNode::cmp`, given the comparison of costs. -/
def cnCmp {K : Type} (cmp : K → K → Ordering) (a b : CN K) : Ordering :=
  (cmp a.cost b.cost).then ((compare a.idx b.idx).then (compare (dirValue a.dir) (dirValue b.dir)))

/-- `a <= b`. -/
def cnLe {K : Type} (cmp : K → K → Ordering) (a b : CN K) : Bool := cnCmp cmp a b != .gt

end Verif.Dij
