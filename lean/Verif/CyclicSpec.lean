import Verif.RouteSpec

/-!
# Specification of what happens if shortcuts refer to each other in cycles

Nothing here models code.
-/

namespace Verif.Graph

/-- At some time while an edge is replaced, this many edges are set aside: the second edge of a shortcut waits until
the first one has been replaced, which might never happen. -/
inductive Piles (g : Graph) : Nat → Nat → Prop
  | second {e a b : Nat} : g.scEdgesOf e = .ok (some (a, b)) → Piles g e 1
  | first {e a b n : Nat} : g.scEdgesOf e = .ok (some (a, b)) → Piles g a n → Piles g e (n + 1)
  | later {e a b n : Nat} {l : List Nat} : g.scEdgesOf e = .ok (some (a, b)) → Expands g a l → Piles g b n →
      Piles g e n

/-- At some time while a path is replaced, more edges are waiting than the graph has. -/
def Overfull (g : Graph) (es : List Nat) : Prop :=
  ∃ done e rest n, es = done ++ e :: rest ∧ (∀ x ∈ done, ∃ l, Expands g x l) ∧ Piles g e n ∧
    g.edgeCount < rest.length + n

/-- An edge stands for no plain edges, since the references of shortcuts are cyclic. -/
def Cyclic (g : Graph) (e : Nat) : Prop := ∀ l, ¬ Expands g e l

end Verif.Graph
