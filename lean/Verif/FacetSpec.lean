import Verif.CompleteSpec

/-!
# What is expected of the explorator's answer with any number of metrics

Specification only.
-/

namespace Verif.Exp

/-- The weights, which sum up to one, are the only ones of a hyperplane through the given points. -/
structure Spans (cs : List (List ℚ)) (considered : List Bool) (x : List ℚ) : Prop where
  normal : Normal cs considered x
  sum : x.sum = 1
  unique : ∀ y, Normal cs considered y → y.sum = 1 → y = x

/-- A facet of the lower convex hull: some points that span a hyperplane with positive weights for the considered
metrics, and no point lies below. -/
structure LowerFacet (point : List ℚ → Prop) (considered : List Bool) (cs : List (List ℚ)) (x : List ℚ) : Prop
    extends Spans cs considered x where
  ne : cs ≠ []
  mem : ∀ c ∈ cs, point c
  pos : ∀ (i : Nat) a, considered[i]? = some true → x[i]? = some a → 0 < a
  below : ∀ c ∈ cs, ∀ v, point v → weigh x c ≤ weigh x v

/-- A triangulation of dimension `dim` has a cell in every facet of the lower convex hull, and the id of a cell is
never used for other vertices. -/
structure Covering (dim : Nat) (b : Backend) (coords : b.Tri → Nat → Option (List ℚ)) (size : b.Tri → Nat) : Prop where
  cover : ∀ t, size t = dim → (∀ v y, coords t v = some y → y.length = dim) → ∀ ys x,
    LowerFacet (fun y => ∃ v, coords t v = some y) (List.replicate dim true) ys x →
    ∃ c ∈ b.cells t, ∃ zs, List.Forall₂ (fun v z => coords t v = some z) c.vertices zs ∧ zs.length = dim ∧
      Spans zs (List.replicate dim true) x ∧ ∀ z ∈ zs, ∀ y ∈ ys, weigh x z = weigh x y
  id : ∀ t t', ∀ c ∈ b.cells t, ∀ c' ∈ b.cells t', c.id = c'.id → c.vertices = c'.vertices

end Verif.Exp
