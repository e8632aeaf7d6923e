import Verif.Explorating
import Verif.DijkstraSpec

/-!
# What is expected of the explorator

Specification only.
-/

namespace Verif.Exp

open Dij (R)

/-- The vector with a one at index `i` and zeros elsewhere. -/
def unit (dim i : Nat) : List ℚ := (List.range dim).map fun j => if j = i then 1 else 0

/-- A vector of zeros and ones, not only zeros, whose ones belong to considered metrics. -/
def IsCombination (considered : List Bool) (dim : Nat) (v : List ℚ) : Prop :=
  v.length = dim ∧ (∀ x ∈ v, x = 0 ∨ x = 1) ∧ (∃ x ∈ v, x = 1) ∧
    ∀ i : Nat, v[i]? = some 1 → considered[i]? = some true

/-- The costs of a route in one metric. -/
def metricCost (g : Graph) (i : Nat) (l : List Nat) : ℚ := (l.map fun e => g.metric e i).sum

/-- A triangulation gives an id to every vertex and gives an id again only for the same coordinates.
`coords t id` are the coordinates of the vertex `id`. -/
structure Sound (b : Backend) (coords : b.Tri → Nat → Option (List ℚ)) : Prop where
  new : ∀ dim id, coords (b.new dim) id = none
  added : ∀ t x id t', b.addVertex t x = .ok (id, t') → coords t' id = some x ∧
    (coords t id = none ∨ coords t id = some x) ∧ ∀ j, j ≠ id → coords t' j = coords t j

/-- What is expected of triangulation and solver so that nothing panics. `size t` is the dimension of a
triangulation. -/
structure Regular (b : Backend) (coords : b.Tri → Nat → Option (List ℚ)) (size : b.Tri → Nat) : Prop
    extends Sound b coords where
  size_new : ∀ dim, size (b.new dim) = dim
  add : ∀ t x, x.length = size t → ∃ id t', b.addVertex t x = .ok (id, t') ∧ coords t id = none ∧
    size t' = size t
  cells : ∀ t, ∀ c ∈ b.cells t, c.vertices ≠ [] ∧ c.vertices.length ≤ size t + 1 ∧
    ∀ v ∈ c.vertices, coords t v ≠ none
  solve : ∀ m rhs, rhs.length = m.length → (∀ row ∈ m, row.length = m.length) → ∃ o, b.solve m rhs = .ok o

end Verif.Exp
