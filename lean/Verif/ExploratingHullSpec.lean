import Verif.ExploratingSpec

/-!
# What is expected of a convex hull

Specification only.
-/

namespace Verif.Exp

/-- The weighted sum. -/
def weigh (x y : List ℚ) : ℚ := (List.zipWith (· * ·) x y).sum

/-- The solver's solutions of square systems are solutions, and the cells belong to the lower convex
hull: no vertex lies below a cell, seen in a direction without negative components. A convex hull has
upper cells as well. -/
structure Lower (b : Backend) (coords : b.Tri → Nat → Option (List ℚ)) (size : b.Tri → Nat) : Prop where
  solved : ∀ m rhs x, b.solve m rhs = .ok (some x) → rhs.length = m.length →
    (∀ row ∈ m, row.length = m.length) → x.length = m.length ∧
      ∀ (i : Nat) row r, m[i]? = some row → rhs[i]? = some r → weigh row x = r
  below : ∀ t, ∀ c ∈ b.cells t, ∀ x : List ℚ, x.length = size t → (∀ a ∈ x, 0 ≤ a) →
    (∀ v ∈ c.vertices, ∀ w ∈ c.vertices, ∀ y z, coords t v = some y → coords t w = some z →
      weigh x y = weigh x z) →
    ∀ v ∈ c.vertices, ∀ w y z, coords t v = some y → coords t w = some z → weigh x y ≤ weigh x z

end Verif.Exp
