import Verif.CellSpec

/-!
# What is expected of the explorator's answer as a whole

Specification only.
-/

namespace Verif.Exp

/-- The costs of a route. -/
def IsRouteCost (g : Graph) (src dst : Nat) (c : List ℚ) : Prop :=
  ∃ l, g.IsRoute src l dst ∧ g.IsCost l c

/-- Costs of a route such that no route is cheaper by more than `slack`. -/
def Best (g : Graph) (src dst : Nat) (slack : ℚ) (x c : List ℚ) : Prop :=
  IsRouteCost g src dst c ∧ ∀ e, IsRouteCost g src dst e → weigh x c ≤ weigh x e + slack

/-- Costs that exceed the costs of no route by more than the tolerated factor, in any metric. -/
def Affordable (g : Graph) (src dst : Nat) (scales : List (Option ℚ)) (e : List ℚ) : Prop :=
  ∀ (i : Nat) (scale x : ℚ), scales[i]? = some (some scale) → e[i]? = some x →
    ∀ d y, IsRouteCost g src dst d → d[i]? = some y → x ≤ y * scale

/-- Costs that differ noticeably in some metric. -/
def Apart (c d : List ℚ) : Prop :=
  ∃ (i : Nat) (x y : ℚ), c[i]? = some x ∧ d[i]? = some y ∧ 3 / 2000000 ≤ |x - y|

/-- In the plane, the lower convex hull has no gap, and a cell keeps its id: wherever a falling line with no vertex
below contains two different vertices, there is a cell on this line, and the id of a cell is never used for other
vertices. -/
structure Gapless (b : Backend) (coords : b.Tri → Nat → Option (List ℚ)) (size : b.Tri → Nat) : Prop where
  cover : ∀ t, size t = 2 → ∀ x : List ℚ, x.length = 2 → (∀ a ∈ x, 0 < a) → ∀ v w y z, coords t v = some y →
    coords t w = some z → y ≠ z → weigh x y = weigh x z →
    (∀ u r, coords t u = some r → r.length = 2 ∧ weigh x y ≤ weigh x r) →
    ∃ c ∈ b.cells t, ∃ v' w' y' z', c.vertices = [v', w'] ∧ coords t v' = some y' ∧ coords t w' = some z' ∧
      y' ≠ z' ∧ weigh x y' = weigh x y ∧ weigh x z' = weigh x y
  id : ∀ t t', ∀ c ∈ b.cells t, ∀ c' ∈ b.cells t', c.id = c'.id → c.vertices = c'.vertices

end Verif.Exp
