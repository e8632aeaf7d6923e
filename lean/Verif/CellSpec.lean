import Verif.ExploratingHullSpec

/-!
# What is expected of the exploration of a cell

Specification only. A cell is given by the costs of its vertices' paths.
-/

namespace Verif.Exp

/-- Some tolerance is exceeded by all vertices of the cell. -/
def Hopeless (cell : List (List ℚ)) (tolerances : List (Option ℚ)) : Prop :=
  ∃ (i : Nat) (t : ℚ), tolerances[i]? = some (some t) ∧ ∀ c ∈ cell, ∀ x, c[i]? = some x → t < x

/-- The weights are those of a hyperplane through all vertices of the cell, and give no weight to
ignored metrics. -/
structure Normal (cell : List (List ℚ)) (considered : List Bool) (x : List ℚ) : Prop where
  length : x.length = considered.length
  same : ∀ c ∈ cell, ∀ d ∈ cell, weigh x c = weigh x d
  ignored : ∀ i : Nat, considered[i]? = some false → x[i]? = some 0

/-- The weights solve the linear system. -/
def Solves (m : List (List ℚ)) (rhs x : List ℚ) : Prop :=
  ∀ (i : Nat) row r, m[i]? = some row → rhs[i]? = some r → weigh row x = r

/-- A solver of systems with `dim` rows and columns: what it returns is a solution, and it finds a
solution that is the only one. -/
structure Solver (dim : Nat) (solve : List (List ℚ) → List ℚ → Dij.R (Option (List ℚ))) : Prop where
  sound : ∀ m rhs x, solve m rhs = .ok (some x) → m.length = dim → rhs.length = dim →
    (∀ row ∈ m, row.length = dim) → x.length = dim ∧ Solves m rhs x
  complete : ∀ m rhs x, m.length = dim → rhs.length = dim → (∀ row ∈ m, row.length = dim) →
    x.length = dim → Solves m rhs x → (∀ y, y.length = dim → Solves m rhs y → y = x) →
    solve m rhs = .ok (some x)

end Verif.Exp
