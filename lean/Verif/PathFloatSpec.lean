import Verif.RouteSpec
import Verif.BalanceFloatSpec
import Verif.PathFloat

/-!
# Specification used by the properties of costs with `f64`

Nothing here models code.
-/

namespace Verif.PathF

open BalF (IsNum)
open Graph (metric)
open Path (Err)

/-- All metrics are numbers of type `f64` that aren't negative. -/
def Metrics (g : Graph) : Prop := ∀ e k, 0 ≤ g.metric e k ∧ IsNum (g.metric e k)

/-- The exact cost of a path. -/
def total (g : Graph) (l : List Nat) (k : Nat) : ℚ := (l.map fun e => g.metric e k).sum

/-- All edges of a path exist. -/
def Known (g : Graph) (l : List Nat) : Prop := ∀ e ∈ l, e < g.metrics.length

/-- The edges of a result. -/
def edgesOf {P : Type} (f : P → List Nat) : Res Err P → Res Err (List Nat)
  | .ok p => .ok (f p)
  | .err e => .err e
  | .panic => .panic

end Verif.PathF
