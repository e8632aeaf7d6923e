import Verif.GeneratingSpec
import Verif.BalanceFloatSpec
import Verif.NormFloat

/-!
# Specification used by the properties of normalizing with `f64`

Nothing here models code. The exact means are those of `GeneratingSpec.lean`.
-/

namespace Verif.NormF

open Gen BalF

/-- Realistic metrics: few enough edges to be counted in an `f64`, and numbers of type `f64` that aren't negative. -/
structure Metrics (s : Net) : Prop where
  count : s.graph.metrics.length ≤ 2 ^ 50
  values : ∀ e k x, value s.graph.metrics e k = some x → 0 ≤ x ∧ IsNum x

/-- Not too large for sums. -/
def Moderate (s : Net) : Prop := ∀ e k x, value s.graph.metrics e k = some x → x ≤ 2 ^ 900

/-- Nothing but metrics and means is changed. -/
def OnlyMetrics (s s' : Net) : Prop :=
  s' = { s with graph := { s.graph with metrics := s'.graph.metrics, means := s'.graph.means } } ∧
    s'.graph.metrics.length = s.graph.metrics.length ∧
    ∀ e k, (value s'.graph.metrics e k).isSome = (value s.graph.metrics e k).isSome

end Verif.NormF
