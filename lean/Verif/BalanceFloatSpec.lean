import Verif.BalancingSpec
import Verif.BalanceFloat

/-!
# Specification used by the properties of the balanced metric with `f64`

Nothing here models code. The exact targets and averages are those of `BalancingSpec.lean`.
-/

namespace Verif.BalF

open Gen Bal

/-- A number of type `f64`, up to its size. -/
def IsNum (x : ℚ) : Prop := Fp.f64.rnd x = x

/-- Realistic input: few enough routes, edges and iterations to be counted in an `f64`, and a metric and a
configuration without negative numbers. -/
structure Sane (cfg : Config) (iteration : Nat) (w : List Nat) (s : Net) (k : Nat) : Prop where
  total : w.sum ≤ 2 ^ 53
  count : w.length ≤ 2 ^ 50
  iteration : iteration < 2 ^ 53
  correction : ∀ c, cfg.method = .explicitEuler c → 0 ≤ c ∧ c ≤ 1
  minimum : ∀ m, cfg.minNewMetric = some m → 0 ≤ m ∧ IsNum m
  olds : ∀ e x, value s.graph.metrics e k = some x → 0 ≤ x ∧ IsNum x

/-- Not too large for sums and products. -/
structure Moderate (cfg : Config) (s : Net) (k : Nat) : Prop where
  minimum : ∀ m, cfg.minNewMetric = some m → m ≤ 2 ^ 900
  olds : ∀ e x, value s.graph.metrics e k = some x → x ≤ 2 ^ 900

/-- How far a computed target may be from the exact one. With a minimum, another side of it may be taken. -/
def tolerance (cfg : Config) (old rel : ℚ) : ℚ :=
  (old + rel) / 2 ^ 48 + 1 / 2 ^ 1070 + (if cfg.minNewMetric = none then 0 else 2 / 1000000)

/-- The tolerances of all edges with a workload. -/
def tolerances (cfg : Config) (w : List Nat) (ms : List (List ℚ)) (k : Nat) : List ℚ :=
  (List.range w.length).map fun e => tolerance cfg ((value ms e k).getD 0) (relative w e)

end Verif.BalF
