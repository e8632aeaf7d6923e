import Verif.BalanceFloatSpec

/-!
# Specification used by the property of several updates with `f64`

Nothing here models code.
-/

namespace Verif.BalF

open Gen Bal

/-- Realistic input for several iterations, beginning with iteration `i`: each edge has a workload in each iteration;
routes, edges and iterations are few enough to be counted in an `f64`; there are no negative numbers. -/
structure SaneRun (cfg : Config) (i : Nat) (ws : List (List Nat)) (s : Net) (k : Nat) : Prop where
  totals : ∀ w ∈ ws, w.sum ≤ 2 ^ 53
  lengths : ∀ w ∈ ws, w.length = s.graph.metrics.length
  count : s.graph.metrics.length ≤ 2 ^ 40
  iterations : i + ws.length ≤ 2 ^ 53
  correction : ∀ c, cfg.method = .explicitEuler c → 0 ≤ c ∧ c ≤ 1
  minimum : ∀ m, cfg.minNewMetric = some m → 0 ≤ m ∧ IsNum m
  olds : ∀ e x, value s.graph.metrics e k = some x → 0 ≤ x ∧ IsNum x

/-- How much of the new relative workload is taken in iteration `i`. -/
def weight (method : Method) (i : Nat) : ℚ :=
  match method with
  | .explicitEuler c => c
  | .averaging => 1 / (i + 1)

/-- The value of an edge after several iterations with these relative workloads, computed exactly and without
normalizing. -/
def ideal (method : Method) : Nat → ℚ → List ℚ → ℚ
  | _, x, [] => x
  | i, x, r :: rs => ideal method (i + 1) ((1 - weight method i) * x + weight method i * r) rs

end Verif.BalF
