import Verif.Alphas
import Verif.SpecialSpec

/-!
# Specification: weights that are no finite numbers
-/

namespace Verif.Special

open Dij

/-- Weights below zero. -/
def Below : Num ℚ → Prop
  | .fin x => x < 0
  | .neg => True
  | .inf => False
  | .nan => False

/-- The routers that come from a new one by answering queries with any weights, on graphs with at most `n` nodes and
values that are not negative. There are as many weights as metrics. -/
inductive UsedA (n : Nat) : St (Rounded Fp.f64) → Prop
  | new : UsedA n St.new
  | query {s s' : St (Rounded Fp.f64)} {q : Query (Rounded Fp.f64)} {ms : List (List (Num ℚ))}
      {alphas : List (Num ℚ)} {fuel : Nat} {ans : Option Path} : UsedA n s → q.graph.nodeCount ≤ n → Nonneg ms →
      (∀ m ∈ ms, m.length = alphas.length) → routerA ms alphas fuel s q = some (.ok (s', ans)) → UsedA n s'

end Verif.Special
