import Verif.Overflow
import Verif.DijkstraSpec

/-!
# Specification: costs that overflow
-/

namespace Verif.Over

open Dij

/-- The cost of following edges in the given order, starting with zero. It is infinite (`none`) if a weighted metric
or a sum is above the largest number. -/
def sumOf (g : Graph) (alphas : List ℚ) (l : List Nat) : Option (Rounded Fp.f64) :=
  l.foldl (fun s e => match s, g.metrics[e]? with
    | some x, some m => (match dot alphas m with
      | some w => if (x + w).1 ≤ maxF then some (x + w) else none
      | none => none)
    | _, _ => none) (some 0)

/-- A route that is found from both ends: the cost of its first part is finite, and so is the cost of its second
part, summed up from the end. -/
def Finite (g : Graph) (alphas : List ℚ) (src : Nat) (l : List Nat) (dst : Nat) : Prop :=
  ∃ l1 l2 mid, l = l1 ++ l2 ∧ g.IsRoute src l1 mid ∧ g.IsRoute mid l2 dst ∧ sumOf g alphas l1 ≠ none ∧
    sumOf g alphas l2.reverse ≠ none

/-- The same for routes that go up and then down. -/
def FiniteUpDown (g : Graph) (alphas : List ℚ) (src : Nat) (l : List Nat) (dst : Nat) : Prop :=
  ∃ l1 l2 mid, l = l1 ++ l2 ∧ IsUp g src l1 mid ∧ IsDown g mid l2 dst ∧ sumOf g alphas l1 ≠ none ∧
    sumOf g alphas l2.reverse ≠ none

/-- The routers that come from a new one by answering queries on graphs with at most `n` nodes. -/
inductive Used (n : Nat) : St (Rounded Fp.f64) → Prop
  | new : Used n St.new
  | query {s s' : St (Rounded Fp.f64)} {q : Query (Rounded Fp.f64)} {fuel : Nat} {ans : Option Path} : Used n s →
      q.graph.nodeCount ≤ n → router fuel s q = some (.ok (s', ans)) → Used n s'

/-- Metrics and weights up to `2^400`. -/
def Moderate (q : Query (Rounded Fp.f64)) : Prop :=
  (∀ m ∈ q.graph.metrics, ∀ x ∈ m, x ≤ 2 ^ 400) ∧ ∀ a ∈ q.alphas, a ≤ 2 ^ 400

end Verif.Over
