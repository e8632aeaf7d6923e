import Verif.Dijkstra
import Verif.RouteSpec

/-!
# What is expected of the router

Specification only: weighted costs of routes, ascending and descending routes, and routers that have
already answered queries.
-/

namespace Verif.Dij

open Graph

/-- The weighted cost of a route: the alphas times the metrics, summed over its edges. -/
def routeCost (g : Graph) (alphas : List ℚ) (l : List Nat) : ℚ :=
  (l.map fun e => (List.zipWith (· * ·) alphas ((g.metrics[e]?).getD [])).sum).sum

/-- No metric is negative. -/
def NonnegMetrics (g : Graph) : Prop := ∀ m ∈ g.metrics, ∀ x ∈ m, (0 : ℚ) ≤ x

/-- A route along which the level of the nodes never decreases. -/
def IsUp (g : Graph) : Nat → List Nat → Nat → Prop
  | u, [], v => u = v
  | u, e :: l, v => ∃ w, g.IsEdge e u w ∧ (∀ a b, g.nodeLevel u = .ok a → g.nodeLevel w = .ok b → a ≤ b) ∧
      IsUp g w l v

/-- A route along which the level of the nodes never increases. -/
def IsDown (g : Graph) : Nat → List Nat → Nat → Prop
  | u, [], v => u = v
  | u, e :: l, v => ∃ w, g.IsEdge e u w ∧ (∀ a b, g.nodeLevel u = .ok a → g.nodeLevel w = .ok b → b ≤ a) ∧
      IsDown g w l v

/-- A route that goes up and then down. -/
def IsUpDown (g : Graph) (u : Nat) (l : List Nat) (v : Nat) : Prop :=
  ∃ w l1 l2, l = l1 ++ l2 ∧ IsUp g u l1 w ∧ IsDown g w l2 v

/-- Every route can be replaced by a route that goes up and then down and costs not more. -/
def Hierarchy (g : Graph) (alphas : List ℚ) : Prop :=
  ∀ u l v, g.IsRoute u l v → ∃ l', IsUpDown g u l' v ∧ routeCost g alphas l' ≤ routeCost g alphas l

/-- A route whose inner nodes are all above a level. -/
def RouteAbove (g : Graph) (k : Nat) : Nat → List Nat → Nat → Prop
  | u, [], v => u = v
  | u, [e], v => g.IsEdge e u v
  | u, e :: e' :: l, v => ∃ w, g.IsEdge e u w ∧ (∀ a, g.nodeLevel w = .ok a → k < a) ∧
      RouteAbove g k w (e' :: l) v

/-- What contracting the nodes in the order of their levels guarantees: neighbours have different
levels, and two edges over a lower node can be replaced by a shortcut or a witness, i.e. a route over
higher nodes that costs not more. -/
structure Contracted (g : Graph) (alphas : List ℚ) : Prop where
  differ : ∀ e u v a b, g.IsEdge e u v → u ≠ v → g.nodeLevel u = .ok a → g.nodeLevel v = .ok b → a ≠ b
  bypass : ∀ e₁ e₂ u v w a b c, g.IsEdge e₁ u v → g.IsEdge e₂ v w → g.nodeLevel u = .ok a →
    g.nodeLevel v = .ok b → g.nodeLevel w = .ok c → b < a → b < c →
    ∃ l, RouteAbove g b u l w ∧ routeCost g alphas l ≤ routeCost g alphas [e₁, e₂]

/-- Every node can be asked for its leaving edges. (The offsets of a built graph end with the last
node having an edge, see `C04`.) -/
def AllCovered (g : Graph) : Prop := ∀ d i, i < g.nodeCount → g.Covered d i

/-- The routers that come from a new one by answering queries on graphs with at most `n` nodes. -/
inductive Used {K : Type} [LinearOrder K] [Zero K] [Add K] (h : Heap K)
    (dotp : List ℚ → List ℚ → K) (n : Nat) : St K → Prop
  | new : Used h dotp n St.new
  | query {s s' : St K} {q : Query K} {fuel : Nat} {ans : Option Path} : Used h dotp n s →
      q.graph.nodeCount ≤ n → computeBestPath h dotp fuel s q = some (.ok (s', ans)) →
      Used h dotp n s'

/-- The answer without the router. -/
def answer {K : Type} : Option (R (St K × Option Path)) → Option (R (Option Path)) :=
  Option.map fun r => do
    let x ← r
    pure x.2

end Verif.Dij
