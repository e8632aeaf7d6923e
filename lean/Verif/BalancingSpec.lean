import Verif.Balancing
import Verif.GeneratingSpec

/-!
# Specification used by the properties of the balanced metric

Nothing here models code.
-/

namespace Verif.Bal

open Gen

/-- The arithmetic mean. -/
def average (xs : List ℚ) : ℚ := xs.sum / xs.length

/-- The workload of edge `e` relative to the average workload. -/
def relative (w : List Nat) (e : Nat) : ℚ := (w.getD e 0 : ℚ) / average (w.map fun n : Nat => (n : ℚ))

/-- What the new value of an edge is made of before normalizing: between (or beyond) its old value and its
relative workload, and not (approximately) below the minimum. -/
def target (cfg : Config) (iteration : Nat) (old rel : ℚ) : ℚ :=
  let x := match cfg.method with
    | .explicitEuler c => (1 - c) * old + c * rel
    | .averaging => (iteration * old + rel) / (iteration + 1)
  match cfg.minNewMetric with
  | none => x
  | some m => if x < m + 3 / 2000000 then m else x

/-- The targets of all edges with a workload. -/
def targets (cfg : Config) (iteration : Nat) (w : List Nat) (ms : List (List ℚ)) (k : Nat) : List ℚ :=
  (List.range w.length).map fun e => target cfg iteration ((value ms e k).getD 0) (relative w e)

/-- The remembered mean of metric `k`. -/
def meanAt (g : Graph) (k : Nat) : Option ℚ := g.means.bind fun means => means[k]?

/-- Nothing but metric `k` (and its mean) of the first `n` edges differs. -/
structure OnlyMetric (k n : Nat) (s s' : Net) : Prop where
  nodes : s'.nodes = s.nodes
  edges : s'.edges = s.edges
  topology : SameTopology s.graph s'.graph
  ids : s'.graph.edgeIds = s.graph.edgeIds
  idMap : s'.graph.idMap = s.graph.idMap
  dim : s'.graph.dim = s.graph.dim
  count : s'.graph.metrics.length = s.graph.metrics.length
  dims : ∀ (e : Nat) (m m' : List ℚ), s.graph.metrics[e]? = some m → s'.graph.metrics[e]? = some m' → m'.length = m.length
  others : ∀ e j : Nat, j ≠ k ∨ n ≤ e → value s'.graph.metrics e j = value s.graph.metrics e j
  means : ∀ j : Nat, j ≠ k → meanAt s'.graph j = meanAt s.graph j
  hasMeans : s'.graph.means.map List.length = s.graph.means.map List.length

end Verif.Bal
