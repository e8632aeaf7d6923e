import Verif.BalancingRunSpec

/-!
# What is expected of the balanced metric if graphs are contracted between the updates

Specification only. Streets are told apart by their ids, since edges get other indices by contracting.
-/

namespace Verif.Bal

open Text Gen

/-- Edge `e` is the street with this id, and no shortcut. -/
def Street (g : Graph) (e id : Nat) : Prop := g.tryId e = .ok (some id) ∧ g.scEdgesOf e = .ok none

/-- Edge `e` has this value of the named metric. -/
def HasMetric (net : Net) (metric : Text) (e : Nat) (v : ℚ) : Prop :=
  ∃ k : Nat, net.edges.ids[k]? = some metric ∧ value net.graph.metrics e k = some v

/-- An iteration: its workloads, the contracted graph, and this graph with the updated metric. -/
structure Round where
  loads : List Nat
  before : Net
  after : Net
deriving DecidableEq

/-- The iterations of a run. -/
def roundsOf (es : List Event) : List Round :=
  es.filterMap fun
    | .updated _ loads before after => some ⟨loads, before, after⟩
    | _ => none

/-- This street has been used so often in an iteration. -/
def Round.Used (r : Round) (id n : Nat) : Prop := ∃ e, Street r.before.graph e id ∧ r.loads[e]? = some n

/-- The metric's values are taken over from the streets of `net`, maybe rounded; there may be any shortcuts. -/
def TakenOver (metric : Text) (round : ℚ → ℚ) (net ch : Net) : Prop :=
  ∀ e id v, Street ch.graph e id → HasMetric ch metric e v →
    ∃ e' v', Street net.graph e' id ∧ HasMetric net metric e' v' ∧ v = round v'

/-- From iteration to iteration, the metric's values are taken over. -/
def Linked (metric : Text) (round : ℚ → ℚ) (rs : List Round) : Prop :=
  ∀ (i : Nat) (r r' : Round), rs[i]? = some r → rs[i + 1]? = some r' → TakenOver metric round r.after r'.before

/-- Every edge has a workload, and metrics have different names. -/
def Round.Sound (r : Round) : Prop := r.loads.length = r.before.graph.metrics.length ∧ r.before.edges.ids.Nodup

/-- The average over all edges, including shortcuts. -/
def Round.avg (r : Round) : ℚ := average (r.loads.map fun n : Nat => (n : ℚ))

/-- The sum of products. -/
def weighted (cs : List ℚ) (ls : List Nat) : ℚ := (List.zipWith (fun (c : ℚ) (l : Nat) => c * (l : ℚ)) cs ls).sum

end Verif.Bal
