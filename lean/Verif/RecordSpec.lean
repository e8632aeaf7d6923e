import Verif.BuildingSpec
import Verif.DijkstraSpec

/-!
# Chains of inserted edges

Specification only: routes in terms of the inserted records, without any graph.
-/

namespace Verif.Build

/-- The records lead from node-id `a` to node-id `b`, head to tail. -/
def Chain : Int → List ProtoEdge → Int → Prop
  | a, [], b => a = b
  | a, pe :: l, b => pe.srcId = a ∧ Chain pe.dstId l b

/-- The weighted cost of a record. Values around zero count as `1e-6`. -/
def recordCost (alphas : List ℚ) (pe : ProtoEdge) : ℚ :=
  (List.zipWith (· * ·) alphas (pe.metrics.map lifted)).sum

/-- The weighted cost of several records. -/
def chainCost (alphas : List ℚ) (l : List ProtoEdge) : ℚ := (l.map (recordCost alphas)).sum

/-- Records that are similar enough to be duplicates have the same metrics. -/
def NoNearDuplicates (es : List ProtoEdge) : Prop :=
  ∀ pe ∈ es, ∀ pe' ∈ es, SameEdge pe' pe → pe'.metrics = pe.metrics

end Verif.Build
