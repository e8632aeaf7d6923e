import Verif.Building

/-!
# Specification used by the properties of built graphs

Nothing here models code; the definitions only talk about inserted data and graph accessors.
-/

namespace Verif
namespace Build

open Approx (Coord)

/-- `id` is an endpoint of an inserted edge. -/
def Endpoint (es : List ProtoEdge) (id : Int) : Prop := ∃ e ∈ es, id = e.srcId ∨ id = e.dstId

/-- The last node record with this id. -/
def lastRecord (ns : List ProtoNode) (id : Int) : Option ProtoNode :=
  (ns.filter (fun n => n.id = id)).getLast?

/-- The last level given for this id. -/
def lastLevel (ns : List ProtoNode) (id : Int) : Option Nat :=
  ((ns.filter (fun n => n.id = id)).filterMap ProtoNode.level).getLast?

/-- All shortcuts refer to inserted edges. -/
def ScInRange (es : List ProtoEdge) : Prop :=
  ∀ e ∈ es, ∀ p, e.sc = some p → p.1 < es.length ∧ p.2 < es.length

/-- `pe'` and `pe` agree in id and endpoints, and their metrics differ by less than `1.5e-6`. -/
def SameEdge (pe' pe : ProtoEdge) : Prop :=
  pe'.id = pe.id ∧ pe'.srcId = pe.srcId ∧ pe'.dstId = pe.dstId ∧
    ∀ (k : Nat) (x y : ℚ), pe'.metrics[k]? = some x → pe.metrics[k]? = some y →
      |x - y| < 3 / 2000000

/-- Values around zero become `1e-6`. -/
def lifted (m : ℚ) : ℚ := if |m| < 3 / 2000000 then 1 / 1000000 else m

/-- Edge `e` of the graph is the inserted edge `pe`: same id, endpoints (as node-ids), metrics. -/
structure EdgeIs (g : Graph) (e : Nat) (pe : ProtoEdge) : Prop where
  id : g.tryId e = .ok pe.id
  src : ∃ u, g.dstIdx .bwd e = .ok u ∧ g.nodeId u = .ok pe.srcId
  dst : ∃ v, g.dstIdx .fwd e = .ok v ∧ g.nodeId v = .ok pe.dstId
  metrics : g.edgeMetrics e = .ok (pe.metrics.map lifted)

end Build
end Verif
