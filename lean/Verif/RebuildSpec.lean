import Verif.BuildingSpec

/-!
# Specification used by the properties of rebuilt graphs

Nothing here models code.
-/

namespace Verif
namespace Build

/-- Record `pe` describes edge `e` of the graph. -/
structure EdgeOf (g : Graph) (e : Nat) (pe : ProtoEdge) : Prop where
  id : g.tryId e = .ok pe.id
  src : ∃ u, g.dstIdx .bwd e = .ok u ∧ g.nodeId u = .ok pe.srcId
  dst : ∃ v, g.dstIdx .fwd e = .ok v ∧ g.nodeId v = .ok pe.dstId
  metrics : g.edgeMetrics e = .ok pe.metrics
  sc : g.scEdgesOf e = .ok pe.sc

/-- Record `n` describes node `i` of the graph. -/
structure NodeOf (g : Graph) (i : Nat) (n : ProtoNode) : Prop where
  id : g.nodeId i = .ok n.id
  coord : g.nodeCoord i = .ok n.coord
  level : g.nodeLevel i = .ok (n.level.getD 0)

end Build
end Verif
