import Verif.Graph

/-!
# What a usable graph is, in terms of its accessors

Specification only: nothing here models code. The builder is proved to produce such graphs
(`BuildingProps.lean`); routing relies on it.
-/

namespace Verif.Graph

/-- Edge `e` goes from `u` to `v`: its end in forward direction is `v`, in backward direction `u`. -/
def IsEdge (g : Graph) (e u v : Nat) : Prop := g.dstIdx .fwd e = .ok v ∧ g.dstIdx .bwd e = .ok u

/-- A node can be asked for its leaving edges in direction `d`. -/
def Covered (g : Graph) (d : Dir) (i : Nat) : Prop := ∃ l, g.startingFrom d i = .ok l

/-- Consistency of the arrays of a graph, stated through its accessors. -/
structure WellFormed (g : Graph) : Prop where
  /-- node-ids are distinct and sorted -/
  ids_sorted : g.nodeIds.Pairwise (· < ·)
  coords_len : g.nodeCoords.length = g.nodeCount
  levels_len : g.nodeLevels.length = g.nodeCount
  bwd_len : g.bwdDsts.length = g.edgeCount
  metrics_len : g.metrics.length = g.edgeCount
  edgeIds_len : g.edgeIds.length = g.edgeCount
  /-- both ends of an edge are nodes -/
  ends_lt : ∀ d e v, g.dstIdx d e = .ok v → v < g.nodeCount
  /-- the leaving edges of `i` are exactly the edges whose other end is `i`, each once, ordered by
  descending level of the reached node -/
  start : ∀ d i l, g.startingFrom d i = .ok l → l.Nodup ∧
    (∀ e, e ∈ l ↔ g.dstIdx d.opp e = .ok i) ∧
    l.Pairwise (fun a b => ∀ u v lu lv, g.dstIdx d a = .ok u → g.dstIdx d b = .ok v →
      g.nodeLevel u = .ok lu → g.nodeLevel v = .ok lv → lv ≤ lu)
  /-- a node can be asked for its leaving edges iff it or a later node (or node 0) has one -/
  covered_iff : ∀ d i, g.Covered d i ↔ i = 0 ∨ ∃ e v, g.dstIdx d.opp e = .ok v ∧ i ≤ v
  /-- asking any other node panics -/
  not_covered : ∀ d i, ¬ g.Covered d i → g.startingFrom d i = .panic
  /-- shortcut data is available for every edge -/
  sc_ok : ∀ e, e < g.edgeCount → ∃ o, g.scEdgesOf e = .ok o
  /-- ... and for no other index -/
  sc_len : ∀ e o, g.scEdgesOf e = .ok o → e < g.edgeCount
  /-- the id map is the inverse of the id array -/
  idMap_iff : ∀ e id, g.tryIdxFrom id = .ok e ↔ g.tryId e = .ok (some id)

end Verif.Graph
