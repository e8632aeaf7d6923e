import Verif.Graph

/-!
# Specification of a graph's layout in memory, as documented at `/repo/src/network/graph/mod.rs:14-77`

Nothing here models code.
-/

namespace Verif.Graph

/-- Seen in direction `d`, edges are ordered by the node they leave, by descending level of the node they reach, and
by the node they reach. -/
def Ordered (g : Graph) (d : Dir) (e e' : Nat) : Prop :=
  ∃ u u' v v' l l', g.dstIdx d.opp e = .ok u ∧ g.dstIdx d.opp e' = .ok u' ∧ g.dstIdx d e = .ok v ∧ g.dstIdx d e' = .ok v' ∧
    g.nodeLevel v = .ok l ∧ g.nodeLevel v' = .ok l' ∧ (u < u' ∨ u = u' ∧ (l' < l ∨ l = l' ∧ v ≤ v'))

/-- As documented, there are no levels in this order. -/
def OrderedPlain (g : Graph) (d : Dir) (e e' : Nat) : Prop :=
  ∃ u u' v v', g.dstIdx d.opp e = .ok u ∧ g.dstIdx d.opp e' = .ok u' ∧ g.dstIdx d e = .ok v ∧ g.dstIdx d e' = .ok v' ∧
    (u < u' ∨ u = u' ∧ v ≤ v')

/-- The arrays of a direction: `toFwdMap` lists every edge once, in order. An offset is the number of edges that leave
earlier nodes. Offsets end behind the last node that is left by an edge. The edges of a node are between its offset and
the next one. -/
structure Layout (g : Graph) (d : Dir) : Prop where
  all : (g.toFwdMap d).Perm (List.range g.edgeCount)
  order : (g.toFwdMap d).Pairwise (Ordered g d)
  offset : ∀ (i x : Nat), (g.offsets d)[i]? = some x → x = (g.dsts d.opp).countP (· < i)
  length : ∀ i, i < (g.offsets d).length ↔ i ≤ 1 ∨ ∃ u ∈ g.dsts d.opp, i ≤ u + 1
  slice : ∀ i l, g.startingFrom d i = .ok l ↔ ∃ a b, (g.offsets d)[i]? = some a ∧ (g.offsets d)[i + 1]? = some b ∧
    l = ((g.toFwdMap d).drop a).take (b - a)

end Verif.Graph
