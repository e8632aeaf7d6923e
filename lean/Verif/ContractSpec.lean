import Verif.RecordSpec

/-!
# Contracted maps in terms of inserted records

Specification only: what a preprocessing for ch-dijkstra has to guarantee about nodes and edges that are inserted into a
builder, without any graph.
-/

namespace Verif.Build

/-- The level of a node: the last one given for its id, or zero. -/
def levelOf (ns : List ProtoNode) (id : Int) : Nat := (lastLevel ns id).getD 0

/-- Every shortcut mentions the positions of two edges, and these lead over some node where the shortcut leads. -/
def ShortcutsLead (es : List ProtoEdge) : Prop :=
  ∀ pe ∈ es, ∀ i j, pe.sc = some (i, j) → ∃ p q : ProtoEdge, es[i]? = some p ∧ es[j]? = some q ∧
    p.srcId = pe.srcId ∧ q.srcId = p.dstId ∧ q.dstId = pe.dstId

/-- Every shortcut costs at least what the edges cost whose positions it mentions. -/
def ShortcutsCost (al : List ℚ) (es : List ProtoEdge) : Prop :=
  ∀ pe ∈ es, ∀ (i j : Nat) (p q : ProtoEdge), pe.sc = some (i, j) → es[i]? = some p → es[j]? = some q →
    recordCost al p + recordCost al q ≤ recordCost al pe

/-- No shortcut stands for itself, neither directly nor indirectly. -/
def ShortcutsEnd (es : List ProtoEdge) : Prop :=
  ∃ rank : Nat → Nat, ∀ (k : Nat) (pe : ProtoEdge) (i j : Nat), es[k]? = some pe → pe.sc = some (i, j) →
    rank i < rank k ∧ rank j < rank k

/-- Neighbours have different levels, and two edges over a node that is lower than both ends can be replaced by edges
over nodes that are higher than it, which cost not more. -/
structure ContractedRecords (al : List ℚ) (lv : Int → Nat) (es : List ProtoEdge) : Prop where
  differ : ∀ pe ∈ es, pe.srcId ≠ pe.dstId → lv pe.srcId ≠ lv pe.dstId
  bypass : ∀ pe ∈ es, ∀ pe' ∈ es, pe'.srcId = pe.dstId → lv pe.dstId < lv pe.srcId → lv pe.dstId < lv pe'.dstId →
    ∃ rs : List ProtoEdge, (∀ r ∈ rs, r ∈ es) ∧ Chain pe.srcId rs pe'.dstId ∧
      (∀ r ∈ rs.dropLast, lv pe.dstId < lv r.dstId) ∧ chainCost al rs ≤ recordCost al pe + recordCost al pe'

end Verif.Build
