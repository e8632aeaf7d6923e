import Verif.SessionSpec

/-!
# Specification used by the properties about the order of lines

Nothing here models code.
-/

namespace Verif.Session

open Text Cfg

/-- The line of a map is a node with this id. -/
def Names (cats : List NodeCat) (line : Text) (id : Int) : Prop :=
  ∃ (k : Nat) (name t : Text), cats[k]? = some (.info .nodeId name) ∧ (words line)[k]? = some t ∧
    parseInt maxI64 t = some id

/-- Every node has one line, up to repetitions. -/
def OneLineEach (cats : List NodeCat) (lines : List Text) : Prop :=
  ∀ line ∈ lines, ∀ line' ∈ lines, ∀ id, Names cats line id → Names cats line' id → line = line'

/-- No two lines lead from the same node to the same node, up to repetitions. -/
def Simple (c : Fmi.Codec) (cats : List EdgeCat) (lines : List Text) : Prop :=
  ∀ line ∈ lines, ∀ line' ∈ lines, ∀ a b m m', Leads c cats line a b m → Leads c cats line' a b m' → line = line'

end Verif.Session
