import Verif.Pairs
import Verif.RoutesSpec
import Verif.ToolSpec
import Verif.YamlDocSpec

/-!
# What is expected of written route-pairs

Specification only.
-/

namespace Verif.Session

open Gen
open Yml (Yaml Writer RoutingIn RoutePairsIn)

/-- Nothing but route-pairs is asked for. -/
def onlyPairs : Tool.Args where
  graph := false
  edges := false
  routePairs := true
  routing := false
  evaluating := false
  balancing := false

/-- Route-pairs are asked for, and routing with them. -/
def pairsAndRouting : Tool.Args := { onlyPairs with routing := true }

/-- The document asks for route-pairs in the file that is used for routing, which is named as such. -/
structure WritesItsPairs (wr : Writer) (numbers : Yml.Numbers) (doc : Yaml) (ir : RoutingIn) (rp : RoutePairsIn) :
    Prop where
  writer : wr.Fits numbers
  keys : Yml.UniqueKeys doc
  routing : Yml.valuesAt ["routing"] doc = [ir.doc wr]
  writing : Yml.valuesAt ["writing", "route-pairs"] doc = [rp.doc wr]
  small : rp.Small
  few : 24 * rp.maxCount < 2 ^ 63
  file : ir.pairsFile = some rp.file
  named : ∃ ext, Tool.Named (Tool.fileName rp.file) ext ∧ Text.lower ext = "route-pairs".toList

/-- A report of the costs of a path between the nodes with these ids. -/
def Answered (p : Int × Int) (rep : Report) : Prop :=
  ∃ a b cs, rep = .costs a b cs ∧ a.id = p.1 ∧ b.id = p.2

end Verif.Session
