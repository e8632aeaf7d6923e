import Verif.Cmdline

/-!
# What is expected of a command line

Specification only.
-/

namespace Verif.Cmd

open Text

/-- A part of a command line. -/
inductive Item where
  | graph
  | edges
  | routePairs
  | routing
  | balancing
  | evaluating
  | config (key value : Text)
  | log (key value : Text)
deriving DecidableEq, Repr

/-- How a part is written. -/
def Item.words : Item → List Text
  | .graph => ["--writing_graph".toList]
  | .edges => ["--writing_edges".toList]
  | .routePairs => ["--writing_route-pairs".toList]
  | .routing => ["--routing".toList]
  | .balancing => ["--balancing".toList]
  | .evaluating => ["--evaluating_balance".toList]
  | .config key value => [key, value]
  | .log key value => [key, value]

/-- The configured file. -/
def Item.config? : Item → Option Text
  | .config _ value => some value
  | _ => none

/-- The level of logging. -/
def Item.log? : Item → Option Text
  | .log _ value => some value
  | _ => none

/-- A part on its own is fine. -/
def Item.Fine : Item → Prop
  | .config key value => key ∈ ["--config".toList, "--parsing".toList, "-c".toList] ∧ value.head? ≠ some '-'
  | .log key value => key ∈ ["--log".toList, "-l".toList] ∧
      lower value ∈ ["trace".toList, "debug".toList, "info".toList, "warn".toList, "error".toList]
  | _ => True

/-- These parts, in any order, ask for exactly this. -/
structure Asks (gpl : Bool) (items : List Item) (c : Call) : Prop where
  fine : ∀ i ∈ items, i.Fine
  config : items.filterMap Item.config? = [c.cfg]
  log : items.filterMap Item.log? = [] ∧ c.log = "INFO".toList ∨ items.filterMap Item.log? = [c.log]
  once : ∀ i, i.config? = none → i.log? = none → items.count i ≤ 1
  graph : c.args.graph = true ↔ .graph ∈ items
  edges : c.args.edges = true ↔ .edges ∈ items
  routePairs : c.args.routePairs = true ↔ .routePairs ∈ items
  routing : c.args.routing = true ↔ .routing ∈ items
  evaluating : c.args.evaluating = true ↔ .evaluating ∈ items
  balancing : c.args.balancing = true ↔ .balancing ∈ items
  gpl : c.args.evaluating = true ∨ c.args.balancing = true → gpl = true

end Verif.Cmd
