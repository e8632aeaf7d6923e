import Verif.Evaluate
import Verif.ParallelExploratorSpec
import Verif.ToolSpec
import Verif.FmiSpec
import Verif.YamlDocSpec

/-!
# What is expected of an evaluation

Specification only.
-/

namespace Verif.Session

open Gen Text
open Yml (Yaml Writer RoutingIn EvaluatingIn)

/-- Nothing but an evaluation is asked for. -/
def onlyEvaluating : Tool.Args where
  graph := false
  edges := false
  routePairs := false
  routing := false
  evaluating := true
  balancing := false

/-- The document asks for routing with these settings, and for an evaluation with those. -/
structure AsksForEvaluation (wr : Writer) (numbers : Yml.Numbers) (doc : Yaml) (ir : RoutingIn) (ei : EvaluatingIn) :
    Prop where
  writer : wr.Fits numbers
  routing : Yml.valuesAt ["routing"] doc = [ir.doc wr]
  evaluating : Yml.valuesAt ["evaluating_balance"] doc = [ei.doc wr]
  small : ei.Small

/-- What is counted for a route-pair that has been reported like this: its count times a path with the reported costs,
or its count times one of the reported paths. Paths don't contain shortcuts. -/
def Counted (g : Graph) (x : Routes.Route × Report) (qs : List Path) : Prop :=
  (∀ q ∈ qs, ∀ e ∈ q.edges, e < g.edgeCount ∧ g.scEdgesOf e = .ok none) ∧
  match x.2 with
  | .nothing a b => a.id = x.1.src ∧ b.id = x.1.dst ∧ qs = []
  | .costs a b cs => a.id = x.1.src ∧ b.id = x.1.dst ∧
      ∃ q, qs = List.replicate x.1.count q ∧ g.IsCost q.edges cs
  | .found a b ps => a.id = x.1.src ∧ b.id = x.1.dst ∧
      qs.length = x.1.count ∧ ∀ q ∈ qs, ∃ p ∈ ps, Par.FlattensTo g p q

/-- The counted paths lead from the source to the destination. -/
def Leading (g : Graph) (x : Routes.Route × Report) (qs : List Path) : Prop :=
  ∃ src dst, g.nodeId src = .ok x.1.src ∧ g.nodeId dst = .ok x.1.dst ∧ ∀ q ∈ qs, g.IsRoute src q.edges dst

/-- The file has a line for every edge, maybe except of shortcuts: the edge's id and its number. The names of these
columns may be above. -/
def LoadsFile (net : Net) (header shortcuts : Bool) (number : Nat → Nat) (file : List Text) : Prop :=
  ∃ name lines, .info .edgeId name ∈ net.edges.cats ∧
    file = (if header then [join ' ' [name, "num_routes".toList]] else []) ++ lines ∧
    List.Forall₂ (fun e line => ∃ id, net.graph.tryId e = .ok (some id) ∧
      line = join ' ' [printNat id, printNat (number e)]) (Fmi.writtenEdges net.graph shortcuts) lines

end Verif.Session
