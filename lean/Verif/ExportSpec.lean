import Verif.Export
import Verif.SessionStreetsSpec
import Verif.FmiSpec

/-!
# Specification used by the properties of exported maps

Nothing here models code.
-/

namespace Verif.Session

open Text Cfg Yml

/-- The column of a metric that is added by generating this. -/
def addedColumn : GenCat → Option EdgeCat
  | .custom unit id _ => some (.metric unit id)
  | .haversine unit id => some (.metric unit id)
  | .copy _ dst => some (.metric dst.unit dst.id)
  | .calc result _ _ => some (.metric result.unit result.id)
  | _ => none

/-- The columns of edges: those of the map, then those that are generated. -/
def edgeColumns (ip : ParsingIn) (gen : Generating) : List EdgeCat := ip.edges ++ gen.edges.filterMap addedColumn

/-- The user exports all columns of the map, where nothing but metrics is generated. -/
structure Exports (doc : Yaml) (ip : ParsingIn) (gen : Generating) (gi : GraphIn) : Prop where
  keys : UniqueKeys doc
  writing : valuesAt ["writing", "graph"] doc = [gi.doc]
  nodes : gi.nodes = ip.nodes.map Fmi.idOfNode
  edges : gi.edges = (edgeColumns ip gen).map EdgeCat.id?
  shortcuts : gi.shortcuts = some true
  onlyNodes : gen.nodes = []
  onlyMetrics : ∀ c ∈ gen.edges, addedColumn c ≠ none

/-- The user routes on the exported map, with the same settings for routing. -/
structure Imports (wr : Writer) (doc : Yaml) (ip : ParsingIn) (ir : RoutingIn) (gen : Generating)
    (gi : GraphIn) (ip' : ParsingIn) : Prop where
  parsing : ∃ y, ip'.doc wr = some y ∧ valuesAt ["parsing"] doc = [y]
  routing : valuesAt ["routing"] doc = [ir.doc wr]
  map : ip'.mapFile = gi.mapFile
  nodes : ip'.nodes = ip.nodes
  edges : ip'.edges = edgeColumns ip gen
  normalized : ip'.normalized.getD false = false
  generating : ip'.generating = none
  /-- Nodes have columns that can be read, and no name is given twice. -/
  nodeCols : Fmi.NodeCols ip.nodes
  nodeNames : (ip.nodes.filterMap Fmi.idOfNode).Nodup
  /-- Edges have a source and a destination. -/
  src : ip.edges.countP (Fmi.isInfo .srcId) = 1
  dst : ip.edges.countP (Fmi.isInfo .dstId) = 1
  few : (edgeColumns ip gen).length ≤ maxUsize

/-- The tool is called with `--writing-graph` and nothing else. -/
def onlyGraph : Tool.Args :=
  { graph := true, edges := false, routePairs := false, routing := false, evaluating := false, balancing := false }

/-- The numbers of a graph can be written and read without loss, and no metric is close to zero. -/
def Lossless (c : Fmi.Codec) (denormalize : Bool) (net : Gen.Net) : Prop :=
  Fmi.Printable c net denormalize ∧
    ∀ m ∈ net.graph.metrics, ∀ x ∈ m, x = 1 / 1000000 ∨ 3 / 2000000 ≤ x

end Verif.Session
