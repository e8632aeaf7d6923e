import Verif.Fmi
import Verif.GeneratingSpec
import Verif.TextLemmas

/-!
# Specification used by the properties of fmi-files

Nothing here models code.
-/

namespace Verif.Fmi

open Cfg Text
open Build (ProtoEdge ProtoNode)
open Gen (Net value)

/-- Reading the text of a number yields this number. The text is a word and no comment. -/
structure Codec.Exact (c : Codec) (x : ℚ) : Prop where
  parse : c.parseF (c.printF x) = some x
  word : IsWord (c.printF x)
  noComment : (c.printF x).head? ≠ some '#'

/-- The edges to write: all, or those that are no shortcuts. -/
def writtenEdges (g : Graph) (shortcuts : Bool) : List Nat :=
  (List.range g.edgeCount).filter fun e => shortcuts || decide (g.isShortcut e = .ok false)

/-- `y` is the value of metric `k` of edge `e`, multiplied by the metric's mean if the graph is normalized and
the original value is wanted. -/
def OutValue (s : Net) (denormalize : Bool) (e k : Nat) (y : ℚ) : Prop :=
  ∃ x, value s.graph.metrics e k = some x ∧
    match denormalize, s.graph.means with
    | true, some means => ∃ mean, means[k]? = some mean ∧ y = x * mean
    | _, _ => y = x

/-- The text is the value of this category for edge `e`. -/
def CellIs (c : Codec) (s : Net) (denormalize : Bool) (e : Nat) (t : Text) : EdgeCat → Prop
  | .info .edgeId _ => ∃ id, s.graph.tryId e = .ok (some id) ∧ t = printNat id
  | .info .srcId _ => ∃ u v id, s.graph.IsEdge e u v ∧ s.graph.nodeId u = .ok id ∧ t = printInt id
  | .info .dstId _ => ∃ u v id, s.graph.IsEdge e u v ∧ s.graph.nodeId v = .ok id ∧ t = printInt id
  | .info .srcIdx _ => ∃ u v, s.graph.IsEdge e u v ∧ t = printNat u
  | .info .dstIdx _ => ∃ u v, s.graph.IsEdge e u v ∧ t = printNat v
  | .info .srcLat _ => ∃ u v x, s.graph.IsEdge e u v ∧ s.graph.nodeCoord u = .ok x ∧ t = c.printF x.lat
  | .info .srcLon _ => ∃ u v x, s.graph.IsEdge e u v ∧ s.graph.nodeCoord u = .ok x ∧ t = c.printF x.lon
  | .info .dstLat _ => ∃ u v x, s.graph.IsEdge e u v ∧ s.graph.nodeCoord v = .ok x ∧ t = c.printF x.lat
  | .info .dstLon _ => ∃ u v x, s.graph.IsEdge e u v ∧ s.graph.nodeCoord v = .ok x ∧ t = c.printF x.lon
  | .info .shortcutIdx0 _ => ∃ o, s.graph.scEdgesOf e = .ok o ∧
      ((∃ p, o = some p ∧ t = printNat p.1) ∨ (o = none ∧ t = "-1".toList))
  | .info .shortcutIdx1 _ => ∃ o, s.graph.scEdgesOf e = .ok o ∧
      ((∃ p, o = some p ∧ t = printNat p.2) ∨ (o = none ∧ t = "-1".toList))
  | .metric _ id => ∃ (k : Nat) (y : ℚ), s.edges.ids[k]? = some id ∧ (∀ j : Nat, j < k → s.edges.ids[j]? ≠ some id) ∧
      OutValue s denormalize e k y ∧ t = c.printF y
  | .ignored => False

/-- The text is the value of this category for node `i`. -/
def NodeCellIs (c : Codec) (g : Graph) (i : Nat) (t : Text) : NodeCat → Prop
  | .info .nodeId _ => ∃ id, g.nodeId i = .ok id ∧ t = printInt id
  | .info .nodeIdx _ => t = printNat i
  | .info .chLevel _ => ∃ lv, g.nodeLevel i = .ok lv ∧ t = printNat lv
  | .metric .latitude _ => ∃ x, g.nodeCoord i = .ok x ∧ t = c.printF x.lat
  | .metric .longitude _ => ∃ x, g.nodeCoord i = .ok x ∧ t = c.printF x.lon
  | .metric .height _ => False
  | .ignored => False

/-- The category is the first one with this id. -/
def FirstCat {α : Type} (idOf : α → Option Text) (cats : List α) (id : Text) (cat : α) : Prop :=
  ∃ n : Nat, cats[n]? = some cat ∧ idOf cat = some id ∧
    ∀ (m : Nat) (d : α), m < n → cats[m]? = some d → idOf d ≠ some id

/-- The id of a category for nodes. -/
def idOfNode : NodeCat → Option Text
  | .info _ id => some id
  | .metric _ id => some id
  | .ignored => none

/-- Everything that is written fits into the types of the reader. -/
structure Printable (c : Codec) (s : Net) (denormalize : Bool) : Prop where
  nodeCount : s.graph.nodeCount ≤ maxUsize
  edgeCount : s.graph.edgeCount ≤ maxUsize
  dim : s.edges.ids.length ≤ maxUsize
  nodeId : ∀ i id, s.graph.nodeId i = .ok id → -(maxI64 : Int) - 1 ≤ id ∧ id ≤ maxI64
  level : ∀ i lv, s.graph.nodeLevel i = .ok lv → lv ≤ maxUsize
  coord : ∀ i x, s.graph.nodeCoord i = .ok x → c.Exact x.lat ∧ c.Exact x.lon
  edgeId : ∀ e id, s.graph.tryId e = .ok (some id) → id ≤ maxUsize
  sc : ∀ e p, s.graph.scEdgesOf e = .ok (some p) → p.1 ≤ maxUsize ∧ p.2 ≤ maxUsize
  metrics : ∀ e k y, OutValue s denormalize e k y → c.Exact y

/-- Is this a column for this information? -/
def isInfo (info : MetaInfo) : EdgeCat → Bool
  | .info i _ => decide (i = info)
  | _ => false

/-- The columns can be parsed: both ends once, each shortcut-index at most once, nothing unsupported. -/
structure EdgeCols (cats : List EdgeCat) : Prop where
  src : cats.countP (isInfo .srcId) = 1
  dst : cats.countP (isInfo .dstId) = 1
  sc0 : cats.countP (isInfo .shortcutIdx0) ≤ 1
  sc1 : cats.countP (isInfo .shortcutIdx1) ≤ 1
  supported : ∀ info ∈ [MetaInfo.srcIdx, .srcLat, .srcLon, .dstIdx, .dstLat, .dstLon],
    cats.countP (isInfo info) = 0

/-- The columns can be parsed. -/
def NodeCols (cats : List NodeCat) : Prop :=
  ∀ id, .info .nodeIdx id ∉ cats ∧ .metric .height id ∉ cats

/-- A written column is read as this category: the graph has this category under the column's id. An ignored
column may contain anything. -/
def Fits {α : Type} (idOf : α → Option Text) (ignored : α) (cats : List α) (col : Option Text) (cat : α) : Prop :=
  cat = ignored ∨ ∃ id, col = some id ∧ FirstCat idOf cats id cat

/-- The ids of the metrics. -/
def metricIds (cats : List EdgeCat) : List Text :=
  cats.filterMap fun
    | .metric _ id => some id
    | _ => none

/-- The edge that is read is edge `e`, as far as there are columns. -/
structure ReadsAs (s : Net) (cats : List EdgeCat) (denormalize : Bool) (e : Nat) (pe : ProtoEdge) : Prop where
  id : 0 < cats.countP (isInfo .edgeId) → s.graph.tryId e = .ok pe.id
  noId : cats.countP (isInfo .edgeId) = 0 → pe.id = none
  src : ∃ u, s.graph.dstIdx .bwd e = .ok u ∧ s.graph.nodeId u = .ok pe.srcId
  dst : ∃ v, s.graph.dstIdx .fwd e = .ok v ∧ s.graph.nodeId v = .ok pe.dstId
  metrics : List.Forall₂ (fun id y => ∃ k : Nat, s.edges.ids[k]? = some id ∧ OutValue s denormalize e k y)
    (metricIds cats) pe.metrics
  sc : 0 < cats.countP (isInfo .shortcutIdx0) → 0 < cats.countP (isInfo .shortcutIdx1) →
    s.graph.scEdgesOf e = .ok pe.sc
  noSc : cats.countP (isInfo .shortcutIdx0) = 0 ∨ cats.countP (isInfo .shortcutIdx1) = 0 → pe.sc = none

/-- The node that is read is node `i`, as far as there are columns. -/
structure NodeReadsAs (g : Graph) (cats : List NodeCat) (i : Nat) (pn : ProtoNode) : Prop where
  id : g.nodeId i = .ok pn.id
  coord : g.nodeCoord i = .ok pn.coord
  level : (∃ n, .info .chLevel n ∈ cats) → ∃ lv, g.nodeLevel i = .ok lv ∧ pn.level = some lv
  noLevel : (∀ n, .info .chLevel n ∉ cats) → pn.level = none

/-- Everything that shall be written is available. -/
structure Writable (s : Net) (w : WriteCfg) : Prop where
  nodes : ∀ id, some id ∈ w.nodes → ∃ cat, FirstCat idOfNode s.nodes id cat ∧ ∀ n, cat ≠ .metric .height n
  edges : ∀ id, some id ∈ w.edges → ∃ cat, FirstCat EdgeCat.id? s.edges.cats id cat
  ids : ∀ id n, some id ∈ w.edges → FirstCat EdgeCat.id? s.edges.cats id (.info .edgeId n) →
    ∀ e ∈ writtenEdges s.graph w.shortcuts, ∃ x, s.graph.tryId e = .ok (some x)
  means : w.denormalize = true → ∀ means, s.graph.means = some means → means.length = s.edges.ids.length

/-- All columns of the graph in their order. -/
def allColumns (s : Net) (shortcuts denormalize : Bool) : WriteCfg :=
  { nodes := s.nodes.map idOfNode, edges := s.edges.cats.map EdgeCat.id?, shortcuts, denormalize }

/-- The columns contain everything the graph knows. -/
structure Complete (s : Net) : Prop where
  ids : 0 < s.edges.cats.countP (isInfo .edgeId) ∨ ∀ e < s.graph.edgeCount, s.graph.tryId e = .ok none
  sc : (0 < s.edges.cats.countP (isInfo .shortcutIdx0) ∧ 0 < s.edges.cats.countP (isInfo .shortcutIdx1)) ∨
    ∀ e < s.graph.edgeCount, s.graph.scEdgesOf e = .ok none
  levels : (∃ n, .info .chLevel n ∈ s.nodes) ∨ ∀ i < s.graph.nodeCount, s.graph.nodeLevel i = .ok 0

/-- Is this a column for a metric? -/
def isMetricCol (cats : List EdgeCat) (col : Option Text) : Bool :=
  cats.any fun
    | .metric _ id => decide (col = some id)
    | _ => false

/-- The column contains what it should. -/
def ColumnIs (c : Codec) (s : Net) (denormalize : Bool) (e : Nat) (col : Option Text) (t : Text) : Prop :=
  (col = none ∧ t = "_".toList) ∨
    ∃ id cat, col = some id ∧ FirstCat EdgeCat.id? s.edges.cats id cat ∧ CellIs c s denormalize e t cat

/-- The column contains what it should. -/
def NodeColumnIs (c : Codec) (s : Net) (i : Nat) (col : Option Text) (t : Text) : Prop :=
  (col = none ∧ t = "_".toList) ∨
    ∃ id cat, col = some id ∧ FirstCat idOfNode s.nodes id cat ∧ NodeCellIs c s.graph i t cat

/-- The text can be split behind its second byte. -/
def Prefix2 (p : Text) : Prop := ∃ a b, p = a ++ b ∧ (a.map Char.utf8Size).sum = 2

/-- A comment. -/
def IsComment (line : Text) : Prop := line.head? = some '#'

/-- Without comments and empty lines. -/
def functional (file : List Text) : List Text :=
  file.filter fun line => decide (line ≠ [] ∧ line.head? ≠ some '#')

end Verif.Fmi
