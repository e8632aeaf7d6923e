import Verif.YamlSpec
import Verif.BalancingRun

/-!
# What a user writes for a configuration

For every section, `..In` is what a user can decide, where `none` stands for an omitted key, and `doc` is the section of
the yaml-file. Texts are quoted. Nothing here uses the functions that read documents.
-/

namespace Verif.Yml

open Cfg

/-- How numbers are written. -/
structure Writer where
  nat : Nat → Text
  num : ℚ → Text

/-- Plain scalars with a meaning of their own. -/
def special : List Text := ["~".toList, "null".toList, "true".toList, "false".toList]

/-- The written numbers are read as what they are, and the word `ignored` is no number. -/
structure Writer.Fits (w : Writer) (N : Numbers) : Prop where
  nat_plain : ∀ n < 2 ^ 64, w.nat n ∉ special
  nat_read : ∀ n < 2 ^ 64, N.nat (w.nat n) = some n
  num_plain : ∀ x, w.num x ∉ special
  num_not_nat : ∀ x, N.nat (w.num x) = none
  num_read : ∀ x, N.float (w.num x) = some x
  num_parse : ∀ x, N.parseF (Text.lower (w.num x)) = some (some x)
  num_finite : ∀ x, Text.lower (w.num x) ≠ "inf".toList ∧ Text.lower (w.num x) ≠ "infinity".toList
  ignored : N.nat "ignored".toList = none ∧ N.float "ignored".toList = none

/-- An optional number is small enough for an `u64`. -/
def Fits64 (o : Option Nat) : Prop := ∀ n, o = some n → n < 2 ^ 64

/-- A section with these keys, as far as they are given. -/
def sectionOf (fs : List (String × Option Yaml)) : Yaml :=
  .map (fs.filterMap fun f => f.2.map fun v => (f.1.toList, v))

def str (t : Text) : Yaml := .scalar true t
def flag (b : Bool) : Yaml := .scalar false (if b then "true".toList else "false".toList)

section
variable (w : Writer)

def count (n : Nat) : Yaml := .scalar false (w.nat n)
def number (x : ℚ) : Yaml := .scalar false (w.num x)

/-- A variant with content. -/
def tagged (name : String) (y : Yaml) : Yaml := .map [(name.toList, y)]

/-! ## Multi-ch-constructor -/

structure MultiChIn where
  fmiGraph : Text
  chGraph : Text
  dim : Nat
  minCost : Option ℚ
  accuracy : Option ℚ
  ratio : Option Text
  threads : Option Nat
  osmIds : Bool
  externalIds : Bool

def MultiChIn.doc (i : MultiChIn) : Yaml :=
  sectionOf
    [("fmi-graph", some (str i.fmiGraph)), ("contracted-graph", some (str i.chGraph)), ("dimension", some (count w i.dim)),
      ("minimum-cost", i.minCost.map (number w)), ("cost-accuracy", i.accuracy.map (number w)),
      ("contraction-ratio", i.ratio.map str), ("number_of_threads", i.threads.map (count w)),
      ("is_printing_osm-ids", some (flag i.osmIds)), ("is_using_external_edge-ids", some (flag i.externalIds))]

structure MultiChIn.Small (i : MultiChIn) : Prop where
  dim : i.dim < 2 ^ 64
  threads : Fits64 i.threads

/-- The configuration that is expected. -/
def MultiChIn.cfg (i : MultiChIn) : MultiCh where
  fmiGraph := i.fmiGraph
  chGraph := i.chGraph
  ratio := i.ratio.getD "99.8".toList
  dim := i.dim
  accuracy := i.accuracy.getD (1 / 10000)
  threads := i.threads.getD 4
  osmIds := i.osmIds
  externalIds := i.externalIds

/-! ## Writing -/

/-- A column: an id or `ignored`. -/
def columnDoc : Option Text → Yaml
  | some id => tagged "id" (str id)
  | none => .scalar false "ignored".toList

structure EdgesInfoIn where
  file : Text
  shortcuts : Option Bool
  denormalize : Option Bool
  ids : List (Option Text)

def EdgesInfoIn.doc (i : EdgesInfoIn) : Yaml :=
  sectionOf
    [("file", some (str i.file)), ("with_shortcuts", i.shortcuts.map flag),
      ("will_denormalize_metrics_by_mean", i.denormalize.map flag), ("ids", some (.seq (i.ids.map columnDoc)))]

def EdgesInfoIn.cfg (i : EdgesInfoIn) : EdgesInfo where
  file := i.file
  shortcuts := i.shortcuts.getD false
  header := true
  denormalize := i.denormalize.getD false
  ids := i.ids

structure GraphIn where
  mapFile : Text
  nodes : List (Option Text)
  shortcuts : Option Bool
  denormalize : Option Bool
  edges : List (Option Text)

def GraphIn.doc (i : GraphIn) : Yaml :=
  sectionOf
    [("map-file", some (str i.mapFile)), ("nodes", some (.seq (i.nodes.map columnDoc))),
      ("edges", some (sectionOf
        [("with_shortcuts", i.shortcuts.map flag), ("will_denormalize_metrics_by_mean", i.denormalize.map flag),
          ("ids", some (.seq (i.edges.map columnDoc)))]))]

def GraphIn.cfg (i : GraphIn) : GraphOut where
  mapFile := i.mapFile
  nodes := i.nodes
  edges :=
    { file := i.mapFile, shortcuts := i.shortcuts.getD false, header := false, denormalize := i.denormalize.getD false,
      ids := i.edges }

structure RoutePairsIn where
  file : Text
  seed : Option Nat
  maxCount : Nat

def RoutePairsIn.doc (i : RoutePairsIn) : Yaml :=
  sectionOf
    [("file", some (str i.file)),
      ("random_or_all", some (sectionOf [("seed", i.seed.map (count w)), ("max_count", some (count w i.maxCount))]))]

structure RoutePairsIn.Small (i : RoutePairsIn) : Prop where
  seed : Fits64 i.seed
  maxCount : i.maxCount < 2 ^ 64

def RoutePairsIn.cfg (i : RoutePairsIn) : RoutePairs where
  file := i.file
  seed := i.seed.getD 42
  maxCount := i.maxCount

/-! ## Balancing -/

structure MonitoringIn where
  edgesInfo : EdgesInfoIn
  smarts : Option Bool

def MonitoringIn.doc (i : MonitoringIn) : Yaml :=
  sectionOf [("edges-info", some i.edgesInfo.doc), ("export_vehicles_for_SMARTS", i.smarts.map flag)]

def MonitoringIn.cfg (i : MonitoringIn) : Monitoring where
  edgesInfo := i.edgesInfo.cfg
  smarts := i.smarts.getD false

def methodDoc : Bal.Method → Yaml
  | .explicitEuler c => tagged "explicit_euler" (sectionOf [("correction", some (number w c))])
  | .averaging => .scalar false "averaging".toList

structure BalancingIn where
  seed : Option Nat
  resultsDir : Text
  iter0 : Text
  iterI : Text
  multiCh : MultiChIn
  updates : Nat
  monitoring : MonitoringIn
  metricId : Text
  method : Bal.Method
  threads : Option Nat
  minNewMetric : Option ℚ
  isErrWhenZero : Option Bool

def BalancingIn.doc (i : BalancingIn) : Yaml :=
  sectionOf
    [("seed", i.seed.map (count w)), ("results-dir", some (str i.resultsDir)), ("iter-0-cfg", some (str i.iter0)),
      ("iter-i-cfg", some (str i.iterI)), ("multi-ch-constructor", some (i.multiCh.doc w)),
      ("number_of_metric-updates", some (count w i.updates)), ("monitoring", some i.monitoring.doc),
      ("optimizing_with", some (sectionOf [("metric-id", some (str i.metricId)), ("method", some (methodDoc w i.method))])),
      ("number_of_threads", i.threads.map (count w)), ("min_new_metric", i.minNewMetric.map (number w)),
      ("throw_err_when_new_metric_is_zero", i.isErrWhenZero.map flag)]

structure BalancingIn.Small (i : BalancingIn) : Prop where
  seed : Fits64 i.seed
  multiCh : i.multiCh.Small
  updates : i.updates + 1 < 2 ^ 64
  threads : Fits64 i.threads

def BalancingIn.cfg (i : BalancingIn) : Balancing where
  resultsDir := i.resultsDir
  multiCh := i.multiCh.cfg
  iter0 := i.iter0
  iterI := i.iterI
  metricId := i.metricId
  method := i.method
  numIter := i.updates + 1
  monitoring := i.monitoring.cfg
  threads := i.threads.getD 4
  seed := i.seed.getD 42
  minNewMetric := i.minNewMetric
  isErrWhenZero := i.isErrWhenZero.getD true

structure EvaluatingIn where
  seed : Option Nat
  resultsDir : Text
  monitoring : MonitoringIn
  threads : Option Nat

def EvaluatingIn.doc (i : EvaluatingIn) : Yaml :=
  sectionOf
    [("seed", i.seed.map (count w)), ("results-dir", some (str i.resultsDir)), ("monitoring", some i.monitoring.doc),
      ("number_of_threads", i.threads.map (count w))]

structure EvaluatingIn.Small (i : EvaluatingIn) : Prop where
  seed : Fits64 i.seed
  threads : Fits64 i.threads

def EvaluatingIn.cfg (i : EvaluatingIn) : Evaluating where
  seed := i.seed.getD 42
  resultsDir := i.resultsDir
  monitoring := i.monitoring.cfg
  threads := i.threads.getD 4

/-! ## Routing -/

/-- A tolerated scale: infinite is written as `inf`. -/
def toleranceDoc : Option ℚ → Yaml
  | some x => number w x
  | none => .scalar false "inf".toList

/-- A metric; the outer option of the tolerance is whether it is given, the inner one whether it is finite. -/
structure EntryIn where
  id : Text
  alpha : Option ℚ
  tolerance : Option (Option ℚ)

def EntryIn.doc (i : EntryIn) : Yaml :=
  sectionOf
    [("id", some (str i.id)), ("alpha", i.alpha.map (number w)), ("tolerated-scale", i.tolerance.map (toleranceDoc w))]

def algoDoc : Algo → Yaml
  | .dijkstra => .scalar true "Dijkstra".toList
  | .chDijkstra => .scalar true "CHDijkstra".toList
  | .explorator ch =>
    tagged "Explorator" (sectionOf [("algo", some (.scalar true (if ch then "CHDijkstra".toList else "Dijkstra".toList)))])

structure RoutingIn where
  pairsFile : Option Text
  algo : Algo
  metrics : List EntryIn

def RoutingIn.doc (i : RoutingIn) : Yaml :=
  sectionOf
    [("route-pairs-file", i.pairsFile.map str), ("algorithm", some (algoDoc i.algo)),
      ("metrics", some (.seq (i.metrics.map (EntryIn.doc w))))]

/-- The entries without omitted parts. -/
def EntryIn.entry (i : EntryIn) : Entry where
  id := i.id
  alpha := i.alpha.getD 1
  tolerance := i.tolerance.getD none

/-! ## Parsing -/

def unitName : Cfg.Unit → String
  | .meters => "Meters"
  | .kilometers => "Kilometers"
  | .seconds => "Seconds"
  | .minutes => "Minutes"
  | .hours => "Hours"
  | .kmh => "KilometersPerHour"
  | .laneCount => "LaneCount"
  | .f64 => "F64"

/-- The names of the blueprint for the infos of edges; `none` if it has none. -/
def edgeInfoName : MetaInfo → Option String
  | .edgeId => some "EdgeId"
  | .srcId => some "SrcId"
  | .dstId => some "DstId"
  | .shortcutIdx0 => some "ShortcutIdx0"
  | .shortcutIdx1 => some "ShortcutIdx1"
  | _ => none

def nodeInfoName : NodeInfo → Option String
  | .nodeId => some "NodeId"
  | .chLevel => some "CHLevel"
  | .nodeIdx => none

def nodeUnitName : NodeUnit → Option String
  | .latitude => some "Latitude"
  | .longitude => some "Longitude"
  | .height => none

/-- The names that are accepted for generated infos of edges. -/
def genInfoName : GenInfo → Option String
  | .edgeId => some "EdgeId"
  | .srcIdx => some "SrcIdx"
  | .srcLat => some "SrcLat"
  | .srcLon => some "SrcLon"
  | .dstIdx => some "DstIdx"
  | .dstLat => some "DstLat"
  | .dstLon => some "DstLon"
  | .shortcutIdx0 => none
  | .shortcutIdx1 => none

def name (s : String) : Yaml := .scalar true s.toList

def ignoredDoc : Yaml := .scalar false "ignored".toList

/-- A column of an edge; `none` if it can't be named. -/
def edgeCatDoc : EdgeCat → Option Yaml
  | .info i id => (edgeInfoName i).map fun s => tagged "meta" (sectionOf [("info", some (name s)), ("id", some (str id))])
  | .metric u id => some (tagged "metric" (sectionOf [("unit", some (name (unitName u))), ("id", some (str id))]))
  | .ignored => some ignoredDoc

def nodeCatDoc : NodeCat → Option Yaml
  | .info i id => (nodeInfoName i).map fun s => tagged "meta" (sectionOf [("info", some (name s)), ("id", some (str id))])
  | .metric u id => (nodeUnitName u).map fun s => tagged "metric" (sectionOf [("unit", some (name s)), ("id", some (str id))])
  | .ignored => some ignoredDoc

def genMetricDoc (m : GenMetric) : Yaml := sectionOf [("unit", some (name (unitName m.unit))), ("id", some (str m.id))]

/-- What is generated for edges, with everything spelled out. -/
inductive GenIn where
  | info (info : GenInfo) (id : Text)
  | custom (unit : Option Cfg.Unit) (id : Text) (default : Option ℚ)
  | haversine (unit : Cfg.Unit) (id : Text)
  | copy (src dst : GenMetric)
  | convert (src dst : GenMetric)
  | calc (result a b : GenMetric)
  | merge (path : Text) (withHeader : Option Bool) (edgeId : Text) (cols : List (Option Text))

def GenIn.doc : GenIn → Option Yaml
  | .info i id => (genInfoName i).map fun s => tagged "meta" (sectionOf [("info", some (name s)), ("id", some (str id))])
  | .custom u id x =>
    some (tagged "custom" (sectionOf
      [("unit", u.map fun u => name (unitName u)), ("id", some (str id)), ("default", x.map (number w))]))
  | .haversine u id => some (tagged "haversine" (sectionOf [("unit", some (name (unitName u))), ("id", some (str id))]))
  | .copy a b => some (tagged "copy" (sectionOf [("from", some (genMetricDoc a)), ("to", some (genMetricDoc b))]))
  | .convert a b => some (tagged "convert" (sectionOf [("from", some (genMetricDoc a)), ("to", some (genMetricDoc b))]))
  | .calc r a b =>
    some (tagged "calc" (sectionOf
      [("result", some (genMetricDoc r)), ("a", some (genMetricDoc a)), ("b", some (genMetricDoc b))]))
  | .merge path header id cols =>
    some (tagged "merge" (sectionOf
      [("from", some (str path)), ("with_header-line", header.map flag), ("edge-id", some (str id)),
        ("edges-info", some (.seq (cols.map columnDoc)))]))

/-- `lines` are the lines of a file. -/
def GenIn.cat (lines : Text → Option (List Text)) : GenIn → GenCat
  | .info i id => .info i id
  | .custom u id x => .custom (u.getD .f64) id (x.getD 0)
  | .haversine u id => .haversine u id
  | .copy a b => .copy a b
  | .convert a b => .convert a b
  | .calc r a b => .calc r a b
  | .merge path header id cols => .merge (lines path) (header.getD true) id cols

def vehicleName : Osm.Vehicle → String
  | .car => "Car"
  | .bicycle => "Bicycle"
  | .pedestrian => "Pedestrian"

structure ParsingIn where
  mapFile : Text
  vehicles : Option (Osm.Vehicle × Bool)
  nodes : List NodeCat
  normalized : Option Bool
  edges : List EdgeCat
  /-- The ids of the indices of nodes, and what is generated for edges. -/
  generating : Option (List Text × List GenIn)

/-- What is generated for a node: only its index can be. -/
def genNodeDoc (id : Text) : Yaml :=
  tagged "meta" (sectionOf [("info", some (name "NodeIdx")), ("id", some (str id))])

/-- The section, if everything has a name. -/
def ParsingIn.doc (i : ParsingIn) : Option Yaml := do
  let nodes ← i.nodes.mapM nodeCatDoc
  let edges ← i.edges.mapM edgeCatDoc
  let gens ← ((i.generating.map Prod.snd).getD []).mapM (GenIn.doc w)
  pure (sectionOf
    [("map-file", some (str i.mapFile)),
      ("vehicles", i.vehicles.map fun v =>
        sectionOf [("category", some (name (vehicleName v.1))), ("are_drivers_picky", some (flag v.2))]),
      ("nodes", some (.seq nodes)),
      ("edges", some (sectionOf [("will_normalize_metrics_by_mean", i.normalized.map flag), ("data", some (.seq edges))])),
      ("generating", i.generating.map fun g =>
        sectionOf [("nodes", some (.seq (g.1.map genNodeDoc))), ("edges", some (.seq gens))])])

def ParsingIn.cfg (lines : Text → Option (List Text)) (i : ParsingIn) : Parsing where
  vehicle := (i.vehicles.map Prod.fst).getD .car
  picky := (i.vehicles.map Prod.snd).getD true
  nodes := i.nodes
  edges :=
    { cats := i.edges, normalized := i.normalized.getD false
      units := i.edges.filterMap fun | .metric u _ => some u | _ => none
      ids := i.edges.filterMap fun | .metric _ id => some id | _ => none }
  generating := i.generating.map fun g =>
    { nodes := g.1.map fun id => { info := .nodeIdx, id }, edges := g.2.map (GenIn.cat lines) }

end

end Verif.Yml
