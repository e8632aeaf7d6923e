import Verif.Yaml
import Verif.Config
import Verif.BalancingRun

/-!
# The configurations in yaml-files

Model of `src/configs/**` and `src/multi_ch_constructor/configs.rs`, from the document to the final configuration. The
copies between `Raw..`, `Proto..` and final types are put together. Opening the file and checking the extensions of
files (`try_from_yaml`) are left out; see `Tool.lean` for the extensions.
-/

namespace Verif.Yml

open Cfg

section
variable (N : Numbers)

/-! ## Multi-ch-constructor -/

/-- `src/multi_ch_constructor/configs.rs:8-19` `Config`. -/
structure MultiCh where
  fmiGraph : Text
  chGraph : Text
  ratio : Text
  dim : Nat
  accuracy : ℚ
  threads : Nat
  osmIds : Bool
  externalIds : Bool
deriving DecidableEq

/-- `src/multi_ch_constructor/configs.rs:145-165` `RawContent` and the conversions 86-102,119-135, with
`src/multi_ch_constructor/defaults.rs:1-3`. The minimal cost is read but not used. -/
def multiChContent (buf : Bool) : Dec MultiCh :=
  closed ["fmi-graph", "contracted-graph", "dimension", "minimum-cost", "cost-accuracy", "contraction-ratio",
      "number_of_threads", "is_printing_osm-ids", "is_using_external_edge-ids"] fun es => do
    let fmiGraph ← req "fmi-graph" (text N buf) es
    let chGraph ← req "contracted-graph" (text N buf) es
    let dim ← req "dimension" (nat N) es
    let _minCost ← opt "minimum-cost" (num N) es
    let accuracy ← opt "cost-accuracy" (num N) es
    let ratio ← opt "contraction-ratio" (text N buf) es
    let threads ← opt "number_of_threads" (nat N) es
    let osmIds ← req "is_printing_osm-ids" (bool N) es
    let externalIds ← req "is_using_external_edge-ids" (bool N) es
    pure { fmiGraph, chGraph, ratio := ratio.getD "99.8".toList, dim, accuracy := accuracy.getD (1 / 10000),
           threads := threads.getD 4, osmIds, externalIds }

/-- `src/multi_ch_constructor/configs.rs:27-41,137-142` `RawConfig`: its own section of a document. -/
def multiCh : Dec MultiCh := open_ (req "multi-ch-constructor" (multiChContent N false))

/-- `src/multi_ch_constructor/mod.rs:11-25`: the arguments of `cmake`, which prepares the build. `printF` is `Display` for
`f64`. -/
def buildArgs (printF : ℚ → Text) (c : MultiCh) : List Text :=
  ["-Bbuild".toList, "-D".toList, "GRAPH_DIM=".toList ++ Text.printNat c.dim,
    "-D".toList, "COST_ACCURACY=".toList ++ printF c.accuracy]

/-- `src/multi_ch_constructor/mod.rs:48-69`: the arguments of `multi-ch`. Simplification: paths are valid unicode. -/
def constructArgs (c : MultiCh) : List Text :=
  ["--threads".toList, Text.printNat c.threads,
    (if c.osmIds then "--using-osm-ids".toList else []),
    (if c.externalIds then "--external-edge-ids".toList else []),
    "--text".toList, c.fmiGraph, "--percent".toList, c.ratio, "--write".toList, c.chGraph]

/-! ## Writing -/

/-- `src/configs/writing/network/edges.rs:13-21` `Config`. A column without id is ignored. -/
structure EdgesInfo where
  file : Text
  shortcuts : Bool
  header : Bool
  denormalize : Bool
  ids : List (Option Text)
deriving DecidableEq

/-- `src/configs/writing/network/edges.rs:174-179` `RawCategory`, the same as
`src/configs/writing/network/graph/nodes.rs:38-43` and `src/configs/parsing/generating/edges/merge.rs:34-39`. -/
def column (buf : Bool) : Dec (Option Text) :=
  firstOf [variant "id" fun y => (text N buf y).map some, names N buf [("ignored", none)]]

/-- `src/configs/writing/network/edges.rs:162-172` `RawContent` and the conversions 35-50,129-147, with
`src/defaults.rs:41,59,60`. -/
def edgesInfoContent (buf : Bool) : Dec EdgesInfo :=
  closed ["file", "with_shortcuts", "will_denormalize_metrics_by_mean", "ids"] fun es => do
    let file ← req "file" (text N buf) es
    let shortcuts ← opt "with_shortcuts" (bool N) es
    let denormalize ← opt "will_denormalize_metrics_by_mean" (bool N) es
    let ids ← req "ids" (vec (column N buf)) es
    pure { file, shortcuts := shortcuts.getD false, header := true, denormalize := denormalize.getD false, ids }

/-- `src/configs/writing/network/edges.rs:63-87,149-160` `WrappedRawConfig` and `RawConfig`. -/
def edgesInfo : Dec EdgesInfo := open_ (req "writing" (open_ (req "edges-info" (edgesInfoContent N false))))

/-- `src/configs/writing/network/graph/mod.rs:14-20` `Config`. -/
structure GraphOut where
  mapFile : Text
  nodes : List (Option Text)
  edges : EdgesInfo
deriving DecidableEq

/-- `src/configs/writing/network/graph/mod.rs:140-156` `raw_edges`; `file` is the one of the map (67-90,100-117). -/
def graphEdges (file : Text) : Dec EdgesInfo :=
  closed ["with_shortcuts", "will_denormalize_metrics_by_mean", "ids"] fun es => do
    let shortcuts ← opt "with_shortcuts" (bool N) es
    let denormalize ← opt "will_denormalize_metrics_by_mean" (bool N) es
    let ids ← req "ids" (vec (column N false)) es
    pure { file, shortcuts := shortcuts.getD false, header := false, denormalize := denormalize.getD false, ids }

/-- `src/configs/writing/network/graph/mod.rs:131-138` `RawContent`. -/
def graphContent : Dec GraphOut :=
  closed ["map-file", "nodes", "edges"] fun es => do
    let mapFile ← req "map-file" (text N false) es
    let nodes ← req "nodes" (vec (column N false)) es
    let edges ← req "edges" (graphEdges N mapFile) es
    pure { mapFile, nodes, edges }

/-- `src/configs/writing/network/graph/mod.rs:29-58,119-129` `WrappedRawConfig` and `RawConfig`. -/
def graphOut : Dec GraphOut := open_ (req "writing" (open_ (req "graph" (graphContent N))))

/-- `src/configs/writing/routing.rs:12-17,75-78` `Config` and `Category`. -/
structure RoutePairs where
  file : Text
  seed : Nat
  maxCount : Nat
deriving DecidableEq

/-- `src/configs/writing/routing.rs:146-150` `RawCategory`: unknown keys are ignored. The seed is `src/defaults.rs:1`. -/
def randomOrAll : Dec (Nat × Nat) :=
  open_ fun es => do
    let seed ← opt "seed" (nat N) es
    let maxCount ← req "max_count" (nat N) es
    pure (seed.getD 42, maxCount)

/-- `src/configs/writing/routing.rs:138-144` `RawContent`. The flattened enum takes the first entry with a variant's name;
a further one is left over and hence unknown. -/
def routePairsContent : Dec RoutePairs :=
  closed ["file", "random_or_all"] fun es => do
    let file ← req "file" (text N false) es
    let (seed, maxCount) ← req "random_or_all" (randomOrAll N) es
    pure { file, seed, maxCount }

/-- `src/configs/writing/routing.rs:35-64,126-136` `WrappedRawConfig` and `RawConfig`. -/
def routePairs : Dec RoutePairs := open_ (req "writing" (open_ (req "route-pairs" (routePairsContent N))))

/-! ## Balancing -/

/-- `src/configs/balancing.rs:152-155` `MonitoringConfig`. -/
structure Monitoring where
  edgesInfo : EdgesInfo
  smarts : Bool
deriving DecidableEq

/-- `src/configs/balancing.rs:281-288` `RawMonitoringConfig` with `src/defaults.rs:64`: the section of the edges is
flattened, hence buffered. -/
def monitoring : Dec Monitoring :=
  closed ["edges-info", "export_vehicles_for_SMARTS"] fun es => do
    let edgesInfo ← req "edges-info" (edgesInfoContent N true) es
    let smarts ← opt "export_vehicles_for_SMARTS" (bool N) es
    pure { edgesInfo, smarts := smarts.getD false }

/-- `src/configs/balancing.rs:298-309` `RawOptimizationMethod`. -/
def method : Dec Bal.Method :=
  firstOf
    [variant "explicit_euler" (closed ["correction"] fun es => (req "correction" (num N) es).map Bal.Method.explicitEuler),
      names N false [("averaging", Bal.Method.averaging)]]

/-- `src/configs/balancing.rs:290-296` `RawOptimization`. -/
def optimization : Dec (Text × Bal.Method) :=
  closed ["metric-id", "method"] fun es => do
    let metricId ← req "metric-id" (text N false) es
    let m ← req "method" (method N) es
    pure (metricId, m)

/-- `src/configs/balancing.rs:14-27` `Config`. -/
structure Balancing where
  resultsDir : Text
  multiCh : MultiCh
  iter0 : Text
  iterI : Text
  metricId : Text
  method : Bal.Method
  numIter : Nat
  monitoring : Monitoring
  threads : Nat
  seed : Nat
  minNewMetric : Option ℚ
  isErrWhenZero : Bool
deriving DecidableEq

/-- `src/configs/balancing.rs:168-182` `ProtoConfig`, the configuration before the number of iterations is known: here,
`numIter` is the number of updates. `src/configs/balancing.rs:257-279` `RawContent`: the section of the
multi-ch-constructor is flattened, hence buffered. Defaults: `src/defaults.rs:1,105,106`. -/
def balancingContent : Dec Balancing :=
  closed ["seed", "results-dir", "iter-0-cfg", "iter-i-cfg", "multi-ch-constructor", "number_of_metric-updates",
      "monitoring", "optimizing_with", "number_of_threads", "min_new_metric", "throw_err_when_new_metric_is_zero"]
    fun es => do
      let seed ← opt "seed" (nat N) es
      let resultsDir ← req "results-dir" (text N false) es
      let iter0 ← req "iter-0-cfg" (text N false) es
      let iterI ← req "iter-i-cfg" (text N false) es
      let multiCh ← req "multi-ch-constructor" (multiChContent N true) es
      let numIter ← req "number_of_metric-updates" (nat N) es
      let monitoring ← req "monitoring" (monitoring N) es
      let (metricId, method) ← req "optimizing_with" (optimization N) es
      let threads ← opt "number_of_threads" (nat N) es
      let minNewMetric ← opt "min_new_metric" (num N) es
      let isErr ← opt "throw_err_when_new_metric_is_zero" (bool N) es
      pure { resultsDir, multiCh, iter0, iterI, metricId, method, numIter, monitoring, threads := threads.getD 4,
             seed := seed.getD 42, minNewMetric, isErrWhenZero := isErr.getD true }

/-- Why a document is rejected. -/
inductive DocErr where
  | serde
  | config (e : Cfg.Err)
deriving DecidableEq

/-- `src/configs/balancing.rs:36-49,95-116` `try_from_str` and `From<ProtoConfig>`. The number of iterations is a `usize`;
adding one to the largest panics (in release-builds, it gets zero). -/
def balancing (doc : Yaml) : Res DocErr Balancing :=
  match open_ (req "balancing" (balancingContent N)) doc with
  | none => .err .serde
  | some c => if c.numIter + 1 < 2 ^ 64 then .ok { c with numIter := c.numIter + 1 } else .panic

/-- `src/configs/evaluating_balance.rs:8-14` `Config`. -/
structure Evaluating where
  seed : Nat
  resultsDir : Text
  monitoring : Monitoring
  threads : Nat
deriving DecidableEq

/-- `src/configs/evaluating_balance.rs:129-138` `RawContent` and the conversions 80-91,110-121. -/
def evaluatingContent : Dec Evaluating :=
  closed ["seed", "results-dir", "monitoring", "number_of_threads"] fun es => do
    let seed ← opt "seed" (nat N) es
    let resultsDir ← req "results-dir" (text N false) es
    let monitoring ← req "monitoring" (monitoring N) es
    let threads ← opt "number_of_threads" (nat N) es
    pure { seed := seed.getD 42, resultsDir, monitoring, threads := threads.getD 4 }

/-- `src/configs/evaluating_balance.rs:23-36,123-127` `RawConfig`. -/
def evaluating : Dec Evaluating := open_ (req "evaluating_balance" (evaluatingContent N))

/-! ## Routing -/

/-- `src/configs/routing.rs:135-143,175-180` `RoutingAlgo` and `ExploratorAlgo`. -/
inductive Algo where
  | dijkstra
  | chDijkstra
  | explorator (ch : Bool)
deriving DecidableEq

/-- `src/configs/routing.rs:318-324` `RawExploratorAlgo`. -/
def exploratorAlgo : Dec Bool := names N false [("Dijkstra", false), ("CHDijkstra", true)]

/-- `src/configs/routing.rs:307-316` `RawRoutingAlgo` with the feature `gpl`. -/
def algo : Dec Algo :=
  firstOf
    [names N false [("Dijkstra", Algo.dijkstra), ("CHDijkstra", Algo.chDijkstra)],
      variant "Explorator" (closed ["algo"] fun es => (req "algo" (exploratorAlgo N) es).map Algo.explorator)]

/-- `src/configs/routing.rs:326-333` `RawEntry`. -/
def rawEntry : Dec RawEntry :=
  closed ["id", "alpha", "tolerated-scale"] fun es => do
    let id ← req "id" (text N false) es
    let alpha ← opt "alpha" (num N) es
    let tolerance ← opt "tolerated-scale" (text N false) es
    pure { id, alpha, tolerance }

/-- `src/configs/routing.rs:193-199,201-219` `ProtoConfig`. -/
structure ProtoRouting where
  pairsFile : Option Text
  algo : Algo
  entries : List Entry
deriving DecidableEq

/-- `src/configs/routing.rs:201-219,267-289`: the conversion of an entry may fail, which is an error of serde. -/
def entry (y : Yaml) : Option Entry :=
  (rawEntry N y).bind fun r =>
    match Entry.tryFrom N.parseF r with
    | .ok e => some e
    | .error _ => none

/-- `src/configs/routing.rs:297-305` `RawContent`. -/
def routingContent : Dec ProtoRouting :=
  closed ["route-pairs-file", "algorithm", "metrics"] fun es => do
    let pairsFile ← opt "route-pairs-file" (text N false) es
    let algo ← req "algorithm" (algo N) es
    let entries ← req "metrics" (vec (entry N)) es
    pure { pairsFile, algo, entries }

/-- `src/configs/routing.rs:20-26` `Config`. -/
structure RoutingCfg where
  pairsFile : Option Text
  algo : Algo
  routing : Routing
deriving DecidableEq

/-- `src/configs/routing.rs:35-84` `try_from_str` and `try_from_proto`. -/
def routing (e : Edges) (doc : Yaml) : Res DocErr RoutingCfg :=
  match open_ (req "routing" (routingContent N)) doc with
  | none => .err .serde
  | some p =>
    match Cfg.routing e p.entries with
    | .ok r => .ok { pairsFile := p.pairsFile, algo := p.algo, routing := r }
    | .err err => .err (.config err)
    | .panic => .panic

/-! ## Parsing -/

/-- `src/configs/parsing/edges/metrics.rs:204-214` and `src/configs/parsing/generating/edges/metrics.rs:314-324`
`RawUnitInfo`. -/
def unit : Dec Cfg.Unit :=
  names N false [("Meters", .meters), ("Kilometers", .kilometers), ("Seconds", .seconds), ("Minutes", .minutes),
    ("Hours", .hours), ("KilometersPerHour", .kmh), ("LaneCount", .laneCount), ("F64", .f64)]

/-- `src/configs/parsing/edges/mod.rs:270-277` `RawMetaInfo`. -/
def edgeInfo : Dec MetaInfo :=
  names N false [("EdgeId", .edgeId), ("SrcId", .srcId), ("DstId", .dstId), ("ShortcutIdx0", .shortcutIdx0),
    ("ShortcutIdx1", .shortcutIdx1)]

/-- `src/configs/parsing/edges/mod.rs:256-268` `RawCategory`: unknown keys are ignored. -/
def edgeCat : Dec EdgeCat :=
  firstOf
    [variant "meta" (open_ fun es => do
        let i ← req "info" (edgeInfo N) es
        let id ← req "id" (text N false) es
        pure (.info i id)),
      variant "metric" (open_ fun es => do
        let u ← req "unit" (unit N) es
        let id ← req "id" (text N false) es
        pure (.metric u id)),
      names N false [("ignored", .ignored)]]

/-- `src/configs/parsing/edges/mod.rs:248-254` `RawConfig`, with the default of `src/defaults.rs:43`. -/
def edgesContent : Dec (List EdgeCat × Bool) :=
  closed ["will_normalize_metrics_by_mean", "data"] fun es => do
    let normalized ← opt "will_normalize_metrics_by_mean" (bool N) es
    let data ← req "data" (vec (edgeCat N)) es
    pure (data, normalized.getD false)

/-- `src/configs/parsing/nodes/mod.rs:159-163` `RawMetaInfo`. -/
def nodeInfo : Dec NodeInfo := names N false [("NodeId", .nodeId), ("CHLevel", .chLevel)]

/-- `src/configs/parsing/nodes/metrics.rs:47-51` `RawUnitInfo`. -/
def nodeUnit : Dec NodeUnit := names N false [("Latitude", .latitude), ("Longitude", .longitude)]

/-- `src/configs/parsing/nodes/mod.rs:145-157` `RawCategory`: unknown keys are ignored. -/
def nodeCat : Dec NodeCat :=
  firstOf
    [variant "meta" (open_ fun es => do
        let i ← req "info" (nodeInfo N) es
        let id ← req "id" (text N false) es
        pure (.info i id)),
      variant "metric" (open_ fun es => do
        let u ← req "unit" (nodeUnit N) es
        let id ← req "id" (text N false) es
        pure (.metric u id)),
      names N false [("ignored", .ignored)]]

/-- `src/network/mod.rs:88-93` `vehicles::Category`. -/
def vehicle : Dec Osm.Vehicle :=
  names N false [("Car", .car), ("Bicycle", .bicycle), ("Pedestrian", .pedestrian)]

/-- `src/configs/parsing/vehicles.rs:43-48` `RawConfig`: both are required. -/
def vehicles : Dec (Osm.Vehicle × Bool) :=
  closed ["category", "are_drivers_picky"] fun es => do
    let category ← req "category" (vehicle N) es
    let picky ← req "are_drivers_picky" (bool N) es
    pure (category, picky)

/-- `src/configs/parsing/generating/nodes/mod.rs:92-101` `RawCategory` and `RawMetaInfo`. -/
def genNode : Dec GenNodeCat :=
  variant "meta" (open_ fun es => do
    let info ← req "info" (names N false [("NodeIdx", NodeInfo.nodeIdx)]) es
    let id ← req "id" (text N false) es
    pure { info, id })

/-- `src/configs/parsing/generating/edges/mod.rs:293-302` `RawMetaInfo`. -/
def genInfo : Dec GenInfo :=
  names N false [("EdgeId", .edgeId), ("SrcIdx", .srcIdx), ("SrcLat", .srcLat), ("SrcLon", .srcLon), ("DstIdx", .dstIdx),
    ("DstLat", .dstLat), ("DstLon", .dstLon)]

/-- `src/configs/parsing/generating/edges/metrics.rs:308-312` `RawCategory`. -/
def genMetric : Dec GenMetric :=
  open_ fun es => do
    let unit ← req "unit" (unit N) es
    let id ← req "id" (text N false) es
    pure { unit, id }

/-- `src/configs/parsing/generating/edges/mod.rs:253-291` `RawCategory` and the conversions 52-97,176-220; `lines` are the
lines of a file. Defaults: the unit `F64`, the value zero, and a header (`src/defaults.rs:59`). -/
def genEdge (lines : Text → Option (List Text)) : Dec GenCat :=
  firstOf
    [variant "meta" (open_ fun es => do
        let i ← req "info" (genInfo N) es
        let id ← req "id" (text N false) es
        pure (.info i id)),
      variant "custom" (open_ fun es => do
        let u ← opt "unit" (unit N) es
        let id ← req "id" (text N false) es
        let default ← opt "default" (num N) es
        pure (.custom (u.getD .f64) id (default.getD 0))),
      variant "haversine" (open_ fun es => do
        let u ← req "unit" (unit N) es
        let id ← req "id" (text N false) es
        pure (.haversine u id)),
      variant "copy" (open_ fun es => do
        let src ← req "from" (genMetric N) es
        let dst ← req "to" (genMetric N) es
        pure (.copy src dst)),
      variant "convert" (open_ fun es => do
        let src ← req "from" (genMetric N) es
        let dst ← req "to" (genMetric N) es
        pure (.convert src dst)),
      variant "calc" (open_ fun es => do
        let result ← req "result" (genMetric N) es
        let a ← req "a" (genMetric N) es
        let b ← req "b" (genMetric N) es
        pure (.calc result a b)),
      variant "merge" (open_ fun es => do
        let file ← req "from" (text N false) es
        let header ← opt "with_header-line" (bool N) es
        let edgeId ← req "edge-id" (text N false) es
        let cols ← req "edges-info" (vec (column N false)) es
        pure (.merge (lines file) (header.getD true) edgeId cols))]

/-- `src/configs/parsing/generating/mod.rs:49-54` `RawConfig`. -/
def generating (lines : Text → Option (List Text)) : Dec Generating :=
  closed ["nodes", "edges"] fun es => do
    let nodes ← req "nodes" (vec (genNode N)) es
    let edges ← req "edges" (vec (genEdge N lines)) es
    pure { nodes, edges }

/-- `src/configs/parsing/mod.rs:133-142` `RawContent` and the conversions 86-101,113-125: the path of the map and the
configuration. Ids given twice are an error of serde. Defaults: `src/defaults.rs:50,51`. -/
def parsingContent (lines : Text → Option (List Text)) : Dec (Text × Parsing) :=
  closed ["map-file", "vehicles", "nodes", "edges", "generating"] fun es => do
    let mapFile ← req "map-file" (text N false) es
    let vs ← opt "vehicles" (vehicles N) es
    let nodes ← req "nodes" (vec (nodeCat N)) es
    let (cats, normalized) ← req "edges" (edgesContent N) es
    let gen ← opt "generating" (generating N lines) es
    match Edges.tryFrom cats normalized with
    | .ok edges =>
      pure (mapFile,
        { vehicle := (vs.getD (.car, true)).1, picky := (vs.getD (.car, true)).2, nodes, edges, generating := gen })
    | .error _ => none

/-- `src/configs/parsing/mod.rs:62-71,127-131` `RawConfig`. -/
def parsing (lines : Text → Option (List Text)) : Dec (Text × Parsing) :=
  open_ (req "parsing" (parsingContent N lines))

end

end Verif.Yml
