import Verif.Config
import Verif.Building

/-!
# Generating and normalizing metrics

Model of `src/network/graph/building.rs:886-1455`, the second half of `GraphBuilder::finalize`.
-/

namespace Verif.Gen

open Cfg Text
open Approx (Coord)

/-- A graph together with the parts of its config that are changed while generating. -/
structure Net where
  graph : Graph
  nodes : List NodeCat
  edges : Edges
deriving DecidableEq, Repr

/-- Why generating or normalizing fails. -/
inductive GenErr where
  | nodeIdExists
  | notCreatable
  | idExists
  | unit
  | infinite
  | edgeIdNumber
  | unknownEdgeId
  | noEdgeIdColumn
  | number
  | noEdges
  | zeroMean
deriving DecidableEq, Repr

abbrev R := Res GenErr

/-- What the model takes from elsewhere: the distance of coordinates
(`kissunits::geo::haversine_distance_km`), and `str::parse` for `f64`. Simplification: a text like `inf` or
`nan`, which `str::parse` accepts, is no number here. -/
structure Env where
  haversine : Coord → Coord → ℚ
  parseF : Text → Option ℚ

/-- `src/configs/parsing/edges/metrics.rs:40-48` `idx_of` panics for an unknown id. -/
def idxOf (e : Edges) (id : Text) : R Nat :=
  match e.tryIdxOf id with
  | .ok i => .ok i
  | .error _ => .panic

/-- The errors of conversions and calculations. -/
def ofUnit : Except Cfg.Err ℚ → R ℚ
  | .ok x => .ok x
  | .error .infinite => .err .infinite
  | .error _ => .err .unit

/-! ## Nodes -/

/-- `src/network/graph/building.rs:893-934`: one category. -/
def nodeStep (s : Net) (c : GenNodeCat) : R Net :=
  match c.info with
  | .nodeIdx =>
    if s.nodes.any fun
        | .info _ id => decide (c.id = id)
        | .metric _ id => decide (c.id = id)
        | .ignored => false then .err .nodeIdExists
    else .ok { s with nodes := s.nodes ++ [.info c.info c.id] }
  | .nodeId | .chLevel => .err .notCreatable

/-! ## Edges -/

/-- `src/network/graph/building.rs:939-1001`: the id that is checked. -/
def newId? : GenCat → Option Text
  | .info _ id => some id
  | .copy _ dst => some dst.id
  | .calc result _ _ => some result.id
  | .custom _ id _ => some id
  | .haversine _ id => some id
  | .merge _ _ _ _ => none
  | .convert _ _ => none

/-- `src/network/graph/building.rs:937-1001`: the ids to create against those that are parsed. -/
def idsExist (e : Edges) (gen : List GenCat) : Bool :=
  gen.any fun c => match newId? c with
    | some id => e.cats.any fun
        | .info _ i => decide (id = i)
        | .metric _ i => decide (id = i)
        | .ignored => false
    | none => false

/-- One new value for each edge, given the edge's index and its metrics. -/
def newValues (f : Nat → List ℚ → R ℚ) : Nat → List (List ℚ) → R (List ℚ)
  | _, [] => .ok []
  | e, m :: ms => do
    let x ← f e m
    let xs ← newValues f (e + 1) ms
    pure (x :: xs)

/-- `graph.metrics[edge_idx].push(value)` for all edges. -/
def pushAll (ms : List (List ℚ)) (xs : List ℚ) : List (List ℚ) := List.zipWith (fun m x => m ++ [x]) ms xs

/-- `graph.metrics[edge_idx][metric_idx] = value` for all edges; the index has been read before. -/
def setAll (i : Nat) (ms : List (List ℚ)) (xs : List ℚ) : List (List ℚ) :=
  List.zipWith (fun m x => m.set i x) ms xs

/-- A new metric with its values (e.g. `src/network/graph/building.rs:1130-1149`). -/
def addMetric (s : Net) (unit : Cfg.Unit) (id : Text) (xs : List ℚ) : Net :=
  { s with
    graph := { s.graph with metrics := pushAll s.graph.metrics xs, dim := s.graph.dim + 1 }
    edges := { s.edges with cats := s.edges.cats ++ [.metric unit id], units := s.edges.units ++ [unit],
                            ids := s.edges.ids ++ [id] } }

/-- A new meta-info (e.g. `src/network/graph/building.rs:1034-1042`). -/
def addInfo (s : Net) (info : MetaInfo) (id : Text) : Net :=
  { s with edges := { s.edges with cats := s.edges.cats ++ [.info info id] } }

/-- `src/network/graph/building.rs:1176-1189`: the distance of both ends of an edge. -/
def distance (env : Env) (g : Graph) (e : Nat) : R ℚ :=
  match g.dstIdx .bwd e >>= g.nodeCoord, g.dstIdx .fwd e >>= g.nodeCoord with
  | .ok a, .ok b => ofUnit (Cfg.Unit.genConvert .kilometers .kilometers (env.haversine a b))
  | _, _ => .panic

/-- `src/network/graph/building.rs:1262-1279`: the category of a converted metric. -/
def renamed (src dst : GenMetric) : EdgeCat → EdgeCat
  | .metric u id => if id = src.id then .metric dst.unit dst.id else .metric u id
  | c => c

/-- `src/network/graph/building.rs:1337-1358`: the edge of a line. A missing column panics. -/
def mergeEdge (g : Graph) (edgeId : Text) (params : List Text) : Nat → List (Option Text) → R (Option Nat)
  | _, [] => .ok none
  | i, none :: cols => mergeEdge g edgeId params (i + 1) cols
  | i, some id :: cols => do
    let param ← .ofIdx params[i]?
    if id = edgeId then
      match parseNat maxUsize param with
      | none => .err .edgeIdNumber
      | some raw =>
        match g.tryIdxFrom raw with
        | .ok e => .ok (some e)
        | .err _ => .err .unknownEdgeId
        | .panic => .panic
    else mergeEdge g edgeId params (i + 1) cols

/-- `src/network/graph/building.rs:1366-1387`: the values of a line, for the edge's metrics. -/
def mergeCols (env : Env) (e : Edges) (edgeId : Text) (params : List Text) :
    Nat → List (Option Text) → List ℚ → R (List ℚ)
  | _, [], m => .ok m
  | i, none :: cols, m => mergeCols env e edgeId params (i + 1) cols m
  | i, some id :: cols, m =>
    if id = edgeId then mergeCols env e edgeId params (i + 1) cols m
    else do
      let k ← idxOf e id
      let param ← .ofIdx params[i]?
      match env.parseF param with
      | none => .err .number
      | some x =>
        if k < m.length then mergeCols env e edgeId params (i + 1) cols (m.set k x) else .panic

/-- `src/network/graph/building.rs:1332-1388`: one line. -/
def mergeLine (env : Env) (s : Net) (edgeId : Text) (cols : List (Option Text)) (ms : List (List ℚ))
    (line : Text) : R (List (List ℚ)) := do
  let params := words line
  let o ← mergeEdge s.graph edgeId params 0 cols
  match o with
  | none => .err .noEdgeIdColumn
  | some e => do
    let m ← .ofIdx ms[e]?
    let m' ← mergeCols env s.edges edgeId params 0 cols m
    pure (ms.set e m')

/-- `src/io/parsing/network/edges.rs:14-36` `new_reader`. The extension of the file is not modelled; a file
that can't be opened panics. -/
def readLines (file : Option (List Text)) (withHeader : Bool) : R (List Text) :=
  match file with
  | none => .panic
  | some lines =>
    let l := lines.filter isFunctional
    .ok (if withHeader then l.drop 1 else l)

/-- `src/network/graph/building.rs:1005-1394`: one category. -/
def edgeStep (env : Env) (s : Net) (c : GenCat) : R Net :=
  match c with
  | .info .edgeId id =>
    let n := s.graph.edgeCount
    .ok (addInfo { s with graph := { s.graph with
      edgeIds := (List.range n).map some
      idMap := (List.range n).map fun i => (i, i) } } .edgeId id)
  | .info .srcIdx id => .ok (addInfo s .srcIdx id)
  | .info .dstIdx id => .ok (addInfo s .dstIdx id)
  | .info .srcLat id => .ok (addInfo s .srcLat id)
  | .info .srcLon id => .ok (addInfo s .srcLon id)
  | .info .dstLat id => .ok (addInfo s .dstLat id)
  | .info .dstLon id => .ok (addInfo s .dstLon id)
  | .info .shortcutIdx0 _ | .info .shortcutIdx1 _ => .err .notCreatable
  | .custom unit id default => do
    let xs ← newValues (fun _ _ => .ok default) 0 s.graph.metrics
    pure (addMetric s unit id xs)
  | .haversine unit id =>
    if unit = .kilometers then do
      let xs ← newValues (fun e _ => distance env s.graph e) 0 s.graph.metrics
      pure (addMetric s unit id xs)
    else .err .unit
  | .copy src dst => do
    let i ← idxOf s.edges src.id
    let xs ← newValues (fun _ m => do
      let x ← .ofIdx m[i]?
      ofUnit (src.unit.genConvert dst.unit x)) 0 s.graph.metrics
    pure (addMetric s dst.unit dst.id xs)
  | .convert src dst => do
    let i ← idxOf s.edges src.id
    let xs ← newValues (fun _ m => do
      let x ← .ofIdx m[i]?
      ofUnit (src.unit.genConvert dst.unit x)) 0 s.graph.metrics
    if i < s.edges.units.length ∧ i < s.edges.ids.length then
      pure { s with
        graph := { s.graph with metrics := setAll i s.graph.metrics xs }
        edges := { s.edges with cats := s.edges.cats.map (renamed src dst),
                                units := s.edges.units.set i dst.unit, ids := s.edges.ids.set i dst.id } }
    else .panic
  | .calc result a b => do
    let i ← idxOf s.edges a.id
    let j ← idxOf s.edges b.id
    let xs ← newValues (fun _ m => do
      let x ← .ofIdx m[i]?
      let y ← .ofIdx m[j]?
      ofUnit (result.unit.tryCalc a.unit x b.unit y)) 0 s.graph.metrics
    pure (addMetric s result.unit result.id xs)
  | .merge file withHeader edgeId cols => do
    let lines ← readLines file withHeader
    let ms ← lines.foldlM (mergeLine env s edgeId cols) s.graph.metrics
    pure { s with graph := { s.graph with metrics := ms } }

/-- `src/network/graph/building.rs:889-1395`. -/
def generate (env : Env) (gen : Option Generating) (s : Net) : R Net :=
  match gen with
  | none => .ok s
  | some gen => do
    let s ← gen.nodes.foldlM nodeStep s
    if idsExist s.edges gen.edges then .err .idExists
    else gen.edges.foldlM (edgeStep env) s

/-! ## Normalizing -/

/-- `src/helpers/mod.rs:11-13` `add`. -/
def addVec (a b : List ℚ) : List ℚ := List.zipWith (· + ·) a b

/-- `src/network/graph/building.rs:1414-1422`: the means of all metrics. -/
def meansOf (dim : Nat) (ms : List (List ℚ)) (n : ℚ) : List ℚ :=
  (ms.foldl addVec (List.replicate dim 0)).map fun sum => sum / n

/-- `src/network/graph/building.rs:1441-1449`: the metrics of one edge from index `i` on. -/
def divide (means : List ℚ) : Nat → List ℚ → R (List ℚ)
  | _, [] => .ok []
  | i, x :: m => do
    let mean ← .ofIdx means[i]?
    let y := x / mean
    let rest ← divide means (i + 1) m
    pure ((if Approx.eq y 0 then eps else y) :: rest)

/-- `src/network/graph/building.rs:1440-1450`: all edges. -/
def divideAll (means : List ℚ) : List (List ℚ) → R (List (List ℚ))
  | [] => .ok []
  | m :: ms => do
    let m' ← divide means 0 m
    let ms' ← divideAll means ms
    pure (m' :: ms')

/-- `src/network/graph/building.rs:1397-1455`. -/
def normalize (s : Net) : R Net :=
  if s.edges.normalized then
    let n := s.graph.edgeCount
    if n = 0 then .err .noEdges
    else
      let means := meansOf s.edges.units.length s.graph.metrics n
      if means.any fun mean => Approx.eq mean 0 then .err .zeroMean
      else do
        let ms ← divideAll means s.graph.metrics
        pure { s with graph := { s.graph with metrics := ms, means := some means } }
  else .ok s

/-- `src/network/graph/building.rs:886-1458`: the second half of `finalize`. -/
def finish (env : Env) (gen : Option Generating) (s : Net) : R Net := do
  let s ← generate env gen s
  normalize s

end Verif.Gen
