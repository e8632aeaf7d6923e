import Verif.Config
import Verif.Building

/-!
# Parsing of pbf-files

Model of `src/io/parsing/network/graph/pbf.rs`. Reading and decoding the file is left to the crate
`osmpbfreader`: a file is the list of its objects, `none` for those that can't be read.
-/

namespace Verif.Osm

open Cfg Build

/-- `osmpbfreader::OsmObj`; coordinates are in units of 1e-7 degrees. -/
inductive Obj where
  | node (id lat lon : Int)
  | way (nodes : List Int) (tags : Tags)
  | relation
deriving DecidableEq, Repr

/-- Why parsing is not started. -/
inductive PbfErr where
  | config (e : Cfg.Err)
  | unsupported
  | notProvided
deriving DecidableEq, Repr

/-- `src/io/parsing/network/graph/pbf.rs:26-64`: one category. -/
def checkCat : EdgeCat → Except PbfErr PUnit.{1}
  | .info .srcId _ | .info .dstId _ => .ok ⟨⟩
  | .info _ _ => .error .unsupported
  | .metric .kmh _ | .metric .laneCount _ => .ok ⟨⟩
  | .metric _ _ => .error .notProvided
  | .ignored => .ok ⟨⟩

/-- `src/io/parsing/network/graph/pbf.rs:22-69` `preprocess`. -/
def preprocess (maxDim : Nat) (c : Parsing) : Except PbfErr PUnit.{1} :=
  match Cfg.check maxDim c with
  | .error e => .error (.config e)
  | .ok _ => c.edges.cats.forM checkCat

/-- `src/io/parsing/network/graph/pbf.rs:107-124`: the nodes of a way in the order of its edges. The way
has at least two nodes. -/
def wayNodes (isOneway isReverse : Bool) (nodes : List Int) : List Int :=
  let nodes := if isReverse then nodes.reverse else nodes
  let stop := if isOneway then 0 else nodes.length - 1
  nodes ++ (nodes.take stop).reverse

/-- `src/io/parsing/network/graph/pbf.rs:131-156`: the metrics of all edges of a way. -/
def wayMetrics (cats : List EdgeCat) (s : Street) (tags : Tags) : List ℚ :=
  cats.flatMap fun
    | .metric .kmh _ => [(parseMaxspeed s tags : ℚ)]
    | .metric .laneCount _ => [(parseLaneCount s tags : ℚ)]
    | _ => []

/-- The pairs of neighbours. -/
def edgesOf (metrics : List ℚ) : List Int → List ProtoEdge
  | a :: b :: l => { id := none, srcId := a, dstId := b, metrics, sc := none } :: edgesOf metrics (b :: l)
  | _ => []

/-- `src/io/parsing/network/graph/pbf.rs:89-167`: the edges of a way. -/
def wayEdges (c : Parsing) (nodes : List Int) (tags : Tags) : List ProtoEdge :=
  if nodes.length < 2 then []
  else match streetOf tags with
    | none => []
    | some s =>
      if !s.isFor c.vehicle c.picky then []
      else
        let (isOneway, isReverse) := parseOneway tags
        edgesOf (wayMetrics c.edges.cats s tags) (wayNodes isOneway isReverse nodes)

/-- `src/io/parsing/network/graph/pbf.rs:71-172` `parse_ways`. `insert` never fails. -/
def parseWays (c : Parsing) (file : List (Option Obj)) : List ProtoEdge :=
  file.flatMap fun
    | some (.way nodes tags) => wayEdges c nodes tags
    | _ => []

/-- `src/io/parsing/network/graph/pbf.rs:174-199` `parse_nodes`. -/
def parseNodes (file : List (Option Obj)) : List ProtoNode :=
  file.flatMap fun
    | some (.node id lat lon) =>
      [{ id, coord := { lat := lat / 10000000, lon := lon / 10000000 }, level := none }]
    | _ => []

/-- Preprocessing, ways, nodes, and the graph (`src/io/parsing/network/graph/mod.rs:30-103`), before
metrics are generated or normalized. -/
def parse (maxDim : Nat) (c : Parsing) (file : List (Option Obj)) : Except PbfErr (Build.R Graph) :=
  match preprocess maxDim c with
  | .error e => .error e
  | .ok _ => .ok (build c.edges.units.length (parseWays c file) (parseNodes file))

end Verif.Osm
