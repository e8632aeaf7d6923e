import Verif.Tool
import Verif.Routes
import Verif.Pbf
import Verif.Explorating
import Verif.YamlConfig

/-!
# The tool's task of routing, from files to answers

Model of `src/bin/osmgraphing/mod.rs:60-88,170-178,191-275` (`run` with nothing but routing), of
`src/io/parsing/network/graph/mod.rs:46-62`, `src/io/parsing/routing/mod.rs` and `src/network/routes.rs`. All other parts
are those of the other models: the config-file is a yaml-document, a fmi-map and the route-pairs are lines, a pbf-map is
a list of objects. Reading the config-file itself and logging are not modelled; what is logged is the outcome.
-/

namespace Verif.Session

open Text Gen
open Dij (Heap St computeBestPath)
open Yml (Yaml)

/-- Which part returns an error. -/
inductive Err where
  | config
  | map
  | routing
  | pairs
deriving DecidableEq, Repr

/-- `src/bin/osmgraphing/mod.rs:225-234,258-268`: what is logged about a route-pair: the costs of the best path, that
there is no path, or the paths found by the explorator. -/
inductive Report where
  | costs (src dst : Graph.Node) (costs : List ℚ)
  | nothing (src dst : Graph.Node)
  | found (src dst : Graph.Node) (paths : List Path)
deriving DecidableEq, Repr

/-- What the task depends on: the queue and the dot product of the router, the explorator's libraries, texts of
numbers, the distance of coordinates, the number of metrics the tool has been compiled to, and the files. -/
structure World (K : Type) where
  heap : Heap K
  dotp : List ℚ → List ℚ → K
  backend : Exp.Backend
  numbers : Yml.Numbers
  codec : Fmi.Codec
  env : Gen.Env
  maxDim : Nat
  text : Text → Option (List Text)
  pbf : Text → Option (List (Option Osm.Obj))

/-- `src/network/routes.rs:31-43` `RoutePair<i64>::into_node`, for one of both ids: an unknown id panics. -/
def intoNode (g : Graph) (id : Int) : Res Err Graph.Node :=
  match g.createNodeFrom id with
  | .ok (some n) => .ok n
  | _ => .panic

section
variable {K : Type} [LinearOrder K] [Zero K] [Add K] (w : World K) (fuel : Nat) (g : Graph)

/-- `src/bin/osmgraphing/mod.rs:204-237`: one query of Dijkstra. `none` is a lack of fuel. -/
def best (algo : Dij.Algo) (alphas : List ℚ) (s : St K) (src dst : Graph.Node) : Option (Res Err (Report × St K)) :=
  match computeBestPath w.heap w.dotp fuel s { src := src.idx, dst := dst.idx, graph := g, algo, alphas } with
  | none => none
  | some (.ok (s', none)) => some (.ok (.nothing src dst, s'))
  | some (.ok (s', some p)) =>
    match p.flatten g fuel with
    | none => none
    | some (.ok p) =>
      match p.getCosts with
      | .ok c => some (.ok (.costs src dst c, s'))
      | _ => some .panic
    | some _ => some .panic
  | some _ => some .panic

/-- `src/bin/osmgraphing/mod.rs:239-271`: one query of the explorator. -/
def explore (algo : Dij.Algo) (alphas : List ℚ) (scales : List (Option ℚ)) (s : St K) (src dst : Graph.Node) :
    Option (Res Err (Report × St K)) :=
  match Exp.fullyExplorate w.heap w.dotp w.backend fuel s { src := src.idx, dst := dst.idx, graph := g, algo, alphas }
      scales with
  | none => none
  | some (.ok (s', ps)) => some (.ok (if ps.isEmpty then .nothing src dst else .found src dst ps, s'))
  | some _ => some .panic

/-- The loops 207-237,245-270 over the route-pairs. The nodes of a pair are looked up just before its query (195-197):
an unknown id panics after the former pairs have been reported. The result are the reports and how the loop ends. -/
def queries (one : St K → Graph.Node → Graph.Node → Option (Res Err (Report × St K))) :
    St K → List Routes.Route → List Report × Option (Res Err PUnit)
  | _, [] => ([], some (.ok ⟨⟩))
  | s, r :: rs =>
    match (do
      let src ← intoNode g r.src
      let dst ← intoNode g r.dst
      pure (src, dst)) with
    | .ok (src, dst) =>
      match one s src dst with
      | some (.ok (rep, s')) =>
        let (reps, last) := queries one s' rs
        (rep :: reps, last)
      | some (.err e) => ([], some (.err e))
      | some .panic => ([], some .panic)
      | none => ([], none)
    | .err e => ([], some (.err e))
    | .panic => ([], some .panic)

/-- `src/io/parsing/routing/mod.rs:23-27`. -/
def pairsExts : List Text := ["route-pairs".toList]

/-- `src/io/parsing/routing/mod.rs:9-20` `parse`, with 29-57: without a file, or if it can't be opened, it panics. -/
def readPairs (file : Option Text) : Res Err (List Routes.Route) :=
  match file with
  | none => .panic
  | some file =>
    match Tool.findSupported pairsExts (Tool.fileName file) with
    | none => .err .pairs
    | some _ =>
      match w.text file with
      | none => .panic
      | some lines =>
        match Routes.read lines with
        | .ok rs => .ok rs
        | .err _ => .err .pairs
        | .panic => .panic

/-- `src/configs/routing.rs:152-160`: the algorithm below the explorator. -/
def below (ch : Bool) : Dij.Algo := if ch then .chDijkstra else .dijkstra

/-- `src/bin/osmgraphing/mod.rs:200-272`: the queries of the configured algorithm, with a new router. -/
def answers (rc : Yml.RoutingCfg) (rs : List Routes.Route) : List Report × Option (Res Err PUnit) :=
  match rc.algo with
  | .dijkstra => queries g (best w fuel g .dijkstra rc.routing.alphas) St.new rs
  | .chDijkstra => queries g (best w fuel g .chDijkstra rc.routing.alphas) St.new rs
  | .explorator ch =>
    queries g (explore w fuel g (below ch) rc.routing.alphas rc.routing.tolerances) St.new rs

end

section
variable {K : Type} [LinearOrder K] [Zero K] [Add K] (w : World K) (fuel : Nat)

/-- `src/bin/osmgraphing/mod.rs:191-275` `do_simply_routing`. -/
def route (doc : Yaml) (net : Net) : List Report × Option (Res Err PUnit) :=
  match Yml.routing w.numbers net.edges doc with
  | .err _ => ([], some (.err .routing))
  | .panic => ([], some .panic)
  | .ok rc =>
    match readPairs w rc.pairsFile with
    | .err e => ([], some (.err e))
    | .panic => ([], some .panic)
    | .ok rs => answers w fuel net.graph rc rs

/-- `src/io/parsing/network/graph/mod.rs:46-62` `parse_and_finalize`. A map that can't be opened panics, but only if
its configuration is fine. -/
def loadMap (mapFile : Text) (cfg : Cfg.Parsing) : Res Err Net :=
  match Tool.fromPath Tool.parserExts (Tool.fileName mapFile) with
  | none => .err .map
  | some .fmi =>
    match Cfg.check w.maxDim cfg with
    | .error _ => .err .map
    | .ok _ =>
      match w.text mapFile with
      | none => .panic
      | some lines => Fmi.mapErr (fun _ => .map) (Fmi.load w.codec w.env w.maxDim cfg lines)
  | some .pbf =>
    match Osm.preprocess w.maxDim cfg with
    | .error _ => .err .map
    | .ok _ =>
      match w.pbf mapFile with
      | none => .panic
      | some objs =>
        match Osm.parse w.maxDim cfg objs with
        | .error _ => .err .map
        | .ok r => do
          let graph ← Fmi.mapErr (fun _ => .map) r
          Fmi.mapErr (fun _ => .map) (Gen.finish w.env cfg.generating { graph, nodes := cfg.nodes, edges := cfg.edges })

/-- `src/bin/osmgraphing/mod.rs:60-178` `run`, with `--routing` and without any other task. -/
def run (doc : Yaml) : List Report × Option (Res Err PUnit) :=
  match Yml.parsing w.numbers w.text doc with
  | none => ([], some (.err .config))
  | some (mapFile, cfg) =>
    match loadMap w mapFile cfg with
    | .err e => ([], some (.err e))
    | .panic => ([], some .panic)
    | .ok net => route w fuel doc net

end

end Verif.Session
