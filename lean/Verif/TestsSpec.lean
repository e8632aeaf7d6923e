import Verif.Session
import Verif.FitProps
import Verif.Pairs

/-!
# The repository's tests, written for the model

Translations of `tests/helpers/mod.rs` and `tests/helpers/components.rs`. Every assertion is a condition here; a test
passes if it is `true`.
-/

namespace Verif.Tests

open Yml (Yaml exNumbers)
open Session (World load)
open Shipped (quoted plain dict col)
open Dij (computeBestPath St)

/-- A text, as the list of its characters. The kernel is slow at decoding strings, so this is done while reading. -/
macro "text! " s:str : term => do
  let cs := s.getString.toList.toArray.map fun c => (⟨Lean.Syntax.mkCharLit c⟩ : Lean.TSyntax `term)
  `(([$cs,*] : Text))

/-- Decimal numbers, with or without a dot. -/
def decimal (t : Text) : Option ℚ :=
  match Text.digits? t with
  | some n => some n
  | none => Yml.decimal t

/-- The code as it is built by default (`build.rs:3-5`: at most five metrics), with these files. -/
def world (files : List (Text × List Text)) : World ℚ where
  heap := Dij.codeHeap
  dotp := dot
  backend := Exp.listBackend
  numbers := exNumbers
  codec := { Fmi.exCodec with parseF := decimal }
  env := { Gen.exEnv with parseF := decimal }
  maxDim := 5
  text f := (files.find? fun p => decide (p.1 = f)).map Prod.snd
  pbf _ := none

/-- `tests/helpers/mod.rs:81-91`: what is expected of a query, costs and alternative routes, given by indices of nodes. -/
structure ExpPath where
  src : Nat
  dst : Nat
  result : Option (ℚ × List (List Nat))

/-- `tests/helpers/components.rs:62-109` `TestEdge`: index, ends, and three metrics. -/
structure ExpEdge where
  idx : Nat
  src : Nat
  dst : Nat
  distance : ℚ
  speed : ℚ
  duration : ℚ

/-- `tests/helpers/mod.rs:107-114`: the section for routing. -/
def routingDoc (pairsFile algo metric : String) : Yaml :=
  dict [("routing", dict [("route-pairs-file", quoted pairsFile), ("algorithm", plain algo), ("metrics", .seq [col metric])])]

/-- `tests/helpers/components.rs:227-240`: the edges between the nodes of a route; all have to exist. -/
def edgesAlong (g : Graph) : List Nat → Option (List Nat)
  | a :: b :: rest =>
    match g.between .fwd a b with
    | .ok (some e) => (edgesAlong g (b :: rest)).map (e :: ·)
    | _ => none
  | _ => some []

/-- The id of a node. -/
def idOf (g : Graph) (i : Nat) : Int := g.nodeIds.getD i 0

/-- `tests/helpers/components.rs:193-296` `TestPath::assert_correct`, for one metric. -/
def correctPath (g : Graph) (fuel metric src dst : Nat) (cost : ℚ) (alternatives : List (List Nat)) (p : Path) : Bool :=
  decide (p.srcIdx = src) && decide (p.dstIdx = dst) && alternatives.all (fun nodes => (edgesAlong g nodes).isSome) &&
    match p.flatten g fuel with
    | some (.ok q) => alternatives.any fun nodes =>
      Path.beq (Path.new src (idOf g src) dst (idOf g dst) ((edgesAlong g nodes).getD [])) q &&
        Approx.eqSlice [cost] [((q.costs.getD []).getD metric (-1))]
    | _ => false

/-- `tests/helpers/mod.rs:118-146`: the queries, with one and the same router. -/
def correctPaths (w : World ℚ) (g : Graph) (algo : Dij.Algo) (alphas : List ℚ) (metric : Nat) (unit : ℚ) :
    St ℚ → List ExpPath → Bool
  | _, [] => true
  | s, e :: es =>
    match computeBestPath w.heap w.dotp 100 s { src := e.src, dst := e.dst, graph := g, algo, alphas } with
    | some (.ok (s', p)) =>
      (match p, e.result with
        | none, none => true
        | some p, some (cost, alternatives) => correctPath g 100 metric e.src e.dst (cost * unit) alternatives p
        | _, _ => false) && correctPaths w g algo alphas metric unit s' es
    | _ => false

/-- `tests/helpers/mod.rs:75-146` `test_dijkstra`. `unit` is what the test's costs are multiplied by. -/
def testDijkstra (w : World ℚ) (doc : Yaml) (metric algo : String) (unit : ℚ) (expected : List ExpPath) : Bool :=
  match load w doc, Yml.routePairs w.numbers doc with
  | .ok net, some pairs =>
    match Yml.routing w.numbers net.edges (routingDoc (String.ofList pairs.file) algo metric) with
    | .ok rc =>
      correctPaths w net.graph (if algo = "CHDijkstra" then .chDijkstra else .dijkstra) rc.routing.alphas
        (net.edges.ids.idxOf metric.toList) unit St.new expected
    | _ => false
  | _, _ => false

/-- `tests/helpers/mod.rs:181-247`: both queries of a pair of nodes agree. -/
def sameAnswers (w : World ℚ) (g : Graph) (alphas : List ℚ) (metric : Nat) : St ℚ → List Routes.Route → Bool
  | _, [] => true
  | s, r :: rs =>
    match g.createNodeFrom r.src, g.createNodeFrom r.dst with
    | .ok (some src), .ok (some dst) =>
      match computeBestPath w.heap w.dotp 100 s { src := src.idx, dst := dst.idx, graph := g, algo := .chDijkstra, alphas } with
      | some (.ok (s, p)) =>
        match computeBestPath w.heap w.dotp 100 s { src := src.idx, dst := dst.idx, graph := g, algo := .dijkstra, alphas } with
        | some (.ok (s, q)) =>
          (match p, q with
            | none, none => true
            | some p, some q =>
              match p.flatten g 100, q.flatten g 100 with
              | some (.ok p), some (.ok q) =>
                decide (p.srcIdx = q.srcIdx) && decide (p.dstIdx = q.dstIdx) &&
                  Approx.eq ((p.costs.getD []).getD metric (-1)) ((q.costs.getD []).getD metric (-2))
              | _, _ => false
            | _, _ => false) && sameAnswers w g alphas metric s rs
        | _ => false
      | _ => false
    | _, _ => false

/-- `tests/helpers/mod.rs:149-247` `compare_dijkstras`. -/
def compareDijkstras (w : World ℚ) (doc : Yaml) (metric : String) : Bool :=
  match load w doc, Yml.routePairs w.numbers doc with
  | .ok net, some pairs =>
    match Yml.routing w.numbers net.edges (routingDoc (String.ofList pairs.file) "Dijkstra" metric),
      Session.readPairs w (some pairs.file) with
    | .ok rc, .ok rs =>
      sameAnswers w net.graph rc.routing.alphas (net.edges.ids.idxOf metric.toList) St.new rs
    | _, _ => false
  | _, _ => false

/-- `tests/helpers/mod.rs:312-352`: a shortcut's edges are in the graph and lead from its begin to its end. -/
def correctShortcut (g : Graph) (e : Nat) : Bool :=
  match g.scEdgesOf e with
  | .ok (some (a, b)) =>
    decide (a < g.edgeCount) && decide (b < g.edgeCount) &&
      match g.dstIdx .bwd e, g.dstIdx .fwd e, g.dstIdx .bwd a, g.dstIdx .fwd a, g.dstIdx .bwd b, g.dstIdx .fwd b with
      | .ok src, .ok dst, .ok src0, .ok dst0, .ok src1, .ok dst1 =>
        decide (src = src0) && decide (dst0 = src1) && decide (dst1 = dst)
      | _, _, _, _, _, _ => false
  | .ok none => decide (g.isShortcut e = .ok false)
  | _ => false

/-- `tests/helpers/mod.rs:282-352` `assert_graph_sloppy`. -/
def sloppy (nodeCount edgeCount : Nat) (g : Graph) : Bool :=
  decide (g.nodeCount = nodeCount) && decide (g.fwdDsts.length = edgeCount) && decide (g.bwdDsts.length = edgeCount) &&
    (List.range g.edgeCount).all (correctShortcut g)

/-- `tests/helpers/components.rs:38-63` equality of `TestNode`: the node of this id, with coordinate and level. -/
def correctNode (g : Graph) (n : Int × ℚ × ℚ) : Bool :=
  match g.createNodeFrom n.1 with
  | .ok (some m) => decide (m.id = n.1) && Approx.eqCoord m.coord ⟨n.2.1, n.2.2⟩ && decide (m.level = 0)
  | _ => false

/-- `tests/helpers/components.rs:111-172` `TestEdge::assert_correct`. The metrics are multiplied by these units. Ends are
numbers of expected nodes. -/
def correctEdge (g : Graph) (d : Dir) (nodes : List (Int × ℚ × ℚ)) (units : ℚ × ℚ × ℚ) (e : ExpEdge) : Bool :=
  match nodes[e.src]?, nodes[e.dst]? with
  | some a, some b =>
    match g.createNodeFrom a.1, g.createNodeFrom b.1 with
    | .ok (some src), .ok (some dst) =>
      match g.between d src.idx dst.idx with
      | .ok (some f) =>
        decide (f = e.idx) && decide (g.dstIdx d f = .ok dst.idx) &&
          match g.edgeMetrics f with
          | .ok m => decide (m.length = 3) &&
            Approx.eqSlice m [e.distance * units.1, e.speed * units.2.1, e.duration * units.2.2]
          | _ => false
      | _ => false
    | _, _ => false
  | _, _ => false

/-- `tests/helpers/mod.rs:249-280` `assert_graph`. -/
def testGraph (w : World ℚ) (doc : Yaml) (nodes : List (Int × ℚ × ℚ)) (fwd bwd : List ExpEdge) (units : ℚ × ℚ × ℚ) :
    Bool :=
  match load w doc with
  | .ok net =>
    decide (fwd.length = bwd.length) && sloppy nodes.length fwd.length net.graph && nodes.all (correctNode net.graph) &&
      fwd.all (correctEdge net.graph .fwd nodes units) && bwd.all (correctEdge net.graph .bwd nodes units)
  | _ => false

/-- `tests/*/parsing.rs`, the tests of configs: which sections are accepted, where the one for routing is read with the
section for parsing, before anything is generated. -/
def testSections (doc : Yaml) (graph pairs routing : Bool) : Bool :=
  match Yml.parsing exNumbers (fun _ => none) doc with
  | some p =>
    decide ((Yml.graphOut exNumbers doc).isSome = graph) && decide ((Yml.routePairs exNumbers doc).isSome = pairs) &&
      decide ((match Yml.routing exNumbers p.2.edges doc with | .ok _ => true | _ => false) = routing)
  | none => false

/-- A condition on the loaded map. -/
def testLoaded (w : World ℚ) (doc : Yaml) (p : Graph → Bool) : Bool :=
  match load w doc with
  | .ok net => p net.graph
  | _ => false

/-- `tests/asdf/parsing.rs:5-14`: a map of this name is refused. -/
def testExtension (w : World ℚ) (doc : Yaml) (mapFile : String) : Bool :=
  match Yml.parsing w.numbers w.text doc with
  | some (_, cfg) => match Session.loadMap w mapFile.toList cfg with | .err _ => true | _ => false
  | none => false

/-- `tests/asdf/parsing.rs:16-45`: the algorithm that is read, with the section for parsing of this document. -/
def testAlgo (doc : Yaml) (algo : String) : Option Yml.Algo :=
  match Yml.parsing exNumbers (fun _ => none) doc with
  | some p => match Yml.routing exNumbers p.2.edges (routingDoc "asdf" algo "kmph") with
    | .ok rc => some rc.algo
    | _ => none
  | none => none

/-- `examples/dijkstra.rs:20-72`: the ids of the nodes on the way, and the costs that are printed. -/
def exampleRun (w : World ℚ) (doc : Yaml) (src dst : Nat) : Option (List Int × List ℚ) :=
  match load w doc with
  | .ok net =>
    match Yml.routing w.numbers net.edges doc with
    | .ok rc =>
      match computeBestPath w.heap w.dotp 100 St.new
        { src, dst, graph := net.graph, algo := Session.writerAlgo rc.algo, alphas := rc.routing.alphas } with
      | some (.ok (_, some p)) =>
        match p.flatten net.graph 100 with
        | some (.ok q) =>
          some (idOf net.graph src :: q.edges.map fun e => idOf net.graph (net.graph.fwdDsts.getD e 0), q.costs.getD [])
        | _ => none
      | _ => none
    | _ => none
  | _ => none

/-- The lines that are written for the map of this document, with this section for routing and these random pairs,
together with those of the shipped file. -/
def pairsAnew (w : World ℚ) (doc : Yaml) (algo metric : String) (draws : Nat → Nat → Nat → Nat × Nat) :
    Option (List Text × List Text) :=
  match load w doc, Yml.routePairs w.numbers doc, Yml.parsing w.numbers w.text doc with
  | .ok net, some o, some (mapFile, _) =>
    match Yml.routing w.numbers net.edges (routingDoc (String.ofList o.file) algo metric), w.text o.file with
    | .ok rc, some shipped =>
      match (Session.pairsEnv w draws 100 net.graph rc o).write 1000 mapFile o.seed with
      | some (.ok written) => some (written, shipped)
      | _ => none
    | _, _ => none
  | _, _, _ => none

/-- A line that leads from a node to itself. -/
def selfPair (line : Text) : Bool :=
  match Text.words line with
  | a :: b :: _ => decide (a = b)
  | _ => false

/-- The written lines are those of the shipped file except lines that lead from a node to itself, and the number of routes
in the sixth line is adapted. -/
def sameButSelf (p : List Text × List Text) : Bool :=
  let routes := (p.2.drop 9).filter fun line => !selfPair line
  decide (p.1 = p.2.take 5 ++ [Text.printNat routes.length] ++ (p.2.drop 6).take 3 ++ routes)

end Verif.Tests
