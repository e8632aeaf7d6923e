import Verif.Generating

/-!
# Reading and writing maps in the fmi-format

Model of `src/io/parsing/network/graph/fmi.rs`, `src/io/writing/network/graph/fmi.rs`,
`src/io/writing/network/mod.rs` and `src/io/writing/network/edges.rs`.
A file is the list of its lines. Opening files, invalid UTF-8 and ids containing line breaks are not modelled.
-/

namespace Verif.Fmi

open Cfg Text
open Build (ProtoEdge ProtoNode)
open Gen (Net)

/-- What the model takes from elsewhere: `str::parse` and `Display` for `f64`, and `Debug` for a list of
strings. Simplification: `inf` and `nan` are no numbers here. -/
structure Codec where
  parseF : Text → Option ℚ
  printF : ℚ → Text
  debug : List Text → Text

/-- Why reading or writing fails. -/
inductive FmiErr where
  | config (e : Cfg.Err)
  | fewCounts
  | fewParams
  | number
  | duplicate
  | unsupported
  | noSrc
  | noDst
  | noId
  | noCoord
  | unknownId
deriving DecidableEq, Repr

abbrev R := Res FmiErr

/-! ## Reading -/

/-- `&param[0..2]` and `&param[2..]`: the first two bytes and the others. Panics (`none`) if there are fewer
bytes or if the second byte isn't the end of a character. -/
def splitTwo : Text → Option (Text × Text)
  | [] => none
  | a :: t =>
    if a.utf8Size = 2 then some ([a], t)
    else if a.utf8Size = 1 then
      match t with
      | [] => none
      | b :: t => if b.utf8Size = 1 then some ([a, b], t) else none
    else none

/-- `src/io/parsing/network/graph/fmi.rs:189-203`: the id of an edge, `ch` may precede it. -/
def readEdgeId (param : Text) : R Nat :=
  match parseNat maxUsize param with
  | some id => .ok id
  | none =>
    match splitTwo param with
    | none => .panic
    | some (a, b) =>
      if a = "ch".toList then
        match parseNat maxUsize b with
        | some id => .ok id
        | none => .err .number
      else .err .number

/-- `src/io/parsing/network/graph/fmi.rs:168-173`: what is known about the edge so far. -/
structure EdgeAcc where
  id : Option Nat
  src : Option Int
  dst : Option Int
  sc0 : Option Nat
  sc1 : Option Nat
  metrics : List ℚ
deriving DecidableEq, Repr

/-- `src/defaults.rs:40` `NO_SHORTCUT_IDX`. -/
def noShortcut : Text := "-1".toList

/-- `src/io/parsing/network/graph/fmi.rs:230-248,249-267`: an index of a shortcut. -/
def readShortcut (old : Option Nat) (param : Text) : R (Option Nat) :=
  if param = noShortcut then .ok old
  else match parseNat maxUsize param with
    | none => .err .number
    | some n => if old = none then .ok (some n) else .err .duplicate

/-- `src/io/parsing/network/graph/fmi.rs:204-216,217-229`: the id of a node. -/
def readEnd (old : Option Int) (param : Text) : R (Option Int) :=
  if old = none then
    match parseInt maxI64 param with
    | some id => .ok (some id)
    | none => .err .number
  else .err .duplicate

/-- `src/io/parsing/network/graph/fmi.rs:187-288`: one column. -/
def readColumn (c : Codec) (a : EdgeAcc) (param : Text) : EdgeCat → R EdgeAcc
  | .info .edgeId _ => do
    let id ← readEdgeId param
    pure { a with id := some id }
  | .info .srcId _ => do
    let src ← readEnd a.src param
    pure { a with src }
  | .info .dstId _ => do
    let dst ← readEnd a.dst param
    pure { a with dst }
  | .info .shortcutIdx0 _ => do
    let sc0 ← readShortcut a.sc0 param
    pure { a with sc0 }
  | .info .shortcutIdx1 _ => do
    let sc1 ← readShortcut a.sc1 param
    pure { a with sc1 }
  | .info .srcIdx _ | .info .srcLat _ | .info .srcLon _ | .info .dstIdx _ | .info .dstLat _
  | .info .dstLon _ => .err .unsupported
  | .metric _ _ =>
    match c.parseF param with
    | some x => .ok { a with metrics := a.metrics ++ [x] }
    | none => .err .number
  | .ignored => .ok a

/-- `src/io/parsing/network/graph/fmi.rs:179-289`: all columns. -/
def readColumns (c : Codec) : EdgeAcc → List Text → List EdgeCat → R EdgeAcc
  | a, _, [] => .ok a
  | _, [], _ :: _ => .err .fewParams
  | a, param :: params, cat :: cats => do
    let a ← readColumn c a param cat
    readColumns c a params cats

/-- `src/io/parsing/network/graph/fmi.rs:291-297`: a shortcut needs both indices. -/
def both : Option Nat → Option Nat → Option (Nat × Nat)
  | some x, some y => some (x, y)
  | _, _ => none

/-- `src/io/parsing/network/graph/fmi.rs:164-308` `ProtoShortcut::try_from_str`. -/
def readEdge (c : Codec) (cats : List EdgeCat) (line : Text) : R ProtoEdge := do
  let a ← readColumns c ⟨none, none, none, none, none, []⟩ (words line) cats
  let sc := both a.sc0 a.sc1
  match a.src with
  | none => .err .noSrc
  | some src =>
    match a.dst with
    | none => .err .noDst
    | some dst => .ok { id := a.id, srcId := src, dstId := dst, metrics := a.metrics, sc }

/-- `src/io/parsing/network/graph/fmi.rs:313-316`: what is known about the node so far. -/
structure NodeAcc where
  id : Option Int
  lat : Option ℚ
  lon : Option ℚ
  level : Option Nat
deriving DecidableEq, Repr

/-- `src/io/parsing/network/graph/fmi.rs:327-383`: one column. The error messages for coordinates mention the
third or fourth word of the line, whose absence panics. -/
def readNodeColumn (c : Codec) (all : List Text) (a : NodeAcc) (param : Text) : NodeCat → R NodeAcc
  | .info .nodeId _ =>
    match parseInt maxI64 param with
    | some id => .ok { a with id := some id }
    | none => .err .number
  | .info .chLevel _ =>
    match parseNat maxUsize param with
    | some lv => .ok { a with level := some lv }
    | none => .err .number
  | .info .nodeIdx _ => .err .unsupported
  | .metric .latitude _ =>
    match c.parseF param with
    | some x => .ok { a with lat := some x }
    | none => if 2 < all.length then .err .number else .panic
  | .metric .longitude _ =>
    match c.parseF param with
    | some x => .ok { a with lon := some x }
    | none => if 3 < all.length then .err .number else .panic
  | .metric .height _ => .err .unsupported
  | .ignored => .ok a

/-- `src/io/parsing/network/graph/fmi.rs:321-384`: all columns. -/
def readNodeColumns (c : Codec) (all : List Text) : NodeAcc → List Text → List NodeCat → R NodeAcc
  | a, _, [] => .ok a
  | _, [], _ :: _ => .err .fewParams
  | a, param :: params, cat :: cats => do
    let a ← readNodeColumn c all a param cat
    readNodeColumns c all a params cats

/-- `src/io/parsing/network/graph/fmi.rs:312-394` `ProtoNode::from_str`. -/
def readNode (c : Codec) (cats : List NodeCat) (line : Text) : R ProtoNode := do
  let a ← readNodeColumns c (words line) ⟨none, none, none, none⟩ (words line) cats
  match a.id with
  | none => .err .noId
  | some id =>
    match a.lat, a.lon with
    | some lat, some lon => .ok { id, coord := ⟨lat, lon⟩, level := a.level }
    | _, _ => .err .noCoord

/-- `src/io/parsing/network/graph/fmi.rs:38-69`: the number of functional lines in front of the nodes, and the
counts. -/
def scan : Bool → List Nat → Nat → List Text → Nat × List Nat
  | _, counts, n, [] => (n, counts)
  | taking, counts, n, line :: lines =>
    match words line with
    | [param] =>
      match parseNat maxUsize param with
      | some count => scan true (counts ++ [count]) (n + 1) lines
      | none => scan true counts (n + 1) lines
    | _ => if taking then (n, counts) else scan taking counts (n + 1) lines

/-- The functional lines whose number is in a range (`src/io/parsing/network/graph/fmi.rs:107-119,138-150`). -/
def inRange (lo hi : Nat) : Nat → List Text → List Text
  | _, [] => []
  | n, line :: lines =>
    if lo ≤ n ∧ n < hi then line :: inRange lo hi (n + 1) lines else inRange lo hi (n + 1) lines

/-- The results of a function for all elements, up to the first failure. -/
def mapR {ε α β : Type} (f : α → Res ε β) : List α → Res ε (List β)
  | [] => .ok []
  | a :: l => do
    let b ← f a
    let bs ← mapR f l
    pure (b :: bs)

/-- `src/io/parsing/network/graph/fmi.rs:34-157`: `preprocess`, `parse_ways`, `parse_nodes`; and
`src/io/parsing/network/graph/mod.rs:75-87` `parse`. Simplification: numbers of lines don't overflow. -/
def read (c : Codec) (maxDim : Nat) (cfg : Parsing) (file : List Text) :
    R (List ProtoEdge × List ProtoNode) :=
  match Cfg.check maxDim cfg with
  | .error e => .err (.config e)
  | .ok _ =>
    let lines := file.filter isFunctional
    let (start, counts) := scan false [] 0 lines
    match counts.reverse with
    | edgeCount :: nodeCount :: _ => do
      let mid := start + nodeCount
      let es ← mapR (readEdge c cfg.edges.cats) (inRange mid (mid + edgeCount) 0 lines)
      let ns ← mapR (readNode c cfg.nodes) (inRange start mid 0 lines)
      pure (es, ns)
    | _ => .err .fewCounts

/-- Why a map can't be loaded. -/
inductive LoadErr where
  | fmi (e : FmiErr)
  | build (e : Build.BuildErr)
  | gen (e : Gen.GenErr)
deriving DecidableEq, Repr

/-- Another type of errors. -/
def mapErr {ε ε' α : Type} (f : ε → ε') : Res ε α → Res ε' α
  | .ok a => .ok a
  | .err e => .err (f e)
  | .panic => .panic

/-- `src/io/parsing/network/graph/mod.rs:93-103` `parse_and_finalize` for fmi-files. -/
def load (c : Codec) (env : Gen.Env) (maxDim : Nat) (cfg : Parsing) (file : List Text) : Res LoadErr Net := do
  let (es, ns) ← mapErr .fmi (read c maxDim cfg file)
  let graph ← mapErr .build (Build.build cfg.edges.units.length es ns)
  mapErr .gen (Gen.finish env cfg.generating { graph, nodes := cfg.nodes, edges := cfg.edges })

/-! ## Writing -/

/-- `src/configs/writing/network/graph/mod.rs:14-20`, `src/configs/writing/network/edges.rs:13-21`: what is
written. A column without id is ignored. -/
structure WriteCfg where
  nodes : List (Option Text)
  edges : List (Option Text)
  shortcuts : Bool
  denormalize : Bool
deriving DecidableEq, Repr

/-- `src/defaults.rs:57` `IGNORE_STR`. -/
def ignoreText : Text := "_".toList

/-- The id of a category. -/
def nodeCatId : NodeCat → Option Text
  | .info _ id => some id
  | .metric _ id => some id
  | .ignored => none

/-- An accessor that fails is a panic of the writer. -/
def acc {α : Type} : Res AccErr α → R α
  | .ok a => .ok a
  | _ => .panic

/-- `src/io/writing/network/graph/fmi.rs:117-182`: one column of a node. -/
def nodeColumn (c : Codec) (s : Net) (i : Nat) : Option Text → R Text
  | none => .ok ignoreText
  | some id =>
    match s.nodes.find? fun cat => decide (nodeCatId cat = some id) with
    | some (.info info _) => do
      let node ← acc (s.graph.createNode i)
      match info with
      | .nodeId => .ok (printInt node.id)
      | .nodeIdx => .ok (printNat node.idx)
      | .chLevel => .ok (printNat node.level)
    | some (.metric unit _) => do
      let node ← acc (s.graph.createNode i)
      match unit with
      | .latitude => .ok (c.printF node.coord.lat)
      | .longitude => .ok (c.printF node.coord.lon)
      | .height => .panic
    | some .ignored => .panic
    | none => .err .unknownId

/-- `src/io/writing/network/graph/fmi.rs:116-191`: the line of a node. -/
def nodeLine (c : Codec) (s : Net) (cols : List (Option Text)) (i : Nat) : R Text := do
  let texts ← mapR (nodeColumn c s i) cols
  pure (join ' ' texts)

/-- `src/io/writing/network/mod.rs:130-149`: an index of a shortcut. -/
def shortcutText (o : Option Nat) : Text :=
  match o with
  | some n => printNat n
  | none => noShortcut

/-- `src/io/writing/network/mod.rs:175-185`: the value of a metric, multiplied by the mean if wished. -/
def metricValue (s : Net) (denormalize : Bool) (e k : Nat) : R ℚ := do
  let m ← acc (s.graph.edgeMetrics e)
  let x ← .ofIdx m[k]?
  match denormalize, s.graph.means with
  | true, some means => do
    let mean ← .ofIdx means[k]?
    pure (x * mean)
  | _, _ => pure x

/-- `src/io/writing/network/mod.rs:81-186`: the text of a category. -/
def edgeText (c : Codec) (s : Net) (denormalize : Bool) (e : Nat) : EdgeCat → R Text
  | .info .edgeId _ => do
    let id ← acc (s.graph.edgeId e)
    pure (printNat id)
  | .info .srcId _ => do
    let u ← acc (s.graph.dstIdx .bwd e)
    let id ← acc (s.graph.nodeId u)
    pure (printInt id)
  | .info .srcIdx _ => do
    let u ← acc (s.graph.dstIdx .bwd e)
    pure (printNat u)
  | .info .srcLat _ => do
    let u ← acc (s.graph.dstIdx .bwd e)
    let x ← acc (s.graph.nodeCoord u)
    pure (c.printF x.lat)
  | .info .srcLon _ => do
    let u ← acc (s.graph.dstIdx .bwd e)
    let x ← acc (s.graph.nodeCoord u)
    pure (c.printF x.lon)
  | .info .dstId _ => do
    let v ← acc (s.graph.dstIdx .fwd e)
    let id ← acc (s.graph.nodeId v)
    pure (printInt id)
  | .info .dstIdx _ => do
    let v ← acc (s.graph.dstIdx .fwd e)
    pure (printNat v)
  | .info .dstLat _ => do
    let v ← acc (s.graph.dstIdx .bwd e)
    let x ← acc (s.graph.nodeCoord v)
    pure (c.printF x.lat)
  | .info .dstLon _ => do
    let v ← acc (s.graph.dstIdx .bwd e)
    let x ← acc (s.graph.nodeCoord v)
    pure (c.printF x.lon)
  | .info .shortcutIdx0 _ => do
    let sc ← acc (s.graph.scEdgesOf e)
    pure (shortcutText (sc.map Prod.fst))
  | .info .shortcutIdx1 _ => do
    let sc ← acc (s.graph.scEdgesOf e)
    pure (shortcutText (sc.map Prod.snd))
  | .metric _ id =>
    match s.edges.tryIdxOf id with
    | .error _ => .panic
    | .ok k => do
      let x ← metricValue s denormalize e k
      pure (c.printF x)
  | .ignored => .panic

/-- `src/io/writing/network/mod.rs:72-209`: one column of an edge. -/
def edgeColumn (c : Codec) (s : Net) (denormalize : Bool) (e : Nat) : Option Text → R Text
  | none => .ok ignoreText
  | some id =>
    match s.edges.cats.find? fun cat => decide (cat.id? = some id) with
    | some cat => edgeText c s denormalize e cat
    | none => .err .unknownId

/-- `src/io/writing/network/mod.rs:71-219`: the line of an edge. -/
def edgeLine (c : Codec) (s : Net) (denormalize : Bool) (cols : List (Option Text)) (e : Nat) : R Text := do
  let texts ← mapR (edgeColumn c s denormalize e) cols
  pure (join ' ' texts)

/-- `src/io/writing/network/mod.rs:55`, `src/io/writing/network/edges.rs:116-118`: is this edge left out? -/
def skips (g : Graph) (shortcuts : Bool) (e : Nat) : R Bool :=
  if shortcuts then .ok false else acc (g.isShortcut e)

/-- `src/io/writing/network/mod.rs:53-227`: the lines of all edges, without shortcuts unless wished. -/
def edgeLines (c : Codec) (s : Net) (shortcuts denormalize : Bool) (cols : List (Option Text)) :
    List Nat → R (List Text)
  | [] => .ok []
  | e :: es => do
    let skip ← skips s.graph shortcuts e
    if skip then edgeLines c s shortcuts denormalize cols es
    else do
      let line ← edgeLine c s denormalize cols e
      let lines ← edgeLines c s shortcuts denormalize cols es
      pure (line :: lines)

/-- `src/io/writing/network/mod.rs:24-45`, `src/io/writing/network/edges.rs:95-111`: the header's line. -/
def headerTexts (cols : List (Option Text)) : List Text := cols.map fun col => col.getD ignoreText

/-- `src/io/writing/network/mod.rs:13-230` `write_edges_to_file`, i.e. `edges::Writer::write`
(`src/io/writing/network/edges.rs:28-60`). -/
def writeEdges (c : Codec) (s : Net) (header shortcuts denormalize : Bool) (cols : List (Option Text)) :
    R (List Text) := do
  let lines ← edgeLines c s shortcuts denormalize cols (List.range s.graph.edgeCount)
  pure ((if header then [join ' ' (headerTexts cols)] else []) ++ lines)

/-- `src/io/writing/network/graph/fmi.rs:98-102`: the number of edges to write. -/
def countEdges (s : Net) (shortcuts : Bool) : List Nat → R Nat
  | [] => .ok 0
  | e :: es => do
    let is ← acc (s.graph.isShortcut e)
    let n ← countEdges s shortcuts es
    pure (if !is || shortcuts then n + 1 else n)

/-- `src/io/writing/network/graph/fmi.rs:42-79`: the comments. -/
def comments (c : Codec) (s : Net) (w : WriteCfg) : List Text :=
  ['#' :: " edge-metric-count".toList, '#' :: " node-count".toList, '#' :: " edge-count".toList,
    '#' :: (" nodes: ".toList ++ c.debug (headerTexts w.nodes)),
    '#' :: (" edges: ".toList ++ c.debug (headerTexts w.edges)),
    '#' :: (" Edges' metrics are ".toList ++
      (if !s.edges.normalized || w.denormalize then "not normalized".toList else "normalized".toList) ++
      " by their mean.".toList)]

/-- `src/io/writing/network/graph/fmi.rs:85-91`: the number of written metrics. -/
def countMetrics (s : Net) (cols : List (Option Text)) : Nat :=
  ((cols.filterMap fun col => col).filter fun id => decide (id ∈ s.edges.ids)).length

/-- `src/io/writing/network/graph/fmi.rs:24-210` `Writer::write`. Simplification: what has been written before a
failure is not modelled. -/
def write (c : Codec) (s : Net) (w : WriteCfg) : R (List Text) := do
  let n ← countEdges s w.shortcuts (List.range s.graph.edgeCount)
  let nodes ← mapR (nodeLine c s w.nodes) (List.range s.graph.nodeCount)
  let edges ← writeEdges c s false w.shortcuts w.denormalize w.edges
  pure (comments c s w ++ [[]] ++
    [printNat (countMetrics s w.edges), printNat s.graph.nodeCount, printNat n] ++ nodes ++ edges)

/-- `src/io/writing/network/edges.rs:116-120`: the lines of all edges. `print` is the values' `Display`. -/
def valueLines {α : Type} (s : Net) (shortcuts : Bool) (print : α → Text) (values : List α) : List Nat → R (List Text)
  | [] => .ok []
  | e :: es => do
    let skip ← skips s.graph shortcuts e
    if skip then valueLines s shortcuts print values es
    else do
      let id ← acc (s.graph.edgeId e)
      let x ← .ofIdx values[e]?
      let lines ← valueLines s shortcuts print values es
      pure ((printNat id ++ ' ' :: print x) :: lines)

/-- `src/io/writing/network/edges.rs:63-123` `write_external_values`. -/
def writeValues {α : Type} (print : α → Text) (s : Net) (header shortcuts : Bool) (cols : List (Option Text))
    (values : List α) : R (List Text) := do
  let lines ← valueLines s shortcuts print values (List.range s.graph.edgeCount)
  pure ((if header then [join ' ' (headerTexts cols)] else []) ++ lines)

end Verif.Fmi
