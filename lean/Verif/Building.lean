import Verif.Graph
import Verif.Sort

/-!
# Model of `src/network/graph/building.rs`, lines 69-884

Inserting edges and nodes and finalizing the graph up to (excluding) metric generation.
-/

namespace Verif.Build

open Approx (Coord)

/-- `src/network/graph/building.rs:98-121` `ProtoShortcut` together with its `ProtoEdge`. -/
structure ProtoEdge where
  id : Option Nat
  srcId : Int
  dstId : Int
  metrics : List ℚ
  sc : Option (Nat × Nat)
deriving DecidableEq, Repr

/-- `src/network/graph/building.rs:148-155` `ProtoEdgeA`. -/
structure EdgeA where
  idx : Nat
  id : Option Nat
  srcId : Int
  dstId : Int
  metrics : List ℚ
  sc : Option Nat
deriving DecidableEq, Repr

/-- `src/network/graph/building.rs:157-164` `ProtoEdgeB`. -/
structure EdgeB where
  idx : Nat
  id : Option Nat
  src : Nat
  dst : Nat
  metrics : List ℚ
  sc : Option Nat
deriving DecidableEq, Repr

/-- `src/network/graph/building.rs:184-189` `ProtoEdgeC`. -/
structure EdgeC where
  src : Nat
  dst : Nat
  idx : Nat
  id : Option Nat
deriving DecidableEq, Repr

/-- `src/network/graph/building.rs:91-96` `ProtoNode`. -/
structure ProtoNode where
  id : Int
  coord : Coord
  level : Option Nat
deriving DecidableEq, Repr

/-- `src/network/graph/building.rs:191-196` `EdgeBuilder` (without config). -/
structure EdgeBuilder where
  nodeIds : List Int
  edges : List EdgeA
  shortcuts : List (Nat × Nat)
deriving DecidableEq, Repr

/-- `src/network/graph/building.rs:342-349` `GraphBuilder::new`. -/
def EdgeBuilder.new : EdgeBuilder := { nodeIds := [], edges := [], shortcuts := [] }

/-- `src/network/graph/building.rs:229-240`: remember the endpoint ids, unless they are among the
last two ids that were present before this insertion. -/
def pushIds (ids : List Int) (src dst : Int) : List Int :=
  let n := ids.length
  if n < 2 then ids ++ [src, dst]
  else
    let window := (ids.drop (n - 2)).take 2
    let ids1 := if window.contains src then ids else ids ++ [src]
    if window.contains dst then ids1 else ids1 ++ [dst]

/-- `src/network/graph/building.rs:203-267` `EdgeBuilder::insert`. -/
def EdgeBuilder.insert (b : EdgeBuilder) (e : ProtoEdge) : EdgeBuilder :=
  let ids := pushIds b.nodeIds e.srcId e.dstId
  let idx := b.edges.length
  match e.sc with
  | some sc =>
    { nodeIds := ids
      edges := b.edges ++ [{ idx, id := e.id, srcId := e.srcId, dstId := e.dstId,
                             metrics := e.metrics, sc := some b.shortcuts.length }]
      shortcuts := b.shortcuts ++ [sc] }
  | none =>
    { nodeIds := ids
      edges := b.edges ++ [{ idx, id := e.id, srcId := e.srcId, dstId := e.dstId,
                             metrics := e.metrics, sc := none }]
      shortcuts := b.shortcuts }

/-- A sequence of insertions. -/
def EdgeBuilder.insertAll (b : EdgeBuilder) (es : List ProtoEdge) : EdgeBuilder :=
  es.foldl EdgeBuilder.insert b

/-- `Vec::dedup_by_key` with current representative `prev`. -/
def dedupGo {α κ : Type} [DecidableEq κ] (key : α → κ) (prev : α) : List α → List α
  | [] => [prev]
  | b :: l => if key prev = key b then dedupGo key prev l else prev :: dedupGo key b l

/-- std `Vec::dedup_by_key` (and `dedup` with the identity): drops consecutive elements with the key
of the kept predecessor. -/
def dedupBy {α κ : Type} [DecidableEq κ] (key : α → κ) : List α → List α
  | [] => []
  | a :: l => dedupGo key a l

/-- `src/network/graph/building.rs:293-300` `NodeBuilder` (without config). -/
structure NodeBuilder where
  nodeIds : List Int
  coords : List (Option Coord)
  levels : List Nat
  edges : List EdgeA
  shortcuts : List (Nat × Nat)
deriving DecidableEq, Repr

/-- `src/network/graph/building.rs:269-290` `EdgeBuilder::next`; the default level is 0
(`src/defaults.rs:274`). -/
def EdgeBuilder.next (b : EdgeBuilder) : NodeBuilder :=
  let ids := dedupBy (fun i => i) (stableSort (fun a b => decide (a ≤ b)) b.nodeIds)
  { nodeIds := ids
    coords := List.replicate ids.length none
    levels := List.replicate ids.length 0
    edges := b.edges
    shortcuts := b.shortcuts }

/-- `src/network/graph/building.rs:308-318` `NodeBuilder::insert` (the new state and the returned
flag). The writes are in bounds whenever `coords`/`levels` are as long as `nodeIds`, which
`List.set` (a no-op out of bounds) would otherwise hide; `Build.NodeBuilder.WF` states it. -/
def NodeBuilder.insert (b : NodeBuilder) (n : ProtoNode) : NodeBuilder × Bool :=
  match Graph.idxFrom b.nodeIds n.id with
  | .ok i =>
    ({ b with
        coords := b.coords.set i (some n.coord)
        levels := match n.level with
          | some lv => b.levels.set i lv
          | none => b.levels }, true)
  | .error _ => (b, false)

/-- A sequence of node insertions. -/
def NodeBuilder.insertAll (b : NodeBuilder) (ns : List ProtoNode) : NodeBuilder :=
  ns.foldl (fun b n => (b.insert n).1) b

/-- Errors of `finalize` before metric generation. -/
inductive BuildErr where
  | missingCoord
  | metricTooSmall
  | duplicateEdgeId
deriving DecidableEq, Repr

abbrev R := Res BuildErr

/-- `src/network/graph/building.rs:365-382`: error if a coordinate is missing, else unwrap. -/
def checkCoords : List (Option Coord) → R (List Coord)
  | [] => .ok []
  | none :: _ => .err .missingCoord
  | some c :: l => do
    let cs ← checkCoords l
    pure (c :: cs)

/-- `src/network/graph/building.rs:420-433`: replace ids by indices, panics for unknown ids. -/
def toEdgeB (nodeIds : List Int) (e : EdgeA) : R EdgeB :=
  match Graph.idxFrom nodeIds e.srcId, Graph.idxFrom nodeIds e.dstId with
  | .ok s, .ok d => .ok { idx := e.idx, id := e.id, src := s, dst := d, metrics := e.metrics, sc := e.sc }
  | _, _ => .panic

/-- `src/network/graph/building.rs:395-408,597-608`: the chunked traversal. The edges were reversed
into `rev`; a chunk is the reversed tail of `rev` with at most `c` elements, and the chunks are worked
off one after the other. `fuel` bounds the number of chunks. -/
def chunked {α : Type} (c : Nat) : Nat → List α → List α
  | 0, _ => []
  | fuel + 1, rev =>
    if rev.length > 0 then
      let start := rev.length - min rev.length c
      (rev.drop start).reverse ++ chunked c fuel (rev.take start)
    else []

/-- `src/network/graph/building.rs:388-452`: all edges in order. Simplification: the chunked
reverse-and-splice traversal is a plain in-order traversal (`chunked_traversal` in
`BuildingLemmas.lean` shows that they visit the same sequence). -/
def toEdgesB (nodeIds : List Int) : List EdgeA → R (List EdgeB)
  | [] => .ok []
  | e :: l => do
    let b ← toEdgeB nodeIds e
    let bs ← toEdgesB nodeIds l
    pure (b :: bs)

/-- Order of `Option<usize>`: `None` first. -/
def idRank : Option Nat → Nat
  | none => 0
  | some n => n + 1

/-- Lexicographic order of the keys `(a, Reverse(level), b, id)`. -/
def keyLe (x y : Nat × Nat × Nat × Option Nat) : Bool :=
  decide (x.1 < y.1) || (decide (x.1 = y.1) &&
    (decide (y.2.1 < x.2.1) || (decide (x.2.1 = y.2.1) &&
      (decide (x.2.2.1 < y.2.2.1) || (decide (x.2.2.1 = y.2.2.1) &&
        decide (idRank x.2.2.2 ≤ idRank y.2.2.2))))))

/-- Stable `sort_by_key` with a key function that may panic (`nodes.level(..)`): every key is
evaluated, a missing one panics. -/
def sortByKey {α : Type} (key : α → Option (Nat × Nat × Nat × Option Nat)) (l : List α) :
    R (List α) :=
  match l.mapM (fun a => (key a).map (fun k => (k, a))) with
  | none => .panic
  | some kl => .ok ((stableSort (fun x y => keyLe x.1 y.1) kl).map Prod.snd)

/-- `src/network/graph/building.rs:466-473` forward sort key
(`IS_USING_CH_LEVEL_SPEEDUP` is the constant `true`, `src/defaults.rs:83`). -/
def fwdKey (levels : List Nat) (e : EdgeB) : Option (Nat × Nat × Nat × Option Nat) :=
  levels[e.dst]?.map fun lv => (e.src, lv, e.dst, e.id)

/-- `src/network/graph/building.rs:819-826` backward sort key. -/
def bwdKey (levels : List Nat) (e : EdgeC) : Option (Nat × Nat × Nat × Option Nat) :=
  levels[e.src]?.map fun lv => (e.dst, lv, e.src, e.id)

/-- `src/network/graph/building.rs:484-488`: `new_indices[edge.idx] = new_idx` over the sorted
edges; panics if `edge.idx` is out of bounds. -/
def newIndicesGo (arr : List Nat) (newIdx : Nat) : List EdgeB → R (List Nat)
  | [] => .ok arr
  | e :: l =>
    if e.idx < arr.length then newIndicesGo (arr.set e.idx newIdx) (newIdx + 1) l else .panic

def newIndices (es : List EdgeB) : R (List Nat) :=
  newIndicesGo (List.replicate es.length 0) 0 es

/-- `src/network/graph/building.rs:490-496`: replaces both indices of every shortcut. -/
def remapShortcuts (newIdx : List Nat) : List EdgeB → List (Nat × Nat) → R (List (Nat × Nat))
  | [], scs => .ok scs
  | e :: l, scs =>
    match e.sc with
    | none => remapShortcuts newIdx l scs
    | some k => do
      let p ← .ofIdx scs[k]?
      let a ← .ofIdx newIdx[p.1]?
      let b ← .ofIdx newIdx[p.2]?
      remapShortcuts newIdx l (scs.set k (a, b))

/-- `src/network/graph/building.rs:516-536`: is `e1` a duplicate of `e0`? -/
def isDuplicate (e0 e1 : EdgeB) : Bool :=
  decide (e0.id = e1.id) && decide ((e0.src, e0.dst) = (e1.src, e1.dst)) &&
    (e0.metrics.zip e1.metrics).all (fun p => Approx.eq p.1 p.2)

/-- `slice::swap`, panics out of bounds. -/
def swap (l : List EdgeB) (i j : Nat) : R (List EdgeB) := do
  let a ← .ofIdx l[i]?
  let b ← .ofIdx l[j]?
  pure ((l.set i b).set j a)

/-- `src/network/graph/building.rs:513-552`: the in-place loop over `r`, with `n` remaining
iterations; state is the array, `w` and the removed indices. `proto_edges[w - 1]` would underflow
for `w = 0`. -/
def dedupLoop : Nat → List EdgeB → Nat → Nat → List Nat → R (List EdgeB × List Nat)
  | 0, l, _, _, removed => .ok (l, removed)
  | n + 1, l, w, r, removed =>
    if w = 0 then .panic else do
      let e0 ← .ofIdx l[w - 1]?
      let e1 ← .ofIdx l[r]?
      if isDuplicate e0 e1 then dedupLoop n l w (r + 1) (removed ++ [r])
      else do
        let l' ← swap l w r
        dedupLoop n l' (w + 1) (r + 1) removed

/-- `src/network/graph/building.rs:513-554`: loop over `1..len`, then truncate. -/
def dedupEdges (l : List EdgeB) : R (List EdgeB × List Nat) := do
  let (l', removed) ← dedupLoop (l.length - 1) l 1 1 []
  pure (l'.take (l'.length - removed.length), removed)

/-- `src/network/graph/building.rs:565-569`: one shortcut index, decremented for every removed index
that is not above it, from the largest removed index to the smallest. -/
def decrement (removed : List Nat) (s : Nat) : Nat :=
  removed.reverse.foldl (fun s r => if r ≤ s then s - 1 else s) s

/-- `src/network/graph/building.rs:561-571`: correct the shortcuts of the remaining edges. -/
def correctShortcuts (removed : List Nat) : List EdgeB → List (Nat × Nat) → R (List (Nat × Nat))
  | [], scs => .ok scs
  | e :: l, scs =>
    match e.sc with
    | none => correctShortcuts removed l scs
    | some k => do
      let p ← .ofIdx scs[k]?
      correctShortcuts removed l (scs.set k (decrement removed p.1, decrement removed p.2))

/-- `src/network/graph/building.rs:72-83` zero-correction in `add_metrics`. -/
def correctMetric (m : ℚ) : ℚ := if Approx.eq m 0 then eps else m

/-- `src/network/graph/building.rs:618-643`: collects metrics, edges without metrics, and the
shortcut pairs with their edge index. Simplification: chunking as above. -/
def storeMetrics (scs : List (Nat × Nat)) : Nat → List EdgeB →
    R (List (List ℚ) × List EdgeC × List (Nat × (Nat × Nat)))
  | _, [] => .ok ([], [], [])
  | i, e :: l => do
    let sc ← match e.sc with
      | none => .ok []
      | some k => do
        let p ← .ofIdx scs[k]?
        pure [(i, p)]
    let (ms, cs, ss) ← storeMetrics scs (i + 1) l
    pure (e.metrics.map correctMetric :: ms,
          { src := e.src, dst := e.dst, idx := 0, id := e.id } :: cs,
          sc ++ ss)

/-- `src/network/graph/building.rs:658-666`. -/
def checkMetrics (ms : List (List ℚ)) : R Unit :=
  if ms.any (fun m => m.any (fun x => decide (x < eps))) then .err .metricTooSmall else .ok ()

/-- `src/network/graph/building.rs:686-705`: loop over edge indices `edgeIdx, edgeIdx+1, ..`
(`n` iterations left) filling `sc_offsets` and `sc_edges`. -/
def scLoop (newSc : List (Nat × (Nat × Nat))) :
    Nat → Nat → Nat → List Nat → List (Nat × Nat) → R (List Nat × List (Nat × Nat))
  | 0, _, _, offs, scs => .ok (offs, scs)
  | n + 1, edgeIdx, scOff, offs, scs =>
    if scOff = newSc.length then .ok (offs, scs)
    else do
      let (scEdgeIdx, pair) ← .ofIdx newSc[scOff]?
      if edgeIdx < offs.length then
        let offs' := offs.set edgeIdx scOff
        if edgeIdx = scEdgeIdx then scLoop newSc n (edgeIdx + 1) (scOff + 1) offs' (scs ++ [pair])
        else scLoop newSc n (edgeIdx + 1) scOff offs' scs
      else .panic

/-- `src/network/graph/building.rs:682-706`. -/
def scOffsets (numEdges : Nat) (newSc : List (Nat × (Nat × Nat))) :
    R (List Nat × List (Nat × Nat)) :=
  scLoop newSc numEdges 0 0 (List.replicate (numEdges + 1) newSc.length) []

/-- The `while src_idx != edge_src_idx` loops of `src/network/graph/building.rs:736-739,852-855`
over the sequence of sources, pushing the current offset until the source is reached. If the source
is smaller than the current one, the Rust loop counts up until `usize` overflows, i.e. panics. -/
def offsetsGo : Nat → Nat → List Nat → R (List Nat)
  | _, off, [] => .ok [off]
  | src, off, s :: l =>
    if src ≤ s then do
      let rest ← offsetsGo s (off + 1) l
      pure (List.replicate (s - src) off ++ rest)
    else .panic

/-- `src/network/graph/building.rs:716-762,837-876` offset array for a sequence of sources. -/
def mkOffsets (srcs : List Nat) : R (List Nat) := do
  let rest ← offsetsGo 0 0 srcs
  pure (0 :: rest)

/-- `src/network/graph/building.rs:746-749` pairs (id, idx) in edge order. -/
def idPairs : Nat → List EdgeC → List (Nat × Nat)
  | _, [] => []
  | i, e :: l =>
    match e.id with
    | some id => (id, i) :: idPairs (i + 1) l
    | none => idPairs (i + 1) l

/-- `src/network/graph/building.rs:791-807`: adjacent ids have to increase. -/
def idsIncreasing : List (Nat × Nat) → Bool
  | [] => true
  | [_] => true
  | a :: b :: l => decide (a.1 < b.1) && idsIncreasing (b :: l)

/-- `src/network/graph/building.rs:775-808` sorted map from ids to indices, error on duplicates. -/
def mkIdMap (es : List EdgeC) : R (List (Nat × Nat)) :=
  let pairs := idPairs 0 es
  let m := dedupBy Prod.fst (stableSort (fun a b => decide (a.1 ≤ b.1)) pairs)
  if m.length ≠ pairs.length then .err .duplicateEdgeId
  else if idsIncreasing m then .ok m else .err .duplicateEdgeId

/-- `src/network/graph/building.rs:723-726`: remember the forward index of each edge. -/
def setIdx : Nat → List EdgeC → List EdgeC
  | _, [] => []
  | i, e :: l => { e with idx := i } :: setIdx (i + 1) l

/-- `src/network/graph/building.rs:351-884` `GraphBuilder::finalize` before generating metrics.
`dim` is the number of metrics of the config. Order of the effects as in the code: coordinates,
indices, sort, shortcuts, duplicates, metrics and their check, shortcut offsets, forward offsets,
id map, backward sort, backward offsets. -/
def finalize (dim : Nat) (b : NodeBuilder) : R Graph := do
  let coords ← checkCoords b.coords
  let edgesB ← toEdgesB b.nodeIds b.edges
  let sorted ← sortByKey (fwdKey b.levels) edgesB
  let newIdx ← newIndices sorted
  let scs1 ← remapShortcuts newIdx sorted b.shortcuts
  let (kept, removed) ← dedupEdges sorted
  let scs2 ← correctShortcuts removed kept scs1
  let (metrics, edgesC, newSc) ← storeMetrics scs2 0 kept
  checkMetrics metrics
  let (scOffs, scEdges) ← scOffsets edgesC.length newSc
  let fwdOffs ← mkOffsets (edgesC.map EdgeC.src)
  let idMap ← mkIdMap edgesC
  let bwdSorted ← sortByKey (bwdKey b.levels) (setIdx 0 edgesC)
  let bwdOffs ← mkOffsets (bwdSorted.map EdgeC.dst)
  pure
    { nodeIds := b.nodeIds
      nodeCoords := coords
      nodeLevels := b.levels
      fwdDsts := edgesC.map EdgeC.dst
      fwdOffsets := fwdOffs
      fwdMap := List.range edgesC.length
      bwdDsts := edgesC.map EdgeC.src
      bwdOffsets := bwdOffs
      bwdMap := bwdSorted.map EdgeC.idx
      metrics := metrics
      means := none
      edgeIds := edgesC.map EdgeC.id
      idMap := idMap
      scOffsets := scOffs
      scEdges := scEdges
      dim := dim }

/-- The whole pipeline as driven by the parsers (`src/io/parsing/network/graph/mod.rs:75-87`,
`src/network/graph/building.rs:320-329` is a plain move): insert edges, then nodes, then finalize. -/
def build (dim : Nat) (es : List ProtoEdge) (ns : List ProtoNode) : R Graph :=
  finalize dim (((EdgeBuilder.new.insertAll es).next).insertAll ns)

end Verif.Build
