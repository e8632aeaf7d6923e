import Verif.Dijkstra
import Verif.Building

/-!
# Debug-assertions

The router (`src/routing/dijkstra.rs`) and the builder (`src/network/graph/building.rs`) in a debug build, in which
`debug_assert!` panics if its condition is false. `Dijkstra.lean` and `Building.lean` model the code without them. The
remaining debug-assertion (`src/routing/explorating.rs:576-579`) comes right after a `drain(..)` of the vector that it
expects to be empty, and is not modelled. Overflow checks of debug builds are not modelled here.
-/

namespace Verif.Dbg

/-- `debug_assert!` -/
def check {E : Type} (b : Bool) : Res E Unit := if b then .ok () else .panic

/-- `src/routing/dijkstra.rs:48-61` `fwd_idx`, `bwd_idx`, `dir_idx`. -/
def dirIdx : Dir → Nat
  | .fwd => 0
  | .bwd => 1

section
variable {K : Type} [LinearOrder K] [Zero K] [Add K] (h : Dij.Heap K) (g : Graph) (wt : List ℚ → K)

/-- `src/routing/dijkstra.rs:107-120` `is_meeting_costnode` with its assertion (114-117). -/
def isMeeting (s : Dij.St K) (cur : Dij.CN K) : Dij.R Bool :=
  if s.isCh then do
    let c ← .ofIdx (s.costs cur.dir.opp)[cur.idx]?
    pure c.isSome
  else do
    let own ← .ofIdx (s.visited cur.dir)[cur.idx]?
    check own
    .ofIdx (s.visited cur.dir.opp)[cur.idx]?

/-- `src/routing/dijkstra.rs:214-299`: one iteration of the search loop after popping `cur`. -/
def step (s : Dij.St K) (best : Dij.Best K) (cur : Dij.CN K) : Dij.R (Dij.Next K) :=
  if s.flag .fwd && s.flag .bwd then .ok (.stop s best)
  else do
    let label ← .ofIdx (s.costs cur.dir)[cur.idx]?
    if !Dij.leInf cur.cost label then .ok (.go s best)
    else do
      let s ← Dij.visit s cur
      match best with
      | some (m, b) =>
        if Dij.ltInf b (some cur.cost) then
          .ok (.go { s with flag := Function.update s.flag cur.dir true } best)
        else do
          let t ← Dij.totalCost s cur.idx
          Dij.expand h g wt s (if Dij.ltInf t b then some (cur.idx, t) else some (m, b)) cur
      | none => do
        let meets ← isMeeting s cur
        if meets then do
          let t ← Dij.totalCost s cur.idx
          Dij.expand h g wt s (some (cur.idx, t)) cur
        else Dij.expand h g wt s none cur

/-- `src/routing/dijkstra.rs:214-299`: the search loop. -/
def loop : Nat → Dij.St K → Dij.Best K → Option (Dij.R (Dij.St K × Dij.Best K))
  | 0, _, _ => none
  | fuel + 1, s, best =>
    match h.pop s.queue with
    | none => some (.ok (s, best))
    | some (cur, q) =>
      match step h g wt { s with queue := q } best cur with
      | .panic => some .panic
      | .err e => some (.err e)
      | .ok (.stop s best) => some (.ok (s, best))
      | .ok (.go s best) => loop fuel s best

/-- `src/routing/dijkstra.rs:214-341`: the search loop and then the path. -/
def search (fuel : Nat) (s : Dij.St K) (src dst : Nat) : Option (Dij.R (Dij.St K × Option Path)) :=
  match loop h g wt fuel s none with
  | none => none
  | some (.err e) => some (.err e)
  | some .panic => some .panic
  | some (.ok (s, best)) =>
    (Dij.mkPath g fuel s best src dst).map fun r => do
      let p ← r
      pure (s, p)

/-- `src/routing/dijkstra.rs:144-342` `compute_best_path` with its assertions (145-148, 173-182). -/
def computeBestPath (h : Dij.Heap K) (dotp : List ℚ → List ℚ → K) (fuel : Nat) (s : Dij.St K) (q : Dij.Query K) :
    Option (Dij.R (Dij.St K × Option Path)) :=
  if q.alphas.isEmpty then some .panic
  else if q.alphas.any (fun a => decide (a < 0)) then some (.ok (s, none))
  else
    match q.algo with
    | .explorator => some .panic
    | algo =>
      let s := { s with isCh := decide (algo = .chDijkstra) }
      match (do
        check (decide (0 = dirIdx .fwd))
        check (decide (1 = dirIdx .bwd))
        let s ← Dij.initQuery s q.graph.nodeCount
        Dij.start h s q.src q.dst) with
      | .panic => some .panic
      | .err e => some (.err e)
      | .ok s => search h q.graph (dotp q.alphas) fuel s q.src q.dst

end

open Build in
/-- `src/network/graph/building.rs:843-871`: the loop over the backward edges, with its variables `src_idx` and `offset`;
the pushed offsets, and the value of `offset` afterwards. -/
def offsetsGo : Nat → Nat → List Nat → R (List Nat × Nat)
  | _, off, [] => .ok ([], off)
  | src, off, s :: l =>
    if src ≤ s then do
      let (rest, last) ← offsetsGo s (off + 1) l
      pure (List.replicate (s - src) off ++ rest, last)
    else .panic

open Build in
/-- `src/network/graph/building.rs:837-876` with its assertion (871-875). -/
def mkOffsets (srcs : List Nat) : R (List Nat) := do
  let (rest, last) ← offsetsGo 0 0 srcs
  check (decide (last = srcs.length))
  pure (0 :: (rest ++ [last]))

open Build in
/-- `src/network/graph/building.rs:351-884` `GraphBuilder::finalize` before generating metrics. -/
def finalize (dim : Nat) (b : NodeBuilder) : R Graph := do
  let coords ← checkCoords b.coords
  let edgesB ← toEdgesB b.nodeIds b.edges
  let sorted ← sortByKey (fwdKey b.levels) edgesB
  let newIdx ← newIndices sorted
  let scs1 ← remapShortcuts newIdx sorted b.shortcuts
  let (kept, removed) ← dedupEdges sorted
  let scs2 ← correctShortcuts removed kept scs1
  let (metrics, edgesC, newSc) ← storeMetrics scs2 0 kept
  checkMetrics metrics
  let (scOffs, scEdges) ← scOffsets edgesC.length newSc
  let fwdOffs ← Build.mkOffsets (edgesC.map EdgeC.src)
  let idMap ← mkIdMap edgesC
  let bwdSorted ← sortByKey (bwdKey b.levels) (setIdx 0 edgesC)
  let bwdOffs ← Dbg.mkOffsets (bwdSorted.map EdgeC.dst)
  pure
    { nodeIds := b.nodeIds
      nodeCoords := coords
      nodeLevels := b.levels
      fwdDsts := edgesC.map EdgeC.dst
      fwdOffsets := fwdOffs
      fwdMap := List.range edgesC.length
      bwdDsts := edgesC.map EdgeC.src
      bwdOffsets := bwdOffs
      bwdMap := bwdSorted.map EdgeC.idx
      metrics := metrics
      means := none
      edgeIds := edgesC.map EdgeC.id
      idMap := idMap
      scOffsets := scOffs
      scEdges := scEdges
      dim := dim }

end Verif.Dbg
