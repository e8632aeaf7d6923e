import Verif.Basic
import Verif.Approx

/-!
# Model of `src/network/graph/mod.rs`: the built graph and its accessors
-/

namespace Verif

open Approx (Coord)

/-- `src/network/graph/mod.rs:78-103` `Graph`. Indices (`NodeIdx`, `EdgeIdx`) are `Nat`.
Simplification: of the config only the number of metrics is kept (`dim`,
`src/network/graph/mod.rs:645`); categories and ids are modelled in `Generating.lean`. -/
structure Graph where
  nodeIds : List Int
  nodeCoords : List Coord
  nodeLevels : List Nat
  fwdDsts : List Nat
  fwdOffsets : List Nat
  fwdMap : List Nat
  bwdDsts : List Nat
  bwdOffsets : List Nat
  bwdMap : List Nat
  metrics : List (List ℚ)
  means : Option (List ℚ)
  edgeIds : List (Option Nat)
  idMap : List (Nat × Nat)
  scOffsets : List Nat
  scEdges : List (Nat × Nat)
  dim : Nat
deriving DecidableEq, Repr

/-- Errors returned by accessors. -/
inductive AccErr where
  | unknownEdgeId
deriving DecidableEq, Repr

/-- std `slice::binary_search` on `keys[lo..hi]` (at most `fuel` steps): `.ok i` if `keys[i]` is the
searched key, `.error i` with the insertion point otherwise. Used in
`src/network/graph/mod.rs:475,565` and `src/network/graph/building.rs:309`. Simplification: midpoint
by halving; on strictly sorted lists every binary search has the same result. The interval halves in
each step, so `fuel = keys.length` is never used up; `mid` is in bounds since `hi ≤ keys.length`. -/
def bsearchGo {κ : Type} [DecidableEq κ] (lt : κ → κ → Bool) (keys : List κ) (x : κ) :
    Nat → Nat → Nat → Except Nat Nat
  | 0, lo, _ => .error lo
  | fuel + 1, lo, hi =>
    if lo < hi then
      let mid := (lo + hi) / 2
      match keys[mid]? with
      | none => .error lo
      | some k =>
        if k = x then .ok mid
        else if lt k x then bsearchGo lt keys x fuel (mid + 1) hi
        else bsearchGo lt keys x fuel lo mid
    else .error lo

/-- Binary search over the whole slice. -/
def bsearch {κ : Type} [DecidableEq κ] (lt : κ → κ → Bool) (keys : List κ) (x : κ) :
    Except Nat Nat :=
  bsearchGo lt keys x keys.length 0 keys.length

namespace Graph

/-- `src/network/graph/mod.rs:458-460` `NodeAccessor::count`. -/
def nodeCount (g : Graph) : Nat := g.nodeIds.length

/-- `src/network/graph/mod.rs:462-464` `NodeAccessor::id`. -/
def nodeId (g : Graph) (i : Nat) : Res AccErr Int := .ofIdx g.nodeIds[i]?

/-- `src/network/graph/mod.rs:466-468` `NodeAccessor::coord`. -/
def nodeCoord (g : Graph) (i : Nat) : Res AccErr Coord := .ofIdx g.nodeCoords[i]?

/-- `src/network/graph/mod.rs:470-472` `NodeAccessor::level`. -/
def nodeLevel (g : Graph) (i : Nat) : Res AccErr Nat := .ofIdx g.nodeLevels[i]?

/-- `src/network/graph/mod.rs:474-479` `NodeAccessor::idx_from` (both variants carry an index). -/
def idxFrom (nodeIds : List Int) (id : Int) : Except Nat Nat :=
  bsearch (fun a b => decide (a < b)) nodeIds id

/-- `src/network/graph/mod.rs:333-339` `Node`. -/
structure Node where
  idx : Nat
  id : Int
  coord : Coord
  level : Nat
deriving DecidableEq, Repr

/-- `src/network/graph/mod.rs:489-499` `NodeAccessor::create`. -/
def createNode (g : Graph) (i : Nat) : Res AccErr Node := do
  let id ← g.nodeId i
  let coord ← g.nodeCoord i
  let level ← g.nodeLevel i
  pure { idx := i, id, coord, level }

/-- `src/network/graph/mod.rs:481-487` `NodeAccessor::create_from`. -/
def createNodeFrom (g : Graph) (id : Int) : Res AccErr (Option Node) :=
  match idxFrom g.nodeIds id with
  | .ok i => do
    let n ← g.createNode i
    pure (some n)
  | .error _ => pure none

end Graph

/-- Search direction; index 0 / 1 of the two-element arrays in `src/routing/dijkstra.rs:48-68`,
`Direction` in `src/routing/dijkstra.rs:345-349`. -/
inductive Dir where
  | fwd
  | bwd
deriving DecidableEq, Repr

namespace Dir
/-- `src/routing/dijkstra.rs:63-68` `opp_dir_idx`. -/
def opp : Dir → Dir
  | fwd => bwd
  | bwd => fwd
end Dir

namespace Graph

/-- `src/network/graph/mod.rs:119-143`: `edge_dsts` of `fwd_edges()`/`bwd_edges()`. -/
def dsts (g : Graph) : Dir → List Nat
  | .fwd => g.fwdDsts
  | .bwd => g.bwdDsts

/-- `src/network/graph/mod.rs:119-143`: `offsets` of `fwd_edges()`/`bwd_edges()`. -/
def offsets (g : Graph) : Dir → List Nat
  | .fwd => g.fwdOffsets
  | .bwd => g.bwdOffsets

/-- `src/network/graph/mod.rs:119-143`: `xwd_to_fwd_map` of `fwd_edges()`/`bwd_edges()`. -/
def toFwdMap (g : Graph) : Dir → List Nat
  | .fwd => g.fwdMap
  | .bwd => g.bwdMap

/-- `src/network/graph/mod.rs:541-543` `EdgeAccessor::count` (same length for both directions). -/
def edgeCount (g : Graph) : Nat := g.fwdDsts.length

/-- `src/network/graph/mod.rs:585-587` `EdgeAccessor::dst_idx`. -/
def dstIdx (g : Graph) (d : Dir) (e : Nat) : Res AccErr Nat := .ofIdx (g.dsts d)[e]?

/-- `src/network/graph/mod.rs:657-659` metrics of an edge. -/
def edgeMetrics (g : Graph) (e : Nat) : Res AccErr (List ℚ) := .ofIdx g.metrics[e]?

/-- `src/network/graph/mod.rs:552-554` `EdgeAccessor::try_id`. -/
def tryId (g : Graph) (e : Nat) : Res AccErr (Option Nat) := .ofIdx g.edgeIds[e]?

/-- `src/network/graph/mod.rs:556-558` `EdgeAccessor::id` panics without id. -/
def edgeId (g : Graph) (e : Nat) : Res AccErr Nat := do
  let o ← g.tryId e
  .ofIdx o

/-- `src/network/graph/mod.rs:560-576` `EdgeAccessor::try_idx_from`. -/
def tryIdxFrom (g : Graph) (id : Nat) : Res AccErr Nat :=
  match bsearch (fun a b => decide (a < b)) (g.idMap.map Prod.fst) id with
  | .ok i => do
    let p ← .ofIdx g.idMap[i]?
    pure p.2
  | .error _ => .err .unknownEdgeId

/-- `src/network/graph/mod.rs:593-596` `EdgeAccessor::is_shortcut`. The subtraction underflows (panic)
if offsets decrease. -/
def isShortcut (g : Graph) (e : Nat) : Res AccErr Bool := do
  let b ← .ofIdx g.scOffsets[e + 1]?
  let a ← .ofIdx g.scOffsets[e]?
  if b < a then .panic else pure (b - a != 0)

/-- `src/network/graph/mod.rs:598-604` `EdgeAccessor::sc_edges`. -/
def scEdgesOf (g : Graph) (e : Nat) : Res AccErr (Option (Nat × Nat)) := do
  let is ← g.isShortcut e
  if is then do
    let a ← .ofIdx g.scOffsets[e]?
    let p ← .ofIdx g.scEdges[a]?
    pure (some p)
  else pure none

/-- Indexes all positions, panics at the first position out of bounds. -/
def idxAll {α : Type} (l : List α) : List Nat → Res AccErr (List α)
  | [] => .ok []
  | i :: is => do
    let a ← .ofIdx l[i]?
    let as ← idxAll l is
    pure (a :: as)

/-- `src/network/graph/mod.rs:606-609,625-632` `starting_from` via `offset_indices`: indices of the
edges leaving (in direction `d`) a node. Simplification: the lazy iterator is evaluated at once. -/
def startingFrom (g : Graph) (d : Dir) (i : Nat) : Res AccErr (List Nat) := do
  let a ← .ofIdx (g.offsets d)[i]?
  let b ← .ofIdx (g.offsets d)[i + 1]?
  idxAll (g.toFwdMap d) (List.range' a (b - a))

/-- The loop of `between`: first edge with the given destination. -/
def findDst (g : Graph) (d : Dir) (dst : Nat) : List Nat → Res AccErr (Option Nat)
  | [] => pure none
  | e :: es => do
    let v ← g.dstIdx d e
    if v = dst then pure (some e) else findDst g d dst es

/-- `src/network/graph/mod.rs:614-623` `EdgeAccessor::between`. -/
def between (g : Graph) (d : Dir) (src dst : Nat) : Res AccErr (Option Nat) := do
  let es ← g.startingFrom d src
  g.findDst d dst es

end Graph
end Verif
