import Verif.Path
import Mathlib.Logic.Function.Basic
import Mathlib.Order.Defs.LinearOrder

/-!
# Model of `src/routing/dijkstra.rs`

The arithmetic of costs is a parameter: `K` is any linear order with a zero and an addition, so that
statements needing no exact arithmetic also hold for a rounded addition. `f64::INFINITY` is `none`.
NaN is not modelled. The debug-assertions (114-117, 145-148, 173-182) are in `Debug.lean`.
-/

namespace Verif.Dij

/-- `src/routing/dijkstra.rs:351-356` `CostNode`. -/
structure CN (K : Type) where
  idx : Nat
  cost : K
  dir : Dir
deriving DecidableEq, Repr

/-- The priority queue, `std::collections::BinaryHeap<Reverse<CostNode>>`, `src/routing/dijkstra.rs:27`.
The list is the heap's array. Nothing is assumed besides that no element is lost or invented;
`Heap.Min` is the additional assumption that a cheapest element is popped. (The order of the code,
`src/routing/dijkstra.rs:376-394`, compares costs approximately and is not transitive, so that
`Heap.Min` cannot be taken for granted for all sets `V` of costs.) -/
structure Heap (K : Type) where
  push : List (CN K) → CN K → List (CN K)
  pop : List (CN K) → Option (CN K × List (CN K))
  push_perm : ∀ q c, (push q c).Perm (c :: q)
  pop_perm : ∀ q c q', pop q = some (c, q') → q.Perm (c :: q')
  pop_none : ∀ q, pop q = none ↔ q = []

/-- A cheapest element is popped from every queue that comes from pushing elements with costs in `V`
and popping. -/
def Heap.Min {K : Type} [LinearOrder K] (h : Heap K) (V : K → Prop) : Prop :=
  ∃ ok : List (CN K) → Prop, ok [] ∧ (∀ q c, ok q → V c.cost → ok (h.push q c)) ∧
    ∀ q c q', ok q → h.pop q = some (c, q') → ok q' ∧ ∀ x ∈ q', c.cost ≤ x.cost

/-- `<` with `none` as infinity. -/
def ltInf {K : Type} [LinearOrder K] : Option K → Option K → Bool
  | some a, some b => decide (a < b)
  | some _, none => true
  | none, _ => false

/-- `<=` of a finite value with `none` as infinity. -/
def leInf {K : Type} [LinearOrder K] (a : K) : Option K → Bool
  | some b => decide (a ≤ b)
  | none => true

/-- Addition with `none` as infinity. -/
def addInf {K : Type} [Add K] : Option K → Option K → Option K
  | some a, some b => some (a + b)
  | _, _ => none

/-- `src/configs/routing.rs:26-31` `RoutingAlgo`. -/
inductive Algo where
  | dijkstra
  | chDijkstra
  | explorator
deriving DecidableEq, Repr

/-- `src/routing/dijkstra.rs:23-33` `Dijkstra`. The pairs of vectors are functions of the direction
(`dir_idx`, 48-61). -/
structure St (K : Type) where
  isCh : Bool
  queue : List (CN K)
  costs : Dir → List (Option K)
  preds : Dir → List (Option Nat)
  visited : Dir → List Bool
  flag : Dir → Bool
  touched : Dir → List Nat

/-- `src/routing/dijkstra.rs:36-46` `Dijkstra::new`. -/
def St.new {K : Type} : St K :=
  { isCh := false, queue := [], costs := fun _ => [], preds := fun _ => [], visited := fun _ => [],
    flag := fun _ => false, touched := fun _ => [] }

/-- This router never returns an error, it only panics. -/
abbrev R := Res Empty

/-- std `Vec::resize`. -/
def resize {α : Type} (l : List α) (n : Nat) (a : α) : List α :=
  l.take n ++ List.replicate (n - l.length) a

/-- `vec[i] = a`, panics out of bounds. -/
def setIdx {α : Type} (l : List α) (i : Nat) (a : α) : R (List α) :=
  if i < l.length then .ok (l.set i a) else .panic

/-- `src/routing/dijkstra.rs:80-83`: reset all touched positions. -/
def drain {K : Type} : List Nat → List (Option K) → List (Option Nat) →
    R (List (Option K) × List (Option Nat))
  | [], cs, ps => .ok (cs, ps)
  | i :: is, cs, ps => do
    let cs ← setIdx cs i none
    let ps ← setIdx ps i none
    drain is cs ps

/-- `src/routing/dijkstra.rs:71-97` `init_query`, one direction. `self.costs.len()` is the length of
the two-element array of vectors, hence the comparison of `2` with the number of nodes. -/
def initDir {K : Type} (s : St K) (newLen : Nat) (d : Dir) : R (St K) := do
  let cs := if 2 ≠ newLen then resize (s.costs d) newLen none else s.costs d
  let ps := if 2 ≠ newLen then resize (s.preds d) newLen none else s.preds d
  let (cs, ps) ← drain (s.touched d) cs ps
  let vs := if s.isCh then s.visited d else (resize (s.visited d) newLen false).map (fun _ => false)
  pure { s with
    costs := Function.update s.costs d cs
    preds := Function.update s.preds d ps
    visited := Function.update s.visited d vs
    flag := Function.update s.flag d false
    touched := Function.update s.touched d [] }

/-- `src/routing/dijkstra.rs:71-97` `init_query`. -/
def initQuery {K : Type} (s : St K) (newLen : Nat) : R (St K) := do
  let s ← initDir s newLen .fwd
  let s ← initDir s newLen .bwd
  pure { s with queue := [] }

section
variable {K : Type} [LinearOrder K] [Zero K] [Add K] (h : Heap K) (g : Graph) (wt : List ℚ → K)

/-- `src/routing/dijkstra.rs:191-209`: push both ends and label them with zero. -/
def start (s : St K) (src dst : Nat) : R (St K) := do
  let q := h.push s.queue { idx := src, cost := 0, dir := .fwd }
  let q := h.push q { idx := dst, cost := 0, dir := .bwd }
  let cf ← setIdx (s.costs .fwd) src (some 0)
  let cb ← setIdx (s.costs .bwd) dst (some 0)
  pure { s with
    queue := q
    costs := Function.update (Function.update s.costs .fwd cf) .bwd cb
    touched := Function.update
      (Function.update s.touched .fwd (s.touched .fwd ++ [src])) .bwd (s.touched .bwd ++ [dst]) }

/-- Accessors of the graph panic only. -/
def acc {α : Type} : Res AccErr α → R α
  | .ok a => .ok a
  | _ => .panic

/-- `src/routing/dijkstra.rs:265-267`: is `v` a lower node, which only matters for ch-dijkstra? -/
def isLower (isCh : Bool) (u v : Nat) : R Bool :=
  if isCh then do
    let a ← acc (g.nodeLevel u)
    let b ← acc (g.nodeLevel v)
    pure (decide (a > b))
  else pure false

/-- `src/routing/dijkstra.rs:264-298`: the loop over the leaving edges `es` of `cur`; `isNone` is
`best_meeting.is_none()`, `wt` is the dot product with the alphas. `IS_USING_CH_LEVEL_SPEEDUP` is the
constant `true` (`src/defaults.rs:83`), so the loop breaks at the first lower neighbour. -/
def relax (isNone : Bool) (cur : CN K) : List Nat → St K → R (St K)
  | [], s => .ok s
  | e :: es, s => do
    let v ← acc (g.dstIdx cur.dir e)
    let lower ← isLower g s.isCh cur.idx v
    if lower then .ok s
    else do
      let m ← .ofIdx g.metrics[e]?
      let c := cur.cost + wt m
      let old ← .ofIdx (s.costs cur.dir)[v]?
      if ltInf (some c) old then do
        let ps ← setIdx (s.preds cur.dir) v (some e)
        let cs ← setIdx (s.costs cur.dir) v (some c)
        relax isNone cur es
          { s with
            preds := Function.update s.preds cur.dir ps
            costs := Function.update s.costs cur.dir cs
            touched := Function.update s.touched cur.dir (s.touched cur.dir ++ [v])
            queue := if s.isCh || isNone then h.push s.queue { idx := v, cost := c, dir := cur.dir }
              else s.queue }
      else relax isNone cur es s

/-- `src/routing/dijkstra.rs:136-138` `total_cost`. -/
def totalCost (s : St K) (i : Nat) : R (Option K) := do
  let a ← .ofIdx (s.costs .fwd)[i]?
  let b ← .ofIdx (s.costs .bwd)[i]?
  pure (addInf a b)

/-- `src/routing/dijkstra.rs:107-120` `is_meeting_costnode`. -/
def isMeeting (s : St K) (cur : CN K) : R Bool :=
  if s.isCh then do
    let c ← .ofIdx (s.costs cur.dir.opp)[cur.idx]?
    pure c.isSome
  else .ofIdx (s.visited cur.dir.opp)[cur.idx]?

/-- `src/routing/dijkstra.rs:99-104` `visit`. -/
def visit (s : St K) (cur : CN K) : R (St K) :=
  if s.isCh then .ok s
  else do
    let vs ← setIdx (s.visited cur.dir) cur.idx true
    pure { s with visited := Function.update s.visited cur.dir vs }

/-- The best meeting-node and its total cost. -/
abbrev Best (K : Type) := Option (Nat × Option K)

/-- What an iteration of the search loop does next. -/
inductive Next (K : Type) where
  | stop (s : St K) (best : Best K)
  | go (s : St K) (best : Best K)

/-- Relaxes all leaving edges of `cur`, `src/routing/dijkstra.rs:264`. -/
def expand (s : St K) (best : Best K) (cur : CN K) : R (Next K) := do
  let es ← acc (g.startingFrom cur.dir cur.idx)
  let s ← relax h g wt best.isNone cur es s
  pure (.go s best)

/-- `src/routing/dijkstra.rs:214-299`: one iteration of the search loop after popping `cur`. -/
def step (s : St K) (best : Best K) (cur : CN K) : R (Next K) :=
  if s.flag .fwd && s.flag .bwd then .ok (.stop s best)
  else do
    let label ← .ofIdx (s.costs cur.dir)[cur.idx]?
    if !leInf cur.cost label then .ok (.go s best)
    else do
      let s ← visit s cur
      match best with
      | some (m, b) =>
        if ltInf b (some cur.cost) then
          .ok (.go { s with flag := Function.update s.flag cur.dir true } best)
        else do
          let t ← totalCost s cur.idx
          expand h g wt s (if ltInf t b then some (cur.idx, t) else some (m, b)) cur
      | none => do
        let meets ← isMeeting s cur
        if meets then do
          let t ← totalCost s cur.idx
          expand h g wt s (some (cur.idx, t)) cur
        else expand h g wt s none cur

/-- `src/routing/dijkstra.rs:214-299`: the search loop. Its termination is a property, so it takes
fuel; `none` means that the fuel did not suffice. -/
def loop : Nat → St K → Best K → Option (R (St K × Best K))
  | 0, _, _ => none
  | fuel + 1, s, best =>
    match h.pop s.queue with
    | none => some (.ok (s, best))
    | some (cur, q) =>
      match step h g wt { s with queue := q } best cur with
      | .panic => some .panic
      | .err e => some (.err e)
      | .ok (.stop s best) => some (.ok (s, best))
      | .ok (.go s best) => loop fuel s best

/-- `src/routing/dijkstra.rs:311-316,325-330`: follow the predecessors of direction `d` from `cur`,
collecting the edges. Takes fuel like `loop`. -/
def walk (s : St K) (d : Dir) : Nat → Nat → Option (R (List Nat))
  | 0, _ => none
  | fuel + 1, cur =>
    match (s.preds d)[cur]? with
    | none => some .panic
    | some none => some (.ok [])
    | some (some e) =>
      match g.dstIdx d.opp e with
      | .ok u => (walk s d fuel u).map fun r => do
        let es ← r
        pure (e :: es)
      | _ => some .panic

/-- `src/routing/dijkstra.rs:304-341`: the path through the best meeting-node. -/
def mkPath (fuel : Nat) (s : St K) (best : Best K) (src dst : Nat) : Option (R (Option Path)) :=
  match best with
  | none => some (.ok none)
  | some (m, _) => do
    let rf ← walk g s .fwd fuel m
    let rb ← walk g s .bwd fuel m
    pure (do
      let f ← rf
      let b ← rb
      let srcId ← acc (g.nodeId src)
      let dstId ← acc (g.nodeId dst)
      pure (some (Path.new src srcId dst dstId (f.reverse ++ b))))

/-- `src/routing/dijkstra.rs:214-341`: the search loop and then the path. -/
def search (fuel : Nat) (s : St K) (src dst : Nat) : Option (R (St K × Option Path)) :=
  match loop h g wt fuel s none with
  | none => none
  | some (.err e) => some (.err e)
  | some .panic => some .panic
  | some (.ok (s, best)) =>
    (mkPath g fuel s best src dst).map fun r => do
      let p ← r
      pure (s, p)

/-- `src/routing/dijkstra.rs:10-16` `Query`; `wt` is derived from the alphas. -/
structure Query (K : Type) where
  src : Nat
  dst : Nat
  graph : Graph
  algo : Algo
  alphas : List ℚ

/-- `src/routing/dijkstra.rs:144-342` `compute_best_path`: the new state of the router and the answer.
`dotp` is the dot product (`src/helpers/mod.rs:23-27`) in the arithmetic of `K`. -/
def computeBestPath (h : Heap K) (dotp : List ℚ → List ℚ → K) (fuel : Nat) (s : St K) (q : Query K) :
    Option (R (St K × Option Path)) :=
  if q.alphas.any (fun a => decide (a < 0)) then some (.ok (s, none))
  else
    match q.algo with
    | .explorator => some .panic
    | algo =>
      let s := { s with isCh := decide (algo = .chDijkstra) }
      match (do
        let s ← initQuery s q.graph.nodeCount
        start h s q.src q.dst) with
      | .panic => some .panic
      | .err e => some (.err e)
      | .ok s => search h q.graph (dotp q.alphas) fuel s q.src q.dst

end

end Verif.Dij
