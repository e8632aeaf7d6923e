import Verif.Float

/-!
# Model of `src/routing/dijkstra.rs` with overflow

Like `Dijkstra.lean`, but sums and weighted metrics that don't fit are `f64::INFINITY`, i.e. `none`. Costs of the
queue are finite, because a cost is pushed only if it is below another one. As neither metrics nor alphas are
negative or infinite, there is neither `∞ - ∞` nor `0 * ∞`, hence no NaN.
-/

namespace Verif.Over

open Dij

section
variable {K : Type} [LinearOrder K] [Zero K] [Add K] (fits : K → Bool) (h : Heap K) (g : Graph)
  (wt : List ℚ → Option K)

/-- The result of an operation: infinity (`none`) if it doesn't fit. -/
def cap (x : K) : Option K := if fits x then some x else none

/-- The sum of two costs. -/
def plus : Option K → Option K → Option K
  | some a, some b => cap fits (a + b)
  | _, _ => none

/-- `src/routing/dijkstra.rs:264-298`: the loop over the leaving edges `es` of `cur`, see `Dij.relax`. An infinite
cost is not below another one (279). -/
def relax (isNone : Bool) (cur : CN K) : List Nat → St K → R (St K)
  | [], s => .ok s
  | e :: es, s => do
    let v ← acc (g.dstIdx cur.dir e)
    let lower ← isLower g s.isCh cur.idx v
    if lower then .ok s
    else do
      let m ← .ofIdx g.metrics[e]?
      let old ← .ofIdx (s.costs cur.dir)[v]?
      match plus fits (some cur.cost) (wt m) with
      | none => relax isNone cur es s
      | some c =>
        if ltInf (some c) old then do
          let ps ← setIdx (s.preds cur.dir) v (some e)
          let cs ← setIdx (s.costs cur.dir) v (some c)
          relax isNone cur es
            { s with
              preds := Function.update s.preds cur.dir ps
              costs := Function.update s.costs cur.dir cs
              touched := Function.update s.touched cur.dir (s.touched cur.dir ++ [v])
              queue := if s.isCh || isNone then h.push s.queue { idx := v, cost := c, dir := cur.dir }
                else s.queue }
        else relax isNone cur es s

/-- `src/routing/dijkstra.rs:136-138` `total_cost`. -/
def totalCost (s : St K) (i : Nat) : R (Option K) := do
  let a ← .ofIdx (s.costs .fwd)[i]?
  let b ← .ofIdx (s.costs .bwd)[i]?
  pure (plus fits a b)

/-- Relaxes all leaving edges of `cur`, `src/routing/dijkstra.rs:264`. -/
def expand (s : St K) (best : Best K) (cur : CN K) : R (Next K) := do
  let es ← acc (g.startingFrom cur.dir cur.idx)
  let s ← relax fits h g wt best.isNone cur es s
  pure (.go s best)

/-- `src/routing/dijkstra.rs:214-299`: one iteration of the search loop, see `Dij.step`. -/
def step (s : St K) (best : Best K) (cur : CN K) : R (Next K) :=
  if s.flag .fwd && s.flag .bwd then .ok (.stop s best)
  else do
    let label ← .ofIdx (s.costs cur.dir)[cur.idx]?
    if !leInf cur.cost label then .ok (.go s best)
    else do
      let s ← visit s cur
      match best with
      | some (m, b) =>
        if ltInf b (some cur.cost) then
          .ok (.go { s with flag := Function.update s.flag cur.dir true } best)
        else do
          let t ← totalCost fits s cur.idx
          expand fits h g wt s (if ltInf t b then some (cur.idx, t) else some (m, b)) cur
      | none => do
        let meets ← isMeeting s cur
        if meets then do
          let t ← totalCost fits s cur.idx
          expand fits h g wt s (some (cur.idx, t)) cur
        else expand fits h g wt s none cur

/-- `src/routing/dijkstra.rs:214-299`: the search loop, see `Dij.loop`. -/
def loop : Nat → St K → Best K → Option (R (St K × Best K))
  | 0, _, _ => none
  | fuel + 1, s, best =>
    match h.pop s.queue with
    | none => some (.ok (s, best))
    | some (cur, q) =>
      match step fits h g wt { s with queue := q } best cur with
      | .panic => some .panic
      | .err e => some (.err e)
      | .ok (.stop s best) => some (.ok (s, best))
      | .ok (.go s best) => loop fuel s best

/-- `src/routing/dijkstra.rs:214-341`: the search loop and then the path. -/
def search (fuel : Nat) (s : St K) (src dst : Nat) : Option (R (St K × Option Path)) :=
  match loop fits h g wt fuel s none with
  | none => none
  | some (.err e) => some (.err e)
  | some .panic => some .panic
  | some (.ok (s, best)) =>
    (mkPath g fuel s best src dst).map fun r => do
      let p ← r
      pure (s, p)

/-- `src/routing/dijkstra.rs:144-342` `compute_best_path`, see `Dij.computeBestPath`. -/
def computeBestPath (dotp : List ℚ → List ℚ → Option K) (fuel : Nat) (s : St K) (q : Query K) :
    Option (R (St K × Option Path)) :=
  if q.alphas.any (fun a => decide (a < 0)) then some (.ok (s, none))
  else
    match q.algo with
    | .explorator => some .panic
    | algo =>
      let s := { s with isCh := decide (algo = .chDijkstra) }
      match (do
        let s ← initQuery s q.graph.nodeCount
        start h s q.src q.dst) with
      | .panic => some .panic
      | .err e => some (.err e)
      | .ok s => search fits h q.graph (dotp q.alphas) fuel s q.src q.dst

end

/-! ## The numbers -/

/-- `f64::MAX`, the largest finite number of IEEE 754 binary64. -/
def maxF : ℚ := (2 ^ 53 - 1) * 2 ^ 971

/-- Does a result fit? IEEE 754: otherwise it is infinite, if it is rounded as if there were no largest number. -/
def fits (x : ℚ) : Bool := decide (|x| ≤ maxF)

/-- Does a cost fit? Simplification: costs are not negative, see `C108`. -/
def fitsF (x : Rounded Fp.f64) : Bool := decide (x.1 ≤ maxF)

/-- `src/helpers/mod.rs:23-27` `dot_product`: products and sums are infinite if they don't fit. -/
def dot (a b : List ℚ) : Option (Rounded Fp.f64) :=
  (a.zip b).foldl (fun s p => plus fitsF s (cap fitsF ⟨Fp.f64.rnd (p.1 * p.2), Fp.f64.idem _⟩)) (some 0)

/-- The result of an operation on `f64`. -/
def op (x : ℚ) : Option ℚ := if fits (Fp.f64.rnd x) then some (Fp.f64.rnd x) else none

/-- `src/approximating.rs:168-172` `Approx<f64>::approx`, where `none` is an infinite number. It stays infinite when
it is rounded and multiplied. -/
def approx : Option ℚ → Option ℚ
  | none => none
  | some x => match op (x / Fp.eps Fp.f64) with
    | none => none
    | some y => op (Approx.roundF y * Fp.eps Fp.f64)

/-- `src/approximating.rs:195-199` `eq` for `Approx<f64>`. The absolute value of an infinite number is above all
others. -/
def eq (a b : ℚ) : Bool :=
  match approx (op (a - b)) with
  | none => false
  | some x => decide (|x| ≤ Fp.eps Fp.f64)

/-- The router with numbers of type `f64`. -/
def router (fuel : Nat) (s : St (Rounded Fp.f64)) (q : Query (Rounded Fp.f64)) :
    Option (R (St (Rounded Fp.f64) × Option Path)) :=
  computeBestPath fitsF (Fp.heap Fp.f64) dot fuel s q

end Verif.Over
