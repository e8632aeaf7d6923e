import Verif.Overflow
import Verif.Generating

/-!
# Model of values that are no finite numbers

`str::parse::<f64>` accepts texts like `inf` and `NaN`, and dividing by zero yields such values. Here, metrics may be
infinite or undefined. Loading and normalizing are exact otherwise (see `Building.lean`, `Generating.lean`), the router
rounds as in `Overflow.lean`. Simplification: there is no `-0.0`.
-/

namespace Verif.Special

open Dij

/-- Values of type `f64`: finite ones, `f64::INFINITY`, `f64::NEG_INFINITY` and `f64::NAN`. -/
inductive Num (K : Type) where
  | fin (x : K)
  | inf
  | neg
  | nan
deriving DecidableEq, Repr

/-! ## Loading -/

/-- `str::parse::<f64>`, as used in `src/io/parsing/network/graph/fmi.rs:278` for metrics. `parseF` is about finite
numbers. Simplification: other spellings of the special values depend on the version of Rust and are no numbers here. -/
def parse (parseF : List Char → Option ℚ) (t : List Char) : Option (Num ℚ) :=
  if t = ['N', 'a', 'N'] then some .nan
  else if t = ['i', 'n', 'f'] then some .inf
  else if t = ['-', 'i', 'n', 'f'] then some .neg
  else (parseF t).map .fin

/-- `src/approximating.rs:195-199` `eq`: a difference with a value that isn't finite is not finite either. -/
def same : Num ℚ → Num ℚ → Bool
  | .fin a, .fin b => Approx.eq a b
  | _, _ => false

/-- `src/network/graph/building.rs:525-532`: are the metrics of two edges the same? -/
def sameAll : List (Num ℚ) → List (Num ℚ) → Bool
  | a :: l, b :: l' => if same a b then sameAll l l' else false
  | _, _ => true

/-- `<` for `f64`: false if a value is undefined. -/
def lt : Num ℚ → Num ℚ → Bool
  | .fin a, .fin b => decide (a < b)
  | .fin _, .inf => true
  | .neg, .fin _ => true
  | .neg, .inf => true
  | _, _ => false

/-- `src/network/graph/building.rs:72-83` and `1446-1448`: values around zero are lifted. -/
def lift (x : Num ℚ) : Num ℚ := if same x (.fin 0) then .fin eps else x

inductive Err where
  /-- `src/io/parsing/network/graph/fmi.rs:281-284` -/
  | text
  /-- `src/network/graph/building.rs:661` -/
  | tooSmall
  /-- `src/network/graph/building.rs:1404` -/
  | noEdges
  /-- `src/network/graph/building.rs:1433` -/
  | zeroMean
deriving DecidableEq, Repr

/-- Reads the texts of the metrics of an edge. -/
def parseRow (parseF : List Char → Option ℚ) : List (List Char) → Option (List (Num ℚ))
  | [] => some []
  | t :: ts => match parse parseF t, parseRow parseF ts with
    | some x, some m => some (x :: m)
    | _, _ => none

/-- Reads the texts of the metrics of all edges. -/
def parseRows (parseF : List Char → Option ℚ) : List (List (List Char)) → Option (List (List (Num ℚ)))
  | [] => some []
  | t :: ts => match parseRow parseF t, parseRows parseF ts with
    | some m, some ms => some (m :: ms)
    | _, _ => none

/-- `src/network/graph/building.rs:618-666`: stores the metrics of edges and rejects small ones. The edges are given
in the order of the graph, without duplicates. -/
def load (parseF : List Char → Option ℚ) (rows : List (List (List Char))) : Except Err (List (List (Num ℚ))) :=
  match parseRows parseF rows with
  | none => .error .text
  | some ms =>
    let ms := ms.map (·.map lift)
    if ms.any (fun m => m.any (fun x => lt x (.fin eps))) then .error .tooSmall else .ok ms

/-! ## Generating and normalizing -/

/-- `+` for `f64`. -/
def add : Num ℚ → Num ℚ → Num ℚ
  | .fin a, .fin b => .fin (a + b)
  | .nan, _ => .nan
  | _, .nan => .nan
  | .inf, .neg => .nan
  | .neg, .inf => .nan
  | .inf, _ => .inf
  | _, .inf => .inf
  | .neg, _ => .neg
  | _, .neg => .neg

/-- The sign decides about an infinite quotient. -/
def signed (pos : Bool) : Num ℚ := if pos then .inf else .neg

/-- `/` for `f64`. -/
def div : Num ℚ → Num ℚ → Num ℚ
  | .fin a, .fin b => if b = 0 then (if a = 0 then .nan else signed (decide (0 < a))) else .fin (a / b)
  | .inf, .fin b => signed (decide (0 ≤ b))
  | .neg, .fin b => signed (decide (b < 0))
  | .fin _, .inf => .fin 0
  | .fin _, .neg => .fin 0
  | _, _ => .nan

/-- Multiplies with a positive number. -/
def scale (k : ℚ) : Num ℚ → Num ℚ
  | .fin a => .fin (a * k)
  | x => x

/-- `src/configs/parsing/generating/edges/metrics.rs:140-263` `try_calc`, see `Cfg.Unit.tryCalc`; hours become seconds
and minutes by multiplying. `none` is the error about units. -/
def tryCalc (result ua : Cfg.Unit) (a : Num ℚ) (ub : Cfg.Unit) (b : Num ℚ) : Option (Num ℚ) :=
  match result with
  | .seconds => if ua = .kilometers ∧ ub = .kmh then some (scale 3600 (div a b)) else none
  | .minutes => if ua = .kilometers ∧ ub = .kmh then some (scale 60 (div a b)) else none
  | .hours => if ua = .kilometers ∧ ub = .kmh then some (div a b) else none
  | .kmh => if ua = .kilometers ∧ ub = .hours then some (div a b) else none
  | _ => none

/-- `src/network/graph/building.rs:1414-1422`, `src/helpers/mod.rs:11-13`: the means of all metrics. -/
def means (dim : Nat) (ms : List (List (Num ℚ))) : List (Num ℚ) :=
  (ms.foldl (List.zipWith add) (List.replicate dim (.fin 0))).map fun sum => div sum (.fin ms.length)

/-- `src/network/graph/building.rs:1440-1450`: the metrics of one edge, for means of the same number. -/
def divide (means : List (Num ℚ)) (m : List (Num ℚ)) : List (Num ℚ) :=
  List.zipWith (fun x mean => lift (div x mean)) m means

/-- `src/network/graph/building.rs:1397-1455`. Simplification: all edges have `dim` metrics, otherwise indexing
panics. -/
def normalize (dim : Nat) (ms : List (List (Num ℚ))) : Except Err (List (List (Num ℚ))) :=
  if ms = [] then .error .noEdges
  else if (means dim ms).any (fun mean => same mean (.fin 0)) then .error .zeroMean
  else .ok (ms.map (divide (means dim ms)))

/-! ## The router -/

/-- A result of the router's arithmetic, infinite if it doesn't fit. -/
def capN (x : Rounded Fp.f64) : Num (Rounded Fp.f64) := if Over.fitsF x then .fin x else .inf

/-- The product of an alpha, which is finite, and a metric. -/
def mulN (a : ℚ) : Num ℚ → Num (Rounded Fp.f64)
  | .fin x => capN ⟨Fp.f64.rnd (a * x), Fp.f64.idem _⟩
  | .inf => if a = 0 then .nan else if 0 < a then .inf else .neg
  | .neg => if a = 0 then .nan else if 0 < a then .neg else .inf
  | .nan => .nan

/-- The sum of two costs. -/
def addN : Num (Rounded Fp.f64) → Num (Rounded Fp.f64) → Num (Rounded Fp.f64)
  | .fin a, .fin b => capN (a + b)
  | .nan, _ => .nan
  | _, .nan => .nan
  | .inf, .neg => .nan
  | .neg, .inf => .nan
  | .inf, _ => .inf
  | _, .inf => .inf
  | .neg, _ => .neg
  | _, .neg => .neg

/-- `src/helpers/mod.rs:23-27` `dot_product`. -/
def dotN (alphas : List ℚ) (m : List (Num ℚ)) : Num (Rounded Fp.f64) :=
  (alphas.zip m).foldl (fun s p => addN s (mulN p.1 p.2)) (.fin 0)

section
variable (h : Heap (Rounded Fp.f64)) (g : Graph) (ms : List (List (Num ℚ)))
  (wt : List (Num ℚ) → Num (Rounded Fp.f64))

/-- `src/routing/dijkstra.rs:264-298`: see `Over.relax`, where `ms` are the graph's metrics and `wt` is the dot-product
with the alphas. A cost that is infinite or
undefined is not below another one (279). Simplification: costs of `-∞` panic; they don't occur without metrics of
`-∞`, which are rejected when loading. -/
def relax (isNone : Bool) (cur : CN (Rounded Fp.f64)) : List Nat → St (Rounded Fp.f64) → R (St (Rounded Fp.f64))
  | [], s => .ok s
  | e :: es, s => do
    let v ← acc (g.dstIdx cur.dir e)
    let lower ← isLower g s.isCh cur.idx v
    if lower then .ok s
    else do
      let m ← .ofIdx ms[e]?
      let old ← .ofIdx (s.costs cur.dir)[v]?
      match addN (.fin cur.cost) (wt m) with
      | .inf => relax isNone cur es s
      | .nan => relax isNone cur es s
      | .neg => .panic
      | .fin c =>
        if ltInf (some c) old then do
          let ps ← setIdx (s.preds cur.dir) v (some e)
          let cs ← setIdx (s.costs cur.dir) v (some c)
          relax isNone cur es
            { s with
              preds := Function.update s.preds cur.dir ps
              costs := Function.update s.costs cur.dir cs
              touched := Function.update s.touched cur.dir (s.touched cur.dir ++ [v])
              queue := if s.isCh || isNone then h.push s.queue { idx := v, cost := c, dir := cur.dir }
                else s.queue }
        else relax isNone cur es s

/-- Relaxes all leaving edges of `cur`, `src/routing/dijkstra.rs:264`. -/
def expand (s : St (Rounded Fp.f64)) (best : Best (Rounded Fp.f64)) (cur : CN (Rounded Fp.f64)) :
    R (Next (Rounded Fp.f64)) := do
  let es ← acc (g.startingFrom cur.dir cur.idx)
  let s ← relax h g ms wt best.isNone cur es s
  pure (.go s best)

/-- `src/routing/dijkstra.rs:214-299`: one iteration of the search loop, see `Over.step`. -/
def step (s : St (Rounded Fp.f64)) (best : Best (Rounded Fp.f64)) (cur : CN (Rounded Fp.f64)) :
    R (Next (Rounded Fp.f64)) :=
  if s.flag .fwd && s.flag .bwd then .ok (.stop s best)
  else do
    let label ← .ofIdx (s.costs cur.dir)[cur.idx]?
    if !leInf cur.cost label then .ok (.go s best)
    else do
      let s ← visit s cur
      match best with
      | some (m, b) =>
        if ltInf b (some cur.cost) then
          .ok (.go { s with flag := Function.update s.flag cur.dir true } best)
        else do
          let t ← Over.totalCost Over.fitsF s cur.idx
          expand h g ms wt s (if ltInf t b then some (cur.idx, t) else some (m, b)) cur
      | none => do
        let meets ← isMeeting s cur
        if meets then do
          let t ← Over.totalCost Over.fitsF s cur.idx
          expand h g ms wt s (some (cur.idx, t)) cur
        else expand h g ms wt s none cur

/-- `src/routing/dijkstra.rs:214-299`: the search loop, see `Over.loop`. -/
def loop : Nat → St (Rounded Fp.f64) → Best (Rounded Fp.f64) →
    Option (R (St (Rounded Fp.f64) × Best (Rounded Fp.f64)))
  | 0, _, _ => none
  | fuel + 1, s, best =>
    match h.pop s.queue with
    | none => some (.ok (s, best))
    | some (cur, q) =>
      match step h g ms wt { s with queue := q } best cur with
      | .panic => some .panic
      | .err e => some (.err e)
      | .ok (.stop s best) => some (.ok (s, best))
      | .ok (.go s best) => loop fuel s best

/-- `src/routing/dijkstra.rs:214-341`: the search loop and then the path. -/
def search (fuel : Nat) (s : St (Rounded Fp.f64)) (src dst : Nat) :
    Option (R (St (Rounded Fp.f64) × Option Path)) :=
  match loop h g ms wt fuel s none with
  | none => none
  | some (.err e) => some (.err e)
  | some .panic => some .panic
  | some (.ok (s, best)) =>
    (mkPath g fuel s best src dst).map fun r => do
      let p ← r
      pure (s, p)

end

/-- `src/routing/dijkstra.rs:144-342` `compute_best_path`, see `Over.router`. The graph's metrics are `ms`; those of
`q.graph` are not used. -/
def router (ms : List (List (Num ℚ))) (fuel : Nat) (s : St (Rounded Fp.f64)) (q : Query (Rounded Fp.f64)) :
    Option (R (St (Rounded Fp.f64) × Option Path)) :=
  if q.alphas.any (fun a => decide (a < 0)) then some (.ok (s, none))
  else
    match q.algo with
    | .explorator => some .panic
    | algo =>
      let s := { s with isCh := decide (algo = .chDijkstra) }
      match (do
        let s ← initQuery s q.graph.nodeCount
        start (Fp.heap Fp.f64) s q.src q.dst) with
      | .panic => some .panic
      | .err e => some (.err e)
      | .ok s => search (Fp.heap Fp.f64) q.graph ms (dotN q.alphas) fuel s q.src q.dst

end Verif.Special
