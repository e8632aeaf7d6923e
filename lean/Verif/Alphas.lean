import Verif.Special

/-!
# Model of routing with weights that are no finite numbers

A weight is a number of the config. Yaml has the numbers `.inf`, `-.inf` and `.nan`, and the config takes over what it
reads (`src/configs/routing.rs:62-83`, `261-289`). Here, weights may be such numbers, and so may metrics, see
`Special.lean`.
-/

namespace Verif.Special

open Dij

/-- `*` for a weight and a metric. Finite weights are as in `mulN`. -/
def mulA : Num ℚ → Num ℚ → Num (Rounded Fp.f64)
  | .fin a, x => mulN a x
  | .nan, _ => .nan
  | _, .nan => .nan
  | .inf, .fin x => if x = 0 then .nan else if 0 < x then .inf else .neg
  | .neg, .fin x => if x = 0 then .nan else if 0 < x then .neg else .inf
  | .inf, .inf => .inf
  | .inf, .neg => .neg
  | .neg, .inf => .neg
  | .neg, .neg => .inf

/-- `src/helpers/mod.rs:23-27` `dot_product`. -/
def dotA (alphas m : List (Num ℚ)) : Num (Rounded Fp.f64) :=
  (alphas.zip m).foldl (fun s p => addN s (mulA p.1 p.2)) (.fin 0)

/-- `src/routing/dijkstra.rs:144-342` `compute_best_path`, see `router`. The weights are `alphas`; those of `q` are not
used. Comparing with `0.0` (153) is false for a weight that is undefined. -/
def routerA (ms : List (List (Num ℚ))) (alphas : List (Num ℚ)) (fuel : Nat) (s : St (Rounded Fp.f64))
    (q : Query (Rounded Fp.f64)) : Option (R (St (Rounded Fp.f64) × Option Path)) :=
  if alphas.any (fun a => lt a (.fin 0)) then some (.ok (s, none))
  else
    match q.algo with
    | .explorator => some .panic
    | algo =>
      let s := { s with isCh := decide (algo = .chDijkstra) }
      match (do
        let s ← initQuery s q.graph.nodeCount
        start (Fp.heap Fp.f64) s q.src q.dst) with
      | .panic => some .panic
      | .err e => some (.err e)
      | .ok s => search (Fp.heap Fp.f64) q.graph ms (dotA alphas) fuel s q.src q.dst

end Verif.Special
