import Verif.Balancing
import Verif.Overflow

/-!
# Updating the balanced metric with numbers of type `f64`

Model of `src/defaults.rs:131-259`, `update_new_metric`, where every operation is rounded. `Balancing.lean` models
the same lines with exact numbers. The indices, the graph, and how it is written are the same there and here.
-/

namespace Verif.BalF

open Cfg Text Gen
open Bal (Method Config Done)

/-- Why there is no new metric. Simplification: after a result that is infinite or no number, the program goes on,
but this isn't modelled. So is a mean of nothing, which is `0.0 / 0.0`. -/
inductive Fault where
  | notFinite
  | fails (e : Bal.Err)
deriving DecidableEq, Repr

/-- The result of an operation on `f64`. -/
def num (x : ℚ) : Res Fault ℚ :=
  match Over.op x with
  | some y => .ok y
  | none => .err .notFinite

/-- `src/defaults.rs:157,232`, `iter().sum::<f64>()`: one after the other, beginning with `s`. -/
def sumFrom : ℚ → List ℚ → Res Fault ℚ
  | s, [] => .ok s
  | s, x :: xs => do sumFrom (← num (s + x)) xs

/-- `src/defaults.rs:157,232`: the mean. `as f64` rounds the count. -/
def meanOf (xs : List ℚ) : Res Fault ℚ :=
  if xs.length = 0 then .err .notFinite
  else do num ((← sumFrom 0 xs) / Fp.f64.rnd xs.length)

/-- `src/defaults.rs:166-168,241-243`. -/
def divideBy (mean : ℚ) : List ℚ → Res Fault (List ℚ)
  | [] => .ok []
  | x :: xs => do
    let y ← num (x / mean)
    let ys ← divideBy mean xs
    pure (y :: ys)

/-- `src/defaults.rs:178-185`. -/
def blend (method : Method) (iteration : Nat) (old new : ℚ) : Res Fault ℚ :=
  match method with
  | .explicitEuler correction => do
    let d ← num (new - old)
    let p ← num (d * correction)
    num (old + p)
  | .averaging => do
    let p ← num (Fp.f64.rnd iteration * old)
    let s ← num (p + new)
    num (s / Fp.f64.rnd (iteration + 1 : Nat))

/-- `src/defaults.rs:174-187`, from edge `e` on; panics if there is no such edge or no such metric. -/
def blendAll (f : ℚ → ℚ → Res Fault ℚ) (ms : List (List ℚ)) (k : Nat) : Nat → List ℚ → Res Fault (List ℚ)
  | _, [] => .ok []
  | e, new :: news => do
    let m ← .ofIdx ms[e]?
    let old ← .ofIdx m[k]?
    let x ← f old new
    let rest ← blendAll f ms k (e + 1) news
    pure (x :: rest)

/-- `src/approximating.rs:174-199`: `<=` for `Approx<f64>`. -/
def le (a b : ℚ) : Bool := Over.eq a b || decide (a ≤ b)

/-- `src/defaults.rs:191-226`. -/
def atLeast (cfg : Config) (xs : List ℚ) : Res Fault (List ℚ) :=
  match cfg.minNewMetric with
  | some m => .ok (xs.map fun x => if le x m then m else x)
  | none => if (xs.any fun x => le x 0) && cfg.isErrWhenZero then .err (.fails .zeroMetric) else .ok xs

/-- `src/defaults.rs:144-243`: the metric's index, its new values and their mean before the division. -/
def newMetric (iteration : Nat) (workloads : List Nat) (s : Net) (cfg : Config) :
    Res Fault (Nat × List ℚ × ℚ) :=
  match s.edges.tryIdxOf cfg.metricId with
  | .error _ => .panic
  | .ok k => do
    let news := workloads.map fun w : Nat => Fp.f64.rnd w
    let mean ← meanOf news
    if Over.eq mean 0 then .err (.fails .zeroMean)
    else do
      let news ← divideBy mean news
      let news ← blendAll (blend cfg.method iteration) s.graph.metrics k 0 news
      let news ← atLeast cfg news
      let mean ← meanOf news
      if le mean 0 then .err (.fails .zeroMean)
      else do
        let news ← divideBy mean news
        pure (k, news, mean)

/-- `src/defaults.rs:132-259` `update_new_metric`. There is no result if a number isn't finite. -/
def update (iteration : Nat) (workloads : List Nat) (s : Net) (cfg : Config) : Option (Res Bal.Err Done × Net) :=
  match newMetric iteration workloads s cfg with
  | .ok (k, xs, mean) => some (Bal.store k xs (some mean) s)
  | .err (.fails e) => some (.err e, s)
  | .err .notFinite => none
  | .panic => some (.panic, s)

end Verif.BalF
