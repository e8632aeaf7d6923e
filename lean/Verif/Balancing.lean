import Verif.Generating

/-!
# Updating the balanced metric

Model of `src/defaults.rs:131-259`, `update_new_metric`. The graph is changed in place, so the model returns the
graph afterwards in every case, also if an error is returned or if it panics.
-/

namespace Verif.Bal

open Cfg Text Gen

/-- `src/configs/balancing.rs:133-137` `OptimizationMethod`. -/
inductive Method where
  | explicitEuler (correction : ℚ)
  | averaging
deriving DecidableEq, Repr

/-- `src/configs/balancing.rs:14-27` `Config`, reduced to what the update needs. -/
structure Config where
  metricId : Text
  method : Method
  minNewMetric : Option ℚ
  isErrWhenZero : Bool
deriving DecidableEq, Repr

/-- The errors of the update. -/
inductive Err where
  | zeroMean
  | zeroMetric
deriving DecidableEq, Repr

/-- A successful update. Without workloads the mean is `0.0 / 0.0`, which is NaN and passes both
comparisons; if the graph remembers means, NaN is stored in them. Rationals have no NaN, so this is told
apart here, and the stored NaN is shown as the old mean. -/
inductive Done where
  | finished
  | nanMean
deriving DecidableEq, Repr

/-- `src/defaults.rs:157,232`: `none` is NaN. -/
def meanOf (xs : List ℚ) : Option ℚ := if xs.length = 0 then none else some (xs.sum / xs.length)

/-- `src/defaults.rs:158`: a comparison with NaN is false. -/
def isZero : Option ℚ → Bool
  | some mean => Approx.eq mean 0
  | none => false

/-- `src/defaults.rs:233`: a comparison with NaN is false. -/
def isNotPositive : Option ℚ → Bool
  | some mean => Approx.le mean 0
  | none => false

/-- `src/defaults.rs:166-168,241-243`. NaN divides nothing: then there is no value. -/
def divideBy (xs : List ℚ) : Option ℚ → List ℚ
  | some mean => xs.map fun x => x / mean
  | none => xs

/-- `src/defaults.rs:178-185`. -/
def blend (method : Method) (iteration : Nat) (old new : ℚ) : ℚ :=
  match method with
  | .explicitEuler correction => old + (new - old) * correction
  | .averaging => ((iteration : ℚ) * old + new) / ((iteration + 1 : Nat) : ℚ)

/-- `src/defaults.rs:174-187`, from edge `e` on; panics if there is no such edge or no such metric. -/
def blendAll (f : ℚ → ℚ → ℚ) (ms : List (List ℚ)) (k : Nat) : Nat → List ℚ → Res Err (List ℚ)
  | _, [] => .ok []
  | e, new :: news => do
    let m ← .ofIdx ms[e]?
    let old ← .ofIdx m[k]?
    let rest ← blendAll f ms k (e + 1) news
    pure (f old new :: rest)

/-- `src/defaults.rs:191-226`. -/
def atLeast (cfg : Config) (xs : List ℚ) : Res Err (List ℚ) :=
  match cfg.minNewMetric with
  | some m => .ok (xs.map fun x => if Approx.le x m then m else x)
  | none => if (xs.any fun x => Approx.le x 0) && cfg.isErrWhenZero then .err .zeroMetric else .ok xs

/-- `src/defaults.rs:144-243`: the metric's index, its new values and their mean before the division. The
graph is only read. -/
def newMetric (iteration : Nat) (workloads : List Nat) (s : Net) (cfg : Config) :
    Res Err (Nat × List ℚ × Option ℚ) :=
  match s.edges.tryIdxOf cfg.metricId with
  | .error _ => .panic
  | .ok k => do
    let news := workloads.map fun w : Nat => (w : ℚ)
    let mean := meanOf news
    if isZero mean then .err .zeroMean
    else do
      let news ← blendAll (blend cfg.method iteration) s.graph.metrics k 0 (divideBy news mean)
      let news ← atLeast cfg news
      let mean := meanOf news
      if isNotPositive mean then .err .zeroMean
      else pure (k, divideBy news mean, mean)

/-- `src/defaults.rs:254-256`, from edge `e` on, with the metrics that are left if it panics. -/
def writeAll (k : Nat) : Nat → List ℚ → List (List ℚ) → Res Err Done × List (List ℚ)
  | _, [], ms => (.ok .finished, ms)
  | e, x :: xs, ms =>
    match ms[e]? with
    | none => (.panic, ms)
    | some m => if k < m.length then writeAll k (e + 1) xs (ms.set e (m.set k x)) else (.panic, ms)

/-- `src/defaults.rs:247-258`. -/
def store (k : Nat) (xs : List ℚ) (mean : Option ℚ) (s : Net) : Res Err Done × Net :=
  let write := fun s : Net =>
    let (out, ms) := writeAll k 0 xs s.graph.metrics
    (out, { s with graph := { s.graph with metrics := ms } })
  match s.graph.means with
  | none => write s
  | some means =>
    if k < means.length then
      match mean with
      | some mean => write { s with graph := { s.graph with means := some (means.set k mean) } }
      | none => (.ok .nanMean, s)
    else (.panic, s)

/-- `src/defaults.rs:132-259` `update_new_metric`. -/
def update (iteration : Nat) (workloads : List Nat) (s : Net) (cfg : Config) : Res Err Done × Net :=
  match newMetric iteration workloads s cfg with
  | .ok (k, xs, mean) => store k xs mean s
  | .err e => (.err e, s)
  | .panic => (.panic, s)

/-- The updates of several iterations (`src/bin/osmgraphing/balancing/mod.rs:35-72`), one after the other.
Simplification: only the updates; writing the graph, contracting it, and reading it again, which lies between
them, is left out. Each iteration has its own workloads. -/
def updates (cfg : Config) : Nat → List (List Nat) → Net → Res Err Done × Net
  | _, [], s => (.ok .finished, s)
  | i, w :: ws, s =>
    match update i w s cfg with
    | (.ok .finished, s) => updates cfg (i + 1) ws s
    | r => r

end Verif.Bal
