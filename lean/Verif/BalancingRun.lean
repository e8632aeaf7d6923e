import Verif.Balancing
import Verif.Path

/-!
# The iterations of the balancer

Model of `src/bin/osmgraphing/balancing/mod.rs:34-72,178-281`. What depends on files, on the tool that contracts
graphs, or on threads is left open as a `World`.
-/

namespace Verif.Bal

open Text Gen
open Cfg hiding Unit

/-- `src/configs/balancing.rs:14-27` `Config` with the dimension given to the contraction
(`src/multi_ch_constructor/configs.rs`) and the number of updates, which is given in the file
(`src/configs/balancing.rs:104`: `num_iter` is one more). -/
structure RunConfig where
  update : Config
  numUpdates : Nat
  dim : Nat
deriving DecidableEq, Repr

/-- `src/configs/balancing.rs:104`. Simplification: The sum doesn't overflow. -/
def RunConfig.numIter (cfg : RunConfig) : Nat := cfg.numUpdates + 1

/-- The stages that may fail with an error of their own. -/
inductive Stage where
  | store
  | write
  | contract
  | read
  | routing
  | simulate
  | stats
deriving DecidableEq, Repr

/-- Why the balancer fails. -/
inductive RunErr where
  | stage (stage : Stage)
  | unknownMetric
  | update (err : Err)
deriving DecidableEq, Repr

/-- What may change files and the like: an outcome, with the state afterwards in every case. -/
abbrev Step (σ ε α : Type) := σ → Res ε α × σ

/-- The `?` between steps. -/
def Step.bind {σ ε α β : Type} (x : Step σ ε α) (f : α → Step σ ε β) : Step σ ε β := fun s =>
  match x s with
  | (.ok a, s) => f a s
  | (.err e, s) => (.err e, s)
  | (.panic, s) => (.panic, s)

/-- An outcome that doesn't change anything. -/
def Step.lift {σ ε α : Type} (r : Res ε α) : Step σ ε α := fun s => (r, s)

/-- What isn't decided by the balancer's loop. An error stops the balancer, as does a panic.
* `State` are the files and the random numbers.
* `store` writes the balanced graph (`mod.rs:42-50`).
* `write` prepares this iteration's directory and writes graph and edges into it (`mod.rs:55-56,129-178`).
* `contract` contracts the written graph with this dimension (`mod.rs:191-198`).
* `read` reads the contracted graph (`mod.rs:201-249`).
* `alphas` are those of the routing-config for this graph (`mod.rs:259-269`).
* `simulate` copies the route-pairs (`mod.rs:283-295`) and counts the workloads, maybe with the paths (`mod.rs:315-327`).
* `stats` writes the results of this iteration (`mod.rs:344-363`). -/
structure World where
  State : Type
  store : Net → Step State Unit Unit
  write : Nat → Net → Step State Unit Unit
  contract : Nat → Nat → Step State Unit Unit
  read : Nat → State → Res Unit Net
  alphas : Net → State → Res Unit (List ℚ)
  simulate : Nat → Net → List ℚ → Step State Unit (List Nat × Option (List Path))
  stats : Nat → List Nat → Option (List Path) → Net → Step State Unit Unit

/-- What can be observed of a run. -/
inductive Event where
  | stored (net : Net)
  | contracted (iter dim : Nat)
  | simulated (iter : Nat) (net : Net) (alphas : List ℚ)
  | updated (iter : Nat) (workloads : List Nat) (before after : Net)
deriving DecidableEq, Repr

/-- The outcome of a stage. -/
def outcome {α : Type} (s : Stage) : Res Unit α → Res RunErr α
  | .ok x => .ok x
  | .err _ => .err (.stage s)
  | .panic => .panic

/-- A stage of the world. -/
def stage {σ α : Type} (s : Stage) (x : Step σ Unit α) : Step σ RunErr α := fun st =>
  let (r, st) := x st
  (outcome s r, st)

/-- A stage that only reads. -/
def peek {σ α : Type} (s : Stage) (x : σ → Res Unit α) : Step σ RunErr α := fun st => (outcome s (x st), st)

/-- `src/bin/osmgraphing/balancing/mod.rs:184-189`: the dimension is a `usize`, so it can't get below zero. -/
def dimOf (cfg : RunConfig) (iter : Nat) : Res RunErr Nat :=
  if iter = 0 then (if cfg.dim = 0 then .panic else .ok (cfg.dim - 1)) else .ok cfg.dim

/-- `src/bin/osmgraphing/balancing/mod.rs:271-281`: in the first iteration, the new metric isn't used; panics if there
are too few alphas. -/
def alphasOf (cfg : RunConfig) (iter : Nat) (net : Net) (alphas : List ℚ) : Res RunErr (List ℚ) :=
  if iter = 0 then
    match net.edges.tryIdxOf cfg.update.metricId with
    | .error _ => .err .unknownMetric
    | .ok k => if k < alphas.length then .ok (alphas.set k 0) else .panic
  else .ok alphas

section
variable (w : World) (cfg : RunConfig)

/-- `src/bin/osmgraphing/balancing/mod.rs:55-60,315-327`: one iteration until the workloads are known. -/
def simulation (iter : Nat) (net : Net) :
    Step w.State RunErr (Nat × Net × List ℚ × List Nat × Option (List Path)) :=
  (stage .write (w.write iter net)).bind fun _ =>
  (Step.lift (dimOf cfg iter)).bind fun dim =>
  (stage .contract (w.contract iter dim)).bind fun _ =>
  (peek .read (w.read iter)).bind fun net =>
  (peek .routing (w.alphas net)).bind fun alphas =>
  (Step.lift (alphasOf cfg iter net alphas)).bind fun alphas =>
  (stage .simulate (w.simulate iter net alphas)).bind fun (loads, paths) =>
  Step.lift (.ok (dim, net, alphas, loads, paths))

/-- `src/bin/osmgraphing/balancing/mod.rs:55-71,329-373`: one iteration, with what can be observed if it succeeds. The
graph is replaced by the contracted one with the updated metric. A NaN-mean (`Done.nanMean`) is no error; the graph shown
then lacks it. -/
def iteration (iter : Nat) (net : Net) : Step w.State RunErr (List Event × Net) :=
  (simulation w cfg iter net).bind fun (dim, net, alphas, loads, paths) =>
  match update iter loads net cfg.update with
  | (.ok _, net') =>
    (stage .stats (w.stats iter loads paths net')).bind fun _ =>
    Step.lift (.ok ([.contracted iter dim, .simulated iter net alphas, .updated iter loads net net'], net'))
  | (.err e, _) => Step.lift (.err (.update e))
  | (.panic, _) => Step.lift .panic

/-- `src/bin/osmgraphing/balancing/mod.rs:39-51`: before the last iteration, the graph is stored. -/
def storing (iter : Nat) (net : Net) : Step w.State RunErr (List Event) :=
  if iter = cfg.numIter - 1 then (stage .store (w.store net)).bind fun _ => Step.lift (.ok [.stored net])
  else Step.lift (.ok [])

/-- `src/bin/osmgraphing/balancing/mod.rs:35-72`: the iterations from `iter` on, with `k` more. What has been observed
is kept if something fails, except for what happens in the failing iteration. -/
def iterations : Nat → Nat → Net → w.State → List Event × Res RunErr PUnit × w.State
  | _, 0, _, s => ([], .ok ⟨⟩, s)
  | iter, k + 1, net, s =>
    match storing w cfg iter net s with
    | (.ok es, s) =>
      match iteration w cfg iter net s with
      | (.ok (es', net), s) =>
        let (es'', r) := iterations (iter + 1) k net s
        (es ++ es' ++ es'', r)
      | (.err e, s) => (es, .err e, s)
      | (.panic, s) => (es, .panic, s)
    | (.err e, s) => ([], .err e, s)
    | (.panic, s) => ([], .panic, s)

/-- `src/bin/osmgraphing/balancing/mod.rs:34-72`: the run from the parsed graph on. -/
def balance (net : Net) (s : w.State) : List Event × Res RunErr PUnit × w.State :=
  iterations w cfg 0 cfg.numIter net s

end

end Verif.Bal
