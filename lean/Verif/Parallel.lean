import Verif.Dijkstra
import Verif.Path

/-!
# Model of `src/bin/osmgraphing/balancing/multithreading.rs`

A master hands out chunks of route-pairs to workers and collects their outcomes. The threads are
modelled as a transition system: an `Event` says which thread does its next step, so that a list of
events is a schedule. A worker's whole work on one chunk is one step, since workers share nothing but
the immutable graph. Messages in `mpsc`-channels keep the order in which they have been sent.
-/

namespace Verif.Par

/-- A route-pair of node ids and how often it has to be routed, `src/network/routes.rs:4-7`,
`src/bin/osmgraphing/balancing/multithreading.rs:346`. -/
structure Job where
  src : Int
  dst : Int
  count : Nat
deriving DecidableEq, Repr

/-- `src/bin/osmgraphing/balancing/multithreading.rs:345-348` `Work`. -/
structure Work where
  jobs : List Job
  seed : Nat
deriving DecidableEq, Repr

/-- `src/bin/osmgraphing/balancing/multithreading.rs:351-355` `Outcome`. -/
structure Outcome where
  chosen : List Path
  found : List Nat
  pairs : Nat
deriving DecidableEq, Repr

/-- This part of the code panics, or returns an error if a thread is gone. -/
inductive Err where
  | threadGone
deriving DecidableEq, Repr

abbrev R := Res Err

/-! ## The master -/

/-- `std::usize::MAX` on 64 bit. -/
def usizeMax : Nat := 2 ^ 64 - 1

/-- `src/defaults.rs:101-103`: the constants for the size of chunks. -/
structure SizeCfg where
  init : Nat
  plus : Nat
  minus : Nat
deriving DecidableEq, Repr

/-- `src/defaults.rs:101-103`. -/
def sizeDefaults : SizeCfg := { init := 50, plus := 30, minus := 10 }

/-- `src/bin/osmgraphing/balancing/multithreading.rs:229-259`: the initial size. The subtraction is of
constants and can't underflow. -/
def initSize (c : SizeCfg) : Nat :=
  let s := if c.init < c.minus then c.minus else c.init
  if usizeMax - c.plus < s then usizeMax - c.plus else s

/-- `a + b` of `usize`, panics on overflow (as in a debug build). -/
def addU (a b : Nat) : R Nat := if a + b ≤ usizeMax then .ok (a + b) else .panic

/-- `a - b` of `usize`, panics on underflow (as in a debug build). -/
def subU (a b : Nat) : R Nat := if b ≤ a then .ok (a - b) else .panic

/-- `src/bin/osmgraphing/balancing/multithreading.rs:283-314` `recv`: the new size after receiving from
worker `i`. `fast` says that `try_recv` had a message already. -/
def adjustSize (c : SizeCfg) (fast : Bool) (i size : Nat) : R Nat :=
  if i = 0 then
    if fast then do
      let m ← subU usizeMax c.plus
      let s ← addU size c.plus
      pure (min m s)
    else do
      let s ← subU size c.minus
      pure (max c.minus s)
  else pure size

/-- `src/bin/osmgraphing/balancing/multithreading.rs:28-36` `Master` together with the local variables
of `work_off` (49-60). `sockets[i]` says that the socket of worker `i` is not taken yet. `rev` is the
reversed list of remaining route-pairs. Simplification: floats are rationals. -/
structure Master where
  sockets : List Bool
  size : Nat
  rev : List Job
  loads : List Nat
  paths : Option (List Path)
  avg : ℚ
  var : ℚ
  progress : Nat
deriving DecidableEq, Repr

/-- `src/bin/osmgraphing/balancing/multithreading.rs:73-75`: count every edge. -/
def addLoads : List Nat → List Nat → R (List Nat)
  | loads, [] => .ok loads
  | loads, e :: es => do
    let n ← .ofIdx loads[e]?
    addLoads (loads.set e (n + 1)) es

/-- `src/bin/osmgraphing/balancing/multithreading.rs:68-80`: flatten every chosen path and count its
edges. Flattening need not terminate, so it takes fuel; `none` means that it did not suffice. -/
def addPaths (g : Graph) (fuel : Nat) :
    List Path → List Nat × Option (List Path) → Option (R (List Nat × Option (List Path)))
  | [], acc => some (.ok acc)
  | p :: ps, (loads, paths) =>
    match Path.flatten g fuel p with
    | none => none
    | some (.ok q) =>
      match addLoads loads q.edges with
      | .ok loads => addPaths g fuel ps (loads, paths.map (· ++ [q]))
      | _ => some .panic
    | some _ => some .panic

/-- `src/bin/osmgraphing/balancing/multithreading.rs:85-118`: mean and variance after an outcome; `n`
is the progress including this outcome. -/
def updateStats (n : Nat) (found : List Nat) (st : ℚ × ℚ) : ℚ × ℚ :=
  if found.length > 0 then
    let k : ℚ := found.length
    let oldMean := st.1
    let newMean := oldMean + ((found.map fun (x : Nat) => (x : ℚ)).sum - k * oldMean) / n
    let newVar := st.2 * ((n - k) / n)
      + ((found.map fun (x : Nat) => ((x : ℚ) - oldMean) * ((x : ℚ) - newMean)).sum) / n
    (newMean, newVar)
  else st

/-- What the master does after receiving an outcome. -/
inductive Action where
  | send (w : Work)
  | join
deriving DecidableEq, Repr

/-- `src/bin/osmgraphing/balancing/multithreading.rs:170-184` `work_size`: worker 1 gets single
route-pairs. -/
def workSize (i size : Nat) : Nat := if i = 1 then 1 else size

/-- `src/bin/osmgraphing/balancing/multithreading.rs:137-151`: the next chunk for worker `i`, or the
worker is dropped. `seed` is the next random number. -/
def nextAction (i seed : Nat) (m : Master) : Master × Action :=
  if m.rev.length > 0 then
    let chunkLen := min m.rev.length (workSize i m.size)
    let start := m.rev.length - chunkLen
    ({ m with rev := m.rev.take start }, .send { jobs := (m.rev.drop start).reverse, seed })
  else ({ m with sockets := m.sockets.set i false }, .join)

/-- `src/bin/osmgraphing/balancing/multithreading.rs:63-152`: one iteration of the master's loop for an
outcome of worker `i`. The socket of `i` must not be taken (270-281, 316-325). Progress is that of the
`progressing`-crate, which is assumed to be the sum of what has been added. -/
def handle (c : SizeCfg) (g : Graph) (fuel : Nat) (fast : Bool) (seed i : Nat) (o : Outcome)
    (m : Master) : Option (R (Master × Action)) :=
  match adjustSize c fast i m.size with
  | .ok size =>
    match addPaths g fuel o.chosen (m.loads, m.paths) with
    | none => none
    | some (.ok (loads, paths)) =>
      let progress := m.progress + o.pairs
      let st := updateStats progress o.found (m.avg, m.var)
      if m.sockets[i]? = some true then
        some (.ok (nextAction i seed { m with size, loads, paths, avg := st.1, var := st.2, progress }))
      else some .panic
    | some _ => some .panic
  | _ => some .panic

/-! ## The whole system -/

/-- A worker's thread (373-440): it waits for work with a router in state `s`, or it has ended because
its channel was closed, or it has panicked. -/
inductive Thread (σ : Type) where
  | alive (s : σ)
  | ended
  | panicked
deriving DecidableEq, Repr

/-- A worker: the works in its channel, and its thread. -/
structure Worker (σ : Type) where
  inbox : List Work
  thread : Thread σ
deriving DecidableEq, Repr

/-- Where the master is. -/
inductive Phase where
  | receiving
  | joining (i : Nat)
  | returned
  | failed
  | panicked
deriving DecidableEq, Repr

/-- Master, workers, and the channel of outcomes with its oldest message first. -/
structure Sys (σ : Type) where
  master : Master
  workers : List (Worker σ)
  channel : List (Nat × Outcome)
  phase : Phase

/-- Who does a step: a worker works off its next work, a worker notices that its channel is closed, the
master receives the next outcome, the master has joined a thread, the master notices that all threads
are gone. -/
inductive Event where
  | work (i : Nat)
  | exit (i : Nat)
  | recv (fast : Bool) (seed : Nat)
  | joined
  | disconnected
deriving DecidableEq, Repr

section
variable {σ : Type} (process : σ → Work → Option (R (σ × Outcome))) (c : SizeCfg) (g : Graph)
  (fuel : Nat)

/-- `src/bin/osmgraphing/balancing/multithreading.rs:197-268` `spawn_some` with `n` workers, and the
begin of `work_off` (38-62). Every worker has already sent an empty outcome when it is spawned
(397-411). -/
def start (s₀ : σ) (n : Nat) (jobs : List Job) (isCollecting : Bool) : Sys σ :=
  { master :=
      { sockets := List.replicate n true
        size := initSize c
        rev := jobs.reverse
        loads := List.replicate g.edgeCount 0
        paths := if isCollecting then some [] else none
        avg := 0
        var := 0
        progress := 0 }
    workers := List.replicate n { inbox := [], thread := .alive s₀ }
    channel := (List.range n).map fun i => (i, { chosen := [], found := [], pairs := 0 })
    phase := .receiving }

/-- Sends work to worker `i`; an error if its thread is gone. -/
def sendWork (i : Nat) (w : Work) (s : Sys σ) : Sys σ :=
  match s.workers[i]? with
  | some { inbox, thread := .alive st } =>
    { s with workers := s.workers.set i { inbox := inbox ++ [w], thread := .alive st } }
  | _ => { s with phase := .failed }

/-- A step of worker `i` (413-437); `none` if it is not possible now. The outcome of a worker that has
panicked is never sent. -/
def stepWork (i : Nat) (s : Sys σ) : Option (Sys σ) :=
  match s.workers[i]? with
  | some { inbox := w :: ws, thread := .alive st } =>
    match process st w with
    | some (.ok (st, o)) => some { s with
        workers := s.workers.set i { inbox := ws, thread := .alive st }
        channel := s.channel ++ [(i, o)] }
    | some _ => some { s with workers := s.workers.set i { inbox := ws, thread := .panicked } }
    | none => none
  | _ => none

/-- The thread of worker `i` ends when its socket has been dropped and its channel is empty (417-422,
334-340). -/
def stepExit (i : Nat) (s : Sys σ) : Option (Sys σ) :=
  match s.workers[i]?, s.master.sockets[i]? with
  | some { inbox := [], thread := .alive _ }, some false =>
    some { s with workers := s.workers.set i { inbox := [], thread := .ended } }
  | _, _ => none

/-- The master receives the oldest outcome. Simplification: `fast` may be chosen freely. -/
def stepRecv (fast : Bool) (seed : Nat) (s : Sys σ) : Option (Sys σ) :=
  match s.phase, s.channel with
  | .receiving, (i, o) :: channel =>
    match handle c g fuel fast seed i o s.master with
    | none => none
    | some (.ok (master, .send w)) => some (sendWork i w { s with master, channel })
    | some (.ok (master, .join)) => some { s with master, channel, phase := .joining i }
    | some _ => some { s with phase := .panicked }
  | _, _ => none

/-- The master has waited for the end of a thread (334-340). -/
def stepJoined (s : Sys σ) : Option (Sys σ) :=
  match s.phase with
  | .joining i =>
    match s.workers[i]? with
    | some { inbox := _, thread := .ended } => some { s with phase := .receiving }
    | some { inbox := _, thread := .panicked } => some { s with phase := .failed }
    | _ => none
  | _ => none

/-- Is this thread still running? -/
def Thread.isAlive : Thread σ → Bool
  | .alive _ => true
  | _ => false

/-- The master notices that no outcome can come anymore, and returns (153-168). -/
def stepDisconnected (s : Sys σ) : Option (Sys σ) :=
  match s.phase, s.channel with
  | .receiving, [] =>
    if s.workers.all (fun w => !w.thread.isAlive) then some { s with phase := .returned } else none
  | _, _ => none

/-- The next step; `none` if the thread can't do it now. -/
def step (s : Sys σ) : Event → Option (Sys σ)
  | .work i => stepWork process i s
  | .exit i => stepExit i s
  | .recv fast seed => stepRecv c g fuel fast seed s
  | .joined => stepJoined s
  | .disconnected => stepDisconnected s

/-- Follows a schedule. -/
def run (s : Sys σ) : List Event → Option (Sys σ)
  | [] => some s
  | e :: es => (step process c g fuel s e).bind fun s => run s es

end

/-! ## The workers -/

/-- `src/network/routes.rs:30-42` `into_node`, followed by `idx()`: panics for unknown ids. -/
def nodeIdxOf (g : Graph) (id : Int) : R Nat :=
  match g.createNodeFrom id with
  | .ok (some n) => .ok n.idx
  | _ => .panic

section
variable (h : Dij.Heap ℚ) (g : Graph) (algo : Dij.Algo) (alphas : List ℚ) (fuel : Nat)

/-- The query of a worker (448-457). -/
def jobQuery (src dst : Nat) : Dij.Query ℚ := { src, dst, graph := g, algo, alphas }

/-- `src/bin/osmgraphing/balancing/multithreading.rs:464-473`: what is pushed for an answer.
`route_count - 1` panics for a count of zero (as in a debug build). -/
def pushAnswer (count : Nat) (ans : Option Path) (o : Outcome) : R Outcome :=
  match ans with
  | some p => do
    let n ← subU count 1
    pure { o with chosen := o.chosen ++ List.replicate n p ++ [p], found := o.found ++ [1] }
  | none => .ok o

/-- `src/bin/osmgraphing/balancing/multithreading.rs:447-474`: the loop over the route-pairs. Takes
fuel for the router. -/
def dijkstraJobs : List Job → Dij.St ℚ → Outcome → Option (R (Dij.St ℚ × Outcome))
  | [], s, o => some (.ok (s, o))
  | j :: js, s, o =>
    match nodeIdxOf g j.src, nodeIdxOf g j.dst with
    | .ok src, .ok dst =>
      match Dij.computeBestPath h dot fuel s (jobQuery g algo alphas src dst) with
      | none => none
      | some (.ok (s, ans)) =>
        match pushAnswer j.count ans o with
        | .ok o => dijkstraJobs js s o
        | _ => some .panic
      | some _ => some .panic
    | _, _ => some .panic

/-- `src/bin/osmgraphing/balancing/multithreading.rs:442-484` `work_off_with_dijkstra`. -/
def dijkstraWork (s : Dij.St ℚ) (w : Work) : Option (R (Dij.St ℚ × Outcome)) :=
  dijkstraJobs h g algo alphas fuel w.jobs s { chosen := [], found := [], pairs := w.jobs.length }

end

end Verif.Par
