import Verif.Export
import Verif.ParallelExplorator

/-!
# Evaluating a balance according to a yaml-document

Model of the parts of `src/bin/osmgraphing/mod.rs` that lead from a document to the files of an evaluation.
-/

namespace Verif.Session

open Text Gen
open Yml (Yaml)

/-- `PathBuf::join` of texts on unix: an absolute path replaces the directory. -/
def joinPath (dir file : Text) : Text :=
  if file.head? = some '/' then file
  else if dir = [] then file
  else if dir.getLast? = some '/' then dir ++ file
  else dir ++ '/' :: file

/-- `src/io/writing/evaluating_balance.rs:41-44`: the settings of the edges' info. Its path is relative to the
directory of the results. -/
def infoCfg (ev : Yml.Evaluating) : Tool.EdgesCfg where
  path := joinPath ev.resultsDir ev.monitoring.edgesInfo.file
  header := ev.monitoring.edgesInfo.header
  shortcuts := ev.monitoring.edgesInfo.shortcuts
  denormalize := ev.monitoring.edgesInfo.denormalize
  cols := ev.monitoring.edgesInfo.ids

/-- `src/defaults.rs:112` `files::ABS_WORKLOADS`, `src/io/writing/evaluating_balance.rs:76-78`. -/
def loadsFile (ev : Yml.Evaluating) : Text := joinPath ev.resultsDir "abs_workloads.csv".toList

/-- `src/defaults.rs:65` `XML_FILE_NAME`, `src/bin/osmgraphing/mod.rs:313-317`. -/
def pathsFile (ev : Yml.Evaluating) : Text := joinPath ev.resultsDir "smarts.xml".toList

/-- `src/io/writing/evaluating_balance.rs:35-89`, `src/bin/osmgraphing/mod.rs:311-319`: edges' info, workloads and
paths. -/
def evalOutputs (c : Fmi.Codec) (ev : Yml.Evaluating) :
    Tool.Output × (List Nat → Tool.Output) × (List Path → Tool.Output) :=
  (Tool.edgesOutput c (infoCfg ev), Tool.loadsOutput (infoCfg ev) (loadsFile ev), Tool.pathsOutput (pathsFile ev))

/-- The route-pairs as work (`src/bin/osmgraphing/balancing/multithreading.rs:38-47`). -/
def jobsOf (rs : List Routes.Route) : List Par.Job := rs.map fun r => { src := r.src, dst := r.dst, count := r.count }

section
variable (die : Par.Die) (w : World ℚ)

/-- `src/bin/osmgraphing/balancing/multithreading.rs:424-431`: the worker of the configured algorithm. -/
def worker (g : Graph) (rc : Yml.RoutingCfg) (fuel : Nat) :
    Dij.St ℚ → Par.Work → Option (Par.R (Dij.St ℚ × Par.Outcome)) :=
  match rc.algo with
  | .dijkstra => Par.dijkstraWork w.heap g .dijkstra rc.routing.alphas fuel
  | .chDijkstra => Par.dijkstraWork w.heap g .chDijkstra rc.routing.alphas fuel
  | .explorator ch =>
    Par.exploratorWork die w.heap w.backend g (below ch) rc.routing.alphas rc.routing.tolerances fuel

/-- `src/bin/osmgraphing/mod.rs:294-305`: the threads get there with some schedule, if there is enough fuel. -/
def Reaches (g : Graph) (rc : Yml.RoutingCfg) (ev : Yml.Evaluating) (rs : List Routes.Route)
    (s : Par.Sys (Dij.St ℚ)) : Prop :=
  ∃ fuel es, Par.run (worker die w g rc fuel) Par.sizeDefaults g fuel
    (Par.start Par.sizeDefaults g Dij.St.new ev.threads (jobsOf rs) ev.monitoring.smarts) es = some s

/-- How the master ends (`src/bin/osmgraphing/balancing/multithreading.rs:153-168`). -/
def Ends (s : Par.Sys (Dij.St ℚ)) : Res Unit (List Nat × Option (List Path)) → Prop
  | .ok r => s.phase = .returned ∧ r = (s.master.loads, s.master.paths)
  | .err _ => s.phase = .failed
  | .panic => s.phase = .panicked

/-- The tool, started with these files, works with this document: `src/bin/osmgraphing/mod.rs:65-88` (`parse`), 277-283
(`eval`, `refuses`), 290-305 (`simulate`). The schedule of the threads is arbitrary. Simplifications: the simulation
ends, the dot product is exact, and nothing is said about routing-configs that panic. Nothing is written before the
simulation. -/
structure EvaluatesWith (doc : Yaml) (d : Tool.Disk) (t : Tool.World) : Prop where
  dotp : w.dotp = dot
  parse : t.parse d = Fmi.mapErr (fun _ => ⟨⟩) (load { w with text := d } doc)
  eval : ∀ net rc ev, load { w with text := d } doc = .ok net → Yml.routing w.numbers net.edges doc = .ok rc →
    Yml.evaluating w.numbers doc = some ev → t.eval net = some (evalOutputs w.codec ev)
  refuses : ∀ net, load { w with text := d } doc = .ok net →
    ((∃ e, Yml.routing w.numbers net.edges doc = .err e) ∨ Yml.evaluating w.numbers doc = none) → t.eval net = none
  simulate : ∀ net rc ev, load { w with text := d } doc = .ok net → Yml.routing w.numbers net.edges doc = .ok rc →
    Yml.evaluating w.numbers doc = some ev →
    match readPairs { w with text := d } rc.pairsFile with
    | .ok rs => ∃ s, Reaches die w net.graph rc ev rs s ∧ Ends s (t.simulate net d)
    | .err _ => t.simulate net d = .err ⟨⟩
    | .panic => t.simulate net d = .panic

end

end Verif.Session
