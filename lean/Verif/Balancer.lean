import Verif.Evaluate
import Verif.BalancingRun

/-!
# The balancer's files

Model of `src/bin/osmgraphing/balancing/mod.rs`, with documents and files instead of the open `Bal.World`.
-/

namespace Verif.Session

open Text Gen
open Yml (Yaml)
open Tool (Disk)
open Bal (Step)

/-- What the balancer depends on besides of documents and files.
* `yaml` is the document of a config-file.
* `stamp` names this run's directory (`mod.rs:109-113`); it is the current time, given in seconds.
* `contractor` are the external programs that contract a graph (`src/multi_ch_constructor/mod.rs`): with these settings,
  they turn the lines of a graph (or a missing file) into the lines of another one. `none` is an error.
* `master` is the outcome of the threads (`multithreading.rs`) in this iteration. -/
structure Outside where
  yaml : List Text → Option Yaml
  stamp : Text
  contractor : Yml.MultiCh → Option (List Text) → Option (List Text)
  master : Nat → Graph → Yml.RoutingCfg → List Routes.Route → Res Unit (List Nat × Option (List Path))

/-- `Path::file_name`. Simplification: the path doesn't end with a slash or with `/.`. -/
def lastName (path : Text) : Option Text :=
  let name := Tool.fileName path
  if name = [] ∨ name = "..".toList then none else some name

/-- `std::fs::copy`: overwrites, and fails if there is nothing to copy. Simplification: everything can be read. -/
def copy (src dst : Text) : Step Disk Unit Unit := fun d =>
  match d src with
  | none => (.err ⟨⟩, d)
  | some lines => (.ok ⟨⟩, d.put dst lines)

/-- The outcome of a writer, without the kind of its error. -/
def quiet (o : Tool.Out) : Res Unit Unit × Disk := (Fmi.mapErr (fun _ => ⟨⟩) o.1, o.2)

/-- Without a valid document, there is an error. -/
def given {α β : Type} (o : Option α) (f : α → Step Disk Unit β) : Step Disk Unit β :=
  match o with
  | none => Step.lift (.err ⟨⟩)
  | some x => f x

/-- `src/bin/osmgraphing/balancing/mod.rs:32,109-113` `prepare_results`: the directory of this run. -/
def runDir (o : Outside) (b : Yml.Balancing) : Text := joinPath b.resultsDir o.stamp

/-- `src/bin/osmgraphing/balancing/mod.rs:94-96` `iter_dir`. -/
def iterDir (o : Outside) (b : Yml.Balancing) (i : Nat) : Text := joinPath (runDir o b) (printNat i)

/-- `src/defaults.rs:121` `ITERATION_CFG`. -/
def iterCfg (o : Outside) (b : Yml.Balancing) (i : Nat) : Text := joinPath (iterDir o b i) "iteration.yaml".toList

/-- `src/bin/osmgraphing/balancing/mod.rs:346-353`: the settings of the statistics; `src/defaults.rs:109` `DIR`. -/
def statsCfg (o : Outside) (b : Yml.Balancing) (i : Nat) : Yml.Evaluating where
  seed := b.seed
  resultsDir := joinPath (iterDir o b i) "stats".toList
  monitoring := b.monitoring
  threads := b.threads

/-- `src/bin/osmgraphing/balancing/mod.rs:184-195`: the settings of the contraction; `src/defaults.rs:15` `F64_ABS`. -/
def contractCfg (o : Outside) (b : Yml.Balancing) (i dim : Nat) : Yml.MultiCh :=
  { b.multiCh with
    dim := dim
    fmiGraph := joinPath (iterDir o b i) b.multiCh.fmiGraph
    chGraph := joinPath (iterDir o b i) b.multiCh.chGraph
    accuracy := 1 / 1000000 }

/-- `src/configs/writing/network/graph/mod.rs:14-20` as an output with another path. -/
def graphAt (c : Fmi.Codec) (path : Text) (g : Yml.GraphOut) : Tool.Output :=
  Tool.graphOutput c path
    { nodes := g.nodes, edges := g.edges.ids, shortcuts := g.edges.shortcuts, denormalize := g.edges.denormalize }

/-- `src/configs/writing/network/edges.rs:13-21` as an output with another path. -/
def edgesAt (c : Fmi.Codec) (path : Text) (e : Yml.EdgesInfo) : Tool.Output :=
  Tool.edgesOutput c
    { path, header := e.header, shortcuts := e.shortcuts, denormalize := e.denormalize, cols := e.ids }

section
variable (w : World ℚ) (t : Tool.World) (o : Outside) (doc : Yaml) (b : Yml.Balancing)

/-- `src/bin/osmgraphing/balancing/mod.rs:39-51` with `write_graph` (436-462). -/
def storeGraph (net : Net) : Step Disk Unit Unit :=
  given (Yml.graphOut w.numbers doc) fun g =>
  given (lastName g.mapFile) fun name d =>
    quiet (Tool.writeNew t true (some (graphAt w.codec (joinPath (runDir o b) name) g)) net d)

/-- `src/bin/osmgraphing/balancing/mod.rs:55-56,129-178` `prepare_iteration` and `write_multi_ch_graph` with `write_graph`
and `write_edges` (436-490). Simplification: creating directories doesn't fail. -/
def writeIteration (i : Nat) (net : Net) : Step Disk Unit Unit :=
  (copy (if i = 0 then b.iter0 else b.iterI) (iterCfg o b i)).bind fun _ d =>
  given ((d (iterCfg o b i)).bind o.yaml) (fun doc =>
    (given (Yml.graphOut w.numbers doc) fun g d =>
      quiet (Tool.writeNew t true (some (graphAt w.codec (joinPath (iterDir o b i) g.mapFile) g)) net d)).bind fun _ =>
    given (Yml.edgesInfo w.numbers doc) fun e d =>
      quiet (Tool.writeNew t true (some (edgesAt w.codec (joinPath (iterDir o b i) e.file) e)) net d)) d

/-- `src/bin/osmgraphing/balancing/mod.rs:191-198` `construct_ch_graph`. Simplifications: the external programs read and write nothing but
both graphs, and can be built. -/
def contractGraph (i dim : Nat) : Step Disk Unit Unit := fun d =>
  match o.contractor (contractCfg o b i dim) (d (contractCfg o b i dim).fmiGraph) with
  | none => (.err ⟨⟩, d)
  | some lines => (.ok ⟨⟩, d.put (contractCfg o b i dim).chGraph lines)

/-- `src/bin/osmgraphing/balancing/mod.rs:201-249` `read_in_ch_graph`: all files are relative to the iteration's directory.
Without a section for generating, it panics. -/
def readContracted (i : Nat) (d : Disk) : Res Unit Net :=
  match (d (iterCfg o b i)).bind o.yaml with
  | none => .err ⟨⟩
  | some doc =>
    match Yml.parsing w.numbers (fun p => d (joinPath (iterDir o b i) p)) doc with
    | none => .err ⟨⟩
    | some (mapFile, cfg) =>
      match cfg.generating with
      | none => .panic
      | some _ => Fmi.mapErr (fun _ => ⟨⟩) (loadMap { w with text := d } (joinPath (iterDir o b i) mapFile) cfg)

/-- `src/bin/osmgraphing/balancing/mod.rs:251-269,297`: the routing-config with its file of route-pairs, and its copy. -/
def routingCfg (net : Net) : Res Unit (Yml.RoutingCfg × Text × Text) :=
  match Yml.routing w.numbers net.edges doc with
  | .err _ => .err ⟨⟩
  | .panic => .panic
  | .ok rc =>
    match rc.pairsFile with
    | none => .err ⟨⟩
    | some file =>
      match lastName file with
      | none => .err ⟨⟩
      | some name => .ok (rc, file, joinPath (runDir o b) name)

/-- `src/bin/osmgraphing/balancing/mod.rs:283-327`: route-pairs are copied in the first iteration, then read from the copy
and worked off. -/
def simulatePairs (i : Nat) (net : Net) (alphas : List ℚ) : Step Disk Unit (List Nat × Option (List Path)) :=
  (Step.lift (routingCfg w o doc b net)).bind fun (rc, file, new) =>
  (if i = 0 then copy file new else Step.lift (.ok ⟨⟩)).bind fun _ d =>
    match readPairs { w with text := d } (some new) with
    | .err _ => (.err ⟨⟩, d)
    | .panic => (.panic, d)
    | .ok rs => (o.master i net.graph { rc with routing := { rc.routing with alphas } } rs, d)

/-- `src/bin/osmgraphing/balancing/mod.rs:344-363` with `src/io/writing/evaluating_balance.rs:35-89`. -/
def writeStats (i : Nat) (loads : List Nat) (paths : Option (List Path)) (net : Net) : Step Disk Unit Unit := fun d =>
  let (info, ls, ps) := evalOutputs w.codec (statsCfg o b i)
  quiet (((Tool.create t info net d).andThen (Tool.create t (ls loads) net)).andThen fun d =>
    match paths with
    | none => (.ok ⟨⟩, d)
    | some paths => Tool.create t (ps paths) net d)

/-- The stages of the balancer, on files. -/
def balancerWorld : Bal.World where
  State := Disk
  store := storeGraph w t o doc b
  write := writeIteration w t o b
  contract := contractGraph o b
  read := readContracted w o b
  alphas net _ := match routingCfg w o doc b net with
    | .ok (rc, _) => .ok rc.routing.alphas
    | .err e => .err e
    | .panic => .panic
  simulate := simulatePairs w o doc b
  stats := writeStats w t o b

/-- `src/configs/balancing.rs:14-27`: what the loop needs. -/
def runCfg : Bal.RunConfig where
  update := { metricId := b.metricId, method := b.method, minNewMetric := b.minNewMetric, isErrWhenZero := b.isErrWhenZero }
  numUpdates := b.numIter - 1
  dim := b.multiCh.dim

end

section
variable (w : World ℚ) (t : Tool.World) (o : Outside) (cfgFile : Text) (doc : Yaml)

/-- `src/bin/osmgraphing/balancing/mod.rs:13-80` `run`: the documents are checked, then the graph is read, this run's
directory is prepared, and the iterations follow. Simplification: the config-file doesn't change during the run. -/
def balancer (d : Disk) : Res Unit Unit × Disk :=
  match Yml.graphOut w.numbers doc, Yml.balancing w.numbers doc with
  | none, _ => (.err ⟨⟩, d)
  | some _, .err _ => (.err ⟨⟩, d)
  | some _, .panic => (.panic, d)
  | some _, .ok b =>
    match load { w with text := d } doc with
    | .err _ => (.err ⟨⟩, d)
    | .panic => (.panic, d)
    | .ok net =>
      match Yml.routing w.numbers net.edges doc with
      | .err _ => (.err ⟨⟩, d)
      | .panic => (.panic, d)
      | .ok _ =>
        (given (lastName cfgFile) fun name => copy cfgFile (joinPath (runDir o b) name)).bind (fun _ d =>
          let (_, r, d) := Bal.balance (balancerWorld w t o doc b) (runCfg b) net d
          (Fmi.mapErr (fun _ => ⟨⟩) r, d)) d

end

end Verif.Session
