import Verif.Fmi
import Verif.Smarts
import Verif.Parallel

/-!
# File extensions and the tasks of the binary

Model of `src/io/mod.rs`, `src/bin/osmgraphing/mod.rs`, `src/io/writing/evaluating_balance.rs` and of how writers
create their files.
-/

namespace Verif.Tool

open Text Gen

/-! ## Extensions -/

/-- `Path::extension` of a file's name: what is behind the last dot, if something is before it.
Simplification: a path is given by its last component, and it is valid unicode. -/
def extension (name : Text) : Option Text :=
  if name = "..".toList then none
  else
    let after := (name.reverse.takeWhile (· ≠ '.')).reverse
    let before := (name.reverse.dropWhile (· ≠ '.')).reverse
    if before.length ≤ 1 then none else some after

/-- `src/io/mod.rs:29-46,55-77` `find_supported_ext`. The errors are put together. -/
def findSupported (exts : List Text) (name : Text) : Option Text :=
  match extension name with
  | none => none
  | some ext => exts.find? fun s => decide (s = lower ext)

/-- `src/io/mod.rs:88-91` `MapFileExt`. -/
inductive MapExt where
  | pbf
  | fmi
deriving DecidableEq, Repr

/-- `src/io/mod.rs:101-109` `from_path`. -/
def fromPath (exts : List Text) (name : Text) : Option MapExt :=
  match findSupported exts name with
  | none => none
  | some ext =>
    if ext = "osm.pbf".toList ∨ ext = "pbf".toList then some .pbf
    else if ext = "fmi".toList then some .fmi
    else none

/-- `src/io/mod.rs:95-97`: the extensions of `MapFileExt`. -/
def mapExts : List Text := ["osm.pbf".toList, "pbf".toList, "fmi".toList]

/-- `src/io/parsing/network/graph/mod.rs:64-68`. -/
def parserExts : List Text := ["pbf".toList, "fmi".toList]

/-- `src/io/writing/network/graph/mod.rs:33-37`. -/
def graphExts : List Text := ["fmi".toList]

/-- `src/io/writing/network/edges.rs:127-131`. -/
def edgesExts : List Text := ["csv".toList]

/-! ## Files -/

/-- The files' lines by path. -/
abbrev Disk := Text → Option (List Text)

/-- A new content. -/
def Disk.put (d : Disk) (path : Text) (lines : List Text) : Disk := fun p => if p = path then some lines else d p

/-- Why a task fails. -/
inductive Err where
  | config
  | parsing
  | alreadyThere (path : Text)
  | refused (path : Text)
  | opening (path : Text)
  | writing (path : Text)
  | routing
  | simulating
  | balancing
deriving DecidableEq, Repr

/-- What a writer does: it may refuse before it opens its file; else it writes lines or fails. -/
structure Output where
  path : Text
  accepts : Net → Bool
  text : Net → Fmi.R (List Text)

/-- What the tool depends on. `none` is an error.
* `openable` tells whether a new file can be created, e.g. whether its directory exists.
* `cut` is what remains in a file if its writer fails (or panics).
* `parse` reads the parsing-config and its map (`mod.rs:65-88`).
* `graph`, `edges`, `routePairs` are outputs according to their configs (`mod.rs:95,115,144-145`).
* `route` does the queries of the route-pairs, which are read from the disk (`mod.rs:191-274`).
* `eval` is the config for evaluating a balance (`mod.rs:279-280`).
* `simulate` reads and works off route-pairs (`mod.rs:285-305`).
* `balance` is the balancer (`mod.rs:180-186`) with its files. -/
structure World where
  openable : Text → Bool
  cut : Text → List Text
  parse : Disk → Res Unit Net
  graph : Option Output
  edges : Option Output
  routePairs : Net → Option Output
  route : Net → Disk → Res Unit Unit
  eval : Net → Option (Output × (List Nat → Output) × (List Path → Output))
  simulate : Net → Disk → Res Unit (List Nat × Option (List Path))
  balance : Disk → Res Unit Unit × Disk

/-- `src/bin/osmgraphing/mod.rs:476-486` `CmdlineArgs`, with the feature `gpl`. -/
structure Args where
  graph : Bool
  edges : Bool
  routePairs : Bool
  routing : Bool
  evaluating : Bool
  balancing : Bool
deriving DecidableEq, Repr

/-- The outcome of tasks, with the files afterwards. -/
abbrev Out := Res Err Unit × Disk

/-- The `?` between tasks. -/
def Out.andThen (o : Out) (f : Disk → Out) : Out :=
  match o with
  | (.ok _, d) => f d
  | (.err e, d) => (.err e, d)
  | (.panic, d) => (.panic, d)

section
variable (w : World)

/-- A writer: `src/io/writing/network/graph/mod.rs:14-29` with `fmi.rs:24-36`,
`src/io/writing/network/edges.rs:28-60,63-123`, `src/io/writing/routing/random_or_all.rs:32-44`,
`src/io/writing/smarts.rs:14-25`: all of them use `create_new`, so an existing file is an error. -/
def create (o : Output) (net : Net) (d : Disk) : Out :=
  if !o.accepts net then (.err (.refused o.path), d)
  else if (d o.path).isSome || !w.openable o.path then (.err (.opening o.path), d)
  else
    match o.text net with
    | .ok lines => (.ok ⟨⟩, d.put o.path lines)
    | .err _ => (.err (.writing o.path), d.put o.path (w.cut o.path))
    | .panic => (.panic, d.put o.path (w.cut o.path))

/-- `src/bin/osmgraphing/mod.rs:92-108,112-137,141-167`: a writing task, if it is asked for. -/
def writeNew (asked : Bool) (o : Option Output) (net : Net) (d : Disk) : Out :=
  if asked then
    match o with
    | none => (.err .config, d)
    | some o => if (d o.path).isSome then (.err (.alreadyThere o.path), d) else create w o net d
  else (.ok ⟨⟩, d)

/-- The outcome of a part that doesn't write. -/
def reading {α : Type} (e : Err) (r : Res Unit α) (d : Disk) (f : α → Out) : Out :=
  match r with
  | .ok x => f x
  | .err _ => (.err e, d)
  | .panic => (.panic, d)

/-- `src/io/writing/evaluating_balance.rs:13-33` `check`. -/
def check (d : Disk) : List Text → Res Err Unit
  | [] => .ok ⟨⟩
  | p :: ps => if (d p).isSome then .err (.alreadyThere p) else check d ps

/-- `src/bin/osmgraphing/mod.rs:277-322` `do_evaluating_routing` with `src/io/writing/evaluating_balance.rs:35-89`.
All three files are checked, also if no paths are written. Simplification: creating the directory doesn't fail. -/
def evaluate (net : Net) (d : Disk) : Out :=
  match w.eval net with
  | none => (.err .config, d)
  | some (info, loads, paths) =>
    match check d [info.path, (loads []).path, (paths []).path] with
    | .ok _ =>
      reading .simulating (w.simulate net d) d fun (ls, ps) =>
        ((create w info net d).andThen (create w (loads ls) net)).andThen fun d =>
          match ps with
          | none => (.ok ⟨⟩, d)
          | some ps => create w (paths ps) net d
    | .err e => (.err e, d)
    | .panic => (.panic, d)

/-- `src/bin/osmgraphing/mod.rs:60-189` `run`. -/
def run (a : Args) (d : Disk) : Out :=
  reading .parsing (w.parse d) d fun net =>
    ((((writeNew w a.graph w.graph net d).andThen (writeNew w a.edges w.edges net)).andThen
      (writeNew w a.routePairs (w.routePairs net) net)).andThen fun d =>
        if a.routing || a.evaluating then
          if !a.evaluating then reading .routing (w.route net d) d fun _ => (.ok ⟨⟩, d)
          else evaluate w net d
        else (.ok ⟨⟩, d)).andThen fun d =>
      if a.balancing then
        match w.balance d with
        | (.ok _, d) => (.ok ⟨⟩, d)
        | (.err _, d) => (.err .balancing, d)
        | (.panic, d) => (.panic, d)
      else (.ok ⟨⟩, d)

end

/-! ## The writers -/

/-- The last component of a path. -/
def fileName (path : Text) : Text := (path.reverse.takeWhile (· ≠ '/')).reverse

/-- `src/io/writing/network/graph/mod.rs:14-29`. The branch of pbf-files is an error as well. -/
def graphOutput (c : Fmi.Codec) (path : Text) (cfg : Fmi.WriteCfg) : Output where
  path
  accepts _ := decide (fromPath graphExts (fileName path) = some .fmi)
  text net := Fmi.write c net cfg

/-- `src/configs/writing/network/edges.rs:13-21`. -/
structure EdgesCfg where
  path : Text
  header : Bool
  shortcuts : Bool
  denormalize : Bool
  cols : List (Option Text)
deriving DecidableEq, Repr

/-- `src/io/writing/network/edges.rs:28-60`. -/
def edgesOutput (c : Fmi.Codec) (cfg : EdgesCfg) : Output where
  path := cfg.path
  accepts _ := (findSupported edgesExts (fileName cfg.path)).isSome
  text net := Fmi.writeEdges c net cfg.header cfg.shortcuts cfg.denormalize cfg.cols

/-- `src/io/writing/evaluating_balance.rs:48-73`: the name of the edge-id. -/
def edgeIdName (net : Net) : Option Text :=
  net.edges.cats.findSome? fun
    | .info .edgeId id => some id
    | _ => none

/-- `src/defaults.rs:116` `csv_names::NUM_ROUTES`. -/
def numRoutes : Text := "num_routes".toList

/-- `src/io/writing/evaluating_balance.rs:46-86` and `src/io/writing/network/edges.rs:63-123`: the workloads, with the
settings of the edges' info. Without an edge-id, the writer refuses. -/
def loadsOutput (cfg : EdgesCfg) (path : Text) (loads : List Nat) : Output where
  path
  accepts net := (edgeIdName net).isSome && (findSupported edgesExts (fileName path)).isSome
  text net := Fmi.writeValues printNat net cfg.header cfg.shortcuts [edgeIdName net, some numRoutes] loads

/-- `src/io/writing/smarts.rs:14-72`. -/
def pathsOutput (path : Text) (paths : List Path) : Output where
  path
  accepts _ := true
  text net := Fmi.acc (Smarts.write net.graph paths)

end Verif.Tool
