import Verif.Tool

/-!
# Model: the command line

`parse_cmdline` of `src/bin/osmgraphing/mod.rs`. The arguments are parsed by `clap` (2.33), whose sources aren't part of
`/repo`; this is its documented behaviour. Simplifications: arguments with `=`, values and flags joined to a short name,
`--`, the value `-` and the arguments for help and version are refused, though `clap` treats them in other ways.
-/

namespace Verif.Cmd

open Text

/-- `src/bin/osmgraphing/mod.rs:463-472`: flags for tasks. -/
inductive Flag where
  | graph
  | edges
  | routePairs
  | routing
  | balancing
  | evaluating
deriving DecidableEq, Repr

/-- `src/bin/osmgraphing/mod.rs:371-455`: names of flags. -/
def flagName : Flag → Text
  | .graph => "--writing_graph".toList
  | .edges => "--writing_edges".toList
  | .routePairs => "--writing_route-pairs".toList
  | .routing => "--routing".toList
  | .balancing => "--balancing".toList
  | .evaluating => "--evaluating_balance".toList

/-- The flag of an argument. -/
def flagOf (a : Text) : Option Flag :=
  [Flag.graph, .edges, .routePairs, .routing, .balancing, .evaluating].find? fun f => decide (flagName f = a)

/-- Options with a value. -/
inductive Opt where
  | log
  | cfg
deriving DecidableEq, Repr

/-- `src/bin/osmgraphing/mod.rs:341-366`: long name, short name and alias. -/
def optOf (a : Text) : Option Opt :=
  if a = "--log".toList ∨ a = "-l".toList then some .log
  else if a = "--config".toList ∨ a = "-c".toList ∨ a = "--parsing".toList then some .cfg
  else none

/-- `src/bin/osmgraphing/mod.rs:352-354`: accepted levels, in any case. -/
def isLevel (v : Text) : Bool :=
  ["trace".toList, "debug".toList, "info".toList, "warn".toList, "error".toList].contains (lower v)

/-- What has been found so far. -/
structure Seen where
  log : Option Text
  cfg : Option Text
  flags : List Flag
deriving DecidableEq, Repr

/-- `clap`'s loop over the arguments: nothing may be given twice, values don't begin with a hyphen, and everything else is
unknown. `none` is an error. -/
def go : Seen → List Text → Option Seen
  | s, [] => some s
  | s, a :: rest =>
    match optOf a with
    | some o =>
      match rest with
      | [] => none
      | v :: rest =>
        if v.head? = some '-' then none
        else match o with
          | .log => if s.log.isSome ∨ !isLevel v then none else go { s with log := some v } rest
          | .cfg => if s.cfg.isSome then none else go { s with cfg := some v } rest
    | none =>
      match flagOf a with
      | some f => if f ∈ s.flags then none else go { s with flags := s.flags ++ [f] } rest
      | none => none

/-- `src/bin/osmgraphing/mod.rs:476-486` `CmdlineArgs`. -/
structure Call where
  log : Text
  cfg : Text
  args : Tool.Args
deriving DecidableEq, Repr

/-- `src/bin/osmgraphing/mod.rs:324-457` `parse_cmdline` with `try_from` (488-522) and `check_for_activated_feature`
(524-530). `gpl` is the cargo-feature. -/
def parse (gpl : Bool) (words : List Text) : Option Call :=
  match go { log := none, cfg := none, flags := [] } words with
  | none => none
  | some s =>
    match s.cfg with
    | none => none
    | some cfg =>
      if (decide (.balancing ∈ s.flags) || decide (.evaluating ∈ s.flags)) && !gpl then none
      else some
        { log := s.log.getD "INFO".toList
          cfg
          args :=
            { graph := decide (.graph ∈ s.flags)
              edges := decide (.edges ∈ s.flags)
              routePairs := decide (.routePairs ∈ s.flags)
              routing := decide (.routing ∈ s.flags)
              evaluating := decide (.evaluating ∈ s.flags)
              balancing := decide (.balancing ∈ s.flags) } }

end Verif.Cmd
