import Verif.Balancer
import Verif.BalancingRunSpec

/-!
# What is expected of the balancer's files

Specification only.
-/

namespace Verif.Session

open Text
open Tool (Disk)
open Yml (Yaml)

/-- The path doesn't begin with a slash. -/
def Relative (file : Text) : Prop := file.head? ≠ some '/'

/-- The path, as a text, is below the directory. -/
def Below (dir file : Text) : Prop := ∃ rest, file = dir ++ '/' :: rest

/-- Nothing outside of the directory differs. -/
def SameOutside (dir : Text) (d d' : Disk) : Prop := ∀ p, ¬ Below dir p → d' p = d p

/-- The name of a directory (without its parents). -/
def IsName (name : Text) : Prop := name ≠ [] ∧ '/' ∉ name

/-- The last part of a path. -/
def NameOf (path name : Text) : Prop := IsName name ∧ (path = name ∨ ∃ dir, path = dir ++ '/' :: name)

/-- The directory of a run. -/
def DirOf (resultsDir stamp dir : Text) : Prop :=
  dir = resultsDir ++ '/' :: stamp ∨
    dir = resultsDir ++ stamp ∧ (resultsDir = [] ∨ resultsDir.getLast? = some '/')

/-- The columns that are written. -/
def columnsOf (g : Yml.GraphOut) : Fmi.WriteCfg where
  nodes := g.nodes
  edges := g.edges.ids
  shortcuts := g.edges.shortcuts
  denormalize := g.edges.denormalize

/-- All files of an iteration that are written according to its document are relative. -/
structure RelativeOutputs (numbers : Yml.Numbers) (doc : Yaml) : Prop where
  graph : ∀ g, Yml.graphOut numbers doc = some g → Relative g.mapFile
  edges : ∀ e, Yml.edgesInfo numbers doc = some e → Relative e.file

/-- The balancer's settings keep its files together: all paths that are meant to be relative to the directory of an
iteration are relative, and the documents for iterations aren't below the directory of this run. -/
structure Tidy (numbers : Yml.Numbers) (yaml : List Text → Option Yaml) (dir : Text) (b : Yml.Balancing) (d : Disk) :
    Prop where
  chGraph : Relative b.multiCh.chGraph
  info : Relative b.monitoring.edgesInfo.file
  iter0 : ¬ Below dir b.iter0
  iterI : ¬ Below dir b.iterI
  outputs : ∀ p ∈ [b.iter0, b.iterI], ∀ lines doc, d p = some lines → yaml lines = some doc → RelativeOutputs numbers doc

end Verif.Session
