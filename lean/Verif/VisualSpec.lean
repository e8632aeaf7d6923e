import Verif.Visual
import Verif.FmiSpec

/-!
# What is expected of the visualizer's data

Specification only.
-/

namespace Verif.Vis

open Text Cfg
open Gen (Net)
open Fmi (Codec FirstCat OutValue writtenEdges)

/-- Neither the separator of columns nor a quotation mark is in this text. -/
def Plain (t : Text) : Prop := ∀ ch ∈ t, ch ≠ ' ' ∧ ch ≠ '"'

/-- One iteration of the simulation: the graph and how many routes use which edge. -/
structure Iteration where
  net : Net
  routes : List Nat

/-- These files have been written for this iteration, with names of columns above. -/
structure Wrote (c : Codec) (shortcuts denormalize : Bool) (cols : List (Option Text)) (it : Iteration)
    (files : Option (List Text) × Option (List Text)) : Prop where
  info : ∃ file, files.1 = some file ∧ Fmi.writeEdges c it.net true shortcuts denormalize cols = .ok file
  routes : ∃ file, files.2 = some file ∧
    Fmi.writeValues printNat it.net true shortcuts [Tool.edgeIdName it.net, some Tool.numRoutes] it.routes = .ok file

/-- The columns the visualizer asks for are written, and the graph has them among its columns. -/
structure Named (cats : List EdgeCat) (cols : List (Option Text)) : Prop where
  plain : ∀ id, some id ∈ cols → Plain id
  written : ∀ id ∈ ["edge-id", "src-lat", "src-lon", "dst-lat", "dst-lon", "kilometers", "lane-count"],
    some id.toList ∈ cols
  edgeId : FirstCat EdgeCat.id? cats "edge-id".toList (.info .edgeId "edge-id".toList)
  onlyId : ∀ name, .info .edgeId name ∈ cats → name = "edge-id".toList
  srcLat : FirstCat EdgeCat.id? cats "src-lat".toList (.info .srcLat "src-lat".toList)
  srcLon : FirstCat EdgeCat.id? cats "src-lon".toList (.info .srcLon "src-lon".toList)
  dstLat : FirstCat EdgeCat.id? cats "dst-lat".toList (.info .dstLat "dst-lat".toList)
  dstLon : FirstCat EdgeCat.id? cats "dst-lon".toList (.info .dstLon "dst-lon".toList)
  kilometers : ∃ u, FirstCat EdgeCat.id? cats "kilometers".toList (.metric u "kilometers".toList)
  lanes : ∃ u, FirstCat EdgeCat.id? cats "lane-count".toList (.metric u "lane-count".toList)

/-- Edge `e` is written and has this id. -/
def HasId (net : Net) (shortcuts : Bool) (e id : Nat) : Prop :=
  e ∈ writtenEdges net.graph shortcuts ∧ net.graph.tryId e = .ok (some id)

/-- All iterations are about the same streets, in whatever order. -/
def SameStreets (shortcuts : Bool) (its : List Iteration) : Prop :=
  ∀ it ∈ its, ∀ it' ∈ its, ∀ id, (∃ e, HasId it.net shortcuts e id) → ∃ e, HasId it'.net shortcuts e id

/-- The ids of the streets in increasing order. -/
structure Ids (shortcuts : Bool) (its : List Iteration) (ids : List Nat) : Prop where
  increasing : ids.Pairwise (· < ·)
  all : ∀ it ∈ its, ∀ id, id ∈ ids ↔ ∃ e, HasId it.net shortcuts e id

/-- Length and lanes are those of this edge. -/
structure Measured (net : Net) (denormalize : Bool) (e : Nat) (s : Street) : Prop where
  kilometers : ∃ k : Nat, net.edges.ids[k]? = some "kilometers".toList ∧ OutValue net denormalize e k s.kilometers
  lanes : ∃ k : Nat, net.edges.ids[k]? = some "lane-count".toList ∧ OutValue net denormalize e k s.lanes

/-- The street is shown in the middle of this edge. -/
def InMiddle (net : Net) (e : Nat) (s : Street) : Prop :=
  ∃ u v x y, net.graph.IsEdge e u v ∧ net.graph.nodeCoord u = .ok x ∧ net.graph.nodeCoord v = .ok y ∧
    s.lat = (x.lat + y.lat) / 2 ∧ s.lon = (x.lon + y.lon) / 2

/-- The street is shown where this edge begins. -/
def AtSource (net : Net) (e : Nat) (s : Street) : Prop :=
  ∃ u v x, net.graph.IsEdge e u v ∧ net.graph.nodeCoord u = .ok x ∧ s.lat = x.lat ∧ s.lon = x.lon

end Verif.Vis
