import Verif.OsmSpec
import Verif.GeneratingSpec

/-!
# Trips on the streets of a file

Specification only: what can be driven according to a pbf-file, without any graph.
-/

namespace Verif.Osm

open Cfg Build Gen
open Approx (Coord)

/-- A way of the file leads the vehicle from node `a` to its neighbour `b`, with this speed in km/h. -/
def Drive (c : Parsing) (file : List (Option Obj)) (a b : Int) (speed : Nat) : Prop :=
  ∃ nodes tags s d, some (Obj.way nodes tags) ∈ file ∧ Usable c tags s ∧ Leads (tags.get "oneway") d ∧
    (a, b) ∈ directed d nodes ∧ speed = parseMaxspeed s tags

/-- The trip leads from `a` to `b`; it lists every next node and the speed on the way to it. -/
def Trip (c : Parsing) (file : List (Option Obj)) : Int → List (Int × Nat) → Int → Prop
  | a, [], b => a = b
  | a, x :: l, b => Drive c file a x.1 x.2 ∧ Trip c file x.1 l b

/-- The last coordinates of a node, in degrees. -/
def position (file : List (Option Obj)) (id : Int) : Option Coord :=
  (file.filterMap fun
    | some (.node i lat lon) => if i = id then some (⟨lat / 10000000, lon / 10000000⟩ : Coord) else none
    | _ => none).getLast?

/-- The minutes of a trip, given the distance of coordinates in km. -/
def Takes (dist : Coord → Coord → ℚ) (file : List (Option Obj)) : Int → List (Int × Nat) → ℚ → Prop
  | _, [], t => t = 0
  | a, x :: l, t => ∃ p q t', position file a = some p ∧ position file x.1 = some q ∧
      Takes dist file x.1 l t' ∧ t = 60 * (dist p q / x.2) + t'

/-- What has to be configured to get the minutes of edges: a speed in km/h, the lengths of edges in km, and the
minutes calculated from both. All other metrics may be added to that, with distinct names. -/
structure TimeConfig (c : Parsing) (gen : Generating) (speed length time : Text) : Prop where
  parsed : Edges.tryFrom c.edges.cats false = .ok c.edges
  hasSpeed : EdgeCat.metric .kmh speed ∈ c.edges.cats
  hasLength : GenCat.haversine .kilometers length ∈ gen.edges
  hasTime : GenCat.calc ⟨.minutes, time⟩ ⟨.kilometers, length⟩ ⟨.kmh, speed⟩ ∈ gen.edges
  adds : ∀ x ∈ gen.edges, ¬ replaces x
  names : (gen.edges.filterMap introduces).Nodup

/-- The alphas weight this metric by one and all others by zero. -/
def Only (al : List ℚ) (k : Nat) : Prop := al[k]? = some 1 ∧ ∀ (j : Nat) (x : ℚ), j ≠ k → al[j]? = some x → x = 0

end Verif.Osm
