import Verif.SessionSpec
import Verif.StreetRoutesSpec

/-!
# Specification used by the properties of the tool's routing on pbf-maps

Answers in terms of the streets of a file, without any graph. Nothing here models code.
-/

namespace Verif.Session

open Text Cfg Yml
open Approx (Coord)

/-- The name of the metric that is added by generating this. -/
def addedMetric : GenCat → Option Text
  | .custom _ id _ => some id
  | .haversine _ id => some id
  | .copy _ dst => some dst.id
  | .calc result _ _ => some result.id
  | _ => none

/-- The names of the metrics: those of the map, then those that are generated. -/
def metricNames (ip : ParsingIn) (gen : Generating) : List Text :=
  Fmi.metricIds ip.edges ++ gen.edges.filterMap addedMetric

/-- The kilometers of a trip. -/
def Drives (dist : Coord → Coord → ℚ) (file : List (Option Osm.Obj)) : Int → List (Int × Nat) → ℚ → Prop
  | _, [], s => s = 0
  | a, x :: l, s => ∃ p q s', Osm.position file a = some p ∧ Osm.position file x.1 = some q ∧
      Drives dist file x.1 l s' ∧ s = dist p q + s'

/-- At most as many street-segments, in both directions, as there are. -/
def segments (file : List (Option Osm.Obj)) : Nat :=
  (file.map fun
    | some (.way nodes _) => 2 * nodes.length
    | _ => 0).sum

/-- A node that streets lead to or from. -/
def OnStreet (c : Parsing) (file : List (Option Osm.Obj)) (id : Int) : Prop :=
  ∃ x speed, Osm.Drive c file id x speed ∨ Osm.Drive c file x id speed

/-- The user has written these settings: the map is a pbf-file with these objects, the minutes of edges are generated
from lengths and speeds (`TimeConfig`), they are the only metric that matters for routing, and the file of route-pairs
has these lines. -/
structure Streets {K : Type} (w : World K) (wr : Writer) (doc : Yaml) (ip : ParsingIn) (ir : RoutingIn)
    (gen : Generating) (speed length time : Text) (objs : List (Option Osm.Obj)) (pairs : List Text) : Prop where
  writer : wr.Fits w.numbers
  parsing : ∃ y, ip.doc wr = some y ∧ valuesAt ["parsing"] doc = [y]
  routing : valuesAt ["routing"] doc = [ir.doc wr]
  generating : (ip.cfg w.text).generating = some gen
  minutes : Osm.TimeConfig (ip.cfg w.text) gen speed length time
  only : ∃ a t, ir.metrics = [{ id := time, alpha := a, tolerance := t }] ∧ (a = none ∨ a = some 1)
  pbf : ∃ ext, Tool.Named (Tool.fileName ip.mapFile) ext ∧ lower ext = "pbf".toList
  map : w.pbf ip.mapFile = some objs
  pairs : ∃ pairsFile file, ir.pairsFile = some pairsFile ∧ w.text pairsFile = some file ∧ PairsFile file pairs

/-- The report tells the truth about trips from `a` to `b`: it says that there is none iff there is none, else it
contains the minutes and the kilometers of one, and no trip takes less time, up to this slack. -/
def OfStreets (dist : Coord → Coord → ℚ) (c : Parsing) (file : List (Option Osm.Obj)) (names : List Text)
    (length time : Text) (slack : ℚ → ℚ → Prop) (a b : Int) : Report → Prop
  | .nothing src dst => src.id = a ∧ dst.id = b ∧ ¬ ∃ trip, Osm.Trip c file a trip b
  | .costs src dst cs => src.id = a ∧ dst.id = b ∧ ∃ (trip : _) (t s : ℚ) (i j : Nat), Osm.Trip c file a trip b ∧
      Osm.Takes dist file a trip t ∧ Drives dist file a trip s ∧
      names[i]? = some time ∧ cs[i]? = some t ∧ names[j]? = some length ∧ cs[j]? = some s ∧
      ∀ trip' t', Osm.Trip c file a trip' b → Osm.Takes dist file a trip' t' → slack t t'
  | .found _ _ _ => False

end Verif.Session
