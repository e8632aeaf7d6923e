import Verif.Pbf

/-!
# Specification used by the properties of streets and ways

Nothing here models code: the table of the documentation, and what a way means.
-/

namespace Verif.Osm

open Text Cfg Build

/-- An entry of the documented table: `yes`, `yes(*)` ("allowed or possible but uncomfortable or
unusual"), or `no`. -/
inductive Allowed where
  | yes
  | unusual
  | no
deriving DecidableEq, Repr

/-- Picky drivers avoid what is unusual. -/
def Allowed.permits (a : Allowed) (picky : Bool) : Prop :=
  match a with
  | .yes => True
  | .unusual => picky = false
  | .no => False

/-- A row of the documented table: speed, vehicles, bicycles, pedestrians. -/
structure Row where
  speed : Nat
  car : Allowed
  bicycle : Allowed
  pedestrian : Allowed
deriving DecidableEq, Repr

/-- The table in the documentation (`src/network/mod.rs:25-45`). -/
def documented : Street → Row
  | .motorway => ⟨130, .yes, .no, .no⟩
  | .motorwayLink => ⟨50, .yes, .no, .no⟩
  | .trunk => ⟨100, .yes, .no, .no⟩
  | .trunkLink => ⟨50, .yes, .no, .no⟩
  | .primary => ⟨100, .yes, .unusual, .no⟩
  | .primaryLink => ⟨30, .yes, .unusual, .no⟩
  | .secondary => ⟨70, .yes, .unusual, .no⟩
  | .secondaryLink => ⟨30, .yes, .unusual, .no⟩
  | .tertiary => ⟨70, .yes, .yes, .no⟩
  | .tertiaryLink => ⟨30, .yes, .yes, .no⟩
  | .unclassified => ⟨50, .yes, .yes, .no⟩
  | .residential => ⟨50, .yes, .yes, .yes⟩
  | .livingStreet => ⟨15, .yes, .yes, .yes⟩
  | .service => ⟨20, .unusual, .yes, .yes⟩
  | .track => ⟨30, .unusual, .unusual, .yes⟩
  | .road => ⟨50, .unusual, .unusual, .unusual⟩
  | .cycleway => ⟨25, .no, .yes, .no⟩
  | .pedestrian => ⟨5, .no, .unusual, .yes⟩
  | .path => ⟨15, .no, .unusual, .yes⟩

/-- The column of a vehicle. -/
def Row.access (r : Row) : Vehicle → Allowed
  | .car => r.car
  | .bicycle => r.bicycle
  | .pedestrian => r.pedestrian

/-- Where a way leads. -/
inductive Dir where
  | forward
  | backward
  | both
deriving DecidableEq, Repr

/-- Values of the tag `oneway` of ways that lead forward. -/
def forwardValues : List String :=
  ["yes", "1", "left;through", "motor_vehicle", "recommended", "shelter", "use_sidepath",
   "yes + oneway:bicycle=no"]

/-- Values of the tag `oneway` of ways that lead backward. -/
def backwardValues : List String := ["-1", "-1;no", "´-1"]

/-- Equal up to surrounding whitespace and letter case. -/
def sameTag (v : Text) (s : String) : Prop := lower (trim v) = s.toList

/-- The direction of a way with this value of the tag `oneway`. -/
def Leads (oneway : Option Text) (d : Dir) : Prop :=
  match d with
  | .forward => ∃ v s, oneway = some v ∧ s ∈ forwardValues ∧ sameTag v s
  | .backward => ∃ v s, oneway = some v ∧ s ∈ backwardValues ∧ sameTag v s
  | .both => ∀ v s, oneway = some v → s ∈ forwardValues ++ backwardValues → ¬ sameTag v s

/-- Consecutive nodes. -/
def steps (l : List Int) : List (Int × Int) := l.zip l.tail

/-- Consecutive nodes in the directions of the way. -/
def directed (d : Dir) (l : List Int) : List (Int × Int) :=
  match d with
  | .forward => steps l
  | .backward => ((steps l).map Prod.swap).reverse
  | .both => steps l ++ ((steps l).map Prod.swap).reverse

/-- The way is part of the network of `c`'s vehicle, as a street of category `s`. -/
def Usable (c : Parsing) (tags : Tags) (s : Street) : Prop :=
  streetOf tags = some s ∧ s.isFor c.vehicle c.picky = true

/-- The metric of a street in this unit. -/
def metricOf (s : Street) (tags : Tags) : Cfg.Unit → Option ℚ
  | .kmh => some (parseMaxspeed s tags)
  | .laneCount => some s.laneCount
  | _ => none

end Verif.Osm
