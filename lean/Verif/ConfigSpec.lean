import Verif.Config

/-!
# Specification used by the properties of configurations

Nothing here models code.
-/

namespace Verif.Cfg

/-- What is measured. -/
inductive Quantity where
  | length
  | time
  | speed
  | count
  | number
deriving DecidableEq, Repr

/-- The quantity of a unit. -/
def Unit.quantity : Unit → Quantity
  | .meters | .kilometers => .length
  | .seconds | .minutes | .hours => .time
  | .kmh => .speed
  | .laneCount => .count
  | .f64 => .number

/-- The size of a unit in meters, seconds, meters per second, lanes, and plain numbers. -/
def Unit.size : Unit → ℚ
  | .meters => 1
  | .kilometers => 1000
  | .seconds => 1
  | .minutes => 60
  | .hours => 3600
  | .kmh => 1000 / 3600
  | .laneCount => 1
  | .f64 => 1

/-- The same value in another unit: physically the same, or, with a plain number on one side, the same number. -/
def Unit.SameValue (src dst : Unit) (x y : ℚ) : Prop :=
  if src.quantity = dst.quantity then y * dst.size = x * src.size
  else (src = .f64 ∨ dst = .f64) ∧ y = x

/-- Physically the quotient: a duration from a length and a speed, or a speed from a length and a duration. -/
def Unit.Quotient (r ua ub : Unit) (a b y : ℚ) : Prop :=
  (ua.quantity = .length ∧ ((r.quantity = .time ∧ ub.quantity = .speed) ∨
    (r.quantity = .speed ∧ ub.quantity = .time))) ∧ b ≠ 0 ∧ y * r.size = a * ua.size / (b * ub.size)

/-- The last entry for this metric. -/
def lastEntry (entries : List Entry) (id : Text) : Option Entry :=
  (entries.filter fun e => e.id = id).getLast?

/-- The alpha of an entry, or zero. -/
def alphaOf (entries : List Entry) (id : Text) : ℚ := ((lastEntry entries id).map Entry.alpha).getD 0

/-- The tolerance of an entry, or infinity (`none`). -/
def toleranceOf (entries : List Entry) (id : Text) : Option ℚ := (lastEntry entries id).bind Entry.tolerance

/-- No two categories share an id. -/
def UniqueIds (cats : List EdgeCat) : Prop := (cats.filterMap EdgeCat.id?).Nodup

end Verif.Cfg
