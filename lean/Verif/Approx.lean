import Mathlib.Algebra.Order.Round
import Mathlib.Algebra.Order.Field.Rat
import Mathlib.Data.Rat.Floor

/-!
# Model of `src/approximating.rs`

Floats are exact rationals here; the accuracy is the literal `0.000_001`.
-/

namespace Verif

/-- `src/defaults.rs:15` `accuracy::F64_ABS`. -/
def eps : ℚ := 1 / 1000000

namespace Approx

/-- `f64::round`: round half away from zero (std), used in `src/approximating.rs:170`.
Simplification: exact rationals. -/
def roundF (x : ℚ) : ℤ := if 0 ≤ x then ⌊x + 1 / 2⌋ else -⌊-x + 1 / 2⌋

/-- `src/approximating.rs:168-172` `Approx<f64>::approx`. -/
def approx (x : ℚ) : ℚ := (roundF (x / eps) : ℚ) * eps

/-- `src/approximating.rs:195-199` `PartialEq for Approx<f64>`. -/
def eq (a b : ℚ) : Bool := decide (|approx (a - b)| ≤ eps)

/-- `src/approximating.rs:174-193` `PartialOrd`/`Ord for Approx<f64>`; without NaN the comparison
always exists, so `cmp` equals the unwrapped `partial_cmp`. -/
def cmp (a b : ℚ) : Ordering := if eq a b then .eq else compare a b

/-- `<=` derived from `partial_cmp` (std: `Less | Equal`). -/
def le (a b : ℚ) : Bool := cmp a b != .gt

/-- `<` derived from `partial_cmp`. -/
def lt (a b : ℚ) : Bool := cmp a b == .lt

/-- `src/approximating.rs:49-62` `partial_cmp` for `Approx<Option<T>>` with `T = f64`. -/
def cmpOption : Option ℚ → Option ℚ → Ordering
  | none, none => .eq
  | none, some _ => .lt
  | some _, none => .gt
  | some a, some b => cmp a b

/-- `src/approximating.rs:79-91` `eq` for `Approx<Option<T>>`. -/
def eqOption : Option ℚ → Option ℚ → Bool
  | none, none => true
  | none, some _ => false
  | some _, none => false
  | some a, some b => eq a b

/-- `src/approximating.rs:148-159` `eq` of slices: a fold over the zipped slices, i.e. only the
common prefix is compared. -/
def eqSlice (a b : List ℚ) : Bool := (a.zip b).foldl (fun acc p => acc && eq p.1 p.2) true

/-- `src/approximating.rs:105-117` `partial_cmp` of slices: compares all componentwise results with
the first; an empty zip gives `None`. -/
def partialCmpSlice (a b : List ℚ) : Option Ordering :=
  match (a.zip b).map (fun p => cmp p.1 p.2) with
  | [] => none
  | c :: cs => if cs.any (fun ci => c != ci) then none else some c

/-- `src/approximating.rs:119-131` `le` of slices: no component is greater. -/
def leSlice (a b : List ℚ) : Bool := (a.zip b).all (fun p => cmp p.1 p.2 != .gt)

/-- `src/approximating.rs:133-145` `ge` of slices: no component is less. -/
def geSlice (a b : List ℚ) : Bool := (a.zip b).all (fun p => cmp p.1 p.2 != .lt)

/-- A coordinate (`kissunits::geo::Coordinate`): latitude and longitude. -/
structure Coord where
  lat : ℚ
  lon : ℚ
deriving DecidableEq, Repr

/-- `src/approximating.rs:212-216` `eq` of coordinates. -/
def eqCoord (a b : Coord) : Bool := eq a.lat b.lat && eq a.lon b.lon

end Approx
end Verif
