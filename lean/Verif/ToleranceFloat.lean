import Verif.PathFloat
import Verif.Special

/-!
# Tolerances of the explorator with numbers of type `f64`

Model of `src/routing/explorating.rs:432-441` and `570`, where products and comparisons are rounded. `Explorating.lean`
models the same lines with exact numbers. Costs are those of `PathFloat.lean`, where `none` is an infinite number.
-/

namespace Verif.TolF

open Special (Num)

/-- A product of two finite numbers. What doesn't fit is infinite. -/
def times (a b : ℚ) : Num ℚ :=
  match Over.op (a * b) with
  | some x => .fin x
  | none => if a * b < 0 then .neg else .inf

/-- `src/routing/explorating.rs:433-440`: the tolerance for a metric. `scale` is this metric's tolerated scale (`none` is
`f64::INFINITY`), `cost` the cost of the path that is best for this metric. An infinite cost times zero is undefined. -/
def tolerance (scale cost : Option ℚ) : Num ℚ :=
  match scale, cost with
  | none, _ => .inf
  | some s, some c => times c s
  | some s, none => if s = 0 then .nan else if s < 0 then .neg else .inf

/-- `src/approximating.rs:174-184,195-199`: is `Approx(cost).partial_cmp(&Approx(tolerance))` equal to
`Some(Ordering::Greater)`? A difference with an infinite number is infinite or undefined, so it isn't small. Nothing can
be compared with an undefined number. -/
def greater : Option ℚ → Num ℚ → Bool
  | some a, .fin b => !Over.eq a b && decide (b < a)
  | some _, .inf => false
  | some _, .neg => true
  | none, .fin _ => true
  | none, .inf => false
  | none, .neg => true
  | _, .nan => false

/-- `src/routing/explorating.rs:570` `Approx(path.costs()) <= Approx(&query.tolerances)`,
`src/approximating.rs:119-131`. -/
def tolerates (costs : List (Option ℚ)) (tolerances : List (Num ℚ)) : Bool :=
  (costs.zip tolerances).all fun x => !greater x.1 x.2

end Verif.TolF
