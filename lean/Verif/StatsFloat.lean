import Verif.Parallel
import Verif.BalanceFloat

/-!
# Mean and variance of found paths with numbers of type `f64`

Model of `src/bin/osmgraphing/balancing/multithreading.rs:85-118`, where every operation is rounded. `Parallel.lean`
models the same lines with exact numbers. As in `BalanceFloat.lean`, there is no result (`notFinite`) if an operation
doesn't yield a finite number.
-/

namespace Verif.StatsF

open Par (Outcome)
open BalF (Fault num sumFrom)

/-- A counter `as f64`. -/
def toF (n : Nat) : ℚ := Fp.f64.rnd n

/-- `src/bin/osmgraphing/balancing/multithreading.rs:95-102`: the new mean; `n` is the progress. -/
def newMean (n : Nat) (found : List Nat) (mean : ℚ) : Res Fault ℚ := do
  let s ← sumFrom 0 (found.map toF)
  let p ← num (toF found.length * mean)
  let d ← num (s - p)
  let q ← num (d / toF n)
  num (mean + q)

/-- `src/bin/osmgraphing/balancing/multithreading.rs:108-112`: the products, one after the other. Simplification: the code
adds each product before it calculates the next one, which yields the same. -/
def products (mean new : ℚ) : List Nat → Res Fault (List ℚ)
  | [] => .ok []
  | x :: xs => do
    let a ← num (toF x - mean)
    let b ← num (toF x - new)
    let c ← num (a * b)
    let cs ← products mean new xs
    pure (c :: cs)

/-- `src/bin/osmgraphing/balancing/multithreading.rs:105-113`: the new variance. -/
def newVar (n : Nat) (found : List Nat) (mean new var : ℚ) : Res Fault ℚ := do
  let a ← num (toF n - toF found.length)
  let b ← num (a / toF n)
  let c ← num (var * b)
  let ps ← products mean new found
  let s ← sumFrom 0 ps
  let q ← num (s / toF n)
  num (c + q)

/-- `src/bin/osmgraphing/balancing/multithreading.rs:85-118`: mean and variance after an outcome; `n` is the progress
including this outcome. Without progress, the code divides by zero. -/
def updateStats (n : Nat) (found : List Nat) (st : ℚ × ℚ) : Res Fault (ℚ × ℚ) :=
  if found.length > 0 then
    if n = 0 then .err .notFinite
    else do
      let new ← newMean n found st.1
      let var ← newVar n found st.1 new st.2
      pure (new, var)
  else .ok st

/-- `src/bin/osmgraphing/balancing/multithreading.rs:58-59,63-118`: mean, variance and progress after the outcomes, the
newest one first. -/
def stats : List Outcome → Res Fault ((ℚ × ℚ) × Nat)
  | [] => .ok ((0, 0), 0)
  | o :: os => do
    let r ← stats os
    let st ← updateStats (r.2 + o.pairs) o.found r.1
    pure (st, r.2 + o.pairs)

end Verif.StatsF
