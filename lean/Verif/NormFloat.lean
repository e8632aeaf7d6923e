import Verif.Generating
import Verif.BalanceFloat

/-!
# Normalizing metrics with numbers of type `f64`

Model of `src/network/graph/building.rs:1397-1455`, where every operation is rounded. `Generating.lean` models the same
lines with exact numbers.
-/

namespace Verif.NormF

open Cfg Gen
open BalF (Fault num)

/-- `src/helpers/mod.rs:11-13` `add`. -/
def addVec : List ℚ → List ℚ → Res Fault (List ℚ)
  | a :: as, b :: bs => do
    let x ← num (a + b)
    let xs ← addVec as bs
    pure (x :: xs)
  | _, _ => .ok []

/-- `src/network/graph/building.rs:1414-1419`: the sums of all metrics, beginning with `acc`. -/
def sums : List ℚ → List (List ℚ) → Res Fault (List ℚ)
  | acc, [] => .ok acc
  | acc, m :: ms => do sums (← addVec acc m) ms

/-- `src/network/graph/building.rs:1420-1421`. `n` is rounded by `as f64`. -/
def divideSums (n : ℚ) : List ℚ → Res Fault (List ℚ)
  | [] => .ok []
  | s :: ss => do
    let x ← num (s / n)
    let xs ← divideSums n ss
    pure (x :: xs)

/-- `src/network/graph/building.rs:1410-1422`: the means of all metrics. -/
def meansOf (dim : Nat) (ms : List (List ℚ)) (n : Nat) : Res Fault (List ℚ) := do
  divideSums (Fp.f64.rnd n) (← sums (List.replicate dim 0) ms)

/-- `src/network/graph/building.rs:1446-1448`. -/
def lift (y : ℚ) : ℚ := if Over.eq y 0 then Fp.eps Fp.f64 else y

/-- `src/network/graph/building.rs:1441-1449`: the metrics of one edge from index `i` on. -/
def divide (means : List ℚ) : Nat → List ℚ → Res Fault (List ℚ)
  | _, [] => .ok []
  | i, x :: m => do
    let mean ← .ofIdx means[i]?
    let y ← num (x / mean)
    let rest ← divide means (i + 1) m
    pure (lift y :: rest)

/-- `src/network/graph/building.rs:1440-1450`: all edges. -/
def divideAll (means : List ℚ) : List (List ℚ) → Res Fault (List (List ℚ))
  | [] => .ok []
  | m :: ms => do
    let m' ← divide means 0 m
    let ms' ← divideAll means ms
    pure (m' :: ms')

/-- `src/network/graph/building.rs:1397-1455`. There is no result if a number isn't finite. Simplification: after a
result that is infinite or no number, the program goes on, but this isn't modelled. -/
def normalize (s : Net) : Option (R Net) :=
  if s.edges.normalized then
    let n := s.graph.edgeCount
    if n = 0 then some (.err .noEdges)
    else match meansOf s.edges.units.length s.graph.metrics n with
      | .err _ => none
      | .panic => some .panic
      | .ok means =>
        if means.any fun mean => Over.eq mean 0 then some (.err .zeroMean)
        else match divideAll means s.graph.metrics with
          | .err _ => none
          | .panic => some .panic
          | .ok ms => some (.ok { s with graph := { s.graph with metrics := ms, means := some means } })
  else some (.ok s)

/-- `src/io/writing/network/mod.rs:175-185`: the number that is written for metric `k` of edge `e`, multiplied by the
mean if wished. -/
def written (s : Net) (denormalize : Bool) (e k : Nat) : Res Fault ℚ := do
  let m ← .ofIdx s.graph.metrics[e]?
  let x ← .ofIdx m[k]?
  match denormalize, s.graph.means with
  | true, some means => do
    let mean ← .ofIdx means[k]?
    num (x * mean)
  | _, _ => .ok x

end Verif.NormF
