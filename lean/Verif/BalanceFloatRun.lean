import Verif.BalanceFloat

/-!
# Several updates of the balanced metric with numbers of type `f64`
-/

namespace Verif.BalF

open Gen

/-- The updates of several iterations (`src/bin/osmgraphing/balancing/mod.rs:35-72`), one after the other.
Simplification: only the updates, as in `Bal.updates`. There is no result if a number isn't finite. -/
def updates (cfg : Bal.Config) : Nat → List (List Nat) → Net → Option (Res Bal.Err Bal.Done × Net)
  | _, [], s => some (.ok .finished, s)
  | i, w :: ws, s =>
    match update i w s cfg with
    | some (.ok .finished, s) => updates cfg (i + 1) ws s
    | r => r

end Verif.BalF
