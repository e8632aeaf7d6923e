import Verif.Path
import Verif.BalanceFloat

/-!
# Costs of paths with numbers of type `f64`

Model of `src/routing/paths.rs:73-134`, where every sum is rounded. `Path.lean` models the same lines with exact
numbers. `none` is an infinite number here. Simplification: metrics aren't negative, so sums are never NaN.
-/

namespace Verif.PathF

open Path (Err)

/-- An addition of type `f64`. What doesn't fit is infinite and remains infinite. -/
def plus : Option ℚ → ℚ → Option ℚ
  | some a, b => Over.op (a + b)
  | none, _ => none

/-- `src/helpers/mod.rs:11-13` `add`: componentwise, as long as the shorter vector. -/
def add : List (Option ℚ) → List ℚ → List (Option ℚ)
  | a :: as, b :: bs => plus a b :: add as bs
  | _, _ => []

/-- `src/helpers/mod.rs:15-17` `add_assign`: in place, a longer left side keeps its tail. -/
def addAssign : List (Option ℚ) → List ℚ → List (Option ℚ)
  | a :: as, b :: bs => plus a b :: addAssign as bs
  | as, _ => as

/-- `src/routing/paths.rs:14-21` `Path`. Simplification: without its nodes, which aren't used here. -/
structure FPath where
  edges : List Nat
  costs : Option (List (Option ℚ))
deriving DecidableEq, Repr

/-- The fold of `src/routing/paths.rs:77-83`; indexing the metrics panics for an unknown edge. -/
def sumMetrics (g : Graph) : List Nat → List (Option ℚ) → Res Err (List (Option ℚ))
  | [], acc => .ok acc
  | e :: es, acc => do
    let m ← .ofIdx g.metrics[e]?
    sumMetrics g es (add acc m)

/-- `src/routing/paths.rs:73-88` `calc_costs`. -/
def calcCosts (g : Graph) (p : FPath) : Res Err FPath :=
  match p.costs with
  | some _ => .ok p
  | none => do
    let c ← sumMetrics g p.edges (List.replicate g.dim (some 0))
    pure { p with costs := some c }

/-- `src/routing/paths.rs:103-130`, see `Path.flatGo`. -/
def flatGo (g : Graph) : Nat → Option Nat → List Nat → List Nat → List (Option ℚ) →
    Option (Res Err (List Nat × List (Option ℚ)))
  | 0, _, _, _, _ => none
  | _ + 1, none, [], out, costs => some (.ok (out, costs))
  | fuel + 1, none, e :: stack, out, costs => flatGo g fuel (some e) stack out costs
  | fuel + 1, some e, stack, out, costs =>
    match g.scEdgesOf e with
    | .ok (some (a, b)) =>
      if (b :: stack).length > g.edgeCount then some (.err .cycle)
      else flatGo g fuel (some a) (b :: stack) out costs
    | .ok none =>
      match g.metrics[e]? with
      | some m => flatGo g fuel none stack (out ++ [e]) (addAssign costs m)
      | none => some .panic
    | _ => some .panic

/-- `src/routing/paths.rs:91-134` `try_flatten`. -/
def tryFlatten (g : Graph) (fuel : Nat) (p : FPath) : Option (Res Err FPath) :=
  (flatGo g fuel none p.edges [] (List.replicate g.dim (some 0))).map fun r => do
    let (es, c) ← r
    pure { edges := es, costs := some c }

end Verif.PathF
