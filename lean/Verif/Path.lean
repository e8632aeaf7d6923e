import Verif.Graph

/-!
# Model of `src/routing/paths.rs` and the vector helpers of `src/helpers/mod.rs`
-/

namespace Verif

/-- `src/helpers/mod.rs:11-13` `add`: componentwise, as long as the shorter vector. -/
def vadd : List ℚ → List ℚ → List ℚ
  | a :: as, b :: bs => (a + b) :: vadd as bs
  | _, _ => []

/-- `src/helpers/mod.rs:15-17` `add_assign`: in place, a longer left side keeps its tail. -/
def vaddAssign : List ℚ → List ℚ → List ℚ
  | a :: as, b :: bs => (a + b) :: vaddAssign as bs
  | as, _ => as

/-- `src/helpers/mod.rs:19-21` `sub`. -/
def vsub : List ℚ → List ℚ → List ℚ
  | a :: as, b :: bs => (a - b) :: vsub as bs
  | _, _ => []

/-- `src/helpers/mod.rs:23-27` `dot_product`: a left fold over the zipped vectors, starting with 0. -/
def dot (a b : List ℚ) : ℚ := (a.zip b).foldl (fun s p => s + p.1 * p.2) 0

/-- `src/helpers/mod.rs:29-33` `le`. -/
def vle (a b : List ℚ) : Bool := (a.zip b).foldl (fun s p => s && decide (p.1 ≤ p.2)) true

/-- `src/routing/paths.rs:14-21` `Path`. -/
structure Path where
  srcIdx : Nat
  srcId : Int
  dstIdx : Nat
  dstId : Int
  edges : List Nat
  costs : Option (List ℚ)
deriving DecidableEq, Repr

namespace Path

/-- `src/routing/paths.rs:40-55` `Path::new`. -/
def new (srcIdx : Nat) (srcId : Int) (dstIdx : Nat) (dstId : Int) (edges : List Nat) : Path :=
  { srcIdx, srcId, dstIdx, dstId, edges, costs := none }

/-- Errors of flattening. -/
inductive Err where
  | cycle
deriving DecidableEq, Repr

/-- `src/routing/paths.rs:66-70` `costs`: panics if they have not been calculated. -/
def getCosts (p : Path) : Res Err (List ℚ) := .ofIdx p.costs

/-- The fold of `src/routing/paths.rs:77-83`; indexing the metrics panics for an unknown edge. -/
def sumMetrics (g : Graph) : List Nat → List ℚ → Res Err (List ℚ)
  | [], acc => .ok acc
  | e :: es, acc => do
    let m ← .ofIdx g.metrics[e]?
    sumMetrics g es (vadd acc m)

/-- `src/routing/paths.rs:73-88` `calc_costs`: the path with its costs, which are only calculated if
there are none. -/
def calcCosts (g : Graph) (p : Path) : Res Err Path :=
  match p.costs with
  | some _ => .ok p
  | none => do
    let c ← sumMetrics g p.edges (List.replicate g.dim 0)
    pure { p with costs := some c }

/-- `src/routing/paths.rs:103-130`, the two nested loops as one machine. The stack `old_edges` is
given with its top first (`old_edges.reverse()` makes the first edge the top). `cur` is `edge_idx`
while the inner loop runs and `none` while the outer loop is about to pop. The loops need not
terminate, so `fuel` bounds the steps and `none` means that more fuel is needed. -/
def flatGo (g : Graph) : Nat → Option Nat → List Nat → List Nat → List ℚ →
    Option (Res Err (List Nat × List ℚ))
  | 0, _, _, _, _ => none
  | _ + 1, none, [], out, costs => some (.ok (out, costs))
  | fuel + 1, none, e :: stack, out, costs => flatGo g fuel (some e) stack out costs
  | fuel + 1, some e, stack, out, costs =>
    match g.scEdgesOf e with
    | .ok (some (a, b)) =>
      if (b :: stack).length > g.edgeCount then some (.err .cycle)
      else flatGo g fuel (some a) (b :: stack) out costs
    | .ok none =>
      match g.metrics[e]? with
      | some m => flatGo g fuel none stack (out ++ [e]) (vaddAssign costs m)
      | none => some .panic
    | _ => some .panic

/-- `src/routing/paths.rs:91-134` `try_flatten`. -/
def tryFlatten (g : Graph) (fuel : Nat) (p : Path) : Option (Res Err Path) :=
  (flatGo g fuel none p.edges [] (List.replicate g.dim 0)).map fun r => do
    let (es, c) ← r
    pure { p with edges := es, costs := some c }

/-- `src/routing/paths.rs:136-141` `flatten`: an error becomes a panic. -/
def flatten (g : Graph) (fuel : Nat) (p : Path) : Option (Res Err Path) :=
  (tryFlatten g fuel p).map fun r =>
    match r with
    | .err _ => .panic
    | r => r

/-- `src/routing/paths.rs:146-156` `PartialEq`: ids and edges, neither indices nor costs. -/
def beq (p q : Path) : Bool :=
  decide (p.srcId = q.srcId) && decide (p.dstId = q.dstId) && decide (p.edges = q.edges)

end Path
end Verif
