import Verif.Fmi
import Verif.Dijkstra

/-!
# Reading and writing route-pairs

Model of `src/io/parsing/routing/routes.rs` and `src/io/writing/routing/random_or_all.rs`.
A file is the list of its lines. Opening files, invalid UTF-8 and paths containing line breaks are not modelled.
-/

namespace Verif.Routes

open Text
open Fmi (scan inRange mapR)

/-! ## Reading -/

/-- Why reading fails. -/
inductive RouteErr where
  | noCount
  | params
  | number
deriving DecidableEq, Repr

/-- `src/network/routes.rs:3-7` `RoutePair<i64>` together with how often it is used. -/
structure Route where
  src : Int
  dst : Int
  count : Nat
deriving DecidableEq, Repr

/-- `src/io/parsing/routing/routes.rs:105-133`: one line. -/
def readRoute (line : Text) : Res RouteErr Route :=
  match words line with
  | [a, b, c] =>
    match parseInt maxI64 a with
    | none => .err .number
    | some src =>
      match parseInt maxI64 b with
      | none => .err .number
      | some dst =>
        match parseNat maxUsize c with
        | none => .err .number
        | some count => .ok { src, dst, count }
  | _ => .err .params

/-- The most elements of 24 bytes (`(RoutePair<i64>, usize)`), that a vector may have: `isize::MAX` bytes. -/
def maxRoutes : Nat := (2 ^ 63 - 1) / 24

/-- `src/io/parsing/routing/routes.rs:23-140` `preprocess` and `parse_route_pairs`. The loop 40-58 is the one
of fmi-files. `Vec::with_capacity` (80) panics if the announced number of routes doesn't fit into memory that can
be addressed. Simplification: memory doesn't run out before. -/
def read (file : List Text) : Res RouteErr (List Route) :=
  let lines := file.filter isFunctional
  let (start, counts) := scan false [] 0 lines
  match counts.getLast? with
  | none => .err .noCount
  | some count =>
    if maxRoutes < count then .panic
    else mapR readRoute (inRange start (start + count) 0 lines)

/-! ## Writing -/

section
variable {K : Type} [LinearOrder K] [Zero K] [Add K]

/-- The variables of the loop: the numbers of successes and attempts of the progress-bar
(`progressing::bernoulli`: every `add` is an attempt, `add(true)` is a success), the set of processed pairs, the
router and the found pairs. -/
structure W (K : Type) where
  successes : Nat
  attempts : Nat
  processed : List (Nat × Nat)
  dij : Dij.St K
  found : List (Int × Int)

/-- What a writer is given: queue, arithmetic and fuel of the router, the graph, the routing-config, and
`src/io/writing/routing/random_or_all.rs:20-23` `max_count`. `draws` are the random pairs of every attempt, drawn
by `Uniform::from(0..n)`. -/
structure Env (K : Type) where
  heap : Dij.Heap K
  dotp : List ℚ → List ℚ → K
  fuel : Nat
  graph : Graph
  algo : Dij.Algo
  alphas : List ℚ
  maxCount : Nat
  draws : Nat → Nat × Nat

/-- `src/io/writing/routing/random_or_all.rs:50`. Simplification: the product doesn't overflow. -/
def Env.possible (e : Env K) : Nat := e.graph.nodeCount * e.graph.nodeCount

/-- `src/io/writing/routing/random_or_all.rs:51`. -/
def Env.goal (e : Env K) : Nat := min e.possible e.maxCount

/-- `src/io/writing/routing/random_or_all.rs:77-79`: the condition of the loop. -/
def Env.running (e : Env K) (w : W K) : Bool :=
  decide (w.successes < e.goal) && decide (w.attempts < e.possible)

/-- `src/io/writing/routing/random_or_all.rs:85-100`: the pair of an attempt. -/
def Env.pick (e : Env K) (attempts : Nat) : Nat × Nat :=
  if e.possible ≤ e.maxCount then (attempts / e.graph.nodeCount, attempts % e.graph.nodeCount)
  else e.draws attempts

/-- `src/io/writing/routing/random_or_all.rs:107-112`. -/
def Env.query (e : Env K) (p : Nat × Nat) : Dij.Query K :=
  { src := p.1, dst := p.2, graph := e.graph, algo := e.algo, alphas := e.alphas }

/-- `src/io/writing/routing/random_or_all.rs:120`: `add(false)`. -/
def W.failure (w : W K) : W K := { w with attempts := w.attempts + 1 }

/-- `src/io/writing/routing/random_or_all.rs:115-117`: `push` and `add(true)`. -/
def Env.success (e : Env K) (w : W K) (p : Nat × Nat) : Dij.R (W K) := do
  let src ← Dij.acc (e.graph.createNode p.1)
  let dst ← Dij.acc (e.graph.createNode p.2)
  pure { w with found := w.found ++ [(src.id, dst.id)], successes := w.successes + 1, attempts := w.attempts + 1 }

/-- `src/io/writing/routing/random_or_all.rs:102-121`: the body of the loop. -/
def Env.attempt (e : Env K) (w : W K) : Option (Dij.R (W K)) :=
  let p := e.pick w.attempts
  let known := decide (p ∈ w.processed)
  let w := { w with processed := if known then w.processed else p :: w.processed }
  if p.1 ≠ p.2 ∧ known = false then
    match Dij.computeBestPath e.heap e.dotp e.fuel w.dij (e.query p) with
    | none => none
    | some .panic => some .panic
    | some (.err x) => some (.err x)
    | some (.ok (dij, some _)) => some (e.success { w with dij } p)
    | some (.ok (dij, none)) => some (.ok { w with dij }.failure)
  else some (.ok w.failure)

/-- `src/io/writing/routing/random_or_all.rs:77-122`: the loop, `none` if the fuel isn't enough. -/
def Env.loop (e : Env K) : Nat → W K → Option (Dij.R (W K))
  | 0, w => if e.running w then none else some (.ok w)
  | n + 1, w =>
    if e.running w then
      match e.attempt w with
      | none => none
      | some .panic => some .panic
      | some (.err x) => some (.err x)
      | some (.ok w) => e.loop n w
    else some (.ok w)

/-- `Ord` of pairs of `i64`. -/
def pairLe (a b : Int × Int) : Bool := decide (a.1 < b.1) || (decide (a.1 = b.1) && decide (a.2 ≤ b.2))

/-- `src/io/writing/routing/random_or_all.rs:54-131`: the sorted pairs. `Uniform::from(0..0)` panics. -/
def Env.pairs (e : Env K) (fuel : Nat) : Option (Dij.R (List (Int × Int))) :=
  if e.graph.nodeCount = 0 then some .panic
  else (e.loop fuel { successes := 0, attempts := 0, processed := [], dij := Dij.St.new, found := [] }).map fun r => do
    let w ← r
    pure (stableSort pairLe w.found)

/-- `src/io/writing/routing/random_or_all.rs:153`: one line. -/
def routeLine (p : Int × Int) : Text := join ' ' [printInt p.1, printInt p.2, printNat 1]

/-- `src/io/writing/routing/random_or_all.rs:133-154`: the lines of the file. -/
def fileOf (mapFile : Text) (nodeCount edgeCount seed : Nat) (pairs : List (Int × Int)) : List Text :=
  ['#' :: (" graph-file: ".toList ++ mapFile), '#' :: (" node-count: ".toList ++ printNat nodeCount),
    '#' :: (" edge-count: ".toList ++ printNat edgeCount), [],
    '#' :: " route-count".toList, printNat pairs.length, [],
    '#' :: " random routes: (src-id dst-id count) as (i64, i64, usize)".toList,
    '#' :: (" seed: ".toList ++ printNat seed)] ++ pairs.map routeLine

/-- `src/io/writing/routing/random_or_all.rs:32-158` `Writer::write`. -/
def Env.write (e : Env K) (fuel : Nat) (mapFile : Text) (seed : Nat) : Option (Dij.R (List Text)) :=
  (e.pairs fuel).map fun r => do
    let pairs ← r
    pure (fileOf mapFile e.graph.nodeCount e.graph.edgeCount seed pairs)

end

end Verif.Routes
