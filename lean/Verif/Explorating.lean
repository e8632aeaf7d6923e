import Verif.Dijkstra
import Verif.Approx
import Mathlib.Algebra.Order.Ring.Rat

/-!
# Model of `src/routing/explorating.rs`

The explorator looks for alternative routes. It asks the router for paths with several alphas and
registers their costs in a triangulation. The triangulation (crate `nd_triangulation`) and the solver
of linear systems (crate `nalgebra`) are arbitrary functions, see `Backend`. Costs are rationals, an
infinite tolerance is `none` and NaN is not modelled.
-/

namespace Verif.Exp

open Dij (R)

/-- Steps in a row. `none` means that more fuel is needed. -/
def andThen {α β : Type} (x : Option (R α)) (f : α → Option (R β)) : Option (R β) :=
  match x with
  | some (.ok a) => f a
  | some (.err e) => some (.err e)
  | some .panic => some .panic
  | none => none

/-- Calculating and reading costs never returns an error. -/
def pacc {α : Type} : Res Path.Err α → R α
  | .ok a => .ok a
  | _ => .panic

/-- A cell of `nd_triangulation`: its id and the ids of its vertices. -/
structure RawCell where
  id : Nat
  vertices : List Nat
deriving DecidableEq, Repr

/-- The parts of `nd_triangulation` and `nalgebra` that are used: `Triangulation::new`, `add_vertex` with
its `expect` (`src/routing/explorating.rs:551-566`), `convex_hull_cells` (191) and
`Matrix::from_rows(..).lu().solve(..)` (273). Nothing is assumed about them. -/
structure Backend where
  Tri : Type
  new : Nat → Tri
  addVertex : Tri → List ℚ → R (Nat × Tri)
  cells : Tri → List RawCell
  solve : List (List ℚ) → List ℚ → R (Option (List ℚ))

/-- `src/routing/explorating.rs:28-37` `Query`, without what is given to the router. -/
structure Query where
  dim : Nat
  triDim : Nat
  tolerances : List (Option ℚ)
  considered : List Bool
deriving DecidableEq, Repr

/-- `src/routing/explorating.rs:40-74` `Query::with`; `src/defaults.rs` `TOLERATED_SCALE_INF` is
infinity. -/
def Query.start (dim : Nat) (alphas : List ℚ) : Query :=
  let considered := alphas.map fun a => decide (0 < a)
  { dim, triDim := considered.count true, tolerances := List.replicate dim none, considered }

/-! ## The initial paths -/

/-- `src/routing/explorating.rs:382-386` `imc_mask`. -/
def imcMask (considered : List Bool) : Nat :=
  considered.reverse.foldl (fun acc d => 2 * acc + if d then 1 else 0) 0

/-- `src/routing/explorating.rs:390` `is_pow_of_2`, only called with positive masks. -/
def isPow2 (mask : Nat) : Bool := mask &&& (mask - 1) == 0

/-- `src/routing/explorating.rs:399-401`: the bits of a mask. -/
def alphasOf (dim mask : Nat) : List ℚ := (List.range dim).map fun i => ((mask >>> i &&& 1 : Nat) : ℚ)

/-- `src/routing/explorating.rs:395-412`: one mask. The state is `metric_idx` and `init_alphas`. -/
def initStep (imc dim : Nat) (st : Nat × List (Option Nat × List ℚ)) (mask : Nat) :
    Nat × List (Option Nat × List ℚ) :=
  if (imc ||| mask) ^^^ imc = 0 then
    if isPow2 mask then (st.1 + 1, st.2 ++ [(some st.1, alphasOf dim mask)])
    else (st.1, st.2 ++ [(none, alphasOf dim mask)])
  else if isPow2 mask then (st.1 + 1, st.2)
  else st

/-- `src/routing/explorating.rs:378-412`: `init_alphas`. Masks are `u32`, too large values panic (as in
a debug build). Simplification: `graph_dim as u32` is assumed not to cut off anything. -/
def initAlphas (q : Query) : R (List (Option Nat × List ℚ)) :=
  if 2 ^ 32 ≤ imcMask q.considered then .panic
  else if 32 ≤ q.dim then .panic
  else .ok ((List.range' 1 (2 ^ q.dim - 1)).foldl (initStep (imcMask q.considered) q.dim) (0, [])).2

/-- `src/routing/explorating.rs:433-441`: set the tolerance. `c` are the costs of the best path. -/
def setTolerance (scales : List (Option ℚ)) (q : Query) (metricIdx : Option Nat) (c : List ℚ) : R Query :=
  match metricIdx with
  | none => .ok q
  | some i => do
    let scale ← .ofIdx scales[i]?
    match scale with
    | none => do
      let t ← Dij.setIdx q.tolerances i none
      pure { q with tolerances := t }
    | some s => do
      let x ← .ofIdx c[i]?
      let t ← Dij.setIdx q.tolerances i (some (x * s))
      pure { q with tolerances := t }

/-- `src/routing/explorating.rs:443-446`: has a path with approximately these costs been found? -/
def anyEqual (c : List ℚ) : List Path → R Bool
  | [] => .ok false
  | p :: ps => do
    let d ← pacc p.getCosts
    if Approx.eqSlice d c then pure true else anyEqual c ps

/-- `src/routing/explorating.rs:427-451`: a path answered by the router. -/
def initFound (g : Graph) (scales : List (Option ℚ)) (mi : Option Nat) (q : Query) (found : List Path)
    (p : Path) : R (Query × List Path) := do
  let p ← pacc (p.calcCosts g)
  let c ← pacc p.getCosts
  let q ← setTolerance scales q mi c
  let dup ← anyEqual c found
  pure (q, if dup then found else found ++ [p])

/-- `src/routing/explorating.rs:415-453`: ask for the path of every initial alpha. `ask` is the router;
`S` is its state. -/
def exploreInit {S : Type} (ask : S → List ℚ → Option (R (S × Option Path))) (g : Graph)
    (scales : List (Option ℚ)) :
    List (Option Nat × List ℚ) → S → Query → List Path → Option (R (S × Query × List Path))
  | [], s, q, found => some (.ok (s, q, found))
  | (mi, alphas) :: rest, s, q, found =>
    andThen (ask s alphas) fun r =>
      match r.2 with
      | none => exploreInit ask g scales rest r.1 q found
      | some p => andThen (some (initFound g scales mi q found p)) fun x =>
        exploreInit ask g scales rest r.1 x.1 x.2

/-! ## The triangulation -/

/-- `src/routing/explorating.rs:120-124` `ConvexHullExplorator` and the triangulation. The `HashMap` is a
list of keys and values. -/
structure St (b : Backend) where
  tri : b.Tri
  found : List (Nat × Path)
  tolerated : List Nat
  visited : List Nat

/-- `HashMap::insert`. -/
def insertKey (k : Nat) (p : Path) (l : List (Nat × Path)) : List (Nat × Path) :=
  (k, p) :: l.filter fun x => x.1 ≠ k

/-- `HashMap::get`. -/
def lookup (k : Nat) (l : List (Nat × Path)) : Option Path := (l.find? fun x => x.1 = k).map (·.2)

/-- `src/routing/explorating.rs:555-564`: the costs of considered metrics. -/
def project : List Bool → List ℚ → R (List ℚ)
  | _, [] => .ok []
  | [], _ :: _ => .panic
  | d :: ds, x :: xs => do
    let ys ← project ds xs
    pure (if d then x :: ys else ys)

/-- `src/routing/explorating.rs:570` `Approx(costs) <= Approx(tolerances)`, `src/approximating.rs:119-131`,
`174-184`. Nothing is greater than infinity. -/
def tolerates (c : List ℚ) (tol : List (Option ℚ)) : Bool :=
  (c.zip tol).all fun x =>
    match x.2 with
    | none => true
    | some t => Approx.cmp x.1 t != .gt

/-- `src/routing/explorating.rs:551-575`: register one path. -/
def register (b : Backend) (q : Query) (st : St b) (p : Path) : R (St b) := do
  let c ← pacc p.getCosts
  let x ← project q.considered c
  let (id, tri) ← b.addVertex st.tri x
  let tolerated := if tolerates c q.tolerances then st.tolerated ++ [id] else st.tolerated
  pure { st with tri, tolerated, found := insertKey id p st.found }

/-- `src/routing/explorating.rs:534-584` `update`, which empties the list of new paths. Whether the
triangulation is dirty is whether this list was not empty (545). -/
def update (b : Backend) (q : Query) (st : St b) (new : List Path) : R (St b) :=
  new.foldlM (register b q) st

/-- `src/routing/explorating.rs:459-477` `cell_from`: the paths of a cell's vertices. -/
def cellFrom (found : List (Nat × Path)) : List Nat → R (List Path)
  | [] => .ok []
  | v :: vs => do
    let p ← .ofIdx (lookup v found)
    let ps ← cellFrom found vs
    pure (p :: ps)

/-- `src/routing/explorating.rs:227-231`: does any path undercut the tolerance of metric `i`? -/
def undercut (i : Nat) (t : Option ℚ) : List Path → R Bool
  | [] => .ok false
  | p :: ps => do
    let c ← pacc p.getCosts
    let x ← .ofIdx c[i]?
    if Dij.leInf x t then pure true else undercut i t ps

/-- `src/routing/explorating.rs:213-232`: is some tolerance undercut by no path of the cell? -/
def hopeless (cell : List Path) : Nat → List (Option ℚ) → R Bool
  | _, [] => .ok false
  | i, t :: ts => do
    let ok ← undercut i t cell
    if ok then hopeless cell (i + 1) ts else pure true

/-- `src/routing/explorating.rs:496-500`: a row for every vertex but the first. -/
def costRows (c0 : List ℚ) : List Path → R (List (List ℚ))
  | [] => .ok []
  | p :: ps => do
    let c ← pacc p.getCosts
    let rows ← costRows c0 ps
    pure (vsub c0 c :: rows)

/-- `src/routing/explorating.rs:502-514`: a row for every ignored metric. -/
def unitRows (dim : Nat) : Nat → List Bool → R (List (List ℚ))
  | _, [] => .ok []
  | i, d :: ds =>
    if d then unitRows dim (i + 1) ds
    else do
      let row ← Dij.setIdx (List.replicate dim 0) i 1
      let rows ← unitRows dim (i + 1) ds
      pure (row :: rows)

/-- `src/routing/explorating.rs:516-527`: complete the linear system if only one row is missing. The
subtraction panics if there are too many rows (as in a debug build). -/
def finishSystem (dim : Nat) (rows : List (List ℚ)) : R (Option (List (List ℚ) × List ℚ)) :=
  if dim < rows.length then .panic
  else
    let b := List.replicate rows.length 0
    if dim - rows.length = 0 then .ok (some (rows, b))
    else if dim - rows.length = 1 then .ok (some (rows ++ [List.replicate dim 1], b ++ [1]))
    else .ok none

/-- `src/routing/explorating.rs:479-532` `create_linear_system`. -/
def createSystem (q : Query) : List Path → R (Option (List (List ℚ) × List ℚ))
  | [] => .panic
  | p0 :: ps =>
    if ps.isEmpty then do
      let units ← unitRows q.dim 0 q.considered
      finishSystem q.dim units
    else do
      let c0 ← pacc p0.getCosts
      let rows ← costRows c0 ps
      let units ← unitRows q.dim 0 q.considered
      finishSystem q.dim (rows ++ units)

/-- The list of new paths together with the router. -/
abbrev Acc (S : Type) : Type := S × List Path

/-- `src/routing/explorating.rs:296-318`: a path answered by the router is new if it is cheaper than the
cell and no new path yet. -/
def judge (g : Graph) (cell : List Path) (alphas : List ℚ) (new : List Path) (p : Path) : R (List Path) := do
  let p ← pacc (p.calcCosts g)
  let c ← pacc p.getCosts
  let v ← .ofIdx cell[0]?
  let d ← pacc v.getCosts
  pure (if Approx.lt (dot alphas c) (dot alphas d) && !new.any (fun x => x.beq p) then new ++ [p] else new)

/-- `src/routing/explorating.rs:213-277`: the alphas for a cell, if there are any. -/
def cellAlphas (b : Backend) (q : Query) (cell : List Path) : R (Option (List ℚ)) := do
  let skip ← hopeless cell 0 q.tolerances
  if skip then pure none
  else do
    let sys ← createSystem q cell
    match sys with
    | none => pure none
    | some (rows, rhs) => b.solve rows rhs

section
variable {S : Type} (ask : S → List ℚ → Option (R (S × Option Path))) (g : Graph) (b : Backend)

/-- `src/routing/explorating.rs:204-321`: ask the router for the path of a cell. -/
def exploreCell (q : Query) (cell : List Path) (acc : Acc S) : Option (R (Acc S)) :=
  andThen (some (cellAlphas b q cell)) fun al =>
    match al with
    | none => some (.ok acc)
    | some alphas => andThen (ask acc.1 alphas) fun r =>
      match r.2 with
      | none => some (.ok (r.1, acc.2))
      | some p => andThen (some (judge g cell alphas acc.2 p)) fun new => some (.ok (r.1, new))

/-- `src/routing/explorating.rs:191-322`: all cells of the convex hull. -/
def exploreCells (q : Query) : List RawCell → St b → Acc S → Option (R (St b × Acc S))
  | [], st, acc => some (.ok (st, acc))
  | raw :: cells, st, acc =>
    if raw.id ∈ st.visited then exploreCells q cells st acc
    else andThen (some (cellFrom st.found raw.vertices)) fun cell =>
      andThen (exploreCell ask g b q cell acc) fun acc =>
        exploreCells q cells { st with visited := raw.id :: st.visited } acc

/-- `src/routing/explorating.rs:189-330`: the while-loop, which need not terminate. -/
def exploreLoop (q : Query) : Nat → Bool → St b → S → Option (R (St b × S))
  | 0, _, _, _ => none
  | fuel + 1, dirty, st, s =>
    if dirty then
      andThen (exploreCells ask g b q (b.cells st.tri) st (s, [])) fun r =>
        andThen (some (update b q r.1 r.2.2)) fun st =>
          exploreLoop q fuel (!r.2.2.isEmpty) st r.2.1
    else some (.ok (st, s))

/-- `src/routing/explorating.rs:345-353`: take the tolerated paths out of the found ones. -/
def collect : List Nat → List (Nat × Path) → R (List Path)
  | [], _ => .ok []
  | k :: ks, found => do
    let p ← .ofIdx (lookup k found)
    let ps ← collect ks (found.filter fun x => x.1 ≠ k)
    pure (p :: ps)

/-- `src/routing/explorating.rs:140-353` `fully_explorate`: the router and the paths. `alphas` and
`scales` are the routing-config's. What the explorator remembers is cleared at the beginning, so there
is no old state. Warnings (149-156, 334-343) are left out; they look up the ids of source and
destination, which the router does as well. -/
def explorate (fuel : Nat) (alphas : List ℚ) (scales : List (Option ℚ)) (s : S) :
    Option (R (S × List Path)) :=
  let q := Query.start g.dim alphas
  andThen (some (initAlphas q)) fun init =>
    andThen (exploreInit ask g scales init s q []) fun r =>
      let q := r.2.1
      let st : St b := { tri := b.new q.triDim, found := [], tolerated := [], visited := [] }
      andThen (some (update b q st r.2.2)) fun st =>
        andThen (if 1 < q.triDim ∧ q.triDim < st.found.length then
            exploreLoop ask g b q fuel (!r.2.2.isEmpty) st r.1
          else some (.ok (st, r.1))) fun x =>
          andThen (some (collect x.1.tolerated x.1.found)) fun ps => some (.ok (x.2, ps))

end

/-- `src/routing/explorating.rs:140-366` `fully_explorate` with the router of `src/routing/dijkstra.rs`;
`algo` is the algorithm of the routing-config. -/
def fullyExplorate {K : Type} [LinearOrder K] [Zero K] [Add K] (h : Dij.Heap K)
    (dotp : List ℚ → List ℚ → K) (b : Backend) (fuel : Nat) (s : Dij.St K) (q : Dij.Query K)
    (scales : List (Option ℚ)) : Option (R (Dij.St K × List Path)) :=
  explorate (fun s al => Dij.computeBestPath h dotp fuel s { q with alphas := al }) q.graph b fuel
    q.alphas scales s

end Verif.Exp
