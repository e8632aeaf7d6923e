import Verif.Visual

/-!
# Model: the data of the visualizer's figures

`scripts/balancing/visualizer/visualizing/__init__.py`, `plotting.py` and `model.py`. A failure (an exception of Python)
is `none`. Colours, axes and texts are not modelled, nor is what matplotlib makes of the data, except that it refuses a
histogram without bins.
-/

namespace Verif.Vis

/-- `scripts/balancing/visualizer/visualizing/model.py:184-212`: longitude, latitude and value of every street, sorted
by value. -/
def sortedRows {α : Type} (le : α → α → Bool) (streets : List Street) (values : List α) : List (ℚ × ℚ × α) :=
  stableSort (fun a b => le a.2.2 b.2.2) (List.zipWith (fun s v => (s.lon, s.lat, v)) streets values)

/-- `scripts/balancing/visualizer/visualizing/model.py:184-192` `sorted_lon_lat_workloads`. -/
def workloadRows (d : Data) : List (ℚ × ℚ × Nat) := sortedRows (fun a b => decide (a ≤ b)) d.streets d.workloads

/-- `scripts/balancing/visualizer/visualizing/model.py:194-202` `sorted_lon_lat_deltas`. -/
def deltaRows (d : Data) : List (ℚ × ℚ × Int) := sortedRows (fun a b => decide (a ≤ b)) d.streets d.deltas

/-- `scripts/balancing/visualizer/visualizing/model.py:204-212` `abs_sorted_lon_lat_deltas`. -/
def absDeltaRows (d : Data) : List (ℚ × ℚ × Int) :=
  sortedRows (fun a b => decide (a.natAbs ≤ b.natAbs)) d.streets d.deltas

/-- numpy's `[:, 2]`, which fails for an array without rows (`plotting.py:115`). -/
def values {α : Type} : List (ℚ × ℚ × α) → Option (List α)
  | [] => none
  | rows => some (rows.map fun r => r.2.2)

/-- `scripts/balancing/visualizer/visualizing/plotting.py:113-145`: the line of an iteration. Its last value is asked
for. -/
def line (d : Data) : Option (List Nat) := do
  let l ← values (workloadRows d)
  let used := l.filter fun w => decide (0 < w)
  let _ ← used.getLast?
  pure used

/-- `scripts/balancing/visualizer/visualizing/plotting.py:182-197`: the box of an iteration. -/
def box (d : Data) : List Nat := d.workloads.filter fun w => decide (0 < w)

/-- numpy's `min` and `max` (`model.py:57-61,70-74`), which refuse empty lists. -/
def leastInt : List Int → Option Int
  | [] => none
  | n :: l => some (l.foldl min n)

@[inherit_doc leastInt]
def greatestInt : List Int → Option Int
  | [] => none
  | n :: l => some (l.foldl max n)

@[inherit_doc leastInt]
def minimum : List Nat → Option Nat
  | [] => none
  | n :: l => some (l.foldl min n)

/-- `scripts/balancing/visualizer/visualizing/plotting.py:248-253`: the largest workload of an iteration, and the
largest and smallest difference, but not in the first iteration. -/
def extremes (d : Data) : Option (Nat × Option (Int × Int)) := do
  let m ← maximum d.workloads
  if 0 < d.iteration then do
    let hi ← greatestInt d.deltas
    let lo ← leastInt d.deltas
    pure (m, some (hi, lo))
  else pure (m, none)

/-- `scripts/balancing/visualizer/visualizing/plotting.py:318-323`: the number of used streets. -/
def unique (d : Data) : Nat := d.workloads.countP fun w => decide (w ≠ 0)

/-- `scripts/balancing/visualizer/visualizing/plotting.py:449-456,617-624`: the value at a given percentage.
Simplification: Python multiplies floating-point-numbers. -/
def quantile {α : Type} (percent : Nat) (rows : List (ℚ × ℚ × α)) : Option α :=
  rows[percent * rows.length / 100]?.map fun r => r.2.2

/-- `scripts/balancing/visualizer/visualizing/plotting.py:446-485`: the boundaries between colours. -/
def boundaries (d : Data) (globalMax : Nat) : Option (List Nat) := do
  let low ← quantile 0 (workloadRows d)
  let high ← quantile 95 (workloadRows d)
  pure ((if 0 < low then [0] else []) ++ [low, high] ++ (if high < globalMax then [globalMax] else []))

/-- `scripts/balancing/visualizer/visualizing/plotting.py:614-653`. -/
def deltaBoundaries (d : Data) : Option (List Int) := do
  let low ← quantile 5 (deltaRows d)
  let high ← quantile 95 (deltaRows d)
  let lo ← leastInt d.deltas
  let hi ← greatestInt d.deltas
  pure [lo, low, high, hi]

/-- `scripts/balancing/visualizer/visualizing/plotting.py:728-735`: the number of bins of the histogram. Matplotlib (that
is, numpy) refuses zero. -/
def bins (d : Data) : Option Nat := do
  let hi ← maximum d.workloads
  let lo ← minimum d.workloads
  if hi - lo = 0 then none else some (hi - lo)

/-- Python's `int` of a number rounds towards zero (`plotting.py:808`). -/
def truncate (x : ℚ) : Int := if x < 0 then ⌈x⌉ else ⌊x⌋

/-- `scripts/balancing/visualizer/visualizing/plotting.py:779-785`: lane-counts and workloads of used streets, sorted by
lane-count. -/
def lanePairs (d : Data) : List (ℚ × Nat) :=
  stableSort (fun a b => decide (a.1 ≤ b.1))
    (((d.streets.map Street.lanes).zip d.workloads).filter fun p => decide (0 < p.2))

/-- `scripts/balancing/visualizer/visualizing/plotting.py:787-791`: the loop over the pairs from index `i` on, where
`prev` is the lane-count before. -/
def breaks : Nat → ℚ → List (ℚ × Nat) → List Nat
  | _, _, [] => []
  | i, prev, p :: rest => if prev ≠ p.1 then i :: breaks (i + 1) p.1 rest else breaks (i + 1) p.1 rest

/-- `scripts/balancing/visualizer/visualizing/plotting.py:786-791`. -/
def splitIndices : List (ℚ × Nat) → List Nat
  | [] => []
  | p :: rest => breaks 1 p.1 rest

/-- `scripts/balancing/visualizer/visualizing/plotting.py:792-798`: from every index to the next one. -/
def slices {α : Type} (l : List α) (idx : List Nat) : List (List α) :=
  List.zipWith (fun i j => (l.take j).drop i) (0 :: idx) (idx ++ [l.length])

/-- `scripts/balancing/visualizer/visualizing/plotting.py:778-815`: boxes, each with its position. -/
def laneBoxes (d : Data) : Option (List (Int × List Nat)) :=
  (slices (lanePairs d) (splitIndices (lanePairs d))).mapM fun vec => do
    let first ← vec.head?
    pure (truncate first.1, vec.map Prod.snd)

/-- The figures about all iterations. -/
structure Overview where
  lines : List (List Nat)
  boxes : List (List Nat)
  extremes : List (Nat × Option (Int × Int))
  unique : List Nat
deriving DecidableEq, Repr

/-- The figures of an iteration. -/
structure Figures where
  workloads : List (ℚ × ℚ × Nat)
  boundaries : List Nat
  deltas : Option (List (ℚ × ℚ × Int) × List Int)
  bins : Nat
  lanes : List (Int × List Nat)
deriving DecidableEq, Repr

/-- `scripts/balancing/visualizer/visualizing/plotting.py:536-578` with `helpers.py:7-18`: the dark style's norm fails if
0 is not between the smallest and the largest difference. Matplotlib's own norm of the light style is not modelled; it
is assumed not to fail. -/
def centred (dark : Bool) (d : Data) : Option Unit := do
  let lo ← leastInt d.deltas
  let hi ← greatestInt d.deltas
  if dark && (decide (0 < lo) || decide (hi < 0)) then none else some ()

/-- `scripts/balancing/visualizer/visualizing/__init__.py:48-52`: not in the first iteration. -/
def deltaFigure (dark : Bool) (d : Data) : Option (Option (List (ℚ × ℚ × Int) × List Int)) :=
  if 0 < d.iteration then do
    let _ ← centred dark d
    let b ← deltaBoundaries d
    pure (some (absDeltaRows d, b))
  else some none

/-- `scripts/balancing/visualizer/visualizing/__init__.py:44-56`. -/
def figures (dark : Bool) (globalMax : Nat) (d : Data) : Option Figures := do
  let boundaries ← boundaries d globalMax
  let deltas ← deltaFigure dark d
  let bins ← bins d
  let lanes ← laneBoxes d
  pure { workloads := workloadRows d, boundaries, deltas, bins, lanes }

/-- `scripts/balancing/visualizer/visualizing/model.py:17-30`: without iterations, there is no largest workload, but
nobody asks for it. -/
def globalMax (float : Text → Option ℚ) (results : Results) : Nat → Option Nat
  | 0 => some 0
  | n + 1 => maxUpTo float results n

/-- `scripts/balancing/visualizer/visualizing/__init__.py:21-61` `run`, in the dark or the light style
(`plotting.py`, `__main__.py:21-29,50-53`). Simplification: every overview reads the files
on its own, here they are read once. -/
def run (dark : Bool) (float : Text → Option ℚ) (results : Results) : Option (Overview × List Figures) := do
  let m ← globalMax float results results.length
  let ds ← (List.range results.length).mapM (dataAt float results)
  let lines ← ds.mapM line
  let extremes ← ds.mapM extremes
  let figs ← ds.mapM (figures dark m)
  pure ({ lines, boxes := ds.map box, extremes, unique := ds.map unique }, figs)

end Verif.Vis
