import Verif.Fmi
import Verif.Sort
import Verif.Tool

/-!
# Model: what the visualizer reads

`scripts/balancing/visualizer/visualizing/model.py` and `simulating.py`. The scripts' `float` is a parameter; their
`int` is modelled for digits. A failure (an exception of Python) is `none`. Files are lists of lines. Figures are not
modelled.
-/

namespace Verif.Vis

open Text

/-- Python's `csv.reader` with delimiter `' '` for one line, used in
`scripts/balancing/visualizer/visualizing/model.py:251,295`. Simplification: quotation marks aren't special. -/
def cells : Text → List Text
  | [] => [[]]
  | ch :: t =>
    if ch = ' ' then [] :: cells t
    else match cells t with
      | [] => [[ch]]
      | w :: ws => (ch :: w) :: ws

/-- A row of Python's `csv.DictReader`: `dict(zip(fieldnames, row))`, so the last column with a name counts. Asking for
a missing name is an error. -/
def field (names row : List Text) (name : Text) : Option Text :=
  ((names.zip row).reverse.find? fun p => decide (p.1 = name)).map Prod.snd

/-- Python's `csv.DictReader`, as used in `scripts/balancing/visualizer/visualizing/model.py:251-256,295-296`: the
first line contains the names, empty lines are skipped, and every other line is a row. -/
def readRows {α : Type} (row : (Text → Option Text) → Option α) : List Text → Option (List α)
  | [] => some []
  | names :: lines => (lines.filter fun line => decide (line ≠ [])).mapM fun line => row (field (cells names) (cells line))

/-- `scripts/balancing/visualizer/visualizing/model.py:265-271`: what is known about a street. -/
structure Street where
  id : Nat
  lat : ℚ
  lon : ℚ
  kilometers : ℚ
  lanes : ℚ
deriving DecidableEq, Repr

/-- `scripts/balancing/visualizer/visualizing/model.py:256-271`. Simplifications: `int` is for digits, and the scripts'
numbers are exact. -/
def street (float : Text → Option ℚ) (row : Text → Option Text) : Option Street := do
  let id ← (← row "edge-id".toList) |> digits?
  let srcLat ← (← row "src-lat".toList) |> float
  let srcLon ← (← row "src-lon".toList) |> float
  let dstLat ← (← row "dst-lat".toList) |> float
  let dstLon ← (← row "dst-lon".toList) |> float
  let kilometers ← (← row "kilometers".toList) |> float
  let lanes ← (← row "lane-count".toList) |> float
  pure { id, lat := (srcLat + dstLat) / 2, lon := (srcLon + dstLon) / 2, kilometers, lanes }

/-- `scripts/balancing/visualizer/visualizing/model.py:245-283` `read_in_edge_info`: sorted by id. Python's sort is
stable. -/
def readStreets (float : Text → Option ℚ) (file : List Text) : Option (List Street) :=
  (readRows (street float) file).map (stableSort fun a b => decide (a.id ≤ b.id))

/-- `scripts/balancing/visualizer/visualizing/model.py:296-300`. -/
def workload (row : Text → Option Text) : Option (Nat × Nat) := do
  let id ← (← row "edge-id".toList) |> digits?
  let n ← (← row "num_routes".toList) |> digits?
  pure (id, n)

/-- `scripts/balancing/visualizer/visualizing/model.py:285-308` `read_in_workloads`: sorted by id, then only the
workloads are kept. -/
def readWorkloads (file : List Text) : Option (List Nat) :=
  (readRows workload file).map fun l => (stableSort (fun a b => decide (a.1 ≤ b.1)) l).map Prod.snd

/-- `scripts/balancing/visualizer/visualizing/model.py:94-104` `Data`. Simplification: Python's lists `lats`, `lons`,
`kilometers` and `lane_counts`, which are filled together, are one list. -/
structure Data where
  iteration : Nat
  streets : List Street
  old : List Nat
  workloads : List Nat
deriving DecidableEq, Repr

/-- A directory of results (`scripts/balancing/visualizer/visualizing/simulating.py:9-15`): the directories `0`, `1`, …
exist up to some number. In each, there are the files `stats/edges-info.csv` and `stats/abs_workloads.csv`
(`model.py:126-134`), maybe. -/
abbrev Results := List (Option (List Text) × Option (List Text))

/-- `scripts/balancing/visualizer/visualizing/model.py:106-124` `prepare_new_iteration` of new data: the first
iteration. -/
def first (float : Text → Option ℚ) (results : Results) : Option Data := do
  let (info, loads) ← results[0]?
  let streets ← readStreets float (← info)
  let workloads ← readWorkloads (← loads)
  pure { iteration := 0, streets, old := [], workloads }

/-- `scripts/balancing/visualizer/visualizing/model.py:106-124` `prepare_new_iteration`: the next iteration. The
streets are kept. -/
def next (results : Results) (d : Data) : Option Data := do
  let (_, loads) ← results[d.iteration + 1]?
  let workloads ← readWorkloads (← loads)
  pure { d with iteration := d.iteration + 1, old := d.workloads, workloads }

/-- `scripts/balancing/visualizer/visualizing/__init__.py:35-37`, `model.py:21-23`: the data of iteration `i`, after all iterations before
have been prepared. -/
def dataAt (float : Text → Option ℚ) (results : Results) : Nat → Option Data
  | 0 => first float results
  | i + 1 => (dataAt float results i).bind (next results)

/-- `scripts/balancing/visualizer/visualizing/model.py:215-221` `delta_workloads`. -/
def Data.deltas (d : Data) : List Int := List.zipWith (fun (new old : Nat) => (new : Int) - (old : Int)) d.workloads d.old

/-- `scripts/balancing/visualizer/visualizing/model.py:70-74` `max`: numpy refuses empty lists. -/
def maximum : List Nat → Option Nat
  | [] => none
  | n :: l => some (l.foldl max n)

/-- `scripts/balancing/visualizer/visualizing/model.py:17-30` `GlobalData.fill`: the largest workload of the iterations
up to number `i`. -/
def maxUpTo (float : Text → Option ℚ) (results : Results) : Nat → Option Nat
  | 0 => do maximum (← dataAt float results 0).workloads
  | i + 1 => do
    let m ← maxUpTo float results i
    let n ← maximum (← dataAt float results (i + 1)).workloads
    pure (if n > m then n else m)

end Verif.Vis
