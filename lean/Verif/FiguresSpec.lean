import Verif.Figures

/-!
# What is expected of the visualizer's figures

Specification only.
-/

namespace Verif.Vis

/-- `rows` are the streets with their values, in the given order of values. -/
def Rows {α : Type} (le : α → α → Prop) (streets : List Street) (vals : List α) (rows : List (ℚ × ℚ × α)) : Prop :=
  rows.Perm ((streets.zip vals).map fun p => (p.1.lon, p.1.lat, p.2)) ∧ rows.Pairwise fun a b => le a.2.2 b.2.2

/-- At most `100 - p` percent of the values are above `x`, and at least as many are not below `x`. -/
def Quantile {α : Type} [LinearOrder α] (p : Nat) (l : List α) (x : α) : Prop :=
  x ∈ l ∧ 100 * l.countP (fun y => decide (x < y)) ≤ (100 - p) * l.length ∧
    (100 - p) * l.length ≤ 100 * l.countP (fun y => decide (x ≤ y))

def IsMax {α : Type} [LinearOrder α] (l : List α) (x : α) : Prop := x ∈ l ∧ ∀ y ∈ l, y ≤ x

def IsMin {α : Type} [LinearOrder α] (l : List α) (x : α) : Prop := x ∈ l ∧ ∀ y ∈ l, x ≤ y

/-- The workloads of used streets with this many lanes. -/
def usedWith (d : Data) (lanes : ℚ) : List Nat :=
  ((d.streets.zip d.workloads).filter fun p => decide (p.1.lanes = lanes ∧ 0 < p.2)).map Prod.snd

/-- One box per lane-count of used streets, in increasing order. -/
def LaneBoxes (d : Data) (lanes : List ℚ) (boxes : List (Int × List Nat)) : Prop :=
  lanes.Pairwise (· < ·) ∧
  (∀ x, x ∈ lanes ↔ ∃ p ∈ d.streets.zip d.workloads, p.1.lanes = x ∧ 0 < p.2) ∧
  List.Forall₂ (fun x (b : Int × List Nat) => b.2 = usedWith d x) lanes boxes

/-- The figures of an iteration show its data. -/
structure Shows (globalMax : Nat) (d : Data) (f : Figures) : Prop where
  workloads : Rows (· ≤ ·) d.streets d.workloads f.workloads
  boundaries : ∃ low high, IsMin d.workloads low ∧ Quantile 95 d.workloads high ∧ low ≤ high ∧
    f.boundaries = (if low = 0 then [low, high] else [0, low, high]) ++ (if high = globalMax then [] else [globalMax])
  first : d.iteration = 0 → f.deltas = none
  deltas : d.iteration ≠ 0 → ∃ rows low q₀ q₁ high, f.deltas = some (rows, [low, q₀, q₁, high]) ∧
    Rows (fun a b => |a| ≤ |b|) d.streets d.deltas rows ∧ IsMin d.deltas low ∧ Quantile 5 d.deltas q₀ ∧
    Quantile 95 d.deltas q₁ ∧ IsMax d.deltas high
  bins : ∃ low high, IsMin d.workloads low ∧ IsMax d.workloads high ∧ low + f.bins = high
  lanes : ∃ lanes, LaneBoxes d lanes f.lanes

/-- Two streets have different workloads, and in the dark style, neither all workloads have grown nor all have shrunk
since the iteration before. -/
def Drawable (dark : Bool) (d : Data) : Prop :=
  (∃ a ∈ d.workloads, ∃ b ∈ d.workloads, a ≠ b) ∧
  (dark = true → d.iteration ≠ 0 → (∃ x ∈ d.deltas, x ≤ 0) ∧ ∃ x ∈ d.deltas, 0 ≤ x)

/-- There are as many streets as workloads, and as many former workloads unless it's the first iteration. -/
def Complete (d : Data) : Prop :=
  d.workloads.length = d.streets.length ∧ (d.iteration ≠ 0 → d.old.length = d.streets.length)

end Verif.Vis
