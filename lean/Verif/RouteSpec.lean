import Verif.GraphSpec
import Mathlib.Algebra.BigOperators.Group.List.Basic
import Mathlib.Data.Rat.Defs

/-!
# Routes and their costs

Specification only: what a route is, which plain edges a shortcut stands for, and what a sum of
metrics is. Nothing here uses the model's helpers besides the accessors of a graph.
-/

namespace Verif.Graph

/-- The edges `l` lead from `u` to `v`, head to tail. -/
def IsRoute (g : Graph) : Nat → List Nat → Nat → Prop
  | u, [], v => u = v
  | u, e :: l, v => ∃ w, g.IsEdge e u w ∧ g.IsRoute w l v

/-- The plain edges an edge stands for: itself, or those of its two replaced edges. -/
inductive Expands (g : Graph) : Nat → List Nat → Prop
  | plain {e : Nat} : g.scEdgesOf e = .ok none → Expands g e [e]
  | shortcut {e a b : Nat} {la lb : List Nat} : g.scEdgesOf e = .ok (some (a, b)) →
      Expands g a la → Expands g b lb → Expands g e (la ++ lb)

/-- The `k`-th metric of an edge. -/
def metric (g : Graph) (e k : Nat) : ℚ := ((g.metrics[e]?).getD [])[k]?.getD 0

/-- Every edge has as many metrics as the graph has dimensions. -/
def DimOk (g : Graph) : Prop := ∀ m ∈ g.metrics, m.length = g.dim

/-- `c` is the vector of sums of the metrics of the edges `l`. -/
def IsCost (g : Graph) (l : List Nat) (c : List ℚ) : Prop :=
  c.length = g.dim ∧ ∀ k, k < g.dim → c[k]? = some ((l.map (fun e => g.metric e k)).sum)

/-- Every shortcut leads where its two replaced edges lead. -/
def ShortcutsConnect (g : Graph) : Prop :=
  ∀ e a b u v, g.scEdgesOf e = .ok (some (a, b)) → g.IsEdge e u v →
    ∃ w, g.IsEdge a u w ∧ g.IsEdge b w v

/-- Every shortcut costs what its two replaced edges cost. -/
def ShortcutsAdd (g : Graph) : Prop :=
  ∀ e a b, g.scEdgesOf e = .ok (some (a, b)) → ∀ k, k < g.dim →
    g.metric e k = g.metric a k + g.metric b k

theorem isRoute_append {g : Graph} {u v : Nat} {l l' : List Nat} :
    g.IsRoute u (l ++ l') v ↔ ∃ w, g.IsRoute u l w ∧ g.IsRoute w l' v := by
  induction l generalizing u with
  | nil => simp [IsRoute]
  | cons e l ih =>
    simp only [List.cons_append, IsRoute, ih]
    constructor
    · rintro ⟨w, he, x, h1, h2⟩; exact ⟨x, ⟨w, he, h1⟩, h2⟩
    · rintro ⟨x, ⟨w, he, h1⟩, h2⟩; exact ⟨w, he, x, h1, h2⟩

end Verif.Graph
