import Verif.Describe
import Verif.GraphSpec

/-!
# Specification of the lines that describe a graph

Nothing here models code.
-/

namespace Verif.Desc

/-- `ls` shows `count` things, one line each as given by `R`. If there are more than 20, then these are the first 19
ones, dots, and the last one. -/
def Excerpt (count : Nat) (dots : Line) (R : Nat → Line → Prop) (ls : List Line) : Prop :=
  (count ≤ 20 → List.Forall₂ R (List.range count) ls) ∧
  (20 < count → ∃ front last, ls = front ++ [dots, last] ∧ List.Forall₂ R (List.range 19) front ∧ R (count - 1) last)

/-- A line about node `i`. -/
def IsNode (g : Graph) (i : Nat) (l : Line) : Prop :=
  ∃ id coord, g.nodeId i = .ok id ∧ g.nodeCoord i = .ok coord ∧ l = .node i id coord

/-- Does an edge replace others? -/
def isSc (g : Graph) (e : Nat) : Bool :=
  match g.scEdgesOf e with
  | .ok (some _) => true
  | _ => false

/-- The number of shortcuts before edge `e`. -/
def scBefore (g : Graph) (e : Nat) : Nat := (List.range e).countP (isSc g)

/-- A line about edge `e` from `u` to `v`, as seen in direction `d`. -/
def IsLine (g : Graph) (d : Dir) (e : Nat) (l : Line) : Prop :=
  ∃ id u v m, g.tryId e = .ok id ∧ g.IsEdge e u v ∧ g.edgeMetrics e = .ok m ∧
    l = match d with
      | .fwd => .edge .fwd id e (scBefore g e) u m v
      | .bwd => .edge .bwd id e (scBefore g e) v m u

/-- The number of edges that leave, in direction `d`, a node before `i`. -/
def leaving (g : Graph) (d : Dir) (i : Nat) : Nat := (g.dsts d.opp).countP (· < i)

/-- A line about the offset of node `i`. -/
def IsOffset (g : Graph) (d : Dir) (i : Nat) (l : Line) : Prop := l = .offset d i (leaving g d i)

/-- A line about the `j`-th shortcut. -/
def IsShortcut (g : Graph) (j : Nat) (l : Line) : Prop :=
  ∃ e p, g.scEdgesOf e = .ok (some p) ∧ scBefore g e = j ∧ l = .shortcut e j p

/-- The lines of a direction: edges, offsets, and the number of edges behind the last node that is left by one. -/
def IsDirection (g : Graph) (d : Dir) (ls : List Line) : Prop :=
  ∃ es os k, ls = es ++ [.blank] ++ os ++ [.lastOffset d k g.edgeCount, .blank] ∧
    Excerpt g.edgeCount (.edgeDots d) (IsLine g d) es ∧ Excerpt g.nodeCount (.offsetDots d) (IsOffset g d) os ∧
    (∀ e u, g.dstIdx d.opp e = .ok u → u < k) ∧ (k = 1 ∨ ∃ e u, g.dstIdx d.opp e = .ok u ∧ u + 1 = k)

/-- The lines that describe a graph. -/
def Describes (g : Graph) (ls : List Line) : Prop :=
  ∃ ns fwd bwd scs, ls = [.head g.nodeCount g.edgeCount, .blank, .config, .blank] ++ ns ++ [.blank] ++ fwd ++ bwd ++ scs ∧
    Excerpt g.nodeCount .nodeDots (IsNode g) ns ∧ IsDirection g .fwd fwd ∧ IsDirection g .bwd bwd ∧
    (scBefore g g.edgeCount = 0 → scs = [.noShortcuts]) ∧
    (scBefore g g.edgeCount ≠ 0 → Excerpt (scBefore g g.edgeCount) .shortcutDots (IsShortcut g) scs)

/-- An edge leaves, in direction `d`, one of the last two nodes. -/
def Ends (g : Graph) (d : Dir) : Prop :=
  g.nodeCount ≤ 2 ∨ ∃ e u, g.dstIdx d.opp e = .ok u ∧ g.nodeCount ≤ u + 2

end Verif.Desc
