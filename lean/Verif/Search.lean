import Verif.Dijkstra
import Mathlib.Order.Basic
import Mathlib.Data.List.Basic

/-!
# The search without arrays

A panic-free restatement of the search loop of `Dijkstra.lean`, on functions instead of vectors and on
an arbitrary adjacency `out`. It is a proof device: `DijkstraLemmas.lean` shows that the model of the
code behaves like this one. Nothing here besides `AddOk` is part of a property's statement.
-/

namespace Verif.Search

set_option linter.unusedSectionVars false

open Dij

/-- Leaving edges: edge, reached node, weight. -/
abbrev Arc (K : Type) := Nat × Nat × K

/-- What is fixed during a query. -/
structure Cfg (K : Type) where
  h : Heap K
  out : Dir → Nat → List (Arc K)
  isCh : Bool
  src : Nat
  dst : Nat

/-- Where the search of a direction starts. -/
def Cfg.root {K : Type} (c : Cfg K) : Dir → Nat
  | .fwd => c.src
  | .bwd => c.dst

/-- Labels, predecessors, visited nodes, flags and queue. -/
structure A (K : Type) where
  lab : Dir → Nat → Option K
  pred : Dir → Nat → Option Nat
  vis : Dir → Nat → Bool
  flag : Dir → Bool
  queue : List (CN K)

/-- Changes a function of two arguments at one place. -/
def upd {α : Type} (f : Dir → Nat → α) (d : Dir) (v : Nat) (x : α) : Dir → Nat → α :=
  fun d' v' => if d' = d ∧ v' = v then x else f d' v'

theorem upd_same {α : Type} (f : Dir → Nat → α) (d : Dir) (v : Nat) (x : α) : upd f d v x d v = x := by
  simp [upd]

theorem upd_other {α : Type} (f : Dir → Nat → α) {d d' : Dir} {v v' : Nat} (x : α)
    (h : ¬ (d' = d ∧ v' = v)) : upd f d v x d' v' = f d' v' := by
  simp only [upd, if_neg h]

section
variable {K : Type} [LinearOrder K] [Zero K] [Add K] (c : Cfg K)

/-- Relaxes one edge. -/
def relax1 (isNone : Bool) (cur : CN K) (a : A K) (t : Arc K) : A K :=
  if ltInf (some (cur.cost + t.2.2)) (a.lab cur.dir t.2.1) then
    { a with
      lab := upd a.lab cur.dir t.2.1 (some (cur.cost + t.2.2))
      pred := upd a.pred cur.dir t.2.1 (some t.1)
      queue := if c.isCh || isNone then
          c.h.push a.queue { idx := t.2.1, cost := cur.cost + t.2.2, dir := cur.dir }
        else a.queue }
  else a

/-- Relaxes a list of edges. -/
def relaxAll (isNone : Bool) (cur : CN K) (l : List (Arc K)) (a : A K) : A K :=
  l.foldl (relax1 c isNone cur) a

/-- Marks as visited. -/
def visitA (a : A K) (cur : CN K) : A K :=
  if c.isCh then a else { a with vis := upd a.vis cur.dir cur.idx true }

/-- Sum of both labels. -/
def totalA (a : A K) (i : Nat) : Option K := addInf (a.lab .fwd i) (a.lab .bwd i)

/-- Meeting test. -/
def meetsA (a : A K) (cur : CN K) : Bool :=
  if c.isCh then (a.lab cur.dir.opp cur.idx).isSome else a.vis cur.dir.opp cur.idx

/-- The best meeting node after looking at `cur`. -/
def newBest (a : A K) (best : Best K) (cur : CN K) : Best K :=
  match best with
  | some (m, b) => if ltInf (totalA a cur.idx) b then some (cur.idx, totalA a cur.idx) else some (m, b)
  | none => if meetsA c a cur then some (cur.idx, totalA a cur.idx) else none

/-- Next state of the abstract loop. -/
inductive NextA (K : Type) where
  | stop (a : A K) (best : Best K)
  | go (a : A K) (best : Best K)

/-- Is the popped cost above the best total? -/
def above (best : Best K) (cur : CN K) : Bool :=
  match best with
  | some (_, b) => ltInf b (some cur.cost)
  | none => false

/-- One iteration. -/
def stepA (a : A K) (best : Best K) (cur : CN K) : NextA K :=
  if a.flag .fwd && a.flag .bwd then .stop a best
  else if !leInf cur.cost (a.lab cur.dir cur.idx) then .go a best
  else if above best cur then
    .go { visitA c a cur with flag := Function.update a.flag cur.dir true } best
  else
    .go (relaxAll c (newBest c (visitA c a cur) best cur).isNone cur (c.out cur.dir cur.idx)
      (visitA c a cur)) (newBest c (visitA c a cur) best cur)

/-- The loop. -/
def loopA : Nat → A K → Best K → Option (A K × Best K)
  | 0, _, _ => none
  | fuel + 1, a, best =>
    match c.h.pop a.queue with
    | none => some (a, best)
    | some (cur, q) =>
      match stepA c { a with queue := q } best cur with
      | .stop a best => some (a, best)
      | .go a best => loopA fuel a best

/-- The initial state. -/
def initA : A K :=
  { lab := upd (upd (fun _ _ => none) .fwd c.src (some 0)) .bwd c.dst (some 0)
    pred := fun _ _ => none
    vis := fun _ _ => false
    flag := fun _ => false
    queue := c.h.push (c.h.push [] { idx := c.src, cost := 0, dir := .fwd })
      { idx := c.dst, cost := 0, dir := .bwd } }

/-- What is assumed of the addition: it is inflationary and monotone. Rounded addition is, too. -/
structure AddOk (K : Type) [LinearOrder K] [Zero K] [Add K] : Prop where
  infl : ∀ x w : K, 0 ≤ w → x ≤ x + w
  infl' : ∀ x w : K, 0 ≤ w → x ≤ w + x
  mono : ∀ x y w : K, x ≤ y → x + w ≤ y + w
  mono' : ∀ x y w : K, x ≤ y → w + x ≤ w + y

/-- What is assumed of the adjacency: weights are not negative and an edge has one tail. -/
structure OutOk (tail : Dir → Nat → Nat) : Prop where
  nonneg : ∀ d u t, t ∈ c.out d u → (0 : K) ≤ t.2.2
  tail : ∀ d u t, t ∈ c.out d u → tail d t.1 = u

/-! ## Induction over the loop -/

/-- An invariant of the iterations holds in the end: either the queue is empty, or both flags are set
and an element has been popped. -/
theorem loopA_induct {Inv : A K → Best K → Prop}
    (hstep : ∀ a best cur q a' best', Inv a best → c.h.pop a.queue = some (cur, q) →
      stepA c { a with queue := q } best cur = .go a' best' → Inv a' best')
    {fuel : Nat} {a : A K} {best : Best K} {a' : A K} {best' : Best K} (h0 : Inv a best)
    (h : loopA c fuel a best = some (a', best')) :
    ∃ a0, Inv a0 best' ∧ ((a0.queue = [] ∧ a' = a0) ∨
      (a0.flag .fwd = true ∧ a0.flag .bwd = true ∧ ∃ cur q, c.h.pop a0.queue = some (cur, q) ∧
        a' = { a0 with queue := q })) := by
  induction fuel generalizing a best with
  | zero => simp [loopA] at h
  | succ n ih =>
    unfold loopA at h
    cases hp : c.h.pop a.queue with
    | none =>
      rw [hp] at h
      simp only [Option.some.injEq, Prod.mk.injEq] at h
      obtain ⟨rfl, rfl⟩ := h
      exact ⟨_, h0, Or.inl ⟨(c.h.pop_none _).mp hp, rfl⟩⟩
    | some cq =>
      obtain ⟨cur, q⟩ := cq
      rw [hp] at h
      simp only at h
      cases hs : stepA c { a with queue := q } best cur with
      | go a1 best1 =>
        rw [hs] at h
        exact ih (hstep a best cur q a1 best1 h0 hp hs) h
      | stop a1 best1 =>
        rw [hs] at h
        cases h
        unfold stepA at hs
        split at hs
        · rename_i hf
          cases hs
          simp only [Bool.and_eq_true] at hf
          exact ⟨a, h0, Or.inr ⟨hf.1, hf.2, cur, q, hp, rfl⟩⟩
        · split at hs
          · cases hs
          · split at hs <;> cases hs

/-- A decreasing potential bounds the number of iterations. -/
theorem loopA_terminates {Inv : A K → Best K → Prop} (Φ : A K → Best K → Nat)
    (hstep : ∀ a best cur q a' best', Inv a best → c.h.pop a.queue = some (cur, q) →
      stepA c { a with queue := q } best cur = .go a' best' →
      Inv a' best' ∧ Φ a' best' < Φ a best)
    {fuel : Nat} {a : A K} {best : Best K} (h0 : Inv a best) (hf : Φ a best < fuel) :
    ∃ r, loopA c fuel a best = some r := by
  induction fuel generalizing a best with
  | zero => omega
  | succ n ih =>
    unfold loopA
    cases hp : c.h.pop a.queue with
    | none => exact ⟨_, rfl⟩
    | some cq =>
      obtain ⟨cur, q⟩ := cq
      simp only
      cases hs : stepA c { a with queue := q } best cur with
      | stop a1 best1 => exact ⟨_, rfl⟩
      | go a1 best1 =>
        obtain ⟨h1, h2⟩ := hstep a best cur q a1 best1 h0 hp hs
        exact ih h1 (by omega)

/-- The three ways an iteration can go on. -/
theorem stepA_go {a : A K} {best : Best K} {cur : CN K} {a' : A K} {best' : Best K}
    (h : stepA c a best cur = .go a' best') :
    (a.flag .fwd = false ∨ a.flag .bwd = false) ∧
    ((¬ leInf cur.cost (a.lab cur.dir cur.idx) = true ∧ a' = a ∧ best' = best) ∨
     (leInf cur.cost (a.lab cur.dir cur.idx) = true ∧ above best cur = true ∧
        a' = { visitA c a cur with flag := Function.update a.flag cur.dir true } ∧ best' = best) ∨
     (leInf cur.cost (a.lab cur.dir cur.idx) = true ∧ above best cur = false ∧
        best' = newBest c (visitA c a cur) best cur ∧
        a' = relaxAll c best'.isNone cur (c.out cur.dir cur.idx) (visitA c a cur))) := by
  unfold stepA at h
  split at h
  · cases h
  · rename_i hf
    refine ⟨by
      cases h1 : a.flag .fwd <;> cases h2 : a.flag .bwd <;> simp_all, ?_⟩
    split at h
    · rename_i hl
      cases h
      exact Or.inl ⟨by simpa using hl, rfl, rfl⟩
    · rename_i hl
      have hl' : leInf cur.cost (a.lab cur.dir cur.idx) = true := by simpa using hl
      split at h
      · rename_i hab
        cases h
        exact Or.inr (Or.inl ⟨hl', hab, rfl, rfl⟩)
      · rename_i hab
        cases h
        exact Or.inr (Or.inr ⟨hl', by simpa using hab, rfl, rfl⟩)

end
end Verif.Search
