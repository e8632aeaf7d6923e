import Verif.Overflow
import Verif.FloatLemmas

/-!
# Lemmas about the router with overflow
-/

namespace Verif.Over

set_option linter.unusedSectionVars false

open Dij Search Graph

section
variable {K : Type} [LinearOrder K] [Zero K] [Add K] {fits : K → Bool} {h : Heap K} {g : Graph}
  {wt : List ℚ → Option K} {wt' : List ℚ → K}

theorem plus_fits {a b : K} (hf : fits (a + b) = true) : plus fits (some a) (some b) = some (a + b) := by
  simp [plus, cap, hf]

theorem relax_eq {isNone : Bool} {cur : CN K} {es : List Nat} {s : St K}
    (hf : ∀ m ∈ g.metrics, wt m = some (wt' m) ∧ fits (cur.cost + wt' m) = true) :
    relax fits h g wt isNone cur es s = Dij.relax h g wt' isNone cur es s := by
  induction es generalizing s with
  | nil => rfl
  | cons e es ih =>
    unfold relax Dij.relax
    congr 1
    funext v
    congr 1
    funext lower
    cases lower with
    | true => rfl
    | false =>
      simp only [Bool.false_eq_true, if_false]
      cases hm : g.metrics[e]? with
      | none => rfl
      | some m =>
        have h1 := hf m (List.mem_of_getElem? hm)
        simp only [Res.ofIdx, Res.ok_bind, h1.1, plus_fits h1.2]
        congr 1
        funext old
        by_cases hl : ltInf (some (cur.cost + wt' m)) old = true
        · simp only [if_pos hl, ih]
        · simp only [if_neg hl, ih]

theorem expand_eq {s : St K} {best : Best K} {cur : CN K}
    (hf : ∀ m ∈ g.metrics, wt m = some (wt' m) ∧ fits (cur.cost + wt' m) = true) :
    expand fits h g wt s best cur = Dij.expand h g wt' s best cur := by
  unfold expand Dij.expand
  simp only [relax_eq hf]

theorem total_eq {s : St K} {i : Nat}
    (hf : ∀ x y, (s.costs .fwd)[i]? = some (some x) → (s.costs .bwd)[i]? = some (some y) → fits (x + y) = true) :
    totalCost fits s i = Dij.totalCost s i := by
  unfold totalCost Dij.totalCost
  cases h1 : (s.costs .fwd)[i]? with
  | none => rfl
  | some a =>
    cases h2 : (s.costs .bwd)[i]? with
    | none => rfl
    | some b =>
      cases a with
      | none => rfl
      | some x =>
        cases b with
        | none => rfl
        | some y =>
          simp only [Res.ofIdx, Res.ok_bind, plus_fits (hf x y h1 h2)]
          rfl

theorem visit_costs {s s' : St K} {cur : CN K} (hv : visit s cur = .ok s') : s'.costs = s.costs := by
  unfold visit at hv
  split at hv
  · cases hv; rfl
  · cases h1 : setIdx (s.visited cur.dir) cur.idx true with
    | ok vs => rw [h1] at hv; cases hv; rfl
    | err e => exact e.elim
    | panic => rw [h1] at hv; cases hv

theorem step_eq {s : St K} {best : Best K} {cur : CN K}
    (hf : ∀ m ∈ g.metrics, wt m = some (wt' m) ∧ fits (cur.cost + wt' m) = true)
    (ht : ∀ x y, (s.costs .fwd)[cur.idx]? = some (some x) → (s.costs .bwd)[cur.idx]? = some (some y) →
      fits (x + y) = true) :
    step fits h g wt s best cur = Dij.step h g wt' s best cur := by
  unfold step Dij.step
  split
  · rfl
  congr 1
  funext label
  split
  · rfl
  cases hv : visit s cur with
  | err e => exact e.elim
  | panic => rfl
  | ok s1 =>
    have e1 : totalCost fits s1 cur.idx = Dij.totalCost s1 cur.idx :=
      total_eq (by rw [visit_costs hv]; exact ht)
    simp only [Res.ok_bind, e1, expand_eq hf]
    cases best <;> rfl

/-- Costs are bounded by the number of edges. -/
structure Bound (g : Graph) (wt' : List ℚ → K) (B : Nat → K) : Prop where
  zero : 0 ≤ B 0
  mono : Monotone B
  step : ∀ k x, x ≤ B k → ∀ m ∈ g.metrics, x + wt' m ≤ B (k + 1)

variable {B : Nat → K} {isCh : Bool} {src dst : Nat}

theorem cost_le (hwf : g.WellFormed) (hB : Bound g wt' B) {d : Dir} {u v : Nat} {ts : List (Arc K)} {x : K} {k : Nat}
    (hr : IsRt (outArcs g wt' isCh d) u ts v) (hx : x ≤ B k) : costFrom x ts ≤ B (k + ts.length) := by
  induction ts generalizing u x k with
  | nil => exact hx
  | cons t ts ih =>
    obtain ⟨_, _, ⟨m, hm, e⟩, _⟩ := (mem_outArcs hwf).mp hr.1
    have := ih hr.2 (x := x + t.2.2) (k := k + 1) (by rw [e]; exact hB.step k x hx m (List.mem_of_getElem? hm))
    simp only [List.length_cons]
    rw [show k + (ts.length + 1) = k + 1 + ts.length by omega]
    exact this

theorem isRt_lt {c : Cfg K} {n : Nat} (hf : FinOk c n) {d : Dir} {u v : Nat} {ts : List (Arc K)}
    (hr : IsRt (c.out d) u ts v) {t : Arc K} (ht : t ∈ ts) : t.2.1 < n := by
  induction ts generalizing u with
  | nil => cases ht
  | cons t' ts ih =>
    rcases List.mem_cons.mp ht with rfl | ht
    · exact (hf.arcs _ _ _ hr.1).2
    · exact ih hr.2 ht

theorem hist_le (hwf : g.WellFormed) (hB : Bound g wt' B) (hsrc : src < g.nodeCount) (hdst : dst < g.nodeCount)
    {a : A K} {x : CN K} (hh : Hist (cfg h g wt' isCh src dst) a x) : x.cost ≤ B (g.nodeCount - 1) := by
  have hf := finOk (h := h) (wt := wt') (isCh := isCh) hwf hsrc hdst
  obtain ⟨ts, h1, h2, h3, -⟩ := hh
  rw [← h2]
  refine le_trans (cost_le hwf hB h1 hB.zero) (hB.mono ?_)
  have h4 : ∀ v ∈ (cfg h g wt' isCh src dst).root x.dir :: ts.map (·.2.1), v < g.nodeCount := by
    intro v hv
    rcases List.mem_cons.mp hv with rfl | hv
    · exact hf.roots _
    · obtain ⟨t, ht, rfl⟩ := List.mem_map.mp hv
      exact isRt_lt hf h1 ht
  have := length_le_of_nodup_lt h3 h4
  simp only [List.length_cons, List.length_map] at this
  omega

/-- Labels stay below the bound. -/
theorem labels_step (hwf : g.WellFormed) (hB : Bound g wt' B) (hdst : dst < g.nodeCount) {a a' : A K} {best best' : Best K} {cur : CN K}
    {q : List (CN K)} (hc : cur.cost ≤ B (g.nodeCount - 1))
    (hl : ∀ d v x, a.lab d v = some x → x ≤ B g.nodeCount)
    (hs : stepA (cfg h g wt' isCh src dst) { a with queue := q } best cur = .go a' best') :
    ∀ d v x, a'.lab d v = some x → x ≤ B g.nodeCount := by
  obtain ⟨_, h1 | h1 | h1⟩ := stepA_go _ hs
  · obtain ⟨_, rfl, _⟩ := h1; exact hl
  · obtain ⟨_, _, rfl, _⟩ := h1
    intro d v x hx
    simp only [visitA_lab] at hx
    exact hl d v x hx
  · obtain ⟨_, _, _, rfl⟩ := h1
    refine relaxAll_induct (c := cfg h g wt' isCh src dst) (isNone := best'.isNone) (cur := cur)
      (P := fun b => ∀ d v x, b.lab d v = some x → x ≤ B g.nodeCount) ?_ ?_
    · intro b t ht hb d v x
      unfold relax1
      split
      swap
      · exact hb d v x
      simp only [upd]
      split
      · intro hx
        obtain ⟨_, _, ⟨m, hm, e⟩, _⟩ := (mem_outArcs hwf).mp ht
        cases hx
        rw [e]
        have := hB.step _ _ hc m (List.mem_of_getElem? hm)
        rwa [show g.nodeCount - 1 + 1 = g.nodeCount by omega] at this
      · exact hb d v x
    · intro d v x hx
      simp only [visitA_lab] at hx
      exact hl d v x hx

theorem loop_eq (hwf : g.WellFormed) (hk : AddOk K) (hw : ∀ m ∈ g.metrics, 0 ≤ wt' m) (hB : Bound g wt' B)
    (hwt : ∀ m ∈ g.metrics, wt m = some (wt' m)) (hfit : ∀ x, x ≤ B g.nodeCount + B g.nodeCount → fits x = true)
    (hsrc : src < g.nodeCount) (hdst : dst < g.nodeCount) {fuel : Nat} {best : Best K} {s : St K}
    {a : A K} (hs : Sim g isCh s a) (hi : Inv1 (cfg h g wt' isCh src dst) (tailD g) a best)
    (hq : ∀ x ∈ a.queue, Hist (cfg h g wt' isCh src dst) a x)
    (hl : ∀ d v x, a.lab d v = some x → x ≤ B g.nodeCount) :
    loop fits h g wt fuel s best = Dij.loop h g wt' fuel s best := by
  have ho := outOk (h := h) (isCh := isCh) (src := src) (dst := dst) hwf hw
  have hf := finOk (h := h) (wt := wt') (isCh := isCh) hwf hsrc hdst
  have hB0 : 0 ≤ B g.nodeCount := le_trans hB.zero (hB.mono (Nat.zero_le _))
  induction fuel generalizing s a best with
  | zero => rfl
  | succ n ih =>
    unfold loop Dij.loop
    have hh : (cfg h g wt' isCh src dst).h = h := rfl
    rw [hs.queue]
    cases hp : h.pop a.queue with
    | none => rfl
    | some cq =>
      obtain ⟨cur, q⟩ := cq
      simp only
      have hp' : (cfg h g wt' isCh src dst).h.pop a.queue = some (cur, q) := hp
      obtain ⟨y, hy, _⟩ := hi.queue cur ((mem_pop hp').mpr (Or.inl rfl))
      have hcur := labelled_lt hf hi hy
      have hc := hist_le hwf hB hsrc hdst (hq cur ((mem_pop hp').mpr (Or.inl rfl)))
      have hsq : Sim g isCh { s with queue := q } { a with queue := q } :=
        { mode := hs.mode, queue := rfl, flag := hs.flag, costs := hs.costs, preds := hs.preds,
          visited := hs.visited }
      have e : step fits h g wt { s with queue := q } best cur = Dij.step h g wt' { s with queue := q } best cur := by
        refine step_eq (fun m hm => ⟨hwt m hm, hfit _ ?_⟩) (fun x y hx hy => hfit _ ?_)
        · have := hB.step _ _ hc m hm
          rw [show g.nodeCount - 1 + 1 = g.nodeCount by omega] at this
          exact le_trans this (hk.infl _ _ hB0)
        · have h1 := hs.costs .fwd cur.idx hcur
          have h2 := hs.costs .bwd cur.idx hcur
          simp only at hx hy
          rw [h1] at hx
          rw [h2] at hy
          simp only [Option.some.injEq] at hx hy
          exact le_trans (hk.mono _ _ _ (hl _ _ _ hx)) (hk.mono' _ _ _ (hl _ _ _ hy))
      rw [e]
      rcases step_sim (h := h) (wt := wt') (src := src) (dst := dst) (best := best) hwf hcur hsq with
        ⟨nx, h1, h2⟩ | ⟨h1, h2⟩
      · rw [h1]
        cases hA : stepA (cfg h g wt' isCh src dst) { a with queue := q } best cur with
        | stop a1 best1 =>
          rw [hA] at h2
          cases nx with
          | stop s1 b1 => rfl
          | go s1 b1 => exact absurd h2 (by simp [SimNext])
        | go a1 best1 =>
          rw [hA] at h2
          cases nx with
          | stop s1 b1 => exact absurd h2 (by simp [SimNext])
          | go s1 b1 =>
            obtain ⟨h3, rfl⟩ := h2
            exact ih h3 (hi.step hk ho hp' hA) (step_term hk ho hf hi hq hp' hA).1
              (labels_step hwf hB hdst hc hl hA)
      · rw [h1]

/-- `init_query` panics, or the search starts. -/
theorem begin_cases (hn : g.nodeCount ≠ 2) (hsrc : src < g.nodeCount) (hdst : dst < g.nodeCount) {n : Nat} {s : St K}
    (ht : Tidy n s) (b : Bool) :
    (do
        let s ← initQuery { s with isCh := b } g.nodeCount
        start h s src dst) = .panic ∨ ∃ s1, (do
        let s ← initQuery { s with isCh := b } g.nodeCount
        start h s src dst) = .ok s1 ∧ Sim g b s1 (initA (cfg h g wt' b src dst)) := by
  replace ht : Tidy (max n g.nodeCount) s := ⟨ht.len, fun d => le_trans (ht.le d) (le_max_left _ _), ht.touched, ht.unset⟩
  have ht' : Tidy (max n g.nodeCount) { s with isCh := b } := ht.congr rfl rfl rfl
  cases h0 : initQuery { s with isCh := b } g.nodeCount with
  | panic => exact Or.inl rfl
  | err e => cases e
  | ok s0 =>
    refine Or.inr ?_
    have e := initQuery_inv (le_max_right _ _) ht' h0
    rw [Res.ok_bind, e]
    have hL : newLenD { s with isCh := b } g.nodeCount = fun _ => g.nodeCount := by
      funext d
      unfold newLenD
      rw [if_pos (Ne.symm hn)]
    rw [hL]
    refine start_sim hsrc hdst (fun hb => ?_)
    rw [if_neg (by rw [hb]; decide)]

/-- Without overflow, both routers behave the same. -/
theorem compute_same {dotp : List ℚ → List ℚ → Option K} {dotp' : List ℚ → List ℚ → K} {fuel n : Nat} {s : St K}
    {q : Query K} (hwf : q.graph.WellFormed) (hk : AddOk K) (hw : ∀ m ∈ q.graph.metrics, 0 ≤ dotp' q.alphas m)
    (hB : Bound q.graph (dotp' q.alphas) B)
    (hwt : ∀ m ∈ q.graph.metrics, dotp q.alphas m = some (dotp' q.alphas m))
    (hfit : ∀ x, x ≤ B q.graph.nodeCount + B q.graph.nodeCount → fits x = true)
    (hn : q.graph.nodeCount ≠ 2) (hsrc : q.src < q.graph.nodeCount) (hdst : q.dst < q.graph.nodeCount)
    (ht : Tidy n s) :
    computeBestPath fits h dotp fuel s q = Dij.computeBestPath h dotp' fuel s q := by
  obtain ⟨src, dst, g, algo, al⟩ := q
  simp only at *
  unfold computeBestPath Dij.computeBestPath
  simp only
  split
  · rfl
  have key : ∀ b : Bool, (match (do
        let s ← initQuery { s with isCh := b } g.nodeCount
        start h s src dst) with
      | .panic => some (Res.panic : R (St K × Option Path))
      | .err e => some (.err e)
      | .ok s => search fits h g (dotp al) fuel s src dst) = (match (do
        let s ← initQuery { s with isCh := b } g.nodeCount
        start h s src dst) with
      | .panic => some .panic
      | .err e => some (.err e)
      | .ok s => Dij.search h g (dotp' al) fuel s src dst) := by
    intro b
    rcases begin_cases (h := h) (wt' := dotp' al) hn hsrc hdst ht b with h1 | ⟨s1, h1, h2⟩
    · rw [h1]
    rw [h1]
    simp only
    unfold search Dij.search
    rw [loop_eq hwf hk hw hB hwt hfit hsrc hdst h2 Inv1.init (by
      intro x hx
      rw [initA_queue] at hx
      rw [hx]
      exact ⟨[], rfl, rfl, by simp, by intro p t s h; simp at h⟩) (by
      intro d v x hx
      have hB0 : 0 ≤ B g.nodeCount := le_trans hB.zero (hB.mono (Nat.zero_le _))
      simp only [initA, upd] at hx
      split at hx
      · cases hx; exact hB0
      · split at hx
        · cases hx; exact hB0
        · cases hx)]
    rfl
  cases algo with
  | explorator => rfl
  | dijkstra => exact key _
  | chDijkstra => exact key _

end
end Verif.Over
