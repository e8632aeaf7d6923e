import Verif.OverflowPad

/-!
# Edges without a finite weight don't matter

If no cost overflows, the search is that of `Search.lean` on the edges with a finite weight.
-/

namespace Verif.Over

set_option linter.unusedSectionVars false

open Dij Search Graph

section
variable {K : Type} [LinearOrder K] [Zero K] [Add K] {fits : K → Bool} {fin : Nat → Bool} {c : Cfg K}
  {tail : Dir → Nat → Nat}

theorem finOk_filt {n : Nat} (hf : FinOk c n) : FinOk (filt fin c) n :=
  ⟨fun d u t ht => hf.arcs d u t (List.mem_filter.mp ht).1, hf.roots⟩

theorem isRt_filt {d : Dir} {u v : Nat} {ts : List (Arc K)} :
    IsRt ((filt fin c).out d) u ts v ↔ IsRt (c.out d) u ts v ∧ ∀ t ∈ ts, fin t.1 = true := by
  induction ts generalizing u with
  | nil => exact ⟨fun h => ⟨h, by intro t ht; cases ht⟩, fun h => h.1⟩
  | cons t ts ih =>
    constructor
    · intro h
      obtain ⟨h1, h2⟩ := ih.mp h.2
      have h3 := List.mem_filter.mp h.1
      refine ⟨⟨h3.1, h1⟩, fun t' ht' => ?_⟩
      rcases List.mem_cons.mp ht' with rfl | ht'
      · exact h3.2
      · exact h2 t' ht'
    · rintro ⟨h1, h2⟩
      exact ⟨List.mem_filter.mpr ⟨h1.1, h2 t List.mem_cons_self⟩,
        ih.mpr ⟨h1.2, fun t' ht' => h2 t' (List.mem_cons_of_mem _ ht')⟩⟩

theorem hist_filt {a : A K} {x : CN K} (h : Hist (filt fin c) a x) : Hist c a x := by
  obtain ⟨ts, h1, h2, h3, h4⟩ := h
  exact ⟨ts, (isRt_filt.mp h1).1, h2, h3, h4⟩

theorem stepB_stepA {a : A K} {best : Best K} {cur : CN K}
    (hf : ∀ t ∈ c.out cur.dir cur.idx, fits (cur.cost + t.2.2) = true)
    (ht : ∀ x y, a.lab .fwd cur.idx = some x → a.lab .bwd cur.idx = some y → fits (x + y) = true) :
    stepB fits fin c a best cur = stepA (filt fin c) a best cur := by
  have e1 : okArcs fits fin c cur = (filt fin c).out cur.dir cur.idx := by
    refine List.filter_congr fun t ht => ?_
    simp only [okArc, hf t ht, Bool.and_true]
  have e2 : totalB fits (visitA c a cur) cur.idx = totalA (visitA c a cur) cur.idx := by
    unfold totalB totalA
    rw [visitA_lab]
    cases h1 : a.lab .fwd cur.idx with
    | none => rfl
    | some x =>
      cases h2 : a.lab .bwd cur.idx with
      | none => rfl
      | some y => exact plus_fits (ht x y h1 h2)
  have e3 : newBestB fits c (visitA c a cur) best cur = newBest (filt fin c) (visitA (filt fin c) a cur) best cur := by
    unfold newBestB newBest
    rw [e2]
    rfl
  unfold stepB stepA
  rw [e1, e3]
  rfl

end

section
variable {K : Type} [LinearOrder K] [Zero K] [Add K] {fits : K → Bool} {fin : Nat → Bool} {h : Heap K} {g : Graph}
  {wt' : List ℚ → K} {B : Nat → K} {isCh : Bool} {src dst : Nat}

theorem labels_filt (hwf : g.WellFormed) (hB : Bound g wt' B) (hdst : dst < g.nodeCount) {a a' : A K}
    {best best' : Best K} {cur : CN K} {q : List (CN K)} (hc : cur.cost ≤ B (g.nodeCount - 1))
    (hl : ∀ d v x, a.lab d v = some x → x ≤ B g.nodeCount)
    (hs : stepA (filt fin (cfg h g wt' isCh src dst)) { a with queue := q } best cur = .go a' best') :
    ∀ d v x, a'.lab d v = some x → x ≤ B g.nodeCount := by
  obtain ⟨_, h1 | h1 | h1⟩ := stepA_go _ hs
  · obtain ⟨_, rfl, _⟩ := h1; exact hl
  · obtain ⟨_, _, rfl, _⟩ := h1
    intro d v x hx
    simp only [visitA_lab] at hx
    exact hl d v x hx
  · obtain ⟨_, _, _, rfl⟩ := h1
    refine relaxAll_induct (c := filt fin (cfg h g wt' isCh src dst)) (isNone := best'.isNone) (cur := cur)
      (P := fun b => ∀ d v x, b.lab d v = some x → x ≤ B g.nodeCount) ?_ ?_
    · intro b t ht hb d v x
      unfold relax1
      split
      swap
      · exact hb d v x
      simp only [upd]
      split
      · intro hx
        obtain ⟨_, _, ⟨m, hm, e⟩, _⟩ := (mem_outArcs hwf).mp (List.mem_filter.mp ht).1
        cases hx
        rw [e]
        have := hB.step _ _ hc m (List.mem_of_getElem? hm)
        rwa [show g.nodeCount - 1 + 1 = g.nodeCount by omega] at this
      · exact hb d v x
    · intro d v x hx
      simp only [visitA_lab] at hx
      exact hl d v x hx

theorem loopB_loopA (hwf : g.WellFormed) (hk : AddOk K) (hw : ∀ m ∈ g.metrics, 0 ≤ wt' m) (hB : Bound g wt' B)
    (hfit : ∀ x, x ≤ B g.nodeCount + B g.nodeCount → fits x = true)
    (hsrc : src < g.nodeCount) (hdst : dst < g.nodeCount) {fuel : Nat} {best : Best K} {a : A K}
    (hi : Inv1 (filt fin (cfg h g wt' isCh src dst)) (tailD g) a best)
    (hq : ∀ x ∈ a.queue, Hist (filt fin (cfg h g wt' isCh src dst)) a x)
    (hl : ∀ d v x, a.lab d v = some x → x ≤ B g.nodeCount) :
    loopB fits fin (cfg h g wt' isCh src dst) fuel a best =
      loopA (filt fin (cfg h g wt' isCh src dst)) fuel a best := by
  have ho := outOk_filt (fin := fin) (outOk (h := h) (isCh := isCh) (src := src) (dst := dst) hwf hw)
  have hf := finOk_filt (fin := fin) (finOk (h := h) (wt := wt') (isCh := isCh) hwf hsrc hdst)
  have hB0 : 0 ≤ B g.nodeCount := le_trans hB.zero (hB.mono (Nat.zero_le _))
  induction fuel generalizing a best with
  | zero => rfl
  | succ n ih =>
    unfold loopB loopA
    have hh : (filt fin (cfg h g wt' isCh src dst)).h = (cfg h g wt' isCh src dst).h := rfl
    rw [hh]
    cases hp : (cfg h g wt' isCh src dst).h.pop a.queue with
    | none => rfl
    | some cq =>
      obtain ⟨cur, q⟩ := cq
      simp only
      have hp' : (filt fin (cfg h g wt' isCh src dst)).h.pop a.queue = some (cur, q) := hp
      have hc := hist_le hwf hB hsrc hdst (hist_filt (hq cur ((mem_pop hp').mpr (Or.inl rfl))))
      have e : stepB fits fin (cfg h g wt' isCh src dst) { a with queue := q } best cur =
          stepA (filt fin (cfg h g wt' isCh src dst)) { a with queue := q } best cur := by
        refine stepB_stepA (fun t ht => hfit _ ?_) (fun x y hx hy => hfit _ ?_)
        · obtain ⟨_, _, ⟨m, hm, e⟩, _⟩ := (mem_outArcs hwf).mp ht
          have := hB.step _ _ hc m (List.mem_of_getElem? hm)
          rw [show g.nodeCount - 1 + 1 = g.nodeCount by omega] at this
          rw [e]
          exact le_trans this (hk.infl _ _ hB0)
        · exact le_trans (hk.mono _ _ _ (hl _ _ _ hx)) (hk.mono' _ _ _ (hl _ _ _ hy))
      rw [e]
      cases hA : stepA (filt fin (cfg h g wt' isCh src dst)) { a with queue := q } best cur with
      | stop a1 best1 => rfl
      | go a1 best1 =>
        exact ih (hi.step hk ho hp' hA) (step_term hk ho hf hi hq hp' hA).1 (labels_filt hwf hB hdst hc hl hA)

/-- If no cost overflows, an answer comes from the search on the edges with a finite weight. -/
theorem compute_near {dotp : List ℚ → List ℚ → Option K} {fuel n : Nat} {s s' : St K} {q : Query K}
    {p : Path} (hwf : q.graph.WellFormed) (hk : AddOk K) (hw : ∀ m ∈ q.graph.metrics, 0 ≤ wt0 (dotp q.alphas) m)
    (h0 : fits 0 = true) (hB : Bound q.graph (wt0 (dotp q.alphas)) B)
    (hfit : ∀ x, x ≤ B q.graph.nodeCount + B q.graph.nodeCount → fits x = true)
    (hsrc : q.src < q.graph.nodeCount) (hdst : q.dst < q.graph.nodeCount)
    (ht : Tidy n s) (halg : q.algo ≠ .explorator) (hal : ∀ a ∈ q.alphas, 0 ≤ a)
    (hr : computeBestPath fits h dotp fuel s q = some (.ok (s', some p)))
    {c : Cfg K} (hc : c = filt (finite q.graph (dotp q.alphas))
      (cfg h q.graph (wt0 (dotp q.alphas)) (decide (q.algo = .chDijkstra)) q.src q.dst)) :
    ∃ a m t x y tf tb i j, loopA c fuel (initA c) none = some (a, some (m, some t)) ∧ x + y ≤ t ∧
      IsRt (c.out .fwd) c.src tf m ∧ IsRt (c.out .bwd) c.dst tb m ∧
      costFrom 0 tf ≤ x ∧ costFrom 0 tb ≤ y ∧ tf.length < q.graph.nodeCount ∧ tb.length < q.graph.nodeCount ∧
      p = Path.new q.src i q.dst j (tf.map (·.1) ++ (tb.map (·.1)).reverse) := by
  rcases compute_begin (fits := fits) (h := h) (dotp := dotp) (fuel := fuel) (wt' := wt0 (dotp q.alphas)) hsrc hdst ht
    halg hal with h1 | ⟨s1, hs1, h1⟩
  · rw [h1] at hr; cases hr
  rw [h1] at hr
  have hr := search_padB q.graph.nodeCount hr
  have ho := outOk_filt (fin := finite q.graph (dotp q.alphas))
    (outOk (h := h) (isCh := decide (q.algo = .chDijkstra)) (src := q.src) (dst := q.dst) hwf hw)
  rcases search_casesB (fuel := fuel) hwf hk hw h0 hsrc hdst rfl hs1 with ⟨h2, _⟩ | ⟨h2, _⟩ |
    ⟨s', a, best, ans, h2, _, _, hl, h3, h4⟩
  · rw [h2] at hr; cases hr
  · rw [h2] at hr; cases hr
  rw [h2] at hr
  cases hr
  have hB0 : 0 ≤ B q.graph.nodeCount := le_trans hB.zero (hB.mono (Nat.zero_le _))
  have hinit : initA (filt (finite q.graph (dotp q.alphas))
      (cfg h q.graph (wt0 (dotp q.alphas)) (decide (q.algo = .chDijkstra)) q.src q.dst)) =
      initA (cfg h q.graph (wt0 (dotp q.alphas)) (decide (q.algo = .chDijkstra)) q.src q.dst) := rfl
  rw [← hinit] at hl
  rw [loopB_loopA hwf hk hw hB hfit hsrc hdst (Inv1.init (c := filt _ _)) (by
      intro x hx
      rw [initA_queue] at hx
      rw [hx]
      exact ⟨[], rfl, rfl, by simp, by intro p t s h; simp at h⟩) (by
      intro d v x hx
      simp only [initA, upd] at hx
      split at hx
      · cases hx; exact hB0
      · split at hx
        · cases hx; exact hB0
        · cases hx)] at hl
  rw [← hc] at hl
  rw [← hc] at ho
  have hi := inv1_final hk ho hl
  cases best with
  | none => cases h3 rfl
  | some mb =>
    obtain ⟨m, b⟩ := mb
    obtain ⟨t, x, y, rfl, hx, hy, hxy⟩ := hi.best m b rfl
    obtain ⟨f, bk, i, j, x', y', hf, hb, hx', hy', hi1, hj1, hp⟩ := h4 m _ rfl
    obtain ⟨tf, h5, h6, h7⟩ := hi.chain_route hk ho hf hx
    obtain ⟨tb, h8, h9, h10⟩ := hi.chain_route hk ho hb hy
    have hfo := finOk_filt (fin := finite q.graph (dotp q.alphas)) (finOk (h := h) (wt := wt0 (dotp q.alphas))
      (isCh := decide (q.algo = .chDijkstra)) hwf hsrc hdst)
    rw [← hc] at hfo
    have l1 := hi.chain_length ho hfo hf hx
    have l2 := hi.chain_length ho hfo hb hy
    rw [← List.length_reverse, ← h5, List.length_map] at l1
    rw [← List.length_reverse, ← h8, List.length_map] at l2
    refine ⟨a, m, t, x, y, tf, tb, i, j, hl, hxy, h6, h9, h7, h10, l1, l2, ?_⟩
    cases hp
    rw [h5, h8, List.reverse_reverse]

end
end Verif.Over
