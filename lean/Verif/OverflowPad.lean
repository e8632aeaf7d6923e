import Verif.OverflowRun
import Verif.DijkstraLemmas5

/-!
# Overflow: longer vectors do not change an answer
-/

namespace Verif.Over

set_option linter.unusedSectionVars false

open Dij Search Graph

section
variable {K : Type} [LinearOrder K] [Zero K] [Add K] {fits : K → Bool} {h : Heap K} {g : Graph}
  {wt : List ℚ → Option K} {src dst : Nat}

theorem relax_padB (k : Nat) {isNone : Bool} {cur : CN K} {es : List Nat} {s s' : St K}
    (hs : relax fits h g wt isNone cur es s = .ok s') :
    relax fits h g wt isNone cur es (s.pad k) = .ok (s'.pad k) := by
  induction es generalizing s with
  | nil => cases hs; rfl
  | cons e es ih =>
    unfold relax at hs ⊢
    obtain ⟨v, hv, hs⟩ := Res.bind_eq_ok.mp hs
    obtain ⟨lower, hlo, hs⟩ := Res.bind_eq_ok.mp hs
    rw [hv, Res.ok_bind, show (s.pad k).isCh = s.isCh from rfl, hlo, Res.ok_bind]
    split at hs
    · rename_i hl
      rw [if_pos hl]
      cases hs; rfl
    · rename_i hl
      rw [if_neg hl]
      obtain ⟨m, hm, hs⟩ := Res.bind_eq_ok.mp hs
      obtain ⟨old, hold, hs⟩ := Res.bind_eq_ok.mp hs
      have hold' : (Res.ofIdx ((s.pad k).costs cur.dir)[v]? : R (Option K)) = .ok old :=
        ofIdx_pad _ hold
      rw [hm, Res.ok_bind, hold', Res.ok_bind]
      cases hpl : plus fits (some cur.cost) (wt m) with
      | none =>
        rw [hpl] at hs
        exact ih hs
      | some c =>
      rw [hpl] at hs
      simp only at hs ⊢
      split at hs
      · rename_i hlt
        rw [if_pos hlt]
        obtain ⟨ps, hps, hs⟩ := Res.bind_eq_ok.mp hs
        obtain ⟨cs, hcs, hs⟩ := Res.bind_eq_ok.mp hs
        have h1 : setIdx ((s.pad k).preds cur.dir) v (some e) = .ok (ps ++ List.replicate k none) :=
          setIdx_pad _ hps
        have h2 : setIdx ((s.pad k).costs cur.dir) v (some c) =
          .ok (cs ++ List.replicate k none) := setIdx_pad _ hcs
        rw [h1, Res.ok_bind, h2, Res.ok_bind]
        have := ih hs
        rw [← this]
        unfold St.pad
        simp only [update_append]
      · rename_i hlt
        rw [if_neg hlt]
        exact ih hs

theorem expand_padB (k : Nat) {best : Best K} {cur : CN K} {s : St K} {nx : Next K}
    (hs : expand fits h g wt s best cur = .ok nx) :
    expand fits h g wt (s.pad k) best cur = .ok (nx.pad k) := by
  unfold expand at hs ⊢
  obtain ⟨es, hes, hs⟩ := Res.bind_eq_ok.mp hs
  obtain ⟨s1, h1, hs⟩ := Res.bind_eq_ok.mp hs
  cases hs
  rw [hes, Res.ok_bind, relax_padB k h1]
  rfl

theorem total_padB (k : Nat) {s : St K} {i : Nat} {t : Option K} (hs : totalCost fits s i = .ok t) :
    totalCost fits (s.pad k) i = .ok t := by
  unfold totalCost at hs ⊢
  obtain ⟨a, ha, hs⟩ := Res.bind_eq_ok.mp hs
  obtain ⟨b, hb, hs⟩ := Res.bind_eq_ok.mp hs
  have h1 : (Res.ofIdx ((s.pad k).costs .fwd)[i]? : R (Option K)) = .ok a := ofIdx_pad _ ha
  have h2 : (Res.ofIdx ((s.pad k).costs .bwd)[i]? : R (Option K)) = .ok b := ofIdx_pad _ hb
  rw [h1, Res.ok_bind, h2]
  exact hs

theorem step_padB (k : Nat) {best : Best K} {cur : CN K} {s : St K} {nx : Next K}
    (hs : step fits h g wt s best cur = .ok nx) :
    step fits h g wt (s.pad k) best cur = .ok (nx.pad k) := by
  unfold step at hs ⊢
  rw [show (s.pad k).flag = s.flag from rfl]
  split at hs
  · rename_i hc
    rw [if_pos hc]
    cases hs; rfl
  · rename_i hc
    rw [if_neg hc]
    obtain ⟨label, hlab, hs⟩ := Res.bind_eq_ok.mp hs
    have h1 : (Res.ofIdx ((s.pad k).costs cur.dir)[cur.idx]? : R (Option K)) = .ok label :=
      ofIdx_pad _ hlab
    rw [h1, Res.ok_bind]
    split at hs
    · rename_i hl
      rw [if_pos hl]
      cases hs; rfl
    · rename_i hl
      rw [if_neg hl]
      obtain ⟨s1, h2, hs⟩ := Res.bind_eq_ok.mp hs
      rw [visit_pad k h2, Res.ok_bind]
      cases best with
      | some mb =>
        obtain ⟨m, b⟩ := mb
        simp only at hs ⊢
        split at hs
        · rename_i hab
          rw [if_pos hab]
          cases hs
          rfl
        · rename_i hab
          rw [if_neg hab]
          obtain ⟨t, ht, hs⟩ := Res.bind_eq_ok.mp hs
          rw [total_padB k ht, Res.ok_bind]
          exact expand_padB k hs
      | none =>
        simp only at hs ⊢
        obtain ⟨meets, hm, hs⟩ := Res.bind_eq_ok.mp hs
        rw [meeting_pad k hm, Res.ok_bind]
        split at hs
        · rename_i hab
          rw [if_pos hab]
          obtain ⟨t, ht, hs⟩ := Res.bind_eq_ok.mp hs
          rw [total_padB k ht, Res.ok_bind]
          exact expand_padB k hs
        · rename_i hab
          rw [if_neg hab]
          exact expand_padB k hs

theorem loop_padB (k : Nat) {fuel : Nat} {best best' : Best K} {s s' : St K}
    (hs : loop fits h g wt fuel s best = some (.ok (s', best'))) :
    loop fits h g wt fuel (s.pad k) best = some (.ok (s'.pad k, best')) := by
  induction fuel generalizing s best with
  | zero => cases hs
  | succ n ih =>
    unfold loop at hs ⊢
    rw [show (s.pad k).queue = s.queue from rfl]
    split at hs
    · cases hs; rfl
    · rename_i cur q hp
      rw [show ({ s.pad k with queue := q } : St K) = ({ s with queue := q } : St K).pad k from rfl]
      split at hs
      · cases hs
      · cases hs
      · rename_i s1 b1 h1
        rw [step_padB k h1]
        cases hs
        rfl
      · rename_i s1 b1 h1
        rw [step_padB k h1]
        exact ih hs

theorem search_padB (k : Nat) {fuel : Nat} {s s' : St K} {ans : Option Path}
    (hs : search fits h g wt fuel s src dst = some (.ok (s', ans))) :
    search fits h g wt fuel (s.pad k) src dst = some (.ok (s'.pad k, ans)) := by
  unfold search at hs ⊢
  split at hs
  · cases hs
  · cases hs
  · cases hs
  · rename_i s1 best hl
    rw [loop_padB k hl]
    simp only
    simp only [Option.map_eq_some_iff] at hs ⊢
    obtain ⟨r, hr, hs⟩ := hs
    obtain ⟨p, rfl, hs⟩ := Res.bind_eq_ok.mp hs
    cases hs
    refine ⟨.ok ans, ?_, rfl⟩
    unfold mkPath at hr ⊢
    cases best with
    | none => exact hr
    | some mb =>
      obtain ⟨m, b⟩ := mb
      simp only at hr ⊢
      obtain ⟨rf, hrf, hr⟩ := Option.bind_eq_some_iff.mp hr
      obtain ⟨rb, hrb, hr⟩ := Option.bind_eq_some_iff.mp hr
      simp only [Option.pure_def, Option.some.injEq] at hr
      obtain ⟨f, rfl, hr'⟩ := Res.bind_eq_ok.mp hr
      obtain ⟨b', rfl, hr''⟩ := Res.bind_eq_ok.mp hr'
      rw [walk_pad k hrf, walk_pad k hrb]
      simp only [Option.bind_eq_bind, Option.bind_some, Option.pure_def, Option.some.injEq]
      exact hr

theorem loop_pad_noneB (k : Nat) {fuel : Nat} {best : Best K} {s : St K}
    (hs : loop fits h g wt fuel s best = none) : loop fits h g wt fuel (s.pad k) best = none := by
  induction fuel generalizing s best with
  | zero => rfl
  | succ n ih =>
    unfold loop at hs ⊢
    rw [show (s.pad k).queue = s.queue from rfl]
    split at hs
    · cases hs
    · rename_i cur q hp
      rw [show ({ s.pad k with queue := q } : St K) = ({ s with queue := q } : St K).pad k from rfl]
      split at hs
      · cases hs
      · cases hs
      · cases hs
      · rename_i s1 b1 h1
        rw [step_padB k h1]
        exact ih hs

theorem search_pad_noneB (k : Nat) {fuel : Nat} {s : St K}
    (hs : search fits h g wt fuel s src dst = none) : search fits h g wt fuel (s.pad k) src dst = none := by
  unfold search at hs ⊢
  split at hs
  · rename_i hl
    rw [loop_pad_noneB k hl]
  · cases hs
  · cases hs
  · rename_i s1 best hl
    rw [loop_padB k hl]
    simp only
    rw [Option.map_eq_none_iff] at hs ⊢
    unfold mkPath at hs ⊢
    cases best with
    | none => cases hs
    | some mb =>
      obtain ⟨m, b⟩ := mb
      simp only at hs ⊢
      cases hf : walk g s1 .fwd fuel m with
      | none => rw [walk_pad_none k hf]; rfl
      | some rf =>
        cases hb : walk g s1 .bwd fuel m with
        | none =>
          rw [walk_pad_none k hb]
          cases walk g (s1.pad k) .fwd fuel m <;> rfl
        | some rb => rw [hf, hb] at hs; cases hs

theorem _root_.Verif.Dij.Tidy.mono {n m : Nat} (hnm : n ≤ m) {s : St K} (ht : Tidy n s) : Tidy m s :=
  ⟨ht.len, fun d => le_trans (ht.le d) hnm, ht.touched, ht.unset⟩

/-- If a search is started, it does the same with longer vectors. -/
theorem compute_begin {dotp : List ℚ → List ℚ → Option K} {fuel n : Nat} {s : St K} {q : Query K} {wt' : List ℚ → K}
    (hsrc : q.src < q.graph.nodeCount) (hdst : q.dst < q.graph.nodeCount)
    (ht : Tidy n s) (halg : q.algo ≠ .explorator) (hal : ∀ a ∈ q.alphas, 0 ≤ a) :
    computeBestPath fits h dotp fuel s q = some .panic ∨
    ∃ s1 : St K, Sim q.graph (decide (q.algo = .chDijkstra)) (s1.pad q.graph.nodeCount)
        (initA (cfg h q.graph wt' (decide (q.algo = .chDijkstra)) q.src q.dst)) ∧
      computeBestPath fits h dotp fuel s q = search fits h q.graph (dotp q.alphas) fuel s1 q.src q.dst := by
  replace ht := Tidy.mono (le_max_left n q.graph.nodeCount) ht
  rw [compute_eqB halg hal]
  set b := decide (q.algo = .chDijkstra) with hb
  cases h0 : initQuery { s with isCh := b } q.graph.nodeCount with
  | panic => exact Or.inl rfl
  | err e => cases e
  | ok s0 =>
    rw [Res.ok_bind]
    have ht' : Tidy _ { s with isCh := b } := ht.congr rfl rfl rfl
    have e := initQuery_inv (le_max_right _ _) ht' h0
    cases h1 : start h s0 q.src q.dst with
    | panic => exact Or.inl rfl
    | err e => cases e
    | ok s1 =>
      refine Or.inr ⟨s1, ?_, rfl⟩
      have hst := start_pad (h := h) q.graph.nodeCount h1
      have hblank : s0.pad q.graph.nodeCount = blank b
          (fun d => newLenD { s with isCh := b } q.graph.nodeCount d + q.graph.nodeCount) s0.visited := by
        rw [e]
        simp only [St.pad, blank, List.replicate_append_replicate]
      rw [hblank] at hst
      obtain ⟨s3, h3, hsim⟩ := start_sim' (h := h) (g := q.graph) (wt := wt') (isCh := b)
        (src := q.src) (dst := q.dst) (vis := s0.visited)
        (L := fun d => newLenD { s with isCh := b } q.graph.nodeCount d + q.graph.nodeCount)
        hsrc hdst (fun d => Nat.le_add_left _ _) (fun hbf => by
          rw [e]
          simp only [blank]
          rw [if_neg (by rw [hbf]; decide)])
      rw [hst] at h3
      cases h3
      exact hsim

/-- What an answered query says, after any history. -/
theorem compute_answeredB {dotp : List ℚ → List ℚ → Option K} {fuel n : Nat} {s s' : St K} {q : Query K}
    {ans : Option Path} (hwf : q.graph.WellFormed) (hk : AddOk K)
    (hw : ∀ m ∈ q.graph.metrics, 0 ≤ wt0 (dotp q.alphas) m)
    (h0 : fits 0 = true) (hdown : ∀ x y, x ≤ y → fits y = true → fits x = true)
    (hsrc : q.src < q.graph.nodeCount) (hdst : q.dst < q.graph.nodeCount)
    (ht : Tidy n s) (halg : q.algo ≠ .explorator) (hal : ∀ a ∈ q.alphas, 0 ≤ a)
    (hr : computeBestPath fits h dotp fuel s q = some (.ok (s', ans)))
    {c : Cfg K} (hc : c = cfg h q.graph (wt0 (dotp q.alphas)) (decide (q.algo = .chDijkstra)) q.src q.dst) :
    (ans = none → ∀ m tf tb, IsRt (c.out .fwd) q.src tf m → Fine fits (finite q.graph (dotp q.alphas)) tf →
      IsRt (c.out .bwd) q.dst tb m → ¬ Fine fits (finite q.graph (dotp q.alphas)) tb) ∧
    ∀ p, ans = some p → ∃ m tf tb i j, IsRt (c.out .fwd) q.src tf m ∧
      Fine fits (finite q.graph (dotp q.alphas)) tf ∧ IsRt (c.out .bwd) q.dst tb m ∧
      Fine fits (finite q.graph (dotp q.alphas)) tb ∧ q.graph.nodeId q.src = .ok i ∧
      q.graph.nodeId q.dst = .ok j ∧
      p = Path.new q.src i q.dst j (tf.map (·.1) ++ (tb.map (·.1)).reverse) := by
  rcases compute_begin (fits := fits) (h := h) (dotp := dotp) (fuel := fuel) (wt' := wt0 (dotp q.alphas)) hsrc hdst ht
    halg hal with h1 | ⟨s1, hs1, h1⟩
  · rw [h1] at hr; cases hr
  rw [h1] at hr
  have hr := search_padB q.graph.nodeCount hr
  have ho := outOk (h := h) (isCh := decide (q.algo = .chDijkstra)) (src := q.src) (dst := q.dst) hwf hw
  rw [← hc] at ho hs1
  have hrf : c.root .fwd = q.src := by rw [hc]; rfl
  have hrb : c.root .bwd = q.dst := by rw [hc]; rfl
  rcases search_casesB (fuel := fuel) hwf hk hw h0 hsrc hdst hc hs1 with h2 | h2 |
    ⟨s2, a, best, ans', h2, hi, hq, _, h3, h4⟩
  · rw [h2.1] at hr; cases hr
  · rw [h2.1] at hr; cases hr
  rw [h2] at hr
  cases hr
  constructor
  · rintro rfl m tf tb hf hff hb hbf
    cases best with
    | some mb =>
      obtain ⟨_, _, _, _, _, _, _, _, _, _, _, _, h5⟩ := h4 mb.1 mb.2 rfl
      cases h5
    | none => exact unmet_none hk hdown hi (hq rfl) (by rw [hrf]; exact hf) hff (by rw [hrb]; exact hb) hbf
  · rintro p rfl
    cases best with
    | none => cases h3 rfl
    | some mb =>
      obtain ⟨f, bk, i, j, x, y, hf, hb, hx, hy, hi1, hj1, hp⟩ := h4 mb.1 mb.2 rfl
      obtain ⟨tf, h5, h6, h7⟩ := chain_fine hk ho hdown hi hf hx
      obtain ⟨tb, h8, h9, h10⟩ := chain_fine hk ho hdown hi hb hy
      rw [hrf] at h6
      rw [hrb] at h9
      refine ⟨mb.1, tf, tb, i, j, h6, h7, h9, h10, hi1, hj1, ?_⟩
      cases hp
      rw [h5, h8, List.reverse_reverse]

/-- If the fuel does not suffice, it does not suffice for the search or for following predecessors. -/
theorem compute_noneB {dotp : List ℚ → List ℚ → Option K} {fuel n : Nat} {s : St K} {q : Query K}
    (hwf : q.graph.WellFormed) (hk : AddOk K)
    (hw : ∀ m ∈ q.graph.metrics, 0 ≤ wt0 (dotp q.alphas) m) (h0 : fits 0 = true)
    (hsrc : q.src < q.graph.nodeCount) (hdst : q.dst < q.graph.nodeCount)
    (ht : Tidy n s) (halg : q.algo ≠ .explorator) (hal : ∀ a ∈ q.alphas, 0 ≤ a)
    (hr : computeBestPath fits h dotp fuel s q = none)
    {c : Cfg K} (hc : c = cfg h q.graph (wt0 (dotp q.alphas)) (decide (q.algo = .chDijkstra)) q.src q.dst) :
    loopB fits (finite q.graph (dotp q.alphas)) c fuel (initA c) none = none ∨ fuel ≤ q.graph.nodeCount := by
  rcases compute_begin (fits := fits) (h := h) (dotp := dotp) (fuel := fuel) (wt' := wt0 (dotp q.alphas)) hsrc hdst ht
    halg hal with h1 | ⟨s1, hs1, h1⟩
  · rw [h1] at hr; cases hr
  rw [h1] at hr
  have hr := search_pad_noneB q.graph.nodeCount hr
  rw [← hc] at hs1
  rcases search_casesB (fuel := fuel) hwf hk hw h0 hsrc hdst hc hs1 with h2 | h2 | ⟨s2, a, best, ans', h2, _⟩
  · exact h2.2
  · rw [h2.1] at hr; cases hr
  · rw [h2] at hr; cases hr

/-- Without overflow, an answer comes from the search without overflow, after any history. -/
theorem same_answered {dotp : List ℚ → List ℚ → Option K} {dotp' : List ℚ → List ℚ → K} {B : Nat → K} {fuel n : Nat}
    {s s' : St K} {q : Query K} {ans : Option Path} (hwf : q.graph.WellFormed) (hk : AddOk K)
    (hw : ∀ m ∈ q.graph.metrics, 0 ≤ dotp' q.alphas m) (hB : Bound q.graph (dotp' q.alphas) B)
    (hwt : ∀ m ∈ q.graph.metrics, dotp q.alphas m = some (dotp' q.alphas m))
    (hfit : ∀ x, x ≤ B q.graph.nodeCount + B q.graph.nodeCount → fits x = true)
    (hsrc : q.src < q.graph.nodeCount) (hdst : q.dst < q.graph.nodeCount)
    (ht : Tidy n s) (halg : q.algo ≠ .explorator) (hal : ∀ a ∈ q.alphas, 0 ≤ a)
    (hr : computeBestPath fits h dotp fuel s q = some (.ok (s', ans)))
    {c : Cfg K} (hc : c = cfg h q.graph (dotp' q.alphas) (decide (q.algo = .chDijkstra)) q.src q.dst) :
    ∃ a best, loopA c fuel (initA c) none = some (a, best) ∧
      (best = none → ans = none) ∧
      ∀ m b, best = some (m, b) → ∃ f bk i j, Chain (a.pred .fwd) (tailD q.graph .fwd) m f ∧
        Chain (a.pred .bwd) (tailD q.graph .bwd) m bk ∧
        q.graph.nodeId q.src = .ok i ∧ q.graph.nodeId q.dst = .ok j ∧
        ans = some (Path.new q.src i q.dst j (f.reverse ++ bk)) := by
  rcases compute_begin (fits := fits) (h := h) (dotp := dotp) (fuel := fuel) (wt' := dotp' q.alphas) hsrc hdst ht
    halg hal with h1 | ⟨s1, hs1, h1⟩
  · rw [h1] at hr; cases hr
  rw [h1] at hr
  have hr := search_padB q.graph.nodeCount hr
  have e : search fits h q.graph (dotp q.alphas) fuel (s1.pad q.graph.nodeCount) q.src q.dst =
      Dij.search h q.graph (dotp' q.alphas) fuel (s1.pad q.graph.nodeCount) q.src q.dst := by
    unfold search Dij.search
    rw [loop_eq hwf hk hw hB hwt hfit hsrc hdst hs1 Inv1.init (by
      intro x hx
      rw [initA_queue] at hx
      rw [hx]
      exact ⟨[], rfl, rfl, by simp, by intro p t s h; simp at h⟩) (by
      intro d v x hx
      have hB0 : 0 ≤ B q.graph.nodeCount := le_trans hB.zero (hB.mono (Nat.zero_le _))
      simp only [initA, upd] at hx
      split at hx
      · cases hx; exact hB0
      · split at hx
        · cases hx; exact hB0
        · cases hx)]
    rfl
  rw [e] at hr
  rcases search_cases (fuel := fuel) hwf hk hw hsrc hdst hs1 with h2 | h2 | h2
  · rw [h2.1] at hr; cases hr
  · rw [h2.1] at hr; cases hr
  · obtain ⟨s3, a, best, ans', h2, h3⟩ := h2
    rw [h2] at hr
    cases hr
    rw [hc]
    exact ⟨a, best, h3⟩

/-- What that means if there is a path. -/
theorem same_path {dotp : List ℚ → List ℚ → Option K} {dotp' : List ℚ → List ℚ → K} {B : Nat → K} {fuel n : Nat}
    {s s' : St K} {q : Query K} {p : Path} (hwf : q.graph.WellFormed) (hk : AddOk K)
    (hw : ∀ m ∈ q.graph.metrics, 0 ≤ dotp' q.alphas m) (hB : Bound q.graph (dotp' q.alphas) B)
    (hwt : ∀ m ∈ q.graph.metrics, dotp q.alphas m = some (dotp' q.alphas m))
    (hfit : ∀ x, x ≤ B q.graph.nodeCount + B q.graph.nodeCount → fits x = true)
    (hsrc : q.src < q.graph.nodeCount) (hdst : q.dst < q.graph.nodeCount)
    (ht : Tidy n s) (halg : q.algo ≠ .explorator) (hal : ∀ a ∈ q.alphas, 0 ≤ a)
    (hr : computeBestPath fits h dotp fuel s q = some (.ok (s', some p)))
    {c : Cfg K} (hc : c = cfg h q.graph (dotp' q.alphas) (decide (q.algo = .chDijkstra)) q.src q.dst) :
    ∃ a m t x y tf tb i j, loopA c fuel (initA c) none = some (a, some (m, some t)) ∧ x + y ≤ t ∧
      IsRt (c.out .fwd) c.src tf m ∧ IsRt (c.out .bwd) c.dst tb m ∧
      costFrom 0 tf ≤ x ∧ costFrom 0 tb ≤ y ∧ tf.length < q.graph.nodeCount ∧ tb.length < q.graph.nodeCount ∧
      p = Path.new q.src i q.dst j (tf.map (·.1) ++ (tb.map (·.1)).reverse) := by
  obtain ⟨a, best, hl, h3, h4⟩ := same_answered hwf hk hw hB hwt hfit hsrc hdst ht halg hal hr hc
  have ho := outOk (h := h) (isCh := decide (q.algo = .chDijkstra)) (src := q.src) (dst := q.dst) hwf hw
  rw [← hc] at ho
  have hi := inv1_final hk ho hl
  cases best with
  | none => cases h3 rfl
  | some mb =>
    obtain ⟨m, b⟩ := mb
    obtain ⟨t, x, y, rfl, hx, hy, hxy⟩ := hi.best m b rfl
    obtain ⟨f, bk, i, j, hf, hb, hi1, hj1, hp⟩ := h4 m _ rfl
    obtain ⟨tf, h5, h6, h7⟩ := hi.chain_route hk ho hf hx
    obtain ⟨tb, h8, h9, h10⟩ := hi.chain_route hk ho hb hy
    have hfo := finOk (h := h) (wt := dotp' q.alphas) (isCh := decide (q.algo = .chDijkstra)) hwf hsrc hdst
    rw [← hc] at hfo
    have l1 := hi.chain_length ho hfo hf hx
    have l2 := hi.chain_length ho hfo hb hy
    rw [← List.length_reverse, ← h5, List.length_map] at l1
    rw [← List.length_reverse, ← h8, List.length_map] at l2
    refine ⟨a, m, t, x, y, tf, tb, i, j, hl, hxy, h6, h9, h7, h10, l1, l2, ?_⟩
    cases hp
    rw [h5, h8, List.reverse_reverse]

end
end Verif.Over
