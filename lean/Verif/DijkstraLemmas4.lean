import Verif.DijkstraLemmas3

/-!
# Longer vectors do not change an answer, and the cases of an answered query
-/

namespace Verif.Dij

set_option linter.unusedSectionVars false

open Search Graph Build

section
variable {K : Type} [LinearOrder K] [Zero K] [Add K] {h : Heap K} {g : Graph} {wt : List ℚ → K}
  {isCh : Bool} {src dst : Nat}

/-- Longer vectors. -/
def St.pad (k : Nat) (s : St K) : St K :=
  { s with
    costs := fun d => s.costs d ++ List.replicate k none
    preds := fun d => s.preds d ++ List.replicate k none }

theorem setIdx_pad {α : Type} {l l' : List α} {i : Nat} {x : α} (r : List α)
    (hs : setIdx l i x = .ok l') : setIdx (l ++ r) i x = .ok (l' ++ r) := by
  obtain ⟨hi, rfl⟩ := setIdx_inv hs
  rw [setIdx, if_pos (by rw [List.length_append]; omega), List.set_append_left _ _ hi]

theorem ofIdx_pad {α : Type} {l : List α} {i : Nat} {x : α} (r : List α)
    (hs : (Res.ofIdx l[i]? : R α) = .ok x) : (Res.ofIdx (l ++ r)[i]? : R α) = .ok x := by
  rw [Res.ofIdx_eq_ok] at hs ⊢
  rw [List.getElem?_append_left (lt_length_of_getElem? hs)]
  exact hs

theorem update_append {α : Type} (f : Dir → List α) (d : Dir) (l r : List α) :
    Function.update (fun d => f d ++ r) d (l ++ r) = fun d' => Function.update f d l d' ++ r := by
  funext d'
  by_cases hd : d' = d
  · subst hd; simp
  · simp [Function.update_of_ne hd]

theorem start_pad (k : Nat) {s s' : St K} (hs : start h s src dst = .ok s') :
    start h (s.pad k) src dst = .ok (s'.pad k) := by
  unfold start at hs ⊢
  obtain ⟨cf, hcf, hs⟩ := Res.bind_eq_ok.mp hs
  obtain ⟨cb, hcb, hs⟩ := Res.bind_eq_ok.mp hs
  cases hs
  have h1 : setIdx ((s.pad k).costs .fwd) src (some 0) = .ok (cf ++ List.replicate k none) :=
    setIdx_pad _ hcf
  have h2 : setIdx ((s.pad k).costs .bwd) dst (some 0) = .ok (cb ++ List.replicate k none) :=
    setIdx_pad _ hcb
  rw [h1, h2]
  simp only [Res.ok_bind, Res.pure_eq, Res.ok.injEq]
  unfold St.pad
  simp only [update_append]

theorem relax_pad (k : Nat) {isNone : Bool} {cur : CN K} {es : List Nat} {s s' : St K}
    (hs : relax h g wt isNone cur es s = .ok s') :
    relax h g wt isNone cur es (s.pad k) = .ok (s'.pad k) := by
  induction es generalizing s with
  | nil => cases hs; rfl
  | cons e es ih =>
    unfold relax at hs ⊢
    obtain ⟨v, hv, hs⟩ := Res.bind_eq_ok.mp hs
    obtain ⟨lower, hlo, hs⟩ := Res.bind_eq_ok.mp hs
    rw [hv, Res.ok_bind, show (s.pad k).isCh = s.isCh from rfl, hlo, Res.ok_bind]
    split at hs
    · rename_i hl
      rw [if_pos hl]
      cases hs; rfl
    · rename_i hl
      rw [if_neg hl]
      obtain ⟨m, hm, hs⟩ := Res.bind_eq_ok.mp hs
      obtain ⟨old, hold, hs⟩ := Res.bind_eq_ok.mp hs
      have hold' : (Res.ofIdx ((s.pad k).costs cur.dir)[v]? : R (Option K)) = .ok old :=
        ofIdx_pad _ hold
      rw [hm, Res.ok_bind, hold', Res.ok_bind]
      split at hs
      · rename_i hlt
        rw [if_pos hlt]
        obtain ⟨ps, hps, hs⟩ := Res.bind_eq_ok.mp hs
        obtain ⟨cs, hcs, hs⟩ := Res.bind_eq_ok.mp hs
        have h1 : setIdx ((s.pad k).preds cur.dir) v (some e) = .ok (ps ++ List.replicate k none) :=
          setIdx_pad _ hps
        have h2 : setIdx ((s.pad k).costs cur.dir) v (some (cur.cost + wt m)) =
          .ok (cs ++ List.replicate k none) := setIdx_pad _ hcs
        rw [h1, Res.ok_bind, h2, Res.ok_bind]
        have := ih hs
        rw [← this]
        unfold St.pad
        simp only [update_append]
      · rename_i hlt
        rw [if_neg hlt]
        exact ih hs

theorem visit_pad (k : Nat) {cur : CN K} {s s' : St K} (hs : visit s cur = .ok s') :
    visit (s.pad k) cur = .ok (s'.pad k) := by
  unfold visit at hs ⊢
  rw [show (s.pad k).isCh = s.isCh from rfl, show (s.pad k).visited = s.visited from rfl]
  split at hs
  · rename_i hc
    rw [if_pos hc]
    cases hs; rfl
  · rename_i hc
    rw [if_neg hc]
    obtain ⟨vs, hvs, hs⟩ := Res.bind_eq_ok.mp hs
    cases hs
    rw [hvs]
    rfl

/-- Longer vectors in what comes next. -/
def Next.pad (k : Nat) : Next K → Next K
  | .stop s b => .stop (s.pad k) b
  | .go s b => .go (s.pad k) b

theorem expand_pad (k : Nat) {best : Best K} {cur : CN K} {s : St K} {nx : Next K}
    (hs : expand h g wt s best cur = .ok nx) :
    expand h g wt (s.pad k) best cur = .ok (nx.pad k) := by
  unfold expand at hs ⊢
  obtain ⟨es, hes, hs⟩ := Res.bind_eq_ok.mp hs
  obtain ⟨s1, h1, hs⟩ := Res.bind_eq_ok.mp hs
  cases hs
  rw [hes, Res.ok_bind, relax_pad k h1]
  rfl

theorem total_pad (k : Nat) {s : St K} {i : Nat} {t : Option K} (hs : totalCost s i = .ok t) :
    totalCost (s.pad k) i = .ok t := by
  unfold totalCost at hs ⊢
  obtain ⟨a, ha, hs⟩ := Res.bind_eq_ok.mp hs
  obtain ⟨b, hb, hs⟩ := Res.bind_eq_ok.mp hs
  have h1 : (Res.ofIdx ((s.pad k).costs .fwd)[i]? : R (Option K)) = .ok a := ofIdx_pad _ ha
  have h2 : (Res.ofIdx ((s.pad k).costs .bwd)[i]? : R (Option K)) = .ok b := ofIdx_pad _ hb
  rw [h1, Res.ok_bind, h2]
  exact hs

theorem meeting_pad (k : Nat) {s : St K} {cur : CN K} {b : Bool} (hs : isMeeting s cur = .ok b) :
    isMeeting (s.pad k) cur = .ok b := by
  unfold isMeeting at hs ⊢
  rw [show (s.pad k).isCh = s.isCh from rfl, show (s.pad k).visited = s.visited from rfl]
  split at hs
  · rename_i hc
    rw [if_pos hc]
    obtain ⟨c, hcc, hs⟩ := Res.bind_eq_ok.mp hs
    have h1 : (Res.ofIdx ((s.pad k).costs cur.dir.opp)[cur.idx]? : R (Option K)) = .ok c :=
      ofIdx_pad _ hcc
    rw [h1]
    exact hs
  · rename_i hc
    rw [if_neg hc]
    exact hs

theorem step_pad (k : Nat) {best : Best K} {cur : CN K} {s : St K} {nx : Next K}
    (hs : step h g wt s best cur = .ok nx) :
    step h g wt (s.pad k) best cur = .ok (nx.pad k) := by
  unfold step at hs ⊢
  rw [show (s.pad k).flag = s.flag from rfl]
  split at hs
  · rename_i hc
    rw [if_pos hc]
    cases hs; rfl
  · rename_i hc
    rw [if_neg hc]
    obtain ⟨label, hlab, hs⟩ := Res.bind_eq_ok.mp hs
    have h1 : (Res.ofIdx ((s.pad k).costs cur.dir)[cur.idx]? : R (Option K)) = .ok label :=
      ofIdx_pad _ hlab
    rw [h1, Res.ok_bind]
    split at hs
    · rename_i hl
      rw [if_pos hl]
      cases hs; rfl
    · rename_i hl
      rw [if_neg hl]
      obtain ⟨s1, h2, hs⟩ := Res.bind_eq_ok.mp hs
      rw [visit_pad k h2, Res.ok_bind]
      cases best with
      | some mb =>
        obtain ⟨m, b⟩ := mb
        simp only at hs ⊢
        split at hs
        · rename_i hab
          rw [if_pos hab]
          cases hs
          rfl
        · rename_i hab
          rw [if_neg hab]
          obtain ⟨t, ht, hs⟩ := Res.bind_eq_ok.mp hs
          rw [total_pad k ht, Res.ok_bind]
          exact expand_pad k hs
      | none =>
        simp only at hs ⊢
        obtain ⟨meets, hm, hs⟩ := Res.bind_eq_ok.mp hs
        rw [meeting_pad k hm, Res.ok_bind]
        split at hs
        · rename_i hab
          rw [if_pos hab]
          obtain ⟨t, ht, hs⟩ := Res.bind_eq_ok.mp hs
          rw [total_pad k ht, Res.ok_bind]
          exact expand_pad k hs
        · rename_i hab
          rw [if_neg hab]
          exact expand_pad k hs

theorem loop_pad (k : Nat) {fuel : Nat} {best best' : Best K} {s s' : St K}
    (hs : loop h g wt fuel s best = some (.ok (s', best'))) :
    loop h g wt fuel (s.pad k) best = some (.ok (s'.pad k, best')) := by
  induction fuel generalizing s best with
  | zero => cases hs
  | succ n ih =>
    unfold loop at hs ⊢
    rw [show (s.pad k).queue = s.queue from rfl]
    split at hs
    · cases hs; rfl
    · rename_i cur q hp
      rw [show ({ s.pad k with queue := q } : St K) = ({ s with queue := q } : St K).pad k from rfl]
      split at hs
      · cases hs
      · cases hs
      · rename_i s1 b1 h1
        rw [step_pad k h1]
        cases hs
        rfl
      · rename_i s1 b1 h1
        rw [step_pad k h1]
        exact ih hs

theorem walk_pad (k : Nat) {s : St K} {d : Dir} {fuel cur : Nat} {l : List Nat}
    (hs : walk g s d fuel cur = some (.ok l)) : walk g (s.pad k) d fuel cur = some (.ok l) := by
  induction fuel generalizing cur l with
  | zero => cases hs
  | succ n ih =>
    unfold walk at hs ⊢
    have hpre : ∀ x, (s.preds d)[cur]? = some x → ((s.pad k).preds d)[cur]? = some x := by
      intro x hx
      simp only [St.pad]
      rw [List.getElem?_append_left (lt_length_of_getElem? hx)]
      exact hx
    split at hs
    · cases hs
    · rename_i hp
      rw [hpre _ hp]
      exact hs
    · rename_i e hp
      rw [hpre _ hp]
      simp only
      split at hs
      · rename_i u hu
        simp only [Option.map_eq_some_iff] at hs ⊢
        obtain ⟨r, hr, hs⟩ := hs
        obtain ⟨es, hes, hs⟩ := Res.bind_eq_ok.mp hs
        subst hes
        exact ⟨.ok es, ih hr, hs⟩
      · cases hs

theorem search_pad (k : Nat) {fuel : Nat} {s s' : St K} {ans : Option Path}
    (hs : search h g wt fuel s src dst = some (.ok (s', ans))) :
    search h g wt fuel (s.pad k) src dst = some (.ok (s'.pad k, ans)) := by
  unfold search at hs ⊢
  split at hs
  · cases hs
  · cases hs
  · cases hs
  · rename_i s1 best hl
    rw [loop_pad k hl]
    simp only
    simp only [Option.map_eq_some_iff] at hs ⊢
    obtain ⟨r, hr, hs⟩ := hs
    obtain ⟨p, rfl, hs⟩ := Res.bind_eq_ok.mp hs
    cases hs
    refine ⟨.ok ans, ?_, rfl⟩
    unfold mkPath at hr ⊢
    cases best with
    | none => exact hr
    | some mb =>
      obtain ⟨m, b⟩ := mb
      simp only at hr ⊢
      obtain ⟨rf, hrf, hr⟩ := Option.bind_eq_some_iff.mp hr
      obtain ⟨rb, hrb, hr⟩ := Option.bind_eq_some_iff.mp hr
      simp only [Option.pure_def, Option.some.injEq] at hr
      obtain ⟨f, rfl, hr'⟩ := Res.bind_eq_ok.mp hr
      obtain ⟨b', rfl, hr''⟩ := Res.bind_eq_ok.mp hr'
      rw [walk_pad k hrf, walk_pad k hrb]
      simp only [Option.bind_eq_bind, Option.bind_some, Option.pure_def, Option.some.injEq]
      exact hr

theorem Used.mono {dotp : List ℚ → List ℚ → K} {n m : Nat} (hnm : n ≤ m) {s : St K}
    (hu : Used h dotp n s) : Used h dotp m s := by
  induction hu with
  | new => exact .new
  | query _ hq hc ih => exact .query ih (le_trans hq hnm) hc

/-- Long enough vectors show the initial state of the search. -/
theorem start_sim' (hsrc : src < g.nodeCount) (hdst : dst < g.nodeCount) {vis : Dir → List Bool}
    {L : Dir → Nat} (hL : ∀ d, g.nodeCount ≤ L d)
    (hvis : isCh = false → vis = fun _ => List.replicate g.nodeCount false) :
    ∃ s, start h (blank isCh L vis) src dst = .ok s ∧
      Sim g isCh s (initA (cfg h g wt isCh src dst)) := by
  have h1 : src < L .fwd := lt_of_lt_of_le hsrc (hL _)
  have h2 : dst < L .bwd := lt_of_lt_of_le hdst (hL _)
  simp only [start, blank, setIdx, List.length_replicate, h1, h2, if_true, Res.ok_bind, Res.pure_eq,
    Res.ok.injEq, exists_eq_left']
  have hlt : ∀ d v, v < g.nodeCount → v < L d := fun d v hv => lt_of_lt_of_le hv (hL d)
  constructor
  · rfl
  · rfl
  · rfl
  · intro d v hv
    cases d
    · simp only [initA, cfg, upd]
      by_cases hvs : v = src
      · subst hvs; simp [hlt _ _ hv]
      · simp [hvs, Ne.symm hvs, hlt _ _ hv]
    · simp only [initA, cfg, upd]
      by_cases hvs : v = dst
      · subst hvs; simp [hlt _ _ hv]
      · simp [hvs, Ne.symm hvs, hlt _ _ hv]
  · intro d v hv
    simp [initA, hlt _ _ hv]
  · intro hc d v hv
    simp [initA, hvis hc, hv]

/-- If a query is answered, the search has found the answer, after any history. -/
theorem compute_search {dotp : List ℚ → List ℚ → K} {fuel n : Nat} {s s' : St K} {q : Query K}
    {ans : Option Path} (hsrc : q.src < q.graph.nodeCount) (hdst : q.dst < q.graph.nodeCount)
    (ht : Tidy n s) (hle : q.graph.nodeCount ≤ n)
    (halg : q.algo ≠ .explorator) (hal : ∀ a ∈ q.alphas, 0 ≤ a)
    (hc : computeBestPath h dotp fuel s q = some (.ok (s', ans))) :
    ∃ s1 s2, Sim q.graph (decide (q.algo = .chDijkstra)) s1
        (initA (cfg h q.graph (dotp q.alphas) (decide (q.algo = .chDijkstra)) q.src q.dst)) ∧
      search h q.graph (dotp q.alphas) fuel s1 q.src q.dst = some (.ok (s2, ans)) := by
  rw [compute_eq halg hal] at hc
  set b := decide (q.algo = .chDijkstra) with hb
  split at hc
  · cases hc
  · cases hc
  · rename_i s1 h1
    obtain ⟨s0, h0, h1⟩ := Res.bind_eq_ok.mp h1
    have ht' : Tidy n { s with isCh := b } := ht.congr rfl rfl rfl
    have e := initQuery_inv hle ht' h0
    have hp := search_pad q.graph.nodeCount hc
    have hst := start_pad (h := h) q.graph.nodeCount h1
    have hblank : s0.pad q.graph.nodeCount = blank b
        (fun d => newLenD { s with isCh := b } q.graph.nodeCount d + q.graph.nodeCount) s0.visited := by
      rw [e]
      simp only [St.pad, blank, List.replicate_append_replicate]
    rw [hblank] at hst
    obtain ⟨s3, h3, hsim⟩ := start_sim' (h := h) (g := q.graph) (wt := dotp q.alphas) (isCh := b)
      (src := q.src) (dst := q.dst) (vis := s0.visited)
      (L := fun d => newLenD { s with isCh := b } q.graph.nodeCount d + q.graph.nodeCount)
      hsrc hdst (fun d => Nat.le_add_left _ _) (fun hbf => by
        rw [e]
        simp only [blank]
        rw [if_neg (by rw [hbf]; decide)])
    rw [hst] at h3
    cases h3
    exact ⟨_, _, hsim, hp⟩

/-- The cases of an answered query, after any history. -/
theorem answered_cases {dotp : List ℚ → List ℚ → K} {fuel n : Nat} {s s' : St K} {q : Query K}
    {ans : Option Path} (hwf : q.graph.WellFormed) (hk : AddOk K)
    (hw : ∀ m ∈ q.graph.metrics, 0 ≤ dotp q.alphas m)
    (hsrc : q.src < q.graph.nodeCount) (hdst : q.dst < q.graph.nodeCount)
    (hu : Used h dotp n s) (halg : q.algo ≠ .explorator) (hal : ∀ a ∈ q.alphas, 0 ≤ a)
    (hc : computeBestPath h dotp fuel s q = some (.ok (s', ans)))
    {c : Cfg K} (hcf : c = cfg h q.graph (dotp q.alphas) (decide (q.algo = .chDijkstra)) q.src q.dst) :
    ∃ a best, loopA c fuel (initA c) none = some (a, best) ∧
      (best = none → ans = none) ∧
      ∀ m b, best = some (m, b) → ∃ f bk i j, Chain (a.pred .fwd) (tailD q.graph .fwd) m f ∧
        Chain (a.pred .bwd) (tailD q.graph .bwd) m bk ∧
        q.graph.nodeId q.src = .ok i ∧ q.graph.nodeId q.dst = .ok j ∧
        ans = some (Path.new q.src i q.dst j (f.reverse ++ bk)) := by
  have hu' := (hu.mono (le_max_left n q.graph.nodeCount)).tidy
  obtain ⟨s1, s2, hsim, hs⟩ := compute_search hsrc hdst hu' (le_max_right _ _) halg hal hc
  rcases search_cases (fuel := fuel) hwf hk hw hsrc hdst hsim with h1 | h1 | h1
  · rw [h1.1] at hs; cases hs
  · rw [h1.1] at hs; cases hs
  · obtain ⟨s3, a, best, ans', h2, h3⟩ := h1
    rw [h2] at hs
    cases hs
    rw [hcf]
    exact ⟨a, best, h3⟩

/-- If a path is found, the alphas are not negative and the algorithm is known. -/
theorem computed_valid {dotp : List ℚ → List ℚ → K} {fuel : Nat} {s s' : St K} {q : Query K}
    {p : Path} (hc : computeBestPath h dotp fuel s q = some (.ok (s', some p))) :
    q.algo ≠ .explorator ∧ ∀ a ∈ q.alphas, 0 ≤ a := by
  unfold computeBestPath at hc
  split at hc
  · cases hc
  · rename_i hneg
    constructor
    · rintro ha
      rw [ha] at hc
      cases hc
    · simpa using hneg

/-- What `answered_cases` means if there is a path. -/
theorem answered_path {dotp : List ℚ → List ℚ → K} {fuel n : Nat} {s s' : St K} {q : Query K}
    {p : Path} (hwf : q.graph.WellFormed) (hk : AddOk K)
    (hw : ∀ m ∈ q.graph.metrics, 0 ≤ dotp q.alphas m)
    (hsrc : q.src < q.graph.nodeCount) (hdst : q.dst < q.graph.nodeCount)
    (hu : Used h dotp n s)
    (hc : computeBestPath h dotp fuel s q = some (.ok (s', some p)))
    {c : Cfg K} (hcf : c = cfg h q.graph (dotp q.alphas) (decide (q.algo = .chDijkstra)) q.src q.dst) :
    ∃ a m t x y tf tb i j, loopA c fuel (initA c) none = some (a, some (m, some t)) ∧
      a.lab .fwd m = some x ∧ a.lab .bwd m = some y ∧ x + y ≤ t ∧
      IsRt (c.out .fwd) q.src tf m ∧ IsRt (c.out .bwd) q.dst tb m ∧
      costFrom 0 tf ≤ x ∧ costFrom 0 tb ≤ y ∧
      q.graph.nodeId q.src = .ok i ∧ q.graph.nodeId q.dst = .ok j ∧
      p = Path.new q.src i q.dst j (tf.map (·.1) ++ (tb.map (·.1)).reverse) := by
  obtain ⟨halg, hal⟩ := computed_valid hc
  obtain ⟨a, best, h1, h2, h3⟩ := answered_cases hwf hk hw hsrc hdst hu halg hal hc hcf
  have ho := outOk (h := h) (isCh := decide (q.algo = .chDijkstra)) (src := q.src) (dst := q.dst) hwf hw
  rw [← hcf] at ho
  have hi := inv1_final hk ho h1
  cases best with
  | none => cases h2 rfl
  | some mb =>
    obtain ⟨m, b⟩ := mb
    obtain ⟨t, x, y, rfl, hx, hy, hle⟩ := hi.best m b rfl
    obtain ⟨f, bk, i, j, hf, hb, hi1, hj1, hp⟩ := h3 m _ rfl
    obtain ⟨tf, h4, h5, h6⟩ := hi.chain_route hk ho hf hx
    obtain ⟨tb, h7, h8, h9⟩ := hi.chain_route hk ho hb hy
    cases hp
    refine ⟨a, m, t, x, y, tf, tb, i, j, h1, hx, hy, hle, ?_, ?_, h6, h9, hi1, hj1, ?_⟩
    · rw [hcf] at h5 ⊢; exact h5
    · rw [hcf] at h8 ⊢; exact h8
    · rw [h4, h7, List.reverse_reverse]

end
end Verif.Dij
