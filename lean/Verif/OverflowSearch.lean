import Verif.OverflowLemmas

/-!
# The search with overflow without arrays

Like `Search.lean` and `DijkstraLemmas.lean`, for `Overflow.lean`.
-/

namespace Verif.Over

set_option linter.unusedSectionVars false

open Dij Search Graph

section
variable {K : Type} [LinearOrder K] [Zero K] [Add K] {fits : K → Bool} {h : Heap K} {g : Graph}
  {wt : List ℚ → Option K} {isCh : Bool} {src dst : Nat}

/-- The weight of an edge, zero if it is infinite. -/
def wt0 (wt : List ℚ → Option K) (m : List ℚ) : K := (wt m).getD 0

/-- Does an edge have a finite weight? -/
def finite (g : Graph) (wt : List ℚ → Option K) (e : Nat) : Bool :=
  match g.metrics[e]? with
  | some m => (wt m).isSome
  | none => false

/-- Can an arc be relaxed without overflow? -/
def okArc (fits : K → Bool) (fin : Nat → Bool) (cur : CN K) (t : Arc K) : Bool := fin t.1 && fits (cur.cost + t.2.2)

variable (fits) (fin : Nat → Bool) (c : Cfg K)

/-- The arcs of the popped node that are relaxed. -/
def okArcs (cur : CN K) : List (Arc K) := (c.out cur.dir cur.idx).filter (okArc fits fin cur)

/-- Sum of both labels. -/
def totalB (a : A K) (i : Nat) : Option K := plus fits (a.lab .fwd i) (a.lab .bwd i)

/-- The best meeting node after looking at `cur`. -/
def newBestB (a : A K) (best : Best K) (cur : CN K) : Best K :=
  match best with
  | some (m, b) => if ltInf (totalB fits a cur.idx) b then some (cur.idx, totalB fits a cur.idx) else some (m, b)
  | none => if meetsA c a cur then some (cur.idx, totalB fits a cur.idx) else none

/-- One iteration. -/
def stepB (a : A K) (best : Best K) (cur : CN K) : NextA K :=
  if a.flag .fwd && a.flag .bwd then .stop a best
  else if !leInf cur.cost (a.lab cur.dir cur.idx) then .go a best
  else if above best cur then
    .go { visitA c a cur with flag := Function.update a.flag cur.dir true } best
  else
    .go (relaxAll c (newBestB fits c (visitA c a cur) best cur).isNone cur (okArcs fits fin c cur)
      (visitA c a cur)) (newBestB fits c (visitA c a cur) best cur)

/-- The loop. -/
def loopB : Nat → A K → Best K → Option (A K × Best K)
  | 0, _, _ => none
  | fuel + 1, a, best =>
    match c.h.pop a.queue with
    | none => some (a, best)
    | some (cur, q) =>
      match stepB fits fin c { a with queue := q } best cur with
      | .stop a best => some (a, best)
      | .go a best => loopB fuel a best

variable {fits} {fin} {c}

/-! ## The model follows this search -/

theorem relax_simB (hwf : g.WellFormed) {cur : CN K} (hcur : cur.idx < g.nodeCount) {isNone : Bool}
    {es : List Nat} (hes : ∀ e ∈ es, e < g.edgeCount)
    (hpw : es.Pairwise (fun a b => ∀ u v lu lv, g.dstIdx cur.dir a = .ok u →
      g.dstIdx cur.dir b = .ok v → g.nodeLevel u = .ok lu → g.nodeLevel v = .ok lv → lv ≤ lu))
    {s : St K} {a : A K} (hs : Sim g isCh s a) :
    ∃ s', relax fits h g wt isNone cur es s = .ok s' ∧
      Sim g isCh s' (relaxAll (cfg h g (wt0 wt) isCh src dst) isNone cur
        ((es.filterMap (arcOf g (wt0 wt) isCh cur.dir cur.idx)).filter (okArc fits (finite g wt) cur)) a) := by
  induction es generalizing s a with
  | nil => exact ⟨s, rfl, hs⟩
  | cons e es ih =>
    rw [List.pairwise_cons] at hpw
    have he := hes e List.mem_cons_self
    obtain ⟨v, hv⟩ := edge_dst hwf he cur.dir
    obtain ⟨m, hm⟩ := edge_metrics hwf he
    have hvn := hwf.ends_lt _ _ _ hv
    have hes' : ∀ e ∈ es, e < g.edgeCount := fun e h => hes e (List.mem_cons_of_mem _ h)
    have hlower : isLower g s.isCh cur.idx v =
        .ok (isCh && decide (levelD g v < levelD g cur.idx)) := by
      unfold isLower
      rw [hs.mode, level_ok hwf hcur, level_ok hwf hvn]
      cases isCh <;> simp [acc]
    unfold relax
    rw [hv]
    simp only [acc, Res.ok_bind]
    rw [hlower]
    simp only [Res.ok_bind]
    by_cases hlow : (isCh && decide (levelD g v < levelD g cur.idx)) = true
    · -- break: all further edges are not allowed either
      rw [if_pos hlow]
      refine ⟨s, rfl, ?_⟩
      have hnil : (e :: es).filterMap (arcOf g (wt0 wt) isCh cur.dir cur.idx) = [] := by
        rw [List.filterMap_eq_nil_iff]
        intro e' he'
        simp only [Bool.and_eq_true, decide_eq_true_eq] at hlow
        rcases List.mem_cons.mp he' with rfl | he'
        · simp [arcOf, hv, hm, hlow.1, hlow.2]
        · obtain ⟨v', hv'⟩ := edge_dst hwf (hes' e' he') cur.dir
          obtain ⟨m', hm'⟩ := edge_metrics hwf (hes' e' he')
          have hvn' := hwf.ends_lt _ _ _ hv'
          have := hpw.1 e' he' v v' _ _ hv hv' (level_ok hwf hvn) (level_ok hwf hvn')
          have h2 : levelD g v' < levelD g cur.idx := by omega
          simp [arcOf, hv', hm', hlow.1, h2]
      rw [hnil]
      exact hs
    · rw [if_neg hlow]
      simp only [hm, Res.ofIdx_some, Res.ok_bind, hs.costs _ _ hvn]
      have harc : arcOf g (wt0 wt) isCh cur.dir cur.idx e = some (e, v, wt0 wt m) := by
        simp only [arcOf, hv, hm]
        rw [if_neg hlow]
      rw [List.filterMap_cons, harc]
      simp only
      have hskip : plus fits (some cur.cost) (wt m) = none → okArc fits (finite g wt) cur (e, v, wt0 wt m) = false := by
        intro hn
        cases hwm : wt m with
        | none => simp [okArc, finite, hm, hwm]
        | some w =>
          rw [hwm] at hn
          simp only [plus, cap] at hn
          simp only [okArc, finite, hm, hwm, wt0, Option.isSome_some, Option.getD_some, Bool.true_and]
          by_contra hc
          rw [if_pos (by simpa using hc)] at hn
          cases hn
      have hkeep : ∀ x, plus fits (some cur.cost) (wt m) = some x →
          x = cur.cost + wt0 wt m ∧ okArc fits (finite g wt) cur (e, v, wt0 wt m) = true := by
        intro x hx
        cases hwm : wt m with
        | none => rw [hwm] at hx; cases hx
        | some w =>
          rw [hwm] at hx
          simp only [plus, cap] at hx
          split at hx
          · rename_i hfit
            cases hx
            exact ⟨by simp [wt0, hwm], by simp [okArc, finite, hm, hwm, wt0, hfit]⟩
          · cases hx
      cases hp : plus fits (some cur.cost) (wt m) with
      | none =>
        rw [List.filter_cons_of_neg (by rw [hskip hp]; decide)]
        exact ih hes' hpw.2 hs
      | some x =>
        obtain ⟨rfl, hok⟩ := hkeep x hp
        rw [List.filter_cons_of_pos hok]
        have hunf : ∀ l, relaxAll (cfg h g (wt0 wt) isCh src dst) isNone cur ((e, v, wt0 wt m) :: l) a =
            relaxAll (cfg h g (wt0 wt) isCh src dst) isNone cur l
              (relax1 (cfg h g (wt0 wt) isCh src dst) isNone cur a (e, v, wt0 wt m)) := fun l => rfl
        rw [hunf]
        dsimp only
        by_cases hlt : ltInf (some (cur.cost + wt0 wt m)) (a.lab cur.dir v) = true
        · rw [if_pos hlt, setIdx_ok (hs.preds _ _ hvn), setIdx_ok (hs.costs _ _ hvn)]
          simp only [Res.ok_bind]
          refine ih hes' hpw.2 ?_
          have : relax1 (cfg h g (wt0 wt) isCh src dst) isNone cur a (e, v, wt0 wt m) =
            { a with
              lab := upd a.lab cur.dir v (some (cur.cost + wt0 wt m))
              pred := upd a.pred cur.dir v (some e)
              queue := if isCh || isNone then
                  h.push a.queue { idx := v, cost := cur.cost + wt0 wt m, dir := cur.dir }
                else a.queue } := by
            unfold relax1
            simp only
            rw [if_pos hlt]
            rfl
          rw [this]
          exact {
            mode := hs.mode
            queue := by simp only [hs.mode, hs.queue]
            flag := hs.flag
            costs := set_sim hs.costs
            preds := set_sim hs.preds
            visited := hs.visited }
        · rw [if_neg hlt]
          have : relax1 (cfg h g (wt0 wt) isCh src dst) isNone cur a (e, v, wt0 wt m) = a := by
            unfold relax1
            simp only
            rw [if_neg hlt]
          rw [this]
          exact ih hes' hpw.2 hs

theorem total_simB {i : Nat} (hi : i < g.nodeCount) {s : St K} {a : A K} (hs : Sim g isCh s a) :
    totalCost fits s i = .ok (totalB fits a i) := by
  simp [totalCost, totalB, hs.costs _ _ hi]

theorem expand_simB (hwf : g.WellFormed) {cur : CN K} (hcur : cur.idx < g.nodeCount) {best : Best K}
    {s : St K} {a : A K} (hs : Sim g isCh s a) :
    (∃ s', expand fits h g wt s best cur = .ok (.go s' best) ∧ Sim g isCh s'
      (relaxAll (cfg h g (wt0 wt) isCh src dst) best.isNone cur
        (okArcs fits (finite g wt) (cfg h g (wt0 wt) isCh src dst) cur) a)) ∨
    (expand fits h g wt s best cur = .panic ∧ ¬ g.Covered cur.dir cur.idx) := by
  unfold expand
  by_cases hcov : g.Covered cur.dir cur.idx
  · left
    obtain ⟨es, hes⟩ := hcov
    have hst := hwf.start _ _ _ hes
    obtain ⟨s', h1, h2⟩ := relax_simB (fits := fits) (h := h) (wt := wt) (src := src) (dst := dst) hwf hcur
      (isNone := best.isNone) (es := es)
      (fun e he => edge_lt hwf ((hst.2.1 e).mp he)) hst.2.2 hs
    refine ⟨s', ?_, ?_⟩
    · simp [hes, acc, h1]
    · have : (cfg h g (wt0 wt) isCh src dst).out cur.dir cur.idx =
          es.filterMap (arcOf g (wt0 wt) isCh cur.dir cur.idx) := by
        simp only [cfg, outArcs, hes]
      unfold okArcs
      rw [this]
      exact h2
  · right
    refine ⟨?_, hcov⟩
    simp [hwf.not_covered _ _ hcov, acc]

theorem step_simB (hwf : g.WellFormed) {cur : CN K} (hcur : cur.idx < g.nodeCount) {best : Best K}
    {s : St K} {a : A K} (hs : Sim g isCh s a) :
    (∃ nx, step fits h g wt s best cur = .ok nx ∧
      SimNext g isCh nx (stepB fits (finite g wt) (cfg h g (wt0 wt) isCh src dst) a best cur)) ∨
    (step fits h g wt s best cur = .panic ∧ ¬ g.Covered cur.dir cur.idx) := by
  unfold step stepB
  rw [hs.flag]
  by_cases hf : (a.flag .fwd && a.flag .bwd) = true
  · rw [if_pos hf, if_pos hf]
    exact Or.inl ⟨_, rfl, hs, rfl⟩
  rw [if_neg hf, if_neg hf, hs.costs _ _ hcur]
  simp only [Res.ofIdx_some, Res.ok_bind]
  by_cases hl : (!leInf cur.cost (a.lab cur.dir cur.idx)) = true
  · rw [if_pos hl, if_pos hl]
    exact Or.inl ⟨_, rfl, hs, rfl⟩
  rw [if_neg hl, if_neg hl]
  obtain ⟨s1, h1, hs1⟩ := visit_sim (h := h) (wt := wt0 wt) (src := src) (dst := dst) hcur hs
  rw [h1]
  simp only [Res.ok_bind]
  have hexp : ∀ b, (∃ nx, expand fits h g wt s1 b cur = .ok nx ∧ SimNext g isCh nx
      (.go (relaxAll (cfg h g (wt0 wt) isCh src dst) b.isNone cur
        (okArcs fits (finite g wt) (cfg h g (wt0 wt) isCh src dst) cur)
        (visitA (cfg h g (wt0 wt) isCh src dst) a cur)) b)) ∨
      (expand fits h g wt s1 b cur = .panic ∧ ¬ g.Covered cur.dir cur.idx) := by
    intro b
    rcases expand_simB (fits := fits) (h := h) (wt := wt) (src := src) (dst := dst) hwf hcur (best := b) hs1 with
      ⟨s', h2, h3⟩ | h2
    · exact Or.inl ⟨_, h2, h3, rfl⟩
    · exact Or.inr h2
  cases best with
  | some mb =>
    obtain ⟨m, b⟩ := mb
    dsimp only
    by_cases hab : ltInf b (some cur.cost) = true
    · rw [if_pos hab, if_pos (show above (some (m, b)) cur = true from hab)]
      refine Or.inl ⟨_, rfl, ?_, rfl⟩
      exact {
        mode := hs1.mode
        queue := hs1.queue
        flag := by
          have := hs1.flag
          rw [visitA_flag] at this
          simp only [this]
        costs := hs1.costs
        preds := hs1.preds
        visited := hs1.visited }
    · rw [if_neg hab, if_neg (show ¬ above (some (m, b)) cur = true from hab), total_simB hcur hs1]
      simp only [Res.ok_bind, newBestB]
      exact hexp _
  | none =>
    simp only [above, Bool.false_eq_true, if_false]
    rw [meets_sim (h := h) (wt := wt0 wt) (src := src) (dst := dst) hcur hs1, total_simB hcur hs1]
    simp only [Res.ok_bind, newBestB]
    by_cases hm : meetsA (cfg h g (wt0 wt) isCh src dst) (visitA (cfg h g (wt0 wt) isCh src dst) a cur) cur = true
    · rw [if_pos hm, if_pos hm]
      exact hexp _
    · rw [if_neg hm, if_neg hm]
      exact hexp _

/-! ## Induction over the loop -/

variable {tail : Dir → Nat → Nat}

/-- The three ways an iteration can go on. -/
theorem stepB_go {a : A K} {best : Best K} {cur : CN K} {a' : A K} {best' : Best K}
    (h : stepB fits fin c a best cur = .go a' best') :
    (¬ leInf cur.cost (a.lab cur.dir cur.idx) = true ∧ a' = a ∧ best' = best) ∨
    (leInf cur.cost (a.lab cur.dir cur.idx) = true ∧ above best cur = true ∧
        a' = { visitA c a cur with flag := Function.update a.flag cur.dir true } ∧ best' = best) ∨
    (leInf cur.cost (a.lab cur.dir cur.idx) = true ∧ above best cur = false ∧
        best' = newBestB fits c (visitA c a cur) best cur ∧
        a' = relaxAll c best'.isNone cur (okArcs fits fin c cur) (visitA c a cur)) := by
  unfold stepB at h
  split at h
  · cases h
  · split at h
    · rename_i hl
      cases h
      exact Or.inl ⟨by simpa using hl, rfl, rfl⟩
    · rename_i hl
      have hl' : leInf cur.cost (a.lab cur.dir cur.idx) = true := by simpa using hl
      split at h
      · rename_i hab
        cases h
        exact Or.inr (Or.inl ⟨hl', hab, rfl, rfl⟩)
      · rename_i hab
        cases h
        exact Or.inr (Or.inr ⟨hl', by simpa using hab, rfl, rfl⟩)

/-- What holds during the search: labels, and both labels of the best meeting-node. -/
structure InvB (c : Cfg K) (tail : Dir → Nat → Nat) (a : A K) (best : Best K) : Prop where
  inv : Inv1 c tail a none
  best : ∀ m b, best = some (m, b) → ∃ x y, a.lab .fwd m = some x ∧ a.lab .bwd m = some y

theorem mem_okArcs {cur : CN K} {t : Arc K} : t ∈ okArcs fits fin c cur ↔
    t ∈ c.out cur.dir cur.idx ∧ okArc fits fin cur t = true := List.mem_filter

theorem InvB.step {a : A K} {best : Best K} (hk : AddOk K) (ho : OutOk c tail)
    (hi : InvB c tail a best) {cur : CN K} {q : List (CN K)}
    (hp : c.h.pop a.queue = some (cur, q)) {a' : A K} {best' : Best K}
    (hs : stepB fits fin c { a with queue := q } best cur = .go a' best') : InvB c tail a' best' := by
  have hq : Inv1 c tail { a with queue := q } none :=
    hi.inv.setQueue (fun x hx => (mem_pop hp).mpr (Or.inr hx))
  rcases stepB_go hs with h | h | h
  · obtain ⟨_, rfl, rfl⟩ := h
    exact ⟨hq, hi.best⟩
  · obtain ⟨hl, _, rfl, rfl⟩ := h
    refine ⟨(hq.visit (hi.inv.popped hp hl)).setFlag _, fun m b hb => ?_⟩
    simp only [visitA_lab]
    exact hi.best m b hb
  · obtain ⟨hl, _, hb, rfl⟩ := h
    have hc := hi.inv.popped hp hl
    have hv := hq.visit hc
    have hc' : (visitA c { a with queue := q } cur).lab cur.dir cur.idx = some cur.cost := by
      rw [visitA_lab]; exact hc
    have hbest : ∀ m b, best' = some (m, b) → ∃ x y, (visitA c { a with queue := q } cur).lab .fwd m = some x ∧
        (visitA c { a with queue := q } cur).lab .bwd m = some y := by
      intro m b hmb
      rw [hb] at hmb
      unfold newBestB at hmb
      cases hbe : best with
      | some mb =>
        obtain ⟨m0, b0⟩ := mb
        rw [hbe] at hmb
        simp only at hmb
        split at hmb
        · rename_i hlt
          cases hmb
          obtain ⟨t, ht⟩ := ltInf_some hlt
          unfold totalB at ht
          cases h1 : (visitA c { a with queue := q } cur).lab .fwd cur.idx with
          | none => rw [h1] at ht; cases ht
          | some x =>
            cases h2 : (visitA c { a with queue := q } cur).lab .bwd cur.idx with
            | none => rw [h1, h2] at ht; cases ht
            | some y => exact ⟨x, y, rfl, rfl⟩
        · cases hmb
          rw [visitA_lab]
          exact hi.best m b hbe
      | none =>
        rw [hbe] at hmb
        simp only at hmb
        split at hmb
        · rename_i hm
          cases hmb
          exact hv.meets hc' hm
        · cases hmb
    refine ⟨(relaxAll_induct (P := fun a => Inv1 c tail a none ∧ a.lab cur.dir cur.idx = some cur.cost)
      ?_ ⟨hv, hc'⟩).1, fun m b hmb => ?_⟩
    · rintro a t ht ⟨h1, h2⟩
      exact h1.relax1 hk ho (mem_okArcs.mp ht).1 h2
    · obtain ⟨x, y, hx, hy⟩ := hbest m b hmb
      have hle := (relaxAll_relaxed (c := c) best'.isNone cur (okArcs fits fin c cur)
        (visitA c { a with queue := q } cur)).lab_le
      obtain ⟨x', hx', _⟩ := hle _ _ _ hx
      obtain ⟨y', hy', _⟩ := hle _ _ _ hy
      exact ⟨x', y', hx', hy'⟩

theorem InvB.init : InvB c tail (initA c) none := ⟨Inv1.init, by intro m b h; cases h⟩

/-- As long as no meeting-node has been found: every labelled node is waiting or has been expanded, a node that is
labelled from both sides is waiting, and no flag is set. -/
structure InvC (fits : K → Bool) (fin : Nat → Bool) (c : Cfg K) (a : A K) : Prop where
  node : ∀ d u x, a.lab d u = some x → (⟨u, x, d⟩ : CN K) ∈ a.queue ∨ ((c.isCh = false → a.vis d u = true) ∧
    ∀ t ∈ okArcs fits fin c ⟨u, x, d⟩, ∃ z, a.lab d t.2.1 = some z ∧ z ≤ x + t.2.2)
  apart : ∀ d u x y, a.lab d u = some x → a.lab d.opp u = some y →
    (⟨u, x, d⟩ : CN K) ∈ a.queue ∨ (⟨u, y, d.opp⟩ : CN K) ∈ a.queue
  flag : a.flag = fun _ => false

theorem newBestB_none {a : A K} {best : Best K} {cur : CN K} (h : newBestB fits c a best cur = none) :
    best = none ∧ meetsA c a cur = false := by
  unfold newBestB at h
  cases best with
  | none =>
    simp only at h
    split at h
    · cases h
    · rename_i hm; exact ⟨rfl, by simpa using hm⟩
  | some mb =>
    simp only at h
    split at h <;> cases h

theorem InvC.step {a : A K} {best : Best K}
    (hi : InvB c tail a best) (hj : best = none → InvC fits fin c a) {cur : CN K} {q : List (CN K)}
    (hp : c.h.pop a.queue = some (cur, q)) {a' : A K} {best' : Best K}
    (hs : stepB fits fin c { a with queue := q } best cur = .go a' best') (hb' : best' = none) :
    InvC fits fin c a' := by
  have hmem : ∀ x, x ∈ a.queue → x = cur ∨ x ∈ q := fun x hx => (mem_pop hp).mp hx
  rcases stepB_go hs with h | h | h
  · obtain ⟨hl, rfl, rfl⟩ := h
    have hj := hj hb'
    have hkeep : ∀ d u x, a.lab d u = some x → (⟨u, x, d⟩ : CN K) ∈ a.queue → (⟨u, x, d⟩ : CN K) ∈ q := by
      intro d u x hx h1
      rcases hmem _ h1 with rfl | h2
      · exact absurd (by rw [leInf_iff]; intro y hy; simp only at hx hy; rw [hx] at hy; cases hy; exact le_refl _) hl
      · exact h2
    refine ⟨fun d u x hx => (hj.node d u x hx).imp_left (hkeep d u x hx), fun d u x y hx hy => ?_, hj.flag⟩
    exact (hj.apart d u x y hx hy).imp (hkeep d u x hx) (hkeep d.opp u y hy)
  · obtain ⟨_, hab, _, rfl⟩ := h
    rw [hb'] at hab
    simp [above] at hab
  · obtain ⟨hl, _, hb, rfl⟩ := h
    obtain ⟨hbn, hm⟩ := newBestB_none (hb.symm.trans hb')
    have hj := hj hbn
    have hc := hi.inv.popped hp hl
    have hr := relaxAll_relaxed (c := c) best'.isNone cur (okArcs fits fin c cur) (visitA c { a with queue := q } cur)
    have hv : c.isCh = false → (visitA c { a with queue := q } cur).vis = upd a.vis cur.dir cur.idx true := by
      intro hch; unfold visitA; rw [hch]; rfl
    have hvm : ∀ d u, a.vis d u = true → (visitA c { a with queue := q } cur).vis d u = true := by
      intro d u h1
      by_cases hch : c.isCh = false
      · rw [hv hch]; simp only [upd]; split
        · rfl
        · exact h1
      · unfold visitA; rw [if_pos (by simpa using hch)]; exact h1
    have hwait : ∀ y, a.lab cur.dir.opp cur.idx = some y → (⟨cur.idx, y, cur.dir.opp⟩ : CN K) ∈ q := by
      intro y hy
      unfold meetsA at hm
      have hne : (⟨cur.idx, y, cur.dir.opp⟩ : CN K) ≠ cur := by
        intro h
        have := congrArg CN.dir h
        cases hd : cur.dir <;> simp [hd, Dir.opp] at this
      split at hm
      · rw [visitA_lab] at hm
        simp only at hm
        rw [hy] at hm; cases hm
      · rename_i hch
        have hch : c.isCh = false := by simpa using hch
        rw [hv hch, upd_other _ _ (by rintro ⟨h1, _⟩; cases hd : cur.dir <;> simp [hd, Dir.opp] at h1)] at hm
        rcases hj.node _ _ _ hy with h1 | h1
        · exact (hmem _ h1).resolve_left hne
        · rw [h1.1 hch] at hm; cases hm
    have hq : ∀ x, x ∈ q → x ∈ (relaxAll c best'.isNone cur (okArcs fits fin c cur)
        (visitA c { a with queue := q } cur)).queue := fun x hx => hr.queue_sub _ (by rw [visitA_queue]; exact hx)
    have hnew : ∀ d u x, (relaxAll c best'.isNone cur (okArcs fits fin c cur)
        (visitA c { a with queue := q } cur)).lab d u = some x → a.lab d u = some x ∨
        (⟨u, x, d⟩ : CN K) ∈ (relaxAll c best'.isNone cur (okArcs fits fin c cur)
        (visitA c { a with queue := q } cur)).queue := by
      intro d u x hx
      rcases hr.changed d u x hx with h1 | ⟨h1, _, _, h2⟩
      · rw [visitA_lab] at h1; exact Or.inl h1
      · exact Or.inr (h2 (Or.inr (by rw [hb']; rfl)))
    refine ⟨fun d u x hx => ?_, fun d u x y hx hy => ?_, ?_⟩
    · rcases hnew d u x hx with h1 | h1
      · by_cases hcu : d = cur.dir ∧ u = cur.idx
        · obtain ⟨rfl, rfl⟩ := hcu
          rw [hc] at h1
          cases h1
          right
          refine ⟨fun hch => by rw [hr.vis, hv hch, upd_same], ?_⟩
          intro t ht
          exact hr.arcs t ht
        · rcases hj.node d u x h1 with h2 | ⟨h2, h3⟩
          · rcases hmem _ h2 with h4 | h4
            · exact absurd ⟨by rw [← h4], by rw [← h4]⟩ hcu
            · exact Or.inl (hq _ h4)
          · right
            refine ⟨fun hch => by rw [hr.vis]; exact hvm _ _ (h2 hch), fun t ht => ?_⟩
            obtain ⟨z, hz, hzle⟩ := h3 t ht
            obtain ⟨z', hz', hle⟩ := hr.lab_le d t.2.1 z (by rw [visitA_lab]; exact hz)
            exact ⟨z', hz', le_trans hle hzle⟩
      · exact Or.inl h1
    · rcases hnew d u x hx with h1 | h1
      · rcases hnew _ u y hy with h2 | h2
        · by_cases hcu : d = cur.dir ∧ u = cur.idx
          · obtain ⟨rfl, rfl⟩ := hcu
            exact Or.inr (hq _ (hwait y h2))
          · by_cases hcu' : d.opp = cur.dir ∧ u = cur.idx
            · obtain ⟨h3, rfl⟩ := hcu'
              have h4 : d = cur.dir.opp := by rw [← h3, opp_opp]
              subst h4
              exact Or.inl (hq _ (hwait x h1))
            · rcases hj.apart d u x y h1 h2 with h3 | h3
              · rcases hmem _ h3 with h4 | h4
                · exact absurd ⟨by rw [← h4], by rw [← h4]⟩ hcu
                · exact Or.inl (hq _ h4)
              · rcases hmem _ h3 with h4 | h4
                · exact absurd ⟨by rw [← h4], by rw [← h4]⟩ hcu'
                · exact Or.inr (hq _ h4)
        · exact Or.inr h2
      · exact Or.inl h1
    · rw [hr.flag, visitA_flag]
      exact hj.flag

theorem InvC.init : InvC fits fin c (initA c) := by
  have key : ∀ d u x, (initA c).lab d u = some x → (⟨u, x, d⟩ : CN K) ∈ (initA c).queue := by
    intro d u x hx
    rw [initA_queue]
    simp only [initA, upd] at hx
    split at hx
    · rename_i h; obtain ⟨rfl, rfl⟩ := h; cases hx; rfl
    · split at hx
      · rename_i h; obtain ⟨rfl, rfl⟩ := h; cases hx; rfl
      · cases hx
  exact ⟨fun d u x hx => Or.inl (key d u x hx), fun d u x y hx _ => Or.inl (key d u x hx), rfl⟩

/-- What is known if the loop ends without a meeting-node: all labelled nodes have been expanded. -/
theorem closed {a : A K} (hj : InvC fits fin c a) (hq : a.queue = []) {d : Dir} {u : Nat} {x : K}
    (hx : a.lab d u = some x) :
    ∀ t ∈ okArcs fits fin c ⟨u, x, d⟩, ∃ z, a.lab d t.2.1 = some z ∧ z ≤ x + t.2.2 := by
  rcases hj.node d u x hx with h | h
  · rw [hq] at h; cases h
  · exact h.2

/-- Along a route whose costs fit, all nodes are labelled. -/
theorem reach_fits {a : A K} (hk : AddOk K) (hj : InvC fits fin c a) (hq : a.queue = [])
    (hdown : ∀ x y, x ≤ y → fits y = true → fits x = true) {d : Dir} {u v : Nat} {ts : List (Arc K)} {x y : K}
    (hx : a.lab d u = some x) (hxy : x ≤ y) (hr : IsRt (c.out d) u ts v) (hfin : ∀ t ∈ ts, fin t.1 = true)
    (hfit : ∀ p t s, ts = p ++ t :: s → fits (costFrom y (p ++ [t])) = true) : ∃ z, a.lab d v = some z := by
  induction ts generalizing u x y with
  | nil =>
    have : u = v := hr
    subst this
    exact ⟨x, hx⟩
  | cons t ts ih =>
    have h1 : fits (y + t.2.2) = true := hfit [] t ts rfl
    have h2 := hk.mono _ _ t.2.2 hxy
    obtain ⟨z, hz, hzle⟩ := closed hj hq hx t (mem_okArcs.mpr ⟨hr.1, by
      simp only [okArc, Bool.and_eq_true]
      exact ⟨hfin t List.mem_cons_self, hdown _ _ h2 h1⟩⟩)
    refine ih hz (le_trans hzle h2) hr.2 (fun t' ht' => hfin t' (List.mem_cons_of_mem _ ht')) ?_
    intro p t' s hps
    exact hfit (t :: p) t' s (by rw [hps]; rfl)

end
end Verif.Over
