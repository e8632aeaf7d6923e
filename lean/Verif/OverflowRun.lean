import Verif.OverflowSearch
import Verif.DijkstraLemmas4

/-!
# The router with overflow: the loop and its answers
-/

namespace Verif.Over

set_option linter.unusedSectionVars false

open Dij Search Graph

section
variable {K : Type} [LinearOrder K] [Zero K] [Add K] {fits : K → Bool} {fin : Nat → Bool} {c : Cfg K}
  {tail : Dir → Nat → Nat}

/-- The setting with finite weights only. -/
def filt (fin : Nat → Bool) (c : Cfg K) : Cfg K := { c with out := fun d u => (c.out d u).filter (fun t => fin t.1) }

theorem okArcs_filt (cur : CN K) : okArcs fits (fun _ => true) (filt fin c) cur = okArcs fits fin c cur := by
  unfold okArcs filt
  simp only [List.filter_filter]
  congr 1
  funext t
  simp only [okArc, Bool.true_and, Bool.and_comm]

theorem stepB_filt (a : A K) (best : Best K) (cur : CN K) :
    stepB fits (fun _ => true) (filt fin c) a best cur = stepB fits fin c a best cur := by
  unfold stepB
  rw [okArcs_filt]
  rfl

theorem outOk_filt (ho : OutOk c tail) : OutOk (filt fin c) tail :=
  ⟨fun d u t ht => ho.nonneg d u t (List.mem_filter.mp ht).1, fun d u t ht => ho.tail d u t (List.mem_filter.mp ht).1⟩

/-- Everything that holds during the search. -/
structure InvD (fits : K → Bool) (fin : Nat → Bool) (c : Cfg K) (tail : Dir → Nat → Nat) (a : A K) (best : Best K) :
    Prop where
  all : InvB c tail a best
  fine : InvB (filt fin c) tail a best
  fit : ∀ d v x, a.lab d v = some x → fits x = true
  unmet : best = none → InvC fits fin c a
  hist : ∀ x ∈ a.queue, Hist c a x

theorem fit_step {a : A K} {best : Best K} {cur : CN K} {q : List (CN K)} {a' : A K} {best' : Best K}
    (hf : ∀ d v x, a.lab d v = some x → fits x = true)
    (hs : stepB fits fin c { a with queue := q } best cur = .go a' best') :
    ∀ d v x, a'.lab d v = some x → fits x = true := by
  rcases stepB_go hs with h | h | h
  · obtain ⟨_, rfl, _⟩ := h; exact hf
  · obtain ⟨_, _, rfl, _⟩ := h
    intro d v x hx
    simp only [visitA_lab] at hx
    exact hf d v x hx
  · obtain ⟨_, _, _, rfl⟩ := h
    refine relaxAll_induct (c := c) (isNone := best'.isNone) (cur := cur)
      (P := fun b => ∀ d v x, b.lab d v = some x → fits x = true) ?_ ?_
    · intro b t ht hb d v x
      unfold relax1
      split
      swap
      · exact hb d v x
      simp only [upd]
      split
      · intro hx
        cases hx
        have := (mem_okArcs.mp ht).2
        simp only [okArc, Bool.and_eq_true] at this
        exact this.2
      · exact hb d v x
    · intro d v x hx
      simp only [visitA_lab] at hx
      exact hf d v x hx

theorem step_termB {n : Nat} (hk : AddOk K) (ho : OutOk c tail) (hf : FinOk c n) {a : A K} {best : Best K}
    (hi : InvB c tail a best) (hq : ∀ x ∈ a.queue, Hist c a x) {cur : CN K} {q : List (CN K)}
    (hp : c.h.pop a.queue = some (cur, q)) {a' : A K} {best' : Best K}
    (hs : stepB fits fin c { a with queue := q } best cur = .go a' best') :
    (∀ x ∈ a'.queue, Hist c a' x) ∧ pot (vals c n) n a' < pot (vals c n) n a := by
  have hlen : a.queue.length = q.length + 1 := by
    rw [(c.h.pop_perm _ _ _ hp).length_eq]; simp
  have hsub : ∀ x ∈ q, x ∈ a.queue := fun x hx => (mem_pop hp).mpr (Or.inr hx)
  rcases stepB_go hs with h | h | h
  · obtain ⟨_, rfl, rfl⟩ := h
    refine ⟨fun x hx => hq x (hsub x hx), ?_⟩
    simp only [pot]; omega
  · obtain ⟨_, _, rfl, rfl⟩ := h
    refine ⟨fun x hx => ?_, ?_⟩
    · simp only [visitA_queue] at hx
      refine (hq x (hsub x hx)).mono ?_
      intro d v y hy
      exact ⟨y, by simp only [visitA_lab]; exact hy, le_refl _⟩
    · simp only [pot, visitA_queue, visitA_lab]; omega
  · obtain ⟨hl, _, _, rfl⟩ := h
    have hc := hi.inv.popped hp hl
    have hi1 : Inv1 c tail (visitA c { a with queue := q } cur) none := (hi.inv.setQueue hsub).visit hc
    have hm : ∀ x, Hist c a x → Hist c (visitA c { a with queue := q } cur) x := fun x hx => hx.mono (by
      intro d v y hy
      exact ⟨y, by simp only [visitA_lab]; exact hy, le_refl _⟩)
    have := relaxAll_induct (c := c) (isNone := best'.isNone) (cur := cur)
      (l := okArcs fits fin c cur)
      (P := fun b => (Inv1 c tail b none ∧ b.lab cur.dir cur.idx = some cur.cost) ∧
        (Hist c b cur ∧ ∀ x ∈ b.queue, Hist c b x) ∧
        pot (vals c n) n b ≤ pot (vals c n) n (visitA c { a with queue := q } cur))
      (by
        rintro b t ht ⟨⟨h1, h2⟩, ⟨h3, h4⟩, h5⟩
        have := relax1_term hk ho hf h1 (isNone := best'.isNone) (mem_okArcs.mp ht).1 h2 h3 h4
        exact ⟨h1.relax1 hk ho (mem_okArcs.mp ht).1 h2, this.1, le_trans this.2 h5⟩)
      (a := visitA c { a with queue := q } cur)
      ⟨⟨hi1, by rw [visitA_lab]; exact hc⟩,
        ⟨hm _ (hq _ ((mem_pop hp).mpr (Or.inl rfl))), fun x hx => hm _ (hq _ (hsub x (by
          rw [visitA_queue] at hx; exact hx)))⟩, le_refl _⟩
    refine ⟨this.2.1.2, lt_of_le_of_lt this.2.2 ?_⟩
    simp only [pot, visitA_queue, visitA_lab]; omega

theorem InvD.step {n : Nat} (hk : AddOk K) (ho : OutOk c tail) (hf : FinOk c n) {a : A K} {best : Best K}
    (hi : InvD fits fin c tail a best) {cur : CN K} {q : List (CN K)}
    (hp : c.h.pop a.queue = some (cur, q)) {a' : A K} {best' : Best K}
    (hs : stepB fits fin c { a with queue := q } best cur = .go a' best') : InvD fits fin c tail a' best' where
  all := hi.all.step hk ho hp hs
  fine := hi.fine.step (fits := fits) (fin := fun _ => true) hk (outOk_filt ho) hp (by rw [stepB_filt]; exact hs)
  fit := fit_step hi.fit hs
  unmet := InvC.step hi.all hi.unmet hp hs
  hist := (step_termB hk ho hf hi.all hi.hist hp hs).1

theorem InvD.init (h0 : fits 0 = true) : InvD fits fin c tail (initA c) none where
  all := InvB.init
  fine := ⟨Inv1.init (c := filt fin c), by intro m b h; cases h⟩
  fit := by
    intro d v x hx
    simp only [initA, upd] at hx
    split at hx
    · cases hx; exact h0
    · split at hx
      · cases hx; exact h0
      · cases hx
  unmet := fun _ => InvC.init
  hist := by
    intro x hx
    rw [initA_queue] at hx
    rw [hx]
    exact ⟨[], rfl, rfl, by simp, by intro p t s h; simp at h⟩

theorem InvD.setQueue {a : A K} {best : Best K} (hi : InvD fits fin c tail a best) (hb : best ≠ none)
    {q : List (CN K)} (hq : ∀ x ∈ q, x ∈ a.queue) : InvD fits fin c tail { a with queue := q } best where
  all := ⟨hi.all.inv.setQueue hq, hi.all.best⟩
  fine := ⟨hi.fine.inv.setQueue hq, hi.fine.best⟩
  fit := hi.fit
  unmet := fun h => absurd h hb
  hist := fun x hx => hi.hist x (hq x hx)

theorem stepB_stop {a : A K} {best : Best K} {cur : CN K} {a' : A K} {best' : Best K}
    (h : stepB fits fin c a best cur = .stop a' best') : a.flag .fwd = true ∧ a' = a ∧ best' = best := by
  unfold stepB at h
  split at h
  · rename_i hf
    cases h
    simp only [Bool.and_eq_true] at hf
    exact ⟨hf.1, rfl, rfl⟩
  · split at h
    · cases h
    · split at h <;> cases h

theorem loopB_final {n : Nat} (hk : AddOk K) (ho : OutOk c tail) (hf : FinOk c n) {fuel : Nat} {a : A K}
    {best : Best K} {a' : A K} {best' : Best K} (hi : InvD fits fin c tail a best)
    (h : loopB fits fin c fuel a best = some (a', best')) :
    InvD fits fin c tail a' best' ∧ (best' = none → a'.queue = []) := by
  induction fuel generalizing a best with
  | zero => simp [loopB] at h
  | succ k ih =>
    unfold loopB at h
    cases hp : c.h.pop a.queue with
    | none =>
      rw [hp] at h
      simp only [Option.some.injEq, Prod.mk.injEq] at h
      obtain ⟨rfl, rfl⟩ := h
      exact ⟨hi, fun _ => (c.h.pop_none _).mp hp⟩
    | some cq =>
      obtain ⟨cur, q⟩ := cq
      rw [hp] at h
      simp only at h
      cases hs : stepB fits fin c { a with queue := q } best cur with
      | go a1 best1 =>
        rw [hs] at h
        exact ih (hi.step hk ho hf hp hs) h
      | stop a1 best1 =>
        rw [hs] at h
        cases h
        obtain ⟨hfl, rfl, rfl⟩ := stepB_stop hs
        have hne : best' ≠ none := by
          intro hn
          have := (hi.unmet hn).flag
          simp only at hfl
          rw [this] at hfl
          cases hfl
        exact ⟨hi.setQueue hne (fun x hx => (mem_pop hp).mpr (Or.inr hx)), fun hn => absurd hn hne⟩

theorem loopB_terminates {n : Nat} (hk : AddOk K) (ho : OutOk c tail) (hf : FinOk c n) {fuel : Nat} {a : A K}
    {best : Best K} (hi : InvD fits fin c tail a best) (hfu : pot (vals c n) n a < fuel) :
    ∃ r, loopB fits fin c fuel a best = some r := by
  induction fuel generalizing a best with
  | zero => omega
  | succ k ih =>
    unfold loopB
    cases hp : c.h.pop a.queue with
    | none => exact ⟨_, rfl⟩
    | some cq =>
      obtain ⟨cur, q⟩ := cq
      simp only
      cases hs : stepB fits fin c { a with queue := q } best cur with
      | stop a1 best1 => exact ⟨_, rfl⟩
      | go a1 best1 =>
        have := (step_termB hk ho hf hi.all hi.hist hp hs).2
        exact ih (hi.step hk ho hf hp hs) (by omega)

/-- Along arcs, all costs fit. -/
def Fine (fits : K → Bool) (fin : Nat → Bool) (ts : List (Arc K)) : Prop :=
  (∀ t ∈ ts, fin t.1 = true) ∧ ∀ p t s, ts = p ++ t :: s → fits (costFrom 0 (p ++ [t])) = true

theorem chain_fine (hk : AddOk K) (ho : OutOk c tail) (hdown : ∀ x y, x ≤ y → fits y = true → fits x = true)
    {a : A K} {best : Best K} (hi : InvD fits fin c tail a best) {d : Dir} {v : Nat} {l : List Nat}
    (hl : Chain (a.pred d) (tail d) v l) {x : K} (hx : a.lab d v = some x) :
    ∃ ts, ts.map (·.1) = l.reverse ∧ IsRt (c.out d) (c.root d) ts v ∧ Fine fits fin ts := by
  obtain ⟨ts, h1, h2, h3⟩ := hi.fine.inv.chain_route hk (outOk_filt ho) hl hx
  have sub : ∀ (ts : List (Arc K)) u v, IsRt ((filt fin c).out d) u ts v →
      IsRt (c.out d) u ts v ∧ ∀ t ∈ ts, fin t.1 = true := by
    intro ts
    induction ts with
    | nil => intro u v h; exact ⟨h, by intro t ht; cases ht⟩
    | cons t ts ih =>
      intro u v h
      obtain ⟨h5, h6⟩ := ih _ _ h.2
      have h7 := List.mem_filter.mp h.1
      refine ⟨⟨h7.1, h5⟩, fun t' ht' => ?_⟩
      rcases List.mem_cons.mp ht' with rfl | ht'
      · exact h7.2
      · exact h6 t' ht'
  obtain ⟨h4, h5⟩ := sub ts _ _ h2
  refine ⟨ts, h1, h4, h5, fun p t s hps => ?_⟩
  refine hdown _ _ (le_trans ?_ h3) (hi.fit _ _ _ hx)
  rw [hps, show p ++ t :: s = (p ++ [t]) ++ s by simp, costFrom_append 0 (p ++ [t]) s]
  rw [hps, show p ++ t :: s = (p ++ [t]) ++ s by simp, isRt_append] at h4
  obtain ⟨m, _, hr⟩ := h4
  exact costFrom_le hk ho hr

theorem unmet_none (hk : AddOk K) (hdown : ∀ x y, x ≤ y → fits y = true → fits x = true)
    {a : A K} (hi : InvD fits fin c tail a none) (hq : a.queue = []) {m : Nat} {tf tb : List (Arc K)}
    (hf : IsRt (c.out .fwd) (c.root .fwd) tf m) (hff : Fine fits fin tf)
    (hb : IsRt (c.out .bwd) (c.root .bwd) tb m) (hbf : Fine fits fin tb) : False := by
  have hj := hi.unmet rfl
  obtain ⟨x, hx⟩ := reach_fits hk hj hq hdown (hi.all.inv.root .fwd) (le_refl _) hf hff.1 hff.2
  obtain ⟨y, hy⟩ := reach_fits hk hj hq hdown (hi.all.inv.root .bwd) (le_refl _) hb hbf.1 hbf.2
  rcases hj.apart .fwd m x y hx hy with h | h
  · rw [hq] at h; cases h
  · rw [hq] at h; cases h

end

/-! ## Queries -/

section
variable {K : Type} [LinearOrder K] [Zero K] [Add K] {fits : K → Bool} {h : Heap K} {g : Graph}
  {wt : List ℚ → Option K} {isCh : Bool} {src dst : Nat}

theorem loop_simB (hwf : g.WellFormed) (hk : AddOk K) (hw : ∀ m ∈ g.metrics, 0 ≤ wt0 wt m)
    (hsrc : src < g.nodeCount) (hdst : dst < g.nodeCount) {fuel : Nat} {best : Best K} {s : St K}
    {a : A K} (hs : Sim g isCh s a)
    (hi : InvD fits (finite g wt) (cfg h g (wt0 wt) isCh src dst) (tailD g) a best) :
    (∃ s' a' best', loop fits h g wt fuel s best = some (.ok (s', best')) ∧
      loopB fits (finite g wt) (cfg h g (wt0 wt) isCh src dst) fuel a best = some (a', best') ∧ Sim g isCh s' a') ∨
    (loop fits h g wt fuel s best = none ∧
      loopB fits (finite g wt) (cfg h g (wt0 wt) isCh src dst) fuel a best = none) ∨
    (loop fits h g wt fuel s best = some .panic ∧ ∃ d u, u < g.nodeCount ∧ ¬ g.Covered d u) := by
  have ho := outOk (h := h) (isCh := isCh) (src := src) (dst := dst) hwf hw
  have hf := finOk (h := h) (wt := wt0 wt) (isCh := isCh) hwf hsrc hdst
  induction fuel generalizing s a best with
  | zero => exact Or.inr (Or.inl ⟨rfl, rfl⟩)
  | succ n ih =>
    unfold loop loopB
    have hh : (cfg h g (wt0 wt) isCh src dst).h = h := rfl
    rw [hs.queue, hh]
    cases hp : h.pop a.queue with
    | none => exact Or.inl ⟨s, a, best, rfl, rfl, hs⟩
    | some cq =>
      obtain ⟨cur, q⟩ := cq
      simp only
      have hp' : (cfg h g (wt0 wt) isCh src dst).h.pop a.queue = some (cur, q) := hp
      obtain ⟨y, hy, _⟩ := hi.all.inv.queue cur ((mem_pop hp').mpr (Or.inl rfl))
      have hcur := labelled_lt hf hi.all.inv hy
      have hsq : Sim g isCh { s with queue := q } { a with queue := q } :=
        { mode := hs.mode, queue := rfl, flag := hs.flag, costs := hs.costs, preds := hs.preds,
          visited := hs.visited }
      rcases step_simB (fits := fits) (h := h) (wt := wt) (src := src) (dst := dst) (best := best) hwf hcur hsq with
        ⟨nx, h1, h2⟩ | ⟨h1, h2⟩
      · rw [h1]
        cases hA : stepB fits (finite g wt) (cfg h g (wt0 wt) isCh src dst) { a with queue := q } best cur with
        | stop a1 best1 =>
          rw [hA] at h2
          cases nx with
          | stop s1 b1 =>
            obtain ⟨h3, rfl⟩ := h2
            exact Or.inl ⟨s1, a1, b1, rfl, rfl, h3⟩
          | go s1 b1 => exact absurd h2 (by simp [SimNext])
        | go a1 best1 =>
          rw [hA] at h2
          cases nx with
          | stop s1 b1 => exact absurd h2 (by simp [SimNext])
          | go s1 b1 =>
            obtain ⟨h3, rfl⟩ := h2
            exact ih h3 (hi.step hk ho hf hp' hA)
      · rw [h1]
        exact Or.inr (Or.inr ⟨rfl, cur.dir, cur.idx, hcur, h2⟩)

/-- What a search does. -/
theorem search_casesB {fuel : Nat} {s1 : St K} (hwf : g.WellFormed) (hk : AddOk K)
    (hw : ∀ m ∈ g.metrics, 0 ≤ wt0 wt m) (h0 : fits 0 = true) (hsrc : src < g.nodeCount) (hdst : dst < g.nodeCount)
    {c : Cfg K} (hc : c = cfg h g (wt0 wt) isCh src dst) (hs1 : Sim g isCh s1 (initA c)) :
    (search fits h g wt fuel s1 src dst = none ∧
      (loopB fits (finite g wt) c fuel (initA c) none = none ∨ fuel ≤ g.nodeCount)) ∨
    (search fits h g wt fuel s1 src dst = some .panic ∧ ∃ d u, u < g.nodeCount ∧ ¬ g.Covered d u) ∨
    (∃ s' a best ans, search fits h g wt fuel s1 src dst = some (.ok (s', ans)) ∧
      InvD fits (finite g wt) c (tailD g) a best ∧ (best = none → a.queue = []) ∧
      loopB fits (finite g wt) c fuel (initA c) none = some (a, best) ∧ (best = none → ans = none) ∧
      ∀ m b, best = some (m, b) → ∃ f bk i j x y, Chain (a.pred .fwd) (tailD g .fwd) m f ∧
        Chain (a.pred .bwd) (tailD g .bwd) m bk ∧ a.lab .fwd m = some x ∧ a.lab .bwd m = some y ∧
        g.nodeId src = .ok i ∧ g.nodeId dst = .ok j ∧
        ans = some (Path.new src i dst j (f.reverse ++ bk))) := by
  have ho := outOk (h := h) (isCh := isCh) (src := src) (dst := dst) hwf hw
  have hf := finOk (h := h) (wt := wt0 wt) (isCh := isCh) hwf hsrc hdst
  have hroot : ∀ d, c.root d < g.nodeCount := by rw [hc]; exact hf.roots
  have hinit : InvD fits (finite g wt) c (tailD g) (initA c) none := InvD.init h0
  rcases loop_simB (fuel := fuel) hwf hk hw hsrc hdst (by rw [hc] at hs1; exact hs1) (by rw [hc] at hinit; exact hinit) with
    ⟨s', a, best, hl, hla, hsim⟩ | ⟨hl, hla⟩ | ⟨hl, hu⟩
  · rw [← hc] at hla ho hf
    obtain ⟨hi, hq⟩ := loopB_final hk ho hf hinit hla
    rw [search, hl]
    simp only
    cases best with
    | none =>
      refine Or.inr (Or.inr ⟨s', a, none, none, rfl, hi, hq, hla, fun _ => rfl, ?_⟩)
      intro m b h; cases h
    | some mb =>
      obtain ⟨m, t⟩ := mb
      obtain ⟨x, y, hx, hy⟩ := hi.all.best m t rfl
      have hi1 := hi.all.inv
      obtain ⟨f, hfch⟩ := hi1.chain _ _ _ hx
      obtain ⟨bk, hbch⟩ := hi1.chain _ _ _ hy
      by_cases hfu : fuel ≤ g.nodeCount
      · -- the fuel may not suffice for walking back
        cases hmk : mkPath g fuel s' (some (m, t)) src dst with
        | none => exact Or.inl ⟨rfl, Or.inr hfu⟩
        | some r =>
          have hwalk : ∀ d l x, Chain (a.pred d) (tailD g d) m l → a.lab d m = some x →
              walk g s' d fuel m = none ∨ walk g s' d fuel m = some (.ok l) := by
            intro d l x hl hx
            clear hmk
            have key : ∀ (l : List Nat) (v : Nat) (x : K) (fuel : Nat),
                Chain (a.pred d) (tailD g d) v l → a.lab d v = some x →
                fuel ≤ l.length → walk g s' d fuel v = none := by
              intro l
              induction l with
              | nil =>
                intro v x fuel _ _ hle
                obtain rfl : fuel = 0 := by simpa using hle
                rfl
              | cons e l ih =>
                intro v x fuel hch hx hle
                cases fuel with
                | zero => rfl
                | succ k =>
                  cases hch with
                  | cons hp hch =>
                    rcases hi1.pred d v x hx with rfl | ⟨e', u, w, y, hpe, hmem, hyu, _⟩
                    · rw [hi1.rootpred d] at hp; cases hp
                    · rw [hpe] at hp
                      cases hp
                      have hout : c.out = outArcs g (wt0 wt) isCh := by rw [hc]; rfl
                      rw [hout] at hmem
                      obtain ⟨hu1, hv1, _⟩ := (mem_outArcs hwf).mp hmem
                      have hvn := hwf.ends_lt _ _ _ hv1
                      simp only at hu1
                      have htail : tailD g d e = u := by simp [tailD, hu1]
                      rw [htail] at hch
                      simp only [walk, hsim.preds d v hvn, hpe, hu1, Option.map_eq_none_iff]
                      exact ih u y k hch hyu (by simpa using hle)
            by_cases hlt : l.length < fuel
            · exact Or.inr (walk_sim hwf hsim (by rw [hc]; rfl) hi1 hroot hl hx hlt)
            · exact Or.inl (key l m x fuel hl hx (by omega))
          rcases hwalk .fwd f x hfch hx with h2 | h2
          · simp [mkPath, h2] at hmk
          · rcases hwalk .bwd bk y hbch hy with h3 | h3
            · simp [mkPath, h2, h3] at hmk
            · obtain ⟨i, hi1⟩ := nodeId_ok hsrc
              obtain ⟨j, hj1⟩ := nodeId_ok hdst
              refine Or.inr (Or.inr ⟨s', a, some (m, t),
                some (Path.new src i dst j (f.reverse ++ bk)), ?_, hi, hq, hla, (by intro h; cases h), ?_⟩)
              · rw [← hmk]
                simp [mkPath, h2, h3, hi1, hj1, acc]
              · intro m' b' he
                cases he
                exact ⟨f, bk, i, j, x, y, hfch, hbch, hx, hy, hi1, hj1, rfl⟩
      · have h2 := walk_sim (fuel := fuel) hwf hsim (by rw [hc]; rfl) hi1 hroot hfch hx
          (by have := hi1.chain_length ho hf hfch hx; omega)
        have h3 := walk_sim (fuel := fuel) hwf hsim (by rw [hc]; rfl) hi1 hroot hbch hy
          (by have := hi1.chain_length ho hf hbch hy; omega)
        obtain ⟨i, hi1⟩ := nodeId_ok hsrc
        obtain ⟨j, hj1⟩ := nodeId_ok hdst
        refine Or.inr (Or.inr ⟨s', a, some (m, t),
          some (Path.new src i dst j (f.reverse ++ bk)), ?_, hi, hq, hla, (by intro h; cases h), ?_⟩)
        · simp [mkPath, h2, h3, hi1, hj1, acc]
        · intro m' b' he
          cases he
          exact ⟨f, bk, i, j, x, y, hfch, hbch, hx, hy, hi1, hj1, rfl⟩
  · rw [← hc] at hla
    exact Or.inl ⟨by rw [search, hl], Or.inl hla⟩
  · exact Or.inr (Or.inl ⟨by rw [search, hl], hu⟩)

/-! ## The router is left tidy -/

theorem relax_tidyB {n : Nat} {isNone : Bool} {cur : CN K} {es : List Nat} {s s' : St K}
    (ht : Tidy n s) (hs : relax fits h g wt isNone cur es s = .ok s') : Tidy n s' := by
  induction es generalizing s with
  | nil => cases hs; exact ht
  | cons e es ih =>
    unfold relax at hs
    obtain ⟨v, _, hs⟩ := Res.bind_eq_ok.mp hs
    obtain ⟨lower, _, hs⟩ := Res.bind_eq_ok.mp hs
    split at hs
    · cases hs; exact ht
    · obtain ⟨m, _, hs⟩ := Res.bind_eq_ok.mp hs
      obtain ⟨old, hold, hs⟩ := Res.bind_eq_ok.mp hs
      split at hs
      · exact ih ht hs
      · split at hs
        · obtain ⟨ps, hps, hs⟩ := Res.bind_eq_ok.mp hs
          obtain ⟨cs, hcs, hs⟩ := Res.bind_eq_ok.mp hs
          obtain ⟨hi, rfl⟩ := setIdx_inv hps
          obtain ⟨hi', rfl⟩ := setIdx_inv hcs
          refine ih ?_ hs
          exact ht.set hi' (fun j hj => by rw [List.getElem?_set, if_neg (Ne.symm hj)])
            (fun j hj => by rw [List.getElem?_set, if_neg (Ne.symm hj)]) (by simp) (by simp) rfl rfl rfl
        · exact ih ht hs

theorem expand_tidyB {n : Nat} {best : Best K} {cur : CN K} {s : St K} {nx : Next K} (ht : Tidy n s)
    (hs : expand fits h g wt s best cur = .ok nx) : Tidy n nx.st := by
  unfold expand at hs
  obtain ⟨es, _, hs⟩ := Res.bind_eq_ok.mp hs
  obtain ⟨s1, h1, hs⟩ := Res.bind_eq_ok.mp hs
  cases hs
  exact relax_tidyB ht h1

theorem step_tidyB {n : Nat} {best : Best K} {cur : CN K} {s : St K} {nx : Next K} (ht : Tidy n s)
    (hs : step fits h g wt s best cur = .ok nx) : Tidy n nx.st := by
  unfold step at hs
  split at hs
  · cases hs; exact ht
  · obtain ⟨label, _, hs⟩ := Res.bind_eq_ok.mp hs
    split at hs
    · cases hs; exact ht
    · obtain ⟨s1, h1, hs⟩ := Res.bind_eq_ok.mp hs
      have ht1 := visit_tidy ht h1
      cases best with
      | some mb =>
        obtain ⟨m, b⟩ := mb
        simp only at hs
        split at hs
        · cases hs; exact ht1.congr rfl rfl rfl
        · obtain ⟨t, _, hs⟩ := Res.bind_eq_ok.mp hs
          exact expand_tidyB ht1 hs
      | none =>
        simp only at hs
        obtain ⟨meets, _, hs⟩ := Res.bind_eq_ok.mp hs
        split at hs
        · obtain ⟨t, _, hs⟩ := Res.bind_eq_ok.mp hs
          exact expand_tidyB ht1 hs
        · exact expand_tidyB ht1 hs

theorem loop_tidyB {n fuel : Nat} {best best' : Best K} {s s' : St K} (ht : Tidy n s)
    (hs : loop fits h g wt fuel s best = some (.ok (s', best'))) : Tidy n s' := by
  induction fuel generalizing s best with
  | zero => cases hs
  | succ k ih =>
    unfold loop at hs
    split at hs
    · cases hs; exact ht
    · rename_i cur q _
      have htq : Tidy n { s with queue := q } := ht.congr rfl rfl rfl
      split at hs
      · cases hs
      · cases hs
      · rename_i s1 b1 h1
        cases hs
        exact step_tidyB htq h1
      · rename_i s1 b1 h1
        exact ih (step_tidyB htq h1) hs

/-- A successful query leaves the router tidy. -/
theorem compute_tidyB {n fuel : Nat} {dotp : List ℚ → List ℚ → Option K} {s s' : St K} {q : Query K}
    {ans : Option Path} (hq : q.graph.nodeCount ≤ n) (ht : Tidy n s)
    (hs : computeBestPath fits h dotp fuel s q = some (.ok (s', ans))) : Tidy n s' := by
  unfold computeBestPath at hs
  split at hs
  · cases hs; exact ht
  · cases ha : q.algo with
    | explorator => rw [ha] at hs; cases hs
    | dijkstra | chDijkstra =>
      rw [ha] at hs
      simp only at hs
      split at hs
      · cases hs
      · cases hs
      · rename_i s1 h1
        obtain ⟨s0, h0, h1⟩ := Res.bind_eq_ok.mp h1
        have ht' : ∀ b, Tidy n { s with isCh := b } := fun b => ht.congr rfl rfl rfl
        have hb := initQuery_inv hq (ht' _) h0
        have ht0 : Tidy n s0 := by
          rw [hb]
          refine blank_tidy (fun d => ?_)
          unfold newLenD
          split
          · exact hq
          · exact ht.le d
        have ht1 := start_tidy ht0 h1
        unfold search at hs
        split at hs
        · cases hs
        · cases hs
        · cases hs
        · rename_i s2 best h2
          have ht2 := loop_tidyB ht1 h2
          simp only [Option.map_eq_some_iff] at hs
          obtain ⟨r, _, hr⟩ := hs
          obtain ⟨p, _, hr⟩ := Res.bind_eq_ok.mp hr
          cases hr
          exact ht2

/-! ## Answers -/

theorem compute_eqB {dotp : List ℚ → List ℚ → Option K} {fuel : Nat} {s : St K} {q : Query K}
    (halg : q.algo ≠ .explorator) (hal : ∀ a ∈ q.alphas, 0 ≤ a) :
    computeBestPath fits h dotp fuel s q =
      match (do
        let s ← initQuery { s with isCh := decide (q.algo = Algo.chDijkstra) } q.graph.nodeCount
        start h s q.src q.dst) with
      | .panic => some .panic
      | .err e => some (.err e)
      | .ok s => search fits h q.graph (dotp q.alphas) fuel s q.src q.dst := by
  have hneg : ¬ (q.alphas.any (fun a => decide (a < 0)) = true) := by
    simp only [List.any_eq_true, decide_eq_true_eq, not_exists, not_and, not_lt]
    exact hal
  obtain ⟨src, dst, g, algo, al⟩ := q
  unfold computeBestPath
  rw [if_neg hneg]
  cases algo with
  | explorator => exact absurd rfl halg
  | dijkstra => rfl
  | chDijkstra => rfl

/-- What a query does. -/
theorem compute_casesB {dotp : List ℚ → List ℚ → Option K} {fuel : Nat} {s : St K} {q : Query K}
    (hwf : q.graph.WellFormed) (hk : AddOk K) (hw : ∀ m ∈ q.graph.metrics, 0 ≤ wt0 (dotp q.alphas) m)
    (h0 : fits 0 = true) (hdown : ∀ x y, x ≤ y → fits y = true → fits x = true)
    (hn : q.graph.nodeCount ≠ 2) (hsrc : q.src < q.graph.nodeCount) (hdst : q.dst < q.graph.nodeCount)
    (ht : Tidy q.graph.nodeCount s) (halg : q.algo ≠ .explorator) (hal : ∀ a ∈ q.alphas, 0 ≤ a)
    {c : Cfg K} (hc : c = cfg h q.graph (wt0 (dotp q.alphas)) (decide (q.algo = .chDijkstra)) q.src q.dst) :
    (computeBestPath fits h dotp fuel s q = none ∧
      (loopB fits (finite q.graph (dotp q.alphas)) c fuel (initA c) none = none ∨ fuel ≤ q.graph.nodeCount)) ∨
    (computeBestPath fits h dotp fuel s q = some .panic ∧ ∃ d u, u < q.graph.nodeCount ∧ ¬ q.graph.Covered d u) ∨
    (∃ s' ans, computeBestPath fits h dotp fuel s q = some (.ok (s', ans)) ∧
      (ans = none → ∀ m tf tb, IsRt (c.out .fwd) q.src tf m → Fine fits (finite q.graph (dotp q.alphas)) tf →
        IsRt (c.out .bwd) q.dst tb m → ¬ Fine fits (finite q.graph (dotp q.alphas)) tb) ∧
      ∀ p, ans = some p → ∃ m tf tb i j, IsRt (c.out .fwd) q.src tf m ∧
        Fine fits (finite q.graph (dotp q.alphas)) tf ∧ IsRt (c.out .bwd) q.dst tb m ∧
        Fine fits (finite q.graph (dotp q.alphas)) tb ∧ q.graph.nodeId q.src = .ok i ∧
        q.graph.nodeId q.dst = .ok j ∧
        p = Path.new q.src i q.dst j (tf.map (·.1) ++ (tb.map (·.1)).reverse)) := by
  obtain ⟨s1, h1, hs1⟩ := begin_sim (h := h) (wt := wt0 (dotp q.alphas)) hn hsrc hdst ht
    (decide (q.algo = .chDijkstra))
  have hcomp : computeBestPath fits h dotp fuel s q =
      search fits h q.graph (dotp q.alphas) fuel s1 q.src q.dst := by
    rw [compute_eqB halg hal, h1]
  have ho := outOk (h := h) (isCh := decide (q.algo = .chDijkstra)) (src := q.src) (dst := q.dst) hwf hw
  rw [← hc] at ho
  rw [← hc] at hs1
  have hrf : c.root .fwd = q.src := by rw [hc]; rfl
  have hrb : c.root .bwd = q.dst := by rw [hc]; rfl
  rw [hcomp]
  rcases search_casesB (fuel := fuel) hwf hk hw h0 hsrc hdst hc hs1 with h2 | h2 |
    ⟨s', a, best, ans, h2, hi, hq, _, h3, h4⟩
  · exact Or.inl h2
  · exact Or.inr (Or.inl h2)
  · refine Or.inr (Or.inr ⟨s', ans, h2, ?_, ?_⟩)
    · rintro rfl m tf tb hf hff hb hbf
      cases best with
      | some mb =>
        obtain ⟨_, _, _, _, _, _, _, _, _, _, _, _, h5⟩ := h4 mb.1 mb.2 rfl
        cases h5
      | none => exact unmet_none hk hdown hi (hq rfl) (by rw [hrf]; exact hf) hff (by rw [hrb]; exact hb) hbf
    · rintro p rfl
      cases best with
      | none => cases h3 rfl
      | some mb =>
        obtain ⟨f, bk, i, j, x, y, hf, hb, hx, hy, hi1, hj1, hp⟩ := h4 mb.1 mb.2 rfl
        obtain ⟨tf, h5, h6, h7⟩ := chain_fine hk ho hdown hi hf hx
        obtain ⟨tb, h8, h9, h10⟩ := chain_fine hk ho hdown hi hb hy
        rw [hrf] at h6
        rw [hrb] at h9
        refine ⟨mb.1, tf, tb, i, j, h6, h7, h9, h10, hi1, hj1, ?_⟩
        cases hp
        rw [h5, h8, List.reverse_reverse]

end
end Verif.Over
