import Verif.SearchTerm
import Verif.BinHeapNear

/-!
# The search if an element is popped that is nearly cheapest

`E` bounds how much more a popped element costs than those left in the queue.
-/

namespace Verif.Search

set_option linter.unusedSectionVars false

open Dij

section
variable {K : Type} [LinearOrder K] [Zero K] [Add K] {c : Cfg K}

/-- Like `loopA_induct`, counting the iterations. -/
theorem loopA_count {Inv : Nat → A K → Best K → Prop} {N : Nat}
    (hstep : ∀ k a best cur q a' best', k < N → Inv k a best → c.h.pop a.queue = some (cur, q) →
      stepA c { a with queue := q } best cur = .go a' best' → Inv (k + 1) a' best')
    {fuel k : Nat} {a : A K} {best : Best K} {a' : A K} {best' : Best K} (hk : k + fuel ≤ N)
    (h0 : Inv k a best) (h : loopA c fuel a best = some (a', best')) :
    ∃ k a0, Inv k a0 best' ∧ (a0.queue = [] ∨ (a0.flag .fwd = true ∧ a0.flag .bwd = true)) := by
  induction fuel generalizing k a best with
  | zero => simp [loopA] at h
  | succ n ih =>
    unfold loopA at h
    cases hp : c.h.pop a.queue with
    | none =>
      rw [hp] at h
      simp only [Option.some.injEq, Prod.mk.injEq] at h
      obtain ⟨rfl, rfl⟩ := h
      exact ⟨k, _, h0, Or.inl ((c.h.pop_none _).mp hp)⟩
    | some cq =>
      obtain ⟨cur, q⟩ := cq
      rw [hp] at h
      simp only at h
      cases hs : stepA c { a with queue := q } best cur with
      | go a1 best1 =>
        rw [hs] at h
        exact ih (by omega) (hstep k a best cur q a1 best1 (by omega) h0 hp hs) h
      | stop a1 best1 =>
        have hfin := loopA_induct c (Inv := fun a2 b2 => a2 = a ∧ b2 = best)
          (fun a2 b2 cur2 q2 a3 b3 h2 hp2 hs2 => by
            obtain ⟨rfl, rfl⟩ := h2
            rw [hp] at hp2
            cases hp2
            rw [hs] at hs2
            cases hs2) (fuel := n + 1) (a := a) (best := best) (a' := a') (best' := best') ⟨rfl, rfl⟩ (by
              unfold loopA; rw [hp]; simp only [hs]; rw [hs] at h; exact h)
        obtain ⟨a0, ⟨rfl, rfl⟩, h1 | h1⟩ := hfin
        · exact ⟨k, a0, h0, Or.inl h1.1⟩
        · exact ⟨k, a0, h0, Or.inr ⟨h1.1, h1.2.1⟩⟩

/-! ## Counting the operations of the queue -/

section
variable {ok : Nat → List (CN K) → Prop}

theorem ok_mono (hm : ∀ n q, ok n q → ok (n + 1) q) {m n : Nat} (h : m ≤ n) {q : List (CN K)}
    (hq : ok m q) : ok n q := by
  induction h with
  | refl => exact hq
  | step _ ih => exact hm _ _ ih

theorem ok_relaxAll (hm : ∀ n q, ok n q → ok (n + 1) q)
    (hpush : ∀ n q x, ok n q → ok (n + 1) (c.h.push q x)) {isNone : Bool} {cur : CN K}
    {l : List (Arc K)} {a : A K} {n : Nat} (h : ok n a.queue) :
    ok (n + l.length) (relaxAll c isNone cur l a).queue := by
  unfold relaxAll
  induction l generalizing a n with
  | nil => exact h
  | cons t l ih =>
    have hn : n + (t :: l).length = n + 1 + l.length := by simp only [List.length_cons]; omega
    rw [hn]
    refine ih ?_
    unfold relax1
    split
    · dsimp only
      split
      · exact hpush _ _ _ h
      · exact hm _ _ h
    · exact hm _ _ h

theorem ok_step (hm : ∀ n q, ok n q → ok (n + 1) q)
    (hpush : ∀ n q x, ok n q → ok (n + 1) (c.h.push q x)) {deg : Nat}
    (hdeg : ∀ d u, (c.out d u).length ≤ deg) {a : A K} {best : Best K} {cur : CN K} {q : List (CN K)}
    {n : Nat} (h : ok (n + 2) q) {a' : A K} {best' : Best K}
    (hs : stepA c { a with queue := q } best cur = .go a' best') : ok (n + (deg + 2)) a'.queue := by
  obtain ⟨_, h1 | h1 | h1⟩ := stepA_go c hs
  · obtain ⟨_, rfl, rfl⟩ := h1
    exact ok_mono hm (by omega) h
  · obtain ⟨_, _, rfl, _⟩ := h1
    simp only [visitA_queue]
    exact ok_mono hm (by omega) h
  · obtain ⟨_, _, _, rfl⟩ := h1
    have := ok_relaxAll hm hpush (isNone := best'.isNone) (cur := cur) (l := c.out cur.dir cur.idx)
      (a := visitA c { a with queue := q } cur) (n := n + 2) (by rw [visitA_queue]; exact h)
    have hd := hdeg cur.dir cur.idx
    exact ok_mono hm (by omega) this

end

end

/-! ## The order of popping -/

variable {c : Cfg ℚ} {tail : Dir → Nat → Nat}

/-- Invariants of the order in which nodes are popped. -/
structure Inv3E (E : ℚ) (a : A ℚ) (best : Best ℚ) : Prop where
  low : ∃ r, (∀ x ∈ a.queue, r ≤ x.cost + E) ∧
    (∀ d v, a.vis d v = true → ∃ x, a.lab d v = some x ∧ x ≤ r)
  flagq : ∀ d, a.flag d = true → ∀ x ∈ a.queue, BestLt best (x.cost + E)

theorem vis_visitA {a : A ℚ} {cur : CN ℚ} {d : Dir} {v : Nat} (hv : (visitA c a cur).vis d v = true) :
    a.vis d v = true ∨ (d = cur.dir ∧ v = cur.idx) := by
  unfold visitA at hv
  split at hv
  · exact Or.inl hv
  · simp only [upd] at hv
    split at hv
    · rename_i h; exact Or.inr h
    · exact Or.inl hv

theorem Inv3E.step {E : ℚ} (hE0 : 0 ≤ E) {a : A ℚ} {best : Best ℚ} (ho : OutOk c tail)
    (hi : Inv1 c tail a best) (h3 : Inv3E E a best) {cur : CN ℚ} {q : List (CN ℚ)}
    (hp : c.h.pop a.queue = some (cur, q)) (hmin : ∀ x ∈ q, cur.cost ≤ x.cost + E) {a' : A ℚ}
    {best' : Best ℚ} (hs : stepA c { a with queue := q } best cur = .go a' best') :
    Inv3E E a' best' := by
  obtain ⟨r, hr1, hr2⟩ := h3.low
  have hsub : ∀ x ∈ q, x ∈ a.queue := fun x hx => (mem_pop hp).mpr (Or.inr hx)
  have hcq : cur ∈ a.queue := (mem_pop hp).mpr (Or.inl rfl)
  obtain ⟨_, h | h | h⟩ := stepA_go c hs
  · obtain ⟨_, rfl, rfl⟩ := h
    exact { low := ⟨r, fun x hx => hr1 x (hsub x hx), hr2⟩,
            flagq := fun d hd x hx => h3.flagq d hd x (hsub x hx) }
  · obtain ⟨hl, hab, rfl, rfl⟩ := h
    have hc := hi.popped hp hl
    rw [above_iff hi] at hab
    refine { low := ⟨max r cur.cost, ?_, ?_⟩, flagq := ?_ }
    · intro x hx
      simp only [visitA_queue] at hx
      exact max_le (hr1 x (hsub x hx)) (hmin x hx)
    · intro d v hv
      simp only [visitA_lab] at hv ⊢
      rcases vis_visitA hv with h | ⟨rfl, rfl⟩
      · obtain ⟨x, hx, hxr⟩ := hr2 d v h
        exact ⟨x, hx, le_trans hxr (le_max_left _ _)⟩
      · exact ⟨_, hc, le_max_right _ _⟩
    · intro d _ x hx
      simp only [visitA_queue] at hx
      obtain ⟨m, b, hb, hlt⟩ := hab
      exact ⟨m, b, hb, lt_of_lt_of_le hlt (hmin x hx)⟩
  · obtain ⟨hl, hab, hb, ha'⟩ := h
    have hc := hi.popped hp hl
    have hr := relaxAll_relaxed (c := c) best'.isNone cur (c.out cur.dir cur.idx)
      (visitA c { a with queue := q } cur)
    rw [← ha'] at hr
    have hE := hr1 _ hcq
    refine { low := ⟨max r cur.cost, ?_, ?_⟩, flagq := ?_ }
    · intro x hx
      rcases hr.queue_new x hx with h | ⟨t, ht, rfl, _⟩
      · rw [visitA_queue] at h
        exact max_le (hr1 x (hsub x h)) (hmin x h)
      · have := ho.nonneg _ _ _ ht
        simp only
        exact max_le (by linarith) (by linarith)
    · intro d v hv
      rw [hr.vis] at hv
      have hx : ∃ x, a.lab d v = some x ∧ x ≤ max r cur.cost := by
        rcases vis_visitA hv with h | ⟨rfl, rfl⟩
        · obtain ⟨x, hx, hxr⟩ := hr2 d v h
          exact ⟨x, hx, le_trans hxr (le_max_left _ _)⟩
        · exact ⟨_, hc, le_max_right _ _⟩
      obtain ⟨x, hx, hxr⟩ := hx
      obtain ⟨y, hy, hyx⟩ := hr.lab_le d v x (by rw [visitA_lab]; exact hx)
      exact ⟨y, hy, le_trans hyx hxr⟩
    · intro d hd x hx
      rw [hr.flag, visitA_flag] at hd
      rw [hb]
      refine BestLt.newBest ?_
      rcases hr.queue_new x hx with h | ⟨t, ht, rfl, _⟩
      · rw [visitA_queue] at h
        exact h3.flagq d hd x (hsub x h)
      · obtain ⟨m, b, h5, h6⟩ := h3.flagq d hd cur hcq
        have := ho.nonneg _ _ _ ht
        exact ⟨m, b, h5, by simp only; linarith⟩

theorem Inv3E.init {E : ℚ} (hE0 : 0 ≤ E) : Inv3E E (initA c) none := by
  refine { low := ⟨0, ?_, ?_⟩, flagq := ?_ }
  · intro x hx
    rw [initA_queue] at hx
    rw [hx, zero_add]
    exact hE0
  · intro d v h; cases h
  · intro d h; cases h

/-- Contraction hierarchies: no pair of a forward and a backward route to a common node is cheaper by
more than `E`. -/
theorem near_ch {E : ℚ} (hE0 : 0 ≤ E) (hch : c.isCh = true) (ho : OutOk c tail) {a0 : A ℚ}
    {best : Best ℚ} (h1 : Inv1 c tail a0 best) (h2 : Inv2 c a0 best)
    (hq : ∀ x ∈ a0.queue, BestLt best (x.cost + E)) {v : Nat} {l l' : List (Arc ℚ)}
    (hf : IsRt (c.out .fwd) c.src l v) (hb : IsRt (c.out .bwd) c.dst l' v) :
    BestLe best (cost l + cost l' + E) := by
  have key : ∀ d (l : List (Arc ℚ)) u y p, a0.lab d u = some y → y ≤ p → IsRt (c.out d) u l v →
      (∃ x, a0.lab d v = some x ∧ x ≤ p + cost l) ∨ BestLt best (p + cost l + E) := by
    intro d l
    induction l with
    | nil =>
      intro u y p hy hle hr
      cases hr
      exact Or.inl ⟨y, hy, by rw [cost_nil]; linarith⟩
    | cons t l ih =>
      intro u y p hy hle hr
      have hnn := isRt_cost_nonneg ho hr
      rcases h2.exp (Or.inl hch) d u y hy with h | h | h
      · obtain ⟨m, b, h3, h4⟩ := hq _ h
        exact Or.inr ⟨m, b, h3, by simp only at h4; linarith⟩
      · obtain ⟨z, hz, hzle⟩ := h.2 t hr.1
        have := ih _ z (p + t.2.2) hz (by linarith) hr.2
        rw [cost_cons, ← add_assoc]
        exact this
      · obtain ⟨m, b, h3, h4⟩ := h
        exact Or.inr ⟨m, b, h3, by linarith⟩
  have nf := isRt_cost_nonneg ho hf
  have nb := isRt_cost_nonneg ho hb
  rcases key .fwd l c.src 0 0 (h1.root .fwd) (le_refl _) hf with ⟨x, hx, hxle⟩ | ⟨m, b, hb1, hlt⟩
  swap
  · exact ⟨m, b, hb1, by linarith⟩
  rcases key .bwd l' c.dst 0 0 (h1.root .bwd) (le_refl _) hb with ⟨y, hy, hyle⟩ | ⟨m, b, hb1, hlt⟩
  swap
  · exact ⟨m, b, hb1, by linarith⟩
  rcases h2.meetCh hch v x y hx hy with ⟨m, b, h3, h4⟩ | h3 | h3
  · exact ⟨m, b, h3, by linarith⟩
  · obtain ⟨m, b, hb1, hlt⟩ := hq _ h3
    exact ⟨m, b, hb1, by simp only at hlt; linarith⟩
  · obtain ⟨m, b, hb1, hlt⟩ := hq _ h3
    exact ⟨m, b, hb1, by simp only at hlt; linarith⟩

/-- Once something is found: the optimum is nearly found, or the entry that will find it is in the
queue. -/
def Inv4E (C E : ℚ) (a : A ℚ) (best : Best ℚ) : Prop :=
  best ≠ none → BestLe best (C + 2 * E) ∨ ∃ u y z d, (⟨u, y, d⟩ : CN ℚ) ∈ a.queue ∧
    a.lab d u = some y ∧ a.lab d.opp u = some z ∧ y + z ≤ C

theorem Inv4E.step {C E : ℚ} (hE0 : 0 ≤ E) {L : List (Arc ℚ)} (hL : IsRt (c.out .fwd) c.src L c.dst)
    (hLC : cost L = C) (hopt : ∀ l, IsRt (c.out .fwd) c.src l c.dst → C ≤ cost l)
    (hch : c.isCh = false) (hmi : Mirror c)
    {a : A ℚ} {best : Best ℚ} (ho : OutOk c tail)
    (hi : Inv1 c tail a best) (h2 : Inv2 c a best) (h3 : Inv3E E a best) (h4 : Inv4E C E a best)
    {cur : CN ℚ} {q : List (CN ℚ)}
    (hp : c.h.pop a.queue = some (cur, q)) (hmq : ∀ x ∈ q, cur.cost ≤ x.cost + E) {a' : A ℚ}
    {best' : Best ℚ} (hs : stepA c { a with queue := q } best cur = .go a' best') :
    Inv4E C E a' best' := by
  intro hne
  have hmem : ∀ {x : CN ℚ}, x ∈ a.queue → x = cur ∨ x ∈ q := fun hx => (mem_pop hp).mp hx
  obtain ⟨_, h | h | h⟩ := stepA_go c hs
  · obtain ⟨hl, rfl, rfl⟩ := h
    rcases h4 hne with h | ⟨u, y, z, d, h5, h6, h7, h8⟩
    · exact Or.inl h
    · rcases hmem h5 with rfl | h5
      · exact absurd (leInf_iff.mpr (fun w hw => by
          simp only at hw; rw [h6] at hw; cases hw; exact le_refl _)) hl
      · exact Or.inr ⟨u, y, z, d, h5, h6, h7, h8⟩
  · obtain ⟨hl, hab, rfl, rfl⟩ := h
    rw [above_iff hi] at hab
    rcases h4 hne with h | ⟨u, y, z, d, h5, h6, h7, h8⟩
    · exact Or.inl h
    · rcases hmem h5 with rfl | h5
      · obtain ⟨m, b, hb, hlt⟩ := hab
        have := hi.nonneg _ _ _ h7
        exact Or.inl ⟨m, b, hb, by simp only at hlt; linarith⟩
      · refine Or.inr ⟨u, y, z, d, ?_, ?_, ?_, h8⟩ <;> simp only [visitA_lab, visitA_queue] <;>
          assumption
  · obtain ⟨hl, hab, hb, ha'⟩ := h
    have hi' := hi.step addOk_rat ho hp hs
    have hc := hi.popped hp hl
    have hq1 : Inv1 c tail (visitA c { a with queue := q } cur) best :=
      (hi.setQueue (fun x hx => (mem_pop hp).mpr (Or.inr hx))).visit hc
    have hr := relaxAll_relaxed (c := c) best'.isNone cur (c.out cur.dir cur.idx)
      (visitA c { a with queue := q } cur)
    rw [← ha'] at hr
    -- an entry that is left over stays what it was
    have keep : ∀ u y z d, (⟨u, y, d⟩ : CN ℚ) ∈ q → a.lab d u = some y → a.lab d.opp u = some z →
        y + z ≤ C → BestLe best' (C + 2 * E) ∨ ∃ u y z d, (⟨u, y, d⟩ : CN ℚ) ∈ a'.queue ∧
          a'.lab d u = some y ∧ a'.lab d.opp u = some z ∧ y + z ≤ C := by
      intro u y z d h5 h6 h7 h8
      obtain ⟨y', hy', hyle⟩ := hr.lab_le d u y (by rw [visitA_lab]; exact h6)
      obtain ⟨z', hz', hzle⟩ := hr.lab_le d.opp u z (by rw [visitA_lab]; exact h7)
      obtain ⟨x1, x2, hx1, hx2, hsum⟩ := sum_dir hy' hz'
      obtain ⟨l, hl1, hl2⟩ := hi'.joined hmi ho hx1 hx2
      have hC := hopt l hl1
      have : y' = y := by linarith
      subst this
      exact Or.inr ⟨u, y', z', d, hr.queue_sub _ (by rw [visitA_queue]; exact h5), hy', hz',
        by linarith⟩
    -- looking at an entry that nearly finds the optimum
    have look : ∀ z, a.lab cur.dir.opp cur.idx = some z → cur.cost + z ≤ C + 2 * E →
        (best = none → meetsA c (visitA c { a with queue := q } cur) cur = true) →
        BestLe best' (C + 2 * E) := by
      intro z hz hle hmeet
      obtain ⟨x1, x2, hx1, hx2, hsum⟩ := sum_dir hc hz
      obtain ⟨m, b, h5, h6⟩ := newBest_total hq1 (by rw [visitA_lab]; exact hx1)
        (by rw [visitA_lab]; exact hx2) hmeet
      exact ⟨m, b, by rw [hb, h5], by linarith⟩
    by_cases hn : best = none
    · -- the first meeting
      subst hn
      have hmeet : meetsA c (visitA c { a with queue := q } cur) cur = true := by
        by_contra hcon
        apply hne
        rw [hb]
        simp only [newBest]
        rw [if_neg hcon]
      rcases front hch hmi ho hi h2 hL with ⟨u, y, z, d, h5, h6, h7, h8⟩ | ⟨u, y, u', z, h5, h6, h8⟩
      · rcases hmem h5 with hcu | h5
        · left
          rw [← hcu] at look
          exact look z h7 (by simp only; linarith) (fun _ => by rw [hcu]; exact hmeet)
        · exact keep u y z d h5 h6 h7 (by rw [← hLC]; exact h8)
      · left
        have hmin : ∀ x ∈ a.queue, cur.cost ≤ x.cost + E := by
          intro x hx
          rcases hmem hx with rfl | hx
          · linarith
          · exact hmq x hx
        obtain ⟨r, hr1, hr2⟩ := h3.low
        have h9 := hmin _ h5
        have h10 := hr1 _ h6
        simp only at h9 h10
        have hvis : a.vis cur.dir.opp cur.idx = true := by
          simp only [meetsA, visitA, hch, Bool.false_eq_true, if_false] at hmeet
          rw [upd_other _ _ (by rintro ⟨h, _⟩; revert h; cases cur.dir <;> simp [Dir.opp])] at hmeet
          exact hmeet
        obtain ⟨z', hz', hz'r⟩ := hr2 _ _ hvis
        exact look z' hz' (by linarith) (fun _ => hmeet)
    · rcases h4 hn with h | ⟨u, y, z, d, h5, h6, h7, h8⟩
      · rw [hb]; exact Or.inl h.newBest
      · rcases hmem h5 with hcu | h5
        · left
          rw [← hcu] at look
          exact look z h7 (by simp only; linarith) (fun h => absurd h hn)
        · exact keep u y z d h5 h6 h7 h8

/-- How much more a popped element may cost than others, after `fuel` iterations. -/
def popErr (δ : ℚ) (deg fuel : Nat) : ℚ := (2 + fuel * (deg + 2) : Nat) * δ

section
variable {δ : ℚ} {deg fuel : Nat}

theorem popErr_nonneg (hδ : 0 ≤ δ) : 0 ≤ popErr δ deg fuel :=
  mul_nonneg (Nat.cast_nonneg _) hδ

/-- All invariants at the end of the loop. -/
theorem near_final {Inv : A ℚ → Best ℚ → Prop} (hδ : 0 ≤ δ) (hh : c.h.Near δ)
    (hdeg : ∀ d u, (c.out d u).length ≤ deg) (ho : OutOk c tail)
    (h0 : Inv (initA c) none)
    (hstep : ∀ a best cur q a' best', Inv1 c tail a best → Inv2 c a best →
      Inv3E (popErr δ deg fuel) a best → Inv a best → c.h.pop a.queue = some (cur, q) →
      (∀ x ∈ q, cur.cost ≤ x.cost + popErr δ deg fuel) →
      stepA c { a with queue := q } best cur = .go a' best' → Inv a' best') {a : A ℚ} {best : Best ℚ}
    (h : loopA c fuel (initA c) none = some (a, best)) :
    ∃ a0, Inv1 c tail a0 best ∧ Inv2 c a0 best ∧ Inv a0 best ∧
      ∀ x ∈ a0.queue, BestLt best (x.cost + popErr δ deg fuel) := by
  obtain ⟨ok, hnil, hm, hpush, hpop⟩ := hh
  have hE0 := popErr_nonneg (deg := deg) (fuel := fuel) hδ
  obtain ⟨k, a0, ⟨h1, h2, h3, h4, _⟩, hfin⟩ := loopA_count (c := c) (N := fuel)
    (Inv := fun k a best => Inv1 c tail a best ∧ Inv2 c a best ∧ Inv3E (popErr δ deg fuel) a best ∧
      Inv a best ∧ ok (2 + k * (deg + 2)) a.queue)
    (fun k a best cur q a' best' hk hi hp hs => by
      obtain ⟨h1, h2, h3, h4, h5⟩ := hi
      obtain ⟨h6, h7⟩ := hpop _ _ _ _ h5 hp
      have h8 : ∀ x ∈ q, cur.cost ≤ x.cost + popErr δ deg fuel := by
        intro x hx
        refine le_trans (h7 x hx) ?_
        have hn : 2 + k * (deg + 2) ≤ 2 + fuel * (deg + 2) :=
          Nat.add_le_add_left (Nat.mul_le_mul_right _ (Nat.le_of_lt hk)) _
        have := mul_le_mul_of_nonneg_right (Nat.cast_le (α := ℚ).mpr hn) hδ
        unfold popErr
        linarith
      refine ⟨h1.step addOk_rat ho hp hs, h2.step addOk_rat h1 hp hs, h3.step hE0 ho h1 hp h8 hs,
        hstep _ _ _ _ _ _ h1 h2 h3 h4 hp h8 hs, ?_⟩
      have := ok_step hm hpush hdeg h6 hs
      rw [Nat.add_mul, one_mul, ← Nat.add_assoc]
      exact this)
    (k := 0) (by omega)
    ⟨Inv1.init, Inv2.init, Inv3E.init hE0, h0, by
      have := hpush _ _ ⟨c.dst, 0, .bwd⟩ (hpush _ _ ⟨c.src, 0, .fwd⟩ hnil)
      rw [Nat.zero_mul]; exact this⟩ h
  refine ⟨a0, h1, h2, h4, ?_⟩
  rcases hfin with hq | ⟨hf, _⟩
  · rw [hq]; intro x hx; cases hx
  · exact h3.flagq _ hf

/-- Contraction hierarchies: no pair of a forward and a backward route to a common node is much
cheaper. -/
theorem near_ch_all (hδ : 0 ≤ δ) (hh : c.h.Near δ) (hdeg : ∀ d u, (c.out d u).length ≤ deg)
    (hch : c.isCh = true) (ho : OutOk c tail) {a : A ℚ} {best : Best ℚ}
    (h : loopA c fuel (initA c) none = some (a, best)) {v : Nat}
    {l l' : List (Arc ℚ)} (hf : IsRt (c.out .fwd) c.src l v) (hb : IsRt (c.out .bwd) c.dst l' v) :
    BestLe best (cost l + cost l' + popErr δ deg fuel) := by
  obtain ⟨a0, h1, h2, _, hq⟩ := near_final (Inv := fun _ _ => True) hδ hh hdeg ho trivial
    (fun _ _ _ _ _ _ _ _ _ _ _ _ _ => trivial) h
  exact near_ch (popErr_nonneg hδ) hch ho h1 h2 hq hf hb

/-- Plain search: no route is much cheaper than the best total. -/
theorem near_plain (hδ : 0 ≤ δ) (hh : c.h.Near δ) (hdeg : ∀ d u, (c.out d u).length ≤ deg) {n : Nat}
    (hch : c.isCh = false) (hmi : Mirror c) (ho : OutOk c tail) (hf : FinOk c n)
    {l : List (Arc ℚ)} (hl : IsRt (c.out .fwd) c.src l c.dst) {a : A ℚ} {best : Best ℚ}
    (h : loopA c fuel (initA c) none = some (a, best)) (hb : best ≠ none) :
    BestLe best (cost l + 2 * popErr δ deg fuel) := by
  have hE0 := popErr_nonneg (deg := deg) (fuel := fuel) hδ
  obtain ⟨L, hL, hopt⟩ := exists_optimal ho hf (hf.roots .fwd) hl
  have hle := hopt l hl
  obtain ⟨a0, h1, h2, h4, hq⟩ := near_final (Inv := Inv4E (cost L) (popErr δ deg fuel)) hδ hh hdeg ho
    (fun h => absurd rfl h)
    (fun _ _ _ _ _ _ h1 h2 h3 h4 hp hm hs => h4.step hE0 hL rfl hopt hch hmi ho h1 h2 h3 hp hm hs) h
  rcases h4 hb with ⟨m, b, h5, h6⟩ | ⟨u, y, z, d, h5, h6, h7, h8⟩
  · exact ⟨m, b, h5, by linarith⟩
  · obtain ⟨m, b, h9, h10⟩ := hq _ h5
    have := h1.nonneg _ _ _ h7
    exact ⟨m, b, h9, by simp only at h10; linarith⟩

end
end Verif.Search
