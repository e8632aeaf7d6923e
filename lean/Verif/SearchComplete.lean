import Verif.SearchInv

/-!
# What the search has explored, for any queue
-/

namespace Verif.Search

set_option linter.unusedSectionVars false

open Dij

section
variable {K : Type} [LinearOrder K] [Zero K] [Add K] {c : Cfg K} {tail : Dir → Nat → Nat}

/-- What the loop over the leaving edges does, as a whole. -/
structure Relaxed (c : Cfg K) (isNone : Bool) (cur : CN K) (l : List (Arc K)) (a a' : A K) : Prop where
  vis : a'.vis = a.vis
  flag : a'.flag = a.flag
  lab_le : ∀ d v x, a.lab d v = some x → ∃ y, a'.lab d v = some y ∧ y ≤ x
  arcs : ∀ t ∈ l, ∃ y, a'.lab cur.dir t.2.1 = some y ∧ y ≤ cur.cost + t.2.2
  changed : ∀ d v y, a'.lab d v = some y → a.lab d v = some y ∨
    (d = cur.dir ∧ (∃ t ∈ l, t.2.1 = v ∧ y = cur.cost + t.2.2) ∧
      (∀ x, a.lab d v = some x → y < x) ∧
      ((c.isCh = true ∨ isNone = true) → (⟨v, y, d⟩ : CN K) ∈ a'.queue))
  queue_sub : ∀ x ∈ a.queue, x ∈ a'.queue
  queue_new : ∀ x ∈ a'.queue, x ∈ a.queue ∨
    (∃ t ∈ l, x = ⟨t.2.1, cur.cost + t.2.2, cur.dir⟩ ∧
      ∀ y, a.lab x.dir x.idx = some y → x.cost < y)
  nopush : c.isCh = false → isNone = false → a'.queue = a.queue

theorem relaxed_cons {isNone : Bool} {cur : CN K} {t : Arc K} {l : List (Arc K)} {a a' : A K}
    (h : Relaxed c isNone cur l (Search.relax1 c isNone cur a t) a') :
    Relaxed c isNone cur (t :: l) a a' := by
  unfold Search.relax1 at h
  split at h
  · rename_i hlt
    rw [ltInf_iff] at hlt
    have hle : ∀ d u y, a.lab d u = some y →
        ∃ y', upd a.lab cur.dir t.2.1 (some (cur.cost + t.2.2)) d u = some y' ∧ y' ≤ y := by
      intro d u y hy
      by_cases h : d = cur.dir ∧ u = t.2.1
      · obtain ⟨rfl, rfl⟩ := h
        exact ⟨_, upd_same _ _ _ _, le_of_lt (hlt _ hy)⟩
      · exact ⟨y, by rw [upd_other _ _ h]; exact hy, le_refl _⟩
    have hqs : ∀ x ∈ a.queue, x ∈ (if (c.isCh || isNone) = true then
        c.h.push a.queue { idx := t.2.1, cost := cur.cost + t.2.2, dir := cur.dir } else a.queue) := by
      intro x hx
      split
      · exact mem_push.mpr (Or.inr hx)
      · exact hx
    refine { vis := h.vis, flag := h.flag, lab_le := ?_, arcs := ?_, changed := ?_,
             queue_sub := fun x hx => h.queue_sub x (hqs x hx), queue_new := ?_, nopush := ?_ }
    · intro d v x hx
      obtain ⟨y, hy, hyx⟩ := hle d v x hx
      obtain ⟨z, hz, hzy⟩ := h.lab_le d v y hy
      exact ⟨z, hz, le_trans hzy hyx⟩
    · intro t' ht'
      rcases List.mem_cons.mp ht' with rfl | ht'
      · obtain ⟨y, hy, hle⟩ := h.lab_le cur.dir t'.2.1 (cur.cost + t'.2.2) (upd_same _ _ _ _)
        exact ⟨y, hy, hle⟩
      · exact h.arcs t' ht'
    · intro d v y hy
      rcases h.changed d v y hy with h1 | ⟨h1, ⟨t', ht', h2⟩, h3, h4⟩
      · simp only at h1
        by_cases hdv : d = cur.dir ∧ v = t.2.1
        · obtain ⟨rfl, rfl⟩ := hdv
          rw [upd_same] at h1
          cases h1
          refine Or.inr ⟨rfl, ⟨t, List.mem_cons_self, rfl, rfl⟩, hlt, fun hpush => ?_⟩
          refine h.queue_sub _ ?_
          have : (c.isCh || isNone) = true := by simpa using hpush
          simp only [this, if_true]
          exact mem_push.mpr (Or.inl rfl)
        · rw [upd_other _ _ hdv] at h1
          exact Or.inl h1
      · refine Or.inr ⟨h1, ⟨t', List.mem_cons_of_mem _ ht', h2⟩, fun x hx => ?_, h4⟩
        obtain ⟨z, hz, hzx⟩ := hle d v x hx
        exact lt_of_lt_of_le (h3 z hz) hzx
    · intro x hx
      rcases h.queue_new x hx with h1 | ⟨t', ht', h1, h2⟩
      · simp only at h1
        split at h1
        · rw [mem_push] at h1
          rcases h1 with rfl | h1
          · exact Or.inr ⟨t, List.mem_cons_self, rfl, hlt⟩
          · exact Or.inl h1
        · exact Or.inl h1
      · refine Or.inr ⟨t', List.mem_cons_of_mem _ ht', h1, fun y hy => ?_⟩
        obtain ⟨z, hz, hzy⟩ := hle _ _ _ hy
        exact lt_of_lt_of_le (h2 z hz) hzy
    · intro h1 h2
      rw [h.nopush h1 h2]
      simp [h1, h2]
  · rename_i hlt
    refine { vis := h.vis, flag := h.flag, lab_le := h.lab_le, arcs := ?_, changed := ?_,
             queue_sub := h.queue_sub, queue_new := ?_, nopush := h.nopush }
    · intro t' ht'
      rcases List.mem_cons.mp ht' with rfl | ht'
      · rw [ltInf_iff] at hlt
        push Not at hlt
        obtain ⟨y, hy, hyle⟩ := hlt
        obtain ⟨z, hz, hzy⟩ := h.lab_le _ _ _ hy
        exact ⟨z, hz, le_trans hzy hyle⟩
      · exact h.arcs t' ht'
    · intro d v y hy
      rcases h.changed d v y hy with h1 | ⟨h1, ⟨t', ht', h2⟩, h3⟩
      · exact Or.inl h1
      · exact Or.inr ⟨h1, ⟨t', List.mem_cons_of_mem _ ht', h2⟩, h3⟩
    · intro x hx
      rcases h.queue_new x hx with h1 | ⟨t', ht', h1⟩
      · exact Or.inl h1
      · exact Or.inr ⟨t', List.mem_cons_of_mem _ ht', h1⟩

theorem relaxAll_relaxed (isNone : Bool) (cur : CN K) (l : List (Arc K)) (a : A K) :
    Relaxed c isNone cur l a (relaxAll c isNone cur l a) := by
  induction l generalizing a with
  | nil =>
    exact { vis := rfl, flag := rfl, lab_le := fun d v x h => ⟨x, h, le_refl _⟩,
            arcs := (by intro t ht; cases ht), changed := fun d v y h => Or.inl h,
            queue_sub := fun x h => h, queue_new := fun x h => Or.inl h, nopush := fun _ _ => rfl }
  | cons t l ih => exact relaxed_cons (ih (Search.relax1 c isNone cur a t))

/-- The best total is at most `s`. -/
def BestLe (best : Best K) (s : K) : Prop := ∃ m b, best = some (m, some b) ∧ b ≤ s
/-- The best total is less than `s`. -/
def BestLt (best : Best K) (s : K) : Prop := ∃ m b, best = some (m, some b) ∧ b < s

theorem newBest_some {a : A K} {best : Best K} {cur : CN K} {m : Nat} {b : K}
    (h : best = some (m, some b)) : ∃ m' b', newBest c a best cur = some (m', some b') ∧ b' ≤ b := by
  subst h
  unfold newBest
  simp only
  split
  · rename_i hlt
    obtain ⟨t, ht⟩ := ltInf_some hlt
    rw [ht, ltInf_iff] at hlt
    exact ⟨_, t, by rw [ht], le_of_lt (hlt b rfl)⟩
  · exact ⟨m, b, rfl, le_refl _⟩

theorem BestLe.newBest {a : A K} {best : Best K} {cur : CN K} {s : K} (h : BestLe best s) :
    BestLe (newBest c a best cur) s := by
  obtain ⟨m, b, h1, h2⟩ := h
  obtain ⟨m', b', h3, h4⟩ := newBest_some (c := c) (a := a) (cur := cur) h1
  exact ⟨m', b', h3, le_trans h4 h2⟩

theorem BestLt.newBest {a : A K} {best : Best K} {cur : CN K} {s : K} (h : BestLt best s) :
    BestLt (newBest c a best cur) s := by
  obtain ⟨m, b, h1, h2⟩ := h
  obtain ⟨m', b', h3, h4⟩ := newBest_some (c := c) (a := a) (cur := cur) h1
  exact ⟨m', b', h3, lt_of_le_of_lt h4 h2⟩

/-- Looking at a node labelled in both directions bounds the best total by the sum of the labels; in
the non-ch case only once there is a meeting node. -/
theorem newBest_total {a : A K} {best : Best K} (hi : Inv1 c tail a best) {cur : CN K} {x y : K}
    (hx : a.lab .fwd cur.idx = some x) (hy : a.lab .bwd cur.idx = some y)
    (hm : best = none → meetsA c a cur = true) : BestLe (newBest c a best cur) (x + y) := by
  have ht : totalA a cur.idx = some (x + y) := by simp [totalA, hx, hy, addInf]
  cases hb : best with
  | none =>
    refine ⟨cur.idx, x + y, ?_, le_refl _⟩
    simp only [newBest, hm hb, if_true, ht]
  | some mb =>
    obtain ⟨m, b⟩ := mb
    obtain ⟨t, _, _, rfl, _⟩ := hi.best m b hb
    unfold newBest
    simp only
    split
    · exact ⟨cur.idx, x + y, by rw [ht], le_refl _⟩
    · rename_i hlt
      rw [ht, ltInf_iff] at hlt
      push Not at hlt
      obtain ⟨z, hz, hle⟩ := hlt
      cases hz
      exact ⟨m, t, rfl, hle⟩

theorem newBest_none {a : A K} {best : Best K} {cur : CN K} (h : newBest c a best cur = none) :
    best = none ∧ meetsA c a cur = false := by
  unfold newBest at h
  cases best with
  | some mb =>
    simp only at h
    split at h <;> cases h
  | none =>
    simp only at h
    split at h
    · cases h
    · rename_i hm
      exact ⟨rfl, by simpa using hm⟩

theorem above_iff {a : A K} {best : Best K} (hi : Inv1 c tail a best) {cur : CN K} :
    above best cur = true ↔ BestLt best cur.cost := by
  cases hb : best with
  | none => simp [above, BestLt]
  | some mb =>
    obtain ⟨m, b⟩ := mb
    obtain ⟨t, _, _, rfl, _⟩ := hi.best m b hb
    simp only [above, BestLt, ltInf_iff, Option.some.injEq, Prod.mk.injEq]
    constructor
    · intro h; exact ⟨m, t, ⟨rfl, rfl⟩, h _ rfl⟩
    · rintro ⟨m', b', ⟨rfl, rfl⟩, h⟩ y rfl; exact h

/-- Exploration invariants. -/
structure Inv2 (c : Cfg K) (a : A K) (best : Best K) : Prop where
  flag : ∀ d, a.flag d = true → best ≠ none
  exp : (c.isCh = true ∨ best = none) → ∀ d v x, a.lab d v = some x →
    (⟨v, x, d⟩ : CN K) ∈ a.queue ∨
    ((c.isCh = false → a.vis d v = true) ∧
      ∀ t ∈ c.out d v, ∃ y, a.lab d t.2.1 = some y ∧ y ≤ x + t.2.2) ∨
    BestLt best x
  meet : c.isCh = false → best = none → ∀ v, ¬ (a.vis .fwd v = true ∧ a.vis .bwd v = true)
  meetCh : c.isCh = true → ∀ v x y, a.lab .fwd v = some x → a.lab .bwd v = some y →
    BestLe best (x + y) ∨ (⟨v, x, .fwd⟩ : CN K) ∈ a.queue ∨ (⟨v, y, .bwd⟩ : CN K) ∈ a.queue

theorem Inv2.step {a : A K} {best : Best K} (hk : AddOk K)
    (hi : Inv1 c tail a best) (h2 : Inv2 c a best) {cur : CN K} {q : List (CN K)}
    (hp : c.h.pop a.queue = some (cur, q)) {a' : A K} {best' : Best K}
    (hs : stepA c { a with queue := q } best cur = .go a' best') : Inv2 c a' best' := by
  have hmem : ∀ {x : CN K}, x ∈ a.queue → x = cur ∨ x ∈ q := fun hx => (mem_pop hp).mp hx
  obtain ⟨_, h | h | h⟩ := stepA_go c hs
  · -- outdated entry
    obtain ⟨hl, rfl, rfl⟩ := h
    have hne : ∀ d v x, a.lab d v = some x → (⟨v, x, d⟩ : CN K) ∈ a.queue →
        (⟨v, x, d⟩ : CN K) ∈ q := by
      intro d v x hx hm
      rcases hmem hm with rfl | h
      · exact absurd (leInf_iff.mpr (fun y hy => by
          simp only at hy; rw [hx] at hy; cases hy; exact le_refl _)) hl
      · exact h
    refine { flag := h2.flag, exp := ?_, meet := h2.meet, meetCh := ?_ }
    · intro hc d v x hx
      exact (h2.exp hc d v x hx).imp_left (hne d v x hx)
    · intro hc v x y hx hy
      exact (h2.meetCh hc v x y hx hy).imp_right (Or.imp (hne _ _ _ hx) (hne _ _ _ hy))
  · -- above the best total
    obtain ⟨hl, hab, rfl, rfl⟩ := h
    rw [above_iff hi] at hab
    have hvis : ∀ d v, a.vis d v = true → (visitA c { a with queue := q } cur).vis d v = true := by
      intro d v hv
      unfold visitA
      split
      · exact hv
      · simp only [upd]; split
        · rfl
        · exact hv
    refine { flag := ?_, exp := ?_, meet := ?_, meetCh := ?_ }
    · intro d _ hb
      obtain ⟨m, b, h, _⟩ := hab
      rw [hb] at h; cases h
    · intro hc d v x hx
      simp only [visitA_lab, visitA_queue] at hx ⊢
      rcases h2.exp hc d v x hx with h | h | h
      · rcases hmem h with rfl | h
        · exact Or.inr (Or.inr hab)
        · exact Or.inl h
      · exact Or.inr (Or.inl ⟨fun hc => hvis d v (h.1 hc), h.2⟩)
      · exact Or.inr (Or.inr h)
    · intro _ hb
      obtain ⟨m, b, h, _⟩ := hab
      rw [hb] at h; cases h
    · intro hc v x y hx hy
      simp only [visitA_lab, visitA_queue] at hx hy ⊢
      obtain ⟨m, b, hb, hlt⟩ := hab
      rcases h2.meetCh hc v x y hx hy with h | h | h
      · exact Or.inl h
      · rcases hmem h with rfl | h
        · exact Or.inl ⟨m, b, hb, le_trans (le_of_lt hlt) (hk.infl _ _ (hi.nonneg _ _ _ hy))⟩
        · exact Or.inr (Or.inl h)
      · rcases hmem h with rfl | h
        · exact Or.inl ⟨m, b, hb, le_trans (le_of_lt hlt) (hk.infl' _ _ (hi.nonneg _ _ _ hx))⟩
        · exact Or.inr (Or.inr h)
  · -- relaxation
    obtain ⟨hl, _, hb, ha'⟩ := h
    have hc := hi.popped hp hl
    have hq1 : Inv1 c tail (visitA c { a with queue := q } cur) best :=
      (hi.setQueue (fun x hx => (mem_pop hp).mpr (Or.inr hx))).visit hc
    have hr := relaxAll_relaxed (c := c) best'.isNone cur (c.out cur.dir cur.idx)
      (visitA c { a with queue := q } cur)
    rw [← ha'] at hr
    have hlab : ∀ d v y, a'.lab d v = some y → a.lab d v = some y ∨
        (d = cur.dir ∧ ((c.isCh = true ∨ best'.isNone = true) → (⟨v, y, d⟩ : CN K) ∈ a'.queue)) := by
      intro d v y hy
      rcases hr.changed d v y hy with h | ⟨h1, _, _, h3⟩
      · rw [visitA_lab] at h; exact Or.inl h
      · exact Or.inr ⟨h1, h3⟩
    have hq' : ∀ {x : CN K}, x ∈ q → x ∈ a'.queue := fun hx => hr.queue_sub _ (by
      rw [visitA_queue]; exact hx)
    refine { flag := ?_, exp := ?_, meet := ?_, meetCh := ?_ }
    · intro d hd hn
      rw [hr.flag, visitA_flag] at hd
      rw [hb] at hn
      exact h2.flag d hd (newBest_none hn).1
    · intro hcb d v x hx
      have hpush : c.isCh = true ∨ best'.isNone = true := by
        rcases hcb with h | h
        · exact Or.inl h
        · exact Or.inr (by rw [h]; rfl)
      have hcb0 : c.isCh = true ∨ best = none := by
        rcases hcb with h | h
        · exact Or.inl h
        · rw [hb] at h
          exact Or.inr (newBest_none h).1
      rcases hlab d v x hx with hx0 | ⟨_, h⟩
      · rcases h2.exp hcb0 d v x hx0 with h | h | h
        · rcases hmem h with rfl | h
          · refine Or.inr (Or.inl ⟨fun hch => ?_, fun t ht => hr.arcs t ht⟩)
            rw [hr.vis]
            simp only [visitA, hch, Bool.false_eq_true, if_false]
            exact upd_same _ _ _ _
          · exact Or.inl (hq' h)
        · refine Or.inr (Or.inl ⟨fun hch => ?_, fun t ht => ?_⟩)
          · rw [hr.vis]
            simp only [visitA, hch, Bool.false_eq_true, if_false, upd]
            split
            · rfl
            · exact h.1 hch
          · obtain ⟨y, hy, hle⟩ := h.2 t ht
            obtain ⟨z, hz, hzy⟩ := hr.lab_le d t.2.1 y (by rw [visitA_lab]; exact hy)
            exact ⟨z, hz, le_trans hzy hle⟩
        · rw [hb]
          exact Or.inr (Or.inr h.newBest)
      · exact Or.inl (h hpush)
    · intro hch hn v
      rw [hb] at hn
      obtain ⟨hn0, hm⟩ := newBest_none hn
      rw [hr.vis]
      simp only [meetsA, visitA, hch, Bool.false_eq_true, if_false] at hm ⊢
      rintro ⟨h3, h4⟩
      by_cases hv : v = cur.idx
      · subst hv
        cases hd : cur.dir with
        | fwd =>
          rw [hd] at hm
          simp only [upd, Dir.opp, reduceCtorEq, false_and, if_false] at hm
          rw [hd] at h4
          simp only [upd, reduceCtorEq, false_and, if_false] at h4
          rw [hm] at h4; cases h4
        | bwd =>
          rw [hd] at hm
          simp only [upd, Dir.opp, reduceCtorEq, false_and, if_false] at hm
          rw [hd] at h3
          simp only [upd, reduceCtorEq, false_and, if_false] at h3
          rw [hm] at h3; cases h3
      · rw [upd_other _ _ (fun h => hv h.2)] at h3 h4
        exact h2.meet hch hn0 v ⟨h3, h4⟩
    · intro hch v x y hx hy
      rcases hlab _ v x hx with hx0 | ⟨_, h⟩
      swap
      · exact Or.inr (Or.inl (h (Or.inl hch)))
      rcases hlab _ v y hy with hy0 | ⟨_, h⟩
      swap
      · exact Or.inr (Or.inr (h (Or.inl hch)))
      have key : v = cur.idx → BestLe best' (x + y) := by
        rintro rfl
        rw [hb]
        refine newBest_total hq1 (by rw [visitA_lab]; exact hx0) (by rw [visitA_lab]; exact hy0) ?_
        intro _
        simp only [meetsA, hch, if_true, visitA_lab]
        cases cur.dir
        · simp [Dir.opp, hy0]
        · simp [Dir.opp, hx0]
      rcases h2.meetCh hch v x y hx0 hy0 with h | h | h
      · rw [hb]; exact Or.inl h.newBest
      · rcases hmem h with h | h
        · exact Or.inl (key (by rw [← h]))
        · exact Or.inr (Or.inl (hq' h))
      · rcases hmem h with h | h
        · exact Or.inl (key (by rw [← h]))
        · exact Or.inr (Or.inr (hq' h))

theorem initA_lab {d : Dir} {v : Nat} {x : K} (h : (initA c).lab d v = some x) :
    v = c.root d ∧ x = 0 := by
  simp only [initA, upd] at h
  cases d
  · simp only [reduceCtorEq, false_and, if_false] at h
    split at h
    · rename_i h1
      cases h
      exact ⟨h1.2, rfl⟩
    · cases h
  · simp only [reduceCtorEq, false_and, if_false] at h
    split at h
    · rename_i h1
      cases h
      exact ⟨h1.2, rfl⟩
    · cases h

theorem initA_queue {x : CN K} : x ∈ (initA c).queue ↔ x = ⟨c.root x.dir, 0, x.dir⟩ := by
  obtain ⟨i, y, d⟩ := x
  simp only [initA, mem_push, List.not_mem_nil, or_false, Cfg.root]
  cases d <;> simp

theorem Inv2.init : Inv2 c (initA c) none := by
  refine { flag := ?_, exp := ?_, meet := ?_, meetCh := ?_ }
  · intro d h; cases h
  · intro _ d v x hx
    obtain ⟨rfl, rfl⟩ := initA_lab hx
    exact Or.inl (initA_queue.mpr rfl)
  · rintro _ _ v ⟨h, _⟩; cases h
  · intro _ v x y hx _
    obtain ⟨rfl, rfl⟩ := initA_lab hx
    exact Or.inr (Or.inl (initA_queue.mpr rfl))

/-- Both groups of invariants hold before the last look at the queue. -/
theorem inv12_final (hk : AddOk K) (ho : OutOk c tail) {fuel : Nat} {a : A K} {best : Best K}
    (h : loopA c fuel (initA c) none = some (a, best)) :
    ∃ a0, (Inv1 c tail a0 best ∧ Inv2 c a0 best) ∧ ((a0.queue = [] ∧ a = a0) ∨
      (a0.flag .fwd = true ∧ a0.flag .bwd = true ∧ ∃ cur q, c.h.pop a0.queue = some (cur, q) ∧
        a = { a0 with queue := q })) :=
  loopA_induct c (Inv := fun a best => Inv1 c tail a best ∧ Inv2 c a best)
    (fun _ _ _ _ _ _ hi hp hs => ⟨hi.1.step hk ho hp hs, hi.2.step hk hi.1 hp hs⟩)
    ⟨Inv1.init, Inv2.init⟩ h

/-- If nothing has been found, everything reachable has been labelled. -/
theorem reach_labelled (hk : AddOk K) (ho : OutOk c tail) {fuel : Nat} {a : A K}
    (h : loopA c fuel (initA c) none = some (a, none)) {d : Dir} {u : Nat}
    {ts : List (Arc K)} {v : Nat} {y : K} (hu : a.lab d u = some y) (hr : IsRt (c.out d) u ts v) :
    ∃ x, a.lab d v = some x := by
  obtain ⟨a0, ⟨hi, h2⟩, ⟨hq, rfl⟩ | ⟨hf, _⟩⟩ := inv12_final hk ho h
  · induction ts generalizing u y with
    | nil => cases hr; exact ⟨_, hu⟩
    | cons t ts ih =>
      rcases h2.exp (Or.inr rfl) d u y hu with h | h | ⟨m, b, h, _⟩
      · rw [hq] at h; cases h
      · obtain ⟨z, hz, _⟩ := h.2 t hr.1
        exact ih hz hr.2
      · cases h
  · exact absurd rfl (h2.flag _ hf)

/-- If nothing has been found, no node is labelled from both sides. -/
theorem none_disjoint (hk : AddOk K) (ho : OutOk c tail) {fuel : Nat} {a : A K}
    (h : loopA c fuel (initA c) none = some (a, none)) {v : Nat} {x y : K}
    (hx : a.lab .fwd v = some x) (hy : a.lab .bwd v = some y) : False := by
  obtain ⟨a0, ⟨hi, h2⟩, ⟨hq, rfl⟩ | ⟨hf, _⟩⟩ := inv12_final hk ho h
  · cases hch : c.isCh with
    | true =>
      rcases h2.meetCh hch v x y hx hy with ⟨m, b, h, _⟩ | h | h
      · cases h
      · rw [hq] at h; cases h
      · rw [hq] at h; cases h
    | false =>
      have hv : ∀ d z, a.lab d v = some z → a.vis d v = true := by
        intro d z hz
        rcases h2.exp (Or.inr rfl) d v z hz with h | h | ⟨m, b, h, _⟩
        · rw [hq] at h; cases h
        · exact h.1 hch
        · cases h
      exact h2.meet hch rfl v ⟨hv _ _ hx, hv _ _ hy⟩
  · exact absurd rfl (h2.flag _ hf)

/-- Completeness: a common node of a forward and a backward route is enough to find something. -/
theorem found (hk : AddOk K) (ho : OutOk c tail) {fuel : Nat} {a : A K} {best : Best K}
    (h : loopA c fuel (initA c) none = some (a, best)) {v : Nat} {l l' : List (Arc K)}
    (hf : IsRt (c.out .fwd) c.src l v) (hb : IsRt (c.out .bwd) c.dst l' v) : best ≠ none := by
  rintro rfl
  have hi := inv1_final hk ho h
  obtain ⟨x, hx⟩ := reach_labelled hk ho h (hi.root .fwd) hf
  obtain ⟨y, hy⟩ := reach_labelled hk ho h (hi.root .bwd) hb
  exact none_disjoint hk ho h hx hy

end
end Verif.Search
