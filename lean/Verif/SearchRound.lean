import Verif.SearchNear

/-!
# The search with rounded sums and an inexact queue

Costs have a rational value, and each sum is wrong by at most the factor `u`. `E` bounds how much more a popped
element costs than those left in the queue.
-/

namespace Verif.Search

set_option linter.unusedSectionVars false

open Dij

/-- Costs with a value and rounded sums. -/
structure Val (K : Type) [LinearOrder K] [Zero K] [Add K] (val : K → ℚ) (u : ℚ) : Prop where
  le : ∀ a b : K, a ≤ b ↔ val a ≤ val b
  zero : val 0 = 0
  up : ∀ a b : K, 0 ≤ a → 0 ≤ b → val (a + b) ≤ (1 + u) * (val a + val b)
  low : ∀ a b : K, 0 ≤ a → 0 ≤ b → (1 - u) * (val a + val b) ≤ val (a + b)
  nonneg : 0 ≤ u
  lt : u < 1

section
variable {K : Type} [LinearOrder K] [Zero K] [Add K] {c : Cfg K} {tail : Dir → Nat → Nat} {val : K → ℚ} {u : ℚ}

theorem Val.lt_iff (hv : Val K val u) (a b : K) : a < b ↔ val a < val b := by
  rw [← not_le, hv.le, not_le]

theorem Val.nn (hv : Val K val u) {a : K} (h : 0 ≤ a) : 0 ≤ val a := by
  have := (hv.le _ _).mp h
  rwa [hv.zero] at this

/-- The best total has at most the value `s`. -/
def VLe (val : K → ℚ) (best : Best K) (s : ℚ) : Prop := ∃ m b, best = some (m, some b) ∧ val b ≤ s
/-- The best total has a value less than `s`. -/
def VLt (val : K → ℚ) (best : Best K) (s : ℚ) : Prop := ∃ m b, best = some (m, some b) ∧ val b < s

theorem VLt.newBest (hv : Val K val u) {a : A K} {best : Best K} {cur : CN K} {s : ℚ} (h : VLt val best s) :
    VLt val (newBest c a best cur) s := by
  obtain ⟨m, b, h1, h2⟩ := h
  obtain ⟨m', b', h3, h4⟩ := newBest_some (c := c) (a := a) (cur := cur) h1
  exact ⟨m', b', h3, lt_of_le_of_lt ((hv.le _ _).mp h4) h2⟩

theorem VLe.newBest (hv : Val K val u) {a : A K} {best : Best K} {cur : CN K} {s : ℚ} (h : VLe val best s) :
    VLe val (newBest c a best cur) s := by
  obtain ⟨m, b, h1, h2⟩ := h
  obtain ⟨m', b', h3, h4⟩ := newBest_some (c := c) (a := a) (cur := cur) h1
  exact ⟨m', b', h3, le_trans ((hv.le _ _).mp h4) h2⟩

/-- Invariants of the order in which nodes are popped. -/
structure Inv3V (val : K → ℚ) (E : ℚ) (a : A K) (best : Best K) : Prop where
  low : ∃ r, (∀ x ∈ a.queue, r ≤ val x.cost + E) ∧
    (∀ d v, a.vis d v = true → ∃ x, a.lab d v = some x ∧ val x ≤ r)
  flagq : ∀ d, a.flag d = true → ∀ x ∈ a.queue, VLt val best (val x.cost + E)

theorem vis_visitA' {a : A K} {cur : CN K} {d : Dir} {v : Nat} (hv : (visitA c a cur).vis d v = true) :
    a.vis d v = true ∨ (d = cur.dir ∧ v = cur.idx) := by
  unfold visitA at hv
  split at hv
  · exact Or.inl hv
  · simp only [upd] at hv
    split at hv
    · rename_i h; exact Or.inr h
    · exact Or.inl hv

theorem Inv3V.step (hv : Val K val u) (hk : AddOk K) {E : ℚ} (hE0 : 0 ≤ E) {a : A K} {best : Best K}
    (ho : OutOk c tail)
    (hi : Inv1 c tail a best) (h3 : Inv3V val E a best) {cur : CN K} {q : List (CN K)}
    (hp : c.h.pop a.queue = some (cur, q)) (hmin : ∀ x ∈ q, val cur.cost ≤ val x.cost + E) {a' : A K}
    {best' : Best K} (hs : stepA c { a with queue := q } best cur = .go a' best') :
    Inv3V val E a' best' := by
  obtain ⟨r, hr1, hr2⟩ := h3.low
  have hsub : ∀ x ∈ q, x ∈ a.queue := fun x hx => (mem_pop hp).mpr (Or.inr hx)
  have hcq : cur ∈ a.queue := (mem_pop hp).mpr (Or.inl rfl)
  obtain ⟨_, h | h | h⟩ := stepA_go c hs
  · obtain ⟨_, rfl, rfl⟩ := h
    exact { low := ⟨r, fun x hx => hr1 x (hsub x hx), hr2⟩,
            flagq := fun d hd x hx => h3.flagq d hd x (hsub x hx) }
  · obtain ⟨hl, hab, rfl, rfl⟩ := h
    have hc := hi.popped hp hl
    rw [above_iff hi] at hab
    refine { low := ⟨max r (val cur.cost), ?_, ?_⟩, flagq := ?_ }
    · intro x hx
      simp only [visitA_queue] at hx
      exact max_le (hr1 x (hsub x hx)) (hmin x hx)
    · intro d v hv
      simp only [visitA_lab] at hv ⊢
      rcases vis_visitA' hv with h | ⟨rfl, rfl⟩
      · obtain ⟨x, hx, hxr⟩ := hr2 d v h
        exact ⟨x, hx, le_trans hxr (le_max_left _ _)⟩
      · exact ⟨_, hc, le_max_right _ _⟩
    · intro d _ x hx
      simp only [visitA_queue] at hx
      obtain ⟨m, b, hb, hlt⟩ := hab
      exact ⟨m, b, hb, lt_of_lt_of_le ((hv.lt_iff _ _).mp hlt) (hmin x hx)⟩
  · obtain ⟨hl, hab, hb, ha'⟩ := h
    have hc := hi.popped hp hl
    have hr := relaxAll_relaxed (c := c) best'.isNone cur (c.out cur.dir cur.idx)
      (visitA c { a with queue := q } cur)
    rw [← ha'] at hr
    have hE := hr1 _ hcq
    have hinf : ∀ t ∈ c.out cur.dir cur.idx, val cur.cost ≤ val (cur.cost + t.2.2) := fun t ht =>
      (hv.le _ _).mp (hk.infl _ _ (ho.nonneg _ _ _ ht))
    refine { low := ⟨max r (val cur.cost), ?_, ?_⟩, flagq := ?_ }
    · intro x hx
      rcases hr.queue_new x hx with h | ⟨t, ht, rfl, _⟩
      · rw [visitA_queue] at h
        exact max_le (hr1 x (hsub x h)) (hmin x h)
      · have := hinf t ht
        simp only
        exact max_le (by linarith) (by linarith)
    · intro d v hv'
      rw [hr.vis] at hv'
      have hx : ∃ x, a.lab d v = some x ∧ val x ≤ max r (val cur.cost) := by
        rcases vis_visitA' hv' with h | ⟨rfl, rfl⟩
        · obtain ⟨x, hx, hxr⟩ := hr2 d v h
          exact ⟨x, hx, le_trans hxr (le_max_left _ _)⟩
        · exact ⟨_, hc, le_max_right _ _⟩
      obtain ⟨x, hx, hxr⟩ := hx
      obtain ⟨y, hy, hyx⟩ := hr.lab_le d v x (by rw [visitA_lab]; exact hx)
      exact ⟨y, hy, le_trans ((hv.le _ _).mp hyx) hxr⟩
    · intro d hd x hx
      rw [hr.flag, visitA_flag] at hd
      rw [hb]
      refine VLt.newBest hv ?_
      rcases hr.queue_new x hx with h | ⟨t, ht, rfl, _⟩
      · rw [visitA_queue] at h
        exact h3.flagq d hd x (hsub x h)
      · obtain ⟨m, b, h5, h6⟩ := h3.flagq d hd cur hcq
        have := hinf t ht
        exact ⟨m, b, h5, by simp only; linarith⟩

theorem Inv3V.init (hv : Val K val u) {E : ℚ} (hE0 : 0 ≤ E) : Inv3V val E (initA c) none := by
  refine { low := ⟨0, ?_, ?_⟩, flagq := ?_ }
  · intro x hx
    rw [initA_queue] at hx
    rw [hx, hv.zero, zero_add]
    exact hE0
  · intro d v h; cases h
  · intro d h; cases h

/-! ## Contraction hierarchies -/

/-- No pair of a forward and a backward route to a common node is cheaper by more than `E` and the last rounding. -/
theorem round_ch (hv : Val K val u) (hk : AddOk K) {E : ℚ} (hE0 : 0 ≤ E) (hch : c.isCh = true) (ho : OutOk c tail)
    {a0 : A K} {best : Best K} (h1 : Inv1 c tail a0 best) (h2 : Inv2 c a0 best)
    (hq : ∀ x ∈ a0.queue, VLt val best (val x.cost + E)) {v : Nat} {l l' : List (Arc K)}
    (hf : IsRt (c.out .fwd) c.src l v) (hb : IsRt (c.out .bwd) c.dst l' v) :
    VLe val best ((1 + u) * (val (costFrom 0 l) + val (costFrom 0 l')) + E) := by
  have hmono : ∀ (l : List (Arc K)) (x y : K), x ≤ y → costFrom x l ≤ costFrom y l := by
    intro l
    induction l with
    | nil => intro x y h; exact h
    | cons t l ih => intro x y h; exact ih _ _ (hk.mono _ _ _ h)
  have hinf : ∀ d (l : List (Arc K)) w x, IsRt (c.out d) w l v → x ≤ costFrom x l := by
    intro d l
    induction l with
    | nil => intro w x _; exact le_refl _
    | cons t l ih => intro w x hr; exact le_trans (hk.infl _ _ (ho.nonneg _ _ _ hr.1)) (ih _ _ hr.2)
  have key : ∀ d (l : List (Arc K)) w y, a0.lab d w = some y → IsRt (c.out d) w l v →
      (∃ x, a0.lab d v = some x ∧ x ≤ costFrom y l) ∨ VLt val best (val (costFrom y l) + E) := by
    intro d l
    induction l with
    | nil =>
      intro w y hy hr
      cases hr
      exact Or.inl ⟨y, hy, le_refl _⟩
    | cons t l ih =>
      intro w y hy hr
      have hle := (hv.le _ _).mp (hinf d (t :: l) w y hr)
      rcases h2.exp (Or.inl hch) d w y hy with h | h | h
      · obtain ⟨m, b, h3, h4⟩ := hq _ h
        exact Or.inr ⟨m, b, h3, by simp only at h4; linarith⟩
      · obtain ⟨z, hz, hzle⟩ := h.2 t hr.1
        have hm := hmono l _ _ hzle
        rcases ih _ z hz hr.2 with ⟨x, hx, hxle⟩ | ⟨m, b, h3, h4⟩
        · exact Or.inl ⟨x, hx, le_trans hxle hm⟩
        · exact Or.inr ⟨m, b, h3, by have := (hv.le _ _).mp hm; exact lt_of_lt_of_le h4 (by
            show val (costFrom z l) + E ≤ val (costFrom (y + t.2.2) l) + E
            linarith)⟩
      · obtain ⟨m, b, h3, h4⟩ := h
        exact Or.inr ⟨m, b, h3, by have := (hv.lt_iff _ _).mp h4; linarith⟩
  have nf := hv.nn (hinf .fwd l c.src 0 hf)
  have nb := hv.nn (hinf .bwd l' c.dst 0 hb)
  have hu := hv.nonneg
  have nfu := mul_nonneg hu nf
  have nbu := mul_nonneg hu nb
  rcases key .fwd l c.src 0 (h1.root .fwd) hf with ⟨x, hx, hxle⟩ | ⟨m, b, hb1, hlt⟩
  swap
  · exact ⟨m, b, hb1, by rw [add_mul, one_mul, mul_add]; linarith⟩
  rcases key .bwd l' c.dst 0 (h1.root .bwd) hb with ⟨y, hy, hyle⟩ | ⟨m, b, hb1, hlt⟩
  swap
  · exact ⟨m, b, hb1, by rw [add_mul, one_mul, mul_add]; linarith⟩
  have hxv := (hv.le _ _).mp hxle
  have hyv := (hv.le _ _).mp hyle
  have hx0 := h1.nonneg _ _ _ hx
  have hy0 := h1.nonneg _ _ _ hy
  have hx0v := hv.nn hx0
  have hy0v := hv.nn hy0
  rcases h2.meetCh hch v x y hx hy with ⟨m, b, h3, h4⟩ | h3 | h3
  · refine ⟨m, b, h3, ?_⟩
    have h5 := (hv.le _ _).mp h4
    have h6 := hv.up x y hx0 hy0
    have h7 : (1 + u) * (val x + val y) ≤ (1 + u) * (val (costFrom 0 l) + val (costFrom 0 l')) :=
      mul_le_mul_of_nonneg_left (by linarith) (by linarith)
    linarith
  · obtain ⟨m, b, hb1, hlt⟩ := hq _ h3
    exact ⟨m, b, hb1, by simp only at hlt; rw [add_mul, one_mul, mul_add]; linarith⟩
  · obtain ⟨m, b, hb1, hlt⟩ := hq _ h3
    exact ⟨m, b, hb1, by simp only at hlt; rw [add_mul, one_mul, mul_add]; linarith⟩

/-! ## The plain search -/

/-- The cost of a route, summed up from its end. -/
def backCost (l : List (Arc K)) : K := l.foldr (fun t x => x + t.2.2) 0

/-- Both labels of a node are known, one side is expanded and the other one in the queue. -/
def Half (c : Cfg K) (val : K → ℚ) (M : ℚ) (a : A K) : Prop :=
  ∃ v y z d, (⟨v, y, d⟩ : CN K) ∈ a.queue ∧ a.lab d v = some y ∧ 0 ≤ z ∧ (∃ z', a.lab d.opp v = some z' ∧ z' ≤ z) ∧
    (∀ t ∈ c.out d.opp v, ∃ y', a.lab d.opp t.2.1 = some y' ∧ y' ≤ z + t.2.2) ∧ val y + val z ≤ M

/-- As long as nothing is found, the backward search has reached a node or is on its way. -/
theorem bwd_front' (hk : AddOk K) (hmi : Mirror c) (ho : OutOk c tail) {a : A K} (hi : Inv1 c tail a none)
    (h2 : Inv2 c a none) {v : Nat} {s : List (Arc K)} (hr : IsRt (c.out .fwd) v s c.dst) :
    (∃ z, a.lab .bwd v = some z ∧ z ≤ backCost s) ∨
    (∃ v' z, (⟨v', z, .bwd⟩ : CN K) ∈ a.queue ∧ z ≤ backCost s) := by
  induction s generalizing v with
  | nil => cases hr; exact Or.inl ⟨0, hi.root .bwd, le_refl _⟩
  | cons t s ih =>
    obtain ⟨e, x, w⟩ := t
    have hw := ho.nonneg _ _ _ hr.1
    simp only at hw
    have hinf : backCost s ≤ backCost ((e, x, w) :: s) := hk.infl _ _ hw
    rcases ih hr.2 with ⟨z, hz, hle⟩ | ⟨v', z, hz, hle⟩
    · rcases h2.exp (Or.inr rfl) _ _ _ hz with h | h | ⟨m, b, h, _⟩
      · exact Or.inr ⟨_, z, h, le_trans hle hinf⟩
      · obtain ⟨y, hy, hyle⟩ := h.2 (e, v, w) ((hmi _ _ _ _).mp hr.1)
        exact Or.inl ⟨y, hy, le_trans hyle (hk.mono _ _ _ hle)⟩
      · cases h
    · exact Or.inr ⟨v', z, hz, le_trans hle hinf⟩

theorem front' (hv : Val K val u) (hk : AddOk K) (hch : c.isCh = false) (hmi : Mirror c) (ho : OutOk c tail)
    {a : A K} (hi : Inv1 c tail a none) (h2 : Inv2 c a none) {l : List (Arc K)} {M : ℚ}
    (hr : IsRt (c.out .fwd) c.src l c.dst)
    (hM : ∀ l1 l2, l = l1 ++ l2 → val (costFrom 0 l1) + val (backCost l2) ≤ M) :
    Half c val M a ∨
    (∃ v y v' z, (⟨v, y, .fwd⟩ : CN K) ∈ a.queue ∧ (⟨v', z, .bwd⟩ : CN K) ∈ a.queue ∧
      val y + val z ≤ M) := by
  have key : ∀ (s : List (Arc K)) v y p, a.lab .fwd v = some y → y ≤ p → IsRt (c.out .fwd) v s c.dst →
      (∀ l1 l2, s = l1 ++ l2 → val (costFrom p l1) + val (backCost l2) ≤ M) →
      Half c val M a ∨
      (∃ v y v' z, (⟨v, y, .fwd⟩ : CN K) ∈ a.queue ∧ (⟨v', z, .bwd⟩ : CN K) ∈ a.queue ∧
        val y + val z ≤ M) := by
    intro s
    induction s with
    | nil =>
      intro v y p hy hle hr hM
      cases hr
      have hz := hi.root .bwd
      simp only [Cfg.root] at hz
      have hM0 : val p + val (0 : K) ≤ M := hM [] [] rfl
      have hyp := (hv.le _ _).mp hle
      rcases h2.exp (Or.inr rfl) _ _ _ hy with h | h | ⟨m, b, h, _⟩
      · rcases h2.exp (Or.inr rfl) _ _ _ hz with h' | h' | ⟨m, b, h', _⟩
        · exact Or.inr ⟨_, y, _, 0, h, h', by linarith⟩
        · exact Or.inl ⟨_, y, 0, .fwd, h, hy, le_refl _, ⟨0, hz, le_refl _⟩, h'.2, by linarith⟩
        · cases h'
      · rcases h2.exp (Or.inr rfl) _ _ _ hz with h' | h' | ⟨m, b, h', _⟩
        · exact Or.inl ⟨_, 0, y, .bwd, h', hz, hi.nonneg _ _ _ hy, ⟨y, hy, le_refl _⟩, h.2, by linarith⟩
        · exact absurd ⟨h.1 hch, h'.1 hch⟩ (h2.meet hch rfl _)
        · cases h'
      · cases h
    | cons t s ih =>
      intro v y p hy hle hr hM
      have hM0 : val p + val (backCost (t :: s)) ≤ M := hM [] (t :: s) rfl
      have hyp := (hv.le _ _).mp hle
      rcases h2.exp (Or.inr rfl) _ _ _ hy with h | h | ⟨m, b, h, _⟩
      · rcases bwd_front' hk hmi ho hi h2 hr with ⟨z, hz, hzle⟩ | ⟨v', z, hz, hzle⟩
        · have hzv := (hv.le _ _).mp hzle
          rcases h2.exp (Or.inr rfl) _ _ _ hz with h' | h' | ⟨m, b, h', _⟩
          · exact Or.inr ⟨_, y, _, z, h, h', by linarith⟩
          · exact Or.inl ⟨_, y, z, .fwd, h, hy, hi.nonneg _ _ _ hz, ⟨z, hz, le_refl _⟩, h'.2, by linarith⟩
          · cases h'
        · have hzv := (hv.le _ _).mp hzle
          exact Or.inr ⟨_, y, v', z, h, hz, by linarith⟩
      · obtain ⟨x, hx, hxle⟩ := h.2 t hr.1
        exact ih t.2.1 x (p + t.2.2) hx (le_trans hxle (hk.mono _ _ _ hle)) hr.2 (fun l1 l2 h12 =>
          hM (t :: l1) l2 (by rw [h12]; rfl))
      · cases h
  exact key l c.src 0 0 (hi.root .fwd) (le_refl _) hr hM

/-- Once something is found: something good enough is found, or the entry that will find it is in the queue. -/
def Inv4V (c : Cfg K) (val : K → ℚ) (u M E : ℚ) (a : A K) (best : Best K) : Prop :=
  best ≠ none → VLe val best ((1 + u) ^ 2 / (1 - u) * (M + 2 * E)) ∨ Half c val M a

theorem sum_dir' {a : A K} {d : Dir} {v : Nat} {y z : K} (hy : a.lab d v = some y)
    (hz : a.lab d.opp v = some z) : ∃ x1 x2, a.lab .fwd v = some x1 ∧ a.lab .bwd v = some x2 ∧
    val x1 + val x2 = val y + val z := by
  cases d
  · exact ⟨y, z, hy, hz, rfl⟩
  · exact ⟨z, y, hz, hy, add_comm _ _⟩

theorem mirror_dir (hmi : Mirror c) {d : Dir} {v : Nat} {t : Arc K} (ht : t ∈ c.out d v) :
    (t.1, v, t.2.2) ∈ c.out d.opp t.2.1 := by
  cases d
  · exact (hmi _ _ _ _).mp ht
  · exact (hmi _ _ _ _).mpr ht

theorem Inv4V.step (hv : Val K val u) (hk : AddOk K) {M E : ℚ} (hE0 : 0 ≤ E) (hM0 : 0 ≤ M) {L : List (Arc K)}
    (hL : IsRt (c.out .fwd) c.src L c.dst)
    (hM : ∀ l1 l2, L = l1 ++ l2 → val (costFrom 0 l1) + val (backCost l2) ≤ M)
    (hch : c.isCh = false) (hmi : Mirror c)
    {a : A K} {best : Best K} (ho : OutOk c tail)
    (hi : Inv1 c tail a best) (h2 : Inv2 c a best) (h3 : Inv3V val E a best) (h4 : Inv4V c val u M E a best)
    {cur : CN K} {q : List (CN K)}
    (hp : c.h.pop a.queue = some (cur, q)) (hmq : ∀ x ∈ q, val cur.cost ≤ val x.cost + E) {a' : A K}
    {best' : Best K} (hs : stepA c { a with queue := q } best cur = .go a' best') :
    Inv4V c val u M E a' best' := by
  intro hne
  have hu := hv.nonneg
  have hu1 : 0 < 1 - u := by have := hv.lt; linarith
  -- what is good enough
  have hgood : ∀ s, s * (1 - u) ≤ (1 + u) ^ 2 * (M + 2 * E) → s ≤ (1 + u) ^ 2 / (1 - u) * (M + 2 * E) := by
    intro s hs
    rw [div_mul_eq_mul_div, le_div_iff₀ hu1]
    exact hs
  have hB1 : ∀ s, s ≤ (1 + u) * (M + 2 * E) → s ≤ (1 + u) ^ 2 / (1 - u) * (M + 2 * E) := by
    intro s hs
    refine hgood s ?_
    have e0 : 0 ≤ (1 + u) * (M + 2 * E) := by positivity
    by_cases hs0 : 0 ≤ s
    · calc s * (1 - u) ≤ s * 1 := mul_le_mul_of_nonneg_left (by linarith) hs0
        _ ≤ (1 + u) * (M + 2 * E) * 1 := by linarith
        _ ≤ (1 + u) * (M + 2 * E) * (1 + u) := mul_le_mul_of_nonneg_left (by linarith) e0
        _ = (1 + u) ^ 2 * (M + 2 * E) := by ring
    · have : s * (1 - u) ≤ 0 := mul_nonpos_of_nonpos_of_nonneg (by linarith) (by linarith)
      have e1 : 0 ≤ (1 + u) ^ 2 * (M + 2 * E) := by positivity
      linarith
  have hB0 : ∀ s, s ≤ M + 2 * E → s ≤ (1 + u) ^ 2 / (1 - u) * (M + 2 * E) := by
    intro s hs
    refine hB1 s (le_trans hs ?_)
    have : 0 ≤ u * (M + 2 * E) := by positivity
    linarith
  have hmem : ∀ {x : CN K}, x ∈ a.queue → x = cur ∨ x ∈ q := fun hx => (mem_pop hp).mp hx
  obtain ⟨_, h | h | h⟩ := stepA_go c hs
  · obtain ⟨hl, rfl, rfl⟩ := h
    rcases h4 hne with h | ⟨v, y, z, d, h5, h6, h7⟩
    · exact Or.inl h
    · rcases hmem h5 with rfl | h5
      · exact absurd (leInf_iff.mpr (fun w hw => by
          simp only at hw; rw [h6] at hw; cases hw; exact le_refl _)) hl
      · exact Or.inr ⟨v, y, z, d, h5, h6, h7⟩
  · obtain ⟨hl, hab, rfl, rfl⟩ := h
    rw [above_iff hi] at hab
    rcases h4 hne with h | ⟨v, y, z, d, h5, h6, hz0, h7, h8, h9⟩
    · exact Or.inl h
    · rcases hmem h5 with rfl | h5
      · obtain ⟨m, b, hb, hlt⟩ := hab
        have e1 := hv.nn hz0
        have e2 := (hv.lt_iff _ _).mp hlt
        exact Or.inl ⟨m, b, hb, hB0 _ (by simp only at e2; linarith)⟩
      · refine Or.inr ⟨v, y, z, d, ?_, ?_, hz0, ?_, ?_, h9⟩ <;> simp only [visitA_lab, visitA_queue] <;>
          assumption
  · obtain ⟨hl, hab, hb, ha'⟩ := h
    have hc := hi.popped hp hl
    have hq1 : Inv1 c tail (visitA c { a with queue := q } cur) best :=
      (hi.setQueue (fun x hx => (mem_pop hp).mpr (Or.inr hx))).visit hc
    have hr := relaxAll_relaxed (c := c) best'.isNone cur (c.out cur.dir cur.idx)
      (visitA c { a with queue := q } cur)
    rw [← ha'] at hr
    have hc0 := hi.nonneg _ _ _ hc
    -- looking at the popped node
    have look : ∀ z, a.lab cur.dir.opp cur.idx = some z →
        (best = none → meetsA c (visitA c { a with queue := q } cur) cur = true) →
        VLe val best' ((1 + u) * (val cur.cost + val z)) := by
      intro z hz hmeet
      obtain ⟨x1, x2, hx1, hx2, hsum⟩ := sum_dir' (val := val) hc hz
      obtain ⟨m, b, h5, h6⟩ := newBest_total hq1 (by rw [visitA_lab]; exact hx1)
        (by rw [visitA_lab]; exact hx2) hmeet
      refine ⟨m, b, by rw [hb, h5], ?_⟩
      rw [← hsum]
      exact le_trans ((hv.le _ _).mp h6) (hv.up _ _ (hi.nonneg _ _ _ hx1) (hi.nonneg _ _ _ hx2))
    -- an entry that is left over stays what it was, or its node has just been passed
    have keep : (best = none → meetsA c (visitA c { a with queue := q } cur) cur = true) →
        ∀ v y z d, (⟨v, y, d⟩ : CN K) ∈ q → a.lab d v = some y → 0 ≤ z →
        (∃ z', a.lab d.opp v = some z' ∧ z' ≤ z) →
        (∀ t ∈ c.out d.opp v, ∃ y', a.lab d.opp t.2.1 = some y' ∧ y' ≤ z + t.2.2) → val y + val z ≤ M →
        VLe val best' ((1 + u) ^ 2 / (1 - u) * (M + 2 * E)) ∨ Half c val M a' := by
      intro hmeet v y z d h5 h6 hz0 ⟨z1, h7, h7'⟩ h8 h9
      obtain ⟨y', hy', hyle⟩ := hr.lab_le d v y (by rw [visitA_lab]; exact h6)
      rcases hr.changed d v y' hy' with hsame | ⟨rfl, ⟨t, ht, rfl, rfl⟩, hlt, _⟩
      · rw [visitA_lab] at hsame
        rw [h6] at hsame
        cases hsame
        right
        refine ⟨v, y, z, d, hr.queue_sub _ (by rw [visitA_queue]; exact h5), hy', hz0, ?_, ?_, h9⟩
        · obtain ⟨z2, h10, h11⟩ := hr.lab_le d.opp v z1 (by rw [visitA_lab]; exact h7)
          exact ⟨z2, h10, le_trans h11 h7'⟩
        · intro t ht
          obtain ⟨x, hx, hxle⟩ := h8 t ht
          obtain ⟨x', hx', hxle'⟩ := hr.lab_le d.opp t.2.1 x (by rw [visitA_lab]; exact hx)
          exact ⟨x', hx', le_trans hxle' hxle⟩
      · left
        obtain ⟨x, hx, hxle⟩ := h8 _ (mirror_dir hmi ht)
        have hw0 := ho.nonneg _ _ _ ht
        obtain ⟨m, b, hb1, hb2⟩ := look x hx hmeet
        refine ⟨m, b, hb1, hgood _ ?_⟩
        have e1 := (hv.le _ _).mp hxle
        have e2 := hv.up z t.2.2 hz0 hw0
        have e3 := hv.low cur.cost t.2.2 hc0 hw0
        have e4 := (hv.le _ _).mp hyle
        have hcv := hv.nn hc0
        have hzv := hv.nn hz0
        have hwv := hv.nn hw0
        simp only at e1
        have e5 : val x ≤ (1 + u) * (val z + val t.2.2) := le_trans e1 e2
        have e6 : val b ≤ (1 + u) ^ 2 * (val cur.cost + val t.2.2 + val z) := by
          refine le_trans hb2 ?_
          have : val cur.cost + val x ≤ (1 + u) * (val cur.cost + val t.2.2 + val z) := by
            have := mul_nonneg hu hcv
            linarith
          calc (1 + u) * (val cur.cost + val x) ≤ (1 + u) * ((1 + u) * (val cur.cost + val t.2.2 + val z)) :=
                mul_le_mul_of_nonneg_left this (by linarith)
            _ = _ := by ring
        calc val b * (1 - u) ≤ (1 + u) ^ 2 * (val cur.cost + val t.2.2 + val z) * (1 - u) :=
              mul_le_mul_of_nonneg_right e6 (le_of_lt hu1)
          _ = (1 + u) ^ 2 * ((1 - u) * (val cur.cost + val t.2.2) + (1 - u) * val z) := by ring
          _ ≤ (1 + u) ^ 2 * (M + 2 * E) := by
            refine mul_le_mul_of_nonneg_left ?_ (by positivity)
            have := mul_nonneg hu hzv
            linarith
    -- looking at an entry itself
    have self : (best = none → meetsA c (visitA c { a with queue := q } cur) cur = true) →
        ∀ z, (∃ z', a.lab cur.dir.opp cur.idx = some z' ∧ z' ≤ z) → val cur.cost + val z ≤ M + 2 * E →
        VLe val best' ((1 + u) ^ 2 / (1 - u) * (M + 2 * E)) := by
      rintro hmeet z ⟨z', hz', hzle⟩ hle
      obtain ⟨m, b, hb1, hb2⟩ := look z' hz' hmeet
      refine ⟨m, b, hb1, hB1 _ (le_trans hb2 ?_)⟩
      have := (hv.le _ _).mp hzle
      exact mul_le_mul_of_nonneg_left (by linarith) (by linarith)
    by_cases hn : best = none
    · -- the first meeting
      subst hn
      have hmeet : meetsA c (visitA c { a with queue := q } cur) cur = true := by
        by_contra hcon
        apply hne
        rw [hb]
        simp only [newBest]
        rw [if_neg hcon]
      rcases front' hv hk hch hmi ho hi h2 hL hM with ⟨v, y, z, d, h5, h6, hz0, h7, h8, h9⟩ |
        ⟨v, y, v', z, h5, h6, h8⟩
      · rcases hmem h5 with hcu | h5
        · left
          rw [← hcu] at self
          exact self (fun _ => by rw [hcu]; exact hmeet) z h7 (by simp only; linarith)
        · exact keep (fun _ => hmeet) v y z d h5 h6 hz0 h7 h8 h9
      · left
        have hmin : ∀ x ∈ a.queue, val cur.cost ≤ val x.cost + E := by
          intro x hx
          rcases hmem hx with rfl | hx
          · linarith
          · exact hmq x hx
        obtain ⟨r, hr1, hr2⟩ := h3.low
        have h9 := hmin _ h5
        have h10 := hr1 _ h6
        simp only at h9 h10
        have hvis : a.vis cur.dir.opp cur.idx = true := by
          simp only [meetsA, visitA, hch, Bool.false_eq_true, if_false] at hmeet
          rw [upd_other _ _ (by rintro ⟨h, _⟩; revert h; cases cur.dir <;> simp [Dir.opp])] at hmeet
          exact hmeet
        obtain ⟨z', hz', hz'r⟩ := hr2 _ _ hvis
        exact self (fun _ => hmeet) z' ⟨z', hz', le_refl _⟩ (by linarith)
    · rcases h4 hn with h | ⟨v, y, z, d, h5, h6, hz0, h7, h8, h9⟩
      · rw [hb]; exact Or.inl (h.newBest hv)
      · rcases hmem h5 with hcu | h5
        · left
          rw [← hcu] at self
          exact self (fun h => absurd h hn) z h7 (by simp only; linarith)
        · exact keep (fun h => absurd h hn) v y z d h5 h6 hz0 h7 h8 h9

/-! ## The whole loop -/

/-- Like `Heap.Near`, for costs with a value. -/
def _root_.Verif.Dij.Heap.NearV {K : Type} (h : Heap K) (val : K → ℚ) (δ : ℚ) : Prop :=
  ∃ ok : Nat → List (CN K) → Prop, ok 0 [] ∧
    (∀ n q, ok n q → ok (n + 1) q) ∧
    (∀ n q x, ok n q → ok (n + 1) (h.push q x)) ∧
    ∀ n q x q', ok n q → h.pop q = some (x, q') → ok (n + 2) q' ∧ ∀ y ∈ q', val x.cost ≤ val y.cost + n * δ

variable {δ : ℚ} {deg fuel : Nat}

/-- All invariants at the end of the loop. -/
theorem round_final {Inv : A K → Best K → Prop} (hv : Val K val u) (hk : AddOk K) (hδ : 0 ≤ δ)
    (hh : c.h.NearV val δ) (hdeg : ∀ d v, (c.out d v).length ≤ deg) (ho : OutOk c tail)
    (h0 : Inv (initA c) none)
    (hstep : ∀ a best cur q a' best', Inv1 c tail a best → Inv2 c a best →
      Inv3V val (popErr δ deg fuel) a best → Inv a best → c.h.pop a.queue = some (cur, q) →
      (∀ x ∈ q, val cur.cost ≤ val x.cost + popErr δ deg fuel) →
      stepA c { a with queue := q } best cur = .go a' best' → Inv a' best') {a : A K} {best : Best K}
    (h : loopA c fuel (initA c) none = some (a, best)) :
    ∃ a0, Inv1 c tail a0 best ∧ Inv2 c a0 best ∧ Inv a0 best ∧
      ∀ x ∈ a0.queue, VLt val best (val x.cost + popErr δ deg fuel) := by
  obtain ⟨ok, hnil, hm, hpush, hpop⟩ := hh
  have hE0 := popErr_nonneg (deg := deg) (fuel := fuel) hδ
  obtain ⟨k, a0, ⟨h1, h2, h3, h4, _⟩, hfin⟩ := loopA_count (c := c) (N := fuel)
    (Inv := fun k a best => Inv1 c tail a best ∧ Inv2 c a best ∧ Inv3V val (popErr δ deg fuel) a best ∧
      Inv a best ∧ ok (2 + k * (deg + 2)) a.queue)
    (fun k a best cur q a' best' hk' hi hp hs => by
      obtain ⟨h1, h2, h3, h4, h5⟩ := hi
      obtain ⟨h6, h7⟩ := hpop _ _ _ _ h5 hp
      have h8 : ∀ x ∈ q, val cur.cost ≤ val x.cost + popErr δ deg fuel := by
        intro x hx
        refine le_trans (h7 x hx) ?_
        have hn : 2 + k * (deg + 2) ≤ 2 + fuel * (deg + 2) :=
          Nat.add_le_add_left (Nat.mul_le_mul_right _ (Nat.le_of_lt hk')) _
        have := mul_le_mul_of_nonneg_right (Nat.cast_le (α := ℚ).mpr hn) hδ
        unfold popErr
        linarith
      refine ⟨h1.step hk ho hp hs, h2.step hk h1 hp hs, h3.step hv hk hE0 ho h1 hp h8 hs,
        hstep _ _ _ _ _ _ h1 h2 h3 h4 hp h8 hs, ?_⟩
      have := ok_step hm hpush hdeg h6 hs
      rw [Nat.add_mul, one_mul, ← Nat.add_assoc]
      exact this)
    (k := 0) (by omega)
    ⟨Inv1.init, Inv2.init, Inv3V.init hv hE0, h0, by
      have := hpush _ _ ⟨c.dst, 0, .bwd⟩ (hpush _ _ ⟨c.src, 0, .fwd⟩ hnil)
      rw [Nat.zero_mul]; exact this⟩ h
  refine ⟨a0, h1, h2, h4, ?_⟩
  rcases hfin with hq | ⟨hf, _⟩
  · rw [hq]; intro x hx; cases hx
  · exact h3.flagq _ hf

/-- Contraction hierarchies: no pair of a forward and a backward route to a common node is much cheaper. -/
theorem round_ch_all (hv : Val K val u) (hk : AddOk K) (hδ : 0 ≤ δ) (hh : c.h.NearV val δ)
    (hdeg : ∀ d v, (c.out d v).length ≤ deg)
    (hch : c.isCh = true) (ho : OutOk c tail) {a : A K} {best : Best K}
    (h : loopA c fuel (initA c) none = some (a, best)) {v : Nat}
    {l l' : List (Arc K)} (hf : IsRt (c.out .fwd) c.src l v) (hb : IsRt (c.out .bwd) c.dst l' v) :
    VLe val best ((1 + u) * (val (costFrom 0 l) + val (costFrom 0 l')) + popErr δ deg fuel) := by
  obtain ⟨a0, h1, h2, _, hq⟩ := round_final (Inv := fun _ _ => True) hv hk hδ hh hdeg ho trivial
    (fun _ _ _ _ _ _ _ _ _ _ _ _ _ => trivial) h
  exact round_ch hv hk (popErr_nonneg hδ) hch ho h1 h2 hq hf hb

/-- Plain search: no route is much cheaper than the best total. -/
theorem round_plain (hv : Val K val u) (hk : AddOk K) (hδ : 0 ≤ δ) (hh : c.h.NearV val δ)
    (hdeg : ∀ d v, (c.out d v).length ≤ deg)
    (hch : c.isCh = false) (hmi : Mirror c) (ho : OutOk c tail) {L : List (Arc K)} {M : ℚ} (hM0 : 0 ≤ M)
    (hL : IsRt (c.out .fwd) c.src L c.dst)
    (hM : ∀ l1 l2, L = l1 ++ l2 → val (costFrom 0 l1) + val (backCost l2) ≤ M) {a : A K} {best : Best K}
    (h : loopA c fuel (initA c) none = some (a, best)) (hb : best ≠ none) :
    VLe val best ((1 + u) ^ 2 / (1 - u) * (M + 2 * popErr δ deg fuel)) := by
  have hE0 := popErr_nonneg (deg := deg) (fuel := fuel) hδ
  obtain ⟨a0, h1, h2, h4, hq⟩ := round_final (Inv := Inv4V c val u M (popErr δ deg fuel)) hv hk hδ hh hdeg ho
    (fun h => absurd rfl h)
    (fun _ _ _ _ _ _ h1 h2 h3 h4 hp hm hs => h4.step hv hk hE0 hM0 hL hM hch hmi ho h1 h2 h3 hp hm hs) h
  rcases h4 hb with h5 | ⟨v, y, z, d, h5, h6, hz0, h7, h8, h9⟩
  · exact h5
  · obtain ⟨m, b, h9, h10⟩ := hq _ h5
    have := hv.nn hz0
    have hu := hv.nonneg
    have hu1 : 0 < 1 - u := by have := hv.lt; linarith
    refine ⟨m, b, h9, ?_⟩
    rw [div_mul_eq_mul_div, le_div_iff₀ hu1]
    simp only at h10
    have e0 : 0 ≤ M + 2 * popErr δ deg fuel := by linarith
    have e1 : val b ≤ M + 2 * popErr δ deg fuel := by linarith
    calc val b * (1 - u) ≤ (M + 2 * popErr δ deg fuel) * (1 - u) := mul_le_mul_of_nonneg_right e1 (le_of_lt hu1)
      _ ≤ (M + 2 * popErr δ deg fuel) * 1 := mul_le_mul_of_nonneg_left (by linarith) e0
      _ = 1 * (M + 2 * popErr δ deg fuel) := by ring
      _ ≤ (1 + u) ^ 2 * (M + 2 * popErr δ deg fuel) := by
        refine mul_le_mul_of_nonneg_right ?_ e0
        have : 0 ≤ u ^ 2 := by positivity
        have e : (1 + u) ^ 2 = 1 + 2 * u + u ^ 2 := by ring
        rw [e]; linarith

end
end Verif.Search
