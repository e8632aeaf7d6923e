import Verif.SearchComplete
import Mathlib.Algebra.Order.Ring.Rat
import Mathlib.Tactic.Linarith

/-!
# Optimality of the search if a cheapest element is popped
-/

namespace Verif.Search

set_option linter.unusedSectionVars false

open Dij

section
variable {K : Type} [LinearOrder K] [Zero K] [Add K] {c : Cfg K} {tail : Dir → Nat → Nat}

/-- A cheapest element is popped, if the costs of all routes are in `V`. -/
structure MinOk (c : Cfg K) (V : K → Prop) : Prop where
  min : c.h.Min V
  zero : V 0
  add : ∀ d u t x, t ∈ c.out d u → V x → V (x + t.2.2)

/-- The queue comes from pushing and popping, and its costs are in `V`. -/
def QOk (ok : List (CN K) → Prop) (V : K → Prop) (q : List (CN K)) : Prop :=
  ok q ∧ ∀ x ∈ q, V x.cost

/-- A predicate that is kept by pushing and popping. -/
structure OkOf (c : Cfg K) (V : K → Prop) (ok : List (CN K) → Prop) : Prop where
  nil : ok []
  push : ∀ q x, ok q → V x.cost → ok (c.h.push q x)
  pop : ∀ q x q', ok q → c.h.pop q = some (x, q') → ok q' ∧ ∀ y ∈ q', x.cost ≤ y.cost

theorem MinOk.ok {V : K → Prop} (hm : MinOk c V) : ∃ ok, OkOf c V ok := by
  obtain ⟨ok, h1, h2, h3⟩ := hm.min
  exact ⟨ok, h1, h2, h3⟩

theorem QOk.push {V : K → Prop} {ok : List (CN K) → Prop} (ho : OkOf c V ok) {q : List (CN K)} {x : CN K}
    (h : QOk ok V q) (hx : V x.cost) : QOk ok V (c.h.push q x) := by
  refine ⟨ho.push q x h.1 hx, fun y hy => ?_⟩
  rcases mem_push.mp hy with rfl | hy
  · exact hx
  · exact h.2 y hy

theorem QOk.relaxAll {V : K → Prop} {ok : List (CN K) → Prop} (ho : OkOf c V ok) {isNone : Bool}
    {cur : CN K} {l : List (Arc K)} {a : A K} (h : QOk ok V a.queue)
    (hl : ∀ t ∈ l, V (cur.cost + t.2.2)) : QOk ok V (relaxAll c isNone cur l a).queue := by
  unfold Search.relaxAll
  induction l generalizing a with
  | nil => exact h
  | cons t l ih =>
    refine ih ?_ (fun t' ht' => hl t' (List.mem_cons_of_mem _ ht'))
    unfold relax1
    split
    · dsimp only
      split
      · exact h.push ho (hl t List.mem_cons_self)
      · exact h
    · exact h

theorem QOk.init {V : K → Prop} (hm : MinOk c V) {ok : List (CN K) → Prop} (ho : OkOf c V ok) :
    QOk ok V (initA c).queue :=
  ((show QOk ok V [] from ⟨ho.nil, fun x hx => by cases hx⟩).push ho (x := ⟨c.src, 0, .fwd⟩) hm.zero).push
    ho hm.zero

theorem QOk.step {V : K → Prop} (hm : MinOk c V) {ok : List (CN K) → Prop} (ho : OkOf c V ok) {a : A K}
    {best : Best K} (hq : QOk ok V a.queue) {cur : CN K} {q : List (CN K)}
    (hp : c.h.pop a.queue = some (cur, q)) {a' : A K} {best' : Best K}
    (hs : stepA c { a with queue := q } best cur = .go a' best') : QOk ok V a'.queue := by
  have hq' : QOk ok V q := ⟨(ho.pop _ _ _ hq.1 hp).1, fun x hx => hq.2 x ((mem_pop hp).mpr (Or.inr hx))⟩
  obtain ⟨_, h | h | h⟩ := stepA_go c hs
  · obtain ⟨_, rfl, rfl⟩ := h
    exact hq'
  · obtain ⟨_, _, rfl, _⟩ := h
    simp only [visitA_queue]
    exact hq'
  · obtain ⟨_, _, _, rfl⟩ := h
    refine QOk.relaxAll ho (by rw [visitA_queue]; exact hq') (fun t ht => ?_)
    exact hm.add _ _ _ _ ht (hq.2 cur ((mem_pop hp).mpr (Or.inl rfl)))

/-- Invariants of the order in which nodes are popped. -/
structure Inv3 (a : A K) (best : Best K) : Prop where
  low : ∃ r, (∀ x ∈ a.queue, r ≤ x.cost) ∧ (∀ d v, a.vis d v = true → ∃ x, a.lab d v = some x ∧ x ≤ r)
  flagq : ∀ d, a.flag d = true → ∀ x ∈ a.queue, BestLt best x.cost

theorem Inv3.step {a : A K} {best : Best K} (hk : AddOk K) (ho : OutOk c tail)
    (hi : Inv1 c tail a best) (h3 : Inv3 a best) {cur : CN K} {q : List (CN K)}
    (hp : c.h.pop a.queue = some (cur, q)) (hmin : ∀ x ∈ q, cur.cost ≤ x.cost) {a' : A K} {best' : Best K}
    (hs : stepA c { a with queue := q } best cur = .go a' best') : Inv3 a' best' := by
  obtain ⟨r, hr1, hr2⟩ := h3.low
  have hsub : ∀ x ∈ q, x ∈ a.queue := fun x hx => (mem_pop hp).mpr (Or.inr hx)
  have hcq : cur ∈ a.queue := (mem_pop hp).mpr (Or.inl rfl)
  obtain ⟨_, h | h | h⟩ := stepA_go c hs
  · obtain ⟨_, rfl, rfl⟩ := h
    exact { low := ⟨r, fun x hx => hr1 x (hsub x hx), hr2⟩,
            flagq := fun d hd x hx => h3.flagq d hd x (hsub x hx) }
  · obtain ⟨hl, hab, rfl, rfl⟩ := h
    have hc := hi.popped hp hl
    rw [above_iff hi] at hab
    refine { low := ⟨cur.cost, ?_, ?_⟩, flagq := ?_ }
    · intro x hx
      simp only [visitA_queue] at hx
      exact hmin x hx
    · intro d v hv
      simp only [visitA_lab] at hv ⊢
      have : a.vis d v = true ∨ (d = cur.dir ∧ v = cur.idx) := by
        unfold visitA at hv
        split at hv
        · exact Or.inl hv
        · simp only [upd] at hv
          split at hv
          · rename_i h; exact Or.inr h
          · exact Or.inl hv
      rcases this with h | ⟨rfl, rfl⟩
      · obtain ⟨x, hx, hxr⟩ := hr2 d v h
        exact ⟨x, hx, le_trans hxr (hr1 _ hcq)⟩
      · exact ⟨_, hc, le_refl _⟩
    · intro d _ x hx
      simp only [visitA_queue] at hx
      obtain ⟨m, b, hb, hlt⟩ := hab
      exact ⟨m, b, hb, lt_of_lt_of_le hlt (hmin x hx)⟩
  · obtain ⟨hl, hab, hb, ha'⟩ := h
    have hc := hi.popped hp hl
    have hr := relaxAll_relaxed (c := c) best'.isNone cur (c.out cur.dir cur.idx)
      (visitA c { a with queue := q } cur)
    rw [← ha'] at hr
    refine { low := ⟨cur.cost, ?_, ?_⟩, flagq := ?_ }
    · intro x hx
      rcases hr.queue_new x hx with h | ⟨t, ht, rfl, _⟩
      · rw [visitA_queue] at h
        exact hmin x h
      · exact hk.infl _ _ (ho.nonneg _ _ _ ht)
    · intro d v hv
      rw [hr.vis] at hv
      have : a.vis d v = true ∨ (d = cur.dir ∧ v = cur.idx) := by
        unfold visitA at hv
        split at hv
        · exact Or.inl hv
        · simp only [upd] at hv
          split at hv
          · rename_i h; exact Or.inr h
          · exact Or.inl hv
      have hx : ∃ x, a.lab d v = some x ∧ x ≤ cur.cost := by
        rcases this with h | ⟨rfl, rfl⟩
        · obtain ⟨x, hx, hxr⟩ := hr2 d v h
          exact ⟨x, hx, le_trans hxr (hr1 _ hcq)⟩
        · exact ⟨_, hc, le_refl _⟩
      obtain ⟨x, hx, hxr⟩ := hx
      obtain ⟨y, hy, hyx⟩ := hr.lab_le d v x (by rw [visitA_lab]; exact hx)
      exact ⟨y, hy, le_trans hyx hxr⟩
    · intro d hd
      rw [hr.flag, visitA_flag] at hd
      have := h3.flagq d hd cur hcq
      rw [← above_iff hi, hab] at this
      cases this

theorem Inv3.init : Inv3 (initA c) none := by
  refine { low := ⟨0, ?_, ?_⟩, flagq := ?_ }
  · intro x hx
    rw [initA_queue] at hx
    rw [hx]
  · intro d v h; cases h
  · intro d h; cases h

/-- The search is over: whatever is left in the queue costs more than the best total. -/
theorem inv123_final {V : K → Prop} (hm : MinOk c V) (hk : AddOk K) (ho : OutOk c tail) {fuel : Nat} {a : A K}
    {best : Best K} (h : loopA c fuel (initA c) none = some (a, best)) :
    ∃ a0, Inv1 c tail a0 best ∧ Inv2 c a0 best ∧ (∀ x ∈ a0.queue, BestLt best x.cost) := by
  obtain ⟨ok, hok⟩ := hm.ok
  obtain ⟨a0, ⟨h1, h2, h3, _⟩, ⟨hq, rfl⟩ | ⟨hf, _⟩⟩ := loopA_induct c
    (Inv := fun a best => Inv1 c tail a best ∧ Inv2 c a best ∧ Inv3 a best ∧ QOk ok V a.queue)
    (fun _ _ _ _ _ _ hi hp hs => ⟨hi.1.step hk ho hp hs, hi.2.1.step hk hi.1 hp hs,
      hi.2.2.1.step hk ho hi.1 hp (hok.pop _ _ _ hi.2.2.2.1 hp).2 hs, hi.2.2.2.step hm hok hp hs⟩)
    ⟨Inv1.init, Inv2.init, Inv3.init, QOk.init hm hok⟩ h
  · exact ⟨a, h1, h2, by rw [hq]; intro x hx; cases hx⟩
  · exact ⟨a0, h1, h2, h3.flagq _ hf⟩

/-- Contraction hierarchies: no pair of a forward and a backward route to a common node is cheaper. -/
theorem opt_ch {V : K → Prop} (hch : c.isCh = true) (hm : MinOk c V) (hk : AddOk K)
    (ho : OutOk c tail) {fuel : Nat} {a : A K} {best : Best K} (h : loopA c fuel (initA c) none = some (a, best)) {v : Nat}
    {l l' : List (Arc K)} (hf : IsRt (c.out .fwd) c.src l v) (hb : IsRt (c.out .bwd) c.dst l' v) :
    BestLe best (costFrom 0 l + costFrom 0 l') := by
  obtain ⟨a0, h1, h2, hq⟩ := inv123_final hm hk ho h
  have key : ∀ d (l : List (Arc K)) u y p, a0.lab d u = some y → y ≤ p → IsRt (c.out d) u l v →
      (∃ x, a0.lab d v = some x ∧ x ≤ costFrom p l) ∨ (∃ x, BestLt best x ∧ x ≤ costFrom p l) := by
    intro d l
    induction l with
    | nil =>
      intro u y p hy hle hr
      cases hr
      exact Or.inl ⟨y, hy, hle⟩
    | cons t l ih =>
      intro u y p hy hle hr
      have hmono : p ≤ costFrom p (t :: l) := by
        have : ∀ (l : List (Arc K)) (u : Nat) (p : K), IsRt (c.out d) u l v → p ≤ costFrom p l := by
          intro l
          induction l with
          | nil => intro u p _; exact le_refl _
          | cons t l ih =>
            intro u p hr
            exact le_trans (hk.infl _ _ (ho.nonneg _ _ _ hr.1)) (ih _ _ hr.2)
        exact this _ _ _ hr
      rcases h2.exp (Or.inl hch) d u y hy with h | h | h
      · exact Or.inr ⟨y, hq _ h, le_trans hle hmono⟩
      · obtain ⟨z, hz, hzle⟩ := h.2 t hr.1
        exact ih _ z (p + t.2.2) hz (le_trans hzle (hk.mono _ _ _ hle)) hr.2
      · exact Or.inr ⟨y, h, le_trans hle hmono⟩
  have hnn : ∀ d (l : List (Arc K)) (u : Nat) (p : K), 0 ≤ p → IsRt (c.out d) u l v →
      0 ≤ costFrom p l := by
    intro d l
    induction l with
    | nil => intro u p hp _; exact hp
    | cons t l ih =>
      intro u p hp hr
      exact ih _ _ (le_trans hp (hk.infl _ _ (ho.nonneg _ _ _ hr.1))) hr.2
  have nf := hnn _ _ _ _ (le_refl 0) hf
  have nb := hnn _ _ _ _ (le_refl 0) hb
  rcases key .fwd l c.src 0 0 (h1.root .fwd) (le_refl _) hf with ⟨x, hx, hxle⟩ | ⟨x, ⟨m, b, hb1, hlt⟩, hle⟩
  swap
  · exact ⟨m, b, hb1, le_trans (le_of_lt hlt) (le_trans hle (hk.infl _ _ nb))⟩
  rcases key .bwd l' c.dst 0 0 (h1.root .bwd) (le_refl _) hb with ⟨y, hy, hyle⟩ | ⟨y, ⟨m, b, hb1, hlt⟩, hle⟩
  swap
  · exact ⟨m, b, hb1, le_trans (le_of_lt hlt) (le_trans hle (hk.infl' _ _ nf))⟩
  have hxy : x + y ≤ costFrom 0 l + costFrom 0 l' :=
    le_trans (hk.mono _ _ _ hxle) (hk.mono' _ _ _ hyle)
  rcases h2.meetCh hch v x y hx hy with ⟨m, b, h3, h4⟩ | h3 | h3
  · exact ⟨m, b, h3, le_trans h4 hxy⟩
  · obtain ⟨m, b, hb1, hlt⟩ := hq _ h3
    exact ⟨m, b, hb1, le_trans (le_of_lt hlt) (le_trans hxle (hk.infl _ _ nb))⟩
  · obtain ⟨m, b, hb1, hlt⟩ := hq _ h3
    exact ⟨m, b, hb1, le_trans (le_of_lt hlt) (le_trans hyle (hk.infl' _ _ nf))⟩

end

/-! ## The plain search, with exact arithmetic -/

section
variable {c : Cfg ℚ} {tail : Dir → Nat → Nat}

theorem addOk_rat : AddOk ℚ :=
  { infl := fun x w h => by linarith
    infl' := fun x w h => by linarith
    mono := fun x y w h => by linarith
    mono' := fun x y w h => by linarith }

/-- Sum of the weights. -/
def cost (l : List (Arc ℚ)) : ℚ := (l.map (·.2.2)).sum

theorem cost_nil : cost [] = 0 := rfl
theorem cost_cons (t : Arc ℚ) (l : List (Arc ℚ)) : cost (t :: l) = t.2.2 + cost l := by simp [cost]
theorem cost_append (l l' : List (Arc ℚ)) : cost (l ++ l') = cost l + cost l' := by
  simp [cost]
theorem costFrom_eq (x : ℚ) (l : List (Arc ℚ)) : costFrom x l = x + cost l := by
  induction l generalizing x with
  | nil => simp [costFrom, cost]
  | cons t l ih =>
    have : costFrom x (t :: l) = costFrom (x + t.2.2) l := rfl
    rw [this, ih, cost_cons]
    ring

/-- Backward arcs are the forward arcs turned round. -/
def Mirror {K : Type} (c : Cfg K) : Prop :=
  ∀ u v e w, (e, v, w) ∈ c.out .fwd u ↔ (e, u, w) ∈ c.out .bwd v

theorem isRt_cost_nonneg (ho : OutOk c tail) {d : Dir} {u v : Nat} {l : List (Arc ℚ)}
    (h : IsRt (c.out d) u l v) : 0 ≤ cost l := by
  induction l generalizing u with
  | nil => simp [cost]
  | cons t l ih =>
    rw [cost_cons]
    exact add_nonneg (ho.nonneg _ _ _ h.1) (ih h.2)

/-- A backward route turned round. -/
theorem mirror_route (hmi : Mirror c) {u v : Nat} {l : List (Arc ℚ)} (h : IsRt (c.out .bwd) u l v) :
    ∃ l', IsRt (c.out .fwd) v l' u ∧ cost l' = cost l ∧ l'.map (·.1) = (l.map (·.1)).reverse := by
  induction l generalizing u with
  | nil => cases h; exact ⟨[], rfl, rfl, rfl⟩
  | cons t l ih =>
    obtain ⟨e, x, w⟩ := t
    obtain ⟨l', h1, h2, h3⟩ := ih h.2
    refine ⟨l' ++ [(e, u, w)], isRt_append.mpr ⟨x, h1, (hmi _ _ _ _).mpr h.1, rfl⟩, ?_, by simp [h3]⟩
    rw [cost_append, cost_cons, cost_cons, h2, cost_nil]
    simp only
    ring

/-- Labels of both sides make a route. -/
theorem Inv1.joined (hmi : Mirror c) (ho : OutOk c tail) {a : A ℚ} {best : Best ℚ}
    (hi : Inv1 c tail a best) {v : Nat} {x y : ℚ} (hx : a.lab .fwd v = some x)
    (hy : a.lab .bwd v = some y) : ∃ l, IsRt (c.out .fwd) c.src l c.dst ∧ cost l ≤ x + y := by
  obtain ⟨lf, hlf⟩ := hi.chain _ _ _ hx
  obtain ⟨lb, hlb⟩ := hi.chain _ _ _ hy
  obtain ⟨tf, _, h2, h3⟩ := hi.chain_route addOk_rat ho hlf hx
  obtain ⟨tb, _, h5, h6⟩ := hi.chain_route addOk_rat ho hlb hy
  obtain ⟨tb', h7, h8, _⟩ := mirror_route hmi h5
  refine ⟨tf ++ tb', isRt_append.mpr ⟨v, h2, h7⟩, ?_⟩
  rw [costFrom_eq] at h3 h6
  rw [cost_append, h8]
  linarith

/-- As long as nothing is found, the backward search has reached a node or is on its way. -/
theorem bwd_front (hmi : Mirror c) (ho : OutOk c tail) {a : A ℚ} (hi : Inv1 c tail a none)
    (h2 : Inv2 c a none) {u : Nat} {s : List (Arc ℚ)} (hr : IsRt (c.out .fwd) u s c.dst) :
    (∃ z, a.lab .bwd u = some z ∧ z ≤ cost s) ∨
    (∃ u' z, (⟨u', z, .bwd⟩ : CN ℚ) ∈ a.queue ∧ z ≤ cost s) := by
  induction s generalizing u with
  | nil => cases hr; exact Or.inl ⟨0, hi.root .bwd, le_of_eq cost_nil.symm⟩
  | cons t s ih =>
    obtain ⟨e, x, w⟩ := t
    have hw := ho.nonneg _ _ _ hr.1
    simp only at hw
    rw [cost_cons]
    simp only
    rcases ih hr.2 with ⟨z, hz, hle⟩ | ⟨u', z, hz, hle⟩
    · rcases h2.exp (Or.inr rfl) _ _ _ hz with h | h | ⟨m, b, h, _⟩
      · exact Or.inr ⟨_, z, h, by linarith⟩
      · obtain ⟨y, hy, hyle⟩ := h.2 (e, u, w) ((hmi _ _ _ _).mp hr.1)
        exact Or.inl ⟨y, hy, by simp only at hyle; linarith⟩
      · cases h
    · exact Or.inr ⟨u', z, hz, by linarith⟩

/-- As long as nothing is found, every route from source to destination has a queue entry at a node
both searches know, or both searches are still on their way. -/
theorem front (hch : c.isCh = false) (hmi : Mirror c) (ho : OutOk c tail) {a : A ℚ}
    (hi : Inv1 c tail a none) (h2 : Inv2 c a none) {l : List (Arc ℚ)}
    (hr : IsRt (c.out .fwd) c.src l c.dst) :
    (∃ u y z d, (⟨u, y, d⟩ : CN ℚ) ∈ a.queue ∧ a.lab d u = some y ∧ a.lab d.opp u = some z ∧
      y + z ≤ cost l) ∨
    (∃ u y u' z, (⟨u, y, .fwd⟩ : CN ℚ) ∈ a.queue ∧ (⟨u', z, .bwd⟩ : CN ℚ) ∈ a.queue ∧
      y + z ≤ cost l) := by
  have key : ∀ (s : List (Arc ℚ)) u y p, a.lab .fwd u = some y → y ≤ p → IsRt (c.out .fwd) u s c.dst →
      (∃ u y z d, (⟨u, y, d⟩ : CN ℚ) ∈ a.queue ∧ a.lab d u = some y ∧ a.lab d.opp u = some z ∧
        y + z ≤ p + cost s) ∨
      (∃ u y u' z, (⟨u, y, .fwd⟩ : CN ℚ) ∈ a.queue ∧ (⟨u', z, .bwd⟩ : CN ℚ) ∈ a.queue ∧
        y + z ≤ p + cost s) := by
    intro s
    induction s with
    | nil =>
      intro u y p hy hle hr
      cases hr
      have hz := hi.root .bwd
      simp only [Cfg.root] at hz
      rcases h2.exp (Or.inr rfl) _ _ _ hy with h | h | ⟨m, b, h, _⟩
      · exact Or.inl ⟨_, y, 0, .fwd, h, hy, hz, by rw [cost_nil]; linarith⟩
      · rcases h2.exp (Or.inr rfl) _ _ _ hz with h' | h' | ⟨m, b, h', _⟩
        · exact Or.inl ⟨_, 0, y, .bwd, h', hz, hy, by rw [cost_nil]; linarith⟩
        · exact absurd ⟨h.1 hch, h'.1 hch⟩ (h2.meet hch rfl _)
        · cases h'
      · cases h
    | cons t s ih =>
      intro u y p hy hle hr
      rcases h2.exp (Or.inr rfl) _ _ _ hy with h | h | ⟨m, b, h, _⟩
      · rcases bwd_front hmi ho hi h2 hr with ⟨z, hz, hzle⟩ | ⟨u', z, hz, hzle⟩
        · exact Or.inl ⟨_, y, z, .fwd, h, hy, hz, by linarith⟩
        · exact Or.inr ⟨_, y, u', z, h, hz, by linarith⟩
      · obtain ⟨x, hx, hxle⟩ := h.2 t hr.1
        rcases ih t.2.1 x (p + t.2.2) hx (by linarith) hr.2 with h' | h'
        · left
          obtain ⟨u, y, z, d, h1, h2, h3, h4⟩ := h'
          exact ⟨u, y, z, d, h1, h2, h3, by rw [cost_cons]; linarith⟩
        · right
          obtain ⟨u, y, u', z, h1, h2, h3⟩ := h'
          exact ⟨u, y, u', z, h1, h2, by rw [cost_cons]; linarith⟩
      · cases h
  have := key l c.src 0 0 (hi.root .fwd) (le_refl _) hr
  simpa using this

/-- Once something is found: the optimum is found, or the entry that will find it is in the queue. -/
def Inv4 (C : ℚ) (a : A ℚ) (best : Best ℚ) : Prop :=
  best ≠ none → BestLe best C ∨ ∃ u y z d, (⟨u, y, d⟩ : CN ℚ) ∈ a.queue ∧ a.lab d u = some y ∧
    a.lab d.opp u = some z ∧ y + z ≤ C

theorem sum_dir {a : A ℚ} {d : Dir} {u : Nat} {y z : ℚ} (hy : a.lab d u = some y)
    (hz : a.lab d.opp u = some z) : ∃ x1 x2, a.lab .fwd u = some x1 ∧ a.lab .bwd u = some x2 ∧
    x1 + x2 = y + z := by
  cases d
  · exact ⟨y, z, hy, hz, rfl⟩
  · exact ⟨z, y, hz, hy, add_comm _ _⟩

theorem Inv4.step {C : ℚ} {L : List (Arc ℚ)} (hL : IsRt (c.out .fwd) c.src L c.dst)
    (hLC : cost L = C) (hopt : ∀ l, IsRt (c.out .fwd) c.src l c.dst → C ≤ cost l)
    (hch : c.isCh = false) (hmi : Mirror c)
    {a : A ℚ} {best : Best ℚ} (ho : OutOk c tail)
    (hi : Inv1 c tail a best) (h2 : Inv2 c a best) (h3 : Inv3 a best) (h4 : Inv4 C a best)
    {cur : CN ℚ} {q : List (CN ℚ)}
    (hp : c.h.pop a.queue = some (cur, q)) (hmq : ∀ x ∈ q, cur.cost ≤ x.cost) {a' : A ℚ} {best' : Best ℚ}
    (hs : stepA c { a with queue := q } best cur = .go a' best') : Inv4 C a' best' := by
  intro hne
  have hmem : ∀ {x : CN ℚ}, x ∈ a.queue → x = cur ∨ x ∈ q := fun hx => (mem_pop hp).mp hx
  obtain ⟨_, h | h | h⟩ := stepA_go c hs
  · obtain ⟨hl, rfl, rfl⟩ := h
    rcases h4 hne with h | ⟨u, y, z, d, h5, h6, h7, h8⟩
    · exact Or.inl h
    · rcases hmem h5 with rfl | h5
      · exact absurd (leInf_iff.mpr (fun w hw => by
          simp only at hw; rw [h6] at hw; cases hw; exact le_refl _)) hl
      · exact Or.inr ⟨u, y, z, d, h5, h6, h7, h8⟩
  · obtain ⟨hl, hab, rfl, rfl⟩ := h
    rw [above_iff hi] at hab
    rcases h4 hne with h | ⟨u, y, z, d, h5, h6, h7, h8⟩
    · exact Or.inl h
    · rcases hmem h5 with rfl | h5
      · obtain ⟨m, b, hb, hlt⟩ := hab
        have := hi.nonneg _ _ _ h7
        exact Or.inl ⟨m, b, hb, by simp only at hlt; linarith⟩
      · refine Or.inr ⟨u, y, z, d, ?_, ?_, ?_, h8⟩ <;> simp only [visitA_lab, visitA_queue] <;>
          assumption
  · obtain ⟨hl, hab, hb, ha'⟩ := h
    have hi' := hi.step addOk_rat ho hp hs
    have hc := hi.popped hp hl
    have hq1 : Inv1 c tail (visitA c { a with queue := q } cur) best :=
      (hi.setQueue (fun x hx => (mem_pop hp).mpr (Or.inr hx))).visit hc
    have hr := relaxAll_relaxed (c := c) best'.isNone cur (c.out cur.dir cur.idx)
      (visitA c { a with queue := q } cur)
    rw [← ha'] at hr
    -- an entry that is left over stays what it was
    have keep : ∀ u y z d, (⟨u, y, d⟩ : CN ℚ) ∈ q → a.lab d u = some y → a.lab d.opp u = some z →
        y + z ≤ C → BestLe best' C ∨ ∃ u y z d, (⟨u, y, d⟩ : CN ℚ) ∈ a'.queue ∧
          a'.lab d u = some y ∧ a'.lab d.opp u = some z ∧ y + z ≤ C := by
      intro u y z d h5 h6 h7 h8
      obtain ⟨y', hy', hyle⟩ := hr.lab_le d u y (by rw [visitA_lab]; exact h6)
      obtain ⟨z', hz', hzle⟩ := hr.lab_le d.opp u z (by rw [visitA_lab]; exact h7)
      obtain ⟨x1, x2, hx1, hx2, hsum⟩ := sum_dir hy' hz'
      obtain ⟨l, hl1, hl2⟩ := hi'.joined hmi ho hx1 hx2
      have hC := hopt l hl1
      have : y' = y := by linarith
      subst this
      exact Or.inr ⟨u, y', z', d, hr.queue_sub _ (by rw [visitA_queue]; exact h5), hy', hz',
        by linarith⟩
    -- looking at an entry that finds the optimum
    have look : ∀ z, a.lab cur.dir.opp cur.idx = some z → cur.cost + z ≤ C →
        (best = none → meetsA c (visitA c { a with queue := q } cur) cur = true) →
        BestLe best' C := by
      intro z hz hle hmeet
      obtain ⟨x1, x2, hx1, hx2, hsum⟩ := sum_dir hc hz
      obtain ⟨m, b, h5, h6⟩ := newBest_total hq1 (by rw [visitA_lab]; exact hx1)
        (by rw [visitA_lab]; exact hx2) hmeet
      exact ⟨m, b, by rw [hb, h5], by linarith⟩
    by_cases hn : best = none
    · -- the first meeting
      subst hn
      have hmeet : meetsA c (visitA c { a with queue := q } cur) cur = true := by
        by_contra hcon
        apply hne
        rw [hb]
        simp only [newBest]
        rw [if_neg hcon]
      rcases front hch hmi ho hi h2 hL with ⟨u, y, z, d, h5, h6, h7, h8⟩ | ⟨u, y, u', z, h5, h6, h8⟩
      · rcases hmem h5 with hcu | h5
        · left
          rw [← hcu] at look
          exact look z h7 (by rw [← hLC]; exact h8) (fun _ => by rw [hcu]; exact hmeet)
        · exact keep u y z d h5 h6 h7 (by rw [← hLC]; exact h8)
      · left
        have hmin : ∀ x ∈ a.queue, cur.cost ≤ x.cost := by
          intro x hx
          rcases hmem hx with rfl | hx
          · exact le_refl _
          · exact hmq x hx
        have h9 := hmin _ h5
        have h10 := hmin _ h6
        simp only at h9 h10
        obtain ⟨r, hr1, hr2⟩ := h3.low
        have hvis : a.vis cur.dir.opp cur.idx = true := by
          simp only [meetsA, visitA, hch, Bool.false_eq_true, if_false] at hmeet
          rw [upd_other _ _ (by rintro ⟨h, _⟩; revert h; cases cur.dir <;> simp [Dir.opp])] at hmeet
          exact hmeet
        obtain ⟨z', hz', hz'r⟩ := hr2 _ _ hvis
        have hrc := hr1 cur ((mem_pop hp).mpr (Or.inl rfl))
        exact look z' hz' (by rw [← hLC]; linarith) (fun _ => hmeet)
    · rcases h4 hn with h | ⟨u, y, z, d, h5, h6, h7, h8⟩
      · rw [hb]; exact Or.inl h.newBest
      · rcases hmem h5 with hcu | h5
        · left
          rw [← hcu] at look
          exact look z h7 h8 (fun h => absurd h hn)
        · exact keep u y z d h5 h6 h7 h8

/-- Plain search: the best total is at most the cost of an optimal route. -/
theorem opt_plain {V : ℚ → Prop} (hch : c.isCh = false) (hmi : Mirror c) (hm : MinOk c V)
    (ho : OutOk c tail)
    {L : List (Arc ℚ)} (hL : IsRt (c.out .fwd) c.src L c.dst)
    (hopt : ∀ l, IsRt (c.out .fwd) c.src l c.dst → cost L ≤ cost l) {fuel : Nat} {a : A ℚ}
    {best : Best ℚ} (h : loopA c fuel (initA c) none = some (a, best)) (hb : best ≠ none) :
    BestLe best (cost L) := by
  obtain ⟨ok, hok⟩ := hm.ok
  obtain ⟨a0, ⟨h1, h2, h3, h4, _⟩, hfin⟩ := loopA_induct c
    (Inv := fun a best => Inv1 c tail a best ∧ Inv2 c a best ∧ Inv3 a best ∧ Inv4 (cost L) a best ∧
      QOk ok V a.queue)
    (fun _ _ _ _ _ _ hi hp hs => ⟨hi.1.step addOk_rat ho hp hs, hi.2.1.step addOk_rat hi.1 hp hs,
      hi.2.2.1.step addOk_rat ho hi.1 hp (hok.pop _ _ _ hi.2.2.2.2.1 hp).2 hs,
      Inv4.step hL rfl hopt hch hmi ho hi.1 hi.2.1 hi.2.2.1 hi.2.2.2.1 hp
        (hok.pop _ _ _ hi.2.2.2.2.1 hp).2 hs, hi.2.2.2.2.step hm hok hp hs⟩)
    ⟨Inv1.init, Inv2.init, Inv3.init, fun h => absurd rfl h, QOk.init hm hok⟩ h
  rcases h4 hb with h | ⟨u, y, z, d, h5, h6, h7, h8⟩
  · exact h
  · rcases hfin with ⟨hq, _⟩ | ⟨hf, _⟩
    · rw [hq] at h5; cases h5
    · obtain ⟨m, b, h9, h10⟩ := h3.flagq _ hf _ h5
      have := h1.nonneg _ _ _ h7
      exact ⟨m, b, h9, by simp only at h10; linarith⟩

end
end Verif.Search
