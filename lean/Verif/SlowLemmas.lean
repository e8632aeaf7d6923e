import Verif.SearchTerm
import Verif.BinHeapLemmas
import Verif.ApproxProps
import Mathlib.Tactic.Linarith
import Mathlib.Tactic.FieldSimp
import Mathlib.Tactic.Push
import Mathlib.Data.List.Dedup
import Mathlib.Data.List.Perm.Basic

/-!
# Lemmas for slow searches

If all costs are nearly equal, the router's queue pops the node with the lowest index. The search then relabels nodes
again and again.
-/

namespace Verif.Slow

open Dij Search

/-! ## The queue -/

/-- Costs that are nearly equal to all others of this kind. -/
def Tiny (x : ℚ) : Prop := 0 ≤ x ∧ x ≤ 1 / 1000000

theorem cmp_tiny {a b : ℚ} (ha : Tiny a) (hb : Tiny b) : Approx.cmp a b = .eq := by
  unfold Approx.cmp
  rw [if_pos]
  rw [Approx.C24_eq_iff, abs_lt]
  obtain ⟨h1, h2⟩ := ha
  obtain ⟨h3, h4⟩ := hb
  constructor <;> linarith

theorem cnLe_tiny {a b : CN ℚ} (ha : Tiny a.cost) (hb : Tiny b.cost) : cnLe Approx.cmp a b = true ↔
    a.idx < b.idx ∨ (a.idx = b.idx ∧ dirValue a.dir ≤ dirValue b.dir) := by
  unfold cnLe cnCmp
  rw [cmp_tiny ha hb]
  simp only [Ordering.then]
  rcases lt_trichotomy a.idx b.idx with h | h | h
  · rw [compare_lt_iff_lt.mpr h]; simp [h]
  · rw [compare_eq_iff_eq.mpr h]
    cases a.dir <;> cases b.dir <;> simp [dirValue, h] <;> decide
  · rw [compare_gt_iff_gt.mpr h]
    simp [Nat.lt_asymm h, Nat.ne_of_gt h]

theorem preOn_tiny : BinHeap.PreOn (cnLe Approx.cmp) (fun x : CN ℚ => Tiny x.cost) := by
  constructor
  · intro a b ha hb
    rw [cnLe_tiny ha hb, cnLe_tiny hb ha]
    omega
  · intro a b c ha hb hc
    rw [cnLe_tiny ha hb, cnLe_tiny hb hc, cnLe_tiny ha hc]
    omega

/-- A queue of the router with nothing but tiny costs. -/
def QOk (q : List (CN ℚ)) : Prop := BinHeap.Heaped (cnLe Approx.cmp) q ∧ ∀ x ∈ q, Tiny x.cost

theorem QOk.nil : QOk [] := ⟨by intro i a b _ ha; simp at ha, by intro x hx; cases hx⟩

theorem QOk.push {q : List (CN ℚ)} (h : QOk q) {c : CN ℚ} (hc : Tiny c.cost) : QOk (codeHeap.push q c) := by
  refine ⟨BinHeap.push_heaped preOn_tiny h.2 hc h.1, fun x hx => ?_⟩
  rcases List.mem_cons.mp ((codeHeap.push_perm q c).mem_iff.mp hx) with rfl | hx
  · exact hc
  · exact h.2 x hx

/-- The element with the lowest index is popped. -/
theorem QOk.pop {q rest : List (CN ℚ)} (h : QOk q) {c : CN ℚ} (hq : q.Perm (c :: rest))
    (hlow : ∀ x ∈ rest, c.idx < x.idx) : ∃ q', codeHeap.pop q = some (c, q') ∧ q'.Perm rest ∧ QOk q' := by
  cases hp : codeHeap.pop q with
  | none =>
    rw [(codeHeap.pop_none q).mp hp] at hq
    exact absurd (hq.mem_iff.mpr List.mem_cons_self) (by simp)
  | some r =>
    obtain ⟨x, q'⟩ := r
    have hperm := codeHeap.pop_perm _ _ _ hp
    obtain ⟨h1, h2⟩ := BinHeap.pop_heaped preOn_tiny h.2 h.1 hp
    have hq' : QOk q' := ⟨h1, fun y hy => h.2 y (hperm.mem_iff.mpr (List.mem_cons_of_mem _ hy))⟩
    have hxc : x = c := by
      have hx : x ∈ c :: rest := hq.mem_iff.mp (hperm.mem_iff.mpr List.mem_cons_self)
      rcases List.mem_cons.mp hx with rfl | hx
      · rfl
      · have hc : c ∈ x :: q' := hperm.mem_iff.mp (hq.mem_iff.mpr List.mem_cons_self)
        rcases List.mem_cons.mp hc with rfl | hc
        · rfl
        · have := (cnLe_tiny (h.2 x (hperm.mem_iff.mpr List.mem_cons_self)) (hq'.2 c hc)).mp (h2 c hc)
          have := hlow x hx
          omega
    subst hxc
    exact ⟨q', rfl, (List.perm_cons x).mp (hperm.symm.trans hq), hq'⟩

/-! ## Iterations -/

section
variable (c : Cfg ℚ)

/-- So many iterations without a meeting node. -/
inductive Steps : Nat → A ℚ → A ℚ → Prop
  | refl (a : A ℚ) : Steps 0 a a
  | step {n : Nat} {a a1 a2 : A ℚ} {cur : CN ℚ} {q : List (CN ℚ)} : c.h.pop a.queue = some (cur, q) →
      stepA c { a with queue := q } none cur = .go a1 none → Steps n a1 a2 → Steps (n + 1) a a2

variable {c}

theorem Steps.trans {n m : Nat} {a a1 a2 : A ℚ} (h : Steps c n a a1) (h' : Steps c m a1 a2) :
    Steps c (m + n) a a2 := by
  induction h with
  | refl => exact h'
  | step h1 h2 _ ih => exact .step h1 h2 (ih h')

theorem Steps.loop {n fuel : Nat} {a a' : A ℚ} (h : Steps c n a a') (hf : fuel ≤ n) :
    loopA c fuel a none = none := by
  induction h generalizing fuel with
  | refl => obtain rfl : fuel = 0 := by omega
            rfl
  | step h1 h2 _ ih =>
    cases fuel with
    | zero => rfl
    | succ f =>
      unfold loopA
      rw [h1]
      simp only [h2]
      exact ih (by omega)

/-! ## One iteration -/

/-- What is pushed for an arc. -/
def toCN (x : ℚ) (d : Dir) (p : Nat × ℚ) : CN ℚ := { idx := p.1, cost := x + p.2, dir := d }

/-- If every arc improves a label or leads to a label that has it already, then each reached node is labelled and
pushed once. -/
theorem relaxAll_improving (hh : c.h = codeHeap) {cur : CN ℚ} : ∀ (l : List (Arc ℚ)) (ps done : List (Nat × ℚ))
    (a a' : A ℚ), ((ps ++ done).map Prod.fst).Nodup → (∀ p ∈ ps, ∃ t ∈ l, t.2 = p) → (∀ t ∈ l, t.2 ∈ ps ++ done) →
    (∀ p ∈ ps, ltInf (some (cur.cost + p.2)) (a.lab cur.dir p.1) = true) →
    (∀ p ∈ done, a.lab cur.dir p.1 = some (cur.cost + p.2)) → QOk a.queue →
    (∀ p ∈ ps, Tiny (cur.cost + p.2)) → relaxAll c true cur l a = a' →
    QOk a'.queue ∧ a'.queue.Perm (ps.map (toCN cur.cost cur.dir) ++ a.queue) ∧ a'.vis = a.vis ∧ a'.flag = a.flag ∧
      (∀ p ∈ ps, a'.lab cur.dir p.1 = some (cur.cost + p.2)) ∧
      ∀ d v, (d = cur.dir → v ∉ ps.map Prod.fst) → a'.lab d v = a.lab d v := by
  intro l
  induction l with
  | nil =>
    intro ps done a a' hnd hps hl himp hdone hq ht ha'
    have : ps = [] := List.eq_nil_iff_forall_not_mem.mpr (fun p hp => by
      obtain ⟨t, ht, _⟩ := hps p hp
      cases ht)
    subst this
    simp only [relaxAll, List.foldl_nil] at ha'
    subst ha'
    exact ⟨hq, by simp, rfl, rfl, by simp, fun _ _ _ => rfl⟩
  | cons t l ih =>
    intro ps done a a' hnd hps hl himp hdone hq ht ha'
    have hrel : relaxAll c true cur (t :: l) a = relaxAll c true cur l (relax1 c true cur a t) := rfl
    rw [hrel] at ha'
    by_cases htp : t.2 ∈ ps
    · have h1 : relax1 c true cur a t = { a with
          lab := upd a.lab cur.dir t.2.1 (some (cur.cost + t.2.2))
          pred := upd a.pred cur.dir t.2.1 (some t.1)
          queue := codeHeap.push a.queue (toCN cur.cost cur.dir t.2) } := by
        unfold relax1
        rw [if_pos (himp _ htp), hh]
        simp only [Bool.or_true, if_true, toCN]
      rw [h1] at ha'
      have hperm : ps.Perm (t.2 :: ps.erase t.2) := List.perm_cons_erase htp
      have hnd' : ((t.2 :: (ps.erase t.2 ++ done)).map Prod.fst).Nodup :=
        (((hperm.append_right done).map Prod.fst).nodup_iff).mp hnd
      simp only [List.map_cons, List.nodup_cons] at hnd'
      have hsub : ∀ p ∈ ps.erase t.2, p ∈ ps := fun p hp => List.mem_of_mem_erase hp
      have hne : ∀ p ∈ ps.erase t.2 ++ done, p.1 ≠ t.2.1 := fun p hp he =>
        hnd'.1 (he ▸ List.mem_map_of_mem hp)
      obtain ⟨r1, r2, r3, r4, r5, r6⟩ := ih (ps.erase t.2) (t.2 :: done) _ a' (by
          have : (ps.erase t.2 ++ t.2 :: done).Perm (t.2 :: (ps.erase t.2 ++ done)) := List.perm_middle
          rw [(this.map Prod.fst).nodup_iff, List.map_cons, List.nodup_cons]
          exact hnd')
        (fun p hp => by
          obtain ⟨s, hs, he⟩ := hps p (hsub p hp)
          rcases List.mem_cons.mp hs with rfl | hs
          · exact absurd (congrArg Prod.fst he).symm (hne p (List.mem_append_left _ hp))
          · exact ⟨s, hs, he⟩)
        (fun s hs => by
          rcases List.mem_append.mp (hl s (List.mem_cons_of_mem _ hs)) with h | h
          · rcases List.mem_cons.mp (hperm.mem_iff.mp h) with h | h
            · rw [h]; simp
            · exact List.mem_append_left _ h
          · exact List.mem_append_right _ (List.mem_cons_of_mem _ h))
        (fun p hp => by
          simp only
          rw [upd_other _ _ (fun h => hne p (List.mem_append_left _ hp) h.2)]
          exact himp p (hsub p hp))
        (fun p hp => by
          simp only
          rcases List.mem_cons.mp hp with rfl | hp
          · exact upd_same _ _ _ _
          · rw [upd_other _ _ (fun h => hne p (List.mem_append_right _ hp) h.2)]
            exact hdone p hp)
        (hq.push (ht _ htp)) (fun p hp => ht p (hsub p hp)) ha'
      refine ⟨r1, ?_, r3, r4, ?_, ?_⟩
      · refine r2.trans ?_
        refine (List.Perm.append_left _ (codeHeap.push_perm _ _)).trans ?_
        refine List.perm_middle.trans ?_
        have := (hperm.map (toCN cur.cost cur.dir)).append_right a.queue
        simpa using this.symm
      · intro p hp
        rcases List.mem_cons.mp (hperm.mem_iff.mp hp) with rfl | hp
        · rw [r6 _ _ (fun _ h => ?_)]
          · exact upd_same _ _ _ _
          · exact hnd'.1 (by rw [List.map_append]; exact List.mem_append_left _ h)
        · exact r5 p hp
      · intro d v hv
        rw [r6 d v (fun hd h => hv hd ?_)]
        · exact upd_other _ _ (fun h => hv h.1 (h.2 ▸ List.mem_map_of_mem htp))
        · obtain ⟨p, hp, rfl⟩ := List.mem_map.mp h
          exact List.mem_map_of_mem (hsub p hp)
    · have htd : t.2 ∈ done := (List.mem_append.mp (hl t List.mem_cons_self)).resolve_left htp
      have h1 : relax1 c true cur a t = a := by
        unfold relax1
        rw [hdone _ htd]
        simp [ltInf]
      rw [h1] at ha'
      refine ih ps done a a' hnd (fun p hp => ?_) (fun s hs => hl s (List.mem_cons_of_mem _ hs)) himp hdone hq ht ha'
      obtain ⟨s, hs, he⟩ := hps p hp
      rcases List.mem_cons.mp hs with rfl | hs
      · exact absurd (he ▸ hp) htp
      · exact ⟨s, hs, he⟩

/-- No meeting so far, nothing but the destination has been visited backwards, and the queue is fine. -/
structure At (a : A ℚ) : Prop where
  flag : a.flag .fwd = false
  vis : ∀ i, 0 < i → a.vis .bwd i = false
  queue : QOk a.queue

/-- An iteration of the forward search that improves the labels of all neighbours. -/
theorem step_improving (hh : c.h = codeHeap) (hch : c.isCh = false) {a : A ℚ} (ha : At a) {u : Nat} {x : ℚ}
    {rest : List (CN ℚ)} {ps : List (Nat × ℚ)} (hu : 0 < u) (hq : a.queue.Perm (⟨u, x, .fwd⟩ :: rest))
    (hlow : ∀ r ∈ rest, u < r.idx) (hlab : a.lab .fwd u = some x) (hnd : (ps.map Prod.fst).Nodup)
    (hps : ∀ p, p ∈ ps ↔ ∃ t ∈ c.out .fwd u, t.2 = p)
    (himp : ∀ p ∈ ps, ltInf (some (x + p.2)) (a.lab .fwd p.1) = true) (ht : ∀ p ∈ ps, Tiny (x + p.2)) :
    ∃ a', Steps c 1 a a' ∧ At a' ∧ a'.queue.Perm (ps.map (toCN x .fwd) ++ rest) ∧
      (∀ p ∈ ps, a'.lab .fwd p.1 = some (x + p.2)) ∧ ∀ v, v ∉ ps.map Prod.fst → a'.lab .fwd v = a.lab .fwd v := by
  obtain ⟨q', hp, hq', hok⟩ := ha.queue.pop hq hlow
  obtain ⟨b, hb⟩ : ∃ b, b = visitA c { a with queue := q' } ⟨u, x, .fwd⟩ := ⟨_, rfl⟩
  have hbv : b = { a with queue := q', vis := upd a.vis .fwd u true } := by
    rw [hb]; unfold visitA; rw [hch]; rfl
  obtain ⟨a', ha'⟩ : ∃ a', relaxAll c true ⟨u, x, .fwd⟩ (c.out .fwd u) b = a' := ⟨_, rfl⟩
  obtain ⟨r1, r2, r3, r4, r5, r6⟩ := relaxAll_improving hh (cur := ⟨u, x, .fwd⟩) (c.out .fwd u) ps [] b a'
    (by simpa using hnd) (fun p hp => (hps p).mp hp) (fun t ht => by simpa using (hps t.2).mpr ⟨t, ht, rfl⟩)
    (by rw [hbv]; exact himp) (by simp) (by rw [hbv]; exact hok) ht ha'
  refine ⟨a', .step (by rw [hh]; exact hp) (a1 := a') ?_ (.refl _), ⟨?_, ?_, r1⟩, ?_, r5, ?_⟩
  · unfold stepA
    have hmeet : meetsA c b ⟨u, x, .fwd⟩ = false := by
      unfold meetsA
      rw [hch, hbv]
      simp only [Bool.false_eq_true, if_false, Dir.opp]
      rw [upd_other _ _ (by simp)]
      exact ha.vis u hu
    have hnb : newBest c b none ⟨u, x, .fwd⟩ = none := by
      unfold newBest
      simp [hmeet]
    rw [if_neg (by simp [ha.flag]), if_neg (by simp [hlab, leInf]), if_neg (by simp [above]), ← hb, hnb]
    simp only [Option.isNone_none, ha']
  · rw [r4, hbv]; exact ha.flag
  · intro i hi
    rw [r3, hbv]
    simp only
    rw [upd_other _ _ (by simp)]
    exact ha.vis i hi
  · rw [hbv] at r2
    exact r2.trans (hq'.append_left _)
  · intro v hv
    rw [r6 .fwd v (fun _ => hv), hbv]

/-! ## Stages -/

/-- The adjacency of `k` stages. The node `2 * j + 3` leads to the next stage `2 * j + 1` directly and, cheaper, over
`2 * j + 2`. -/
structure Stages (c : Cfg ℚ) (al : ℚ) (k : Nat) : Prop where
  heap : c.h = codeHeap
  plain : c.isCh = false
  pos : 0 < al
  stage : ∀ j, j < k → ∀ p, (∃ t ∈ c.out .fwd (2 * j + 3), t.2 = p) ↔
    p = (2 * j + 1, (2 + 2 ^ (j + 1)) * al) ∨ p = (2 * j + 2, al)
  mid : ∀ j, j < k → ∀ p, (∃ t ∈ c.out .fwd (2 * j + 2), t.2 = p) ↔ p = (2 * j + 1, al)
  last : ∀ t, t ∉ c.out .fwd 1

/-- The direct way from stage `j` down to stage `i`. -/
def direct (i j : Nat) : ℚ := 2 * ((j : ℚ) - i) + 2 ^ (j + 1) - 2 ^ (i + 1)

/-- All stages below `j` are passed `2 ^ j` times. -/
theorem stages_steps {al : ℚ} {k : Nat} (hs : Stages c al k) : ∀ (j : Nat) (a : A ℚ) (x : ℚ) (rest : List (CN ℚ)),
    j ≤ k → At a → a.queue.Perm (⟨2 * j + 1, x, .fwd⟩ :: rest) → (∀ r ∈ rest, 2 * j + 1 < r.idx) →
    a.lab .fwd (2 * j + 1) = some x → 0 ≤ x → x + (direct 0 j + 1) * al ≤ 1 / 1000000 →
    (∀ i, i < j → ltInf (some (x + direct i j * al)) (a.lab .fwd (2 * i + 1)) = true) →
    (∀ i, i < j → ltInf (some (x + (direct (i + 1) j + 1) * al)) (a.lab .fwd (2 * i + 2)) = true) →
    ∃ n a', 2 ^ j ≤ n ∧ Steps c n a a' ∧ At a' ∧ a'.queue.Perm rest ∧
      (∀ i, i ≤ j → a'.lab .fwd (2 * i + 1) = some (x + 2 * ((j : ℚ) - i) * al)) ∧
      (∀ i, i < j → a'.lab .fwd (2 * i + 2) = some (x + (2 * ((j : ℚ) - i - 1) + 1) * al)) ∧
      ∀ v, 2 * j + 1 < v → a'.lab .fwd v = a.lab .fwd v := by
  intro j
  induction j with
  | zero =>
    intro a x rest _ ha hq hlow hlab hx _ _ _
    obtain ⟨a', h1, h2, h3, _, h5⟩ := step_improving (ps := []) hs.heap hs.plain ha (by omega) hq hlow hlab (by simp)
      (fun p => by
        simp only [List.not_mem_nil, false_iff]
        rintro ⟨t, ht, _⟩
        exact hs.last t ht) (by simp) (by simp)
    refine ⟨1, a', by norm_num, h1, h2, by simpa using h3, ?_, by simp, fun v _ => h5 v (by simp)⟩
    intro i hi
    obtain rfl : i = 0 := by omega
    rw [h5 _ (by simp), hlab]
    simp
  | succ j ih =>
    intro a x rest hj ha hq hlow hlab hx hsmall hst hmd
    have hal := hs.pos
    have hp : (0 : ℚ) < 2 ^ j * al := by positivity
    have hjal : (0 : ℚ) ≤ j * al := by positivity
    have hW : direct j (j + 1) = 2 + 2 ^ (j + 1) := by
      unfold direct; push_cast; ring
    have hdir : ∀ i, direct i (j + 1) = (2 + 2 ^ (j + 1)) + direct i j := by
      intro i; unfold direct; push_cast; ring
    have hmm : direct (j + 1) (j + 1) = 0 := by unfold direct; push_cast; ring
    have hd0 : direct 0 j = 2 * j + 2 ^ j * 2 - 2 := by unfold direct; push_cast; ring
    have e1 : (2 : ℚ) ^ (j + 1) = 2 ^ j * 2 := pow_succ _ _
    rw [hdir, hd0] at hsmall
    have hj' : 2 * (j + 1) + 1 = 2 * j + 3 := by ring
    rw [hj'] at hq hlow hlab
    have h0 := hst j (by omega)
    have h0' := hmd j (by omega)
    rw [hW] at h0
    rw [hmm, zero_add, one_mul] at h0'
    have hp1 : (al : ℚ) ≤ 2 ^ j * al := le_mul_of_one_le_left hal.le (one_le_pow₀ (by norm_num))
    -- the node of this stage
    obtain ⟨a1, s1, at1, q1, l1, u1⟩ := step_improving
      (ps := [(2 * j + 1, (2 + 2 ^ (j + 1)) * al), (2 * j + 2, al)]) hs.heap hs.plain ha (by omega) hq hlow hlab
      (by simp) (fun p => by rw [hs.stage j (by omega)]; simp)
      (by
        intro p hp
        simp only [List.mem_cons, List.not_mem_nil, or_false] at hp
        rcases hp with rfl | rfl
        · exact h0
        · exact h0')
      (by
        intro p hp
        simp only [List.mem_cons, List.not_mem_nil, or_false] at hp
        rcases hp with rfl | rfl
        · exact ⟨by positivity, by simp only [e1] at hsmall ⊢; nlinarith⟩
        · exact ⟨by positivity, by simp only [e1] at hsmall ⊢; nlinarith⟩)
    simp only [List.map_cons, List.map_nil, toCN, List.cons_append, List.nil_append] at q1
    -- first pass
    obtain ⟨n2, a2, hn2, s2, at2, q2, l2, m2, u2⟩ := ih a1 (x + (2 + 2 ^ (j + 1)) * al) _ (by omega) at1 q1
      (by
        intro r hr
        rcases List.mem_cons.mp hr with rfl | hr
        · simp
        · have := hlow r hr; omega)
      (l1 (2 * j + 1, (2 + 2 ^ (j + 1)) * al) (by simp)) (by positivity) (by rw [hd0]; linarith)
      (fun i hi => by
        have := hst i (by omega)
        rw [u1 _ (by simp; omega)]
        rw [hdir] at this
        rw [show x + (2 + 2 ^ (j + 1)) * al + direct i j * al = x + (2 + 2 ^ (j + 1) + direct i j) * al by ring]
        exact this)
      (fun i hi => by
        have := hmd i (by omega)
        rw [u1 _ (by simp; omega)]
        rw [hdir] at this
        rw [show x + (2 + 2 ^ (j + 1)) * al + (direct (i + 1) j + 1) * al =
          x + (2 + 2 ^ (j + 1) + direct (i + 1) j + 1) * al by ring]
        exact this)
    -- the other way
    have hlabm : a2.lab .fwd (2 * j + 2) = some (x + al) := by
      rw [u2 _ (by omega)]
      exact l1 (2 * j + 2, al) (by simp)
    obtain ⟨a3, s3, at3, q3, l3, u3⟩ := step_improving (ps := [(2 * j + 1, al)]) hs.heap hs.plain at2 (by omega) q2
      (fun r hr => by have := hlow r hr; omega) hlabm
      (by simp) (fun p => by rw [hs.mid j (by omega)]; simp)
      (by
        intro p hp
        simp only [List.mem_cons, List.not_mem_nil, or_false] at hp
        subst hp
        rw [l2 j le_rfl]
        simp only [ltInf, decide_eq_true_eq]
        simp only [e1]
        nlinarith)
      (by
        intro p hp
        simp only [List.mem_cons, List.not_mem_nil, or_false] at hp
        subst hp
        exact ⟨by positivity, by simp only [e1] at hsmall ⊢; nlinarith⟩)
    simp only [List.map_cons, List.map_nil, toCN, List.cons_append, List.nil_append] at q3
    -- second pass
    obtain ⟨n4, a4, hn4, s4, at4, q4, l4, m4, u4⟩ := ih a3 (x + al + al) _ (by omega) at3 q3
      (fun r hr => by have := hlow r hr; omega)
      (l3 (2 * j + 1, al) (by simp)) (by positivity) (by rw [hd0]; simp only [e1] at hsmall ⊢; nlinarith)
      (fun i hi => by
        have hi' : (0 : ℚ) < 2 ^ i * al := by positivity
        rw [u3 _ (by simp; omega), l2 i (by omega)]
        refine decide_eq_true (sub_pos.mp ?_)
        unfold direct
        refine lt_of_lt_of_eq (b := 2 * (2 ^ i * al)) (by positivity) ?_
        ring)
      (fun i hi => by
        have hi' : (0 : ℚ) < 2 ^ i * al := by positivity
        rw [u3 _ (by simp; omega), m2 i hi]
        refine decide_eq_true (sub_pos.mp ?_)
        unfold direct
        refine lt_of_lt_of_eq (b := 4 * (2 ^ i * al)) (by positivity) ?_
        push_cast
        ring)
    refine ⟨_, a4, ?_, ((s1.trans s2).trans s3).trans s4, at4, q4, ?_, ?_, ?_⟩
    · rw [pow_succ]; omega
    · intro i hi
      rcases Nat.lt_or_ge j i with h | h
      · obtain rfl : i = j + 1 := by omega
        rw [u4 _ (by omega), u3 _ (by simp), u2 _ (by omega), u1 _ (by simp; omega), hj', hlab]
        simp
      · rw [l4 i h]
        congr 1
        push_cast
        ring
    · intro i hi
      rcases Nat.lt_or_ge i j with h | h
      · rw [m4 i h]
        congr 1
        push_cast
        ring
      · obtain rfl : i = j := by omega
        rw [u4 _ (by omega), u3 _ (by simp), hlabm]
        congr 1
        push_cast
        ring
    · intro v hv
      rw [u4 _ (by omega), u3 _ (by simp; omega), u2 _ (by omega), u1 _ (by simp; omega)]

/-- From the last stage to a node that has no predecessors, the search takes at least `2 ^ k` iterations. -/
theorem stages_slow {al : ℚ} {k : Nat} (hs : Stages c al k) (hsrc : c.src = 2 * k + 1) (hdst : c.dst = 0)
    (hpre : ∀ t, t ∉ c.out .bwd 0) (hsmall : (direct 0 k + 1) * al ≤ 1 / 1000000) {fuel : Nat} (hf : fuel ≤ 2 ^ k) :
    loopA c fuel (initA c) none = none := by
  have htiny : Tiny 0 := ⟨le_refl _, by norm_num⟩
  obtain ⟨a, ha⟩ : ∃ a, a = initA c := ⟨_, rfl⟩
  have hqueue : a.queue = codeHeap.push (codeHeap.push [] ⟨2 * k + 1, 0, .fwd⟩) ⟨0, 0, .bwd⟩ := by
    rw [ha]; unfold initA; rw [hs.heap, hsrc, hdst]
  have hok : QOk a.queue := by
    rw [hqueue]; exact (QOk.nil.push htiny).push htiny
  have hperm : a.queue.Perm (⟨0, 0, .bwd⟩ :: [⟨2 * k + 1, 0, .fwd⟩]) := by
    rw [hqueue]
    exact (codeHeap.push_perm _ _).trans ((codeHeap.push_perm _ _).cons _)
  obtain ⟨q', hp, hq', hok'⟩ := hok.pop hperm (by simp)
  have hout : c.out .bwd 0 = [] := List.eq_nil_iff_forall_not_mem.mpr hpre
  have hlab0 : a.lab .bwd 0 = some 0 := by
    rw [ha]; simp only [initA]; rw [hdst, upd_same]
  have hstep : stepA c { a with queue := q' } none ⟨0, 0, .bwd⟩ =
      .go { a with queue := q', vis := upd a.vis .bwd 0 true } none := by
    have hv : visitA c { a with queue := q' } ⟨0, 0, .bwd⟩ =
        { a with queue := q', vis := upd a.vis .bwd 0 true } := by
      unfold visitA; rw [hs.plain]; rfl
    have hmeet : meetsA c { a with queue := q', vis := upd a.vis .bwd 0 true } ⟨0, 0, .bwd⟩ = false := by
      unfold meetsA
      rw [hs.plain]
      simp only [Bool.false_eq_true, if_false, Dir.opp]
      rw [upd_other _ _ (by simp), ha]
      rfl
    unfold stepA
    rw [if_neg (by rw [ha]; simp [initA]), if_neg (by simp [hlab0, leInf]), if_neg (by simp [above]), hv]
    simp only [newBest, hmeet, hout, relaxAll, Bool.false_eq_true, if_false, List.foldl_nil]
  obtain ⟨n, a', hn, hsteps, _⟩ := stages_steps hs k { a with queue := q', vis := upd a.vis .bwd 0 true } 0 []
    le_rfl ⟨by rw [ha]; rfl, fun i hi => by
      simp only
      rw [upd_other _ _ (by rintro ⟨_, h⟩; omega), ha]; rfl, hok'⟩ hq' (by simp)
    (by
      simp only [ha, initA]
      rw [upd_other _ _ (by simp), hsrc, upd_same])
    le_rfl (by simpa using hsmall)
    (fun i hi => by
      simp only [ha, initA]
      rw [upd_other _ _ (by simp), upd_other _ _ (by rintro ⟨_, h⟩; omega)]; rfl)
    (fun i hi => by
      simp only [ha, initA]
      rw [upd_other _ _ (by simp), upd_other _ _ (by rintro ⟨_, h⟩; omega)]; rfl)
  rw [← ha]
  exact (Steps.step (by rw [hs.heap]; exact hp) hstep hsteps).loop (by omega)

end
end Verif.Slow
