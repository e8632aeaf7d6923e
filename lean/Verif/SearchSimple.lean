import Verif.SearchTerm

/-!
# The two halves of an answered route share the meeting node only

This holds for every order of the queue and for weights that may be zero. The proof remembers, for
each direction and node, the cost at which the node's edges have been relaxed for the last time.
-/

namespace Verif.Search

set_option linter.unusedSectionVars false

open Dij

/-- Adding the same to both sides keeps a strict order. -/
structure AddStrict (K : Type) [LinearOrder K] [Add K] : Prop where
  lt : ∀ x y w : K, x < y → x + w < y + w
  lt' : ∀ x y w : K, x < y → w + x < w + y

/-- Following predecessors, at least once, from the first node leads to the second one. -/
inductive Passes (pred : Nat → Option Nat) (tail : Nat → Nat) : Nat → Nat → Prop where
  | one {v e : Nat} : pred v = some e → Passes pred tail v (tail e)
  | more {v e x : Nat} : pred v = some e → Passes pred tail (tail e) x → Passes pred tail v x

theorem Chain.passes {pred : Nat → Option Nat} {tail : Nat → Nat} {v : Nat} {l : List Nat}
    (h : Chain pred tail v l) {x : Nat} (hx : x ∈ l.map tail) : Passes pred tail v x := by
  induction h with
  | nil => cases hx
  | cons hp _ ih =>
    rcases List.mem_cons.mp hx with rfl | hx
    · exact .one hp
    · exact .more hp (ih hx)

theorem Chain.suffix {pred : Nat → Option Nat} {tail : Nat → Nat} {v : Nat} {l : List Nat}
    (h : Chain pred tail v l) {x : Nat} (hx : Passes pred tail v x) :
    ∃ l', Chain pred tail x l' ∧ l'.length < l.length := by
  induction hx generalizing l with
  | one hp =>
    cases h with
    | nil hp' => rw [hp] at hp'; cases hp'
    | cons hp' h =>
      rw [hp] at hp'
      cases hp'
      exact ⟨_, h, by simp⟩
  | more hp _ ih =>
    cases h with
    | nil hp' => rw [hp] at hp'; cases hp'
    | cons hp' h =>
      rw [hp] at hp'
      cases hp'
      obtain ⟨l', h1, h2⟩ := ih h
      exact ⟨l', h1, by simp only [List.length_cons]; omega⟩

/-- Following predecessors never comes back. -/
theorem Chain.not_self {pred : Nat → Option Nat} {tail : Nat → Nat} {v : Nat} {l : List Nat}
    (h : Chain pred tail v l) : ¬ Passes pred tail v v := by
  intro hx
  obtain ⟨l', h1, h2⟩ := h.suffix hx
  rw [h.unique h1] at h2
  exact lt_irrefl _ h2

theorem Chain.nodup {pred : Nat → Option Nat} {tail : Nat → Nat} {v : Nat} {l : List Nat}
    (h : Chain pred tail v l) : (v :: l.map tail).Nodup := by
  induction h with
  | nil => simp
  | cons hp h ih =>
    exact List.nodup_cons.mpr ⟨fun hx => (Chain.cons hp h).not_self ((Chain.cons hp h).passes hx), ih⟩

section
variable {K : Type} [LinearOrder K] [Zero K] [Add K] {c : Cfg K} {tail : Dir → Nat → Nat}

/-- What has been relaxed: `P` has the costs at which nodes have been relaxed for the last time. -/
structure InvR (c : Cfg K) (tail : Dir → Nat → Nat) (P : Dir → Nat → Option K) (a : A K) : Prop where
  le : ∀ d x k, P d x = some k → ∃ y, a.lab d x = some y ∧ y ≤ k
  pred : ∀ d v e, a.pred d v = some e → ∃ k w y, P d (tail d e) = some k ∧
    (e, v, w) ∈ c.out d (tail d e) ∧ a.lab d v = some y ∧ k + w ≤ y
  vis : ∀ d x k, P d x = some k → c.isCh = false → a.vis d x = true

/-- The best meeting node is not above nodes relaxed in both directions, and its two chains share no
other node. -/
structure InvP (c : Cfg K) (tail : Dir → Nat → Nat) (P : Dir → Nat → Option K) (a : A K)
    (best : Best K) : Prop extends InvR c tail P a where
  cheap : ∀ x k k', P .fwd x = some k → P .bwd x = some k' →
    ∃ m t, best = some (m, some t) ∧ t ≤ k + k'
  no : ∀ m b x, best = some (m, b) → x ≠ m → Passes (a.pred .fwd) (tail .fwd) m x →
    Passes (a.pred .bwd) (tail .bwd) m x → False

variable {P : Dir → Nat → Option K}

/-- A node on the way to a node has been relaxed at a cost not above the label of that node. -/
theorem InvR.passes {a : A K} (hk : AddOk K) (ho : OutOk c tail)
    (hi : InvR c tail P a) {d : Dir} {v x : Nat} (h : Passes (a.pred d) (tail d) v x) {y : K}
    (hy : a.lab d v = some y) : ∃ k, P d x = some k ∧ k ≤ y := by
  induction h generalizing y with
  | @one v e hp =>
    obtain ⟨k, w, y', h1, h2, h3, h4⟩ := hi.pred _ _ _ hp
    rw [hy] at h3
    cases h3
    exact ⟨k, h1, le_trans (hk.infl _ _ (ho.nonneg _ _ _ h2)) h4⟩
  | @more v e x hp _ ih =>
    obtain ⟨k, w, y', h1, h2, h3, h4⟩ := hi.pred _ _ _ hp
    rw [hy] at h3
    cases h3
    obtain ⟨z, hz, hzk⟩ := hi.le _ _ _ h1
    obtain ⟨k', h5, h6⟩ := ih hz
    exact ⟨k', h5, le_trans h6 (le_trans hzk (le_trans (hk.infl _ _ (ho.nonneg _ _ _ h2)) h4))⟩

/-- If the label of `v` is not above the cost at which `x` has been relaxed, the way from `v` back to `x`
has not been changed by a strict improvement at another node. -/
theorem InvR.passes_old {a a' : A K} (hk : AddOk K) (ho : OutOk c tail)
    (hi : InvR c tail P a) (hi' : InvR c tail P a')
    {d : Dir} {v0 : Nat} (hpred : ∀ u, u ≠ v0 → a'.pred d u = a.pred d u)
    (hlab : ∀ u, u ≠ v0 → a'.lab d u = a.lab d u)
    (hlt : ∀ y, a.lab d v0 = some y → ∃ y', a'.lab d v0 = some y' ∧ y' < y)
    {v x : Nat} (h : Passes (a'.pred d) (tail d) v x) (hv : v ≠ v0) {k y : K} (hk' : P d x = some k)
    (hy : a'.lab d v = some y) (hyk : y ≤ k) : Passes (a.pred d) (tail d) v x := by
  induction h generalizing y with
  | @one v e hp =>
    rw [hpred v hv] at hp
    exact .one hp
  | @more v e x hp h ih =>
    rw [hpred v hv] at hp
    rw [hlab v hv] at hy
    obtain ⟨ku, w, y', h1, h2, h3, h4⟩ := hi.pred _ _ _ hp
    rw [hy] at h3
    cases h3
    have h5 : ku ≤ y := le_trans (hk.infl _ _ (ho.nonneg _ _ _ h2)) h4
    have hu : tail d e ≠ v0 := by
      rintro hu
      rw [hu] at h h1
      obtain ⟨z, hz, hzk⟩ := hi.le _ _ _ h1
      obtain ⟨z', hz', hlt'⟩ := hlt z hz
      obtain ⟨k2, hk2, hle2⟩ := hi'.passes hk ho h hz'
      rw [hk'] at hk2
      cases hk2
      exact absurd (lt_of_lt_of_le hlt' (le_trans hzk (le_trans h5 hyk))) (not_lt.mpr hle2)
    obtain ⟨z, hz, hzk⟩ := hi'.le _ _ _ h1
    exact .more hp (ih hu hk' hz (le_trans hzk (le_trans h5 hyk)))

/-- Equal sums of pairs of which one is not above the other have equal summands. -/
theorem AddStrict.tight (hs : AddStrict K) (hk : AddOk K) {x y x' y' : K} (h : x + y ≤ x' + y') (hx : x' ≤ x)
    (hy : y' ≤ y) : x = x' ∧ y = y' := by
  constructor
  · rcases lt_or_eq_of_le hx with h1 | h1
    · exact absurd (lt_of_lt_of_le (hs.lt _ _ y' h1) (hk.mono' _ _ x hy)) (not_lt.mpr h)
    · exact h1.symm
  · rcases lt_or_eq_of_le hy with h1 | h1
    · exact absurd (lt_of_lt_of_le (hs.lt' _ _ x' h1) (hk.mono _ _ y hx)) (not_lt.mpr h)
    · exact h1.symm

theorem InvP.relax1 {a : A K} {best : Best K} (hk : AddOk K) (hs : AddStrict K) (ho : OutOk c tail)
    (h1 : Inv1 c tail a best) (hi : InvP c tail P a best) {isNone : Bool} {cur : CN K} {t : Arc K}
    (ht : t ∈ c.out cur.dir cur.idx) (hc : a.lab cur.dir cur.idx = some cur.cost)
    (hP : P cur.dir cur.idx = some cur.cost) :
    InvP c tail P (relax1 c isNone cur a t) best := by
  have h1' := (h1.relax1 hk ho (isNone := isNone) ht hc).1
  unfold Search.relax1 at h1' ⊢
  split at h1'
  swap
  · rename_i hlt
    rw [if_neg hlt]
    exact hi
  rename_i hlt
  rw [if_pos hlt]
  rw [ltInf_iff] at hlt
  obtain ⟨e, v, w⟩ := t
  simp only at hlt h1' ⊢
  have htail := ho.tail _ _ _ ht
  simp only at htail
  have hle : ∀ d u y, a.lab d u = some y →
      ∃ y', upd a.lab cur.dir v (some (cur.cost + w)) d u = some y' ∧ y' ≤ y := by
    intro d u y hy
    by_cases h : d = cur.dir ∧ u = v
    · obtain ⟨rfl, rfl⟩ := h
      exact ⟨_, upd_same _ _ _ _, le_of_lt (hlt _ hy)⟩
    · exact ⟨y, by rw [upd_other _ _ h]; exact hy, le_refl _⟩
  have hR : InvR c tail P
      { a with
        lab := upd a.lab cur.dir v (some (cur.cost + w))
        pred := upd a.pred cur.dir v (some e)
        queue := if c.isCh || isNone then
            c.h.push a.queue { idx := v, cost := cur.cost + w, dir := cur.dir }
          else a.queue } := by
    refine ⟨?_, ?_, hi.vis⟩
    · intro d x k hx
      obtain ⟨y, hy, hyk⟩ := hi.le d x k hx
      obtain ⟨y', hy', hle'⟩ := hle d x y hy
      exact ⟨y', hy', le_trans hle' hyk⟩
    · intro d u e' he
      simp only at he ⊢
      by_cases h : d = cur.dir ∧ u = v
      · obtain ⟨rfl, rfl⟩ := h
        rw [upd_same] at he
        cases he
        rw [htail]
        exact ⟨_, w, _, hP, ht, upd_same _ _ _ _, le_refl _⟩
      · rw [upd_other _ _ h] at he ⊢
        exact hi.pred d u e' he
  refine { hR with cheap := hi.cheap, no := ?_ }
  intro m b x hb hxm hf hbk
  obtain ⟨t, f', b', rfl, hf', hb', hsum⟩ := h1'.best m b hb
  obtain ⟨t2, f, b, he, hfo, hbo, hsumo⟩ := h1.best m _ hb
  cases he
  obtain ⟨k, hk1, hkf⟩ := hR.passes hk ho hf hf'
  obtain ⟨k', hk2, hkb⟩ := hR.passes hk ho hbk hb'
  obtain ⟨m', t', hb2, hle'⟩ := hi.cheap x k k' hk1 hk2
  rw [hb] at hb2
  cases hb2
  obtain ⟨rfl, rfl⟩ := hs.tight hk (le_trans hsum hle') hkf hkb
  obtain ⟨f2, hf2, hf2le⟩ := hle _ _ _ hfo
  obtain ⟨b2, hb2, hb2le⟩ := hle _ _ _ hbo
  simp only at hf' hb' hf hbk
  rw [hf'] at hf2
  rw [hb'] at hb2
  cases hf2
  cases hb2
  have hmf : ¬ (cur.dir = .fwd ∧ m = v) := by
    rintro ⟨hd, rfl⟩
    have h2 := hlt f (by rw [hd]; exact hfo)
    rw [hd, upd_same] at hf'
    cases hf'
    exact absurd (lt_of_lt_of_le (hs.lt _ _ b' h2) (hk.mono' _ _ f hb2le))
      (not_lt.mpr (le_trans hsumo hle'))
  have hmb : ¬ (cur.dir = .bwd ∧ m = v) := by
    rintro ⟨hd, rfl⟩
    have h2 := hlt b (by rw [hd]; exact hbo)
    rw [hd, upd_same] at hb'
    cases hb'
    exact absurd (lt_of_lt_of_le (hs.lt' _ _ f' h2) (hk.mono _ _ b hf2le))
      (not_lt.mpr (le_trans hsumo hle'))
  have key : ∀ d y, ¬ (cur.dir = d ∧ m = v) →
      Passes (upd a.pred cur.dir v (some e) d) (tail d) m x → P d x = some y →
      upd a.lab cur.dir v (some (cur.cost + w)) d m = some y → Passes (a.pred d) (tail d) m x := by
    intro d y hne hp hP' hl
    by_cases hd : cur.dir = d
    · subst hd
      refine hi.toInvR.passes_old hk ho hR (v0 := v) ?_ ?_ ?_ hp (fun h => hne ⟨rfl, h⟩) hP' hl
        (le_refl _)
      · intro u hu
        exact upd_other _ _ (fun h => hu h.2)
      · intro u hu
        exact upd_other _ _ (fun h => hu h.2)
      · intro y hy
        exact ⟨_, upd_same _ _ _ _, hlt _ hy⟩
    · have : upd a.pred cur.dir v (some e) d = a.pred d := by
        funext u
        exact upd_other _ _ (fun h => hd h.1.symm)
      rwa [this] at hp
  exact hi.no m _ x hb hxm (key .fwd _ hmf hf hk1 hf') (key .bwd _ hmb hbk hk2 hb')

theorem InvP.mark {a : A K} {best : Best K} (hk : AddOk K) (ho : OutOk c tail)
    (h1 : Inv1 c tail a best) (hi : InvP c tail P a best) {cur : CN K}
    (hc : a.lab cur.dir cur.idx = some cur.cost) :
    InvP c tail (upd P cur.dir cur.idx (some cur.cost)) (visitA c a cur)
      (newBest c (visitA c a cur) best cur) := by
  have hbest : ∀ x k k', P .fwd x = some k → P .bwd x = some k' →
      ∃ m t, newBest c (visitA c a cur) best cur = some (m, some t) ∧ t ≤ k + k' := by
    intro x k k' hx hx'
    obtain ⟨m, t, rfl, ht⟩ := hi.cheap x k k' hx hx'
    unfold newBest
    simp only
    split
    · rename_i hlt
      obtain ⟨z, hz⟩ := ltInf_some hlt
      rw [hz] at hlt ⊢
      exact ⟨_, z, rfl, le_trans (le_of_lt (ltInf_iff.mp hlt t rfl)) ht⟩
    · exact ⟨m, t, rfl, ht⟩
  refine { le := ?_, pred := ?_, vis := ?_, cheap := ?_, no := ?_ }
  · intro d x k hx
    rw [visitA_lab]
    by_cases h : d = cur.dir ∧ x = cur.idx
    · obtain ⟨rfl, rfl⟩ := h
      rw [upd_same] at hx
      cases hx
      exact ⟨_, hc, le_refl _⟩
    · rw [upd_other _ _ h] at hx
      exact hi.le d x k hx
  · intro d v e he
    rw [visitA_pred] at he
    rw [visitA_lab]
    obtain ⟨k, w, y, h2, h3, h4, h5⟩ := hi.pred d v e he
    by_cases h : d = cur.dir ∧ tail d e = cur.idx
    · obtain ⟨rfl, h⟩ := h
      rw [h] at h2 h3 ⊢
      obtain ⟨z, hz, hzk⟩ := hi.le _ _ _ h2
      rw [hc] at hz
      cases hz
      exact ⟨_, w, y, upd_same _ _ _ _, h3, h4, le_trans (hk.mono _ _ _ hzk) h5⟩
    · rw [upd_other _ _ h]
      exact ⟨k, w, y, h2, h3, h4, h5⟩
  · intro d x k hx hch
    unfold visitA
    rw [hch]
    simp only [Bool.false_eq_true, if_false]
    by_cases h : d = cur.dir ∧ x = cur.idx
    · obtain ⟨rfl, rfl⟩ := h
      exact upd_same _ _ _ _
    · rw [upd_other _ _ h] at hx ⊢
      exact hi.vis d x k hx hch
  · intro x k k' hx hx'
    by_cases hxc : x = cur.idx
    · subst hxc
      have hopp : ∃ z, P cur.dir.opp cur.idx = some z := by
        cases hd : cur.dir with
        | fwd =>
          rw [hd, upd_other _ _ (by simp)] at hx'
          exact ⟨_, hx'⟩
        | bwd =>
          rw [hd, upd_other _ _ (by simp)] at hx
          exact ⟨_, hx⟩
      have hlabs : ∃ f b, a.lab .fwd cur.idx = some f ∧ a.lab .bwd cur.idx = some b ∧ f + b ≤ k + k' := by
        cases hd : cur.dir with
        | fwd =>
          rw [hd, upd_other _ _ (by simp)] at hx'
          rw [hd, upd_same] at hx
          cases hx
          obtain ⟨b, hb, hle⟩ := hi.le _ _ _ hx'
          rw [hd] at hc
          exact ⟨_, b, hc, hb, hk.mono' _ _ _ hle⟩
        | bwd =>
          rw [hd, upd_other _ _ (by simp)] at hx
          rw [hd, upd_same] at hx'
          cases hx'
          obtain ⟨f, hf, hle⟩ := hi.le _ _ _ hx
          rw [hd] at hc
          exact ⟨f, _, hf, hc, hk.mono _ _ _ hle⟩
      obtain ⟨f, b, hf, hb, hle⟩ := hlabs
      have htot : totalA (visitA c a cur) cur.idx = some (f + b) := by
        simp [totalA, visitA_lab, hf, hb, addInf]
      unfold newBest
      rw [htot]
      cases hbe : best with
      | some mb =>
        obtain ⟨m, bb⟩ := mb
        obtain ⟨t, _, _, rfl, _⟩ := h1.best m bb hbe
        simp only
        split
        · exact ⟨_, _, rfl, hle⟩
        · rename_i hlt
          refine ⟨_, _, rfl, le_trans ?_ hle⟩
          by_contra hcon
          exact hlt (ltInf_iff.mpr (fun y hy => by cases hy; exact not_le.mp hcon))
      | none =>
        have hm : meetsA c (visitA c a cur) cur = true := by
          obtain ⟨z, hz⟩ := hopp
          unfold meetsA
          split
          · obtain ⟨y, hy, _⟩ := hi.le _ _ _ hz
            rw [visitA_lab, hy]
            rfl
          · rename_i hch
            have hch : c.isCh = false := by simpa using hch
            have := hi.vis _ _ _ hz hch
            unfold visitA
            rw [hch]
            simp only [Bool.false_eq_true, if_false]
            rw [upd_other _ _ (by cases cur.dir <;> simp [Dir.opp])]
            exact this
        simp only [hm, if_true]
        exact ⟨_, _, rfl, hle⟩
    · rw [upd_other _ _ (fun h => hxc h.2)] at hx hx'
      exact hbest x k k' hx hx'
  · intro m b x hb hxm hf hbk
    rw [visitA_pred] at hf hbk
    obtain ⟨t, y, y', h2, hy, hy', hle⟩ :=
      ((h1.visit hc).newBest (by rw [visitA_lab]; exact hc)).best m b hb
    rw [visitA_lab] at hy hy'
    obtain ⟨k, hk1, hkle⟩ := hi.toInvR.passes hk ho hf hy
    obtain ⟨k', hk2, hkle'⟩ := hi.toInvR.passes hk ho hbk hy'
    obtain ⟨m0, t0, rfl, ht0⟩ := hi.cheap x k k' hk1 hk2
    unfold newBest at hb
    simp only at hb
    split at hb
    · rename_i hlt
      simp only [Option.some.injEq, Prod.mk.injEq] at hb
      obtain ⟨rfl, rfl⟩ := hb
      rw [h2] at hlt
      have hlt := ltInf_iff.mp hlt t0 rfl
      have : k + k' ≤ y + y' := le_trans (hk.mono _ _ _ hkle) (hk.mono' _ _ _ hkle')
      exact absurd hlt (not_lt.mpr (le_trans ht0 (le_trans this hle)))
    · simp only [Option.some.injEq, Prod.mk.injEq] at hb
      obtain ⟨rfl, rfl⟩ := hb
      exact hi.no _ _ x rfl hxm hf hbk

theorem InvP.setFlag {a : A K} {best : Best K} (hi : InvP c tail P a best) (f : Dir → Bool) :
    InvP c tail P { a with flag := f } best :=
  { le := hi.le, pred := hi.pred, vis := hi.vis, cheap := hi.cheap, no := hi.no }

theorem InvP.setQueue {a : A K} {best : Best K} (hi : InvP c tail P a best) (q : List (CN K)) :
    InvP c tail P { a with queue := q } best :=
  { le := hi.le, pred := hi.pred, vis := hi.vis, cheap := hi.cheap, no := hi.no }

theorem InvP.visit {a : A K} {best : Best K} (hi : InvP c tail P a best) (cur : CN K) :
    InvP c tail P (visitA c a cur) best := by
  unfold visitA
  split
  · exact hi
  · refine { le := hi.le, pred := hi.pred, vis := ?_, cheap := hi.cheap, no := hi.no }
    intro d x k hx hch
    simp only
    by_cases h : d = cur.dir ∧ x = cur.idx
    · obtain ⟨rfl, rfl⟩ := h
      exact upd_same _ _ _ _
    · rw [upd_other _ _ h]
      exact hi.vis d x k hx hch

theorem invP_step {a : A K} {best : Best K} (hk : AddOk K) (hs : AddStrict K) (ho : OutOk c tail)
    (h1 : Inv1 c tail a best) (hi : ∃ P, InvP c tail P a best) {cur : CN K} {q : List (CN K)}
    (hp : c.h.pop a.queue = some (cur, q)) {a' : A K} {best' : Best K}
    (hst : stepA c { a with queue := q } best cur = .go a' best') : ∃ P, InvP c tail P a' best' := by
  obtain ⟨P, hi⟩ := hi
  have hq1 : Inv1 c tail { a with queue := q } best :=
    h1.setQueue (fun x hx => (mem_pop hp).mpr (Or.inr hx))
  have hq := hi.setQueue q
  obtain ⟨_, h | h | h⟩ := stepA_go c hst
  · obtain ⟨_, rfl, rfl⟩ := h
    exact ⟨P, hq⟩
  · obtain ⟨hl, _, rfl, rfl⟩ := h
    exact ⟨P, (hq.visit cur).setFlag _⟩
  · obtain ⟨hl, _, hb, rfl⟩ := h
    have hc := h1.popped hp hl
    rw [hb]
    refine ⟨upd P cur.dir cur.idx (some cur.cost), ?_⟩
    have h2 := (hq1.visit hc).newBest (by rw [visitA_lab]; exact hc)
    have h3 := hq.mark hk ho hq1 hc
    refine (relaxAll_induct (P := fun b => Inv1 c tail b _ ∧
      InvP c tail (upd P cur.dir cur.idx (some cur.cost)) b _ ∧
      b.lab cur.dir cur.idx = some cur.cost) ?_ ⟨h2, h3, by rw [visitA_lab]; exact hc⟩).2.1
    rintro b t ht ⟨h4, h5, h6⟩
    obtain ⟨h7, h8⟩ := h4.relax1 hk ho ht h6
    exact ⟨h7, h5.relax1 hk hs ho h4 ht h6 (upd_same _ _ _ _), h8⟩

theorem InvP.init : InvP c tail (fun _ _ => none) (initA c) none :=
  { le := (by intro d x k h; cases h)
    pred := (by intro d v e h; cases h)
    vis := (by intro d x k h; cases h)
    cheap := (by intro x k k' h; cases h)
    no := (by intro m b x h; cases h) }

/-- In the end, the two chains of the best meeting node share that node only. -/
theorem disjoint_final (hk : AddOk K) (hs : AddStrict K) (ho : OutOk c tail) {fuel : Nat} {a : A K}
    {m : Nat} {b : Option K} (h : loopA c fuel (initA c) none = some (a, some (m, b))) {x : Nat}
    (hf : Passes (a.pred .fwd) (tail .fwd) m x) (hb : Passes (a.pred .bwd) (tail .bwd) m x) : x = m := by
  obtain ⟨a0, ⟨_, P, hi⟩, h | ⟨_, _, cur, q, hp, rfl⟩⟩ := loopA_induct c
    (Inv := fun a best => Inv1 c tail a best ∧ ∃ P, InvP c tail P a best)
    (fun a best cur q a' best' hi hp hst => ⟨hi.1.step hk ho hp hst, invP_step hk hs ho hi.1 hi.2 hp hst⟩)
    ⟨Inv1.init, _, InvP.init⟩ h
  · rw [h.2] at hf hb
    by_contra hne
    exact hi.no m b x rfl hne hf hb
  · by_contra hne
    exact hi.no m b x rfl hne hf hb

end
end Verif.Search
