import Verif.Search

/-!
# Invariants of the search that need no assumption on the queue
-/

namespace Verif.Search

set_option linter.unusedSectionVars false

open Dij

section
variable {K : Type} [LinearOrder K] [Zero K] [Add K] {c : Cfg K}

theorem ltInf_iff {x : K} {o : Option K} : ltInf (some x) o = true ↔ ∀ y, o = some y → x < y := by
  cases o <;> simp [ltInf]

theorem ltInf_some {o p : Option K} (h : ltInf o p = true) : ∃ x, o = some x := by
  cases o <;> simp_all [ltInf]

theorem leInf_iff {x : K} {o : Option K} : leInf x o = true ↔ ∀ y, o = some y → x ≤ y := by
  cases o <;> simp [leInf]

theorem mem_push {h : Heap K} {q : List (CN K)} {x y : CN K} : x ∈ h.push q y ↔ x = y ∨ x ∈ q := by
  rw [(h.push_perm q y).mem_iff, List.mem_cons]

theorem mem_pop {h : Heap K} {q q' : List (CN K)} {x y : CN K} (hp : h.pop q = some (y, q')) :
    x ∈ q ↔ x = y ∨ x ∈ q' := by
  rw [(h.pop_perm q y q' hp).mem_iff, List.mem_cons]

/-- Following predecessors from a node until there is none, `l` are the edges in this order. -/
inductive Chain (pred : Nat → Option Nat) (tail : Nat → Nat) : Nat → List Nat → Prop where
  | nil {v : Nat} : pred v = none → Chain pred tail v []
  | cons {v e : Nat} {l : List Nat} : pred v = some e → Chain pred tail (tail e) l →
      Chain pred tail v (e :: l)

theorem Chain.unique {pred : Nat → Option Nat} {tail : Nat → Nat} {v : Nat} {l l' : List Nat}
    (h : Chain pred tail v l) (h' : Chain pred tail v l') : l = l' := by
  induction h generalizing l' with
  | nil hp =>
    cases h' with
    | nil => rfl
    | cons hp' _ => rw [hp] at hp'; cases hp'
  | cons hp _ ih =>
    cases h' with
    | nil hp' => rw [hp] at hp'; cases hp'
    | cons hp' h' =>
      rw [hp] at hp'
      cases hp'
      rw [ih h']

/-- Routes over arcs. -/
def IsRt (out : Nat → List (Arc K)) : Nat → List (Arc K) → Nat → Prop
  | u, [], v => u = v
  | u, t :: ts, v => t ∈ out u ∧ IsRt out t.2.1 ts v

/-- Costs of arcs summed up from the start. -/
def costFrom (x : K) (ts : List (Arc K)) : K := ts.foldl (fun y t => y + t.2.2) x

theorem isRt_append {out : Nat → List (Arc K)} {u v : Nat} {l l' : List (Arc K)} :
    IsRt out u (l ++ l') v ↔ ∃ m, IsRt out u l m ∧ IsRt out m l' v := by
  induction l generalizing u with
  | nil => simp [IsRt]
  | cons t l ih => simp [IsRt, ih, and_assoc]

theorem costFrom_append (x : K) (l l' : List (Arc K)) :
    costFrom x (l ++ l') = costFrom (costFrom x l) l' := by
  simp [costFrom, List.foldl_append]

/-- The invariants. -/
structure Inv1 (c : Cfg K) (tail : Dir → Nat → Nat) (a : A K) (best : Best K) : Prop where
  root : ∀ d, a.lab d (c.root d) = some 0
  nonneg : ∀ d v x, a.lab d v = some x → 0 ≤ x
  rootpred : ∀ d, a.pred d (c.root d) = none
  pred : ∀ d v x, a.lab d v = some x → v = c.root d ∨
    ∃ e u w y, a.pred d v = some e ∧ (e, v, w) ∈ c.out d u ∧ a.lab d u = some y ∧ y + w ≤ x
  predlab : ∀ d v e, a.pred d v = some e → ∃ x, a.lab d v = some x
  queue : ∀ x ∈ a.queue, ∃ y, a.lab x.dir x.idx = some y ∧ y ≤ x.cost
  vis : ∀ d v, a.vis d v = true → ∃ x, a.lab d v = some x
  chain : ∀ d v x, a.lab d v = some x → ∃ l, Chain (a.pred d) (tail d) v l
  best : ∀ m b, best = some (m, b) → ∃ t x y, b = some t ∧ a.lab .fwd m = some x ∧
    a.lab .bwd m = some y ∧ x + y ≤ t

variable {tail : Dir → Nat → Nat}

/-- A new predecessor at a node whose label is above a node's label does not change that node's chain. -/
theorem Inv1.chain_keep {a : A K} {best : Best K} (hk : AddOk K) (ho : OutOk c tail)
    (hi : Inv1 c tail a best) {d : Dir} {u : Nat} {l : List Nat} (h : Chain (a.pred d) (tail d) u l)
    {y : K} (hy : a.lab d u = some y) {v e : Nat} (hv : ∀ z, a.lab d v = some z → y < z) :
    Chain (upd a.pred d v (some e) d) (tail d) u l := by
  induction h generalizing y with
  | @nil u hp =>
    refine Chain.nil ?_
    rw [upd_other _ _ (by rintro ⟨_, rfl⟩; exact lt_irrefl _ (hv _ hy))]
    exact hp
  | @cons u e' l hp h ih =>
    refine Chain.cons (e := e') ?_ ?_
    · rw [upd_other _ _ (by rintro ⟨_, rfl⟩; exact lt_irrefl _ (hv _ hy))]
      exact hp
    · rcases hi.pred d u y hy with rfl | ⟨e1, u1, w, y1, h1, h2, h3, h4⟩
      · rw [hi.rootpred] at hp; cases hp
      · rw [hp] at h1
        cases h1
        have ht := ho.tail _ _ _ h2
        simp only at ht
        rw [ht] at ih ⊢
        refine ih h3 (fun z hz => lt_of_le_of_lt ?_ (hv z hz))
        exact le_trans (hk.infl y1 w (ho.nonneg _ _ _ h2)) h4

theorem chain_upd {pred : Dir → Nat → Option Nat} {d : Dir} {v e : Nat} {lv : List Nat}
    (hv : Chain (upd pred d v (some e) d) (tail d) v lv) {u : Nat} {l : List Nat}
    (h : Chain (pred d) (tail d) u l) : ∃ l', Chain (upd pred d v (some e) d) (tail d) u l' := by
  induction h with
  | @nil u hp =>
    by_cases huv : u = v
    · subst huv; exact ⟨_, hv⟩
    · exact ⟨[], .nil (by rw [upd_other _ _ (by rintro ⟨_, h⟩; exact huv h)]; exact hp)⟩
  | @cons u e' l hp h ih =>
    by_cases huv : u = v
    · subst huv; exact ⟨_, hv⟩
    · obtain ⟨l', hl'⟩ := ih
      exact ⟨e' :: l', .cons (by rw [upd_other _ _ (by rintro ⟨_, h⟩; exact huv h)]; exact hp) hl'⟩

/-- Relaxing an edge of a node labelled with the popped cost. -/
theorem Inv1.relax1 {a : A K} {best : Best K} (hk : AddOk K) (ho : OutOk c tail)
    (hi : Inv1 c tail a best) {isNone : Bool} {cur : CN K} {t : Arc K}
    (ht : t ∈ c.out cur.dir cur.idx) (hc : a.lab cur.dir cur.idx = some cur.cost) :
    Inv1 c tail (relax1 c isNone cur a t) best ∧
      (Search.relax1 c isNone cur a t).lab cur.dir cur.idx = some cur.cost := by
  unfold Search.relax1
  split
  swap
  · exact ⟨hi, hc⟩
  rename_i hlt
  rw [ltInf_iff] at hlt
  obtain ⟨e, v, w⟩ := t
  simp only at hlt ⊢
  have hw := ho.nonneg _ _ _ ht
  simp only at hw
  have hin := hk.infl cur.cost w hw
  have hcur : cur.idx ≠ v := by
    rintro rfl
    exact absurd (hlt _ hc) (not_lt.mpr hin)
  have hroot : ∀ d, ¬ (c.root d = v ∧ d = cur.dir) := by
    rintro d ⟨rfl, rfl⟩
    exact absurd (hlt _ (hi.root _))
      (not_lt.mpr (le_trans (hi.nonneg _ _ _ hc) hin))
  have hle : ∀ d u y, a.lab d u = some y →
      ∃ y', upd a.lab cur.dir v (some (cur.cost + w)) d u = some y' ∧ y' ≤ y := by
    intro d u y hy
    by_cases h : d = cur.dir ∧ u = v
    · obtain ⟨rfl, rfl⟩ := h
      exact ⟨_, upd_same _ _ _ _, le_of_lt (hlt _ hy)⟩
    · exact ⟨y, by rw [upd_other _ _ h]; exact hy, le_refl _⟩
  refine ⟨{
    root := ?_, nonneg := ?_, rootpred := ?_, pred := ?_, predlab := ?_, queue := ?_, vis := ?_,
    chain := ?_, best := ?_ }, ?_⟩
  · intro d
    simp only
    rw [upd_other _ _ (fun h => hroot d ⟨h.2, h.1⟩)]
    exact hi.root d
  · intro d u x hx
    simp only at hx
    by_cases h : d = cur.dir ∧ u = v
    · obtain ⟨rfl, rfl⟩ := h
      rw [upd_same] at hx
      cases hx
      exact le_trans (hi.nonneg _ _ _ hc) hin
    · rw [upd_other _ _ h] at hx
      exact hi.nonneg _ _ _ hx
  · intro d
    simp only
    rw [upd_other _ _ (fun h => hroot d ⟨h.2, h.1⟩)]
    exact hi.rootpred d
  · intro d u x hx
    simp only at hx ⊢
    by_cases h : d = cur.dir ∧ u = v
    · obtain ⟨rfl, rfl⟩ := h
      rw [upd_same] at hx
      cases hx
      refine Or.inr ⟨e, cur.idx, w, cur.cost, upd_same _ _ _ _, ht, ?_, le_refl _⟩
      rw [upd_other _ _ (fun h => hcur h.2)]
      exact hc
    · rw [upd_other _ _ h] at hx
      rcases hi.pred d u x hx with h1 | ⟨e1, u1, w1, y1, h1, h2, h3, h4⟩
      · exact Or.inl h1
      · obtain ⟨y', hy', hyle⟩ := hle d u1 y1 h3
        refine Or.inr ⟨e1, u1, w1, y', ?_, h2, hy', le_trans (hk.mono _ _ _ hyle) h4⟩
        rw [upd_other _ _ h]
        exact h1
  · intro d u e' he
    simp only at he ⊢
    by_cases h : d = cur.dir ∧ u = v
    · obtain ⟨rfl, rfl⟩ := h
      exact ⟨_, upd_same _ _ _ _⟩
    · rw [upd_other _ _ h] at he ⊢
      exact hi.predlab d u e' he
  · intro x hx
    simp only at hx ⊢
    have hold : x ∈ a.queue → ∃ y, upd a.lab cur.dir v (some (cur.cost + w)) x.dir x.idx = some y ∧
        y ≤ x.cost := by
      intro hx
      obtain ⟨y, hy, hyle⟩ := hi.queue x hx
      obtain ⟨y', hy', h'⟩ := hle _ _ _ hy
      exact ⟨y', hy', le_trans h' hyle⟩
    split at hx
    · rw [mem_push] at hx
      rcases hx with rfl | hx
      · exact ⟨_, upd_same _ _ _ _, le_refl _⟩
      · exact hold hx
    · exact hold hx
  · intro d u hu
    obtain ⟨y, hy⟩ := hi.vis d u hu
    obtain ⟨y', hy', _⟩ := hle _ _ _ hy
    exact ⟨y', hy'⟩
  · intro d u x hx
    simp only at hx ⊢
    by_cases hd : d = cur.dir
    · subst hd
      obtain ⟨lc, hlc⟩ := hi.chain _ _ _ hc
      have h1 : Chain (upd a.pred cur.dir v (some e) cur.dir) (tail cur.dir) v (e :: lc) := by
        refine Chain.cons (upd_same _ _ _ _) ?_
        have := ho.tail _ _ _ ht
        simp only at this
        rw [this]
        exact hi.chain_keep hk ho hlc hc (fun z hz => lt_of_le_of_lt hin (hlt z hz))
      by_cases huv : u = v
      · subst huv; exact ⟨_, h1⟩
      · rw [upd_other _ _ (fun h => huv h.2)] at hx
        obtain ⟨l, hl⟩ := hi.chain _ _ _ hx
        exact chain_upd h1 hl
    · have hx' : a.lab d u = some x := by
        rwa [upd_other _ _ (fun h => hd h.1)] at hx
      have : upd a.pred cur.dir v (some e) d = a.pred d := by
        funext z
        exact upd_other _ _ (fun h => hd h.1)
      rw [this]
      exact hi.chain _ _ _ hx'
  · intro m b hb
    obtain ⟨t, x, y, h1, h2, h3, h4⟩ := hi.best m b hb
    obtain ⟨x', hx', hxle⟩ := hle _ _ _ h2
    obtain ⟨y', hy', hyle⟩ := hle _ _ _ h3
    exact ⟨t, x', y', h1, hx', hy',
      le_trans (le_trans (hk.mono _ _ _ hxle) (hk.mono' _ _ _ hyle)) h4⟩
  · rw [upd_other _ _ (fun h => hcur h.2)]
    exact hc

/-- Lifts a property of single relaxations to the loop over the leaving edges. -/
theorem relaxAll_induct {P : A K → Prop} {isNone : Bool} {cur : CN K} {l : List (Arc K)}
    (h : ∀ a t, t ∈ l → P a → P (Search.relax1 c isNone cur a t)) {a : A K} (ha : P a) :
    P (relaxAll c isNone cur l a) := by
  unfold relaxAll
  induction l generalizing a with
  | nil => exact ha
  | cons t l ih =>
    exact ih (fun a t' ht' => h a t' (List.mem_cons_of_mem _ ht')) (h a t List.mem_cons_self ha)

theorem Inv1.relaxAll {a : A K} {best : Best K} (hk : AddOk K) (ho : OutOk c tail)
    (hi : Inv1 c tail a best) {isNone : Bool} {cur : CN K}
    (hc : a.lab cur.dir cur.idx = some cur.cost) :
    Inv1 c tail (relaxAll c isNone cur (c.out cur.dir cur.idx) a) best ∧
      (Search.relaxAll c isNone cur (c.out cur.dir cur.idx) a).lab cur.dir cur.idx
        = some cur.cost := by
  refine relaxAll_induct (P := fun a => Inv1 c tail a best ∧ a.lab cur.dir cur.idx = some cur.cost)
    ?_ ⟨hi, hc⟩
  rintro a t ht ⟨h1, h2⟩
  exact h1.relax1 hk ho ht h2

theorem Inv1.visit {a : A K} {best : Best K} (hi : Inv1 c tail a best) {cur : CN K}
    (hc : a.lab cur.dir cur.idx = some cur.cost) : Inv1 c tail (visitA c a cur) best := by
  unfold visitA
  split
  · exact hi
  · refine {
      root := hi.root, nonneg := hi.nonneg, rootpred := hi.rootpred, pred := hi.pred,
      predlab := hi.predlab, queue := hi.queue, vis := ?_, chain := hi.chain, best := hi.best }
    intro d v hv
    simp only at hv
    by_cases h : d = cur.dir ∧ v = cur.idx
    · obtain ⟨rfl, rfl⟩ := h
      exact ⟨_, hc⟩
    · rw [upd_other _ _ h] at hv
      exact hi.vis d v hv

theorem visitA_lab (a : A K) (cur : CN K) : (visitA c a cur).lab = a.lab := by
  unfold visitA; split <;> rfl
theorem visitA_pred (a : A K) (cur : CN K) : (visitA c a cur).pred = a.pred := by
  unfold visitA; split <;> rfl
theorem visitA_queue (a : A K) (cur : CN K) : (visitA c a cur).queue = a.queue := by
  unfold visitA; split <;> rfl
theorem visitA_flag (a : A K) (cur : CN K) : (visitA c a cur).flag = a.flag := by
  unfold visitA; split <;> rfl

theorem Inv1.setFlag {a : A K} {best : Best K} (hi : Inv1 c tail a best) (f : Dir → Bool) :
    Inv1 c tail { a with flag := f } best :=
  { root := hi.root, nonneg := hi.nonneg, rootpred := hi.rootpred, pred := hi.pred,
    predlab := hi.predlab, queue := hi.queue, vis := hi.vis, chain := hi.chain, best := hi.best }

theorem Inv1.setQueue {a : A K} {best : Best K} (hi : Inv1 c tail a best) {q : List (CN K)}
    (hq : ∀ x ∈ q, x ∈ a.queue) : Inv1 c tail { a with queue := q } best :=
  { root := hi.root, nonneg := hi.nonneg, rootpred := hi.rootpred, pred := hi.pred,
    predlab := hi.predlab, queue := fun x hx => hi.queue x (hq x hx), vis := hi.vis,
    chain := hi.chain, best := hi.best }

theorem totalA_eq {a : A K} {i : Nat} {t : K} (h : totalA a i = some t) :
    ∃ x y, a.lab .fwd i = some x ∧ a.lab .bwd i = some y ∧ t = x + y := by
  unfold totalA at h
  cases h1 : a.lab .fwd i <;> cases h2 : a.lab .bwd i <;> simp [h1, h2, addInf] at h
  exact ⟨_, _, rfl, rfl, h.symm⟩

/-- A meeting node is labelled in both directions. -/
theorem Inv1.meets {a : A K} {best : Best K} (hi : Inv1 c tail a best) {cur : CN K}
    (hc : a.lab cur.dir cur.idx = some cur.cost) (hm : meetsA c a cur = true) :
    ∃ x y, a.lab .fwd cur.idx = some x ∧ a.lab .bwd cur.idx = some y := by
  have hopp : ∃ z, a.lab cur.dir.opp cur.idx = some z := by
    unfold meetsA at hm
    split at hm
    · exact Option.isSome_iff_exists.mp hm
    · exact hi.vis _ _ hm
  obtain ⟨z, hz⟩ := hopp
  cases hd : cur.dir with
  | fwd => rw [hd] at hc hz; exact ⟨_, _, hc, hz⟩
  | bwd => rw [hd] at hc hz; exact ⟨_, _, hz, hc⟩

theorem Inv1.newBest {a : A K} {best : Best K} (hi : Inv1 c tail a best) {cur : CN K}
    (hc : a.lab cur.dir cur.idx = some cur.cost) : Inv1 c tail a (newBest c a best cur) := by
  refine { root := hi.root, nonneg := hi.nonneg, rootpred := hi.rootpred, pred := hi.pred,
           predlab := hi.predlab, queue := hi.queue, vis := hi.vis, chain := hi.chain, best := ?_ }
  intro m b hb
  unfold Search.newBest at hb
  cases hbe : best with
  | some mb =>
    obtain ⟨m0, b0⟩ := mb
    rw [hbe] at hb
    simp only at hb
    split at hb
    · rename_i hlt
      cases hb
      obtain ⟨t, ht⟩ := ltInf_some hlt
      obtain ⟨x, y, hx, hy, rfl⟩ := totalA_eq ht
      exact ⟨_, x, y, ht, hx, hy, le_refl _⟩
    · cases hb
      exact hi.best m b hbe
  | none =>
    rw [hbe] at hb
    simp only at hb
    split at hb
    · rename_i hm
      cases hb
      obtain ⟨x, y, hx, hy⟩ := hi.meets hc hm
      exact ⟨x + y, x, y, by simp [totalA, hx, hy, addInf], hx, hy, le_refl _⟩
    · cases hb

/-- The popped node's label is the popped cost if it counts as improved. -/
theorem Inv1.popped {a : A K} {best : Best K} (hi : Inv1 c tail a best) {cur : CN K}
    {q : List (CN K)} (hp : c.h.pop a.queue = some (cur, q))
    (hl : leInf cur.cost (a.lab cur.dir cur.idx) = true) :
    a.lab cur.dir cur.idx = some cur.cost := by
  obtain ⟨y, hy, hle⟩ := hi.queue cur ((mem_pop hp).mpr (Or.inl rfl))
  rw [leInf_iff] at hl
  rw [hy, le_antisymm hle (hl y hy)]

theorem Inv1.step {a : A K} {best : Best K} (hk : AddOk K) (ho : OutOk c tail)
    (hi : Inv1 c tail a best) {cur : CN K} {q : List (CN K)}
    (hp : c.h.pop a.queue = some (cur, q)) {a' : A K} {best' : Best K}
    (hs : stepA c { a with queue := q } best cur = .go a' best') : Inv1 c tail a' best' := by
  have hq : Inv1 c tail { a with queue := q } best :=
    hi.setQueue (fun x hx => (mem_pop hp).mpr (Or.inr hx))
  obtain ⟨_, h | h | h⟩ := stepA_go c hs
  · obtain ⟨_, rfl, rfl⟩ := h
    exact hq
  · obtain ⟨hl, _, rfl, rfl⟩ := h
    exact (hq.visit (hi.popped hp hl)).setFlag _
  · obtain ⟨hl, _, hb, rfl⟩ := h
    have hc := hi.popped hp hl
    rw [hb]
    exact ((hq.visit hc).newBest (by rw [visitA_lab]; exact hc)).relaxAll hk ho
      (by rw [visitA_lab]; exact hc) |>.1

theorem Inv1.init : Inv1 c tail (initA c) none := by
  have hlab : ∀ d v x, (initA c).lab d v = some x → v = c.root d ∧ x = 0 := by
    intro d v x h
    simp only [initA, upd] at h
    cases d
    · simp only [reduceCtorEq, false_and, if_false] at h
      split at h
      · rename_i h1
        cases h
        exact ⟨h1.2, rfl⟩
      · cases h
    · simp only [reduceCtorEq, false_and, if_false] at h
      split at h
      · rename_i h1
        cases h
        exact ⟨h1.2, rfl⟩
      · cases h
  have hroot : ∀ d, (initA c).lab d (c.root d) = some 0 := by
    intro d; cases d <;> simp [initA, upd, Cfg.root]
  refine {
    root := hroot
    nonneg := ?_
    rootpred := fun _ => rfl
    pred := fun d v x h => Or.inl (hlab d v x h).1
    predlab := by intro d v e h; cases h
    queue := ?_
    vis := by intro d v h; cases h
    chain := fun d v x _ => ⟨[], .nil rfl⟩
    best := by intro m b h; cases h }
  · intro d v x h
    rw [(hlab d v x h).2]
  · intro x hx
    simp only [initA] at hx
    rw [mem_push, mem_push] at hx
    rcases hx with rfl | rfl | hx
    · exact ⟨0, hroot .bwd, le_refl _⟩
    · exact ⟨0, hroot .fwd, le_refl _⟩
    · cases hx

/-- The invariants hold in the end. -/
theorem inv1_final (hk : AddOk K) (ho : OutOk c tail) {fuel : Nat} {a : A K} {best : Best K}
    (h : loopA c fuel (initA c) none = some (a, best)) : Inv1 c tail a best := by
  obtain ⟨a0, hi, h | ⟨_, _, cur, q, hp, rfl⟩⟩ := loopA_induct c (Inv := Inv1 c tail)
    (fun a best cur q a' best' hi hp hs => hi.step hk ho hp hs) Inv1.init h
  · rw [h.2]; exact hi
  · exact hi.setQueue (fun x hx => (mem_pop hp).mpr (Or.inr hx))

/-- The chain of a labelled node, read from the root, is a route that costs at most its label. -/
theorem Inv1.chain_route {a : A K} {best : Best K} (hk : AddOk K) (ho : OutOk c tail)
    (hi : Inv1 c tail a best) {d : Dir} {v : Nat} {l : List Nat}
    (h : Chain (a.pred d) (tail d) v l) {x : K} (hx : a.lab d v = some x) :
    ∃ ts, ts.map (·.1) = l.reverse ∧ IsRt (c.out d) (c.root d) ts v ∧ costFrom 0 ts ≤ x := by
  induction h generalizing x with
  | @nil v hp =>
    rcases hi.pred d v x hx with rfl | ⟨e, u, w, y, h1, _⟩
    · exact ⟨[], rfl, rfl, hi.nonneg _ _ _ hx⟩
    · rw [hp] at h1; cases h1
  | @cons v e l hp h ih =>
    rcases hi.pred d v x hx with rfl | ⟨e', u, w, y, h1, h2, h3, h4⟩
    · rw [hi.rootpred] at hp; cases hp
    · rw [hp] at h1
      cases h1
      have ht := ho.tail _ _ _ h2
      simp only at ht
      rw [ht] at ih
      obtain ⟨ts, h5, h6, h7⟩ := ih h3
      refine ⟨ts ++ [(e, v, w)], by simp [h5], ?_, ?_⟩
      · exact isRt_append.mpr ⟨u, h6, h2, rfl⟩
      · rw [costFrom_append]
        exact le_trans (hk.mono _ _ _ h7) h4

end
end Verif.Search
