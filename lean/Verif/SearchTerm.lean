import Verif.SearchOpt
import Mathlib.Algebra.BigOperators.Group.Finset.Basic
import Mathlib.Algebra.Order.BigOperators.Group.Finset
import Mathlib.Data.Finset.Max
import Mathlib.Data.List.Perm.Subperm

/-!
# Termination of the search, and existence of optimal routes
-/

namespace Verif.Search

set_option linter.unusedSectionVars false

open Dij

/-- All lists over `E` of length at most `n`. -/
def walks {α : Type} (E : List α) : Nat → List (List α)
  | 0 => [[]]
  | n + 1 => [] :: E.flatMap (fun t => (walks E n).map (t :: ·))

theorem mem_walks {α : Type} {E : List α} {n : Nat} {l : List α} (hl : ∀ t ∈ l, t ∈ E)
    (hn : l.length ≤ n) : l ∈ walks E n := by
  induction n generalizing l with
  | zero =>
    have : l = [] := List.length_eq_zero_iff.mp (by omega)
    simp [walks, this]
  | succ n ih =>
    cases l with
    | nil => simp [walks]
    | cons t l =>
      simp only [walks, List.mem_cons, List.mem_flatMap, List.mem_map]
      right
      exact ⟨t, hl t List.mem_cons_self, l,
        ih (fun t' h => hl t' (List.mem_cons_of_mem _ h)) (by simpa using hn), rfl⟩

theorem length_le_of_nodup_lt {l : List Nat} {n : Nat} (hnd : l.Nodup) (hlt : ∀ v ∈ l, v < n) :
    l.length ≤ n := by
  have h : l ⊆ List.range n := fun v hv => List.mem_range.mpr (hlt v hv)
  simpa using (List.subperm_of_subset hnd h).length_le

section
variable {K : Type} [LinearOrder K] [Zero K] [Add K] {c : Cfg K} {tail : Dir → Nat → Nat} {n : Nat}

/-- All nodes are less than `n`. -/
structure FinOk (c : Cfg K) (n : Nat) : Prop where
  arcs : ∀ d u t, t ∈ c.out d u → u < n ∧ t.2.1 < n
  roots : ∀ d, c.root d < n

/-- All arcs. -/
def allArcs (c : Cfg K) (n : Nat) : List (Arc K) :=
  (List.range n).flatMap (fun u => c.out .fwd u ++ c.out .bwd u)

theorem mem_allArcs (hf : FinOk c n) {d : Dir} {u : Nat} {t : Arc K} (h : t ∈ c.out d u) :
    t ∈ allArcs c n := by
  simp only [allArcs, List.mem_flatMap, List.mem_range, List.mem_append]
  refine ⟨u, (hf.arcs d u t h).1, ?_⟩
  cases d
  · exact Or.inl h
  · exact Or.inr h

theorem isRt_arcs (hf : FinOk c n) {d : Dir} {u v : Nat} {l : List (Arc K)}
    (h : IsRt (c.out d) u l v) : ∀ t ∈ l, t ∈ allArcs c n ∧ t.2.1 < n := by
  induction l generalizing u with
  | nil => intro t ht; cases ht
  | cons t l ih =>
    intro t' ht'
    rcases List.mem_cons.mp ht' with rfl | ht'
    · exact ⟨mem_allArcs hf h.1, (hf.arcs _ _ _ h.1).2⟩
    · exact ih h.2 t' ht'

theorem simple_mem_walks (hf : FinOk c n) {d : Dir} {u v : Nat} (hu : u < n) {l : List (Arc K)}
    (h : IsRt (c.out d) u l v) (hnd : (u :: l.map (·.2.1)).Nodup) : l ∈ walks (allArcs c n) n := by
  refine mem_walks (fun t ht => (isRt_arcs hf h t ht).1) ?_
  have := length_le_of_nodup_lt hnd (n := n) (by
    intro x hx
    rcases List.mem_cons.mp hx with rfl | hx
    · exact hu
    · obtain ⟨t, ht, rfl⟩ := List.mem_map.mp hx
      exact (isRt_arcs hf h t ht).2)
  simp only [List.length_cons, List.length_map] at this
  omega

/-! ## Any queue -/

/-- The walk that led to a queue entry. -/
def Hist (c : Cfg K) (a : A K) (x : CN K) : Prop :=
  ∃ ts, IsRt (c.out x.dir) (c.root x.dir) ts x.idx ∧ costFrom 0 ts = x.cost ∧
    (c.root x.dir :: ts.map (·.2.1)).Nodup ∧
    ∀ p t s, ts = p ++ t :: s → ∃ y, a.lab x.dir t.2.1 = some y ∧ y ≤ costFrom 0 (p ++ [t])

theorem Hist.mono {a a' : A K} {x : CN K} (h : Hist c a x)
    (hle : ∀ d v x, a.lab d v = some x → ∃ y, a'.lab d v = some y ∧ y ≤ x) : Hist c a' x := by
  obtain ⟨ts, h1, h2, h3, h4⟩ := h
  refine ⟨ts, h1, h2, h3, fun p t s hp => ?_⟩
  obtain ⟨y, hy, hyle⟩ := h4 p t s hp
  obtain ⟨z, hz, hzy⟩ := hle _ _ _ hy
  exact ⟨z, hz, le_trans hzy hyle⟩

theorem costFrom_le (hk : AddOk K) (ho : OutOk c tail) {d : Dir} {u v : Nat} {l : List (Arc K)} {p : K}
    (h : IsRt (c.out d) u l v) : p ≤ costFrom p l := by
  induction l generalizing u p with
  | nil => exact le_refl _
  | cons t l ih => exact le_trans (hk.infl _ _ (ho.nonneg _ _ _ h.1)) (ih h.2)

/-- Number of walk costs below a label. -/
def cnt (V : List K) (o : Option K) : Nat := (V.filter (fun x => ltInf (some x) o)).length

theorem cnt_le (V : List K) {x : K} {o : Option K} (h : ∀ y, o = some y → x ≤ y) :
    cnt V (some x) ≤ cnt V o := by
  unfold cnt
  refine List.Sublist.length_le (List.monotone_filter_right V ?_)
  intro z hz
  rw [ltInf_iff] at hz ⊢
  intro y hy
  exact lt_of_lt_of_le (hz x rfl) (h y hy)

theorem cnt_lt (V : List K) {x : K} {o : Option K} (hx : x ∈ V) (h : ∀ y, o = some y → x < y) :
    cnt V (some x) < cnt V o := by
  unfold cnt
  induction V with
  | nil => cases hx
  | cons z V ih =>
    have hle := cnt_le V (x := x) (o := o) (fun y hy => le_of_lt (h y hy))
    unfold cnt at hle
    rw [List.filter_cons, List.filter_cons]
    rcases List.mem_cons.mp hx with rfl | hx
    · have h1 : ltInf (some x) (some x) = false := by simp [ltInf]
      have h2 : ltInf (some x) o = true := ltInf_iff.mpr h
      rw [h1, h2]
      simp only [Bool.false_eq_true, if_false, if_true, List.length_cons]
      omega
    · have := ih hx
      by_cases h1 : ltInf (some z) (some x) = true
      · have h2 : ltInf (some z) o = true := by
          rw [ltInf_iff] at h1 ⊢
          exact fun y hy => lt_trans (h1 x rfl) (h y hy)
        rw [h1, h2]
        simp only [if_true, List.length_cons]
        omega
      · rw [if_neg h1]
        split
        · simp only [List.length_cons]; omega
        · exact this

/-- Pairs of directions and nodes. -/
def places (n : Nat) : Finset (Dir × Nat) := ({Dir.fwd, Dir.bwd} : Finset Dir) ×ˢ Finset.range n

theorem mem_places {d : Dir} {v : Nat} (h : v < n) : (d, v) ∈ places n := by
  simp only [places, Finset.mem_product, Finset.mem_insert, Finset.mem_singleton, Finset.mem_range]
  exact ⟨by cases d <;> simp, h⟩

/-- The potential. -/
def pot (V : List K) (n : Nat) (a : A K) : Nat :=
  a.queue.length + ∑ p ∈ places n, cnt V (a.lab p.1 p.2)

/-- Costs of all walks without repeated nodes (and others). -/
def vals (c : Cfg K) (n : Nat) : List K := (walks (allArcs c n) n).map (costFrom 0)

theorem relax1_term (hk : AddOk K) (ho : OutOk c tail) (hf : FinOk c n) {a : A K} {best : Best K}
    (hi : Inv1 c tail a best) {isNone : Bool} {cur : CN K} {t : Arc K}
    (ht : t ∈ c.out cur.dir cur.idx) (hc : a.lab cur.dir cur.idx = some cur.cost)
    (hh : Hist c a cur) (hq : ∀ x ∈ a.queue, Hist c a x) :
    (Hist c (relax1 c isNone cur a t) cur ∧
      ∀ x ∈ (relax1 c isNone cur a t).queue, Hist c (relax1 c isNone cur a t) x) ∧
    pot (vals c n) n (relax1 c isNone cur a t) ≤ pot (vals c n) n a := by
  have hle : ∀ d v x, a.lab d v = some x → ∃ y, (relax1 c isNone cur a t).lab d v = some y ∧ y ≤ x :=
    (relaxAll_relaxed (c := c) isNone cur [t] a).lab_le
  have hh' := hh.mono hle
  have hq' : ∀ x ∈ a.queue, Hist c (relax1 c isNone cur a t) x := fun x hx => (hq x hx).mono hle
  revert hh' hq' hle
  unfold relax1
  split
  swap
  · intro _ hh' hq'; exact ⟨⟨hh', hq'⟩, le_refl _⟩
  rename_i hlt
  rw [ltInf_iff] at hlt
  intro hle hh' hq'
  obtain ⟨e, v, w⟩ := t
  simp only at hlt hle hh' hq' ⊢
  have hin := hk.infl cur.cost w (ho.nonneg _ _ _ ht)
  obtain ⟨ts, h1, h2, h3, h4⟩ := hh
  have hv : v ∉ c.root cur.dir :: ts.map (·.2.1) := by
    intro hmem
    rcases List.mem_cons.mp hmem with h | hmem
    · rw [h] at hlt
      exact absurd (hlt _ (hi.root _)) (not_lt.mpr (le_trans (hi.nonneg _ _ _ hc) hin))
    · obtain ⟨t, ht', rfl⟩ := List.mem_map.mp hmem
      obtain ⟨p, s, hps⟩ := List.append_of_mem ht'
      obtain ⟨y, hy, hyle⟩ := h4 p t s hps
      have : costFrom 0 (p ++ [t]) ≤ cur.cost := by
        rw [← h2, hps, show p ++ t :: s = (p ++ [t]) ++ s by simp, costFrom_append 0 (p ++ [t]) s]
        have hr := h1
        rw [hps, show p ++ t :: s = (p ++ [t]) ++ s by simp, isRt_append] at hr
        obtain ⟨m, _, hr⟩ := hr
        exact costFrom_le hk ho hr
      exact absurd (hlt _ hy) (not_lt.mpr (le_trans hyle (le_trans this hin)))
  have hrt : IsRt (c.out cur.dir) (c.root cur.dir) (ts ++ [(e, v, w)]) v :=
    isRt_append.mpr ⟨_, h1, ht, rfl⟩
  have hcost : costFrom 0 (ts ++ [(e, v, w)]) = cur.cost + w := by
    rw [costFrom_append, h2]; rfl
  have hnd : (c.root cur.dir :: (ts ++ [(e, v, w)]).map (·.2.1)).Nodup := by
    rw [List.map_append, ← List.cons_append]
    refine List.nodup_append.mpr ⟨h3, by simp, ?_⟩
    intro x hx y hy
    simp only [List.map_cons, List.map_nil, List.mem_singleton] at hy
    subst hy
    rintro rfl
    exact hv hx
  refine ⟨⟨hh', ?_⟩, ?_⟩
  · intro x hx
    split at hx
    · rw [mem_push] at hx
      rcases hx with rfl | hx
      · refine ⟨ts ++ [(e, v, w)], hrt, hcost, hnd, fun p t s hps => ?_⟩
        rcases List.append_eq_append_iff.mp hps with ⟨as, h5, h6⟩ | ⟨bs, h5, h6⟩
        · -- the split lies at the end
          cases as with
          | nil =>
            simp only [List.nil_append, List.cons.injEq] at h6
            obtain ⟨rfl, rfl⟩ := h6
            refine ⟨_, upd_same _ _ _ _, ?_⟩
            simp only [List.append_nil] at h5
            rw [h5, hcost]
          | cons _ _ =>
            exfalso
            have := congrArg List.length h6
            simp at this
        · cases bs with
          | nil =>
            simp only [List.nil_append, List.cons.injEq] at h6
            obtain ⟨rfl, rfl⟩ := h6
            refine ⟨_, upd_same _ _ _ _, ?_⟩
            simp only [List.append_nil] at h5
            rw [← h5, hcost]
          | cons b bs =>
            simp only [List.cons_append, List.cons.injEq] at h6
            obtain ⟨rfl, rfl⟩ := h6
            obtain ⟨y, hy, hyle⟩ := h4 p t bs h5
            obtain ⟨z, hz, hzy⟩ := hle _ _ _ hy
            exact ⟨z, hz, le_trans hzy hyle⟩
      · exact hq' x hx
    · exact hq' x hx
  · have hV : cur.cost + w ∈ vals c n := by
      rw [← hcost]
      exact List.mem_map_of_mem (simple_mem_walks hf (hf.roots _) hrt hnd)
    have hvn : v < n := (hf.arcs _ _ _ ht).2
    unfold pot
    have hsum : ∑ p ∈ places n, cnt (vals c n) (upd a.lab cur.dir v (some (cur.cost + w)) p.1 p.2) <
        ∑ p ∈ places n, cnt (vals c n) (a.lab p.1 p.2) := by
      refine Finset.sum_lt_sum ?_ ⟨(cur.dir, v), mem_places hvn, ?_⟩
      · rintro ⟨d, u⟩ _
        simp only [upd]
        split
        · rename_i h
          obtain ⟨rfl, rfl⟩ := h
          exact le_of_lt (cnt_lt _ hV hlt)
        · exact le_refl _
      · simp only [upd_same]
        exact cnt_lt _ hV hlt
    simp only
    have hlen : (if (c.isCh || isNone) = true then
        c.h.push a.queue { idx := v, cost := cur.cost + w, dir := cur.dir } else a.queue).length ≤
        a.queue.length + 1 := by
      split
      · rw [(c.h.push_perm _ _).length_eq]; simp
      · omega
    omega

theorem step_term (hk : AddOk K) (ho : OutOk c tail) (hf : FinOk c n) {a : A K} {best : Best K}
    (hi : Inv1 c tail a best) (hq : ∀ x ∈ a.queue, Hist c a x) {cur : CN K} {q : List (CN K)}
    (hp : c.h.pop a.queue = some (cur, q)) {a' : A K} {best' : Best K}
    (hs : stepA c { a with queue := q } best cur = .go a' best') :
    (∀ x ∈ a'.queue, Hist c a' x) ∧ pot (vals c n) n a' < pot (vals c n) n a := by
  have hlen : a.queue.length = q.length + 1 := by
    rw [(c.h.pop_perm _ _ _ hp).length_eq]; simp
  have hsub : ∀ x ∈ q, x ∈ a.queue := fun x hx => (mem_pop hp).mpr (Or.inr hx)
  obtain ⟨_, h | h | h⟩ := stepA_go c hs
  · obtain ⟨_, rfl, rfl⟩ := h
    refine ⟨fun x hx => hq x (hsub x hx), ?_⟩
    simp only [pot]; omega
  · obtain ⟨_, _, rfl, rfl⟩ := h
    refine ⟨fun x hx => ?_, ?_⟩
    · simp only [visitA_queue] at hx
      refine (hq x (hsub x hx)).mono ?_
      intro d v y hy
      exact ⟨y, by simp only [visitA_lab]; exact hy, le_refl _⟩
    · simp only [pot, visitA_queue, visitA_lab]; omega
  · obtain ⟨hl, _, hb, rfl⟩ := h
    have hc := hi.popped hp hl
    have hi1 : Inv1 c tail (visitA c { a with queue := q } cur) best' := by
      rw [hb]
      exact ((hi.setQueue hsub).visit hc).newBest (by rw [visitA_lab]; exact hc)
    have hm : ∀ x, Hist c a x → Hist c (visitA c { a with queue := q } cur) x := fun x hx => hx.mono (by
      intro d v y hy
      exact ⟨y, by simp only [visitA_lab]; exact hy, le_refl _⟩)
    have := relaxAll_induct (c := c) (isNone := best'.isNone) (cur := cur)
      (l := c.out cur.dir cur.idx)
      (P := fun b => (Inv1 c tail b best' ∧ b.lab cur.dir cur.idx = some cur.cost) ∧
        (Hist c b cur ∧ ∀ x ∈ b.queue, Hist c b x) ∧
        pot (vals c n) n b ≤ pot (vals c n) n (visitA c { a with queue := q } cur))
      (by
        rintro b t ht ⟨⟨h1, h2⟩, ⟨h3, h4⟩, h5⟩
        have := relax1_term hk ho hf h1 (isNone := best'.isNone) ht h2 h3 h4
        exact ⟨h1.relax1 hk ho ht h2, this.1, le_trans this.2 h5⟩)
      (a := visitA c { a with queue := q } cur)
      ⟨⟨hi1, by rw [visitA_lab]; exact hc⟩,
        ⟨hm _ (hq _ ((mem_pop hp).mpr (Or.inl rfl))), fun x hx => hm _ (hq _ (hsub x (by
          rw [visitA_queue] at hx; exact hx)))⟩, le_refl _⟩
    refine ⟨this.2.1.2, lt_of_le_of_lt this.2.2 ?_⟩
    simp only [pot, visitA_queue, visitA_lab]; omega

/-- The search terminates, whatever the order of the queue. -/
theorem terminates (hk : AddOk K) (ho : OutOk c tail) (hf : FinOk c n) :
    ∃ N, ∀ fuel, N ≤ fuel → ∃ r, loopA c fuel (initA c) none = some r := by
  refine ⟨pot (vals c n) n (initA c) + 1, fun fuel hfuel => ?_⟩
  refine loopA_terminates c (fun a _ => pot (vals c n) n a)
    (Inv := fun a best => Inv1 c tail a best ∧ ∀ x ∈ a.queue, Hist c a x)
    (fun a best cur q a' best' hi hp hs => ?_) ⟨Inv1.init, ?_⟩ (by omega)
  · have := step_term hk ho hf hi.1 hi.2 hp hs
    exact ⟨⟨hi.1.step hk ho hp hs, this.1⟩, this.2⟩
  · intro x hx
    rw [initA_queue] at hx
    rw [hx]
    exact ⟨[], rfl, rfl, by simp, by intro p t s h; simp at h⟩

/-! ## A bound on the number of iterations -/

/-- `loopA_terminates` with a ghost state. -/
theorem loopA_terminates_ghost {G : Type} {Inv : G → A K → Best K → Prop} (Φ : G → A K → Nat)
    (hstep : ∀ g a best cur q a' best', Inv g a best → c.h.pop a.queue = some (cur, q) →
      stepA c { a with queue := q } best cur = .go a' best' →
      ∃ g', Inv g' a' best' ∧ Φ g' a' < Φ g a)
    {fuel : Nat} {g : G} {a : A K} {best : Best K} (h0 : Inv g a best) (hf : Φ g a < fuel) :
    ∃ r, loopA c fuel a best = some r := by
  induction fuel generalizing g a best with
  | zero => omega
  | succ n ih =>
    unfold loopA
    cases hp : c.h.pop a.queue with
    | none => exact ⟨_, rfl⟩
    | some cq =>
      obtain ⟨cur, q⟩ := cq
      simp only
      cases hs : stepA c { a with queue := q } best cur with
      | stop a1 best1 => exact ⟨_, rfl⟩
      | go a1 best1 =>
        obtain ⟨g', h1, h2⟩ := hstep g a best cur q a1 best1 h0 hp hs
        exact ih h1 (by omega)

/-- Nodes are expanded at most once. -/
structure Inv5 (done : Dir → Nat → Bool) (a : A K) : Prop where
  nodup : a.queue.Nodup
  done : ∀ d v, done d v = true → ∃ x, a.lab d v = some x ∧ ∀ e ∈ a.queue, x ≤ e.cost ∧
    (e.dir = d → e.idx = v → x < e.cost)

/-- Number of leaving edges of what is not done yet, and the size of the queue. -/
def pot5 (c : Cfg K) (n : Nat) (done : Dir → Nat → Bool) (a : A K) : Nat :=
  a.queue.length + ∑ p ∈ places n, (if done p.1 p.2 then 0 else (c.out p.1 p.2).length)

theorem relax1_nodup {a : A K} {best : Best K} (hi : Inv1 c tail a best) {isNone : Bool} {cur : CN K}
    {t : Arc K} (hn : a.queue.Nodup) : (relax1 c isNone cur a t).queue.Nodup := by
  unfold relax1
  split
  swap
  · exact hn
  rename_i hlt
  rw [ltInf_iff] at hlt
  simp only
  split
  · rw [(c.h.push_perm _ _).nodup_iff]
    refine List.nodup_cons.mpr ⟨fun hmem => ?_, hn⟩
    obtain ⟨y, hy, hle⟩ := hi.queue _ hmem
    exact absurd (hlt y hy) (not_lt.mpr hle)
  · exact hn

theorem relaxAll_length {isNone : Bool} {cur : CN K} {l : List (Arc K)} {a : A K} :
    (relaxAll c isNone cur l a).queue.length ≤ a.queue.length + l.length := by
  unfold relaxAll
  induction l generalizing a with
  | nil => simp
  | cons t l ih =>
    refine le_trans ih ?_
    have : (relax1 c isNone cur a t).queue.length ≤ a.queue.length + 1 := by
      unfold relax1
      split
      · simp only
        split
        · rw [(c.h.push_perm _ _).length_eq]; simp
        · omega
      · omega
    simp only [List.length_cons]
    omega

theorem step_term5 (hk : AddOk K) (ho : OutOk c tail) (hroots : ∀ d, c.root d < n)
    (harcs : ∀ d u t, t ∈ c.out d u → t.2.1 < n) {a : A K} {best : Best K}
    (hi : Inv1 c tail a best) {done : Dir → Nat → Bool} (h5 : Inv5 done a) {cur : CN K}
    {q : List (CN K)} (hp : c.h.pop a.queue = some (cur, q)) (hmq : ∀ x ∈ q, cur.cost ≤ x.cost)
    {a' : A K} {best' : Best K} (hs : stepA c { a with queue := q } best cur = .go a' best') :
    ∃ done', Inv5 done' a' ∧ pot5 c n done' a' < pot5 c n done a := by
  have hperm := c.h.pop_perm _ _ _ hp
  have hlen : a.queue.length = q.length + 1 := by rw [hperm.length_eq]; simp
  have hsub : ∀ x ∈ q, x ∈ a.queue := fun x hx => (mem_pop hp).mpr (Or.inr hx)
  have hcq : cur ∈ a.queue := (mem_pop hp).mpr (Or.inl rfl)
  have hnd : (cur :: q).Nodup := (hperm.nodup_iff).mp h5.nodup
  have hndq := (List.nodup_cons.mp hnd).2
  obtain ⟨_, h | h | h⟩ := stepA_go c hs
  · obtain ⟨_, rfl, rfl⟩ := h
    refine ⟨done, { nodup := hndq, done := fun d v hd => ?_ }, by simp only [pot5]; omega⟩
    obtain ⟨x, hx, hall⟩ := h5.done d v hd
    exact ⟨x, hx, fun e he => hall e (hsub e he)⟩
  · obtain ⟨_, _, rfl, rfl⟩ := h
    refine ⟨done, { nodup := ?_, done := fun d v hd => ?_ }, by
      simp only [pot5, visitA_queue]; omega⟩
    · simp only [visitA_queue]; exact hndq
    · simp only [visitA_queue, visitA_lab]
      obtain ⟨x, hx, hall⟩ := h5.done d v hd
      exact ⟨x, hx, fun e he => hall e (hsub e he)⟩
  · obtain ⟨hl, _, hb, ha'⟩ := h
    have hc := hi.popped hp hl
    have hnotdone : done cur.dir cur.idx = false := by
      by_contra hcon
      obtain ⟨x, hx, hall⟩ := h5.done _ _ (by simpa using hcon)
      have := (hall cur hcq).2 rfl rfl
      rw [hc] at hx
      cases hx
      exact lt_irrefl _ this
    have hi1 : Inv1 c tail (visitA c { a with queue := q } cur) best' := by
      rw [hb]
      exact ((hi.setQueue hsub).visit hc).newBest (by rw [visitA_lab]; exact hc)
    have hr := relaxAll_relaxed (c := c) best'.isNone cur (c.out cur.dir cur.idx)
      (visitA c { a with queue := q } cur)
    have hnod := relaxAll_induct (c := c) (isNone := best'.isNone) (cur := cur)
      (l := c.out cur.dir cur.idx)
      (P := fun b => (Inv1 c tail b best' ∧ b.lab cur.dir cur.idx = some cur.cost) ∧ b.queue.Nodup)
      (by
        rintro b t ht ⟨⟨h1, h2⟩, h3⟩
        exact ⟨h1.relax1 hk ho ht h2, relax1_nodup h1 h3⟩)
      (a := visitA c { a with queue := q } cur)
      ⟨⟨hi1, by rw [visitA_lab]; exact hc⟩, by rw [visitA_queue]; exact hndq⟩
    have hlen' := relaxAll_length (c := c) (isNone := best'.isNone) (cur := cur)
      (l := c.out cur.dir cur.idx) (a := visitA c { a with queue := q } cur)
    rw [← ha'] at hr hnod hlen'
    rw [visitA_queue] at hlen'
    simp only at hlen'
    have hcurn : cur.idx < n := by
      rcases hi.pred _ _ _ hc with h | ⟨e, u, w, y, _, h, _⟩
      · rw [h]; exact hroots _
      · exact harcs _ _ _ h
    refine ⟨upd done cur.dir cur.idx true, { nodup := hnod.2, done := ?_ }, ?_⟩
    · intro d v hd
      have hnew : ∀ x, x ≤ cur.cost → a'.lab d v = some x →
          (∀ e ∈ q, e.dir = d → e.idx = v → x < e.cost) →
          ∃ x, a'.lab d v = some x ∧ ∀ e ∈ a'.queue, x ≤ e.cost ∧
            (e.dir = d → e.idx = v → x < e.cost) := by
        intro x hxc hx hall
        refine ⟨x, hx, fun e he => ?_⟩
        rcases hr.queue_new e he with h | ⟨t, ht, rfl, hlow⟩
        · rw [visitA_queue] at h
          exact ⟨le_trans hxc (hmq e h), hall e h⟩
        · refine ⟨le_trans hxc (hk.infl _ _ (ho.nonneg _ _ _ ht)), ?_⟩
          intro h1 h2
          exfalso
          simp only at h1 h2
          subst h1
          subst h2
          obtain ⟨y, hy, hyle⟩ := hr.arcs t ht
          -- the label would have been decreased below itself
          simp only [visitA_lab] at hlow
          rw [hx] at hy
          cases hy
          by_cases hcv : t.2.1 = cur.idx
          · rw [hcv] at hlow
            exact absurd (hlow _ hc) (not_lt.mpr (hk.infl _ _ (ho.nonneg _ _ _ ht)))
          · rw [upd_other _ _ (fun h => hcv h.2)] at hd
            obtain ⟨x0, hx0, hall0⟩ := h5.done _ _ hd
            exact absurd (hlow _ hx0) (not_lt.mpr
              (le_trans (hall0 cur hcq).1 (hk.infl _ _ (ho.nonneg _ _ _ ht))))
      by_cases h : d = cur.dir ∧ v = cur.idx
      · obtain ⟨rfl, rfl⟩ := h
        refine hnew cur.cost (le_refl _) hnod.1.2 ?_
        intro e he h1 h2
        refine lt_of_le_of_ne (hmq e he) ?_
        intro h3
        apply (List.nodup_cons.mp hnd).1
        have : e = cur := by
          cases e; cases cur
          simp only at h1 h2 h3
          simp [h1, h2, h3]
        rw [← this]; exact he
      · rw [upd_other _ _ h] at hd
        obtain ⟨x0, hx0, hall0⟩ := h5.done _ _ hd
        obtain ⟨y, hy, hyle⟩ := hr.lab_le d v x0 (by rw [visitA_lab]; exact hx0)
        exact hnew y (le_trans hyle (hall0 cur hcq).1) hy
          (fun e he h1 h2 => lt_of_le_of_lt hyle ((hall0 e (hsub e he)).2 h1 h2))
    · unfold pot5
      have hmem : (cur.dir, cur.idx) ∈ places n := mem_places hcurn
      rw [← Finset.add_sum_erase _ _ hmem, ← Finset.add_sum_erase _ _ hmem]
      have heq : ∑ p ∈ (places n).erase (cur.dir, cur.idx),
          (if upd done cur.dir cur.idx true p.1 p.2 = true then 0 else (c.out p.1 p.2).length) =
          ∑ p ∈ (places n).erase (cur.dir, cur.idx),
            (if done p.1 p.2 = true then 0 else (c.out p.1 p.2).length) := by
        refine Finset.sum_congr rfl ?_
        rintro ⟨d, v⟩ hp'
        rw [upd_other]
        rintro ⟨h1, h2⟩
        simp only at h1 h2
        subst h1
        subst h2
        simp at hp'
      rw [heq]
      simp only [upd_same, if_true, hnotdone, Bool.false_eq_true, if_false]
      omega

/-- At most one iteration per leaving edge and two more, if a cheapest element is popped. -/
theorem terminates_bound {V : K → Prop} (hm : MinOk c V) (hk : AddOk K) (ho : OutOk c tail)
    (hroots : ∀ d, c.root d < n)
    (harcs : ∀ d u t, t ∈ c.out d u → t.2.1 < n) {fuel : Nat}
    (hfuel : 2 + ∑ p ∈ places n, (c.out p.1 p.2).length < fuel) :
    ∃ r, loopA c fuel (initA c) none = some r := by
  obtain ⟨ok, hok⟩ := hm.ok
  refine loopA_terminates_ghost (pot5 c n) (g := fun _ _ => false)
    (Inv := fun done a best => Inv1 c tail a best ∧ Inv5 done a ∧ QOk ok V a.queue)
    (fun done a best cur q a' best' hi hp hs => ?_) ⟨Inv1.init, ?_, QOk.init hm hok⟩ ?_
  · obtain ⟨done', h1, h2⟩ := step_term5 hk ho hroots harcs hi.1 hi.2.1 hp
      (hok.pop _ _ _ hi.2.2.1 hp).2 hs
    exact ⟨done', ⟨hi.1.step hk ho hp hs, h1, hi.2.2.step hm hok hp hs⟩, h2⟩
  · refine { nodup := ?_, done := fun d v h => by cases h }
    simp only [initA]
    rw [(c.h.push_perm _ _).nodup_iff, List.nodup_cons, (c.h.push_perm _ _).nodup_iff]
    refine ⟨?_, by rw [List.nodup_cons]; simp⟩
    rw [mem_push]
    simp
  · have : (initA c).queue.length = 2 := by
      simp only [initA]
      rw [(c.h.push_perm _ _).length_eq, List.length_cons, (c.h.push_perm _ _).length_eq]
      rfl
    simp only [pot5, this, Bool.false_eq_true, if_false]
    exact hfuel

/-! ## Length of chains -/

theorem Inv1.chain_length {a : A K} {best : Best K} (ho : OutOk c tail)
    (hi : Inv1 c tail a best) (hf : FinOk c n) {d : Dir} {v : Nat} {l : List Nat}
    (h : Chain (a.pred d) (tail d) v l) {x : K} (hx : a.lab d v = some x) : l.length < n := by
  have key : ∃ vs : List Nat, vs.length = l.length + 1 ∧ vs.Nodup ∧
      ∀ u ∈ vs, u < n ∧ ∃ l', Chain (a.pred d) (tail d) u l' ∧ l'.length ≤ l.length := by
    induction h generalizing x with
    | @nil v hp =>
      refine ⟨[v], rfl, by simp, ?_⟩
      intro u hu
      rw [List.mem_singleton] at hu
      subst hu
      refine ⟨?_, [], .nil hp, le_refl _⟩
      rcases hi.pred d u x hx with rfl | ⟨e, u', w, y, h1, _⟩
      · exact hf.roots d
      · rw [hp] at h1; cases h1
    | @cons v e l hp h ih =>
      rcases hi.pred d v x hx with rfl | ⟨e', u, w, y, h1, h2, h3, h4⟩
      · rw [hi.rootpred] at hp; cases hp
      · rw [hp] at h1
        cases h1
        have ht := ho.tail _ _ _ h2
        simp only at ht
        have h3' := h3
        rw [← ht] at h3'
        obtain ⟨vs, h5, h6, h7⟩ := ih h3'
        refine ⟨v :: vs, by simp [h5], List.nodup_cons.mpr ⟨?_, h6⟩, ?_⟩
        · intro hv
          obtain ⟨_, l', hl', hlen⟩ := h7 v hv
          have := hl'.unique (Chain.cons hp h)
          rw [this] at hlen
          simp at hlen
        · intro u' hu'
          rcases List.mem_cons.mp hu' with rfl | hu'
          · exact ⟨(hf.arcs _ _ _ h2).2, _, Chain.cons hp h, le_refl _⟩
          · obtain ⟨h8, l', h9, h10⟩ := h7 u' hu'
            exact ⟨h8, l', h9, by simp only [List.length_cons]; omega⟩
  obtain ⟨vs, h1, h2, h3⟩ := key
  have := length_le_of_nodup_lt h2 (fun u hu => (h3 u hu).1)
  omega

end

/-! ## Optimal routes exist -/

section
variable {c : Cfg ℚ} {tail : Dir → Nat → Nat} {n : Nat}

theorem route_from (ho : OutOk c tail) {d : Dir} {x u v : Nat} {l : List (Arc ℚ)}
    (h : IsRt (c.out d) x l v) (hnd : (x :: l.map (·.2.1)).Nodup) (hu : u ∈ x :: l.map (·.2.1)) :
    ∃ s, IsRt (c.out d) u s v ∧ (u :: s.map (·.2.1)).Nodup ∧ cost s ≤ cost l := by
  induction l generalizing x with
  | nil =>
    simp only [List.map_nil, List.mem_singleton] at hu
    subst hu
    exact ⟨[], h, hnd, le_refl _⟩
  | cons t l ih =>
    rcases List.mem_cons.mp hu with rfl | hu
    · exact ⟨t :: l, h, hnd, le_refl _⟩
    · obtain ⟨s, h1, h2, h3⟩ := ih h.2 (List.nodup_cons.mp hnd).2 hu
      refine ⟨s, h1, h2, ?_⟩
      rw [cost_cons]
      have := ho.nonneg _ _ _ h.1
      linarith

/-- Without more cost, nodes need not be repeated. -/
theorem exists_simple (ho : OutOk c tail) {d : Dir} {u v : Nat} {l : List (Arc ℚ)}
    (h : IsRt (c.out d) u l v) :
    ∃ s, IsRt (c.out d) u s v ∧ (u :: s.map (·.2.1)).Nodup ∧ cost s ≤ cost l := by
  induction l generalizing u with
  | nil => exact ⟨[], h, by simp, le_refl _⟩
  | cons t l ih =>
    obtain ⟨s, h1, h2, h3⟩ := ih h.2
    have hw := ho.nonneg _ _ _ h.1
    by_cases hu : u ∈ t.2.1 :: s.map (·.2.1)
    · obtain ⟨s', h4, h5, h6⟩ := route_from ho h1 h2 hu
      refine ⟨s', h4, h5, ?_⟩
      rw [cost_cons]; linarith
    · refine ⟨t :: s, ⟨h.1, h1⟩, ?_, ?_⟩
      · rw [List.map_cons]
        exact List.nodup_cons.mpr ⟨hu, h2⟩
      · rw [cost_cons, cost_cons]; linarith

theorem exists_optimal (ho : OutOk c tail) (hf : FinOk c n) {d : Dir} {u v : Nat} (hu : u < n)
    {l : List (Arc ℚ)} (h : IsRt (c.out d) u l v) :
    ∃ L, IsRt (c.out d) u L v ∧ ∀ l', IsRt (c.out d) u l' v → cost L ≤ cost l' := by
  classical
  let S : Finset (List (Arc ℚ)) := (walks (allArcs c n) n).toFinset.filter
    (fun l => IsRt (c.out d) u l v)
  have hS : ∀ l, IsRt (c.out d) u l v → (u :: l.map (·.2.1)).Nodup → l ∈ S := by
    intro l hl hnd
    simp only [S, Finset.mem_filter, List.mem_toFinset]
    exact ⟨simple_mem_walks hf hu hl hnd, hl⟩
  obtain ⟨s, h1, h2, _⟩ := exists_simple ho h
  obtain ⟨L, hL, hmin⟩ := Finset.exists_min_image S cost ⟨s, hS s h1 h2⟩
  refine ⟨L, (Finset.mem_filter.mp hL).2, fun l' hl' => ?_⟩
  obtain ⟨s', h4, h5, h6⟩ := exists_simple ho hl'
  exact le_trans (hmin s' (hS s' h4 h5)) h6

/-- Plain search: no route is cheaper than the best total. -/
theorem opt_plain_all {V : ℚ → Prop} (hch : c.isCh = false) (hmi : Mirror c) (hm : MinOk c V)
    (ho : OutOk c tail) (hf : FinOk c n) {l : List (Arc ℚ)} (hl : IsRt (c.out .fwd) c.src l c.dst) {fuel : Nat} {a : A ℚ}
    {best : Best ℚ} (h : loopA c fuel (initA c) none = some (a, best)) (hb : best ≠ none) :
    BestLe best (cost l) := by
  obtain ⟨L, hL, hopt⟩ := exists_optimal ho hf (hf.roots .fwd) hl
  obtain ⟨m, b, h1, h2⟩ := opt_plain hch hmi hm ho hL hopt h hb
  exact ⟨m, b, h1, le_trans h2 (hopt l hl)⟩

end
end Verif.Search
