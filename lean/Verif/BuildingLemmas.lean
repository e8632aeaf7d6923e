import Verif.Building
import Verif.ApproxProps
import Mathlib.Data.List.Nodup
import Mathlib.Data.List.Sort
import Mathlib.Data.List.Induction

/-!
# Helper lemmas about the builder model
-/

namespace Verif

/-! ## Binary search -/

section
variable {κ : Type} [DecidableEq κ] {lt : κ → κ → Bool}

theorem bsearchGo_ok {keys : List κ} {x : κ} {n lo hi : Nat} {i : Nat}
    (he : bsearchGo lt keys x n lo hi = .ok i) : keys[i]? = some x := by
  induction n generalizing lo hi with
  | zero => simp [bsearchGo] at he
  | succ n ih =>
    unfold bsearchGo at he
    split at he
    · dsimp only at he
      split at he
      · cases he
      · rename_i k hk
        split at he
        · rename_i hkx
          cases he; rw [hk, hkx]
        · split at he
          · exact ih he
          · exact ih he
    · cases he

theorem bsearchGo_found {keys : List κ} {x : κ} {n lo hi : Nat} (h : hi ≤ keys.length) {j : Nat}
    (hirr : ∀ a, lt a a = false) (hasym : ∀ a b, lt a b = true → lt b a = false)
    (hs : keys.Pairwise (fun a b => lt a b = true))
    (hj : keys[j]? = some x) (hlo : lo ≤ j) (hhi : j < hi) (hn : hi - lo ≤ n) :
    bsearchGo lt keys x n lo hi = .ok j := by
  have hpw := List.pairwise_iff_getElem.mp hs
  have hjl : j < keys.length := by omega
  have hjx : keys[j] = x := by
    rw [List.getElem?_eq_getElem hjl] at hj; exact Option.some.inj hj
  induction n generalizing lo hi with
  | zero => omega
  | succ n ih =>
    have hmid : (lo + hi) / 2 < keys.length := by omega
    unfold bsearchGo
    rw [if_pos (by omega)]
    simp only [List.getElem?_eq_getElem hmid]
    rcases Nat.lt_trichotomy ((lo + hi) / 2) j with hm | hm | hm
    · have hlt := hpw _ j hmid hjl hm
      rw [hjx] at hlt
      have hne : keys[(lo + hi) / 2] ≠ x := by
        intro hc; rw [hc, hirr] at hlt; cases hlt
      rw [if_neg hne, if_pos hlt]
      exact ih h (by omega) hhi (by omega)
    · subst hm
      rw [if_pos hjx]
    · have hlt := hpw j _ hjl hmid hm
      rw [hjx] at hlt
      have hne : keys[(lo + hi) / 2] ≠ x := by
        intro hc; rw [hc, hirr] at hlt; cases hlt
      rw [if_neg hne, if_neg (by rw [hasym _ _ hlt]; simp)]
      exact ih (by omega) hlo hm (by omega)

theorem bsearch_ok {keys : List κ} {x : κ} {i : Nat} (he : bsearch lt keys x = .ok i) :
    keys[i]? = some x := bsearchGo_ok he

theorem bsearch_found {keys : List κ} {x : κ} {j : Nat}
    (hirr : ∀ a, lt a a = false) (hasym : ∀ a b, lt a b = true → lt b a = false)
    (hs : keys.Pairwise (fun a b => lt a b = true)) (hj : keys[j]? = some x) :
    bsearch lt keys x = .ok j :=
  bsearchGo_found (Nat.le_refl _) hirr hasym hs hj (Nat.zero_le _) (by
    by_contra hc
    rw [List.getElem?_eq_none (by omega)] at hj; cases hj) (by omega)

end

theorem idxFrom_eq_ok_iff {ids : List Int} (hs : ids.Pairwise (· < ·)) {id : Int} {i : Nat} :
    Graph.idxFrom ids id = .ok i ↔ ids[i]? = some id := by
  constructor
  · exact bsearch_ok
  · intro h
    exact bsearch_found (by simp) (by simp; intro a b h; omega) (by simpa using hs) h

theorem idxFrom_error {ids : List Int} (hs : ids.Pairwise (· < ·)) {id : Int} :
    (∃ i, Graph.idxFrom ids id = .error i) ↔ id ∉ ids := by
  constructor
  · rintro ⟨i, hi⟩ hm
    obtain ⟨j, hj⟩ := List.getElem?_of_mem hm
    rw [(idxFrom_eq_ok_iff hs).mpr hj] at hi; cases hi
  · intro hm
    cases h : Graph.idxFrom ids id with
    | ok i => exact absurd (List.mem_of_getElem? ((idxFrom_eq_ok_iff hs).mp h)) hm
    | error i => exact ⟨i, rfl⟩

namespace Build

/-! ## Node ids -/

theorem mem_pushIds {ids : List Int} {s d x : Int} :
    x ∈ pushIds ids s d ↔ x ∈ ids ∨ x = s ∨ x = d := by
  unfold pushIds
  have hsub : ∀ y, y ∈ (ids.drop (ids.length - 2)).take 2 → y ∈ ids := by
    intro y hy; exact List.mem_of_mem_drop (List.mem_of_mem_take hy)
  dsimp only
  split
  · simp
  · by_cases h1 : s ∈ (ids.drop (ids.length - 2)).take 2 <;>
    by_cases h2 : d ∈ (ids.drop (ids.length - 2)).take 2 <;>
    simp only [List.contains_iff_mem, h1, h2, if_true, if_false, List.mem_append, List.mem_singleton]
    all_goals (try have h1' := hsub _ h1); (try have h2' := hsub _ h2)
    all_goals grind

theorem insert_nodeIds (b : EdgeBuilder) (e : ProtoEdge) :
    (b.insert e).nodeIds = pushIds b.nodeIds e.srcId e.dstId := by
  unfold EdgeBuilder.insert; cases e.sc <;> rfl

theorem mem_insertAll_nodeIds (es : List ProtoEdge) (b : EdgeBuilder) (x : Int) :
    x ∈ (b.insertAll es).nodeIds ↔ x ∈ b.nodeIds ∨ ∃ e ∈ es, x = e.srcId ∨ x = e.dstId := by
  induction es generalizing b with
  | nil => simp [EdgeBuilder.insertAll]
  | cons e es ih =>
    have : (b.insertAll (e :: es)) = (b.insert e).insertAll es := rfl
    rw [this, ih, insert_nodeIds, mem_pushIds]
    simp only [List.mem_cons, exists_eq_or_imp, or_assoc]

/-! ## dedup -/

theorem dedupGo_ne_nil {α κ : Type} [DecidableEq κ] (key : α → κ) (p : α) (l : List α) :
    dedupGo key p l ≠ [] := by
  induction l generalizing p with
  | nil => simp [dedupGo]
  | cons b l ih => unfold dedupGo; split <;> simp [ih]

theorem mem_of_mem_dedupGo {α κ : Type} [DecidableEq κ] {key : α → κ} {l : List α} {p x : α}
    (h : x ∈ dedupGo key p l) : x ∈ p :: l := by
  induction l generalizing p with
  | nil => simpa [dedupGo] using h
  | cons b l ih =>
    unfold dedupGo at h
    split at h
    · have := ih h; grind
    · rcases List.mem_cons.mp h with h | h
      · simp [h]
      · have := ih h; grind

theorem mem_dedupGo_id {l : List Int} {p x : Int} : x ∈ dedupGo (fun i => i) p l ↔ x ∈ p :: l := by
  constructor
  · exact mem_of_mem_dedupGo
  · intro h
    induction l generalizing p with
    | nil => simpa [dedupGo] using h
    | cons b l ih =>
      unfold dedupGo
      split
      · apply ih; grind
      · rw [List.mem_cons]
        rcases List.mem_cons.mp h with h | h
        · left; exact h
        · right; exact ih h

theorem dedupGo_strict {α : Type} {key : α → Nat} {l : List α} {p : α}
    (h : (p :: l).Pairwise (fun a b => key a ≤ key b)) :
    (dedupGo key p l).Pairwise (fun a b => key a < key b) ∧
      ∀ y ∈ dedupGo key p l, key p ≤ key y := by
  induction l generalizing p with
  | nil => simp [dedupGo]
  | cons b l ih =>
    rw [List.pairwise_cons] at h
    unfold dedupGo
    split
    · rename_i heq
      apply ih
      rw [List.pairwise_cons]
      exact ⟨fun a ha => h.1 a (by simp [ha]), (List.pairwise_cons.mp h.2).2⟩
    · rename_i hne
      obtain ⟨i1, i2⟩ := ih h.2
      have hb : key p < key b := by
        have := h.1 b (by simp); omega
      constructor
      · rw [List.pairwise_cons]
        refine ⟨fun y hy => ?_, i1⟩
        have := i2 y hy; omega
      · intro y hy
        rcases List.mem_cons.mp hy with rfl | hy
        · exact Nat.le_refl _
        · have := i2 y hy; omega

theorem dedupGo_strict_int {l : List Int} {p : Int}
    (h : (p :: l).Pairwise (fun a b => a ≤ b)) :
    (dedupGo (fun i => i) p l).Pairwise (· < ·) ∧
      ∀ y ∈ dedupGo (fun i => i) p l, p ≤ y := by
  induction l generalizing p with
  | nil => simp [dedupGo]
  | cons b l ih =>
    rw [List.pairwise_cons] at h
    unfold dedupGo
    split
    · rename_i heq
      apply ih
      rw [List.pairwise_cons]
      exact ⟨fun a ha => h.1 a (by simp [ha]), (List.pairwise_cons.mp h.2).2⟩
    · rename_i hne
      obtain ⟨i1, i2⟩ := ih h.2
      have hb : p < b := by
        have := h.1 b (by simp); omega
      constructor
      · rw [List.pairwise_cons]
        refine ⟨fun y hy => ?_, i1⟩
        have := i2 y hy; omega
      · intro y hy
        rcases List.mem_cons.mp hy with rfl | hy
        · exact Int.le_refl _
        · have := i2 y hy; omega

theorem dedupBy_strict_int {l : List Int} (h : l.Pairwise (fun a b => a ≤ b)) :
    (dedupBy (fun i => i) l).Pairwise (· < ·) := by
  cases l with
  | nil => simp [dedupBy]
  | cons a l => exact (dedupGo_strict_int h).1

theorem mem_dedupBy_id {l : List Int} {x : Int} : x ∈ dedupBy (fun i => i) l ↔ x ∈ l := by
  cases l with
  | nil => simp [dedupBy]
  | cons a l => exact mem_dedupGo_id

theorem next_nodeIds_sorted (b : EdgeBuilder) : b.next.nodeIds.Pairwise (· < ·) := by
  apply dedupBy_strict_int
  have := pairwise_stableSort (le := fun a b : Int => decide (a ≤ b))
    (by simp; intro a b c; omega) (by simp; intro a b; omega) b.nodeIds
  simpa using this

theorem mem_next_nodeIds (b : EdgeBuilder) (x : Int) : x ∈ b.next.nodeIds ↔ x ∈ b.nodeIds := by
  show x ∈ dedupBy _ _ ↔ _
  rw [mem_dedupBy_id]
  exact mem_stableSort

/-! ## Edges of the edge builder -/

theorem insertAll_snoc (b : EdgeBuilder) (es : List ProtoEdge) (e : ProtoEdge) :
    b.insertAll (es ++ [e]) = (b.insertAll es).insert e := by
  simp [EdgeBuilder.insertAll, List.foldl_append]

/-- The proto-edge `a` stores the inserted edge `pe` (with its shortcut pair in `scs`). -/
def Stores (scs : List (Nat × Nat)) (i : Nat) (pe : ProtoEdge) (a : EdgeA) : Prop :=
  a.idx = i ∧ a.id = pe.id ∧ a.srcId = pe.srcId ∧ a.dstId = pe.dstId ∧ a.metrics = pe.metrics ∧
    match pe.sc with
    | none => a.sc = none
    | some p => ∃ k, a.sc = some k ∧ scs[k]? = some p

theorem insertAll_inv (es : List ProtoEdge) :
    (EdgeBuilder.new.insertAll es).edges.length = es.length ∧
    (∀ i pe, es[i]? = some pe → ∃ a, (EdgeBuilder.new.insertAll es).edges[i]? = some a ∧
      Stores (EdgeBuilder.new.insertAll es).shortcuts i pe a) ∧
    (EdgeBuilder.new.insertAll es).edges.filterMap EdgeA.sc =
      List.range (EdgeBuilder.new.insertAll es).shortcuts.length := by
  induction es using List.reverseRecOn with
  | nil => simp [EdgeBuilder.insertAll, EdgeBuilder.new]
  | append_singleton es e ih =>
    rw [insertAll_snoc]
    generalize EdgeBuilder.new.insertAll es = b at ih
    obtain ⟨ih1, ih2, ih3⟩ := ih
    have hold : ∀ (x : List (Nat × Nat)) i pe, es[i]? = some pe →
        ∃ a, b.edges[i]? = some a ∧ Stores (b.shortcuts ++ x) i pe a := by
      intro x i pe h
      obtain ⟨a, h1, h2⟩ := ih2 i pe h
      refine ⟨a, h1, ?_⟩
      unfold Stores at *
      refine ⟨h2.1, h2.2.1, h2.2.2.1, h2.2.2.2.1, h2.2.2.2.2.1, ?_⟩
      have h3 := h2.2.2.2.2.2
      cases hp : pe.sc with
      | none => simpa [hp] using h3
      | some p =>
        rw [hp] at h3
        obtain ⟨k, hk1, hk2⟩ := h3
        refine ⟨k, hk1, ?_⟩
        rw [List.getElem?_append_left]
        · exact hk2
        · by_contra hc
          rw [List.getElem?_eq_none (by omega)] at hk2; cases hk2
    cases hsc : e.sc with
    | none =>
      simp only [EdgeBuilder.insert, hsc]
      refine ⟨by simp [ih1], ?_, by simp [ih3]⟩
      intro i pe h
      by_cases hi : i < es.length
      · rw [List.getElem?_append_left hi] at h
        obtain ⟨a, h1, h2⟩ := hold [] i pe h
        refine ⟨a, ?_, by simpa using h2⟩
        rw [List.getElem?_append_left (by omega)]; exact h1
      · have hi' : i = es.length := by
          by_contra hc
          rw [List.getElem?_eq_none (by simp; omega)] at h; cases h
        subst hi'
        simp only [List.getElem?_concat_length, Option.some.injEq] at h
        subst h
        refine ⟨_, by rw [← ih1, List.getElem?_concat_length], ?_⟩
        simp [Stores, hsc, ih1]
    | some p =>
      simp only [EdgeBuilder.insert, hsc]
      refine ⟨by simp [ih1], ?_, by simp [ih3, List.range_succ]⟩
      intro i pe h
      by_cases hi : i < es.length
      · rw [List.getElem?_append_left hi] at h
        obtain ⟨a, h1, h2⟩ := hold [p] i pe h
        refine ⟨a, ?_, by simpa using h2⟩
        rw [List.getElem?_append_left (by omega)]; exact h1
      · have hi' : i = es.length := by
          by_contra hc
          rw [List.getElem?_eq_none (by simp; omega)] at h; cases h
        subst hi'
        simp only [List.getElem?_concat_length, Option.some.injEq] at h
        subst h
        refine ⟨_, by rw [← ih1, List.getElem?_concat_length], ?_⟩
        simp [Stores, hsc, ih1]

/-! ## Node builder -/

/-- Lengths agree, so that indexed writes are in bounds. -/
def NodeBuilder.WF (b : NodeBuilder) : Prop :=
  b.nodeIds.Pairwise (· < ·) ∧ b.coords.length = b.nodeIds.length ∧
    b.levels.length = b.nodeIds.length

theorem next_wf (b : EdgeBuilder) : b.next.WF :=
  ⟨next_nodeIds_sorted b, by simp [EdgeBuilder.next], by simp [EdgeBuilder.next]⟩

theorem nodeInsert_same (b : NodeBuilder) (n : ProtoNode) :
    (b.insert n).1.nodeIds = b.nodeIds ∧ (b.insert n).1.edges = b.edges ∧
      (b.insert n).1.shortcuts = b.shortcuts := by
  unfold NodeBuilder.insert; split <;> simp

theorem nodeInsert_wf {b : NodeBuilder} (h : b.WF) (n : ProtoNode) : (b.insert n).1.WF := by
  unfold NodeBuilder.insert
  split
  · obtain ⟨h1, h2, h3⟩ := h
    refine ⟨h1, by simp [h2], ?_⟩
    cases n.level <;> simp [h3]
  · exact h

theorem nodeInsertAll_snoc (b : NodeBuilder) (ns : List ProtoNode) (n : ProtoNode) :
    b.insertAll (ns ++ [n]) = ((b.insertAll ns).insert n).1 := by
  simp [NodeBuilder.insertAll, List.foldl_append]

theorem nodeInsertAll_same (b : NodeBuilder) (ns : List ProtoNode) :
    (b.insertAll ns).nodeIds = b.nodeIds ∧ (b.insertAll ns).edges = b.edges ∧
      (b.insertAll ns).shortcuts = b.shortcuts := by
  induction ns using List.reverseRecOn with
  | nil => simp [NodeBuilder.insertAll]
  | append_singleton ns n ih =>
    rw [nodeInsertAll_snoc]
    have := nodeInsert_same (b.insertAll ns) n
    exact ⟨this.1.trans ih.1, this.2.1.trans ih.2.1, this.2.2.trans ih.2.2⟩

theorem nodeInsertAll_wf {b : NodeBuilder} (h : b.WF) (ns : List ProtoNode) :
    (b.insertAll ns).WF := by
  induction ns using List.reverseRecOn with
  | nil => simpa [NodeBuilder.insertAll] using h
  | append_singleton ns n ih => rw [nodeInsertAll_snoc]; exact nodeInsert_wf ih n

/-! ## checkCoords -/

theorem checkCoords_cases (l : List (Option Approx.Coord)) :
    (none ∈ l ∧ checkCoords l = .err .missingCoord) ∨
    (none ∉ l ∧ ∃ cs, checkCoords l = .ok cs ∧ l = cs.map some) := by
  induction l with
  | nil => right; simp [checkCoords]
  | cons o l ih =>
    cases o with
    | none => left; simp [checkCoords]
    | some c =>
      rcases ih with ⟨h1, h2⟩ | ⟨h1, cs, h2, h3⟩
      · left; simp [checkCoords, h1, h2]
      · right
        refine ⟨by simp [h1], c :: cs, by simp [checkCoords, h2], by simp [h3]⟩

/-! ## toEdgesB -/

/-- The chunked traversal of a reversed list visits the list in order, for any chunk size. -/
theorem chunked_traversal {α : Type} {c : Nat} (hc : 0 < c) (l : List α) {fuel : Nat}
    (hf : l.length ≤ fuel) : chunked c fuel l.reverse = l := by
  induction fuel generalizing l with
  | zero =>
    have : l = [] := List.eq_nil_of_length_eq_zero (by omega)
    subst this; rfl
  | succ n ih =>
    unfold chunked
    by_cases hl : l.length = 0
    · have : l = [] := List.eq_nil_of_length_eq_zero hl
      subst this; rfl
    · have hm : l.length - (l.length - min l.length c) = min l.length c := by omega
      simp only [List.length_reverse]
      rw [if_pos (by omega), List.drop_reverse, List.take_reverse, List.reverse_reverse, hm,
        ih _ (by rw [List.length_drop]; omega), List.take_append_drop]

/-- `b` is `a` with ids replaced by indices. -/
def IdxOf (nodeIds : List Int) (a : EdgeA) (b : EdgeB) : Prop :=
  b.idx = a.idx ∧ b.id = a.id ∧ nodeIds[b.src]? = some a.srcId ∧ nodeIds[b.dst]? = some a.dstId ∧
    b.metrics = a.metrics ∧ b.sc = a.sc

theorem toEdgesB_ok {ids : List Int} (hs : ids.Pairwise (· < ·)) {l : List EdgeA}
    (h : ∀ a ∈ l, a.srcId ∈ ids ∧ a.dstId ∈ ids) :
    ∃ bs, toEdgesB ids l = .ok bs ∧ List.Forall₂ (IdxOf ids) l bs := by
  induction l with
  | nil => exact ⟨[], rfl, .nil⟩
  | cons a l ih =>
    obtain ⟨bs, h1, h2⟩ := ih (fun a ha => h a (by simp [ha]))
    obtain ⟨hsrc, hdst⟩ := h a (by simp)
    obtain ⟨i, hi⟩ := List.getElem?_of_mem hsrc
    obtain ⟨j, hj⟩ := List.getElem?_of_mem hdst
    refine ⟨{ idx := a.idx, id := a.id, src := i, dst := j, metrics := a.metrics, sc := a.sc } :: bs,
      ?_, .cons ?_ h2⟩
    · simp [toEdgesB, toEdgeB, (idxFrom_eq_ok_iff hs).mpr hi, (idxFrom_eq_ok_iff hs).mpr hj, h1]
    · simp [IdxOf, hi, hj]

/-! ## Sorting -/

theorem keyLe_trans (a b c : Nat × Nat × Nat × Option Nat) :
    keyLe a b = true → keyLe b c = true → keyLe a c = true := by
  unfold keyLe
  simp only [Bool.or_eq_true, Bool.and_eq_true, decide_eq_true_eq]
  omega

theorem keyLe_total (a b : Nat × Nat × Nat × Option Nat) : (keyLe a b || keyLe b a) = true := by
  unfold keyLe
  simp only [Bool.or_eq_true, Bool.and_eq_true, decide_eq_true_eq]
  omega

theorem mapM_key {α κ : Type} {key : α → Option κ} {l : List α}
    (h : ∀ a ∈ l, ∃ k, key a = some k) :
    ∃ kl, l.mapM (fun a => (key a).map (fun k => (k, a))) = some kl ∧ kl.map Prod.snd = l ∧
      ∀ p ∈ kl, key p.2 = some p.1 := by
  induction l with
  | nil => exact ⟨[], by simp⟩
  | cons a l ih =>
    obtain ⟨kl, h1, h2, h3⟩ := ih (fun a ha => h a (by simp [ha]))
    obtain ⟨k, hk⟩ := h a (by simp)
    refine ⟨(k, a) :: kl, ?_, by simp [h2], ?_⟩
    · rw [List.mapM_cons, h1, hk]; rfl
    · intro p hp
      rcases List.mem_cons.mp hp with rfl | hp
      · exact hk
      · exact h3 p hp

theorem sortByKey_ok {α : Type} {key : α → Option (Nat × Nat × Nat × Option Nat)} {l : List α}
    (h : ∀ a ∈ l, ∃ k, key a = some k) :
    ∃ s, sortByKey key l = .ok s ∧ s.Perm l ∧
      s.Pairwise (fun a b => ∀ ka kb, key a = some ka → key b = some kb → keyLe ka kb = true) := by
  obtain ⟨kl, h1, h2, h3⟩ := mapM_key h
  refine ⟨(stableSort (fun x y => keyLe x.1 y.1) kl).map Prod.snd, ?_, ?_, ?_⟩
  · simp [sortByKey, h1]
  · conv => rhs; rw [← h2]
    exact (stableSort_perm kl).map _
  · rw [List.pairwise_map]
    have hp := pairwise_stableSort (le := fun x y : (Nat × Nat × Nat × Option Nat) × α =>
      keyLe x.1 y.1) (fun a b c => keyLe_trans _ _ _) (fun a b => keyLe_total _ _) kl
    refine hp.imp_of_mem ?_
    intro a b ha hb hab ka kb hka hkb
    have := h3 a (mem_stableSort.mp ha)
    rw [hka] at this
    have e1 : ka = a.1 := Option.some.inj this
    have := h3 b (mem_stableSort.mp hb)
    rw [hkb] at this
    have e2 : kb = b.1 := Option.some.inj this
    rw [e1, e2]; exact hab

end Build
end Verif
