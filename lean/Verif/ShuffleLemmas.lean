import Verif.BuildingProps

/-!
# Helper lemmas for the order of insertion (C106)
-/

namespace Verif.Build

open Approx (Coord)

/-- An edge without the position at which it has been inserted. -/
def blank (e : EdgeB) : EdgeB := { e with idx := 0 }

theorem isDuplicate_blank (a b : EdgeB) : isDuplicate (blank a) (blank b) = isDuplicate a b := rfl

theorem fwdKey_blank (levels : List Nat) (e : EdgeB) : fwdKey levels (blank e) = fwdKey levels e := rfl

theorem dedupSpec_blank (l : List EdgeB) : ∀ (e0 : EdgeB) (r : Nat),
    dedupSpec (blank e0) r (l.map blank) = ((dedupSpec e0 r l).1.map blank, (dedupSpec e0 r l).2) := by
  induction l with
  | nil => intro e0 r; rfl
  | cons e l ih =>
    intro e0 r
    simp only [List.map_cons, dedupSpec, isDuplicate_blank]
    by_cases hd : isDuplicate e0 e = true <;> simp [ih, hd]

theorem dedupEdges_blank {l kept : List EdgeB} {removed : List Nat} (h : dedupEdges l = .ok (kept, removed)) :
    dedupEdges (l.map blank) = .ok (kept.map blank, removed) := by
  cases l with
  | nil =>
    rw [dedupEdges_nil] at h
    cases h
    rfl
  | cons e l =>
    rw [dedupEdges_cons] at h
    cases h
    rw [List.map_cons, dedupEdges_cons, dedupSpec_blank]
    rfl

theorem remapShortcuts_none {newIdx : List Nat} (l : List EdgeB) (h : ∀ e ∈ l, e.sc = none) (scs : List (Nat × Nat)) :
    remapShortcuts newIdx l scs = .ok scs := by
  induction l with
  | nil => rfl
  | cons e l ih =>
    rw [remapShortcuts, h e (by simp)]
    exact ih fun e he => h e (by simp [he])

theorem correctShortcuts_plain {removed : List Nat} (l : List EdgeB) (h : ∀ e ∈ l, e.sc = none) (scs : List (Nat × Nat)) :
    correctShortcuts removed l scs = .ok scs := by
  induction l with
  | nil => rfl
  | cons e l ih =>
    rw [correctShortcuts, h e (by simp)]
    exact ih fun e he => h e (by simp [he])

/-- The steps of `finalize` after duplicates have been removed. -/
def finish (dim : Nat) (nodeIds : List Int) (levels : List Nat) (coords : List Coord) (scs : List (Nat × Nat))
    (kept : List EdgeB) : R Graph := do
  let (metrics, edgesC, newSc) ← storeMetrics scs 0 kept
  checkMetrics metrics
  let (scOffs, scEdges) ← scOffsets edgesC.length newSc
  let fwdOffs ← mkOffsets (edgesC.map EdgeC.src)
  let idMap ← mkIdMap edgesC
  let bwdSorted ← sortByKey (bwdKey levels) (setIdx 0 edgesC)
  let bwdOffs ← mkOffsets (bwdSorted.map EdgeC.dst)
  pure
    { nodeIds := nodeIds
      nodeCoords := coords
      nodeLevels := levels
      fwdDsts := edgesC.map EdgeC.dst
      fwdOffsets := fwdOffs
      fwdMap := List.range edgesC.length
      bwdDsts := edgesC.map EdgeC.src
      bwdOffsets := bwdOffs
      bwdMap := bwdSorted.map EdgeC.idx
      metrics := metrics
      means := none
      edgeIds := edgesC.map EdgeC.id
      idMap := idMap
      scOffsets := scOffs
      scEdges := scEdges
      dim := dim }

theorem storeMetrics_blank (l : List EdgeB) : ∀ i scs, storeMetrics scs i (l.map blank) = storeMetrics scs i l := by
  induction l with
  | nil => intro i scs; rfl
  | cons e l ih =>
    intro i scs
    simp only [List.map_cons, storeMetrics, ih]
    rfl

theorem finish_blank (dim : Nat) (nodeIds : List Int) (levels : List Nat) (coords : List Coord) (scs : List (Nat × Nat))
    (kept : List EdgeB) :
    finish dim nodeIds levels coords scs (kept.map blank) = finish dim nodeIds levels coords scs kept := by
  unfold finish
  rw [storeMetrics_blank]

theorem finalize_plain (dim : Nat) {b : NodeBuilder} (hr : Base b) (hsc : ∀ a ∈ b.edges, a.sc = none)
    {coords : List Coord} (hc : checkCoords b.coords = .ok coords) :
    ∃ edgesB sorted kept removed, toEdgesB b.nodeIds b.edges = .ok edgesB ∧
      sortByKey (fwdKey b.levels) edgesB = .ok sorted ∧ dedupEdges sorted = .ok (kept, removed) ∧
      finalize dim b = finish dim b.nodeIds b.levels coords b.shortcuts kept := by
  obtain ⟨edgesB, sorted, newIdx, scs1, kept, removed, scs2, rep, s1, s2, s3, s4, s5, s6, -⟩ := stage1 (b := b)
    ⟨hr.wf, hr.known, hr.idx, hr.sc_nodup, fun a ha k hk => by rw [hsc a ha] at hk; cases hk⟩
  refine ⟨edgesB, sorted, kept, removed, s1, s2, s5, ?_⟩
  obtain ⟨bs, h1, h2⟩ := toEdgesB_ok hr.wf.1 hr.known
  rw [s1] at h1
  cases h1
  have hB : ∀ e ∈ edgesB, e.sc = none ∧ e.dst < b.levels.length := by
    intro e he
    obtain ⟨i, hi⟩ := List.getElem?_of_mem he
    obtain ⟨a, ha, h3⟩ := (forall₂_getElem? h2).2.2 i e hi
    exact ⟨by rw [h3.2.2.2.2.2, hsc a (List.mem_of_getElem? ha)],
      by rw [hr.wf.2.2]; exact lt_length_of_getElem? h3.2.2.2.1⟩
  obtain ⟨s, h4, h5, -⟩ := sortByKey_ok (key := fwdKey b.levels) fun e he => ⟨_, fwdKey_some (hB e he).2⟩
  rw [s2] at h4
  cases h4
  have hS : ∀ e ∈ sorted, e.sc = none := fun e he => (hB e (h5.mem_iff.mp he)).1
  obtain ⟨kept', removed', h6, h7⟩ := dedupEdges_ok sorted
  rw [s5] at h6
  cases h6
  have hK : ∀ e ∈ kept, e.sc = none := fun e he => hS e (h7.1.subset he)
  rw [remapShortcuts_none _ hS] at s4
  cases s4
  rw [correctShortcuts_plain _ hK] at s6
  cases s6
  simp only [finalize, hc, s1, s2, s3, remapShortcuts_none _ hS, s5, correctShortcuts_plain _ hK, Res.ok_bind, finish]

/-- An inserted edge with indices. -/
def indexed (ids : List Int) (pe : ProtoEdge) : EdgeB :=
  { idx := 0, id := pe.id, src := ids.idxOf pe.srcId, dst := ids.idxOf pe.dstId, metrics := pe.metrics, sc := none }

theorem idxOf_of {ids : List Int} (hs : ids.Pairwise (· < ·)) {i : Nat} {id : Int} (h : ids[i]? = some id) :
    ids.idxOf id = i := by
  have hlt := lt_length_of_getElem? h
  rw [List.getElem?_eq_getElem hlt, Option.some.injEq] at h
  rw [← h]
  exact List.Nodup.idxOf_getElem (hs.imp fun h => ne_of_lt h) i hlt

/-- Two edges with the same key have the same ends and the same id. -/
theorem keyLe_antisymm {x y : Nat × Nat × Nat × Option Nat} (h1 : keyLe x y = true) (h2 : keyLe y x = true) : x = y := by
  obtain ⟨a, b, c, d⟩ := x
  obtain ⟨a', b', c', d'⟩ := y
  unfold keyLe at h1 h2
  simp only [Bool.or_eq_true, Bool.and_eq_true, decide_eq_true_eq] at h1 h2
  have hd : idRank d = idRank d' := by omega
  have : d = d' := by cases d <;> cases d' <;> simp_all [idRank]
  subst this
  have e1 : a = a' := by omega
  have e2 : b = b' := by omega
  have e3 : c = c' := by omega
  rw [e1, e2, e3]

/-- What the builder has for edges without shortcuts. -/
theorem builder_plain (es : List ProtoEdge) (ns : List ProtoNode) (hsc : ∀ pe ∈ es, pe.sc = none) :
    (((EdgeBuilder.new.insertAll es).next).insertAll ns).shortcuts = [] ∧
    ∀ a ∈ (((EdgeBuilder.new.insertAll es).next).insertAll ns).edges, a.sc = none := by
  obtain ⟨h1, h2, h3⟩ := insertAll_inv es
  obtain ⟨s1, s2, s3⟩ := nodeInsertAll_same (EdgeBuilder.new.insertAll es).next ns
  rw [s2, s3]
  have h4 : ∀ a ∈ (EdgeBuilder.new.insertAll es).edges, a.sc = none := by
    intro a ha
    obtain ⟨i, hi⟩ := List.getElem?_of_mem ha
    have hlt := lt_length_of_getElem? hi
    rw [h1] at hlt
    obtain ⟨a', ha', hs⟩ := h2 i es[i] (List.getElem?_eq_getElem hlt)
    rw [hi] at ha'
    cases ha'
    have := hs.2.2.2.2.2
    rw [hsc _ (List.getElem_mem hlt)] at this
    exact this
  refine ⟨?_, h4⟩
  have h5 : (EdgeBuilder.new.insertAll es).edges.filterMap EdgeA.sc = [] :=
    List.filterMap_eq_nil_iff.mpr h4
  rw [h5] at h3
  have := congrArg List.length h3
  rw [List.length_range] at this
  exact List.length_eq_zero_iff.mp this.symm

/-- The builder's edges with indices, in the order of insertion. -/
theorem indexed_eq (es : List ProtoEdge) (ns : List ProtoNode) (hsc : ∀ pe ∈ es, pe.sc = none) {edgesB : List EdgeB}
    (h : toEdgesB (((EdgeBuilder.new.insertAll es).next).insertAll ns).nodeIds
      (((EdgeBuilder.new.insertAll es).next).insertAll ns).edges = .ok edgesB) :
    edgesB.map blank = es.map (indexed (((EdgeBuilder.new.insertAll es).next).insertAll ns).nodeIds) := by
  have hb := built_base es ns
  obtain ⟨h1, h2, h3, -⟩ := built_edges es ns
  have hp := (builder_plain es ns hsc).2
  generalize ((EdgeBuilder.new.insertAll es).next).insertAll ns = b at *
  obtain ⟨bs, h4, h5⟩ := toEdgesB_ok hb.wf.1 hb.known
  rw [h] at h4
  cases h4
  obtain ⟨h6, h7, h8⟩ := forall₂_getElem? h5
  apply List.ext_getElem?
  intro i
  rw [List.getElem?_map, List.getElem?_map]
  cases hi : es[i]? with
  | none =>
    rw [List.getElem?_eq_none_iff] at hi
    rw [List.getElem?_eq_none (by omega)]
    rfl
  | some pe =>
    obtain ⟨a, ha, k1, k2, k3, k4, -⟩ := h2 i pe hi
    obtain ⟨x, hx, j1, j2, j3, j4, j5, j6⟩ := h7 i a ha
    rw [hx]
    simp only [Option.map_some, Option.some.injEq]
    obtain ⟨xi, xid, xs, xd, xm, xsc⟩ := x
    simp only at j1 j2 j3 j4 j5 j6
    simp only [blank, indexed, EdgeB.mk.injEq, true_and]
    rw [← k2, ← k3, idxOf_of hb.wf.1 j3, idxOf_of hb.wf.1 j4]
    exact ⟨j2.trans k1, rfl, rfl, j5.trans k4, by rw [j6, hp a (List.mem_of_getElem? ha)]⟩

/-- Two ascending lists with the same elements are the same. -/
theorem ascending_ext {l l' : List Int} (h : l.Pairwise (· < ·)) (h' : l'.Pairwise (· < ·)) (hm : ∀ x, x ∈ l ↔ x ∈ l') :
    l = l' := by
  refine List.Perm.eq_of_pairwise (le := (· < ·)) (fun a b _ _ h1 h2 => absurd h1 (by omega)) h h' ?_
  exact (List.perm_ext_iff_of_nodup (h.imp fun h => ne_of_lt h) (h'.imp fun h => ne_of_lt h)).mpr hm

/-- The last of equal elements doesn't depend on their order. -/
theorem getLast?_const {α : Type} {l l' : List α} (hp : l.Perm l') (h : ∀ a ∈ l, ∀ b ∈ l, a = b) :
    l.getLast? = l'.getLast? := by
  cases hl : l.getLast? with
  | none =>
    rw [List.getLast?_eq_none_iff] at hl
    subst hl
    rw [hp.symm.eq_nil]
    rfl
  | some a =>
    cases hl' : l'.getLast? with
    | none =>
      rw [List.getLast?_eq_none_iff] at hl'
      subst hl'
      rw [hp.eq_nil] at hl
      cases hl
    | some b =>
      rw [h a (List.mem_of_getLast? hl) b (hp.mem_iff.mpr (List.mem_of_getLast? hl'))]

/-- Sorted edges don't depend on the order of insertion. -/
theorem sorted_eq {levels : List Nat} {l l' s s' : List EdgeB} (hl : ∀ e ∈ l, e.dst < levels.length)
    (hl' : ∀ e ∈ l', e.dst < levels.length)
    (hp : (l.map blank).Perm (l'.map blank))
    (hk : ∀ a ∈ l.map blank, ∀ b ∈ l.map blank, a.src = b.src → a.dst = b.dst → a.id = b.id → a = b)
    (hs : sortByKey (fwdKey levels) l = .ok s) (hs' : sortByKey (fwdKey levels) l' = .ok s') :
    s.map blank = s'.map blank := by
  obtain ⟨t, h1, h2, h3⟩ := sortByKey_ok (key := fwdKey levels) fun e he => ⟨_, fwdKey_some (hl e he)⟩
  obtain ⟨t', h1', h2', h3'⟩ := sortByKey_ok (key := fwdKey levels) fun e he => ⟨_, fwdKey_some (hl' e he)⟩
  rw [hs] at h1
  rw [hs'] at h1'
  cases h1
  cases h1'
  have hperm : (s.map blank).Perm (s'.map blank) := ((h2.map blank).trans hp).trans (h2'.map blank).symm
  refine List.Perm.eq_of_pairwise
    (le := fun a b => ∀ ka kb, fwdKey levels a = some ka → fwdKey levels b = some kb → keyLe ka kb = true)
    ?_ (List.pairwise_map.mpr h3) (List.pairwise_map.mpr h3') hperm
  intro a b ha hb hab hba
  have ha' := (h2.map blank).mem_iff.mp ha
  have hb' := (h2.map blank).mem_iff.mp (hperm.mem_iff.mpr hb)
  have hd : ∀ x ∈ l.map blank, x.dst < levels.length := by
    intro x hx
    obtain ⟨y, hy, rfl⟩ := List.mem_map.mp hx
    exact hl y hy
  have e1 := fwdKey_some (hd a ha')
  have e2 := fwdKey_some (hd b hb')
  have := keyLe_antisymm (hab _ _ e1 e2) (hba _ _ e2 e1)
  simp only [Prod.mk.injEq] at this
  exact hk a ha' b hb' this.1 this.2.2.1 this.2.2.2

end Verif.Build
