import Verif.BuildingProps
import Verif.RebuildSpec

/-!
# Lemmas for building a graph from its own nodes and edges
-/

namespace Verif
namespace Build

/-- The last steps of `finalize`: from the metrics on. -/
def assembleRest (dim : Nat) (nodeIds : List Int) (coords : List Approx.Coord) (levels : List Nat)
    (metrics : List (List ℚ)) (edgesC : List EdgeC) (newSc : List (Nat × (Nat × Nat))) : R Graph := do
  checkMetrics metrics
  let (scOffs, scEdges) ← scOffsets edgesC.length newSc
  let fwdOffs ← mkOffsets (edgesC.map EdgeC.src)
  let idMap ← mkIdMap edgesC
  let bwdSorted ← sortByKey (bwdKey levels) (setIdx 0 edgesC)
  let bwdOffs ← mkOffsets (bwdSorted.map EdgeC.dst)
  pure
    { nodeIds := nodeIds
      nodeCoords := coords
      nodeLevels := levels
      fwdDsts := edgesC.map EdgeC.dst
      fwdOffsets := fwdOffs
      fwdMap := List.range edgesC.length
      bwdDsts := edgesC.map EdgeC.src
      bwdOffsets := bwdOffs
      bwdMap := bwdSorted.map EdgeC.idx
      metrics := metrics
      means := none
      edgeIds := edgesC.map EdgeC.id
      idMap := idMap
      scOffsets := scOffs
      scEdges := scEdges
      dim := dim }

theorem finalize_eq (dim : Nat) (b : NodeBuilder) : finalize dim b = (do
    let coords ← checkCoords b.coords
    let edgesB ← toEdgesB b.nodeIds b.edges
    let sorted ← sortByKey (fwdKey b.levels) edgesB
    let newIdx ← newIndices sorted
    let scs1 ← remapShortcuts newIdx sorted b.shortcuts
    let (kept, removed) ← dedupEdges sorted
    let scs2 ← correctShortcuts removed kept scs1
    let (metrics, edgesC, newSc) ← storeMetrics scs2 0 kept
    assembleRest dim b.nodeIds coords b.levels metrics edgesC newSc) := rfl

/-- Other metrics lead to the same graph with these metrics. -/
theorem assembleRest_metrics {dim dim' : Nat} {ids : List Int} {coords : List Approx.Coord} {levels : List Nat}
    {ms ms' : List (List ℚ)} {cs : List EdgeC} {ss : List (Nat × (Nat × Nat))} {g : Graph}
    (h : assembleRest dim ids coords levels ms cs ss = .ok g) (hm : checkMetrics ms' = .ok ()) :
    assembleRest dim' ids coords levels ms' cs ss = .ok { g with metrics := ms', dim := dim' } := by
  simp only [assembleRest, Res.bind_eq_ok, Res.pure_eq, Res.ok.injEq] at h
  obtain ⟨-, -, ⟨a, b⟩, h1, c, h2, d, h3, e, h4, f, h5, rfl⟩ := h
  simp only [assembleRest, hm, h1, h2, h3, h4, h5, Res.ok_bind, Res.pure_eq]

/-! ## Sorted edges without duplicates -/

theorem insertSorted_head {α : Type} {le : α → α → Bool} {a : α} {l : List α} (h : ∀ b ∈ l, le a b = true) :
    insertSorted le a l = a :: l := by
  cases l with
  | nil => rfl
  | cons b l => rw [insertSorted, if_pos (h b (by simp))]

theorem stableSort_sorted {α : Type} {le : α → α → Bool} {l : List α}
    (h : l.Pairwise fun a b => le a b = true) : stableSort le l = l := by
  induction l with
  | nil => rfl
  | cons a l ih =>
    rw [List.pairwise_cons] at h
    rw [stableSort, ih h.2, insertSorted_head h.1]

theorem sortByKey_sorted {α : Type} {key : α → Option (Nat × Nat × Nat × Option Nat)} {l : List α}
    (h : ∀ a ∈ l, ∃ k, key a = some k)
    (hs : l.Pairwise fun a b => ∀ ka kb, key a = some ka → key b = some kb → keyLe ka kb = true) :
    sortByKey key l = .ok l := by
  obtain ⟨kl, h1, h2, h3⟩ := mapM_key h
  have hsort : stableSort (fun x y : (Nat × Nat × Nat × Option Nat) × α => keyLe x.1 y.1) kl = kl := by
    refine stableSort_sorted ?_
    rw [← h2, List.pairwise_map] at hs
    refine hs.imp_of_mem ?_
    intro a b ha hb hab
    exact hab _ _ (h3 a ha) (h3 b hb)
  simp [sortByKey, h1, hsort, h2]

theorem swap_self {l : List EdgeB} {i : Nat} (h : i < l.length) : swap l i i = .ok l := by
  simp [swap, List.getElem?_eq_getElem h]

theorem dedupLoop_none {l : List EdgeB}
    (h : ∀ (q : Nat) (x y : EdgeB), l[q]? = some x → l[q + 1]? = some y → isDuplicate x y = false) :
    ∀ (n w : Nat) (removed : List Nat), w + n = l.length → 0 < w →
      dedupLoop n l w w removed = .ok (l, removed) := by
  intro n
  induction n with
  | zero => intros; rfl
  | succ n ih =>
    intro w removed hl hw
    have h1 : w < l.length := by omega
    have h0 : w - 1 < l.length := by omega
    have hd := h (w - 1) _ _ (List.getElem?_eq_getElem h0) (by
      rw [show w - 1 + 1 = w by omega]
      exact List.getElem?_eq_getElem h1)
    rw [dedupLoop, if_neg (by omega)]
    simp only [List.getElem?_eq_getElem h0, List.getElem?_eq_getElem h1, Res.ofIdx_some, Res.ok_bind, hd,
      Bool.false_eq_true, if_false, swap_self h1]
    exact ih (w + 1) removed (by omega) (by omega)

theorem dedupEdges_none {l : List EdgeB}
    (h : ∀ (q : Nat) (x y : EdgeB), l[q]? = some x → l[q + 1]? = some y → isDuplicate x y = false) :
    dedupEdges l = .ok (l, []) := by
  cases l with
  | nil => rfl
  | cons a l =>
    rw [dedupEdges, dedupLoop_none h _ 1 [] (by simp; omega) (by omega)]
    simp

theorem correctShortcuts_none {l : List EdgeB} {scs : List (Nat × Nat)}
    (h : ∀ e ∈ l, ∀ k, e.sc = some k → ∃ p, scs[k]? = some p) : correctShortcuts [] l scs = .ok scs := by
  induction l with
  | nil => rfl
  | cons e l ih =>
    rw [correctShortcuts]
    cases hk : e.sc with
    | none => exact ih fun x hx => h x (by simp [hx])
    | some k =>
      obtain ⟨p, hp⟩ := h e (by simp) k hk
      have hset : scs.set k (decrement [] p.1, decrement [] p.2) = scs := by
        have hl := lt_length_of_getElem? hp
        rw [List.getElem?_eq_getElem hl, Option.some.injEq] at hp
        rw [show (decrement [] p.1, decrement [] p.2) = p by simp [decrement], ← hp, List.set_getElem_self]
      simp only [hp, Res.ofIdx_some, Res.ok_bind, hset]
      exact ih fun x hx => h x (by simp [hx])

theorem remapShortcuts_id {l : List EdgeB} {scs : List (Nat × Nat)} {newIdx : List Nat}
    (hid : ∀ i : Nat, i < newIdx.length → newIdx[i]? = some i)
    (h : ∀ e ∈ l, ∀ k, e.sc = some k → ∃ p, scs[k]? = some p ∧ p.1 < newIdx.length ∧ p.2 < newIdx.length) :
    remapShortcuts newIdx l scs = .ok scs := by
  induction l with
  | nil => rfl
  | cons e l ih =>
    rw [remapShortcuts]
    cases hk : e.sc with
    | none => exact ih fun x hx => h x (by simp [hx])
    | some k =>
      obtain ⟨p, hp, h1, h2⟩ := h e (by simp) k hk
      have hset : scs.set k (p.1, p.2) = scs := by
        have hl := lt_length_of_getElem? hp
        rw [List.getElem?_eq_getElem hl, Option.some.injEq] at hp
        rw [show (p.1, p.2) = p from rfl, ← hp, List.set_getElem_self]
      simp only [hp, hid _ h1, hid _ h2, Res.ofIdx_some, Res.ok_bind, hset]
      exact ih fun x hx => h x (by simp [hx])

theorem newIndices_id {l : List EdgeB} (h : ∀ (i : Nat) (x : EdgeB), l[i]? = some x → x.idx = i) :
    ∃ arr, newIndices l = .ok arr ∧ arr.length = l.length ∧ ∀ i : Nat, i < arr.length → arr[i]? = some i := by
  obtain ⟨arr, h1, h2, h3⟩ := newIndices_ok (l := l) (by
    intro e he
    obtain ⟨i, hi⟩ := List.getElem?_of_mem he
    rw [h i e hi]
    exact lt_length_of_getElem? hi) (by
    have : l.map EdgeB.idx = List.range l.length := by
      apply List.ext_getElem?
      intro i
      rw [List.getElem?_map]
      by_cases hi : i < l.length
      · rw [List.getElem?_eq_getElem hi, List.getElem?_range hi]
        simp [h i _ (List.getElem?_eq_getElem hi)]
      · rw [List.getElem?_eq_none (by omega), List.getElem?_eq_none (by simpa using hi)]; rfl
    rw [this]
    exact List.nodup_range)
  refine ⟨arr, h1, h2, ?_⟩
  intro i hi
  have hi' : i < l.length := by omega
  have := h3 i _ (List.getElem?_eq_getElem hi')
  rwa [h i _ (List.getElem?_eq_getElem hi')] at this

/-- The shortcut entries depend on the resolved shortcuts only. -/
theorem scEntries_congr {scs scs' : List (Nat × Nat)} {l l' : List EdgeB} (hl : l.length = l'.length)
    (h : ∀ (i : Nat) (x y : EdgeB), l[i]? = some x → l'[i]? = some y →
      x.sc.bind (fun k => scs[k]?) = y.sc.bind (fun k => scs'[k]?)) :
    ∀ i, scEntries scs i l = scEntries scs' i l' := by
  induction l generalizing l' with
  | nil =>
    cases l' with
    | nil => intro i; rfl
    | cons y l' => simp at hl
  | cons x l ih =>
    cases l' with
    | nil => simp at hl
    | cons y l' =>
      intro i
      have h0 := h 0 x y rfl rfl
      have ih' := ih (l' := l') (by simpa using hl) (fun i a b ha hb => h (i + 1) a b (by simpa using ha)
        (by simpa using hb)) (i + 1)
      rw [scEntries, scEntries, h0, ih']

/-- The kept edges of a built graph with the last steps. -/
theorem build_assemble {dim : Nat} {es : List ProtoEdge} {ns : List ProtoNode} {g : Graph}
    (h : build dim es ns = .ok g) :
    ∃ kept scs,
      (kept.Pairwise fun x y => ∀ kx ky, fwdKey g.nodeLevels x = some kx → fwdKey g.nodeLevels y = some ky →
        keyLe kx ky = true) ∧
      (∀ e ∈ kept, e.src < g.nodeIds.length ∧ e.dst < g.nodeIds.length) ∧
      g.fwdDsts = kept.map EdgeB.dst ∧ g.bwdDsts = kept.map EdgeB.src ∧ g.edgeIds = kept.map EdgeB.id ∧
      (∀ (e : Nat) (x : EdgeB), kept[e]? = some x → g.scEdgesOf e = .ok (x.sc.bind fun k => scs[k]?)) ∧
      (∀ e p, g.scEdgesOf e = .ok (some p) → p.1 < g.edgeCount ∧ p.2 < g.edgeCount) ∧
      assembleRest dim g.nodeIds g.nodeCoords g.nodeLevels g.metrics
        (kept.map fun e => { src := e.src, dst := e.dst, idx := 0, id := e.id }) (scEntries scs 0 kept) = .ok g := by
  obtain ⟨hrec, hr, -, -⟩ := build_ok h
  have hrange : ∀ e p, g.scEdgesOf e = .ok (some p) → p.1 < g.edgeCount ∧ p.2 < g.edgeCount :=
    fun e p hp => C09_in_range h hp
  have hbase := built_base es ns
  obtain ⟨e1, e2, e3, e4⟩ := built_edges es ns
  have hready : Ready (((EdgeBuilder.new.insertAll es).next).insertAll ns) :=
    ⟨hbase.wf, hbase.known, hbase.idx, hbase.sc_nodup, by
      intro a ha k hk
      obtain ⟨p, hp⟩ := hbase.sc_get a ha k hk
      obtain ⟨i, hi⟩ := List.getElem?_of_mem ha
      obtain ⟨pe, hpe⟩ := e3 i a hi
      obtain ⟨a', ha', -, -, -, -, hs⟩ := e2 i pe hpe
      rw [hi] at ha'; cases ha'
      rw [hk] at hs
      rw [e1]
      exact ⟨p, hp, hr pe (List.mem_of_getElem? hpe) p (by rw [← hs]; exact hp)⟩⟩
  unfold build at h
  generalize ((EdgeBuilder.new.insertAll es).next).insertAll ns = b at *
  rcases checkCoords_cases b.coords with ⟨hc1, hc2⟩ | ⟨hc1, coords, hc2, hc3⟩
  · simp [finalize, hc2] at h
  obtain ⟨edgesB, sorted, newIdx, scs1, kept, removed, scs, rep, s1, s2, s3, s4, s5, s6, hrep, hends,
    hscs, hsort⟩ := stage1 hready
  have s7 := storeMetrics_ok kept 0 hscs
  rw [finalize_eq] at h
  simp only [hc2, s1, s2, s3, s4, s5, s6, s7, Res.ok_bind] at h
  have h' := h
  simp only [assembleRest, Res.bind_eq_ok, Res.pure_eq, Res.ok.injEq] at h'
  obtain ⟨-, -, ⟨so, se⟩, h1, c, h2, d, h3, e, h4, f, h5, hg⟩ := h'
  obtain ⟨hse1, hse2, hse3⟩ := scEntries_spec (scs := scs) kept 0
  obtain ⟨scOffs, s8, hso1, hso2⟩ := scOffsets_ok hse1 kept.length (by
    intro x hx; have := hse2 x hx; omega)
  rw [List.length_map, s8, Res.ok.injEq, Prod.mk.injEq] at h1
  obtain ⟨rfl, rfl⟩ := h1
  refine ⟨kept, scs, ?_, ?_, ?_, ?_, ?_, ?_, hrange, ?_⟩
  · rw [← hg]; exact hsort
  · rw [← hg]; exact hends
  · rw [← hg]; simp
  · rw [← hg]; simp
  · rw [← hg]; simp
  · intro e x hx
    have hel := lt_length_of_getElem? hx
    have hspec := scEdgesOf_spec (g := g) hse1 (m := kept.length) (by rw [← hg]; exact hso2) (by rw [← hg]) e
      (by omega)
    cases hk : x.sc with
    | none =>
      refine hspec.2 ?_
      intro p hp
      rw [show (e, p) = (0 + e, p) by simp, hse3] at hp
      obtain ⟨x', k, h1, h2, h3⟩ := hp
      rw [hx] at h1; cases h1
      rw [hk] at h2; cases h2
    | some k =>
      obtain ⟨p, hp⟩ := hscs x (List.mem_of_getElem? hx) k hk
      have := hspec.1 p (by
        rw [show (e, p) = (0 + e, p) by simp, hse3]
        exact ⟨x, k, hx, hk, hp⟩)
      rw [this]; simp [hp]
  · rw [← hg] at h ⊢
    exact h

theorem sorted_ext {l l' : List Int} (h : l.Pairwise (· < ·)) (h' : l'.Pairwise (· < ·))
    (hm : ∀ x, x ∈ l ↔ x ∈ l') : l = l' := by
  have hp : l.Perm l' := (List.perm_ext_iff_of_nodup (h.imp fun h => Int.ne_of_lt h)
    (h'.imp fun h => Int.ne_of_lt h)).mpr hm
  exact hp.eq_of_pairwise (fun a b _ _ h1 h2 => absurd h1 (by omega)) h h'

theorem getLast?_of_all {α : Type} {l : List α} {a : α} (h : a ∈ l) (ha : ∀ x ∈ l, x = a) :
    l.getLast? = some a := by
  have hne : l ≠ [] := List.ne_nil_of_mem h
  rw [List.getLast?_eq_some_getLast hne, ha _ (List.getLast_mem hne)]

theorem last_of_nodup {ns : List ProtoNode} (hd : (ns.map ProtoNode.id).Nodup) {n : ProtoNode} (hn : n ∈ ns) :
    lastRecord ns n.id = some n ∧ (lastLevel ns n.id).getD 0 = n.level.getD 0 := by
  have hall : ∀ x ∈ ns.filter (fun m => m.id = n.id), x = n := by
    intro x hx
    rw [List.mem_filter, decide_eq_true_eq] at hx
    exact List.inj_on_of_nodup_map hd hx.1 hn hx.2
  have hmem : n ∈ ns.filter (fun m => m.id = n.id) := by simp [hn]
  refine ⟨getLast?_of_all hmem hall, ?_⟩
  unfold lastLevel
  cases hl : n.level with
  | none =>
    have : (ns.filter (fun m => m.id = n.id)).filterMap ProtoNode.level = [] := by
      rw [List.filterMap_eq_nil_iff]
      intro x hx
      rw [hall x hx, hl]
    rw [this]; rfl
  | some lv =>
    rw [getLast?_of_all (a := lv)]
    · exact List.mem_filterMap.mpr ⟨n, hmem, hl⟩
    · intro y hy
      obtain ⟨x, hx, hxy⟩ := List.mem_filterMap.mp hy
      rw [hall x hx, hl] at hxy
      exact (Option.some.inj hxy).symm

theorem checkCoords_some (l : List Approx.Coord) : checkCoords (l.map some) = .ok l := by
  induction l with
  | nil => rfl
  | cons a l ih => simp [checkCoords, ih]

theorem range_get {α : Type} {n : Nat} {R : Nat → α → Prop} {l : List α} (h : List.Forall₂ R (List.range n) l) :
    l.length = n ∧ ∀ (i : Nat) (a : α), l[i]? = some a → R i a := by
  obtain ⟨h1, -, h3⟩ := forall₂_getElem? h
  rw [List.length_range] at h1
  refine ⟨h1.symm, ?_⟩
  intro i a ha
  obtain ⟨j, hj, hR⟩ := h3 i a ha
  have hi := lt_length_of_getElem? ha
  rw [List.getElem?_range (by omega), Option.some.injEq] at hj
  rwa [hj]

/-- Building a graph from its own data, possibly with other metrics. -/
theorem rebuild {dim : Nat} {es : List ProtoEdge} {ns : List ProtoNode} {g : Graph}
    (h : build dim es ns = .ok g) {ms : List (List ℚ)} {d : Nat} (hml : ms.length = g.edgeCount)
    (hm : ∀ m ∈ ms, ∀ x ∈ m, eps ≤ x ∧ lifted x = x) {es' : List ProtoEdge} {ns' : List ProtoNode}
    (he : List.Forall₂ (EdgeOf { g with metrics := ms, dim := d }) (List.range g.edgeCount) es')
    (hn : List.Forall₂ (NodeOf { g with metrics := ms, dim := d }) (List.range g.nodeCount) ns')
    (hadj : ∀ (e : Nat) (x y : ProtoEdge), es'[e]? = some x → es'[e + 1]? = some y → ¬ SameEdge x y) :
    build d es' ns' = .ok { g with metrics := ms, dim := d } := by
  have hwf := built_wellFormed h
  obtain ⟨kept, scs, hsort, hends, hdsts, hsrcs, hids, hsc, hrange, hrest⟩ := build_assemble h
  obtain ⟨hel, he⟩ := range_get he
  obtain ⟨hnl, hn⟩ := range_get hn
  have hkl : kept.length = g.edgeCount := by rw [Graph.edgeCount, hdsts, List.length_map]
  have hbase := built_base es' ns'
  obtain ⟨e1, e2, e3, e4⟩ := built_edges es' ns'
  -- nodes
  have hnodup : g.nodeIds.Nodup := hwf.ids_sorted.imp fun h => Int.ne_of_lt h
  have hnid : ns'.map ProtoNode.id = g.nodeIds := by
    apply List.ext_getElem?
    intro i
    rw [List.getElem?_map]
    cases hi : ns'[i]? with
    | none =>
      rw [List.getElem?_eq_none_iff] at hi
      rw [List.getElem?_eq_none (by rw [hnl] at hi; exact hi)]; rfl
    | some n =>
      have := (hn i n hi).id
      exact ((ofIdx_iff (ε := AccErr)).mp this).symm
  have hnodes : (((EdgeBuilder.new.insertAll es').next).insertAll ns').nodeIds = g.nodeIds := by
    refine sorted_ext hbase.wf.1 hwf.ids_sorted ?_
    intro id
    rw [e4]
    constructor
    · rintro ⟨pe, hpe, hid⟩
      obtain ⟨i, hi⟩ := List.getElem?_of_mem hpe
      have hE := he i pe hi
      rcases hid with rfl | rfl
      · obtain ⟨u, -, hu⟩ := hE.src
        exact List.mem_of_getElem? ((ofIdx_iff (ε := AccErr)).mp hu)
      · obtain ⟨u, -, hu⟩ := hE.dst
        exact List.mem_of_getElem? ((ofIdx_iff (ε := AccErr)).mp hu)
    · intro hid
      obtain ⟨j, hj⟩ := List.getElem?_of_mem hid
      have hid' := (C01_node_ids h).2 id |>.mp ⟨j, (ofIdx_iff (ε := AccErr)).mpr hj⟩
      obtain ⟨pe, hpe, hor⟩ := hid'
      obtain ⟨e, hlt, pe', -, hE, hs⟩ := C05_no_edge_lost h hpe
      have hsame : pe'.srcId = pe.srcId ∧ pe'.dstId = pe.dstId := by
        rcases hs with rfl | hs
        · exact ⟨rfl, rfl⟩
        · exact ⟨hs.2.1, hs.2.2.1⟩
      have hlt' : e < es'.length := by omega
      have hE' := he e _ (List.getElem?_eq_getElem hlt')
      refine ⟨es'[e], List.getElem_mem hlt', ?_⟩
      rcases hor with rfl | rfl
      · left
        obtain ⟨u, hu1, hu2⟩ := hE.src
        obtain ⟨u', hu1', hu2'⟩ := hE'.src
        have : u' = u := Res.ok.inj (hu1'.symm.trans hu1)
        subst this
        rw [← hsame.1]
        exact Res.ok.inj (hu2.symm.trans hu2')
      · right
        obtain ⟨u, hu1, hu2⟩ := hE.dst
        obtain ⟨u', hu1', hu2'⟩ := hE'.dst
        have : u' = u := Res.ok.inj (hu1'.symm.trans hu1)
        subst this
        rw [← hsame.2]
        exact Res.ok.inj (hu2.symm.trans hu2')
  have hnext : (EdgeBuilder.new.insertAll es').next.nodeIds = g.nodeIds := by
    rw [← hnodes, (nodeInsertAll_same _ ns').1]
  have hnd := built_nodes (EdgeBuilder.new.insertAll es').next (next_wf _) rfl rfl ns'
  rw [hnext] at hnd
  have hnd' : ∀ (i : Nat) (n : ProtoNode), ns'[i]? = some n →
      (((EdgeBuilder.new.insertAll es').next).insertAll ns').coords[i]? = some (some n.coord) ∧
      (((EdgeBuilder.new.insertAll es').next).insertAll ns').levels[i]? = some (n.level.getD 0) := by
    intro i n hi
    have hid : g.nodeIds[i]? = some n.id := by rw [← hnid]; simp [hi]
    obtain ⟨h1, h2⟩ := hnd i n.id hid
    obtain ⟨h3, h4⟩ := last_of_nodup (by rw [hnid]; exact hnodup) (List.mem_of_getElem? hi)
    rw [h3] at h1
    rw [h4] at h2
    exact ⟨h1, h2⟩
  have hcoords : (((EdgeBuilder.new.insertAll es').next).insertAll ns').coords = g.nodeCoords.map some := by
    apply List.ext_getElem?
    intro i
    rw [List.getElem?_map]
    cases hi : ns'[i]? with
    | none =>
      rw [List.getElem?_eq_none_iff] at hi
      rw [List.getElem?_eq_none, List.getElem?_eq_none]
      · rfl
      · rw [hwf.coords_len]; omega
      · rw [hbase.wf.2.1, hnodes]; rw [hnl] at hi; exact hi
    | some n =>
      have hc : g.nodeCoords[i]? = some n.coord := (ofIdx_iff (ε := AccErr)).mp (hn i n hi).coord
      rw [(hnd' i n hi).1, hc]; rfl
  have hlevels : (((EdgeBuilder.new.insertAll es').next).insertAll ns').levels = g.nodeLevels := by
    apply List.ext_getElem?
    intro i
    cases hi : ns'[i]? with
    | none =>
      rw [List.getElem?_eq_none_iff] at hi
      rw [List.getElem?_eq_none, List.getElem?_eq_none]
      · rw [hwf.levels_len]; omega
      · rw [hbase.wf.2.2, hnodes]; rw [hnl] at hi; exact hi
    | some n =>
      have hc : g.nodeLevels[i]? = some (n.level.getD 0) := (ofIdx_iff (ε := AccErr)).mp (hn i n hi).level
      rw [(hnd' i n hi).2, hc]
  -- edges
  obtain ⟨bs, s1, hF⟩ := toEdgesB_ok hbase.wf.1 hbase.known
  have hidx := hbase.idx
  have hscget := hbase.sc_get
  unfold build
  rw [finalize_eq]
  generalize ((EdgeBuilder.new.insertAll es').next).insertAll ns' = b at *
  obtain ⟨hbl, hF1, hF2⟩ := forall₂_getElem? hF
  have hbl' : bs.length = kept.length := by omega
  have hrel : ∀ (i : Nat) (x : EdgeB), bs[i]? = some x → ∃ (a : EdgeA) (pe : ProtoEdge) (y : EdgeB),
      b.edges[i]? = some a ∧ IdxOf b.nodeIds a x ∧ es'[i]? = some pe ∧ a.id = pe.id ∧ a.srcId = pe.srcId ∧
      a.dstId = pe.dstId ∧ a.metrics = pe.metrics ∧ x.sc.bind (fun k => b.shortcuts[k]?) = pe.sc ∧
      kept[i]? = some y ∧ x.src = y.src ∧ x.dst = y.dst ∧ x.id = y.id ∧ ms[i]? = some x.metrics ∧
      pe.sc = y.sc.bind fun k => scs[k]? := by
    intro i x hx
    have hi := lt_length_of_getElem? hx
    obtain ⟨a, ha, hax⟩ := hF2 i x hx
    obtain ⟨pe, hpe⟩ := e3 i a ha
    obtain ⟨a', ha', p1, p2, p3, p4, p5⟩ := e2 i pe hpe
    rw [ha] at ha'; cases ha'
    have hE := he i pe hpe
    have hy : kept[i]? = some kept[i] := List.getElem?_eq_getElem (by omega)
    have hax' := hax
    obtain ⟨-, i2, i3, i4, i5, i6⟩ := hax'
    have hpos : ∀ (u v : Nat) (id : Int), g.nodeIds[u]? = some id → g.nodeIds[v]? = some id → u = v := by
      intro u v id hu hv
      exact (List.getElem?_inj (lt_length_of_getElem? hu) hnodup).mp (by rw [hu, hv])
    refine ⟨a, pe, kept[i], ha, hax, hpe, p1, p2, p3, p4, ?_, hy, ?_, ?_, ?_, ?_, ?_⟩
    · rw [i6]; exact p5
    · obtain ⟨u, hu1, hu2⟩ := hE.src
      have hu1 : g.bwdDsts[i]? = some u := (ofIdx_iff (ε := AccErr)).mp hu1
      have hu2 : g.nodeIds[u]? = some pe.srcId := (ofIdx_iff (ε := AccErr)).mp hu2
      rw [hsrcs, List.getElem?_map, hy] at hu1
      rw [Option.some.inj hu1]
      rw [hnodes, p2] at i3
      exact hpos _ _ _ i3 hu2
    · obtain ⟨u, hu1, hu2⟩ := hE.dst
      have hu1 : g.fwdDsts[i]? = some u := (ofIdx_iff (ε := AccErr)).mp hu1
      have hu2 : g.nodeIds[u]? = some pe.dstId := (ofIdx_iff (ε := AccErr)).mp hu2
      rw [hdsts, List.getElem?_map, hy] at hu1
      rw [Option.some.inj hu1]
      rw [hnodes, p3] at i4
      exact hpos _ _ _ i4 hu2
    · have hid : g.edgeIds[i]? = some pe.id := (ofIdx_iff (ε := AccErr)).mp hE.id
      rw [hids, List.getElem?_map, hy] at hid
      rw [i2, p1]
      exact (Option.some.inj hid).symm
    · have hmi : ms[i]? = some pe.metrics := (ofIdx_iff (ε := AccErr)).mp hE.metrics
      rw [i5, p4]; exact hmi
    · have h1 : g.scEdgesOf i = .ok pe.sc := hE.sc
      rw [hsc i _ hy] at h1
      exact (Res.ok.inj h1).symm
  have hbidx : ∀ (i : Nat) (x : EdgeB), bs[i]? = some x → x.idx = i := by
    intro i x hx
    obtain ⟨a, -, -, ha, hax, -⟩ := hrel i x hx
    rw [hax.1, hidx i a ha]
  have s2 : sortByKey (fwdKey b.levels) bs = .ok bs := by
    rw [hlevels]
    refine sortByKey_sorted ?_ ?_
    · intro x hx
      obtain ⟨i, hi⟩ := List.getElem?_of_mem hx
      obtain ⟨-, -, y, -, -, -, -, -, -, -, -, hy, -, h2, -⟩ := hrel i x hi
      exact ⟨_, fwdKey_some (by rw [h2, hwf.levels_len]; exact (hends y (List.mem_of_getElem? hy)).2)⟩
    · rw [List.pairwise_iff_getElem] at hsort ⊢
      intro i j hi hj hij kx ky hkx hky
      obtain ⟨-, -, y, -, -, -, -, -, -, -, -, hy, h1, h2, h3, -⟩ := hrel i _ (List.getElem?_eq_getElem hi)
      obtain ⟨-, -, y', -, -, -, -, -, -, -, -, hy', h1', h2', h3', -⟩ := hrel j _ (List.getElem?_eq_getElem hj)
      have hs := hsort i j (by omega) (by omega) hij
      rw [List.getElem?_eq_getElem (by omega)] at hy hy'
      rw [Option.some.inj hy, Option.some.inj hy'] at hs
      refine hs kx ky ?_ ?_
      · rw [← hkx, fwdKey, fwdKey, h1, h2, h3]
      · rw [← hky, fwdKey, fwdKey, h1', h2', h3']
  obtain ⟨arr, s3, harr1, harr2⟩ := newIndices_id hbidx
  have hscb : ∀ x ∈ bs, ∀ k, x.sc = some k → ∃ p, b.shortcuts[k]? = some p ∧ p.1 < bs.length ∧ p.2 < bs.length := by
    intro x hx k hk
    obtain ⟨i, hi⟩ := List.getElem?_of_mem hx
    obtain ⟨a, pe, y, ha, hax, hpe, -, -, -, -, hs, -⟩ := hrel i x hi
    obtain ⟨p, hp⟩ := hscget a (List.mem_of_getElem? ha) k (by rw [← hax.2.2.2.2.2]; exact hk)
    refine ⟨p, hp, ?_⟩
    rw [hk] at hs
    have hps : pe.sc = some p := by rw [← hs]; exact hp
    have h1 : g.scEdgesOf i = .ok pe.sc := (he i pe hpe).sc
    rw [hps] at h1
    have := hrange i p h1
    rw [hbl', hkl]
    exact this
  have s4 : remapShortcuts arr bs b.shortcuts = .ok b.shortcuts := remapShortcuts_id harr2 (by
    rw [harr1]; exact hscb)
  have s5 : dedupEdges bs = .ok (bs, []) := dedupEdges_none (by
    intro q x y hx hy
    by_contra hcon
    rw [Bool.not_eq_false] at hcon
    obtain ⟨a, pe, -, -, hax, hpe, a1, a2, a3, a4, -⟩ := hrel q x hx
    obtain ⟨a', pe', -, -, hax', hpe', a1', a2', a3', a4', -⟩ := hrel (q + 1) y hy
    obtain ⟨d1, d2, d3, d4⟩ := isDuplicate_spec hax hax' hcon
    refine hadj q pe pe' hpe hpe' ⟨by rw [← a1, ← a1', d1], by rw [← a2, ← a2', d2], by rw [← a3, ← a3', d3], ?_⟩
    intro k u v hu hv
    rw [← a4] at hu
    rw [← a4'] at hv
    exact (Approx.C24_eq_iff _ _).mp (d4 k u v hu hv))
  have hscb' : ∀ x ∈ bs, ∀ k, x.sc = some k → ∃ p, b.shortcuts[k]? = some p := by
    intro x hx k hk
    obtain ⟨p, hp, -⟩ := hscb x hx k hk
    exact ⟨p, hp⟩
  have s6 : correctShortcuts [] bs b.shortcuts = .ok b.shortcuts := correctShortcuts_none hscb'
  have s7 := storeMetrics_ok bs 0 hscb'
  have hmetrics : bs.map (fun e => e.metrics.map correctMetric) = ms := by
    apply List.ext_getElem?
    intro i
    rw [List.getElem?_map]
    cases hi : bs[i]? with
    | none =>
      rw [List.getElem?_eq_none_iff] at hi
      rw [List.getElem?_eq_none (by omega)]; rfl
    | some x =>
      obtain ⟨-, -, -, -, -, -, -, -, -, -, -, -, -, -, -, hmx, -⟩ := hrel i x hi
      rw [hmx]
      have hx : x.metrics.map correctMetric = x.metrics := by
        rw [correctMetric_eq_lifted]
        conv_rhs => rw [← List.map_id x.metrics]
        exact List.map_congr_left fun y hy => (hm _ (List.mem_of_getElem? hmx) y hy).2
      rw [Option.map_some, hx]
  have hC : bs.map (fun e => ({ src := e.src, dst := e.dst, idx := 0, id := e.id } : EdgeC)) =
      kept.map fun e => { src := e.src, dst := e.dst, idx := 0, id := e.id } := by
    apply List.ext_getElem?
    intro i
    rw [List.getElem?_map, List.getElem?_map]
    cases hi : bs[i]? with
    | none =>
      rw [List.getElem?_eq_none_iff] at hi
      rw [List.getElem?_eq_none (by omega)]
    | some x =>
      obtain ⟨-, -, y, -, -, -, -, -, -, -, -, hy, h1, h2, h3, -⟩ := hrel i x hi
      rw [hy, Option.map_some, Option.map_some, h1, h2, h3]
  have hS : scEntries b.shortcuts 0 bs = scEntries scs 0 kept := by
    refine scEntries_congr hbl' ?_ 0
    intro i x y hx hy
    obtain ⟨_, _, y', -, -, -, -, -, -, -, hs, hy', -, -, -, -, hs'⟩ := hrel i x hx
    rw [hy] at hy'
    cases hy'
    rw [hs, hs']
  have s8 : checkMetrics ms = .ok () := by
    rcases checkMetrics_cases ms with ⟨⟨m, hmm, x, hx, hlt⟩, -⟩ | ⟨-, h⟩
    · exact absurd (hm m hmm x hx).1 (not_le.mpr hlt)
    · exact h
  rw [hcoords, checkCoords_some]
  simp only [s1, s2, s3, s4, s5, s6, s7, Res.ok_bind]
  rw [hmetrics, hC, hS, hnodes, hlevels]
  exact assembleRest_metrics hrest s8

theorem built_means {dim : Nat} {es : List ProtoEdge} {ns : List ProtoNode} {g : Graph}
    (h : build dim es ns = .ok g) : g.means = none := by
  obtain ⟨kept, scs, -, -, -, -, -, -, -, h⟩ := build_assemble h
  simp only [assembleRest, Res.bind_eq_ok, Res.pure_eq, Res.ok.injEq] at h
  obtain ⟨-, -, ⟨a, b⟩, h1, c, h2, d, h3, e, h4, f, h5, h6⟩ := h
  rw [← h6]

end Build
end Verif
