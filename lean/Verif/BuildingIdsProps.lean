import Verif.BuildingIdsLemmas

/-!
# C11: exactly when building fails because of ids
-/

namespace Verif
namespace Build

theorem bind_eq_err {ε α β : Type} {r : Res ε α} {f : α → Res ε β} {e : ε} (h : (r >>= f) = .err e) :
    r = .err e ∨ ∃ a, r = .ok a ∧ f a = .err e := by
  cases r with
  | ok a => exact .inr ⟨a, rfl, h⟩
  | err x => left; simpa using h
  | panic => simp at h

theorem sortByKey_not_err {α : Type} {key : α → Option (Nat × Nat × Nat × Option Nat)} {l : List α} {e : BuildErr} :
    sortByKey key l ≠ .err e := by
  unfold sortByKey
  split <;> simp

theorem offsetsGo_not_err {l : List Nat} {s o : Nat} {e : BuildErr} : offsetsGo s o l ≠ .err e := by
  induction l generalizing s o with
  | nil => simp [offsetsGo]
  | cons a l ih =>
    unfold offsetsGo
    split
    · intro h
      rcases bind_eq_err h with h | ⟨x, -, h⟩
      · exact ih h
      · simp at h
    · simp

theorem mkOffsets_not_err {l : List Nat} {e : BuildErr} : mkOffsets l ≠ .err e := by
  intro h
  rcases bind_eq_err h with h | ⟨x, -, h⟩
  · exact offsetsGo_not_err h
  · simp at h

theorem finalize_kept (dim : Nat) {b : NodeBuilder} (h : Ready b) : ∃ edgesB sorted kept removed,
    toEdgesB b.nodeIds b.edges = .ok edgesB ∧ sortByKey (fwdKey b.levels) edgesB = .ok sorted ∧
    dedupEdges sorted = .ok (kept, removed) ∧
    (∀ g, finalize dim b = .ok g → (kept.filterMap EdgeB.id).Nodup) ∧
    (finalize dim b = .err .duplicateEdgeId → ¬ (kept.filterMap EdgeB.id).Nodup) := by
  obtain ⟨edgesB, sorted, newIdx, scs1, kept, removed, scs, rep, s1, s2, s3, s4, s5, s6, -, -, hscs, -⟩ := stage1 h
  refine ⟨edgesB, sorted, kept, removed, s1, s2, s5, ?_⟩
  have s7 := storeMetrics_ok kept 0 hscs
  let edgesC : List EdgeC := kept.map (fun e => { src := e.src, dst := e.dst, idx := 0, id := e.id })
  have hid : edgesC.filterMap EdgeC.id = kept.filterMap EdgeB.id := by
    simp only [edgesC, List.filterMap_map]; rfl
  obtain ⟨hse1, hse2, -⟩ := scEntries_spec (scs := scs) kept 0
  obtain ⟨scOffs, s8, -, -⟩ := scOffsets_ok hse1 edgesC.length (by
    intro x hx; have := hse2 x hx; simp only [edgesC, List.length_map]; omega)
  rw [← hid]
  constructor
  · intro g hg
    unfold finalize at hg
    obtain ⟨coords, -, hg⟩ := Res.bind_eq_ok.mp hg
    simp only [s1, s2, s3, s4, s5, s6, s7, Res.ok_bind] at hg
    obtain ⟨_, -, hg⟩ := Res.bind_eq_ok.mp hg
    obtain ⟨_, -, hg⟩ := Res.bind_eq_ok.mp hg
    obtain ⟨_, -, hg⟩ := Res.bind_eq_ok.mp hg
    obtain ⟨m, hm, -⟩ := Res.bind_eq_ok.mp hg
    rcases mkIdMap_cases edgesC with ⟨-, h'⟩ | ⟨h', -⟩
    · rw [show mkIdMap edgesC = .ok m from hm] at h'; cases h'
    · exact h'
  · intro hg hnd
    unfold finalize at hg
    rcases bind_eq_err hg with hg | ⟨coords, -, hg⟩
    · rcases checkCoords_cases b.coords with ⟨-, h'⟩ | ⟨-, c, h', -⟩ <;> rw [hg] at h' <;> cases h'
    simp only [s1, s2, s3, s4, s5, s6, s7, Res.ok_bind] at hg
    rcases bind_eq_err hg with hg | ⟨_, -, hg⟩
    · rcases checkMetrics_cases (kept.map (fun e => e.metrics.map correctMetric)) with ⟨-, h'⟩ | ⟨-, h'⟩ <;>
        rw [hg] at h' <;> cases h'
    rw [show scOffsets _ _ = _ from s8, Res.ok_bind] at hg
    rcases bind_eq_err hg with hg | ⟨_, -, hg⟩
    · exact mkOffsets_not_err hg
    rcases bind_eq_err hg with hg | ⟨_, -, hg⟩
    · rcases mkIdMap_cases edgesC with ⟨h', -⟩ | ⟨-, m, h', -⟩
      · exact h' hnd
      · rw [show mkIdMap edgesC = _ from hg] at h'; cases h'
    rcases bind_eq_err hg with hg | ⟨_, -, hg⟩
    · exact sortByKey_not_err hg
    rcases bind_eq_err hg with hg | ⟨_, -, hg⟩
    · exact mkOffsets_not_err hg
    simp at hg

/-- C11: if nothing else is wrong, then building fails iff there is an id for which some edge isn't the same as the first
edge that was inserted with this id. -/
theorem C11_fails_iff {dim : Nat} {es : List ProtoEdge} {ns : List ProtoNode}
    (h : build dim es ns = .err .duplicateEdgeId ∨ ∃ g, build dim es ns = .ok g) :
    build dim es ns = .err .duplicateEdgeId ↔
      ∃ (i j : Nat) (pe pe' : ProtoEdge) (id : Nat), i < j ∧ es[i]? = some pe ∧ es[j]? = some pe' ∧
        pe.id = some id ∧ pe'.id = some id ∧
        (∀ k p, k < i → es[k]? = some p → p.id ≠ some id) ∧ ¬ SameEdge pe pe' := by
  have hr : ScInRange es := by
    by_contra hc
    rcases build_cases dim es ns with ⟨-, h'⟩ | ⟨-, ⟨-, h'⟩ | ⟨hr, -⟩⟩
    · rcases h with h | ⟨g, h⟩ <;> rw [h] at h' <;> cases h'
    · rcases h with h | ⟨g, h⟩ <;> rw [h] at h' <;> cases h'
    · exact hc hr
  have hbase := built_base es ns
  obtain ⟨e1, e2, e3, -⟩ := built_edges es ns
  have hready : Ready (((EdgeBuilder.new.insertAll es).next).insertAll ns) := by
    refine ⟨hbase.wf, hbase.known, hbase.idx, hbase.sc_nodup, fun a ha k hk => ?_⟩
    obtain ⟨p, hp⟩ := hbase.sc_get a ha k hk
    obtain ⟨i, hi⟩ := List.getElem?_of_mem ha
    obtain ⟨pe, hpe⟩ := e3 i a hi
    obtain ⟨a', ha', -, -, -, -, hs⟩ := e2 i pe hpe
    rw [hi] at ha'; cases ha'
    rw [hk] at hs
    have := hr pe (List.mem_of_getElem? hpe) p (by rw [← hs]; exact hp)
    rw [e1]
    exact ⟨p, hp, this⟩
  obtain ⟨edgesB, sorted, kept, removed, s1, s2, s5, hok, herr⟩ := finalize_kept dim hready
  obtain ⟨edgesB', s1', hF⟩ := toEdgesB_ok hbase.wf.1 hbase.known
  rw [s1] at s1'
  cases s1'
  obtain ⟨hlenB, hFr, hFl⟩ := forall₂_getElem? hF
  have hidxB : ∀ (i : Nat) (x : EdgeB), edgesB[i]? = some x → x.idx = i := by
    intro i x hx
    obtain ⟨a, ha, hax⟩ := hFl i x hx
    rw [hax.1, hbase.idx i a ha]
  have hkeys : ∀ x ∈ edgesB, ∃ k, fwdKey (((EdgeBuilder.new.insertAll es).next).insertAll ns).levels x = some k := by
    intro x hx
    obtain ⟨i, hi⟩ := List.getElem?_of_mem hx
    obtain ⟨a, ha, hax⟩ := hFl i x hi
    exact ⟨_, fwdKey_some (by rw [hbase.wf.2.2]; exact lt_length_of_getElem? hax.2.2.2.1)⟩
  have hR : edgesB.Pairwise fun x y => x.idx < y.idx := by
    rw [List.pairwise_iff_getElem]
    intro i j hi hj hij
    rw [hidxB i _ (List.getElem?_eq_getElem hi), hidxB j _ (List.getElem?_eq_getElem hj)]
    exact hij
  obtain ⟨sorted', s2', hperm, hsort⟩ := sortByKey_ok hkeys
  rw [s2] at s2'
  cases s2'
  have hS : Sorted (((EdgeBuilder.new.insertAll es).next).insertAll ns).levels sorted :=
    ⟨fun x hx => hkeys x (hperm.mem_iff.mp hx), hsort, sortByKey_stable hkeys hR s2⟩
  have hn : (sorted.map EdgeB.idx).Nodup := by
    rw [(hperm.map EdgeB.idx).nodup_iff]
    unfold List.Nodup
    rw [List.pairwise_map]
    exact hR.imp fun hxy => Nat.ne_of_lt hxy
  have hiff := kept_unique_iff hS hn s5
  have hdup : build dim es ns = .err .duplicateEdgeId ↔ ¬ (kept.filterMap EdgeB.id).Nodup := by
    refine ⟨herr, fun hnd => ?_⟩
    rcases h with h | ⟨g, h⟩
    · exact h
    · exact absurd (hok g h) hnd
  -- inserted edges and sorted edges
  have hto : ∀ (i : Nat) (pe : ProtoEdge), es[i]? = some pe → ∃ x ∈ sorted, x.idx = i ∧ x.id = pe.id ∧
      ∃ a, (((EdgeBuilder.new.insertAll es).next).insertAll ns).edges[i]? = some a ∧
        IdxOf (((EdgeBuilder.new.insertAll es).next).insertAll ns).nodeIds a x := by
    intro i pe hpe
    obtain ⟨a, ha, a1, -⟩ := e2 i pe hpe
    obtain ⟨x, hx, hax⟩ := hFr i a ha
    exact ⟨x, hperm.mem_iff.mpr (List.mem_of_getElem? hx), hidxB i x hx, by rw [hax.2.1, a1], a, ha, hax⟩
  have hback : ∀ x ∈ sorted, ∃ pe, es[x.idx]? = some pe ∧ x.id = pe.id ∧
      ∃ a, (((EdgeBuilder.new.insertAll es).next).insertAll ns).edges[x.idx]? = some a ∧
        IdxOf (((EdgeBuilder.new.insertAll es).next).insertAll ns).nodeIds a x ∧
        a.id = pe.id ∧ a.srcId = pe.srcId ∧ a.dstId = pe.dstId ∧ a.metrics = pe.metrics := by
    intro x hx
    obtain ⟨i, hi⟩ := List.getElem?_of_mem (hperm.mem_iff.mp hx)
    have hxi := hidxB i x hi
    obtain ⟨a, ha, hax⟩ := hFl i x hi
    obtain ⟨pe, hpe⟩ := e3 i a ha
    obtain ⟨a', ha', a1, a2, a3, a4, -⟩ := e2 i pe hpe
    rw [ha] at ha'; cases ha'
    rw [hxi]
    exact ⟨pe, hpe, by rw [hax.2.1, a1], a, ha, hax, a1, a2, a3, a4⟩
  rw [hdup, hiff]
  constructor
  · intro hc
    push Not at hc
    obtain ⟨x, hx, y, hy, id, hxi, hyi, hf, hne, hd⟩ := hc
    obtain ⟨pe, hpe, p1, a, ha, hax, -⟩ := hback x hx
    obtain ⟨pe', hpe', p1', a', ha', hax', -⟩ := hback y hy
    have hle := hf y hy hyi
    refine ⟨x.idx, y.idx, pe, pe', id, ?_, hpe, hpe', by rw [← p1]; exact hxi, by rw [← p1']; exact hyi, ?_, ?_⟩
    · rcases Nat.lt_or_eq_of_le hle with h1 | h1
      · exact h1
      · exact absurd (List.inj_on_of_nodup_map hn hx hy h1) hne
    · intro k p hk hp hpi
      obtain ⟨z, hz, z1, z2, -⟩ := hto k p hp
      have := hf z hz (z2.trans hpi)
      omega
    · intro hs
      exact hd (isDuplicate_of ha ha' hpe hpe' hax hax' hs)
  · rintro ⟨i, j, pe, pe', id, hij, hpe, hpe', hi, hj, hfirst, hns⟩ hall
    obtain ⟨x, hx, x1, x2, -⟩ := hto i pe hpe
    obtain ⟨y, hy, y1, y2, -⟩ := hto j pe' hpe'
    have hd := hall x hx y hy id (x2.trans hi) (y2.trans hj) (fun z hz hzi => by
      obtain ⟨p, hp, hp1, -⟩ := hback z hz
      by_contra hlt
      exact hfirst z.idx p (by omega) hp (hp1 ▸ hzi)) (by rintro rfl; omega)
    obtain ⟨p, hp, -, a, -, hax, a1, a2, a3, a4⟩ := hback x hx
    obtain ⟨p', hp', -, a', -, hax', b1, b2, b3, b4⟩ := hback y hy
    rw [x1, hpe] at hp
    rw [y1, hpe'] at hp'
    cases hp
    cases hp'
    obtain ⟨d1, d2, d3, d4⟩ := isDuplicate_spec hax hax' hd
    refine hns ⟨by rw [← a1, ← b1, d1], by rw [← a2, ← b2, d2], by rw [← a3, ← b3, d3], fun k u v hu hv => ?_⟩
    rw [← Approx.C24_eq_iff]
    exact d4 k u v (by rw [a4]; exact hu) (by rw [b4]; exact hv)

/-- Three edges with one id: the second is the same as the first up to the tolerance, and so is the third as the second,
but not as the first. -/
example : build 1 [{ id := some 3, srcId := 1, dstId := 2, metrics := [1], sc := none },
      { id := some 3, srcId := 1, dstId := 2, metrics := [1 + 1 / 1000000], sc := none },
      { id := some 3, srcId := 1, dstId := 2, metrics := [1 + 2 / 1000000], sc := none }]
    [{ id := 1, coord := ⟨0, 0⟩, level := none }, { id := 2, coord := ⟨0, 0⟩, level := none }] =
      .err .duplicateEdgeId := by decide +kernel

/-- In another order, building succeeds. -/
example : (match build 1 [{ id := some 3, srcId := 1, dstId := 2, metrics := [1 + 1 / 1000000], sc := none },
      { id := some 3, srcId := 1, dstId := 2, metrics := [1], sc := none },
      { id := some 3, srcId := 1, dstId := 2, metrics := [1 + 2 / 1000000], sc := none }]
    [{ id := 1, coord := ⟨0, 0⟩, level := none }, { id := 2, coord := ⟨0, 0⟩, level := none }] with
    | .ok g => g.fwdDsts.length
    | _ => 0) = 1 := by decide +kernel

end Build
end Verif
