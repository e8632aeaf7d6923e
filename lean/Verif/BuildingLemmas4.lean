import Verif.BuildingLemmas3
import Verif.BuildingSpec

/-!
# All outcomes of a build
-/

namespace Verif
namespace Build

/-! ## From insertion to the hypotheses of `finalize_spec` -/

theorem correctMetric_eq_lifted : correctMetric = lifted := by
  funext m
  unfold correctMetric lifted
  by_cases h : |m| < 3 / 2000000
  · rw [if_pos h, if_pos]
    · norm_num [eps]
    · rw [Approx.C24_eq_iff]; simpa using h
  · rw [if_neg h, if_neg]
    rw [Approx.C24_eq_iff]; simpa using h

theorem built_base (es : List ProtoEdge) (ns : List ProtoNode) :
    Base (((EdgeBuilder.new.insertAll es).next).insertAll ns) := by
  obtain ⟨h1, h2, h3⟩ := insertAll_inv es
  obtain ⟨s1, s2, s3⟩ := nodeInsertAll_same (EdgeBuilder.new.insertAll es).next ns
  have hget : ∀ (i : Nat) (a : EdgeA), (EdgeBuilder.new.insertAll es).edges[i]? = some a →
      ∃ pe, es[i]? = some pe ∧ Stores (EdgeBuilder.new.insertAll es).shortcuts i pe a := by
    intro i a ha
    have hl := lt_length_of_getElem? ha
    rw [h1] at hl
    obtain ⟨a', ha', hs⟩ := h2 i es[i] (List.getElem?_eq_getElem hl)
    rw [ha] at ha'; cases ha'
    exact ⟨_, List.getElem?_eq_getElem hl, hs⟩
  have hE : (EdgeBuilder.new.insertAll es).next.edges = (EdgeBuilder.new.insertAll es).edges := rfl
  have hS : (EdgeBuilder.new.insertAll es).next.shortcuts =
    (EdgeBuilder.new.insertAll es).shortcuts := rfl
  rw [hE] at s2
  rw [hS] at s3
  refine ⟨nodeInsertAll_wf (next_wf _) ns, ?_, ?_, ?_, ?_⟩
  · intro a ha
    rw [s2] at ha
    rw [s1]
    obtain ⟨i, hi⟩ := List.getElem?_of_mem ha
    obtain ⟨pe, hpe, hst⟩ := hget i a hi
    have hm := List.mem_of_getElem? hpe
    rw [mem_next_nodeIds, mem_next_nodeIds, mem_insertAll_nodeIds, mem_insertAll_nodeIds]
    exact ⟨Or.inr ⟨pe, hm, Or.inl hst.2.2.1⟩, Or.inr ⟨pe, hm, Or.inr hst.2.2.2.1⟩⟩
  · intro i a ha
    rw [s2] at ha
    obtain ⟨pe, -, hst⟩ := hget i a ha
    exact hst.1
  · rw [s2, h3]; exact List.nodup_range
  · intro a ha k hk
    rw [s2] at ha
    rw [s3]
    have : k ∈ (EdgeBuilder.new.insertAll es).edges.filterMap EdgeA.sc :=
      List.mem_filterMap.mpr ⟨a, ha, hk⟩
    rw [h3, List.mem_range] at this
    exact ⟨_, List.getElem?_eq_getElem this⟩

theorem built_edges (es : List ProtoEdge) (ns : List ProtoNode) :
    let b := ((EdgeBuilder.new.insertAll es).next).insertAll ns
    b.edges.length = es.length ∧
    (∀ (i : Nat) (pe : ProtoEdge), es[i]? = some pe → ∃ a, b.edges[i]? = some a ∧
      a.id = pe.id ∧ a.srcId = pe.srcId ∧ a.dstId = pe.dstId ∧ a.metrics = pe.metrics ∧
      a.sc.bind (fun k => b.shortcuts[k]?) = pe.sc) ∧
    (∀ (i : Nat) (a : EdgeA), b.edges[i]? = some a → ∃ pe, es[i]? = some pe) ∧
    (∀ id, id ∈ b.nodeIds ↔ Endpoint es id) := by
  obtain ⟨h1, h2, h3⟩ := insertAll_inv es
  obtain ⟨s1, s2, s3⟩ := nodeInsertAll_same (EdgeBuilder.new.insertAll es).next ns
  have hE : (EdgeBuilder.new.insertAll es).next.edges = (EdgeBuilder.new.insertAll es).edges := rfl
  have hS : (EdgeBuilder.new.insertAll es).next.shortcuts =
    (EdgeBuilder.new.insertAll es).shortcuts := rfl
  rw [hE] at s2
  rw [hS] at s3
  intro b
  refine ⟨by rw [s2, h1], ?_, ?_, ?_⟩
  · intro i pe hi
    obtain ⟨a, ha, hs⟩ := h2 i pe hi
    refine ⟨a, by rw [s2]; exact ha, hs.2.1, hs.2.2.1, hs.2.2.2.1, hs.2.2.2.2.1, ?_⟩
    have hsc := hs.2.2.2.2.2
    rw [s3]
    cases hp : pe.sc with
    | none => rw [hp] at hsc; simp at hsc; rw [hsc]; rfl
    | some p =>
      rw [hp] at hsc
      obtain ⟨k, hk1, hk2⟩ := hsc
      rw [hk1]; exact hk2
  · intro i a ha
    rw [s2] at ha
    have hl := lt_length_of_getElem? ha
    rw [h1] at hl
    exact ⟨_, List.getElem?_eq_getElem hl⟩
  · intro id
    rw [s1, mem_next_nodeIds, mem_insertAll_nodeIds]
    simp [EdgeBuilder.new, Endpoint]

theorem built_nodes (b0 : NodeBuilder) (hwf : b0.WF)
    (hc0 : b0.coords = List.replicate b0.nodeIds.length none)
    (hl0 : b0.levels = List.replicate b0.nodeIds.length 0) (ns : List ProtoNode) :
    ∀ (i : Nat) (id : Int), b0.nodeIds[i]? = some id →
      (b0.insertAll ns).coords[i]? = some ((lastRecord ns id).map ProtoNode.coord) ∧
      (b0.insertAll ns).levels[i]? = some ((lastLevel ns id).getD 0) := by
  induction ns using List.reverseRecOn with
  | nil =>
    intro i id hi
    have hl := lt_length_of_getElem? hi
    simp [NodeBuilder.insertAll, hc0, hl0, lastRecord, lastLevel, hl]
  | append_singleton ns n ih =>
    intro i id hi
    obtain ⟨ih1, ih2⟩ := ih i id hi
    rw [nodeInsertAll_snoc]
    have hsame := (nodeInsertAll_same b0 ns).1
    have hw := nodeInsertAll_wf hwf ns
    have hil := lt_length_of_getElem? hi
    unfold NodeBuilder.insert
    by_cases hn : n.id = id
    · have hx : Graph.idxFrom (b0.insertAll ns).nodeIds n.id = .ok i := by
        rw [idxFrom_eq_ok_iff hw.1, hsame, hi, hn]
      have hcl : i < (b0.insertAll ns).coords.length := by rw [hw.2.1, hsame]; exact hil
      have hll : i < (b0.insertAll ns).levels.length := by rw [hw.2.2, hsame]; exact hil
      simp only [hx]
      constructor
      · simp [hcl, lastRecord, List.filter_append, hn]
      · cases hlv : n.level with
        | none => rw [ih2]; simp [lastLevel, List.filter_append, hn, hlv]
        | some lv => simp [hll, lastLevel, List.filter_append, hn, hlv]
    · have hr : lastRecord (ns ++ [n]) id = lastRecord ns id := by
        simp [lastRecord, List.filter_append, hn]
      have hlvl : lastLevel (ns ++ [n]) id = lastLevel ns id := by
        simp [lastLevel, List.filter_append, hn]
      rw [hr, hlvl]
      cases hx : Graph.idxFrom (b0.insertAll ns).nodeIds n.id with
      | error j => exact ⟨ih1, ih2⟩
      | ok j =>
        have hj := (idxFrom_eq_ok_iff hw.1).mp hx
        have hne : j ≠ i := by
          rintro rfl
          rw [hsame, hi] at hj
          exact hn (Option.some.inj hj).symm
        simp only
        constructor
        · rw [List.getElem?_set_ne hne]; exact ih1
        · cases n.level with
          | none => exact ih2
          | some lv => simp only; rw [List.getElem?_set_ne hne]; exact ih2

/-- The central statement: all outcomes of a build. -/
theorem build_cases (dim : Nat) (es : List ProtoEdge) (ns : List ProtoNode) :
    ((∃ id, Endpoint es id ∧ lastRecord ns id = none) ∧ build dim es ns = .err .missingCoord) ∨
    ((∀ id, Endpoint es id → ∃ n, lastRecord ns id = some n) ∧
      ((¬ ScInRange es ∧ build dim es ns = .panic) ∨
       (ScInRange es ∧
        ∃ kept scs rep, Rep (((EdgeBuilder.new.insertAll es).next).insertAll ns) kept scs rep ∧
        (((∃ e ∈ kept, ∃ x ∈ e.metrics, lifted x < eps) ∧
            build dim es ns = .err .metricTooSmall) ∨
         ((∀ e ∈ kept, ∀ x ∈ e.metrics, eps ≤ lifted x) ∧
          ((¬ (kept.filterMap EdgeB.id).Nodup ∧ build dim es ns = .err .duplicateEdgeId) ∨
           ((kept.filterMap EdgeB.id).Nodup ∧ ∃ g, build dim es ns = .ok g ∧ g.dim = dim ∧
             Final (((EdgeBuilder.new.insertAll es).next).insertAll ns) kept scs g))))))) := by
  have hbase := built_base es ns
  obtain ⟨e1, e2, e3, e4⟩ := built_edges es ns
  have hnodes := built_nodes (EdgeBuilder.new.insertAll es).next (next_wf _) rfl rfl ns
  have hids := (nodeInsertAll_same (EdgeBuilder.new.insertAll es).next ns).1
  have hcoord : none ∈ (((EdgeBuilder.new.insertAll es).next).insertAll ns).coords ↔
      ∃ id, Endpoint es id ∧ lastRecord ns id = none := by
    constructor
    · intro h
      obtain ⟨i, hi⟩ := List.getElem?_of_mem h
      have hl := lt_length_of_getElem? hi
      rw [hbase.wf.2.1, hids] at hl
      have hid := List.getElem?_eq_getElem hl
      refine ⟨_, (e4 _).mp (by rw [hids]; exact List.mem_of_getElem? hid), ?_⟩
      have := (hnodes i _ hid).1
      rw [hi] at this
      simpa using this
    · rintro ⟨id, he, hr⟩
      have hm := (e4 id).mpr he
      rw [hids] at hm
      obtain ⟨i, hi⟩ := List.getElem?_of_mem hm
      have := (hnodes i id hi).1
      rw [hr] at this
      exact List.mem_of_getElem? this
  unfold build
  by_cases hc : none ∈ (((EdgeBuilder.new.insertAll es).next).insertAll ns).coords
  · left
    refine ⟨hcoord.mp hc, ?_⟩
    rcases checkCoords_cases (((EdgeBuilder.new.insertAll es).next).insertAll ns).coords with
      ⟨-, h2⟩ | ⟨h1, -⟩
    · simp [finalize, h2]
    · exact absurd hc h1
  right
  refine ⟨?_, ?_⟩
  · intro id he
    by_contra hcon
    apply hc
    rw [hcoord]
    refine ⟨id, he, ?_⟩
    cases h : lastRecord ns id with
    | none => rfl
    | some n => exact absurd ⟨n, h⟩ hcon
  have hsc : (∀ a ∈ (((EdgeBuilder.new.insertAll es).next).insertAll ns).edges, ∀ k p, a.sc = some k →
      (((EdgeBuilder.new.insertAll es).next).insertAll ns).shortcuts[k]? = some p →
      p.1 < (((EdgeBuilder.new.insertAll es).next).insertAll ns).edges.length ∧
      p.2 < (((EdgeBuilder.new.insertAll es).next).insertAll ns).edges.length) ↔ ScInRange es := by
    rw [e1]
    constructor
    · intro h e he p hp
      obtain ⟨i, hi⟩ := List.getElem?_of_mem he
      obtain ⟨a, ha, -, -, -, -, hs⟩ := e2 i e hi
      rw [hp] at hs
      obtain ⟨k, hk1, hk2⟩ := Option.bind_eq_some_iff.mp hs
      exact h a (List.mem_of_getElem? ha) k p hk1 hk2
    · intro h a ha k p hk hp
      obtain ⟨i, hi⟩ := List.getElem?_of_mem ha
      obtain ⟨pe, hpe⟩ := e3 i a hi
      obtain ⟨a', ha', -, -, -, -, hs⟩ := e2 i pe hpe
      rw [hi] at ha'; cases ha'
      rw [hk] at hs
      exact h pe (List.mem_of_getElem? hpe) p (by rw [← hs]; exact hp)
  by_cases hr : ScInRange es
  · right
    refine ⟨hr, ?_⟩
    have hready : Ready (((EdgeBuilder.new.insertAll es).next).insertAll ns) :=
      ⟨hbase.wf, hbase.known, hbase.idx, hbase.sc_nodup, by
        intro a ha k hk
        obtain ⟨p, hp⟩ := hbase.sc_get a ha k hk
        exact ⟨p, hp, (hsc.mpr hr) a ha k p hk hp⟩⟩
    rcases finalize_spec dim hready with ⟨h1, -⟩ | ⟨-, h⟩
    · exact absurd h1 hc
    · rw [correctMetric_eq_lifted] at h; exact h
  · left
    exact ⟨hr, finalize_panic dim hbase hc (fun h => hr (hsc.mp h))⟩

/-- Extraction of the successful case. -/
theorem build_ok {dim : Nat} {es : List ProtoEdge} {ns : List ProtoNode} {g : Graph}
    (h : build dim es ns = .ok g) :
    (∀ id, Endpoint es id → ∃ n, lastRecord ns id = some n) ∧ ScInRange es ∧ g.dim = dim ∧
    ∃ kept scs rep, Rep (((EdgeBuilder.new.insertAll es).next).insertAll ns) kept scs rep ∧
      (∀ e ∈ kept, ∀ x ∈ e.metrics, eps ≤ lifted x) ∧ (kept.filterMap EdgeB.id).Nodup ∧
      Final (((EdgeBuilder.new.insertAll es).next).insertAll ns) kept scs g := by
  rcases build_cases dim es ns with ⟨-, h'⟩ | ⟨h1, ⟨-, h'⟩ | ⟨h2, kept, scs, rep, h3, h4⟩⟩
  · rw [h] at h'; cases h'
  · rw [h] at h'; cases h'
  · rcases h4 with ⟨-, h'⟩ | ⟨h5, ⟨-, h'⟩ | ⟨h6, g', h', hd, h7⟩⟩
    · rw [h] at h'; cases h'
    · rw [h] at h'; cases h'
    · rw [h] at h'; cases h'
      exact ⟨h1, h2, hd, kept, scs, rep, h3, h5, h6, h7⟩

end Build
end Verif
