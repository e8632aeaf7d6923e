import Verif.ShuffleLemmas

/-!
# The order of insertion is irrelevant (C106)
-/

namespace Verif.Build

variable {dim : Nat} {es es' : List ProtoEdge} {ns ns' : List ProtoNode}

/-- The order in which nodes and edges are inserted is irrelevant: the same graph is built, with the same indices, or
building fails for the same reason. Records may be repeated.
Partial: there are no shortcuts, and edges with the same ends and id are the same. Otherwise it is false, see
`C106_false_parallel`. -/
theorem C106_order_partial (hp : es.Perm es') (hn : ns.Perm ns') (hsc : ∀ pe ∈ es, pe.sc = none)
    (hk : ∀ a ∈ es, ∀ b ∈ es, a.srcId = b.srcId → a.dstId = b.dstId → a.id = b.id → a = b)
    (hid : ∀ a ∈ ns, ∀ b ∈ ns, a.id = b.id → a = b) : build dim es ns = build dim es' ns' := by
  have hsc' : ∀ pe ∈ es', pe.sc = none := fun pe h => hsc pe (hp.mem_iff.mpr h)
  unfold build
  have hb := built_base es ns
  have hb' := built_base es' ns'
  have hN : (((EdgeBuilder.new.insertAll es).next).insertAll ns).nodeIds =
      (((EdgeBuilder.new.insertAll es').next).insertAll ns').nodeIds := by
    refine ascending_ext hb.wf.1 hb'.wf.1 fun x => ?_
    rw [(built_edges es ns).2.2.2, (built_edges es' ns').2.2.2]
    unfold Endpoint
    exact ⟨fun ⟨e, h1, h2⟩ => ⟨e, hp.mem_iff.mp h1, h2⟩, fun ⟨e, h1, h2⟩ => ⟨e, hp.mem_iff.mpr h1, h2⟩⟩
  have hlast : ∀ id, lastRecord ns id = lastRecord ns' id ∧ lastLevel ns id = lastLevel ns' id := by
    intro id
    have hf := hn.filter fun n => decide (n.id = id)
    have hc : ∀ a ∈ ns.filter (fun n => decide (n.id = id)), ∀ b ∈ ns.filter (fun n => decide (n.id = id)), a = b := by
      intro a ha b hb
      rw [List.mem_filter, decide_eq_true_eq] at ha hb
      exact hid a ha.1 b hb.1 (ha.2.trans hb.2.symm)
    refine ⟨getLast?_const hf hc, getLast?_const (hf.filterMap _) ?_⟩
    intro a ha b hb
    obtain ⟨x, hx, hx'⟩ := List.mem_filterMap.mp ha
    obtain ⟨y, hy, hy'⟩ := List.mem_filterMap.mp hb
    rw [hc x hx y hy, hy', Option.some.injEq] at hx'
    exact hx'.symm
  have hdata : (((EdgeBuilder.new.insertAll es).next).insertAll ns).coords =
        (((EdgeBuilder.new.insertAll es').next).insertAll ns').coords ∧
      (((EdgeBuilder.new.insertAll es).next).insertAll ns).levels =
        (((EdgeBuilder.new.insertAll es').next).insertAll ns').levels := by
    have hs := (nodeInsertAll_same (EdgeBuilder.new.insertAll es).next ns).1
    have hs' := (nodeInsertAll_same (EdgeBuilder.new.insertAll es').next ns').1
    have hlen : ∀ i : Nat, (EdgeBuilder.new.insertAll es).next.nodeIds[i]? = (EdgeBuilder.new.insertAll es').next.nodeIds[i]? := by
      intro i
      rw [← hs, ← hs', hN]
    have key : ∀ (i : Nat) id, (EdgeBuilder.new.insertAll es).next.nodeIds[i]? = some id →
        (((EdgeBuilder.new.insertAll es).next).insertAll ns).coords[i]? =
          (((EdgeBuilder.new.insertAll es').next).insertAll ns').coords[i]? ∧
        (((EdgeBuilder.new.insertAll es).next).insertAll ns).levels[i]? =
          (((EdgeBuilder.new.insertAll es').next).insertAll ns').levels[i]? := by
      intro i id hi
      obtain ⟨h1, h2⟩ := built_nodes _ (next_wf (EdgeBuilder.new.insertAll es)) rfl rfl ns i id hi
      obtain ⟨h3, h4⟩ := built_nodes _ (next_wf (EdgeBuilder.new.insertAll es')) rfl rfl ns' i id (by rw [← hlen]; exact hi)
      rw [h1, h2, h3, h4, (hlast id).1, (hlast id).2]
      exact ⟨rfl, rfl⟩
    have hout : ∀ i : Nat, (EdgeBuilder.new.insertAll es).next.nodeIds[i]? = none →
        (((EdgeBuilder.new.insertAll es).next).insertAll ns).nodeIds.length ≤ i := by
      intro i hi
      rw [hs]
      exact List.getElem?_eq_none_iff.mp hi
    constructor <;>
    · apply List.ext_getElem?
      intro i
      cases hi : (EdgeBuilder.new.insertAll es).next.nodeIds[i]? with
      | some id => first | exact (key i id hi).1 | exact (key i id hi).2
      | none =>
        have h1 := hout i hi
        have h2 := hb.wf.2
        have h3 := hb'.wf.2
        rw [← hN] at h3
        rw [List.getElem?_eq_none (by omega), List.getElem?_eq_none (by omega)]
  obtain ⟨hC, hL⟩ := hdata
  rcases checkCoords_cases (((EdgeBuilder.new.insertAll es).next).insertAll ns).coords with
    ⟨-, hc2⟩ | ⟨-, coords, hc2, -⟩
  · have hc2' := hc2
    rw [hC] at hc2'
    simp [finalize, hc2, hc2']
  have hc2' := hc2
  rw [hC] at hc2'
  obtain ⟨l, s, kept, removed, h1, h2, h3, h4⟩ := finalize_plain dim hb (builder_plain es ns hsc).2 hc2
  obtain ⟨l', s', kept', removed', h1', h2', h3', h4'⟩ := finalize_plain dim hb' (builder_plain es' ns' hsc').2 hc2'
  rw [h4, h4', (builder_plain es ns hsc).1, (builder_plain es' ns' hsc').1, ← hN, ← hL, ← finish_blank,
    ← finish_blank (kept := kept')]
  have i1 := indexed_eq es ns hsc h1
  have i2 := indexed_eq es' ns' hsc' h1'
  rw [← hN] at i2
  have hdst : ∀ (es : List ProtoEdge) (ns : List ProtoNode) (l : List EdgeB),
      toEdgesB (((EdgeBuilder.new.insertAll es).next).insertAll ns).nodeIds
        (((EdgeBuilder.new.insertAll es).next).insertAll ns).edges = .ok l →
      ∀ e ∈ l, e.dst < (((EdgeBuilder.new.insertAll es).next).insertAll ns).levels.length := by
    intro es ns l hl e he
    have hb := built_base es ns
    obtain ⟨bs, k1, k2⟩ := toEdgesB_ok hb.wf.1 hb.known
    rw [hl] at k1
    cases k1
    obtain ⟨i, hi⟩ := List.getElem?_of_mem he
    obtain ⟨a, -, k3⟩ := (forall₂_getElem? k2).2.2 i e hi
    rw [hb.wf.2.2]
    exact lt_length_of_getElem? k3.2.2.2.1
  have hS : s.map blank = s'.map blank := by
    refine sorted_eq (hdst es ns l h1) (by rw [hL]; exact hdst es' ns' l' h1') ?_ ?_ h2 (by rw [hL]; exact h2')
    · rw [i1, i2]
      exact hp.map _
    · rw [i1]
      intro a ha b hb2 e1 e2 e3
      obtain ⟨x, hx, rfl⟩ := List.mem_map.mp ha
      obtain ⟨y, hy, rfl⟩ := List.mem_map.mp hb2
      have hin : ∀ pe ∈ es, pe.srcId ∈ (((EdgeBuilder.new.insertAll es).next).insertAll ns).nodeIds ∧
          pe.dstId ∈ (((EdgeBuilder.new.insertAll es).next).insertAll ns).nodeIds := by
        intro pe hpe
        rw [(built_edges es ns).2.2.2, (built_edges es ns).2.2.2]
        exact ⟨⟨pe, hpe, .inl rfl⟩, ⟨pe, hpe, .inr rfl⟩⟩
      rw [hk x hx y hy ((List.idxOf_inj (hin x hx).1).mp e1) ((List.idxOf_inj (hin x hx).2).mp e2) e3]
  have k1 := dedupEdges_blank h3
  have k2 := dedupEdges_blank h3'
  rw [hS, k2] at k1
  simp only [Res.ok.injEq, Prod.mk.injEq] at k1
  rw [k1.1]

/-! ## Samples -/

theorem count_of {r : Res BuildErr Graph} {n : Nat} (h : (match r with
    | .ok g => some g.edgeCount
    | _ => none) = some n) : ∃ g, r = .ok g ∧ g.edgeCount = n := by
  split at h
  · rename_i g
    exact ⟨g, rfl, by simpa using h⟩
  · cases h

/-- Edges without ids. -/
def plainEdges (l : List (Int × Int × ℚ)) : List ProtoEdge :=
  l.map fun (a, b, x) => { id := none, srcId := a, dstId := b, metrics := [x], sc := none }

/-- Nodes without levels. -/
def plainNodes (l : List Int) : List ProtoNode := l.map fun id => { id, coord := ⟨0, 0⟩, level := none }

/-- A square with a repeated record, in two orders. -/
def squareA : List ProtoEdge := plainEdges [(30, 10, 4), (10, 20, 1), (20, 30, 2), (10, 20, 1), (20, 10, 3)]
def squareB : List ProtoEdge := plainEdges [(20, 10, 3), (10, 20, 1), (10, 20, 1), (30, 10, 4), (20, 30, 2)]

/-- The hypotheses hold, the result is no failure, and the repeated record counts once. -/
example : build 1 squareA (plainNodes [30, 20, 10, 20]) = build 1 squareB (plainNodes [20, 10, 20, 30]) ∧
    squareA ≠ squareB ∧ ∃ g, build 1 squareA (plainNodes [30, 20, 10, 20]) = .ok g ∧ g.edgeCount = 4 :=
  ⟨C106_order_partial (by decide +kernel) (by decide +kernel) (by decide +kernel) (by decide +kernel) (by decide +kernel),
    by decide +kernel, count_of (by decide +kernel)⟩

/-- In general, the order matters: of three edges between the same nodes, whose metrics differ by `1e-6` each, the
builder keeps two or one. -/
theorem C106_false_parallel : ∃ es es' : List ProtoEdge, ∃ ns : List ProtoNode, es.Perm es' ∧ (∀ pe ∈ es, pe.sc = none) ∧
    (∃ g, build 1 es ns = .ok g ∧ g.edgeCount = 2) ∧ ∃ g, build 1 es' ns = .ok g ∧ g.edgeCount = 1 :=
  ⟨plainEdges [(1, 2, 1), (1, 2, 1 + 1 / 1000000), (1, 2, 1 + 2 / 1000000)],
    plainEdges [(1, 2, 1 + 1 / 1000000), (1, 2, 1), (1, 2, 1 + 2 / 1000000)], plainNodes [1, 2],
    by decide +kernel, by decide +kernel, count_of (by decide +kernel), count_of (by decide +kernel)⟩

end Verif.Build
