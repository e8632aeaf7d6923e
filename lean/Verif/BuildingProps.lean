import Verif.BuildingLemmas4

/-!
# Properties of built graphs (C01 - C07, C09 - C12)

All statements are about `build dim es ns`: inserting the edges `es`, then the node records `ns`,
then finalizing.
-/

namespace Verif
namespace Build

/-- Sample edges: parallel edges, a duplicate, a zero metric, a shortcut. -/
def exEdges : List ProtoEdge :=
  [ { id := some 7, srcId := 30, dstId := 10, metrics := [2], sc := none },
    { id := some 5, srcId := 10, dstId := 20, metrics := [0], sc := none },
    { id := some 6, srcId := 20, dstId := 30, metrics := [3], sc := none },
    { id := some 6, srcId := 20, dstId := 30, metrics := [3], sc := none },
    { id := some 9, srcId := 10, dstId := 30, metrics := [4], sc := some (1, 3) } ]

def exNodes : List ProtoNode :=
  [ { id := 10, coord := ⟨0, 0⟩, level := some 1 }, { id := 20, coord := ⟨1, 1⟩, level := none },
    { id := 99, coord := ⟨8, 8⟩, level := some 4 }, { id := 30, coord := ⟨2, 2⟩, level := some 2 },
    { id := 10, coord := ⟨5, 5⟩, level := none } ]

/-- The graph built from the sample. -/
def exGraph : Graph :=
  { nodeIds := [10, 20, 30], nodeCoords := [⟨5, 5⟩, ⟨1, 1⟩, ⟨2, 2⟩], nodeLevels := [1, 0, 2],
    fwdDsts := [2, 1, 2, 0], fwdOffsets := [0, 2, 3, 4], fwdMap := [0, 1, 2, 3],
    bwdDsts := [0, 0, 1, 2], bwdOffsets := [0, 1, 2, 4], bwdMap := [3, 1, 0, 2],
    metrics := [[4], [1 / 1000000], [3], [2]], means := none,
    edgeIds := [some 9, some 5, some 6, some 7], idMap := [(5, 1), (6, 2), (7, 3), (9, 0)],
    scOffsets := [0, 1, 1, 1, 1], scEdges := [(1, 2)], dim := 1 }

/-- The hypothesis `build .. = .ok g` used below is met by a non-trivial sample. -/
theorem ex_build : build 1 exEdges exNodes = .ok exGraph := by decide +kernel

/-! ## C01 -/

/-- The nodes are exactly the endpoints, in ascending order without repetition. -/
theorem C01_node_ids {dim : Nat} {es : List ProtoEdge} {ns : List ProtoNode} {g : Graph}
    (h : build dim es ns = .ok g) :
    g.nodeIds.Pairwise (· < ·) ∧ ∀ id, (∃ i, g.nodeId i = .ok id) ↔ Endpoint es id := by
  obtain ⟨-, -, -, kept, scs, rep, -, -, -, hF⟩ := build_ok h
  refine ⟨hF.wf.ids_sorted, fun id => ?_⟩
  rw [← (built_edges es ns).2.2.2 id, ← hF.nodeIds]
  simp only [Graph.nodeId, ofIdx_iff]
  constructor
  · rintro ⟨i, hi⟩; exact List.mem_of_getElem? hi
  · exact List.getElem?_of_mem

/-- Looking up an id returns the index carrying it. -/
theorem C01_lookup {dim : Nat} {es : List ProtoEdge} {ns : List ProtoNode} {g : Graph}
    (h : build dim es ns = .ok g) (id : Int) (i : Nat) :
    Graph.idxFrom g.nodeIds id = .ok i ↔ g.nodeId i = .ok id := by
  rw [idxFrom_eq_ok_iff (C01_node_ids h).1, Graph.nodeId, ofIdx_iff]

/-- Looking up an id fails iff it is no endpoint. -/
theorem C01_absent {dim : Nat} {es : List ProtoEdge} {ns : List ProtoNode} {g : Graph}
    (h : build dim es ns = .ok g) (id : Int) :
    (∃ i, Graph.idxFrom g.nodeIds id = .error i) ↔ ¬ Endpoint es id := by
  rw [idxFrom_error (C01_node_ids h).1, ← (C01_node_ids h).2 id]
  simp only [Graph.nodeId, ofIdx_iff]
  constructor
  · rintro hn ⟨i, hi⟩; exact hn (List.mem_of_getElem? hi)
  · intro hn hm
    exact hn (List.getElem?_of_mem hm)

example : Graph.idxFrom exGraph.nodeIds 20 = .ok 1 ∧ Graph.idxFrom exGraph.nodeIds 25 = .error 2 ∧
    Endpoint exEdges 20 ∧ ¬ Endpoint exEdges 25 := by
  refine ⟨by decide, by decide, ⟨exEdges[1], by decide, by decide⟩, ?_⟩
  rintro ⟨e, he, h⟩
  simp only [exEdges, List.mem_cons, List.not_mem_nil, or_false] at he
  rcases he with rfl | rfl | rfl | rfl | rfl <;> simp at h

/-! ## C02 -/

/-- The build fails with a missing coordinate iff an endpoint has no node record. -/
theorem C02_missing_iff (dim : Nat) (es : List ProtoEdge) (ns : List ProtoNode) :
    build dim es ns = .err .missingCoord ↔ ∃ id, Endpoint es id ∧ ∀ n ∈ ns, n.id ≠ id := by
  have hrec : ∀ id, lastRecord ns id = none ↔ ∀ n ∈ ns, n.id ≠ id := by
    intro id
    unfold lastRecord
    rw [List.getLast?_eq_none_iff, List.filter_eq_nil_iff]
    simp
  simp only [← hrec]
  constructor
  · intro h
    rcases build_cases dim es ns with ⟨h1, -⟩ | ⟨-, ⟨-, h'⟩ | ⟨-, kept, scs, rep, -, h4⟩⟩
    · exact h1
    · rw [h] at h'; cases h'
    · rcases h4 with ⟨-, h'⟩ | ⟨-, ⟨-, h'⟩ | ⟨-, g', h', -⟩⟩ <;> rw [h] at h' <;> cases h'
  · rintro ⟨id, he, hr⟩
    rcases build_cases dim es ns with ⟨-, h'⟩ | ⟨h1, -⟩
    · exact h'
    · obtain ⟨n, hn⟩ := h1 id he
      rw [hr] at hn; cases hn

/-- Node data is the last one given. -/
theorem C02_node_data {dim : Nat} {es : List ProtoEdge} {ns : List ProtoNode} {g : Graph}
    (h : build dim es ns = .ok g) {id : Int} (he : Endpoint es id) :
    ∃ i n, lastRecord ns id = some n ∧
      g.createNodeFrom id = .ok (some { idx := i, id := id, coord := n.coord,
                                        level := (lastLevel ns id).getD 0 }) := by
  obtain ⟨hrec, -, -, kept, scs, rep, -, -, -, hF⟩ := build_ok h
  obtain ⟨n, hn⟩ := hrec id he
  obtain ⟨i, hi⟩ := ((C01_node_ids h).2 id).mpr he
  have hlook := (C01_lookup h id i).mpr hi
  rw [Graph.nodeId, ofIdx_iff] at hi
  have hids := (nodeInsertAll_same (EdgeBuilder.new.insertAll es).next ns).1
  have hd := built_nodes (EdgeBuilder.new.insertAll es).next (next_wf _) rfl rfl ns i id
    (by rw [← hids, ← hF.nodeIds]; exact hi)
  rw [hn, hF.coords, ← hF.levels] at hd
  refine ⟨i, n, hn, ?_⟩
  have hc : g.nodeCoords[i]? = some n.coord := by
    have := hd.1
    rw [List.getElem?_map] at this
    cases hx : g.nodeCoords[i]? with
    | none => simp [hx] at this
    | some c => simpa [hx] using this
  simp [Graph.createNodeFrom, hlook, Graph.createNode, Graph.nodeId, hi, Graph.nodeCoord, hc,
    Graph.nodeLevel, hd.2]

example : exGraph.createNodeFrom 10 = .ok (some { idx := 0, id := 10, coord := ⟨5, 5⟩, level := 1 }) ∧
    lastRecord exNodes 10 = some { id := 10, coord := ⟨5, 5⟩, level := none } ∧
    lastLevel exNodes 10 = some 1 := by decide +kernel

example : build 1 exEdges (exNodes.take 2) = .err .missingCoord := by decide +kernel

/-! ## C03 and C04: adjacency -/

/-- Built graphs are well-formed. -/
theorem built_wellFormed {dim : Nat} {es : List ProtoEdge} {ns : List ProtoNode} {g : Graph}
    (h : build dim es ns = .ok g) : g.WellFormed := by
  obtain ⟨-, -, -, kept, scs, rep, -, -, -, hF⟩ := build_ok h
  exact hF.wf

/-- C03 is false as stated: in this graph of one edge 10 -> 20, asking the node 20 (index 1) for its
leaving edges panics instead of yielding none, because the offset array ends after the last source. -/
theorem C03_false_trailing_node :
    ∃ g, build 1 [{ id := none, srcId := 10, dstId := 20, metrics := [1], sc := none }]
        [{ id := 10, coord := ⟨0, 0⟩, level := none }, { id := 20, coord := ⟨1, 1⟩, level := none }] =
      .ok g ∧ g.nodeCount = 2 ∧ g.startingFrom .fwd 1 = .panic :=
  ⟨{ nodeIds := [10, 20], nodeCoords := [⟨0, 0⟩, ⟨1, 1⟩], nodeLevels := [0, 0], fwdDsts := [1],
     fwdOffsets := [0, 1], fwdMap := [0], bwdDsts := [0], bwdOffsets := [0, 0, 1], bwdMap := [0],
     metrics := [[1]], means := none, edgeIds := [none], idMap := [], scOffsets := [0, 0],
     scEdges := [], dim := 1 }, by decide +kernel⟩

/-- C03 for nodes that can be asked: the listed edges are exactly the edges with this source, each
once. Missing: nodes behind the last source (see `C03_false_trailing_node`). -/
theorem C03_forward_partial {dim : Nat} {es : List ProtoEdge} {ns : List ProtoNode} {g : Graph}
    (h : build dim es ns = .ok g) {i : Nat} {l : List Nat} (hl : g.startingFrom .fwd i = .ok l) :
    l.Nodup ∧ ∀ e, e ∈ l ↔ g.dstIdx .bwd e = .ok i := by
  have := (built_wellFormed h).start .fwd i l hl
  exact ⟨this.1, this.2.1⟩

/-- C03: exactly the nodes up to the last source can be asked, the others panic. -/
theorem C03_covered_iff {dim : Nat} {es : List ProtoEdge} {ns : List ProtoNode} {g : Graph}
    (h : build dim es ns = .ok g) (i : Nat) :
    ((∃ l, g.startingFrom .fwd i = .ok l) ↔ i = 0 ∨ ∃ e u, g.dstIdx .bwd e = .ok u ∧ i ≤ u) ∧
    ((¬ ∃ l, g.startingFrom .fwd i = .ok l) → g.startingFrom .fwd i = .panic) :=
  ⟨(built_wellFormed h).covered_iff .fwd i, (built_wellFormed h).not_covered .fwd i⟩

/-- C03 in full for graphs whose last node has a leaving edge. -/
theorem C03_forward_of_last {dim : Nat} {es : List ProtoEdge} {ns : List ProtoNode} {g : Graph}
    (h : build dim es ns = .ok g) (hlast : ∃ e, g.dstIdx .bwd e = .ok (g.nodeCount - 1)) {i : Nat}
    (hi : i < g.nodeCount) :
    ∃ l, g.startingFrom .fwd i = .ok l ∧ l.Nodup ∧ ∀ e, e ∈ l ↔ g.dstIdx .bwd e = .ok i := by
  obtain ⟨e, he⟩ := hlast
  obtain ⟨l, hl⟩ := (C03_covered_iff h i).1.mpr (Or.inr ⟨e, _, he, by omega⟩)
  exact ⟨l, hl, C03_forward_partial h hl⟩

example : (∃ e, exGraph.dstIdx .bwd e = .ok (exGraph.nodeCount - 1)) ∧
    exGraph.startingFrom .fwd 0 = .ok [0, 1] := ⟨⟨3, by decide⟩, by decide⟩

theorem findDst_spec {g : Graph} {d : Dir} (dst : Nat) {l : List Nat}
    (hl : ∀ e ∈ l, ∃ v, g.dstIdx d e = .ok v) :
    (∃ e, g.findDst d dst l = .ok (some e) ∧ e ∈ l ∧ g.dstIdx d e = .ok dst) ∨
    (g.findDst d dst l = .ok none ∧ ∀ e ∈ l, g.dstIdx d e ≠ .ok dst) := by
  induction l with
  | nil => exact Or.inr ⟨rfl, by simp⟩
  | cons a l ih =>
    obtain ⟨v, hv⟩ := hl a (by simp)
    unfold Graph.findDst
    rw [hv, Res.ok_bind]
    by_cases h : v = dst
    · left
      exact ⟨a, by rw [if_pos h]; rfl, by simp, by rw [hv, h]⟩
    · rw [if_neg h]
      rcases ih (fun e he => hl e (by simp [he])) with ⟨e, h1, h2, h3⟩ | ⟨h1, h2⟩
      · exact Or.inl ⟨e, h1, by simp [h2], h3⟩
      · refine Or.inr ⟨h1, ?_⟩
        intro e he
        rcases List.mem_cons.mp he with rfl | he
        · rw [hv]; simpa using h
        · exact h2 e he

/-- C03: `between` returns an edge from `u` to `v` iff there is one (for nodes that can be asked). -/
theorem C03_between_partial {dim : Nat} {es : List ProtoEdge} {ns : List ProtoNode} {g : Graph}
    (h : build dim es ns = .ok g) {u : Nat} {l : List Nat} (hl : g.startingFrom .fwd u = .ok l)
    (v : Nat) :
    (∃ e, g.between .fwd u v = .ok (some e) ∧ g.IsEdge e u v) ∨
    (g.between .fwd u v = .ok none ∧ ∀ e, ¬ g.IsEdge e u v) := by
  have hwf := built_wellFormed h
  have hmem := (C03_forward_partial h hl).2
  have hd : ∀ e ∈ l, ∃ v, g.dstIdx .fwd e = .ok v := by
    intro e he
    have h1 := (hmem e).mp he
    simp only [Graph.dstIdx, Graph.dsts, ofIdx_iff] at h1
    have := lt_length_of_getElem? h1
    rw [hwf.bwd_len] at this
    exact ⟨_, by rw [Graph.dstIdx, ofIdx_iff]; exact List.getElem?_eq_getElem this⟩
  unfold Graph.between
  rw [hl, Res.ok_bind]
  rcases findDst_spec v hd with ⟨e, h1, h2, h3⟩ | ⟨h1, h2⟩
  · exact Or.inl ⟨e, h1, h3, (hmem e).mp h2⟩
  · exact Or.inr ⟨h1, fun e he => h2 e ((hmem e).mpr he.2) he.1⟩

example : exGraph.between .fwd 0 1 = .ok (some 1) ∧ exGraph.between .fwd 1 0 = .ok none := by decide

/-- C04: the edges seen from a node in the backward view are exactly those with this destination.
Missing: nodes behind the last destination, as in C03. -/
theorem C04_backward_partial {dim : Nat} {es : List ProtoEdge} {ns : List ProtoNode} {g : Graph}
    (h : build dim es ns = .ok g) {i : Nat} {l : List Nat} (hl : g.startingFrom .bwd i = .ok l) :
    l.Nodup ∧ ∀ e, e ∈ l ↔ g.dstIdx .fwd e = .ok i := by
  have := (built_wellFormed h).start .bwd i l hl
  exact ⟨this.1, this.2.1⟩

/-- C04: which nodes can be asked in the backward view. -/
theorem C04_covered_iff {dim : Nat} {es : List ProtoEdge} {ns : List ProtoNode} {g : Graph}
    (h : build dim es ns = .ok g) (i : Nat) :
    ((∃ l, g.startingFrom .bwd i = .ok l) ↔ i = 0 ∨ ∃ e v, g.dstIdx .fwd e = .ok v ∧ i ≤ v) ∧
    ((¬ ∃ l, g.startingFrom .bwd i = .ok l) → g.startingFrom .bwd i = .panic) :=
  ⟨(built_wellFormed h).covered_iff .bwd i, (built_wellFormed h).not_covered .bwd i⟩

/-- C04: both views agree. -/
theorem C04_mirror {dim : Nat} {es : List ProtoEdge} {ns : List ProtoNode} {g : Graph}
    (h : build dim es ns = .ok g) {u v : Nat} {lu lv : List Nat}
    (hu : g.startingFrom .fwd u = .ok lu) (hv : g.startingFrom .bwd v = .ok lv) (e : Nat) :
    (e ∈ lu ∧ g.dstIdx .fwd e = .ok v) ↔ (e ∈ lv ∧ g.dstIdx .bwd e = .ok u) := by
  rw [(C03_forward_partial h hu).2, (C04_backward_partial h hv).2]
  exact And.comm

/-- C04 is false as stated: in the graph of one edge 20 -> 10, node 20 cannot be asked backwards. -/
theorem C04_false_trailing_node :
    ∃ g, build 1 [{ id := none, srcId := 20, dstId := 10, metrics := [1], sc := none }]
        [{ id := 10, coord := ⟨0, 0⟩, level := none }, { id := 20, coord := ⟨1, 1⟩, level := none }] =
      .ok g ∧ g.nodeCount = 2 ∧ g.startingFrom .bwd 1 = .panic :=
  ⟨{ nodeIds := [10, 20], nodeCoords := [⟨0, 0⟩, ⟨1, 1⟩], nodeLevels := [0, 0], fwdDsts := [0],
     fwdOffsets := [0, 0, 1], fwdMap := [0], bwdDsts := [1], bwdOffsets := [0, 1], bwdMap := [0],
     metrics := [[1]], means := none, edgeIds := [none], idMap := [], scOffsets := [0, 0],
     scEdges := [], dim := 1 }, by decide +kernel⟩

example : exGraph.startingFrom .bwd 2 = .ok [0, 2] ∧ exGraph.startingFrom .fwd 1 = .ok [2] := by decide

/-! ## C05, C09, C10: edges and shortcuts -/

theorem edgeIs_of {es : List ProtoEdge} {ns : List ProtoNode} {g : Graph} {kept : List EdgeB}
    {scs : List (Nat × Nat)}
    (hF : Final (((EdgeBuilder.new.insertAll es).next).insertAll ns) kept scs g) {e i : Nat}
    {x : EdgeB} {a : EdgeA} {pe : ProtoEdge} (hx : kept[e]? = some x)
    (ha : (((EdgeBuilder.new.insertAll es).next).insertAll ns).edges[i]? = some a)
    (hax : IdxOf (((EdgeBuilder.new.insertAll es).next).insertAll ns).nodeIds a x)
    (hpe : es[i]? = some pe) : EdgeIs g e pe := by
  obtain ⟨a', ha', h1, h2, h3, h4, -⟩ := (built_edges es ns).2.1 i pe hpe
  rw [ha] at ha'; cases ha'
  obtain ⟨-, i2, i3, i4, i5, -⟩ := hax
  refine ⟨?_, ⟨x.src, ?_, ?_⟩, ⟨x.dst, ?_, ?_⟩, ?_⟩
  · simp [Graph.tryId, hF.edgeIds, hx, i2, h1]
  · simp [Graph.dstIdx, Graph.dsts, hF.bwdDsts, hx]
  · simp [Graph.nodeId, hF.nodeIds, i3, h2]
  · simp [Graph.dstIdx, Graph.dsts, hF.fwdDsts, hx]
  · simp [Graph.nodeId, hF.nodeIds, i4, h3]
  · simp [Graph.edgeMetrics, hF.metrics, hx, i5, h4, correctMetric_eq_lifted]

/-- C05 and C09 in one statement. There is a map `rep` from inserted edges to edges of the graph with
* every edge of the graph is the unchanged `i`-th inserted edge for some `i` with `rep i = e`, and the
  edges it replaces are the representatives of the edges it was inserted with,
* every inserted edge's representative is itself or an inserted edge with the same id, the same
  endpoints and tolerance-equal metrics.
Since `rep i = e`, different edges of the graph come from different insertions. -/
theorem C09_representatives {dim : Nat} {es : List ProtoEdge} {ns : List ProtoNode} {g : Graph}
    (h : build dim es ns = .ok g) :
    ∃ rep : Nat → Nat,
      (∀ e, e < g.edgeCount → ∃ i pe, es[i]? = some pe ∧ rep i = e ∧ EdgeIs g e pe ∧
        g.scEdgesOf e = .ok (pe.sc.map (fun p => (rep p.1, rep p.2)))) ∧
      (∀ (i : Nat) (pe : ProtoEdge), es[i]? = some pe → rep i < g.edgeCount ∧
        ∃ (i' : Nat) (pe' : ProtoEdge), es[i']? = some pe' ∧ rep i' = rep i ∧ EdgeIs g (rep i) pe' ∧
          (i' = i ∨ SameEdge pe' pe)) := by
  obtain ⟨-, -, -, kept, scs, rep, hR, -, -, hF⟩ := build_ok h
  have hlen : g.edgeCount = kept.length := by simp [Graph.edgeCount, hF.fwdDsts]
  obtain ⟨-, e2, e3, -⟩ := built_edges es ns
  refine ⟨rep, ?_, ?_⟩
  · intro e he
    rw [hlen] at he
    have hx := List.getElem?_eq_getElem he
    obtain ⟨i, a, ha, hr, hax, hsc⟩ := hR.new e _ hx
    obtain ⟨pe, hpe⟩ := e3 i a ha
    refine ⟨i, pe, hpe, hr, edgeIs_of hF hx ha hax hpe, ?_⟩
    rw [hF.sc e _ hx, hsc]
    obtain ⟨a', ha', -, -, -, -, h5⟩ := e2 i pe hpe
    rw [ha] at ha'; cases ha'
    rw [h5]
  · intro i pe hpe
    obtain ⟨a, ha, a1, a2, a3, a4, -⟩ := e2 i pe hpe
    obtain ⟨x, a', i', hx, ha', hax', hr', hor⟩ := hR.old i a ha
    obtain ⟨pe', hpe'⟩ := e3 i' a' ha'
    refine ⟨by rw [hlen]; exact lt_length_of_getElem? hx, i', pe', hpe', hr',
      edgeIs_of hF hx ha' hax' hpe', ?_⟩
    rcases hor with hi | hd
    · exact Or.inl hi
    · right
      obtain ⟨b, hb, b1, b2, b3, b4, -⟩ := e2 i' pe' hpe'
      rw [ha'] at hb; cases hb
      obtain ⟨d1, d2, d3, d4⟩ := hd
      refine ⟨by rw [← b1, ← a1, d1], by rw [← b2, ← a2, d2], by rw [← b3, ← a3, d3], ?_⟩
      intro k u v hu hv
      rw [← b4] at hu; rw [← a4] at hv
      exact (Approx.C24_eq_iff u v).mp (d4 k u v hu hv)

/-- C09: replaced edges are edges of the graph. -/
theorem C09_in_range {dim : Nat} {es : List ProtoEdge} {ns : List ProtoNode} {g : Graph}
    (h : build dim es ns = .ok g) {e a b : Nat} (hsc : g.scEdgesOf e = .ok (some (a, b))) :
    a < g.edgeCount ∧ b < g.edgeCount := by
  obtain ⟨rep, h1, h2⟩ := C09_representatives h
  obtain ⟨-, hr, -⟩ := build_ok h
  obtain ⟨i, pe, hpe, -, -, h3⟩ := h1 e ((built_wellFormed h).sc_len e _ hsc)
  rw [hsc] at h3
  cases hp : pe.sc with
  | none => rw [hp] at h3; simp at h3
  | some p =>
    rw [hp] at h3
    simp only [Option.map_some, Res.ok.injEq, Option.some.injEq, Prod.mk.injEq] at h3
    have hlt := hr pe (List.mem_of_getElem? hpe) p hp
    rw [h3.1, h3.2]
    exact ⟨(h2 p.1 _ (List.getElem?_eq_getElem hlt.1)).1, (h2 p.2 _ (List.getElem?_eq_getElem hlt.2)).1⟩

/-- C05: no edge is invented. -/
theorem C05_no_edge_invented {dim : Nat} {es : List ProtoEdge} {ns : List ProtoNode} {g : Graph}
    (h : build dim es ns = .ok g) {e : Nat} (he : e < g.edgeCount) :
    ∃ pe ∈ es, EdgeIs g e pe := by
  obtain ⟨rep, h1, -⟩ := C09_representatives h
  obtain ⟨i, pe, hpe, -, hE, -⟩ := h1 e he
  exact ⟨pe, List.mem_of_getElem? hpe, hE⟩

/-- C05: no edge is lost. -/
theorem C05_no_edge_lost {dim : Nat} {es : List ProtoEdge} {ns : List ProtoNode} {g : Graph}
    (h : build dim es ns = .ok g) {pe : ProtoEdge} (hpe : pe ∈ es) :
    ∃ e, e < g.edgeCount ∧ ∃ pe' ∈ es, EdgeIs g e pe' ∧ (pe' = pe ∨ SameEdge pe' pe) := by
  obtain ⟨rep, -, h2⟩ := C09_representatives h
  obtain ⟨i, hi⟩ := List.getElem?_of_mem hpe
  obtain ⟨hlt, i', pe', hpe', -, hE, hor⟩ := h2 i pe hi
  refine ⟨rep i, hlt, pe', List.mem_of_getElem? hpe', hE, ?_⟩
  rcases hor with rfl | hs
  · left; rw [hi] at hpe'; exact (Option.some.inj hpe').symm
  · exact Or.inr hs

/-- C05: there are at most as many edges as insertions. -/
theorem C05_count {dim : Nat} {es : List ProtoEdge} {ns : List ProtoNode} {g : Graph}
    (h : build dim es ns = .ok g) : g.edgeCount ≤ es.length := by
  obtain ⟨-, -, -, kept, scs, rep, hR, -, -, hF⟩ := build_ok h
  have := hR.count
  rw [(built_edges es ns).1] at this
  simpa [Graph.edgeCount, hF.fwdDsts] using this

/-- C09: a build panics iff all nodes are given and a shortcut refers to an edge that was never
inserted. -/
theorem C09_panic_iff (dim : Nat) (es : List ProtoEdge) (ns : List ProtoNode) :
    build dim es ns = .panic ↔ (∀ id, Endpoint es id → ∃ n, lastRecord ns id = some n) ∧
      ¬ ScInRange es := by
  constructor
  · intro h
    rcases build_cases dim es ns with ⟨-, h'⟩ | ⟨h1, ⟨h2, -⟩ | ⟨-, kept, scs, rep, -, h4⟩⟩
    · rw [h] at h'; cases h'
    · exact ⟨h1, h2⟩
    · rcases h4 with ⟨-, h'⟩ | ⟨-, ⟨-, h'⟩ | ⟨-, g', h', -⟩⟩ <;> rw [h] at h' <;> cases h'
  · rintro ⟨h1, h2⟩
    rcases build_cases dim es ns with ⟨⟨id, he, hr⟩, -⟩ | ⟨-, ⟨-, h'⟩ | ⟨h3, -⟩⟩
    · obtain ⟨n, hn⟩ := h1 id he
      rw [hr] at hn; cases hn
    · exact h'
    · exact absurd h3 h2

/-- C10: every edge is a shortcut iff it was inserted as one, and reports its own pair. -/
theorem C10_flags {dim : Nat} {es : List ProtoEdge} {ns : List ProtoNode} {g : Graph}
    (h : build dim es ns = .ok g) {e : Nat} (he : e < g.edgeCount) :
    ∃ pe ∈ es, EdgeIs g e pe ∧ g.isShortcut e = .ok pe.sc.isSome ∧
      (g.scEdgesOf e = .ok none ↔ pe.sc = none) := by
  obtain ⟨rep, h1, -⟩ := C09_representatives h
  obtain ⟨i, pe, hpe, -, hE, hsc⟩ := h1 e he
  refine ⟨pe, List.mem_of_getElem? hpe, hE, ?_, ?_⟩
  · have hsc' := hsc
    unfold Graph.scEdgesOf at hsc'
    cases hi : g.isShortcut e with
    | err x => rw [hi] at hsc'; cases hsc'
    | panic => rw [hi] at hsc'; cases hsc'
    | ok b =>
      rw [hi] at hsc'
      cases b with
      | false =>
        simp only [Res.ok_bind, Bool.false_eq_true, if_false, Res.pure_eq, Res.ok.injEq] at hsc'
        cases hp : pe.sc with
        | none => rfl
        | some p => rw [hp] at hsc'; cases hsc'
      | true =>
        simp only [Res.ok_bind, if_true] at hsc'
        cases hp : pe.sc with
        | some p => rfl
        | none =>
          rw [hp] at hsc'
          cases ha : g.scOffsets[e]? with
          | none => simp [ha] at hsc'
          | some a =>
            cases hb : g.scEdges[a]? with
            | none => simp [ha, hb] at hsc'
            | some q => simp [ha, hb] at hsc'
  · rw [hsc]; simp

example : exGraph.scEdgesOf 0 = .ok (some (1, 2)) ∧ exGraph.isShortcut 0 = .ok true ∧
    exGraph.scEdgesOf 1 = .ok none ∧ exGraph.edgeCount = 4 ∧ exEdges.length = 5 := by decide

example : EdgeIs exGraph 1 { id := some 5, srcId := 10, dstId := 20, metrics := [0], sc := none } :=
  ⟨by decide, ⟨0, by decide, by decide⟩, ⟨1, by decide, by decide⟩, by decide +kernel⟩

example : build 1 [{ id := none, srcId := 1, dstId := 1, metrics := [1], sc := some (0, 1) }]
    [{ id := 1, coord := ⟨0, 0⟩, level := none }] = .panic := by decide +kernel

/-! ## C06 -/

/-- C06 is false: of three parallel edges with metrics 1, 5, 1 the first and the last are duplicates,
but both remain since only neighbours are compared. -/
theorem C06_false_duplicates_remain :
    ∃ g, build 1 [{ id := none, srcId := 1, dstId := 2, metrics := [1], sc := none },
                  { id := none, srcId := 1, dstId := 2, metrics := [5], sc := none },
                  { id := none, srcId := 1, dstId := 2, metrics := [1], sc := none }]
        [{ id := 1, coord := ⟨0, 0⟩, level := none }, { id := 2, coord := ⟨1, 1⟩, level := none }] =
      .ok g ∧ g.edgeMetrics 0 = .ok [1] ∧ g.edgeMetrics 2 = .ok [1] ∧ g.tryId 0 = g.tryId 2 ∧
        g.dstIdx .fwd 0 = .ok 1 ∧ g.dstIdx .fwd 2 = .ok 1 ∧ g.dstIdx .bwd 0 = .ok 0 ∧
        g.dstIdx .bwd 2 = .ok 0 :=
  ⟨{ nodeIds := [1, 2], nodeCoords := [⟨0, 0⟩, ⟨1, 1⟩], nodeLevels := [0, 0], fwdDsts := [1, 1, 1],
     fwdOffsets := [0, 3], fwdMap := [0, 1, 2], bwdDsts := [0, 0, 0], bwdOffsets := [0, 0, 3],
     bwdMap := [0, 1, 2], metrics := [[1], [5], [1]], means := none, edgeIds := [none, none, none],
     idMap := [], scOffsets := [0, 0, 0, 0], scEdges := [], dim := 1 }, by decide +kernel⟩

theorem isDuplicate_of {es : List ProtoEdge} {ns : List ProtoNode} {x y : EdgeB} {a b : EdgeA}
    {i j : Nat} {pa pb : ProtoEdge}
    (ha : (((EdgeBuilder.new.insertAll es).next).insertAll ns).edges[i]? = some a)
    (hb : (((EdgeBuilder.new.insertAll es).next).insertAll ns).edges[j]? = some b)
    (hpa : es[i]? = some pa) (hpb : es[j]? = some pb)
    (hax : IdxOf (((EdgeBuilder.new.insertAll es).next).insertAll ns).nodeIds a x)
    (hby : IdxOf (((EdgeBuilder.new.insertAll es).next).insertAll ns).nodeIds b y)
    (hs : SameEdge pa pb) : isDuplicate x y = true := by
  obtain ⟨-, e2, -, -⟩ := built_edges es ns
  obtain ⟨a', ha', a1, a2, a3, a4, -⟩ := e2 i pa hpa
  rw [ha] at ha'; cases ha'
  obtain ⟨b', hb', b1, b2, b3, b4, -⟩ := e2 j pb hpb
  rw [hb] at hb'; cases hb'
  have hids := (built_base es ns).wf.1
  have hinj : ∀ {p q : Nat} {z : Int},
      (((EdgeBuilder.new.insertAll es).next).insertAll ns).nodeIds[p]? = some z →
      (((EdgeBuilder.new.insertAll es).next).insertAll ns).nodeIds[q]? = some z → p = q := by
    intro p q z hp hq
    have h1 := (idxFrom_eq_ok_iff hids).mpr hp
    rw [(idxFrom_eq_ok_iff hids).mpr hq] at h1
    cases h1; rfl
  obtain ⟨-, x2, x3, x4, x5, -⟩ := hax
  obtain ⟨-, y2, y3, y4, y5, -⟩ := hby
  unfold isDuplicate
  simp only [Bool.and_eq_true, decide_eq_true_eq, Prod.mk.injEq, List.all_eq_true]
  refine ⟨⟨by rw [x2, y2, a1, b1, hs.1], hinj x3 ?_, hinj x4 ?_⟩, ?_⟩
  · rw [a2, hs.2.1, ← b2]; exact y3
  · rw [a3, hs.2.2.1, ← b3]; exact y4
  · rintro ⟨u, v⟩ huv
    obtain ⟨k, hk⟩ := List.getElem?_of_mem huv
    rw [List.getElem?_zip_eq_some] at hk
    rw [Approx.C24_eq_iff]
    exact hs.2.2.2 k u v (by rw [← a4, ← x5]; exact hk.1) (by rw [← b4, ← y5]; exact hk.2)

/-- C06 for neighbours: two consecutive edges of the graph come from insertions that are no
duplicates. Missing: duplicates with a different parallel edge sorted in between, see
`C06_false_duplicates_remain`. -/
theorem C06_neighbours_partial {dim : Nat} {es : List ProtoEdge} {ns : List ProtoNode} {g : Graph}
    (h : build dim es ns = .ok g) {e : Nat} (he : e + 1 < g.edgeCount) :
    ∃ pe ∈ es, ∃ pe' ∈ es, EdgeIs g e pe ∧ EdgeIs g (e + 1) pe' ∧ ¬ SameEdge pe pe' := by
  obtain ⟨-, -, -, kept, scs, rep, hR, -, -, hF⟩ := build_ok h
  have hlen : g.edgeCount = kept.length := by simp [Graph.edgeCount, hF.fwdDsts]
  obtain ⟨-, e2, e3, -⟩ := built_edges es ns
  have hx := List.getElem?_eq_getElem (show e < kept.length by omega)
  have hy := List.getElem?_eq_getElem (show e + 1 < kept.length by omega)
  obtain ⟨i, a, ha, -, hax, -⟩ := hR.new e _ hx
  obtain ⟨j, b, hb, -, hby, -⟩ := hR.new (e + 1) _ hy
  obtain ⟨pe, hpe⟩ := e3 i a ha
  obtain ⟨pe', hpe'⟩ := e3 j b hb
  refine ⟨pe, List.mem_of_getElem? hpe, pe', List.mem_of_getElem? hpe', edgeIs_of hF hx ha hax hpe,
    edgeIs_of hF hy hb hby hpe', fun hs => ?_⟩
  have := isDuplicate_of ha hb hpe hpe' hax hby hs
  rw [hR.adj e _ _ hx hy] at this
  cases this

/-- C06 for unambiguous input: if inserted edges that share id and endpoints are always
tolerance-equal, then no two edges of the graph share id and endpoints. Missing: input with
different parallel edges of the same id (or of no id). -/
theorem C06_unambiguous_partial {dim : Nat} {es : List ProtoEdge} {ns : List ProtoNode} {g : Graph}
    (h : build dim es ns = .ok g)
    (hun : ∀ pe ∈ es, ∀ pe' ∈ es, pe.id = pe'.id → pe.srcId = pe'.srcId → pe.dstId = pe'.dstId →
      SameEdge pe pe')
    {e e' u v : Nat} {id : Option Nat} (h1 : g.tryId e = .ok id) (h1' : g.tryId e' = .ok id)
    (h2 : g.IsEdge e u v) (h2' : g.IsEdge e' u v) : e = e' := by
  obtain ⟨-, -, -, kept, scs, rep, hR, -, -, hF⟩ := build_ok h
  obtain ⟨-, e2, e3, -⟩ := built_edges es ns
  have hll := (built_base es ns).wf.2.2
  -- it suffices to treat e < e'
  suffices hlt : ∀ {e e' : Nat}, g.tryId e = .ok id → g.tryId e' = .ok id → g.IsEdge e u v →
      g.IsEdge e' u v → e < e' → False by
    rcases Nat.lt_trichotomy e e' with hl | he | hl
    · exact (hlt h1 h1' h2 h2' hl).elim
    · exact he
    · exact (hlt h1' h1 h2' h2 hl).elim
  intro e e' h1 h1' h2 h2' hlt
  have hget : ∀ {q : Nat}, g.tryId q = .ok id → g.IsEdge q u v →
      ∃ x, kept[q]? = some x ∧ x.id = id ∧ x.src = u ∧ x.dst = v := by
    intro q hq1 hq2
    obtain ⟨hq2, hq3⟩ := hq2
    simp only [Graph.tryId, Graph.dstIdx, Graph.dsts, ofIdx_iff, hF.edgeIds, hF.fwdDsts, hF.bwdDsts,
      List.getElem?_map, Option.map_eq_some_iff] at hq1 hq2 hq3
    obtain ⟨x, hx, r1⟩ := hq1
    obtain ⟨x', hx', r2⟩ := hq2
    obtain ⟨x'', hx'', r3⟩ := hq3
    rw [hx] at hx' hx''; cases hx'; cases hx''
    exact ⟨x, hx, r1, r3, r2⟩
  obtain ⟨x, hx, x1, x2, x3⟩ := hget h1 h2
  obtain ⟨z, hz, z1, z2, z3⟩ := hget h1' h2'
  have hel := lt_length_of_getElem? hx
  have hel' := lt_length_of_getElem? hz
  have hy := List.getElem?_eq_getElem (show e + 1 < kept.length by omega)
  generalize kept[e + 1]'(by omega) = y at hy
  -- the edge behind `e` has the same key
  have hkey : ∀ w ∈ kept, ∃ lv, fwdKey (((EdgeBuilder.new.insertAll es).next).insertAll ns).levels w =
      some (w.src, lv, w.dst, w.id) ∧
      (((EdgeBuilder.new.insertAll es).next).insertAll ns).levels[w.dst]? = some lv := by
    intro w hw
    have := (hR.ends w hw).2
    rw [← hll] at this
    exact ⟨_, fwdKey_some this, List.getElem?_eq_getElem this⟩
  obtain ⟨lx, hkx, hlx⟩ := hkey x (List.mem_of_getElem? hx)
  obtain ⟨ly, hky, hly⟩ := hkey y (List.mem_of_getElem? hy)
  obtain ⟨lz, hkz, hlz⟩ := hkey z (List.mem_of_getElem? hz)
  have hpw := List.pairwise_iff_getElem.mp hR.sorted
  have hgx : kept[e] = x := by rw [List.getElem?_eq_getElem hel] at hx; exact Option.some.inj hx
  have hgy : kept[e + 1]'(by omega) = y := by
    rw [List.getElem?_eq_getElem (by omega)] at hy; exact Option.some.inj hy
  have hgz : kept[e'] = z := by rw [List.getElem?_eq_getElem hel'] at hz; exact Option.some.inj hz
  have hxy := hpw e (e + 1) hel (by omega) (by omega) _ _ (by rw [hgx]; exact hkx) (by rw [hgy]; exact hky)
  have hyz : keyLe (y.src, ly, y.dst, y.id) (z.src, lz, z.dst, z.id) = true := by
    rcases Nat.lt_or_ge (e + 1) e' with hl | hl
    · exact hpw (e + 1) e' (by omega) hel' hl _ _ (by rw [hgy]; exact hky) (by rw [hgz]; exact hkz)
    · have : e' = e + 1 := by omega
      subst this
      rw [hy] at hz; cases hz
      rw [hky] at hkz
      have hh := Option.some.inj hkz
      rw [hh]
      have := keyLe_total (z.src, lz, z.dst, z.id) (z.src, lz, z.dst, z.id)
      simpa using this
  have hlxz : lx = lz := by
    rw [x3] at hlx; rw [z3] at hlz
    rw [hlx] at hlz; exact Option.some.inj hlz
  have heq : y.src = u ∧ y.dst = v ∧ idRank y.id = idRank id := by
    unfold keyLe at hxy hyz
    simp only [Bool.or_eq_true, Bool.and_eq_true, decide_eq_true_eq, x1, x2, x3, z1, z2, z3] at hxy hyz
    omega
  have hid : y.id = id := by
    have h3 := heq.2.2
    cases hyi : y.id <;> cases hii : id <;> simp [hyi, hii, idRank] at h3 ⊢
    exact h3
  obtain ⟨i, a, ha, -, hax, -⟩ := hR.new e _ hx
  obtain ⟨j, b, hb, -, hby, -⟩ := hR.new (e + 1) _ hy
  obtain ⟨pe, hpe⟩ := e3 i a ha
  obtain ⟨pe', hpe'⟩ := e3 j b hb
  obtain ⟨a', ha', a1, a2, a3, -, -⟩ := e2 i pe hpe
  rw [ha] at ha'; cases ha'
  obtain ⟨b', hb', b1, b2, b3, -, -⟩ := e2 j pe' hpe'
  rw [hb] at hb'; cases hb'
  obtain ⟨-, c2, c3, c4, -, -⟩ := (show _ ∧ _ from hax)
  obtain ⟨-, d2, d3, d4, -, -⟩ := (show _ ∧ _ from hby)
  have hs : SameEdge pe pe' := by
    apply hun pe (List.mem_of_getElem? hpe) pe' (List.mem_of_getElem? hpe')
    · rw [← a1, ← b1, ← c2, ← d2, x1, hid]
    · rw [x2] at c3; rw [heq.1, c3] at d3
      rw [← a2, ← b2]; exact Option.some.inj d3
    · rw [x3] at c4; rw [heq.2.1, c4] at d4
      rw [← a3, ← b3]; exact Option.some.inj d4
  have := isDuplicate_of ha hb hpe hpe' hax hby hs
  rw [hR.adj e _ _ hx hy] at this
  cases this

/-- The hypothesis of `C06_unambiguous_partial` is met by edges without parallel ones, and by repeated
insertions of the same edge. -/
example : ∃ g, build 1 (List.replicate 3
      { id := none, srcId := 1, dstId := 2, metrics := [1], sc := none })
    [{ id := 1, coord := ⟨0, 0⟩, level := none }, { id := 2, coord := ⟨1, 1⟩, level := none }] = .ok g ∧
    g.edgeCount = 1 ∧
    ∀ pe ∈ List.replicate 3 (⟨none, 1, 2, [1], none⟩ : ProtoEdge), ∀ pe' ∈ List.replicate 3
      (⟨none, 1, 2, [1], none⟩ : ProtoEdge), pe.id = pe'.id → pe.srcId = pe'.srcId →
      pe.dstId = pe'.dstId → SameEdge pe pe' := by
  refine ⟨{
     nodeIds := [1, 2], nodeCoords := [⟨0, 0⟩, ⟨1, 1⟩], nodeLevels := [0, 0], fwdDsts := [1],
     fwdOffsets := [0, 1], fwdMap := [0], bwdDsts := [0], bwdOffsets := [0, 0, 1],
     bwdMap := [0], metrics := [[1]], means := none, edgeIds := [none],
     idMap := [], scOffsets := [0, 0], scEdges := [], dim := 1 }, by decide +kernel, rfl, ?_⟩
  intro pe hpe pe' hpe' _ _ _
  rw [List.eq_of_mem_replicate hpe, List.eq_of_mem_replicate hpe']
  refine ⟨rfl, rfl, rfl, ?_⟩
  intro k x y hx hy
  rw [hx] at hy; cases hy
  norm_num

/-! ## C07 -/

/-- Every stored metric value is at least `1e-6`. -/
theorem C07_metrics_positive {dim : Nat} {es : List ProtoEdge} {ns : List ProtoNode} {g : Graph}
    (h : build dim es ns = .ok g) {e : Nat} {m : List ℚ} (hm : g.edgeMetrics e = .ok m) {x : ℚ}
    (hx : x ∈ m) : 1 / 1000000 ≤ x := by
  obtain ⟨-, -, -, kept, scs, rep, hR, hpos, -, hF⟩ := build_ok h
  rw [Graph.edgeMetrics, ofIdx_iff, hF.metrics, List.getElem?_map, Option.map_eq_some_iff] at hm
  obtain ⟨y, hy, rfl⟩ := hm
  obtain ⟨z, hz, rfl⟩ := List.mem_map.mp hx
  have := hpos y (List.mem_of_getElem? hy) z hz
  rw [correctMetric_eq_lifted]
  simpa [eps] using this

/-- The build only fails because of a metric if an inserted metric is below `1e-6` and not around
zero. -/
theorem C07_error_reason {dim : Nat} {es : List ProtoEdge} {ns : List ProtoNode}
    (h : build dim es ns = .err .metricTooSmall) :
    ∃ pe ∈ es, ∃ x ∈ pe.metrics, x ≤ -3 / 2000000 := by
  rcases build_cases dim es ns with ⟨-, h'⟩ | ⟨-, ⟨-, h'⟩ | ⟨-, kept, scs, rep, hR, h4⟩⟩
  · rw [h] at h'; cases h'
  · rw [h] at h'; cases h'
  · rcases h4 with ⟨⟨y, hy, x, hx, hlt⟩, -⟩ | ⟨-, ⟨-, h'⟩ | ⟨-, g', h', -⟩⟩
    · obtain ⟨q, hq⟩ := List.getElem?_of_mem hy
      obtain ⟨i, a, ha, -, hax, -⟩ := hR.new q y hq
      obtain ⟨-, e2, e3, -⟩ := built_edges es ns
      obtain ⟨pe, hpe⟩ := e3 i a ha
      obtain ⟨a', ha', -, -, -, a4, -⟩ := e2 i pe hpe
      rw [ha] at ha'; cases ha'
      refine ⟨pe, List.mem_of_getElem? hpe, x, by rw [← a4, ← hax.2.2.2.2.1]; exact hx, ?_⟩
      unfold lifted at hlt
      split at hlt
      · simp [eps] at hlt
      · rename_i hn
        simp only [eps] at hlt
        by_contra hc
        apply hn
        rw [abs_lt]
        constructor <;> linarith
    · rw [h] at h'; cases h'
    · rw [h] at h'; cases h'

/-- Conversely, if the last record of a clearly negative metric survives, i.e. the edge has no
duplicate, the build fails: no graph contains a negative metric. -/
theorem C07_negative_rejected {dim : Nat} {es : List ProtoEdge} {ns : List ProtoNode} {g : Graph}
    {pe : ProtoEdge} {x : ℚ} (hpe : pe ∈ es) (hx : x ∈ pe.metrics) (hneg : x < -3 / 1000000)
    (hlen : ∀ pe ∈ es, pe.metrics.length = dim) : build dim es ns ≠ .ok g := by
  intro h
  obtain ⟨e, he, pe', hpe', hE, hor⟩ := C05_no_edge_lost h hpe
  obtain ⟨k, hk⟩ := List.getElem?_of_mem hx
  have hkl := lt_length_of_getElem? hk
  rw [hlen pe hpe, ← hlen pe' hpe'] at hkl
  have hk' := List.getElem?_eq_getElem hkl
  have hclose : |pe'.metrics[k] - x| < 3 / 2000000 := by
    rcases hor with heq | hs
    · subst heq
      rw [hk] at hk'
      rw [← Option.some.inj hk']; norm_num
    · exact hs.2.2.2 k _ x hk' hk
  have hpos := C07_metrics_positive h hE.metrics (x := lifted pe'.metrics[k])
    (List.mem_map_of_mem (List.getElem_mem hkl))
  rw [abs_lt] at hclose
  unfold lifted at hpos
  split at hpos
  · rename_i habs
    rw [abs_lt] at habs
    linarith [hclose.2, habs.1]
  · linarith [hclose.2]

example : exGraph.edgeMetrics 1 = .ok [1 / 1000000] := by decide +kernel

example : build 1 [{ id := none, srcId := 1, dstId := 1, metrics := [-1], sc := none }]
    [{ id := 1, coord := ⟨0, 0⟩, level := none }] = .err .metricTooSmall := by decide +kernel

/-! ## C11 -/

/-- Edge-ids are unique in a built graph. -/
theorem C11_unique {dim : Nat} {es : List ProtoEdge} {ns : List ProtoNode} {g : Graph}
    (h : build dim es ns = .ok g) {e e' id : Nat} (h1 : g.tryId e = .ok (some id))
    (h2 : g.tryId e' = .ok (some id)) : e = e' := by
  have hwf := built_wellFormed h
  rw [← hwf.idMap_iff] at h1 h2
  rw [h1] at h2; cases h2; rfl

/-- The lookup returns the edge carrying the id. -/
theorem C11_lookup {dim : Nat} {es : List ProtoEdge} {ns : List ProtoNode} {g : Graph}
    (h : build dim es ns = .ok g) (e id : Nat) :
    g.tryIdxFrom id = .ok e ↔ g.tryId e = .ok (some id) :=
  (built_wellFormed h).idMap_iff e id

/-- The lookup reports an error iff no edge carries the id, and it never panics. -/
theorem C11_absent {dim : Nat} {es : List ProtoEdge} {ns : List ProtoNode} {g : Graph}
    (h : build dim es ns = .ok g) (id : Nat) :
    g.tryIdxFrom id = .err .unknownEdgeId ↔ ∀ e, g.tryId e ≠ .ok (some id) := by
  constructor
  · intro he e hid
    rw [← C11_lookup h] at hid
    rw [he] at hid; cases hid
  · intro hno
    unfold Graph.tryIdxFrom
    cases hb : bsearch (fun a b => decide (a < b)) (g.idMap.map Prod.fst) id with
    | error i => rfl
    | ok i =>
      exfalso
      have hi := bsearch_ok hb
      rw [List.getElem?_map] at hi
      cases hq : g.idMap[i]? with
      | none => simp [hq] at hi
      | some q =>
        apply hno q.2
        rw [← C11_lookup h]
        simp [Graph.tryIdxFrom, hb, hq]

/-- Two insertions with the same id but different endpoints make the build fail. -/
theorem C11_conflict {dim : Nat} {es : List ProtoEdge} {ns : List ProtoNode} {g : Graph} {id : Nat}
    {pe pe' : ProtoEdge} (hp : pe ∈ es) (hp' : pe' ∈ es) (hi : pe.id = some id)
    (hi' : pe'.id = some id) (hne : pe.srcId ≠ pe'.srcId ∨ pe.dstId ≠ pe'.dstId) :
    build dim es ns ≠ .ok g := by
  intro h
  obtain ⟨e, -, q, -, hE, hor⟩ := C05_no_edge_lost h hp
  obtain ⟨e', -, q', -, hE', hor'⟩ := C05_no_edge_lost h hp'
  have hq : q.id = pe.id ∧ q.srcId = pe.srcId ∧ q.dstId = pe.dstId := by
    rcases hor with rfl | hs
    · exact ⟨rfl, rfl, rfl⟩
    · exact ⟨hs.1, hs.2.1, hs.2.2.1⟩
  have hq' : q'.id = pe'.id ∧ q'.srcId = pe'.srcId ∧ q'.dstId = pe'.dstId := by
    rcases hor' with rfl | hs
    · exact ⟨rfl, rfl, rfl⟩
    · exact ⟨hs.1, hs.2.1, hs.2.2.1⟩
  have hee := C11_unique h (id := id) (by rw [hE.id, hq.1, hi]) (by rw [hE'.id, hq'.1, hi'])
  subst hee
  obtain ⟨u, hu, hus⟩ := hE.src
  obtain ⟨u', hu', hus'⟩ := hE'.src
  obtain ⟨v, hv, hvs⟩ := hE.dst
  obtain ⟨v', hv', hvs'⟩ := hE'.dst
  rw [hu] at hu'; cases hu'
  rw [hv] at hv'; cases hv'
  rw [hus] at hus'
  rw [hvs] at hvs'
  simp only [Res.ok.injEq] at hus' hvs'
  rcases hne with hne | hne
  · apply hne; rw [← hq.2.1, ← hq'.2.1, hus']
  · apply hne; rw [← hq.2.2, ← hq'.2.2, hvs']

/-- The build only fails because of ids if two different insertions carry the same id. -/
theorem C11_error_reason {dim : Nat} {es : List ProtoEdge} {ns : List ProtoNode}
    (h : build dim es ns = .err .duplicateEdgeId) :
    ∃ (i j : Nat) (pe pe' : ProtoEdge) (id : Nat), i ≠ j ∧ es[i]? = some pe ∧ es[j]? = some pe' ∧
      pe.id = some id ∧ pe'.id = some id := by
  rcases build_cases dim es ns with ⟨-, h'⟩ | ⟨-, ⟨-, h'⟩ | ⟨-, kept, scs, rep, hR, h4⟩⟩
  · rw [h] at h'; cases h'
  · rw [h] at h'; cases h'
  · rcases h4 with ⟨-, h'⟩ | ⟨-, ⟨hn, -⟩ | ⟨-, g', h', -⟩⟩
    · rw [h] at h'; cases h'
    · by_contra hcon
      apply hn
      unfold List.Nodup
      rw [List.pairwise_filterMap, List.pairwise_iff_getElem]
      intro q q' hq hq' hlt id hid id' hid' heq
      subst heq
      apply hcon
      have hx := List.getElem?_eq_getElem hq
      have hy := List.getElem?_eq_getElem hq'
      obtain ⟨i, a, ha, hr, hax, -⟩ := hR.new q _ hx
      obtain ⟨j, b, hb, hr', hby, -⟩ := hR.new q' _ hy
      obtain ⟨-, e2, e3, -⟩ := built_edges es ns
      obtain ⟨pe, hpe⟩ := e3 i a ha
      obtain ⟨pe', hpe'⟩ := e3 j b hb
      obtain ⟨a', ha', a1, -⟩ := e2 i pe hpe
      rw [ha] at ha'; cases ha'
      obtain ⟨b', hb', b1, -⟩ := e2 j pe' hpe'
      rw [hb] at hb'; cases hb'
      refine ⟨i, j, pe, pe', id, ?_, hpe, hpe', ?_, ?_⟩
      · rintro rfl; omega
      · rw [← a1, ← hax.2.1]; exact hid
      · rw [← b1, ← hby.2.1]; exact hid'
    · rw [h] at h'; cases h'

example : exGraph.tryIdxFrom 6 = .ok 2 ∧ exGraph.tryIdxFrom 8 = .err .unknownEdgeId := by decide

example : build 1 [{ id := some 3, srcId := 1, dstId := 2, metrics := [1], sc := none },
    { id := some 3, srcId := 2, dstId := 1, metrics := [1], sc := none }]
    [{ id := 1, coord := ⟨0, 0⟩, level := none }, { id := 2, coord := ⟨0, 0⟩, level := none }] =
      .err .duplicateEdgeId := by decide +kernel

/-! ## C12 -/

/-- The level of the node an edge reaches in direction `d`. -/
def reachedLevel (g : Graph) (d : Dir) (e : Nat) : Option Nat :=
  match g.dstIdx d e with
  | .ok v =>
    match g.nodeLevel v with
    | .ok lv => some lv
    | _ => none
  | _ => none

theorem reachedLevel_some {g : Graph} (hwf : g.WellFormed) {d : Dir} {i : Nat} {l : List Nat}
    (hl : g.startingFrom d i = .ok l) {e : Nat} (he : e ∈ l) :
    ∃ v lv, g.dstIdx d e = .ok v ∧ g.nodeLevel v = .ok lv ∧ reachedLevel g d e = some lv := by
  have h1 := ((hwf.start d i l hl).2.1 e).mp he
  have hlt : e < g.edgeCount := by
    simp only [Graph.dstIdx, ofIdx_iff] at h1
    have := lt_length_of_getElem? h1
    cases d with
    | fwd => simp only [Dir.opp, Graph.dsts, hwf.bwd_len] at this; exact this
    | bwd => exact this
  have hd : e < (g.dsts d).length := by
    cases d with
    | fwd => exact hlt
    | bwd => simp only [Graph.dsts, hwf.bwd_len]; exact hlt
  have hv : g.dstIdx d e = .ok (g.dsts d)[e] := by
    rw [Graph.dstIdx, ofIdx_iff, List.getElem?_eq_getElem hd]
  have hvl := hwf.ends_lt d e _ hv
  rw [← hwf.levels_len] at hvl
  have hlv : g.nodeLevel (g.dsts d)[e] = .ok (g.nodeLevels[(g.dsts d)[e]]) := by
    rw [Graph.nodeLevel, ofIdx_iff, List.getElem?_eq_getElem hvl]
  exact ⟨_, _, hv, hlv, by simp [reachedLevel, hv, hlv]⟩

/-- The edges of a node are ordered by non-increasing level of the reached node. -/
theorem C12_level_order {dim : Nat} {es : List ProtoEdge} {ns : List ProtoNode} {g : Graph}
    (h : build dim es ns = .ok g) {d : Dir} {i : Nat} {l : List Nat}
    (hl : g.startingFrom d i = .ok l) :
    (∀ e ∈ l, ∃ lv, reachedLevel g d e = some lv) ∧
    l.Pairwise (fun a b => ∀ la lb, reachedLevel g d a = some la → reachedLevel g d b = some lb →
      lb ≤ la) := by
  have hwf := built_wellFormed h
  refine ⟨fun e he => ?_, ?_⟩
  · obtain ⟨v, lv, -, -, h3⟩ := reachedLevel_some hwf hl he
    exact ⟨lv, h3⟩
  · refine (hwf.start d i l hl).2.2.imp_of_mem ?_
    intro a b ha hb hab la lb hla hlb
    obtain ⟨u, lu, h1, h2, h3⟩ := reachedLevel_some hwf hl ha
    obtain ⟨v, lv, h4, h5, h6⟩ := reachedLevel_some hwf hl hb
    rw [h3] at hla; cases hla
    rw [h6] at hlb; cases hlb
    exact hab u v _ _ h1 h4 h2 h5

/-- Stopping at the first lower neighbour visits exactly the neighbours that are not lower. -/
theorem C12_break_is_filter {dim : Nat} {es : List ProtoEdge} {ns : List ProtoNode} {g : Graph}
    (h : build dim es ns = .ok g) {d : Dir} {i : Nat} {l : List Nat}
    (hl : g.startingFrom d i = .ok l) (lv : Nat) :
    l.takeWhile (fun e => (reachedLevel g d e).any (fun x => decide (lv ≤ x))) =
      l.filter (fun e => (reachedLevel g d e).any (fun x => decide (lv ≤ x))) := by
  obtain ⟨h1, h2⟩ := C12_level_order h hl
  clear hl
  induction l with
  | nil => rfl
  | cons a l ih =>
    rw [List.pairwise_cons] at h2
    obtain ⟨la, hla⟩ := h1 a (by simp)
    by_cases hge : lv ≤ la
    · rw [List.takeWhile_cons, List.filter_cons, ih (fun e he => h1 e (by simp [he])) h2.2]
      simp [hla, hge]
    · rw [List.takeWhile_cons, List.filter_cons]
      simp only [hla, Option.any_some, decide_eq_true_eq, hge, if_false]
      symm
      rw [List.filter_eq_nil_iff]
      intro b hb
      obtain ⟨lb, hlb⟩ := h1 b (by simp [hb])
      have := h2.1 b hb la lb hla hlb
      simp [hlb]; omega

example : (exGraph.startingFrom .fwd 0 = .ok [0, 1]) ∧ reachedLevel exGraph .fwd 0 = some 2 ∧
    reachedLevel exGraph .fwd 1 = some 0 := by decide

end Build
end Verif
