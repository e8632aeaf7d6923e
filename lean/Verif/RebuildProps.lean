import Verif.RebuildLemmas

/-!
# C57: building a graph from its own nodes and edges
-/

namespace Verif
namespace Build

theorem lifted_eq_self {x : ℚ} (h : x = 1 / 1000000 ∨ 3 / 2000000 ≤ x) : lifted x = x := by
  unfold lifted
  rcases h with rfl | h
  · norm_num [abs_of_pos]
  · rw [if_neg]
    rw [not_lt]
    exact le_trans h (le_abs_self x)

theorem lifted_lifted (x : ℚ) : lifted (lifted x) = lifted x := by
  by_cases h : |x| < 3 / 2000000
  · have hx : lifted x = 1 / 1000000 := by rw [lifted, if_pos h]
    rw [hx]
    exact lifted_eq_self (.inl rfl)
  · have hx : lifted x = x := by rw [lifted, if_neg h]
    rw [hx, hx]

/-- C57: a graph is rebuilt exactly, arrays and offsets included, from records of its own edges and nodes in order,
if no two neighbouring edges are duplicates. -/
theorem C57_rebuild {dim : Nat} {es es' : List ProtoEdge} {ns ns' : List ProtoNode} {g : Graph}
    (h : build dim es ns = .ok g)
    (he : List.Forall₂ (EdgeOf g) (List.range g.edgeCount) es')
    (hn : List.Forall₂ (NodeOf g) (List.range g.nodeCount) ns')
    (hd : ∀ (e : Nat) (x y : ProtoEdge), es'[e]? = some x → es'[e + 1]? = some y → ¬ SameEdge x y) :
    build dim es' ns' = .ok g := by
  have hdim := (build_ok h).2.2.1
  have hg : ({ g with metrics := g.metrics, dim := dim } : Graph) = g := by rw [← hdim]
  have := rebuild h (d := dim) (built_wellFormed h).metrics_len (by
    intro m hm x hx
    obtain ⟨e, he⟩ := List.getElem?_of_mem hm
    have hm' : g.edgeMetrics e = .ok m := (ofIdx_iff (ε := AccErr)).mpr he
    refine ⟨C07_metrics_positive h hm' hx, ?_⟩
    obtain ⟨pe, -, hE⟩ := C05_no_edge_invented h (e := e) (by
      rw [← (built_wellFormed h).metrics_len]; exact lt_length_of_getElem? he)
    have := hE.metrics
    rw [hm', Res.ok.injEq] at this
    rw [this] at hx
    obtain ⟨y, -, rfl⟩ := List.mem_map.mp hx
    exact lifted_lifted y) (by rw [hg]; exact he) (by rw [hg]; exact hn) hd
  rwa [hg] at this

/-- C57 if every edge has an id: then there are no duplicates. -/
theorem C57_rebuild_ids {dim : Nat} {es es' : List ProtoEdge} {ns ns' : List ProtoNode} {g : Graph}
    (h : build dim es ns = .ok g)
    (hid : ∀ e, e < g.edgeCount → ∃ id, g.tryId e = .ok (some id))
    (he : List.Forall₂ (EdgeOf g) (List.range g.edgeCount) es')
    (hn : List.Forall₂ (NodeOf g) (List.range g.nodeCount) ns') : build dim es' ns' = .ok g := by
  refine C57_rebuild h he hn ?_
  intro e x y hx hy hs
  obtain ⟨hl, he⟩ := range_get he
  have h1 := (he e x hx).id
  have h2 := (he (e + 1) y hy).id
  obtain ⟨id, hi⟩ := hid e (by rw [← hl]; exact lt_length_of_getElem? hx)
  rw [hi, Res.ok.injEq] at h1
  rw [← hs.1, ← h1] at h2
  have hu := (built_wellFormed h).idMap_iff
  have := (hu e id).mpr hi
  rw [(hu (e + 1) id).mpr h2, Res.ok.injEq] at this
  omega

/-- C57 for other metrics on the same edges: the graph with these metrics is rebuilt exactly. -/
theorem C57_rebuild_metrics {dim d : Nat} {es es' : List ProtoEdge} {ns ns' : List ProtoNode} {g : Graph}
    (h : build dim es ns = .ok g) {ms : List (List ℚ)} (hml : ms.length = g.edgeCount)
    (hm : ∀ m ∈ ms, ∀ x ∈ m, x = 1 / 1000000 ∨ 3 / 2000000 ≤ x)
    (he : List.Forall₂ (EdgeOf { g with metrics := ms, dim := d }) (List.range g.edgeCount) es')
    (hn : List.Forall₂ (NodeOf { g with metrics := ms, dim := d }) (List.range g.nodeCount) ns')
    (hd : ∀ (e : Nat) (x y : ProtoEdge), es'[e]? = some x → es'[e + 1]? = some y → ¬ SameEdge x y) :
    build d es' ns' = .ok { g with metrics := ms, dim := d } := by
  refine rebuild h hml ?_ he hn hd
  intro m hm' x hx
  refine ⟨?_, lifted_eq_self (hm m hm' x hx)⟩
  rcases hm m hm' x hx with h | h
  · rw [h, eps]
  · rw [eps]; linarith

/-- Records of the sample graph's edges and nodes. -/
def exEdges' : List ProtoEdge :=
  [ { id := some 9, srcId := 10, dstId := 30, metrics := [4], sc := some (1, 2) },
    { id := some 5, srcId := 10, dstId := 20, metrics := [1 / 1000000], sc := none },
    { id := some 6, srcId := 20, dstId := 30, metrics := [3], sc := none },
    { id := some 7, srcId := 30, dstId := 10, metrics := [2], sc := none } ]

def exNodes' : List ProtoNode :=
  [ { id := 10, coord := ⟨5, 5⟩, level := some 1 }, { id := 20, coord := ⟨1, 1⟩, level := none },
    { id := 30, coord := ⟨2, 2⟩, level := some 2 } ]

theorem ex_edges' : List.Forall₂ (EdgeOf exGraph) (List.range exGraph.edgeCount) exEdges' := by
  have hr : List.range exGraph.edgeCount = [0, 1, 2, 3] := by decide +kernel
  rw [hr]
  refine .cons ⟨by decide +kernel, ⟨0, by decide +kernel⟩, ⟨2, by decide +kernel⟩, by decide +kernel, by decide +kernel⟩
    (.cons ⟨by decide +kernel, ⟨0, by decide +kernel⟩, ⟨1, by decide +kernel⟩, by decide +kernel, by decide +kernel⟩
    (.cons ⟨by decide +kernel, ⟨1, by decide +kernel⟩, ⟨2, by decide +kernel⟩, by decide +kernel, by decide +kernel⟩
    (.cons ⟨by decide +kernel, ⟨2, by decide +kernel⟩, ⟨0, by decide +kernel⟩, by decide +kernel, by decide +kernel⟩
    .nil)))

theorem ex_nodes' : List.Forall₂ (NodeOf exGraph) (List.range exGraph.nodeCount) exNodes' := by
  have hr : List.range exGraph.nodeCount = [0, 1, 2] := by decide +kernel
  rw [hr]
  exact .cons ⟨by decide +kernel, by decide +kernel, by decide +kernel⟩
    (.cons ⟨by decide +kernel, by decide +kernel, by decide +kernel⟩
    (.cons ⟨by decide +kernel, by decide +kernel, by decide +kernel⟩ .nil))

example : build 1 exEdges' exNodes' = .ok exGraph := by
  refine C57_rebuild_ids ex_build ?_ ex_edges' ex_nodes'
  intro e he
  have h4 : e < 4 := he
  rcases e with _ | _ | _ | _ | e
  · exact ⟨9, by decide +kernel⟩
  · exact ⟨5, by decide +kernel⟩
  · exact ⟨6, by decide +kernel⟩
  · exact ⟨7, by decide +kernel⟩
  · omega

/-- Another metric and a second one. -/
def exMetrics : List (List ℚ) := [[8, 1], [2, 2], [6, 3], [4, 1 / 1000000]]

def exEdges2 : List ProtoEdge :=
  [ { id := some 9, srcId := 10, dstId := 30, metrics := [8, 1], sc := some (1, 2) },
    { id := some 5, srcId := 10, dstId := 20, metrics := [2, 2], sc := none },
    { id := some 6, srcId := 20, dstId := 30, metrics := [6, 3], sc := none },
    { id := some 7, srcId := 30, dstId := 10, metrics := [4, 1 / 1000000], sc := none } ]

example : build 2 exEdges2 exNodes' = .ok { exGraph with metrics := exMetrics, dim := 2 } := by
  refine C57_rebuild_metrics ex_build (by decide +kernel) ?_ ?_ ?_ ?_
  · intro m hm x hx
    simp only [exMetrics, List.mem_cons, List.not_mem_nil, or_false] at hm
    rcases hm with rfl | rfl | rfl | rfl <;>
      simp only [List.mem_cons, List.not_mem_nil, or_false] at hx <;> rcases hx with rfl | rfl <;> norm_num
  · have hr : List.range exGraph.edgeCount = [0, 1, 2, 3] := by decide +kernel
    rw [hr]
    refine .cons ⟨by decide +kernel, ⟨0, by decide +kernel⟩, ⟨2, by decide +kernel⟩, by decide +kernel, by decide +kernel⟩
      (.cons ⟨by decide +kernel, ⟨0, by decide +kernel⟩, ⟨1, by decide +kernel⟩, by decide +kernel, by decide +kernel⟩
      (.cons ⟨by decide +kernel, ⟨1, by decide +kernel⟩, ⟨2, by decide +kernel⟩, by decide +kernel, by decide +kernel⟩
      (.cons ⟨by decide +kernel, ⟨2, by decide +kernel⟩, ⟨0, by decide +kernel⟩, by decide +kernel, by decide +kernel⟩
      .nil)))
  · have hr : List.range exGraph.nodeCount = [0, 1, 2] := by decide +kernel
    rw [hr]
    exact .cons ⟨by decide +kernel, by decide +kernel, by decide +kernel⟩
      (.cons ⟨by decide +kernel, by decide +kernel, by decide +kernel⟩
      (.cons ⟨by decide +kernel, by decide +kernel, by decide +kernel⟩ .nil))
  · intro e x y hx hy hs
    have h3 := lt_length_of_getElem? hy
    have hid := hs.1
    have h4 : e < 3 := by
      have : exEdges2.length = 4 := rfl
      omega
    rcases e with _ | _ | _ | e
    · cases hx; cases hy; cases hid
    · cases hx; cases hy; cases hid
    · cases hx; cases hy; cases hid
    · omega

/-- Two edges without ids whose metrics are no duplicates when they are inserted, but after lifting. -/
def liftEdges : List ProtoEdge :=
  [ { id := none, srcId := 1, dstId := 2, metrics := [0], sc := none },
    { id := none, srcId := 1, dstId := 2, metrics := [16 / 10000000], sc := none } ]

def liftNodes : List ProtoNode :=
  [ { id := 1, coord := ⟨0, 0⟩, level := some 0 }, { id := 2, coord := ⟨1, 1⟩, level := some 0 } ]

def liftEdges' : List ProtoEdge :=
  [ { id := none, srcId := 1, dstId := 2, metrics := [1 / 1000000], sc := none },
    { id := none, srcId := 1, dstId := 2, metrics := [16 / 10000000], sc := none } ]

/-- The value of a result that is `ok`. -/
def okOf : R Graph → Graph
  | .ok g => g
  | _ => exGraph

/-- C57 fails without the hypothesis on duplicates: metrics are compared before they are lifted, so a graph can
contain duplicates, and building it again drops an edge. -/
theorem C57_false_lifted : ∃ g g', build 1 liftEdges liftNodes = .ok g ∧
    List.Forall₂ (EdgeOf g) (List.range g.edgeCount) liftEdges' ∧
    List.Forall₂ (NodeOf g) (List.range g.nodeCount) liftNodes ∧
    build 1 liftEdges' liftNodes = .ok g' ∧ g.edgeCount = 2 ∧ g'.edgeCount = 1 := by
  refine ⟨okOf (build 1 liftEdges liftNodes), okOf (build 1 liftEdges' liftNodes), by decide +kernel, ?_, ?_,
    by decide +kernel, by decide +kernel, by decide +kernel⟩
  · have hr : List.range (okOf (build 1 liftEdges liftNodes)).edgeCount = [0, 1] := by decide +kernel
    rw [hr]
    exact .cons ⟨by decide +kernel, ⟨0, by decide +kernel⟩, ⟨1, by decide +kernel⟩, by decide +kernel, by decide +kernel⟩
      (.cons ⟨by decide +kernel, ⟨0, by decide +kernel⟩, ⟨1, by decide +kernel⟩, by decide +kernel, by decide +kernel⟩ .nil)
  · have hr : List.range (okOf (build 1 liftEdges liftNodes)).nodeCount = [0, 1] := by decide +kernel
    rw [hr]
    exact .cons ⟨by decide +kernel, by decide +kernel, by decide +kernel⟩
      (.cons ⟨by decide +kernel, by decide +kernel, by decide +kernel⟩ .nil)

end Build
end Verif
