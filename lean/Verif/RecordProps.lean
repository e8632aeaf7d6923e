import Verif.RecordLemmas

/-!
# From inserted edges to answers (C69)

The theorems connect both ends: edges that have been inserted into a builder, and answers of the router on the
built graph. The graph itself only links them.
-/

namespace Verif.Build

open Dij Search

section
variable {K : Type} [LinearOrder K] [Zero K] [Add K] {h : Heap K} {dotp : List ℚ → List ℚ → K} {fuel n : Nat}
  {s s' : St K} {dim src dst : Nat} {es : List ProtoEdge} {ns : List ProtoNode} {g : Graph} {algo : Algo}
  {al : List ℚ} {a b : Int}

/-- The answer is a chain of inserted edges: its edges have ids, ends and metrics of these records, and its cost
is their cost. Holds for every queue, arithmetic and history. -/
theorem C69_chain {p : Path} (hb : build dim es ns = .ok g) (hk : AddOk K)
    (hw : ∀ m ∈ g.metrics, 0 ≤ dotp al m) (hsrc : g.nodeId src = .ok a) (hdst : g.nodeId dst = .ok b)
    (hu : Used h dotp n s) (hc : computeBestPath h dotp fuel s ⟨src, dst, g, algo, al⟩ = some (.ok (s', some p))) :
    p.srcId = a ∧ p.dstId = b ∧ ∃ rs : List ProtoEdge, (∀ pe ∈ rs, pe ∈ es) ∧ Chain a rs b ∧
      chainCost al rs = routeCost g al p.edges ∧ List.Forall₂ (EdgeIs g) p.edges rs := by
  obtain ⟨h1, -, -, h2, h3, -⟩ := C13_route (q := ⟨src, dst, g, algo, al⟩) (built_wellFormed hb) hk hw
    (nodeId_lt hsrc) (nodeId_lt hdst) hu hc
  exact ⟨Res.ok.inj (h2.symm.trans hsrc), Res.ok.inj (h3.symm.trans hdst), chain_of_route hb h1 hsrc hdst⟩

/-- There is no path iff no chain of inserted edges leads from `a` to `b`. -/
theorem C69_none_iff {ans : Option Path} (hb : build dim es ns = .ok g) (hk : AddOk K)
    (hw : ∀ m ∈ g.metrics, 0 ≤ dotp al m) (hal : ∀ x ∈ al, 0 ≤ x) (hsrc : g.nodeId src = .ok a)
    (hdst : g.nodeId dst = .ok b) (hu : Used h dotp n s)
    (hc : computeBestPath h dotp fuel s ⟨src, dst, g, .dijkstra, al⟩ = some (.ok (s', ans))) :
    ans = none ↔ ¬ ∃ rs : List ProtoEdge, (∀ pe ∈ rs, pe ∈ es) ∧ Chain a rs b := by
  rw [C15_none_iff (q := ⟨src, dst, g, .dijkstra, al⟩) (built_wellFormed hb) hk hw hal rfl (nodeId_lt hsrc)
    (nodeId_lt hdst) hu hc, not_iff_not]
  constructor
  · rintro ⟨l, hl⟩
    obtain ⟨rs, h1, h2, -⟩ := chain_of_route (al := al) hb hl hsrc hdst
    exact ⟨rs, h1, h2⟩
  · rintro ⟨rs, h1, h2⟩
    obtain ⟨l, -, hl, -⟩ := route_of_chain (al := al) hb h1 h2 hsrc hdst
    exact ⟨l, hl⟩

end

section
variable {h : Heap ℚ} {fuel n : Nat} {s s' : St ℚ} {dim src dst : Nat} {es : List ProtoEdge} {ns : List ProtoNode}
  {g : Graph} {al : List ℚ} {a b : Int} {p : Path}

/-- No chain of inserted edges is cheaper than the answer, up to the tolerance with which duplicates are removed:
`4e-6` per edge and metric. Holds for a queue comparing exactly (see C14). -/
theorem C69_near_cheapest (hb : build dim es ns = .ok g) (hdim : ∀ pe ∈ es, pe.metrics.length = al.length)
    (hsrc : g.nodeId src = .ok a) (hdst : g.nodeId dst = .ok b) (hu : Used (binHeap compare) dot n s)
    (hc : computeBestPath (binHeap compare) dot fuel s ⟨src, dst, g, .dijkstra, al⟩ = some (.ok (s', some p)))
    {rs : List ProtoEdge} (hrs : ∀ pe ∈ rs, pe ∈ es) (hr : Chain a rs b) :
    routeCost g al p.edges ≤ chainCost al rs + rs.length * (al.sum / 250000) := by
  obtain ⟨l, ps, h1, h2, h3⟩ := route_of_chain (al := al) hb hrs hr hsrc hdst
  have h4 := C14_exact_comparison (q := ⟨src, dst, g, .dijkstra, al⟩) (built_wellFormed hb) (built_nonneg hb) rfl
    (nodeId_lt hsrc) (nodeId_lt hdst) hu hc l h1
  have h5 := chainCost_near (computed_valid hc).2 hdim hrs h3
  simp only at h4 h5
  linarith

/-- Without near duplicates, no chain of inserted edges is cheaper than the answer. -/
theorem C69_cheapest (hb : build dim es ns = .ok g) (hnd : NoNearDuplicates es)
    (hsrc : g.nodeId src = .ok a) (hdst : g.nodeId dst = .ok b) (hu : Used (binHeap compare) dot n s)
    (hc : computeBestPath (binHeap compare) dot fuel s ⟨src, dst, g, .dijkstra, al⟩ = some (.ok (s', some p)))
    {rs : List ProtoEdge} (hrs : ∀ pe ∈ rs, pe ∈ es) (hr : Chain a rs b) :
    routeCost g al p.edges ≤ chainCost al rs := by
  obtain ⟨l, ps, h1, h2, h3⟩ := route_of_chain (al := al) hb hrs hr hsrc hdst
  have h4 := C14_exact_comparison (q := ⟨src, dst, g, .dijkstra, al⟩) (built_wellFormed hb) (built_nonneg hb) rfl
    (nodeId_lt hsrc) (nodeId_lt hdst) hu hc l h1
  rw [chainCost_same hnd hrs h3] at h2
  rw [← h2]
  exact h4

/-- The same with the code's queue, if the costs of all inserted edges are multiples of a step that the code's
comparison can tell apart.
Partial: for other costs it is false, see `C14_false_near_ties`. -/
theorem C69_cheapest_grid_partial {u : ℚ} (hb : build dim es ns = .ok g) (hnd : NoNearDuplicates es)
    (hgrid : ∀ pe ∈ es, ∃ i : ℤ, recordCost al pe = i * u) (hstep : 3 / 2000000 ≤ u)
    (hsrc : g.nodeId src = .ok a) (hdst : g.nodeId dst = .ok b) (hu : Used codeHeap dot n s)
    (hc : computeBestPath codeHeap dot fuel s ⟨src, dst, g, .dijkstra, al⟩ = some (.ok (s', some p)))
    {rs : List ProtoEdge} (hrs : ∀ pe ∈ rs, pe ∈ es) (hr : Chain a rs b) :
    routeCost g al p.edges ≤ chainCost al rs := by
  obtain ⟨l, ps, h1, h2, h3⟩ := route_of_chain (al := al) hb hrs hr hsrc hdst
  have h4 := C14_grid_partial (q := ⟨src, dst, g, .dijkstra, al⟩) (built_wellFormed hb) (built_nonneg hb) rfl
    (nodeId_lt hsrc) (nodeId_lt hdst) (fun m hm => by
      obtain ⟨pe, hpe, h5⟩ := built_weights (al := al) hb hm
      rw [h5]
      exact hgrid pe hpe) hstep hu hc l h1
  rw [chainCost_same hnd hrs h3] at h2
  rw [← h2]
  exact h4

/-- The same for a contraction hierarchy: no chain of inserted edges, plain or shortcut, is cheaper.
Partial: the graph has to be contracted correctly for these alphas. -/
theorem C69_cheapest_ch_partial (hb : build dim es ns = .ok g) (hnd : NoNearDuplicates es)
    (hhi : Hierarchy g al) (hsrc : g.nodeId src = .ok a) (hdst : g.nodeId dst = .ok b)
    (hu : Used (binHeap compare) dot n s)
    (hc : computeBestPath (binHeap compare) dot fuel s ⟨src, dst, g, .chDijkstra, al⟩ = some (.ok (s', some p)))
    {rs : List ProtoEdge} (hrs : ∀ pe ∈ rs, pe ∈ es) (hr : Chain a rs b) :
    routeCost g al p.edges ≤ chainCost al rs := by
  obtain ⟨l, ps, h1, h2, h3⟩ := route_of_chain (al := al) hb hrs hr hsrc hdst
  have h4 := (C20_optimal (q := ⟨src, dst, g, .chDijkstra, al⟩) (V := fun _ => True) (built_wellFormed hb)
    (built_nonneg hb) hhi rfl (nodeId_lt hsrc) (nodeId_lt hdst) hu (binHeap_min (fun _ _ _ _ => rfl)) trivial
    (fun _ _ _ _ => trivial) hc).2 l h1
  rw [chainCost_same hnd hrs h3] at h2
  rw [← h2]
  exact h4

end

/-- A small map: two routes from 10 to 40. -/
def mapEdges : List ProtoEdge :=
  [edge1 10 20 2, edge1 20 40 2, edge1 10 30 1, edge1 30 40 4, edge1 40 10 1]

def mapNodes : List ProtoNode := [10, 20, 30, 40].map fun i => ⟨i, ⟨0, 0⟩, none⟩

theorem map_unique : NoNearDuplicates mapEdges := by
  intro pe hpe pe' hpe' hs
  have key : ∀ x ∈ mapEdges, ∀ y ∈ mapEdges, y.srcId = x.srcId → y.dstId = x.dstId → y.metrics = x.metrics := by
    decide +kernel
  exact key pe hpe pe' hpe' hs.2.1 hs.2.2.1

/-- The answer from node 10 (index 0) to node 40 (index 3) leads over node 20, and the hypotheses hold. -/
example : ∃ g s', build 1 mapEdges mapNodes = .ok g ∧ g.nodeId 0 = .ok 10 ∧ g.nodeId 3 = .ok 40 ∧
    computeBestPath codeHeap dot 40 St.new ⟨0, 3, g, .dijkstra, [1]⟩ =
      some (.ok (s', some (Path.new 0 10 3 40 [0, 2]))) ∧
    (∀ rs : List ProtoEdge, (∀ pe ∈ rs, pe ∈ mapEdges) → Chain 10 rs 40 →
      routeCost g [1] [0, 2] ≤ chainCost [1] rs) ∧
    Chain 10 [edge1 10 30 1, edge1 30 40 4] 40 ∧ chainCost [1] [edge1 10 30 1, edge1 30 40 4] = 5 := by
  have h0 : ∃ s', computeBestPath codeHeap dot 40 St.new ⟨0, 3, okGraph (build 1 mapEdges mapNodes), .dijkstra, [1]⟩ =
      some (.ok (s', some (Path.new 0 10 3 40 [0, 2]))) := by
    have : answer (computeBestPath codeHeap dot 40 St.new
        ⟨0, 3, okGraph (build 1 mapEdges mapNodes), .dijkstra, [1]⟩) =
        some (.ok (some (Path.new 0 10 3 40 [0, 2]))) := by decide +kernel
    revert this
    generalize computeBestPath codeHeap dot 40 St.new ⟨0, 3, okGraph (build 1 mapEdges mapNodes), .dijkstra, [1]⟩ = r
    intro this
    match r, this with
    | some (.ok (s, ans)), this =>
      simp only [answer, Option.map_some, Res.ok_bind, Res.pure_eq, Option.some.injEq, Res.ok.injEq] at this
      exact ⟨s, by rw [this]⟩
  obtain ⟨s', h0⟩ := h0
  have hb : build 1 mapEdges mapNodes = .ok (okGraph (build 1 mapEdges mapNodes)) := by decide +kernel
  refine ⟨_, s', hb, by decide +kernel, by decide +kernel, h0, fun rs h1 h2 => ?_,
    ⟨rfl, rfl, rfl⟩, by decide +kernel⟩
  refine C69_cheapest_grid_partial (u := 1) hb map_unique (fun pe hpe => ?_) (by norm_num) (by decide +kernel)
    (by decide +kernel) (n := 0) .new h0 h1 h2
  have : ∀ x ∈ mapEdges, recordCost [1] x = ((recordCost [1] x).num : ℚ) * 1 := by decide +kernel
  exact ⟨_, this pe hpe⟩

/-- C69 is false with near duplicates: the first of two similar edges is kept, also if the second one is cheaper. -/
theorem C69_false_duplicates : ∃ g, build 1 [edge1 10 20 (1000001 / 1000000), edge1 10 20 1, edge1 20 30 1, edge1 30 10 1]
      ([10, 20, 30].map fun i => ⟨i, ⟨0, 0⟩, none⟩) = .ok g ∧ g.nodeId 0 = .ok 10 ∧ g.nodeId 1 = .ok 20 ∧
    answer (computeBestPath codeHeap dot 40 St.new ⟨0, 1, g, .dijkstra, [1]⟩) =
      some (.ok (some (Path.new 0 10 1 20 [0]))) ∧
    routeCost g [1] [0] = 1000001 / 1000000 ∧ chainCost [1] [edge1 10 20 1] = 1 :=
  ⟨okGraph (build 1 [edge1 10 20 (1000001 / 1000000), edge1 10 20 1, edge1 20 30 1, edge1 30 10 1]
    ([10, 20, 30].map fun i => ⟨i, ⟨0, 0⟩, none⟩)), by decide +kernel⟩

end Verif.Build
