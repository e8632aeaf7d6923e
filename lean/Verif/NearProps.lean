import Verif.SearchNear
import Verif.DijkstraProps
import Verif.RecordLemmas

/-!
# How far answers can be from the optimum

The queue compares costs approximately, and this comparison is no order. These theorems bound how far
the cost of the returned path can be from the optimum, for every graph and every query.
-/

namespace Verif.Dij

open Search Graph

/-- No node has more than `deg` leaving or more than `deg` entering edges. -/
def MaxDegree (g : Graph) (deg : Nat) : Prop :=
  ∀ (v : Nat) (es : List Nat), es.Nodup → ((∀ e ∈ es, ∃ w, g.IsEdge e v w) ∨ (∀ e ∈ es, ∃ w, g.IsEdge e w v)) →
    es.length ≤ deg

theorem outArcs_length {g : Graph} (hwf : g.WellFormed) {deg : Nat} (hdeg : MaxDegree g deg)
    {K : Type} {wt : List ℚ → K} {isCh : Bool} (d : Dir) (u : Nat) : (outArcs g wt isCh d u).length ≤ deg := by
  unfold outArcs
  split
  · rename_i es hes
    refine le_trans (List.length_filterMap_le _ _) ?_
    obtain ⟨h1, h2, _⟩ := hwf.start d u es hes
    refine hdeg u es h1 ?_
    cases d with
    | fwd =>
      left
      intro e he
      have hb := (h2 e).mp he
      obtain ⟨w, hw⟩ := edge_dst hwf (edge_lt hwf hb) .fwd
      exact ⟨w, hw, hb⟩
    | bwd =>
      right
      intro e he
      have hb := (h2 e).mp he
      obtain ⟨w, hw⟩ := edge_dst hwf (edge_lt hwf hb) .bwd
      exact ⟨w, hb, hw⟩
  · simp

/-- A bound that holds for every graph. -/
theorem maxDegree_edges {g : Graph} (hwf : g.WellFormed) : MaxDegree g g.edgeCount := by
  intro v es hnd h
  refine length_le_of_nodup_lt hnd (fun e he => ?_)
  rcases h with h | h
  · obtain ⟨w, hw⟩ := h e he
    exact edge_lt hwf hw.1
  · obtain ⟨w, hw⟩ := h e he
    exact edge_lt hwf hw.1

section
variable {deg fuel n : Nat} {s s' : St ℚ} {q : Query ℚ}

/-- No route is much cheaper than the returned path, if no weight is negative. -/
theorem near_of_weights {p : Path} (hwf : q.graph.WellFormed)
    (hw : ∀ m ∈ q.graph.metrics, 0 ≤ dot q.alphas m) (halg : q.algo = .dijkstra)
    (hdeg : MaxDegree q.graph deg)
    (hsrc : q.src < q.graph.nodeCount) (hdst : q.dst < q.graph.nodeCount) (hu : Used codeHeap dot n s)
    (hc : computeBestPath codeHeap dot fuel s q = some (.ok (s', some p))) :
    ∀ l, q.graph.IsRoute q.src l q.dst → routeCost q.graph q.alphas p.edges ≤
      routeCost q.graph q.alphas l + 2 * ((2 + fuel * (deg + 2)) * (3 / 2000000)) := by
  intro l hl
  obtain ⟨a, m, t, x, y, tf, tb, i, j, h0, _, _, hxy, h1, h2, h3, h4, _, _, rfl⟩ :=
    answered_path hwf addOk_rat hw hsrc hdst hu hc rfl
  have hdec : decide (q.algo = Algo.chDijkstra) = false := by rw [halg]; rfl
  rw [hdec] at h0 h1 h2
  obtain ⟨ts, rfl, hts⟩ := route_fwd hwf (dot q.alphas) hl
  obtain ⟨m', b, hb, hle⟩ := near_plain (c := cfg codeHeap q.graph (dot q.alphas) false q.src q.dst)
    (by norm_num) codeHeap_near (outArcs_length hwf hdeg) rfl
    (mirror hwf) (outOk hwf hw) (finOk hwf hsrc hdst) hts h0 (by simp)
  cases hb
  rw [costFrom_eq, zero_add] at h3 h4
  change _ ≤ routeCost q.graph q.alphas (ts.map (·.1)) + _
  rw [← cost_eq hwf hts]
  change routeCost q.graph q.alphas (tf.map (·.1) ++ (tb.map (·.1)).reverse) ≤ _
  rw [routeCost_append, routeCost_reverse, ← cost_eq hwf h1, ← cost_eq hwf h2]
  unfold popErr at hle
  push_cast at hle
  linarith

/-- The returned path costs at most `2 (2 + k (deg + 2)) 1.5e-6` more than any route, where `k` is the
number of iterations the search is given (the bound of the model's loop, so in particular the number of
iterations that are needed). The full statement would be that it is a cheapest route, which is false,
see `C14_false_near_ties`. -/
theorem C14_near_optimal_partial {p : Path} (hwf : q.graph.WellFormed)
    (hm : NonnegMetrics q.graph) (halg : q.algo = .dijkstra) (hdeg : MaxDegree q.graph deg)
    (hsrc : q.src < q.graph.nodeCount) (hdst : q.dst < q.graph.nodeCount) (hu : Used codeHeap dot n s)
    (hc : computeBestPath codeHeap dot fuel s q = some (.ok (s', some p))) :
    ∀ l, q.graph.IsRoute q.src l q.dst → routeCost q.graph q.alphas p.edges ≤
      routeCost q.graph q.alphas l + 2 * ((2 + fuel * (deg + 2)) * (3 / 2000000)) :=
  near_of_weights hwf (weights_nonneg (computed_valid hc).2 hm) halg hdeg hsrc hdst hu hc

/-- If every route that is not cheapest is more expensive than a cheapest one by more than that, a
cheapest route is returned. -/
theorem C14_separated_partial {p : Path} (hwf : q.graph.WellFormed)
    (hm : NonnegMetrics q.graph) (halg : q.algo = .dijkstra) (hdeg : MaxDegree q.graph deg)
    (hsrc : q.src < q.graph.nodeCount) (hdst : q.dst < q.graph.nodeCount) (hu : Used codeHeap dot n s)
    (hsep : ∀ l l', q.graph.IsRoute q.src l q.dst → q.graph.IsRoute q.src l' q.dst →
      routeCost q.graph q.alphas l < routeCost q.graph q.alphas l' →
      routeCost q.graph q.alphas l + 2 * ((2 + fuel * (deg + 2)) * (3 / 2000000)) <
        routeCost q.graph q.alphas l')
    (hc : computeBestPath codeHeap dot fuel s q = some (.ok (s', some p))) :
    ∀ l, q.graph.IsRoute q.src l q.dst →
      routeCost q.graph q.alphas p.edges ≤ routeCost q.graph q.alphas l := by
  intro l hl
  by_contra hcon
  have hp := (C13_route hwf addOk_rat (weights_nonneg (computed_valid hc).2 hm) hsrc hdst hu hc).1
  have h1 := hsep l p.edges hl hp (not_le.mp hcon)
  have h2 := C14_near_optimal_partial hwf hm halg hdeg hsrc hdst hu hc l hl
  linarith

/-- The path found by ch-dijkstra costs at most `(2 + k (deg + 2)) 1.5e-6` more than any route that
goes up and then down, with `k` as in `C14_near_optimal_partial`. -/
theorem C20_near_up_down_partial {p : Path} (hwf : q.graph.WellFormed)
    (hm : NonnegMetrics q.graph) (halg : q.algo = .chDijkstra) (hdeg : MaxDegree q.graph deg)
    (hsrc : q.src < q.graph.nodeCount) (hdst : q.dst < q.graph.nodeCount) (hu : Used codeHeap dot n s)
    (hc : computeBestPath codeHeap dot fuel s q = some (.ok (s', some p))) :
    ∀ l, IsUpDown q.graph q.src l q.dst → routeCost q.graph q.alphas p.edges ≤
      routeCost q.graph q.alphas l + (2 + fuel * (deg + 2)) * (3 / 2000000) := by
  rintro l ⟨w, l1, l2, rfl, hl1, hl2⟩
  have hal := (computed_valid hc).2
  have hw := weights_nonneg hal hm
  obtain ⟨a, m, t, x, y, tf, tb, i, j, h0, _, _, hxy, h1, h2, h3, h4, _, _, rfl⟩ :=
    answered_path hwf addOk_rat hw hsrc hdst hu hc rfl
  have hdec : decide (q.algo = Algo.chDijkstra) = true := by rw [halg]; rfl
  rw [hdec] at h0 h1 h2
  obtain ⟨t1, rfl, ht1⟩ := up_fwd hwf (dot q.alphas) hl1
  obtain ⟨t2, e2, ht2⟩ := down_bwd hwf (dot q.alphas) hl2
  obtain ⟨m', b, hb, hle⟩ := near_ch_all (c := cfg codeHeap q.graph (dot q.alphas) true q.src q.dst)
    (by norm_num) codeHeap_near (outArcs_length hwf hdeg) rfl (outOk hwf hw) h0 ht1 ht2
  cases hb
  rw [costFrom_eq, zero_add] at h3 h4
  rw [routeCost_append]
  have e3 : routeCost q.graph q.alphas l2 = cost t2 := by
    rw [cost_eq hwf ht2, e2, routeCost_reverse]
  rw [e3, ← cost_eq hwf ht1]
  change routeCost q.graph q.alphas (tf.map (·.1) ++ (tb.map (·.1)).reverse) ≤ _
  rw [routeCost_append, routeCost_reverse, ← cost_eq hwf h1, ← cost_eq hwf h2]
  unfold popErr at hle
  push_cast at hle
  linarith

/-- ... and than any route at all, on a contraction hierarchy. -/
theorem C20_near_optimal_partial {p : Path} (hwf : q.graph.WellFormed)
    (hm : NonnegMetrics q.graph) (hhi : Hierarchy q.graph q.alphas) (halg : q.algo = .chDijkstra)
    (hdeg : MaxDegree q.graph deg)
    (hsrc : q.src < q.graph.nodeCount) (hdst : q.dst < q.graph.nodeCount) (hu : Used codeHeap dot n s)
    (hc : computeBestPath codeHeap dot fuel s q = some (.ok (s', some p))) :
    ∀ l, q.graph.IsRoute q.src l q.dst → routeCost q.graph q.alphas p.edges ≤
      routeCost q.graph q.alphas l + (2 + fuel * (deg + 2)) * (3 / 2000000) := by
  intro l hl
  obtain ⟨l', h1, h2⟩ := hhi _ _ _ hl
  have := C20_near_up_down_partial hwf hm halg hdeg hsrc hdst hu hc l' h1
  linarith

end

/-- The sample where the code misses the cheapest route meets the hypotheses; 12 iterations are enough. -/
example : MaxDegree nearGraph 7 ∧ NonnegMetrics nearGraph ∧
    answer (computeBestPath codeHeap dot 12 St.new
      { src := 3, dst := 4, graph := nearGraph, algo := .dijkstra, alphas := [1] }) =
    some (.ok (some (Path.new 3 3 4 4 [4, 2]))) := by
  refine ⟨?_, ?_, by decide +kernel⟩
  · have := maxDegree_edges (Build.built_wellFormed near_build)
    have h : nearGraph.edgeCount = 7 := by decide +kernel
    rw [h] at this
    exact this
  · have h : ∀ m ∈ nearGraph.metrics, ∀ x ∈ m, (0 : ℚ) ≤ x := by decide +kernel
    exact h

/-- On the sample graph with costs of 4 and 5 the routes are far enough apart for 12 iterations. -/
example : MaxDegree sqGraph 5 ∧ (4 : ℚ) + 2 * ((2 + (12 : Nat) * ((5 : Nat) + 2)) * (3 / 2000000)) < 5 ∧
    answer (computeBestPath codeHeap dot 12 St.new
      { src := 0, dst := 3, graph := sqGraph, algo := .dijkstra, alphas := [1] }) =
    some (.ok (some (Path.new 0 0 3 3 [0, 3]))) := by
  refine ⟨?_, by norm_num, by decide +kernel⟩
  have := maxDegree_edges (Build.built_wellFormed sq_build)
  have h : sqGraph.edgeCount = 5 := by decide +kernel
  rw [h] at this
  exact this

/-- The sample hierarchy meets the hypotheses as well. -/
example : MaxDegree chGraph 6 ∧ Contracted chGraph [1] ∧
    answer (computeBestPath codeHeap dot 20 St.new
      { src := 1, dst := 3, graph := chGraph, algo := .chDijkstra, alphas := [1] }) ≠ some (.ok none) := by
  refine ⟨?_, contracted_of (Build.built_wellFormed ch_build) (weights_nonneg (by simp) ch_nonneg)
    (by decide +kernel), by decide +kernel⟩
  have := maxDegree_edges (Build.built_wellFormed ch_build)
  have h : chGraph.edgeCount = 6 := by decide +kernel
  rw [h] at this
  exact this

end Verif.Dij

namespace Verif.Build

open Dij Search

/-- No chain of inserted edges is much cheaper than the answer: for every built graph and with the code's
queue. The first summand is the tolerance with which duplicates are removed, the second one comes from
comparing costs approximately, see `C14_near_optimal_partial`. The full statement, without any slack, is
false, see `C69_false_duplicates` and `C14_false_near_ties`. -/
theorem C69_near_code_partial {fuel n deg : Nat} {s s' : St ℚ} {dim src dst : Nat} {es : List ProtoEdge}
    {ns : List ProtoNode} {g : Graph} {al : List ℚ} {a b : Int} {p : Path} (hb : build dim es ns = .ok g)
    (hdim : ∀ pe ∈ es, pe.metrics.length = al.length) (hdeg : MaxDegree g deg)
    (hsrc : g.nodeId src = .ok a) (hdst : g.nodeId dst = .ok b) (hu : Used codeHeap dot n s)
    (hc : computeBestPath codeHeap dot fuel s ⟨src, dst, g, .dijkstra, al⟩ = some (.ok (s', some p)))
    {rs : List ProtoEdge} (hrs : ∀ pe ∈ rs, pe ∈ es) (hr : Chain a rs b) :
    routeCost g al p.edges ≤ chainCost al rs + rs.length * (al.sum / 250000) +
      2 * ((2 + fuel * (deg + 2)) * (3 / 2000000)) := by
  obtain ⟨l, ps, h1, h2, h3⟩ := route_of_chain (al := al) hb hrs hr hsrc hdst
  have h4 := C14_near_optimal_partial (q := ⟨src, dst, g, .dijkstra, al⟩) (built_wellFormed hb)
    (built_nonneg hb) rfl hdeg (nodeId_lt hsrc) (nodeId_lt hdst) hu hc l h1
  have h5 := chainCost_near (computed_valid hc).2 hdim hrs h3
  simp only at h4 h5
  linarith

end Verif.Build
