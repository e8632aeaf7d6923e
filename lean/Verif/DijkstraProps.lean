import Verif.DijkstraLemmas5
import Verif.Hierarchy
import Verif.BuildingProps
import Verif.PathProps

/-!
# Properties of the router (C13 - C20)

A query answers with `some (.ok (s', ans))`: the router afterwards and the answer. `none` means that
the fuel has been too small; C19 shows that there is always enough. `Used h dotp n s` says that the
router `s` is a new one or has answered any queries on graphs with at most `n` nodes.
-/

namespace Verif.Dij

set_option linter.unusedSectionVars false

open Graph Search

/-! ## Sample graphs -/

/-- The graph of a successful build. -/
def okGraph : Build.R Graph → Graph
  | .ok g => g
  | _ => { nodeIds := [], nodeCoords := [], nodeLevels := [], fwdDsts := [], fwdOffsets := [],
           fwdMap := [], bwdDsts := [], bwdOffsets := [], bwdMap := [], metrics := [], means := none,
           edgeIds := [], idMap := [], scOffsets := [], scEdges := [], dim := 0 }

/-- Nodes `0, 1, ..` with the given levels. -/
def lvNodes : Int → List Nat → List Build.ProtoNode
  | _, [] => []
  | i, l :: ls => { id := i, coord := ⟨0, 0⟩, level := some l } :: lvNodes (i + 1) ls

/-- An edge with one metric. -/
def edge1 (a b : Int) (m : ℚ) : Build.ProtoEdge :=
  { id := none, srcId := a, dstId := b, metrics := [m], sc := none }

/-- `0 → 1 → 3` costs 5, `0 → 2 → 3` costs 4, and `3 → 0`. -/
def sqBuild : Build.R Graph :=
  Build.build 1 [edge1 0 1 1, edge1 0 2 2, edge1 1 3 4, edge1 2 3 2, edge1 3 0 1]
    (lvNodes 0 [0, 1, 2, 3])

def sqGraph : Graph := okGraph sqBuild

theorem sq_build : sqBuild = .ok sqGraph := by decide +kernel
theorem sq_wf : sqGraph.WellFormed := Build.built_wellFormed sq_build

theorem sq_nonneg : NonnegMetrics sqGraph := by
  have : sqGraph.metrics.all (fun m => m.all (fun x => decide (0 ≤ x))) = true := by decide +kernel
  intro m hm x hx
  simpa using List.all_eq_true.mp (List.all_eq_true.mp this m hm) x hx

/-- A query on the sample graph. -/
def sqQuery (algo : Algo) (src dst : Nat) : Query ℚ :=
  { src, dst, graph := sqGraph, algo, alphas := [1] }

/-! ## Rounded addition -/

/-- A rounding, as of floating point numbers without overflow. -/
structure Rounding where
  rnd : ℚ → ℚ
  mono : Monotone rnd
  idem : ∀ x, rnd (rnd x) = rnd x
  zero : rnd 0 = 0

/-- The numbers that are kept by a rounding. -/
def Rounded (r : Rounding) : Type := { x : ℚ // r.rnd x = x }

instance (r : Rounding) : LinearOrder (Rounded r) := Subtype.instLinearOrder _
instance (r : Rounding) : Zero (Rounded r) := ⟨⟨0, r.zero⟩⟩
/-- The rounded sum. -/
instance (r : Rounding) : Add (Rounded r) := ⟨fun a b => ⟨r.rnd (a.1 + b.1), r.idem _⟩⟩

/-- Rounded sums are an addition as required below. -/
theorem addOk_rounded (r : Rounding) : AddOk (Rounded r) := by
  have hle : ∀ a b : Rounded r, a ≤ b ↔ a.1 ≤ b.1 := fun a b => Iff.rfl
  have hadd : ∀ a b : Rounded r, (a + b).1 = r.rnd (a.1 + b.1) := fun a b => rfl
  have hz : (0 : Rounded r).1 = 0 := rfl
  constructor
  · intro x w hw
    have hw' := (hle _ _).mp hw
    rw [hz] at hw'
    rw [hle, hadd]
    calc x.1 = r.rnd x.1 := x.2.symm
      _ ≤ r.rnd (x.1 + w.1) := r.mono (by linarith)
  · intro x w hw
    have hw' := (hle _ _).mp hw
    rw [hz] at hw'
    rw [hle, hadd]
    calc x.1 = r.rnd x.1 := x.2.symm
      _ ≤ r.rnd (w.1 + x.1) := r.mono (by linarith)
  · intro x y w hxy
    have hxy' := (hle _ _).mp hxy
    rw [hle, hadd, hadd]
    exact r.mono (by linarith)
  · intro x y w hxy
    have hxy' := (hle _ _).mp hxy
    rw [hle, hadd, hadd]
    exact r.mono (by linarith)

/-- Rounding down to a multiple of four. -/
def floor4 : Rounding where
  rnd x := (⌊x / 4⌋ : ℚ) * 4
  mono := by
    intro x y hxy
    have h1 : ⌊x / 4⌋ ≤ ⌊y / 4⌋ := Int.floor_mono (by linarith)
    have h2 : (⌊x / 4⌋ : ℚ) ≤ ⌊y / 4⌋ := by exact_mod_cast h1
    simp only
    linarith
  idem := by
    intro x
    rw [mul_div_cancel_right₀ _ (by norm_num : (4 : ℚ) ≠ 0), Int.floor_intCast]
  zero := by norm_num

/-- Rounding does lose something. -/
example : floor4.rnd (4 + 3) = 4 := by decide +kernel

/-! ## C13 -/

section
variable {K : Type} [LinearOrder K] [Zero K] [Add K] {h : Heap K} {dotp : List ℚ → List ℚ → K}
  {fuel n : Nat} {s s' : St K} {q : Query K}

/-- A returned path is a route from the source to the destination. This holds for every order in which
the queue may return its elements and for rounded additions of costs. -/
theorem C13_route {p : Path} (hwf : q.graph.WellFormed) (hk : AddOk K)
    (hw : ∀ m ∈ q.graph.metrics, 0 ≤ dotp q.alphas m)
    (hsrc : q.src < q.graph.nodeCount) (hdst : q.dst < q.graph.nodeCount) (hu : Used h dotp n s)
    (hc : computeBestPath h dotp fuel s q = some (.ok (s', some p))) :
    q.graph.IsRoute q.src p.edges q.dst ∧ p.srcIdx = q.src ∧ p.dstIdx = q.dst ∧
      q.graph.nodeId q.src = .ok p.srcId ∧ q.graph.nodeId q.dst = .ok p.dstId ∧ p.costs = none := by
  obtain ⟨a, m, t, x, y, tf, tb, i, j, _, _, _, _, h1, h2, _, _, h3, h4, rfl⟩ :=
    answered_path hwf hk hw hsrc hdst hu hc rfl
  exact ⟨isRoute_append.mpr ⟨m, fwd_route hwf h1, bwd_route hwf h2⟩, rfl, rfl, h3, h4, rfl⟩

/-- With ch-dijkstra, the route goes up and then down. -/
theorem C13_up_down {p : Path} (hwf : q.graph.WellFormed) (hk : AddOk K)
    (hw : ∀ m ∈ q.graph.metrics, 0 ≤ dotp q.alphas m) (hch : q.algo = .chDijkstra)
    (hsrc : q.src < q.graph.nodeCount) (hdst : q.dst < q.graph.nodeCount) (hu : Used h dotp n s)
    (hc : computeBestPath h dotp fuel s q = some (.ok (s', some p))) :
    IsUpDown q.graph q.src p.edges q.dst := by
  obtain ⟨a, m, t, x, y, tf, tb, i, j, _, _, _, _, h1, h2, _, _, h3, h4, rfl⟩ :=
    answered_path hwf hk hw hsrc hdst hu hc rfl
  rw [hch] at h1 h2
  exact ⟨m, _, _, rfl, fwd_up hwf h1, bwd_down hwf h2⟩

/-- The explorator is not a Dijkstra, the query panics. -/
theorem C13_explorator (ha : ∀ a ∈ q.alphas, 0 ≤ a) (hex : q.algo = .explorator) :
    computeBestPath h dotp fuel s q = some .panic := by
  unfold computeBestPath
  rw [if_neg (by simpa using ha), hex]

end

/-- The queue of the code and of an exact comparison both find a path of the sample. -/
example : answer (computeBestPath codeHeap dot 40 St.new (sqQuery .dijkstra 0 3)) =
      some (.ok (some (Path.new 0 0 3 3 [0, 3]))) ∧
    answer (computeBestPath (binHeap compare) dot 40 St.new (sqQuery .dijkstra 0 3)) =
      some (.ok (some (Path.new 0 0 3 3 [0, 3]))) ∧
    answer (computeBestPath codeHeap dot 40 St.new (sqQuery .chDijkstra 0 3)) =
      some (.ok (some (Path.new 0 0 3 3 [0, 3]))) := by
  decide +kernel

/-! ## C14 -/

section
variable {h : Heap ℚ} {fuel n : Nat} {s s' : St ℚ} {q : Query ℚ}

/-- The returned path is a cheapest route, if no weight is negative and the queue pops cheapest elements. -/
theorem optimal_of_weights {p : Path} {V : ℚ → Prop} (hwf : q.graph.WellFormed)
    (hw : ∀ m ∈ q.graph.metrics, 0 ≤ dot q.alphas m) (halg : q.algo = .dijkstra)
    (hsrc : q.src < q.graph.nodeCount) (hdst : q.dst < q.graph.nodeCount) (hu : Used h dot n s)
    (hmin : h.Min V) (hV0 : V 0) (hV : ∀ m ∈ q.graph.metrics, ∀ x, V x → V (x + dot q.alphas m))
    (hc : computeBestPath h dot fuel s q = some (.ok (s', some p))) :
    ∀ l, q.graph.IsRoute q.src l q.dst →
      routeCost q.graph q.alphas p.edges ≤ routeCost q.graph q.alphas l := by
  intro l hl
  obtain ⟨a, m, t, x, y, tf, tb, i, j, h0, _, _, hxy, h1, h2, h3, h4, _, _, rfl⟩ :=
    answered_path hwf addOk_rat hw hsrc hdst hu hc rfl
  have hdec : decide (q.algo = Algo.chDijkstra) = false := by rw [halg]; rfl
  rw [hdec] at h0 h1 h2
  obtain ⟨ts, rfl, hts⟩ := route_fwd hwf (dot q.alphas) hl
  obtain ⟨m', b, hb, hle⟩ := opt_plain_all (c := cfg h q.graph (dot q.alphas) false q.src q.dst) rfl
    (mirror hwf) (minOk hwf hmin hV0 hV) (outOk hwf hw) (finOk hwf hsrc hdst) hts h0 (by simp)
  cases hb
  rw [costFrom_eq, zero_add] at h3 h4
  change _ ≤ routeCost q.graph q.alphas (ts.map (·.1))
  rw [← cost_eq hwf hts]
  change routeCost q.graph q.alphas (tf.map (·.1) ++ (tb.map (·.1)).reverse) ≤ _
  rw [routeCost_append, routeCost_reverse, ← cost_eq hwf h1, ← cost_eq hwf h2]
  linarith

/-- The returned path is a cheapest route, if the queue returns a cheapest element whenever its costs
are in a set `V` that contains all costs of walks. -/
theorem C14_optimal {p : Path} {V : ℚ → Prop} (hwf : q.graph.WellFormed)
    (hm : NonnegMetrics q.graph) (halg : q.algo = .dijkstra)
    (hsrc : q.src < q.graph.nodeCount) (hdst : q.dst < q.graph.nodeCount) (hu : Used h dot n s)
    (hmin : h.Min V) (hV0 : V 0) (hV : ∀ m ∈ q.graph.metrics, ∀ x, V x → V (x + dot q.alphas m))
    (hc : computeBestPath h dot fuel s q = some (.ok (s', some p))) :
    ∀ l, q.graph.IsRoute q.src l q.dst →
      routeCost q.graph q.alphas p.edges ≤ routeCost q.graph q.alphas l :=
  optimal_of_weights hwf (weights_nonneg (computed_valid hc).2 hm) halg hsrc hdst hu hmin hV0 hV hc

/-- If costs were compared exactly, the returned path would be a cheapest route. -/
theorem C14_exact_comparison {p : Path} (hwf : q.graph.WellFormed)
    (hm : NonnegMetrics q.graph) (halg : q.algo = .dijkstra)
    (hsrc : q.src < q.graph.nodeCount) (hdst : q.dst < q.graph.nodeCount)
    (hu : Used (binHeap compare) dot n s)
    (hc : computeBestPath (binHeap compare) dot fuel s q = some (.ok (s', some p))) :
    ∀ l, q.graph.IsRoute q.src l q.dst →
      routeCost q.graph q.alphas p.edges ≤ routeCost q.graph q.alphas l :=
  C14_optimal hwf hm halg hsrc hdst hu (V := fun _ => True) (binHeap_min (fun _ _ _ _ => rfl)) trivial
    (fun _ _ _ _ => trivial) hc

/-- The sums of weights, which are multiples of `u`, are multiples of `u`. -/
theorem grid_closed {u : ℚ} {g : Graph} {al : List ℚ}
    (hgrid : ∀ m ∈ g.metrics, ∃ i : ℤ, (List.zipWith (· * ·) al m).sum = i * u) :
    ∀ m ∈ g.metrics, ∀ x, (∃ i : ℤ, x = i * u) → ∃ i : ℤ, x + dot al m = i * u := by
  rintro m hm x ⟨i, rfl⟩
  obtain ⟨j, hj⟩ := hgrid m hm
  refine ⟨i + j, ?_⟩
  rw [dot_eq, hj]
  push_cast
  ring

/-- With the approximate comparison of the code, the returned path is a cheapest route if the weights
of all edges are multiples of some step that is at least 1.5 times the accuracy `1e-6`. The full
statement is without that restriction, but then it is false, see `C14_false_near_ties`. -/
theorem C14_grid_partial {p : Path} {u : ℚ} (hwf : q.graph.WellFormed)
    (hm : NonnegMetrics q.graph) (halg : q.algo = .dijkstra)
    (hsrc : q.src < q.graph.nodeCount) (hdst : q.dst < q.graph.nodeCount)
    (hgrid : ∀ m ∈ q.graph.metrics, ∃ i : ℤ, (List.zipWith (· * ·) q.alphas m).sum = i * u)
    (hstep : 3 / 2000000 ≤ u) (hu : Used codeHeap dot n s)
    (hc : computeBestPath codeHeap dot fuel s q = some (.ok (s', some p))) :
    ∀ l, q.graph.IsRoute q.src l q.dst →
      routeCost q.graph q.alphas p.edges ≤ routeCost q.graph q.alphas l :=
  C14_optimal hwf hm halg hsrc hdst hu (codeHeap_min hstep) ⟨0, by simp⟩ (grid_closed hgrid) hc

end

/-- The sample's weights are on a grid of step one. The path found costs 4, the other route 5. -/
example : (∀ m ∈ sqGraph.metrics, ∃ i : ℤ, (List.zipWith (· * ·) [(1 : ℚ)] m).sum = i * 1) ∧
    routeCost sqGraph [1] [0, 3] = 4 ∧ routeCost sqGraph [1] [1, 2] = 5 ∧
    sqGraph.IsRoute 0 [1, 2] 3 := by
  refine ⟨?_, by decide +kernel, by decide +kernel, 1, ⟨by decide +kernel, by decide +kernel⟩, 3,
    ⟨by decide +kernel, by decide +kernel⟩, rfl⟩
  have hm : sqGraph.metrics = [[2], [1], [4], [2], [1]] := by decide +kernel
  rw [hm]
  intro m hm
  simp only [List.mem_cons, List.not_mem_nil, or_false] at hm
  rcases hm with rfl | rfl | rfl | rfl | rfl
  · exact ⟨2, by norm_num⟩
  · exact ⟨1, by norm_num⟩
  · exact ⟨4, by norm_num⟩
  · exact ⟨2, by norm_num⟩
  · exact ⟨1, by norm_num⟩

/-- Weights of one to three accuracies, some with differences below the accuracy. -/
def nearBuild : Build.R Graph :=
  Build.build 1 [edge1 0 4 (30 / 10000000), edge1 1 0 (18 / 10000000), edge1 1 4 (15 / 10000000),
      edge1 2 0 (22 / 10000000), edge1 3 1 (10 / 10000000), edge1 3 4 (15 / 10000000),
      edge1 4 3 (15 / 10000000)]
    (lvNodes 0 [0, 0, 0, 0, 0])

def nearGraph : Graph := okGraph nearBuild

theorem near_build : nearBuild = .ok nearGraph := by decide +kernel

/-- A built graph with metrics not below the accuracy, where the code returns a path for `2.5e-6`
although there is an edge from the source to the destination for `1.5e-6`. -/
theorem C14_false_near_ties :
    answer (computeBestPath codeHeap dot 40 St.new
        { src := 3, dst := 4, graph := nearGraph, algo := .dijkstra, alphas := [1] }) =
      some (.ok (some (Path.new 3 3 4 4 [4, 2]))) ∧
    routeCost nearGraph [1] [4, 2] = 25 / 10000000 ∧
    nearGraph.IsEdge 5 3 4 ∧ routeCost nearGraph [1] [5] = 15 / 10000000 ∧
    (∀ m ∈ nearGraph.metrics, ∀ x ∈ m, eps ≤ x) := by
  refine ⟨?_, ?_, ⟨?_, ?_⟩, ?_, ?_⟩ <;> decide +kernel

/-! ## C15 -/

section
variable {K : Type} [LinearOrder K] [Zero K] [Add K] {h : Heap K} {dotp : List ℚ → List ℚ → K}
  {fuel n : Nat} {s s' : St K} {q : Query K}

/-- An answered query says that there is no path iff there is no route; for every order of the queue
and for rounded additions. -/
theorem C15_none_iff {ans : Option Path} (hwf : q.graph.WellFormed) (hk : AddOk K)
    (hw : ∀ m ∈ q.graph.metrics, 0 ≤ dotp q.alphas m) (hal : ∀ a ∈ q.alphas, 0 ≤ a)
    (halg : q.algo = .dijkstra)
    (hsrc : q.src < q.graph.nodeCount) (hdst : q.dst < q.graph.nodeCount) (hu : Used h dotp n s)
    (hc : computeBestPath h dotp fuel s q = some (.ok (s', ans))) :
    ans = none ↔ ¬ ∃ l, q.graph.IsRoute q.src l q.dst := by
  constructor
  · rintro rfl ⟨l, hl⟩
    obtain ⟨a, best, h1, _, h3⟩ :=
      answered_cases hwf hk hw hsrc hdst hu (by rw [halg]; decide) hal hc rfl
    have hdec : decide (q.algo = Algo.chDijkstra) = false := by rw [halg]; rfl
    rw [hdec] at h1
    obtain ⟨ts, _, hts⟩ := route_fwd hwf (dotp q.alphas) hl
    have hne := found hk (outOk (h := h) (src := q.src) (dst := q.dst) hwf hw) h1
      (v := q.dst) (l := ts) (l' := []) hts rfl
    cases best with
    | none => exact hne rfl
    | some mb =>
      obtain ⟨m, b⟩ := mb
      obtain ⟨_, _, _, _, _, _, _, _, h4⟩ := h3 m b rfl
      cases h4
  · intro hno
    cases ans with
    | none => rfl
    | some p => exact absurd ⟨p.edges, (C13_route hwf hk hw hsrc hdst hu hc).1⟩ hno

/-- Queries are answered, not panicking, if all nodes can be expanded, if the graph has not exactly two
nodes, and if the router has not been used on a larger graph. All three conditions are needed:
`C15_false_uncovered`, `C15_false_two_nodes`, `C17_false_smaller_graph`. -/
theorem C15_answers_partial (hwf : q.graph.WellFormed) (hk : AddOk K)
    (hw : ∀ m ∈ q.graph.metrics, 0 ≤ dotp q.alphas m)
    (halg : q.algo ≠ .explorator) (hcov : AllCovered q.graph) (h2 : q.graph.nodeCount ≠ 2)
    (hsrc : q.src < q.graph.nodeCount) (hdst : q.dst < q.graph.nodeCount) (hu : Used h dotp n s)
    (hn : n ≤ q.graph.nodeCount) :
    ∃ N, ∀ fuel, N ≤ fuel → ∃ s' ans, computeBestPath h dotp fuel s q = some (.ok (s', ans)) := by
  by_cases hal : ∀ a ∈ q.alphas, 0 ≤ a
  · have hf := finOk (h := h) (wt := dotp q.alphas) (isCh := decide (q.algo = .chDijkstra)) hwf hsrc hdst
    obtain ⟨N, hN⟩ := terminates hk
      (outOk (h := h) (isCh := decide (q.algo = .chDijkstra)) (src := q.src) (dst := q.dst) hwf hw) hf
    refine ⟨max N (q.graph.nodeCount + 1), fun fuel hfuel => ?_⟩
    rcases compute_cases (h := h) (fuel := fuel) hwf hk hw h2 hsrc hdst (hu.mono hn).tidy halg hal rfl with
      h1 | h1 | h1
    · rcases h1.2 with h3 | h3
      · obtain ⟨r, hr⟩ := hN fuel (le_trans (le_max_left _ _) hfuel)
        rw [hr] at h3; cases h3
      · have := le_trans (le_max_right N _) hfuel
        omega
    · obtain ⟨_, d, u, ts, h3, h4⟩ := h1
      exfalso
      refine h3 (hcov d u ?_)
      cases ts using List.reverseRecOn with
      | nil =>
        have : _ = u := h4
        rw [← this]
        exact hf.roots d
      | append_singleton ts t =>
        obtain ⟨w, _, h6⟩ := isRt_append.mp h4
        have : t.2.1 = u := h6.2
        rw [← this]
        exact (hf.arcs d w t h6.1).2
    · exact h1
  · refine ⟨0, fun fuel _ => ⟨s, none, ?_⟩⟩
    unfold computeBestPath
    rw [if_pos]
    simpa using hal

end

/-- Both directions of all nodes can be expanded. -/
def allCoveredB (g : Graph) : Bool :=
  (List.range g.nodeCount).all fun i => [Dir.fwd, Dir.bwd].all fun d =>
    match g.startingFrom d i with
    | .ok _ => true
    | _ => false

theorem allCovered_of {g : Graph} (h : allCoveredB g = true) : AllCovered g := by
  intro d i hi
  have h1 := List.all_eq_true.mp (List.all_eq_true.mp h i (List.mem_range.mpr hi)) d
    (by cases d <;> simp)
  split at h1
  · exact ⟨_, by assumption⟩
  · cases h1

theorem sq_covered : AllCovered sqGraph := allCovered_of (by decide +kernel)

/-- The sample meets the conditions of `C15_answers_partial`; its nodes reach each other. -/
example : AllCovered sqGraph ∧ sqGraph.nodeCount = 4 ∧ (∀ m ∈ sqGraph.metrics, 0 ≤ dot [1] m) ∧
    answer (computeBestPath codeHeap dot 40 St.new (sqQuery .dijkstra 1 2)) =
      some (.ok (some (Path.new 1 1 2 2 [2, 4, 0]))) :=
  ⟨sq_covered, by decide +kernel, by decide +kernel, by decide +kernel⟩

/-- Two parts without connection, and every node has edges in both directions. -/
def twoParts : Build.R Graph :=
  Build.build 1 [edge1 0 1 1, edge1 1 0 1, edge1 2 3 1, edge1 3 2 1] (lvNodes 0 [0, 0, 0, 0])

def twoPartsGraph : Graph := okGraph twoParts

example : twoParts = .ok twoPartsGraph ∧ allCoveredB twoPartsGraph = true ∧
    answer (computeBestPath codeHeap dot 40 St.new
      { src := 0, dst := 3, graph := twoPartsGraph, algo := .dijkstra, alphas := [1] }) =
      some (.ok none) := by
  decide +kernel

/-- A dead end at the last node. -/
def deadEnd : Build.R Graph :=
  Build.build 1 [edge1 0 3 1, edge1 0 1 10, edge1 1 2 10] (lvNodes 0 [0, 0, 0, 0])

def deadEndGraph : Graph := okGraph deadEnd

/-- The offsets end with the last node having leaving edges, so expanding the dead end panics: there is
a route from 0 to 2, there is none from 3 to 0, and both queries panic. -/
theorem C15_false_uncovered : deadEnd = .ok deadEndGraph ∧
    (∃ l, deadEndGraph.IsRoute 0 l 2) ∧ (¬ ∃ l, deadEndGraph.IsRoute 3 l 0) ∧
    answer (computeBestPath codeHeap dot 40 St.new
      { src := 0, dst := 2, graph := deadEndGraph, algo := .dijkstra, alphas := [1] }) =
      some .panic ∧
    answer (computeBestPath codeHeap dot 40 St.new
      { src := 3, dst := 0, graph := deadEndGraph, algo := .dijkstra, alphas := [1] }) =
      some .panic := by
  refine ⟨by decide +kernel, ⟨[0, 2], 1, ⟨by decide +kernel, by decide +kernel⟩, 2,
    ⟨by decide +kernel, by decide +kernel⟩, rfl⟩, ?_, by decide +kernel, by decide +kernel⟩
  rintro ⟨l, hl⟩
  have hno : ∀ e < 3, deadEndGraph.bwdDsts[e]? ≠ some 3 := by decide +kernel
  have hlen : deadEndGraph.bwdDsts.length = 3 := by decide +kernel
  cases l with
  | nil => cases hl
  | cons e l =>
    obtain ⟨w, ⟨_, h1⟩, _⟩ := hl
    simp only [dstIdx, Res.ofIdx_eq_ok] at h1
    exact hno e (hlen ▸ Build.lt_length_of_getElem? h1) h1

/-- The smallest road network. -/
def twoNodes : Build.R Graph := Build.build 1 [edge1 0 1 1, edge1 1 0 1] (lvNodes 0 [0, 0])

def twoNodesGraph : Graph := okGraph twoNodes

/-- A new router panics on a graph with two nodes. -/
theorem C15_false_two_nodes : twoNodes = .ok twoNodesGraph ∧ allCoveredB twoNodesGraph = true ∧
    ∀ src < 2, ∀ dst < 2, ∀ algo ∈ [Algo.dijkstra, Algo.chDijkstra],
      answer (computeBestPath codeHeap dot 40 St.new
        { src, dst, graph := twoNodesGraph, algo, alphas := [1] }) = some .panic := by
  decide +kernel

/-! ## C16 -/

section
variable {K : Type} [LinearOrder K] [Zero K] [Add K] {h : Heap K} {dotp : List ℚ → List ℚ → K}
  {fuel n : Nat} {s s' : St K} {q : Query K}

/-- With a negative alpha, the answer is that there is no path, and the router does not change. -/
theorem C16_negative_alpha {a : ℚ} (ha : a ∈ q.alphas) (hneg : a < 0) :
    computeBestPath h dotp fuel s q = some (.ok (s, none)) := by
  unfold computeBestPath
  rw [if_pos]
  simp only [List.any_eq_true, decide_eq_true_eq]
  exact ⟨a, ha, hneg⟩

/-- Later answers are the same as without that query. -/
theorem C16_later_answers {a : ℚ} (ha : a ∈ q.alphas) (hneg : a < 0)
    (hc : computeBestPath h dotp fuel s q = some (.ok (s', none))) (q' : Query K) (fuel' : Nat) :
    computeBestPath h dotp fuel' s' q' = computeBestPath h dotp fuel' s q' := by
  rw [C16_negative_alpha ha hneg] at hc
  cases hc
  rfl

/-! ## C17 -/

theorem start_setVis (w : Dir → List Bool) {src dst : Nat} :
    start h (s.setVis w) src dst = (do let x ← start h s src dst; pure (x.setVis w)) := by
  unfold start
  simp only [St.setVis]
  cases setIdx (s.costs .fwd) src (some 0) with
  | panic => rfl
  | err e => rfl
  | ok cf =>
    simp only [Res.ok_bind]
    cases setIdx (s.costs .bwd) dst (some 0) with
    | panic => rfl
    | err e => rfl
    | ok cb => rfl

/-- A router answers like a new one, if it has been used only on graphs that are not larger than the
next one, which has not exactly two nodes. The full statement has no such conditions but is false:
`C17_false_two_nodes`, `C17_false_smaller_graph`. -/
theorem C17_reuse_partial (hu : Used h dotp n s) (hn : n ≤ q.graph.nodeCount)
    (h2 : q.graph.nodeCount ≠ 2) :
    answer (computeBestPath h dotp fuel s q) = answer (computeBestPath h dotp fuel St.new q) := by
  by_cases hal : ∀ a ∈ q.alphas, 0 ≤ a
  · by_cases halg : q.algo = .explorator
    · rw [C13_explorator hal halg, C13_explorator hal halg]
    · rw [compute_eq halg hal, compute_eq halg hal]
      set b := decide (q.algo = Algo.chDijkstra) with hb
      have key : ∀ s : St K, Used h dotp n s → initQuery { s with isCh := b } q.graph.nodeCount =
          .ok (blank b (fun _ => q.graph.nodeCount)
            (if b then s.visited else fun _ => List.replicate q.graph.nodeCount false)) := by
        intro s hu
        have ht : Tidy q.graph.nodeCount { s with isCh := b } := (hu.mono hn).tidy.congr rfl rfl rfl
        obtain ⟨s0, h0⟩ := initQuery_ok h2 ht
        rw [h0, initQuery_inv (le_refl _) ht h0]
        congr 2
        funext d
        simp [newLenD, Ne.symm h2]
      rw [key s hu, key St.new .new]
      simp only [Res.ok_bind]
      cases hbv : b with
      | false => simp
      | true =>
        simp only [if_true]
        have e : ∀ v, (blank true (fun _ => q.graph.nodeCount) v : St K) =
            (blank true (fun _ => q.graph.nodeCount) (fun _ => []) : St K).setVis v := fun v => rfl
        rw [e s.visited, e (St.new : St K).visited, start_setVis, start_setVis]
        cases hst : start h (blank true (fun _ => q.graph.nodeCount) (fun _ => []) : St K) q.src q.dst with
        | panic => rfl
        | err x => rfl
        | ok s1 =>
          have hch : s1.isCh = true := by
            unfold start at hst
            obtain ⟨cf, _, hst⟩ := Res.bind_eq_ok.mp hst
            obtain ⟨cb, _, hst⟩ := Res.bind_eq_ok.mp hst
            cases hst
            rfl
          simp only [Res.ok_bind, Res.pure_eq]
          rw [search_vis _ hch, search_vis _ hch]
  · push Not at hal
    obtain ⟨a, ha, hneg⟩ := hal
    rw [C16_negative_alpha ha hneg, C16_negative_alpha ha hneg]
    rfl

end

/-- The router after a query, or a new one. -/
def after (r : Option (R (St ℚ × Option Path))) : St ℚ :=
  match r with
  | some (.ok (s, _)) => s
  | _ => St.new

/-- The router after a query on the sample. -/
def sqUsed (algo : Algo) (src dst : Nat) : St ℚ :=
  after (computeBestPath codeHeap dot 40 St.new (sqQuery algo src dst))

/-- Is the query answered? -/
def answered (r : Option (R (St ℚ × Option Path))) : Bool :=
  match r with
  | some (.ok _) => true
  | _ => false

theorem after_used {q : Query ℚ} {fuel n : Nat} {s : St ℚ} (hu : Used codeHeap dot n s)
    (hq : q.graph.nodeCount ≤ n) (ha : answered (computeBestPath codeHeap dot fuel s q) = true) :
    Used codeHeap dot n (after (computeBestPath codeHeap dot fuel s q)) := by
  unfold answered at ha
  split at ha
  · rename_i x hx
    rw [hx]
    exact .query hu hq hx
  · cases ha

/-- A router that has been used on the sample, and whose answer is not empty. -/
example : Used codeHeap dot 4 (sqUsed .dijkstra 1 2) ∧ (sqUsed .dijkstra 1 2).touched .fwd ≠ [] ∧
    answer (computeBestPath codeHeap dot 40 (sqUsed .dijkstra 1 2) (sqQuery .chDijkstra 0 3)) =
      some (.ok (some (Path.new 0 0 3 3 [0, 3]))) :=
  ⟨after_used .new (by decide +kernel) (by decide +kernel), by decide +kernel, by decide +kernel⟩

/-- On a graph with two nodes, a new router panics, but a router that has been used on the sample may
answer. -/
theorem C17_false_two_nodes : Used codeHeap dot 4 (sqUsed .dijkstra 0 0) ∧
    answer (computeBestPath codeHeap dot 40 (sqUsed .dijkstra 0 0)
      { src := 0, dst := 1, graph := twoNodesGraph, algo := .dijkstra, alphas := [1] }) =
      some (.ok (some (Path.new 0 0 1 1 [0]))) ∧
    answer (computeBestPath codeHeap dot 40 St.new
      { src := 0, dst := 1, graph := twoNodesGraph, algo := .dijkstra, alphas := [1] }) =
      some .panic :=
  ⟨after_used .new (by decide +kernel) (by decide +kernel), by decide +kernel, by decide +kernel⟩

/-- Three nodes in a circle. -/
def circle3 : Build.R Graph :=
  Build.build 1 [edge1 0 1 1, edge1 1 2 1, edge1 2 0 1] (lvNodes 0 [0, 0, 0])

def circle3Graph : Graph := okGraph circle3

/-- On a smaller graph, a new router answers, but a router that has been used on the sample panics. -/
theorem C17_false_smaller_graph : circle3 = .ok circle3Graph ∧
    Used codeHeap dot 4 (sqUsed .dijkstra 0 3) ∧
    answer (computeBestPath codeHeap dot 40 (sqUsed .dijkstra 0 3)
      { src := 0, dst := 2, graph := circle3Graph, algo := .dijkstra, alphas := [1] }) = some .panic ∧
    answer (computeBestPath codeHeap dot 40 St.new
      { src := 0, dst := 2, graph := circle3Graph, algo := .dijkstra, alphas := [1] }) =
      some (.ok (some (Path.new 0 0 2 2 [0, 1]))) :=
  ⟨by decide +kernel, after_used .new (by decide +kernel) (by decide +kernel), by decide +kernel,
    by decide +kernel⟩

/-! ## C18 -/

section
variable {K : Type} [LinearOrder K] [Zero K] [Add K] {h : Heap K} {dotp : List ℚ → List ℚ → K}
  {fuel n : Nat} {s s' : St K} {q : Query K}

/-- An answered query from a node to itself returns the path without edges; for every order of the
queue, for rounded additions, with both algorithms, and with edges and circles that cost nothing. -/
theorem C18_self {ans : Option Path} (hwf : q.graph.WellFormed) (hk : AddOk K)
    (hw : ∀ m ∈ q.graph.metrics, 0 ≤ dotp q.alphas m) (hal : ∀ a ∈ q.alphas, 0 ≤ a)
    (halg : q.algo ≠ .explorator) (hsd : q.dst = q.src) (hsrc : q.src < q.graph.nodeCount)
    (hu : Used h dotp n s) (hc : computeBestPath h dotp fuel s q = some (.ok (s', ans))) :
    ∃ p, ans = some p ∧ p.edges = [] ∧ p.srcIdx = q.src ∧ p.dstIdx = q.src ∧
      Path.calcCosts q.graph p = .ok { p with costs := some (List.replicate q.graph.dim 0) } := by
  obtain ⟨a, best, h1, _, h3⟩ :=
    answered_cases hwf hk hw hsrc (hsd ▸ hsrc) hu halg hal hc rfl
  have ho := outOk (h := h) (isCh := decide (q.algo = .chDijkstra)) (src := q.src) (dst := q.dst) hwf hw
  have hb := self_final hk ho hsd h1
  obtain ⟨f, bk, i, j, h4, h5, _, _, rfl⟩ := h3 _ _ hb
  have hi := inv1_final hk ho h1
  have hf : f = [] := h4.unique (.nil (hi.rootpred .fwd))
  have hbk : bk = [] := by
    refine h5.unique (.nil ?_)
    have := hi.rootpred .bwd
    simp only [Cfg.root, cfg, hsd] at this ⊢
    exact this
  subst hf hbk
  exact ⟨_, rfl, rfl, rfl, hsd, rfl⟩

end

example : answer (computeBestPath codeHeap dot 40 St.new (sqQuery .dijkstra 2 2)) =
      some (.ok (some (Path.new 2 2 2 2 []))) ∧
    answer (computeBestPath codeHeap dot 40 St.new (sqQuery .chDijkstra 3 3)) =
      some (.ok (some (Path.new 3 3 3 3 []))) ∧
    answer (computeBestPath codeHeap dot 40 St.new { sqQuery .dijkstra 2 2 with alphas := [0] }) =
      some (.ok (some (Path.new 2 2 2 2 []))) := by
  decide +kernel

/-- The query from the dead end to itself panics, see `C15_false_uncovered`. -/
theorem C18_false_uncovered : answer (computeBestPath codeHeap dot 40 St.new
    { src := 3, dst := 3, graph := deadEndGraph, algo := .dijkstra, alphas := [1] }) = some .panic := by
  decide +kernel

/-! ## C19 -/

section
variable {K : Type} [LinearOrder K] [Zero K] [Add K] {h : Heap K} {dotp : List ℚ → List ℚ → K}
  {fuel n : Nat} {s s' : St K} {q : Query K}

/-- A query terminates (with an answer or with a panic), i.e. there is enough fuel; for every order of
the queue, for rounded additions, after any history, and with circles that cost nothing. The bound doesn't
depend on the history. -/
theorem C19_terminates (hwf : q.graph.WellFormed) (hk : AddOk K)
    (hw : ∀ m ∈ q.graph.metrics, 0 ≤ dotp q.alphas m)
    (hsrc : q.src < q.graph.nodeCount) (hdst : q.dst < q.graph.nodeCount) :
    ∃ N, ∀ fuel, N ≤ fuel → ∀ (n : Nat) (s : St K), Used h dotp n s → computeBestPath h dotp fuel s q ≠ none := by
  obtain ⟨N, hN⟩ := terminates hk
    (outOk (h := h) (isCh := decide (q.algo = .chDijkstra)) (src := q.src) (dst := q.dst) hwf hw)
    (finOk (h := h) (wt := dotp q.alphas) (isCh := decide (q.algo = .chDijkstra)) hwf hsrc hdst)
  refine ⟨max N (q.graph.nodeCount + 1), fun fuel hfuel n s hu hc => ?_⟩
  rcases compute_none hwf hk hw hsrc hdst hu hc rfl with h1 | h1
  · obtain ⟨r, hr⟩ := hN fuel (le_trans (le_max_left _ _) hfuel)
    rw [hr] at h1; cases h1
  · have := le_trans (le_max_right N _) hfuel
    omega

/-- If the queue returns a cheapest element whenever its costs are in `V`, the search loop needs at
most `2 * edges + 3` iterations, and following predecessors needs at most as many as there are nodes. -/
theorem C19_linear {V : K → Prop} (hwf : q.graph.WellFormed) (hk : AddOk K)
    (hw : ∀ m ∈ q.graph.metrics, 0 ≤ dotp q.alphas m)
    (hsrc : q.src < q.graph.nodeCount) (hdst : q.dst < q.graph.nodeCount) (hu : Used h dotp n s)
    (hmin : h.Min V) (hV0 : V 0) (hV : ∀ m ∈ q.graph.metrics, ∀ x, V x → V (x + dotp q.alphas m))
    (hfuel : 2 * q.graph.edgeCount + 3 ≤ fuel) (hfuel' : q.graph.nodeCount < fuel) :
    computeBestPath h dotp fuel s q ≠ none := by
  intro hc
  have hmo : MinOk (cfg h q.graph (dotp q.alphas) (decide (q.algo = .chDijkstra)) q.src q.dst) V := by
    refine ⟨hmin, hV0, fun d u t x ht hx => ?_⟩
    obtain ⟨_, _, ⟨m, hmm, hw⟩, _⟩ := (mem_outArcs hwf).mp ht
    rw [hw]
    exact hV m (List.mem_of_getElem? hmm) x hx
  have hf := finOk (h := h) (wt := dotp q.alphas) (isCh := decide (q.algo = .chDijkstra)) hwf hsrc hdst
  rcases compute_none hwf hk hw hsrc hdst hu hc rfl with h1 | h1
  · obtain ⟨r, hr⟩ := terminates_bound hmo hk
      (outOk (h := h) (isCh := decide (q.algo = .chDijkstra)) (src := q.src) (dst := q.dst) hwf hw)
      (n := q.graph.nodeCount) hf.roots (fun d u t ht => (hf.arcs d u t ht).2) (fuel := fuel) (by
        have := sum_out_le (wt := dotp q.alphas) (isCh := decide (q.algo = .chDijkstra)) hwf
        simp only [cfg]
        omega)
    rw [hr] at h1; cases h1
  · omega

end

/-- With the approximate comparison of the code, the bound of `C19_linear` holds if the weights are
multiples of some step that is at least 1.5 times the accuracy. Without that condition, only
`C19_terminates` is shown. -/
theorem C19_linear_code_partial {fuel n : Nat} {s : St ℚ} {q : Query ℚ} {u : ℚ}
    (hwf : q.graph.WellFormed) (hm : NonnegMetrics q.graph) (hal : ∀ a ∈ q.alphas, 0 ≤ a)
    (hsrc : q.src < q.graph.nodeCount) (hdst : q.dst < q.graph.nodeCount) (hu : Used codeHeap dot n s)
    (hgrid : ∀ m ∈ q.graph.metrics, ∃ i : ℤ, (List.zipWith (· * ·) q.alphas m).sum = i * u)
    (hstep : 3 / 2000000 ≤ u)
    (hfuel : 2 * q.graph.edgeCount + 3 ≤ fuel) (hfuel' : q.graph.nodeCount < fuel) :
    computeBestPath codeHeap dot fuel s q ≠ none :=
  C19_linear hwf addOk_rat (weights_nonneg hal hm) hsrc hdst hu (codeHeap_min hstep) ⟨0, by simp⟩
    (grid_closed hgrid) hfuel hfuel'

/-- All weights are zero in this query; the fuel of the bound is enough, one unit is not. -/
example : sqGraph.edgeCount = 5 ∧
    answer (computeBestPath codeHeap dot 13 St.new { sqQuery .dijkstra 1 2 with alphas := [0] }) =
      some (.ok (some (Path.new 1 1 2 2 [2, 4, 0]))) ∧
    answer (computeBestPath codeHeap dot 1 St.new { sqQuery .dijkstra 1 2 with alphas := [0] }) = none := by
  decide +kernel

/-! ## C20 -/

section
variable {h : Heap ℚ} {fuel n : Nat} {s s' : St ℚ} {q : Query ℚ}

/-- The path found by ch-dijkstra is a cheapest one among all that go up and then down. -/
theorem C20_up_down {p : Path} {V : ℚ → Prop} (hwf : q.graph.WellFormed)
    (hm : NonnegMetrics q.graph) (halg : q.algo = .chDijkstra)
    (hsrc : q.src < q.graph.nodeCount) (hdst : q.dst < q.graph.nodeCount) (hu : Used h dot n s)
    (hmin : h.Min V) (hV0 : V 0) (hV : ∀ m ∈ q.graph.metrics, ∀ x, V x → V (x + dot q.alphas m))
    (hc : computeBestPath h dot fuel s q = some (.ok (s', some p))) :
    ∀ l, IsUpDown q.graph q.src l q.dst →
      routeCost q.graph q.alphas p.edges ≤ routeCost q.graph q.alphas l := by
  rintro l ⟨w, l1, l2, rfl, hl1, hl2⟩
  have hal := (computed_valid hc).2
  have hw := weights_nonneg hal hm
  obtain ⟨a, m, t, x, y, tf, tb, i, j, h0, _, _, hxy, h1, h2, h3, h4, _, _, rfl⟩ :=
    answered_path hwf addOk_rat hw hsrc hdst hu hc rfl
  have hdec : decide (q.algo = Algo.chDijkstra) = true := by rw [halg]; rfl
  rw [hdec] at h0 h1 h2
  obtain ⟨t1, rfl, ht1⟩ := up_fwd hwf (dot q.alphas) hl1
  obtain ⟨t2, e2, ht2⟩ := down_bwd hwf (dot q.alphas) hl2
  obtain ⟨m', b, hb, hle⟩ := opt_ch (c := cfg h q.graph (dot q.alphas) true q.src q.dst) rfl
    (minOk hwf hmin hV0 hV) addOk_rat (outOk hwf hw) h0 ht1 ht2
  cases hb
  rw [costFrom_eq, zero_add] at h3 h4
  rw [costFrom_eq, costFrom_eq, zero_add, zero_add] at hle
  rw [routeCost_append]
  have e3 : routeCost q.graph q.alphas l2 = cost t2 := by
    rw [cost_eq hwf ht2, e2, routeCost_reverse]
  rw [e3, ← cost_eq hwf ht1]
  change routeCost q.graph q.alphas (tf.map (·.1) ++ (tb.map (·.1)).reverse) ≤ _
  rw [routeCost_append, routeCost_reverse, ← cost_eq hwf h1, ← cost_eq hwf h2]
  linarith

/-- If every route can be replaced by one that goes up and then down and costs not more, ch-dijkstra
finds a cheapest of all routes. -/
theorem C20_optimal {p : Path} {V : ℚ → Prop} (hwf : q.graph.WellFormed)
    (hm : NonnegMetrics q.graph) (hhi : Hierarchy q.graph q.alphas) (halg : q.algo = .chDijkstra)
    (hsrc : q.src < q.graph.nodeCount) (hdst : q.dst < q.graph.nodeCount) (hu : Used h dot n s)
    (hmin : h.Min V) (hV0 : V 0) (hV : ∀ m ∈ q.graph.metrics, ∀ x, V x → V (x + dot q.alphas m))
    (hc : computeBestPath h dot fuel s q = some (.ok (s', some p))) :
    q.graph.IsRoute q.src p.edges q.dst ∧ ∀ l, q.graph.IsRoute q.src l q.dst →
      routeCost q.graph q.alphas p.edges ≤ routeCost q.graph q.alphas l := by
  refine ⟨(C13_route hwf addOk_rat (weights_nonneg (computed_valid hc).2 hm) hsrc hdst hu hc).1,
    fun l hl => ?_⟩
  obtain ⟨l', h1, h2⟩ := hhi _ _ _ hl
  exact le_trans (C20_up_down hwf hm halg hsrc hdst hu hmin hV0 hV hc l' h1) h2

/-- The same with the approximate comparison of the code, if the weights are multiples of some step
that is at least 1.5 times the accuracy. -/
theorem C20_code_partial {p : Path} {u : ℚ} {s s' : St ℚ} (hwf : q.graph.WellFormed)
    (hm : NonnegMetrics q.graph) (hhi : Hierarchy q.graph q.alphas) (halg : q.algo = .chDijkstra)
    (hsrc : q.src < q.graph.nodeCount) (hdst : q.dst < q.graph.nodeCount) (hu : Used codeHeap dot n s)
    (hgrid : ∀ m ∈ q.graph.metrics, ∃ i : ℤ, (List.zipWith (· * ·) q.alphas m).sum = i * u)
    (hstep : 3 / 2000000 ≤ u)
    (hc : computeBestPath codeHeap dot fuel s q = some (.ok (s', some p))) :
    q.graph.IsRoute q.src p.edges q.dst ∧ ∀ l, q.graph.IsRoute q.src l q.dst →
      routeCost q.graph q.alphas p.edges ≤ routeCost q.graph q.alphas l :=
  C20_optimal hwf hm hhi halg hsrc hdst hu (codeHeap_min hstep) ⟨0, by simp⟩ (grid_closed hgrid) hc

/-- Ch-dijkstra answers that there is no path iff there is no route going up and then down; for every
order of the queue and for rounded arithmetics. -/
theorem C20_none_iff_up_down {K : Type} [LinearOrder K] [Zero K] [Add K] {h : Heap K}
    {dotp : List ℚ → List ℚ → K} {s s' : St K} {q : Query K} {ans : Option Path} (hwf : q.graph.WellFormed)
    (hk : AddOk K) (hw : ∀ m ∈ q.graph.metrics, 0 ≤ dotp q.alphas m) (hal : ∀ a ∈ q.alphas, 0 ≤ a)
    (halg : q.algo = .chDijkstra)
    (hsrc : q.src < q.graph.nodeCount) (hdst : q.dst < q.graph.nodeCount) (hu : Used h dotp n s)
    (hc : computeBestPath h dotp fuel s q = some (.ok (s', ans))) :
    ans = none ↔ ¬ ∃ l, IsUpDown q.graph q.src l q.dst := by
  constructor
  · rintro rfl ⟨l, w, l1, l2, rfl, hl1, hl2⟩
    obtain ⟨a, best, h1, _, h3⟩ :=
      answered_cases hwf hk hw hsrc hdst hu (by rw [halg]; decide) hal hc rfl
    have hdec : decide (q.algo = Algo.chDijkstra) = true := by rw [halg]; rfl
    rw [hdec] at h1
    obtain ⟨t1, _, ht1⟩ := up_fwd hwf (dotp q.alphas) hl1
    obtain ⟨t2, _, ht2⟩ := down_bwd hwf (dotp q.alphas) hl2
    have hne := found hk (outOk (h := h) (src := q.src) (dst := q.dst) hwf hw) h1 ht1 ht2
    cases best with
    | none => exact hne rfl
    | some mb =>
      obtain ⟨m, b⟩ := mb
      obtain ⟨_, _, _, _, _, _, _, _, h4⟩ := h3 m b rfl
      cases h4
  · intro hno
    cases ans with
    | none => rfl
    | some p => exact absurd ⟨p.edges, C13_up_down hwf hk hw halg hsrc hdst hu hc⟩ hno

/-- Ch-dijkstra answers that there is no path iff there is no route. -/
theorem C20_none_iff {ans : Option Path} (hwf : q.graph.WellFormed)
    (hm : NonnegMetrics q.graph) (hhi : Hierarchy q.graph q.alphas)
    (hal : ∀ a ∈ q.alphas, 0 ≤ a) (halg : q.algo = .chDijkstra)
    (hsrc : q.src < q.graph.nodeCount) (hdst : q.dst < q.graph.nodeCount) (hu : Used h dot n s)
    (hc : computeBestPath h dot fuel s q = some (.ok (s', ans))) :
    ans = none ↔ ¬ ∃ l, q.graph.IsRoute q.src l q.dst := by
  rw [C20_none_iff_up_down hwf addOk_rat (weights_nonneg hal hm) hal halg hsrc hdst hu hc, not_iff_not]
  constructor
  · rintro ⟨l, hl⟩; exact ⟨l, hl.route⟩
  · rintro ⟨l, hl⟩
    obtain ⟨l', h1, _⟩ := hhi _ _ _ hl
    exact ⟨l', h1⟩

/-- Both algorithms find paths of the same cost. -/
theorem C20_agrees {s₁ s₁' s₂ s₂' : St ℚ} {n₁ n₂ fuel₁ fuel₂ : Nat} {p₁ p₂ : Path} {V : ℚ → Prop}
    (hwf : q.graph.WellFormed)
    (hm : NonnegMetrics q.graph) (hhi : Hierarchy q.graph q.alphas)
    (hsrc : q.src < q.graph.nodeCount) (hdst : q.dst < q.graph.nodeCount)
    (hu₁ : Used h dot n₁ s₁) (hu₂ : Used h dot n₂ s₂)
    (hmin : h.Min V) (hV0 : V 0) (hV : ∀ m ∈ q.graph.metrics, ∀ x, V x → V (x + dot q.alphas m))
    (hc₁ : computeBestPath h dot fuel₁ s₁ { q with algo := .dijkstra } = some (.ok (s₁', some p₁)))
    (hc₂ : computeBestPath h dot fuel₂ s₂ { q with algo := .chDijkstra } = some (.ok (s₂', some p₂))) :
    routeCost q.graph q.alphas p₁.edges = routeCost q.graph q.alphas p₂.edges := by
  have h1 := (C13_route (q := { q with algo := .dijkstra }) hwf addOk_rat
    (weights_nonneg (computed_valid hc₁).2 hm) hsrc hdst hu₁ hc₁).1
  obtain ⟨h2, h3⟩ := C20_optimal (q := { q with algo := .chDijkstra }) hwf hm hhi rfl hsrc hdst hu₂ hmin
    hV0 hV hc₂
  exact le_antisymm (C14_optimal (q := { q with algo := .dijkstra }) hwf hm rfl hsrc hdst hu₁ hmin hV0 hV
    hc₁ _ h2) (h3 _ h1)

end

/-- Graphs made by contracting nodes in the order of their levels, with shortcuts or witnesses, have the
property required by `C20_optimal`. -/
theorem C20_contracted {g : Graph} {al : List ℚ} (hwf : g.WellFormed) (hm : NonnegMetrics g)
    (hal : ∀ a ∈ al, 0 ≤ a) (hc : Contracted g al) : Hierarchy g al :=
  hierarchy_of_contracted hwf (weights_nonneg hal hm) hc

/-- A circle with two shortcuts. -/
def chBuild : Build.R Graph :=
  Build.build 1 [edge1 0 1 1, edge1 1 2 1, edge1 2 3 1, edge1 3 0 1,
      { edge1 0 2 2 with id := some 5, sc := some (0, 1) }, { edge1 2 0 2 with id := some 6, sc := some (2, 3) }]
    (lvNodes 0 [2, 0, 3, 1])

def chGraph : Graph := okGraph chBuild

theorem ch_build : chBuild = .ok chGraph := by decide +kernel

/-- Ends of the edges, for checking. -/
def endsOf (g : Graph) (e : Nat) : Option (Nat × Nat) :=
  match g.bwdDsts[e]?, g.fwdDsts[e]? with
  | some u, some v => some (u, v)
  | _, _ => none

theorem endsOf_iff {g : Graph} {e u v : Nat} : g.IsEdge e u v ↔ endsOf g e = some (u, v) := by
  unfold endsOf IsEdge
  simp only [dstIdx, dsts, Res.ofIdx_eq_ok]
  cases g.bwdDsts[e]? <;> cases g.fwdDsts[e]? <;> simp [and_comm]

/-- Checks `Contracted` with single edges as bypasses. -/
def contractedB (g : Graph) (al : List ℚ) : Bool :=
  let es := (List.range g.edgeCount).filterMap fun e => (endsOf g e).map fun p => (e, p)
  es.all (fun x => decide (x.2.1 = x.2.2) || decide (levelD g x.2.1 ≠ levelD g x.2.2)) &&
  es.all (fun x => es.all fun y =>
    decide (x.2.2 ≠ y.2.1) || decide (levelD g x.2.1 ≤ levelD g x.2.2) ||
      decide (levelD g y.2.2 ≤ levelD g x.2.2) || decide (x.2.1 = y.2.2) ||
      es.any fun z => decide (z.2 = (x.2.1, y.2.2)) &&
        decide (routeCost g al [z.1] ≤ routeCost g al [x.1, y.1]))

theorem contracted_of {g : Graph} {al : List ℚ} (hwf : g.WellFormed)
    (hw : ∀ m ∈ g.metrics, 0 ≤ dot al m) (h : contractedB g al = true) :
    Contracted g al := by
  unfold contractedB at h
  simp only [Bool.and_eq_true, List.all_eq_true, Bool.or_eq_true, decide_eq_true_eq, ne_eq,
    List.any_eq_true] at h
  have hmem : ∀ e u v, g.IsEdge e u v → (e, u, v) ∈
      (List.range g.edgeCount).filterMap fun e => (endsOf g e).map fun p => (e, p) := by
    intro e u v he
    refine List.mem_filterMap.mpr ⟨e, List.mem_range.mpr (edge_lt hwf he.1), ?_⟩
    rw [endsOf_iff.mp he]; rfl
  constructor
  · intro e u v a b he hne ha hb
    rw [← levelD_eq ha, ← levelD_eq hb]
    rcases h.1 _ (hmem _ _ _ he) with h1 | h1
    · exact absurd h1 hne
    · exact h1
  · intro e₁ e₂ u v w a b c h1 h2 ha hb hc hab hac
    rw [← levelD_eq ha, ← levelD_eq hb] at hab
    rw [← levelD_eq hb, ← levelD_eq hc] at hac
    rcases h.2 _ (hmem _ _ _ h1) _ (hmem _ _ _ h2) with (((h3 | h3) | h3) | h3) | ⟨z, h3, h4, h5⟩
    · exact absurd rfl h3
    · simp only at h3; omega
    · simp only at h3; omega
    · refine ⟨[], h3, ?_⟩
      obtain ⟨ts, e, hts⟩ := route_fwd hwf (dot al) (l := [e₁, e₂]) (u := u) (v := w)
        ⟨v, h1, w, h2, rfl⟩
      rw [← e, ← cost_eq hwf hts]
      exact isRt_cost_nonneg
        (outOk (h := binHeap compare) (isCh := false) (src := 0) (dst := 0) hwf hw) hts
    · obtain ⟨e, _, he⟩ := List.mem_filterMap.mp h3
      obtain ⟨p, hp, rfl⟩ := Option.map_eq_some_iff.mp he
      simp only at h4 h5
      subst h4
      exact ⟨[e], endsOf_iff.mpr hp, h5⟩

theorem ch_nonneg : NonnegMetrics chGraph := by
  have : chGraph.metrics.all (fun m => m.all (fun x => decide (0 ≤ x))) = true := by decide +kernel
  intro m hm x hx
  simpa using List.all_eq_true.mp (List.all_eq_true.mp this m hm) x hx

/-- The circle with its shortcuts meets the conditions, also of `C20_code_partial`, and the path found
uses a shortcut. -/
example : chGraph.WellFormed ∧ NonnegMetrics chGraph ∧ Contracted chGraph [1] ∧ AllCovered chGraph ∧
    answer (computeBestPath codeHeap dot 40 St.new
      { src := 1, dst := 0, graph := chGraph, algo := .chDijkstra, alphas := [1] }) =
      some (.ok (some (Path.new 1 1 0 0 [2, 3]))) ∧
    chGraph.isShortcut 3 = .ok true ∧ chGraph.metrics = [[2], [1], [1], [2], [1], [1]] := by
  have hwf := Build.built_wellFormed ch_build
  exact ⟨hwf, ch_nonneg, contracted_of hwf (weights_nonneg (by simp) ch_nonneg) (by decide +kernel),
    allCovered_of (by decide +kernel), by decide +kernel, by decide +kernel, by decide +kernel⟩

/-- A contracted graph with weights that are nearly equal. -/
def nearChBuild : Build.R Graph :=
  Build.build 1 [edge1 0 1 (16 / 10000000), edge1 0 2 (10 / 10000000), edge1 1 0 (20 / 10000000),
      edge1 2 1 (10 / 10000000), edge1 3 0 (17 / 10000000), edge1 3 2 (22 / 10000000)]
    (lvNodes 0 [2, 3, 1, 0])

def nearChGraph : Graph := okGraph nearChBuild

theorem nearCh_build : nearChBuild = .ok nearChGraph := by decide +kernel

theorem nearCh_nonneg : NonnegMetrics nearChGraph := by
  have : nearChGraph.metrics.all (fun m => m.all (fun x => decide (0 ≤ x))) = true := by decide +kernel
  intro m hm x hx
  simpa using List.all_eq_true.mp (List.all_eq_true.mp this m hm) x hx

/-- With the comparison of the code, ch-dijkstra returns a path for `2.7e-6` on a contracted graph,
although there is an edge from the source to the destination for `2.2e-6`. -/
theorem C20_false_near_ties : Contracted nearChGraph [1] ∧
    answer (computeBestPath codeHeap dot 40 St.new
        { src := 3, dst := 2, graph := nearChGraph, algo := .chDijkstra, alphas := [1] }) =
      some (.ok (some (Path.new 3 3 2 2 [4, 1]))) ∧
    routeCost nearChGraph [1] [4, 1] = 27 / 10000000 ∧
    nearChGraph.IsEdge 5 3 2 ∧ routeCost nearChGraph [1] [5] = 22 / 10000000 := by
  have hwf := Build.built_wellFormed nearCh_build
  refine ⟨contracted_of hwf (weights_nonneg (by simp) nearCh_nonneg) (by decide +kernel),
    by decide +kernel, by decide +kernel, ⟨by decide +kernel, by decide +kernel⟩, by decide +kernel⟩

end Verif.Dij
