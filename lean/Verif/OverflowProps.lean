import Verif.OverflowLemmas2

/-!
# Property C108: costs that overflow
-/

namespace Verif.Over

open Dij Search Graph Fp

section
variable {fuel n : Nat} {s s' : St (Rounded f64)} {q : Query (Rounded f64)}

/-- A returned path is a route, both of whose parts have a finite cost. -/
theorem C108_route {p : Path} (hwf : q.graph.WellFormed) (hm : NonnegMetrics q.graph)
    (hsrc : q.src < q.graph.nodeCount) (hdst : q.dst < q.graph.nodeCount) (hu : Used n s)
    (hc : router fuel s q = some (.ok (s', some p))) :
    q.graph.IsRoute q.src p.edges q.dst ∧ Finite q.graph q.alphas q.src p.edges q.dst ∧
      p.srcIdx = q.src ∧ p.dstIdx = q.dst ∧ q.graph.nodeId q.src = .ok p.srcId ∧ q.graph.nodeId q.dst = .ok p.dstId := by
  obtain ⟨halg, hal⟩ := valid hc
  obtain ⟨_, h2⟩ := answered_of hwf hm hsrc hdst hu halg hal hc rfl
  obtain ⟨m, tf, tb, i, j, h3, h4, h5, h6, h7, h8, rfl⟩ := h2 p rfl
  have hf := fwd_route hwf h3
  have hb := bwd_route hwf h5
  refine ⟨isRoute_append.mpr ⟨m, hf, hb⟩, ⟨_, _, m, rfl, hf, hb, (fine_sum hwf h3).mpr h4, ?_⟩, rfl, rfl, h7, h8⟩
  rw [List.reverse_reverse]
  exact (fine_sum hwf h5).mpr h6

/-- There is no path iff there is no route both of whose parts have a finite cost. -/
theorem C108_none_iff {ans : Option Path} (hwf : q.graph.WellFormed) (hm : NonnegMetrics q.graph)
    (hsrc : q.src < q.graph.nodeCount) (hdst : q.dst < q.graph.nodeCount)
    (hu : Used n s) (halg : q.algo = .dijkstra) (hal : ∀ a ∈ q.alphas, 0 ≤ a)
    (hc : router fuel s q = some (.ok (s', ans))) :
    ans = none ↔ ¬ ∃ l, Finite q.graph q.alphas q.src l q.dst := by
  constructor
  · rintro rfl ⟨l, l1, l2, mid, rfl, h1, h2, h3, h4⟩
    obtain ⟨h5, _⟩ := answered_of hwf hm hsrc hdst hu (by rw [halg]; decide) hal hc rfl
    have hdec : decide (q.algo = Algo.chDijkstra) = false := by rw [halg]; rfl
    rw [hdec] at h5
    obtain ⟨tf, rfl, hf⟩ := route_fwd hwf (wt0 (dot q.alphas)) h1
    obtain ⟨tb, hb', hb⟩ := route_bwd hwf (wt0 (dot q.alphas)) h2
    rw [← hb'] at h4
    exact h5 rfl mid tf tb hf ((fine_sum hwf hf).mp h3) hb ((fine_sum hwf hb).mp h4)
  · intro hno
    cases ans with
    | none => rfl
    | some p => exact absurd ⟨_, (C108_route hwf hm hsrc hdst hu hc).2.1⟩ hno

/-- The same for ch-dijkstra and routes that go up and then down. -/
theorem C108_none_iff_up_down {ans : Option Path} (hwf : q.graph.WellFormed) (hm : NonnegMetrics q.graph)
    (hsrc : q.src < q.graph.nodeCount) (hdst : q.dst < q.graph.nodeCount)
    (hu : Used n s) (halg : q.algo = .chDijkstra) (hal : ∀ a ∈ q.alphas, 0 ≤ a)
    (hc : router fuel s q = some (.ok (s', ans))) :
    ans = none ↔ ¬ ∃ l, FiniteUpDown q.graph q.alphas q.src l q.dst := by
  have hdec : decide (q.algo = Algo.chDijkstra) = true := by rw [halg]; rfl
  obtain ⟨h5, h6⟩ := answered_of hwf hm hsrc hdst hu (by rw [halg]; decide) hal hc rfl
  rw [hdec] at h5 h6
  constructor
  · rintro rfl ⟨l, l1, l2, mid, rfl, h1, h2, h3, h4⟩
    obtain ⟨tf, rfl, hf⟩ := up_fwd hwf (wt0 (dot q.alphas)) h1
    obtain ⟨tb, hb', hb⟩ := down_bwd hwf (wt0 (dot q.alphas)) h2
    rw [← hb'] at h4
    exact h5 rfl mid tf tb hf ((fine_sum hwf hf).mp h3) hb ((fine_sum hwf hb).mp h4)
  · intro hno
    cases ans with
    | none => rfl
    | some p =>
      obtain ⟨m, tf, tb, i, j, h3, h4, h7, h8, _, _, rfl⟩ := h6 p rfl
      refine absurd ⟨_, _, _, m, rfl, fwd_up hwf h3, bwd_down hwf h7, (fine_sum hwf h3).mpr h4, ?_⟩ hno
      rw [List.reverse_reverse]
      exact (fine_sum hwf h7).mpr h8

/-- Queries terminate. -/
theorem C108_terminates (hwf : q.graph.WellFormed) (hm : NonnegMetrics q.graph)
    (hsrc : q.src < q.graph.nodeCount) (hdst : q.dst < q.graph.nodeCount) :
    ∃ N, ∀ fuel, N ≤ fuel → ∀ (n : Nat) s, Used n s → router fuel s q ≠ none := by
  by_cases hal : ∀ a ∈ q.alphas, 0 ≤ a
  swap
  · refine ⟨0, fun fuel _ n s _ => ?_⟩
    unfold router computeBestPath
    rw [if_pos (by simpa using hal)]
    simp
  by_cases halg : q.algo = .explorator
  · refine ⟨0, fun fuel _ n s _ => ?_⟩
    unfold router computeBestPath
    rw [if_neg (by simpa using hal), halg]
    simp
  have hf := finOk (h := heap f64) (wt := wt0 (dot q.alphas)) (isCh := decide (q.algo = .chDijkstra)) hwf hsrc hdst
  have hw := fun m hmem => wt0_nonneg hal (hm m hmem)
  have ho := outOk (h := heap f64) (wt := wt0 (dot q.alphas)) (isCh := decide (q.algo = .chDijkstra)) (src := q.src)
    (dst := q.dst) hwf hw
  refine ⟨max (pot (vals (cfg (heap f64) q.graph (wt0 (dot q.alphas)) (decide (q.algo = .chDijkstra)) q.src q.dst)
    q.graph.nodeCount) q.graph.nodeCount (initA (cfg (heap f64) q.graph (wt0 (dot q.alphas))
      (decide (q.algo = .chDijkstra)) q.src q.dst)) + 1) (q.graph.nodeCount + 1), fun fuel hfuel n s hu hc => ?_⟩
  have h1 := le_trans (le_max_left _ _) hfuel
  have h2 := le_trans (le_max_right _ _) hfuel
  rcases compute_noneB hwf (addOk_rounded f64) hw fits_zero hsrc hdst hu.tidy halg hal hc rfl with h | h
  · obtain ⟨r, hr⟩ := loopB_terminates (fits := fitsF) (fin := finite q.graph (dot q.alphas)) (addOk_rounded f64) ho hf
      (InvD.init fits_zero) h1
    rw [hr] at h
    cases h
  · omega

/-- Queries on graphs whose nodes can all be asked for their leaving edges don't panic. -/
theorem C108_no_panic (hwf : q.graph.WellFormed) (hm : NonnegMetrics q.graph) (hn : q.graph.nodeCount ≠ 2)
    (hcov : AllCovered q.graph) (hsrc : q.src < q.graph.nodeCount) (hdst : q.dst < q.graph.nodeCount)
    (hu : Used q.graph.nodeCount s) (halg : q.algo ≠ .explorator) : router fuel s q ≠ some .panic := by
  intro hc
  by_cases hal : ∀ a ∈ q.alphas, 0 ≤ a
  · rcases cases_of (fuel := fuel) hwf hm hn hsrc hdst hu halg hal rfl with ⟨h, _⟩ | ⟨_, d, u, h1, h2⟩ | ⟨_, _, h, _⟩
    · rw [h] at hc; cases hc
    · exact h2 (hcov d u h1)
    · rw [h] at hc; cases hc
  · unfold router computeBestPath at hc
    rw [if_pos (by simpa using hal)] at hc
    cases hc

end

/-- Up to `2^50` nodes and alphas and with metrics and alphas up to `2^400`, there is no overflow: the router behaves
as if there were no largest number. -/
theorem C108_same {fuel n : Nat} {s : St (Rounded f64)} {q : Query (Rounded f64)} (hwf : q.graph.WellFormed)
    (hm : NonnegMetrics q.graph) (hmod : Moderate q) (hlen : q.alphas.length ≤ 2 ^ 50)
    (hn : q.graph.nodeCount ≤ 2 ^ 50) (hn2 : q.graph.nodeCount ≠ 2)
    (hsrc : q.src < q.graph.nodeCount) (hdst : q.dst < q.graph.nodeCount) (hu : Used n s) :
    router fuel s q = Dij.computeBestPath (heap f64) (Fp.dot f64) fuel s q :=
  same_of (k := 400) (le_refl _) hwf hm hmod.1 hmod.2 hlen hn hn2 hsrc hdst hu

section
variable {fuel deg n : Nat} {s s' : St (Rounded f64)} {q : Query (Rounded f64)}

/-- Hence, with such metrics and alphas, there is no path iff there is no route. -/
theorem C108_none_iff_partial {ans : Option Path} (hwf : q.graph.WellFormed) (hm : NonnegMetrics q.graph)
    (hmod : Moderate q) (hlen : q.alphas.length ≤ 2 ^ 50) (hn : q.graph.nodeCount ≤ 2 ^ 50)
    (halg : q.algo = .dijkstra) (hal : ∀ a ∈ q.alphas, 0 ≤ a)
    (hsrc : q.src < q.graph.nodeCount) (hdst : q.dst < q.graph.nodeCount) (hu : Used n s)
    (hc : router fuel s q = some (.ok (s', ans))) : ans = none ↔ ¬ ∃ l, q.graph.IsRoute q.src l q.dst := by
  constructor
  · rintro rfl ⟨l, hl⟩
    obtain ⟨h1, h2, h3⟩ := bound_of (k := 400) (le_refl _) hal hm hmod.1 hmod.2 hlen hn
    obtain ⟨a, best, h4, _, h5⟩ := same_answered hwf (addOk_rounded f64) (weights hal hm) h1 h2 h3 hsrc hdst hu.tidy
      (by rw [halg]; decide) hal hc rfl
    have hdec : decide (q.algo = Algo.chDijkstra) = false := by rw [halg]; rfl
    rw [hdec] at h4
    obtain ⟨ts, _, hts⟩ := Dij.route_fwd hwf (Fp.dot f64 q.alphas) hl
    have hne := found (addOk_rounded f64) (outOk (h := heap f64) (src := q.src) (dst := q.dst) hwf (weights hal hm)) h4
      (v := q.dst) (l := ts) (l' := []) hts rfl
    cases best with
    | none => exact hne rfl
    | some mb =>
      obtain ⟨_, _, _, _, _, _, _, _, h6⟩ := h5 mb.1 mb.2 rfl
      cases h6
  · intro hno
    cases ans with
    | none => rfl
    | some p => exact absurd ⟨p.edges, (C108_route hwf hm hsrc hdst hu hc).1⟩ hno

/-- And a returned path is nearly a cheapest one: up to a millionth of the costs and `4e-6` for each of the `fuel`
iterations and the edges that are relaxed. Without that slack, it is false, see `C76_false_optimal`. -/
theorem C108_near_partial {p : Path} (hwf : q.graph.WellFormed) (hm : NonnegMetrics q.graph)
    (hmod : Moderate q) (hlen : q.alphas.length ≤ 2 ^ 28) (hn : q.graph.nodeCount ≤ 2 ^ 28)
    (halg : q.algo = .dijkstra) (hdeg : MaxDegree q.graph deg)
    (hsrc : q.src < q.graph.nodeCount) (hdst : q.dst < q.graph.nodeCount) (hu : Used n s)
    (hc : router fuel s q = some (.ok (s', some p))) :
    ∀ l, q.graph.IsRoute q.src l q.dst → routeCost q.graph q.alphas p.edges ≤
      (1 + 1 / 1000000) * routeCost q.graph q.alphas l + (2 + fuel * (deg + 2)) * (1 / 250000) := by
  intro l hl
  obtain ⟨halg', hal⟩ := valid hc
  have hdec : decide (q.algo = Algo.chDijkstra) = false := by rw [halg]; rfl
  obtain ⟨b1, b2, b3⟩ := bound_of (k := 400) (le_refl _) hal hm hmod.1 hmod.2 (by omega) (by omega)
  obtain ⟨a, m, t, x, y, tf, tb, i, j, h0, hxy, h1, h2, h3, h4, l1, l2, rfl⟩ :=
    same_path hwf (addOk_rounded f64) (weights hal hm) b1 b2 b3 hsrc hdst hu.tidy halg' hal hc rfl
  rw [hdec] at h0 h1 h2
  obtain ⟨l', h5, h6, h7⟩ := route_short hwf hm hal hsrc hl
  obtain ⟨ts, rfl, hts⟩ := route_fwd hwf (Fp.dot f64 q.alphas) h5
  have h9 := near_core f64_err (by norm_num) (by decide +kernel) hwf hm hal rfl (fun _ _ _ ht => ht) rfl
    (outArcs_length hwf hdeg) (mirror hwf) (outOk hwf (weights hal hm)) h0 hxy h1 h2 h3 h4 hts
  simp only [Path.new]
  rw [routeCost_append, routeCost_reverse]
  rw [List.length_map] at h6
  have hE : (2 : ℚ) ≤ 2 + fuel * (deg + 2) := by
    have : (0 : ℚ) ≤ fuel * (deg + 2) := by positivity
    linarith
  have h10 := millionth (c := (2 + fuel * (deg + 2)) * (1 / 250000))
    (powers (N := tf.length + tb.length + q.alphas.length + 3) (by omega)).1
    (powers (N := ts.length + q.alphas.length + 3) (by omega)).2
    (add_nonneg (routeCost_nonneg' hm hal _) (routeCost_nonneg' hm hal _)) (routeCost_nonneg' hm hal _)
    (by positivity) (tiny (by omega) (by omega)) (tiny (by omega) (by omega)) (by norm_num; linarith)
    (by norm_num; linarith) h9
  linarith

/-- The same for ch-dijkstra. -/
theorem C108_near_up_down_partial {p : Path} (hwf : q.graph.WellFormed) (hm : NonnegMetrics q.graph)
    (hmod : Moderate q) (hlen : q.alphas.length ≤ 2 ^ 28) (hn : q.graph.nodeCount ≤ 2 ^ 28)
    (halg : q.algo = .chDijkstra) (hdeg : MaxDegree q.graph deg)
    (hsrc : q.src < q.graph.nodeCount) (hdst : q.dst < q.graph.nodeCount) (hu : Used n s)
    (hc : router fuel s q = some (.ok (s', some p))) :
    ∀ l, IsUpDown q.graph q.src l q.dst → routeCost q.graph q.alphas p.edges ≤
      (1 + 1 / 1000000) * routeCost q.graph q.alphas l + (2 + fuel * (deg + 2)) * (1 / 500000) := by
  intro l hl
  obtain ⟨halg', hal⟩ := valid hc
  have hdec : decide (q.algo = Algo.chDijkstra) = true := by rw [halg]; rfl
  obtain ⟨b1, b2, b3⟩ := bound_of (k := 400) (le_refl _) hal hm hmod.1 hmod.2 (by omega) (by omega)
  obtain ⟨a, m, t, x, y, tf, tb, i, j, h0, hxy, h1, h2, h3, h4, len1, len2, rfl⟩ :=
    same_path hwf (addOk_rounded f64) (weights hal hm) b1 b2 b3 hsrc hdst hu.tidy halg' hal hc rfl
  rw [hdec] at h0 h1 h2
  obtain ⟨l', ⟨w, l1, l2, rfl, hl1, hl2⟩, h6, h7⟩ := upDown_short hwf hm hal hsrc hl
  obtain ⟨t1, rfl, ht1⟩ := up_fwd hwf (Fp.dot f64 q.alphas) hl1
  obtain ⟨t2, e2, ht2⟩ := down_bwd hwf (Fp.dot f64 q.alphas) hl2
  have h9 := near_core_up_down f64_err (by norm_num) (by decide +kernel) hwf hm hal rfl (fun _ _ _ ht => ht) rfl
    (outArcs_length hwf hdeg) (outOk hwf (weights hal hm)) h0 hxy h1 h2 h3 h4 ht1 ht2
  have hl2len : l2.length = t2.length := by
    have := congrArg List.length e2
    rw [List.length_map, List.length_reverse] at this
    omega
  have hl2cost : routeCost q.graph q.alphas l2 = routeCost q.graph q.alphas (t2.map (·.1)) := by
    rw [e2, routeCost_reverse]
  simp only [Path.new]
  rw [routeCost_append, routeCost_reverse]
  rw [routeCost_append, hl2cost] at h7
  simp only [List.length_append, List.length_map] at h6
  have hE : (2 : ℚ) ≤ 2 + fuel * (deg + 2) := by
    have : (0 : ℚ) ≤ fuel * (deg + 2) := by positivity
    linarith
  have h10 := millionth (c := (2 + fuel * (deg + 2)) * (1 / 500000))
    (powers (N := tf.length + tb.length + q.alphas.length + 2) (by omega)).1
    (powers (N := t1.length + t2.length + q.alphas.length + 2) (by omega)).2
    (add_nonneg (routeCost_nonneg' hm hal _) (routeCost_nonneg' hm hal _))
    (add_nonneg (routeCost_nonneg' hm hal _) (routeCost_nonneg' hm hal _))
    (by positivity) (tiny (by omega) (by omega)) (tiny (by omega) (by omega)) (by linarith) (by linarith) h9
  linarith

end

/-! ## Comparing costs -/

/-- Comparing two numbers approximately is not affected by overflow. -/
theorem C108_compare (a b : ℚ) : eq a b = Fp.eq f64 a b := by
  unfold eq Fp.eq
  by_cases h1 : fits (f64.rnd (a - b)) = true
  · rw [op, if_pos h1]
    simp only [approx, Fp.approx]
    by_cases h2 : fits (f64.rnd (f64.rnd (a - b) / Fp.eps f64)) = true
    · rw [op, if_pos h2]
      simp only
      by_cases h3 : fits (f64.rnd (Approx.roundF (f64.rnd (f64.rnd (a - b) / Fp.eps f64)) * Fp.eps f64)) = true
      · rw [op, if_pos h3]
        rfl
      · rw [op, if_neg h3]
        simp only [fits, decide_eq_true_eq, not_le] at h3
        exact (decide_eq_false (not_le.mpr (lt_of_le_of_lt eps_le_max h3))).symm
    · rw [op, if_neg h2]
      simp only [fits, decide_eq_true_eq, not_le] at h2
      exact (decide_eq_false (not_le.mpr (large (le_of_lt (lt_of_le_of_lt two_le_max h2))))).symm
  · rw [op, if_neg h1]
    simp only [fits, decide_eq_true_eq, not_le] at h1
    exact (decide_eq_false (not_le.mpr (large (quot_large (le_of_lt h1))))).symm

/-! ## Examples and counterexamples -/

/-- Five nodes in a circle, and each edge has the metric `x`. -/
def rowBuild (x : ℚ) : Build.R Graph :=
  Build.build 1 [edge1 0 1 x, edge1 1 2 x, edge1 2 3 x, edge1 3 4 x, edge1 4 0 x] (lvNodes 0 [0, 0, 0, 0, 0])

def rowQuery (x : ℚ) (src dst : Nat) : Query (Rounded f64) :=
  { src, dst, graph := okGraph (rowBuild x), algo := .dijkstra, alphas := [1] }

/-- Four edges of `2^1023` each: two of them cost more than the largest number, from both ends. Hence, there is a
route, but the answer is that there is none. -/
theorem C108_false_none : rowBuild (2 ^ 1023) = .ok (rowQuery (2 ^ 1023) 0 4).graph ∧
    f64.rnd (2 ^ 1023) = 2 ^ 1023 ∧ (2 ^ 1023 : ℚ) ≤ maxF ∧
    (rowQuery (2 ^ 1023) 0 4).graph.IsRoute 0 [0, 1, 2, 3] 4 ∧
    answer (router 40 St.new (rowQuery (2 ^ 1023) 0 4)) = some (.ok none) ∧
    answer (Dij.computeBestPath (heap f64) (Fp.dot f64) 40 St.new (rowQuery (2 ^ 1023) 0 4)) =
      some (.ok (some (Path.new 0 0 4 4 [0, 1, 2, 3]))) := by
  refine ⟨by decide +kernel, by decide +kernel, by decide +kernel, ⟨1, ⟨by decide +kernel, by decide +kernel⟩, 2,
    ⟨by decide +kernel, by decide +kernel⟩, 3, ⟨by decide +kernel, by decide +kernel⟩, 4,
    ⟨by decide +kernel, by decide +kernel⟩, rfl⟩, by decide +kernel, by decide +kernel⟩

/-- Two routes whose costs are both above the largest number: the first meeting-node is kept, although the route over
the other one is cheaper. -/
def twoBuild : Build.R Graph :=
  Build.build 1 [edge1 0 1 (5 * 2 ^ 1021), edge1 0 2 (2 ^ 1022), edge1 1 3 (5 * 2 ^ 1021), edge1 2 3 (3 * 2 ^ 1022),
    edge1 3 0 1] (lvNodes 0 [0, 0, 0, 0])

def twoQuery : Query (Rounded f64) :=
  { src := 0, dst := 3, graph := okGraph twoBuild, algo := .dijkstra, alphas := [1] }

theorem C108_false_cheapest : twoBuild = .ok twoQuery.graph ∧
    answer (router 40 St.new twoQuery) = some (.ok (some (Path.new 0 0 3 3 [0, 2]))) ∧
    twoQuery.graph.IsRoute 0 [1, 3] 3 ∧
    routeCost twoQuery.graph [1] [1, 3] + 2 ^ 1022 = routeCost twoQuery.graph [1] [0, 2] ∧
    answer (Dij.computeBestPath (heap f64) (Fp.dot f64) 40 St.new twoQuery) =
      some (.ok (some (Path.new 0 0 3 3 [1, 3]))) := by
  refine ⟨by decide +kernel, by decide +kernel, ⟨2, ⟨by decide +kernel, by decide +kernel⟩, 3,
    ⟨by decide +kernel, by decide +kernel⟩, rfl⟩, by decide +kernel, by decide +kernel⟩

theorem row_wf {x : ℚ} {src dst : Nat} (h : rowBuild x = .ok (rowQuery x src dst).graph) :
    (rowQuery x src dst).graph.WellFormed := Build.built_wellFormed h

theorem nonneg_of {g : Graph} (h : g.metrics.all (fun m => m.all (fun x => decide (0 ≤ x))) = true) :
    NonnegMetrics g := by
  intro m hm x hx
  simpa using List.all_eq_true.mp (List.all_eq_true.mp h m hm) x hx

/-- The assumptions of `C108_route`, `C108_none_iff`, `C108_terminates` and `C108_no_panic`: two edges of `2^1023`
are a path, because each of the two searches needs only one of them; their sum is above the largest number. -/
example : (rowQuery (2 ^ 1023) 0 2).graph.WellFormed ∧ NonnegMetrics (rowQuery (2 ^ 1023) 0 2).graph ∧
    (rowQuery (2 ^ 1023) 0 2).graph.nodeCount = 5 ∧ Used 5 (St.new : St (Rounded f64)) ∧
    AllCovered (rowQuery (2 ^ 1023) 0 2).graph ∧
    answer (router 40 St.new (rowQuery (2 ^ 1023) 0 2)) = some (.ok (some (Path.new 0 0 2 2 [0, 1]))) ∧
    sumOf (rowQuery (2 ^ 1023) 0 2).graph [1] [0, 1] = none ∧
    sumOf (rowQuery (2 ^ 1023) 0 2).graph [1] [0] ≠ none ∧ router 2 St.new (rowQuery (2 ^ 1023) 0 2) = none := by
  refine ⟨row_wf (by decide +kernel), nonneg_of (by decide +kernel), by decide +kernel, Used.new, ?_,
    by decide +kernel, by decide +kernel, by decide +kernel, by decide +kernel⟩
  have h : ∀ d : Dir, (List.range 5).all (fun i => match (rowQuery (2 ^ 1023) 0 2).graph.startingFrom d i with
      | .ok _ => true
      | _ => false) = true := by intro d; cases d <;> decide +kernel
  intro d i hi
  have := List.all_eq_true.mp (h d) i (List.mem_range.mpr (by
    have e : (rowQuery (2 ^ 1023) 0 2).graph.nodeCount = 5 := by decide +kernel
    omega))
  cases h2 : (rowQuery (2 ^ 1023) 0 2).graph.startingFrom d i with
  | ok es => exact ⟨es, h2⟩
  | err e => rw [h2] at this; cases this
  | panic => rw [h2] at this; cases this

/-- The router after a query. -/
def after (r : Option (R (St (Rounded f64) × Option Path))) : St (Rounded f64) :=
  match r with
  | some (.ok (s, _)) => s
  | _ => St.new

theorem after_eq {r : Option (R (St (Rounded f64) × Option Path))} {ans : Option Path}
    (h : answer r = some (.ok ans)) : r = some (.ok (after r, ans)) := by
  cases r with
  | none => cases h
  | some r =>
    cases r with
    | panic => cases h
    | err e => cases h
    | ok x => cases h; rfl

/-- Two nodes and an edge in each direction. -/
def pairBuild : Build.R Graph := Build.build 1 [edge1 0 1 (2 ^ 1023), edge1 1 0 1] (lvNodes 0 [0, 0])

def pairQuery (algo : Algo) : Query (Rounded f64) :=
  { src := 0, dst := 1, graph := okGraph pairBuild, algo, alphas := [1] }

/-- The assumptions of `C108_route`, `C108_none_iff` and `C108_none_iff_up_down` for a router that has been used on a
larger graph. The graph has two nodes; a new router panics on it. -/
example : pairBuild = .ok (pairQuery .dijkstra).graph ∧ (pairQuery .dijkstra).graph.WellFormed ∧
    NonnegMetrics (pairQuery .dijkstra).graph ∧ (pairQuery .dijkstra).graph.nodeCount = 2 ∧
    Used 5 (after (router 40 St.new (rowQuery 1 0 2))) ∧
    answer (router 40 (after (router 40 St.new (rowQuery 1 0 2))) (pairQuery .dijkstra)) =
      some (.ok (some (Path.new 0 0 1 1 [0]))) ∧
    answer (router 40 (after (router 40 St.new (rowQuery 1 0 2))) (pairQuery .chDijkstra)) =
      some (.ok (some (Path.new 0 0 1 1 [0]))) ∧
    answer (router 40 St.new (pairQuery .dijkstra)) = some .panic := by
  refine ⟨by decide +kernel, Build.built_wellFormed (show pairBuild = .ok _ by decide +kernel),
    nonneg_of (by decide +kernel), by decide +kernel, ?_, by decide +kernel, by decide +kernel, by decide +kernel⟩
  exact Used.query Used.new (show (rowQuery 1 0 2).graph.nodeCount ≤ 5 by decide +kernel)
    (after_eq (ans := some (Path.new 0 0 2 2 [0, 1])) (by decide +kernel))

/-- The same query with ch-dijkstra. -/
example : answer (router 40 St.new { rowQuery (2 ^ 1023) 0 2 with algo := .chDijkstra }) =
      some (.ok (some (Path.new 0 0 2 2 [0, 1]))) ∧
    answer (router 40 St.new { rowQuery (2 ^ 1023) 0 4 with algo := .chDijkstra }) = some (.ok none) := by
  decide +kernel

/-- The assumptions of `C108_same`, `C108_none_iff_partial`, `C108_near_partial`, `C108_near_up_down_partial`. -/
example : (rowQuery (2 ^ 400) 0 4).graph.WellFormed ∧ NonnegMetrics (rowQuery (2 ^ 400) 0 4).graph ∧
    MaxDegree (rowQuery (2 ^ 400) 0 4).graph 5 ∧
    answer (router 40 St.new { rowQuery (2 ^ 400) 0 4 with algo := .chDijkstra }) =
      some (.ok (some (Path.new 0 0 4 4 [0, 1, 2, 3]))) ∧
    Moderate (rowQuery (2 ^ 400) 0 4) ∧ (rowQuery (2 ^ 400) 0 4).graph.nodeCount = 5 ∧
    answer (router 40 St.new (rowQuery (2 ^ 400) 0 4)) = some (.ok (some (Path.new 0 0 4 4 [0, 1, 2, 3]))) := by
  have hwf := row_wf (x := 2 ^ 400) (src := 0) (dst := 4) (by decide +kernel)
  have hd := maxDegree_edges hwf
  rw [show (rowQuery (2 ^ 400) 0 4).graph.edgeCount = 5 by decide +kernel] at hd
  refine ⟨hwf, nonneg_of (by decide +kernel), hd, by decide +kernel, ⟨?_, ?_⟩, by decide +kernel, by decide +kernel⟩
  · have : (rowQuery (2 ^ 400) 0 4).graph.metrics.all (fun m => m.all (fun x => decide (x ≤ 2 ^ 400))) = true := by
      decide +kernel
    intro m hm x hx
    simpa using List.all_eq_true.mp (List.all_eq_true.mp this m hm) x hx
  · intro a ha
    have : a = 1 := by simpa [rowQuery] using ha
    rw [this]
    exact one_le_pow₀ (by norm_num)

/-- Numbers whose difference or whose quotient by the precision is infinite. -/
example : op (maxF - -maxF) = none ∧ eq maxF (-maxF) = false ∧ op (2 ^ 1010 / Fp.eps f64) = none ∧
    eq (2 ^ 1010) 0 = false ∧ eq maxF maxF = true := by decide +kernel

end Verif.Over
