import Verif.ParallelDijkstra

/-!
# Properties of the parallel balancer (C37, C38, C39)
-/

namespace Verif.Par

open Dij (Heap Algo Used AllCovered NonnegMetrics St codeHeap sqGraph)

/-! ## C37 -/

section
variable {σ : Type} {process : σ → Work → Option (R (σ × Outcome))} {c : SizeCfg} {g : Graph} {fuel n : Nat}
  {Ok : σ → Prop} {Rel : Job → Result → Prop} {jobs : List Job} {coll : Bool} {s₀ : σ}

/-- No schedule is longer than this. Hence the balancer terminates, whoever does the next step. -/
theorem C37_terminates (hrel : Reliable process jobs Ok Rel) (hfl : Flattens g fuel Rel)
    (hcs : c.minus + c.plus ≤ usizeMax) (hm : 1 ≤ c.minus) (hok : Ok s₀) {es : List Event} {s : Sys σ}
    (hr : run process c g fuel (start c g s₀ n jobs coll) es = some s) :
    es.length ≤ 2 * jobs.length + 3 * n + 1 := by
  have := (inv_run hrel hfl hcs hm es _ s (inv_start hcs hok) hr).2
  rw [rank_start] at this
  omega

/-- As long as the master has not returned, some thread can do a step: there is no deadlock, no panic,
and no error. -/
theorem C37_progress (hrel : Reliable process jobs Ok Rel) (hfl : Flattens g fuel Rel)
    (hcs : c.minus + c.plus ≤ usizeMax) (hm : 1 ≤ c.minus) (hok : Ok s₀) {es : List Event} {s : Sys σ}
    (hr : run process c g fuel (start c g s₀ n jobs coll) es = some s) :
    s.phase = .returned ∨
      ((∃ e, step process c g fuel s e ≠ none) ∧ s.phase ≠ .panicked ∧ s.phase ≠ .failed) := by
  have hi := (inv_run hrel hfl hcs hm es _ s (inv_start hcs hok) hr).1
  by_cases hph : s.phase = .returned
  · exact Or.inl hph
  · refine Or.inr ⟨can_step hrel hfl hcs hi hph, ?_⟩
    rcases hi.1.phase with h | ⟨i, h, -⟩ | ⟨h, -⟩
    · rw [h]; exact ⟨by simp, by simp⟩
    · rw [h]; exact ⟨by simp, by simp⟩
    · exact absurd h hph

theorem flat_fun {ps ps' qs : List Path} (h : Flat g fuel ps qs) (hp : ps'.Perm ps) :
    ∃ qs', Flat g fuel ps' qs' ∧ qs'.Perm qs := by
  induction hp generalizing qs with
  | nil => cases h; exact ⟨[], .nil, .refl _⟩
  | cons x _ ih =>
    cases h with
    | cons h1 h2 =>
      obtain ⟨qs', a, b⟩ := ih h2
      exact ⟨_ :: qs', .cons h1 a, b.cons _⟩
  | swap x y l =>
    cases h with
    | cons h1 h2 =>
      cases h2 with
      | cons h3 h4 => exact ⟨_, .cons h3 (.cons h1 h4), .swap _ _ _⟩
  | trans _ _ ih1 ih2 =>
    obtain ⟨q1, a, b⟩ := ih2 h
    obtain ⟨q2, c, d⟩ := ih1 a
    exact ⟨q2, c, d.trans b⟩

theorem flat_append {a b qs : List Path} (h : Flat g fuel (a ++ b) qs) :
    ∃ q1 q2, Flat g fuel a q1 ∧ Flat g fuel b q2 ∧ qs = q1 ++ q2 := by
  induction a generalizing qs with
  | nil => exact ⟨[], qs, .nil, h, rfl⟩
  | cons x a ih =>
    cases h with
    | cons h1 h2 =>
      obtain ⟨q1, q2, e1, e2, rfl⟩ := ih h2
      exact ⟨_ :: q1, q2, .cons h1 e1, e2, rfl⟩

theorem occurrences_perm {e : Nat} {a b : List Path} (h : a.Perm b) : occurrences e a = occurrences e b :=
  (h.map _).sum_eq

/-- Every route-pair is processed exactly once. When the master returns, there is one possible result
for each route-pair, and the workload of an edge is how often it occurs in the flattened paths of these
results. The collected paths are these flattened paths (in some order). -/
theorem C37_every_pair_once (hrel : Reliable process jobs Ok Rel) (hfl : Flattens g fuel Rel)
    (hcs : c.minus + c.plus ≤ usizeMax) (hm : 1 ≤ c.minus) (hok : Ok s₀) (hn : 1 ≤ n)
    {es : List Event} {s : Sys σ}
    (hr : run process c g fuel (start c g s₀ n jobs coll) es = some s) (hph : s.phase = .returned) :
    ∃ rs qs, List.Forall₂ Rel jobs rs ∧ Flat g fuel (rs.flatMap Result.chosen) qs ∧
      s.master.loads.length = g.edgeCount ∧
      (∀ e, e < g.edgeCount → s.master.loads[e]? = some (occurrences e qs)) ∧
      (coll = true → ∃ ps, s.master.paths = some ps ∧ ps.Perm qs) := by
  have hi := (inv_run hrel hfl hcs hm es _ s (inv_start hcs hok) hr).1
  obtain ⟨L, qs, h1, h2, ⟨ps, h3, h4⟩, h5, h6, h7, -⟩ := returned_spec hn hi hph
  obtain ⟨qs', h8, h9⟩ := flat_fun h4 h3.symm
  refine ⟨L.map Prod.snd, qs', ?_, ?_, h5, ?_, ?_⟩
  · rw [← h1]
    clear h1 h3 h8
    induction L with
    | nil => exact .nil
    | cons x L ih => exact .cons (h2 x (by simp)) (ih (fun y hy => h2 y (by simp [hy])))
  · have : (L.map Prod.snd).flatMap Result.chosen = allChosen L := by
      simp [allChosen, List.flatMap_map]
    rw [this]
    exact h8
  · intro e he
    rw [h6 e he, occurrences_perm h9]
  · intro hc
    exact ⟨qs, by rw [h7, if_pos hc], h9.symm⟩

end

section
variable {h : Heap ℚ} {g : Graph} {algo : Algo} {alphas : List ℚ} {jobs : List Job}

theorem occurrences_replicate (e n : Nat) (q : Path) :
    occurrences e (List.replicate n q) = n * q.edges.count e := by
  simp [occurrences]

/-- The workloads of the balancer with Dijkstra (or ch-dijkstra) are the sum over all route-pairs of the
edges of their flattened routes, weighted by count. The routes are those of a new router and don't depend
on the number of threads, the sizes of chunks, or the schedule. Every schedule leads to this result within
a bounded number of steps.
Partial: All nodes must be accessible (`AllCovered`, see `C15_false_uncovered`), the graph must not have
exactly two nodes (see `C15_false_two_nodes`), and the answers must be flattenable. -/
theorem C37_dijkstra_partial (hwf : g.WellFormed) (hm : NonnegMetrics g) (hal : ∀ a ∈ alphas, 0 ≤ a)
    (halg : algo ≠ .explorator) (hcov : AllCovered g) (h2 : g.nodeCount ≠ 2)
    (hjobs : ∀ j ∈ jobs, j.src ∈ g.nodeIds ∧ j.dst ∈ g.nodeIds ∧ 1 ≤ j.count)
    (hflat : ∀ src dst p, src < g.nodeCount → dst < g.nodeCount → RouterAnswers h { src, dst, graph := g, algo, alphas } (some p) →
      ∃ q, FlattensTo g p q) :
    ∃ routes N, List.Forall₂ (JobEdges h g algo alphas) jobs routes ∧
      ∀ fuel n coll es s, N ≤ fuel → 1 ≤ n →
        run (dijkstraWork h g algo alphas fuel) sizeDefaults g fuel
          (start sizeDefaults g St.new n jobs coll) es = some s →
        es.length ≤ 2 * jobs.length + 3 * n + 1 ∧
        ((∀ e, step (dijkstraWork h g algo alphas fuel) sizeDefaults g fuel s e = none) →
          s.phase = .returned) ∧
        (s.phase = .returned → s.master.loads.length = g.edgeCount ∧ ∀ e, e < g.edgeCount →
          s.master.loads[e]? = some (List.zipWith (fun j l => j.count * l.count e) jobs routes).sum) := by
  have hw := Dij.weights_nonneg hal hm
  obtain ⟨N₁, hN₁⟩ := enough_fuel (h := h) hwf hw halg hcov h2 jobs
  obtain ⟨N₂, hN₂⟩ := enough_flat (h := h) (algo := algo) (alphas := alphas) (jobs := jobs) hwf
    (fun _ _ src dst p hs hd ha => hflat src dst p (lt_of_getElem? hs) (lt_of_getElem? hd) ha)
  -- the edges of every route-pair
  have hroutes : ∃ routes, List.Forall₂ (JobEdges h g algo alphas) jobs routes := by
    have : ∀ js : List Job, (∀ j ∈ js, j ∈ jobs) →
        ∃ routes, List.Forall₂ (JobEdges h g algo alphas) js routes := by
      intro js
      induction js with
      | nil => exact fun _ => ⟨[], .nil⟩
      | cons j js ih =>
        intro hsub
        obtain ⟨rs, hrs⟩ := ih (fun x hx => hsub x (by simp [hx]))
        have hj := hsub j (by simp)
        obtain ⟨v1, v2, v3⟩ := hjobs j hj
        obtain ⟨src, hs⟩ := List.getElem?_of_mem v1
        obtain ⟨dst, hd⟩ := List.getElem?_of_mem v2
        obtain ⟨s', ans, hc⟩ := hN₁ N₁ le_rfl j hj src dst hs hd
        cases ans with
        | none => exact ⟨[] :: rs, .cons ⟨src, dst, none, hs, hd, ⟨N₁, s', hc⟩, Or.inl ⟨rfl, rfl⟩⟩ hrs⟩
        | some p =>
          obtain ⟨q, hq⟩ := hflat src dst p (lt_of_getElem? hs) (lt_of_getElem? hd) ⟨N₁, s', hc⟩
          exact ⟨q.edges :: rs, .cons ⟨src, dst, some p, hs, hd, ⟨N₁, s', hc⟩,
            Or.inr ⟨p, q, rfl, hq, rfl⟩⟩ hrs⟩
    exact this jobs (fun _ hj => hj)
  obtain ⟨routes, hr⟩ := hroutes
  refine ⟨routes, max N₁ N₂, hr, fun fuel n coll es s hf hn hrun => ?_⟩
  have hrel := dijkstra_reliable hwf h2 (hN₁ fuel (by omega)) hjobs
  -- restrict the possible results to those of the route-pairs
  have hrel' : Reliable (dijkstraWork h g algo alphas fuel) jobs (Used h dot g.nodeCount)
      (fun j r => j ∈ jobs ∧ DijRel h g algo alphas j r) := by
    constructor
    intro st w hst hsub
    obtain ⟨s', o, l, a1, a2, a3, a4, a5⟩ := hrel.answers st w hst hsub
    refine ⟨s', o, l, a1, a2, a3, fun x hx => ⟨hsub _ ?_, a4 x hx⟩, a5⟩
    rw [← a3]
    exact List.mem_map_of_mem hx
  have hfl : Flattens g fuel (fun j r => j ∈ jobs ∧ DijRel h g algo alphas j r) := by
    rintro j r ⟨hj, src, dst, ans, hs, hd, ha, rfl⟩ p hp
    cases ans with
    | none => simp [resultOf] at hp
    | some p' =>
      simp only [resultOf] at hp
      have := List.eq_of_mem_replicate hp
      subst this
      obtain ⟨q, hq⟩ := hN₂ fuel (by omega) j hj src dst p hs hd ha
      exact ⟨q, hq, flattened_lt hwf hq⟩
  have hcs : sizeDefaults.minus + sizeDefaults.plus ≤ usizeMax := by decide
  have hm1 : 1 ≤ sizeDefaults.minus := by decide
  refine ⟨C37_terminates hrel' hfl hcs hm1 .new hrun, ?_, ?_⟩
  · intro hnone
    rcases C37_progress hrel' hfl hcs hm1 .new hrun with h | ⟨⟨e, he⟩, -⟩
    · exact h
    · exact absurd (hnone e) he
  · intro hph
    obtain ⟨rs, qs, b1, b2, b3, b4, -⟩ := C37_every_pair_once hrel' hfl hcs hm1 .new hn hrun hph
    refine ⟨b3, fun e he => ?_⟩
    rw [b4 e he, Option.some.injEq]
    clear b4 b3 hph hrun hrel hrel' hfl hjobs hN₁ hN₂
    replace b1 : List.Forall₂ (DijRel h g algo alphas) jobs rs := b1.imp (fun _ _ hx => hx.2)
    induction b1 generalizing qs routes with
    | nil => cases hr; cases b2; rfl
    | @cons j r js rs hjr _ ih =>
      cases hr with
      | @cons _ l _ ls hjl hls =>
      rw [List.flatMap_cons] at b2
      obtain ⟨q1, q2, c1, c2, rfl⟩ : ∃ q1 q2, Flat g fuel r.chosen q1 ∧
          Flat g fuel (rs.flatMap Result.chosen) q2 ∧ qs = q1 ++ q2 := by
        exact flat_append b2
      rw [occurrences_append, ih _ hls _ c2, List.zipWith_cons_cons, List.sum_cons]
      congr 1
      obtain ⟨src, dst, ans, hs, hd, ha, rfl⟩ := hjr
      obtain ⟨src', dst', ans', hs', hd', ha', hl⟩ := hjl
      have e1 := (idxFrom_eq_ok_iff hwf.ids_sorted).mpr hs
      rw [(idxFrom_eq_ok_iff hwf.ids_sorted).mpr hs'] at e1
      have e2 := (idxFrom_eq_ok_iff hwf.ids_sorted).mpr hd
      rw [(idxFrom_eq_ok_iff hwf.ids_sorted).mpr hd'] at e2
      simp only [Except.ok.injEq] at e1 e2
      subst e1 e2
      have := routerAnswers_unique ha ha'
      subst this
      rcases hl with ⟨rfl, rfl⟩ | ⟨p, q, rfl, hq, rfl⟩
      · cases c1
        simp [occurrences]
      · simp only [resultOf] at c1
        have : q1 = List.replicate j.count q := by
          clear ih b2 c2
          generalize j.count = k at c1
          induction k generalizing q1 with
          | zero => cases c1; rfl
          | succ k ihk =>
            rw [List.replicate_succ] at c1
            cases c1 with
            | cons d1 d2 =>
              rw [List.replicate_succ, ihk _ d2, flattensTo_unique ⟨fuel, d1⟩ hq]
        rw [this, occurrences_replicate]

theorem routerAnswers_route (hwf : g.WellFormed) (hw : ∀ m ∈ g.metrics, 0 ≤ dot alphas m)
    {src dst : Nat} {p : Path} (hs : src < g.nodeCount) (hd : dst < g.nodeCount)
    (ha : RouterAnswers h { src, dst, graph := g, algo, alphas } (some p)) :
    g.IsRoute src p.edges dst := by
  obtain ⟨fuel, s', hc⟩ := ha
  exact (Dij.C13_route (q := { src, dst, graph := g, algo, alphas }) hwf Search.addOk_rat hw hs hd
    (.new (n := 0)) hc).1

theorem isRoute_lt : ∀ {l : List Nat} {u v : Nat}, g.IsRoute u l v → ∀ e ∈ l, e < g.edgeCount
  | [], _, _, _, _, he => by cases he
  | a :: l, u, v, ⟨w, h1, h2⟩, e, he => by
    rcases List.mem_cons.mp he with rfl | he
    · exact Build.lt_length_of_getElem? (Res.ofIdx_eq_ok.mp h1.1)
    · exact isRoute_lt h2 e he

/-- The hypothesis on flattening of `C37_dijkstra_partial` holds for graphs without shortcuts, -/
theorem C37_flattens_plain (hwf : g.WellFormed) (hw : ∀ m ∈ g.metrics, 0 ≤ dot alphas m)
    (hp : ∀ e, e < g.edgeCount → g.scEdgesOf e = .ok none) {src dst : Nat} {p : Path}
    (hs : src < g.nodeCount) (hd : dst < g.nodeCount)
    (ha : RouterAnswers h { src, dst, graph := g, algo, alphas } (some p)) :
    ∃ q, FlattensTo g p q ∧ q.edges = p.edges := by
  have hl := isRoute_lt (routerAnswers_route hwf hw hs hd ha)
  exact plain_flattens hwf hl (fun e he => hp e (hl e he))

/-- and for built graphs, if no plain edge is used twice. -/
theorem C37_flattens_built {dim : Nat} {es : List Build.ProtoEdge} {ns : List Build.ProtoNode}
    (hb : Build.build dim es ns = .ok g) {p : Path} {ls : List (List Nat)}
    (hx : List.Forall₂ (Graph.Expands g) p.edges ls) (hn : ls.flatten.Nodup) :
    ∃ q, FlattensTo g p q ∧ q.edges = ls.flatten := by
  obtain ⟨k, hk⟩ := Path.C21_built_succeeds hb hx hn
  obtain ⟨q, h1, h2⟩ := hk 0
  refine ⟨q, ⟨0 + k, ?_⟩, h2⟩
  simp only [Path.flatten, h1, Option.map_some]

end

/-- Three route-pairs on the sample graph. -/
def sqJobs : List Job := [{ src := 0, dst := 3, count := 2 }, { src := 1, dst := 2, count := 1 },
  { src := 3, dst := 3, count := 5 }]

/-- The conditions of `C37_dijkstra_partial` hold for the sample. -/
example : sqGraph.WellFormed ∧ NonnegMetrics sqGraph ∧ (∀ a ∈ [(1 : ℚ)], 0 ≤ a) ∧ AllCovered sqGraph ∧
    sqGraph.nodeCount ≠ 2 ∧ (∀ j ∈ sqJobs, j.src ∈ sqGraph.nodeIds ∧ j.dst ∈ sqGraph.nodeIds ∧ 1 ≤ j.count) ∧
    (∀ e, e < sqGraph.edgeCount → sqGraph.scEdgesOf e = .ok none) :=
  ⟨Dij.sq_wf, Dij.sq_nonneg, by decide +kernel, Dij.sq_covered, by decide +kernel, by decide +kernel,
    by decide +kernel⟩

/-- So the theorem applies to it. -/
example : ∃ routes N, List.Forall₂ (JobEdges codeHeap sqGraph .dijkstra [1]) sqJobs routes ∧
    ∀ fuel n coll es s, N ≤ fuel → 1 ≤ n →
      run (dijkstraWork codeHeap sqGraph .dijkstra [1] fuel) sizeDefaults sqGraph fuel
        (start sizeDefaults sqGraph St.new n sqJobs coll) es = some s → s.phase = .returned →
      ∀ e, e < sqGraph.edgeCount →
        s.master.loads[e]? = some (List.zipWith (fun j l => j.count * l.count e) sqJobs routes).sum := by
  obtain ⟨routes, N, h1, h2⟩ := C37_dijkstra_partial (h := codeHeap) (algo := .dijkstra) (alphas := [1])
    (jobs := sqJobs) Dij.sq_wf Dij.sq_nonneg (by decide +kernel) (by decide) Dij.sq_covered (by decide +kernel)
    (by decide +kernel) (fun src dst p hs hd ha => by
      obtain ⟨q, hq, -⟩ := C37_flattens_plain Dij.sq_wf (Dij.weights_nonneg (by decide +kernel) Dij.sq_nonneg)
        (by decide +kernel) hs hd ha
      exact ⟨q, hq⟩)
  exact ⟨routes, N, h1, fun fuel n coll es s hf hn hr hph => ((h2 fuel n coll es s hf hn hr).2.2 hph).2⟩

/-- The outside of a run: where the master is, and the workloads. -/
def outside {σ : Type} : Option (Sys σ) → Option (Phase × List Nat) :=
  Option.map fun s => (s.phase, s.master.loads)

/-- One worker, and two workers with another schedule. -/
example :
    outside (run (dijkstraWork codeHeap sqGraph .dijkstra [1] 40) sizeDefaults sqGraph 40
      (start sizeDefaults sqGraph St.new 1 sqJobs false)
      [.recv true 0, .work 0, .recv false 0, .exit 0, .joined, .disconnected]) =
      some (.returned, [3, 0, 1, 2, 1]) ∧
    outside (run (dijkstraWork codeHeap sqGraph .dijkstra [1] 40) { init := 1, plus := 1, minus := 1 } sqGraph 40
      (start { init := 1, plus := 1, minus := 1 } sqGraph St.new 2 sqJobs false)
      [.recv false 0, .recv false 1, .work 1, .recv false 7, .work 1, .work 0, .recv true 7, .exit 1, .joined,
        .recv true 1, .exit 0, .joined, .disconnected]) =
      some (.returned, [3, 0, 1, 2, 1]) := by
  decide +kernel

/-- Without threads, the balancer returns at once, and no route-pair has been processed. -/
theorem C37_false_no_thread :
    outside (run (dijkstraWork codeHeap sqGraph .dijkstra [1] 40) sizeDefaults sqGraph 40
      (start sizeDefaults sqGraph St.new 0 sqJobs false) [.disconnected]) =
      some (.returned, [0, 0, 0, 0, 0]) := by
  decide +kernel

/-- A route-pair of an unknown node lets a worker panic. The balancer returns as if everything were fine,
and other route-pairs of the same chunk are missing. -/
theorem C37_false_unknown_node :
    outside (run (dijkstraWork codeHeap sqGraph .dijkstra [1] 40) sizeDefaults sqGraph 40
      (start sizeDefaults sqGraph St.new 1
        (sqJobs ++ [{ src := 0, dst := 77, count := 1 }]) false)
      [.recv true 0, .work 0, .disconnected]) = some (.returned, [0, 0, 0, 0, 0]) := by
  decide +kernel

/-- The same happens for a count of zero, if there is a route. -/
theorem C37_false_count_zero :
    outside (run (dijkstraWork codeHeap sqGraph .dijkstra [1] 40) sizeDefaults sqGraph 40
      (start sizeDefaults sqGraph St.new 1
        (sqJobs ++ [{ src := 0, dst := 3, count := 0 }]) false)
      [.recv true 0, .work 0, .disconnected]) = some (.returned, [0, 0, 0, 0, 0]) := by
  decide +kernel

/-! ## C38 -/

/-- Sizes after a history of receives: each is fast or slow, and comes from some worker. -/
def sizes (c : SizeCfg) : List (Bool × Nat) → R Nat
  | [] => .ok (initSize c)
  | (fast, i) :: l => do
    let size ← sizes c l
    adjustSize c fast i size

/-- The size never panics and stays in range. -/
theorem C38_in_range {c : SizeCfg} (hc : c.minus + c.plus ≤ usizeMax) (l : List (Bool × Nat)) :
    ∃ size, sizes c l = .ok size ∧ c.minus ≤ size ∧ size + c.plus ≤ usizeMax := by
  induction l with
  | nil =>
    have := initSize_ok hc
    exact ⟨_, rfl, this.1, by omega⟩
  | cons x l ih =>
    obtain ⟨size, h1, h2, h3⟩ := ih
    obtain ⟨size', h4, h5, h6⟩ := adjustSize_ok (fast := x.1) (i := x.2) hc h2 (by omega)
    exact ⟨size', by simp only [sizes, h1, Res.ok_bind, h4], h5, by omega⟩

/-- For the constants of the code, it stays at least 10. -/
theorem C38_defaults (l : List (Bool × Nat)) :
    ∃ size, sizes sizeDefaults l = .ok size ∧ 10 ≤ size ∧ size + 30 ≤ usizeMax :=
  C38_in_range (c := sizeDefaults) (by decide) l

/-- Every size of a run of the system is of this kind: it stays in range whatever happens, for any
workers. -/
theorem C38_system {σ : Type} {process : σ → Work → Option (R (σ × Outcome))} {c : SizeCfg} {g : Graph}
    {fuel n : Nat} {jobs : List Job} {coll : Bool} {s₀ : σ} (hc : c.minus + c.plus ≤ usizeMax)
    {es : List Event} {s : Sys σ} (hr : run process c g fuel (start c g s₀ n jobs coll) es = some s) :
    (∃ l, sizes c l = .ok s.master.size) ∧ c.minus ≤ s.master.size ∧ s.master.size + c.plus ≤ usizeMax := by
  have key : ∀ (es : List Event) (s₁ s₂ : Sys σ), (∃ l, sizes c l = .ok s₁.master.size) →
      run process c g fuel s₁ es = some s₂ → ∃ l, sizes c l = .ok s₂.master.size := by
    intro es
    induction es with
    | nil =>
      intro s₁ s₂ h1 h2
      simp only [run, Option.some.injEq] at h2
      subst h2
      exact h1
    | cons e es ih =>
      intro s₁ s₂ h1 h2
      simp only [run, Option.bind_eq_some_iff] at h2
      obtain ⟨s₃, h3, h4⟩ := h2
      refine ih s₃ s₂ ?_ h4
      cases e with
      | work i =>
        simp only [step, stepWork] at h3
        split at h3
        · split at h3 <;> simp only [Option.some.injEq, reduceCtorEq] at h3 <;> subst h3 <;> exact h1
        · cases h3
      | exit i =>
        simp only [step, stepExit] at h3
        split at h3 <;> simp only [Option.some.injEq, reduceCtorEq] at h3
        subst h3
        exact h1
      | joined =>
        simp only [step, stepJoined] at h3
        split at h3
        · split at h3 <;> simp only [Option.some.injEq, reduceCtorEq] at h3 <;> subst h3 <;> exact h1
        · cases h3
      | disconnected =>
        simp only [step, stepDisconnected] at h3
        split at h3
        · split at h3 <;> simp only [Option.some.injEq, reduceCtorEq] at h3
          subst h3
          exact h1
        · cases h3
      | recv fast seed =>
        obtain ⟨l, hl⟩ := h1
        have hsz : ∀ i o m a, handle c g fuel fast seed i o s₁.master = some (.ok (m, a)) →
            ∃ l, sizes c l = .ok m.size := by
          intro i o m a hh
          unfold handle at hh
          split at hh
          · rename_i size hsize
            refine ⟨(fast, i) :: l, ?_⟩
            rw [show m.size = size from ?_]
            · simp only [sizes, hl, Res.ok_bind, hsize]
            split at hh
            · cases hh
            · split at hh
              · simp only [nextAction, Option.some.injEq, Res.ok.injEq] at hh
                split at hh <;> simp only [Prod.mk.injEq] at hh <;> rw [← hh.1]
              · cases hh
            · cases hh
          · cases hh
        simp only [step, stepRecv] at h3
        split at h3
        · split at h3
          · cases h3
          · rename_i hh
            obtain ⟨l', hl'⟩ := hsz _ _ _ _ hh
            simp only [Option.some.injEq] at h3
            subst h3
            refine ⟨l', ?_⟩
            unfold sendWork
            split <;> exact hl'
          · rename_i hh
            obtain ⟨l', hl'⟩ := hsz _ _ _ _ hh
            simp only [Option.some.injEq] at h3
            subst h3
            exact ⟨l', hl'⟩
          · simp only [Option.some.injEq] at h3
            subst h3
            exact ⟨l, hl⟩
        · cases h3
  obtain ⟨l, hl⟩ := key es _ s ⟨[], rfl⟩ hr
  obtain ⟨size, h1, h2, h3⟩ := C38_in_range hc l
  rw [hl, Res.ok.injEq] at h1
  subst h1
  exact ⟨⟨l, hl⟩, h2, h3⟩

/-- The size goes up and down; other workers than 0 do not matter. -/
example : sizes sizeDefaults [] = .ok 50 ∧ sizes sizeDefaults [(true, 0)] = .ok 80 ∧
    sizes sizeDefaults [(true, 2), (false, 0), (true, 0)] = .ok 70 ∧
    sizes sizeDefaults (List.replicate 9 (false, 0)) = .ok 10 := by decide

/-- With other constants, the size could panic. -/
theorem C38_false_constants :
    sizes { init := 1, plus := usizeMax, minus := 1 } [(false, 0)] = .panic := by decide +kernel

/-! ## C39 -/

/-- The statistics after the outcomes `os`, the newest one first; and the number of route-pairs. -/
def stats : List Outcome → (ℚ × ℚ) × Nat
  | [] => ((0, 0), 0)
  | o :: os =>
    let r := stats os
    (updateStats (r.2 + o.pairs) o.found r.1, r.2 + o.pairs)

theorem stats_pairs (os : List Outcome) : (stats os).2 = (os.map Outcome.pairs).sum := by
  induction os with
  | nil => rfl
  | cons o os ih => simp [stats, ih, Nat.add_comm]

theorem mean_perm {a b : List ℚ} (h : a.Perm b) : mean a = mean b := by
  unfold mean
  rw [h.sum_eq, h.length_eq]

theorem variance_perm {a b : List ℚ} (h : a.Perm b) : variance a = variance b := by
  unfold variance
  rw [mean_perm h]
  exact mean_perm (h.map _)

/-- If every route-pair has reported its number of found paths, then mean and variance are those of all
numbers, for every division into outcomes. -/
theorem C39_incremental_partial {os : List Outcome} (hos : ∀ o ∈ os, o.found.length = o.pairs) :
    (stats os).1 = (mean ((os.flatMap Outcome.found).map fun (x : Nat) => (x : ℚ)),
      variance ((os.flatMap Outcome.found).map fun (x : Nat) => (x : ℚ))) := by
  induction os with
  | nil => simp [stats, mean, variance]
  | cons o os ih =>
    have ih := ih (fun x hx => hos x (by simp [hx]))
    have hlen : (stats os).2 = ((os.flatMap Outcome.found).map fun (x : Nat) => (x : ℚ)).length := by
      rw [stats_pairs, List.length_map, List.length_flatMap]
      congr 1
      exact List.map_congr_left fun x hx => (hos x (by simp [hx])).symm
    have hp : ((o :: os).flatMap Outcome.found).Perm (os.flatMap Outcome.found ++ o.found) := by
      rw [List.flatMap_cons]
      exact List.perm_append_comm
    have hq := hp.map (fun (x : Nat) => (x : ℚ))
    rw [mean_perm hq, variance_perm hq, List.map_append]
    simp only [stats]
    rw [ih, hlen, ← hos o (by simp), updateStats_spec]

/-- Hence the division into outcomes does not matter. -/
theorem C39_chunking {os os' : List Outcome} (hos : ∀ o ∈ os, o.found.length = o.pairs)
    (hos' : ∀ o ∈ os', o.found.length = o.pairs)
    (hp : (os.flatMap Outcome.found).Perm (os'.flatMap Outcome.found)) : (stats os).1 = (stats os').1 := by
  rw [C39_incremental_partial hos, C39_incremental_partial hos', mean_perm (hp.map _),
    variance_perm (hp.map _)]

/-- The numbers 1, 2, 3, and 4 have the mean 5/2 and the variance 5/4, one by one or in chunks. -/
example :
    stats [{ chosen := [], found := [4, 3], pairs := 2 }, { chosen := [], found := [], pairs := 0 },
      { chosen := [], found := [1, 2], pairs := 2 }] = ((5/2, 5/4), 4) ∧
    mean [1, 2, 3, 4] = 5/2 ∧ variance [1, 2, 3, 4] = 5/4 := by
  refine ⟨by decide +kernel, by norm_num [mean], by norm_num [mean, variance]⟩

/-- If one of two route-pairs has no path (Dijkstra reports nothing then), the mean is 1 or it is 1/2,
depending on the order and the chunks; three route-pairs of which one has no path may have the mean 1. -/
theorem C39_false_missing :
    (stats [{ chosen := [], found := [], pairs := 1 }, { chosen := [], found := [1], pairs := 1 }]).1.1 = 1 ∧
    (stats [{ chosen := [], found := [1], pairs := 1 }, { chosen := [], found := [], pairs := 1 }]).1.1 = 1/2 ∧
    (stats [{ chosen := [], found := [1], pairs := 2 }]).1.1 = 1/2 ∧
    (stats [{ chosen := [], found := [1], pairs := 2 },
      { chosen := [], found := [1], pairs := 1 }]).1.1 = 1 := by
  decide +kernel

/-- The same happens in a run of the balancer: two route-pairs without any other worker, and one of them
has no path. The schedule is the same, only the chunks differ. -/
theorem C39_false_balancer :
    let jobs : List Job := [{ src := 0, dst := 1, count := 1 }, { src := 0, dst := 2, count := 1 }]
    let runs (c : SizeCfg) (es : List Event) := (run
      (dijkstraWork codeHeap Dij.twoPartsGraph .dijkstra [1] 40) c Dij.twoPartsGraph 40
      (start c Dij.twoPartsGraph St.new 1 jobs false) es).map fun s => (s.phase, s.master.avg)
    runs sizeDefaults [.recv true 0, .work 0, .recv true 0, .exit 0, .joined, .disconnected] =
      some (.returned, 1/2) ∧
    runs { init := 1, plus := 1, minus := 1 } [.recv false 0, .work 0, .recv false 0, .work 0, .recv false 0,
      .exit 0, .joined, .disconnected] = some (.returned, 1) := by
  decide +kernel

/-- In a run of the balancer with workers that report one number per route-pair, mean and variance are
those of the results of all route-pairs. -/
theorem C39_system {σ : Type} {process : σ → Work → Option (R (σ × Outcome))} {c : SizeCfg} {g : Graph}
    {fuel n : Nat} {Ok : σ → Prop} {Rel : Job → Result → Prop} {jobs : List Job} {coll : Bool} {s₀ : σ}
    (hrel : Reliable process jobs Ok Rel) (hfl : Flattens g fuel Rel)
    (hcs : c.minus + c.plus ≤ usizeMax) (hm : 1 ≤ c.minus) (hok : Ok s₀) (hn : 1 ≤ n)
    (hone : ∀ j r, Rel j r → r.found.length = 1) {es : List Event} {s : Sys σ}
    (hr : run process c g fuel (start c g s₀ n jobs coll) es = some s) (hph : s.phase = .returned) :
    ∃ rs, List.Forall₂ Rel jobs rs ∧
      s.master.avg = mean ((rs.flatMap Result.found).map fun (x : Nat) => (x : ℚ)) ∧
      s.master.var = variance ((rs.flatMap Result.found).map fun (x : Nat) => (x : ℚ)) := by
  have hi := (inv_run hrel hfl hcs hm es _ s (inv_start hcs hok) hr).1
  obtain ⟨L, qs, h1, h2, -, -, -, -, -, h3⟩ := returned_spec hn hi hph
  obtain ⟨fs, h4, h5, h6⟩ := h3 (fun x hx => hone _ _ (h2 x hx))
  refine ⟨L.map Prod.snd, ?_, ?_, ?_⟩
  · rw [← h1]
    clear h1 h3 h4
    induction L with
    | nil => exact .nil
    | cons x L ih => exact .cons (h2 x (by simp)) (ih (fun y hy => h2 y (by simp [hy])))
  · rw [h5]
    exact mean_perm ((by simpa [allFound, List.flatMap_map] using h4 :
      fs.Perm ((L.map Prod.snd).flatMap Result.found)).map _)
  · rw [h6]
    exact variance_perm ((by simpa [allFound, List.flatMap_map] using h4 :
      fs.Perm ((L.map Prod.snd).flatMap Result.found)).map _)

end Verif.Par
