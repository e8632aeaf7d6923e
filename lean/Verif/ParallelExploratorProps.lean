import Verif.ParallelExploratorLemmas

/-!
# Properties of exploring and balancing with the explorator (C65, C66)
-/

namespace Verif.Par

open Dij (Heap Algo Used AllCovered NonnegMetrics St codeHeap)

/-! ## C65 -/

section
variable {K : Type} [LinearOrder K] [Zero K] [Add K] {h : Heap K} {dotp : List ℚ → List ℚ → K}
  {b : Exp.Backend} {fuel n : Nat} {q : Dij.Query K} {scales : List (Option ℚ)} {s : St K}

/-- Which alternative routes are found does not depend on what the router has been used for before. The
same holds for panics and for how much fuel is needed. Nothing is assumed about triangulation and solver.
Partial: Former graphs must not be larger, and the graph must not have exactly two nodes, see
`C65_false_smaller_graph` and `C65_false_two_nodes`. -/
theorem C65_reuse_partial (hu : Used h dotp n s) (hn : n ≤ q.graph.nodeCount)
    (h2 : q.graph.nodeCount ≠ 2) :
    (Exp.fullyExplorate h dotp b fuel s q scales).map (fun r => r.bind fun x => Res.ok x.2) =
      (Exp.fullyExplorate h dotp b fuel St.new q scales).map (fun r => r.bind fun x => Res.ok x.2) := by
  have hsim := Exp.fullyExplorate_sim (b := b) (fuel := fuel) (scales := scales) (q := q) rfl h2
    (hu.mono hn) (.new (n := q.graph.nodeCount))
  generalize Exp.fullyExplorate h dotp b fuel s q scales = x at hsim
  generalize Exp.fullyExplorate h dotp b fuel St.new q scales = y at hsim
  cases hsim with
  | none => rfl
  | panic => rfl
  | ok he => simp [Res.bind, he.2.2]

end

/-- A router that has answered a query on the sample graph meets the hypotheses. -/
example : ∃ s p, Dij.computeBestPath codeHeap dot 30 St.new Exp.altQuery = some (.ok (s, some p)) ∧
    Used codeHeap dot Exp.altGraph.nodeCount s ∧ Exp.altGraph.nodeCount ≠ 2 := by
  have he : Dij.answer (Dij.computeBestPath codeHeap dot 30 St.new Exp.altQuery) =
      some (.ok (some { srcIdx := 0, dstIdx := 5, srcId := 0, dstId := 5, edges := [2, 6], costs := none })) := by
    decide +kernel
  cases hc : Dij.computeBestPath codeHeap dot 30 St.new Exp.altQuery with
  | none => rw [hc] at he; cases he
  | some r =>
    cases r with
    | err e => exact e.elim
    | panic => rw [hc] at he; cases he
    | ok x =>
      obtain ⟨s, ans⟩ := x
      rw [hc] at he
      simp only [Dij.answer, Option.map_some, Res.ok_bind, Res.pure_eq, Option.some.injEq, Res.ok.injEq] at he
      subst he
      exact ⟨s, _, rfl, .query .new le_rfl hc, by decide +kernel⟩

/-- What is explored from node 0 to `dst`, if the router is in this state. -/
def explored (s : St ℚ) (g : Graph) (dst : Nat) : Option (Dij.R (List Path)) :=
  (Exp.fullyExplorate codeHeap dot Exp.listBackend 60 s
    { src := 0, dst, graph := g, algo := .dijkstra, alphas := [1] } [none]).map fun r => r.bind fun x => Res.ok x.2

/-- C65 is false for graphs with exactly two nodes: a new router panics, one that has answered a query doesn't. -/
theorem C65_false_two_nodes : Used codeHeap dot 4 (Dij.sqUsed .dijkstra 0 0) ∧
    explored (Dij.sqUsed .dijkstra 0 0) Dij.twoNodesGraph 1 =
      some (.ok [{ Path.new 0 0 1 1 [0] with costs := some [1] }]) ∧
    explored St.new Dij.twoNodesGraph 1 = some .panic :=
  ⟨Dij.after_used .new (by decide +kernel) (by decide +kernel), by decide +kernel, by decide +kernel⟩

/-- C65 is false if a former graph was larger: then the router panics. -/
theorem C65_false_smaller_graph : Used codeHeap dot 4 (Dij.sqUsed .dijkstra 0 3) ∧
    explored (Dij.sqUsed .dijkstra 0 3) Dij.circle3Graph 2 = some .panic ∧
    explored St.new Dij.circle3Graph 2 = some (.ok [{ Path.new 0 0 2 2 [0, 1] with costs := some [2] }]) :=
  ⟨Dij.after_used .new (by decide +kernel) (by decide +kernel), by decide +kernel, by decide +kernel⟩

/-! ## C66 -/

section
variable {die : Die} {h : Heap ℚ} {b : Exp.Backend} {g : Graph} {algo : Algo} {alphas : List ℚ}
  {scales : List (Option ℚ)} {jobs : List Job}

theorem jobFinds_of {coords : b.Tri → Nat → Option (List ℚ)} {size : b.Tri → Nat}
    (hb : Exp.Regular b coords size) (hl : Exp.Lower b coords size)
    (hwf : g.WellFormed) (hd : g.DimOk) (hm : NonnegMetrics g) (halg : algo ≠ .explorator)
    (hcov : AllCovered g) (h2 : g.nodeCount ≠ 2) (hdim : g.dim < 32) (hal : alphas.length = g.dim)
    (hsc : scales.length = g.dim) {j : Job} (hs : j.src ∈ g.nodeIds) (ht : j.dst ∈ g.nodeIds) :
    ∃ routes, JobFinds h b g algo alphas scales j routes := by
  obtain ⟨src, hs⟩ := List.getElem?_of_mem hs
  obtain ⟨dst, ht⟩ := List.getElem?_of_mem ht
  obtain ⟨N, s', res, hN⟩ := Exp.C64_ends_partial (h := h) (dotp := dot) (n := 0) (s := St.new)
    (q := { src, dst, graph := g, algo, alphas }) (scales := scales) hb hl hwf Search.addOk_rat hd
    (fun al hal => Dij.weights_nonneg hal hm) halg hcov h2 (lt_of_getElem? hs) (lt_of_getElem? ht) .new
    (Nat.zero_le _) hdim hal hsc
  exact ⟨res, src, dst, N, s', hs, ht, hN N le_rfl⟩

/-- The balancer with the explorator ends with every schedule. Every route-pair contributes exactly
`count` of its alternative routes to the workloads (none, if there is no route), and mean and variance
are those of the numbers of alternative routes. Which alternative routes a route-pair has depends neither
on the number of threads nor on the schedule.
Partial: As for `C37_dijkstra_partial`, all nodes must be accessible, the graph must not have exactly two
nodes, and the routes must be flattenable. As for `C64_ends_partial`, only cells of the lower convex hull
are allowed. The random numbers must be in their range. Which of the routes are chosen does depend on the
schedule, see `C66_false_schedule`. -/
theorem C66_explorator_partial {coords : b.Tri → Nat → Option (List ℚ)} {size : b.Tri → Nat}
    (hb : Exp.Regular b coords size) (hl : Exp.Lower b coords size) (hdie : die.InRange)
    (hwf : g.WellFormed) (hd : g.DimOk) (hm : NonnegMetrics g) (halg : algo ≠ .explorator)
    (hcov : AllCovered g) (h2 : g.nodeCount ≠ 2) (hdim : g.dim < 32) (hal : alphas.length = g.dim)
    (hsc : scales.length = g.dim) (hjobs : ∀ j ∈ jobs, j.src ∈ g.nodeIds ∧ j.dst ∈ g.nodeIds)
    (hflat : ∀ j ∈ jobs, ∀ routes, JobFinds h b g algo alphas scales j routes →
      ∀ p ∈ routes, ∃ q, FlattensTo g p q) :
    ∃ routes N, List.Forall₂ (JobFinds h b g algo alphas scales) jobs routes ∧
      ∀ fuel n coll es s, N ≤ fuel → 1 ≤ n →
        run (exploratorWork die h b g algo alphas scales fuel) sizeDefaults g fuel
          (start sizeDefaults g St.new n jobs coll) es = some s →
        es.length ≤ 2 * jobs.length + 3 * n + 1 ∧
        ((∀ e, step (exploratorWork die h b g algo alphas scales fuel) sizeDefaults g fuel s e = none) →
          s.phase = .returned) ∧
        (s.phase = .returned →
          (∃ picked, List.Forall₂ (fun (x : Job × List Path) qs => Picks g x.1.count x.2 qs)
              (jobs.zip routes) picked ∧ s.master.loads.length = g.edgeCount ∧
            (∀ e, e < g.edgeCount → s.master.loads[e]? = some (occurrences e picked.flatten)) ∧
            (coll = true → ∃ ps, s.master.paths = some ps ∧ ps.Perm picked.flatten)) ∧
          s.master.avg = mean (routes.map fun l => (l.length : ℚ)) ∧
          s.master.var = variance (routes.map fun l => (l.length : ℚ))) := by
  have hall : ∀ j ∈ jobs, ∃ routes, JobFinds h b g algo alphas scales j routes := fun j hj =>
    jobFinds_of hb hl hwf hd hm halg hcov h2 hdim hal hsc (hjobs j hj).1 (hjobs j hj).2
  obtain ⟨N₁, hN₁⟩ := enough_exp hall
  obtain ⟨N₂, hN₂⟩ := enough_flat_exp hwf hflat
  obtain ⟨routes, hr⟩ : ∃ routes, List.Forall₂ (JobFinds h b g algo alphas scales) jobs routes := by
    clear hN₁ hN₂ hflat hjobs
    induction jobs with
    | nil => exact ⟨[], .nil⟩
    | cons j js ih =>
      obtain ⟨r, hr⟩ := hall j (by simp)
      obtain ⟨rs, hrs⟩ := ih (fun x hx => hall x (by simp [hx]))
      exact ⟨r :: rs, .cons hr hrs⟩
  refine ⟨routes, max N₁ N₂, hr, fun fuel n coll es s hf hn hrun => ?_⟩
  have hrel := explorator_reliable hdie hwf h2 (hN₁ fuel (by omega))
  have hfl : Flattens g fuel (fun j r => j ∈ jobs ∧ ExpRel h b g algo alphas scales j r) := by
    rintro j r ⟨hj, rs, hfind, -, -, hc⟩ p hp
    obtain ⟨q, hq⟩ := hN₂ fuel (by omega) j hj rs hfind p (hc p hp)
    exact ⟨q, hq, flattened_lt hwf hq⟩
  have hcs : sizeDefaults.minus + sizeDefaults.plus ≤ usizeMax := by decide
  have hm1 : 1 ≤ sizeDefaults.minus := by decide
  refine ⟨C37_terminates hrel hfl hcs hm1 .new hrun, ?_, fun hph => ⟨?_, ?_⟩⟩
  · intro hnone
    rcases C37_progress hrel hfl hcs hm1 .new hrun with h | ⟨⟨e, he⟩, -⟩
    · exact h
    · exact absurd (hnone e) he
  · obtain ⟨rs, qs, b1, b2, b3, b4, b5⟩ := C37_every_pair_once hrel hfl hcs hm1 .new hn hrun hph
    replace b1 : List.Forall₂ (ExpRel h b g algo alphas scales) jobs rs := b1.imp (fun _ _ hx => hx.2)
    obtain ⟨picked, c1, rfl⟩ : ∃ picked, List.Forall₂
        (fun (x : Job × List Path) qs => Picks g x.1.count x.2 qs) (jobs.zip routes) picked ∧
        qs = picked.flatten := by
      clear b3 b4 b5 hph hrun hrel hfl hjobs hN₁ hN₂ hall hflat
      induction b1 generalizing qs routes with
      | nil => cases hr; cases b2; exact ⟨[], .nil, rfl⟩
      | @cons j r js rs hjr _ ih =>
        cases hr with
        | @cons _ l _ ls hjl hls =>
        rw [List.flatMap_cons] at b2
        obtain ⟨q1, q2, c1, c2, rfl⟩ := flat_append b2
        obtain ⟨ps, d1, rfl⟩ := ih _ hls _ c2
        obtain ⟨l', e1, -, e2, e3⟩ := hjr
        obtain rfl := jobFinds_unique hwf hjl e1
        refine ⟨q1 :: ps, .cons ⟨by rw [flat_length c1, e2], fun q hq => ?_⟩ d1, rfl⟩
        obtain ⟨p, hp, hq⟩ := flat_mem c1 q hq
        exact ⟨p, e3 p hp, hq⟩
    exact ⟨picked, c1, b3, b4, b5⟩
  · obtain ⟨rs, b1, b2, b3⟩ := C39_system hrel hfl hcs hm1 .new hn
      (fun j r hx => by obtain ⟨-, l, -, h1, -⟩ := hx; rw [h1]; rfl) hrun hph
    have : (rs.flatMap Result.found).map (fun (x : Nat) => (x : ℚ)) =
        routes.map fun l => (l.length : ℚ) := by
      replace b1 : List.Forall₂ (ExpRel h b g algo alphas scales) jobs rs := b1.imp (fun _ _ hx => hx.2)
      clear b2 b3 hph hrun hrel hfl hjobs hN₁ hN₂ hall hflat
      induction b1 generalizing routes with
      | nil => cases hr; rfl
      | @cons j r js rs hjr _ ih =>
        cases hr with
        | @cons _ l _ ls hjl hls =>
        obtain ⟨l', e1, e2, -⟩ := hjr
        obtain rfl := jobFinds_unique hwf hjl e1
        rw [List.flatMap_cons, List.map_append, ih _ hls, e2]
        rfl
    rw [b2, b3, this]
    exact ⟨rfl, rfl⟩

/-- Alternative routes are routes of their route-pair. -/
theorem C66_route (hwf : g.WellFormed) (hd : g.DimOk) (hm : NonnegMetrics g) {j : Job} {routes : List Path}
    (hj : JobFinds h b g algo alphas scales j routes) : ∃ src dst, g.nodeIds[src]? = some j.src ∧
      g.nodeIds[dst]? = some j.dst ∧ ∀ p ∈ routes, g.IsRoute src p.edges dst := by
  obtain ⟨src, dst, fuel, s', hs, ht, hc⟩ := hj
  refine ⟨src, dst, hs, ht, fun p hp => ?_⟩
  exact (Exp.C46_route (q := { src, dst, graph := g, algo, alphas }) hwf Search.addOk_rat hd
    (fun al hal => Dij.weights_nonneg hal hm) (lt_of_getElem? hs) (lt_of_getElem? ht)
    (.new (n := 0)) hc hp).1

/-- The hypothesis on flattening of `C66_explorator_partial` holds for graphs without shortcuts. -/
theorem C66_flattens_plain (hwf : g.WellFormed) (hd : g.DimOk) (hm : NonnegMetrics g)
    (hp : ∀ e, e < g.edgeCount → g.scEdgesOf e = .ok none) {j : Job} {routes : List Path}
    (hj : JobFinds h b g algo alphas scales j routes) :
    ∀ p ∈ routes, ∃ q, FlattensTo g p q ∧ q.edges = p.edges := by
  intro p hpm
  obtain ⟨src, dst, -, -, hr⟩ := C66_route hwf hd hm hj
  have hl := isRoute_lt (hr p hpm)
  exact plain_flattens hwf hl (fun e he => hp e (hl e he))

end

/-- A simple die. -/
def modDie : Die := { State := Nat, seed := fun x => x, sample := fun n r => (r % n, r / n) }

theorem modDie_inRange : modDie.InRange := fun _ r hn => Nat.mod_lt r hn

/-- Route-pairs of the sample graph; the second one is routed three times. -/
def altJobs : List Job := [{ src := 0, dst := 0, count := 2 }, { src := 0, dst := 5, count := 3 }]

/-- The theorem applies to the sample. -/
example : ∃ routes N, List.Forall₂
      (JobFinds codeHeap Exp.lowerBackend Exp.altGraph .dijkstra [1, 1] [none, some 2]) altJobs routes ∧
    ∀ fuel n coll es s, N ≤ fuel → 1 ≤ n →
      run (exploratorWork modDie codeHeap Exp.lowerBackend Exp.altGraph .dijkstra [1, 1] [none, some 2] fuel)
        sizeDefaults Exp.altGraph fuel (start sizeDefaults Exp.altGraph St.new n altJobs coll) es = some s →
      s.phase = .returned → s.master.avg = mean (routes.map fun l => (l.length : ℚ)) := by
  obtain ⟨routes, N, h1, h2⟩ := C66_explorator_partial (h := codeHeap) (algo := .dijkstra) (alphas := [1, 1])
    (scales := [none, some 2]) (jobs := altJobs) Exp.lower_regular Exp.lower_lower modDie_inRange Exp.alt_wf
    Exp.alt_dim Exp.alt_nonneg (by decide) Exp.alt_covered (by decide +kernel) (by decide +kernel)
    (by decide +kernel) (by decide +kernel) (by decide +kernel) (fun j _ routes hj p hp => by
      obtain ⟨q, hq, -⟩ := C66_flattens_plain Exp.alt_wf Exp.alt_dim Exp.alt_nonneg (by decide +kernel) hj p hp
      exact ⟨q, hq⟩)
  exact ⟨routes, N, h1, fun fuel n coll es s hf hn hr hph => ((h2 fuel n coll es s hf hn hr).2.2 hph).2.1⟩

/-- Four alternative routes of one route-pair and one of the other; three random ones are chosen. -/
example :
    (run (exploratorWork modDie codeHeap Exp.lowerBackend Exp.altGraph .dijkstra [1, 1] [none, none] 30)
      sizeDefaults Exp.altGraph 30 (start sizeDefaults Exp.altGraph St.new 1 altJobs false)
      [.recv true 27, .work 0, .recv false 0, .exit 0, .joined, .disconnected]).map
        (fun s => (s.phase, s.master.loads, s.master.avg, s.master.var)) =
      some (.returned, [0, 1, 1, 1, 0, 1, 1, 1, 0], 5 / 2, 9 / 4) := by
  decide +kernel

/-- The workloads depend on the schedule: with the same random numbers `0, 1, ..` of the master, it matters
for 41 route-pairs whether the worker's first message is received fast. The first chunk has size 80 or 40. -/
theorem C66_false_schedule :
    let jobs := List.replicate 40 { src := 0, dst := 0, count := 0 } ++ [{ src := 0, dst := 5, count := 1 }]
    let sys := start sizeDefaults Exp.altGraph St.new 1 jobs false
    let process := exploratorWork modDie codeHeap Exp.lowerBackend Exp.altGraph .dijkstra [1, 1] [none, none] 30
    outside (run process sizeDefaults Exp.altGraph 30 sys
      [.recv true 0, .work 0, .recv false 1, .exit 0, .joined, .disconnected]) =
      some (.returned, [1, 0, 0, 0, 1, 0, 0, 0, 0]) ∧
    outside (run process sizeDefaults Exp.altGraph 30 sys
      [.recv false 0, .work 0, .recv false 1, .work 0, .recv false 2, .exit 0, .joined, .disconnected]) =
      some (.returned, [0, 1, 0, 0, 0, 1, 0, 0, 0]) := by
  decide +kernel

end Verif.Par
