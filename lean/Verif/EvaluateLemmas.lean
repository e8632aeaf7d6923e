import Verif.EvaluateSpec
import Verif.PairsLemmas
import Verif.ParallelExploratorProps
import Verif.CsvProps

/-!
# Helpers for evaluations
-/

namespace Verif.Par

open Dij (Heap Algo St computeBestPath)

/-! ## More fuel -/

section
variable {h : Heap ℚ} {g : Graph} {algo : Algo} {alphas : List ℚ} {fuel fuel' : Nat}

theorem dijkstraJobs_mono (hf : fuel ≤ fuel') : ∀ (js : List Job) (s : St ℚ) (o : Outcome) {r : R (St ℚ × Outcome)},
    dijkstraJobs h g algo alphas fuel js s o = some r → dijkstraJobs h g algo alphas fuel' js s o = some r
  | [], _, _, _, hr => hr
  | j :: js, s, o, r, hr => by
    obtain ⟨k, hk⟩ := Nat.exists_eq_add_of_le hf
    rw [dijkstraJobs] at hr ⊢
    split at hr
    · rename_i src dst h1 h2
      cases hc : computeBestPath h dot fuel s (jobQuery g algo alphas src dst) with
      | none => rw [hc] at hr; cases hr
      | some x =>
        rw [hc] at hr
        have hm := Dij.compute_mono hc k
        rw [← hk] at hm
        rw [hm]
        cases x with
        | panic => exact hr
        | err e => exact e.elim
        | ok x =>
          dsimp only at hr ⊢
          cases hp : pushAnswer j.count x.2 o with
          | panic => rw [hp] at hr; exact hr
          | err e => rw [hp] at hr; exact hr
          | ok o' =>
            rw [hp] at hr
            exact dijkstraJobs_mono hf js _ _ hr
    · exact hr

theorem exploratorJobs_mono {die : Die} {b : Exp.Backend} {scales : List (Option ℚ)} (hf : fuel ≤ fuel') :
    ∀ (js : List Job) (s : St ℚ) (d : die.State) (o : Outcome) {r : R (St ℚ × Outcome)},
    exploratorJobs die h b g algo alphas scales fuel js s d o = some r →
    exploratorJobs die h b g algo alphas scales fuel' js s d o = some r
  | [], _, _, _, _, hr => hr
  | j :: js, s, d, o, r, hr => by
    rw [exploratorJobs] at hr ⊢
    split at hr
    · rename_i src dst h1 h2
      cases hc : Exp.fullyExplorate h dot b fuel s (jobQuery g algo alphas src dst) scales with
      | none => rw [hc] at hr; cases hr
      | some x =>
        rw [hc] at hr
        rw [Exp.fullyExplorate_mono hf hc]
        cases x with
        | panic => exact hr
        | err e => exact e.elim
        | ok x =>
          dsimp only at hr ⊢
          cases hp : pushFound die j.count x.2 d o with
          | panic => rw [hp] at hr; exact hr
          | err e => rw [hp] at hr; exact hr
          | ok o' =>
            rw [hp] at hr
            exact exploratorJobs_mono hf js _ _ _ hr
    · exact hr

theorem addPaths_mono (hf : fuel ≤ fuel') : ∀ (ps : List Path) (acc : List Nat × Option (List Path))
    {r : R (List Nat × Option (List Path))}, addPaths g fuel ps acc = some r → addPaths g fuel' ps acc = some r
  | [], _, _, hr => hr
  | p :: ps, (loads, paths), r, hr => by
    obtain ⟨k, hk⟩ := Nat.exists_eq_add_of_le hf
    rw [addPaths] at hr ⊢
    cases hc : Path.flatten g fuel p with
    | none => rw [hc] at hr; cases hr
    | some x =>
      rw [hc] at hr
      have hm := Path.flatten_mono hc k
      rw [← hk] at hm
      rw [hm]
      cases x with
      | panic => exact hr
      | err e => exact hr
      | ok q =>
        dsimp only at hr ⊢
        cases ha : addLoads loads q.edges with
        | panic => rw [ha] at hr; exact hr
        | err e => rw [ha] at hr; exact hr
        | ok l =>
          rw [ha] at hr
          exact addPaths_mono hf ps _ hr

theorem handle_mono {c : SizeCfg} {fast : Bool} {seed i : Nat} {o : Outcome} {m : Master} (hf : fuel ≤ fuel')
    {r : R (Master × Action)} (hr : handle c g fuel fast seed i o m = some r) :
    handle c g fuel' fast seed i o m = some r := by
  unfold handle at hr ⊢
  cases ha : adjustSize c fast i m.size with
  | panic => rw [ha] at hr; exact hr
  | err e => rw [ha] at hr; exact hr
  | ok size =>
    rw [ha] at hr
    dsimp only at hr ⊢
    cases hp : addPaths g fuel o.chosen (m.loads, m.paths) with
    | none => rw [hp] at hr; cases hr
    | some x =>
      rw [hp] at hr
      rw [addPaths_mono hf _ _ hp]
      exact hr

theorem run_mono {σ : Type} {p p' : σ → Work → Option (R (σ × Outcome))} {c : SizeCfg}
    (hp : ∀ s w r, p s w = some r → p' s w = some r) (hf : fuel ≤ fuel') : ∀ (es : List Event) {s s' : Sys σ},
    run p c g fuel s es = some s' → run p' c g fuel' s es = some s'
  | [], _, _, hr => hr
  | e :: es, s, s', hr => by
    rw [run, Option.bind_eq_some_iff] at hr ⊢
    obtain ⟨t, h1, h2⟩ := hr
    refine ⟨t, ?_, run_mono hp hf es h2⟩
    cases e with
    | work i =>
      simp only [step, stepWork] at h1 ⊢
      split at h1
      · rename_i w ws st hw
        cases hx : p st w with
        | none => rw [hx] at h1; cases h1
        | some x =>
          rw [hx] at h1
          rw [hp _ _ _ hx]
          exact h1
      · exact h1
    | exit i => exact h1
    | recv fast seed =>
      simp only [step, stepRecv] at h1 ⊢
      split at h1
      · rename_i i o ch hph hch
        cases hx : handle c g fuel fast seed i o s.master with
        | none => rw [hx] at h1; cases h1
        | some x =>
          rw [hx] at h1
          rw [handle_mono hf hx]
          exact h1
      · exact h1
    | joined => exact h1
    | disconnected => exact h1

end

end Verif.Par

namespace Verif.Session

open Text Gen Cfg
open Dij (Heap St computeBestPath Used)
open Par (RouterAnswers FlattensTo Flat Flattens Reliable DijRel ExpRel JobFinds)

theorem worker_mono {die : Par.Die} {w : World ℚ} {g : Graph} {rc : Yml.RoutingCfg} {fuel fuel' : Nat} (hf : fuel ≤ fuel')
    (s : St ℚ) (x : Par.Work) (r : Par.R (St ℚ × Par.Outcome)) (h : worker die w g rc fuel s x = some r) :
    worker die w g rc fuel' s x = some r := by
  unfold worker at h ⊢
  cases ha : rc.algo with
  | dijkstra => rw [ha] at h; exact Par.dijkstraJobs_mono hf _ _ _ h
  | chDijkstra => rw [ha] at h; exact Par.dijkstraJobs_mono hf _ _ _ h
  | explorator ch => rw [ha] at h; exact Par.exploratorJobs_mono hf _ _ _ _ h


/-- How the counted paths of a route-pair come about. -/
def By (w : World ℚ) (g : Graph) (rc : Yml.RoutingCfg) (x : Routes.Route × Report) (qs : List Path) : Prop :=
  match x.2 with
  | .nothing a b => a.id = x.1.src ∧ b.id = x.1.dst ∧ qs = []
  | .costs a b cs => a.id = x.1.src ∧ b.id = x.1.dst ∧ g.nodeId a.idx = .ok x.1.src ∧ g.nodeId b.idx = .ok x.1.dst ∧
      ∃ algo p q, RouterAnswers w.heap { src := a.idx, dst := b.idx, graph := g, algo, alphas := rc.routing.alphas } (some p) ∧
        FlattensTo g p q ∧ q.costs = some cs ∧ qs = List.replicate x.1.count q
  | .found a b ps => a.id = x.1.src ∧ b.id = x.1.dst ∧
      (∃ algo, JobFinds w.heap w.backend g algo rc.routing.alphas rc.routing.tolerances
        { src := x.1.src, dst := x.1.dst, count := x.1.count } ps) ∧
      qs.length = x.1.count ∧ ∀ q ∈ qs, ∃ p ∈ ps, FlattensTo g p q

section
variable {die : Par.Die} {w : World ℚ} {g : Graph} {rc : Yml.RoutingCfg} {f : Nat}

theorem nodeId_iff {i : Nat} {id : Int} : g.nodeId i = .ok id ↔ g.nodeIds[i]? = some id := by
  rw [Graph.nodeId, Res.ofIdx_eq_ok]

/-- One query of Dijkstra. -/
theorem best_facts {algo : Dij.Algo} {alphas : List ℚ} (hdot : w.dotp = dot) (hwf : g.WellFormed) {r : Routes.Route}
    {rep : Report} (h : queries g (best w f g algo alphas) St.new [r] = ([rep], some (.ok ⟨⟩))) :
    ∃ a b s' ans, g.nodeId a.idx = .ok r.src ∧ g.nodeId b.idx = .ok r.dst ∧ a.id = r.src ∧ b.id = r.dst ∧
      computeBestPath w.heap dot f St.new (Par.jobQuery g algo alphas a.idx b.idx) = some (.ok (s', ans)) ∧
      ((ans = none ∧ rep = .nothing a b) ∨ ∃ p q cs, ans = some p ∧ p.flatten g f = some (.ok q) ∧
        q.costs = some cs ∧ rep = .costs a b cs) := by
  obtain ⟨a, b, s', h1, h2, h3⟩ := (queries_one _ _ _).mp h
  obtain ⟨h4, h5⟩ := intoNode_ok hwf h1
  obtain ⟨h6, h7⟩ := intoNode_ok hwf h2
  unfold best at h3
  rw [hdot] at h3
  have hq : Par.jobQuery g algo alphas a.idx b.idx = { src := a.idx, dst := b.idx, graph := g, algo, alphas } := rfl
  rw [← hq] at h3
  cases hc : computeBestPath w.heap dot f St.new (Par.jobQuery g algo alphas a.idx b.idx) with
  | none => rw [hc] at h3; cases h3
  | some x =>
    rw [hc] at h3
    cases x with
    | err e => exact e.elim
    | panic => cases h3
    | ok x =>
      obtain ⟨s1, ans⟩ := x
      refine ⟨a, b, s1, ans, h4, h6, h5, h7, hc, ?_⟩
      cases ans with
      | none =>
        simp only [Option.some.injEq, Res.ok.injEq, Prod.mk.injEq] at h3
        exact .inl ⟨rfl, h3.1.symm⟩
      | some p =>
        right
        dsimp only at h3
        cases hf : p.flatten g f with
        | none => rw [hf] at h3; cases h3
        | some y =>
          rw [hf] at h3
          cases y with
          | err e => cases h3
          | panic => cases h3
          | ok q =>
            dsimp only at h3
            cases hg : q.getCosts with
            | err e => rw [hg] at h3; cases h3
            | panic => rw [hg] at h3; cases h3
            | ok c =>
              rw [hg] at h3
              simp only [Option.some.injEq, Res.ok.injEq, Prod.mk.injEq] at h3
              refine ⟨p, q, c, rfl, hf, ?_, h3.1.symm⟩
              unfold Path.getCosts at hg
              cases hq : q.costs with
              | none => rw [hq] at hg; cases hg
              | some c' => rw [hq] at hg; simpa using hg

/-- One query of the explorator. -/
theorem explore_facts {algo : Dij.Algo} {alphas : List ℚ} {scales : List (Option ℚ)} (hdot : w.dotp = dot)
    (hwf : g.WellFormed) {r : Routes.Route} {rep : Report}
    (h : queries g (explore w f g algo alphas scales) St.new [r] = ([rep], some (.ok ⟨⟩))) :
    ∃ a b s' ps, g.nodeId a.idx = .ok r.src ∧ g.nodeId b.idx = .ok r.dst ∧ a.id = r.src ∧ b.id = r.dst ∧
      Exp.fullyExplorate w.heap dot w.backend f St.new (Par.jobQuery g algo alphas a.idx b.idx) scales =
        some (.ok (s', ps)) ∧ rep = if ps = [] then .nothing a b else .found a b ps := by
  obtain ⟨a, b, s', h1, h2, h3⟩ := (queries_one _ _ _).mp h
  obtain ⟨h4, h5⟩ := intoNode_ok hwf h1
  obtain ⟨h6, h7⟩ := intoNode_ok hwf h2
  unfold explore at h3
  rw [hdot] at h3
  have hq : Par.jobQuery g algo alphas a.idx b.idx = { src := a.idx, dst := b.idx, graph := g, algo, alphas } := rfl
  rw [← hq] at h3
  cases hc : Exp.fullyExplorate w.heap dot w.backend f St.new (Par.jobQuery g algo alphas a.idx b.idx) scales with
  | none => rw [hc] at h3; cases h3
  | some x =>
    rw [hc] at h3
    cases x with
    | err e => exact e.elim
    | panic => cases h3
    | ok x =>
      obtain ⟨s1, ps⟩ := x
      simp only [Option.some.injEq, Res.ok.injEq, Prod.mk.injEq] at h3
      refine ⟨a, b, s1, ps, h4, h6, h5, h7, hc, ?_⟩
      rw [← h3.1]
      cases ps <;> simp

/-- What is known about the threads in the end. -/
def Fine (w : World ℚ) (g : Graph) (rc : Yml.RoutingCfg) (rs : List Routes.Route) (reps : List Report)
    (process : St ℚ → Par.Work → Option (Par.R (St ℚ × Par.Outcome))) (fuel : Nat) : Prop :=
  ∀ n coll es s, 1 ≤ n →
    Par.run process Par.sizeDefaults g fuel (Par.start Par.sizeDefaults g St.new n (jobsOf rs) coll) es = some s →
    es.length ≤ 2 * rs.length + 3 * n + 1 ∧
    ((∀ e, Par.step process Par.sizeDefaults g fuel s e = none) → s.phase = .returned) ∧
    s.phase ≠ .panicked ∧ s.phase ≠ .failed ∧
    (s.phase = .returned → ∃ picked, List.Forall₂ (By w g rc) (rs.zip reps) picked ∧
      s.master.loads.length = g.edgeCount ∧
      (∀ e, e < g.edgeCount → s.master.loads[e]? = some (Par.occurrences e picked.flatten)) ∧
      (coll = true → ∃ ps, s.master.paths = some ps ∧ ps.Perm picked.flatten))

/-- Workers that are reliable are fine. -/
theorem fine_of {process : St ℚ → Par.Work → Option (Par.R (St ℚ × Par.Outcome))} {fuel : Nat}
    {Rel : Par.Job → Par.Result → Prop} {rs : List Routes.Route} {reps : List Report}
    (hrel : Reliable process (jobsOf rs) (Used w.heap dot g.nodeCount) Rel) (hfl : Flattens g fuel Rel)
    (hlen : rs.length = reps.length)
    (hby : ∀ x ∈ rs.zip reps, ∀ res qs, Rel { src := x.1.src, dst := x.1.dst, count := x.1.count } res →
      Flat g fuel res.chosen qs → By w g rc x qs) : Fine w g rc rs reps process fuel := by
  intro n coll es s hn hrun
  have hcs : Par.sizeDefaults.minus + Par.sizeDefaults.plus ≤ Par.usizeMax := by decide
  have hm1 : 1 ≤ Par.sizeDefaults.minus := by decide
  have hp := Par.C37_progress hrel hfl hcs hm1 .new hrun
  refine ⟨?_, ?_, ?_, ?_, ?_⟩
  · have := Par.C37_terminates hrel hfl hcs hm1 .new hrun
    simpa [jobsOf] using this
  · intro hnone
    rcases hp with h | ⟨⟨e, he⟩, -⟩
    · exact h
    · exact absurd (hnone e) he
  · rcases hp with h | ⟨-, h, -⟩
    · rw [h]; simp
    · exact h
  · rcases hp with h | ⟨-, -, h⟩
    · rw [h]; simp
    · exact h
  · intro hph
    obtain ⟨res, qs, b1, b2, b3, b4, b5⟩ := Par.C37_every_pair_once hrel hfl hcs hm1 .new hn hrun hph
    obtain ⟨picked, c1, rfl⟩ : ∃ picked, List.Forall₂ (By w g rc) (rs.zip reps) picked ∧ qs = picked.flatten := by
      clear b3 b4 b5 hph hrun hrel hfl hp
      induction rs generalizing reps res qs with
      | nil =>
        cases b1
        cases b2
        exact ⟨[], .nil, rfl⟩
      | cons r rs ih =>
        match reps, hlen with
        | rep :: reps, hlen =>
          cases b1 with
          | @cons _ x _ xs hx hxs =>
            rw [List.flatMap_cons] at b2
            obtain ⟨q1, q2, c1, c2, rfl⟩ := Par.flat_append b2
            obtain ⟨ps, d1, rfl⟩ := ih (by simpa using hlen) (fun y hy => hby y (by simp [hy])) _ _ hxs c2
            exact ⟨q1 :: ps, .cons (hby _ (by simp) _ _ hx c1) d1, rfl⟩
    exact ⟨picked, c1, b3, b4, b5⟩

theorem flat_replicate {fuel : Nat} {p q : Path} (hq : p.flatten g fuel = some (.ok q)) : ∀ {k : Nat} {qs : List Path},
    Flat g fuel (List.replicate k p) qs → qs = List.replicate k q
  | 0, _, h => by cases h; rfl
  | k + 1, _, h => by
    rw [List.replicate_succ] at h
    cases h with
    | cons h1 h2 =>
      rw [hq] at h1
      simp only [Option.some.injEq, Res.ok.injEq] at h1
      rw [List.replicate_succ, flat_replicate hq h2, h1]

theorem flatten_le {fuel fuel' : Nat} (hf : fuel ≤ fuel') {p q : Path} (h : p.flatten g fuel = some (.ok q)) :
    p.flatten g fuel' = some (.ok q) := by
  obtain ⟨k, hk⟩ := Nat.exists_eq_add_of_le hf
  have := Path.flatten_mono h k
  rwa [← hk] at this

theorem compute_le {fuel fuel' : Nat} (hf : fuel ≤ fuel') {h : Heap ℚ} {q : Dij.Query ℚ} {s : St ℚ}
    {r : Dij.R (St ℚ × Option Path)} (hc : computeBestPath h dot fuel s q = some r) :
    computeBestPath h dot fuel' s q = some r := by
  obtain ⟨k, hk⟩ := Nat.exists_eq_add_of_le hf
  have := Dij.compute_mono hc k
  rwa [← hk] at this

theorem forall₂_zip {α β : Type} {R : α → β → Prop} : ∀ {l : List α} {l' : List β}, List.Forall₂ R l l' →
    ∀ x ∈ l.zip l', R x.1 x.2
  | _, _, .nil, x, hx => by cases hx
  | _, _, .cons h1 h2, x, hx => by
    rcases List.mem_cons.mp hx with rfl | hx
    · exact h1
    · exact forall₂_zip h2 x hx

theorem forall₂_left {α β : Type} {R : α → β → Prop} : ∀ {l : List α} {l' : List β}, List.Forall₂ R l l' →
    ∀ x ∈ l, ∃ y, R x y
  | _, _, .nil, x, hx => by cases hx
  | _, _, .cons h1 h2, x, hx => by
    rcases List.mem_cons.mp hx with rfl | hx
    · exact ⟨_, h1⟩
    · exact forall₂_left h2 x hx

/-- If routing with Dijkstra has finished, so does the work of the threads. -/
theorem fine_best {algo : Dij.Algo} (hdot : w.dotp = dot) (hwf : g.WellFormed) (h2 : g.nodeCount ≠ 2)
    {rs : List Routes.Route} {reps : List Report} (hc : ∀ r ∈ rs, 1 ≤ r.count)
    (hans : List.Forall₂ (fun r rep => queries g (best w f g algo rc.routing.alphas) St.new [r] = ([rep], some (.ok ⟨⟩)))
      rs reps) {fuel : Nat} (hf : f ≤ fuel) :
    Fine w g rc rs reps (Par.dijkstraWork w.heap g algo rc.routing.alphas fuel) fuel := by
  have hjob : ∀ j ∈ jobsOf rs, ∃ r ∈ rs, j = { src := r.src, dst := r.dst, count := r.count } := by
    intro j hj
    obtain ⟨r, hr, rfl⟩ := List.mem_map.mp hj
    exact ⟨r, hr, rfl⟩
  have hone := forall₂_left hans
  have henough : Par.EnoughFuel w.heap g algo rc.routing.alphas (jobsOf rs) fuel := by
    intro j hj src dst hs hd
    obtain ⟨r, hr, rfl⟩ := hjob j hj
    obtain ⟨rep, hrep⟩ := hone r hr
    obtain ⟨a, b, s', ans, h3, h4, -, -, h5, -⟩ := best_facts hdot hwf hrep
    obtain rfl := Routes.nodeIds_inj hwf (nodeId_iff.mp h3) hs
    obtain rfl := Routes.nodeIds_inj hwf (nodeId_iff.mp h4) hd
    exact ⟨s', ans, compute_le hf h5⟩
  have hrel := Par.dijkstra_reliable hwf h2 henough (by
    intro j hj
    obtain ⟨r, hr, rfl⟩ := hjob j hj
    obtain ⟨rep, hrep⟩ := hone r hr
    obtain ⟨a, b, s', ans, h3, h4, -⟩ := best_facts hdot hwf hrep
    exact ⟨List.mem_of_getElem? (nodeId_iff.mp h3), List.mem_of_getElem? (nodeId_iff.mp h4), hc r hr⟩)
  have hrel' : Reliable (Par.dijkstraWork w.heap g algo rc.routing.alphas fuel) (jobsOf rs) (Used w.heap dot g.nodeCount)
      (fun j r => j ∈ jobsOf rs ∧ DijRel w.heap g algo rc.routing.alphas j r) := by
    constructor
    intro st x hst hsub
    obtain ⟨s', o, l, a1, a2, a3, a4, a5⟩ := hrel.answers st x hst hsub
    refine ⟨s', o, l, a1, a2, a3, fun y hy => ⟨hsub _ ?_, a4 y hy⟩, a5⟩
    rw [← a3]
    exact List.mem_map_of_mem hy
  have hpath : ∀ r ∈ rs, ∀ rep, queries g (best w f g algo rc.routing.alphas) St.new [r] = ([rep], some (.ok ⟨⟩)) →
      ∀ res, DijRel w.heap g algo rc.routing.alphas { src := r.src, dst := r.dst, count := r.count } res →
      (∃ a b, a.id = r.src ∧ b.id = r.dst ∧ res.chosen = [] ∧ rep = .nothing a b) ∨
      ∃ a b p q cs, a.id = r.src ∧ b.id = r.dst ∧ g.nodeId a.idx = .ok r.src ∧ g.nodeId b.idx = .ok r.dst ∧
        RouterAnswers w.heap (Par.jobQuery g algo rc.routing.alphas a.idx b.idx) (some p) ∧
        p.flatten g fuel = some (.ok q) ∧ q.costs = some cs ∧ res.chosen = List.replicate r.count p ∧
        rep = .costs a b cs := by
    intro r hr rep hrep res hres
    obtain ⟨a, b, s', ans, h3, h4, h5, h6, h7, h8⟩ := best_facts hdot hwf hrep
    obtain ⟨src, dst, ans', e1, e2, e3, rfl⟩ := hres
    obtain rfl := Routes.nodeIds_inj hwf (nodeId_iff.mp h3) e1
    obtain rfl := Routes.nodeIds_inj hwf (nodeId_iff.mp h4) e2
    obtain rfl := Par.routerAnswers_unique e3 ⟨f, s', h7⟩
    rcases h8 with ⟨rfl, rfl⟩ | ⟨p, q, cs, rfl, h9, h10, rfl⟩
    · exact .inl ⟨a, b, h5, h6, rfl, rfl⟩
    · exact .inr ⟨a, b, p, q, cs, h5, h6, h3, h4, e3, flatten_le hf h9, h10, rfl, rfl⟩
  refine fine_of hrel' ?_ hans.length_eq ?_
  · rintro j res ⟨hj, hres⟩ p hp
    obtain ⟨r, hr, rfl⟩ := hjob j hj
    obtain ⟨rep, hrep⟩ := hone r hr
    rcases hpath r hr rep hrep res hres with ⟨a, b, -, -, h3, -⟩ | ⟨a, b, p', q, cs, -, -, -, -, -, h4, -, h5, -⟩
    · rw [h3] at hp; cases hp
    · rw [h5] at hp
      obtain rfl := List.eq_of_mem_replicate hp
      exact ⟨q, h4, Par.flattened_lt hwf h4⟩
  · rintro ⟨r, rep⟩ hx res qs ⟨-, hres⟩ hq
    have hrep := forall₂_zip hans _ hx
    rcases hpath r (List.of_mem_zip hx).1 rep hrep res hres with
      ⟨a, b, h3, h4, h5, rfl⟩ | ⟨a, b, p, q, cs, h3, h4, h5, h6, h7, h8, h9, h10, rfl⟩
    · rw [h5] at hq
      cases hq
      exact ⟨h3, h4, rfl⟩
    · rw [h10] at hq
      exact ⟨h3, h4, h5, h6, algo, p, q, h7, ⟨fuel, h8⟩, h9, flat_replicate h8 hq⟩

/-- The same for the explorator, if its paths can be flattened. -/
theorem fine_explore {ch : Bool} (hdie : die.InRange) (hdot : w.dotp = dot) (hwf : g.WellFormed) (h2 : g.nodeCount ≠ 2)
    {rs : List Routes.Route} {reps : List Report}
    (hflat : ∀ a b ps, .found a b ps ∈ reps → ∀ p ∈ ps, ∃ q, FlattensTo g p q)
    (hans : List.Forall₂ (fun r rep => queries g (explore w f g (below ch) rc.routing.alphas rc.routing.tolerances) St.new
      [r] = ([rep], some (.ok ⟨⟩))) rs reps) :
    ∃ N, ∀ fuel, N ≤ fuel → Fine w g rc rs reps (Par.exploratorWork die w.heap w.backend g (below ch) rc.routing.alphas
      rc.routing.tolerances fuel) fuel := by
  have hjob : ∀ j ∈ jobsOf rs, ∃ r ∈ rs, j = { src := r.src, dst := r.dst, count := r.count } := by
    intro j hj
    obtain ⟨r, hr, rfl⟩ := List.mem_map.mp hj
    exact ⟨r, hr, rfl⟩
  have hone : ∀ r ∈ rs, ∃ rep ∈ reps, queries g (explore w f g (below ch) rc.routing.alphas rc.routing.tolerances) St.new
      [r] = ([rep], some (.ok ⟨⟩)) := by
    clear hflat hjob
    induction hans with
    | nil => intro r hr; cases hr
    | cons h1 _ ih =>
      intro r hr
      rcases List.mem_cons.mp hr with rfl | hr
      · exact ⟨_, by simp, h1⟩
      · obtain ⟨rep, h3, h4⟩ := ih r hr
        exact ⟨rep, by simp [h3], h4⟩
  have hfind : ∀ r ∈ rs, ∀ rep, queries g (explore w f g (below ch) rc.routing.alphas rc.routing.tolerances) St.new
      [r] = ([rep], some (.ok ⟨⟩)) → ∃ a b ps, a.id = r.src ∧ b.id = r.dst ∧
        JobFinds w.heap w.backend g (below ch) rc.routing.alphas rc.routing.tolerances
          { src := r.src, dst := r.dst, count := r.count } ps ∧ rep = if ps = [] then .nothing a b else .found a b ps := by
    intro r hr rep hrep
    obtain ⟨a, b, s', ps, h3, h4, h5, h6, h7, h8⟩ := explore_facts hdot hwf hrep
    exact ⟨a, b, ps, h5, h6, ⟨a.idx, b.idx, f, s', nodeId_iff.mp h3, nodeId_iff.mp h4, h7⟩, h8⟩
  obtain ⟨N₁, hN₁⟩ := Par.enough_exp (h := w.heap) (b := w.backend) (g := g) (algo := below ch) (alphas := rc.routing.alphas)
    (scales := rc.routing.tolerances) (jobs := jobsOf rs) (by
      intro j hj
      obtain ⟨r, hr, rfl⟩ := hjob j hj
      obtain ⟨rep, -, hrep⟩ := hone r hr
      obtain ⟨a, b, ps, -, -, h3, -⟩ := hfind r hr rep hrep
      exact ⟨ps, h3⟩)
  obtain ⟨N₂, hN₂⟩ := Par.enough_flat_exp (h := w.heap) (b := w.backend) (algo := below ch) (alphas := rc.routing.alphas)
    (scales := rc.routing.tolerances) (jobs := jobsOf rs) hwf (by
      intro j hj ps' hps p hp
      obtain ⟨r, hr, rfl⟩ := hjob j hj
      obtain ⟨rep, hm, hrep⟩ := hone r hr
      obtain ⟨a, b, ps, -, -, h3, h4⟩ := hfind r hr rep hrep
      obtain rfl := Par.jobFinds_unique hwf h3 hps
      rw [if_neg (List.ne_nil_of_mem hp)] at h4
      exact hflat a b ps (h4 ▸ hm) p hp)
  refine ⟨max N₁ N₂, fun fuel hf => fine_of (Par.explorator_reliable hdie hwf h2 (hN₁ fuel (by omega))) ?_ hans.length_eq ?_⟩
  · rintro j r ⟨hj, ps, hfind, -, -, hc⟩ p hp
    obtain ⟨q, hq⟩ := hN₂ fuel (by omega) j hj ps hfind p (hc p hp)
    exact ⟨q, hq, Par.flattened_lt hwf hq⟩
  · rintro ⟨r, rep⟩ hx res qs ⟨-, ps', h3, -, h4, h5⟩ hq
    obtain ⟨a, b, ps, h6, h7, h8, h9⟩ := hfind r (List.of_mem_zip hx).1 rep (forall₂_zip hans _ hx)
    obtain rfl := Par.jobFinds_unique hwf h3 h8
    have hlen := Par.flat_length hq
    by_cases hps : ps' = []
    · rw [if_pos hps] at h9 h4
      rw [h4, List.length_eq_zero_iff] at hlen
      subst h9
      exact ⟨h6, h7, hlen⟩
    · rw [if_neg hps] at h9 h4
      subst h9
      refine ⟨h6, h7, ⟨below ch, h3⟩, by rw [hlen, h4], fun q hq' => ?_⟩
      obtain ⟨p, hp, hpq⟩ := Par.flat_mem hq q hq'
      exact ⟨p, h5 p hp, hpq⟩

/-- If routing has finished, so does the work of the threads. -/
theorem fine_answers (hdie : die.InRange) (hdot : w.dotp = dot) (hwf : g.WellFormed) (h2 : g.nodeCount ≠ 2)
    {rs : List Routes.Route} {reps : List Report} (hc : ∀ r ∈ rs, 1 ≤ r.count)
    (hflat : ∀ a b ps, .found a b ps ∈ reps → ∀ p ∈ ps, ∃ q, FlattensTo g p q)
    (hans : answers w f g rc rs = (reps, some (.ok ⟨⟩))) :
    ∃ N, ∀ fuel, N ≤ fuel → Fine w g rc rs reps (worker die w g rc fuel) fuel := by
  have hi := (C89_independent (w := w) (fuel := f) (g := g) (rc := rc) rs reps).mp hans
  unfold worker
  unfold answers at hi
  cases ha : rc.algo with
  | dijkstra =>
    simp only [ha] at hi
    exact ⟨f, fun fuel hf => fine_best hdot hwf h2 hc hi hf⟩
  | chDijkstra =>
    simp only [ha] at hi
    exact ⟨f, fun fuel hf => fine_best hdot hwf h2 hc hi hf⟩
  | explorator ch =>
    simp only [ha] at hi
    exact fine_explore hdie hdot hwf h2 hflat hi

end

end Verif.Session
