import Verif.ParallelExploratorSpec
import Verif.ParallelProps
import Verif.ExploratingReuse
import Verif.ExploratingHullProps

/-!
# The workers that use the explorator are reliable
-/

namespace Verif.Par

open Dij (Heap Algo Used AllCovered NonnegMetrics St computeBestPath)

section
variable {die : Die} {h : Heap ℚ} {b : Exp.Backend} {g : Graph} {algo : Algo} {alphas : List ℚ}
  {scales : List (Option ℚ)}

/-- What may come out for a route-pair. -/
def ExpRel (h : Heap ℚ) (b : Exp.Backend) (g : Graph) (algo : Algo) (alphas : List ℚ)
    (scales : List (Option ℚ)) (j : Job) (r : Result) : Prop :=
  ∃ routes, JobFinds h b g algo alphas scales j routes ∧ r.found = [routes.length] ∧
    r.chosen.length = (if routes = [] then 0 else j.count) ∧ ∀ p ∈ r.chosen, p ∈ routes

theorem jobFinds_unique (hwf : g.WellFormed) {j : Job} {x y : List Path}
    (hx : JobFinds h b g algo alphas scales j x) (hy : JobFinds h b g algo alphas scales j y) : x = y := by
  obtain ⟨src, dst, f1, s1, hs, hd, h1⟩ := hx
  obtain ⟨src', dst', f2, s2, hs', hd', h2⟩ := hy
  have e1 := (idxFrom_eq_ok_iff hwf.ids_sorted).mpr hs
  rw [(idxFrom_eq_ok_iff hwf.ids_sorted).mpr hs'] at e1
  have e2 := (idxFrom_eq_ok_iff hwf.ids_sorted).mpr hd
  rw [(idxFrom_eq_ok_iff hwf.ids_sorted).mpr hd'] at e2
  simp only [Except.ok.injEq] at e1 e2
  subst e1 e2
  have a := Exp.fullyExplorate_mono (le_max_left f1 f2) h1
  rw [Exp.fullyExplorate_mono (le_max_right f1 f2) h2] at a
  simp only [Option.some.injEq, Res.ok.injEq, Prod.mk.injEq] at a
  exact a.2.symm

theorem choosePaths_ok (hdie : die.InRange) {found : List Path} (hne : 1 ≤ found.length) :
    ∀ (k : Nat) (r : die.State), ∃ ps r', choosePaths die found k r = .ok (ps, r') ∧ ps.length = k ∧
      ∀ p ∈ ps, p ∈ found
  | 0, r => ⟨[], r, rfl, rfl, by intro _ h; cases h⟩
  | k + 1, r => by
    obtain ⟨ps, r', h1, h2, h3⟩ := choosePaths_ok hdie hne k (die.sample found.length r).2
    have hlt := hdie found.length r hne
    refine ⟨found[(die.sample found.length r).1] :: ps, r', ?_, by simp [h2], ?_⟩
    · simp only [choosePaths, List.getElem?_eq_getElem hlt, Res.ofIdx, Res.ok_bind, h1, Res.pure_eq]
    · intro p hp
      rcases List.mem_cons.mp hp with rfl | hp
      · exact List.getElem_mem hlt
      · exact h3 p hp

theorem pushFound_ok (hdie : die.InRange) (count : Nat) (found : List Path) (r : die.State)
    (o : Outcome) : ∃ ps r', pushFound die count found r o =
      .ok ({ o with chosen := o.chosen ++ ps, found := o.found ++ [found.length] }, r') ∧
      ps.length = (if found = [] then 0 else count) ∧ ∀ p ∈ ps, p ∈ found := by
  unfold pushFound
  cases found with
  | nil => exact ⟨[], r, by simp, by simp, by simp⟩
  | cons x xs =>
    obtain ⟨ps, r', h1, h2, h3⟩ := choosePaths_ok hdie (found := x :: xs) (by simp) count r
    refine ⟨ps, r', ?_, by simp [h2], h3⟩
    rw [if_pos (by simp), h1]
    rfl

/-- The fuel is enough for a new explorator to answer all route-pairs. -/
def EnoughExp (h : Heap ℚ) (b : Exp.Backend) (g : Graph) (algo : Algo) (alphas : List ℚ)
    (scales : List (Option ℚ)) (jobs : List Job) (fuel : Nat) : Prop :=
  ∀ j ∈ jobs, ∃ (src dst : Nat) (s' : St ℚ) (routes : List Path), g.nodeIds[src]? = some j.src ∧
    g.nodeIds[dst]? = some j.dst ∧
    Exp.fullyExplorate h dot b fuel St.new (jobQuery g algo alphas src dst) scales = some (.ok (s', routes))

theorem enough_exp {jobs : List Job}
    (hj : ∀ j ∈ jobs, ∃ routes, JobFinds h b g algo alphas scales j routes) :
    ∃ N, ∀ fuel, N ≤ fuel → EnoughExp h b g algo alphas scales jobs fuel := by
  induction jobs with
  | nil => exact ⟨0, fun _ _ j hj => by cases hj⟩
  | cons j jobs ih =>
    obtain ⟨N, hN⟩ := ih (fun x hx => hj x (by simp [hx]))
    obtain ⟨routes, src, dst, M, s', hs, hd, hM⟩ := hj j (by simp)
    refine ⟨max N M, fun fuel hf j' hj' => ?_⟩
    rcases List.mem_cons.mp hj' with rfl | hj'
    · exact ⟨src, dst, s', routes, hs, hd, Exp.fullyExplorate_mono (by omega) hM⟩
    · exact hN fuel (by omega) j' hj'

theorem exploratorJobs_ok (hdie : die.InRange) (hwf : g.WellFormed) (h2 : g.nodeCount ≠ 2)
    {fuel : Nat} : ∀ (js : List Job), EnoughExp h b g algo alphas scales js fuel →
    ∀ (s : St ℚ) (r : die.State) (o : Outcome), Used h dot g.nodeCount s →
    ∃ s' l, Used h dot g.nodeCount s' ∧ l.map Prod.fst = js ∧
      (∀ x ∈ l, ExpRel h b g algo alphas scales x.1 x.2) ∧
      exploratorJobs die h b g algo alphas scales fuel js s r o = some (.ok (s', { o with
        chosen := o.chosen ++ allChosen l, found := o.found ++ allFound l }))
  | [], _, s, r, o, hu => ⟨s, [], hu, rfl, by simp, by simp [exploratorJobs, allChosen, allFound]⟩
  | j :: js, hf, s, r, o, hu => by
    obtain ⟨src, dst, s1, routes, hs, hd, hc⟩ := hf j (by simp)
    have hsim := Exp.fullyExplorate_sim (h := h) (dotp := dot) (b := b) (fuel := fuel) (scales := scales)
      (q := jobQuery g algo alphas src dst) (n := g.nodeCount) rfl h2 hu (.new (h := h) (dotp := dot))
    rw [hc] at hsim
    obtain ⟨s2, hc2, hu2⟩ : ∃ s2, Exp.fullyExplorate h dot b fuel s (jobQuery g algo alphas src dst) scales =
        some (.ok (s2, routes)) ∧ Used h dot g.nodeCount s2 := by
      generalize Exp.fullyExplorate h dot b fuel s (jobQuery g algo alphas src dst) scales = x at hsim
      cases hsim with
      | @ok a _ he =>
        obtain ⟨s2, routes'⟩ := a
        obtain ⟨h1, -, h3⟩ := he
        exact ⟨s2, by simp only at h3; rw [h3], h1⟩
    obtain ⟨ps, r', hp, hl, hm⟩ := pushFound_ok hdie j.count routes r o
    obtain ⟨s', l, h1, h3, h4, h5⟩ := exploratorJobs_ok hdie hwf h2 js
      (fun j' hj' => hf j' (by simp [hj'])) s2 r'
      { o with chosen := o.chosen ++ ps, found := o.found ++ [routes.length] } hu2
    refine ⟨s', (j, ⟨ps, [routes.length]⟩) :: l, h1, by rw [List.map_cons, h3], ?_, ?_⟩
    · intro x hx
      rcases List.mem_cons.mp hx with rfl | hx
      · exact ⟨routes, ⟨src, dst, fuel, s1, hs, hd, hc⟩, rfl, hl, hm⟩
      · exact h4 x hx
    · rw [exploratorJobs]
      simp only [nodeIdxOf_ok hwf hs, nodeIdxOf_ok hwf hd, hc2, hp, h5]
      simp [allChosen, allFound, List.append_assoc]

theorem explorator_reliable (hdie : die.InRange) (hwf : g.WellFormed) (h2 : g.nodeCount ≠ 2)
    {fuel : Nat} {jobs : List Job} (hf : EnoughExp h b g algo alphas scales jobs fuel) :
    Reliable (exploratorWork die h b g algo alphas scales fuel) jobs (Used h dot g.nodeCount)
      (fun j r => j ∈ jobs ∧ ExpRel h b g algo alphas scales j r) := by
  constructor
  intro s w hu hsub
  obtain ⟨s', l, h1, h3, h4, h5⟩ := exploratorJobs_ok hdie hwf h2 w.jobs
    (fun j hj => hf j (hsub j hj)) s (die.seed w.seed)
    { chosen := [], found := [], pairs := w.jobs.length } hu
  refine ⟨s', _, l, h5, h1, h3, fun x hx => ⟨hsub _ ?_, h4 x hx⟩, ?_⟩
  · rw [← h3]
    exact List.mem_map_of_mem hx
  · simp [← h3]

theorem enough_paths {ps : List Path} (hp : ∀ p ∈ ps, ∃ q, FlattensTo g p q) :
    ∃ N, ∀ fuel, N ≤ fuel → ∀ p ∈ ps, ∃ q, Path.flatten g fuel p = some (.ok q) := by
  induction ps with
  | nil => exact ⟨0, fun _ _ j hj => by cases hj⟩
  | cons p ps ih =>
    obtain ⟨N, hN⟩ := ih (fun x hx => hp x (by simp [hx]))
    obtain ⟨q, M, hM⟩ := hp p (by simp)
    refine ⟨max N M, fun fuel hf p' hp' => ?_⟩
    rcases List.mem_cons.mp hp' with rfl | hp'
    · obtain ⟨k, hk⟩ := Nat.exists_eq_add_of_le (show M ≤ fuel by omega)
      exact ⟨q, by rw [hk]; exact Path.flatten_mono hM k⟩
    · exact hN fuel (by omega) p' hp'

/-- With enough fuel, every alternative route of a route-pair can be flattened. -/
theorem enough_flat_exp (hwf : g.WellFormed) {jobs : List Job}
    (hfl : ∀ j ∈ jobs, ∀ routes, JobFinds h b g algo alphas scales j routes →
      ∀ p ∈ routes, ∃ q, FlattensTo g p q) :
    ∃ N, ∀ fuel, N ≤ fuel → ∀ j ∈ jobs, ∀ routes, JobFinds h b g algo alphas scales j routes →
      ∀ p ∈ routes, ∃ q, Path.flatten g fuel p = some (.ok q) := by
  induction jobs with
  | nil => exact ⟨0, fun _ _ j hj => by cases hj⟩
  | cons j jobs ih =>
    obtain ⟨N, hN⟩ := ih (fun j' hj' => hfl j' (by simp [hj']))
    by_cases hj : ∃ routes, JobFinds h b g algo alphas scales j routes
    · obtain ⟨routes, hj⟩ := hj
      obtain ⟨M, hM⟩ := enough_paths (hfl j (by simp) routes hj)
      refine ⟨max N M, fun fuel hf j' hj' routes' hr' p hp => ?_⟩
      rcases List.mem_cons.mp hj' with rfl | hj'
      · rw [← jobFinds_unique hwf hj hr'] at hp
        exact hM fuel (by omega) p hp
      · exact hN fuel (by omega) j' hj' routes' hr' p hp
    · refine ⟨N, fun fuel hf j' hj' routes' hr' p hp => ?_⟩
      rcases List.mem_cons.mp hj' with rfl | hj'
      · exact absurd ⟨routes', hr'⟩ hj
      · exact hN fuel hf j' hj' routes' hr' p hp

theorem flat_length {fuel : Nat} {ps qs : List Path} (hf : Flat g fuel ps qs) : qs.length = ps.length :=
  (List.Forall₂.length_eq hf).symm

theorem flat_mem {fuel : Nat} {ps qs : List Path} (hf : Flat g fuel ps qs) :
    ∀ q ∈ qs, ∃ p ∈ ps, FlattensTo g p q := by
  induction hf with
  | nil => intro q hq; cases hq
  | @cons p q ps qs h1 _ ih =>
    intro x hx
    rcases List.mem_cons.mp hx with rfl | hx
    · exact ⟨p, by simp, ⟨fuel, h1⟩⟩
    · obtain ⟨p', hp', h3⟩ := ih x hx
      exact ⟨p', by simp [hp'], h3⟩

end

end Verif.Par
