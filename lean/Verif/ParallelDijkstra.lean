import Verif.ParallelInv
import Verif.FuelMono
import Verif.DijkstraProps

/-!
# The workers that use Dijkstra are reliable
-/

namespace Verif.Par

open Dij (Heap Algo Used AllCovered NonnegMetrics St answer computeBestPath)

section
variable {h : Heap ℚ} {g : Graph} {algo : Algo} {alphas : List ℚ}

theorem nodeIdxOf_ok (hwf : g.WellFormed) {i : Nat} {id : Int} (hi : g.nodeIds[i]? = some id) :
    nodeIdxOf g id = .ok i := by
  have hlt : i < g.nodeCount := lt_of_getElem? hi
  have h1 : g.nodeCoords[i]? = some (g.nodeCoords[i]'(by rw [hwf.coords_len]; exact hlt)) :=
    List.getElem?_eq_getElem _
  have h2 : g.nodeLevels[i]? = some (g.nodeLevels[i]'(by rw [hwf.levels_len]; exact hlt)) :=
    List.getElem?_eq_getElem _
  unfold nodeIdxOf Graph.createNodeFrom
  rw [(idxFrom_eq_ok_iff hwf.ids_sorted).mpr hi]
  simp [Graph.createNode, Graph.nodeId, Graph.nodeCoord, Graph.nodeLevel, hi, h1, h2]

/-- The result of a route-pair, given the router's answer. -/
def resultOf (count : Nat) : Option Path → Result
  | some p => { chosen := List.replicate count p, found := [1] }
  | none => { chosen := [], found := [] }

/-- What comes out for a route-pair with a new router. -/
def DijRel (h : Heap ℚ) (g : Graph) (algo : Algo) (alphas : List ℚ) (j : Job) (r : Result) : Prop :=
  ∃ (src dst : Nat) (ans : Option Path), g.nodeIds[src]? = some j.src ∧ g.nodeIds[dst]? = some j.dst ∧
    RouterAnswers h (jobQuery g algo alphas src dst) ans ∧ r = resultOf j.count ans

theorem pushAnswer_ok {count : Nat} (hc : 1 ≤ count) (ans : Option Path) (o : Outcome) :
    pushAnswer count ans o = .ok { o with
      chosen := o.chosen ++ (resultOf count ans).chosen, found := o.found ++ (resultOf count ans).found } := by
  cases ans with
  | none => simp [pushAnswer, resultOf]
  | some p =>
    obtain ⟨n, rfl⟩ := Nat.exists_eq_add_of_le' hc
    simp only [pushAnswer, subU, Nat.le_add_left, if_true, Nat.add_sub_cancel, Res.ok_bind, Res.pure_eq,
      resultOf, List.replicate_succ', List.append_assoc]

/-- The fuel is enough for a new router to answer all route-pairs. -/
def EnoughFuel (h : Heap ℚ) (g : Graph) (algo : Algo) (alphas : List ℚ) (jobs : List Job)
    (fuel : Nat) : Prop :=
  ∀ j ∈ jobs, ∀ src dst : Nat, g.nodeIds[src]? = some j.src → g.nodeIds[dst]? = some j.dst →
    ∃ s' ans, computeBestPath h dot fuel St.new (jobQuery g algo alphas src dst) = some (.ok (s', ans))

theorem enough_fuel (hwf : g.WellFormed) (hw : ∀ m ∈ g.metrics, 0 ≤ dot alphas m)
    (halg : algo ≠ .explorator) (hcov : AllCovered g) (h2 : g.nodeCount ≠ 2) (jobs : List Job) :
    ∃ N, ∀ fuel, N ≤ fuel → EnoughFuel h g algo alphas jobs fuel := by
  induction jobs with
  | nil => exact ⟨0, fun _ _ j hj => by cases hj⟩
  | cons j jobs ih =>
    obtain ⟨N, hN⟩ := ih
    by_cases hj : ∃ src dst : Nat, g.nodeIds[src]? = some j.src ∧ g.nodeIds[dst]? = some j.dst
    · obtain ⟨src, dst, hs, hd⟩ := hj
      obtain ⟨M, hM⟩ := Dij.C15_answers_partial (h := h) (dotp := dot) (n := 0) (s := St.new)
        (q := jobQuery g algo alphas src dst) hwf Search.addOk_rat hw halg hcov h2 (lt_of_getElem? hs)
        (lt_of_getElem? hd) .new (Nat.zero_le _)
      refine ⟨max N M, fun fuel hf j' hj' src' dst' hs' hd' => ?_⟩
      rcases List.mem_cons.mp hj' with rfl | hj'
      · have e1 := (idxFrom_eq_ok_iff hwf.ids_sorted).mpr hs
        rw [(idxFrom_eq_ok_iff hwf.ids_sorted).mpr hs'] at e1
        have e2 := (idxFrom_eq_ok_iff hwf.ids_sorted).mpr hd
        rw [(idxFrom_eq_ok_iff hwf.ids_sorted).mpr hd'] at e2
        simp only [Except.ok.injEq] at e1 e2
        subst e1 e2
        exact hM fuel (by omega)
      · exact hN fuel (by omega) j' hj' src' dst' hs' hd'
    · refine ⟨N, fun fuel hf j' hj' src' dst' hs' hd' => ?_⟩
      rcases List.mem_cons.mp hj' with rfl | hj'
      · exact absurd ⟨src', dst', hs', hd'⟩ hj
      · exact hN fuel hf j' hj' src' dst' hs' hd'

theorem dijkstraJobs_ok (hwf : g.WellFormed) (h2 : g.nodeCount ≠ 2) {fuel : Nat} :
    ∀ (js : List Job), EnoughFuel h g algo alphas js fuel →
    (∀ j ∈ js, j.src ∈ g.nodeIds ∧ j.dst ∈ g.nodeIds ∧ 1 ≤ j.count) → ∀ (s : St ℚ) (o : Outcome),
    Used h dot g.nodeCount s → ∃ s' l, Used h dot g.nodeCount s' ∧ l.map Prod.fst = js ∧
      (∀ x ∈ l, DijRel h g algo alphas x.1 x.2) ∧
      dijkstraJobs h g algo alphas fuel js s o = some (.ok (s', { o with
        chosen := o.chosen ++ allChosen l, found := o.found ++ allFound l }))
  | [], _, _, s, o, hu => ⟨s, [], hu, rfl, by simp, by simp [dijkstraJobs, allChosen, allFound]⟩
  | j :: js, hf, hv, s, o, hu => by
    obtain ⟨v1, v2, v3⟩ := hv j (by simp)
    obtain ⟨src, hs⟩ := List.getElem?_of_mem v1
    obtain ⟨dst, hd⟩ := List.getElem?_of_mem v2
    obtain ⟨s1, ans, hc⟩ := hf j (by simp) src dst hs hd
    have hre := Dij.C17_reuse_partial (fuel := fuel) (q := jobQuery g algo alphas src dst) hu le_rfl h2
    rw [hc] at hre
    obtain ⟨s2, hc2⟩ : ∃ s2, computeBestPath h dot fuel s (jobQuery g algo alphas src dst) =
        some (.ok (s2, ans)) := by
      cases hx : computeBestPath h dot fuel s (jobQuery g algo alphas src dst) with
      | none => rw [hx] at hre; simp [answer] at hre
      | some r =>
        rw [hx] at hre
        cases r with
        | panic => simp [answer] at hre
        | err e => cases e
        | ok y =>
          obtain ⟨s2, a2⟩ := y
          simp only [answer, Option.map_some, Res.ok_bind, Res.pure_eq, Option.some.injEq,
            Res.ok.injEq] at hre
          exact ⟨s2, by rw [hre]⟩
    have hu2 : Used h dot g.nodeCount s2 := .query hu le_rfl hc2
    obtain ⟨s', l, h1, h3, h4, h5⟩ := dijkstraJobs_ok hwf h2 js
      (fun j' hj' => hf j' (by simp [hj'])) (fun j' hj' => hv j' (by simp [hj'])) s2
      { o with chosen := o.chosen ++ (resultOf j.count ans).chosen
               found := o.found ++ (resultOf j.count ans).found } hu2
    refine ⟨s', (j, resultOf j.count ans) :: l, h1, by rw [List.map_cons, h3], ?_, ?_⟩
    · intro x hx
      rcases List.mem_cons.mp hx with rfl | hx
      · exact ⟨src, dst, ans, hs, hd, ⟨fuel, s1, hc⟩, rfl⟩
      · exact h4 x hx
    · rw [dijkstraJobs]
      simp only [nodeIdxOf_ok hwf hs, nodeIdxOf_ok hwf hd, hc2, pushAnswer_ok v3, h5]
      simp [allChosen, allFound, List.append_assoc]

theorem dijkstra_reliable (hwf : g.WellFormed) (h2 : g.nodeCount ≠ 2) {fuel : Nat} {jobs : List Job}
    (hf : EnoughFuel h g algo alphas jobs fuel)
    (hv : ∀ j ∈ jobs, j.src ∈ g.nodeIds ∧ j.dst ∈ g.nodeIds ∧ 1 ≤ j.count) :
    Reliable (dijkstraWork h g algo alphas fuel) jobs (Used h dot g.nodeCount)
      (DijRel h g algo alphas) := by
  constructor
  intro s w hu hsub
  obtain ⟨s', l, h1, h3, h4, h5⟩ := dijkstraJobs_ok hwf h2 w.jobs
    (fun j hj => hf j (hsub j hj)) (fun j hj => hv j (hsub j hj)) s
    { chosen := [], found := [], pairs := w.jobs.length } hu
  refine ⟨s', _, l, h5, h1, h3, h4, ?_⟩
  simp [← h3]

theorem routerAnswers_unique {q : Dij.Query ℚ} {a b : Option Path} (ha : RouterAnswers h q a)
    (hb : RouterAnswers h q b) : a = b := by
  obtain ⟨f₁, s₁, h₁⟩ := ha
  obtain ⟨f₂, s₂, h₂⟩ := hb
  have := Dij.compute_unique h₁ h₂
  simp only [Res.ok.injEq, Prod.mk.injEq] at this
  exact this.2

theorem flattensTo_unique {p q r : Path} (ha : FlattensTo g p q) (hb : FlattensTo g p r) : q = r := by
  obtain ⟨f₁, h₁⟩ := ha
  obtain ⟨f₂, h₂⟩ := hb
  have a := Path.flatten_mono h₁ f₂
  have b := Path.flatten_mono h₂ f₁
  rw [Nat.add_comm, b] at a
  simpa using a.symm

/-- Flattened edges are edges of the graph. -/
theorem flattened_lt (hwf : g.WellFormed) {p q : Path} {fuel : Nat}
    (hq : Path.flatten g fuel p = some (.ok q)) : ∀ e ∈ q.edges, e < g.edgeCount := by
  intro e he
  unfold Path.flatten at hq
  obtain ⟨r, h1, h3⟩ := Option.map_eq_some_iff.mp hq
  cases r with
  | err x => cases h3
  | panic => cases h3
  | ok q' =>
    simp only [Res.ok.injEq] at h3
    subst h3
    exact hwf.sc_len e _ (Path.C21_no_shortcut h1 e he)

/-- With enough fuel, every answer to a route-pair can be flattened. -/
theorem enough_flat (hwf : g.WellFormed) {jobs : List Job}
    (hfl : ∀ j ∈ jobs, ∀ (src dst : Nat) (p : Path), g.nodeIds[src]? = some j.src → g.nodeIds[dst]? = some j.dst →
      RouterAnswers h (jobQuery g algo alphas src dst) (some p) → ∃ q, FlattensTo g p q) :
    ∃ N, ∀ fuel, N ≤ fuel → ∀ j ∈ jobs, ∀ (src dst : Nat) (p : Path), g.nodeIds[src]? = some j.src →
      g.nodeIds[dst]? = some j.dst → RouterAnswers h (jobQuery g algo alphas src dst) (some p) →
      ∃ q, Path.flatten g fuel p = some (.ok q) := by
  induction jobs with
  | nil => exact ⟨0, fun _ _ j hj => by cases hj⟩
  | cons j jobs ih =>
    obtain ⟨N, hN⟩ := ih (fun j' hj' => hfl j' (by simp [hj']))
    by_cases hj : ∃ (src dst : Nat) (p : Path), g.nodeIds[src]? = some j.src ∧ g.nodeIds[dst]? = some j.dst ∧
        RouterAnswers h (jobQuery g algo alphas src dst) (some p)
    · obtain ⟨src, dst, p, hs, hd, ha⟩ := hj
      obtain ⟨q, M, hq⟩ := hfl j (by simp) src dst p hs hd ha
      refine ⟨max N M, fun fuel hf j' hj' src' dst' p' hs' hd' ha' => ?_⟩
      rcases List.mem_cons.mp hj' with rfl | hj'
      · have e1 := (idxFrom_eq_ok_iff hwf.ids_sorted).mpr hs
        rw [(idxFrom_eq_ok_iff hwf.ids_sorted).mpr hs'] at e1
        have e2 := (idxFrom_eq_ok_iff hwf.ids_sorted).mpr hd
        rw [(idxFrom_eq_ok_iff hwf.ids_sorted).mpr hd'] at e2
        simp only [Except.ok.injEq] at e1 e2
        subst e1 e2
        have := routerAnswers_unique ha ha'
        simp only [Option.some.injEq] at this
        subst this
        obtain ⟨k, hk⟩ := Nat.exists_eq_add_of_le (show M ≤ fuel by omega)
        exact ⟨q, by rw [hk]; exact Path.flatten_mono hq k⟩
      · exact hN fuel (by omega) j' hj' src' dst' p' hs' hd' ha'
    · refine ⟨N, fun fuel hf j' hj' src' dst' p' hs' hd' ha' => ?_⟩
      rcases List.mem_cons.mp hj' with rfl | hj'
      · exact absurd ⟨src', dst', p', hs', hd', ha'⟩ hj
      · exact hN fuel hf j' hj' src' dst' p' hs' hd' ha'

/-- Plain edges are flattened to themselves. -/
theorem plain_flattens (hwf : g.WellFormed) {p : Path} (hl : ∀ e ∈ p.edges, e < g.edgeCount)
    (hp : ∀ e ∈ p.edges, g.scEdgesOf e = .ok none) : ∃ q, FlattensTo g p q ∧ q.edges = p.edges := by
  have key : ∀ (es out : List Nat) (costs : List ℚ), (∀ e ∈ es, e < g.edgeCount) →
      (∀ e ∈ es, g.scEdgesOf e = .ok none) →
      ∃ k c, Path.flatGo g k none es out costs = some (.ok (out ++ es, c)) := by
    intro es
    induction es with
    | nil => intro out costs _ _; exact ⟨1, costs, by simp [Path.flatGo]⟩
    | cons e es ih =>
      intro out costs h1 h2
      have hm : e < g.metrics.length := by rw [hwf.metrics_len]; exact h1 e (by simp)
      obtain ⟨k, c, hk⟩ := ih (out ++ [e]) (vaddAssign costs g.metrics[e])
        (fun x hx => h1 x (by simp [hx])) (fun x hx => h2 x (by simp [hx]))
      refine ⟨k + 2, c, ?_⟩
      rw [Path.flatGo, Path.flatGo, h2 e (by simp)]
      simp only [List.getElem?_eq_getElem hm, hk]
      simp
  obtain ⟨k, c, hk⟩ := key p.edges [] (List.replicate g.dim 0) hl hp
  refine ⟨{ p with edges := p.edges, costs := some c }, ⟨k, ?_⟩, rfl⟩
  simp [Path.flatten, Path.tryFlatten, hk]

end

end Verif.Par
