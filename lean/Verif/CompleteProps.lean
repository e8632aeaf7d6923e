import Verif.CompleteLemmas
import Verif.NearProps

/-!
# Property C80: with two metrics, the exploration finds every route that is best for some weighting

This needs a triangulation whose lower convex hull has no gap, a solver of linear systems and three different
initial routes.
-/

namespace Verif.Exp

open Dij (R Heap Used NonnegMetrics computeBestPath routeCost weights_nonneg)
open Search (addOk_rat)

/-! ## Helper lemmas -/

theorem routeCost_weigh {g : Graph} (hd : g.DimOk) (h2 : g.dim = 2) {l : List Nat}
    (hl : ∀ e ∈ l, e < g.metrics.length) {c : List ℚ} (hc : g.IsCost l c) {al : List ℚ} (hal : al.length = 2) :
    routeCost g al l = weigh al c := by
  have e0 := isCost_get hc (i := 0) (by omega)
  have e1 := isCost_get hc (i := 1) (by omega)
  have hcl : c.length = 2 := by rw [hc.1, h2]
  match c, hcl, al, hal with
  | [c0, c1], _, [a, b], _ =>
    simp only [List.getElem?_cons_zero, List.getElem?_cons_succ, Option.some.injEq] at e0 e1
    rw [weigh_two, e0, e1]
    clear e0 e1 hc
    induction l with
    | nil => simp [routeCost, metricCost]
    | cons e l ih =>
      have ih := ih fun r hr => hl r (List.mem_cons_of_mem _ hr)
      have he := hl e List.mem_cons_self
      have hm := List.getElem?_eq_getElem he
      have hml := hd _ (List.mem_of_getElem? hm)
      rw [h2] at hml
      unfold routeCost metricCost at ih ⊢
      rw [List.map_cons, List.sum_cons, ih, List.map_cons, List.map_cons, List.sum_cons, List.sum_cons, hm,
        Option.getD_some]
      unfold Graph.metric
      rw [hm, Option.getD_some]
      match g.metrics[e], hml with
      | [m0, m1], _ =>
        simp only [List.zipWith_cons_cons, List.zipWith_nil_left, List.sum_cons, List.sum_nil,
          List.getElem?_cons_zero, List.getElem?_cons_succ, Option.getD_some]
        ring

theorem routeCost_length {g : Graph} (h2 : g.dim = 2) {src dst : Nat} {e : List ℚ}
    (he : IsRouteCost g src dst e) : e.length = 2 := by
  obtain ⟨l, _, hc⟩ := he
  rw [hc.1, h2]

section
variable {b : Backend} {fuel n : Nat} {s s' : Dij.St ℚ} {q : Dij.Query ℚ} {scales : List (Option ℚ)}
  {coords : b.Tri → Nat → Option (List ℚ)} {size : b.Tri → Nat} {h : Heap ℚ}

theorem router (hwf : q.graph.WellFormed) (hd : q.graph.DimOk) (h2 : q.graph.dim = 2)
    (hm : NonnegMetrics q.graph) (halg : q.algo = .dijkstra) (hsrc : q.src < q.graph.nodeCount)
    (hdst : q.dst < q.graph.nodeCount) {slack : ℚ}
    (hopt : ∀ al s s' p, Used h dot n s →
      computeBestPath h dot fuel s { q with alphas := al } = some (.ok (s', some p)) →
      ∀ l, q.graph.IsRoute q.src l q.dst → routeCost q.graph al p.edges ≤ routeCost q.graph al l + slack) :
    Router (fun s al => computeBestPath h dot fuel s { q with alphas := al }) q.graph (Used h dot n)
      (IsRouteCost q.graph q.src q.dst) slack := by
  have hw : ∀ al, (∀ a ∈ al, 0 ≤ a) → ∀ m ∈ q.graph.metrics, 0 ≤ dot al m := fun al hal =>
    weights_nonneg hal hm
  constructor
  · intro s al s' p0 p c hu hc hp hcp
    obtain ⟨k1, k2, _, _, _, _, k7, c', k8, k9⟩ := answer_costs hwf addOk_rat hd hw hsrc hdst hu hc hp
    rw [hcp] at k8
    cases k8
    refine ⟨⟨p.edges, k1, k9⟩, fun hal e he => ?_⟩
    obtain ⟨l, hl, hle⟩ := he
    have hlt : ∀ e ∈ l, e < q.graph.metrics.length := by
      rw [hwf.metrics_len]
      exact Par.isRoute_lt hl
    have := hopt al s s' p0 hu hc l hl
    rwa [← k2, routeCost_weigh hd h2 k7 k9 hal, routeCost_weigh hd h2 hlt hle hal] at this
  · intro s al s' hu hal hc e he
    obtain ⟨l, hl, _⟩ := he
    exact (Dij.C15_none_iff (q := { q with alphas := al }) hwf addOk_rat (hw al hal) hal halg hsrc hdst hu hc).mp rfl
      ⟨l, hl⟩

theorem complete (hb : Regular b coords size) (hl : Lower b coords size) (hg : Gapless b coords size)
    (hsol : Solver 2 b.solve) (hwf : q.graph.WellFormed) (hd : q.graph.DimOk) (h2 : q.graph.dim = 2)
    (hm : NonnegMetrics q.graph) (halg : q.algo = .dijkstra) (hsrc : q.src < q.graph.nodeCount)
    (hdst : q.dst < q.graph.nodeCount) {slack : ℚ} (hslack : 0 ≤ slack)
    (hopt : ∀ n al s s' p, Used h dot n s →
      computeBestPath h dot fuel s { q with alphas := al } = some (.ok (s', some p)) →
      ∀ l, q.graph.IsRoute q.src l q.dst → routeCost q.graph al p.edges ≤ routeCost q.graph al l + slack)
    (hu : Used h dot n s) {a1 a2 : ℚ} (hal : q.alphas = [a1, a2]) (ha1 : 0 < a1) (ha2 : 0 < a2)
    (hex : ∃ l, q.graph.IsRoute q.src l q.dst) (hskip : slack = 0 ∨ ∀ sc ∈ scales, sc = none) {res : List Path}
    (hstart : 2 < res.length ∨ ∀ c d e, Best q.graph q.src q.dst slack [1, 0] c →
      Best q.graph q.src q.dst slack [0, 1] d → Best q.graph q.src q.dst slack [1, 1] e →
      Apart c d ∧ Apart c e ∧ Apart d e)
    (hr : fullyExplorate h dot b fuel s q scales = some (.ok (s', res))) :
    ∃ V : List (List ℚ), (∀ v ∈ V, IsRouteCost q.graph q.src q.dst v) ∧
      (∀ v ∈ V, Affordable q.graph q.src q.dst scales v → ∃ p ∈ res, p.costs = some v) ∧
      ∀ e, IsRouteCost q.graph q.src q.dst e → Affordable q.graph q.src q.dst scales e →
        ∀ x : List ℚ, x.length = 2 → (∀ a ∈ x, 0 ≤ a) → x.sum = 1 →
        ∃ v ∈ V, weigh x v < weigh x e + (3 / 2000000 + slack) := by
  have hw : ∀ al, (∀ a ∈ al, 0 ≤ a) → ∀ m ∈ q.graph.metrics, 0 ≤ dot al m := fun al hal =>
    weights_nonneg hal hm
  obtain ⟨i, j, ha⟩ := compute_serves (h := h) (dotp := dot) (q := q) (n := max n q.graph.nodeCount) hwf addOk_rat
    hd hw hsrc hdst (le_max_right _ _)
  have hrt := router (n := max n q.graph.nodeCount) hwf hd h2 hm halg hsrc hdst (hopt _)
  unfold fullyExplorate at hr
  rw [hal] at hr
  refine explorate_complete (ha fuel) hrt hl hb hg hsol h2 hslack ha1 ha2 (fun e he => routeCost_length h2 he) ?_
    hskip (hu.mono (le_max_left _ _)) ?_ hr
  · obtain ⟨l, hl'⟩ := hex
    exact ⟨(List.range q.graph.dim).map fun k => (l.map fun e => q.graph.metric e k).sum, l, hl', by simp,
      fun k hk => by simp [hk]⟩
  · rcases hstart with hst | hst
    · exact .inl hst
    · refine .inr fun c d e hc hd he => ?_
      have key : ∀ al c, al.length = 2 → Ans (fun s al => computeBestPath h dot fuel s { q with alphas := al })
          q.graph (Used h dot (max n q.graph.nodeCount)) al c → Best q.graph q.src q.dst slack al c := by
        rintro al c hal ⟨s, s', p0, p, g1, g2, g3, g4⟩
        obtain ⟨k1, k2⟩ := hrt.best s al s' p0 p c g1 g2 g3 g4
        exact ⟨k1, k2 hal⟩
      exact hst c d e (key _ _ rfl hc) (key _ _ rfl hd) (key _ _ rfl he)

theorem exists_routeCost (hex : ∃ l, q.graph.IsRoute q.src l q.dst) :
    ∃ e, IsRouteCost q.graph q.src q.dst e := by
  obtain ⟨l, hl⟩ := hex
  exact ⟨(List.range q.graph.dim).map fun k => (l.map fun e => q.graph.metric e k).sum, l, hl, by simp,
    fun k hk => by simp [hk]⟩

theorem pick_best {g : Graph} {src dst : Nat} {V : List (List ℚ)} {res : List Path} {slack : ℚ}
    (h3 : ∀ v ∈ V, Affordable g src dst [none, none] v → ∃ p ∈ res, p.costs = some v)
    (h4 : ∀ e, IsRouteCost g src dst e → Affordable g src dst [none, none] e →
      ∀ x : List ℚ, x.length = 2 → (∀ a ∈ x, 0 ≤ a) → x.sum = 1 →
      ∃ v ∈ V, weigh x v < weigh x e + slack) (hex : ∃ e, IsRouteCost g src dst e)
    {x : List ℚ} (hx : x.length = 2) (hx0 : ∀ a ∈ x, 0 ≤ a) (hx1 : x.sum = 1) :
    ∃ p ∈ res, ∃ c, p.costs = some c ∧ ∀ e, IsRouteCost g src dst e → weigh x c < weigh x e + slack := by
  have haff : ∀ e, Affordable g src dst [none, none] e := by
    intro e i sc y hi
    match i with
    | 0 => cases hi
    | 1 => cases hi
    | i + 2 => simp at hi
  obtain ⟨e0, he0⟩ := hex
  obtain ⟨v0, hv0, _⟩ := h4 e0 he0 (haff _) x hx hx0 hx1
  obtain ⟨v, hv, hmin⟩ := exists_least (weigh x) (List.ne_nil_of_mem hv0)
  obtain ⟨p, hp, hpc⟩ := h3 v hv (haff v)
  refine ⟨p, hp, v, hpc, fun e he => ?_⟩
  obtain ⟨w, hw, hlt⟩ := h4 e he (haff _) x hx hx0 hx1
  have := hmin w hw
  linarith

/-! ## C80 -/

/-- A route that is cheaper than all routes with other costs for some weights, by at least `1.5e-6`, is found if
it is tolerated. More than two routes are found, or the best routes for one metric, for the other one and for both
are different. -/
theorem C80_found (hb : Regular b coords size) (hl : Lower b coords size) (hg : Gapless b coords size)
    (hsol : Solver 2 b.solve) (hwf : q.graph.WellFormed) (hd : q.graph.DimOk) (h2 : q.graph.dim = 2)
    (hm : NonnegMetrics q.graph) (halg : q.algo = .dijkstra) (hsrc : q.src < q.graph.nodeCount)
    (hdst : q.dst < q.graph.nodeCount) (hu : Used (Dij.binHeap compare) dot n s) {a1 a2 : ℚ}
    (hal : q.alphas = [a1, a2]) (ha1 : 0 < a1) (ha2 : 0 < a2) {res : List Path}
    (hstart : 2 < res.length ∨ ∀ c d e, Best q.graph q.src q.dst 0 [1, 0] c →
      Best q.graph q.src q.dst 0 [0, 1] d → Best q.graph q.src q.dst 0 [1, 1] e →
      Apart c d ∧ Apart c e ∧ Apart d e)
    (hr : fullyExplorate (Dij.binHeap compare) dot b fuel s q scales = some (.ok (s', res)))
    {e x : List ℚ} (he : IsRouteCost q.graph q.src q.dst e) (haff : Affordable q.graph q.src q.dst scales e)
    (hx : x.length = 2) (hx0 : ∀ a ∈ x, 0 ≤ a) (hx1 : x.sum = 1)
    (hbest : ∀ d, IsRouteCost q.graph q.src q.dst d → d ≠ e → weigh x e + 3 / 2000000 ≤ weigh x d) :
    ∃ p ∈ res, p.costs = some e := by
  obtain ⟨V, h1, h3, h4⟩ := complete (slack := 0) hb hl hg hsol hwf hd h2 hm halg hsrc hdst le_rfl
    (fun n al s s' p hu hc l hl' => by
      have := Dij.C14_exact_comparison (q := { q with alphas := al }) hwf hm halg hsrc hdst hu hc l hl'
      simpa using this)
    hu hal ha1 ha2 ⟨he.choose, he.choose_spec.1⟩ (.inl rfl) hstart hr
  obtain ⟨v, hv, hlt⟩ := h4 e he haff x hx hx0 hx1
  by_cases hve : v = e
  · subst hve
    exact h3 v hv haff
  · have := hbest v (h1 v hv) hve
    linarith

/-- Without tolerances, there is a found route for every weighting that is best up to `1.5e-6`. -/
theorem C80_every_weighting (hb : Regular b coords size) (hl : Lower b coords size) (hg : Gapless b coords size)
    (hsol : Solver 2 b.solve) (hwf : q.graph.WellFormed) (hd : q.graph.DimOk) (h2 : q.graph.dim = 2)
    (hm : NonnegMetrics q.graph) (halg : q.algo = .dijkstra) (hsrc : q.src < q.graph.nodeCount)
    (hdst : q.dst < q.graph.nodeCount) (hu : Used (Dij.binHeap compare) dot n s) {a1 a2 : ℚ}
    (hal : q.alphas = [a1, a2]) (ha1 : 0 < a1) (ha2 : 0 < a2)
    (hex : ∃ l, q.graph.IsRoute q.src l q.dst) {res : List Path}
    (hstart : 2 < res.length ∨ ∀ c d e, Best q.graph q.src q.dst 0 [1, 0] c →
      Best q.graph q.src q.dst 0 [0, 1] d → Best q.graph q.src q.dst 0 [1, 1] e →
      Apart c d ∧ Apart c e ∧ Apart d e)
    (hr : fullyExplorate (Dij.binHeap compare) dot b fuel s q [none, none] = some (.ok (s', res)))
    {x : List ℚ} (hx : x.length = 2) (hx0 : ∀ a ∈ x, 0 ≤ a) (hx1 : x.sum = 1) :
    ∃ p ∈ res, ∃ c, p.costs = some c ∧ ∀ e, IsRouteCost q.graph q.src q.dst e →
      weigh x c < weigh x e + 3 / 2000000 := by
  obtain ⟨V, _, h3, h4⟩ := complete (slack := 0) hb hl hg hsol hwf hd h2 hm halg hsrc hdst le_rfl
    (fun n al s s' p hu hc l hl' => by
      have := Dij.C14_exact_comparison (q := { q with alphas := al }) hwf hm halg hsrc hdst hu hc l hl'
      simpa using this)
    hu hal ha1 ha2 hex (.inl rfl) hstart hr
  rw [add_zero] at h4
  exact pick_best h3 h4 (exists_routeCost hex) hx hx0 hx1

/-- The same with the approximate comparison of the code, up to the error of the router. The full property, as in
`C80_found` and `C80_every_weighting`, is not proved for it as paths of the router need not be optimal. -/
theorem C80_every_weighting_partial {deg : Nat} (hb : Regular b coords size) (hl : Lower b coords size)
    (hg : Gapless b coords size) (hsol : Solver 2 b.solve) (hwf : q.graph.WellFormed) (hd : q.graph.DimOk)
    (h2 : q.graph.dim = 2) (hm : NonnegMetrics q.graph) (halg : q.algo = .dijkstra)
    (hdeg : Dij.MaxDegree q.graph deg) (hsrc : q.src < q.graph.nodeCount)
    (hdst : q.dst < q.graph.nodeCount) (hu : Used Dij.codeHeap dot n s) {a1 a2 : ℚ}
    (hal : q.alphas = [a1, a2]) (ha1 : 0 < a1) (ha2 : 0 < a2)
    (hex : ∃ l, q.graph.IsRoute q.src l q.dst) {res : List Path} (hstart : 2 < res.length)
    (hr : fullyExplorate Dij.codeHeap dot b fuel s q [none, none] = some (.ok (s', res)))
    {x : List ℚ} (hx : x.length = 2) (hx0 : ∀ a ∈ x, 0 ≤ a) (hx1 : x.sum = 1) :
    ∃ p ∈ res, ∃ c, p.costs = some c ∧ ∀ e, IsRouteCost q.graph q.src q.dst e →
      weigh x c < weigh x e + (3 / 2000000 + 2 * ((2 + fuel * (deg + 2)) * (3 / 2000000))) := by
  obtain ⟨V, _, h3, h4⟩ := complete (slack := 2 * ((2 + fuel * (deg + 2)) * (3 / 2000000))) hb hl hg hsol hwf hd h2
    hm halg hsrc hdst (by positivity)
    (fun n al s s' p hu hc l hl' =>
      Dij.C14_near_optimal_partial (q := { q with alphas := al }) hwf hm halg hdeg hsrc hdst hu hc l hl')
    hu hal ha1 ha2 hex (.inr (by simp)) (.inl hstart) hr
  exact pick_best h3 h4 (exists_routeCost hex) hx hx0 hx1

end

/-! ## Examples and a counterexample -/

theorem pow_inj {i j k l : Nat} (h : 2 ^ i * 3 ^ j = 2 ^ k * 3 ^ l) : i = k ∧ j = l := by
  have h23 : ∀ a b : Nat, Nat.Coprime (2 ^ a) (3 ^ b) := fun a b => Nat.Coprime.pow a b (by decide)
  have d1 : ∀ {i j k l : Nat}, 2 ^ i * 3 ^ j = 2 ^ k * 3 ^ l → i ≤ k := by
    intro i j k l h
    have : 2 ^ i ∣ 2 ^ k := (h23 i l).dvd_of_dvd_mul_right (h ▸ Dvd.intro _ rfl)
    exact (Nat.pow_dvd_pow_iff_le_right (by omega)).mp this
  have d2 : ∀ {i j k l : Nat}, 2 ^ i * 3 ^ j = 2 ^ k * 3 ^ l → j ≤ l := by
    intro i j k l h
    have : 3 ^ j ∣ 3 ^ l := (h23 k j).symm.dvd_of_dvd_mul_left (h ▸ Dvd.intro_left _ rfl)
    exact (Nat.pow_dvd_pow_iff_le_right (by omega)).mp this
  exact ⟨le_antisymm (d1 h) (d1 h.symm), le_antisymm (d2 h) (d2 h.symm)⟩

theorem lowerCells_id {t : Nat × List (List ℚ)} {c : RawCell} (hc : c ∈ lowerCells t) :
    ∃ i j, c = ⟨2 ^ i * 3 ^ j, [i, j]⟩ := by
  unfold lowerCells at hc
  split at hc
  · obtain ⟨j, _, hc⟩ := List.mem_flatMap.mp hc
    obtain ⟨i, _, hc⟩ := List.mem_filterMap.mp hc
    split at hc
    · cases hc; exact ⟨i, j, rfl⟩
    · cases hc
  · cases hc

theorem lowerCells_mem {t : Nat × List (List ℚ)} (h2 : t.1 = 2) {i j : Nat} {p r : List ℚ} (hp : t.2[i]? = some p)
    (hr : t.2[j]? = some r) (h : isLower t.2 p r = true) : (⟨2 ^ i * 3 ^ j, [i, j]⟩ : RawCell) ∈ lowerCells t := by
  unfold lowerCells
  rw [if_pos h2, List.mem_flatMap]
  refine ⟨j, List.mem_range.mpr (Build.lt_length_of_getElem? hr), ?_⟩
  rw [List.mem_filterMap]
  refine ⟨i, List.mem_range.mpr (Build.lt_length_of_getElem? hp), ?_⟩
  rw [hp, hr, Option.getD_some, Option.getD_some, if_pos h]

theorem isLower_of {ps : List (List ℚ)} {a b c d x1 x2 : ℚ} (h1 : 0 < x1) (h2 : 0 < x2)
    (heq : x1 * a + x2 * b = x1 * c + x2 * d) (hlt : a < c)
    (hall : ∀ p ∈ ps, p.length = 2 ∧ weigh [x1, x2] [a, b] ≤ weigh [x1, x2] p) :
    isLower ps [a, b] [c, d] = true := by
  have e : x1 * (c - a) = x2 * (b - d) := by linarith
  have hca : 0 < c - a := by linarith
  have hbd : 0 < b - d := by
    have := mul_pos h1 hca
    rw [e] at this
    exact (mul_pos_iff_of_pos_left h2).mp this
  unfold isLower
  simp only [Bool.and_eq_true, decide_eq_true_eq, List.all_eq_true]
  refine ⟨⟨hlt, by linarith⟩, fun p hp => ?_⟩
  obtain ⟨hpl, hle⟩ := hall p hp
  refine ⟨hpl, ?_⟩
  match p, hpl with
  | [u, v], _ =>
    simp only [weigh_two, across] at hle ⊢
    have : 0 ≤ (c - a) * ((x1 * u + x2 * v) - (x1 * a + x2 * b)) := mul_nonneg hca.le (by linarith)
    have e2 : x2 * (((b - d) * u + (c - a) * v) - ((b - d) * a + (c - a) * b)) =
        (c - a) * ((x1 * u + x2 * v) - (x1 * a + x2 * b)) := by
      linear_combination (a - u) * e
    rw [← e2] at this
    have := nonneg_of_mul_nonneg_right this h2
    linarith

theorem lower_gapless : Gapless lowerBackend (fun t id => t.2[id]?) (fun t => t.1) where
  cover := by
    intro t ht x hx hpos v w y z hv hw hne heq hall
    have hy := (hall v y hv).1
    have hz := (hall w z hw).1
    match x, hx, y, hy, z, hz with
    | [x1, x2], _, [a, b], _, [c, d], _ =>
      have h1 := hpos x1 (by simp)
      have h2 := hpos x2 (by simp)
      have heq' := heq
      rw [weigh_two, weigh_two] at heq'
      have hall' : ∀ p ∈ t.2, p.length = 2 ∧ weigh [x1, x2] [a, b] ≤ weigh [x1, x2] p := by
        intro p hp
        obtain ⟨k, hk⟩ := List.mem_iff_getElem?.mp hp
        exact hall k p hk
      rcases lt_trichotomy a c with hlt | rfl | hlt
      · exact ⟨_, lowerCells_mem ht hv hw (isLower_of h1 h2 heq' hlt hall'), v, w, _, _, rfl, hv, hw, hne, rfl,
          heq.symm⟩
      · have : x2 * (b - d) = 0 := by linarith
        rcases mul_eq_zero.mp this with h | h
        · exact absurd h h2.ne'
        · exact absurd (by rw [show b = d by linarith]) hne
      · refine ⟨_, lowerCells_mem ht hw hv (isLower_of h1 h2 heq'.symm hlt (fun p hp => ?_)), w, v, _, _, rfl, hw, hv,
          Ne.symm hne, heq.symm, rfl⟩
        rw [← heq]
        exact hall' p hp
  id := by
    intro t t' c hc c' hc' he
    obtain ⟨i, j, rfl⟩ := lowerCells_id hc
    obtain ⟨k, l, rfl⟩ := lowerCells_id hc'
    obtain ⟨rfl, rfl⟩ := pow_inj he
    rfl

/-- The number of paths. -/
def countOf (r : Option (R (Dij.St ℚ × List Path))) : Nat :=
  match r with
  | some (.ok x) => x.2.length
  | _ => 0

/-- For each of the weights, one of the four routes is best. -/
example {x : List ℚ} (hx : x.length = 2) (hx0 : ∀ a ∈ x, 0 ≤ a) (hx1 : x.sum = 1) :
    ∃ s' res, fullyExplorate (Dij.binHeap compare) dot lowerBackend 30 Dij.St.new altQuery [none, none] =
        some (.ok (s', res)) ∧ ∃ p ∈ res, ∃ c, p.costs = some c ∧
      ∀ e, IsRouteCost altGraph 0 5 e → weigh x c < weigh x e + 3 / 2000000 := by
  have hc : countOf (fullyExplorate (Dij.binHeap compare) dot lowerBackend 30 Dij.St.new altQuery [none, none]) = 4 :=
    by decide +kernel
  cases hr : fullyExplorate (Dij.binHeap compare) dot lowerBackend 30 Dij.St.new altQuery [none, none] with
  | none => rw [hr] at hc; cases hc
  | some r =>
    cases r with
    | err => rw [hr] at hc; cases hc
    | panic => rw [hr] at hc; cases hc
    | ok r =>
      rw [hr] at hc
      exact ⟨r.1, r.2, rfl, C80_every_weighting (n := 0) (q := altQuery) lower_regular lower_lower lower_gapless
        cramer_solver alt_wf alt_dim (by decide +kernel) alt_nonneg rfl (by decide +kernel) (by decide +kernel) .new
        rfl (by norm_num) (by norm_num)
        ⟨[0, 4], 1, ⟨(by decide +kernel), (by decide +kernel)⟩, 5, ⟨(by decide +kernel), (by decide +kernel)⟩, rfl⟩
        (.inl (by rw [show r.2.length = 4 from hc]; norm_num)) hr hx hx0 hx1⟩

/-- The same with the comparison of the code, where the router is off by at most `3e-4`. -/
example {x : List ℚ} (hx : x.length = 2) (hx0 : ∀ a ∈ x, 0 ≤ a) (hx1 : x.sum = 1) :
    ∃ s' res, fullyExplorate Dij.codeHeap dot lowerBackend 30 Dij.St.new altQuery [none, none] =
        some (.ok (s', res)) ∧ ∃ p ∈ res, ∃ c, p.costs = some c ∧
      ∀ e, IsRouteCost altGraph 0 5 e → weigh x c < weigh x e + 1 / 1000 := by
  have hc : countOf (fullyExplorate Dij.codeHeap dot lowerBackend 30 Dij.St.new altQuery [none, none]) = 4 :=
    by decide +kernel
  cases hr : fullyExplorate Dij.codeHeap dot lowerBackend 30 Dij.St.new altQuery [none, none] with
  | none => rw [hr] at hc; cases hc
  | some r =>
    cases r with
    | err => rw [hr] at hc; cases hc
    | panic => rw [hr] at hc; cases hc
    | ok r =>
      rw [hr] at hc
      obtain ⟨p, hp, c, hpc, hbest⟩ := C80_every_weighting_partial (n := 0) (q := altQuery) lower_regular
        lower_lower lower_gapless cramer_solver alt_wf alt_dim (by decide +kernel) alt_nonneg rfl
        (Dij.maxDegree_edges alt_wf) (by decide +kernel) (by decide +kernel) .new rfl (by norm_num) (by norm_num)
        ⟨[0, 4], 1, ⟨(by decide +kernel), (by decide +kernel)⟩, 5, ⟨(by decide +kernel), (by decide +kernel)⟩, rfl⟩
        (by rw [show r.2.length = 4 from hc]; norm_num) hr hx hx0 hx1
      refine ⟨r.1, r.2, rfl, p, hp, c, hpc, fun e he => lt_of_lt_of_le (hbest e he) ?_⟩
      rw [show altQuery.graph.edgeCount = 9 by decide +kernel]
      norm_num

/-- Routes from `0` to the last node with the given costs, each over a node of its own. -/
def fanBuild (cs : List (List ℚ)) : Build.R Graph :=
  Build.build 2 ((List.range cs.length).map (fun (i : Nat) => edge 0 (i + 1) ((cs[i]?.getD []).map (· / 2))) ++
      (List.range cs.length).map (fun (i : Nat) => edge (i + 1) (cs.length + 1) ((cs[i]?.getD []).map (· / 2))))
    (Dij.lvNodes 0 (List.replicate (cs.length + 2) 0))

/-- Is the graph such a graph with the given number of routes? -/
def isFan (g : Graph) (k : Nat) : Bool :=
  g.edgeCount = 2 * k && (List.range k).all fun e =>
    g.dstIdx .fwd e = .ok (e + 1) && g.dstIdx .bwd e = .ok 0 && g.dstIdx .fwd (k + e) = .ok (k + 1) &&
      g.dstIdx .bwd (k + e) = .ok (e + 1)

theorem fan_routes {g : Graph} {k : Nat} (hk : 0 < k) (h : isFan g k = true) {l : List Nat} (hl : g.IsRoute 0 l (k + 1)) :
    ∃ e, e < k ∧ l = [e, k + e] := by
  unfold isFan at h
  simp only [Bool.and_eq_true, decide_eq_true_eq, List.all_eq_true, List.mem_range] at h
  obtain ⟨hc, hall⟩ := h
  have hlt := Par.isRoute_lt hl
  have out : ∀ e u w, g.IsEdge e u w → e < 2 * k → (e < k ∧ u = 0 ∧ w = e + 1) ∨
      (∃ f, f < k ∧ e = k + f ∧ u = f + 1 ∧ w = k + 1) := by
    intro e u w hE he
    obtain ⟨h1, h2⟩ := hE
    by_cases hek : e < k
    · obtain ⟨⟨⟨a1, a2⟩, _⟩, _⟩ := hall e hek
      rw [a1] at h1; rw [a2] at h2
      cases h1; cases h2
      exact .inl ⟨hek, rfl, rfl⟩
    · obtain ⟨f, rfl⟩ : ∃ f, e = k + f := ⟨e - k, by omega⟩
      obtain ⟨⟨_, a1⟩, a2⟩ := hall f (by omega)
      rw [a1] at h1; rw [a2] at h2
      cases h1; cases h2
      exact .inr ⟨f, by omega, rfl, rfl, rfl⟩
  rw [hc] at hlt
  match l with
  | [] => cases hl
  | [a] =>
    obtain ⟨w, hE, hw⟩ := hl
    rcases out a _ _ hE (hlt a (by simp)) with ⟨h1, _, h2⟩ | ⟨f, _, _, h2, _⟩
    · have : w = k + 1 := hw
      omega
    · omega
  | [a, b] =>
    obtain ⟨w, hE, w', hE', _⟩ := hl
    rcases out a _ _ hE (hlt a (by simp)) with ⟨h1, _, h2⟩ | ⟨f, _, _, h2, _⟩
    · rcases out b _ _ hE' (hlt b (by simp)) with ⟨h3, h4, _⟩ | ⟨f, h3, h4, h5, _⟩
      · omega
      · exact ⟨a, h1, by rw [h4, show f = a by omega]⟩
    · omega
  | a :: b :: c :: l =>
    obtain ⟨w, hE, w', hE', w'', hE'', _⟩ := hl
    have h1 := out a _ _ hE (hlt a (by simp))
    have h2 := out b _ _ hE' (hlt b (by simp))
    have h3 := out c _ _ hE'' (hlt c (by simp))
    exfalso
    rcases h1 with h1 | ⟨f, h1⟩
    · rcases h2 with h2 | ⟨f, h2⟩
      · omega
      · rcases h3 with h3 | ⟨f', h3⟩
        · omega
        · omega
    · omega

/-- The costs of the routes. -/
def fanCosts (g : Graph) (k : Nat) : List (List ℚ) :=
  (List.range k).map fun e => (List.range g.dim).map fun i => g.metric e i + g.metric (k + e) i

theorem fan_costs {g : Graph} {k : Nat} (hk : 0 < k) (h : isFan g k = true) {c : List ℚ}
    (hc : IsRouteCost g 0 (k + 1) c) : c ∈ fanCosts g k := by
  obtain ⟨l, hl, hlen, hcost⟩ := hc
  obtain ⟨e, he, rfl⟩ := fan_routes hk h hl
  refine List.mem_map.mpr ⟨e, List.mem_range.mpr he, ?_⟩
  refine List.ext_getElem? fun i => ?_
  by_cases hi : i < g.dim
  · rw [hcost i hi]
    simp [hi]
  · rw [List.getElem?_eq_none (show c.length ≤ i by omega)]
    simp; omega

theorem mem_fanCosts {g : Graph} {k : Nat} (h : isFan g k = true) {c : List ℚ} (hc : c ∈ fanCosts g k) :
    IsRouteCost g 0 (k + 1) c := by
  obtain ⟨e, he, rfl⟩ := List.mem_map.mp hc
  rw [List.mem_range] at he
  unfold isFan at h
  simp only [Bool.and_eq_true, decide_eq_true_eq, List.all_eq_true, List.mem_range] at h
  obtain ⟨⟨⟨a1, a2⟩, a3⟩, a4⟩ := h.2 e he
  exact ⟨[e, k + e], ⟨e + 1, ⟨a1, a2⟩, k + 1, ⟨a3, a4⟩, rfl⟩, by simp, fun i hi => by simp [hi]⟩

/-- Four routes with the costs `(1, 10)`, `(10, 1)`, `(4, 4)` and `(2, 7)`. -/
def fourGraph : Graph := Dij.okGraph (fanBuild [[1, 10], [10, 1], [4, 4], [2, 7]])

theorem four_build : fanBuild [[1, 10], [10, 1], [4, 4], [2, 7]] = .ok fourGraph := by decide +kernel

def fourQuery : Dij.Query ℚ := { src := 0, dst := 5, graph := fourGraph, algo := .dijkstra, alphas := [1, 1] }

theorem four_fan : isFan fourGraph 4 = true ∧
    fanCosts fourGraph 4 = [[1, 10], [10, 1], [4, 4], [2, 7]] := by decide +kernel

theorem dimOk_of {g : Graph} (h : g.metrics.all (fun m => m.length = g.dim) = true) : g.DimOk :=
  fun m hm => by simpa using List.all_eq_true.mp h m hm

theorem nonneg_of {g : Graph} (h : g.metrics.all (fun m => m.all (fun x => decide (0 ≤ x))) = true) :
    NonnegMetrics g :=
  fun m hm x hx => by simpa using List.all_eq_true.mp (List.all_eq_true.mp h m hm) x hx

/-- The route `(2, 7)`, best for the weights `5/8` and `3/8`, is found in the loop. In the second metric, eight
times the best costs are tolerated, so the route `(1, 10)` is not. -/
example : ∃ s' res, fullyExplorate (Dij.binHeap compare) dot lowerBackend 30 Dij.St.new fourQuery [none, some 8] =
    some (.ok (s', res)) ∧ ∃ p ∈ res, p.costs = some [2, 7] := by
  have hc : countOf (fullyExplorate (Dij.binHeap compare) dot lowerBackend 30 Dij.St.new fourQuery
    [none, some 8]) = 3 := by decide +kernel
  cases hr : fullyExplorate (Dij.binHeap compare) dot lowerBackend 30 Dij.St.new fourQuery [none, some 8] with
  | none => rw [hr] at hc; cases hc
  | some r =>
    cases r with
    | err => rw [hr] at hc; cases hc
    | panic => rw [hr] at hc; cases hc
    | ok r =>
      rw [hr] at hc
      have hcosts : ∀ {d}, IsRouteCost fourGraph 0 5 d → d ∈ [[1, 10], [10, 1], [4, 4], [(2 : ℚ), 7]] := fun hd =>
        four_fan.2 ▸ fan_costs (by norm_num) four_fan.1 hd
      refine ⟨r.1, r.2, rfl, C80_found (n := 0) (q := fourQuery) lower_regular lower_lower lower_gapless
        cramer_solver (Build.built_wellFormed four_build) (dimOk_of (by decide +kernel))
        (by decide +kernel) (nonneg_of (by decide +kernel)) rfl (by decide +kernel) (by decide +kernel) .new
        rfl (by norm_num) (by norm_num) (.inl (by rw [show r.2.length = 3 from hc]; norm_num)) hr
        (mem_fanCosts four_fan.1 (by rw [four_fan.2]; decide +kernel)) ?_ (x := [5 / 8, 3 / 8]) rfl ?_ (by norm_num)
        ?_⟩
      · intro i sc x hi hx d y hd hy
        have hd := hcosts hd
        simp only [List.mem_cons, List.not_mem_nil, or_false] at hd
        match i with
        | 0 => cases hi
        | 1 =>
          cases hi; cases hx
          rcases hd with rfl | rfl | rfl | rfl <;> cases hy <;> norm_num
        | i + 2 => simp at hi
      · intro a ha
        simp only [List.mem_cons, List.not_mem_nil, or_false] at ha
        rcases ha with rfl | rfl <;> norm_num
      · intro d hd hne
        have hd := hcosts hd
        simp only [List.mem_cons, List.not_mem_nil, or_false] at hd
        rcases hd with rfl | rfl | rfl | rfl
        · decide +kernel
        · decide +kernel
        · decide +kernel
        · exact absurd rfl hne

/-- The best routes for one metric, for the other one and for both are different. -/
example : ∀ c d e, Best fourGraph 0 5 0 [1, 0] c → Best fourGraph 0 5 0 [0, 1] d → Best fourGraph 0 5 0 [1, 1] e →
    Apart c d ∧ Apart c e ∧ Apart d e := by
  have key : ∀ x c, Best fourGraph 0 5 0 x c → c ∈ fanCosts fourGraph 4 ∧
      ∀ e ∈ fanCosts fourGraph 4, weigh x c ≤ weigh x e := fun x c hc =>
    ⟨fan_costs (by norm_num) four_fan.1 hc.1, fun e he => by simpa using hc.2 e (mem_fanCosts four_fan.1 he)⟩
  have only : ∀ x c, c ∈ fanCosts fourGraph 4 → (∀ e ∈ fanCosts fourGraph 4, weigh x c ≤ weigh x e) →
      c ∈ (fanCosts fourGraph 4).filter fun c => (fanCosts fourGraph 4).all fun e => weigh x c ≤ weigh x e :=
    fun x c h1 h2 => List.mem_filter.mpr ⟨h1, by simpa using h2⟩
  intro c d e hc hd he
  have h1 := only _ _ (key _ _ hc).1 (key _ _ hc).2
  have h2 := only _ _ (key _ _ hd).1 (key _ _ hd).2
  have h3 := only _ _ (key _ _ he).1 (key _ _ he).2
  rw [show ((fanCosts fourGraph 4).filter fun c => (fanCosts fourGraph 4).all fun e => weigh [1, 0] c ≤ weigh [1, 0] e) =
    [[1, 10]] by decide +kernel, List.mem_singleton] at h1
  rw [show ((fanCosts fourGraph 4).filter fun c => (fanCosts fourGraph 4).all fun e => weigh [0, 1] c ≤ weigh [0, 1] e) =
    [[10, 1]] by decide +kernel, List.mem_singleton] at h2
  rw [show ((fanCosts fourGraph 4).filter fun c => (fanCosts fourGraph 4).all fun e => weigh [1, 1] c ≤ weigh [1, 1] e) =
    [[4, 4]] by decide +kernel, List.mem_singleton] at h3
  subst h1 h2 h3
  refine ⟨⟨0, 1, 10, rfl, rfl, ?_⟩, ⟨0, 1, 4, rfl, rfl, ?_⟩, ⟨0, 10, 4, rfl, rfl, ?_⟩⟩
  · rw [abs_of_nonpos (by norm_num)]; norm_num
  · rw [abs_of_nonpos (by norm_num)]; norm_num
  · rw [abs_of_nonneg (by norm_num)]; norm_num

/-- Three routes with the costs `(1, 10)`, `(6, 2)` and `(3, 6)`. -/
def fewGraph : Graph := Dij.okGraph (fanBuild [[1, 10], [6, 2], [3, 6]])

def fewQuery : Dij.Query ℚ := { src := 0, dst := 4, graph := fewGraph, algo := .dijkstra, alphas := [1, 1] }

theorem few_fan : isFan fewGraph 3 = true ∧ fanCosts fewGraph 3 = [[1, 10], [6, 2], [3, 6]] := by decide +kernel

/-- The exploration starts only if more than two routes have been found before. The best routes for the first metric, for
the second one and for both are the first, the second and again the second one, so the third route is missed,
although it is the best one for other weights and everything is tolerated. -/
theorem C80_false_few : ∃ s' res,
    fullyExplorate (Dij.binHeap compare) dot lowerBackend 30 Dij.St.new fewQuery [none, none] =
      some (.ok (s', res)) ∧ res.map (·.costs) = [some [1, 10], some [6, 2]] ∧
    IsRouteCost fewGraph 0 4 [3, 6] ∧
    ∀ d, IsRouteCost fewGraph 0 4 d → d ≠ [3, 6] → weigh [8 / 13, 5 / 13] [3, 6] + 1 / 4 ≤ weigh [8 / 13, 5 / 13] d := by
  have hc : (fullyExplorate (Dij.binHeap compare) dot lowerBackend 30 Dij.St.new fewQuery [none, none]).map
      (fun x => do let x ← x; pure (x.2.map Path.costs)) = some (.ok [some [1, 10], some [6, 2]]) := by decide +kernel
  cases hr : fullyExplorate (Dij.binHeap compare) dot lowerBackend 30 Dij.St.new fewQuery [none, none] with
  | none => rw [hr] at hc; cases hc
  | some r =>
    cases r with
    | err => rw [hr] at hc; cases hc
    | panic => rw [hr] at hc; cases hc
    | ok r =>
      rw [hr] at hc
      refine ⟨r.1, r.2, rfl, ?_, mem_fanCosts few_fan.1 (by rw [few_fan.2]; decide +kernel), ?_⟩
      · simp only [Option.map_some, Option.some.injEq] at hc
        exact Res.ok.inj hc
      · intro d hd hne
        have hd := few_fan.2 ▸ fan_costs (by norm_num) few_fan.1 hd
        simp only [List.mem_cons, List.not_mem_nil, or_false] at hd
        rcases hd with rfl | rfl | rfl
        · decide +kernel
        · decide +kernel
        · exact absurd rfl hne

end Verif.Exp
