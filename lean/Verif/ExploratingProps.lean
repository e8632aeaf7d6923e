import Verif.ExploratingLemmas4
import Verif.DijkstraProps
import Verif.FuelMono

/-!
# Properties of the explorator (C46, C47)

The triangulation and the solver of linear systems are arbitrary. `Sound` is assumed where ids of the
triangulation matter.
-/

namespace Verif.Exp

open Dij (R Heap Used NonnegMetrics computeBestPath routeCost)
open Search (AddOk)

/-! ## C47 -/

/-- The initial alphas are exactly the combinations of considered metrics, each once. -/
theorem C47_combinations {q : Query} {l : List (Option Nat × List ℚ)} (h : initAlphas q = .ok l) :
    (l.map (·.2)).Nodup ∧ ∀ v, v ∈ l.map (·.2) ↔ IsCombination q.considered q.dim v := by
  refine ⟨initAlphas_nodup h, fun v => ?_⟩
  rw [List.mem_map]
  constructor
  · rintro ⟨⟨mi, v⟩, hm, rfl⟩
    obtain ⟨m, h0, h1, h2, rfl, _⟩ := (mem_initAlphas h).mp hm
    have hget : ∀ (i : Nat) x, (alphasOf q.dim m)[i]? = some x →
        i < q.dim ∧ x = if m.testBit i then 1 else 0 := by
      intro i x hx
      have hi : i < q.dim := by
        have := Build.lt_length_of_getElem? hx
        rwa [alphasOf_length] at this
      rw [alphasOf_get hi] at hx
      cases hx
      exact ⟨hi, rfl⟩
    refine ⟨alphasOf_length _ _, fun x hx => ?_, ?_, fun i hi => ?_⟩
    · obtain ⟨i, hi⟩ := List.mem_iff_getElem?.mp hx
      rw [(hget i x hi).2]
      split
      · exact .inr rfl
      · exact .inl rfl
    · obtain ⟨i, hi⟩ := Nat.exists_testBit_of_ne_zero (Nat.pos_iff_ne_zero.mp h0)
      have hid : i < q.dim := by
        by_contra hc
        rw [Nat.testBit_lt_two_pow (lt_of_lt_of_le h1 (Nat.pow_le_pow_right (by omega) (by omega)))] at hi
        cases hi
      have := alphasOf_get (mask := m) hid
      rw [hi] at this
      exact ⟨1, List.mem_of_getElem? this, rfl⟩
    · apply h2 i
      have := (hget i 1 hi).2
      by_contra hc
      rw [if_neg hc] at this
      exact one_ne_zero this
  · rintro ⟨h1, h2, ⟨x, h3, rfl⟩, h4⟩
    let ds : List Bool := v.map fun x => decide (x = 1)
    have hbit : ∀ i, (imcMask ds).testBit i = decide (v[i]? = some 1) := by
      intro i
      rw [testBit_imcMask]
      simp only [ds, List.getElem?_map]
      cases v[i]? <;> simp
    have hv : alphasOf q.dim (imcMask ds) = v := by
      apply List.ext_getElem?
      intro i
      by_cases hi : i < q.dim
      · rw [alphasOf_get hi, hbit]
        have hlt : i < v.length := by omega
        have hmem : v[i]? = some v[i] := List.getElem?_eq_getElem hlt
        rw [hmem]
        rcases h2 v[i] (List.getElem_mem _) with h | h <;> simp [h]
      · rw [List.getElem?_eq_none (by simp; omega), List.getElem?_eq_none (by omega)]
    refine ⟨(if isPow2 (imcMask ds) then some (Nat.log 2 (imcMask ds)) else none, v), ?_, rfl⟩
    refine (mem_initAlphas h).mpr ⟨imcMask ds, ?_, ?_, fun i hi => ?_, hv.symm, rfl⟩
    · obtain ⟨i, hi⟩ := List.mem_iff_getElem?.mp h3
      apply Nat.pos_of_ne_zero
      intro h0
      have := hbit i
      rw [h0, hi] at this
      simp at this
    · have := imcMask_lt ds
      simpa [ds, h1] using this
    · rw [hbit] at hi
      exact h4 i (of_decide_eq_true hi)

/-- An initial alpha belongs to a metric iff it is the unit-vector of this considered metric. -/
theorem C47_units {q : Query} {l : List (Option Nat × List ℚ)} (h : initAlphas q = .ok l) (i : Nat)
    (v : List ℚ) : (some i, v) ∈ l ↔ i < q.dim ∧ q.considered[i]? = some true ∧ v = unit q.dim i :=
  unit_mem h

/-- There are initial alphas if there are less than 32 metrics. -/
theorem C47_total {q : Query} (hd : q.dim < 32) (hc : q.considered.length ≤ 32) :
    ∃ l, initAlphas q = .ok l := by
  unfold initAlphas
  have h1 := imcMask_lt q.considered
  have h2 : 2 ^ q.considered.length ≤ 2 ^ 32 := Nat.pow_le_pow_right (by omega) hc
  rw [if_neg (by omega), if_neg (by omega)]
  exact ⟨_, rfl⟩

/-- With 32 or more metrics, the exploration panics, whatever is considered. -/
theorem C47_false_dim {q : Query} (hd : 32 ≤ q.dim) : initAlphas q = .panic := by
  unfold initAlphas
  split
  · rfl
  · rfl

/-- Three metrics, the second one is ignored. -/
def exQuery : Query := Query.start 3 [1 / 2, 0, 2]

example : initAlphas exQuery = .ok [(some 0, [1, 0, 0]), (some 2, [0, 0, 1]), (none, [1, 0, 1])] := by
  decide +kernel

section
variable {K : Type} [LinearOrder K] [Zero K] [Add K] {h : Heap K} {dotp : List ℚ → List ℚ → K}
  {b : Backend} {fuel n : Nat} {s s' : Dij.St K} {q : Dij.Query K} {scales : List (Option ℚ)}
  {res : List Path}

/-- After the initial paths, there is no tolerance for ignored metrics and for metrics with an infinite
scale. Otherwise, it is the scale times the cost of the path answered for this metric alone. -/
theorem C47_tolerances (hn : q.graph.nodeCount ≤ n) (hwf : q.graph.WellFormed) (hk : AddOk K)
    (hd : q.graph.DimOk) (hw : ∀ al, (∀ a ∈ al, 0 ≤ a) → ∀ m ∈ q.graph.metrics, 0 ≤ dotp al m)
    (hsrc : q.src < q.graph.nodeCount) (hdst : q.dst < q.graph.nodeCount) (hu : Used h dotp n s)
    {init : List (Option Nat × List ℚ)} {q' : Query} {new : List Path}
    (hi : initAlphas (Query.start q.graph.dim q.alphas) = .ok init)
    (he : exploreInit (fun s al => computeBestPath h dotp fuel s { q with alphas := al }) q.graph scales
      init s (Query.start q.graph.dim q.alphas) [] = some (.ok (s', q', new))) :
    q'.tolerances.length = q.graph.dim ∧ ∀ i t, q'.tolerances[i]? = some t →
      ((¬ ∃ a, q.alphas[i]? = some a ∧ 0 < a) → t = none) ∧
      ((∃ a, q.alphas[i]? = some a ∧ 0 < a) → ∃ s s' ans, Used h dotp n s ∧
        computeBestPath h dotp fuel s { q with alphas := unit q.graph.dim i } = some (.ok (s', ans)) ∧
        (ans = none → t = none) ∧
        ∀ p, ans = some p → ∃ sc, scales[i]? = some sc ∧ (sc = none → t = none) ∧
          ∀ x, sc = some x → t = some (metricCost q.graph i p.edges * x)) := by
  obtain ⟨_, _, h1, h2⟩ := tolerance_cases hn hwf hk hd hw hsrc hdst hu hi he
  refine ⟨h1, fun i t ht => ⟨fun hno => ?_, fun hcon => ?_⟩⟩
  · rcases h2 i t ht with ⟨_, h3⟩ | ⟨h3, _⟩
    · exact h3
    · exact absurd h3 hno
  · rcases h2 i t ht with ⟨h3, _⟩ | ⟨_, h3⟩
    · exact absurd hcon h3
    · rcases h3 with ⟨h3, s1, s2, h4, h5⟩ | ⟨s1, s2, p, h4, h5, sc, h6, h7⟩
      · exact ⟨s1, s2, none, h4, h5, fun _ => h3, fun _ h => nomatch h⟩
      · refine ⟨s1, s2, some p, h4, h5, (fun h => nomatch h), fun p' hp => ?_⟩
        cases hp
        refine ⟨sc, h6, fun h8 => ?_, fun x hx => ?_⟩
        · rcases h7 with ⟨_, h7⟩ | ⟨x, h7, _⟩
          · exact h7
          · rw [h8] at h7; cases h7
        · rcases h7 with ⟨h7, _⟩ | ⟨x', h7, h8⟩
          · rw [hx] at h7; cases h7
          · rw [hx] at h7; cases h7; exact h8

/-! ## C46 -/

/-- Every returned path is a route from source to destination and comes with its costs; for every
triangulation and every solver. -/
theorem C46_route (hwf : q.graph.WellFormed) (hk : AddOk K) (hd : q.graph.DimOk)
    (hw : ∀ al, (∀ a ∈ al, 0 ≤ a) → ∀ m ∈ q.graph.metrics, 0 ≤ dotp al m)
    (hsrc : q.src < q.graph.nodeCount) (hdst : q.dst < q.graph.nodeCount) (hu : Used h dotp n s)
    (he : fullyExplorate h dotp b fuel s q scales = some (.ok (s', res))) {p : Path} (hp : p ∈ res) :
    q.graph.IsRoute q.src p.edges q.dst ∧ p.srcIdx = q.src ∧ p.dstIdx = q.dst ∧
      q.graph.nodeId q.src = .ok p.srcId ∧ q.graph.nodeId q.dst = .ok p.dstId ∧
      ∃ c, p.costs = some c ∧ q.graph.IsCost p.edges c := by
  have hu' := hu.mono (le_max_left n q.graph.nodeCount)
  obtain ⟨_, _, q', new, st0, st, _, _, _, h4, h5, _, h6, h7⟩ :=
    explorate_ok (used_step (le_max_right n q.graph.nodeCount)) hu' he
  have hF : Holds (Found h dotp fuel (max n q.graph.nodeCount) q) st :=
    h7 _ (fun _ _ _ hp hj hr => register_holds hp hj hr) (fun _ _ hj => hj)
      (update_keeps (F := Found h dotp fuel (max n q.graph.nodeCount) q)
        (fun _ _ _ hp hj hr => register_holds hp hj hr) h6 (by intro _ _ h; cases h) h4)
  obtain ⟨k, _, hk'⟩ := forall₂_mem_right (collect_ok h5).1 hp
  obtain ⟨al, s1, s2, p0, h8, h9, h10, _⟩ := hF k p hk'
  obtain ⟨e1, _, e3, e4, e5, e6, _, e8⟩ := answer_costs hwf hk hd hw hsrc hdst h8 h9 h10
  exact ⟨e1, e3, e4, e5, e6, e8⟩

/-- Every returned path has been answered by the router for alphas that are not negative and not all
zero. -/
theorem C46_found (hwf : q.graph.WellFormed) (hk : AddOk K) (hd : q.graph.DimOk)
    (hw : ∀ al, (∀ a ∈ al, 0 ≤ a) → ∀ m ∈ q.graph.metrics, 0 ≤ dotp al m)
    (hsrc : q.src < q.graph.nodeCount) (hdst : q.dst < q.graph.nodeCount) (hu : Used h dotp n s)
    (he : fullyExplorate h dotp b fuel s q scales = some (.ok (s', res))) {p : Path} (hp : p ∈ res) :
    ∃ al s1 s2 p0, (∀ a ∈ al, 0 ≤ a) ∧ (∃ a ∈ al, 0 < a) ∧
      Used h dotp (max n q.graph.nodeCount) s1 ∧
      computeBestPath h dotp fuel s1 { q with alphas := al } = some (.ok (s2, some p0)) ∧
      p.edges = p0.edges := by
  have hu' := hu.mono (le_max_left n q.graph.nodeCount)
  obtain ⟨_, _, q', new, st0, st, _, _, _, h4, h5, _, h6, h7⟩ :=
    explorate_ok (used_step (le_max_right n q.graph.nodeCount)) hu' he
  have hF : Holds (Found h dotp fuel (max n q.graph.nodeCount) q) st :=
    h7 _ (fun _ _ _ hp hj hr => register_holds hp hj hr) (fun _ _ hj => hj)
      (update_keeps (F := Found h dotp fuel (max n q.graph.nodeCount) q)
        (fun _ _ _ hp hj hr => register_holds hp hj hr) h6 (by intro _ _ h; cases h) h4)
  obtain ⟨k, _, hk'⟩ := forall₂_mem_right (collect_ok h5).1 hp
  obtain ⟨al, s1, s2, p0, h8, h9, h10, a, h11, h12⟩ := hF k p hk'
  have hal := (Dij.computed_valid h9).2
  obtain ⟨_, e2, _⟩ := answer_costs hwf hk hd hw hsrc hdst h8 h9 h10
  exact ⟨al, s1, s2, p0, hal, ⟨a, h11, lt_of_le_of_ne (hal a h11) (Ne.symm h12)⟩, h8, h9, e2⟩

/-- Every returned path is tolerated up to the accuracy: for every considered metric with a finite scale,
its cost is below the scale times the cost of the path answered for this metric alone. -/
theorem C46_tolerated {coords : b.Tri → Nat → Option (List ℚ)} (hb : Sound b coords)
    (hwf : q.graph.WellFormed) (hk : AddOk K) (hd : q.graph.DimOk)
    (hw : ∀ al, (∀ a ∈ al, 0 ≤ a) → ∀ m ∈ q.graph.metrics, 0 ≤ dotp al m)
    (hsrc : q.src < q.graph.nodeCount) (hdst : q.dst < q.graph.nodeCount) (hu : Used h dotp n s)
    (he : fullyExplorate h dotp b fuel s q scales = some (.ok (s', res))) {p : Path} (hp : p ∈ res)
    {i : Nat} {a x : ℚ} (hi : i < q.graph.dim) (ha : q.alphas[i]? = some a) (h0 : 0 < a)
    (hx : scales[i]? = some (some x)) :
    ∃ s1 s2 ans, Used h dotp (max n q.graph.nodeCount) s1 ∧ computeBestPath h dotp fuel s1
        { q with alphas := unit q.graph.dim i } = some (.ok (s2, ans)) ∧
      ∀ best, ans = some best →
        metricCost q.graph i p.edges < metricCost q.graph i best.edges * x + 3 / 2000000 := by
  have hu' := hu.mono (le_max_left n q.graph.nodeCount)
  obtain ⟨init, s1, q', new, st0, st, h1, h2, _, h4, h5, _, h6, h7⟩ :=
    explorate_ok (used_step (le_max_right n q.graph.nodeCount)) hu' he
  obtain ⟨t1, t2, t3, t4⟩ := tolerance_cases (le_max_right n q.graph.nodeCount) hwf hk hd hw hsrc hdst hu'
    h1 h2
  have hcost : ∀ p, Found h dotp fuel (max n q.graph.nodeCount) q p →
      ∃ c, p.costs = some c ∧ q.graph.IsCost p.edges c := by
    rintro p ⟨al, s1, s2, p0, h8, h9, h10, _⟩
    exact (answer_costs hwf hk hd hw hsrc hdst h8 h9 h10).2.2.2.2.2.2.2
  have hlen : ∀ p, Found h dotp fuel (max n q.graph.nodeCount) q p →
      ∀ c, p.costs = some c → c.length = q'.dim := by
    intro p hp c hc
    obtain ⟨c', hc', hcost⟩ := hcost p hp
    rw [hc] at hc'
    cases hc'
    rw [t1]
    exact hcost.1
  have hF : Holds (Found h dotp fuel (max n q.graph.nodeCount) q) st :=
    h7 _ (fun _ _ _ hp hj hr => register_holds hp hj hr) (fun _ _ hj => hj)
      (update_keeps (F := Found h dotp fuel (max n q.graph.nodeCount) q)
        (fun _ _ _ hp hj hr => register_holds hp hj hr) h6 (by intro _ _ h; cases h) h4)
  have hT : Fits q' coords st :=
    h7 _ (fun _ p _ hp hj hr => register_fits hb (hlen p hp) hj hr) (fun _ _ hj => ⟨hj.found, hj.tolerated⟩)
      (update_keeps (F := Found h dotp fuel (max n q.graph.nodeCount) q)
        (fun _ p _ hp hj hr => register_fits hb (hlen p hp) hj hr) h6
        ⟨(by intro _ _ h; cases h), (by intro _ h; cases h)⟩ h4)
  obtain ⟨k, hkt, hkf⟩ := forall₂_mem_right (collect_ok h5).1 hp
  have hnone : ∀ (i : Nat) t, q'.considered[i]? = some false → q'.tolerances[i]? = some t → t = none := by
    intro i t hc ht
    rcases t4 i t ht with ⟨_, h⟩ | ⟨h, _⟩
    · exact h
    · rw [t2, start_considered.mpr h] at hc
      cases hc
  obtain ⟨c, hc, htol⟩ := fits_tolerates hnone hT hkt hkf
  obtain ⟨c', hc', hcost⟩ := hcost p (hF k p hkf)
  rw [hc] at hc'
  cases hc'
  rw [tolerates_iff] at htol
  have hti : i < q'.tolerances.length := by omega
  have htget : q'.tolerances[i]? = some q'.tolerances[i] := List.getElem?_eq_getElem hti
  rcases t4 i _ htget with ⟨h8, _⟩ | ⟨_, h8⟩
  · exact absurd ⟨a, ha, h0⟩ h8
  · rcases h8 with ⟨_, s1, s2, h9, h10⟩ | ⟨s1, s2, best, h9, h10, sc, h11, h12⟩
    · exact ⟨s1, s2, none, h9, h10, fun _ h => nomatch h⟩
    · refine ⟨s1, s2, some best, h9, h10, fun best' hb => ?_⟩
      cases hb
      rw [hx] at h11
      cases h11
      rcases h12 with ⟨h12, _⟩ | ⟨x', h12, h13⟩
      · cases h12
      · cases h12
        exact htol i _ _ (isCost_get hcost hi) (by rw [htget, h13])

end

section
variable {h : Heap ℚ} {b : Backend} {fuel n : Nat} {s s' : Dij.St ℚ} {q : Dij.Query ℚ}
  {scales : List (Option ℚ)} {res : List Path}

/-- The same without mentioning the router: if the router answers cheapest routes for single metrics, a
returned path costs less than the scale times the cost of any route, up to the accuracy. -/
theorem within_of {coords : b.Tri → Nat → Option (List ℚ)} (hb : Sound b coords)
    (hwf : q.graph.WellFormed) (hd : q.graph.DimOk) (hm : NonnegMetrics q.graph)
    (hsrc : q.src < q.graph.nodeCount) (hdst : q.dst < q.graph.nodeCount) (hu : Used h dot n s)
    (he : fullyExplorate h dot b fuel s q scales = some (.ok (s', res))) {p : Path} (hp : p ∈ res)
    {i : Nat} {a x : ℚ} (hi : i < q.graph.dim) (ha : q.alphas[i]? = some a) (h0 : 0 < a)
    (hx : scales[i]? = some (some x)) (hx0 : 0 ≤ x)
    (hopt : ∀ s s' best, Used h dot (max n q.graph.nodeCount) s → computeBestPath h dot fuel s
        { q with alphas := unit q.graph.dim i } = some (.ok (s', some best)) →
      ∀ l, q.graph.IsRoute q.src l q.dst → routeCost q.graph (unit q.graph.dim i) best.edges ≤
        routeCost q.graph (unit q.graph.dim i) l)
    (hnone : ∀ s s', Used h dot (max n q.graph.nodeCount) s → computeBestPath h dot fuel s
        { q with alphas := unit q.graph.dim i } = some (.ok (s', none)) →
      ¬ ∃ l, q.graph.IsRoute q.src l q.dst)
    {l : List Nat} (hl : q.graph.IsRoute q.src l q.dst) :
    metricCost q.graph i p.edges < metricCost q.graph i l * x + 3 / 2000000 := by
  obtain ⟨s1, s2, ans, h1, h2, h3⟩ := C46_tolerated hb hwf Search.addOk_rat hd
    (fun al hal => Dij.weights_nonneg hal hm) hsrc hdst hu he hp hi ha h0 hx
  cases ans with
  | none => exact absurd ⟨l, hl⟩ (hnone s1 s2 h1 h2)
  | some best =>
    have h4 := hopt s1 s2 best h1 h2 l hl
    have hr := (Dij.C13_route (q := { q with alphas := unit q.graph.dim i }) hwf Search.addOk_rat
      (Dij.weights_nonneg (Dij.computed_valid h2).2 hm) hsrc hdst h1 h2).1
    rw [routeCost_unit hd hi (by rw [hwf.metrics_len]; exact Par.isRoute_lt hr),
      routeCost_unit hd hi (by rw [hwf.metrics_len]; exact Par.isRoute_lt hl)] at h4
    have h5 := h3 best rfl
    have := mul_le_mul_of_nonneg_right h4 hx0
    linarith

theorem unit_nonneg (dim i : Nat) : ∀ a ∈ unit dim i, (0 : ℚ) ≤ a := by
  intro a ha
  obtain ⟨j, _, rfl⟩ := List.mem_map.mp ha
  split <;> norm_num

/-- With Dijkstra and exact comparisons, a returned path costs in every considered metric less than the
tolerated scale times the cost of any route, up to the accuracy. -/
theorem C46_within {coords : b.Tri → Nat → Option (List ℚ)} (hb : Sound b coords)
    (hwf : q.graph.WellFormed) (hd : q.graph.DimOk) (hm : NonnegMetrics q.graph)
    (halg : q.algo = .dijkstra)
    (hsrc : q.src < q.graph.nodeCount) (hdst : q.dst < q.graph.nodeCount)
    (hu : Used (Dij.binHeap compare) dot n s)
    (he : fullyExplorate (Dij.binHeap compare) dot b fuel s q scales = some (.ok (s', res)))
    {p : Path} (hp : p ∈ res)
    {i : Nat} {a x : ℚ} (hi : i < q.graph.dim) (ha : q.alphas[i]? = some a) (h0 : 0 < a)
    (hx : scales[i]? = some (some x)) (hx0 : 0 ≤ x) {l : List Nat}
    (hl : q.graph.IsRoute q.src l q.dst) :
    metricCost q.graph i p.edges < metricCost q.graph i l * x + 3 / 2000000 :=
  within_of hb hwf hd hm hsrc hdst hu he hp hi ha h0 hx hx0
    (fun _ _ _ h1 h2 => Dij.C14_exact_comparison (q := { q with alphas := unit q.graph.dim i }) hwf hm
      halg hsrc hdst h1 h2)
    (fun _ _ h1 h2 => (Dij.C15_none_iff (q := { q with alphas := unit q.graph.dim i }) hwf Search.addOk_rat
      (Dij.weights_nonneg (unit_nonneg _ _) hm) (unit_nonneg _ _) halg hsrc hdst h1 h2).mp rfl) hl

/-- The same for ch-dijkstra on graphs where every route can be replaced by one that goes up and then
down, with the approximate comparison of the code, if the metrics are multiples of some step that is at
least 1.5 times the accuracy. Without the step, it is false, see `C20_false_near_ties`. -/
theorem C46_within_code_partial {coords : b.Tri → Nat → Option (List ℚ)} {u : ℚ} (hb : Sound b coords)
    (hwf : q.graph.WellFormed) (hd : q.graph.DimOk) (hm : NonnegMetrics q.graph)
    (halg : q.algo = .dijkstra ∨ q.algo = .chDijkstra ∧
      ∀ i, i < q.graph.dim → Dij.Hierarchy q.graph (unit q.graph.dim i))
    (hsrc : q.src < q.graph.nodeCount) (hdst : q.dst < q.graph.nodeCount)
    (hgrid : ∀ m ∈ q.graph.metrics, ∀ y ∈ m, ∃ k : ℤ, y = k * u) (hstep : 3 / 2000000 ≤ u)
    (hu : Used Dij.codeHeap dot n s)
    (he : fullyExplorate Dij.codeHeap dot b fuel s q scales = some (.ok (s', res)))
    {p : Path} (hp : p ∈ res)
    {i : Nat} {a x : ℚ} (hi : i < q.graph.dim) (ha : q.alphas[i]? = some a) (h0 : 0 < a)
    (hx : scales[i]? = some (some x)) (hx0 : 0 ≤ x) {l : List Nat}
    (hl : q.graph.IsRoute q.src l q.dst) :
    metricCost q.graph i p.edges < metricCost q.graph i l * x + 3 / 2000000 := by
  have hg : ∀ m ∈ q.graph.metrics, ∃ k : ℤ,
      (List.zipWith (· * ·) (unit q.graph.dim i) m).sum = k * u := by
    intro m hmem
    rw [zipWith_unit (hd m hmem) hi]
    have hlt : i < m.length := by rw [hd m hmem]; exact hi
    rw [List.getElem?_eq_getElem hlt]
    exact hgrid m hmem _ (List.getElem_mem _)
  rcases halg with halg | ⟨halg, hhi⟩
  · exact within_of hb hwf hd hm hsrc hdst hu he hp hi ha h0 hx hx0
      (fun _ _ _ h1 h2 => Dij.C14_grid_partial (q := { q with alphas := unit q.graph.dim i }) hwf hm
        halg hsrc hdst hg hstep h1 h2)
      (fun _ _ h1 h2 => (Dij.C15_none_iff (q := { q with alphas := unit q.graph.dim i }) hwf
        Search.addOk_rat (Dij.weights_nonneg (unit_nonneg _ _) hm) (unit_nonneg _ _) halg hsrc hdst h1
        h2).mp rfl) hl
  · exact within_of hb hwf hd hm hsrc hdst hu he hp hi ha h0 hx hx0
      (fun _ _ _ h1 h2 => (Dij.C20_code_partial (q := { q with alphas := unit q.graph.dim i }) hwf hm
        (hhi i hi) halg hsrc hdst h1 hg hstep h2).2)
      (fun _ _ h1 h2 => (Dij.C20_none_iff (q := { q with alphas := unit q.graph.dim i }) hwf hm (hhi i hi)
        (unit_nonneg _ _) halg hsrc hdst h1 h2).mp rfl) hl

/-- With Dijkstra and exact comparisons, every returned path is a cheapest route for some alphas, which
are not negative and not all zero. -/
theorem C46_preferred (hwf : q.graph.WellFormed) (hd : q.graph.DimOk) (hm : NonnegMetrics q.graph)
    (halg : q.algo = .dijkstra)
    (hsrc : q.src < q.graph.nodeCount) (hdst : q.dst < q.graph.nodeCount)
    (hu : Used (Dij.binHeap compare) dot n s)
    (he : fullyExplorate (Dij.binHeap compare) dot b fuel s q scales = some (.ok (s', res)))
    {p : Path} (hp : p ∈ res) :
    ∃ al, (∀ a ∈ al, 0 ≤ a) ∧ (∃ a ∈ al, 0 < a) ∧ ∀ l, q.graph.IsRoute q.src l q.dst →
      routeCost q.graph al p.edges ≤ routeCost q.graph al l := by
  obtain ⟨al, s1, s2, p0, h1, h2, h3, h4, h5⟩ := C46_found hwf Search.addOk_rat hd
    (fun al hal => Dij.weights_nonneg hal hm) hsrc hdst hu he hp
  refine ⟨al, h1, h2, fun l hl => ?_⟩
  rw [h5]
  exact Dij.C14_exact_comparison (q := { q with alphas := al }) hwf hm halg hsrc hdst h3 h4 l hl

end

section
variable {K : Type} [LinearOrder K] [Zero K] [Add K] {h : Heap K} {dotp : List ℚ → List ℚ → K}
  {b : Backend} {fuel n : Nat} {s s' : Dij.St K} {q : Dij.Query K} {scales : List (Option ℚ)}
  {res : List Path}

theorem update_nonempty {q : Query} {st st' : St b} {new : List Path}
    (hq : ∀ t ∈ q.tolerances, t = none) (hn : new ≠ []) (h : update b q st new = .ok st') :
    st'.tolerated ≠ [] := by
  cases new with
  | nil => exact absurd rfl hn
  | cons p new =>
    unfold update at h
    rw [List.foldlM_cons] at h
    obtain ⟨st1, h1, h⟩ := Res.bind_eq_ok.mp h
    have key : ∀ st p st', register b q st p = .ok st' → st'.tolerated ≠ [] := by
      intro st p st' hr
      obtain ⟨c, x, id, tri, _, _, _, _, _, he⟩ := register_ok hr
      rw [he, if_pos]
      · simp
      · rw [tolerates_iff]
        intro i y t _ ht
        have := hq _ (List.mem_of_getElem? ht)
        cases this
    exact update_keeps (F := fun _ => True) (J := fun st => st.tolerated ≠ [])
      (fun st p st' _ _ hr => key st p st' hr) (fun _ _ => trivial) (key _ _ _ h1) h

/-- If all scales are infinite and some metric is considered, nothing is returned iff there is no route, if the router
finds none for this metric only if there is none. -/
theorem complete_of (hwf : q.graph.WellFormed) (hk : AddOk K) (hd : q.graph.DimOk)
    (hw : ∀ al, (∀ a ∈ al, 0 ≤ a) → ∀ m ∈ q.graph.metrics, 0 ≤ dotp al m)
    (hsrc : q.src < q.graph.nodeCount) (hdst : q.dst < q.graph.nodeCount) (hu : Used h dotp n s)
    (hinf : ∀ sc ∈ scales, sc = none)
    {i : Nat} {a : ℚ} (hi : i < q.graph.dim) (ha : q.alphas[i]? = some a) (h0 : 0 < a)
    (hnone : ∀ s2 s3, Used h dotp (max n q.graph.nodeCount) s2 →
      computeBestPath h dotp fuel s2 { q with alphas := unit q.graph.dim i } = some (.ok (s3, none)) →
      ¬ ∃ l, q.graph.IsRoute q.src l q.dst)
    (he : fullyExplorate h dotp b fuel s q scales = some (.ok (s', res))) :
    res = [] ↔ ¬ ∃ l, q.graph.IsRoute q.src l q.dst := by
  constructor
  · rintro rfl ⟨l, hl⟩
    have hu' := hu.mono (le_max_left n q.graph.nodeCount)
    obtain ⟨init, s1, q', new, st0, st, h1, h2, _, h4, h5, _, h6, h7⟩ :=
      explorate_ok (used_step (le_max_right n q.graph.nodeCount)) hu' he
    obtain ⟨t1, t2, t3, t4⟩ := tolerance_cases (le_max_right n q.graph.nodeCount) hwf hk hd hw hsrc hdst
      hu' h1 h2
    have htol : ∀ t ∈ q'.tolerances, t = none := by
      intro t ht
      obtain ⟨j, hj⟩ := List.mem_iff_getElem?.mp ht
      rcases t4 j t hj with ⟨_, h⟩ | ⟨_, ⟨h, _⟩ | ⟨_, _, _, _, _, sc, h8, h9⟩⟩
      · exact h
      · exact h
      · rcases h9 with ⟨_, h9⟩ | ⟨x, h9, _⟩
        · exact h9
        · have := hinf sc (List.mem_of_getElem? h8)
          rw [h9] at this
          cases this
    have hnz : ∀ mi al, (mi, al) ∈ init → ∃ a ∈ al, a ≠ (0 : ℚ) := by
      intro mi al hm
      obtain ⟨_, _, ⟨x, hx, rfl⟩, _⟩ := ((C47_combinations h1).2 al).mp (List.mem_map.mpr ⟨_, hm, rfl⟩)
      exact ⟨1, hx, one_ne_zero⟩
    have hnew : new ≠ [] := by
      intro hc
      obtain ⟨_, _, _, _, _, _, k7⟩ := exploreInit_ok (used_step (le_max_right n q.graph.nodeCount)) hu'
        hnz h2
      obtain ⟨s2, s3, h8, h9⟩ := k7 hc _ _ ((unit_mem h1).mpr ⟨hi, start_considered.mpr ⟨a, ha, h0⟩, rfl⟩)
      exact hnone s2 s3 h8 h9 ⟨l, hl⟩
    have hst0 := update_nonempty htol hnew h4
    have hst : st.tolerated ≠ [] := by
      refine h7 (fun st => st.tolerated ≠ []) (fun st p st' _ hj hr => ?_) (fun _ _ hj => hj) hst0
      obtain ⟨c, x, id, tri, _, _, _, _, _, e⟩ := register_ok hr
      rw [e]
      split
      · simp
      · exact hj
    have := (collect_ok h5).1
    revert this
    cases htt : st.tolerated with
    | nil => exact absurd htt hst
    | cons k ks => intro h; cases h
  · intro hno
    cases hres : res with
    | nil => rfl
    | cons p ps =>
      exfalso
      apply hno
      exact ⟨p.edges, (C46_route hwf hk hd hw hsrc hdst hu he (p := p) (by rw [hres]; simp)).1⟩

/-- If all scales are infinite and some metric is considered, nothing is returned iff there is no
route. -/
theorem C46_complete (hwf : q.graph.WellFormed) (hk : AddOk K) (hd : q.graph.DimOk)
    (hw : ∀ al, (∀ a ∈ al, 0 ≤ a) → ∀ m ∈ q.graph.metrics, 0 ≤ dotp al m) (halg : q.algo = .dijkstra)
    (hsrc : q.src < q.graph.nodeCount) (hdst : q.dst < q.graph.nodeCount) (hu : Used h dotp n s)
    (hinf : ∀ sc ∈ scales, sc = none)
    {i : Nat} {a : ℚ} (hi : i < q.graph.dim) (ha : q.alphas[i]? = some a) (h0 : 0 < a)
    (he : fullyExplorate h dotp b fuel s q scales = some (.ok (s', res))) :
    res = [] ↔ ¬ ∃ l, q.graph.IsRoute q.src l q.dst := by
  exact complete_of hwf hk hd hw hsrc hdst hu hinf hi ha h0 (fun s2 s3 h8 h9 =>
    (Dij.C15_none_iff (q := { q with alphas := unit q.graph.dim i }) hwf hk
      (hw _ (unit_nonneg _ _)) (unit_nonneg _ _) halg hsrc hdst h8 h9).mp rfl) he

end

section
variable {K : Type} [LinearOrder K] [Zero K] [Add K] {h : Heap K} {dotp : List ℚ → List ℚ → K}
  {b : Backend} {fuel n : Nat} {s s' : Dij.St K} {q : Dij.Query K} {scales : List (Option ℚ)}

theorem compute_np (hwf : q.graph.WellFormed) (hk : AddOk K)
    (hw : ∀ al, (∀ a ∈ al, 0 ≤ a) → ∀ m ∈ q.graph.metrics, 0 ≤ dotp al m)
    (halg : q.algo ≠ .explorator) (hcov : Dij.AllCovered q.graph) (h2 : q.graph.nodeCount ≠ 2)
    (hsrc : q.src < q.graph.nodeCount) (hdst : q.dst < q.graph.nodeCount) (hu : Used h dotp n s)
    (hn : n ≤ q.graph.nodeCount) (al : List ℚ) :
    computeBestPath h dotp fuel s { q with alphas := al } ≠ some .panic := by
  intro hp
  by_cases hal : ∀ a ∈ al, 0 ≤ a
  · obtain ⟨N, hN⟩ := Dij.C15_answers_partial (q := { q with alphas := al }) hwf hk (hw al hal) halg hcov h2
      hsrc hdst hu hn
    obtain ⟨s', ans, h3⟩ := hN N le_rfl
    cases Dij.compute_unique hp h3
  · push Not at hal
    obtain ⟨a, h3, h4⟩ := hal
    unfold computeBestPath at hp
    rw [if_pos (List.any_eq_true.mpr ⟨a, h3, by simpa using h4⟩)] at hp
    cases hp

/-- The explorator does not panic with less than 32 metrics, if triangulation and solver are regular and
if the router does not panic, see `C15_answers_partial`. -/
theorem C46_no_panic {coords : b.Tri → Nat → Option (List ℚ)} {size : b.Tri → Nat}
    (hb : Regular b coords size) (hwf : q.graph.WellFormed) (hk : AddOk K) (hd : q.graph.DimOk)
    (hw : ∀ al, (∀ a ∈ al, 0 ≤ a) → ∀ m ∈ q.graph.metrics, 0 ≤ dotp al m)
    (halg : q.algo ≠ .explorator) (hcov : Dij.AllCovered q.graph) (h2 : q.graph.nodeCount ≠ 2)
    (hsrc : q.src < q.graph.nodeCount) (hdst : q.dst < q.graph.nodeCount) (hu : Used h dotp n s)
    (hn : n ≤ q.graph.nodeCount) (hdim : q.graph.dim < 32) (hal : q.alphas.length = q.graph.dim)
    (hsc : scales.length = q.graph.dim) : fullyExplorate h dotp b fuel s q scales ≠ some .panic := by
  refine explorate_np (I := Used h dotp q.graph.nodeCount) rfl ⟨?_, ?_, ?_⟩ hb hdim hal hsc (hu.mono hn)
  · exact fun s al hs => compute_np hwf hk hw halg hcov h2 hsrc hdst hs le_rfl al
  · exact used_step le_rfl
  · intro s al s' p hs hp
    obtain ⟨h1, _, _, _, _, h6⟩ := Dij.C13_route (q := { q with alphas := al }) hwf hk
      (hw al (Dij.computed_valid hp).2) hsrc hdst hs hp
    obtain ⟨c, h7, h8⟩ := Path.C23_calc_costs hd (p := p)
      (by rw [hwf.metrics_len]; exact Par.isRoute_lt h1) h6
    exact ⟨_, h7, c, rfl, h8.1⟩

end

/-! ## Examples and counterexamples -/

def edge (a b : Int) (m : List ℚ) : Build.ProtoEdge :=
  { id := none, srcId := a, dstId := b, metrics := m, sc := none }

/-- Four routes from `0` to `5` with the costs `(1, 10)`, `(10, 1)`, `(4, 4)` and `(2, 7)`. -/
def altBuild : Build.R Graph :=
  Build.build 2 [edge 0 1 [1 / 2, 5], edge 1 5 [1 / 2, 5], edge 0 2 [5, 1 / 2], edge 2 5 [5, 1 / 2],
    edge 0 3 [2, 2], edge 3 5 [2, 2], edge 0 4 [1, 3], edge 4 5 [1, 4], edge 5 0 [1, 1]]
    (Dij.lvNodes 0 [0, 0, 0, 0, 0, 0])

def altGraph : Graph := Dij.okGraph altBuild

theorem alt_build : altBuild = .ok altGraph := by decide +kernel

theorem alt_wf : altGraph.WellFormed := Build.built_wellFormed alt_build

theorem alt_dim : altGraph.DimOk := by
  have : altGraph.metrics.all (fun m => m.length = altGraph.dim) = true := by decide +kernel
  exact fun m hm => by simpa using List.all_eq_true.mp this m hm

theorem alt_nonneg : NonnegMetrics altGraph := by
  have : altGraph.metrics.all (fun m => m.all (fun x => decide (0 ≤ x))) = true := by decide +kernel
  exact fun m hm x hx => by simpa using List.all_eq_true.mp (List.all_eq_true.mp this m hm) x hx

theorem alt_covered : Dij.AllCovered altGraph := Dij.allCovered_of (by decide +kernel)

def altQuery : Dij.Query ℚ := { src := 0, dst := 5, graph := altGraph, algo := .dijkstra, alphas := [1, 1] }

/-- Cramer's rule for two unknowns. -/
def cramer : List (List ℚ) → List ℚ → R (Option (List ℚ))
  | [[a, b], [c, d]], [x, y] =>
    .ok (if a * d - b * c = 0 then none
      else some [(x * d - b * y) / (a * d - b * c), (a * y - x * c) / (a * d - b * c)])
  | _, _ => .ok none

/-- The lower convex hull of the routes of `altGraph`. -/
def altCells (t : Nat × List (List ℚ)) : List RawCell :=
  if t.1 = 2 ∧ t.2.length = 3 then [⟨0, [0, 2]⟩, ⟨1, [2, 1]⟩]
  else if t.1 = 2 ∧ t.2.length = 4 then [⟨2, [0, 3]⟩, ⟨3, [3, 2]⟩, ⟨1, [2, 1]⟩]
  else []

/-- Vertices are numbered. -/
def listBackend : Backend where
  Tri := Nat × List (List ℚ)
  new d := (d, [])
  addVertex t x := .ok (t.2.length, (t.1, t.2 ++ [x]))
  cells := altCells
  solve := cramer

theorem list_regular : Regular listBackend (fun t id => t.2[id]?) (fun t => t.1) where
  new _ _ := rfl
  added := by
    intro t x id t' h
    simp only [listBackend, Res.ok.injEq] at h
    obtain ⟨rfl, rfl⟩ := h
    refine ⟨by simp, .inl (by simp), fun j hj => ?_⟩
    simp only [List.getElem?_append]
    split
    · rfl
    · rw [List.getElem?_eq_none (by simp; omega), List.getElem?_eq_none (by omega)]
  size_new _ := rfl
  add t x _ := ⟨_, _, rfl, by simp, rfl⟩
  cells := by
    intro t c hc
    simp only [listBackend, altCells] at hc
    split at hc
    · rename_i h
      have : ∀ v, v < 3 → t.2[v]? ≠ none := fun v hv => by simp; omega
      simp only [List.mem_cons, List.not_mem_nil, or_false] at hc
      rcases hc with rfl | rfl <;> simp [h.1] <;> omega
    · split at hc
      · rename_i h
        simp only [List.mem_cons, List.not_mem_nil, or_false] at hc
        rcases hc with rfl | rfl | rfl <;> simp [h.1] <;> omega
      · cases hc
  solve m rhs _ _ := by
    simp only [listBackend]
    unfold cramer
    split <;> exact ⟨_, rfl⟩

/-- The edges of the paths. -/
def edgesOf (r : Option (R (Dij.St ℚ × List Path))) : Option (R (List (List Nat))) :=
  r.map fun x => do
    let x ← x
    pure (x.2.map (·.edges))

/-- All routes are found if all scales are infinite, the last one in the loop. With a scale of three for
the first metric, two of them remain. -/
example : edgesOf (fullyExplorate Dij.codeHeap dot listBackend 30 Dij.St.new altQuery [none, none]) =
      some (.ok [[0, 4], [1, 5], [2, 6], [3, 7]]) ∧
    edgesOf (fullyExplorate (Dij.binHeap compare) dot listBackend 30 Dij.St.new altQuery [none, none]) =
      some (.ok [[0, 4], [1, 5], [2, 6], [3, 7]]) ∧
    edgesOf (fullyExplorate Dij.codeHeap dot listBackend 30 Dij.St.new altQuery [some 3, none]) =
      some (.ok [[0, 4], [3, 7]]) := by decide +kernel

/-- The hypotheses of the theorems above hold for it. -/
example : altGraph.WellFormed ∧ altGraph.DimOk ∧ NonnegMetrics altGraph ∧ Dij.AllCovered altGraph ∧
    (∀ al, (∀ a ∈ al, 0 ≤ a) → ∀ m ∈ altGraph.metrics, 0 ≤ dot al m) ∧
    (∀ m ∈ altGraph.metrics, ∀ y ∈ m, ∃ k : ℤ, y = k * (1 / 2)) ∧ (3 / 2000000 : ℚ) ≤ 1 / 2 ∧
    altGraph.nodeCount = 6 ∧ altGraph.dim = 2 ∧ Used Dij.codeHeap dot 6 (Dij.St.new : Dij.St ℚ) := by
  refine ⟨alt_wf, alt_dim, alt_nonneg, alt_covered, fun al hal => Dij.weights_nonneg hal alt_nonneg, ?_,
    by norm_num, by decide +kernel, by decide +kernel, .new⟩
  have hm : altGraph.metrics.all (fun m => m.all fun y => (2 * y).den = 1) = true := by decide +kernel
  intro m h1 y h2
  have h3 : (2 * y).den = 1 := by
    simpa using List.all_eq_true.mp (List.all_eq_true.mp hm m h1) y h2
  refine ⟨(2 * y).num, ?_⟩
  have h4 := Rat.coe_int_num_of_den_eq_one h3
  rw [h4]
  ring

/-- Every vertex gets the same id. -/
def sameIdBackend : Backend := { listBackend with addVertex := fun t x => .ok (0, (t.1, t.2 ++ [x])) }

/-- Without `Sound`, `C46_tolerated` is false: the best route costs 1, the scale is 3 and a route with
cost 4 is returned. -/
theorem C46_false_unsound :
    edgesOf (fullyExplorate Dij.codeHeap dot sameIdBackend 30 Dij.St.new altQuery [some 3, none]) =
      some (.ok [[2, 6]]) ∧ metricCost altGraph 0 [2, 6] = 4 ∧ altGraph.IsRoute 0 [0, 4] 5 ∧
      metricCost altGraph 0 [0, 4] = 1 := by
  refine ⟨by decide +kernel, by decide +kernel, ⟨1, ⟨by decide +kernel, by decide +kernel⟩, 5,
    ⟨by decide +kernel, by decide +kernel⟩, rfl⟩, by decide +kernel⟩

/-- Two routes from `0` to `3` that differ in the third metric only: `(12, 12, 2)` and `(12, 12, 3)`. -/
def twinBuild : Build.R Graph :=
  Build.build 3 [edge 0 1 [3, 3, 1], edge 1 3 [9, 9, 1], edge 0 2 [4, 1, 2], edge 2 3 [8, 11, 1],
    edge 3 0 [1, 1, 1]] (Dij.lvNodes 0 [0, 0, 0, 0])

def twinGraph : Graph := Dij.okGraph twinBuild

theorem twin_build : twinBuild = .ok twinGraph := by decide +kernel

def twinQuery : Dij.Query ℚ :=
  { src := 0, dst := 3, graph := twinGraph, algo := .dijkstra, alphas := [1, 1, 0] }

/-- A vertex with known coordinates gets its old id. -/
def dedupBackend : Backend :=
  { listBackend with addVertex := fun t x =>
      if x ∈ t.2 then .ok (t.2.idxOf x, t) else .ok (t.2.length, (t.1, t.2 ++ [x])) }

theorem dedup_sound : Sound dedupBackend (fun t id => t.2[id]?) where
  new _ _ := rfl
  added := by
    intro t x id t' h
    simp only [dedupBackend] at h
    split at h
    · rename_i hx
      simp only [Res.ok.injEq] at h
      obtain ⟨rfl, rfl⟩ := h
      have : t.2[t.2.idxOf x]? = some x := by
        rw [List.getElem?_eq_getElem (List.idxOf_lt_length_of_mem hx), List.getElem_idxOf]
      exact ⟨this, .inr this, fun _ _ => rfl⟩
    · exact list_regular.added t x id t' h

/-- A triangulation that gives the old id to known coordinates is sound, but makes the explorator panic:
paths are compared by all metrics and registered by the considered ones, so an id is tolerated twice.
With a fresh id, both paths are returned. -/
theorem C46_false_twins :
    edgesOf (fullyExplorate Dij.codeHeap dot dedupBackend 30 Dij.St.new twinQuery [none, none, none]) =
      some .panic ∧
    edgesOf (fullyExplorate Dij.codeHeap dot listBackend 30 Dij.St.new twinQuery [none, none, none]) =
      some (.ok [[1, 3], [0, 2]]) := by decide +kernel

/-- A cell with more vertices than dimensions plus one. -/
def wideBackend : Backend := { listBackend with cells := fun _ => [⟨0, [0, 1, 2, 0]⟩] }

/-- A cell with an unknown vertex. -/
def strangeBackend : Backend := { listBackend with cells := fun _ => [⟨0, [0, 7]⟩] }

/-- The conditions on the cells in `Regular` are needed for `C46_no_panic`. (An empty cell undercuts no
tolerance and is skipped.) -/
theorem C46_false_cells :
    edgesOf (fullyExplorate Dij.codeHeap dot wideBackend 30 Dij.St.new altQuery [none, none]) =
      some .panic ∧
    edgesOf (fullyExplorate Dij.codeHeap dot strangeBackend 30 Dij.St.new altQuery [none, none]) =
      some .panic := by decide +kernel

end Verif.Exp
