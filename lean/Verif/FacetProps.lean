import Verif.FacetLemmas
import Verif.CompleteProps

/-!
# Property C81: every facet of the lower convex hull of the answer is final

For any number of metrics, without tolerances: no route lies below a facet of the lower convex hull of the found
routes. With three or more metrics, a route can still be best for some weights without being found.
-/

namespace Verif.Exp

open Dij (R Heap Used NonnegMetrics computeBestPath routeCost weights_nonneg)
open Search (addOk_rat)

/-! ## Helper lemmas -/

theorem weigh_add {x c d : List ℚ} (h : c.length = d.length) :
    weigh x (List.zipWith (· + ·) c d) = weigh x c + weigh x d := by
  unfold weigh
  induction x generalizing c d with
  | nil => simp
  | cons a x ih =>
    match c, d, h with
    | [], [], _ => simp
    | c :: cs, d :: ds, h =>
      simp only [List.zipWith_cons_cons, List.sum_cons]
      rw [ih (by simpa using h)]
      ring

theorem weigh_zeros (x : List ℚ) (n : Nat) : weigh x (List.replicate n 0) = 0 := by
  unfold weigh
  induction n generalizing x with
  | zero => simp
  | succ n ih =>
    cases x with
    | nil => simp
    | cons a x => simp [List.replicate_succ, ih]

theorem routeCost_weighs {g : Graph} (hd : g.DimOk) {l : List Nat} (hl : ∀ e ∈ l, e < g.metrics.length)
    {c : List ℚ} (hc : g.IsCost l c) (al : List ℚ) : routeCost g al l = weigh al c := by
  have hcl := hc.1
  induction l generalizing c with
  | nil =>
    have : c = List.replicate g.dim 0 := by
      refine List.ext_getElem? fun k => ?_
      by_cases hk : k < g.dim
      · rw [hc.2 k hk]; simp [hk]
      · rw [List.getElem?_eq_none (by omega)]; simp; omega
    rw [this, weigh_zeros]
    simp [routeCost]
  | cons e l ih =>
    have he := hl e List.mem_cons_self
    have hm := List.getElem?_eq_getElem he
    have hml := hd _ (List.mem_of_getElem? hm)
    obtain ⟨c', hc'⟩ : ∃ c', g.IsCost l c' :=
      ⟨(List.range g.dim).map fun k => (l.map fun e => g.metric e k).sum, by simp, fun k hk => by simp [hk]⟩
    have ih := ih (fun r hr => hl r (List.mem_cons_of_mem _ hr)) hc' hc'.1
    have : c = List.zipWith (· + ·) g.metrics[e] c' := by
      refine List.ext_getElem? fun k => ?_
      by_cases hk : k < g.dim
      · rw [hc.2 k hk, List.getElem?_zipWith, hc'.2 k hk,
          List.getElem?_eq_getElem (show k < g.metrics[e].length by omega)]
        simp only [List.map_cons, List.sum_cons]
        unfold Graph.metric
        rw [hm, Option.getD_some, List.getElem?_eq_getElem (show k < g.metrics[e].length by omega), Option.getD_some]
      · rw [List.getElem?_eq_none (by omega), List.getElem?_eq_none (by simp; omega)]
    rw [this, weigh_add (by rw [hml, hc'.1]), ← ih]
    unfold routeCost
    rw [List.map_cons, List.sum_cons, hm, Option.getD_some]
    rfl

section
variable {b : Backend} {fuel n : Nat} {s s' : Dij.St ℚ} {q : Dij.Query ℚ} {scales : List (Option ℚ)}
  {coords : b.Tri → Nat → Option (List ℚ)} {size : b.Tri → Nat} {h : Heap ℚ}

theorem asker (hwf : q.graph.WellFormed) (hd : q.graph.DimOk)
    (hm : NonnegMetrics q.graph) (halg : q.algo = .dijkstra) (hsrc : q.src < q.graph.nodeCount)
    (hdst : q.dst < q.graph.nodeCount) {slack : ℚ}
    (hopt : ∀ al s s' p, Used h dot n s →
      computeBestPath h dot fuel s { q with alphas := al } = some (.ok (s', some p)) →
      ∀ l, q.graph.IsRoute q.src l q.dst → routeCost q.graph al p.edges ≤ routeCost q.graph al l + slack) :
    Asker (fun s al => computeBestPath h dot fuel s { q with alphas := al }) q.graph (Used h dot n)
      (IsRouteCost q.graph q.src q.dst) slack := by
  have hw : ∀ al, (∀ a ∈ al, 0 ≤ a) → ∀ m ∈ q.graph.metrics, 0 ≤ dot al m := fun al hal =>
    weights_nonneg hal hm
  constructor
  · intro s al s' p0 p c hu hc hp hcp
    obtain ⟨k1, k2, _, _, _, _, k7, c', k8, k9⟩ := answer_costs hwf addOk_rat hd hw hsrc hdst hu hc hp
    rw [hcp] at k8
    cases k8
    refine ⟨⟨p.edges, k1, k9⟩, fun hal e he => ?_⟩
    obtain ⟨l, hl, hle⟩ := he
    have hlt : ∀ e ∈ l, e < q.graph.metrics.length := by
      rw [hwf.metrics_len]
      exact Par.isRoute_lt hl
    have := hopt al s s' p0 hu hc l hl
    rwa [← k2, routeCost_weighs hd k7 k9, routeCost_weighs hd hlt hle] at this
  · intro s al s' hu hal hc e he
    obtain ⟨l, hl, _⟩ := he
    exact (Dij.C15_none_iff (q := { q with alphas := al }) hwf addOk_rat (hw al hal) hal halg hsrc hdst hu hc).mp rfl
      ⟨l, hl⟩

theorem facets {slack : ℚ} (hb : Regular b coords size) (hl : Lower b coords size)
    (hg : Covering ((q.alphas.map fun a => decide (0 < a)).count true) b coords size)
    (hsol : Solver q.graph.dim b.solve) (hwf : q.graph.WellFormed) (hd : q.graph.DimOk)
    (hm : NonnegMetrics q.graph) (halg : q.algo = .dijkstra) (hsrc : q.src < q.graph.nodeCount)
    (hdst : q.dst < q.graph.nodeCount)
    (hopt : ∀ n al s s' p, Used h dot n s →
      computeBestPath h dot fuel s { q with alphas := al } = some (.ok (s', some p)) →
      ∀ l, q.graph.IsRoute q.src l q.dst → routeCost q.graph al p.edges ≤ routeCost q.graph al l + slack)
    (hu : Used h dot n s) (hal : q.alphas.length = q.graph.dim) (hsc : ∀ sc ∈ scales, sc = none) {res : List Path}
    (hone : 1 < (q.alphas.map fun a => decide (0 < a)).count true)
    (hstart : (q.alphas.map fun a => decide (0 < a)).count true < res.length)
    (hr : fullyExplorate h dot b fuel s q scales = some (.ok (s', res))) {cs : List (List ℚ)} {x : List ℚ}
    (hf : LowerFacet (fun c => ∃ p ∈ res, p.costs = some c) (q.alphas.map fun a => decide (0 < a)) cs x)
    {c e : List ℚ} (hc : c ∈ cs) (he : IsRouteCost q.graph q.src q.dst e) :
    weigh x c < weigh x e + (3 / 2000000 + slack) := by
  have hw : ∀ al, (∀ a ∈ al, 0 ≤ a) → ∀ m ∈ q.graph.metrics, 0 ≤ dot al m := fun al hal =>
    weights_nonneg hal hm
  obtain ⟨i, j, ha⟩ := compute_serves (h := h) (dotp := dot) (q := q) (n := max n q.graph.nodeCount) hwf addOk_rat
    hd hw hsrc hdst (le_max_right _ _)
  have hrt := asker (n := max n q.graph.nodeCount) hwf hd hm halg hsrc hdst (hopt _)
  unfold fullyExplorate at hr
  exact explorate_facets (ha fuel) hrt hl hb hal hg hsol hsc (hu.mono (le_max_left _ _)) hone hstart hr hf hc he

/-! ## C81 -/

/-- If more routes are found than metrics are considered, no route is below a facet of the lower convex hull of the
found routes, up to `1.5e-6`. -/
theorem C81_facets (hb : Regular b coords size) (hl : Lower b coords size)
    (hg : Covering ((q.alphas.map fun a => decide (0 < a)).count true) b coords size)
    (hsol : Solver q.graph.dim b.solve) (hwf : q.graph.WellFormed) (hd : q.graph.DimOk)
    (hm : NonnegMetrics q.graph) (halg : q.algo = .dijkstra) (hsrc : q.src < q.graph.nodeCount)
    (hdst : q.dst < q.graph.nodeCount) (hu : Used (Dij.binHeap compare) dot n s)
    (hal : q.alphas.length = q.graph.dim) (hsc : ∀ sc ∈ scales, sc = none) {res : List Path}
    (hone : 1 < (q.alphas.map fun a => decide (0 < a)).count true)
    (hstart : (q.alphas.map fun a => decide (0 < a)).count true < res.length)
    (hr : fullyExplorate (Dij.binHeap compare) dot b fuel s q scales = some (.ok (s', res)))
    {cs : List (List ℚ)} {x : List ℚ}
    (hf : LowerFacet (fun c => ∃ p ∈ res, p.costs = some c) (q.alphas.map fun a => decide (0 < a)) cs x)
    {c e : List ℚ} (hc : c ∈ cs) (he : IsRouteCost q.graph q.src q.dst e) :
    weigh x c < weigh x e + 3 / 2000000 := by
  have := facets (slack := 0) hb hl hg hsol hwf hd hm halg hsrc hdst
    (fun n al s s' p hu hc l hl' => by
      have := Dij.C14_exact_comparison (q := { q with alphas := al }) hwf hm halg hsrc hdst hu hc l hl'
      simpa using this) hu hal hsc hone hstart hr hf hc he
  rwa [add_zero] at this

/-- The same with the approximate comparison of the code, up to the error of the router. The full property, as in
`C81_facets`, is not proved for it as paths of the router need not be optimal. -/
theorem C81_facets_partial {deg : Nat} (hb : Regular b coords size) (hl : Lower b coords size)
    (hg : Covering ((q.alphas.map fun a => decide (0 < a)).count true) b coords size)
    (hsol : Solver q.graph.dim b.solve) (hwf : q.graph.WellFormed) (hd : q.graph.DimOk)
    (hm : NonnegMetrics q.graph) (halg : q.algo = .dijkstra) (hdeg : Dij.MaxDegree q.graph deg)
    (hsrc : q.src < q.graph.nodeCount) (hdst : q.dst < q.graph.nodeCount) (hu : Used Dij.codeHeap dot n s)
    (hal : q.alphas.length = q.graph.dim) (hsc : ∀ sc ∈ scales, sc = none) {res : List Path}
    (hone : 1 < (q.alphas.map fun a => decide (0 < a)).count true)
    (hstart : (q.alphas.map fun a => decide (0 < a)).count true < res.length)
    (hr : fullyExplorate Dij.codeHeap dot b fuel s q scales = some (.ok (s', res)))
    {cs : List (List ℚ)} {x : List ℚ}
    (hf : LowerFacet (fun c => ∃ p ∈ res, p.costs = some c) (q.alphas.map fun a => decide (0 < a)) cs x)
    {c e : List ℚ} (hc : c ∈ cs) (he : IsRouteCost q.graph q.src q.dst e) :
    weigh x c < weigh x e + (3 / 2000000 + 2 * ((2 + fuel * (deg + 2)) * (3 / 2000000))) :=
  facets hb hl hg hsol hwf hd hm halg hsrc hdst
    (fun _ al _ _ _ hu hc l hl' =>
      Dij.C14_near_optimal_partial (q := { q with alphas := al }) hwf hm halg hdeg hsrc hdst hu hc l hl')
    hu hal hsc hone hstart hr hf hc he

end

/-! ## A triangulation in space -/

theorem weigh_three (a b c x y z : ℚ) : weigh [a, b, c] [x, y, z] = a * x + b * y + c * z := by
  simp [weigh]; ring

/-- Cramer's rule for three rows. -/
def cramer3 : List (List ℚ) → List ℚ → R (Option (List ℚ))
  | [[a, b, c], [d, e, f], [g, h, i]], [u, v, w] =>
    let det := a * (e * i - f * h) - b * (d * i - f * g) + c * (d * h - e * g)
    if det = 0 then .ok none
    else .ok (some [(u * (e * i - f * h) - b * (v * i - f * w) + c * (v * h - e * w)) / det,
      (a * (v * i - f * w) - u * (d * i - f * g) + c * (d * w - v * g)) / det,
      (a * (e * w - v * h) - b * (d * w - v * g) + u * (d * h - e * g)) / det])
  | _, _ => .ok none

theorem solves_three {a b c d e f g h i u v w x y z : ℚ} :
    Solves [[a, b, c], [d, e, f], [g, h, i]] [u, v, w] [x, y, z] ↔
      a * x + b * y + c * z = u ∧ d * x + e * y + f * z = v ∧ g * x + h * y + i * z = w := by
  constructor
  · intro hs
    refine ⟨?_, ?_, ?_⟩
    · have := hs 0 _ _ rfl rfl; rwa [weigh_three] at this
    · have := hs 1 _ _ rfl rfl; rwa [weigh_three] at this
    · have := hs 2 _ _ rfl rfl; rwa [weigh_three] at this
  · rintro ⟨h1, h2, h3⟩ k row r hk hr
    match k with
    | 0 => cases hk; cases hr; rwa [weigh_three]
    | 1 => cases hk; cases hr; rwa [weigh_three]
    | 2 => cases hk; cases hr; rwa [weigh_three]
    | k + 3 => simp at hk

theorem cramer3_sound {m : List (List ℚ)} {rhs x : List ℚ} (hx : cramer3 m rhs = .ok (some x)) :
    m.length = 3 ∧ x.length = 3 ∧ Solves m rhs x := by
  unfold cramer3 at hx
  split at hx
  · rename_i a b c d e f g h i u v w
    simp only at hx
    split at hx
    · cases hx
    · rename_i hdet
      cases hx
      refine ⟨rfl, rfl, solves_three.mpr ⟨?_, ?_, ?_⟩⟩ <;>
        rw [← mul_div_assoc, ← mul_div_assoc, ← mul_div_assoc, ← add_div, ← add_div, div_eq_iff hdet] <;> ring
  · cases hx

theorem cramer3_solver : Solver 3 cramer3 := by
  constructor
  · intro m rhs x h _ _ _
    exact (cramer3_sound h).2
  · intro m rhs x hm hrhs hrows hx hs hu
    match m, hm, rhs, hrhs, x, hx with
    | [r1, r2, r3], _, [u, v, w], _, [x, y, z], _ =>
      match r1, hrows r1 (by simp), r2, hrows r2 (by simp), r3, hrows r3 (by simp) with
      | [a, b, c], _, [d, e, f], _, [g, h, i], _ =>
        obtain ⟨s1, s2, s3⟩ := solves_three.mp hs
        have ker : ∀ k l m : ℚ, a * k + b * l + c * m = 0 → d * k + e * l + f * m = 0 →
            g * k + h * l + i * m = 0 → k = 0 ∧ l = 0 ∧ m = 0 := by
          intro k l m e1 e2 e3
          have := hu [x + k, y + l, z + m] rfl (solves_three.mpr ⟨by linarith, by linarith, by linarith⟩)
          simp only [List.cons.injEq, and_true] at this
          exact ⟨by linarith [this.1], by linarith [this.2.1], by linarith [this.2.2]⟩
        have hdet : a * (e * i - f * h) - b * (d * i - f * g) + c * (d * h - e * g) ≠ 0 := by
          intro h0
          obtain ⟨m1, m2, m3⟩ := ker (e * i - f * h) (f * g - d * i) (d * h - e * g) (by linarith) (by ring) (by ring)
          obtain ⟨m4, m5, m6⟩ := ker (c * h - b * i) (a * i - c * g) (b * g - a * h) (by ring) (by linarith) (by ring)
          obtain ⟨m7, m8, m9⟩ := ker (b * f - c * e) (c * d - a * f) (a * e - b * d) (by ring) (by ring) (by linarith)
          obtain ⟨z1, z2, _⟩ := ker b (-a) 0 (by ring) (by linarith) (by linarith)
          obtain ⟨z3, _, _⟩ := ker c 0 (-a) (by ring) (by linarith) (by linarith)
          obtain ⟨z4, z5, _⟩ := ker e (-d) 0 (by linarith) (by ring) (by linarith)
          obtain ⟨z6, _, _⟩ := ker f 0 (-d) (by linarith) (by ring) (by linarith)
          obtain ⟨z7, z8, _⟩ := ker h (-g) 0 (by linarith) (by linarith) (by ring)
          obtain ⟨z9, _, _⟩ := ker i 0 (-g) (by linarith) (by linarith) (by ring)
          obtain ⟨h1, _⟩ := ker 1 0 0 (by linarith) (by linarith) (by linarith)
          exact one_ne_zero h1
        obtain ⟨r, hr⟩ : ∃ r, cramer3 [[a, b, c], [d, e, f], [g, h, i]] [u, v, w] = .ok (some r) := by
          unfold cramer3
          exact ⟨_, if_neg hdet⟩
        obtain ⟨_, h1, h2⟩ := cramer3_sound hr
        rw [hr, hu r h1 h2]

/-- A normal of the plane through three points. -/
def plane : List ℚ → List ℚ → List ℚ → List ℚ
  | [a, b, c], [d, e, f], [g, h, i] => [(e - b) * (i - c) - (f - c) * (h - b), (f - c) * (g - a) - (d - a) * (i - c),
      (d - a) * (h - b) - (e - b) * (g - a)]
  | _, _, _ => []

/-- Is the normal positive, with no point below the plane? -/
def isFloor (ps : List (List ℚ)) (p q r : List ℚ) : Bool :=
  decide (p.length = 3) && decide (q.length = 3) && decide (r.length = 3) &&
    (plane p q r).all (fun a => decide (0 < a)) &&
    ps.all fun v => decide (v.length = 3) && decide (weigh (plane p q r) p ≤ weigh (plane p q r) v)

/-- Cells of the lower convex hull in space. A cell's id depends on its vertices only. -/
def floorCells (t : Nat × List (List ℚ)) : List RawCell :=
  if t.1 = 3 then
    (List.range t.2.length).flatMap fun k => (List.range t.2.length).flatMap fun j =>
      (List.range t.2.length).filterMap fun i =>
        if isFloor t.2 (t.2[i]?.getD []) (t.2[j]?.getD []) (t.2[k]?.getD []) then
          some ⟨2 ^ i * (3 ^ j * 5 ^ k), [i, j, k]⟩
        else none
  else []

def floorBackend : Backend := { listBackend with cells := floorCells, solve := cramer3 }

theorem mem_floorCells {t : Nat × List (List ℚ)} {c : RawCell} : c ∈ floorCells t ↔
    t.1 = 3 ∧ ∃ i j k p q r, c = ⟨2 ^ i * (3 ^ j * 5 ^ k), [i, j, k]⟩ ∧ t.2[i]? = some p ∧ t.2[j]? = some q ∧
      t.2[k]? = some r ∧ isFloor t.2 p q r = true := by
  unfold floorCells
  split
  · rename_i h3
    simp only [List.mem_flatMap, List.mem_filterMap, List.mem_range]
    constructor
    · rintro ⟨k, hk, j, hj, i, hi, h⟩
      split at h
      · rename_i hl
        cases h
        rw [List.getElem?_eq_getElem hi, List.getElem?_eq_getElem hj, List.getElem?_eq_getElem hk] at hl
        exact ⟨h3, i, j, k, _, _, _, rfl, List.getElem?_eq_getElem hi, List.getElem?_eq_getElem hj,
          List.getElem?_eq_getElem hk, hl⟩
      · cases h
    · rintro ⟨_, i, j, k, p, q, r, rfl, hi, hj, hk, hl⟩
      refine ⟨k, Build.lt_length_of_getElem? hk, j, Build.lt_length_of_getElem? hj, i,
        Build.lt_length_of_getElem? hi, ?_⟩
      rw [hi, hj, hk, Option.getD_some, Option.getD_some, Option.getD_some, if_pos hl]
  · rename_i h3
    simp [h3]

theorem floor_regular : Regular floorBackend (fun t id => t.2[id]?) (fun t => t.1) where
  new := list_regular.new
  added := list_regular.added
  size_new := list_regular.size_new
  add := list_regular.add
  cells := by
    intro t c hc
    obtain ⟨h1, i, j, k, p, q, r, rfl, h2, h3, h4, _⟩ := mem_floorCells.mp hc
    refine ⟨by simp, by simp; omega, fun v hv => ?_⟩
    simp only [List.mem_cons, List.not_mem_nil, or_false] at hv
    rcases hv with rfl | rfl | rfl
    · simp [h2]
    · simp [h3]
    · simp [h4]
  solve := by
    intro m rhs _ _
    show ∃ o, cramer3 m rhs = .ok o
    unfold cramer3
    split
    · simp only
      split
      · exact ⟨_, rfl⟩
      · exact ⟨_, rfl⟩
    · exact ⟨_, rfl⟩

/-- A vector that is orthogonal to the plane is a multiple of the normal. -/
theorem plane_parallel {p q r y v : List ℚ} (hp : p.length = 3) (hq : q.length = 3) (hr : r.length = 3)
    (hy : y.length = 3) (hv : v.length = 3) (h1 : weigh y p = weigh y q) (h2 : weigh y p = weigh y r) :
    weigh (plane p q r) v * y.sum = weigh y v * (plane p q r).sum ∧
      (plane p q r).map (· * y.sum) = y.map (· * (plane p q r).sum) := by
  match p, hp, q, hq, r, hr, y, hy, v, hv with
  | [a, b, c], _, [d, e, f], _, [g, h, i], _, [x, y, z], _, [k, l, m], _ =>
    simp only [weigh_three] at h1 h2
    have g1 : x * (d - a) + y * (e - b) + z * (f - c) = 0 := by linarith
    have g2 : x * (g - a) + y * (h - b) + z * (i - c) = 0 := by linarith
    simp only [plane, weigh_three, List.sum_cons, List.sum_nil, List.map_cons, List.map_nil, List.cons.injEq, and_true]
    generalize d - a = u1 at g1 ⊢
    generalize e - b = u2 at g1 ⊢
    generalize f - c = u3 at g1 ⊢
    generalize g - a = v1 at g2 ⊢
    generalize h - b = v2 at g2 ⊢
    generalize i - c = v3 at g2 ⊢
    have e1 : (u2 * v3 - u3 * v2) * y = (u3 * v1 - u1 * v3) * x := by
      linear_combination v3 * g1 - u3 * g2
    have e2 : (u2 * v3 - u3 * v2) * z = (u1 * v2 - u2 * v1) * x := by
      linear_combination u2 * g2 - v2 * g1
    have e3 : (u3 * v1 - u1 * v3) * z = (u1 * v2 - u2 * v1) * y := by
      linear_combination v1 * g1 - u1 * g2
    refine ⟨?_, ?_, ?_, ?_⟩
    · linear_combination (k - l) * e1 + (k - m) * e2 + (l - m) * e3
    · linear_combination e1 + e2
    · linear_combination e3 - e1
    · linear_combination - e2 - e3

theorem floor_lower : Lower floorBackend (fun t id => t.2[id]?) (fun t => t.1) where
  solved := by
    intro m rhs x h _ _
    obtain ⟨h1, h2, h3⟩ := cramer3_sound h
    exact ⟨by rw [h1, h2], h3⟩
  below := by
    intro t cell hcell x hx hnn heq v hv w y z hy hz
    obtain ⟨h1, i, j, k, p, q, r, rfl, h2, h3, h4, hlow⟩ := mem_floorCells.mp hcell
    have hpq := heq i (by simp) j (by simp) p q h2 h3
    have hpr := heq i (by simp) k (by simp) p r h2 h4
    have hvy : weigh x y = weigh x p := heq v hv i (by simp) y p hy h2
    rw [hvy]
    have hx : x.length = 3 := hx.trans h1
    unfold isFloor at hlow
    simp only [Bool.and_eq_true, decide_eq_true_eq, List.all_eq_true] at hlow
    obtain ⟨⟨⟨⟨l1, l2⟩, l3⟩, l4⟩, l5⟩ := hlow
    obtain ⟨l6, l7⟩ := l5 z (List.mem_of_getElem? hz)
    have k1 := (plane_parallel l1 l2 l3 hx l1 hpq hpr).1
    have k2 := (plane_parallel l1 l2 l3 hx l6 hpq hpr).1
    have hpos : 0 < (plane p q r).sum := by
      match p, l1, q, l2, r, l3 with
      | [_, _, _], _, [_, _, _], _, [_, _, _], _ =>
        have := l4
        simp only [plane, List.mem_cons, List.not_mem_nil, or_false, forall_eq_or_imp, forall_eq] at this ⊢
        simp only [List.sum_cons, List.sum_nil]
        linarith [this.1, this.2.1, this.2.2]
    have hs : 0 ≤ x.sum := List.sum_nonneg hnn
    have := mul_le_mul_of_nonneg_right l7 hs
    rw [k1, k2] at this
    exact le_of_mul_le_mul_right this hpos

theorem pow_inj3 {i j k i' j' k' : Nat} (h : 2 ^ i * (3 ^ j * 5 ^ k) = 2 ^ i' * (3 ^ j' * 5 ^ k')) :
    i = i' ∧ j = j' ∧ k = k' := by
  have h23 : ∀ a b : Nat, Nat.Coprime (2 ^ a) (3 ^ b) := fun a b => Nat.Coprime.pow a b (by decide)
  have h25 : ∀ a b : Nat, Nat.Coprime (2 ^ a) (5 ^ b) := fun a b => Nat.Coprime.pow a b (by decide)
  have h35 : ∀ a b : Nat, Nat.Coprime (3 ^ a) (5 ^ b) := fun a b => Nat.Coprime.pow a b (by decide)
  have d1 : ∀ {i j k i' j' k' : Nat}, 2 ^ i * (3 ^ j * 5 ^ k) = 2 ^ i' * (3 ^ j' * 5 ^ k') → i ≤ i' := by
    intro i j k i' j' k' h
    have : 2 ^ i ∣ 2 ^ i' := ((h23 i j').mul_right (h25 i k')).dvd_of_dvd_mul_right (h ▸ Dvd.intro _ rfl)
    exact (Nat.pow_dvd_pow_iff_le_right (by omega)).mp this
  have hi := le_antisymm (d1 h) (d1 h.symm)
  subst hi
  have h := Nat.eq_of_mul_eq_mul_left (by positivity) h
  have d2 : ∀ {j k j' k' : Nat}, 3 ^ j * 5 ^ k = 3 ^ j' * 5 ^ k' → j ≤ j' := by
    intro j k j' k' h
    have : 3 ^ j ∣ 3 ^ j' := (h35 j k').dvd_of_dvd_mul_right (h ▸ Dvd.intro _ rfl)
    exact (Nat.pow_dvd_pow_iff_le_right (by omega)).mp this
  have hj := le_antisymm (d2 h) (d2 h.symm)
  subst hj
  have h := Nat.eq_of_mul_eq_mul_left (by positivity) h
  exact ⟨rfl, rfl, Nat.pow_right_injective (le_refl 2 |>.trans (by norm_num)) h⟩

theorem floor_covering : Covering 3 floorBackend (fun t id => t.2[id]?) (fun t => t.1) where
  cover := by
    intro t ht hlen ys x hf
    have hxl : x.length = 3 := by simpa using hf.normal.length
    have hyl : ∀ y ∈ ys, y.length = 3 := by
      intro y hy
      obtain ⟨v, hv⟩ := hf.mem y hy
      exact hlen v y hv
    have hno : ∀ (n i : Nat), (List.replicate n true)[i]? ≠ some false := by
      intro n i hi
      rw [List.getElem?_replicate] at hi
      split at hi <;> cases hi
    have hnormal : ∀ {zs : List (List ℚ)} {y : List ℚ}, y.length = 3 →
        (∀ c ∈ zs, ∀ d ∈ zs, weigh y c = weigh y d) → Normal zs (List.replicate 3 true) y := fun h1 h2 =>
      ⟨by simp [h1], h2, fun i hi => absurd hi (hno 3 i)⟩
    have hpos : ∀ a ∈ x, 0 < a := by
      intro a ha
      obtain ⟨i, hi⟩ := List.mem_iff_getElem?.mp ha
      have := Build.lt_length_of_getElem? hi
      exact hf.pos i a (by rw [List.getElem?_replicate, if_pos (by omega)]) hi
    obtain ⟨p, hp⟩ := List.exists_mem_of_ne_nil _ hf.ne
    -- three points of the facet that are not in a line
    have htri : ∃ q ∈ ys, ∃ r ∈ ys, (plane p q r).sum ≠ 0 := by
      by_contra hcon
      push Not at hcon
      have hall : ∀ q ∈ ys, q = p := by
        intro q hq
        have hpl := hyl p hp
        have hql := hyl q hq
        match p, hpl, q, hql, x, hxl with
        | [a, b, c], _, [d, e, f], _, [x, y, z], _ =>
          have := hf.unique [x + ((e - b) - (f - c)), y + ((f - c) - (d - a)), z + ((d - a) - (e - b))] (hnormal rfl ?_)
            (by have := hf.sum; simp only [List.sum_cons, List.sum_nil] at this ⊢; linarith)
          · simp only [List.cons.injEq, and_true] at this
            have h1 : e - b = f - c := by linarith [this.1]
            have h2 : f - c = d - a := by linarith [this.2.1]
            have h3 := hf.normal.same _ hp _ hq
            rw [weigh_three, weigh_three] at h3
            have hs := hf.sum
            simp only [List.sum_cons, List.sum_nil, add_zero] at hs
            have h4 : (d - a) * (x + (y + z)) = 0 := by
              have : x * (d - a) + y * (e - b) + z * (f - c) = 0 := by linarith
              rw [h1, h2] at this
              linarith
            rw [hs, mul_one] at h4
            rw [show d = a by linarith, show e = b by linarith, show f = c by linarith]
          · have key : ∀ r ∈ ys, weigh [x + ((e - b) - (f - c)), y + ((f - c) - (d - a)), z + ((d - a) - (e - b))] r =
                weigh [x + ((e - b) - (f - c)), y + ((f - c) - (d - a)), z + ((d - a) - (e - b))] [a, b, c] := by
              intro r hr
              have h1 := hcon _ hq r hr
              have h2 := hf.normal.same _ hp _ hr
              have hrl := hyl r hr
              match r, hrl with
              | [g, h, i], _ =>
                simp only [plane, weigh_three, List.sum_cons, List.sum_nil] at h1 h2 ⊢
                linear_combination - h1 - h2
            intro r hr r' hr'
            rw [key r hr, key r' hr']
      have h1 := hf.unique [1, 0, 0] (hnormal rfl (fun c hc d hd => by rw [hall c hc, hall d hd])) (by simp)
      have h2 := hf.unique [0, 1, 0] (hnormal rfl (fun c hc d hd => by rw [hall c hc, hall d hd])) (by simp)
      rw [← h1] at h2
      simp at h2
    obtain ⟨q, hq, r, hr, hne⟩ := htri
    -- the cell in the direction of the weights
    have hcell : ∀ q ∈ ys, ∀ r ∈ ys, 0 < (plane p q r).sum → ∃ c ∈ floorCells t, ∃ zs,
        List.Forall₂ (fun v z => t.2[v]? = some z) c.vertices zs ∧ zs.length = 3 ∧
        Spans zs (List.replicate 3 true) x ∧ ∀ z ∈ zs, ∀ y ∈ ys, weigh x z = weigh x y := by
      intro q hq r hr hN
      have hpl := hyl p hp
      have hql := hyl q hq
      have hrl := hyl r hr
      have same := hf.normal.same
      obtain ⟨i, hi⟩ := hf.mem p hp
      obtain ⟨j, hj⟩ := hf.mem q hq
      obtain ⟨k, hk⟩ := hf.mem r hr
      have par := fun {y v : List ℚ} (hy : y.length = 3) (hv : v.length = 3) (h1 : weigh y p = weigh y q)
        (h2 : weigh y p = weigh y r) => plane_parallel hpl hql hrl hy hv h1 h2
      have hmap := (par hxl hpl (same p hp q hq) (same p hp r hr)).2
      rw [hf.sum] at hmap
      simp only [mul_one, List.map_id'] at hmap
      have hlow : isFloor t.2 p q r = true := by
        unfold isFloor
        simp only [Bool.and_eq_true, decide_eq_true_eq, List.all_eq_true]
        refine ⟨⟨⟨⟨hpl, hql⟩, hrl⟩, fun a ha => ?_⟩, fun v hv => ?_⟩
        · rw [hmap] at ha
          obtain ⟨a', ha', rfl⟩ := List.mem_map.mp ha
          exact mul_pos (hpos a' ha') hN
        · obtain ⟨w, hw⟩ := List.mem_iff_getElem?.mp hv
          have hvl := hlen w v hw
          refine ⟨hvl, ?_⟩
          have k1 := (par hxl hpl (same p hp q hq) (same p hp r hr)).1
          have k2 := (par hxl hvl (same p hp q hq) (same p hp r hr)).1
          rw [hf.sum, mul_one] at k1 k2
          rw [k1, k2]
          exact mul_le_mul_of_nonneg_right (hf.below p hp v ⟨w, hw⟩) hN.le
      have hmem : ∀ z ∈ [p, q, r], z ∈ ys := by
        intro z hz
        simp only [List.mem_cons, List.not_mem_nil, or_false] at hz
        rcases hz with rfl | rfl | rfl <;> assumption
      refine ⟨_, mem_floorCells.mpr ⟨ht, i, j, k, p, q, r, rfl, hi, hj, hk, hlow⟩, [p, q, r],
        .cons hi (.cons hj (.cons hk .nil)), rfl,
        ⟨hnormal hxl fun c hc d hd => same c (hmem c hc) d (hmem d hd), hf.sum, fun y hn hs => ?_⟩,
        fun z hz y hy => same z (hmem z hz) y hy⟩
      have hyl' : y.length = 3 := by simpa using hn.length
      have h3 := (par hyl' hpl (hn.same p (by simp) q (by simp)) (hn.same p (by simp) r (by simp))).2
      rw [hs] at h3
      simp only [mul_one, List.map_id'] at h3
      have hinj : Function.Injective (fun a : ℚ => a * (plane p q r).sum) := fun a b hab =>
        mul_right_cancel₀ hN.ne' hab
      exact List.map_injective_iff.mpr hinj (h3.symm.trans hmap)
    rcases lt_or_gt_of_ne hne with hlt | hgt
    · refine hcell r hr q hq ?_
      have hpl := hyl p hp
      have hql := hyl q hq
      have hrl := hyl r hr
      match p, hpl, q, hql, r, hrl with
      | [a, b, c], _, [d, e, f], _, [g, h, i], _ =>
        simp only [plane, List.sum_cons, List.sum_nil] at hlt ⊢
        linarith
    · exact hcell q hq r hr hgt
  id := by
    intro t t' c hc c' hc' he
    obtain ⟨_, i, j, k, _, _, _, rfl, _⟩ := mem_floorCells.mp hc
    obtain ⟨_, i', j', k', _, _, _, rfl, _⟩ := mem_floorCells.mp hc'
    obtain ⟨rfl, rfl, rfl⟩ := pow_inj3 he
    rfl

/-! ## Examples and a counterexample -/

/-- Routes from `0` to the last node with the given costs in three metrics, each over a node of its own. -/
def fanBuild3 (cs : List (List ℚ)) : Build.R Graph :=
  Build.build 3 ((List.range cs.length).map (fun (i : Nat) => edge 0 (i + 1) ((cs[i]?.getD []).map (· / 2))) ++
      (List.range cs.length).map (fun (i : Nat) => edge (i + 1) (cs.length + 1) ((cs[i]?.getD []).map (· / 2))))
    (Dij.lvNodes 0 (List.replicate (cs.length + 2) 0))

def sixCosts : List (List ℚ) := [[1, 10, 10], [10, 1, 10], [10, 10, 1], [6, 6, 6], [4, 4, 10], [3, 9, 5]]

/-- Six routes, and `(6, 6, 6)` is found in the loop only. -/
def sixGraph : Graph := Dij.okGraph (fanBuild3 sixCosts)

theorem six_build : fanBuild3 sixCosts = .ok sixGraph := by decide +kernel

def sixQuery : Dij.Query ℚ := { src := 0, dst := 7, graph := sixGraph, algo := .dijkstra, alphas := [1, 1, 1] }

theorem six_fan : isFan sixGraph 6 = true ∧ fanCosts sixGraph 6 = sixCosts := by decide +kernel

/-- The costs of the found paths. -/
def costsOf (r : Option (R (Dij.St ℚ × List Path))) : List (Option (List ℚ)) :=
  match r with
  | some (.ok x) => x.2.map Path.costs
  | _ => []

theorem costsOf_ok {r : Option (R (Dij.St ℚ × List Path))} {cs : List (List ℚ)} (hcs : cs ≠ [])
    (h : costsOf r = cs.map some) : ∃ s' res, r = some (.ok (s', res)) ∧ res.map Path.costs = cs.map some := by
  unfold costsOf at h
  split at h
  · exact ⟨_, _, rfl, h⟩
  · exact absurd (List.map_eq_nil_iff.mp h.symm) hcs

theorem costs_mem {res : List Path} {cs : List (List ℚ)} (h : res.map Path.costs = cs.map some) (c : List ℚ) :
    (∃ p ∈ res, p.costs = some c) ↔ c ∈ cs := by
  have : some c ∈ res.map Path.costs ↔ some c ∈ cs.map some := by rw [h]
  simpa using this

theorem six_count : (sixQuery.alphas.map fun a => decide (0 < a)).count true = 3 := by decide +kernel

theorem six_solver : Solver sixQuery.graph.dim floorBackend.solve :=
  (show sixQuery.graph.dim = 3 by decide +kernel) ▸ cramer3_solver

/-- The plane through `(10, 1, 10)`, `(4, 4, 10)` and `(6, 6, 6)` has the weights `2/9`, `4/9` and `1/3`. -/
theorem six_facet {point : List ℚ → Prop} (h : ∀ c, point c ↔ c ∈ sixCosts) :
    LowerFacet point (sixQuery.alphas.map fun a => decide (0 < a)) [[10, 1, 10], [4, 4, 10], [6, 6, 6]]
      [2 / 9, 4 / 9, 1 / 3] := by
  refine ⟨⟨⟨by decide +kernel, by decide +kernel, ?_⟩, by norm_num, ?_⟩, by simp, ?_, ?_, ?_⟩
  · intro i hi
    match i with
    | 0 => revert hi; decide +kernel
    | 1 => revert hi; decide +kernel
    | 2 => revert hi; decide +kernel
    | i + 3 => simp [sixQuery] at hi
  · intro y hn hs
    have hyl : y.length = 3 := hn.length.trans (by decide +kernel)
    match y, hyl with
    | [a, b, c], _ =>
      have h1 := hn.same [10, 1, 10] (by simp) [4, 4, 10] (by simp)
      have h2 := hn.same [10, 1, 10] (by simp) [6, 6, 6] (by simp)
      simp only [weigh_three, List.sum_cons, List.sum_nil] at h1 h2 hs
      rw [show a = 2 / 9 by linarith, show b = 4 / 9 by linarith, show c = 1 / 3 by linarith]
  · intro c hc
    rw [h]
    revert c
    decide +kernel
  · intro i a _ ha
    have := List.mem_of_getElem? ha
    simp only [List.mem_cons, List.not_mem_nil, or_false] at this
    rcases this with rfl | rfl | rfl <;> norm_num
  · intro c hc v hv
    rw [h] at hv
    revert c v
    decide +kernel

theorem six_costs {res : List Path}
    (h : res.map Path.costs = [[1, 10, 10], [10, 1, 10], [4, 4, 10], [10, 10, 1], [3, 9, 5], [6, 6, 6]].map some) :
    res.length = 6 ∧ ∀ c, (∃ p ∈ res, p.costs = some c) ↔ c ∈ sixCosts := by
  constructor
  · have := congrArg List.length h
    simpa using this
  · intro c
    rw [costs_mem h, sixCosts]
    simp only [List.mem_cons, List.not_mem_nil, or_false]
    tauto

/-- No route is below the facet, which contains a route that is found in the loop. -/
example {e : List ℚ} (he : IsRouteCost sixGraph 0 7 e) :
    ∃ s' res, fullyExplorate (Dij.binHeap compare) dot floorBackend 30 Dij.St.new sixQuery [none, none, none] =
        some (.ok (s', res)) ∧ weigh [2 / 9, 4 / 9, 1 / 3] [6, 6, 6] < weigh [2 / 9, 4 / 9, 1 / 3] e + 3 / 2000000 := by
  obtain ⟨s', res, hr, hres⟩ := costsOf_ok
    (r := fullyExplorate (Dij.binHeap compare) dot floorBackend 30 Dij.St.new sixQuery [none, none, none])
    (cs := [[1, 10, 10], [10, 1, 10], [4, 4, 10], [10, 10, 1], [3, 9, 5], [6, 6, 6]]) (by simp) (by decide +kernel)
  obtain ⟨hlen, hcosts⟩ := six_costs hres
  exact ⟨s', res, hr, C81_facets (n := 0) (q := sixQuery) floor_regular floor_lower
    (by rw [six_count]; exact floor_covering) six_solver
    (Build.built_wellFormed six_build) (dimOk_of (by decide +kernel)) (nonneg_of (by decide +kernel)) rfl
    (by decide +kernel) (by decide +kernel) .new (by decide +kernel) (by simp) (by rw [six_count]; norm_num)
    (by rw [six_count, hlen]; norm_num) hr (six_facet hcosts) (by simp) he⟩

/-- The same with the comparison of the code, where the router is off by at most `1.3e-3`. -/
example {e : List ℚ} (he : IsRouteCost sixGraph 0 7 e) :
    ∃ s' res, fullyExplorate Dij.codeHeap dot floorBackend 30 Dij.St.new sixQuery [none, none, none] =
        some (.ok (s', res)) ∧ weigh [2 / 9, 4 / 9, 1 / 3] [6, 6, 6] < weigh [2 / 9, 4 / 9, 1 / 3] e + 1 / 500 := by
  obtain ⟨s', res, hr, hres⟩ := costsOf_ok
    (r := fullyExplorate Dij.codeHeap dot floorBackend 30 Dij.St.new sixQuery [none, none, none])
    (cs := [[1, 10, 10], [10, 1, 10], [4, 4, 10], [10, 10, 1], [3, 9, 5], [6, 6, 6]]) (by simp) (by decide +kernel)
  obtain ⟨hlen, hcosts⟩ := six_costs hres
  have hwf := Build.built_wellFormed six_build
  refine ⟨s', res, hr, lt_of_lt_of_le (C81_facets_partial (n := 0) (q := sixQuery) floor_regular floor_lower
    (by rw [six_count]; exact floor_covering) six_solver
    hwf (dimOk_of (by decide +kernel)) (nonneg_of (by decide +kernel)) rfl (Dij.maxDegree_edges hwf)
    (by decide +kernel) (by decide +kernel) .new (by decide +kernel) (by simp) (by rw [six_count]; norm_num)
    (by rw [six_count, hlen]; norm_num) hr (six_facet hcosts) (by simp) he) ?_⟩
  rw [show sixQuery.graph.edgeCount = 12 by decide +kernel]
  norm_num

/-- A triangulation in the plane with a solver for three metrics. -/
def flatBackend : Backend := { lowerBackend with solve := cramer3 }

theorem flat_regular : Regular flatBackend (fun t id => t.2[id]?) (fun t => t.1) where
  new := lower_regular.new
  added := lower_regular.added
  size_new := lower_regular.size_new
  add := lower_regular.add
  cells := lower_regular.cells
  solve := floor_regular.solve

theorem flat_lower : Lower flatBackend (fun t id => t.2[id]?) (fun t => t.1) where
  solved := floor_lower.solved
  below := lower_lower.below

theorem flat_covering : Covering 2 flatBackend (fun t id => t.2[id]?) (fun t => t.1) where
  cover := by
    intro t ht hlen ys x hf
    have hxl : x.length = 2 := by simpa using hf.normal.length
    have hno : ∀ (n i : Nat), (List.replicate n true)[i]? ≠ some false := by
      intro n i hi
      rw [List.getElem?_replicate] at hi
      split at hi <;> cases hi
    have hnormal : ∀ {zs : List (List ℚ)} {y : List ℚ}, y.length = 2 →
        (∀ c ∈ zs, ∀ d ∈ zs, weigh y c = weigh y d) → Normal zs (List.replicate 2 true) y := fun h1 h2 =>
      ⟨by simp [h1], h2, fun i hi => absurd hi (hno 2 i)⟩
    have hpos : ∀ a ∈ x, 0 < a := by
      intro a ha
      obtain ⟨i, hi⟩ := List.mem_iff_getElem?.mp ha
      have := Build.lt_length_of_getElem? hi
      exact hf.pos i a (by rw [List.getElem?_replicate, if_pos (by omega)]) hi
    obtain ⟨p, hp⟩ := List.exists_mem_of_ne_nil _ hf.ne
    obtain ⟨q, hq, hne⟩ : ∃ q ∈ ys, p ≠ q := by
      by_contra hcon
      push Not at hcon
      have h1 := hf.unique [1, 0] (hnormal rfl (fun c hc d hd => by rw [← hcon c hc, ← hcon d hd])) (by simp)
      have h2 := hf.unique [0, 1] (hnormal rfl (fun c hc d hd => by rw [← hcon c hc, ← hcon d hd])) (by simp)
      rw [← h1] at h2
      simp at h2
    obtain ⟨v, hv⟩ := hf.mem p hp
    obtain ⟨w, hw⟩ := hf.mem q hq
    have same := hf.normal.same
    obtain ⟨c, hc, v', w', y', z', h1, h2, h3, h4, h5, h6⟩ := lower_gapless.cover t ht x hxl hpos v w p q hv hw hne
      (same p hp q hq) (fun u r hu => ⟨hlen u r hu, hf.below p hp r ⟨u, hu⟩⟩)
    refine ⟨c, hc, [y', z'], by rw [h1]; exact .cons h2 (.cons h3 .nil), rfl, ⟨hnormal hxl ?_, hf.sum, fun y hn hs => ?_⟩,
      ?_⟩
    · intro c hc d hd
      simp only [List.mem_cons, List.not_mem_nil, or_false] at hc hd
      rcases hc with rfl | rfl <;> rcases hd with rfl | rfl <;> simp [h5, h6]
    · exact normal_unique (hlen _ _ h2) (hlen _ _ h3) h4 hxl (by simpa using hn.length) hf.sum hs (h5.trans h6.symm)
        (hn.same _ (by simp) _ (by simp))
    · intro z hz y hy
      simp only [List.mem_cons, List.not_mem_nil, or_false] at hz
      rcases hz with rfl | rfl
      · rw [h5]; exact same p hp y hy
      · rw [h6]; exact same p hp y hy
  id := lower_gapless.id

/-- The second metric is ignored. The line through `(1, 10)` and `(3, 5)` has the weights `5/7` and `2/7`. -/
example {e : List ℚ} (he : IsRouteCost sixGraph 0 7 e) :
    ∃ s' res, fullyExplorate (Dij.binHeap compare) dot flatBackend 30 Dij.St.new { sixQuery with alphas := [1, 0, 1] }
        [none, none, none] = some (.ok (s', res)) ∧
      weigh [5 / 7, 0, 2 / 7] [3, 9, 5] < weigh [5 / 7, 0, 2 / 7] e + 3 / 2000000 := by
  obtain ⟨s', res, hr, hres⟩ := costsOf_ok
    (r := fullyExplorate (Dij.binHeap compare) dot flatBackend 30 Dij.St.new { sixQuery with alphas := [1, 0, 1] }
      [none, none, none])
    (cs := [[1, 10, 10], [10, 10, 1], [3, 9, 5]]) (by simp) (by decide +kernel)
  have hlen : res.length = 3 := by
    have := congrArg List.length hres
    simpa using this
  have hcon : (([1, 0, 1] : List ℚ).map fun a => decide (0 < a)) = [true, false, true] := by decide +kernel
  refine ⟨s', res, hr, C81_facets (n := 0) (q := { sixQuery with alphas := [1, 0, 1] }) flat_regular flat_lower
    (by rw [hcon]; exact flat_covering) six_solver
    (Build.built_wellFormed six_build) (dimOk_of (by decide +kernel)) (nonneg_of (by decide +kernel)) rfl
    (by decide +kernel) (by decide +kernel) .new (by decide +kernel) (by simp) (by rw [hcon]; decide)
    (by rw [hcon, hlen]; decide) hr (cs := [[1, 10, 10], [3, 9, 5]]) ?_ (by simp) he⟩
  rw [hcon]
  refine ⟨⟨⟨rfl, by decide +kernel, ?_⟩, by norm_num, ?_⟩, by simp, ?_, ?_, ?_⟩
  · intro i hi
    match i with
    | 0 => cases hi
    | 1 => rfl
    | 2 => cases hi
    | i + 3 => simp at hi
  · intro y hn hs
    have hyl : y.length = 3 := hn.length
    match y, hyl with
    | [a, b, c], _ =>
      have h1 := hn.same [1, 10, 10] (by simp) [3, 9, 5] (by simp)
      have h2 := hn.ignored 1 rfl
      simp only [List.getElem?_cons_succ, List.getElem?_cons_zero, Option.some.injEq] at h2
      simp only [weigh_three, List.sum_cons, List.sum_nil] at h1 hs
      rw [show a = 5 / 7 by linarith, h2, show c = 2 / 7 by linarith]
  · intro c hc
    rw [costs_mem hres]
    revert c
    decide +kernel
  · intro i a hi ha
    match i with
    | 0 => cases ha; norm_num
    | 1 => cases hi
    | 2 => cases ha; norm_num
    | i + 3 => simp at hi
  · intro c hc v hv
    rw [costs_mem hres] at hv
    revert c v
    decide +kernel

def missCosts : List (List ℚ) := [[1, 10, 1], [6, 2, 1], [10, 10, 1 / 2], [9, 11 / 5, 3 / 5], [3, 6, 2]]

/-- Five routes with costs in three metrics. -/
def missGraph : Graph := Dij.okGraph (fanBuild3 missCosts)

theorem miss_build : fanBuild3 missCosts = .ok missGraph := by decide +kernel

def missQuery : Dij.Query ℚ := { src := 0, dst := 6, graph := missGraph, algo := .dijkstra, alphas := [1, 1, 1] }

theorem miss_fan : isFan missGraph 5 = true ∧ fanCosts missGraph 5 = missCosts := by decide +kernel

/-- With three metrics, a route that is best for some positive weights, here `(3, 6, 2)` for `8/14`, `5/14` and
`1/14`, is missed: It is below no facet of the lower convex hull of the four other routes, only below the edge between
`(1, 10, 1)` and `(6, 2, 1)`, and the exploration asks for the weights of facets only. The triangulation and the
solver meet all requirements of `C81_facets`. -/
theorem C81_false_best : Regular floorBackend (fun t id => t.2[id]?) (fun t => t.1) ∧
    Lower floorBackend (fun t id => t.2[id]?) (fun t => t.1) ∧
    Covering 3 floorBackend (fun t id => t.2[id]?) (fun t => t.1) ∧ Solver 3 floorBackend.solve ∧
    missGraph.WellFormed ∧ ∃ s' res,
    fullyExplorate (Dij.binHeap compare) dot floorBackend 30 Dij.St.new missQuery [none, none, none] =
      some (.ok (s', res)) ∧
    res.map (·.costs) = [some [1, 10, 1], some [6, 2, 1], some [10, 10, 1 / 2], some [9, 11 / 5, 3 / 5]] ∧
    IsRouteCost missGraph 0 6 [3, 6, 2] ∧
    ∀ d, IsRouteCost missGraph 0 6 d → d ≠ [3, 6, 2] →
      weigh [8 / 14, 5 / 14, 1 / 14] [3, 6, 2] + 1 / 5 ≤ weigh [8 / 14, 5 / 14, 1 / 14] d := by
  refine ⟨floor_regular, floor_lower, floor_covering, cramer3_solver, Build.built_wellFormed miss_build, ?_⟩
  obtain ⟨s', res, hr, hres⟩ := costsOf_ok
    (r := fullyExplorate (Dij.binHeap compare) dot floorBackend 30 Dij.St.new missQuery [none, none, none])
    (cs := [[1, 10, 1], [6, 2, 1], [10, 10, 1 / 2], [9, 11 / 5, 3 / 5]]) (by simp) (by decide +kernel)
  have hmin : ∀ d ∈ missCosts, d ≠ [3, 6, 2] →
      weigh [8 / 14, 5 / 14, 1 / 14] [3, 6, 2] + 1 / 5 ≤ weigh [8 / 14, 5 / 14, 1 / 14] d := by decide +kernel
  exact ⟨s', res, hr, hres, mem_fanCosts miss_fan.1 (by rw [miss_fan.2]; decide +kernel), fun d hd =>
    hmin d (miss_fan.2 ▸ fan_costs (by norm_num) miss_fan.1 hd)⟩

end Verif.Exp
