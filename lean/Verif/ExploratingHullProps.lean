import Verif.ExploratingTerm
import Verif.ExploratingProps
import Verif.SimpleLemmas

/-!
# Properties of the exploration of a convex hull (C63, C64)

The routes returned by the explorator are pairwise different and the exploration ends, if the cells
belong to the lower convex hull. Convex hulls have upper cells as well.
-/

namespace Verif.Exp

open Dij (R Heap Used NonnegMetrics computeBestPath routeCost)
open Search (AddOk)

section
variable {K : Type} [LinearOrder K] [Zero K] [Add K] {h : Heap K} {dotp : List ℚ → List ℚ → K}
  {b : Backend} {fuel n : Nat} {s s' : Dij.St K} {q : Dij.Query K} {scales : List (Option ℚ)}
  {coords : b.Tri → Nat → Option (List ℚ)} {size : b.Tri → Nat}

/-! ## Helper lemmas -/

theorem compute_serves (hwf : q.graph.WellFormed) (hk : AddOk K) (hd : q.graph.DimOk)
    (hw : ∀ al, (∀ a ∈ al, 0 ≤ a) → ∀ m ∈ q.graph.metrics, 0 ≤ dotp al m)
    (hsrc : q.src < q.graph.nodeCount) (hdst : q.dst < q.graph.nodeCount) (hn : q.graph.nodeCount ≤ n) :
    ∃ i j, ∀ fuel, Serves (fun s al => computeBestPath h dotp fuel s { q with alphas := al }) q.graph
      (Used h dotp n) i j
      (Search.walks (List.range q.graph.metrics.length) (2 * q.graph.nodeCount)) := by
  have hid : ∀ u, u < q.graph.nodeCount → ∃ i, q.graph.nodeId u = .ok i := by
    intro u hu
    unfold Graph.nodeCount at hu
    unfold Graph.nodeId
    rw [List.getElem?_eq_getElem hu]
    exact ⟨_, rfl⟩
  obtain ⟨i, hi⟩ := hid _ hsrc
  obtain ⟨j, hj⟩ := hid _ hdst
  refine ⟨i, j, fun fuel => ⟨used_step hn, fun s al s' p0 hu hc => ⟨(Dij.computed_valid hc).2, ?_⟩⟩⟩
  obtain ⟨h1, _, _, _, _, h6⟩ := Dij.C13_route (q := { q with alphas := al }) hwf hk
    (hw al (Dij.computed_valid hc).2) hsrc hdst hu hc
  have hl : ∀ e ∈ p0.edges, e < q.graph.metrics.length := by
    rw [hwf.metrics_len]
    exact Par.isRoute_lt h1
  obtain ⟨c, h7, h8⟩ := Path.C23_calc_costs hd hl h6
  obtain ⟨_, _, _, _, g1, g2, _⟩ := answer_costs hwf hk hd hw hsrc hdst hu hc h7
  refine ⟨_, h7, ?_, ?_, ?_, c, rfl, h8⟩
  · rw [hi] at g1; cases g1; rfl
  · rw [hj] at g2; cases g2; rfl
  · have := Dij.answered_length (q := { q with alphas := al }) hwf hk (hw al (Dij.computed_valid hc).2)
      hsrc hdst hu hc
    refine Search.mem_walks (fun e he => List.mem_range.mpr (hl e he)) ?_
    simp only at this ⊢
    omega

theorem compute_ev (hwf : q.graph.WellFormed) (hk : AddOk K)
    (hw : ∀ al, (∀ a ∈ al, 0 ≤ a) → ∀ m ∈ q.graph.metrics, 0 ≤ dotp al m)
    (halg : q.algo ≠ .explorator) (hcov : Dij.AllCovered q.graph) (h2 : q.graph.nodeCount ≠ 2)
    (hsrc : q.src < q.graph.nodeCount) (hdst : q.dst < q.graph.nodeCount) (hn : n ≤ q.graph.nodeCount)
    (s : Dij.St K) (al : List ℚ) (hu : Used h dotp n s) :
    Ev fun fuel => computeBestPath h dotp fuel s { q with alphas := al } := by
  have key : ∀ N r, computeBestPath h dotp N s { q with alphas := al } = some r →
      Ev fun fuel => computeBestPath h dotp fuel s { q with alphas := al } := by
    intro N r hr
    refine ⟨N, r, fun F hF => ?_⟩
    have := Dij.compute_mono hr (F - N)
    rwa [Nat.add_sub_cancel' hF] at this
  by_cases hal : ∀ a ∈ al, 0 ≤ a
  · obtain ⟨N, hN⟩ := Dij.C15_answers_partial (q := { q with alphas := al }) hwf hk (hw al hal) halg hcov h2
      hsrc hdst hu hn
    obtain ⟨s', ans, h3⟩ := hN N le_rfl
    exact key N _ h3
  · push Not at hal
    obtain ⟨a, h3, h4⟩ := hal
    refine key 0 (.ok (s, none)) ?_
    unfold computeBestPath
    rw [if_pos (List.any_eq_true.mpr ⟨a, h3, by simpa using h4⟩)]

/-! ## C63 and C64 -/

/-- The returned routes are pairwise different. -/
theorem C63_distinct_partial (hb : Regular b coords size) (hl : Lower b coords size)
    (hwf : q.graph.WellFormed) (hk : AddOk K) (hd : q.graph.DimOk)
    (hw : ∀ al, (∀ a ∈ al, 0 ≤ a) → ∀ m ∈ q.graph.metrics, 0 ≤ dotp al m)
    (hsrc : q.src < q.graph.nodeCount) (hdst : q.dst < q.graph.nodeCount) (hu : Used h dotp n s)
    (hal : q.alphas.length = q.graph.dim) {res : List Path}
    (hr : fullyExplorate h dotp b fuel s q scales = some (.ok (s', res))) :
    (res.map (·.edges)).Nodup := by
  obtain ⟨i, j, ha⟩ := compute_serves (h := h) (dotp := dotp) (q := q) (n := max n q.graph.nodeCount) hwf hk
    hd hw hsrc hdst (le_max_right _ _)
  exact explorate_distinct (ha fuel) hl hb hal (hu.mono (le_max_left _ _)) hr

/-- The exploration ends and returns routes. -/
theorem C64_ends_partial (hb : Regular b coords size) (hl : Lower b coords size)
    (hwf : q.graph.WellFormed) (hk : AddOk K) (hd : q.graph.DimOk)
    (hw : ∀ al, (∀ a ∈ al, 0 ≤ a) → ∀ m ∈ q.graph.metrics, 0 ≤ dotp al m)
    (halg : q.algo ≠ .explorator) (hcov : Dij.AllCovered q.graph) (h2 : q.graph.nodeCount ≠ 2)
    (hsrc : q.src < q.graph.nodeCount) (hdst : q.dst < q.graph.nodeCount) (hu : Used h dotp n s)
    (hn : n ≤ q.graph.nodeCount) (hdim : q.graph.dim < 32) (hal : q.alphas.length = q.graph.dim)
    (hsc : scales.length = q.graph.dim) :
    ∃ N s' res, ∀ fuel, N ≤ fuel → fullyExplorate h dotp b fuel s q scales = some (.ok (s', res)) := by
  obtain ⟨i, j, ha⟩ := compute_serves (h := h) (dotp := dotp) (q := q) (n := q.graph.nodeCount) hwf hk
    hd hw hsrc hdst le_rfl
  obtain ⟨N, r, hN⟩ := explorate_ev (scales := scales) ha
    (compute_ev hwf hk hw halg hcov h2 hsrc hdst le_rfl) hl hb hal (hu.mono hn)
  cases r with
  | ok x =>
    obtain ⟨s', res⟩ := x
    exact ⟨N, s', res, hN⟩
  | err e => exact e.elim
  | panic =>
    exact absurd (hN N le_rfl)
      (C46_no_panic hb hwf hk hd hw halg hcov h2 hsrc hdst hu hn hdim hal hsc)

/-- More fuel does not change the result. -/
theorem fullyExplorate_mono {fuel' : Nat} (hf : fuel ≤ fuel') {r : R (Dij.St K × List Path)}
    (hr : fullyExplorate h dotp b fuel s q scales = some r) :
    fullyExplorate h dotp b fuel' s q scales = some r := by
  refine explorate_mono (fun s al r hr => ?_) hf hr
  have := Dij.compute_mono hr (fuel' - fuel)
  rwa [Nat.add_sub_cancel' hf] at this

end

/-! ## Examples and counterexamples -/

/-- The weight of a point in the plane, seen in the direction that is orthogonal to the line from `(a, b)`
to `(c, d)`. -/
def across (a b c d : ℚ) : List ℚ → ℚ
  | [x, y] => (b - d) * x + (c - a) * y
  | _ => 0

/-- Does a line fall from the first to the second point, with no point below? -/
def isLower (ps : List (List ℚ)) : List ℚ → List ℚ → Bool
  | [a, b], [c, d] => decide (a < c) && decide (d < b) &&
      ps.all fun p => decide (p.length = 2) && decide (across a b c d [a, b] ≤ across a b c d p)
  | _, _ => false

/-- Cells of the lower convex hull in the plane. A cell's id depends on its vertices only. -/
def lowerCells (t : Nat × List (List ℚ)) : List RawCell :=
  if t.1 = 2 then
    (List.range t.2.length).flatMap fun j => (List.range t.2.length).filterMap fun i =>
      if isLower t.2 (t.2[i]?.getD []) (t.2[j]?.getD []) then some ⟨2 ^ i * 3 ^ j, [i, j]⟩ else none
  else []

def lowerBackend : Backend := { listBackend with cells := lowerCells }

theorem mem_lowerCells {t : Nat × List (List ℚ)} {c : RawCell} (hc : c ∈ lowerCells t) :
    t.1 = 2 ∧ ∃ i j p r, c.vertices = [i, j] ∧ t.2[i]? = some p ∧ t.2[j]? = some r ∧ isLower t.2 p r = true := by
  unfold lowerCells at hc
  split at hc
  · rename_i h2
    refine ⟨h2, ?_⟩
    obtain ⟨j, hj, hc⟩ := List.mem_flatMap.mp hc
    obtain ⟨i, hi, hc⟩ := List.mem_filterMap.mp hc
    rw [List.mem_range] at hi hj
    split at hc
    · rename_i hlow
      cases hc
      rw [List.getElem?_eq_getElem hi, List.getElem?_eq_getElem hj] at hlow
      exact ⟨i, j, _, _, rfl, List.getElem?_eq_getElem hi, List.getElem?_eq_getElem hj, hlow⟩
    · cases hc
  · cases hc

theorem lower_regular : Regular lowerBackend (fun t id => t.2[id]?) (fun t => t.1) where
  new := list_regular.new
  added := list_regular.added
  size_new := list_regular.size_new
  add := list_regular.add
  cells := by
    intro t c hc
    obtain ⟨h1, i, j, p, r, h2, h3, h4, _⟩ := mem_lowerCells hc
    rw [h2]
    refine ⟨by simp, by simp; omega, fun v hv => ?_⟩
    simp only [List.mem_cons, List.not_mem_nil, or_false] at hv
    rcases hv with rfl | rfl
    · simp [h3]
    · simp [h4]
  solve := list_regular.solve

theorem lower_lower : Lower lowerBackend (fun t id => t.2[id]?) (fun t => t.1) where
  solved := by
    intro m rhs x h hlen hrows
    simp only [lowerBackend, listBackend] at h
    unfold cramer at h
    split at h
    · rename_i a b c d u v
      split at h
      · cases h
      · rename_i hdet
        cases h
        refine ⟨rfl, fun i row r h1 h2 => ?_⟩
        have hdet' : a * d - b * c ≠ 0 := hdet
        match i with
        | 0 =>
          simp only [List.getElem?_cons_zero, Option.some.injEq] at h1 h2
          subst h1 h2
          simp only [weigh, List.zipWith_cons_cons, List.zipWith_nil_left, List.sum_cons, List.sum_nil]
          rw [add_zero, ← mul_div_assoc, ← mul_div_assoc, ← add_div, div_eq_iff hdet']
          ring
        | 1 =>
          simp only [List.getElem?_cons_succ, List.getElem?_cons_zero, Option.some.injEq] at h1 h2
          subst h1 h2
          simp only [weigh, List.zipWith_cons_cons, List.zipWith_nil_left, List.sum_cons, List.sum_nil]
          rw [add_zero, ← mul_div_assoc, ← mul_div_assoc, ← add_div, div_eq_iff hdet']
          ring
        | i + 2 => simp at h1
    · cases h
  below := by
    intro t cell hcell x hx hnn heq v hv w y z hy hz
    obtain ⟨h1, i, j, p, r, h2, h3, h4, hlow⟩ := mem_lowerCells hcell
    rw [h2] at hv heq
    have hpr : weigh x p = weigh x r := heq i (by simp) j (by simp) p r h3 h4
    have hvy : weigh x y = weigh x p := heq v hv i (by simp) y p hy h3
    rw [hvy]
    rw [h1] at hx
    match x, hx with
    | [x1, x2], _ =>
      unfold isLower at hlow
      split at hlow
      · rename_i a b c d
        simp only [Bool.and_eq_true, decide_eq_true_eq] at hlow
        obtain ⟨⟨l1, l2⟩, l3⟩ := hlow
        have hz' := List.all_eq_true.mp l3 z (List.mem_of_getElem? hz)
        simp only [Bool.and_eq_true, decide_eq_true_eq] at hz'
        obtain ⟨z1, z2⟩ := hz'
        match z, z1 with
        | [u, v], _ =>
          simp only [weigh, List.zipWith_cons_cons, List.zipWith_nil_left, List.sum_cons, List.sum_nil,
            across, add_zero] at hpr z2 ⊢
          have k2 := hnn x2 (by simp)
          have e : x1 * (c - a) = x2 * (b - d) := by linarith
          have hca : 0 < c - a := by linarith
          have : 0 ≤ x2 * (((b - d) * u + (c - a) * v) - ((b - d) * a + (c - a) * b)) :=
            mul_nonneg k2 (by linarith)
          have e2 : x2 * (((b - d) * u + (c - a) * v) - ((b - d) * a + (c - a) * b)) =
              (c - a) * ((x1 * u + x2 * v) - (x1 * a + x2 * b)) := by
            linear_combination (a - u) * e
          rw [e2] at this
          have := nonneg_of_mul_nonneg_right this hca
          linarith
      · cases hlow

/-- All four routes are found, each once. -/
example : edgesOf (fullyExplorate Dij.codeHeap dot lowerBackend 30 Dij.St.new altQuery [none, none]) =
    some (.ok [[0, 4], [1, 5], [2, 6], [3, 7]]) := by decide +kernel

/-- The hypotheses hold. -/
example : ∃ N s' res, ∀ fuel, N ≤ fuel →
    fullyExplorate Dij.codeHeap dot lowerBackend fuel Dij.St.new altQuery [none, some 2] =
      some (.ok (s', res)) ∧ (res.map (·.edges)).Nodup := by
  have hw : ∀ al, (∀ a ∈ al, 0 ≤ a) → ∀ m ∈ altGraph.metrics, 0 ≤ dot al m :=
    fun al hal => Dij.weights_nonneg hal alt_nonneg
  obtain ⟨N, s', res, hN⟩ := C64_ends_partial (h := Dij.codeHeap) (dotp := dot) (n := 0) (s := Dij.St.new)
    (q := altQuery) (scales := [none, some 2]) lower_regular lower_lower alt_wf Search.addOk_rat alt_dim hw
    (by decide) alt_covered (by decide +kernel) (by decide +kernel) (by decide +kernel) .new (Nat.zero_le _)
    (by decide +kernel) (by decide +kernel) (by decide +kernel)
  refine ⟨N, s', res, fun fuel hf => ⟨hN fuel hf, ?_⟩⟩
  exact C63_distinct_partial (n := 0) lower_regular lower_lower alt_wf Search.addOk_rat alt_dim hw
    (by decide +kernel) (by decide +kernel) .new (by decide +kernel) (hN fuel hf)

/-- The direction of a turn. -/
def cross : List ℚ → List ℚ → List ℚ → ℚ
  | [a, b], [c, d], [x, y] => (c - a) * (y - b) - (d - b) * (x - a)
  | _, _, _ => 0

/-- Do all points lie on the same side of the line through the two points? -/
def isFacet (ps : List (List ℚ)) (p r : List ℚ) : Bool :=
  p ≠ r && (ps.all (fun c => decide (0 ≤ cross p r c)) || ps.all (fun c => decide (cross p r c ≤ 0)))

/-- All cells of the convex hull in the plane, lower and upper ones. -/
def hullCells (t : Nat × List (List ℚ)) : List RawCell :=
  if t.1 = 2 then
    (List.range t.2.length).flatMap fun j => (List.range j).filterMap fun i =>
      if isFacet t.2 (t.2[i]?.getD []) (t.2[j]?.getD []) then some ⟨2 ^ i * 3 ^ j, [i, j]⟩ else none
  else []

def hullBackend : Backend := { listBackend with cells := hullCells }

theorem hull_regular : Regular hullBackend (fun t id => t.2[id]?) (fun t => t.1) where
  new := list_regular.new
  added := list_regular.added
  size_new := list_regular.size_new
  add := list_regular.add
  cells := by
    intro t c hc
    simp only [hullBackend, hullCells] at hc
    split at hc
    · rename_i h2
      obtain ⟨j, hj, hc⟩ := List.mem_flatMap.mp hc
      obtain ⟨i, hi, hc⟩ := List.mem_filterMap.mp hc
      rw [List.mem_range] at hi hj
      split at hc
      · cases hc
        refine ⟨by simp, by simp; omega, fun v hv => ?_⟩
        simp only [List.mem_cons, List.not_mem_nil, or_false] at hv
        rcases hv with rfl | rfl
        · simp; omega
        · simp; omega
      · cases hc
    · cases hc
  solve := list_regular.solve

/-- A triangulation with lower and upper cells that gives the old id to known coordinates. -/
def hullDedup : Backend := { dedupBackend with cells := hullCells }

/-- The explorator asks for upper cells of the convex hull as well. A known route is cheaper than such
a cell and is registered again: it is returned twice, or the explorator panics if the triangulation gives
the old id. -/
theorem C63_false_upper :
    edgesOf (fullyExplorate Dij.codeHeap dot hullBackend 30 Dij.St.new altQuery [none, none]) =
      some (.ok [[0, 4], [1, 5], [2, 6], [2, 6], [3, 7]]) ∧
    edgesOf (fullyExplorate Dij.codeHeap dot hullDedup 30 Dij.St.new altQuery [none, none]) =
      some .panic := by decide +kernel

/-- The same cell in every iteration, with a new id. -/
def newIdBackend : Backend :=
  { listBackend with cells := fun t => if t.1 = 2 ∧ 2 ≤ t.2.length then [⟨t.2.length, [0, 1]⟩] else [] }

theorem newId_regular : Regular newIdBackend (fun t id => t.2[id]?) (fun t => t.1) where
  new := list_regular.new
  added := list_regular.added
  size_new := list_regular.size_new
  add := list_regular.add
  cells := by
    intro t c hc
    simp only [newIdBackend] at hc
    split at hc
    · rename_i h2
      rw [List.mem_singleton.mp hc]
      refine ⟨by simp, by simp; omega, fun v hv => ?_⟩
      simp only [List.mem_cons, List.not_mem_nil, or_false] at hv
      rcases hv with rfl | rfl <;> rw [ne_eq, List.getElem?_eq_none_iff] <;> omega
    · cases hc
  solve := list_regular.solve

/-- The routes of the cell and the route that is found for it. -/
def endA : Path := { srcIdx := 0, srcId := 0, dstIdx := 5, dstId := 5, edges := [0, 4], costs := some [1, 10] }
def endB : Path := { srcIdx := 0, srcId := 0, dstIdx := 5, dstId := 5, edges := [1, 5], costs := some [10, 1] }
def mid : Path := { srcIdx := 0, srcId := 0, dstIdx := 5, dstId := 5, edges := [2, 6], costs := none }
def midC : Path := { mid with costs := some [4, 4] }

def loopQuery : Query := { dim := 2, triDim := 2, tolerances := [none, none], considered := [true, true] }

abbrev altAsk (fuel : Nat) (s : Dij.St ℚ) (al : List ℚ) : Option (R (Dij.St ℚ × Option Path)) :=
  computeBestPath Dij.codeHeap dot fuel s { altQuery with alphas := al }

theorem ask_mid {s : Dij.St ℚ} (hu : Used Dij.codeHeap dot 6 s) {fuel : Nat} (hf : 30 ≤ fuel) :
    ∃ s', altAsk fuel s [1 / 2, 1 / 2] = some (.ok (s', some mid)) := by
  have h1 : Dij.answer (altAsk 30 s [1 / 2, 1 / 2]) = Dij.answer (altAsk 30 Dij.St.new [1 / 2, 1 / 2]) :=
    Dij.C17_reuse_partial (q := { altQuery with alphas := [1 / 2, 1 / 2] }) (fuel := 30) hu
      (by decide +kernel) (by decide +kernel)
  have h2 : Dij.answer (altAsk 30 Dij.St.new [1 / 2, 1 / 2]) = some (.ok (some mid)) := by decide +kernel
  obtain ⟨s', h3⟩ : ∃ s', altAsk 30 s [1 / 2, 1 / 2] = some (.ok (s', some mid)) := by
    rw [← h1] at h2
    unfold Dij.answer at h2
    cases hc : altAsk 30 s [1 / 2, 1 / 2] with
    | none => rw [hc] at h2; cases h2
    | some r =>
      rw [hc] at h2
      cases r with
      | ok x =>
        obtain ⟨s', ans⟩ := x
        simp only [Option.map_some, Res.ok_bind, Res.pure_eq, Option.some.injEq, Res.ok.injEq] at h2
        rw [h2]
        exact ⟨s', rfl⟩
      | err e => exact e.elim
      | panic => cases h2
  refine ⟨s', ?_⟩
  have := Dij.compute_mono h3 (fuel - 30)
  rwa [Nat.add_sub_cancel' hf] at this

/-- The state in the loop. -/
structure Looping (st : St newIdBackend) : Prop where
  dim : st.tri.1 = 2
  two : 2 ≤ st.tri.2.length
  first : lookup 0 st.found = some endA
  second : lookup 1 st.found = some endB
  old : ∀ v ∈ st.visited, v < st.tri.2.length

theorem loop_none {fuel : Nat} (hf : 30 ≤ fuel) (k : Nat) {st : St newIdBackend} (hl : Looping st)
    {s : Dij.St ℚ} (hu : Used Dij.codeHeap dot 6 s) :
    exploreLoop (altAsk fuel) altGraph newIdBackend loopQuery k true st s = none := by
  induction k generalizing st s with
  | zero => rfl
  | succ k ih =>
    obtain ⟨s', hs⟩ := ask_mid hu hf
    have hu' : Used Dij.codeHeap dot 6 s' :=
      .query (q := { altQuery with alphas := [1 / 2, 1 / 2] }) hu (by decide +kernel) hs
    have hcells : newIdBackend.cells st.tri = [⟨st.tri.2.length, [0, 1]⟩] := by
      simp only [newIdBackend]
      rw [if_pos ⟨hl.dim, hl.two⟩]
    have hcell : cellFrom st.found [0, 1] = .ok [endA, endB] := by
      simp [cellFrom, hl.first, hl.second, Res.ofIdx]
    have hal : cellAlphas newIdBackend loopQuery [endA, endB] = .ok (some [1 / 2, 1 / 2]) := by
      decide +kernel
    have hjudge : judge altGraph [endA, endB] [1 / 2, 1 / 2] [] mid = .ok [midC] := by decide +kernel
    have hexpl : exploreCell (altAsk fuel) altGraph newIdBackend loopQuery [endA, endB] (s, []) =
        some (.ok (s', [midC])) := by
      unfold exploreCell
      rw [hal]
      simp only [andThen]
      rw [hs]
      simp only [hjudge]
    have hnot : st.tri.2.length ∉ st.visited := fun h => lt_irrefl _ (hl.old _ h)
    unfold exploreLoop
    rw [if_pos rfl, hcells]
    unfold exploreCells exploreCells
    rw [if_neg hnot, hcell]
    simp only [andThen, hexpl]
    have hreg : update newIdBackend loopQuery { st with visited := st.tri.2.length :: st.visited } [midC] =
        .ok ⟨(st.tri.1, st.tri.2 ++ [[4, 4]]), insertKey st.tri.2.length midC st.found,
          st.tolerated ++ [st.tri.2.length], st.tri.2.length :: st.visited⟩ := rfl
    rw [hreg]
    simp only [List.isEmpty_cons, Bool.not_false]
    refine ih (st := ⟨(st.tri.1, st.tri.2 ++ [[4, 4]]), insertKey st.tri.2.length midC st.found,
      st.tolerated ++ [st.tri.2.length], st.tri.2.length :: st.visited⟩) ⟨hl.dim, ?_, ?_, ?_, ?_⟩ hu'
    · simp only [List.length_append]; have := hl.two; omega
    · rw [lookup_insert, if_neg (by have := hl.two; omega)]; exact hl.first
    · rw [lookup_insert, if_neg (by have := hl.two; omega)]; exact hl.second
    · intro v hv
      simp only [List.length_append, List.length_singleton]
      rcases List.mem_cons.mp hv with rfl | hv
      · omega
      · have := hl.old v hv; omega

/-- `Regular` is not sufficient for `C64_ends_partial`: if a cell that is no part of the lower convex hull
is reported with a new id in every iteration, then the exploration never ends. -/
theorem C64_false_new_ids : Regular newIdBackend (fun t id => t.2[id]?) (fun t => t.1) ∧
    ∀ fuel, fullyExplorate Dij.codeHeap dot newIdBackend fuel Dij.St.new altQuery [none, none] = none := by
  refine ⟨newId_regular, fun fuel => ?_⟩
  cases hr : fullyExplorate Dij.codeHeap dot newIdBackend fuel Dij.St.new altQuery [none, none] with
  | none => rfl
  | some r =>
    have h1 := fullyExplorate_mono (Nat.le_add_right fuel 30) hr
    exfalso
    have hinit : initAlphas (Query.start altGraph.dim altQuery.alphas) =
        .ok [(some 0, [1, 0]), (some 1, [0, 1]), (none, [1, 1])] := by decide +kernel
    have h30 : ((exploreInit (altAsk 30) altGraph [none, none]
        [(some 0, [1, 0]), (some 1, [0, 1]), (none, [1, 1])] Dij.St.new
        (Query.start altGraph.dim altQuery.alphas) []).map fun r => do
          let x ← r
          pure x.2) = some (.ok (loopQuery, [endA, endB, midC])) := by decide +kernel
    obtain ⟨s1, h2⟩ : ∃ s1, exploreInit (altAsk 30) altGraph [none, none]
        [(some 0, [1, 0]), (some 1, [0, 1]), (none, [1, 1])] Dij.St.new
        (Query.start altGraph.dim altQuery.alphas) [] = some (.ok (s1, loopQuery, [endA, endB, midC])) := by
      generalize exploreInit (altAsk 30) altGraph [none, none] _ _ _ _ = x at h30
      cases x with
      | none => cases h30
      | some r =>
        cases r with
        | ok x =>
          obtain ⟨s1, y⟩ := x
          simp only [Option.map_some, Res.ok_bind, Res.pure_eq, Option.some.injEq, Res.ok.injEq] at h30
          rw [h30]
          exact ⟨s1, rfl⟩
        | err e => exact e.elim
        | panic => cases h30
    have h3 := exploreInit_mono (ask' := altAsk (fuel + 30)) (fun s al r hr => by
      have := Dij.compute_mono hr fuel
      rwa [Nat.add_comm] at this) h2
    have hu1 : Used Dij.codeHeap dot 6 s1 :=
      (exploreInit_ok (ask := altAsk (fuel + 30)) (I := Used Dij.codeHeap dot 6)
        (used_step (q := altQuery) (by decide +kernel)) .new (init_nonzero hinit) h3).1
    have h4 : explorate (altAsk (fuel + 30)) altGraph newIdBackend (fuel + 30) altQuery.alphas [none, none]
        Dij.St.new = none := by
      unfold explorate
      simp only
      rw [hinit]
      simp only [andThen]
      rw [h3]
      have hreg : update newIdBackend loopQuery
          { tri := newIdBackend.new loopQuery.triDim, found := [], tolerated := [], visited := [] }
          [endA, endB, midC] = .ok ⟨((2 : Nat), [[1, 10], [10, 1], [4, 4]]),
            [(2, midC), (1, endB), (0, endA)], [0, 1, 2], []⟩ := by rfl
      simp only [hreg]
      rw [if_pos (by decide)]
      simp only [List.isEmpty_cons, Bool.not_false]
      rw [loop_none (Nat.le_add_left _ _) _ ⟨rfl, by decide, rfl, rfl, (by intro _ h; cases h)⟩ hu1]
    have h5 : explorate (altAsk (fuel + 30)) altGraph newIdBackend (fuel + 30) altQuery.alphas [none, none]
        Dij.St.new = some r := h1
    rw [h4] at h5
    cases h5

end Verif.Exp
