import Verif.ExploratingLemmas2
import Verif.DijkstraProps
import Verif.ParallelProps

/-!
# Helper lemmas: the explorator with the router
-/

namespace Verif.Exp

open Dij (R Heap Used NonnegMetrics computeBestPath routeCost)
open Search (AddOk)

/-! ## Costs -/

theorem zipWith_unit {dim i : Nat} {m : List ℚ} (hm : m.length = dim) (hi : i < dim) :
    (List.zipWith (· * ·) (unit dim i) m).sum = m[i]?.getD 0 := by
  have key : ∀ (m : List ℚ) (k i : Nat), k ≤ i → i < k + m.length →
      (List.zipWith (· * ·) ((List.range' k m.length).map fun j => if j = i then (1 : ℚ) else 0) m).sum =
        m[i - k]?.getD 0 := by
    intro m
    induction m with
    | nil => intro k i h1 h2; simp at h2; omega
    | cons x m ih =>
      intro k i h1 h2
      rw [List.length_cons, List.range'_succ, List.map_cons, List.zipWith_cons_cons, List.sum_cons]
      by_cases hk : k = i
      · subst hk
        rw [if_pos rfl, Nat.sub_self, List.getElem?_cons_zero]
        have hz : ∀ (m : List ℚ) (j : Nat), k < j →
            (List.zipWith (· * ·) ((List.range' j m.length).map fun j => if j = k then (1 : ℚ) else 0)
              m).sum = 0 := by
          intro m
          induction m with
          | nil => intro j _; simp
          | cons y m ih =>
            intro j hj
            rw [List.length_cons, List.range'_succ, List.map_cons, List.zipWith_cons_cons, List.sum_cons,
              ih (j + 1) (by omega), if_neg (by omega)]
            simp
        rw [hz m (k + 1) (by omega)]
        simp
      · have h3 : i - k = (i - (k + 1)) + 1 := by omega
        rw [if_neg hk, ih (k + 1) i (by omega) (by simp at h2; omega), h3, List.getElem?_cons_succ]
        simp
  subst hm
  have := key m 0 i (by omega) (by omega)
  rw [unit, List.range_eq_range']
  simpa using this

theorem routeCost_unit {g : Graph} (hd : g.DimOk) {i : Nat} (hi : i < g.dim) {l : List Nat}
    (hl : ∀ e ∈ l, e < g.metrics.length) : routeCost g (unit g.dim i) l = metricCost g i l := by
  unfold routeCost metricCost
  congr 1
  apply List.map_congr_left
  intro e he
  have hlt := hl e he
  have h1 : g.metrics[e]? = some g.metrics[e] := List.getElem?_eq_getElem hlt
  rw [h1, Option.getD_some, zipWith_unit (hd _ (List.getElem_mem _)) hi]
  unfold Graph.metric
  rw [h1, Option.getD_some]

theorem isCost_get {g : Graph} {l : List Nat} {c : List ℚ} (h : g.IsCost l c) {i : Nat} (hi : i < g.dim) :
    c[i]? = some (metricCost g i l) := h.2 i hi

/-! ## The initial alphas -/

theorem unit_mem {q : Query} {l : List (Option Nat × List ℚ)} (h : initAlphas q = .ok l) {i : Nat}
    {v : List ℚ} : (some i, v) ∈ l ↔ i < q.dim ∧ q.considered[i]? = some true ∧ v = unit q.dim i := by
  rw [mem_initAlphas h]
  constructor
  · rintro ⟨m, h0, h1, h2, rfl, h3⟩
    cases hp : isPow2 m with
    | false => rw [hp] at h3; cases h3
    | true =>
      rw [hp] at h3
      obtain ⟨k, rfl⟩ := (isPow2_iff (by omega)).mp hp
      rw [Nat.log_pow (by omega)] at h3
      cases h3
      refine ⟨(Nat.pow_lt_pow_iff_right (by omega)).mp h1, h2 i (by simp),
        alphasOf_pow⟩
  · rintro ⟨h1, h2, rfl⟩
    refine ⟨2 ^ i, by positivity, Nat.pow_lt_pow_right (by omega) h1, fun j hj => ?_,
      alphasOf_pow.symm, ?_⟩
    · rw [Nat.testBit_two_pow] at hj
      rw [← of_decide_eq_true hj]
      exact h2
    · rw [(isPow2_iff (by positivity)).mpr ⟨i, rfl⟩, Nat.log_pow (by omega)]
      rfl

theorem start_considered {dim : Nat} {alphas : List ℚ} {i : Nat} :
    (Query.start dim alphas).considered[i]? = some true ↔ ∃ a, alphas[i]? = some a ∧ 0 < a := by
  unfold Query.start
  simp only [List.getElem?_map]
  cases alphas[i]? <;> simp

/-! ## Tolerances and the triangulation -/

theorem tolerates_iff {c : List ℚ} {tol : List (Option ℚ)} : tolerates c tol = true ↔
    ∀ (i : Nat) x t, c[i]? = some x → tol[i]? = some (some t) → x < t + 3 / 2000000 := by
  unfold tolerates
  rw [List.all_eq_true]
  constructor
  · intro h i x t hc ht
    have hm : (x, some t) ∈ c.zip tol := by
      apply List.mem_of_getElem? (i := i)
      rw [List.getElem?_zip_eq_some]
      exact ⟨hc, ht⟩
    have := h _ hm
    exact (Approx.C24_le_iff x t).mp this
  · rintro h ⟨x, t⟩ hm
    obtain ⟨i, hi⟩ := List.mem_iff_getElem?.mp hm
    rw [List.getElem?_zip_eq_some] at hi
    cases t with
    | none => rfl
    | some t => exact (Approx.C24_le_iff x t).mpr (h i x t hi.1 hi.2)

theorem project_cons_ok {d : Bool} {ds : List Bool} {a : ℚ} {c x : List ℚ}
    (h : project (d :: ds) (a :: c) = .ok x) : ∃ y, project ds c = .ok y ∧ x = if d then a :: y else y := by
  unfold project at h
  obtain ⟨y, hy, h⟩ := Res.bind_eq_ok.mp h
  cases h
  exact ⟨y, hy, rfl⟩

/-- Only considered costs matter for being tolerated. -/
theorem tolerates_project {ds : List Bool} {c c' x : List ℚ} {tol : List (Option ℚ)}
    (h : project ds c = .ok x) (h' : project ds c' = .ok x) (hl : c.length = c'.length)
    (hn : ∀ (i : Nat) t, ds[i]? = some false → tol[i]? = some t → t = none)
    (ht : tolerates c tol = true) : tolerates c' tol = true := by
  induction ds generalizing c c' x tol with
  | nil =>
    cases c with
    | cons a c => simp [project] at h
    | nil =>
      cases c' with
      | nil => exact ht
      | cons a c' => simp at hl
  | cons d ds ih =>
    cases c' with
    | nil => simp [tolerates]
    | cons a' c' =>
      cases c with
      | nil => simp at hl
      | cons a c =>
        cases tol with
        | nil => simp [tolerates]
        | cons t tol =>
          obtain ⟨y, hy, e⟩ := project_cons_ok h
          obtain ⟨y', hy', e'⟩ := project_cons_ok h'
          simp only [tolerates, List.zip_cons_cons, List.all_cons, Bool.and_eq_true] at ht ⊢
          have hn' : ∀ (i : Nat) t, ds[i]? = some false → tol[i]? = some t → t = none :=
            fun i s h1 h2 => hn (i + 1) s (by simpa using h1) (by simpa using h2)
          have hl' : c.length = c'.length := by simpa using hl
          cases d with
          | true =>
            rw [e] at e'
            simp only [if_true, List.cons.injEq] at e'
            obtain ⟨e1, e2⟩ := e'
            subst e1 e2
            exact ⟨ht.1, ih hy hy' hl' hn' ht.2⟩
          | false =>
            simp only [Bool.false_eq_true, if_false] at e e'
            have e3 : y = y' := e.symm.trans e'
            subst e3
            refine ⟨?_, ih hy hy' hl' hn' ht.2⟩
            have := hn 0 t (by simp) (by simp)
            rw [this]

section
variable {b : Backend} {q : Query}

theorem register_ok {st st' : St b} {p : Path} (h : register b q st p = .ok st') :
    ∃ c x id tri, p.costs = some c ∧ project q.considered c = .ok x ∧
      b.addVertex st.tri x = .ok (id, tri) ∧ st'.tri = tri ∧ st'.found = insertKey id p st.found ∧
      st'.tolerated = if tolerates c q.tolerances then st.tolerated ++ [id] else st.tolerated := by
  unfold register at h
  obtain ⟨c, hc, h⟩ := Res.bind_eq_ok.mp h
  obtain ⟨x, hx, h⟩ := Res.bind_eq_ok.mp h
  obtain ⟨⟨id, tri⟩, ht, h⟩ := Res.bind_eq_ok.mp h
  rw [pacc_ok, getCosts_ok] at hc
  cases h
  exact ⟨c, x, id, tri, hc, hx, ht, rfl, rfl, rfl⟩

theorem mem_insertKey {k id : Nat} {p p' : Path} {l : List (Nat × Path)} (h : (k, p) ∈ insertKey id p' l) :
    (k = id ∧ p = p') ∨ (k ≠ id ∧ (k, p) ∈ l) := by
  unfold insertKey at h
  rcases List.mem_cons.mp h with h | h
  · cases h; exact .inl ⟨rfl, rfl⟩
  · rw [List.mem_filter] at h
    exact .inr ⟨by simpa using h.2, h.1⟩

/-- Every path in the triangulation has been found. -/
def Holds (F : Path → Prop) (st : St b) : Prop := ∀ k p, (k, p) ∈ st.found → F p

theorem register_holds {F : Path → Prop} {st st' : St b} {p : Path} (hp : F p) (hj : Holds F st)
    (h : register b q st p = .ok st') : Holds F st' := by
  obtain ⟨c, x, id, tri, _, _, _, _, hf, _⟩ := register_ok h
  intro k r hr
  rw [hf] at hr
  rcases mem_insertKey hr with ⟨_, rfl⟩ | ⟨_, hr⟩
  · exact hp
  · exact hj k r hr

/-- The ids in the triangulation belong to considered costs, which are tolerated if the id is. -/
structure Fits (q : Query) (coords : b.Tri → Nat → Option (List ℚ)) (st : St b) : Prop where
  found : ∀ k p, (k, p) ∈ st.found → ∃ c x, p.costs = some c ∧ c.length = q.dim ∧
    project q.considered c = .ok x ∧ coords st.tri k = some x
  tolerated : ∀ k ∈ st.tolerated, ∃ c x, c.length = q.dim ∧ project q.considered c = .ok x ∧
    coords st.tri k = some x ∧ tolerates c q.tolerances = true

theorem register_fits {coords : b.Tri → Nat → Option (List ℚ)} (hb : Sound b coords) {st st' : St b}
    {p : Path} (hp : ∀ c, p.costs = some c → c.length = q.dim) (hj : Fits q coords st)
    (h : register b q st p = .ok st') : Fits q coords st' := by
  obtain ⟨c, x, id, tri, hc, hx, ht, e1, e2, e3⟩ := register_ok h
  obtain ⟨h1, h2, h3⟩ := hb.added _ _ _ _ ht
  have keep : ∀ k y, coords st.tri k = some y → coords tri k = some y := by
    intro k y hy
    by_cases hk : k = id
    · subst hk
      rcases h2 with h2 | h2
      · rw [h2] at hy; cases hy
      · rw [h2] at hy; cases hy; exact h1
    · rw [h3 k hk]; exact hy
  constructor
  · intro k r hr
    rw [e2] at hr
    rw [e1]
    rcases mem_insertKey hr with ⟨rfl, rfl⟩ | ⟨_, hr⟩
    · exact ⟨c, x, hc, hp c hc, hx, h1⟩
    · obtain ⟨c', y, h4, h5, h6, h7⟩ := hj.found k r hr
      exact ⟨c', y, h4, h5, h6, keep k y h7⟩
  · intro k hk
    rw [e1]
    rw [e3] at hk
    have old : k ∈ st.tolerated → ∃ c x, c.length = q.dim ∧ project q.considered c = .ok x ∧
        coords tri k = some x ∧ tolerates c q.tolerances = true := by
      intro hk
      obtain ⟨c', y, h4, h5, h6, h7⟩ := hj.tolerated k hk
      exact ⟨c', y, h4, h5, keep k y h6, h7⟩
    split at hk
    · rename_i htol
      rcases List.mem_append.mp hk with hk | hk
      · exact old hk
      · rw [List.mem_singleton.mp hk]
        exact ⟨c, x, hp c hc, hx, h1, htol⟩
    · exact old hk

theorem fits_tolerates {coords : b.Tri → Nat → Option (List ℚ)} {st : St b}
    (hn : ∀ (i : Nat) t, q.considered[i]? = some false → q.tolerances[i]? = some t → t = none)
    (hj : Fits q coords st) {k : Nat} {p : Path} (hk : k ∈ st.tolerated) (hp : (k, p) ∈ st.found) :
    ∃ c, p.costs = some c ∧ tolerates c q.tolerances = true := by
  obtain ⟨c, x, h1, h2, h3, h4⟩ := hj.found k p hp
  obtain ⟨c', x', h5, h6, h7, h8⟩ := hj.tolerated k hk
  rw [h4] at h7
  cases h7
  exact ⟨c, h1, tolerates_project h6 h3 (h5.trans h2.symm) hn h8⟩

end

/-! ## The router -/

section
variable {K : Type} [LinearOrder K] [Zero K] [Add K] {h : Heap K} {dotp : List ℚ → List ℚ → K}
  {b : Backend} {fuel n : Nat} {s s' : Dij.St K} {q : Dij.Query K} {scales : List (Option ℚ)}
  {res : List Path}

theorem used_step (hn : q.graph.nodeCount ≤ n) (s : Dij.St K) (al : List ℚ) (s' : Dij.St K)
    (ans : Option Path) (hu : Used h dotp n s)
    (hc : computeBestPath h dotp fuel s { q with alphas := al } = some (.ok (s', ans))) :
    Used h dotp n s' := .query (q := { q with alphas := al }) hu hn hc

/-- What is found by the router. -/
abbrev Found (h : Heap K) (dotp : List ℚ → List ℚ → K) (fuel n : Nat) (q : Dij.Query K) : Path → Prop :=
  Fnd (fun s al => computeBestPath h dotp fuel s { q with alphas := al }) q.graph (Used h dotp n)

theorem answer_costs (hwf : q.graph.WellFormed) (hk : AddOk K) (hd : q.graph.DimOk)
    (hw : ∀ al, (∀ a ∈ al, 0 ≤ a) → ∀ m ∈ q.graph.metrics, 0 ≤ dotp al m)
    (hsrc : q.src < q.graph.nodeCount) (hdst : q.dst < q.graph.nodeCount) {al : List ℚ} {p0 p : Path}
    (hu : Used h dotp n s)
    (hc : computeBestPath h dotp fuel s { q with alphas := al } = some (.ok (s', some p0)))
    (hp : p0.calcCosts q.graph = .ok p) :
    q.graph.IsRoute q.src p.edges q.dst ∧ p.edges = p0.edges ∧ p.srcIdx = q.src ∧ p.dstIdx = q.dst ∧
      q.graph.nodeId q.src = .ok p.srcId ∧ q.graph.nodeId q.dst = .ok p.dstId ∧
      (∀ e ∈ p.edges, e < q.graph.metrics.length) ∧
      ∃ c, p.costs = some c ∧ q.graph.IsCost p.edges c := by
  obtain ⟨h1, h2, h3, h4, h5, h6⟩ := Dij.C13_route (q := { q with alphas := al }) hwf hk
    (hw al (Dij.computed_valid hc).2) hsrc hdst hu hc
  have hl : ∀ e ∈ p0.edges, e < q.graph.metrics.length := by
    rw [hwf.metrics_len]
    exact Par.isRoute_lt h1
  obtain ⟨c, h7, h8⟩ := Path.C23_calc_costs hd hl h6
  rw [h7] at hp
  cases hp
  exact ⟨h1, rfl, h2, h3, h4, h5, hl, c, rfl, h8⟩

/-- The tolerances after the initial paths. -/
theorem tolerance_cases (hn : q.graph.nodeCount ≤ n) (hwf : q.graph.WellFormed) (hk : AddOk K)
    (hd : q.graph.DimOk) (hw : ∀ al, (∀ a ∈ al, 0 ≤ a) → ∀ m ∈ q.graph.metrics, 0 ≤ dotp al m)
    (hsrc : q.src < q.graph.nodeCount) (hdst : q.dst < q.graph.nodeCount) (hu : Used h dotp n s)
    {init : List (Option Nat × List ℚ)} {q' : Query} {new : List Path}
    (hi : initAlphas (Query.start q.graph.dim q.alphas) = .ok init)
    (he : exploreInit (fun s al => computeBestPath h dotp fuel s { q with alphas := al }) q.graph scales
      init s (Query.start q.graph.dim q.alphas) [] = some (.ok (s', q', new))) :
    q'.dim = q.graph.dim ∧ q'.considered = (Query.start q.graph.dim q.alphas).considered ∧
    q'.tolerances.length = q.graph.dim ∧
    ∀ i t, q'.tolerances[i]? = some t →
      ((¬ ∃ a, q.alphas[i]? = some a ∧ 0 < a) ∧ t = none) ∨
      (∃ a, q.alphas[i]? = some a ∧ 0 < a) ∧
        ((t = none ∧ ∃ s s', Used h dotp n s ∧ computeBestPath h dotp fuel s
            { q with alphas := unit q.graph.dim i } = some (.ok (s', none))) ∨
        ∃ s s' b, Used h dotp n s ∧ computeBestPath h dotp fuel s
            { q with alphas := unit q.graph.dim i } = some (.ok (s', some b)) ∧
          ∃ sc, scales[i]? = some sc ∧ ((sc = none ∧ t = none) ∨
            ∃ x, sc = some x ∧ t = some (metricCost q.graph i b.edges * x))) := by
  have hnz : ∀ mi al, (mi, al) ∈ init → ∃ a ∈ al, a ≠ (0 : ℚ) := by
    intro mi al hm
    obtain ⟨m, hm0, hm1, _, rfl, _⟩ := (mem_initAlphas hi).mp hm
    obtain ⟨i, hi⟩ := Nat.exists_testBit_of_ne_zero (Nat.pos_iff_ne_zero.mp hm0)
    have hid : i < (Query.start q.graph.dim q.alphas).dim := by
      by_contra hc
      rw [Nat.testBit_lt_two_pow (lt_of_lt_of_le hm1 (Nat.pow_le_pow_right (by omega) (by omega)))] at hi
      cases hi
    have := alphasOf_get (mask := m) hid
    rw [hi] at this
    exact ⟨1, List.mem_of_getElem? this, one_ne_zero⟩
  obtain ⟨_, ⟨k1, _, k2, k2'⟩, _, _, _, k3, _⟩ := exploreInit_ok (used_step hn) hu hnz he
  have hlen : q'.tolerances.length = q.graph.dim := by
    rw [k2']; simp [Query.start]
  refine ⟨k1, k2, hlen, fun i t ht => ?_⟩
  have hid : i < q.graph.dim := by
    have := Build.lt_length_of_getElem? ht
    omega
  rcases k3 i t ht with ⟨h1, h2⟩ | ⟨al, hal, s1, s2, p0, p, c, hs, hc, hp, hcs, sc, hsc, hcase⟩
  · have htn : t = none := by
      simp only [Query.start] at h1
      rw [List.getElem?_replicate_of_lt hid] at h1
      cases h1; rfl
    by_cases hcon : ∃ a, q.alphas[i]? = some a ∧ 0 < a
    · obtain ⟨s1, s2, hs, hc⟩ := h2 _ ((unit_mem hi).mpr ⟨hid, start_considered.mpr hcon, rfl⟩)
      exact .inr ⟨hcon, .inl ⟨htn, s1, s2, hs, hc⟩⟩
    · exact .inl ⟨hcon, htn⟩
  · obtain ⟨h1, h2, rfl⟩ := (unit_mem hi).mp hal
    refine .inr ⟨start_considered.mp h2, .inr ⟨s1, s2, p0, hs, hc, sc, hsc, ?_⟩⟩
    rcases hcase with hcase | ⟨x, y, h3, h4, h5⟩
    · exact .inl hcase
    · refine .inr ⟨x, h3, ?_⟩
      obtain ⟨_, e1, _, _, _, _, _, c', hc', hcost⟩ := answer_costs hwf hk hd hw hsrc hdst hs hc hp
      rw [hcs] at hc'
      cases hc'
      rw [isCost_get hcost hid] at h4
      cases h4
      rw [h5, e1]

end

end Verif.Exp
