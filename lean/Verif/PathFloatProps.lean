import Verif.PathFloatLemmas
import Verif.PathProps

/-!
# C116: costs of paths with floating point numbers
-/

namespace Verif.PathF

open Fp BalF
open Graph (DimOk metric)

/-- The costs of a path, as long as they aren't known yet. -/
theorem costs_eq {g : Graph} {l : List Nat} (hl : Known g l) :
    calcCosts g ⟨l, none⟩ = .ok ⟨l, some (addAll g (List.replicate g.dim (some 0)) l)⟩ := by
  unfold calcCosts
  dsimp only
  rw [sumMetrics_spec hl]
  rfl

theorem cost_at {g : Graph} (hd : DimOk g) {l : List Nat} (hl : Known g l) {c : List (Option ℚ)}
    (h : calcCosts g ⟨l, none⟩ = .ok ⟨l, some c⟩) {k : Nat} (hk : k < g.dim) :
    c[k]? = some (sumO (some 0) (l.map fun e => g.metric e k)) := by
  rw [costs_eq hl] at h
  simp only [Res.ok.injEq, FPath.mk.injEq, Option.some.injEq, true_and] at h
  rw [← h]
  exact (addAll_spec hd hl (by simp)).2 k _ (by simp [hk])

theorem metrics_mem {g : Graph} (hm : Metrics g) {l : List Nat} {k : Nat} :
    ∀ x ∈ l.map (fun e => g.metric e k), 0 ≤ x ∧ IsNum x := by
  intro x hx
  obtain ⟨e, -, rfl⟩ := List.mem_map.mp hx
  exact hm e k

theorem sum_bounds {g : Graph} (hm : Metrics g) (l : List Nat) (k : Nat) :
    sumR 0 (l.map fun e => g.metric e k) ≤ (1 + 1 / 2 ^ 53) ^ l.length * total g l k ∧
    (1 - 1 / 2 ^ 53) ^ l.length * total g l k ≤ sumR 0 (l.map fun e => g.metric e k) := by
  have := sumR_bounds (s := 0) rnd_zero (le_refl _) (metrics_mem hm (l := l) (k := k))
  rwa [List.length_map, zero_add] at this

theorem total_nonneg {g : Graph} (hm : Metrics g) (l : List Nat) (k : Nat) : 0 ≤ total g l k :=
  List.sum_nonneg fun x hx => (metrics_mem hm x hx).1

/-- C116: the costs of a path can be calculated, if and only if its edges exist. There is one for every metric. -/
theorem C116_total {g : Graph} (hd : DimOk g) (l : List Nat) :
    (Known g l → ∃ c, calcCosts g ⟨l, none⟩ = .ok ⟨l, some c⟩ ∧ c.length = g.dim) ∧
    (¬ Known g l → calcCosts g ⟨l, none⟩ = .panic) := by
  refine ⟨fun hl => ⟨_, costs_eq hl, (addAll_spec hd hl (by simp)).1⟩, fun hl => ?_⟩
  have key : ∀ (l : List Nat) acc, ¬ Known g l → sumMetrics g l acc = .panic := by
    intro l
    induction l with
    | nil => intro acc h; exact absurd (fun e he => by simp at he) h
    | cons e l ih =>
      intro acc h
      unfold sumMetrics
      cases he : g.metrics[e]? with
      | none => rfl
      | some m =>
        rw [Res.ofIdx_some, Res.ok_bind]
        refine ih _ fun hk => h fun x hx => ?_
        rcases List.mem_cons.mp hx with rfl | hx
        · exact (List.getElem?_eq_some_iff.mp he).1
        · exact hk x hx
  unfold calcCosts
  dsimp only
  rw [key l _ hl]
  rfl

/-- C116: known costs aren't calculated again. -/
theorem C116_cached {g g' : Graph} {p q : FPath} (h : calcCosts g p = .ok q) : calcCosts g' q = .ok q := by
  unfold calcCosts at h
  cases hp : p.costs with
  | some c => rw [hp] at h; cases h; simp [calcCosts, hp]
  | none =>
    rw [hp] at h
    obtain ⟨c, -, hc⟩ := Res.bind_eq_ok.mp h
    cases hc
    rfl

/-- C116: a cost is the exact sum up to one rounding per edge. It is infinite only if not even this bound fits. -/
theorem C116_cost {g : Graph} (hd : DimOk g) (hm : Metrics g) {l : List Nat} (hl : Known g l) {c : List (Option ℚ)}
    (h : calcCosts g ⟨l, none⟩ = .ok ⟨l, some c⟩) {k : Nat} (hk : k < g.dim) :
    (∃ x, c[k]? = some (some x) ∧ IsNum x ∧ (1 - 1 / 2 ^ 53) ^ l.length * total g l k ≤ x ∧
      x ≤ (1 + 1 / 2 ^ 53) ^ l.length * total g l k) ∨
    (c[k]? = some none ∧ Over.maxF < (1 + 1 / 2 ^ 53) ^ l.length * total g l k) := by
  rw [cost_at hd hl h hk]
  obtain ⟨b1, b2⟩ := sum_bounds hm l k
  cases hs : sumO (some 0) (l.map fun e => g.metric e k) with
  | some x =>
    rw [← sumO_some hs] at b1 b2
    exact .inl ⟨x, rfl, by rw [sumO_some hs]; exact sumR_isNum rnd_zero, b2, b1⟩
  | none =>
    exact .inr ⟨rfl, lt_of_lt_of_le (sumO_infinite (le_refl _) (fun x hx => (metrics_mem hm x hx).1) hs) b1⟩

/-- C116: for metrics of moderate size, costs are finite and near to the exact sum: the relative error is at most
`2⁻⁵²` per edge. -/
theorem C116_near {g : Graph} (hd : DimOk g) (hm : Metrics g) {l : List Nat} (hl : Known g l) {c : List (Option ℚ)}
    (h : calcCosts g ⟨l, none⟩ = .ok ⟨l, some c⟩) {k : Nat} (hk : k < g.dim) (hn : l.length ≤ 2 ^ 52)
    (hs : ∀ e ∈ l, g.metric e k ≤ 2 ^ 900) :
    ∃ x, c[k]? = some (some x) ∧ |x - total g l k| ≤ l.length / 2 ^ 52 * total g l k := by
  rw [cost_at hd hl h hk]
  obtain ⟨b1, b2⟩ := sum_bounds hm l k
  refine ⟨_, congrArg some (sumO_fine (by rw [List.length_map]; omega) fun x hx => ?_), ?_⟩
  · obtain ⟨e, he, rfl⟩ := List.mem_map.mp hx
    exact ⟨(hm e k).1, hs e he⟩
  · have t0 := total_nonneg hm l k
    have u := mul_le_mul_of_nonneg_right (pow_upper hn) t0
    have v := mul_le_mul_of_nonneg_right (pow_lower l.length) t0
    rw [abs_le]
    constructor <;> linarith

/-- C116: whole numbers are added exactly, if they can be counted in an `f64`. -/
theorem C116_whole {g : Graph} (hd : DimOk g) {l : List Nat} (hl : Known g l) {c : List (Option ℚ)}
    (h : calcCosts g ⟨l, none⟩ = .ok ⟨l, some c⟩) {k : Nat} (hk : k < g.dim) (f : Nat → Nat)
    (hf : ∀ e ∈ l, g.metric e k = f e) (hs : (l.map f).sum ≤ 2 ^ 53) : c[k]? = some (some (total g l k)) := by
  have e1 : l.map (fun e => g.metric e k) = (l.map f).map fun n : Nat => (n : ℚ) := by
    rw [List.map_map]
    exact List.map_congr_left hf
  have e2 : total g l k = ((l.map f).sum : ℕ) := by
    unfold total
    rw [e1]
    push_cast
    rfl
  have key : ∀ (w : List Nat) (a : Nat), a + w.sum ≤ 2 ^ 53 →
      sumO (some (a : ℚ)) (w.map fun n : Nat => (n : ℚ)) = some ((a + w.sum : ℕ) : ℚ) := by
    intro w
    induction w with
    | nil => intro a _; simp [sumO]
    | cons n w ih =>
      intro a ha
      rw [List.sum_cons] at ha ⊢
      have e : sumO (some (a : ℚ)) ((n :: w).map fun n : Nat => (n : ℚ)) =
          sumO (Over.op ((a : ℚ) + n)) (w.map fun n : Nat => (n : ℚ)) := rfl
      have hr : rnd ((a : ℚ) + n) = ((a + n : ℕ) : ℚ) := by rw [← Nat.cast_add]; exact isNum_nat (by omega)
      have ho : Over.op ((a : ℚ) + n) = some ((a + n : ℕ) : ℚ) := by
        cases ho : Over.op ((a : ℚ) + n) with
        | some z => rw [op_some ho, hr]
        | none =>
          exfalso
          have h1 := op_none (by positivity) ho
          rw [hr] at h1
          have h2 : ((a + n : ℕ) : ℚ) ≤ 2 ^ 53 := by exact_mod_cast (show a + n ≤ 2 ^ 53 by omega)
          have h3 : (2 : ℚ) ^ 53 ≤ Over.maxF := by
            unfold Over.maxF
            have : (2 : ℚ) ≤ 2 ^ 971 := le_self_pow₀ (by norm_num) (by norm_num)
            generalize (2 : ℚ) ^ 971 = P at this ⊢
            nlinarith
          exact absurd (lt_of_lt_of_le h1 (le_trans h2 h3)) (lt_irrefl _)
      rw [e, ho, ih _ (by omega)]
      rw [Nat.add_assoc]
  rw [cost_at hd hl h hk, e1, e2]
  have := key (l.map f) 0 (by omega)
  rw [Nat.cast_zero, Nat.zero_add] at this
  rw [this]

/-- C116: of two paths whose exact costs differ clearly, the cheaper one is also cheaper with `f64`. -/
theorem C116_order {g : Graph} (hd : DimOk g) (hm : Metrics g) {l l' : List Nat} (hl : Known g l) (hl' : Known g l')
    {c c' : List (Option ℚ)} (h : calcCosts g ⟨l, none⟩ = .ok ⟨l, some c⟩)
    (h' : calcCosts g ⟨l', none⟩ = .ok ⟨l', some c'⟩) {k : Nat} (hk : k < g.dim) {x x' : ℚ}
    (hx : c[k]? = some (some x)) (hx' : c'[k]? = some (some x')) {n : Nat} (hn : l.length ≤ n) (hn' : l'.length ≤ n)
    (hN : n ≤ 2 ^ 52) (ht : total g l k * (1 + n / 2 ^ 52) < total g l' k * (1 - n / 2 ^ 52)) : x < x' := by
  rw [cost_at hd hl h hk, Option.some.injEq] at hx
  rw [cost_at hd hl' h' hk, Option.some.injEq] at hx'
  have b1 := (sum_bounds hm l k).1
  have b2 := (sum_bounds hm l' k).2
  rw [← sumO_some hx] at b1
  rw [← sumO_some hx'] at b2
  have t0 := total_nonneg hm l k
  have t0' := total_nonneg hm l' k
  have u := mul_le_mul_of_nonneg_right (pow_upper (le_trans hn hN)) t0
  have v := mul_le_mul_of_nonneg_right (pow_lower l'.length) t0'
  have hq : (l.length : ℚ) / 2 ^ 52 ≤ n / 2 ^ 52 := by gcongr
  have hq' : (l'.length : ℚ) / 2 ^ 52 ≤ n / 2 ^ 52 := by gcongr
  have w := mul_le_mul_of_nonneg_right hq t0
  have w' := mul_le_mul_of_nonneg_right hq' t0'
  nlinarith

/-- C116: a longer path never costs less. -/
theorem C116_grows {g : Graph} (hd : DimOk g) (hm : Metrics g) {l l' : List Nat} (hl : Known g (l ++ l'))
    {c c' : List (Option ℚ)} (h : calcCosts g ⟨l, none⟩ = .ok ⟨l, some c⟩)
    (h' : calcCosts g ⟨l ++ l', none⟩ = .ok ⟨l ++ l', some c'⟩) {k : Nat} (hk : k < g.dim) {x' : ℚ}
    (hx' : c'[k]? = some (some x')) : ∃ x, c[k]? = some (some x) ∧ 0 ≤ x ∧ x ≤ x' := by
  have hl1 : Known g l := fun e he => hl e (List.mem_append_left _ he)
  rw [cost_at hd hl h' hk, Option.some.injEq, List.map_append, sumO_append] at hx'
  rw [cost_at hd hl1 h hk]
  cases hs : sumO (some 0) (l.map fun e => g.metric e k) with
  | none => rw [hs, sumO_none] at hx'; cases hx'
  | some x =>
    rw [hs] at hx'
    have hn : IsNum x := by rw [sumO_some hs]; exact sumR_isNum rnd_zero
    refine ⟨x, rfl, ?_, ?_⟩
    · rw [sumO_some hs]
      exact le_sumR rnd_zero fun y hy => (metrics_mem hm y hy).1
    · rw [sumO_some hx']
      exact le_sumR hn fun y hy => (metrics_mem hm y hy).1

/-- C116: which edges a flattened path has, and whether flattening fails, doesn't depend on rounding. -/
theorem C116_flatten_edges (g : Graph) (fuel : Nat) (p : FPath) (q : Path) (h : p.edges = q.edges) :
    (tryFlatten g fuel p).map (edgesOf FPath.edges) = (Path.tryFlatten g fuel q).map (edgesOf Path.edges) := by
  have key := flatGo_edges g fuel none p.edges [] (List.replicate g.dim (some 0)) (List.replicate g.dim 0)
  unfold tryFlatten Path.tryFlatten
  rw [← h]
  cases h1 : flatGo g fuel none p.edges [] (List.replicate g.dim (some 0)) with
  | none =>
    rw [h1] at key
    cases h2 : Path.flatGo g fuel none p.edges [] (List.replicate g.dim 0) with
    | none => rfl
    | some r => rw [h2] at key; cases key
  | some r =>
    rw [h1] at key
    cases h2 : Path.flatGo g fuel none p.edges [] (List.replicate g.dim 0) with
    | none => rw [h2] at key; cases key
    | some r' =>
      rw [h2] at key
      simp only [Option.map_some, Option.some.injEq] at key ⊢
      cases r <;> cases r' <;> simp_all [edgesOf]

/-- C116: the costs of a flattened path are, bit by bit, those that would be calculated for its edges. -/
theorem C116_flatten_costs {g : Graph} (hd : DimOk g) {fuel : Nat} {p q : FPath}
    (h : tryFlatten g fuel p = some (.ok q)) : Known g q.edges ∧ calcCosts g ⟨q.edges, none⟩ = .ok q := by
  unfold tryFlatten at h
  cases h1 : flatGo g fuel none p.edges [] (List.replicate g.dim (some 0)) with
  | none => rw [h1] at h; cases h
  | some r =>
    rw [h1, Option.map_some, Option.some.injEq] at h
    obtain ⟨⟨es, c⟩, h2, h3⟩ := Res.bind_eq_ok.mp h
    rw [h2] at h1
    obtain ⟨l, e1, e2, e3⟩ := flatGo_costs hd (by simp) h1
    rw [List.nil_append] at e1
    subst e1
    simp only [Res.pure_eq, Res.ok.injEq] at h3
    subst h3
    refine ⟨e3, ?_⟩
    rw [costs_eq e3, e2]

/-! ## Examples and what is false -/

theorem metrics_of_all {g : Graph}
    (h : (g.metrics.all fun m => m.all fun x => decide (0 ≤ x) && decide (f64.rnd x = x)) = true) : Metrics g := by
  intro e k
  unfold Graph.metric
  cases he : g.metrics[e]? with
  | none => exact ⟨by simp, rnd_zero⟩
  | some m =>
    rw [Option.getD_some]
    cases hx : m[k]? with
    | none => exact ⟨by simp, rnd_zero⟩
    | some x =>
      have := List.all_eq_true.mp (List.all_eq_true.mp h m (List.mem_of_getElem? he)) x (List.mem_of_getElem? hx)
      simpa [IsNum] using this

/-- A way of three edges, a shortcut for the last two and a shortcut for all of them. -/
def roundGraph : Graph :=
  { nodeIds := [10, 20, 30, 40], nodeCoords := [⟨0, 0⟩, ⟨0, 0⟩, ⟨0, 0⟩, ⟨0, 0⟩],
    nodeLevels := [2, 1, 0, 3], fwdDsts := [1, 2, 3, 3, 3], fwdOffsets := [0, 2, 4, 5, 5],
    fwdMap := [0, 4, 1, 3, 2], bwdDsts := [0, 1, 2, 1, 0], bwdOffsets := [0, 0, 1, 2, 5],
    bwdMap := [0, 1, 2, 3, 4], metrics := [[2 ^ 53], [1], [1], [2], [2 ^ 53 + 2]], means := none,
    edgeIds := [none, none, none, none, none], idMap := [], scOffsets := [0, 0, 0, 0, 1, 2],
    scEdges := [(1, 2), (0, 3)], dim := 1 }

theorem roundGraph_dim : DimOk roundGraph := by
  intro m hm
  simp only [roundGraph, List.mem_cons, List.not_mem_nil, or_false] at hm
  rcases hm with rfl | rfl | rfl | rfl | rfl <;> rfl

theorem roundGraph_sc {e a b : Nat} (h : roundGraph.scEdgesOf e = .ok (some (a, b))) :
    (e = 3 ∧ a = 1 ∧ b = 2) ∨ (e = 4 ∧ a = 0 ∧ b = 3) := by
  by_cases he : e < 5
  · interval_cases e <;> revert h <;> (intro h; cases h <;> simp)
  · exfalso
    have : roundGraph.scOffsets[e + 1]? = none := by
      rw [List.getElem?_eq_none]; simp [roundGraph]; omega
    simp [Graph.scEdgesOf, Graph.isShortcut, this] at h

theorem roundGraph_metrics : Metrics roundGraph := metrics_of_all (by decide +kernel)

/-- The three edges are added one after the other, with two roundings. -/
example : calcCosts roundGraph ⟨[0, 1, 2], none⟩ = .ok ⟨[0, 1, 2], some [some (2 ^ 53)]⟩ ∧
    Known roundGraph [0, 1, 2] ∧ total roundGraph [0, 1, 2] 0 = 2 ^ 53 + 2 ∧
    (∀ e ∈ [0, 1, 2], roundGraph.metric e 0 ≤ 2 ^ 900) := by
  refine ⟨by decide +kernel, by unfold Known; decide +kernel, by decide +kernel, ?_⟩
  have h : (2 : ℚ) ^ 53 ≤ 2 ^ 900 := pow_le_pow_right₀ (by norm_num) (by norm_num)
  have h1 : ∀ e ∈ [0, 1, 2], roundGraph.metric e 0 ≤ 2 ^ 53 := by decide +kernel
  exact fun e he => le_trans (h1 e he) h

/-- Whole numbers. -/
example : calcCosts Path.scGraph ⟨[0, 1, 2], none⟩ = .ok ⟨[0, 1, 2], some [some 6]⟩ ∧
    (∀ e ∈ [0, 1, 2], Path.scGraph.metric e 0 = ((fun e => e + 1) e : ℕ)) ∧ ([0, 1, 2].map fun e => e + 1).sum = 6 := by
  decide +kernel

/-- Two paths whose costs differ clearly. -/
example : total roundGraph [1, 2] 0 * (1 + (2 : ℕ) / 2 ^ 52) < total roundGraph [0] 0 * (1 - (2 : ℕ) / 2 ^ 52) := by
  decide +kernel

/-- Flattening succeeds, also through two levels of shortcuts. -/
example : tryFlatten roundGraph 100 ⟨[4], none⟩ = some (.ok ⟨[0, 1, 2], some [some (2 ^ 53)]⟩) := by decide +kernel

/-- Costs of type `f64` aren't the sums of the metrics. -/
theorem C116_false_exact : ∃ (g : Graph) (l : List Nat) (x : ℚ), DimOk g ∧ Metrics g ∧ Known g l ∧
    calcCosts g ⟨l, none⟩ = .ok ⟨l, some [some x]⟩ ∧ x ≠ total g l 0 :=
  ⟨roundGraph, [0, 1, 2], 2 ^ 53, roundGraph_dim, roundGraph_metrics, by unfold Known; decide +kernel,
    by decide +kernel, by decide +kernel⟩

/-- Even if the metrics of all shortcuts are exact sums, flattening a path changes its costs. -/
theorem C116_false_flatten : ∃ (g : Graph) (fuel : Nat) (p q r : FPath), DimOk g ∧ Metrics g ∧ Graph.ShortcutsAdd g ∧
    calcCosts g p = .ok q ∧ tryFlatten g fuel p = some (.ok r) ∧ q.costs ≠ r.costs := by
  refine ⟨roundGraph, 100, ⟨[4], none⟩, ⟨[4], some [some (2 ^ 53 + 2)]⟩, ⟨[0, 1, 2], some [some (2 ^ 53)]⟩,
    roundGraph_dim, roundGraph_metrics, ?_, by decide +kernel, by decide +kernel, by decide +kernel⟩
  intro e a b h k hk
  have : k = 0 := by simp only [roundGraph] at hk; omega
  subst this
  rcases roundGraph_sc h with ⟨rfl, rfl, rfl⟩ | ⟨rfl, rfl, rfl⟩ <;> decide +kernel

/-- An edge of positive length needn't make a path longer. -/
theorem C116_false_strict : ∃ (g : Graph) (l : List Nat) (e : Nat) (c : List (Option ℚ)), DimOk g ∧ Metrics g ∧
    0 < g.metric e 0 ∧ calcCosts g ⟨l, none⟩ = .ok ⟨l, some c⟩ ∧
    calcCosts g ⟨l ++ [e], none⟩ = .ok ⟨l ++ [e], some c⟩ :=
  ⟨roundGraph, [0], 1, [some (2 ^ 53)], roundGraph_dim, roundGraph_metrics, by decide +kernel, by decide +kernel,
    by decide +kernel⟩

/-- The same edges in another order cost something else. -/
theorem C116_false_order : ∃ (g : Graph) (l l' : List Nat) (c c' : List (Option ℚ)), DimOk g ∧ Metrics g ∧
    l.Perm l' ∧ calcCosts g ⟨l, none⟩ = .ok ⟨l, some c⟩ ∧ calcCosts g ⟨l', none⟩ = .ok ⟨l', some c'⟩ ∧ c ≠ c' :=
  ⟨roundGraph, [0, 1, 2], [2, 1, 0], [some (2 ^ 53)], [some (2 ^ 53 + 2)], roundGraph_dim, roundGraph_metrics,
    by decide +kernel, by decide +kernel, by decide +kernel, by decide +kernel⟩

/-- A graph with one very long edge. -/
def longGraph : Graph := { roundGraph with metrics := [[2 ^ 1023], [1], [1], [2], [2 ^ 1023]] }

/-- The costs of a path may be infinite although all metrics are finite. -/
theorem C116_false_finite : ∃ (g : Graph) (l : List Nat), DimOk g ∧ Metrics g ∧ Known g l ∧
    calcCosts g ⟨l, none⟩ = .ok ⟨l, some [none]⟩ := by
  refine ⟨longGraph, [0, 1, 4], ?_, metrics_of_all (by decide +kernel), by unfold Known; decide +kernel,
    by decide +kernel⟩
  intro m hm
  simp only [longGraph, roundGraph, List.mem_cons, List.not_mem_nil, or_false] at hm
  rcases hm with rfl | rfl | rfl | rfl | rfl <;> rfl

end Verif.PathF
