import Verif.NormFloatLemmas
import Verif.BalanceFloatProps

/-!
# Property C114: normalized metrics with numbers of type `f64`
-/

namespace Verif.NormF

open Gen Fp BalF
open Bal (average)

theorem colMean_near {s : Net} (hm : Metrics s) (hne : s.graph.metrics ≠ []) {k : Nat}
    (h : Over.eq (colMean s.graph.metrics k) 0 = false) :
    |colMean s.graph.metrics k - mean s.graph.metrics k| ≤
      (s.graph.metrics.length + 4) / 2 ^ 52 * mean s.graph.metrics k ∧
    |colMean s.graph.metrics k - mean s.graph.metrics k| ≤
      (s.graph.metrics.length + 4) / 2 ^ 52 * colMean s.graph.metrics k := by
  have := mean_core (ts := column s.graph.metrics k) (M := colMean s.graph.metrics k)
    (by rw [column_length]; exact hm.count) (fun h0 => hne (by simpa [column] using h0)) (column_fine hm k)
    (by rw [column_length]; rfl) (lt_trans (by norm_num) (colMean_pos hm h))
  rw [column_length, ← mean_eq] at this
  exact this

/-- A quotient that isn't tiny, times the divisor. -/
theorem quot_near {x M : ℚ} (hx : 0 ≤ x) (hM : 0 < M) (hy : 14 / 10000000 < rnd (x / M)) :
    |rnd (x / M) * M - x| ≤ x / 2 ^ 52 ∧ |rnd (x / M) - x / M| ≤ 1 / 2 ^ 52 * (x / M) := by
  have h0 := div_nonneg hx hM.le
  have h1 := any_nonneg h0
  have h2 := (rel_step h1).2
  have hη := eta_le (k := 100) (by norm_num)
  have h3 : |rnd (x / M) - x / M| ≤ 1 / 2 ^ 52 * (x / M) := by
    have h4 : 1 / 1000000 ≤ x / M := by
      generalize x / M = q at *
      by_contra hc
      have h5 : (1 : ℚ) / 2 ^ 100 ≤ 1 / 10000000 := by norm_num
      linarith
    have h5 : eta ≤ 1 / 2 ^ 53 * (x / M) := by
      have h6 : (1 : ℚ) / 2 ^ 100 ≤ 1 / 2 ^ 53 * (1 / 1000000) := by norm_num
      linarith
    linarith
  refine ⟨?_, h3⟩
  have e1 : rnd (x / M) * M - x = (rnd (x / M) - x / M) * M := by rw [sub_mul, div_mul_cancel₀ _ hM.ne']
  rw [e1, abs_mul, abs_of_pos hM]
  refine le_trans (mul_le_mul_of_nonneg_right h3 hM.le) (le_of_eq ?_)
  rw [mul_assoc, div_mul_cancel₀ _ hM.ne']
  ring

/-! ## C114 -/

section
variable {s s' : Net}

/-- C114: with numbers of a moderate size, no number overflows and none is divided by zero. Normalizing doesn't panic.
It fails without edges or with a mean that vanishes, and succeeds otherwise. -/
theorem C114_total (hn : s.edges.normalized = true) (hc : Consistent s)
    (hw : s.graph.metrics.length = s.graph.edgeCount) (hm : Metrics s) (hs : Moderate s) :
    (s.graph.metrics = [] ∧ normalize s = some (.err .noEdges)) ∨
    (s.graph.metrics ≠ [] ∧ normalize s = some (.err .zeroMean) ∧
      ∃ k < s.edges.units.length, mean s.graph.metrics k ≤ 2 / 1000000) ∨
    (s.graph.metrics ≠ [] ∧ (∃ s', normalize s = some (.ok s')) ∧
      ∀ k < s.edges.units.length, 1 / 1000000 ≤ mean s.graph.metrics k) := by
  by_cases hne : s.graph.metrics = []
  · refine Or.inl ⟨hne, ?_⟩
    unfold normalize
    rw [if_pos hn]
    dsimp only
    rw [← hw, hne]
    rfl
  right
  have hz : s.graph.metrics.length ≠ 0 := fun h => hne (List.length_eq_zero_iff.mp h)
  obtain ⟨means, hmeans⟩ := meansOf_fine hc.values hm.count hne fun e k x hx => ⟨(hm.values e k x hx).1, hs e k x hx⟩
  obtain ⟨m1, m2, -⟩ := meansOf_ok hc.values hmeans
  unfold normalize
  rw [if_pos hn]
  dsimp only
  rw [← hw, if_neg hz, hmeans]
  dsimp only
  by_cases hany : (means.any fun mean => Over.eq mean 0) = true
  · refine Or.inl ⟨hne, by rw [if_pos hany], ?_⟩
    obtain ⟨μ, hμ, h0⟩ := List.any_eq_true.mp hany
    obtain ⟨k, hk⟩ := List.getElem?_of_mem hμ
    have hkd : k < s.edges.units.length := by rw [← m1]; exact lt_of_some hk
    rw [m2 k hkd, Option.some.injEq] at hk
    subst hk
    refine ⟨k, hkd, ?_⟩
    have h1 := (abs_le.mp (eq_near' (isNum_rnd _) rnd_zero h0)).2
    rw [mean_eq]
    refine mean_small (M := colMean s.graph.metrics k) (by rw [column_length]; exact hm.count)
      (fun h0 => hne (by simpa [column] using h0)) (column_fine hm k) (by rw [column_length]; rfl) ?_
    rw [sub_zero] at h1
    exact h1
  · rw [if_neg hany]
    have hpos : ∀ k < s.edges.units.length, Over.eq (colMean s.graph.metrics k) 0 = false := by
      intro k hk
      simp only [List.any_eq_true, not_exists, not_and, Bool.not_eq_true] at hany
      exact hany _ (List.mem_of_getElem? (m2 k hk))
    obtain ⟨ms, hms⟩ := divideAll_fine (means := means) (ms := s.graph.metrics) fun m hmem => by
      refine divide_fine fun k x hx => ?_
      obtain ⟨e, he⟩ := List.getElem?_of_mem hmem
      have hv : value s.graph.metrics e k = some x := Bal.value_eq_some.mpr ⟨m, he, hx⟩
      have hk := (value_lt hc hv).1
      refine ⟨colMean s.graph.metrics k, by rw [Nat.zero_add]; exact m2 k hk, ?_⟩
      obtain ⟨d, -⟩ := divideBy_fine (mean := colMean s.graph.metrics k)
        (lt_trans (by norm_num) (colMean_pos hm (hpos k hk))) (e := 900) (by norm_num) (xs := [x])
        (by simpa using ⟨(hm.values e k x hv).1, hs e k x hv⟩)
      simp only [divideBy] at d
      obtain ⟨y, hy, -⟩ := Res.bind_eq_ok.mp d
      exact ⟨y, hy⟩
    refine Or.inr ⟨hne, ⟨_, by rw [hms]⟩, fun k hk => ?_⟩
    have h1 := (colMean_near hm hne (hpos k hk)).2
    have h2 := colMean_pos hm (hpos k hk)
    have h3 : ((s.graph.metrics.length : ℚ) + 4) / 2 ^ 52 ≤ 26 / 100 := by
      have : (s.graph.metrics.length : ℚ) ≤ 2 ^ 50 := by exact_mod_cast hm.count
      rw [div_le_iff₀ (by norm_num)]
      linarith
    have h4 := mul_le_mul_of_nonneg_right h3 (le_trans (by norm_num) h2.le : (0 : ℚ) ≤ colMean s.graph.metrics k)
    linarith [(rel_step h1).2]

/-- C114: without normalization nothing happens. -/
theorem C114_off (hn : s.edges.normalized = false) : normalize s = some (.ok s) := by
  unfold normalize
  rw [if_neg (by simp [hn])]

/-- C114: nothing but metrics and means is changed. -/
theorem C114_untouched (h : normalize s = some (.ok s')) (hn : s.edges.normalized = true) (hc : Consistent s)
    (hw : s.graph.metrics.length = s.graph.edgeCount) : OnlyMetrics s s' := (normalize_ok h hn hc hw).2.1

/-- C114: the remembered means are those of exact arithmetic, up to rounding: the more edges, the less accurate. -/
theorem C114_means (h : normalize s = some (.ok s')) (hn : s.edges.normalized = true) (hc : Consistent s)
    (hw : s.graph.metrics.length = s.graph.edgeCount) (hm : Metrics s) :
    ∃ means, s'.graph.means = some means ∧ means.length = s.edges.units.length ∧
      ∀ k < s.edges.units.length, ∃ M, means[k]? = some M ∧ 14 / 10000000 < M ∧
        |M - mean s.graph.metrics k| ≤ (s.graph.metrics.length + 4) / 2 ^ 52 * mean s.graph.metrics k := by
  obtain ⟨h1, h2, ⟨means, h3, h4, h5⟩, h6, h7⟩ := normalize_ok h hn hc hw
  exact ⟨means, h3, h4, fun k hk => ⟨_, h5 k hk, colMean_pos hm (h6 k hk).1, (colMean_near hm h1 (h6 k hk).1).1⟩⟩

/-- C114: every value is divided by the remembered mean of its metric. Where the result vanishes, it is replaced by the
accuracy; otherwise it's accurate. -/
theorem C114_values (h : normalize s = some (.ok s')) (hn : s.edges.normalized = true) (hc : Consistent s)
    (hw : s.graph.metrics.length = s.graph.edgeCount) (hm : Metrics s) {e k : Nat} {x : ℚ}
    (hx : value s.graph.metrics e k = some x) :
    ∃ y M, value s'.graph.metrics e k = some y ∧ (s'.graph.means.bind fun means => means[k]?) = some M ∧ 0 < M ∧
      ((y = f64.rnd (1 / 1000000) ∧ x / M ≤ 17 / 10000000) ∨
        (14 / 10000000 < y ∧ |y * M - x| ≤ x / 2 ^ 52 ∧
          |y - x / mean s.graph.metrics k| ≤
            (s.graph.metrics.length + 6) / 2 ^ 52 * (x / mean s.graph.metrics k))) := by
  obtain ⟨h1, h2, ⟨means, h3, h4, h5⟩, h6, h7⟩ := normalize_ok h hn hc hw
  obtain ⟨hk, -⟩ := value_lt hc hx
  have hpos := colMean_pos hm (h6 k hk).1
  have hM : 0 < colMean s.graph.metrics k := lt_trans (by norm_num) hpos
  have hx0 := (hm.values e k x hx).1
  refine ⟨_, colMean s.graph.metrics k, h7 e k x hx, by rw [h3]; exact h5 k hk, hM, ?_⟩
  rcases lift_cases (nonneg (div_nonneg hx0 hM.le)) (isNum_rnd _) with ⟨l1, l2⟩ | ⟨l1, l2⟩
  · refine Or.inl ⟨l1, ?_⟩
    have a1 := (rel_step (any_nonneg (div_nonneg hx0 hM.le))).1
    have hη := eta_le (k := 53) (by norm_num)
    linarith
  · rw [l1]
    obtain ⟨q1, q2⟩ := quot_near hx0 hM l2
    refine Or.inr ⟨l2, q1, ?_⟩
    obtain ⟨c1, c2⟩ := colMean_near hm h1 (h6 k hk).1
    have hn2 : (s.graph.metrics.length : ℚ) ≤ 2 ^ 50 := by exact_mod_cast hm.count
    have hn0 : (0 : ℚ) ≤ s.graph.metrics.length := Nat.cast_nonneg _
    generalize (s.graph.metrics.length : ℚ) = n at *
    generalize mean s.graph.metrics k = a at *
    generalize colMean s.graph.metrics k = M at *
    have hv : (n + 4) / 2 ^ 52 ≤ 26 / 100 := by
      rw [div_le_iff₀ (by norm_num)]
      linarith
    have hv0 : 0 ≤ (n + 4) / 2 ^ 52 := by positivity
    have e6 : (n + 6) / 2 ^ 52 = (n + 4) / 2 ^ 52 + 2 * (1 / 2 ^ 52) := by ring
    rw [e6]
    generalize (n + 4) / 2 ^ 52 = v at *
    have hvM := mul_le_mul_of_nonneg_right hv hM.le
    have ha : 0 < a := by linarith [(rel_step c2).2]
    have hd : |x / M - x / a| ≤ v * (x / a) := by
      have e1 : x / M - x / a = (a - M) / M * (x / a) := by field_simp
      rw [e1, abs_mul, abs_of_nonneg (div_nonneg hx0 ha.le)]
      refine mul_le_mul_of_nonneg_right ?_ (div_nonneg hx0 ha.le)
      rw [abs_div, abs_of_pos hM, div_le_iff₀ hM, abs_sub_comm]
      exact c2
    have hxa : 0 ≤ x / a := div_nonneg hx0 ha.le
    have hq : x / M ≤ 2 * (x / a) := by
      have := mul_le_mul_of_nonneg_right hv hxa
      linarith [(rel_step hd).2]
    have := abs_add_le (rnd (x / M) - x / M) (x / M - x / a)
    rw [sub_add_sub_cancel] at this
    have h8 := mul_le_mul_of_nonneg_left hq (show (0 : ℚ) ≤ 1 / 2 ^ 52 by norm_num)
    linarith

/-- C114: no normalized value is below the accuracy. -/
theorem C114_positive (h : normalize s = some (.ok s')) (hn : s.edges.normalized = true) (hc : Consistent s)
    (hw : s.graph.metrics.length = s.graph.edgeCount) (hm : Metrics s) {e k : Nat} {y : ℚ}
    (hy : value s'.graph.metrics e k = some y) : f64.rnd (1 / 1000000) ≤ y := by
  have h2 := ((normalize_ok h hn hc hw).2.1).2.2 e k
  rw [hy, Option.isSome_some] at h2
  obtain ⟨x, hx⟩ := Option.isSome_iff_exists.mp h2.symm
  obtain ⟨y', M, h3, -, -, h4⟩ := C114_values h hn hc hw hm hx
  rw [hy, Option.some.injEq] at h3
  subst h3
  rcases h4 with ⟨h4, -⟩ | ⟨h4, -⟩
  · rw [h4]
  · refine le_trans ?_ h4.le
    decide +kernel

theorem column_values (hc : Consistent s) (h7 : ∀ e k x, value s.graph.metrics e k = some x →
      value s'.graph.metrics e k = some (lift (rnd (x / colMean s.graph.metrics k))))
    (hl : s'.graph.metrics.length = s.graph.metrics.length) {k : Nat} (hk : k < s.edges.units.length) :
    column s'.graph.metrics k =
      (column s.graph.metrics k).map fun x => lift (rnd (x / colMean s.graph.metrics k)) := by
  refine List.ext_getElem? fun e => ?_
  by_cases he : e < s.graph.metrics.length
  · have hkm : k < s.graph.metrics[e].length := by rw [hc.values _ (List.getElem_mem he)]; exact hk
    have hx := Bal.value_eq_some.mpr ⟨_, List.getElem?_eq_getElem he, List.getElem?_eq_getElem hkm⟩
    obtain ⟨m', hm', hy⟩ := Bal.value_eq_some.mp (h7 e k _ hx)
    unfold column
    rw [List.getElem?_map, hm', List.getElem?_map, List.getElem?_map, List.getElem?_eq_getElem he]
    simp only [Option.map_some, List.getD_eq_getElem?_getD, hy, List.getElem?_eq_getElem hkm, Option.getD_some]
  · rw [List.getElem?_eq_none (by rw [column_length, hl]; omega),
      List.getElem?_eq_none (by rw [List.length_map, column_length]; omega)]

theorem avg_lift {ts : List ℚ} (ht : ∀ y ∈ ts, 0 ≤ y ∧ IsNum y) (hne : ts ≠ []) :
    |average (ts.map lift) - average ts| ≤ 1 / 625000 := by
  have hs : ∀ l : List ℚ, (∀ y ∈ l, 0 ≤ y ∧ IsNum y) → |(l.map lift).sum - l.sum| ≤ l.length * (1 / 625000) := by
    intro l
    induction l with
    | nil => intro _; simp
    | cons y l ih =>
      intro hl
      have h1 := ih fun z hz => hl z (List.mem_cons_of_mem _ hz)
      obtain ⟨y0, yn⟩ := hl y List.mem_cons_self
      obtain ⟨e1, e2⟩ := eps_bounds
      have h2 : |lift y - y| ≤ 1 / 625000 := by
        rcases lift_cases y0 yn with ⟨l1, l2⟩ | ⟨l1, l2⟩
        · rw [l1, abs_le]
          constructor <;> linarith
        · rw [l1, sub_self, abs_zero]
          norm_num
      simp only [List.map_cons, List.sum_cons, List.length_cons, Nat.cast_add, Nat.cast_one]
      rw [abs_le] at *
      constructor <;> linarith [h1.1, h1.2, h2.1, h2.2]
  have hp : (0 : ℚ) < ts.length := by exact_mod_cast List.length_pos_iff.mpr hne
  unfold average
  rw [List.length_map, ← sub_div, abs_div, abs_of_pos hp, div_le_iff₀ hp, mul_comm]
  exact hs ts ht

/-- C114: the mean of each normalized metric is one, up to rounding and, if values have been replaced, up to the
accuracy. -/
theorem C114_mean_one (h : normalize s = some (.ok s')) (hn : s.edges.normalized = true) (hc : Consistent s)
    (hw : s.graph.metrics.length = s.graph.edgeCount) (hm : Metrics s) {k : Nat} (hk : k < s.edges.units.length) :
    |mean s'.graph.metrics k - 1| ≤ (s.graph.metrics.length + 8) / 2 ^ 52 + 2 / 1000000 ∧
    ((∀ e y, value s'.graph.metrics e k = some y → y ≠ f64.rnd (1 / 1000000)) →
      |mean s'.graph.metrics k - 1| ≤ (s.graph.metrics.length + 8) / 2 ^ 52) := by
  obtain ⟨h1, ⟨-, h2, -⟩, -, h6, h7⟩ := normalize_ok h hn hc hw
  have hpos := colMean_pos hm (h6 k hk).1
  have hcol := column_values hc h7 h2 hk
  have hne : column s.graph.metrics k ≠ [] := fun h0 => h1 (by simpa [column] using h0)
  have h8 := mean_one (ts := column s.graph.metrics k) (M := colMean s.graph.metrics k)
    (by rw [column_length]; exact hm.count) hne (column_fine hm k) (by rw [column_length]; rfl)
    (lt_trans (by norm_num) hpos)
  rw [column_length] at h8
  have hM : 0 < colMean s.graph.metrics k := lt_trans (by norm_num) hpos
  have hnum : ∀ x ∈ (column s.graph.metrics k).map fun x => rnd (x / colMean s.graph.metrics k), 0 ≤ x ∧ IsNum x := by
    intro x hx
    obtain ⟨z, hz, rfl⟩ := List.mem_map.mp hx
    exact ⟨nonneg (div_nonneg (column_fine hm k z hz).1 hM.le), isNum_rnd _⟩
  have h9 := avg_lift hnum (by simpa using hne)
  have e1 : column s'.graph.metrics k =
      ((column s.graph.metrics k).map fun x => rnd (x / colMean s.graph.metrics k)).map lift := by
    rw [hcol, List.map_map]
    rfl
  rw [mean_eq, e1]
  constructor
  · have := abs_add_le (average (((column s.graph.metrics k).map fun x =>
        rnd (x / colMean s.graph.metrics k)).map lift) -
        average ((column s.graph.metrics k).map fun x => rnd (x / colMean s.graph.metrics k)))
      (average ((column s.graph.metrics k).map fun x => rnd (x / colMean s.graph.metrics k)) - 1)
    rw [sub_add_sub_cancel] at this
    linarith
  · intro hall
    have e2 : ((column s.graph.metrics k).map fun x => rnd (x / colMean s.graph.metrics k)).map lift =
        (column s.graph.metrics k).map fun x => rnd (x / colMean s.graph.metrics k) := by
      rw [List.map_map]
      refine List.map_congr_left fun x hx => ?_
      obtain ⟨m, hmm, rfl⟩ := List.mem_map.mp hx
      obtain ⟨e, he⟩ := List.getElem?_of_mem hmm
      have hkm : k < m.length := by rw [hc.values _ hmm]; exact hk
      have hv := Bal.value_eq_some.mpr ⟨_, he, List.getElem?_eq_getElem hkm⟩
      have h10 := hall e _ (h7 e k _ hv)
      have e3 : m.getD k 0 = m[k] := by
        rw [List.getD_eq_getElem?_getD, List.getElem?_eq_getElem hkm, Option.getD_some]
      rw [Function.comp_apply, e3]
      rcases lift_cases (nonneg (div_nonneg (hm.values e k _ hv).1 hM.le)) (isNum_rnd _) with ⟨l1, l2⟩ | ⟨l1, l2⟩
      · exact absurd l1 h10
      · exact l1
    rw [e2]
    exact h8

/-- C114: a writer that denormalizes writes the value from before the normalization, up to rounding, unless the
normalized value has been replaced. -/
theorem C114_written (h : normalize s = some (.ok s')) (hn : s.edges.normalized = true) (hc : Consistent s)
    (hw : s.graph.metrics.length = s.graph.edgeCount) (hm : Metrics s) (hs : Moderate s) {e k : Nat} {x y : ℚ}
    (hx : value s.graph.metrics e k = some x) (hy : value s'.graph.metrics e k = some y)
    (hr : y ≠ f64.rnd (1 / 1000000)) : ∃ z, written s' true e k = .ok z ∧ |z - x| ≤ x / 2 ^ 51 := by
  obtain ⟨y', M, v1, v2, v3, v4⟩ := C114_values h hn hc hw hm hx
  rw [hy, Option.some.injEq] at v1
  subst v1
  rcases v4 with ⟨v4, -⟩ | ⟨v4, v5, -⟩
  · exact absurd v4 hr
  obtain ⟨means, h3, h4⟩ := Option.bind_eq_some_iff.mp v2
  obtain ⟨m', hm', hk'⟩ := Bal.value_eq_some.mp hy
  have hx0 := (hm.values e k x hx).1
  have hx1 := hs e k x hx
  obtain ⟨r1, r2⟩ := rel_step v5
  have hyM : 0 ≤ y * M := mul_nonneg (le_trans (by norm_num) v4.le) v3.le
  have hsize : |y * M| ≤ 2 ^ 901 := by
    rw [abs_of_nonneg hyM, show (901 : ℕ) = 900 + 1 from rfl, pow_succ]
    generalize (2 : ℚ) ^ 900 = P at *
    linarith
  refine ⟨rnd (y * M), ?_, ?_⟩
  · unfold written
    rw [hm']
    simp only [Res.ofIdx]
    rw [Res.ok_bind, hk']
    simp only []
    rw [Res.ok_bind, h3]
    simp only []
    rw [h4]
    simp only []
    rw [Res.ok_bind]
    exact num_fine (by norm_num) hsize
  · have a1 := any_nonneg hyM
    have hM : 14 / 10000000 < M := by
      obtain ⟨ms2, g1, g2, g3⟩ := C114_means h hn hc hw hm
      obtain ⟨M', g4, g5, -⟩ := g3 k (value_lt hc hx).1
      rw [h3, Option.some.injEq] at g1
      subst g1
      rw [h4, Option.some.injEq] at g4
      subst g4
      exact g5
    have hbig : (14 / 10000000) * (14 / 10000000) ≤ y * M :=
      mul_le_mul v4.le hM.le (by norm_num) (le_trans (by norm_num) v4.le)
    have hη := eta_le (k := 100) (by norm_num)
    have hη2 : eta ≤ 1 / 2 ^ 55 * x := by
      have : (1 : ℚ) / 2 ^ 100 ≤ 1 / 2 ^ 55 * (1 / 1000000000000) := by norm_num
      have : (1 : ℚ) / 1000000000000 ≤ x := by linarith
      linarith
    have := abs_add_le (rnd (y * M) - y * M) (y * M - x)
    rw [sub_add_sub_cancel] at this
    linarith

end

/-! ## Samples -/

/-- Four edges to normalize; the third one's value is zero. -/
def exN (ms : List (List ℚ)) : Net :=
  { exF with edges := { exF.edges with normalized := true }, graph := { exF.graph with metrics := ms, means := none } }

/-- The network after normalizing. -/
def outN (s : Net) : Net :=
  match normalize s with
  | some (.ok s') => s'
  | _ => s

/-- C114 is false for exact means, and they depend on the order of edges. -/
theorem C114_false_order :
    normalize (exN [[2 ^ 54], [1], [1], [1]]) = some (.ok (outN (exN [[2 ^ 54], [1], [1], [1]]))) ∧
    normalize (exN [[1], [1], [1], [2 ^ 54]]) = some (.ok (outN (exN [[1], [1], [1], [2 ^ 54]]))) ∧
    mean [[2 ^ 54], [1], [1], [1]] 0 = 2 ^ 52 + 3 / 4 ∧
    (outN (exN [[2 ^ 54], [1], [1], [1]])).graph.means = some [2 ^ 52] ∧
    (outN (exN [[1], [1], [1], [2 ^ 54]])).graph.means = some [2 ^ 52 + 1] ∧
    value (outN (exN [[2 ^ 54], [1], [1], [1]])).graph.metrics 0 0 = some 4 ∧
    value (outN (exN [[1], [1], [1], [2 ^ 54]])).graph.metrics 3 0 = some (4 - 1 / 2 ^ 50) := by
  refine ⟨?_, ?_, ?_, ?_, ?_, ?_, ?_⟩ <;> decide +kernel

/-- C114 is false for metrics of any size: their sum may be too large. -/
theorem C114_false_size : normalize (exN [[2 ^ 1023], [2 ^ 1023], [1], [1]]) = none := by decide +kernel

def exMs : List (List ℚ) := [[3], [1 / 2], [0], [9 / 4]]

theorem exN_consistent : Consistent (exN exMs) := by
  refine ⟨?_, ?_, ?_, ?_⟩ <;> decide +kernel

theorem exN_metrics : Metrics (exN exMs) ∧ Moderate (exN exMs) := by
  have hv : ∀ e k x, value exMs e k = some x → x ∈ [(3 : ℚ), 1 / 2, 0, 9 / 4] := by
    intro e k x hx
    obtain ⟨m, hm, hx⟩ := Bal.value_eq_some.mp hx
    have hm := List.mem_of_getElem? hm
    have hx := List.mem_of_getElem? hx
    unfold exMs at hm
    simp only [List.mem_cons, List.not_mem_nil, or_false] at hm ⊢
    rcases hm with rfl | rfl | rfl | rfl <;> simp only [List.mem_cons, List.not_mem_nil, or_false] at hx <;> simp [hx]
  have ha : ∀ x ∈ [(3 : ℚ), 1 / 2, 0, 9 / 4], 0 ≤ x ∧ f64.rnd x = x ∧ x ≤ 4 := by decide +kernel
  refine ⟨⟨by decide +kernel, fun e k x hx => ?_⟩, fun e k x hx => ?_⟩
  · obtain ⟨h1, h2, -⟩ := ha x (hv e k x hx)
    exact ⟨h1, h2⟩
  · exact le_trans (ha x (hv e k x hx)).2.2
      (le_trans (by norm_num : (4 : ℚ) ≤ 2 ^ 2) (pow_le_pow_right₀ (by norm_num) (by norm_num)))

theorem exN_ok : normalize (exN exMs) = some (.ok (outN (exN exMs))) := by decide +kernel

/-- The assumptions of `C114_untouched`, `C114_means`, `C114_values`, `C114_positive`, `C114_mean_one` and
`C114_written`: the third value is replaced by the accuracy. -/
example : ∃ s', normalize (exN exMs) = some (.ok s') ∧ OnlyMetrics (exN exMs) s' ∧
    value s'.graph.metrics 2 0 = some (f64.rnd (1 / 1000000)) ∧ s'.graph.means = some [23 / 16] ∧
    |mean s'.graph.metrics 0 - 1| ≤ 12 / 2 ^ 52 + 2 / 1000000 ∧
    (∃ z, written s' true 0 0 = .ok z ∧ |z - 3| ≤ 3 / 2 ^ 51) ∧ Metrics (exN exMs) := by
  obtain ⟨h1, h2⟩ := exN_metrics
  refine ⟨_, exN_ok, C114_untouched exN_ok rfl exN_consistent (by decide +kernel), by decide +kernel, by decide +kernel,
    ?_, ?_, h1⟩
  · refine le_trans (C114_mean_one exN_ok rfl exN_consistent (by decide +kernel) h1 (by decide +kernel)).1 (le_of_eq ?_)
    have : (exN exMs).graph.metrics.length = 4 := rfl
    rw [this]
    norm_num
  · exact C114_written exN_ok rfl exN_consistent (by decide +kernel) h1 h2 (e := 0) (k := 0)
      (y := f64.rnd (48 / 23)) (by decide +kernel) (by decide +kernel) (by decide +kernel)

/-- The assumptions of `C114_total`. -/
example : (exN exMs).edges.normalized = true ∧ Consistent (exN exMs) ∧
    (exN exMs).graph.metrics.length = (exN exMs).graph.edgeCount ∧ Metrics (exN exMs) ∧ Moderate (exN exMs) :=
  ⟨rfl, exN_consistent, by decide +kernel, exN_metrics⟩

/-- A vanishing metric. -/
example : normalize (exN [[0], [0], [0], [0]]) = some (.err .zeroMean) := by decide +kernel

end Verif.NormF
