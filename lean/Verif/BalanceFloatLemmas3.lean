import Verif.BalanceFloatLemmas2

/-!
# Lemmas on the update with `f64`: targets, means, and the size of numbers
-/

namespace Verif.BalF

open Gen Fp
open Bal (average relative targets target meanAt OnlyMetric)

/-! ## Targets -/

theorem eta_31 : 31 * eta ≤ 1 / 2 ^ 1070 := by
  unfold eta
  rw [show (1075 : ℕ) = 1070 + 5 from rfl, pow_add]
  have h : (0 : ℚ) < 2 ^ 1070 := by positivity
  rw [mul_one_div, div_le_div_iff₀ (by positivity) h]
  generalize (2 : ℚ) ^ 1070 = p at *
  linarith

theorem floorR_isNum {cfg : Bal.Config} {x : ℚ} (hx : IsNum x) (hm : ∀ m, cfg.minNewMetric = some m → 0 ≤ m ∧ IsNum m) :
    IsNum (floorR cfg x) := by
  unfold floorR
  split
  · exact hx
  · rename_i m hmm
    split
    · exact (hm m hmm).2
    · exact hx

theorem floorR_nonneg {cfg : Bal.Config} {x : ℚ} (hx : 0 ≤ x) (hm : ∀ m, cfg.minNewMetric = some m → 0 ≤ m ∧ IsNum m) :
    0 ≤ floorR cfg x := by
  unfold floorR
  split
  · exact hx
  · rename_i m hmm
    split
    · exact (hm m hmm).1
    · exact hx

theorem floorR_ge {cfg : Bal.Config} {x m : ℚ} (hm : cfg.minNewMetric = some m) : m ≤ floorR cfg x := by
  unfold floorR
  rw [hm]
  simp only
  split
  · exact le_refl m
  · rename_i h
    exact (not_le (by simpa using h)).le

theorem floorR_near {cfg : Bal.Config} {x y : ℚ} (hx : IsNum x)
    (hm : ∀ m, cfg.minNewMetric = some m → 0 ≤ m ∧ IsNum m) :
    |floorR cfg x - Bal.floored cfg y| ≤ |x - y| + (if cfg.minNewMetric = none then 0 else 2 / 1000000) := by
  unfold floorR Bal.floored
  cases hmm : cfg.minNewMetric with
  | none => simp
  | some m =>
    simp only
    rw [if_neg (show ¬(some m = none) by simp)]
    have h0 := abs_nonneg (x - y)
    have h1 := le_abs_self (x - y)
    have h2 := neg_abs_le (x - y)
    by_cases hl : le x m = true
    · rw [if_pos hl]
      have := le_near hx (hm m hmm).2 hl
      split
      · rw [sub_self, abs_zero]; linarith
      · rename_i hy
        rw [abs_le]
        constructor <;> linarith
    · rw [if_neg hl]
      have := not_le (by simpa using hl)
      split
      · rename_i hy
        rw [abs_le]
        constructor <;> linarith
      · linarith

theorem relR_nonneg (w : List Nat) (e : Nat) : 0 ≤ rnd (rnd (w.getD e 0 : ℚ) / mean0 w) := by
  refine nonneg (div_nonneg (nonneg (Nat.cast_nonneg _)) (nonneg (div_nonneg ?_ (nonneg (Nat.cast_nonneg _)))))
  have : ∀ (xs : List ℚ) (s : ℚ), 0 ≤ s → (∀ x ∈ xs, 0 ≤ x) → 0 ≤ sumR s xs := by
    intro xs
    induction xs with
    | nil => intro s hs _; exact hs
    | cons x xs ih =>
      intro s hs hx
      exact ih _ (nonneg (add_nonneg hs (hx x List.mem_cons_self))) fun y hy => hx y (List.mem_cons_of_mem _ hy)
  refine this _ _ (le_refl _) fun x hx => ?_
  obtain ⟨n, -, rfl⟩ := List.mem_map.mp hx
  exact nonneg (Nat.cast_nonneg _)

theorem blendR_isNum (method : Bal.Method) (i : Nat) (old x : ℚ) : IsNum (blendR method i old x) := by
  unfold blendR
  cases method <;> exact isNum_rnd _

section
variable {cfg : Bal.Config} {i : Nat} {w : List Nat} {s : Net} {k : Nat}

theorem old_fine (hs : Sane cfg i w s k) (e : Nat) :
    0 ≤ (value s.graph.metrics e k).getD 0 ∧ IsNum ((value s.graph.metrics e k).getD 0) := by
  cases h : value s.graph.metrics e k with
  | none => exact ⟨le_refl _, rnd_zero⟩
  | some x => exact hs.olds e x h

theorem targetR_fine (hs : Sane cfg i w s k) (e : Nat) :
    0 ≤ targetR cfg i w s.graph.metrics k e ∧ IsNum (targetR cfg i w s.graph.metrics k e) := by
  obtain ⟨o1, o2⟩ := old_fine hs e
  exact ⟨floorR_nonneg (blend_nonneg hs.correction o1 o2 (relR_nonneg w e)) hs.minimum,
    floorR_isNum (blendR_isNum _ _ _ _) hs.minimum⟩

theorem targetsR_fine (hs : Sane cfg i w s k) : ∀ x ∈ targetsR cfg i w s.graph.metrics k, 0 ≤ x ∧ IsNum x := by
  intro x hx
  obtain ⟨e, -, rfl⟩ := List.mem_map.mp hx
  exact targetR_fine hs e

theorem sum_ne_zero (h : Over.eq (mean0 w) 0 = false) : w.sum ≠ 0 := by
  intro h0
  have hz : ∀ n ∈ w, n = 0 := fun n hn => Nat.le_zero.mp (h0 ▸ List.le_sum_of_mem hn)
  have e1 : (w.map fun n : Nat => rnd (n : ℚ)) = w.map fun n : Nat => (n : ℚ) :=
    map_rnd_nat (by omega)
  have e2 := sumR_nat (a := 0) (w := w) (by omega)
  have e3 : mean0 w = 0 := by
    unfold mean0
    rw [e1]
    have : sumR 0 (w.map fun n : Nat => (n : ℚ)) = 0 := by simpa [h0] using e2
    rw [this, zero_div, rnd_zero]
  rw [e3, eq_small (le_refl _) (by norm_num) rnd_zero] at h
  simp at h

theorem targetR_near (hs : Sane cfg i w s k) (hw : w ≠ []) (h0 : w.sum ≠ 0) (e : Nat) :
    |targetR cfg i w s.graph.metrics k e - target cfg i ((value s.graph.metrics e k).getD 0) (relative w e)| ≤
      tolerance cfg ((value s.graph.metrics e k).getD 0) (relative w e) := by
  obtain ⟨o1, o2⟩ := old_fine hs e
  have h1 := blend_near (method := cfg.method) (i := i) hs.iteration hs.correction o1 (Bal.relative_nonneg w e)
    (rel_near hs.total hs.count hw h0 e)
  rw [Bal.target_eq]
  refine le_trans (floorR_near (blendR_isNum _ _ _ _) hs.minimum) ?_
  unfold tolerance
  have := eta_31
  generalize (1 : ℚ) / 2 ^ 1070 = p at *
  linarith

end

/-! ## Means -/

/-- The rounded sum and the average. -/
theorem sum_core {ts : List ℚ} (hn : ts.length ≤ 2 ^ 50) (hne : ts ≠ []) (ht : ∀ x ∈ ts, 0 ≤ x ∧ IsNum x) :
    (1 - ts.length * (1 / 2 ^ 53)) * average ts ≤ sumR 0 ts / ts.length ∧
    (1 - ts.length * (1 / 2 ^ 53)) * (sumR 0 ts / ts.length) ≤ average ts ∧
    0 ≤ sumR 0 ts / ts.length ∧ 0 ≤ average ts ∧ (ts.length : ℚ) * (1 / 2 ^ 53) ≤ 1 / 8 := by
  have hn1 : (1 : ℚ) ≤ ts.length := by exact_mod_cast List.length_pos_iff.mpr hne
  have hn2 : (ts.length : ℚ) ≤ 2 ^ 50 := by exact_mod_cast hn
  obtain ⟨b1, b2⟩ := sumR_bounds (s := 0) (xs := ts) rnd_zero (le_refl _) ht
  rw [zero_add] at b1 b2
  have hX : 0 ≤ ts.sum := List.sum_nonneg fun x hx => (ht x hx).1
  set n : ℚ := (ts.length : ℚ) with hnd
  set v : ℚ := n * (1 / 2 ^ 53) with hv
  have hv0 : 0 ≤ v := by positivity
  have hv1 : v ≤ 1 / 8 := by rw [hv]; linarith
  have q1 : 1 - v ≤ (1 - 1 / 2 ^ 53 : ℚ) ^ ts.length := by
    have := one_add_mul_le_pow (a := (-(1 / 2 ^ 53) : ℚ)) (by norm_num) ts.length
    rw [← sub_eq_add_neg, ← hnd] at this
    rw [hv]
    linarith
  have p1 : (1 + 1 / 2 ^ 53 : ℚ) ^ ts.length * (1 - v) ≤ 1 := by
    refine le_trans (mul_le_mul_of_nonneg_left q1 (by positivity)) ?_
    rw [← mul_pow]
    exact pow_le_one₀ (by norm_num) (by norm_num)
  set S := sumR 0 ts with hS
  have hS0 : 0 ≤ S := le_trans (mul_nonneg (pow_nonneg (by norm_num) _) hX) b2
  have c1 : (1 - v) * ts.sum ≤ S := le_trans (mul_le_mul_of_nonneg_right q1 hX) b2
  have c2 : (1 - v) * S ≤ ts.sum := by
    have h1 := mul_le_mul_of_nonneg_left b1 (show 0 ≤ 1 - v by linarith)
    have h2 := mul_le_mul_of_nonneg_right p1 hX
    calc (1 - v) * S ≤ (1 - v) * ((1 + 1 / 2 ^ 53) ^ ts.length * ts.sum) := h1
      _ = (1 + 1 / 2 ^ 53 : ℚ) ^ ts.length * (1 - v) * ts.sum := by ring
      _ ≤ 1 * ts.sum := h2
      _ = ts.sum := one_mul _
  have hnp : 0 < n := by linarith
  have ha' : average ts = ts.sum / n := rfl
  refine ⟨?_, ?_, div_nonneg hS0 hnp.le, div_nonneg hX hnp.le, hv1⟩
  · rw [ha', ← mul_div_assoc]
    exact div_le_div_of_nonneg_right c1 hnp.le
  · rw [ha', ← mul_div_assoc]
    exact div_le_div_of_nonneg_right c2 hnp.le

theorem mean_core {ts : List ℚ} {M : ℚ} (hn : ts.length ≤ 2 ^ 50) (hne : ts ≠ []) (ht : ∀ x ∈ ts, 0 ≤ x ∧ IsNum x)
    (hM : M = rnd (sumR 0 ts / rnd ts.length)) (hpos : 1 / 2 ^ 20 < M) :
    |M - average ts| ≤ (ts.length + 4) / 2 ^ 52 * average ts ∧
    |M - average ts| ≤ (ts.length + 4) / 2 ^ 52 * M := by
  rw [isNum_nat (le_trans hn (by norm_num))] at hM
  obtain ⟨a1, a2, hB0, ha0, hv1⟩ := sum_core hn hne ht
  have hv' : ((ts.length : ℚ) + 4) / 2 ^ 52 = 2 * (ts.length * (1 / 2 ^ 53)) + 8 * (1 / 2 ^ 53) := by ring
  have hv0 : (0 : ℚ) ≤ ts.length * (1 / 2 ^ 53) := by positivity
  rw [hv']
  have m1 := any_nonneg hB0
  rw [← hM] at m1
  clear hM hv'
  generalize (ts.length : ℚ) * (1 / 2 ^ 53) = v at *
  generalize sumR 0 ts / (ts.length : ℚ) = B at *
  generalize average ts = a at *
  obtain ⟨m2, m3⟩ := rel_step m1
  have hη := eta_le (k := 100) (by norm_num)
  have hη2 : eta ≤ 1 / 2 ^ 53 * B := by
    have : 1 / 2 ^ 21 ≤ B := by
      have h1 : (1 : ℚ) / 2 ^ 100 ≤ 1 / 2 ^ 30 := by norm_num
      have h2 : (1 : ℚ) / 2 ^ 53 ≤ 1 / 4 := by norm_num
      have h3 := mul_le_mul_of_nonneg_right h2 hB0
      have h4 : (1 : ℚ) / 2 ^ 30 ≤ 1 / 2 ^ 25 := by norm_num
      have h5 : (1 : ℚ) / 2 ^ 20 - 1 / 2 ^ 25 ≥ 5 / 4 * (1 / 2 ^ 21) := by norm_num
      linarith
    have h6 := mul_le_mul_of_nonneg_left this (show (0 : ℚ) ≤ 1 / 2 ^ 53 by norm_num)
    have h7 : (1 : ℚ) / 2 ^ 100 ≤ 1 / 2 ^ 53 * (1 / 2 ^ 21) := by norm_num
    linarith
  have hva : v * a ≤ 1 / 8 * a := mul_le_mul_of_nonneg_right hv1 ha0
  have hvB : v * B ≤ 1 / 8 * B := mul_le_mul_of_nonneg_right hv1 hB0
  have hBa : B ≤ 8 / 7 * a := by linarith
  have haB : a ≤ 8 / 7 * B := by linarith
  have hBM : B ≤ 9 / 8 * M := by
    have : (1 : ℚ) / 2 ^ 53 ≤ 1 / 32 := by norm_num
    have := mul_le_mul_of_nonneg_right this hB0
    linarith
  have hvBa : v * B ≤ v * (8 / 7 * a) := mul_le_mul_of_nonneg_left hBa hv0
  have hvBM : v * B ≤ v * (9 / 8 * M) := mul_le_mul_of_nonneg_left hBM hv0
  have hvaM : v * a ≤ v * (9 / 7 * M) := mul_le_mul_of_nonneg_left (by linarith) hv0
  have hM0 : 0 < M := lt_trans (by norm_num) hpos
  have hvM : 0 ≤ v * M := mul_nonneg hv0 hM0.le
  have hva0 : 0 ≤ v * a := mul_nonneg hv0 ha0
  rw [abs_le, abs_le]
  refine ⟨⟨?_, ?_⟩, ?_, ?_⟩
  all_goals linarith

/-- A mean that is nearly zero. -/
theorem mean_small {ts : List ℚ} {M : ℚ} (hn : ts.length ≤ 2 ^ 50) (hne : ts ≠ []) (ht : ∀ x ∈ ts, 0 ≤ x ∧ IsNum x)
    (hM : M = rnd (sumR 0 ts / rnd ts.length)) (hsmall : M ≤ 1 / 625000) : average ts ≤ 2 / 1000000 := by
  rw [isNum_nat (le_trans hn (by norm_num))] at hM
  obtain ⟨a1, a2, hB0, ha0, hv1⟩ := sum_core hn hne ht
  have m1 := any_nonneg hB0
  rw [← hM] at m1
  clear hM
  generalize (ts.length : ℚ) * (1 / 2 ^ 53) = v at *
  generalize sumR 0 ts / (ts.length : ℚ) = B at *
  generalize average ts = a at *
  obtain ⟨m2, m3⟩ := rel_step m1
  have hη := eta_le (k := 53) (by norm_num)
  have hva : v * a ≤ 1 / 8 * a := mul_le_mul_of_nonneg_right hv1 ha0
  linarith

theorem avg_near {f g h : Nat → ℚ} (l : List Nat) (hf : ∀ e ∈ l, |f e - g e| ≤ h e) :
    |average (l.map f) - average (l.map g)| ≤ average (l.map h) := by
  have hs : |(l.map f).sum - (l.map g).sum| ≤ (l.map h).sum := by
    induction l with
    | nil => simp
    | cons e l ih =>
      have h1 := ih fun x hx => hf x (List.mem_cons_of_mem _ hx)
      have h2 := hf e List.mem_cons_self
      simp only [List.map_cons, List.sum_cons]
      rw [abs_le] at *
      constructor <;> linarith [h1.1, h1.2, h2.1, h2.2]
  unfold average
  simp only [List.length_map]
  rw [← sub_div, abs_div, abs_of_nonneg (Nat.cast_nonneg l.length : (0 : ℚ) ≤ l.length)]
  exact div_le_div_of_nonneg_right hs (Nat.cast_nonneg _)

theorem mean_one {ts : List ℚ} {M : ℚ} (hn : ts.length ≤ 2 ^ 50) (hne : ts ≠ []) (ht : ∀ x ∈ ts, 0 ≤ x ∧ IsNum x)
    (hM : M = rnd (sumR 0 ts / rnd ts.length)) (hpos : 1 / 2 ^ 20 < M) :
    |average (ts.map fun x => rnd (x / M)) - 1| ≤ (ts.length + 8) / 2 ^ 52 := by
  have hM0 : 0 < M := lt_trans (by norm_num) hpos
  have hc := (mean_core hn hne ht hM hpos).2
  have hsum : ∀ l : List ℚ, (∀ x ∈ l, 0 ≤ x) →
      |(l.map fun x => rnd (x / M)).sum - l.sum / M| ≤ 1 / 2 ^ 53 * (l.sum / M) + l.length * eta := by
    intro l
    induction l with
    | nil => intro _; simp
    | cons x l ih =>
      intro hx
      have h1 := ih fun y hy => hx y (List.mem_cons_of_mem _ hy)
      have h2 := any_nonneg (div_nonneg (hx x List.mem_cons_self) hM0.le)
      simp only [List.map_cons, List.sum_cons, List.length_cons, add_div, Nat.cast_add, Nat.cast_one]
      rw [abs_le] at *
      constructor <;> linarith [h1.1, h1.2, h2.1, h2.2]
  have h1 := hsum ts fun x hx => (ht x hx).1
  have hn1 : (1 : ℚ) ≤ ts.length := by exact_mod_cast List.length_pos_iff.mpr hne
  have hn2 : (ts.length : ℚ) ≤ 2 ^ 50 := by exact_mod_cast hn
  have hnp : (0 : ℚ) < ts.length := by linarith
  have h2 : |average (ts.map fun x => rnd (x / M)) - average ts / M| ≤ 1 / 2 ^ 53 * (average ts / M) + eta := by
    unfold average
    rw [List.length_map, div_right_comm ts.sum, ← sub_div, abs_div, abs_of_pos hnp, div_le_iff₀ hnp, add_mul, mul_assoc,
      div_mul_cancel₀ _ hnp.ne', mul_comm eta]
    exact h1
  have h3 : |average ts / M - 1| ≤ (ts.length + 4) / 2 ^ 52 := by
    rw [div_sub_one hM0.ne', abs_div, abs_of_pos hM0, div_le_iff₀ hM0, abs_sub_comm]
    exact hc
  have hη := eta_le (k := 53) (by norm_num)
  generalize average ts / M = r at *
  have hr : r ≤ 2 := by
    have := (abs_le.mp h3).2
    have h4 : ((ts.length : ℚ) + 4) / 2 ^ 52 ≤ 1 := by
      rw [div_le_one (by norm_num)]; linarith
    linarith
  rw [abs_le] at *
  have h5 : ((ts.length : ℚ) + 8) / 2 ^ 52 = (ts.length + 4) / 2 ^ 52 + 8 * (1 / 2 ^ 53) := by ring
  rw [h5]
  constructor <;> linarith [h2.1, h2.2, h3.1, h3.2]

/-! ## The size of numbers -/

theorem sumFrom_fine {e : ℕ} (he : e ≤ 960) {xs : List ℚ} {s : ℚ} {j : ℕ} (hj : j + xs.length ≤ 2 ^ 53) (hs0 : 0 ≤ s)
    (hs : s ≤ j * 2 ^ e) (hx : ∀ x ∈ xs, 0 ≤ x ∧ x ≤ 2 ^ e) :
    sumFrom s xs = .ok (sumR s xs) ∧ 0 ≤ sumR s xs ∧ sumR s xs ≤ (j + xs.length : ℕ) * 2 ^ e := by
  induction xs generalizing s j with
  | nil => exact ⟨rfl, hs0, by simpa [sumR] using hs⟩
  | cons x xs ih =>
    obtain ⟨x0, x1⟩ := hx x List.mem_cons_self
    rw [List.length_cons] at hj
    have h1 : s + x ≤ (j + 1 : ℕ) * 2 ^ e := by push_cast; linarith
    have h2 : rnd (s + x) ≤ (j + 1 : ℕ) * 2 ^ e := rnd_le h1 (Over.rnd_fix (by omega))
    have h3 : |s + x| ≤ 2 ^ (53 + e) := by
      rw [abs_of_nonneg (by linarith), pow_add]
      refine le_trans h1 (mul_le_mul_of_nonneg_right ?_ (by positivity))
      exact_mod_cast (show j + 1 ≤ 2 ^ 53 by omega)
    obtain ⟨i1, i2, i3⟩ := ih (s := rnd (s + x)) (j := j + 1) (by omega) (nonneg (by linarith)) h2
      fun y hy => hx y (List.mem_cons_of_mem _ hy)
    refine ⟨?_, i2, ?_⟩
    · simp only [sumFrom]
      rw [num_fine (by omega) h3, Res.ok_bind]
      exact i1
    · rw [List.length_cons, show j + (xs.length + 1) = j + 1 + xs.length by omega]
      exact i3

theorem meanOf_fine {e : ℕ} (he : e ≤ 960) {xs : List ℚ} (hne : xs ≠ []) (hl : xs.length ≤ 2 ^ 53)
    (hx : ∀ x ∈ xs, 0 ≤ x ∧ x ≤ 2 ^ e) : ∃ y, meanOf xs = .ok y := by
  obtain ⟨h1, h2, h3⟩ := sumFrom_fine he (s := 0) (j := 0) (by simpa using hl) (le_refl _) (by simp) hx
  have hn : (1 : ℚ) ≤ xs.length := by exact_mod_cast List.length_pos_iff.mpr hne
  unfold meanOf
  rw [if_neg (by simpa using hne), h1, Res.ok_bind, show f64.rnd (xs.length : ℚ) = xs.length from isNum_nat hl]
  refine ⟨_, num_fine (e := e) (by omega) ?_⟩
  rw [abs_of_nonneg (div_nonneg h2 (by linarith)), div_le_iff₀ (by linarith), mul_comm]
  simpa using h3

theorem divideBy_fine {mean : ℚ} (hm : 1 / 2 ^ 20 < mean) {e : ℕ} (he : e ≤ 1000) {xs : List ℚ}
    (hx : ∀ x ∈ xs, 0 ≤ x ∧ x ≤ 2 ^ e) :
    divideBy mean xs = .ok (xs.map fun x => rnd (x / mean)) ∧ ∀ x ∈ xs, rnd (x / mean) ≤ 2 ^ (e + 20) := by
  have hm0 : 0 < mean := lt_trans (by norm_num) hm
  have hb : ∀ x, 0 ≤ x ∧ x ≤ 2 ^ e → |x / mean| ≤ 2 ^ (e + 20) := by
    rintro x ⟨x0, x1⟩
    rw [abs_of_nonneg (div_nonneg x0 hm0.le), div_le_iff₀ hm0, pow_add, mul_assoc]
    have h1 : 1 ≤ 2 ^ 20 * mean := by
      have := mul_le_mul_of_nonneg_left hm.le (show (0 : ℚ) ≤ 2 ^ 20 by norm_num)
      linarith
    have h2 : (0 : ℚ) ≤ 2 ^ e := by positivity
    nlinarith
  refine ⟨?_, fun x h => le_trans (le_abs_self _) (rnd_abs_le (hb x (hx x h)))⟩
  induction xs with
  | nil => rfl
  | cons x xs ih =>
    simp only [divideBy]
    rw [num_fine (by omega) (hb x (hx x List.mem_cons_self)), Res.ok_bind, ih fun y hy => hx y (List.mem_cons_of_mem _ hy)]
    rfl

theorem blend_fine {method : Bal.Method} {i : Nat} {old x : ℚ} (hi : i < 2 ^ 53)
    (hc : ∀ c, method = .explicitEuler c → 0 ≤ c ∧ c ≤ 1) (ho : 0 ≤ old) (ho' : old ≤ 2 ^ 900) (hx : 0 ≤ x)
    (hx' : x ≤ 2 ^ 900) : blend method i old x = .ok (blendR method i old x) ∧ blendR method i old x ≤ 2 ^ 955 := by
  have p900 : (0 : ℚ) < 2 ^ 900 := by positivity
  unfold blend blendR
  cases method with
  | explicitEuler c =>
    obtain ⟨c0, c1⟩ := hc c rfl
    simp only
    have h1 : |x - old| ≤ 2 ^ 900 := by
      generalize (2 : ℚ) ^ 900 = P at *
      rw [abs_le]; constructor <;> linarith
    have h2 := rnd_abs_le h1
    have h3 : |rnd (x - old) * c| ≤ 2 ^ 900 := by
      rw [abs_mul, abs_of_nonneg c0]
      exact le_trans (mul_le_of_le_one_right (abs_nonneg _) c1) h2
    have h4 := rnd_abs_le h3
    have h5 : |old + rnd (rnd (x - old) * c)| ≤ 2 ^ 901 := by
      rw [abs_le] at h4 ⊢
      rw [show (901 : ℕ) = 900 + 1 from rfl, pow_succ]
      generalize (2 : ℚ) ^ 900 = P at *
      constructor <;> linarith [h4.1, h4.2]
    rw [num_fine (by norm_num) h1, Res.ok_bind, num_fine (by norm_num) h3, Res.ok_bind, num_fine (by norm_num) h5]
    exact ⟨rfl, le_trans (le_abs_self _) (le_trans (rnd_abs_le h5) (pow_le_pow_right₀ (by norm_num) (by norm_num)))⟩
  | averaging =>
    simp only
    have e1 : rnd (i : ℚ) = i := isNum_nat hi.le
    have e2 : rnd ((i + 1 : Nat) : ℚ) = (i + 1 : Nat) := isNum_nat (by omega)
    rw [e1, e2, show f64.rnd (i : ℚ) = i from e1, show f64.rnd ((i + 1 : Nat) : ℚ) = (i + 1 : Nat) from e2]
    have hi0 : (0 : ℚ) ≤ i := Nat.cast_nonneg i
    have hi1 : (i : ℚ) ≤ 2 ^ 53 := by exact_mod_cast hi.le
    have hN : (1 : ℚ) ≤ (i + 1 : Nat) := by push_cast; linarith
    have h1 : |(i : ℚ) * old| ≤ 2 ^ 953 := by
      rw [abs_of_nonneg (mul_nonneg hi0 ho), show (953 : ℕ) = 53 + 900 from rfl, pow_add]
      exact mul_le_mul hi1 ho' ho (by positivity)
    have h2 := rnd_abs_le h1
    have h3 : |rnd ((i : ℚ) * old) + x| ≤ 2 ^ 954 := by
      have h9 : (2 : ℚ) ^ 900 ≤ 2 ^ 953 := pow_le_pow_right₀ (by norm_num) (by norm_num)
      rw [abs_le] at h2 ⊢
      rw [show (954 : ℕ) = 953 + 1 from rfl, pow_succ]
      generalize (2 : ℚ) ^ 900 = P at *
      generalize (2 : ℚ) ^ 953 = Q at *
      constructor <;> linarith [h2.1, h2.2]
    have h4 := rnd_abs_le h3
    have h5 : |rnd (rnd ((i : ℚ) * old) + x) / (i + 1 : Nat)| ≤ 2 ^ 954 := by
      rw [abs_div, abs_of_pos (show (0 : ℚ) < (i + 1 : Nat) by positivity)]
      exact le_trans (div_le_self (abs_nonneg _) hN) h4
    rw [num_fine (by norm_num) h1, Res.ok_bind, num_fine (by norm_num) h3, Res.ok_bind, num_fine (by norm_num) h5]
    exact ⟨rfl, le_trans (le_abs_self _) (le_trans (rnd_abs_le h5) (pow_le_pow_right₀ (by norm_num) (by norm_num)))⟩

theorem blendAll_fine {f : ℚ → ℚ → Res Fault ℚ} {ms : List (List ℚ)} {k : Nat} {news : List ℚ}
    (hf : ∀ e old, value ms e k = some old → ∀ new ∈ news, ∃ y, f old new = .ok y ∧ 0 ≤ y ∧ y ≤ 2 ^ 955) {e : Nat} :
    blendAll f ms k e news = .panic ∨ ∃ xs, blendAll f ms k e news = .ok xs ∧ xs.length = news.length ∧
      ∀ x ∈ xs, 0 ≤ x ∧ x ≤ 2 ^ 955 := by
  induction news generalizing e with
  | nil => exact Or.inr ⟨[], rfl, rfl, by simp⟩
  | cons new news ih =>
    simp only [blendAll]
    cases h1 : ms[e]? with
    | none => left; simp [Res.ofIdx]
    | some m =>
      simp only [Res.ofIdx, Res.ok_bind]
      cases h2 : m[k]? with
      | none => left; simp
      | some old =>
        obtain ⟨y, hy, y0, y1⟩ := hf e old (Bal.value_eq_some.mpr ⟨m, h1, h2⟩) new List.mem_cons_self
        simp only [Res.ok_bind, hy]
        rcases ih (e := e + 1) fun e old h new hn => hf e old h new (List.mem_cons_of_mem _ hn) with h | ⟨xs, h, hl, hx⟩
        · left; rw [h]; rfl
        · right
          rw [h]
          refine ⟨y :: xs, rfl, by simp [hl], fun x hx' => ?_⟩
          rcases List.mem_cons.mp hx' with rfl | hx'
          · exact ⟨y0, y1⟩
          · exact hx x hx'

/-- No number becomes too large. -/
theorem newMetric_finite {cfg : Bal.Config} {i : Nat} {w : List Nat} {s : Net} {k : Nat}
    (hn : s.edges.ids.Nodup) (hk : s.edges.ids[k]? = some cfg.metricId) (hs : Sane cfg i w s k)
    (hm : Moderate cfg s k) (hw : w ≠ []) : newMetric i w s cfg ≠ .err .notFinite := by
  unfold newMetric
  split
  · simp
  rename_i k' hk'
  have hid : s.edges.ids[k']? = some cfg.metricId := idxOf_ok (by unfold idxOf; rw [hk'])
  have hkk := Bal.key_unique hn hk hid
  subst hkk
  have hnat : ∀ x ∈ (w.map fun n : Nat => f64.rnd (n : ℚ)), 0 ≤ x ∧ x ≤ 2 ^ 53 := by
    intro x hx
    obtain ⟨n, hn, rfl⟩ := List.mem_map.mp hx
    refine ⟨nonneg (Nat.cast_nonneg _), rnd_le ?_ (isNum_pow 53)⟩
    exact_mod_cast le_trans (List.le_sum_of_mem hn) hs.total
  obtain ⟨m0, h0⟩ := meanOf_fine (by norm_num) (by simpa using hw) (by
    rw [List.length_map]; exact le_trans hs.count (by norm_num)) hnat
  dsimp only
  rw [h0, Res.ok_bind]
  split
  · simp
  rename_i hz
  have hm0 : 1 / 2 ^ 20 < m0 := by
    obtain ⟨-, h2, -⟩ := meanOf_ok h0
    have hnum : IsNum m0 := by rw [h2]; exact isNum_rnd _
    by_contra hc
    refine hz (eq_small ?_ (not_lt.mp hc) hnum)
    rw [h2]
    refine nonneg (div_nonneg ?_ (nonneg (Nat.cast_nonneg _)))
    exact (sumFrom_fine (e := 53) (by norm_num) (s := 0) (j := 0) (by
      rw [List.length_map]; exact le_trans (by simpa using hs.count) (by norm_num : 2 ^ 50 ≤ 2 ^ 53))
      (le_refl _) (by simp) hnat).2.1
  obtain ⟨d1, d2⟩ := divideBy_fine hm0 (by norm_num) hnat
  rw [d1, Res.ok_bind]
  have hm0' : 0 < m0 := lt_trans (by norm_num) hm0
  rcases blendAll_fine (f := blend cfg.method i) (ms := s.graph.metrics) (k := k)
      (news := (w.map fun n : Nat => f64.rnd (n : ℚ)).map fun x => rnd (x / m0)) (by
    intro e old ho new hnew
    obtain ⟨x, hx, rfl⟩ := List.mem_map.mp hnew
    obtain ⟨o0, o1⟩ := hs.olds e old ho
    have hx0 : 0 ≤ rnd (x / m0) := nonneg (div_nonneg (hnat x hx).1 hm0'.le)
    obtain ⟨b1, b2⟩ := blend_fine hs.iteration hs.correction o0 (hm.olds e old ho) hx0
      (le_trans (d2 x hx) (pow_le_pow_right₀ (by norm_num) (by norm_num)))
    exact ⟨_, b1, blend_nonneg hs.correction o0 o1 hx0, b2⟩) (e := 0) with h | ⟨xs, h, hl, hx⟩
  · rw [h]; simp
  rw [h, Res.ok_bind]
  cases ha : atLeast cfg xs with
  | panic => simp
  | err f =>
    unfold atLeast at ha
    split at ha
    · simp at ha
    · split at ha
      · simp only [Res.err.injEq] at ha
        subst ha
        simp
      · simp at ha
  | ok ts =>
    rw [Res.ok_bind]
    obtain ⟨t1, -⟩ := atLeast_ok ha
    have ht : ∀ x ∈ ts, 0 ≤ x ∧ x ≤ 2 ^ 955 := by
      intro x hx'
      rw [t1] at hx'
      obtain ⟨y, hy, rfl⟩ := List.mem_map.mp hx'
      refine ⟨floorR_nonneg (hx y hy).1 hs.minimum, ?_⟩
      unfold floorR
      split
      · exact (hx y hy).2
      · rename_i m hmm
        split
        · exact le_trans (hm.minimum m hmm) (pow_le_pow_right₀ (by norm_num) (by norm_num))
        · exact (hx y hy).2
    have hl' : ts.length = w.length := by rw [t1, List.length_map, hl]; simp
    obtain ⟨m1, h1⟩ := meanOf_fine (by norm_num) (by
      intro h0; rw [h0] at hl'; exact hw (List.length_eq_zero_iff.mp hl'.symm)) (by
      rw [hl']; exact le_trans hs.count (by norm_num)) ht
    rw [h1, Res.ok_bind]
    split
    · simp
    rename_i hp
    have hm1 : 1 / 2 ^ 20 < m1 := by
      refine not_le_zero ?_ (by simpa using hp)
      rw [(meanOf_ok h1).2.1]
      exact isNum_rnd _
    rw [(divideBy_fine hm1 (by norm_num) ht).1]
    simp

/-! ## Failures -/

theorem sumFrom_not {s : ℚ} {xs : List ℚ} : sumFrom s xs ≠ .panic ∧ ∀ e, sumFrom s xs ≠ .err (.fails e) := by
  induction xs generalizing s with
  | nil => simp [sumFrom]
  | cons x xs ih =>
    simp only [sumFrom]
    cases h : num (s + x) with
    | ok y => exact ih
    | panic => exact absurd h num_not_panic
    | err f =>
      unfold num at h
      split at h
      · simp at h
      · simp only [Res.err.injEq] at h; subst h; simp

theorem num_not {x : ℚ} : num x ≠ .panic ∧ ∀ e, num x ≠ .err (.fails e) := by
  unfold num
  split <;> simp

theorem meanOf_not {xs : List ℚ} : meanOf xs ≠ .panic ∧ ∀ e, meanOf xs ≠ .err (.fails e) := by
  unfold meanOf
  split
  · simp
  · cases h : sumFrom 0 xs with
    | ok y => exact num_not
    | panic => exact absurd h sumFrom_not.1
    | err f =>
      cases f with
      | notFinite => simp
      | fails e => exact absurd h (sumFrom_not.2 e)

theorem divideBy_not {mean : ℚ} {xs : List ℚ} :
    divideBy mean xs ≠ .panic ∧ ∀ e, divideBy mean xs ≠ .err (.fails e) := by
  induction xs with
  | nil => simp [divideBy]
  | cons x xs ih =>
    simp only [divideBy]
    cases h : num (x / mean) with
    | panic => exact absurd h num_not_panic
    | err f =>
      cases f with
      | notFinite => simp
      | fails e => exact absurd h (num_not.2 e)
    | ok y =>
      rw [Res.ok_bind]
      cases h2 : divideBy mean xs with
      | ok ys => simp
      | panic => exact absurd h2 ih.1
      | err f =>
        cases f with
        | notFinite => simp
        | fails e => exact absurd h2 (ih.2 e)

theorem blend_not {method : Bal.Method} {i : Nat} {old new : ℚ} :
    blend method i old new ≠ .panic ∧ ∀ e, blend method i old new ≠ .err (.fails e) := by
  have step : ∀ (x : ℚ) (f : ℚ → Res Fault ℚ), (∀ y, f y ≠ .panic ∧ ∀ e, f y ≠ .err (.fails e)) →
      (num x >>= f) ≠ .panic ∧ ∀ e, (num x >>= f) ≠ .err (.fails e) := by
    intro x f hf
    cases h : num x with
    | panic => exact absurd h num_not_panic
    | err f =>
      cases f with
      | notFinite => simp
      | fails e => exact absurd h (num_not.2 e)
    | ok y => exact hf y
  unfold blend
  cases method with
  | explicitEuler c => exact step _ _ fun _ => step _ _ fun _ => num_not
  | averaging => exact step _ _ fun _ => step _ _ fun _ => num_not

theorem blendAll_not {method : Bal.Method} {i : Nat} {ms : List (List ℚ)} {k : Nat} {news : List ℚ} {e : Nat} :
    (∀ x, blendAll (blend method i) ms k e news ≠ .err (.fails x)) ∧
    (blendAll (blend method i) ms k e news = .panic → ∃ j < news.length, value ms (e + j) k = none) := by
  induction news generalizing e with
  | nil => simp [blendAll]
  | cons new news ih =>
    simp only [blendAll]
    cases h1 : ms[e]? with
    | none => exact ⟨by simp [Res.ofIdx], fun _ => ⟨0, by simp, by simp [value, h1]⟩⟩
    | some m =>
      simp only [Res.ofIdx, Res.ok_bind]
      cases h2 : m[k]? with
      | none => exact ⟨by simp, fun _ => ⟨0, by simp, by simp [value, h1, h2]⟩⟩
      | some old =>
        simp only [Res.ok_bind]
        cases h3 : blend method i old new with
        | panic => exact absurd h3 blend_not.1
        | err f =>
          cases f with
          | notFinite => simp
          | fails x => exact absurd h3 (blend_not.2 x)
        | ok y =>
          rw [Res.ok_bind]
          obtain ⟨i1, i2⟩ := ih (e := e + 1)
          cases h4 : blendAll (blend method i) ms k (e + 1) news with
          | ok xs => simp
          | err f =>
            cases f with
            | notFinite => simp
            | fails x => exact absurd h4 (i1 x)
          | panic =>
            refine ⟨by simp, fun _ => ?_⟩
            obtain ⟨j, hj, hv⟩ := i2 h4
            exact ⟨j + 1, by simpa using hj, by rw [← hv]; congr 1; omega⟩

/-- Why there is no new metric. -/
theorem newMetric_not {i : Nat} {w : List Nat} {s : Net} {cfg : Bal.Config} {k : Nat} (hn : s.edges.ids.Nodup)
    (hk : s.edges.ids[k]? = some cfg.metricId) :
    (newMetric i w s cfg = .panic → ∃ e < w.length, value s.graph.metrics e k = none) ∧
    (newMetric i w s cfg = .err (.fails .zeroMetric) → cfg.minNewMetric = none ∧ cfg.isErrWhenZero = true ∧
      w ≠ [] ∧ Over.eq (mean0 w) 0 = false ∧ (∀ e < w.length, (value s.graph.metrics e k).isSome) ∧
      ∃ e < w.length, le (targetR cfg i w s.graph.metrics k e) 0 = true) ∧
    (newMetric i w s cfg = .err (.fails .zeroMean) → w ≠ [] ∧ (Over.eq (mean0 w) 0 = true ∨
      (Over.eq (mean0 w) 0 = false ∧ (∀ e < w.length, (value s.graph.metrics e k).isSome) ∧
        le (meanR cfg i w s.graph.metrics k) 0 = true))) := by
  have hidx : s.edges.tryIdxOf cfg.metricId = .ok k := by
    have := (idxOf_iff hn).mpr hk
    unfold idxOf at this
    split at this
    · rename_i j hj
      rw [hj]
      simp only [Res.ok.injEq] at this
      rw [this]
    · simp at this
  unfold newMetric
  rw [hidx]
  dsimp only
  cases h1 : meanOf (w.map fun n : Nat => f64.rnd (n : ℚ)) with
  | panic => exact absurd h1 meanOf_not.1
  | err f =>
    cases f with
    | notFinite => simp
    | fails e => exact absurd h1 (meanOf_not.2 e)
  | ok m0 =>
  rw [Res.ok_bind]
  obtain ⟨n1, n2, -⟩ := meanOf_ok h1
  rw [List.length_map] at n2
  have hm0 : m0 = mean0 w := n2
  have hw : w ≠ [] := by rintro rfl; simp at n1
  by_cases hz : Over.eq m0 0 = true
  · rw [if_pos hz]
    refine ⟨by simp, by simp, fun _ => ⟨hw, Or.inl (hm0 ▸ hz)⟩⟩
  rw [if_neg hz]
  have hz' : Over.eq (mean0 w) 0 = false := by rw [← hm0]; simpa using hz
  cases h2 : divideBy m0 (w.map fun n : Nat => f64.rnd (n : ℚ)) with
  | panic => exact absurd h2 divideBy_not.1
  | err f =>
    cases f with
    | notFinite => simp
    | fails e => exact absurd h2 (divideBy_not.2 e)
  | ok d =>
  rw [Res.ok_bind]
  have hd := divideBy_ok h2
  have hlen : d.length = w.length := by rw [hd]; simp
  cases h3 : blendAll (blend cfg.method i) s.graph.metrics k 0 d with
  | panic =>
    refine ⟨fun _ => ?_, by simp, by simp⟩
    obtain ⟨j, hj, hv⟩ := blendAll_not.2 h3
    exact ⟨j, hlen ▸ hj, by simpa using hv⟩
  | err f =>
    cases f with
    | notFinite => simp
    | fails e => exact absurd h3 (blendAll_not.1 e)
  | ok b =>
  rw [Res.ok_bind]
  obtain ⟨b1, b2⟩ := Bal.blendAll_ok (blendAll_ok (g := blendR cfg.method i) (fun a b y => blend_ok) h3)
  rw [hlen] at b1 b2
  simp only [Nat.zero_add] at b1 b2
  have htar : b.map (floorR cfg) = targetsR cfg i w s.graph.metrics k := by
    rw [b2, List.map_map]
    unfold targetsR
    refine List.map_congr_left fun e he => ?_
    have he := List.mem_range.mp he
    simp only [Function.comp_apply, targetR]
    congr 2
    rw [hd, hm0]
    simp [List.getD_eq_getElem?_getD, he]
  cases h4 : atLeast cfg b with
  | panic =>
    unfold atLeast at h4
    split at h4
    · simp at h4
    · split at h4 <;> simp at h4
  | err f =>
    unfold atLeast at h4
    split at h4
    · simp at h4
    · rename_i hmin
      split at h4
      · rename_i hc
        simp only [Res.err.injEq] at h4
        subst h4
        refine ⟨by simp, fun _ => ?_, by simp⟩
        rw [Bool.and_eq_true, List.any_eq_true] at hc
        obtain ⟨⟨x, hx, hle⟩, hf⟩ := hc
        refine ⟨hmin, hf, hw, hz', b1, ?_⟩
        have hx' : x ∈ targetsR cfg i w s.graph.metrics k := by
          rw [← htar]
          exact List.mem_map.mpr ⟨x, hx, by unfold floorR; rw [hmin]⟩
        obtain ⟨e, he, rfl⟩ := List.mem_map.mp hx'
        exact ⟨e, List.mem_range.mp he, hle⟩
      · simp at h4
  | ok t =>
  rw [Res.ok_bind]
  have ht : t = targetsR cfg i w s.graph.metrics k := by rw [(atLeast_ok h4).1, htar]
  cases h5 : meanOf t with
  | panic => exact absurd h5 meanOf_not.1
  | err f =>
    cases f with
    | notFinite => simp
    | fails e => exact absurd h5 (meanOf_not.2 e)
  | ok m1 =>
  rw [Res.ok_bind]
  have hm1 : m1 = meanR cfg i w s.graph.metrics k := by
    rw [(meanOf_ok h5).2.1, ht, targetsR_length]; rfl
  by_cases hp : le m1 0 = true
  · rw [if_pos hp]
    exact ⟨by simp, by simp, fun _ => ⟨hw, Or.inr ⟨hz', b1, hm1 ▸ hp⟩⟩⟩
  rw [if_neg hp]
  cases h6 : divideBy m1 t with
  | panic => exact absurd h6 divideBy_not.1
  | err f =>
    cases f with
    | notFinite => simp
    | fails e => exact absurd h6 (divideBy_not.2 e)
  | ok d => simp

end Verif.BalF
