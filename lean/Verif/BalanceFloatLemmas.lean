import Verif.BalanceFloatSpec
import Verif.BalancingProps
import Verif.OverflowProps

/-!
# Lemmas on rounded numbers for the balanced metric
-/

namespace Verif.BalF

open Gen Fp

/-- The result of every operation as if there were no largest number. -/
abbrev rnd : ℚ → ℚ := f64.rnd

/-- What subnormal numbers are wrong by. -/
def eta : ℚ := 1 / 2 ^ 1075

theorem eta_nonneg : 0 ≤ eta := by unfold eta; positivity

theorem eta_le {k : ℕ} (hk : k ≤ 1075) : eta ≤ 1 / 2 ^ k := by
  unfold eta
  exact one_div_le_one_div_of_le (by positivity) (pow_le_pow_right₀ (by norm_num) hk)

theorem any (x : ℚ) : |rnd x - x| ≤ 1 / 2 ^ 53 * |x| + eta := f64_err.any x

/-- The same for non-negative numbers. -/
theorem any_nonneg {x : ℚ} (h : 0 ≤ x) : |rnd x - x| ≤ 1 / 2 ^ 53 * x + eta := by
  have := any x
  rwa [abs_of_nonneg h] at this

theorem isNum_rnd (x : ℚ) : IsNum (rnd x) := f64.idem x

theorem isNum_nat {n : ℕ} (h : n ≤ 2 ^ 53) : rnd (n : ℚ) = n := by
  have := Over.rnd_fix (k := n) (e := 0) h
  simpa using this

theorem rnd_zero : rnd 0 = 0 := f64.zero

theorem nonneg {x : ℚ} (h : 0 ≤ x) : 0 ≤ rnd x := rnd_nonneg h

theorem rnd_le {x y : ℚ} (h : x ≤ y) (hy : IsNum y) : rnd x ≤ y := by
  have := f64.mono h
  rwa [hy] at this

theorem le_rnd {x y : ℚ} (h : x ≤ y) (hx : IsNum x) : x ≤ rnd y := by
  have := f64.mono h
  rwa [hx] at this

theorem isNum_neg {x : ℚ} (h : IsNum x) : IsNum (-x) := by
  unfold IsNum
  rw [f64_err.neg, h]

theorem isNum_pow (e : ℕ) : IsNum (2 ^ e) := Over.rd_pow e

theorem rnd_abs_le {x : ℚ} {e : ℕ} (h : |x| ≤ 2 ^ e) : |rnd x| ≤ 2 ^ e := by
  rw [abs_le] at *
  exact ⟨le_rnd h.1 (isNum_neg (isNum_pow e)), rnd_le h.2 (isNum_pow e)⟩

/-! ## Operations -/

theorem num_ok {x y : ℚ} (h : num x = .ok y) : y = rnd x ∧ |y| ≤ Over.maxF := by
  unfold num Over.op at h
  split at h
  · rename_i z hz
    simp only [Res.ok.injEq] at h
    subst h
    by_cases hf : Over.fits (f64.rnd x) = true
    · rw [if_pos hf, Option.some.injEq] at hz
      subst hz
      exact ⟨rfl, by simpa [Over.fits] using hf⟩
    · rw [if_neg hf] at hz; simp at hz
  · simp at h

theorem num_fine {x : ℚ} {e : ℕ} (he : e ≤ 1023) (h : |x| ≤ 2 ^ e) : num x = .ok (rnd x) := by
  have h1 : Over.fits (f64.rnd x) = true := by
    unfold Over.fits
    rw [decide_eq_true_eq]
    exact le_trans (rnd_abs_le h) (Over.pow_le_max he)
  unfold num Over.op
  rw [if_pos h1]

theorem num_not_panic {x : ℚ} : num x ≠ .panic := by
  unfold num; split <;> simp

/-- The rounded sum. -/
def sumR (s : ℚ) (xs : List ℚ) : ℚ := xs.foldl (fun s x => rnd (s + x)) s

theorem sumFrom_ok {s y : ℚ} {xs : List ℚ} (h : sumFrom s xs = .ok y) : y = sumR s xs := by
  induction xs generalizing s with
  | nil => simpa [sumFrom, sumR] using h.symm
  | cons x xs ih =>
    simp only [sumFrom] at h
    obtain ⟨z, h1, h2⟩ := Res.bind_eq_ok.mp h
    rw [ih h2, (num_ok h1).1]
    rfl

theorem meanOf_ok {xs : List ℚ} {y : ℚ} (h : meanOf xs = .ok y) :
    xs ≠ [] ∧ y = rnd (sumR 0 xs / rnd xs.length) ∧ |y| ≤ Over.maxF := by
  unfold meanOf at h
  split at h
  · simp at h
  · rename_i hl
    obtain ⟨z, h1, h2⟩ := Res.bind_eq_ok.mp h
    rw [← sumFrom_ok h1]
    exact ⟨by rintro rfl; simp at hl, (num_ok h2).1, (num_ok h2).2⟩

theorem divideBy_ok {mean : ℚ} {xs ys : List ℚ} (h : divideBy mean xs = .ok ys) :
    ys = xs.map fun x => rnd (x / mean) := by
  induction xs generalizing ys with
  | nil => simpa [divideBy] using h.symm
  | cons x xs ih =>
    simp only [divideBy] at h
    obtain ⟨y, h1, h⟩ := Res.bind_eq_ok.mp h
    obtain ⟨zs, h2, h3⟩ := Res.bind_eq_ok.mp h
    simp only [Res.pure_eq, Res.ok.injEq] at h3
    rw [← h3, ih h2, (num_ok h1).1, List.map_cons]

/-- The rounded blend. -/
def blendR (method : Bal.Method) (i : Nat) (old new : ℚ) : ℚ :=
  match method with
  | .explicitEuler c => rnd (old + rnd (rnd (new - old) * c))
  | .averaging => rnd (rnd (rnd (rnd i * old) + new) / rnd (i + 1 : Nat))

theorem blend_ok {method : Bal.Method} {i : Nat} {old new y : ℚ} (h : blend method i old new = .ok y) :
    y = blendR method i old new := by
  unfold blend at h
  unfold blendR
  cases method with
  | explicitEuler c =>
    simp only at h ⊢
    obtain ⟨d, h1, h⟩ := Res.bind_eq_ok.mp h
    obtain ⟨p, h2, h⟩ := Res.bind_eq_ok.mp h
    rw [(num_ok h).1, (num_ok h2).1, (num_ok h1).1]
  | averaging =>
    simp only at h ⊢
    obtain ⟨d, h1, h⟩ := Res.bind_eq_ok.mp h
    obtain ⟨p, h2, h⟩ := Res.bind_eq_ok.mp h
    rw [(num_ok h).1, (num_ok h2).1, (num_ok h1).1]

theorem blendAll_ok {f : ℚ → ℚ → Res Fault ℚ} {g : ℚ → ℚ → ℚ} (hf : ∀ a b y, f a b = .ok y → y = g a b)
    {ms : List (List ℚ)} {k : Nat} {news : List ℚ} {e : Nat} {xs : List ℚ}
    (h : blendAll f ms k e news = .ok xs) : Bal.blendAll g ms k e news = .ok xs := by
  induction news generalizing e xs with
  | nil =>
    simp only [blendAll, Res.ok.injEq] at h
    simp [Bal.blendAll, h]
  | cons new news ih =>
    simp only [blendAll, Bal.blendAll] at h ⊢
    cases h1 : ms[e]? with
    | none => rw [h1] at h; simp [Res.ofIdx] at h
    | some m =>
      rw [h1] at h
      simp only [Res.ofIdx, Res.ok_bind] at h ⊢
      cases h2 : m[k]? with
      | none => rw [h2] at h; simp at h
      | some old =>
        rw [h2] at h
        simp only [Res.ok_bind] at h ⊢
        obtain ⟨x, h3, h⟩ := Res.bind_eq_ok.mp h
        obtain ⟨rest, h4, h5⟩ := Res.bind_eq_ok.mp h
        rw [ih h4, Res.ok_bind]
        rw [← hf _ _ _ h3]
        simpa using h5

/-- The value after the minimum is applied. -/
def floorR (cfg : Bal.Config) (x : ℚ) : ℚ :=
  match cfg.minNewMetric with
  | none => x
  | some m => if le x m then m else x

theorem atLeast_ok {cfg : Bal.Config} {xs ys : List ℚ} (h : atLeast cfg xs = .ok ys) :
    ys = xs.map (floorR cfg) ∧
      (cfg.minNewMetric = none → cfg.isErrWhenZero = true → ∀ x ∈ xs, le x 0 = false) := by
  unfold atLeast at h
  unfold floorR
  split at h
  · rename_i m hm
    simp only [Res.ok.injEq] at h
    rw [hm]
    exact ⟨h.symm, fun h0 => by simp at h0⟩
  · rename_i hm
    rw [hm]
    split at h
    · simp at h
    · rename_i hc
      simp only [Res.ok.injEq] at h
      refine ⟨by simp [h], fun _ hf x hx => ?_⟩
      rw [hf] at hc
      simp only [Bool.and_true, List.any_eq_true, not_exists, not_and, Bool.not_eq_true] at hc
      exact hc x hx

/-! ## Comparing -/

theorem eq_small {x : ℚ} (h0 : 0 ≤ x) (h : x ≤ 1 / 2 ^ 20) (hx : IsNum x) : Over.eq x 0 = true := by
  rw [Over.C108_compare]
  unfold Fp.eq Fp.approx
  rw [sub_zero, hx, decide_eq_true_eq]
  have he : (0 : ℚ) < Fp.eps f64 := by decide +kernel
  have h1 : f64.rnd (x / Fp.eps f64) ≤ 1 := by
    refine le_trans (f64.mono (div_le_div_of_nonneg_right h he.le)) ?_
    decide +kernel
  have h2 : 0 ≤ f64.rnd (x / Fp.eps f64) := rnd_nonneg (div_nonneg h0 he.le)
  have h3 : Approx.roundF (f64.rnd (x / Fp.eps f64)) ≤ 1 := by
    unfold Approx.roundF
    rw [if_pos h2]
    have : ⌊f64.rnd (x / Fp.eps f64) + 1 / 2⌋ < 2 := Int.floor_lt.mpr (by push_cast; linarith)
    omega
  have h4 : 0 ≤ Approx.roundF (f64.rnd (x / Fp.eps f64)) := by
    unfold Approx.roundF
    rw [if_pos h2]
    exact Int.floor_nonneg.mpr (by linarith)
  have h3' : (Approx.roundF (f64.rnd (x / Fp.eps f64)) : ℚ) ≤ 1 := by exact_mod_cast h3
  have h4' : (0 : ℚ) ≤ Approx.roundF (f64.rnd (x / Fp.eps f64)) := by exact_mod_cast h4
  rw [abs_of_nonneg (rnd_nonneg (mul_nonneg h4' he.le))]
  have h5 := f64.mono (mul_le_mul_of_nonneg_right h3' he.le)
  refine le_trans h5 ?_
  rw [one_mul]
  exact le_of_eq (f64.idem _)

theorem not_le_zero {x : ℚ} (hx : IsNum x) (h : le x 0 = false) : 1 / 2 ^ 20 < x := by
  unfold le at h
  rw [Bool.or_eq_false_iff, decide_eq_false_iff_not] at h
  by_contra hc
  rw [eq_small (le_of_lt (not_le.mp h.2)) (not_lt.mp hc) hx] at h
  simp at h

theorem eq_near' {a b : ℚ} (ha : IsNum a) (hb : IsNum b) (h : Over.eq a b = true) : |a - b| ≤ 1 / 625000 := by
  rw [Over.C108_compare] at h
  refine eq_near f64_err (by norm_num) (le_trans (eta_le (k := 40) (by norm_num)) (by norm_num))
    (a := ⟨a, ha⟩) (b := ⟨b, hb⟩) h

theorem le_near {a b : ℚ} (ha : IsNum a) (hb : IsNum b) (h : le a b = true) : a ≤ b + 1 / 625000 := by
  unfold le at h
  rw [Bool.or_eq_true, decide_eq_true_eq] at h
  rcases h with h | h
  · linarith [(abs_le.mp (eq_near' ha hb h)).2]
  · linarith

theorem not_le {a b : ℚ} (h : le a b = false) : b < a := by
  unfold le at h
  rw [Bool.or_eq_false_iff, decide_eq_false_iff_not] at h
  exact lt_of_not_ge h.2

/-! ## Sums -/

theorem sumR_isNum {s : ℚ} {xs : List ℚ} (hs : IsNum s) : IsNum (sumR s xs) := by
  induction xs generalizing s with
  | nil => exact hs
  | cons x xs ih => exact ih (isNum_rnd _)

theorem sumR_bounds {s : ℚ} {xs : List ℚ} (hs : IsNum s) (hs0 : 0 ≤ s) (hx : ∀ x ∈ xs, 0 ≤ x ∧ IsNum x) :
    sumR s xs ≤ (1 + 1 / 2 ^ 53) ^ xs.length * (s + xs.sum) ∧
    (1 - 1 / 2 ^ 53) ^ xs.length * (s + xs.sum) ≤ sumR s xs := by
  induction xs generalizing s with
  | nil => simp [sumR]
  | cons x xs ih =>
    obtain ⟨hx0, hxn⟩ := hx x List.mem_cons_self
    have hadd := f64_err.add ⟨s, hs⟩ ⟨x, hxn⟩
    simp only at hadd
    have hsx : 0 ≤ s + x := by linarith
    rw [abs_of_nonneg hsx, abs_le] at hadd
    have hrest : 0 ≤ xs.sum := List.sum_nonneg fun y hy => (hx y (List.mem_cons_of_mem _ hy)).1
    obtain ⟨i1, i2⟩ := ih (s := rnd (s + x)) (isNum_rnd _) (nonneg hsx) fun y hy => hx y (List.mem_cons_of_mem _ hy)
    have e : sumR s (x :: xs) = sumR (rnd (s + x)) xs := rfl
    rw [e, List.sum_cons, List.length_cons, pow_succ (1 + 1 / 2 ^ 53 : ℚ), pow_succ (1 - 1 / 2 ^ 53 : ℚ)]
    constructor
    · refine le_trans i1 ?_
      rw [mul_assoc]
      refine mul_le_mul_of_nonneg_left ?_ (by positivity)
      nlinarith [hadd.2]
    · refine le_trans ?_ i2
      rw [mul_assoc]
      refine mul_le_mul_of_nonneg_left ?_ (pow_nonneg (by norm_num) _)
      nlinarith [hadd.1]

/-- Counts are added exactly. -/
theorem sumR_nat {a : Nat} {w : List Nat} (h : a + w.sum ≤ 2 ^ 53) :
    sumR (a : ℚ) (w.map fun n : Nat => (n : ℚ)) = (a + w.sum : Nat) := by
  induction w generalizing a with
  | nil => simp [sumR]
  | cons n w ih =>
    rw [List.sum_cons] at h ⊢
    have e : sumR (a : ℚ) ((n :: w).map fun n : Nat => (n : ℚ)) =
        sumR (rnd ((a : ℚ) + n)) (w.map fun n : Nat => (n : ℚ)) := rfl
    rw [e, ← Nat.cast_add, isNum_nat (by omega), ih (by omega)]
    congr 1
    omega

theorem map_rnd_nat {w : List Nat} (h : w.sum ≤ 2 ^ 53) :
    (w.map fun n : Nat => rnd (n : ℚ)) = w.map fun n : Nat => (n : ℚ) := by
  refine List.map_congr_left fun n hn => isNum_nat (le_trans ?_ h)
  exact List.le_sum_of_mem hn

end Verif.BalF
