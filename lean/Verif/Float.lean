import Mathlib.Data.Int.Log
import Verif.DijkstraProps
import Verif.BinHeapNear

/-!
# Floating point numbers

`f64` as rationals that are rounded after every operation, to the nearest number with 53 significant bits
and with ties to even, including the subnormal numbers. Simplification: there is no largest number, so
nothing overflows, and there is neither infinity nor NaN. `Overflow.lean` adds a largest number.
-/

namespace Verif.Fp

open Dij

/-! ## Rounding -/

/-- The nearest integer, ties to even (IEEE 754 `roundTiesToEven`). -/
def rne (q : ℚ) : ℤ :=
  if q - ⌊q⌋ < 1 / 2 then ⌊q⌋
  else if 1 / 2 < q - ⌊q⌋ then ⌊q⌋ + 1
  else if ⌊q⌋ % 2 = 0 then ⌊q⌋ else ⌊q⌋ + 1

theorem rne_bounds (q : ℚ) : ⌊q⌋ ≤ rne q ∧ rne q ≤ ⌊q⌋ + 1 := by
  unfold rne
  repeat' split
  all_goals constructor <;> omega

theorem rne_mono : Monotone rne := by
  intro x y hxy
  rcases lt_or_eq_of_le (Int.floor_mono hxy) with h | h
  · have h1 := (rne_bounds x).2
    have h2 := (rne_bounds y).1
    omega
  · unfold rne
    rw [h]
    split
    · repeat' split
      all_goals omega
    · rename_i h1
      have h1' : ¬ (y - ⌊y⌋ < 1 / 2) := by intro h2; apply h1; linarith
      rw [if_neg h1']
      split
      · rename_i h3
        rw [if_pos (by linarith)]
      · repeat' split
        all_goals omega

theorem rne_int (n : ℤ) : rne n = n := by
  unfold rne
  rw [Int.floor_intCast, if_pos (by rw [sub_self]; norm_num)]

theorem rne_err (q : ℚ) : |(rne q : ℚ) - q| ≤ 1 / 2 := by
  have h1 := Int.floor_le q
  have h2 := Int.lt_floor_add_one q
  unfold rne
  rw [abs_le]
  repeat' split
  all_goals (push_cast; constructor <;> linarith)

/-- The spacing of the numbers around a positive `x`, with `P + 1` significant bits and `2 ^ m` as the smallest
positive number. -/
def ulp (P : ℕ) (m : ℤ) (x : ℚ) : ℚ := 2 ^ max (Int.log 2 x - P) m

/-- The nearest number of a non-negative one. -/
def roundPos (P : ℕ) (m : ℤ) (x : ℚ) : ℚ := rne (x / ulp P m x) * ulp P m x

/-- The nearest number. -/
def round (P : ℕ) (m : ℤ) (x : ℚ) : ℚ := if x < 0 then -roundPos P m (-x) else roundPos P m x

section
variable {P : ℕ} {m : ℤ}

theorem ulp_pos (x : ℚ) : 0 < ulp P m x := zpow_pos (by norm_num) _

theorem roundPos_zero : roundPos P m 0 = 0 := by
  unfold roundPos
  rw [zero_div]
  have : rne 0 = 0 := by decide +kernel
  rw [this]
  simp

theorem pow_int {k : ℤ} (h : 0 ≤ k) : ∃ n : ℤ, (2 : ℚ) ^ k = n := by
  obtain ⟨n, rfl⟩ := Int.eq_ofNat_of_zero_le h
  exact ⟨2 ^ n, by push_cast; exact zpow_natCast _ _⟩

theorem roundPos_nonneg {x : ℚ} (h : 0 ≤ x) : 0 ≤ roundPos P m x := by
  unfold roundPos
  refine mul_nonneg ?_ (le_of_lt (ulp_pos x))
  have h1 : rne 0 ≤ rne (x / ulp P m x) := rne_mono (div_nonneg h (le_of_lt (ulp_pos x)))
  have : rne 0 = 0 := by decide +kernel
  rw [this] at h1
  exact_mod_cast h1

/-- Multiples of the spacing are kept. -/
theorem roundPos_mul {x : ℚ} {n : ℤ} (h : x = n * ulp P m x) : roundPos P m x = x := by
  unfold roundPos
  have : x / ulp P m x = n := by
    rw [div_eq_iff (ne_of_gt (ulp_pos x))]; exact h
  rw [this, rne_int]
  exact h.symm

/-- Rounding stays below multiples of the spacing that are not less. -/
theorem roundPos_le {x : ℚ} {n : ℤ} (h : x ≤ n * ulp P m x) : roundPos P m x ≤ n * ulp P m x := by
  unfold roundPos
  have h1 : rne (x / ulp P m x) ≤ n := by
    rw [← rne_int n]
    exact rne_mono ((div_le_iff₀ (ulp_pos x)).mpr h)
  exact mul_le_mul_of_nonneg_right (by exact_mod_cast h1) (le_of_lt (ulp_pos x))

theorem le_roundPos {x : ℚ} {n : ℤ} (h : n * ulp P m x ≤ x) : n * ulp P m x ≤ roundPos P m x := by
  unfold roundPos
  have h1 : n ≤ rne (x / ulp P m x) := by
    rw [← rne_int n]
    exact rne_mono ((le_div_iff₀ (ulp_pos x)).mpr h)
  exact mul_le_mul_of_nonneg_right (by exact_mod_cast h1) (le_of_lt (ulp_pos x))

theorem lt_pow_log (x : ℚ) : x < 2 ^ (Int.log 2 x + 1) := by
  have := Int.lt_zpow_succ_log_self (b := 2) (by norm_num) x
  exact_mod_cast this

theorem pow_log_le {x : ℚ} (hx : 0 < x) : (2 : ℚ) ^ Int.log 2 x ≤ x := by
  have := Int.zpow_log_le_self (b := 2) (r := x) (by norm_num) hx
  exact_mod_cast this

theorem log_lt {x : ℚ} (hx : 0 < x) {k : ℤ} (h : x < 2 ^ k) : Int.log 2 x < k := by
  have h1 := lt_of_le_of_lt (pow_log_le hx) h
  exact (zpow_lt_zpow_iff_right₀ (by norm_num : (1 : ℚ) < 2)).mp h1

theorem pow_mul_pow (a b : ℤ) : (2 : ℚ) ^ a * 2 ^ b = 2 ^ (a + b) := (zpow_add₀ (by norm_num) a b).symm

theorem pow_le_pow {a b : ℤ} (h : a ≤ b) : (2 : ℚ) ^ a ≤ 2 ^ b := zpow_le_zpow_right₀ (by norm_num) h

theorem roundPos_mono {x y : ℚ} (hx : 0 ≤ x) (hxy : x ≤ y) : roundPos P m x ≤ roundPos P m y := by
  rcases eq_or_lt_of_le hx with rfl | hx
  · rw [roundPos_zero]; exact roundPos_nonneg hxy
  have hy := lt_of_lt_of_le hx hxy
  have hlog : Int.log 2 x ≤ Int.log 2 y := Int.log_mono_right hx hxy
  rcases eq_or_lt_of_le (max_le_max (sub_le_sub_right hlog (P : ℤ)) (le_refl m)) with h | h
  · have hu : ulp P m x = ulp P m y := by unfold ulp; rw [h]
    unfold roundPos
    rw [hu]
    refine mul_le_mul_of_nonneg_right ?_ (le_of_lt (ulp_pos y))
    have := rne_mono (div_le_div_of_nonneg_right hxy (le_of_lt (ulp_pos (P := P) (m := m) y)))
    exact_mod_cast this
  · have hm := le_max_right (Int.log 2 x - P) m
    have hey : max (Int.log 2 y - P) m = Int.log 2 y - P := by
      rcases max_choice (Int.log 2 y - P) m with h' | h'
      · exact h'
      · rw [h'] at h; omega
    have hlx := le_max_left (Int.log 2 x - (P : ℤ)) m
    rw [hey] at h
    -- the power of two between them
    obtain ⟨n, hn⟩ := pow_int (k := Int.log 2 y - max (Int.log 2 x - P) m) (by omega)
    obtain ⟨k, hk⟩ := pow_int (k := (P : ℤ)) (by omega)
    have e1 : (n : ℚ) * ulp P m x = 2 ^ Int.log 2 y := by
      rw [← hn]; unfold ulp; rw [pow_mul_pow]; congr 1; omega
    have e2 : (k : ℚ) * ulp P m y = 2 ^ Int.log 2 y := by
      rw [← hk]; unfold ulp; rw [hey, pow_mul_pow]; congr 1; omega
    have h1 : roundPos P m x ≤ n * ulp P m x := by
      apply roundPos_le
      rw [e1]
      refine le_trans (le_of_lt (lt_pow_log x)) (pow_le_pow ?_)
      omega
    have h2 : k * ulp P m y ≤ roundPos P m y := by
      apply le_roundPos
      rw [e2]
      exact pow_log_le hy
    rw [e1] at h1
    rw [e2] at h2
    linarith

/-- Numbers with few enough bits are kept. -/
theorem roundPos_fix {n e : ℤ} (hn : 0 ≤ n) (hn' : (n : ℚ) ≤ 2 ^ (P + 1 : ℤ)) (he : m ≤ e) :
    roundPos P m (n * 2 ^ e) = n * 2 ^ e := by
  rcases eq_or_lt_of_le hn with rfl | hn
  · simp [roundPos_zero]
  have hn0 : (0 : ℚ) < n := by exact_mod_cast hn
  have hz : (0 : ℚ) < n * 2 ^ e := mul_pos hn0 (zpow_pos (by norm_num) _)
  rcases eq_or_lt_of_le hn' with h | h
  · -- a power of two
    have ez : (n : ℚ) * 2 ^ e = 2 ^ (P + 1 + e : ℤ) := by rw [h, pow_mul_pow]
    have hlog : Int.log 2 ((n : ℚ) * 2 ^ e) = P + 1 + e := by
      rw [ez]
      have := Int.log_zpow (R := ℚ) (b := 2) (by norm_num) (P + 1 + e)
      exact_mod_cast this
    obtain ⟨k, hk⟩ := pow_int (k := (P : ℤ)) (by omega)
    apply roundPos_mul (n := k)
    unfold ulp
    rw [hlog, max_eq_left (by omega), ← hk, ez, pow_mul_pow]
    congr 1
    omega
  · have hlog : Int.log 2 ((n : ℚ) * 2 ^ e) < P + 1 + e := by
      refine log_lt hz ?_
      rw [← pow_mul_pow (P + 1 : ℤ) e]
      exact mul_lt_mul_of_pos_right h (zpow_pos (by norm_num) _)
    have hle : max (Int.log 2 ((n : ℚ) * 2 ^ e) - P) m ≤ e := max_le (by omega) he
    obtain ⟨k, hk⟩ := pow_int (k := e - max (Int.log 2 ((n : ℚ) * 2 ^ e) - P) m) (by omega)
    apply roundPos_mul (n := n * k)
    unfold ulp
    push_cast
    rw [← hk, mul_assoc, pow_mul_pow]
    congr 2
    omega

/-- Rounding gives a number with few enough bits. -/
theorem roundPos_form {x : ℚ} (hx : 0 ≤ x) : ∃ n e : ℤ, 0 ≤ n ∧ (n : ℚ) ≤ 2 ^ (P + 1 : ℤ) ∧ m ≤ e ∧
    roundPos P m x = n * 2 ^ e := by
  rcases eq_or_lt_of_le hx with rfl | hx'
  · exact ⟨0, m, le_refl _, by rw [Int.cast_zero]; exact le_of_lt (zpow_pos (by norm_num) _), le_refl _, by rw [roundPos_zero]; simp⟩
  refine ⟨rne (x / ulp P m x), max (Int.log 2 x - P) m, ?_, ?_, le_max_right _ _, rfl⟩
  · have h1 : rne 0 ≤ rne (x / ulp P m x) := rne_mono (div_nonneg hx (le_of_lt (ulp_pos x)))
    have : rne 0 = 0 := by decide +kernel
    rwa [this] at h1
  · obtain ⟨k, hk⟩ := pow_int (k := (P + 1 : ℤ)) (by omega)
    rw [hk]
    have h1 : rne (x / ulp P m x) ≤ rne k := by
      refine rne_mono ((div_le_iff₀ (ulp_pos x)).mpr ?_)
      rw [← hk]
      unfold ulp
      rw [pow_mul_pow]
      refine le_trans (le_of_lt (lt_pow_log x)) (pow_le_pow ?_)
      have := le_max_left (Int.log 2 x - (P : ℤ)) m
      omega
    rw [rne_int] at h1
    exact_mod_cast h1

theorem roundPos_idem {x : ℚ} (hx : 0 ≤ x) : roundPos P m (roundPos P m x) = roundPos P m x := by
  obtain ⟨n, e, h1, h2, h3, h4⟩ := roundPos_form (P := P) (m := m) hx
  rw [h4]
  exact roundPos_fix h1 h2 h3

theorem roundPos_err (x : ℚ) : |roundPos P m x - x| ≤ ulp P m x / 2 := by
  have hu := ulp_pos (P := P) (m := m) x
  have h := rne_err (x / ulp P m x)
  have e : roundPos P m x - x = (rne (x / ulp P m x) - x / ulp P m x) * ulp P m x := by
    rw [sub_mul, div_mul_cancel₀ _ (ne_of_gt hu)]; rfl
  rw [e, abs_mul, abs_of_pos hu]
  have := mul_le_mul_of_nonneg_right h (le_of_lt hu)
  linarith

theorem round_neg (x : ℚ) : round P m (-x) = -round P m x := by
  unfold round
  rcases lt_trichotomy x 0 with h | rfl | h
  · rw [if_pos h, if_neg (by linarith), neg_neg]
  · simp [roundPos_zero]
  · rw [if_neg (not_lt.mpr (le_of_lt h)), if_pos (by linarith), neg_neg]

theorem round_nonneg {x : ℚ} (h : 0 ≤ x) : round P m x = roundPos P m x := by
  unfold round
  rw [if_neg (not_lt.mpr h)]

end

/-- Floating point numbers with `P + 1` significant bits and the smallest positive number `2 ^ m`. -/
def fp (P : ℕ) (m : ℤ) : Rounding where
  rnd := round P m
  mono := by
    intro x y hxy
    rcases lt_or_ge x 0 with hx | hx
    · rcases lt_or_ge y 0 with hy | hy
      · have := roundPos_mono (P := P) (m := m) (x := -y) (y := -x) (by linarith) (by linarith)
        unfold round
        rw [if_pos hx, if_pos hy]
        linarith
      · have h1 := roundPos_nonneg (P := P) (m := m) (x := -x) (by linarith)
        have h2 := roundPos_nonneg (P := P) (m := m) hy
        unfold round
        rw [if_pos hx, if_neg (not_lt.mpr hy)]
        linarith
    · rw [round_nonneg hx, round_nonneg (le_trans hx hxy)]
      exact roundPos_mono hx hxy
  idem := by
    intro x
    rcases lt_or_ge x 0 with hx | hx
    · have e : round P m x = -roundPos P m (-x) := by unfold round; rw [if_pos hx]
      have h := roundPos_nonneg (P := P) (m := m) (x := -x) (by linarith)
      rw [e, round_neg, round_nonneg h, roundPos_idem (by linarith)]
    · rw [round_nonneg hx, round_nonneg (roundPos_nonneg hx), roundPos_idem hx]
  zero := by rw [round_nonneg (le_refl _), roundPos_zero]

/-- The `f64` of Rust (IEEE 754 binary64): 53 significant bits, exponents down to `-1074`. Simplification: no
overflow, see `Overflow.lean`. -/
def f64 : Rounding := fp 52 (-1074)

/-! ## The operations of the router -/

/-- `src/helpers/mod.rs:23-27` `dot_product` on `f64`: the products and the sums are rounded. -/
def dot (r : Rounding) (a b : List ℚ) : Rounded r :=
  (a.zip b).foldl (fun s p => s + ⟨r.rnd (p.1 * p.2), r.idem _⟩) 0

/-- `src/defaults.rs:15`: the literal is rounded. -/
def eps (r : Rounding) : ℚ := r.rnd Verif.eps

/-- `src/approximating.rs:168-172` `Approx<f64>::approx`: division and multiplication are rounded, `f64::round`
is exact. -/
def approx (r : Rounding) (x : ℚ) : ℚ := r.rnd (Approx.roundF (r.rnd (x / eps r)) * eps r)

/-- `src/approximating.rs:195-199` `eq` for `Approx<f64>`: the difference is rounded, too. -/
def eq (r : Rounding) (a b : ℚ) : Bool := decide (|approx r (r.rnd (a - b))| ≤ eps r)

/-- `src/approximating.rs:174-193` `cmp` for `Approx<f64>`. -/
def cmp (r : Rounding) (a b : Rounded r) : Ordering := if eq r a.1 b.1 then .eq else compare a.1 b.1

/-- The router's queue of costs in floating point numbers: `src/routing/dijkstra.rs:27` with the heap of std. -/
def heap (r : Rounding) : Heap (Rounded r) := binHeap (cmp r)

end Verif.Fp
