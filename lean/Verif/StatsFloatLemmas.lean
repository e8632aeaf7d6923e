import Verif.StatsFloat
import Verif.ParallelProps
import Verif.BalanceFloatLemmas
import Mathlib.Tactic.Linarith
import Mathlib.Tactic.Positivity
import Mathlib.Tactic.GCongr

/-!
# Lemmas about mean and variance with `f64`
-/

namespace Verif.StatsF

open Par (Outcome mean variance)
open BalF (Fault num sumFrom)

/-- Twice the precision of an operation. -/
def w : ℚ := 1 / 2 ^ 52

theorem w_pos : 0 < w := by unfold w; positivity

theorem w_small : w ≤ 1 / 1000000 := by unfold w; norm_num

/-- Numbers that are far from infinity. -/
def big : ℚ := 2 ^ 1000

theorem big_ge : (2 : ℚ) ^ 300 ≤ big := by
  unfold big
  exact pow_le_pow_right₀ (by norm_num) (by norm_num)

/-- An operation with a result of at most `M`. -/
theorem num_near {x M : ℚ} (h : |x| ≤ M) (h1 : 1 ≤ M) (h2 : M ≤ big) : ∃ y, num x = .ok y ∧ |y - x| ≤ w * M := by
  refine ⟨_, BalF.num_fine (e := 1000) (by norm_num) (le_trans h h2), ?_⟩
  have ha := BalF.any x
  have he : BalF.eta ≤ 1 / 2 ^ 53 := BalF.eta_le (by norm_num)
  have : (1 : ℚ) / 2 ^ 53 * |x| ≤ 1 / 2 ^ 53 * M := by gcongr
  have hw : w = 1 / 2 ^ 53 + 1 / 2 ^ 53 := by unfold w; norm_num
  rw [hw]
  nlinarith

attribute [irreducible] big w

/-- A number that fits. -/
theorem num_nat {n : Nat} (h : n ≤ 2 ^ 53) : num (n : ℚ) = .ok (n : ℚ) := by
  rw [BalF.num_fine (e := 53) (by norm_num) (by rw [abs_of_nonneg (by positivity)]; exact_mod_cast h)]
  rw [BalF.isNum_nat h]

theorem toF_eq {n : Nat} (h : n ≤ 2 ^ 53) : toF n = n := BalF.isNum_nat h

theorem map_toF {l : List Nat} (h : ∀ x ∈ l, x ≤ 2 ^ 53) : l.map toF = l.map fun (x : Nat) => (x : ℚ) :=
  List.map_congr_left fun x hx => toF_eq (h x hx)

/-- Counts are added exactly. -/
theorem sum_nat {l : List Nat} {a : Nat} (h : a + l.sum ≤ 2 ^ 53) :
    sumFrom (a : ℚ) (l.map fun (x : Nat) => (x : ℚ)) = .ok ((a + l.sum : Nat) : ℚ) := by
  induction l generalizing a with
  | nil => simp [sumFrom]
  | cons x l ih =>
    rw [List.sum_cons] at h ⊢
    simp only [List.map_cons, sumFrom]
    rw [← Nat.cast_add, num_nat (by omega), Res.ok_bind, ih (by omega), Nat.add_assoc]

/-- Adding numbers of at most `C`. -/
theorem sum_near {C : ℚ} (h1 : 1 ≤ C) {cs : List ℚ} (hc : ∀ c ∈ cs, |c| ≤ C) {s : ℚ} {j k : Nat} (hs : |s| ≤ 2 * j * C)
    (hjk : j + cs.length ≤ k) (hk : 2 * (k : ℚ) * w ≤ 1) (hb : 2 * k * C ≤ big) {t : ℚ} (ht : |s - t| ≤ 2 * k * C * w * j)
    (htj : |t| ≤ j * C) :
    ∃ y, sumFrom s cs = .ok y ∧ |y - (t + cs.sum)| ≤ 2 * k * C * w * (j + cs.length : Nat) := by
  induction cs generalizing s t j with
  | nil => exact ⟨s, rfl, by simpa using ht⟩
  | cons c cs ih =>
    rw [List.length_cons] at hjk
    have hcc := hc c List.mem_cons_self
    have hj1 : ((j : ℚ) + 1) ≤ k := by exact_mod_cast (by omega : j + 1 ≤ k)
    have hj0 : (0 : ℚ) ≤ j := by positivity
    have hM : |s + c| ≤ 2 * k * C := by
      have := abs_add_le s c
      nlinarith
    obtain ⟨y, hy, hye⟩ := num_near hM (by nlinarith) hb
    have ht' : |y - (t + c)| ≤ 2 * k * C * w * (j + 1 : Nat) := by
      have e : y - (t + c) = (y - (s + c)) + (s - t) := by ring
      rw [e]
      have := abs_add_le (y - (s + c)) (s - t)
      push_cast
      nlinarith
    have htj' : |t + c| ≤ (j + 1 : Nat) * C := by
      have := abs_add_le t c
      push_cast
      linarith
    have hs' : |y| ≤ 2 * (j + 1 : Nat) * C := by
      have e : y = (y - (t + c)) + (t + c) := by ring
      have h3 := abs_add_le (y - (t + c)) (t + c)
      rw [← e] at h3
      have h4 : 2 * k * C * w * ((j + 1 : Nat) : ℚ) ≤ C * (j + 1 : Nat) := by
        have : 2 * k * C * w * ((j + 1 : Nat) : ℚ) = (2 * k * w) * (C * (j + 1 : Nat)) := by ring
        rw [this]
        exact mul_le_of_le_one_left (by positivity) hk
      linarith
    obtain ⟨z, hz, hze⟩ := ih (fun x hx => hc x (List.mem_cons_of_mem _ hx)) hs' (by omega) ht' htj'
    refine ⟨z, ?_, ?_⟩
    · simp only [sumFrom]
      rw [hy, Res.ok_bind, hz]
    · rw [List.sum_cons, ← add_assoc, List.length_cons]
      have : j + (cs.length + 1) = j + 1 + cs.length := by omega
      rw [this]
      exact hze

/-! ## Means and variances -/

theorem mean_bounds {l : List ℚ} {B : ℚ} (hB : 0 ≤ B) (h : ∀ x ∈ l, 0 ≤ x ∧ x ≤ B) : 0 ≤ mean l ∧ mean l ≤ B := by
  have h0 : 0 ≤ l.sum := List.sum_nonneg fun x hx => (h x hx).1
  have h1 : l.sum ≤ l.length * B := by
    clear h0
    induction l with
    | nil => simp
    | cons a l ih =>
      rw [List.sum_cons, List.length_cons]
      have := ih fun x hx => h x (List.mem_cons_of_mem _ hx)
      have := (h a List.mem_cons_self).2
      push_cast
      linarith
  unfold mean
  refine ⟨div_nonneg h0 (by positivity), ?_⟩
  rcases Nat.eq_zero_or_pos l.length with h2 | h2
  · rw [h2]; simpa using hB
  · rw [div_le_iff₀ (by exact_mod_cast h2)]
    linarith

theorem variance_bounds {l : List ℚ} {B : ℚ} (hB : 0 ≤ B) (h : ∀ x ∈ l, 0 ≤ x ∧ x ≤ B) :
    0 ≤ variance l ∧ variance l ≤ B ^ 2 := by
  obtain ⟨m0, m1⟩ := mean_bounds hB h
  unfold variance
  refine mean_bounds (by positivity) fun y hy => ?_
  obtain ⟨x, hx, rfl⟩ := List.mem_map.mp hy
  obtain ⟨x0, x1⟩ := h x hx
  exact ⟨by positivity, sq_le_sq' (by linarith) (by linarith)⟩

/-! ## One update -/

/-- The new mean is off by little more than the old one. -/
theorem newMean_near {n B : Nat} {found : List Nat} {m μ E : ℚ} (h0 : 0 < found.length) (hn : found.length ≤ n)
    (hn' : n ≤ 2 ^ 53) (hB1 : 1 ≤ B) (hB : ∀ x ∈ found, x ≤ B) (hs : found.length * B ≤ 2 ^ 53)
    (hμ : 0 ≤ μ ∧ μ ≤ B) (hm : |m - μ| ≤ E) (hE : 4 * E ≤ B) :
    ∃ m', newMean n found m = .ok m' ∧
      |m' - (μ + ((found.map fun (x : Nat) => (x : ℚ)).sum - found.length * μ) / n)| ≤ E + 16 * w * B := by
  have hsum : found.sum ≤ found.length * B := by
    clear * - hB
    induction found with
    | nil => simp
    | cons a l ih =>
      rw [List.sum_cons, List.length_cons]
      have := ih fun x hx => hB x (List.mem_cons_of_mem _ hx)
      have := hB a List.mem_cons_self
      rw [Nat.add_mul]
      omega
  have hB53 : B ≤ 2 ^ 53 := le_trans (Nat.le_mul_of_pos_left B h0) hs
  have hcast : (found.map fun (x : Nat) => (x : ℚ)).sum = (found.sum : ℚ) := by
    simp [Nat.cast_list_sum]
  rw [hcast]
  have hsumF : sumFrom 0 (found.map toF) = .ok (found.sum : ℚ) := by
    rw [map_toF fun x hx => le_trans (hB x hx) hB53]
    have := sum_nat (l := found) (a := 0) (by omega)
    simpa using this
  have hk53 : found.length ≤ 2 ^ 53 := by omega
  set k : ℚ := (found.length : ℚ) with hk
  set b : ℚ := (B : ℚ) with hb
  set N : ℚ := (n : ℚ) with hN
  set s : ℚ := (found.sum : ℚ) with hsdef
  have hk1 : 1 ≤ k := by rw [hk]; exact_mod_cast h0
  have hb1 : 1 ≤ b := by rw [hb]; exact_mod_cast hB1
  have hkN : k ≤ N := by rw [hk, hN]; exact_mod_cast hn
  have hN0 : 0 < N := by linarith
  have hsb : s ≤ k * b := by rw [hsdef, hk, hb]; exact_mod_cast hsum
  have hs0 : 0 ≤ s := by rw [hsdef]; positivity
  have hkb : k * b ≤ 2 ^ 53 := by rw [hk, hb]; exact_mod_cast hs
  have hbig : (2 : ℚ) ^ 60 ≤ big := le_trans (pow_le_pow_right₀ (by norm_num) (by norm_num)) big_ge
  have hkb1 : 1 ≤ k * b := by nlinarith
  have hbkb : b ≤ k * b := by nlinarith
  have hw := w_small
  have hw0 := w_pos
  rw [abs_le] at hm
  have hm' : |m| ≤ 5 / 4 * b := by rw [abs_le]; constructor <;> linarith
  rw [abs_le] at hm'
  -- the product
  obtain ⟨p, hp, hpe⟩ := num_near (x := k * m) (M := 2 * (k * b))
    (by rw [abs_mul, abs_of_pos (by linarith : 0 < k)]
        have : |m| ≤ 5 / 4 * b := abs_le.mpr hm'
        nlinarith) (by linarith) (by linarith)
  have hpe' := abs_le.mp hpe
  have hwkb : w * (k * b) ≤ 1 / 1000000 * (k * b) := by gcongr
  have hpm : k * m ≤ 5 / 4 * (k * b) ∧ -(5 / 4 * (k * b)) ≤ k * m := by constructor <;> nlinarith
  -- the difference
  obtain ⟨d, hd, hde⟩ := num_near (x := s - p) (M := 3 * (k * b))
    (by rw [abs_le]; constructor <;> linarith) (by linarith) (by linarith)
  have hde' := abs_le.mp hde
  have hdb : |d| ≤ 4 * (k * b) := by rw [abs_le]; constructor <;> linarith
  -- the quotient
  have hq4 : |d / N| ≤ 4 * b := by
    rw [abs_div, abs_of_pos hN0, div_le_iff₀ hN0]
    nlinarith
  obtain ⟨q, hq, hqe⟩ := num_near (x := d / N) (M := 4 * b) hq4 (by linarith) (by linarith)
  have hqe' := abs_le.mp hqe
  have hq4' := abs_le.mp hq4
  have hwb : w * b ≤ 1 / 1000000 * b := by gcongr
  -- the sum
  obtain ⟨m', hm1, hm2⟩ := num_near (x := m + q) (M := 7 * b)
    (by rw [abs_le]; constructor <;> linarith) (by linarith) (by linarith)
  refine ⟨m', ?_, ?_⟩
  · unfold newMean
    rw [hsumF, Res.ok_bind, toF_eq hk53, toF_eq hn', ← hk, ← hN, hp, Res.ok_bind, hd, Res.ok_bind, hq, Res.ok_bind,
      hm1]
  · have hm2' := abs_le.mp hm2
    -- the error of the quotient's numerator
    have hnum : |d - (s - k * m)| ≤ 5 * w * (k * b) := by
      rw [abs_le]; constructor <;> linarith
    have hdiv : |d / N - (s - k * m) / N| ≤ 5 * w * b := by
      rw [← sub_div, abs_div, abs_of_pos hN0, div_le_iff₀ hN0]
      have : 5 * w * (k * b) ≤ 5 * w * b * N := by
        have : 5 * w * b * k ≤ 5 * w * b * N := by gcongr
        linarith
      linarith
    have hdiv' := abs_le.mp hdiv
    -- the old error shrinks
    have hold : |(m + (s - k * m) / N) - (μ + (s - k * μ) / N)| ≤ E := by
      have e : (m + (s - k * m) / N) - (μ + (s - k * μ) / N) = (m - μ) * ((N - k) / N) := by
        field_simp; ring
      rw [e, abs_mul]
      have h1 : |(N - k) / N| ≤ 1 := by
        rw [abs_of_nonneg (div_nonneg (by linarith) hN0.le), div_le_one hN0]
        linarith
      have h2 : |m - μ| ≤ E := abs_le.mpr hm
      calc |m - μ| * |(N - k) / N| ≤ |m - μ| * 1 := by gcongr
        _ ≤ E := by linarith
    have hold' := abs_le.mp hold
    rw [abs_le]
    constructor <;> linarith

theorem product_near {x b m m' μ μ' E : ℚ} (hb1 : 1 ≤ b) (hb : b ≤ 2 ^ 53) (hx : 0 ≤ x ∧ x ≤ b) (hμ : 0 ≤ μ ∧ μ ≤ b)
    (hμ' : 0 ≤ μ' ∧ μ' ≤ b) (hm : |m - μ| ≤ E) (hm' : |m' - μ'| ≤ E) (hE : 4 * E ≤ b) :
    ∃ a a' c, num (x - m) = .ok a ∧ num (x - m') = .ok a' ∧ num (a * a') = .ok c ∧ |c| ≤ 10 * b ^ 2 ∧
      |c - (x - μ) * (x - μ')| ≤ 4 * b * E + 21 * w * b ^ 2 := by
  have hbig : (2 : ℚ) ^ 120 ≤ big := le_trans (pow_le_pow_right₀ (by norm_num) (by norm_num)) big_ge
  have hbb : b ^ 2 ≤ 2 ^ 106 := by
    calc b ^ 2 ≤ ((2 : ℚ) ^ 53) ^ 2 := by gcongr
      _ = 2 ^ 106 := by norm_num
  have hb2 : 1 ≤ b ^ 2 := one_le_pow₀ hb1
  have hw := w_small
  have hw0 := w_pos
  have hE0 : 0 ≤ E := le_trans (abs_nonneg _) hm
  have hwb : w * b ≤ 1 / 1000000 * b := by gcongr
  have hwb0 : 0 ≤ w * b := by positivity
  have hwb2 : w * b ^ 2 ≤ 1 / 1000000 * b ^ 2 := by gcongr
  obtain ⟨m1, m2⟩ := abs_le.mp hm
  obtain ⟨m3, m4⟩ := abs_le.mp hm'
  obtain ⟨a, ha, hae⟩ := num_near (x := x - m) (M := 3 * b) (by rw [abs_le]; constructor <;> linarith) (by linarith)
    (by linarith)
  obtain ⟨a', ha', hae'⟩ := num_near (x := x - m') (M := 3 * b) (by rw [abs_le]; constructor <;> linarith) (by linarith)
    (by linarith)
  obtain ⟨a1, a2⟩ := abs_le.mp hae
  obtain ⟨a3, a4⟩ := abs_le.mp hae'
  have hab : |a| ≤ 3 * b := by rw [abs_le]; constructor <;> linarith
  have hab' : |a'| ≤ 3 * b := by rw [abs_le]; constructor <;> linarith
  have hprod : |a * a'| ≤ 9 * b ^ 2 := by
    rw [abs_mul]
    calc |a| * |a'| ≤ (3 * b) * (3 * b) := by gcongr
      _ = 9 * b ^ 2 := by ring
  obtain ⟨c, hc, hce⟩ := num_near (x := a * a') (M := 9 * b ^ 2) hprod (by linarith) (by linarith)
  obtain ⟨c1, c2⟩ := abs_le.mp hce
  obtain ⟨p1, p2⟩ := abs_le.mp hprod
  refine ⟨a, a', c, ha, ha', hc, by rw [abs_le]; constructor <;> linarith, ?_⟩
  have e1 : |a - (x - μ)| ≤ E + 3 * (w * b) := by rw [abs_le]; constructor <;> linarith
  have e2 : |a' - (x - μ')| ≤ E + 3 * (w * b) := by rw [abs_le]; constructor <;> linarith
  have e3 : |x - μ| ≤ b := by rw [abs_le]; constructor <;> linarith
  have e4 : |(a - (x - μ)) * a' + (x - μ) * (a' - (x - μ'))| ≤ 4 * b * E + 12 * (w * b ^ 2) := by
    refine le_trans (abs_add_le _ _) ?_
    rw [abs_mul, abs_mul]
    calc |a - (x - μ)| * |a'| + |x - μ| * |a' - (x - μ')| ≤
        (E + 3 * (w * b)) * (3 * b) + b * (E + 3 * (w * b)) := by gcongr
      _ = 4 * b * E + 12 * (w * b ^ 2) := by ring
  have e5 : c - (x - μ) * (x - μ') = (c - a * a') + ((a - (x - μ)) * a' + (x - μ) * (a' - (x - μ'))) := by ring
  rw [e5]
  refine le_trans (abs_add_le _ _) ?_
  linarith

theorem products_near {B : Nat} {m m' μ μ' E : ℚ} (hb1 : 1 ≤ B) (hb : B ≤ 2 ^ 53) (hμ : 0 ≤ μ ∧ μ ≤ B)
    (hμ' : 0 ≤ μ' ∧ μ' ≤ B) (hm : |m - μ| ≤ E) (hm' : |m' - μ'| ≤ E) (hE : 4 * E ≤ B) {found : List Nat}
    (hB : ∀ x ∈ found, x ≤ B) :
    ∃ ps, products m m' found = .ok ps ∧ ps.length = found.length ∧ (∀ c ∈ ps, |c| ≤ 10 * (B : ℚ) ^ 2) ∧
      |ps.sum - (found.map fun (x : Nat) => ((x : ℚ) - μ) * ((x : ℚ) - μ')).sum| ≤
        found.length * (4 * B * E + 21 * w * (B : ℚ) ^ 2) := by
  induction found with
  | nil => exact ⟨[], rfl, rfl, by simp, by simp⟩
  | cons x l ih =>
    obtain ⟨ps, h1, h2, h3, h4⟩ := ih fun y hy => hB y (List.mem_cons_of_mem _ hy)
    have hxB := hB x List.mem_cons_self
    obtain ⟨a, a', c, e1, e2, e3, e4, e5⟩ := product_near (x := x) (b := B) (by exact_mod_cast hb1) (by exact_mod_cast hb)
      ⟨by positivity, by exact_mod_cast hxB⟩ hμ hμ' hm hm' hE
    refine ⟨c :: ps, ?_, by simp [h2], ?_, ?_⟩
    · unfold products
      rw [toF_eq (le_trans hxB hb), e1, Res.ok_bind, e2, Res.ok_bind, e3, Res.ok_bind, h1]
      rfl
    · intro y hy
      rcases List.mem_cons.mp hy with rfl | hy
      · exact e4
      · exact h3 y hy
    · rw [List.sum_cons, List.map_cons, List.sum_cons, List.length_cons]
      have e : c + ps.sum - ((↑x - μ) * (↑x - μ') + (l.map fun (x : Nat) => ((x : ℚ) - μ) * ((x : ℚ) - μ')).sum) =
          (c - (↑x - μ) * (↑x - μ')) + (ps.sum - (l.map fun (x : Nat) => ((x : ℚ) - μ) * ((x : ℚ) - μ')).sum) := by ring
      rw [e]
      refine le_trans (abs_add_le _ _) ?_
      push_cast
      linarith

/-- The new variance is off by little more than the old one. -/
theorem newVar_near {n B : Nat} {found : List Nat} {m m' μ μ' v V E D : ℚ} (h0 : 0 < found.length)
    (hn : found.length ≤ n) (hn' : n ≤ 2 ^ 53) (hk : found.length ≤ 2 ^ 46) (hB1 : 1 ≤ B) (hB : ∀ x ∈ found, x ≤ B)
    (hB53 : B ≤ 2 ^ 53) (hμ : 0 ≤ μ ∧ μ ≤ B) (hμ' : 0 ≤ μ' ∧ μ' ≤ B) (hm : |m - μ| ≤ E)
    (hm' : |m' - μ'| ≤ E) (hE : 4 * E ≤ B) (hV : 0 ≤ V ∧ V ≤ (B : ℚ) ^ 2) (hv : |v - V| ≤ D) (hD : D ≤ (B : ℚ) ^ 2) :
    ∃ v', newVar n found m m' v = .ok v' ∧
      |v' - (V * ((n - found.length) / n) +
        (found.map fun (x : Nat) => ((x : ℚ) - μ) * ((x : ℚ) - μ')).sum / n)| ≤
        D + 4 * B * E + (55 + 20 * found.length) * w * (B : ℚ) ^ 2 := by
  obtain ⟨ps, p1, p2, p3, p4⟩ := products_near hB1 hB53 hμ hμ' hm hm' hE hB
  have hk53 : found.length ≤ 2 ^ 53 := by omega
  have hw := w_small
  have hw0 := w_pos
  have hwk : 2 * (found.length : ℚ) * w ≤ 1 / 32 := by
    have hk' : (found.length : ℚ) ≤ 2 ^ 46 := by exact_mod_cast hk
    have hw52 : w = 1 / 2 ^ 52 := by unfold w; rfl
    rw [hw52]
    calc 2 * (found.length : ℚ) * (1 / 2 ^ 52) ≤ 2 * 2 ^ 46 * (1 / 2 ^ 52) := by gcongr
      _ = 1 / 32 := by norm_num
  have hb1 : (1 : ℚ) ≤ B := by exact_mod_cast hB1
  have hbb : (B : ℚ) ^ 2 ≤ 2 ^ 106 := by
    calc (B : ℚ) ^ 2 ≤ ((2 : ℚ) ^ 53) ^ 2 := by gcongr; exact_mod_cast hB53
      _ = 2 ^ 106 := by norm_num
  have hb2 : 1 ≤ (B : ℚ) ^ 2 := one_le_pow₀ hb1
  have hbig : (2 : ℚ) ^ 200 ≤ big := le_trans (pow_le_pow_right₀ (by norm_num) (by norm_num)) big_ge
  have hE0 : 0 ≤ E := le_trans (abs_nonneg _) hm
  have hD0 : 0 ≤ D := le_trans (abs_nonneg _) hv
  have hkq : (found.length : ℚ) ≤ 2 ^ 53 := by exact_mod_cast hk53
  have hk1 : (1 : ℚ) ≤ found.length := by exact_mod_cast h0
  have hkN : (found.length : ℚ) ≤ n := by exact_mod_cast hn
  have hsub : num (toF n - toF found.length) = .ok ((n : ℚ) - found.length) := by
    rw [toF_eq hn', toF_eq hk53]
    have := num_nat (n := n - found.length) (by omega)
    rwa [Nat.cast_sub hn] at this
  have hsum := sum_near (C := 10 * (B : ℚ) ^ 2) (by linarith) p3 (s := 0) (j := 0) (k := found.length) (by simp)
    (by omega) (by linarith) (by
      have : 2 * (found.length : ℚ) * (10 * (B : ℚ) ^ 2) ≤ 2 * 2 ^ 53 * (10 * 2 ^ 106) := by gcongr
      refine le_trans this (le_trans ?_ hbig)
      norm_num) (t := 0) (by simp) (by simp)
  obtain ⟨s, hs, hse⟩ := hsum
  rw [p2, zero_add, Nat.zero_add] at hse
  generalize (found.map fun (x : Nat) => ((x : ℚ) - μ) * ((x : ℚ) - μ')).sum = S at *
  have hlen : ps.sum ≤ found.length * (10 * (B : ℚ) ^ 2) ∧ -(found.length * (10 * (B : ℚ) ^ 2)) ≤ ps.sum := by
    rw [← p2]
    clear * - p3
    induction ps with
    | nil => simp
    | cons c ps ih =>
      obtain ⟨i1, i2⟩ := ih fun x hx => p3 x (List.mem_cons_of_mem _ hx)
      obtain ⟨c1, c2⟩ := abs_le.mp (p3 c List.mem_cons_self)
      rw [List.sum_cons, List.length_cons]
      push_cast
      constructor <;> linarith
  have hk53q : found.length ≤ 2 ^ 53 := hk53
  have hnF := toF_eq hn'
  generalize hkk : (found.length : ℚ) = k at *
  generalize hNN : (n : ℚ) = N at *
  generalize hBB : (B : ℚ) = b at *
  have hN0 : 0 < N := by linarith
  generalize hcc : b ^ 2 = c at *
  have hwc : w * c ≤ 1 / 1000000 * c := by gcongr
  have hwc0 : 0 ≤ w * c := by positivity
  -- sum
  have hse' : |s - ps.sum| ≤ 20 * (k * k * (w * c)) := by
    refine le_trans hse (le_of_eq ?_)
    ring
  have hkk2 : 20 * (k * k * (w * c)) ≤ k * c := by
    have : 20 * (k * k * (w * c)) = (2 * k * w) * (10 * (k * c)) := by ring
    rw [this]
    have h10 : 0 ≤ 10 * (k * c) := by positivity
    calc (2 * k * w) * (10 * (k * c)) ≤ 1 / 32 * (10 * (k * c)) := by gcongr
      _ ≤ k * c := by nlinarith
  obtain ⟨s1, s2⟩ := abs_le.mp hse'
  have hsb : |s| ≤ 11 * (k * c) := by rw [abs_le]; constructor <;> linarith
  have hsN : |s / N| ≤ 11 * c := by
    rw [abs_div, abs_of_pos hN0, div_le_iff₀ hN0]
    have : k * c ≤ N * c := by gcongr
    linarith
  obtain ⟨q, hq, hqe⟩ := num_near (x := s / N) (M := 11 * c) hsN (by linarith) (by linarith)
  -- the old variance
  have hr1 : 0 ≤ (N - k) / N ∧ (N - k) / N ≤ 1 :=
    ⟨div_nonneg (by linarith) hN0.le, by rw [div_le_one hN0]; linarith⟩
  generalize hrr : (N - k) / N = r at *
  obtain ⟨f, hf, hfe⟩ := num_near (x := r) (M := 1) (by rw [abs_le]; constructor <;> linarith) le_rfl
    (le_trans (one_le_pow₀ (by norm_num)) hbig)
  rw [mul_one] at hfe
  have hvb : |v| ≤ 2 * c := by
    obtain ⟨v1, v2⟩ := abs_le.mp hv
    rw [abs_le]; constructor <;> linarith
  have hfb : |f| ≤ 2 := by
    obtain ⟨f1, f2⟩ := abs_le.mp hfe
    rw [abs_le]; constructor <;> linarith
  have hvf : |v * f| ≤ 4 * c := by
    rw [abs_mul]
    calc |v| * |f| ≤ 2 * c * 2 := by gcongr
      _ = 4 * c := by ring
  obtain ⟨g, hg, hge⟩ := num_near (x := v * f) (M := 4 * c) hvf (by linarith) (by linarith)
  obtain ⟨g1, g2⟩ := abs_le.mp hge
  obtain ⟨q1, q2⟩ := abs_le.mp hqe
  obtain ⟨t1, t2⟩ := abs_le.mp hsN
  obtain ⟨y1, y2⟩ := abs_le.mp hvf
  obtain ⟨z, hz, hze⟩ := num_near (x := g + q) (M := 17 * c) (by rw [abs_le]; constructor <;> linarith) (by linarith)
    (by linarith)
  refine ⟨z, ?_, ?_⟩
  · unfold newVar
    rw [hsub, Res.ok_bind, hnF, hrr, hf, Res.ok_bind, hg, Res.ok_bind, p1, Res.ok_bind, hs, Res.ok_bind, hq, Res.ok_bind,
      hz]
  · obtain ⟨z1, z2⟩ := abs_le.mp hze
    -- the old variance
    have e1 : |v * f - V * r| ≤ D + 2 * (w * c) := by
      have e : v * f - V * r = v * (f - r) + (v - V) * r := by ring
      rw [e]
      refine le_trans (abs_add_le _ _) ?_
      rw [abs_mul, abs_mul, abs_of_nonneg hr1.1]
      calc |v| * |f - r| + |v - V| * r ≤ 2 * c * w + D * 1 := by
            gcongr
            all_goals first | exact hr1.1 | exact hr1.2
        _ = D + 2 * (w * c) := by ring
    obtain ⟨e2, e3⟩ := abs_le.mp e1
    -- the new products
    have e4 : |s / N - S / N| ≤ 4 * b * E + 21 * (w * c) + 20 * k * (w * c) := by
      rw [← sub_div, abs_div, abs_of_pos hN0, div_le_iff₀ hN0]
      obtain ⟨a1, a2⟩ := abs_le.mp p4
      have h1 : |s - S| ≤ k * (4 * b * E + 21 * (w * c) + 20 * k * (w * c)) := by
        rw [abs_le]; constructor <;> linarith
      have h2 : 0 ≤ 4 * b * E + 21 * (w * c) + 20 * k * (w * c) := by positivity
      calc |s - S| ≤ k * (4 * b * E + 21 * (w * c) + 20 * k * (w * c)) := h1
        _ ≤ N * (4 * b * E + 21 * (w * c) + 20 * k * (w * c)) := by gcongr
        _ = _ := by ring
    obtain ⟨e5, e6⟩ := abs_le.mp e4
    rw [abs_le]
    constructor <;> linarith

end Verif.StatsF
