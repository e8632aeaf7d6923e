import Verif.Float
import Verif.SearchRound
import Verif.NearProps

/-!
# Lemmas about rounded operations
-/

namespace Verif.Fp

open Dij Search

/-! ## Errors -/

/-- Sums of rounded numbers are wrong by at most the factor `u`; other results additionally by at most `η`. -/
structure Err (r : Rounding) (u η : ℚ) : Prop where
  add : ∀ a b : Rounded r, |r.rnd (a.1 + b.1) - (a.1 + b.1)| ≤ u * |a.1 + b.1|
  any : ∀ x, |r.rnd x - x| ≤ u * |x| + η
  neg : ∀ x, r.rnd (-x) = -r.rnd x
  nonneg : 0 ≤ u
  lt : u < 1
  small : 0 ≤ η

section
variable {P : ℕ} {m : ℤ}

theorem ulp_cases {x : ℚ} (hx : 0 < x) : ulp P m x / 2 ≤ 2 ^ (-(P : ℤ) - 1) * x ∨
    (ulp P m x = 2 ^ m ∧ ulp P m x / 2 = 2 ^ (m - 1)) := by
  have h2 : ∀ k : ℤ, (2 : ℚ) ^ k / 2 = 2 ^ (k - 1) := fun k => by
    rw [zpow_sub₀ (by norm_num), zpow_one]
  unfold ulp
  rcases max_choice (Int.log 2 x - (P : ℤ)) m with h | h
  · left
    rw [h, h2]
    have h1 := pow_log_le hx
    have e : (2 : ℚ) ^ (Int.log 2 x - P - 1) = 2 ^ (-(P : ℤ) - 1) * 2 ^ Int.log 2 x := by
      rw [pow_mul_pow]; congr 1; omega
    rw [e]
    exact mul_le_mul_of_nonneg_left h1 (le_of_lt (zpow_pos (by norm_num) _))
  · right
    rw [h]
    exact ⟨rfl, h2 m⟩

theorem round_any (x : ℚ) : |round P m x - x| ≤ 2 ^ (-(P : ℤ) - 1) * |x| + 2 ^ (m - 1) := by
  have key : ∀ x : ℚ, 0 ≤ x → |round P m x - x| ≤ 2 ^ (-(P : ℤ) - 1) * |x| + 2 ^ (m - 1) := by
    intro x hx
    rw [round_nonneg hx]
    have h1 : (0 : ℚ) < 2 ^ (m - 1) := zpow_pos (by norm_num) _
    rcases eq_or_lt_of_le hx with rfl | hx'
    · rw [roundPos_zero]; simp; exact le_of_lt h1
    · have h3 := roundPos_err (P := P) (m := m) x
      rw [abs_of_pos hx']
      have h4 : (0 : ℚ) < 2 ^ (-(P : ℤ) - 1) * x := mul_pos (zpow_pos (by norm_num) _) hx'
      rcases ulp_cases (P := P) (m := m) hx' with h | ⟨_, h⟩ <;> linarith
  rcases le_total 0 x with h | h
  · exact key x h
  · have := key (-x) (by linarith)
    rw [round_neg, abs_neg] at this
    rw [← abs_neg, neg_sub]
    have e : x - round P m x = -round P m x - -x := by ring
    rw [e]
    exact this

/-- All numbers are multiples of the smallest one. -/
theorem fixed_mul {x : ℚ} (h : round P m x = x) : ∃ n : ℤ, x = n * 2 ^ m := by
  have key : ∀ x : ℚ, 0 ≤ x → round P m x = x → ∃ n : ℤ, x = n * 2 ^ m := by
    intro x hx h
    rw [round_nonneg hx] at h
    obtain ⟨n, e, _, _, h3, h4⟩ := roundPos_form (P := P) (m := m) hx
    obtain ⟨k, hk⟩ := pow_int (k := e - m) (by omega)
    refine ⟨n * k, ?_⟩
    rw [← h, h4]
    push_cast
    rw [← hk, mul_assoc, pow_mul_pow]
    congr 2
    omega
  rcases le_total 0 x with h' | h'
  · exact key x h' h
  · obtain ⟨n, hn⟩ := key (-x) (by linarith) (by rw [round_neg, h])
    exact ⟨-n, by push_cast; linarith⟩

theorem round_add {x : ℚ} (h : ∃ n : ℤ, x = n * 2 ^ m) : |round P m x - x| ≤ 2 ^ (-(P : ℤ) - 1) * |x| := by
  have key : ∀ x : ℚ, 0 ≤ x → (∃ n : ℤ, x = n * 2 ^ m) → |round P m x - x| ≤ 2 ^ (-(P : ℤ) - 1) * |x| := by
    rintro x hx ⟨n, hn⟩
    rw [round_nonneg hx]
    have h0 : (0 : ℚ) ≤ 2 ^ (-(P : ℤ) - 1) * |x| := mul_nonneg (le_of_lt (zpow_pos (by norm_num) _)) (abs_nonneg _)
    rcases eq_or_lt_of_le hx with h | hx'
    · rw [← h, roundPos_zero]; simp
    · rcases ulp_cases (P := P) (m := m) hx' with h | ⟨h, _⟩
      · rw [abs_of_pos hx']
        exact le_trans (roundPos_err x) h
      · rw [roundPos_mul (n := n) (by rw [h]; exact hn), sub_self, abs_zero]
        exact h0
  rcases le_total 0 x with h' | h'
  · exact key x h' h
  · obtain ⟨n, hn⟩ := h
    have := key (-x) (by linarith) ⟨-n, by push_cast; linarith⟩
    rw [round_neg, abs_neg] at this
    rw [← abs_neg, neg_sub]
    have e : x - round P m x = -round P m x - -x := by ring
    rw [e]
    exact this

theorem fp_err : Err (fp P m) (2 ^ (-(P : ℤ) - 1)) (2 ^ (m - 1)) where
  add := by
    intro a b
    refine round_add ?_
    obtain ⟨n, hn⟩ := fixed_mul a.2
    obtain ⟨k, hk⟩ := fixed_mul b.2
    exact ⟨n + k, by push_cast; rw [add_mul]; linarith⟩
  any := round_any
  neg := round_neg
  nonneg := le_of_lt (zpow_pos (by norm_num) _)
  lt := by
    have : (2 : ℚ) ^ (-(P : ℤ) - 1) < 2 ^ (0 : ℤ) := zpow_lt_zpow_right₀ (by norm_num) (by omega)
    simpa using this
  small := le_of_lt (zpow_pos (by norm_num) _)

end

theorem f64_err : Err f64 (1 / 2 ^ 53) (1 / 2 ^ 1075) := by
  have h := fp_err (P := 52) (m := -1074)
  have e1 : (2 : ℚ) ^ (-((52 : ℕ) : ℤ) - 1) = 1 / 2 ^ 53 := by
    rw [one_div, ← zpow_natCast, ← zpow_neg]; rfl
  have e2 : (2 : ℚ) ^ ((-1074 : ℤ) - 1) = 1 / 2 ^ 1075 := by
    rw [one_div, ← zpow_natCast, ← zpow_neg]; rfl
  rw [e1, e2] at h
  exact h

section
variable {r : Rounding} {u η : ℚ}

theorem rnd_nonneg {x : ℚ} (h : 0 ≤ x) : 0 ≤ r.rnd x := by
  have := r.mono h
  rwa [r.zero] at this

theorem Err.val (he : Err r u η) : Val (Rounded r) (fun x => x.1) u where
  le := fun a b => Iff.rfl
  zero := rfl
  up := by
    intro a b ha hb
    have ha' : (0 : ℚ) ≤ a.1 := ha
    have hb' : (0 : ℚ) ≤ b.1 := hb
    have h := he.add a b
    rw [abs_of_nonneg (add_nonneg ha' hb')] at h
    have := (abs_le.mp h).2
    show r.rnd (a.1 + b.1) ≤ _
    linarith
  low := by
    intro a b ha hb
    have ha' : (0 : ℚ) ≤ a.1 := ha
    have hb' : (0 : ℚ) ≤ b.1 := hb
    have h := he.add a b
    rw [abs_of_nonneg (add_nonneg ha' hb')] at h
    have := (abs_le.mp h).1
    show _ ≤ r.rnd (a.1 + b.1)
    linarith
  nonneg := he.nonneg
  lt := he.lt

/-! ## The queue -/

/-- What is almost equal is close. -/
theorem eq_near (he : Err r u η) (hu : u ≤ 1 / 1000) (hη : η ≤ 1 / 1000000000000) {a b : Rounded r}
    (h : eq r a.1 b.1 = true) : |a.1 - b.1| ≤ 1 / 625000 := by
  have hu0 := he.nonneg
  have hη0 := he.small
  -- the accuracy
  have e1 := abs_le.mp (he.any Verif.eps)
  have hepsv : Verif.eps = 1 / 1000000 := rfl
  rw [abs_of_pos (by rw [hepsv]; norm_num)] at e1
  have e2 : u * Verif.eps ≤ 1 / 1000 * Verif.eps := mul_le_mul_of_nonneg_right hu (by rw [hepsv]; norm_num)
  rw [hepsv] at e1 e2
  have hE1 : 998 / 1000000000 ≤ eps r := by
    unfold eps
    rw [hepsv]
    linarith [e1.1]
  have hE2 : eps r ≤ 1002 / 1000000000 := by
    unfold eps
    rw [hepsv]
    linarith [e1.2]
  have hE0 : 0 < eps r := by linarith
  simp only [eq, decide_eq_true_eq] at h
  set d := r.rnd (a.1 - b.1) with hd
  set y := r.rnd (d / eps r) with hy
  -- the rounded quotient
  have hk : |(Approx.roundF y : ℚ)| ≤ 1 := by
    by_contra hcon
    have h2 : (2 : ℚ) ≤ |(Approx.roundF y : ℚ)| := by
      rw [← Int.cast_abs] at hcon ⊢
      have : (1 : ℤ) < |Approx.roundF y| := by exact_mod_cast not_le.mp hcon
      exact_mod_cast this
    have h3 := he.any (Approx.roundF y * eps r)
    have h4 : |(Approx.roundF y * eps r : ℚ)| - |approx r d| ≤ |approx r d - Approx.roundF y * eps r| := by
      rw [abs_sub_comm]; exact abs_sub_abs_le_abs_sub _ _
    have h5 : |(Approx.roundF y * eps r : ℚ)| = |(Approx.roundF y : ℚ)| * eps r := by
      rw [abs_mul, abs_of_pos hE0]
    rw [h5] at h3 h4
    have h6 : 2 * eps r ≤ |(Approx.roundF y : ℚ)| * eps r := mul_le_mul_of_nonneg_right h2 (le_of_lt hE0)
    have h7 : u * (|(Approx.roundF y : ℚ)| * eps r) ≤ 1 / 1000 * (|(Approx.roundF y : ℚ)| * eps r) :=
      mul_le_mul_of_nonneg_right hu (by positivity)
    have h8 : |approx r d - Approx.roundF y * eps r| ≤
        u * (|(Approx.roundF y : ℚ)| * eps r) + η := h3
    linarith
  have hy1 : |y| ≤ 3 / 2 := by
    unfold Approx.roundF at hk
    split at hk
    · rename_i h0
      have h1 := Int.lt_floor_add_one (y + 1 / 2)
      have h2 := (abs_le.mp hk).2
      rw [abs_of_nonneg h0]
      linarith
    · rename_i h0
      have h1 := Int.lt_floor_add_one (-y + 1 / 2)
      push_cast at hk
      have h2 := (abs_le.mp hk).1
      rw [abs_of_neg (not_le.mp h0)]
      linarith
  have hq : |d / eps r| ≤ 1503 / 1000 := by
    have h1 := he.any (d / eps r)
    rw [← hy] at h1
    have h2 : |d / eps r| - |y| ≤ |y - d / eps r| := by rw [abs_sub_comm]; exact abs_sub_abs_le_abs_sub _ _
    have h3 : u * |d / eps r| ≤ 1 / 1000 * |d / eps r| := mul_le_mul_of_nonneg_right hu (abs_nonneg _)
    linarith
  have hd1 : |d| ≤ 1507 / 1000000000 := by
    rw [abs_div, abs_of_pos hE0, div_le_iff₀ hE0] at hq
    linarith
  -- the difference
  have hneg : r.rnd (-b.1) = -b.1 := by rw [he.neg, b.2]
  have h1 := he.add a ⟨-b.1, hneg⟩
  simp only [← sub_eq_add_neg] at h1
  rw [← hd] at h1
  have h2 : |a.1 - b.1| - |d| ≤ |d - (a.1 - b.1)| := by rw [abs_sub_comm d]; exact abs_sub_abs_le_abs_sub _ _
  have h3 : u * |a.1 - b.1| ≤ 1 / 1000 * |a.1 - b.1| := mul_le_mul_of_nonneg_right hu (abs_nonneg _)
  linarith

theorem cnLe_nearV (he : Err r u η) (hu : u ≤ 1 / 1000) (hη : η ≤ 1 / 1000000000000) :
    BinHeap.LeNear (cnLe (cmp r)) (fun x : CN (Rounded r) => x.cost.1) (1 / 625000) := by
  have hlt : ∀ a b : Rounded r, cmp r a b = .lt → a.1 ≤ b.1 := by
    intro a b h
    unfold cmp at h
    split at h
    · cases h
    · exact le_of_lt (compare_lt_iff_lt.mp h)
  have hgt : ∀ a b : Rounded r, cmp r a b = .gt → b.1 ≤ a.1 := by
    intro a b h
    unfold cmp at h
    split at h
    · cases h
    · exact le_of_lt (compare_gt_iff_gt.mp h)
  have heq : ∀ a b : Rounded r, cmp r a b = .eq → a.1 ≤ b.1 + 1 / 625000 ∧ b.1 ≤ a.1 + 1 / 625000 := by
    intro a b h
    unfold cmp at h
    split at h
    · rename_i hab
      have := abs_le.mp (eq_near he hu hη hab)
      constructor <;> linarith [this.1, this.2]
    · have := compare_eq_iff_eq.mp h
      constructor <;> linarith
  refine ⟨by norm_num, fun a b h => ?_, fun a b h => ?_⟩
  all_goals
    simp only [cnLe, cnCmp] at h
    cases hc : cmp r a.cost b.cost with
    | lt => first | (have := hlt _ _ hc; linarith) | (rw [hc] at h; simp [Ordering.then] at h)
    | eq => have := heq _ _ hc; first | exact this.1 | exact this.2
    | gt => first | (have := hgt _ _ hc; linarith) | (rw [hc] at h; simp [Ordering.then] at h)

/-- The router's queue. -/
theorem heap_near (he : Err r u η) (hu : u ≤ 1 / 1000) (hη : η ≤ 1 / 1000000000000) :
    (heap r).NearV (fun x => x.1) (1 / 625000) := by
  have hn := cnLe_nearV he hu hη
  refine ⟨fun n q => BinHeap.Slack (fun x : CN (Rounded r) => x.cost.1) (n * (1 / 625000)) q, ?_, ?_, ?_, ?_⟩
  · intro i j a b _ ha
    simp at ha
  · intro n q h i j a b hij ha hb
    have := h i j a b hij ha hb
    push_cast
    linarith
  · intro n q x h
    have := BinHeap.push_slack hn (by positivity) (x := x) h
    push_cast
    rw [add_mul, one_mul]
    exact this
  · intro n q x q' h hp
    have := BinHeap.pop_slack hn (by positivity) h hp
    refine ⟨?_, this.2⟩
    push_cast
    convert this.1 using 1
    ring

/-! ## Weights -/

theorem zip_nonneg {a b : List ℚ} (ha : ∀ x ∈ a, 0 ≤ x) (hb : ∀ x ∈ b, 0 ≤ x) :
    ∀ p ∈ a.zip b, 0 ≤ p.1 * p.2 := fun _ hp =>
  mul_nonneg (ha _ (List.of_mem_zip hp).1) (hb _ (List.of_mem_zip hp).2)

/-- The sum of rounded products. -/
def dotFrom (r : Rounding) (s : Rounded r) (l : List (ℚ × ℚ)) : Rounded r :=
  l.foldl (fun s p => s + ⟨r.rnd (p.1 * p.2), r.idem _⟩) s

theorem dotFrom_nonneg {l : List (ℚ × ℚ)} {s : Rounded r} (hs : 0 ≤ s.1) (hl : ∀ p ∈ l, 0 ≤ p.1 * p.2) :
    0 ≤ (dotFrom r s l).1 := by
  induction l generalizing s with
  | nil => exact hs
  | cons p l ih =>
    have hp := rnd_nonneg (r := r) (hl p List.mem_cons_self)
    have h := rnd_nonneg (r := r) (add_nonneg hs hp)
    have := ih (s := s + ⟨r.rnd (p.1 * p.2), r.idem _⟩) h (fun p hp => hl p (List.mem_cons_of_mem _ hp))
    exact this

theorem dot_nonneg {a b : List ℚ} (ha : ∀ x ∈ a, 0 ≤ x) (hb : ∀ x ∈ b, 0 ≤ x) : 0 ≤ dot r a b :=
  dotFrom_nonneg (s := 0) (le_refl _) (zip_nonneg ha hb)

theorem dotFrom_le (he : Err r u η) {l : List (ℚ × ℚ)} {s : Rounded r} (hs : 0 ≤ s.1)
    (hl : ∀ p ∈ l, 0 ≤ p.1 * p.2) : (dotFrom r s l).1 ≤
      (1 + u) ^ l.length * s.1 + (1 + u) ^ (l.length + 1) * ((l.map fun p => p.1 * p.2).sum + l.length * η) := by
  have hu := he.nonneg
  have hη := he.small
  induction l generalizing s with
  | nil => simp [dotFrom]
  | cons p l ih =>
    have hp := hl p List.mem_cons_self
    have hx := rnd_nonneg (r := r) hp
    have h1 := ih (s := s + ⟨r.rnd (p.1 * p.2), r.idem _⟩) (rnd_nonneg (add_nonneg hs hx))
      (fun p hp => hl p (List.mem_cons_of_mem _ hp))
    have h2 := he.val.up s ⟨r.rnd (p.1 * p.2), r.idem _⟩ hs hx
    simp only at h2
    have h3 := (abs_le.mp (he.any (p.1 * p.2))).2
    rw [abs_of_nonneg hp] at h3
    have h4 : (s + ⟨r.rnd (p.1 * p.2), r.idem _⟩ : Rounded r).1 ≤ (1 + u) * (s.1 + (1 + u) * (p.1 * p.2 + η)) := by
      refine le_trans h2 (mul_le_mul_of_nonneg_left ?_ (by linarith))
      have := mul_nonneg hu hη
      linarith
    have h5 := mul_le_mul_of_nonneg_left h4 (pow_nonneg (by linarith : (0 : ℚ) ≤ 1 + u) l.length)
    show (dotFrom r (s + ⟨r.rnd (p.1 * p.2), r.idem _⟩) l).1 ≤ _
    refine le_trans h1 ?_
    simp only [List.map_cons, List.sum_cons, List.length_cons]
    have hS : 0 ≤ (l.map fun p => p.1 * p.2).sum + l.length * η := by
      refine add_nonneg (List.sum_nonneg ?_) (by positivity)
      simp only [List.mem_map]
      rintro _ ⟨q, hq, rfl⟩
      exact hl q (List.mem_cons_of_mem _ hq)
    have h6 : (1 + u) ^ (l.length + 1) * ((l.map fun p => p.1 * p.2).sum + l.length * η) ≤
        (1 + u) ^ (l.length + 2) * ((l.map fun p => p.1 * p.2).sum + l.length * η) :=
      mul_le_mul_of_nonneg_right (pow_le_pow_right₀ (by linarith) (by omega)) hS
    push_cast
    have e1 : (1 + u) ^ l.length * ((1 + u) * (s.1 + (1 + u) * (p.1 * p.2 + η))) =
        (1 + u) ^ (l.length + 1) * s.1 + (1 + u) ^ (l.length + 2) * (p.1 * p.2 + η) := by ring
    have e2 : (1 + u) ^ (l.length + 1 + 1) * (p.1 * p.2 + (l.map fun p => p.1 * p.2).sum + (l.length + 1) * η) =
        (1 + u) ^ (l.length + 2) * (p.1 * p.2 + η) +
          (1 + u) ^ (l.length + 2) * ((l.map fun p => p.1 * p.2).sum + l.length * η) := by ring
    rw [e2]
    linarith

theorem le_dotFrom (he : Err r u η) {l : List (ℚ × ℚ)} {s : Rounded r} (hs : 0 ≤ s.1)
    (hl : ∀ p ∈ l, 0 ≤ p.1 * p.2) : (1 - u) ^ l.length * s.1 +
      (1 - u) ^ (l.length + 1) * (l.map fun p => p.1 * p.2).sum - l.length * η ≤ (dotFrom r s l).1 := by
  have hu := he.nonneg
  have hu1 := he.lt
  have hη := he.small
  induction l generalizing s with
  | nil => simp [dotFrom]
  | cons p l ih =>
    have hp := hl p List.mem_cons_self
    have hx := rnd_nonneg (r := r) hp
    have h1 := ih (s := s + ⟨r.rnd (p.1 * p.2), r.idem _⟩) (rnd_nonneg (add_nonneg hs hx))
      (fun p hp => hl p (List.mem_cons_of_mem _ hp))
    have h2 := he.val.low s ⟨r.rnd (p.1 * p.2), r.idem _⟩ hs hx
    simp only at h2
    have h3 := (abs_le.mp (he.any (p.1 * p.2))).1
    rw [abs_of_nonneg hp] at h3
    have h4 : (1 - u) * (s.1 + (1 - u) * (p.1 * p.2)) - η ≤
        (s + ⟨r.rnd (p.1 * p.2), r.idem _⟩ : Rounded r).1 := by
      refine le_trans ?_ h2
      have h5 : (1 - u) * (s.1 + ((1 - u) * (p.1 * p.2) - η)) ≤ (1 - u) * (s.1 + r.rnd (p.1 * p.2)) :=
        mul_le_mul_of_nonneg_left (by linarith) (by linarith)
      have := mul_nonneg hu hη
      linarith
    have hpow : (1 - u) ^ l.length ≤ 1 := pow_le_one₀ (by linarith) (by linarith)
    have h5 := mul_le_mul_of_nonneg_left h4 (pow_nonneg (by linarith : (0 : ℚ) ≤ 1 - u) l.length)
    have h7 : (1 - u) ^ l.length * η ≤ 1 * η := mul_le_mul_of_nonneg_right hpow hη
    show _ ≤ (dotFrom r (s + ⟨r.rnd (p.1 * p.2), r.idem _⟩) l).1
    refine le_trans ?_ h1
    simp only [List.map_cons, List.sum_cons, List.length_cons]
    have hS : 0 ≤ (l.map fun p => p.1 * p.2).sum := by
      refine List.sum_nonneg ?_
      simp only [List.mem_map]
      rintro _ ⟨q, hq, rfl⟩
      exact hl q (List.mem_cons_of_mem _ hq)
    have h6 : (1 - u) ^ (l.length + 2) * (l.map fun p => p.1 * p.2).sum ≤
        (1 - u) ^ (l.length + 1) * (l.map fun p => p.1 * p.2).sum :=
      mul_le_mul_of_nonneg_right (pow_le_pow_of_le_one (by linarith) (by linarith) (by omega)) hS
    push_cast
    have e1 : (1 - u) ^ l.length * ((1 - u) * (s.1 + (1 - u) * (p.1 * p.2)) - η) =
        (1 - u) ^ (l.length + 1) * s.1 + (1 - u) ^ (l.length + 2) * (p.1 * p.2) - (1 - u) ^ l.length * η := by ring
    have e2 : (1 - u) ^ (l.length + 1 + 1) * (p.1 * p.2 + (l.map fun p => p.1 * p.2).sum) =
        (1 - u) ^ (l.length + 2) * (p.1 * p.2) + (1 - u) ^ (l.length + 2) * (l.map fun p => p.1 * p.2).sum := by
      ring
    rw [e2]
    linarith

/-- The error of a dot product with `d` weights. -/
theorem dot_bounds (he : Err r u η) {a b : List ℚ} (ha : ∀ x ∈ a, 0 ≤ x) (hb : ∀ x ∈ b, 0 ≤ x) :
    (dot r a b).1 ≤ (1 + u) ^ (a.length + 1) * ((List.zipWith (· * ·) a b).sum + a.length * η) ∧
    (1 - u) ^ (a.length + 1) * (List.zipWith (· * ·) a b).sum - a.length * η ≤ (dot r a b).1 := by
  have hu := he.nonneg
  have hu1 := he.lt
  have hη := he.small
  have hl := zip_nonneg ha hb
  have h1 := dotFrom_le he (s := 0) (le_refl _) hl
  have h2 := le_dotFrom he (s := 0) (le_refl _) hl
  have e : ((a.zip b).map fun p => p.1 * p.2) = List.zipWith (· * ·) a b := by
    rw [List.zip, List.map_zipWith]
  have hz : (0 : Rounded r).1 = 0 := rfl
  rw [e, hz, mul_zero, zero_add] at h1 h2
  have hS : 0 ≤ (List.zipWith (· * ·) a b).sum := by
    rw [← e]
    refine List.sum_nonneg ?_
    simp only [List.mem_map]
    rintro _ ⟨q, hq, rfl⟩
    exact hl q hq
  have hlen : (a.zip b).length ≤ a.length := by rw [List.length_zip]; omega
  have hlen' : ((a.zip b).length : ℚ) ≤ a.length := by exact_mod_cast hlen
  have hη' := mul_le_mul_of_nonneg_right hlen' hη
  constructor
  · refine le_trans h1 ?_
    refine mul_le_mul (pow_le_pow_right₀ (by linarith) (by omega)) (by linarith) ?_ (pow_nonneg (by linarith) _)
    have : (0 : ℚ) ≤ (a.zip b).length * η := by positivity
    linarith
  · refine le_trans ?_ h2
    have : (1 - u) ^ (a.length + 1) * (List.zipWith (· * ·) a b).sum ≤
        (1 - u) ^ ((a.zip b).length + 1) * (List.zipWith (· * ·) a b).sum :=
      mul_le_mul_of_nonneg_right (pow_le_pow_of_le_one (by linarith) (by linarith) (by omega)) hS
    linarith

end

/-! ## Costs of routes -/

section
variable {K : Type} [LinearOrder K] [Zero K] [Add K] {val : K → ℚ} {u : ℚ}

/-- The exact sum of the weights. -/
def exact (val : K → ℚ) (l : List (Arc K)) : ℚ := (l.map fun t => val t.2.2).sum

theorem exact_nonneg (hv : Val K val u) {l : List (Arc K)} (hl : ∀ t ∈ l, 0 ≤ t.2.2) : 0 ≤ exact val l := by
  refine List.sum_nonneg ?_
  simp only [List.mem_map]
  rintro _ ⟨t, ht, rfl⟩
  exact hv.nn (hl t ht)

theorem costFrom_bounds (hv : Val K val u) (hk : AddOk K) {l : List (Arc K)} (hl : ∀ t ∈ l, 0 ≤ t.2.2) {x : K}
    (hx : 0 ≤ x) : val (costFrom x l) ≤ (1 + u) ^ l.length * (val x + exact val l) ∧
      (1 - u) ^ l.length * (val x + exact val l) ≤ val (costFrom x l) := by
  have hu := hv.nonneg
  have hu1 := hv.lt
  induction l generalizing x with
  | nil => simp [costFrom, exact]
  | cons t l ih =>
    have ht := hl t List.mem_cons_self
    have hl' : ∀ t ∈ l, 0 ≤ t.2.2 := fun t h => hl t (List.mem_cons_of_mem _ h)
    have hxt : (0 : K) ≤ x + t.2.2 := le_trans hx (hk.infl _ _ ht)
    obtain ⟨h1, h2⟩ := ih hl' hxt
    have h3 := hv.up x t.2.2 hx ht
    have h4 := hv.low x t.2.2 hx ht
    have h0 := exact_nonneg hv hl'
    have hs : exact val (t :: l) = val t.2.2 + exact val l := by simp [exact]
    rw [hs, List.length_cons, pow_succ, pow_succ, mul_assoc, mul_assoc]
    have hu0 := mul_nonneg hu h0
    constructor
    · refine le_trans h1 (mul_le_mul_of_nonneg_left ?_ (pow_nonneg (by linarith) _))
      linarith
    · refine le_trans (mul_le_mul_of_nonneg_left ?_ (pow_nonneg (by linarith) _)) h2
      linarith

theorem backCost_bounds (hv : Val K val u) (hk : AddOk K) {l : List (Arc K)} (hl : ∀ t ∈ l, 0 ≤ t.2.2) :
    0 ≤ backCost l ∧ val (backCost l) ≤ (1 + u) ^ l.length * exact val l := by
  have hu := hv.nonneg
  induction l with
  | nil => exact ⟨le_refl _, by simp [backCost, exact, hv.zero]⟩
  | cons t l ih =>
    have ht := hl t List.mem_cons_self
    have hl' : ∀ t ∈ l, 0 ≤ t.2.2 := fun t h => hl t (List.mem_cons_of_mem _ h)
    obtain ⟨h1, h2⟩ := ih hl'
    refine ⟨le_trans h1 (hk.infl _ _ ht), ?_⟩
    have h3 := hv.up (backCost l) t.2.2 h1 ht
    have hs : exact val (t :: l) = val t.2.2 + exact val l := by simp [exact]
    rw [hs, List.length_cons, pow_succ']
    have h4 : val t.2.2 ≤ (1 + u) ^ l.length * val t.2.2 :=
      le_mul_of_one_le_left (hv.nn ht) (one_le_pow₀ (by linarith))
    rw [mul_assoc]
    refine le_trans h3 (mul_le_mul_of_nonneg_left ?_ (by linarith))
    linarith

theorem split_bounds (hv : Val K val u) (hk : AddOk K) {l l1 l2 : List (Arc K)} (hl : ∀ t ∈ l, 0 ≤ t.2.2)
    (h : l = l1 ++ l2) : val (costFrom 0 l1) + val (backCost l2) ≤ (1 + u) ^ l.length * exact val l := by
  subst h
  have hu := hv.nonneg
  have hl1 : ∀ t ∈ l1, 0 ≤ t.2.2 := fun t h => hl t (List.mem_append_left _ h)
  have hl2 : ∀ t ∈ l2, 0 ≤ t.2.2 := fun t h => hl t (List.mem_append_right _ h)
  have h1 := (costFrom_bounds hv hk hl1 (x := 0) (le_refl _)).1
  have h2 := (backCost_bounds hv hk hl2).2
  rw [hv.zero, zero_add] at h1
  have hs : exact val (l1 ++ l2) = exact val l1 + exact val l2 := by simp [exact]
  rw [hs, mul_add]
  have n1 := exact_nonneg hv hl1
  have n2 := exact_nonneg hv hl2
  have p1 : (1 + u) ^ l1.length * exact val l1 ≤ (1 + u) ^ (l1 ++ l2).length * exact val l1 :=
    mul_le_mul_of_nonneg_right (pow_le_pow_right₀ (by linarith) (by rw [List.length_append]; omega)) n1
  have p2 : (1 + u) ^ l2.length * exact val l2 ≤ (1 + u) ^ (l1 ++ l2).length * exact val l2 :=
    mul_le_mul_of_nonneg_right (pow_le_pow_right₀ (by linarith) (by rw [List.length_append]; omega)) n2
  linarith

end

section
variable {r : Rounding} {u η : ℚ} {g : Graph} {al : List ℚ} {isCh : Bool}

theorem mirror (hwf : g.WellFormed) {h : Heap (Rounded r)} {wt : List ℚ → Rounded r} {src dst : Nat} :
    Mirror (cfg h g wt false src dst) := by
  intro u v e w
  simp only [cfg, mem_outArcs hwf, Dir.opp]
  constructor
  · rintro ⟨h1, h2, h3, _⟩; exact ⟨h2, h1, h3, by intro h; cases h⟩
  · rintro ⟨h1, h2, h3, _⟩; exact ⟨h2, h1, h3, by intro h; cases h⟩

/-- The weights of a route in the graph. -/
theorem exact_bounds (he : Err r u η) (hwf : g.WellFormed) (hm : NonnegMetrics g) (ha : ∀ x ∈ al, 0 ≤ x) {d : Dir}
    {v w : Nat} {ts : List (Arc (Rounded r))} (hr : IsRt (outArcs g (dot r al) isCh d) v ts w) :
    (∀ t ∈ ts, 0 ≤ t.2.2) ∧
    exact (fun x => x.1) ts ≤
      (1 + u) ^ (al.length + 1) * (routeCost g al (ts.map (·.1)) + ts.length * (al.length * η)) ∧
    (1 - u) ^ (al.length + 1) * routeCost g al (ts.map (·.1)) - ts.length * (al.length * η) ≤
      exact (fun x => x.1) ts := by
  induction ts generalizing v with
  | nil => simp [exact, routeCost]
  | cons t ts ih =>
    obtain ⟨_, _, ⟨m, hmm, hw⟩, _⟩ := (mem_outArcs hwf).mp hr.1
    obtain ⟨h1, h2, h3⟩ := ih hr.2
    have hmn := hm m (List.mem_of_getElem? hmm)
    have h4 := dot_bounds he ha hmn
    have hs : exact (fun x : Rounded r => x.1) (t :: ts) = (dot r al m).1 + exact (fun x => x.1) ts := by
      simp [exact, hw]
    have hc : routeCost g al ((t :: ts).map (·.1)) =
        (List.zipWith (· * ·) al m).sum + routeCost g al (ts.map (·.1)) := by
      simp [routeCost, hmm]
    refine ⟨?_, ?_, ?_⟩
    · intro t' ht'
      rcases List.mem_cons.mp ht' with rfl | h
      · rw [hw]; exact dot_nonneg ha hmn
      · exact h1 t' h
    · rw [hs, hc, List.length_cons]
      push_cast
      have e : (1 + u) ^ (al.length + 1) * ((List.zipWith (· * ·) al m).sum + routeCost g al (ts.map (·.1)) +
          (ts.length + 1) * (al.length * η)) =
          (1 + u) ^ (al.length + 1) * ((List.zipWith (· * ·) al m).sum + al.length * η) +
          (1 + u) ^ (al.length + 1) * (routeCost g al (ts.map (·.1)) + ts.length * (al.length * η)) := by ring
      rw [e]
      linarith [h4.1]
    · rw [hs, hc, List.length_cons]
      push_cast
      linarith [h4.2]

end
end Verif.Fp
