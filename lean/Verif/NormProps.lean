import Verif.Norm

/-!
# C104: colours of workloads
-/

namespace Verif.Norm

variable {base vmin c vmax : ℝ}

theorem norm_plain (hb : 1 < base) (h : vmin < vmax) (x : ℝ) :
    norm base vmin none vmax x = some (Real.log (interp2 vmin 1 vmax base x) / Real.log base) := by
  have : checked vmin none vmax = some none := by simp [checked, not_lt.mpr h.le]
  simp [norm, this, hb]

theorem norm_centre (hb : 1 < base) (h1 : vmin < c) (h2 : c < vmax) (x : ℝ) :
    norm base vmin (some c) vmax x = some (logged base (2 * interp3 vmin (-1) c 0 vmax 1 x) / 2 + 1 / 2) := by
  have : checked vmin (some c) vmax = some (some c) := by
    simp [checked, not_lt.mpr (h1.trans h2).le, not_lt.mpr h1.le, not_lt.mpr h2.le, h1, h2]
  simp [norm, this, hb]

theorem line_lt {x0 y0 x1 y1 x x' : ℝ} (h : x0 < x1) (hy : y0 < y1) (hx : x < x') :
    line x0 y0 x1 y1 x < line x0 y0 x1 y1 x' := by
  unfold line
  have h1 : 0 < x1 - x0 := sub_pos.mpr h
  have h2 : 0 < y1 - y0 := sub_pos.mpr hy
  have h3 : (x - x0) / (x1 - x0) < (x' - x0) / (x1 - x0) := (div_lt_div_iff_of_pos_right h1).mpr (by linarith)
  have := mul_lt_mul_of_pos_right h3 h2
  linarith

theorem line_left {x0 y0 x1 y1 : ℝ} : line x0 y0 x1 y1 x0 = y0 := by simp [line]

theorem line_right {x0 y0 x1 y1 : ℝ} (h : x0 < x1) : line x0 y0 x1 y1 x1 = y1 := by
  have : x1 - x0 ≠ 0 := (sub_pos.mpr h).ne'
  simp [line, div_self this]

/-- On its range, the first interpolation is a line. -/
theorem interp2_eq {x0 y0 x1 y1 x : ℝ} (h : x0 < x1) (h0 : x0 ≤ x) (h1 : x ≤ x1) :
    interp2 x0 y0 x1 y1 x = line x0 y0 x1 y1 x := by
  unfold interp2
  split
  · rename_i h2
    rw [le_antisymm h2 h0, line_left]
  · split
    · rename_i h2
      rw [le_antisymm h1 h2, line_right h]
    · rfl

theorem interp2_mem {x0 y0 x1 y1 : ℝ} (h : x0 < x1) (hy : y0 < y1) (x : ℝ) :
    y0 ≤ interp2 x0 y0 x1 y1 x ∧ interp2 x0 y0 x1 y1 x ≤ y1 := by
  unfold interp2
  split
  · exact ⟨le_rfl, hy.le⟩
  · rename_i h0
    split
    · exact ⟨hy.le, le_rfl⟩
    · rename_i h1
      push Not at h0 h1
      have a := line_lt h hy h0
      have b := line_lt h hy h1
      rw [line_left] at a
      rw [line_right h] at b
      exact ⟨a.le, b.le⟩

theorem interp3_low {x0 y0 x1 y1 x2 y2 x : ℝ} (h0 : x0 ≤ x) (h1 : x ≤ x1) :
    interp3 x0 y0 x1 y1 x2 y2 x = line x0 y0 x1 y1 x := by
  unfold interp3
  split
  · rename_i h2
    rw [le_antisymm h2 h0, line_left]
  · rfl

theorem interp3_high {x0 y0 x1 y1 x2 y2 x : ℝ} (h : x0 < x1) (h' : x1 < x2) (h0 : x1 ≤ x) (h1 : x ≤ x2) :
    interp3 x0 y0 x1 y1 x2 y2 x = line x1 y1 x2 y2 x := by
  unfold interp3
  rw [if_neg (not_le.mpr (lt_of_lt_of_le h h0))]
  split
  · rename_i h2
    rw [le_antisymm h2 h0, line_right h, line_left]
  · split
    · rename_i h2
      rw [le_antisymm h1 h2, line_right h']
    · rfl

theorem interp3_lt {x0 y0 x1 y1 x2 y2 x x' : ℝ} (h : x0 < x1) (h' : x1 < x2) (hy : y0 < y1) (hy' : y1 < y2)
    (h0 : x0 ≤ x) (hx : x < x') (h1 : x' ≤ x2) : interp3 x0 y0 x1 y1 x2 y2 x < interp3 x0 y0 x1 y1 x2 y2 x' := by
  rcases le_total x' x1 with a | a
  · rw [interp3_low h0 (by linarith), interp3_low (by linarith) a]
    exact line_lt h hy hx
  · rcases le_total x1 x with b | b
    · rw [interp3_high h h' b (by linarith), interp3_high h h' a h1]
      exact line_lt h' hy' hx
    · rw [interp3_low h0 b, interp3_high h h' a h1]
      rcases eq_or_lt_of_le b with rfl | b
      · have := line_lt h' hy' hx
        rw [line_left] at this
        rwa [line_right h]
      · have e1 := line_lt h hy b
        rw [line_right h] at e1
        rcases eq_or_lt_of_le a with rfl | a
        · rwa [line_left]
        · have e2 := line_lt h' hy' a
          rw [line_left] at e2
          exact e1.trans e2

theorem log_pos' (hb : 1 < base) : 0 < Real.log base := Real.log_pos hb

theorem logged_zero : logged base 0 = 0 := by simp [logged]

theorem logged_pos (hb : 1 < base) {v : ℝ} (h : 0 < v) : 0 < logged base v := by
  rw [logged, if_pos h]
  have : 0 < (base - 1) * v := mul_pos (by linarith) h
  exact div_pos (Real.log_pos (by linarith)) (log_pos' hb)

theorem logged_neg {v : ℝ} : logged base (-v) = -logged base v := by
  unfold logged
  rcases lt_trichotomy v 0 with h | rfl | h
  · rw [if_pos (by linarith), if_neg (by linarith), if_pos h, neg_div, neg_neg, mul_neg, neg_mul]
  · simp
  · rw [if_neg (by linarith), if_pos (by linarith), if_pos h, neg_div, neg_mul_neg]

theorem logged_lt_pos (hb : 1 < base) {v v' : ℝ} (h0 : 0 ≤ v) (h : v < v') : logged base v < logged base v' := by
  rcases eq_or_lt_of_le h0 with rfl | h0
  · rw [logged_zero]
    exact logged_pos hb h
  · rw [logged, if_pos h0, logged, if_pos (h0.trans h)]
    refine (div_lt_div_iff_of_pos_right (log_pos' hb)).mpr (Real.log_lt_log ?_ ?_)
    · have : 0 < (base - 1) * v := mul_pos (by linarith) h0
      linarith
    · have := mul_lt_mul_of_pos_left h (show 0 < base - 1 by linarith)
      linarith

theorem logged_lt (hb : 1 < base) {v v' : ℝ} (h : v < v') : logged base v < logged base v' := by
  rcases le_total 0 v with h0 | h0
  · exact logged_lt_pos hb h0 h
  · rcases le_total 0 v' with h1 | h1
    · rcases eq_or_lt_of_le h1 with rfl | h1
      · have := logged_pos hb (v := -v) (by linarith)
        rw [logged_neg] at this
        rw [logged_zero]
        linarith
      · rcases eq_or_lt_of_le h0 with rfl | h0
        · exact logged_lt_pos hb le_rfl h
        · have e1 := logged_pos hb (v := -v) (by linarith)
          rw [logged_neg] at e1
          have e2 := logged_pos hb h1
          linarith
    · have := logged_lt_pos hb (v := -v') (v' := -v) (by linarith) (by linarith)
      rw [logged_neg, logged_neg] at this
      linarith

theorem logged_one (hb : 1 < base) : logged base 1 = 1 := by
  rw [logged, if_pos one_pos]
  simp [div_self (log_pos' hb).ne']

theorem logged_le_one (hb : 1 < base) {v : ℝ} : logged base v ≤ 1 ↔ v ≤ 1 := by
  constructor
  · intro h
    by_contra hv
    push Not at hv
    have := logged_lt hb hv
    rw [logged_one hb] at this
    linarith
  · intro h
    rcases eq_or_lt_of_le h with rfl | h
    · exact (logged_one hb).le
    · have := logged_lt hb h
      rw [logged_one hb] at this
      exact this.le

theorem neg_one_le_logged (hb : 1 < base) {v : ℝ} : -1 ≤ logged base v ↔ -1 ≤ v := by
  have := logged_le_one hb (v := -v)
  rw [logged_neg] at this
  constructor
  · intro h
    linarith [this.mp (by linarith)]
  · intro h
    linarith [this.mpr (by linarith)]

/-- C104: without a centre, every value is mapped to a colour between 0 and 1, the limits are mapped to 0 and 1, and
larger values have larger colours. -/
theorem C104_without_centre (hb : 1 < base) (h : vmin < vmax) :
    (∀ x, ∃ y, norm base vmin none vmax x = some y ∧ 0 ≤ y ∧ y ≤ 1) ∧
    norm base vmin none vmax vmin = some 0 ∧ norm base vmin none vmax vmax = some 1 ∧
    ∀ x x' y y', vmin ≤ x → x < x' → x' ≤ vmax → norm base vmin none vmax x = some y →
      norm base vmin none vmax x' = some y' → y < y' := by
  have hl := log_pos' hb
  refine ⟨?_, ?_, ?_, ?_⟩
  · intro x
    obtain ⟨h1, h2⟩ := interp2_mem h hb x
    refine ⟨_, norm_plain hb h x, div_nonneg (Real.log_nonneg h1) hl.le, ?_⟩
    rw [div_le_one hl]
    exact Real.log_le_log (by linarith) h2
  · rw [norm_plain hb h, interp2_eq h le_rfl h.le, line_left]
    simp
  · rw [norm_plain hb h, interp2_eq h h.le le_rfl, line_right h, div_self hl.ne']
  · intro x x' y y' h0 hx h1 hy hy'
    rw [norm_plain hb h, Option.some.injEq] at hy hy'
    rw [← hy, ← hy', interp2_eq h h0 (by linarith), interp2_eq h (by linarith) h1]
    refine (div_lt_div_iff_of_pos_right hl).mpr (Real.log_lt_log ?_ (line_lt h hb hx))
    have := (interp2_mem h hb x).1
    rw [interp2_eq h h0 (by linarith)] at this
    linarith

/-- C104: with a centre, the centre is mapped to 0.5 and larger values have larger colours. -/
theorem C104_with_centre (hb : 1 < base) (h1 : vmin < c) (h2 : c < vmax) :
    norm base vmin (some c) vmax c = some (1 / 2) ∧
    ∀ x x' y y', vmin ≤ x → x < x' → x' ≤ vmax → norm base vmin (some c) vmax x = some y →
      norm base vmin (some c) vmax x' = some y' → y < y' := by
  constructor
  · rw [norm_centre hb h1 h2, interp3_low h1.le le_rfl, line_right h1]
    simp [logged_zero]
  · intro x x' y y' h0 hx h3 hy hy'
    rw [norm_centre hb h1 h2, Option.some.injEq] at hy hy'
    have := logged_lt hb (show 2 * interp3 vmin (-1) c 0 vmax 1 x < 2 * interp3 vmin (-1) c 0 vmax 1 x' by
      have := interp3_lt (y0 := -1) (y1 := 0) (y2 := 1) h1 h2 (by norm_num) (by norm_num) h0 hx h3
      linarith)
    rw [← hy, ← hy']
    linarith

/-- C104: a centre at one of the limits doesn't matter. -/
theorem C104_centre_at_limit (h : vmin ≤ vmax) (hc : c = vmin ∨ c = vmax) (x : ℝ) :
    norm base vmin (some c) vmax x = norm base vmin none vmax x := by
  have e1 : checked vmin (some c) vmax = some none := by
    rcases hc with rfl | rfl <;> simp [checked, not_lt.mpr h]
  have e2 : checked vmin none vmax = some none := by simp [checked, not_lt.mpr h]
  simp [norm, e1, e2]

/-- C104: errors are raised for unordered limits, for a centre outside of them and for a base up to 1, but for nothing
else. -/
theorem C104_errors {vcenter : Option ℝ} (x : ℝ) : norm base vmin vcenter vmax x = none ↔
    vmax < vmin ∨ (∃ c, vcenter = some c ∧ (c < vmin ∨ vmax < c)) ∨ base ≤ 1 := by
  unfold norm checked
  by_cases h1 : vmax < vmin
  · simp [h1]
  · cases vcenter with
    | none => by_cases hb : base > 1 <;> simp [h1, hb, not_le.mpr, not_lt.mp]
    | some c =>
      by_cases h2 : c < vmin
      · simp [h1, h2]
      · by_cases h3 : vmax < c
        · simp [h1, h2, h3]
        · by_cases h4 : vmax ≤ c ∨ c ≤ vmin <;> by_cases hb : base > 1 <;>
            simp [h1, h2, h3, h4, hb, not_le.mpr, not_lt.mp]

/-- C104, instead of all values: exactly the values in the middle half are mapped to colours between 0 and 1, where
each side of the centre is halved on its own. -/
theorem C104_range_partial (hb : 1 < base) (h1 : vmin < c) (h2 : c < vmax) {x : ℝ} (h0 : vmin ≤ x) (h3 : x ≤ vmax) :
    ∃ y, norm base vmin (some c) vmax x = some y ∧
      (0 ≤ y ∧ y ≤ 1 ↔ (vmin + c) / 2 ≤ x ∧ x ≤ (c + vmax) / 2) := by
  refine ⟨_, norm_centre hb h1 h2 x, ?_⟩
  have e1 : (0 ≤ logged base (2 * interp3 vmin (-1) c 0 vmax 1 x) / 2 + 1 / 2 ∧
      logged base (2 * interp3 vmin (-1) c 0 vmax 1 x) / 2 + 1 / 2 ≤ 1) ↔
      (-1 ≤ 2 * interp3 vmin (-1) c 0 vmax 1 x ∧ 2 * interp3 vmin (-1) c 0 vmax 1 x ≤ 1) := by
    rw [← neg_one_le_logged hb, ← logged_le_one hb (v := 2 * interp3 vmin (-1) c 0 vmax 1 x)]
    constructor <;> rintro ⟨a, b⟩ <;> constructor <;> linarith
  rw [e1]
  rcases le_total x c with hx | hx
  · rw [interp3_low h0 hx, line]
    have hd : 0 < c - vmin := sub_pos.mpr h1
    have e2 : (x - vmin) / (c - vmin) ≤ 1 := by rw [div_le_one hd]; linarith
    have e3 : -1 ≤ 2 * (-1 + (x - vmin) / (c - vmin) * (0 - -1)) ↔ 1 / 2 ≤ (x - vmin) / (c - vmin) := by
      constructor <;> intro h <;> linarith
    rw [e3, le_div_iff₀ hd]
    constructor
    · rintro ⟨a, -⟩
      exact ⟨by linarith, by linarith⟩
    · rintro ⟨a, -⟩
      exact ⟨by linarith, by linarith⟩
  · rw [interp3_high h1 h2 hx h3, line]
    have hd : 0 < vmax - c := sub_pos.mpr h2
    have e2 : 0 ≤ (x - c) / (vmax - c) := div_nonneg (by linarith) hd.le
    have e3 : 2 * (0 + (x - c) / (vmax - c) * (1 - 0)) ≤ 1 ↔ (x - c) / (vmax - c) ≤ 1 / 2 := by
      constructor <;> intro h <;> linarith
    rw [e3, div_le_iff₀ hd]
    constructor
    · rintro ⟨-, a⟩
      exact ⟨by linarith, by linarith⟩
    · rintro ⟨-, a⟩
      exact ⟨by linarith, by linarith⟩

/-- C104 is false with a centre: whatever base and limits are, the largest value's colour is larger than 1 and the
smallest value's colour is negative. -/
theorem C104_false_range (hb : 1 < base) (h1 : vmin < c) (h2 : c < vmax) :
    (∃ y, norm base vmin (some c) vmax vmax = some y ∧ 1 < y) ∧
    ∃ y, norm base vmin (some c) vmax vmin = some y ∧ y < 0 := by
  have e1 : interp3 vmin (-1) c 0 vmax 1 vmax = 1 := by
    rw [interp3_high h1 h2 h2.le le_rfl, line_right h2]
  have e2 : interp3 vmin (-1) c 0 vmax 1 vmin = -1 := by
    rw [interp3_low le_rfl h1.le, line_left]
  refine ⟨⟨_, norm_centre hb h1 h2 _, ?_⟩, ⟨_, norm_centre hb h1 h2 _, ?_⟩⟩
  · rw [e1]
    have := logged_lt hb (v := 1) (v' := 2 * 1) (by norm_num)
    rw [logged_one hb] at this
    generalize logged base (2 * 1) = l at *
    linarith
  · rw [e2]
    have := logged_lt hb (v := 2 * -1) (v' := -1) (by norm_num)
    rw [logged_neg (v := 1), logged_one hb] at this
    generalize logged base (2 * -1) = l at *
    linarith

/-- For workloads up to 8 with base 3, and for differences from -4 to 2 with base 2. -/
example : (∃ y, norm 3 0 none 8 5 = some y ∧ 0 ≤ y ∧ y ≤ 1) ∧ norm 3 0 none 8 8 = some 1 ∧
    norm 2 (-4) (some 0) 2 0 = some (1 / 2) ∧ (∃ y, norm 2 (-4) (some 0) 2 2 = some y ∧ 1 < y) :=
  ⟨(C104_without_centre (by norm_num) (by norm_num)).1 5, (C104_without_centre (by norm_num) (by norm_num)).2.2.1,
    (C104_with_centre (by norm_num) (by norm_num) (by norm_num)).1,
    (C104_false_range (by norm_num) (by norm_num) (by norm_num)).1⟩

example : ∃ y, norm 2 (-4) (some 0) 2 (-2) = some y ∧ 0 ≤ y ∧ y ≤ 1 := by
  obtain ⟨y, h1, h2⟩ := C104_range_partial (base := 2) (vmin := -4) (c := 0) (vmax := 2) (x := -2) (by norm_num)
    (by norm_num) (by norm_num) (by norm_num) (by norm_num)
  exact ⟨y, h1, h2.mpr ⟨by norm_num, by norm_num⟩⟩

example : norm 2 0 (some 0) 2 1 = norm 2 0 none 2 1 := C104_centre_at_limit (by norm_num) (.inl rfl) 1

example : norm 2 (1 : ℝ) (some 0) 2 1 = none := (C104_errors 1).mpr (.inr (.inl ⟨0, rfl, .inl (by norm_num)⟩))

end Verif.Norm
