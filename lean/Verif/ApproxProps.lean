import Verif.Approx
import Mathlib.Tactic.Linarith
import Mathlib.Tactic.FieldSimp
import Mathlib.Tactic.NormNum

/-!
# Properties C24, C25, C26: approximate comparison
-/

namespace Verif.Approx

/-! ## Helper lemmas -/

theorem roundF_abs_le_one (x : ℚ) : |(roundF x : ℚ)| ≤ 1 ↔ |x| < 3 / 2 := by
  unfold roundF
  split
  · rename_i h
    have hf : (0 : ℤ) ≤ ⌊x + 1 / 2⌋ := Int.floor_nonneg.mpr (by linarith)
    rw [abs_of_nonneg (by exact_mod_cast hf), abs_of_nonneg h]
    have : ((⌊x + 1 / 2⌋ : ℤ) : ℚ) ≤ 1 ↔ ⌊x + 1 / 2⌋ < 2 := by
      constructor
      · intro h; have : ⌊x + 1 / 2⌋ ≤ 1 := by exact_mod_cast h
        omega
      · intro h; have : ⌊x + 1 / 2⌋ ≤ 1 := by omega
        exact_mod_cast this
    rw [this, Int.floor_lt]
    push_cast
    constructor <;> intro h <;> linarith
  · rename_i h
    have h : x < 0 := not_le.mp h
    have hf : (0 : ℤ) ≤ ⌊-x + 1 / 2⌋ := Int.floor_nonneg.mpr (by linarith)
    rw [Int.cast_neg, abs_neg, abs_of_nonneg (by exact_mod_cast hf), abs_of_neg h]
    have : ((⌊-x + 1 / 2⌋ : ℤ) : ℚ) ≤ 1 ↔ ⌊-x + 1 / 2⌋ < 2 := by
      constructor
      · intro h; have : ⌊-x + 1 / 2⌋ ≤ 1 := by exact_mod_cast h
        omega
      · intro h; have : ⌊-x + 1 / 2⌋ ≤ 1 := by omega
        exact_mod_cast this
    rw [this, Int.floor_lt]
    push_cast
    constructor <;> intro h <;> linarith

theorem eps_pos : (0 : ℚ) < eps := by norm_num [eps]

/-! ## C24 -/

/-- C24: two values are approximately equal iff they differ by less than `1.5e-6`. -/
theorem C24_eq_iff (a b : ℚ) : eq a b = true ↔ |a - b| < 3 / 2000000 := by
  have he := eps_pos
  unfold eq approx
  rw [decide_eq_true_iff, abs_mul, abs_of_pos he]
  have h1 : |(roundF ((a - b) / eps) : ℚ)| * eps ≤ eps ↔ |(roundF ((a - b) / eps) : ℚ)| ≤ 1 := by
    constructor
    · intro h; by_contra hc; push Not at hc; nlinarith
    · intro h; nlinarith
  rw [h1, roundF_abs_le_one, abs_div, abs_of_pos he, div_lt_iff₀ he]
  unfold eps
  constructor <;> intro h <;> linarith

example : eq 1 (1 + 14 / 10000000) = true ∧ eq 1 (1 + 15 / 10000000) = false := by decide +kernel

/-- C24: approximate equality is reflexive. -/
theorem C24_eq_refl (a : ℚ) : eq a a = true := by
  rw [C24_eq_iff]; simp

/-- C24: approximate equality is symmetric. -/
theorem C24_eq_symm (a b : ℚ) : eq a b = eq b a := by
  rw [Bool.eq_iff_iff, C24_eq_iff, C24_eq_iff, abs_sub_comm]

/-- C24: the approximate comparison in terms of the difference of the two values only. -/
theorem C24_cmp_spec (a b : ℚ) :
    (cmp a b = .eq ↔ |a - b| < 3 / 2000000) ∧
    (cmp a b = .lt ↔ a + 3 / 2000000 ≤ b) ∧
    (cmp a b = .gt ↔ b + 3 / 2000000 ≤ a) := by
  have hcmp : cmp a b = if eq a b then .eq else compare a b := rfl
  by_cases h : |a - b| < 3 / 2000000
  · have he : eq a b = true := (C24_eq_iff a b).mpr h
    have h' := abs_lt.mp h
    rw [hcmp, he]
    refine ⟨by simp [h], ?_, ?_⟩ <;> simp <;> linarith [h'.1, h'.2]
  · have he : eq a b = false := by
      rw [← Bool.not_eq_true, C24_eq_iff]; exact h
    rw [hcmp, he]
    simp only [Bool.false_eq_true, if_false]
    push Not at h
    rcases le_abs.mp h with h1 | h1
    · have hgt : compare a b = .gt := compare_gt_iff_gt.mpr (by linarith)
      rw [hgt]
      refine ⟨?_, ?_, ?_⟩
      · simp [h]
      · simp; linarith
      · simp; linarith
    · have hlt : compare a b = .lt := compare_lt_iff_lt.mpr (by linarith)
      rw [hlt]
      refine ⟨?_, ?_, ?_⟩
      · simp [h]
      · simp; linarith
      · simp; linarith

/-- C24: swapping the operands swaps the comparison (so `a < b` iff `b > a`). -/
theorem C24_cmp_swap (a b : ℚ) : cmp b a = (cmp a b).swap := by
  obtain ⟨e1, l1, g1⟩ := C24_cmp_spec a b
  obtain ⟨e2, l2, g2⟩ := C24_cmp_spec b a
  rw [abs_sub_comm] at e2
  cases h : cmp a b
  · simpa using g2.mpr (l1.mp h)
  · simpa using e2.mpr (e1.mp h)
  · simpa using l2.mpr (g1.mp h)

/-- C24: approximate order agrees with exact order for values that are at least the tolerance
apart or equal. -/
theorem C24_cmp_exact (a b : ℚ) (h : a = b ∨ 3 / 2000000 ≤ |a - b|) : cmp a b = compare a b := by
  obtain ⟨e1, l1, g1⟩ := C24_cmp_spec a b
  rcases h with h | h
  · subst h
    rw [e1.mpr (by simp)]; simp
  · rcases le_abs.mp h with h1 | h1
    · rw [g1.mpr (by linarith), eq_comm, compare_gt_iff_gt]; linarith
    · rw [l1.mpr (by linarith), eq_comm, compare_lt_iff_lt]; linarith

example : cmp (1 : ℚ) 2 = .lt ∧ ((1 : ℚ) = 2 ∨ 3 / 2000000 ≤ |(1 : ℚ) - 2|) := by
  constructor
  · decide +kernel
  · right; norm_num

/-- C24: exact order implies approximate order. -/
theorem C24_le_of_le (a b : ℚ) (h : a ≤ b) : le a b = true := by
  have := (C24_cmp_spec a b).2.2
  unfold le
  rw [bne_iff_ne, ne_eq, this]
  linarith

/-- C24: `Approx(a) <= Approx(b)` iff `a` exceeds `b` by less than the tolerance. -/
theorem C24_le_iff (a b : ℚ) : le a b = true ↔ a < b + 3 / 2000000 := by
  have := (C24_cmp_spec a b).2.2
  unfold le
  rw [bne_iff_ne, ne_eq, this, not_le]

/-- C24: comparison of optional values: nothing is below everything else. -/
theorem C24_option (x y : Option ℚ) :
    (eqOption x y = true ↔ cmpOption x y = .eq) ∧
    cmpOption none (some 0) = .lt ∧
    cmpOption y x = (cmpOption x y).swap := by
  refine ⟨?_, rfl, ?_⟩
  · cases x <;> cases y <;> simp [eqOption, cmpOption]
    rename_i a b
    rw [C24_eq_iff, (C24_cmp_spec a b).1]
  · cases x <;> cases y <;> first | rfl | exact C24_cmp_swap _ _

/-- C24: coordinates are approximately equal iff latitudes and longitudes both differ by less than
the tolerance. -/
theorem C24_coord (a b : Coord) :
    eqCoord a b = true ↔ |a.lat - b.lat| < 3 / 2000000 ∧ |a.lon - b.lon| < 3 / 2000000 := by
  unfold eqCoord
  rw [Bool.and_eq_true, C24_eq_iff, C24_eq_iff]

example : eqCoord ⟨48, 9⟩ ⟨48 + 1 / 1000000, 9⟩ = true ∧ eqCoord ⟨48, 9⟩ ⟨48, 10⟩ = false := by
  decide +kernel

/-! ## C25: the approximate order is not transitive -/

/-- C25 is false: approximate equality is not transitive, although `Eq`/`Ord` are implemented. -/
theorem C25_false_eq_not_transitive :
    ¬ ∀ a b c : ℚ, eq a b = true → eq b c = true → eq a c = true := by
  intro h
  exact absurd (h 0 (1 / 1000000) (2 / 1000000) (by decide +kernel) (by decide +kernel))
    (by decide +kernel)

/-- C25 is false: `<=` of the approximate order is not transitive either. -/
theorem C25_false_le_not_transitive :
    ¬ ∀ a b c : ℚ, le a b = true → le b c = true → le a c = true := by
  intro h
  exact absurd (h (2 / 1000000) (1 / 1000000) 0 (by decide +kernel) (by decide +kernel))
    (by decide +kernel)

/-- C25, partial: on values that are multiples of a common unit of at least the tolerance the
approximate order is the exact order, hence transitive and total. Missing: values closer together
than the tolerance, for which the property fails (`C25_false_le_not_transitive`). -/
theorem C25_grid_partial (u : ℚ) (hu : 3 / 2000000 ≤ u) (i j : ℤ) :
    cmp (i * u) (j * u) = compare i j := by
  have hu0 : 0 < u := by linarith
  rw [C24_cmp_exact]
  · rcases lt_trichotomy i j with h | h | h
    · rw [compare_lt_iff_lt.mpr h, compare_lt_iff_lt]
      have : (i : ℚ) < j := by exact_mod_cast h
      nlinarith
    · subst h; simp
    · rw [compare_gt_iff_gt.mpr h, compare_gt_iff_gt]
      have : (j : ℚ) < i := by exact_mod_cast h
      nlinarith
  · by_cases h : i = j
    · left; rw [h]
    · right
      rw [← sub_mul, abs_mul, abs_of_pos hu0]
      have h1 : (1 : ℤ) ≤ |i - j| := Int.one_le_abs (sub_ne_zero.mpr h)
      have h2 : (1 : ℚ) ≤ |(i : ℚ) - j| := by exact_mod_cast h1
      nlinarith

example : cmp (3 * (1 / 1000)) (4 * (1 / 1000)) = .lt := by decide +kernel

/-! ## C26: vectors -/

theorem foldl_and (l : List (ℚ × ℚ)) (b : Bool) :
    l.foldl (fun acc p => acc && eq p.1 p.2) b = (b && l.all fun p => eq p.1 p.2) := by
  induction l generalizing b with
  | nil => simp
  | cons p l ih => simp [ih, Bool.and_assoc]

theorem mem_zip_iff_getElem {a b : List ℚ} (P : ℚ → ℚ → Prop) :
    (∀ p ∈ a.zip b, P p.1 p.2) ↔ ∀ (i : ℕ) (x y : ℚ), a[i]? = some x → b[i]? = some y → P x y := by
  constructor
  · intro H i x y hx hy
    have : (a.zip b)[i]? = some (x, y) := by
      rw [List.getElem?_zip_eq_some]; exact ⟨hx, hy⟩
    exact H _ (List.mem_of_getElem? this)
  · intro H p hp
    obtain ⟨i, hi⟩ := List.getElem?_of_mem hp
    rw [List.getElem?_zip_eq_some] at hi
    exact H i _ _ hi.1 hi.2

/-- C26: vectors are approximately equal iff all common components differ by less than the
tolerance (all components, if the dimensions are equal). -/
theorem C26_eqSlice_iff (a b : List ℚ) :
    eqSlice a b = true ↔
      ∀ (i : ℕ) (x y : ℚ), a[i]? = some x → b[i]? = some y → |x - y| < 3 / 2000000 := by
  unfold eqSlice
  rw [foldl_and, Bool.true_and, List.all_eq_true, ← mem_zip_iff_getElem]
  simp only [C24_eq_iff]

/-- C26: a cost vector is within the tolerances iff no component is above its tolerance (by at
least `1.5e-6`). -/
theorem C26_leSlice_iff (a b : List ℚ) :
    leSlice a b = true ↔
      ∀ (i : ℕ) (x y : ℚ), a[i]? = some x → b[i]? = some y → x < y + 3 / 2000000 := by
  unfold leSlice
  rw [List.all_eq_true, ← mem_zip_iff_getElem]
  constructor
  · intro H p hp
    exact (C24_le_iff _ _).mp (H p hp)
  · intro H p hp
    exact (C24_le_iff _ _).mpr (H p hp)

/-- C26: `>=` of vectors is `<=` with swapped operands. -/
theorem C26_geSlice (a b : List ℚ) : geSlice a b = leSlice b a := by
  unfold geSlice leSlice
  induction a generalizing b with
  | nil => simp
  | cons x a ih =>
    cases b with
    | nil => simp
    | cons y b =>
      simp only [List.zip_cons_cons, List.all_cons, ih]
      rw [C24_cmp_swap x y]
      cases cmp x y <;> rfl

example : leSlice [1, 2] [1, 3] = true ∧ leSlice [1, 4] [1, 3] = false ∧
    partialCmpSlice [1, 2] [1, 3] = none ∧ partialCmpSlice [0, 2] [1, 3] = some .lt := by
  decide +kernel

/-- C26: `partial_cmp` of non-empty vectors gives an ordering iff all components compare alike. -/
theorem C26_partialCmp_iff (a b : List ℚ) (h : a.length = b.length) (o : Ordering) :
    partialCmpSlice a b = some o ↔
      a ≠ [] ∧ ∀ (i : ℕ) (x y : ℚ), a[i]? = some x → b[i]? = some y → cmp x y = o := by
  rw [← mem_zip_iff_getElem (fun x y => cmp x y = o)]
  unfold partialCmpSlice
  cases a with
  | nil => simp
  | cons x a =>
    cases b with
    | nil => simp at h
    | cons y b =>
      simp only [List.zip_cons_cons, List.map_cons, List.any_map]
      split
      · rename_i hany
        simp only [List.any_eq_true] at hany
        obtain ⟨p, hp, hne⟩ := hany
        constructor
        · intro hc; cases hc
        · rintro ⟨-, H⟩
          have h1 := H (x, y) (by simp)
          have h2 := H p (by simp [hp])
          simp only [Function.comp, bne_iff_ne] at hne
          exact absurd (h1.trans h2.symm) hne
      · rename_i hany
        simp only [List.any_eq_true, not_exists, not_and, Function.comp, bne_iff_ne, ne_eq,
          not_not] at hany
        constructor
        · intro hc
          refine ⟨by simp, ?_⟩
          intro p hp
          have hc' : cmp x y = o := Option.some.inj hc
          rcases List.mem_cons.mp hp with rfl | hp
          · exact hc'
          · rw [← hany p hp]; exact hc'
        · rintro ⟨-, H⟩
          rw [H (x, y) (by simp)]

/-- C26 fails for vectors of different dimension: only the common prefix is compared. -/
theorem C26_false_different_dim : eqSlice [1] [1, 2] = true ∧ eqSlice [] [7] = true := by
  decide +kernel

/-- The two comparisons of empty vectors disagree: equal, but no ordering. -/
theorem C26_false_empty : eqSlice [] [] = true ∧ partialCmpSlice [] [] = none := by
  decide +kernel

end Verif.Approx
