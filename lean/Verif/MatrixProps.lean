import Verif.Matrix
import Mathlib.Tactic.Ring
import Mathlib.Tactic.Linarith
import Mathlib.Algebra.Order.Field.Rat

/-!
# C48: matrices
-/

namespace Verif.Matrix

/-- The rows all have length `c`. -/
def Rect (rows : List (List ℚ)) (c : Nat) : Prop := ∀ r ∈ rows, r.length = c

theorem flatten_length {rows : List (List ℚ)} {c : Nat} (h : Rect rows c) :
    rows.flatten.length = rows.length * c := by
  induction rows with
  | nil => simp
  | cons r rows ih =>
    rw [List.flatten_cons, List.length_append, h r (by simp), ih fun x hx => h x (by simp [hx]), List.length_cons]
    ring

theorem flatten_get {rows : List (List ℚ)} {c : Nat} (h : Rect rows c) {i j : Nat} {r : List ℚ} {x : ℚ}
    (hi : rows[i]? = some r) (hj : r[j]? = some x) : rows.flatten[i * c + j]? = some x := by
  induction rows generalizing i with
  | nil => simp at hi
  | cons r' rows ih =>
    have hr' := h r' (by simp)
    cases i with
    | zero =>
      simp only [List.getElem?_cons_zero, Option.some.injEq] at hi
      subst hi
      rw [List.flatten_cons, Nat.zero_mul, Nat.zero_add, List.getElem?_append_left (by
        by_contra hlt
        rw [List.getElem?_eq_none (by omega)] at hj
        simp at hj)]
      exact hj
    | succ i =>
      rw [List.getElem?_cons_succ] at hi
      rw [List.flatten_cons, List.getElem?_append_right (by rw [hr']; nlinarith), hr',
        show (i + 1) * c + j - c = i * c + j by
          rw [Nat.add_mul, Nat.one_mul]
          omega]
      exact ih (fun x hx => h x (by simp [hx])) hi

/-- C48: a matrix is created iff there is a row and if the number of values fits; in particular if all
rows have the same length. -/
theorem C48_created {rows : List (List ℚ)} {c : Nat} (h : Rect rows c) (hne : rows ≠ []) :
    ∃ m, fromRows rows = .ok m ∧ m.nRows = rows.length ∧ m.nCols = c := by
  cases rows with
  | nil => exact absurd rfl hne
  | cons r rows =>
    have hr := h r (by simp)
    have hl := flatten_length h
    unfold fromRows
    simp only [List.getElem?_cons_zero, Res.ofIdx_some, Res.ok_bind]
    rw [if_pos (by rw [hl, hr])]
    exact ⟨_, rfl, rfl, hr⟩

/-- C48: without rows, creating a matrix panics. -/
theorem C48_empty : fromRows [] = .panic := rfl

/-- The entry of row `row` and column `col` lies at position `nRows * col + row`, for every shape. -/
theorem C48_linear {rows : List (List ℚ)} {c : Nat} (h : Rect rows c) {m : Matrix} (hm : fromRows rows = .ok m)
    {row col : Nat} {r : List ℚ} {x : ℚ} (hr : rows[row]? = some r) (hx : r[col]? = some x) :
    m.at1 (rows.length * col + row) = .ok x := by
  have hrow : row < rows.length := by
    by_contra hlt
    rw [List.getElem?_eq_none (by omega)] at hr
    simp at hr
  have hcol : col < c := by
    by_contra hlt
    rw [List.getElem?_eq_none (by rw [h r (List.mem_of_getElem? hr)]; omega)] at hx
    simp at hx
  unfold fromRows at hm
  obtain ⟨first, hf, hm⟩ := Res.bind_eq_ok.mp hm
  rw [Res.ofIdx_eq_ok] at hf
  have hfc := h first (List.mem_of_getElem? hf)
  simp only at hm
  split at hm
  swap
  · simp at hm
  simp only [Res.pure_eq, Res.ok.injEq] at hm
  subst hm
  unfold at1
  rw [Res.ofIdx_eq_ok]
  have hlt : rows.length * col + row < rows.length * first.length := by
    rw [hfc]
    calc rows.length * col + row < rows.length * col + rows.length := by omega
      _ = rows.length * (col + 1) := by ring
      _ ≤ rows.length * c := Nat.mul_le_mul_left _ hcol
  simp only [List.getElem?_map, List.getElem?_range hlt, Option.map_some, Option.some.injEq]
  have h1 : (rows.length * col + row) % rows.length = row := by
    rw [Nat.mul_add_mod]
    exact Nat.mod_eq_of_lt hrow
  have h2 : (rows.length * col + row) / rows.length = col := by
    rw [Nat.mul_add_div (by omega), Nat.div_eq_of_lt hrow, Nat.add_zero]
  rw [h1, h2, hfc, List.getD_eq_getElem?_getD, flatten_get h hr hx]
  rfl

/-- C48 for square matrices, and for the first column of all matrices. What is missing: other shapes, for which it
is false (`C48_false_shape`). -/
theorem C48_square_partial {rows : List (List ℚ)} {c : Nat} (h : Rect rows c) {m : Matrix}
    (hm : fromRows rows = .ok m) {row col : Nat} {r : List ℚ} {x : ℚ} (hs : rows.length = c ∨ col = 0)
    (hr : rows[row]? = some r) (hx : r[col]? = some x) : m.at2 row col = .ok x := by
  have hne : rows ≠ [] := by rintro rfl; simp at hr
  obtain ⟨m', hm', -, hc⟩ := C48_created h hne
  rw [hm, Res.ok.injEq] at hm'
  subst hm'
  unfold at2
  rw [hc]
  rw [show c * col + row = rows.length * col + row by
    rcases hs with rfl | rfl
    · rfl
    · simp]
  exact C48_linear h hm hr hx

example : ∃ m, fromRows [[1, 2], [3, 4]] = .ok m ∧ m.at2 0 1 = .ok 2 :=
  ⟨⟨2, 2, [1, 3, 2, 4]⟩, by decide +kernel, C48_square_partial (rows := [[1, 2], [3, 4]]) (c := 2) (by unfold Rect; simp)
    (by decide +kernel) (Or.inl rfl) rfl rfl⟩

/-- A matrix of any shape whose entries are numbered row by row. -/
def numbered (rows cols : Nat) : List (List ℚ) :=
  (List.range rows).map fun i => (List.range cols).map fun j => ((i * cols + j : Nat) : ℚ)

theorem numbered_rect (rows cols : Nat) : Rect (numbered rows cols) cols := by
  intro r hr
  obtain ⟨i, -, rfl⟩ := List.mem_map.mp hr
  simp

theorem numbered_get {rows cols i j : Nat} (hi : i < rows) (hj : j < cols) :
    ∃ r, (numbered rows cols)[i]? = some r ∧ r[j]? = some ((i * cols + j : Nat) : ℚ) := by
  refine ⟨(List.range cols).map fun j => ((i * cols + j : Nat) : ℚ), ?_, ?_⟩
  · unfold numbered
    rw [List.getElem?_map, List.getElem?_range hi]
    rfl
  · rw [List.getElem?_map, List.getElem?_range hj]
    rfl

theorem numbered_length (rows cols : Nat) : (numbered rows cols).length = rows := by simp [numbered]

/-- C48 is false for every shape with at least two columns that isn't square: there is a matrix for which reading
the entry in the first row and the second column doesn't return it. -/
theorem C48_false_shape {rows cols : Nat} (hr : 0 < rows) (hc : 2 ≤ cols) (hne : rows ≠ cols) :
    ∃ m r, fromRows (numbered rows cols) = .ok m ∧ (numbered rows cols)[0]? = some r ∧ r[1]? = some 1 ∧
      m.at2 0 1 ≠ .ok 1 := by
  have hrect := numbered_rect rows cols
  obtain ⟨m, hm, -, hmc⟩ := C48_created hrect (by
    intro h
    have := congrArg List.length h
    rw [numbered_length] at this
    simp at this
    omega)
  obtain ⟨r, h1, h2⟩ := numbered_get (cols := cols) (i := 0) (j := 1) hr (by omega)
  refine ⟨m, r, hm, h1, by simpa using h2, ?_⟩
  unfold at2
  rw [hmc, Nat.mul_one, Nat.add_zero]
  by_cases hb : cols < rows * cols
  · have hmod : cols % rows < rows := Nat.mod_lt _ hr
    have hdiv : cols / rows < cols := by
      by_contra hge
      have h3 := Nat.div_mul_le_self cols rows
      have h5 : cols * 1 < cols * rows := by rw [Nat.mul_one, Nat.mul_comm]; exact hb
      have h6 := Nat.mul_le_mul_right rows (not_lt.mp hge)
      omega
    obtain ⟨r', h3, h4⟩ := numbered_get (cols := cols) hmod hdiv
    have := C48_linear hrect hm h3 h4
    rw [numbered_length, Nat.div_add_mod] at this
    rw [this]
    intro heq
    rw [Res.ok.injEq] at heq
    have heq : cols % rows * cols + cols / rows = 1 := by exact_mod_cast heq
    have h5 : cols % rows = 0 := by
      by_contra h0
      have h7 : 1 * cols ≤ cols % rows * cols := Nat.mul_le_mul_right _ (by omega)
      have h8 : cols % rows * cols ≤ 1 := by rw [← heq]; exact Nat.le_add_right _ _
      omega
    rw [h5, Nat.zero_mul, Nat.zero_add] at heq
    have := Nat.div_add_mod cols rows
    rw [h5, heq] at this
    omega
  · have hlen : m.data.length = rows * cols := by
      unfold fromRows at hm
      obtain ⟨first, hf, hm⟩ := Res.bind_eq_ok.mp hm
      rw [Res.ofIdx_eq_ok] at hf
      have hfc := hrect first (List.mem_of_getElem? hf)
      simp only at hm
      split at hm
      · simp only [Res.pure_eq, Res.ok.injEq] at hm
        rw [← hm]
        simp [numbered_length, hfc]
      · simp at hm
    unfold at1
    rw [List.getElem?_eq_none (by omega)]
    simp

/-- Two rows, three columns: reading `(0, 1)` returns the entry at `(1, 1)`. -/
example : ∃ m, fromRows [[1, 2, 3], [4, 5, 6]] = .ok m ∧ m.at2 0 1 = .ok 5 :=
  ⟨⟨2, 3, [1, 4, 2, 5, 3, 6]⟩, by decide +kernel, by decide +kernel⟩

end Verif.Matrix
