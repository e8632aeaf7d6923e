import Verif.Text
import Mathlib.Tactic.Linarith
import Mathlib.Tactic.IntervalCases
import Mathlib.Data.List.Basic

/-!
# Lemmas about texts
-/

namespace Verif.Text

/-! ## Characters -/

theorem toNat_ofNat_lt {n : Nat} (h : n < 55296) : (Char.ofNat n).toNat = n := by
  have hv : n.isValidChar := Or.inl h
  unfold Char.ofNat
  rw [dif_pos hv]
  rfl

theorem lowerChar_toNat (c : Char) : (lowerChar c).toNat =
    if 65 ≤ c.toNat ∧ c.toNat ≤ 90 then c.toNat + 32 else c.toNat := by
  unfold lowerChar
  by_cases h : 65 ≤ c.toNat ∧ c.toNat ≤ 90
  · rw [if_pos (show 'A'.toNat ≤ c.toNat ∧ c.toNat ≤ 'Z'.toNat from h), if_pos h,
      toNat_ofNat_lt (by omega)]
  · rw [if_neg (show ¬ ('A'.toNat ≤ c.toNat ∧ c.toNat ≤ 'Z'.toNat) from h), if_neg h]

theorem char_ext {a b : Char} (h : a.toNat = b.toNat) : a = b := Char.toNat_inj.mp h

theorem lowerChar_lowerChar (c : Char) : lowerChar (lowerChar c) = lowerChar c := by
  apply char_ext
  rw [lowerChar_toNat (lowerChar c), lowerChar_toNat c]
  split
  · rw [if_neg (by omega)]
  · rfl

theorem isWs_lowerChar (c : Char) : isWs (lowerChar c) = isWs c := by
  unfold isWs
  rw [lowerChar_toNat]
  by_cases h : 65 ≤ c.toNat ∧ c.toNat ≤ 90
  · rw [if_pos h]
    dsimp only
    rw [Bool.eq_iff_iff]
    simp only [Bool.or_eq_true, Bool.and_eq_true, decide_eq_true_eq, beq_iff_eq]
    omega
  · rw [if_neg h]

/-! ## Trimming and lower case -/

theorem dropWhile_lower (t : Text) : (lower t).dropWhile isWs = lower (t.dropWhile isWs) := by
  unfold lower
  induction t with
  | nil => rfl
  | cons c t ih =>
    simp only [List.map_cons, List.dropWhile_cons, isWs_lowerChar]
    split
    · exact ih
    · rfl

theorem trim_lower (t : Text) : trim (lower t) = lower (trim t) := by
  have hr : ∀ x : Text, (lower x).reverse = lower x.reverse := fun x => by simp [lower]
  unfold trim
  rw [dropWhile_lower, hr, dropWhile_lower, hr]

theorem lower_lower (t : Text) : lower (lower t) = lower t := by
  simp [lower, Function.comp_def, lowerChar_lowerChar]

theorem dropWhile_idem (t : Text) : (t.dropWhile isWs).dropWhile isWs = t.dropWhile isWs := by
  induction t with
  | nil => rfl
  | cons c t ih =>
    rw [List.dropWhile_cons]
    split
    · exact ih
    · rename_i h
      rw [List.dropWhile_cons, if_neg h]

theorem dropWhile_ws_append {a b : Text} (ha : ∀ c ∈ a, isWs c = true) :
    (a ++ b).dropWhile isWs = b.dropWhile isWs := by
  induction a with
  | nil => rfl
  | cons c a ih =>
    rw [List.cons_append, List.dropWhile_cons, if_pos (ha c (by simp))]
    exact ih fun x hx => ha x (by simp [hx])

theorem dropWhile_append_of_ne {a b : Text} (h : a.dropWhile isWs ≠ []) :
    (a ++ b).dropWhile isWs = a.dropWhile isWs ++ b := by
  induction a with
  | nil => exact absurd rfl h
  | cons c a ih =>
    rw [List.cons_append, List.dropWhile_cons, List.dropWhile_cons] at *
    split
    · rename_i hc
      rw [if_pos hc] at h
      exact ih h
    · rfl

theorem dropWhile_eq_nil {t : Text} : t.dropWhile isWs = [] ↔ ∀ c ∈ t, isWs c = true := by
  induction t with
  | nil => simp
  | cons c t ih =>
    rw [List.dropWhile_cons]
    split
    · rename_i hc
      rw [ih]
      simp [hc]
    · rename_i hc
      simp [hc]

/-- Whitespace around a text does not matter for trimming. -/
theorem trim_ws {a b t : Text} (ha : ∀ c ∈ a, isWs c = true) (hb : ∀ c ∈ b, isWs c = true) :
    trim (a ++ t ++ b) = trim t := by
  unfold trim
  rw [List.append_assoc, dropWhile_ws_append ha]
  by_cases h : t.dropWhile isWs = []
  · rw [h]
    have : (t ++ b).dropWhile isWs = [] := by
      rw [dropWhile_eq_nil] at h ⊢
      intro c hc
      rcases List.mem_append.mp hc with hc | hc
      · exact h c hc
      · exact hb c hc
    rw [this]
  · rw [dropWhile_append_of_ne h, List.reverse_append,
      dropWhile_ws_append (fun c hc => hb c (List.mem_reverse.mp hc))]

/-- Every text is its trimmed text surrounded by whitespace. -/
theorem exists_trim (t : Text) : ∃ a b, t = a ++ trim t ++ b ∧ (∀ c ∈ a, isWs c = true) ∧
    (∀ c ∈ b, isWs c = true) := by
  have h : ∀ x : Text, ∃ a, x = a ++ x.dropWhile isWs ∧ ∀ c ∈ a, isWs c = true := by
    intro x
    refine ⟨x.takeWhile isWs, (List.takeWhile_append_dropWhile).symm, fun c hc => ?_⟩
    exact (List.all_eq_true.mp (List.all_takeWhile (l := x) (p := isWs))) c hc
  obtain ⟨a, h1, h2⟩ := h t
  obtain ⟨b, h3, h4⟩ := h (t.dropWhile isWs).reverse
  refine ⟨a, b.reverse, ?_, h2, fun c hc => h4 c (List.mem_reverse.mp hc)⟩
  have := congrArg List.reverse h3
  rw [List.reverse_reverse, List.reverse_append] at this
  unfold trim
  rw [List.append_assoc, ← this]
  exact h1

theorem trim_trim (t : Text) : trim (trim t) = trim t := by
  obtain ⟨a, b, h1, h2, h3⟩ := exists_trim t
  have := trim_ws (t := trim t) h2 h3
  rw [← h1] at this
  exact this.symm

/-! ## Numbers -/

theorem digitChar_toNat {d : Nat} (h : d < 10) : (digitChar d).toNat = 48 + d := by
  unfold digitChar
  rw [toNat_ofNat_lt (by have : '0'.toNat = 48 := rfl; omega)]
  rfl

theorem digit?_digitChar {d : Nat} (h : d < 10) : digit? (digitChar d) = some d := by
  unfold digit?
  rw [digitChar_toNat h, if_pos (by have h0 : '0'.toNat = 48 := rfl; have h9 : '9'.toNat = 57 := rfl; omega)]
  have h0 : '0'.toNat = 48 := rfl
  rw [h0]
  congr 1
  omega

theorem digitsVal_append (a b : Text) (n : Nat) :
    digitsVal n (a ++ b) = (digitsVal n a).bind fun m => digitsVal m b := by
  induction a generalizing n with
  | nil => rfl
  | cons c a ih =>
    simp only [List.cons_append, digitsVal]
    cases digit? c with
    | none => rfl
    | some d => exact ih _

theorem digitsVal_printGo : ∀ (fuel n : Nat), n ≤ fuel → digitsVal 0 (printGo fuel n) = some n
  | 0, n, h => by
    have : n = 0 := by omega
    subst this
    rfl
  | fuel + 1, n, h => by
    unfold printGo
    split
    · rename_i hn
      simp [digitsVal, digit?_digitChar hn]
    · rw [digitsVal_append, digitsVal_printGo fuel (n / 10) (by omega)]
      simp only [Option.bind_some, digitsVal, digit?_digitChar (Nat.mod_lt n (by omega : 0 < 10))]
      congr 1
      omega

theorem printGo_ne_nil (fuel n : Nat) : printGo fuel n ≠ [] := by
  cases fuel with
  | zero => simp [printGo]
  | succ f =>
    unfold printGo
    split <;> simp

theorem digits?_printNat (n : Nat) : digits? (printNat n) = some n := by
  unfold digits? printNat
  rw [if_neg (printGo_ne_nil n n), digitsVal_printGo n n le_rfl]

/-- A printed number consists of digits. -/
theorem printGo_digits : ∀ (fuel n : Nat), n ≤ fuel → ∀ c ∈ printGo fuel n, 48 ≤ c.toNat ∧ c.toNat ≤ 57
  | 0, n, h, c, hc => by
    have : n = 0 := by omega
    subst this
    simp only [printGo, List.mem_singleton] at hc
    subst hc
    decide
  | fuel + 1, n, h, c, hc => by
    unfold printGo at hc
    split at hc
    · rename_i hn
      simp only [List.mem_singleton] at hc
      subst hc
      rw [digitChar_toNat hn]
      omega
    · rcases List.mem_append.mp hc with hc | hc
      · exact printGo_digits fuel (n / 10) (by omega) c hc
      · simp only [List.mem_singleton] at hc
        subst hc
        rw [digitChar_toNat (Nat.mod_lt n (by omega : 0 < 10))]
        omega

theorem printNat_digits {n : Nat} {c : Char} (h : c ∈ printNat n) : 48 ≤ c.toNat ∧ c.toNat ≤ 57 :=
  printGo_digits n n le_rfl c h

theorem printNat_ne_nil (n : Nat) : printNat n ≠ [] := printGo_ne_nil n n

theorem parseNat_printNat {max n : Nat} (h : n ≤ max) : parseNat max (printNat n) = some n := by
  unfold parseNat
  split
  · rename_i t heq
    have := printNat_digits (n := n) (c := '+') (by rw [heq]; simp)
    exact absurd this (by decide)
  · rw [digits?_printNat]
    simp [h]

theorem parseInt_printInt {max : Nat} {i : Int} (h1 : -(max : Int) - 1 ≤ i) (h2 : i ≤ max) :
    parseInt max (printInt i) = some i := by
  cases i with
  | ofNat n =>
    have hn : n ≤ max := by simpa using h2
    rw [show printInt (Int.ofNat n) = printNat n from rfl]
    unfold parseInt
    split
    · rename_i t heq
      have := printNat_digits (n := n) (c := '-') (by rw [heq]; simp)
      exact absurd this (by decide)
    · rename_i t heq
      have := printNat_digits (n := n) (c := '+') (by rw [heq]; simp)
      exact absurd this (by decide)
    · rw [digits?_printNat]
      simp [hn]
  | negSucc n =>
    have hn : n + 1 ≤ max + 1 := by omega
    simp only [parseInt, printInt, digits?_printNat, Option.bind_some, if_pos hn, Option.some.injEq]
    omega

/-- No part of a printed number is whitespace. -/
theorem printNat_noWs {n : Nat} {c : Char} (h : c ∈ printNat n) : isWs c = false := by
  have := printNat_digits h
  unfold isWs
  simp only [Bool.or_eq_false_iff, Bool.and_eq_false_iff, decide_eq_false_iff_not, beq_eq_false_iff_ne]
  omega

theorem printInt_noWs {i : Int} {c : Char} (h : c ∈ printInt i) : isWs c = false := by
  cases i with
  | ofNat n => exact printNat_noWs h
  | negSucc n =>
    rcases List.mem_cons.mp h with rfl | h
    · decide
    · exact printNat_noWs h

theorem printInt_ne_nil (i : Int) : printInt i ≠ [] := by
  cases i with
  | ofNat n => exact printNat_ne_nil n
  | negSucc n => simp [printInt]

/-! ## Words -/

/-- A word: not empty and without whitespace. -/
def IsWord (w : Text) : Prop := w ≠ [] ∧ ∀ c ∈ w, isWs c = false

theorem wordsGo_noWs {cur w : Text} (hw : ∀ c ∈ w, isWs c = false) (t : Text) :
    wordsGo cur (w ++ t) = wordsGo (cur ++ w) t := by
  induction w generalizing cur with
  | nil => simp
  | cons c w ih =>
    rw [List.cons_append, wordsGo, if_neg (by simp [hw c (by simp)]), ih (fun x hx => hw x (by simp [hx]))]
    simp

theorem words_join {sep : Char} (hs : isWs sep = true) :
    ∀ {ws : List Text}, (∀ w ∈ ws, IsWord w) → words (join sep ws) = ws
  | [], _ => rfl
  | [w], h => by
    obtain ⟨h1, h2⟩ := h w (by simp)
    have := wordsGo_noWs (cur := []) h2 []
    simp only [List.append_nil, List.nil_append] at this
    simp only [words, join, this, wordsGo, if_neg h1]
  | w :: w' :: ws, h => by
    obtain ⟨h1, h2⟩ := h w (by simp)
    have ih := words_join hs (ws := w' :: ws) (fun x hx => h x (by simp [hx]))
    have := wordsGo_noWs (cur := []) h2 (sep :: join sep (w' :: ws))
    simp only [List.nil_append] at this
    unfold words at ih ⊢
    rw [show join sep (w :: w' :: ws) = w ++ sep :: join sep (w' :: ws) from rfl, this, wordsGo,
      if_pos hs, if_neg h1, ih]

end Verif.Text
