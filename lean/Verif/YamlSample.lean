import Verif.YamlDocSpec
import Verif.FmiSample

/-!
# Numbers for the examples

Decimal numbers like `99.8`, and fractions like `-1/3` such that every rational number can be written.
-/

namespace Verif.Yml

open Text Cfg

/-- A decimal number with a dot. -/
def decimal (t : Text) : Option ℚ :=
  (digits? (t.takeWhile (· ≠ '.'))).bind fun a =>
    (digits? ((t.dropWhile (· ≠ '.')).drop 1)).map fun b =>
      (a : ℚ) + b / 10 ^ ((t.dropWhile (· ≠ '.')).drop 1).length

def exNumbers : Numbers where
  nat := parseNat (2 ^ 64 - 1)
  float t := if '/' ∈ t then Fmi.exCodec.parseF t else decimal t
  parseF t := (if '/' ∈ t then Fmi.exCodec.parseF t else decimal t).map some

def exWriter : Writer where
  nat := printNat
  num := Fmi.exCodec.printF

theorem digits?_slash {t : Text} (h : '/' ∈ t) : digits? t = none := by
  have key : ∀ (n : Nat), digitsVal n t = none := by
    induction t with
    | nil => simp at h
    | cons c t ih =>
      intro n
      rcases List.mem_cons.mp h with rfl | h
      · rfl
      · unfold digitsVal
        cases digit? c with
        | none => rfl
        | some d => exact ih h _
  unfold digits?
  split
  · rfl
  · exact key 0

theorem slash_mem (x : ℚ) : '/' ∈ exWriter.num x := by simp [exWriter, Fmi.exCodec]

theorem parseNat_slash {m : Nat} {t : Text} (h : '/' ∈ t) : parseNat m t = none := by
  unfold parseNat
  split
  · rename_i u
    rw [digits?_slash (by simpa using h)]; rfl
  · rw [digits?_slash h]; rfl

theorem num_chars {x : ℚ} {c : Char} (h : c ∈ exWriter.num x) : c.toNat ≤ 57 := by
  simp only [exWriter, Fmi.exCodec, List.mem_append, List.mem_cons] at h
  rcases h with h | rfl | h
  · unfold printInt at h
    split at h
    · exact (printNat_digits h).2
    · rcases List.mem_cons.mp h with rfl | h
      · decide
      · exact (printNat_digits h).2
  · decide
  · exact (printNat_digits h).2

theorem lower_num (x : ℚ) : Text.lower (exWriter.num x) = exWriter.num x := by
  unfold Text.lower
  conv_rhs => rw [← List.map_id (exWriter.num x)]
  refine List.map_congr_left fun c hc => ?_
  have := num_chars hc
  unfold lowerChar
  rw [if_neg]
  · rfl
  · rintro ⟨h, -⟩
    have : 'A'.toNat = 65 := rfl
    omega

theorem exFits : exWriter.Fits exNumbers where
  nat_plain n _ h := by
    have hd : ∀ c ∈ exWriter.nat n, c.toNat ≤ 57 := fun c hc => (printNat_digits hc).2
    simp only [special, List.mem_cons, List.not_mem_nil, or_false] at h
    rcases h with h | h | h | h <;> rw [h] at hd <;> revert hd <;> decide
  nat_read n h := parseNat_printNat (by omega)
  num_plain x h := by
    have hs := slash_mem x
    simp only [special, List.mem_cons, List.not_mem_nil, or_false] at h
    rcases h with h | h | h | h <;> rw [h] at hs <;> revert hs <;> decide
  num_not_nat x := parseNat_slash (slash_mem x)
  num_read x := by
    show (if _ then _ else _) = _
    rw [if_pos (slash_mem x)]
    exact (Fmi.exCodec_exact x).parse
  num_parse x := by
    rw [lower_num]
    show Option.map some (if _ then _ else _) = _
    rw [if_pos (slash_mem x)]
    exact congrArg (Option.map some) (Fmi.exCodec_exact x).parse
  num_finite x := by
    have hs := slash_mem x
    rw [lower_num]
    constructor <;> intro h <;> rw [h] at hs <;> revert hs <;> decide
  ignored := by decide +kernel

end Verif.Yml
