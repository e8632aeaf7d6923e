import Verif.Special

/-!
# Specification: values that are no finite numbers
-/

namespace Verif.Special

open Dij

/-- All values of an edge are finite. -/
def Open (ms : List (List (Num ℚ))) (e : Nat) : Prop := ∃ m, ms[e]? = some m ∧ ∀ x ∈ m, ∃ y : ℚ, x = .fin y

/-- Values that are not negative. -/
def Nonneg (ms : List (List (Num ℚ))) : Prop := ∀ m ∈ ms, ∀ x ∈ m, x ≠ .neg ∧ ∀ y : ℚ, x = .fin y → 0 ≤ y

/-- Finite values and weights up to `2^400`. -/
def Moderate (ms : List (List (Num ℚ))) (alphas : List ℚ) : Prop :=
  (∀ m ∈ ms, ∀ y : ℚ, .fin y ∈ m → y ≤ 2 ^ 400) ∧ ∀ a ∈ alphas, a ≤ 2 ^ 400

/-- The finite part of a value. -/
def part : Num ℚ → ℚ
  | .fin x => x
  | _ => 0

/-- The exact cost of a route of open edges. -/
def costOf (ms : List (List (Num ℚ))) (alphas : List ℚ) (l : List Nat) : ℚ :=
  (l.map fun e => (List.zipWith (· * ·) alphas (((ms[e]?).getD []).map part)).sum).sum

/-- The routers that come from a new one by answering queries on graphs with at most `n` nodes and values that are not
negative. -/
inductive Used (n : Nat) : St (Rounded Fp.f64) → Prop
  | new : Used n St.new
  | query {s s' : St (Rounded Fp.f64)} {q : Query (Rounded Fp.f64)} {ms : List (List (Num ℚ))} {fuel : Nat}
      {ans : Option Path} : Used n s → q.graph.nodeCount ≤ n → Nonneg ms →
      router ms fuel s q = some (.ok (s', ans)) → Used n s'

/-- The values that a text stands for when loading a map: numbers around zero become `1e-6`, negative ones are not
accepted. -/
inductive Reads (parseF : List Char → Option ℚ) : List Char → Num ℚ → Prop
  | nan : Reads parseF ['N', 'a', 'N'] .nan
  | inf : Reads parseF ['i', 'n', 'f'] .inf
  | small {t : List Char} {y : ℚ} : (t ≠ ['N', 'a', 'N'] ∧ t ≠ ['i', 'n', 'f'] ∧ t ≠ ['-', 'i', 'n', 'f']) →
      parseF t = some y → |y| < 3 / 2000000 → Reads parseF t (.fin (1 / 1000000))
  | large {t : List Char} {y : ℚ} : (t ≠ ['N', 'a', 'N'] ∧ t ≠ ['i', 'n', 'f'] ∧ t ≠ ['-', 'i', 'n', 'f']) →
      parseF t = some y → 3 / 2000000 ≤ y → Reads parseF t (.fin y)

end Verif.Special
