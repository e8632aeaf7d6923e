/-!
# Texts

Rust's strings as lists of characters, and what the code base uses of Rust's standard library for them.
No line of the code base is modelled here. The functions follow the documentation of `str` and of
`FromStr` for integers.
-/

namespace Verif

/-- A string. -/
abbrev Text := List Char

namespace Text

/-- `char::is_whitespace`: the characters with the Unicode-property `White_Space`. -/
def isWs (c : Char) : Bool :=
  let n := c.toNat
  (9 ≤ n && n ≤ 13) || n == 32 || n == 133 || n == 160 || n == 5760 || (8192 ≤ n && n ≤ 8202) ||
    n == 8232 || n == 8233 || n == 8239 || n == 8287 || n == 12288

/-- `str::trim`. -/
def trim (t : Text) : Text := ((t.dropWhile isWs).reverse.dropWhile isWs).reverse

/-- `char::to_ascii_lowercase`. -/
def lowerChar (c : Char) : Char :=
  if 'A'.toNat ≤ c.toNat ∧ c.toNat ≤ 'Z'.toNat then Char.ofNat (c.toNat + 32) else c

/-- `str::to_ascii_lowercase`. -/
def lower (t : Text) : Text := t.map lowerChar

/-- The helper of `words`: `cur` is the word that is currently read. -/
def wordsGo : Text → Text → List Text
  | cur, [] => if cur = [] then [] else [cur]
  | cur, c :: t =>
    if isWs c then (if cur = [] then wordsGo [] t else cur :: wordsGo [] t) else wordsGo (cur ++ [c]) t

/-- `str::split_whitespace`. -/
def words (t : Text) : List Text := wordsGo [] t

/-- `char::to_digit(10)`. -/
def digit? (c : Char) : Option Nat :=
  if '0'.toNat ≤ c.toNat ∧ c.toNat ≤ '9'.toNat then some (c.toNat - '0'.toNat) else none

/-- The number of a sequence of digits, starting with the number `n`. -/
def digitsVal : Nat → Text → Option Nat
  | n, [] => some n
  | n, c :: t => (digit? c).bind fun d => digitsVal (10 * n + d) t

/-- A non-empty sequence of digits. -/
def digits? (t : Text) : Option Nat := if t = [] then none else digitsVal 0 t

/-- `str::parse` for unsigned integers up to `max`. A leading `+` is fine. -/
def parseNat (max : Nat) (t : Text) : Option Nat :=
  let n := match t with
    | '+' :: t => digits? t
    | t => digits? t
  n.bind fun n => if n ≤ max then some n else none

/-- `str::parse` for signed integers from `-max - 1` to `max`. -/
def parseInt (max : Nat) (t : Text) : Option Int :=
  match t with
  | '-' :: t => (digits? t).bind fun n => if n ≤ max + 1 then some (-n) else none
  | '+' :: t => (digits? t).bind fun n => if n ≤ max then some n else none
  | t => (digits? t).bind fun n => if n ≤ max then some n else none

/-- The character of a digit. -/
def digitChar (d : Nat) : Char := Char.ofNat ('0'.toNat + d)

/-- The helper of `printNat`; `fuel` is at least the number. -/
def printGo : Nat → Nat → Text
  | 0, n => [digitChar (n % 10)]
  | fuel + 1, n => if n < 10 then [digitChar n] else printGo fuel (n / 10) ++ [digitChar (n % 10)]

/-- `Display` of unsigned integers. -/
def printNat (n : Nat) : Text := printGo n n

/-- `Display` of signed integers. -/
def printInt (i : Int) : Text :=
  match i with
  | .ofNat n => printNat n
  | .negSucc n => '-' :: printNat (n + 1)

/-- Texts separated by a character: the loops that write a separator behind all but the last column, e.g.
`src/io/writing/network/mod.rs:72-216`. -/
def join (sep : Char) : List Text → Text
  | [] => []
  | [w] => w
  | w :: ws => w ++ sep :: join sep ws

/-- `src/helpers/mod.rs:7-9` `is_line_functional`: neither empty nor a comment. -/
def isFunctional (line : Text) : Bool := decide (line.length > 0) && decide (line.head? ≠ some '#')

/-- `u16::MAX`. -/
def maxU16 : Nat := 2 ^ 16 - 1
/-- `usize::MAX` with 64 bits. -/
def maxUsize : Nat := 2 ^ 64 - 1
/-- `i64::MAX`. -/
def maxI64 : Nat := 2 ^ 63 - 1

end Text
end Verif
