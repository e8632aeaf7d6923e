import Verif.Text
import Mathlib.Data.Rat.Defs

/-!
# Yaml-documents and how they are deserialized

The configurations are read with `serde` (1.0.114) and `serde_yaml` (0.8.13), see `Cargo.lock:1877,1930`. No line of
the code base is modelled here; this file models what these crates do for the attributes that the configurations use:
structs with required and optional fields, `deny_unknown_fields`, `flatten`, enums and vectors.

Simplifications:
* A document is the tree that the yaml-parser finds. Syntax, tags, anchors and aliases are not modelled.
* Keys are texts.
* A struct is given as map. (Serde takes a list of its fields as well.)
* All errors of serde are the same value `none`.
-/

namespace Verif.Yml

/-- A document. A scalar is quoted or plain; an omitted value is the plain scalar `~`. -/
inductive Yaml where
  | scalar (quoted : Bool) (text : Text)
  | seq (items : List Yaml)
  | map (entries : List (Text × Yaml))

/-- How plain scalars are read as numbers (`visit_untagged_str` of `serde_yaml`, with `str::parse`): `nat` are those that
are an `u64`, `float` are the other finite numbers. Simplification: infinite values and NaN are no numbers. `parseF` is
`str::parse` for `f64`, where `some none` is infinite. -/
structure Numbers where
  nat : Text → Option Nat
  float : Text → Option ℚ
  parseF : Text → Option (Option ℚ)

/-- What a scalar is. -/
inductive Kind where
  | null
  | bool (b : Bool)
  | nat (n : Nat)
  | num (x : ℚ)
  | str
deriving DecidableEq

/-- A plain scalar standing for nothing. -/
def isNull (t : Text) : Bool := decide (t = "~".toList) || decide (t = "null".toList)

section
variable (N : Numbers)

/-- A quoted scalar is a text, a plain one may be something else. -/
def kind (quoted : Bool) (t : Text) : Kind :=
  if quoted then .str
  else if isNull t then .null
  else if t = "true".toList then .bool true
  else if t = "false".toList then .bool false
  else match N.nat t with
    | some n => .nat n
    | none => match N.float t with
      | some x => .num x
      | none => .str

/-- A deserializer. -/
abbrev Dec (α : Type) := Yaml → Option α

/-- `String` and `PathBuf`. Usually, every scalar is fine, even if plain and a number. But the values of flattened fields
are buffered (`buf`) as what they are without knowing what is expected, and a number isn't converted back. -/
def text (buf : Bool) : Dec Text
  | .scalar q t => if buf then (match kind N q t with | .str => some t | _ => none) else some t
  | .seq _ => none
  | .map _ => none

/-- `u64` and `usize`. -/
def nat : Dec Nat
  | .scalar q t => match kind N q t with
    | .nat n => some n
    | _ => none
  | .seq _ => none
  | .map _ => none

/-- `f64`. -/
def num : Dec ℚ
  | .scalar q t => match kind N q t with
    | .nat n => some n
    | .num x => some x
    | _ => none
  | .seq _ => none
  | .map _ => none

/-- `bool`. -/
def bool : Dec Bool
  | .scalar q t => match kind N q t with
    | .bool b => some b
    | _ => none
  | .seq _ => none
  | .map _ => none

end

/-- `Option`. -/
def orNull {α : Type} (d : Dec α) : Dec (Option α)
  | .scalar false t => if isNull t then some none else (d (.scalar false t)).map some
  | y => (d y).map some

/-- `Vec`. -/
def vec {α : Type} (d : Dec α) : Dec (List α)
  | .seq items => items.mapM d
  | .scalar _ _ => none
  | .map _ => none

/-! ## Structs -/

/-- The entries of a map. -/
abbrev Entries := List (Text × Yaml)

/-- All values of a key. -/
def values (k : String) (es : Entries) : List Yaml := (es.filter fun e => decide (e.1 = k.toList)).map Prod.snd

/-- A required field. Giving it twice is an error. -/
def req {α : Type} (k : String) (d : Dec α) (es : Entries) : Option α :=
  match values k es with
  | [v] => d v
  | _ => none

/-- An optional field. -/
def opt {α : Type} (k : String) (d : Dec α) (es : Entries) : Option (Option α) :=
  match values k es with
  | [] => some none
  | [v] => orNull d v
  | _ => none

/-- A struct that ignores keys it doesn't know. -/
def open_ {α : Type} (f : Entries → Option α) : Dec α
  | .map es => f es
  | .scalar _ _ => none
  | .seq _ => none

/-- A struct with `deny_unknown_fields`. With flattened fields, their keys are known as well. -/
def closed {α : Type} (known : List String) (f : Entries → Option α) : Dec α
  | .map es => if es.all fun e => known.any fun k => decide (e.1 = k.toList) then f es else none
  | .scalar _ _ => none
  | .seq _ => none

/-! ## Enums -/

/-- A variant without fields: its name, or a map from its name to nothing. -/
def unitVariant (N : Numbers) (buf : Bool) (name : String) : Yaml → Bool
  | .scalar q t => decide (t = name.toList) && (!buf || decide (kind N q t = .str))
  | .map [(k, .scalar false v)] => decide (k = name.toList) && isNull v
  | _ => false

/-- An enum whose variants have no fields. -/
def names {α : Type} (N : Numbers) (buf : Bool) (vs : List (String × α)) : Dec α := fun y =>
  (vs.find? fun v => unitVariant N buf v.1 y).map Prod.snd

/-- A variant with content: a map with its name as only key. -/
def variant {α : Type} (name : String) (d : Dec α) : Dec α
  | .map [(k, v)] => if k = name.toList then d v else none
  | _ => none

/-- The first that succeeds. It is used for variants with different names. -/
def firstOf {α : Type} (ds : List (Dec α)) : Dec α := fun y => ds.findSome? fun d => d y

end Verif.Yml
