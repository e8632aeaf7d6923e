import Verif.Tool

/-!
# Names of maps

Model of `src/bin/osmgraphing/balancing/mod.rs:378-416` `_extract_map_name`, which is not called in this version.
-/

namespace Verif.MapName

open Tool (extension)

/-- Why there is no name. -/
inductive Err where
  | noFile
deriving DecidableEq, Repr

/-- `Path::file_stem` of a file's name: without its last extension. -/
def stem (name : Text) : Text :=
  match extension name with
  | none => name
  | some ext => name.take (name.length - (ext.length + 1))

/-- `&s[..n]` for a number of bytes: panics if the text is shorter, or if a character would be cut. -/
def bytes : Nat → Text → Res Err Text
  | 0, _ => .ok []
  | _ + 1, [] => .panic
  | n + 1, c :: cs =>
    if c.utf8Size ≤ n + 1 then do
      let rest ← bytes (n + 1 - c.utf8Size) cs
      pure (c :: rest)
    else .panic

/-- `src/bin/osmgraphing/balancing/mod.rs:380-416` `_extract_map_name`. The path is given by its last component and that of
its parent, `none` if there is no such component. The position of the dot is counted in characters, but the text is cut
at this number of bytes (405-409). -/
def mapName (dir name : Option Text) : Res Err Text :=
  match name with
  | none => .err .noFile
  | some name =>
    if "graph".toList.isPrefixOf (stem name) then
      match dir with
      | some dir => .ok dir
      | none => .panic
    else
      match (stem name).findIdx? (· = '.') with
      | some i => bytes i (stem name)
      | none => .panic

end Verif.MapName
