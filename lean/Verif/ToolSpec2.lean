import Verif.ToolSpec

/-!
# Which files the tool's writers accept

Specification only.
-/

namespace Verif.Tool

open Text

/-- A path whose last component has this extension, in any case. -/
def PathWith (path ext : Text) : Prop :=
  ∃ dir name e, path = dir ++ name ∧ (dir = [] ∨ ∃ parent, dir = parent ++ ['/']) ∧ '/' ∉ name ∧ Named name e ∧
    lower e = ext

end Verif.Tool
