import Verif.RouteSpec

/-!
# Specification of how much is set aside while shortcuts are replaced

Nothing here models code.
-/

namespace Verif.Graph

/-- How many edges are set aside at once while an edge is replaced by plain ones: the second edge of a shortcut waits
until the first one has been replaced. -/
inductive SetsAside (g : Graph) : Nat → Nat → Prop
  | plain {e : Nat} : g.scEdgesOf e = .ok none → SetsAside g e 0
  | shortcut {e a b m n : Nat} : g.scEdgesOf e = .ok (some (a, b)) → SetsAside g a m → SetsAside g b n →
      SetsAside g e (max (m + 1) n)

end Verif.Graph
