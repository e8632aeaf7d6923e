import Verif.Routes
import Verif.FmiSpec
import Verif.DijkstraSpec

/-!
# What route-pairs should be
-/

namespace Verif.Routes

/-- The ids of two different nodes, the first of which is connected to the second by a route. -/
def Connects (g : Graph) (p : Int × Int) : Prop :=
  ∃ (u v : Nat) (l : List Nat), u ≠ v ∧ g.nodeIds[u]? = some p.1 ∧ g.nodeIds[v]? = some p.2 ∧ g.IsRoute u l v

/-- Pairs in the order of the first id, and then of the second id. -/
def Ascending (l : List (Int × Int)) : Prop :=
  l.Pairwise fun a b => a.1 < b.1 ∨ (a.1 = b.1 ∧ a.2 < b.2)

/-- Ids of nodes fit into 64 bits. -/
def IdsFit (g : Graph) : Prop := ∀ id ∈ g.nodeIds, -2 ^ 63 ≤ id ∧ id < 2 ^ 63

/-- An integer fits into 64 bits. -/
def FitsI64 (i : Int) : Prop := -2 ^ 63 ≤ i ∧ i < 2 ^ 63

/-- A line says: so many routes between these nodes. -/
def Says (line : Text) (r : Route) : Prop :=
  ∃ a b c, Text.words line = [a, b, c] ∧ Text.parseInt (2 ^ 63 - 1) a = some r.src ∧
    Text.parseInt (2 ^ 63 - 1) b = some r.dst ∧ Text.parseNat (2 ^ 64 - 1) c = some r.count

/-- The file announces so many routes, followed by these lines: in front of the announcement, there is no line of
exactly one word, and it is not followed by another one. -/
def Announces (file : List Text) (count : Nat) (rest : List Text) : Prop :=
  ∃ pre cnt p, Fmi.functional file = pre ++ cnt :: rest ∧ (∀ line ∈ pre, (Text.words line).length ≠ 1) ∧
    Text.words cnt = [p] ∧ Text.parseNat (2 ^ 64 - 1) p = some count ∧
    ∀ line ∈ rest.head?, (Text.words line).length ≠ 1

end Verif.Routes
