import Verif.Path
import Verif.Text

/-!
# Writing paths for SMARTS

Model of `src/io/writing/smarts.rs`. A file is the list of its lines; file errors are left out.
-/

namespace Verif.Smarts

open Text

/-- `src/io/writing/smarts.rs:58,63`. -/
def nodeLine (id : Int) : Text := "<node id=\"".toList ++ printInt id ++ "\"/>".toList

/-- `src/io/writing/smarts.rs:41-51`, with the constants of `src/defaults.rs:68-73`. -/
def vehicleLine (src dst : Int) : Text :=
  "<vehicle id=\"".toList ++ printInt src ++ "->".toList ++ printInt dst ++
    "\" type=\"CAR\" start_time=\"0.4\" driverProfile=\"NORMAL\">".toList

/-- `src/io/writing/smarts.rs:53-64`. -/
def nodeLines (g : Graph) : Bool → List Nat → Res AccErr (List Text)
  | _, [] => .ok []
  | isFirst, e :: es => do
    let first ← if isFirst then do
        let u ← g.dstIdx .bwd e
        let id ← g.nodeId u
        pure [nodeLine id]
      else pure []
    let v ← g.dstIdx .fwd e
    let id ← g.nodeId v
    let rest ← nodeLines g false es
    pure (first ++ nodeLine id :: rest)

/-- `src/io/writing/smarts.rs:40-67`: one path. -/
def vehicle (g : Graph) (p : Path) : Res AccErr (List Text) := do
  let src ← g.nodeId p.srcIdx
  let dst ← g.nodeId p.dstIdx
  let nodes ← nodeLines g true p.edges
  pure (vehicleLine src dst :: nodes ++ ["</vehicle>".toList])

/-- `src/io/writing/smarts.rs:40-67`: all paths. -/
def vehicles (g : Graph) : List Path → Res AccErr (List Text)
  | [] => .ok []
  | p :: ps => do
    let a ← vehicle g p
    let b ← vehicles g ps
    pure (a ++ b)

/-- `src/io/writing/smarts.rs:14-72` `write`. -/
def write (g : Graph) (paths : List Path) : Res AccErr (List Text) := do
  let ls ← vehicles g paths
  pure ("<?xml version=\"1.0\" encoding=\"UTF-8\"?>".toList :: "<data>".toList :: ls ++ ["</data>".toList])

end Verif.Smarts
