import Verif.Graph

/-!
# Model of how a graph is printed, `src/network/graph/mod.rs:162-331`

The tools print it with log-level `debug` (`src/bin/osmgraphing/mod.rs:84`, `src/bin/osmgraphing/balancing/mod.rs:430`),
the examples always do. Simplification: a line consists of its values, not of its text.
-/

namespace Verif.Desc

open Approx (Coord)

/-- The lines. -/
inductive Line where
  /-- 164-169 -/
  | head (nodes edges : Nat)
  | blank
  /-- 173, whose content is not modelled -/
  | config
  /-- 187 -/
  | nodeDots
  /-- 193-199 -/
  | node (idx : Nat) (id : Int) (coord : Coord)
  /-- 232 -/
  | edgeDots (d : Dir)
  /-- 241-254 -/
  | edge (d : Dir) (id : Option Nat) (idx scOffset src : Nat) (metrics : List ℚ) (dst : Nat)
  /-- 269 -/
  | offsetDots (d : Dir)
  /-- 274-278 -/
  | offset (d : Dir) (idx offset : Nat)
  /-- 285-289 -/
  | lastOffset (d : Dir) (idx offset : Nat)
  /-- 296 -/
  | noShortcuts
  /-- 306 -/
  | shortcutDots
  /-- 316-322 -/
  | shortcut (edge scOffset : Nat) (replaced : Nat × Nat)
deriving DecidableEq, Repr

abbrev R := Res AccErr

/-- `src/network/graph/mod.rs:181-203`, `225-258`, `263-282`, `299-326`: a loop `for mut i in 0..n`, of which
`k` iterations are left. At `n - 1`, it goes on with the last index. `σ` is what an iteration passes to the next one. -/
def excerpt {σ : Type} (n count : Nat) (dots : Line) (line : σ → Nat → R (σ × Line)) :
    Nat → Nat → σ → R (List Line)
  | 0, _, _ => .ok []
  | k + 1, i, s =>
    if i < count then
      if i = n - 1 then do
        let (s, l) ← line s (count - 1)
        let rest ← excerpt n count dots line k (i + 1) s
        pure ((if i + 1 < count then [dots] else []) ++ l :: rest)
      else do
        let (s, l) ← line s i
        let rest ← excerpt n count dots line k (i + 1) s
        pure (l :: rest)
    else .ok []

/-- The limits `n` and `m`, `src/network/graph/mod.rs:177-178`. -/
def limit : Nat := 20

/-- `src/network/graph/mod.rs:192-199`. -/
def nodeLine (g : Graph) (s : Unit) (i : Nat) : R (Unit × Line) := do
  let n ← g.createNode i
  pure (s, .node i n.id n.coord)

/-- `src/network/graph/mod.rs:237-254`, where the edges of direction `d` are `fwd_edges`. -/
def edgeLine (g : Graph) (d : Dir) (s : Unit) (j : Nat) : R (Unit × Line) := do
  let src ← g.dstIdx d.opp j
  let m ← g.edgeMetrics j
  let id ← g.tryId j
  let off ← .ofIdx g.scOffsets[j]?
  let dst ← g.dstIdx d j
  pure (s, .edge d id j off src m dst)

/-- `src/network/graph/mod.rs:274-278`. -/
def offsetLine (g : Graph) (d : Dir) (s : Unit) (i : Nat) : R (Unit × Line) := do
  let off ← .ofIdx (g.offsets d)[i]?
  pure (s, .offset d i off)

/-- `src/network/graph/mod.rs:312-314`: a `while`-loop with at most `fuel` iterations. Its index grows, so it is out of
bounds before `fuel` is used up. -/
def seek (offs : List Nat) (j : Nat) : Nat → Nat → R Nat
  | 0, _ => .panic
  | fuel + 1, e => do
    let off ← .ofIdx offs[e]?
    if off ≤ j then seek offs j fuel (e + 1) else pure e

/-- `src/network/graph/mod.rs:311-322`. The subtraction underflows (panic) at `0`. -/
def shortcutLine (g : Graph) (e : Nat) (j : Nat) : R (Nat × Line) := do
  let e ← seek g.scOffsets j (g.scOffsets.length + 1) e
  if e = 0 then .panic
  else do
    let e := e - 1
    let off ← .ofIdx g.scOffsets[e]?
    let p ← .ofIdx g.scEdges[off]?
    pure (e, .shortcut e off p)

/-- `src/network/graph/mod.rs:221-292`: the lines of a direction. The subtraction of 284 underflows (panic) without
offsets. -/
def direction (g : Graph) (d : Dir) : R (List Line) := do
  let es ← excerpt limit (g.dsts d).length (.edgeDots d) (edgeLine g d) limit 0 ()
  let os ← excerpt limit g.nodeCount (.offsetDots d) (offsetLine g d) limit 0 ()
  if (g.offsets d).length = 0 then .panic
  else do
    let i := (g.offsets d).length - 1
    let off ← .ofIdx (g.offsets d)[i]?
    pure (es ++ [.blank] ++ os ++ [.lastOffset d i off, .blank])

/-- `src/network/graph/mod.rs:295-327`. -/
def shortcuts (g : Graph) : R (List Line) :=
  if g.scEdges.length = 0 then .ok [.noShortcuts]
  else excerpt limit g.scEdges.length .shortcutDots (shortcutLine g) limit 0 0

/-- `src/network/graph/mod.rs:162-331`. -/
def describe (g : Graph) : R (List Line) := do
  let ns ← excerpt limit g.nodeCount .nodeDots (nodeLine g) limit 0 ()
  let fwd ← direction g .fwd
  let bwd ← direction g .bwd
  let scs ← shortcuts g
  pure ([.head g.nodeCount g.edgeCount, .blank, .config, .blank] ++ ns ++ [.blank] ++ fwd ++ bwd ++ scs)

end Verif.Desc
