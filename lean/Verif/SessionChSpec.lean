import Verif.SessionSpec

/-!
# Specification of maps with shortcuts and levels

What is expected of the lines of a map that has been prepared for ch-dijkstra. Nothing here models code.
-/

namespace Verif.Session

open Text Cfg
open Build (lifted)

/-- The line mentions two other lines of edges by their positions, i.e. it is a shortcut for them. Positions are
numbers, hence `-1` is none. -/
def StandsFor (cats : List EdgeCat) (line : Text) (i j : Nat) : Prop :=
  (∃ (k : Nat) (id t : Text), cats[k]? = some (.info .shortcutIdx0 id) ∧ (words line)[k]? = some t ∧
    parseNat maxUsize t = some i) ∧
  ∃ (k : Nat) (id t : Text), cats[k]? = some (.info .shortcutIdx1 id) ∧ (words line)[k]? = some t ∧
    parseNat maxUsize t = some j

open Classical in
/-- The lines that are no shortcuts. -/
noncomputable def plainLines (cats : List EdgeCat) (lines : List Text) : List Text :=
  lines.filter fun line => ¬ ∃ i j, StandsFor cats line i j

/-- The line of a node gives this level to this id. -/
def HasLevel (cats : List NodeCat) (line : Text) (id : Int) (l : Nat) : Prop :=
  (∃ (k : Nat) (name t : Text), cats[k]? = some (.info .nodeId name) ∧ (words line)[k]? = some t ∧
    parseInt maxI64 t = some id) ∧
  ∃ (k : Nat) (name t : Text), cats[k]? = some (.info .chLevel name) ∧ (words line)[k]? = some t ∧
    parseNat maxUsize t = some l

/-- There is a column for levels, and the nodes have these. -/
def Levels (cats : List NodeCat) (lines : List Text) (lv : Int → Nat) : Prop :=
  (∃ name, .info .chLevel name ∈ cats) ∧ ∀ line ∈ lines, ∀ id l, HasLevel cats line id l → l = lv id

/-- Some of the lines lead from `a` to `b` over nodes above level `k`, head to tail, and have these metrics. -/
def ConnectsAbove (c : Fmi.Codec) (cats : List EdgeCat) (lines : List Text) (lv : Int → Nat) (k : Nat) :
    Int → List (List ℚ) → Int → Prop
  | a, [], b => a = b
  | a, [m], b => ∃ line ∈ lines, Leads c cats line a b m
  | a, m :: m' :: ms, b => ∃ line ∈ lines, ∃ x, Leads c cats line a x m ∧ k < lv x ∧
      ConnectsAbove c cats lines lv k x (m' :: ms) b

/-- The weighted costs of metrics. Values around zero count as `1e-6`. -/
def costOf (al m : List ℚ) : ℚ := weighed al (m.map lifted)

/-- Neighbours have different levels, and two lines over a node that is lower than both ends can be replaced by lines
over nodes that are higher than it, which cost not more. -/
structure ContractedLines (c : Fmi.Codec) (cats : List EdgeCat) (lines : List Text) (lv : Int → Nat) (al : List ℚ) :
    Prop where
  differ : ∀ line ∈ lines, ∀ a b m, Leads c cats line a b m → a ≠ b → lv a ≠ lv b
  bypass : ∀ line ∈ lines, ∀ line' ∈ lines, ∀ a x b m m', Leads c cats line a x m → Leads c cats line' x b m' →
    lv x < lv a → lv x < lv b → ∃ ms, ConnectsAbove c cats lines lv (lv x) a ms b ∧
      (ms.map (costOf al)).sum ≤ costOf al m + costOf al m'

/-- Every shortcut leads where the lines lead that it mentions. -/
def ShortcutsLead (c : Fmi.Codec) (cats : List EdgeCat) (lines : List Text) : Prop :=
  ∀ line ∈ lines, ∀ i j a b m, StandsFor cats line i j → Leads c cats line a b m →
    ∃ line₁ line₂ x m₁ m₂, lines[i]? = some line₁ ∧ lines[j]? = some line₂ ∧ Leads c cats line₁ a x m₁ ∧
      Leads c cats line₂ x b m₂

/-- Every shortcut costs at least what the lines cost that it mentions. -/
def ShortcutsCost (c : Fmi.Codec) (cats : List EdgeCat) (lines : List Text) (al : List ℚ) : Prop :=
  ∀ line ∈ lines, ∀ i j a b m, StandsFor cats line i j → Leads c cats line a b m →
    ∀ line₁ line₂ a₁ b₁ m₁ a₂ b₂ m₂, lines[i]? = some line₁ → lines[j]? = some line₂ → Leads c cats line₁ a₁ b₁ m₁ →
      Leads c cats line₂ a₂ b₂ m₂ → costOf al m₁ + costOf al m₂ ≤ costOf al m

end Verif.Session
