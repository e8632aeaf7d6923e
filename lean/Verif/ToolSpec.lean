import Verif.Tool

/-!
# What is expected of the tool's files

Specification only.
-/

namespace Verif.Tool

open Gen

/-- A name with an extension: something, a dot, and no dot afterwards. -/
def Named (name ext : Text) : Prop :=
  name ≠ "..".toList ∧ '.' ∉ ext ∧ ∃ stem, stem ≠ [] ∧ name = stem ++ '.' :: ext

/-- Files that have been there are as before. -/
def Kept (d d' : Disk) : Prop := ∀ p lines, d p = some lines → d' p = some lines

/-- Exactly these files are new, each with its complete text. -/
structure Written (w : World) (net : Net) (outs : List Output) (d d' : Disk) : Prop where
  distinct : (outs.map Output.path).Nodup
  fresh : ∀ o ∈ outs, d o.path = none
  accepted : ∀ o ∈ outs, o.accepts net = true ∧ w.openable o.path = true
  complete : ∀ o ∈ outs, ∃ lines, o.text net = .ok lines ∧ d' o.path = some lines
  others : ∀ p, p ∉ outs.map Output.path → d' p = d p

/-- What has been asked for before the queries; `none` is a missing config. -/
def asked (w : World) (a : Args) (net : Net) : List (Option Output) :=
  (if a.graph then [w.graph] else []) ++ (if a.edges then [w.edges] else []) ++
    (if a.routePairs then [w.routePairs net] else [])

/-- The files of an evaluation. -/
def results (info : Output) (loads : List Nat → Output) (paths : List Path → Output) (ls : List Nat)
    (ps : Option (List Path)) : List Output :=
  [info, loads ls] ++ (ps.map paths).toList

/-- Everything works out: all that is asked for is written, then the queries are done, and evaluated if asked for. -/
def Succeeds (w : World) (a : Args) (d d' : Disk) : Prop :=
  ∃ net outs d1, w.parse d = .ok net ∧ outs.map some = asked w a net ∧ Written w net outs d d1 ∧
    (a.evaluating = false → d' = d1 ∧ (a.routing = true → w.route net d1 = .ok ⟨⟩)) ∧
    (a.evaluating = true → ∃ info loads paths ls ps, w.eval net = some (info, loads, paths) ∧
      d1 info.path = none ∧ d1 (loads []).path = none ∧ d1 (paths []).path = none ∧
      w.simulate net d1 = .ok (ls, ps) ∧ Written w net (results info loads paths ls ps) d1 d')

/-- A beginning of the plan has been written, and maybe the next file has been begun. -/
def Interrupted (w : World) (net : Net) (plan : List (Option Output)) (d d' : Disk) : Prop :=
  ∃ outs d1, outs.map some <+: plan ∧ Written w net outs d d1 ∧
    (d' = d1 ∨ ∃ o, (outs ++ [o]).map some <+: plan ∧ d1 o.path = none ∧ d' = d1.put o.path (w.cut o.path))

end Verif.Tool
