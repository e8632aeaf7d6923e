import Verif.Session
import Verif.FmiSpec
import Verif.ToolSpec
import Verif.YamlDocSpec
import Verif.YamlSpec
import Verif.DijkstraSpec
import Verif.BuildingSpec

/-!
# Specification used by the properties of the tool's routing

Routes in terms of the lines of a map, without any graph. Nothing here models code.
-/

namespace Verif.Session

open Text Cfg Yml
open Build (lifted)

/-! ## Files -/

/-- Besides comments and empty lines, the file consists of other lines, lines with one of these numbers each, and these
rows. -/
def HasRows (file : List Text) (counts : List Nat) (rows : List Text) : Prop :=
  ∃ pre head, Fmi.functional file = pre ++ head ++ rows ∧ (∀ line ∈ pre, (words line).length ≠ 1) ∧
    List.Forall₂ (fun line n => ∃ t, words line = [t] ∧ parseNat maxUsize t = some n) head counts ∧
    ∀ line ∈ rows.head?, (words line).length ≠ 1

/-- A map: the last two numbers are those of nodes and edges. Rows behind the edges are surplus. -/
def MapFile (file nodes edges : List Text) : Prop :=
  ∃ counts rest, HasRows file (counts ++ [nodes.length, edges.length]) (nodes ++ edges ++ rest)

/-- Route-pairs: the last number is that of the pairs. -/
def PairsFile (file pairs : List Text) : Prop := ∃ counts rest, HasRows file (counts ++ [pairs.length]) (pairs ++ rest)

/-- The line asks for a route between these nodes. -/
def Asks (line : Text) (a b : Int) : Prop :=
  ∃ x y z, words line = [x, y, z] ∧ parseInt maxI64 x = some a ∧ parseInt maxI64 y = some b

/-! ## Routes on lines -/

/-- The columns of metrics. -/
def metricCols (cats : List EdgeCat) : List Nat :=
  (List.range cats.length).filter fun j =>
    match cats[j]? with
    | some (.metric _ _) => true
    | _ => false

/-- The line of a map is an edge from `a` to `b` with these metrics: they are in the columns that are configured for
them. -/
structure Leads (c : Fmi.Codec) (cats : List EdgeCat) (line : Text) (a b : Int) (m : List ℚ) : Prop where
  src : ∃ (j : Nat) (id t : Text), cats[j]? = some (.info .srcId id) ∧ (words line)[j]? = some t ∧
    parseInt maxI64 t = some a
  dst : ∃ (j : Nat) (id t : Text), cats[j]? = some (.info .dstId id) ∧ (words line)[j]? = some t ∧
    parseInt maxI64 t = some b
  metrics : List.Forall₂ (fun j x => ∃ t, (words line)[j]? = some t ∧ c.parseF t = some x) (metricCols cats) m

/-- Some of the lines lead from `a` to `b`, head to tail, and have these metrics. -/
def Connects (c : Fmi.Codec) (cats : List EdgeCat) (lines : List Text) : Int → List (List ℚ) → Int → Prop
  | a, [], b => a = b
  | a, m :: ms, b => ∃ line ∈ lines, ∃ x, Leads c cats line a x m ∧ Connects c cats lines x ms b

/-- The sums of these metrics. Values around zero count as `1e-6`. -/
def Sums (dim : Nat) (ms : List (List ℚ)) (c : List ℚ) : Prop :=
  c.length = dim ∧ ∀ k, k < dim → c[k]? = some ((ms.map fun m => lifted ((m[k]?).getD 0)).sum)

/-- The alphas of the metrics, as the user has written them. -/
def alphas (ip : ParsingIn) (ir : RoutingIn) : List ℚ :=
  (Fmi.metricIds ip.edges).map (alphaOf (ir.metrics.map EntryIn.entry))

/-- How far routes may exceed the best value of a metric, as the user has written it. `none` is unlimited. -/
def tolerances (ip : ParsingIn) (ir : RoutingIn) : List (Option ℚ) :=
  (Fmi.metricIds ip.edges).map (toleranceOf (ir.metrics.map EntryIn.entry))

/-- Costs weighted by alphas. -/
def weighed (al c : List ℚ) : ℚ := (List.zipWith (· * ·) al c).sum

/-- At most `deg` lines lead from one and the same node, and at most `deg` lines lead to it. -/
def Degree (c : Fmi.Codec) (cats : List EdgeCat) (lines : List Text) (deg : Nat) : Prop :=
  ∀ (a : Int) (js : List Nat), js.Nodup →
    ((∀ j ∈ js, ∃ line b m, lines[j]? = some line ∧ Leads c cats line a b m) ∨
      (∀ j ∈ js, ∃ line b m, lines[j]? = some line ∧ Leads c cats line b a m)) → js.length ≤ deg

/-- Lines between the same nodes have the same metrics, or some metrics differ by at least `1.5e-6`. -/
def Distinct (c : Fmi.Codec) (cats : List EdgeCat) (lines : List Text) : Prop :=
  ∀ line ∈ lines, ∀ line' ∈ lines, ∀ a b m m', Leads c cats line a b m → Leads c cats line' a b m' → m = m' ∨
    ∃ (k : Nat) (x y : ℚ), m[k]? = some x ∧ m'[k]? = some y ∧ 3 / 2000000 ≤ |x - y|

/-! ## The setting -/

/-- The user has written these settings for parsing and routing, and the files mentioned there have these lines. Metrics
are neither generated nor normalized. -/
structure Setting {K : Type} (w : World K) (wr : Writer) (doc : Yaml) (ip : ParsingIn) (ir : RoutingIn)
    (nodes edges pairs : List Text) : Prop where
  writer : wr.Fits w.numbers
  parsing : ∃ y, ip.doc wr = some y ∧ valuesAt ["parsing"] doc = [y]
  routing : valuesAt ["routing"] doc = [ir.doc wr]
  unique : UniqueIds ip.edges
  known : ∀ m ∈ ir.metrics, m.id ∈ Fmi.metricIds ip.edges
  generating : ip.generating = none
  normalized : ip.normalized ≠ some true
  fmi : ∃ ext, Tool.Named (Tool.fileName ip.mapFile) ext ∧ lower ext = "fmi".toList
  map : ∃ file, w.text ip.mapFile = some file ∧ MapFile file nodes edges
  pairs : ∃ pairsFile file, ir.pairsFile = some pairsFile ∧ w.text pairsFile = some file ∧ PairsFile file pairs

/-- The map has no column for shortcuts. -/
def NoShortcuts (ip : ParsingIn) : Prop := ∀ id, .info .shortcutIdx0 id ∉ ip.edges

/-- The report tells the truth about routes from `a` to `b`: it says that there is none iff there is none, else it
contains the costs of some. -/
def Truthful (c : Fmi.Codec) (ip : ParsingIn) (edges : List Text) (a b : Int) : Report → Prop
  | .nothing src dst => src.id = a ∧ dst.id = b ∧ ¬ ∃ ms, Connects c ip.edges edges a ms b
  | .costs src dst cs => src.id = a ∧ dst.id = b ∧
      ∃ ms, Connects c ip.edges edges a ms b ∧ Sums (Fmi.metricIds ip.edges).length ms cs
  | .found src dst ps => src.id = a ∧ dst.id = b ∧ ps ≠ [] ∧ ∀ p ∈ ps, ∃ ms cs, p.costs = some cs ∧
      Connects c ip.edges edges a ms b ∧ Sums (Fmi.metricIds ip.edges).length ms cs

/-- The reported costs exceed those of every route by at most this slack, which may depend on the number of the route's
edges. -/
def Cheapest (c : Fmi.Codec) (ip : ParsingIn) (al : List ℚ) (edges : List Text) (slack : Nat → ℚ) (a b : Int) :
    Report → Prop
  | .costs _ _ cs => ∀ ms, Connects c ip.edges edges a ms b →
      weighed al cs ≤ (ms.map fun m => weighed al (m.map lifted)).sum + slack ms.length
  | _ => True

/-- The reports are about the first pairs, in their order, and about all of them if the task is finished. -/
def ReportsOn (P : Int → Int → Report → Prop) (pairs : List Text) (out : List Report × Option (Res Err PUnit)) : Prop :=
  ∃ done rest, pairs = done ++ rest ∧
    List.Forall₂ (fun line rep => ∃ a b, Asks line a b ∧ P a b rep) done out.1 ∧
    (out.2 = some (.ok ⟨⟩) → rest = [])

end Verif.Session
