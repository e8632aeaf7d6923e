import Verif.Generating
import Verif.ConfigSpec
import Verif.GraphSpec

/-!
# Specification used by the properties of generated and normalized metrics

Nothing here models code.
-/

namespace Verif.Gen

open Cfg Text

/-- The `k`-th metric of edge `e`. -/
def value (ms : List (List ℚ)) (e k : Nat) : Option ℚ := ms[e]?.bind fun m => m[k]?

/-- Only metrics, edge-ids and what belongs to them may differ. -/
structure SameTopology (g g' : Graph) : Prop where
  nodeIds : g'.nodeIds = g.nodeIds
  nodeCoords : g'.nodeCoords = g.nodeCoords
  nodeLevels : g'.nodeLevels = g.nodeLevels
  fwdDsts : g'.fwdDsts = g.fwdDsts
  fwdOffsets : g'.fwdOffsets = g.fwdOffsets
  fwdMap : g'.fwdMap = g.fwdMap
  bwdDsts : g'.bwdDsts = g.bwdDsts
  bwdOffsets : g'.bwdOffsets = g.bwdOffsets
  bwdMap : g'.bwdMap = g.bwdMap
  scOffsets : g'.scOffsets = g.scOffsets
  scEdges : g'.scEdges = g.scEdges

/-- The metrics that are listed in the categories. -/
def metricsOf (cats : List EdgeCat) : List (Cfg.Unit × Text) :=
  cats.filterMap fun
    | .metric u id => some (u, id)
    | _ => none

/-- The configured metrics are those of the categories, and every edge has one value for each of them. -/
structure Consistent (s : Net) : Prop where
  metrics : List.zip s.edges.units s.edges.ids = metricsOf s.edges.cats
  len : s.edges.ids.length = s.edges.units.length
  dim : s.graph.dim = s.edges.units.length
  values : ∀ m ∈ s.graph.metrics, m.length = s.edges.units.length

/-- The mean of metric `k` over all edges. -/
def mean (ms : List (List ℚ)) (k : Nat) : ℚ := (ms.map fun m => m.getD k 0).sum / ms.length

/-- The ids that a category introduces. -/
def introduces : GenCat → Option Text
  | .info _ id => some id
  | .custom _ id _ => some id
  | .haversine _ id => some id
  | .copy _ dst => some dst.id
  | .convert src dst => if src.id = dst.id then none else some dst.id
  | .calc result _ _ => some result.id
  | .merge _ _ _ _ => none

/-- Does the category replace values or names? -/
def replaces : GenCat → Prop
  | .convert _ _ => True
  | .merge _ _ _ _ => True
  | _ => False

/-- A metric of the configuration with its unit. -/
def HasMetric (s : Net) (k : Nat) (unit : Cfg.Unit) (id : Text) : Prop :=
  s.edges.ids[k]? = some id ∧ s.edges.units[k]? = some unit

/-- The metric of a category that adds one has, for every edge, the value it should have. -/
def Generated (env : Env) (s : Net) : GenCat → Prop
  | .custom unit id default => ∃ k, HasMetric s k unit id ∧
      ∀ e < s.graph.edgeCount, value s.graph.metrics e k = some default
  | .haversine unit id => unit = .kilometers ∧ ∃ k, HasMetric s k unit id ∧
      ∀ e < s.graph.edgeCount, ∃ a b x y, s.graph.IsEdge e a b ∧ s.graph.nodeCoord a = .ok x ∧
        s.graph.nodeCoord b = .ok y ∧ value s.graph.metrics e k = some (env.haversine x y)
  | .copy src dst => ∃ i k, s.edges.ids[i]? = some src.id ∧ HasMetric s k dst.unit dst.id ∧
      ∀ e < s.graph.edgeCount, ∃ x y, value s.graph.metrics e i = some x ∧ value s.graph.metrics e k = some y ∧
        src.unit.SameValue dst.unit x y
  | .calc result a b => ∃ i j k, s.edges.ids[i]? = some a.id ∧ s.edges.ids[j]? = some b.id ∧
      HasMetric s k result.unit result.id ∧
      ∀ e < s.graph.edgeCount, ∃ x y z, value s.graph.metrics e i = some x ∧
        value s.graph.metrics e j = some y ∧ value s.graph.metrics e k = some z ∧
        result.unit.Quotient a.unit b.unit x y z
  | .info _ _ | .convert _ _ | .merge _ _ _ _ => True

/-- The lines with data: neither empty nor a comment, and without the header. -/
def dataLines (lines : List Text) (withHeader : Bool) : List Text :=
  (lines.filter fun l => decide (l ≠ [] ∧ l.head? ≠ some '#')).drop (if withHeader then 1 else 0)

/-- The line names edge `e`: the first column for the edge-id contains the id of `e`. -/
def LineEdge (g : Graph) (edgeId : Text) (cols : List (Option Text)) (line : Text) (e : Nat) : Prop :=
  ∃ (i : Nat) (p : Text) (id : Nat), cols[i]? = some (some edgeId) ∧ (∀ j : Nat, j < i → cols[j]? ≠ some (some edgeId)) ∧
    (words line)[i]? = some p ∧ parseNat maxUsize p = some id ∧ g.tryId e = .ok (some id)

/-- Column `j` is the last one for metric `k`. -/
def LastColumn (e : Edges) (edgeId : Text) (cols : List (Option Text)) (k j : Nat) : Prop :=
  ∃ id, e.ids[k]? = some id ∧ id ≠ edgeId ∧ cols[j]? = some (some id) ∧ ∀ j' : Nat, j < j' → cols[j']? ≠ some (some id)

end Verif.Gen
