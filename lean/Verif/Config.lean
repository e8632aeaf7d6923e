import Verif.Basic
import Verif.Streets
import Mathlib.Data.Rat.Defs
import Mathlib.Algebra.Order.Ring.Rat

/-!
# Configurations of the parser and of the router

The configurations after deserialization. Reading them from yaml-documents is modelled in `YamlConfig.lean`. The
one-to-one copies between `Raw..`, `Proto..` and final types are left out.
-/

namespace Verif.Cfg

/-- `src/configs/parsing/edges/mod.rs:137-150` `MetaInfo`. A yaml-file can only name `EdgeId`, `SrcId`,
`DstId`, and the shortcuts (272-277). -/
inductive MetaInfo where
  | edgeId
  | srcId
  | srcIdx
  | srcLat
  | srcLon
  | dstId
  | dstIdx
  | dstLat
  | dstLon
  | shortcutIdx0
  | shortcutIdx1
deriving DecidableEq, Repr

/-- `src/configs/parsing/edges/metrics.rs:51-61` `UnitInfo`, and the same type of
`src/configs/parsing/generating/edges/metrics.rs:31-41`. -/
inductive Unit where
  | meters
  | kilometers
  | seconds
  | minutes
  | hours
  | kmh
  | laneCount
  | f64
deriving DecidableEq, Repr

/-- `src/configs/parsing/edges/mod.rs:92-103` `Category`. -/
inductive EdgeCat where
  | info (info : MetaInfo) (id : Text)
  | metric (unit : Unit) (id : Text)
  | ignored
deriving DecidableEq, Repr

/-- The id of a category. -/
def EdgeCat.id? : EdgeCat → Option Text
  | .info _ id => some id
  | .metric _ id => some id
  | .ignored => none

/-- `src/configs/parsing/edges/mod.rs:10-17` `Config` with its `metrics`
(`src/configs/parsing/edges/metrics.rs:13-18`). -/
structure Edges where
  cats : List EdgeCat
  normalized : Bool
  units : List Unit
  ids : List Text
deriving DecidableEq, Repr

/-- `src/configs/parsing/nodes/mod.rs:60-65` `MetaInfo`. -/
inductive NodeInfo where
  | nodeId
  | nodeIdx
  | chLevel
deriving DecidableEq, Repr

/-- `src/configs/parsing/nodes/metrics.rs:4-9` `UnitInfo`. -/
inductive NodeUnit where
  | latitude
  | longitude
  | height
deriving DecidableEq, Repr

/-- `src/configs/parsing/nodes/mod.rs:22-33` `Category`. -/
inductive NodeCat where
  | info (info : NodeInfo) (id : Text)
  | metric (unit : NodeUnit) (id : Text)
  | ignored
deriving DecidableEq, Repr

/-- `src/configs/parsing/generating/edges/mod.rs:99-110` `MetaInfo`. -/
inductive GenInfo where
  | edgeId
  | srcIdx
  | srcLat
  | srcLon
  | dstIdx
  | dstLat
  | dstLon
  | shortcutIdx0
  | shortcutIdx1
deriving DecidableEq, Repr

/-- `src/configs/parsing/generating/edges/metrics.rs:15-19` `Category`. -/
structure GenMetric where
  unit : Unit
  id : Text
deriving DecidableEq, Repr

/-- `src/configs/parsing/generating/edges/mod.rs:12-50` `Category`. The path of the file to merge is
replaced by the file's lines; `none` if the file can't be opened. A column of a merge is ignored if `none`
(`src/configs/parsing/generating/edges/merge.rs:4-8`). -/
inductive GenCat where
  | info (info : GenInfo) (id : Text)
  | custom (unit : Unit) (id : Text) (default : ℚ)
  | haversine (unit : Unit) (id : Text)
  | copy (src dst : GenMetric)
  | convert (src dst : GenMetric)
  | calc (result a b : GenMetric)
  | merge (file : Option (List Text)) (withHeader : Bool) (edgeId : Text) (cols : List (Option Text))
deriving DecidableEq, Repr

/-- `src/configs/parsing/generating/nodes/mod.rs:10-13` `Category`. -/
structure GenNodeCat where
  info : NodeInfo
  id : Text
deriving DecidableEq, Repr

/-- `src/configs/parsing/generating/mod.rs:5-9` `Config`. -/
structure Generating where
  nodes : List GenNodeCat
  edges : List GenCat
deriving DecidableEq, Repr

/-- `src/configs/parsing/mod.rs:28-36` `Config` without the path of the map. -/
structure Parsing where
  vehicle : Osm.Vehicle
  picky : Bool
  nodes : List NodeCat
  edges : Edges
  generating : Option Generating
deriving DecidableEq, Repr

/-- Why a configuration is rejected. -/
inductive Err where
  | duplicateId
  | unknownMetric
  | noNodeId
  | noLatitude
  | noLongitude
  | dimension
  | shortcutCount
  | unit
  | number
  | infinite
deriving DecidableEq, Repr

/-! ## Edges -/

/-- `src/configs/parsing/edges/mod.rs:31-57`: does a later category have the same id as this one? -/
def hasDuplicate : List EdgeCat → Bool
  | [] => false
  | c :: cs =>
    (match c.id? with
      | none => false
      | some id => cs.any fun d => d.id? == some id) || hasDuplicate cs

/-- `src/configs/parsing/edges/mod.rs:19-89` `TryFrom<ProtoConfig>`. `normalized` has its default
`false` already (`src/defaults.rs:43`). -/
def Edges.tryFrom (cats : List EdgeCat) (normalized : Bool) : Except Err Edges :=
  if hasDuplicate cats then .error .duplicateId
  else .ok
    { cats, normalized
      units := cats.filterMap fun | .metric u _ => some u | _ => none
      ids := cats.filterMap fun | .metric _ id => some id | _ => none }

/-- `src/configs/parsing/edges/metrics.rs:21-37` `try_idx_of`. -/
def Edges.tryIdxOf (e : Edges) (id : Text) : Except Err Nat :=
  match e.ids.findIdx? fun i => decide (i = id) with
  | some i => .ok i
  | none => .error .unknownMetric

/-! ## Units -/

/-- The conversions of the crate `kissunits`, as far as they are used; assumed to be the physical ones. -/
def kmOfM (x : ℚ) : ℚ := x / 1000
@[inherit_doc kmOfM] def mOfKm (x : ℚ) : ℚ := x * 1000
@[inherit_doc kmOfM] def minOfS (x : ℚ) : ℚ := x / 60
@[inherit_doc kmOfM] def hOfS (x : ℚ) : ℚ := x / 3600
@[inherit_doc kmOfM] def sOfMin (x : ℚ) : ℚ := x * 60
@[inherit_doc kmOfM] def hOfMin (x : ℚ) : ℚ := x / 60
@[inherit_doc kmOfM] def sOfH (x : ℚ) : ℚ := x * 3600
@[inherit_doc kmOfM] def minOfH (x : ℚ) : ℚ := x * 60

/-- `src/configs/parsing/edges/metrics.rs:94-167` `try_convert`. -/
def Unit.tryConvert (src dst : Unit) (x : ℚ) : Except Err ℚ :=
  let r : Option ℚ := match src with
    | .meters => match dst with
      | .meters | .f64 => some x
      | .kilometers => some (kmOfM x)
      | .seconds | .minutes | .hours | .kmh | .laneCount => none
    | .kilometers => match dst with
      | .meters => some (mOfKm x)
      | .kilometers | .f64 => some x
      | .seconds | .minutes | .hours | .kmh | .laneCount => none
    | .seconds => match dst with
      | .seconds | .f64 => some x
      | .minutes => some (minOfS x)
      | .hours => some (hOfS x)
      | .meters | .kilometers | .kmh | .laneCount => none
    | .minutes => match dst with
      | .minutes | .f64 => some x
      | .seconds => some (sOfMin x)
      | .hours => some (hOfMin x)
      | .meters | .kilometers | .kmh | .laneCount => none
    | .hours => match dst with
      | .hours | .f64 => some x
      | .seconds => some (sOfH x)
      | .minutes => some (minOfH x)
      | .meters | .kilometers | .kmh | .laneCount => none
    | .kmh => match dst with
      | .kmh | .f64 => some x
      | .meters | .kilometers | .seconds | .minutes | .hours | .laneCount => none
    | .laneCount => match dst with
      | .laneCount | .f64 => some x
      | .meters | .kilometers | .seconds | .minutes | .hours | .kmh => none
    | .f64 => some x
  match r with
  | some y => .ok y
  | none => .error .unit

/-- `src/configs/parsing/generating/edges/metrics.rs:58-138` `try_convert`. -/
def Unit.genConvert (src dst : Unit) (x : ℚ) : Except Err ℚ :=
  let r : Option ℚ := match src with
    | .meters => match dst with
      | .meters => some x
      | .kilometers => some (kmOfM x)
      | .seconds => none
      | .minutes => none
      | .hours => none
      | .kmh => none
      | .laneCount => none
      | .f64 => some x
    | .kilometers => match dst with
      | .meters => some (mOfKm x)
      | .kilometers => some x
      | .seconds => none
      | .minutes => none
      | .hours => none
      | .kmh => none
      | .laneCount => none
      | .f64 => some x
    | .seconds => match dst with
      | .meters => none
      | .kilometers => none
      | .seconds => some x
      | .minutes => some (minOfS x)
      | .hours => some (hOfS x)
      | .kmh => none
      | .laneCount => none
      | .f64 => some x
    | .minutes => match dst with
      | .meters => none
      | .kilometers => none
      | .seconds => some (sOfMin x)
      | .minutes => some x
      | .hours => some (hOfMin x)
      | .kmh => none
      | .laneCount => none
      | .f64 => some x
    | .hours => match dst with
      | .meters => none
      | .kilometers => none
      | .seconds => some (sOfH x)
      | .minutes => some (minOfH x)
      | .hours => some x
      | .kmh => none
      | .laneCount => none
      | .f64 => some x
    | .kmh => match dst with
      | .meters => none
      | .kilometers => none
      | .seconds => none
      | .minutes => none
      | .hours => none
      | .kmh => some x
      | .laneCount => none
      | .f64 => some x
    | .laneCount => match dst with
      | .meters => none
      | .kilometers => none
      | .seconds => none
      | .minutes => none
      | .hours => none
      | .kmh => none
      | .laneCount => some x
      | .f64 => some x
    | .f64 => some x
  match r with
  | some y => .ok y
  | none => .error .unit

/-- `src/configs/parsing/generating/edges/metrics.rs:140-263` `try_calc`. A division by zero is not
an error in the code but gives an infinite value or none, which is not modelled: here, it is the error
`infinite`. -/
def Unit.tryCalc (result ua : Unit) (a : ℚ) (ub : Unit) (b : ℚ) : Except Err ℚ :=
  let r : Option ℚ := match result with
    | .meters => none
    | .kilometers => none
    | .seconds => if ua = .kilometers ∧ ub = .kmh then some (sOfH (a / b)) else none
    | .minutes => if ua = .kilometers ∧ ub = .kmh then some (minOfH (a / b)) else none
    | .hours => if ua = .kilometers ∧ ub = .kmh then some (a / b) else none
    | .kmh => if ua = .kilometers ∧ ub = .hours then some (a / b) else none
    | .laneCount => none
    | .f64 => none
  match r with
  | some y => if b = 0 then .error .infinite else .ok y
  | none => .error .unit

/-! ## Check -/

/-- How many metrics a generating category adds, according to `check_config`. -/
def GenCat.newDims : GenCat → Nat
  | .info _ _ => 0
  | .convert _ _ => 0
  | .calc _ _ _ => 1
  | .copy _ _ => 1
  | .haversine _ _ => 1
  | .custom _ _ _ => 1
  | .merge _ _ _ _ => 0

/-- Is this the column of a replaced edge? -/
def EdgeCat.isShortcut : EdgeCat → Bool
  | .info .shortcutIdx0 _ => true
  | .info .shortcutIdx1 _ => true
  | _ => false

/-- `src/io/parsing/network/graph/mod.rs:107-239` `check_config`; `maxDim` is the dimension the code is
compiled for (`GRAPH_DIM`). -/
def check (maxDim : Nat) (c : Parsing) : Except Err PUnit.{1} :=
  if !(c.nodes.any fun | .info .nodeId _ => true | _ => false) then .error .noNodeId
  else if !(c.nodes.any fun | .metric .latitude _ => true | _ => false) then .error .noLatitude
  else if !(c.nodes.any fun | .metric .longitude _ => true | _ => false) then .error .noLongitude
  else
    let dim := c.edges.units.length +
      match c.generating with
      | some gen => (gen.edges.map GenCat.newDims).sum
      | none => 0
    if dim > maxDim then .error .dimension
    else
      let count := c.edges.cats.countP EdgeCat.isShortcut
      if count > 0 ∧ count ≠ 2 then .error .shortcutCount
      else .ok ⟨⟩

/-! ## Routing -/

/-- `src/configs/routing.rs:263-289` `ProtoEntry`; an infinite tolerance is `none`. -/
structure Entry where
  id : Text
  alpha : ℚ
  tolerance : Option ℚ
deriving DecidableEq, Repr

/-- `src/configs/routing.rs:322-333` `RawEntry`. -/
structure RawEntry where
  id : Text
  alpha : Option ℚ
  tolerance : Option Text
deriving DecidableEq, Repr

/-- `src/configs/routing.rs:271-289` `TryFrom<RawEntry>`. `parseF` is `str::parse` for `f64`. -/
def Entry.tryFrom (parseF : Text → Option (Option ℚ)) (r : RawEntry) : Except Err Entry :=
  let tol : Except Err (Option ℚ) := match r.tolerance with
    | some snippet =>
      let s := Text.lower snippet
      if s = "inf".toList ∨ s = "infinity".toList then .ok none
      else match parseF s with
        | some x => .ok x
        | none => .error .number
    | none => .ok none
  tol.bind fun tolerance => .ok { id := r.id, alpha := r.alpha.getD 1, tolerance }

/-- Alphas and tolerances of a `src/configs/routing.rs:20-26` `Config`. -/
structure Routing where
  alphas : List ℚ
  tolerances : List (Option ℚ)
deriving DecidableEq, Repr

/-- `src/configs/routing.rs:71-76`: one entry. Writing to an index that is out of bounds panics. -/
def setEntry (e : Edges) (r : Routing) (entry : Entry) : Res Err Routing :=
  match e.tryIdxOf entry.id with
  | .error err => .err err
  | .ok i =>
    if i < r.alphas.length ∧ i < r.tolerances.length then
      .ok { alphas := r.alphas.set i entry.alpha, tolerances := r.tolerances.set i entry.tolerance }
    else .panic

/-- `src/configs/routing.rs:61-84` `try_from_proto`. -/
def routing (e : Edges) (entries : List Entry) : Res Err Routing :=
  entries.foldlM (setEntry e)
    { alphas := List.replicate e.units.length 0, tolerances := List.replicate e.units.length none }

end Verif.Cfg
