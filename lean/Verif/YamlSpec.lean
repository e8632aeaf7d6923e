import Verif.YamlConfig
import Mathlib.Data.List.Forall2

/-!
# What is expected of the configurations in yaml-files

Nothing here uses the functions that read documents.
-/

namespace Verif.Yml

/-! ## Parts of a document -/

/-- All values at a path of keys. -/
def valuesAt : List String → Yaml → List Yaml
  | [], y => [y]
  | k :: ks, .map es => es.flatMap fun e => if e.1 = k.toList then valuesAt ks e.2 else []
  | _ :: _, .scalar _ _ => []
  | _ :: _, .seq _ => []

/-- Replace all values at a path of keys. -/
def replaceAt : List String → Yaml → Yaml → Yaml
  | [], v, _ => v
  | k :: ks, v, .map es => .map (es.map fun e => if e.1 = k.toList then (e.1, replaceAt ks v e.2) else e)
  | _ :: _, _, .scalar q t => .scalar q t
  | _ :: _, _, .seq ys => .seq ys

/-- A document that is a map has every key once, as yaml demands. -/
def UniqueKeys : Yaml → Prop
  | .map es => (es.map Prod.fst).Nodup
  | _ => True

/-- The first map has this key with nothing as its value, and the second is the same without the key. -/
def Blank (k : String) (v v' : Yaml) : Prop :=
  ∃ (es es' : List (Text × Yaml)) (t : Text), (t = "~".toList ∨ t = "null".toList) ∧
    v = .map (es ++ (k.toList, .scalar false t) :: es') ∧ v' = .map (es ++ es') ∧ ∀ e ∈ es ++ es', e.1 ≠ k.toList

/-- Only the values at this path matter. -/
def DependsOn {ρ : Type} (path : List String) (f : Yaml → ρ) : Prop :=
  ∀ d d' : Yaml, UniqueKeys d → UniqueKeys d' → valuesAt path d = valuesAt path d' → f d = f d'

/-- These keys lead into the document, where lists are passed through. -/
inductive HasPath : Yaml → List Text → Prop where
  | here {es : Entries} {k : Text} {v : Yaml} : (k, v) ∈ es → HasPath (.map es) [k]
  | key {es : Entries} {k : Text} {v : Yaml} {p : List Text} : (k, v) ∈ es → HasPath v p → HasPath (.map es) (k :: p)
  | item {ys : List Yaml} {v : Yaml} {p : List Text} : v ∈ ys → HasPath v p → HasPath (.seq ys) p

/-- The same without passing through lists. -/
inductive HasMapPath : Yaml → List Text → Prop where
  | here {es : Entries} {k : Text} {v : Yaml} : (k, v) ∈ es → HasMapPath (.map es) [k]
  | key {es : Entries} {k : Text} {v : Yaml} {p : List Text} :
      (k, v) ∈ es → HasMapPath v p → HasMapPath (.map es) (k :: p)

/-- Two documents differ only in the order of keys. -/
inductive Same : Yaml → Yaml → Prop where
  | scalar (q : Bool) (t : Text) : Same (.scalar q t) (.scalar q t)
  | seq {ys ys' : List Yaml} : List.Forall₂ Same ys ys' → Same (.seq ys) (.seq ys')
  | map {es es' : Entries} {vs vs' : List Yaml} {ks : List Text} :
      List.Forall₂ Same vs vs' → es.Perm (ks.zip vs) → es' = ks.zip vs' → Same (.map es) (.map es')

/-! ## Texts -/

/-- A scalar that can't be taken for something else than a text. -/
def IsText (N : Numbers) : Yaml → Prop
  | .scalar q t => q = true ∨
      (t ∉ ["~".toList, "null".toList, "true".toList, "false".toList] ∧ N.nat t = none ∧ N.float t = none)
  | _ => False

/-- The texts of a section for the multi-ch-constructor are clearly texts. The ratio may be omitted by `~`. -/
def MultiChTexts (N : Numbers) (y : Yaml) : Prop :=
  (∀ v ∈ valuesAt ["fmi-graph"] y, IsText N v) ∧ (∀ v ∈ valuesAt ["contracted-graph"] y, IsText N v) ∧
    ∀ v ∈ valuesAt ["contraction-ratio"] y, IsText N v ∨ v = .scalar false "~".toList ∨ v = .scalar false "null".toList

/-- The texts of a section for edges are clearly texts. A column is a text or has one. -/
def EdgesInfoTexts (N : Numbers) (y : Yaml) : Prop :=
  (∀ v ∈ valuesAt ["file"] y, IsText N v) ∧
    ∀ cols, .seq cols ∈ valuesAt ["ids"] y → ∀ c ∈ cols,
      (∀ q t, c = .scalar q t → IsText N c) ∧ ∀ v ∈ valuesAt ["id"] c, IsText N v

/-! ## The keys of sections

These are the keys in `resources/blueprint.yaml` and the configurations beside it. -/

/-- A path is one of these. -/
def OneOf (ps : List (List String)) (p : List Text) : Prop := p ∈ ps.map fun q => q.map String.toList

/-- A key with what is below it. -/
def below (k : String) (ps : List (List String)) : List (List String) := [k] :: ps.map fun p => k :: p

/-- `resources/blueprint.yaml:154-172,201-215`; `minimum-cost` is mentioned for the balancer only. -/
def multiChKeys : List (List String) :=
  [["fmi-graph"], ["contracted-graph"], ["dimension"], ["minimum-cost"], ["cost-accuracy"], ["contraction-ratio"],
    ["number_of_threads"], ["is_printing_osm-ids"], ["is_using_external_edge-ids"]]

/-- The columns to write: names of variants count as keys. -/
def columnKeys : List (List String) := [["id"], ["ignored"]]

/-- `resources/blueprint.yaml:265-278`. -/
def edgesInfoKeys : List (List String) :=
  [["file"], ["with_shortcuts"], ["will_denormalize_metrics_by_mean"]] ++ below "ids" columnKeys

/-- `resources/blueprint.yaml:242-264`. -/
def graphKeys : List (List String) :=
  [["map-file"]] ++ below "nodes" columnKeys ++
    below "edges" ([["with_shortcuts"], ["will_denormalize_metrics_by_mean"]] ++ below "ids" columnKeys)

/-- `resources/blueprint.yaml:177-184`. -/
def monitoringKeys : List (List String) := [["export_vehicles_for_SMARTS"]] ++ below "edges-info" edgesInfoKeys

/-- `resources/blueprint.yaml:124-186`. -/
def balancingKeys : List (List String) :=
  [["seed"], ["results-dir"], ["iter-0-cfg"], ["iter-i-cfg"], ["number_of_metric-updates"], ["number_of_threads"],
    ["min_new_metric"], ["throw_err_when_new_metric_is_zero"]] ++
    below "multi-ch-constructor" multiChKeys ++ below "monitoring" monitoringKeys ++
    below "optimizing_with" ([["metric-id"]] ++ below "method" ([["averaging"]] ++ below "explicit_euler" [["correction"]]))

/-- `resources/blueprint.yaml:188-198`. The number of threads isn't mentioned there, but in
`resources/isle_of_man_2020-03-14/balancing/evaluation/explorator/0/config.yaml:38`. -/
def evaluatingKeys : List (List String) :=
  [["seed"], ["results-dir"], ["number_of_threads"]] ++ below "monitoring" monitoringKeys

/-- `resources/blueprint.yaml:223-236`. How the explorator is given isn't mentioned there, but in
`resources/isle_of_man_2020-03-14/balancing/evaluation/explorator/0/config.yaml:29-31`. -/
def routingKeys : List (List String) :=
  [["route-pairs-file"]] ++
    below "algorithm" ([["Dijkstra"], ["CHDijkstra"]] ++ below "Explorator" (below "algo" [["Dijkstra"], ["CHDijkstra"]])) ++
    below "metrics" [["id"], ["alpha"], ["tolerated-scale"]]

/-- `resources/blueprint.yaml:280-290`. -/
def routePairsKeys : List (List String) := [["file"]] ++ below "random_or_all" [["seed"], ["max_count"]]

/-- The keys of the section for parsing that don't belong to an element of a list: `resources/blueprint.yaml:20-118`. -/
def parsingMapKeys : List (List String) :=
  [["map-file"], ["nodes"]] ++ below "vehicles" [["category"], ["are_drivers_picky"]] ++
    below "edges" [["will_normalize_metrics_by_mean"], ["data"]] ++ below "generating" [["nodes"], ["edges"]]

/-- A value of an enum given as map, e.g. `category: { Car: ~ }`. -/
def vehicleNames : List (List String) :=
  [["vehicles", "category", "Car"], ["vehicles", "category", "Bicycle"], ["vehicles", "category", "Pedestrian"]]

end Verif.Yml
