import Verif.Export
import Verif.FmiSpec
import Verif.YamlSpec

/-!
# What a map's columns are called after loading

Specification for C99: the names follow from the config alone.
-/

namespace Verif.Fit

open Cfg Yml

/-- The info of an edge that is generated. -/
def infoOf : GenInfo → MetaInfo
  | .edgeId => .edgeId
  | .srcIdx => .srcIdx
  | .srcLat => .srcLat
  | .srcLon => .srcLon
  | .dstIdx => .dstIdx
  | .dstLat => .dstLat
  | .dstLon => .dstLon
  | .shortcutIdx0 => .shortcutIdx0
  | .shortcutIdx1 => .shortcutIdx1

/-- With one more metric, which is the last one. -/
def withMetric (e : Edges) (u : Cfg.Unit) (id : Text) : Edges :=
  { e with cats := e.cats ++ [.metric u id], units := e.units ++ [u], ids := e.ids ++ [id] }

/-- The columns of edges after generating one more category: new columns come last, a converted metric stays at its
place but has another name and unit, and merging changes values only. -/
def withGenerated (e : Edges) : GenCat → Edges
  | .info i id => { e with cats := e.cats ++ [.info (infoOf i) id] }
  | .custom u id _ => withMetric e u id
  | .haversine u id => withMetric e u id
  | .copy _ dst => withMetric e dst.unit dst.id
  | .calc result _ _ => withMetric e result.unit result.id
  | .convert src dst =>
    { e with
      cats := e.cats.map fun c => match c with
        | .metric u id => if id = src.id then .metric dst.unit dst.id else .metric u id
        | c => c
      units := e.units.set (e.ids.idxOf src.id) dst.unit
      ids := e.ids.set (e.ids.idxOf src.id) dst.id }
  | .merge _ _ _ _ => e

/-- The columns of nodes and edges that are known after loading a map with this config. -/
def columns (cfg : Parsing) : List NodeCat × Edges :=
  match cfg.generating with
  | none => (cfg.nodes, cfg.edges)
  | some gen => (cfg.nodes ++ gen.nodes.map fun c => .info c.info c.id, gen.edges.foldl withGenerated cfg.edges)

/-- The columns that a document leads to, where no file is read. -/
def docColumns (N : Numbers) (doc : Yaml) : Option (List NodeCat × Edges) :=
  (parsing N (fun _ => none) doc).map fun p => columns p.2

/-! ## Sections that fit -/

/-- Every named column of nodes is known. -/
def knownNodes (c : List NodeCat × Edges) (ids : List (Option Text)) : Bool :=
  ids.all fun o => o.all fun id => c.1.any fun n => decide (Fmi.idOfNode n = some id)

/-- Every named column of edges is known. -/
def knownEdges (c : List NodeCat × Edges) (ids : List (Option Text)) : Bool :=
  ids.all fun o => o.all fun id => c.2.cats.any fun e => decide (e.id? = some id)

/-- Does the document have a section at this path? -/
def has (path : List String) (doc : Yaml) : Bool := !(valuesAt path doc).isEmpty

/-- The section for routing is accepted. -/
def routes (N : Numbers) (doc : Yaml) (c : List NodeCat × Edges) : Bool :=
  match routing N c.2 doc with
  | .ok _ => true
  | _ => false

/-- The section for writing a map is accepted, and its columns are known. -/
def writesGraph (N : Numbers) (doc : Yaml) (c : List NodeCat × Edges) : Bool :=
  (graphOut N doc).any fun o => knownNodes c o.nodes && knownEdges c o.edges.ids

/-- The section for writing data of edges is accepted, and its columns are known. -/
def writesEdges (N : Numbers) (doc : Yaml) (c : List NodeCat × Edges) : Bool :=
  (edgesInfo N doc).any fun o => knownEdges c o.ids

/-- The section for evaluating is accepted, and its columns are known. -/
def evaluates (N : Numbers) (doc : Yaml) (c : List NodeCat × Edges) : Bool :=
  (evaluating N doc).any fun o => knownEdges c o.monitoring.edgesInfo.ids

/-- The section for balancing is accepted, and its columns are known. -/
def balances (N : Numbers) (doc : Yaml) (c : List NodeCat × Edges) : Bool :=
  match balancing N doc with
  | .ok o => knownEdges c o.monitoring.edgesInfo.ids
  | _ => false

/-- All sections of the document fit to the columns of a map. -/
def Fits (N : Numbers) (doc : Yaml) (c : List NodeCat × Edges) : Prop :=
  (has ["routing"] doc → routes N doc c) ∧ (has ["writing", "graph"] doc → writesGraph N doc c) ∧
    (has ["writing", "edges-info"] doc → writesEdges N doc c) ∧
    (has ["writing", "route-pairs"] doc → (routePairs N doc).isSome) ∧
    (has ["evaluating_balance"] doc → evaluates N doc c) ∧ (has ["balancing"] doc → balances N doc c) ∧
    (has ["multi-ch-constructor"] doc → (multiCh N doc).isSome)

instance (N : Numbers) (doc : Yaml) (c : List NodeCat × Edges) : Decidable (Fits N doc c) :=
  inferInstanceAs (Decidable (_ ∧ _))

/-- Columns are read as what has been written: as the category of their names, or not at all. Last columns may be
missing. -/
def sameColumns {α : Type} [DecidableEq α] (ignored : α) (name : α → Option Text) (known : List α)
    (written : List (Option Text)) (read : List α) : Bool :=
  decide (read.length ≤ written.length) &&
    (written.zip read).all fun p => decide (p.2 = ignored) || decide (p.1 = name p.2) && known.contains p.2

/-- The map that the second document makes of columns known from the first one is read with the third one, column by
column. -/
def Reads (N : Numbers) (known writer reader : Yaml) : Prop :=
  ∃ c ∈ docColumns N known, ∃ o ∈ graphOut N writer, ∃ p ∈ parsing N (fun _ => none) reader,
    sameColumns .ignored Fmi.idOfNode c.1 o.nodes p.2.nodes ∧
      sameColumns .ignored EdgeCat.id? c.2.cats o.edges.ids p.2.edges.cats

/-- The map is written to the file that is read. -/
def SameFile (N : Numbers) (writer reader : Yaml) : Prop :=
  ∃ o ∈ graphOut N writer, ∃ p ∈ parsing N (fun _ => none) reader, p.1 = o.mapFile

/-- The data of edges that the document writes is merged when reading with the same document: same file, same header,
same columns. -/
def Merges (N : Numbers) (doc : Yaml) : Prop :=
  ∃ o ∈ edgesInfo N doc, ∃ p ∈ parsing N (fun file => some [file]) doc, ∃ g ∈ p.2.generating, ∃ m ∈ g.edges,
    ∃ id ∈ o.ids, ∃ i ∈ id, m = .merge (some [o.file]) o.header i o.ids

instance (N : Numbers) (known writer reader : Yaml) : Decidable (Reads N known writer reader) :=
  inferInstanceAs (Decidable (∃ _ ∈ _, _))

instance (N : Numbers) (writer reader : Yaml) : Decidable (SameFile N writer reader) :=
  inferInstanceAs (Decidable (∃ _ ∈ _, _))

instance (N : Numbers) (doc : Yaml) : Decidable (Merges N doc) :=
  inferInstanceAs (Decidable (∃ _ ∈ _, _))

end Verif.Fit
