import Verif.FitLemmas
import Verif.Shipped
import Verif.SessionProps

/-!
# C99 and C100: configurations that fit
-/

namespace Verif.Fit

open Cfg Yml Gen
open Session (World load loadMap)

section
variable {K : Type}

theorem loadMap_columns {w : World K} {file : Text} {cfg : Parsing} {net : Net} (h : loadMap w file cfg = .ok net) :
    (net.nodes, net.edges) = columns cfg := by
  unfold loadMap at h
  split at h
  · simp at h
  · split at h
    · simp at h
    · split at h
      · simp at h
      · replace h := mapErr_ok h
        simp only [Fmi.load, Res.bind_eq_ok] at h
        obtain ⟨p, -, g, -, h⟩ := h
        replace h := mapErr_ok h
        exact finish_columns h
  · split at h
    · simp at h
    · split at h
      · simp at h
      · split at h
        · simp at h
        · simp only [Res.bind_eq_ok] at h
          obtain ⟨g, -, h⟩ := h
          replace h := mapErr_ok h
          exact finish_columns h

/-- C99: the columns of nodes and edges, which all other sections of a document refer to, follow from the document, in the
way described by the specification. -/
theorem C99_columns {w : World K} {doc : Yaml} {net : Net} (h : load w doc = .ok net) :
    docColumns w.numbers doc = some (net.nodes, net.edges) := by
  unfold load at h
  split at h
  · simp at h
  · rename_i file cfg hp
    have h1 := parsing_columns w.numbers w.text (fun _ => none) doc
    rw [hp] at h1
    have h2 := congrArg (Option.map Prod.snd) h1
    rw [loadMap_columns h, docColumns]
    simpa [Option.map_map, Function.comp_def] using h2.symm

/-- C99: they are the same for every map, whatever files are merged. -/
theorem C99_any_map {w w' : World K} {doc : Yaml} {net net' : Net} (hN : w.numbers = w'.numbers)
    (h : load w doc = .ok net) (h' : load w' doc = .ok net') : net.nodes = net'.nodes ∧ net.edges = net'.edges := by
  have h1 := C99_columns h
  rw [hN, C99_columns h'] at h1
  simp only [Option.some.injEq, Prod.mk.injEq] at h1
  exact ⟨h1.1.symm, h1.2.symm⟩

/-- C99: so whether a section for routing is accepted, and what it means, does not depend on the map. -/
theorem C99_routing {w w' : World K} {doc doc2 : Yaml} {net net' : Net} (hN : w.numbers = w'.numbers)
    (h : load w doc = .ok net) (h' : load w' doc = .ok net') :
    routing w.numbers net.edges doc2 = routing w'.numbers net'.edges doc2 := by
  rw [(C99_any_map hN h h').2, hN]

end

/-- The example of a session, with its map and with a smaller one: the columns are the same. -/
def emptyWorld : World ℚ :=
  { Session.exWorld with text := fun f => if f = "isle.fmi".toList then some ["0".toList, "0".toList] else none }

def loaded (w : World ℚ) : Option (Nat × List NodeCat × Edges) :=
  match load w (Session.exDoc Session.exIr) with
  | .ok net => some (net.graph.metrics.length, net.nodes, net.edges)
  | _ => none

example : (loaded Session.exWorld).map Prod.fst = some 5 ∧ (loaded emptyWorld).map Prod.fst = some 0 ∧
    (loaded Session.exWorld).map Prod.snd = (loaded emptyWorld).map Prod.snd := by
  decide +kernel

/-! ## C100 -/

open Shipped

/-- C100: the shipped documents, without three of them: every section is accepted, and every column that is routed with,
written or monitored is one of those that the section for parsing leads to. -/
theorem C100_shipped_partial : ∀ doc ∈ fine, ∃ c ∈ docColumns exNumbers doc, Fits exNumbers doc c := by
  decide +kernel

/-- C100: this is about all documents that are shipped, except for the following three. -/
theorem C100_all : all.length = 36 ∧ ∀ doc ∈ all, doc ∈ fine ∨ doc ∈ [simpleNormalizedFmi, regbezBalConfig, regbezPbfToFmi] :=
  ⟨rfl, fun _ h => List.mem_append.mp h⟩

/-- C100: so with any map, as soon as it is loaded, all other sections fit to it. -/
theorem C100_any_map {K : Type} {w : World K} {doc : Yaml} {net : Net}
    (hN : w.numbers = exNumbers) (hd : doc ∈ fine) (h : load w doc = .ok net) :
    Fits exNumbers doc (net.nodes, net.edges) := by
  obtain ⟨c, hc, hf⟩ := C100_shipped_partial doc hd
  have h1 := C99_columns h
  rw [hN] at h1
  rw [h1] at hc
  cases hc
  exact hf

/-- For example, a small map with `resources/simple_stuttgart/fmi.yaml`. -/
def smallWorld : World ℚ :=
  { Session.exWorld with
    text := fun f =>
      if f = "resources/simple_stuttgart/graph.fmi".toList then
        some ["2".toList, "1".toList, "7 1/1 1/1".toList, "9 1/1 2/1".toList, "7 9 3000/1 50/1".toList]
      else none }

example : (match load smallWorld simpleFmi with
    | .ok net => (routes exNumbers simpleFmi (net.nodes, net.edges), net.edges.ids.map String.ofList, net.graph.metrics)
    | _ => (false, [], [])) = (true, ["kilometers", "kmph", "hours"], [[3, 50, 3 / 50]]) := by
  decide +kernel

/-- C100: what the balancer is configured with fits together: the maps of both kinds of iterations have the columns that
balancing, routing and writing the balanced map need, and every iteration's map can be written from the map before. -/
theorem C100_iterations :
    ∀ d ∈ [(isleBalConfig, isleBalInit, isleBalIteration), (saarlandBalConfig, saarlandBalInit, saarlandBalIteration)],
      ∃ c ∈ docColumns exNumbers d.1, ∃ c0 ∈ docColumns exNumbers d.2.1, ∃ ci ∈ docColumns exNumbers d.2.2,
        writesGraph exNumbers d.2.1 c ∧ writesEdges exNumbers d.2.1 c ∧ writesGraph exNumbers d.2.2 c0 ∧
        writesEdges exNumbers d.2.2 c0 ∧ writesGraph exNumbers d.2.2 ci ∧ writesEdges exNumbers d.2.2 ci ∧
        (∀ c' ∈ [c0, ci], routes exNumbers d.1 c' ∧ balances exNumbers d.1 c' ∧ writesGraph exNumbers d.1 c') := by
  decide +kernel

/-- C100: both kinds of iterations merge the data of edges that they have written themselves. -/
theorem C100_merged : ∀ doc ∈ [isleBalInit, isleBalIteration, saarlandBalInit, saarlandBalIteration, regbezBalInit,
    regbezBalIteration], Merges exNumbers doc := by
  decide +kernel

/-- C100: a converted map is read by the documents for it as what has been written, and so is the balanced map when it is
evaluated. -/
theorem C100_chain :
    (∀ doc ∈ [isleFmi, isleFmiToCh, isleBalConfig],
      SameFile exNumbers islePbfToFmi doc ∧ Reads exNumbers islePbfToFmi islePbfToFmi doc) ∧
    (∀ doc ∈ [saarlandFmi, saarlandFmiToCh, saarlandBalConfig],
      SameFile exNumbers saarlandPbfToFmi doc ∧ Reads exNumbers saarlandPbfToFmi saarlandPbfToFmi doc) ∧
    (∀ doc ∈ [isleBalEvalDijkstra0Config, isleBalEvalDijkstra1Config, isleBalEvalExpl0Config, isleBalEvalExpl1Config],
      Reads exNumbers isleBalIteration isleBalConfig doc) ∧
    (∀ doc ∈ [saarlandBalEvalDijkstra0Config, saarlandBalEvalDijkstra1Config, saarlandBalEvalExpl0Config,
      saarlandBalEvalExpl1Config], Reads exNumbers saarlandBalIteration saarlandBalConfig doc) := by
  decide +kernel

/-- A document with another value at this path. -/
def put (v : Yaml) : List String → Yaml → Yaml
  | [], _ => v
  | k :: ks, .map es =>
    if es.any fun e => decide (e.1 = k.toList) then .map (es.map fun e => if e.1 = k.toList then (e.1, put v ks e.2) else e)
    else .map (es ++ [(k.toList, v)])
  | _, d => d

/-- C100 is false for `resources/simple_stuttgart/normalized_fmi.yaml`, whose section for routing names no algorithm. With
one, everything fits. -/
theorem C100_false_normalized :
    (∃ c ∈ docColumns exNumbers simpleNormalizedFmi, ¬ Fits exNumbers simpleNormalizedFmi c ∧
      routing exNumbers c.2 simpleNormalizedFmi = .err .serde) ∧
    let doc := put (quoted "Dijkstra") ["routing", "algorithm"] simpleNormalizedFmi
    ∃ c ∈ docColumns exNumbers doc, Fits exNumbers doc c := by
  decide +kernel

/-- C100 is false for `resources/stuttgart-regbez_2019-09-07/balancing/config.yaml`: the section for balancing has the form
of an older version. -/
theorem C100_false_balancing :
    (∃ c ∈ docColumns exNumbers regbezBalConfig, ¬ Fits exNumbers regbezBalConfig c ∧
      balancing exNumbers regbezBalConfig = .err .serde) ∧
    let doc := put (dict [("edges-info", dict [("file", quoted "edges-info.csv"), ("ids", .seq [col "edge-id"])])])
      ["balancing", "monitoring"]
      (put (dict [("metric-id", quoted "workload"), ("method", plain "averaging")]) ["balancing", "optimizing_with"]
        regbezBalConfig)
    ∃ c ∈ docColumns exNumbers doc, Fits exNumbers doc c := by
  decide +kernel

/-- C100 is false for `resources/stuttgart-regbez_2019-09-07/pbf_to_fmi.yaml`, which lists the columns of edges directly
instead of below `ids`. -/
theorem C100_false_export :
    (∃ c ∈ docColumns exNumbers regbezPbfToFmi, ¬ Fits exNumbers regbezPbfToFmi c ∧
      graphOut exNumbers regbezPbfToFmi = none) ∧
    let doc := put (dict [("ids", .seq [col "src-idx", col "dst-idx", col "kilometers", col "hours", col "lane-count",
      plain "ignored", plain "ignored"])]) ["writing", "graph", "edges"] regbezPbfToFmi
    ∃ c ∈ docColumns exNumbers doc, Fits exNumbers doc c := by
  decide +kernel

end Verif.Fit
