import Verif.YamlKeys
import Verif.YamlOrder
import Verif.YamlDocLemmas
import Verif.YamlEmbedLemmas
import Verif.YamlSample

/-!
# Properties of the configurations in yaml-files (C82 - C88)
-/

namespace Verif.Yml

open Cfg

/-! ## Sections of a document -/

theorem section_of {α : Type} {k : String} {d : Dec α} {doc v : Yaml} {a : α} (h : open_ (req k d) doc = some a)
    (hv : v ∈ valuesAt [k] doc) : d v = some a := by
  cases doc with
  | scalar q t => cases h
  | seq ys => cases h
  | map es =>
    rw [valuesAt_one] at hv
    exact req_mem h (mem_values.mp hv)

theorem section_of_two {α : Type} {k l : String} {d : Dec α} {doc v : Yaml} {a : α}
    (h : open_ (req k (open_ (req l d))) doc = some a) (hv : v ∈ valuesAt [k, l] doc) : d v = some a := by
  cases doc with
  | scalar q t => cases h
  | seq ys => cases h
  | map es =>
    rw [valuesAt_cons, List.mem_flatMap] at hv
    obtain ⟨m, hm, hv⟩ := hv
    exact section_of (req_mem h (mem_values.mp hm)) hv

theorem section_eq {α : Type} {k : String} (d : Dec α) {doc v : Yaml} (h : valuesAt [k] doc = [v]) :
    open_ (req k d) doc = d v := by
  cases doc with
  | scalar q t => cases h
  | seq ys => cases h
  | map es =>
    rw [valuesAt_one] at h
    show req k d es = d v
    unfold req
    rw [h]

theorem section_eq_two {α : Type} {k l : String} (d : Dec α) {doc v : Yaml} (hu : UniqueKeys doc)
    (h : valuesAt [k, l] doc = [v]) : open_ (req k (open_ (req l d))) doc = d v := by
  cases doc with
  | scalar q t => cases h
  | seq ys => cases h
  | map es =>
    have h1 := values_le_one (k := k) hu
    rw [valuesAt_cons] at h
    show req k _ es = d v
    unfold req
    rcases hv : values k es with _ | ⟨m, _ | ⟨n, ms⟩⟩
    · rw [hv] at h; cases h
    · rw [hv] at h
      exact section_eq d (by simpa using h)
    · rw [hv] at h1; simp at h1

theorem section_missing {α : Type} {k : String} (d : Dec α) {doc : Yaml} (h : valuesAt [k] doc = []) :
    open_ (req k d) doc = none := by
  cases doc with
  | scalar q t => rfl
  | seq ys => rfl
  | map es =>
    rw [valuesAt_one] at h
    exact req_nil h

theorem section_missing_two {α : Type} {k l : String} (d : Dec α) {doc : Yaml} (h : valuesAt [k, l] doc = []) :
    open_ (req k (open_ (req l d))) doc = none := by
  cases hr : open_ (req k (open_ (req l d))) doc with
  | none => rfl
  | some a =>
    cases doc with
    | scalar q t => cases hr
    | seq ys => cases hr
    | map es =>
      rw [valuesAt_cons, List.flatMap_eq_nil_iff] at h
      obtain ⟨m, hm, hd⟩ := req_eq hr
      have := section_missing d (h m (by rw [hm]; simp))
      rw [this] at hd
      cases hd

/-! ## C82 -/

/-- C82: what is read for one purpose depends on nothing but its own section. -/
theorem C82_sections (N : Numbers) (lines : Text → Option (List Text)) (e : Edges) :
    DependsOn ["parsing"] (parsing N lines) ∧ DependsOn ["routing"] (routing N e) ∧
      DependsOn ["balancing"] (balancing N) ∧ DependsOn ["evaluating_balance"] (evaluating N) ∧
      DependsOn ["multi-ch-constructor"] (multiCh N) ∧ DependsOn ["writing", "graph"] (graphOut N) ∧
      DependsOn ["writing", "edges-info"] (edgesInfo N) ∧ DependsOn ["writing", "route-pairs"] (routePairs N) := by
  refine ⟨dependsOn_open _ _, ?_, ?_, dependsOn_open _ _, dependsOn_open _ _, dependsOn_open_open _ _ _,
    dependsOn_open_open _ _ _, dependsOn_open_open _ _ _⟩
  · intro d d' h1 h2 h3
    unfold routing
    rw [dependsOn_open "routing" (routingContent N) d d' h1 h2 h3]
  · intro d d' h1 h2 h3
    unfold balancing
    rw [dependsOn_open "balancing" (balancingContent N) d d' h1 h2 h3]

/-- C82: a missing section is an error. -/
theorem C82_missing (N : Numbers) (lines : Text → Option (List Text)) (e : Edges) (d : Yaml) :
    (valuesAt ["parsing"] d = [] → parsing N lines d = none) ∧
      (valuesAt ["routing"] d = [] → routing N e d = .err .serde) ∧
      (valuesAt ["balancing"] d = [] → balancing N d = .err .serde) ∧
      (valuesAt ["evaluating_balance"] d = [] → evaluating N d = none) ∧
      (valuesAt ["multi-ch-constructor"] d = [] → multiCh N d = none) ∧
      (valuesAt ["writing", "graph"] d = [] → graphOut N d = none) ∧
      (valuesAt ["writing", "edges-info"] d = [] → edgesInfo N d = none) ∧
      (valuesAt ["writing", "route-pairs"] d = [] → routePairs N d = none) := by
  refine ⟨section_missing _, fun h => ?_, fun h => ?_, section_missing _, section_missing _, section_missing_two _,
    section_missing_two _, section_missing_two _⟩
  · unfold routing
    rw [section_missing _ h]
  · unfold balancing
    rw [section_missing _ h]

/-! ## C83 -/

/-- C83: every key in an accepted section is a known one, on all levels and within lists. -/
theorem C83_keys (N : Numbers) (e : Edges) (d v : Yaml) (p : List Text) (hp : HasPath v p) :
    (∀ c, multiCh N d = some c → v ∈ valuesAt ["multi-ch-constructor"] d → OneOf multiChKeys p) ∧
      (∀ c, edgesInfo N d = some c → v ∈ valuesAt ["writing", "edges-info"] d → OneOf edgesInfoKeys p) ∧
      (∀ c, graphOut N d = some c → v ∈ valuesAt ["writing", "graph"] d → OneOf graphKeys p) ∧
      (∀ c, balancing N d = .ok c → v ∈ valuesAt ["balancing"] d → OneOf balancingKeys p) ∧
      (∀ c, evaluating N d = some c → v ∈ valuesAt ["evaluating_balance"] d → OneOf evaluatingKeys p) ∧
      (∀ c, routing N e d = .ok c → v ∈ valuesAt ["routing"] d → OneOf routingKeys p) := by
  refine ⟨fun c h hv => keys_multiCh N false v c p (section_of h hv) hp,
    fun c h hv => keys_edgesInfo N false v c p (section_of_two h hv) hp,
    fun c h hv => keys_graph N v c p (section_of_two h hv) hp, fun c h hv => ?_,
    fun c h hv => keys_evaluating N v c p (section_of h hv) hp, fun c h hv => ?_⟩
  · unfold balancing at h
    split at h
    · cases h
    · rename_i b hb
      exact keys_balancing N v b p (section_of hb hv) hp
  · unfold routing at h
    split at h
    · cases h
    · rename_i b hb
      exact keys_routing N v b p (section_of hb hv) hp

/-- C83 for the other sections. For parsing, the elements of lists are missing, and for pairs of routes, what is below
the upmost keys. -/
theorem C83_keys_partial (N : Numbers) (lines : Text → Option (List Text)) (d v : Yaml) :
    (∀ c p, parsing N lines d = some c → v ∈ valuesAt ["parsing"] d → HasMapPath v p →
        OneOf (parsingMapKeys ++ vehicleNames) p) ∧
      (∀ c k, routePairs N d = some c → v ∈ valuesAt ["writing", "route-pairs"] d → HasPath v [k] →
        OneOf [["file"], ["random_or_all"]] [k]) :=
  ⟨fun c p h hv hp => mapKeys_parsing N lines v c p (section_of h hv) hp,
    fun c k h hv hp => keys_routePairs_top N v c k (section_of_two h hv) hp⟩

/-- The pairs of routes with a misspelt seed. -/
def typoPairs : Yaml :=
  sectionOf [("writing", some (sectionOf [("route-pairs", some (sectionOf
    [("file", some (str "f".toList)), ("random_or_all", some (sectionOf
      [("sed", some (count exWriter 7)), ("max_count", some (count exWriter 10))]))]))]))]

/-- C83 is false below `random_or_all`: a misspelt seed is ignored, and the default is taken. -/
theorem C83_false_pairs : routePairs exNumbers typoPairs = some ⟨"f".toList, 42, 10⟩ ∧
    ∃ v ∈ valuesAt ["writing", "route-pairs"] typoPairs,
      HasPath v ["random_or_all".toList, "sed".toList] ∧ ¬ OneOf routePairsKeys ["random_or_all".toList, "sed".toList] := by
  refine ⟨by decide +kernel, _, List.mem_singleton.mpr rfl, ?_, by unfold OneOf; decide +kernel⟩
  exact .key (List.mem_cons_of_mem _ List.mem_cons_self) (.here List.mem_cons_self)

/-- A section for parsing that generates this for edges. -/
def genDoc (nodes edges : List Yaml) : Yaml :=
  sectionOf [("parsing", some (sectionOf
    [("map-file", some (str "f".toList)), ("nodes", some (.seq [])),
      ("edges", some (sectionOf [("data", some (.seq []))])),
      ("generating", some (sectionOf [("nodes", some (.seq nodes)), ("edges", some (.seq edges))]))]))]

/-- C83 is false within the lists of parsing: a misspelt default is ignored, and zero is taken. -/
theorem C83_false_parsing :
    ((parsing exNumbers (fun _ => none) (genDoc [] [tagged "custom" (sectionOf
      [("id", some (str "x".toList)), ("defualt", some (count exWriter 3))])])).bind fun r => r.2.generating) =
      some { nodes := [], edges := [.custom .f64 "x".toList 0] } := by decide +kernel

/-! ## C84 -/

/-- C84: the order of keys is irrelevant, on all levels. -/
theorem C84_order (N : Numbers) (lines : Text → Option (List Text)) (e : Edges) (d d' : Yaml) (h : Same d d') :
    parsing N lines d = parsing N lines d' ∧ routing N e d = routing N e d' ∧ balancing N d = balancing N d' ∧
      evaluating N d = evaluating N d' ∧ multiCh N d = multiCh N d' ∧ graphOut N d = graphOut N d' ∧
      edgesInfo N d = edgesInfo N d' ∧ routePairs N d = routePairs N d' := by
  refine ⟨respects_section (respects_parsing N lines) _ d d' h, ?_, ?_, respects_section (respects_evaluating N) _ d d' h,
    respects_section (respects_multiCh N false) _ d d' h,
    respects_section (respects_section (respects_graph N) _) _ d d' h,
    respects_section (respects_section (respects_edgesInfo N false) _) _ d d' h,
    respects_section (respects_section (respects_routePairs N) _) _ d d' h⟩
  · unfold routing
    rw [respects_section (respects_routing N) "routing" d d' h]
  · unfold balancing
    rw [respects_section (respects_balancing N) "balancing" d d' h]

/-! ## C85 -/

section
variable {N : Numbers} {w : Writer}

/-- C85 for the multi-ch-constructor. -/
theorem C85_multi_ch (hw : w.Fits N) (i : MultiChIn) (hi : i.Small) (d : Yaml)
    (h : valuesAt ["multi-ch-constructor"] d = [i.doc w]) : multiCh N d = some i.cfg :=
  (section_eq _ h).trans (multiCh_doc hw false i hi)

/-- C85 for writing. -/
theorem C85_writing (hw : w.Fits N) (d : Yaml) (hu : UniqueKeys d) :
    (∀ i : GraphIn, valuesAt ["writing", "graph"] d = [i.doc] → graphOut N d = some i.cfg) ∧
      (∀ i : EdgesInfoIn, valuesAt ["writing", "edges-info"] d = [i.doc] → edgesInfo N d = some i.cfg) ∧
      (∀ i : RoutePairsIn, i.Small → valuesAt ["writing", "route-pairs"] d = [i.doc w] → routePairs N d = some i.cfg) :=
  ⟨fun i h => (section_eq_two _ hu h).trans (graph_doc hw i),
    fun i h => (section_eq_two _ hu h).trans (edgesInfo_doc hw false i),
    fun i hi h => (section_eq_two _ hu h).trans (routePairs_doc hw i hi)⟩

/-- C85 for balancing. -/
theorem C85_balancing (hw : w.Fits N) (i : BalancingIn) (hi : i.Small) (d : Yaml)
    (h : valuesAt ["balancing"] d = [i.doc w]) : balancing N d = .ok i.cfg := by
  unfold balancing
  rw [section_eq _ h, balancing_doc hw i hi]
  dsimp only
  rw [if_pos hi.updates]
  rfl

/-- C85 for evaluating. -/
theorem C85_evaluating (hw : w.Fits N) (i : EvaluatingIn) (hi : i.Small) (d : Yaml)
    (h : valuesAt ["evaluating_balance"] d = [i.doc w]) : evaluating N d = some i.cfg :=
  (section_eq _ h).trans (evaluating_doc hw i hi)

/-- C85 for routing: every metric of the graph has the alpha and the tolerance of its last entry. -/
theorem C85_routing (hw : w.Fits N) {cats : List EdgeCat} {n : Bool} {e : Edges} (he : Edges.tryFrom cats n = .ok e)
    (i : RoutingIn) (hi : ∀ m ∈ i.metrics, m.id ∈ e.ids) (d : Yaml) (h : valuesAt ["routing"] d = [i.doc w]) :
    routing N e d = .ok
      { pairsFile := i.pairsFile, algo := i.algo
        routing :=
          { alphas := e.ids.map (alphaOf (i.metrics.map EntryIn.entry))
            tolerances := e.ids.map (toleranceOf (i.metrics.map EntryIn.entry)) } } := by
  unfold routing
  rw [section_eq _ h, routing_doc hw i]
  dsimp only
  rw [C42_routing he (i.metrics.map EntryIn.entry) (by
    intro x hx
    obtain ⟨m, hm, rfl⟩ := List.mem_map.mp hx
    exact hi m hm)]

/-- C85 for parsing. -/
theorem C85_parsing (hw : w.Fits N) (lines : Text → Option (List Text)) (i : ParsingIn) (hu : UniqueIds i.edges) (d y : Yaml)
    (hy : i.doc w = some y) (h : valuesAt ["parsing"] d = [y]) : parsing N lines d = some (i.mapFile, i.cfg lines) :=
  (section_eq _ h).trans (parsing_doc hw lines i hu y hy)

end

/-- The balancing of `resources/isle_of_man_2020-03-14/balancing/config.yaml:42-88`, shortened. -/
def isleBalancing : BalancingIn where
  seed := some 42
  resultsDir := "custom/results".toList
  iter0 := "init.yaml".toList
  iterI := "iteration.yaml".toList
  multiCh :=
    { fmiGraph := "graph.fmi".toList, chGraph := "graph.ch.fmi".toList, dim := 3, minCost := none, accuracy := none
      ratio := some "99.8".toList, threads := none, osmIds := true, externalIds := true }
  updates := 2
  monitoring :=
    { edgesInfo :=
        { file := "edges-info.csv".toList, shortcuts := some false, denormalize := none
          ids := [some "edge-id".toList, none, some "kilometers".toList] }
      smarts := none }
  metricId := "workload".toList
  method := .averaging
  threads := some 4
  minNewMetric := some (1 / 10)
  isErrWhenZero := none

theorem isle_small : isleBalancing.Small where
  seed n h := by obtain rfl : 42 = n := Option.some.inj h; decide
  multiCh := ⟨by decide, fun n h => by cases h⟩
  updates := by decide
  threads n h := by obtain rfl : 4 = n := Option.some.inj h; decide

/-- The routing of the same file in lines 90-100, with another alpha and tolerance for the last metric. -/
def isleRouting : RoutingIn where
  pairsFile := some "10_000.route-pairs".toList
  algo := .explorator true
  metrics := [⟨"kilometers".toList, none, none⟩, ⟨"hours".toList, none, some (some (7 / 5))⟩, ⟨"workload".toList, some 2, some none⟩]

def isleParsing : ParsingIn where
  mapFile := "graph.fmi".toList
  vehicles := none
  nodes := [.ignored, .info .nodeId "node-id".toList, .metric .latitude "lat".toList, .metric .longitude "lon".toList]
  normalized := some true
  edges := [.info .edgeId "edge-id".toList, .info .srcId "src-id".toList, .info .dstId "dst-id".toList,
    .metric .kilometers "kilometers".toList, .metric .hours "hours".toList, .metric .f64 "workload".toList]
  generating := some (["node-idx".toList],
    [.info .srcIdx "src-idx".toList, .copy ⟨.kilometers, "kilometers".toList⟩ ⟨.kilometers, "dummy".toList⟩,
      .custom none "load".toList (some 1)])

/-- A document with several sections. -/
def isleDoc : Yaml :=
  sectionOf
    [("parsing", isleParsing.doc exWriter), ("balancing", some (isleBalancing.doc exWriter)),
      ("routing", some (isleRouting.doc exWriter))]

/-- Hypotheses of C85 and C82; the defaults fill what is omitted. -/
example : balancing exNumbers isleDoc = .ok isleBalancing.cfg ∧ isleBalancing.cfg.numIter = 3 ∧
    isleBalancing.cfg.multiCh.threads = 4 ∧ isleBalancing.cfg.isErrWhenZero = true ∧
    isleBalancing.cfg.multiCh.accuracy = 1 / 10000 ∧ valuesAt ["writing"] isleDoc = [] ∧ UniqueKeys isleDoc :=
  ⟨C85_balancing exFits isleBalancing isle_small isleDoc (by rfl), by decide +kernel, by decide +kernel, by decide +kernel,
    by decide +kernel, by rfl, by show List.Nodup _; decide +kernel⟩

example : parsing exNumbers (fun _ => none) isleDoc = some ("graph.fmi".toList, isleParsing.cfg fun _ => none) ∧
    (isleParsing.cfg fun _ => none).vehicle = .car ∧ (isleParsing.cfg fun _ => none).edges.normalized = true := by
  refine ⟨?_, rfl, rfl⟩
  obtain ⟨y, hy⟩ : ∃ y, isleParsing.doc exWriter = some y := ⟨_, by rfl⟩
  refine C85_parsing exFits _ isleParsing (by unfold UniqueIds; decide +kernel) isleDoc y hy ?_
  unfold isleDoc
  rw [hy, sectionOf_eq, valuesAt_one, values_given]
  simp

example : ∃ e, Edges.tryFrom isleParsing.edges true = .ok e ∧ routing exNumbers e isleDoc = .ok
    { pairsFile := some "10_000.route-pairs".toList, algo := .explorator true
      routing := { alphas := [1, 1, 2], tolerances := [none, some (7 / 5), none] } } := by
  refine ⟨_, rfl, ?_⟩
  rw [C85_routing exFits (n := true) (cats := isleParsing.edges) rfl isleRouting (by decide +kernel) isleDoc (by rfl)]
  decide +kernel

/-- C85 is false for the largest number of updates, which is accepted by serde but can't be increased by one. -/
theorem C85_false_updates :
    balancing exNumbers (sectionOf [("balancing", some ({ isleBalancing with updates := 2 ^ 64 - 1 }.doc exWriter))]) =
      .panic := by decide +kernel

/-- Hypotheses of C83: a typo in the section of the balancer is found. -/
example : balancing exNumbers (sectionOf [("balancing", some (match isleBalancing.doc exWriter with
    | .map es => .map (("sed".toList, count exWriter 7) :: es)
    | y => y))]) = .err .serde := by decide +kernel

/-- Hypotheses of C84. -/
example : Same (.map [("a".toList, str []), ("b".toList, flag true)]) (.map [("b".toList, flag true), ("a".toList, str [])]) :=
  .map (ks := ["b".toList, "a".toList]) (vs := [flag true, str []]) (.cons (.scalar _ _) (.cons (.scalar _ _) .nil))
    (List.Perm.swap _ _ _) rfl

theorem values_blank {k l : String} {es es' : Entries} {t : Text} (h : l ≠ k) :
    values l (es ++ (k.toList, .scalar false t) :: es') = values l (es ++ es') := by
  have hk : k.toList ≠ l.toList := fun hkl => h (String.toList_inj.mp hkl.symm)
  simp only [values, List.filter_append, List.filter_cons, decide_eq_true_eq, hk, if_false]

theorem opt_blank {α : Type} {k l : String} (d : Dec α) {es es' : Entries} {t : Text}
    (ht : t = "~".toList ∨ t = "null".toList) (hk : ∀ e ∈ es ++ es', e.1 ≠ k.toList) :
    opt l d (es ++ (k.toList, .scalar false t) :: es') = opt l d (es ++ es') := by
  by_cases h : l = k
  · subst h
    have h0 : ∀ fs : Entries, (∀ e ∈ fs, e.1 ≠ l.toList) → values l fs = [] := by
      intro fs hfs
      simp only [values, List.map_eq_nil_iff, List.filter_eq_nil_iff, decide_eq_true_eq]
      exact fun e he => hfs e he
    have h1 : values l (es ++ (l.toList, .scalar false t) :: es') = [.scalar false t] := by
      have ha := h0 es fun e he => hk e (List.mem_append_left _ he)
      have hb := h0 es' fun e he => hk e (List.mem_append_right _ he)
      simp only [values, List.map_eq_nil_iff] at ha hb
      simp only [values, List.filter_append, List.filter_cons, decide_true, if_true, ha, hb, List.nil_append,
        List.map_cons, List.map_nil]
    unfold opt
    rw [h1, h0 _ hk]
    have hn : isNull t = true := by rcases ht with rfl | rfl <;> decide +kernel
    simp only [orNull, hn, if_true]
  · unfold opt
    rw [values_blank h]

theorem req_blank {α : Type} {k l : String} (d : Dec α) {es es' : Entries} {t : Text} (h : l ≠ k) :
    req l d (es ++ (k.toList, .scalar false t) :: es') = req l d (es ++ es') := by
  unfold req
  rw [values_blank h]

theorem closed_blank {α : Type} {k : String} {known : List String} {f : Entries → Option α} {v v' : Yaml}
    (hk : k ∈ known) (h : Blank k v v')
    (hf : ∀ (es es' : Entries) (t : Text), (t = "~".toList ∨ t = "null".toList) → (∀ e ∈ es ++ es', e.1 ≠ k.toList) →
      f (es ++ (k.toList, .scalar false t) :: es') = f (es ++ es')) : closed known f v = closed known f v' := by
  obtain ⟨es, es', t, ht, rfl, rfl, h⟩ := h
  have hany : (known.any fun l => decide (k.toList = l.toList)) = true :=
    List.any_eq_true.mpr ⟨k, hk, by simp⟩
  simp only [closed, List.all_append, List.all_cons, hany, Bool.true_and, hf es es' t ht h]

/-- C85: an optional key without a value is read like an omitted one. -/
theorem C85_null (N : Numbers) (lines : Text → Option (List Text)) (e : Edges) (k : String) (d d' v v' : Yaml)
    (h : Blank k v v') :
    (k ∈ ["vehicles", "generating"] → valuesAt ["parsing"] d = [v] → valuesAt ["parsing"] d' = [v'] →
        parsing N lines d = parsing N lines d') ∧
      (k ∈ ["route-pairs-file"] → valuesAt ["routing"] d = [v] → valuesAt ["routing"] d' = [v'] →
        routing N e d = routing N e d') ∧
      (k ∈ ["seed", "number_of_threads", "min_new_metric", "throw_err_when_new_metric_is_zero"] →
        valuesAt ["balancing"] d = [v] → valuesAt ["balancing"] d' = [v'] → balancing N d = balancing N d') ∧
      (k ∈ ["seed", "number_of_threads"] → valuesAt ["evaluating_balance"] d = [v] →
        valuesAt ["evaluating_balance"] d' = [v'] → evaluating N d = evaluating N d') ∧
      (k ∈ ["minimum-cost", "cost-accuracy", "contraction-ratio", "number_of_threads"] →
        valuesAt ["multi-ch-constructor"] d = [v] → valuesAt ["multi-ch-constructor"] d' = [v'] →
        multiCh N d = multiCh N d') := by
  refine ⟨fun hk hd hd' => ?_, fun hk hd hd' => ?_, fun hk hd hd' => ?_, fun hk hd hd' => ?_, fun hk hd hd' => ?_⟩
  · have : parsingContent N lines v = parsingContent N lines v' := by
      simp only [List.mem_cons, List.not_mem_nil, or_false] at hk
      rcases hk with rfl | rfl <;> unfold parsingContent <;> refine closed_blank (by decide) h ?_ <;>
        intro es es' t ht h <;> simp only [opt_blank _ ht h, req_blank, ne_eq, String.reduceEq, not_false_eq_true]
    unfold parsing
    rw [section_eq _ hd, section_eq _ hd', this]
  · have : routingContent N v = routingContent N v' := by
      simp only [List.mem_cons, List.not_mem_nil, or_false] at hk
      subst hk
      unfold routingContent
      refine closed_blank (by decide) h ?_
      intro es es' t ht h
      simp only [opt_blank _ ht h, req_blank, ne_eq, String.reduceEq, not_false_eq_true]
    unfold routing
    rw [section_eq _ hd, section_eq _ hd', this]
  · have : balancingContent N v = balancingContent N v' := by
      simp only [List.mem_cons, List.not_mem_nil, or_false] at hk
      rcases hk with rfl | rfl | rfl | rfl <;> unfold balancingContent <;> refine closed_blank (by decide) h ?_ <;>
        intro es es' t ht h <;> simp only [opt_blank _ ht h, req_blank, ne_eq, String.reduceEq, not_false_eq_true]
    unfold balancing
    rw [section_eq _ hd, section_eq _ hd', this]
  · have : evaluatingContent N v = evaluatingContent N v' := by
      simp only [List.mem_cons, List.not_mem_nil, or_false] at hk
      rcases hk with rfl | rfl <;> unfold evaluatingContent <;> refine closed_blank (by decide) h ?_ <;>
        intro es es' t ht h <;> simp only [opt_blank _ ht h, req_blank, ne_eq, String.reduceEq, not_false_eq_true]
    unfold evaluating
    rw [section_eq _ hd, section_eq _ hd', this]
  · have : multiChContent N false v = multiChContent N false v' := by
      simp only [List.mem_cons, List.not_mem_nil, or_false] at hk
      rcases hk with rfl | rfl | rfl | rfl <;> unfold multiChContent <;> refine closed_blank (by decide) h ?_ <;>
        intro es es' t ht h <;> simp only [opt_blank _ ht h, req_blank, ne_eq, String.reduceEq, not_false_eq_true]
    unfold multiCh
    rw [section_eq _ hd, section_eq _ hd', this]

/-- A constructor whose number of threads is left blank gets the default, as if the key was missing. -/
def blankCh (threads : List (Text × Yaml)) : Yaml :=
  .map [("multi-ch-constructor".toList, .map
    ([("fmi-graph".toList, .scalar true "a".toList), ("contracted-graph".toList, .scalar true "b".toList),
      ("dimension".toList, .scalar false "2".toList)] ++ threads ++
      [("is_printing_osm-ids".toList, .scalar false "true".toList),
        ("is_using_external_edge-ids".toList, .scalar false "true".toList)]))]

example : multiCh exNumbers (blankCh [("number_of_threads".toList, .scalar false "~".toList)]) =
      multiCh exNumbers (blankCh []) ∧ (multiCh exNumbers (blankCh [])).map MultiCh.threads = some 4 := by
  refine ⟨(C85_null exNumbers (fun _ => none) ⟨[], false, [], []⟩ "number_of_threads" _ _ _ _
    ⟨_, _, _, .inl rfl, ?_, rfl, ?_⟩).2.2.2.2 (by decide) rfl rfl, by decide +kernel⟩
  · rfl
  · decide +kernel

/-! ## C86 -/

/-- C86: a section that is accepted within the balancer's section means the same on its own. -/
theorem C86_same (N : Numbers) (d : Yaml) (c : Balancing) (h : balancing N d = .ok c) :
    (∀ v ∈ valuesAt ["balancing", "multi-ch-constructor"] d, ∀ d', valuesAt ["multi-ch-constructor"] d' = [v] →
        multiCh N d' = some c.multiCh) ∧
      (∀ v ∈ valuesAt ["balancing", "monitoring", "edges-info"] d, ∀ d', UniqueKeys d' →
        valuesAt ["writing", "edges-info"] d' = [v] → edgesInfo N d' = some c.monitoring.edgesInfo) := by
  unfold balancing at h
  split at h
  · cases h
  rename_i b hb
  split at h
  swap
  · cases h
  obtain rfl := Res.ok.inj h
  cases d with
  | scalar q t => cases hb
  | seq ys => cases hb
  | map es =>
    obtain ⟨m, hm, hd⟩ := req_eq hb
    cases m with
    | scalar q t => cases hd
    | seq ys => cases hd
    | map fs =>
      unfold balancingContent closed at hd
      dsimp only at hd
      split at hd
      swap
      · cases hd
      simp only [Option.bind_eq_bind, Option.bind_eq_some_iff] at hd
      obtain ⟨a1, -, a2, -, a3, -, a4, -, mc, hmc, a6, -, mo, hmo, ⟨a8, a9⟩, -, a10, -, a11, -, a12, -, hp⟩ := hd
      obtain rfl := Option.some.inj hp
      constructor
      · intro v hv d' hd'
        rw [valuesAt_cons, hm] at hv
        have hv : v ∈ valuesAt ["multi-ch-constructor"] (.map fs) := by simpa using hv
        rw [valuesAt_one] at hv
        exact (section_eq _ hd').trans (multiCh_mono (req_mem hmc (mem_values.mp hv)))
      · intro v hv d' hu hd'
        rw [valuesAt_cons, hm] at hv
        have hv : v ∈ valuesAt ["monitoring", "edges-info"] (.map fs) := by simpa using hv
        rw [valuesAt_cons, List.mem_flatMap] at hv
        obtain ⟨s, hs, hv⟩ := hv
        have hms := req_mem hmo (mem_values.mp hs)
        cases s with
        | scalar q t => cases hms
        | seq ys => cases hms
        | map gs =>
          unfold monitoring closed at hms
          dsimp only at hms
          split at hms
          swap
          · cases hms
          simp only [Option.bind_eq_bind, Option.bind_eq_some_iff] at hms
          obtain ⟨ei, hei, sm, -, hp⟩ := hms
          obtain rfl := Option.some.inj hp
          rw [valuesAt_one] at hv
          exact (section_eq_two _ hu hd').trans (edgesInfo_mono (req_mem hei (mem_values.mp hv)))

/-- C86, the other direction, up to texts that look like something else: replacing a section within an accepted section of
the balancer by one that is accepted on its own changes nothing but this part. -/
theorem C86_embedded_partial (N : Numbers) (d : Yaml) (c : Balancing) (h : balancing N d = .ok c) :
    (∀ v d' m, MultiChTexts N v → valuesAt ["multi-ch-constructor"] d' = [v] → multiCh N d' = some m →
        balancing N (replaceAt ["balancing", "multi-ch-constructor"] v d) = .ok { c with multiCh := m }) ∧
      (∀ v d' m, EdgesInfoTexts N v → UniqueKeys d' → valuesAt ["writing", "edges-info"] d' = [v] →
        edgesInfo N d' = some m →
        balancing N (replaceAt ["balancing", "monitoring", "edges-info"] v d) =
          .ok { c with monitoring := { c.monitoring with edgesInfo := m } }) := by
  unfold balancing at h
  split at h
  · cases h
  rename_i b hb
  split at h
  swap
  · cases h
  rename_i hlt
  obtain rfl := Res.ok.inj h
  constructor
  · intro v d' m ht hd' hm
    have hc : multiChContent N true v = some m := by
      rw [multiCh_texts ht]
      exact (section_eq _ hd').symm.trans hm
    have := replace_section (k := "balancing") (balancing_replace_multiCh hc) hb
    unfold balancing
    rw [this]
    dsimp only
    rw [if_pos hlt]
  · intro v d' m ht hu hd' hm
    have hc : edgesInfoContent N true v = some m := by
      rw [edgesInfo_texts ht]
      exact (section_eq_two _ hu hd').symm.trans hm
    have := replace_section (k := "balancing") (balancing_replace_edgesInfo hc) hb
    unfold balancing
    rw [this]
    dsimp only
    rw [if_pos hlt]

/-- A section for the multi-ch-constructor with the plain number `99.8`. -/
def plainRatio : Yaml :=
  sectionOf
    [("fmi-graph", some (str "graph.fmi".toList)), ("contracted-graph", some (str "graph.ch.fmi".toList)),
      ("dimension", some (count exWriter 3)), ("contraction-ratio", some (.scalar false "99.8".toList)),
      ("is_printing_osm-ids", some (flag true)), ("is_using_external_edge-ids", some (flag true))]

/-- The balancer's section with another section for the multi-ch-constructor. -/
def isleWith (y : Yaml) : Yaml :=
  sectionOf [("balancing", some (match isleBalancing.doc exWriter with
    | .map es => .map (es.map fun e => if e.1 = "multi-ch-constructor".toList then (e.1, y) else e)
    | y => y))]

/-- C86 is false for plain numbers: this section is accepted on its own, but not within the balancer's section, which is
fine otherwise. -/
theorem C86_false_ratio :
    (multiCh exNumbers (sectionOf [("multi-ch-constructor", some plainRatio)])).map (·.ratio) = some "99.8".toList ∧
      balancing exNumbers (isleWith plainRatio) = .err .serde ∧
      balancing exNumbers (isleWith (isleBalancing.multiCh.doc exWriter)) = .ok isleBalancing.cfg := by decide +kernel

/-- C86 is false for plain numbers as ids. -/
theorem C86_false_id :
    edgesInfoContent exNumbers false (sectionOf
      [("file", some (str "f".toList)), ("ids", some (.seq [tagged "id" (count exWriter 5)]))]) =
        some ⟨"f".toList, false, true, false, [some "5".toList]⟩ ∧
    edgesInfoContent exNumbers true (sectionOf
      [("file", some (str "f".toList)), ("ids", some (.seq [tagged "id" (count exWriter 5)]))]) = none := by
  decide +kernel

/-- Hypotheses of C86. -/
example : MultiChTexts exNumbers (isleBalancing.multiCh.doc exWriter) ∧
    (multiChContent exNumbers true (isleBalancing.multiCh.doc exWriter)).isSome := by
  refine ⟨⟨?_, ?_, ?_⟩, by decide +kernel⟩
  · intro v hv
    rw [show valuesAt ["fmi-graph"] (isleBalancing.multiCh.doc exWriter) = [str "graph.fmi".toList] from rfl] at hv
    rw [List.mem_singleton.mp hv]
    exact .inl rfl
  · intro v hv
    rw [show valuesAt ["contracted-graph"] (isleBalancing.multiCh.doc exWriter) = [str "graph.ch.fmi".toList] from rfl] at hv
    rw [List.mem_singleton.mp hv]
    exact .inl rfl
  · intro v hv
    rw [show valuesAt ["contraction-ratio"] (isleBalancing.multiCh.doc exWriter) = [str "99.8".toList] from rfl] at hv
    rw [List.mem_singleton.mp hv]
    exact .inl (.inl rfl)

/-! ## C87 -/

/-- A document for parsing with these elements, written as in the blueprint. -/
def elemDoc (info : String) : Yaml :=
  tagged "meta" (sectionOf [("info", some (name info)), ("id", some (str "x".toList))])

def unitDoc (unit : String) : Yaml :=
  tagged "metric" (sectionOf [("unit", some (name unit)), ("id", some (str "x".toList))])

/-- C87 up to the exceptions below: the names of infos and units in `resources/blueprint.yaml:26-83`, and the ones of
algorithms in 225, are accepted. -/
theorem C87_names_partial (N : Numbers) :
    (∀ n ∈ ["NodeId", "CHLevel"], (nodeCat N (elemDoc n)).isSome) ∧
      (∀ n ∈ ["Latitude", "Longitude"], (nodeCat N (unitDoc n)).isSome) ∧
      (∀ n ∈ ["SrcId", "DstId", "ShortcutIdx0", "ShortcutIdx1", "EdgeId"], (edgeCat N (elemDoc n)).isSome) ∧
      (∀ n ∈ ["Meters", "Kilometers", "Seconds", "Minutes", "Hours", "KilometersPerHour", "LaneCount", "F64"],
        (edgeCat N (unitDoc n)).isSome) ∧
      (genNode N (elemDoc "NodeIdx")).isSome ∧
      (∀ n ∈ ["EdgeId", "SrcIdx", "DstIdx", "SrcLat", "SrcLon", "DstLat", "DstLon"], ∀ lines,
        (genEdge N lines (elemDoc n)).isSome) ∧
      (∀ n ∈ ["Car", "Bicycle", "Pedestrian"], (vehicle N (name n)).isSome) ∧
      (∀ n ∈ ["Dijkstra", "CHDijkstra"], (algo N (name n)).isSome) := by
  refine ⟨?_, ?_, ?_, ?_, ?_, ?_, ?_, ?_⟩
  · simp only [List.forall_mem_cons, List.not_mem_nil, false_implies, implies_true, and_true]
    exact ⟨by rfl, by rfl⟩
  · simp only [List.forall_mem_cons, List.not_mem_nil, false_implies, implies_true, and_true]
    exact ⟨by rfl, by rfl⟩
  · simp only [List.forall_mem_cons, List.not_mem_nil, false_implies, implies_true, and_true]
    exact ⟨by rfl, by rfl, by rfl, by rfl, by rfl⟩
  · simp only [List.forall_mem_cons, List.not_mem_nil, false_implies, implies_true, and_true]
    exact ⟨by rfl, by rfl, by rfl, by rfl, by rfl, by rfl, by rfl, by rfl⟩
  · rfl
  · simp only [List.forall_mem_cons, List.not_mem_nil, false_implies, implies_true, and_true]
    exact ⟨fun _ => by rfl, fun _ => by rfl, fun _ => by rfl, fun _ => by rfl, fun _ => by rfl, fun _ => by rfl,
      fun _ => by rfl⟩
  · simp only [List.forall_mem_cons, List.not_mem_nil, false_implies, implies_true, and_true]
    exact ⟨by rfl, by rfl, by rfl⟩
  · simp only [List.forall_mem_cons, List.not_mem_nil, false_implies, implies_true, and_true]
    exact ⟨by rfl, by rfl⟩

/-- C87 is false for vehicles: `resources/blueprint.yaml:24-29` gives a default for each of both keys, but omitting one is
an error. -/
theorem C87_false_vehicles (N : Numbers) :
    vehicles N (sectionOf [("are_drivers_picky", some (flag true))]) = none ∧
      vehicles N (sectionOf [("category", some (name "Car"))]) = none ∧
      vehicles N (sectionOf [("category", some (name "Car")), ("are_drivers_picky", some (flag true))]) =
        some (.car, true) := ⟨by rfl, by rfl, by rfl⟩

/-- C87 is false for generated levels and shortcuts (`resources/blueprint.yaml:68,82-83`): they are rejected, where an
index is fine. -/
theorem C87_false_generating :
    parsing exNumbers (fun _ => none) (genDoc [elemDoc "CHLevel"] []) = none ∧
      parsing exNumbers (fun _ => none) (genDoc [] [elemDoc "ShortcutIdx0"]) = none ∧
      parsing exNumbers (fun _ => none) (genDoc [] [elemDoc "ShortcutIdx1"]) = none ∧
      (parsing exNumbers (fun _ => none) (genDoc [elemDoc "NodeIdx"] [elemDoc "SrcIdx"])).isSome := by decide +kernel

/-- C87 is false for the explorator (`resources/blueprint.yaml:225`): its name alone is rejected. -/
theorem C87_false_explorator (N : Numbers) :
    algo N (name "Explorator") = none ∧ algo N (algoDoc (.explorator false)) = some (.explorator false) :=
  ⟨by rfl, by rfl⟩

/-! ## C88 -/

/-- The command line for these settings: an option is followed by its value, and a flag is given if it is set. -/
def commandLine (c : MultiCh) : List Text :=
  ["--threads".toList, Text.printNat c.threads] ++ (if c.osmIds then ["--using-osm-ids".toList] else []) ++
    (if c.externalIds then ["--external-edge-ids".toList] else []) ++ ["--text".toList, c.fmiGraph] ++
    ["--percent".toList, c.ratio] ++ ["--write".toList, c.chGraph]

/-- C88: up to empty arguments, the multi-ch-constructor gets the command line for its settings. -/
theorem C88_command_partial (c : MultiCh) (h1 : c.fmiGraph ≠ []) (h2 : c.ratio ≠ []) (h3 : c.chGraph ≠ []) :
    (constructArgs c).filter (fun a => decide (a ≠ [])) = commandLine c := by
  have h4 := Text.printNat_ne_nil c.threads
  cases h5 : c.osmIds <;> cases h6 : c.externalIds <;>
    simp [constructArgs, commandLine, h1, h2, h3, h4, h5, h6]

/-- C88: if both flags are set, it is exactly this command line. -/
theorem C88_command (c : MultiCh) (h1 : c.osmIds = true) (h2 : c.externalIds = true) : constructArgs c = commandLine c := by
  simp [constructArgs, commandLine, h1, h2]

/-- C88 is false if a flag isn't set: an empty argument is passed instead. -/
theorem C88_false_empty : ∃ c : MultiCh, c.fmiGraph ≠ [] ∧ c.ratio ≠ [] ∧ c.chGraph ≠ [] ∧ [] ∈ constructArgs c ∧
    constructArgs c ≠ commandLine c :=
  ⟨{ fmiGraph := "a".toList, chGraph := "b".toList, ratio := "99.8".toList, dim := 2, accuracy := 1, threads := 4
     osmIds := false, externalIds := true }, by decide +kernel, by decide +kernel, by decide +kernel, by decide +kernel,
   by decide +kernel⟩

/-- C85: a tolerance that is neither infinite nor a number is an error, wherever it is in the list of metrics. -/
theorem C85_tolerance (N : Numbers) (e : Edges) (d v m : Yaml) (items : List Yaml) (q : Bool) (t : Text)
    (hv : v ∈ valuesAt ["routing"] d) (hi : .seq items ∈ valuesAt ["metrics"] v) (hm : m ∈ items)
    (ht : .scalar q t ∈ valuesAt ["tolerated-scale"] m) (hq : q = true ∨ t ≠ "~".toList ∧ t ≠ "null".toList)
    (h1 : Text.lower t ≠ "inf".toList) (h2 : Text.lower t ≠ "infinity".toList) (h3 : N.parseF (Text.lower t) = none) :
    routing N e d = .err .serde := by
  unfold routing
  split
  · rfl
  · rename_i p hp
    exfalso
    have hc := section_of hp hv
    cases v with
    | scalar q t => cases hc
    | seq ys => cases hc
    | map es =>
      rw [valuesAt_one, mem_values] at hi
      simp only [routingContent, closed] at hc
      split at hc
      · simp only [Option.bind_eq_bind, Option.bind_eq_some_iff] at hc
        obtain ⟨_, -, _, -, entries, he, -⟩ := hc
        obtain ⟨b, hb⟩ := mapM_mem (show items.mapM (entry N) = some entries from req_mem he hi) hm
        obtain ⟨r, hr, hb⟩ := Option.bind_eq_some_iff.mp hb
        have hrt : r.tolerance = some t := by
          cases m with
          | scalar q t => cases hr
          | seq ys => cases hr
          | map es =>
            rw [valuesAt_one, mem_values] at ht
            simp only [rawEntry, closed] at hr
            split at hr
            · simp only [Option.bind_eq_bind, Option.bind_eq_some_iff] at hr
              obtain ⟨_, -, _, -, o, ho, hr⟩ := hr
              have := opt_mem ho ht
              have hn : orNull (text N false) (.scalar q t) = some (some t) := by
                cases q with
                | true => rfl
                | false =>
                  rcases hq with hq | hq
                  · cases hq
                  · have : isNull t = false := by
                      unfold isNull
                      rw [decide_eq_false hq.1, decide_eq_false hq.2]
                      rfl
                    simp [orNull, this, text]
              rw [hn] at this
              cases this
              cases hr
              rfl
            · cases hr
        have : Entry.tryFrom N.parseF r = .error .number := by
          obtain ⟨id, alpha, tol⟩ := r
          dsimp only at hrt
          subst hrt
          rw [C42_entry_tolerance, if_neg (fun h => h.elim h1 h2), h3]
        rw [this] at hb
        cases hb
      · cases hc

/-- Hypotheses of `C85_tolerance`: `ten` is no number. -/
example : routing exNumbers ⟨[], false, [], []⟩ (sectionOf [("routing", some (sectionOf [("algorithm", some (str "Dijkstra".toList)),
    ("metrics", some (.seq [sectionOf [("id", some (str "km".toList)), ("tolerated-scale", some (str "ten".toList))]]))]))]) =
      .err .serde ∧ exNumbers.parseF (Text.lower "ten".toList) = none := by decide +kernel

/-- C88: the build gets the dimension and the accuracy. -/
theorem C88_build (printF : ℚ → Text) (c : MultiCh) :
    buildArgs printF c = ["-Bbuild".toList] ++ ["-D".toList, "GRAPH_DIM=".toList ++ Text.printNat c.dim] ++
      ["-D".toList, "COST_ACCURACY=".toList ++ printF c.accuracy] := rfl

/-- C88: the minimal cost has no effect on both command lines, since settings don't depend on it. -/
theorem C88_min_cost {N : Numbers} {w : Writer} (hw : w.Fits N) (i : MultiChIn) (hi : i.Small) (x : Option ℚ) (d d' : Yaml)
    (h : valuesAt ["multi-ch-constructor"] d = [i.doc w])
    (h' : valuesAt ["multi-ch-constructor"] d' = [{ i with minCost := x }.doc w]) : multiCh N d = multiCh N d' := by
  rw [C85_multi_ch hw i hi d h, C85_multi_ch hw { i with minCost := x } ⟨hi.dim, hi.threads⟩ d' h']
  rfl

/-- Hypotheses of C88. -/
example : constructArgs isleBalancing.cfg.multiCh =
    ["--threads".toList, "4".toList, "--using-osm-ids".toList, "--external-edge-ids".toList, "--text".toList,
      "graph.fmi".toList, "--percent".toList, "99.8".toList, "--write".toList, "graph.ch.fmi".toList] := by decide +kernel

end Verif.Yml
