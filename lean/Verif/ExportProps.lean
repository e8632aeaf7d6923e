import Verif.ExportLemmas
import Verif.FmiSample

/-!
# Properties of exported maps (C94)
-/

namespace Verif.Session

open Text Gen Cfg
open Dij (Heap St computeBestPath Used codeHeap binHeap routeCost)
open Search (AddOk)
open Build (ProtoEdge ProtoNode build)
open Yml (ParsingIn RoutingIn GraphIn Writer Yaml)
open Osm (Trip Takes TimeConfig Only position)

section
variable {K : Type} [LinearOrder K] [Zero K] [Add K] {w : World K} {wr : Writer} {doc doc2 : Yaml} {ip ip' : ParsingIn}
  {ir : RoutingIn} {gi : GraphIn} {gen : Generating} {speed length time : Text} {objs : List (Option Osm.Obj)}
  {pairs : List Text} {d d' : Tool.Disk} {tw : Tool.World}

theorem mapErr_ok {ε ε' α : Type} {f : ε → ε'} {r : Res ε α} {a : α} (h : Fmi.mapErr f r = .ok a) : r = .ok a := by
  cases r <;> simp_all [Fmi.mapErr]

theorem run_load (fuel : Nat) {net : Net} (h : load w doc = .ok net) : run w fuel doc = route w fuel doc net := by
  unfold load at h
  unfold run
  split at h
  · cases h
  · rename_i h1
    rw [h1]
    dsimp only
    rw [h]

/-- Routing needs nothing of the document but its section, and nothing of the files but the route-pairs. -/
theorem route_same (fuel : Nat) (net : Net) {y : Yaml} (h1 : Yml.valuesAt ["routing"] doc = [y])
    (h2 : Yml.valuesAt ["routing"] doc2 = [y])
    (hd : ∀ rc pf, Yml.routing w.numbers net.edges doc = .ok rc → rc.pairsFile = some pf → d' pf = d pf) :
    route { w with text := d' } fuel doc2 net = route { w with text := d } fuel doc net := by
  have hr : Yml.routing w.numbers net.edges doc2 = Yml.routing w.numbers net.edges doc := by
    unfold Yml.routing
    rw [Yml.section_eq _ h1, Yml.section_eq _ h2]
  unfold route
  dsimp only
  rw [hr]
  cases h : Yml.routing w.numbers net.edges doc with
  | err e => rfl
  | panic => rfl
  | ok rc =>
    dsimp only
    have hp : readPairs { w with text := d' } rc.pairsFile = readPairs { w with text := d } rc.pairsFile := by
      unfold readPairs
      cases hf : rc.pairsFile with
      | none => rfl
      | some pf => simp only [hd rc pf h hf]
    rw [hp]
    cases readPairs { w with text := d } rc.pairsFile <;> rfl

omit [LinearOrder K] [Zero K] [Add K] in
/-- The graph of a pbf-map, if there is one. -/
theorem streets_load (hs : Streets w wr doc ip ir gen speed length time objs pairs) {net : Net}
    (h : load w doc = .ok net) :
    ∃ g, Osm.parse w.maxDim (ip.cfg w.text) objs = .ok (.ok g) ∧
      finish w.env (some gen) ⟨g, (ip.cfg w.text).nodes, (ip.cfg w.text).edges⟩ = .ok net := by
  obtain ⟨y, hy1, hy2⟩ := hs.parsing
  have huniq : UniqueIds ip.edges := (C43_parsed _ _).1.mp ⟨_, hs.minutes.parsed⟩
  have hx : Tool.fromPath Tool.parserExts (Tool.fileName ip.mapFile) = some .pbf :=
    (Tool.C74_parser _ .pbf).mpr hs.pbf
  unfold load at h
  rw [Yml.C85_parsing hs.writer w.text ip huniq doc y hy1 hy2] at h
  dsimp only at h
  unfold loadMap at h
  rw [hx] at h
  dsimp only at h
  split at h
  · cases h
  · rw [hs.map] at h
    dsimp only at h
    split at h
    · cases h
    · rename_i r hr
      simp only [Res.bind_eq_ok] at h
      obtain ⟨g, h1, h2⟩ := h
      have h1 := mapErr_ok h1
      have h2 := mapErr_ok h2
      subst h1
      rw [hs.generating] at h2
      exact ⟨g, hr, h2⟩

omit [LinearOrder K] [Zero K] [Add K] in
/-- Exporting yields a file with the graph. -/
theorem exported (hww : WorksWith w doc tw) (hwr : wr.Fits w.numbers) (he : Exports doc ip gen gi)
    (hrun : Tool.run tw onlyGraph d = (.ok ⟨⟩, d')) :
    ∃ net lines, load { w with text := d } doc = .ok net ∧ d' gi.mapFile = some lines ∧
      Tool.fromPath Tool.parserExts (Tool.fileName gi.mapFile) = some .fmi ∧
      Fmi.write w.codec net { nodes := ip.nodes.map Fmi.idOfNode, edges := (edgeColumns ip gen).map EdgeCat.id?
                              shortcuts := true, denormalize := gi.denormalize.getD false } = .ok lines ∧
      ∀ p lines, d p = some lines → d' p = some lines := by
  obtain ⟨net, outs, d1, h1, h2, h3, h4, -⟩ := (Tool.C73_succeeds_iff rfl).mp hrun
  obtain ⟨rfl, -⟩ := h4 rfl
  have hout : Yml.graphOut w.numbers doc = some gi.cfg := (Yml.C85_writing hwr doc he.keys).1 gi he.writing
  have hg := hww.graph
  unfold graphFile at hg
  rw [hout] at hg
  simp only [Tool.asked, onlyGraph, if_true, Bool.false_eq_true, if_false, List.append_nil, hg, Option.map_some] at h2
  cases outs with
  | nil => cases h2
  | cons o outs =>
    simp only [List.map_cons, List.cons.injEq, Option.some.injEq, List.map_eq_nil_iff] at h2
    obtain ⟨rfl, rfl⟩ := h2
    obtain ⟨lines, h5, h6⟩ := h3.complete _ (List.mem_singleton.mpr rfl)
    have hacc := (h3.accepted _ (List.mem_singleton.mpr rfl)).1
    refine ⟨net, lines, ?_, h6, ?_, ?_, ?_⟩
    · rw [hww.parse] at h1
      exact mapErr_ok h1
    · exact (Tool.C74_written (k := .fmi) (of_decide_eq_true hacc)).2
    · have : Fmi.write w.codec net _ = .ok lines := h5
      simpa [Yml.GraphIn.cfg, he.nodes, he.edges, he.shortcuts] using this
    · exact Tool.C73_kept hrun (by simp [onlyGraph])

/-- If a pbf-map is exported with all its columns, then routing on the exported map yields the same reports as routing on
the pbf-map, in every detail. Numbers have to be written without loss. -/
theorem C94_same_reports (hs : Streets { w with text := d } wr doc ip ir gen speed length time objs pairs)
    (hww : WorksWith w doc tw) (he : Exports doc ip gen gi) (hi : Imports wr doc2 ip ir gen gi ip')
    (hl : ∀ net, load { w with text := d } doc = .ok net → Lossless w.codec (gi.denormalize.getD false) net)
    (hrun : Tool.run tw onlyGraph d = (.ok ⟨⟩, d')) (fuel : Nat) :
    run { w with text := d' } fuel doc2 = run { w with text := d } fuel doc := by
  obtain ⟨net, lines, h1, h2, h3, h4, h5⟩ := exported hww hs.writer he hrun
  obtain ⟨g, hp, hf⟩ := streets_load hs h1
  have ht := hs.minutes
  have hgen := hs.generating
  dsimp only at hp hf ht hgen
  obtain ⟨-, hn, hed⟩ := net_added hp hf ht he.onlyNodes he.onlyMetrics
  have hcols : edgeColumns ip gen = net.edges.cats := by rw [hed]; rfl
  have hcfg : (ip'.cfg d').edges = net.edges := by
    rw [hed]
    simp only [Yml.ParsingIn.cfg, hi.edges, hi.normalized, edgeColumns, List.filterMap_append]
    rfl
  have hload := reads_exported (c' := ip'.cfg d') (cd := w.codec) (d := gi.denormalize.getD false) (lines := lines)
    hp hf ht hgen he.onlyNodes he.onlyMetrics hi.nodes hcfg (by simp [Yml.ParsingIn.cfg, hi.generating]) hi.nodeCols
    hi.nodeNames hi.src hi.dst (by rw [← hcols]; exact hi.few) (hl net h1) (by
      rw [Fmi.allColumns, hn, ← hcols]
      exact h4)
  have h6 : load { w with text := d' } doc2 = .ok net := by
    obtain ⟨y, hy1, hy2⟩ := hi.parsing
    have huniq : UniqueIds ip'.edges := by
      rw [hi.edges, hcols]
      exact (C43_generated hf ((C43_parsed _ _).1.mp ⟨_, ht.parsed⟩) fun x y hm => ht.adds _ hm trivial).mpr ht.names
    unfold load
    dsimp only
    rw [Yml.C85_parsing hs.writer d' ip' huniq doc2 y hy1 hy2]
    dsimp only
    unfold loadMap
    rw [hi.map, h3]
    dsimp only
    rw [hload.1]
    dsimp only
    rw [h2]
    dsimp only
    rw [hload.2]
    rfl
  rw [run_load fuel h1, run_load fuel h6]
  refine route_same fuel net hs.routing hi.routing ?_
  intro rc pf hrc hpf
  obtain ⟨pf', file, hpf', htext, -⟩ := hs.pairs
  obtain ⟨hnd, -, hcn, -⟩ := Osm.net_ok hp hf ht
  obtain ⟨a, t, hm, -⟩ := hs.only
  rw [routing_net hs.writer hnd hcn.len ir (by
    rw [hm]
    intro m hm
    rw [List.mem_singleton.mp hm, net_ids hp hf ht]
    exact List.mem_append_right _ (List.mem_filterMap.mpr ⟨_, ht.hasTime, rfl⟩)) doc hs.routing, Res.ok.injEq] at hrc
  subst hrc
  obtain rfl : pf' = pf := Option.some.inj (hpf'.symm.trans hpf)
  have htext : d pf' = some file := htext
  rw [htext]
  exact h5 _ _ htext

/-- So what is reported about an exported map is true of the streets of the pbf-map. -/
theorem C94_truthful (hs : Streets { w with text := d } wr doc ip ir gen speed length time objs pairs)
    (hww : WorksWith w doc tw) (he : Exports doc ip gen gi) (hi : Imports wr doc2 ip ir gen gi ip')
    (hl : ∀ net, load { w with text := d } doc = .ok net → Lossless w.codec (gi.denormalize.getD false) net)
    (hrun : Tool.run tw onlyGraph d = (.ok ⟨⟩, d')) (halg : ir.algo = .dijkstra) (hk : AddOk K)
    (hw : ∀ (al m : List ℚ) (k : Nat) (x : ℚ), Only al k → m[k]? = some x → 0 ≤ x → 0 ≤ w.dotp al m)
    (hdist : ∀ x y, 0 ≤ w.env.haversine x y) (fuel : Nat) :
    ReportsOn (OfStreets w.env.haversine (ip.cfg d) objs (metricNames ip gen) length time fun _ _ => True) pairs
      (run { w with text := d' } fuel doc2) := by
  rw [C94_same_reports hs hww he hi hl hrun]
  exact C93_truthful hs halg hk hw hdist

omit [LinearOrder K] [Zero K] [Add K] in
/-- If the parsing-section of the document is wrong, the tool stops with an error and writes nothing, whatever it is
asked for. -/
theorem C94_rejected (hww : WorksWith w doc tw) (h : Yml.parsing w.numbers d doc = none) (args : Tool.Args) :
    Tool.run tw args d = (.err .parsing, d) := by
  have h1 : tw.parse d = .err ⟨⟩ := by
    rw [hww.parse, load]
    dsimp only
    rw [h]
    rfl
  unfold Tool.run
  rw [h1]
  rfl

end

/-! ## The town is exported -/

def townGraphOut : GraphIn where
  mapFile := "town.fmi".toList
  nodes := [some "id".toList, some "lat".toList, some "lon".toList]
  shortcuts := some true
  denormalize := none
  edges := [some "src".toList, some "dst".toList, some "speed".toList, some "lanes".toList, some "km".toList,
    some "min".toList]

/-- The document of the town with a section for writing. -/
def townExportDoc : Yaml :=
  Yml.sectionOf [("parsing", townIp.doc Yml.exWriter), ("routing", some (townIr.doc Yml.exWriter)),
    ("writing", some (Yml.sectionOf [("graph", some townGraphOut.doc)]))]

/-- The exported map is parsed without generating anything. -/
def townIp2 : ParsingIn where
  mapFile := "town.fmi".toList
  vehicles := none
  nodes := townIp.nodes
  normalized := none
  edges := [.info .srcId "src".toList, .info .dstId "dst".toList, .metric .kmh "speed".toList,
    .metric .laneCount "lanes".toList, .metric .kilometers "km".toList, .metric .minutes "min".toList]
  generating := none

def townDoc2 : Yaml :=
  Yml.sectionOf [("parsing", townIp2.doc Yml.exWriter), ("routing", some (townIr.doc Yml.exWriter))]

/-- The tool with the document of the town. -/
def townTool : Tool.World where
  openable _ := true
  cut _ := []
  parse d := Fmi.mapErr (fun _ => ⟨⟩) (load { townWorld with text := d } townExportDoc)
  graph := graphFile townWorld townExportDoc
  edges := none
  routePairs _ := none
  route _ _ := .ok ⟨⟩
  eval _ := none
  simulate _ _ := .err ⟨⟩
  balance d := (.err ⟨⟩, d)

/-- The files after exporting. -/
def townDisk : Tool.Disk := (Tool.run townTool onlyGraph townWorld.text).2

theorem townExport_streets : Streets townWorld Yml.exWriter townExportDoc townIp townIr Osm.townGen "speed".toList
    "km".toList "min".toList townMap townPairs where
  writer := town_streets.writer
  parsing := by
    obtain ⟨y, hy⟩ : ∃ y, townIp.doc Yml.exWriter = some y := ⟨_, by rfl⟩
    refine ⟨y, hy, ?_⟩
    unfold townExportDoc
    rw [hy, Yml.sectionOf_eq, Yml.valuesAt_one, Yml.values_given]
    simp
  routing := by
    unfold townExportDoc
    rw [Yml.sectionOf_eq, Yml.valuesAt_one, Yml.values_given]
    simp
  generating := town_streets.generating
  minutes := town_streets.minutes
  only := town_streets.only
  pbf := town_streets.pbf
  map := town_streets.map
  pairs := town_streets.pairs

theorem town_exports : Exports townExportDoc townIp Osm.townGen townGraphOut where
  keys := by
    obtain ⟨y, hy⟩ : ∃ y, townIp.doc Yml.exWriter = some y := ⟨_, by rfl⟩
    unfold townExportDoc
    rw [hy]
    simp [Yml.sectionOf, Yml.UniqueKeys]
  writing := by
    obtain ⟨y, hy⟩ : ∃ y, townIp.doc Yml.exWriter = some y := ⟨_, by rfl⟩
    unfold townExportDoc
    rw [hy]
    simp [Yml.sectionOf, Yml.valuesAt]
  nodes := by rfl
  edges := by rfl
  shortcuts := rfl
  onlyNodes := rfl
  onlyMetrics := by decide +kernel

theorem town_imports : Imports Yml.exWriter townDoc2 townIp townIr Osm.townGen townGraphOut townIp2 where
  parsing := by
    obtain ⟨y, hy⟩ : ∃ y, townIp2.doc Yml.exWriter = some y := ⟨_, by rfl⟩
    refine ⟨y, hy, ?_⟩
    unfold townDoc2
    rw [hy, Yml.sectionOf_eq, Yml.valuesAt_one, Yml.values_given]
    simp
  routing := by
    unfold townDoc2
    rw [Yml.sectionOf_eq, Yml.valuesAt_one, Yml.values_given]
    simp
  map := rfl
  nodes := rfl
  edges := by rfl
  normalized := rfl
  generating := rfl
  nodeCols := by
    intro id
    unfold townIp
    simp only [List.mem_cons, NodeCat.info.injEq, NodeCat.metric.injEq, reduceCtorEq, false_and, List.not_mem_nil, or_self,
      not_false_eq_true, and_self]
  nodeNames := by decide +kernel
  src := by decide +kernel
  dst := by decide +kernel
  few := by decide +kernel

/-- The graph of the town. -/
def townLoaded : Net :=
  match load townWorld townExportDoc with
  | .ok net => net
  | _ => Osm.townNet

theorem town_load : load townWorld townExportDoc = .ok townLoaded := by
  have h : (match load townWorld townExportDoc with
    | .ok _ => true
    | _ => false) = true := by decide +kernel
  unfold townLoaded
  split at h
  · rename_i h1
    rw [h1]
  · cases h

theorem town_lossless : Lossless Fmi.exCodec false townLoaded := by
  obtain ⟨g, hp, hf⟩ := streets_load townExport_streets town_load
  have hwf := C54_wellformed hf (Build.built_wellFormed (Osm.parse_build hp).2)
  have hfull := net_complete hp hf townExport_streets.minutes rfl town_exports.onlyMetrics
  refine ⟨⟨by decide +kernel, by decide +kernel, by decide +kernel, ?_, ?_, ?_, ?_, ?_, ?_⟩, by decide +kernel⟩
  · exact fun i id h => Fmi.all_of_getElem? (P := fun id => -(maxI64 : Int) - 1 ≤ id ∧ id ≤ maxI64)
      (l := townLoaded.graph.nodeIds) (by decide +kernel) h
  · exact fun i lv h => Fmi.all_of_getElem? (P := fun lv => lv ≤ maxUsize) (l := townLoaded.graph.nodeLevels)
      (by decide +kernel) h
  · exact fun i x h => ⟨Fmi.exCodec_exact _, Fmi.exCodec_exact _⟩
  · intro e id h
    have hnone : ∀ o ∈ townLoaded.graph.edgeIds, o = none := by decide +kernel
    have := hnone _ (List.mem_of_getElem? (Res.ofIdx_eq_ok.mp h))
    cases this
  · intro e p h
    have := net_plain hp hf (hwf.sc_len e _ h)
    rw [h] at this
    cases this
  · exact fun e k y h => Fmi.exCodec_exact y

theorem town_write : Tool.run townTool onlyGraph townWorld.text = (.ok ⟨⟩, townDisk) := by
  have h : (Tool.run townTool onlyGraph townWorld.text).1 = .ok ⟨⟩ := by decide +kernel
  rw [Prod.ext_iff]
  exact ⟨h, rfl⟩

/-- The hypotheses hold for the town. -/
theorem town_exported (fuel : Nat) :
    run { townWorld with text := townDisk } fuel townDoc2 = run townWorld fuel townExportDoc := by
  refine C94_same_reports (w := townWorld) (d := townWorld.text) townExport_streets (tw := townTool) ⟨fun _ => rfl, rfl⟩
    town_exports town_imports ?_ town_write fuel
  intro net h
  obtain rfl : townLoaded = net := Res.ok.inj (town_load.symm.trans h)
  exact town_lossless

/-- A file of 26 lines has been written, and the reports are those of `town_run`. -/
example : (townDisk "town.fmi".toList).map List.length = some 26 ∧
    (townDisk "town.fmi".toList).bind (·[16]?) = some "1 2 100/1 2/1 2/1 6/5".toList ∧
    run { townWorld with text := townDisk } 60 townDoc2 = run townWorld 60 townDoc := by
  refine ⟨by decide +kernel, by decide +kernel, ?_⟩
  rw [town_exported]
  decide +kernel

example := C94_truthful (w := townWorld) (d := townWorld.text) townExport_streets (tw := townTool) ⟨fun _ => rfl, rfl⟩
  town_exports town_imports
  (fun net h => by
    obtain rfl : townLoaded = net := Res.ok.inj (town_load.symm.trans h)
    exact town_lossless)
  town_write rfl Search.addOk_rat dot_only_nonneg (fun x y => by simp only [townWorld, Osm.townEnv]; positivity) 60

/-- A document without a parsing-section. -/
def emptyDoc : Yaml := .map [("writing".toList, .map [])]

@[inherit_doc emptyDoc] def emptyTool : Tool.World :=
  { townTool with
    parse := fun d => Fmi.mapErr (fun _ => ⟨⟩) (load { townWorld with text := d } emptyDoc)
    graph := graphFile townWorld emptyDoc }

/-- The assumptions of `C94_rejected`. -/
example : WorksWith townWorld emptyDoc emptyTool ∧ Yml.parsing townWorld.numbers townWorld.text emptyDoc = none :=
  ⟨⟨fun _ => rfl, rfl⟩, by decide +kernel⟩

/-! ## Nodes at the same place -/

/-- Nodes 1 and 2 have the same position. -/
def zeroMap : List (Option Osm.Obj) :=
  [some (.node 1 0 0), some (.node 2 0 0), some (.node 3 0 100000),
    some (.way [1, 2, 3] [("highway".toList, "primary".toList)])]

@[inherit_doc zeroMap] def zeroWorld : World ℚ :=
  { townWorld with
    text := fun f => if f = "town.route-pairs".toList then some ["1".toList, "1 2 1".toList] else none
    pbf := fun f => if f = "town.osm.pbf".toList then some zeroMap else none }

@[inherit_doc zeroMap] def zeroTool : Tool.World :=
  { townTool with
    parse := fun d => Fmi.mapErr (fun _ => ⟨⟩) (load { zeroWorld with text := d } townExportDoc)
    graph := graphFile zeroWorld townExportDoc }

@[inherit_doc zeroMap] def zeroDisk : Tool.Disk := (Tool.run zeroTool onlyGraph zeroWorld.text).2

theorem zero_streets : Streets zeroWorld Yml.exWriter townExportDoc townIp townIr Osm.townGen "speed".toList
    "km".toList "min".toList zeroMap ["1 2 1".toList] where
  writer := townExport_streets.writer
  parsing := townExport_streets.parsing
  routing := townExport_streets.routing
  generating := townExport_streets.generating
  minutes := ⟨by decide +kernel, by decide +kernel, by decide +kernel, by decide +kernel, Osm.town_time.adds,
    by decide +kernel⟩
  only := townExport_streets.only
  pbf := townExport_streets.pbf
  map := by rfl
  pairs := by
    refine ⟨_, _, rfl, rfl, [], [], [], ["1".toList], by decide +kernel, by simp, ?_, by decide +kernel⟩
    exact .cons ⟨"1".toList, by decide +kernel, by decide +kernel⟩ .nil

/-- C94 is false if a generated metric is zero, e.g. because two nodes have the same position: generated zeros are kept,
but zeros that are read from a file are replaced by `1e-6`. -/
theorem C94_false_zero :
    Streets zeroWorld Yml.exWriter townExportDoc townIp townIr Osm.townGen "speed".toList "km".toList "min".toList zeroMap
      ["1 2 1".toList] ∧
    WorksWith zeroWorld townExportDoc zeroTool ∧ Exports townExportDoc townIp Osm.townGen townGraphOut ∧
    Imports Yml.exWriter townDoc2 townIp townIr Osm.townGen townGraphOut townIp2 ∧
    Tool.run zeroTool onlyGraph zeroWorld.text = (.ok ⟨⟩, zeroDisk) ∧
    run zeroWorld 60 townExportDoc =
      ([.costs ⟨0, 1, ⟨0, 0⟩, 0⟩ ⟨1, 2, ⟨0, 0⟩, 0⟩ [100, 2, 0, 0]], some (.ok ⟨⟩)) ∧
    run { zeroWorld with text := zeroDisk } 60 townDoc2 =
      ([.costs ⟨0, 1, ⟨0, 0⟩, 0⟩ ⟨1, 2, ⟨0, 0⟩, 0⟩ [100, 2, 1 / 1000000, 1 / 1000000]], some (.ok ⟨⟩)) := by
  refine ⟨zero_streets, ⟨fun _ => rfl, rfl⟩, town_exports, town_imports, ?_, by decide +kernel, by decide +kernel⟩
  have h : (Tool.run zeroTool onlyGraph zeroWorld.text).1 = .ok ⟨⟩ := by decide +kernel
  rw [Prod.ext_iff]
  exact ⟨h, rfl⟩

end Verif.Session
