import Verif.BalancerLemmas
import Verif.EvaluateProps

/-!
# C97: the files of the balancer
-/

namespace Verif.Session

open Text Gen
open Tool (Disk)
open Yml (Yaml)
open Bal (Step Keeps)
open Dij (St)
open Yml (ParsingIn RoutingIn)

section
variable {w : World ℚ} {t : Tool.World} {o : Outside} {doc : Yaml} {b : Yml.Balancing} {cfgFile : Text} {d d' : Disk}

/-- C97: the balancer leaves all files outside of this run's directory as they are, whether it succeeds, fails or
panics, if the paths for iterations are relative. -/
theorem C97_outside (hst : IsName o.stamp) (hb : Yml.balancing w.numbers doc = .ok b)
    (ht : ∀ dir, DirOf b.resultsDir o.stamp dir → Tidy w.numbers o.yaml dir b d) :
    ∃ dir, DirOf b.resultsDir o.stamp dir ∧ SameOutside dir d (balancer w t o cfgFile doc d).2 := by
  refine ⟨runDir o b, runDir_dirOf hst, ?_⟩
  have ht := ht _ (runDir_dirOf hst)
  have h0 : SameOutside (runDir o b) d d := fun _ _ => rfl
  unfold balancer
  rw [hb]
  cases Yml.graphOut w.numbers doc with
  | none => exact h0
  | some g =>
    dsimp only
    split
    · exact h0
    · exact h0
    · split
      · exact h0
      · exact h0
      · refine Bal.Keeps.bind (keeps_given fun name hn => keeps_copy ⟨name, named_eq hst hn⟩) (fun _ => ?_) d h0
        intro s hs
        exact (balancer_keeps hst ht).balance _ s hs

/-- C97: after a successful run, the balanced map is in this run's directory under the name of the configured map. It
contains the graph that the configured number of updates makes of the given map, and isn't touched by the last iteration,
which only evaluates it. The iterations begin with the files that were there, and a copy of the config-file. -/
theorem C97_stored (hst : IsName o.stamp) (hch : ∀ b, Yml.balancing w.numbers doc = .ok b → Relative b.multiCh.chGraph)
    (h : balancer w t o cfgFile doc d = (.ok ⟨⟩, d')) :
    ∃ b net g dir name stored lines cfgName cfgLines, Yml.balancing w.numbers doc = .ok b ∧ load { w with text := d } doc = .ok net ∧
      Yml.graphOut w.numbers doc = some g ∧ DirOf b.resultsDir o.stamp dir ∧ NameOf g.mapFile name ∧
      NameOf cfgFile cfgName ∧ d cfgFile = some cfgLines ∧
      (∃ es s', Bal.History (balancerWorld w t o doc b)
          { update := { metricId := b.metricId, method := b.method, minNewMetric := b.minNewMetric,
                        isErrWhenZero := b.isErrWhenZero }
            numUpdates := b.numIter - 1, dim := b.multiCh.dim }
          0 net (d.put (dir ++ '/' :: cfgName) cfgLines) es (b.numIter - 1) stored s' ∧ Bal.updatedOf es = List.range (b.numIter - 1)) ∧
      Fmi.write w.codec stored (columnsOf g) = .ok lines ∧
      d' (dir ++ '/' :: name) = some lines := by
  obtain ⟨b, net, cn, cl, es, hb, hl, hcn, hcl, hr⟩ := balancer_ok h
  rw [named_eq hst hcn] at hr
  obtain ⟨es', es'', stored, last, s', s'', -, -, h1, h2, h3, h4, -⟩ := Bal.C71_stored hr
  obtain ⟨g, name, lines, hg, hn, hext, hw, hh⟩ := store_ok h2
  have hname := lastName_nameOf hn
  refine ⟨b, net, g, runDir o b, name, stored, lines, cn, cl, hb, hl, hg, runDir_dirOf hst, hname, lastName_nameOf hcn, hcl,
    ⟨es', s', h1, h4⟩, hw, ?_⟩
  rw [← (runDir_ok hst).join hname.1.relative]
  exact history_holds hst (hch b hb) hname.1 hext h3 hh

/-- C97: if a document or the map is not accepted, no file changes, and a panic is distinguished from an error. -/
theorem C97_rejected : (Yml.graphOut w.numbers doc = none → balancer w t o cfgFile doc d = (.err ⟨⟩, d)) ∧
    (∀ g, Yml.graphOut w.numbers doc = some g →
      ((∃ e, Yml.balancing w.numbers doc = .err e) → balancer w t o cfgFile doc d = (.err ⟨⟩, d)) ∧
      (Yml.balancing w.numbers doc = .panic → balancer w t o cfgFile doc d = (.panic, d)) ∧
      ∀ b, Yml.balancing w.numbers doc = .ok b →
        ((∃ e, load { w with text := d } doc = .err e) → balancer w t o cfgFile doc d = (.err ⟨⟩, d)) ∧
        (load { w with text := d } doc = .panic → balancer w t o cfgFile doc d = (.panic, d)) ∧
        ∀ net, load { w with text := d } doc = .ok net →
          ((∃ e, Yml.routing w.numbers net.edges doc = .err e) → balancer w t o cfgFile doc d = (.err ⟨⟩, d)) ∧
          (Yml.routing w.numbers net.edges doc = .panic → balancer w t o cfgFile doc d = (.panic, d))) := by
  refine ⟨fun h => by unfold balancer; rw [h], fun g hg => ⟨?_, fun h => by unfold balancer; rw [hg, h], fun b hb =>
    ⟨?_, fun h => by unfold balancer; rw [hg, hb, h], fun net hn => ⟨?_, fun h => ?_⟩⟩⟩⟩
  · rintro ⟨e, h⟩; unfold balancer; rw [hg, h]
  · rintro ⟨e, h⟩; unfold balancer; rw [hg, hb, h]
  · rintro ⟨e, h⟩; unfold balancer; rw [hg, hb, hn]; simp only [h]
  · unfold balancer; rw [hg, hb, hn]; simp only [h]

end

/-! ## Sample -/

/-- The map with loads that have to be balanced, and with another metric. -/
def balIp : ParsingIn :=
  { evIp true with generating := some ([], [.custom none "load".toList (some 1), .custom none "hills".toList (some 1)]) }

/-- Kilometers and loads matter. -/
def balIr : RoutingIn where
  pairsFile := some "isle.route-pairs".toList
  algo := .dijkstra
  metrics := [{ id := "km".toList, alpha := none, tolerance := none }, { id := "load".toList, alpha := none, tolerance := none }]

/-- Columns of a map with loads. -/
def balOut (file : String) (more : List String) : Yml.GraphIn where
  mapFile := file.toList
  nodes := [some "node".toList, some "lat".toList, some "lon".toList]
  shortcuts := none
  denormalize := none
  edges := [some "id".toList, some "src".toList, some "dst".toList, some "km".toList, some "load".toList] ++
    more.map fun s => some s.toList

/-- Results go to a directory. -/
def balIn (updates : Nat) (graph : String) : Yml.BalancingIn where
  seed := none
  resultsDir := "results".toList
  iter0 := "iteration.yaml".toList
  iterI := "iteration.yaml".toList
  multiCh := {
    fmiGraph := graph.toList
    chGraph := "graph.ch.fmi".toList
    dim := 2
    minCost := none
    accuracy := none
    ratio := none
    threads := none
    osmIds := true
    externalIds := true }
  updates
  monitoring := (evIn 1).monitoring
  metricId := "load".toList
  method := .averaging
  threads := some 1
  minNewMetric := some (1 / 1000)
  isErrWhenZero := none

def balDoc (updates : Nat) (graph : String) (more : List String) : Yaml :=
  Yml.sectionOf [("parsing", balIp.doc Yml.exWriter), ("routing", some (balIr.doc Yml.exWriter)),
    ("balancing", some ((balIn updates graph).doc Yml.exWriter)),
    ("writing", some (Yml.sectionOf [("graph", some (balOut "balanced.fmi" more).doc)]))]

/-- What is read in every iteration. -/
def iterIp (generating : Bool) : ParsingIn :=
  { evIp true with
    mapFile := "graph.ch.fmi".toList
    edges := [.info .edgeId "id".toList, .info .srcId "src".toList, .info .dstId "dst".toList,
      .metric .kilometers "km".toList, .metric .f64 "load".toList]
    generating := if generating then some ([], []) else none }

def iterInfo : Yml.EdgesInfoIn where
  file := "info.csv".toList
  shortcuts := none
  denormalize := none
  ids := [some "id".toList, some "km".toList]

def iterDoc (graph : String) (generating : Bool) : Yaml :=
  Yml.sectionOf [("parsing", (iterIp generating).doc Yml.exWriter),
    ("writing", some (Yml.sectionOf [("graph", some (balOut graph []).doc), ("edges-info", some iterInfo.doc)]))]

/-- The document for iterations is called `iteration.yaml`. The contraction keeps the graph, but removes comments and
the first number. -/
def balOutside (iter : Yaml) : Outside where
  yaml lines := if lines = ["iteration".toList] then some iter else none
  stamp := "utc".toList
  contractor _ lines := lines.map fun l => (Fmi.functional l).drop 1
  master _ g rc rs := endOf (Par.run (worker Par.modDie exWorld g rc 40) Par.sizeDefaults g 40
    (Par.start Par.sizeDefaults g St.new 1 (jobsOf rs) false) oneThread)

def balDisk : Disk := fun f =>
  if f = "config.yaml".toList then some ["config".toList]
  else if f = "iteration.yaml".toList then some ["iteration".toList] else evDisk evPairs f

def balTool : Tool.World := evTool (evDoc true 1) (evDisk evPairs) oneThread

/-- A run, with the configured map `graph` of iterations. -/
def balRun (updates : Nat) (graph : String) (more : List String) (generating : Bool) : Res Unit Unit × Disk :=
  balancer exWorld balTool (balOutside (iterDoc graph generating)) "config.yaml".toList (balDoc updates graph more) balDisk

/-- How it ends, and these files. -/
def balFiles (r : Res Unit Unit × Disk) (files : List String) : Res Unit Unit × List (Option (List Text)) :=
  (r.1, files.map fun f => r.2 f.toList)


theorem not_below {dir p : Text} (h : dir.isPrefixOf p = false) : ¬ Below dir p := by
  rintro ⟨rest, rfl⟩
  rw [List.isPrefixOf_iff_prefix.mpr (List.prefix_append _ _)] at h
  cases h

theorem bal_name : IsName (balOutside (iterDoc "graph.fmi" true)).stamp := by unfold IsName; decide

theorem bal_cfg : Yml.balancing exWorld.numbers (balDoc 1 "graph.fmi" []) = .ok (balIn 1 "graph.fmi").cfg := by
  decide +kernel

theorem bal_tidy {dir : Text} (h : DirOf (balIn 1 "graph.fmi").cfg.resultsDir "utc".toList dir) :
    Tidy exWorld.numbers (balOutside (iterDoc "graph.fmi" true)).yaml dir (balIn 1 "graph.fmi").cfg balDisk := by
  have hdir : dir = "results/utc".toList := by
    rcases h with rfl | ⟨-, h⟩
    · rfl
    · rcases h with h | h
      · cases h
      · exact absurd h (by decide)
  subst hdir
  refine ⟨by unfold Relative; decide, by unfold Relative; decide, not_below rfl, not_below rfl, ?_⟩
  intro p _ lines doc _ hy
  have hdoc : iterDoc "graph.fmi" true = doc := by
    have : (if lines = ["iteration".toList] then some (iterDoc "graph.fmi" true) else none) = some doc := hy
    split at this
    · exact Option.some.inj this
    · cases this
  subst hdoc
  constructor
  · have : ∀ g ∈ Yml.graphOut exWorld.numbers (iterDoc "graph.fmi" true), g.mapFile.head? ≠ some '/' := by decide +kernel
    exact this
  · have : ∀ e ∈ Yml.edgesInfo exWorld.numbers (iterDoc "graph.fmi" true), e.file.head? ≠ some '/' := by decide +kernel
    exact this

/-- A run with an update: three requests for the northern route move to the southern one. -/
theorem bal_run : balFiles (balRun 1 "graph.fmi" [] true)
      ["results/utc/0/stats/abs_workloads.csv", "results/utc/1/stats/abs_workloads.csv", "results/utc/balanced.fmi"] =
    (.ok ⟨⟩, [some ["id num_routes".toList, "1 3".toList, "3 0".toList, "2 4".toList, "4 0".toList, "5 1".toList],
      some ["id num_routes".toList, "1 0".toList, "3 3".toList, "2 1".toList, "4 3".toList, "5 1".toList],
      some ["# edge-metric-count".toList, "# node-count".toList, "# edge-count".toList, "# nodes: node,lat,lon".toList,
        "# edges: id,src,dst,km,load".toList, "# Edges' metrics are not normalized by their mean.".toList, [], "2".toList,
        "4".toList, "5".toList, "10 0/1 0/1".toList, "20 0/1 1/1".toList, "30 1/1 1/1".toList, "40 1/1 0/1".toList,
        "1 10 20 2/1 9375/5002".toList, "3 10 30 1/1 5/5002".toList, "2 20 40 2/1 6250/2501".toList,
        "4 30 40 4/1 5/5002".toList, "5 40 30 1/1 3125/5002".toList]]) := by decide +kernel

example : ∃ dir, DirOf (balIn 1 "graph.fmi").cfg.resultsDir "utc".toList dir ∧
    SameOutside dir balDisk (balRun 1 "graph.fmi" [] true).2 :=
  C97_outside bal_name bal_cfg fun _ => bal_tidy

example : ∃ g : Yml.GraphOut, ∃ dir name lines, DirOf (balIn 1 "graph.fmi").cfg.resultsDir "utc".toList dir ∧ NameOf g.mapFile name ∧
    (balRun 1 "graph.fmi" [] true).2 (dir ++ '/' :: name) = some lines := by
  have h1 := congrArg Prod.fst bal_run
  unfold balFiles at h1
  have hr : balRun 1 "graph.fmi" [] true = (.ok ⟨⟩, (balRun 1 "graph.fmi" [] true).2) := Prod.ext h1 rfl
  have hrel : ∀ b, Yml.balancing exWorld.numbers (balDoc 1 "graph.fmi" []) = .ok b → Relative b.multiCh.chGraph := by
    intro b hb
    rw [bal_cfg, Res.ok.injEq] at hb
    subst hb
    unfold Relative
    decide
  obtain ⟨b, net, g, dir, name, stored, lines, -, -, hb, -, -, hd, hn, -, -, -, -, hl⟩ := C97_stored bal_name hrel hr
  rw [bal_cfg, Res.ok.injEq] at hb
  subst hb
  exact ⟨g, dir, name, lines, hd, hn, hl⟩

/-- The document of a run without its section `name`. -/
def balWithout (name : String) : Yaml :=
  match balDoc 1 "graph.fmi" [] with
  | .map es => .map (es.filter fun e => decide (e.1 ≠ name.toList))
  | y => y

/-- The assumptions of `C97_rejected`. -/
example : Yml.graphOut exWorld.numbers (balWithout "writing") = none ∧
    (Yml.graphOut exWorld.numbers (balWithout "balancing")).isSome ∧
    (match Yml.balancing exWorld.numbers (balWithout "balancing") with
      | .err _ => true
      | _ => false) = true ∧
    (Yml.graphOut exWorld.numbers (balWithout "routing")).isSome ∧
    Yml.balancing exWorld.numbers (balWithout "routing") = .ok (balIn 1 "graph.fmi").cfg ∧
    (match load { exWorld with text := balDisk } (balWithout "routing") with
      | .ok net => match Yml.routing exWorld.numbers net.edges (balWithout "routing") with
        | .err _ => true
        | _ => false
      | _ => false) = true := by
  decide +kernel

/-- C97: an absolute path for the iterations' maps is written outside of the run's directory, so that the second
iteration fails. -/
theorem C97_false_absolute :
    (balFiles (balRun 0 "/graph.fmi" [] true) ["results/utc/balanced.fmi"]).1 = .ok ⟨⟩ ∧
    (balRun 1 "/graph.fmi" [] true).1 = .err ⟨⟩ ∧
    balDisk "/graph.fmi".toList = none ∧ ((balRun 1 "/graph.fmi" [] true).2 "/graph.fmi".toList).isSome := by
  decide +kernel

/-- C97: without a section for generating, the balancer panics after the whole contraction. -/
theorem C97_false_no_generating :
    (balRun 1 "graph.fmi" [] false).1 = .panic ∧
      ((balRun 1 "graph.fmi" [] false).2 "results/utc/0/graph.ch.fmi".toList).isSome := by decide +kernel

/-- C97: a column of the balanced map that the iterations don't keep isn't noticed until all updates are done: then, the
balancer fails. Without updates, it succeeds. -/
theorem C97_false_late :
    (balRun 0 "graph.fmi" ["hills"] true).1 = .ok ⟨⟩ ∧ (balRun 1 "graph.fmi" ["hills"] true).1 = .err ⟨⟩ ∧
      ((balRun 1 "graph.fmi" ["hills"] true).2 "results/utc/0/stats/abs_workloads.csv".toList).isSome := by
  decide +kernel

end Verif.Session
