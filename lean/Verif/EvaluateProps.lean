import Verif.EvaluateLemmas
import Verif.PairsProps

/-!
# Properties of evaluations (C96)
-/

namespace Verif.Session

open Text Gen Cfg
open Dij (Heap St computeBestPath Used codeHeap NonnegMetrics)
open Par (FlattensTo)
open Yml (ParsingIn RoutingIn EvaluatingIn Writer Yaml)

section
variable {die : Par.Die} {w : World ℚ} {wr : Writer} {doc : Yaml} {ir : RoutingIn} {ei : EvaluatingIn} {d d' : Tool.Disk}
  {tw : Tool.World} {net : Net} {rs : List Routes.Route} {reps : List Report} {f : Nat}

theorem flat_plain {g : Graph} (hwf : g.WellFormed) {p q : Path} (h : FlattensTo g p q) :
    (∀ e ∈ q.edges, e < g.edgeCount ∧ g.scEdgesOf e = .ok none) ∧ ∃ fuel, p.tryFlatten g fuel = some (.ok q) := by
  obtain ⟨fuel, h⟩ := h
  unfold Path.flatten at h
  obtain ⟨r, h1, h3⟩ := Option.map_eq_some_iff.mp h
  cases r with
  | err x => cases h3
  | panic => cases h3
  | ok q' =>
    simp only [Res.ok.injEq] at h3
    subst h3
    exact ⟨fun e he => ⟨hwf.sc_len e _ (Path.C21_no_shortcut h1 e he), Path.C21_no_shortcut h1 e he⟩, fuel, h1⟩

theorem by_counted {g : Graph} {rc : Yml.RoutingCfg} (hwf : g.WellFormed) {x : Routes.Route × Report} {qs : List Path}
    (h : By w g rc x qs) : Counted g x qs := by
  obtain ⟨r, rep⟩ := x
  cases rep with
  | nothing a b =>
    obtain ⟨h1, h2, rfl⟩ := h
    exact ⟨by simp, h1, h2, rfl⟩
  | costs a b cs =>
    obtain ⟨h1, h2, -, -, algo, p, q, -, h3, h4, rfl⟩ := h
    obtain ⟨h5, fuel, h6⟩ := flat_plain hwf h3
    refine ⟨fun q' hq => ?_, h1, h2, q, rfl, ?_⟩
    · rw [List.eq_of_mem_replicate hq]
      exact h5
    · obtain ⟨ls, -, -, -, -, -, -, c, h7, h8⟩ := Path.C21_expansion h6
      rw [h4] at h7
      cases h7
      exact h8
  | found a b ps =>
    obtain ⟨h1, h2, -, h3, h4⟩ := h
    refine ⟨fun q hq => ?_, h1, h2, h3, h4⟩
    obtain ⟨p, -, hp⟩ := h4 q hq
    exact (flat_plain hwf hp).1

theorem by_leading {g : Graph} {rc : Yml.RoutingCfg} (hwf : g.WellFormed) (hm : NonnegMetrics g) (hdim : g.DimOk)
    (hsc : g.ShortcutsConnect) {x : Routes.Route × Report} (hx : ∃ a b, g.nodeId a = .ok x.1.src ∧ g.nodeId b = .ok x.1.dst)
    {qs : List Path} (h : By w g rc x qs) : Leading g x qs := by
  obtain ⟨r, rep⟩ := x
  cases rep with
  | nothing a b =>
    obtain ⟨-, -, rfl⟩ := h
    obtain ⟨i, j, h1, h2⟩ := hx
    exact ⟨i, j, h1, h2, by simp⟩
  | costs a b cs =>
    obtain ⟨-, -, h1, h2, algo, p, q, ⟨f, s', hc⟩, h3, -, rfl⟩ := h
    obtain ⟨-, fuel, h6⟩ := flat_plain hwf h3
    refine ⟨a.idx, b.idx, h1, h2, fun q' hq => ?_⟩
    rw [List.eq_of_mem_replicate hq]
    have ha := (Dij.computed_valid hc).2
    exact Path.C21_route hsc h6 (Par.routerAnswers_route hwf (Dij.weights_nonneg ha hm)
      (List.getElem?_eq_some_iff.mp (nodeId_iff.mp h1)).1 (List.getElem?_eq_some_iff.mp (nodeId_iff.mp h2)).1 ⟨f, s', hc⟩)
  | found a b ps =>
    obtain ⟨-, -, ⟨algo, h1⟩, -, h2⟩ := h
    obtain ⟨src, dst, h3, h4, h5⟩ := Par.C66_route hwf hdim hm h1
    refine ⟨src, dst, nodeId_iff.mpr h3, nodeId_iff.mpr h4, fun q hq => ?_⟩
    obtain ⟨p, hp, hpq⟩ := h2 q hq
    obtain ⟨-, fuel, h6⟩ := flat_plain hwf hpq
    exact Path.C21_route hsc h6 (h5 p hp)

theorem forall₂_imp_mem {α β : Type} {R S : α → β → Prop} {xs : List α} {ys : List β} (h : List.Forall₂ R xs ys)
    (hs : ∀ x ∈ xs, ∀ y, R x y → S x y) : List.Forall₂ S xs ys := by
  induction h with
  | nil => exact .nil
  | cons h1 _ ih =>
    exact .cons (hs _ (by simp) _ h1) (ih fun x hx => hs x (by simp [hx]))

theorem load_wellFormed {w : World ℚ} (hl : load w doc = .ok net) : net.graph.WellFormed := by
  unfold load at hl
  split at hl
  · cases hl
  · exact loadMap_wellFormed hl

/-- If routing finishes with a document, then so does the simulation of an evaluation with it, whatever the schedule of
its threads is: it has counted exactly the paths that are reported by routing, each as often as its route-pair requests.
-/
theorem C96_simulated (hr : EvaluatesWith die w doc d tw) (hd : AsksForEvaluation wr w.numbers doc ir ei)
    (hdie : die.InRange) (hl : load { w with text := d } doc = .ok net)
    (hrs : readPairs { w with text := d } ir.pairsFile = .ok rs)
    (hroute : route { w with text := d } f doc net = (reps, some (.ok ⟨⟩))) (h2 : net.graph.nodeCount ≠ 2)
    (ht : 1 ≤ ei.cfg.threads) (hc : ∀ r ∈ rs, 1 ≤ r.count)
    (hflat : ∀ a b ps, .found a b ps ∈ reps → ∀ p ∈ ps, ∃ q, FlattensTo net.graph p q) :
    ∃ ls ps picked, tw.simulate net d = .ok (ls, ps) ∧ rs.length = reps.length ∧
      List.Forall₂ (Counted net.graph) (rs.zip reps) picked ∧
      (NonnegMetrics net.graph → net.graph.DimOk → net.graph.ShortcutsConnect →
        List.Forall₂ (Leading net.graph) (rs.zip reps) picked) ∧
      ls.length = net.graph.edgeCount ∧
      (∀ e, e < net.graph.edgeCount → ls[e]? = some (Par.occurrences e picked.flatten)) ∧
      (ei.cfg.monitoring.smarts = true → ∃ l, ps = some l ∧ l.Perm picked.flatten) := by
  have hwf := load_wellFormed hl
  have hev := Yml.C85_evaluating hd.writer ei hd.small doc hd.evaluating
  obtain ⟨rc, hrc, hans⟩ : ∃ rc, Yml.routing w.numbers net.edges doc = .ok rc ∧
      answers { w with text := d } f net.graph rc rs = (reps, some (.ok ⟨⟩)) := by
    unfold route at hroute
    dsimp only at hroute
    cases hrc : Yml.routing w.numbers net.edges doc with
    | err e => rw [hrc] at hroute; cases hroute
    | panic => rw [hrc] at hroute; cases hroute
    | ok rc =>
      rw [hrc] at hroute
      dsimp only at hroute
      rw [(routing_of hd.writer hd.routing hrc).1, hrs] at hroute
      exact ⟨rc, rfl, hroute⟩
  have hsim := hr.simulate net rc _ hl hrc hev
  rw [(routing_of hd.writer hd.routing hrc).1, hrs] at hsim
  obtain ⟨s, ⟨fuel, es, hrun⟩, hend⟩ := hsim
  obtain ⟨N, hN⟩ := fine_answers (w := { w with text := d }) hdie hr.dotp hwf h2 hc hflat hans
  have hrun' := Par.run_mono (worker_mono (die := die) (w := w) (rc := rc) (le_max_left fuel N)) (le_max_left fuel N) es hrun
  obtain ⟨-, -, hp, hf, hret⟩ := hN (max fuel N) (le_max_right fuel N) _ _ _ _ ht hrun'
  generalize tw.simulate net d = r at hend
  match r, hend with
  | .err _, hend => exact absurd hend hf
  | .panic, hend => exact absurd hend hp
  | .ok r, ⟨hph, hr'⟩ =>
    obtain ⟨picked, c1, c2, c3, c4⟩ := hret hph
    refine ⟨_, _, picked, congrArg Res.ok hr', ?_, c1.imp fun x qs h => by_counted hwf h, ?_, c2, c3, c4⟩
    · exact ((C89_independent _ _).mp hans).length_eq
    · intro hm hdim hsc
      have hnodes : ∀ x ∈ rs.zip reps, ∃ a b, net.graph.nodeId a = .ok x.1.src ∧ net.graph.nodeId b = .ok x.1.dst := by
        intro x hx
        have h1 := forall₂_zip ((C89_independent _ _).mp hans) x hx
        obtain ⟨U, one, -, -, ho⟩ := answers_steady { w with text := d } f net.graph rc
        rw [ho] at h1
        obtain ⟨a, b, s', e1, e2, -⟩ := (queries_one _ _ _).mp h1
        exact ⟨a.idx, b.idx, (intoNode_ok hwf e1).1, (intoNode_ok hwf e2).1⟩
      exact forall₂_imp_mem c1 fun x hx qs h => by_leading hwf hm hdim hsc (hnodes x hx) h

theorem edgeIdName_mem {net : Net} {name : Text} (h : Tool.edgeIdName net = some name) :
    .info .edgeId name ∈ net.edges.cats := by
  unfold Tool.edgeIdName at h
  obtain ⟨c, hc, h⟩ := List.exists_of_findSome?_eq_some h
  split at h
  · cases h
    exact hc
  · cases h

theorem loads_text {net : Net} {cfg : Tool.EdgesCfg} {path : Text} {loads : List Nat} {number : Nat → Nat}
    {file : List Text} (ha : (Tool.loadsOutput cfg path loads).accepts net = true)
    (ht : (Tool.loadsOutput cfg path loads).text net = .ok file)
    (hn : ∀ e, e < net.graph.edgeCount → loads[e]? = some (number e)) :
    LoadsFile net cfg.header cfg.shortcuts number file := by
  simp only [Tool.loadsOutput, Bool.and_eq_true] at ha
  obtain ⟨name, hname⟩ := Option.isSome_iff_exists.mp ha.1
  simp only [Tool.loadsOutput, Fmi.writeValues, Res.bind_eq_ok, Res.pure_eq, Res.ok.injEq, hname] at ht
  obtain ⟨lines, hl, rfl⟩ := ht
  refine ⟨name, lines, edgeIdName_mem hname, rfl, ?_⟩
  refine forall₂_imp_mem (Fmi.valueLines_ok _ _ hl) ?_
  rintro e he line ⟨id, x, h1, h2, h3⟩
  rw [hn e (List.mem_range.mp (List.mem_filter.mp he).1), Option.some.injEq] at h2
  exact ⟨id, h1, by rw [h3, h2]⟩

/-- If routing finishes with a document and an evaluation with it succeeds, then its file of workloads tells for every
edge how often it is part of the reported paths, where each path counts as often as its route-pair requests. -/
theorem C96_workloads (hr : EvaluatesWith die w doc d tw) (hd : AsksForEvaluation wr w.numbers doc ir ei)
    (hdie : die.InRange) (hl : load { w with text := d } doc = .ok net)
    (hrs : readPairs { w with text := d } ir.pairsFile = .ok rs)
    (hroute : route { w with text := d } f doc net = (reps, some (.ok ⟨⟩))) (h2 : net.graph.nodeCount ≠ 2)
    (ht : 1 ≤ ei.cfg.threads) (hc : ∀ r ∈ rs, 1 ≤ r.count)
    (hflat : ∀ a b ps, .found a b ps ∈ reps → ∀ p ∈ ps, ∃ q, FlattensTo net.graph p q)
    (hrun : Tool.run tw onlyEvaluating d = (.ok ⟨⟩, d')) :
    ∃ picked file, rs.length = reps.length ∧ List.Forall₂ (Counted net.graph) (rs.zip reps) picked ∧
      (NonnegMetrics net.graph → net.graph.DimOk → net.graph.ShortcutsConnect →
        List.Forall₂ (Leading net.graph) (rs.zip reps) picked) ∧
      d (loadsFile ei.cfg) = none ∧ d' (loadsFile ei.cfg) = some file ∧
      LoadsFile net ei.cfg.monitoring.edgesInfo.header ei.cfg.monitoring.edgesInfo.shortcuts
        (fun e => Par.occurrences e picked.flatten) file := by
  obtain ⟨ls, ps, picked, c1, c2, c3, c4, -, c5, -⟩ := C96_simulated hr hd hdie hl hrs hroute h2 ht hc hflat
  obtain ⟨net', outs, d1, e1, e2, e3, -, e4⟩ := (Tool.C73_succeeds_iff (a := onlyEvaluating) rfl).mp hrun
  rw [hr.parse, hl] at e1
  simp only [Fmi.mapErr, Res.ok.injEq] at e1
  subst e1
  obtain rfl : outs = [] := by simpa [Tool.asked, onlyEvaluating] using e2
  obtain rfl : d1 = d := funext fun p => e3.others p (by simp)
  obtain ⟨info, loads, paths, ls', ps', f1, -, -, -, f2, f3⟩ := e4 rfl
  rw [c1] at f2
  cases f2
  have hrc : ∃ rc, Yml.routing w.numbers net.edges doc = .ok rc := by
    unfold route at hroute
    dsimp only at hroute
    cases hrc : Yml.routing w.numbers net.edges doc with
    | err e => rw [hrc] at hroute; cases hroute
    | panic => rw [hrc] at hroute; cases hroute
    | ok rc => exact ⟨rc, rfl⟩
  obtain ⟨rc, hrc⟩ := hrc
  rw [hr.eval net rc _ hl hrc (Yml.C85_evaluating hd.writer ei hd.small doc hd.evaluating)] at f1
  simp only [evalOutputs, Option.some.injEq, Prod.mk.injEq] at f1
  obtain ⟨rfl, rfl, rfl⟩ := f1
  have hmem : Tool.loadsOutput (infoCfg ei.cfg) (loadsFile ei.cfg) ls ∈
      Tool.results (Tool.edgesOutput w.codec (infoCfg ei.cfg)) (Tool.loadsOutput (infoCfg ei.cfg) (loadsFile ei.cfg))
        (Tool.pathsOutput (pathsFile ei.cfg)) ls ps := by simp [Tool.results]
  obtain ⟨lines, g1, g2⟩ := f3.complete _ hmem
  exact ⟨picked, lines, c2, c3, c4, f3.fresh _ hmem, g2, loads_text (f3.accepted _ hmem).1 g1 c5⟩

end

/-! ## Sample -/

/-- Columns of a small map, whose edges have ids or not. -/
def evIp (ids : Bool) : ParsingIn where
  mapFile := "isle.fmi".toList
  vehicles := none
  nodes := exIp.nodes
  normalized := none
  edges := [if ids then .info .edgeId "id".toList else .ignored, .info .srcId "src".toList, .info .dstId "dst".toList,
    .metric .kilometers "km".toList]
  generating := none

/-- Edges' info and workloads go to a directory. -/
def evIn (threads : Nat) : EvaluatingIn where
  seed := none
  resultsDir := "out".toList
  monitoring :=
    { edgesInfo := { file := "info.csv".toList, shortcuts := none, denormalize := none, ids := [some "km".toList] }
      smarts := none }
  threads := some threads

def evDoc (ids : Bool) (threads : Nat) : Yaml :=
  Yml.sectionOf [("parsing", (evIp ids).doc Yml.exWriter), ("routing", some (exIr.doc Yml.exWriter)),
    ("evaluating_balance", some ((evIn threads).doc Yml.exWriter))]

def evMap : List Text :=
  ["4".toList, "5".toList] ++ exMapNodes ++
    ["1 10 20 2/1".toList, "2 20 40 2/1".toList, "3 10 30 1/1".toList, "4 30 40 4/1".toList, "5 40 30 1/1".toList]

/-- The map and route-pairs. -/
def evDisk (pairs : List Text) : Tool.Disk := fun f =>
  if f = "isle.fmi".toList then some evMap
  else if f = "isle.route-pairs".toList then some (printNat pairs.length :: pairs) else none

/-- Three requests for one pair, one for another, and one without a route. -/
def evPairs : List Text := ["10 40 3".toList, "40 10 1".toList, "20 30 1".toList]

/-- How the master has ended after these events. -/
def endOf : Option (Par.Sys (St ℚ)) → Res _root_.Unit (List Nat × Option (List Path))
  | some s =>
    match s.phase with
    | .returned => .ok (s.master.loads, s.master.paths)
    | .failed => .err ⟨⟩
    | _ => .panic
  | none => .panic

/-- The threads after these events. -/
def evSim (doc : Yaml) (d : Tool.Disk) (es : List Par.Event) (net : Net) : Option (Par.Sys (St ℚ)) :=
  match Yml.routing exWorld.numbers net.edges doc, Yml.evaluating exWorld.numbers doc with
  | .ok rc, some ev =>
    match readPairs { exWorld with text := d } rc.pairsFile with
    | .ok rs => Par.run (worker Par.modDie exWorld net.graph rc 40) Par.sizeDefaults net.graph 40
      (Par.start Par.sizeDefaults net.graph St.new ev.threads (jobsOf rs) ev.monitoring.smarts) es
    | _ => none
  | _, _ => none

/-- The tool, if its threads do these events. -/
def evTool (doc : Yaml) (d : Tool.Disk) (es : List Par.Event) : Tool.World where
  openable _ := true
  cut _ := []
  parse d := Fmi.mapErr (fun _ => ⟨⟩) (load { exWorld with text := d } doc)
  graph := none
  edges := none
  routePairs _ := none
  route _ _ := .err ⟨⟩
  eval net :=
    match Yml.routing exWorld.numbers net.edges doc, Yml.evaluating exWorld.numbers doc with
    | .ok _, some ev => some (evalOutputs exWorld.codec ev)
    | _, _ => none
  simulate net _ := endOf (evSim doc d es net)
  balance d := (.err ⟨⟩, d)

/-- The master has ended. -/
def ended (s : Option (Par.Sys (St ℚ))) : Bool :=
  match s with
  | some s => decide (s.phase = .returned ∨ s.phase = .failed ∨ s.phase = .panicked)
  | none => false

/-- The loaded map. -/
def evNet (doc : Yaml) (d : Tool.Disk) : Net :=
  match load { exWorld with text := d } doc with
  | .ok net => net
  | _ => Osm.townNet

/-- Whether loading works and the master ends. -/
def evWorks (doc : Yaml) (d : Tool.Disk) (es : List Par.Event) : Bool :=
  match load { exWorld with text := d } doc with
  | .ok net => ended (evSim doc d es net)
  | _ => false

theorem evNet_load {doc : Yaml} {d : Tool.Disk} {es : List Par.Event} (h : evWorks doc d es = true) :
    load { exWorld with text := d } doc = .ok (evNet doc d) := by
  unfold evNet
  unfold evWorks at h
  split at h
  · rename_i h1
    rw [h1]
  · cases h

theorem ends_endOf {s : Par.Sys (St ℚ)} (h : ended (some s) = true) : Ends s (endOf (some s)) := by
  have h := of_decide_eq_true h
  unfold endOf
  cases hp : s.phase <;> simp [hp] at h ⊢ <;> simp [Ends, hp]

theorem evTool_works {doc : Yaml} {d : Tool.Disk} {es : List Par.Event} (h : evWorks doc d es = true) :
    EvaluatesWith Par.modDie exWorld doc d (evTool doc d es) where
  dotp := rfl
  parse := rfl
  eval net rc ev _ hr he := by
    unfold evTool
    dsimp only
    rw [hr, he]
  refuses net _ h := by
    unfold evTool
    dsimp only
    rcases h with ⟨e, h⟩ | h
    · rw [h]
    · rw [h]
      split <;> simp_all
  simulate net rc ev hl hr he := by
    unfold evWorks at h
    rw [hl] at h
    dsimp only at h
    show match readPairs { exWorld with text := d } rc.pairsFile with
      | .ok rs => ∃ s, Reaches Par.modDie exWorld net.graph rc ev rs s ∧ Ends s (endOf (evSim doc d es net))
      | .err _ => endOf (evSim doc d es net) = .err ⟨⟩
      | .panic => endOf (evSim doc d es net) = .panic
    unfold evSim at h ⊢
    rw [hr, he] at h ⊢
    dsimp only at h ⊢
    cases hp : readPairs { exWorld with text := d } rc.pairsFile with
    | err e => rw [hp] at h; cases h
    | panic => rw [hp] at h; cases h
    | ok rs =>
      rw [hp] at h
      dsimp only at h ⊢
      generalize hs : Par.run (worker Par.modDie exWorld net.graph rc 40) Par.sizeDefaults net.graph 40
        (Par.start Par.sizeDefaults net.graph St.new ev.threads (jobsOf rs) ev.monitoring.smarts) es = o at h ⊢
      cases o with
      | none => cases h
      | some s => exact ⟨s, ⟨40, es, hs⟩, ends_endOf h⟩

theorem evDoc_asks (ids : Bool) (threads : Nat) (h : threads < 2 ^ 64) :
    AsksForEvaluation Yml.exWriter exWorld.numbers (evDoc ids threads) exIr (evIn threads) where
  writer := Yml.exFits
  routing := by
    unfold evDoc
    rw [Yml.sectionOf_eq, Yml.valuesAt_one, Yml.values_given]
    simp
  evaluating := by
    unfold evDoc
    rw [Yml.sectionOf_eq, Yml.valuesAt_one, Yml.values_given]
    simp
  small := ⟨(by intro n h; cases h), (by intro n hn; cases hn; exact h)⟩

/-- One thread works. -/
def oneThread : List Par.Event := [.recv true 0, .work 0, .recv false 0, .exit 0, .joined, .disconnected]

theorem ev_works : evWorks (evDoc true 1) (evDisk evPairs) oneThread = true := by decide +kernel

/-- The tool's outcome and its workloads. -/
def evOut (doc : Yaml) (d : Tool.Disk) (es : List Par.Event) : Res Tool.Err _root_.Unit × Option (List Text) :=
  let o := Tool.run (evTool doc d es) onlyEvaluating d
  (o.1, o.2 "out/abs_workloads.csv".toList)

/-- Whether routing with the sample finishes, and how many reports there are. -/
def evRouted (doc : Yaml) (d : Tool.Disk) : Bool × Nat :=
  let r := route { exWorld with text := d } 40 doc (evNet doc d)
  (match r.2 with | some (.ok _) => true | _ => false, r.1.length)

/-- The route-pairs of the sample. -/
def evRoutes : List Routes.Route :=
  [{ src := 10, dst := 40, count := 3 }, { src := 40, dst := 10, count := 1 }, { src := 20, dst := 30, count := 1 }]

theorem ev_pairs : readPairs { exWorld with text := evDisk evPairs } exIr.pairsFile = .ok evRoutes := by decide +kernel

theorem ev_route : ∃ reps, route { exWorld with text := evDisk evPairs } 40 (evDoc true 1)
    (evNet (evDoc true 1) (evDisk evPairs)) = (reps, some (.ok ⟨⟩)) ∧ ∀ a b ps, .found a b ps ∉ reps := by
  have h : (evRouted (evDoc true 1) (evDisk evPairs)).1 = true := by decide +kernel
  have hall : (route { exWorld with text := evDisk evPairs } 40 (evDoc true 1)
      (evNet (evDoc true 1) (evDisk evPairs))).1.all (fun r => match r with | .found _ _ _ => false | _ => true) = true := by
    decide +kernel
  unfold evRouted at h
  generalize route { exWorld with text := evDisk evPairs } 40 (evDoc true 1)
    (evNet (evDoc true 1) (evDisk evPairs)) = r at h hall
  obtain ⟨reps, o⟩ := r
  dsimp only at h hall
  split at h
  · refine ⟨reps, rfl, fun a b ps hm => ?_⟩
    have := List.all_eq_true.mp hall _ hm
    cases this
  · cases h

theorem ev_run : evOut (evDoc true 1) (evDisk evPairs) oneThread =
    (.ok ⟨⟩, some ["id num_routes".toList, "1 3".toList, "3 0".toList, "2 4".toList, "4 0".toList, "5 1".toList]) := by
  decide +kernel

/-- The hypotheses hold for the sample: routing reports three route-pairs, whose paths are counted. -/
example : ∃ reps picked file, List.Forall₂ (Counted (evNet (evDoc true 1) (evDisk evPairs)).graph) (evRoutes.zip reps) picked ∧
    (Tool.run (evTool (evDoc true 1) (evDisk evPairs) oneThread) onlyEvaluating (evDisk evPairs)).2
      "out/abs_workloads.csv".toList = some file ∧
    LoadsFile (evNet (evDoc true 1) (evDisk evPairs)) true false (fun e => Par.occurrences e picked.flatten) file := by
  obtain ⟨reps, h1, h2⟩ := ev_route
  have hok : (Tool.run (evTool (evDoc true 1) (evDisk evPairs) oneThread) onlyEvaluating (evDisk evPairs)).1 = .ok ⟨⟩ :=
    congrArg Prod.fst ev_run
  obtain ⟨picked, file, -, h3, -, -, h4, h5⟩ := C96_workloads (evTool_works ev_works) (evDoc_asks true 1 (by decide))
    Par.modDie_inRange (evNet_load ev_works) ev_pairs h1 (by decide +kernel) (by decide) (by decide)
    (fun a b ps hm => absurd hm (h2 a b ps)) (Prod.ext hok rfl)
  exact ⟨reps, picked, file, h3, h4, h5⟩

/-- C96 is false without threads: routing finishes with three reports, and the evaluation succeeds, but its workloads
are zero. -/
theorem C96_false_no_thread :
    EvaluatesWith Par.modDie exWorld (evDoc true 0) (evDisk evPairs)
      (evTool (evDoc true 0) (evDisk evPairs) [.disconnected]) ∧
    evRouted (evDoc true 0) (evDisk evPairs) = (true, 3) ∧
    evOut (evDoc true 0) (evDisk evPairs) [.disconnected] =
      (.ok ⟨⟩, some ["id num_routes".toList, "1 0".toList, "3 0".toList, "2 0".toList, "4 0".toList, "5 0".toList]) :=
  ⟨evTool_works (by decide +kernel), by decide +kernel, by decide +kernel⟩

/-- A route-pair that isn't requested. -/
def zeroPairs : List Text := evPairs ++ ["10 30 0".toList]

/-- C96 is false for counts of zero: routing finishes with four reports, and the evaluation succeeds, but its workloads
are zero, since its worker has panicked. -/
theorem C96_false_count_zero :
    EvaluatesWith Par.modDie exWorld (evDoc true 1) (evDisk zeroPairs)
      (evTool (evDoc true 1) (evDisk zeroPairs) [.recv true 0, .work 0, .disconnected]) ∧
    evRouted (evDoc true 1) (evDisk zeroPairs) = (true, 4) ∧
    evOut (evDoc true 1) (evDisk zeroPairs) [.recv true 0, .work 0, .disconnected] =
      (.ok ⟨⟩, some ["id num_routes".toList, "1 0".toList, "3 0".toList, "2 0".toList, "4 0".toList, "5 0".toList]) :=
  ⟨evTool_works (by decide +kernel), by decide +kernel, by decide +kernel⟩

/-- A route-pair with a node that isn't part of the map. -/
def strangePairs : List Text := evPairs ++ ["10 77 1".toList]

/-- C96 is false if routing doesn't finish: with an unknown node, routing stops after three reports, but the evaluation
succeeds with workloads of zero, since its worker has panicked. -/
theorem C96_false_unknown_node :
    EvaluatesWith Par.modDie exWorld (evDoc true 1) (evDisk strangePairs)
      (evTool (evDoc true 1) (evDisk strangePairs) [.recv true 0, .work 0, .disconnected]) ∧
    evRouted (evDoc true 1) (evDisk strangePairs) = (false, 3) ∧
    evOut (evDoc true 1) (evDisk strangePairs) [.recv true 0, .work 0, .disconnected] =
      (.ok ⟨⟩, some ["id num_routes".toList, "1 0".toList, "3 0".toList, "2 0".toList, "4 0".toList, "5 0".toList]) :=
  ⟨evTool_works (by decide +kernel), by decide +kernel, by decide +kernel⟩

/-- C96 is false if edges have no ids: the whole simulation is done and the edges' info is written before the workloads
are refused. -/
theorem C96_false_no_edge_id :
    EvaluatesWith Par.modDie exWorld (evDoc false 1) (evDisk evPairs) (evTool (evDoc false 1) (evDisk evPairs) oneThread) ∧
    evRouted (evDoc false 1) (evDisk evPairs) = (true, 3) ∧
    (match (evTool (evDoc false 1) (evDisk evPairs) oneThread).simulate (evNet (evDoc false 1) (evDisk evPairs))
        (evDisk evPairs) with
      | .ok (ls, _) => ls
      | _ => []) = [3, 0, 4, 0, 1] ∧
    evOut (evDoc false 1) (evDisk evPairs) oneThread = (.err (.refused "out/abs_workloads.csv".toList), none) ∧
    ((Tool.run (evTool (evDoc false 1) (evDisk evPairs) oneThread) onlyEvaluating (evDisk evPairs)).2
      "out/info.csv".toList).map List.length = some 6 :=
  ⟨evTool_works (by decide +kernel), by decide +kernel, by decide +kernel, by decide +kernel, by decide +kernel⟩

end Verif.Session
