import Verif.PairsLemmas

/-!
# Properties of written route-pairs (C95)
-/

namespace Verif.Session

open Text Gen Cfg
open Dij (Heap St computeBestPath Used codeHeap)
open Search (AddOk)
open Yml (RoutingIn RoutePairsIn Writer Yaml)

section
variable {K : Type} [LinearOrder K] [Zero K] [Add K] {w : World K} {wr : Writer} {doc : Yaml} {ir : RoutingIn}
  {rp : RoutePairsIn} {draws : Nat → Nat → Nat → Nat × Nat} {d d' : Tool.Disk} {tw : Tool.World} {net : Net}
  {rc : Yml.RoutingCfg}

omit [LinearOrder K] [Zero K] [Add K] in
/-- The configuration of routing is that of the document. -/
theorem routing_of (hwr : wr.Fits w.numbers) (h : Yml.valuesAt ["routing"] doc = [ir.doc wr])
    (hrc : Yml.routing w.numbers net.edges doc = .ok rc) : rc.pairsFile = ir.pairsFile ∧ rc.algo = ir.algo := by
  unfold Yml.routing at hrc
  rw [Yml.section_eq _ h, Yml.routing_doc hwr ir] at hrc
  dsimp only at hrc
  split at hrc
  · cases hrc
    exact ⟨rfl, rfl⟩
  · cases hrc
  · cases hrc

/-- If the tool has written route-pairs into the file that is used for routing, then routing answers all of them: the
pairs are as many as requested at most, they are different and connected, and the costs of a path are reported for each of
them, in their order. -/
theorem C95_answered (hr : RoutesWith w draws doc d tw) (hd : WritesItsPairs wr w.numbers doc ir rp)
    (hl : load { w with text := d } doc = .ok net) (hrc : Yml.routing w.numbers net.edges doc = .ok rc)
    (hplain : ∀ e, e < net.graph.edgeCount → net.graph.scEdgesOf e = .ok none) (hids : Routes.IdsFit net.graph)
    (hdraws : ∀ seed n k, 0 < n → (draws seed n k).1 < n ∧ (draws seed n k).2 < n) (hk : AddOk K)
    (hw : ∀ m ∈ net.graph.metrics, 0 ≤ w.dotp rc.routing.alphas m)
    (hrun : Tool.run tw onlyPairs d = (.ok ⟨⟩, d')) :
    ∃ pairs, pairs.length ≤ rp.maxCount ∧ Routes.Ascending pairs ∧ (∀ p ∈ pairs, Routes.Connects net.graph p) ∧
      (∃ N, ∀ fuel, N ≤ fuel → ∃ reps, route { w with text := d' } fuel doc net = (reps, some (.ok ⟨⟩)) ∧
        List.Forall₂ Answered pairs reps) ∧
      Tool.run tw pairsAndRouting d = (.ok ⟨⟩, d') := by
  obtain ⟨net', outs, d1, h1, h2, h3, h4, -⟩ := (Tool.C73_succeeds_iff rfl).mp hrun
  obtain ⟨rfl, -⟩ := h4 rfl
  obtain rfl : net = net' := by
    rw [hr.parse, hl] at h1
    exact Res.ok.inj h1
  obtain ⟨mapFile, cfg, hp, hlm⟩ : ∃ mapFile cfg, Yml.parsing w.numbers d doc = some (mapFile, cfg) ∧
      loadMap { w with text := d } mapFile cfg = .ok net := by
    unfold load at hl
    split at hl
    · cases hl
    · rename_i h
      exact ⟨_, _, h, hl⟩
  have hwf := loadMap_wellFormed hlm
  have ho := (Yml.C85_writing hd.writer doc hd.keys).2.2 rp hd.small hd.writing
  obtain ⟨out, ho1, ho2, -, ho4⟩ := (hr.pairs mapFile cfg net rc hp hlm hrc).2 _ ho
  have h2' := h2
  simp only [Tool.asked, onlyPairs, Bool.false_eq_true, if_false, if_true, List.nil_append, ho1] at h2
  match outs, h2 with
  | [o], h2 =>
    simp only [List.map_cons, List.map_nil, List.cons.injEq, Option.some.injEq, and_true] at h2
    subst h2
    obtain ⟨lines, ht, hlines⟩ := h3.complete _ (List.mem_singleton.mpr rfl)
    rw [ho2] at hlines
    have hlines : d' rp.file = some lines := hlines
    have h0 : net.graph.nodeCount ≠ 0 := by
      intro h0
      have hw0 : (pairsEnv w draws 0 net.graph rc rp.cfg).write 0 mapFile rp.cfg.seed = some .panic := by
        unfold Routes.Env.write Routes.Env.pairs
        rw [if_pos (show (pairsEnv w draws 0 net.graph rc rp.cfg).graph.nodeCount = 0 from h0)]
        rfl
      have := ho4 _ _ _ hw0
      rw [ht] at this
      cases this
    have hdr : ∀ f, Routes.Draws (pairsEnv w draws f net.graph rc rp.cfg) :=
      fun f k => hdraws _ _ k (Nat.pos_of_ne_zero h0)
    obtain ⟨f, hf⟩ := Routes.C36_terminates (e := pairsEnv w draws 0 net.graph rc rp.cfg) hwf hk hw (hdr 0)
    have hne : (pairsEnv w draws f net.graph rc rp.cfg).pairs (net.graph.nodeCount ^ 2) ≠ none := hf f le_rfl _ le_rfl
    obtain ⟨r, hr0⟩ := Option.ne_none_iff_exists'.mp hne
    have hwr0 : (pairsEnv w draws f net.graph rc rp.cfg).write (net.graph.nodeCount ^ 2) mapFile rp.cfg.seed =
        some (r >>= fun pairs => pure (Routes.fileOf mapFile net.graph.nodeCount net.graph.edgeCount rp.cfg.seed pairs)) := by
      unfold Routes.Env.write
      rw [hr0]
      rfl
    have htext := ho4 _ _ _ hwr0
    rw [ht] at htext
    have hwrite := mapErr_ok htext.symm
    rw [hwrite] at hwr0
    obtain ⟨pairs, hpairs, hread⟩ := Routes.C34_written (e := pairsEnv w draws f net.graph rc rp.cfg) hids hd.few hwr0
    obtain ⟨hs1, hs2, hs3⟩ := Routes.C36_sound (e := pairsEnv w draws f net.graph rc rp.cfg) hwf hk hw (hdr f) hpairs
    obtain ⟨hpf, halg⟩ := routing_of hd.writer hd.routing hrc
    have hrd : readPairs { w with text := d' } rc.pairsFile =
        .ok (pairs.map fun p => { src := p.1, dst := p.2, count := 1 }) := by
      unfold readPairs
      rw [hpf, hd.file]
      dsimp only
      rw [(Tool.C74_supported _ _ "route-pairs".toList).mpr ⟨by simp [pairsExts], hd.named⟩]
      dsimp only
      rw [hlines]
      dsimp only
      rw [hread]
    have hall : ∃ N, ∀ fuel, N ≤ fuel → ∃ reps,
        answers { w with text := d' } fuel net.graph rc (pairs.map fun p => { src := p.1, dst := p.2, count := 1 }) =
          (reps, some (.ok ⟨⟩)) ∧ List.Forall₂ Answered pairs reps := by
      by_cases h2 : net.graph.nodeCount = 2
      · obtain rfl := pairs_two (e := pairsEnv w draws f net.graph rc rp.cfg) h2 hpairs
        exact answers_all (by simp)
      · refine answers_all fun x hx => ?_
        obtain ⟨v, ps, hi, -, -, rfl⟩ := Routes.pairs_ok hpairs
        obtain ⟨p, hp, hx'⟩ := Routes.forall₂_mem_right hi.ids (mem_stableSort.mp hx)
        have hy := (hi.sub p hp).2.2
        exact answers_yes (w := { w with text := d' }) (draws := draws) (f := f) (o := rp.cfg) hwf hplain hk hw h2 hx' hy
    have hroute : ∀ fuel, route { w with text := d' } fuel doc net =
        answers { w with text := d' } fuel net.graph rc (pairs.map fun p => { src := p.1, dst := p.2, count := 1 }) := by
      intro fuel
      unfold route
      dsimp only
      rw [hrc]
      dsimp only
      rw [hrd]
    refine ⟨pairs, hs1, hs2, hs3, ?_, ?_⟩
    · obtain ⟨N, hN⟩ := hall
      exact ⟨N, fun fuel hf => by rw [hroute]; exact hN fuel hf⟩
    · obtain ⟨N, hN⟩ := hall
      refine (Tool.C73_succeeds_iff rfl).mpr ⟨net, [o], d', h1, h2', h3, fun _ => ⟨rfl, fun _ => ?_⟩, fun h => by cases h⟩
      refine hr.route net d' (.ok ⟨⟩) N hl fun fuel hf => ?_
      obtain ⟨reps, hN, -⟩ := hN fuel hf
      rw [hroute, hN]

end

/-! ## Samples -/

/-- Route-pairs of the town. -/
def townPairsIn : RoutePairsIn where
  file := "town.route-pairs".toList
  seed := none
  maxCount := 10

/-- The document of the town with route-pairs to be written. -/
def pairsDoc (ir : RoutingIn) (rp : RoutePairsIn) : Yaml :=
  Yml.sectionOf [("parsing", townIp.doc Yml.exWriter), ("routing", some (ir.doc Yml.exWriter)),
    ("writing", some (Yml.sectionOf [("route-pairs", some (rp.doc Yml.exWriter))]))]

/-- No file but the map. -/
def freshWorld : World ℚ := { townWorld with text := fun _ => none }

/-- Not very random, but all pairs are drawn. -/
def roundDraws (_ n k : Nat) : Nat × Nat := (k * 5 % n, k / n % n)

/-- What the tool writes. -/
def pairsOutput (doc : Yaml) (net : Net) : Option Tool.Output :=
  match Yml.routing freshWorld.numbers net.edges doc, Yml.routePairs freshWorld.numbers doc with
  | .ok rc, some o => some
      { path := o.file
        accepts := fun _ => true
        text := fun net =>
          match (pairsEnv freshWorld roundDraws 60 net.graph rc o).write 40 "town.osm.pbf".toList o.seed with
          | some (.ok lines) => .ok lines
          | _ => .panic }
  | _, _ => none

open Classical in
/-- The tool with such a document. -/
noncomputable def pairsTool (doc : Yaml) : Tool.World where
  openable _ := true
  cut _ := []
  parse d := Fmi.mapErr (fun _ => ⟨⟩) (load { freshWorld with text := d } doc)
  graph := none
  edges := none
  routePairs := pairsOutput doc
  route net d :=
    if h : ∃ r N, ∀ fuel, N ≤ fuel → (route { freshWorld with text := d } fuel doc net).2 = some r then
      Fmi.mapErr (fun _ => ⟨⟩) h.choose
    else .panic
  eval _ := none
  simulate _ _ := .err ⟨⟩
  balance d := (.err ⟨⟩, d)

theorem pairsTool_route {doc : Yaml} (net : Net) (d' : Tool.Disk) (r : Res Err PUnit) (N : Nat)
    (h : ∀ fuel, N ≤ fuel → (route { freshWorld with text := d' } fuel doc net).2 = some r) :
    (pairsTool doc).route net d' = Fmi.mapErr (fun _ => ⟨⟩) r := by
  unfold pairsTool
  dsimp only
  have hx : ∃ r N, ∀ fuel, N ≤ fuel → (route { freshWorld with text := d' } fuel doc net).2 = some r := ⟨r, N, h⟩
  rw [dif_pos hx]
  obtain ⟨M, hM⟩ := hx.choose_spec
  have h1 := hM (max N M) (le_max_right N M)
  rw [h (max N M) (le_max_left N M)] at h1
  rw [← Option.some.inj h1]

/-- Whether the writer has enough fuel and doesn't return an error. -/
def enough (doc : Yaml) (net : Net) : Bool :=
  match Yml.routing freshWorld.numbers net.edges doc, Yml.routePairs freshWorld.numbers doc with
  | .ok rc, some o =>
    match (pairsEnv freshWorld roundDraws 60 net.graph rc o).write 40 "town.osm.pbf".toList o.seed with
    | none => false
    | some (.err _) => false
    | some _ => true
  | _, _ => false

theorem pairsTool_works {doc : Yaml} {net : Net} (hl : load freshWorld doc = .ok net)
    (hp : (Yml.parsing freshWorld.numbers freshWorld.text doc).map Prod.fst = some "town.osm.pbf".toList)
    (he : enough doc net = true) : RoutesWith freshWorld roundDraws doc (fun _ => none) (pairsTool doc) where
  parse := rfl
  refuses net' e hl' hr := by
    unfold pairsTool pairsOutput
    dsimp only
    rw [hr]
  pairs mapFile cfg net' rc hp' hl' hr := by
    refine ⟨fun h => ?_, fun o ho => ?_⟩
    · unfold pairsTool pairsOutput
      dsimp only
      rw [hr, h]
    · have hp' : Yml.parsing freshWorld.numbers freshWorld.text doc = some (mapFile, cfg) := hp'
      obtain rfl : net = net' := by
        have h : load freshWorld doc = .ok net' := by
          unfold load
          rw [hp']
          exact hl'
        exact Res.ok.inj (hl.symm.trans h)
      rw [hp'] at hp
      obtain rfl : mapFile = "town.osm.pbf".toList := Option.some.inj hp
      unfold pairsTool pairsOutput
      dsimp only
      rw [hr, ho]
      refine ⟨_, rfl, rfl, rfl, fun f fuel r h => ?_⟩
      unfold enough at he
      rw [hr, ho] at he
      dsimp only at he ⊢
      generalize hx : (pairsEnv freshWorld roundDraws 60 net.graph rc o).write 40 "town.osm.pbf".toList o.seed = x at he ⊢
      match x, hx, he with
      | some x, hx, he =>
        obtain rfl := write_unique (e := pairsEnv freshWorld roundDraws 0 net.graph rc o) hx h
        cases x with
        | ok l => rfl
        | err e => cases he
        | panic => rfl
  route net' d' r N _ h := pairsTool_route net' d' r N h

theorem doc_keys (y u v : Yaml) : Yml.UniqueKeys (Yml.sectionOf [("parsing", some y), ("routing", some u),
    ("writing", some (Yml.sectionOf [("route-pairs", some v)]))]) := by
  simp [Yml.sectionOf, Yml.UniqueKeys]

theorem doc_writing (y u v : Yaml) : Yml.valuesAt ["writing", "route-pairs"] (Yml.sectionOf [("parsing", some y),
    ("routing", some u), ("writing", some (Yml.sectionOf [("route-pairs", some v)]))]) = [v] := by
  have h1 : "parsing".toList ≠ "writing".toList := by decide
  have h2 : "routing".toList ≠ "writing".toList := by decide
  have h3 : Yml.valuesAt ["route-pairs"] (Yml.sectionOf [("route-pairs", some v)]) = [v] := by
    rw [Yml.sectionOf_eq, Yml.valuesAt_one, Yml.values_given]
    simp
  rw [← h3]
  generalize Yml.sectionOf [("route-pairs", some v)] = z
  generalize "route-pairs" = k
  simp [Yml.sectionOf, Yml.valuesAt]

/-- The document of the town, with the file that is written and used for routing. -/
theorem pairsDoc_writes (ir : RoutingIn) (rp : RoutePairsIn) (hs : rp.Small) (hf : 24 * rp.maxCount < 2 ^ 63)
    (hfile : ir.pairsFile = some rp.file)
    (hn : ∃ ext, Tool.Named (Tool.fileName rp.file) ext ∧ Text.lower ext = "route-pairs".toList) :
    WritesItsPairs Yml.exWriter freshWorld.numbers (pairsDoc ir rp) ir rp := by
  obtain ⟨y, hy⟩ : ∃ y, townIp.doc Yml.exWriter = some y := ⟨_, by rfl⟩
  refine ⟨Yml.exFits, ?_, ?_, ?_, hs, hf, hfile, hn⟩
  · unfold pairsDoc
    rw [hy]
    exact doc_keys _ _ _
  · unfold pairsDoc
    rw [Yml.sectionOf_eq, Yml.valuesAt_one, Yml.values_given]
    simp
  · unfold pairsDoc
    rw [hy]
    exact doc_writing _ _ _

theorem fresh_parsing (ir : RoutingIn) (rp : RoutePairsIn) :
    Yml.parsing freshWorld.numbers freshWorld.text (pairsDoc ir rp) =
      some ("town.osm.pbf".toList, townIp.cfg freshWorld.text) := by
  obtain ⟨y, hy⟩ : ∃ y, townIp.doc Yml.exWriter = some y := ⟨_, by rfl⟩
  refine Yml.C85_parsing Yml.exFits freshWorld.text townIp ((C43_parsed _ _).1.mp ⟨_, town_streets.minutes.parsed⟩) _ y hy ?_
  unfold pairsDoc
  rw [hy, Yml.sectionOf_eq, Yml.valuesAt_one, Yml.values_given]
  simp

/-- The graph of the town again. -/
theorem fresh_load (ir : RoutingIn) (rp : RoutePairsIn) : load freshWorld (pairsDoc ir rp) = .ok townLoaded := by
  rw [← town_load]
  unfold load
  rw [fresh_parsing]
  have h : Yml.parsing townWorld.numbers townWorld.text townExportDoc =
      some ("town.osm.pbf".toList, townIp.cfg freshWorld.text) := by
    obtain ⟨y, hy, h⟩ := townExport_streets.parsing
    exact Yml.C85_parsing Yml.exFits townWorld.text townIp ((C43_parsed _ _).1.mp ⟨_, town_streets.minutes.parsed⟩) _ y hy h
  rw [h]
  rfl

theorem town_plain : ∀ e, e < townLoaded.graph.edgeCount → townLoaded.graph.scEdgesOf e = .ok none := by
  obtain ⟨g, hp, hf⟩ := streets_load townExport_streets town_load
  exact fun e he => net_plain hp hf he

theorem town_pairs : RoutesWith freshWorld roundDraws (pairsDoc townIr townPairsIn) (fun _ => none)
    (pairsTool (pairsDoc townIr townPairsIn)) :=
  pairsTool_works (fresh_load _ _) (by rw [fresh_parsing]; rfl) (by decide +kernel)

/-- The files after writing. -/
noncomputable def pairsDisk (doc : Yaml) : Tool.Disk := (Tool.run (pairsTool doc) onlyPairs fun _ => none).2

/-- The configuration of routing in the town. -/
def townRouting : Yml.RoutingCfg where
  pairsFile := some "town.route-pairs".toList
  algo := .dijkstra
  routing := { alphas := [0, 0, 0, 1], tolerances := [none, none, none, none] }

theorem town_routing : Yml.routing freshWorld.numbers townLoaded.edges (pairsDoc townIr townPairsIn) = .ok townRouting := by
  decide +kernel

theorem town_pairs_run : Tool.run (pairsTool (pairsDoc townIr townPairsIn)) onlyPairs (fun _ => none) =
    (.ok ⟨⟩, pairsDisk (pairsDoc townIr townPairsIn)) := by
  have h : (Tool.run (pairsTool (pairsDoc townIr townPairsIn)) onlyPairs fun _ => none).1 = .ok ⟨⟩ := by decide +kernel
  rw [Prod.ext_iff]
  exact ⟨h, rfl⟩

/-- The hypotheses hold for the town. -/
example := C95_answered town_pairs
  (pairsDoc_writes townIr townPairsIn ⟨(by intro n h; cases h), by decide⟩ (by decide) rfl
    ⟨"route-pairs".toList, (Tool.C74_extension _ _).mp (by decide +kernel), by decide +kernel⟩)
  (fresh_load _ _) town_routing town_plain
  (by unfold Routes.IdsFit; decide +kernel)
  (fun _ n k hn => ⟨Nat.mod_lt _ hn, Nat.mod_lt _ hn⟩) Search.addOk_rat (by decide +kernel) town_pairs_run

/-- Ten pairs have been found and are answered. -/
example : (pairsDisk (pairsDoc townIr townPairsIn) "town.route-pairs".toList).bind (·[5]?) = some "10".toList ∧
    (pairsDisk (pairsDoc townIr townPairsIn) "town.route-pairs".toList).bind (·[9]?) = some "1 2 1".toList ∧
    (route { freshWorld with text := pairsDisk (pairsDoc townIr townPairsIn) } 60 (pairsDoc townIr townPairsIn)
      townLoaded).1.length = 10 := by
  decide +kernel

/-- If routing refuses what has been written, then the tool returns an error. -/
theorem run_refused {t : Tool.World} {net : Net} {d d' : Tool.Disk} (hp : t.parse d = .ok net)
    (h : Tool.run t onlyPairs d = (.ok ⟨⟩, d')) (hr : t.route net d' = .err ⟨⟩) :
    Tool.run t pairsAndRouting d = (.err .routing, d') := by
  unfold Tool.run at h ⊢
  rw [hp] at h ⊢
  simp only [Tool.reading, onlyPairs, pairsAndRouting, Bool.false_eq_true, if_false, Bool.or_false, if_true] at h ⊢
  obtain ⟨d1, h1, h2⟩ := Tool.andThen_ok h
  obtain rfl : d1 = d' := by simpa using h2
  obtain ⟨d2, h3, h4⟩ := Tool.andThen_ok h1
  obtain rfl : d2 = d1 := by simpa using h4
  rw [h3]
  simp [Tool.Out.andThen, hr]

theorem fresh_parse (ir : RoutingIn) (rp : RoutePairsIn) :
    (pairsTool (pairsDoc ir rp)).parse (fun _ => none) = .ok townLoaded := by
  have h : (pairsTool (pairsDoc ir rp)).parse (fun _ => none) =
    Fmi.mapErr (fun _ => ⟨⟩) (load freshWorld (pairsDoc ir rp)) := rfl
  rw [h, fresh_load]
  rfl

/-- C74: route-pairs are read from files with one extension only, in whatever case. -/
theorem C74_route_pairs {K : Type} {w : World K} {file : Text} {rs : List Routes.Route}
    (h : readPairs w (some file) = .ok rs) :
    ∃ ext, Tool.Named (Tool.fileName file) ext ∧ Text.lower ext = "route-pairs".toList := by
  unfold readPairs at h
  dsimp only at h
  cases hs : Tool.findSupported pairsExts (Tool.fileName file) with
  | none =>
    rw [hs] at h
    cases h
  | some s =>
    obtain ⟨h1, ext, h2, h3⟩ := (Tool.C74_supported _ _ _).mp hs
    exact ⟨ext, h2, h3.trans (List.mem_singleton.mp h1)⟩

/-- The file has another extension. -/
def txtPairsIn : RoutePairsIn := { townPairsIn with file := "pairs.txt".toList }

@[inherit_doc txtPairsIn] def txtIr : RoutingIn := { townIr with pairsFile := some "pairs.txt".toList }

/-- C95 is false for files that are named differently: writing works with every extension, but reading refuses what has
been written. -/
theorem C95_false_extension :
    RoutesWith freshWorld roundDraws (pairsDoc txtIr txtPairsIn) (fun _ => none) (pairsTool (pairsDoc txtIr txtPairsIn)) ∧
    (Tool.run (pairsTool (pairsDoc txtIr txtPairsIn)) onlyPairs fun _ => none).1 = .ok ⟨⟩ ∧
    (pairsDisk (pairsDoc txtIr txtPairsIn) "pairs.txt".toList).map List.length = some 19 ∧
    (Tool.run (pairsTool (pairsDoc txtIr txtPairsIn)) pairsAndRouting fun _ => none) =
      (.err .routing, pairsDisk (pairsDoc txtIr txtPairsIn)) := by
  have hok : (Tool.run (pairsTool (pairsDoc txtIr txtPairsIn)) onlyPairs fun _ => none).1 = .ok ⟨⟩ := by decide +kernel
  refine ⟨pairsTool_works (fresh_load _ _) (by rw [fresh_parsing]; rfl) (by decide +kernel), hok, by decide +kernel, ?_⟩
  have hroute : (pairsTool (pairsDoc txtIr txtPairsIn)).route townLoaded (pairsDisk (pairsDoc txtIr txtPairsIn)) =
      .err ⟨⟩ := by
    refine pairsTool_route _ _ (.err .pairs) 0 fun fuel _ => ?_
    have hrc : ∃ rc, Yml.routing freshWorld.numbers townLoaded.edges (pairsDoc txtIr txtPairsIn) = .ok rc := by
      have h : (match Yml.routing freshWorld.numbers townLoaded.edges (pairsDoc txtIr txtPairsIn) with
        | .ok _ => true
        | _ => false) = true := by decide +kernel
      split at h
      · exact ⟨_, by assumption⟩
      · cases h
    obtain ⟨rc, hrc⟩ := hrc
    have hpf : rc.pairsFile = some "pairs.txt".toList := by
      obtain ⟨y, hy⟩ : ∃ y, townIp.doc Yml.exWriter = some y := ⟨_, by rfl⟩
      refine (routing_of (w := freshWorld) (net := townLoaded) (ir := txtIr) Yml.exFits ?_ hrc).1
      unfold pairsDoc
      rw [Yml.sectionOf_eq, Yml.valuesAt_one, Yml.values_given]
      simp
    unfold route
    dsimp only
    rw [hrc]
    dsimp only
    rw [hpf]
    rfl
  exact run_refused (fresh_parse _ _) (Prod.ext hok rfl) hroute

/-- The explorator is configured. -/
def exploratorIr : RoutingIn := { townIr with algo := .explorator false }

/-- C95 is false if the explorator is configured: although it would answer the pairs, writing them panics, and an
incomplete file remains. -/
theorem C95_false_explorator :
    RoutesWith freshWorld roundDraws (pairsDoc exploratorIr townPairsIn) (fun _ => none)
      (pairsTool (pairsDoc exploratorIr townPairsIn)) ∧
    (Tool.run (pairsTool (pairsDoc exploratorIr townPairsIn)) onlyPairs fun _ => none).1 = .panic ∧
    ((Tool.run (pairsTool (pairsDoc exploratorIr townPairsIn)) onlyPairs fun _ => none).2
      "town.route-pairs".toList).isSome ∧
    ((Tool.run (pairsTool (pairsDoc exploratorIr townPairsIn)) onlyPairs
      (Tool.run (pairsTool (pairsDoc exploratorIr townPairsIn)) onlyPairs fun _ => none).2)).1 =
        .err (.alreadyThere "town.route-pairs".toList) := by
  refine ⟨pairsTool_works (fresh_load _ _) (by rw [fresh_parsing]; rfl) (by decide +kernel), by decide +kernel,
    by decide +kernel, by decide +kernel⟩

end Verif.Session
