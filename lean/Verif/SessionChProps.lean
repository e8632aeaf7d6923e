import Verif.SessionChLines
import Verif.SessionProps
import Verif.ContractProps

/-!
# The tool's routing on maps with shortcuts (C92)
-/

namespace Verif.Session

open Text Cfg
open Dij (St computeBestPath Used codeHeap)
open Search (AddOk)
open Build (ProtoEdge ProtoNode build Chain chainCost lifted EdgeIs)
open Yml (ParsingIn RoutingIn Writer Yaml)

theorem flatten_ok {g : Graph} {fuel : Nat} {p q : Path} (h : p.flatten g fuel = some (.ok q)) :
    Path.tryFlatten g fuel p = some (.ok q) := by
  unfold Path.flatten at h
  rw [Option.map_eq_some_iff] at h
  obtain ⟨r, h1, h2⟩ := h
  split at h2
  · cases h2
  · rw [h1, h2]

/-- Lines that are contracted become records that are contracted. -/
theorem contracted_of_lines {c : Fmi.Codec} {ip : ParsingIn} {nodes edges : List Text} {es : List ProtoEdge}
    {ns : List ProtoNode} {dim : Nat} {g : Graph} {lv : Int → Nat} {al : List ℚ}
    (h1 : List.Forall₂ (fun line pe => Fmi.readEdge c ip.edges line = .ok pe) edges es)
    (h2 : List.Forall₂ (fun line n => Fmi.readNode c ip.nodes line = .ok n) nodes ns)
    (hb : build dim es ns = .ok g) (hlv : Levels ip.nodes nodes lv) (hct : ContractedLines c ip.edges edges lv al) :
    Build.ContractedRecords al (Build.levelOf ns) es := by
  have hid : ∀ id, Build.Endpoint es id → Build.levelOf ns id = lv id := by
    intro id h
    obtain ⟨n, hn⟩ := (Build.build_ok hb).1 id h
    have := List.mem_filter.mp (List.mem_of_getLast? hn)
    exact levelOf_eq h2 hlv ⟨n, this.1, by simpa using this.2⟩
  exact contracted_records h1 (fun pe hpe => ⟨hid _ ⟨pe, hpe, .inl rfl⟩, hid _ ⟨pe, hpe, .inr rfl⟩⟩) hct

section
variable {K : Type} [LinearOrder K] [Zero K] [Add K] {w : World K} {fuel : Nat} {wr : Writer} {doc : Yaml}
  {ip : ParsingIn} {ir : RoutingIn} {nodes edges pairs : List Text}

/-- A pattern for both algorithms. -/
theorem plain_reports {algo : Dij.Algo} (hs : Setting w wr doc ip ir nodes edges pairs)
    (halg : ir.algo = .dijkstra ∧ algo = .dijkstra ∨ ir.algo = .chDijkstra ∧ algo = .chDijkstra) (hk : AddOk K)
    (hw : ∀ m : List ℚ, (∀ x ∈ m, 0 ≤ x) → 0 ≤ w.dotp (alphas ip ir) m)
    (hl : ShortcutsLead w.codec ip.edges edges)
    (hnone : ∀ es ns g n s s' a b x y, List.Forall₂ (fun line pe => Fmi.readEdge w.codec ip.edges line = .ok pe) edges es →
      List.Forall₂ (fun line n => Fmi.readNode w.codec ip.nodes line = .ok n) nodes ns →
      build (Fmi.metricIds ip.edges).length es ns = .ok g → g.nodeId a = .ok x → g.nodeId b = .ok y →
      Used w.heap w.dotp n s →
      computeBestPath w.heap w.dotp fuel s ⟨a, b, g, algo, alphas ip ir⟩ = some (.ok (s', none)) →
      ¬ ∃ rs : List ProtoEdge, (∀ pe ∈ rs, pe ∈ es) ∧ Chain x rs y) :
    ReportsOn (fun a b rep => Truthful w.codec ip (plainLines ip.edges edges) a b rep ∧
      ∀ src dst ps, rep ≠ .found src dst ps) pairs (run w fuel doc) := by
  refine best_reports hs halg ?_
  intro es ns g s a b rep s' x y h1 hns h2 hu hx hy hb
  have hwf := Build.built_wellFormed h2
  have hw' : ∀ m ∈ g.metrics, 0 ≤ w.dotp (alphas ip ir) m := fun m hm => hw m (Build.built_nonneg h2 m hm)
  obtain ⟨hx1, hx2⟩ := intoNode_ok hwf hx
  obtain ⟨hy1, hy2⟩ := intoNode_ok hwf hy
  rcases best_ok hb with ⟨h3, rfl⟩ | ⟨p, q, cs, h3, h4, h5, rfl⟩
  · refine ⟨⟨hx2, hy2, ?_⟩, by simp⟩
    rintro ⟨ms, hms⟩
    obtain ⟨rs, h6, h7, -⟩ := chain_of_connects h1 (connects_mono (fun l hl => (mem_plainLines.mp hl).1) hms)
    exact hnone es ns g _ s s' a.idx b.idx x y h1 hns h2 hx1 hy1 hu h3 ⟨rs, h6, h7⟩
  · obtain ⟨rs, h6, h7, -, h8, cs', h9, h10⟩ := Build.C91_chain h2 (shortcutsLead_records h1 hl) hk hw' hx1 hy1 hu h3
      (flatten_ok h4)
    rw [h5, Option.some.injEq] at h9
    subst h9
    exact ⟨⟨hx2, hy2, rs.map (·.metrics), connects_of_plain h1 h6 h7,
      sums_of h1 h2 h8 (fun pe hpe => (h6 pe hpe).1) h10⟩, by simp⟩

/-- On a map that is contracted for some weights, the tool tells the truth about its plain lines: `No path` is logged iff
no plain lines lead from source to destination, otherwise the logged costs are sums of plain lines that do. It does not
matter whether the map has been contracted for the alphas of the query. -/
theorem C92_truthful {lv : Int → Nat} {al : List ℚ} (hs : Setting w wr doc ip ir nodes edges pairs)
    (halg : ir.algo = .chDijkstra) (hk : AddOk K)
    (hw : ∀ m : List ℚ, (∀ x ∈ m, 0 ≤ x) → 0 ≤ w.dotp (alphas ip ir) m) (hal : ∀ x ∈ alphas ip ir, 0 ≤ x)
    (hl : ShortcutsLead w.codec ip.edges edges) (hlv : Levels ip.nodes nodes lv)
    (hct : ContractedLines w.codec ip.edges edges lv al) :
    ReportsOn (fun a b rep => Truthful w.codec ip (plainLines ip.edges edges) a b rep ∧
      ∀ src dst ps, rep ≠ .found src dst ps) pairs (run w fuel doc) := by
  refine plain_reports hs (.inr ⟨halg, rfl⟩) hk hw hl ?_
  intro es ns g n s s' a b x y h1 h2 hb hx hy hu hc
  exact (Build.C91_none_iff hb hk (contracted_of_lines h1 h2 hb hlv hct)
    (fun m hm => hw m (Build.built_nonneg hb m hm)) hal hx hy hu hc).mp rfl

/-- The same with Dijkstra, which does not need levels. -/
theorem C92_dijkstra (hs : Setting w wr doc ip ir nodes edges pairs) (halg : ir.algo = .dijkstra) (hk : AddOk K)
    (hw : ∀ m : List ℚ, (∀ x ∈ m, 0 ≤ x) → 0 ≤ w.dotp (alphas ip ir) m) (hal : ∀ x ∈ alphas ip ir, 0 ≤ x)
    (hl : ShortcutsLead w.codec ip.edges edges) :
    ReportsOn (fun a b rep => Truthful w.codec ip (plainLines ip.edges edges) a b rep ∧
      ∀ src dst ps, rep ≠ .found src dst ps) pairs (run w fuel doc) := by
  refine plain_reports hs (.inl ⟨halg, rfl⟩) hk hw hl ?_
  intro es ns g n s s' a b x y h1 _ hb hx hy hu hc
  exact (Build.C69_none_iff hb hk (fun m hm => hw m (Build.built_nonneg hb m hm)) hal hx hy hu hc).mp rfl

/-- The tool terminates, if every line costs something for some weights, if no shortcut is cheaper than the lines it
stands for, and if lines between the same nodes are distinct. -/
theorem C92_terminates {al : List ℚ} (hs : Setting w wr doc ip ir nodes edges pairs)
    (halg : ir.algo = .dijkstra ∨ ir.algo = .chDijkstra) (hk : AddOk K)
    (hw : ∀ m : List ℚ, (∀ x ∈ m, 0 ≤ x) → 0 ≤ w.dotp (alphas ip ir) m)
    (hsc : ShortcutsCost w.codec ip.edges edges al) (hdis : Distinct w.codec ip.edges edges)
    (hpos : ∀ line ∈ edges, ∀ a b m, Leads w.codec ip.edges line a b m → 0 < costOf al m) :
    ∃ N, ∀ fuel, N ≤ fuel → (run w fuel doc).2 ≠ none := by
  rcases run_cases hs with ⟨r, h1, h2⟩ | ⟨es, ns, g, rs, rc, h1, hns, h2, h3, h4, h5, h6, h7⟩
  · exact ⟨0, fun fuel _ => by simp [h1]⟩
  · have hfl : ∀ p : Path, (∀ e ∈ p.edges, e < g.edgeCount) → ∃ M r, p.flatten g M = some r := by
      intro p hp
      obtain ⟨M, hM⟩ := Build.C91_flatten_ends h2 (noNearDuplicates_of h1 hdis) (shortcutsCost_records h1 hsc)
        (fun pe hpe => by
          obtain ⟨line, h8, h9⟩ := Exp.forall₂_mem_right h1 hpe
          exact hpos line h8 _ _ _ (readEdge_leads h9).1) hp
      refine ⟨M, ?_⟩
      unfold Path.flatten
      rcases hM M le_rfl with ⟨q, hq⟩ | hq
      · exact ⟨_, by rw [hq]; rfl⟩
      · exact ⟨_, by rw [hq]; rfl⟩
    have hw' : ∀ m ∈ g.metrics, 0 ≤ w.dotp rc.routing.alphas m := fun m hm => by
      rw [h5]; exact hw m (Build.built_nonneg h2 m hm)
    obtain ⟨N, hN⟩ : ∃ N, ∀ fuel, N ≤ fuel → (answers w fuel g rc rs).2 ≠ none := by
      rcases halg with halg | halg
      · exact answers_terminate (Build.built_wellFormed h2) hfl hk hw' (.inl ⟨h4.trans halg, rfl⟩) rs
      · exact answers_terminate (Build.built_wellFormed h2) hfl hk hw' (.inr ⟨h4.trans halg, rfl⟩) rs
    exact ⟨N, fun fuel hf => by rw [h7]; exact hN fuel hf⟩

end

section
variable {w : World ℚ} {fuel : Nat} {wr : Writer} {doc : Yaml} {ip : ParsingIn} {ir : RoutingIn}
  {nodes edges pairs : List Text}

/-- A pattern for bounds of the reported costs. -/
theorem flattened_reports {slack : Nat → ℚ} (hs : Setting w wr doc ip ir nodes edges pairs)
    (halg : ir.algo = .chDijkstra) (hdot : w.dotp = dot) (hl : ShortcutsLead w.codec ip.edges edges)
    (h : ∀ es ns g n s a b p q s' x y,
      List.Forall₂ (fun line pe => Fmi.readEdge w.codec ip.edges line = .ok pe) edges es →
      List.Forall₂ (fun line n => Fmi.readNode w.codec ip.nodes line = .ok n) nodes ns →
      build (Fmi.metricIds ip.edges).length es ns = .ok g → g.nodeId a = .ok x → g.nodeId b = .ok y →
      Used w.heap dot n s →
      computeBestPath w.heap dot fuel s ⟨a, b, g, .chDijkstra, alphas ip ir⟩ = some (.ok (s', some p)) →
      Path.tryFlatten g fuel p = some (.ok q) →
      ∀ rs : List ProtoEdge, (∀ pe ∈ rs, pe ∈ es) → Chain x rs y →
        Dij.routeCost g (alphas ip ir) q.edges ≤ chainCost (alphas ip ir) rs + slack rs.length) :
    ReportsOn (Cheapest w.codec ip (alphas ip ir) edges slack) pairs (run w fuel doc) := by
  refine best_reports hs (.inr ⟨halg, rfl⟩) ?_
  intro es ns g s a b rep s' x y h1 hns h2 hu hx hy hb
  have hwf := Build.built_wellFormed h2
  obtain ⟨hx1, hx2⟩ := intoNode_ok hwf hx
  obtain ⟨hy1, hy2⟩ := intoNode_ok hwf hy
  rw [hdot] at hu
  rcases best_ok hb with ⟨h3, rfl⟩ | ⟨p, q, cs, h3, h4, h5, rfl⟩
  · trivial
  · intro ms hms
    rw [hdot] at h3
    have hal := (Dij.computed_valid h3).2
    have hw' : ∀ m ∈ g.metrics, 0 ≤ dot (alphas ip ir) m := fun m hm =>
      Dij.dot_nonneg hal (Build.built_nonneg h2 m hm)
    obtain ⟨rs, h6, h7, h8⟩ := chain_of_connects h1 hms
    have h9 := h es ns g _ s a.idx b.idx p q s' x y h1 hns h2 hx1 hy1 hu h3 (flatten_ok h4) rs h6 h7
    have hlead := shortcutsLead_records h1 hl
    obtain ⟨h10, -⟩ := Dij.C13_route
      (q := { src := a.idx, dst := b.idx, graph := g, algo := .chDijkstra, alphas := alphas ip ir })
      hwf Search.addOk_rat hw' (Build.nodeId_lt hx1) (Build.nodeId_lt hy1) hu h3
    have hlt := Par.isRoute_lt (Path.C21_route (Build.shortcutsConnect_of h2 hlead) (flatten_ok h4) h10)
    obtain ⟨-, -, -, -, -, cs', h11, h12⟩ := Build.C91_chain h2 hlead Search.addOk_rat hw' hx1 hy1 hu h3 (flatten_ok h4)
    rw [h5, Option.some.injEq] at h11
    subst h11
    rw [Exp.routeCost_weighs (dimOk_of h1 h2).1 (fun e he => by rw [hwf.metrics_len]; exact hlt e he) h12,
      chainCost_eq, h8] at h9
    have hlen : rs.length = ms.length := by rw [← h8, List.length_map]
    rw [hlen] at h9
    exact h9

/-- No lines from source to destination are cheaper than the logged costs, if the map is contracted for the alphas of the
query, no shortcut is cheaper than what it stands for, lines between the same nodes are distinct, and weighted costs of
lines are multiples of a step that the code's comparison can tell apart.
Partial: for other costs it is false, see `C20_false_near_ties` and `C91_false_zero`. -/
theorem C92_cheapest_partial {lv : Int → Nat} {u : ℚ} (hs : Setting w wr doc ip ir nodes edges pairs)
    (halg : ir.algo = .chDijkstra) (hdot : w.dotp = dot) (hheap : w.heap = codeHeap)
    (hl : ShortcutsLead w.codec ip.edges edges) (hlv : Levels ip.nodes nodes lv)
    (hct : ContractedLines w.codec ip.edges edges lv (alphas ip ir))
    (hsc : ShortcutsCost w.codec ip.edges edges (alphas ip ir)) (hdis : Distinct w.codec ip.edges edges)
    (hgrid : ∀ line ∈ edges, ∀ a b m, Leads w.codec ip.edges line a b m →
      ∃ i : ℤ, costOf (alphas ip ir) m = i * u) (hstep : 3 / 2000000 ≤ u) :
    ReportsOn (Cheapest w.codec ip (alphas ip ir) edges fun _ => 0) pairs (run w fuel doc) := by
  refine flattened_reports hs halg hdot hl ?_
  intro es ns g n s a b p q s' x y h1 hns h2 hx hy hu hc hf rs hrs hr
  rw [hheap] at hu hc
  rw [add_zero]
  refine Build.C91_cheapest_grid_partial h2 (noNearDuplicates_of h1 hdis) (contracted_of_lines h1 hns h2 hlv hct)
    (shortcutsCost_records h1 hsc) (fun pe hpe => ?_) hstep hx hy hu hc hf hrs hr
  obtain ⟨line, h3, h4⟩ := Exp.forall₂_mem_right h1 hpe
  exact hgrid line h3 _ _ _ (readEdge_leads h4).1

/-- For arbitrary costs of lines, the logged costs exceed those of any lines from source to destination only by a slack
that grows with the number of steps.
Partial: without slack it is false, see `C20_false_near_ties`. -/
theorem C92_near_partial {lv : Int → Nat} {deg : Nat} (hs : Setting w wr doc ip ir nodes edges pairs)
    (halg : ir.algo = .chDijkstra) (hdot : w.dotp = dot) (hheap : w.heap = codeHeap)
    (hl : ShortcutsLead w.codec ip.edges edges) (hlv : Levels ip.nodes nodes lv)
    (hct : ContractedLines w.codec ip.edges edges lv (alphas ip ir))
    (hsc : ShortcutsCost w.codec ip.edges edges (alphas ip ir)) (hdis : Distinct w.codec ip.edges edges)
    (hdeg : Degree w.codec ip.edges edges deg) :
    ReportsOn (Cheapest w.codec ip (alphas ip ir) edges fun _ => (2 + fuel * (deg + 2)) * (3 / 2000000)) pairs
      (run w fuel doc) := by
  refine flattened_reports hs halg hdot hl ?_
  intro es ns g n s a b p q s' x y h1 hns h2 hx hy hu hc hf rs hrs hr
  rw [hheap] at hu hc
  exact Build.C91_near_partial h2 (noNearDuplicates_of h1 hdis) (contracted_of_lines h1 hns h2 hlv hct)
    (shortcutsCost_records h1 hsc) (maxDegree_of h1 h2 hdeg) hx hy hu hc hf hrs hr

/-- With enough steps, the task of ch-dijkstra finishes iff the ids of all pairs are known, on graphs that are contracted
for the alphas of the query, if costs are multiples of a step that the code's comparison can tell apart.
Partial: see `C89_finishes_partial`; and for other costs, flattening may end with an error. -/
theorem C92_finishes_partial {dim : Nat} {es : List ProtoEdge} {ns : List ProtoNode} {g : Graph} {rc : Yml.RoutingCfg}
    {u : ℚ} (hdot : w.dotp = dot) (hheap : w.heap = codeHeap) (hb : build dim es ns = .ok g)
    (hnd : Build.NoNearDuplicates es) (hct : Build.ContractedRecords rc.routing.alphas (Build.levelOf ns) es)
    (hl : Build.ShortcutsLead es) (hsc : Build.ShortcutsCost rc.routing.alphas es)
    (hpos : ∀ pe ∈ es, 0 < Build.recordCost rc.routing.alphas pe)
    (hgrid : ∀ pe ∈ es, ∃ i : ℤ, Build.recordCost rc.routing.alphas pe = i * u) (hstep : 3 / 2000000 ≤ u)
    (hal : ∀ x ∈ rc.routing.alphas, 0 ≤ x) (halg : rc.algo = .chDijkstra) (hcov : Dij.AllCovered g)
    (h2 : g.nodeCount ≠ 2) (rs : List Routes.Route) :
    ∃ N, ∀ fuel, N ≤ fuel → ((answers w fuel g rc rs).2 = some (.ok ⟨⟩) ↔
      ∀ r ∈ rs, Build.Endpoint es r.src ∧ Build.Endpoint es r.dst) := by
  refine answers_finish (Build.built_wellFormed hb) (intoNode_iff hb) ?_ Search.addOk_rat
    (fun m hm => by rw [hdot]; exact Dij.dot_nonneg hal (Build.built_nonneg hb m hm)) (.inr ⟨halg, rfl⟩) hcov h2 rs
  intro N s' x y a b p ha hb' hc
  rw [hdot, hheap] at hc
  obtain ⟨M, hM⟩ := Build.C91_flattens_grid_partial hb hnd hct hl hsc hpos hgrid hstep ha hb' (n := 0) .new hc
  obtain ⟨q, hq⟩ := hM M le_rfl
  obtain ⟨-, -, -, -, -, -, -, cs, hcs, -⟩ := Path.C21_expansion hq
  exact ⟨M, q, cs, by unfold Path.flatten; rw [hq]; rfl, hcs⟩

end

/-! ## Sample -/

/-- Columns of a small map that has been contracted. -/
def ringIp : ParsingIn where
  mapFile := "ring.ch.fmi".toList
  vehicles := none
  nodes :=
    [.info .nodeId "node".toList, .metric .latitude "lat".toList, .metric .longitude "lon".toList,
      .info .chLevel "level".toList]
  normalized := none
  edges :=
    [.info .srcId "src".toList, .info .dstId "dst".toList, .metric .kilometers "km".toList,
      .info .shortcutIdx0 "sc0".toList, .info .shortcutIdx1 "sc1".toList]
  generating := none

def ringIr : RoutingIn where
  pairsFile := some "ring.route-pairs".toList
  algo := .chDijkstra
  metrics := [{ id := "km".toList, alpha := none, tolerance := none }]

def ringNodeLines : List Text :=
  ["0 0/1 0/1 2".toList, "1 0/1 1/1 0".toList, "2 1/1 1/1 3".toList, "3 1/1 0/1 1".toList]

def ringEdgeLines : List Text :=
  ["0 1 1/1 -1 -1".toList, "1 2 1/1 -1 -1".toList, "2 3 1/1 -1 -1".toList, "3 0 1/1 -1 -1".toList,
    "0 2 2/1 0 1".toList, "2 0 2/1 2 3".toList]

def ringPairs : List Text := ["1 0 1".toList, "3 3 1".toList]

def ringWorld : World ℚ :=
  { exWorld with
    text := fun f =>
      if f = "ring.ch.fmi".toList then some (["4".toList, "6".toList] ++ (ringNodeLines ++ ringEdgeLines))
      else if f = "ring.route-pairs".toList then some ("2".toList :: ringPairs) else none }

def ringDoc : Yaml :=
  Yml.sectionOf [("parsing", ringIp.doc Yml.exWriter), ("routing", some (ringIr.doc Yml.exWriter))]

theorem ring_setting : Setting ringWorld Yml.exWriter ringDoc ringIp ringIr ringNodeLines ringEdgeLines ringPairs where
  writer := Yml.exFits
  parsing := by
    obtain ⟨y, hy⟩ : ∃ y, ringIp.doc Yml.exWriter = some y := ⟨_, by rfl⟩
    refine ⟨y, hy, ?_⟩
    unfold ringDoc
    rw [hy, Yml.sectionOf_eq, Yml.valuesAt_one, Yml.values_given]
    simp
  routing := by
    unfold ringDoc
    rw [Yml.sectionOf_eq, Yml.valuesAt_one, Yml.values_given]
    simp
  unique := by unfold UniqueIds; decide +kernel
  known := by decide +kernel
  generating := rfl
  normalized := by decide
  fmi := ⟨"fmi".toList,
    ⟨by decide +kernel, by decide +kernel, "ring.ch".toList, by decide +kernel, by decide +kernel⟩, by decide +kernel⟩
  map := by
    refine ⟨_, rfl, [], [], [], ["4".toList, "6".toList], by decide +kernel, by simp, ?_, ?_⟩
    · exact .cons ⟨"4".toList, by decide +kernel, by decide +kernel⟩
        (.cons ⟨"6".toList, by decide +kernel, by decide +kernel⟩ .nil)
    · decide +kernel
  pairs := by
    refine ⟨_, _, rfl, rfl, [], [], [], ["2".toList], by decide +kernel, by simp, ?_, by decide +kernel⟩
    exact .cons ⟨"2".toList, by decide +kernel, by decide +kernel⟩ .nil

/-- What the tool logs. -/
theorem ring_run : run ringWorld 60 ringDoc =
    ([.costs { idx := 1, id := 1, coord := ⟨0, 1⟩, level := 0 } { idx := 0, id := 0, coord := ⟨0, 0⟩, level := 2 } [3],
      .costs { idx := 3, id := 3, coord := ⟨1, 0⟩, level := 1 } { idx := 3, id := 3, coord := ⟨1, 0⟩, level := 1 } [0]],
      some (.ok ⟨⟩)) := by decide +kernel

theorem ring_alphas : alphas ringIp ringIr = [1] := by decide +kernel

theorem ring_read : List.Forall₂ (fun line pe => Fmi.readEdge Fmi.exCodec ringIp.edges line = .ok pe) ringEdgeLines
    Build.ringEdges :=
  .cons (by decide +kernel) (.cons (by decide +kernel) (.cons (by decide +kernel) (.cons (by decide +kernel)
    (.cons (by decide +kernel) (.cons (by decide +kernel) .nil)))))

theorem ring_line {j : Nat} {pe : ProtoEdge} (h : Build.ringEdges[j]? = some pe) : ∃ line, ringEdgeLines[j]? = some line ∧
    Leads Fmi.exCodec ringIp.edges line pe.srcId pe.dstId pe.metrics := by
  obtain ⟨line, h1, h2⟩ := (Build.forall₂_getElem? ring_read).2.2 j pe h
  exact ⟨line, h1, (readEdge_leads h2).1⟩

theorem ring_leads : ShortcutsLead Fmi.exCodec ringIp.edges ringEdgeLines := by
  intro line hl i j a b m hs h
  obtain ⟨pe, h1, h2, rfl, rfl, rfl⟩ := record_of ring_read hl h
  obtain ⟨p, q, h3, h4, h5, h6, h7⟩ := Build.shortcutsLead_of (es := Build.ringEdges) (by decide +kernel) pe h1 i j
    ((readEdge_sc h2 i j).mpr hs)
  obtain ⟨l1, h8, h9⟩ := ring_line h3
  obtain ⟨l2, h10, h11⟩ := ring_line h4
  exact ⟨l1, l2, _, _, _, h8, h10, h5 ▸ h9, by rw [← h6, ← h7]; exact h11⟩

theorem ring_costs : ShortcutsCost Fmi.exCodec ringIp.edges ringEdgeLines [1] := by
  intro line hl i j a b m hs h l1 l2 a1 b1 m1 a2 b2 m2 hl1 hl2 h1 h2
  obtain ⟨pe, h3, h4, rfl, rfl, rfl⟩ := record_of ring_read hl h
  obtain ⟨p, h5, h6⟩ := (Build.forall₂_getElem? ring_read).2.1 i l1 hl1
  obtain ⟨q, h7, h8⟩ := (Build.forall₂_getElem? ring_read).2.1 j l2 hl2
  obtain ⟨-, -, rfl⟩ := readEdge_unique h6 h1
  obtain ⟨-, -, rfl⟩ := readEdge_unique h8 h2
  exact Build.shortcutsCost_of (es := Build.ringEdges) (by decide +kernel) pe h3 i j p q
    ((readEdge_sc h4 i j).mpr hs) h5 h7

/-- Levels of the ids. -/
def ringLevel (id : Int) : Nat := ([2, 0, 3, 1][id.toNat]?).getD 0

theorem ring_levels : Levels ringIp.nodes ringNodeLines ringLevel := by
  refine ⟨⟨"level".toList, by decide +kernel⟩, ?_⟩
  rintro line hl id l ⟨⟨k, name, t, h1, h2, h3⟩, k', name', t', h4, h5, h6⟩
  have hk : k = 0 := by
    have := List.all_eq_true.mp (show (List.range 5).all (fun k => match ringIp.nodes[k]? with
      | some (.info .nodeId _) => k == 0
      | _ => true) = true by decide +kernel) k (by
        have := Build.lt_length_of_getElem? h1
        rw [show ringIp.nodes.length = 4 by decide +kernel] at this
        simp; omega)
    simp only [h1] at this
    simpa using this
  have hk' : k' = 3 := by
    have := List.all_eq_true.mp (show (List.range 5).all (fun k => match ringIp.nodes[k]? with
      | some (.info .chLevel _) => k == 3
      | _ => true) = true by decide +kernel) k' (by
        have := Build.lt_length_of_getElem? h4
        rw [show ringIp.nodes.length = 4 by decide +kernel] at this
        simp; omega)
    simp only [h4] at this
    simpa using this
  subst hk hk'
  have key : ∀ line ∈ ringNodeLines, ((words line)[3]?.bind (parseNat maxUsize)) =
      ((words line)[0]?.bind (parseInt maxI64)).map ringLevel := by decide +kernel
  have := key line hl
  rw [h2, h5, Option.bind_some, Option.bind_some, h3, h6] at this
  simpa using this

theorem ring_lines : ContractedLines Fmi.exCodec ringIp.edges ringEdgeLines ringLevel [1] where
  differ line hl a b m h hne := by
    obtain ⟨pe, h1, -, rfl, rfl, rfl⟩ := record_of ring_read hl h
    have key : ∀ pe ∈ Build.ringEdges, pe.srcId ≠ pe.dstId → ringLevel pe.srcId ≠ ringLevel pe.dstId := by decide +kernel
    exact key pe h1 hne
  bypass line hl line' hl' a x b m m' h h' ha hb := by
    obtain ⟨pe, h1, -, rfl, rfl, rfl⟩ := record_of ring_read hl h
    obtain ⟨pe', h1', -, h2', rfl, rfl⟩ := record_of ring_read hl' h'
    have key : ∀ x ∈ Build.ringEdges, ∀ y ∈ Build.ringEdges, y.srcId = x.dstId → ringLevel x.dstId < ringLevel x.srcId →
        ringLevel x.dstId < ringLevel y.dstId → (x.srcId = y.dstId ∧ 0 ≤ costOf [1] x.metrics + costOf [1] y.metrics) ∨
        ∃ z ∈ Build.ringEdges, z.srcId = x.srcId ∧ z.dstId = y.dstId ∧
          costOf [1] z.metrics ≤ costOf [1] x.metrics + costOf [1] y.metrics := by decide +kernel
    rcases key pe h1 pe' h1' h2' ha hb with h3 | ⟨z, h3, h4, h5, h6⟩
    · exact ⟨[], h3.1, h3.2⟩
    obtain ⟨l, h7, h8⟩ := Exp.forall₂_mem_right ring_read h3
    refine ⟨[z.metrics], ⟨l, h7, ?_⟩, by simpa using h6⟩
    rw [← h4, ← h5]
    exact (readEdge_leads h8).1

theorem ring_distinct : Distinct Fmi.exCodec ringIp.edges ringEdgeLines := by
  intro line hl line' hl' a b m m' h h'
  obtain ⟨pe, h1, -, rfl, rfl, rfl⟩ := record_of ring_read hl h
  obtain ⟨pe', h2, -, h3, h4, rfl⟩ := record_of ring_read hl' h'
  left
  have key : ∀ x ∈ Build.ringEdges, ∀ y ∈ Build.ringEdges, y.srcId = x.srcId → y.dstId = x.dstId →
      x.metrics = y.metrics := by decide +kernel
  exact key pe h1 pe' h2 h3 h4

theorem ring_degree : Degree Fmi.exCodec ringIp.edges ringEdgeLines 6 := by
  intro a js hjs h
  refine Path.length_le_of_nodup_lt hjs fun j hj => ?_
  rcases h with h | h
  · obtain ⟨line, _, _, h1, _⟩ := h j hj
    exact Build.lt_length_of_getElem? h1
  · obtain ⟨line, _, _, h1, _⟩ := h j hj
    exact Build.lt_length_of_getElem? h1

theorem ring_weights (m : List ℚ) (hm : ∀ x ∈ m, 0 ≤ x) : 0 ≤ ringWorld.dotp (alphas ringIp ringIr) m := by
  rw [ring_alphas]
  exact Dij.dot_nonneg (by decide +kernel) hm

/-- The hypotheses of C92 hold. -/
example : ReportsOn (fun a b rep => Truthful Fmi.exCodec ringIp (plainLines ringIp.edges ringEdgeLines) a b rep ∧
      ∀ src dst ps, rep ≠ .found src dst ps) ringPairs (run ringWorld 60 ringDoc) ∧
    ReportsOn (Cheapest Fmi.exCodec ringIp [1] ringEdgeLines fun _ => 0) ringPairs (run ringWorld 60 ringDoc) ∧
    ReportsOn (Cheapest Fmi.exCodec ringIp [1] ringEdgeLines fun _ => (2 + (60 : Nat) * ((6 : Nat) + 2)) * (3 / 2000000))
      ringPairs (run ringWorld 60 ringDoc) ∧
    ∃ N, ∀ fuel, N ≤ fuel → (run ringWorld fuel ringDoc).2 ≠ none := by
  refine ⟨C92_truthful ring_setting rfl Search.addOk_rat ring_weights (by rw [ring_alphas]; decide +kernel) ring_leads
    ring_levels ring_lines, ?_, ?_, ?_⟩
  · have := C92_cheapest_partial (u := 1) (fuel := 60) ring_setting rfl rfl rfl ring_leads ring_levels
      (ring_alphas ▸ ring_lines) (ring_alphas ▸ ring_costs) ring_distinct (by
        intro line hl a b m h
        obtain ⟨pe, h1, -, -, -, rfl⟩ := record_of ring_read hl h
        have key : ∀ x ∈ Build.ringEdges, costOf (alphas ringIp ringIr) x.metrics =
          ((costOf (alphas ringIp ringIr) x.metrics).num : ℚ) * 1 := by decide +kernel
        exact ⟨_, key pe h1⟩) (by norm_num)
    rw [ring_alphas] at this
    exact this
  · have := C92_near_partial (fuel := 60) ring_setting rfl rfl rfl ring_leads ring_levels
      (ring_alphas ▸ ring_lines) (ring_alphas ▸ ring_costs) ring_distinct ring_degree
    rw [ring_alphas] at this
    exact this
  · refine C92_terminates ring_setting (.inr rfl) Search.addOk_rat ring_weights ring_costs ring_distinct ?_
    intro line hl a b m h
    obtain ⟨pe, h1, -, -, -, rfl⟩ := record_of ring_read hl h
    have key : ∀ x ∈ Build.ringEdges, 0 < costOf [1] x.metrics := by decide +kernel
    exact key pe h1

def ringRc : Yml.RoutingCfg where
  pairsFile := none
  algo := .chDijkstra
  routing := { alphas := [1], tolerances := [none] }

/-- The hypotheses of `C92_finishes_partial` hold. -/
example : Build.build 1 Build.ringEdges Build.ringNodes = .ok Build.ringGraph ∧ Build.NoNearDuplicates Build.ringEdges ∧
    Build.ContractedRecords ringRc.routing.alphas (Build.levelOf Build.ringNodes) Build.ringEdges ∧
    Build.ShortcutsLead Build.ringEdges ∧ Build.ShortcutsCost [1] Build.ringEdges ∧
    (∀ pe ∈ Build.ringEdges, 0 < Build.recordCost [1] pe) ∧ Dij.AllCovered Build.ringGraph ∧
    Build.ringGraph.nodeCount = 4 ∧ (∀ pe ∈ Build.ringEdges, ∃ i : ℤ, Build.recordCost [1] pe = i * 1) :=
  ⟨Build.ring_build, Build.ring_unique, Build.ring_contracted, Build.shortcutsLead_of (by decide +kernel),
    Build.shortcutsCost_of (by decide +kernel), by decide +kernel, Dij.allCovered_of (by decide +kernel),
    by decide +kernel, fun pe hpe => by
      have : ∀ x ∈ Build.ringEdges, Build.recordCost [1] x = ((Build.recordCost [1] x).num : ℚ) * 1 := by decide +kernel
      exact ⟨_, this pe hpe⟩⟩

end Verif.Session
