import Verif.SessionStreetsLemmas
import Verif.NearProps

/-!
# Properties of the tool's routing on pbf-maps (C93)
-/

namespace Verif.Session

open Text Gen Cfg
open Dij (Heap St computeBestPath Used codeHeap binHeap routeCost)
open Search (AddOk)
open Build (ProtoEdge ProtoNode build)
open Yml (ParsingIn RoutingIn Writer Yaml)
open Osm (Trip Takes TimeConfig Only position)

section
variable {K : Type} [LinearOrder K] [Zero K] [Add K] {w : World K} {fuel : Nat} {wr : Writer} {doc : Yaml}
  {ip : ParsingIn} {ir : RoutingIn} {gen : Generating} {speed length time : Text} {objs : List (Option Osm.Obj)}
  {pairs : List Text}

/-- Either something fails before any query, or there are a graph, routes and queries. -/
theorem streets_cases (hs : Streets w wr doc ip ir gen speed length time objs pairs) :
    (∃ r : Res Err PUnit, (∀ fuel, run w fuel doc = ([], some r)) ∧ r ≠ .ok ⟨⟩) ∨
    ∃ g net rs rc k, Osm.parse w.maxDim (ip.cfg w.text) objs = .ok (.ok g) ∧
      finish w.env (some gen) ⟨g, (ip.cfg w.text).nodes, (ip.cfg w.text).edges⟩ = .ok net ∧
      net.edges.ids = metricNames ip gen ∧ net.edges.ids[k]? = some time ∧
      List.Forall₂ (fun line r => Routes.readRoute line = .ok r) pairs rs ∧
      rc.algo = ir.algo ∧ Only rc.routing.alphas k ∧
      ∀ fuel, run w fuel doc = answers w fuel net.graph rc rs := by
  obtain ⟨y, hy1, hy2⟩ := hs.parsing
  obtain ⟨pf, pfile, hp1, hp2, hp3⟩ := hs.pairs
  obtain ⟨a, t, hm, ha⟩ := hs.only
  have huniq : UniqueIds ip.edges := (C43_parsed _ _).1.mp ⟨_, hs.minutes.parsed⟩
  unfold run
  rw [Yml.C85_parsing hs.writer w.text ip huniq doc y hy1 hy2]
  dsimp only
  have hx : Tool.fromPath Tool.parserExts (Tool.fileName ip.mapFile) = some .pbf :=
    (Tool.C74_parser _ .pbf).mpr hs.pbf
  unfold loadMap
  rw [hx]
  dsimp only
  cases hc : Osm.preprocess w.maxDim (ip.cfg w.text) with
  | error e => exact .inl ⟨_, fun _ => rfl, by simp⟩
  | ok u =>
    rw [hs.map]
    dsimp only
    cases h1 : Osm.parse w.maxDim (ip.cfg w.text) objs with
    | error e => exact .inl ⟨_, fun _ => rfl, by simp⟩
    | ok r =>
      cases r with
      | err e => exact .inl ⟨_, fun _ => rfl, by simp⟩
      | panic => exact .inl ⟨_, fun _ => rfl, by simp⟩
      | ok g =>
        simp only [Fmi.mapErr, Res.ok_bind, hs.generating]
        cases h2 : finish w.env (some gen) ⟨g, (ip.cfg w.text).nodes, (ip.cfg w.text).edges⟩ with
        | err e => exact .inl ⟨_, fun _ => rfl, by simp⟩
        | panic => exact .inl ⟨_, fun _ => rfl, by simp⟩
        | ok net =>
          dsimp only
          obtain ⟨hnd, -, hcn, hg⟩ := Osm.net_ok h1 h2 hs.minutes
          have hids := net_ids h1 h2 hs.minutes
          have hmem : time ∈ net.edges.ids := by
            rw [hids]
            exact List.mem_append_right _ (List.mem_filterMap.mpr ⟨_, hs.minutes.hasTime, rfl⟩)
          obtain ⟨k, hk⟩ := List.getElem?_of_mem hmem
          unfold route
          rw [routing_net hs.writer hnd hcn.len ir (by
            rw [hm]
            intro m hm
            rw [List.mem_singleton.mp hm]
            exact hmem) doc hs.routing]
          dsimp only
          rw [hp1]
          cases he : readPairs w (some pf) with
          | err e => exact .inl ⟨_, fun _ => rfl, by simp⟩
          | panic => exact .inl ⟨_, fun _ => rfl, by simp⟩
          | ok rs =>
            unfold readPairs at he
            dsimp only at he
            split at he
            · cases he
            · rw [hp2] at he
              dsimp only at he
              rw [read_pairs hp3] at he
              split at he
              · rename_i rs' hr
                cases he
                split at hr
                · cases hr
                · right
                  refine ⟨g, net, rs, _, k, rfl, h2, hids, hk, Fmi.mapR_ok.mp hr, rfl, ?_, fun _ => rfl⟩
                  dsimp only
                  rw [hm]
                  exact only_of hnd hk ha
              · cases he
              · cases he

/-- A pattern for claims about the reports of Dijkstra on streets. -/
theorem streets_reports {slack : ℚ → ℚ → Prop} (hs : Streets w wr doc ip ir gen speed length time objs pairs)
    (halg : ir.algo = .dijkstra) (hk : AddOk K)
    (hw : ∀ (al m : List ℚ) (k : Nat) (x : ℚ), Only al k → m[k]? = some x → 0 ≤ x → 0 ≤ w.dotp al m)
    (hdist : ∀ x y, 0 ≤ w.env.haversine x y)
    (h : ∀ g net al k s s' n a b src dst p, Osm.parse w.maxDim (ip.cfg w.text) objs = .ok (.ok g) →
      finish w.env (some gen) ⟨g, (ip.cfg w.text).nodes, (ip.cfg w.text).edges⟩ = .ok net →
      net.edges.ids[k]? = some time → Only al k → net.graph.nodeId src = .ok a → net.graph.nodeId dst = .ok b →
      Used w.heap w.dotp n s →
      computeBestPath w.heap w.dotp fuel s ⟨src, dst, net.graph, .dijkstra, al⟩ = some (.ok (s', some p)) →
      ∀ trip' t', Trip (ip.cfg w.text) objs a trip' b → Takes w.env.haversine objs a trip' t' →
        slack (routeCost net.graph al p.edges) t') :
    ReportsOn (OfStreets w.env.haversine (ip.cfg w.text) objs (metricNames ip gen) length time slack) pairs
      (run w fuel doc) := by
  rcases streets_cases hs with ⟨r, h1, h2⟩ | ⟨g, net, rs, rc, k, h1, h2, hids, hk', h3, h4, h5, h7⟩
  · rw [h1]
    exact reportsOn_nothing (by simpa using h2)
  rw [h7, answers, h4, halg]
  dsimp only
  refine reportsOn_of h3 best_keeps ?_
  intro s a b rep s' x y hu hx hy hb
  have hwf := C54_wellformed h2 (Build.built_wellFormed (Osm.parse_build h1).2)
  obtain ⟨-, -, hcn, -⟩ := Osm.net_ok h1 h2 hs.minutes
  have hw' : ∀ m ∈ net.graph.metrics, 0 ≤ w.dotp rc.routing.alphas m := by
    intro m hm
    have h6 := Osm.minutes_nonneg h1 h2 hs.minutes hk' h5 hdist m hm
    obtain ⟨hlt, -⟩ := List.getElem?_eq_some_iff.mp hk'
    have hlt' : k < m.length := by rw [hcn.values m hm, ← hcn.len]; exact hlt
    have h7 := List.getElem?_eq_getElem hlt'
    refine hw _ m k _ h5 h7 ?_
    rw [Dij.dot_eq, Osm.only_dot h5.1 (fun j x hj hx => h5.2 j x hj hx) h7] at h6
    exact h6
  obtain ⟨hx1, hx2⟩ := intoNode_ok hwf hx
  obtain ⟨hy1, hy2⟩ := intoNode_ok hwf hy
  have hal : ∀ x ∈ rc.routing.alphas, (0 : ℚ) ≤ x := by
    intro x hx
    obtain ⟨j, hj⟩ := List.getElem?_of_mem hx
    by_cases hjk : j = k
    · subst hjk
      rw [h5.1] at hj
      rw [← Option.some.inj hj]
      norm_num
    · rw [h5.2 j x hjk hj]
  rcases best_ok hb with ⟨h6, rfl⟩ | ⟨p, q, cs, h6, h8, h9, rfl⟩
  · exact ⟨hx2, hy2, (Osm.C70_none_iff (K := K) (h := w.heap) (dotp := w.dotp) h1 h2 hk hw' hal hx1 hy1 hu h6).mp rfl⟩
  · obtain ⟨hr, -⟩ := Dij.C13_route (q := ⟨a.idx, b.idx, net.graph, .dijkstra, rc.routing.alphas⟩) hwf hk hw'
      (Build.nodeId_lt hx1) (Build.nodeId_lt hy1) hu h6
    have hlt := Par.isRoute_lt hr
    obtain ⟨cs', h10, h11⟩ := flatten_same (fun e he => net_plain h1 h2 he) hlt h8
    rw [h9] at h10
    cases h10
    obtain ⟨trip, t1, t2, t3⟩ := Osm.trip_cost h1 h2 hs.minutes hk' h5 hr hx1 hy1
    obtain ⟨j, hj, hlen⟩ := edge_length h1 h2 hs.minutes
    have hdim : ∀ {i : Nat} {id : Text}, net.edges.ids[i]? = some id → i < net.graph.dim := by
      intro i id hi
      obtain ⟨hi', -⟩ := List.getElem?_eq_some_iff.mp hi
      rw [hcn.dim, ← hcn.len]
      exact hi'
    have hku : k < net.edges.units.length := by rw [← hcn.dim]; exact hdim hk'
    refine ⟨hx2, hy2, trip, _, _, k, j, t1, t2, drives_of hlen hr hx1 t3, by rw [← hids]; exact hk', ?_,
      by rw [← hids]; exact hj, h11.2 j (hdim hj), ?_⟩
    · rw [h11.2 k (hdim hk'), routeCost_only hwf hcn hku h5 hlt]
    · exact h g net _ k s s' _ x y _ _ p h1 h2 hk' h5 hx1 hy1 hu h6

/-- The tool tells the truth about the streets of a pbf-map: `No path` is logged iff the vehicle cannot get there,
otherwise minutes and kilometers of a trip are logged. Holds for every order of the queue and for rounded weights. -/
theorem C93_truthful (hs : Streets w wr doc ip ir gen speed length time objs pairs) (halg : ir.algo = .dijkstra)
    (hk : AddOk K) (hw : ∀ (al m : List ℚ) (k : Nat) (x : ℚ), Only al k → m[k]? = some x → 0 ≤ x → 0 ≤ w.dotp al m)
    (hdist : ∀ x y, 0 ≤ w.env.haversine x y) :
    ReportsOn (OfStreets w.env.haversine (ip.cfg w.text) objs (metricNames ip gen) length time fun _ _ => True) pairs
      (run w fuel doc) :=
  streets_reports hs halg hk hw hdist fun _ _ _ _ _ _ _ _ _ _ _ _ _ _ _ _ _ _ _ _ _ _ _ _ => trivial

/-- The tool terminates on pbf-maps. -/
theorem C93_terminates (hs : Streets w wr doc ip ir gen speed length time objs pairs)
    (halg : ir.algo = .dijkstra) (hk : AddOk K)
    (hw : ∀ (al m : List ℚ) (k : Nat) (x : ℚ), Only al k → m[k]? = some x → 0 ≤ x → 0 ≤ w.dotp al m)
    (hdist : ∀ x y, 0 ≤ w.env.haversine x y) : ∃ N, ∀ fuel, N ≤ fuel → (run w fuel doc).2 ≠ none := by
  rcases streets_cases hs with ⟨r, h1, h2⟩ | ⟨g, net, rs, rc, k, h1, h2, hids, hk', h3, h4, h5, h7⟩
  · exact ⟨0, fun fuel _ => by simp [h1]⟩
  · have hwf := C54_wellformed h2 (Build.built_wellFormed (Osm.parse_build h1).2)
    obtain ⟨-, -, hcn, -⟩ := Osm.net_ok h1 h2 hs.minutes
    obtain ⟨N, hN⟩ := answers_terminate (w := w) (rc := rc) hwf (fun p hp => by
        obtain ⟨q, ⟨M, hM⟩, -⟩ := Par.plain_flattens hwf hp fun e he => net_plain h1 h2 (hp e he)
        exact ⟨M, _, hM⟩) hk (by
        intro m hm
        have h6 := Osm.minutes_nonneg h1 h2 hs.minutes hk' h5 hdist m hm
        obtain ⟨hlt, -⟩ := List.getElem?_eq_some_iff.mp hk'
        have hlt' : k < m.length := by rw [hcn.values m hm, ← hcn.len]; exact hlt
        have h7 := List.getElem?_eq_getElem hlt'
        refine hw _ m k _ h5 h7 ?_
        rw [Dij.dot_eq, Osm.only_dot h5.1 (fun j x hj hx => h5.2 j x hj hx) h7] at h6
        exact h6) (.inl ⟨h4.trans halg, rfl⟩) rs
    exact ⟨N, fun fuel hf => by rw [h7]; exact hN fuel hf⟩

omit [LinearOrder K] [Zero K] [Add K] in
theorem known_streets {g : Graph} {net : Net} {gen : Option Generating}
    (h1 : Osm.parse w.maxDim (ip.cfg w.text) objs = .ok (.ok g))
    (h2 : finish w.env gen ⟨g, (ip.cfg w.text).nodes, (ip.cfg w.text).edges⟩ = .ok net) (id : Int) :
    (∃ n, intoNode net.graph id = .ok n) ↔ OnStreet (ip.cfg w.text) objs id := by
  have ht := C54_topology h2
  have hsame : intoNode net.graph id = intoNode g id := by
    unfold intoNode Graph.createNodeFrom Graph.createNode Graph.nodeId Graph.nodeCoord Graph.nodeLevel
    rw [ht.nodeIds, ht.nodeCoords, ht.nodeLevels]
  rw [hsame, intoNode_iff (Osm.parse_build h1).2]
  constructor
  · rintro ⟨pe, hpe, h⟩
    obtain ⟨nodes, tags, s, d, h3, h4, h5, h6, -⟩ := (Osm.C31_file _ objs pe).mp hpe
    rcases h with rfl | rfl
    · exact ⟨pe.dstId, _, .inl ⟨nodes, tags, s, d, h3, h4, h5, h6, rfl⟩⟩
    · exact ⟨pe.srcId, _, .inr ⟨nodes, tags, s, d, h3, h4, h5, h6, rfl⟩⟩
  · rintro ⟨x, v, h | h⟩
    · obtain ⟨s, tags, -, h3, -⟩ := (Osm.drive_iff _ _ _ _ _).mp h
      exact ⟨_, h3, .inl rfl⟩
    · obtain ⟨s, tags, -, h3, -⟩ := (Osm.drive_iff _ _ _ _ _).mp h
      exact ⟨_, h3, .inr rfl⟩

/-- With enough steps, either the tool fails before any query, or it finishes iff all ids of the pairs are on streets.
Partial: it has to be possible to get to every node and away from it, see `C93_false_dead_end`; and there have to be more
than two nodes, see `C15_false_two_nodes`. -/
theorem C93_finishes_partial (hs : Streets w wr doc ip ir gen speed length time objs pairs)
    (halg : ir.algo = .dijkstra) (hk : AddOk K)
    (hw : ∀ (al m : List ℚ) (k : Nat) (x : ℚ), Only al k → m[k]? = some x → 0 ≤ x → 0 ≤ w.dotp al m)
    (hdist : ∀ x y, 0 ≤ w.env.haversine x y)
    (hcov : ∀ a, OnStreet (ip.cfg w.text) objs a → (∃ b v, Osm.Drive (ip.cfg w.text) objs a b v) ∧
      ∃ b v, Osm.Drive (ip.cfg w.text) objs b a v)
    (hmany : ¬ ∃ a b, ∀ id, OnStreet (ip.cfg w.text) objs id ↔ id = a ∨ id = b) :
    (∃ r : Res Err PUnit, (∀ fuel, run w fuel doc = ([], some r)) ∧ r ≠ .ok ⟨⟩) ∨
    ∃ rs N, List.Forall₂ (fun line r => Routes.readRoute line = .ok r) pairs rs ∧
      ∀ fuel, N ≤ fuel → ((run w fuel doc).2 = some (.ok ⟨⟩) ↔
        ∀ r ∈ rs, OnStreet (ip.cfg w.text) objs r.src ∧ OnStreet (ip.cfg w.text) objs r.dst) := by
  rcases streets_cases hs with h | ⟨g, net, rs, rc, k, h1, h2, hids, hk', h3, h4, h5, h7⟩
  · exact .inl h
  right
  have ht := C54_topology h2
  have hbd := (Osm.parse_build h1).2
  have hwf0 := Build.built_wellFormed hbd
  have hwf := C54_wellformed h2 hwf0
  obtain ⟨-, -, hcn, -⟩ := Osm.net_ok h1 h2 hs.minutes
  have hkn := known_streets h1 h2
  have hid : ∀ u x, net.graph.nodeId u = .ok x → OnStreet (ip.cfg w.text) objs x := by
    intro u x hu
    rw [Osm.nodeId_topo ht] at hu
    have := (Build.C01_node_ids hbd).2 x |>.mp ⟨u, hu⟩
    rw [← intoNode_iff hbd] at this
    rw [← hkn]
    have hsame : intoNode net.graph x = intoNode g x := by
      unfold intoNode Graph.createNodeFrom Graph.createNode Graph.nodeId Graph.nodeCoord Graph.nodeLevel
      rw [ht.nodeIds, ht.nodeCoords, ht.nodeLevels]
    rw [hsame]
    exact this
  have hw' : ∀ m ∈ net.graph.metrics, 0 ≤ w.dotp rc.routing.alphas m := by
    intro m hm
    have h6 := Osm.minutes_nonneg h1 h2 hs.minutes hk' h5 hdist m hm
    obtain ⟨hlt, -⟩ := List.getElem?_eq_some_iff.mp hk'
    have hlt' : k < m.length := by rw [hcn.values m hm, ← hcn.len]; exact hlt
    have h7 := List.getElem?_eq_getElem hlt'
    refine hw _ m k _ h5 h7 ?_
    rw [Dij.dot_eq, Osm.only_dot h5.1 (fun j x hj hx => h5.2 j x hj hx) h7] at h6
    exact h6
  have hnode : ∀ i, i < net.graph.nodeCount → ∃ x, net.graph.nodeId i = .ok x := by
    intro i hi
    exact ⟨net.graph.nodeIds[i], by simp [Graph.nodeId, Res.ofIdx, List.getElem?_eq_getElem hi]⟩
  have hcov' : Dij.AllCovered net.graph := by
    intro d i hi
    obtain ⟨x, hx⟩ := hnode i hi
    obtain ⟨⟨b, v, hb⟩, b', v', hb'⟩ := hcov x (hid i x hx)
    rw [hwf.covered_iff]
    right
    cases d with
    | fwd =>
      obtain ⟨nodes, tags, s, d, h10, h11, h12, h13, -⟩ := hb
      obtain ⟨e, u, v, he, hu, -⟩ := (Osm.C31_graph h1 x b).mpr ⟨nodes, tags, s, d, h10, h11, h12, h13⟩
      rw [Osm.nodeId_topo ht] at hx
      have := Build.nodeId_inj hwf0 hu hx
      subst this
      exact ⟨e, u, ((Osm.isEdge_topo ht e u v).mpr he).2, le_refl _⟩
    | bwd =>
      obtain ⟨nodes, tags, s, d, h10, h11, h12, h13, -⟩ := hb'
      obtain ⟨e, u, v, he, -, hv⟩ := (Osm.C31_graph h1 b' x).mpr ⟨nodes, tags, s, d, h10, h11, h12, h13⟩
      rw [Osm.nodeId_topo ht] at hx
      have := Build.nodeId_inj hwf0 hv hx
      subst this
      exact ⟨e, v, ((Osm.isEdge_topo ht e u v).mpr he).1, le_refl _⟩
  have htwo : net.graph.nodeCount ≠ 2 := by
    intro hc
    obtain ⟨x, hx⟩ := hnode 0 (by omega)
    obtain ⟨y, hy⟩ := hnode 1 (by omega)
    refine hmany ⟨x, y, fun id => ⟨fun h => ?_, ?_⟩⟩
    · obtain ⟨n, hn⟩ := (hkn id).mpr h
      obtain ⟨hn, -⟩ := intoNode_ok hwf hn
      have hlt := Build.nodeId_lt hn
      have : n.idx = 0 ∨ n.idx = 1 := by omega
      rcases this with h0 | h0 <;> rw [h0] at hn
      · exact .inl (Res.ok.inj (hn.symm.trans hx))
      · exact .inr (Res.ok.inj (hn.symm.trans hy))
    · rintro (rfl | rfl)
      · exact hid _ _ hx
      · exact hid _ _ hy
  obtain ⟨N, hN⟩ := answers_finish (w := w) (rc := rc) (algo := .dijkstra) hwf hkn (fun N s' x y a b p ha hb' hc => by
      obtain ⟨h8, -⟩ := Dij.C13_route
        (q := { src := a, dst := b, graph := net.graph, algo := .dijkstra, alphas := rc.routing.alphas })
        hwf hk hw' (Build.nodeId_lt ha) (Build.nodeId_lt hb') .new hc (n := net.graph.nodeCount)
      have hlt := Par.isRoute_lt h8
      obtain ⟨q, ⟨M, hM⟩, -⟩ := Par.plain_flattens hwf hlt fun e he => net_plain h1 h2 (hlt e he)
      have hM' : p.flatten net.graph M = some (.ok q) := hM
      obtain ⟨cs, hcs, -⟩ := flatten_same (fun e he => net_plain h1 h2 he) hlt hM'
      exact ⟨M, q, cs, hM', hcs⟩) hk hw' (.inl ⟨h4.trans halg, rfl⟩) hcov' htwo rs
  exact ⟨rs, N, h3, fun fuel hf => by rw [h7]; exact hN fuel hf⟩

end

section
variable {w : World ℚ} {fuel : Nat} {wr : Writer} {doc : Yaml} {ip : ParsingIn} {ir : RoutingIn} {gen : Generating}
  {speed length time : Text} {objs : List (Option Osm.Obj)} {pairs : List Text}

theorem dot_only_nonneg (al m : List ℚ) (k : Nat) (x : ℚ) (h : Only al k) (hm : m[k]? = some x) (hx : 0 ≤ x) :
    0 ≤ dot al m := by
  rw [Dij.dot_eq, Osm.only_dot h.1 (fun j x hj hx => h.2 j x hj hx) hm]
  exact hx

/-- With a queue that compares exactly, the logged minutes are those of a fastest trip. -/
theorem C93_fastest (hs : Streets w wr doc ip ir gen speed length time objs pairs) (halg : ir.algo = .dijkstra)
    (hdot : w.dotp = dot) (hheap : w.heap = binHeap compare) (hdist : ∀ x y, 0 ≤ w.env.haversine x y) :
    ReportsOn (OfStreets w.env.haversine (ip.cfg w.text) objs (metricNames ip gen) length time fun t t' => t ≤ t') pairs
      (run w fuel doc) := by
  refine streets_reports hs halg Search.addOk_rat (by rw [hdot]; exact dot_only_nonneg) hdist ?_
  intro g net al k s s' n a b src dst p h1 h2 h3 h4 h5 h6 h7 h8
  rw [hdot, hheap] at h7 h8
  obtain ⟨trip, t, -, -, h9, -, h10⟩ := Osm.C70_fastest h1 h2 hs.minutes h3 h4 hdist h5 h6 h7 h8
  rw [h9]
  exact h10

/-- With the code's queue, no trip takes less than the logged minutes, up to a slack for comparing costs approximately.
Partial: without that slack it is false, see `C14_false_near_ties`. -/
theorem C93_near_fastest_partial (hs : Streets w wr doc ip ir gen speed length time objs pairs)
    (halg : ir.algo = .dijkstra) (hdot : w.dotp = dot) (hheap : w.heap = codeHeap)
    (hdist : ∀ x y, 0 ≤ w.env.haversine x y) :
    ReportsOn (OfStreets w.env.haversine (ip.cfg w.text) objs (metricNames ip gen) length time fun t t' =>
      t ≤ t' + 2 * ((2 + fuel * (segments objs + 2)) * (3 / 2000000))) pairs (run w fuel doc) := by
  refine streets_reports hs halg Search.addOk_rat (by rw [hdot]; exact dot_only_nonneg) hdist ?_
  intro g net al k s s' n a b src dst p h1 h2 h3 h4 h5 h6 h7 h8
  rw [hdot, hheap] at h7 h8
  have hb := (Osm.parse_build h1).2
  have hwf := C54_wellformed h2 (Build.built_wellFormed hb)
  have hdeg : Dij.MaxDegree net.graph (segments objs) := by
    intro v es hnd h
    refine (Dij.maxDegree_edges hwf v es hnd h).trans ?_
    rw [Osm.edgeCount_topo (C54_topology h2)]
    exact (Build.C05_count hb).trans (segments_le _ _)
  obtain ⟨trip, t, -, -, h9, -, h10⟩ := Osm.C70_near_fastest h1 h2 hs.minutes h3 h4 hdist hdeg h5 h6 h7 h8
  rw [h9]
  exact h10

end

/-! ## Sample -/

def townIp : ParsingIn where
  mapFile := "town.osm.pbf".toList
  vehicles := some (.car, false)
  nodes := [.info .nodeId "id".toList, .metric .latitude "lat".toList, .metric .longitude "lon".toList]
  normalized := some false
  edges := [.info .srcId "src".toList, .info .dstId "dst".toList, .metric .kmh "speed".toList,
    .metric .laneCount "lanes".toList]
  generating := some ([], [.haversine .kilometers "km".toList,
    .calc ⟨.minutes, "min".toList⟩ ⟨.kilometers, "km".toList⟩ ⟨.kmh, "speed".toList⟩])

def townIr : RoutingIn where
  pairsFile := some "town.route-pairs".toList
  algo := .dijkstra
  metrics := [{ id := "min".toList, alpha := none, tolerance := none }]

/-- The town and a street that nothing is connected to. -/
def townMap : List (Option Osm.Obj) :=
  Osm.townFile ++ [some (.node 5 0 500000), some (.node 6 0 600000), some .relation, none,
    some (.way [5, 6] [("highway".toList, "residential".toList)])]

def townPairs : List Text := ["1 3 1".toList, "1 5 1".toList, "3 1 2".toList]

def townWorld : World ℚ where
  heap := codeHeap
  dotp := dot
  backend := Exp.listBackend
  numbers := Yml.exNumbers
  codec := Fmi.exCodec
  env := Osm.townEnv
  maxDim := 4
  text f := if f = "town.route-pairs".toList then some ("3".toList :: townPairs) else none
  pbf f := if f = "town.osm.pbf".toList then some townMap else none

def townDoc : Yaml :=
  Yml.sectionOf [("parsing", townIp.doc Yml.exWriter), ("routing", some (townIr.doc Yml.exWriter))]

theorem town_streets : Streets townWorld Yml.exWriter townDoc townIp townIr Osm.townGen "speed".toList "km".toList
    "min".toList townMap townPairs where
  writer := Yml.exFits
  parsing := by
    obtain ⟨y, hy⟩ : ∃ y, townIp.doc Yml.exWriter = some y := ⟨_, by rfl⟩
    refine ⟨y, hy, ?_⟩
    unfold townDoc
    rw [hy, Yml.sectionOf_eq, Yml.valuesAt_one, Yml.values_given]
    simp
  routing := by
    unfold townDoc
    rw [Yml.sectionOf_eq, Yml.valuesAt_one, Yml.values_given]
    simp
  generating := by rfl
  minutes := ⟨by decide +kernel, by decide +kernel, by decide +kernel, by decide +kernel, Osm.town_time.adds,
    by decide +kernel⟩
  only := ⟨none, none, rfl, .inl rfl⟩
  pbf := ⟨"pbf".toList,
    ⟨by decide +kernel, by decide +kernel, "town.osm".toList, by decide +kernel, by decide +kernel⟩, by decide +kernel⟩
  map := by rfl
  pairs := by
    refine ⟨_, _, rfl, rfl, [], [], [], ["3".toList], by decide +kernel, by simp, ?_, by decide +kernel⟩
    exact .cons ⟨"3".toList, by decide +kernel, by decide +kernel⟩ .nil

/-- From 1 to 3, it is 1.8 minutes and 3 kilometers over 2; nobody can drive to 5; and from 3 to 1 a oneway leads. -/
theorem town_run : run townWorld 60 townDoc =
    ([.costs ⟨0, 1, ⟨0, 0⟩, 0⟩ ⟨2, 3, ⟨0, 1 / 100⟩, 0⟩ [200, 4, 3, 9 / 5],
      .nothing ⟨0, 1, ⟨0, 0⟩, 0⟩ ⟨4, 5, ⟨0, 1 / 20⟩, 0⟩,
      .costs ⟨2, 3, ⟨0, 1 / 100⟩, 0⟩ ⟨0, 1, ⟨0, 0⟩, 0⟩ [100, 2, 1, 3 / 5]], some (.ok ⟨⟩)) := by decide +kernel

example := C93_truthful (fuel := 60) town_streets rfl Search.addOk_rat dot_only_nonneg
  (fun x y => by simp only [townWorld, Osm.townEnv]; positivity)

/-- The hypotheses of `C93_fastest` hold with another queue. -/
example := C93_fastest (fuel := 60) (w := { townWorld with heap := binHeap compare })
  ⟨town_streets.writer, town_streets.parsing, town_streets.routing, town_streets.generating, town_streets.minutes,
    town_streets.only, town_streets.pbf, town_streets.map, town_streets.pairs⟩ rfl rfl rfl
  (fun x y => by simp only [townWorld, Osm.townEnv]; positivity)

example := C93_near_fastest_partial (fuel := 60) town_streets rfl rfl rfl
  (fun x y => by simp only [townWorld, Osm.townEnv]; positivity)

/-- The hypotheses of `C93_finishes_partial` hold for a single street. -/
def laneMap : List (Option Osm.Obj) :=
  [some (.node 1 0 0), some (.node 2 0 200000), some (.node 3 0 100000),
   some (.way [1, 2, 3] [("highway".toList, "primary".toList)])]

@[inherit_doc laneMap] def laneWorld : World ℚ :=
  { townWorld with
    text := fun f => if f = "town.route-pairs".toList then some ["1".toList, "1 3 1".toList] else none
    pbf := fun f => if f = "town.osm.pbf".toList then some laneMap else none }

theorem lane_streets : Streets laneWorld Yml.exWriter townDoc townIp townIr Osm.townGen "speed".toList "km".toList
    "min".toList laneMap ["1 3 1".toList] where
  writer := Yml.exFits
  parsing := town_streets.parsing
  routing := town_streets.routing
  generating := town_streets.generating
  minutes := ⟨by decide +kernel, by decide +kernel, by decide +kernel, by decide +kernel, Osm.town_time.adds,
    by decide +kernel⟩
  only := town_streets.only
  pbf := town_streets.pbf
  map := by rfl
  pairs := by
    refine ⟨_, _, rfl, rfl, [], [], [], ["1".toList], by decide +kernel, by simp, ?_, by decide +kernel⟩
    exact .cons ⟨"1".toList, by decide +kernel, by decide +kernel⟩ .nil

theorem lane_drives (a b : Int) (h : (a, b) ∈ [((1 : Int), (2 : Int)), (2, 3), (3, 2), (2, 1)]) :
    Osm.Drive (townIp.cfg laneWorld.text) laneMap a b 100 :=
  ⟨[1, 2, 3], [("highway".toList, "primary".toList)], .primary, .both, by decide +kernel,
    ⟨by decide +kernel, by decide +kernel⟩, by
      have : Osm.Tags.get [("highway".toList, "primary".toList)] "oneway" = none := by decide +kernel
      rw [this]
      exact fun v s hv => (nomatch hv), h, by decide +kernel⟩

theorem lane_on (a : Int) (h : OnStreet (townIp.cfg laneWorld.text) laneMap a) : a = 1 ∨ a = 2 ∨ a = 3 := by
  have hd : ∀ a b v, Osm.Drive (townIp.cfg laneWorld.text) laneMap a b v →
      (a = 1 ∨ a = 2 ∨ a = 3) ∧ (b = 1 ∨ b = 2 ∨ b = 3) := by
    rintro a b v ⟨nodes, tags, s, d, h1, -, -, h4, -⟩
    simp only [laneMap, List.mem_cons, List.not_mem_nil, or_false, Option.some.injEq, Osm.Obj.way.injEq, reduceCtorEq,
      false_or] at h1
    obtain ⟨rfl, rfl⟩ := h1
    cases d <;> simp [Osm.directed, Osm.steps] at h4 <;> omega
  obtain ⟨x, v, h | h⟩ := h
  · exact (hd _ _ _ h).1
  · exact (hd _ _ _ h).2

example : ∃ rs N, List.Forall₂ (fun line r => Routes.readRoute line = .ok r) ["1 3 1".toList] rs ∧
    ∀ fuel, N ≤ fuel → ((run laneWorld fuel townDoc).2 = some (.ok ⟨⟩) ↔
      ∀ r ∈ rs, OnStreet (townIp.cfg laneWorld.text) laneMap r.src ∧
        OnStreet (townIp.cfg laneWorld.text) laneMap r.dst) := by
  refine (C93_finishes_partial lane_streets rfl Search.addOk_rat dot_only_nonneg
    (fun x y => by simp only [laneWorld, townWorld, Osm.townEnv]; positivity) ?_ ?_).resolve_left ?_
  · intro a ha
    rcases lane_on a ha with rfl | rfl | rfl
    · exact ⟨⟨2, _, lane_drives 1 2 (by simp)⟩, 2, _, lane_drives 2 1 (by simp)⟩
    · exact ⟨⟨1, _, lane_drives 2 1 (by simp)⟩, 1, _, lane_drives 1 2 (by simp)⟩
    · exact ⟨⟨2, _, lane_drives 3 2 (by simp)⟩, 2, _, lane_drives 2 3 (by simp)⟩
  · rintro ⟨a, b, h⟩
    have h1 := (h 1).mp ⟨2, _, .inl (lane_drives 1 2 (by simp))⟩
    have h2 := (h 2).mp ⟨1, _, .inl (lane_drives 2 1 (by simp))⟩
    have h3 := (h 3).mp ⟨2, _, .inl (lane_drives 3 2 (by simp))⟩
    omega
  · rintro ⟨r, h1, h2⟩
    have h3 : (run laneWorld 60 townDoc).2 = some (.ok ⟨⟩) := by decide +kernel
    rw [h1] at h3
    exact h2 (Option.some.inj h3)

/-- A oneway leads from 4 into the town, but no street leads to 4. -/
def deadMap : List (Option Osm.Obj) :=
  [some (.node 1 0 0), some (.node 2 0 200000), some (.node 3 0 100000), some (.node 4 0 400000),
   some (.way [1, 2, 3] [("highway".toList, "primary".toList)]),
   some (.way [4, 1] [("highway".toList, "residential".toList), ("oneway".toList, "yes".toList)])]

@[inherit_doc deadMap] def deadWorld : World ℚ :=
  { townWorld with
    text := fun f => if f = "town.route-pairs".toList then some ["1".toList, "1 4 1".toList] else none
    pbf := fun f => if f = "town.osm.pbf".toList then some deadMap else none }

theorem dead_streets : Streets deadWorld Yml.exWriter townDoc townIp townIr Osm.townGen "speed".toList "km".toList
    "min".toList deadMap ["1 4 1".toList] where
  writer := Yml.exFits
  parsing := town_streets.parsing
  routing := town_streets.routing
  generating := town_streets.generating
  minutes := ⟨by decide +kernel, by decide +kernel, by decide +kernel, by decide +kernel, Osm.town_time.adds,
    by decide +kernel⟩
  only := town_streets.only
  pbf := town_streets.pbf
  map := by rfl
  pairs := by
    refine ⟨_, _, rfl, rfl, [], [], [], ["1".toList], by decide +kernel, by simp, ?_, by decide +kernel⟩
    exact .cons ⟨"1".toList, by decide +kernel, by decide +kernel⟩ .nil

/-- If no street leads to the destination, the tool may panic instead of logging that there is no path: the node has the
largest id, and no edge leads to it. -/
theorem C93_false_dead_end :
    Streets deadWorld Yml.exWriter townDoc townIp townIr Osm.townGen "speed".toList "km".toList "min".toList deadMap
      ["1 4 1".toList] ∧ deadWorld.heap = codeHeap ∧ deadWorld.dotp = dot ∧
    OnStreet (townIp.cfg deadWorld.text) deadMap 1 ∧ OnStreet (townIp.cfg deadWorld.text) deadMap 4 ∧
    (¬ ∃ trip, Trip (townIp.cfg deadWorld.text) deadMap 1 trip 4) ∧
    run deadWorld 60 townDoc = ([], some .panic) := by
  have hto : ∀ a v, ¬ Osm.Drive (townIp.cfg deadWorld.text) deadMap a 4 v := by
    rintro a v ⟨nodes, tags, s, d, h1, -, h3, h4, -⟩
    simp only [deadMap, List.mem_cons, List.not_mem_nil, or_false, Option.some.injEq, Osm.Obj.way.injEq, reduceCtorEq,
      false_or] at h1
    rcases h1 with ⟨rfl, rfl⟩ | ⟨rfl, rfl⟩
    · cases d <;> simp [Osm.directed, Osm.steps] at h4
    · cases d with
      | forward => simp [Osm.directed, Osm.steps] at h4
      | backward =>
        obtain ⟨v, s, h5, h6, h7⟩ := h3
        cases h5
        revert s
        unfold Osm.sameTag
        decide +kernel
      | both => exact h3 "yes".toList "yes" rfl (by decide) (by unfold Osm.sameTag; decide +kernel)
  have hfrom : Osm.Drive (townIp.cfg deadWorld.text) deadMap 4 1 50 :=
    ⟨[4, 1], [("highway".toList, "residential".toList), ("oneway".toList, "yes".toList)], .residential, .forward,
      by decide +kernel, ⟨by decide +kernel, by decide +kernel⟩,
      ⟨"yes".toList, "yes", by decide +kernel, by decide +kernel, by unfold Osm.sameTag; decide +kernel⟩,
      by decide +kernel, by decide +kernel⟩
  refine ⟨dead_streets, rfl, rfl, ⟨4, _, .inr hfrom⟩, ⟨1, _, .inl hfrom⟩, ?_, by decide +kernel⟩
  rintro ⟨trip, h⟩
  have key : ∀ (trip : List (Int × Nat)) (a : Int), a ≠ 4 → ¬ Trip (townIp.cfg deadWorld.text) deadMap a trip 4 := by
    intro trip
    induction trip with
    | nil => exact fun a ha h => ha h
    | cons x trip ih =>
      rintro a ha ⟨h1, h2⟩
      by_cases hx : x.1 = 4
      · rw [hx] at h1
        exact hto _ _ h1
      · exact ih _ hx h2
  exact key trip 1 (by decide) h

end Verif.Session
