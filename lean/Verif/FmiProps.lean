import Verif.FmiSample

/-!
# C28, C29, C30: written maps

And the last part of C27: denormalized values.
-/

namespace Verif.Fmi

open Cfg Text
open Build (ProtoEdge ProtoNode)
open Gen (Net value)

/-! ## C27 -/

/-- C27: a writer that denormalizes writes the value from before the normalization, unless the normalized value
has been lifted. -/
theorem C27_written {s s' : Net} (h : Gen.normalize s = .ok s') (hn : s.edges.normalized = true)
    (hc : Gen.Consistent s) (hw : s.graph.WellFormed) {e k : Nat} {x : ℚ}
    (hx : value s.graph.metrics e k = some x)
    (hl : 3 / 2000000 ≤ |x / Gen.mean s.graph.metrics k|) : metricValue s' true e k = .ok x := by
  rw [metricValue_ok]
  obtain ⟨y, hy, hxy⟩ := Gen.C27_values h hn hc hw hx
  rw [if_neg (not_lt.mpr hl)] at hxy
  obtain ⟨means, hm, hlen, hmk⟩ := Gen.C27_means h hn hc hw
  have hk : k < s.edges.units.length := by
    obtain ⟨m, hm, hx⟩ := Option.bind_eq_some_iff.mp hx
    have := hc.values m (List.mem_of_getElem? hm)
    rw [← this]
    exact Gen.lt_of_some hx
  refine ⟨y, hy, ?_⟩
  rw [hm]
  exact ⟨_, hmk k hk, hxy.2.symm⟩

example : ∃ s', Gen.normalize Gen.exNorm = .ok s' ∧ value s'.graph.metrics 3 0 = some (8000000 / 9000001) ∧
    metricValue s' true 3 0 = .ok 2 := by
  have h : Gen.normalize Gen.exNorm = .ok (Gen.okNet (Gen.normalize Gen.exNorm)) := by decide +kernel
  exact ⟨_, h, by decide +kernel,
    C27_written h rfl Gen.exNorm_consistent Gen.exNet_wellFormed (by decide +kernel) (by decide +kernel)⟩

/-! ## C28 -/

theorem edgeText_total {c : Codec} {s : Net} {d : Bool} {e : Nat} (hw : s.graph.WellFormed)
    (hc : Gen.Consistent s) (he : e < s.graph.edgeCount)
    (hm : d = true → ∀ means, s.graph.means = some means → means.length = s.edges.ids.length)
    {cat : EdgeCat} (hcat : cat ∈ s.edges.cats) (hne : cat ≠ .ignored)
    (hid : ∀ n, cat = .info .edgeId n → ∃ x, s.graph.tryId e = .ok (some x)) :
    ∃ t, edgeText c s d e cat = .ok t := by
  obtain ⟨u, v, src, dst, ⟨h1, h2⟩, h3, h4⟩ := ends_of_wf hw he
  have hcoord : ∀ {i x}, s.graph.nodeId i = .ok x → ∃ y, s.graph.nodeCoord i = .ok y := by
    intro i x hi
    have hi : i < s.graph.nodeCount := Gen.lt_of_some (Res.ofIdx_eq_ok.mp hi)
    rw [← hw.coords_len] at hi
    exact ⟨_, Res.ofIdx_eq_ok.mpr (List.getElem?_eq_getElem hi)⟩
  obtain ⟨xu, hxu⟩ := hcoord h3
  obtain ⟨o, ho⟩ := hw.sc_ok e he
  cases cat with
  | ignored => exact absurd rfl hne
  | metric unit id =>
    have hmem : (unit, id) ∈ Gen.metricsOf s.edges.cats := List.mem_filterMap.mpr ⟨_, hcat, rfl⟩
    rw [← hc.metrics] at hmem
    obtain ⟨k, hk⟩ := tryIdxOf_total (e := s.edges) (List.of_mem_zip hmem).2
    have hkl : k < s.edges.ids.length := Gen.lt_of_some (tryIdxOf_ok hk).1
    have he' : e < s.graph.metrics.length := by rw [hw.metrics_len]; exact he
    have hml := hc.values _ (List.getElem_mem he')
    have hkm : k < (s.graph.metrics[e]).length := by rw [hml, ← hc.len]; exact hkl
    have hv : value s.graph.metrics e k = some (s.graph.metrics[e])[k] := by
      simp [value, List.getElem?_eq_getElem he', List.getElem?_eq_getElem hkm]
    have hy : ∃ y, OutValue s d e k y := by
      unfold OutValue
      cases d with
      | false => exact ⟨_, _, hv, rfl⟩
      | true =>
        cases hs : s.graph.means with
        | none => exact ⟨_, _, hv, rfl⟩
        | some means =>
          have hkk : k < means.length := by rw [hm rfl _ hs]; exact hkl
          exact ⟨_, _, hv, _, List.getElem?_eq_getElem hkk, rfl⟩
    obtain ⟨y, hy⟩ := hy
    exact ⟨c.printF y, by simp only [edgeText, hk, metricValue_ok.mpr hy, Res.ok_bind, Res.pure_eq]⟩
  | info i id =>
    cases i <;> simp only [edgeText, h1, h2, h3, h4, hxu, ho, acc, Res.ok_bind, Res.pure_eq] <;>
      try exact ⟨_, rfl⟩
    obtain ⟨x, hx⟩ := hid id rfl
    exact ⟨printNat x, by simp [Graph.edgeId, hx]⟩

/-- C28: writing succeeds if everything that shall be written is available. -/
theorem C28_writes (c : Codec) {s : Net} {w : WriteCfg} (hw : s.graph.WellFormed) (hc : Gen.Consistent s)
    (h : Writable s w) : ∃ file, write c s w = .ok file := by
  have hsc : ∀ e ∈ List.range s.graph.edgeCount, ∃ b, s.graph.isShortcut e = .ok b :=
    fun e he => isShortcut_of_wf hw (List.mem_range.mp he)
  obtain ⟨n, hn⟩ := countEdges_total (sh := w.shortcuts) hsc
  have hnodes : ∃ nodes, mapR (nodeLine c s w.nodes) (List.range s.graph.nodeCount) = .ok nodes := by
    refine mapR_total ?_
    intro i hi
    have hi := List.mem_range.mp hi
    obtain ⟨node, hnode⟩ := createNode_total hw hi
    have : ∃ texts, mapR (nodeColumn c s i) w.nodes = .ok texts := by
      refine mapR_total ?_
      intro col hcol
      cases col with
      | none => exact ⟨_, rfl⟩
      | some id =>
        obtain ⟨cat, hf, hh⟩ := h.nodes id hcol
        have hf' := hf
        rw [← find?_firstCat, ← nodeCatId_eq] at hf'
        simp only [nodeColumn, hf']
        cases cat with
        | ignored =>
          obtain ⟨_, _, h3, _⟩ := hf
          cases h3
        | info info id' => cases info <;> simp [hnode, acc]
        | metric u id' =>
          cases u
          · simp [hnode, acc]
          · simp [hnode, acc]
          · exact absurd rfl (hh id')
    obtain ⟨texts, ht⟩ := this
    exact ⟨_, by simp only [nodeLine, ht, Res.ok_bind, Res.pure_eq]; rfl⟩
  obtain ⟨nodes, hnodes⟩ := hnodes
  have hedges := edgeLines_total (c := c) (s := s) (sh := w.shortcuts) (d := w.denormalize) (cols := w.edges) hsc
    (by
      intro e he hwr
      have he := List.mem_range.mp he
      have : ∃ texts, mapR (edgeColumn c s w.denormalize e) w.edges = .ok texts := by
        refine mapR_total ?_
        intro col hcol
        cases col with
        | none => exact ⟨_, rfl⟩
        | some id =>
          obtain ⟨cat, hf⟩ := h.edges id hcol
          have hf' := hf
          rw [← find?_firstCat] at hf'
          simp only [edgeColumn, hf']
          have hf2 := hf
          obtain ⟨m, hm1, hm2, hm3⟩ := hf2
          refine edgeText_total hw hc he h.means (List.mem_of_getElem? hm1) ?_ ?_
          · rintro rfl
            cases hm2
          · rintro n rfl
            refine h.ids id n hcol hf e ?_
            refine List.mem_filter.mpr ⟨List.mem_range.mpr he, ?_⟩
            rcases hwr with h | h <;> simp [h]
      obtain ⟨texts, ht⟩ := this
      exact ⟨_, by simp only [edgeLine, ht, Res.ok_bind, Res.pure_eq]; rfl⟩)
  obtain ⟨lines, hl⟩ := hedges
  simp only [write, writeEdges, hn, hnodes, hl, Res.ok_bind, Res.pure_eq]
  exact ⟨_, rfl⟩

/-- C28: reading a written file yields the written nodes and edges in order, as far as there are columns. -/
theorem C28_reads {c : Codec} {s : Net} {w : WriteCfg} {maxDim : Nat} {cfg : Parsing} {file : List Text}
    (hw : s.graph.WellFormed) (hp : Printable c s w.denormalize) (hcheck : Cfg.check maxDim cfg = .ok ⟨⟩)
    (hec : EdgeCols cfg.edges.cats) (hnc : NodeCols cfg.nodes)
    (he : List.Forall₂ (Fits EdgeCat.id? .ignored s.edges.cats) w.edges cfg.edges.cats)
    (hn : List.Forall₂ (Fits idOfNode .ignored s.nodes) w.nodes cfg.nodes)
    (hlen : w.edges.length ≤ maxUsize)
    (h : write c s w = .ok file) :
    ∃ es ns, read c maxDim cfg file = .ok (es, ns) ∧
      List.Forall₂ (ReadsAs s cfg.edges.cats w.denormalize) (writtenEdges s.graph w.shortcuts) es ∧
      List.Forall₂ (NodeReadsAs s.graph cfg.nodes) (List.range s.graph.nodeCount) ns :=
  read_write hw hp hcheck hec hnc he hn hlen h

theorem fits_self {α : Type} {idOf : α → Option Text} {ignored : α} {cats : List α}
    (hi : ∀ a, idOf a = none → a = ignored) (hu : (cats.filterMap idOf).Nodup) :
    List.Forall₂ (Fits idOf ignored cats) (cats.map idOf) cats := by
  rw [List.forall₂_map_left_iff]
  rw [List.forall₂_same]
  intro a ha
  cases h : idOf a with
  | none => exact .inl (hi a h)
  | some id =>
    refine .inr ⟨id, rfl, ?_⟩
    obtain ⟨n, hn⟩ := List.getElem?_of_mem ha
    refine ⟨n, hn, h, ?_⟩
    intro m d hm hd hc
    have hlt := Gen.lt_of_some hn
    have hsplit : cats = cats.take n ++ a :: cats.drop (n + 1) := by
      conv_lhs => rw [← List.take_append_drop n cats, List.drop_eq_getElem_cons hlt]
      rw [List.getElem?_eq_getElem hlt, Option.some.injEq] at hn
      rw [hn]
    rw [hsplit, List.filterMap_append, List.nodup_append] at hu
    refine hu.2.2 id ?_ id ?_ rfl
    · refine List.mem_filterMap.mpr ⟨d, ?_, hc⟩
      exact List.mem_of_getElem? (i := m) (by rw [List.getElem?_take_of_lt hm]; exact hd)
    · exact List.mem_filterMap.mpr ⟨a, by simp, h⟩

theorem metricIds_eq {s : Net} (hc : Gen.Consistent s) : metricIds s.edges.cats = s.edges.ids := by
  have h1 : metricIds s.edges.cats = (Gen.metricsOf s.edges.cats).map Prod.snd := by
    unfold metricIds Gen.metricsOf
    rw [List.map_filterMap]
    congr 1
    funext cat
    cases cat <;> rfl
  rw [h1, ← hc.metrics]
  exact List.map_snd_zip (by rw [hc.len])

theorem ids_nodup {s : Net} (hc : Gen.Consistent s) (hu : UniqueIds s.edges.cats) : s.edges.ids.Nodup := by
  rw [← metricIds_eq hc]
  refine List.Sublist.nodup ?_ hu
  unfold metricIds
  induction s.edges.cats with
  | nil => exact .slnil
  | cons cat cats ih =>
    cases cat with
    | ignored => exact ih
    | info i id => simpa [EdgeCat.id?] using ih.cons id
    | metric u id => simpa [EdgeCat.id?] using ih.cons_cons id

/-- What has been read describes the edge. -/
theorem edgeOf_of_reads {s : Net} (hc : Gen.Consistent s) (hu : UniqueIds s.edges.cats) (hfull : Complete s)
    (hmeans : s.graph.means = none) {d : Bool} {e : Nat} (he : e < s.graph.edgeCount)
    (hml : s.graph.metrics.length = s.graph.edgeCount) {pe : ProtoEdge}
    (h : ReadsAs s s.edges.cats d e pe) : Build.EdgeOf s.graph e pe := by
  refine ⟨?_, h.src, h.dst, ?_, ?_⟩
  · by_cases hz : 0 < s.edges.cats.countP (isInfo .edgeId)
    · exact h.id hz
    · rw [h.noId (by omega)]
      rcases hfull.ids with hi | hi
      · exact absurd hi hz
      · exact hi e he
  · have hm := h.metrics
    rw [metricIds_eq hc] at hm
    have he' : e < s.graph.metrics.length := by rw [hml]; exact he
    have hlen := hc.values _ (List.getElem_mem he')
    refine Res.ofIdx_eq_ok.mpr ?_
    rw [List.getElem?_eq_getElem he', Option.some.injEq]
    refine List.ext_getElem? fun k => ?_
    have hml := hm.length_eq
    by_cases hk : k < s.edges.ids.length
    · obtain ⟨k', h1, x, hx, hy⟩ := hm.get hk (by omega)
      have hkk : k' = k := by
        rw [List.get_eq_getElem, ← List.getElem?_eq_getElem] at h1
        have hk' : k' < s.edges.ids.length := by
          by_contra hn
          rw [List.getElem?_eq_none (by omega), List.getElem?_eq_getElem hk] at h1
          cases h1
        exact (List.getElem?_inj hk' (ids_nodup hc hu)).mp h1
      subst hkk
      have hy' : pe.metrics.get ⟨k', by omega⟩ = x := by
        cases d
        · exact hy
        · rw [hmeans] at hy
          exact hy
      rw [value, List.getElem?_eq_getElem he', Option.bind_some] at hx
      rw [hx, ← hy', List.get_eq_getElem, ← List.getElem?_eq_getElem]
    · rw [List.getElem?_eq_none (by rw [hlen, ← hc.len]; omega), List.getElem?_eq_none (by omega)]
  · rcases hfull.sc with ⟨h1, h2⟩ | hi
    · exact h.sc h1 h2
    · by_cases h1 : s.edges.cats.countP (isInfo .shortcutIdx0) = 0 ∨ s.edges.cats.countP (isInfo .shortcutIdx1) = 0
      · rw [h.noSc h1]
        exact hi e he
      · exact h.sc (by omega) (by omega)

theorem nodeOf_of_reads {s : Net} (hfull : Complete s) {i : Nat} (hi : i < s.graph.nodeCount) {pn : ProtoNode}
    (h : NodeReadsAs s.graph s.nodes i pn) : Build.NodeOf s.graph i pn := by
  refine ⟨h.id, h.coord, ?_⟩
  by_cases hl : ∃ n, .info .chLevel n ∈ s.nodes
  · obtain ⟨lv, h1, h2⟩ := h.level hl
    rw [h2]
    exact h1
  · rw [h.noLevel (by simpa using hl)]
    rcases hfull.levels with h | h
    · exact absurd h hl
    · exact h i hi

/-- C28: a graph that is written with all its columns, without normalization, is read as the same graph. Its
metrics may have been changed since it has been built, as long as they aren't near zero. -/
theorem C28_same_graph {c : Codec} {env : Gen.Env} {s : Net} {maxDim : Nat} {cfg : Parsing} {d : Bool}
    {file : List Text} {dim dim' : Nat} {es : List ProtoEdge} {ns : List ProtoNode} {g : Graph} {ms : List (List ℚ)}
    (hb : Build.build dim es ns = .ok g) (hg : s.graph = { g with metrics := ms, dim := dim' })
    (hml : ms.length = g.edgeCount)
    (hms : ∀ m ∈ ms, ∀ x ∈ m, x = 1 / 1000000 ∨ 3 / 2000000 ≤ x)
    (hc : Gen.Consistent s) (hu : UniqueIds s.edges.cats) (hun : (s.nodes.filterMap idOfNode).Nodup)
    (hp : Printable c s d) (hfull : Complete s)
    (hcheck : Cfg.check maxDim cfg = .ok ⟨⟩) (hcn : cfg.nodes = s.nodes) (hce : cfg.edges = s.edges)
    (hgen : cfg.generating = none) (hnorm : s.edges.normalized = false)
    (hec : EdgeCols s.edges.cats) (hnc : NodeCols s.nodes) (hlen : s.edges.cats.length ≤ maxUsize)
    (hdup : ∀ e pe pe', Build.EdgeOf s.graph e pe → Build.EdgeOf s.graph (e + 1) pe' → ¬ Build.SameEdge pe pe')
    (h : write c s (allColumns s true d) = .ok file) : load c env maxDim cfg file = .ok s := by
  have hwf := Build.built_wellFormed hb
  have hwf' : s.graph.WellFormed := by
    rw [hg]
    exact ⟨hwf.ids_sorted, hwf.coords_len, hwf.levels_len, hwf.bwd_len, hml, hwf.edgeIds_len, hwf.ends_lt,
      hwf.start, hwf.covered_iff, hwf.not_covered, hwf.sc_ok, hwf.sc_len, hwf.idMap_iff⟩
  have hmeans : s.graph.means = none := by
    rw [hg]
    show g.means = none
    exact Build.built_means hb
  obtain ⟨es', ns', hr, h1, h2⟩ := C28_reads (cfg := cfg) (maxDim := maxDim) hwf' hp hcheck (by rw [hce]; exact hec)
    (by rw [hcn]; exact hnc)
    (by
      rw [hce]
      exact fits_self (by intro a; cases a <;> simp [EdgeCat.id?]) hu)
    (by
      rw [hcn]
      exact fits_self (by intro a; cases a <;> simp [idOfNode]) hun)
    (by simpa [allColumns] using hlen) h
  have hwritten : writtenEdges s.graph true = List.range s.graph.edgeCount := by simp [writtenEdges]
  rw [hce] at h1
  rw [hcn] at h2
  have h1' : List.Forall₂ (Build.EdgeOf s.graph) (List.range s.graph.edgeCount) es' := by
    have h1 : List.Forall₂ (ReadsAs s s.edges.cats d) (writtenEdges s.graph true) es' := h1
    rw [hwritten] at h1
    refine forall₂_imp_mem h1 ?_
    intro e he pe _ hre
    exact edgeOf_of_reads hc hu hfull hmeans (List.mem_range.mp he) hwf'.metrics_len hre
  have h2' : List.Forall₂ (Build.NodeOf s.graph) (List.range s.graph.nodeCount) ns' := by
    refine forall₂_imp_mem h2 ?_
    intro i hi pn _ hre
    exact nodeOf_of_reads hfull (List.mem_range.mp hi) hre
  have hec' : s.graph.edgeCount = g.edgeCount := by rw [hg]; rfl
  have hnc' : s.graph.nodeCount = g.nodeCount := by rw [hg]; rfl
  have hd : ∀ (e : Nat) (x y : ProtoEdge), es'[e]? = some x → es'[e + 1]? = some y → ¬ Build.SameEdge x y := by
    intro e x y hx hy
    obtain ⟨-, h3⟩ := Build.range_get h1'
    exact hdup e x y (h3 e x hx) (h3 (e + 1) y hy)
  rw [hec', hg] at h1'
  rw [hnc', hg] at h2'
  have hbuild := Build.C57_rebuild_metrics (d := dim') hb hml hms h1' h2' hd
  have hdim : cfg.edges.units.length = dim' := by
    rw [hce, ← hc.dim, hg]
  simp only [load, hr, mapErr, Res.ok_bind, hdim, hbuild]
  have hs : ({ graph := { g with metrics := ms, dim := dim' }, nodes := cfg.nodes, edges := cfg.edges } : Net) = s := by
    rw [← hg, hcn, hce]
  rw [hs, hgen]
  have hf : Gen.finish env none s = .ok s := by
    simp only [Gen.finish, Gen.generate, Res.ok_bind]
    exact Gen.C27_off hnorm
  rw [hf]

/-- The configuration to parse the sample. -/
def exParsing : Parsing :=
  { vehicle := .car, picky := false, nodes := exNet.nodes, edges := exNet.edges, generating := none }

/-- The sample's file. -/
def exFile : List Text :=
  [ "# edge-metric-count".toList, "# node-count".toList, "# edge-count".toList,
    "# nodes: node,lat,lon,level".toList, "# edges: id,src,dst,km,sc0,sc1".toList,
    "# Edges' metrics are not normalized by their mean.".toList, [],
    "1".toList, "3".toList, "4".toList,
    "10 5/1 5/1 1".toList, "20 1/1 1/1 0".toList, "30 2/1 2/1 2".toList,
    "9 10 30 4/1 1 2".toList, "5 10 20 1/1000000 -1 -1".toList, "6 20 30 3/1 -1 -1".toList,
    "7 30 10 2/1 -1 -1".toList ]

theorem exFile_written : write exCodec exNet (allColumns exNet true false) = .ok exFile := by decide +kernel

/-- A category is the first one if it is found first. -/
theorem firstCat_of_find {α : Type} {idOf : α → Option Text} {cats : List α} {id : Text} {cat : α}
    (h : (cats.find? fun d => decide (idOf d = some id)) = some cat) : FirstCat idOf cats id cat :=
  find?_firstCat.mp h

theorem exNet_writable (d : Bool) : Writable exNet (allColumns exNet true d) where
  nodes := by
    intro id hid
    have h : some id ∈ [some "node".toList, some "lat".toList, some "lon".toList, some "level".toList] := hid
    simp only [List.mem_cons, Option.some.injEq, List.not_mem_nil, or_false] at h
    rcases h with rfl | rfl | rfl | rfl
    · exact ⟨.info .nodeId "node".toList, firstCat_of_find (by decide +kernel), by simp⟩
    · exact ⟨.metric .latitude "lat".toList, firstCat_of_find (by decide +kernel), by simp⟩
    · exact ⟨.metric .longitude "lon".toList, firstCat_of_find (by decide +kernel), by simp⟩
    · exact ⟨.info .chLevel "level".toList, firstCat_of_find (by decide +kernel), by simp⟩
  edges := by
    intro id hid
    have h : some id ∈ [some "id".toList, some "src".toList, some "dst".toList, some "km".toList, some "sc0".toList,
      some "sc1".toList] := hid
    simp only [List.mem_cons, Option.some.injEq, List.not_mem_nil, or_false] at h
    rcases h with rfl | rfl | rfl | rfl | rfl | rfl
    · exact ⟨.info .edgeId "id".toList, firstCat_of_find (by decide +kernel)⟩
    · exact ⟨.info .srcId "src".toList, firstCat_of_find (by decide +kernel)⟩
    · exact ⟨.info .dstId "dst".toList, firstCat_of_find (by decide +kernel)⟩
    · exact ⟨.metric .kilometers "km".toList, firstCat_of_find (by decide +kernel)⟩
    · exact ⟨.info .shortcutIdx0 "sc0".toList, firstCat_of_find (by decide +kernel)⟩
    · exact ⟨.info .shortcutIdx1 "sc1".toList, firstCat_of_find (by decide +kernel)⟩
  ids := by
    intro id n _ _ e he
    have he : e ∈ [0, 1, 2, 3] := by
      have h : writtenEdges exNet.graph true = [0, 1, 2, 3] := by decide +kernel
      rw [← h]
      exact he
    simp only [List.mem_cons, List.not_mem_nil, or_false] at he
    rcases he with rfl | rfl | rfl | rfl
    · exact ⟨9, by decide +kernel⟩
    · exact ⟨5, by decide +kernel⟩
    · exact ⟨6, by decide +kernel⟩
    · exact ⟨7, by decide +kernel⟩
  means := by
    intro _ means h
    cases h

example : ∃ file, write exCodec exNet (allColumns exNet true true) = .ok file :=
  C28_writes exCodec exNet_wellFormed exNet_consistent (exNet_writable true)

theorem exNet_edgeCols : EdgeCols exNet.edges.cats where
  src := by decide +kernel
  dst := by decide +kernel
  sc0 := by decide +kernel
  sc1 := by decide +kernel
  supported := by decide +kernel

theorem exNet_nodeCols : NodeCols exNet.nodes := by
  intro id
  simp [exNet, exNodeCats]

theorem exNet_complete : Complete exNet where
  ids := .inl (by decide +kernel)
  sc := .inl (by decide +kernel)
  levels := .inl ⟨"level".toList, by decide +kernel⟩

/-- The sample is written and read: the same graph, with the configuration. -/
example (env : Gen.Env) : load exCodec env 2 exParsing exFile = .ok exNet := by
  refine C28_same_graph (d := false) (g := Build.exGraph) (ms := Build.exGraph.metrics) (dim' := 1) Build.ex_build rfl
    (by decide +kernel) ?_ exNet_consistent (by unfold UniqueIds; decide +kernel) (by decide +kernel)
    (exNet_printable false) exNet_complete (by decide +kernel) rfl rfl rfl rfl exNet_edgeCols exNet_nodeCols
    (by decide +kernel) ?_ exFile_written
  · intro m hm x hx
    have hm : m ∈ [[4], [1 / 1000000], [3], [2]] := hm
    simp only [List.mem_cons, List.not_mem_nil, or_false] at hm
    rcases hm with rfl | rfl | rfl | rfl <;> simp only [List.mem_cons, List.not_mem_nil, or_false] at hx <;>
      subst hx <;> norm_num
  · intro e x y hx hy hs
    have h1 := hx.id
    have h2 := hy.id
    rw [hs.1, ← h2] at h1
    have h5 : exNet.graph.tryId e ≠ exNet.graph.tryId (e + 1) ∨ 3 ≤ e := by
      rcases e with _ | _ | _ | e
      · exact .inl (by decide +kernel)
      · exact .inl (by decide +kernel)
      · exact .inl (by decide +kernel)
      · exact .inr (by omega)
    have h3 : e + 1 < 4 := Gen.lt_of_some (Res.ofIdx_eq_ok.mp h2)
    rcases h5 with h5 | h5
    · exact h5 h1
    · omega

/-- Two edges without ids. -/
def liftNet : Net :=
  { graph := Build.okOf (Build.build 1 Build.liftEdges Build.liftNodes)
    nodes := exNodeCats
    edges := { cats := [.info .srcId "src".toList, .info .dstId "dst".toList, .metric .kilometers "km".toList]
               normalized := false, units := [.kilometers], ids := ["km".toList] } }

def liftParsing : Parsing :=
  { vehicle := .car, picky := false, nodes := liftNet.nodes, edges := liftNet.edges, generating := none }

/-- A text without lines in case of failure. -/
def fileOf : R (List Text) → List Text
  | .ok file => file
  | _ => []

def edgeCountOf : Res LoadErr Net → Option Nat
  | .ok s => some s.graph.edgeCount
  | _ => none

/-- C28 doesn't hold for every graph: an edge of a built graph gets lost, because duplicates are searched for
before metrics near zero are lifted. -/
theorem C28_false_lifted : ∃ s, Build.build 1 Build.liftEdges Build.liftNodes = .ok liftNet.graph ∧
    load exCodec Gen.exEnv 2 liftParsing (fileOf (write exCodec liftNet (allColumns liftNet true false))) = .ok s ∧
    liftNet.graph.edgeCount = 2 ∧ s.graph.edgeCount = 1 ∧ Complete liftNet := by
  have h : ∃ s, load exCodec Gen.exEnv 2 liftParsing
      (fileOf (write exCodec liftNet (allColumns liftNet true false))) = .ok s := by
    have : edgeCountOf (load exCodec Gen.exEnv 2 liftParsing
      (fileOf (write exCodec liftNet (allColumns liftNet true false)))) = some 1 := by decide +kernel
    revert this
    generalize load exCodec Gen.exEnv 2 liftParsing _ = r
    intro this
    cases r with
    | ok s => exact ⟨s, rfl⟩
    | err e => cases this
    | panic => cases this
  obtain ⟨s, hs⟩ := h
  refine ⟨s, by decide +kernel, hs, by decide +kernel, ?_, .inr (by decide +kernel), .inr (by decide +kernel),
    .inl ⟨"level".toList, by decide +kernel⟩⟩
  have : edgeCountOf (load exCodec Gen.exEnv 2 liftParsing
    (fileOf (write exCodec liftNet (allColumns liftNet true false)))) = some 1 := by decide +kernel
  rw [hs] at this
  exact Option.some.inj this

/-- C28: a column for ids of edges can't be written if an edge has none; the writer panics. -/
theorem C28_false_no_id : write exCodec { liftNet with edges := { liftNet.edges with
    cats := .info .edgeId "id".toList :: liftNet.edges.cats } }
    { nodes := [some "node".toList], edges := [some "id".toList], shortcuts := true, denormalize := false } =
      .panic := by decide +kernel

/-- The sample whose columns for a node's id and level have the same id. -/
def twinNet : Net := { exNet with nodes :=
  [.info .nodeId "x".toList, .metric .latitude "lat".toList, .metric .longitude "lon".toList,
    .info .chLevel "x".toList] }

def levelsOf : Res LoadErr Net → List Nat
  | .ok s => s.graph.nodeLevels
  | _ => []

/-- C28: ids of nodes' categories aren't checked for duplicates. Both columns are written with the first category,
so that other levels are read. -/
theorem C28_false_node_ids :
    Cfg.check 2 { exParsing with nodes := twinNet.nodes } = .ok ⟨⟩ ∧
    twinNet.graph.nodeLevels = [1, 0, 2] ∧
    levelsOf (load exCodec Gen.exEnv 2 { exParsing with nodes := twinNet.nodes }
      (fileOf (write exCodec twinNet (allColumns twinNet true false)))) = [10, 20, 30] := by
  decide +kernel

/-! ## C29 -/

/-- C29: a file begins with comments and an empty line, followed by three counts, the lines of the nodes and the
lines of the edges. The counts are the numbers of columns for metrics, of nodes and of edges. -/
theorem C29_counts {c : Codec} {s : Net} {w : WriteCfg} {file : List Text} (hc : Gen.Consistent s)
    (h : write c s w = .ok file) :
    ∃ head nodes edges, file = head ++ [printNat (w.edges.countP (isMetricCol s.edges.cats)),
        printNat nodes.length, printNat edges.length] ++ nodes ++ edges ∧
      (∀ line ∈ head, line = [] ∨ IsComment line) ∧ nodes.length = s.graph.nodeCount ∧
      edges.length = (writtenEdges s.graph w.shortcuts).length := by
  obtain ⟨nodes, edges, rfl, hn, he⟩ := write_ok h
  refine ⟨comments c s w ++ [[]], nodes, edges, ?_, ?_, ?_, he.length_eq.symm⟩
  · have h1 : countMetrics s w.edges = w.edges.countP (isMetricCol s.edges.cats) := by
      unfold countMetrics
      induction w.edges with
      | nil => rfl
      | cons col cols ih =>
        cases col with
        | none =>
          have : isMetricCol s.edges.cats none = false := by
            unfold isMetricCol
            rw [List.any_eq_false]
            intro cat _
            cases cat <;> simp
          simpa [this] using ih
        | some id =>
          have : isMetricCol s.edges.cats (some id) = decide (id ∈ s.edges.ids) := by
            rw [← metricIds_eq hc]
            unfold isMetricCol metricIds
            rw [Bool.eq_iff_iff, List.any_eq_true, decide_eq_true_iff, List.mem_filterMap]
            constructor
            · rintro ⟨cat, h1, h2⟩
              refine ⟨cat, h1, ?_⟩
              cases cat <;> simp_all
            · rintro ⟨cat, h1, h2⟩
              refine ⟨cat, h1, ?_⟩
              cases cat <;> simp_all
          rw [List.filterMap_cons_some (b := id) (by rfl), List.filter_cons, List.countP_cons, this, ← ih]
          split <;> simp_all
    rw [h1, ← hn.length_eq, List.length_range]
  · intro line hl
    simp only [List.mem_append, comments, List.mem_cons, List.not_mem_nil, or_false] at hl
    rcases hl with (rfl | rfl | rfl | rfl | rfl | rfl) | rfl
    all_goals first | exact .inl rfl | exact .inr rfl
  · rw [← hn.length_eq, List.length_range]

/-- Without shortcuts there are three edges to write. -/
example : ∃ file nodes edges, write exCodec exNet (allColumns exNet false false) = .ok file ∧
    file.drop 7 = ["1".toList, "3".toList, "3".toList] ++ nodes ++ edges ∧ nodes.length = 3 ∧ edges.length = 3 := by
  exact ⟨fileOf (write exCodec exNet (allColumns exNet false false)),
    ["10 5/1 5/1 1".toList, "20 1/1 1/1 0".toList, "30 2/1 2/1 2".toList],
    ["5 10 20 1/1000000 -1 -1".toList, "6 20 30 3/1 -1 -1".toList, "7 30 10 2/1 -1 -1".toList],
    by decide +kernel, by decide +kernel, rfl, rfl⟩

example : ∃ head nodes edges, exFile = head ++ [printNat ((allColumns exNet true false).edges.countP
      (isMetricCol exNet.edges.cats)), printNat nodes.length, printNat edges.length] ++ nodes ++ edges ∧
    (∀ line ∈ head, line = [] ∨ IsComment line) ∧ nodes.length = 3 ∧ edges.length = 4 := by
  obtain ⟨head, nodes, edges, h1, h2, h3, h4⟩ := C29_counts exNet_consistent exFile_written
  refine ⟨head, nodes, edges, h1, h2, h3, ?_⟩
  rw [h4]
  decide +kernel

/-! ## C30 -/

/-- The lines of edges contain their columns, except for the destination's coordinates. -/
theorem edgeLines_columns {c : Codec} {s : Net} {d : Bool} {cols : List (Option Text)} {es : List Nat}
    {lines : List Text} (hw : s.graph.WellFormed)
    (hn : ∀ id n, some id ∈ cols → ¬ FirstCat EdgeCat.id? s.edges.cats id (.info .dstLat n) ∧
      ¬ FirstCat EdgeCat.id? s.edges.cats id (.info .dstLon n))
    (h : List.Forall₂ (fun e line => edgeLine c s d cols e = .ok line) es lines) :
    List.Forall₂ (fun e line => ∃ texts, line = join ' ' texts ∧
      List.Forall₂ (ColumnIs c s d e) cols texts) es lines := by
  refine h.imp ?_
  intro e line hl
  simp only [edgeLine, Res.bind_eq_ok, Res.pure_eq, Res.ok.injEq, mapR_ok] at hl
  obtain ⟨texts, ht, rfl⟩ := hl
  refine ⟨texts, rfl, forall₂_imp_mem ht ?_⟩
  intro col hcol t _ hct
  rcases edgeColumn_ok hct with ⟨h1, h2⟩ | ⟨id, cat, h1, h2, h3⟩
  · exact .inl ⟨h1, h2⟩
  · subst h1
    refine .inr ⟨id, cat, rfl, h2, edgeText_ok hw h3 ?_ ?_⟩
    · cases cat with
      | info i n =>
        cases i
        case dstLat => exact absurd h2 (hn id n hcol).1
        all_goals rfl
      | _ => rfl
    · cases cat with
      | info i n =>
        cases i
        case dstLon => exact absurd h2 (hn id n hcol).2
        all_goals rfl
      | _ => rfl

/-- C30, except for the coordinates of destinations: the last lines of a map are one line per written edge, in
order, and each of its columns contains the value of the first category with this id. -/
theorem C30_edges_partial {c : Codec} {s : Net} {w : WriteCfg} {file : List Text} (hw : s.graph.WellFormed)
    (hn : ∀ id n, some id ∈ w.edges → ¬ FirstCat EdgeCat.id? s.edges.cats id (.info .dstLat n) ∧
      ¬ FirstCat EdgeCat.id? s.edges.cats id (.info .dstLon n))
    (h : write c s w = .ok file) :
    ∃ front lines, file = front ++ lines ∧
      List.Forall₂ (fun e line => ∃ texts, line = join ' ' texts ∧
        List.Forall₂ (ColumnIs c s w.denormalize e) w.edges texts) (writtenEdges s.graph w.shortcuts) lines := by
  obtain ⟨nodes, edges, rfl, -, he⟩ := write_ok h
  exact ⟨_, edges, rfl, edgeLines_columns hw hn he⟩

/-- C30: the same for the writer of edges alone; the header names the columns. -/
theorem C30_csv_partial {c : Codec} {s : Net} {header shortcuts d : Bool} {cols : List (Option Text)}
    {file : List Text} (hw : s.graph.WellFormed)
    (hn : ∀ id n, some id ∈ cols → ¬ FirstCat EdgeCat.id? s.edges.cats id (.info .dstLat n) ∧
      ¬ FirstCat EdgeCat.id? s.edges.cats id (.info .dstLon n))
    (h : writeEdges c s header shortcuts d cols = .ok file) :
    ∃ lines, file = (if header then [join ' ' (cols.map fun col => col.getD "_".toList)] else []) ++ lines ∧
      List.Forall₂ (fun e line => ∃ texts, line = join ' ' texts ∧
        List.Forall₂ (ColumnIs c s d e) cols texts) (writtenEdges s.graph shortcuts) lines := by
  simp only [writeEdges, Res.bind_eq_ok, Res.pure_eq, Res.ok.injEq] at h
  obtain ⟨lines, hl, rfl⟩ := h
  exact ⟨lines, rfl, edgeLines_columns hw hn (edgeLines_ok hl)⟩

/-- C30: the lines of the nodes. -/
theorem C30_nodes {c : Codec} {s : Net} {w : WriteCfg} {file : List Text} (h : write c s w = .ok file) :
    ∃ front lines back, file = front ++ lines ++ back ∧ back.length = (writtenEdges s.graph w.shortcuts).length ∧
      List.Forall₂ (fun i line => ∃ texts, line = join ' ' texts ∧ List.Forall₂ (NodeColumnIs c s i) w.nodes texts)
        (List.range s.graph.nodeCount) lines := by
  obtain ⟨nodes, edges, rfl, hn, he⟩ := write_ok h
  refine ⟨_, nodes, edges, rfl, he.length_eq.symm, hn.imp ?_⟩
  intro i line hl
  simp only [nodeLine, Res.bind_eq_ok, Res.pure_eq, Res.ok.injEq, mapR_ok] at hl
  obtain ⟨texts, ht, rfl⟩ := hl
  exact ⟨texts, rfl, ht.imp fun col t hct => nodeColumn_ok hct⟩

/-- A line of cells is split into its cells again. -/
theorem C30_words {ts : List Text} (h : ∀ t ∈ ts, IsWord t) : words (join ' ' ts) = ts := words_join (by decide) h

theorem exNet_noDst : ∀ id n, some id ∈ (allColumns exNet true false).edges →
    ¬ FirstCat EdgeCat.id? exNet.edges.cats id (.info .dstLat n) ∧
      ¬ FirstCat EdgeCat.id? exNet.edges.cats id (.info .dstLon n) := by
  intro id n _
  constructor
  · rintro ⟨m, h, -⟩
    have := List.mem_of_getElem? h
    simp [exNet, exEdgeCats] at this
  · rintro ⟨m, h, -⟩
    have := List.mem_of_getElem? h
    simp [exNet, exEdgeCats] at this

example : ∃ front lines, exFile = front ++ lines ∧
    List.Forall₂ (fun e line => ∃ texts, line = join ' ' texts ∧
      List.Forall₂ (ColumnIs exCodec exNet false e) (allColumns exNet true false).edges texts)
      (writtenEdges exNet.graph true) lines :=
  C30_edges_partial exNet_wellFormed exNet_noDst exFile_written

example : ∃ front lines back, exFile = front ++ lines ++ back ∧ back.length = (writtenEdges exNet.graph true).length ∧
    List.Forall₂ (fun i line => ∃ texts, line = join ' ' texts ∧
      List.Forall₂ (NodeColumnIs exCodec exNet i) (allColumns exNet true false).nodes texts)
      (List.range exNet.graph.nodeCount) lines := C30_nodes exFile_written

example : ∃ lines, ["id km".toList, "9 4/1".toList, "5 1/1000000".toList, "6 3/1".toList, "7 2/1".toList] =
      (if true then [join ' ' (([some "id".toList, some "km".toList]).map fun col => col.getD "_".toList)] else []) ++
        lines ∧
    List.Forall₂ (fun e line => ∃ texts, line = join ' ' texts ∧
      List.Forall₂ (ColumnIs exCodec exNet false e) [some "id".toList, some "km".toList] texts)
      (writtenEdges exNet.graph true) lines := by
  refine C30_csv_partial (shortcuts := true) exNet_wellFormed ?_ (by decide +kernel)
  intro id n h
  exact exNet_noDst id n (by
    have : some id ∈ [some "id".toList, some "km".toList] := h
    simp only [List.mem_cons, Option.some.injEq, List.not_mem_nil, or_false] at this
    rcases this with rfl | rfl <;> decide +kernel)

/-- The sample with a column for the latitude of the destination. -/
def dstNet : Net := { exNet with edges := { exNet.edges with
  cats := .info .srcLat "slat".toList :: .info .dstLat "dlat".toList :: exNet.edges.cats } }

/-- C30 is false for the coordinates of the destination: those of the source are written. Edge 0 leads from
latitude 5 to latitude 2. -/
theorem C30_false_dst : writeEdges exCodec dstNet false true false [some "slat".toList, some "dlat".toList] =
      .ok ["5/1 5/1".toList, "5/1 5/1".toList, "1/1 1/1".toList, "2/1 2/1".toList] ∧
    dstNet.graph.IsEdge 0 0 2 ∧ dstNet.graph.nodeCoord 0 = .ok ⟨5, 5⟩ ∧ dstNet.graph.nodeCoord 2 = .ok ⟨2, 2⟩ ∧
    ¬ ColumnIs exCodec dstNet false 0 (some "dlat".toList) "5/1".toList := by
  refine ⟨by decide +kernel, ⟨by decide +kernel, by decide +kernel⟩, by decide +kernel, by decide +kernel, ?_⟩
  rintro (⟨h, -⟩ | ⟨id, cat, h1, h2, h3⟩)
  · cases h
  · cases h1
    have h4 : FirstCat EdgeCat.id? dstNet.edges.cats "dlat".toList (.info .dstLat "dlat".toList) :=
      firstCat_of_find (by decide +kernel)
    cases firstCat_unique h2 h4
    obtain ⟨u, v, x, ⟨e1, e2⟩, hx, ht⟩ := h3
    have e3 : dstNet.graph.dstIdx .fwd 0 = .ok 2 := by decide +kernel
    rw [e3, Res.ok.injEq] at e1
    subst e1
    have e4 : dstNet.graph.nodeCoord 2 = .ok ⟨2, 2⟩ := by decide +kernel
    rw [e4, Res.ok.injEq] at hx
    subst hx
    revert ht
    decide +kernel

end Verif.Fmi
