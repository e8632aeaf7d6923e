import Verif.GeneratingLemmas3
import Verif.BuildingProps

/-!
# Properties of generated and normalized metrics
-/

namespace Verif.Gen

open Cfg Text

/-! ## Samples -/

/-- A sample for the surroundings. -/
def exEnv : Env where
  haversine a b := |a.lat - b.lat| + |a.lon - b.lon|
  parseF t := (parseNat maxUsize t).map fun n => (n : ℚ)

def exCats : List EdgeCat := [.info .edgeId "id".toList, .ignored, .metric .kilometers "km".toList]

/-- The sample graph with its configuration. -/
def exNet : Net :=
  { graph := Build.exGraph
    nodes := [.info .nodeId "node".toList, .metric .latitude "lat".toList, .metric .longitude "lon".toList]
    edges := { cats := exCats, normalized := false, units := [.kilometers], ids := ["km".toList] } }

theorem exNet_edges : Edges.tryFrom exCats false = .ok exNet.edges := by decide +kernel

def exGen : Generating :=
  { nodes := [⟨.nodeIdx, "idx".toList⟩]
    edges := [.info .srcIdx "src".toList, .custom .kmh "speed".toList 50,
      .copy ⟨.kilometers, "km".toList⟩ ⟨.meters, "m".toList⟩,
      .calc ⟨.minutes, "t".toList⟩ ⟨.kilometers, "km".toList⟩ ⟨.kmh, "speed".toList⟩,
      .haversine .kilometers "air".toList] }

/-- The value of a result that is `ok`. -/
def okNet : R Net → Net
  | .ok s => s
  | _ => exNet

theorem ex_generate : generate exEnv (some exGen) exNet = .ok (okNet (generate exEnv (some exGen) exNet)) := by
  decide +kernel

theorem exNet_consistent : Consistent exNet := by
  refine ⟨by decide +kernel, by decide +kernel, by decide +kernel, ?_⟩
  have : ∀ m ∈ Build.exGraph.metrics, m.length = 1 := by decide +kernel
  exact this

theorem exNet_wellFormed : exNet.graph.WellFormed := Build.built_wellFormed Build.ex_build

/-! ## C54: the graph stays intact -/

/-- C54: neither generating nor normalizing touches nodes, edges, adjacency or shortcuts. -/
theorem C54_topology {env : Env} {gen : Option Generating} {s s' : Net} (h : finish env gen s = .ok s') :
    SameTopology s.graph s'.graph := by
  simp only [finish, Res.bind_eq_ok] at h
  obtain ⟨t, ht, h⟩ := h
  have h1 : SameTopology s.graph t.graph := by
    cases gen with
    | none =>
      simp only [generate, Res.ok.injEq] at ht
      subst ht
      exact .refl _
    | some gen =>
      obtain ⟨u, hu, -, -, h⟩ := generate_ok ht
      rw [← hu]
      exact (keeps_edges h).topo
  refine h1.trans ?_
  unfold normalize at h
  split at h
  · dsimp only at h
    split at h
    · exact absurd h (by simp)
    · split at h
      · exact absurd h (by simp)
      · simp only [Res.bind_eq_ok, Res.pure_eq, Res.ok.injEq] at h
        obtain ⟨ms, -, rfl⟩ := h
        exact ⟨rfl, rfl, rfl, rfl, rfl, rfl, rfl, rfl, rfl, rfl, rfl⟩
  · simp only [Res.ok.injEq] at h
    subst h
    exact .refl _

/-- What normalizing keeps. -/
theorem normalize_keeps {s s' : Net} (h : normalize s = .ok s') :
    s'.edges = s.edges ∧ s'.nodes = s.nodes ∧ SameTopology s.graph s'.graph ∧
      s'.graph.metrics.length = s.graph.metrics.length ∧ s'.graph.edgeIds = s.graph.edgeIds ∧
      s'.graph.idMap = s.graph.idMap ∧ s'.graph.dim = s.graph.dim ∧
      ∀ m' ∈ s'.graph.metrics, ∃ m ∈ s.graph.metrics, m'.length = m.length := by
  unfold normalize at h
  split at h
  · dsimp only at h
    split at h
    · exact absurd h (by simp)
    · split at h
      · exact absurd h (by simp)
      · simp only [Res.bind_eq_ok, Res.pure_eq, Res.ok.injEq] at h
        obtain ⟨ms, hms, rfl⟩ := h
        obtain ⟨h1, h2⟩ := divideAll_ok hms
        refine ⟨rfl, rfl, ⟨rfl, rfl, rfl, rfl, rfl, rfl, rfl, rfl, rfl, rfl, rfl⟩, h1, rfl, rfl, rfl, ?_⟩
        intro m' hm'
        obtain ⟨e, he, rfl⟩ := List.mem_iff_getElem.mp hm'
        have he' : e < s.graph.metrics.length := by
          dsimp only at he
          omega
        obtain ⟨m', h3, h4⟩ := h2 e _ (List.getElem?_eq_getElem he')
        have h3' := List.getElem?_eq_getElem (l := ms) (i := e) he
        rw [h3', Option.some.injEq] at h3
        exact ⟨_, List.getElem_mem he', by rw [h3]; exact (divide_ok h4).1⟩
  · simp only [Res.ok.injEq] at h
    subst h
    exact ⟨rfl, rfl, .refl _, rfl, rfl, rfl, rfl, fun m hm => ⟨m, hm, rfl⟩⟩

/-- C54: a usable graph stays usable, whatever is generated and whether or not it is normalized. -/
theorem C54_wellformed {env : Env} {gen : Option Generating} {s s' : Net} (h : finish env gen s = .ok s')
    (hw : s.graph.WellFormed) : s'.graph.WellFormed := by
  simp only [finish, Res.bind_eq_ok] at h
  obtain ⟨t, ht, h⟩ := h
  have h1 : t.graph.WellFormed := by
    cases gen with
    | none =>
      simp only [generate, Res.ok.injEq] at ht
      subst ht
      exact hw
    | some gen =>
      obtain ⟨u, hu, -, -, h⟩ := generate_ok ht
      exact edges_wellFormed h (by rw [hu]; exact hw)
  obtain ⟨-, -, h3, h4, h5, h6, -⟩ := normalize_keeps h
  refine wellFormed_of_sameTopology h1 h3 (h4.trans h1.metrics_len) (by rw [h5]; exact h1.edgeIds_len) ?_
  intro e id
  have := h1.idMap_iff e id
  unfold Graph.tryIdxFrom Graph.tryId at this ⊢
  rw [h5, h6]
  exact this

/-- All ids of the result, if every new id is new. -/
theorem edges_consistent {env : Env} {l : List GenCat} {s s' : Net} (h : l.foldlM (edgeStep env) s = .ok s')
    (hc : Consistent s) (hn : (s.edges.cats.filterMap EdgeCat.id? ++ l.filterMap introduces).Nodup) :
    Consistent s' ∧ UniqueIds s'.edges.cats := by
  induction l generalizing s with
  | nil =>
    simp only [List.foldlM_nil, Res.pure_eq, Res.ok.injEq] at h
    subst h
    exact ⟨hc, by simpa [UniqueIds] using hn⟩
  | cons c l ih =>
    obtain ⟨t, ht, h⟩ := foldlM_cons_ok.mp h
    have : (c :: l).filterMap introduces = (introduces c).toList ++ l.filterMap introduces := by
      cases hi : introduces c with
      | none => simp [List.filterMap_cons_none hi]
      | some id => simp [List.filterMap_cons_some hi]
    rw [this] at hn
    obtain ⟨h1, h2⟩ := edgeStep_consistent ht hc hn
    exact ih h h1 h2

/-- C54: with distinct ids, every edge of the finished graph has exactly one value for each metric of the
configuration, and the configured metrics are those of the categories. -/
theorem C54_dimension {env : Env} {gen : Generating} {s s' : Net} (h : finish env (some gen) s = .ok s')
    (hc : Consistent s)
    (hn : (s.edges.cats.filterMap EdgeCat.id? ++ gen.edges.filterMap introduces).Nodup) : Consistent s' := by
  simp only [finish, Res.bind_eq_ok] at h
  obtain ⟨t, ht, h⟩ := h
  obtain ⟨u, hu1, hu2, -, ht⟩ := generate_ok ht
  obtain ⟨h1, -⟩ := edges_consistent (s := u) ht
    ⟨by rw [hu2]; exact hc.metrics, by rw [hu2]; exact hc.len, by rw [hu1, hu2]; exact hc.dim,
      by rw [hu1, hu2]; exact hc.values⟩ (by rw [hu2]; exact hn)
  obtain ⟨h2, -, -, -, -, -, h3, h4⟩ := normalize_keeps h
  refine ⟨by rw [h2]; exact h1.metrics, by rw [h2]; exact h1.len, by rw [h2, h3]; exact h1.dim, ?_⟩
  intro m' hm'
  obtain ⟨m, hm, hl⟩ := h4 m' hm'
  rw [hl, h2]
  exact h1.values m hm

/-- C54: a parsed configuration with a graph built for it is consistent. -/
theorem C54_start {cats : List EdgeCat} {n : Bool} {edges : Edges} (he : Edges.tryFrom cats n = .ok edges)
    {es : List Build.ProtoEdge} {ns : List Build.ProtoNode} {g : Graph}
    (hb : Build.build edges.units.length es ns = .ok g)
    (hes : ∀ e ∈ es, e.metrics.length = edges.units.length) (nodes : List NodeCat) :
    Consistent { graph := g, nodes := nodes, edges := edges } := by
  obtain ⟨h1, h2⟩ := tryFrom_metrics he
  refine ⟨h1, h2, ?_, ?_⟩
  · exact (Build.build_ok hb).2.2.1
  · intro m hm
    obtain ⟨i, hi, rfl⟩ := List.mem_iff_getElem.mp hm
    have hi' : i < g.edgeCount := by rw [← (Build.built_wellFormed hb).metrics_len]; exact hi
    obtain ⟨pe, hpe, hE⟩ := Build.C05_no_edge_invented hb hi'
    have := Res.ofIdx_eq_ok.mp hE.metrics
    rw [List.getElem?_eq_getElem hi, Option.some.injEq] at this
    dsimp only
    rw [this, List.length_map, hes pe hpe]

example : Consistent { graph := Build.exGraph, nodes := exNet.nodes, edges := exNet.edges } :=
  C54_start exNet_edges (es := Build.exEdges) (ns := Build.exNodes) Build.ex_build (by decide +kernel) _

example : ∃ s', finish exEnv (some exGen) exNet = .ok s' ∧ Consistent s' ∧ s'.graph.WellFormed ∧
    s'.graph.metrics = [[4, 50, 4000, 24 / 5, 6], [1 / 1000000, 50, 1 / 1000, 3 / 2500000, 8], [3, 50, 3000, 18 / 5, 2],
      [2, 50, 2000, 12 / 5, 6]] := by
  have h : finish exEnv (some exGen) exNet = .ok (okNet (finish exEnv (some exGen) exNet)) := by decide +kernel
  exact ⟨_, h, C54_dimension h exNet_consistent (by decide +kernel), C54_wellformed h exNet_wellFormed,
    by decide +kernel⟩

/-! ## C43: ids are unique -/

/-- C43: if nothing is converted, the ids of the finished configuration are unique exactly if those of the
generated categories are. -/
theorem C43_generated {env : Env} {gen : Generating} {s s' : Net} (h : finish env (some gen) s = .ok s')
    (hu : UniqueIds s.edges.cats) (hc : ∀ a b, GenCat.convert a b ∉ gen.edges) :
    UniqueIds s'.edges.cats ↔ (gen.edges.filterMap introduces).Nodup := by
  simp only [finish, Res.bind_eq_ok] at h
  obtain ⟨t, ht, h⟩ := h
  obtain ⟨u, hu1, hu2, hex, ht⟩ := generate_ok ht
  rw [(normalize_keeps h).1]
  have key : ∀ (l : List GenCat) (u t : Net), l.foldlM (edgeStep env) u = .ok t →
      (∀ a b, GenCat.convert a b ∉ l) →
      t.edges.cats.filterMap EdgeCat.id? = u.edges.cats.filterMap EdgeCat.id? ++ l.filterMap introduces := by
    intro l
    induction l with
    | nil =>
      intro u t h _
      simp only [List.foldlM_nil, Res.pure_eq, Res.ok.injEq] at h
      subst h
      simp
    | cons c l ih =>
      intro u t h hl
      obtain ⟨v, hv, h⟩ := foldlM_cons_ok.mp h
      rw [ih v t h fun a b hm => hl a b (by simp [hm]),
        (edgeStep_cats hv fun a b hcc => hl a b (by simp [hcc])).1]
      cases hi : introduces c with
      | none => simp [List.filterMap_cons_none hi]
      | some id => simp [List.filterMap_cons_some hi]
  unfold UniqueIds at hu ⊢
  rw [key _ _ _ ht hc, hu2, List.nodup_append]
  refine ⟨fun h => h.2.1, fun h => ⟨hu, h, ?_⟩⟩
  -- the ids to create have been compared with the parsed ones
  intro a ha b hb hab
  subst hab
  obtain ⟨c, hcm, hca⟩ := List.mem_filterMap.mp ha
  obtain ⟨d, hdm, hda⟩ := List.mem_filterMap.mp hb
  unfold idsExist at hex
  rw [List.any_eq_false] at hex
  have hd := hex d hdm
  have hdn : newId? d = some a := by
    cases d with
    | convert x y => exact absurd hdm (hc x y)
    | _ => exact hda
  rw [hdn] at hd
  dsimp only at hd
  rw [Bool.not_eq_true, List.any_eq_false] at hd
  have := hd c hcm
  cases c with
  | info i id =>
    simp only [EdgeCat.id?, Option.some.injEq] at hca
    exact this (by simp [hca])
  | metric u id =>
    simp only [EdgeCat.id?, Option.some.injEq] at hca
    exact this (by simp [hca])
  | ignored => exact absurd hca (by simp [EdgeCat.id?])

/-- C43: with conversions, distinct ids stay distinct if the ids that are introduced are new. -/
theorem C43_fresh {env : Env} {gen : Generating} {s s' : Net} (h : finish env (some gen) s = .ok s')
    (hc : Consistent s)
    (hn : (s.edges.cats.filterMap EdgeCat.id? ++ gen.edges.filterMap introduces).Nodup) :
    UniqueIds s'.edges.cats := by
  simp only [finish, Res.bind_eq_ok] at h
  obtain ⟨t, ht, h⟩ := h
  obtain ⟨u, hu1, hu2, hex, ht⟩ := generate_ok ht
  rw [(normalize_keeps h).1]
  exact (edges_consistent (s := u) ht
    ⟨by rw [hu2]; exact hc.metrics, by rw [hu2]; exact hc.len, by rw [hu1, hu2]; exact hc.dim,
      by rw [hu1, hu2]; exact hc.values⟩ (by rw [hu2]; exact hn)).2

/-- C43 fails: two categories with the same id are generated without an error. -/
theorem C43_false_generated : ∃ s', UniqueIds exNet.edges.cats ∧
    finish exEnv (some ⟨[], [.custom .laneCount "x".toList 1, .custom .f64 "x".toList 2]⟩) exNet = .ok s' ∧
    ¬ UniqueIds s'.edges.cats := by
  refine ⟨okNet (finish exEnv (some ⟨[], [.custom .laneCount "x".toList 1, .custom .f64 "x".toList 2]⟩) exNet), ?_⟩
  unfold UniqueIds
  decide +kernel

/-- C43 fails: converting to an id that exists is no error; afterwards the id means another metric. -/
theorem C43_false_convert : ∃ s', UniqueIds exNet.edges.cats ∧
    finish exEnv (some ⟨[], [.custom .meters "m".toList 7, .convert ⟨.kilometers, "km".toList⟩ ⟨.meters, "m".toList⟩]⟩)
      exNet = .ok s' ∧ ¬ UniqueIds s'.edges.cats ∧ s'.edges.tryIdxOf "m".toList = .ok 0 := by
  refine ⟨okNet (finish exEnv (some ⟨[], [.custom .meters "m".toList 7,
    .convert ⟨.kilometers, "km".toList⟩ ⟨.meters, "m".toList⟩]⟩) exNet), ?_⟩
  unfold UniqueIds
  decide +kernel

example : ∃ s', finish exEnv (some exGen) exNet = .ok s' ∧ UniqueIds s'.edges.cats ∧
    s'.edges.cats.filterMap EdgeCat.id? =
      ["id", "km", "src", "speed", "m", "t", "air"].map String.toList := by
  have h : finish exEnv (some exGen) exNet = .ok (okNet (finish exEnv (some exGen) exNet)) := by decide +kernel
  exact ⟨_, h, (C43_generated h (by unfold UniqueIds; decide +kernel) (by simp [exGen])).mpr (by decide +kernel),
    by decide +kernel⟩

def exConvert : Generating :=
  ⟨[], [.convert ⟨.kilometers, "km".toList⟩ ⟨.meters, "m".toList⟩, .copy ⟨.meters, "m".toList⟩ ⟨.f64, "x".toList⟩,
    .convert ⟨.f64, "x".toList⟩ ⟨.laneCount, "x".toList⟩]⟩

example : ∃ s', finish exEnv (some exConvert) exNet = .ok s' ∧ UniqueIds s'.edges.cats ∧
    s'.edges.ids = ["m".toList, "x".toList] ∧ s'.edges.units = [.meters, .laneCount] := by
  have h : finish exEnv (some exConvert) exNet = .ok (okNet (finish exEnv (some exConvert) exNet)) := by
    decide +kernel
  exact ⟨_, h, C43_fresh h exNet_consistent (by decide +kernel), by decide +kernel⟩

/-! ## C44: generated edge-ids -/

/-- C44: after generating edge-ids, the id of every edge is its index, exactly the indices are ids, and
looking up an id returns the edge. -/
theorem C44_ids {env : Env} {gen : Generating} {s s' : Net} (h : finish env (some gen) s = .ok s')
    {id : Text} (hg : GenCat.info .edgeId id ∈ gen.edges) (e : Nat) :
    (e < s'.graph.edgeCount → s'.graph.tryId e = .ok (some e) ∧ s'.graph.tryIdxFrom e = .ok e) ∧
      (s'.graph.edgeCount ≤ e → s'.graph.tryIdxFrom e = .err .unknownEdgeId) := by
  simp only [finish, Res.bind_eq_ok] at h
  obtain ⟨t, ht, h⟩ := h
  obtain ⟨u, hu1, hu2, hex, ht⟩ := generate_ok ht
  have hi := edges_idsAreIdx ht (.inr ⟨id, hg⟩)
  obtain ⟨-, -, h3, -, h5, h6, -⟩ := normalize_keeps h
  have hi : IdsAreIdx s'.graph := by
    refine ⟨?_, ?_⟩
    · rw [h5, sameTopology_count h3, hi.1]
    · rw [h6, sameTopology_count h3, hi.2]
  rw [idsAreIdx_tryId hi, idsAreIdx_tryIdxFrom hi]
  constructor
  · intro he
    simp [he]
  · intro he
    rw [if_neg (by omega)]

/-- C44: without generated edge-ids the ids of all edges are kept. -/
theorem C44_kept {env : Env} {gen : Generating} {s s' : Net} (h : finish env (some gen) s = .ok s')
    (hg : ∀ id, GenCat.info .edgeId id ∉ gen.edges) (e : Nat) :
    s'.graph.tryId e = s.graph.tryId e ∧ s'.graph.tryIdxFrom e = s.graph.tryIdxFrom e := by
  simp only [finish, Res.bind_eq_ok] at h
  obtain ⟨t, ht, h⟩ := h
  obtain ⟨u, hu1, hu2, hex, ht⟩ := generate_ok ht
  obtain ⟨-, -, -, -, h5, h6, -⟩ := normalize_keeps h
  have : t.graph.edgeIds = u.graph.edgeIds ∧ t.graph.idMap = u.graph.idMap := by
    refine foldlM_ind ht (fun v => v.graph.edgeIds = u.graph.edgeIds ∧ v.graph.idMap = u.graph.idMap)
      ⟨rfl, rfl⟩ fun x hx c c' hc hcc => ?_
    rcases edgeStep_ids hcc with ⟨⟨id, rfl⟩, -⟩ | ⟨-, h1, h2⟩
    · exact absurd hx (hg id)
    · exact ⟨h1.trans hc.1, h2.trans hc.2⟩
  unfold Graph.tryId Graph.tryIdxFrom
  rw [h5, h6, this.1, this.2, hu1]
  exact ⟨rfl, rfl⟩

/-- The sample's parsed ids 9, 5, 6 and 7 are replaced. -/
example : ∃ s', finish exEnv (some ⟨[], [.info .edgeId "idx".toList]⟩) exNet = .ok s' ∧
    s'.graph.tryId 3 = .ok (some 3) ∧ s'.graph.tryIdxFrom 7 = .err .unknownEdgeId ∧
    exNet.graph.tryIdxFrom 7 = .ok 3 := by
  have h : finish exEnv (some ⟨[], [.info .edgeId "idx".toList]⟩) exNet =
      .ok (okNet (finish exEnv (some ⟨[], [.info .edgeId "idx".toList]⟩) exNet)) := by decide +kernel
  refine ⟨_, h, ((C44_ids h (id := "idx".toList) (by simp) 3).1 (by decide +kernel)).1,
    (C44_ids h (id := "idx".toList) (by simp) 7).2 (by decide +kernel), by decide +kernel⟩

example : ∃ s', finish exEnv (some exGen) exNet = .ok s' ∧ s'.graph.tryIdxFrom 7 = .ok 3 := by
  have h : finish exEnv (some exGen) exNet = .ok (okNet (finish exEnv (some exGen) exNet)) := by decide +kernel
  exact ⟨_, h, by rw [(C44_kept h (by simp [exGen]) 7).2]; decide +kernel⟩

/-! ## C45: merging -/

theorem lineEdge_unique {g : Graph} (hid : ∀ e id, g.tryIdxFrom id = .ok e ↔ g.tryId e = .ok (some id))
    {edgeId : Text} {cols : List (Option Text)} {line : Text} {e e' : Nat}
    (h : LineEdge g edgeId cols line e) (h' : LineEdge g edgeId cols line e') : e = e' := by
  obtain ⟨i, p, id, h1, h2, h3, h4, h5⟩ := h
  obtain ⟨i', p', id', h1', h2', h3', h4', h5'⟩ := h'
  have : i = i' := by
    rcases Nat.lt_trichotomy i i' with h | h | h
    · exact absurd h1 (h2' i h)
    · exact h
    · exact absurd h1' (h2 i' h)
  subst this
  rw [h3, Option.some.injEq] at h3'
  subst h3'
  rw [h4, Option.some.injEq] at h4'
  subst h4'
  rw [← hid] at h5 h5'
  rw [h5, Res.ok.injEq] at h5'
  exact h5'

theorem mergeLine_edge {env : Env} {s : Net}
    (hid : ∀ e id, s.graph.tryIdxFrom id = .ok e ↔ s.graph.tryId e = .ok (some id))
    {edgeId : Text} {cols : List (Option Text)} {ms ms' : List (List ℚ)}
    {line : Text} (h : mergeLine env s edgeId cols ms line = .ok ms') :
    ∃ e m m', LineEdge s.graph edgeId cols line e ∧ ms[e]? = some m ∧
      mergeCols env s.edges edgeId (words line) 0 cols m = .ok m' ∧ ms' = ms.set e m' := by
  obtain ⟨e, m, m', h1, h2, h3, h4⟩ := mergeLine_ok h
  obtain ⟨i, p, id, g1, g2, g3, g4, g5⟩ := mergeEdge_ok h1
  exact ⟨e, m, m', ⟨i, p, id, g1, g2, by simpa using g3, g4, (hid e id).mp g5⟩, h2, h3, h4⟩

theorem mergeLines_keep {env : Env} {s : Net} {edgeId : Text} {cols : List (Option Text)} {lines : List Text}
    {ms ms' : List (List ℚ)} (h : lines.foldlM (mergeLine env s edgeId cols) ms = .ok ms')
    (hid : ∀ e id, s.graph.tryIdxFrom id = .ok e ↔ s.graph.tryId e = .ok (some id))
    (hn : s.edges.ids.Nodup) {e k : Nat}
    (hor : (∀ line ∈ lines, ¬ LineEdge s.graph edgeId cols line e) ∨ ∀ j, ¬ LastColumn s.edges edgeId cols k j) :
    value ms' e k = value ms e k := by
  induction lines generalizing ms with
  | nil =>
    simp only [List.foldlM_nil, Res.pure_eq, Res.ok.injEq] at h
    rw [h]
  | cons line lines ih =>
    obtain ⟨ms1, h1, h⟩ := foldlM_cons_ok.mp h
    rw [ih h (hor.imp_left fun h l hl => h l (by simp [hl]))]
    obtain ⟨e0, m, m', hE, hm, hc, rfl⟩ := mergeLine_edge hid h1
    unfold value
    by_cases hee : e0 = e
    · subst hee
      have hlt := lt_of_some hm
      rw [List.getElem?_set_self hlt, hm]
      rcases hor with hor | hor
      · exact absurd hE (hor line (by simp))
      · refine (mergeCols_ok hc k).1 fun j id hj hne hk => ?_
        -- there is a last column for this metric
        have hk := (idxOf_iff hn).mp hk
        have : ∀ n j, cols.length - j = n → cols[j]? = some (some id) → False := by
          intro n
          induction n using Nat.strong_induction_on with
          | _ n ihn =>
            intro j hjn hj
            by_cases hl : ∃ j', j < j' ∧ cols[j']? = some (some id)
            · obtain ⟨j', hlt', hj'⟩ := hl
              have := lt_of_some hj'
              exact ihn (cols.length - j') (by omega) j' rfl hj'
            · exact hor j ⟨id, hk, hne, hj, fun j' hj' hh => hl ⟨j', hj', hh⟩⟩
        exact this _ j rfl hj
    · rw [List.getElem?_set_ne hee]

theorem mergeLines_set {env : Env} {s : Net} {edgeId : Text} {cols : List (Option Text)}
    {pre post : List Text} {line : Text}
    {ms ms' : List (List ℚ)} (h : (pre ++ line :: post).foldlM (mergeLine env s edgeId cols) ms = .ok ms')
    (hid : ∀ e id, s.graph.tryIdxFrom id = .ok e ↔ s.graph.tryId e = .ok (some id))
    (hn : s.edges.ids.Nodup) {e k j : Nat} (hE : LineEdge s.graph edgeId cols line e)
    (hpost : ∀ l ∈ post, ¬ LineEdge s.graph edgeId cols l e) (hj : LastColumn s.edges edgeId cols k j) :
    ∃ p x, (words line)[j]? = some p ∧ env.parseF p = some x ∧ value ms' e k = some x := by
  induction pre generalizing ms with
  | nil =>
    obtain ⟨ms1, h1, h⟩ := foldlM_cons_ok.mp h
    obtain ⟨e0, m, m', hE', hm, hc, rfl⟩ := mergeLine_edge hid h1
    have := lineEdge_unique hid hE hE'
    subst this
    obtain ⟨id, hk, hne, hj1, hj2⟩ := hj
    obtain ⟨p, x, h3, h4, h5⟩ := (mergeCols_ok hc k).2 j id hj1 hne ((idxOf_iff hn).mpr hk) (by
      intro j' hj' id' hid' _ hk'
      have hk' := (idxOf_iff hn).mp hk'
      rw [hk, Option.some.injEq] at hk'
      subst hk'
      exact hj2 j' hj' hid')
    refine ⟨p, x, by simpa using h3, h4, ?_⟩
    rw [mergeLines_keep h hid hn (.inl hpost)]
    unfold value
    rw [List.getElem?_set_self (lt_of_some hm)]
    exact h5
  | cons l pre ih =>
    obtain ⟨ms1, -, h⟩ := foldlM_cons_ok.mp h
    exact ih h

theorem readLines_eq (lines : List Text) (hd : Bool) : readLines (some lines) hd = .ok (dataLines lines hd) := by
  have : isFunctional = fun l => decide (l ≠ [] ∧ l.head? ≠ some '#') := by
    funext l
    cases l <;> simp [isFunctional]
  unfold readLines dataLines
  rw [this]
  cases hd <;> simp

/-- C45: a metric of an edge is kept if no line names the edge or no column names the metric. -/
theorem C45_untouched {env : Env} {s s' : Net} {lines : List Text} {hd : Bool} {edgeId : Text}
    {cols : List (Option Text)} (h : edgeStep env s (.merge (some lines) hd edgeId cols) = .ok s')
    (hw : s.graph.WellFormed) (hn : s.edges.ids.Nodup) {e k : Nat}
    (hor : (∀ line ∈ dataLines lines hd, ¬ LineEdge s.graph edgeId cols line e) ∨
      ∀ id, s.edges.ids[k]? = some id → id ≠ edgeId → some id ∉ cols) :
    value s'.graph.metrics e k = value s.graph.metrics e k := by
  simp only [edgeStep, readLines_eq, Res.ok_bind, Res.bind_eq_ok, Res.pure_eq, Res.ok.injEq] at h
  obtain ⟨ms, hms, rfl⟩ := h
  refine mergeLines_keep hms hw.idMap_iff hn (hor.imp_right fun h j hj => ?_)
  obtain ⟨id, h1, h2, h3, -⟩ := hj
  exact h id h1 h2 (List.mem_of_getElem? h3)

/-- C45: the last line naming an edge sets each named metric, from the last column for this metric. -/
theorem C45_last_wins {env : Env} {s s' : Net} {lines : List Text} {hd : Bool} {edgeId : Text}
    {cols : List (Option Text)} (h : edgeStep env s (.merge (some lines) hd edgeId cols) = .ok s')
    (hw : s.graph.WellFormed) (hn : s.edges.ids.Nodup) {pre post : List Text} {line : Text}
    (hl : dataLines lines hd = pre ++ line :: post) {e k j : Nat} (hE : LineEdge s.graph edgeId cols line e)
    (hpost : ∀ l ∈ post, ¬ LineEdge s.graph edgeId cols l e) (hj : LastColumn s.edges edgeId cols k j) :
    ∃ p x, (words line)[j]? = some p ∧ env.parseF p = some x ∧ value s'.graph.metrics e k = some x := by
  simp only [edgeStep, readLines_eq, Res.ok_bind, Res.bind_eq_ok, Res.pure_eq, Res.ok.injEq] at h
  obtain ⟨ms, hms, rfl⟩ := h
  rw [hl] at hms
  exact mergeLines_set hms hw.idMap_iff hn hE hpost hj

/-- C45: merging succeeds only if every line names an edge, so an unknown edge-id is an error. -/
theorem C45_known {env : Env} {s s' : Net} {lines : List Text} {hd : Bool} {edgeId : Text}
    {cols : List (Option Text)} (h : edgeStep env s (.merge (some lines) hd edgeId cols) = .ok s')
    (hw : s.graph.WellFormed) {line : Text} (hl : line ∈ dataLines lines hd) :
    ∃ e, LineEdge s.graph edgeId cols line e := by
  simp only [edgeStep, readLines_eq, Res.ok_bind, Res.bind_eq_ok, Res.pure_eq, Res.ok.injEq] at h
  obtain ⟨ms, hms, -⟩ := h
  generalize s.graph.metrics = ms0 at hms
  generalize dataLines lines hd = ls at hms hl
  induction ls generalizing ms0 with
  | nil => exact absurd hl (by simp)
  | cons x ls ih =>
    obtain ⟨ms1, h1, h2⟩ := foldlM_cons_ok.mp hms
    rcases List.mem_cons.mp hl with rfl | hl
    · obtain ⟨e, -, -, hE, -⟩ := mergeLine_edge hw.idMap_iff h1
      exact ⟨e, hE⟩
    · exact ih _ h2 hl

/-- C45: only metrics of edges are changed. -/
theorem C45_only_metrics {env : Env} {s s' : Net} {file : Option (List Text)} {hd : Bool} {edgeId : Text}
    {cols : List (Option Text)} (h : edgeStep env s (.merge file hd edgeId cols) = .ok s') :
    s'.edges = s.edges ∧ s'.nodes = s.nodes ∧ s'.graph = { s.graph with metrics := s'.graph.metrics } := by
  simp only [edgeStep, Res.bind_eq_ok, Res.pure_eq, Res.ok.injEq] at h
  obtain ⟨l, -, ms, -, rfl⟩ := h
  exact ⟨rfl, rfl, rfl⟩

/-- A file with a header, a comment and two lines for the same edge; the third column is ignored. -/
def exLines : List Text := ["# comment".toList, "km id x".toList, "8 6 z".toList, "".toList, "5 7 z".toList,
  "12 6 z".toList]

def exMerge : GenCat :=
  .merge (some exLines) true "id".toList [some "km".toList, some "id".toList, none]

example : ∃ s', edgeStep exEnv exNet exMerge = .ok s' ∧ value s'.graph.metrics 2 0 = some 12 ∧
    value s'.graph.metrics 0 0 = value exNet.graph.metrics 0 0 ∧
    s'.graph.metrics = [[4], [1 / 1000000], [12], [5]] := by
  have h : edgeStep exEnv exNet exMerge = .ok (okNet (edgeStep exEnv exNet exMerge)) := by decide +kernel
  refine ⟨_, h, ?_, ?_, by decide +kernel⟩
  · obtain ⟨p, x, hp, hx, hv⟩ := C45_last_wins (e := 2) (k := 0) (j := 0) h exNet_wellFormed (by decide +kernel)
      (pre := ["8 6 z".toList, "5 7 z".toList]) (line := "12 6 z".toList) (post := []) (by decide +kernel)
      ⟨1, "6".toList, 6, by decide +kernel⟩ (by simp)
      ⟨"km".toList, by decide +kernel, by decide +kernel, by decide +kernel, fun j' hj' => by
        match j', hj' with
        | 1, _ => decide +kernel
        | 2, _ => decide +kernel
        | n + 3, _ => simp⟩
    have : p = "12".toList := by
      have h2 : (words "12 6 z".toList)[0]? = some "12".toList := by decide +kernel
      rw [h2, Option.some.injEq] at hp
      exact hp.symm
    subst this
    have h3 : exEnv.parseF "12".toList = some 12 := by decide +kernel
    rw [h3, Option.some.injEq] at hx
    rw [hv, hx]
  · refine C45_untouched h exNet_wellFormed (by decide +kernel) (.inl ?_)
    rintro line hl ⟨i, p, id, h1, h2, h3, h4, h5⟩
    have hid : id = 9 := by
      have : exNet.graph.tryId 0 = .ok (some 9) := by decide +kernel
      rw [this] at h5
      simpa using h5.symm
    subst hid
    have hi : i = 1 := by
      match i with
      | 0 => exact absurd h1 (by decide +kernel)
      | 1 => rfl
      | 2 => exact absurd h1 (by decide +kernel)
      | n + 3 => exact absurd h1 (by simp)
    subst hi
    have : ∀ line ∈ dataLines exLines true, ((words line)[1]?.bind fun p => parseNat maxUsize p) ≠ some 9 := by
      decide +kernel
    exact this line hl (by rw [h3]; exact h4)

/-- An unknown edge-id is an error. -/
example : edgeStep exEnv exNet (.merge (some ["8 1 z".toList]) false "id".toList
    [some "km".toList, some "id".toList, none]) = .err .unknownEdgeId := by decide +kernel

/-! ## C55: generated metrics have the configured values -/

/-- `s'` has all metrics of `s`, and maybe more. -/
structure Extends (s s' : Net) : Prop where
  topo : SameTopology s.graph s'.graph
  ids : s.edges.ids <+: s'.edges.ids
  units : s.edges.units <+: s'.edges.units
  metrics : ∀ (e : Nat) (m : List ℚ), s.graph.metrics[e]? = some m → ∃ m', s'.graph.metrics[e]? = some m' ∧ m <+: m'

theorem Extends.refl (s : Net) : Extends s s :=
  ⟨.refl _, List.prefix_refl _, List.prefix_refl _, fun _ m h => ⟨m, h, List.prefix_refl _⟩⟩

theorem Extends.trans {a b c : Net} (h : Extends a b) (h' : Extends b c) : Extends a c :=
  ⟨h.topo.trans h'.topo, h.ids.trans h'.ids, h.units.trans h'.units, fun e m hm => by
    obtain ⟨m', h1, h2⟩ := h.metrics e m hm
    obtain ⟨m'', h3, h4⟩ := h'.metrics e m' h1
    exact ⟨m'', h3, h2.trans h4⟩⟩

theorem prefix_get {α : Type} {l l' : List α} (h : l <+: l') {i : Nat} {a : α} (hi : l[i]? = some a) :
    l'[i]? = some a := by
  obtain ⟨r, rfl⟩ := h
  rw [List.getElem?_append_left (lt_of_some hi), hi]

theorem Extends.value {s s' : Net} (h : Extends s s') {e k : Nat} {x : ℚ}
    (hv : value s.graph.metrics e k = some x) : value s'.graph.metrics e k = some x := by
  unfold Gen.value at hv ⊢
  rw [Option.bind_eq_some_iff] at hv ⊢
  obtain ⟨m, hm, hx⟩ := hv
  obtain ⟨m', hm', hp⟩ := h.metrics e m hm
  exact ⟨m', hm', prefix_get hp hx⟩

theorem sameTopology_isEdge {g g' : Graph} (h : SameTopology g g') (e u v : Nat) :
    g'.IsEdge e u v ↔ g.IsEdge e u v := by
  rw [h.eq]
  exact Iff.rfl

theorem sameTopology_coord {g g' : Graph} (h : SameTopology g g') (i : Nat) :
    g'.nodeCoord i = g.nodeCoord i := by
  rw [h.eq]
  rfl

theorem Generated.extend {env : Env} {s s' : Net} {c : GenCat} (hg : Generated env s c) (h : Extends s s') :
    Generated env s' c := by
  have hm : ∀ {k : Nat} {u : Cfg.Unit} {id : Text}, HasMetric s k u id → HasMetric s' k u id :=
    fun ⟨h1, h2⟩ => ⟨prefix_get h.ids h1, prefix_get h.units h2⟩
  have hcount := sameTopology_count h.topo
  cases c with
  | custom u id d =>
    obtain ⟨k, h1, h2⟩ := hg
    exact ⟨k, hm h1, fun e he => h.value (h2 e (hcount ▸ he))⟩
  | haversine u id =>
    obtain ⟨h0, k, h1, h2⟩ := hg
    refine ⟨h0, k, hm h1, fun e he => ?_⟩
    obtain ⟨a, b, x, y, h3, h4, h5, h6⟩ := h2 e (hcount ▸ he)
    exact ⟨a, b, x, y, (sameTopology_isEdge h.topo ..).mpr h3, (sameTopology_coord h.topo a).trans h4,
      (sameTopology_coord h.topo b).trans h5, h.value h6⟩
  | copy src dst =>
    obtain ⟨i, k, h0, h1, h2⟩ := hg
    refine ⟨i, k, prefix_get h.ids h0, hm h1, fun e he => ?_⟩
    obtain ⟨x, y, h3, h4, h5⟩ := h2 e (hcount ▸ he)
    exact ⟨x, y, h.value h3, h.value h4, h5⟩
  | «calc» r a b =>
    obtain ⟨i, j, k, h0, h0', h1, h2⟩ := hg
    refine ⟨i, j, k, prefix_get h.ids h0, prefix_get h.ids h0', hm h1, fun e he => ?_⟩
    obtain ⟨x, y, z, h3, h4, h5, h6⟩ := h2 e (hcount ▸ he)
    exact ⟨x, y, z, h.value h3, h.value h4, h.value h5, h6⟩
  | info _ _ => trivial
  | convert _ _ => trivial
  | merge _ _ _ _ => trivial

theorem extends_addMetric {s : Net} {u : Cfg.Unit} {id : Text} {xs : List ℚ}
    (h : xs.length = s.graph.metrics.length) : Extends s (addMetric s u id xs) := by
  refine ⟨(keeps_addMetric h).topo, List.prefix_append _ _, List.prefix_append _ _, fun e m hm => ?_⟩
  have hlt : e < xs.length := h ▸ lt_of_some hm
  exact ⟨m ++ [xs[e]], pushAll_get hm (List.getElem?_eq_getElem hlt), List.prefix_append _ _⟩

theorem hasMetric_addMetric {s : Net} (hc : Consistent s) (u : Cfg.Unit) (id : Text) (xs : List ℚ) :
    HasMetric (addMetric s u id xs) s.edges.units.length u id :=
  ⟨by rw [← hc.len]; simp [addMetric], by simp [addMetric]⟩

theorem value_addMetric {s : Net} (hc : Consistent s) {u : Cfg.Unit} {id : Text} {xs : List ℚ} {e : Nat}
    {m : List ℚ} {x : ℚ} (hm : s.graph.metrics[e]? = some m) (hx : xs[e]? = some x) :
    value (addMetric s u id xs).graph.metrics e s.edges.units.length = some x := by
  unfold value
  rw [show (addMetric s u id xs).graph.metrics = pushAll s.graph.metrics xs from rfl, pushAll_get hm hx,
    Option.bind_some, ← hc.values m (List.mem_of_getElem? hm)]
  simp

/-- A category that doesn't replace anything keeps all metrics and adds its own. -/
theorem step_generated {env : Env} {s s' : Net} {c : GenCat} (h : edgeStep env s c = .ok s')
    (hr : ¬ replaces c) (hc : Consistent s) (hm : s.graph.metrics.length = s.graph.edgeCount) :
    Extends s s' ∧ Generated env s' c := by
  have hget : ∀ e, e < s.graph.edgeCount → ∃ m, s.graph.metrics[e]? = some m := fun e he =>
    ⟨_, List.getElem?_eq_getElem (hm ▸ he)⟩
  cases c with
  | info i id =>
    refine ⟨?_, trivial⟩
    have htopo := (keeps_edgeStep h).topo
    cases i <;> simp only [edgeStep, Res.ok.injEq, reduceCtorEq] at h
    all_goals subst h
    all_goals exact ⟨htopo, List.prefix_refl _, List.prefix_refl _, fun e m hm => ⟨m, hm, List.prefix_refl _⟩⟩
  | custom u id d =>
    simp only [edgeStep, Res.bind_eq_ok, Res.pure_eq, Res.ok.injEq] at h
    obtain ⟨xs, hxs, rfl⟩ := h
    obtain ⟨h1, h2⟩ := newValues_ok hxs
    refine ⟨extends_addMetric h1, _, hasMetric_addMetric hc _ _ _, fun e he => ?_⟩
    obtain ⟨m, hme⟩ := hget e he
    obtain ⟨x, hx, hxe⟩ := h2 e m hme
    simp only [Res.ok.injEq] at hx
    subst hx
    exact value_addMetric hc hme hxe
  | haversine u id =>
    simp only [edgeStep] at h
    split at h
    swap
    · exact absurd h (by simp)
    rename_i hu
    simp only [Res.bind_eq_ok, Res.pure_eq, Res.ok.injEq] at h
    obtain ⟨xs, hxs, rfl⟩ := h
    obtain ⟨h1, h2⟩ := newValues_ok hxs
    refine ⟨extends_addMetric h1, hu, _, hasMetric_addMetric hc _ _ _, fun e he => ?_⟩
    obtain ⟨m, hme⟩ := hget e he
    obtain ⟨x, hx, hxe⟩ := h2 e m hme
    rw [Nat.zero_add] at hx
    unfold distance at hx
    split at hx
    · rename_i p q hp hq
      simp only [Res.bind_eq_ok] at hp hq
      obtain ⟨a, ha, hp⟩ := hp
      obtain ⟨b, hb, hq⟩ := hq
      refine ⟨a, b, p, q, ⟨hb, ha⟩, hp, hq, ?_⟩
      have := ofUnit_ok hx
      simp only [Cfg.Unit.genConvert, Except.ok.injEq] at this
      rw [this]
      exact value_addMetric hc hme hxe
    · exact absurd hx (by simp)
  | copy src dst =>
    simp only [edgeStep, Res.bind_eq_ok, Res.pure_eq, Res.ok.injEq] at h
    obtain ⟨i, hi, xs, hxs, rfl⟩ := h
    obtain ⟨h1, h2⟩ := newValues_ok hxs
    have hx := extends_addMetric (u := dst.unit) (id := dst.id) h1
    refine ⟨hx, i, _, prefix_get hx.ids (idxOf_ok hi), hasMetric_addMetric hc _ _ _, fun e he => ?_⟩
    obtain ⟨m, hme⟩ := hget e he
    obtain ⟨y, hy, hye⟩ := h2 e m hme
    simp only [Res.bind_eq_ok] at hy
    obtain ⟨x, hxm, hy⟩ := hy
    refine ⟨x, y, hx.value ?_, value_addMetric hc hme hye, tryConvert_sameValue (by rw [← C41_same]; exact ofUnit_ok hy)⟩
    unfold value
    rw [hme]
    exact Res.ofIdx_eq_ok.mp hxm
  | convert _ _ => exact absurd trivial hr
  | «calc» r a b =>
    simp only [edgeStep, Res.bind_eq_ok, Res.pure_eq, Res.ok.injEq] at h
    obtain ⟨i, hi, j, hj, xs, hxs, rfl⟩ := h
    obtain ⟨h1, h2⟩ := newValues_ok hxs
    have hx := extends_addMetric (u := r.unit) (id := r.id) h1
    refine ⟨hx, i, j, _, prefix_get hx.ids (idxOf_ok hi), prefix_get hx.ids (idxOf_ok hj),
      hasMetric_addMetric hc _ _ _, fun e he => ?_⟩
    obtain ⟨m, hme⟩ := hget e he
    obtain ⟨z, hz, hze⟩ := h2 e m hme
    simp only [Res.bind_eq_ok] at hz
    obtain ⟨x, hxm, y, hym, hz⟩ := hz
    refine ⟨x, y, z, hx.value ?_, hx.value ?_, value_addMetric hc hme hze, C41_calc_physical _ _ _ _ _ _ (ofUnit_ok hz)⟩
    · unfold value
      rw [hme]
      exact Res.ofIdx_eq_ok.mp hxm
    · unfold value
      rw [hme]
      exact Res.ofIdx_eq_ok.mp hym
  | merge _ _ _ _ => exact absurd trivial hr

/-- Every step without replacing keeps the configuration consistent, even if ids are repeated. -/
theorem step_consistent {env : Env} {s s' : Net} {c : GenCat} (h : edgeStep env s c = .ok s')
    (hr : ¬ replaces c) (hc : Consistent s) : Consistent s' := by
  cases c with
  | info i id =>
    cases i <;> simp only [edgeStep, Res.ok.injEq, reduceCtorEq] at h
    all_goals subst h
    · exact consistent_addInfo (s := { s with graph := { s.graph with
        edgeIds := (List.range s.graph.edgeCount).map some
        idMap := (List.range s.graph.edgeCount).map fun i => (i, i) } })
        ⟨hc.metrics, hc.len, hc.dim, hc.values⟩ _ _
    all_goals exact consistent_addInfo hc _ _
  | custom u id d =>
    simp only [edgeStep, Res.bind_eq_ok, Res.pure_eq, Res.ok.injEq] at h
    obtain ⟨xs, hxs, rfl⟩ := h
    exact consistent_addMetric hc _ _ _
  | haversine u id =>
    simp only [edgeStep] at h
    split at h
    · simp only [Res.bind_eq_ok, Res.pure_eq, Res.ok.injEq] at h
      obtain ⟨xs, hxs, rfl⟩ := h
      exact consistent_addMetric hc _ _ _
    · exact absurd h (by simp)
  | copy src dst =>
    simp only [edgeStep, Res.bind_eq_ok, Res.pure_eq, Res.ok.injEq] at h
    obtain ⟨i, -, xs, hxs, rfl⟩ := h
    exact consistent_addMetric hc _ _ _
  | convert _ _ => exact absurd trivial hr
  | «calc» r a b =>
    simp only [edgeStep, Res.bind_eq_ok, Res.pure_eq, Res.ok.injEq] at h
    obtain ⟨i, -, j, -, xs, hxs, rfl⟩ := h
    exact consistent_addMetric hc _ _ _
  | merge _ _ _ _ => exact absurd trivial hr

/-- C55: if nothing is replaced, every generated metric has, in the end and for every edge, the value that
its category demands. -/
theorem C55_generated {env : Env} {gen : Generating} {s s' : Net} (h : generate env (some gen) s = .ok s')
    (hr : ∀ c ∈ gen.edges, ¬ replaces c) (hc : Consistent s) (hw : s.graph.WellFormed) :
    ∀ c ∈ gen.edges, Generated env s' c := by
  obtain ⟨u, hu1, hu2, -, h⟩ := generate_ok h
  have hc : Consistent u := ⟨by rw [hu2]; exact hc.metrics, by rw [hu2]; exact hc.len,
    by rw [hu1, hu2]; exact hc.dim, by rw [hu1, hu2]; exact hc.values⟩
  have hw : u.graph.WellFormed := by rw [hu1]; exact hw
  generalize gen.edges = l at h hr
  suffices hs : Extends u s' ∧ ∀ c ∈ l, Generated env s' c from hs.2
  clear hu1 hu2
  induction l generalizing u with
  | nil =>
    simp only [List.foldlM_nil, Res.pure_eq, Res.ok.injEq] at h
    subst h
    exact ⟨.refl _, by simp⟩
  | cons c l ih =>
    obtain ⟨t, ht, h⟩ := foldlM_cons_ok.mp h
    have hrc := hr c (by simp)
    obtain ⟨h1, h2⟩ := step_generated ht hrc hc hw.metrics_len
    have hwt : t.graph.WellFormed := edges_wellFormed (env := env) (l := [c]) (by simp [ht]) hw
    obtain ⟨h3, h4⟩ := ih t (step_consistent ht hrc hc) hwt h fun c hc => hr c (by simp [hc])
    refine ⟨h1.trans h3, fun d hd => ?_⟩
    rcases List.mem_cons.mp hd with rfl | hd
    · exact h2.extend h3
    · exact h4 d hd

/-- C55: if nothing is replaced, the existing metrics keep their index, id, unit and values. -/
theorem C55_kept {env : Env} {gen : Generating} {s s' : Net} (h : generate env (some gen) s = .ok s')
    (hr : ∀ c ∈ gen.edges, ¬ replaces c) (hc : Consistent s) (hw : s.graph.WellFormed) {k : Nat}
    {unit : Cfg.Unit} {id : Text} (hm : HasMetric s k unit id) :
    HasMetric s' k unit id ∧ ∀ e x, value s.graph.metrics e k = some x → value s'.graph.metrics e k = some x := by
  obtain ⟨u, hu1, hu2, -, h⟩ := generate_ok h
  have hc : Consistent u := ⟨by rw [hu2]; exact hc.metrics, by rw [hu2]; exact hc.len,
    by rw [hu1, hu2]; exact hc.dim, by rw [hu1, hu2]; exact hc.values⟩
  have hw : u.graph.WellFormed := by rw [hu1]; exact hw
  have hm : HasMetric u k unit id := by unfold HasMetric; rw [hu2]; exact hm
  have hs : Extends u s' ∧ Consistent s' ∧ s'.graph.WellFormed :=
    foldlM_ind h (fun t => Extends u t ∧ Consistent t ∧ t.graph.WellFormed) ⟨.refl _, hc, hw⟩
      fun c hcm t t' ⟨h1, h2, h3⟩ ht => ⟨h1.trans (step_generated ht (hr c hcm) h2 h3.metrics_len).1,
        step_consistent ht (hr c hcm) h2, edges_wellFormed (env := env) (l := [c]) (by simp [ht]) h3⟩
  exact ⟨⟨prefix_get hs.1.ids hm.1, prefix_get hs.1.units hm.2⟩, fun e x hx =>
    hs.1.value (by rw [hu1]; exact hx)⟩

/-- C55: converting replaces the metric's values, id and unit, and nothing else. -/
theorem C55_converted {env : Env} {s s' : Net} {src dst : GenMetric}
    (h : edgeStep env s (.convert src dst) = .ok s') :
    ∃ k, s.edges.ids[k]? = some src.id ∧ HasMetric s' k dst.unit dst.id ∧
      (∀ j, j ≠ k → s'.edges.ids[j]? = s.edges.ids[j]? ∧ s'.edges.units[j]? = s.edges.units[j]? ∧
        ∀ e, e < s.graph.metrics.length → value s'.graph.metrics e j = value s.graph.metrics e j) ∧
      ∀ e, e < s.graph.metrics.length → ∃ x y, value s.graph.metrics e k = some x ∧
        value s'.graph.metrics e k = some y ∧ src.unit.SameValue dst.unit x y := by
  simp only [edgeStep, Res.bind_eq_ok] at h
  obtain ⟨k, hk, xs, hxs, h⟩ := h
  split at h
  swap
  · exact absurd h (by simp)
  rename_i hlt
  simp only [Res.pure_eq, Res.ok.injEq] at h
  subst h
  obtain ⟨h1, h2⟩ := newValues_ok hxs
  refine ⟨k, idxOf_ok hk, ⟨by simp [hlt.2], by simp [hlt.1]⟩, fun j hj => ⟨?_, ?_, fun e he => ?_⟩, fun e he => ?_⟩
  · simp [List.getElem?_set_ne (Ne.symm hj)]
  · simp [List.getElem?_set_ne (Ne.symm hj)]
  · have hme := List.getElem?_eq_getElem he
    obtain ⟨y, -, hye⟩ := h2 e _ hme
    unfold value
    dsimp only
    rw [setAll_get hme hye, hme]
    simp [List.getElem?_set_ne (Ne.symm hj)]
  · have hme := List.getElem?_eq_getElem he
    obtain ⟨y, hy, hye⟩ := h2 e _ hme
    simp only [Res.bind_eq_ok] at hy
    obtain ⟨x, hx, hy⟩ := hy
    have hx := Res.ofIdx_eq_ok.mp hx
    refine ⟨x, y, ?_, ?_, tryConvert_sameValue (by rw [← C41_same]; exact ofUnit_ok hy)⟩
    · unfold value
      rw [hme]
      exact hx
    · unfold value
      dsimp only
      rw [setAll_get hme hye, Option.bind_some, List.getElem?_set_self (lt_of_some hx)]

/-- In the sample all metrics are as demanded. -/
example : ∃ s', generate exEnv (some exGen) exNet = .ok s' ∧
    Generated exEnv s' (.calc ⟨.minutes, "t".toList⟩ ⟨.kilometers, "km".toList⟩ ⟨.kmh, "speed".toList⟩) ∧
    HasMetric s' 0 .kilometers "km".toList :=
  ⟨_, ex_generate, C55_generated ex_generate (by simp [exGen, replaces]) exNet_consistent exNet_wellFormed _
    (by simp [exGen]),
    (C55_kept ex_generate (by simp [exGen, replaces]) exNet_consistent exNet_wellFormed
      (unit := .kilometers) (id := "km".toList) (by unfold HasMetric; decide +kernel)).1⟩

example : ∃ s', edgeStep exEnv exNet (.convert ⟨.kilometers, "km".toList⟩ ⟨.meters, "m".toList⟩) = .ok s' ∧
    s'.edges.cats = [.info .edgeId "id".toList, .ignored, .metric .meters "m".toList] ∧
    s'.graph.metrics = [[4000], [1 / 1000], [3000], [2000]] :=
  ⟨okNet (edgeStep exEnv exNet (.convert ⟨.kilometers, "km".toList⟩ ⟨.meters, "m".toList⟩)), by decide +kernel⟩

/-! ## C56: units -/

/-- C56 for a copy: if the unit named by the category is the metric's unit, the copy is physically the same
(or a plain number). What is missing: the units are not compared, see `C56_false_unit`. -/
theorem C56_copy_partial {env : Env} {s s' : Net} {src dst : GenMetric}
    (h : edgeStep env s (.copy src dst) = .ok s') (hc : Consistent s)
    (hm : s.graph.metrics.length = s.graph.edgeCount) {unit : Cfg.Unit}
    (hunit : ∀ i : Nat, s.edges.ids[i]? = some src.id → s.edges.units[i]? = some unit) (hsrc : src.unit = unit) :
    ∃ i k, HasMetric s' i unit src.id ∧ HasMetric s' k dst.unit dst.id ∧
      ∀ e < s'.graph.edgeCount, ∃ x y, value s'.graph.metrics e i = some x ∧ value s'.graph.metrics e k = some y ∧
        (y * dst.unit.size = x * unit.size ∨ ((unit = .f64 ∨ dst.unit = .f64) ∧ y = x)) := by
  have h0 := h
  simp only [edgeStep, Res.bind_eq_ok, Res.pure_eq, Res.ok.injEq] at h0
  obtain ⟨i, hi, xs, hxs, rfl⟩ := h0
  have hid := idxOf_ok hi
  have hx := extends_addMetric (u := dst.unit) (id := dst.id) (newValues_ok hxs).1
  refine ⟨i, _, ⟨prefix_get hx.ids hid, prefix_get hx.units (hunit i hid)⟩, hasMetric_addMetric hc _ _ _,
    fun e he => ?_⟩
  have hme := List.getElem?_eq_getElem (l := s.graph.metrics) (i := e)
    (by rw [hm, ← sameTopology_count hx.topo]; exact he)
  obtain ⟨y, hy, hye⟩ := (newValues_ok hxs).2 e _ hme
  simp only [Res.bind_eq_ok] at hy
  obtain ⟨x, hxm, hy⟩ := hy
  refine ⟨x, y, hx.value ?_, value_addMetric hc hme hye, ?_⟩
  · unfold value
    rw [hme]
    exact Res.ofIdx_eq_ok.mp hxm
  · have hcv := ofUnit_ok hy
    rw [C41_same, hsrc] at hcv
    by_cases hq : unit.quantity = dst.unit.quantity
    · obtain ⟨y', h1, h2⟩ := C41_physical unit dst.unit x hq
      rw [hcv, Except.ok.injEq] at h1
      subst h1
      exact .inl h2
    · rw [C41_incompatible unit dst.unit x hq] at hcv
      by_cases hf : unit = .f64 ∨ dst.unit = .f64
      · rw [if_pos hf, Except.ok.injEq] at hcv
        exact .inr ⟨hf, hcv.symm⟩
      · rw [if_neg hf] at hcv
        exact absurd hcv (by simp)

/-- C56 fails: the sample's metric is in kilometers, but a category calling it seconds is accepted, and
4 km become 4/60 min. -/
theorem C56_false_unit : HasMetric exNet 0 .kilometers "km".toList ∧
    ∃ s', finish exEnv (some ⟨[], [.copy ⟨.seconds, "km".toList⟩ ⟨.minutes, "t".toList⟩]⟩) exNet = .ok s' ∧
      HasMetric s' 1 .minutes "t".toList ∧ value s'.graph.metrics 0 0 = some 4 ∧
      value s'.graph.metrics 0 1 = some (4 / 60) := by
  unfold HasMetric
  exact ⟨by decide +kernel, okNet (finish exEnv (some ⟨[], [.copy ⟨.seconds, "km".toList⟩ ⟨.minutes, "t".toList⟩]⟩)
    exNet), by decide +kernel⟩

example : ∃ s', edgeStep exEnv exNet (.copy ⟨.kilometers, "km".toList⟩ ⟨.meters, "m".toList⟩) = .ok s' ∧
    ∀ i : Nat, exNet.edges.ids[i]? = some "km".toList → exNet.edges.units[i]? = some .kilometers :=
  ⟨okNet (edgeStep exEnv exNet (.copy ⟨.kilometers, "km".toList⟩ ⟨.meters, "m".toList⟩)), by decide +kernel,
    fun i hi => by
      match i with
      | 0 => decide +kernel
      | n + 1 => exact absurd hi (by simp [exNet])⟩

/-! ## C27: normalizing -/

/-- C27: without edges or with a vanishing mean, normalizing fails; otherwise it succeeds. It never panics. -/
theorem C27_succeeds_iff {s : Net} (hn : s.edges.normalized = true) (hc : Consistent s)
    (hw : s.graph.WellFormed) :
    ((∃ s', normalize s = .ok s') ↔ s.graph.metrics ≠ [] ∧
      ∀ k < s.edges.units.length, 3 / 2000000 ≤ |mean s.graph.metrics k|) ∧ normalize s ≠ .panic := by
  have key : ∀ k, Approx.eq (mean s.graph.metrics k) 0 = true ↔ |mean s.graph.metrics k| < 3 / 2000000 := by
    intro k
    rw [Approx.C24_eq_iff, sub_zero]
  rcases normalize_cases hn hc hw.metrics_len with ⟨h1, h2⟩ | ⟨h1, ⟨k, hk, h2⟩, h3⟩ | ⟨h1, h2, ms, -, h3⟩
  · rw [h2]
    exact ⟨⟨fun ⟨_, h⟩ => absurd h (by simp), fun h => absurd h1 h.1⟩, by simp⟩
  · rw [h3]
    exact ⟨⟨fun ⟨_, h⟩ => absurd h (by simp), fun h => absurd ((key k).mp h2) (not_lt.mpr (h.2 k hk))⟩, by simp⟩
  · rw [h3]
    refine ⟨⟨fun _ => ⟨h1, fun k hk => ?_⟩, fun _ => ⟨_, rfl⟩⟩, by simp⟩
    by_contra hlt
    have := (key k).mpr (not_le.mp hlt)
    rw [h2 k hk] at this
    exact absurd this (by simp)

/-- C27: the remembered means are the means of the original metrics. -/
theorem C27_means {s s' : Net} (h : normalize s = .ok s') (hn : s.edges.normalized = true) (hc : Consistent s)
    (hw : s.graph.WellFormed) :
    ∃ means, s'.graph.means = some means ∧ means.length = s.edges.units.length ∧
      ∀ k < s.edges.units.length, means[k]? = some (mean s.graph.metrics k) := by
  rcases normalize_cases hn hc hw.metrics_len with ⟨h1, h2⟩ | ⟨h1, ⟨k, hk, h2⟩, h3⟩ | ⟨h1, h2, ms, -, h3⟩
  · rw [h2] at h; exact absurd h (by simp)
  · rw [h3] at h; exact absurd h (by simp)
  · rw [h3, Res.ok.injEq] at h
    subst h
    exact ⟨_, rfl, meansOf_get hc.values⟩

/-- C27: every value is divided by the mean of its metric; near-zero results are lifted. Multiplying with
the remembered mean restores the original value unless it has been lifted. -/
theorem C27_values {s s' : Net} (h : normalize s = .ok s') (hn : s.edges.normalized = true) (hc : Consistent s)
    (hw : s.graph.WellFormed) {e k : Nat} {x : ℚ} (hx : value s.graph.metrics e k = some x) :
    ∃ y, value s'.graph.metrics e k = some y ∧
      (if |x / mean s.graph.metrics k| < 3 / 2000000 then y = 1 / 1000000
        else y = x / mean s.graph.metrics k ∧ y * mean s.graph.metrics k = x) := by
  rcases normalize_cases hn hc hw.metrics_len with ⟨h1, h2⟩ | ⟨h1, ⟨k, hk, h2⟩, h3⟩ | ⟨h1, h2, ms, hms, h3⟩
  · rw [h2] at h; exact absurd h (by simp)
  · rw [h3] at h; exact absurd h (by simp)
  rw [h3, Res.ok.injEq] at h
  subst h
  dsimp only
  unfold value at hx ⊢
  rw [Option.bind_eq_some_iff] at hx
  obtain ⟨m, hm, hx⟩ := hx
  obtain ⟨m', hm', hd⟩ := (divideAll_ok hms).2 e m hm
  obtain ⟨μ, hμ, hy⟩ := (divide_ok hd).2 k x hx
  have hk : k < s.edges.units.length := by
    rw [← hc.values m (List.mem_of_getElem? hm)]
    exact lt_of_some hx
  rw [Nat.zero_add, (meansOf_get hc.values).2 k hk, Option.some.injEq] at hμ
  subst hμ
  refine ⟨_, by rw [hm']; exact hy, ?_⟩
  unfold normalized
  have hiff := Approx.C24_eq_iff (x / mean s.graph.metrics k) 0
  rw [sub_zero] at hiff
  split
  · rename_i hlt
    rw [if_pos (hiff.mpr hlt)]
    rfl
  · rename_i hlt
    rw [if_neg fun hh => hlt (hiff.mp hh)]
    refine ⟨rfl, div_mul_cancel₀ x ?_⟩
    intro h0
    rw [h0, div_zero, abs_zero] at hlt
    exact hlt (by norm_num)

/-- C27: before lifting, the mean of each normalized metric is one. -/
theorem C27_mean_one {s s' : Net} (h : normalize s = .ok s') (hn : s.edges.normalized = true) (hc : Consistent s)
    (hw : s.graph.WellFormed) {k : Nat} (hk : k < s.edges.units.length) :
    (s.graph.metrics.map fun m => m.getD k 0 / mean s.graph.metrics k).sum / s.graph.metrics.length = 1 := by
  have := ((C27_succeeds_iff hn hc hw).1.mp ⟨s', h⟩).2 k hk
  have hne : mean s.graph.metrics k ≠ 0 := by
    intro h0
    rw [h0, abs_zero] at this
    exact absurd this (by norm_num)
  have hsum : (s.graph.metrics.map fun m => m.getD k 0 / mean s.graph.metrics k).sum =
      (s.graph.metrics.map fun m => m.getD k 0).sum / mean s.graph.metrics k := by
    generalize mean s.graph.metrics k = μ
    generalize s.graph.metrics = ms
    clear * -
    induction ms with
    | nil => simp
    | cons m ms ih => simp only [List.map_cons, List.sum_cons, ih, add_div]
  rw [hsum, div_right_comm]
  exact div_self hne

/-- C27: without normalization nothing happens. -/
theorem C27_off {s : Net} (hn : s.edges.normalized = false) : normalize s = .ok s := by
  unfold normalize
  rw [if_neg (by simp [hn])]

/-- The sample with normalization. -/
def exNorm : Net := { exNet with edges := { exNet.edges with normalized := true } }

theorem exNorm_consistent : Consistent exNorm :=
  ⟨exNet_consistent.metrics, exNet_consistent.len, exNet_consistent.dim, exNet_consistent.values⟩

/-- The mean is about 2.25; the near-zero metric is lifted. -/
example : ∃ s', normalize exNorm = .ok s' ∧ s'.graph.means = some [9000001 / 4000000] ∧
    value s'.graph.metrics 3 0 = some (8000000 / 9000001) ∧ value s'.graph.metrics 1 0 = some (1 / 1000000) ∧
    (exNorm.graph.metrics.map fun m => m.getD 0 0 / mean exNorm.graph.metrics 0).sum / 4 = 1 := by
  have h : normalize exNorm = .ok (okNet (normalize exNorm)) := by decide +kernel
  exact ⟨_, h, by decide +kernel, by decide +kernel, by decide +kernel,
    C27_mean_one h rfl exNorm_consistent exNet_wellFormed (by decide +kernel)⟩

/-- A vanishing mean is an error. -/
example : finish exEnv (some ⟨[], [.custom .f64 "x".toList 0]⟩) exNorm = .err .zeroMean := by decide +kernel

/-! ## C08: metrics after generating and normalizing -/

/-- C08 for normalized metrics: if the metrics to normalize are not negative, the results aren't below the
accuracy. What is missing: without normalization see `C08_false_custom`. -/
theorem C08_normalized_partial {t s' : Net} (h : normalize t = .ok s') (hn : t.edges.normalized = true)
    (hc : Consistent t) (hw : t.graph.WellFormed)
    (h0 : ∀ e k x, value t.graph.metrics e k = some x → 0 ≤ x) :
    ∀ e k y, value s'.graph.metrics e k = some y → 1 / 1000000 ≤ y := by
  intro e k y hy
  have hlen : ∀ m ∈ t.graph.metrics, m.length = t.edges.units.length := hc.values
  -- the value before
  have hx : ∃ x, value t.graph.metrics e k = some x := by
    obtain ⟨-, -, -, h4, -, -, -, h5⟩ := normalize_keeps h
    unfold value at hy ⊢
    rw [Option.bind_eq_some_iff] at hy
    obtain ⟨m', hm', hy⟩ := hy
    have he : e < t.graph.metrics.length := h4 ▸ lt_of_some hm'
    obtain ⟨m, hm, hl⟩ := h5 m' (List.mem_of_getElem? hm')
    have hk : k < (t.graph.metrics[e]).length := by
      rw [hlen _ (List.getElem_mem he), ← hlen m hm, ← hl]
      exact lt_of_some hy
    exact ⟨(t.graph.metrics[e])[k], by
      rw [List.getElem?_eq_getElem he, Option.bind_some, List.getElem?_eq_getElem hk]⟩
  obtain ⟨x, hx⟩ := hx
  obtain ⟨y', hy', hif⟩ := C27_values h hn hc hw hx
  rw [hy, Option.some.injEq] at hy'
  subst hy'
  split at hif
  · rw [hif]
  · rename_i hlt
    rw [not_lt] at hlt
    obtain ⟨rfl, -⟩ := hif
    have hmean : 0 ≤ mean t.graph.metrics k := by
      unfold mean
      refine div_nonneg (List.sum_nonneg ?_) (Nat.cast_nonneg _)
      intro v hv
      obtain ⟨m, hm, rfl⟩ := List.mem_map.mp hv
      obtain ⟨i, hi⟩ := List.getElem?_of_mem hm
      cases hmk : m[k]? with
      | none => simp [List.getD_eq_getElem?_getD, hmk]
      | some v =>
        have := h0 i k v (by unfold value; rw [hi]; exact hmk)
        simpa [List.getD_eq_getElem?_getD, hmk] using this
    have hnn : 0 ≤ x / mean t.graph.metrics k := div_nonneg (h0 e k x hx) hmean
    rw [abs_of_nonneg hnn] at hlt
    linarith

/-- Categories whose values can't be below the accuracy if the existing ones aren't. -/
def Safe (env : Env) (g : Graph) : GenCat → Prop
  | .info _ _ => True
  | .custom _ _ default => 1 / 1000000 ≤ default
  | .haversine _ _ => ∀ e a b x y, g.IsEdge e a b → g.nodeCoord a = .ok x → g.nodeCoord b = .ok y →
      1 / 1000000 ≤ env.haversine x y
  | .copy src dst | .convert src dst =>
      src.unit.quantity = dst.unit.quantity → dst.unit.size ≤ src.unit.size
  | .calc _ _ _ => False
  | .merge file _ _ _ => ∀ lines, file = some lines → ∀ line ∈ lines, ∀ p ∈ words line, ∀ x,
      env.parseF p = some x → 1 / 1000000 ≤ x

theorem convert_ge {a b : Cfg.Unit} (h : a.quantity = b.quantity → b.size ≤ a.size) {x y : ℚ}
    (hx : 1 / 1000000 ≤ x) (hc : a.tryConvert b x = .ok y) : 1 / 1000000 ≤ y := by
  by_cases hq : a.quantity = b.quantity
  · obtain ⟨y', h1, h2⟩ := C41_physical a b x hq
    rw [hc, Except.ok.injEq] at h1
    subst h1
    have hpos : 0 < b.size := by cases b <;> norm_num [Cfg.Unit.size]
    have h3 := h hq
    have : x ≤ y := by
      by_contra hlt
      rw [not_le] at hlt
      have h4 : y * b.size < x * b.size := mul_lt_mul_of_pos_right hlt hpos
      have h5 : x * b.size ≤ x * a.size := mul_le_mul_of_nonneg_left h3 (by linarith)
      linarith
    linarith
  · rw [C41_incompatible a b x hq] at hc
    split at hc
    · rw [Except.ok.injEq] at hc
      rw [← hc]
      exact hx
    · exact absurd hc (by simp)

theorem mergeCols_mem {env : Env} {e : Edges} {edgeId : Text} {params : List Text} {i : Nat}
    {cols : List (Option Text)} {m m' : List ℚ} (h : mergeCols env e edgeId params i cols m = .ok m')
    {x : ℚ} (hx : x ∈ m') : x ∈ m ∨ ∃ p ∈ params, env.parseF p = some x := by
  induction cols generalizing i m with
  | nil =>
    simp only [mergeCols, Res.ok.injEq] at h
    subst h
    exact .inl hx
  | cons c cols ih =>
    cases c with
    | none => exact ih h
    | some id =>
      simp only [mergeCols] at h
      split at h
      · exact ih h
      · simp only [Res.bind_eq_ok] at h
        obtain ⟨k, -, p, hp, h⟩ := h
        split at h
        · exact absurd h (by simp)
        · rename_i v hv
          split at h
          · rcases ih h with h' | h'
            · rcases List.mem_or_eq_of_mem_set h' with h' | rfl
              · exact .inl h'
              · exact .inr ⟨p, List.mem_of_getElem? (Res.ofIdx_eq_ok.mp hp), hv⟩
            · exact .inr h'
          · exact absurd h (by simp)

theorem step_safe {env : Env} {s s' : Net} {c : GenCat} (h : edgeStep env s c = .ok s')
    (hs : Safe env s.graph c) (h0 : ∀ m ∈ s.graph.metrics, ∀ x ∈ m, 1 / 1000000 ≤ x) :
    ∀ m ∈ s'.graph.metrics, ∀ x ∈ m, 1 / 1000000 ≤ x := by
  have push : ∀ {u : Cfg.Unit} {id : Text} {xs : List ℚ}, (∀ x ∈ xs, 1 / 1000000 ≤ x) →
      ∀ m ∈ (addMetric s u id xs).graph.metrics, ∀ x ∈ m, 1 / 1000000 ≤ x := by
    intro u id xs hxs m hm x hx
    obtain ⟨m', hm', y, hy, rfl⟩ := mem_pushAll hm
    rcases List.mem_append.mp hx with hx | hx
    · exact h0 m' hm' x hx
    · rw [List.mem_singleton.mp hx]
      exact hxs y hy
  have new : ∀ {f : Nat → List ℚ → R ℚ} {xs : List ℚ}, newValues f 0 s.graph.metrics = .ok xs →
      (∀ e, ∀ m ∈ s.graph.metrics, ∀ x, f e m = .ok x → 1 / 1000000 ≤ x) → ∀ x ∈ xs, 1 / 1000000 ≤ x := by
    intro f xs hxs hf x hx
    obtain ⟨h1, h2⟩ := newValues_ok hxs
    obtain ⟨e, he, rfl⟩ := List.mem_iff_getElem.mp hx
    have he' : e < s.graph.metrics.length := h1 ▸ he
    obtain ⟨y, hy, hye⟩ := h2 e _ (List.getElem?_eq_getElem he')
    rw [List.getElem?_eq_getElem he, Option.some.injEq] at hye
    subst hye
    exact hf _ _ (List.getElem_mem he') _ hy
  have conv : ∀ {src dst : GenMetric} {i : Nat} {xs : List ℚ},
      (src.unit.quantity = dst.unit.quantity → dst.unit.size ≤ src.unit.size) →
      newValues (fun _ m => do
        let x ← .ofIdx m[i]?
        ofUnit (src.unit.genConvert dst.unit x)) 0 s.graph.metrics = .ok xs → ∀ x ∈ xs, 1 / 1000000 ≤ x := by
    intro src dst i xs hsz hxs
    refine new hxs fun e m hm y hy => ?_
    simp only [Res.bind_eq_ok] at hy
    obtain ⟨x, hx, hy⟩ := hy
    have := ofUnit_ok hy
    rw [C41_same] at this
    exact convert_ge hsz (h0 m hm x (List.mem_of_getElem? (Res.ofIdx_eq_ok.mp hx))) this
  cases c with
  | info i id =>
    cases i <;> simp only [edgeStep, Res.ok.injEq, reduceCtorEq] at h
    all_goals subst h
    all_goals exact h0
  | custom u id d =>
    simp only [edgeStep, Res.bind_eq_ok, Res.pure_eq, Res.ok.injEq] at h
    obtain ⟨xs, hxs, rfl⟩ := h
    refine push (new hxs fun e m hm x hx => ?_)
    simp only [Res.ok.injEq] at hx
    rw [← hx]
    exact hs
  | haversine u id =>
    simp only [edgeStep] at h
    split at h
    swap
    · exact absurd h (by simp)
    simp only [Res.bind_eq_ok, Res.pure_eq, Res.ok.injEq] at h
    obtain ⟨xs, hxs, rfl⟩ := h
    refine push (new hxs fun e m hm x hx => ?_)
    unfold distance at hx
    split at hx
    · rename_i p q hp hq
      simp only [Res.bind_eq_ok] at hp hq
      obtain ⟨a, ha, hp⟩ := hp
      obtain ⟨b, hb, hq⟩ := hq
      have := ofUnit_ok hx
      simp only [Cfg.Unit.genConvert, Except.ok.injEq] at this
      rw [← this]
      exact hs e a b p q ⟨hb, ha⟩ hp hq
    · exact absurd hx (by simp)
  | copy src dst =>
    simp only [edgeStep, Res.bind_eq_ok, Res.pure_eq, Res.ok.injEq] at h
    obtain ⟨i, hi, xs, hxs, rfl⟩ := h
    exact push (conv hs hxs)
  | convert src dst =>
    simp only [edgeStep, Res.bind_eq_ok] at h
    obtain ⟨i, hi, xs, hxs, h⟩ := h
    split at h
    · simp only [Res.pure_eq, Res.ok.injEq] at h
      subst h
      intro m hm x hx
      obtain ⟨m', hm', y, hy, rfl⟩ := mem_setAll hm
      rcases List.mem_or_eq_of_mem_set hx with hx | rfl
      · exact h0 m' hm' x hx
      · exact conv hs hxs _ hy
    · exact absurd h (by simp)
  | «calc» r a b => exact absurd hs (by simp [Safe])
  | merge file hd edgeId cols =>
    simp only [edgeStep, Res.bind_eq_ok, Res.pure_eq, Res.ok.injEq] at h
    obtain ⟨used, hused, ms, hms, rfl⟩ := h
    cases file with
    | none => exact absurd hused (by simp [readLines])
    | some lines =>
      rw [readLines_eq, Res.ok.injEq] at hused
      subst hused
      have hmem : ∀ l ∈ dataLines lines hd, l ∈ lines := fun l hl =>
        List.mem_of_mem_filter (List.mem_of_mem_drop hl)
      refine foldlM_ind hms (fun ms => ∀ m ∈ ms, ∀ x ∈ m, 1 / 1000000 ≤ x) h0 fun line hl a b ha hb => ?_
      obtain ⟨e, m, m', -, hm, hc, rfl⟩ := mergeLine_ok hb
      intro n hn x hx
      rcases List.mem_or_eq_of_mem_set hn with hn | rfl
      · exact ha n hn x hx
      · rcases mergeCols_mem hc hx with hx | ⟨p, hp, hv⟩
        · exact ha m (List.mem_of_getElem? hm) x hx
        · exact hs lines rfl line (hmem line hl) p hp x hv

theorem safe_of_sameTopology {env : Env} {g g' : Graph} (h : SameTopology g g') {c : GenCat}
    (hs : Safe env g c) : Safe env g' c := by
  cases c with
  | haversine u id =>
    intro e a b x y h1 h2 h3
    exact hs e a b x y ((sameTopology_isEdge h e a b).mp h1) ((sameTopology_coord h a).symm.trans h2)
      ((sameTopology_coord h b).symm.trans h3)
  | _ => exact hs

/-- C08 without normalization, for categories that can't create small values. What is missing: calculated
metrics, and all categories of `C08_false_custom`, `C08_false_convert` and `C08_false_haversine`. -/
theorem C08_safe_partial {env : Env} {gen : Generating} {s s' : Net} (h : generate env (some gen) s = .ok s')
    (hs : ∀ c ∈ gen.edges, Safe env s.graph c)
    (h0 : ∀ m ∈ s.graph.metrics, ∀ x ∈ m, 1 / 1000000 ≤ x) :
    ∀ m ∈ s'.graph.metrics, ∀ x ∈ m, 1 / 1000000 ≤ x := by
  obtain ⟨u, hu1, hu2, -, h⟩ := generate_ok h
  rw [← hu1] at hs h0
  exact (foldlM_ind h (fun t => SameTopology u.graph t.graph ∧ ∀ m ∈ t.graph.metrics, ∀ x ∈ m, 1 / 1000000 ≤ x)
    ⟨.refl _, h0⟩ fun c hc t t' ⟨h1, h2⟩ ht =>
      ⟨h1.trans (keeps_edgeStep ht).topo, step_safe ht (safe_of_sameTopology h1 (hs c hc)) h2⟩).2

/-- C08 fails: a custom metric may be zero. -/
theorem C08_false_custom : Build.build 1 Build.exEdges Build.exNodes = .ok exNet.graph ∧
    ∃ s', finish exEnv (some ⟨[], [.custom .f64 "x".toList 0]⟩) exNet = .ok s' ∧
      value s'.graph.metrics 0 1 = some 0 :=
  ⟨Build.ex_build, okNet (finish exEnv (some ⟨[], [.custom .f64 "x".toList 0]⟩) exNet), by decide +kernel⟩

/-- C08 fails: converting to a larger unit may create values below the accuracy, also if all parsed values
are at least the accuracy. -/
theorem C08_false_convert : Build.build 1 Build.exEdges Build.exNodes = .ok exNet.graph ∧
    ∃ s', finish exEnv (some ⟨[], [.convert ⟨.meters, "km".toList⟩ ⟨.kilometers, "x".toList⟩]⟩) exNet = .ok s' ∧
      value s'.graph.metrics 1 0 = some (1 / 1000000000) :=
  ⟨Build.ex_build, okNet (finish exEnv (some ⟨[], [.convert ⟨.meters, "km".toList⟩ ⟨.kilometers, "x".toList⟩]⟩) exNet),
    by decide +kernel⟩

def loopNet : Net := { exNet with graph :=
  { nodeIds := [10], nodeCoords := [⟨0, 0⟩], nodeLevels := [0],
    fwdDsts := [0], fwdOffsets := [0, 1], fwdMap := [0], bwdDsts := [0], bwdOffsets := [0, 1], bwdMap := [0],
    metrics := [[1]], means := none, edgeIds := [none], idMap := [], scOffsets := [0, 0], scEdges := [], dim := 1 } }

/-- C08 fails: the distance of an edge whose ends are at the same position is zero, whatever formula is used
for distances, as long as a position has no distance to itself. -/
theorem C08_false_haversine (env : Env) (henv : ∀ x, env.haversine x x = 0) :
    Build.build 1 [⟨none, 10, 10, [1], none⟩] [⟨10, ⟨0, 0⟩, none⟩] = .ok loopNet.graph ∧
    ∃ s', finish env (some ⟨[], [.haversine .kilometers "x".toList]⟩) loopNet = .ok s' ∧
      value s'.graph.metrics 0 1 = some 0 := by
  refine ⟨by decide +kernel, addMetric loopNet .kilometers "x".toList [0], ?_, by decide +kernel⟩
  have h1 : loopNet.graph.dstIdx .bwd 0 >>= loopNet.graph.nodeCoord = .ok ⟨0, 0⟩ := by decide +kernel
  have h2 : loopNet.graph.dstIdx .fwd 0 >>= loopNet.graph.nodeCoord = .ok ⟨0, 0⟩ := by decide +kernel
  have hd : distance env loopNet.graph 0 = .ok 0 := by
    unfold distance
    rw [h1, h2]
    simp only [henv]
    rfl
  have he : idsExist loopNet.edges [GenCat.haversine .kilometers "x".toList] = false := by decide +kernel
  have hv : newValues (fun e _ => distance env loopNet.graph e) 0 loopNet.graph.metrics = .ok [0] := by
    show newValues (fun e _ => distance env loopNet.graph e) 0 [[1]] = .ok [0]
    simp only [newValues, hd, Res.ok_bind, Res.pure_eq]
  have hstep : edgeStep env loopNet (.haversine .kilometers "x".toList) =
      .ok (addMetric loopNet .kilometers "x".toList [0]) := by
    unfold edgeStep
    dsimp only
    rw [if_pos rfl, hv]
    rfl
  simp only [finish, generate, List.foldlM_nil, Res.pure_eq, Res.ok_bind, he, List.foldlM_cons, hstep]
  rfl

/-- The sample meets the conditions. -/
example : ∃ s', generate exEnv (some ⟨[], [.custom .kmh "speed".toList 50,
      .copy ⟨.kilometers, "km".toList⟩ ⟨.meters, "m".toList⟩, exMerge]⟩) exNet = .ok s' ∧
    ∀ m ∈ s'.graph.metrics, ∀ x ∈ m, 1 / 1000000 ≤ x := by
  have h : generate exEnv (some ⟨[], [.custom .kmh "speed".toList 50,
      .copy ⟨.kilometers, "km".toList⟩ ⟨.meters, "m".toList⟩, exMerge]⟩) exNet =
    .ok (okNet (generate exEnv (some ⟨[], [.custom .kmh "speed".toList 50,
      .copy ⟨.kilometers, "km".toList⟩ ⟨.meters, "m".toList⟩, exMerge]⟩) exNet)) := by decide +kernel
  refine ⟨_, h, C08_safe_partial h ?_ (by decide +kernel)⟩
  intro c hc
  simp only [List.mem_cons, List.not_mem_nil, or_false] at hc
  rcases hc with rfl | rfl | rfl
  · norm_num [Safe]
  · intro _
    norm_num [Cfg.Unit.size]
  · rintro lines hl
    simp only [Option.some.injEq] at hl
    subst hl
    have : ∀ line ∈ exLines, ∀ p ∈ words line, ∀ x ∈ exEnv.parseF p, 1 / 1000000 ≤ x := by decide +kernel
    exact this

example : ∃ s', normalize exNorm = .ok s' ∧ ∀ e k y, value s'.graph.metrics e k = some y → 1 / 1000000 ≤ y := by
  have h : normalize exNorm = .ok (okNet (normalize exNorm)) := by decide +kernel
  refine ⟨_, h, C08_normalized_partial h rfl exNorm_consistent exNet_wellFormed ?_⟩
  intro e k x hx
  unfold value at hx
  rw [Option.bind_eq_some_iff] at hx
  obtain ⟨m, hm, hx⟩ := hx
  have : ∀ m ∈ exNorm.graph.metrics, ∀ x ∈ m, 0 ≤ x := by decide +kernel
  exact this m (List.mem_of_getElem? hm) x (List.mem_of_getElem? hx)

end Verif.Gen
