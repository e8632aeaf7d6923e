import Verif.VisualLemmas2
import Verif.FmiProps
import Verif.FitProps

/-!
# C103: the visualizer's data
-/

namespace Verif.Vis

open Text Cfg
open Gen (Net)
open Fmi

section
variable {c : Codec} {float : Text → Option ℚ} {sc d : Bool} {cols : List (Option Text)} {its : List Iteration}
  {results : Results}

/-- C103, except for the place: in every iteration, the `k`-th street of the visualizer is the one with the `k`-th
smallest id. Its length and its lanes are those of the first iteration's edge. It is shown where this edge begins;
in view of its definition, it should be `InMiddle`. -/
theorem C103_streets_partial (hf : ∀ x, float (c.printF x) = some x ∧ Plain (c.printF x))
    (hw : ∀ it ∈ its, it.net.graph.WellFormed) (hn : ∀ it ∈ its, Named it.net.edges.cats cols)
    (hwr : List.Forall₂ (Wrote c sc d cols) its results) {ids : List Nat} (hids : Ids sc its ids)
    {it0 : Iteration} (h0 : its[0]? = some it0) {i : Nat} (hi : i < its.length) :
    ∃ data, dataAt float results i = some data ∧ data.streets.length = ids.length ∧
      ∀ (k id : Nat), ids[k]? = some id → ∃ e s, HasId it0.net sc e id ∧ data.streets[k]? = some s ∧
        Measured it0.net d e s ∧ AtSource it0.net e s := by
  obtain ⟨data, hd, hload⟩ := data_loaded hf hw hn hwr hids i hi
  refine ⟨data, hd, by rw [← hload.sorted, List.length_map], ?_⟩
  intro k id hk
  rw [← hload.sorted, List.getElem?_map, Option.map_eq_some_iff] at hk
  obtain ⟨s, hk, rfl⟩ := hk
  obtain ⟨e, h1, h2, h3⟩ := hload.streets it0 h0 s (List.mem_of_getElem? hk)
  exact ⟨e, s, h1, hk, h3, h2⟩

/-- C103: the `k`-th workload is the number of routes through the street with the `k`-th smallest id. -/
theorem C103_workloads (hf : ∀ x, float (c.printF x) = some x ∧ Plain (c.printF x))
    (hw : ∀ it ∈ its, it.net.graph.WellFormed) (hn : ∀ it ∈ its, Named it.net.edges.cats cols)
    (hwr : List.Forall₂ (Wrote c sc d cols) its results) {ids : List Nat} (hids : Ids sc its ids)
    {it : Iteration} {i : Nat} (hi : its[i]? = some it) :
    ∃ data, dataAt float results i = some data ∧ data.workloads.length = ids.length ∧
      ∀ (k id e : Nat), ids[k]? = some id → HasId it.net sc e id → data.workloads[k]? = it.routes[e]? := by
  obtain ⟨data, hd, hload⟩ := data_loaded hf hw hn hwr hids i (List.getElem?_eq_some_iff.mp hi).1
  refine ⟨data, hd, (hload.workloads it hi).length, ?_⟩
  intro k id e hk he
  obtain ⟨e', n, h1, h2, h3⟩ := (hload.workloads it hi).get hk
  rw [sameId (hw it (List.mem_of_getElem? hi)) he.2 h1.2, h3, h2]

/-- C103: the `k`-th difference is how many more routes use the street with the `k`-th smallest id than in the iteration
before. -/
theorem C103_deltas (hf : ∀ x, float (c.printF x) = some x ∧ Plain (c.printF x))
    (hw : ∀ it ∈ its, it.net.graph.WellFormed) (hn : ∀ it ∈ its, Named it.net.edges.cats cols)
    (hwr : List.Forall₂ (Wrote c sc d cols) its results) {ids : List Nat} (hids : Ids sc its ids)
    {before it : Iteration} {i : Nat} (hb : its[i]? = some before) (hi : its[i + 1]? = some it) :
    ∃ data, dataAt float results (i + 1) = some data ∧ data.deltas.length = ids.length ∧
      ∀ (k id e e' : Nat), ids[k]? = some id → HasId before.net sc e id → HasId it.net sc e' id →
        ∃ n m, before.routes[e]? = some n ∧ it.routes[e']? = some m ∧ data.deltas[k]? = some ((m : Int) - (n : Int)) := by
  obtain ⟨data, hd, hload⟩ := data_loaded hf hw hn hwr hids (i + 1) (List.getElem?_eq_some_iff.mp hi).1
  have l1 := hload.workloads it hi
  have l2 := hload.old i before rfl hb
  refine ⟨data, hd, by simp [Data.deltas, l1.length, l2.length], ?_⟩
  intro k id e e' hk he he'
  obtain ⟨e1, n1, a1, a2, a3⟩ := l1.get hk
  obtain ⟨e2, n2, b1, b2, b3⟩ := l2.get hk
  rw [sameId (hw it (List.mem_of_getElem? hi)) he'.2 a1.2, sameId (hw before (List.mem_of_getElem? hb)) he.2 b1.2]
  exact ⟨n2, n1, b2, a2, by simp [Data.deltas, List.getElem?_zipWith, a3, b3]⟩

/-- C103: the largest workload is the largest number of routes through a street in an iteration so far. -/
theorem C103_max (hf : ∀ x, float (c.printF x) = some x ∧ Plain (c.printF x))
    (hw : ∀ it ∈ its, it.net.graph.WellFormed) (hn : ∀ it ∈ its, Named it.net.edges.cats cols)
    (hwr : List.Forall₂ (Wrote c sc d cols) its results) {ids : List Nat} (hids : Ids sc its ids) (hne : ids ≠ []) :
    ∀ i, i < its.length → ∃ m, maxUpTo float results i = some m ∧
      (∃ j it e id, j ≤ i ∧ its[j]? = some it ∧ HasId it.net sc e id ∧ it.routes[e]? = some m) ∧
      ∀ j it e id n, j ≤ i → its[j]? = some it → HasId it.net sc e id → it.routes[e]? = some n → n ≤ m := by
  have hstep : ∀ i it, its[i]? = some it → ∃ data m, dataAt float results i = some data ∧
      maximum data.workloads = some m ∧ (∃ e id, HasId it.net sc e id ∧ it.routes[e]? = some m) ∧
      ∀ e id n, HasId it.net sc e id → it.routes[e]? = some n → n ≤ m := by
    intro i it hi
    obtain ⟨data, hd, hload⟩ := data_loaded hf hw hn hwr hids i (List.getElem?_eq_some_iff.mp hi).1
    have hl := hload.workloads it hi
    obtain ⟨m, h1, h2, h3⟩ := maximum_spec (l := data.workloads) (by
      intro h0
      have := hl.length
      rw [h0] at this
      exact hne (List.length_eq_zero_iff.mp this.symm))
    refine ⟨data, m, hd, h1, ?_, ?_⟩
    · obtain ⟨k, hk⟩ := List.getElem?_of_mem h2
      have hkl : k < ids.length := by
        rw [← hl.length]
        exact (List.getElem?_eq_some_iff.mp hk).1
      obtain ⟨e, n, a1, a2, a3⟩ := hl.get (List.getElem?_eq_getElem hkl)
      rw [hk, Option.some.injEq] at a3
      exact ⟨e, _, a1, by rw [a2, a3]⟩
    · intro e id n he hr
      have hid : id ∈ ids := (hids.all it (List.mem_of_getElem? hi) id).mpr ⟨e, he⟩
      obtain ⟨k, hk⟩ := List.getElem?_of_mem hid
      obtain ⟨e', n', a1, a2, a3⟩ := hl.get hk
      rw [sameId (hw it (List.mem_of_getElem? hi)) he.2 a1.2, a2, Option.some.injEq] at hr
      subst hr
      exact h3 _ (List.mem_of_getElem? a3)
  intro i
  induction i with
  | zero =>
    intro hi
    obtain ⟨data, m, h1, h2, ⟨e, id, h3, h4⟩, h5⟩ := hstep 0 its[0] (List.getElem?_eq_getElem hi)
    refine ⟨m, by simp [maxUpTo, h1, h2], ⟨0, _, e, id, le_rfl, List.getElem?_eq_getElem hi, h3, h4⟩, ?_⟩
    intro j it e id n hj hit
    obtain rfl : j = 0 := by omega
    rw [List.getElem?_eq_getElem hi, Option.some.injEq] at hit
    subst hit
    exact h5 e id n
  | succ i ih =>
    intro hi
    obtain ⟨m', g1, ⟨j, it, e', id', g2, g3, g4, g5⟩, g6⟩ := ih (by omega)
    obtain ⟨data, m, h1, h2, ⟨e, id, h3, h4⟩, h5⟩ := hstep (i + 1) its[i + 1] (List.getElem?_eq_getElem hi)
    refine ⟨if m > m' then m else m', by simp [maxUpTo, h1, h2, g1], ?_, ?_⟩
    · split
      · exact ⟨i + 1, _, e, id, le_rfl, List.getElem?_eq_getElem hi, h3, h4⟩
      · exact ⟨j, it, e', id', by omega, g3, g4, g5⟩
    · intro j it e id n hj hit he hr
      rcases Nat.lt_or_ge i j with h | h
      · obtain rfl : j = i + 1 := by omega
        rw [List.getElem?_eq_getElem hi, Option.some.injEq] at hit
        subst hit
        have := h5 e id n he hr
        split <;> omega
      · have := g6 j it e id n h hit he hr
        split <;> omega

/-- C103: the ids of the streets exist, if all iterations are about the same streets. -/
theorem C103_ids (hw : ∀ it ∈ its, it.net.graph.WellFormed) (hn : ∀ it ∈ its, Named it.net.edges.cats cols)
    (hwr : List.Forall₂ (Wrote c sc d cols) its results) (hs : SameStreets sc its) : ∃ ids, Ids sc its ids :=
  ids_exist hw hn hwr hs

end

def shownCats : List EdgeCat :=
  [.info .edgeId "edge-id".toList, .info .srcId "src".toList, .info .dstId "dst".toList,
    .info .srcLat "src-lat".toList, .info .srcLon "src-lon".toList, .info .dstLat "dst-lat".toList,
    .info .dstLon "dst-lon".toList, .metric .kilometers "kilometers".toList, .metric .laneCount "lane-count".toList]

/-- The sample with the columns for the visualizer. -/
def shownNet : Net :=
  { graph := { exNet.graph with metrics := [[4, 2], [1, 1], [3, 2], [2, 3]] }
    nodes := exNet.nodes
    edges := { cats := shownCats, normalized := false, units := [.kilometers, .laneCount],
               ids := ["kilometers".toList, "lane-count".toList] } }

theorem shownNet_wellFormed : shownNet.graph.WellFormed :=
  have h := exNet_wellFormed
  ⟨h.ids_sorted, h.coords_len, h.levels_len, h.bwd_len, by decide +kernel, h.edgeIds_len, h.ends_lt,
    h.start, h.covered_iff, h.not_covered, h.sc_ok, h.sc_len, h.idMap_iff⟩

def shownCols : List (Option Text) :=
  [some "edge-id".toList, some "src-lat".toList, some "src-lon".toList, some "dst-lat".toList, some "dst-lon".toList,
    none, some "kilometers".toList, some "lane-count".toList]

theorem shownNet_named : Named shownNet.edges.cats shownCols where
  plain := by
    have : ∀ o ∈ shownCols, ∀ ch ∈ o.getD [], ch ≠ ' ' ∧ ch ≠ '"' := by decide +kernel
    exact fun id h => this _ h
  written := by decide +kernel
  edgeId := firstCat_of_find (by decide +kernel)
  onlyId := by
    intro name h
    simp only [shownNet, shownCats, List.mem_cons, EdgeCat.info.injEq, List.not_mem_nil, reduceCtorEq, false_and,
      or_false, true_and] at h
    exact h
  srcLat := firstCat_of_find (by decide +kernel)
  srcLon := firstCat_of_find (by decide +kernel)
  dstLat := firstCat_of_find (by decide +kernel)
  dstLon := firstCat_of_find (by decide +kernel)
  kilometers := ⟨.kilometers, firstCat_of_find (by decide +kernel)⟩
  lanes := ⟨.laneCount, firstCat_of_find (by decide +kernel)⟩

/-- The files of two iterations. -/
def shownIts : List Iteration := [⟨shownNet, [0, 8, 5, 0]⟩, ⟨shownNet, [0, 4, 7, 1]⟩]

def shownInfo : List Text :=
  ["edge-id src-lat src-lon dst-lat dst-lon _ kilometers lane-count".toList,
    "5 5/1 5/1 5/1 5/1 _ 1/1 1/1".toList, "6 1/1 1/1 1/1 1/1 _ 3/1 2/1".toList, "7 2/1 2/1 2/1 2/1 _ 2/1 3/1".toList]

def shownResults : Results :=
  [(some shownInfo, some ["edge-id num_routes".toList, "5 8".toList, "6 5".toList, "7 0".toList]),
    (some shownInfo, some ["edge-id num_routes".toList, "5 4".toList, "6 7".toList, "7 1".toList])]

theorem shown_wrote : List.Forall₂ (Wrote exCodec false false shownCols) shownIts shownResults := by
  refine .cons ⟨⟨_, rfl, by decide +kernel⟩, ⟨_, rfl, by decide +kernel⟩⟩
    (.cons ⟨⟨_, rfl, by decide +kernel⟩, ⟨_, rfl, by decide +kernel⟩⟩ .nil)

theorem exCodec_plain (x : ℚ) : exCodec.parseF (exCodec.printF x) = some x ∧ Plain (exCodec.printF x) := by
  refine ⟨(exCodec_exact x).parse, ?_⟩
  intro ch hc
  simp only [exCodec, List.mem_append, List.mem_cons] at hc
  rcases hc with h | rfl | h
  · exact plain_printInt _ ch h
  · decide
  · exact plain_printNat _ ch h

theorem shown_all : ∀ it ∈ shownIts, it.net = shownNet := by
  intro it h
  simp only [shownIts, List.mem_cons, List.not_mem_nil, or_false] at h
  rcases h with rfl | rfl <;> rfl

theorem shown_same : SameStreets false shownIts := by
  intro it h it' h' id
  rw [shown_all it h, shown_all it' h']
  exact fun h => h

theorem shown_ids : Ids false shownIts [5, 6, 7] where
  increasing := by decide
  all := by
    intro it h id
    rw [shown_all it h]
    have h1 : writtenEdges shownNet.graph false = [1, 2, 3] := by decide +kernel
    have h2 : shownNet.graph.tryId 1 = .ok (some 5) := by decide +kernel
    have h3 : shownNet.graph.tryId 2 = .ok (some 6) := by decide +kernel
    have h4 : shownNet.graph.tryId 3 = .ok (some 7) := by decide +kernel
    simp [HasId, h1, h2, h3, h4, eq_comm]

/-- The sample's data can be read for both iterations: the streets' ids are 5, 6 and 7. -/
example : ∃ data, dataAt exCodec.parseF shownResults 1 = some data ∧ data.workloads = [4, 7, 1] ∧
    data.deltas = [-4, 2, 1] ∧ data.streets.map Street.kilometers = [1, 3, 2] ∧
    maxUpTo exCodec.parseF shownResults 1 = some 8 := by
  refine ⟨_, (Option.some_get (by decide +kernel)).symm, ?_, ?_, ?_, ?_⟩ <;> decide +kernel

example : ∃ ids, Ids false shownIts ids :=
  C103_ids (fun it h => shown_all it h ▸ shownNet_wellFormed) (fun it h => shown_all it h ▸ shownNet_named) shown_wrote shown_same

example : ∃ data, dataAt exCodec.parseF shownResults 1 = some data ∧ data.streets.length = 3 ∧
    ∀ (k id : Nat), [5, 6, 7][k]? = some id → ∃ e s, HasId shownNet false e id ∧ data.streets[k]? = some s ∧
      Measured shownNet false e s ∧ AtSource shownNet e s :=
  C103_streets_partial exCodec_plain (fun it h => shown_all it h ▸ shownNet_wellFormed)
    (fun it h => shown_all it h ▸ shownNet_named) shown_wrote shown_ids (it0 := ⟨shownNet, [0, 8, 5, 0]⟩) rfl
    (by decide)

example : ∃ data, dataAt exCodec.parseF shownResults 1 = some data ∧ data.workloads[1]? = some 7 := by
  obtain ⟨data, h1, -, h2⟩ := C103_workloads exCodec_plain (fun it h => shown_all it h ▸ shownNet_wellFormed)
    (fun it h => shown_all it h ▸ shownNet_named) shown_wrote shown_ids (i := 1) (it := ⟨shownNet, [0, 4, 7, 1]⟩) rfl
  exact ⟨data, h1, h2 1 6 2 rfl ⟨by decide +kernel, by decide +kernel⟩⟩

example : ∃ data, dataAt exCodec.parseF shownResults 1 = some data ∧ data.deltas[1]? = some 2 := by
  obtain ⟨data, h1, -, h2⟩ := C103_deltas exCodec_plain (fun it h => shown_all it h ▸ shownNet_wellFormed)
    (fun it h => shown_all it h ▸ shownNet_named) shown_wrote shown_ids (i := 0) (before := ⟨shownNet, [0, 8, 5, 0]⟩)
    (it := ⟨shownNet, [0, 4, 7, 1]⟩) rfl rfl
  obtain ⟨n, m, h3, h4, h5⟩ := h2 1 6 2 2 rfl ⟨by decide +kernel, by decide +kernel⟩ ⟨by decide +kernel, by decide +kernel⟩
  cases h3
  cases h4
  exact ⟨data, h1, h5⟩

example : ∃ m, maxUpTo exCodec.parseF shownResults 1 = some m ∧ 8 ≤ m := by
  obtain ⟨m, h1, -, h2⟩ := C103_max exCodec_plain (fun it h => shown_all it h ▸ shownNet_wellFormed)
    (fun it h => shown_all it h ▸ shownNet_named) shown_wrote shown_ids (by decide) 1 (by decide)
  exact ⟨m, h1, h2 0 ⟨shownNet, [0, 8, 5, 0]⟩ 1 5 8 (by decide) rfl ⟨by decide +kernel, by decide +kernel⟩ rfl⟩

/-- C103 is false for the place: the street with id 5 leads from latitude 5 to latitude 1, but is shown at latitude 5.
Everything the visualizer asks for has been written. -/
theorem C103_false_middle : List.Forall₂ (Wrote exCodec false false shownCols) shownIts shownResults ∧
    (∀ it ∈ shownIts, it.net.graph.WellFormed ∧ Named it.net.edges.cats shownCols) ∧
    ∃ data s, dataAt exCodec.parseF shownResults 0 = some data ∧ data.streets[0]? = some s ∧
      HasId shownNet false 1 s.id ∧ ¬ InMiddle shownNet 1 s := by
  refine ⟨shown_wrote, fun it h => shown_all it h ▸ ⟨shownNet_wellFormed, shownNet_named⟩, ?_⟩
  refine ⟨{ iteration := 0, streets := [⟨5, 5, 5, 1, 1⟩, ⟨6, 1, 1, 3, 2⟩, ⟨7, 2, 2, 2, 3⟩], old := [], workloads := [8, 5, 0] },
    ⟨5, 5, 5, 1, 1⟩, by decide +kernel, rfl, ⟨by decide +kernel, by decide +kernel⟩, ?_⟩
  rintro ⟨u, v, x, y, ⟨h1, h2⟩, hx, hy, hl, -⟩
  have e1 : shownNet.graph.dstIdx .fwd 1 = .ok 1 := by decide +kernel
  have e2 : shownNet.graph.dstIdx .bwd 1 = .ok 0 := by decide +kernel
  rw [e1] at h1
  rw [e2] at h2
  cases h1
  cases h2
  have c1 : shownNet.graph.nodeCoord 0 = .ok ⟨5, 5⟩ := by decide +kernel
  have c2 : shownNet.graph.nodeCoord 1 = .ok ⟨1, 1⟩ := by decide +kernel
  rw [c1] at hx
  rw [c2] at hy
  cases hx
  cases hy
  revert hl
  norm_num

/-! ## Shipped configurations -/

/-- Is this metric the first category with this id? -/
def metricNamed (cats : List EdgeCat) (id : Text) : Bool :=
  match cats.find? fun d => decide (d.id? = some id) with
  | some (.metric _ _) => true
  | _ => false

theorem metricNamed_spec {cats : List EdgeCat} {id : Text} (h : metricNamed cats id = true) :
    ∃ u, FirstCat EdgeCat.id? cats id (.metric u id) := by
  unfold metricNamed at h
  split at h
  · rename_i u id' hf
    have h1 := List.find?_some hf
    simp only [EdgeCat.id?, decide_eq_true_eq, Option.some.injEq] at h1
    subst h1
    exact ⟨u, firstCat_of_find hf⟩
  · cases h

/-- Is this information the first category with this id? -/
def infoNamed (cats : List EdgeCat) (info : MetaInfo) (id : Text) : Bool :=
  decide ((cats.find? fun d => decide (d.id? = some id)) = some (.info info id))

def namedB (cats : List EdgeCat) (cols : List (Option Text)) : Bool :=
  decide (∀ o ∈ cols, ∀ ch ∈ o.getD [], ch ≠ ' ' ∧ ch ≠ '"') &&
  decide (∀ id ∈ ["edge-id", "src-lat", "src-lon", "dst-lat", "dst-lon", "kilometers", "lane-count"],
    some id.toList ∈ cols) &&
  infoNamed cats .edgeId "edge-id".toList &&
  (cats.all fun
    | .info .edgeId name => decide (name = "edge-id".toList)
    | _ => true) &&
  infoNamed cats .srcLat "src-lat".toList && infoNamed cats .srcLon "src-lon".toList &&
  infoNamed cats .dstLat "dst-lat".toList && infoNamed cats .dstLon "dst-lon".toList &&
  metricNamed cats "kilometers".toList && metricNamed cats "lane-count".toList

theorem namedB_spec {cats : List EdgeCat} {cols : List (Option Text)} (h : namedB cats cols = true) :
    Named cats cols := by
  simp only [namedB, Bool.and_eq_true] at h
  obtain ⟨⟨⟨⟨⟨⟨⟨⟨⟨h1, h2⟩, h3⟩, h4⟩, h5⟩, h6⟩, h7⟩, h8⟩, h9⟩, h10⟩ := h
  refine ⟨fun id hid => of_decide_eq_true h1 _ hid, of_decide_eq_true h2, firstCat_of_find (of_decide_eq_true h3), ?_,
    firstCat_of_find (of_decide_eq_true h5), firstCat_of_find (of_decide_eq_true h6),
    firstCat_of_find (of_decide_eq_true h7), firstCat_of_find (of_decide_eq_true h8), metricNamed_spec h9,
    metricNamed_spec h10⟩
  intro name hm
  rw [List.all_eq_true] at h4
  exact of_decide_eq_true (h4 _ hm)

/-- The settings for the edges' data are those the visualizer needs, for a map with these columns. -/
def settings (i : Yml.EdgesInfo) (c : List NodeCat × Edges) : Bool :=
  i.header && decide (i.file = "edges-info.csv".toList) && namedB c.2.cats i.ids

open Yml
open Shipped

/-- Balancing is configured by this document. -/
def balancingInfo (doc : Yaml) : Option EdgesInfo :=
  match balancing exNumbers doc with
  | .ok b => some b.monitoring.edgesInfo
  | _ => none

theorem settings_spec {K : Type} {w : Session.World K} {doc : Yaml} {i : EdgesInfo} {net : Net} (hN : w.numbers = exNumbers)
    (hl : Session.load w doc = .ok net) (h : ∃ c ∈ Fit.docColumns exNumbers doc, settings i c = true) :
    i.header = true ∧ i.file = "edges-info.csv".toList ∧ Named net.edges.cats i.ids := by
  obtain ⟨c, hc, h⟩ := h
  have h1 := Fit.C99_columns hl
  rw [hN] at h1
  rw [h1] at hc
  cases hc
  simp only [settings, Bool.and_eq_true] at h
  exact ⟨h.1.1, of_decide_eq_true h.1.2, namedB_spec h.2⟩

theorem shipped_balancing : ∀ d ∈ [(isleBalConfig, isleBalInit), (isleBalConfig, isleBalIteration),
      (saarlandBalConfig, saarlandBalInit), (saarlandBalConfig, saarlandBalIteration)],
    ∃ i ∈ balancingInfo d.1, ∃ c ∈ Fit.docColumns exNumbers d.2, settings i c = true := by
  decide +kernel

theorem shipped_evaluating : ∀ doc ∈ [isleBalEvalDijkstra0Config, isleBalEvalDijkstra1Config, isleBalEvalExpl0Config,
      isleBalEvalExpl1Config, saarlandBalEvalDijkstra0Config, saarlandBalEvalDijkstra1Config, saarlandBalEvalExpl0Config,
      saarlandBalEvalExpl1Config],
    ∃ i ∈ evaluating exNumbers doc, ∃ c ∈ Fit.docColumns exNumbers doc, settings i.monitoring.edgesInfo c = true := by
  decide +kernel

/-- C103: with the shipped documents for balancing, every iteration's file `edges-info.csv` has names of columns and all
columns the visualizer asks for, whatever the map is. -/
theorem C103_balancing {K : Type} {w : Session.World K} {net : Net} {b : Balancing} {config iteration : Yaml}
    (hN : w.numbers = exNumbers)
    (hd : (config, iteration) ∈ [(isleBalConfig, isleBalInit), (isleBalConfig, isleBalIteration),
      (saarlandBalConfig, saarlandBalInit), (saarlandBalConfig, saarlandBalIteration)])
    (hb : balancing exNumbers config = .ok b) (hl : Session.load w iteration = .ok net) :
    b.monitoring.edgesInfo.header = true ∧ b.monitoring.edgesInfo.file = "edges-info.csv".toList ∧
      Named net.edges.cats b.monitoring.edgesInfo.ids := by
  obtain ⟨i, hi, h⟩ := shipped_balancing _ hd
  simp only [balancingInfo, hb, Option.mem_def, Option.some.injEq] at hi
  subst hi
  exact settings_spec hN hl h

/-- C103: the same holds for the shipped documents for evaluations. -/
theorem C103_evaluating {K : Type} {w : Session.World K} {net : Net} {o : Evaluating} {doc : Yaml}
    (hN : w.numbers = exNumbers)
    (hd : doc ∈ [isleBalEvalDijkstra0Config, isleBalEvalDijkstra1Config, isleBalEvalExpl0Config,
      isleBalEvalExpl1Config, saarlandBalEvalDijkstra0Config, saarlandBalEvalDijkstra1Config, saarlandBalEvalExpl0Config,
      saarlandBalEvalExpl1Config])
    (ho : evaluating exNumbers doc = some o) (hl : Session.load w doc = .ok net) :
    o.monitoring.edgesInfo.header = true ∧ o.monitoring.edgesInfo.file = "edges-info.csv".toList ∧
      Named net.edges.cats o.monitoring.edgesInfo.ids := by
  obtain ⟨i, hi, h⟩ := shipped_evaluating _ hd
  rw [ho, Option.mem_def, Option.some.injEq] at hi
  subst hi
  exact settings_spec hN hl h

/-- A small contracted map for the balancer of Isle of Man. -/
def chWorld : Session.World ℚ :=
  { Session.exWorld with
    maxDim := 5
    env := Fmi.exMergeEnv
    text := fun f =>
      if f = "graph.ch.fmi".toList then
        some ["2".toList, "1".toList, "0 7 1/1 1/1 _ 0".toList, "1 9 1/1 2/1 _ 1".toList,
          "5 7 9 3/1 2/1 1/1 -1 -1".toList]
      else if f = "edges-info.csv".toList then some ["edge-id lane-count dummy".toList, "5 2/1 3/1".toList]
      else none }

def loadedMap (r : Res Session.Err Net) : Option (List (List ℚ)) :=
  match r with
  | .ok net => some net.graph.metrics
  | _ => none

example : loadedMap (Session.load chWorld isleBalIteration) = some [[3, 2, 1, 2, 3]] := by decide +kernel

example : ∃ b net, balancing exNumbers isleBalConfig = .ok b ∧ Session.load chWorld isleBalIteration = .ok net ∧
    Named net.edges.cats b.monitoring.edgesInfo.ids := by
  have h1 : (loadedMap (Session.load chWorld isleBalIteration)).isSome = true := by decide +kernel
  have h2 : (balancingInfo isleBalConfig).isSome = true := by decide +kernel
  cases hl : Session.load chWorld isleBalIteration with
  | ok net =>
    cases hb : balancing exNumbers isleBalConfig with
    | ok b => exact ⟨b, net, rfl, rfl, (C103_balancing rfl (by simp) hb hl).2.2⟩
    | err e => simp [balancingInfo, hb] at h2
    | panic => simp [balancingInfo, hb] at h2
  | err e => simp [loadedMap, hl] at h1
  | panic => simp [loadedMap, hl] at h1

/-- A small balanced map for an evaluation. -/
def balancedWorld : Session.World ℚ :=
  { Session.exWorld with
    text := fun f =>
      if f = "custom/results/isle_of_man_2020-03-14/utc_YYYY-mm-dd_HH-MM-SS/balanced_graph.fmi".toList then
        some ["2".toList, "1".toList, "0 7 1/1 1/1".toList, "1 9 1/1 2/1".toList, "5 7 9 3/1 2/1 1/1".toList]
      else none }

example : ∃ o net, evaluating exNumbers isleBalEvalDijkstra0Config = some o ∧
    Session.load balancedWorld isleBalEvalDijkstra0Config = .ok net ∧
    Named net.edges.cats o.monitoring.edgesInfo.ids := by
  have h1 : loadedMap (Session.load balancedWorld isleBalEvalDijkstra0Config) = some [[3, 2, 1]] := by decide +kernel
  obtain ⟨o, ho, -⟩ := shipped_evaluating isleBalEvalDijkstra0Config (by simp)
  cases hl : Session.load balancedWorld isleBalEvalDijkstra0Config with
  | ok net => exact ⟨o, net, ho, rfl, (C103_evaluating rfl (by simp) ho hl).2.2⟩
  | err e => simp [loadedMap, hl] at h1
  | panic => simp [loadedMap, hl] at h1

end Verif.Vis
