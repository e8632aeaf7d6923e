import Verif.LayoutSpec
import Verif.RebuildLemmas
import Verif.ShuffleProps

/-!
# The layout of a graph in memory (C107)
-/

namespace Verif.Build

open Graph

variable {dim : Nat} {es : List ProtoEdge} {ns : List ProtoNode} {g : Graph}

theorem keyLe_third {x y : Nat × Nat × Nat × Option Nat} (h : keyLe x y = true) :
    x.1 < y.1 ∨ x.1 = y.1 ∧ (y.2.1 < x.2.1 ∨ x.2.1 = y.2.1 ∧ x.2.2.1 ≤ y.2.2.1) := by
  unfold keyLe at h
  simp only [Bool.or_eq_true, Bool.and_eq_true, decide_eq_true_eq] at h
  omega

theorem setIdx_dst (l : List EdgeC) : ∀ i, (setIdx i l).map EdgeC.dst = l.map EdgeC.dst := by
  induction l with
  | nil => intro i; rfl
  | cons e l ih => intro i; simp [setIdx, ih]

/-- What offsets have to do with slices. -/
theorem layout_of {d : Dir} {srcs : List Nat} (hs : srcs.Pairwise (· ≤ ·)) (hp : srcs.Perm (g.dsts d.opp))
    (hall : (g.toFwdMap d).Perm (List.range g.edgeCount)) (hlen : (g.dsts d.opp).length = g.edgeCount)
    (ho : mkOffsets srcs = .ok (g.offsets d)) (hord : (g.toFwdMap d).Pairwise (Ordered g d)) : Layout g d := by
  obtain ⟨offs, h1, h2, h3⟩ := mkOffsets_ok hs
  rw [ho, Res.ok.injEq] at h1
  subst h1
  have hml : (g.toFwdMap d).length = srcs.length := by
    rw [hall.length_eq, hp.length_eq, hlen, List.length_range]
  have hcnt : ∀ i, cntLt srcs i = (g.dsts d.opp).countP (· < i) := fun i => hp.countP_eq _
  refine ⟨hall, hord, ?_, ?_, ?_⟩
  · intro i x hx
    rw [h3 i (lt_length_of_getElem? hx), Option.some.injEq] at hx
    rw [← hx, hcnt]
  · intro i
    rw [h2]
    have := le_getLastD_iff hs (i - 1)
    constructor
    · intro hi
      by_cases h1 : i ≤ 1
      · exact .inl h1
      · right
        rcases this.mp (by omega) with h4 | ⟨v, hv, h4⟩
        · omega
        · exact ⟨v, hp.mem_iff.mp hv, by omega⟩
    · rintro (hi | ⟨u, hu, hi⟩)
      · omega
      · have := this.mpr (.inr ⟨u, hp.mem_iff.mpr hu, by omega⟩)
        omega
  · intro i l
    by_cases hi : i + 1 < (g.offsets d).length
    · have hle := cntLt_mono srcs (show i ≤ i + 1 by omega)
      have hle2 := cntLt_le_length srcs (i + 1)
      unfold Graph.startingFrom
      rw [h3 i (by omega), h3 (i + 1) hi]
      simp only [Res.ofIdx, Res.ok_bind, Option.some.injEq]
      rw [idxAll_range' _ _ _ (by omega), Res.ok.injEq]
      constructor
      · rintro rfl
        exact ⟨_, _, rfl, rfl, rfl⟩
      · rintro ⟨_, _, rfl, rfl, rfl⟩
        rfl
    · rw [startingFrom_panic (by omega)]
      constructor
      · intro h
        cases h
      · rintro ⟨a, b, -, hb, -⟩
        exact absurd (lt_length_of_getElem? hb) hi

/-- Both directions of every built graph are laid out as documented, up to levels and trailing nodes, and everything is
stored in the order of the forward direction. -/
theorem C107_layout (h : build dim es ns = .ok g) :
    Layout g .fwd ∧ Layout g .bwd ∧ g.fwdMap = List.range g.edgeCount := by
  have hwf := built_wellFormed h
  obtain ⟨kept, scs, hsort, hends, hfd, hbd, -, -, -, h⟩ := build_assemble h
  simp only [assembleRest, Res.bind_eq_ok, Res.pure_eq, Res.ok.injEq] at h
  obtain ⟨-, -, ⟨so, se⟩, -, fo, h1, im, -, bs, h2, bo, h3, hg⟩ := h
  have hfo : g.fwdOffsets = fo := by rw [← hg]
  have hbo : g.bwdOffsets = bo := by rw [← hg]
  have hbm : g.bwdMap = bs.map EdgeC.idx := by rw [← hg]
  have hec : g.edgeCount = kept.length := by rw [edgeCount, hfd, List.length_map]
  have hfm : g.fwdMap = List.range g.edgeCount := by
    rw [hec, ← hg]
    simp
  have hll := hwf.levels_len
  have hsrcs : (kept.map EdgeB.src).Pairwise (· ≤ ·) := by
    rw [List.pairwise_map]
    refine hsort.imp_of_mem ?_
    intro x y hx hy hxy
    exact keyLe_fst (hxy _ _ (fwdKey_some (by rw [hll]; exact (hends x hx).2))
      (fwdKey_some (by rw [hll]; exact (hends y hy).2)))
  -- what the edges of the backward direction are
  have hmem : ∀ c ∈ setIdx 0 (kept.map fun e => ({ src := e.src, dst := e.dst, idx := 0, id := e.id } : EdgeC)),
      ∃ x, kept[c.idx]? = some x ∧ c.src = x.src ∧ c.dst = x.dst ∧ c.id = x.id := by
    intro c hc
    obtain ⟨j, e, he, rfl⟩ := (mem_setIdx _ 0 c).mp hc
    rw [List.getElem?_map, Option.map_eq_some_iff] at he
    obtain ⟨x, hx, rfl⟩ := he
    exact ⟨x, by simpa using hx, rfl, rfl, rfl⟩
  have hcl : ∀ c ∈ setIdx 0 (kept.map fun e => ({ src := e.src, dst := e.dst, idx := 0, id := e.id } : EdgeC)),
      c.src < g.nodeLevels.length := by
    intro c hc
    obtain ⟨x, hx, h1, -, -⟩ := hmem c hc
    rw [h1, hll]
    exact (hends x (List.mem_of_getElem? hx)).1
  obtain ⟨bs', h4, h5, h6⟩ := sortByKey_ok (key := bwdKey g.nodeLevels) fun c hc => ⟨_, bwdKey_some (hcl c hc)⟩
  rw [h2, Res.ok.injEq] at h4
  subst h4
  have hget : ∀ (e : Nat) (x : EdgeB), kept[e]? = some x → g.dstIdx .fwd e = .ok x.dst ∧ g.dstIdx .bwd e = .ok x.src := by
    intro e x hx
    simp [dstIdx, dsts, hfd, hbd, hx, Res.ofIdx]
  have hlev : ∀ (v : Nat) (hv : v < g.nodeLevels.length), g.nodeLevel v = .ok g.nodeLevels[v] := by
    intro v hv
    simp [nodeLevel, hv, Res.ofIdx]
  refine ⟨layout_of (srcs := kept.map EdgeB.src) hsrcs ?_ ?_ ?_ ?_ ?_,
    layout_of (srcs := bs.map EdgeC.dst) ?_ ?_ ?_ ?_ ?_ ?_, hfm⟩
  · simp [dsts, Dir.opp, hbd]
  · simp [toFwdMap, hfm]
  · exact hwf.bwd_len
  · rw [offsets, hfo]
    rw [List.map_map] at h1
    exact h1
  · rw [toFwdMap, hfm, List.pairwise_iff_getElem]
    intro i j hi hj hij
    simp only [List.getElem_range]
    rw [List.length_range, hec] at hi hj
    have hp := List.pairwise_iff_getElem.mp hsort i j hi hj hij
    have li := (hends _ (List.getElem_mem hi)).2
    have lj := (hends _ (List.getElem_mem hj)).2
    have hp := keyLe_third (hp _ _ (fwdKey_some (by rw [hll]; exact li)) (fwdKey_some (by rw [hll]; exact lj)))
    have gi := hget i _ (List.getElem?_eq_getElem hi)
    have gj := hget j _ (List.getElem?_eq_getElem hj)
    exact ⟨_, _, _, _, _, _, gi.2, gj.2, gi.1, gj.1, hlev _ (by rw [hll]; exact li), hlev _ (by rw [hll]; exact lj), hp⟩
  · rw [List.pairwise_map]
    refine h6.imp_of_mem ?_
    intro x y hx hy hxy
    exact keyLe_fst (hxy _ _ (bwdKey_some (hcl x (h5.mem_iff.mp hx))) (bwdKey_some (hcl y (h5.mem_iff.mp hy))))
  · have : (setIdx 0 (kept.map fun e => ({ src := e.src, dst := e.dst, idx := 0, id := e.id } : EdgeC))).map EdgeC.dst =
        g.fwdDsts := by
      rw [setIdx_dst, hfd]
      simp
    rw [show g.dsts Dir.bwd.opp = g.fwdDsts from rfl, ← this]
    exact h5.map _
  · rw [toFwdMap, hbm, hec]
    refine (h5.map _).trans ?_
    rw [setIdx_idx, List.length_map, ← List.range_eq_range']
  · rfl
  · rw [offsets, hbo]
    exact h3
  · rw [toFwdMap, hbm, List.pairwise_map]
    refine h6.imp_of_mem ?_
    intro x y hx hy hxy
    have hx' := h5.mem_iff.mp hx
    have hy' := h5.mem_iff.mp hy
    have hp := keyLe_third (hxy _ _ (bwdKey_some (hcl x hx')) (bwdKey_some (hcl y hy')))
    obtain ⟨a, ha, a1, a2, -⟩ := hmem x hx'
    obtain ⟨b, hb, b1, b2, -⟩ := hmem y hy'
    have gi := hget _ _ ha
    have gj := hget _ _ hb
    rw [← a1, ← a2] at gi
    rw [← b1, ← b2] at gj
    exact ⟨_, _, _, _, _, _, gi.1, gj.1, gi.2, gj.2, hlev _ (hcl x hx'), hlev _ (hcl y hy'), hp⟩

/-- Without levels, edges are ordered as documented. -/
theorem C107_order_partial (h : build dim es ns = .ok g) (hl : ∀ n ∈ ns, n.level = none) (d : Dir) :
    (g.toFwdMap d).Pairwise (OrderedPlain g d) := by
  have hlay : Layout g d := by
    obtain ⟨h1, h2, -⟩ := C107_layout h
    cases d
    · exact h1
    · exact h2
  have h0 : ∀ v l, g.nodeLevel v = .ok l → l = 0 := by
    intro v l hv
    obtain ⟨-, -, -, kept, scs, rep, -, -, -, hF⟩ := build_ok h
    rw [nodeLevel, ofIdx_iff] at hv
    have hlt := lt_length_of_getElem? hv
    rw [(built_wellFormed h).levels_len] at hlt
    have hi : g.nodeIds[v]? = some g.nodeIds[v] := List.getElem?_eq_getElem hlt
    have hids := (nodeInsertAll_same (EdgeBuilder.new.insertAll es).next ns).1
    have hd := (built_nodes (EdgeBuilder.new.insertAll es).next (next_wf _) rfl rfl ns v g.nodeIds[v]
      (by rw [← hids, ← hF.nodeIds]; exact hi)).2
    rw [← hF.levels, hv, Option.some.injEq] at hd
    have hnone : lastLevel ns g.nodeIds[v] = none := by
      unfold lastLevel
      rw [List.getLast?_eq_none_iff, List.filterMap_eq_nil_iff]
      intro n hn
      exact hl n (List.mem_of_mem_filter hn)
    rw [hd, hnone]
    rfl
  refine hlay.order.imp ?_
  rintro e e' ⟨u, u', v, v', l, l', h1, h2, h3, h4, h5, h6, h7⟩
  have := h0 _ _ h5
  have := h0 _ _ h6
  exact ⟨u, u', v, v', h1, h2, h3, h4, by omega⟩

/-- In general, the documented order is false: the level of the reached node takes precedence. -/
theorem C107_false_order : ∃ es ns g, build 1 es ns = .ok g ∧ ¬ (g.toFwdMap .fwd).Pairwise (OrderedPlain g .fwd) := by
  refine ⟨exEdges, exNodes, exGraph, ex_build, fun h => ?_⟩
  rw [show exGraph.toFwdMap .fwd = [0, 1, 2, 3] from rfl, List.pairwise_cons] at h
  obtain ⟨u, u', v, v', h1, h2, h3, h4, h5⟩ := h.1 1 (by simp)
  cases h1
  cases h2
  cases h3
  cases h4
  omega

/-- As documented, offsets have exactly one entry more than there are nodes, iff the last node is left by an edge. -/
theorem C107_offsets_iff (h : build dim es ns = .ok g) (d : Dir) (hn : 2 ≤ g.nodeCount) :
    (g.offsets d).length = g.nodeCount + 1 ↔ g.nodeCount - 1 ∈ g.dsts d.opp := by
  have hlay : Layout g d := by
    obtain ⟨h1, h2, -⟩ := C107_layout h
    cases d
    · exact h1
    · exact h2
  have hlt : ∀ u ∈ g.dsts d.opp, u < g.nodeCount := by
    intro u hu
    obtain ⟨e, he⟩ := List.getElem?_of_mem hu
    exact (built_wellFormed h).ends_lt d.opp e u (by simp [dstIdx, he, Res.ofIdx])
  have h1 := hlay.length g.nodeCount
  have h2 := hlay.length (g.nodeCount + 1)
  constructor
  · intro hl
    rcases h1.mp (by omega) with h3 | ⟨u, hu, h3⟩
    · omega
    · have := hlt u hu
      rwa [show g.nodeCount - 1 = u by omega]
  · intro hu
    have h3 := h1.mpr (.inr ⟨_, hu, by omega⟩)
    have h4 : ¬ g.nodeCount + 1 < (g.offsets d).length := by
      intro h5
      rcases h2.mp h5 with h6 | ⟨u, hu, h6⟩
      · omega
      · have := hlt u hu
        omega
    omega

example : (exGraph.offsets .fwd).length = 4 ∧ exGraph.nodeCount = 3 ∧ 2 ∈ exGraph.dsts .bwd ∧
    exGraph.offsets .bwd = [0, 1, 2, 4] := by decide +kernel

/-! ## The documented examples -/

/-- The nodes of the documented examples. -/
def docNodes : List ProtoNode := plainNodes [0, 1, 2, 3, 4]

/-- The first documented example (`/repo/src/network/graph/mod.rs:31-38`). -/
def docEdges0 : List ProtoEdge :=
  plainEdges [(0, 1, 1), (1, 0, 2), (1, 2, 12), (1, 3, 3), (2, 1, 4), (2, 3, 5), (2, 4, 6), (3, 1, 7), (3, 2, 8), (3, 4, 9),
    (4, 2, 10), (4, 3, 11)]

/-- The second one (`/repo/src/network/graph/mod.rs:51-67`), whose metrics `a`, `b`, ... are 1, 2, ... here. -/
def docEdges : List ProtoEdge :=
  plainEdges [(0, 1, 1), (1, 0, 2), (1, 3, 3), (2, 1, 4), (2, 3, 5), (2, 4, 6), (3, 1, 7), (3, 2, 8), (3, 4, 9),
    (4, 2, 10), (4, 3, 11)]

/-- The documented arrays of the first example, in whichever order its edges and nodes are given. -/
theorem C107_example (hp : es.Perm docEdges0) (hn : ns.Perm docNodes) : ∃ g, build 1 es ns = .ok g ∧
    g.fwdDsts = [1, 0, 2, 3, 1, 3, 4, 1, 2, 4, 2, 3] ∧ g.fwdOffsets = [0, 1, 4, 7, 10, 12] ∧
    g.startingFrom .fwd 2 = .ok [4, 5, 6] := by
  have hb : build 1 es ns = build 1 docEdges0 docNodes :=
    (C106_order_partial hp.symm hn.symm (by decide +kernel) (by decide +kernel) (by decide +kernel)).symm
  rw [hb]
  have key : (match build 1 docEdges0 docNodes with
      | .ok g => decide (g.fwdDsts = [1, 0, 2, 3, 1, 3, 4, 1, 2, 4, 2, 3] ∧ g.fwdOffsets = [0, 1, 4, 7, 10, 12] ∧
        g.startingFrom .fwd 2 = .ok [4, 5, 6])
      | _ => false) = true := by decide +kernel
  cases h : build 1 docEdges0 docNodes with
  | ok g =>
    rw [h] at key
    exact ⟨g, rfl, by simpa using key⟩
  | err e =>
    rw [h] at key
    cases key
  | panic =>
    rw [h] at key
    cases key

/-- The documented arrays of the second example, in whichever order its edges and nodes are given. -/
theorem C107_table (hp : es.Perm docEdges) (hn : ns.Perm docNodes) : ∃ g, build 1 es ns = .ok g ∧
    g.bwdDsts = [0, 1, 1, 2, 2, 2, 3, 3, 3, 4, 4] ∧ g.fwdDsts = [1, 0, 3, 1, 3, 4, 1, 2, 4, 2, 3] ∧
    g.metrics = [[1], [2], [3], [4], [5], [6], [7], [8], [9], [10], [11]] ∧
    g.fwdMap = [0, 1, 2, 3, 4, 5, 6, 7, 8, 9, 10] ∧ g.bwdMap = [1, 0, 3, 6, 7, 9, 2, 4, 10, 5, 8] ∧
    g.fwdOffsets = [0, 1, 3, 6, 9, 11] ∧ g.bwdOffsets = [0, 1, 4, 6, 9, 11] := by
  have hb : build 1 es ns = build 1 docEdges docNodes :=
    (C106_order_partial hp.symm hn.symm (by decide +kernel) (by decide +kernel) (by decide +kernel)).symm
  rw [hb]
  have key : (match build 1 docEdges docNodes with
      | .ok g => decide (g.bwdDsts = [0, 1, 1, 2, 2, 2, 3, 3, 3, 4, 4] ∧ g.fwdDsts = [1, 0, 3, 1, 3, 4, 1, 2, 4, 2, 3] ∧
        g.metrics = [[1], [2], [3], [4], [5], [6], [7], [8], [9], [10], [11]] ∧
        g.fwdMap = [0, 1, 2, 3, 4, 5, 6, 7, 8, 9, 10] ∧ g.bwdMap = [1, 0, 3, 6, 7, 9, 2, 4, 10, 5, 8] ∧
        g.fwdOffsets = [0, 1, 3, 6, 9, 11] ∧ g.bwdOffsets = [0, 1, 4, 6, 9, 11])
      | _ => false) = true := by decide +kernel
  cases h : build 1 docEdges docNodes with
  | ok g =>
    rw [h] at key
    exact ⟨g, rfl, by simpa using key⟩
  | err e =>
    rw [h] at key
    cases key
  | panic =>
    rw [h] at key
    cases key

/-- Another order of the second example, its layout, and its order without levels. -/
example : ∃ g, build 1 docEdges.reverse docNodes.reverse = .ok g ∧ g.bwdOffsets = [0, 1, 4, 6, 9, 11] ∧ Layout g .bwd ∧
    (g.toFwdMap .bwd).Pairwise (OrderedPlain g .bwd) := by
  obtain ⟨g, h, -, -, -, -, -, -, h1⟩ := C107_table (List.reverse_perm docEdges) (List.reverse_perm docNodes)
  exact ⟨g, h, h1, (C107_layout h).2.1, C107_order_partial h (by decide +kernel) .bwd⟩

end Verif.Build
