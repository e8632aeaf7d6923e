import Verif.DescribeLemmas

/-!
# Printing a graph (C111)
-/

namespace Verif.Desc

open Graph Build

variable {dim : Nat} {es : List ProtoEdge} {ns : List ProtoNode} {g₀ g : Graph}

/-- A graph, also one whose metrics and edge-ids have been generated, is described completely. Missing is a graph whose
last two nodes are not left, or not entered, by an edge. See `C111_false_panic`. -/
theorem C111_describe_partial (hb : build dim es ns = .ok g₀) (ht : Gen.SameTopology g₀ g) (hw : g.WellFormed)
    (h : ∀ d, Ends g d) : ∃ ls, describe g = .ok ls ∧ Describes g ls := by
  obtain ⟨hf, hbw, -⟩ := C107_layout hb
  obtain ⟨ss, hs⟩ := built_sc hb
  have hs := sc_topo ht hs
  obtain ⟨l1, h1, h1'⟩ := nodes_ok hw
  obtain ⟨l2, h2, h2'⟩ := direction_ok hw hs (layout_topo ht hf) (h .fwd)
  obtain ⟨l3, h3, h3'⟩ := direction_ok hw hs (layout_topo ht hbw) (h .bwd)
  obtain ⟨l4, h4, h4', h5'⟩ := shortcuts_ok hs
  refine ⟨_, ?_, l1, l2, l3, l4, rfl, h1', h2', h3', h4', h5'⟩
  unfold describe
  rw [h1, h2, h3, h4]
  rfl

/-- Otherwise, printing it panics. -/
theorem C111_panic_iff (hb : build dim es ns = .ok g₀) (ht : Gen.SameTopology g₀ g) (hw : g.WellFormed) :
    describe g = .panic ↔ ∃ d : Dir, g.nodeCount > 2 ∧ ∀ e u, g.dstIdx d.opp e = .ok u → u + 2 < g.nodeCount := by
  have hEnds : ∀ d, ¬ Ends g d ↔ (g.nodeCount > 2 ∧ ∀ e u, g.dstIdx d.opp e = .ok u → u + 2 < g.nodeCount) := by
    intro d
    unfold Ends
    push Not
    rfl
  simp only [← hEnds]
  constructor
  · intro hp
    by_contra hcon
    push Not at hcon
    obtain ⟨ls, h1, -⟩ := C111_describe_partial hb ht hw hcon
    rw [hp] at h1
    cases h1
  · rintro ⟨d, hd⟩
    obtain ⟨hf, hbw, -⟩ := C107_layout hb
    obtain ⟨ss, hs⟩ := built_sc hb
    have hs := sc_topo ht hs
    obtain ⟨l1, h1, -⟩ := nodes_ok hw
    unfold describe
    rw [h1]
    simp only [Res.ok_bind]
    by_cases hF : Ends g .fwd
    · obtain ⟨l2, h2, -⟩ := direction_ok hw hs (layout_topo ht hf) hF
      have hB : ¬ Ends g .bwd := by
        cases d
        · exact absurd hF hd
        · exact hd
      rw [h2, direction_panic hw hs (layout_topo ht hbw) hB]
      rfl
    · rw [direction_panic hw hs (layout_topo ht hf) hF]
      rfl

/-- Two of three nodes are not left by an edge, as at ends of one-way streets. The graph is fine, but printing it
panics. -/
theorem C111_false_panic : ∃ es ns g, build 1 es ns = .ok g ∧ g.nodeCount = 3 ∧ g.edgeCount = 2 ∧ describe g = .panic := by
  have key : (match build 1 (plainEdges [(10, 20, 1), (10, 30, 2)]) (plainNodes [10, 20, 30]) with
      | .ok g => decide (g.nodeCount = 3 ∧ g.edgeCount = 2 ∧ describe g = .panic)
      | _ => false) = true := by decide +kernel
  refine ⟨plainEdges [(10, 20, 1), (10, 30, 2)], plainNodes [10, 20, 30], ?_⟩
  cases h : build 1 (plainEdges [(10, 20, 1), (10, 30, 2)]) (plainNodes [10, 20, 30]) with
  | ok g =>
    rw [h] at key
    exact ⟨g, rfl, by simpa using key⟩
  | err e =>
    rw [h] at key
    cases key
  | panic =>
    rw [h] at key
    cases key

theorem ex_ends : ∀ d, Ends exGraph d := by
  intro d
  cases d
  · exact .inr ⟨3, 2, by decide +kernel, by decide +kernel⟩
  · exact .inr ⟨2, 2, by decide +kernel, by decide +kernel⟩

/-- A graph with a shortcut meets the hypotheses. This is its description. -/
example : (∃ ls, describe exGraph = .ok ls ∧ Describes exGraph ls) ∧ describe exGraph = .ok (
    [.head 3 4, .blank, .config, .blank, .node 0 10 ⟨5, 5⟩, .node 1 20 ⟨1, 1⟩, .node 2 30 ⟨2, 2⟩, .blank] ++
    [.edge .fwd (some 9) 0 0 0 [4] 2, .edge .fwd (some 5) 1 1 0 [1 / 1000000] 1, .edge .fwd (some 6) 2 1 1 [3] 2,
      .edge .fwd (some 7) 3 1 2 [2] 0, .blank, .offset .fwd 0 0, .offset .fwd 1 2, .offset .fwd 2 3, .lastOffset .fwd 3 4,
      .blank] ++
    [.edge .bwd (some 9) 0 0 2 [4] 0, .edge .bwd (some 5) 1 1 1 [1 / 1000000] 0, .edge .bwd (some 6) 2 1 2 [3] 1,
      .edge .bwd (some 7) 3 1 0 [2] 2, .blank, .offset .bwd 0 0, .offset .bwd 1 1, .offset .bwd 2 2, .lastOffset .bwd 3 4,
      .blank] ++
    [.shortcut 0 0 (1, 2)]) :=
  ⟨C111_describe_partial ex_build (.refl _) (built_wellFormed ex_build) ex_ends, by decide +kernel⟩

/-- A graph with 25 nodes and 24 edges. -/
def longPath : Res BuildErr Graph :=
  build 1 (plainEdges ((List.range 24).map fun i => ((i : Int), (i : Int) + 1, (i : ℚ) + 1)))
    (plainNodes ((List.range 25).map fun i => (i : Int)))

/-- Some nodes, edges and offsets are left out, but never the last one. -/
example : (match longPath with
    | .ok g => match describe g with
      | .ok ls => decide (ls.length = 117 ∧ .node 18 18 ⟨0, 0⟩ ∈ ls ∧ .nodeDots ∈ ls ∧ .node 24 24 ⟨0, 0⟩ ∈ ls ∧
        .edge .fwd none 19 0 19 [20] 20 ∉ ls ∧ .edge .fwd none 23 0 23 [24] 24 ∈ ls ∧ .offset .bwd 24 23 ∈ ls ∧
        .lastOffset .fwd 24 24 ∈ ls ∧ ls.getLast? = some .noShortcuts)
      | _ => false
    | _ => false) = true := by decide +kernel

end Verif.Desc
