import Verif.SessionChProps
import Verif.SessionFuel

/-!
# A contracted map on which the tool's routing never ends

Part of C92.
-/

namespace Verif.Session

open Text Gen Dij Build
open Cfg hiding Unit
open Yml (Writer Yaml RoutingIn ParsingIn)

/-- Three nodes with levels. -/
def twiceNodeLines : List Text := ["0 0/1 0/1 2".toList, "1 0/1 0/1 1".toList, "2 0/1 0/1 0".toList]

/-- The line from 0 to 1 is given twice, first as a shortcut for a loop of length zero and the other one. -/
def twiceEdgeLines : List Text :=
  ["0 1 1/1 2 1".toList, "0 1 1/1 -1 -1".toList, "0 0 0/1 -1 -1".toList, "1 2 1/1 -1 -1".toList,
    "2 0 1/1 -1 -1".toList, "1 0 2/1 3 4".toList]

def twicePairs : List Text := ["0 1 1".toList]

def twiceWorld : World ℚ :=
  { exWorld with
    text := fun f =>
      if f = "ring.ch.fmi".toList then some (["3".toList, "6".toList] ++ (twiceNodeLines ++ twiceEdgeLines))
      else if f = "ring.route-pairs".toList then some ("1".toList :: twicePairs) else none }

theorem twice_setting : Setting twiceWorld Yml.exWriter ringDoc ringIp ringIr twiceNodeLines twiceEdgeLines twicePairs where
  writer := Yml.exFits
  parsing := ring_setting.parsing
  routing := ring_setting.routing
  unique := ring_setting.unique
  known := ring_setting.known
  generating := rfl
  normalized := by decide
  fmi := ring_setting.fmi
  map := by
    refine ⟨_, rfl, [], [], [], ["3".toList, "6".toList], by decide +kernel, by simp, ?_, ?_⟩
    · exact .cons ⟨"3".toList, by decide +kernel, by decide +kernel⟩
        (.cons ⟨"6".toList, by decide +kernel, by decide +kernel⟩ .nil)
    · decide +kernel
  pairs := by
    refine ⟨_, _, rfl, rfl, [], [], [], ["1".toList], by decide +kernel, by simp, ?_, by decide +kernel⟩
    exact .cons ⟨"1".toList, by decide +kernel, by decide +kernel⟩ .nil

theorem twice_read : List.Forall₂ (fun line pe => Fmi.readEdge Fmi.exCodec ringIp.edges line = .ok pe) twiceEdgeLines
    Build.twiceEdges :=
  .cons (by decide +kernel) (.cons (by decide +kernel) (.cons (by decide +kernel) (.cons (by decide +kernel)
    (.cons (by decide +kernel) (.cons (by decide +kernel) .nil)))))

theorem twice_nodes : List.Forall₂ (fun line n => Fmi.readNode Fmi.exCodec ringIp.nodes line = .ok n) twiceNodeLines
    Build.twiceNodes :=
  .cons (by decide +kernel) (.cons (by decide +kernel) (.cons (by decide +kernel) .nil))

theorem twice_best (fuel : Nat) (src dst : Graph.Node) (h1 : src.idx = 0) (h2 : dst.idx = 1) :
    best twiceWorld fuel twiceGraph .chDijkstra [1] St.new src dst = none := by
  obtain ⟨-, -, -, -, -, -, h3, h4⟩ := C91_false_twice
  unfold best
  rw [h1, h2]
  cases hc : computeBestPath twiceWorld.heap twiceWorld.dotp fuel St.new
      { src := 0, dst := 1, graph := twiceGraph, algo := .chDijkstra, alphas := [1] } with
  | none => rfl
  | some x =>
    cases hd : computeBestPath codeHeap dot 60 St.new ⟨0, 1, twiceGraph, .chDijkstra, [1]⟩ with
    | none => rw [hd] at h3; cases h3
    | some y =>
      obtain rfl : x = y := compute_unique (h := codeHeap) (dotp := dot) hc hd
      rw [hd] at h3
      match x, h3 with
      | .ok (s', ans), h3 =>
        have hans : ans = some (Path.new 0 0 1 1 [1]) := by
          simpa [answer] using h3
        subst hans
        dsimp only
        rw [Path.flatten, h4 fuel]
        rfl
      | .err e, h3 => cases h3
      | .panic, h3 => cases h3

theorem twice_run (fuel : Nat) : run twiceWorld fuel ringDoc = ([], none) := by
  rcases run_cases twice_setting with ⟨r, h1, -⟩ | ⟨es, ns, g, rs, rc, h1, h2, h3, h4, h5, h6, -, h7⟩
  · have h2 : run twiceWorld 60 ringDoc = ([], none) := by decide +kernel
    rw [h1 60] at h2
    cases h2
  · obtain rfl : es = Build.twiceEdges :=
      forall₂_unique (fun a b b' hb hb' => Res.ok.inj (hb.symm.trans hb')) h1 twice_read
    obtain rfl : ns = Build.twiceNodes :=
      forall₂_unique (fun a b b' hb hb' => Res.ok.inj (hb.symm.trans hb')) h2 twice_nodes
    obtain rfl : twiceGraph = g := Res.ok.inj (C91_false_twice.1.symm.trans h3)
    obtain rfl : rs = [⟨0, 1, 1⟩] :=
      forall₂_unique (fun a b b' hb hb' => Res.ok.inj (hb.symm.trans hb')) h4 (.cons (by decide +kernel) .nil)
    have halg : rc.algo = .chDijkstra := h5
    rw [h7, answers, halg]
    dsimp only
    rw [h6, ring_alphas]
    unfold queries
    have hn : (do
        let src ← intoNode twiceGraph 0
        let dst ← intoNode twiceGraph 1
        pure (src, dst) : Res Err (Graph.Node × Graph.Node)) =
        .ok ({ idx := 0, id := 0, coord := ⟨0, 0⟩, level := 2 }, { idx := 1, id := 1, coord := ⟨0, 0⟩, level := 1 }) := by
      decide +kernel
    rw [hn]
    dsimp only
    rw [twice_best fuel _ _ rfl rfl]

theorem twice_line {j : Nat} {pe : ProtoEdge} (h : Build.twiceEdges[j]? = some pe) :
    ∃ line, twiceEdgeLines[j]? = some line ∧ Leads Fmi.exCodec ringIp.edges line pe.srcId pe.dstId pe.metrics := by
  obtain ⟨line, h1, h2⟩ := (Build.forall₂_getElem? twice_read).2.2 j pe h
  exact ⟨line, h1, (readEdge_leads h2).1⟩

theorem twice_leads : ShortcutsLead Fmi.exCodec ringIp.edges twiceEdgeLines := by
  intro line hl i j a b m hs h
  obtain ⟨pe, h1, h2, rfl, rfl, rfl⟩ := record_of twice_read hl h
  obtain ⟨p, q, h3, h4, h5, h6, h7⟩ := Build.shortcutsLead_of (es := Build.twiceEdges) (by decide +kernel) pe h1 i j
    ((readEdge_sc h2 i j).mpr hs)
  obtain ⟨l1, h8, h9⟩ := twice_line h3
  obtain ⟨l2, h10, h11⟩ := twice_line h4
  exact ⟨l1, l2, _, _, _, h8, h10, h5 ▸ h9, by rw [← h6, ← h7]; exact h11⟩

/-- Levels of the ids. -/
def twiceLevel (id : Int) : Nat := ([2, 1, 0][id.toNat]?).getD 0

theorem twice_lines : ContractedLines Fmi.exCodec ringIp.edges twiceEdgeLines twiceLevel [1] where
  differ line hl a b m h hne := by
    obtain ⟨pe, h1, -, rfl, rfl, rfl⟩ := record_of twice_read hl h
    have key : ∀ pe ∈ Build.twiceEdges, pe.srcId ≠ pe.dstId → twiceLevel pe.srcId ≠ twiceLevel pe.dstId := by
      decide +kernel
    exact key pe h1 hne
  bypass line hl line' hl' a x b m m' h h' ha hb := by
    obtain ⟨pe, h1, -, rfl, rfl, rfl⟩ := record_of twice_read hl h
    obtain ⟨pe', h1', -, h2', rfl, rfl⟩ := record_of twice_read hl' h'
    have key : ∀ x ∈ Build.twiceEdges, ∀ y ∈ Build.twiceEdges, y.srcId = x.dstId →
        twiceLevel x.dstId < twiceLevel x.srcId → twiceLevel x.dstId < twiceLevel y.dstId →
        (x.srcId = y.dstId ∧ 0 ≤ costOf [1] x.metrics + costOf [1] y.metrics) ∨
        ∃ z ∈ Build.twiceEdges, z.srcId = x.srcId ∧ z.dstId = y.dstId ∧
          costOf [1] z.metrics ≤ costOf [1] x.metrics + costOf [1] y.metrics := by decide +kernel
    rcases key pe h1 pe' h1' h2' ha hb with h3 | ⟨z, h3, h4, h5, h6⟩
    · exact ⟨[], h3.1, h3.2⟩
    obtain ⟨l, h7, h8⟩ := Exp.forall₂_mem_right twice_read h3
    refine ⟨[z.metrics], ⟨l, h7, ?_⟩, by simpa using h6⟩
    rw [← h4, ← h5]
    exact (readEdge_leads h8).1

/-- C92 is false: the lines are contracted for the document's alphas, every shortcut leads where its lines lead and is as
long as they are, and no shortcut stands for itself. Yet one of two equal lines is removed as a duplicate, so a shortcut
stands for itself then, and the tool never answers. -/
theorem C92_false_forever :
    Setting twiceWorld Yml.exWriter ringDoc ringIp ringIr twiceNodeLines twiceEdgeLines twicePairs ∧
    alphas ringIp ringIr = [1] ∧ ContractedLines Fmi.exCodec ringIp.edges twiceEdgeLines twiceLevel [1] ∧
    ShortcutsLead Fmi.exCodec ringIp.edges twiceEdgeLines ∧
    (∀ line ∈ twiceEdgeLines, ∀ i j a b m, StandsFor ringIp.edges line i j → Leads Fmi.exCodec ringIp.edges line a b m →
      ∃ line₁ line₂ x m₁ m₂, twiceEdgeLines[i]? = some line₁ ∧ twiceEdgeLines[j]? = some line₂ ∧
        line₁ ≠ line ∧ line₂ ≠ line ∧ Leads Fmi.exCodec ringIp.edges line₁ a x m₁ ∧
        Leads Fmi.exCodec ringIp.edges line₂ x b m₂ ∧ m = List.zipWith (· + ·) m₁ m₂) ∧
    ∀ fuel, run twiceWorld fuel ringDoc = ([], none) := by
  refine ⟨twice_setting, ring_alphas, twice_lines, twice_leads, ?_, twice_run⟩
  intro line hl i j a b m hs h
  obtain ⟨l1, l2, x, m1, m2, h1, h2, h3, h4⟩ := twice_leads line hl i j a b m hs h
  refine ⟨l1, l2, x, m1, m2, h1, h2, ?_, ?_, h3, h4, ?_⟩
  all_goals
    obtain ⟨pe, k1, k2, rfl, rfl, rfl⟩ := record_of twice_read hl h
    have hsc := (readEdge_sc k2 i j).mpr hs
    have key : ∀ pe ∈ Build.twiceEdges, pe.sc = none ∨
        pe.sc = some (2, 1) ∧ pe.metrics = [1] ∧ pe.srcId = 0 ∨ pe.sc = some (3, 4) ∧ pe.metrics = [2] := by decide +kernel
    obtain ⟨p, hp1, hp2⟩ := (Build.forall₂_getElem? twice_read).2.1 i l1 h1
    obtain ⟨q, hq1, hq2⟩ := (Build.forall₂_getElem? twice_read).2.1 j l2 h2
    obtain ⟨-, -, rfl⟩ := readEdge_unique hp2 h3
    obtain ⟨-, -, rfl⟩ := readEdge_unique hq2 h4
    rcases key pe k1 with k3 | ⟨k3, k4, -⟩ | ⟨k3, k4⟩
    · rw [k3] at hsc
      cases hsc
    · rw [k3] at hsc
      cases hsc
      cases hp1
      cases hq1
      first
        | exact k4.trans (by decide +kernel)
        | (rintro rfl
           have := Res.ok.inj (k2.symm.trans (by first | exact hp2 | exact hq2))
           rw [this] at k3
           cases k3)
    · rw [k3] at hsc
      cases hsc
      cases hp1
      cases hq1
      first
        | exact k4.trans (by decide +kernel)
        | (rintro rfl
           have := Res.ok.inj (k2.symm.trans (by first | exact hp2 | exact hq2))
           rw [this] at k3
           cases k3)

end Verif.Session
