import Verif.FmiLemmas2

/-!
# Lemmas for whole files
-/

namespace Verif.Fmi

open Cfg Text
open Build (ProtoEdge ProtoNode)
open Gen (Net value)

theorem inRange_from {lo hi n : Nat} {l : List Text} (h : lo ≤ n) : inRange lo hi n l = l.take (hi - n) := by
  induction l generalizing n with
  | nil => simp [inRange]
  | cons a l ih =>
    rw [inRange]
    by_cases hn : n < hi
    · rw [if_pos ⟨h, hn⟩, ih (by omega), show hi - n = (hi - (n + 1)) + 1 by omega, List.take_succ_cons]
    · rw [if_neg (by omega), ih (by omega), show hi - n = 0 by omega, show hi - (n + 1) = 0 by omega]
      simp

theorem inRange_drop {lo hi n : Nat} {l : List Text} (h : n ≤ lo) :
    inRange lo hi n l = (l.drop (lo - n)).take (hi - lo) := by
  induction l generalizing n with
  | nil => simp [inRange]
  | cons a l ih =>
    by_cases hn : n = lo
    · subst hn
      rw [inRange_from (Nat.le_refl _), Nat.sub_self, List.drop_zero]
    · rw [inRange, if_neg (by omega), ih (by omega), show lo - n = (lo - (n + 1)) + 1 by omega, List.drop_succ_cons]

/-- The lines of nodes and edges behind three counts. -/
theorem inRange_nodes {a b c : Text} {N E : List Text} :
    inRange 3 (3 + N.length) 0 (a :: b :: c :: (N ++ E)) = N := by
  rw [inRange_drop (by omega)]
  simp

theorem inRange_edges {a b c : Text} {N E : List Text} :
    inRange (3 + N.length) (3 + N.length + E.length) 0 (a :: b :: c :: (N ++ E)) = E := by
  rw [inRange_drop (by omega), Nat.sub_zero]
  rw [show 3 + N.length = N.length + 1 + 1 + 1 by omega]
  simp

theorem words_printNat (n : Nat) : words (printNat n) = [printNat n] :=
  words_line (ts := [printNat n]) (by simpa using cell_printNat n)

theorem scan_stop {counts : List Nat} {n : Nat} {l : List Text} (h : ∀ line ∈ l, (words line).length ≠ 1) :
    scan true counts n l = (n, counts) := by
  cases l with
  | nil => rfl
  | cons a l =>
    rw [scan]
    split
    · rename_i p hp
      exact absurd (by simp [hp]) (h a (by simp))
    · simp

theorem scan_counts {x y z : Nat} (hx : x ≤ maxUsize) (hy : y ≤ maxUsize) (hz : z ≤ maxUsize) {l : List Text}
    (h : ∀ line ∈ l, (words line).length ≠ 1) :
    scan false [] 0 (printNat x :: printNat y :: printNat z :: l) = (3, [x, y, z]) := by
  simp only [scan, words_printNat, parseNat_printNat hx, parseNat_printNat hy, parseNat_printNat hz,
    List.nil_append, List.cons_append]
  exact scan_stop h

/-- The parts of a written file. -/
theorem write_ok {c : Codec} {s : Net} {w : WriteCfg} {file : List Text} (h : write c s w = .ok file) :
    ∃ nodes edges, file = comments c s w ++ [[]] ++ [printNat (countMetrics s w.edges),
        printNat s.graph.nodeCount, printNat edges.length] ++ nodes ++ edges ∧
      List.Forall₂ (fun i line => nodeLine c s w.nodes i = .ok line) (List.range s.graph.nodeCount) nodes ∧
      List.Forall₂ (fun e line => edgeLine c s w.denormalize w.edges e = .ok line)
        (writtenEdges s.graph w.shortcuts) edges := by
  simp only [write, writeEdges, Res.bind_eq_ok, Res.pure_eq, Res.ok.injEq, mapR_ok] at h
  obtain ⟨n, hn, nodes, hnodes, x, ⟨edges, he, rfl⟩, rfl⟩ := h
  have h1 := countEdges_ok hn
  have h2 := edgeLines_ok he
  refine ⟨nodes, edges, ?_, hnodes, h2⟩
  rw [h1, h2.length_eq]
  simp

theorem comments_filter (c : Codec) (s : Net) (w : WriteCfg) : (comments c s w).filter isFunctional = [] := by
  have h : ∀ t : Text, isFunctional ('#' :: t) = false := by
    intro t
    simp [isFunctional]
  simp only [comments, List.filter_cons, h, Bool.false_eq_true, if_false, List.filter_nil]

theorem filter_eq_self_of {l : List Text} (h : ∀ a ∈ l, isFunctional a = true) : l.filter isFunctional = l :=
  List.filter_eq_self.mpr h

/-- The lines of nodes and edges are neither comments, nor empty, nor counts. -/
theorem edge_functional {c : Codec} {s : Net} {d : Bool} {e : Nat} (hw : s.graph.WellFormed)
    (hp : Printable c s d) {cols : List (Option Text)} {cats : List EdgeCat}
    (hcols : List.Forall₂ (Fits EdgeCat.id? .ignored s.edges.cats) cols cats) (hc : EdgeCols cats)
    {line : Text} (hl : edgeLine c s d cols e = .ok line) :
    isFunctional line = true ∧ (words line).length ≠ 1 := by
  simp only [edgeLine, Res.bind_eq_ok, Res.pure_eq, Res.ok.injEq, mapR_ok] at hl
  obtain ⟨texts, ht, rfl⟩ := hl
  obtain ⟨hcell, hcells⟩ := edge_cells hw hp hcols hc ht
  have hlen := hcells.length_eq
  have h2 : cats ≠ [] := by
    intro h
    have := hc.src
    simp [h] at this
  constructor
  · cases texts with
    | nil =>
      simp only [List.length_nil, List.length_eq_zero_iff] at hlen
      exact absurd hlen h2
    | cons t ts => exact line_functional (hcell t (by simp))
  · rw [words_line hcell, ← hlen]
    intro h
    obtain ⟨cat, rfl⟩ := List.length_eq_one_iff.mp h
    have h3 := hc.src
    have h4 := hc.dst
    simp only [List.countP_cons, List.countP_nil, Nat.zero_add] at h3 h4
    cases cat with
    | info i id => cases i <;> simp [isInfo] at h3 h4
    | metric u id => simp [isInfo] at h3
    | ignored => simp [isInfo] at h3

theorem node_functional {c : Codec} {s : Net} {d : Bool} {i maxDim : Nat} {cfg : Parsing}
    (hp : Printable c s d) (hcheck : Cfg.check maxDim cfg = .ok ⟨⟩)
    {cols : List (Option Text)}
    (hcols : List.Forall₂ (Fits idOfNode .ignored s.nodes) cols cfg.nodes)
    {line : Text} (hl : nodeLine c s cols i = .ok line) :
    isFunctional line = true ∧ (words line).length ≠ 1 := by
  simp only [nodeLine, Res.bind_eq_ok, Res.pure_eq, Res.ok.injEq, mapR_ok] at hl
  obtain ⟨texts, ht, rfl⟩ := hl
  obtain ⟨hcell, hcells⟩ := node_cells hp hcols ht
  obtain ⟨k1, k2, -⟩ := check_nodes hcheck
  have hlen := hcells.length_eq
  generalize cfg.nodes = cats at *
  constructor
  · cases texts with
    | nil =>
      simp only [List.length_nil, List.length_eq_zero_iff] at hlen
      subst hlen
      simp at k1
    | cons t ts => exact line_functional (hcell t (by simp))
  · rw [words_line hcell, ← hlen]
    intro h
    obtain ⟨cat, rfl⟩ := List.length_eq_one_iff.mp h
    simp only [List.any_cons, List.any_nil, Bool.or_false] at k1 k2
    cases cat with
    | info i id => cases k2
    | metric u id => cases k1
    | ignored => cases k2

theorem countMetrics_le {s : Net} {cols : List (Option Text)} : countMetrics s cols ≤ cols.length := by
  unfold countMetrics
  exact le_trans (List.length_filter_le _ _) (List.length_filterMap_le _ _)

/-- Reading what has been written. -/
theorem read_write {c : Codec} {s : Net} {w : WriteCfg} {maxDim : Nat} {cfg : Parsing} {file : List Text}
    (hw : s.graph.WellFormed) (hp : Printable c s w.denormalize) (hcheck : Cfg.check maxDim cfg = .ok ⟨⟩)
    (hec : EdgeCols cfg.edges.cats) (hnc : NodeCols cfg.nodes)
    (he : List.Forall₂ (Fits EdgeCat.id? .ignored s.edges.cats) w.edges cfg.edges.cats)
    (hn : List.Forall₂ (Fits idOfNode .ignored s.nodes) w.nodes cfg.nodes)
    (hlen : w.edges.length ≤ maxUsize)
    (h : write c s w = .ok file) :
    ∃ es ns, read c maxDim cfg file = .ok (es, ns) ∧
      List.Forall₂ (ReadsAs s cfg.edges.cats w.denormalize) (writtenEdges s.graph w.shortcuts) es ∧
      List.Forall₂ (NodeReadsAs s.graph cfg.nodes) (List.range s.graph.nodeCount) ns := by
  obtain ⟨N, E, rfl, hN, hE⟩ := write_ok h
  have hNf : ∀ line ∈ N, isFunctional line = true ∧ (words line).length ≠ 1 := by
    intro line hl
    obtain ⟨i, hi⟩ := List.getElem?_of_mem hl
    have hl' := Gen.lt_of_some hi
    have := hN.length_eq
    have h2 := hN.get (i := i) (by omega) hl'
    simp only [List.get_eq_getElem] at h2
    rw [List.getElem?_eq_getElem hl', Option.some.injEq] at hi
    rw [hi] at h2
    exact node_functional hp hcheck hn h2
  have hEf : ∀ line ∈ E, isFunctional line = true ∧ (words line).length ≠ 1 := by
    intro line hl
    obtain ⟨i, hi⟩ := List.getElem?_of_mem hl
    have hl' := Gen.lt_of_some hi
    have := hE.length_eq
    have h2 := hE.get (i := i) (by omega) hl'
    simp only [List.get_eq_getElem] at h2
    rw [List.getElem?_eq_getElem hl', Option.some.injEq] at hi
    rw [hi] at h2
    exact edge_functional hw hp he hec h2
  have hcnt : ∀ n, isFunctional (printNat n) = true := fun n => line_functional (ts := []) (cell_printNat n)
  have hfilter : (comments c s w ++ [[]] ++ [printNat (countMetrics s w.edges),
        printNat s.graph.nodeCount, printNat E.length] ++ N ++ E).filter isFunctional =
      printNat (countMetrics s w.edges) :: printNat s.graph.nodeCount :: printNat E.length :: (N ++ E) := by
    simp only [List.filter_append, comments_filter, filter_eq_self_of fun a ha => (hNf a ha).1,
      filter_eq_self_of fun a ha => (hEf a ha).1, List.filter_cons, hcnt, if_true, List.filter_nil]
    simp [isFunctional]
  have hElen : E.length ≤ maxUsize := by
    rw [← hE.length_eq]
    refine le_trans (List.length_filter_le _ _) ?_
    rw [List.length_range]
    exact hp.edgeCount
  have hNlen : s.graph.nodeCount = N.length := by
    rw [← hN.length_eq, List.length_range]
  have hscan := scan_counts (le_trans (countMetrics_le (s := s)) hlen) hp.nodeCount hElen (l := N ++ E) (by
    intro line hl
    rcases List.mem_append.mp hl with hl | hl
    · exact (hNf line hl).2
    · exact (hEf line hl).2)
  have hedges : ∃ es, mapR (readEdge c cfg.edges.cats) E = .ok es ∧
      List.Forall₂ (ReadsAs s cfg.edges.cats w.denormalize) (writtenEdges s.graph w.shortcuts) es := by
    have hlt : ∀ e ∈ writtenEdges s.graph w.shortcuts, e < s.graph.edgeCount := by
      intro e h
      exact List.mem_range.mp (List.mem_filter.mp h).1
    generalize writtenEdges s.graph w.shortcuts = W at hE hlt
    clear hfilter hEf hElen hscan h
    induction hE with
    | nil => exact ⟨[], rfl, .nil⟩
    | cons hl _ ih =>
      obtain ⟨es, h1, h2⟩ := ih fun e h => hlt e (by simp [h])
      obtain ⟨pe, h3, h4⟩ := readEdge_edgeLine hw hp he hec (hlt _ (by simp)) hl
      exact ⟨pe :: es, by simp [mapR, h3, h1], .cons h4 h2⟩
  have hnodes : ∃ ns, mapR (readNode c cfg.nodes) N = .ok ns ∧
      List.Forall₂ (NodeReadsAs s.graph cfg.nodes) (List.range s.graph.nodeCount) ns := by
    have hlt : ∀ i ∈ List.range s.graph.nodeCount, i < s.graph.nodeCount := fun i h => List.mem_range.mp h
    clear hfilter hNf hNlen hscan h
    generalize List.range s.graph.nodeCount = W at hN hlt
    induction hN with
    | nil => exact ⟨[], rfl, .nil⟩
    | cons hl _ ih =>
      obtain ⟨es, h1, h2⟩ := ih fun e h => hlt e (by simp [h])
      obtain ⟨pe, h3, h4⟩ := readNode_nodeLine hw hp hcheck hn hnc (hlt _ (by simp)) hl
      exact ⟨pe :: es, by simp [mapR, h3, h1], .cons h4 h2⟩
  obtain ⟨es, h1, h2⟩ := hedges
  obtain ⟨ns, h3, h4⟩ := hnodes
  refine ⟨es, ns, ?_, h2, h4⟩
  simp only [read, hcheck, hfilter, hscan, List.reverse_cons, List.reverse_nil, List.nil_append, List.cons_append]
  rw [hNlen, inRange_edges, inRange_nodes, h1, h3]
  rfl

end Verif.Fmi
