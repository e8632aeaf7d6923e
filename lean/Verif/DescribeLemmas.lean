import Verif.DescribeSpec
import Verif.LayoutProps
import Verif.GeneratingLemmas

/-!
# Lemmas about the lines that describe a graph
-/

namespace Verif.Desc

open Graph Build

/-! ## Excerpts -/

section
variable {σ : Type} {n count : Nat} {dots : Line} {line : σ → Nat → R (σ × Line)}

theorem excerpt_go {P : Nat → Line → Prop} {I : Nat → σ → Prop} (hmono : ∀ i j s, i ≤ j → I i s → I j s)
    (hl : ∀ i s, i < count → I i s → ∃ s' l, line s i = .ok (s', l) ∧ P i l ∧ I i s') :
    ∀ k i s, i + k = n → I i s → i < n ∨ count ≤ n → ∃ ls, excerpt n count dots line k i s = .ok ls ∧
      (count ≤ n → List.Forall₂ P (List.range' i (count - i)) ls) ∧
      (n < count → ∃ front last, ls = front ++ [dots, last] ∧ List.Forall₂ P (List.range' i (n - 1 - i)) front ∧
        P (count - 1) last) := by
  intro k
  induction k with
  | zero =>
    intro i s hi hI h
    refine ⟨[], rfl, fun hc => ?_, fun hc => by omega⟩
    rw [show count - i = 0 by omega]
    exact List.Forall₂.nil
  | succ k ih =>
    intro i s hi hI h
    unfold excerpt
    by_cases hc : i < count
    swap
    · rw [if_neg hc]
      refine ⟨[], rfl, fun _ => ?_, fun h => by omega⟩
      rw [show count - i = 0 by omega]
      exact List.Forall₂.nil
    rw [if_pos hc]
    by_cases hn : i = n - 1
    · rw [if_pos hn]
      obtain ⟨s', l, h1, h2, h3⟩ := hl (count - 1) s (by omega) (hmono i _ s (by omega) hI)
      have hk : k = 0 := by omega
      subst hk
      refine ⟨(if i + 1 < count then [dots] else []) ++ [l], by rw [h1]; rfl, fun hle => ?_, fun hlt => ?_⟩
      · rw [if_neg (by omega), show count - i = 1 by omega]
        rw [show count - 1 = i by omega] at h2
        exact List.Forall₂.cons h2 List.Forall₂.nil
      · rw [if_pos (by omega)]
        refine ⟨[], l, rfl, ?_, h2⟩
        rw [show n - 1 - i = 0 by omega]
        exact List.Forall₂.nil
    · rw [if_neg hn]
      obtain ⟨s', l, h1, h2, h3⟩ := hl i s hc hI
      obtain ⟨ls, h4, h5, h6⟩ := ih (i + 1) s' (by omega) (hmono i _ s' (by omega) h3) (by omega)
      refine ⟨l :: ls, by rw [h1]; simp only [Res.ok_bind, h4]; rfl, fun hle => ?_, fun hlt => ?_⟩
      · rw [show count - i = (count - (i + 1)) + 1 by omega, List.range'_succ]
        exact List.Forall₂.cons h2 (h5 hle)
      · obtain ⟨front, last, rfl, h7, h8⟩ := h6 hlt
        refine ⟨l :: front, last, rfl, ?_, h8⟩
        rw [show n - 1 - i = (n - 1 - (i + 1)) + 1 by omega, List.range'_succ]
        exact List.Forall₂.cons h2 h7

theorem excerpt_ok {P : Nat → Line → Prop} {I : Nat → σ → Prop} (hmono : ∀ i j s, i ≤ j → I i s → I j s)
    (hl : ∀ i s, i < count → I i s → ∃ s' l, line s i = .ok (s', l) ∧ P i l ∧ I i s') {s : σ} (hs : I 0 s) :
    ∃ ls, excerpt limit count dots line limit 0 s = .ok ls ∧ Excerpt count dots P ls := by
  obtain ⟨ls, h1, h2, h3⟩ := excerpt_go (n := limit) (dots := dots) hmono hl limit 0 s (by simp) hs
    (.inl (by unfold limit; omega))
  refine ⟨ls, h1, fun h => ?_, fun h => ?_⟩
  · have := h2 h
    rwa [Nat.sub_zero, ← List.range_eq_range'] at this
  · obtain ⟨front, last, h4, h5, h6⟩ := h3 h
    refine ⟨front, last, h4, ?_, h6⟩
    rwa [show limit - 1 - 0 = 19 from rfl, ← List.range_eq_range'] at h5

/-- Without a state. -/
theorem excerpt_unit {line : Unit → Nat → R (Unit × Line)} {P : Nat → Line → Prop}
    (hl : ∀ i, i < count → ∃ l, line () i = .ok ((), l) ∧ P i l) :
    ∃ ls, excerpt limit count dots line limit 0 () = .ok ls ∧ Excerpt count dots P ls := by
  refine excerpt_ok (I := fun _ _ => True) (fun _ _ _ _ _ => trivial) (fun i s hi _ => ?_) trivial
  obtain ⟨l, h1, h2⟩ := hl i hi
  exact ⟨(), l, h1, h2, trivial⟩

theorem excerpt_panic {line : Unit → Nat → R (Unit × Line)} (hl : ∀ i, line () i = .panic ∨ ∃ l, line () i = .ok ((), l))
    (hlast : line () (count - 1) = .panic) : ∀ k i, i + k = n → i < n → i < count →
      excerpt n count dots line k i () = .panic := by
  intro k
  induction k with
  | zero => intro i hi h; omega
  | succ k ih =>
    intro i hi hn hc
    unfold excerpt
    rw [if_pos hc]
    by_cases h : i = n - 1
    · rw [if_pos h, hlast]; rfl
    · rw [if_neg h]
      rcases hl i with h1 | ⟨l, h1⟩
      · rw [h1]; rfl
      · have hne : i ≠ count - 1 := by
          rintro rfl
          rw [hlast] at h1
          cases h1
        rw [h1]
        simp only [Res.ok_bind]
        rw [ih (i + 1) (by omega) (by omega) (by omega)]
        rfl

end

/-! ## Shortcuts -/

theorem countP_succ (l : List Nat) (e : Nat) : cntLt l (e + 1) = cntLt l e + l.count e := by
  unfold cntLt
  induction l with
  | nil => rfl
  | cons a l ih =>
    simp only [List.countP_cons, List.count_cons, ih, decide_eq_true_eq, beq_iff_eq]
    split_ifs <;> omega

theorem cntLt_range {l : List Nat} (hn : l.Nodup) {P : Nat → Bool} {m : Nat} (h : ∀ i, i < m → (i ∈ l ↔ P i = true)) :
    ∀ e, e ≤ m → cntLt l e = (List.range e).countP P := by
  intro e
  induction e with
  | zero => intro _; simp [cntLt]
  | succ e ih =>
    intro he
    rw [countP_succ, ih (by omega), List.range_succ, List.countP_append]
    congr 1
    by_cases hP : P e = true
    · rw [List.count_eq_one_of_mem hn ((h e (by omega)).mpr hP)]
      simp [hP]
    · rw [List.count_eq_zero_of_not_mem fun hm => hP ((h e (by omega)).mp hm)]
      simp [hP]

/-- The arrays of shortcuts. -/
structure ScLayout (g : Graph) (ss : List (Nat × (Nat × Nat))) : Prop where
  sorted : ss.Pairwise (fun a b => a.1 < b.1)
  lt : ∀ x ∈ ss, x.1 < g.edgeCount
  len : g.scOffsets.length = g.edgeCount + 1
  offs : ∀ i, i ≤ g.edgeCount → g.scOffsets[i]? = some (cntLt (ss.map Prod.fst) i)
  edges : g.scEdges = ss.map Prod.snd

theorem built_sc {dim : Nat} {es : List ProtoEdge} {ns : List ProtoNode} {g : Graph} (h : build dim es ns = .ok g) :
    ∃ ss, ScLayout g ss := by
  obtain ⟨kept, scs, -, -, hfd, -, -, -, -, h⟩ := build_assemble h
  simp only [assembleRest, Res.bind_eq_ok, Res.pure_eq, Res.ok.injEq] at h
  obtain ⟨-, -, ⟨so, se⟩, h0, fo, h1, im, -, bs, h2, bo, h3, hg⟩ := h
  have hec : g.edgeCount = kept.length := by rw [edgeCount, hfd, List.length_map]
  obtain ⟨hse1, hse2, -⟩ := scEntries_spec (scs := scs) kept 0
  have hlt : ∀ x ∈ scEntries scs 0 kept, x.1 < kept.length := fun x hx => by have := hse2 x hx; omega
  obtain ⟨offs, h4, h5, h6⟩ := scOffsets_ok hse1 kept.length hlt
  rw [List.length_map, h4, Res.ok.injEq, Prod.mk.injEq] at h0
  obtain ⟨rfl, rfl⟩ := h0
  have hso : g.scOffsets = offs := by rw [← hg]
  have hse : g.scEdges = (scEntries scs 0 kept).map Prod.snd := by rw [← hg]
  exact ⟨_, hse1, by rw [hec]; exact hlt, by rw [hso, hec]; exact h5, by rw [hso, hec]; exact h6, hse⟩

section
variable {g : Graph} {ss : List (Nat × (Nat × Nat))}

theorem ScLayout.nodup (h : ScLayout g ss) : (ss.map Prod.fst).Nodup := by
  unfold List.Nodup
  rw [List.pairwise_map]; exact h.sorted.imp (fun h => Nat.ne_of_lt h)

theorem ScLayout.le (h : ScLayout g ss) : (ss.map Prod.fst).Pairwise (· ≤ ·) := by
  rw [List.pairwise_map]; exact h.sorted.imp (fun h => Nat.le_of_lt h)

theorem ScLayout.before (h : ScLayout g ss) {e : Nat} (he : e ≤ g.edgeCount) :
    cntLt (ss.map Prod.fst) e = scBefore g e := by
  refine cntLt_range h.nodup (fun i hi => ?_) e he
  obtain ⟨h1, h2⟩ := scEdgesOf_spec h.sorted h.offs h.edges i hi
  unfold isSc
  constructor
  · intro hm
    obtain ⟨x, hx, rfl⟩ := List.mem_map.mp hm
    rw [h1 x.2 hx]
  · intro hm
    by_contra hcon
    rw [h2 fun p hp => hcon (List.mem_map.mpr ⟨_, hp, rfl⟩)] at hm
    cases hm

theorem ScLayout.count (h : ScLayout g ss) : g.scEdges.length = scBefore g g.edgeCount := by
  rw [← h.before le_rfl, h.edges, List.length_map, cntLt_all, List.length_map]
  intro x hx
  obtain ⟨y, hy, rfl⟩ := List.mem_map.mp hx
  exact h.lt y hy

/-- The loop stops behind the last offset up to `j`. -/
theorem seek_ok {offs : List Nat} {j k : Nat} (hlt : ∀ i, i < k → ∃ x, offs[i]? = some x ∧ x ≤ j) {x : Nat}
    (hk : offs[k]? = some x) (hx : j < x) : ∀ fuel e, e ≤ k → k < e + fuel → seek offs j fuel e = .ok k := by
  intro fuel
  induction fuel with
  | zero => intro e h1 h2; omega
  | succ fuel ih =>
    intro e h1 h2
    unfold seek
    by_cases he : e = k
    · subst he
      rw [hk]
      simp only [Res.ofIdx, Res.ok_bind]
      rw [if_neg (by omega)]
      rfl
    · obtain ⟨y, hy, hle⟩ := hlt e (by omega)
      rw [hy]
      simp only [Res.ofIdx, Res.ok_bind]
      rw [if_pos hle]
      exact ih (e + 1) (by omega) (by omega)

theorem shortcuts_ok (h : ScLayout g ss) : ∃ ls, shortcuts g = .ok ls ∧
    (scBefore g g.edgeCount = 0 → ls = [.noShortcuts]) ∧
    (scBefore g g.edgeCount ≠ 0 → Excerpt (scBefore g g.edgeCount) .shortcutDots (IsShortcut g) ls) := by
  unfold shortcuts
  rw [h.count]
  by_cases h0 : scBefore g g.edgeCount = 0
  · rw [if_pos h0]
    exact ⟨_, rfl, fun _ => rfl, fun hne => absurd h0 hne⟩
  rw [if_neg h0]
  have hlen : ss.length = scBefore g g.edgeCount := by
    rw [← h.count, h.edges, List.length_map]
  suffices hk : ∃ ls, excerpt limit (scBefore g g.edgeCount) .shortcutDots (shortcutLine g) limit 0 0 = .ok ls ∧
      Excerpt (scBefore g g.edgeCount) .shortcutDots (IsShortcut g) ls by
    obtain ⟨ls, h1, h2⟩ := hk
    exact ⟨ls, h1, fun h => absurd h h0, fun _ => h2⟩
  refine excerpt_ok (σ := Nat) (I := fun j e => ∀ x, ss[j]? = some x → e ≤ x.1) ?_ ?_ ?_
  · intro i j e hij hI x hx
    have hj : j < ss.length := lt_length_of_getElem? hx
    have hi : i < ss.length := by omega
    have := hI _ (List.getElem?_eq_getElem hi)
    rw [List.getElem?_eq_getElem hj, Option.some.injEq] at hx
    subst hx
    rcases Nat.lt_or_eq_of_le hij with hlt | rfl
    · exact le_trans this (le_of_lt (List.pairwise_iff_getElem.mp h.sorted i j hi hj hlt))
    · exact this
  · intro j e hj hI
    have hjl : j < ss.length := by omega
    have hx := List.getElem?_eq_getElem hjl
    have he := hI _ hx
    generalize hss : ss[j] = x at hx he
    have hxm : x ∈ ss := List.mem_of_getElem? hx
    have hxlt := h.lt x hxm
    have hfst : (ss.map Prod.fst)[j]? = some x.1 := by rw [List.getElem?_map, hx]; rfl
    obtain ⟨hp1, hp2⟩ := (cntLt_pos h.le x.1 j).mpr hfst
    have hcnt : cntLt (ss.map Prod.fst) x.1 = j := by
      by_contra hne
      have h7 := (cntLt_pos h.le x.1 (cntLt (ss.map Prod.fst) x.1)).mp ⟨le_rfl, by omega⟩
      have hl1 := lt_length_of_getElem? h7
      have hl2 := lt_length_of_getElem? hfst
      rw [List.getElem?_eq_getElem hl1] at h7
      rw [List.getElem?_eq_getElem hl2] at hfst
      exact hne ((List.Nodup.getElem_inj_iff h.nodup).mp ((Option.some.inj h7).trans (Option.some.inj hfst).symm))
    refine ⟨x.1, .shortcut x.1 j x.2, ?_, ⟨x.1, x.2, (scEdgesOf_spec h.sorted h.offs h.edges x.1 hxlt).1 x.2 hxm, ?_, rfl⟩,
      fun y hy => by rw [hx] at hy; cases hy; exact le_rfl⟩
    · unfold shortcutLine
      rw [seek_ok (k := x.1 + 1) (fun i hi => ⟨_, h.offs i (by omega), ?_⟩) (h.offs (x.1 + 1) (by omega)) hp2
        (g.scOffsets.length + 1) e (by omega) (by rw [h.len]; omega)]
      · simp only [Res.ok_bind]
        rw [if_neg (by omega), Nat.add_sub_cancel, h.offs x.1 (by omega), hcnt]
        simp only [Res.ofIdx, Res.ok_bind]
        rw [h.edges, List.getElem?_map, hx]
        rfl
      · rw [← hcnt]; exact cntLt_mono _ (by omega)
    · rw [← h.before (by omega), hcnt]
  · intro x _; exact Nat.zero_le _

end

/-! ## Nodes, edges, offsets -/

section
variable {g : Graph}

theorem nodes_ok (hw : g.WellFormed) :
    ∃ ls, excerpt limit g.nodeCount .nodeDots (nodeLine g) limit 0 () = .ok ls ∧ Excerpt g.nodeCount .nodeDots (IsNode g) ls := by
  refine excerpt_unit fun i hi => ?_
  have h1 : g.nodeIds[i]? = some g.nodeIds[i] := List.getElem?_eq_getElem hi
  have hc : i < g.nodeCoords.length := by rw [hw.coords_len]; exact hi
  have hl : i < g.nodeLevels.length := by rw [hw.levels_len]; exact hi
  have h2 : g.nodeCoords[i]? = some g.nodeCoords[i] := List.getElem?_eq_getElem hc
  have h3 : g.nodeLevels[i]? = some g.nodeLevels[i] := List.getElem?_eq_getElem hl
  refine ⟨.node i g.nodeIds[i] g.nodeCoords[i], ?_, g.nodeIds[i], g.nodeCoords[i], ?_, ?_, rfl⟩
  · simp [nodeLine, createNode, nodeId, nodeCoord, nodeLevel, h1, h2, h3, Res.ofIdx]
  · rw [nodeId, h1]; rfl
  · rw [nodeCoord, h2]; rfl

theorem edges_ok (hw : g.WellFormed) {ss : List (Nat × (Nat × Nat))} (hs : ScLayout g ss) (d : Dir) :
    ∃ ls, excerpt limit (g.dsts d).length (.edgeDots d) (edgeLine g d) limit 0 () = .ok ls ∧
      Excerpt g.edgeCount (.edgeDots d) (IsLine g d) ls := by
  have hlen : (g.dsts d).length = g.edgeCount := by
    cases d
    · rfl
    · exact hw.bwd_len
  rw [hlen]
  refine excerpt_unit fun e he => ?_
  have hf : e < g.fwdDsts.length := he
  have hb : e < g.bwdDsts.length := by rw [hw.bwd_len]; exact he
  have hm : e < g.metrics.length := by rw [hw.metrics_len]; exact he
  have hi : e < g.edgeIds.length := by rw [hw.edgeIds_len]; exact he
  have h1 := List.getElem?_eq_getElem hf
  have h2 := List.getElem?_eq_getElem hb
  have h3 := List.getElem?_eq_getElem hm
  have h4 := List.getElem?_eq_getElem hi
  have h5 := hs.offs e (le_of_lt he)
  rw [hs.before (le_of_lt he)] at h5
  have hE : g.IsEdge e g.bwdDsts[e] g.fwdDsts[e] := ⟨by simp [dstIdx, dsts, Res.ofIdx, h1], by simp [dstIdx, dsts, Res.ofIdx, h2]⟩
  have hT : g.tryId e = .ok g.edgeIds[e] := by rw [tryId, h4]; rfl
  have hM : g.edgeMetrics e = .ok g.metrics[e] := by rw [edgeMetrics, h3]; rfl
  cases d
  · exact ⟨_, by simp [edgeLine, Dir.opp, hE.1, hE.2, hT, hM, h5, Res.ofIdx], _, _, _, _, hT, hE, hM, rfl⟩
  · exact ⟨_, by simp [edgeLine, Dir.opp, hE.1, hE.2, hT, hM, h5, Res.ofIdx], _, _, _, _, hT, hE, hM, rfl⟩

theorem mem_dsts {d : Dir} {u : Nat} : u ∈ g.dsts d ↔ ∃ e, g.dstIdx d e = .ok u := by
  rw [List.mem_iff_getElem?]
  simp only [dstIdx, ofIdx_iff]

theorem ends_iff {d : Dir} (hl : Layout g d) : Ends g d ↔ g.nodeCount - 1 < (g.offsets d).length := by
  rw [hl.length]
  unfold Ends
  constructor
  · rintro (h | ⟨e, u, h1, h2⟩)
    · exact .inl (by omega)
    · exact .inr ⟨u, mem_dsts.mpr ⟨e, h1⟩, by omega⟩
  · rintro (h | ⟨u, hu, h2⟩)
    · exact .inl (by omega)
    · obtain ⟨e, he⟩ := mem_dsts.mp hu
      exact .inr ⟨e, u, he, by omega⟩

theorem offsetLine_ok {d : Dir} (hl : Layout g d) {i : Nat} (hi : i < (g.offsets d).length) :
    offsetLine g d () i = .ok ((), .offset d i (leaving g d i)) := by
  have h1 : (g.offsets d)[i]? = some (g.offsets d)[i] := List.getElem?_eq_getElem hi
  unfold offsetLine
  rw [h1, hl.offset i _ h1]
  rfl

theorem offsets_ok {d : Dir} (hl : Layout g d) (h : Ends g d) :
    ∃ ls, excerpt limit g.nodeCount (.offsetDots d) (offsetLine g d) limit 0 () = .ok ls ∧
      Excerpt g.nodeCount (.offsetDots d) (IsOffset g d) ls := by
  rw [ends_iff hl] at h
  exact excerpt_unit fun i hi => ⟨_, offsetLine_ok hl (by omega), rfl⟩

theorem offsets_panic {d : Dir} (hl : Layout g d) (h : ¬ Ends g d) :
    excerpt limit g.nodeCount (.offsetDots d) (offsetLine g d) limit 0 () = .panic := by
  have hn : 0 < g.nodeCount := by
    by_contra h0
    exact h (.inl (by omega))
  rw [ends_iff hl] at h
  have hp : ∀ i, ¬ i < (g.offsets d).length → offsetLine g d () i = .panic := by
    intro i hi
    unfold offsetLine
    rw [List.getElem?_eq_none (by omega)]
    rfl
  refine excerpt_panic (fun i => ?_) (hp _ h) limit 0 (by simp) (by unfold limit; omega) hn
  by_cases hi : i < (g.offsets d).length
  · exact .inr ⟨_, offsetLine_ok hl hi⟩
  · exact .inl (hp i hi)

theorem direction_ok (hw : g.WellFormed) {ss : List (Nat × (Nat × Nat))} (hs : ScLayout g ss) {d : Dir}
    (hl : Layout g d) (h : Ends g d) : ∃ ls, direction g d = .ok ls ∧ IsDirection g d ls := by
  obtain ⟨es, h1, h2⟩ := edges_ok hw hs d
  obtain ⟨os, h3, h4⟩ := offsets_ok hl h
  have h0 : 1 < (g.offsets d).length := (hl.length 1).mpr (.inl (by omega))
  have hi : (g.offsets d).length - 1 < (g.offsets d).length := by omega
  have h5 : (g.offsets d)[(g.offsets d).length - 1]? = some _ := List.getElem?_eq_getElem hi
  have h6 := hl.offset _ _ h5
  have hlt : ∀ u ∈ g.dsts d.opp, u < (g.offsets d).length - 1 := by
    intro u hu
    have := (hl.length (u + 1)).mpr (.inr ⟨u, hu, le_rfl⟩)
    omega
  have hcnt : (g.dsts d.opp).countP (· < (g.offsets d).length - 1) = g.edgeCount := by
    rw [List.countP_eq_length.mpr fun u hu => by simpa using hlt u hu]
    cases d
    · exact hw.bwd_len
    · rfl
  refine ⟨_, ?_, es, os, (g.offsets d).length - 1, rfl, h2, h4, fun e u he => hlt u (mem_dsts.mpr ⟨e, he⟩), ?_⟩
  · unfold direction
    rw [h1, h3]
    simp only [Res.ok_bind]
    rw [if_neg (by omega), h5, h6, hcnt]
    rfl
  · rcases (hl.length ((g.offsets d).length - 1)).mp hi with h7 | ⟨u, hu, h7⟩
    · exact .inl (by omega)
    · obtain ⟨e, he⟩ := mem_dsts.mp hu
      have := hlt u hu
      exact .inr ⟨e, u, he, by omega⟩

theorem direction_panic (hw : g.WellFormed) {ss : List (Nat × (Nat × Nat))} (hs : ScLayout g ss) {d : Dir}
    (hl : Layout g d) (h : ¬ Ends g d) : direction g d = .panic := by
  obtain ⟨es, h1, -⟩ := edges_ok hw hs d
  unfold direction
  rw [h1, offsets_panic hl h]
  rfl

/-- The layout does not depend on metrics and edge-ids. -/
theorem layout_topo {g0 : Graph} (ht : Gen.SameTopology g0 g) {d : Dir} (h : Layout g0 d) : Layout g d := by
  rw [ht.eq]
  exact ⟨h.all, h.order, h.offset, h.length, h.slice⟩

theorem sc_topo {g0 : Graph} (ht : Gen.SameTopology g0 g) {ss : List (Nat × (Nat × Nat))} (h : ScLayout g0 ss) :
    ScLayout g ss := by
  rw [ht.eq]
  exact ⟨h.sorted, h.lt, h.len, h.offs, h.edges⟩

end

end Verif.Desc
