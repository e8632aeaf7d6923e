import Verif.FmiLemmas

/-!
# Lemmas for reading what has been written
-/

namespace Verif.Fmi

open Cfg Text
open Build (ProtoEdge ProtoNode)
open Gen (Net value)

theorem readEdgeId_printNat {n : Nat} (h : n ≤ maxUsize) : readEdgeId (printNat n) = .ok n := by
  simp [readEdgeId, parseNat_printNat h]

theorem printNat_ne_noShortcut (n : Nat) : printNat n ≠ noShortcut := by
  intro h
  have : '-' ∈ printNat n := by rw [h]; decide
  have := printNat_digits this
  revert this
  decide

theorem readShortcut_some {n : Nat} (h : n ≤ maxUsize) : readShortcut none (printNat n) = .ok (some n) := by
  simp [readShortcut, printNat_ne_noShortcut, parseNat_printNat h]

theorem readShortcut_none {o : Option Nat} : readShortcut o noShortcut = .ok o := by simp [readShortcut]

theorem readEnd_ok {i : Int} (h1 : -(maxI64 : Int) - 1 ≤ i) (h2 : i ≤ maxI64) :
    readEnd none (printInt i) = .ok (some i) := by
  simp [readEnd, parseInt_printInt h1 h2]

/-- Reading a column of the edge `e` with id `id0`, ends `src` and `dst`, and replaced edges `sc`. -/
theorem readColumns_ok {c : Codec} {s : Net} {d : Bool} {e : Nat} (hp : Printable c s d)
    {id0 : Option Nat} {src dst : Int} {sc : Option (Nat × Nat)}
    (hid : ∀ x, s.graph.tryId e = .ok (some x) → id0 = some x)
    (hsrc : ∀ u v x, s.graph.IsEdge e u v → s.graph.nodeId u = .ok x → x = src)
    (hdst : ∀ u v x, s.graph.IsEdge e u v → s.graph.nodeId v = .ok x → x = dst)
    (hsc : s.graph.scEdgesOf e = .ok sc) :
    ∀ (cats : List EdgeCat) (params : List Text) (a : EdgeAcc),
      List.Forall₂ (fun cat t => cat = .ignored ∨ CellIs c s d e t cat) cats params →
      (cats.countP (isInfo .srcId) ≤ if a.src = none then 1 else 0) →
      (cats.countP (isInfo .dstId) ≤ if a.dst = none then 1 else 0) →
      (cats.countP (isInfo .shortcutIdx0) ≤ if a.sc0 = none then 1 else 0) →
      (cats.countP (isInfo .shortcutIdx1) ≤ if a.sc1 = none then 1 else 0) →
      (∀ info ∈ [MetaInfo.srcIdx, .srcLat, .srcLon, .dstIdx, .dstLat, .dstLon],
        cats.countP (isInfo info) = 0) →
      ∃ ys, List.Forall₂ (fun id y => ∃ k : Nat, s.edges.ids[k]? = some id ∧ OutValue s d e k y)
          (metricIds cats) ys ∧
        readColumns c a params cats = .ok
          { id := if 0 < cats.countP (isInfo .edgeId) then id0 else a.id
            src := if 0 < cats.countP (isInfo .srcId) then some src else a.src
            dst := if 0 < cats.countP (isInfo .dstId) then some dst else a.dst
            sc0 := if 0 < cats.countP (isInfo .shortcutIdx0) then sc.map Prod.fst else a.sc0
            sc1 := if 0 < cats.countP (isInfo .shortcutIdx1) then sc.map Prod.snd else a.sc1
            metrics := a.metrics ++ ys } := by
  intro cats
  induction cats with
  | nil =>
    intro params a _ _ _ _ _ _
    exact ⟨[], .nil, by simp [readColumns]⟩
  | cons cat cats ih =>
    intro params a hf h1 h2 h3 h4 h5
    rw [List.forall₂_cons_left_iff] at hf
    obtain ⟨t, params, ht, hf, rfl⟩ := hf
    have h5' : ∀ info ∈ [MetaInfo.srcIdx, .srcLat, .srcLon, .dstIdx, .dstLat, .dstLon],
        cats.countP (isInfo info) = 0 := by
      intro info hi
      have := h5 info hi
      rw [List.countP_cons] at this
      omega
    have h6 : ∀ info ∈ [MetaInfo.srcIdx, .srcLat, .srcLon, .dstIdx, .dstLat, .dstLon],
        isInfo info cat = false := by
      intro info hi
      have := h5 info hi
      rw [List.countP_cons] at this
      by_contra hc
      simp [hc] at this
    rw [List.countP_cons] at h1 h2 h3 h4
    cases cat with
    | ignored =>
      simp only [isInfo, Bool.false_eq_true, if_false, Nat.add_zero] at h1 h2 h3 h4
      obtain ⟨ys, hy, hr⟩ := ih params a hf h1 h2 h3 h4 h5'
      refine ⟨ys, hy, ?_⟩
      simp only [readColumns, readColumn, Res.ok_bind, hr, List.countP_cons, isInfo, Bool.false_eq_true, if_false,
        Nat.add_zero]
    | metric u id =>
      rcases ht with ht | ⟨k, y, hk, -, hy, rfl⟩
      · cases ht
      simp only [isInfo, Bool.false_eq_true, if_false, Nat.add_zero] at h1 h2 h3 h4
      obtain ⟨ys, hys, hr⟩ := ih params { a with metrics := a.metrics ++ [y] } hf h1 h2 h3 h4 h5'
      refine ⟨y :: ys, .cons ⟨k, hk, hy⟩ hys, ?_⟩
      simp only [readColumns, readColumn, (hp.metrics e k y hy).parse, Res.ok_bind, hr, List.countP_cons, isInfo,
        Bool.false_eq_true, if_false, Nat.add_zero, List.append_assoc, List.singleton_append]
    | info i id =>
      rcases ht with ht | ht
      · cases ht
      cases i
      case srcIdx => simp [isInfo] at h6
      case srcLat => simp [isInfo] at h6
      case srcLon => simp [isInfo] at h6
      case dstIdx => simp [isInfo] at h6
      case dstLat => simp [isInfo] at h6
      case dstLon => simp [isInfo] at h6
      case edgeId =>
        obtain ⟨x, hx, rfl⟩ := ht
        simp only [isInfo, reduceCtorEq, decide_false, Bool.false_eq_true, if_false, Nat.add_zero] at h1 h2 h3 h4
        obtain ⟨ys, hys, hr⟩ := ih params { a with id := some x } hf h1 h2 h3 h4 h5'
        refine ⟨ys, hys, ?_⟩
        have := hid x hx
        simp only [readColumns, readColumn, readEdgeId_printNat (hp.edgeId e x hx), Res.ok_bind, Res.pure_eq, hr,
          List.countP_cons, isInfo, reduceCtorEq, decide_false, decide_true, Bool.false_eq_true, if_false, if_true,
          Nat.add_zero, this, ite_self, Nat.zero_lt_succ]
      case srcId =>
        obtain ⟨u, v, x, he, hx, rfl⟩ := ht
        have hxs := hsrc u v x he hx
        subst hxs
        simp only [isInfo, reduceCtorEq, decide_false, decide_true, Bool.false_eq_true, if_false, if_true,
          Nat.add_zero] at h1 h2 h3 h4
        have ha : a.src = none := by
          by_contra hc
          rw [if_neg hc] at h1
          omega
        rw [if_pos ha] at h1
        have h0 : cats.countP (isInfo .srcId) = 0 := by omega
        obtain ⟨ys, hys, hr⟩ := ih params { a with src := some x } hf (by simp [h0]) h2 h3 h4 h5'
        refine ⟨ys, hys, ?_⟩
        simp only [readColumns, readColumn, ha, readEnd_ok (hp.nodeId u x hx).1 (hp.nodeId u x hx).2, Res.ok_bind,
          Res.pure_eq, hr, List.countP_cons, isInfo, reduceCtorEq, decide_false, decide_true, Bool.false_eq_true,
          if_false, if_true, Nat.add_zero, ite_self, Nat.zero_lt_succ]
      case dstId =>
        obtain ⟨u, v, x, he, hx, rfl⟩ := ht
        have hxs := hdst u v x he hx
        subst hxs
        simp only [isInfo, reduceCtorEq, decide_false, decide_true, Bool.false_eq_true, if_false, if_true,
          Nat.add_zero] at h1 h2 h3 h4
        have ha : a.dst = none := by
          by_contra hc
          rw [if_neg hc] at h2
          omega
        rw [if_pos ha] at h2
        have h0 : cats.countP (isInfo .dstId) = 0 := by omega
        obtain ⟨ys, hys, hr⟩ := ih params { a with dst := some x } hf h1 (by simp [h0]) h3 h4 h5'
        refine ⟨ys, hys, ?_⟩
        simp only [readColumns, readColumn, ha, readEnd_ok (hp.nodeId v x hx).1 (hp.nodeId v x hx).2, Res.ok_bind,
          Res.pure_eq, hr, List.countP_cons, isInfo, reduceCtorEq, decide_false, decide_true, Bool.false_eq_true,
          if_false, if_true, Nat.add_zero, ite_self, Nat.zero_lt_succ]
      case shortcutIdx0 =>
        obtain ⟨o, ho, ht⟩ := ht
        rw [hsc, Res.ok.injEq] at ho
        subst ho
        simp only [isInfo, reduceCtorEq, decide_false, decide_true, Bool.false_eq_true, if_false, if_true,
          Nat.add_zero] at h1 h2 h3 h4
        have ha : a.sc0 = none := by
          by_contra hc
          rw [if_neg hc] at h3
          omega
        rw [if_pos ha] at h3
        have h0 : cats.countP (isInfo .shortcutIdx0) = 0 := by omega
        obtain ⟨ys, hys, hr⟩ := ih params { a with sc0 := sc.map Prod.fst } hf h1 h2 (by simp [h0]) h4 h5'
        refine ⟨ys, hys, ?_⟩
        have hrd : readShortcut none t = .ok (sc.map Prod.fst) := by
          rcases ht with ⟨p, rfl, rfl⟩ | ⟨rfl, rfl⟩
          · exact readShortcut_some (hp.sc e p hsc).1
          · exact readShortcut_none
        simp only [readColumns, readColumn, ha, hrd, Res.ok_bind,
          Res.pure_eq, hr, List.countP_cons, isInfo, reduceCtorEq, decide_false, decide_true, Bool.false_eq_true,
          if_false, if_true, Nat.add_zero, ite_self, Nat.zero_lt_succ]
      case shortcutIdx1 =>
        obtain ⟨o, ho, ht⟩ := ht
        rw [hsc, Res.ok.injEq] at ho
        subst ho
        simp only [isInfo, reduceCtorEq, decide_false, decide_true, Bool.false_eq_true, if_false, if_true,
          Nat.add_zero] at h1 h2 h3 h4
        have ha : a.sc1 = none := by
          by_contra hc
          rw [if_neg hc] at h4
          omega
        rw [if_pos ha] at h4
        have h0 : cats.countP (isInfo .shortcutIdx1) = 0 := by omega
        obtain ⟨ys, hys, hr⟩ := ih params { a with sc1 := sc.map Prod.snd } hf h1 h2 h3 (by simp [h0]) h5'
        refine ⟨ys, hys, ?_⟩
        have hrd : readShortcut none t = .ok (sc.map Prod.snd) := by
          rcases ht with ⟨p, rfl, rfl⟩ | ⟨rfl, rfl⟩
          · exact readShortcut_some (hp.sc e p hsc).2
          · exact readShortcut_none
        simp only [readColumns, readColumn, ha, hrd, Res.ok_bind,
          Res.pure_eq, hr, List.countP_cons, isInfo, reduceCtorEq, decide_false, decide_true, Bool.false_eq_true,
          if_false, if_true, Nat.add_zero, ite_self, Nat.zero_lt_succ]

theorem isShortcut_of_wf {g : Graph} (hw : g.WellFormed) {e : Nat} (he : e < g.edgeCount) :
    ∃ b, g.isShortcut e = .ok b := by
  obtain ⟨o, ho⟩ := hw.sc_ok e he
  simp only [Graph.scEdgesOf, Res.bind_eq_ok] at ho
  obtain ⟨b, hb, -⟩ := ho
  exact ⟨b, hb⟩

theorem ends_of_wf {g : Graph} (hw : g.WellFormed) {e : Nat} (he : e < g.edgeCount) :
    ∃ u v src dst, g.IsEdge e u v ∧ g.nodeId u = .ok src ∧ g.nodeId v = .ok dst := by
  have h1 : g.dstIdx .fwd e = .ok g.fwdDsts[e] := Res.ofIdx_eq_ok.mpr (List.getElem?_eq_getElem he)
  have he' : e < g.bwdDsts.length := by rw [hw.bwd_len]; exact he
  have h2 : g.dstIdx .bwd e = .ok g.bwdDsts[e] := Res.ofIdx_eq_ok.mpr (List.getElem?_eq_getElem he')
  have h3 := hw.ends_lt .fwd e _ h1
  have h4 := hw.ends_lt .bwd e _ h2
  exact ⟨_, _, _, _, ⟨h1, h2⟩, Res.ofIdx_eq_ok.mpr (List.getElem?_eq_getElem h4),
    Res.ofIdx_eq_ok.mpr (List.getElem?_eq_getElem h3)⟩

theorem forall₂_imp_mem {α β : Type} {R S : α → β → Prop} {l : List α} {l' : List β}
    (h : List.Forall₂ R l l') (hi : ∀ a ∈ l, ∀ b ∈ l', R a b → S a b) : List.Forall₂ S l l' := by
  induction h with
  | nil => exact .nil
  | cons hab _ ih =>
    exact .cons (hi _ (by simp) _ (by simp) hab) (ih fun a ha b hb => hi a (by simp [ha]) b (by simp [hb]))

/-- The cells of a line, against the columns and against the categories to read. -/
theorem forall₂_join {α β γ : Type} {R : α → β → Prop} {S : α → γ → Prop} {T : γ → β → Prop}
    {l : List α} {l' : List β} {l'' : List γ} (h1 : List.Forall₂ R l l') (h2 : List.Forall₂ S l l'')
    (h : ∀ a b c, R a b → S a c → T c b) : List.Forall₂ T l'' l' := by
  induction h1 generalizing l'' with
  | nil =>
    cases h2
    exact .nil
  | cons hab _ ih =>
    cases h2 with
    | cons hac h2 => exact .cons (h _ _ _ hab hac) (ih h2)

theorem firstCat_unique {α : Type} {idOf : α → Option Text} {cats : List α} {id : Text} {a b : α}
    (ha : FirstCat idOf cats id a) (hb : FirstCat idOf cats id b) : a = b := by
  rw [← find?_firstCat] at ha hb
  rw [ha] at hb
  exact Option.some.inj hb

/-- The cells of an edge. -/
theorem edge_cells {c : Codec} {s : Net} {d : Bool} {e : Nat} (hw : s.graph.WellFormed)
    (hp : Printable c s d) {cols : List (Option Text)} {cats : List EdgeCat}
    (hcols : List.Forall₂ (Fits EdgeCat.id? .ignored s.edges.cats) cols cats) (hc : EdgeCols cats)
    {texts : List Text} (ht : List.Forall₂ (fun col t => edgeColumn c s d e col = .ok t) cols texts) :
    (∀ t ∈ texts, Cell t) ∧
      List.Forall₂ (fun cat t => cat = .ignored ∨ CellIs c s d e t cat) cats texts := by
  constructor
  · intro t ht'
    obtain ⟨i, hi⟩ := List.getElem?_of_mem ht'
    have hl := Gen.lt_of_some hi
    have := ht.length_eq
    have h2 := ht.get (i := i) (by omega) hl
    simp only [List.get_eq_getElem] at h2
    rw [List.getElem?_eq_getElem hl, Option.some.injEq] at hi
    rw [hi] at h2
    rcases edgeColumn_ok h2 with ⟨-, rfl⟩ | ⟨id, cat, -, -, h⟩
    · exact cell_ignoreText
    · exact edgeText_cell hp h
  · have h := forall₂_join (T := fun cat t => cat = .ignored ∨
      (∃ id, FirstCat EdgeCat.id? s.edges.cats id cat ∧ edgeText c s d e cat = .ok t)) ht hcols (by
      rintro col t cat hct (h | ⟨id, rfl, hf⟩)
      · exact .inl h
      · right
        rcases edgeColumn_ok hct with ⟨h, -⟩ | ⟨id', cat', h, hf', htx⟩
        · cases h
        · cases h
          cases firstCat_unique hf hf'
          exact ⟨id, hf, htx⟩)
    refine forall₂_imp_mem h ?_
    rintro cat hcat t - (h | ⟨id, -, h⟩)
    · exact .inl h
    · right
      have h0 : ∀ info ∈ [MetaInfo.srcIdx, .srcLat, .srcLon, .dstIdx, .dstLat, .dstLon],
          isInfo info cat = false := by
        intro info hi
        have := List.countP_eq_zero.mp (hc.supported info hi) cat hcat
        simpa using this
      exact edgeText_ok hw h (h0 _ (by simp)) (h0 _ (by simp))

/-- Reading the line of an edge. -/
theorem readEdge_edgeLine {c : Codec} {s : Net} {d : Bool} {e : Nat} (hw : s.graph.WellFormed)
    (hp : Printable c s d) {cols : List (Option Text)} {cats : List EdgeCat}
    (hcols : List.Forall₂ (Fits EdgeCat.id? .ignored s.edges.cats) cols cats) (hc : EdgeCols cats)
    (he : e < s.graph.edgeCount) {line : Text} (hl : edgeLine c s d cols e = .ok line) :
    ∃ pe, readEdge c cats line = .ok pe ∧ ReadsAs s cats d e pe := by
  simp only [edgeLine, Res.bind_eq_ok, Res.pure_eq, Res.ok.injEq, mapR_ok] at hl
  obtain ⟨texts, ht, rfl⟩ := hl
  obtain ⟨hcell, hcells⟩ := edge_cells hw hp hcols hc ht
  obtain ⟨u, v, src, dst, hedge, hsrc, hdst⟩ := ends_of_wf hw he
  obtain ⟨sc, hsc⟩ := hw.sc_ok e he
  have hide : e < s.graph.edgeIds.length := by rw [hw.edgeIds_len]; exact he
  have hid : s.graph.tryId e = .ok s.graph.edgeIds[e] := Res.ofIdx_eq_ok.mpr (List.getElem?_eq_getElem hide)
  have hpos : ∀ {n : Nat}, n = 1 → 0 < n := by omega
  have huniq : ∀ u' v', s.graph.IsEdge e u' v' → u' = u ∧ v' = v := by
    intro u' v' h
    have h1 := h.1
    have h2 := h.2
    rw [hedge.1, Res.ok.injEq] at h1
    rw [hedge.2, Res.ok.injEq] at h2
    exact ⟨h2.symm, h1.symm⟩
  obtain ⟨ys, hys, hr⟩ := readColumns_ok hp (e := e) (id0 := s.graph.edgeIds[e]) (src := src) (dst := dst) (sc := sc)
    (by
      intro x hx
      rw [hid, Res.ok.injEq] at hx
      exact hx)
    (by
      intro u' v' x h hx
      rw [(huniq u' v' h).1, hsrc, Res.ok.injEq] at hx
      exact hx.symm)
    (by
      intro u' v' x h hx
      rw [(huniq u' v' h).2, hdst, Res.ok.injEq] at hx
      exact hx.symm)
    hsc cats texts ⟨none, none, none, none, none, []⟩ hcells (by simp [hc.src]) (by simp [hc.dst])
    (by simpa using hc.sc0) (by simpa using hc.sc1) hc.supported
  have hread : readEdge c cats (join ' ' texts) = .ok
      { id := if 0 < cats.countP (isInfo .edgeId) then s.graph.edgeIds[e] else none
        srcId := src, dstId := dst, metrics := ys
        sc := both (if 0 < cats.countP (isInfo .shortcutIdx0) then sc.map Prod.fst else none)
          (if 0 < cats.countP (isInfo .shortcutIdx1) then sc.map Prod.snd else none) } := by
    simp only [readEdge, words_line hcell, hr, Res.ok_bind, hpos hc.src, hpos hc.dst, if_true, List.nil_append]
  refine ⟨_, hread, ?_, ?_, ⟨u, hedge.2, hsrc⟩, ⟨v, hedge.1, hdst⟩, hys, ?_, ?_⟩
  · intro h
    simp only [h, if_true]
    exact hid
  · intro h
    simp [h]
  · intro h1 h2
    simp only [h1, h2, if_true]
    rw [hsc]
    cases sc <;> rfl
  · rintro (h | h)
    · simp [h, both]
    · simp only [h, lt_irrefl, if_false]
      cases (if 0 < cats.countP (isInfo .shortcutIdx0) then sc.map Prod.fst else none) <;> rfl

/-! ## Nodes -/

/-- Reading the columns of node `i`. -/
theorem readNodeColumns_ok {c : Codec} {s : Net} {d : Bool} {i : Nat} (hp : Printable c s d) {all : List Text}
    {n : Graph.Node} (hn : s.graph.createNode i = .ok n) :
    ∀ (cats : List NodeCat) (params : List Text) (a : NodeAcc),
      List.Forall₂ (fun cat t => cat = .ignored ∨ NodeCellIs c s.graph i t cat) cats params →
      NodeCols cats →
      readNodeColumns c all a params cats = .ok
          { id := if cats.any (fun | .info .nodeId _ => true | _ => false) then some n.id else a.id
            lat := if cats.any (fun | .metric .latitude _ => true | _ => false) then some n.coord.lat else a.lat
            lon := if cats.any (fun | .metric .longitude _ => true | _ => false) then some n.coord.lon else a.lon
            level := if cats.any (fun | .info .chLevel _ => true | _ => false) then some n.level else a.level } := by
  obtain ⟨h1, h2, h3, h4⟩ := createNode_ok hn
  intro cats
  induction cats with
  | nil =>
    intro params a _ _
    simp [readNodeColumns]
  | cons cat cats ih =>
    intro params a hf hc
    rw [List.forall₂_cons_left_iff] at hf
    obtain ⟨t, params, ht, hf, rfl⟩ := hf
    have hc' : NodeCols cats := fun id => ⟨fun h => (hc id).1 (by simp [h]), fun h => (hc id).2 (by simp [h])⟩
    cases cat with
    | ignored =>
      simp only [readNodeColumns, readNodeColumn, Res.ok_bind, ih params a hf hc', List.any_cons, Bool.false_or]
    | metric u id =>
      rcases ht with ht | ht
      · cases ht
      cases u
      · obtain ⟨x, hx, rfl⟩ := ht
        rw [h3, Res.ok.injEq] at hx
        subst hx
        simp only [readNodeColumns, readNodeColumn, (hp.coord _ _ h3).1.parse, Res.ok_bind, ih params _ hf hc',
          List.any_cons, Bool.false_or, Bool.true_or, if_true, ite_self]
      · obtain ⟨x, hx, rfl⟩ := ht
        rw [h3, Res.ok.injEq] at hx
        subst hx
        simp only [readNodeColumns, readNodeColumn, (hp.coord _ _ h3).2.parse, Res.ok_bind, ih params _ hf hc',
          List.any_cons, Bool.false_or, Bool.true_or, if_true, ite_self]
      · cases ht
    | info j id =>
      rcases ht with ht | ht
      · cases ht
      cases j
      · obtain ⟨x, hx, rfl⟩ := ht
        rw [h2, Res.ok.injEq] at hx
        subst hx
        simp only [readNodeColumns, readNodeColumn, parseInt_printInt (hp.nodeId _ _ h2).1 (hp.nodeId _ _ h2).2,
          Res.ok_bind, ih params _ hf hc', List.any_cons, Bool.false_or, Bool.true_or, if_true, ite_self]
      · exact absurd (by simp) (hc id).1
      · obtain ⟨x, hx, rfl⟩ := ht
        rw [h4, Res.ok.injEq] at hx
        subst hx
        simp only [readNodeColumns, readNodeColumn, parseNat_printNat (hp.level _ _ h4),
          Res.ok_bind, ih params _ hf hc', List.any_cons, Bool.false_or, Bool.true_or, if_true, ite_self]

/-- The cells of a node. -/
theorem node_cells {c : Codec} {s : Net} {d : Bool} {i : Nat} (hp : Printable c s d)
    {cols : List (Option Text)} {cats : List NodeCat}
    (hcols : List.Forall₂ (Fits idOfNode .ignored s.nodes) cols cats)
    {texts : List Text} (ht : List.Forall₂ (fun col t => nodeColumn c s i col = .ok t) cols texts) :
    (∀ t ∈ texts, Cell t) ∧
      List.Forall₂ (fun cat t => cat = .ignored ∨ NodeCellIs c s.graph i t cat) cats texts := by
  constructor
  · intro t ht'
    obtain ⟨j, hj⟩ := List.getElem?_of_mem ht'
    have hl := Gen.lt_of_some hj
    have := ht.length_eq
    have h2 := ht.get (i := j) (by omega) hl
    simp only [List.get_eq_getElem] at h2
    rw [List.getElem?_eq_getElem hl, Option.some.injEq] at hj
    rw [hj] at h2
    rcases nodeColumn_ok h2 with ⟨-, rfl⟩ | ⟨id, cat, -, -, h⟩
    · exact cell_ignoreText
    · exact nodeCell_cell hp h
  · refine forall₂_join ht hcols ?_
    rintro col t cat hct (h | ⟨id, rfl, hf⟩)
    · exact .inl h
    · right
      rcases nodeColumn_ok hct with ⟨h, -⟩ | ⟨id', cat', h, hf', htx⟩
      · cases h
      · cases h
        cases firstCat_unique hf hf'
        exact htx

theorem createNode_total {g : Graph} (hw : g.WellFormed) {i : Nat} (hi : i < g.nodeCount) :
    ∃ n, g.createNode i = .ok n := by
  have h1 : g.nodeId i = .ok g.nodeIds[i] := Res.ofIdx_eq_ok.mpr (List.getElem?_eq_getElem hi)
  have hc : i < g.nodeCoords.length := by rw [hw.coords_len]; exact hi
  have hl : i < g.nodeLevels.length := by rw [hw.levels_len]; exact hi
  have h2 : g.nodeCoord i = .ok g.nodeCoords[i] := Res.ofIdx_eq_ok.mpr (List.getElem?_eq_getElem hc)
  have h3 : g.nodeLevel i = .ok g.nodeLevels[i] := Res.ofIdx_eq_ok.mpr (List.getElem?_eq_getElem hl)
  exact ⟨⟨i, g.nodeIds[i], g.nodeCoords[i], g.nodeLevels[i]⟩, by
    simp [Graph.createNode, h1, h2, h3]⟩

/-- What the check of the configuration guarantees. -/
theorem check_nodes {maxDim : Nat} {cfg : Parsing} (h : Cfg.check maxDim cfg = .ok ⟨⟩) :
    (cfg.nodes.any fun | .info .nodeId _ => true | _ => false) = true ∧
    (cfg.nodes.any fun | .metric .latitude _ => true | _ => false) = true ∧
    (cfg.nodes.any fun | .metric .longitude _ => true | _ => false) = true := by
  unfold Cfg.check at h
  split at h
  · cases h
  · split at h
    · cases h
    · split at h
      · cases h
      · rename_i h1 h2 h3
        simp only [Bool.not_eq_true', Bool.not_eq_false] at h1 h2 h3
        exact ⟨h1, h2, h3⟩

/-- Reading the line of a node. -/
theorem readNode_nodeLine {c : Codec} {s : Net} {d : Bool} {i maxDim : Nat} {cfg : Parsing}
    (hw : s.graph.WellFormed) (hp : Printable c s d) (hcheck : Cfg.check maxDim cfg = .ok ⟨⟩)
    {cols : List (Option Text)}
    (hcols : List.Forall₂ (Fits idOfNode .ignored s.nodes) cols cfg.nodes) (hc : NodeCols cfg.nodes)
    (hi : i < s.graph.nodeCount) {line : Text} (hl : nodeLine c s cols i = .ok line) :
    ∃ pn, readNode c cfg.nodes line = .ok pn ∧ NodeReadsAs s.graph cfg.nodes i pn := by
  simp only [nodeLine, Res.bind_eq_ok, Res.pure_eq, Res.ok.injEq, mapR_ok] at hl
  obtain ⟨texts, ht, rfl⟩ := hl
  obtain ⟨hcell, hcells⟩ := node_cells hp hcols ht
  obtain ⟨n, hn⟩ := createNode_total hw hi
  obtain ⟨h1, h2, h3, h4⟩ := createNode_ok hn
  obtain ⟨k1, k2, k3⟩ := check_nodes hcheck
  have hr := readNodeColumns_ok hp (all := texts) hn cfg.nodes texts ⟨none, none, none, none⟩ hcells hc
  have hread : readNode c cfg.nodes (join ' ' texts) = .ok
      { id := n.id, coord := n.coord
        level := if cfg.nodes.any (fun | .info .chLevel _ => true | _ => false) then some n.level else none } := by
    simp only [readNode, words_line hcell, hr, Res.ok_bind, k1, k2, k3, if_true]
  refine ⟨_, hread, h2, h3, ?_, ?_⟩
  · rintro ⟨id, h⟩
    refine ⟨n.level, h4, ?_⟩
    rw [if_pos]
    exact List.any_eq_true.mpr ⟨_, h, rfl⟩
  · intro h
    dsimp only
    rw [if_neg]
    intro hc
    obtain ⟨cat, h1, h2⟩ := List.any_eq_true.mp hc
    split at h2
    · exact h _ h1
    · cases h2

end Verif.Fmi
