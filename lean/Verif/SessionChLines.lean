import Verif.SessionChSpec
import Verif.SessionLemmas2
import Verif.ContractLemmas

/-!
# Lemmas about maps with shortcuts and levels
-/

namespace Verif.Session

open Text Cfg
open Fmi (readColumns readColumn readEdge EdgeAcc readNode readNodeColumns readNodeColumn NodeAcc readShortcut)
open Build (ProtoEdge ProtoNode build Chain chainCost lifted EdgeIs recordCost)

theorem readShortcut_iff {old new : Option Nat} {p : Text} (h : readShortcut old p = .ok new) (i : Nat) :
    new = some i ↔ old = some i ∨ parseNat maxUsize p = some i := by
  unfold readShortcut at h
  split at h
  · rename_i hp
    cases h
    subst hp
    rw [show parseNat maxUsize Fmi.noShortcut = none by decide +kernel]
    simp
  · split at h
    · cases h
    · rename_i n hn
      split at h
      · rename_i ho
        cases h
        rw [hn, ho]
        simp
      · cases h

/-- The line has this number in a column of this kind. -/
def Mentions (kind : MetaInfo) (cats : List EdgeCat) (params : List Text) (i : Nat) : Prop :=
  ∃ (k : Nat) (id t : Text), cats[k]? = some (.info kind id) ∧ params[k]? = some t ∧ parseNat maxUsize t = some i

theorem mentions_cons {kind : MetaInfo} {cat : EdgeCat} {cats : List EdgeCat} {p : Text} {params : List Text} {i : Nat} :
    Mentions kind (cat :: cats) (p :: params) i ↔
      (∃ id, cat = .info kind id ∧ parseNat maxUsize p = some i) ∨ Mentions kind cats params i := by
  constructor
  · rintro ⟨k, id, t, h1, h2, h3⟩
    cases k with
    | zero =>
      simp only [List.getElem?_cons_zero, Option.some.injEq] at h1 h2
      exact .inl ⟨id, h1, by rw [h2]; exact h3⟩
    | succ k => exact .inr ⟨k, id, t, by simpa using h1, by simpa using h2, h3⟩
  · rintro (⟨id, h1, h2⟩ | ⟨k, id, t, h1, h2, h3⟩)
    · exact ⟨0, id, p, by simp [h1], by simp, h2⟩
    · exact ⟨k + 1, id, t, by simpa using h1, by simpa using h2, h3⟩

theorem readColumn_sc {c : Fmi.Codec} {a a' : EdgeAcc} {p : Text} {cat : EdgeCat} (h : readColumn c a p cat = .ok a')
    (i : Nat) :
    (a'.sc0 = some i ↔ a.sc0 = some i ∨ ∃ id, cat = .info .shortcutIdx0 id ∧ parseNat maxUsize p = some i) ∧
    (a'.sc1 = some i ↔ a.sc1 = some i ∨ ∃ id, cat = .info .shortcutIdx1 id ∧ parseNat maxUsize p = some i) := by
  cases cat with
  | ignored =>
    cases h
    simp
  | metric u id =>
    simp only [readColumn] at h
    split at h
    · cases h
      simp
    · cases h
  | info k id =>
    cases k <;> simp only [readColumn, Res.bind_eq_ok, Res.pure_eq, Res.ok.injEq, reduceCtorEq] at h
    case shortcutIdx0 =>
      obtain ⟨new, h1, rfl⟩ := h
      simp [readShortcut_iff h1]
    case shortcutIdx1 =>
      obtain ⟨new, h1, rfl⟩ := h
      simp [readShortcut_iff h1]
    all_goals
      obtain ⟨new, -, rfl⟩ := h
      simp

theorem readColumns_sc {c : Fmi.Codec} {cats : List EdgeCat} {params : List Text} {a a' : EdgeAcc}
    (h : readColumns c a params cats = .ok a') (i : Nat) :
    (a'.sc0 = some i ↔ a.sc0 = some i ∨ Mentions .shortcutIdx0 cats params i) ∧
    (a'.sc1 = some i ↔ a.sc1 = some i ∨ Mentions .shortcutIdx1 cats params i) := by
  induction cats generalizing params a with
  | nil =>
    simp only [readColumns, Res.ok.injEq] at h
    subst h
    simp [Mentions]
  | cons cat cats ih =>
    cases params with
    | nil => simp [readColumns] at h
    | cons p params =>
      simp only [readColumns, Res.bind_eq_ok] at h
      obtain ⟨a1, h1, h2⟩ := h
      obtain ⟨c1, c2⟩ := readColumn_sc h1 i
      obtain ⟨d1, d2⟩ := ih h2
      rw [d1, d2, c1, c2, mentions_cons, mentions_cons, or_assoc, or_assoc]
      exact ⟨Iff.rfl, Iff.rfl⟩

/-- A record is a shortcut iff its line is. -/
theorem readEdge_sc {c : Fmi.Codec} {cats : List EdgeCat} {line : Text} {pe : ProtoEdge}
    (h : readEdge c cats line = .ok pe) (i j : Nat) : pe.sc = some (i, j) ↔ StandsFor cats line i j := by
  simp only [readEdge, Res.bind_eq_ok] at h
  obtain ⟨a, h1, h2⟩ := h
  have hi := (readColumns_sc h1 i).1
  have hj := (readColumns_sc h1 j).2
  simp only [reduceCtorEq, false_or] at hi hj
  split at h2
  · cases h2
  · split at h2
    · cases h2
    · cases h2
      change Fmi.both a.sc0 a.sc1 = _ ↔ Mentions .shortcutIdx0 cats (words line) i ∧ Mentions .shortcutIdx1 cats (words line) j
      rw [← hi, ← hj]
      cases a.sc0 <;> cases a.sc1 <;> simp [Fmi.both]

theorem plain_iff {c : Fmi.Codec} {cats : List EdgeCat} {line : Text} {pe : ProtoEdge}
    (h : readEdge c cats line = .ok pe) : pe.sc = none ↔ ¬ ∃ i j, StandsFor cats line i j := by
  cases hp : pe.sc with
  | none =>
    simp only [true_iff]
    rintro ⟨i, j, hs⟩
    rw [← readEdge_sc h, hp] at hs
    cases hs
  | some ij =>
    simp only [reduceCtorEq, false_iff, not_not]
    exact ⟨ij.1, ij.2, (readEdge_sc h _ _).mp hp⟩

theorem mem_plainLines {cats : List EdgeCat} {lines : List Text} {line : Text} :
    line ∈ plainLines cats lines ↔ line ∈ lines ∧ ¬ ∃ i j, StandsFor cats line i j := by
  unfold plainLines
  simp

section
variable {c : Fmi.Codec} {cats : List EdgeCat} {lines : List Text} {es : List ProtoEdge}

/-- Chains of plain records are chains of plain lines. -/
theorem connects_of_plain (h : List.Forall₂ (fun line pe => readEdge c cats line = .ok pe) lines es) :
    ∀ {rs : List ProtoEdge} {a b : Int}, (∀ pe ∈ rs, pe ∈ es ∧ pe.sc = none) → Chain a rs b →
      Connects c cats (plainLines cats lines) a (rs.map (·.metrics)) b
  | [], _, _, _, hc => hc
  | pe :: rs, a, b, hm, hc => by
    obtain ⟨h1, h2⟩ := hc
    obtain ⟨h5, h6⟩ := hm pe (by simp)
    obtain ⟨line, h3, h4⟩ := Exp.forall₂_mem_right h h5
    have := (readEdge_leads h4).1
    rw [h1] at this
    exact ⟨line, mem_plainLines.mpr ⟨h3, (plain_iff h4).mp h6⟩, pe.dstId, this,
      connects_of_plain h (fun x hx => hm x (by simp [hx])) h2⟩

theorem connects_mono {lines' : List Text} (hsub : ∀ line ∈ lines', line ∈ lines) :
    ∀ {ms : List (List ℚ)} {a b : Int}, Connects c cats lines' a ms b → Connects c cats lines a ms b
  | [], _, _, h => h
  | _ :: _, _, _, ⟨line, h1, x, h2, h3⟩ => ⟨line, hsub line h1, x, h2, connects_mono hsub h3⟩

theorem record_of (h : List.Forall₂ (fun line pe => readEdge c cats line = .ok pe) lines es) {line : Text}
    (hl : line ∈ lines) {a b : Int} {m : List ℚ} (hm : Leads c cats line a b m) :
    ∃ pe ∈ es, readEdge c cats line = .ok pe ∧ pe.srcId = a ∧ pe.dstId = b ∧ pe.metrics = m := by
  obtain ⟨j, hj⟩ := List.getElem?_of_mem hl
  obtain ⟨pe, h1, h2⟩ := (Build.forall₂_getElem? h).2.1 j line hj
  exact ⟨pe, List.mem_of_getElem? h1, h2, readEdge_unique h2 hm⟩

theorem shortcutsLead_records (h : List.Forall₂ (fun line pe => readEdge c cats line = .ok pe) lines es)
    (hl : ShortcutsLead c cats lines) : Build.ShortcutsLead es := by
  intro pe hpe i j hs
  obtain ⟨line, h1, h2⟩ := Exp.forall₂_mem_right h hpe
  obtain ⟨l1, l2, x, m1, m2, h3, h4, h5, h6⟩ := hl line h1 i j _ _ _ ((readEdge_sc h2 i j).mp hs) (readEdge_leads h2).1
  obtain ⟨p, h7, h8⟩ := (Build.forall₂_getElem? h).2.1 i l1 h3
  obtain ⟨q, h9, h10⟩ := (Build.forall₂_getElem? h).2.1 j l2 h4
  obtain ⟨h11, h12, -⟩ := readEdge_unique h8 h5
  obtain ⟨h13, h14, -⟩ := readEdge_unique h10 h6
  exact ⟨p, q, h7, h9, h11, h13.trans h12.symm, h14⟩

theorem recordCost_eq (al : List ℚ) (pe : ProtoEdge) : recordCost al pe = costOf al pe.metrics := rfl

theorem shortcutsCost_records {al : List ℚ} (h : List.Forall₂ (fun line pe => readEdge c cats line = .ok pe) lines es)
    (hl : ShortcutsCost c cats lines al) : Build.ShortcutsCost al es := by
  intro pe hpe i j p q hs hp hq
  obtain ⟨line, h1, h2⟩ := Exp.forall₂_mem_right h hpe
  obtain ⟨l1, h3, h4⟩ := (Build.forall₂_getElem? h).2.2 i p hp
  obtain ⟨l2, h5, h6⟩ := (Build.forall₂_getElem? h).2.2 j q hq
  exact hl line h1 i j _ _ _ ((readEdge_sc h2 i j).mp hs) (readEdge_leads h2).1 l1 l2 _ _ _ _ _ _ h3 h5
    (readEdge_leads h4).1 (readEdge_leads h6).1

/-- Lines over high nodes are records over high nodes. -/
theorem chain_of_above (h : List.Forall₂ (fun line pe => readEdge c cats line = .ok pe) lines es) {lv : Int → Nat}
    {k : Nat} : ∀ {ms : List (List ℚ)} {a b : Int}, ConnectsAbove c cats lines lv k a ms b →
      ∃ rs : List ProtoEdge, (∀ r ∈ rs, r ∈ es) ∧ Chain a rs b ∧ (∀ r ∈ rs.dropLast, k < lv r.dstId) ∧
        rs.map (·.metrics) = ms
  | [], a, b, hc => ⟨[], by simp, hc, by simp, rfl⟩
  | [m], a, b, ⟨line, h1, h2⟩ => by
    obtain ⟨pe, h3, -, h4, h5, h6⟩ := record_of h h1 h2
    exact ⟨[pe], by simpa using h3, ⟨h4, h5⟩, by simp, by simp [h6]⟩
  | m :: m' :: ms, a, b, ⟨line, h1, x, h2, hk, hr⟩ => by
    obtain ⟨pe, h3, -, h4, h5, h6⟩ := record_of h h1 h2
    obtain ⟨rs, h7, h8, h9, h10⟩ := chain_of_above h hr
    refine ⟨pe :: rs, ?_, ⟨h4, by rw [h5]; exact h8⟩, ?_, by rw [List.map_cons, h6, h10]⟩
    · intro y hy
      rcases List.mem_cons.mp hy with rfl | hy
      · exact h3
      · exact h7 y hy
    · intro y hy
      cases rs with
      | nil => simp at hy
      | cons r rs =>
        rw [List.dropLast_cons_cons] at hy
        rcases List.mem_cons.mp hy with rfl | hy
        · rw [h5]; exact hk
        · exact h9 y hy

theorem contracted_records {al : List ℚ} {lv lv' : Int → Nat}
    (h : List.Forall₂ (fun line pe => readEdge c cats line = .ok pe) lines es)
    (hlv : ∀ pe ∈ es, lv' pe.srcId = lv pe.srcId ∧ lv' pe.dstId = lv pe.dstId)
    (hc : ContractedLines c cats lines lv al) : Build.ContractedRecords al lv' es := by
  constructor
  · intro pe hpe hne
    obtain ⟨line, h1, h2⟩ := Exp.forall₂_mem_right h hpe
    rw [(hlv pe hpe).1, (hlv pe hpe).2]
    exact hc.differ line h1 _ _ _ (readEdge_leads h2).1 hne
  · intro pe hpe pe' hpe' h1 h2 h3
    obtain ⟨line, h4, h5⟩ := Exp.forall₂_mem_right h hpe
    obtain ⟨line', h6, h7⟩ := Exp.forall₂_mem_right h hpe'
    have h8 := (readEdge_leads h7).1
    rw [h1] at h8
    rw [(hlv pe hpe).2, (hlv pe hpe).1] at h2
    rw [(hlv pe hpe).2, (hlv pe' hpe').2] at h3
    obtain ⟨ms, h9, h10⟩ := hc.bypass line h4 line' h6 _ _ _ _ _ (readEdge_leads h5).1 h8 h2 h3
    obtain ⟨rs, h11, h12, h13, h14⟩ := chain_of_above h h9
    refine ⟨rs, h11, h12, fun r hr => ?_, ?_⟩
    · rw [(hlv pe hpe).2, (hlv r (h11 r (List.dropLast_subset _ hr))).2]
      exact h13 r hr
    · rw [chainCost_eq, h14]
      exact h10

end

/-! ## Lines of nodes -/

/-- What one column changes. -/
theorem readNodeColumn_ok {c : Fmi.Codec} {all : List Text} {a a' : NodeAcc} {p : Text} {cat : NodeCat}
    (h : readNodeColumn c all a p cat = .ok a') :
    (∀ id, a'.id = some id → a.id = some id ∨ ∃ name, cat = .info .nodeId name ∧ parseInt maxI64 p = some id) ∧
    (∀ l, a'.level = some l → a.level = some l ∨ ∃ name, cat = .info .chLevel name ∧ parseNat maxUsize p = some l) ∧
    ((a.level ≠ none ∨ ∃ name, cat = .info .chLevel name) → a'.level ≠ none) := by
  cases cat with
  | ignored =>
    cases h
    refine ⟨fun _ h => .inl h, fun _ h => .inl h, ?_⟩
    rintro (h | ⟨_, h⟩)
    · exact h
    · cases h
  | metric u id =>
    cases u <;> simp only [readNodeColumn] at h
    · split at h
      · cases h
        refine ⟨fun _ h => .inl h, fun _ h => .inl h, ?_⟩
        rintro (h | ⟨_, h⟩)
        · exact h
        · cases h
      · split at h <;> cases h
    · split at h
      · cases h
        refine ⟨fun _ h => .inl h, fun _ h => .inl h, ?_⟩
        rintro (h | ⟨_, h⟩)
        · exact h
        · cases h
      · split at h <;> cases h
    · cases h
  | info k id =>
    cases k <;> simp only [readNodeColumn] at h
    · split at h
      · rename_i x hx
        cases h
        refine ⟨fun y h => .inr ⟨id, rfl, ?_⟩, fun _ h => .inl h, ?_⟩
        · simp only [Option.some.injEq] at h
          rw [hx, h]
        · rintro (h | ⟨_, h⟩)
          · exact h
          · cases h
      · cases h
    all_goals first
      | cases h
      | (split at h
         · rename_i x hx
           cases h
           refine ⟨fun y h => .inl h, fun y h => .inr ⟨id, rfl, ?_⟩, fun _ => by simp⟩
           simp only [Option.some.injEq] at h
           rw [hx, h]
         · cases h)

theorem readNodeColumns_ok {c : Fmi.Codec} {all : List Text} {cats : List NodeCat} {params : List Text} {a a' : NodeAcc}
    (h : readNodeColumns c all a params cats = .ok a') :
    (∀ id, a'.id = some id → a.id = some id ∨ ∃ (k : Nat) (name t : Text), cats[k]? = some (.info .nodeId name) ∧
      params[k]? = some t ∧ parseInt maxI64 t = some id) ∧
    (∀ l, a'.level = some l → a.level = some l ∨ ∃ (k : Nat) (name t : Text), cats[k]? = some (.info .chLevel name) ∧
      params[k]? = some t ∧ parseNat maxUsize t = some l) ∧
    ((a.level ≠ none ∨ ∃ name, .info .chLevel name ∈ cats) → a'.level ≠ none) := by
  induction cats generalizing params a with
  | nil =>
    simp only [readNodeColumns, Res.ok.injEq] at h
    subst h
    exact ⟨fun _ h => .inl h, fun _ h => .inl h, by simp⟩
  | cons cat cats ih =>
    cases params with
    | nil => simp [readNodeColumns] at h
    | cons p params =>
      simp only [readNodeColumns, Res.bind_eq_ok] at h
      obtain ⟨a1, h1, h2⟩ := h
      obtain ⟨c1, c2, c3⟩ := readNodeColumn_ok h1
      obtain ⟨d1, d2, d3⟩ := ih h2
      refine ⟨fun id hid => ?_, fun l hl => ?_, fun hh => d3 ?_⟩
      · rcases d1 id hid with h3 | ⟨k, name, t, h3, h4, h5⟩
        · rcases c1 id h3 with h4 | ⟨name, h4, h5⟩
          · exact .inl h4
          · exact .inr ⟨0, name, p, by simp [h4], by simp, h5⟩
        · exact .inr ⟨k + 1, name, t, by simpa using h3, by simpa using h4, h5⟩
      · rcases d2 l hl with h3 | ⟨k, name, t, h3, h4, h5⟩
        · rcases c2 l h3 with h4 | ⟨name, h4, h5⟩
          · exact .inl h4
          · exact .inr ⟨0, name, p, by simp [h4], by simp, h5⟩
        · exact .inr ⟨k + 1, name, t, by simpa using h3, by simpa using h4, h5⟩
      · rcases hh with hh | ⟨name, hh⟩
        · exact .inl (c3 (.inl hh))
        · rcases List.mem_cons.mp hh with hh | hh
          · exact .inl (c3 (.inr ⟨name, hh.symm⟩))
          · exact .inr ⟨name, hh⟩

theorem readNode_level {c : Fmi.Codec} {cats : List NodeCat} {line : Text} {n : ProtoNode}
    (h : readNode c cats line = .ok n) (hc : ∃ name, .info .chLevel name ∈ cats) :
    ∃ l, n.level = some l ∧ HasLevel cats line n.id l := by
  simp only [readNode, Res.bind_eq_ok] at h
  obtain ⟨a, h1, h2⟩ := h
  obtain ⟨d1, d2, d3⟩ := readNodeColumns_ok h1
  have hne := d3 (.inr hc)
  split at h2
  · cases h2
  · rename_i id hid
    split at h2
    · cases h2
      cases hl : a.level with
      | none => exact absurd hl hne
      | some l =>
        refine ⟨l, rfl, ?_, ?_⟩
        · simpa using d1 id hid
        · simpa using d2 l hl
    · cases h2

/-- The levels of records are those of lines. -/
theorem levelOf_eq {c : Fmi.Codec} {cats : List NodeCat} {lines : List Text} {ns : List ProtoNode} {lv : Int → Nat}
    (h : List.Forall₂ (fun line n => readNode c cats line = .ok n) lines ns) (hl : Levels cats lines lv) {id : Int}
    (hid : ∃ n ∈ ns, n.id = id) : Build.levelOf ns id = lv id := by
  have key : ∀ n ∈ ns, n.level = some (lv n.id) := by
    intro n hn
    obtain ⟨line, h1, h2⟩ := Exp.forall₂_mem_right h hn
    obtain ⟨l, h3, h4⟩ := readNode_level h2 hl.1
    rw [h3, hl.2 line h1 _ _ h4]
  unfold Build.levelOf Build.lastLevel
  have h1 : ∀ l ∈ (ns.filter (fun n => n.id = id)).filterMap ProtoNode.level, l = lv id := by
    intro l hl
    obtain ⟨n, hn, hn'⟩ := List.mem_filterMap.mp hl
    obtain ⟨h2, h3⟩ := List.mem_filter.mp hn
    simp only [decide_eq_true_eq] at h3
    rw [key n h2, h3, Option.some.injEq] at hn'
    exact hn'.symm
  cases hx : ((ns.filter (fun n => n.id = id)).filterMap ProtoNode.level).getLast? with
  | none =>
    obtain ⟨n, hn, rfl⟩ := hid
    rw [List.getLast?_eq_none_iff] at hx
    have : lv n.id ∈ (ns.filter (fun m => m.id = n.id)).filterMap ProtoNode.level :=
      List.mem_filterMap.mpr ⟨n, List.mem_filter.mpr ⟨hn, by simp⟩, key n hn⟩
    rw [hx] at this
    cases this
  | some l => exact h1 l (List.mem_of_getLast? hx)

end Verif.Session
