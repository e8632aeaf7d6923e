import Verif.FmiSpec
import Verif.GeneratingLemmas

/-!
# Lemmas for reading and writing fmi-files
-/

namespace Verif.Fmi

open Cfg Text
open Build (ProtoEdge ProtoNode)
open Gen (Net value)

/-! ## Helpers -/

theorem mapR_ok {ε α β : Type} {f : α → Res ε β} {l : List α} {l' : List β} :
    mapR f l = .ok l' ↔ List.Forall₂ (fun a b => f a = .ok b) l l' := by
  induction l generalizing l' with
  | nil =>
    simp only [mapR, Res.ok.injEq, List.forall₂_nil_left_iff]
    exact eq_comm
  | cons a l ih =>
    simp only [mapR, Res.bind_eq_ok, Res.pure_eq, Res.ok.injEq, List.forall₂_cons_left_iff]
    constructor
    · rintro ⟨b, hb, bs, hbs, rfl⟩
      exact ⟨b, bs, hb, ih.mp hbs, rfl⟩
    · rintro ⟨b, bs, hb, hbs, rfl⟩
      exact ⟨b, hb, bs, ih.mpr hbs, rfl⟩

theorem mapR_total {ε α β : Type} {f : α → Res ε β} {l : List α} (h : ∀ a ∈ l, ∃ b, f a = .ok b) :
    ∃ l', mapR f l = .ok l' := by
  induction l with
  | nil => exact ⟨[], rfl⟩
  | cons a l ih =>
    obtain ⟨b, hb⟩ := h a (by simp)
    obtain ⟨bs, hbs⟩ := ih fun x hx => h x (by simp [hx])
    exact ⟨b :: bs, by simp [mapR, hb, hbs]⟩

theorem acc_ok {α : Type} {r : Res AccErr α} {a : α} : acc r = .ok a ↔ r = .ok a := by
  cases r <;> simp [acc]

theorem find?_firstCat {α : Type} {idOf : α → Option Text} {cats : List α} {id : Text} {cat : α} :
    (cats.find? fun d => decide (idOf d = some id)) = some cat ↔ FirstCat idOf cats id cat := by
  induction cats with
  | nil => simp [FirstCat]
  | cons d cats ih =>
    rw [List.find?_cons]
    by_cases hd : idOf d = some id
    · simp only [hd, decide_true, Option.some.injEq]
      constructor
      · rintro rfl
        exact ⟨0, rfl, hd, by simp⟩
      · rintro ⟨n, h1, h2, h3⟩
        cases n with
        | zero => simpa using h1
        | succ n => exact absurd hd (h3 0 d (by omega) rfl)
    · simp only [hd, decide_false]
      rw [ih]
      constructor
      · rintro ⟨n, h1, h2, h3⟩
        refine ⟨n + 1, h1, h2, ?_⟩
        intro m x hm hx
        cases m with
        | zero =>
          simp only [List.getElem?_cons_zero, Option.some.injEq] at hx
          subst hx
          exact hd
        | succ m => exact h3 m x (by omega) (by simpa using hx)
      · rintro ⟨n, h1, h2, h3⟩
        cases n with
        | zero =>
          simp only [List.getElem?_cons_zero, Option.some.injEq] at h1
          subst h1
          exact absurd h2 hd
        | succ n =>
          exact ⟨n, by simpa using h1, h2, fun m x hm hx => h3 (m + 1) x (by omega) (by simpa using hx)⟩

theorem nodeCatId_eq : nodeCatId = idOfNode := by
  funext c
  cases c <;> rfl

theorem tryIdxOf_ok {e : Edges} {id : Text} {k : Nat} (h : e.tryIdxOf id = .ok k) :
    e.ids[k]? = some id ∧ ∀ j : Nat, j < k → e.ids[j]? ≠ some id := by
  unfold Edges.tryIdxOf at h
  split at h
  · rename_i i hi
    cases h
    rw [List.findIdx?_eq_some_iff_getElem] at hi
    obtain ⟨hl, h1, h2⟩ := hi
    refine ⟨by rw [List.getElem?_eq_getElem hl]; simpa using h1, ?_⟩
    intro j hj hc
    have := h2 j hj
    rw [List.getElem?_eq_getElem (by omega), Option.some.injEq] at hc
    simp [hc] at this
  · cases h

theorem tryIdxOf_total {e : Edges} {id : Text} (h : id ∈ e.ids) : ∃ k, e.tryIdxOf id = .ok k := by
  unfold Edges.tryIdxOf
  split
  · exact ⟨_, rfl⟩
  · rename_i hi
    rw [List.findIdx?_eq_none_iff] at hi
    simpa using hi id h

/-! ## Written texts are words -/

theorem isWord_printNat (n : Nat) : IsWord (printNat n) := ⟨printNat_ne_nil n, fun _ h => printNat_noWs h⟩
theorem isWord_printInt (i : Int) : IsWord (printInt i) := ⟨printInt_ne_nil i, fun _ h => printInt_noWs h⟩
theorem isWord_noShortcut : IsWord noShortcut := by
  refine ⟨by decide, ?_⟩
  intro c hc
  simp [noShortcut] at hc
  rcases hc with rfl | rfl <;> decide
theorem isWord_ignoreText : IsWord ignoreText := by
  refine ⟨by decide, ?_⟩
  intro c hc
  simp [ignoreText] at hc
  subst hc
  decide

theorem printNat_head (n : Nat) : (printNat n).head? ≠ some '#' := by
  intro h
  have := printNat_digits (List.mem_of_mem_head? h)
  revert this
  decide

theorem printInt_head (i : Int) : (printInt i).head? ≠ some '#' := by
  unfold printInt
  split
  · exact printNat_head _
  · simp

/-- A word that isn't the beginning of a comment. -/
def Cell (t : Text) : Prop := IsWord t ∧ t.head? ≠ some '#'

theorem cell_printNat (n : Nat) : Cell (printNat n) := ⟨isWord_printNat n, printNat_head n⟩
theorem cell_printInt (i : Int) : Cell (printInt i) := ⟨isWord_printInt i, printInt_head i⟩
theorem cell_exact {c : Codec} {x : ℚ} (h : c.Exact x) : Cell (c.printF x) := ⟨h.word, h.noComment⟩
theorem cell_noShortcut : Cell noShortcut := ⟨isWord_noShortcut, by decide⟩
theorem cell_ignoreText : Cell ignoreText := ⟨isWord_ignoreText, by decide⟩

theorem join_head {sep : Char} {t : Text} {ts : List Text} (h : t ≠ []) : (join sep (t :: ts)).head? = t.head? := by
  cases t with
  | nil => exact absurd rfl h
  | cons a t => cases ts <;> rfl

theorem functional_eq (file : List Text) : file.filter isFunctional = functional file := by
  unfold functional
  congr 1
  funext l
  unfold isFunctional
  cases l with
  | nil => simp
  | cons a l => simp

/-- A line of cells is functional and split into its cells. -/
theorem line_functional {t : Text} {ts : List Text} (h : Cell t) : isFunctional (join ' ' (t :: ts)) = true := by
  unfold isFunctional
  rw [join_head h.1.1]
  have : join ' ' (t :: ts) ≠ [] := by
    intro hc
    have h2 := join_head (sep := ' ') (ts := ts) h.1.1
    rw [hc] at h2
    have := h.1.1
    cases t <;> simp_all
  simp [List.length_pos_iff, this, h.2]

theorem words_line {ts : List Text} (h : ∀ t ∈ ts, Cell t) : words (join ' ' ts) = ts :=
  words_join (by decide) fun w hw => (h w hw).1

/-! ## What is written -/

theorem metricValue_ok {s : Net} {d : Bool} {e k : Nat} {y : ℚ} :
    metricValue s d e k = .ok y ↔ OutValue s d e k y := by
  unfold metricValue OutValue value
  simp only [Res.bind_eq_ok, acc_ok, Graph.edgeMetrics, Res.ofIdx_eq_ok]
  constructor
  · rintro ⟨m, hm, x, hx, h⟩
    refine ⟨x, by simp [hm, hx], ?_⟩
    cases d with
    | false =>
      simp only [Res.pure_eq, Res.ok.injEq] at h
      exact h.symm
    | true =>
      cases hs : s.graph.means with
      | none =>
        rw [hs] at h
        simp only [Res.pure_eq, Res.ok.injEq] at h
        exact h.symm
      | some means =>
        rw [hs] at h
        simp only [Res.bind_eq_ok, Res.ofIdx_eq_ok, Res.pure_eq, Res.ok.injEq] at h
        obtain ⟨mean, h1, h2⟩ := h
        exact ⟨mean, h1, h2.symm⟩
  · rintro ⟨x, hx, h⟩
    obtain ⟨m, hm, hx⟩ := Option.bind_eq_some_iff.mp hx
    refine ⟨m, hm, x, hx, ?_⟩
    cases d with
    | false => simpa using h.symm
    | true =>
      cases hs : s.graph.means with
      | none =>
        rw [hs] at h
        simpa using h.symm
      | some means =>
        rw [hs] at h
        obtain ⟨mean, h1, h2⟩ := h
        simp [h1, h2]

/-- Every column but the destination's coordinates contains its value. -/
theorem edgeText_ok {c : Codec} {s : Net} {d : Bool} {e : Nat} {cat : EdgeCat} {t : Text}
    (hw : s.graph.WellFormed) (h : edgeText c s d e cat = .ok t) (h1 : isInfo .dstLat cat = false)
    (h2 : isInfo .dstLon cat = false) : CellIs c s d e t cat := by
  have hF : ∀ u, s.graph.dstIdx .bwd e = .ok u → ∃ v, s.graph.IsEdge e u v := by
    intro u hu
    have hl : e < s.graph.bwdDsts.length := Gen.lt_of_some (Res.ofIdx_eq_ok.mp hu)
    rw [hw.bwd_len] at hl
    exact ⟨_, Res.ofIdx_eq_ok.mpr (List.getElem?_eq_getElem hl), hu⟩
  have hB : ∀ v, s.graph.dstIdx .fwd e = .ok v → ∃ u, s.graph.IsEdge e u v := by
    intro v hv
    have hl : e < s.graph.fwdDsts.length := Gen.lt_of_some (Res.ofIdx_eq_ok.mp hv)
    change e < s.graph.edgeCount at hl
    rw [← hw.bwd_len] at hl
    exact ⟨_, hv, Res.ofIdx_eq_ok.mpr (List.getElem?_eq_getElem hl)⟩
  cases cat with
  | ignored => cases h
  | metric u id =>
    simp only [edgeText] at h
    split at h
    · cases h
    · rename_i k hk
      simp only [Res.bind_eq_ok, Res.pure_eq, Res.ok.injEq, metricValue_ok] at h
      obtain ⟨y, hy, rfl⟩ := h
      exact ⟨k, y, (tryIdxOf_ok hk).1, (tryIdxOf_ok hk).2, hy, rfl⟩
  | info i id =>
    cases i <;> simp only [edgeText, Res.bind_eq_ok, Res.pure_eq, Res.ok.injEq, acc_ok] at h
    · obtain ⟨x, hx, rfl⟩ := h
      simp only [Graph.edgeId, Res.bind_eq_ok, Res.ofIdx_eq_ok] at hx
      obtain ⟨o, ho, rfl⟩ := hx
      exact ⟨x, ho, rfl⟩
    · obtain ⟨u, hu, x, hx, rfl⟩ := h
      obtain ⟨v, hv⟩ := hF u hu
      exact ⟨u, v, x, hv, hx, rfl⟩
    · obtain ⟨u, hu, rfl⟩ := h
      obtain ⟨v, hv⟩ := hF u hu
      exact ⟨u, v, hv, rfl⟩
    · obtain ⟨u, hu, x, hx, rfl⟩ := h
      obtain ⟨v, hv⟩ := hF u hu
      exact ⟨u, v, x, hv, hx, rfl⟩
    · obtain ⟨u, hu, x, hx, rfl⟩ := h
      obtain ⟨v, hv⟩ := hF u hu
      exact ⟨u, v, x, hv, hx, rfl⟩
    · obtain ⟨v, hv, x, hx, rfl⟩ := h
      obtain ⟨u, hu⟩ := hB v hv
      exact ⟨u, v, x, hu, hx, rfl⟩
    · obtain ⟨v, hv, rfl⟩ := h
      obtain ⟨u, hu⟩ := hB v hv
      exact ⟨u, v, hu, rfl⟩
    · cases h1
    · cases h2
    · obtain ⟨o, ho, rfl⟩ := h
      refine ⟨o, ho, ?_⟩
      cases o with
      | none => exact .inr ⟨rfl, rfl⟩
      | some p => exact .inl ⟨p, rfl, rfl⟩
    · obtain ⟨o, ho, rfl⟩ := h
      refine ⟨o, ho, ?_⟩
      cases o with
      | none => exact .inr ⟨rfl, rfl⟩
      | some p => exact .inl ⟨p, rfl, rfl⟩

theorem createNode_ok {g : Graph} {i : Nat} {n : Graph.Node} (h : g.createNode i = .ok n) :
    n.idx = i ∧ g.nodeId i = .ok n.id ∧ g.nodeCoord i = .ok n.coord ∧ g.nodeLevel i = .ok n.level := by
  simp only [Graph.createNode, Res.bind_eq_ok, Res.pure_eq, Res.ok.injEq] at h
  obtain ⟨a, ha, b, hb, d, hd, rfl⟩ := h
  exact ⟨rfl, ha, hb, hd⟩

theorem nodeColumn_ok {c : Codec} {s : Net} {i : Nat} {col : Option Text} {t : Text}
    (h : nodeColumn c s i col = .ok t) :
    (col = none ∧ t = ignoreText) ∨
      ∃ id cat, col = some id ∧ FirstCat idOfNode s.nodes id cat ∧ NodeCellIs c s.graph i t cat := by
  cases col with
  | none =>
    simp only [nodeColumn, Res.ok.injEq] at h
    exact .inl ⟨rfl, h.symm⟩
  | some id =>
    right
    simp only [nodeColumn] at h
    split at h
    · rename_i info id' hf
      rw [nodeCatId_eq, find?_firstCat] at hf
      refine ⟨id, _, rfl, hf, ?_⟩
      simp only [Res.bind_eq_ok, acc_ok] at h
      obtain ⟨n, hn, h⟩ := h
      obtain ⟨h1, h2, h3, h4⟩ := createNode_ok hn
      cases info <;> simp only [Res.ok.injEq] at h <;> subst h
      · exact ⟨n.id, h2, rfl⟩
      · simp [NodeCellIs, h1]
      · exact ⟨n.level, h4, rfl⟩
    · rename_i unit id' hf
      rw [nodeCatId_eq, find?_firstCat] at hf
      refine ⟨id, _, rfl, hf, ?_⟩
      simp only [Res.bind_eq_ok, acc_ok] at h
      obtain ⟨n, hn, h⟩ := h
      obtain ⟨h1, h2, h3, h4⟩ := createNode_ok hn
      cases unit <;> simp only [Res.ok.injEq, reduceCtorEq] at h <;> subst h
      · exact ⟨n.coord, h3, rfl⟩
      · exact ⟨n.coord, h3, rfl⟩
    · cases h
    · cases h

theorem edgeColumn_ok {c : Codec} {s : Net} {d : Bool} {e : Nat} {col : Option Text} {t : Text}
    (h : edgeColumn c s d e col = .ok t) :
    (col = none ∧ t = ignoreText) ∨
      ∃ id cat, col = some id ∧ FirstCat EdgeCat.id? s.edges.cats id cat ∧ edgeText c s d e cat = .ok t := by
  cases col with
  | none =>
    simp only [edgeColumn, Res.ok.injEq] at h
    exact .inl ⟨rfl, h.symm⟩
  | some id =>
    right
    simp only [edgeColumn] at h
    split at h
    · rename_i cat hf
      rw [find?_firstCat] at hf
      exact ⟨id, cat, rfl, hf, h⟩
    · cases h

/-- All cells of an edge are words, even the wrong ones. -/
theorem edgeText_cell {c : Codec} {s : Net} {d : Bool} {e : Nat} {cat : EdgeCat} {t : Text}
    (hp : Printable c s d) (h : edgeText c s d e cat = .ok t) : Cell t := by
  cases cat with
  | ignored => cases h
  | metric u id =>
    simp only [edgeText] at h
    split at h
    · cases h
    · simp only [Res.bind_eq_ok, Res.pure_eq, Res.ok.injEq, metricValue_ok] at h
      obtain ⟨y, hy, rfl⟩ := h
      exact cell_exact (hp.metrics _ _ _ hy)
  | info i id =>
    cases i <;> simp only [edgeText, Res.bind_eq_ok, Res.pure_eq, Res.ok.injEq, acc_ok] at h
    · obtain ⟨x, hx, rfl⟩ := h
      exact cell_printNat _
    · obtain ⟨u, hu, x, hx, rfl⟩ := h
      exact cell_printInt _
    · obtain ⟨u, hu, rfl⟩ := h
      exact cell_printNat _
    · obtain ⟨u, hu, x, hx, rfl⟩ := h
      exact cell_exact (hp.coord _ _ hx).1
    · obtain ⟨u, hu, x, hx, rfl⟩ := h
      exact cell_exact (hp.coord _ _ hx).2
    · obtain ⟨u, hu, x, hx, rfl⟩ := h
      exact cell_printInt _
    · obtain ⟨u, hu, rfl⟩ := h
      exact cell_printNat _
    · obtain ⟨u, hu, x, hx, rfl⟩ := h
      exact cell_exact (hp.coord _ _ hx).1
    · obtain ⟨u, hu, x, hx, rfl⟩ := h
      exact cell_exact (hp.coord _ _ hx).2
    · obtain ⟨o, ho, rfl⟩ := h
      cases o with
      | none => exact cell_noShortcut
      | some p => exact cell_printNat _
    · obtain ⟨o, ho, rfl⟩ := h
      cases o with
      | none => exact cell_noShortcut
      | some p => exact cell_printNat _

theorem nodeCell_cell {c : Codec} {s : Net} {d : Bool} {i : Nat} {cat : NodeCat} {t : Text}
    (hp : Printable c s d) (h : NodeCellIs c s.graph i t cat) : Cell t := by
  cases cat with
  | ignored => cases h
  | metric u id =>
    cases u
    · obtain ⟨x, hx, rfl⟩ := h
      exact cell_exact (hp.coord _ _ hx).1
    · obtain ⟨x, hx, rfl⟩ := h
      exact cell_exact (hp.coord _ _ hx).2
    · cases h
  | info j id =>
    cases j
    · obtain ⟨x, hx, rfl⟩ := h
      exact cell_printInt _
    · have h : t = printNat i := h
      subst h
      exact cell_printNat _
    · obtain ⟨x, hx, rfl⟩ := h
      exact cell_printNat _

/-- The lines of the edges. -/
theorem edgeLines_ok {c : Codec} {s : Net} {sh d : Bool} {cols : List (Option Text)} {es : List Nat}
    {lines : List Text} (h : edgeLines c s sh d cols es = .ok lines) :
    List.Forall₂ (fun e line => edgeLine c s d cols e = .ok line)
      (es.filter fun e => sh || decide (s.graph.isShortcut e = .ok false)) lines := by
  induction es generalizing lines with
  | nil =>
    simp only [edgeLines, Res.ok.injEq] at h
    subst h
    exact .nil
  | cons e es ih =>
    simp only [edgeLines, Res.bind_eq_ok] at h
    obtain ⟨skip, hs, h⟩ := h
    cases sh with
    | true =>
      simp only [skips, if_true, Res.ok.injEq] at hs
      subst hs
      simp only [Bool.false_eq_true, if_false, Res.bind_eq_ok, Res.pure_eq, Res.ok.injEq] at h
      obtain ⟨line, hl, rest, hr, rfl⟩ := h
      have := ih hr
      simp only [Bool.true_or, List.filter_true] at this ⊢
      exact .cons hl this
    | false =>
      simp only [skips, Bool.false_eq_true, if_false, acc_ok] at hs
      cases skip with
      | true =>
        simp only [if_true] at h
        rw [List.filter_cons_of_neg (by simp [hs])]
        exact ih h
      | false =>
        simp only [Bool.false_eq_true, if_false, Res.bind_eq_ok, Res.pure_eq, Res.ok.injEq] at h
        obtain ⟨line, hl, rest, hr, rfl⟩ := h
        rw [List.filter_cons_of_pos (by simp [hs])]
        exact .cons hl (ih hr)

theorem edgeLines_total {c : Codec} {s : Net} {sh d : Bool} {cols : List (Option Text)} {es : List Nat}
    (h1 : ∀ e ∈ es, ∃ b, s.graph.isShortcut e = .ok b)
    (h2 : ∀ e ∈ es, (sh = true ∨ s.graph.isShortcut e = .ok false) → ∃ line, edgeLine c s d cols e = .ok line) :
    ∃ lines, edgeLines c s sh d cols es = .ok lines := by
  induction es with
  | nil => exact ⟨[], rfl⟩
  | cons e es ih =>
    obtain ⟨lines, hl⟩ := ih (fun x hx => h1 x (by simp [hx])) (fun x hx => h2 x (by simp [hx]))
    obtain ⟨b, hb⟩ := h1 e (by simp)
    cases sh with
    | true =>
      obtain ⟨line, h3⟩ := h2 e (by simp) (.inl rfl)
      exact ⟨line :: lines, by simp [edgeLines, skips, h3, hl]⟩
    | false =>
      cases b with
      | true => exact ⟨lines, by simp [edgeLines, skips, hb, acc, hl]⟩
      | false =>
        obtain ⟨line, h3⟩ := h2 e (by simp) (.inr hb)
        exact ⟨line :: lines, by simp [edgeLines, skips, hb, acc, h3, hl]⟩

theorem countEdges_ok {s : Net} {sh : Bool} {es : List Nat} {n : Nat} (h : countEdges s sh es = .ok n) :
    n = (es.filter fun e => sh || decide (s.graph.isShortcut e = .ok false)).length := by
  induction es generalizing n with
  | nil =>
    simp only [countEdges, Res.ok.injEq] at h
    simp [← h]
  | cons e es ih =>
    simp only [countEdges, Res.bind_eq_ok, acc_ok, Res.pure_eq, Res.ok.injEq] at h
    obtain ⟨is, hi, m, hm, h⟩ := h
    have := ih hm
    subst this
    rw [← h]
    cases sh <;> cases is <;> simp [hi]

theorem countEdges_total {s : Net} {sh : Bool} {es : List Nat}
    (h1 : ∀ e ∈ es, ∃ b, s.graph.isShortcut e = .ok b) : ∃ n, countEdges s sh es = .ok n := by
  induction es with
  | nil => exact ⟨0, rfl⟩
  | cons e es ih =>
    obtain ⟨n, hn⟩ := ih fun x hx => h1 x (by simp [hx])
    obtain ⟨b, hb⟩ := h1 e (by simp)
    exact ⟨if !b || sh then n + 1 else n, by simp only [countEdges, hb, hn, acc, Res.ok_bind, Res.pure_eq]⟩

end Verif.Fmi
