import Verif.FmiReadProps

/-!
# C58: values of edges that are written can be merged
-/

namespace Verif.Fmi

open Cfg Text
open Gen (Net Env value LineEdge LastColumn)

/-- The line of edge `e` has a cell for each column: the edge's id and the values of metrics. -/
structure EdgeRow (env : Env) (t : Net) (edgeId : Text) (cols : List (Option Text)) (val : Nat → Nat → Option ℚ)
    (e : Nat) (line : Text) : Prop where
  len : (words line).length = cols.length
  id : ∀ j : Nat, cols[j]? = some (some edgeId) → ∃ x, x ≤ maxUsize ∧ (words line)[j]? = some (printNat x) ∧
    t.graph.tryId e = .ok (some x)
  metric : ∀ (j : Nat) (id : Text), cols[j]? = some (some id) → id ≠ edgeId →
    ∃ (k : Nat) (p : Text) (x : ℚ), t.edges.ids[k]? = some id ∧ (words line)[j]? = some p ∧ env.parseF p = some x ∧
      val e k = some x

theorem firstCol {cols : List (Option Text)} {edgeId : Text} (h : some edgeId ∈ cols) :
    ∃ i : Nat, cols[i]? = some (some edgeId) ∧ ∀ j : Nat, j < i → cols[j]? ≠ some (some edgeId) := by
  induction cols with
  | nil => simp at h
  | cons a cols ih =>
    by_cases ha : a = some edgeId
    · exact ⟨0, by simp [ha], by simp⟩
    · obtain ⟨i, h1, h2⟩ := ih (by
        rcases List.mem_cons.mp h with h | h
        · exact absurd h.symm ha
        · exact h)
      refine ⟨i + 1, h1, ?_⟩
      intro j hj
      cases j with
      | zero => simpa using ha
      | succ j => simpa using h2 j (by omega)

theorem lastCol {cols : List (Option Text)} {id : Text} (h : some id ∈ cols) :
    ∃ i : Nat, cols[i]? = some (some id) ∧ ∀ j : Nat, i < j → cols[j]? ≠ some (some id) := by
  induction cols with
  | nil => simp at h
  | cons a cols ih =>
    by_cases hc : some id ∈ cols
    · obtain ⟨i, h1, h2⟩ := ih hc
      refine ⟨i + 1, h1, ?_⟩
      intro j hj
      cases j with
      | zero => omega
      | succ j => simpa using h2 j (by omega)
    · have ha : a = some id := by
        rcases List.mem_cons.mp h with h | h
        · exact h.symm
        · exact absurd h hc
      refine ⟨0, by simp [ha], ?_⟩
      intro j hj
      cases j with
      | zero => omega
      | succ j =>
        intro h
        exact hc (List.mem_of_getElem? (by simpa using h))

theorem row_lineEdge {env : Env} {t : Net} {edgeId : Text} {cols : List (Option Text)} {val : Nat → Nat → Option ℚ}
    {e : Nat} {line : Text} (h : EdgeRow env t edgeId cols val e line) (hc : some edgeId ∈ cols) :
    LineEdge t.graph edgeId cols line e := by
  obtain ⟨i, h1, h2⟩ := firstCol hc
  obtain ⟨x, h3, h4, h5⟩ := h.id i h1
  exact ⟨i, printNat x, x, h1, h2, h4, parseNat_printNat h3, h5⟩

theorem mergeEdge_total {g : Graph} {edgeId : Text} {params : List Text} {e x : Nat} (hx : x ≤ maxUsize)
    (hg : g.tryIdxFrom x = .ok e) : ∀ (cols : List (Option Text)) (i : Nat), i + cols.length = params.length →
      some edgeId ∈ cols → (∀ j : Nat, cols[j]? = some (some edgeId) → params[i + j]? = some (printNat x)) →
      Gen.mergeEdge g edgeId params i cols = .ok (some e)
  | [], _, _, h, _ => by simp at h
  | none :: cols, i, hl, h, hp => by
    simp only [Gen.mergeEdge]
    simp only [List.length_cons] at hl
    refine mergeEdge_total hx hg cols (i + 1) (by omega) (by simpa using h) ?_
    intro j hj
    rw [← hp (j + 1) hj]
    congr 1
    omega
  | some id :: cols, i, hl, h, hp => by
    simp only [List.length_cons] at hl
    have hi : i < params.length := by omega
    simp only [Gen.mergeEdge, List.getElem?_eq_getElem hi, Res.ofIdx_some, Res.ok_bind]
    by_cases hid : id = edgeId
    · subst hid
      have := hp 0 rfl
      rw [Nat.add_zero, List.getElem?_eq_getElem hi, Option.some.injEq] at this
      simp only [if_true, this, parseNat_printNat hx, hg]
    · simp only [hid, if_false]
      refine mergeEdge_total hx hg cols (i + 1) (by omega) ?_ ?_
      · rcases List.mem_cons.mp h with h | h
        · exact absurd (Option.some.inj h).symm hid
        · exact h
      · intro j hj
        rw [← hp (j + 1) hj]
        congr 1
        omega

theorem mergeCols_total {env : Env} {ed : Edges} (hn : ed.ids.Nodup) {edgeId : Text} {params : List Text} :
    ∀ (cols : List (Option Text)) (i : Nat) (m : List ℚ), m.length = ed.ids.length →
      (∀ (j : Nat) (id : Text), cols[j]? = some (some id) → id ≠ edgeId →
        ∃ (k : Nat) (p : Text) (x : ℚ), ed.ids[k]? = some id ∧ params[i + j]? = some p ∧ env.parseF p = some x) →
      ∃ m', Gen.mergeCols env ed edgeId params i cols m = .ok m' ∧ m'.length = m.length
  | [], _, m, _, _ => ⟨m, rfl, rfl⟩
  | none :: cols, i, m, hm, h => by
    simp only [Gen.mergeCols]
    refine mergeCols_total hn cols (i + 1) m hm ?_
    intro j id hj hne
    obtain ⟨k, p, x, h1, h2, h3⟩ := h (j + 1) id hj hne
    exact ⟨k, p, x, h1, by rw [← h2]; congr 1; omega, h3⟩
  | some id :: cols, i, m, hm, h => by
    have hrest : ∀ (j : Nat) (id : Text), cols[j]? = some (some id) → id ≠ edgeId →
        ∃ (k : Nat) (p : Text) (x : ℚ), ed.ids[k]? = some id ∧ params[i + 1 + j]? = some p ∧
          env.parseF p = some x := by
      intro j id hj hne
      obtain ⟨k, p, x, h1, h2, h3⟩ := h (j + 1) id hj hne
      exact ⟨k, p, x, h1, by rw [← h2]; congr 1; omega, h3⟩
    simp only [Gen.mergeCols]
    by_cases hid : id = edgeId
    · rw [if_pos hid]
      exact mergeCols_total hn cols (i + 1) m hm hrest
    · rw [if_neg hid]
      obtain ⟨k, p, x, h1, h2, h3⟩ := h 0 id rfl hid
      have hk : k < m.length := by rw [hm]; exact Gen.lt_of_some h1
      rw [Nat.add_zero] at h2
      simp only [(Gen.idxOf_iff hn).mpr h1, Res.ok_bind, h2, Res.ofIdx_some, h3, if_pos hk]
      obtain ⟨m', h4, h5⟩ := mergeCols_total hn cols (i + 1) (m.set k x) (by simpa using hm) hrest
      exact ⟨m', h4, by simpa using h5⟩

theorem mergeLine_total {env : Env} {t : Net} (hw : t.graph.WellFormed) (hn : t.edges.ids.Nodup) {edgeId : Text}
    {cols : List (Option Text)} {val : Nat → Nat → Option ℚ} {e : Nat} {line : Text}
    (h : EdgeRow env t edgeId cols val e line) (hc : some edgeId ∈ cols) {ms : List (List ℚ)}
    (hl : ms.length = t.graph.edgeCount) (hms : ∀ m ∈ ms, m.length = t.edges.ids.length) :
    ∃ ms', Gen.mergeLine env t edgeId cols ms line = .ok ms' ∧ ms'.length = ms.length ∧
      ∀ m ∈ ms', m.length = t.edges.ids.length := by
  obtain ⟨i, h1, -⟩ := firstCol hc
  obtain ⟨x, hx, -, hid⟩ := h.id i h1
  have hg := (hw.idMap_iff e x).mpr hid
  have he : e < t.graph.edgeIds.length := Gen.lt_of_some (Res.ofIdx_eq_ok.mp hid)
  rw [hw.edgeIds_len, ← hl] at he
  have h2 := mergeEdge_total (edgeId := edgeId) (params := words line) hx hg cols 0 (by rw [h.len, Nat.zero_add]) hc (by
    intro j hj
    obtain ⟨y, -, h3, h4⟩ := h.id j hj
    rw [hid] at h4
    cases h4
    rw [Nat.zero_add]
    exact h3)
  obtain ⟨m', h3, h4⟩ := mergeCols_total (env := env) hn (edgeId := edgeId) (params := words line) cols 0 ms[e]
    (hms _ (List.getElem_mem he)) (by
      intro j id hj hne
      obtain ⟨k, p, y, g1, g2, g3, -⟩ := h.metric j id hj hne
      exact ⟨k, p, y, g1, by rw [Nat.zero_add]; exact g2, g3⟩)
  refine ⟨ms.set e m', ?_, by simp, ?_⟩
  · simp only [Gen.mergeLine, h2, Res.ok_bind, List.getElem?_eq_getElem he, Res.ofIdx_some, h3, Res.pure_eq]
  · intro m hm
    rcases List.mem_or_eq_of_mem_set hm with hm | rfl
    · exact hms m hm
    · rw [h4]
      exact hms _ (List.getElem_mem he)

theorem mergeLines_total {env : Env} {t : Net} (hw : t.graph.WellFormed) (hn : t.edges.ids.Nodup) {edgeId : Text}
    {cols : List (Option Text)} {val : Nat → Nat → Option ℚ} (hc : some edgeId ∈ cols) {es : List Nat}
    {lines : List Text} (h : List.Forall₂ (EdgeRow env t edgeId cols val) es lines) {ms : List (List ℚ)}
    (hl : ms.length = t.graph.edgeCount) (hms : ∀ m ∈ ms, m.length = t.edges.ids.length) :
    ∃ ms', lines.foldlM (Gen.mergeLine env t edgeId cols) ms = .ok ms' := by
  induction h generalizing ms with
  | nil => exact ⟨ms, rfl⟩
  | cons hr _ ih =>
    obtain ⟨ms1, h1, h2, h3⟩ := mergeLine_total hw hn hr hc hl hms
    obtain ⟨ms2, h4⟩ := ih (ms := ms1) (by rw [h2]; exact hl) h3
    exact ⟨ms2, Gen.foldlM_cons_ok.mpr ⟨ms1, h1, h4⟩⟩

/-- Merging lines of distinct edges sets their values. -/
theorem merge_rows {env : Env} {t : Net} (hw : t.graph.WellFormed) (hcons : Gen.Consistent t)
    (hn : t.edges.ids.Nodup) {edgeId : Text}
    {cols : List (Option Text)} {val : Nat → Nat → Option ℚ} (hc : some edgeId ∈ cols) {es : List Nat}
    {lines file : List Text} {header : Bool} (hfile : Gen.dataLines file header = lines)
    (hnd : es.Nodup) (h : List.Forall₂ (EdgeRow env t edgeId cols val) es lines) :
    ∃ t', Gen.edgeStep env t (.merge (some file) header edgeId cols) = .ok t' ∧
      (∀ e ∈ es, ∀ (k : Nat) (id : Text), t.edges.ids[k]? = some id → id ≠ edgeId → some id ∈ cols →
        value t'.graph.metrics e k = val e k) ∧
      (∀ e k, (e ∉ es ∨ ∀ id : Text, t.edges.ids[k]? = some id → id ≠ edgeId → some id ∉ cols) →
        value t'.graph.metrics e k = value t.graph.metrics e k) := by
  obtain ⟨ms', hms⟩ := mergeLines_total hw hn hc h (ms := t.graph.metrics) hw.metrics_len
    (by intro m hm; rw [hcons.len]; exact hcons.values m hm)
  have hstep : Gen.edgeStep env t (.merge (some file) header edgeId cols) =
      .ok { t with graph := { t.graph with metrics := ms' } } := by
    simp only [Gen.edgeStep, Gen.readLines_eq, hfile, Res.ok_bind, hms, Res.pure_eq]
  refine ⟨_, hstep, ?_, ?_⟩
  · intro e he k id hk hne hcol
    obtain ⟨j, hj1, hj2⟩ := lastCol hcol
    have hlast : LastColumn t.edges edgeId cols k j := ⟨id, hk, hne, hj1, hj2⟩
    obtain ⟨n, hn1⟩ := List.getElem?_of_mem he
    have hnl := Gen.lt_of_some hn1
    have hlen := h.length_eq
    have hnl' : n < lines.length := by omega
    have hrow := h.get hnl hnl'
    rw [List.getElem?_eq_getElem hnl, Option.some.injEq] at hn1
    simp only [List.get_eq_getElem] at hrow
    rw [hn1] at hrow
    have hsplit : lines = lines.take n ++ lines[n] :: lines.drop (n + 1) := by
      conv_lhs => rw [← List.take_append_drop n lines, List.drop_eq_getElem_cons hnl']
    obtain ⟨p, x, h1, h2, h3⟩ := Gen.C45_last_wins hstep hw hn (e := e) (k := k) (j := j) (by rw [hfile]; exact hsplit)
      (row_lineEdge hrow hc) (by
        intro l hl hle
        obtain ⟨m, hm⟩ := List.getElem?_of_mem hl
        rw [List.getElem?_drop] at hm
        have hml := Gen.lt_of_some hm
        have hrow' := h.get (i := n + 1 + m) (by omega) hml
        simp only [List.get_eq_getElem] at hrow'
        rw [List.getElem?_eq_getElem hml, Option.some.injEq] at hm
        rw [hm] at hrow'
        have := Gen.lineEdge_unique hw.idMap_iff hle (row_lineEdge hrow' hc)
        rw [← hn1] at this
        have := (List.Nodup.getElem_inj_iff hnd).mp this
        omega) hlast
    obtain ⟨k', p', y, g1, g2, g3, g4⟩ := hrow.metric j id hj1 hne
    have hk' : k' = k := (List.getElem?_inj (Gen.lt_of_some g1) hn).mp (g1.trans hk.symm)
    subst hk'
    rw [h1, Option.some.injEq] at g2
    subst g2
    rw [h2, Option.some.injEq] at g3
    subst g3
    rw [h3, g4]
  · intro e k hor
    refine Gen.C45_untouched hstep hw hn ?_
    rcases hor with hor | hor
    · refine .inl ?_
      rw [hfile]
      intro line hl hle
      obtain ⟨n, hn1⟩ := List.getElem?_of_mem hl
      have hnl := Gen.lt_of_some hn1
      have hlen := h.length_eq
      have hrow := h.get (i := n) (by omega) hnl
      simp only [List.get_eq_getElem] at hrow
      rw [List.getElem?_eq_getElem hnl, Option.some.injEq] at hn1
      rw [hn1] at hrow
      have := Gen.lineEdge_unique hw.idMap_iff hle (row_lineEdge hrow hc)
      exact hor (this ▸ List.getElem_mem _)
    · exact .inr hor

theorem written_nodup (g : Graph) (sh : Bool) : (writtenEdges g sh).Nodup :=
  List.Nodup.filter _ List.nodup_range

/-- The lines behind the header. -/
theorem dataLines_file {header : Bool} {head : Text} {lines : List Text}
    (hh : header = true → isFunctional head = true) (hl : ∀ l ∈ lines, isFunctional l = true) :
    Gen.dataLines ((if header then [head] else []) ++ lines) header = lines := by
  have : (fun l : Text => decide (l ≠ [] ∧ l.head? ≠ some '#')) = isFunctional := by
    funext l
    cases l <;> simp [isFunctional]
  unfold Gen.dataLines
  rw [this, List.filter_append, filter_eq_self_of hl]
  cases header with
  | false => simp
  | true => simp [hh rfl]

/-- Every written edge has a line with its id and its value. -/
theorem valueLines_ok {α : Type} {s : Net} {sh : Bool} {print : α → Text} {values : List α} :
    ∀ (es : List Nat) (lines : List Text), valueLines s sh print values es = .ok lines →
      List.Forall₂ (fun e line => ∃ id x, s.graph.tryId e = .ok (some id) ∧ values[e]? = some x ∧
        line = join ' ' [printNat id, print x])
        (es.filter fun e => sh || decide (s.graph.isShortcut e = .ok false)) lines := by
  intro es
  induction es with
  | nil =>
    intro lines hl
    simp only [valueLines, Res.ok.injEq] at hl
    subst hl
    exact .nil
  | cons e es ih =>
    intro lines hl
    simp only [valueLines, Res.bind_eq_ok] at hl
    obtain ⟨skip, hs, hl⟩ := hl
    have hskip : (sh || decide (s.graph.isShortcut e = .ok false)) = !skip := by
      cases sh with
      | true =>
        simp only [skips, if_true, Res.ok.injEq] at hs
        simp [← hs]
      | false =>
        simp only [skips, Bool.false_eq_true, if_false, acc_ok] at hs
        cases skip <;> simp [hs]
    cases skip with
    | true =>
      rw [List.filter_cons_of_neg (by simp [hskip])]
      exact ih lines (by simpa using hl)
    | false =>
      rw [List.filter_cons_of_pos (by simp [hskip])]
      simp only [Bool.false_eq_true, if_false, Res.bind_eq_ok, acc_ok, Res.ofIdx_eq_ok, Res.pure_eq, Res.ok.injEq,
        Graph.edgeId] at hl
      obtain ⟨id, ⟨o, ho, rfl⟩, x, hx, rest, hr, rfl⟩ := hl
      refine .cons ⟨id, x, ho, hx, ?_⟩ (ih rest hr)
      simp [join]

/-- C58: values of edges that have been written to a file can be merged with the same two columns: afterwards the
metric has these values for all written edges, and nothing else has changed. -/
theorem C58_values {c : Codec} {env : Env} {s t : Net} {header sh : Bool} {edgeId metric : Text} {values : List ℚ}
    {file : List Text} (hw : t.graph.WellFormed) (hc : Gen.Consistent t) (hu : UniqueIds t.edges.cats)
    (hids : ∀ e, t.graph.tryId e = s.graph.tryId e)
    (hmax : ∀ e id, s.graph.tryId e = .ok (some id) → id ≤ maxUsize)
    {k : Nat} (hk : t.edges.ids[k]? = some metric) (hne : metric ≠ edgeId)
    (hp : ∀ x ∈ values, c.Exact x ∧ env.parseF (c.printF x) = some x)
    (hh : header = true → edgeId ≠ [] ∧ edgeId.head? ≠ some '#')
    (h : writeValues c.printF s header sh [some edgeId, some metric] values = .ok file) :
    ∃ t', Gen.edgeStep env t (.merge (some file) header edgeId [some edgeId, some metric]) = .ok t' ∧
      (∀ e ∈ writtenEdges s.graph sh, value t'.graph.metrics e k = values[e]?) ∧
      ∀ e j, e ∉ writtenEdges s.graph sh ∨ j ≠ k → value t'.graph.metrics e j = value t.graph.metrics e j := by
  simp only [writeValues, Res.bind_eq_ok, Res.pure_eq, Res.ok.injEq] at h
  obtain ⟨lines, hl, rfl⟩ := h
  have hrows := valueLines_ok _ _ hl
  have hcell : ∀ id x, x ∈ values → ∀ t ∈ [printNat id, c.printF x], Cell t := by
    intro id x hx t ht
    simp only [List.mem_cons, List.not_mem_nil, or_false] at ht
    rcases ht with rfl | rfl
    · exact cell_printNat id
    · exact cell_exact (hp x hx).1
  have hdata := dataLines_file (header := header) (head := join ' ' (headerTexts [some edgeId, some metric]))
    (lines := lines) (by
      intro hd
      obtain ⟨h1, h2⟩ := hh hd
      have : join ' ' (headerTexts [some edgeId, some metric]) = edgeId ++ ' ' :: metric := by simp [headerTexts, join]
      rw [this]
      cases edgeId with
      | nil => exact absurd rfl h1
      | cons a l => simpa [isFunctional] using h2) (by
      intro line hline
      obtain ⟨n, hn⟩ := List.getElem?_of_mem hline
      have hnl := Gen.lt_of_some hn
      have hlen := hrows.length_eq
      obtain ⟨id, x, -, -, h3⟩ := hrows.get (i := n) (by omega) hnl
      simp only [List.get_eq_getElem] at h3
      rw [List.getElem?_eq_getElem hnl, Option.some.injEq] at hn
      rw [← hn, h3]
      exact line_functional (cell_printNat id))
  obtain ⟨t', h1, h2, h3⟩ := merge_rows (env := env) (edgeId := edgeId) (cols := [some edgeId, some metric])
    (val := fun e j => if j = k then values[e]? else none) hw hc
    (ids_nodup hc hu) (by simp) hdata (written_nodup s.graph sh) (by
      refine forall₂_imp_mem hrows ?_
      rintro e he line - ⟨id, x, g1, g2, rfl⟩
      have hx := List.mem_of_getElem? g2
      have hwd := words_line (hcell id x hx)
      refine ⟨by rw [hwd]; rfl, ?_, ?_⟩
      · intro j hj
        have hj0 : j = 0 := by
          rcases j with _ | _ | j
          · rfl
          · simp only [List.getElem?_cons_succ, List.getElem?_cons_zero, Option.some.injEq] at hj
            exact absurd hj hne
          · simp at hj
        subst hj0
        exact ⟨id, hmax e id g1, by rw [hwd]; rfl, by rw [hids]; exact g1⟩
      · intro j id' hj hne'
        have hj1 : j = 1 ∧ id' = metric := by
          rcases j with _ | _ | j
          · simp only [List.getElem?_cons_zero, Option.some.injEq] at hj
            exact absurd hj.symm hne'
          · simp only [List.getElem?_cons_succ, List.getElem?_cons_zero, Option.some.injEq] at hj
            exact ⟨rfl, hj.symm⟩
          · simp at hj
        obtain ⟨rfl, rfl⟩ := hj1
        exact ⟨k, c.printF x, x, hk, by rw [hwd]; rfl, (hp x hx).2, by simp [g2]⟩)
  refine ⟨t', h1, ?_, ?_⟩
  · intro e he
    rw [h2 e he k metric hk hne (by simp), if_pos rfl]
  · intro e j hor
    refine h3 e j (hor.imp_right ?_)
    intro hjk id hid hne' hmem
    simp only [List.mem_cons, Option.some.injEq, List.not_mem_nil, or_false] at hmem
    rcases hmem with h | rfl
    · exact hne' h
    · exact hjk ((List.getElem?_inj (Gen.lt_of_some hid) (ids_nodup hc hu)).mp (hid.trans hk.symm))

/-- C58: metrics that have been written by the writer of edges can be merged into a graph with the same edges: then
all metrics with a column have the written values for the written edges, and nothing else has changed. -/
theorem C58_metrics {c : Codec} {env : Env} {s t : Net} {header sh d : Bool} {edgeId n : Text}
    {cols : List (Option Text)} {file : List Text} (hws : s.graph.WellFormed)
    (hw : t.graph.WellFormed) (hc : Gen.Consistent t) (hu : UniqueIds t.edges.cats) (hte : t.edges = s.edges)
    (hids : ∀ e, t.graph.tryId e = s.graph.tryId e) (hpr : Printable c s d)
    (hparse : ∀ e k y, OutValue s d e k y → env.parseF (c.printF y) = some y)
    (hid : FirstCat EdgeCat.id? s.edges.cats edgeId (.info .edgeId n)) (hcol : some edgeId ∈ cols)
    (hcols : ∀ id, some id ∈ cols → id ≠ edgeId → ∃ u, FirstCat EdgeCat.id? s.edges.cats id (.metric u id))
    (hh : header = true → ∃ col rest, cols = col :: rest ∧ col ≠ some [] ∧ ∀ id, col = some id → id.head? ≠ some '#')
    (h : writeEdges c s header sh d cols = .ok file) :
    ∃ t', Gen.edgeStep env t (.merge (some file) header edgeId cols) = .ok t' ∧
      (∀ e ∈ writtenEdges s.graph sh, ∀ (k : Nat) (id : Text), s.edges.ids[k]? = some id → id ≠ edgeId →
        some id ∈ cols → ∃ y, OutValue s d e k y ∧ value t'.graph.metrics e k = some y) ∧
      ∀ e k, (e ∉ writtenEdges s.graph sh ∨ ∀ id : Text, s.edges.ids[k]? = some id → id ≠ edgeId → some id ∉ cols) →
        value t'.graph.metrics e k = value t.graph.metrics e k := by
  have hnd := ids_nodup hc hu
  have hne0 : cols ≠ [] := by
    rintro rfl
    simp at hcol
  obtain ⟨lines, rfl, hrows⟩ := C30_csv_partial hws (by
    intro id m hm
    by_cases hi : id = edgeId
    · subst hi
      exact ⟨fun hf => (by cases firstCat_unique hid hf), fun hf => (by cases firstCat_unique hid hf)⟩
    · obtain ⟨u, hu⟩ := hcols id hm hi
      exact ⟨fun hf => (by cases firstCat_unique hu hf), fun hf => (by cases firstCat_unique hu hf)⟩) h
  have hcells : ∀ e texts, List.Forall₂ (ColumnIs c s d e) cols texts → (∀ x ∈ texts, Cell x) := by
    intro e texts ht x hx
    obtain ⟨j, hj⟩ := List.getElem?_of_mem hx
    have hjl := Gen.lt_of_some hj
    have hlen := ht.length_eq
    have := ht.get (i := j) (by omega) hjl
    simp only [List.get_eq_getElem] at this
    rw [List.getElem?_eq_getElem hjl, Option.some.injEq] at hj
    rw [hj] at this
    have hmem := List.getElem_mem (l := cols) (n := j) (by omega)
    rcases this with ⟨-, rfl⟩ | ⟨id, cat, h1, h2, h3⟩
    · exact cell_ignoreText
    · rw [h1] at hmem
      by_cases hi : id = edgeId
      · subst hi
        cases firstCat_unique hid h2
        obtain ⟨y, -, rfl⟩ := h3
        exact cell_printNat y
      · obtain ⟨u, hu⟩ := hcols id hmem hi
        cases firstCat_unique hu h2
        obtain ⟨k, y, -, -, h4, rfl⟩ := h3
        exact cell_exact (hpr.metrics e k y h4)
  have hdata := dataLines_file (header := header) (head := join ' ' (cols.map fun col => col.getD "_".toList))
    (lines := lines) (by
      intro hd
      obtain ⟨col, rest, rfl, h1, h2⟩ := hh hd
      rw [List.map_cons]
      have hne : col.getD "_".toList ≠ [] := by
        cases col with
        | none => decide
        | some id => simpa using h1
      have hhead := join_head (sep := ' ') (ts := rest.map fun col => col.getD "_".toList) hne
      have hnn : join ' ' (col.getD "_".toList :: rest.map fun col => col.getD "_".toList) ≠ [] := by
        intro hc
        rw [hc] at hhead
        cases h : col.getD "_".toList with
        | nil => exact hne h
        | cons a l => rw [h] at hhead; cases hhead
      have hh2 : (col.getD "_".toList).head? ≠ some '#' := by
        cases col with
        | none => decide
        | some id => simpa using h2 id rfl
      unfold isFunctional
      rw [hhead]
      simpa [List.length_pos_iff] using And.intro hnn hh2) (by
      intro line hline
      obtain ⟨m, hm⟩ := List.getElem?_of_mem hline
      have hml := Gen.lt_of_some hm
      have hlen := hrows.length_eq
      obtain ⟨texts, h3, h4⟩ := hrows.get (i := m) (by omega) hml
      simp only [List.get_eq_getElem] at h3
      rw [List.getElem?_eq_getElem hml, Option.some.injEq] at hm
      rw [← hm, h3]
      have hl := h4.length_eq
      cases texts with
      | nil =>
        cases cols with
        | nil => exact absurd rfl hne0
        | cons a l => simp at hl
      | cons x texts => exact line_functional (hcells _ _ h4 x (by simp)))
  obtain ⟨t', h1, h2, h3⟩ := merge_rows (env := env) (edgeId := edgeId) (cols := cols)
    (val := fun e k => match metricValue s d e k with | .ok y => some y | _ => none) hw hc
    hnd hcol hdata (written_nodup s.graph sh) (by
      refine forall₂_imp_mem hrows ?_
      rintro e he line - ⟨texts, rfl, ht⟩
      have hwd := words_line (hcells e texts ht)
      have hcell : ∀ (j : Nat) (id : Text), cols[j]? = some (some id) → ∃ p cat, texts[j]? = some p ∧
          FirstCat EdgeCat.id? s.edges.cats id cat ∧ CellIs c s d e p cat := by
        intro j id hj
        have hlen := ht.length_eq
        have hjl := Gen.lt_of_some hj
        have := ht.get (i := j) hjl (by omega)
        simp only [List.get_eq_getElem] at this
        rw [List.getElem?_eq_getElem hjl, Option.some.injEq] at hj
        rw [hj] at this
        rcases this with ⟨h, -⟩ | ⟨id', cat, g1, g2, g3⟩
        · cases h
        · cases g1
          exact ⟨_, cat, List.getElem?_eq_getElem (by omega), g2, g3⟩
      refine ⟨by rw [hwd, ht.length_eq], ?_, ?_⟩
      · intro j hj
        obtain ⟨p, cat, g1, g2, g3⟩ := hcell j edgeId hj
        cases firstCat_unique hid g2
        obtain ⟨x, g4, rfl⟩ := g3
        exact ⟨x, hpr.edgeId e x g4, by rw [hwd]; exact g1, by rw [hids]; exact g4⟩
      · intro j id hj hne
        obtain ⟨p, cat, g1, g2, g3⟩ := hcell j id hj
        obtain ⟨u, hu⟩ := hcols id (List.mem_of_getElem? hj) hne
        cases firstCat_unique hu g2
        obtain ⟨k, y, g4, -, g5, rfl⟩ := g3
        exact ⟨k, _, y, by rw [hte]; exact g4, by rw [hwd]; exact g1, hparse e k y g5,
          by simp only [metricValue_ok.mpr g5]⟩)
  rw [hte] at h2 h3
  refine ⟨t', h1, ?_, fun e k hor => h3 e k hor⟩
  intro e he k id hk hne hmem
  have hv := h2 e he k id hk hne hmem
  obtain ⟨m, hm⟩ := List.getElem?_of_mem he
  have hml := Gen.lt_of_some hm
  have hlen := hrows.length_eq
  obtain ⟨texts, -, h4⟩ := hrows.get (i := m) hml (by omega)
  simp only [List.get_eq_getElem] at h4
  rw [List.getElem?_eq_getElem hml, Option.some.injEq] at hm
  rw [hm] at h4
  obtain ⟨j, hj⟩ := List.getElem?_of_mem hmem
  have hjl := Gen.lt_of_some hj
  have hlen' := h4.length_eq
  have := h4.get (i := j) hjl (by omega)
  simp only [List.get_eq_getElem] at this
  rw [List.getElem?_eq_getElem hjl, Option.some.injEq] at hj
  rw [hj] at this
  rcases this with ⟨h, -⟩ | ⟨id', cat, g1, g2, g3⟩
  · cases h
  · cases g1
    obtain ⟨u, hu⟩ := hcols id hmem hne
    cases firstCat_unique hu g2
    obtain ⟨k', y, g4, -, g5, -⟩ := g3
    rw [hte] at hnd
    have : k' = k := (List.getElem?_inj (Gen.lt_of_some g4) hnd).mp (g4.trans hk.symm)
    subst this
    exact ⟨y, g5, by rw [hv]; simp only [metricValue_ok.mpr g5]⟩

/-- Merging with the sample's numbers. -/
def exMergeEnv : Env := { haversine := fun _ _ => 0, parseF := exCodec.parseF }

theorem exNet_unique : UniqueIds exNet.edges.cats := by
  unfold UniqueIds
  decide +kernel

/-- Other values for the edges that are no shortcuts. -/
example : ∃ t', Gen.edgeStep exMergeEnv exNet (.merge
      (some ["id km".toList, "5 20/1".toList, "6 30/1".toList, "7 7/2".toList]) true "id".toList
      [some "id".toList, some "km".toList]) = .ok t' ∧
    value t'.graph.metrics 3 0 = some (7 / 2) ∧ value t'.graph.metrics 0 0 = some 4 := by
  obtain ⟨t', h1, h2, h3⟩ := C58_values (c := exCodec) (env := exMergeEnv) (s := exNet) (t := exNet) (header := true)
    (sh := false) (edgeId := "id".toList) (metric := "km".toList) (values := [10, 20, 30, 7 / 2]) (k := 0)
    exNet_wellFormed exNet_consistent exNet_unique (fun _ => rfl) (exNet_printable false).edgeId (by decide +kernel)
    (by decide +kernel) (fun x _ => ⟨exCodec_exact x, (exCodec_exact x).parse⟩)
    (fun _ => by decide +kernel)
    (file := ["id km".toList, "5 20/1".toList, "6 30/1".toList, "7 7/2".toList]) (by decide +kernel)
  exact ⟨t', h1, by rw [h2 3 (by decide +kernel)]; rfl, by rw [h3 0 0 (.inl (by decide +kernel))]; decide +kernel⟩

/-- The sample with one for all metrics. -/
def onesNet : Net := { exNet with graph := { exNet.graph with metrics := [[1], [1], [1], [1]] } }

theorem onesNet_consistent : Gen.Consistent onesNet where
  metrics := exNet_consistent.metrics
  len := exNet_consistent.len
  dim := exNet_consistent.dim
  values := by decide +kernel

theorem onesNet_wellFormed : onesNet.graph.WellFormed :=
  have h := exNet_wellFormed
  ⟨h.ids_sorted, h.coords_len, h.levels_len, h.bwd_len, by decide +kernel, h.edgeIds_len, h.ends_lt,
    h.start, h.covered_iff, h.not_covered, h.sc_ok, h.sc_len, h.idMap_iff⟩

/-- The sample's metrics are written and merged. -/
example : ∃ t', Gen.edgeStep exMergeEnv onesNet (.merge
      (some ["km id".toList, "4/1 9".toList, "1/1000000 5".toList, "3/1 6".toList, "2/1 7".toList]) true "id".toList
      [some "km".toList, some "id".toList]) = .ok t' ∧
    ∃ y, OutValue exNet false 0 0 y ∧ value t'.graph.metrics 0 0 = some y := by
  obtain ⟨t', h1, h2, -⟩ := C58_metrics (c := exCodec) (env := exMergeEnv) (s := exNet) (t := onesNet) (header := true)
    (sh := true) (d := false) (edgeId := "id".toList) (cols := [some "km".toList, some "id".toList])
    exNet_wellFormed onesNet_wellFormed onesNet_consistent exNet_unique rfl (fun _ => rfl) (exNet_printable false)
    (fun _ _ y _ => (exCodec_exact y).parse) (n := "id".toList) (firstCat_of_find (by decide +kernel))
    (by simp)
    (by
      intro id hid hne
      simp only [List.mem_cons, Option.some.injEq, List.not_mem_nil, or_false] at hid
      rcases hid with rfl | rfl
      · exact ⟨.kilometers, firstCat_of_find (by decide +kernel)⟩
      · exact absurd rfl hne)
    (fun _ => ⟨_, _, rfl, by decide +kernel, by
      intro id h
      cases h
      decide +kernel⟩)
    (file := ["km id".toList, "4/1 9".toList, "1/1000000 5".toList, "3/1 6".toList, "2/1 7".toList])
    (by decide +kernel)
  exact ⟨t', h1, h2 0 (by decide +kernel) 0 "km".toList (by decide +kernel) (by decide +kernel) (by simp)⟩

/-- The sample whose id-column is called `#id`. -/
def hashNet : Net := { exNet with edges := { exNet.edges with
  cats := .info .edgeId "#id".toList :: exNet.edges.cats.drop 1 } }

def metricsOfNet : Gen.R Net → List (List ℚ)
  | .ok s => s.graph.metrics
  | _ => []

/-- C58 is false if the first column's id looks like a comment: then the header is taken for a comment and the first
edge for the header, so that its value is lost. -/
theorem C58_false_header :
    writeValues exCodec.printF hashNet true true [some "#id".toList, some "km".toList] [10, 20, 30, 40] =
      .ok ["#id km".toList, "9 10/1".toList, "5 20/1".toList, "6 30/1".toList, "7 40/1".toList] ∧
    metricsOfNet (Gen.edgeStep exMergeEnv hashNet (.merge (some ["#id km".toList, "9 10/1".toList, "5 20/1".toList,
      "6 30/1".toList, "7 40/1".toList]) true "#id".toList [some "#id".toList, some "km".toList])) =
      [[4], [20], [30], [40]] := by decide +kernel

end Verif.Fmi
