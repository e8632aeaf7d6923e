import Verif.VisualSpec
import Verif.FmiLemmas2
import Verif.CsvProps

/-!
# Lemmas about what the visualizer reads
-/

namespace Verif.Vis

open Text Cfg
open Gen (Net)
open Fmi

theorem cells_ne_nil (t : Text) : cells t ≠ [] := by
  cases t with
  | nil => simp [cells]
  | cons ch t =>
    unfold cells
    split
    · simp
    · split <;> simp

theorem cells_plain : ∀ {t : Text}, Plain t → cells t = [t]
  | [], _ => rfl
  | ch :: t, h => by
    have h1 := (h ch (by simp)).1
    have h2 := cells_plain (t := t) fun x hx => h x (List.mem_cons_of_mem _ hx)
    simp [cells, h1, h2]

theorem cells_append : ∀ {t : Text} (u : Text), Plain t → cells (t ++ ' ' :: u) = t :: cells u
  | [], u, _ => by simp [cells]
  | ch :: t, u, h => by
    have h1 := (h ch (by simp)).1
    have h2 := cells_append (t := t) u fun x hx => h x (List.mem_cons_of_mem _ hx)
    simp [cells, h1, h2]

theorem cells_join : ∀ {ws : List Text}, ws ≠ [] → (∀ w ∈ ws, Plain w) → cells (join ' ' ws) = ws
  | [], h, _ => absurd rfl h
  | [w], _, h => cells_plain (h w (by simp))
  | w :: w' :: ws, _, h => by
    have h2 := cells_join (ws := w' :: ws) (by simp) fun x hx => h x (List.mem_cons_of_mem _ hx)
    rw [join]
    · rw [cells_append _ (h w (by simp)), h2]
    · simp

theorem join_ne_nil : ∀ {ws : List Text} {w : Text}, w ∈ ws → w ≠ [] → join ' ' ws ≠ []
  | [_], _, h, hn => by
    simp only [List.mem_singleton] at h
    subst h
    exact hn
  | w :: w' :: ws, _, _, _ => by simp [join]

theorem field_ok {names texts : List Text} {name : Text} (hl : texts.length = names.length) (hn : name ∈ names) :
    ∃ (j : Nat) (t : Text), names[j]? = some name ∧ texts[j]? = some t ∧ field names texts name = some t := by
  unfold field
  have hex : ∃ p ∈ (names.zip texts).reverse, p.1 = name := by
    obtain ⟨j, hj, rfl⟩ := List.getElem_of_mem hn
    refine ⟨(names[j], texts[j]), ?_, rfl⟩
    rw [List.mem_reverse, List.mem_iff_getElem]
    exact ⟨j, by rw [List.length_zip]; omega, by simp⟩
  obtain ⟨p, hp, hpn⟩ := hex
  cases hf : (names.zip texts).reverse.find? fun p => decide (p.1 = name) with
  | none =>
    rw [List.find?_eq_none] at hf
    exact absurd hpn (by simpa using hf p hp)
  | some q =>
    have h1 := List.find?_some hf
    have h2 := List.mem_of_find?_eq_some hf
    rw [List.mem_reverse, List.mem_iff_getElem] at h2
    obtain ⟨j, hj, rfl⟩ := h2
    rw [List.length_zip] at hj
    simp only [List.getElem_zip, decide_eq_true_eq] at h1
    refine ⟨j, texts[j], ?_, ?_, by simp⟩
    · rw [List.getElem?_eq_getElem (by omega), h1]
    · rw [List.getElem?_eq_getElem (by omega)]

/-- A table whose rows can be read. -/
theorem readRows_ok {α : Type} {row : (Text → Option Text) → Option α} {names : List Text} {es : List Nat}
    {lines : List Text} {P : Nat → α → Prop} (hn : names ≠ []) (hp : ∀ n ∈ names, Plain n)
    (h : List.Forall₂ (fun e line => ∃ texts a, line = join ' ' texts ∧ texts.length = names.length ∧
      (∀ t ∈ texts, Plain t) ∧ line ≠ [] ∧ row (field names texts) = some a ∧ P e a) es lines) :
    ∃ rows, readRows row (join ' ' names :: lines) = some rows ∧ List.Forall₂ P es rows := by
  have h1 : ∀ line ∈ lines, line ≠ [] := by
    intro line hl
    obtain ⟨i, hi, rfl⟩ := List.getElem_of_mem hl
    obtain ⟨t, a, -, -, -, h, -⟩ := (List.forall₂_iff_get.mp h).2 i (by rw [h.length_eq]; exact hi) hi
    exact h
  have h2 : (lines.filter fun line => decide (line ≠ [])) = lines := by
    rw [List.filter_eq_self]
    intro line hl
    simpa using h1 line hl
  simp only [readRows, h2, cells_join hn hp]
  clear h1 h2
  induction h with
  | nil => exact ⟨[], by simp, .nil⟩
  | @cons e line es lines he _ ih =>
    obtain ⟨texts, a, rfl, hl, ht, -, hr, hP⟩ := he
    obtain ⟨rows, hrows, hall⟩ := ih
    refine ⟨a :: rows, ?_, .cons hP hall⟩
    have : texts ≠ [] := by
      intro h0
      rw [h0] at hl
      exact hn (List.length_eq_zero_iff.mp hl.symm)
    rw [List.mapM_cons, cells_join this ht, hr]
    simp only [Option.bind_eq_bind, Option.bind_some]
    rw [hrows]
    rfl

theorem plain_printNat (n : Nat) : Plain (printNat n) := by
  intro ch h
  have := printNat_digits h
  refine ⟨?_, ?_⟩ <;> rintro rfl <;> revert this <;> decide

theorem plain_printInt (i : Int) : Plain (printInt i) := by
  cases i with
  | ofNat n => exact plain_printNat n
  | negSucc n =>
    intro ch h
    rcases List.mem_cons.mp h with rfl | h
    · decide
    · exact plain_printNat _ ch h

theorem plain_noShortcut : Plain noShortcut := by
  intro ch h
  have : ch = '-' ∨ ch = '1' := by simpa [noShortcut] using h
  rcases this with rfl | rfl <;> decide

theorem plain_ignoreText : Plain ignoreText := by
  intro ch h
  have : ch = '_' := by simpa [ignoreText] using h
  subst this
  decide

theorem edgeText_plain {c : Codec} {s : Net} {d : Bool} {e : Nat} {cat : EdgeCat} {t : Text}
    (hp : ∀ x, Plain (c.printF x)) (h : edgeText c s d e cat = .ok t) : Plain t := by
  cases cat with
  | ignored => cases h
  | metric u id =>
    simp only [edgeText] at h
    split at h
    · cases h
    · simp only [Res.bind_eq_ok, Res.pure_eq, Res.ok.injEq] at h
      obtain ⟨y, hy, rfl⟩ := h
      exact hp _
  | info i id =>
    cases i <;> simp only [edgeText, Res.bind_eq_ok, Res.pure_eq, Res.ok.injEq, acc_ok] at h
    · obtain ⟨x, hx, rfl⟩ := h
      exact plain_printNat _
    · obtain ⟨u, hu, x, hx, rfl⟩ := h
      exact plain_printInt _
    · obtain ⟨u, hu, rfl⟩ := h
      exact plain_printNat _
    · obtain ⟨u, hu, x, hx, rfl⟩ := h
      exact hp _
    · obtain ⟨u, hu, x, hx, rfl⟩ := h
      exact hp _
    · obtain ⟨u, hu, x, hx, rfl⟩ := h
      exact plain_printInt _
    · obtain ⟨u, hu, rfl⟩ := h
      exact plain_printNat _
    · obtain ⟨u, hu, x, hx, rfl⟩ := h
      exact hp _
    · obtain ⟨u, hu, x, hx, rfl⟩ := h
      exact hp _
    · obtain ⟨o, ho, rfl⟩ := h
      cases o with
      | none => exact plain_noShortcut
      | some p => exact plain_printNat _
    · obtain ⟨o, ho, rfl⟩ := h
      cases o with
      | none => exact plain_noShortcut
      | some p => exact plain_printNat _

/-- The text of a column with a name. -/
theorem column_text {c : Codec} {s : Net} {d : Bool} {e : Nat} {cols : List (Option Text)} {texts : List Text}
    {name : Text} {cat : EdgeCat} (ht : List.Forall₂ (fun col t => edgeColumn c s d e col = .ok t) cols texts)
    (hn : some name ∈ cols) (h_ : name ≠ ignoreText) (hcat : FirstCat EdgeCat.id? s.edges.cats name cat) :
    ∃ t ∈ texts, field (headerTexts cols) texts name = some t ∧ edgeText c s d e cat = .ok t := by
  obtain ⟨j, t, h1, h2, h3⟩ := field_ok (names := headerTexts cols) (texts := texts) (name := name)
    (by simp [headerTexts, ht.length_eq]) (List.mem_map.mpr ⟨some name, hn, rfl⟩)
  refine ⟨t, List.mem_of_getElem? h2, h3, ?_⟩
  simp only [headerTexts, List.getElem?_map, Option.map_eq_some_iff] at h1
  obtain ⟨col, hcol, hname⟩ := h1
  have hct : edgeColumn c s d e col = .ok t := by
    rw [List.forall₂_iff_get] at ht
    obtain ⟨hj, rfl⟩ := List.getElem?_eq_some_iff.mp hcol
    obtain ⟨hj', rfl⟩ := List.getElem?_eq_some_iff.mp h2
    exact ht.2 j hj hj'
  rcases edgeColumn_ok hct with ⟨rfl, -⟩ | ⟨id, cat', rfl, hf, he⟩
  · exact absurd hname.symm h_
  · cases hname
    cases firstCat_unique hf hcat
    exact he

/-- Edges with the same id are the same. -/
theorem sameId {net : Net} (hw : net.graph.WellFormed) {e e' id : Nat} (h : net.graph.tryId e = .ok (some id))
    (h' : net.graph.tryId e' = .ok (some id)) : e = e' := by
  rw [← hw.idMap_iff] at h h'
  rw [h] at h'
  cases h'
  rfl

/-- Rows sorted by id. -/
theorem sort_rows {α : Type} {key : α → Nat} {P : Nat → α → Prop} {net : Net} {sc : Bool} {rows : List α}
    (hw : net.graph.WellFormed)
    (h : List.Forall₂ (fun e a => net.graph.tryId e = .ok (some (key a)) ∧ P e a) (writtenEdges net.graph sc) rows) :
    let l := stableSort (fun a b => decide (key a ≤ key b)) rows
    (l.map key).Pairwise (· < ·) ∧ (∀ id, id ∈ l.map key ↔ ∃ e, HasId net sc e id) ∧
      ∀ a ∈ l, ∃ e, HasId net sc e (key a) ∧ P e a := by
  intro l
  have hperm : l.Perm rows := stableSort_perm rows
  have hle : l.Pairwise (fun a b => key a ≤ key b) := by
    have := pairwise_stableSort (le := fun a b : α => decide (key a ≤ key b))
      (by simp only [decide_eq_true_eq]; intro a b c; exact le_trans)
      (by simp only [Bool.or_eq_true, decide_eq_true_eq]; intro a b; exact le_total _ _) rows
    simpa using this
  have hnd : (rows.map key).Nodup := by
    have h0 : (writtenEdges net.graph sc).Nodup := List.Nodup.filter _ List.nodup_range
    clear hle hperm l
    generalize writtenEdges net.graph sc = es at h h0
    induction h with
    | nil => simp
    | @cons e a es rows h1 h2 ih =>
      rw [List.nodup_cons] at h0
      rw [List.map_cons, List.nodup_cons]
      refine ⟨?_, ih h0.2⟩
      intro hm
      obtain ⟨b, hb, hk⟩ := List.mem_map.mp hm
      obtain ⟨i, hi, rfl⟩ := List.getElem_of_mem hb
      have hi' : i < es.length := by rw [h2.length_eq]; exact hi
      have := (List.forall₂_iff_get.mp h2).2 i hi' hi
      simp only [List.get_eq_getElem, hk] at this
      have he := sameId hw h1.1 this.1
      exact h0.1 (he ▸ List.getElem_mem hi')
  have hex : ∀ a ∈ rows, ∃ e, HasId net sc e (key a) ∧ P e a := by
    intro a ha
    obtain ⟨i, hi, rfl⟩ := List.getElem_of_mem ha
    have hi' : i < (writtenEdges net.graph sc).length := by rw [h.length_eq]; exact hi
    have := (List.forall₂_iff_get.mp h).2 i hi' hi
    simp only [List.get_eq_getElem] at this
    exact ⟨_, ⟨List.getElem_mem hi', this.1⟩, this.2⟩
  refine ⟨?_, ?_, fun a ha => hex a (hperm.mem_iff.mp ha)⟩
  · have h1 : (l.map key).Pairwise (· ≤ ·) := List.pairwise_map.mpr hle
    have h2 : (l.map key).Nodup := ((hperm.map key).nodup_iff).mpr hnd
    exact (h1.and h2).imp fun ⟨a, b⟩ => lt_of_le_of_ne a b
  · intro id
    constructor
    · intro hm
      obtain ⟨a, ha, rfl⟩ := List.mem_map.mp hm
      obtain ⟨e, he, -⟩ := hex a (hperm.mem_iff.mp ha)
      exact ⟨e, he⟩
    · rintro ⟨e, he, hid⟩
      obtain ⟨i, hi, rfl⟩ := List.getElem_of_mem he
      have hi' : i < rows.length := by rw [← h.length_eq]; exact hi
      have := (List.forall₂_iff_get.mp h).2 i hi hi'
      simp only [List.get_eq_getElem] at this
      rw [this.1, Res.ok.injEq, Option.some.injEq] at hid
      exact List.mem_map.mpr ⟨_, hperm.mem_iff.mpr (List.getElem_mem hi'), hid⟩

/-- Increasing lists with the same members are equal. -/
theorem increasing_eq {l l' : List Nat} (h : l.Pairwise (· < ·)) (h' : l'.Pairwise (· < ·))
    (hm : ∀ x, x ∈ l ↔ x ∈ l') : l = l' := by
  have hp : l.Perm l' :=
    (List.perm_ext_iff_of_nodup (h.imp fun h => Nat.ne_of_lt h) (h'.imp fun h => Nat.ne_of_lt h)).mpr hm
  exact hp.eq_of_pairwise (fun a b _ _ h1 h2 => absurd h1 (Nat.lt_asymm h2)) h h'

theorem lt_ne_ignore {name : Text} (h : 2 ≤ name.length) : name ≠ ignoreText := by
  rintro rfl
  exact absurd h (by decide)

/-- The rows of the streets. -/
theorem streets_rows {c : Codec} {float : Text → Option ℚ} {net : Net} {sc d : Bool} {cols : List (Option Text)}
    {file : List Text} (hf : ∀ x, float (c.printF x) = some x ∧ Plain (c.printF x)) (hw : net.graph.WellFormed)
    (hn : Named net.edges.cats cols) (h : writeEdges c net true sc d cols = .ok file) :
    ∃ rows, readRows (street float) file = some rows ∧
      List.Forall₂ (fun e s => net.graph.tryId e = .ok (some s.id) ∧ AtSource net e s ∧ Measured net d e s)
        (writtenEdges net.graph sc) rows := by
  simp only [writeEdges, Res.bind_eq_ok, Res.pure_eq, Res.ok.injEq] at h
  obtain ⟨lines, hl, rfl⟩ := h
  refine readRows_ok (names := headerTexts cols) ?_ ?_ ((edgeLines_ok hl).imp ?_)
  · intro h0
    have := hn.written "edge-id" (by simp)
    simp only [headerTexts, List.map_eq_nil_iff] at h0
    rw [h0] at this
    cases this
  · intro n hm
    obtain ⟨col, hc, rfl⟩ := List.mem_map.mp hm
    cases col with
    | none => exact plain_ignoreText
    | some id => exact hn.plain id hc
  · intro e line he
    simp only [edgeLine, Res.bind_eq_ok, Res.pure_eq, Res.ok.injEq, mapR_ok] at he
    obtain ⟨texts, ht, rfl⟩ := he
    obtain ⟨t1, m1, f1, x1⟩ := column_text ht (hn.written "edge-id" (by simp)) (lt_ne_ignore (by decide)) hn.edgeId
    obtain ⟨t2, -, f2, x2⟩ := column_text ht (hn.written "src-lat" (by simp)) (lt_ne_ignore (by decide)) hn.srcLat
    obtain ⟨t3, -, f3, x3⟩ := column_text ht (hn.written "src-lon" (by simp)) (lt_ne_ignore (by decide)) hn.srcLon
    obtain ⟨t4, -, f4, x4⟩ := column_text ht (hn.written "dst-lat" (by simp)) (lt_ne_ignore (by decide)) hn.dstLat
    obtain ⟨t5, -, f5, x5⟩ := column_text ht (hn.written "dst-lon" (by simp)) (lt_ne_ignore (by decide)) hn.dstLon
    obtain ⟨u6, hu6⟩ := hn.kilometers
    obtain ⟨u7, hu7⟩ := hn.lanes
    obtain ⟨t6, -, f6, x6⟩ := column_text ht (hn.written "kilometers" (by simp)) (lt_ne_ignore (by decide)) hu6
    obtain ⟨t7, -, f7, x7⟩ := column_text ht (hn.written "lane-count" (by simp)) (lt_ne_ignore (by decide)) hu7
    obtain ⟨id, hid, rfl⟩ := edgeText_ok hw x1 rfl rfl
    obtain ⟨u, v, x, huv, hx, rfl⟩ := edgeText_ok hw x2 rfl rfl
    have hu := huv.2
    simp only [edgeText, Res.bind_eq_ok, Res.pure_eq, Res.ok.injEq, acc_ok, hu] at x3 x4 x5
    obtain ⟨u3, e3, z3, h3, rfl⟩ := x3
    obtain ⟨u4, e4, z4, h4, rfl⟩ := x4
    obtain ⟨u5, e5, z5, h5, rfl⟩ := x5
    rw [← e3, hx] at h3
    rw [← e4, hx] at h4
    rw [← e5, hx] at h5
    cases h3
    cases h4
    cases h5
    obtain ⟨k6, y6, a6, -, b6, rfl⟩ := edgeText_ok hw x6 rfl rfl
    obtain ⟨k7, y7, a7, -, b7, rfl⟩ := edgeText_ok hw x7 rfl rfl
    refine ⟨texts, { id := id, lat := (x.lat + x.lat) / 2, lon := (x.lon + x.lon) / 2, kilometers := y6, lanes := y7 },
      rfl, by simp [headerTexts, ht.length_eq], ?_, join_ne_nil m1 (printNat_ne_nil id), ?_, hid,
      ⟨_, v, x, huv, hx, by simp, by simp⟩, ⟨⟨k6, a6, b6⟩, ⟨k7, a7, b7⟩⟩⟩
    · intro t htm
      obtain ⟨i, hi, rfl⟩ := List.getElem_of_mem htm
      have := (List.forall₂_iff_get.mp ht).2 i (by rw [ht.length_eq]; exact hi) hi
      simp only [List.get_eq_getElem] at this
      rcases edgeColumn_ok this with ⟨-, h0⟩ | ⟨_, _, -, -, h0⟩
      · rw [h0]
        exact plain_ignoreText
      · exact edgeText_plain (fun x => (hf x).2) h0
    · unfold street
      rw [f1, f2, f3, f4, f5, f6, f7]
      simp only [Option.bind_eq_bind, Option.bind_some, digits?_printNat, (hf _).1]
      rfl

theorem edgeIdName_eq {net : Net} {cols : List (Option Text)} (hn : Named net.edges.cats cols) :
    Tool.edgeIdName net = some "edge-id".toList := by
  obtain ⟨n, h1, -, -⟩ := hn.edgeId
  have hm := List.mem_of_getElem? h1
  cases h : Tool.edgeIdName net with
  | none =>
    unfold Tool.edgeIdName at h
    rw [List.findSome?_eq_none_iff] at h
    have := h _ hm
    cases this
  | some name =>
    unfold Tool.edgeIdName at h
    obtain ⟨cat, hc, h⟩ := List.exists_of_findSome?_eq_some h
    split at h
    · cases h
      rw [hn.onlyId _ hc]
    · cases h

/-- The rows of the workloads. -/
theorem workload_rows {net : Net} {sc : Bool} {cols : List (Option Text)} {routes : List Nat} {file : List Text}
    (hn : Named net.edges.cats cols)
    (h : writeValues printNat net true sc [Tool.edgeIdName net, some Tool.numRoutes] routes = .ok file) :
    ∃ rows, readRows workload file = some rows ∧
      List.Forall₂ (fun e p => net.graph.tryId e = .ok (some p.1) ∧ routes[e]? = some p.2)
        (writtenEdges net.graph sc) rows := by
  simp only [writeValues, Res.bind_eq_ok, Res.pure_eq, Res.ok.injEq, edgeIdName_eq hn] at h
  obtain ⟨lines, hl, rfl⟩ := h
  refine readRows_ok (names := ["edge-id".toList, "num_routes".toList]) (by simp) ?_ ((valueLines_ok _ _ hl).imp ?_)
  · unfold Plain
    decide
  · rintro e line ⟨id, x, h1, h2, rfl⟩
    refine ⟨[printNat id, printNat x], (id, x), rfl, rfl, ?_, join_ne_nil (by simp) (printNat_ne_nil id), ?_, h1, h2⟩
    · intro t ht
      simp only [List.mem_cons, List.not_mem_nil, or_false] at ht
      rcases ht with rfl | rfl
      · exact plain_printNat id
      · exact plain_printNat x
    · have f1 : field ["edge-id".toList, "num_routes".toList] [printNat id, printNat x] "edge-id".toList =
          some (printNat id) := rfl
      have f2 : field ["edge-id".toList, "num_routes".toList] [printNat id, printNat x] "num_routes".toList =
          some (printNat x) := rfl
      unfold workload
      rw [f1, f2]
      simp only [Option.bind_eq_bind, Option.bind_some, digits?_printNat]
      rfl

end Verif.Vis
