import Verif.SessionSpec
import Verif.FmiLemmas3
import Verif.RoutesLemmas

/-!
# Lemmas about the lines of maps and route-pairs
-/

namespace Verif.Session

open Text Cfg
open Fmi (scan inRange mapR readColumns readColumn readEdge EdgeAcc)

theorem scan_head {head : List Text} {ns : List Nat}
    (h : List.Forall₂ (fun line n => ∃ t, words line = [t] ∧ parseNat maxUsize t = some n) head ns) (hne : ns ≠ [])
    {rows : List Text} (hr : ∀ line ∈ rows.head?, (words line).length ≠ 1) (b : Bool) (cs : List Nat) (n : Nat) :
    scan b cs n (head ++ rows) = (n + head.length, cs ++ ns) := by
  induction h generalizing b cs n with
  | nil => exact absurd rfl hne
  | @cons line k head ns h1 h2 ih =>
    obtain ⟨t, h3, h4⟩ := h1
    rw [List.cons_append, scan, h3]
    simp only [h4]
    cases ns with
    | nil =>
      cases h2
      rw [List.nil_append, Routes.scan_stop_head hr]
      simp
    | cons k' ns =>
      rw [ih (by simp)]
      simp only [List.length_cons, List.append_assoc, List.cons_append, List.nil_append, Prod.mk.injEq, and_true]
      omega

/-- What is known about the lines before the rows. -/
theorem scan_rows {file : List Text} {counts : List Nat} {rows : List Text} (h : HasRows file counts rows)
    (hne : counts ≠ []) : ∃ pre, file.filter isFunctional = pre ++ rows ∧
      scan false [] 0 (file.filter isFunctional) = (pre.length, counts) := by
  obtain ⟨pre, head, h1, h2, h3, h4⟩ := h
  refine ⟨pre ++ head, by rw [Fmi.functional_eq, h1], ?_⟩
  rw [Fmi.functional_eq, h1, List.append_assoc, Routes.scan_skip h2, scan_head h3 hne h4]
  simp

theorem inRange_mid {pre mid rest : List Text} {n : Nat} (hn : n = mid.length) :
    inRange pre.length (pre.length + n) 0 (pre ++ (mid ++ rest)) = mid := by
  subst hn
  rw [Fmi.inRange_drop (by omega)]
  simp

theorem read_map {c : Fmi.Codec} {maxDim : Nat} {cfg : Parsing} {file nodes edges : List Text}
    (hm : MapFile file nodes edges) (hc : Cfg.check maxDim cfg = .ok ⟨⟩) :
    Fmi.read c maxDim cfg file = (do
      let es ← mapR (readEdge c cfg.edges.cats) edges
      let ns ← mapR (Fmi.readNode c cfg.nodes) nodes
      pure (es, ns)) := by
  obtain ⟨counts, rest, h⟩ := hm
  obtain ⟨pre, h1, h2⟩ := scan_rows h (by simp)
  rw [h1] at h2
  unfold Fmi.read
  rw [hc]
  simp only [h1, h2, List.reverse_append, List.reverse_cons, List.reverse_nil, List.nil_append, List.cons_append]
  have e1 : inRange pre.length (pre.length + nodes.length) 0 (pre ++ (nodes ++ edges ++ rest)) = nodes := by
    rw [List.append_assoc]
    exact inRange_mid rfl
  have e2 : inRange (pre.length + nodes.length) (pre.length + nodes.length + edges.length) 0
      (pre ++ (nodes ++ edges ++ rest)) = edges := by
    rw [show pre ++ (nodes ++ edges ++ rest) = (pre ++ nodes) ++ (edges ++ rest) by simp,
      show pre.length + nodes.length = (pre ++ nodes).length by simp]
    exact inRange_mid rfl
  rw [e1, e2]

theorem read_pairs {file pairs : List Text} (h : PairsFile file pairs) :
    Routes.read file = if Routes.maxRoutes < pairs.length then .panic else mapR Routes.readRoute pairs := by
  obtain ⟨counts, rest, h⟩ := h
  obtain ⟨pre, h1, h2⟩ := scan_rows h (by simp)
  rw [h1] at h2
  unfold Routes.read
  simp only [h1, h2, List.getLast?_append, List.getLast?_singleton, Option.some_or]
  rw [inRange_mid rfl]

theorem readRoute_asks {line : Text} {r : Routes.Route} (h : Routes.readRoute line = .ok r) : Asks line r.src r.dst := by
  unfold Routes.readRoute at h
  split at h
  · rename_i x y z hw
    split at h
    · cases h
    · rename_i src hsrc
      split at h
      · cases h
      · rename_i dst hdst
        split at h
        · cases h
        · cases h
          exact ⟨x, y, z, hw, hsrc, hdst⟩
  · cases h

/-! ## Lines of edges -/

theorem metricCols_nil : metricCols [] = [] := rfl

theorem metricCols_cons (cat : EdgeCat) (cats : List EdgeCat) :
    metricCols (cat :: cats) = (match cat with
      | .metric _ _ => [0]
      | _ => []) ++ (metricCols cats).map (· + 1) := by
  unfold metricCols
  rw [List.length_cons, List.range_succ_eq_map, List.filter_cons, List.filter_map]
  cases cat <;> simp [Function.comp_def]

theorem metricCols_length (cats : List EdgeCat) : (metricCols cats).length = (Fmi.metricIds cats).length := by
  induction cats with
  | nil => rfl
  | cons cat cats ih =>
    rw [metricCols_cons, List.length_append, List.length_map, ih]
    cases cat <;> (simp [Fmi.metricIds]; try omega)

/-- What one column changes. -/
theorem readColumn_ok {c : Fmi.Codec} {a a' : EdgeAcc} {p : Text} {cat : EdgeCat} (h : readColumn c a p cat = .ok a') :
    ((∀ id, cat ≠ .info .srcId id) → a'.src = a.src) ∧ ((∀ id, cat ≠ .info .dstId id) → a'.dst = a.dst) ∧
    ((∀ id, cat ≠ .info .shortcutIdx0 id) → a'.sc0 = a.sc0) ∧
    (∀ id, cat = .info .srcId id → a.src = none ∧ ∃ x, a'.src = some x ∧ parseInt maxI64 p = some x) ∧
    (∀ id, cat = .info .dstId id → a.dst = none ∧ ∃ x, a'.dst = some x ∧ parseInt maxI64 p = some x) ∧
    (∃ xs, a'.metrics = a.metrics ++ xs ∧ match cat with
      | .metric _ _ => ∃ x, xs = [x] ∧ c.parseF p = some x
      | _ => xs = []) := by
  have hend : ∀ {old new : Option Int}, Fmi.readEnd old p = .ok new → old = none ∧ ∃ x, new = some x ∧
      parseInt maxI64 p = some x := by
    intro old new h
    unfold Fmi.readEnd at h
    split at h
    · rename_i ho
      split at h
      · rename_i id hid
        cases h
        exact ⟨ho, id, rfl, hid⟩
      · cases h
    · cases h
  cases cat with
  | ignored =>
    cases h
    simp
  | metric u id =>
    simp only [readColumn] at h
    split at h
    · rename_i x hx
      cases h
      simp [hx]
    · cases h
  | info i id =>
    cases i <;> simp only [readColumn, Res.bind_eq_ok, Res.pure_eq, Res.ok.injEq, reduceCtorEq] at h
    case srcId =>
      obtain ⟨new, h1, rfl⟩ := h
      obtain ⟨h2, x, rfl, h3⟩ := hend h1
      simp [h2, h3]
    case dstId =>
      obtain ⟨new, h1, rfl⟩ := h
      obtain ⟨h2, x, rfl, h3⟩ := hend h1
      simp [h2, h3]
    all_goals
      obtain ⟨new, -, rfl⟩ := h
      simp

theorem readColumns_leads {c : Fmi.Codec} {cats : List EdgeCat} {params : List Text} {a a' : EdgeAcc}
    (h : readColumns c a params cats = .ok a') :
    (∀ (j : Nat) (id : Text), cats[j]? = some (.info .srcId id) → a.src = none ∧
      ∃ t x, params[j]? = some t ∧ a'.src = some x ∧ parseInt maxI64 t = some x) ∧
    ((∀ id, .info .srcId id ∉ cats) → a'.src = a.src) ∧
    (∀ (j : Nat) (id : Text), cats[j]? = some (.info .dstId id) → a.dst = none ∧
      ∃ t x, params[j]? = some t ∧ a'.dst = some x ∧ parseInt maxI64 t = some x) ∧
    ((∀ id, .info .dstId id ∉ cats) → a'.dst = a.dst) ∧
    ((∀ id, .info .shortcutIdx0 id ∉ cats) → a'.sc0 = a.sc0) ∧
    ∃ xs, a'.metrics = a.metrics ++ xs ∧
      List.Forall₂ (fun j x => ∃ t, params[j]? = some t ∧ c.parseF t = some x) (metricCols cats) xs := by
  induction cats generalizing params a with
  | nil =>
    simp only [readColumns, Res.ok.injEq] at h
    subst h
    refine ⟨by simp, by simp, by simp, by simp, by simp, [], by simp, .nil⟩
  | cons cat cats ih =>
    cases params with
    | nil => simp [readColumns] at h
    | cons p params =>
      simp only [readColumns, Res.bind_eq_ok] at h
      obtain ⟨a1, h1, h2⟩ := h
      obtain ⟨c1, c2, c3, c4, c5, ys, c6, c7⟩ := readColumn_ok h1
      obtain ⟨d1, d2, d3, d4, d5, xs, d6, d7⟩ := ih h2
      have hsrc : ∀ (j : Nat) (id : Text), (cat :: cats)[j]? = some (.info .srcId id) → a.src = none ∧
          ∃ t x, (p :: params)[j]? = some t ∧ a'.src = some x ∧ parseInt maxI64 t = some x := by
        intro j id hj
        cases j with
        | zero =>
          simp only [List.getElem?_cons_zero, Option.some.injEq] at hj
          obtain ⟨h3, x, h4, h5⟩ := c4 id hj
          refine ⟨h3, p, x, rfl, ?_, h5⟩
          rw [d2, h4]
          intro id' hid'
          obtain ⟨j', hj'⟩ := List.getElem?_of_mem hid'
          have := (d1 j' id' hj').1
          rw [h4] at this
          cases this
        | succ j =>
          simp only [List.getElem?_cons_succ] at hj ⊢
          obtain ⟨h3, h4⟩ := d1 j id hj
          refine ⟨?_, h4⟩
          by_cases hc : ∃ id, cat = .info .srcId id
          · obtain ⟨id', hc⟩ := hc
            exact (c4 id' hc).1
          · rw [← c1 (by simpa using hc)]
            exact h3
      have hdst : ∀ (j : Nat) (id : Text), (cat :: cats)[j]? = some (.info .dstId id) → a.dst = none ∧
          ∃ t x, (p :: params)[j]? = some t ∧ a'.dst = some x ∧ parseInt maxI64 t = some x := by
        intro j id hj
        cases j with
        | zero =>
          simp only [List.getElem?_cons_zero, Option.some.injEq] at hj
          obtain ⟨h3, x, h4, h5⟩ := c5 id hj
          refine ⟨h3, p, x, rfl, ?_, h5⟩
          rw [d4, h4]
          intro id' hid'
          obtain ⟨j', hj'⟩ := List.getElem?_of_mem hid'
          have := (d3 j' id' hj').1
          rw [h4] at this
          cases this
        | succ j =>
          simp only [List.getElem?_cons_succ] at hj ⊢
          obtain ⟨h3, h4⟩ := d3 j id hj
          refine ⟨?_, h4⟩
          by_cases hc : ∃ id, cat = .info .dstId id
          · obtain ⟨id', hc⟩ := hc
            exact (c5 id' hc).1
          · rw [← c2 (by simpa using hc)]
            exact h3
      refine ⟨hsrc, ?_, hdst, ?_, ?_, ys ++ xs, by rw [d6, c6, List.append_assoc], ?_⟩
      · intro hn
        rw [d2 fun id hid => hn id (by simp [hid]), c1 fun id hid => hn id (by simp [hid])]
      · intro hn
        rw [d4 fun id hid => hn id (by simp [hid]), c2 fun id hid => hn id (by simp [hid])]
      · intro hn
        rw [d5 fun id hid => hn id (by simp [hid]), c3 fun id hid => hn id (by simp [hid])]
      · rw [metricCols_cons]
        have hx : List.Forall₂ (fun j x => ∃ t, (p :: params)[j]? = some t ∧ c.parseF t = some x)
            ((metricCols cats).map (· + 1)) xs := by
          rw [List.forall₂_map_left_iff]
          simpa using d7
        cases cat with
        | metric u id =>
          obtain ⟨x, rfl, h3⟩ := c7
          exact .cons ⟨p, rfl, h3⟩ hx
        | info i id =>
          have : ys = [] := c7
          subst this
          exact hx
        | ignored =>
          have : ys = [] := c7
          subst this
          exact hx

/-- An edge that has been read. -/
theorem readEdge_leads {c : Fmi.Codec} {cats : List EdgeCat} {line : Text} {pe : Build.ProtoEdge}
    (h : readEdge c cats line = .ok pe) : Leads c cats line pe.srcId pe.dstId pe.metrics ∧
      ((∀ id, .info .shortcutIdx0 id ∉ cats) → pe.sc = none) := by
  simp only [readEdge, Res.bind_eq_ok] at h
  obtain ⟨a, h1, h2⟩ := h
  obtain ⟨d1, d2, d3, d4, d5, xs, d6, d7⟩ := readColumns_leads h1
  split at h2
  · cases h2
  · rename_i src hs
    split at h2
    · cases h2
    · rename_i dst hd
      cases h2
      refine ⟨⟨?_, ?_, ?_⟩, ?_⟩
      · by_cases hn : ∀ id, .info .srcId id ∉ cats
        · rw [d2 hn] at hs
          cases hs
        · push Not at hn
          obtain ⟨id, hid⟩ := hn
          obtain ⟨j, hj⟩ := List.getElem?_of_mem hid
          obtain ⟨-, t, x, h3, h4, h5⟩ := d1 j id hj
          rw [hs] at h4
          cases h4
          exact ⟨j, id, t, hj, h3, h5⟩
      · by_cases hn : ∀ id, .info .dstId id ∉ cats
        · rw [d4 hn] at hd
          cases hd
        · push Not at hn
          obtain ⟨id, hid⟩ := hn
          obtain ⟨j, hj⟩ := List.getElem?_of_mem hid
          obtain ⟨-, t, x, h3, h4, h5⟩ := d3 j id hj
          rw [hd] at h4
          cases h4
          exact ⟨j, id, t, hj, h3, h5⟩
      · rw [List.nil_append] at d6
        rw [d6]
        exact d7
      · intro hn
        have := d5 hn
        simp only at this ⊢
        rw [this]
        rfl

theorem forall₂_unique {α β : Type} {R : α → β → Prop} (hR : ∀ a b b', R a b → R a b' → b = b') {l : List α}
    {l1 l2 : List β} (h1 : List.Forall₂ R l l1) (h2 : List.Forall₂ R l l2) : l1 = l2 := by
  induction h1 generalizing l2 with
  | nil => cases h2; rfl
  | cons h _ ih =>
    cases h2 with
    | cons h' h2 => rw [hR _ _ _ h h', ih h2]

/-- There is only one way to read a line. -/
theorem readEdge_unique {c : Fmi.Codec} {cats : List EdgeCat} {line : Text} {pe : Build.ProtoEdge}
    (h : readEdge c cats line = .ok pe) {a b : Int} {m : List ℚ} (hl : Leads c cats line a b m) :
    pe.srcId = a ∧ pe.dstId = b ∧ pe.metrics = m := by
  have hm := (readEdge_leads h).1.metrics
  simp only [readEdge, Res.bind_eq_ok] at h
  obtain ⟨e, h1, h2⟩ := h
  obtain ⟨d1, -, d3, -, -, -⟩ := readColumns_leads h1
  split at h2
  · cases h2
  · rename_i src hs
    split at h2
    · cases h2
    · rename_i dst hd
      cases h2
      obtain ⟨j, id, t, h3, h4, h5⟩ := hl.src
      obtain ⟨j', id', t', h6, h7, h8⟩ := hl.dst
      obtain ⟨-, t1, x1, h9, h10, h11⟩ := d1 j id h3
      obtain ⟨-, t2, x2, h12, h13, h14⟩ := d3 j' id' h6
      rw [hs, Option.some.injEq] at h10
      rw [hd, Option.some.injEq] at h13
      rw [h4, Option.some.injEq] at h9
      rw [h7, Option.some.injEq] at h12
      subst h9 h12 h10 h13
      rw [h5, Option.some.injEq] at h11
      rw [h8, Option.some.injEq] at h14
      refine ⟨h11.symm, h14.symm, forall₂_unique ?_ hm hl.metrics⟩
      rintro k x y ⟨t, ht, hx⟩ ⟨t', ht', hy⟩
      rw [ht, Option.some.injEq] at ht'
      subst ht'
      rw [hx, Option.some.injEq] at hy
      exact hy

end Verif.Session
