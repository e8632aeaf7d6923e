import Verif.BuildingLemmas

/-!
# Helper lemmas about finalizing the graph
-/

namespace Verif
namespace Build

/-! ## Index of every edge after sorting -/

theorem newIndicesGo_ok (l : List EdgeB) : ∀ (arr : List Nat) (p : Nat),
    (∀ e ∈ l, e.idx < arr.length) → (l.map EdgeB.idx).Nodup →
    ∃ arr', newIndicesGo arr p l = .ok arr' ∧ arr'.length = arr.length ∧
      (∀ q e, l[q]? = some e → arr'[e.idx]? = some (p + q)) ∧
      (∀ j, j ∉ l.map EdgeB.idx → arr'[j]? = arr[j]?) := by
  induction l with
  | nil => intro arr p _ _; exact ⟨arr, rfl, rfl, by simp, by simp⟩
  | cons e l ih =>
    intro arr p hb hn
    simp only [List.map_cons, List.nodup_cons] at hn
    obtain ⟨arr', h1, h2, h3, h4⟩ := ih (arr.set e.idx p) (p + 1)
      (fun x hx => by simpa using hb x (by simp [hx])) hn.2
    have he := hb e (by simp)
    refine ⟨arr', by simp [newIndicesGo, he, h1], by simpa using h2, ?_, ?_⟩
    · intro q x hq
      cases q with
      | zero =>
        simp only [List.getElem?_cons_zero, Option.some.injEq] at hq
        subst hq
        rw [h4 _ hn.1]
        simp [he]
      | succ q =>
        rw [List.getElem?_cons_succ] at hq
        rw [h3 q x hq]; congr 1; omega
    · intro j hj
      simp only [List.map_cons, List.mem_cons, not_or] at hj
      rw [h4 j hj.2, List.getElem?_set_ne (Ne.symm hj.1)]

theorem newIndices_ok {l : List EdgeB} (hb : ∀ e ∈ l, e.idx < l.length)
    (hn : (l.map EdgeB.idx).Nodup) :
    ∃ arr, newIndices l = .ok arr ∧ arr.length = l.length ∧
      (∀ (q : Nat) (e : EdgeB), l[q]? = some e → arr[e.idx]? = some q) := by
  obtain ⟨arr, h1, h2, h3, _⟩ := newIndicesGo_ok l (List.replicate l.length 0) 0
    (by simpa using hb) hn
  exact ⟨arr, h1, by simpa using h2, fun q e h => by simpa using h3 q e h⟩

/-! ## Shortcut updates -/

/-- The effect of replacing the shortcut pair of each edge: entry `k` becomes `f` of the old one. -/
theorem remapShortcuts_ok {newIdx : List Nat} (l : List EdgeB) : ∀ (scs : List (Nat × Nat)),
    (l.filterMap EdgeB.sc).Nodup →
    (∀ e ∈ l, ∀ k, e.sc = some k → ∃ p, scs[k]? = some p ∧ p.1 < newIdx.length ∧
      p.2 < newIdx.length) →
    ∃ scs', remapShortcuts newIdx l scs = .ok scs' ∧
      (∀ e ∈ l, ∀ k p, e.sc = some k → scs[k]? = some p →
        ∃ a b, newIdx[p.1]? = some a ∧ newIdx[p.2]? = some b ∧ scs'[k]? = some (a, b)) ∧
      (∀ k, k ∉ l.filterMap EdgeB.sc → scs'[k]? = scs[k]?) := by
  induction l with
  | nil => intro scs _ _; exact ⟨scs, rfl, by simp, by simp⟩
  | cons e l ih =>
    intro scs hn hb
    cases hsc : e.sc with
    | none =>
      simp only [List.filterMap_cons, hsc] at hn
      obtain ⟨scs', h1, h2, h3⟩ := ih scs hn (fun x hx => hb x (by simp [hx]))
      refine ⟨scs', by simp [remapShortcuts, hsc, h1], ?_, ?_⟩
      · intro x hx k p hk hp
        rcases List.mem_cons.mp hx with rfl | hx
        · rw [hsc] at hk; cases hk
        · exact h2 x hx k p hk hp
      · intro k hk
        simp only [List.filterMap_cons, hsc] at hk
        exact h3 k hk
    | some k0 =>
      simp only [List.filterMap_cons, hsc, List.nodup_cons] at hn
      obtain ⟨p0, hp0, hl1, hl2⟩ := hb e (by simp) k0 hsc
      have hne : ∀ x ∈ l, ∀ k, x.sc = some k → k0 ≠ k := by
        rintro x hx k hk rfl
        exact hn.1 (List.mem_filterMap.mpr ⟨x, hx, hk⟩)
      obtain ⟨scs', h1, h2, h3⟩ := ih (scs.set k0 (newIdx[p0.1], newIdx[p0.2])) hn.2 (by
        intro x hx k hk
        rw [List.getElem?_set_ne (hne x hx k hk)]
        exact hb x (by simp [hx]) k hk)
      have hlt : k0 < scs.length := by
        by_contra hc
        rw [List.getElem?_eq_none (by omega)] at hp0; cases hp0
      refine ⟨scs', by simp [remapShortcuts, hsc, hp0, hl1, hl2, Res.ofIdx, h1], ?_, ?_⟩
      · intro x hx k p hk hp
        rcases List.mem_cons.mp hx with rfl | hx
        · rw [hsc] at hk
          obtain rfl := Option.some.inj hk
          rw [hp0] at hp
          obtain rfl := Option.some.inj hp
          refine ⟨_, _, List.getElem?_eq_getElem hl1, List.getElem?_eq_getElem hl2, ?_⟩
          rw [h3 _ hn.1]
          simp [hlt]
        · refine h2 x hx k p hk ?_
          rw [List.getElem?_set_ne (hne x hx k hk)]; exact hp
      · intro k hk
        simp only [List.filterMap_cons, hsc, List.mem_cons, not_or] at hk
        rw [h3 k hk.2, List.getElem?_set_ne (Ne.symm hk.1)]

/-- A shortcut that refers to no edge makes the build panic. -/
theorem remapShortcuts_panic {newIdx : List Nat} (l : List EdgeB) : ∀ (scs : List (Nat × Nat)),
    (l.filterMap EdgeB.sc).Nodup →
    (∃ e ∈ l, ∃ k p, e.sc = some k ∧ scs[k]? = some p ∧
      ¬ (p.1 < newIdx.length ∧ p.2 < newIdx.length)) →
    remapShortcuts newIdx l scs = .panic := by
  induction l with
  | nil => rintro scs _ ⟨e, he, -⟩; simp at he
  | cons e l ih =>
    intro scs hn h
    cases hsc : e.sc with
    | none =>
      simp only [List.filterMap_cons, hsc] at hn
      rw [remapShortcuts]
      simp only [hsc]
      apply ih scs hn
      obtain ⟨x, hx, k, p, h1, h2⟩ := h
      rcases List.mem_cons.mp hx with rfl | hx
      · rw [hsc] at h1; cases h1
      · exact ⟨x, hx, k, p, h1, h2⟩
    | some k0 =>
      simp only [List.filterMap_cons, hsc, List.nodup_cons] at hn
      rw [remapShortcuts]
      simp only [hsc]
      cases hp0 : scs[k0]? with
      | none => simp [Res.ofIdx]
      | some p0 =>
        cases ha : newIdx[p0.1]? with
        | none => simp [Res.ofIdx, ha]
        | some a =>
          cases hb : newIdx[p0.2]? with
          | none => simp [Res.ofIdx, ha, hb]
          | some b =>
            simp only [Res.ofIdx, Res.ok_bind, ha, hb]
            apply ih _ hn.2
            obtain ⟨x, hx, k, p, h1, h2, h3⟩ := h
            rcases List.mem_cons.mp hx with rfl | hx
            · rw [hsc] at h1; cases h1
              rw [hp0] at h2; cases h2
              exfalso
              apply h3
              constructor
              · by_contra hc; rw [List.getElem?_eq_none (by omega)] at ha; cases ha
              · by_contra hc; rw [List.getElem?_eq_none (by omega)] at hb; cases hb
            · refine ⟨x, hx, k, p, h1, ?_, h3⟩
              rw [List.getElem?_set_ne]
              · exact h2
              · rintro rfl
                exact hn.1 (List.mem_filterMap.mpr ⟨x, hx, h1⟩)

theorem correctShortcuts_ok {removed : List Nat} (l : List EdgeB) : ∀ (scs : List (Nat × Nat)),
    (l.filterMap EdgeB.sc).Nodup →
    (∀ e ∈ l, ∀ k, e.sc = some k → ∃ p, scs[k]? = some p) →
    ∃ scs', correctShortcuts removed l scs = .ok scs' ∧
      (∀ e ∈ l, ∀ k p, e.sc = some k → scs[k]? = some p →
        scs'[k]? = some (decrement removed p.1, decrement removed p.2)) ∧
      (∀ k, k ∉ l.filterMap EdgeB.sc → scs'[k]? = scs[k]?) := by
  induction l with
  | nil => intro scs _ _; exact ⟨scs, rfl, by simp, by simp⟩
  | cons e l ih =>
    intro scs hn hb
    cases hsc : e.sc with
    | none =>
      simp only [List.filterMap_cons, hsc] at hn
      obtain ⟨scs', h1, h2, h3⟩ := ih scs hn (fun x hx => hb x (by simp [hx]))
      refine ⟨scs', by simp [correctShortcuts, hsc, h1], ?_, ?_⟩
      · intro x hx k p hk hp
        rcases List.mem_cons.mp hx with rfl | hx
        · rw [hsc] at hk; cases hk
        · exact h2 x hx k p hk hp
      · intro k hk
        simp only [List.filterMap_cons, hsc] at hk
        exact h3 k hk
    | some k0 =>
      simp only [List.filterMap_cons, hsc, List.nodup_cons] at hn
      obtain ⟨p0, hp0⟩ := hb e (by simp) k0 hsc
      have hne : ∀ x ∈ l, ∀ k, x.sc = some k → k0 ≠ k := by
        rintro x hx k hk rfl
        exact hn.1 (List.mem_filterMap.mpr ⟨x, hx, hk⟩)
      obtain ⟨scs', h1, h2, h3⟩ := ih
        (scs.set k0 (decrement removed p0.1, decrement removed p0.2)) hn.2 (by
        intro x hx k hk
        rw [List.getElem?_set_ne (hne x hx k hk)]
        exact hb x (by simp [hx]) k hk)
      have hlt : k0 < scs.length := by
        by_contra hc
        rw [List.getElem?_eq_none (by omega)] at hp0; cases hp0
      refine ⟨scs', by simp [correctShortcuts, hsc, hp0, Res.ofIdx, h1], ?_, ?_⟩
      · intro x hx k p hk hp
        rcases List.mem_cons.mp hx with rfl | hx
        · rw [hsc] at hk
          obtain rfl := Option.some.inj hk
          rw [hp0] at hp
          obtain rfl := Option.some.inj hp
          rw [h3 _ hn.1]
          simp [hlt]
        · refine h2 x hx k p hk ?_
          rw [List.getElem?_set_ne (hne x hx k hk)]; exact hp
      · intro k hk
        simp only [List.filterMap_cons, hsc, List.mem_cons, not_or] at hk
        rw [h3 k hk.2, List.getElem?_set_ne (Ne.symm hk.1)]

/-! ## Removing duplicates -/

/-- Reference version of the duplicate removal: `e0` is the last kept edge, `r` the position of the
head of the list. Returns the edges kept after `e0` and the removed positions. -/
def dedupSpec (e0 : EdgeB) (r : Nat) : List EdgeB → List EdgeB × List Nat
  | [] => ([], [])
  | e1 :: l =>
    if isDuplicate e0 e1 then
      let p := dedupSpec e0 (r + 1) l
      (p.1, r :: p.2)
    else
      let p := dedupSpec e1 (r + 1) l
      (e1 :: p.1, p.2)

theorem dedupLoop_ok (rest : List EdgeB) : ∀ (pre junk : List EdgeB) (e0 : EdgeB)
    (removed : List Nat), junk.length = removed.length →
    ∃ l', dedupLoop rest.length (pre ++ e0 :: (junk ++ rest)) (pre.length + 1)
        (pre.length + 1 + junk.length) removed =
      .ok (l', removed ++ (dedupSpec e0 (pre.length + 1 + junk.length) rest).2) ∧
      l'.length = pre.length + 1 + junk.length + rest.length ∧
      ∃ junk', l' = pre ++ e0 :: (dedupSpec e0 (pre.length + 1 + junk.length) rest).1 ++ junk' ∧
        junk'.length = removed.length +
          (dedupSpec e0 (pre.length + 1 + junk.length) rest).2.length := by
  induction rest with
  | nil =>
    intro pre junk e0 removed hj
    refine ⟨pre ++ e0 :: junk, by simp [dedupLoop, dedupSpec], ?_, junk, ?_, ?_⟩
    · simp; omega
    · simp [dedupSpec]
    · simp [dedupSpec, hj]
  | cons e1 l ih =>
    intro pre junk e0 removed hj
    have h0 : (pre ++ e0 :: (junk ++ e1 :: l))[pre.length + 1 - 1]? = some e0 := by
      simp
    have h1 : (pre ++ e0 :: (junk ++ e1 :: l))[pre.length + 1 + junk.length]? = some e1 := by
      rw [List.getElem?_append_right (by omega)]
      rw [show pre.length + 1 + junk.length - pre.length = junk.length + 1 by omega]
      rw [List.getElem?_cons_succ, List.getElem?_append_right (by omega)]
      simp
    by_cases hd : isDuplicate e0 e1 = true
    · obtain ⟨l', h2, h3, junk', h4, h5⟩ := ih pre (junk ++ [e1]) e0
        (removed ++ [pre.length + 1 + junk.length]) (by simp [hj])
      simp only [List.length_append, List.length_singleton, ← Nat.add_assoc,
        List.append_assoc, List.singleton_append] at h2 h3 h4 h5
      refine ⟨l', ?_, by simp; omega, junk', ?_, ?_⟩
      · rw [List.length_cons, dedupLoop]
        rw [if_neg (by omega), h0, h1]
        simp only [Res.ofIdx, Res.ok_bind, hd, if_true]
        rw [h2]
        simp [dedupSpec, hd]
      · rw [h4]; simp [dedupSpec, hd]
      · rw [h5]; simp [dedupSpec, hd]; omega
    · obtain ⟨junk2, hjl, hsw⟩ : ∃ junk2 : List EdgeB, junk2.length = junk.length ∧
          swap (pre ++ e0 :: (junk ++ e1 :: l)) (pre.length + 1) (pre.length + 1 + junk.length) =
            .ok ((pre ++ [e0]) ++ e1 :: (junk2 ++ l)) := by
        cases junk with
        | nil =>
          refine ⟨[], rfl, ?_⟩
          simp [swap, Res.ofIdx]
        | cons j js =>
          refine ⟨js ++ [j], by simp, ?_⟩
          have hj' : (pre ++ e0 :: (j :: js ++ e1 :: l))[pre.length + 1]? = some j := by
            rw [List.getElem?_append_right (by omega)]
            simp
          rw [swap, hj', h1]
          simp only [Res.ofIdx, Res.ok_bind, Res.pure_eq]
          congr 1
          rw [List.set_append_right _ _ (by omega)]
          rw [show pre.length + 1 - pre.length = 1 by omega]
          simp only [List.cons_append, List.set_cons_succ, List.set_cons_zero]
          rw [List.set_append_right _ _ (by omega)]
          rw [show pre.length + 1 + (j :: js).length - pre.length = js.length + 2 by simp; omega]
          simp only [List.set_cons_succ]
          rw [List.set_append_right _ _ (by omega)]
          simp
      obtain ⟨l', h2, h3, junk', h4, h5⟩ := ih (pre ++ [e0]) junk2 e1 removed (by omega)
      simp only [List.length_append, List.length_singleton, hjl] at h2 h3 h4 h5
      have hr : pre.length + 1 + 1 + junk.length = pre.length + 1 + junk.length + 1 := by omega
      rw [hr] at h2 h3 h4 h5
      refine ⟨l', ?_, by simp; omega, junk', ?_, ?_⟩
      · rw [List.length_cons, dedupLoop]
        rw [if_neg (by omega), h0, h1]
        simp only [Res.ofIdx, Res.ok_bind, hd, hsw]
        simp only [Bool.false_eq_true, if_false]
        rw [h2]
        simp [dedupSpec, hd]
      · rw [h4]; simp [dedupSpec, hd]
      · rw [h5]; simp [dedupSpec, hd]

theorem dedupEdges_nil : dedupEdges [] = .ok ([], []) := rfl

theorem dedupEdges_cons (e0 : EdgeB) (l : List EdgeB) :
    dedupEdges (e0 :: l) = .ok (e0 :: (dedupSpec e0 1 l).1, (dedupSpec e0 1 l).2) := by
  obtain ⟨l', h1, h2, junk', h3, h4⟩ := dedupLoop_ok l [] [] e0 [] rfl
  simp only [List.nil_append, List.length_nil, Nat.zero_add, Nat.add_zero] at h1 h2 h3 h4
  have : (e0 :: l).length - 1 = l.length := by simp
  simp only [dedupEdges, this, h1, Res.ok_bind, Res.pure_eq]
  congr 2
  rw [h3]
  have : (e0 :: (dedupSpec e0 1 l).1 ++ junk').length - (dedupSpec e0 1 l).2.length =
    (e0 :: (dedupSpec e0 1 l).1).length := by simp; omega
  rw [this, List.take_left']
  simp

/-- Number of removed positions up to `p`. -/
def cntLe (removed : List Nat) (p : Nat) : Nat := removed.countP (fun r => decide (r ≤ p))

theorem dedupSpec_removed (l : List EdgeB) : ∀ (e0 : EdgeB) (r : Nat),
    (dedupSpec e0 r l).2.Pairwise (· < ·) ∧
      (∀ x ∈ (dedupSpec e0 r l).2, r ≤ x ∧ x < r + l.length) ∧
      (dedupSpec e0 r l).1.Sublist l ∧
      (dedupSpec e0 r l).1.length + (dedupSpec e0 r l).2.length = l.length := by
  induction l with
  | nil => simp [dedupSpec]
  | cons e1 l ih =>
    intro e0 r
    by_cases hd : isDuplicate e0 e1 = true
    · obtain ⟨h1, h2, h3, h4⟩ := ih e0 (r + 1)
      simp only [dedupSpec, hd, if_true]
      refine ⟨List.pairwise_cons.mpr ⟨fun x hx => by have := (h2 x hx).1; omega, h1⟩, ?_,
        h3.cons _, by simp; omega⟩
      intro x hx
      rcases List.mem_cons.mp hx with rfl | hx
      · simp
      · have := h2 x hx; simp only [List.length_cons]; omega
    · obtain ⟨h1, h2, h3, h4⟩ := ih e1 (r + 1)
      simp only [dedupSpec, hd]
      refine ⟨h1, ?_, h3.cons_cons _, by simp; omega⟩
      intro x hx
      have := h2 x hx; simp only [List.length_cons]; omega

theorem cntLe_zero {removed : List Nat} {p : Nat} (h : ∀ x ∈ removed, p < x) :
    cntLe removed p = 0 := by
  unfold cntLe
  rw [List.countP_eq_zero]
  intro x hx
  have := h x hx
  simp; omega

theorem cntLe_le {removed : List Nat} (hs : removed.Pairwise (· < ·)) {r p : Nat}
    (h : ∀ x ∈ removed, r ≤ x) (hp : r ≤ p + 1) : cntLe removed p ≤ p + 1 - r := by
  induction removed generalizing r with
  | nil => simp [cntLe]
  | cons a l ih =>
    rw [List.pairwise_cons] at hs
    have ha := h a (by simp)
    by_cases hap : a ≤ p
    · have := ih hs.2 (r := a + 1) (fun x hx => hs.1 x hx) (by omega)
      simp only [cntLe, List.countP_cons, hap, decide_true, if_true] at this ⊢
      omega
    · rw [cntLe_zero]
      · omega
      · intro x hx
        rcases List.mem_cons.mp hx with rfl | hx
        · omega
        · have := hs.1 x hx; omega

/-- Every position has a representative among the kept edges. -/
theorem dedupSpec_rep (l : List EdgeB) : ∀ (e0 : EdgeB) (r : Nat),
    (∀ p x, l[p]? = some x → ∃ e', (e0 :: (dedupSpec e0 r l).1)[p + 1 -
        cntLe (dedupSpec e0 r l).2 (r + p)]? = some e' ∧ (e' = x ∨ isDuplicate e' x = true)) ∧
    (∀ q x, (dedupSpec e0 r l).1[q]? = some x → ∃ p, l[p]? = some x ∧
      p + 1 - cntLe (dedupSpec e0 r l).2 (r + p) = q + 1) := by
  induction l with
  | nil => simp [dedupSpec]
  | cons e1 l ih =>
    intro e0 r
    by_cases hd : isDuplicate e0 e1 = true
    · obtain ⟨h1, h2⟩ := ih e0 (r + 1)
      obtain ⟨hr1, hr2, _, _⟩ := dedupSpec_removed l e0 (r + 1)
      simp only [dedupSpec, hd, if_true]
      have hc : ∀ p, cntLe (r :: (dedupSpec e0 (r + 1) l).2) (r + p) =
          cntLe (dedupSpec e0 (r + 1) l).2 (r + p) + 1 := by
        intro p; simp [cntLe]
      refine ⟨?_, ?_⟩
      · intro p x hp
        rw [hc]
        cases p with
        | zero =>
          simp only [List.getElem?_cons_zero, Option.some.injEq] at hp
          subst hp
          refine ⟨e0, ?_, Or.inr hd⟩
          simp
        | succ p =>
          rw [List.getElem?_cons_succ] at hp
          obtain ⟨e', he, hor⟩ := h1 p x hp
          refine ⟨e', ?_, hor⟩
          rw [← he]; congr 1
          rw [show r + (p + 1) = r + 1 + p by omega]; omega
      · intro q x hq
        obtain ⟨p, hp1, hp2⟩ := h2 q x hq
        refine ⟨p + 1, by simpa using hp1, ?_⟩
        rw [hc, show r + (p + 1) = r + 1 + p by omega]; omega
    · obtain ⟨h1, h2⟩ := ih e1 (r + 1)
      obtain ⟨hr1, hr2, _, _⟩ := dedupSpec_removed l e1 (r + 1)
      simp only [dedupSpec, hd, Bool.false_eq_true, if_false]
      have hb : ∀ p, cntLe (dedupSpec e1 (r + 1) l).2 (r + 1 + p) ≤ p + 1 := by
        intro p
        have := cntLe_le hr1 (r := r + 1) (p := r + 1 + p) (fun x hx => (hr2 x hx).1) (by omega)
        omega
      have hz : cntLe (dedupSpec e1 (r + 1) l).2 r = 0 :=
        cntLe_zero (fun x hx => by have := (hr2 x hx).1; omega)
      refine ⟨?_, ?_⟩
      · intro p x hp
        cases p with
        | zero =>
          simp only [List.getElem?_cons_zero, Option.some.injEq] at hp
          subst hp
          refine ⟨e1, ?_, Or.inl rfl⟩
          simp [hz]
        | succ p =>
          rw [List.getElem?_cons_succ] at hp
          obtain ⟨e', he, hor⟩ := h1 p x hp
          refine ⟨e', ?_, hor⟩
          rw [← he, show r + (p + 1) = r + 1 + p by omega]
          have := hb p
          rw [show p + 1 + 1 - cntLe (dedupSpec e1 (r + 1) l).2 (r + 1 + p) =
            (p + 1 - cntLe (dedupSpec e1 (r + 1) l).2 (r + 1 + p)) + 1 by omega]
          rw [List.getElem?_cons_succ]
      · intro q x hq
        cases q with
        | zero =>
          refine ⟨0, by simpa using hq, ?_⟩
          simp [hz]
        | succ q =>
          rw [List.getElem?_cons_succ] at hq
          obtain ⟨p, hp1, hp2⟩ := h2 q x hq
          refine ⟨p + 1, by simpa using hp1, ?_⟩
          rw [show r + (p + 1) = r + 1 + p by omega]; omega

/-- Summary of the duplicate removal. -/
theorem dedupEdges_ok (l : List EdgeB) : ∃ kept removed, dedupEdges l = .ok (kept, removed) ∧
    kept.Sublist l ∧ removed.Pairwise (· < ·) ∧ kept.length + removed.length = l.length ∧
    (∀ p x, l[p]? = some x → ∃ e', kept[p - cntLe removed p]? = some e' ∧
      (e' = x ∨ isDuplicate e' x = true)) ∧
    (∀ q x, kept[q]? = some x → ∃ p, l[p]? = some x ∧ p - cntLe removed p = q) := by
  cases l with
  | nil => exact ⟨[], [], rfl, by simp, by simp, by simp, by simp, by simp⟩
  | cons e0 l =>
    obtain ⟨h1, h2, h3, h4⟩ := dedupSpec_removed l e0 1
    obtain ⟨h5, h6⟩ := dedupSpec_rep l e0 1
    have hz : cntLe (dedupSpec e0 1 l).2 0 = 0 :=
      cntLe_zero (fun x hx => by have := (h2 x hx).1; omega)
    refine ⟨_, _, dedupEdges_cons e0 l, h3.cons_cons _, h1, by simp; omega, ?_, ?_⟩
    · intro p x hp
      cases p with
      | zero =>
        simp only [List.getElem?_cons_zero, Option.some.injEq] at hp
        subst hp
        exact ⟨e0, by simp, Or.inl rfl⟩
      | succ p =>
        rw [List.getElem?_cons_succ] at hp
        obtain ⟨e', he, hor⟩ := h5 p x hp
        refine ⟨e', ?_, hor⟩
        rw [← he, Nat.add_comm 1 p]
    · intro q x hq
      cases q with
      | zero => exact ⟨0, by simpa using hq, by simp⟩
      | succ q =>
        rw [List.getElem?_cons_succ] at hq
        obtain ⟨p, hp1, hp2⟩ := h6 q x hq
        refine ⟨p + 1, by simpa using hp1, ?_⟩
        rw [← hp2, Nat.add_comm 1 p]

theorem dedupSpec_adj (l : List EdgeB) : ∀ (e0 : EdgeB) (r q : Nat) (x y : EdgeB),
    (e0 :: (dedupSpec e0 r l).1)[q]? = some x → (e0 :: (dedupSpec e0 r l).1)[q + 1]? = some y →
    isDuplicate x y = false := by
  induction l with
  | nil => intro e0 r q x y _ h; simp [dedupSpec] at h
  | cons e1 l ih =>
    intro e0 r q x y hx hy
    by_cases hd : isDuplicate e0 e1 = true
    · simp only [dedupSpec, hd, if_true] at hx hy
      exact ih e0 (r + 1) q x y hx hy
    · simp only [dedupSpec, hd, Bool.false_eq_true, if_false] at hx hy
      cases q with
      | zero =>
        simp only [List.getElem?_cons_zero, List.getElem?_cons_succ, Option.some.injEq] at hx hy
        subst hx hy; simpa using hd
      | succ q =>
        rw [List.getElem?_cons_succ] at hx hy
        exact ih e1 (r + 1) q x y hx hy

theorem dedupEdges_adj {l kept : List EdgeB} {removed : List Nat}
    (h : dedupEdges l = .ok (kept, removed)) (q : Nat) (x y : EdgeB) (hx : kept[q]? = some x)
    (hy : kept[q + 1]? = some y) : isDuplicate x y = false := by
  cases l with
  | nil =>
    rw [dedupEdges_nil] at h
    simp only [Res.ok.injEq, Prod.mk.injEq] at h
    rw [← h.1] at hx; simp at hx
  | cons e0 l =>
    rw [dedupEdges_cons] at h
    simp only [Res.ok.injEq, Prod.mk.injEq] at h
    rw [← h.1] at hx hy
    exact dedupSpec_adj l e0 1 q x y hx hy

theorem decrement_eq {removed : List Nat} (hs : removed.Pairwise (· < ·)) (s : Nat) :
    decrement removed s = s - cntLe removed s := by
  unfold decrement
  rw [List.foldl_reverse]
  induction removed with
  | nil => simp [cntLe]
  | cons r l ih =>
    rw [List.pairwise_cons] at hs
    rw [List.foldr_cons, ih hs.2]
    by_cases hr : r ≤ s
    · have := cntLe_le hs.2 (r := r + 1) (p := s) (fun x hx => hs.1 x hx) (by omega)
      rw [if_pos (by omega)]
      simp only [cntLe, List.countP_cons, hr, decide_true, if_true]
      omega
    · rw [if_neg (by omega)]
      simp [cntLe, hr]

/-! ## Metrics and shortcut entries -/

/-- The shortcut entries of the edges, starting at index `i`. -/
def scEntries (scs : List (Nat × Nat)) : Nat → List EdgeB → List (Nat × (Nat × Nat))
  | _, [] => []
  | i, e :: l =>
    match e.sc.bind (fun k => scs[k]?) with
    | some p => (i, p) :: scEntries scs (i + 1) l
    | none => scEntries scs (i + 1) l

theorem storeMetrics_ok {scs : List (Nat × Nat)} (l : List EdgeB) : ∀ (i : Nat),
    (∀ e ∈ l, ∀ k, e.sc = some k → ∃ p, scs[k]? = some p) →
    storeMetrics scs i l = .ok (l.map (fun e => e.metrics.map correctMetric),
      l.map (fun e => { src := e.src, dst := e.dst, idx := 0, id := e.id }),
      scEntries scs i l) := by
  induction l with
  | nil => intro i _; rfl
  | cons e l ih =>
    intro i h
    have ih' := ih (i + 1) (fun x hx => h x (by simp [hx]))
    cases hsc : e.sc with
    | none => simp [storeMetrics, hsc, ih', scEntries]
    | some k =>
      obtain ⟨p, hp⟩ := h e (by simp) k hsc
      simp [storeMetrics, hsc, ih', scEntries, hp, Res.ofIdx]

theorem scEntries_spec {scs : List (Nat × Nat)} (l : List EdgeB) : ∀ (i : Nat),
    (scEntries scs i l).Pairwise (fun a b => a.1 < b.1) ∧
    (∀ x ∈ scEntries scs i l, i ≤ x.1 ∧ x.1 < i + l.length) ∧
    (∀ j p, (i + j, p) ∈ scEntries scs i l ↔
      ∃ e k, l[j]? = some e ∧ e.sc = some k ∧ scs[k]? = some p) := by
  induction l with
  | nil => intro i; simp [scEntries]
  | cons e l ih =>
    intro i
    obtain ⟨h1, h2, h3⟩ := ih (i + 1)
    have hge : ∀ x ∈ scEntries scs (i + 1) l, i < x.1 := fun x hx => (h2 x hx).1
    have key : ∀ j p, (i + (j + 1), p) ∈ scEntries scs (i + 1) l ↔
        ∃ e k, l[j]? = some e ∧ e.sc = some k ∧ scs[k]? = some p := by
      intro j p
      rw [show i + (j + 1) = i + 1 + j by omega]; exact h3 j p
    cases hsc : e.sc.bind (fun k => scs[k]?) with
    | none =>
      simp only [scEntries, hsc]
      refine ⟨h1, fun x hx => by have := h2 x hx; simp only [List.length_cons]; omega, ?_⟩
      intro j p
      cases j with
      | zero =>
        constructor
        · intro hx; have := hge _ hx; simp at this
        · rintro ⟨e', k, he, hk, hp⟩
          simp only [List.getElem?_cons_zero, Option.some.injEq] at he
          subst he
          rw [hk] at hsc
          simp [hp] at hsc
      | succ j => rw [key]; simp
    | some q =>
      simp only [scEntries, hsc]
      refine ⟨List.pairwise_cons.mpr ⟨hge, h1⟩, ?_, ?_⟩
      · intro x hx
        rcases List.mem_cons.mp hx with rfl | hx
        · simp
        · have := h2 x hx; simp only [List.length_cons]; omega
      intro j p
      cases j with
      | zero =>
        constructor
        · intro hx
          rcases List.mem_cons.mp hx with hx | hx
          · obtain ⟨k, hk1, hk2⟩ := Option.bind_eq_some_iff.mp hsc
            simp only [Nat.add_zero, Prod.mk.injEq, true_and] at hx
            exact ⟨e, k, by simp, hk1, by rw [hk2, hx]⟩
          · have := hge _ hx; simp at this
        · rintro ⟨e', k, he, hk, hp⟩
          simp only [List.getElem?_cons_zero, Option.some.injEq] at he
          subst he
          rw [hk] at hsc
          simp only [Option.bind_some, hp, Option.some.injEq] at hsc
          simp [hsc]
      | succ j =>
        rw [List.mem_cons, key]
        simp

theorem checkMetrics_cases (ms : List (List ℚ)) :
    ((∃ m ∈ ms, ∃ x ∈ m, x < eps) ∧ checkMetrics ms = .err .metricTooSmall) ∨
    ((∀ m ∈ ms, ∀ x ∈ m, eps ≤ x) ∧ checkMetrics ms = .ok ()) := by
  unfold checkMetrics
  by_cases h : ∃ m ∈ ms, ∃ x ∈ m, x < eps
  · left
    refine ⟨h, if_pos ?_⟩
    obtain ⟨m, hm, x, hx, hlt⟩ := h
    exact List.any_eq_true.mpr ⟨m, hm, List.any_eq_true.mpr ⟨x, hx, by simpa using hlt⟩⟩
  · right
    push Not at h
    refine ⟨h, if_neg ?_⟩
    simp only [List.any_eq_true, decide_eq_true_eq, not_exists, not_and, not_lt]
    exact h

/-! ## Counting in sorted lists -/

/-- Number of elements below `i`. -/
def cntLt (l : List Nat) (i : Nat) : Nat := l.countP (fun x => decide (x < i))

theorem cntLt_cons_lt {a i : Nat} (l : List Nat) (h : a < i) : cntLt (a :: l) i = cntLt l i + 1 := by
  simp [cntLt, h]

theorem cntLt_cons_ge {a i : Nat} (l : List Nat) (h : i ≤ a) : cntLt (a :: l) i = cntLt l i := by
  simp [cntLt, Nat.not_lt.mpr h]

theorem cntLt_zero_of {l : List Nat} {i : Nat} (h : ∀ x ∈ l, i ≤ x) : cntLt l i = 0 := by
  unfold cntLt
  rw [List.countP_eq_zero]
  intro x hx; have := h x hx; simp; omega

theorem cntLt_le_length (l : List Nat) (i : Nat) : cntLt l i ≤ l.length := List.countP_le_length

theorem cntLt_all {l : List Nat} {i : Nat} (h : ∀ x ∈ l, x < i) : cntLt l i = l.length := by
  unfold cntLt
  rw [List.countP_eq_length]
  intro x hx; simpa using h x hx

theorem cntLt_mono (l : List Nat) {i j : Nat} (h : i ≤ j) : cntLt l i ≤ cntLt l j := by
  unfold cntLt
  apply List.countP_mono_left
  intro x _; simp; omega

/-- In a sorted list the elements equal to `i` are exactly those at positions
`cntLt i ≤ p < cntLt (i+1)`. -/
theorem cntLt_pos {l : List Nat} (hs : l.Pairwise (· ≤ ·)) (i p : Nat) :
    (cntLt l i ≤ p ∧ p < cntLt l (i + 1)) ↔ l[p]? = some i := by
  induction l generalizing p with
  | nil => simp [cntLt]
  | cons a l ih =>
    rw [List.pairwise_cons] at hs
    rcases Nat.lt_trichotomy a i with hlt | rfl | hgt
    · rw [cntLt_cons_lt _ hlt, cntLt_cons_lt _ (by omega)]
      cases p with
      | zero => simp; omega
      | succ p =>
        rw [List.getElem?_cons_succ, ← ih hs.2]; omega
    · rw [cntLt_cons_ge _ (Nat.le_refl _), cntLt_cons_lt _ (by omega),
        cntLt_zero_of (fun x hx => hs.1 x hx)]
      cases p with
      | zero => simp
      | succ p =>
        rw [List.getElem?_cons_succ, ← ih hs.2, cntLt_zero_of (fun x hx => hs.1 x hx)]; omega
    · have hz : ∀ x ∈ a :: l, i + 1 ≤ x := by
        intro x hx
        rcases List.mem_cons.mp hx with rfl | hx
        · omega
        · have := hs.1 x hx; omega
      rw [cntLt_zero_of hz]
      constructor
      · omega
      · intro h
        have := hz i (List.mem_of_getElem? h)
        omega

/-! ## Offsets -/

theorem le_getLastD (l : List Nat) : ∀ s, (s :: l).Pairwise (· ≤ ·) → s ≤ l.getLastD s := by
  induction l with
  | nil => intro s _; simp
  | cons b l ih =>
    intro s h
    rw [List.pairwise_cons] at h
    rw [List.getLastD_cons]
    exact Nat.le_trans (h.1 b (by simp)) (ih b h.2)

theorem offsetsGo_ok (l : List Nat) : ∀ (src off : Nat), (src :: l).Pairwise (· ≤ ·) →
    ∃ rest, offsetsGo src off l = .ok rest ∧ rest.length = l.getLastD src - src + 1 ∧
      ∀ i, i < rest.length → rest[i]? = some (off + cntLt l (src + i + 1)) := by
  induction l with
  | nil =>
    intro src off _
    refine ⟨[off], rfl, by simp, ?_⟩
    intro i hi
    simp only [List.length_singleton] at hi
    have : i = 0 := by omega
    subst this
    simp [cntLt]
  | cons s l ih =>
    intro src off hp
    rw [List.pairwise_cons] at hp
    have hs : src ≤ s := hp.1 s (by simp)
    obtain ⟨rest, h1, h2, h3⟩ := ih s (off + 1) hp.2
    have hlast : s ≤ l.getLastD s := le_getLastD _ _ hp.2
    refine ⟨List.replicate (s - src) off ++ rest, by simp [offsetsGo, hs, h1], ?_, ?_⟩
    · rw [List.getLastD_cons]
      simp only [List.length_append, List.length_replicate, h2]
      omega
    · intro i hi
      by_cases hlt : i < s - src
      · rw [List.getElem?_append_left (by simpa using hlt)]
        rw [List.getElem?_replicate, if_pos hlt]
        rw [cntLt_zero_of]; · simp
        intro x hx
        rcases List.mem_cons.mp hx with rfl | hx
        · omega
        · have := (List.pairwise_cons.mp hp.2).1 x hx; omega
      · rw [List.getElem?_append_right (by simpa using hlt)]
        simp only [List.length_append, List.length_replicate] at hi ⊢
        rw [h3 _ (by omega), cntLt_cons_lt _ (by omega)]
        rw [show s + (i - (s - src)) + 1 = src + i + 1 by omega]
        congr 1; omega

theorem mkOffsets_ok {l : List Nat} (hs : l.Pairwise (· ≤ ·)) :
    ∃ offs, mkOffsets l = .ok offs ∧ offs.length = l.getLastD 0 + 2 ∧
      ∀ i, i < offs.length → offs[i]? = some (cntLt l i) := by
  obtain ⟨rest, h1, h2, h3⟩ := offsetsGo_ok l 0 0
    (List.pairwise_cons.mpr ⟨fun _ _ => Nat.zero_le _, hs⟩)
  refine ⟨0 :: rest, by simp [mkOffsets, h1], by simp [h2], ?_⟩
  intro i hi
  cases i with
  | zero => simp [cntLt]
  | succ i =>
    simp only [List.length_cons] at hi
    rw [List.getElem?_cons_succ, h3 i (by omega)]
    simp

/-! ## Shortcut offsets -/

theorem scLoop_ok {ss : List (Nat × (Nat × Nat))} (hs : ss.Pairwise (fun a b => a.1 < b.1))
    (numEdges : Nat) (hlt : ∀ x ∈ ss, x.1 < numEdges) :
    ∀ (n edgeIdx : Nat) (offs : List Nat), edgeIdx + n = numEdges → offs.length = numEdges + 1 →
    (∀ i, i ≤ numEdges → offs[i]? = some
      (if i < edgeIdx then cntLt (ss.map Prod.fst) i else ss.length)) →
    ∃ offs', scLoop ss n edgeIdx (cntLt (ss.map Prod.fst) edgeIdx) offs
        ((ss.take (cntLt (ss.map Prod.fst) edgeIdx)).map Prod.snd) = .ok (offs', ss.map Prod.snd) ∧
      offs'.length = numEdges + 1 ∧
      ∀ i, i ≤ numEdges → offs'[i]? = some (cntLt (ss.map Prod.fst) i) := by
  have hs' : (ss.map Prod.fst).Pairwise (· ≤ ·) := by
    rw [List.pairwise_map]; exact hs.imp (fun h => Nat.le_of_lt h)
  have hall : ∀ i, numEdges ≤ i → cntLt (ss.map Prod.fst) i = ss.length := by
    intro i hi
    rw [cntLt_all, List.length_map]
    intro x hx
    obtain ⟨y, hy, rfl⟩ := List.mem_map.mp hx
    have := hlt y hy; omega
  intro n
  induction n with
  | zero =>
    intro e offs he hlen ho
    have : e = numEdges := by omega
    subst this
    refine ⟨offs, by simp [scLoop, hall], hlen, ?_⟩
    intro i hi
    rw [ho i hi]
    by_cases h : i < e
    · rw [if_pos h]
    · rw [if_neg h, hall i (by omega)]
  | succ n ih =>
    intro e offs he hlen ho
    rw [scLoop]
    by_cases hc : cntLt (ss.map Prod.fst) e = ss.length
    · rw [if_pos hc]
      refine ⟨offs, by rw [hc]; simp, hlen, ?_⟩
      intro i hi
      rw [ho i hi]
      by_cases h : i < e
      · rw [if_pos h]
      · rw [if_neg h]
        have h1 := cntLt_mono (ss.map Prod.fst) (show e ≤ i by omega)
        have h2 := cntLt_le_length (ss.map Prod.fst) i
        rw [List.length_map] at h2
        congr 1; omega
    · rw [if_neg hc]
      have h2 := cntLt_le_length (ss.map Prod.fst) e
      rw [List.length_map] at h2
      have hl : cntLt (ss.map Prod.fst) e < ss.length := by omega
      rw [List.getElem?_eq_getElem hl]
      simp only [Res.ofIdx, Res.ok_bind]
      rw [if_pos (by omega)]
      have hoffs : ∀ i, i ≤ numEdges → (offs.set e (cntLt (ss.map Prod.fst) e))[i]? = some
          (if i < e + 1 then cntLt (ss.map Prod.fst) i else ss.length) := by
        intro i hi
        by_cases hie : i = e
        · subst hie; rw [List.getElem?_set_self (by omega)]; simp
        · rw [List.getElem?_set_ne (by omega), ho i hi]
          by_cases h : i < e
          · rw [if_pos h, if_pos (by omega)]
          · rw [if_neg h, if_neg (by omega)]
      obtain ⟨offs', h4, h5, h6⟩ := ih (e + 1) _ (by omega) (by simp [hlen]) hoffs
      refine ⟨offs', ?_, h5, h6⟩
      rw [← h4]
      have hm : (ss.map Prod.fst)[cntLt (ss.map Prod.fst) e]? =
          some (ss[cntLt (ss.map Prod.fst) e]).1 := by
        simp [hl]
      have hnd : (ss.map Prod.fst).Nodup := by
        unfold List.Nodup
        rw [List.pairwise_map]; exact hs.imp (fun h => Nat.ne_of_lt h)
      by_cases hx : e = (ss[cntLt (ss.map Prod.fst) e]).1
      · rw [if_pos hx]
        rw [← hx] at hm
        have hp := (cntLt_pos hs' e _).mpr hm
        have heq : cntLt (ss.map Prod.fst) (e + 1) = cntLt (ss.map Prod.fst) e + 1 := by
          by_contra hne
          have h7 := (cntLt_pos hs' e (cntLt (ss.map Prod.fst) e + 1)).mp (by omega)
          have h8 : cntLt (ss.map Prod.fst) e + 1 < (ss.map Prod.fst).length := by
            by_contra hcon
            rw [List.getElem?_eq_none (by omega)] at h7; cases h7
          rw [List.getElem?_eq_getElem (by simpa using hl)] at hm
          rw [List.getElem?_eq_getElem h8] at h7
          have := (List.Nodup.getElem_inj_iff hnd).mp
            ((Option.some.inj hm).trans (Option.some.inj h7).symm)
          omega
        rw [heq]
        congr 1
        rw [List.take_add_one, List.getElem?_eq_getElem hl, Option.toList, List.map_append]
        rfl
      · rw [if_neg hx]
        have heq : cntLt (ss.map Prod.fst) (e + 1) = cntLt (ss.map Prod.fst) e := by
          by_contra hne
          have := cntLt_mono (ss.map Prod.fst) (show e ≤ e + 1 by omega)
          have h7 := (cntLt_pos hs' e (cntLt (ss.map Prod.fst) e)).mp (by omega)
          rw [h7] at hm
          exact hx (Option.some.inj hm)
        rw [heq]

theorem scOffsets_ok {ss : List (Nat × (Nat × Nat))} (hs : ss.Pairwise (fun a b => a.1 < b.1))
    (numEdges : Nat) (hlt : ∀ x ∈ ss, x.1 < numEdges) :
    ∃ offs, scOffsets numEdges ss = .ok (offs, ss.map Prod.snd) ∧ offs.length = numEdges + 1 ∧
      ∀ i, i ≤ numEdges → offs[i]? = some (cntLt (ss.map Prod.fst) i) := by
  have := scLoop_ok hs numEdges hlt numEdges 0 (List.replicate (numEdges + 1) ss.length)
    (by omega) (by simp) (by
      intro i hi
      rw [List.getElem?_replicate, if_pos (by omega)]; simp)
  simpa [scOffsets, cntLt] using this

end Build
end Verif
