import Verif.BuildingProps

/-!
# Lemmas on which of several edges with the same id is kept
-/

namespace Verif

variable {α : Type} {le : α → α → Bool}

/-- Elements that count as equal stay in their order. -/
theorem insertSorted_stable {R : α → α → Prop} {a : α} {s : List α} (hs : s.Pairwise fun x y => le y x = true → R x y)
    (ha : ∀ x ∈ s, R a x) : (insertSorted le a s).Pairwise fun x y => le y x = true → R x y := by
  induction s with
  | nil => simp [insertSorted]
  | cons b s ih =>
    unfold insertSorted
    split
    · exact List.pairwise_cons.mpr ⟨fun x hx _ => ha x hx, hs⟩
    · rename_i hab
      rw [List.pairwise_cons] at hs
      refine List.pairwise_cons.mpr ⟨fun x hx hle => ?_, ih hs.2 fun x hx => ha x (List.mem_cons_of_mem _ hx)⟩
      rcases List.mem_cons.mp ((insertSorted_perm a s).mem_iff.mp hx) with rfl | hx
      · exact absurd hle hab
      · exact hs.1 x hx hle

theorem stableSort_stable {R : α → α → Prop} {l : List α} (h : l.Pairwise R) :
    (stableSort le l).Pairwise fun x y => le y x = true → R x y := by
  induction l with
  | nil => simp [stableSort]
  | cons a l ih =>
    rw [List.pairwise_cons] at h
    exact insertSorted_stable (ih h.2) fun x hx => h.1 x (mem_stableSort.mp hx)

namespace Build

theorem sortByKey_stable {β : Type} {key : β → Option (Nat × Nat × Nat × Option Nat)} {l s : List β}
    {R : β → β → Prop} (h : ∀ a ∈ l, ∃ k, key a = some k) (hR : l.Pairwise R) (hs : sortByKey key l = .ok s) :
    s.Pairwise fun x y => key x = key y → R x y := by
  obtain ⟨kl, h1, h2, h3⟩ := mapM_key h
  have e : s = (stableSort (fun x y => keyLe x.1 y.1) kl).map Prod.snd := by
    simpa [sortByKey, h1] using hs.symm
  rw [e, List.pairwise_map]
  rw [← h2, List.pairwise_map] at hR
  refine (stableSort_stable (le := fun x y : (Nat × Nat × Nat × Option Nat) × β => keyLe x.1 y.1) hR).imp_of_mem ?_
  intro a b ha hb hab hk
  have ea := h3 a (mem_stableSort.mp ha)
  have eb := h3 b (mem_stableSort.mp hb)
  rw [ea, eb, Option.some.injEq] at hk
  refine hab ?_
  rw [hk]
  simpa using keyLe_total b.1 b.1

/-- An edge is kept, or it is a duplicate of an earlier edge that is kept. -/
theorem dedupSpec_earlier (l : List EdgeB) : ∀ (e0 : EdgeB) (r : Nat) (l1 l2 : List EdgeB) (x : EdgeB),
    l = l1 ++ x :: l2 → ∃ e' ∈ e0 :: (dedupSpec e0 r l).1, (e' = x ∨ isDuplicate e' x = true) ∧ e' ∈ e0 :: (l1 ++ [x]) := by
  induction l with
  | nil => intro e0 r l1 l2 x h; simp at h
  | cons e1 l ih =>
    intro e0 r l1 l2 x h
    by_cases hd : isDuplicate e0 e1 = true
    · simp only [dedupSpec, hd, if_true]
      cases l1 with
      | nil =>
        simp only [List.nil_append, List.cons.injEq] at h
        rw [← h.1]
        exact ⟨e0, List.mem_cons_self, .inr hd, List.mem_cons_self⟩
      | cons z l1 =>
        simp only [List.cons_append, List.cons.injEq] at h
        obtain ⟨e', h1, h2, h3⟩ := ih e0 (r + 1) l1 l2 x h.2
        refine ⟨e', h1, h2, ?_⟩
        rcases List.mem_cons.mp h3 with h3 | h3
        · exact h3 ▸ List.mem_cons_self
        · exact List.mem_cons_of_mem _ (List.mem_cons_of_mem _ h3)
    · simp only [dedupSpec, hd, Bool.false_eq_true, if_false]
      cases l1 with
      | nil =>
        simp only [List.nil_append, List.cons.injEq] at h
        rw [← h.1]
        exact ⟨e1, List.mem_cons_of_mem _ List.mem_cons_self, .inl rfl, by simp⟩
      | cons z l1 =>
        simp only [List.cons_append, List.cons.injEq] at h
        obtain ⟨e', h1, h2, h3⟩ := ih e1 (r + 1) l1 l2 x h.2
        refine ⟨e', List.mem_cons_of_mem _ h1, h2, ?_⟩
        rw [← h.1]
        exact List.mem_cons_of_mem _ (by simpa using h3)

theorem dedupEdges_earlier {l kept : List EdgeB} {removed : List Nat} (h : dedupEdges l = .ok (kept, removed))
    {l1 l2 : List EdgeB} {x : EdgeB} (hl : l = l1 ++ x :: l2) :
    ∃ e' ∈ kept, e' = x ∨ (isDuplicate e' x = true ∧ e' ∈ l1) := by
  cases l with
  | nil => simp at hl
  | cons e0 l =>
    rw [dedupEdges_cons] at h
    simp only [Res.ok.injEq, Prod.mk.injEq] at h
    rw [← h.1]
    cases l1 with
    | nil =>
      simp only [List.nil_append, List.cons.injEq] at hl
      exact ⟨e0, List.mem_cons_self, .inl hl.1⟩
    | cons z l1 =>
      simp only [List.cons_append, List.cons.injEq] at hl
      obtain ⟨e', h1, h2, h3⟩ := dedupSpec_earlier l e0 1 l1 l2 x hl.2
      refine ⟨e', h1, ?_⟩
      rcases h2 with h2 | h2
      · exact .inl h2
      · rw [hl.1] at h3
        rcases List.mem_append.mp (show e' ∈ (z :: l1) ++ [x] from h3) with h3 | h3
        · exact .inr ⟨h2, h3⟩
        · exact .inl (List.mem_singleton.mp h3)

/-! ## Ids of the kept edges -/

/-- Sorted edges: in the order of their keys, those with the same key in the order of insertion. -/
structure Sorted (levels : List Nat) (s : List EdgeB) : Prop where
  keys : ∀ x ∈ s, ∃ k, fwdKey levels x = some k
  order : s.Pairwise fun x y => ∀ kx ky, fwdKey levels x = some kx → fwdKey levels y = some ky → keyLe kx ky = true
  stable : s.Pairwise fun x y => fwdKey levels x = fwdKey levels y → x.idx < y.idx

theorem isDuplicate_key {levels : List Nat} {x y : EdgeB} (h : isDuplicate x y = true) :
    fwdKey levels x = fwdKey levels y ∧ x.id = y.id := by
  unfold isDuplicate at h
  simp only [Bool.and_eq_true, decide_eq_true_eq, Prod.mk.injEq] at h
  obtain ⟨⟨h1, h2, h3⟩, -⟩ := h
  exact ⟨by simp [fwdKey, h1, h2, h3], h1⟩

theorem fwdKeyLe_antisymm {a b : Nat × Nat × Nat × Option Nat} (h : keyLe a b = true) (h' : keyLe b a = true) : a = b := by
  obtain ⟨a1, a2, a3, a4⟩ := a
  obtain ⟨b1, b2, b3, b4⟩ := b
  simp only [keyLe, Bool.or_eq_true, Bool.and_eq_true, decide_eq_true_eq] at h h'
  have hr : idRank a4 = idRank b4 → a4 = b4 := by
    cases a4 <;> cases b4 <;> simp [idRank]
  simp only [Prod.mk.injEq]
  refine ⟨by omega, by omega, by omega, hr (by omega)⟩

/-- The first inserted edge with an id is kept. -/
theorem first_kept {levels : List Nat} {s kept : List EdgeB} {removed : List Nat} (hS : Sorted levels s)
    (hd : dedupEdges s = .ok (kept, removed)) {x : EdgeB} (hx : x ∈ s)
    (hf : ∀ y ∈ s, y.id = x.id → x.idx ≤ y.idx) : x ∈ kept := by
  obtain ⟨l1, l2, hl⟩ := List.append_of_mem hx
  obtain ⟨e', h1, h2 | ⟨h2, h3⟩⟩ := dedupEdges_earlier hd hl
  · exact h2 ▸ h1
  · exfalso
    obtain ⟨k1, k2⟩ := isDuplicate_key (levels := levels) h2
    have hst := hS.stable
    rw [hl] at hst
    have := (List.pairwise_append.mp hst).2.2 e' h3 x List.mem_cons_self k1
    have := hf e' (by rw [hl]; exact List.mem_append_left _ h3) k2
    omega

/-- The ids of the kept edges are unique iff all edges with an id are duplicates of the first one. -/
theorem kept_unique_iff {levels : List Nat} {s kept : List EdgeB} {removed : List Nat} (hS : Sorted levels s)
    (hn : (s.map EdgeB.idx).Nodup) (hd : dedupEdges s = .ok (kept, removed)) :
    (kept.filterMap EdgeB.id).Nodup ↔ ∀ x ∈ s, ∀ y ∈ s, ∀ id, x.id = some id → y.id = some id →
      (∀ z ∈ s, z.id = some id → x.idx ≤ z.idx) → x ≠ y → isDuplicate x y = true := by
  obtain ⟨kept', removed', hd', hsub, -⟩ := dedupEdges_ok s
  rw [hd] at hd'
  simp only [Res.ok.injEq, Prod.mk.injEq] at hd'
  rw [← hd'.1] at hsub
  clear hd' kept' removed'
  constructor
  · intro hnd x hx y hy id hxi hyi hf hne
    have hxk := first_kept hS hd hx fun z hz h => hf z hz (h.trans hxi)
    obtain ⟨l1, l2, hl⟩ := List.append_of_mem hy
    obtain ⟨e', h1, h2⟩ := dedupEdges_earlier hd hl
    have hei : e'.id = some id := by
      rcases h2 with h2 | ⟨h2, -⟩
      · rw [h2]; exact hyi
      · rw [(isDuplicate_key (levels := levels) h2).2]; exact hyi
    have heq : x = e' := by
      unfold List.Nodup at hnd
      rw [List.pairwise_filterMap] at hnd
      by_contra hc
      rcases List.pairwise_iff_forall_sublist.mp hnd with hp
      have := (List.pairwise_iff_getElem.mp hnd)
      obtain ⟨p, hp1, hp2⟩ := List.mem_iff_getElem.mp hxk
      obtain ⟨q, hq1, hq2⟩ := List.mem_iff_getElem.mp h1
      rcases Nat.lt_trichotomy p q with h | h | h
      · exact this p q hp1 hq1 h id (by rw [hp2]; exact hxi) id (by rw [hq2]; exact hei) rfl
      · subst h; exact hc (hp2.symm.trans hq2)
      · exact this q p hq1 hp1 h id (by rw [hq2]; exact hei) id (by rw [hp2]; exact hxi) rfl
    rcases h2 with h2 | ⟨h2, -⟩
    · exact absurd (heq.trans h2) hne
    · rw [heq]; exact h2
  · intro hall
    unfold List.Nodup
    rw [List.pairwise_filterMap, List.pairwise_iff_getElem]
    intro q q' hq hq' hlt id hid id' hid' heq
    subst heq
    -- the first inserted edge with this id
    have hex : ∃ n, ∃ z ∈ s, z.id = some id ∧ z.idx = n :=
      ⟨_, kept[q], hsub.subset (List.getElem_mem hq), hid, rfl⟩
    classical
    obtain ⟨x, hx, hxi, hxn⟩ := Nat.find_spec hex
    have hf : ∀ z ∈ s, z.id = some id → x.idx ≤ z.idx := fun z hz hzi => by
      rw [hxn]; exact Nat.find_min' hex ⟨z, hz, hzi, rfl⟩
    have hxk := first_kept hS hd hx fun z hz h => hf z hz (h.trans hxi)
    obtain ⟨p, hp, hpx⟩ := List.mem_iff_getElem.mp hxk
    have hkey : ∀ z ∈ s, z.id = some id → fwdKey levels x = fwdKey levels z := by
      intro z hz hzi
      by_cases hxz : x = z
      · rw [hxz]
      · exact (isDuplicate_key (hall x hx z hz id hxi hzi hf hxz)).1
    have hstab := List.pairwise_iff_getElem.mp (hS.stable.sublist hsub)
    have hord := List.pairwise_iff_getElem.mp (hS.order.sublist hsub)
    -- it comes first
    have hfirst : ∀ r (hr : r < kept.length), kept[r].id = some id → p ≤ r := by
      intro r hr hri
      by_contra hc
      have h1 := hstab r p hr hp (by omega)
        (by rw [hpx]; exact (hkey _ (hsub.subset (List.getElem_mem hr)) hri).symm)
      have h2 := hf _ (hsub.subset (List.getElem_mem hr)) hri
      rw [hpx] at h1
      omega
    have hpq := hfirst q hq hid
    have hp1 : p + 1 < kept.length := by omega
    obtain ⟨kx, hkx⟩ := hS.keys x hx
    have hk' : fwdKey levels kept[q'] = some kx := by
      rw [← hkey _ (hsub.subset (List.getElem_mem hq')) hid', hkx]
    obtain ⟨kn, hkn⟩ := hS.keys _ (hsub.subset (List.getElem_mem hp1))
    have o1 := hord p (p + 1) hp hp1 (by omega) kx kn (by rw [hpx]; exact hkx) hkn
    have o2 : keyLe kn kx = true := by
      by_cases hpq' : p + 1 = q'
      · subst hpq'
        rw [hkn, Option.some.injEq] at hk'
        rw [hk']
        simpa using keyLe_total kx kx
      · exact hord (p + 1) q' hp1 hq' (by omega) kn kx hkn hk'
    have hek := fwdKeyLe_antisymm o1 o2
    subst hek
    have hni : kept[p + 1].id = some id := by
      have e : fwdKey levels x = fwdKey levels kept[p + 1] := hkx.trans hkn.symm
      unfold fwdKey at e
      cases h1 : levels[x.dst]? with
      | none => simp [fwdKey, h1] at hkx
      | some u =>
        cases h2 : levels[kept[p + 1].dst]? with
        | none => simp [fwdKey, h2] at hkn
        | some v =>
          rw [h1, h2] at e
          simp only [Option.map_some, Option.some.injEq, Prod.mk.injEq] at e
          rw [← e.2.2.2]
          exact hxi
    have hne : x ≠ kept[p + 1] := by
      intro hc
      have hnk : (kept.map EdgeB.idx).Nodup := hn.sublist (hsub.map _)
      have := List.pairwise_iff_getElem.mp hnk p (p + 1) (by simpa using hp) (by simpa using hp1) (by omega)
      rw [List.getElem_map, List.getElem_map, hpx, ← hc] at this
      exact this rfl
    have hdup := hall x hx _ (hsub.subset (List.getElem_mem hp1)) id hxi hni hf hne
    have hadj := dedupEdges_adj hd p x kept[p + 1] (by rw [List.getElem?_eq_getElem hp, hpx])
      (List.getElem?_eq_getElem hp1)
    rw [hdup] at hadj
    cases hadj

end Build
end Verif
