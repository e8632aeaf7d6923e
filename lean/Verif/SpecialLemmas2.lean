import Verif.SpecialLemmas

/-!
# More lemmas about values that are no finite numbers
-/

namespace Verif.Special

open Dij Search Graph Fp

section
variable {g : Graph} {ms : List (List (Num ℚ))} {al : List ℚ}

theorem code_wf (hwf : g.WellFormed) (h : ms.length = g.edgeCount) : (code g ms.length).WellFormed :=
  ⟨hwf.ids_sorted, hwf.coords_len, hwf.levels_len, hwf.bwd_len,
    (by simp only [code, List.length_map, List.length_range]; exact h), hwf.edgeIds_len, hwf.ends_lt, hwf.start,
    hwf.covered_iff, hwf.not_covered, hwf.sc_ok, hwf.sc_len, hwf.idMap_iff⟩

theorem isRoute_code {k : Nat} {u v : Nat} {l : List Nat} : (code g k).IsRoute u l v ↔ g.IsRoute u l v := by
  induction l generalizing u with
  | nil => exact Iff.rfl
  | cons e l ih => exact exists_congr fun w => and_congr Iff.rfl ih

theorem isUp_code {k : Nat} {u v : Nat} {l : List Nat} : IsUp (code g k) u l v ↔ IsUp g u l v := by
  induction l generalizing u with
  | nil => exact Iff.rfl
  | cons e l ih => exact exists_congr fun w => and_congr Iff.rfl (and_congr Iff.rfl ih)

theorem isDown_code {k : Nat} {u v : Nat} {l : List Nat} : IsDown (code g k) u l v ↔ IsDown g u l v := by
  induction l generalizing u with
  | nil => exact Iff.rfl
  | cons e l ih => exact exists_congr fun w => and_congr Iff.rfl (and_congr Iff.rfl ih)

theorem fold_nonneg {l : List (ℚ × Num ℚ)} (hl : ∀ p ∈ l, 0 ≤ p.1 ∧ ∀ y : ℚ, p.2 = .fin y → 0 ≤ y)
    {s : Num (Rounded f64)} (hs : ∀ x, toOpt s = some x → 0 ≤ x) {y : Rounded f64}
    (hy : toOpt (l.foldl (fun s p => addN s (mulN p.1 p.2)) s) = some y) : 0 ≤ y := by
  induction l generalizing s with
  | nil => exact hs y hy
  | cons p l ih =>
    refine ih (fun q hq => hl q (List.mem_cons_of_mem _ hq)) ?_ hy
    intro x hx
    rw [addN_plus] at hx
    cases h1 : toOpt s with
    | none => rw [h1] at hx; cases hx
    | some a =>
      cases h2 : toOpt (mulN p.1 p.2) with
      | none => rw [h1, h2] at hx; cases hx
      | some b =>
        rw [h1, h2] at hx
        simp only [Over.plus, Over.cap] at hx
        split at hx
        · cases hx
          refine Over.add_nonneg' (hs a h1) ?_
          cases h3 : p.2 with
          | fin z =>
            rw [h3] at h2
            have h2 := (toOpt_cap _).symm.trans h2
            unfold Over.cap at h2
            split at h2
            · cases h2
              have h4 := hl p List.mem_cons_self
              exact (rnd_nonneg (r := f64) (mul_nonneg h4.1 (h4.2 z h3)) : (0 : ℚ) ≤ _)
            · cases h2
          | inf | neg | nan => rw [h3, mulN_special (by simp)] at h2; cases h2
        · cases hx

theorem look_nonneg (ha : ∀ a ∈ al, 0 ≤ a) (hm : Nonneg ms) {m : List ℚ} (h : m ∈ (code g ms.length).metrics) :
    0 ≤ Over.wt0 (look ms al) m := by
  obtain ⟨e, he, rfl⟩ := List.mem_map.mp h
  have hlt : e < ms.length := by simpa using he
  unfold Over.wt0
  rw [look_get (List.getElem?_eq_getElem hlt)]
  cases hy : toOpt (dotN al ms[e]) with
  | none => exact le_refl _
  | some y =>
    refine fold_nonneg (l := al.zip ms[e]) (s := .fin 0) ?_ ?_ hy
    · intro p hp
      exact ⟨ha _ (List.of_mem_zip hp).1, (hm _ (List.getElem_mem hlt) _ (List.of_mem_zip hp).2).2⟩
    · intro x hx
      cases hx
      exact le_refl _

/-- An edge with a finite weight is open. -/
theorem open_of_finite (hl : ∀ m ∈ ms, m.length = al.length) {e : Nat}
    (h : Over.finite (code g ms.length) (look ms al) e = true) : Open ms e := by
  unfold Over.finite at h
  rw [code_get] at h
  cases hv : ms[e]? with
  | none => rw [hv] at h; cases h
  | some v =>
    rw [hv] at h
    simp only [Option.map_some, look_get hv] at h
    obtain ⟨w, hw⟩ := Option.isSome_iff_exists.mp h
    exact ⟨v, hv, dotN_open (hl v (List.mem_of_getElem? hv)) hw⟩

/-- An open edge has a moderate weight. -/
theorem weight_open {k : ℕ} (hk : k + k ≤ 970) (hm : Nonneg ms) (hmod : ∀ m ∈ ms, ∀ y : ℚ, .fin y ∈ m → y ≤ 2 ^ k)
    (ha : ∀ a ∈ al, 0 ≤ a) (hmod' : ∀ a ∈ al, a ≤ 2 ^ k) (hlen : al.length ≤ 2 ^ 50) {e : Nat} (h : Open ms e) :
    ∃ w, look ms al [(e : ℚ)] = some w ∧ w ≤ Over.rd (2 ^ (50 + (k + k))) := by
  obtain ⟨v, hv, hx⟩ := h
  obtain ⟨ys, rfl⟩ := all_fin hx
  have hmem := List.mem_of_getElem? hv
  have h1 := Over.weight_moderate (k := k) hk (a := al) (m := ys) (fun x hx => ⟨ha x hx, hmod' x hx⟩)
    (fun x hx => ⟨(hm _ hmem _ (List.mem_map.mpr ⟨x, hx, rfl⟩)).2 x rfl,
      hmod _ hmem x (List.mem_map.mpr ⟨x, hx, rfl⟩)⟩) hlen
  exact ⟨_, by rw [look_get hv, dotN_fin, h1.1], h1.2⟩

theorem cost_le {e : ℕ} {ts : List (Arc (Rounded f64))} (h : ∀ t ∈ ts, t.2.2 ≤ Over.rd (2 ^ e)) {x : Rounded f64} {j : ℕ}
    (hx : x ≤ Over.mult e j) : costFrom x ts ≤ Over.mult e (j + ts.length) := by
  induction ts generalizing x j with
  | nil => exact hx
  | cons t ts ih =>
    have h1 : x + t.2.2 ≤ Over.mult e (j + 1) := le_trans ((addOk_rounded f64).mono _ _ _ hx)
      ((addOk_rounded f64).mono' _ _ _ (h t List.mem_cons_self))
    have := ih (fun t' ht => h t' (List.mem_cons_of_mem _ ht)) h1
    rw [List.length_cons, show j + (ts.length + 1) = j + 1 + ts.length by omega]
    exact this

/-- Routes of open edges have finite costs. -/
theorem fine_of_open {k : ℕ} (hk : 50 + (k + k) ≤ 970) (hwf : g.WellFormed) (hlen : ms.length = g.edgeCount)
    (hm : Nonneg ms) (hmod : ∀ m ∈ ms, ∀ y : ℚ, .fin y ∈ m → y ≤ 2 ^ k) (ha : ∀ a ∈ al, 0 ≤ a)
    (hmod' : ∀ a ∈ al, a ≤ 2 ^ k) (hal : al.length ≤ 2 ^ 50) {isCh : Bool} {d : Dir} {u v : Nat}
    {ts : List (Arc (Rounded f64))}
    (hr : IsRt (outArcs (code g ms.length) (Over.wt0 (look ms al)) isCh d) u ts v)
    (ho : ∀ t ∈ ts, Open ms t.1) (hn : ts.length ≤ 2 ^ 53) :
    Over.Fine Over.fitsF (Over.finite (code g ms.length) (look ms al)) ts := by
  have hget : ∀ e, Open ms e → (code g ms.length).metrics[e]? = some [(e : ℚ)] := by
    rintro e ⟨v, hv, _⟩
    rw [code_get, hv]
    rfl
  have hw : ∀ t ∈ ts, t.2.2 ≤ Over.rd (2 ^ (50 + (k + k))) := by
    have : ∀ (ts : List (Arc (Rounded f64))) (u : Nat),
        IsRt (outArcs (code g ms.length) (Over.wt0 (look ms al)) isCh d) u ts v → ∀ t ∈ ts,
        ∃ m, (code g ms.length).metrics[t.1]? = some m ∧ t.2.2 = Over.wt0 (look ms al) m := by
      intro ts
      induction ts with
      | nil => intro u _ t ht; cases ht
      | cons a ts ih =>
        intro u hr t ht
        rcases List.mem_cons.mp ht with rfl | ht
        · exact ((mem_outArcs (code_wf hwf hlen)).mp hr.1).2.2.1
        · exact ih _ hr.2 t ht
    intro t ht
    obtain ⟨m, h1, h2⟩ := this ts u hr t ht
    rw [hget _ (ho t ht)] at h1
    cases h1
    obtain ⟨w, h3, h4⟩ := weight_open (k := k) (by omega) hm hmod ha hmod' hal (ho t ht)
    rw [h2, Over.wt0, h3]
    exact h4
  refine ⟨?_, ?_⟩
  · intro t ht
    obtain ⟨w, h3, _⟩ := weight_open (k := k) (by omega) hm hmod ha hmod' hal (ho t ht)
    simp only [Over.finite, hget _ (ho t ht), h3]
    rfl
  · rintro p t s rfl
    have := cost_le (e := 50 + (k + k)) (ts := p ++ [t]) (fun t' ht' => hw t' (by
      rcases List.mem_append.mp ht' with h | h
      · exact List.mem_append_left _ h
      · rw [List.mem_singleton.mp h]; simp)) (x := 0) (j := 0) (le_refl _)
    refine Over.fits_down _ _ this (Over.mult_fits hk ?_)
    simp only [List.length_append, List.length_cons, List.length_nil] at hn ⊢
    omega

/-! ## Short routes -/

theorem walk_and {R : Nat → Nat → Nat → Prop} {P : Nat → Prop} {u v : Nat} {l : List Nat} :
    Walk (fun e u w => R e u w ∧ P e) u l v ↔ Walk R u l v ∧ ∀ e ∈ l, P e := by
  induction l generalizing u with
  | nil => simp [Walk]
  | cons e l ih =>
    simp only [Walk, ih, List.forall_mem_cons]
    constructor
    · rintro ⟨w, ⟨h1, h2⟩, h3, h4⟩; exact ⟨⟨w, h1, h3⟩, h2, h4⟩
    · rintro ⟨⟨w, h1, h3⟩, h2, h4⟩; exact ⟨w, ⟨h1, h2⟩, h3, h4⟩

theorem short_of (g : Graph) {R : Nat → Nat → Nat → Prop} {P : Nat → Prop} {n : Nat} (hR : ∀ e u v, R e u v → v < n) {u v : Nat}
    (hu : u < n) {l : List Nat} (h : Walk R u l v) (hP : ∀ e ∈ l, P e) :
    ∃ l', Walk R u l' v ∧ (∀ e ∈ l', P e) ∧ l'.length < n := by
  obtain ⟨l', h1, h2, _⟩ := walk_short (g := { code g 0 with metrics := [] }) (al := [])
    (by intro m hm; cases hm) (by intro x hx; cases hx) (n := n) (R := fun e u w => R e u w ∧ P e)
    (fun e u v h => hR e u v h.1) hu (walk_and.mpr ⟨h, hP⟩)
  exact ⟨l', (walk_and.mp h1).1, (walk_and.mp h1).2, h2⟩

end

end Verif.Special
