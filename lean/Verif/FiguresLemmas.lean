import Verif.FiguresSpec
import Verif.VisualLemmas2

/-!
# Lemmas about the data of figures
-/

namespace Verif.Vis

/-! ## Sorting -/

theorem filter_insertSorted {α β : Type} [LinearOrder β] [DecidableEq β] (key : α → β) (x : β) (a : α) (l : List α) :
    (insertSorted (fun a b => decide (key a ≤ key b)) a l).filter (fun y => decide (key y = x)) =
      (a :: l).filter fun y => decide (key y = x) := by
  induction l with
  | nil => rfl
  | cons b l ih =>
    unfold insertSorted
    by_cases h : key a ≤ key b
    · simp [h]
    · rw [if_neg (by simpa using h)]
      rw [List.filter_cons, ih]
      simp only [List.filter_cons]
      by_cases ha : key a = x
      · have : key b ≠ x := by
          rintro rfl
          exact h (le_of_eq ha)
        simp [ha, this]
      · simp [ha]

/-- Sorting keeps the order of elements with the same key. -/
theorem filter_stableSort {α β : Type} [LinearOrder β] [DecidableEq β] (key : α → β) (x : β) (l : List α) :
    (stableSort (fun a b => decide (key a ≤ key b)) l).filter (fun y => decide (key y = x)) =
      l.filter fun y => decide (key y = x) := by
  induction l with
  | nil => rfl
  | cons a l ih =>
    rw [stableSort, filter_insertSorted, List.filter_cons, ih, List.filter_cons]

theorem sorted_by {α β : Type} [LinearOrder β] (key : α → β) (l : List α) :
    (stableSort (fun a b => decide (key a ≤ key b)) l).Pairwise fun a b => key a ≤ key b := by
  have := pairwise_stableSort (le := fun a b => decide (key a ≤ key b))
    (fun a b c h1 h2 => by simp only [decide_eq_true_eq] at *; exact le_trans h1 h2)
    (fun a b => by simp only [Bool.or_eq_true, decide_eq_true_eq]; exact le_total _ _) l
  exact this.imp fun h => by simpa using h

theorem rows_spec {α β : Type} [LinearOrder β] (key : α → β) (streets : List Street) (vals : List α) :
    Rows (fun a b => key a ≤ key b) streets vals (sortedRows (fun a b => decide (key a ≤ key b)) streets vals) := by
  refine ⟨?_, sorted_by (fun r : ℚ × ℚ × α => key r.2.2) _⟩
  refine (stableSort_perm _).trans ?_
  rw [List.zip, List.map_zipWith]

theorem workloadRows_spec (d : Data) : Rows (· ≤ ·) d.streets d.workloads (workloadRows d) :=
  rows_spec (fun x : Nat => x) _ _

theorem deltaRows_spec (d : Data) : Rows (· ≤ ·) d.streets d.deltas (deltaRows d) :=
  rows_spec (fun x : Int => x) _ _

theorem absDeltaRows_spec (d : Data) : Rows (fun a b => |a| ≤ |b|) d.streets d.deltas (absDeltaRows d) := by
  have h := rows_spec (fun x : Int => x.natAbs) d.streets d.deltas
  exact ⟨h.1, h.2.imp fun h => by dsimp only at h ⊢; rw [Int.abs_eq_natAbs, Int.abs_eq_natAbs]; exact_mod_cast h⟩

theorem Rows.values {α : Type} {le : α → α → Prop} {streets : List Street} {vals : List α} {rows : List (ℚ × ℚ × α)}
    (h : Rows le streets vals rows) (hlen : vals.length = streets.length) : (rows.map fun r => r.2.2).Perm vals := by
  have := h.1.map (fun r : ℚ × ℚ × α => r.2.2)
  rw [List.map_map] at this
  refine this.trans (List.Perm.of_eq ?_)
  rw [show ((fun r : ℚ × ℚ × α => r.2.2) ∘ fun p : Street × α => (p.1.lon, p.1.lat, p.2)) = Prod.snd from rfl]
  exact List.map_snd_zip (by omega)

/-! ## Quantiles -/

theorem quantile_sorted {α : Type} [LinearOrder α] {l : List α} (hs : l.Pairwise (· ≤ ·)) {p i : Nat} (hp : p ≤ 100)
    (hi : i = p * l.length / 100) {x : α} (hx : l[i]? = some x) : Quantile p l x := by
  have hlt : i < l.length := (List.getElem?_eq_some_iff.mp hx).1
  have hsplit : l = l.take i ++ x :: l.drop (i + 1) := by
    rw [(List.getElem?_eq_some_iff.mp hx).2.symm, List.getElem_cons_drop, List.take_append_drop]
  have hle : ∀ y ∈ l.take i, y ≤ x := by
    rw [hsplit] at hs
    exact fun y hy => (List.pairwise_append.mp hs).2.2 y hy x (by simp)
  have hge : ∀ y ∈ l.drop (i + 1), x ≤ y := by
    rw [hsplit] at hs
    exact fun y hy => (List.pairwise_cons.mp (List.pairwise_append.mp hs).2.1).1 y hy
  have h1 : l.countP (fun y => decide (x < y)) ≤ l.length - (i + 1) := by
    conv_lhs => rw [hsplit]
    rw [List.countP_append, List.countP_cons, List.countP_eq_zero.mpr fun y hy => by simpa using hle y hy]
    have := List.countP_le_length (p := fun y => decide (x < y)) (l := l.drop (i + 1))
    rw [List.length_drop] at this
    simpa using this
  have h2 : l.length - i ≤ l.countP (fun y => decide (x ≤ y)) := by
    conv_rhs => rw [hsplit]
    rw [List.countP_append, List.countP_cons, (List.countP_eq_length (l := l.drop (i + 1))).mpr fun y hy => by simpa using hge y hy,
      List.length_drop]
    simp only [le_refl, decide_true, if_true]
    omega
  have hmul : (100 - p) * l.length + p * l.length = 100 * l.length := by
    rw [← Nat.add_mul]
    congr 1
    omega
  refine ⟨List.mem_of_getElem? hx, ?_, ?_⟩ <;> omega

theorem Quantile.perm {α : Type} [LinearOrder α] {l l' : List α} (h : l.Perm l') {p : Nat} {x : α}
    (hq : Quantile p l x) : Quantile p l' x := by
  obtain ⟨h1, h2, h3⟩ := hq
  refine ⟨h.mem_iff.mp h1, ?_, ?_⟩
  · rw [← h.countP_eq, ← h.length_eq]; exact h2
  · rw [← h.countP_eq, ← h.length_eq]; exact h3

theorem quantile_spec {α : Type} [LinearOrder α] {streets : List Street} {vals : List α} {rows : List (ℚ × ℚ × α)}
    (h : Rows (· ≤ ·) streets vals rows) (hlen : vals.length = streets.length) {p : Nat} (hp : p ≤ 100) {x : α}
    (hx : quantile p rows = some x) : Quantile p vals x := by
  refine Quantile.perm (h.values hlen) (quantile_sorted (List.pairwise_map.mpr h.2) hp (i := p * rows.length / 100) (by simp) ?_)
  rw [List.getElem?_map]
  exact hx

theorem quantile_some {α : Type} {rows : List (ℚ × ℚ × α)} (h : rows ≠ []) {p : Nat} (hp : p < 100) :
    ∃ x, quantile p rows = some x := by
  have hl : 0 < rows.length := List.length_pos_iff.mpr h
  have hi : p * rows.length / 100 < rows.length := by
    rw [Nat.div_lt_iff_lt_mul (by omega)]
    nlinarith
  exact ⟨_, by rw [quantile, List.getElem?_eq_getElem hi]; rfl⟩

/-! ## Smallest and largest values -/

theorem foldl_extreme {α : Type} [LinearOrder α] (l : List α) (n : α) :
    IsMin (n :: l) (l.foldl min n) ∧ IsMax (n :: l) (l.foldl max n) := by
  induction l generalizing n with
  | nil => simp [IsMin, IsMax]
  | cons a l ih =>
    obtain ⟨⟨h1, h2⟩, -⟩ := ih (min n a)
    obtain ⟨-, ⟨h3, h4⟩⟩ := ih (max n a)
    simp only [List.foldl_cons]
    constructor
    · constructor
      · rcases List.mem_cons.mp h1 with h | h
        · rcases min_choice n a with h' | h' <;> rw [h, h'] <;> simp
        · exact List.mem_cons_of_mem _ (List.mem_cons_of_mem _ h)
      · have h0 := h2 _ List.mem_cons_self
        intro y hy
        rcases List.mem_cons.mp hy with rfl | hy
        · exact le_trans h0 (min_le_left _ _)
        · rcases List.mem_cons.mp hy with rfl | hy
          · exact le_trans h0 (min_le_right _ _)
          · exact h2 y (List.mem_cons_of_mem _ hy)
    · constructor
      · rcases List.mem_cons.mp h3 with h | h
        · rcases max_choice n a with h' | h' <;> rw [h, h'] <;> simp
        · exact List.mem_cons_of_mem _ (List.mem_cons_of_mem _ h)
      · have h0 := h4 _ List.mem_cons_self
        intro y hy
        rcases List.mem_cons.mp hy with rfl | hy
        · exact le_trans (le_max_left _ _) h0
        · rcases List.mem_cons.mp hy with rfl | hy
          · exact le_trans (le_max_right _ _) h0
          · exact h4 y (List.mem_cons_of_mem _ hy)

theorem maximum_isMax {l : List Nat} {m : Nat} (h : maximum l = some m) : IsMax l m := by
  cases l with
  | nil => cases h
  | cons n l => cases h; exact (foldl_extreme l n).2

theorem minimum_isMin {l : List Nat} {m : Nat} (h : minimum l = some m) : IsMin l m := by
  cases l with
  | nil => cases h
  | cons n l => cases h; exact (foldl_extreme l n).1

theorem greatestInt_isMax {l : List Int} {m : Int} (h : greatestInt l = some m) : IsMax l m := by
  cases l with
  | nil => cases h
  | cons n l => cases h; exact (foldl_extreme l n).2

theorem leastInt_isMin {l : List Int} {m : Int} (h : leastInt l = some m) : IsMin l m := by
  cases l with
  | nil => cases h
  | cons n l => cases h; exact (foldl_extreme l n).1

/-! ## Lanes -/

/-- Runs of equal lane-counts, where `cur` is the current one. -/
def runs : List (ℚ × Nat) → List (ℚ × Nat) → List (List (ℚ × Nat))
  | cur, [] => [cur]
  | cur, p :: rest =>
    if (cur.getLast?.map Prod.fst) ≠ some p.1 then cur :: runs [p] rest else runs (cur ++ [p]) rest

theorem slices_runs (L : List (ℚ × Nat)) (rest : List (ℚ × Nat)) : ∀ (s i : Nat) (prev : ℚ) (cur : List (ℚ × Nat)),
    L.drop s = cur ++ rest → i = s + cur.length → cur.getLast?.map Prod.fst = some prev →
    List.zipWith (fun i j => (L.take j).drop i) (s :: breaks i prev rest) (breaks i prev rest ++ [L.length]) =
      runs cur rest := by
  induction rest with
  | nil =>
    intro s i prev cur hd hi hp
    simp only [breaks, List.nil_append, List.zipWith_cons_cons, List.zipWith_nil_right, runs, List.take_length]
    rw [hd, List.append_nil]
  | cons p rest ih =>
    intro s i prev cur hd hi hp
    have hne : cur ≠ [] := by
      rintro rfl
      cases hp
    have hdl := congrArg List.length hd
    simp only [List.length_drop, List.length_append, List.length_cons] at hdl
    have hdi : L.drop i = p :: rest := by
      rw [hi, ← List.drop_drop, hd, List.drop_left]
    unfold breaks runs
    rw [hp]
    by_cases h : prev = p.1
    · rw [if_neg (by simpa using h), if_neg (by simpa using h)]
      refine ih s (i + 1) p.1 (cur ++ [p]) (by rw [hd]; simp) (by simp; omega) (by simp)
    · rw [if_pos h, if_pos (by simpa using h)]
      simp only [List.cons_append, List.zipWith_cons_cons]
      congr 1
      · have : (L.take i).drop s = (L.drop s).take (i - s) := by rw [List.drop_take]
        rw [this, hd, show i - s = cur.length by omega, List.take_left]
      · exact ih i (i + 1) p.1 [p] hdi (by simp) (by simp)

theorem lane_slices {p : ℚ × Nat} {rest : List (ℚ × Nat)} :
    slices (p :: rest) (splitIndices (p :: rest)) = runs [p] rest :=
  slices_runs (p :: rest) rest 0 1 p.1 [p] rfl rfl rfl

/-- All pairs of a run have the same lane-count. -/
def Const (x : ℚ) (l : List (ℚ × Nat)) : Prop := l ≠ [] ∧ ∀ q ∈ l, q.1 = x

theorem Const.last {x : ℚ} {l : List (ℚ × Nat)} (h : Const x l) : l.getLast?.map Prod.fst = some x := by
  rw [List.getLast?_eq_some_getLast h.1]
  exact congrArg some (h.2 _ (List.getLast_mem h.1))

theorem runs_spec (rest : List (ℚ × Nat)) : ∀ (x : ℚ) (cur : List (ℚ × Nat)), Const x cur →
    (cur ++ rest).Pairwise (fun a b => a.1 ≤ b.1) →
    ∃ lanes, (x :: lanes).Pairwise (· < ·) ∧ List.Forall₂ Const (x :: lanes) (runs cur rest) ∧
      (runs cur rest).flatten = cur ++ rest := by
  induction rest with
  | nil =>
    intro x cur hc hs
    exact ⟨[], by simp, by simp [runs, hc], by simp [runs]⟩
  | cons p rest ih =>
    intro x cur hc hs
    unfold runs
    rw [hc.last]
    by_cases h : x = p.1
    · rw [if_neg (by simpa using h)]
      have hc' : Const x (cur ++ [p]) := by
        refine ⟨by simp, fun q hq => ?_⟩
        rcases List.mem_append.mp hq with hq | hq
        · exact hc.2 q hq
        · rw [List.mem_singleton.mp hq, h]
      obtain ⟨lanes, h1, h2, h3⟩ := ih x (cur ++ [p]) hc' (by simpa using hs)
      exact ⟨lanes, h1, h2, by simpa using h3⟩
    · rw [if_pos (by simpa using h)]
      obtain ⟨hs1, hs2, hs3⟩ := List.pairwise_append.mp hs
      obtain ⟨lanes, h1, h2, h3⟩ := ih p.1 [p] ⟨by simp, by simp⟩ hs2
      refine ⟨p.1 :: lanes, List.pairwise_cons.mpr ⟨fun y hy => ?_, h1⟩, List.Forall₂.cons hc h2, by simp [h3]⟩
      have hx : x < p.1 := by
        obtain ⟨q, hq⟩ := List.exists_mem_of_ne_nil _ hc.1
        refine lt_of_le_of_ne ?_ h
        have := hs3 q hq p (by simp)
        rwa [hc.2 q hq] at this
      rcases List.mem_cons.mp hy with rfl | hy
      · exact hx
      · exact lt_trans hx ((List.pairwise_cons.mp h1).1 y hy)

/-- A run consists of all pairs with its lane-count. -/
theorem run_filter {lanes : List ℚ} {ls : List (List (ℚ × Nat))} (hl : lanes.Pairwise (· < ·))
    (h : List.Forall₂ Const lanes ls) :
    List.Forall₂ (fun x l => l = ls.flatten.filter fun q => decide (q.1 = x)) lanes ls ∧
      ∀ x, x ∈ lanes ↔ ∃ q ∈ ls.flatten, q.1 = x := by
  induction h with
  | nil => exact ⟨List.Forall₂.nil, by simp⟩
  | @cons x l lanes ls hx hr ih =>
    obtain ⟨h1, h2⟩ := List.pairwise_cons.mp hl
    obtain ⟨h3, h4⟩ := ih h2
    have hmem : ∀ q ∈ ls.flatten, x < q.1 := fun q hq => h1 _ ((h4 q.1).mpr ⟨q, hq, rfl⟩)
    refine ⟨List.Forall₂.cons ?_ ?_, fun y => ?_⟩
    · rw [List.flatten_cons, List.filter_append, List.filter_eq_self.mpr fun q hq => by simpa using hx.2 q hq,
        List.filter_eq_nil_iff.mpr fun q hq => by simpa using (hmem q hq).ne', List.append_nil]
    · have hrl : ∀ y ∈ lanes, l.filter (fun q => decide (q.1 = y)) = [] := by
        intro y hy
        refine List.filter_eq_nil_iff.mpr fun q hq => ?_
        rw [hx.2 q hq]
        simpa using (h1 y hy).ne
      have : ∀ {as : List ℚ} {bs : List (List (ℚ × Nat))}, (∀ y ∈ as, y ∈ lanes) →
          List.Forall₂ (fun x l => l = ls.flatten.filter fun q => decide (q.1 = x)) as bs →
          List.Forall₂ (fun x l' => l' = (l :: ls).flatten.filter fun q => decide (q.1 = x)) as bs := by
        intro as bs hsub hf
        induction hf with
        | nil => exact List.Forall₂.nil
        | cons hab _ ihf =>
          refine List.Forall₂.cons ?_ (ihf fun y hy => hsub y (List.mem_cons_of_mem _ hy))
          rw [List.flatten_cons, List.filter_append, hrl _ (hsub _ List.mem_cons_self), List.nil_append]
          exact hab
      exact this (fun y hy => hy) h3
    · rw [List.mem_cons, h4, List.flatten_cons]
      constructor
      · rintro (rfl | ⟨q, hq, rfl⟩)
        · obtain ⟨q, hq⟩ := List.exists_mem_of_ne_nil _ hx.1
          exact ⟨q, List.mem_append_left _ hq, hx.2 q hq⟩
        · exact ⟨q, List.mem_append_right _ hq, rfl⟩
      · rintro ⟨q, hq, rfl⟩
        rcases List.mem_append.mp hq with hq | hq
        · exact .inl (hx.2 q hq)
        · exact .inr ⟨q, hq, rfl⟩

theorem mapM_boxes {lanes : List ℚ} {ls : List (List (ℚ × Nat))} (h : List.Forall₂ Const lanes ls) :
    (ls.mapM fun vec => do
      let first ← vec.head?
      pure (truncate first.1, vec.map Prod.snd) : Option (List (Int × List Nat))) =
      some (List.zipWith (fun x l => (truncate x, l.map Prod.snd)) lanes ls) := by
  induction h with
  | nil => rfl
  | @cons x l lanes ls hx hr ih =>
    rw [List.mapM_cons, ih]
    obtain ⟨q, t, rfl⟩ := List.exists_cons_of_ne_nil hx.1
    have := hx.2 q List.mem_cons_self
    subst this
    rfl

/-! ## Boxes per lane-count -/

theorem zip_lanes (d : Data) : (d.streets.map Street.lanes).zip d.workloads =
    (d.streets.zip d.workloads).map fun p => (p.1.lanes, p.2) := by
  rw [List.zip_map_left]
  rfl

theorem lanePairs_filter (d : Data) (x : ℚ) :
    ((lanePairs d).filter fun q => decide (q.1 = x)).map Prod.snd = usedWith d x := by
  unfold lanePairs usedWith
  rw [filter_stableSort (fun q : ℚ × Nat => q.1), zip_lanes, List.filter_map, List.filter_map, List.map_map, List.filter_filter]
  congr 1
  refine List.filter_congr fun p _ => ?_
  simp

theorem mem_lanePairs {d : Data} {q : ℚ × Nat} : q ∈ lanePairs d ↔ ∃ p ∈ d.streets.zip d.workloads, (p.1.lanes, p.2) = q ∧ 0 < p.2 := by
  unfold lanePairs
  rw [mem_stableSort, zip_lanes, List.mem_filter, List.mem_map]
  constructor
  · rintro ⟨⟨p, hp, rfl⟩, h⟩
    exact ⟨p, hp, rfl, by simpa using h⟩
  · rintro ⟨p, hp, rfl, h⟩
    exact ⟨⟨p, hp, rfl⟩, by simpa using h⟩

theorem laneBoxes_none {d : Data} (h : lanePairs d = []) : laneBoxes d = none := by
  unfold laneBoxes
  rw [h]
  rfl

theorem laneBoxes_spec {d : Data} (h : lanePairs d ≠ []) : ∃ lanes boxes, laneBoxes d = some boxes ∧
    LaneBoxes d lanes boxes ∧ boxes.map Prod.fst = lanes.map truncate := by
  have hs : (lanePairs d).Pairwise fun a b => a.1 ≤ b.1 := sorted_by (fun q : ℚ × Nat => q.1) _
  have hfil := lanePairs_filter d
  have hmem := @mem_lanePairs d
  unfold laneBoxes
  obtain ⟨p, rest, hL⟩ := List.exists_cons_of_ne_nil h
  rw [hL] at hs hfil hmem ⊢
  rw [lane_slices]
  obtain ⟨lanes, h1, h2, h3⟩ := runs_spec rest p.1 [p] ⟨by simp, by simp⟩ hs
  obtain ⟨h4, h5⟩ := run_filter h1 h2
  rw [h3] at h4 h5
  have hlen := h2.length_eq
  refine ⟨p.1 :: lanes, _, mapM_boxes h2, ⟨h1, fun x => ?_, ?_⟩, ?_⟩
  · rw [h5 x]
    constructor
    · rintro ⟨q, hq, rfl⟩
      obtain ⟨p', h6, rfl, h8⟩ := hmem.mp hq
      exact ⟨p', h6, rfl, h8⟩
    · rintro ⟨p', h6, rfl, h8⟩
      exact ⟨(p'.1.lanes, p'.2), hmem.mpr ⟨p', h6, rfl, h8⟩, rfl⟩
  · rw [List.forall₂_iff_get] at h4 ⊢
    refine ⟨by simp [hlen], fun i hi hj => ?_⟩
    have := h4.2 i hi (by omega)
    simp only [List.get_eq_getElem, List.getElem_zipWith] at this ⊢
    rw [this, ← hfil]
    rfl
  · exact List.ext_getElem (by simp [← hlen]) fun i _ _ => by simp [- List.map_cons]

/-! ## Figures -/

theorem mapM_forall₂ {α β : Type} {f : α → Option β} : ∀ {l : List α} {l' : List β}, l.mapM f = some l' →
    List.Forall₂ (fun a b => f a = some b) l l' := by
  intro l
  induction l with
  | nil =>
    intro l' h
    cases h
    exact List.Forall₂.nil
  | cons a l ih =>
    intro l' h
    rw [List.mapM_cons] at h
    simp only [Option.bind_eq_bind, Option.bind_eq_some_iff, Option.pure_def, Option.some.injEq] at h
    obtain ⟨b, hb, bs, hbs, rfl⟩ := h
    exact List.Forall₂.cons hb (ih hbs)

theorem mapM_isSome {α β : Type} {f : α → Option β} : ∀ {l : List α}, (∀ a ∈ l, ∃ b, f a = some b) →
    ∃ l', l.mapM f = some l' := by
  intro l
  induction l with
  | nil => exact fun _ => ⟨[], rfl⟩
  | cons a l ih =>
    intro h
    obtain ⟨b, hb⟩ := h a List.mem_cons_self
    obtain ⟨bs, hbs⟩ := ih fun x hx => h x (List.mem_cons_of_mem _ hx)
    exact ⟨b :: bs, by rw [List.mapM_cons, hb, hbs]; rfl⟩

theorem forall₂_get {α β : Type} {R : α → β → Prop} {l : List α} {l' : List β} (h : List.Forall₂ R l l') {i : Nat} {a : α}
    (ha : l[i]? = some a) : ∃ b, l'[i]? = some b ∧ R a b := by
  induction h generalizing i with
  | nil => cases ha
  | cons hab _ ih =>
    cases i with
    | zero => cases ha; exact ⟨_, rfl, hab⟩
    | succ i => exact ih ha

end Verif.Vis
