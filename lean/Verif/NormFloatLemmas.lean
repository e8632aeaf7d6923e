import Verif.BalanceFloatLemmas3
import Verif.NormFloatSpec

/-!
# Lemmas on normalizing with `f64`
-/

namespace Verif.NormF

open Gen Fp BalF
open Bal (average)

/-- The values of a metric. -/
def column (ms : List (List ℚ)) (k : Nat) : List ℚ := ms.map fun m => m.getD k 0

/-- The rounded mean of a metric. -/
def colMean (ms : List (List ℚ)) (k : Nat) : ℚ := rnd (sumR 0 (column ms k) / rnd ms.length)

theorem column_length (ms : List (List ℚ)) (k : Nat) : (column ms k).length = ms.length := by simp [column]

theorem mean_eq (ms : List (List ℚ)) (k : Nat) : mean ms k = average (column ms k) := by
  unfold mean average
  rw [column_length]
  rfl

/-! ## Sums -/

theorem addVec_ok {a b c : List ℚ} (h : addVec a b = .ok c) : c = List.zipWith (fun x y => rnd (x + y)) a b := by
  induction a generalizing b c with
  | nil => simpa [addVec] using h.symm
  | cons x a ih =>
    cases b with
    | nil => simpa [addVec] using h.symm
    | cons y b =>
      simp only [addVec] at h
      obtain ⟨z, h1, h⟩ := Res.bind_eq_ok.mp h
      obtain ⟨zs, h2, h3⟩ := Res.bind_eq_ok.mp h
      simp only [Res.pure_eq, Res.ok.injEq] at h3
      rw [← h3, ih h2, (num_ok h1).1]
      rfl

theorem addVec_fine {a b : List ℚ} (h : ∀ (k : Nat) x y, a[k]? = some x → b[k]? = some y → ∃ z, num (x + y) = .ok z) :
    ∃ c, addVec a b = .ok c := by
  induction a generalizing b with
  | nil => exact ⟨[], by simp [addVec]⟩
  | cons x a ih =>
    cases b with
    | nil => exact ⟨[], by simp [addVec]⟩
    | cons y b =>
      obtain ⟨z, hz⟩ := h 0 x y rfl rfl
      obtain ⟨c, hc⟩ := ih fun k x y hx hy => h (k + 1) x y (by simpa using hx) (by simpa using hy)
      refine ⟨z :: c, ?_⟩
      simp only [addVec]
      rw [hz, Res.ok_bind, hc, Res.ok_bind]
      rfl

theorem addVec_not_panic (a b : List ℚ) : addVec a b ≠ .panic := by
  induction a generalizing b with
  | nil => simp [addVec]
  | cons x a ih =>
    cases b with
    | nil => simp [addVec]
    | cons y b =>
      simp only [addVec]
      cases h1 : num (x + y) with
      | panic => exact absurd h1 num_not_panic
      | err e => simp
      | ok z =>
        rw [Res.ok_bind]
        cases h2 : addVec a b with
        | panic => exact absurd h2 (ih b)
        | err e => simp
        | ok zs => simp

theorem sums_not_panic (acc : List ℚ) (ms : List (List ℚ)) : sums acc ms ≠ .panic := by
  induction ms generalizing acc with
  | nil => simp [sums]
  | cons m ms ih =>
    simp only [sums]
    cases h : addVec acc m with
    | panic => exact absurd h (addVec_not_panic _ _)
    | err e => simp
    | ok z => rw [Res.ok_bind]; exact ih z

theorem divideSums_not_panic (n : ℚ) (ss : List ℚ) : divideSums n ss ≠ .panic := by
  induction ss with
  | nil => simp [divideSums]
  | cons x a ih =>
    simp only [divideSums]
    cases h1 : num (x / n) with
    | panic => exact absurd h1 num_not_panic
    | err e => simp
    | ok z =>
      rw [Res.ok_bind]
      cases h2 : divideSums n a with
      | panic => exact absurd h2 ih
      | err e => simp
      | ok zs => simp

theorem sums_ok {acc c : List ℚ} {ms : List (List ℚ)} (hl : ∀ m ∈ ms, m.length = acc.length) (h : sums acc ms = .ok c) :
    c.length = acc.length ∧ ∀ (k : Nat) a, acc[k]? = some a → c[k]? = some (sumR a (column ms k)) := by
  induction ms generalizing acc with
  | nil =>
    simp only [sums, Res.ok.injEq] at h
    subst h
    exact ⟨rfl, fun k a ha => ha⟩
  | cons m ms ih =>
    simp only [sums] at h
    obtain ⟨d, h1, h2⟩ := Res.bind_eq_ok.mp h
    have hm := hl m List.mem_cons_self
    have hd := addVec_ok h1
    have hdl : d.length = acc.length := by rw [hd, List.length_zipWith, hm, min_self]
    obtain ⟨i1, i2⟩ := ih (acc := d) (fun m' h' => by rw [hdl]; exact hl m' (List.mem_cons_of_mem _ h')) h2
    refine ⟨i1.trans hdl, fun k a ha => ?_⟩
    have hk : k < m.length := by rw [hm]; exact lt_of_some ha
    have hdk : d[k]? = some (rnd (a + m.getD k 0)) := by
      rw [hd, List.getElem?_zipWith, ha, List.getElem?_eq_getElem hk, List.getD_eq_getElem?_getD,
        List.getElem?_eq_getElem hk]
      rfl
    exact i2 k _ hdk

theorem sums_fine {acc : List ℚ} {ms : List (List ℚ)} (hl : ∀ m ∈ ms, m.length = acc.length)
    (h : ∀ (k : Nat) a, acc[k]? = some a → ∃ y, sumFrom a (column ms k) = .ok y) : ∃ c, sums acc ms = .ok c := by
  induction ms generalizing acc with
  | nil => exact ⟨acc, rfl⟩
  | cons m ms ih =>
    have hm := hl m List.mem_cons_self
    have step : ∀ (k : Nat) a, acc[k]? = some a → ∃ z, num (a + m.getD k 0) = .ok z ∧
        ∃ y, sumFrom z (column ms k) = .ok y := by
      intro k a ha
      obtain ⟨y, hy⟩ := h k a ha
      simp only [column, List.map_cons, sumFrom] at hy
      obtain ⟨z, h1, h2⟩ := Res.bind_eq_ok.mp hy
      exact ⟨z, h1, y, h2⟩
    obtain ⟨d, hd⟩ := addVec_fine (a := acc) (b := m) fun k x y hx hy => by
      obtain ⟨z, hz, -⟩ := step k x hx
      rw [List.getD_eq_getElem?_getD, hy] at hz
      exact ⟨z, hz⟩
    have hd' := addVec_ok hd
    have hdl : d.length = acc.length := by rw [hd', List.length_zipWith, hm, min_self]
    simp only [sums]
    rw [hd, Res.ok_bind]
    refine ih (fun m' h' => by rw [hdl]; exact hl m' (List.mem_cons_of_mem _ h')) fun k a ha => ?_
    have hk : k < acc.length := by rw [← hdl]; exact lt_of_some ha
    obtain ⟨z, h1, h2⟩ := step k acc[k] (List.getElem?_eq_getElem hk)
    have hkm : k < m.length := by omega
    rw [hd', List.getElem?_zipWith, List.getElem?_eq_getElem hk, List.getElem?_eq_getElem hkm] at ha
    simp only [Option.some.injEq] at ha
    rw [List.getD_eq_getElem?_getD, List.getElem?_eq_getElem hkm, Option.getD_some] at h1
    rw [← ha, ← (num_ok h1).1]
    exact h2

theorem divideSums_ok {n : ℚ} {ss c : List ℚ} (h : divideSums n ss = .ok c) :
    c = ss.map (fun s => rnd (s / n)) ∧ ∀ x ∈ c, |x| ≤ Over.maxF := by
  induction ss generalizing c with
  | nil =>
    simp only [divideSums, Res.ok.injEq] at h
    subst h
    simp
  | cons s ss ih =>
    simp only [divideSums] at h
    obtain ⟨z, h1, h⟩ := Res.bind_eq_ok.mp h
    obtain ⟨zs, h2, h3⟩ := Res.bind_eq_ok.mp h
    simp only [Res.pure_eq, Res.ok.injEq] at h3
    obtain ⟨i1, i2⟩ := ih h2
    obtain ⟨n1, n2⟩ := num_ok h1
    refine ⟨by rw [← h3, i1, n1]; rfl, fun x hx => ?_⟩
    rw [← h3, List.mem_cons] at hx
    rcases hx with rfl | hx
    · exact n2
    · exact i2 x hx

theorem divideSums_fine {n : ℚ} {ss : List ℚ} (h : ∀ s ∈ ss, ∃ y, num (s / n) = .ok y) : ∃ c, divideSums n ss = .ok c := by
  induction ss with
  | nil => exact ⟨[], rfl⟩
  | cons s ss ih =>
    obtain ⟨y, hy⟩ := h s List.mem_cons_self
    obtain ⟨c, hc⟩ := ih fun x hx => h x (List.mem_cons_of_mem _ hx)
    refine ⟨y :: c, ?_⟩
    simp only [divideSums]
    rw [hy, Res.ok_bind, hc, Res.ok_bind]
    rfl

theorem meansOf_not_panic (dim : Nat) (ms : List (List ℚ)) (n : Nat) : meansOf dim ms n ≠ .panic := by
  unfold meansOf
  cases h : sums (List.replicate dim 0) ms with
  | panic => exact absurd h (sums_not_panic _ _)
  | err e => simp
  | ok c => rw [Res.ok_bind]; exact divideSums_not_panic _ _

theorem meansOf_ok {dim : Nat} {ms : List (List ℚ)} {means : List ℚ} (hl : ∀ m ∈ ms, m.length = dim)
    (h : meansOf dim ms ms.length = .ok means) :
    means.length = dim ∧ (∀ k < dim, means[k]? = some (colMean ms k)) ∧ ∀ x ∈ means, |x| ≤ Over.maxF := by
  unfold meansOf at h
  obtain ⟨c, h1, h2⟩ := Res.bind_eq_ok.mp h
  obtain ⟨c1, c2⟩ := sums_ok (by simpa using hl) h1
  obtain ⟨d1, d2⟩ := divideSums_ok h2
  rw [List.length_replicate] at c1
  refine ⟨by rw [d1, List.length_map, c1], fun k hk => ?_, d2⟩
  rw [d1, List.getElem?_map, c2 k 0 (by simp [hk])]
  rfl

theorem column_mem {ms : List (List ℚ)} {k : Nat} {x : ℚ} {P : ℚ → Prop} (hP : P 0)
    (hv : ∀ e x, value ms e k = some x → P x) (hx : x ∈ column ms k) : P x := by
  obtain ⟨m, hm, rfl⟩ := List.mem_map.mp hx
  obtain ⟨e, he⟩ := List.getElem?_of_mem hm
  rw [List.getD_eq_getElem?_getD]
  cases h : m[k]? with
  | none => exact hP
  | some y => exact hv e y (by unfold value; rw [he, Option.bind_some, h])

theorem meansOf_fine {dim : Nat} {ms : List (List ℚ)} (hl : ∀ m ∈ ms, m.length = dim) (hn : ms.length ≤ 2 ^ 50)
    (hne : ms ≠ []) (hv : ∀ e k x, value ms e k = some x → 0 ≤ x ∧ x ≤ 2 ^ 900) :
    ∃ means, meansOf dim ms ms.length = .ok means := by
  have hcol : ∀ k, ∀ x ∈ column ms k, 0 ≤ x ∧ x ≤ 2 ^ 900 := fun k x hx =>
    column_mem (P := fun x => 0 ≤ x ∧ x ≤ 2 ^ 900) ⟨le_refl _, by positivity⟩ (fun e x => hv e k x) hx
  have hs : ∀ k, sumFrom 0 (column ms k) = .ok (sumR 0 (column ms k)) ∧ 0 ≤ sumR 0 (column ms k) ∧
      sumR 0 (column ms k) ≤ (0 + (column ms k).length : ℕ) * 2 ^ 900 := fun k =>
    sumFrom_fine (e := 900) (by norm_num) (s := 0) (j := 0) (by rw [column_length]; omega) (le_refl _) (by simp) (hcol k)
  obtain ⟨c, hc⟩ := sums_fine (acc := List.replicate dim 0) (ms := ms) (by simpa using hl) fun k a ha => by
    have hk : k < dim := by simpa using lt_of_some ha
    rw [List.getElem?_replicate, if_pos hk, Option.some.injEq] at ha
    rw [← ha]
    exact ⟨_, (hs k).1⟩
  obtain ⟨c1, c2⟩ := sums_ok (by simpa using hl) hc
  have hn1 : (1 : ℚ) ≤ ms.length := by exact_mod_cast List.length_pos_iff.mpr hne
  unfold meansOf
  rw [hc, Res.ok_bind, show f64.rnd (ms.length : ℚ) = ms.length from isNum_nat (by omega)]
  refine divideSums_fine fun s hs' => ?_
  obtain ⟨k, hk⟩ := List.getElem?_of_mem hs'
  have hkd : k < dim := by rw [List.length_replicate] at c1; rw [← c1]; exact lt_of_some hk
  rw [c2 k 0 (by simp [hkd]), Option.some.injEq] at hk
  obtain ⟨-, h2, h3⟩ := hs k
  refine ⟨_, num_fine (e := 900) (by norm_num) ?_⟩
  rw [← hk, abs_of_nonneg (div_nonneg h2 (by linarith)), div_le_iff₀ (by linarith), mul_comm]
  rw [column_length, Nat.zero_add] at h3
  exact h3

/-! ## Dividing -/

theorem divide_ok {means m m' : List ℚ} {i : Nat} (h : divide means i m = .ok m') :
    m'.length = m.length ∧ ∀ (k : Nat) x, m[k]? = some x → ∃ μ, means[i + k]? = some μ ∧
      m'[k]? = some (lift (rnd (x / μ))) := by
  induction m generalizing i m' with
  | nil =>
    simp only [divide, Res.ok.injEq] at h
    subst h
    exact ⟨rfl, fun k x hx => by simp at hx⟩
  | cons x m ih =>
    simp only [divide] at h
    obtain ⟨μ, h1, h⟩ := Res.bind_eq_ok.mp h
    obtain ⟨y, h2, h⟩ := Res.bind_eq_ok.mp h
    obtain ⟨r, h3, h4⟩ := Res.bind_eq_ok.mp h
    simp only [Res.pure_eq, Res.ok.injEq] at h4
    subst h4
    obtain ⟨i1, i2⟩ := ih h3
    refine ⟨by simp [i1], fun k z hz => ?_⟩
    cases k with
    | zero =>
      simp only [List.getElem?_cons_zero, Option.some.injEq] at hz
      subst hz
      refine ⟨μ, ?_, ?_⟩
      · cases hm : means[i]? with
        | none => rw [hm] at h1; exact absurd h1 (by simp [Res.ofIdx])
        | some ν =>
          rw [hm] at h1
          simp only [Res.ofIdx, Res.ok.injEq] at h1
          rw [h1]
      · rw [List.getElem?_cons_zero, (num_ok h2).1]
    | succ k =>
      obtain ⟨ν, n1, n2⟩ := i2 k z (by simpa using hz)
      exact ⟨ν, by rw [← n1]; congr 1; omega, by simpa using n2⟩

theorem divideAll_ok {means : List ℚ} {ms ms' : List (List ℚ)} (h : divideAll means ms = .ok ms') :
    ms'.length = ms.length ∧ ∀ (e : Nat) m, ms[e]? = some m → ∃ m', ms'[e]? = some m' ∧ divide means 0 m = .ok m' := by
  induction ms generalizing ms' with
  | nil =>
    simp only [divideAll, Res.ok.injEq] at h
    subst h
    exact ⟨rfl, fun k x hx => by simp at hx⟩
  | cons m ms ih =>
    simp only [divideAll] at h
    obtain ⟨m', h1, h⟩ := Res.bind_eq_ok.mp h
    obtain ⟨r, h3, h4⟩ := Res.bind_eq_ok.mp h
    simp only [Res.pure_eq, Res.ok.injEq] at h4
    subst h4
    obtain ⟨i1, i2⟩ := ih h3
    refine ⟨by simp [i1], fun e z hz => ?_⟩
    cases e with
    | zero =>
      simp only [List.getElem?_cons_zero, Option.some.injEq] at hz
      subst hz
      exact ⟨m', rfl, h1⟩
    | succ e => simpa using i2 e z (by simpa using hz)

theorem divide_fine {means m : List ℚ} {i : Nat}
    (h : ∀ (k : Nat) x, m[k]? = some x → ∃ μ, means[i + k]? = some μ ∧ ∃ y, num (x / μ) = .ok y) :
    ∃ m', divide means i m = .ok m' := by
  induction m generalizing i with
  | nil => exact ⟨[], rfl⟩
  | cons x m ih =>
    obtain ⟨μ, h1, y, h2⟩ := h 0 x rfl
    obtain ⟨r, hr⟩ := ih (i := i + 1) fun k x hx => by
      obtain ⟨μ, n1, n2⟩ := h (k + 1) x (by simpa using hx)
      exact ⟨μ, by rw [← n1]; congr 1; omega, n2⟩
    refine ⟨lift y :: r, ?_⟩
    simp only [divide]
    rw [Nat.add_zero] at h1
    rw [h1]
    simp only [Res.ofIdx]
    rw [Res.ok_bind, h2, Res.ok_bind, hr, Res.ok_bind]
    rfl

theorem divideAll_fine {means : List ℚ} {ms : List (List ℚ)}
    (h : ∀ m ∈ ms, ∃ m', divide means 0 m = .ok m') : ∃ ms', divideAll means ms = .ok ms' := by
  induction ms with
  | nil => exact ⟨[], rfl⟩
  | cons m ms ih =>
    obtain ⟨m', h1⟩ := h m List.mem_cons_self
    obtain ⟨r, h2⟩ := ih fun x hx => h x (List.mem_cons_of_mem _ hx)
    refine ⟨m' :: r, ?_⟩
    simp only [divideAll]
    rw [h1, Res.ok_bind, h2, Res.ok_bind]
    rfl

/-! ## Lifting -/

theorem eq_small' {x : ℚ} (h0 : 0 ≤ x) (h : x ≤ 14 / 10000000) (hx : IsNum x) : Over.eq x 0 = true := by
  rw [Over.C108_compare]
  unfold Fp.eq Fp.approx
  rw [sub_zero, hx, decide_eq_true_eq]
  have he : (0 : ℚ) < Fp.eps f64 := by decide +kernel
  have h1 : f64.rnd (x / Fp.eps f64) < 3 / 2 := by
    refine lt_of_le_of_lt (f64.mono (div_le_div_of_nonneg_right h he.le)) ?_
    decide +kernel
  have h2 : 0 ≤ f64.rnd (x / Fp.eps f64) := rnd_nonneg (div_nonneg h0 he.le)
  have h3 : Approx.roundF (f64.rnd (x / Fp.eps f64)) ≤ 1 := by
    unfold Approx.roundF
    rw [if_pos h2]
    have : ⌊f64.rnd (x / Fp.eps f64) + 1 / 2⌋ < 2 := Int.floor_lt.mpr (by push_cast; linarith)
    omega
  have h4 : 0 ≤ Approx.roundF (f64.rnd (x / Fp.eps f64)) := by
    unfold Approx.roundF
    rw [if_pos h2]
    exact Int.floor_nonneg.mpr (by linarith)
  have h3' : (Approx.roundF (f64.rnd (x / Fp.eps f64)) : ℚ) ≤ 1 := by exact_mod_cast h3
  have h4' : (0 : ℚ) ≤ Approx.roundF (f64.rnd (x / Fp.eps f64)) := by exact_mod_cast h4
  rw [abs_of_nonneg (rnd_nonneg (mul_nonneg h4' he.le))]
  have h5 := f64.mono (mul_le_mul_of_nonneg_right h3' he.le)
  refine le_trans h5 ?_
  rw [one_mul]
  exact le_of_eq (f64.idem _)

theorem eps_bounds : (9 : ℚ) / 10000000 ≤ Fp.eps f64 ∧ Fp.eps f64 ≤ 11 / 10000000 := by
  constructor <;> decide +kernel

theorem lift_cases {y : ℚ} (hy : 0 ≤ y) (hn : IsNum y) :
    (lift y = Fp.eps f64 ∧ y ≤ 1 / 625000) ∨ (lift y = y ∧ 14 / 10000000 < y) := by
  unfold lift
  by_cases h : Over.eq y 0 = true
  · rw [if_pos h]
    have := (abs_le.mp (eq_near' hn rnd_zero h)).2
    exact Or.inl ⟨rfl, by linarith⟩
  · rw [if_neg h]
    refine Or.inr ⟨rfl, ?_⟩
    by_contra hc
    exact h (eq_small' hy (not_lt.mp hc) hn)

/-! ## All -/

section
variable {s s' : Net}

theorem column_fine (hm : Metrics s) (k : Nat) : ∀ x ∈ column s.graph.metrics k, 0 ≤ x ∧ IsNum x := fun _ hx =>
  column_mem (P := fun x => 0 ≤ x ∧ IsNum x) ⟨le_refl _, rnd_zero⟩ (fun e => hm.values e k) hx

theorem sumR_nonneg {xs : List ℚ} {s : ℚ} (hs : 0 ≤ s) (hx : ∀ x ∈ xs, 0 ≤ x) : 0 ≤ sumR s xs := by
  induction xs generalizing s with
  | nil => exact hs
  | cons x xs ih =>
    exact ih (nonneg (add_nonneg hs (hx x List.mem_cons_self))) fun y hy => hx y (List.mem_cons_of_mem _ hy)

theorem colMean_nonneg (hm : Metrics s) (k : Nat) : 0 ≤ colMean s.graph.metrics k :=
  nonneg (div_nonneg (sumR_nonneg (le_refl _) fun x hx => (column_fine hm k x hx).1) (nonneg (Nat.cast_nonneg _)))

theorem colMean_pos (hm : Metrics s) {k : Nat} (h : Over.eq (colMean s.graph.metrics k) 0 = false) :
    14 / 10000000 < colMean s.graph.metrics k := by
  by_contra hc
  rw [eq_small' (colMean_nonneg hm k) (not_lt.mp hc) (isNum_rnd _)] at h
  simp at h

theorem value_lt (hc : Consistent s) {e k : Nat} {x : ℚ} (hx : value s.graph.metrics e k = some x) :
    k < s.edges.units.length ∧ e < s.graph.metrics.length := by
  obtain ⟨m, hm, hx⟩ := Bal.value_eq_some.mp hx
  rw [← hc.values m (List.mem_of_getElem? hm)]
  exact ⟨lt_of_some hx, lt_of_some hm⟩

theorem normalize_ok (h : normalize s = some (.ok s')) (hn : s.edges.normalized = true) (hc : Consistent s)
    (hw : s.graph.metrics.length = s.graph.edgeCount) :
    s.graph.metrics ≠ [] ∧ OnlyMetrics s s' ∧ (∃ means, s'.graph.means = some means ∧
      means.length = s.edges.units.length ∧ ∀ k < s.edges.units.length, means[k]? = some (colMean s.graph.metrics k)) ∧
    (∀ k < s.edges.units.length, Over.eq (colMean s.graph.metrics k) 0 = false ∧
      |colMean s.graph.metrics k| ≤ Over.maxF) ∧
    ∀ e k x, value s.graph.metrics e k = some x →
      value s'.graph.metrics e k = some (lift (rnd (x / colMean s.graph.metrics k))) := by
  unfold normalize at h
  rw [if_pos hn] at h
  dsimp only at h
  rw [← hw] at h
  split at h
  · simp at h
  rename_i hz
  have hne : s.graph.metrics ≠ [] := fun h0 => hz (by simp [h0])
  split at h
  · simp at h
  · simp at h
  rename_i means hmeans
  obtain ⟨m1, m2, m3⟩ := meansOf_ok hc.values hmeans
  split at h
  · simp at h
  rename_i hany
  split at h
  · simp at h
  · simp at h
  rename_i ms hms
  simp only [Option.some.injEq, Res.ok.injEq] at h
  subst h
  obtain ⟨d1, d2⟩ := divideAll_ok hms
  have hval : ∀ e k x, value s.graph.metrics e k = some x →
      value ms e k = some (lift (rnd (x / colMean s.graph.metrics k))) := by
    intro e k x hx
    have hk := (value_lt hc hx).1
    obtain ⟨m, hm, hx⟩ := Bal.value_eq_some.mp hx
    obtain ⟨m', hm', hd⟩ := d2 e m hm
    obtain ⟨μ, hμ, hy⟩ := (divide_ok hd).2 k x hx
    rw [Nat.zero_add, m2 k hk, Option.some.injEq] at hμ
    subst hμ
    exact Bal.value_eq_some.mpr ⟨m', hm', hy⟩
  refine ⟨hne, ⟨rfl, d1, fun e k => ?_⟩, ⟨means, rfl, m1, m2⟩, fun k hk => ⟨?_, ?_⟩, hval⟩
  · dsimp only
    cases hv : value s.graph.metrics e k with
    | some x => rw [hval e k x hv]; rfl
    | none =>
      cases hv' : value ms e k with
      | none => rfl
      | some y =>
        exfalso
        obtain ⟨m', hm', hy⟩ := Bal.value_eq_some.mp hv'
        have he : e < s.graph.metrics.length := by rw [← d1]; exact lt_of_some hm'
        obtain ⟨m'', hm'', hd⟩ := d2 e _ (List.getElem?_eq_getElem he)
        rw [hm', Option.some.injEq] at hm''
        subst hm''
        have hk : k < s.graph.metrics[e].length := by rw [← (divide_ok hd).1]; exact lt_of_some hy
        have := Bal.value_eq_some.mpr ⟨_, List.getElem?_eq_getElem he, List.getElem?_eq_getElem hk⟩
        rw [hv] at this
        simp at this
  · simp only [List.any_eq_true, not_exists, not_and, Bool.not_eq_true] at hany
    exact hany _ (List.mem_of_getElem? (m2 k hk))
  · exact m3 _ (List.mem_of_getElem? (m2 k hk))

end

end Verif.NormF
