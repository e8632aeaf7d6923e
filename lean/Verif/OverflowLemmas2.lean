import Verif.OverflowPad
import Verif.OverflowSpec
import Verif.FloatProps

/-!
# Lemmas about costs that overflow
-/

namespace Verif.Over

open Dij Search Graph Fp

/-! ## Lemmas -/

theorem fits_zero : fitsF 0 = true := by decide +kernel

theorem fits_down (x y : Rounded f64) (h : x ≤ y) (hy : fitsF y = true) : fitsF x = true := by
  simp only [fitsF, decide_eq_true_eq] at *
  exact le_trans h hy

theorem add_nonneg' {a b : Rounded f64} (ha : 0 ≤ a) (hb : 0 ≤ b) : 0 ≤ a + b :=
  le_trans ha ((addOk_rounded f64).infl _ _ hb)

theorem dot_fold_nonneg {l : List (ℚ × ℚ)} (hl : ∀ p ∈ l, 0 ≤ p.1 * p.2) {s : Option (Rounded f64)}
    (hs : ∀ x, s = some x → 0 ≤ x) {y : Rounded f64}
    (hy : l.foldl (fun s p => plus fitsF s (cap fitsF ⟨f64.rnd (p.1 * p.2), f64.idem _⟩)) s = some y) : 0 ≤ y := by
  induction l generalizing s with
  | nil => exact hs y hy
  | cons p l ih =>
    refine ih (fun q hq => hl q (List.mem_cons_of_mem _ hq)) ?_ hy
    intro x hx
    cases s with
    | none => cases hx
    | some a =>
      simp only [cap] at hx
      split at hx
      · simp only [plus, cap] at hx
        split at hx
        · cases hx
          refine add_nonneg' (hs a rfl) ?_
          exact (rnd_nonneg (r := f64) (hl p List.mem_cons_self) : (0 : ℚ) ≤ _)
        · cases hx
      · cases hx

theorem wt0_nonneg {a m : List ℚ} (ha : ∀ x ∈ a, 0 ≤ x) (hm : ∀ x ∈ m, 0 ≤ x) : 0 ≤ wt0 (dot a) m := by
  unfold wt0
  cases h : dot a m with
  | none => exact le_refl _
  | some y =>
    refine dot_fold_nonneg (zip_nonneg ha hm) (s := some 0) ?_ h
    intro x hx
    cases hx
    exact le_refl _

theorem Used.tidy {n : Nat} {s : St (Rounded f64)} (hu : Used n s) : Tidy n s := by
  induction hu with
  | new => exact Tidy.new n
  | query _ hq hc ih => exact compute_tidyB hq ih hc

/-- The sum of a route, starting with `s`. -/
def sumFrom (g : Graph) (alphas : List ℚ) (s : Option (Rounded f64)) (l : List Nat) : Option (Rounded f64) :=
  l.foldl (fun s e => match s, g.metrics[e]? with
    | some x, some m => (match dot alphas m with
      | some w => if (x + w).1 ≤ maxF then some (x + w) else none
      | none => none)
    | _, _ => none) s

theorem sumFrom_none (g : Graph) (al : List ℚ) (l : List Nat) : sumFrom g al none l = none := by
  induction l with
  | nil => rfl
  | cons e l ih => exact ih

theorem fine_iff {g : Graph} {al : List ℚ} (hwf : g.WellFormed) {isCh : Bool} {d : Dir} {u v : Nat}
    {ts : List (Arc (Rounded f64))} {x : Rounded f64} (hr : IsRt (outArcs g (wt0 (dot al)) isCh d) u ts v) :
    sumFrom g al (some x) (ts.map (·.1)) ≠ none ↔ (∀ t ∈ ts, finite g (dot al) t.1 = true) ∧
      ∀ p t s, ts = p ++ t :: s → fitsF (costFrom x (p ++ [t])) = true := by
  induction ts generalizing u x with
  | nil =>
    refine ⟨fun _ => ⟨(by intro t ht; cases ht), by intro p t s h; simp at h⟩, fun _ => by simp [sumFrom]⟩
  | cons t ts ih =>
    obtain ⟨_, _, ⟨m, hm, hw⟩, _⟩ := (mem_outArcs hwf).mp hr.1
    have hsplit : (∀ p t' s, t :: ts = p ++ t' :: s → fitsF (costFrom x (p ++ [t'])) = true) ↔
        fitsF (x + t.2.2) = true ∧ ∀ p t' s, ts = p ++ t' :: s → fitsF (costFrom (x + t.2.2) (p ++ [t'])) = true := by
      constructor
      · intro h
        exact ⟨h [] t ts rfl, fun p t' s hps => h (t :: p) t' s (by rw [hps]; rfl)⟩
      · rintro ⟨h1, h2⟩ p t' s hps
        cases p with
        | nil => cases hps; exact h1
        | cons a p => cases hps; exact h2 p t' s rfl
    rw [hsplit, List.forall_mem_cons]
    cases hd : dot al m with
    | none =>
      have hf : finite g (dot al) t.1 = false := by simp [finite, hm, hd]
      have : sumFrom g al (some x) ((t :: ts).map (·.1)) = sumFrom g al none (ts.map (·.1)) := by
        simp [sumFrom, hm, hd]
      rw [this, sumFrom_none, hf]
      simp
    | some w =>
      have hf : finite g (dot al) t.1 = true := by simp [finite, hm, hd]
      have hw' : t.2.2 = w := by rw [hw]; simp [wt0, hd]
      by_cases hle : (x + w).1 ≤ maxF
      · have : sumFrom g al (some x) ((t :: ts).map (·.1)) = sumFrom g al (some (x + w)) (ts.map (·.1)) := by
          simp [sumFrom, hm, hd, hle]
        rw [this, ih hr.2, hw', hf]
        have h3 : fitsF (x + w) = true := by simpa [fitsF] using hle
        rw [h3]
        simp
      · have : sumFrom g al (some x) ((t :: ts).map (·.1)) = sumFrom g al none (ts.map (·.1)) := by
          simp [sumFrom, hm, hd, hle]
        rw [this, sumFrom_none, hw']
        have h3 : fitsF (x + w) = false := by simpa [fitsF] using hle
        rw [h3]
        simp

theorem fine_sum {g : Graph} {al : List ℚ} (hwf : g.WellFormed) {isCh : Bool} {d : Dir} {u v : Nat}
    {ts : List (Arc (Rounded f64))} (hr : IsRt (outArcs g (wt0 (dot al)) isCh d) u ts v) :
    sumOf g al (ts.map (·.1)) ≠ none ↔ Fine fitsF (finite g (dot al)) ts := fine_iff hwf hr

theorem route_bwd {g : Graph} (hwf : g.WellFormed) (wt : List ℚ → Rounded f64) {u v : Nat} {l : List Nat}
    (hr : g.IsRoute u l v) : ∃ ts, ts.map (·.1) = l.reverse ∧ IsRt (outArcs g wt false .bwd) v ts u := by
  induction l generalizing u with
  | nil => exact ⟨[], rfl, Eq.symm hr⟩
  | cons e l ih =>
    obtain ⟨x, ⟨hx1, hx2⟩, hr⟩ := hr
    obtain ⟨ts, hts, hr⟩ := ih hr
    obtain ⟨m, hm⟩ := edge_metrics hwf (edge_lt hwf hx1)
    exact ⟨ts ++ [(e, u, wt m)], by simp [hts], isRt_append.mpr ⟨x, hr, (mem_outArcs hwf).mpr
      ⟨hx1, hx2, ⟨m, hm, rfl⟩, (by intro h; cases h)⟩, rfl⟩⟩


section
variable {fuel n : Nat} {s s' : St (Rounded f64)} {q : Query (Rounded f64)}

theorem valid {p : Path} (hc : router fuel s q = some (.ok (s', some p))) :
    q.algo ≠ .explorator ∧ ∀ a ∈ q.alphas, 0 ≤ a := by
  unfold router computeBestPath at hc
  split at hc
  · cases hc
  · rename_i hneg
    constructor
    · rintro ha
      rw [ha] at hc
      cases hc
    · simpa using hneg

theorem cases_of (hwf : q.graph.WellFormed) (hm : NonnegMetrics q.graph) (hn : q.graph.nodeCount ≠ 2)
    (hsrc : q.src < q.graph.nodeCount) (hdst : q.dst < q.graph.nodeCount) (hu : Used q.graph.nodeCount s)
    (halg : q.algo ≠ .explorator) (hal : ∀ a ∈ q.alphas, 0 ≤ a) {c : Cfg (Rounded f64)}
    (hc : c = cfg (heap f64) q.graph (wt0 (dot q.alphas)) (decide (q.algo = .chDijkstra)) q.src q.dst) :
    (router fuel s q = none ∧
      (loopB fitsF (finite q.graph (dot q.alphas)) c fuel (initA c) none = none ∨ fuel ≤ q.graph.nodeCount)) ∨
    (router fuel s q = some .panic ∧ ∃ d u, u < q.graph.nodeCount ∧ ¬ q.graph.Covered d u) ∨
    (∃ s' ans, router fuel s q = some (.ok (s', ans)) ∧
      (ans = none → ∀ m tf tb, IsRt (c.out .fwd) q.src tf m → Fine fitsF (finite q.graph (dot q.alphas)) tf →
        IsRt (c.out .bwd) q.dst tb m → ¬ Fine fitsF (finite q.graph (dot q.alphas)) tb) ∧
      ∀ p, ans = some p → ∃ m tf tb i j, IsRt (c.out .fwd) q.src tf m ∧
        Fine fitsF (finite q.graph (dot q.alphas)) tf ∧ IsRt (c.out .bwd) q.dst tb m ∧
        Fine fitsF (finite q.graph (dot q.alphas)) tb ∧ q.graph.nodeId q.src = .ok i ∧
        q.graph.nodeId q.dst = .ok j ∧
        p = Path.new q.src i q.dst j (tf.map (·.1) ++ (tb.map (·.1)).reverse)) :=
  compute_casesB (fits := fitsF) (h := heap f64) (dotp := dot) (fuel := fuel) hwf (addOk_rounded f64)
    (fun m hmem => wt0_nonneg hal (hm m hmem)) fits_zero fits_down hn hsrc hdst hu.tidy halg hal hc

theorem answered_of {ans : Option Path} (hwf : q.graph.WellFormed) (hm : NonnegMetrics q.graph)
    (hsrc : q.src < q.graph.nodeCount) (hdst : q.dst < q.graph.nodeCount) (hu : Used n s)
    (halg : q.algo ≠ .explorator) (hal : ∀ a ∈ q.alphas, 0 ≤ a) (hr : router fuel s q = some (.ok (s', ans)))
    {c : Cfg (Rounded f64)}
    (hc : c = cfg (heap f64) q.graph (wt0 (dot q.alphas)) (decide (q.algo = .chDijkstra)) q.src q.dst) :
    (ans = none → ∀ m tf tb, IsRt (c.out .fwd) q.src tf m → Fine fitsF (finite q.graph (dot q.alphas)) tf →
      IsRt (c.out .bwd) q.dst tb m → ¬ Fine fitsF (finite q.graph (dot q.alphas)) tb) ∧
    ∀ p, ans = some p → ∃ m tf tb i j, IsRt (c.out .fwd) q.src tf m ∧
      Fine fitsF (finite q.graph (dot q.alphas)) tf ∧ IsRt (c.out .bwd) q.dst tb m ∧
      Fine fitsF (finite q.graph (dot q.alphas)) tb ∧ q.graph.nodeId q.src = .ok i ∧
      q.graph.nodeId q.dst = .ok j ∧
      p = Path.new q.src i q.dst j (tf.map (·.1) ++ (tb.map (·.1)).reverse) :=
  compute_answeredB hwf (addOk_rounded f64) (fun m hmem => wt0_nonneg hal (hm m hmem)) fits_zero fits_down hsrc hdst
    hu.tidy halg hal hr hc

end

/-! ## Without overflow -/

theorem rnd_fix {k e : ℕ} (hk : k ≤ 2 ^ 53) : f64.rnd (k * 2 ^ e) = k * 2 ^ e := by
  have h0 : (0 : ℚ) ≤ (k : ℚ) * 2 ^ e := by positivity
  have h1 : f64.rnd (k * 2 ^ e) = roundPos 52 (-1074) (k * 2 ^ e) := round_nonneg h0
  have h2 := roundPos_fix (P := 52) (m := -1074) (n := (k : ℤ)) (e := (e : ℤ)) (by omega) (by
    have : ((k : ℤ) : ℚ) ≤ ((2 ^ 53 : ℕ) : ℚ) := by exact_mod_cast hk
    refine le_trans this ?_
    norm_num) (by omega)
  rw [h1]
  simpa using h2

/-- The number next to `x`. -/
def rd (x : ℚ) : Rounded f64 := ⟨f64.rnd x, f64.idem _⟩

theorem le_rounded {a b : Rounded f64} : a ≤ b ↔ a.1 ≤ b.1 := Iff.rfl

theorem add_val (a b : Rounded f64) : (a + b).1 = f64.rnd (a.1 + b.1) := rfl

theorem rd_pow (e : ℕ) : (rd (2 ^ e)).1 = 2 ^ e := by
  have h2 := rnd_fix (k := 1) (e := e) (by norm_num)
  simp only [Nat.cast_one, one_mul] at h2
  exact h2

/-- `j * 2^e`, if it is a number. -/
def mult (e : ℕ) : ℕ → Rounded f64
  | 0 => 0
  | j + 1 => mult e j + rd (2 ^ e)

theorem mult_eq {e j : ℕ} (hj : j ≤ 2 ^ 53) : (mult e j).1 = j * 2 ^ e := by
  induction j with
  | zero => simp [mult]; rfl
  | succ j ih =>
    rw [mult, add_val, ih (by omega), rd_pow, show (j : ℚ) * 2 ^ e + 2 ^ e = ((j + 1 : ℕ) : ℚ) * 2 ^ e by
      push_cast; ring, rnd_fix hj]

theorem pow_le_max {e : ℕ} (he : e ≤ 1023) : (2 : ℚ) ^ e ≤ maxF :=
  le_trans (pow_le_pow_right₀ (by norm_num) he) (by decide +kernel)

theorem mult_le {e j k : ℕ} (hk : k ≤ 53) (hj : j ≤ 2 ^ k) : (mult e j).1 ≤ 2 ^ (k + e) := by
  rw [mult_eq (le_trans hj (Nat.pow_le_pow_right (by norm_num) hk)), pow_add]
  have : (j : ℚ) ≤ 2 ^ k := by exact_mod_cast hj
  gcongr

theorem mult_fits {e j : ℕ} (he : e ≤ 970) (hj : j ≤ 2 ^ 53) : fitsF (mult e j) = true := by
  simp only [fitsF, decide_eq_true_eq]
  exact le_trans (mult_le (le_refl 53) hj) (pow_le_max (by omega))

/-- Weights of moderate metrics and alphas. -/
theorem dot_moderate {e : ℕ} (he : e ≤ 970) {l : List (ℚ × ℚ)} (hl : ∀ p ∈ l, p.1 * p.2 ≤ 2 ^ e)
    {s : Rounded f64} {j : ℕ} (hs : s ≤ mult e j) (hj : j + l.length ≤ 2 ^ 53) :
    l.foldl (fun s p => plus fitsF s (cap fitsF ⟨f64.rnd (p.1 * p.2), f64.idem _⟩)) (some s) = some (dotFrom f64 s l) ∧
      dotFrom f64 s l ≤ mult e (j + l.length) := by
  induction l generalizing s j with
  | nil => exact ⟨rfl, hs⟩
  | cons p l ih =>
    simp only [List.length_cons] at hj
    have hle : rd (p.1 * p.2) ≤ rd (2 ^ e) := f64.mono (hl p List.mem_cons_self)
    have hadd : s + rd (p.1 * p.2) ≤ mult e (j + 1) :=
      le_trans ((addOk_rounded f64).mono _ _ _ hs) ((addOk_rounded f64).mono' _ _ _ hle)
    have hfit : fitsF (s + rd (p.1 * p.2)) = true := fits_down _ _ hadd (mult_fits he (by omega))
    have hfit1 : fitsF (rd (p.1 * p.2)) = true := by
      simp only [fitsF, decide_eq_true_eq]
      have := le_rounded.mp hle
      rw [rd_pow] at this
      exact le_trans this (pow_le_max (by omega))
    have := ih (fun q hq => hl q (List.mem_cons_of_mem _ hq)) hadd (by omega)
    simp only [List.foldl_cons, List.length_cons]
    have e1 : plus fitsF (some s) (cap fitsF (rd (p.1 * p.2))) = some (s + rd (p.1 * p.2)) := by
      rw [show cap fitsF (rd (p.1 * p.2)) = some _ from if_pos hfit1, plus_fits hfit]
    have e2 : (⟨f64.rnd (p.1 * p.2), f64.idem _⟩ : Rounded f64) = rd (p.1 * p.2) := rfl
    rw [e2, e1, show j + (l.length + 1) = j + 1 + l.length by omega]
    exact this

theorem weight_moderate {k : ℕ} (hk : k + k ≤ 970) {a m : List ℚ} (ha : ∀ x ∈ a, 0 ≤ x ∧ x ≤ 2 ^ k)
    (hm : ∀ x ∈ m, 0 ≤ x ∧ x ≤ 2 ^ k) (hl : a.length ≤ 2 ^ 50) :
    dot a m = some (Fp.dot f64 a m) ∧ Fp.dot f64 a m ≤ rd (2 ^ (50 + (k + k))) := by
  have hlen : (a.zip m).length ≤ 2 ^ 50 := by rw [List.length_zip]; exact le_trans (min_le_left _ _) hl
  have h := dot_moderate (e := k + k) hk (l := a.zip m) (s := 0) (j := 0) (by
    intro p hp
    have h1 := ha _ (List.of_mem_zip hp).1
    have h2 := hm _ (List.of_mem_zip hp).2
    rw [pow_add]
    exact mul_le_mul h1.2 h2.2 h2.1 (by positivity)) (le_refl _) (by omega)
  refine ⟨h.1, le_trans h.2 ?_⟩
  rw [le_rounded, rd_pow, zero_add]
  exact mult_le (by norm_num) hlen

/-- Bounds of costs. -/
theorem bound_of {k : ℕ} (hk : k ≤ 400) {g : Graph} {al : List ℚ} (hal : ∀ a ∈ al, 0 ≤ a) (hm : NonnegMetrics g)
    (hmod : ∀ m ∈ g.metrics, ∀ x ∈ m, x ≤ 2 ^ k) (hmod' : ∀ a ∈ al, a ≤ 2 ^ k) (hlen : al.length ≤ 2 ^ 50)
    (hn : g.nodeCount ≤ 2 ^ 50) :
    Bound g (Fp.dot f64 al) (mult (50 + (k + k))) ∧ (∀ m ∈ g.metrics, dot al m = some (Fp.dot f64 al m)) ∧
      ∀ x, x ≤ mult (50 + (k + k)) g.nodeCount + mult (50 + (k + k)) g.nodeCount → fitsF x = true := by
  have hw := fun m hmem => weight_moderate (k := k) (by omega) (a := al) (m := m)
    (fun x hx => ⟨hal x hx, hmod' x hx⟩) (fun x hx => ⟨hm m hmem x hx, hmod m hmem x hx⟩) hlen
  have hone : (0 : Rounded f64) ≤ rd (2 ^ (50 + (k + k))) := by
    rw [le_rounded, rd_pow]
    exact pow_nonneg (by norm_num) _
  refine ⟨⟨le_refl _, ?_, ?_⟩, fun m hmem => (hw m hmem).1, ?_⟩
  · exact monotone_nat_of_le_succ fun j => (addOk_rounded f64).infl _ _ hone
  · intro j x hx m hmem
    exact le_trans ((addOk_rounded f64).mono _ _ _ hx) ((addOk_rounded f64).mono' _ _ _ (hw m hmem).2)
  · intro x hx
    refine fits_down _ _ hx ?_
    simp only [fitsF, decide_eq_true_eq, add_val]
    have e := mult_le (e := 50 + (k + k)) (k := 50) (by norm_num) hn
    have h3 := rd_pow (50 + (50 + (k + k)) + 1)
    refine le_trans (f64.mono (b := 2 ^ (50 + (50 + (k + k)) + 1)) ?_) ?_
    · rw [pow_succ]
      linarith
    · exact h3.le.trans (pow_le_max (by omega))

theorem same_of {k : ℕ} (hk : k ≤ 400) {fuel n : Nat} {s : St (Rounded f64)} {q : Query (Rounded f64)}
    (hwf : q.graph.WellFormed) (hm : NonnegMetrics q.graph) (hmod : ∀ m ∈ q.graph.metrics, ∀ x ∈ m, x ≤ 2 ^ k)
    (hmod' : ∀ a ∈ q.alphas, a ≤ 2 ^ k) (hlen : q.alphas.length ≤ 2 ^ 50)
    (hn : q.graph.nodeCount ≤ 2 ^ 50) (hn2 : q.graph.nodeCount ≠ 2)
    (hsrc : q.src < q.graph.nodeCount) (hdst : q.dst < q.graph.nodeCount) (hu : Used n s) :
    router fuel s q = Dij.computeBestPath (heap f64) (Fp.dot f64) fuel s q := by
  by_cases hal : ∀ a ∈ q.alphas, 0 ≤ a
  swap
  · unfold router computeBestPath Dij.computeBestPath
    rw [if_pos (by simpa using hal), if_pos (by simpa using hal)]
  obtain ⟨h1, h2, h3⟩ := bound_of hk hal hm hmod hmod' hlen hn
  exact compute_same hwf (addOk_rounded f64) (weights hal hm) h1 h2 h3 hn2 hsrc hdst hu.tidy

/-! ## Comparing -/

theorem eps_le_max : Fp.eps f64 ≤ maxF := by decide +kernel
theorem two_le_max : 2 ≤ maxF := by decide +kernel

theorem roundF_two {y : ℚ} (hy : 2 ≤ y) : 2 ≤ Approx.roundF y := by
  unfold Approx.roundF
  rw [if_pos (by linarith)]
  exact Int.le_floor.mpr (by push_cast; linarith)

theorem roundF_neg {y : ℚ} (hy : 2 ≤ y) : Approx.roundF (-y) = -Approx.roundF y := by
  unfold Approx.roundF
  rw [if_neg (by linarith), if_pos (by linarith), neg_neg]

theorem large_pos {y : ℚ} (hy : 2 ≤ y) : Fp.eps f64 < f64.rnd (Approx.roundF y * Fp.eps f64) := by
  have h0 : (0 : ℚ) ≤ Fp.eps f64 := by decide +kernel
  have h1 : (2 : ℚ) ≤ Approx.roundF y := by exact_mod_cast roundF_two hy
  refine lt_of_lt_of_le (show Fp.eps f64 < f64.rnd (2 * Fp.eps f64) by decide +kernel) (f64.mono ?_)
  exact mul_le_mul_of_nonneg_right h1 h0

theorem large {y : ℚ} (hy : 2 ≤ |y|) : Fp.eps f64 < |f64.rnd (Approx.roundF y * Fp.eps f64)| := by
  rcases le_total 0 y with h | h
  · rw [abs_of_nonneg h] at hy
    exact lt_of_lt_of_le (large_pos hy) (le_abs_self _)
  · rw [abs_of_nonpos h] at hy
    have := large_pos hy
    have e : y = -(-y) := by ring
    rw [e, roundF_neg hy]
    push_cast
    rw [neg_mul, f64_err.neg, abs_neg]
    exact lt_of_lt_of_le this (le_abs_self _)

theorem quot_large {x : ℚ} (hx : maxF ≤ |x|) : 2 ≤ |f64.rnd (x / Fp.eps f64)| := by
  have h0 : (0 : ℚ) < Fp.eps f64 := by decide +kernel
  have key : ∀ x : ℚ, maxF ≤ x → 2 ≤ f64.rnd (x / Fp.eps f64) := by
    intro x hx
    refine le_trans (show (2 : ℚ) ≤ f64.rnd (maxF / Fp.eps f64) by decide +kernel) (f64.mono ?_)
    exact div_le_div_of_nonneg_right hx (le_of_lt h0)
  rcases le_total 0 x with h | h
  · rw [abs_of_nonneg h] at hx
    exact le_trans (key x hx) (le_abs_self _)
  · rw [abs_of_nonpos h] at hx
    have := key _ hx
    rw [neg_div, f64_err.neg] at this
    exact le_trans this (neg_le_abs _)

end Verif.Over
