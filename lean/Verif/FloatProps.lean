import Mathlib.Algebra.Order.Ring.Pow
import Verif.FloatLemmas
import Verif.ShortRoutes
import Verif.SimpleProps

/-!
# The router with floating point numbers

All costs are rounded to `f64` after every operation, in the weights, in the sums, and in the approximate
comparison.
-/

namespace Verif.Fp

open Dij Search Graph

/-! ## C75: the numbers -/

/-- The numbers are the integers of 53 bits, times powers of two from `2^-1074` on. -/
theorem C75_numbers (x : ℚ) : f64.rnd x = x ↔ ∃ n e : ℤ, |n| < 2 ^ 53 ∧ -1074 ≤ e ∧ x = n * 2 ^ e := by
  have e53 : (2 : ℚ) ^ (((52 : ℕ) : ℤ) + 1) = ((2 ^ 53 : ℤ) : ℚ) := by
    rw [show ((52 : ℕ) : ℤ) + 1 = ((53 : ℕ) : ℤ) from rfl, zpow_natCast]; norm_num
  constructor
  · have key : ∀ x : ℚ, 0 ≤ x → f64.rnd x = x → ∃ n e : ℤ, |n| < 2 ^ 53 ∧ -1074 ≤ e ∧ x = n * 2 ^ e := by
      intro x hx h
      have h' : roundPos 52 (-1074) x = x := by rw [← round_nonneg hx]; exact h
      obtain ⟨n, e, h1, h2, h3, h4⟩ := roundPos_form (P := 52) (m := -1074) hx
      rw [e53] at h2
      have h2' : n ≤ 2 ^ 53 := by exact_mod_cast h2
      rcases eq_or_lt_of_le h2' with h5 | h5
      · refine ⟨2 ^ 52, e + 1, by norm_num, by omega, ?_⟩
        rw [← h', h4, h5, ← pow_mul_pow e 1, zpow_one]
        push_cast
        ring
      · exact ⟨n, e, by rw [abs_of_nonneg h1]; exact h5, h3, by rw [← h', h4]⟩
    intro h
    rcases le_total 0 x with hx | hx
    · exact key x hx h
    · have hn : f64.rnd (-x) = -x := by rw [f64_err.neg, h]
      obtain ⟨n, e, h1, h2, h3⟩ := key (-x) (by linarith) hn
      exact ⟨-n, e, by rw [abs_neg]; exact h1, h2, by push_cast; linarith⟩
  · rintro ⟨n, e, h1, h2, rfl⟩
    have key : ∀ n : ℤ, 0 ≤ n → n < 2 ^ 53 → f64.rnd (n * 2 ^ e) = n * 2 ^ e := by
      intro n hn hlt
      have hn' : (0 : ℚ) ≤ n := by exact_mod_cast hn
      have h0 : (0 : ℚ) ≤ n * 2 ^ e := mul_nonneg hn' (le_of_lt (zpow_pos (by norm_num) _))
      show round 52 (-1074) (n * 2 ^ e) = _
      rw [round_nonneg h0]
      refine roundPos_fix hn ?_ h2
      rw [e53]
      exact_mod_cast le_of_lt hlt
    rcases le_total 0 n with hn | hn
    · exact key n hn (lt_of_le_of_lt (le_abs_self n) h1)
    · have h := key (-n) (by omega) (lt_of_le_of_lt (neg_le_abs n) h1)
      push_cast at h
      rw [neg_mul, f64_err.neg] at h
      linarith

/-- No number is nearer to `x` than the rounded one. -/
theorem C75_nearest (x y : ℚ) (hy : f64.rnd y = y) : |f64.rnd x - x| ≤ |y - x| := by
  have e52 : ∃ k : ℤ, (2 : ℚ) ^ ((52 : ℕ) : ℤ) = k := pow_int (by omega)
  obtain ⟨k, hk⟩ := e52
  have key : ∀ x y : ℚ, 0 < x → f64.rnd y = y → |f64.rnd x - x| ≤ |y - x| := by
    intro x y hx hy
    have hu := ulp_pos (P := 52) (m := -1074) x
    have e : f64.rnd x = rne (x / ulp 52 (-1074) x) * ulp 52 (-1074) x := round_nonneg (le_of_lt hx)
    have hyr : ∃ n : ℤ, y = n * 2 ^ (-1074 : ℤ) := fixed_mul hy
    -- it is enough to be a multiple of the spacing, or to be beyond one on the other side
    have hmul : ∀ n : ℤ, |f64.rnd x - x| ≤ |n * ulp 52 (-1074) x - x| := by
      intro n
      have h1 : |(rne (x / ulp 52 (-1074) x) : ℚ) - x / ulp 52 (-1074) x| ≤ |n - x / ulp 52 (-1074) x| := by
        by_cases hn : n = rne (x / ulp 52 (-1074) x)
        · rw [hn]
        · have h2 := rne_err (x / ulp 52 (-1074) x)
          have h3 : (1 : ℚ) ≤ |(n : ℚ) - rne (x / ulp 52 (-1074) x)| := by
            rw [← Int.cast_sub, ← Int.cast_abs]
            exact_mod_cast Int.one_le_abs (sub_ne_zero.mpr hn)
          have h4 := abs_sub_le (n : ℚ) (x / ulp 52 (-1074) x) (rne (x / ulp 52 (-1074) x))
          rw [abs_sub_comm (x / ulp 52 (-1074) x)] at h4
          linarith
      have h5 : ∀ q : ℚ, |q * ulp 52 (-1074) x - x| = |q - x / ulp 52 (-1074) x| * ulp 52 (-1074) x := by
        intro q
        rw [← abs_of_pos hu, ← abs_mul, abs_of_pos hu, sub_mul, div_mul_cancel₀ _ (ne_of_gt hu)]
      rw [e, h5, h5]
      exact mul_le_mul_of_nonneg_right h1 (le_of_lt hu)
    rcases max_choice (Int.log 2 x - ((52 : ℕ) : ℤ)) (-1074) with hmax | hmax
    · -- normal numbers
      have hux : ulp 52 (-1074) x = 2 ^ (Int.log 2 x - ((52 : ℕ) : ℤ)) := by unfold ulp; rw [hmax]
      have hlo := pow_log_le hx
      have hhi := lt_pow_log x
      have klo : (k : ℚ) * ulp 52 (-1074) x = 2 ^ Int.log 2 x := by
        rw [hux, ← hk, pow_mul_pow]; congr 1; omega
      have khi : ((2 * k : ℤ) : ℚ) * ulp 52 (-1074) x = 2 ^ (Int.log 2 x + 1) := by
        push_cast
        rw [mul_assoc, klo, ← pow_mul_pow, zpow_one, mul_comm]
      by_cases h1 : y < 2 ^ Int.log 2 x
      · refine le_trans (hmul k) ?_
        rw [klo, abs_sub_comm, abs_sub_comm y, abs_of_nonneg (by linarith), abs_of_nonneg (by linarith)]
        linarith
      · by_cases h2 : 2 ^ (Int.log 2 x + 1) ≤ y
        · refine le_trans (hmul (2 * k)) ?_
          rw [khi, abs_of_nonneg (by linarith), abs_of_nonneg (by linarith)]
          linarith
        · have hy0 : 0 < y := lt_of_lt_of_le (zpow_pos (by norm_num) _) (not_lt.mp h1)
          have hlog : Int.log 2 y = Int.log 2 x := by
            have g1 := log_lt hy0 (not_le.mp h2)
            have g2 : Int.log 2 x < Int.log 2 y + 1 :=
              (zpow_lt_zpow_iff_right₀ (by norm_num : (1 : ℚ) < 2)).mp
                (lt_of_le_of_lt (not_lt.mp h1) (lt_pow_log y))
            omega
          have huy : ulp 52 (-1074) y = ulp 52 (-1074) x := by unfold ulp; rw [hlog]
          have : y = rne (y / ulp 52 (-1074) y) * ulp 52 (-1074) x := by
            rw [← huy]
            exact hy.symm.trans (round_nonneg (le_of_lt hy0))
          rw [this]
          exact hmul _
    · have hux : ulp 52 (-1074) x = 2 ^ (-1074 : ℤ) := by unfold ulp; rw [hmax]
      obtain ⟨n, hn⟩ := hyr
      rw [hn, ← hux]
      exact hmul n
  rcases lt_trichotomy x 0 with h | rfl | h
  · have h1 := key (-x) (-y) (by linarith) (by rw [f64_err.neg, hy])
    rw [f64_err.neg] at h1
    have e1 : -f64.rnd x - -x = -(f64.rnd x - x) := by ring
    have e2 : -y - -x = -(y - x) := by ring
    rwa [e1, e2, abs_neg, abs_neg] at h1
  · rw [f64.zero, sub_zero, abs_zero]; exact abs_nonneg _
  · exact key x y h hy

/-- Ties are rounded to even, sums are rounded, the literal is rounded, and there are subnormal numbers: `2^53 + 1`
and `2^53 + 3` are in the middle of two numbers. -/
example : f64.rnd (2 ^ 53 + 1) = 2 ^ 53 ∧ f64.rnd (2 ^ 53 + 3) = 2 ^ 53 + 4 ∧
    f64.rnd (f64.rnd (1 / 10) + f64.rnd (1 / 5)) ≠ f64.rnd (3 / 10) ∧
    eps f64 = 4722366482869645 / 2 ^ 72 ∧ f64.rnd (1 / 2 ^ 1074) = 1 / 2 ^ 1074 ∧ f64.rnd (1 / 2 ^ 1075) = 0 := by
  decide +kernel

/-! ## C76: the answers -/

section
variable {r : Rounding} {u η : ℚ} {fuel n : Nat} {s s' : St (Rounded r)} {q : Query (Rounded r)}

/-- With rounding to nearest, no metric and no alpha being negative, weights are not negative. -/
theorem weights (ha : ∀ a ∈ q.alphas, 0 ≤ a) (hm : NonnegMetrics q.graph) :
    ∀ m ∈ q.graph.metrics, 0 ≤ dot r q.alphas m := fun m hmem => dot_nonneg ha (hm m hmem)

/-- A returned path is a route of at most `2n - 2` edges. -/
theorem C76_route {p : Path} (hwf : q.graph.WellFormed) (hm : NonnegMetrics q.graph)
    (hsrc : q.src < q.graph.nodeCount) (hdst : q.dst < q.graph.nodeCount) (hu : Used (heap r) (dot r) n s)
    (hc : computeBestPath (heap r) (dot r) fuel s q = some (.ok (s', some p))) :
    q.graph.IsRoute q.src p.edges q.dst ∧ p.edges.length ≤ 2 * q.graph.nodeCount - 2 := by
  have hw := weights (computed_valid hc).2 hm
  exact ⟨(C13_route hwf (addOk_rounded r) hw hsrc hdst hu hc).1,
    C61_rounded_partial hwf (addOk_rounded r) hw hsrc hdst hu hc⟩

/-- There is an answer with no path iff there is no route. -/
theorem C76_none_iff {ans : Option Path} (hwf : q.graph.WellFormed) (hm : NonnegMetrics q.graph)
    (hal : ∀ a ∈ q.alphas, 0 ≤ a) (halg : q.algo = .dijkstra)
    (hsrc : q.src < q.graph.nodeCount) (hdst : q.dst < q.graph.nodeCount) (hu : Used (heap r) (dot r) n s)
    (hc : computeBestPath (heap r) (dot r) fuel s q = some (.ok (s', ans))) :
    ans = none ↔ ¬ ∃ l, q.graph.IsRoute q.src l q.dst :=
  C15_none_iff hwf (addOk_rounded r) (weights hal hm) hal halg hsrc hdst hu hc

/-- Queries terminate. -/
theorem C76_terminates (hwf : q.graph.WellFormed) (hm : NonnegMetrics q.graph) (hal : ∀ a ∈ q.alphas, 0 ≤ a)
    (hsrc : q.src < q.graph.nodeCount) (hdst : q.dst < q.graph.nodeCount) :
    ∃ N, ∀ fuel, N ≤ fuel → ∀ (n : Nat) (s : St (Rounded r)), Used (heap r) (dot r) n s →
      computeBestPath (heap r) (dot r) fuel s q ≠ none :=
  C19_terminates hwf (addOk_rounded r) (weights hal hm) hsrc hdst

/-- Arcs of a larger setting. -/
theorem isRt_mono {K : Type} {o o' : Nat → List (Arc K)} (hsub : ∀ u t, t ∈ o u → t ∈ o' u) {u v : Nat}
    {ts : List (Arc K)} (h : IsRt o u ts v) : IsRt o' u ts v := by
  induction ts generalizing u with
  | nil => exact h
  | cons t ts ih => exact ⟨hsub _ _ h.1, ih h.2⟩

section
variable {c : Cfg (Rounded r)} {g : Graph} {al : List ℚ} {isCh : Bool} {tail : Dir → Nat → Nat} {deg : Nat}
  {a : A (Rounded r)} {m : Nat} {t x y : Rounded r} {tf tb : List (Arc (Rounded r))}

/-- Two routes to the best meeting node are not much worse than any other route. -/
theorem near_core {ts : List (Arc (Rounded r))} (he : Err r u η) (hu' : u ≤ 1 / 1000) (hη : η ≤ 1 / 1000000000000)
    (hwf : g.WellFormed) (hm : NonnegMetrics g) (hal : ∀ a ∈ al, 0 ≤ a) (hheap : c.h = heap r)
    (hsub : ∀ d u t, t ∈ c.out d u → t ∈ outArcs g (dot r al) isCh d u) (hch : c.isCh = false)
    (hdeg : ∀ d v, (c.out d v).length ≤ deg) (hmi : Mirror c) (ho : OutOk c tail)
    (h0 : loopA c fuel (initA c) none = some (a, some (m, some t))) (hxy : x + y ≤ t)
    (h1 : IsRt (c.out .fwd) c.src tf m) (h2 : IsRt (c.out .bwd) c.dst tb m)
    (h3 : costFrom 0 tf ≤ x) (h4 : costFrom 0 tb ≤ y) (hts : IsRt (c.out .fwd) c.src ts c.dst) :
    (1 - u) ^ (tf.length + tb.length + al.length + 3) *
        (routeCost g al (tf.map (·.1)) + routeCost g al (tb.map (·.1))) ≤
      (1 + u) ^ (ts.length + al.length + 3) *
        (routeCost g al (ts.map (·.1)) + ts.length * (al.length * η)) +
      (tf.length + tb.length : Nat) * (al.length * η) +
      2 * (1 + u) ^ 2 * ((2 + fuel * (deg + 2)) * (1 / 625000)) := by
  have hv := he.val
  have hu0 := he.nonneg
  have hu1 : 0 < 1 - u := by linarith
  have hη0 := he.small
  obtain ⟨b1, b2, b3⟩ := exact_bounds he hwf hm hal (isRt_mono (hsub .fwd) hts)
  obtain ⟨f1, f2, f3⟩ := exact_bounds he hwf hm hal (isRt_mono (hsub .fwd) h1)
  obtain ⟨g1, g2, g3⟩ := exact_bounds he hwf hm hal (isRt_mono (hsub .bwd) h2)
  have hM0 : 0 ≤ (1 + u) ^ ts.length * exact (fun x : Rounded r => x.1) ts :=
    mul_nonneg (pow_nonneg (by linarith) _) (exact_nonneg hv b1)
  obtain ⟨m', b, hb, hle⟩ := round_plain (c := c) (δ := 1 / 625000)
    hv (addOk_rounded r) (by norm_num) (by rw [hheap]; exact heap_near he hu' hη) hdeg hch
    hmi ho hM0 hts (fun l1 l2 h => split_bounds hv (addOk_rounded r) b1 h) h0 (by simp)
  cases hb
  have c1 := (costFrom_bounds hv (addOk_rounded r) f1 (x := 0) (le_refl _)).2
  have c2 := (costFrom_bounds hv (addOk_rounded r) g1 (x := 0) (le_refl _)).2
  rw [hv.zero, zero_add] at c1 c2
  have h3' : (costFrom 0 tf).1 ≤ x.1 := h3
  have h4' : (costFrom 0 tb).1 ≤ y.1 := h4
  have hx0 : 0 ≤ x := le_trans (by
    have := mul_nonneg (pow_nonneg (le_of_lt hu1) tf.length) (exact_nonneg hv f1)
    exact (hv.le _ _).mpr (by rw [hv.zero]; exact le_trans this c1)) h3
  have hy0 : 0 ≤ y := le_trans (by
    have := mul_nonneg (pow_nonneg (le_of_lt hu1) tb.length) (exact_nonneg hv g1)
    exact (hv.le _ _).mpr (by rw [hv.zero]; exact le_trans this c2)) h4
  have hlow := hv.low x y hx0 hy0
  have hxy' : (x + y).1 ≤ t.1 := hxy
  rw [div_mul_eq_mul_div, le_div_iff₀ hu1] at hle
  unfold popErr at hle
  push_cast at hle
  -- names for what is left
  set Cf := routeCost g al (tf.map (·.1))
  set Cb := routeCost g al (tb.map (·.1))
  set Cl := routeCost g al (ts.map (·.1))
  set Ef := exact (fun x : Rounded r => x.1) tf
  set Eb := exact (fun x : Rounded r => x.1) tb
  set El := exact (fun x : Rounded r => x.1) ts
  set d := al.length
  set E := (2 + (fuel : ℚ) * (deg + 2)) * (1 / 625000)
  have pf : (1 - u) ^ (tf.length + tb.length) ≤ (1 - u) ^ tf.length :=
    pow_le_pow_of_le_one (le_of_lt hu1) (by linarith) (by omega)
  have pb : (1 - u) ^ (tf.length + tb.length) ≤ (1 - u) ^ tb.length :=
    pow_le_pow_of_le_one (le_of_lt hu1) (by linarith) (by omega)
  have nf := exact_nonneg hv f1
  have nb := exact_nonneg hv g1
  have k1 : (1 - u) ^ (tf.length + tb.length) * (Ef + Eb) ≤ x.1 + y.1 := by
    have q1 := mul_le_mul_of_nonneg_right pf nf
    have q2 := mul_le_mul_of_nonneg_right pb nb
    rw [mul_add]
    linarith
  have k2 : (1 - u) ^ (tf.length + tb.length + 2) * (Ef + Eb) ≤ t.1 * (1 - u) := by
    have q1 : (1 - u) * ((1 - u) ^ (tf.length + tb.length) * (Ef + Eb)) ≤ (1 - u) * (x.1 + y.1) :=
      mul_le_mul_of_nonneg_left k1 (le_of_lt hu1)
    have q2 : (1 - u) * ((1 - u) ^ (tf.length + tb.length) * (Ef + Eb)) ≤ t.1 := by linarith
    have q3 := mul_le_mul_of_nonneg_right q2 (le_of_lt hu1)
    have e : (1 - u) ^ (tf.length + tb.length + 2) * (Ef + Eb) =
        (1 - u) * ((1 - u) ^ (tf.length + tb.length) * (Ef + Eb)) * (1 - u) := by ring
    linarith
  have k3 : (1 - u) ^ (tf.length + tb.length + d + 3) * (Cf + Cb) -
      (tf.length + tb.length) * (d * η) ≤ (1 - u) ^ (tf.length + tb.length + 2) * (Ef + Eb) := by
    have hp1 : (1 - u) ^ (tf.length + tb.length + 2) ≤ 1 := pow_le_one₀ (le_of_lt hu1) (by linarith)
    have q1 := mul_le_mul_of_nonneg_left (add_le_add f3 g3)
      (pow_nonneg (le_of_lt hu1) (tf.length + tb.length + 2))
    have hz : (0 : ℚ) ≤ (tf.length + tb.length) * (d * η) := by positivity
    have q2 : (1 - u) ^ (tf.length + tb.length + 2) * ((tf.length + tb.length) * (d * η)) ≤
        1 * ((tf.length + tb.length) * (d * η)) := mul_le_mul_of_nonneg_right hp1 hz
    have e : (1 - u) ^ (tf.length + tb.length + 2) * ((1 - u) ^ (d + 1) * Cf - tf.length * (d * η) +
        ((1 - u) ^ (d + 1) * Cb - tb.length * (d * η))) =
        (1 - u) ^ (tf.length + tb.length + d + 3) * (Cf + Cb) -
          (1 - u) ^ (tf.length + tb.length + 2) * ((tf.length + tb.length) * (d * η)) := by ring
    rw [e] at q1
    linarith
  have k4 : (1 + u) ^ 2 * ((1 + u) ^ ts.length * El) ≤
      (1 + u) ^ (ts.length + d + 3) * (Cl + ts.length * (d * η)) := by
    have q1 := mul_le_mul_of_nonneg_left b2 (pow_nonneg (by linarith : (0 : ℚ) ≤ 1 + u) (ts.length + 2))
    have e : (1 + u) ^ (ts.length + 2) * ((1 + u) ^ (d + 1) * (Cl + ts.length * (d * η))) =
        (1 + u) ^ (ts.length + d + 3) * (Cl + ts.length * (d * η)) := by ring
    have e' : (1 + u) ^ (ts.length + 2) * El = (1 + u) ^ 2 * ((1 + u) ^ ts.length * El) := by ring
    linarith
  push_cast
  rw [mul_add] at hle
  linarith

/-- The same for contraction hierarchies. -/
theorem near_core_up_down {w : Nat} {t1 t2 : List (Arc (Rounded r))} (he : Err r u η) (hu' : u ≤ 1 / 1000)
    (hη : η ≤ 1 / 1000000000000)
    (hwf : g.WellFormed) (hm : NonnegMetrics g) (hal : ∀ a ∈ al, 0 ≤ a) (hheap : c.h = heap r)
    (hsub : ∀ d u t, t ∈ c.out d u → t ∈ outArcs g (dot r al) isCh d u) (hch : c.isCh = true)
    (hdeg : ∀ d v, (c.out d v).length ≤ deg) (ho : OutOk c tail)
    (h0 : loopA c fuel (initA c) none = some (a, some (m, some t))) (hxy : x + y ≤ t)
    (h1 : IsRt (c.out .fwd) c.src tf m) (h2 : IsRt (c.out .bwd) c.dst tb m)
    (h3 : costFrom 0 tf ≤ x) (h4 : costFrom 0 tb ≤ y)
    (ht1 : IsRt (c.out .fwd) c.src t1 w) (ht2 : IsRt (c.out .bwd) c.dst t2 w) :
    (1 - u) ^ (tf.length + tb.length + al.length + 2) *
        (routeCost g al (tf.map (·.1)) + routeCost g al (tb.map (·.1))) ≤
      (1 + u) ^ (t1.length + t2.length + al.length + 2) *
        (routeCost g al (t1.map (·.1)) + routeCost g al (t2.map (·.1)) +
          (t1.length + t2.length : Nat) * (al.length * η)) +
      (tf.length + tb.length : Nat) * (al.length * η) + (2 + fuel * (deg + 2)) * (1 / 625000) := by
  have hv := he.val
  have hu0 := he.nonneg
  have hu1 : 0 < 1 - u := by linarith
  have hη0 := he.small
  obtain ⟨a1, a2, a3⟩ := exact_bounds he hwf hm hal (isRt_mono (hsub .fwd) ht1)
  obtain ⟨b1, b2, b3⟩ := exact_bounds he hwf hm hal (isRt_mono (hsub .bwd) ht2)
  obtain ⟨f1, f2, f3⟩ := exact_bounds he hwf hm hal (isRt_mono (hsub .fwd) h1)
  obtain ⟨g1, g2, g3⟩ := exact_bounds he hwf hm hal (isRt_mono (hsub .bwd) h2)
  obtain ⟨m', b, hb, hle⟩ := round_ch_all (c := c) (δ := 1 / 625000)
    hv (addOk_rounded r) (by norm_num) (by rw [hheap]; exact heap_near he hu' hη) hdeg hch
    ho h0 ht1 ht2
  cases hb
  have c1 := (costFrom_bounds hv (addOk_rounded r) f1 (x := 0) (le_refl _)).2
  have c2 := (costFrom_bounds hv (addOk_rounded r) g1 (x := 0) (le_refl _)).2
  have d1 := (costFrom_bounds hv (addOk_rounded r) a1 (x := 0) (le_refl _)).1
  have d2 := (costFrom_bounds hv (addOk_rounded r) b1 (x := 0) (le_refl _)).1
  rw [hv.zero, zero_add] at c1 c2 d1 d2
  have h3' : (costFrom 0 tf).1 ≤ x.1 := h3
  have h4' : (costFrom 0 tb).1 ≤ y.1 := h4
  have hx0 : 0 ≤ x := le_trans (by
    have := mul_nonneg (pow_nonneg (le_of_lt hu1) tf.length) (exact_nonneg hv f1)
    exact (hv.le _ _).mpr (by rw [hv.zero]; exact le_trans this c1)) h3
  have hy0 : 0 ≤ y := le_trans (by
    have := mul_nonneg (pow_nonneg (le_of_lt hu1) tb.length) (exact_nonneg hv g1)
    exact (hv.le _ _).mpr (by rw [hv.zero]; exact le_trans this c2)) h4
  have hlow := hv.low x y hx0 hy0
  have hxy' : (x + y).1 ≤ t.1 := hxy
  unfold popErr at hle
  push_cast at hle
  set Cf := routeCost g al (tf.map (·.1))
  set Cb := routeCost g al (tb.map (·.1))
  set C1 := routeCost g al (t1.map (·.1))
  set C2 := routeCost g al (t2.map (·.1))
  set Ef := exact (fun x : Rounded r => x.1) tf
  set Eb := exact (fun x : Rounded r => x.1) tb
  set E1 := exact (fun x : Rounded r => x.1) t1
  set E2 := exact (fun x : Rounded r => x.1) t2
  set d := al.length
  set E := (2 + (fuel : ℚ) * (deg + 2)) * (1 / 625000)
  have pf : (1 - u) ^ (tf.length + tb.length) ≤ (1 - u) ^ tf.length :=
    pow_le_pow_of_le_one (le_of_lt hu1) (by linarith) (by omega)
  have pb : (1 - u) ^ (tf.length + tb.length) ≤ (1 - u) ^ tb.length :=
    pow_le_pow_of_le_one (le_of_lt hu1) (by linarith) (by omega)
  have p1 : (1 + u) ^ t1.length ≤ (1 + u) ^ (t1.length + t2.length) :=
    pow_le_pow_right₀ (by linarith) (by omega)
  have p2 : (1 + u) ^ t2.length ≤ (1 + u) ^ (t1.length + t2.length) :=
    pow_le_pow_right₀ (by linarith) (by omega)
  have nf := exact_nonneg hv f1
  have nb := exact_nonneg hv g1
  have n1 := exact_nonneg hv a1
  have n2 := exact_nonneg hv b1
  have k1 : (1 - u) ^ (tf.length + tb.length) * (Ef + Eb) ≤ x.1 + y.1 := by
    have q1 := mul_le_mul_of_nonneg_right pf nf
    have q2 := mul_le_mul_of_nonneg_right pb nb
    rw [mul_add]
    linarith
  have k2 : (1 - u) ^ (tf.length + tb.length + 1) * (Ef + Eb) ≤ t.1 := by
    have q1 : (1 - u) * ((1 - u) ^ (tf.length + tb.length) * (Ef + Eb)) ≤ (1 - u) * (x.1 + y.1) :=
      mul_le_mul_of_nonneg_left k1 (le_of_lt hu1)
    have e : (1 - u) ^ (tf.length + tb.length + 1) * (Ef + Eb) =
        (1 - u) * ((1 - u) ^ (tf.length + tb.length) * (Ef + Eb)) := by ring
    linarith
  have k3 : (1 - u) ^ (tf.length + tb.length + d + 2) * (Cf + Cb) -
      (tf.length + tb.length) * (d * η) ≤ (1 - u) ^ (tf.length + tb.length + 1) * (Ef + Eb) := by
    have hp1 : (1 - u) ^ (tf.length + tb.length + 1) ≤ 1 := pow_le_one₀ (le_of_lt hu1) (by linarith)
    have q1 := mul_le_mul_of_nonneg_left (add_le_add f3 g3)
      (pow_nonneg (le_of_lt hu1) (tf.length + tb.length + 1))
    have hz : (0 : ℚ) ≤ (tf.length + tb.length) * (d * η) := by positivity
    have q2 : (1 - u) ^ (tf.length + tb.length + 1) * ((tf.length + tb.length) * (d * η)) ≤
        1 * ((tf.length + tb.length) * (d * η)) := mul_le_mul_of_nonneg_right hp1 hz
    have e : (1 - u) ^ (tf.length + tb.length + 1) * ((1 - u) ^ (d + 1) * Cf - tf.length * (d * η) +
        ((1 - u) ^ (d + 1) * Cb - tb.length * (d * η))) =
        (1 - u) ^ (tf.length + tb.length + d + 2) * (Cf + Cb) -
          (1 - u) ^ (tf.length + tb.length + 1) * ((tf.length + tb.length) * (d * η)) := by ring
    rw [e] at q1
    linarith
  have k4 : (1 + u) * ((costFrom 0 t1).1 + (costFrom 0 t2).1) ≤
      (1 + u) ^ (t1.length + t2.length + d + 2) * (C1 + C2 + (t1.length + t2.length) * (d * η)) := by
    have q1 := mul_le_mul_of_nonneg_right p1 n1
    have q2 := mul_le_mul_of_nonneg_right p2 n2
    have q3 : (costFrom 0 t1).1 + (costFrom 0 t2).1 ≤ (1 + u) ^ (t1.length + t2.length) * (E1 + E2) := by
      rw [mul_add]; linarith
    have q4 := mul_le_mul_of_nonneg_left q3 (by linarith : (0 : ℚ) ≤ 1 + u)
    have q5 := mul_le_mul_of_nonneg_left (add_le_add a2 b2)
      (pow_nonneg (by linarith : (0 : ℚ) ≤ 1 + u) (t1.length + t2.length + 1))
    have e1 : (1 + u) * ((1 + u) ^ (t1.length + t2.length) * (E1 + E2)) =
      (1 + u) ^ (t1.length + t2.length + 1) * (E1 + E2) := by ring
    have e2 : (1 + u) ^ (t1.length + t2.length + 1) * ((1 + u) ^ (d + 1) * (C1 + t1.length * (d * η)) +
        (1 + u) ^ (d + 1) * (C2 + t2.length * (d * η))) =
      (1 + u) ^ (t1.length + t2.length + d + 2) * (C1 + C2 + (t1.length + t2.length) * (d * η)) := by ring
    linarith
  push_cast
  linarith

end

/-- Rounding costs at most a factor `1 ± u` per edge and per metric, and comparing approximately costs at most
`2 (2 + k (deg + 2)) 1.6e-6`, where `k` is the number of iterations. `η` is the error of products that are
subnormal. -/
theorem C76_near {p : Path} {deg : Nat} (he : Err r u η) (hu' : u ≤ 1 / 1000) (hη : η ≤ 1 / 1000000000000)
    (hwf : q.graph.WellFormed) (hm : NonnegMetrics q.graph) (halg : q.algo = .dijkstra)
    (hdeg : MaxDegree q.graph deg)
    (hsrc : q.src < q.graph.nodeCount) (hdst : q.dst < q.graph.nodeCount) (hu : Used (heap r) (dot r) n s)
    (hc : computeBestPath (heap r) (dot r) fuel s q = some (.ok (s', some p))) :
    ∀ l, q.graph.IsRoute q.src l q.dst →
      (1 - u) ^ (p.edges.length + q.alphas.length + 3) * routeCost q.graph q.alphas p.edges ≤
      (1 + u) ^ (l.length + q.alphas.length + 3) *
        (routeCost q.graph q.alphas l + l.length * (q.alphas.length * η)) +
      p.edges.length * (q.alphas.length * η) +
      2 * (1 + u) ^ 2 * ((2 + fuel * (deg + 2)) * (1 / 625000)) := by
  intro l hl
  have hal := (computed_valid hc).2
  have hw := weights (r := r) hal hm
  obtain ⟨a, m, t, x, y, tf, tb, i, j, h0, hx, hy, hxy, h1, h2, h3, h4, _, _, rfl⟩ :=
    answered_path hwf (addOk_rounded r) hw hsrc hdst hu hc rfl
  have hdec : decide (q.algo = Algo.chDijkstra) = false := by rw [halg]; rfl
  rw [hdec] at h0 h1 h2
  obtain ⟨ts, rfl, hts⟩ := route_fwd hwf (dot r q.alphas) hl
  have h5 := near_core (c := cfg (heap r) q.graph (dot r q.alphas) false q.src q.dst) he hu' hη hwf hm hal rfl
    (fun _ _ _ ht => ht) rfl (outArcs_length hwf hdeg) (mirror hwf) (outOk hwf hw) h0 hxy h1 h2 h3 h4 hts
  simp only [Path.new, List.length_append, List.length_map, List.length_reverse]
  rw [routeCost_append, routeCost_reverse]
  exact h5

/-- The same for ch-dijkstra and routes that go up and then down. -/
theorem C76_near_up_down {p : Path} {deg : Nat} (he : Err r u η) (hu' : u ≤ 1 / 1000)
    (hη : η ≤ 1 / 1000000000000)
    (hwf : q.graph.WellFormed) (hm : NonnegMetrics q.graph) (halg : q.algo = .chDijkstra)
    (hdeg : MaxDegree q.graph deg)
    (hsrc : q.src < q.graph.nodeCount) (hdst : q.dst < q.graph.nodeCount) (hu : Used (heap r) (dot r) n s)
    (hc : computeBestPath (heap r) (dot r) fuel s q = some (.ok (s', some p))) :
    ∀ l, IsUpDown q.graph q.src l q.dst →
      (1 - u) ^ (p.edges.length + q.alphas.length + 2) * routeCost q.graph q.alphas p.edges ≤
      (1 + u) ^ (l.length + q.alphas.length + 2) *
        (routeCost q.graph q.alphas l + l.length * (q.alphas.length * η)) +
      p.edges.length * (q.alphas.length * η) + (2 + fuel * (deg + 2)) * (1 / 625000) := by
  rintro l ⟨w, l1, l2, rfl, hl1, hl2⟩
  have hal := (computed_valid hc).2
  have hw := weights (r := r) hal hm
  obtain ⟨a, m, t, x, y, tf, tb, i, j, h0, hx, hy, hxy, h1, h2, h3, h4, _, _, rfl⟩ :=
    answered_path hwf (addOk_rounded r) hw hsrc hdst hu hc rfl
  have hdec : decide (q.algo = Algo.chDijkstra) = true := by rw [halg]; rfl
  rw [hdec] at h0 h1 h2
  obtain ⟨t1, rfl, ht1⟩ := up_fwd hwf (dot r q.alphas) hl1
  obtain ⟨t2, e2, ht2⟩ := down_bwd hwf (dot r q.alphas) hl2
  have h5 := near_core_up_down (c := cfg (heap r) q.graph (dot r q.alphas) true q.src q.dst) he hu' hη hwf hm hal rfl
    (fun _ _ _ ht => ht) rfl (outArcs_length hwf hdeg) (outOk hwf hw) h0 hxy h1 h2 h3 h4 ht1 ht2
  have hl2len : l2.length = t2.length := by
    have := congrArg List.length e2
    rw [List.length_map, List.length_reverse] at this
    omega
  have hl2cost : routeCost q.graph q.alphas l2 = routeCost q.graph q.alphas (t2.map (·.1)) := by
    rw [e2, routeCost_reverse]
  simp only [Path.new, List.length_append, List.length_map, List.length_reverse]
  rw [routeCost_append, routeCost_reverse, routeCost_append, hl2cost, hl2len]
  exact h5

end

/-- Powers that are close to one. -/
theorem powers {N : Nat} (hN : N ≤ 2 ^ 30) : 1 - 1 / 2 ^ 23 ≤ (1 - 1 / 2 ^ 53 : ℚ) ^ N ∧
    (1 + 1 / 2 ^ 53 : ℚ) ^ N * (1 - 1 / 2 ^ 23) ≤ 1 := by
  have hN' : (N : ℚ) ≤ 2 ^ 30 := by exact_mod_cast hN
  have h1 : 1 - 1 / 2 ^ 23 ≤ (1 - 1 / 2 ^ 53 : ℚ) ^ N := by
    have := one_add_mul_le_pow (a := (-1 / 2 ^ 53 : ℚ)) (by norm_num) N
    have e : (1 - 1 / 2 ^ 53 : ℚ) = 1 + -1 / 2 ^ 53 := by ring
    rw [e]
    refine le_trans ?_ this
    have : (N : ℚ) * (1 / 2 ^ 53) ≤ 2 ^ 30 * (1 / 2 ^ 53) := mul_le_mul_of_nonneg_right hN' (by norm_num)
    have e2 : (2 : ℚ) ^ 30 * (1 / 2 ^ 53) = 1 / 2 ^ 23 := by norm_num
    have e3 : (N : ℚ) * (-1 / 2 ^ 53) = -(N * (1 / 2 ^ 53)) := by ring
    rw [e3]
    linarith
  refine ⟨h1, ?_⟩
  have h2 : (0 : ℚ) ≤ (1 + 1 / 2 ^ 53) ^ N := by positivity
  calc (1 + 1 / 2 ^ 53 : ℚ) ^ N * (1 - 1 / 2 ^ 23) ≤ (1 + 1 / 2 ^ 53) ^ N * (1 - 1 / 2 ^ 53) ^ N :=
        mul_le_mul_of_nonneg_left h1 h2
    _ = ((1 + 1 / 2 ^ 53) * (1 - 1 / 2 ^ 53)) ^ N := (mul_pow _ _ _).symm
    _ ≤ 1 := pow_le_one₀ (by norm_num) (by norm_num)

/-- From the powers to a millionth. -/
theorem millionth {A B cp cl t1 t2 e c : ℚ} (hA : 1 - 1 / 2 ^ 23 ≤ A) (hB : B * (1 - 1 / 2 ^ 23) ≤ 1)
    (hcp : 0 ≤ cp) (hcl : 0 ≤ cl) (ht1 : 0 ≤ t1) (ht1' : t1 ≤ 1 / 2 ^ 60) (ht2 : t2 ≤ 1 / 2 ^ 60)
    (he : 1 / 500000 ≤ e) (hc : e ≤ c * (99 / 100))
    (h : A * cp ≤ B * (cl + t1) + t2 + e) : cp ≤ (1 + 1 / 1000000) * cl + c := by
  have h1 := mul_le_mul_of_nonneg_right hA hcp
  have h2 : (1 - 1 / 2 ^ 23) * cp * (1 - 1 / 2 ^ 23) ≤ (B * (cl + t1) + t2 + e) * (1 - 1 / 2 ^ 23) :=
    mul_le_mul_of_nonneg_right (by linarith) (by norm_num)
  have h3 : B * (1 - 1 / 2 ^ 23) * (cl + t1) ≤ 1 * (cl + t1) := mul_le_mul_of_nonneg_right hB (by linarith)
  have e1 : (B * (cl + t1) + t2 + e) * (1 - 1 / 2 ^ 23) =
      B * (1 - 1 / 2 ^ 23) * (cl + t1) + (t2 + e) * (1 - 1 / 2 ^ 23) := by ring
  rw [e1] at h2
  norm_num at *
  linarith

section
variable {fuel n : Nat} {s s' : St (Rounded f64)} {q : Query (Rounded f64)}

theorem tiny {a b : Nat} (ha : a ≤ 2 ^ 30) (hb : b ≤ 2 ^ 30) : (a : ℚ) * (b * (1 / 2 ^ 1075)) ≤ 1 / 2 ^ 60 := by
  have ha' : (a : ℚ) ≤ 2 ^ 30 := by exact_mod_cast ha
  have hb' : (b : ℚ) ≤ 2 ^ 30 := by exact_mod_cast hb
  have h1 : (b : ℚ) * (1 / 2 ^ 1075) ≤ 2 ^ 30 * (1 / 2 ^ 1075) := mul_le_mul_of_nonneg_right hb' (by positivity)
  calc (a : ℚ) * (b * (1 / 2 ^ 1075)) ≤ 2 ^ 30 * (2 ^ 30 * (1 / 2 ^ 1075)) :=
        mul_le_mul ha' h1 (by positivity) (by positivity)
    _ ≤ 1 / 2 ^ 60 := by decide +kernel

/-- In `f64`, on a graph of up to `2^28` nodes, the returned path costs at most a millionth and
`(2 + k (deg + 2)) 4e-6` more than any route, where `k` is the number of iterations the search is given. The full
statement would be that it is a cheapest route, which is false, see `C76_false_optimal`. -/
theorem C76_f64_partial {p : Path} {deg : Nat} (hwf : q.graph.WellFormed) (hm : NonnegMetrics q.graph)
    (halg : q.algo = .dijkstra) (hdeg : MaxDegree q.graph deg) (hn : q.graph.nodeCount ≤ 2 ^ 28)
    (hd : q.alphas.length ≤ 2 ^ 28)
    (hsrc : q.src < q.graph.nodeCount) (hdst : q.dst < q.graph.nodeCount) (hu : Used (heap f64) (dot f64) n s)
    (hc : computeBestPath (heap f64) (dot f64) fuel s q = some (.ok (s', some p))) :
    ∀ l, q.graph.IsRoute q.src l q.dst → routeCost q.graph q.alphas p.edges ≤
      (1 + 1 / 1000000) * routeCost q.graph q.alphas l + (2 + fuel * (deg + 2)) * (1 / 250000) := by
  intro l hl
  have hal := (computed_valid hc).2
  obtain ⟨l', h1, h2, h3⟩ := route_short hwf hm hal hsrc hl
  have hlen := (C76_route hwf hm hsrc hdst hu hc).2
  have h4 := C76_near f64_err (by norm_num) (by decide +kernel) hwf hm halg hdeg hsrc hdst hu hc l' h1
  have hE : (2 : ℚ) ≤ 2 + fuel * (deg + 2) := by
    have : (0 : ℚ) ≤ fuel * (deg + 2) := by positivity
    linarith
  have h5 := millionth (c := (2 + fuel * (deg + 2)) * (1 / 250000))
    (powers (N := p.edges.length + q.alphas.length + 3) (by omega)).1
    (powers (N := l'.length + q.alphas.length + 3) (by omega)).2
    (routeCost_nonneg' hm hal _) (routeCost_nonneg' hm hal _) (by positivity) (tiny (by omega) (by omega))
    (tiny (by omega) (by omega)) (by norm_num; linarith) (by norm_num; linarith) h4
  linarith

/-- If every route that is not cheapest is more expensive than a cheapest one by more than that, a cheapest route is
returned, in spite of all roundings. -/
theorem C76_f64_separated_partial {p : Path} {deg : Nat} (hwf : q.graph.WellFormed) (hm : NonnegMetrics q.graph)
    (halg : q.algo = .dijkstra) (hdeg : MaxDegree q.graph deg) (hn : q.graph.nodeCount ≤ 2 ^ 28)
    (hd : q.alphas.length ≤ 2 ^ 28)
    (hsrc : q.src < q.graph.nodeCount) (hdst : q.dst < q.graph.nodeCount) (hu : Used (heap f64) (dot f64) n s)
    (hsep : ∀ l l', q.graph.IsRoute q.src l q.dst → q.graph.IsRoute q.src l' q.dst →
      routeCost q.graph q.alphas l < routeCost q.graph q.alphas l' →
      (1 + 1 / 1000000) * routeCost q.graph q.alphas l + (2 + fuel * (deg + 2)) * (1 / 250000) <
        routeCost q.graph q.alphas l')
    (hc : computeBestPath (heap f64) (dot f64) fuel s q = some (.ok (s', some p))) :
    ∀ l, q.graph.IsRoute q.src l q.dst →
      routeCost q.graph q.alphas p.edges ≤ routeCost q.graph q.alphas l := by
  intro l hl
  by_contra hcon
  have hp := (C76_route hwf hm hsrc hdst hu hc).1
  have h1 := hsep l p.edges hl hp (not_le.mp hcon)
  have h2 := C76_f64_partial hwf hm halg hdeg hn hd hsrc hdst hu hc l hl
  linarith

/-- In `f64`, ch-dijkstra's path costs at most a millionth and `(2 + k (deg + 2)) 2e-6` more than any route that goes
up and then down. -/
theorem C76_f64_up_down_partial {p : Path} {deg : Nat} (hwf : q.graph.WellFormed) (hm : NonnegMetrics q.graph)
    (halg : q.algo = .chDijkstra) (hdeg : MaxDegree q.graph deg) (hn : q.graph.nodeCount ≤ 2 ^ 28)
    (hd : q.alphas.length ≤ 2 ^ 28)
    (hsrc : q.src < q.graph.nodeCount) (hdst : q.dst < q.graph.nodeCount) (hu : Used (heap f64) (dot f64) n s)
    (hc : computeBestPath (heap f64) (dot f64) fuel s q = some (.ok (s', some p))) :
    ∀ l, IsUpDown q.graph q.src l q.dst → routeCost q.graph q.alphas p.edges ≤
      (1 + 1 / 1000000) * routeCost q.graph q.alphas l + (2 + fuel * (deg + 2)) * (1 / 500000) := by
  intro l hl
  have hal := (computed_valid hc).2
  obtain ⟨l', h1, h2, h3⟩ := upDown_short hwf hm hal hsrc hl
  have hlen := (C76_route hwf hm hsrc hdst hu hc).2
  have h4 := C76_near_up_down f64_err (by norm_num) (by decide +kernel) hwf hm halg hdeg hsrc hdst hu hc l' h1
  have hE : (2 : ℚ) ≤ 2 + fuel * (deg + 2) := by
    have : (0 : ℚ) ≤ fuel * (deg + 2) := by positivity
    linarith
  have h5 := millionth (c := (2 + fuel * (deg + 2)) * (1 / 500000))
    (powers (N := p.edges.length + q.alphas.length + 2) (by omega)).1
    (powers (N := l'.length + q.alphas.length + 2) (by omega)).2
    (routeCost_nonneg' hm hal _) (routeCost_nonneg' hm hal _) (by positivity) (tiny (by omega) (by omega))
    (tiny (by omega) (by omega)) (by linarith) (by linarith) h4
  linarith

end

/-- The sample of near ties in `f64`: the code's queue returns a path that costs a millionth more than another
route. -/
theorem C76_false_optimal :
    answer (computeBestPath (heap f64) (dot f64) 40 St.new
        { src := 3, dst := 4, graph := nearGraph, algo := .dijkstra, alphas := [1] }) =
      some (.ok (some (Path.new 3 3 4 4 [4, 2]))) ∧
    nearGraph.IsEdge 5 3 4 ∧ routeCost nearGraph [1] [5] < routeCost nearGraph [1] [4, 2] := by
  refine ⟨?_, ⟨?_, ?_⟩, ?_⟩ <;> decide +kernel

/-- The other samples meet the conditions, and answers are found. With the alpha `1/10`, the cheapest costs are
`4/10` and the next ones `5/10`. -/
example : sqGraph.WellFormed ∧ NonnegMetrics sqGraph ∧ MaxDegree sqGraph 5 ∧ sqGraph.nodeCount ≤ 2 ^ 28 ∧
    answer (computeBestPath (heap f64) (dot f64) 12 St.new
      { src := 0, dst := 3, graph := sqGraph, algo := .dijkstra, alphas := [1 / 10] }) =
      some (.ok (some (Path.new 0 0 3 3 [0, 3]))) ∧
    (dot f64 [1 / 10, 1 / 5] [1, 1]).1 ≠ 3 / 10 ∧
    (1 + 1 / 1000000 : ℚ) * (4 / 10) + (2 + (12 : Nat) * ((5 : Nat) + 2)) * (1 / 250000) < 5 / 10 ∧
    chGraph.WellFormed ∧ NonnegMetrics chGraph ∧ MaxDegree chGraph 6 ∧
    answer (computeBestPath (heap f64) (dot f64) 20 St.new
      { src := 1, dst := 3, graph := chGraph, algo := .chDijkstra, alphas := [1 / 10] }) ≠ some (.ok none) := by
  have h1 := maxDegree_edges (Build.built_wellFormed sq_build)
  have h2 := maxDegree_edges (Build.built_wellFormed ch_build)
  rw [show sqGraph.edgeCount = 5 by decide +kernel] at h1
  rw [show chGraph.edgeCount = 6 by decide +kernel] at h2
  exact ⟨Build.built_wellFormed sq_build, sq_nonneg, h1, by decide +kernel, by decide +kernel, by decide +kernel,
    by norm_num, Build.built_wellFormed ch_build, ch_nonneg, h2, by decide +kernel⟩

end Verif.Fp
