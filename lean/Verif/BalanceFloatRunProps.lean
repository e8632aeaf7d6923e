import Verif.BalanceFloatRunLemmas

/-!
# Property C115: several updates of the balanced metric with numbers of type `f64`
-/

namespace Verif.BalF

open Gen Fp
open Bal (average relative targets target meanAt OnlyMetric)

section
variable {cfg : Bal.Config} {i : Nat} {ws : List (List Nat)} {s s' : Net} {k : Nat} {d : Bal.Done}

theorem updates_cons {w : List Nat} (h : updates cfg i (w :: ws) s = some (.ok d, s')) :
    ∃ t, update i w s cfg = some (.ok .finished, t) ∧ updates cfg (i + 1) ws t = some (.ok d, s') := by
  unfold updates at h
  split at h
  · rename_i t hu
    exact ⟨t, hu, h⟩
  · rename_i r hr
    cases d with
    | finished => exact absurd h (hr s')
    | nanMean =>
      obtain ⟨k', h1, h2, h3, h4, h5, h6, h7, h8, h9, h10, h11⟩ := update_ok h
      exact absurd h11 (by simp)

theorem mean_two {n : ℚ} {m : ℚ} (hn : n ≤ 2 ^ 40) (h : |m - 1| ≤ (n + 8) / 2 ^ 52) : m ≤ 2 := by
  have := (rel_step h).2
  linarith

/-- C115: after any number of updates, nothing but the balanced metric (and its mean) is changed, no value is negative,
and the mean is one up to rounding. This error doesn't grow with the number of updates. -/
theorem C115_run (h : updates cfg i ws s = some (.ok d, s')) (hn : s.edges.ids.Nodup)
    (hk : s.edges.ids[k]? = some cfg.metricId) (hr : SaneRun cfg i ws s k) :
    OnlyMetric k s.graph.metrics.length s s' ∧ (∀ e x, value s'.graph.metrics e k = some x → 0 ≤ x ∧ IsNum x) ∧
      (ws ≠ [] → |mean s'.graph.metrics k - 1| ≤ (s.graph.metrics.length + 8) / 2 ^ 52) := by
  induction ws generalizing i s with
  | nil =>
    simp only [updates, Option.some.injEq, Prod.mk.injEq] at h
    rw [← h.2]
    exact ⟨OnlyMetric.refl _ _ _, hr.olds, fun h => absurd rfl h⟩
  | cons w ws ih =>
    obtain ⟨t, hu, h⟩ := updates_cons h
    have hlen := hr.lengths w List.mem_cons_self
    have hon := C113_untouched hu hn hk
    obtain ⟨i1, i2, i3⟩ := ih h (by rw [hon.edges]; exact hn) (by rw [hon.edges]; exact hk) (hr.tail hu hn hk)
    rw [hlen] at hon
    rw [hon.count] at i1 i3
    refine ⟨OnlyMetric.trans hon i1, i2, fun _ => ?_⟩
    by_cases hws : ws = []
    · subst hws
      simp only [updates, Option.some.injEq, Prod.mk.injEq] at h
      rw [← h.2]
      have := C113_mean_one hu hn hk hr.head hlen
      rwa [hlen] at this
    · exact i3 hws

/-- C115: with numbers of a moderate size at the beginning, no number ever overflows and no update panics. So all updates
succeed, or one of them returns an error (see `C113_errors`). -/
theorem C115_total (hn : s.edges.ids.Nodup) (hk : s.edges.ids[k]? = some cfg.metricId) (hr : SaneRun cfg i ws s k)
    (hm : Moderate cfg s k) (hc : Consistent s)
    (hmeans : ∀ means, s.graph.means = some means → means.length = s.edges.units.length)
    (hne : s.graph.metrics ≠ []) :
    (∃ s', updates cfg i ws s = some (.ok .finished, s')) ∨ ∃ e s', updates cfg i ws s = some (.err e, s') := by
  induction ws generalizing i s with
  | nil => exact Or.inl ⟨s, rfl⟩
  | cons w ws ih =>
    have hlen := hr.lengths w List.mem_cons_self
    have hwne : w ≠ [] := by
      rintro rfl
      exact hne (List.length_eq_zero_iff.mp hlen.symm)
    unfold updates
    rcases C113_total hn hk hr.head hm hc hmeans hlen hwne with ⟨t, hu⟩ | ⟨e, hu⟩
    · rw [hu]
      dsimp only
      have hon := C113_untouched hu hn hk
      have hm1 := C113_mean_one hu hn hk hr.head hlen
      have hnum := update_numbers hu hn hk hr.head hlen
      refine ih (by rw [hon.edges]; exact hn) (by rw [hon.edges]; exact hk) (hr.tail hu hn hk)
        ⟨hm.minimum, fun e x hx => ?_⟩ (OnlyMetric.consistent hon hc) (fun means hms => ?_) ?_
      · have hcount : (w.length : ℚ) ≤ 2 ^ 40 := by rw [hlen]; exact_mod_cast hr.count
        have h1 := le_of_mean (fun e x hx => (hnum e x hx).1) (mean_two hcount hm1) hx
        rw [hon.count, ← hlen] at h1
        have h2 : (2 : ℚ) ^ 41 ≤ 2 ^ 900 := pow_le_pow_right₀ (by norm_num) (by norm_num)
        refine le_trans (le_trans h1 ?_) h2
        linarith
      · have := hon.hasMeans
        rw [hms] at this
        cases hold : s.graph.means with
        | none => rw [hold] at this; simp at this
        | some ms =>
          rw [hold] at this
          simp only [Option.map_some, Option.some.injEq] at this
          rw [this, hmeans ms hold, hon.edges]
      · intro h0
        have := hon.count
        rw [h0] at this
        exact hne (List.length_eq_zero_iff.mp this.symm)
    · rw [hu]
      exact Or.inr ⟨e, s, rfl⟩

/-- C115: without a minimum, the metric after several updates is that of exact arithmetic without normalizing, up to an
error that grows with the numbers of updates and edges. It is relative to the edge's largest value and workload. -/
theorem C115_values (h : updates cfg i ws s = some (.ok d, s')) (hn : s.edges.ids.Nodup)
    (hk : s.edges.ids[k]? = some cfg.metricId) (hr : SaneRun cfg i ws s k) (hmin : cfg.minNewMetric = none)
    (hm2 : mean s.graph.metrics k ≤ 2)
    (hm1 : (1 - weight cfg.method i) * |mean s.graph.metrics k - 1| ≤ (s.graph.metrics.length + 8) / 2 ^ 52)
    (hsmall : ws.length * (s.graph.metrics.length + 36) ≤ 2 ^ 47)
    {e : Nat} {old R : ℚ} (ho : value s.graph.metrics e k = some old) (hR : 1 ≤ R) (hoR : old ≤ R)
    (hrel : ∀ w ∈ ws, relative w e ≤ R) :
    ∃ y, value s'.graph.metrics e k = some y ∧
      |y - ideal cfg.method i old (ws.map fun w => relative w e)| ≤
        ws.length * (s.graph.metrics.length + 36) / 2 ^ 47 * R := by
  have key : ∀ (ws : List (List Nat)) (i j : Nat) (s : Net) (x old : ℚ), updates cfg i ws s = some (.ok d, s') →
      s.edges.ids.Nodup → s.edges.ids[k]? = some cfg.metricId → SaneRun cfg i ws s k → mean s.graph.metrics k ≤ 2 →
      (1 - weight cfg.method i) * |mean s.graph.metrics k - 1| ≤ (s.graph.metrics.length + 8) / 2 ^ 52 →
      (j + ws.length) * (s.graph.metrics.length + 36) ≤ 2 ^ 47 → value s.graph.metrics e k = some old →
      x ≤ R → |old - x| ≤ j * ((s.graph.metrics.length + 36) / 2 ^ 47 * R) → (∀ w ∈ ws, relative w e ≤ R) →
      ∃ y, value s'.graph.metrics e k = some y ∧ |y - ideal cfg.method i x (ws.map fun w => relative w e)| ≤
        (j + ws.length) * ((s.graph.metrics.length + 36) / 2 ^ 47 * R) := by
    intro ws
    induction ws with
    | nil =>
      intro i j s x old h hn hk hr hm2 hm1 hsmall ho hx hd hrel
      simp only [updates, Option.some.injEq, Prod.mk.injEq] at h
      rw [← h.2]
      refine ⟨old, ho, ?_⟩
      simpa [ideal] using hd
    | cons w ws ih =>
      intro i j s x old h hn hk hr hm2 hm1 hsmall ho hx hd hrel
      obtain ⟨t, hu, h⟩ := updates_cons h
      have hlen := hr.lengths w List.mem_cons_self
      have hon := C113_untouched hu hn hk
      have hc : (s.graph.metrics.length : ℚ) ≤ 2 ^ 40 := by exact_mod_cast hr.count
      have hrw := hrel w List.mem_cons_self
      have hjc : (j : ℚ) * ((s.graph.metrics.length + 36) / 2 ^ 47) ≤ 1 := by
        have : (j * (s.graph.metrics.length + 36) : ℕ) ≤ 2 ^ 47 :=
          le_trans (Nat.mul_le_mul_right _ (Nat.le_add_right _ _)) hsmall
        have : (j : ℚ) * (s.graph.metrics.length + 36) ≤ 2 ^ 47 := by exact_mod_cast this
        rw [← mul_div_assoc, div_le_one (by norm_num)]
        exact this
      have hjR : (j : ℚ) * ((s.graph.metrics.length + 36) / 2 ^ 47 * R) ≤ R := by
        rw [← mul_assoc]
        exact mul_le_of_le_one_left (by linarith) hjc
      have ho2 : old ≤ 2 * R := by linarith [(rel_step hd).2]
      obtain ⟨y, hy, hy1⟩ := step hu hn hk hr.head hmin hlen hr.count hm2 hm1 ho hR ho2 hrw
      obtain ⟨hl0, hl1⟩ := weight_bounds (i := i) hr.correction
      have hm := C113_mean_one hu hn hk hr.head hlen
      rw [hlen] at hm
      have hl2 : (j + 1 + ws.length : ℕ) * (s.graph.metrics.length + 36) ≤ 2 ^ 47 := by
        rw [List.length_cons] at hsmall
        rwa [show j + 1 + ws.length = j + (ws.length + 1) by omega]
      obtain ⟨hl3, hl4⟩ := weight_bounds (cfg := cfg) (i := i + 1) hr.correction
      obtain ⟨z, hz, hz1⟩ := ih (i + 1) (j + 1) t ((1 - weight cfg.method i) * x + weight cfg.method i * relative w e) y h
        (by rw [hon.edges]; exact hn) (by rw [hon.edges]; exact hk) (hr.tail hu hn hk) (mean_two hc hm)
        (by
          rw [hon.count]
          exact le_trans (mul_le_of_le_one_left (abs_nonneg _) (by linarith)) hm)
        (by rw [hon.count]; exact hl2) hy
        (by
          have t1 := mul_le_mul_of_nonneg_left hx (show 0 ≤ 1 - weight cfg.method i by linarith)
          have t2 := mul_le_mul_of_nonneg_left hrw hl0
          linarith)
        (by
          rw [hon.count]
          push_cast
          have e1 : y - ((1 - weight cfg.method i) * x + weight cfg.method i * relative w e) =
              (y - ((1 - weight cfg.method i) * old + weight cfg.method i * relative w e)) +
                (1 - weight cfg.method i) * (old - x) := by ring
          rw [e1]
          refine le_trans (abs_add_le _ _) ?_
          rw [abs_mul, abs_of_nonneg (show 0 ≤ 1 - weight cfg.method i by linarith)]
          have t1 := mul_le_of_le_one_left (abs_nonneg (old - x)) (show 1 - weight cfg.method i ≤ 1 by linarith)
          linarith)
        (fun w hw => hrel w (List.mem_cons_of_mem _ hw))
      refine ⟨z, hz, ?_⟩
      rw [hon.count] at hz1
      rw [List.map_cons, ideal, List.length_cons]
      refine le_trans hz1 (le_of_eq ?_)
      push_cast
      ring
  obtain ⟨y, hy, hy1⟩ := key ws i 0 s old old h hn hk hr hm2 hm1 (by rw [Nat.zero_add]; exact hsmall) ho hoR
    (by simp) hrel
  refine ⟨y, hy, le_trans hy1 (le_of_eq ?_)⟩
  push_cast
  ring

theorem ideal_averaging {i : Nat} {x : ℚ} {rs : List ℚ} (h : i ≠ 0 ∨ rs ≠ []) :
    ideal .averaging i x rs = (i * x + rs.sum) / (i + rs.length) := by
  induction rs generalizing i x with
  | nil =>
    have hi : (i : ℚ) ≠ 0 := by
      rcases h with h | h
      · exact_mod_cast h
      · exact absurd rfl h
    simp only [ideal, List.sum_nil, List.length_nil, Nat.cast_zero, add_zero]
    field_simp
  | cons r rs ih =>
    rw [ideal, ih (Or.inl (by omega))]
    have hi : ((i : ℚ) + 1) ≠ 0 := by positivity
    simp only [weight, List.sum_cons, List.length_cons, Nat.cast_add, Nat.cast_one]
    have e1 : ((i : ℚ) + 1) * ((1 - 1 / (i + 1)) * x + 1 / (i + 1) * r) = i * x + r := by
      field_simp
      ring
    rw [e1]
    congr 1 <;> ring

/-- C115: by averaging, beginning with iteration 0 and without a minimum, the metric is the average of relative workloads,
up to an error that grows with the numbers of updates and edges. -/
theorem C115_averaging (h : updates cfg 0 ws s = some (.ok d, s')) (hn : s.edges.ids.Nodup)
    (hk : s.edges.ids[k]? = some cfg.metricId) (hr : SaneRun cfg 0 ws s k) (hmin : cfg.minNewMetric = none)
    (hmethod : cfg.method = .averaging) (hws : ws ≠ []) (hm2 : mean s.graph.metrics k ≤ 2)
    (hsmall : ws.length * (s.graph.metrics.length + 36) ≤ 2 ^ 47)
    {e : Nat} {old R : ℚ} (ho : value s.graph.metrics e k = some old) (hR : 1 ≤ R) (hoR : old ≤ R)
    (hrel : ∀ w ∈ ws, relative w e ≤ R) :
    ∃ y, value s'.graph.metrics e k = some y ∧
      |y - average (ws.map fun w => relative w e)| ≤ ws.length * (s.graph.metrics.length + 36) / 2 ^ 47 * R := by
  have hw0 : weight cfg.method 0 = 1 := by
    rw [hmethod]
    simp [weight]
  obtain ⟨y, hy, hy1⟩ := C115_values h hn hk hr hmin hm2
    (by rw [hw0, sub_self, zero_mul]; positivity) hsmall ho hR hoR hrel
  refine ⟨y, hy, ?_⟩
  rw [hmethod, ideal_averaging (Or.inr (by simpa using hws))] at hy1
  have e1 : average (ws.map fun w => relative w e) =
      ((0 : Nat) * old + (ws.map fun w => relative w e).sum) / ((0 : Nat) + (ws.map fun w => relative w e).length) := by
    unfold average
    simp
  rw [e1]
  exact hy1

end

/-! ## Samples -/

/-- Workloads of three iterations. -/
def exWs : List (List Nat) := [[1, 2, 3, 1], [2, 2, 1, 2], [0, 1, 5, 1]]

theorem exRun_ok : updates Bal.exAvg 0 exWs exF = some (.ok .finished, outF (updates Bal.exAvg 0 exWs exF)) := by
  decide +kernel

/-- C115 is false for exact averages. -/
theorem C115_false_exact : updates Bal.exAvg 0 exWs exF = some (.ok .finished, outF (updates Bal.exAvg 0 exWs exF)) ∧
    value (outF (updates Bal.exAvg 0 exWs exF)).graph.metrics 0 0 ≠ some (average (exWs.map fun w => relative w 0)) :=
  ⟨exRun_ok, by decide +kernel⟩

theorem exRun_sane : SaneRun Bal.exAvg 0 exWs exF 0 := by
  have hs := (exF_sane (cfg := Bal.exAvg) (w := [1, 2, 3, 1]) (by decide +kernel) (by decide +kernel)
    ⟨by decide, by decide⟩).1
  exact ⟨by decide +kernel, by decide +kernel, by decide +kernel, by decide +kernel, hs.correction, hs.minimum, hs.olds⟩

/-- The assumptions of `C115_run`, `C115_values` and `C115_averaging`. -/
example : ∃ s', updates Bal.exAvg 0 exWs exF = some (.ok .finished, s') ∧ OnlyMetric 0 4 exF s' ∧
    |mean s'.graph.metrics 0 - 1| ≤ 12 / 2 ^ 52 ∧
    ∃ y, value s'.graph.metrics 2 0 = some y ∧ |y - average (exWs.map fun w => relative w 2)| ≤ 120 / 2 ^ 47 * 3 := by
  obtain ⟨h1, -, h3⟩ := C115_run exRun_ok exF_nodup exF_id exRun_sane
  refine ⟨_, exRun_ok, h1, ?_, ?_⟩
  · refine le_trans (h3 (by decide)) (le_of_eq ?_)
    have : exF.graph.metrics.length = 4 := rfl
    rw [this]
    norm_num
  · obtain ⟨y, hy, hy1⟩ := C115_averaging exRun_ok exF_nodup exF_id exRun_sane rfl rfl (by decide) (by decide +kernel)
      (by decide +kernel) (e := 2) (old := 1 / 4) (R := 3) (by decide +kernel) (by norm_num) (by norm_num)
      (by decide +kernel)
    refine ⟨y, hy, le_trans hy1 (le_of_eq ?_)⟩
    have e1 : exF.graph.metrics.length = 4 := rfl
    have e2 : exWs.length = 3 := rfl
    rw [e1, e2]
    norm_num

/-- The assumptions of `C115_total`. -/
example : SaneRun Bal.exAvg 0 exWs exF 0 ∧ Moderate Bal.exAvg exF 0 ∧ Consistent exF ∧ exF.graph.metrics ≠ [] :=
  ⟨exRun_sane, (exF_sane (cfg := Bal.exAvg) (w := [1, 2, 3, 1]) (by decide +kernel) (by decide +kernel)
    ⟨by decide, by decide⟩).2, exF_consistent, by decide +kernel⟩

end Verif.BalF
