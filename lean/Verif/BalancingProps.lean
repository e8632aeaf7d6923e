import Verif.BalancingLemmas
import Verif.GeneratingProps

/-!
# Properties of the balanced metric

C40: updating the metric; C60: updating it several times.
-/

namespace Verif.Bal

open Cfg Text Gen

/-! ## Samples -/

/-- Four edges. -/
def exCfg : Config where
  metricId := "km".toList
  method := .explicitEuler (1 / 2)
  minNewMetric := none
  isErrWhenZero := true

def exMin : Config := { exCfg with minNewMetric := some (1 / 10) }

def exAvg : Config := { exCfg with method := .averaging, isErrWhenZero := false }

/-- The sample of the normalized metrics. -/
def exS : Net := okNet (normalize exNorm)

theorem exS_nodup : exS.edges.ids.Nodup := by decide +kernel

theorem exS_id : exS.edges.ids[0]? = some exCfg.metricId := by decide +kernel

theorem key_unique {ids : List Text} (hn : ids.Nodup) {i k : Nat} {x : Text} (hi : ids[i]? = some x)
    (hk : ids[k]? = some x) : i = k := by
  rw [List.nodup_iff_injective_get] at hn
  have h1 := lt_of_some hi
  have h2 := lt_of_some hk
  rw [List.getElem?_eq_getElem h1, Option.some.injEq] at hi
  rw [List.getElem?_eq_getElem h2, Option.some.injEq] at hk
  have := @hn ⟨i, h1⟩ ⟨k, h2⟩ (by simp only [List.get_eq_getElem, hi, hk])
  simpa using this

/-! ## C40 -/

/-- C40: a successful update changes nothing but the balanced metric (and its mean) of the edges with a
workload. -/
theorem C40_untouched {i : Nat} {w : List Nat} {s s' : Net} {cfg : Config} {d : Done} {k : Nat}
    (h : update i w s cfg = (.ok d, s')) (hn : s.edges.ids.Nodup) (hk : s.edges.ids[k]? = some cfg.metricId) :
    OnlyMetric k w.length s s' := by
  obtain ⟨k', h1, -, -, -, -, h6, -⟩ := update_ok h
  rw [key_unique hn hk h1]
  exact h6

/-- C40: an update that fails with an error leaves the graph as it is; so does a panic. -/
theorem C40_errors {i : Nat} {w : List Nat} {s : Net} {cfg : Config} :
    (∀ e s', update i w s cfg = (.err e, s') → s' = s) ∧ (∀ s', update i w s cfg = (.panic, s') → s' = s) := by
  have hstore : ∀ k ys mean, newMetric i w s cfg = .ok (k, ys, mean) →
      (∃ d s', store k ys mean s = (.ok d, s')) ∨ store k ys mean s = (.panic, s) := by
    intro k ys mean hnm
    obtain ⟨n1, n2, n3, n4, n5, n6, n7⟩ := newMetric_ok hnm
    by_cases hm : ∀ means, s.graph.means = some means → k < means.length
    · obtain ⟨s'', s1, -⟩ := store_ok (k := k) (xs := ys) (mean := mean) (s := s)
        (by rw [n7, List.length_map, targets_length]; exact n2) hm (by
          intro hm
          rw [n6] at hm
          rw [n7]
          by_contra hne
          rw [meanOf_eq (by simpa using hne)] at hm
          simp at hm)
      exact Or.inl ⟨_, _, s1⟩
    · push Not at hm
      obtain ⟨means, h1, h2⟩ := hm
      right
      unfold store
      simp only [h1, if_neg (not_lt.mpr h2)]
  unfold update
  constructor
  · intro e s' h
    split at h
    · rename_i k ys mean hnm
      rcases hstore k ys mean hnm with ⟨d, t, ht⟩ | ht <;> rw [ht] at h <;> simp at h
    · simp only [Prod.mk.injEq] at h; exact h.2.symm
    · simp at h
  · intro s' h
    split at h
    · rename_i k ys mean hnm
      rcases hstore k ys mean hnm with ⟨d, t, ht⟩ | ht <;> rw [ht] at h <;> simp only [Prod.mk.injEq] at h
      · simp at h
      · exact h.2.symm
    · simp at h
    · simp only [Prod.mk.injEq] at h; exact h.2.symm

/-- C40: the new value of each edge is its target, divided by the mean of all targets; this mean is
remembered if the graph remembers means. -/
theorem C40_values {i : Nat} {w : List Nat} {s s' : Net} {cfg : Config} {d : Done} {k : Nat}
    (h : update i w s cfg = (.ok d, s')) (hn : s.edges.ids.Nodup) (hk : s.edges.ids[k]? = some cfg.metricId) :
    (∀ e < w.length, ∃ old, value s.graph.metrics e k = some old ∧ value s'.graph.metrics e k =
      some (target cfg i old (relative w e) / average (targets cfg i w s.graph.metrics k))) ∧
    (w ≠ [] → s.graph.means ≠ none →
      meanAt s'.graph k = some (average (targets cfg i w s.graph.metrics k))) := by
  obtain ⟨k', h1, h2, h3, h4, h5, h6, h7, h8, -⟩ := update_ok h
  rw [key_unique hn hk h1]
  refine ⟨fun e he => ?_, h8⟩
  obtain ⟨old, ho⟩ := Option.isSome_iff_exists.mp (h2 e he)
  refine ⟨old, ho, ?_⟩
  rw [h7 e he, List.getD_eq_getElem?_getD, targets, List.getElem?_map, List.getElem?_range he]
  simp only [Option.map_some, Option.getD_some, ho]

theorem sum_map_div (l : List ℚ) (a : ℚ) : (l.map fun x => x / a).sum = l.sum / a := by
  induction l with
  | nil => simp
  | cons x l ih => simp only [List.map_cons, List.sum_cons, ih, add_div]

/-- C40: after a successful update, the balanced metric has mean one. -/
theorem C40_mean_one {i : Nat} {w : List Nat} {s s' : Net} {cfg : Config} {d : Done} {k : Nat}
    (h : update i w s cfg = (.ok d, s')) (hn : s.edges.ids.Nodup) (hk : s.edges.ids[k]? = some cfg.metricId)
    (hw : w.length = s.graph.metrics.length) (hne : w ≠ []) : mean s'.graph.metrics k = 1 := by
  obtain ⟨k', h1, h2, h3, h4, h5, h6, h7, -⟩ := update_ok h
  rw [key_unique hn hk h1]
  have hc := h6.count
  have hlist : (s'.graph.metrics.map fun m => m.getD k' 0) =
      (targets cfg i w s.graph.metrics k').map fun x => x / average (targets cfg i w s.graph.metrics k') := by
    refine List.ext_getElem? fun e => ?_
    by_cases he : e < w.length
    · obtain ⟨m, hm, hx⟩ := value_eq_some.mp (h7 e he)
      have he' : e < (targets cfg i w s.graph.metrics k').length := by rw [targets_length]; exact he
      rw [List.getElem?_map, hm, List.getElem?_map, List.getElem?_eq_getElem he']
      simp only [Option.map_some, Option.some.injEq]
      rw [List.getD_eq_getElem?_getD, hx, List.getD_eq_getElem?_getD, List.getElem?_eq_getElem he']
      rfl
    · rw [List.getElem?_eq_none (by simp; omega), List.getElem?_eq_none (by simp [targets_length]; omega)]
  unfold mean
  rw [hlist, sum_map_div, hc, ← hw, div_right_comm, ← targets_length cfg i w s.graph.metrics k']
  have h4' := h4 hne
  have hpos : average (targets cfg i w s.graph.metrics k') ≠ 0 := by
    intro h0
    rw [h0] at h4'
    exact absurd h4' (by norm_num)
  exact div_self hpos

/-- C40: with a positive minimum, every new value is positive, and at least the minimum, scaled. -/
theorem C40_positive_min {i : Nat} {w : List Nat} {s s' : Net} {cfg : Config} {d : Done} {k : Nat} {m : ℚ}
    (h : update i w s cfg = (.ok d, s')) (hn : s.edges.ids.Nodup) (hk : s.edges.ids[k]? = some cfg.metricId)
    (hm : cfg.minNewMetric = some m) (hpos : 0 < m) {e : Nat} (he : e < w.length) :
    ∃ y, value s'.graph.metrics e k = some y ∧ 0 < y ∧
      m ≤ y * average (targets cfg i w s.graph.metrics k) := by
  obtain ⟨old, -, hv⟩ := (C40_values h hn hk).1 e he
  refine ⟨_, hv, ?_⟩
  obtain ⟨k', h1, -, -, h4, -⟩ := update_ok h
  have h4 := h4 (by rintro rfl; simp at he)
  rw [← key_unique hn hk h1] at h4
  have hA : 0 < average (targets cfg i w s.graph.metrics k) := lt_of_lt_of_le (by norm_num) h4
  have ht : m ≤ target cfg i old (relative w e) := by
    unfold target
    simp only [hm]
    split_ifs with hlt
    · exact le_refl m
    · exact le_trans (by norm_num) (not_lt.mp hlt)
  refine ⟨div_pos (lt_of_lt_of_le hpos ht) hA, ?_⟩
  rwa [div_mul_cancel₀ _ hA.ne']

/-- C40: if a vanishing metric is an error, every new value is positive. -/
theorem C40_positive_flag {i : Nat} {w : List Nat} {s s' : Net} {cfg : Config} {d : Done} {k : Nat}
    (h : update i w s cfg = (.ok d, s')) (hn : s.edges.ids.Nodup) (hk : s.edges.ids[k]? = some cfg.metricId)
    (hm : cfg.minNewMetric = none) (hf : cfg.isErrWhenZero = true) {e : Nat} (he : e < w.length) :
    ∃ y, value s'.graph.metrics e k = some y ∧ 0 < y := by
  obtain ⟨old, ho, hv⟩ := (C40_values h hn hk).1 e he
  refine ⟨_, hv, ?_⟩
  obtain ⟨k', h1, -, -, h4, h5, -⟩ := update_ok h
  rw [← key_unique hn hk h1] at h4 h5
  have h4 := h4 (by rintro rfl; simp at he)
  have hA : 0 < average (targets cfg i w s.graph.metrics k) := lt_of_lt_of_le (by norm_num) h4
  refine div_pos (lt_of_lt_of_le (by norm_num) (h5 hm hf _ ?_)) hA
  unfold targets
  exact List.mem_map.mpr ⟨e, List.mem_range.mpr he, by rw [ho]; rfl⟩

theorem relative_nonneg (w : List Nat) (e : Nat) : 0 ≤ relative w e := by
  unfold relative average
  refine div_nonneg (Nat.cast_nonneg _) (div_nonneg (List.sum_nonneg fun x hx => ?_) (Nat.cast_nonneg _))
  obtain ⟨n, -, rfl⟩ := List.mem_map.mp hx
  exact Nat.cast_nonneg n

/-- C40: in any case, the new values aren't negative, if the old ones aren't, if the minimum isn't negative and
if the correction is between zero and one. -/
theorem C40_nonneg {i : Nat} {w : List Nat} {s s' : Net} {cfg : Config} {d : Done} {k : Nat}
    (h : update i w s cfg = (.ok d, s')) (hn : s.edges.ids.Nodup) (hk : s.edges.ids[k]? = some cfg.metricId)
    (hm : ∀ m, cfg.minNewMetric = some m → 0 ≤ m)
    (hc : ∀ c, cfg.method = .explicitEuler c → 0 ≤ c ∧ c ≤ 1)
    (hold : ∀ e x, value s.graph.metrics e k = some x → 0 ≤ x) {e : Nat} (he : e < w.length) :
    ∃ y, value s'.graph.metrics e k = some y ∧ 0 ≤ y := by
  obtain ⟨old, ho, hv⟩ := (C40_values h hn hk).1 e he
  refine ⟨_, hv, ?_⟩
  obtain ⟨k', h1, -, -, h4, -⟩ := update_ok h
  rw [← key_unique hn hk h1] at h4
  have h4 := h4 (by rintro rfl; simp at he)
  have hA : 0 ≤ average (targets cfg i w s.graph.metrics k) := le_trans (by norm_num) h4
  refine div_nonneg ?_ hA
  have ho := hold e old ho
  have hr := relative_nonneg w e
  have hb : 0 ≤ blend cfg.method i old (relative w e) := by
    unfold blend
    cases hmeth : cfg.method with
    | explicitEuler c =>
      obtain ⟨c0, c1⟩ := hc c hmeth
      simp only
      have h1 : 0 ≤ (1 - c) * old := mul_nonneg (by linarith) ho
      have h2 : 0 ≤ c * relative w e := mul_nonneg c0 hr
      linarith [show old + (relative w e - old) * c = (1 - c) * old + c * relative w e by ring]
    | averaging =>
      simp only
      exact div_nonneg (add_nonneg (mul_nonneg (Nat.cast_nonneg _) ho) hr) (Nat.cast_nonneg _)
  rw [target_eq]
  unfold floored
  split
  · exact hb
  · rename_i m hmm
    split_ifs
    · exact hm m hmm
    · exact hb

/-- C40: an update with one workload for each edge succeeds iff the average workload and the average target
don't vanish and, if a vanishing metric is an error, no target vanishes. It doesn't panic. -/
theorem C40_succeeds_iff {i : Nat} {w : List Nat} {s : Net} {cfg : Config} {k : Nat}
    (hn : s.edges.ids.Nodup) (hk : s.edges.ids[k]? = some cfg.metricId) (hc : Consistent s)
    (hmeans : ∀ means, s.graph.means = some means → means.length = s.edges.units.length)
    (hw : w.length = s.graph.metrics.length) (hne : w ≠ []) :
    ((∃ s', update i w s cfg = (.ok .finished, s')) ↔
      3 / 2000000 ≤ average (w.map fun n : Nat => (n : ℚ)) ∧
      (cfg.minNewMetric = none → cfg.isErrWhenZero = true →
        ∀ x ∈ targets cfg i w s.graph.metrics k, 3 / 2000000 ≤ x) ∧
      3 / 2000000 ≤ average (targets cfg i w s.graph.metrics k)) ∧
    (update i w s cfg).1 ≠ .panic := by
  have hidx : s.edges.tryIdxOf cfg.metricId = .ok k := by
    have := (idxOf_iff hn).mpr hk
    unfold idxOf at this
    split at this
    · rename_i j hj
      rw [hj]
      simp only [Res.ok.injEq] at this
      rw [this]
    · simp at this
  have hku : k < s.edges.units.length := by rw [← hc.len]; exact lt_of_some hk
  have hsome : ∀ e < w.length, (value s.graph.metrics e k).isSome := by
    intro e he
    rw [hw] at he
    have hm := hc.values _ (List.getElem_mem he)
    refine Option.isSome_iff_exists.mpr ⟨s.graph.metrics[e][k]'(by omega), value_eq_some.mpr ⟨_, List.getElem?_eq_getElem he, ?_⟩⟩
    exact List.getElem?_eq_getElem _
  have hlen : (divideBy (w.map fun n : Nat => (n : ℚ)) (meanOf (w.map fun n : Nat => (n : ℚ)))).length = w.length := by
    rw [divideBy_eq, List.length_map, List.length_map]
  obtain ⟨xs, hb⟩ := blendAll_total (f := blend cfg.method i) (ms := s.graph.metrics) (k := k) (e := 0)
    (news := divideBy (w.map fun n : Nat => (n : ℚ)) (meanOf (w.map fun n : Nat => (n : ℚ))))
    (by rw [hlen]; simpa using hsome)
  have htar : xs.map (floored cfg) = targets cfg i w s.graph.metrics k := by
    rw [(blendAll_ok hb).2, hlen, List.map_map]
    unfold targets
    refine List.map_congr_left fun e he => ?_
    rw [target_eq, ← relative_getD w e (List.mem_range.mp he)]
    simp
  have htne : targets cfg i w s.graph.metrics k ≠ [] := fun h0 => hne (by
    have := congrArg List.length h0
    rw [targets_length] at this
    exact List.length_eq_zero_iff.mp this)
  have hst : ∀ k' ys mean, newMetric i w s cfg = .ok (k', ys, mean) →
      ∃ s', store k' ys mean s = (.ok .finished, s') := by
    intro k' ys mean hnm
    obtain ⟨n1, n2, n3, n4, n5, n6, n7⟩ := newMetric_ok hnm
    have hkk := key_unique hn hk n1
    subst hkk
    have hmean : mean ≠ none := by rw [n6, meanOf_eq htne]; simp
    obtain ⟨s'', s1, -⟩ := store_ok (k := k) (xs := ys) (mean := mean) (s := s)
      (by rw [n7, List.length_map, targets_length]; exact n2) (fun means h => by rw [hmeans means h]; exact hku)
      (fun h => absurd h hmean)
    rw [if_neg (fun h => hmean h.1)] at s1
    exact ⟨_, s1⟩
  have hnp : newMetric i w s cfg ≠ .panic := by
    unfold newMetric
    rw [hidx]
    simp only
    split
    · simp
    · rw [hb, Res.ok_bind]
      cases ha : atLeast cfg xs with
      | ok ys => rw [Res.ok_bind]; split <;> simp
      | err e => simp
      | panic => exact absurd ha atLeast_not_panic
  refine ⟨⟨?_, ?_⟩, ?_⟩
  · rintro ⟨s', h⟩
    obtain ⟨k', h1, h2, h3, h4, h5, -⟩ := update_ok h
    rw [← key_unique hn hk h1] at h4 h5
    exact ⟨h3 hne, h5, h4 hne⟩
  · rintro ⟨h1, h2, h3⟩
    obtain ⟨ys, ha⟩ := atLeast_total (cfg := cfg) (xs := xs) (fun hm hf x hx => h2 hm hf x (by
      rw [← htar]
      refine List.mem_map.mpr ⟨x, hx, ?_⟩
      unfold floored
      rw [hm]))
    have hys : ys = targets cfg i w s.graph.metrics k := by rw [(atLeast_ok ha).1, htar]
    have hnm : newMetric i w s cfg = .ok (k, divideBy ys (meanOf ys), meanOf ys) := by
      unfold newMetric
      rw [hidx]
      simp only
      rw [if_neg, hb, Res.ok_bind, ha, Res.ok_bind, if_neg, Res.pure_eq]
      · rw [isNotPositive_iff, hys]
        rintro ⟨-, hlt⟩
        exact absurd h3 (not_le.mpr hlt)
      · rw [isZero_iff]
        rintro ⟨-, hlt⟩
        exact absurd (lt_of_le_of_lt (le_trans h1 (le_abs_self _)) hlt) (lt_irrefl _)
    obtain ⟨s', hs⟩ := hst _ _ _ hnm
    exact ⟨s', by unfold update; rw [hnm]; exact hs⟩
  · unfold update
    cases hnm : newMetric i w s cfg with
    | ok r =>
      obtain ⟨k', ys, mean⟩ := r
      obtain ⟨s', hs⟩ := hst _ _ _ hnm
      simp only [hs]
      simp
    | err e => simp
    | panic => exact absurd hnm hnp

/-- C40: no update succeeds if the average workload is (approximately) zero, e.g. if there is one route over a
single edge and there are a million edges. This is an error even if the average isn't zero. -/
theorem C40_sparse {i : Nat} {w : List Nat} {s : Net} {cfg : Config} {k : Nat}
    (hn : s.edges.ids.Nodup) (hk : s.edges.ids[k]? = some cfg.metricId) (hne : w ≠ [])
    (hlt : average (w.map fun n : Nat => (n : ℚ)) < 3 / 2000000) : update i w s cfg = (.err .zeroMean, s) := by
  have hidx : s.edges.tryIdxOf cfg.metricId = .ok k := by
    have := (idxOf_iff hn).mpr hk
    unfold idxOf at this
    split at this
    · rename_i j hj
      rw [hj]
      simp only [Res.ok.injEq] at this
      rw [this]
    · simp at this
  have hnm : newMetric i w s cfg = .err .zeroMean := by
    unfold newMetric
    rw [hidx]
    simp only
    rw [if_pos]
    rw [isZero_iff]
    refine ⟨by simpa using hne, ?_⟩
    rw [abs_of_nonneg]
    · exact hlt
    · unfold average
      refine div_nonneg (List.sum_nonneg fun x hx => ?_) (Nat.cast_nonneg _)
      obtain ⟨n, -, rfl⟩ := List.mem_map.mp hx
      exact Nat.cast_nonneg n
  unfold update
  rw [hnm]

/-- C40 is false without a minimum and without the flag: a correction above one leads to a negative metric. -/
theorem C40_false_negative : ∃ s', update 1 [0, 1, 1, 2] exS { exCfg with
    method := .explicitEuler 2, isErrWhenZero := false } = (.ok .finished, s') ∧
    ∃ y, value s'.graph.metrics 0 0 = some y ∧ y < 0 := by
  refine ⟨(update 1 [0, 1, 1, 2] exS { exCfg with method := .explicitEuler 2, isErrWhenZero := false }).2,
    by decide +kernel, -64000000000000 / 35999998999999, by decide +kernel, by decide +kernel⟩

/-- Without edges (and so without workloads), an update succeeds and stores NaN as mean. -/
theorem C40_false_nan (i : Nat) (s : Net) (cfg : Config) (k : Nat) (means : List ℚ)
    (hn : s.edges.ids.Nodup) (hk : s.edges.ids[k]? = some cfg.metricId)
    (hm : s.graph.means = some means) (hlen : k < means.length) : update i [] s cfg = (.ok .nanMean, s) := by
  have hidx : s.edges.tryIdxOf cfg.metricId = .ok k := by
    have := (idxOf_iff hn).mpr hk
    unfold idxOf at this
    split at this
    · rename_i j hj
      rw [hj]
      simp only [Res.ok.injEq] at this
      rw [this]
    · simp at this
  have hnm : newMetric i [] s cfg = .ok (k, [], none) := by
    unfold newMetric
    rw [hidx]
    simp only [List.map_nil, meanOf, List.length_nil, ↓reduceIte, isZero, Bool.false_eq_true, divideBy, blendAll,
      Res.ok_bind]
    unfold atLeast
    split <;> simp [isNotPositive]
  unfold update
  rw [hnm]
  unfold store
  simp only [hm, if_pos hlen]

/-- The sample graph: an update in which one edge isn't used, with a minimum. The mean is one. -/
example : ∃ s', update 0 [0, 4, 2, 2] exS exMin = (.ok .finished, s') ∧ mean s'.graph.metrics 0 = 1 ∧
    ∃ y, value s'.graph.metrics 0 0 = some y ∧ 0 < y :=
  have h : update 0 [0, 4, 2, 2] exS exMin = (.ok .finished, (update 0 [0, 4, 2, 2] exS exMin).2) := by
    decide +kernel
  ⟨_, h, C40_mean_one h exS_nodup exS_id (by decide +kernel) (by simp),
    by
      obtain ⟨y, h1, h2, -⟩ := C40_positive_min h exS_nodup exS_id rfl (by norm_num) (e := 0) (by simp)
      exact ⟨y, h1, h2⟩⟩

/-- The sample graph: a zero target is an error with the flag, else the value is zero. -/
example : update 0 [0, 4, 2, 2] exS { exCfg with method := .averaging } = (.err .zeroMetric, exS) ∧
    ∃ s', update 0 [0, 4, 2, 2] exS exAvg = (.ok .finished, s') ∧ value s'.graph.metrics 0 0 = some 0 := by
  refine ⟨by decide +kernel, (update 0 [0, 4, 2, 2] exS exAvg).2, by decide +kernel, by decide +kernel⟩

/-! ## C60 -/

theorem sum_map_lin {α : Type} (l : List α) (f g : α → ℚ) (a b : ℚ) :
    (l.map fun x => a * f x + b * g x).sum = a * (l.map f).sum + b * (l.map g).sum := by
  induction l with
  | nil => simp
  | cons x l ih => simp only [List.map_cons, List.sum_cons, ih]; ring

theorem map_value_eq {ms : List (List ℚ)} {k : Nat} :
    ((List.range ms.length).map fun e => (value ms e k).getD 0) = ms.map fun m => m.getD k 0 := by
  refine List.ext_getElem? fun e => ?_
  by_cases he : e < ms.length
  · rw [List.getElem?_map, List.getElem?_range he, List.getElem?_map, List.getElem?_eq_getElem he]
    simp only [Option.map_some, value, List.getElem?_eq_getElem he, Option.bind_some, List.getD_eq_getElem?_getD]
  · rw [List.getElem?_eq_none (by simpa using he), List.getElem?_eq_none (by simpa using he)]

theorem sum_relative {w : List Nat} (h : 3 / 2000000 ≤ average (w.map fun n : Nat => (n : ℚ))) :
    ((List.range w.length).map fun e => relative w e).sum = w.length := by
  have hmap : ((List.range w.length).map fun e => relative w e) =
      (w.map fun n : Nat => (n : ℚ)).map fun x => x / average (w.map fun n : Nat => (n : ℚ)) := by
    refine List.ext_getElem? fun e => ?_
    by_cases he : e < w.length
    · rw [List.getElem?_map, List.getElem?_range he, List.getElem?_map, List.getElem?_map,
        List.getElem?_eq_getElem he]
      simp only [Option.map_some, relative, List.getD_eq_getElem?_getD, List.getElem?_eq_getElem he,
        Option.getD_some]
    · rw [List.getElem?_eq_none (by simpa using he), List.getElem?_eq_none (by simpa using he)]
  rw [hmap, sum_map_div]
  have hpos : 0 < average (w.map fun n : Nat => (n : ℚ)) := lt_of_lt_of_le (by norm_num) h
  rw [div_eq_iff hpos.ne']
  unfold average at hpos ⊢
  rw [List.length_map] at hpos ⊢
  have : (w.length : ℚ) ≠ 0 := by
    intro h0
    rw [h0, div_zero] at hpos
    exact lt_irrefl _ hpos
  field_simp

/-- The average of targets that are a weighted average. -/
theorem average_targets {cfg : Config} {i : Nat} {w : List Nat} {ms : List (List ℚ)} {k : Nat} {a b : ℚ}
    (ht : ∀ old rel, target cfg i old rel = a * old + b * rel)
    (hw : w.length = ms.length) (hne : w ≠ [])
    (hav : 3 / 2000000 ≤ average (w.map fun n : Nat => (n : ℚ))) :
    average (targets cfg i w ms k) = a * mean ms k + b := by
  unfold average targets
  simp only [ht]
  rw [sum_map_lin, sum_relative hav, List.length_map, List.length_range]
  rw [hw, map_value_eq]
  unfold mean
  have : (ms.length : ℚ) ≠ 0 := by
    rw [← hw]
    simpa using hne
  field_simp

/-- C60: with explicit Euler, the new value is the weighted average of the old value and the relative
workload, provided that the old metric has mean one and that there is no minimum. -/
theorem C60_euler {i : Nat} {w : List Nat} {s s' : Net} {cfg : Config} {d : Done} {k : Nat} {c : ℚ}
    (h : update i w s cfg = (.ok d, s')) (hn : s.edges.ids.Nodup) (hk : s.edges.ids[k]? = some cfg.metricId)
    (hc : cfg.method = .explicitEuler c) (hm : cfg.minNewMetric = none)
    (hw : w.length = s.graph.metrics.length) (hone : mean s.graph.metrics k = 1) {e : Nat} (he : e < w.length) :
    ∃ old, value s.graph.metrics e k = some old ∧
      value s'.graph.metrics e k = some ((1 - c) * old + c * relative w e) := by
  obtain ⟨old, ho, hv⟩ := (C40_values h hn hk).1 e he
  have hne : w ≠ [] := by rintro rfl; simp at he
  obtain ⟨-, -, -, h3, -⟩ := update_ok h
  have ht : ∀ old rel, target cfg i old rel = (1 - c) * old + c * rel := by
    intro old rel
    simp only [target, hc, hm]
  refine ⟨old, ho, ?_⟩
  rw [hv, average_targets ht hw hne (h3 hne), hone, ht]
  congr 1
  rw [show (1 - c) * 1 + c = 1 by ring, div_one]

theorem averaging_step {i : Nat} {w : List Nat} {s s' : Net} {cfg : Config} {d : Done} {k : Nat}
    (h : update i w s cfg = (.ok d, s')) (hn : s.edges.ids.Nodup) (hk : s.edges.ids[k]? = some cfg.metricId)
    (hc : cfg.method = .averaging) (hm : cfg.minNewMetric = none)
    (hw : w.length = s.graph.metrics.length) (hone : i = 0 ∨ mean s.graph.metrics k = 1) {e : Nat}
    (he : e < w.length) :
    ∃ old, value s.graph.metrics e k = some old ∧
      value s'.graph.metrics e k = some ((i * old + relative w e) / (i + 1)) := by
  obtain ⟨old, ho, hv⟩ := (C40_values h hn hk).1 e he
  have hne : w ≠ [] := by rintro rfl; simp at he
  obtain ⟨-, -, -, h3, -⟩ := update_ok h
  have ht : ∀ old rel, target cfg i old rel = (i / (i + 1)) * old + (1 / (i + 1)) * rel := by
    intro old rel
    simp only [target, hc, hm]
    ring
  have hi : ((i : ℚ) + 1) ≠ 0 := by positivity
  refine ⟨old, ho, ?_⟩
  rw [hv, average_targets ht hw hne (h3 hne), ht]
  congr 1
  rcases hone with rfl | hone
  · simp
  · rw [hone]
    field_simp

/-- C60: after several updates by averaging, beginning with iteration 0 and without a minimum, the metric of each
edge is the average of its relative workloads; the metric from before the first iteration doesn't matter. -/
theorem C60_averaging {ws : List (List Nat)} {s s' : Net} {cfg : Config} {k : Nat}
    (h : updates cfg 0 ws s = (.ok .finished, s')) (hn : s.edges.ids.Nodup)
    (hk : s.edges.ids[k]? = some cfg.metricId) (hc : cfg.method = .averaging) (hm : cfg.minNewMetric = none)
    (hw : ∀ w ∈ ws, w.length = s.graph.metrics.length) (hne : ws ≠ []) {e : Nat}
    (he : e < s.graph.metrics.length) :
    value s'.graph.metrics e k = some (average (ws.map fun w => relative w e)) := by
  have key : ∀ (ws : List (List Nat)) (i : Nat) (s : Net), updates cfg i ws s = (.ok .finished, s') →
      s.edges.ids.Nodup → s.edges.ids[k]? = some cfg.metricId →
      (∀ w ∈ ws, w.length = s.graph.metrics.length) → e < s.graph.metrics.length →
      (i = 0 ∨ mean s.graph.metrics k = 1) → ws ≠ [] →
      ∃ old, value s.graph.metrics e k = some old ∧ value s'.graph.metrics e k =
        some ((i * old + (ws.map fun w => relative w e).sum) / ((i : ℚ) + ws.length)) := by
    intro ws
    induction ws with
    | nil => intro i s _ _ _ _ _ _ h; exact absurd rfl h
    | cons w ws ih =>
      intro i s h hn hk hw he hone _
      unfold updates at h
      split at h
      · rename_i t hu
        have hlen := hw w (by simp)
        obtain ⟨old, ho, hv⟩ := averaging_step hu hn hk hc hm hlen hone (by rw [hlen]; exact he)
        have hon := C40_untouched hu hn hk
        have hone' : mean t.graph.metrics k = 1 := C40_mean_one hu hn hk hlen (by
          rintro rfl
          rw [← hlen] at he
          simp at he)
        refine ⟨old, ho, ?_⟩
        cases ws with
        | nil =>
          simp only [updates, Prod.mk.injEq, true_and] at h
          subst h
          rw [hv]
          simp
        | cons w' ws' =>
          obtain ⟨old', ho', hv'⟩ := ih (i + 1) t h (by rw [hon.edges]; exact hn) (by rw [hon.edges]; exact hk)
            (fun x hx => by rw [hon.count]; exact hw x (by simp [hx])) (by rw [hon.count]; exact he)
            (Or.inr hone') (by simp)
          rw [hv, Option.some.injEq] at ho'
          rw [hv', ← ho']
          congr 1
          have hi : ((i : ℚ) + 1) ≠ 0 := by positivity
          simp only [List.map_cons, List.sum_cons, List.length_cons, Nat.cast_add, Nat.cast_one]
          rw [mul_div_cancel₀ _ hi]
          congr 1 <;> ring
      · rename_i r hr
        obtain ⟨r1, r2⟩ := r
        exact absurd h (by
          intro h
          exact hr s' h)
  obtain ⟨old, -, hv⟩ := key ws 0 s h hn hk hw he (Or.inl rfl) hne
  rw [hv]
  unfold average
  simp

/-- Two iterations of the sample. -/
example : ∃ s', updates exAvg 0 [[0, 4, 2, 2], [1, 1, 1, 1]] exS = (.ok .finished, s') ∧
    value s'.graph.metrics 0 0 = some (1 / 2) ∧ value s'.graph.metrics 1 0 = some (3 / 2) :=
  have h : updates exAvg 0 [[0, 4, 2, 2], [1, 1, 1, 1]] exS =
      (.ok .finished, (updates exAvg 0 [[0, 4, 2, 2], [1, 1, 1, 1]] exS).2) := by decide +kernel
  ⟨_, h, by
    rw [C60_averaging h exS_nodup exS_id rfl rfl (by decide +kernel) (by simp) (by decide +kernel)]
    decide +kernel, by
    rw [C60_averaging h exS_nodup exS_id rfl rfl (by decide +kernel) (by simp) (by decide +kernel)]
    decide +kernel⟩

/-- C60 is false with a minimum: values that have been lifted stay in the average. -/
theorem C60_false_min : ∃ s', updates { exAvg with minNewMetric := some (1 / 2) } 0 [[0, 4, 2, 2], [1, 1, 1, 1]] exS =
    (.ok .finished, s') ∧ value s'.graph.metrics 0 0 ≠ some (average ([[0, 4, 2, 2], [1, 1, 1, 1]].map fun w =>
      relative w 0)) :=
  ⟨(updates { exAvg with minNewMetric := some (1 / 2) } 0 [[0, 4, 2, 2], [1, 1, 1, 1]] exS).2, by decide +kernel,
    by decide +kernel⟩

end Verif.Bal
