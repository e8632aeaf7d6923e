import Verif.BalanceFloatLemmas3

/-!
# Property C113: the balanced metric with numbers of type `f64`
-/

namespace Verif.BalF

open Gen Fp
open Bal (average relative targets target meanAt OnlyMetric)

theorem pos_rnd {x : ℚ} (h : 1 / 2 ^ 1070 ≤ x) : 0 < rnd x := by
  have h31 := eta_31
  have h0 : 0 < x := lt_of_lt_of_le (by positivity) h
  have h1 := (rel_step (any_nonneg h0.le)).1
  have he : 0 < eta := by unfold eta; positivity
  generalize (1 : ℚ) / 2 ^ 1070 = p at *
  linarith

theorem quot_pos {t M : ℚ} (ht : 1 / 2 ^ 40 ≤ t) (hM0 : 0 < M) (hM : M ≤ Over.maxF) : 0 < rnd (t / M) := by
  refine pos_rnd ?_
  have h1 : M ≤ 2 ^ 1024 := le_trans hM (by decide +kernel)
  rw [div_le_div_iff₀ (by positivity) hM0, one_mul]
  have h2 : (2 : ℚ) ^ 1070 = 2 ^ 40 * 2 ^ 6 * 2 ^ 1024 := by rw [← pow_add, ← pow_add]
  rw [h2]
  have h3 : 1 ≤ t * 2 ^ 40 := by
    rw [div_le_iff₀ (by norm_num)] at ht
    exact ht
  calc M ≤ 1 * 2 ^ 6 * 2 ^ 1024 := by
        refine le_trans h1 (le_mul_of_one_le_left (by positivity) (by norm_num))
    _ ≤ t * 2 ^ 40 * 2 ^ 6 * 2 ^ 1024 := by
        refine mul_le_mul_of_nonneg_right (mul_le_mul_of_nonneg_right h3 (by positivity)) (by positivity)
    _ = t * (2 ^ 40 * 2 ^ 6 * 2 ^ 1024) := by rw [mul_assoc, mul_assoc, mul_assoc]

theorem meanR_pos {cfg : Bal.Config} {i : Nat} {w : List Nat} {ms : List (List ℚ)} {k : Nat}
    (h : le (meanR cfg i w ms k) 0 = false) : 1 / 2 ^ 20 < meanR cfg i w ms k := by
  refine not_le_zero ?_ h
  unfold meanR
  exact isNum_rnd _

theorem targetsR_ne {cfg : Bal.Config} {i : Nat} {w : List Nat} {ms : List (List ℚ)} {k : Nat} (hw : w ≠ []) :
    targetsR cfg i w ms k ≠ [] := by
  intro h
  have := congrArg List.length h
  rw [targetsR_length] at this
  exact hw (List.length_eq_zero_iff.mp this)

/-! ## C113 -/

section
variable {cfg : Bal.Config} {i : Nat} {w : List Nat} {s s' : Net} {k : Nat} {d : Bal.Done}

/-- C113: a successful update changes nothing but the balanced metric (and its mean) of the edges with a workload. -/
theorem C113_untouched (h : update i w s cfg = some (.ok d, s')) (hn : s.edges.ids.Nodup)
    (hk : s.edges.ids[k]? = some cfg.metricId) : OnlyMetric k w.length s s' := by
  obtain ⟨k', h1, -, -, -, -, -, -, h8, -⟩ := update_ok h
  rw [Bal.key_unique hn hk h1]
  exact h8

/-- C113: the new metric's mean is one, up to rounding: the more edges, the less accurate. -/
theorem C113_mean_one (h : update i w s cfg = some (.ok d, s')) (hn : s.edges.ids.Nodup)
    (hk : s.edges.ids[k]? = some cfg.metricId) (hs : Sane cfg i w s k) (hw : w.length = s.graph.metrics.length) :
    |mean s'.graph.metrics k - 1| ≤ (w.length + 8) / 2 ^ 52 := by
  obtain ⟨k', h1, h2, h3, h4, h5, h6, h7, h8, h9, -⟩ := update_ok h
  have hkk := Bal.key_unique hn hk h1
  subst hkk
  have hm := mean_one (ts := targetsR cfg i w s.graph.metrics k) (M := meanR cfg i w s.graph.metrics k)
    (by rw [targetsR_length]; exact hs.count) (targetsR_ne h3) (targetsR_fine hs) (by rw [targetsR_length]; rfl) (meanR_pos h6)
  rw [targetsR_length] at hm
  have hlist : (s'.graph.metrics.map fun m => m.getD k 0) =
      (targetsR cfg i w s.graph.metrics k).map fun x => rnd (x / meanR cfg i w s.graph.metrics k) := by
    refine List.ext_getElem? fun e => ?_
    by_cases he : e < w.length
    · obtain ⟨m, hm, hx⟩ := Bal.value_eq_some.mp (h9 e he)
      rw [List.getElem?_map, hm, List.getElem?_map, targetsR, List.getElem?_map, List.getElem?_range he]
      simp only [Option.map_some, Option.some.injEq]
      rw [List.getD_eq_getElem?_getD, hx]
      rfl
    · rw [List.getElem?_eq_none (by simp [h8.count]; omega), List.getElem?_eq_none (by simp [targetsR_length]; omega)]
  have e : mean s'.graph.metrics k = average (s'.graph.metrics.map fun m => m.getD k 0) := by
    unfold mean average
    rw [List.length_map]
  rw [e, hlist]
  exact hm

/-- C113: the new values aren't negative. -/
theorem C113_nonneg (h : update i w s cfg = some (.ok d, s')) (hn : s.edges.ids.Nodup)
    (hk : s.edges.ids[k]? = some cfg.metricId) (hs : Sane cfg i w s k) {e : Nat} (he : e < w.length) :
    ∃ y, value s'.graph.metrics e k = some y ∧ 0 ≤ y := by
  obtain ⟨k', h1, h2, h3, h4, h5, h6, h7, h8, h9, -⟩ := update_ok h
  have hkk := Bal.key_unique hn hk h1
  subst hkk
  refine ⟨_, h9 e he, nonneg (div_nonneg (targetR_fine hs e).1 ?_)⟩
  exact le_trans (by norm_num) (meanR_pos h6).le

/-- C113: with a minimum of at least `2^-40`, the new values are positive, whatever the old ones are. -/
theorem C113_positive_min {m : ℚ} (h : update i w s cfg = some (.ok d, s')) (hn : s.edges.ids.Nodup)
    (hk : s.edges.ids[k]? = some cfg.metricId) (hm : cfg.minNewMetric = some m) (hpos : 1 / 2 ^ 40 ≤ m) {e : Nat}
    (he : e < w.length) : ∃ y, value s'.graph.metrics e k = some y ∧ 0 < y := by
  obtain ⟨k', h1, h2, h3, h4, h5, h6, h7, h8, h9, -⟩ := update_ok h
  have hkk := Bal.key_unique hn hk h1
  subst hkk
  refine ⟨_, h9 e he, quot_pos (le_trans hpos (floorR_ge hm)) (lt_trans (by norm_num) (meanR_pos h6)) ?_⟩
  exact le_trans (le_abs_self _) h7

/-- C113: if a vanishing metric is an error, the new values are positive. -/
theorem C113_positive_flag (h : update i w s cfg = some (.ok d, s')) (hn : s.edges.ids.Nodup)
    (hk : s.edges.ids[k]? = some cfg.metricId) (hm : cfg.minNewMetric = none) (hf : cfg.isErrWhenZero = true) {e : Nat}
    (he : e < w.length) : ∃ y, value s'.graph.metrics e k = some y ∧ 0 < y := by
  obtain ⟨k', h1, h2, h3, h4, h5, h6, h7, h8, h9, -⟩ := update_ok h
  have hkk := Bal.key_unique hn hk h1
  subst hkk
  have ht := h5 hm hf (targetR cfg i w s.graph.metrics k e) (List.mem_map.mpr ⟨e, List.mem_range.mpr he, rfl⟩)
  have hnum : IsNum (targetR cfg i w s.graph.metrics k e) := by
    unfold targetR floorR
    rw [hm]
    exact blendR_isNum _ _ _ _
  refine ⟨_, h9 e he, quot_pos (le_trans (by norm_num) (not_le_zero hnum ht).le) (lt_trans (by norm_num) (meanR_pos h6)) ?_⟩
  exact le_trans (le_abs_self _) h7

/-- C113: the new values and the remembered mean are those of exact arithmetic, up to rounding. With a minimum, a value
within the accuracy of the minimum may be on its other side. -/
theorem C113_values (h : update i w s cfg = some (.ok d, s')) (hn : s.edges.ids.Nodup)
    (hk : s.edges.ids[k]? = some cfg.metricId) (hs : Sane cfg i w s k) :
    ∃ M, 0 < M ∧ (s.graph.means ≠ none → meanAt s'.graph k = some M) ∧
      |M - average (targets cfg i w s.graph.metrics k)| ≤
        (w.length + 4) / 2 ^ 52 * (average (targets cfg i w s.graph.metrics k) +
          average (tolerances cfg w s.graph.metrics k)) + average (tolerances cfg w s.graph.metrics k) ∧
      ∀ e < w.length, ∃ old y, value s.graph.metrics e k = some old ∧ value s'.graph.metrics e k = some y ∧
        |y * M - target cfg i old (relative w e)| ≤
          2 * tolerance cfg old (relative w e) + (target cfg i old (relative w e) + M) / 2 ^ 53 := by
  obtain ⟨k', h1, h2, h3, h4, h5, h6, h7, h8, h9, h10, -⟩ := update_ok h
  have hkk := Bal.key_unique hn hk h1
  subst hkk
  have hpos := meanR_pos h6
  have h0 := sum_ne_zero h4
  refine ⟨meanR cfg i w s.graph.metrics k, lt_trans (by norm_num) hpos, h10, ?_, ?_⟩
  · have hc := (mean_core (ts := targetsR cfg i w s.graph.metrics k) (M := meanR cfg i w s.graph.metrics k)
      (by rw [targetsR_length]; exact hs.count) (targetsR_ne h3) (targetsR_fine hs) (by rw [targetsR_length]; rfl) hpos).1
    rw [targetsR_length] at hc
    have ha : |average (targetsR cfg i w s.graph.metrics k) - average (targets cfg i w s.graph.metrics k)| ≤
        average (tolerances cfg w s.graph.metrics k) :=
      avg_near (List.range w.length) fun e _ => targetR_near hs h3 h0 e
    have hv : (0 : ℚ) ≤ (w.length + 4) / 2 ^ 52 := by positivity
    have hb := mul_le_mul_of_nonneg_left (rel_step ha).2 hv
    generalize average (targetsR cfg i w s.graph.metrics k) = a at *
    have := abs_add_le (meanR cfg i w s.graph.metrics k - a) (a - average (targets cfg i w s.graph.metrics k))
    rw [sub_add_sub_cancel] at this
    linarith
  · intro e he
    obtain ⟨old, ho⟩ := Option.isSome_iff_exists.mp (h2 e he)
    refine ⟨old, _, ho, h9 e he, ?_⟩
    have ht := targetR_near hs h3 h0 e
    rw [ho, Option.getD_some] at ht
    have ht0 := (targetR_fine hs e).1
    generalize targetR cfg i w s.graph.metrics k e = t at *
    generalize meanR cfg i w s.graph.metrics k = M at *
    generalize target cfg i old (relative w e) = T at *
    generalize tolerance cfg old (relative w e) = τ at *
    have hM0 : 0 < M := lt_trans (by norm_num) hpos
    have hy := any_nonneg (div_nonneg ht0 hM0.le)
    have hy2 : |rnd (t / M) * M - t| ≤ 1 / 2 ^ 53 * t + eta * M := by
      have e1 : rnd (t / M) * M - t = (rnd (t / M) - t / M) * M := by
        rw [sub_mul, div_mul_cancel₀ _ hM0.ne']
      rw [e1, abs_mul, abs_of_pos hM0]
      refine le_trans (mul_le_mul_of_nonneg_right hy hM0.le) ?_
      rw [add_mul, mul_assoc, div_mul_cancel₀ _ hM0.ne']
    have hη := mul_le_mul_of_nonneg_right (eta_le (k := 53) (by norm_num)) hM0.le
    have h11 := abs_add_le (rnd (t / M) * M - t) (t - T)
    rw [sub_add_sub_cancel] at h11
    have h12 := (rel_step ht).2
    have h13 : 0 ≤ τ := le_trans (abs_nonneg _) ht
    linarith

/-- C113: with numbers of a moderate size, no number overflows and none is divided by zero. The update doesn't panic
with one workload for each edge. So it succeeds or returns an error. -/
theorem C113_total (hn : s.edges.ids.Nodup) (hk : s.edges.ids[k]? = some cfg.metricId) (hs : Sane cfg i w s k)
    (hm : Moderate cfg s k) (hc : Consistent s)
    (hmeans : ∀ means, s.graph.means = some means → means.length = s.edges.units.length)
    (hw : w.length = s.graph.metrics.length) (hne : w ≠ []) :
    (∃ s', update i w s cfg = some (.ok .finished, s')) ∨ ∃ e, update i w s cfg = some (.err e, s) := by
  have hku : k < s.edges.units.length := by rw [← hc.len]; exact lt_of_some hk
  have hsome : ∀ e < w.length, (value s.graph.metrics e k).isSome := by
    intro e he
    rw [hw] at he
    have hm := hc.values _ (List.getElem_mem he)
    refine Option.isSome_iff_exists.mpr ⟨s.graph.metrics[e][k]'(by omega), Bal.value_eq_some.mpr ⟨_, List.getElem?_eq_getElem he, ?_⟩⟩
    exact List.getElem?_eq_getElem _
  unfold update
  cases h : newMetric i w s cfg with
  | panic =>
    obtain ⟨e, he, hv⟩ := (newMetric_not hn hk).1 h
    have := hsome e he
    rw [hv] at this
    simp at this
  | err f =>
    cases f with
    | notFinite => exact absurd h (newMetric_finite hn hk hs hm hne)
    | fails e => exact Or.inr ⟨e, rfl⟩
  | ok r =>
    obtain ⟨k', ys, mean⟩ := r
    obtain ⟨n1, n2, n3, n4, n5, n6, n7, n8, n9⟩ := newMetric_ok h
    have hkk := Bal.key_unique hn hk n1
    subst hkk
    obtain ⟨s'', s1, -⟩ := Bal.store_ok (k := k) (xs := ys) (mean := some mean) (s := s)
      (by rw [n9, List.length_map, targetsR_length]; exact n2) (fun means h => by rw [hmeans means h]; exact hku) (by simp)
    rw [if_neg (by simp)] at s1
    exact Or.inl ⟨s'', congrArg some s1⟩

/-- C113: an error leaves the graph as it is. It is only returned if the average workload, the average target, or (if a
vanishing metric is an error) a target is zero, up to the accuracy and rounding. -/
theorem C113_errors {x : Bal.Err} (h : update i w s cfg = some (.err x, s')) (hn : s.edges.ids.Nodup)
    (hk : s.edges.ids[k]? = some cfg.metricId) (hs : Sane cfg i w s k) :
    s' = s ∧ (average (w.map fun n : Nat => (n : ℚ)) ≤ 2 / 1000000 ∨
      (x = .zeroMean ∧ average (targets cfg i w s.graph.metrics k) ≤
        2 / 1000000 + average (tolerances cfg w s.graph.metrics k)) ∨
      (x = .zeroMetric ∧ cfg.minNewMetric = none ∧ cfg.isErrWhenZero = true ∧ ∃ e old, e < w.length ∧
        value s.graph.metrics e k = some old ∧
        target cfg i old (relative w e) ≤ 2 / 1000000 + tolerance cfg old (relative w e))) := by
  unfold update at h
  split at h
  · rename_i k' ys mean hnm
    exfalso
    obtain ⟨n1, n2, n3, n4, n5, n6, n7, n8, n9⟩ := newMetric_ok hnm
    rw [Option.some.injEq] at h
    by_cases hms : ∀ means, s.graph.means = some means → k' < means.length
    · obtain ⟨s'', s1, -⟩ := Bal.store_ok (k := k') (xs := ys) (mean := some mean) (s := s)
        (by rw [n9, List.length_map, targetsR_length]; exact n2) hms (by simp)
      rw [s1] at h
      simp at h
    · push Not at hms
      obtain ⟨means, m1, m2⟩ := hms
      unfold Bal.store at h
      simp only [m1, if_neg (not_lt.mpr m2)] at h
      simp at h
  · rename_i e hnm
    simp only [Option.some.injEq, Prod.mk.injEq, Res.err.injEq] at h
    obtain ⟨rfl, rfl⟩ := h
    refine ⟨rfl, ?_⟩
    obtain ⟨-, f1, f2⟩ := newMetric_not (i := i) (w := w) hn hk
    cases e with
    | zeroMean =>
      obtain ⟨hw, hz | ⟨hz, -, hp⟩⟩ := f2 hnm
      · left
        by_cases h0 : w.sum = 0
        · unfold average
          rw [← Nat.cast_list_sum, h0]
          norm_num
        · obtain ⟨g1, g2⟩ := mean0_near hs.total hs.count hw h0
          have hnum : IsNum (mean0 w) := isNum_rnd _
          have g3 := (abs_le.mp (eq_near' hnum rnd_zero hz)).2
          have g4 := (rel_step g1).1
          linarith
      · right; left
        refine ⟨rfl, ?_⟩
        have hnum : IsNum (meanR cfg i w s.graph.metrics k) := isNum_rnd _
        have g1 := le_near hnum rnd_zero hp
        have g2 := mean_small (ts := targetsR cfg i w s.graph.metrics k) (M := meanR cfg i w s.graph.metrics k)
          (by rw [targetsR_length]; exact hs.count) (targetsR_ne hw) (targetsR_fine hs)
          (by rw [targetsR_length]; rfl) (by linarith)
        have ha : |average (targetsR cfg i w s.graph.metrics k) - average (targets cfg i w s.graph.metrics k)| ≤
            average (tolerances cfg w s.graph.metrics k) :=
          avg_near (List.range w.length) fun e _ => targetR_near hs hw (sum_ne_zero hz) e
        linarith [(rel_step ha).1]
    | zeroMetric =>
      obtain ⟨hm, hf, hw, hz, hv, e, he, hle⟩ := f1 hnm
      right; right
      obtain ⟨old, ho⟩ := Option.isSome_iff_exists.mp (hv e he)
      refine ⟨rfl, hm, hf, e, old, he, ho, ?_⟩
      have ht := targetR_near hs hw (sum_ne_zero hz) e
      rw [ho, Option.getD_some] at ht
      have g1 := le_near (targetR_fine hs e).2 rnd_zero hle
      linarith [(rel_step ht).1]
  · simp at h
  · simp at h

/-- C113: a successful update needs an average workload that doesn't vanish, and it finishes. -/
theorem C113_workloads (h : update i w s cfg = some (.ok d, s')) (hs : Sane cfg i w s k) :
    9 / 10000000 ≤ average (w.map fun n : Nat => (n : ℚ)) ∧ d = .finished := by
  obtain ⟨k', h1, h2, h3, h4, h5, h6, h7, h8, h9, h10, h11⟩ := update_ok h
  refine ⟨?_, h11⟩
  obtain ⟨g1, g2⟩ := mean0_near hs.total hs.count h3 (sum_ne_zero h4)
  have hnum : IsNum (mean0 w) := isNum_rnd _
  have g3 := rel_step g1
  by_contra hc
  rw [eq_small (by linarith) (by linarith) hnum] at h4
  simp at h4

end

/-! ## Samples -/

/-- Four edges with values of type `f64`. -/
def exF : Net := { Bal.exS with graph := { Bal.exS.graph with metrics := [[1], [1 / 2], [1 / 4], [9 / 4]] } }

/-- The network after an update, or as it was. -/
def outF (o : Option (Res Bal.Err Bal.Done × Net)) : Net := (o.map (·.2)).getD exF

/-- C113 is false for exact means: the new metric's mean isn't exactly one. -/
theorem C113_false_exact : update 1 [1, 2, 3, 1] exF Bal.exCfg =
      some (.ok .finished, outF (update 1 [1, 2, 3, 1] exF Bal.exCfg)) ∧
    mean (outF (update 1 [1, 2, 3, 1] exF Bal.exCfg)).graph.metrics 0 = 1 - 1 / 2 ^ 54 := by
  constructor <;> decide +kernel

/-- C113 is false for metrics of any size: an old value may be too large to be averaged. -/
theorem C113_false_size : update 4 [1, 2, 3, 1] { exF with graph := { exF.graph with metrics := [[2 ^ 1023], [1], [1], [1]] } }
    Bal.exAvg = none := by decide +kernel

theorem exF_values {P : ℚ → Prop} (h : P 1 ∧ P (1 / 2) ∧ P (1 / 4) ∧ P (9 / 4)) :
    ∀ e x, value exF.graph.metrics e 0 = some x → P x := by
  intro e x hx
  obtain ⟨m, hm, hx⟩ := Bal.value_eq_some.mp hx
  have hm := List.mem_of_getElem? hm
  have hx := List.mem_of_getElem? hx
  have e1 : exF.graph.metrics = [[1], [1 / 2], [1 / 4], [9 / 4]] := rfl
  rw [e1] at hm
  simp only [List.mem_cons, List.not_mem_nil, or_false] at hm
  rcases hm with rfl | rfl | rfl | rfl <;> simp only [List.mem_cons, List.not_mem_nil, or_false] at hx <;> subst hx
  · exact h.1
  · exact h.2.1
  · exact h.2.2.1
  · exact h.2.2.2

theorem exF_sane {cfg : Bal.Config} (h : cfg ∈ [Bal.exCfg, Bal.exMin, Bal.exAvg] ∨
      cfg = { Bal.exCfg with minNewMetric := some (1 / 8) }) (hm : cfg ≠ Bal.exMin) {w : List Nat}
    (hw : w.sum ≤ 100 ∧ w.length = 4) : Sane cfg 1 w exF 0 ∧ Moderate cfg exF 0 := by
  have hnum : IsNum (1 / 8) := by unfold IsNum; decide +kernel
  have hc : cfg = Bal.exCfg ∨ cfg = Bal.exAvg ∨ cfg = { Bal.exCfg with minNewMetric := some (1 / 8) } := by
    simp only [List.mem_cons, List.not_mem_nil, or_false] at h
    rcases h with (h | h | h) | h
    · exact Or.inl h
    · exact absurd h hm
    · exact Or.inr (Or.inl h)
    · exact Or.inr (Or.inr h)
  have h8 : (1 / 8 : ℚ) ≤ 2 ^ 900 := le_trans (by norm_num) (one_le_pow₀ (by norm_num) : (1 : ℚ) ≤ 2 ^ 900)
  have hv : ∀ e x, value exF.graph.metrics e 0 = some x → x ≤ 4 :=
    exF_values ⟨by norm_num, by norm_num, by norm_num, by norm_num⟩
  refine ⟨⟨le_trans hw.1 (by norm_num), by rw [hw.2]; norm_num, by norm_num, ?_, ?_, ?_⟩, ?_, ?_⟩
  · rcases hc with rfl | rfl | rfl
    · rintro c h; cases h; norm_num
    · rintro c h; cases h
    · rintro c h; cases h; norm_num
  · rcases hc with rfl | rfl | rfl
    · rintro m h; cases h
    · rintro m h; cases h
    · rintro m h; cases h; exact ⟨by norm_num, hnum⟩
  · refine exF_values ⟨⟨by norm_num, ?_⟩, ⟨by norm_num, ?_⟩, ⟨by norm_num, ?_⟩, by norm_num, ?_⟩ <;>
      (unfold IsNum; decide +kernel)
  · rcases hc with rfl | rfl | rfl
    · rintro m h; cases h
    · rintro m h; cases h
    · rintro m h; cases h; exact h8
  · intro e x hx
    refine le_trans (hv e x hx) (le_trans (by norm_num : (4 : ℚ) ≤ 2 ^ 2) (pow_le_pow_right₀ (by norm_num) (by norm_num)))

theorem exF_nodup : exF.edges.ids.Nodup := Bal.exS_nodup
theorem exF_id : exF.edges.ids[0]? = some Bal.exCfg.metricId := Bal.exS_id

/-- The assumptions of `C113_untouched`, `C113_mean_one`, `C113_nonneg`, `C113_positive_flag`, `C113_values` and
`C113_workloads`. -/
example : ∃ s', update 1 [1, 2, 3, 1] exF Bal.exCfg = some (.ok .finished, s') ∧ OnlyMetric 0 4 exF s' ∧
    |mean s'.graph.metrics 0 - 1| ≤ 12 / 2 ^ 52 ∧ (∃ y, value s'.graph.metrics 2 0 = some y ∧ 0 < y) ∧
    (∃ M, 0 < M ∧ meanAt s'.graph 0 = some M) ∧ exF.edges.ids.Nodup ∧ Sane Bal.exCfg 1 [1, 2, 3, 1] exF 0 := by
  have h := C113_false_exact.1
  have hs := (exF_sane (cfg := Bal.exCfg) (w := [1, 2, 3, 1]) (by decide +kernel) (by decide +kernel)
    ⟨by decide, by decide⟩).1
  refine ⟨_, h, C113_untouched h exF_nodup exF_id, ?_, C113_positive_flag h exF_nodup exF_id rfl rfl (by decide), ?_,
    exF_nodup, hs⟩
  · refine le_trans (C113_mean_one h exF_nodup exF_id hs (by decide +kernel)) (le_of_eq ?_)
    norm_num
  · obtain ⟨M, h1, h2, -⟩ := C113_values h exF_nodup exF_id hs
    exact ⟨M, h1, h2 (by decide +kernel)⟩

/-- With a minimum: the values of edges without a workload are kept positive. -/
example : ∃ s', update 1 [0, 0, 0, 1] exF { Bal.exCfg with minNewMetric := some (1 / 8) } =
      some (.ok .finished, s') ∧ ∃ y, value s'.graph.metrics 2 0 = some y ∧ 0 < y := by
  have h : update 1 [0, 0, 0, 1] exF { Bal.exCfg with minNewMetric := some (1 / 8) } = some (.ok .finished,
      outF (update 1 [0, 0, 0, 1] exF { Bal.exCfg with minNewMetric := some (1 / 8) })) := by decide +kernel
  exact ⟨_, h, C113_positive_min h exF_nodup exF_id rfl (by norm_num) (by decide)⟩

theorem exF_consistent : Consistent exF := by
  refine ⟨?_, ?_, ?_, ?_⟩ <;> decide +kernel

/-- The assumptions of `C113_total`. -/
example : (∃ s', update 1 [1, 2, 0, 0] exF Bal.exAvg = some (.ok .finished, s')) ∨
    ∃ e, update 1 [1, 2, 0, 0] exF Bal.exAvg = some (.err e, exF) := by
  obtain ⟨h1, h2⟩ := exF_sane (cfg := Bal.exAvg) (w := [1, 2, 0, 0]) (by decide +kernel) (by decide +kernel)
    ⟨by decide, by decide⟩
  refine C113_total exF_nodup exF_id h1 h2 exF_consistent ?_ (by decide +kernel) (by simp)
  intro means hm
  have : (exF.graph.means.map List.length) = some exF.edges.units.length := by decide +kernel
  rw [hm] at this
  simpa using this

/-- The assumptions of `C113_errors`: nothing was used. -/
example : update 1 [0, 0, 0, 0] exF Bal.exCfg = some (.err .zeroMean, exF) ∧
    Sane Bal.exCfg 1 [0, 0, 0, 0] exF 0 :=
  ⟨by decide +kernel, (exF_sane (by decide +kernel) (by decide +kernel) ⟨by decide, by decide⟩).1⟩

end Verif.BalF
