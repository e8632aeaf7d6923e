import Verif.BalanceFloatProps
import Verif.BalanceFloatRun
import Verif.BalanceFloatRunSpec

/-!
# Lemmas on several updates with `f64`
-/

namespace Verif.BalF

open Gen Fp
open Bal (average relative targets target meanAt OnlyMetric)

theorem OnlyMetric.refl (k n : Nat) (s : Net) : OnlyMetric k n s s :=
  ⟨rfl, rfl, SameTopology.refl _, rfl, rfl, rfl, rfl, fun e m m' h h' => by rw [h] at h'; cases h'; rfl,
    fun _ _ _ => rfl, fun _ _ => rfl, rfl⟩

theorem OnlyMetric.trans {k n : Nat} {a b c : Net} (h : OnlyMetric k n a b) (h' : OnlyMetric k n b c) :
    OnlyMetric k n a c := by
  refine ⟨h'.nodes.trans h.nodes, h'.edges.trans h.edges, h.topology.trans h'.topology, h'.ids.trans h.ids,
    h'.idMap.trans h.idMap, h'.dim.trans h.dim, h'.count.trans h.count, fun e m m' h1 h2 => ?_,
    fun e j hj => (h'.others e j hj).trans (h.others e j hj), fun j hj => (h'.means j hj).trans (h.means j hj),
    h'.hasMeans.trans h.hasMeans⟩
  have he : e < b.graph.metrics.length := by rw [h.count]; exact lt_of_some h1
  exact (h'.dims e _ _ (List.getElem?_eq_getElem he) h2).trans (h.dims e _ _ h1 (List.getElem?_eq_getElem he))

theorem OnlyMetric.consistent {k n : Nat} {s s' : Net} (h : OnlyMetric k n s s') (hc : Consistent s) : Consistent s' := by
  refine ⟨by rw [h.edges]; exact hc.metrics, by rw [h.edges]; exact hc.len, by rw [h.edges, h.dim]; exact hc.dim, ?_⟩
  intro m' hm'
  obtain ⟨e, he⟩ := List.getElem?_of_mem hm'
  have hl : e < s.graph.metrics.length := by rw [← h.count]; exact lt_of_some he
  rw [h.dims e _ _ (List.getElem?_eq_getElem hl) he, h.edges]
  exact hc.values _ (List.getElem_mem hl)

section
variable {cfg : Bal.Config} {i : Nat} {w : List Nat} {ws : List (List Nat)} {s s' : Net} {k : Nat} {d : Bal.Done}

theorem SaneRun.head (h : SaneRun cfg i (w :: ws) s k) : Sane cfg i w s k := by
  refine ⟨h.totals w List.mem_cons_self, ?_, ?_, h.correction, h.minimum, h.olds⟩
  · rw [h.lengths w List.mem_cons_self]
    exact le_trans h.count (by norm_num)
  · have := h.iterations
    rw [List.length_cons] at this
    omega

theorem update_numbers (h : update i w s cfg = some (.ok d, s')) (hn : s.edges.ids.Nodup)
    (hk : s.edges.ids[k]? = some cfg.metricId) (hs : Sane cfg i w s k) (hw : w.length = s.graph.metrics.length) :
    ∀ e x, value s'.graph.metrics e k = some x → 0 ≤ x ∧ IsNum x := by
  intro e x hx
  have hon := C113_untouched h hn hk
  have he : e < w.length := by
    obtain ⟨m, hm, -⟩ := Bal.value_eq_some.mp hx
    rw [hw, ← hon.count]
    exact lt_of_some hm
  obtain ⟨y, hy, h0⟩ := C113_nonneg h hn hk hs he
  obtain ⟨k', h1, h2, h3, h4, h5, h6, h7, h8, h9, -⟩ := update_ok h
  have hkk := Bal.key_unique hn hk h1
  subst hkk
  have := h9 e he
  rw [hx, Option.some.injEq] at this
  rw [hx, Option.some.injEq] at hy
  subst hy
  exact ⟨h0, by rw [this]; exact isNum_rnd _⟩

theorem SaneRun.tail (hr : SaneRun cfg i (w :: ws) s k) (h : update i w s cfg = some (.ok d, s'))
    (hn : s.edges.ids.Nodup) (hk : s.edges.ids[k]? = some cfg.metricId) : SaneRun cfg (i + 1) ws s' k := by
  have hon := C113_untouched h hn hk
  refine ⟨fun w hw => hr.totals w (List.mem_cons_of_mem _ hw),
    fun w hw => by rw [hon.count]; exact hr.lengths w (List.mem_cons_of_mem _ hw), by rw [hon.count]; exact hr.count, ?_,
    hr.correction, hr.minimum, update_numbers h hn hk hr.head (hr.lengths w List.mem_cons_self)⟩
  have := hr.iterations
  rw [List.length_cons] at this
  omega

/-- Values with a mean of at most two are at most twice their number. -/
theorem le_of_mean {ms : List (List ℚ)} {k : Nat} (h0 : ∀ e x, value ms e k = some x → 0 ≤ x) (hm : mean ms k ≤ 2)
    {e : Nat} {x : ℚ} (hx : value ms e k = some x) : x ≤ 2 * ms.length := by
  obtain ⟨m, hmem, hxm⟩ := Bal.value_eq_some.mp hx
  have hne : (0 : ℚ) < ms.length := by
    have : 0 < ms.length := lt_of_le_of_lt (Nat.zero_le _) (lt_of_some hmem)
    exact_mod_cast this
  unfold mean at hm
  rw [div_le_iff₀ hne] at hm
  refine le_trans ?_ hm
  refine List.single_le_sum ?_ x (List.mem_map.mpr ⟨m, List.mem_of_getElem? hmem, ?_⟩)
  · intro y hy
    obtain ⟨m', hm', rfl⟩ := List.mem_map.mp hy
    obtain ⟨e', he'⟩ := List.getElem?_of_mem hm'
    rw [List.getD_eq_getElem?_getD]
    cases hv : m'[k]? with
    | none => exact le_refl _
    | some y => exact h0 e' y (Bal.value_eq_some.mpr ⟨m', he', hv⟩)
  · rw [List.getD_eq_getElem?_getD, hxm, Option.getD_some]

/-! ## Averages -/

theorem sum_relative' (h : 0 < average (w.map fun n : Nat => (n : ℚ))) :
    ((List.range w.length).map fun e => relative w e).sum = w.length := by
  have hmap : ((List.range w.length).map fun e => relative w e) =
      (w.map fun n : Nat => (n : ℚ)).map fun x => x / average (w.map fun n : Nat => (n : ℚ)) := by
    refine List.ext_getElem? fun e => ?_
    by_cases he : e < w.length
    · rw [List.getElem?_map, List.getElem?_range he, List.getElem?_map, List.getElem?_map,
        List.getElem?_eq_getElem he]
      simp only [Option.map_some, relative, List.getD_eq_getElem?_getD, List.getElem?_eq_getElem he,
        Option.getD_some]
    · rw [List.getElem?_eq_none (by simpa using he), List.getElem?_eq_none (by simpa using he)]
  rw [hmap, Bal.sum_map_div]
  rw [div_eq_iff h.ne']
  unfold average at h ⊢
  rw [List.length_map] at h ⊢
  have : (w.length : ℚ) ≠ 0 := by
    intro h0
    rw [h0, div_zero] at h
    exact lt_irrefl _ h
  field_simp

theorem average_lin {ms : List (List ℚ)} {a b c : ℚ} {f : Nat → ℚ}
    (hf : ∀ e, f e = a * (value ms e k).getD 0 + b * relative w e + c)
    (hw : w.length = ms.length) (hne : w ≠ []) (hav : 0 < average (w.map fun n : Nat => (n : ℚ))) :
    average ((List.range w.length).map f) = a * mean ms k + b + c := by
  have h1 : (w.length : ℚ) ≠ 0 := by simpa using hne
  have e1 : (List.range w.length).map f =
      (List.range w.length).map fun e => 1 * (a * (value ms e k).getD 0 + b * relative w e) + c * 1 :=
    List.map_congr_left fun e _ => by rw [hf]; ring
  have e2 : ((List.range w.length).map fun _ => (1 : ℚ)).sum = w.length := by simp
  unfold average
  rw [e1, Bal.sum_map_lin, Bal.sum_map_lin, sum_relative' hav, e2, List.length_map, List.length_range, hw,
    Bal.map_value_eq]
  unfold mean
  rw [hw] at h1
  field_simp

/-! ## One update -/

theorem weight_bounds (hc : ∀ c, cfg.method = .explicitEuler c → 0 ≤ c ∧ c ≤ 1) :
    0 ≤ weight cfg.method i ∧ weight cfg.method i ≤ 1 := by
  unfold weight
  split
  · rename_i c hm
    exact hc c hm
  · constructor
    · positivity
    · rw [div_le_one (by positivity)]
      have : (0 : ℚ) ≤ i := Nat.cast_nonneg i
      linarith

theorem target_weight (hm : cfg.minNewMetric = none) (old rel : ℚ) :
    target cfg i old rel = (1 - weight cfg.method i) * old + weight cfg.method i * rel := by
  unfold target weight
  simp only [hm]
  have : ((i : ℚ) + 1) ≠ 0 := by positivity
  cases cfg.method with
  | explicitEuler c => rfl
  | averaging =>
    simp only
    field_simp
    ring

theorem tiny : (1 : ℚ) / 2 ^ 1070 ≤ 1 / 2 ^ 60 := by
  rw [div_le_div_iff_of_pos_left one_pos (by positivity) (by positivity)]
  exact pow_le_pow_right₀ (by norm_num) (by norm_num)

theorem step_core {n lam old rel mold M T τ y R A B : ℚ} (hn0 : 0 ≤ n) (hn : n ≤ 2 ^ 40) (hR : 1 ≤ R)
    (ho : old ≤ 2 * R) (hr : rel ≤ R) (hl0 : 0 ≤ lam) (hl1 : lam ≤ 1) (hm1 : (1 - lam) * |mold - 1| ≤ (n + 8) / 2 ^ 52)
    (hA : A = (1 - lam) * mold + lam) (hB : B ≤ 4 / 2 ^ 48)
    (hM : |M - A| ≤ (n + 4) / 2 ^ 52 * (A + B) + B)
    (hT : T = (1 - lam) * old + lam * rel) (hτ : τ ≤ 4 * R / 2 ^ 48) (hy0 : 0 ≤ y)
    (hy : |y * M - T| ≤ 2 * τ + (T + M) / 2 ^ 53) : |y - T| ≤ (n + 36) / 2 ^ 47 * R := by
  have hA1 : |A - 1| ≤ (n + 8) / 2 ^ 52 := by
    have e1 : A - 1 = (1 - lam) * (mold - 1) := by rw [hA]; ring
    rw [e1, abs_mul, abs_of_nonneg (by linarith)]
    exact hm1
  obtain ⟨a1, a2⟩ := rel_step hA1
  obtain ⟨m1, m2⟩ := rel_step hM
  have hA2 : A + B ≤ 2 := by linarith
  have hv : (n + 4) / 2 ^ 52 * (A + B) ≤ (n + 4) / 2 ^ 52 * 2 := mul_le_mul_of_nonneg_left hA2 (by positivity)
  have hM1 : |M - 1| ≤ (n + 30) / 2 ^ 50 := by
    rw [abs_le]
    constructor <;> linarith
  obtain ⟨g1, g2⟩ := rel_step hM1
  have hMh : 1 / 2 ≤ M := by linarith
  have hM2 : M ≤ 2 := by linarith
  have t1 : (1 - lam) * old ≤ (1 - lam) * (2 * R) := mul_le_mul_of_nonneg_left ho (by linarith)
  have t2 : lam * rel ≤ lam * (2 * R) := mul_le_mul_of_nonneg_left (by linarith) hl0
  have hT2 : T ≤ 2 * R := by rw [hT]; linarith
  have hy1 : |y * M - T| ≤ 9 * R / 2 ^ 48 := by linarith
  have hy2 := (rel_step hy1).2
  have hyM : y * (1 / 2) ≤ y * M := mul_le_mul_of_nonneg_left hMh hy0
  have hy6 : y ≤ 6 * R := by linarith
  have hd : |y * (M - 1)| ≤ 6 * R * ((n + 30) / 2 ^ 50) := by
    rw [abs_mul, abs_of_nonneg hy0]
    exact mul_le_mul hy6 hM1 (abs_nonneg _) (by linarith)
  have := abs_sub (y * M - T) (y * (M - 1))
  have e2 : y * M - T - y * (M - 1) = y - T := by ring
  rw [e2] at this
  have e3 : (n + 36) / 2 ^ 47 * R = 6 * R * ((n + 30) / 2 ^ 50) + (2 * n * R + 108 * R) / 2 ^ 50 := by ring
  have hnR : 0 ≤ n * R := mul_nonneg hn0 (by linarith)
  rw [e3]
  linarith

/-- One update is nearly a weighted average. -/
theorem step (h : update i w s cfg = some (.ok d, s')) (hn : s.edges.ids.Nodup)
    (hk : s.edges.ids[k]? = some cfg.metricId) (hs : Sane cfg i w s k) (hmin : cfg.minNewMetric = none)
    (hw : w.length = s.graph.metrics.length) (hc : s.graph.metrics.length ≤ 2 ^ 40) (hm2 : mean s.graph.metrics k ≤ 2)
    (hm1 : (1 - weight cfg.method i) * |mean s.graph.metrics k - 1| ≤ (s.graph.metrics.length + 8) / 2 ^ 52)
    {e : Nat} {old R : ℚ} (ho : value s.graph.metrics e k = some old) (hR : 1 ≤ R) (hoR : old ≤ 2 * R)
    (hr : relative w e ≤ R) :
    ∃ y, value s'.graph.metrics e k = some y ∧
      |y - ((1 - weight cfg.method i) * old + weight cfg.method i * relative w e)| ≤
        (s.graph.metrics.length + 36) / 2 ^ 47 * R := by
  have he : e < w.length := by
    obtain ⟨m, hm, -⟩ := Bal.value_eq_some.mp ho
    rw [hw]
    exact lt_of_some hm
  have hne : w ≠ [] := by rintro rfl; simp at he
  have hav : 0 < average (w.map fun n : Nat => (n : ℚ)) :=
    lt_of_lt_of_le (by norm_num) (C113_workloads h hs).1
  obtain ⟨M, hM0, -, hM, hv⟩ := C113_values h hn hk hs
  obtain ⟨old', y, hv1, hv2, hv3⟩ := hv e he
  rw [ho, Option.some.injEq] at hv1
  subst hv1
  obtain ⟨hl0, hl1⟩ := weight_bounds (i := i) hs.correction
  have hT := target_weight (i := i) hmin
  have hA : average (targets cfg i w s.graph.metrics k) =
      (1 - weight cfg.method i) * mean s.graph.metrics k + weight cfg.method i := by
    have := average_lin (k := k) (ms := s.graph.metrics) (a := 1 - weight cfg.method i) (b := weight cfg.method i)
      (c := 0) (f := fun e => target cfg i ((value s.graph.metrics e k).getD 0) (relative w e))
      (fun e => by rw [hT, add_zero]) hw hne hav
    rw [add_zero] at this
    exact this
  have hB : average (tolerances cfg w s.graph.metrics k) =
      1 / 2 ^ 48 * mean s.graph.metrics k + 1 / 2 ^ 48 + 1 / 2 ^ 1070 := by
    refine average_lin (k := k) (ms := s.graph.metrics) (a := 1 / 2 ^ 48) (b := 1 / 2 ^ 48) (c := 1 / 2 ^ 1070)
      (f := fun e => tolerance cfg ((value s.graph.metrics e k).getD 0) (relative w e)) (fun e => ?_) hw hne hav
    unfold tolerance
    rw [if_pos hmin, add_zero, add_div]
    generalize (1 : ℚ) / 2 ^ 1070 = p
    ring
  have hy0 : 0 ≤ y := (update_numbers h hn hk hs hw e y hv2).1
  have htiny := tiny
  rw [hw] at hM
  refine ⟨y, hv2, step_core (τ := tolerance cfg old (relative w e)) (Nat.cast_nonneg _) (by exact_mod_cast hc) hR hoR
    hr hl0 hl1 hm1 hA ?_ hM rfl ?_ hy0 (by rw [← hT]; exact hv3)⟩
  · rw [hB]
    generalize (1 : ℚ) / 2 ^ 1070 = p at *
    linarith
  · unfold tolerance
    rw [if_pos hmin, add_zero]
    generalize (1 : ℚ) / 2 ^ 1070 = p at *
    linarith

end

end Verif.BalF
