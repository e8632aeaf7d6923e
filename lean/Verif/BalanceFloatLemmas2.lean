import Verif.BalanceFloatLemmas

/-!
# Lemmas on the update with `f64`: what is computed, and how wrong it is
-/

namespace Verif.BalF

open Gen Fp
open Bal (average relative targets target meanAt OnlyMetric)

/-! ## What is computed -/

/-- The computed mean of the workloads. -/
def mean0 (w : List Nat) : ℚ := rnd (sumR 0 (w.map fun n : Nat => rnd (n : ℚ)) / rnd w.length)

/-- The computed target of edge `e`. -/
def targetR (cfg : Bal.Config) (i : Nat) (w : List Nat) (ms : List (List ℚ)) (k e : Nat) : ℚ :=
  floorR cfg (blendR cfg.method i ((value ms e k).getD 0) (rnd (rnd (w.getD e 0 : ℚ) / mean0 w)))

/-- The computed targets. -/
def targetsR (cfg : Bal.Config) (i : Nat) (w : List Nat) (ms : List (List ℚ)) (k : Nat) : List ℚ :=
  (List.range w.length).map (targetR cfg i w ms k)

theorem targetsR_length (cfg : Bal.Config) (i : Nat) (w : List Nat) (ms : List (List ℚ)) (k : Nat) :
    (targetsR cfg i w ms k).length = w.length := by simp [targetsR]

/-- The computed mean of the targets. -/
def meanR (cfg : Bal.Config) (i : Nat) (w : List Nat) (ms : List (List ℚ)) (k : Nat) : ℚ :=
  rnd (sumR 0 (targetsR cfg i w ms k) / rnd w.length)

theorem newMetric_ok {i : Nat} {w : List Nat} {s : Net} {cfg : Bal.Config} {k : Nat} {ys : List ℚ} {mean : ℚ}
    (h : newMetric i w s cfg = .ok (k, ys, mean)) :
    s.edges.ids[k]? = some cfg.metricId ∧
      (∀ e < w.length, (value s.graph.metrics e k).isSome) ∧
      w ≠ [] ∧ Over.eq (mean0 w) 0 = false ∧
      (cfg.minNewMetric = none → cfg.isErrWhenZero = true →
        ∀ x ∈ targetsR cfg i w s.graph.metrics k, le x 0 = false) ∧
      mean = meanR cfg i w s.graph.metrics k ∧ le mean 0 = false ∧ |mean| ≤ Over.maxF ∧
      ys = (targetsR cfg i w s.graph.metrics k).map fun x => rnd (x / mean) := by
  unfold newMetric at h
  split at h
  · simp at h
  rename_i k' hk
  obtain ⟨m0, h1, h⟩ := Res.bind_eq_ok.mp h
  split at h
  · simp at h
  rename_i hz
  obtain ⟨d, h2, h⟩ := Res.bind_eq_ok.mp h
  obtain ⟨b, h3, h⟩ := Res.bind_eq_ok.mp h
  obtain ⟨t, h4, h⟩ := Res.bind_eq_ok.mp h
  obtain ⟨m1, h5, h⟩ := Res.bind_eq_ok.mp h
  split at h
  · simp at h
  rename_i hp
  obtain ⟨r, h6, h⟩ := Res.bind_eq_ok.mp h
  simp only [Res.pure_eq, Res.ok.injEq, Prod.mk.injEq] at h
  obtain ⟨rfl, rfl, rfl⟩ := h
  obtain ⟨m1', m2, -⟩ := meanOf_ok h1
  rw [List.length_map] at m2
  have hm0 : m0 = mean0 w := m2
  have hw : w ≠ [] := by rintro rfl; simp at m1'
  have hid : s.edges.ids[k']? = some cfg.metricId :=
    idxOf_ok (by unfold idxOf; rw [hk])
  have hd := divideBy_ok h2
  have hlen : d.length = w.length := by rw [hd]; simp
  obtain ⟨b1, b2⟩ := Bal.blendAll_ok (blendAll_ok (g := blendR cfg.method i) (fun a b y => blend_ok) h3)
  obtain ⟨t1, t2⟩ := atLeast_ok h4
  rw [hlen] at b1 b2
  simp only [Nat.zero_add] at b1 b2
  have ht : t = targetsR cfg i w s.graph.metrics k' := by
    rw [t1, b2, List.map_map]
    unfold targetsR
    refine List.map_congr_left fun e he => ?_
    have he := List.mem_range.mp he
    simp only [Function.comp_apply, targetR]
    congr 2
    rw [hd, hm0]
    simp [List.getD_eq_getElem?_getD, he]
  obtain ⟨n1, n2, n3⟩ := meanOf_ok h5
  refine ⟨hid, b1, hw, ?_, ?_, ?_, by simpa using hp, n3, ?_⟩
  · rw [← hm0]; simpa using hz
  · intro hn hf x hx
    refine t2 hn hf x ?_
    rw [← ht, t1] at hx
    obtain ⟨y, hy, rfl⟩ := List.mem_map.mp hx
    unfold floorR
    rw [hn]
    exact hy
  · rw [n2, ht, targetsR_length]; rfl
  · rw [divideBy_ok h6, ht]

/-- All about a finished update. -/
theorem update_ok {i : Nat} {w : List Nat} {s s' : Net} {cfg : Bal.Config} {d : Bal.Done}
    (h : update i w s cfg = some (.ok d, s')) :
    ∃ k, s.edges.ids[k]? = some cfg.metricId ∧
      (∀ e < w.length, (value s.graph.metrics e k).isSome) ∧ w ≠ [] ∧ Over.eq (mean0 w) 0 = false ∧
      (cfg.minNewMetric = none → cfg.isErrWhenZero = true →
        ∀ x ∈ targetsR cfg i w s.graph.metrics k, le x 0 = false) ∧
      le (meanR cfg i w s.graph.metrics k) 0 = false ∧ |meanR cfg i w s.graph.metrics k| ≤ Over.maxF ∧
      OnlyMetric k w.length s s' ∧
      (∀ e < w.length, value s'.graph.metrics e k =
        some (rnd (targetR cfg i w s.graph.metrics k e / meanR cfg i w s.graph.metrics k))) ∧
      (s.graph.means ≠ none → meanAt s'.graph k = some (meanR cfg i w s.graph.metrics k)) ∧ d = .finished := by
  unfold update at h
  split at h
  · rename_i k ys mean hn
    obtain ⟨n1, n2, n3, n4, n5, n6, n7, n8, n9⟩ := newMetric_ok hn
    have hlen : ys.length = w.length := by rw [n9, List.length_map, targetsR_length]
    rw [Option.some.injEq] at h
    have hmeans : ∀ means, s.graph.means = some means → k < means.length := by
      intro means hms
      by_contra hlt
      unfold Bal.store at h
      simp only [hms, if_neg hlt, Prod.mk.injEq, reduceCtorEq, false_and] at h
    obtain ⟨s'', s1, s2, s3, s4⟩ := Bal.store_ok (k := k) (xs := ys) (mean := some mean) (s := s)
      (by rw [hlen]; exact n2) hmeans (by simp)
    rw [if_neg (by simp)] at s1
    rw [s1, Prod.mk.injEq, Res.ok.injEq] at h
    obtain ⟨rfl, rfl⟩ := h
    rw [hlen] at s2 s3
    refine ⟨k, n1, n2, n3, n4, n5, n6 ▸ n7, n6 ▸ n8, s2, fun e he => ?_, fun hm => ?_, rfl⟩
    · rw [s3 e he, n9, n6, List.getElem?_map, targetsR, List.getElem?_map, List.getElem?_range he]
      rfl
    · rw [← n6]; exact s4 mean rfl hm
  · simp at h
  · simp at h
  · simp at h

/-! ## Errors -/

theorem rel_step {a b δ : ℚ} (h : |a - b| ≤ δ) : b - δ ≤ a ∧ a ≤ b + δ := by
  rw [abs_le] at h
  constructor <;> linarith

/-- The mean of the workloads is nearly exact. -/
theorem mean0_near {w : List Nat} (hs : w.sum ≤ 2 ^ 53) (hl : w.length ≤ 2 ^ 50) (hw : w ≠ []) (h0 : w.sum ≠ 0) :
    |mean0 w - average (w.map fun n : Nat => (n : ℚ))| ≤ 1 / 2 ^ 52 * average (w.map fun n : Nat => (n : ℚ)) ∧
    0 < average (w.map fun n : Nat => (n : ℚ)) := by
  have hn : 0 < w.length := List.length_pos_iff.mpr hw
  have hn' : (1 : ℚ) ≤ w.length := by exact_mod_cast hn
  have hn2 : (w.length : ℚ) ≤ 2 ^ 50 := by exact_mod_cast hl
  have e1 : sumR 0 (w.map fun n : Nat => rnd (n : ℚ)) = (w.sum : ℚ) := by
    have := sumR_nat (a := 0) (w := w) (by omega)
    rw [map_rnd_nat hs]
    simpa using this
  have e2 : average (w.map fun n : Nat => (n : ℚ)) = (w.sum : ℚ) / w.length := by
    unfold average
    rw [List.length_map, ← Nat.cast_list_sum]
  have e3 : mean0 w = rnd ((w.sum : ℚ) / w.length) := by
    unfold mean0
    rw [e1, isNum_nat (by omega)]
  have hsum : (1 : ℚ) ≤ w.sum := by exact_mod_cast Nat.pos_of_ne_zero h0
  have hA : (1 : ℚ) / 2 ^ 50 ≤ (w.sum : ℚ) / w.length := by
    rw [div_le_div_iff₀ (by norm_num) (by linarith)]
    nlinarith
  rw [e2, e3]
  have hpos : 0 < (w.sum : ℚ) / w.length := lt_of_lt_of_le (by norm_num) hA
  refine ⟨?_, hpos⟩
  have := any_nonneg hpos.le
  have he := eta_le (k := 103) (by norm_num)
  refine le_trans this ?_
  have : eta ≤ 1 / 2 ^ 53 * ((w.sum : ℚ) / w.length) := by
    refine le_trans he ?_
    have := mul_le_mul_of_nonneg_left hA (show (0 : ℚ) ≤ 1 / 2 ^ 53 by norm_num)
    refine le_trans ?_ this
    norm_num
  linarith

/-- Relative workloads are nearly exact. -/
theorem rel_near {w : List Nat} (hs : w.sum ≤ 2 ^ 53) (hl : w.length ≤ 2 ^ 50) (hw : w ≠ []) (h0 : w.sum ≠ 0)
    (e : Nat) : |rnd (rnd (w.getD e 0 : ℚ) / mean0 w) - relative w e| ≤ 5 / 2 ^ 53 * relative w e + eta := by
  obtain ⟨h1, hA⟩ := mean0_near hs hl hw h0
  generalize hAv : average (w.map fun n : Nat => (n : ℚ)) = A at *
  have hrel : relative w e = (w.getD e 0 : ℚ) / A := by unfold relative; rw [hAv]
  have hwe : w.getD e 0 ≤ w.sum := by
    rw [List.getD_eq_getElem?_getD]
    cases h : w[e]? with
    | none => simp
    | some x => simpa using List.le_sum_of_mem (List.mem_of_getElem? h)
  rw [isNum_nat (by omega), hrel]
  have hx : (0 : ℚ) ≤ (w.getD e 0 : ℚ) := Nat.cast_nonneg _
  generalize ((w.getD e 0 : ℕ) : ℚ) = x at *
  obtain ⟨g1, g2⟩ := rel_step h1
  have hM : 0 < mean0 w := by linarith [show (0 : ℚ) < A - 1 / 2 ^ 52 * A by linarith]
  have hq : 0 ≤ x / mean0 w := div_nonneg hx hM.le
  have hR : 0 ≤ x / A := div_nonneg hx hA.le
  -- the quotient
  have q1 : x / mean0 w - x / A = x / A * ((A - mean0 w) / mean0 w) := by
    field_simp
  have q2 : |(A - mean0 w) / mean0 w| ≤ 3 / 2 ^ 53 := by
    rw [abs_div, abs_of_pos hM, div_le_iff₀ hM, abs_sub_comm]
    refine le_trans h1 ?_
    linarith
  have q3 : |x / mean0 w - x / A| ≤ 3 / 2 ^ 53 * (x / A) := by
    rw [q1, abs_mul, abs_of_nonneg hR, mul_comm]
    exact mul_le_mul_of_nonneg_right q2 hR
  have q4 := any_nonneg hq
  rw [abs_le] at *
  constructor <;> linarith [q3.1, q3.2, q4.1, q4.2]

/-- The blend is nearly exact. -/
theorem blend_near {method : Bal.Method} {i : Nat} {old x R : ℚ} (hi : i < 2 ^ 53)
    (hc : ∀ c, method = .explicitEuler c → 0 ≤ c ∧ c ≤ 1) (ho : 0 ≤ old) (hR : 0 ≤ R)
    (hx : |x - R| ≤ 5 / 2 ^ 53 * R + eta) :
    |blendR method i old x - Bal.blend method i old R| ≤ (old + R) / 2 ^ 48 + 31 * eta := by
  have hη := eta_nonneg
  obtain ⟨x1, x2⟩ := rel_step hx
  unfold blendR Bal.blend
  cases method with
  | explicitEuler c =>
    obtain ⟨c0, c1⟩ := hc c rfl
    simp only
    have d1 := any (x - old)
    have hxo : |x - old| ≤ 2 * (old + R) + eta := by
      rw [abs_le]; constructor <;> linarith
    generalize rnd (x - old) = d at *
    have p1 := any (d * c)
    have hd : |d| ≤ 4 * (old + R) + 3 * eta := by
      have : |d| ≤ |d - (x - old)| + |x - old| := by
        have := abs_add_le (d - (x - old)) (x - old)
        rwa [sub_add_cancel] at this
      linarith
    have hdc : |d * c| ≤ |d| := by
      rw [abs_mul, abs_of_nonneg c0]
      exact mul_le_of_le_one_right (abs_nonneg d) c1
    generalize rnd (d * c) = p at *
    have b1 := any (old + p)
    have hp : |p| ≤ 8 * (old + R) + 7 * eta := by
      have : |p| ≤ |p - d * c| + |d * c| := by
        have := abs_add_le (p - d * c) (d * c)
        rwa [sub_add_cancel] at this
      linarith
    have hop : |old + p| ≤ old + |p| := by
      have := abs_add_le old p
      rwa [abs_of_nonneg ho] at this
    generalize rnd (old + p) = b at *
    -- the product
    have hdr : |d * c - (R - old) * c| ≤ |d - (R - old)| := by
      rw [← sub_mul, abs_mul, abs_of_nonneg c0]
      exact mul_le_of_le_one_right (abs_nonneg _) c1
    have hdr2 : |d - (R - old)| ≤ |d - (x - old)| + |x - R| := by
      have := abs_add_le (d - (x - old)) (x - R)
      have e : d - (x - old) + (x - R) = d - (R - old) := by ring
      rwa [e] at this
    have t1 : |b - (old + (R - old) * c)| ≤ |b - (old + p)| + |p - d * c| + |d * c - (R - old) * c| := by
      have := abs_add_three (b - (old + p)) (p - d * c) (d * c - (R - old) * c)
      have e : b - (old + p) + (p - d * c) + (d * c - (R - old) * c) = b - (old + (R - old) * c) := by ring
      rwa [e] at this
    linarith
  | averaging =>
    simp only
    have e1 : rnd (i : ℚ) = i := isNum_nat hi.le
    have e2 : rnd ((i + 1 : Nat) : ℚ) = (i + 1 : Nat) := isNum_nat (by omega)
    rw [e1, e2]
    have hi0 : (0 : ℚ) ≤ i := Nat.cast_nonneg i
    have hio : 0 ≤ (i : ℚ) * old := mul_nonneg hi0 ho
    have p1 := any_nonneg hio
    generalize rnd ((i : ℚ) * old) = p at *
    have s1 := any (p + x)
    obtain ⟨p2, p3⟩ := rel_step p1
    have hpx : |p + x| ≤ 2 * ((i : ℚ) * old + R) + 2 * eta := by
      rw [abs_le]; constructor <;> linarith
    generalize rnd (p + x) = s at *
    have hs : |s - ((i : ℚ) * old + R)| ≤ 8 / 2 ^ 53 * ((i : ℚ) * old + R) + 5 * eta := by
      obtain ⟨s2, s3⟩ := rel_step s1
      rw [abs_le]; constructor <;> linarith
    have hN : (0 : ℚ) < (i + 1 : Nat) := by positivity
    have hN1 : (1 : ℚ) ≤ (i + 1 : Nat) := by push_cast; linarith
    have hq : |s / (i + 1 : Nat) - ((i : ℚ) * old + R) / (i + 1 : Nat)| ≤
        8 / 2 ^ 53 * (((i : ℚ) * old + R) / (i + 1 : Nat)) + 5 * eta := by
      rw [← sub_div, abs_div, abs_of_pos hN, div_le_iff₀ hN]
      refine le_trans hs ?_
      rw [add_mul, mul_assoc (8 / 2 ^ 53 : ℚ), div_mul_cancel₀ _ hN.ne']
      have := mul_le_mul_of_nonneg_left hN1 (show 0 ≤ 5 * eta by linarith)
      linarith
    have hT : ((i : ℚ) * old + R) / (i + 1 : Nat) ≤ old + R := by
      rw [div_le_iff₀ hN]
      push_cast
      nlinarith [mul_nonneg hi0 hR]
    have hT0 : 0 ≤ ((i : ℚ) * old + R) / (i + 1 : Nat) := div_nonneg (add_nonneg hio hR) hN.le
    generalize ((i : ℚ) * old + R) / (i + 1 : Nat) = T at *
    have b1 := any (s / (i + 1 : Nat))
    generalize s / ((i + 1 : Nat) : ℚ) = y at *
    obtain ⟨y1, y2⟩ := rel_step hq
    have hy : |y| ≤ 2 * T + 5 * eta := by rw [abs_le]; constructor <;> linarith
    obtain ⟨b2, b3⟩ := rel_step b1
    rw [abs_le]
    constructor <;> linarith

/-- Nothing becomes negative. -/
theorem blend_nonneg {method : Bal.Method} {i : Nat} {old x : ℚ}
    (hc : ∀ c, method = .explicitEuler c → 0 ≤ c ∧ c ≤ 1) (ho : 0 ≤ old) (hon : IsNum old) (hx : 0 ≤ x) :
    0 ≤ blendR method i old x := by
  unfold blendR
  cases method with
  | explicitEuler c =>
    obtain ⟨c0, c1⟩ := hc c rfl
    simp only
    have h1 : -old ≤ rnd (x - old) := le_rnd (by linarith) (isNum_neg hon)
    have h2 : -old ≤ rnd (x - old) * c := by nlinarith
    have h3 : -old ≤ rnd (rnd (x - old) * c) := le_rnd h2 (isNum_neg hon)
    exact nonneg (by linarith)
  | averaging =>
    simp only
    exact nonneg (div_nonneg (nonneg (add_nonneg (nonneg (mul_nonneg (nonneg (Nat.cast_nonneg _)) ho)) hx))
      (nonneg (Nat.cast_nonneg _)))

end Verif.BalF
