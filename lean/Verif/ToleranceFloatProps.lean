import Verif.ToleranceFloat
import Verif.PathFloatProps

/-!
# C118: tolerances with `f64`
-/

namespace Verif.TolF

open Special (Num)
open BalF (IsNum rnd eta)
open PathF (Metrics Known total calcCosts FPath)
open Graph (DimOk)

theorem tolerates_iff {c : List (Option ℚ)} {ts : List (Num ℚ)} :
    tolerates c ts = true ↔ ∀ (k : Nat) (x : Option ℚ) (t : Num ℚ), c[k]? = some x → ts[k]? = some t → greater x t = false := by
  unfold tolerates
  rw [List.all_eq_true]
  constructor
  · intro h k x t hx ht
    have hz : (c.zip ts)[k]? = some (x, t) := by simp [List.getElem?_zip_eq_some, hx, ht]
    have := h _ (List.mem_of_getElem? hz)
    simpa using this
  · intro h y hy
    obtain ⟨k, hk⟩ := List.mem_iff_getElem?.mp hy
    obtain ⟨h1, h2⟩ := List.getElem?_zip_eq_some.mp hk
    simp [h k _ _ h1 h2]

theorem greater_fin {a b : ℚ} (ha : IsNum a) (hb : IsNum b) (h : greater (some a) (.fin b) = false) : a ≤ b + 1 / 625000 := by
  simp only [greater, Bool.and_eq_false_iff, Bool.not_eq_false', decide_eq_false_iff_not, not_lt] at h
  rcases h with h | h
  · linarith [(abs_le.mp (BalF.eq_near' ha hb h)).2]
  · linarith

theorem tolerance_fin {s c z : ℚ} (h : Over.op (c * s) = some z) : tolerance (some s) (some c) = .fin z := by
  simp only [tolerance, times, h]

theorem tolerance_inf {s c : ℚ} (h : Over.op (c * s) = none) (h0 : 0 ≤ c * s) : tolerance (some s) (some c) = .inf := by
  simp only [tolerance, times, h, if_neg (not_lt.mpr h0)]

theorem not_greater {a b : ℚ} (h : a ≤ b) : greater (some a) (.fin b) = false := by
  simp only [greater, Bool.and_eq_false_iff, decide_eq_false_iff_not, not_lt]
  exact Or.inr h

theorem big_pow : ((2 : ℚ) ^ 52 * 2 ^ 900) * 2 ≤ 2 ^ 960 := by
  rw [← pow_add, ← pow_succ]
  exact pow_le_pow_right₀ (by norm_num) (by norm_num)

theorem maxF_large : (2 : ℚ) ^ 960 ≤ Over.maxF := by decide +kernel

/-- The cost of a path is finite and near to the sum. -/
theorem cost_num {g : Graph} (hd : DimOk g) (hm : Metrics g) {l : List Nat} (hl : Known g l) {c : List (Option ℚ)}
    (h : calcCosts g ⟨l, none⟩ = .ok ⟨l, some c⟩) {k : Nat} (hk : k < g.dim) (hn : l.length ≤ 2 ^ 52)
    (hs : ∀ e ∈ l, g.metric e k ≤ 2 ^ 900) :
    ∃ x, c[k]? = some (some x) ∧ IsNum x ∧ 0 ≤ x ∧ x ≤ total g l k * (1 + l.length / 2 ^ 52) ∧
      total g l k * (1 - l.length / 2 ^ 52) ≤ x := by
  obtain ⟨x, hx, hx1⟩ := PathF.C116_near hd hm hl h hk hn hs
  have ht := PathF.total_nonneg hm l k
  rcases PathF.C116_cost hd hm hl h hk with ⟨y, hy, hy1, hy2, -⟩ | ⟨hy, -⟩
  · rw [hx] at hy
    cases hy
    obtain ⟨a1, a2⟩ := abs_le.mp hx1
    refine ⟨x, hx, hy1, le_trans (by positivity) hy2, by linarith, by linarith⟩
  · rw [hx] at hy
    cases hy

theorem total_le {g : Graph} {l : List Nat} {k : Nat} (hs : ∀ e ∈ l, g.metric e k ≤ 2 ^ 900) :
    total g l k ≤ l.length * 2 ^ 900 := by
  unfold total
  have := List.sum_le_card_nsmul (l.map fun e => g.metric e k) (2 ^ 900) (by
    intro x hx
    obtain ⟨e, he, rfl⟩ := List.mem_map.mp hx
    exact hs e he)
  simpa using this

/-- C118: the exact cost of a tolerated path doesn't exceed the scaled exact cost of the best path, up to the accuracy of
comparisons and errors of rounding. -/
theorem C118_tolerated {g : Graph} (hd : DimOk g) (hm : Metrics g) {l l' : List Nat} (hl : Known g l) (hl' : Known g l')
    {c c' : List (Option ℚ)} (h : calcCosts g ⟨l, none⟩ = .ok ⟨l, some c⟩)
    (h' : calcCosts g ⟨l', none⟩ = .ok ⟨l', some c'⟩) {k : Nat} (hk : k < g.dim) (hn : l.length ≤ 2 ^ 52)
    (hn' : l'.length ≤ 2 ^ 52) (hs : ∀ e ∈ l, g.metric e k ≤ 2 ^ 900) (hs' : ∀ e ∈ l', g.metric e k ≤ 2 ^ 900)
    {s : ℚ} (hs0 : 0 ≤ s) {best : Option ℚ} (hb : c'[k]? = some best) {ts : List (Num ℚ)}
    (ht : ts[k]? = some (tolerance (some s) best)) (hacc : tolerates c ts = true) :
    total g l k * (1 - l.length / 2 ^ 52) ≤
      s * total g l' k * (1 + l'.length / 2 ^ 52) * (1 + 1 / 2 ^ 53) + 1 / 600000 := by
  obtain ⟨x, hx, x1, x2, x3, x4⟩ := cost_num hd hm hl h hk hn hs
  obtain ⟨y, hy, y1, y2, y3, y4⟩ := cost_num hd hm hl' h' hk hn' hs'
  rw [hb] at hy
  cases hy
  have hg := tolerates_iff.mp hacc k _ _ hx ht
  have hys : 0 ≤ y * s := by positivity
  have hany := (abs_le.mp (BalF.any_nonneg hys)).2
  have heta : eta ≤ 1 / 2 ^ 53 := BalF.eta_le (by norm_num)
  have hscale : y * s ≤ s * total g l' k * (1 + l'.length / 2 ^ 52) := by
    calc y * s = s * y := mul_comm _ _
      _ ≤ s * (total g l' k * (1 + l'.length / 2 ^ 52)) := by gcongr
      _ = _ := by ring
  have hup : rnd (y * s) ≤ s * total g l' k * (1 + l'.length / 2 ^ 52) * (1 + 1 / 2 ^ 53) + 1 / 2 ^ 53 := by
    have : y * s * (1 + 1 / 2 ^ 53) ≤ s * total g l' k * (1 + l'.length / 2 ^ 52) * (1 + 1 / 2 ^ 53) := by gcongr
    linarith
  refine le_trans x4 ?_
  cases ho : Over.op (y * s) with
  | some z =>
    rw [tolerance_fin ho] at hg
    have hz := PathF.op_some ho
    have := greater_fin x1 (by rw [hz]; exact BalF.isNum_rnd _) hg
    rw [hz] at this
    have e : (1 : ℚ) / 2 ^ 53 + 1 / 625000 ≤ 1 / 600000 := by norm_num
    linarith
  | none =>
    have hmax := PathF.op_none hys ho
    have hxmax : x ≤ Over.maxF := by
      refine le_trans ?_ maxF_large
      have htl := total_le hs
      have hnq : (l.length : ℚ) ≤ 2 ^ 52 := by exact_mod_cast hn
      have h2 : (1 : ℚ) + l.length / 2 ^ 52 ≤ 2 := by
        have : (l.length : ℚ) / 2 ^ 52 ≤ 1 := (div_le_one (by positivity)).mpr hnq
        linarith
      have t0 := PathF.total_nonneg hm l k
      calc x ≤ total g l k * (1 + l.length / 2 ^ 52) := x3
        _ ≤ (2 ^ 52 * 2 ^ 900) * 2 := by
          have h3 : total g l k ≤ 2 ^ 52 * 2 ^ 900 := le_trans htl (by gcongr)
          gcongr
        _ ≤ 2 ^ 960 := big_pow
    have e : (1 : ℚ) / 2 ^ 53 ≤ 1 / 600000 := by norm_num
    linarith

/-- C118: a path is tolerated if, for every metric, there is no limit or its exact cost is below the scaled exact cost of
the best path, up to errors of rounding. -/
theorem C118_kept {g : Graph} (hd : DimOk g) (hm : Metrics g) {l : List Nat} (hl : Known g l)
    {c : List (Option ℚ)} (h : calcCosts g ⟨l, none⟩ = .ok ⟨l, some c⟩) (hn : l.length ≤ 2 ^ 52)
    (hs : ∀ k < g.dim, ∀ e ∈ l, g.metric e k ≤ 2 ^ 900) {ts : List (Num ℚ)}
    (ht : ∀ (k : Nat) (t : Num ℚ), k < g.dim → ts[k]? = some t → t = tolerance none none ∨
      ∃ (l' : List Nat) (c' : List (Option ℚ)) (s : ℚ) (best : Option ℚ), Known g l' ∧ l'.length ≤ 2 ^ 52 ∧
        (∀ e ∈ l', g.metric e k ≤ 2 ^ 900) ∧ calcCosts g ⟨l', none⟩ = .ok ⟨l', some c'⟩ ∧ c'[k]? = some best ∧
        0 ≤ s ∧ t = tolerance (some s) best ∧
        total g l k * (1 + l.length / 2 ^ 52) ≤ s * total g l' k * (1 - l'.length / 2 ^ 52)) :
    tolerates c ts = true := by
  rw [tolerates_iff]
  intro k x t hx htk
  have hk : k < g.dim := by
    obtain ⟨c1, h1, h2⟩ := (PathF.C116_total hd l).1 hl
    rw [h] at h1
    cases h1
    have := (List.getElem?_eq_some_iff.mp hx).1
    omega
  obtain ⟨x', hx', x1, x2, x3, x4⟩ := cost_num hd hm hl h hk hn (hs k hk)
  rw [hx] at hx'
  cases hx'
  rcases ht k t hk htk with rfl | ⟨l', c', s, best, hl', hn', hs', h', hb, hs0, rfl, hle⟩
  · rfl
  · obtain ⟨y, hy, y1, y2, y3, y4⟩ := cost_num hd hm hl' h' hk hn' hs'
    rw [hb] at hy
    cases hy
    have hys : 0 ≤ y * s := by positivity
    have hxy : x' ≤ y * s := by
      calc x' ≤ s * total g l' k * (1 - l'.length / 2 ^ 52) := le_trans x3 hle
        _ = s * (total g l' k * (1 - l'.length / 2 ^ 52)) := by ring
        _ ≤ s * y := by gcongr
        _ = y * s := mul_comm _ _
    have hr := BalF.le_rnd hxy x1
    cases ho : Over.op (y * s) with
    | some z =>
      rw [tolerance_fin ho]
      exact not_greater (by rw [PathF.op_some ho]; exact hr)
    | none => rw [tolerance_inf ho hys]; rfl

/-- C118: if the scale isn't below one, then the best path for a metric meets its own tolerance for this metric, whatever
it costs. -/
theorem C118_itself {cost : Option ℚ} (hc : ∀ x, cost = some x → 0 ≤ x ∧ IsNum x) {scale : Option ℚ}
    (hs : ∀ s, scale = some s → 1 ≤ s) : greater cost (tolerance scale cost) = false := by
  cases scale with
  | none => cases cost <;> rfl
  | some s =>
    have hs1 := hs s rfl
    cases cost with
    | none =>
      unfold tolerance
      dsimp only
      rw [if_neg (by linarith), if_neg (by linarith)]
      rfl
    | some x =>
      obtain ⟨h0, h1⟩ := hc x rfl
      have hxs : x ≤ x * s := by nlinarith
      have hr := BalF.le_rnd hxs h1
      cases ho : Over.op (x * s) with
      | some z =>
        rw [tolerance_fin ho]
        exact not_greater (by rw [PathF.op_some ho]; exact hr)
      | none => rw [tolerance_inf ho (by linarith)]; rfl

theorem roundF_mono {x y : ℚ} (h0 : 0 ≤ x) (h : x ≤ y) : Approx.roundF x ≤ Approx.roundF y := by
  unfold Approx.roundF
  rw [if_pos h0, if_pos (le_trans h0 h)]
  exact Int.floor_le_floor (by linarith)

theorem roundF_nonneg {x : ℚ} (h0 : 0 ≤ x) : 0 ≤ Approx.roundF x := by
  unfold Approx.roundF
  rw [if_pos h0]
  exact Int.floor_nonneg.mpr (by linarith)

/-- A smaller difference remains small. -/
theorem eq_mono {a b b' : ℚ} (h : b ≤ b') (h' : b' ≤ a) (he : Over.eq a b = true) : Over.eq a b' = true := by
  rw [Over.C108_compare] at he ⊢
  unfold Fp.eq at he ⊢
  rw [decide_eq_true_eq] at he ⊢
  have e0 : 0 ≤ Fp.eps Fp.f64 := BalF.nonneg (by norm_num [Verif.eps])
  have d0 : 0 ≤ rnd (a - b') := BalF.nonneg (by linarith)
  have d1 : rnd (a - b') ≤ rnd (a - b) := Fp.f64.mono (by linarith)
  have q0 : 0 ≤ rnd (rnd (a - b') / Fp.eps Fp.f64) := BalF.nonneg (by positivity)
  have q1 : rnd (rnd (a - b') / Fp.eps Fp.f64) ≤ rnd (rnd (a - b) / Fp.eps Fp.f64) :=
    Fp.f64.mono (div_le_div_of_nonneg_right d1 e0)
  have r0 : (0 : ℚ) ≤ Approx.roundF (rnd (rnd (a - b') / Fp.eps Fp.f64)) := by exact_mod_cast roundF_nonneg q0
  have r1 : (Approx.roundF (rnd (rnd (a - b') / Fp.eps Fp.f64)) : ℚ) ≤ Approx.roundF (rnd (rnd (a - b) / Fp.eps Fp.f64)) := by
    exact_mod_cast roundF_mono q0 q1
  have s0 : 0 ≤ Fp.approx Fp.f64 (rnd (a - b')) := BalF.nonneg (by positivity)
  have s1 : Fp.approx Fp.f64 (rnd (a - b')) ≤ Fp.approx Fp.f64 (rnd (a - b)) :=
    Fp.f64.mono (mul_le_mul_of_nonneg_right r1 e0)
  have he' := (abs_le.mp he).2
  rw [abs_of_nonneg s0]
  exact le_trans s1 he'

theorem greater_mono {x : Option ℚ} {b b' : ℚ} (h : b ≤ b') (hg : greater x (.fin b) = false) :
    greater x (.fin b') = false := by
  cases x with
  | none => simp [greater] at hg
  | some a =>
    simp only [greater, Bool.and_eq_false_iff, Bool.not_eq_false', decide_eq_false_iff_not, not_lt] at hg ⊢
    rcases hg with hg | hg
    · rcases le_or_gt a b' with h1 | h1
      · exact Or.inr h1
      · exact Or.inl (eq_mono h h1.le hg)
    · exact Or.inr (le_trans hg h)

/-- C118: with a larger scale, nothing is rejected that has been tolerated. -/
theorem C118_monotone {x best scale scale' : Option ℚ} (hb : ∀ y, best = some y → 0 ≤ y)
    (hs : ∀ s, scale = some s → 0 ≤ s) (hle : ∀ s', scale' = some s' → ∃ s, scale = some s ∧ s ≤ s')
    (h : greater x (tolerance scale best) = false) : greater x (tolerance scale' best) = false := by
  cases scale' with
  | none => cases x <;> cases best <;> rfl
  | some s' =>
    obtain ⟨s, rfl, hss⟩ := hle s' rfl
    have hs0 := hs s rfl
    cases best with
    | none =>
      unfold tolerance
      dsimp only
      by_cases h0 : s' = 0
      · rw [if_pos h0]; cases x <;> rfl
      · rw [if_neg h0, if_neg (by linarith)]; cases x <;> rfl
    | some y =>
      have hy := hb y rfl
      have hys : y * s ≤ y * s' := by gcongr
      have hys0 : 0 ≤ y * s := by positivity
      cases ho' : Over.op (y * s') with
      | none => rw [tolerance_inf ho' (by linarith)]; cases x <;> rfl
      | some z' =>
        have hz' := PathF.op_some ho'
        have hr : rnd (y * s) ≤ rnd (y * s') := Fp.f64.mono hys
        rw [tolerance_fin ho']
        cases ho : Over.op (y * s) with
        | some z =>
          rw [tolerance_fin ho] at h
          exact greater_mono (by rw [PathF.op_some ho, hz']; exact hr) h
        | none =>
          exfalso
          have h1 := PathF.op_none hys0 ho
          have h2 : |z'| ≤ Over.maxF := (BalF.num_ok (x := y * s') (by simp [BalF.num, ho'])).2
          rw [hz'] at h2
          linarith [le_abs_self (rnd (y * s'))]

/-! ## Examples -/

theorem roundGraph_small (e : Nat) : PathF.roundGraph.metric e 0 ≤ 2 ^ 900 := by
  have h : (2 : ℚ) ^ 54 ≤ 2 ^ 900 := pow_le_pow_right₀ (by norm_num) (by norm_num)
  refine le_trans ?_ h
  rcases Nat.lt_or_ge e 5 with he | he
  · have : ∀ e < 5, PathF.roundGraph.metric e 0 ≤ 2 ^ 54 := by decide +kernel
    exact this e he
  · have : PathF.roundGraph.metrics[e]? = none := List.getElem?_eq_none (by simpa [PathF.roundGraph] using he)
    simp [Graph.metric, this]

/-- A path with two edges of length 1 is tolerated in comparison with an edge of length `2^53`, so both theorems apply. -/
example : tolerates [some 2] [tolerance (some 1) (some (2 ^ 53))] = true ∧
    (2 : ℚ) * (1 - 2 / 2 ^ 52) ≤ 1 * 2 ^ 53 * (1 + 1 / 2 ^ 52) * (1 + 1 / 2 ^ 53) + 1 / 600000 := by
  have h1 : calcCosts PathF.roundGraph ⟨[1, 2], none⟩ = .ok ⟨[1, 2], some [some 2]⟩ := by decide +kernel
  have h2 : calcCosts PathF.roundGraph ⟨[0], none⟩ = .ok ⟨[0], some [some (2 ^ 53)]⟩ := by decide +kernel
  have k1 : Known PathF.roundGraph [1, 2] := by unfold Known; decide +kernel
  have k2 : Known PathF.roundGraph [0] := by unfold Known; decide +kernel
  have t1 : total PathF.roundGraph [1, 2] 0 = 2 := by decide +kernel
  have t2 : total PathF.roundGraph [0] 0 = 2 ^ 53 := by decide +kernel
  have hkept := C118_kept PathF.roundGraph_dim PathF.roundGraph_metrics k1 h1 (by decide)
    (ts := [tolerance (some 1) (some (2 ^ 53))])
    (by
      intro k hk e _
      obtain rfl : k = 0 := by simp only [PathF.roundGraph] at hk; omega
      exact roundGraph_small e)
    (by
      intro k t hk ht
      obtain rfl : k = 0 := by simp only [PathF.roundGraph] at hk; omega
      cases ht
      refine Or.inr ⟨[0], _, 1, _, k2, by decide, fun e _ => roundGraph_small e, h2, rfl, by norm_num, rfl, ?_⟩
      rw [t1, t2]
      norm_num)
  refine ⟨hkept, ?_⟩
  have := C118_tolerated PathF.roundGraph_dim PathF.roundGraph_metrics k1 k2 h1 h2 (k := 0) (by decide) (by decide)
    (by decide) (fun e _ => roundGraph_small e) (fun e _ => roundGraph_small e) (s := 1) (by norm_num) rfl
    (ts := [tolerance (some 1) (some (2 ^ 53))]) rfl hkept
  rw [t1, t2] at this
  simpa using this

/-- Scales and costs that meet the conditions of the other theorems. -/
example : greater (some 3) (tolerance (some (3 / 2)) (some 3)) = false ∧
    greater (some 4) (tolerance (some (5 / 4)) (some 3)) = true ∧
    greater (some 4) (tolerance (some (3 / 2)) (some 3)) = false := by
  refine ⟨C118_itself (fun x hx => ?_) fun s hs => ?_, by decide +kernel, C118_monotone (scale := some (11 / 8)) ?_ ?_ ?_
    (by decide +kernel)⟩
  · cases hx
    exact ⟨by norm_num, by unfold IsNum; decide +kernel⟩
  · cases hs; norm_num
  · rintro y ⟨⟩; norm_num
  · rintro s ⟨⟩; norm_num
  · rintro s ⟨⟩; exact ⟨_, rfl, by norm_num⟩

/-- The longer path is tolerated with a scale of 1, although it is longer by 1, which is lost by rounding. -/
theorem C118_false_exact : ∃ (g : Graph) (l l' : List Nat) (c c' : List (Option ℚ)) (best : Option ℚ), DimOk g ∧
    Metrics g ∧ Known g l ∧ Known g l' ∧ calcCosts g ⟨l, none⟩ = .ok ⟨l, some c⟩ ∧
    calcCosts g ⟨l', none⟩ = .ok ⟨l', some c'⟩ ∧ c'[0]? = some best ∧
    tolerates c [tolerance (some 1) best] = true ∧ total g l' 0 + 1 ≤ total g l 0 :=
  ⟨PathF.roundGraph, [0, 1], [0], [some (2 ^ 53)], [some (2 ^ 53)], some (2 ^ 53), PathF.roundGraph_dim,
    PathF.roundGraph_metrics, by unfold Known; decide +kernel, by unfold Known; decide +kernel, by decide +kernel,
    by decide +kernel, rfl, by decide +kernel, by decide +kernel⟩

/-- Everything is tolerated if the best path is infinitely long and the scale is zero, since the tolerance is undefined. -/
theorem C118_false_zero : tolerates [none] [tolerance (some 0) none] = true ∧
    tolerates [some 1] [tolerance (some 0) (some 0)] = false := by
  decide +kernel

end Verif.TolF
