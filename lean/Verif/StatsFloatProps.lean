import Verif.StatsFloatLemmas

/-!
# C117: mean and variance of found paths with `f64`
-/

namespace Verif.StatsF

open Par (Outcome mean variance)
open BalF (Fault num sumFrom)

/-- All numbers of found paths, for exact calculations. -/
def numbers (os : List Outcome) : List ℚ := (os.flatMap Outcome.found).map fun (x : Nat) => (x : ℚ)

theorem exact_step {o : Outcome} {os : List Outcome} :
    mean (numbers (o :: os)) = mean (numbers os ++ o.found.map fun (x : Nat) => (x : ℚ)) ∧
    variance (numbers (o :: os)) = variance (numbers os ++ o.found.map fun (x : Nat) => (x : ℚ)) := by
  have hp : (numbers (o :: os)).Perm (numbers os ++ o.found.map fun (x : Nat) => (x : ℚ)) := by
    unfold numbers
    rw [List.flatMap_cons, List.map_append]
    exact List.perm_append_comm
  exact ⟨Par.mean_perm hp, Par.variance_perm hp⟩

theorem numbers_bounds {os : List Outcome} {B : Nat} (hB : ∀ o ∈ os, ∀ x ∈ o.found, x ≤ B) :
    ∀ x ∈ numbers os, 0 ≤ x ∧ x ≤ (B : ℚ) := by
  intro x hx
  obtain ⟨y, hy, rfl⟩ := List.mem_map.mp hx
  obtain ⟨o, ho, hyo⟩ := List.mem_flatMap.mp hy
  exact ⟨by positivity, by exact_mod_cast hB o ho y hyo⟩

theorem numbers_length {os : List Outcome} (hos : ∀ o ∈ os, o.found.length = o.pairs) :
    (numbers os).length = (os.map Outcome.pairs).sum := by
  unfold numbers
  rw [List.length_map, List.length_flatMap]
  congr 1
  exact List.map_congr_left fun x hx => hos x hx

/-- The invariant of all updates. -/
theorem stats_near {K B : Nat} (hB1 : 1 ≤ B) (hKB : K * B ≤ 2 ^ 53) {os : List Outcome}
    (hos : ∀ o ∈ os, o.found.length = o.pairs) (hK : ∀ o ∈ os, o.found.length ≤ K)
    (hB : ∀ o ∈ os, ∀ x ∈ o.found, x ≤ B) (hn : (os.map Outcome.pairs).sum ≤ 2 ^ 53)
    (ht : os.length * (os.length + K + 1) ≤ 2 ^ 46) :
    ∃ m v, stats os = .ok ((m, v), (os.map Outcome.pairs).sum) ∧
      |m - mean (numbers os)| ≤ 16 * os.length * w * B ∧
      |v - variance (numbers os)| ≤ 64 * os.length * (os.length + K + 1) * w * (B : ℚ) ^ 2 := by
  induction os with
  | nil =>
    exact ⟨0, 0, rfl, by simp [numbers, mean], by simp [numbers, variance, mean]⟩
  | cons o os ih =>
    rw [List.length_cons] at ht
    rw [List.map_cons, List.sum_cons] at hn
    have ht' : os.length * (os.length + K + 1) ≤ 2 ^ 46 := le_trans (by gcongr <;> omega) ht
    obtain ⟨m, v, h1, h2, h3⟩ := ih (fun x hx => hos x (by simp [hx])) (fun x hx => hK x (by simp [hx]))
      (fun x hx => hB x (by simp [hx])) (by omega) ht'
    have hw0 := w_pos
    have hb1 : (1 : ℚ) ≤ B := by exact_mod_cast hB1
    have hmono : (64 : ℚ) * os.length * (os.length + K + 1) * w * (B : ℚ) ^ 2 ≤
        64 * (o :: os).length * ((o :: os).length + K + 1) * w * (B : ℚ) ^ 2 := by
      rw [List.length_cons]
      push_cast
      gcongr <;> linarith
    have hmono1 : (16 : ℚ) * os.length * w * B ≤ 16 * (o :: os).length * w * B := by
      rw [List.length_cons]
      push_cast
      gcongr
      linarith
    have hlen := numbers_length (os := os) fun x hx => hos x (by simp [hx])
    have hop := hos o List.mem_cons_self
    have hoK := hK o List.mem_cons_self
    have hoB := hB o List.mem_cons_self
    have hspec := Par.updateStats_spec (numbers os) o.found
    rw [← exact_step.1, ← exact_step.2] at hspec
    unfold Par.updateStats at hspec
    have hsum : ((o :: os).map Outcome.pairs).sum = (os.map Outcome.pairs).sum + o.pairs := by
      rw [List.map_cons, List.sum_cons, Nat.add_comm]
    by_cases h0 : o.found.length > 0
    swap
    · rw [if_neg h0] at hspec
      simp only [Prod.mk.injEq] at hspec
      refine ⟨m, v, ?_, ?_, ?_⟩
      · simp only [stats]
        rw [h1, Res.ok_bind]
        unfold updateStats
        rw [if_neg h0, Res.ok_bind, hsum]
        rfl
      · rw [← hspec.1]; exact le_trans h2 hmono1
      · rw [← hspec.2]; exact le_trans h3 hmono
    · rw [if_pos h0] at hspec
      simp only [Prod.mk.injEq] at hspec
      obtain ⟨hs1, hs2⟩ := hspec
      rw [hs1] at hs2
      have hB53 : B ≤ 2 ^ 53 := le_trans (Nat.le_mul_of_pos_left B (by omega)) hKB
      have hk46 : o.found.length ≤ 2 ^ 46 := by
        have : 1 * (K + 1) ≤ (os.length + 1) * (os.length + 1 + K + 1) := Nat.mul_le_mul (by omega) (by omega)
        omega
      have ht23 : os.length + 1 ≤ 2 ^ 23 := by
        by_contra hc
        have : 2 ^ 23 * 2 ^ 23 < (os.length + 1) * (os.length + 1 + K + 1) :=
          Nat.mul_lt_mul_of_lt_of_lt (by omega) (by omega)
        omega
      have hw52 : w = 1 / 2 ^ 52 := by unfold w; rfl
      have htq : ((os.length : ℚ) + 1) ≤ 2 ^ 23 := by exact_mod_cast ht23
      have hEB : 4 * ((16 : ℚ) * (o :: os).length * w * B) ≤ B := by
        rw [List.length_cons, hw52]
        push_cast
        nlinarith
      have hμ := mean_bounds (by linarith : (0 : ℚ) ≤ B) (numbers_bounds (B := B) fun x hx => hB x (List.mem_cons_of_mem o hx))
      have hμ' := mean_bounds (by linarith : (0 : ℚ) ≤ B) (numbers_bounds hB)
      have hV := variance_bounds (by linarith : (0 : ℚ) ≤ B) (numbers_bounds (B := B) fun x hx => hB x (List.mem_cons_of_mem o hx))
      have hnle : o.found.length ≤ (os.map Outcome.pairs).sum + o.pairs := by omega
      have hcast : (((numbers os).length + o.found.length : Nat) : ℚ) = (((os.map Outcome.pairs).sum + o.pairs : Nat) : ℚ) := by
        rw [hlen, hop]
      obtain ⟨m', n1, n2⟩ := newMean_near (n := (os.map Outcome.pairs).sum + o.pairs) (found := o.found) h0 hnle
        (by omega) hB1 hoB (le_trans (Nat.mul_le_mul_right B hoK) hKB) hμ h2 (by linarith)
      rw [hcast] at hs1 hs2
      rw [hs1] at n2
      have hm' : |m' - mean (numbers (o :: os))| ≤ 16 * (o :: os).length * w * B := by
        refine le_trans n2 (le_of_eq ?_)
        rw [List.length_cons]
        push_cast
        ring
      have hD : 64 * (os.length : ℚ) * (os.length + K + 1) * w * (B : ℚ) ^ 2 ≤ (B : ℚ) ^ 2 := by
        have h4 : (os.length : ℚ) * (os.length + K + 1) ≤ 2 ^ 46 := by exact_mod_cast ht'
        have h5 : 64 * (os.length : ℚ) * (os.length + K + 1) * w ≤ 1 := by
          rw [hw52]
          linarith
        calc _ ≤ 1 * (B : ℚ) ^ 2 := by gcongr
          _ = _ := one_mul _
      obtain ⟨v', n3, n4⟩ := newVar_near (n := (os.map Outcome.pairs).sum + o.pairs) (found := o.found) h0 hnle
        (by omega) hk46 hB1 hoB hB53 hμ hμ' (le_trans h2 hmono1) hm' hEB hV h3 hD
      rw [hs2] at n4
      refine ⟨m', v', ?_, hm', ?_⟩
      · simp only [stats]
        rw [h1, Res.ok_bind]
        unfold updateStats
        rw [if_pos h0, if_neg (by omega), n1, Res.ok_bind, n3, hsum]
        rfl
      · refine le_trans n4 ?_
        have hkK : (o.found.length : ℚ) ≤ K := by exact_mod_cast hoK
        have hc : 0 ≤ w * (B : ℚ) ^ 2 := by positivity
        have hl : 0 ≤ (os.length : ℚ) := by positivity
        rw [List.length_cons]
        push_cast
        have e1 : 4 * (B : ℚ) * (16 * ((os.length : ℚ) + 1) * w * B) = 64 * (os.length + 1) * (w * (B : ℚ) ^ 2) := by ring
        rw [e1]
        have hcoef : 64 * (os.length : ℚ) * (os.length + K + 1) + 64 * (os.length + 1) + (55 + 20 * o.found.length) ≤
            64 * (os.length + 1) * (os.length + 1 + K + 1) := by nlinarith
        have := mul_le_mul_of_nonneg_right hcoef hc
        linarith

/-- C117: with at most `t` outcomes of at most `K` numbers each, which aren't larger than `B`, mean and variance are those
of all numbers, up to small errors. In particular, no calculation is infinite or undefined. -/
theorem C117_near {K B : Nat} {os : List Outcome} (hB1 : 1 ≤ B) (hKB : K * B ≤ 2 ^ 53)
    (hos : ∀ o ∈ os, o.found.length = o.pairs) (hK : ∀ o ∈ os, o.found.length ≤ K)
    (hB : ∀ o ∈ os, ∀ x ∈ o.found, x ≤ B) (hn : (os.map Outcome.pairs).sum ≤ 2 ^ 53)
    (ht : os.length * (os.length + K + 1) ≤ 2 ^ 46) :
    ∃ m v, stats os = .ok ((m, v), (os.map Outcome.pairs).sum) ∧
      |m - mean ((os.flatMap Outcome.found).map fun (x : Nat) => (x : ℚ))| ≤ os.length * B / 2 ^ 48 ∧
      |v - variance ((os.flatMap Outcome.found).map fun (x : Nat) => (x : ℚ))| ≤
        os.length * (os.length + K + 1) * B ^ 2 / 2 ^ 46 := by
  obtain ⟨m, v, h1, h2, h3⟩ := stats_near hB1 hKB hos hK hB hn ht
  have hw52 : w = 1 / 2 ^ 52 := by unfold w; rfl
  rw [hw52] at h2 h3
  refine ⟨m, v, h1, le_trans h2 (le_of_eq ?_), le_trans h3 (le_of_eq ?_)⟩ <;> ring

theorem num_zero : num 0 = .ok 0 := by
  have := num_nat (n := 0) (by norm_num)
  simpa using this

/-- Equal numbers: the new mean is exact. -/
theorem newMean_constant {n x : Nat} {found : List Nat} {μ : ℚ} (hf : ∀ y ∈ found, y = x) (h0 : 0 < found.length)
    (hx : found.length * x ≤ 2 ^ 53) (hn : n ≤ 2 ^ 53) (hkn : found.length ≤ n)
    (hμ : μ = x ∨ (μ = 0 ∧ n = found.length)) : newMean n found μ = .ok (x : ℚ) := by
  have hx53 : x ≤ 2 ^ 53 := le_trans (Nat.le_mul_of_pos_left x h0) hx
  have hsum : found.sum = found.length * x := List.sum_eq_card_nsmul found x hf
  have h1 : sumFrom 0 (found.map toF) = .ok ((found.length * x : Nat) : ℚ) := by
    rw [map_toF fun y hy => by rw [hf y hy]; exact hx53]
    have := sum_nat (a := 0) (l := found) (by omega)
    rw [hsum] at this
    simpa using this
  have hk0 : (found.length : ℚ) ≠ 0 := by exact_mod_cast h0.ne'
  unfold newMean
  rw [h1, Res.ok_bind, toF_eq (le_trans hkn hn), toF_eq hn]
  rcases hμ with rfl | ⟨rfl, rfl⟩
  · rw [← Nat.cast_mul, num_nat hx, Res.ok_bind, sub_self, num_zero, Res.ok_bind, zero_div, num_zero, Res.ok_bind, add_zero,
      num_nat hx53]
  · rw [mul_zero, num_zero, Res.ok_bind, sub_zero, num_nat hx, Res.ok_bind, Nat.cast_mul, mul_div_cancel_left₀ _ hk0,
      num_nat hx53, Res.ok_bind, zero_add, num_nat hx53]

theorem products_constant {x : Nat} {found : List Nat} {μ : ℚ} (hf : ∀ y ∈ found, y = x) (hx : x ≤ 2 ^ 53)
    (hμ : μ = x ∨ μ = 0) : products μ x found = .ok (List.replicate found.length 0) := by
  induction found with
  | nil => rfl
  | cons y found ih =>
    rw [hf y List.mem_cons_self]
    have ha : ∃ a, num ((x : ℚ) - μ) = .ok a := by
      rcases hμ with rfl | rfl
      · exact ⟨0, by rw [sub_self, num_zero]⟩
      · exact ⟨x, by rw [sub_zero, num_nat hx]⟩
    obtain ⟨a, ha⟩ := ha
    simp only [products]
    rw [toF_eq hx, ha, Res.ok_bind, sub_self, num_zero, Res.ok_bind, mul_zero, num_zero, Res.ok_bind,
      ih fun z hz => hf z (List.mem_cons_of_mem y hz)]
    rfl

theorem sum_zeros (k : Nat) : sumFrom 0 (List.replicate k 0) = .ok 0 := by
  induction k with
  | zero => rfl
  | succ k ih =>
    simp only [List.replicate_succ, sumFrom]
    rw [add_zero, num_zero, Res.ok_bind, ih]

/-- Equal numbers: the new variance is zero. -/
theorem newVar_constant {n x : Nat} {found : List Nat} {μ : ℚ} (hf : ∀ y ∈ found, y = x) (h0 : 0 < found.length)
    (hx : x ≤ 2 ^ 53) (hn : n ≤ 2 ^ 53) (hkn : found.length ≤ n) (hμ : μ = x ∨ μ = 0) :
    newVar n found μ x 0 = .ok 0 := by
  have hn0 : (0 : ℚ) < n := by exact_mod_cast (by omega : 0 < n)
  have hr : |((n - found.length : Nat) : ℚ) / n| ≤ 2 ^ 0 := by
    rw [abs_of_nonneg (by positivity), pow_zero, div_le_one hn0]
    exact_mod_cast Nat.sub_le n found.length
  unfold newVar
  rw [toF_eq hn, toF_eq (le_trans hkn hn), ← Nat.cast_sub hkn, num_nat (by omega), Res.ok_bind,
    BalF.num_fine (by norm_num) hr, Res.ok_bind, zero_mul, num_zero, Res.ok_bind, products_constant hf hx hμ, Res.ok_bind,
    sum_zeros, Res.ok_bind, zero_div, num_zero, Res.ok_bind, add_zero, num_zero]

/-- C117: if the same number of paths is found for every pair, as with Dijkstra's algorithm, then this number is the mean
and the variance is zero, exactly. -/
theorem C117_constant {x : Nat} {os : List Outcome} (hos : ∀ o ∈ os, o.found.length = o.pairs)
    (hx : ∀ o ∈ os, ∀ y ∈ o.found, y = x) (hs : ∀ o ∈ os, o.found.length * x ≤ 2 ^ 53)
    (hn : (os.map Outcome.pairs).sum ≤ 2 ^ 53) :
    stats os = .ok ((if ∃ o ∈ os, o.found ≠ [] then (x : ℚ) else 0, 0), (os.map Outcome.pairs).sum) := by
  induction os with
  | nil => simp [stats]
  | cons o os ih =>
    rw [List.map_cons, List.sum_cons] at hn
    have ih := ih (fun y hy => hos y (by simp [hy])) (fun y hy => hx y (by simp [hy])) (fun y hy => hs y (by simp [hy]))
      (by omega)
    have hop := hos o List.mem_cons_self
    have hsum : ((o :: os).map Outcome.pairs).sum = (os.map Outcome.pairs).sum + o.pairs := by
      rw [List.map_cons, List.sum_cons, Nat.add_comm]
    simp only [stats]
    rw [ih, Res.ok_bind, hsum]
    by_cases h0 : o.found.length > 0
    swap
    · have hnil : o.found = [] := List.length_eq_zero_iff.mp (by omega)
      have hiff : (∃ p ∈ o :: os, p.found ≠ []) ↔ ∃ p ∈ os, p.found ≠ [] := by simp [hnil]
      unfold updateStats
      rw [if_neg h0, Res.ok_bind]
      simp only [hiff]
      rfl
    · have hne : o.found ≠ [] := List.ne_nil_of_length_pos h0
      have hμ : (if ∃ p ∈ os, p.found ≠ [] then (x : ℚ) else 0) = x ∨
          ((if ∃ p ∈ os, p.found ≠ [] then (x : ℚ) else 0) = 0 ∧ (os.map Outcome.pairs).sum + o.pairs = o.found.length) := by
        by_cases he : ∃ p ∈ os, p.found ≠ []
        · exact Or.inl (if_pos he)
        · refine Or.inr ⟨if_neg he, ?_⟩
          have hz : (os.map Outcome.pairs).sum = 0 := by
            refine List.sum_eq_zero fun y hy => ?_
            obtain ⟨p, hp, rfl⟩ := List.mem_map.mp hy
            have : p.found = [] := by
              by_contra hc
              exact he ⟨p, hp, hc⟩
            rw [← hos p (List.mem_cons_of_mem o hp), this, List.length_nil]
          omega
      have hx53 : x ≤ 2 ^ 53 := le_trans (Nat.le_mul_of_pos_left x h0) (hs o List.mem_cons_self)
      have hxo := hx o List.mem_cons_self
      have m1 := newMean_constant hxo h0 (hs o List.mem_cons_self) (by omega) (by omega) hμ
      have m2 := newVar_constant (n := (os.map Outcome.pairs).sum + o.pairs) hxo h0 hx53 (by omega) (by omega)
        (hμ.imp id And.left)
      unfold updateStats
      dsimp only
      rw [if_pos h0, if_neg (by omega), m1, Res.ok_bind, m2, if_pos ⟨o, List.mem_cons_self, hne⟩]
      rfl

/-- Example outcomes, the newest one first. -/
def single : List Outcome := [⟨[], [0], 1⟩, ⟨[], [0], 1⟩, ⟨[], [1], 1⟩]

def chunk : List Outcome := [⟨[], [1, 0, 0], 3⟩]

example : ∃ m v, stats [⟨[], [7, 3], 2⟩, ⟨[], [], 0⟩, ⟨[], [1, 0, 12], 3⟩] = .ok ((m, v), 5) ∧
    |m - 23 / 5| ≤ 36 / 2 ^ 48 ∧ |v - 486 / 25| ≤ 3024 / 2 ^ 46 := by
  obtain ⟨m, v, h1, h2, h3⟩ := C117_near (K := 3) (B := 12) (os := [⟨[], [7, 3], 2⟩, ⟨[], [], 0⟩, ⟨[], [1, 0, 12], 3⟩])
    (by decide) (by decide) (by decide) (by decide) (by decide) (by decide) (by decide)
  refine ⟨m, v, h1, ?_, ?_⟩
  · refine le_trans (le_of_eq ?_) (le_trans h2 (le_of_eq ?_))
    · norm_num [mean]
    · norm_num
  · refine le_trans (le_of_eq ?_) (le_trans h3 (le_of_eq ?_))
    · norm_num [mean, variance]
    · norm_num

example : stats [⟨[], [1, 1], 2⟩, ⟨[], [], 0⟩, ⟨[], [1, 1, 1], 3⟩] = .ok ((1, 0), 5) := by
  have := C117_constant (x := 1) (os := [⟨[], [1, 1], 2⟩, ⟨[], [], 0⟩, ⟨[], [1, 1, 1], 3⟩])
    (by decide) (by decide) (by decide) (by decide)
  simpa using this

/-- C117: the results aren't exact, and they depend on how pairs are distributed to threads and on the threads' order. -/
theorem C117_false_exact :
    single.flatMap Outcome.found = [0, 0, 1] ∧ chunk.flatMap Outcome.found = [1, 0, 0] ∧
    (match stats single, stats chunk with
      | .ok ((m, v), 3), .ok ((m', v'), 3) => decide (m' < 1 / 3 ∧ 1 / 3 < m ∧ v < 2 / 9 ∧ 2 / 9 < v')
      | _, _ => false) = true := by
  decide +kernel

end Verif.StatsF
