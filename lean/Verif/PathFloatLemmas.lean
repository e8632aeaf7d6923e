import Verif.BalanceFloatLemmas3
import Verif.PathFloatSpec
import Mathlib.Algebra.Order.Ring.Pow

/-!
# Lemmas on costs of paths with `f64`
-/

namespace Verif.PathF

open Fp BalF
open Path (Err)
open Graph (DimOk metric)

/-! ## Sums of one metric -/

/-- A sum that may become infinite. -/
def sumO (s : Option ℚ) (xs : List ℚ) : Option ℚ := xs.foldl plus s

theorem sumO_none (xs : List ℚ) : sumO none xs = none := by
  induction xs with
  | nil => rfl
  | cons x xs ih => exact ih

theorem op_some {x y : ℚ} (h : Over.op x = some y) : y = rnd x := by
  have : num x = .ok y := by simp [num, h]
  exact (num_ok this).1

theorem op_none {x : ℚ} (h0 : 0 ≤ x) (h : Over.op x = none) : Over.maxF < rnd x := by
  by_contra hc
  push Not at hc
  have h1 : |rnd x| ≤ Over.maxF := by rw [abs_of_nonneg (nonneg h0)]; exact hc
  revert h
  simp [Over.op, Over.fits, h1]

theorem le_sumR {s : ℚ} {xs : List ℚ} (hs : IsNum s) (hx : ∀ x ∈ xs, 0 ≤ x) : s ≤ sumR s xs := by
  induction xs generalizing s with
  | nil => exact le_refl _
  | cons x xs ih =>
    have h0 := hx x List.mem_cons_self
    exact le_trans (le_rnd (by linarith) hs) (ih (isNum_rnd _) fun y hy => hx y (List.mem_cons_of_mem _ hy))

theorem sumO_some {s y : ℚ} {xs : List ℚ} (h : sumO (some s) xs = some y) : y = sumR s xs := by
  induction xs generalizing s with
  | nil => simpa [sumO, sumR] using h.symm
  | cons x xs ih =>
    have e : sumO (some s) (x :: xs) = sumO (Over.op (s + x)) xs := rfl
    rw [e] at h
    cases ho : Over.op (s + x) with
    | none => rw [ho, sumO_none] at h; cases h
    | some z =>
      rw [ho] at h
      rw [ih h, op_some ho]
      rfl

theorem sumO_infinite {s : ℚ} {xs : List ℚ} (hs : 0 ≤ s) (hx : ∀ x ∈ xs, 0 ≤ x)
    (h : sumO (some s) xs = none) : Over.maxF < sumR s xs := by
  induction xs generalizing s with
  | nil => simp [sumO] at h
  | cons x xs ih =>
    have h0 := hx x List.mem_cons_self
    have hr : ∀ y ∈ xs, 0 ≤ y := fun y hy => hx y (List.mem_cons_of_mem _ hy)
    have e : sumO (some s) (x :: xs) = sumO (Over.op (s + x)) xs := rfl
    rw [e] at h
    cases ho : Over.op (s + x) with
    | none =>
      exact lt_of_lt_of_le (op_none (by linarith) ho) (le_sumR (isNum_rnd _) hr)
    | some z =>
      rw [ho] at h
      rw [op_some ho] at h
      exact ih (nonneg (by linarith)) hr h

theorem sumO_fine {xs : List ℚ} (hl : xs.length ≤ 2 ^ 53) (hx : ∀ x ∈ xs, 0 ≤ x ∧ x ≤ 2 ^ 900) :
    sumO (some 0) xs = some (sumR 0 xs) := by
  cases h : sumO (some 0) xs with
  | some y => rw [sumO_some h]
  | none =>
    exfalso
    have h1 := sumO_infinite (le_refl _) (fun x hm => (hx x hm).1) h
    obtain ⟨-, -, h2⟩ := sumFrom_fine (e := 900) (by norm_num) (xs := xs) (s := 0) (j := 0) (by omega) (le_refl _) (by simp) hx
    have h3 : ((0 + xs.length : ℕ) : ℚ) * 2 ^ 900 ≤ 2 ^ 53 * 2 ^ 900 := by
      refine mul_le_mul_of_nonneg_right ?_ (by positivity)
      rw [Nat.zero_add]
      exact_mod_cast hl
    clear hx
    have h4 : (2 : ℚ) ^ 53 * 2 ^ 900 ≤ Over.maxF := by
      have e : (2 : ℚ) ^ 971 = 2 ^ 71 * 2 ^ 900 := by rw [← pow_add]
      have hp : (0 : ℚ) < 2 ^ 900 := by positivity
      unfold Over.maxF
      rw [e]
      generalize (2 : ℚ) ^ 900 = P at hp ⊢
      nlinarith
    exact absurd (lt_of_lt_of_le h1 (le_trans h2 (le_trans h3 h4))) (lt_irrefl _)

theorem sumO_append (s : Option ℚ) (xs ys : List ℚ) : sumO s (xs ++ ys) = sumO (sumO s xs) ys := by
  simp [sumO, List.foldl_append]

/-! ## Vectors -/

theorem length_add {a : List (Option ℚ)} {b : List ℚ} (h : b.length = a.length) : (add a b).length = a.length := by
  induction a generalizing b with
  | nil => rfl
  | cons x a ih =>
    cases b with
    | nil => simp at h
    | cons y b => simp only [add, List.length_cons, ih (by simpa using h)]

theorem add_eq_addAssign {a : List (Option ℚ)} {b : List ℚ} (h : b.length = a.length) : add a b = addAssign a b := by
  induction a generalizing b with
  | nil => rfl
  | cons x a ih =>
    cases b with
    | nil => simp at h
    | cons y b => simp only [add, addAssign, ih (by simpa using h)]

theorem getElem?_add {a : List (Option ℚ)} {b : List ℚ} (h : b.length = a.length) {k : Nat} {x : Option ℚ}
    (hx : a[k]? = some x) : (add a b)[k]? = some (plus x (b[k]?.getD 0)) := by
  induction a generalizing b k with
  | nil => simp at hx
  | cons y a ih =>
    cases b with
    | nil => simp at h
    | cons z b =>
      cases k with
      | zero => simp only [List.getElem?_cons_zero, Option.some.injEq] at hx; subst hx; simp [add]
      | succ k => simpa [add] using ih (b := b) (by simpa using h) (by simpa using hx)

/-- All metrics added to some costs. -/
def addAll (g : Graph) (c : List (Option ℚ)) (l : List Nat) : List (Option ℚ) :=
  l.foldl (fun c e => add c ((g.metrics[e]?).getD [])) c

theorem addAll_spec {g : Graph} (hd : DimOk g) {l : List Nat} (hl : ∀ e ∈ l, e < g.metrics.length)
    {acc : List (Option ℚ)} (ha : acc.length = g.dim) :
    (addAll g acc l).length = g.dim ∧ ∀ (k : Nat) x, acc[k]? = some x →
      (addAll g acc l)[k]? = some (sumO x (l.map fun e => g.metric e k)) := by
  induction l generalizing acc with
  | nil => exact ⟨ha, fun k x hx => hx⟩
  | cons e l ih =>
    have he := hl e List.mem_cons_self
    have hm := hd _ (List.getElem_mem he)
    have hlen : (g.metrics[e]?.getD []).length = acc.length := by
      rw [List.getElem?_eq_getElem he, Option.getD_some, hm, ha]
    obtain ⟨i1, i2⟩ := ih (acc := add acc (g.metrics[e]?.getD [])) (fun x hx => hl x (List.mem_cons_of_mem _ hx))
      (by rw [length_add hlen, ha])
    exact ⟨i1, fun k x hx => i2 k _ (getElem?_add hlen hx)⟩

theorem sumMetrics_spec {g : Graph} {l : List Nat} (hl : ∀ e ∈ l, e < g.metrics.length)
    {acc : List (Option ℚ)} : sumMetrics g l acc = .ok (addAll g acc l) := by
  induction l generalizing acc with
  | nil => rfl
  | cons e l ih =>
    have he := hl e List.mem_cons_self
    simp only [sumMetrics, List.getElem?_eq_getElem he, Res.ofIdx_some, Res.ok_bind]
    rw [ih (fun x hx => hl x (List.mem_cons_of_mem _ hx))]
    simp [addAll, List.getElem?_eq_getElem he]

/-! ## Flattening -/

/-- Rounding doesn't matter for the edges of a flattened path. -/
theorem flatGo_edges (g : Graph) (fuel : Nat) (cur : Option Nat) (stack out : List Nat) (c : List (Option ℚ))
    (c' : List ℚ) : (flatGo g fuel cur stack out c).map (edgesOf Prod.fst) =
      (Path.flatGo g fuel cur stack out c').map (edgesOf Prod.fst) := by
  induction fuel generalizing cur stack out c c' with
  | zero => rfl
  | succ n ih =>
    cases cur with
    | none =>
      cases stack with
      | nil => rfl
      | cons e stack => exact ih _ _ _ _ _
    | some e =>
      simp only [flatGo, Path.flatGo]
      cases hsc : g.scEdgesOf e with
      | err x => rfl
      | panic => rfl
      | ok o =>
        cases o with
        | none =>
          dsimp only
          cases hm : g.metrics[e]? with
          | none => rfl
          | some m => exact ih _ _ _ _ _
        | some p =>
          obtain ⟨a, b⟩ := p
          dsimp only
          split
          · rfl
          · exact ih _ _ _ _ _

/-- The costs of a flattened path are summed up in its order. -/
theorem flatGo_costs {g : Graph} (hd : DimOk g) {fuel : Nat} {cur : Option Nat} {stack out : List Nat}
    {c : List (Option ℚ)} {es : List Nat} {c' : List (Option ℚ)} (hc : c.length = g.dim)
    (h : flatGo g fuel cur stack out c = some (.ok (es, c'))) :
    ∃ l, es = out ++ l ∧ c' = addAll g c l ∧ ∀ x ∈ l, x < g.metrics.length := by
  induction fuel generalizing cur stack out c with
  | zero => simp [flatGo] at h
  | succ n ih =>
    cases cur with
    | none =>
      cases stack with
      | nil =>
        simp only [flatGo, Option.some.injEq, Res.ok.injEq, Prod.mk.injEq] at h
        exact ⟨[], by simp [h.1], by simp [addAll, h.2], by simp⟩
      | cons e stack => exact ih hc h
    | some e =>
      simp only [flatGo] at h
      cases hsc : g.scEdgesOf e with
      | err x => simp [hsc] at h
      | panic => simp [hsc] at h
      | ok o =>
        cases o with
        | none =>
          simp only [hsc] at h
          cases hm : g.metrics[e]? with
          | none => simp [hm] at h
          | some m =>
            simp only [hm] at h
            have hml : m.length = c.length := by rw [hc]; exact hd m (List.mem_of_getElem? hm)
            rw [← add_eq_addAssign hml] at h
            obtain ⟨l, h1, h2, h3⟩ := ih (by rw [length_add hml, hc]) h
            refine ⟨e :: l, by rw [h1]; simp, by rw [h2]; simp [addAll, hm], fun x hx => ?_⟩
            rcases List.mem_cons.mp hx with rfl | hx
            · exact (List.getElem?_eq_some_iff.mp hm).1
            · exact h3 x hx
        | some p =>
          obtain ⟨a, b⟩ := p
          simp only [hsc] at h
          split at h
          · simp at h
          · exact ih hc h

/-! ## Powers -/

theorem pow_upper {n : ℕ} (hn : n ≤ 2 ^ 52) : (1 + 1 / 2 ^ 53 : ℚ) ^ n ≤ 1 + n / 2 ^ 52 := by
  have b : 1 - (n : ℚ) / 2 ^ 53 ≤ (1 - 1 / 2 ^ 53) ^ n := by
    have := one_add_mul_le_pow (a := -(1 / 2 ^ 53 : ℚ)) (by norm_num) n
    have e : (1 : ℚ) + n * (-(1 / 2 ^ 53)) = 1 - n / 2 ^ 53 := by ring
    rw [e] at this
    simpa [sub_eq_add_neg] using this
  have hq : (n : ℚ) / 2 ^ 53 ≤ 1 / 2 := by
    have : (n : ℚ) ≤ 2 ^ 52 := by exact_mod_cast hn
    rw [div_le_div_iff₀ (by positivity) (by norm_num)]
    linarith
  have h0 : (0 : ℚ) ≤ n / 2 ^ 53 := by positivity
  have prod : (1 + 1 / 2 ^ 53 : ℚ) ^ n * (1 - 1 / 2 ^ 53) ^ n ≤ 1 := by
    rw [← mul_pow]
    exact pow_le_one₀ (by norm_num) (by norm_num)
  have e2 : (n : ℚ) / 2 ^ 52 = 2 * (n / 2 ^ 53) := by ring
  rw [e2]
  generalize (n : ℚ) / 2 ^ 53 = q at *
  have hp : (0 : ℚ) ≤ (1 + 1 / 2 ^ 53 : ℚ) ^ n := by positivity
  generalize (1 + 1 / 2 ^ 53 : ℚ) ^ n = P at *
  generalize (1 - 1 / 2 ^ 53 : ℚ) ^ n = Q at *
  have h1 : P * (1 - q) ≤ 1 := le_trans (mul_le_mul_of_nonneg_left b hp) prod
  by_contra hc
  push Not at hc
  nlinarith

theorem pow_lower (n : ℕ) : 1 - (n : ℚ) / 2 ^ 52 ≤ (1 - 1 / 2 ^ 53) ^ n := by
  have := one_add_mul_le_pow (a := -(1 / 2 ^ 53 : ℚ)) (by norm_num) n
  have e : (1 : ℚ) + n * (-(1 / 2 ^ 53)) = 1 - n / 2 ^ 53 := by ring
  rw [e, ← sub_eq_add_neg] at this
  have h0 : (0 : ℚ) ≤ n := by positivity
  have : (n : ℚ) / 2 ^ 53 ≤ n / 2 ^ 52 := by
    apply div_le_div_of_nonneg_left h0 <;> norm_num
  linarith

end Verif.PathF
