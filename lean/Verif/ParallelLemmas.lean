import Verif.ParallelSpec
import Mathlib.Tactic.Linarith
import Mathlib.Tactic.LinearCombination
import Mathlib.Tactic.Ring
import Mathlib.Tactic.FieldSimp
import Mathlib.Algebra.BigOperators.Ring.List
import Mathlib.Algebra.BigOperators.Group.List.Lemmas
import Mathlib.Data.List.Flatten

/-!
# Lemmas on the parallel balancer
-/

namespace Verif.Par

/-! ## Statistics -/

theorem sum_map_sub_mul (l : List ℚ) (a b : ℚ) :
    (l.map fun x => (x - a) * (x - b)).sum =
      (l.map fun x => x * x).sum - (a + b) * l.sum + l.length * (a * b) := by
  induction l with
  | nil => simp
  | cons x l ih =>
    simp only [List.map_cons, List.sum_cons, ih, List.length_cons, Nat.cast_add, Nat.cast_one]
    ring

theorem sum_map_sub_sq (l : List ℚ) (a : ℚ) :
    (l.map fun x => (x - a) ^ 2).sum =
      (l.map fun x => x * x).sum - (2 * a) * l.sum + l.length * (a * a) := by
  have := sum_map_sub_mul l a a
  simp only [← pow_two] at this ⊢
  rw [this]; ring

theorem mean_mul (l : List ℚ) : (l.length : ℚ) * mean l = l.sum := by
  unfold mean
  cases l with
  | nil => simp
  | cons a l =>
    have : ((a :: l).length : ℚ) ≠ 0 := by simp; positivity
    field_simp

theorem variance_mul (l : List ℚ) :
    (l.length : ℚ) * variance l = (l.map fun x => x * x).sum - mean l * l.sum := by
  have h := mean_mul (l.map fun x => (x - mean l) ^ 2)
  rw [List.length_map] at h
  rw [variance, h, sum_map_sub_sq]
  have := mean_mul l
  linear_combination (mean l) * this

/-- The incremental update computes mean and variance of the extended list. -/
theorem updateStats_spec (A : List ℚ) (B : List Nat) :
    updateStats (A.length + B.length) B (mean A, variance A) =
      (mean (A ++ B.map fun (x : Nat) => (x : ℚ)), variance (A ++ B.map fun (x : Nat) => (x : ℚ))) := by
  unfold updateStats
  by_cases hB : B.length > 0
  · rw [if_pos hB]
    set C := B.map fun (x : Nat) => (x : ℚ) with hC
    have hlen : (C.length : ℚ) = (B.length : ℚ) := by rw [hC, List.length_map]
    have hn : ((A.length + B.length : ℕ) : ℚ) ≠ 0 := by
      have : 0 < A.length + B.length := by omega
      exact_mod_cast this.ne'
    have hnl : (((A ++ C).length : ℕ) : ℚ) = ((A.length + B.length : ℕ) : ℚ) := by
      rw [List.length_append, hC, List.length_map]
    have hm := mean_mul A
    have hM := mean_mul (A ++ C)
    have hv := variance_mul A
    have hV := variance_mul (A ++ C)
    rw [hnl] at hM hV
    rw [List.sum_append] at hM hV
    rw [List.map_append, List.sum_append] at hV
    have h1 : mean A + (C.sum - (B.length : ℚ) * mean A) / ((A.length + B.length : ℕ) : ℚ)
        = mean (A ++ C) := by
      field_simp
      rw [hM]
      push_cast
      linear_combination hm
    have h2 : (B.map fun (x : Nat) => ((x : ℚ) - mean A) * ((x : ℚ) - mean (A ++ C))).sum =
        (C.map fun x => (x - mean A) * (x - mean (A ++ C))).sum := by
      rw [hC, List.map_map]; rfl
    simp only [h1, h2, Prod.mk.injEq, true_and]
    rw [sum_map_sub_mul, hlen]
    generalize (A.map fun x => x * x).sum = qa at *
    generalize (C.map fun x => x * x).sum = qc at *
    have hN : ((A.length + B.length : ℕ) : ℚ) = (A.length : ℚ) + (B.length : ℚ) := by push_cast; ring
    rw [hN] at hn hM hV
    rw [hN]
    have : variance (A ++ C) = (qc + qa - mean (A ++ C) * (A.sum + C.sum)) / ((A.length : ℚ) + (B.length : ℚ)) := by
      field_simp
      linear_combination hV
    rw [this]
    field_simp
    linear_combination hv - (mean (A ++ C)) * hm + (mean A) * hM
  · rw [if_neg hB]
    have : B = [] := List.length_eq_zero_iff.mp (by omega)
    subst this
    simp

/-! ## Work size -/

theorem adjustSize_ok {c : SizeCfg} (hc : c.minus + c.plus ≤ usizeMax) {fast : Bool} {i size : Nat}
    (h1 : c.minus ≤ size) (h2 : size ≤ usizeMax - c.plus) :
    ∃ size', adjustSize c fast i size = .ok size' ∧ c.minus ≤ size' ∧ size' ≤ usizeMax - c.plus := by
  unfold adjustSize addU subU
  by_cases hi : i = 0
  · rw [if_pos hi]
    cases fast
    · simp only [Bool.false_eq_true, if_false, if_pos h1, Res.ok_bind, Res.pure_eq]
      refine ⟨_, rfl, le_max_left _ _, ?_⟩
      omega
    · simp only [if_true, if_pos (show c.plus ≤ usizeMax by omega),
        if_pos (show size + c.plus ≤ usizeMax by omega), Res.ok_bind, Res.pure_eq]
      refine ⟨_, rfl, ?_, min_le_left _ _⟩
      omega
  · rw [if_neg hi]
    exact ⟨size, rfl, h1, h2⟩

theorem initSize_ok {c : SizeCfg} (hc : c.minus + c.plus ≤ usizeMax) :
    c.minus ≤ initSize c ∧ initSize c ≤ usizeMax - c.plus := by
  unfold initSize
  dsimp only
  split <;> split <;> omega

/-! ## Handling an outcome -/

theorem addLoads_spec : ∀ (es loads : List Nat), (∀ e ∈ es, e < loads.length) →
    ∃ loads', addLoads loads es = .ok loads' ∧ loads'.length = loads.length ∧
      ∀ (e n : Nat), loads[e]? = some n → loads'[e]? = some (n + es.count e)
  | [], loads, _ => ⟨loads, rfl, rfl, by simp⟩
  | x :: es, loads, h => by
    have hx := h x (by simp)
    obtain ⟨l', h1, h2, h3⟩ := addLoads_spec es (loads.set x (loads[x] + 1)) (by
      intro e he; rw [List.length_set]; exact h e (by simp [he]))
    refine ⟨l', ?_, by rw [h2, List.length_set], ?_⟩
    · rw [addLoads, List.getElem?_eq_getElem hx]
      exact h1
    · intro e n he
      by_cases hex : x = e
      · subst hex
        rw [h3 x (n + 1)]
        · rw [List.count_cons_self, Nat.add_assoc, Nat.add_comm 1]
        · rw [List.getElem?_eq_getElem hx] at he
          simp only [Option.some.injEq] at he
          rw [List.getElem?_set_self hx, he]
      · rw [h3 e n]
        · rw [List.count_cons_of_ne hex]
        · rw [List.getElem?_set_ne hex, he]

theorem occurrences_append (e : Nat) (a b : List Path) :
    occurrences e (a ++ b) = occurrences e a + occurrences e b := by
  simp [occurrences]

theorem addPaths_spec {g : Graph} {fuel : Nat} : ∀ (ps : List Path) (loads : List Nat)
    (paths : Option (List Path)),
    (∀ p ∈ ps, ∃ q, Path.flatten g fuel p = some (.ok q) ∧ ∀ e ∈ q.edges, e < loads.length) →
    ∃ qs loads', Flat g fuel ps qs ∧
      addPaths g fuel ps (loads, paths) = some (.ok (loads', paths.map (· ++ qs))) ∧
      loads'.length = loads.length ∧
      ∀ (e n : Nat), loads[e]? = some n → loads'[e]? = some (n + occurrences e qs)
  | [], loads, paths, _ => ⟨[], loads, .nil, by cases paths <;> simp [addPaths], rfl, by simp [occurrences]⟩
  | p :: ps, loads, paths, h => by
    obtain ⟨q, hq, hlt⟩ := h p (by simp)
    obtain ⟨l1, h1, h2, h3⟩ := addLoads_spec q.edges loads hlt
    obtain ⟨qs, l2, g1, g2, g3, g4⟩ := addPaths_spec ps l1 (paths.map (· ++ [q])) (by
      rw [h2]; intro p hp; exact h p (by simp [hp]))
    refine ⟨q :: qs, l2, .cons hq g1, ?_, by rw [g3, h2], ?_⟩
    · rw [addPaths]
      simp only [hq, h1, g2]
      cases paths <;> simp
    · intro e n he
      rw [g4 e _ (h3 e n he)]
      simp [occurrences, Nat.add_assoc]

/-! ## Lists -/

theorem flatMap_set_perm {α β : Type} (f : α → List β) : ∀ (l : List α) (i : Nat) (a b : α),
    l[i]? = some a → (f a ++ (l.set i b).flatMap f).Perm (f b ++ l.flatMap f)
  | [], i, a, b, h => by simp at h
  | x :: l, 0, a, b, h => by
    simp only [List.getElem?_cons_zero, Option.some.injEq] at h
    subst h
    simp only [List.set_cons_zero, List.flatMap_cons]
    rw [← List.append_assoc, ← List.append_assoc]
    exact List.Perm.append_right _ List.perm_append_comm
  | x :: l, i + 1, a, b, h => by
    simp only [List.getElem?_cons_succ] at h
    have ih := flatMap_set_perm f l i a b h
    simp only [List.set_cons_succ, List.flatMap_cons]
    calc (f a ++ (f x ++ (l.set i b).flatMap f)).Perm (f x ++ (f a ++ (l.set i b).flatMap f)) := by
          rw [← List.append_assoc, ← List.append_assoc]
          exact List.Perm.append_right _ List.perm_append_comm
      _ |>.Perm (f x ++ (f b ++ l.flatMap f)) := List.Perm.append_left _ ih
      _ |>.Perm (f b ++ (f x ++ l.flatMap f)) := by
          rw [← List.append_assoc, ← List.append_assoc]
          exact List.Perm.append_right _ List.perm_append_comm

/-- A permutation of the keys comes from a permutation of the pairs. -/
theorem perm_of_keys {α β : Type} : ∀ (ks : List α) (l : List (α × β)), (l.map Prod.fst).Perm ks →
    ∃ l' : List (α × β), l'.Perm l ∧ l'.map Prod.fst = ks
  | [], l, h => by
    have : l = [] := by simpa using h.eq_nil
    exact ⟨[], by rw [this], rfl⟩
  | k :: ks, l, h => by
    have hk : k ∈ l.map Prod.fst := h.mem_iff.mpr (by simp)
    obtain ⟨x, hx, hxk⟩ := List.mem_map.mp hk
    obtain ⟨l1, l2, rfl⟩ := List.append_of_mem hx
    have hp : (l1 ++ x :: l2).Perm (x :: (l1 ++ l2)) := List.perm_middle
    have h' : ((l1 ++ l2).map Prod.fst).Perm ks := by
      have := (hp.map Prod.fst).symm.trans h
      rw [List.map_cons, hxk] at this
      exact this.cons_inv
    obtain ⟨l', g1, g2⟩ := perm_of_keys ks (l1 ++ l2) h'
    exact ⟨x :: l', (g1.cons x).trans hp.symm, by rw [List.map_cons, hxk, g2]⟩

end Verif.Par
