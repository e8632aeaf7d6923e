import Verif.ExploratingSpec
import Mathlib.Data.Nat.Log
import Mathlib.Data.Nat.Bitwise
import Mathlib.Tactic.Ring
import Mathlib.Tactic.Linarith

/-!
# Helper lemmas: masks and initial alphas
-/

namespace Verif.Exp

open Dij (R)

theorem imcMask_cons (d : Bool) (ds : List Bool) :
    imcMask (d :: ds) = 2 * imcMask ds + if d then 1 else 0 := by
  simp [imcMask, List.foldl_append]

theorem testBit_imcMask (ds : List Bool) (i : Nat) :
    (imcMask ds).testBit i = decide (ds[i]? = some true) := by
  induction ds generalizing i with
  | nil => simp [imcMask]
  | cons d ds ih =>
    rw [imcMask_cons]
    cases i with
    | zero => cases d <;> simp [Nat.testBit_zero]
    | succ i =>
      rw [Nat.testBit_succ, List.getElem?_cons_succ, ← ih i]
      congr 1
      cases d <;> simp
      omega

theorem imcMask_lt (ds : List Bool) : imcMask ds < 2 ^ ds.length := by
  induction ds with
  | nil => simp [imcMask]
  | cons d ds ih =>
    rw [imcMask_cons, List.length_cons, Nat.pow_succ]
    cases d <;> simp <;> omega

theorem submask_iff {imc mask : Nat} :
    (imc ||| mask) ^^^ imc = 0 ↔ ∀ i, mask.testBit i = true → imc.testBit i = true := by
  constructor
  · intro h i hi
    have : ((imc ||| mask) ^^^ imc).testBit i = false := by rw [h]; simp
    rw [Nat.testBit_xor, Nat.testBit_or, hi] at this
    simpa using this
  · intro h
    apply Nat.eq_of_testBit_eq
    intro i
    rw [Nat.testBit_xor, Nat.testBit_or, Nat.zero_testBit]
    have := h i
    cases hm : mask.testBit i <;> cases hc : imc.testBit i <;> simp_all

theorem shift_and (mask i : Nat) : mask >>> i &&& 1 = if mask.testBit i then 1 else 0 := by
  rw [Nat.and_one_is_mod, Nat.testBit_eq_decide_div_mod_eq, Nat.shiftRight_eq_div_pow]
  rcases Nat.mod_two_eq_zero_or_one (mask / 2 ^ i) with h | h <;> simp [h]

theorem alphasOf_get {dim mask i : Nat} (hi : i < dim) :
    (alphasOf dim mask)[i]? = some (if mask.testBit i then 1 else 0) := by
  unfold alphasOf
  rw [List.getElem?_map, List.getElem?_range hi, Option.map_some, shift_and]
  cases mask.testBit i <;> simp

@[simp] theorem alphasOf_length (dim mask : Nat) : (alphasOf dim mask).length = dim := by
  simp [alphasOf]

theorem alphasOf_inj {dim m m' : Nat} (hm : m < 2 ^ dim) (hm' : m' < 2 ^ dim)
    (h : alphasOf dim m = alphasOf dim m') : m = m' := by
  apply Nat.eq_of_testBit_eq
  intro i
  by_cases hi : i < dim
  · have := alphasOf_get (mask := m) hi
    rw [h, alphasOf_get hi] at this
    cases h1 : m.testBit i <;> cases h2 : m'.testBit i <;> simp_all
  · rw [Nat.testBit_lt_two_pow (lt_of_lt_of_le hm (Nat.pow_le_pow_right (by omega) (by omega))),
      Nat.testBit_lt_two_pow (lt_of_lt_of_le hm' (Nat.pow_le_pow_right (by omega) (by omega)))]

theorem isPow2_iff {m : Nat} (hm : m ≠ 0) : isPow2 m = true ↔ ∃ k, m = 2 ^ k := by
  rw [isPow2, beq_iff_eq, Nat.and_sub_one_eq_zero_iff_isPowerOfTwo hm]
  rfl

theorem alphasOf_pow {dim k : Nat} : alphasOf dim (2 ^ k) = unit dim k := by
  apply List.ext_getElem?
  intro i
  by_cases hi : i < dim
  · rw [alphasOf_get hi, unit, List.getElem?_map, List.getElem?_range hi, Option.map_some,
      Nat.testBit_two_pow]
    by_cases hk : i = k
    · subst hk; simp
    · simp [hk, Ne.symm hk]
  · rw [List.getElem?_eq_none (by simp; omega), List.getElem?_eq_none (by simp [unit]; omega)]

/-- The entry of a mask. -/
def entryOf (imc dim mask : Nat) : Option (Option Nat × List ℚ) :=
  if (imc ||| mask) ^^^ imc = 0 then
    some (if isPow2 mask then some (Nat.log 2 mask) else none, alphasOf dim mask)
  else none

theorem foldl_initStep (imc dim n : Nat) :
    (List.range' 1 n).foldl (initStep imc dim) (0, []) =
      (if n = 0 then 0 else Nat.log 2 n + 1, (List.range' 1 n).filterMap (entryOf imc dim)) := by
  induction n with
  | zero => rfl
  | succ n ih =>
    rw [List.range'_1_concat, List.foldl_append, ih, List.filterMap_append]
    simp only [List.foldl_cons, List.foldl_nil, List.filterMap_cons, List.filterMap_nil]
    rw [Nat.add_comm 1 n]
    unfold initStep entryOf
    have hp : isPow2 (n + 1) = true → (if n = 0 then 0 else Nat.log 2 n + 1) = Nat.log 2 (n + 1) := by
      intro h
      obtain ⟨k, hk⟩ := (isPow2_iff (by omega)).mp h
      rw [hk, Nat.log_pow (by omega)]
      by_cases h0 : n = 0
      · subst h0
        cases k with
        | zero => rfl
        | succ k => rw [Nat.pow_succ] at hk; omega
      · rw [if_neg h0]
        cases k with
        | zero => simp at hk; omega
        | succ k =>
          congr 1
          rw [Nat.log_eq_iff (by right; omega)]
          rw [Nat.pow_succ] at hk ⊢
          have := Nat.one_le_two_pow (n := k)
          omega
    have hn : isPow2 (n + 1) = false → (if n = 0 then 0 else Nat.log 2 n + 1) = Nat.log 2 (n + 1) + 1 := by
      intro h
      have h' : ¬ ∃ k, n + 1 = 2 ^ k := by
        rw [← isPow2_iff (by omega), h]; simp
      by_cases h0 : n = 0
      · subst h0; exact absurd ⟨0, rfl⟩ h'
      · rw [if_neg h0]
        congr 1
        symm
        rw [Nat.log_eq_iff (by right; omega)]
        have h1 := Nat.pow_log_le_self 2 h0
        have h2 := Nat.lt_pow_succ_log_self (b := 2) (by omega) n
        have h3 : n + 1 ≠ 2 ^ (Nat.log 2 n + 1) := fun hc => h' ⟨_, hc⟩
        omega
    cases hb : isPow2 (n + 1) with
    | true =>
      rw [hp hb]
      split <;> simp
    | false =>
      rw [hn hb]
      split <;> simp

theorem initAlphas_eq {q : Query} {l : List (Option Nat × List ℚ)} (h : initAlphas q = .ok l) :
    l = (List.range' 1 (2 ^ q.dim - 1)).filterMap (entryOf (imcMask q.considered) q.dim) := by
  unfold initAlphas at h
  split at h
  · cases h
  · split at h
    · cases h
    · rw [foldl_initStep] at h
      cases h
      rfl

/-- Every entry belongs to a mask. -/
theorem mem_initAlphas {q : Query} {l : List (Option Nat × List ℚ)} (h : initAlphas q = .ok l)
    {mi : Option Nat} {v : List ℚ} : (mi, v) ∈ l ↔ ∃ m, 0 < m ∧ m < 2 ^ q.dim ∧
      (∀ i, m.testBit i = true → q.considered[i]? = some true) ∧ v = alphasOf q.dim m ∧
      mi = if isPow2 m then some (Nat.log 2 m) else none := by
  rw [initAlphas_eq h, List.mem_filterMap]
  have hp := Nat.one_le_two_pow (n := q.dim)
  constructor
  · rintro ⟨m, hm, he⟩
    rw [List.mem_range'_1] at hm
    unfold entryOf at he
    split at he
    · rename_i hs
      rw [submask_iff] at hs
      simp only [Option.some.injEq, Prod.mk.injEq] at he
      refine ⟨m, by omega, by omega, fun i hi => ?_, he.2.symm, he.1.symm⟩
      have := hs i hi
      rw [testBit_imcMask] at this
      exact of_decide_eq_true this
    · cases he
  · rintro ⟨m, h0, h1, hs, rfl, rfl⟩
    refine ⟨m, by rw [List.mem_range'_1]; omega, ?_⟩
    unfold entryOf
    rw [if_pos]
    rw [submask_iff]
    intro i hi
    rw [testBit_imcMask, hs i hi]
    simp

theorem initAlphas_nodup {q : Query} {l : List (Option Nat × List ℚ)} (h : initAlphas q = .ok l) :
    (l.map (·.2)).Nodup := by
  rw [initAlphas_eq h, List.map_filterMap]
  have key : ∀ (ms : List Nat), ms.Nodup → (∀ m ∈ ms, m < 2 ^ q.dim) →
      (ms.filterMap fun m => (entryOf (imcMask q.considered) q.dim m).map (·.2)).Nodup := by
    intro ms
    induction ms with
    | nil => intros; exact List.nodup_nil
    | cons m ms ih =>
      intro hn hlt
      rw [List.nodup_cons] at hn
      have ih := ih hn.2 (fun x hx => hlt x (List.mem_cons_of_mem _ hx))
      rw [List.filterMap_cons]
      split
      · exact ih
      · rename_i v hv
        rw [List.nodup_cons]
        refine ⟨fun hmem => ?_, ih⟩
        obtain ⟨m', hm', hv'⟩ := List.mem_filterMap.mp hmem
        unfold entryOf at hv hv'
        split at hv
        · split at hv'
          · simp only [Option.map_some, Option.some.injEq] at hv hv'
            have := alphasOf_inj (hlt m' (List.mem_cons_of_mem _ hm')) (hlt m List.mem_cons_self)
              (hv'.trans hv.symm)
            exact hn.1 (this ▸ hm')
          · cases hv'
        · cases hv
  have hp := Nat.one_le_two_pow (n := q.dim)
  exact key _ (List.nodup_range' (step := 1)) (fun m hm => by rw [List.mem_range'_1] at hm; omega)

end Verif.Exp
