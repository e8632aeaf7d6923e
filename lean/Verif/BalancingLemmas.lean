import Verif.BalancingSpec
import Verif.ApproxProps
import Verif.GeneratingLemmas3

/-! # Lemmas for the balanced metric -/

namespace Verif.Bal

open Cfg Text Gen

theorem isZero_iff (xs : List ℚ) : isZero (meanOf xs) = true ↔ xs ≠ [] ∧ |average xs| < 3 / 2000000 := by
  unfold meanOf isZero average
  cases xs with
  | nil => simp
  | cons x xs =>
    rw [if_neg (by simp)]
    simp only [Approx.C24_eq_iff, sub_zero, ne_eq, reduceCtorEq, not_false_eq_true, true_and]

theorem isNotPositive_iff (xs : List ℚ) :
    isNotPositive (meanOf xs) = true ↔ xs ≠ [] ∧ average xs < 3 / 2000000 := by
  unfold meanOf isNotPositive average
  cases xs with
  | nil => simp
  | cons x xs =>
    rw [if_neg (by simp)]
    simp only [Approx.C24_le_iff, zero_add, ne_eq, reduceCtorEq, not_false_eq_true, true_and]

theorem divideBy_eq (xs : List ℚ) : divideBy xs (meanOf xs) = xs.map fun x => x / average xs := by
  unfold meanOf divideBy average
  cases xs with
  | nil => simp
  | cons x xs => rw [if_neg (by simp)]

theorem value_eq_some {ms : List (List ℚ)} {e k : Nat} {x : ℚ} :
    value ms e k = some x ↔ ∃ m, ms[e]? = some m ∧ m[k]? = some x := by
  unfold value
  rw [Option.bind_eq_some_iff]

theorem blendAll_ok {f : ℚ → ℚ → ℚ} {ms : List (List ℚ)} {k : Nat} {news : List ℚ} {e : Nat} {xs : List ℚ}
    (h : blendAll f ms k e news = .ok xs) :
    (∀ i < news.length, (value ms (e + i) k).isSome) ∧
      xs = (List.range news.length).map fun i => f ((value ms (e + i) k).getD 0) (news.getD i 0) := by
  induction news generalizing e xs with
  | nil =>
    simp only [blendAll, Res.ok.injEq] at h
    subst h
    simp
  | cons new news ih =>
    simp only [blendAll, Res.bind_eq_ok, Res.pure_eq, Res.ok.injEq, Res.ofIdx_eq_ok] at h
    obtain ⟨m, hm, old, ho, rest, hr, rfl⟩ := h
    obtain ⟨h1, h2⟩ := ih hr
    have hv : value ms e k = some old := value_eq_some.mpr ⟨m, hm, ho⟩
    refine ⟨fun i hi => ?_, ?_⟩
    · cases i with
      | zero => simp [hv]
      | succ i =>
        have := h1 i (by simpa using hi)
        rwa [show e + (i + 1) = e + 1 + i by omega]
    · rw [h2, List.length_cons, List.range_succ_eq_map, List.map_cons, List.map_map]
      simp only [Nat.add_zero, hv, Option.getD_some, List.getD_cons_zero, List.cons.injEq, true_and]
      refine List.map_congr_left fun i _ => ?_
      simp only [Function.comp_apply, Nat.succ_eq_add_one, List.getD_cons_succ]
      rw [show e + (i + 1) = e + 1 + i by omega]

theorem blendAll_total {f : ℚ → ℚ → ℚ} {ms : List (List ℚ)} {k : Nat} {news : List ℚ} {e : Nat}
    (h : ∀ i < news.length, (value ms (e + i) k).isSome) : ∃ xs, blendAll f ms k e news = .ok xs := by
  induction news generalizing e with
  | nil => exact ⟨_, rfl⟩
  | cons new news ih =>
    have h0 := h 0 (by simp)
    obtain ⟨old, ho⟩ := Option.isSome_iff_exists.mp h0
    obtain ⟨m, hm, ho⟩ := value_eq_some.mp ho
    obtain ⟨rest, hr⟩ := ih (e := e + 1) (fun i hi => by
      have := h (i + 1) (by simpa using hi)
      rwa [show e + (i + 1) = e + 1 + i by omega] at this)
    rw [Nat.add_zero] at hm
    exact ⟨_, by simp only [blendAll, hm, ho, Res.ofIdx_some, Res.ok_bind, hr, Res.pure_eq]; rfl⟩

theorem blendAll_not_err {f : ℚ → ℚ → ℚ} {ms : List (List ℚ)} {k : Nat} {news : List ℚ} {e : Nat} {x : Err} :
    blendAll f ms k e news ≠ .err x := by
  induction news generalizing e x with
  | nil => simp [blendAll]
  | cons new news ih =>
    simp only [blendAll]
    cases h1 : ms[e]? with
    | none => simp
    | some m =>
      cases h2 : m[k]? with
      | none => simp [h2]
      | some old =>
        simp only [Res.ofIdx_some, Res.ok_bind, h2]
        cases h3 : blendAll f ms k (e + 1) news with
        | ok r => simp
        | panic => simp
        | err y => exact absurd h3 ih

/-- What is stored before normalizing. -/
def floored (cfg : Config) (x : ℚ) : ℚ :=
  match cfg.minNewMetric with
  | none => x
  | some m => if x < m + 3 / 2000000 then m else x

theorem atLeast_ok {cfg : Config} {xs ys : List ℚ} (h : atLeast cfg xs = .ok ys) :
    ys = xs.map (floored cfg) ∧
      (cfg.minNewMetric = none → cfg.isErrWhenZero = true → ∀ x ∈ xs, 3 / 2000000 ≤ x) := by
  unfold atLeast at h
  unfold floored
  split at h
  · rename_i m hm
    rw [hm]
    simp only [Res.ok.injEq] at h
    subst h
    refine ⟨?_, by simp⟩
    refine List.map_congr_left fun x _ => ?_
    simp only [Approx.C24_le_iff]
  · rename_i hm
    rw [hm]
    split at h
    · simp at h
    · rename_i hc
      simp only [Res.ok.injEq] at h
      subst h
      refine ⟨by simp, fun _ he x hx => ?_⟩
      by_contra hlt
      refine hc ?_
      rw [he, Bool.and_true, List.any_eq_true]
      exact ⟨x, hx, (Approx.C24_le_iff x 0).mpr (by rw [zero_add]; exact not_le.mp hlt)⟩

theorem atLeast_total {cfg : Config} {xs : List ℚ}
    (h : cfg.minNewMetric = none → cfg.isErrWhenZero = true → ∀ x ∈ xs, 3 / 2000000 ≤ x) :
    ∃ ys, atLeast cfg xs = .ok ys := by
  unfold atLeast
  cases hm : cfg.minNewMetric with
  | some m => exact ⟨_, rfl⟩
  | none =>
    simp only
    split
    · rename_i hc
      rw [Bool.and_eq_true, List.any_eq_true] at hc
      obtain ⟨⟨x, hx, hle⟩, he⟩ := hc
      have h1 := h hm he x hx
      have h2 := (Approx.C24_le_iff x 0).mp hle
      rw [zero_add] at h2
      exact absurd h2 (not_lt.mpr h1)
    · exact ⟨_, rfl⟩

theorem atLeast_not_panic {cfg : Config} {xs : List ℚ} : atLeast cfg xs ≠ .panic := by
  unfold atLeast
  split
  · simp
  · split <;> simp

theorem target_eq (cfg : Config) (i : Nat) (old rel : ℚ) :
    target cfg i old rel = floored cfg (blend cfg.method i old rel) := by
  have h : ∀ x y : ℚ, x = y → (match cfg.minNewMetric with
      | none => x
      | some m => if x < m + 3 / 2000000 then m else x) = floored cfg y := by
    rintro x _ rfl
    rfl
  unfold target blend
  cases cfg.method with
  | explicitEuler c => exact h _ _ (by ring)
  | averaging => exact h _ _ (by simp only [Nat.cast_add, Nat.cast_one])

theorem writeAll_ok {k e : Nat} {xs : List ℚ} {ms : List (List ℚ)}
    (h : ∀ i < xs.length, (value ms (e + i) k).isSome) :
    ∃ ms', writeAll k e xs ms = (.ok .finished, ms') ∧ ms'.length = ms.length ∧
      (∀ (i : Nat) (m m' : List ℚ), ms[i]? = some m → ms'[i]? = some m' → m'.length = m.length) ∧
      (∀ i j : Nat, j ≠ k ∨ i < e ∨ e + xs.length ≤ i → value ms' i j = value ms i j) ∧
      (∀ i < xs.length, value ms' (e + i) k = xs[i]?) := by
  induction xs generalizing e ms with
  | nil =>
    refine ⟨ms, rfl, rfl, fun i m m' h1 h2 => ?_, fun _ _ _ => rfl, fun i hi => absurd hi (by simp)⟩
    rw [h1, Option.some.injEq] at h2
    rw [h2]
  | cons x xs ih =>
    obtain ⟨old, ho⟩ := Option.isSome_iff_exists.mp (h 0 (by simp))
    obtain ⟨m, hm, ho⟩ := value_eq_some.mp ho
    rw [Nat.add_zero] at hm
    have hk := lt_of_some ho
    have he := lt_of_some hm
    have hset : ∀ i j : Nat, (j ≠ k ∨ i ≠ e) → value (ms.set e (m.set k x)) i j = value ms i j := by
      intro i j hij
      unfold value
      by_cases hie : i = e
      · subst hie
        have hjk : j ≠ k := by tauto
        rw [List.getElem?_set_self he, hm]
        simp only [Option.bind_some]
        rw [List.getElem?_set_ne (Ne.symm hjk)]
      · rw [List.getElem?_set_ne (fun h => hie h.symm)]
    have hsetk : value (ms.set e (m.set k x)) e k = some x := by
      unfold value
      rw [List.getElem?_set_self he]
      simp only [Option.bind_some]
      rw [List.getElem?_set_self hk]
    obtain ⟨ms', h1, h2, h3, h4, h5⟩ := ih (e := e + 1) (ms := ms.set e (m.set k x)) (fun i hi => by
      rw [hset _ _ (Or.inr (by omega))]
      have := h (i + 1) (by simpa using hi)
      rwa [show e + (i + 1) = e + 1 + i by omega] at this)
    refine ⟨ms', ?_, ?_, ?_, ?_, ?_⟩
    · simp only [writeAll, hm, if_pos hk, h1]
    · rw [h2, List.length_set]
    · intro i a b ha hb
      by_cases hie : i = e
      · subst hie
        rw [hm, Option.some.injEq] at ha
        rw [h3 i (m.set k x) b (List.getElem?_set_self he) hb, List.length_set, ha]
      · exact h3 i a b (by rw [List.getElem?_set_ne (fun h => hie h.symm)]; exact ha) hb
    · intro i j hij
      rw [List.length_cons] at hij
      rw [h4 i j (by omega), hset i j (by omega)]
    · intro i hi
      cases i with
      | zero =>
        rw [Nat.add_zero, h4 e k (by omega), hsetk]
        rfl
      | succ i =>
        have := h5 i (by simpa using hi)
        rw [show e + (i + 1) = e + 1 + i by omega, this]
        rfl

theorem relative_getD (w : List Nat) (i : Nat) (hi : i < w.length) :
    (divideBy (w.map fun n : Nat => (n : ℚ)) (meanOf (w.map fun n : Nat => (n : ℚ)))).getD i 0 = relative w i := by
  rw [divideBy_eq, List.getD_eq_getElem?_getD, List.getElem?_map, List.getElem?_map, List.getElem?_eq_getElem hi]
  unfold relative
  rw [List.getD_eq_getElem?_getD, List.getElem?_eq_getElem hi]
  rfl

/-- What is computed without changing the graph. -/
theorem newMetric_ok {i : Nat} {w : List Nat} {s : Net} {cfg : Config} {k' : Nat} {ys : List ℚ} {mean : Option ℚ}
    (h : newMetric i w s cfg = .ok (k', ys, mean)) :
    s.edges.ids[k']? = some cfg.metricId ∧
      (∀ e < w.length, (value s.graph.metrics e k').isSome) ∧
      (w ≠ [] → 3 / 2000000 ≤ average (w.map fun n : Nat => (n : ℚ))) ∧
      (w ≠ [] → 3 / 2000000 ≤ average (targets cfg i w s.graph.metrics k')) ∧
      (cfg.minNewMetric = none → cfg.isErrWhenZero = true →
        ∀ x ∈ targets cfg i w s.graph.metrics k', 3 / 2000000 ≤ x) ∧
      mean = meanOf (targets cfg i w s.graph.metrics k') ∧
      ys = (targets cfg i w s.graph.metrics k').map fun x => x / average (targets cfg i w s.graph.metrics k') := by
  unfold newMetric at h
  split at h
  · simp at h
  rename_i k hk
  simp only at h
  split at h
  · simp at h
  rename_i hz
  simp only [Res.bind_eq_ok] at h
  obtain ⟨xs, hb, zs, ha, h⟩ := h
  split at h
  · simp at h
  rename_i hp
  simp only [Res.pure_eq, Res.ok.injEq, Prod.mk.injEq] at h
  obtain ⟨rfl, hy, hmean⟩ := h
  obtain ⟨b1, b2⟩ := blendAll_ok hb
  obtain ⟨a1, a2⟩ := atLeast_ok ha
  have hlen : (divideBy (w.map fun n : Nat => (n : ℚ)) (meanOf (w.map fun n : Nat => (n : ℚ)))).length = w.length := by
    rw [divideBy_eq, List.length_map, List.length_map]
  rw [hlen] at b1 b2
  simp only [Nat.zero_add] at b1 b2
  have hxs : xs = (List.range w.length).map fun e =>
      blend cfg.method i ((value s.graph.metrics e k).getD 0) (relative w e) := by
    rw [b2]
    refine List.map_congr_left fun e he => ?_
    rw [relative_getD w e (List.mem_range.mp he)]
  have hzs : zs = targets cfg i w s.graph.metrics k := by
    rw [a1, hxs, List.map_map]
    unfold targets
    refine List.map_congr_left fun e _ => ?_
    rw [target_eq]
    rfl
  have hne : w ≠ [] → targets cfg i w s.graph.metrics k ≠ [] := by
    intro h h'
    have := congrArg List.length h'
    simp only [targets, List.length_map, List.length_range, List.length_nil] at this
    exact h (List.length_eq_zero_iff.mp this)
  have hnn : 0 ≤ average (w.map fun n : Nat => (n : ℚ)) := by
    unfold average
    refine div_nonneg (List.sum_nonneg fun x hx => ?_) (Nat.cast_nonneg _)
    obtain ⟨n, -, rfl⟩ := List.mem_map.mp hx
    exact Nat.cast_nonneg n
  refine ⟨idxOf_ok (by unfold idxOf; rw [hk]), b1, fun hw => ?_, fun hw => ?_, fun h1 h2 x hx => ?_, ?_, ?_⟩
  · rw [isZero_iff] at hz
    by_contra hlt
    refine hz ⟨fun h => hw (by simpa using h), ?_⟩
    rw [abs_of_nonneg hnn]
    exact not_le.mp hlt
  · rw [isNotPositive_iff, hzs] at hp
    by_contra hlt
    exact hp ⟨hne hw, not_le.mp hlt⟩
  · rw [← hzs, a1] at hx
    obtain ⟨y, hy, rfl⟩ := List.mem_map.mp hx
    have := a2 h1 h2 y hy
    unfold floored
    rw [h1]
    exact this
  · rw [← hmean, hzs]
  · rw [← hy, hzs, divideBy_eq]

/-- Storing the computed values. -/
theorem store_ok {k : Nat} {xs : List ℚ} {mean : Option ℚ} {s : Net}
    (h : ∀ e < xs.length, (value s.graph.metrics e k).isSome)
    (hm : ∀ means, s.graph.means = some means → k < means.length)
    (hmean : mean = none → xs = []) :
    ∃ s', store k xs mean s = (.ok (if mean = none ∧ s.graph.means ≠ none then .nanMean else .finished), s') ∧
      OnlyMetric k xs.length s s' ∧ (∀ i < xs.length, value s'.graph.metrics i k = xs[i]?) ∧
      (∀ x, mean = some x → s.graph.means ≠ none → meanAt s'.graph k = some x) := by
  obtain ⟨ms', w1, w2, w3, w4, w5⟩ := writeAll_ok (e := 0) (by simpa using h)
  simp only [Nat.zero_add] at w4 w5
  have w4' : ∀ i j : Nat, j ≠ k ∨ xs.length ≤ i → value ms' i j = value s.graph.metrics i j :=
    fun i j hij => w4 i j (by tauto)
  unfold store
  cases hms : s.graph.means with
  | none =>
    simp only [w1]
    refine ⟨{ s with graph := { s.graph with metrics := ms' } }, by simp [hms],
      ⟨rfl, rfl, ⟨rfl, rfl, rfl, rfl, rfl, rfl, rfl, rfl, rfl, rfl, rfl⟩, rfl, rfl, rfl, w2, w3, w4',
      fun _ _ => rfl, by rfl⟩, w5, by simp⟩
  | some means =>
    have hk := hm means hms
    simp only [if_pos hk]
    cases mean with
    | none =>
      have hx := hmean rfl
      subst hx
      refine ⟨s, by simp, ⟨rfl, rfl, ⟨rfl, rfl, rfl, rfl, rfl, rfl, rfl, rfl, rfl, rfl, rfl⟩, rfl, rfl, rfl, rfl, ?_,
        fun _ _ _ => rfl, fun _ _ => rfl, rfl⟩, fun i hi => absurd hi (by simp), by simp⟩
      intro e m m' h1 h2
      rw [h1, Option.some.injEq] at h2
      rw [h2]
    | some x =>
      simp only [w1]
      refine ⟨{ s with graph := { s.graph with metrics := ms', means := some (means.set k x) } }, by simp,
        ⟨rfl, rfl, ⟨rfl, rfl, rfl, rfl, rfl, rfl, rfl, rfl, rfl, rfl, rfl⟩, rfl, rfl, rfl, w2, w3,
        w4', fun j hj => ?_, by simp [hms]⟩, w5, fun y hy _ => ?_⟩
      · unfold meanAt
        simp only [hms, Option.bind_some]
        rw [List.getElem?_set_ne (Ne.symm hj)]
      · rw [Option.some.injEq] at hy
        subst hy
        unfold meanAt
        simp only [Option.bind_some]
        exact List.getElem?_set_self hk

theorem targets_length (cfg : Config) (i : Nat) (w : List Nat) (ms : List (List ℚ)) (k : Nat) :
    (targets cfg i w ms k).length = w.length := by simp [targets]

theorem meanOf_eq {xs : List ℚ} (h : xs ≠ []) : meanOf xs = some (average xs) := by
  unfold meanOf average
  rw [if_neg (by simpa using h)]

/-- All about a finished update. -/
theorem update_ok {i : Nat} {w : List Nat} {s s' : Net} {cfg : Config} {d : Done}
    (h : update i w s cfg = (.ok d, s')) :
    ∃ k, s.edges.ids[k]? = some cfg.metricId ∧
      (∀ e < w.length, (value s.graph.metrics e k).isSome) ∧
      (w ≠ [] → 3 / 2000000 ≤ average (w.map fun n : Nat => (n : ℚ))) ∧
      (w ≠ [] → 3 / 2000000 ≤ average (targets cfg i w s.graph.metrics k)) ∧
      (cfg.minNewMetric = none → cfg.isErrWhenZero = true →
        ∀ x ∈ targets cfg i w s.graph.metrics k, 3 / 2000000 ≤ x) ∧
      OnlyMetric k w.length s s' ∧
      (∀ e < w.length, value s'.graph.metrics e k =
        some ((targets cfg i w s.graph.metrics k).getD e 0 / average (targets cfg i w s.graph.metrics k))) ∧
      (w ≠ [] → s.graph.means ≠ none →
        meanAt s'.graph k = some (average (targets cfg i w s.graph.metrics k))) ∧
      (d = .nanMean ↔ w = [] ∧ s.graph.means ≠ none) := by
  unfold update at h
  split at h
  · rename_i k ys mean hn
    obtain ⟨n1, n2, n3, n4, n5, n6, n7⟩ := newMetric_ok hn
    have hlen : ys.length = w.length := by rw [n7, List.length_map, targets_length]
    have hmeans : ∀ means, s.graph.means = some means → k < means.length := by
      intro means hms
      by_contra hlt
      unfold store at h
      simp only [hms, if_neg hlt, Prod.mk.injEq, reduceCtorEq, false_and] at h
    obtain ⟨s'', s1, s2, s3, s4⟩ := store_ok (k := k) (xs := ys) (mean := mean) (s := s)
      (by rw [hlen]; exact n2) hmeans (by
        intro hm
        rw [n6] at hm
        rw [n7]
        by_contra hne
        rw [meanOf_eq (by simpa using hne)] at hm
        simp at hm)
    rw [s1] at h
    simp only [Prod.mk.injEq, Res.ok.injEq] at h
    obtain ⟨hd, rfl⟩ := h
    rw [hlen] at s2 s3
    have hempty : mean = none ↔ w = [] := by
      rw [n6]
      unfold meanOf
      rw [targets_length]
      constructor
      · intro hx
        split at hx
        · rename_i h0
          exact List.length_eq_zero_iff.mp h0
        · simp at hx
      · rintro rfl
        rfl
    refine ⟨k, n1, n2, n3, n4, n5, s2, fun e he => ?_, fun hw hms => ?_, ?_⟩
    · rw [s3 e he, n7, List.getElem?_map, List.getD_eq_getElem?_getD]
      have : e < (targets cfg i w s.graph.metrics k).length := by rw [targets_length]; exact he
      rw [List.getElem?_eq_getElem this]
      rfl
    · refine s4 _ ?_ hms
      rw [n6]
      refine meanOf_eq fun h0 => hw ?_
      have := congrArg List.length h0
      rw [targets_length] at this
      exact List.length_eq_zero_iff.mp this
    · rw [← hd, ← hempty]
      by_cases hc : mean = none ∧ s.graph.means ≠ none
      · rw [if_pos hc]
        simp [hc]
      · rw [if_neg hc]
        simp only [reduceCtorEq, false_iff]
        exact hc
  · simp at h
  · simp at h

end Verif.Bal
