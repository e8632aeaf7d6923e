import Verif.FloatProps
import Verif.LockstepHeap

/-!
# When the router's floating point numbers are exact

If the weighted metrics are multiples of a power of two and not too large, e.g. whole metres or seconds with whole
alphas, then `f64` behaves like exact numbers, and approximate comparisons are exact.
-/

namespace Verif.Fp

open Dij Graph

/-- Alphas times metrics are multiples of `2^e`, which is at least `2^-19`. The weights of edges are at most `W`, and
that is so small that the sums along all nodes have 53 bits. -/
structure Whole (g : Graph) (al : List ℚ) (e : ℤ) (W : ℚ) : Prop where
  fine : -19 ≤ e
  nonneg : 0 ≤ W
  grid : ∀ m ∈ g.metrics, ∀ p ∈ al.zip m, ∃ i : ℕ, p.1 * p.2 = i * 2 ^ e
  weight : ∀ m ∈ g.metrics, (List.zipWith (· * ·) al m).sum ≤ W
  small : (g.nodeCount + 1) * W < 2 ^ 52 * 2 ^ e

/-! ## Lemmas -/

section
variable {g : Graph} {al : List ℚ} {e : ℤ} {W : ℚ}

/-- Multiples of `2^e` with 53 bits are not rounded. -/
theorem rnd_grid (he : -19 ≤ e) {x : ℚ} {i : ℕ} (hx : x = i * 2 ^ e) (hb : x < 2 ^ 53 * 2 ^ e) : f64.rnd x = x := by
  refine (C75_numbers x).mpr ⟨i, e, ?_, by omega, by rw [hx]; push_cast; rfl⟩
  have h2 : (0 : ℚ) < 2 ^ e := zpow_pos (by norm_num) _
  rw [hx] at hb
  have h3 := lt_of_mul_lt_mul_right hb (le_of_lt h2)
  have h4 : i < 2 ^ 53 := by exact_mod_cast h3
  rw [Nat.abs_cast]
  exact_mod_cast h4

theorem dotFrom_exact (he : -19 ≤ e) (l : List (ℚ × ℚ)) (hl : ∀ p ∈ l, ∃ i : ℕ, p.1 * p.2 = i * 2 ^ e) (s : Rounded f64)
    (hs : ∃ i : ℕ, s.1 = i * 2 ^ e) (hb : s.1 + (l.map fun p => p.1 * p.2).sum < 2 ^ 53 * 2 ^ e) :
    (l.foldl (fun (s : Rounded f64) p => s + ⟨f64.rnd (p.1 * p.2), f64.idem _⟩) s).1 =
      s.1 + (l.map fun p => p.1 * p.2).sum := by
  have h2 : (0 : ℚ) < 2 ^ e := zpow_pos (by norm_num) _
  induction l generalizing s with
  | nil => simp
  | cons p l ih =>
    simp only [List.map_cons, List.sum_cons] at hb ⊢
    obtain ⟨i, hi⟩ := hl p List.mem_cons_self
    obtain ⟨j, hj⟩ := hs
    have hrest : 0 ≤ (l.map fun p => p.1 * p.2).sum := by
      refine List.sum_nonneg fun x hx => ?_
      obtain ⟨q, hq, rfl⟩ := List.mem_map.mp hx
      obtain ⟨k, hk⟩ := hl q (List.mem_cons_of_mem _ hq)
      simp only [hk]
      positivity
    have hp0 : 0 ≤ p.1 * p.2 := by rw [hi]; positivity
    have hs0 : 0 ≤ s.1 := by rw [hj]; positivity
    have e1 : f64.rnd (p.1 * p.2) = p.1 * p.2 := rnd_grid he hi (by linarith)
    have e2 : (s + ⟨f64.rnd (p.1 * p.2), f64.idem _⟩ : Rounded f64).1 = s.1 + p.1 * p.2 := by
      show f64.rnd (s.1 + f64.rnd (p.1 * p.2)) = _
      rw [e1]
      exact rnd_grid he (i := j + i) (by rw [hi, hj]; push_cast; ring) (by linarith)
    rw [List.foldl_cons, ih (fun q hq => hl q (List.mem_cons_of_mem _ hq)) _
      ⟨j + i, by rw [e2, hi, hj]; push_cast; ring⟩ (by rw [e2]; linarith), e2]
    ring

theorem zipWith_map (a b : List ℚ) : List.zipWith (· * ·) a b = (a.zip b).map fun p => p.1 * p.2 := by
  induction a generalizing b with
  | nil => rfl
  | cons x a ih => cases b <;> simp [ih]

/-- Weights are exact. -/
theorem dot_exact (hw : Whole g al e W) {m : List ℚ} (hm : m ∈ g.metrics) :
    (dot f64 al m).1 = Verif.dot al m ∧ (∃ i : ℕ, Verif.dot al m = i * 2 ^ e) ∧ Verif.dot al m ≤ W := by
  have h2 : (0 : ℚ) < 2 ^ e := zpow_pos (by norm_num) _
  have hW : W < 2 ^ 53 * 2 ^ e := by
    have h1 := hw.small
    have h3 : (0 : ℚ) ≤ g.nodeCount * W := mul_nonneg (by positivity) hw.nonneg
    have h4 : (2 : ℚ) ^ 52 * 2 ^ e ≤ 2 ^ 53 * 2 ^ e := mul_le_mul_of_nonneg_right (by norm_num) (le_of_lt h2)
    linarith
  have hle := hw.weight m hm
  have e0 : Verif.dot al m = ((al.zip m).map fun p => p.1 * p.2).sum := by
    rw [dot_eq, zipWith_map]
  rw [zipWith_map] at hle
  have h1 := dotFrom_exact hw.fine (al.zip m) (hw.grid m hm) 0 ⟨0, by
    rw [Nat.cast_zero, zero_mul]; rfl⟩ (by
    have : (0 : Rounded f64).1 = 0 := rfl
    rw [this]
    linarith)
  refine ⟨?_, ?_, by rw [e0]; exact hle⟩
  · rw [e0]
    refine h1.trans ?_
    have : (0 : Rounded f64).1 = 0 := rfl
    rw [this, zero_add]
  · rw [e0]
    have hg := hw.grid m hm
    generalize al.zip m = l at hg
    clear hle h1 e0
    induction l with
    | nil => exact ⟨0, by simp⟩
    | cons p l ih =>
      obtain ⟨i, hi⟩ := hg p List.mem_cons_self
      obtain ⟨j, hj⟩ := ih fun q hq => hg q (List.mem_cons_of_mem _ hq)
      exact ⟨i + j, by simp only [List.map_cons, List.sum_cons, hi, hj]; push_cast; ring⟩

/-- The costs that occur. -/
def Cost (e : ℤ) (W : ℚ) (m : Nat) (x : Rounded f64) : Prop := (∃ i : ℕ, x.1 = i * 2 ^ e) ∧ x.1 ≤ m * W

theorem exactly (hw : Whole g al e W) :
    Exactly (fun x : Rounded f64 => x.1) (Cost e W) g.nodeCount (dot f64 al) (Verif.dot al) g.metrics := by
  have h2 : (0 : ℚ) < 2 ^ e := zpow_pos (by norm_num) _
  have hW0 := hw.nonneg
  have hsmall := hw.small
  refine { lt := fun _ _ => Iff.rfl, zero := rfl, base := ?_, mono := ?_, step := ?_, down := ?_, sum := ?_ }
  · intro m
    refine ⟨⟨0, by rw [Nat.cast_zero, zero_mul]; rfl⟩, ?_⟩
    show (0 : ℚ) ≤ _
    positivity
  · intro m m' x hm hx
    refine ⟨hx.1, le_trans hx.2 (mul_le_mul_of_nonneg_right (by exact_mod_cast hm) hW0)⟩
  · intro m x hm hx a ha
    obtain ⟨e1, ⟨i, hi⟩, hle⟩ := dot_exact hw ha
    obtain ⟨⟨j, hj⟩, hx2⟩ := hx
    have hbound : x.1 + Verif.dot al a ≤ (m + 1 : Nat) * W := by
      push_cast
      linarith
    have hm' : ((m + 1 : Nat) : ℚ) * W ≤ (g.nodeCount + 1) * W :=
      mul_le_mul_of_nonneg_right (by push_cast; exact_mod_cast Nat.succ_le_succ hm) hW0
    have h5 : (2 : ℚ) ^ 52 * 2 ^ e ≤ 2 ^ 53 * 2 ^ e := mul_le_mul_of_nonneg_right (by norm_num) (le_of_lt h2)
    have e2 : (x + dot f64 al a).1 = x.1 + Verif.dot al a := by
      show f64.rnd (x.1 + (dot f64 al a).1) = _
      rw [e1]
      exact rnd_grid hw.fine (i := j + i) (by rw [hi, hj]; push_cast; ring) (by linarith)
    exact ⟨⟨⟨j + i, by rw [e2, hi, hj]; push_cast; ring⟩, by rw [e2]; exact hbound⟩, e2⟩
  · intro m x y hx hy hlt
    exact ⟨hx.1, le_trans (le_of_lt hlt) hy.2⟩
  · rintro x y ⟨⟨i, hi⟩, hx⟩ ⟨⟨j, hj⟩, hy⟩
    refine rnd_grid hw.fine (i := i + j) (by rw [hi, hj]; push_cast; ring) ?_
    have : (2 : ℚ) ^ 53 * 2 ^ e = 2 * (2 ^ 52 * 2 ^ e) := by ring
    rw [this]
    linarith

/-- Comparisons are exact. -/
theorem cmp_exact (he : -19 ≤ e) {a b : Rounded f64} (ha : ∃ i : ℕ, a.1 = i * 2 ^ e) (hb : ∃ i : ℕ, b.1 = i * 2 ^ e) :
    compare a.1 b.1 = cmp f64 a b := by
  unfold cmp
  split
  · rename_i h
    have hn := eq_near f64_err (by norm_num) (by decide +kernel) h
    have : a.1 = b.1 := by
      obtain ⟨i, hi⟩ := ha
      obtain ⟨j, hj⟩ := hb
      by_contra hne
      have hij : (i : ℤ) ≠ j := by
        intro h
        have h' : i = j := by exact_mod_cast h
        exact hne (by rw [hi, hj, h'])
      have h1 : (1 : ℤ) ≤ |(i : ℤ) - j| := Int.one_le_abs (sub_ne_zero.mpr hij)
      have h1' : (1 : ℚ) ≤ |(i : ℚ) - j| := by exact_mod_cast h1
      have h2 : (2 : ℚ) ^ (-19 : ℤ) ≤ 2 ^ e := zpow_le_zpow_right₀ (by norm_num) he
      have h3 : |a.1 - b.1| = |(i : ℚ) - j| * 2 ^ e := by
        rw [hi, hj, ← sub_mul, abs_mul, abs_of_pos (zpow_pos (by norm_num) e : (0 : ℚ) < 2 ^ e)]
      rw [h3] at hn
      have h4 : (1 : ℚ) * 2 ^ (-19 : ℤ) ≤ |(i : ℚ) - j| * 2 ^ e :=
        mul_le_mul h1' h2 (by positivity) (by positivity)
      have h5 : (1 : ℚ) / 625000 < 1 * 2 ^ (-19 : ℤ) := by norm_num
      exact absurd (lt_of_lt_of_le h5 h4) (not_lt.mpr hn)
    rw [this, compare_eq_iff_eq.mpr rfl]
  · rfl

end

/-! ## C77 -/

section
variable {q : Query (Rounded f64)} {e : ℤ} {W : ℚ}

/-- The same query with exact costs. -/
def exactQuery (q : Query (Rounded f64)) : Query ℚ :=
  { src := q.src, dst := q.dst, graph := q.graph, algo := q.algo, alphas := q.alphas }

/-- In `f64`, a new router answers what it would answer with exact numbers and exact comparisons. -/
theorem C77_exact (hw : Whole q.graph q.alphas e W) (fuel : Nat) :
    answer (computeBestPath (heap f64) (dot f64) fuel St.new q) =
      answer (computeBestPath (binHeap compare) Verif.dot fuel St.new (exactQuery q)) :=
  (answer_same (exactly hw) (binHeap_same fun _ _ ha hb => cmp_exact hw.fine ha.1 hb.1) fuel).symm

variable {fuel n : Nat} {s s' : St (Rounded f64)}

/-- A router that has been used on graphs that are not larger answers the same, too. -/
theorem C77_reuse (hw : Whole q.graph q.alphas e W) (hu : Used (heap f64) (dot f64) n s) (hn : n ≤ q.graph.nodeCount)
    (h2 : q.graph.nodeCount ≠ 2) :
    answer (computeBestPath (heap f64) (dot f64) fuel s q) =
      answer (computeBestPath (binHeap compare) Verif.dot fuel St.new (exactQuery q)) := by
  rw [C17_reuse_partial hu hn h2, C77_exact hw]

theorem answer_some {K : Type} {o : Option (R (St K × Option Path))} {p : Option Path} (h : answer o = some (.ok p)) :
    ∃ s, o = some (.ok (s, p)) := by
  cases o with
  | none => cases h
  | some r =>
    cases r with
    | ok x => simp only [answer, Option.map_some, Option.some.injEq] at h; cases h; exact ⟨x.1, rfl⟩
    | err e => cases h
    | panic => cases h

/-- In `f64`, Dijkstra's answer is a cheapest route, in exact numbers. -/
theorem C77_optimal {p : Path} (hw : Whole q.graph q.alphas e W) (hwf : q.graph.WellFormed)
    (hm : NonnegMetrics q.graph) (halg : q.algo = .dijkstra)
    (hsrc : q.src < q.graph.nodeCount) (hdst : q.dst < q.graph.nodeCount)
    (hc : answer (computeBestPath (heap f64) (dot f64) fuel St.new q) = some (.ok (some p))) :
    q.graph.IsRoute q.src p.edges q.dst ∧ ∀ l, q.graph.IsRoute q.src l q.dst →
      routeCost q.graph q.alphas p.edges ≤ routeCost q.graph q.alphas l := by
  obtain ⟨s1, h1⟩ := answer_some hc
  rw [C77_exact hw] at hc
  obtain ⟨s2, h2⟩ := answer_some hc
  exact ⟨(C76_route (n := 0) hwf hm hsrc hdst .new h1).1,
    C14_exact_comparison (n := 0) hwf hm halg hsrc hdst .new h2⟩

/-- The same for ch-dijkstra, if every route can be replaced by one that goes up and then down and costs not more. -/
theorem C77_optimal_ch {p : Path} (hw : Whole q.graph q.alphas e W) (hwf : q.graph.WellFormed)
    (hm : NonnegMetrics q.graph) (hhi : Hierarchy q.graph q.alphas) (halg : q.algo = .chDijkstra)
    (hsrc : q.src < q.graph.nodeCount) (hdst : q.dst < q.graph.nodeCount)
    (hc : answer (computeBestPath (heap f64) (dot f64) fuel St.new q) = some (.ok (some p))) :
    q.graph.IsRoute q.src p.edges q.dst ∧ ∀ l, q.graph.IsRoute q.src l q.dst →
      routeCost q.graph q.alphas p.edges ≤ routeCost q.graph q.alphas l := by
  rw [C77_exact hw] at hc
  obtain ⟨s2, h2⟩ := answer_some hc
  exact C20_optimal (q := exactQuery q) (n := 0) (V := fun _ => True) hwf hm hhi halg hsrc hdst .new
    (binHeap_min (fun _ _ _ _ => rfl)) trivial (fun _ _ _ _ => trivial) h2

end

/-- The graph of squares meets the conditions with the alpha `1/2`. -/
theorem sq_whole : Whole sqGraph [1 / 2] (-1) 2 := by
  have hm : sqGraph.metrics = [[2], [1], [4], [2], [1]] := by decide +kernel
  have hn : sqGraph.nodeCount = 4 := by decide +kernel
  refine ⟨by norm_num, by norm_num, ?_, ?_, by rw [hn]; norm_num⟩
  · rw [hm]
    intro m hm p hp
    simp only [List.mem_cons, List.not_mem_nil, or_false] at hm
    rcases hm with rfl | rfl | rfl | rfl | rfl <;>
      simp only [List.zip_cons_cons, List.zip_nil_right, List.mem_cons, List.not_mem_nil, or_false] at hp <;> subst hp
    · exact ⟨2, by norm_num⟩
    · exact ⟨1, by norm_num⟩
    · exact ⟨4, by norm_num⟩
    · exact ⟨2, by norm_num⟩
    · exact ⟨1, by norm_num⟩
  · rw [hm]
    decide +kernel

example : Whole sqGraph [1 / 2] (-1) 2 ∧ sqGraph.WellFormed ∧ NonnegMetrics sqGraph ∧
    answer (computeBestPath (heap f64) (dot f64) 40 St.new
      { src := 0, dst := 3, graph := sqGraph, algo := .dijkstra, alphas := [1 / 2] }) =
      some (.ok (some (Path.new 0 0 3 3 [0, 3]))) ∧
    (∃ s p, computeBestPath (heap f64) (dot f64) 40 St.new
      { src := 0, dst := 3, graph := sqGraph, algo := .dijkstra, alphas := [1 / 2] } = some (.ok (s, some p)) ∧
      Used (heap f64) (dot f64) 4 s) := by
  have h : answer (computeBestPath (heap f64) (dot f64) 40 St.new
      { src := 0, dst := 3, graph := sqGraph, algo := .dijkstra, alphas := [1 / 2] }) =
      some (.ok (some (Path.new 0 0 3 3 [0, 3]))) := by decide +kernel
  obtain ⟨s, hs⟩ := answer_some h
  exact ⟨sq_whole, Build.built_wellFormed sq_build, sq_nonneg, h, s, _, hs, .query .new (by decide +kernel) hs⟩

/-- The circle with shortcuts meets the conditions. -/
example : Whole chGraph [1] 0 2 ∧ chGraph.WellFormed ∧ NonnegMetrics chGraph ∧ Hierarchy chGraph [1] ∧
    answer (computeBestPath (heap f64) (dot f64) 40 St.new
      { src := 1, dst := 0, graph := chGraph, algo := .chDijkstra, alphas := [1] }) =
      some (.ok (some (Path.new 1 1 0 0 [2, 3]))) := by
  have hm : chGraph.metrics = [[2], [1], [1], [2], [1], [1]] := by decide +kernel
  have hn : chGraph.nodeCount = 4 := by decide +kernel
  have hwf := Build.built_wellFormed ch_build
  refine ⟨⟨by norm_num, by norm_num, ?_, ?_, by rw [hn]; norm_num⟩, hwf, ch_nonneg,
    C20_contracted hwf ch_nonneg (by simp)
      (contracted_of hwf (weights_nonneg (by simp) ch_nonneg) (by decide +kernel)), by decide +kernel⟩
  · rw [hm]
    intro m hm p hp
    simp only [List.mem_cons, List.not_mem_nil, or_false] at hm
    rcases hm with rfl | rfl | rfl | rfl | rfl | rfl <;>
      simp only [List.zip_cons_cons, List.zip_nil_right, List.mem_cons, List.not_mem_nil, or_false] at hp <;> subst hp
    · exact ⟨2, by norm_num⟩
    · exact ⟨1, by norm_num⟩
    · exact ⟨1, by norm_num⟩
    · exact ⟨2, by norm_num⟩
    · exact ⟨1, by norm_num⟩
    · exact ⟨1, by norm_num⟩
  · rw [hm]
    decide +kernel

/-- Exact answers cannot be expected of all numbers: weights that are no multiples of a power of two, like those of
`C76_false_optimal`. -/
theorem C77_false_all :
    answer (computeBestPath (heap f64) (dot f64) 40 St.new
        { src := 3, dst := 4, graph := nearGraph, algo := .dijkstra, alphas := [1] }) ≠
      answer (computeBestPath (binHeap compare) Verif.dot 40 St.new
        { src := 3, dst := 4, graph := nearGraph, algo := .dijkstra, alphas := [1] }) := by
  decide +kernel

end Verif.Fp
