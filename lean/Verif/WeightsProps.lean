import Verif.WeightsLemmas
import Verif.ExploratingHullProps
import Verif.GeneratingProps

/-!
# What the router sees of a graph's metrics (C67, C68)
-/

namespace Verif.Dij

open Gen (Net normalize Consistent mean value)

/-! ## C67 -/

section
variable {K : Type} [LinearOrder K] [Zero K] [Add K] {h : Heap K} {dotp : List ℚ → List ℚ → K} {fuel : Nat}
  {s : St K} {q : Query K} {ms : List (List ℚ)} {means : Option (List ℚ)} {al : List ℚ}

/-- The router sees metrics and alphas only as weights: if metrics and alphas are replaced such that every edge
has the same weight and such that there are negative alphas exactly if there have been before, nothing
changes. Holds for every arithmetic. -/
theorem C67_weights (hn : (∃ a ∈ al, a < 0) ↔ ∃ a ∈ q.alphas, a < 0)
    (hw : List.Forall₂ (fun m' m => dotp al m' = dotp q.alphas m) ms q.graph.metrics) :
    computeBestPath h dotp fuel s { q with graph := { q.graph with metrics := ms, means }, alphas := al } =
      computeBestPath h dotp fuel s q := by
  refine compute_congr (q' := { q with graph := { q.graph with metrics := ms, means }, alphas := al }) rfl rfl
    rfl rfl hn fun e => ?_
  simp only
  generalize q.graph.metrics = ms0 at hw
  induction hw generalizing e with
  | nil => simp
  | cons h1 _ ih =>
    cases e with
    | zero => simpa using h1
    | succ e => simpa using ih e

end

section
variable {h : Heap ℚ} {fuel : Nat} {s : St ℚ} {q : Query ℚ} {ms : List (List ℚ)} {means : Option (List ℚ)} {k : Nat}

/-- A metric with alpha zero does not influence the router at all. -/
theorem C67_zero_alpha (ha : q.alphas.getD k 0 = 0)
    (hm : List.Forall₂ (fun m' m => m'.length = m.length ∧ ∀ i : Nat, i ≠ k → m'[i]? = m[i]?) ms q.graph.metrics) :
    computeBestPath h dot fuel s { q with graph := { q.graph with metrics := ms, means } } =
      computeBestPath h dot fuel s q :=
  C67_weights (al := q.alphas) Iff.rfl (hm.imp fun _ _ hx => dot_zero_alpha ha hx.1 hx.2)

end

/-- Two equally good routes. `x` is a cost that is ignored below. -/
def tieBuild (x : ℚ) : Build.R Graph :=
  Build.build 3 [Exp.edge 0 1 [2, 3, 1], Exp.edge 0 2 [3, 2, x], Exp.edge 1 3 [4, 3, 1], Exp.edge 2 3 [3, 4, 1],
    Exp.edge 3 0 [1, 1, 1]] (lvNodes 0 [0, 0, 0, 0])

def tieGraph (x : ℚ) : Graph := okGraph (tieBuild x)

/-- The hypotheses hold for the sample. -/
example : computeBestPath codeHeap dot 30 St.new ⟨0, 3, tieGraph 2, .dijkstra, [1, 1, 0]⟩ =
    computeBestPath codeHeap dot 30 St.new ⟨0, 3, tieGraph 1, .dijkstra, [1, 1, 0]⟩ := by
  have h1 : tieGraph 2 = { tieGraph 1 with metrics := (tieGraph 2).metrics, means := (tieGraph 2).means } := by
    decide +kernel
  rw [h1]
  refine C67_zero_alpha (k := 2) (q := ⟨0, 3, tieGraph 1, .dijkstra, [1, 1, 0]⟩) rfl ?_
  have h2 : (tieGraph 2).metrics = [[2, 3, 1], [3, 2, 2], [4, 3, 1], [3, 4, 1], [1, 1, 1]] := by decide +kernel
  have h3 : (tieGraph 1).metrics = [[2, 3, 1], [3, 2, 1], [4, 3, 1], [3, 4, 1], [1, 1, 1]] := by decide +kernel
  simp only [h2, h3]
  repeat' constructor
  all_goals
    intro i hi
    match i with
    | 0 => rfl
    | 1 => rfl
    | 2 => exact absurd rfl hi
    | i + 3 => rfl

/-- The explorator does look at metrics with alpha zero: the two routes have the same costs in the considered
metrics, and whether both are returned depends on the third one. -/
theorem C67_false_explorator :
    Exp.edgesOf (Exp.fullyExplorate codeHeap dot Exp.lowerBackend 30 St.new
      ⟨0, 3, tieGraph 1, .dijkstra, [1, 1, 0]⟩ [none, none, none]) = some (.ok [[1, 3]]) ∧
    Exp.edgesOf (Exp.fullyExplorate codeHeap dot Exp.lowerBackend 30 St.new
      ⟨0, 3, tieGraph 2, .dijkstra, [1, 1, 0]⟩ [none, none, none]) = some (.ok [[1, 3], [0, 2]]) := by
  decide +kernel

/-! ## C68 -/

section
variable {h : Heap ℚ} {fuel : Nat} {s : St ℚ} {src dst : Nat} {algo : Algo} {al means : List ℚ}

/-- Routing on a normalized graph, with every alpha multiplied by the mean of its metric, is the same as routing
on the original graph.
Partial: no value may have been lifted by normalizing (see `C68_false_lifted`), and means have to be positive. -/
theorem C68_normalized_partial {n n' : Net} (hno : normalize n = .ok n') (hn : n.edges.normalized = true)
    (hc : Consistent n) (hwf : n.graph.WellFormed) (hal : al.length = n.graph.dim)
    (hpos : ∀ k < n.graph.dim, 0 < mean n.graph.metrics k)
    (hbig : ∀ e k x, value n.graph.metrics e k = some x → 3 / 2000000 ≤ |x / mean n.graph.metrics k|)
    (hm : n'.graph.means = some means) :
    computeBestPath h dot fuel s ⟨src, dst, n'.graph, algo, List.zipWith (· * ·) al means⟩ =
      computeBestPath h dot fuel s ⟨src, dst, n.graph, algo, al⟩ := by
  obtain ⟨means', h1, h2, h3⟩ := Gen.C27_means hno hn hc hwf
  obtain rfl : means' = means := by rw [hm] at h1; exact (Option.some.inj h1).symm
  have hv := fun e k x hx => Gen.C27_values (e := e) (k := k) (x := x) hno hn hc hwf hx
  have hdim := hc.dim
  have htwin : n'.graph = { n.graph with metrics := n'.graph.metrics, means := n'.graph.means } ∧
      n'.graph.metrics.length = n.graph.metrics.length ∧
      ∀ (e : Nat) m m', n.graph.metrics[e]? = some m → n'.graph.metrics[e]? = some m' → m'.length = m.length := by
    rcases Gen.normalize_cases hn hc hwf.metrics_len with ⟨_, h5⟩ | ⟨_, _, h5⟩ | ⟨_, _, ms, h6, h5⟩
    · rw [h5] at hno; cases hno
    · rw [h5] at hno; cases hno
    · rw [h5] at hno
      obtain rfl := Res.ok.inj hno
      refine ⟨rfl, (Gen.divideAll_ok h6).1, fun e m m' he he' => ?_⟩
      obtain ⟨m'', h7, h8⟩ := (Gen.divideAll_ok h6).2 e m he
      simp only at he'
      rw [h7] at he'
      obtain rfl := Option.some.inj he'
      exact (Gen.divide_ok h8).1
  obtain ⟨ht, hlen, hlens⟩ := htwin
  have hmul : ∀ k < n.graph.dim, ∃ a μ, al[k]? = some a ∧ means'[k]? = some μ ∧ 0 < μ ∧
      (List.zipWith (· * ·) al means')[k]? = some (a * μ) := by
    intro k hk
    have e1 : al[k]? = some (al[k]'(by omega)) := List.getElem?_eq_getElem _
    have e2 := h3 k (by omega)
    exact ⟨_, _, e1, e2, hpos k hk, by rw [List.getElem?_zipWith, e1, e2]⟩
  refine compute_congr (q := ⟨src, dst, n.graph, algo, al⟩)
    (q' := ⟨src, dst, n'.graph, algo, List.zipWith (· * ·) al means'⟩) rfl rfl rfl ht ?_ fun e => ?_
  · simp only
    constructor
    · rintro ⟨x, hx, hx0⟩
      obtain ⟨k, hk⟩ := List.getElem?_of_mem hx
      have hk' : k < n.graph.dim := by
        have := Gen.lt_of_some hk
        rw [List.length_zipWith] at this
        omega
      obtain ⟨a, μ, e1, -, e3, e4⟩ := hmul k hk'
      rw [e4] at hk
      obtain rfl := Option.some.inj hk
      exact ⟨a, List.mem_of_getElem? e1, by nlinarith⟩
    · rintro ⟨x, hx, hx0⟩
      obtain ⟨k, hk⟩ := List.getElem?_of_mem hx
      obtain ⟨a, μ, e1, -, e3, e4⟩ := hmul k (by have := Gen.lt_of_some hk; omega)
      rw [e1] at hk
      obtain rfl := Option.some.inj hk
      exact ⟨_, List.mem_of_getElem? e4, by nlinarith⟩
  · simp only
    cases he : n.graph.metrics[e]? with
    | none =>
      have : n'.graph.metrics[e]? = none := by
        rw [List.getElem?_eq_none_iff] at he ⊢
        omega
      rw [this]
      rfl
    | some m =>
      obtain ⟨m', he'⟩ : ∃ m', n'.graph.metrics[e]? = some m' :=
        ⟨_, List.getElem?_eq_getElem (by have := Gen.lt_of_some he; omega)⟩
      rw [he', Option.map_some, Option.map_some, Option.some.injEq]
      refine dot_scaled (hlens e m m' he he') fun k x hx => ?_
      have hx' : value n.graph.metrics e k = some x := by rw [value, he]; exact hx
      have hk : k < n.graph.dim := by
        rw [hdim, ← hc.values m (List.mem_of_getElem? he)]
        exact Gen.lt_of_some hx
      obtain ⟨y, h7, h8⟩ := hv e k x hx'
      rw [if_neg (not_lt.mpr (hbig e k x hx'))] at h8
      rw [value, he', Option.bind_some] at h7
      exact ⟨_, h3 k (by omega), ne_of_gt (hpos k hk), by rw [h7, h8.1]⟩

end

/-- Two routes from 0 to 2: one edge with value `16 x` or two edges with value `x`. -/
def liftBuild (x : ℚ) : Build.R Graph :=
  Build.build 1 [edge1 0 1 x, edge1 0 2 (16 * x), edge1 1 2 x, edge1 2 0 40] (lvNodes 0 [0, 0, 0])

def liftNet (x : ℚ) : Net where
  graph := okGraph (liftBuild x)
  nodes := []
  edges := { cats := [.metric .kilometers "km".toList], normalized := true, units := [.kilometers],
             ids := ["km".toList] }

/-- The hypotheses hold for the sample. -/
example : ∃ n', normalize (liftNet 1) = .ok n' ∧ n'.graph.means = some [29 / 2] ∧
    computeBestPath codeHeap dot 40 St.new ⟨0, 2, n'.graph, .dijkstra, List.zipWith (· * ·) [3] [29 / 2]⟩ =
      computeBestPath codeHeap dot 40 St.new ⟨0, 2, (liftNet 1).graph, .dijkstra, [3]⟩ := by
  have h1 : normalize (liftNet 1) = .ok (Gen.okNet (normalize (liftNet 1))) := by decide +kernel
  have h2 : (Gen.okNet (normalize (liftNet 1))).graph.means = some [29 / 2] := by decide +kernel
  have h3 : (liftNet 1).graph.metrics = [[1], [16], [1], [40]] := by decide +kernel
  have h4 : liftBuild 1 = .ok (liftNet 1).graph := by decide +kernel
  have h5 : mean [[1], [16], [1], [40]] 0 = 29 / 2 := by decide +kernel
  have h6 : (liftNet 1).graph.dim = 1 := by decide +kernel
  refine ⟨_, h1, h2, C68_normalized_partial h1 rfl ⟨rfl, rfl, h6, ?_⟩ (Build.built_wellFormed h4) h6.symm ?_ ?_ h2⟩
  · have : ∀ m ∈ (liftNet 1).graph.metrics, m.length = 1 := by decide +kernel
    exact this
  · intro k hk
    obtain rfl : k = 0 := by omega
    rw [h3, h5]
    norm_num
  · intro e k x hx
    rw [h3] at hx ⊢
    have hk : k = 0 := by
      match k, e with
      | 0, _ => rfl
      | k + 1, 0 => simp [value] at hx
      | k + 1, 1 => simp [value] at hx
      | k + 1, 2 => simp [value] at hx
      | k + 1, 3 => simp [value] at hx
      | k + 1, e + 4 => simp [value] at hx
    subst hk
    rw [h5]
    match e with
    | 0 => obtain rfl : 1 = x := by simpa [value] using hx
           rw [abs_of_pos (by norm_num)]; norm_num
    | 1 => obtain rfl : 16 = x := by simpa [value] using hx
           rw [abs_of_pos (by norm_num)]; norm_num
    | 2 => obtain rfl : 1 = x := by simpa [value] using hx
           rw [abs_of_pos (by norm_num)]; norm_num
    | 3 => obtain rfl : 40 = x := by simpa [value] using hx
           rw [abs_of_pos (by norm_num)]; norm_num
    | e + 4 => simp [value] at hx

/-- Normalizing lifts very small values, and this can change the best route: the route over two edges is eight
times cheaper before, and more expensive afterwards. -/
theorem C68_false_lifted : ∃ n', normalize (liftNet (1 / 1000000)) = .ok n' ∧
    n'.graph.means = some [20000009 / 2000000] ∧
    answer (computeBestPath codeHeap dot 40 St.new
      ⟨0, 2, (liftNet (1 / 1000000)).graph, .dijkstra, [1000000]⟩) = some (.ok (some (Path.new 0 0 2 2 [0, 2]))) ∧
    answer (computeBestPath codeHeap dot 40 St.new
      ⟨0, 2, n'.graph, .dijkstra, List.zipWith (· * ·) [1000000] [20000009 / 2000000]⟩) =
      some (.ok (some (Path.new 0 0 2 2 [1]))) := by
  refine ⟨Gen.okNet (normalize (liftNet (1 / 1000000))), ?_⟩
  decide +kernel

end Verif.Dij
