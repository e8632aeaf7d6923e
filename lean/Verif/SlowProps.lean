import Verif.SlowLemmas
import Verif.RecordLemmas
import Verif.DijkstraProps
import Mathlib.Data.List.Range
import Mathlib.Data.List.Perm.Lattice

/-!
# Queries that take exponentially many iterations

Weights are metrics times alphas, so small alphas make all costs nearly equal. The router's queue then pops nodes in the
order of their indices instead of their costs.
-/

namespace Verif.Dij

open Build Search Slow

/-- `k` stages of three edges each, and an edge from node `0` to the first stage, which is node `2 * k + 1`. The next
stage of `2 * j + 3` is `2 * j + 1`; the direct edge costs `2 + 2 ^ (j + 1)`, the way over `2 * j + 2` costs `2`. -/
def slowEdges (k : Nat) : List ProtoEdge :=
  edge1 0 (2 * k + 1) 1 :: (List.range k).flatMap fun (j : Nat) =>
    [edge1 (2 * j + 3) (2 * j + 1) (2 + 2 ^ (j + 1)), edge1 (2 * j + 3) (2 * j + 2) 1, edge1 (2 * j + 2) (2 * j + 1) 1]

def slowNodes (k : Nat) : List ProtoNode :=
  (List.range (2 * k + 2)).map fun (i : Nat) => { id := i, coord := ⟨0, 0⟩, level := some 0 }

/-- From the first stage to node `0`, to which no edge leads. -/
def slowQuery (k : Nat) (g : Graph) : Query ℚ :=
  { src := 2 * k + 1, dst := 0, graph := g, algo := .dijkstra, alphas := [1 / (1000000 * 2 ^ (k + 3))] }

theorem mem_slow {k : Nat} {pe : ProtoEdge} : pe ∈ slowEdges k ↔ pe = edge1 0 (2 * k + 1) 1 ∨
    ∃ j, j < k ∧ (pe = edge1 (2 * j + 3) (2 * j + 1) (2 + 2 ^ (j + 1)) ∨ pe = edge1 (2 * j + 3) (2 * j + 2) 1 ∨
      pe = edge1 (2 * j + 2) (2 * j + 1) 1) := by
  simp only [slowEdges, List.mem_cons, List.mem_flatMap, List.mem_range, List.not_mem_nil, or_false]

theorem slow_unique {k : Nat} {pe pe' : ProtoEdge} (h : pe ∈ slowEdges k) (h' : pe' ∈ slowEdges k)
    (hs : pe.srcId = pe'.srcId) (hd : pe.dstId = pe'.dstId) : pe = pe' := by
  rw [mem_slow] at h h'
  rcases h with rfl | ⟨j, hj, rfl | rfl | rfl⟩ <;> rcases h' with rfl | ⟨j', hj', rfl | rfl | rfl⟩ <;>
    simp only [edge1] at hs hd ⊢ <;> first
    | rfl
    | (obtain rfl : j = j' := by omega
       rfl)
    | omega

theorem slow_endpoint {k : Nat} (hk : 0 < k) (id : Int) : Endpoint (slowEdges k) id ↔ 0 ≤ id ∧ id < 2 * k + 2 := by
  constructor
  · rintro ⟨pe, h, hid⟩
    rw [mem_slow] at h
    rcases h with rfl | ⟨j, hj, rfl | rfl | rfl⟩ <;> simp only [edge1] at hid <;> omega
  · rintro ⟨h1, h2⟩
    by_cases h0 : id = 0
    · exact ⟨_, mem_slow.mpr (Or.inl rfl), Or.inl h0⟩
    · obtain ⟨n, rfl⟩ := Int.eq_ofNat_of_zero_le h1
      rcases Nat.even_or_odd' n with ⟨m, rfl | rfl⟩
      · refine ⟨edge1 (2 * (m - 1 : Nat) + 2) (2 * (m - 1 : Nat) + 1) 1,
          mem_slow.mpr (Or.inr ⟨m - 1, by omega, Or.inr (Or.inr rfl)⟩), Or.inl ?_⟩
        simp only [edge1]; omega
      · rcases Nat.eq_zero_or_pos m with rfl | hm
        · refine ⟨edge1 (2 * (0 : Nat) + 2) (2 * (0 : Nat) + 1) 1,
            mem_slow.mpr (Or.inr ⟨0, hk, Or.inr (Or.inr rfl)⟩), Or.inr ?_⟩
          simp only [edge1]; omega
        · refine ⟨edge1 (2 * (m - 1 : Nat) + 3) (2 * (m - 1 : Nat) + 2) 1,
            mem_slow.mpr (Or.inr ⟨m - 1, by omega, Or.inr (Or.inl rfl)⟩), Or.inl ?_⟩
          simp only [edge1]; omega

/-- A metric of this graph is at least one. -/
theorem slow_metrics {k : Nat} {pe : ProtoEdge} (h : pe ∈ slowEdges k) : ∃ x, pe.metrics = [x] ∧ 1 ≤ x ∧ lifted x = x := by
  have hl : ∀ x : ℚ, 1 ≤ x → lifted x = x := by
    intro x hx
    unfold lifted
    rw [if_neg]
    rw [abs_of_nonneg (by linarith)]
    linarith
  have hx : ∃ x, pe.metrics = [x] ∧ 1 ≤ x := by
    rw [mem_slow] at h
    rcases h with rfl | ⟨j, hj, rfl | rfl | rfl⟩
    · exact ⟨1, rfl, le_rfl⟩
    · refine ⟨_, rfl, ?_⟩
      have : (0 : ℚ) < 2 ^ (j + 1) := by positivity
      linarith
    · exact ⟨1, rfl, le_rfl⟩
    · exact ⟨1, rfl, le_rfl⟩
  obtain ⟨x, h1, h2⟩ := hx
  exact ⟨x, h1, h2, hl x h2⟩

theorem slow_build {k : Nat} (hk : 0 < k) : ∃ g, build 1 (slowEdges k) (slowNodes k) = .ok g := by
  have hrec : ∀ id, Endpoint (slowEdges k) id → ∃ n, lastRecord (slowNodes k) id = some n := by
    intro id hid
    rw [slow_endpoint hk] at hid
    cases h : lastRecord (slowNodes k) id with
    | some n => exact ⟨n, rfl⟩
    | none =>
      exfalso
      unfold lastRecord at h
      rw [List.getLast?_eq_none_iff, List.filter_eq_nil_iff] at h
      refine h { id := id, coord := ⟨0, 0⟩, level := some 0 } (List.mem_map.mpr ⟨id.toNat, List.mem_range.mpr (by omega), ?_⟩)
        (by simp)
      simp [Int.toNat_of_nonneg hid.1]
  have hsc : ∀ pe ∈ slowEdges k, pe.sc = none := by
    intro pe h
    rw [mem_slow] at h
    rcases h with rfl | ⟨j, hj, rfl | rfl | rfl⟩ <;> rfl
  rcases build_cases 1 (slowEdges k) (slowNodes k) with ⟨⟨id, h1, h2⟩, -⟩ | ⟨-, ⟨h1, -⟩ | ⟨-, kept, scs, rep, hrep, h4⟩⟩
  · obtain ⟨n, hn⟩ := hrec id h1
    rw [h2] at hn; cases hn
  · refine absurd (fun pe hpe p hp => ?_) h1
    rw [hsc pe hpe] at hp; cases hp
  · have hkept : ∀ x ∈ kept, ∃ pe ∈ slowEdges k, x.id = pe.id ∧ x.metrics = pe.metrics := by
      intro x hx
      obtain ⟨e, he⟩ := List.getElem?_of_mem hx
      obtain ⟨i, a, ha, -, hidx, -⟩ := hrep.new e x he
      obtain ⟨-, b2, b3, -⟩ := built_edges (slowEdges k) (slowNodes k)
      obtain ⟨pe, hpe⟩ := b3 i a ha
      obtain ⟨a', ha', c1, -, -, c4, -⟩ := b2 i pe hpe
      rw [ha] at ha'; cases ha'
      obtain ⟨-, d1, -, -, d2, -⟩ := hidx
      exact ⟨pe, List.mem_of_getElem? hpe, d1.trans c1, d2.trans c4⟩
    rcases h4 with ⟨⟨x, hx, m, hm, hlt⟩, -⟩ | ⟨-, ⟨hdup, -⟩ | ⟨-, g, hg, -⟩⟩
    · obtain ⟨pe, hpe, -, he⟩ := hkept x hx
      obtain ⟨y, hy, hy1, hy2⟩ := slow_metrics hpe
      rw [he, hy, List.mem_singleton] at hm
      subst hm
      rw [hy2] at hlt
      unfold eps at hlt
      linarith
    · refine absurd ?_ hdup
      have : kept.filterMap EdgeB.id = [] := by
        rw [List.filterMap_eq_nil_iff]
        intro x hx
        obtain ⟨pe, hpe, he, -⟩ := hkept x hx
        rw [he]
        rw [mem_slow] at hpe
        rcases hpe with rfl | ⟨j, hj, rfl | rfl | rfl⟩ <;> rfl
      rw [this]; exact List.nodup_nil
    · exact ⟨g, hg⟩

section
variable {k : Nat} {g : Graph}

theorem slow_ids (hk : 0 < k) (h : build 1 (slowEdges k) (slowNodes k) = .ok g) :
    g.nodeIds = (List.range (2 * k + 2)).map Int.ofNat := by
  obtain ⟨h1, h2⟩ := C01_node_ids h
  have h3 : ((List.range (2 * k + 2)).map Int.ofNat).Pairwise (· < ·) := by
    rw [List.pairwise_map]
    exact List.pairwise_lt_range.imp (fun h => Int.ofNat_lt.mpr h)
  refine List.Perm.eq_of_pairwise (le := (· < ·)) (fun a b _ _ hab hba => absurd hab (lt_asymm hba)) h1 h3 ?_
  refine (List.perm_ext_iff_of_nodup (h1.imp ne_of_lt) (h3.imp ne_of_lt)).mpr (fun id => ?_)
  have : id ∈ g.nodeIds ↔ ∃ i, g.nodeId i = .ok id := by
    simp only [Graph.nodeId, Res.ofIdx_eq_ok]
    exact List.mem_iff_getElem?
  rw [this, h2, slow_endpoint hk, List.mem_map]
  constructor
  · rintro ⟨a, b⟩
    exact ⟨id.toNat, List.mem_range.mpr (by omega), Int.toNat_of_nonneg a⟩
  · rintro ⟨i, hi, rfl⟩
    rw [List.mem_range] at hi
    exact ⟨Int.natCast_nonneg i, by simp only [Int.ofNat_eq_natCast]; omega⟩

theorem slow_nodeCount (hk : 0 < k) (h : build 1 (slowEdges k) (slowNodes k) = .ok g) : g.nodeCount = 2 * k + 2 := by
  rw [Graph.nodeCount, slow_ids hk h]; simp

theorem slow_nodeId (hk : 0 < k) (h : build 1 (slowEdges k) (slowNodes k) = .ok g) {u : Nat} {id : Int} :
    g.nodeId u = .ok id ↔ u < 2 * k + 2 ∧ id = u := by
  simp only [Graph.nodeId, Res.ofIdx_eq_ok]
  rw [slow_ids hk h, List.getElem?_map]
  rcases Nat.lt_or_ge u (2 * k + 2) with hu | hu
  · rw [List.getElem?_range hu]
    simp [hu, eq_comm]
  · rw [List.getElem?_eq_none (by simpa using hu)]
    simp; omega

/-- The edges of the graph are the inserted ones. -/
theorem slow_edges (hk : 0 < k) (h : build 1 (slowEdges k) (slowNodes k) = .ok g) {u v : Nat} {m : List ℚ} :
    (∃ e, g.dstIdx .bwd e = .ok u ∧ g.dstIdx .fwd e = .ok v ∧ g.metrics[e]? = some m) ↔
      ∃ pe ∈ slowEdges k, pe.srcId = u ∧ pe.dstId = v ∧ pe.metrics = m := by
  have hwf := built_wellFormed h
  have hlift : ∀ pe ∈ slowEdges k, pe.metrics.map lifted = pe.metrics := by
    intro pe hpe
    obtain ⟨x, hx, -, hl⟩ := slow_metrics hpe
    rw [hx]; simp [hl]
  constructor
  · rintro ⟨e, hu, hv, hm⟩
    obtain ⟨pe, hpe, hE⟩ := C05_no_edge_invented h (edge_lt hwf hv)
    obtain ⟨u', hu', hu2⟩ := hE.src
    obtain ⟨v', hv', hv2⟩ := hE.dst
    rw [hu] at hu'; cases hu'
    rw [hv] at hv'; cases hv'
    refine ⟨pe, hpe, ((slow_nodeId hk h).mp hu2).2, ((slow_nodeId hk h).mp hv2).2, ?_⟩
    have := hE.metrics
    rw [hlift pe hpe] at this
    simp only [Graph.edgeMetrics, Res.ofIdx_eq_ok] at this
    rw [hm] at this
    exact (Option.some.inj this).symm
  · rintro ⟨pe, hpe, hu, hv, rfl⟩
    obtain ⟨e, he, pe', hpe', hE, hor⟩ := C05_no_edge_lost h hpe
    have : pe' = pe := by
      rcases hor with rfl | hs
      · rfl
      · exact slow_unique hpe' hpe hs.2.1 hs.2.2.1
    subst this
    obtain ⟨u', hu', hu2⟩ := hE.src
    obtain ⟨v', hv', hv2⟩ := hE.dst
    have h1 := ((slow_nodeId hk h).mp hu2).2
    have h2 := ((slow_nodeId hk h).mp hv2).2
    have h3 := hE.metrics
    rw [hlift pe' hpe] at h3
    simp only [Graph.edgeMetrics, Res.ofIdx_eq_ok] at h3
    obtain rfl : u' = u := by omega
    obtain rfl : v' = v := by omega
    exact ⟨e, hu', hv', h3⟩

theorem slow_covered (hk : 0 < k) (h : build 1 (slowEdges k) (slowNodes k) = .ok g) : AllCovered g := by
  have hwf := built_wellFormed h
  intro d i hi
  rw [slow_nodeCount hk h] at hi
  rw [hwf.covered_iff]
  right
  cases d with
  | fwd =>
    obtain ⟨e, he, -⟩ := (slow_edges hk h (u := 2 * k + 1) (v := 2 * k) (m := [1])).mpr
      ⟨_, mem_slow.mpr (Or.inr ⟨k - 1, by omega, Or.inr (Or.inl rfl)⟩), by simp only [edge1]; omega,
        by simp only [edge1]; omega, rfl⟩
    exact ⟨e, _, he, by omega⟩
  | bwd =>
    obtain ⟨e, -, he, -⟩ := (slow_edges hk h (u := 0) (v := 2 * k + 1) (m := [1])).mpr
      ⟨_, mem_slow.mpr (Or.inl rfl), by simp [edge1], by simp [edge1], rfl⟩
    exact ⟨e, _, he, by omega⟩

theorem slow_stages (hk : 0 < k) (h : build 1 (slowEdges k) (slowNodes k) = .ok g) {al : ℚ} (hal : 0 < al) {src dst : Nat} :
    Stages (cfg codeHeap g (dot [al]) false src dst) al k := by
  have hwf := built_wellFormed h
  have hout : ∀ u (p : Nat × ℚ), (∃ t ∈ outArcs g (dot [al]) false .fwd u, t.2 = p) ↔
      ∃ pe ∈ slowEdges k, pe.srcId = u ∧ pe.dstId = p.1 ∧ dot [al] pe.metrics = p.2 := by
    intro u p
    constructor
    · rintro ⟨t, ht, rfl⟩
      obtain ⟨h1, h2, ⟨m, h3, h4⟩, -⟩ := (mem_outArcs hwf).mp ht
      obtain ⟨pe, hpe, e1, e2, e3⟩ := (slow_edges hk h).mp ⟨t.1, h1, h2, h3⟩
      exact ⟨pe, hpe, e1, e2, by rw [e3, h4]⟩
    · rintro ⟨pe, hpe, e1, e2, e3⟩
      obtain ⟨e, h1, h2, h3⟩ := (slow_edges hk h).mpr ⟨pe, hpe, e1, e2, rfl⟩
      exact ⟨(e, p), (mem_outArcs hwf).mpr ⟨h1, h2, ⟨_, h3, e3.symm⟩, by simp⟩, rfl⟩
  have hdot : ∀ x : ℚ, dot [al] [x] = x * al := by
    intro x; rw [dot_eq]; simp [mul_comm]
  refine ⟨rfl, rfl, hal, ?_, ?_, ?_⟩
  · intro j hj p
    change (∃ t ∈ outArcs g (dot [al]) false .fwd (2 * j + 3), t.2 = p) ↔ _
    rw [hout]
    constructor
    · rintro ⟨pe, hpe, h1, h2, h3⟩
      rw [mem_slow] at hpe
      rcases hpe with rfl | ⟨j', hj', rfl | rfl | rfl⟩ <;> simp only [edge1] at h1 h2 h3
      · omega
      · obtain rfl : j' = j := by omega
        rw [hdot] at h3
        exact Or.inl (Prod.ext (by omega) h3.symm)
      · obtain rfl : j' = j := by omega
        rw [hdot, one_mul] at h3
        exact Or.inr (Prod.ext (by omega) h3.symm)
      · omega
    · rintro (rfl | rfl)
      · exact ⟨_, mem_slow.mpr (Or.inr ⟨j, hj, Or.inl rfl⟩), by simp [edge1], by simp [edge1], by simp [edge1, hdot]⟩
      · exact ⟨_, mem_slow.mpr (Or.inr ⟨j, hj, Or.inr (Or.inl rfl)⟩), by simp [edge1], by simp [edge1],
          by simp [edge1, hdot]⟩
  · intro j hj p
    change (∃ t ∈ outArcs g (dot [al]) false .fwd (2 * j + 2), t.2 = p) ↔ _
    rw [hout]
    constructor
    · rintro ⟨pe, hpe, h1, h2, h3⟩
      rw [mem_slow] at hpe
      rcases hpe with rfl | ⟨j', hj', rfl | rfl | rfl⟩ <;> simp only [edge1] at h1 h2 h3
      · omega
      · omega
      · omega
      · obtain rfl : j' = j := by omega
        rw [hdot, one_mul] at h3
        exact Prod.ext (by omega) h3.symm
    · rintro rfl
      exact ⟨_, mem_slow.mpr (Or.inr ⟨j, hj, Or.inr (Or.inr rfl)⟩), by simp [edge1], by simp [edge1],
        by simp [edge1, hdot]⟩
  · intro t ht
    obtain ⟨pe, hpe, h1, -⟩ := (hout 1 t.2).mp ⟨t, ht, rfl⟩
    rw [mem_slow] at hpe
    rcases hpe with rfl | ⟨j', hj', rfl | rfl | rfl⟩ <;> simp only [edge1] at h1 <;> omega

/-- The search of `slowQuery` is not finished after `2 ^ k` iterations. -/
theorem slow_none (hk : 0 < k) (h : build 1 (slowEdges k) (slowNodes k) = .ok g) {fuel : Nat} (hf : fuel ≤ 2 ^ k) :
    computeBestPath codeHeap dot fuel St.new (slowQuery k g) = none := by
  have hwf := built_wellFormed h
  have hal : (0 : ℚ) < 1 / (1000000 * 2 ^ (k + 3)) := by positivity
  have hn := slow_nodeCount hk h
  have hw : ∀ m ∈ g.metrics, 0 ≤ dot [1 / (1000000 * 2 ^ (k + 3))] m :=
    weights_nonneg (by intro a ha; rw [List.mem_singleton] at ha; rw [ha]; exact hal.le) (built_nonneg h)
  obtain ⟨s1, h1, hs1⟩ := begin_sim (h := codeHeap) (wt := dot [1 / (1000000 * 2 ^ (k + 3))]) (g := g)
    (src := 2 * k + 1) (dst := 0) (by omega) (by omega) (by omega) (Tidy.new (K := ℚ) g.nodeCount) false
  have hcomp : computeBestPath codeHeap dot fuel St.new (slowQuery k g) =
      search codeHeap g (dot [1 / (1000000 * 2 ^ (k + 3))]) fuel s1 (2 * k + 1) 0 := by
    rw [compute_eq (q := slowQuery k g) (by simp [slowQuery])
      (by intro a ha; simp only [slowQuery, List.mem_singleton] at ha; rw [ha]; exact hal.le)]
    simp only [slowQuery, reduceCtorEq, decide_false]
    rw [h1]
  have hslow := stages_slow (c := cfg codeHeap g (dot [1 / (1000000 * 2 ^ (k + 3))]) false (2 * k + 1) 0)
    (slow_stages hk h hal) rfl rfl (fun t ht => by
      obtain ⟨h1, h2, ⟨m, h3, h4⟩, -⟩ := (mem_outArcs hwf).mp ht
      obtain ⟨pe, hpe, e1, e2, e3⟩ := (slow_edges hk h).mp ⟨t.1, h2, h1, h3⟩
      rw [mem_slow] at hpe
      rcases hpe with rfl | ⟨j', hj', rfl | rfl | rfl⟩ <;> simp only [edge1] at e2 <;> omega)
    (by
      have hkk : (k : ℚ) ≤ 2 ^ k := by exact_mod_cast (Nat.lt_two_pow_self).le
      have h1k : (1 : ℚ) ≤ 2 ^ k := one_le_pow₀ (by norm_num)
      rw [mul_one_div, div_le_iff₀ (by positivity)]
      unfold direct
      rw [pow_succ, show (2 : ℚ) ^ (k + 3) = 2 ^ k * 8 by rw [pow_add]; norm_num]
      push_cast
      nlinarith) hf
  rw [hcomp]
  rcases search_cases (fuel := fuel) hwf addOk_rat hw (by omega) (by omega) hs1 with h2 | ⟨-, d, u, ts, hcov, hr⟩ |
    ⟨s', a, best, ans, -, h3, -⟩
  · exact h2.1
  · refine absurd (slow_covered hk h d u ?_) hcov
    have hfin := finOk (h := codeHeap) (g := g) (wt := dot [1 / (1000000 * 2 ^ (k + 3))]) (isCh := false)
      (src := 2 * k + 1) (dst := 0) hwf (by omega) (by omega)
    cases ts using List.reverseRecOn with
    | nil =>
      have : _ = u := hr
      rw [← this]
      exact hfin.roots d
    | append_singleton ts t =>
      obtain ⟨w, _, h6⟩ := isRt_append.mp hr
      have : t.2.1 = u := h6.2
      rw [← this]
      exact (hfin.arcs d w t h6.1).2
  · rw [hslow] at h3; cases h3

end

/-- C19 is false as stated with the code's comparison: these graphs have `3 * k + 1` edges with metrics of at least one,
but the search takes more than `2 ^ k` iterations. (In the end, there is no path.) -/
theorem C19_false_exponential {k : Nat} (hk : 0 < k) : ∃ g, build 1 (slowEdges k) (slowNodes k) = .ok g ∧
    g.edgeCount ≤ 3 * k + 1 ∧ (∀ m ∈ g.metrics, ∀ x ∈ m, 1 ≤ x) ∧
    (∀ fuel, fuel ≤ 2 ^ k → computeBestPath codeHeap dot fuel St.new (slowQuery k g) = none) ∧
    ∃ N, ∀ fuel, N ≤ fuel → answer (computeBestPath codeHeap dot fuel St.new (slowQuery k g)) = some (.ok none) := by
  obtain ⟨g, hg⟩ := slow_build hk
  have hwf := built_wellFormed hg
  have hn := slow_nodeCount hk hg
  have hal : (0 : ℚ) < 1 / (1000000 * 2 ^ (k + 3)) := by positivity
  have hw : ∀ m ∈ g.metrics, 0 ≤ dot [1 / (1000000 * 2 ^ (k + 3))] m :=
    weights_nonneg (by intro a ha; rw [List.mem_singleton] at ha; rw [ha]; exact hal.le) (built_nonneg hg)
  refine ⟨g, hg, ?_, ?_, fun fuel hf => slow_none hk hg hf, ?_⟩
  · refine (C05_count hg).trans (le_of_eq ?_)
    simp only [slowEdges, List.length_cons, List.length_flatMap, List.length_nil, List.map_const', List.sum_replicate,
      List.length_range]
    simp [mul_comm]
  · intro m hm x hx
    obtain ⟨e, he⟩ := List.getElem?_of_mem hm
    have hlt : e < g.edgeCount := by
      rw [← hwf.metrics_len]; exact (List.getElem?_eq_some_iff.mp he).1
    obtain ⟨pe, hpe, hE⟩ := C05_no_edge_invented hg hlt
    obtain ⟨y, hy, hy1, hy2⟩ := slow_metrics hpe
    have h3 := hE.metrics
    simp only [Graph.edgeMetrics, Res.ofIdx_eq_ok, he, hy, List.map_cons, List.map_nil, hy2, Option.some.injEq] at h3
    rw [h3, List.mem_singleton] at hx
    rw [hx]; exact hy1
  · obtain ⟨N, hN⟩ := C15_answers_partial (h := codeHeap) (dotp := dot) (q := slowQuery k g) (s := St.new) (n := 0) hwf
      addOk_rat hw (by simp [slowQuery]) (slow_covered hk hg)
      (by simp only [slowQuery]; omega) (by simp only [slowQuery]; omega) (by simp only [slowQuery]; omega) .new
      (Nat.zero_le _)
    refine ⟨N, fun fuel hf => ?_⟩
    obtain ⟨s', ans, hc⟩ := hN fuel hf
    rw [hc]
    cases ans with
    | none => rfl
    | some p =>
      exfalso
      have hr := (C13_route (h := codeHeap) (q := slowQuery k g) hwf addOk_rat hw (by simp only [slowQuery]; omega)
        (by simp only [slowQuery]; omega) (.new (n := 0)) hc).1
      have key : ∀ (l : List Nat) (u : Nat), 0 < u → ¬ g.IsRoute u l 0 := by
        intro l
        induction l with
        | nil => intro u hu h; exact absurd h (Nat.ne_of_gt hu)
        | cons e l ih =>
          rintro u hu ⟨w, ⟨h1, h2⟩, h3⟩
          refine ih w ?_ h3
          obtain ⟨m, hm⟩ := edge_metrics hwf (edge_lt hwf h2)
          obtain ⟨pe, hpe, -, e2, -⟩ := (slow_edges hk hg).mp ⟨e, h2, h1, hm⟩
          rw [mem_slow] at hpe
          rcases hpe with rfl | ⟨j', hj', rfl | rfl | rfl⟩ <;> simp only [edge1] at e2 <;> omega
      exact key p.edges (2 * k + 1) (by omega) hr

/-- No linear bound on the number of iterations holds. -/
theorem C19_false_linear (a b : Nat) : ∃ k g, build 1 (slowEdges k) (slowNodes k) = .ok g ∧
    computeBestPath codeHeap dot (a * g.edgeCount + b) St.new (slowQuery k g) = none := by
  obtain ⟨g, hg, hcount, -, hnone, -⟩ := C19_false_exponential (k := 2 * (6 * a + b + 1)) (by omega)
  refine ⟨_, g, hg, hnone _ ?_⟩
  obtain ⟨m, hm⟩ : ∃ m, m = 6 * a + b + 1 := ⟨_, rfl⟩
  rw [← hm] at hcount ⊢
  have h1 : m + 1 ≤ 2 ^ m := Nat.lt_two_pow_self
  have h2 : (m + 1) * (m + 1) ≤ 2 ^ (2 * m) := by
    rw [two_mul, pow_add]; exact Nat.mul_le_mul h1 h1
  have h3 : a * g.edgeCount ≤ a * (3 * (2 * m) + 1) := Nat.mul_le_mul_left _ hcount
  nlinarith

/-- With three stages, there are ten edges, and the bound of `C19_linear` is exceeded already: 23 iterations are not
enough. -/
example : (match build 1 (slowEdges 3) (slowNodes 3) with
    | .ok g => g.edgeCount == 10 && (computeBestPath codeHeap dot 23 St.new (slowQuery 3 g)).isNone
    | _ => false) = true ∧ (0 < 3) := by decide +kernel

/-! ## C14 -/

/-- A direct edge for a million, and a detour over three nodes for four. -/
def farBuild : Build.R Graph :=
  build 1 [edge1 1 0 1000000, edge1 1 2 1, edge1 2 3 1, edge1 3 4 1, edge1 4 0 1] (lvNodes 0 [0, 0, 0, 0, 0])

def farGraph : Graph := okGraph farBuild

theorem far_build : farBuild = .ok farGraph := by decide +kernel

/-- The error of an answer is small in absolute terms (`C14_near_optimal_partial`), but not relative to the optimum: with
an alpha of `1e-12`, the code answers with the edge for a million although there is a route for four, hence its answer
costs `250000` times the optimum. With an alpha of one, it answers with the route for four. -/
theorem C14_false_factor :
    answer (computeBestPath codeHeap dot 40 St.new
        { src := 1, dst := 0, graph := farGraph, algo := .dijkstra, alphas := [1 / 1000000000000] }) =
      some (.ok (some (Path.new 1 1 0 0 [0]))) ∧
    answer (computeBestPath codeHeap dot 40 St.new
        { src := 1, dst := 0, graph := farGraph, algo := .dijkstra, alphas := [1] }) =
      some (.ok (some (Path.new 1 1 0 0 [1, 2, 3, 4]))) ∧
    farGraph.IsRoute 1 [0] 0 ∧ farGraph.IsRoute 1 [1, 2, 3, 4] 0 ∧
    (∀ al, routeCost farGraph [al] [0] = 250000 * routeCost farGraph [al] [1, 2, 3, 4]) ∧
    0 < routeCost farGraph [1 / 1000000000000] [1, 2, 3, 4] := by
  refine ⟨by decide +kernel, by decide +kernel, ⟨0, ⟨by decide +kernel, by decide +kernel⟩, rfl⟩,
    ⟨2, ⟨by decide +kernel, by decide +kernel⟩, 3, ⟨by decide +kernel, by decide +kernel⟩, 4,
      ⟨by decide +kernel, by decide +kernel⟩, 0, ⟨by decide +kernel, by decide +kernel⟩, rfl⟩, fun al => ?_,
    by decide +kernel⟩
  have hm : farGraph.metrics = [[1000000], [1], [1], [1], [1]] := by decide +kernel
  unfold routeCost
  simp [hm]
  ring

end Verif.Dij
