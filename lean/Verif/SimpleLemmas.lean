import Verif.SearchSimple
import Verif.DijkstraLemmas4

/-!
# Helper lemmas: answered routes visit no node twice
-/

namespace Verif.Dij

open Search Graph

set_option linter.unusedSectionVars false

theorem addStrict_rat : AddStrict ℚ where
  lt := fun _ _ w h => by gcongr
  lt' := fun _ _ w h => by gcongr

variable {g : Graph}

theorem isEdge_tails {e u v : Nat} (h : g.IsEdge e u v) : tailD g .fwd e = u ∧ tailD g .bwd e = v := by
  obtain ⟨h1, h2⟩ := h
  simp [tailD, Dir.opp, h1, h2]

/-- The nodes of a route, seen from its edges' starts and from their ends. -/
theorem route_nodes {u v : Nat} {l : List Nat} (h : g.IsRoute u l v) :
    u :: l.map (tailD g .bwd) = l.map (tailD g .fwd) ++ [v] := by
  induction l generalizing u with
  | nil => simpa [IsRoute] using h
  | cons e l ih =>
    obtain ⟨w, h1, h2⟩ := h
    obtain ⟨h3, h4⟩ := isEdge_tails h1
    rw [List.map_cons, List.map_cons, h3, h4, ih h2, List.cons_append]

theorem nodup_simple {u : Nat} {l : List Nat}
    (hnd : (u :: l.map (tailD g .bwd)).Nodup) {l1 l2 l3 : List Nat} {w : Nat} (hl : l = l1 ++ l2 ++ l3)
    (h1 : g.IsRoute u l1 w) (h2 : g.IsRoute w l2 w) : l2 = [] := by
  have h3 := route_nodes h1
  have h4 := route_nodes h2
  cases l2 with
  | nil => rfl
  | cons e l2 =>
    exfalso
    have h5 : w ∈ (e :: l2).map (tailD g .bwd) := by
      rw [List.map_cons, List.map_cons, List.cons_append, List.cons.injEq] at h4
      rw [List.map_cons, h4.2]
      simp
    have h6 : w ∈ u :: l1.map (tailD g .bwd) := by rw [h3]; simp
    rw [hl, List.map_append, List.map_append, ← List.cons_append, ← List.cons_append] at hnd
    exact (List.nodup_append.mp (List.nodup_append.mp hnd).1).2.2 w h6 w h5 rfl

theorem route_ends_lt (hwf : g.WellFormed) {u v : Nat} {l : List Nat} (h : g.IsRoute u l v) :
    ∀ x ∈ l.map (tailD g .bwd), x < g.nodeCount := by
  induction l generalizing u with
  | nil => intro x hx; cases hx
  | cons e l ih =>
    obtain ⟨w, h1, h2⟩ := h
    intro x hx
    rcases List.mem_cons.mp hx with rfl | hx
    · rw [(isEdge_tails h1).2]
      exact hwf.ends_lt _ _ _ h1.1
    · exact ih h2 x hx

section
variable {K : Type} [LinearOrder K] [Zero K] [Add K] {h : Heap K}

/-- The nodes of an answered route differ pairwise. -/
theorem answered_nodup {dotp : List ℚ → List ℚ → K} {fuel n : Nat} {s s' : St K} {q : Query K}
    {p : Path} (hwf : q.graph.WellFormed) (hk : AddOk K) (hst : AddStrict K)
    (hw : ∀ m ∈ q.graph.metrics, 0 ≤ dotp q.alphas m)
    (hsrc : q.src < q.graph.nodeCount) (hdst : q.dst < q.graph.nodeCount)
    (hu : Used h dotp n s)
    (hc : computeBestPath h dotp fuel s q = some (.ok (s', some p)))
    (hr : q.graph.IsRoute q.src p.edges q.dst) :
    (q.src :: p.edges.map (tailD q.graph .bwd)).Nodup := by
  obtain ⟨halg, hal⟩ := computed_valid hc
  obtain ⟨a, best, h1, h2, h3⟩ := answered_cases hwf hk hw hsrc hdst hu halg hal hc rfl
  have ho := outOk (h := h) (isCh := decide (q.algo = .chDijkstra)) (src := q.src) (dst := q.dst) hwf hw
  cases best with
  | none => cases h2 rfl
  | some mb =>
    obtain ⟨m, b⟩ := mb
    obtain ⟨f, bk, i, j, hf, hb, _, _, hp⟩ := h3 m _ rfl
    cases hp
    have hr : q.graph.IsRoute q.src (f.reverse ++ bk) q.dst := hr
    obtain ⟨w, hr1, hr2⟩ := isRoute_append.mp hr
    have hi := inv1_final hk ho h1
    obtain ⟨_, x, y, _, hx, hy, _⟩ := hi.best m b rfl
    obtain ⟨tf, h4, h5, _⟩ := hi.chain_route hk ho hf hx
    have hrm := fwd_route hwf h5
    rw [h4] at hrm
    change q.graph.IsRoute q.src f.reverse m at hrm
    change (q.src :: (f.reverse ++ bk).map (tailD q.graph .bwd)).Nodup
    rw [List.map_append, ← List.cons_append, route_nodes hrm, List.append_assoc, List.singleton_append,
      List.nodup_append]
    have hnf := hf.nodup
    refine ⟨?_, hb.nodup, ?_⟩
    · rw [List.map_reverse, List.nodup_reverse]
      exact (List.nodup_cons.mp hnf).2
    · rintro z hz z' hz' rfl
      have hzf : z ∈ f.map (tailD q.graph .fwd) := by simpa using hz
      rcases List.mem_cons.mp hz' with rfl | hz'
      · exact (List.nodup_cons.mp hnf).1 hzf
      · have := disjoint_final hk hst ho h1 (hf.passes hzf) (hb.passes hz')
        subst this
        exact (List.nodup_cons.mp hnf).1 hzf

/-- The number of edges of an answered route. -/
theorem answered_length {dotp : List ℚ → List ℚ → K} {fuel n : Nat} {s s' : St K} {q : Query K}
    {p : Path} (hwf : q.graph.WellFormed) (hk : AddOk K)
    (hw : ∀ m ∈ q.graph.metrics, 0 ≤ dotp q.alphas m)
    (hsrc : q.src < q.graph.nodeCount) (hdst : q.dst < q.graph.nodeCount)
    (hu : Used h dotp n s)
    (hc : computeBestPath h dotp fuel s q = some (.ok (s', some p))) :
    p.edges.length + 2 ≤ 2 * q.graph.nodeCount := by
  obtain ⟨halg, hal⟩ := computed_valid hc
  obtain ⟨a, best, h1, h2, h3⟩ := answered_cases hwf hk hw hsrc hdst hu halg hal hc rfl
  have ho := outOk (h := h) (isCh := decide (q.algo = .chDijkstra)) (src := q.src) (dst := q.dst) hwf hw
  have hfin := finOk (h := h) (wt := dotp q.alphas) (isCh := decide (q.algo = .chDijkstra)) hwf hsrc hdst
  cases best with
  | none => cases h2 rfl
  | some mb =>
    obtain ⟨m, b⟩ := mb
    obtain ⟨f, bk, i, j, hf, hb, _, _, hp⟩ := h3 m _ rfl
    cases hp
    have hi := inv1_final hk ho h1
    obtain ⟨_, x, y, _, hx, hy, _⟩ := hi.best m b rfl
    have hl1 := hi.chain_length ho hfin hf hx
    have hl2 := hi.chain_length ho hfin hb hy
    change (f.reverse ++ bk).length + 2 ≤ _
    rw [List.length_append, List.length_reverse]
    omega

end
end Verif.Dij
