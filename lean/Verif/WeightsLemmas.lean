import Verif.Dijkstra
import Verif.DijkstraProps

/-!
# Helper lemmas: the router sees a graph's metrics as weights only
-/

namespace Verif.Dij

section
variable {K : Type} [LinearOrder K] [Zero K] [Add K] {h : Heap K} {g g' : Graph} {wt wt' : List ℚ → K}

/-- The same graph, up to metrics and means. -/
def Twin (g g' : Graph) : Prop := g' = { g with metrics := g'.metrics, means := g'.means }

omit [Zero K] in
theorem relax_congr (hg : Twin g g')
    (hw : ∀ e : Nat, g'.metrics[e]?.map wt' = g.metrics[e]?.map wt) {isNone : Bool} {cur : CN K} :
    ∀ (es : List Nat) (s : St K), relax h g' wt' isNone cur es s = relax h g wt isNone cur es s
  | [], _ => rfl
  | e :: es, s => by
    have h1 : g'.dstIdx cur.dir e = g.dstIdx cur.dir e := by rw [hg]; rfl
    have h2 : ∀ b u v, isLower g' b u v = isLower g b u v := by intro b u v; rw [hg]; rfl
    have h3 := hw e
    unfold relax
    rw [h1]
    cases acc (g.dstIdx cur.dir e) with
    | panic => rfl
    | err x => exact x.elim
    | ok v =>
      simp only [Res.ok_bind, h2]
      cases isLower g s.isCh cur.idx v with
      | panic => rfl
      | err x => exact x.elim
      | ok low =>
        simp only [Res.ok_bind]
        split
        · rfl
        · cases hm : g.metrics[e]? with
          | none =>
            rw [hm] at h3
            cases hm' : g'.metrics[e]? with
            | none => rfl
            | some m' => rw [hm'] at h3; cases h3
          | some m =>
            rw [hm] at h3
            cases hm' : g'.metrics[e]? with
            | none => rw [hm'] at h3; cases h3
            | some m' =>
              rw [hm'] at h3
              simp only [Option.map_some, Option.some.injEq] at h3
              simp only [Res.ofIdx, Res.ok_bind, h3]
              cases (s.costs cur.dir)[v]? with
              | none => rfl
              | some old =>
                simp only [Res.ok_bind]
                split
                · cases setIdx (s.preds cur.dir) v (some e) with
                  | panic => rfl
                  | err x => exact x.elim
                  | ok ps =>
                    simp only [Res.ok_bind]
                    cases setIdx (s.costs cur.dir) v (some (cur.cost + wt m)) with
                    | panic => rfl
                    | err x => exact x.elim
                    | ok cs =>
                      simp only [Res.ok_bind]
                      exact relax_congr hg hw es _
                · exact relax_congr hg hw es s

omit [Zero K] in
theorem expand_congr (hg : Twin g g') (hw : ∀ e : Nat, g'.metrics[e]?.map wt' = g.metrics[e]?.map wt)
    (s : St K) (best : Best K) (cur : CN K) : expand h g' wt' s best cur = expand h g wt s best cur := by
  have h1 : g'.startingFrom cur.dir cur.idx = g.startingFrom cur.dir cur.idx := by rw [hg]; rfl
  unfold expand
  rw [h1]
  simp only [relax_congr hg hw]

omit [Zero K] in
theorem step_congr (hg : Twin g g') (hw : ∀ e : Nat, g'.metrics[e]?.map wt' = g.metrics[e]?.map wt)
    (s : St K) (best : Best K) (cur : CN K) : step h g' wt' s best cur = step h g wt s best cur := by
  unfold step
  simp only [expand_congr hg hw]

omit [Zero K] in
theorem loop_congr (hg : Twin g g') (hw : ∀ e : Nat, g'.metrics[e]?.map wt' = g.metrics[e]?.map wt) :
    ∀ (fuel : Nat) (s : St K) (best : Best K), loop h g' wt' fuel s best = loop h g wt fuel s best
  | 0, _, _ => rfl
  | fuel + 1, s, best => by
    unfold loop
    simp only [step_congr hg hw, loop_congr hg hw fuel]

omit [LinearOrder K] [Zero K] [Add K] in
theorem walk_congr (hg : Twin g g') (s : St K) (d : Dir) :
    ∀ (fuel cur : Nat), walk g' s d fuel cur = walk g s d fuel cur
  | 0, _ => rfl
  | fuel + 1, cur => by
    have h1 : ∀ e, g'.dstIdx d.opp e = g.dstIdx d.opp e := by intro e; rw [hg]; rfl
    unfold walk
    simp only [h1, walk_congr hg s d fuel]

omit [Zero K] in
theorem search_congr (hg : Twin g g') (hw : ∀ e : Nat, g'.metrics[e]?.map wt' = g.metrics[e]?.map wt)
    (fuel : Nat) (s : St K) (src dst : Nat) : search h g' wt' fuel s src dst = search h g wt fuel s src dst := by
  have h1 : ∀ i, g'.nodeId i = g.nodeId i := by intro i; rw [hg]; rfl
  have h2 : ∀ s best, mkPath g' fuel (K := K) s best src dst = mkPath g fuel s best src dst := by
    intro s best
    unfold mkPath
    simp only [walk_congr hg, h1]
  unfold search
  simp only [loop_congr hg hw, h2]

theorem compute_congr {dotp : List ℚ → List ℚ → K} {fuel : Nat} {s : St K} {q q' : Query K}
    (hs : q'.src = q.src) (hd : q'.dst = q.dst) (ha : q'.algo = q.algo) (hg : Twin q.graph q'.graph)
    (hn : (∃ a ∈ q'.alphas, a < 0) ↔ ∃ a ∈ q.alphas, a < 0)
    (hw : ∀ e : Nat, q'.graph.metrics[e]?.map (dotp q'.alphas) = q.graph.metrics[e]?.map (dotp q.alphas)) :
    computeBestPath h dotp fuel s q' = computeBestPath h dotp fuel s q := by
  have h1 : q'.graph.nodeCount = q.graph.nodeCount := by rw [hg]; rfl
  have h2 : q'.alphas.any (fun a => decide (a < 0)) = q.alphas.any (fun a => decide (a < 0)) := by
    rw [Bool.eq_iff_iff, List.any_eq_true, List.any_eq_true]
    simpa using hn
  unfold computeBestPath
  rw [h2, ha, h1, hs, hd]
  split
  · rfl
  · cases q.algo with
    | explorator => rfl
    | dijkstra => simp only [search_congr hg hw]
    | chDijkstra => simp only [search_congr hg hw]

end

/-- A metric with alpha zero does not count. -/
theorem dot_zero_alpha : ∀ {al m m' : List ℚ} {k : Nat}, al.getD k 0 = 0 → m'.length = m.length →
    (∀ i, i ≠ k → m'[i]? = m[i]?) → dot al m' = dot al m := by
  intro al
  induction al with
  | nil => intro m m' k _ _ _; simp [dot]
  | cons a al ih =>
    intro m m' k ha hl hm
    cases m with
    | nil => cases m' with
      | nil => rfl
      | cons _ _ => cases hl
    | cons x m => cases m' with
      | nil => cases hl
      | cons x' m' =>
        rw [dot_eq, dot_eq]
        cases k with
        | zero =>
          simp only [List.getD_cons_zero] at ha
          have : m' = m := List.ext_getElem? fun i => by simpa using hm (i + 1) (by omega)
          subst this ha
          simp
        | succ k =>
          have h0 : x' = x := by simpa using hm 0 (by omega)
          subst h0
          have := ih (m := m) (m' := m') (k := k) (by simpa using ha) (by simpa using hl)
            (fun i hi => by simpa using hm (i + 1) (by omega))
          rw [dot_eq, dot_eq] at this
          simp [this]

/-- Dividing metrics and multiplying alphas with the same numbers. -/
theorem dot_scaled : ∀ {al μ m m' : List ℚ}, m'.length = m.length →
    (∀ (k : Nat) x, m[k]? = some x → ∃ c, μ[k]? = some c ∧ c ≠ 0 ∧ m'[k]? = some (x / c)) →
    dot (List.zipWith (· * ·) al μ) m' = dot al m := by
  intro al
  induction al with
  | nil => intro μ m m' _ _; simp [dot]
  | cons a al ih =>
    intro μ m m' hl hm
    cases m with
    | nil => cases m' with
      | nil => simp [dot]
      | cons _ _ => cases hl
    | cons x m => cases m' with
      | nil => cases hl
      | cons x' m' =>
        obtain ⟨c, h1, h2, h3⟩ := hm 0 x rfl
        cases μ with
        | nil => cases h1
        | cons c' μ =>
          simp only [List.getElem?_cons_zero, Option.some.injEq] at h1 h3
          subst h1 h3
          have := ih (μ := μ) (m := m) (m' := m') (by simpa using hl)
            (fun k x hx => by simpa using hm (k + 1) x (by simpa using hx))
          rw [dot_eq, dot_eq] at this
          rw [dot_eq, dot_eq, List.zipWith_cons_cons, List.zipWith_cons_cons, List.zipWith_cons_cons,
            List.sum_cons, List.sum_cons, this]
          congr 1
          field_simp

end Verif.Dij
