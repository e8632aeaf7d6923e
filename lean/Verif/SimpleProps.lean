import Verif.SimpleLemmas
import Verif.DijkstraProps
import Verif.PathProps

/-!
# Properties C61 and C62: answered routes visit no node twice

The specification speaks about parts of a route that start and end at the same node.
-/

namespace Verif.Graph

/-- No part of the edges `l`, starting at `u`, is a circle: what leads from a node to the same node is
empty. -/
def Simple (g : Graph) (u : Nat) (l : List Nat) : Prop :=
  ∀ l1 l2 l3 w, l = l1 ++ l2 ++ l3 → g.IsRoute u l1 w → g.IsRoute w l2 w → l2 = []

end Verif.Graph

namespace Verif.Dij

open Search Graph

/-! ## Helper lemmas -/

theorem zipWith_sum_add (al m1 m2 : List ℚ) (h : m1.length = m2.length) :
    (List.zipWith (· * ·) al (List.zipWith (· + ·) m1 m2)).sum =
      (List.zipWith (· * ·) al m1).sum + (List.zipWith (· * ·) al m2).sum := by
  induction al generalizing m1 m2 with
  | nil => simp
  | cons a al ih =>
    cases m1 with
    | nil =>
      cases m2 with
      | nil => simp
      | cons => simp at h
    | cons x m1 =>
      cases m2 with
      | nil => simp at h
      | cons y m2 =>
        simp only [List.zipWith_cons_cons, List.sum_cons]
        rw [ih m1 m2 (by simpa using h)]
        ring

/-- A shortcut's weighted cost is the one of its two edges. -/
theorem routeCost_shortcut {g : Graph} {al : List ℚ} (hd : g.DimOk) (hadd : g.ShortcutsAdd) {e a b : Nat}
    (h : g.scEdgesOf e = .ok (some (a, b))) (he : e < g.metrics.length) (ha : a < g.metrics.length)
    (hb : b < g.metrics.length) : routeCost g al [e] = routeCost g al [a] + routeCost g al [b] := by
  have hm : g.metrics[e] = List.zipWith (· + ·) g.metrics[a] g.metrics[b] := by
    have h1 := hd _ (List.getElem_mem he)
    have h2 := hd _ (List.getElem_mem ha)
    have h3 := hd _ (List.getElem_mem hb)
    apply List.ext_getElem
    · rw [List.length_zipWith, h1, h2, h3, min_self]
    · intro k hk hk'
      have := hadd e a b h k (by rw [← h1]; exact hk)
      simp only [metric, List.getElem?_eq_getElem he, List.getElem?_eq_getElem ha,
        List.getElem?_eq_getElem hb, Option.getD_some] at this
      rw [List.getElem?_eq_getElem hk, List.getElem?_eq_getElem (by rw [h2, ← h1]; exact hk),
        List.getElem?_eq_getElem (by rw [h3, ← h1]; exact hk)] at this
      simpa using this
  simp only [routeCost, List.map_cons, List.map_nil, List.sum_cons, List.sum_nil, add_zero,
    List.getElem?_eq_getElem he, List.getElem?_eq_getElem ha, List.getElem?_eq_getElem hb,
    Option.getD_some]
  rw [hm, zipWith_sum_add]
  rw [hd _ (List.getElem_mem ha), hd _ (List.getElem_mem hb)]

theorem routeCost_expand {g : Graph} {al : List ℚ} (hwf : g.WellFormed) (hd : g.DimOk)
    (hcon : g.ShortcutsConnect) (hadd : g.ShortcutsAdd) {e u v : Nat} {l : List Nat} (h : Expands g e l)
    (he : g.IsEdge e u v) : routeCost g al l = routeCost g al [e] := by
  induction h generalizing u v with
  | plain => rfl
  | @shortcut e a b la lb h1 _ _ iha ihb =>
    obtain ⟨w, h2, h3⟩ := hcon _ _ _ _ _ h1 he
    have hlt : ∀ {e u v}, g.IsEdge e u v → e < g.metrics.length := by
      intro e u v h
      rw [hwf.metrics_len]
      exact edge_lt hwf h.1
    rw [routeCost_append, iha h2, ihb h3, routeCost_shortcut hd hadd h1 (hlt he) (hlt h2) (hlt h3)]

/-- A cheapest route has no circle if all weights are positive. -/
theorem simple_of_cheapest {g : Graph} {al : List ℚ} {u v : Nat} {l : List Nat} (hr : g.IsRoute u l v)
    (hpos : ∀ e a b, g.IsEdge e a b → 0 < routeCost g al [e])
    (hopt : ∀ l', g.IsRoute u l' v → routeCost g al l ≤ routeCost g al l') : g.Simple u l := by
  intro l1 l2 l3 w hl h1 h2
  by_contra hne
  rw [hl] at hr
  obtain ⟨x, hr, h3⟩ := isRoute_append.mp hr
  obtain ⟨w', h1', h2'⟩ := isRoute_append.mp hr
  have hend : ∀ {u v v' : Nat} {l : List Nat}, g.IsRoute u l v → g.IsRoute u l v' → v = v' := by
    intro u v v' l ha hb
    have := (route_nodes ha).symm.trans (route_nodes hb)
    simpa using this
  have e1 := hend h1' h1
  subst e1
  have e2 := hend h2' h2
  subst e2
  have hc := hopt (l1 ++ l3) (isRoute_append.mpr ⟨_, h1, h3⟩)
  rw [hl, routeCost_append, routeCost_append, routeCost_append] at hc
  have hp : ∀ {u v : Nat} {l : List Nat}, g.IsRoute u l v → 0 ≤ routeCost g al l := by
    intro u v l h
    induction l generalizing u with
    | nil => exact le_refl _
    | cons e l ih =>
      obtain ⟨w, ha, hb⟩ := h
      have := hpos _ _ _ ha
      rw [← List.singleton_append, routeCost_append]
      linarith [ih hb]
  have : 0 < routeCost g al l2 := by
    cases l2 with
    | nil => exact absurd rfl hne
    | cons e l2 =>
      obtain ⟨w, ha, hb⟩ := h2
      have := hpos _ _ _ ha
      rw [← List.singleton_append, routeCost_append]
      linarith [hp hb]
  linarith

/-! ## C61 -/

section
variable {h : Heap ℚ} {fuel n : Nat} {s s' : St ℚ} {q : Query ℚ}

/-- A returned route, of Dijkstra or ch-dijkstra, visits no node twice. This needs neither an exact
order of the queue nor positive weights: zero alphas and zero metrics are allowed. -/
theorem C61_simple {p : Path} (hwf : q.graph.WellFormed) (hm : NonnegMetrics q.graph)
    (hsrc : q.src < q.graph.nodeCount) (hdst : q.dst < q.graph.nodeCount) (hu : Used h dot n s)
    (hc : computeBestPath h dot fuel s q = some (.ok (s', some p))) : q.graph.Simple q.src p.edges := by
  have hw := weights_nonneg (computed_valid hc).2 hm
  have hr := (C13_route hwf addOk_rat hw hsrc hdst hu hc).1
  exact fun l1 l2 l3 w hl h1 h2 =>
    nodup_simple (answered_nodup hwf addOk_rat addStrict_rat hw hsrc hdst hu hc hr) hl h1 h2

/-- Hence a returned route has less edges than the graph has nodes. -/
theorem C61_length {p : Path} (hwf : q.graph.WellFormed) (hm : NonnegMetrics q.graph)
    (hsrc : q.src < q.graph.nodeCount) (hdst : q.dst < q.graph.nodeCount) (hu : Used h dot n s)
    (hc : computeBestPath h dot fuel s q = some (.ok (s', some p))) :
    p.edges.length < q.graph.nodeCount := by
  have hw := weights_nonneg (computed_valid hc).2 hm
  have hr := (C13_route hwf addOk_rat hw hsrc hdst hu hc).1
  have h1 := answered_nodup hwf addOk_rat addStrict_rat hw hsrc hdst hu hc hr
  have h2 := length_le_of_nodup_lt h1 (n := q.graph.nodeCount) (by
    intro x hx
    rcases List.mem_cons.mp hx with rfl | hx
    · exact hsrc
    · exact route_ends_lt hwf hr x hx)
  rw [List.length_cons, List.length_map] at h2
  omega

end

/-- With a rounding addition, in any arithmetic with `AddOk`, a returned route has at most `2n - 2` edges
in a graph with `n` nodes. Missing: that it visits no node twice, which needs strict sums. -/
theorem C61_rounded_partial {K : Type} [LinearOrder K] [Zero K] [Add K] {h : Heap K}
    {dotp : List ℚ → List ℚ → K} {fuel n : Nat} {s s' : St K} {q : Query K} {p : Path}
    (hwf : q.graph.WellFormed) (hk : AddOk K) (hw : ∀ m ∈ q.graph.metrics, 0 ≤ dotp q.alphas m)
    (hsrc : q.src < q.graph.nodeCount) (hdst : q.dst < q.graph.nodeCount) (hu : Used h dotp n s)
    (hc : computeBestPath h dotp fuel s q = some (.ok (s', some p))) :
    p.edges.length ≤ 2 * q.graph.nodeCount - 2 := by
  have := answered_length hwf hk hw hsrc hdst hu hc
  omega

/-- The circle meets the conditions, even with all alphas zero. It has a route from `1` to `0` with a
circle, which is not returned. -/
example : chGraph.WellFormed ∧ NonnegMetrics chGraph ∧ Used codeHeap dot 4 St.new ∧
    chGraph.IsRoute 1 [2, 3, 1, 2, 3] 0 ∧ ¬ chGraph.Simple 1 [2, 3, 1, 2, 3] ∧
    answer (computeBestPath codeHeap dot 40 St.new
      { src := 1, dst := 0, graph := chGraph, algo := .chDijkstra, alphas := [0] }) =
      some (.ok (some (Path.new 1 1 0 0 [2, 3]))) ∧
    answer (computeBestPath codeHeap dot 40 St.new
      { src := 1, dst := 0, graph := chGraph, algo := .dijkstra, alphas := [0] }) =
      some (.ok (some (Path.new 1 1 0 0 [2, 3]))) := by
  have hr : chGraph.IsRoute 1 [2, 3, 1] 1 :=
    ⟨2, endsOf_iff.mpr (by decide +kernel), 0, endsOf_iff.mpr (by decide +kernel), 1,
      endsOf_iff.mpr (by decide +kernel), rfl⟩
  have hr' : chGraph.IsRoute 1 [2, 3] 0 :=
    ⟨2, endsOf_iff.mpr (by decide +kernel), 0, endsOf_iff.mpr (by decide +kernel), rfl⟩
  refine ⟨Build.built_wellFormed ch_build, ch_nonneg, .new, isRoute_append (l := [2, 3, 1]).mpr ⟨1, hr, hr'⟩,
    fun hs => ?_, by decide +kernel, by decide +kernel⟩
  exact absurd (hs [] [2, 3, 1] [2, 3] 1 rfl rfl hr) (by simp)

/-! ## C62 -/

/-- A flattened answer of ch-dijkstra visits no node twice, if the graph is contracted, the queue pops a
cheapest element, and all weights are positive. Without the latter this is false, see
`C62_false_zero_alphas`. -/
theorem C62_flattened_partial {h : Heap ℚ} {fuel fuel' n : Nat} {s s' : St ℚ} {q : Query ℚ} {p r : Path}
    {V : ℚ → Prop} (hwf : q.graph.WellFormed) (hd : q.graph.DimOk) (hm : NonnegMetrics q.graph)
    (hhi : Hierarchy q.graph q.alphas) (hcon : q.graph.ShortcutsConnect) (hadd : q.graph.ShortcutsAdd)
    (hpos : ∀ e a b, q.graph.IsEdge e a b → 0 < routeCost q.graph q.alphas [e])
    (halg : q.algo = .chDijkstra) (hsrc : q.src < q.graph.nodeCount) (hdst : q.dst < q.graph.nodeCount)
    (hu : Used h dot n s) (hmin : h.Min V) (hV0 : V 0)
    (hV : ∀ m ∈ q.graph.metrics, ∀ x, V x → V (x + dot q.alphas m))
    (hc : computeBestPath h dot fuel s q = some (.ok (s', some p)))
    (hf : Path.tryFlatten q.graph fuel' p = some (.ok r)) : q.graph.Simple q.src r.edges := by
  obtain ⟨hr, hopt⟩ := C20_optimal hwf hm hhi halg hsrc hdst hu hmin hV0 hV hc
  refine simple_of_cheapest (Path.C21_route hcon hf hr) hpos (fun l' hl' => le_trans (le_of_eq ?_) (hopt l' hl'))
  obtain ⟨ls, h1, h2, -⟩ := Path.C21_expansion hf
  rw [h2]
  clear h2 hf hc hopt
  generalize p.edges = es at h1 hr
  generalize q.src = u at hr
  induction h1 generalizing u with
  | nil => rfl
  | cons hx _ ih =>
    obtain ⟨w, he, hr⟩ := hr
    rw [List.flatten_cons, routeCost_append, ih w hr, routeCost_expand hwf hd hcon hadd hx he,
      ← routeCost_append, List.singleton_append]

/-- Checks that shortcuts lead where their edges lead and cost what they cost. -/
def shortcutsB (g : Graph) : Bool :=
  (List.range g.edgeCount).all fun e =>
    match g.scEdgesOf e, endsOf g e with
    | .ok (some (a, b)), some (u, v) =>
      (match endsOf g a, endsOf g b with
        | some (u', w), some (w', v') => decide (u = u' ∧ w = w' ∧ v = v')
        | _, _ => false) &&
        (List.range g.dim).all fun k => decide (g.metric e k = g.metric a k + g.metric b k)
    | .ok (some _), none => false
    | _, _ => true

theorem shortcuts_of {g : Graph} (hwf : g.WellFormed) (h : shortcutsB g = true) :
    g.ShortcutsConnect ∧ g.ShortcutsAdd := by
  have key : ∀ e a b, g.scEdgesOf e = .ok (some (a, b)) → ∃ u v w, endsOf g e = some (u, v) ∧
      endsOf g a = some (u, w) ∧ endsOf g b = some (w, v) ∧
      ∀ k, k < g.dim → g.metric e k = g.metric a k + g.metric b k := by
    intro e a b he
    have h1 := List.all_eq_true.mp h e (List.mem_range.mpr (hwf.sc_len _ _ he))
    simp only [he] at h1
    cases h2 : endsOf g e with
    | none => simp [h2] at h1
    | some p =>
      cases h3 : endsOf g a with
      | none => simp [h2, h3] at h1
      | some pa =>
        cases h4 : endsOf g b with
        | none => simp [h2, h3, h4] at h1
        | some pb =>
          obtain ⟨u, v⟩ := p
          obtain ⟨u', w⟩ := pa
          obtain ⟨w', v'⟩ := pb
          simp only [h2, h3, h4, Bool.and_eq_true, decide_eq_true_eq, List.all_eq_true, List.mem_range] at h1
          obtain ⟨⟨rfl, rfl, rfl⟩, h1⟩ := h1
          exact ⟨u, v, w, rfl, rfl, rfl, h1⟩
  constructor
  · intro e a b u v he hend
    obtain ⟨u', v', w, h1, h2, h3, _⟩ := key e a b he
    rw [endsOf_iff.mp hend] at h1
    cases h1
    exact ⟨w, endsOf_iff.mpr h2, endsOf_iff.mpr h3⟩
  · intro e a b he
    obtain ⟨_, _, _, _, _, _, h1⟩ := key e a b he
    exact h1

/-- The circle meets the conditions of `C62_flattened_partial`. -/
example : chGraph.DimOk ∧ Hierarchy chGraph [1] ∧ chGraph.ShortcutsConnect ∧ chGraph.ShortcutsAdd ∧
    (∀ e a b, chGraph.IsEdge e a b → 0 < routeCost chGraph [1] [e]) ∧
    Path.tryFlatten chGraph 40 (Path.new 1 1 0 0 [2, 3]) =
      some (.ok { Path.new 1 1 0 0 [2, 4, 5] with costs := some [3] }) := by
  have hwf := Build.built_wellFormed ch_build
  obtain ⟨h1, h2⟩ := shortcuts_of hwf (by decide +kernel)
  refine ⟨?_, C20_contracted hwf ch_nonneg (by simp)
    (contracted_of hwf (weights_nonneg (by simp) ch_nonneg) (by decide +kernel)), h1, h2, ?_,
    by decide +kernel⟩
  · have : chGraph.metrics.all (fun m => m.length = chGraph.dim) = true := by decide +kernel
    exact fun m hm => by simpa using List.all_eq_true.mp this m hm
  · intro e a b he
    have hlt := edge_lt hwf he.1
    have : (List.range chGraph.edgeCount).all (fun e => decide (0 < routeCost chGraph [1] [e])) = true := by
      decide +kernel
    simpa using List.all_eq_true.mp this e (List.mem_range.mpr hlt)

/-- Two nodes, which reach each other, a node with a shortcut through the second one, and another node. -/
def zeroBuild : Build.R Graph :=
  Build.build 1 [edge1 1 2 1, edge1 2 0 1, edge1 0 2 1, edge1 1 3 2,
      { edge1 1 0 2 with id := some 5, sc := some (0, 1) }]
    (lvNodes 0 [3, 2, 0, 1])

def zeroGraph : Graph := okGraph zeroBuild

theorem zero_build : zeroBuild = .ok zeroGraph := by decide +kernel

/-- With alphas of zero, in a contracted graph with positive metrics, the flattened answer of ch-dijkstra
visits a node twice: it leads from `1` to `2`, on to `0`, and back to `2`. -/
theorem C62_false_zero_alphas : zeroBuild = .ok zeroGraph ∧ Contracted zeroGraph [0] ∧
    (∀ m ∈ zeroGraph.metrics, ∀ x ∈ m, 0 < x) ∧
    answer (computeBestPath codeHeap dot 40 St.new
      { src := 1, dst := 2, graph := zeroGraph, algo := .chDijkstra, alphas := [0] }) =
      some (.ok (some (Path.new 1 1 2 2 [1, 0]))) ∧
    Path.tryFlatten zeroGraph 40 (Path.new 1 1 2 2 [1, 0]) =
      some (.ok { Path.new 1 1 2 2 [3, 4, 0] with costs := some [3] }) ∧
    zeroGraph.IsRoute 1 [3, 4, 0] 2 ∧ ¬ zeroGraph.Simple 1 [3, 4, 0] := by
  have hwf := Build.built_wellFormed zero_build
  have hpos : zeroGraph.metrics.all (fun m => m.all (fun x => decide (0 < x))) = true := by decide +kernel
  have hpos : ∀ m ∈ zeroGraph.metrics, ∀ x ∈ m, (0 : ℚ) < x := fun m hm x hx => by
    simpa using List.all_eq_true.mp (List.all_eq_true.mp hpos m hm) x hx
  have h1 : zeroGraph.IsRoute 1 [3] 2 := ⟨2, endsOf_iff.mpr (by decide +kernel), rfl⟩
  have h2 : zeroGraph.IsRoute 2 [4, 0] 2 :=
    ⟨0, endsOf_iff.mpr (by decide +kernel), 2, endsOf_iff.mpr (by decide +kernel), rfl⟩
  refine ⟨zero_build, contracted_of hwf (weights_nonneg (by simp) fun m hm x hx => le_of_lt (hpos m hm x hx))
    (by decide +kernel), hpos, by decide +kernel, by decide +kernel,
    isRoute_append (l := [3]).mpr ⟨2, h1, h2⟩, fun hs => ?_⟩
  exact absurd (hs [3] [4, 0] [] 2 rfl h1 h2) (by simp)

end Verif.Dij
