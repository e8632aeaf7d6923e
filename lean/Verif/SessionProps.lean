import Verif.SessionLemmas2
import Verif.YamlSample

/-!
# Properties of the tool's routing (C89, C90)
-/

namespace Verif.Session

open Text Gen Cfg
open Dij (Heap St computeBestPath Used AllCovered codeHeap binHeap)
open Search (AddOk)
open Build (ProtoEdge ProtoNode build Chain chainCost lifted EdgeIs Endpoint)
open Yml (ParsingIn RoutingIn Writer Yaml)

/-! ## C89 -/

section
variable {K : Type} [LinearOrder K] [Zero K] [Add K] {w : World K} {fuel : Nat} {g : Graph} {rc : Yml.RoutingCfg}

/-- The configured queries do not depend on former ones. -/
theorem answers_steady (w : World K) (fuel : Nat) (g : Graph) (rc : Yml.RoutingCfg) :
    ∃ (U : St K → Prop) (one : _), U St.new ∧ Steady U one ∧ ∀ rs, answers w fuel g rc rs = queries g one St.new rs := by
  unfold answers
  by_cases h2 : g.nodeCount = 2
  · cases rc.algo with
    | dijkstra => exact ⟨(· = St.new), _, rfl, best_two _ _ h2, fun rs => rfl⟩
    | chDijkstra => exact ⟨(· = St.new), _, rfl, best_two _ _ h2, fun rs => rfl⟩
    | explorator ch => exact ⟨(· = St.new), _, rfl, explore_two _ _ _ h2, fun rs => rfl⟩
  · cases rc.algo with
    | dijkstra => exact ⟨_, _, .new, best_steady _ _ h2, fun rs => rfl⟩
    | chDijkstra => exact ⟨_, _, .new, best_steady _ _ h2, fun rs => rfl⟩
    | explorator ch => exact ⟨_, _, .new, explore_steady _ _ _ h2, fun rs => rfl⟩

/-- Route-pairs are answered one after the other: if the first ones are finished, then the others are answered like on
their own, else nothing more is reported. -/
theorem C89_append (rs rs' : List Routes.Route) :
    ((answers w fuel g rc rs).2 = some (.ok ⟨⟩) → answers w fuel g rc (rs ++ rs') =
      ((answers w fuel g rc rs).1 ++ (answers w fuel g rc rs').1, (answers w fuel g rc rs').2)) ∧
    ((answers w fuel g rc rs).2 ≠ some (.ok ⟨⟩) → answers w fuel g rc (rs ++ rs') = answers w fuel g rc rs) := by
  obtain ⟨U, one, hu, h, ho⟩ := answers_steady w fuel g rc
  simp only [ho]
  exact queries_append h rs rs' _ _ hu hu

/-- The report about a route-pair does not depend on the others, and there is one for each, in their order. -/
theorem C89_independent (rs : List Routes.Route) (reps : List Report) :
    answers w fuel g rc rs = (reps, some (.ok ⟨⟩)) ↔
      List.Forall₂ (fun r rep => answers w fuel g rc [r] = ([rep], some (.ok ⟨⟩))) rs reps := by
  obtain ⟨U, one, hu, hs, ho⟩ := answers_steady w fuel g rc
  have hnil : answers w fuel g rc [] = ([], some (.ok ⟨⟩)) := by rw [ho]; rfl
  induction rs generalizing reps with
  | nil =>
    rw [hnil, List.forall₂_nil_left_iff]
    simp [eq_comm]
  | cons r rs ih =>
    obtain ⟨h3, h4⟩ := C89_append (w := w) (fuel := fuel) (rc := rc) [r] rs
    rw [List.singleton_append] at h3 h4
    have hone : ∀ reps, answers w fuel g rc [r] = (reps, some (.ok ⟨⟩)) → ∃ rep, reps = [rep] := by
      intro reps h
      rw [ho] at h
      rcases queries_cons _ _ _ _ _ h with ⟨-, h5⟩ | ⟨a, b, s', rep, reps', -, -, -, h5, h6⟩
      · exact absurd rfl h5
      · simp only [queries, Prod.mk.injEq] at h6
        exact ⟨rep, by rw [h5, ← h6.1]⟩
    by_cases h : (answers w fuel g rc [r]).2 = some (.ok ⟨⟩)
    · obtain ⟨rep, hrep⟩ := hone _ (Prod.ext rfl h)
      have h1 : answers w fuel g rc [r] = ([rep], some (.ok ⟨⟩)) := Prod.ext hrep h
      rw [h3 h, h1]
      constructor
      · intro h5
        simp only [Prod.mk.injEq] at h5
        rw [← h5.1]
        exact .cons h1 ((ih _).mp (Prod.ext rfl h5.2))
      · intro h5
        cases h5 with
        | @cons _ rep' _ reps h6 h7 =>
          rw [h1] at h6
          simp only [Prod.mk.injEq, List.cons.injEq, and_true] at h6
          have := (ih _).mpr h7
          rw [this, h6]
          rfl
    · rw [h4 h]
      constructor
      · intro h5
        rw [h5] at h
        exact absurd rfl h
      · intro h5
        cases h5 with
        | cons h6 h7 =>
          rw [h6] at h
          exact absurd rfl h

theorem answers_unknown (r : Routes.Route) (rs : List Routes.Route)
    (hr : ¬ ((∃ n, intoNode g r.src = .ok n) ∧ ∃ n, intoNode g r.dst = .ok n)) :
    answers w fuel g rc (r :: rs) = ([], some .panic) := by
  have key : ∀ one : St K → Graph.Node → Graph.Node → Option (Res Err (Report × St K)),
      queries g one St.new (r :: rs) = ([], some .panic) := by
    intro one
    rw [queries]
    cases h1 : intoNode g r.src with
    | panic => rfl
    | err e => exact absurd h1 intoNode_ne
    | ok a =>
      cases h2 : intoNode g r.dst with
      | panic => rfl
      | err e => exact absurd h2 intoNode_ne
      | ok b => exact absurd ⟨⟨a, h1⟩, b, h2⟩ hr
  unfold answers
  cases rc.algo <;> exact key _

/-- The nodes of a built graph. -/
theorem intoNode_iff {dim : Nat} {es : List ProtoEdge} {ns : List ProtoNode} (hb : build dim es ns = .ok g) (id : Int) :
    (∃ n, intoNode g id = .ok n) ↔ Endpoint es id := by
  constructor
  · rintro ⟨n, hn⟩
    by_contra hid
    obtain ⟨i, hi⟩ := (Build.C01_absent hb id).mpr hid
    simp [intoNode, Graph.createNodeFrom, hi] at hn
  · intro hid
    obtain ⟨i, n, -, hi⟩ := Build.C02_node_data hb hid
    exact ⟨_, by rw [intoNode, hi]⟩

/-- A route-pair with an id that is no node of the graph panics, whatever is configured. -/
theorem C89_unknown {dim : Nat} {es : List ProtoEdge} {ns : List ProtoNode} (hb : build dim es ns = .ok g)
    (r : Routes.Route) (rs : List Routes.Route) (hr : ¬ (Endpoint es r.src ∧ Endpoint es r.dst)) :
    answers w fuel g rc (r :: rs) = ([], some .panic) :=
  answers_unknown r rs fun h => hr ⟨(intoNode_iff hb _).mp h.1, (intoNode_iff hb _).mp h.2⟩

/-- With Dijkstra, the first route-pair panics if the graph has exactly two nodes, unless an alpha is negative. -/
theorem C89_two_nodes (h2 : g.nodeCount = 2) (halg : rc.algo = .dijkstra) (hal : ∀ x ∈ rc.routing.alphas, 0 ≤ x)
    (r : Routes.Route) (rs : List Routes.Route) : answers w fuel g rc (r :: rs) = ([], some .panic) := by
  unfold answers
  rw [halg]
  dsimp only
  have hone : ∀ a b, best w fuel g .dijkstra rc.routing.alphas St.new a b = some .panic := by
    intro a b
    unfold best
    rw [compute_two_panics (q := { src := a.idx, dst := b.idx, graph := g, algo := .dijkstra, alphas := rc.routing.alphas })
      h2 hal]
  rw [queries]
  cases hsrc : intoNode g r.src with
  | err e => exact absurd hsrc intoNode_ne
  | panic => rfl
  | ok a =>
    cases hdst : intoNode g r.dst with
    | err e => exact absurd hdst intoNode_ne
    | panic => rfl
    | ok b => simp only [Res.ok_bind, Res.pure_eq, hone]

/-- The configured algorithm. -/
theorem answers_best {algo : Dij.Algo}
    (halg : rc.algo = .dijkstra ∧ algo = .dijkstra ∨ rc.algo = .chDijkstra ∧ algo = .chDijkstra) (fuel : Nat)
    (rs : List Routes.Route) :
    answers w fuel g rc rs = queries g (best w fuel g algo rc.routing.alphas) St.new rs := by
  unfold answers
  rcases halg with ⟨h, rfl⟩ | ⟨h, rfl⟩ <;> rw [h]

/-- The task of a Dijkstra terminates if flattening does: it finishes or panics. -/
theorem answers_terminate {algo : Dij.Algo} (hwf : g.WellFormed)
    (hfl : ∀ p : Path, (∀ e ∈ p.edges, e < g.edgeCount) → ∃ M r, p.flatten g M = some r) (hk : AddOk K)
    (hw : ∀ m ∈ g.metrics, 0 ≤ w.dotp rc.routing.alphas m)
    (halg : rc.algo = .dijkstra ∧ algo = .dijkstra ∨ rc.algo = .chDijkstra ∧ algo = .chDijkstra)
    (rs : List Routes.Route) : ∃ N, ∀ fuel, N ≤ fuel → (answers w fuel g rc rs).2 ≠ none := by
  have hans := answers_best (w := w) (g := g) halg
  have hone : ∀ r : Routes.Route, ∃ N, ∀ fuel, N ≤ fuel → (answers w fuel g rc [r]).2 ≠ none := by
    intro r
    simp only [hans, queries]
    cases hsrc : intoNode g r.src with
    | err e => exact ⟨0, fun _ _ => by simp⟩
    | panic => exact ⟨0, fun _ _ => by simp⟩
    | ok a =>
      cases hdst : intoNode g r.dst with
      | err e => exact ⟨0, fun _ _ => by simp⟩
      | panic => exact ⟨0, fun _ _ => by simp⟩
      | ok b =>
        simp only [Res.ok_bind, Res.pure_eq]
        obtain ⟨hi1, -⟩ := intoNode_ok hwf hsrc
        obtain ⟨hj1, -⟩ := intoNode_ok hwf hdst
        suffices h : ∃ N, ∀ fuel, N ≤ fuel → best w fuel g algo rc.routing.alphas St.new a b ≠ none by
          obtain ⟨N, hN⟩ := h
          refine ⟨N, fun fuel hf => ?_⟩
          have := hN fuel hf
          generalize best w fuel g algo rc.routing.alphas St.new a b = x at this
          match x, this with
          | none, this => exact absurd rfl this
          | some .panic, _ => simp
          | some (.err _), _ => simp
          | some (.ok (_, _)), _ => simp
        obtain ⟨N, hN⟩ := Dij.C19_terminates (h := w.heap) (dotp := w.dotp)
          (q := { src := a.idx, dst := b.idx, graph := g, algo := algo, alphas := rc.routing.alphas }) hwf hk hw
          (Build.nodeId_lt hi1) (Build.nodeId_lt hj1)
        have hc := hN N le_rfl 0 St.new .new
        generalize hx : computeBestPath w.heap w.dotp N St.new
          { src := a.idx, dst := b.idx, graph := g, algo := algo, alphas := rc.routing.alphas } = x at hc
        match x, hc, hx with
        | none, hc, _ => exact absurd rfl hc
        | some .panic, _, hx =>
          refine ⟨N, fun fuel hf => ?_⟩
          obtain ⟨k, rfl⟩ := Nat.exists_eq_add_of_le hf
          unfold best
          rw [Dij.compute_mono hx k]
          simp
        | some (.ok (s', none)), _, hx =>
          refine ⟨N, fun fuel hf => ?_⟩
          obtain ⟨k, rfl⟩ := Nat.exists_eq_add_of_le hf
          unfold best
          rw [Dij.compute_mono hx k]
          simp
        | some (.ok (s', some p)), _, hx =>
          obtain ⟨h3, -⟩ := Dij.C13_route (q := { src := a.idx, dst := b.idx, graph := g, algo := algo, alphas := rc.routing.alphas })
            hwf hk hw (Build.nodeId_lt hi1) (Build.nodeId_lt hj1) .new hx (n := g.nodeCount)
          obtain ⟨M, r, hM⟩ := hfl p (Par.isRoute_lt h3)
          refine ⟨max N M, fun fuel hf => ?_⟩
          obtain ⟨k, hk1⟩ := Nat.exists_eq_add_of_le (le_trans (le_max_left N M) hf)
          obtain ⟨l, hl1⟩ := Nat.exists_eq_add_of_le (le_trans (le_max_right N M) hf)
          unfold best
          have e1 := Dij.compute_mono hx k
          have e2 := Path.flatten_mono hM l
          rw [← hk1] at e1
          rw [← hl1] at e2
          rw [e1]
          dsimp only
          rw [e2]
          match r with
          | .ok q => dsimp only; split <;> simp
          | .err _ => simp
          | .panic => simp
  induction rs with
  | nil => exact ⟨0, fun fuel _ => by simp [hans, queries]⟩
  | cons r rs ih =>
    obtain ⟨N, hN⟩ := ih
    obtain ⟨M, hM⟩ := hone r
    refine ⟨max N M, fun fuel hf => ?_⟩
    obtain ⟨h3, h4⟩ := C89_append (w := w) (fuel := fuel) (rc := rc) (g := g) [r] rs
    rw [List.singleton_append] at h3 h4
    by_cases h : (answers w fuel g rc [r]).2 = some (.ok ⟨⟩)
    · rw [h3 h]
      exact hN fuel (le_trans (le_max_left N M) hf)
    · rw [h4 h]
      exact hM fuel (le_trans (le_max_right N M) hf)

/-- A pattern for tasks that finish. -/
theorem answers_finish {algo : Dij.Algo} {Known : Int → Prop} (hwf : g.WellFormed)
    (hkn : ∀ id, (∃ n, intoNode g id = .ok n) ↔ Known id)
    (hfl : ∀ N s' x y (a b : Nat) p, g.nodeId a = .ok x → g.nodeId b = .ok y →
      computeBestPath w.heap w.dotp N St.new ⟨a, b, g, algo, rc.routing.alphas⟩ = some (.ok (s', some p)) →
      ∃ M q cs, p.flatten g M = some (.ok q) ∧ q.costs = some cs)
    (hk : AddOk K) (hw : ∀ m ∈ g.metrics, 0 ≤ w.dotp rc.routing.alphas m)
    (halg : rc.algo = .dijkstra ∧ algo = .dijkstra ∨ rc.algo = .chDijkstra ∧ algo = .chDijkstra)
    (hcov : AllCovered g) (h2 : g.nodeCount ≠ 2) (rs : List Routes.Route) :
    ∃ N, ∀ fuel, N ≤ fuel → ((answers w fuel g rc rs).2 = some (.ok ⟨⟩) ↔
      ∀ r ∈ rs, Known r.src ∧ Known r.dst) := by
  have hexp : algo ≠ .explorator := by rcases halg with ⟨-, rfl⟩ | ⟨-, rfl⟩ <;> simp
  have hone : ∀ r : Routes.Route, Known r.src → Known r.dst → ∃ N, ∀ fuel, N ≤ fuel →
      ∃ rep, answers w fuel g rc [r] = ([rep], some (.ok ⟨⟩)) := by
    intro r hs hd
    obtain ⟨a, hi'⟩ := (hkn _).mpr hs
    obtain ⟨b, hj'⟩ := (hkn _).mpr hd
    obtain ⟨hi1, -⟩ := intoNode_ok hwf hi'
    obtain ⟨hj1, -⟩ := intoNode_ok hwf hj'
    obtain ⟨N, hN⟩ := Dij.C15_answers_partial (h := w.heap) (dotp := w.dotp) (n := g.nodeCount)
      (q := { src := a.idx, dst := b.idx, graph := g, algo := algo, alphas := rc.routing.alphas }) hwf hk hw hexp hcov
      h2 (Build.nodeId_lt hi1) (Build.nodeId_lt hj1) .new le_rfl
    obtain ⟨s', ans, hc⟩ := hN N le_rfl
    cases ans with
    | none =>
      refine ⟨N, fun fuel hf => ⟨.nothing a b, ?_⟩⟩
      obtain ⟨k, rfl⟩ := Nat.exists_eq_add_of_le hf
      rw [answers_best halg]
      refine (queries_one _ _ _).mpr ⟨a, b, s', hi', hj', ?_⟩
      unfold best
      rw [Dij.compute_mono hc k]
    | some p =>
      obtain ⟨M, q, cs, hM, hcs⟩ := hfl N s' _ _ _ _ p hi1 hj1 hc
      refine ⟨max N M, fun fuel hf => ⟨.costs a b cs, ?_⟩⟩
      obtain ⟨k, hk1⟩ := Nat.exists_eq_add_of_le (le_trans (le_max_left N M) hf)
      obtain ⟨l, hl1⟩ := Nat.exists_eq_add_of_le (le_trans (le_max_right N M) hf)
      rw [answers_best halg]
      refine (queries_one _ _ _).mpr ⟨a, b, s', hi', hj', ?_⟩
      unfold best
      have e1 := Dij.compute_mono hc k
      have e2 := Path.flatten_mono hM l
      rw [← hk1] at e1
      rw [← hl1] at e2
      rw [e1]
      dsimp only
      rw [e2]
      simp [Path.getCosts, hcs]
  have hnil : ∀ fuel, answers w fuel g rc [] = ([], some (.ok ⟨⟩)) := by
    intro fuel
    rw [answers_best halg]
    rfl
  induction rs with
  | nil => exact ⟨0, fun fuel _ => by simp [hnil]⟩
  | cons r rs ih =>
    obtain ⟨N, hN⟩ := ih
    by_cases hr : Known r.src ∧ Known r.dst
    · obtain ⟨M, hM⟩ := hone r hr.1 hr.2
      refine ⟨max N M, fun fuel hf => ?_⟩
      obtain ⟨rep, h3⟩ := hM fuel (le_trans (le_max_right N M) hf)
      have h4 := (C89_append (w := w) (fuel := fuel) (rc := rc) [r] rs).1 (by rw [h3])
      rw [List.singleton_append] at h4
      rw [h4]
      simp only [hN fuel (le_trans (le_max_left N M) hf), List.mem_cons, forall_eq_or_imp, hr, true_and, and_self]
    · refine ⟨0, fun fuel _ => ?_⟩
      rw [answers_unknown r rs fun h => hr ⟨(hkn _).mp h.1, (hkn _).mp h.2⟩]
      simp only [Option.some.injEq, reduceCtorEq, false_iff]
      exact fun h => hr (h r (by simp))

/-- Without shortcuts, flattening keeps plain edges. -/
theorem plain_ends {dim : Nat} {es : List ProtoEdge} {ns : List ProtoNode} (hb : build dim es ns = .ok g)
    (hsc : ∀ pe ∈ es, pe.sc = none) (p : Path) (hlt : ∀ e ∈ p.edges, e < g.edgeCount) :
    ∃ M q, p.flatten g M = some (.ok q) := by
  obtain ⟨q, ⟨M, hM⟩, -⟩ := Par.plain_flattens (Build.built_wellFormed hb) hlt fun e he => by
    obtain ⟨pe, hpe, -, -, h8⟩ := Build.C10_flags hb (hlt e he)
    exact h8.mpr (hsc pe hpe)
  exact ⟨M, q, hM⟩

/-- With enough steps, Dijkstra's task finishes iff the ids of all pairs are known, on graphs without shortcuts.
Partial: The graph must not have exactly two nodes, and all nodes must be covered, see C15. -/
theorem C89_finishes_partial {dim : Nat} {es : List ProtoEdge} {ns : List ProtoNode} (hb : build dim es ns = .ok g)
    (hsc : ∀ pe ∈ es, pe.sc = none) (hk : AddOk K) (hw : ∀ m ∈ g.metrics, 0 ≤ w.dotp rc.routing.alphas m)
    (halg : rc.algo = .dijkstra) (hcov : AllCovered g) (h2 : g.nodeCount ≠ 2) (rs : List Routes.Route) :
    ∃ N, ∀ fuel, N ≤ fuel → ((answers w fuel g rc rs).2 = some (.ok ⟨⟩) ↔
      ∀ r ∈ rs, Endpoint es r.src ∧ Endpoint es r.dst) := by
  refine answers_finish (Build.built_wellFormed hb) (intoNode_iff hb) ?_ hk hw (.inl ⟨halg, rfl⟩) hcov h2 rs
  intro N s' x y a b p ha hb' hc
  obtain ⟨h3, -⟩ := Dij.C13_route (q := { src := a, dst := b, graph := g, algo := .dijkstra, alphas := rc.routing.alphas })
    (Build.built_wellFormed hb) hk hw (Build.nodeId_lt ha) (Build.nodeId_lt hb') .new hc (n := g.nodeCount)
  have hlt := Par.isRoute_lt h3
  obtain ⟨M, q, hM⟩ := plain_ends hb hsc p hlt
  obtain ⟨-, cs, hcs, -⟩ := flatten_plain hsc hb hlt hM
  exact ⟨M, q, cs, hM, hcs⟩

end

/-! ## C90 -/

section
variable {K : Type} [LinearOrder K] [Zero K] [Add K] {w : World K} {fuel : Nat} {wr : Writer} {doc : Yaml}
  {ip : ParsingIn} {ir : RoutingIn} {nodes edges pairs : List Text}

theorem alphas_length : (alphas ip ir).length = (Fmi.metricIds ip.edges).length := by simp [alphas]

theorem best_ok {g : Graph} {algo : Dij.Algo} {al : List ℚ} {s s' : St K} {a b : Graph.Node} {rep : Report}
    (h : best w fuel g algo al s a b = some (.ok (rep, s'))) :
    (computeBestPath w.heap w.dotp fuel s { src := a.idx, dst := b.idx, graph := g, algo, alphas := al } =
      some (.ok (s', none)) ∧ rep = .nothing a b) ∨
    ∃ p q cs, computeBestPath w.heap w.dotp fuel s { src := a.idx, dst := b.idx, graph := g, algo, alphas := al } =
      some (.ok (s', some p)) ∧ p.flatten g fuel = some (.ok q) ∧ q.costs = some cs ∧ rep = .costs a b cs := by
  unfold best at h
  split at h
  · cases h
  · rename_i s1 hc
    cases h
    exact .inl ⟨hc, rfl⟩
  · rename_i s1 p hc
    right
    split at h
    · cases h
    · rename_i q hq
      split at h
      · rename_i cs hcs
        cases h
        rw [Path.getCosts, Res.ofIdx_eq_ok] at hcs
        exact ⟨p, q, cs, hc, hq, hcs, rfl⟩
      · cases h
    · cases h
  · cases h

theorem best_keeps {g : Graph} {algo : Dij.Algo} {al : List ℚ} (s : St K) (a b : Graph.Node) (rep : Report) (s' : St K)
    (hu : Used w.heap w.dotp g.nodeCount s) (h : best w fuel g algo al s a b = some (.ok (rep, s'))) :
    Used w.heap w.dotp g.nodeCount s' := by
  rcases best_ok h with ⟨h1, -⟩ | ⟨p, q, cs, h1, -⟩
  · exact .query (q := { src := a.idx, dst := b.idx, graph := g, algo, alphas := al }) hu le_rfl h1
  · exact .query (q := { src := a.idx, dst := b.idx, graph := g, algo, alphas := al }) hu le_rfl h1

theorem reportsOn_nothing {P : Int → Int → Report → Prop} {r : Option (Res Err PUnit)} (h : r ≠ some (.ok ⟨⟩)) :
    ReportsOn P pairs ([], r) := ⟨[], pairs, rfl, .nil, fun h' => absurd h' h⟩

/-- A pattern for claims about the reports of Dijkstra. -/
theorem best_reports {P : Int → Int → Report → Prop} {algo : Dij.Algo} (hs : Setting w wr doc ip ir nodes edges pairs)
    (halg : ir.algo = .dijkstra ∧ algo = .dijkstra ∨ ir.algo = .chDijkstra ∧ algo = .chDijkstra)
    (h : ∀ es ns g s a b rep s' x y, List.Forall₂ (fun line pe => Fmi.readEdge w.codec ip.edges line = .ok pe) edges es →
      List.Forall₂ (fun line n => Fmi.readNode w.codec ip.nodes line = .ok n) nodes ns →
      build (Fmi.metricIds ip.edges).length es ns = .ok g →
      Used w.heap w.dotp g.nodeCount s → intoNode g x = .ok a → intoNode g y = .ok b →
      best w fuel g algo (alphas ip ir) s a b = some (.ok (rep, s')) → P x y rep) :
    ReportsOn P pairs (run w fuel doc) := by
  rcases run_cases hs with ⟨r, h1, h2⟩ | ⟨es, ns, g, rs, rc, h1, hns, h2, h3, h4, h5, h6, h7⟩
  · rw [h1]
    exact reportsOn_nothing (by simpa using h2)
  · have key : ReportsOn P pairs (queries g (best w fuel g algo (alphas ip ir)) St.new rs) :=
      reportsOn_of h3 best_keeps fun s a b rep s' x y hu hx hy hb => h es ns g s a b rep s' x y h1 hns h2 hu hx hy hb
    rw [h7, answers, h4]
    rcases halg with ⟨ha, rfl⟩ | ⟨ha, rfl⟩
    · rw [ha]
      dsimp only
      rw [h5]
      exact key
    · rw [ha]
      dsimp only
      rw [h5]
      exact key

omit [LinearOrder K] [Zero K] [Add K] in
/-- Without columns for shortcuts, there are none. -/
theorem no_shortcuts {es : List ProtoEdge} (hn : NoShortcuts ip)
    (h : List.Forall₂ (fun line pe => Fmi.readEdge w.codec ip.edges line = .ok pe) edges es) : ∀ pe ∈ es, pe.sc = none := by
  intro pe hpe
  obtain ⟨line, -, hl⟩ := Exp.forall₂_mem_right h hpe
  exact (readEdge_leads hl).2 hn

/-- The tool terminates: it does not search forever. -/
theorem C89_terminates (hs : Setting w wr doc ip ir nodes edges pairs) (hn : NoShortcuts ip)
    (halg : ir.algo = .dijkstra) (hk : AddOk K)
    (hw : ∀ m : List ℚ, (∀ x ∈ m, 0 ≤ x) → 0 ≤ w.dotp (alphas ip ir) m) :
    ∃ N, ∀ fuel, N ≤ fuel → (run w fuel doc).2 ≠ none := by
  rcases run_cases hs with ⟨r, h1, h2⟩ | ⟨es, ns, g, rs, rc, h1, hns, h2, h3, h4, h5, h6, h7⟩
  · exact ⟨0, fun fuel _ => by simp [h1]⟩
  · obtain ⟨N, hN⟩ := answers_terminate (w := w) (rc := rc) (Build.built_wellFormed h2) (fun p hp => by
        obtain ⟨M, q, hM⟩ := plain_ends h2 (no_shortcuts hn h1) p hp
        exact ⟨M, _, hM⟩) hk (fun m hm => by rw [h5]; exact hw m (Build.built_nonneg h2 m hm))
      (.inl ⟨h4.trans halg, rfl⟩) rs
    exact ⟨N, fun fuel hf => by rw [h7]; exact hN fuel hf⟩

/-- The tool tells the truth about the lines of the map: `No path` is logged iff no lines lead from source to
destination, otherwise the logged costs are sums of lines that do. Pairs are reported in their order, and all of them if
the tool finishes. Costs are logged, and not a list of paths. Holds for every order of the queue and for rounded
arithmetics. -/
theorem C90_truthful (hs : Setting w wr doc ip ir nodes edges pairs) (hn : NoShortcuts ip)
    (halg : ir.algo = .dijkstra) (hk : AddOk K)
    (hw : ∀ m : List ℚ, (∀ x ∈ m, 0 ≤ x) → 0 ≤ w.dotp (alphas ip ir) m) (hal : ∀ x ∈ alphas ip ir, 0 ≤ x) :
    ReportsOn (fun a b rep => Truthful w.codec ip edges a b rep ∧ ∀ src dst ps, rep ≠ .found src dst ps) pairs
      (run w fuel doc) := by
  refine best_reports hs (.inl ⟨halg, rfl⟩) ?_
  intro es ns g s a b rep s' x y h1 _ h2 hu hx hy hb
  have hsc := no_shortcuts hn h1
  have hwf := Build.built_wellFormed h2
  have hw' : ∀ m ∈ g.metrics, 0 ≤ w.dotp (alphas ip ir) m := fun m hm => hw m (Build.built_nonneg h2 m hm)
  obtain ⟨hx1, hx2⟩ := intoNode_ok hwf hx
  obtain ⟨hy1, hy2⟩ := intoNode_ok hwf hy
  rcases best_ok hb with ⟨h3, rfl⟩ | ⟨p, q, cs, h3, h4, h5, rfl⟩
  · refine ⟨⟨hx2, hy2, ?_⟩, by simp⟩
    rintro ⟨ms, hms⟩
    obtain ⟨rs, h6, h7, -⟩ := chain_of_connects h1 hms
    exact ((Build.C69_none_iff h2 hk hw' hal hx1 hy1 hu h3).mp rfl) ⟨rs, h6, h7⟩
  · obtain ⟨-, -, rs, h6, h7, -, h8⟩ := Build.C69_chain h2 hk hw' hx1 hy1 hu h3
    obtain ⟨h9, -⟩ := Dij.C13_route
      (q := { src := a.idx, dst := b.idx, graph := g, algo := .dijkstra, alphas := alphas ip ir })
      hwf hk hw' (Build.nodeId_lt hx1) (Build.nodeId_lt hy1) hu h3
    obtain ⟨-, cs', h10, h11⟩ := flatten_plain hsc h2 (Par.isRoute_lt h9) h4
    rw [h5, Option.some.injEq] at h10
    subst h10
    exact ⟨⟨hx2, hy2, rs.map (·.metrics), connects_of_chain h1 h6 h7, sums_of h1 h2 h8 h6 h11⟩, by simp⟩

theorem explore_ok {g : Graph} {algo : Dij.Algo} {al : List ℚ} {scales : List (Option ℚ)} {s s' : St K}
    {a b : Graph.Node} {rep : Report} (h : explore w fuel g algo al scales s a b = some (.ok (rep, s'))) :
    ∃ ps, Exp.fullyExplorate w.heap w.dotp w.backend fuel s { src := a.idx, dst := b.idx, graph := g, algo, alphas := al }
      scales = some (.ok (s', ps)) ∧ ((ps = [] ∧ rep = .nothing a b) ∨ (ps ≠ [] ∧ rep = .found a b ps)) := by
  unfold explore at h
  split at h
  · cases h
  · rename_i s1 ps hc
    cases h
    refine ⟨ps, hc, ?_⟩
    cases ps <;> simp
  · cases h

theorem explore_keeps {g : Graph} {algo : Dij.Algo} {al : List ℚ} {scales : List (Option ℚ)} (s : St K)
    (a b : Graph.Node) (rep : Report) (s' : St K) (hu : Used w.heap w.dotp g.nodeCount s)
    (h : explore w fuel g algo al scales s a b = some (.ok (rep, s'))) : Used w.heap w.dotp g.nodeCount s' := by
  obtain ⟨ps, h1, -⟩ := explore_ok h
  obtain ⟨_, _, _, _, _, _, _, _, _, _, _, h2, _⟩ := Exp.explorate_ok
    (Exp.used_step (q := { src := a.idx, dst := b.idx, graph := g, algo, alphas := al }) le_rfl) hu h1
  exact h2

/-- The explorator's routes are lines from source to destination. Without limits and with a considered metric, `No path`
is logged iff there are none. With limits, `No path` may be logged although there are some. -/
theorem C90_explored (hs : Setting w wr doc ip ir nodes edges pairs) (halg : ir.algo = .explorator false) (hk : AddOk K)
    (hw : ∀ al m : List ℚ, (∀ x ∈ al, 0 ≤ x) → (∀ x ∈ m, 0 ≤ x) → 0 ≤ w.dotp al m) :
    ReportsOn (fun a b rep => ((∀ src dst, rep ≠ .nothing src dst) → Truthful w.codec ip edges a b rep) ∧
      ((∃ x ∈ alphas ip ir, 0 < x) → (∀ t ∈ tolerances ip ir, t = none) → Truthful w.codec ip edges a b rep))
      pairs (run w fuel doc) := by
  rcases run_cases hs with ⟨r, h1, h2⟩ | ⟨es, ns, g, rs, rc, h1, hns, h2, h3, h4, h5, h6, h7⟩
  · rw [h1]
    exact reportsOn_nothing (by simpa using h2)
  rw [h7, answers, h4, halg]
  dsimp only
  rw [h5, h6]
  refine reportsOn_of h3 explore_keeps ?_
  intro s a b rep s' x y hu hx hy hb
  have hwf := Build.built_wellFormed h2
  have hw' : ∀ al, (∀ x ∈ al, 0 ≤ x) → ∀ m ∈ g.metrics, 0 ≤ w.dotp al m :=
    fun al hal m hm => hw al m hal (Build.built_nonneg h2 m hm)
  obtain ⟨hd, hdim⟩ := dimOk_of h1 h2
  obtain ⟨hx1, hx2⟩ := intoNode_ok hwf hx
  obtain ⟨hy1, hy2⟩ := intoNode_ok hwf hy
  obtain ⟨ps, h8, ⟨rfl, rfl⟩ | ⟨h9, rfl⟩⟩ := explore_ok hb
  · refine ⟨fun h => absurd rfl (h a b), fun ⟨v, hv, hv0⟩ ht => ⟨hx2, hy2, ?_⟩⟩
    rintro ⟨ms, hms⟩
    obtain ⟨rs, h10, h11, -⟩ := chain_of_connects h1 hms
    obtain ⟨l, -, hl, -⟩ := Build.route_of_chain (al := []) h2 h10 h11 hx1 hy1
    obtain ⟨i, hi⟩ := List.getElem?_of_mem hv
    have hi' : i < g.dim := by
      rw [hdim, ← alphas_length (ir := ir)]
      exact Build.lt_length_of_getElem? hi
    exact ((Exp.C46_complete (q := { src := a.idx, dst := b.idx, graph := g, algo := .dijkstra, alphas := alphas ip ir })
      hwf hk hd hw' rfl (Build.nodeId_lt hx1) (Build.nodeId_lt hy1) hu ht hi' hi hv0 h8).mp rfl) ⟨l, hl⟩
  · have key : Truthful w.codec ip edges x y (.found a b ps) := by
      refine ⟨hx2, hy2, h9, fun p hp => ?_⟩
      obtain ⟨h10, -, -, -, -, cs, h11, h12⟩ := Exp.C46_route
        (q := { src := a.idx, dst := b.idx, graph := g, algo := .dijkstra, alphas := alphas ip ir })
        hwf hk hd hw' (Build.nodeId_lt hx1) (Build.nodeId_lt hy1) hu h8 hp
      obtain ⟨rs, h13, h14, -, h15⟩ := Build.chain_of_route (al := []) h2 h10 hx1 hy1
      exact ⟨rs.map (·.metrics), cs, h11, connects_of_chain h1 h13 h14, sums_of h1 h2 h15 h13 h12⟩
    exact ⟨fun _ => key, fun _ _ => key⟩

end

section
variable {w : World ℚ} {fuel : Nat} {wr : Writer} {doc : Yaml} {ip : ParsingIn} {ir : RoutingIn}
  {nodes edges pairs : List Text}

/-- A pattern for bounds of the reported costs. -/
theorem cheapest_reports {slack : Nat → ℚ} (hs : Setting w wr doc ip ir nodes edges pairs) (hn : NoShortcuts ip)
    (halg : ir.algo = .dijkstra) (hdot : w.dotp = dot)
    (h : ∀ es ns g n s a b p s' x y, List.Forall₂ (fun line pe => Fmi.readEdge w.codec ip.edges line = .ok pe) edges es →
      build (Fmi.metricIds ip.edges).length es ns = .ok g → g.nodeId a = .ok x → g.nodeId b = .ok y →
      Used w.heap dot n s →
      computeBestPath w.heap dot fuel s ⟨a, b, g, .dijkstra, alphas ip ir⟩ = some (.ok (s', some p)) →
      ∀ rs : List ProtoEdge, (∀ pe ∈ rs, pe ∈ es) → Chain x rs y →
        Dij.routeCost g (alphas ip ir) p.edges ≤ chainCost (alphas ip ir) rs + slack rs.length) :
    ReportsOn (Cheapest w.codec ip (alphas ip ir) edges slack) pairs (run w fuel doc) := by
  refine best_reports hs (.inl ⟨halg, rfl⟩) ?_
  intro es ns g s a b rep s' x y h1 _ h2 hu hx hy hb
  have hsc := no_shortcuts hn h1
  have hwf := Build.built_wellFormed h2
  obtain ⟨hx1, hx2⟩ := intoNode_ok hwf hx
  obtain ⟨hy1, hy2⟩ := intoNode_ok hwf hy
  rw [hdot] at hu
  rcases best_ok hb with ⟨h3, rfl⟩ | ⟨p, q, cs, h3, h4, h5, rfl⟩
  · trivial
  · intro ms hms
    rw [hdot] at h3
    have hal := (Dij.computed_valid h3).2
    have hw' : ∀ m ∈ g.metrics, 0 ≤ dot (alphas ip ir) m := fun m hm =>
      Dij.dot_nonneg hal (Build.built_nonneg h2 m hm)
    obtain ⟨rs, h6, h7, h8⟩ := chain_of_connects h1 hms
    have h9 := h es ns g _ s a.idx b.idx p s' x y h1 h2 hx1 hy1 hu h3 rs h6 h7
    obtain ⟨h10, -⟩ := Dij.C13_route
      (q := { src := a.idx, dst := b.idx, graph := g, algo := .dijkstra, alphas := alphas ip ir })
      hwf Search.addOk_rat hw' (Build.nodeId_lt hx1) (Build.nodeId_lt hy1) hu h3
    have hlt := Par.isRoute_lt h10
    obtain ⟨-, cs', h11, h12⟩ := flatten_plain hsc h2 hlt h4
    rw [h5, Option.some.injEq] at h11
    subst h11
    rw [Exp.routeCost_weighs (dimOk_of h1 h2).1 (fun e he => by rw [hwf.metrics_len]; exact hlt e he) h12,
      chainCost_eq, h8] at h9
    have hlen : rs.length = ms.length := by rw [← h8, List.length_map]
    rw [hlen] at h9
    exact h9

/-- With the code's queue, no lines from source to destination are much cheaper than the logged costs.
Partial: there is some slack; the first summand is the tolerance with which duplicates are removed, the second one comes
from comparing costs approximately. Without, it is false: `C69_false_duplicates`, `C14_false_near_ties`. -/
theorem C90_near_partial {deg : Nat} (hs : Setting w wr doc ip ir nodes edges pairs) (hn : NoShortcuts ip)
    (halg : ir.algo = .dijkstra) (hdot : w.dotp = dot) (hheap : w.heap = codeHeap) (hdeg : Degree w.codec ip.edges edges deg) :
    ReportsOn (Cheapest w.codec ip (alphas ip ir) edges fun n =>
      n * ((alphas ip ir).sum / 250000) + 2 * ((2 + fuel * (deg + 2)) * (3 / 2000000))) pairs (run w fuel doc) := by
  refine cheapest_reports hs hn halg hdot ?_
  intro es ns g n s a b p s' x y h1 h2 hx hy hu hc rs hrs hr
  rw [hheap] at hu hc
  have := Build.C69_near_code_partial h2 (fun pe hpe => by rw [metrics_length h1 hpe, alphas_length])
    (maxDegree_of h1 h2 hdeg) hx hy hu hc hrs hr
  rw [← add_assoc]
  exact this

/-- No lines from source to destination are cheaper than the logged costs, if lines between the same nodes are distinct
and if weighted costs of lines are multiples of a step that the code's comparison can tell apart.
Partial: for other costs it is false, see `C14_false_near_ties` and `C69_false_duplicates`. -/
theorem C90_cheapest_partial {u : ℚ} (hs : Setting w wr doc ip ir nodes edges pairs) (hn : NoShortcuts ip)
    (halg : ir.algo = .dijkstra) (hdot : w.dotp = dot) (hheap : w.heap = codeHeap) (hdis : Distinct w.codec ip.edges edges)
    (hgrid : ∀ line ∈ edges, ∀ a b m, Leads w.codec ip.edges line a b m →
      ∃ i : ℤ, weighed (alphas ip ir) (m.map lifted) = i * u) (hstep : 3 / 2000000 ≤ u) :
    ReportsOn (Cheapest w.codec ip (alphas ip ir) edges fun _ => 0) pairs (run w fuel doc) := by
  refine cheapest_reports hs hn halg hdot ?_
  intro es ns g n s a b p s' x y h1 h2 hx hy hu hc rs hrs hr
  rw [hheap] at hu hc
  rw [add_zero]
  refine Build.C69_cheapest_grid_partial h2 (noNearDuplicates_of h1 hdis) (fun pe hpe => ?_) hstep hx hy hu hc hrs hr
  obtain ⟨line, h3, h4⟩ := Exp.forall₂_mem_right h1 hpe
  exact hgrid line h3 _ _ _ (readEdge_leads h4).1

end

/-! ## Sample -/

/-- Columns of a small map. -/
def exIp : ParsingIn where
  mapFile := "isle.fmi".toList
  vehicles := none
  nodes := [.info .nodeId "node".toList, .metric .latitude "lat".toList, .metric .longitude "lon".toList]
  normalized := none
  edges :=
    [.info .srcId "src".toList, .info .dstId "dst".toList, .ignored, .metric .kilometers "km".toList,
      .metric .f64 "hills".toList]
  generating := none

/-- Only kilometers matter. -/
def exIr : RoutingIn where
  pairsFile := some "isle.route-pairs".toList
  algo := .dijkstra
  metrics := [{ id := "km".toList, alpha := none, tolerance := none }]

def exMapNodes : List Text :=
  ["10 0/1 0/1".toList, "20 0/1 1/1".toList, "30 1/1 1/1".toList, "40 1/1 0/1".toList]

def exMapEdges : List Text :=
  ["10 20 x 2/1 1/1".toList, "20 40 x 2/1 1/1".toList, "10 30 x 1/1 5/1".toList, "30 40 x 4/1 0/1".toList,
    "40 30 x 1/1 1/1".toList]

def exMap : List Text := ["# a map".toList, [], "4".toList, "5".toList] ++ (exMapNodes ++ exMapEdges)

def exPairs : List Text := ["10 40 1".toList, "40 10 1".toList, "30 30 2".toList]

def exWorld : World ℚ where
  heap := codeHeap
  dotp := dot
  backend := Exp.listBackend
  numbers := Yml.exNumbers
  codec := Fmi.exCodec
  env := Gen.exEnv
  maxDim := 4
  text f :=
    if f = "isle.fmi".toList then some exMap
    else if f = "isle.route-pairs".toList then some (["# pairs".toList, "3".toList] ++ exPairs) else none
  pbf _ := none

def exDoc (ir : RoutingIn) : Yaml :=
  Yml.sectionOf [("parsing", exIp.doc Yml.exWriter), ("routing", some (ir.doc Yml.exWriter))]

theorem ex_plain : NoShortcuts exIp := by
  intro id h
  have := List.all_eq_true.mp (show exIp.edges.all (fun x => match x with
    | .info .shortcutIdx0 _ => false
    | _ => true) = true by decide +kernel) _ h
  cases this

theorem ex_setting (ir : RoutingIn) (hk : ∀ m ∈ ir.metrics, m.id ∈ ["km".toList, "hills".toList])
    (hp : ir.pairsFile = some "isle.route-pairs".toList) :
    Setting exWorld Yml.exWriter (exDoc ir) exIp ir exMapNodes exMapEdges exPairs where
  writer := Yml.exFits
  parsing := by
    obtain ⟨y, hy⟩ : ∃ y, exIp.doc Yml.exWriter = some y := ⟨_, by rfl⟩
    refine ⟨y, hy, ?_⟩
    unfold exDoc
    rw [hy, Yml.sectionOf_eq, Yml.valuesAt_one, Yml.values_given]
    simp
  routing := by
    unfold exDoc
    rw [Yml.sectionOf_eq, Yml.valuesAt_one, Yml.values_given]
    simp
  unique := by unfold UniqueIds; decide +kernel
  known := hk
  generating := rfl
  normalized := by decide
  fmi := ⟨"fmi".toList,
    ⟨by decide +kernel, by decide +kernel, "isle".toList, by decide +kernel, by decide +kernel⟩, by decide +kernel⟩
  map := by
    refine ⟨exMap, rfl, [], [], [], ["4".toList, "5".toList], by decide +kernel, by simp, ?_, ?_⟩
    · exact .cons ⟨"4".toList, by decide +kernel, by decide +kernel⟩
        (.cons ⟨"5".toList, by decide +kernel, by decide +kernel⟩ .nil)
    · decide +kernel
  pairs := by
    refine ⟨_, _, hp, rfl, [], [], [], ["3".toList], by decide +kernel, by simp, ?_, by decide +kernel⟩
    exact .cons ⟨"3".toList, by decide +kernel, by decide +kernel⟩ .nil

def ex10 : Graph.Node := { idx := 0, id := 10, coord := ⟨0, 0⟩, level := 0 }
def ex30 : Graph.Node := { idx := 2, id := 30, coord := ⟨1, 1⟩, level := 0 }
def ex40 : Graph.Node := { idx := 3, id := 40, coord := ⟨1, 0⟩, level := 0 }

/-- What the tool logs. -/
theorem ex_run : run exWorld 60 (exDoc exIr) =
    ([.costs ex10 ex40 [4, 2], .nothing ex40 ex10, .costs ex30 ex30 [0, 0]], some (.ok ⟨⟩)) := by decide +kernel

theorem ex_alphas : alphas exIp exIr = [1, 0] := by decide +kernel

/-- The records of the map's lines. -/
def exRecords : List ProtoEdge :=
  [(10, 20, [2, 1]), (20, 40, [2, 1]), (10, 30, [1, 5]), (30, 40, [4, 0]), (40, 30, [1, 1])].map fun r =>
    { id := none, srcId := r.1, dstId := r.2.1, metrics := r.2.2, sc := none }

theorem ex_read : List.Forall₂ (fun line pe => Fmi.readEdge Fmi.exCodec exIp.edges line = .ok pe) exMapEdges exRecords :=
  .cons (by decide +kernel) (.cons (by decide +kernel) (.cons (by decide +kernel) (.cons (by decide +kernel)
    (.cons (by decide +kernel) .nil))))

/-- Whatever is read is one of the records. -/
theorem ex_leads {line : Text} (hl : line ∈ exMapEdges) {a b : Int} {m : List ℚ}
    (h : Leads Fmi.exCodec exIp.edges line a b m) : ∃ pe ∈ exRecords, pe.srcId = a ∧ pe.dstId = b ∧ pe.metrics = m := by
  obtain ⟨j, hj⟩ := List.getElem?_of_mem hl
  obtain ⟨pe, h1, h2⟩ := (Build.forall₂_getElem? ex_read).2.1 j line hj
  exact ⟨pe, List.mem_of_getElem? h1, readEdge_unique h2 h⟩

theorem ex_distinct : Distinct Fmi.exCodec exIp.edges exMapEdges := by
  intro line hl line' hl' a b m m' h h'
  obtain ⟨pe, h1, rfl, rfl, rfl⟩ := ex_leads hl h
  obtain ⟨pe', h2, h3, h4, rfl⟩ := ex_leads hl' h'
  left
  have key : ∀ x ∈ exRecords, ∀ y ∈ exRecords, y.srcId = x.srcId → y.dstId = x.dstId → x.metrics = y.metrics := by
    decide +kernel
  exact key pe h1 pe' h2 h3 h4

theorem ex_degree : Degree Fmi.exCodec exIp.edges exMapEdges 5 := by
  intro a js hjs h
  refine Path.length_le_of_nodup_lt hjs fun j hj => ?_
  rcases h with h | h
  · obtain ⟨line, _, _, h1, _⟩ := h j hj
    exact Build.lt_length_of_getElem? h1
  · obtain ⟨line, _, _, h1, _⟩ := h j hj
    exact Build.lt_length_of_getElem? h1

/-- The hypotheses of C90 hold. -/
example : ReportsOn (fun a b rep => Truthful Fmi.exCodec exIp exMapEdges a b rep ∧ ∀ src dst ps, rep ≠ .found src dst ps)
      exPairs (run exWorld 60 (exDoc exIr)) ∧
    ReportsOn (Cheapest Fmi.exCodec exIp [1, 0] exMapEdges fun _ => 0) exPairs (run exWorld 60 (exDoc exIr)) := by
  have hs := ex_setting exIr (by decide +kernel) rfl
  constructor
  · refine C90_truthful hs ex_plain rfl Search.addOk_rat (fun m hm => ?_) ?_
    · rw [ex_alphas]
      exact Dij.dot_nonneg (by decide +kernel) hm
    · rw [ex_alphas]
      decide +kernel
  · have := C90_cheapest_partial (u := 1) (fuel := 60) hs ex_plain rfl rfl rfl ex_distinct (by
      intro line hl a b m h
      obtain ⟨pe, h1, -, -, rfl⟩ := ex_leads hl h
      have key : ∀ x ∈ exRecords, weighed (alphas exIp exIr) (x.metrics.map lifted) =
          ((weighed (alphas exIp exIr) (x.metrics.map lifted)).num : ℚ) * 1 := by decide +kernel
      exact ⟨_, key pe h1⟩) (by norm_num)
    rw [ex_alphas] at this
    exact this

example := C90_near_partial (fuel := 60) (ex_setting exIr (by decide +kernel) rfl) ex_plain rfl rfl rfl ex_degree

/-- Two lines that lead from 10 to 40. -/
theorem ex_connects : Connects Fmi.exCodec exIp.edges exMapEdges 10 [[2, 1], [2, 1]] 40 := by
  refine connects_of_chain ex_read (rs := exRecords.take 2) ?_ ?_
  · exact fun pe hpe => List.mem_of_mem_take hpe
  · exact ⟨rfl, rfl, rfl⟩

/-- The explorator with both metrics. -/
def exBoth : RoutingIn :=
  { exIr with
    algo := .explorator false
    metrics := ["km", "hills"].map fun id => { id := id.toList, alpha := none, tolerance := none } }

example : run exWorld 60 (exDoc exBoth) =
    ([.found ex10 ex40 [{ srcIdx := 0, srcId := 10, dstIdx := 3, dstId := 40, edges := [0, 2], costs := some [4, 2] }],
      .nothing ex40 ex10,
      .found ex30 ex30 [{ srcIdx := 2, srcId := 30, dstIdx := 2, dstId := 30, edges := [], costs := some [0, 0] }]],
      some (.ok ⟨⟩)) ∧
    (∃ x ∈ alphas exIp exBoth, 0 < x) ∧ ∀ t ∈ tolerances exIp exBoth, t = none := by decide +kernel

example := C90_explored (fuel := 60) (ex_setting exBoth (by decide +kernel) rfl) rfl Search.addOk_rat
  (fun _ _ hal hm => Dij.dot_nonneg hal hm)

/-- C90 is false with negative alphas: `No path` is logged although there is a route. -/
theorem C90_false_negative : ∃ ir : RoutingIn, ir.algo = .dijkstra ∧
    Setting exWorld Yml.exWriter (exDoc ir) exIp ir exMapNodes exMapEdges exPairs ∧
    (run exWorld 60 (exDoc ir)).1.head? = some (.nothing ex10 ex40) ∧
    Connects Fmi.exCodec exIp.edges exMapEdges 10 [[2, 1], [2, 1]] 40 :=
  ⟨{ exIr with metrics := [{ id := "km".toList, alpha := some (-1), tolerance := none }] }, rfl,
    ex_setting _ (by decide +kernel) rfl, by decide +kernel, ex_connects⟩

/-- With the explorator, it is false as soon as a metric is limited to less than its optimum. -/
theorem C90_false_limits : ∃ ir : RoutingIn, ir.algo = .explorator false ∧ (∀ x ∈ alphas exIp ir, 0 ≤ x) ∧
    Setting exWorld Yml.exWriter (exDoc ir) exIp ir exMapNodes exMapEdges exPairs ∧
    (run exWorld 60 (exDoc ir)).1.head? = some (.nothing ex10 ex40) ∧
    Connects Fmi.exCodec exIp.edges exMapEdges 10 [[2, 1], [2, 1]] 40 :=
  ⟨{ exIr with
      algo := .explorator false, metrics := [{ id := "km".toList, alpha := none, tolerance := some (some (1 / 2)) }] },
    rfl, by decide +kernel, ex_setting _ (by decide +kernel) rfl, by decide +kernel, ex_connects⟩

/-! ## Sample for C89 -/

def exNodes : List ProtoNode :=
  [(10, 0, 0), (20, 0, 1), (30, 1, 1), (40, 1, 0)].map fun r => { id := r.1, coord := ⟨r.2.1, r.2.2⟩, level := none }

/-- The graph of the sample's map, without levels. -/
def exGraph : Graph := Dij.okGraph (build 2 exRecords exNodes)

def exRc : Yml.RoutingCfg where
  pairsFile := none
  algo := .dijkstra
  routing := { alphas := [1, 0], tolerances := [none, none] }

/-- The hypotheses of `C89_finishes_partial` hold. The last pair of the second task is unknown; the former ones have been
reported. -/
example : build 2 exRecords exNodes = .ok exGraph ∧ (∀ pe ∈ exRecords, pe.sc = none) ∧ AllCovered exGraph ∧
    exGraph.nodeCount = 4 ∧ (∀ m ∈ exGraph.metrics, 0 ≤ exWorld.dotp [1, 0] m) ∧
    answers exWorld 60 exGraph exRc [⟨10, 40, 1⟩, ⟨40, 10, 1⟩] =
      ([.costs ex10 ex40 [4, 2], .nothing ex40 ex10], some (.ok ⟨⟩)) ∧
    answers exWorld 60 exGraph exRc [⟨10, 40, 1⟩, ⟨40, 10, 1⟩, ⟨10, 50, 1⟩] =
      ([.costs ex10 ex40 [4, 2], .nothing ex40 ex10], some .panic) ∧ ¬ Endpoint exRecords 50 :=
  ⟨by decide +kernel, by decide +kernel, Dij.allCovered_of (by decide +kernel), by decide +kernel, by decide +kernel,
    by decide +kernel, by decide +kernel, by unfold Endpoint; decide +kernel⟩

/-- A task need not finish although all nodes are known: no edge leads from the last node. -/
theorem C89_false_uncovered : ∃ (es : List ProtoEdge) (g : Graph), build 2 es exNodes = .ok g ∧
    Endpoint es 10 ∧ Endpoint es 40 ∧ answers exWorld 60 g exRc [⟨40, 10, 1⟩] = ([], some .panic) :=
  ⟨exRecords.take 4, Dij.okGraph (build 2 (exRecords.take 4) exNodes), by decide +kernel,
    by unfold Endpoint; decide +kernel, by unfold Endpoint; decide +kernel, by decide +kernel⟩

/-- The same with exactly two nodes. -/
theorem C89_false_two_nodes : ∃ (es : List ProtoEdge) (g : Graph), build 2 es exNodes = .ok g ∧ AllCovered g ∧
    Endpoint es 30 ∧ Endpoint es 40 ∧ answers exWorld 60 g exRc [⟨30, 40, 1⟩] = ([], some .panic) :=
  ⟨exRecords.drop 3, Dij.okGraph (build 2 (exRecords.drop 3) exNodes), by decide +kernel,
    Dij.allCovered_of (by decide +kernel), by unfold Endpoint; decide +kernel, by unfold Endpoint; decide +kernel,
    by decide +kernel⟩

end Verif.Session
