import Verif.PairsSpec
import Verif.RoutesProps
import Verif.ExportProps

/-!
# Helpers for written route-pairs
-/

namespace Verif.Session

open Text Gen Cfg
open Dij (Heap St computeBestPath Used)
open Search (AddOk)
open Yml (Yaml)

section
variable {K : Type} [LinearOrder K] [Zero K] [Add K] {w : World K} {g : Graph} {rc : Yml.RoutingCfg}

omit [LinearOrder K] [Zero K] [Add K] in
/-- Every loaded graph is well-formed. -/
theorem loadMap_wellFormed {mapFile : Text} {cfg : Cfg.Parsing} {net : Net} (h : loadMap w mapFile cfg = .ok net) :
    net.graph.WellFormed := by
  unfold loadMap at h
  split at h
  · cases h
  · split at h
    · cases h
    · split at h
      · cases h
      · have h := mapErr_ok h
        simp only [Fmi.load, Res.bind_eq_ok] at h
        obtain ⟨⟨es, ns⟩, -, g, h2, h3⟩ := h
        exact C54_wellformed (mapErr_ok h3) (Build.built_wellFormed (mapErr_ok h2))
  · split at h
    · cases h
    · split at h
      · cases h
      · split at h
        · cases h
        · rename_i r hr
          simp only [Res.bind_eq_ok] at h
          obtain ⟨g, h2, h3⟩ := h
          have h2 := mapErr_ok h2
          subst h2
          exact C54_wellformed (mapErr_ok h3) (Build.built_wellFormed (Osm.parse_build hr).2)

theorem intoNode_of (hwf : g.WellFormed) {i : Nat} {id : Int} (h : g.nodeIds[i]? = some id) :
    ∃ n, intoNode g id = .ok n ∧ n.idx = i ∧ n.id = id := by
  have hi : i < g.nodeCount := (List.getElem?_eq_some_iff.mp h).1
  obtain ⟨n, hn⟩ := Fmi.createNode_total hwf hi
  obtain ⟨h1, h2, -, -⟩ := Fmi.createNode_ok hn
  refine ⟨n, ?_, h1, ?_⟩
  · unfold intoNode Graph.createNodeFrom
    rw [(idxFrom_eq_ok_iff hwf.ids_sorted).mpr h]
    simp only [hn, Res.ok_bind, Res.pure_eq]
  · rw [Graph.nodeId, Res.ofIdx_eq_ok, h] at h2
    exact (Option.some.inj h2).symm

/-- On graphs with two nodes, nothing is found. -/
theorem loop_two {e : Routes.Env K} (h2 : e.graph.nodeCount = 2) : ∀ (n : Nat) (a b : Routes.W K), a.dij = St.new →
    e.loop n a = some (.ok b) → b.found = a.found
  | 0, a, b, _, h => by
    unfold Routes.Env.loop at h
    split at h
    · cases h
    · cases h
      rfl
  | n + 1, a, b, ha, h => by
    unfold Routes.Env.loop at h
    split at h
    · have hat : ∀ c, e.attempt a = some (.ok c) → c.found = a.found ∧ c.dij = St.new := by
        intro c hc
        unfold Routes.Env.attempt at hc
        dsimp only at hc
        split at hc
        · rw [ha] at hc
          rcases compute_two (h := e.heap) (dotp := e.dotp) (fuel := e.fuel) (q := e.query (e.pick a.attempts)) h2 with
            h1 | h1
          · rw [h1] at hc
            cases hc
            exact ⟨rfl, rfl⟩
          · rw [h1] at hc
            cases hc
        · cases hc
          exact ⟨rfl, ha⟩
      generalize hx : e.attempt a = x at h hat
      match x, h, hat with
      | some (.ok c), h, hat =>
        obtain ⟨h3, h4⟩ := hat c rfl
        rw [loop_two h2 n c b h4 h, h3]
    · cases h
      rfl

theorem pairs_two {e : Routes.Env K} (h2 : e.graph.nodeCount = 2) {fuel : Nat} {l : List (Int × Int)}
    (h : e.pairs fuel = some (.ok l)) : l = [] := by
  unfold Routes.Env.pairs at h
  rw [if_neg (by omega)] at h
  obtain ⟨r, h3, h4⟩ := Option.map_eq_some_iff.mp h
  simp only [Res.bind_eq_ok, Res.pure_eq, Res.ok.injEq] at h4
  obtain ⟨b, rfl, rfl⟩ := h4
  rw [loop_two h2 _ _ _ rfl h3]
  rfl

/-- What the writer has found is found again. -/
theorem answers_yes {draws : Nat → Nat → Nat → Nat × Nat} {f : Nat} {o : Yml.RoutePairs} (hwf : g.WellFormed)
    (hsc : ∀ e, e < g.edgeCount → g.scEdgesOf e = .ok none) (hk : AddOk K)
    (hw : ∀ m ∈ g.metrics, 0 ≤ w.dotp rc.routing.alphas m) (h2 : g.nodeCount ≠ 2) {p : Nat × Nat} {x : Int × Int}
    (hx : g.nodeIds[p.1]? = some x.1 ∧ g.nodeIds[p.2]? = some x.2) (hy : Routes.Yes (pairsEnv w draws f g rc o) p) :
    ∃ N, ∀ fuel, N ≤ fuel → ∃ rep, answers w fuel g rc [⟨x.1, x.2, 1⟩] = ([rep], some (.ok ⟨⟩)) ∧ Answered x rep := by
  obtain ⟨s, s', path, hu, hc⟩ := hy
  have hne := (Dij.computed_valid hc).1
  have halg : rc.algo = .dijkstra ∧ writerAlgo rc.algo = .dijkstra ∨
      rc.algo = .chDijkstra ∧ writerAlgo rc.algo = .chDijkstra := by
    cases h : rc.algo with
    | dijkstra => simp [writerAlgo]
    | chDijkstra => simp [writerAlgo]
    | explorator ch => exact absurd (by simp [Routes.Env.query, pairsEnv, h, writerAlgo]) hne
  have hr := Dij.C17_reuse_partial (fuel := f) (q := (pairsEnv w draws f g rc o).query p) hu le_rfl h2
  have hc' : computeBestPath w.heap w.dotp f s ((pairsEnv w draws f g rc o).query p) = some (.ok (s', some path)) := hc
  have hr : Dij.answer (computeBestPath w.heap w.dotp f s ((pairsEnv w draws f g rc o).query p)) =
    Dij.answer (computeBestPath w.heap w.dotp f St.new ((pairsEnv w draws f g rc o).query p)) := hr
  rw [hc'] at hr
  obtain ⟨s'', hn⟩ : ∃ s'', computeBestPath w.heap w.dotp f St.new ((pairsEnv w draws f g rc o).query p) =
      some (.ok (s'', some path)) := by
    generalize computeBestPath w.heap w.dotp f St.new ((pairsEnv w draws f g rc o).query p) = z at hr
    match z, hr with
    | some (.ok (t, some q)), hr =>
      simp only [Dij.answer] at hr
      cases hr
      exact ⟨t, rfl⟩
  have hl1 : p.1 < g.nodeCount := (List.getElem?_eq_some_iff.mp hx.1).1
  have hl2 : p.2 < g.nodeCount := (List.getElem?_eq_some_iff.mp hx.2).1
  have hroute := (Dij.C13_route (q := (pairsEnv w draws f g rc o).query p) hwf hk hw hl1 hl2 hu hc).1
  have hlt := fun e he => Par.isRoute_lt hroute e he
  obtain ⟨q, ⟨M, hM⟩, -⟩ := Par.plain_flattens hwf hlt fun e he => hsc e (hlt e he)
  obtain ⟨cs, hcs⟩ : ∃ cs, q.costs = some cs := by
    have hq : Path.tryFlatten g M path = some (.ok q) := by
      unfold Path.flatten at hM
      rw [Option.map_eq_some_iff] at hM
      obtain ⟨r, h3, h4⟩ := hM
      split at h4
      · cases h4
      · rw [h3, h4]
    obtain ⟨ls, -, -, -, -, -, -, cs, h3, -⟩ := Path.C21_expansion hq
    exact ⟨cs, h3⟩
  obtain ⟨a, ha1, ha2, ha3⟩ := intoNode_of hwf hx.1
  obtain ⟨b, hb1, hb2, hb3⟩ := intoNode_of hwf hx.2
  refine ⟨max f M, fun fuel hf => ⟨.costs a b cs, ?_, a, b, cs, rfl, ha3, hb3⟩⟩
  rw [answers_best halg]
  refine (queries_one _ _ _).mpr ⟨a, b, s'', ha1, hb1, ?_⟩
  unfold best
  obtain ⟨k, hk1⟩ := Nat.exists_eq_add_of_le (le_trans (le_max_left f M) hf)
  obtain ⟨l, hl⟩ := Nat.exists_eq_add_of_le (le_trans (le_max_right f M) hf)
  have e1 := Dij.compute_mono hn k
  have e2 := Path.flatten_mono hM l
  rw [← hk1] at e1
  rw [← hl] at e2
  have e1 : computeBestPath w.heap w.dotp fuel St.new
      { src := a.idx, dst := b.idx, graph := g, algo := writerAlgo rc.algo, alphas := rc.routing.alphas } =
      some (.ok (s'', some path)) := by
    rw [ha2, hb2]
    exact e1
  rw [e1]
  dsimp only
  rw [e2]
  simp [Path.getCosts, hcs]

/-- All pairs are found again. -/
theorem answers_all {R : Int × Int → Report → Prop} : ∀ {l : List (Int × Int)}, (∀ x ∈ l, ∃ N, ∀ fuel, N ≤ fuel →
      ∃ rep, answers w fuel g rc [⟨x.1, x.2, 1⟩] = ([rep], some (.ok ⟨⟩)) ∧ R x rep) →
    ∃ N, ∀ fuel, N ≤ fuel → ∃ reps,
      answers w fuel g rc (l.map fun p => { src := p.1, dst := p.2, count := 1 }) = (reps, some (.ok ⟨⟩)) ∧
      List.Forall₂ R l reps
  | [], _ => ⟨0, fun fuel _ => ⟨[], (C89_independent _ _).mpr .nil, .nil⟩⟩
  | x :: l, h => by
    obtain ⟨N, hN⟩ := h x (by simp)
    obtain ⟨M, hM⟩ := answers_all (l := l) fun y hy => h y (by simp [hy])
    refine ⟨max N M, fun fuel hf => ?_⟩
    obtain ⟨rep, h1, h2⟩ := hN fuel (le_trans (le_max_left N M) hf)
    obtain ⟨reps, h3, h4⟩ := hM fuel (le_trans (le_max_right N M) hf)
    exact ⟨rep :: reps, (C89_independent _ _).mpr (.cons h1 ((C89_independent _ _).mp h3)), .cons h2 h4⟩

/-- More fuel doesn't change what is written. -/
theorem attempt_unique {e : Routes.Env K} {f f' : Nat} {a : Routes.W K} {x y : Dij.R (Routes.W K)}
    (h : ({ e with fuel := f } : Routes.Env K).attempt a = some x)
    (h' : ({ e with fuel := f' } : Routes.Env K).attempt a = some y) : x = y := by
  have hp : ∀ f k, ({ e with fuel := f } : Routes.Env K).pick k = e.pick k := fun _ _ => rfl
  have hq : ∀ f p, ({ e with fuel := f } : Routes.Env K).query p = e.query p := fun _ _ => rfl
  have hs : ∀ f a p, ({ e with fuel := f } : Routes.Env K).success a p = e.success a p := fun _ _ _ => rfl
  unfold Routes.Env.attempt at h h'
  dsimp only at h h'
  simp only [hp, hq, hs] at h h'
  generalize e.pick a.attempts = p at h h'
  by_cases hc : p.1 ≠ p.2 ∧ decide (p ∈ a.processed) = false
  · rw [if_pos hc] at h h'
    generalize hu : computeBestPath e.heap e.dotp f a.dij (e.query p) = u at h
    generalize hv : computeBestPath e.heap e.dotp f' a.dij (e.query p) = v at h'
    match u, v, hu, hv, h, h' with
    | none, _, _, _, h, _ => cases h
    | some _, none, _, _, _, h' => cases h'
    | some u, some v, hu, hv, h, h' =>
      obtain rfl := Dij.compute_unique hu hv
      exact Option.some.inj (h.symm.trans h')
  · rw [if_neg hc] at h h'
    exact Option.some.inj (h.symm.trans h')

@[inherit_doc attempt_unique]
theorem loop_unique {e : Routes.Env K} {f f' : Nat} : ∀ {n n' : Nat} {a : Routes.W K} {x y : Dij.R (Routes.W K)},
    ({ e with fuel := f } : Routes.Env K).loop n a = some x → ({ e with fuel := f' } : Routes.Env K).loop n' a = some y →
      x = y := by
  have hrun : ∀ f (a : Routes.W K), ({ e with fuel := f } : Routes.Env K).running a = e.running a := fun _ _ => rfl
  intro n
  induction n with
  | zero =>
    intro n' a x y h h'
    cases n' with
    | zero =>
      unfold Routes.Env.loop at h h'
      rw [hrun] at h h'
      split at h
      · cases h
      · rename_i hc
        rw [if_neg hc] at h'
        exact Option.some.inj (h.symm.trans h')
    | succ n' =>
      unfold Routes.Env.loop at h h'
      rw [hrun] at h h'
      split at h
      · cases h
      · rename_i hc
        rw [if_neg hc] at h'
        exact Option.some.inj (h.symm.trans h')
  | succ n ih =>
    intro n' a x y h h'
    unfold Routes.Env.loop at h
    rw [hrun] at h
    split at h
    · rename_i hc
      cases n' with
      | zero =>
        unfold Routes.Env.loop at h'
        rw [hrun, if_pos hc] at h'
        cases h'
      | succ n' =>
        unfold Routes.Env.loop at h'
        rw [hrun, if_pos hc] at h'
        generalize hu : Routes.Env.attempt { e with fuel := f } a = u at h
        generalize hv : Routes.Env.attempt { e with fuel := f' } a = v at h'
        match u, v, hu, hv, h, h' with
        | none, _, _, _, h, _ => cases h
        | some _, none, _, _, _, h' => cases h'
        | some u, some v, hu, hv, h, h' =>
          obtain rfl := attempt_unique hu hv
          cases u with
          | ok c => exact ih h h'
          | err c => exact Option.some.inj (h.symm.trans h')
          | panic => exact Option.some.inj (h.symm.trans h')
    · rename_i hc
      cases n' with
      | zero =>
        unfold Routes.Env.loop at h'
        rw [hrun, if_neg hc] at h'
        exact Option.some.inj (h.symm.trans h')
      | succ n' =>
        unfold Routes.Env.loop at h'
        rw [hrun, if_neg hc] at h'
        exact Option.some.inj (h.symm.trans h')

@[inherit_doc attempt_unique]
theorem write_unique {e : Routes.Env K} {f f' n n' seed : Nat} {mapFile : Text} {x y : Dij.R (List Text)}
    (h : ({ e with fuel := f } : Routes.Env K).write n mapFile seed = some x)
    (h' : ({ e with fuel := f' } : Routes.Env K).write n' mapFile seed = some y) : x = y := by
  unfold Routes.Env.write at h h'
  obtain ⟨r, h1, rfl⟩ := Option.map_eq_some_iff.mp h
  obtain ⟨r', h1', rfl⟩ := Option.map_eq_some_iff.mp h'
  suffices r = r' by rw [this]
  unfold Routes.Env.pairs at h1 h1'
  dsimp only at h1 h1'
  split at h1
  · rename_i hc
    rw [if_pos hc] at h1'
    exact Option.some.inj (h1.symm.trans h1')
  · rename_i hc
    rw [if_neg hc] at h1'
    obtain ⟨b, h2, rfl⟩ := Option.map_eq_some_iff.mp h1
    obtain ⟨b', h2', rfl⟩ := Option.map_eq_some_iff.mp h1'
    rw [loop_unique h2 h2']

end

end Verif.Session
