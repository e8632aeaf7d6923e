import Verif.SearchTerm
import Verif.BuildingProps

/-!
# The model of the router follows the search without arrays
-/

namespace Verif.Dij

set_option linter.unusedSectionVars false

open Search Graph Build

/-- Level of a node, 0 for indices without node. -/
def levelD (g : Graph) (u : Nat) : Nat := g.nodeLevels[u]?.getD 0

section
variable {K : Type} [LinearOrder K] [Zero K] [Add K]

/-- An edge of the graph as arc, if it may be used. -/
def arcOf (g : Graph) (wt : List ℚ → K) (isCh : Bool) (d : Dir) (u e : Nat) : Option (Arc K) :=
  match g.dstIdx d e, g.metrics[e]? with
  | .ok v, some m => if isCh && decide (levelD g v < levelD g u) then none else some (e, v, wt m)
  | _, _ => none

/-- Arcs leaving a node. -/
def outArcs (g : Graph) (wt : List ℚ → K) (isCh : Bool) (d : Dir) (u : Nat) : List (Arc K) :=
  match g.startingFrom d u with
  | .ok es => es.filterMap (arcOf g wt isCh d u)
  | _ => []

/-- The setting of a query. -/
def cfg (h : Heap K) (g : Graph) (wt : List ℚ → K) (isCh : Bool) (src dst : Nat) : Cfg K :=
  { h, out := outArcs g wt isCh, isCh, src, dst }

/-- The other end of an edge. -/
def tailD (g : Graph) (d : Dir) (e : Nat) : Nat :=
  match g.dstIdx d.opp e with
  | .ok u => u
  | _ => 0

variable {h : Heap K} {g : Graph} {wt : List ℚ → K} {isCh : Bool} {src dst : Nat}

theorem opp_opp (d : Dir) : d.opp.opp = d := by cases d <;> rfl

theorem edge_lt (hwf : g.WellFormed) {d : Dir} {e v : Nat} (h : g.dstIdx d e = .ok v) :
    e < g.edgeCount := by
  simp only [dstIdx, Res.ofIdx_eq_ok] at h
  have := lt_length_of_getElem? h
  cases d with
  | fwd => exact this
  | bwd => simp only [dsts, hwf.bwd_len] at this; exact this

theorem edge_metrics (hwf : g.WellFormed) {e : Nat} (h : e < g.edgeCount) :
    ∃ m, g.metrics[e]? = some m :=
  ⟨_, List.getElem?_eq_getElem (by rw [hwf.metrics_len]; exact h)⟩

theorem edge_dst (hwf : g.WellFormed) {e : Nat} (h : e < g.edgeCount) (d : Dir) :
    ∃ v, g.dstIdx d e = .ok v := by
  simp only [dstIdx, Res.ofIdx_eq_ok]
  exact ⟨_, List.getElem?_eq_getElem (by cases d <;> simp [dsts, hwf.bwd_len] <;> exact h)⟩

theorem level_ok (hwf : g.WellFormed) {u : Nat} (h : u < g.nodeCount) :
    g.nodeLevel u = .ok (levelD g u) := by
  have : g.nodeLevels[u]? = some _ :=
    List.getElem?_eq_getElem (by rw [hwf.levels_len]; exact h)
  simp [nodeLevel, levelD, this]

theorem mem_outArcs (hwf : g.WellFormed) {d : Dir} {u : Nat} {t : Arc K} :
    t ∈ outArcs g wt isCh d u ↔ g.dstIdx d.opp t.1 = .ok u ∧ g.dstIdx d t.1 = .ok t.2.1 ∧
      (∃ m, g.metrics[t.1]? = some m ∧ t.2.2 = wt m) ∧
      (isCh = true → levelD g u ≤ levelD g t.2.1) := by
  obtain ⟨e, v, w⟩ := t
  simp only
  constructor
  · intro hmem
    unfold outArcs at hmem
    split at hmem
    · rename_i es hes
      obtain ⟨e', he', harc⟩ := List.mem_filterMap.mp hmem
      have hu := ((hwf.start d u es hes).2.1 e').mp he'
      unfold arcOf at harc
      split at harc
      · rename_i v' m hv hm
        split at harc
        · cases harc
        · rename_i hl
          simp only [Option.some.injEq, Prod.mk.injEq] at harc
          obtain ⟨rfl, rfl, rfl⟩ := harc
          refine ⟨hu, hv, ⟨m, hm, rfl⟩, fun hc => ?_⟩
          rw [hc] at hl
          simpa using hl
      · cases harc
    · cases hmem
  · rintro ⟨hu, hv, ⟨m, hm, rfl⟩, hl⟩
    have hcov : g.Covered d u := (hwf.covered_iff d u).mpr (Or.inr ⟨e, u, hu, le_refl _⟩)
    obtain ⟨es, hes⟩ := hcov
    simp only [outArcs, hes]
    refine List.mem_filterMap.mpr ⟨e, ((hwf.start d u es hes).2.1 e).mpr hu, ?_⟩
    simp only [arcOf, hv, hm]
    rw [if_neg]
    intro hcon
    simp only [Bool.and_eq_true, decide_eq_true_eq] at hcon
    have := hl hcon.1
    omega

theorem outOk (hwf : g.WellFormed) (hw : ∀ m ∈ g.metrics, 0 ≤ wt m) :
    OutOk (cfg h g wt isCh src dst) (tailD g) := by
  constructor
  · intro d u t ht
    obtain ⟨_, _, ⟨m, hm, hwm⟩, _⟩ := (mem_outArcs hwf).mp ht
    rw [hwm]
    exact hw m (List.mem_of_getElem? hm)
  · intro d u t ht
    obtain ⟨hu, _⟩ := (mem_outArcs hwf).mp ht
    simp [tailD, hu]

theorem finOk (hwf : g.WellFormed) (hs : src < g.nodeCount) (hd : dst < g.nodeCount) :
    FinOk (cfg h g wt isCh src dst) g.nodeCount := by
  constructor
  · intro d u t ht
    obtain ⟨hu, hv, _⟩ := (mem_outArcs hwf).mp ht
    exact ⟨hwf.ends_lt _ _ _ hu, hwf.ends_lt _ _ _ hv⟩
  · intro d; cases d
    · exact hs
    · exact hd

/-- The arrays of the router show the state of the search. -/
structure Sim (g : Graph) (isCh : Bool) (s : St K) (a : A K) : Prop where
  mode : s.isCh = isCh
  queue : s.queue = a.queue
  flag : s.flag = a.flag
  costs : ∀ d v, v < g.nodeCount → (s.costs d)[v]? = some (a.lab d v)
  preds : ∀ d v, v < g.nodeCount → (s.preds d)[v]? = some (a.pred d v)
  visited : isCh = false → ∀ d v, v < g.nodeCount → (s.visited d)[v]? = some (a.vis d v)

theorem setIdx_ok {α : Type} {l : List α} {i : Nat} {x y : α} (h : l[i]? = some y) :
    setIdx l i x = .ok (l.set i x) := by
  have := lt_length_of_getElem? h
  simp [setIdx, this]

theorem set_sim {α : Type} {n : Nat} {f : Dir → List α} {a : Dir → Nat → α}
    (hf : ∀ d v, v < n → (f d)[v]? = some (a d v)) {d : Dir} {i : Nat} {x : α} :
    ∀ d' v, v < n → (Function.update f d ((f d).set i x) d')[v]? = some (upd a d i x d' v) := by
  intro d' v hv
  by_cases hd : d' = d
  · subst hd
    rw [Function.update_self, List.getElem?_set]
    by_cases hi : i = v
    · subst hi
      rw [upd_same]
      simp [lt_length_of_getElem? (hf d' i hv)]
    · rw [if_neg hi, upd_other _ _ (fun h => hi h.2.symm)]
      exact hf d' v hv
  · rw [Function.update_of_ne hd, upd_other _ _ (fun h => hd h.1)]
    exact hf d' v hv

theorem relax_sim (hwf : g.WellFormed) {cur : CN K} (hcur : cur.idx < g.nodeCount) {isNone : Bool}
    {es : List Nat} (hes : ∀ e ∈ es, e < g.edgeCount)
    (hpw : es.Pairwise (fun a b => ∀ u v lu lv, g.dstIdx cur.dir a = .ok u →
      g.dstIdx cur.dir b = .ok v → g.nodeLevel u = .ok lu → g.nodeLevel v = .ok lv → lv ≤ lu))
    {s : St K} {a : A K} (hs : Sim g isCh s a) :
    ∃ s', relax h g wt isNone cur es s = .ok s' ∧
      Sim g isCh s' (relaxAll (cfg h g wt isCh src dst) isNone cur
        (es.filterMap (arcOf g wt isCh cur.dir cur.idx)) a) := by
  induction es generalizing s a with
  | nil => exact ⟨s, rfl, hs⟩
  | cons e es ih =>
    rw [List.pairwise_cons] at hpw
    have he := hes e List.mem_cons_self
    obtain ⟨v, hv⟩ := edge_dst hwf he cur.dir
    obtain ⟨m, hm⟩ := edge_metrics hwf he
    have hvn := hwf.ends_lt _ _ _ hv
    have hes' : ∀ e ∈ es, e < g.edgeCount := fun e h => hes e (List.mem_cons_of_mem _ h)
    have hlower : isLower g s.isCh cur.idx v =
        .ok (isCh && decide (levelD g v < levelD g cur.idx)) := by
      unfold isLower
      rw [hs.mode, level_ok hwf hcur, level_ok hwf hvn]
      cases isCh <;> simp [acc]
    unfold relax
    rw [hv]
    simp only [acc, Res.ok_bind]
    rw [hlower]
    simp only [Res.ok_bind]
    by_cases hlow : (isCh && decide (levelD g v < levelD g cur.idx)) = true
    · -- break: all further edges are not allowed either
      rw [if_pos hlow]
      refine ⟨s, rfl, ?_⟩
      have hnil : (e :: es).filterMap (arcOf g wt isCh cur.dir cur.idx) = [] := by
        rw [List.filterMap_eq_nil_iff]
        intro e' he'
        simp only [Bool.and_eq_true, decide_eq_true_eq] at hlow
        rcases List.mem_cons.mp he' with rfl | he'
        · simp [arcOf, hv, hm, hlow.1, hlow.2]
        · obtain ⟨v', hv'⟩ := edge_dst hwf (hes' e' he') cur.dir
          obtain ⟨m', hm'⟩ := edge_metrics hwf (hes' e' he')
          have hvn' := hwf.ends_lt _ _ _ hv'
          have := hpw.1 e' he' v v' _ _ hv hv' (level_ok hwf hvn) (level_ok hwf hvn')
          have h2 : levelD g v' < levelD g cur.idx := by omega
          simp [arcOf, hv', hm', hlow.1, h2]
      rw [hnil]
      exact hs
    · rw [if_neg hlow]
      simp only [hm, Res.ofIdx_some, Res.ok_bind, hs.costs _ _ hvn]
      have harc : arcOf g wt isCh cur.dir cur.idx e = some (e, v, wt m) := by
        simp only [arcOf, hv, hm]
        rw [if_neg hlow]
      rw [List.filterMap_cons, harc]
      simp only
      have hunf : ∀ l, relaxAll (cfg h g wt isCh src dst) isNone cur ((e, v, wt m) :: l) a =
          relaxAll (cfg h g wt isCh src dst) isNone cur l
            (relax1 (cfg h g wt isCh src dst) isNone cur a (e, v, wt m)) := fun l => rfl
      rw [hunf]
      by_cases hlt : ltInf (some (cur.cost + wt m)) (a.lab cur.dir v) = true
      · rw [if_pos hlt, setIdx_ok (hs.preds _ _ hvn), setIdx_ok (hs.costs _ _ hvn)]
        simp only [Res.ok_bind]
        refine ih hes' hpw.2 ?_
        have : relax1 (cfg h g wt isCh src dst) isNone cur a (e, v, wt m) =
          { a with
            lab := upd a.lab cur.dir v (some (cur.cost + wt m))
            pred := upd a.pred cur.dir v (some e)
            queue := if isCh || isNone then
                h.push a.queue { idx := v, cost := cur.cost + wt m, dir := cur.dir }
              else a.queue } := by
          unfold relax1
          simp only
          rw [if_pos hlt]
          rfl
        rw [this]
        exact {
          mode := hs.mode
          queue := by simp only [hs.mode, hs.queue]
          flag := hs.flag
          costs := set_sim hs.costs
          preds := set_sim hs.preds
          visited := hs.visited }
      · rw [if_neg hlt]
        have : relax1 (cfg h g wt isCh src dst) isNone cur a (e, v, wt m) = a := by
          unfold relax1
          simp only
          rw [if_neg hlt]
        rw [this]
        exact ih hes' hpw.2 hs

theorem visit_sim {cur : CN K} (hcur : cur.idx < g.nodeCount) {s : St K} {a : A K}
    (hs : Sim g isCh s a) :
    ∃ s', visit s cur = .ok s' ∧ Sim g isCh s' (visitA (cfg h g wt isCh src dst) a cur) := by
  unfold visit visitA
  rw [hs.mode]
  cases isCh with
  | true => exact ⟨s, rfl, hs⟩
  | false =>
    simp only [cfg, Bool.false_eq_true, if_false]
    rw [setIdx_ok (hs.visited rfl _ _ hcur)]
    exact ⟨_, rfl, {
      mode := rfl
      queue := hs.queue
      flag := hs.flag
      costs := hs.costs
      preds := hs.preds
      visited := fun _ => set_sim (hs.visited rfl) }⟩

theorem total_sim {i : Nat} (hi : i < g.nodeCount) {s : St K} {a : A K} (hs : Sim g isCh s a) :
    totalCost s i = .ok (totalA a i) := by
  simp [totalCost, totalA, hs.costs _ _ hi]

theorem meets_sim {cur : CN K} (hcur : cur.idx < g.nodeCount) {s : St K} {a : A K}
    (hs : Sim g isCh s a) :
    isMeeting s cur = .ok (meetsA (cfg h g wt isCh src dst) a cur) := by
  unfold isMeeting meetsA
  rw [hs.mode]
  cases isCh with
  | true => simp [hs.costs _ _ hcur, cfg]
  | false => simp [hs.visited rfl _ _ hcur, cfg]

theorem expand_sim (hwf : g.WellFormed) {cur : CN K} (hcur : cur.idx < g.nodeCount) {best : Best K}
    {s : St K} {a : A K} (hs : Sim g isCh s a) :
    (∃ s', expand h g wt s best cur = .ok (.go s' best) ∧ Sim g isCh s'
      (relaxAll (cfg h g wt isCh src dst) best.isNone cur (outArcs g wt isCh cur.dir cur.idx) a)) ∨
    (expand h g wt s best cur = .panic ∧ ¬ g.Covered cur.dir cur.idx) := by
  unfold expand
  by_cases hcov : g.Covered cur.dir cur.idx
  · left
    obtain ⟨es, hes⟩ := hcov
    have hst := hwf.start _ _ _ hes
    obtain ⟨s', h1, h2⟩ := relax_sim (h := h) (wt := wt) (src := src) (dst := dst) hwf hcur
      (isNone := best.isNone) (es := es)
      (fun e he => edge_lt hwf ((hst.2.1 e).mp he)) hst.2.2 hs
    refine ⟨s', ?_, ?_⟩
    · simp [hes, acc, h1]
    · simp only [outArcs, hes]
      exact h2
  · right
    refine ⟨?_, hcov⟩
    simp [hwf.not_covered _ _ hcov, acc]

/-- Outcomes of an iteration that show the same. -/
def SimNext (g : Graph) (isCh : Bool) : Next K → NextA K → Prop
  | .stop s best, .stop a best' => Sim g isCh s a ∧ best = best'
  | .go s best, .go a best' => Sim g isCh s a ∧ best = best'
  | _, _ => False

theorem step_sim (hwf : g.WellFormed) {cur : CN K} (hcur : cur.idx < g.nodeCount) {best : Best K}
    {s : St K} {a : A K} (hs : Sim g isCh s a) :
    (∃ nx, step h g wt s best cur = .ok nx ∧
      SimNext g isCh nx (stepA (cfg h g wt isCh src dst) a best cur)) ∨
    (step h g wt s best cur = .panic ∧ ¬ g.Covered cur.dir cur.idx) := by
  unfold step stepA
  rw [hs.flag]
  by_cases hf : (a.flag .fwd && a.flag .bwd) = true
  · rw [if_pos hf, if_pos hf]
    exact Or.inl ⟨_, rfl, hs, rfl⟩
  rw [if_neg hf, if_neg hf, hs.costs _ _ hcur]
  simp only [Res.ofIdx_some, Res.ok_bind]
  by_cases hl : (!leInf cur.cost (a.lab cur.dir cur.idx)) = true
  · rw [if_pos hl, if_pos hl]
    exact Or.inl ⟨_, rfl, hs, rfl⟩
  rw [if_neg hl, if_neg hl]
  obtain ⟨s1, h1, hs1⟩ := visit_sim (h := h) (wt := wt) (src := src) (dst := dst) hcur hs
  rw [h1]
  simp only [Res.ok_bind]
  have hexp : ∀ b, (∃ nx, expand h g wt s1 b cur = .ok nx ∧ SimNext g isCh nx
      (.go (relaxAll (cfg h g wt isCh src dst) b.isNone cur
        ((cfg h g wt isCh src dst).out cur.dir cur.idx)
        (visitA (cfg h g wt isCh src dst) a cur)) b)) ∨
      (expand h g wt s1 b cur = .panic ∧ ¬ g.Covered cur.dir cur.idx) := by
    intro b
    rcases expand_sim (h := h) (wt := wt) (src := src) (dst := dst) hwf hcur (best := b) hs1 with
      ⟨s', h2, h3⟩ | h2
    · exact Or.inl ⟨_, h2, h3, rfl⟩
    · exact Or.inr h2
  cases best with
  | some mb =>
    obtain ⟨m, b⟩ := mb
    dsimp only
    by_cases hab : ltInf b (some cur.cost) = true
    · rw [if_pos hab, if_pos (show above (some (m, b)) cur = true from hab)]
      refine Or.inl ⟨_, rfl, ?_, rfl⟩
      exact {
        mode := hs1.mode
        queue := hs1.queue
        flag := by
          have := hs1.flag
          rw [visitA_flag] at this
          simp only [this]
        costs := hs1.costs
        preds := hs1.preds
        visited := hs1.visited }
    · rw [if_neg hab, if_neg (show ¬ above (some (m, b)) cur = true from hab), total_sim hcur hs1]
      simp only [Res.ok_bind, newBest]
      exact hexp _
  | none =>
    simp only [above, Bool.false_eq_true, if_false]
    rw [meets_sim (h := h) (wt := wt) (src := src) (dst := dst) hcur hs1, total_sim hcur hs1]
    simp only [Res.ok_bind, newBest]
    by_cases hm : meetsA (cfg h g wt isCh src dst) (visitA (cfg h g wt isCh src dst) a cur) cur = true
    · rw [if_pos hm, if_pos hm]
      exact hexp _
    · rw [if_neg hm, if_neg hm]
      exact hexp _

/-- A labelled node is reached by allowed arcs. -/
theorem labelled_reach {c : Cfg K} {tail : Dir → Nat → Nat} (hk : AddOk K) (ho : OutOk c tail)
    {a : A K} {best : Best K} (hi : Inv1 c tail a best) {d : Dir} {v : Nat} {x : K}
    (hx : a.lab d v = some x) : ∃ ts, IsRt (c.out d) (c.root d) ts v := by
  obtain ⟨l, hl⟩ := hi.chain _ _ _ hx
  obtain ⟨ts, _, h, _⟩ := hi.chain_route hk ho hl hx
  exact ⟨ts, h⟩

theorem labelled_lt {c : Cfg K} {tail : Dir → Nat → Nat} {n : Nat} (hf : FinOk c n)
    {a : A K} {best : Best K} (hi : Inv1 c tail a best) {d : Dir} {v : Nat} {x : K}
    (hx : a.lab d v = some x) : v < n := by
  rcases hi.pred d v x hx with rfl | ⟨e, u, w, y, _, h, _⟩
  · exact hf.roots d
  · exact (hf.arcs _ _ _ h).2

/-- The loop of the model and the abstract loop agree; a panic is due to a reached node that cannot be
asked for its leaving edges. -/
theorem loop_sim (hwf : g.WellFormed) (hk : AddOk K) (hw : ∀ m ∈ g.metrics, 0 ≤ wt m)
    (hsrc : src < g.nodeCount) (hdst : dst < g.nodeCount) {fuel : Nat} {best : Best K} {s : St K}
    {a : A K} (hs : Sim g isCh s a) (hi : Inv1 (cfg h g wt isCh src dst) (tailD g) a best) :
    (∃ s' a' best', loop h g wt fuel s best = some (.ok (s', best')) ∧
      loopA (cfg h g wt isCh src dst) fuel a best = some (a', best') ∧ Sim g isCh s' a') ∨
    (loop h g wt fuel s best = none ∧ loopA (cfg h g wt isCh src dst) fuel a best = none) ∨
    (loop h g wt fuel s best = some .panic ∧ ∃ d u ts, ¬ g.Covered d u ∧
      IsRt (outArcs g wt isCh d) ((cfg h g wt isCh src dst).root d) ts u) := by
  have ho := outOk (h := h) (isCh := isCh) (src := src) (dst := dst) hwf hw
  have hf := finOk (h := h) (wt := wt) (isCh := isCh) hwf hsrc hdst
  induction fuel generalizing s a best with
  | zero => exact Or.inr (Or.inl ⟨rfl, rfl⟩)
  | succ n ih =>
    unfold loop loopA
    have hh : (cfg h g wt isCh src dst).h = h := rfl
    rw [hs.queue, hh]
    cases hp : h.pop a.queue with
    | none => exact Or.inl ⟨s, a, best, rfl, rfl, hs⟩
    | some cq =>
      obtain ⟨cur, q⟩ := cq
      simp only
      have hp' : (cfg h g wt isCh src dst).h.pop a.queue = some (cur, q) := hp
      obtain ⟨y, hy, _⟩ := hi.queue cur ((mem_pop hp').mpr (Or.inl rfl))
      have hcur := labelled_lt hf hi hy
      have hsq : Sim g isCh { s with queue := q } { a with queue := q } :=
        { mode := hs.mode, queue := rfl, flag := hs.flag, costs := hs.costs, preds := hs.preds,
          visited := hs.visited }
      rcases step_sim (h := h) (wt := wt) (src := src) (dst := dst) (best := best) hwf hcur hsq with
        ⟨nx, h1, h2⟩ | ⟨h1, h2⟩
      · rw [h1]
        cases hA : stepA (cfg h g wt isCh src dst) { a with queue := q } best cur with
        | stop a1 best1 =>
          rw [hA] at h2
          cases nx with
          | stop s1 b1 =>
            obtain ⟨h3, rfl⟩ := h2
            exact Or.inl ⟨s1, a1, b1, rfl, rfl, h3⟩
          | go s1 b1 => exact absurd h2 (by simp [SimNext])
        | go a1 best1 =>
          rw [hA] at h2
          cases nx with
          | stop s1 b1 => exact absurd h2 (by simp [SimNext])
          | go s1 b1 =>
            obtain ⟨h3, rfl⟩ := h2
            exact ih h3 (hi.step hk ho hp' hA)
      · rw [h1]
        obtain ⟨ts, hts⟩ := labelled_reach hk ho hi hy
        exact Or.inr (Or.inr ⟨rfl, cur.dir, cur.idx, ts, h2, hts⟩)

/-- Following the predecessors yields the chain. -/
theorem walk_sim (hwf : g.WellFormed) {s : St K} {a : A K} (hs : Sim g isCh s a) {best : Best K}
    {c : Cfg K} (hc : c.out = outArcs g wt isCh) (hi : Inv1 c (tailD g) a best)
    (hroot : ∀ d, c.root d < g.nodeCount) {d : Dir} {v : Nat} {l : List Nat}
    (hl : Chain (a.pred d) (tailD g d) v l) {x : K} (hx : a.lab d v = some x) {fuel : Nat}
    (hfuel : l.length < fuel) : walk g s d fuel v = some (.ok l) := by
  induction hl generalizing fuel x with
  | @nil v hp =>
    obtain ⟨fuel, rfl⟩ : ∃ k, fuel = k + 1 := ⟨fuel - 1, by simp at hfuel; omega⟩
    have hv : v < g.nodeCount := by
      rcases hi.pred d v x hx with rfl | ⟨e, u, w, y, h1, _⟩
      · exact hroot d
      · rw [hp] at h1; cases h1
    simp only [walk, hs.preds d v hv, hp]
  | @cons v e l hp hl ih =>
    obtain ⟨fuel, rfl⟩ : ∃ k, fuel = k + 1 := ⟨fuel - 1, by simp at hfuel; omega⟩
    rcases hi.pred d v x hx with rfl | ⟨e', u, w, y, h1, h2, h3, h4⟩
    · rw [hi.rootpred] at hp; cases hp
    · rw [hp] at h1
      cases h1
      rw [hc] at h2
      obtain ⟨hu, hv, _⟩ := (mem_outArcs hwf).mp h2
      simp only at hu hv
      have ht : tailD g d e = u := by simp [tailD, hu]
      rw [ht] at ih
      simp only [List.length_cons] at hfuel
      have := ih h3 (fuel := fuel) (by omega)
      simp only [walk, hs.preds d v (hwf.ends_lt _ _ _ hv), hp, hu, this]
      rfl

/-- The leaving edges of all nodes are at most all edges. -/
theorem sum_out_le (hwf : g.WellFormed) :
    ∑ p ∈ places g.nodeCount, (outArcs g wt isCh p.1 p.2).length ≤ 2 * g.edgeCount := by
  have hd : ∀ d, ∑ u ∈ Finset.range g.nodeCount, (outArcs g wt isCh d u).length ≤ g.edgeCount := by
    intro d
    have hl : ((List.range g.nodeCount).flatMap
        (fun u => (outArcs g wt isCh d u).map (·.1))).Nodup := by
      rw [List.nodup_flatMap]
      refine ⟨fun u _ => ?_, ?_⟩
      · unfold outArcs
        split
        · rename_i es hes
          have hnd := (hwf.start d u es hes).1
          have hsub : ((es.filterMap (arcOf g wt isCh d u)).map (·.1)).Sublist es := by
            clear hnd hes
            induction es with
            | nil => simp
            | cons e es ih =>
              rw [List.filterMap_cons]
              cases ha : arcOf g wt isCh d u e with
              | none => exact ih.cons _
              | some t =>
                simp only [List.map_cons]
                have : t.1 = e := by
                  unfold arcOf at ha
                  split at ha
                  · split at ha
                    · cases ha
                    · simp only [Option.some.injEq] at ha
                      rw [← ha]
                  · cases ha
                rw [this]
                exact ih.cons_cons _
          exact hnd.sublist hsub
        · simp
      · refine List.Pairwise.imp_of_mem ?_ List.nodup_range
        intro u u' _ _ hne
        simp only [Function.onFun, List.disjoint_left]
        intro e he he'
        obtain ⟨t, ht, rfl⟩ := List.mem_map.mp he
        obtain ⟨t', ht', h2⟩ := List.mem_map.mp he'
        have h3 := ((mem_outArcs hwf).mp ht).1
        have h4 := ((mem_outArcs hwf).mp ht').1
        rw [h2, h3] at h4
        cases h4
        exact hne rfl
    have hlt : ∀ e ∈ (List.range g.nodeCount).flatMap
        (fun u => (outArcs g wt isCh d u).map (·.1)), e < g.edgeCount := by
      intro e he
      simp only [List.mem_flatMap, List.mem_map] at he
      obtain ⟨u, _, t, ht, rfl⟩ := he
      exact edge_lt hwf ((mem_outArcs hwf).mp ht).1
    have hle := length_le_of_nodup_lt hl hlt
    rw [List.length_flatMap] at hle
    refine le_trans (le_of_eq ?_) hle
    simp only [List.length_map]
    generalize g.nodeCount = n
    clear hl hlt hle
    induction n with
    | zero => simp
    | succ n ih => rw [Finset.sum_range_succ, ih, List.range_succ]; simp
  have hprod : ∑ p ∈ places g.nodeCount, (outArcs g wt isCh p.1 p.2).length =
      ∑ d ∈ ({Dir.fwd, Dir.bwd} : Finset Dir), ∑ u ∈ Finset.range g.nodeCount,
        (outArcs g wt isCh d u).length := Finset.sum_product _ _ _
  rw [hprod, Finset.sum_pair (by decide)]
  have h1 := hd .fwd
  have h2 := hd .bwd
  omega

end
end Verif.Dij
