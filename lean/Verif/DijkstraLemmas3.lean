import Verif.DijkstraLemmas2
import Verif.DijkstraSpec

/-!
# From queries to the search, and further lemmas on queries
-/

namespace Verif.Dij

set_option linter.unusedSectionVars false

open Search Graph Build

section
variable {K : Type} [LinearOrder K] [Zero K] [Add K] {h : Heap K} {g : Graph} {wt : List ℚ → K}
  {isCh : Bool} {src dst : Nat}

theorem Used.tidy {dotp : List ℚ → List ℚ → K} {n : Nat} {s : St K} (hu : Used h dotp n s) :
    Tidy n s := by
  induction hu with
  | new => exact Tidy.new n
  | query _ hq hc ih => exact compute_tidy hq ih hc

/-- The initial state of a query shows the initial state of the search. -/
theorem start_sim (hsrc : src < g.nodeCount) (hdst : dst < g.nodeCount) {vis : Dir → List Bool}
    (hvis : isCh = false → vis = fun _ => List.replicate g.nodeCount false) :
    ∃ s, start h (blank isCh (fun _ => g.nodeCount) vis) src dst = .ok s ∧
      Sim g isCh s (initA (cfg h g wt isCh src dst)) := by
  simp only [start, blank, setIdx, List.length_replicate, hsrc, hdst, if_true, Res.ok_bind, Res.pure_eq,
    Res.ok.injEq, exists_eq_left']
  constructor
  · rfl
  · rfl
  · rfl
  · intro d v hv
    cases d
    · simp only [initA, cfg, upd]
      by_cases hvs : v = src
      · subst hvs; simp [hv]
      · simp [hvs, Ne.symm hvs, hv]
    · simp only [initA, cfg, upd]
      by_cases hvs : v = dst
      · subst hvs; simp [hv]
      · simp [hvs, Ne.symm hvs, hv]
  · intro d v hv
    simp [initA, hv]
  · intro hc d v hv
    simp [initA, hvis hc, hv]

/-- `init_query` and the start of the search. -/
theorem begin_sim (hn : g.nodeCount ≠ 2) (hsrc : src < g.nodeCount) (hdst : dst < g.nodeCount)
    {s : St K} (ht : Tidy g.nodeCount s) (b : Bool) :
    ∃ s1, (do
        let s ← initQuery { s with isCh := b } g.nodeCount
        start h s src dst) = .ok s1 ∧
      Sim g b s1 (initA (cfg h g wt b src dst)) := by
  have ht' : Tidy g.nodeCount { s with isCh := b } := ht.congr rfl rfl rfl
  obtain ⟨s0, h0⟩ := initQuery_ok hn ht'
  have e := initQuery_inv (le_refl _) ht' h0
  rw [h0, Res.ok_bind, e]
  have hL : newLenD { s with isCh := b } g.nodeCount = fun _ => g.nodeCount := by
    funext d
    unfold newLenD
    rw [if_pos (Ne.symm hn)]
  rw [hL]
  refine start_sim hsrc hdst (fun hb => ?_)
  rw [if_neg (by rw [hb]; decide)]

theorem nodeId_ok {i : Nat} (hi : i < g.nodeCount) : ∃ x, g.nodeId i = .ok x := by
  refine ⟨g.nodeIds[i]'hi, ?_⟩
  rw [nodeId, Res.ofIdx_eq_ok]
  exact List.getElem?_eq_getElem hi

theorem compute_eq {dotp : List ℚ → List ℚ → K} {fuel : Nat} {s : St K} {q : Query K}
    (halg : q.algo ≠ .explorator) (hal : ∀ a ∈ q.alphas, 0 ≤ a) :
    computeBestPath h dotp fuel s q =
      match (do
        let s ← initQuery { s with isCh := decide (q.algo = Algo.chDijkstra) } q.graph.nodeCount
        start h s q.src q.dst) with
      | .panic => some .panic
      | .err e => some (.err e)
      | .ok s => search h q.graph (dotp q.alphas) fuel s q.src q.dst := by
  have hneg : ¬ (q.alphas.any (fun a => decide (a < 0)) = true) := by
    simp only [List.any_eq_true, decide_eq_true_eq, not_exists, not_and, not_lt]
    exact hal
  obtain ⟨src, dst, g, algo, al⟩ := q
  unfold computeBestPath
  rw [if_neg hneg]
  cases algo with
  | explorator => exact absurd rfl halg
  | dijkstra => rfl
  | chDijkstra => rfl

/-- What a search does, in terms of the search without arrays. -/
theorem search_cases {fuel : Nat} {s1 : St K} (hwf : g.WellFormed) (hk : AddOk K)
    (hw : ∀ m ∈ g.metrics, 0 ≤ wt m) (hsrc : src < g.nodeCount) (hdst : dst < g.nodeCount)
    (hs1 : Sim g isCh s1 (initA (cfg h g wt isCh src dst))) :
    (search h g wt fuel s1 src dst = none ∧
      (loopA (cfg h g wt isCh src dst) fuel (initA (cfg h g wt isCh src dst)) none = none ∨
        fuel ≤ g.nodeCount)) ∨
    (search h g wt fuel s1 src dst = some .panic ∧ ∃ d u ts, ¬ g.Covered d u ∧
      IsRt (outArcs g wt isCh d) ((cfg h g wt isCh src dst).root d) ts u) ∨
    (∃ s' a best ans, search h g wt fuel s1 src dst = some (.ok (s', ans)) ∧
      loopA (cfg h g wt isCh src dst) fuel (initA (cfg h g wt isCh src dst)) none = some (a, best) ∧
      (best = none → ans = none) ∧
      ∀ m b, best = some (m, b) → ∃ f bk i j, Chain (a.pred .fwd) (tailD g .fwd) m f ∧
        Chain (a.pred .bwd) (tailD g .bwd) m bk ∧
        g.nodeId src = .ok i ∧ g.nodeId dst = .ok j ∧
        ans = some (Path.new src i dst j (f.reverse ++ bk))) := by
  obtain ⟨c, hc⟩ : ∃ c, c = cfg h g wt isCh src dst := ⟨_, rfl⟩
  have ho := outOk (h := h) (isCh := isCh) (src := src) (dst := dst) hwf hw
  have hf := finOk (h := h) (wt := wt) (isCh := isCh) hwf hsrc hdst
  rw [← hc] at ho hf ⊢
  have hroot : ∀ d, c.root d < g.nodeCount := hf.roots
  rcases loop_sim (fuel := fuel) hwf hk hw hsrc hdst hs1 Inv1.init with
    ⟨s', a, best, hl, hla, hsim⟩ | ⟨hl, hla⟩ | ⟨hl, hu⟩
  · rw [← hc] at hla
    have hi := inv1_final hk ho hla
    rw [search, hl]
    simp only
    cases best with
    | none =>
      refine Or.inr (Or.inr ⟨s', a, none, none, rfl, hla, fun _ => rfl, ?_⟩)
      intro m b h; cases h
    | some mb =>
      obtain ⟨m, t⟩ := mb
      obtain ⟨_, x, y, _, hx, hy, _⟩ := hi.best m t rfl
      obtain ⟨f, hfch⟩ := hi.chain _ _ _ hx
      obtain ⟨bk, hbch⟩ := hi.chain _ _ _ hy
      by_cases hfu : fuel ≤ g.nodeCount
      · -- the fuel may not suffice for walking back
        cases hmk : mkPath g fuel s' (some (m, t)) src dst with
        | none => exact Or.inl ⟨rfl, Or.inr hfu⟩
        | some r =>
          have hwalk : ∀ d l x, Chain (a.pred d) (tailD g d) m l → a.lab d m = some x →
              walk g s' d fuel m = none ∨ walk g s' d fuel m = some (.ok l) := by
            intro d l x hl hx
            clear hmk
            have key : ∀ (l : List Nat) (v : Nat) (x : K) (fuel : Nat),
                Chain (a.pred d) (tailD g d) v l → a.lab d v = some x →
                fuel ≤ l.length → walk g s' d fuel v = none := by
              intro l
              induction l with
              | nil =>
                intro v x fuel _ _ hle
                obtain rfl : fuel = 0 := by simpa using hle
                rfl
              | cons e l ih =>
                intro v x fuel hch hx hle
                cases fuel with
                | zero => rfl
                | succ k =>
                  cases hch with
                  | cons hp hch =>
                    rcases hi.pred d v x hx with rfl | ⟨e', u, w, y, hpe, hmem, hyu, _⟩
                    · rw [hi.rootpred d] at hp; cases hp
                    · rw [hpe] at hp
                      cases hp
                      have hout : c.out = outArcs g wt isCh := by rw [hc]; rfl
                      rw [hout] at hmem
                      obtain ⟨hu1, hv1, _⟩ := (mem_outArcs hwf).mp hmem
                      have hvn := hwf.ends_lt _ _ _ hv1
                      simp only at hu1
                      have htail : tailD g d e = u := by simp [tailD, hu1]
                      rw [htail] at hch
                      simp only [walk, hsim.preds d v hvn, hpe, hu1, Option.map_eq_none_iff]
                      exact ih u y k hch hyu (by simpa using hle)
            by_cases hlt : l.length < fuel
            · exact Or.inr (walk_sim hwf hsim (by rw [hc]; rfl) hi hroot hl hx hlt)
            · exact Or.inl (key l m x fuel hl hx (by omega))
          rcases hwalk .fwd f x hfch hx with h2 | h2
          · simp [mkPath, h2] at hmk
          · rcases hwalk .bwd bk y hbch hy with h3 | h3
            · simp [mkPath, h2, h3] at hmk
            · obtain ⟨i, hi1⟩ := nodeId_ok hsrc
              obtain ⟨j, hj1⟩ := nodeId_ok hdst
              refine Or.inr (Or.inr ⟨s', a, some (m, t),
                some (Path.new src i dst j (f.reverse ++ bk)), ?_, hla, (by intro h; cases h), ?_⟩)
              · rw [← hmk]
                simp [mkPath, h2, h3, hi1, hj1, acc]
              · intro m' b' he
                cases he
                exact ⟨f, bk, i, j, hfch, hbch, hi1, hj1, rfl⟩
      · have h2 := walk_sim (fuel := fuel) hwf hsim (by rw [hc]; rfl) hi hroot hfch hx
          (by have := hi.chain_length ho hf hfch hx; omega)
        have h3 := walk_sim (fuel := fuel) hwf hsim (by rw [hc]; rfl) hi hroot hbch hy
          (by have := hi.chain_length ho hf hbch hy; omega)
        obtain ⟨i, hi1⟩ := nodeId_ok hsrc
        obtain ⟨j, hj1⟩ := nodeId_ok hdst
        refine Or.inr (Or.inr ⟨s', a, some (m, t),
          some (Path.new src i dst j (f.reverse ++ bk)), ?_, hla, (by intro h; cases h), ?_⟩)
        · simp [mkPath, h2, h3, hi1, hj1, acc]
        · intro m' b' he
          cases he
          exact ⟨f, bk, i, j, hfch, hbch, hi1, hj1, rfl⟩
  · rw [← hc] at hla
    exact Or.inl ⟨by rw [search, hl], Or.inl hla⟩
  · refine Or.inr (Or.inl ⟨by rw [search, hl], ?_⟩)
    rw [hc]
    exact hu

/-- What a query does, in terms of the search without arrays. -/
theorem compute_cases {dotp : List ℚ → List ℚ → K} {fuel : Nat} {s : St K} {q : Query K}
    (hwf : q.graph.WellFormed) (hk : AddOk K) (hw : ∀ m ∈ q.graph.metrics, 0 ≤ dotp q.alphas m)
    (hn : q.graph.nodeCount ≠ 2) (hsrc : q.src < q.graph.nodeCount) (hdst : q.dst < q.graph.nodeCount)
    (ht : Tidy q.graph.nodeCount s) (halg : q.algo ≠ .explorator) (hal : ∀ a ∈ q.alphas, 0 ≤ a)
    {c : Cfg K} (hc : c = cfg h q.graph (dotp q.alphas) (decide (q.algo = .chDijkstra)) q.src q.dst) :
    (computeBestPath h dotp fuel s q = none ∧
      (loopA c fuel (initA c) none = none ∨ fuel ≤ q.graph.nodeCount)) ∨
    (computeBestPath h dotp fuel s q = some .panic ∧ ∃ d u ts, ¬ q.graph.Covered d u ∧
      IsRt (c.out d) (c.root d) ts u) ∨
    (∃ s' ans, computeBestPath h dotp fuel s q = some (.ok (s', ans))) := by
  obtain ⟨s1, h1, hs1⟩ := begin_sim (h := h) (wt := dotp q.alphas) hn hsrc hdst ht
    (decide (q.algo = .chDijkstra))
  have hcomp : computeBestPath h dotp fuel s q =
      search h q.graph (dotp q.alphas) fuel s1 q.src q.dst := by
    rw [compute_eq halg hal, h1]
  rw [hcomp, hc]
  rcases search_cases (fuel := fuel) hwf hk hw hsrc hdst hs1 with h2 | ⟨h2, h3⟩ | ⟨s', _, _, ans, h2, _⟩
  · exact Or.inl h2
  · exact Or.inr (Or.inl ⟨h2, h3⟩)
  · exact Or.inr (Or.inr ⟨s', ans, h2⟩)

/-! ## Routes -/

theorem fwd_route (hwf : g.WellFormed) {u v : Nat} {ts : List (Arc K)}
    (hr : IsRt (outArcs g wt isCh .fwd) u ts v) : g.IsRoute u (ts.map (·.1)) v := by
  induction ts generalizing u with
  | nil => exact hr
  | cons t ts ih =>
    obtain ⟨h1, h2, _⟩ := (mem_outArcs hwf).mp hr.1
    exact ⟨t.2.1, ⟨h2, h1⟩, ih hr.2⟩

theorem bwd_route (hwf : g.WellFormed) {u v : Nat} {ts : List (Arc K)}
    (hr : IsRt (outArcs g wt isCh .bwd) u ts v) : g.IsRoute v (ts.map (·.1)).reverse u := by
  induction ts generalizing u with
  | nil => exact Eq.symm hr
  | cons t ts ih =>
    obtain ⟨h1, h2, _⟩ := (mem_outArcs hwf).mp hr.1
    rw [List.map_cons, List.reverse_cons, isRoute_append]
    exact ⟨t.2.1, ih hr.2, u, ⟨h1, h2⟩, rfl⟩

theorem levelD_eq {u a : Nat} (ha : g.nodeLevel u = .ok a) : levelD g u = a := by
  rw [nodeLevel, Res.ofIdx_eq_ok] at ha
  simp [levelD, ha]

theorem isUp_append {u v w : Nat} {l l' : List Nat} (h1 : IsUp g u l v) (h2 : IsUp g v l' w) :
    IsUp g u (l ++ l') w := by
  induction l generalizing u with
  | nil => cases h1; exact h2
  | cons e l ih =>
    obtain ⟨x, hx, hl, h1⟩ := h1
    exact ⟨x, hx, hl, ih h1⟩

theorem isDown_append {u w : Nat} {l l' : List Nat} :
    IsDown g u (l ++ l') w ↔ ∃ v, IsDown g u l v ∧ IsDown g v l' w := by
  induction l generalizing u with
  | nil => simp [IsDown]
  | cons e l ih =>
    simp only [List.cons_append, IsDown, ih]
    constructor
    · rintro ⟨x, hx, hl, y, h1, h2⟩; exact ⟨y, ⟨x, hx, hl, h1⟩, h2⟩
    · rintro ⟨y, ⟨x, hx, hl, h1⟩, h2⟩; exact ⟨x, hx, hl, y, h1, h2⟩

theorem fwd_up (hwf : g.WellFormed) {u v : Nat} {ts : List (Arc K)}
    (hr : IsRt (outArcs g wt true .fwd) u ts v) : IsUp g u (ts.map (·.1)) v := by
  induction ts generalizing u with
  | nil => exact hr
  | cons t ts ih =>
    obtain ⟨h1, h2, _, h3⟩ := (mem_outArcs hwf).mp hr.1
    refine ⟨t.2.1, ⟨h2, h1⟩, fun a b ha hb => ?_, ih hr.2⟩
    have := h3 rfl
    rwa [levelD_eq ha, levelD_eq hb] at this

theorem bwd_down (hwf : g.WellFormed) {u v : Nat} {ts : List (Arc K)}
    (hr : IsRt (outArcs g wt true .bwd) u ts v) : IsDown g v (ts.map (·.1)).reverse u := by
  induction ts generalizing u with
  | nil => exact Eq.symm hr
  | cons t ts ih =>
    obtain ⟨h1, h2, _, h3⟩ := (mem_outArcs hwf).mp hr.1
    rw [List.map_cons, List.reverse_cons, isDown_append]
    refine ⟨t.2.1, ih hr.2, u, ⟨h1, h2⟩, fun a b ha hb => ?_, rfl⟩
    have := h3 rfl
    rwa [levelD_eq ha, levelD_eq hb] at this

theorem route_fwd (hwf : g.WellFormed) (wt : List ℚ → K) {u v : Nat} {l : List Nat}
    (hr : g.IsRoute u l v) :
    ∃ ts, ts.map (·.1) = l ∧ IsRt (outArcs g wt false .fwd) u ts v := by
  induction l generalizing u with
  | nil => exact ⟨[], rfl, hr⟩
  | cons e l ih =>
    obtain ⟨x, ⟨hx1, hx2⟩, hr⟩ := hr
    obtain ⟨ts, rfl, hts⟩ := ih hr
    obtain ⟨m, hm⟩ := edge_metrics hwf (edge_lt hwf hx1)
    exact ⟨(e, x, wt m) :: ts, rfl,
      (mem_outArcs hwf).mpr ⟨hx2, hx1, ⟨m, hm, rfl⟩, (by intro h; cases h)⟩, hts⟩

theorem up_fwd (hwf : g.WellFormed) (wt : List ℚ → K) {u v : Nat} {l : List Nat}
    (hr : IsUp g u l v) :
    ∃ ts, ts.map (·.1) = l ∧ IsRt (outArcs g wt true .fwd) u ts v := by
  induction l generalizing u with
  | nil => exact ⟨[], rfl, hr⟩
  | cons e l ih =>
    obtain ⟨x, ⟨hx1, hx2⟩, hl, hr⟩ := hr
    obtain ⟨ts, rfl, hts⟩ := ih hr
    obtain ⟨m, hm⟩ := edge_metrics hwf (edge_lt hwf hx1)
    refine ⟨(e, x, wt m) :: ts, rfl,
      (mem_outArcs hwf).mpr ⟨hx2, hx1, ⟨m, hm, rfl⟩, fun _ => ?_⟩, hts⟩
    exact hl _ _ (level_ok hwf (hwf.ends_lt _ _ _ hx2)) (level_ok hwf (hwf.ends_lt _ _ _ hx1))

theorem down_bwd (hwf : g.WellFormed) (wt : List ℚ → K) {u v : Nat} {l : List Nat}
    (hr : IsDown g u l v) :
    ∃ ts, ts.map (·.1) = l.reverse ∧ IsRt (outArcs g wt true .bwd) v ts u := by
  induction l generalizing u with
  | nil => exact ⟨[], rfl, Eq.symm hr⟩
  | cons e l ih =>
    obtain ⟨x, ⟨hx1, hx2⟩, hl, hr⟩ := hr
    obtain ⟨ts, hts, hr⟩ := ih hr
    obtain ⟨m, hm⟩ := edge_metrics hwf (edge_lt hwf hx1)
    refine ⟨ts ++ [(e, u, wt m)], by simp [hts], isRt_append.mpr ⟨x, hr, (mem_outArcs hwf).mpr
      ⟨hx1, hx2, ⟨m, hm, rfl⟩, fun _ => ?_⟩, rfl⟩⟩
    exact hl _ _ (level_ok hwf (hwf.ends_lt _ _ _ hx2)) (level_ok hwf (hwf.ends_lt _ _ _ hx1))

theorem IsUp.route {u v : Nat} {l : List Nat} (hr : IsUp g u l v) : g.IsRoute u l v := by
  induction l generalizing u with
  | nil => exact hr
  | cons e l ih =>
    obtain ⟨x, hx, _, hr⟩ := hr
    exact ⟨x, hx, ih hr⟩

theorem IsDown.route {u v : Nat} {l : List Nat} (hr : IsDown g u l v) : g.IsRoute u l v := by
  induction l generalizing u with
  | nil => exact hr
  | cons e l ih =>
    obtain ⟨x, hx, _, hr⟩ := hr
    exact ⟨x, hx, ih hr⟩

theorem IsUpDown.route {u v : Nat} {l : List Nat} (hr : IsUpDown g u l v) : g.IsRoute u l v := by
  obtain ⟨w, l1, l2, rfl, h1, h2⟩ := hr
  exact isRoute_append.mpr ⟨w, h1.route, h2.route⟩

/-! ## Queries from a node to itself -/

/-- In a query from a node to itself, the first node that is found from both sides is this node. -/
def InvSelf (c : Cfg K) (a : A K) (best : Best K) : Prop :=
  match best with
  | some (m, b) => m = c.src ∧ b = some (0 + 0)
  | none => (∀ d, ⟨c.src, 0, d⟩ ∈ a.queue ∧ (∀ x ∈ a.queue, x.dir = d → x = ⟨c.src, 0, d⟩) ∧
        ∀ v, a.vis d v = false) ∨
      (c.isCh = false ∧ ∃ d, ⟨c.src, 0, d⟩ ∈ a.queue ∧ (∀ x ∈ a.queue, x.dir = d → x = ⟨c.src, 0, d⟩) ∧
        (∀ v, a.vis d v = false) ∧ a.vis d.opp c.src = true)

theorem relaxAll_vis {c : Cfg K} {isNone : Bool} {cur : CN K} {l : List (Arc K)} {a : A K} :
    (relaxAll c isNone cur l a).vis = a.vis := by
  induction l generalizing a with
  | nil => rfl
  | cons t l ih =>
    rw [show relaxAll c isNone cur (t :: l) a = relaxAll c isNone cur l (relax1 c isNone cur a t) from rfl,
      ih]
    unfold relax1
    split <;> rfl

theorem relaxAll_queue_dir {c : Cfg K} {isNone : Bool} {cur : CN K} {l : List (Arc K)} {a : A K}
    {x : CN K} : (x ∈ a.queue → x ∈ (relaxAll c isNone cur l a).queue) ∧
    (x ∈ (relaxAll c isNone cur l a).queue → x ∈ a.queue ∨ x.dir = cur.dir) := by
  induction l generalizing a with
  | nil => exact ⟨id, Or.inl⟩
  | cons t l ih =>
    rw [show relaxAll c isNone cur (t :: l) a = relaxAll c isNone cur l (relax1 c isNone cur a t) from rfl]
    have h1 : (x ∈ a.queue → x ∈ (relax1 c isNone cur a t).queue) ∧
        (x ∈ (relax1 c isNone cur a t).queue → x ∈ a.queue ∨ x.dir = cur.dir) := by
      unfold relax1
      split
      · dsimp only
        split
        · rw [mem_push]
          refine ⟨Or.inr, ?_⟩
          rintro (rfl | hx)
          · exact Or.inr rfl
          · exact Or.inl hx
        · exact ⟨id, Or.inl⟩
      · exact ⟨id, Or.inl⟩
    exact ⟨fun hx => ih.1 (h1.1 hx), fun hx => (ih.2 hx).elim h1.2 Or.inr⟩

theorem dir_cases (d d' : Dir) : d' = d ∨ d' = d.opp := by cases d <;> cases d' <;> simp [Dir.opp]

theorem opp_ne (d : Dir) : d.opp ≠ d := by cases d <;> simp [Dir.opp]

theorem visitA_vis {c : Cfg K} (hch : c.isCh = false) (a : A K) (cur : CN K) :
    (visitA c a cur).vis = upd a.vis cur.dir cur.idx true := by
  simp [visitA, hch]

theorem InvSelf.step {c : Cfg K} {tail : Dir → Nat → Nat} (hk : AddOk K)
    (hsd : c.dst = c.src)
    {a : A K} {best : Best K} (hi : Inv1 c tail a best) (hs : InvSelf c a best) {cur : CN K}
    {q : List (CN K)} {a' : A K} {best' : Best K} (hp : c.h.pop a.queue = some (cur, q))
    (hst : stepA c { a with queue := q } best cur = .go a' best') : InvSelf c a' best' := by
  obtain ⟨_, hcase⟩ := stepA_go c hst
  have hroot : ∀ d, c.root d = c.src := by intro d; cases d <;> simp [Cfg.root, hsd]
  have hlab : ∀ d, a.lab d c.src = some 0 := fun d => by have := hi.root d; rwa [hroot] at this
  cases best with
  | some mb =>
    obtain ⟨m, b⟩ := mb
    obtain ⟨rfl, rfl⟩ := hs
    rcases hcase with ⟨_, _, rfl⟩ | ⟨_, _, _, rfl⟩ | ⟨hle, _, rfl, _⟩
    · exact ⟨rfl, rfl⟩
    · exact ⟨rfl, rfl⟩
    · unfold newBest
      simp only
      rw [if_neg]
      · exact ⟨rfl, rfl⟩
      · intro hlt
        simp only [totalA, visitA_lab] at hlt
        obtain ⟨t, ht⟩ := ltInf_some hlt
        rw [ht, ltInf_iff] at hlt
        have := hlt _ rfl
        cases hx : a.lab .fwd cur.idx with
        | none => rw [hx] at ht; simp [addInf] at ht
        | some x =>
          cases hy : a.lab .bwd cur.idx with
          | none => rw [hx, hy] at ht; simp [addInf] at ht
          | some y =>
            rw [hx, hy] at ht
            simp only [addInf, Option.some.injEq] at ht
            rw [← ht] at this
            exact absurd this (not_lt.mpr (le_trans (hk.mono _ _ _ (hi.nonneg _ _ _ hx))
              (hk.mono' _ _ _ (hi.nonneg _ _ _ hy))))
  | none =>
    have hnoab : ¬ above none cur = true := by simp [above]
    rcases hs with hall | ⟨hch, d, hd1, hd2, hd3, hd4⟩
    · -- nothing has been visited yet
      have hcur : cur = ⟨c.src, 0, cur.dir⟩ :=
        (hall cur.dir).2.1 cur ((mem_pop hp).mpr (Or.inl rfl)) rfl
      have hidx : cur.idx = c.src := by rw [hcur]
      have hcost : cur.cost = 0 := by rw [hcur]
      have hle : leInf cur.cost (a.lab cur.dir cur.idx) = true := by
        rw [hidx, hlab, hcost, leInf_iff]
        intro y hy; cases hy; exact le_refl _
      rcases hcase with ⟨hn, _⟩ | ⟨_, h2, _⟩ | ⟨_, _, rfl, rfl⟩
      · exact absurd hle hn
      · exact absurd h2 hnoab
      · by_cases hch : c.isCh = true
        · have hmeet : meetsA c (visitA c { a with queue := q } cur) cur = true := by
            simp [meetsA, visitA_lab, hch, hidx, hlab]
          unfold newBest
          simp only [hmeet, if_true]
          refine ⟨hidx, ?_⟩
          simp only [totalA, visitA_lab, hidx, hlab, addInf]
        · have hch : c.isCh = false := by simpa using hch
          have hmeet : meetsA c (visitA c { a with queue := q } cur) cur = false := by
            simp only [meetsA, hch, Bool.false_eq_true, if_false, visitA_vis hch]
            rw [upd_other _ _ (by rintro ⟨h1, _⟩; exact opp_ne _ h1)]
            exact (hall _).2.2 _
          unfold newBest
          simp only [hmeet]
          refine Or.inr ⟨hch, cur.dir.opp, ?_, ?_, ?_, ?_⟩
          · refine relaxAll_queue_dir.1 ?_
            rw [visitA_queue]
            rcases (mem_pop hp).mp (hall cur.dir.opp).1 with h | h
            · rw [hcur] at h
              simp only [CN.mk.injEq, true_and] at h
              exact absurd h (opp_ne _)
            · exact h
          · intro x hx hxd
            rcases relaxAll_queue_dir.2 hx with h | h
            · rw [visitA_queue] at h
              exact (hall _).2.1 x ((mem_pop hp).mpr (Or.inr h)) hxd
            · rw [hxd] at h; exact absurd h (opp_ne _)
          · intro v
            rw [relaxAll_vis, visitA_vis hch, upd_other _ _ (by rintro ⟨h1, _⟩; exact opp_ne _ h1)]
            exact (hall _).2.2 v
          · rw [relaxAll_vis, visitA_vis hch, opp_opp, ← hidx, upd_same]
    · -- one direction is not visited
      rcases dir_cases d cur.dir with hdir | hdir
      · have hcur : cur = ⟨c.src, 0, d⟩ := hd2 cur ((mem_pop hp).mpr (Or.inl rfl)) hdir
        subst hcur
        have hle : leInf (0 : K) (a.lab d c.src) = true := by
          rw [hlab, leInf_iff]
          intro y hy; cases hy; exact le_refl _
        rcases hcase with ⟨hn, _⟩ | ⟨_, h2, _⟩ | ⟨_, _, rfl, rfl⟩
        · exact absurd hle hn
        · exact absurd h2 hnoab
        · have hmeet : meetsA c (visitA c { a with queue := q } ⟨c.src, 0, d⟩) ⟨c.src, 0, d⟩ = true := by
            simp only [meetsA, hch, Bool.false_eq_true, if_false, visitA_vis hch]
            rw [upd_other _ _ (by rintro ⟨h1, _⟩; exact opp_ne _ h1)]
            exact hd4
          unfold newBest
          simp only [hmeet, if_true]
          refine ⟨rfl, ?_⟩
          simp only [totalA, visitA_lab, hlab, addInf]
      · have hin : ⟨c.src, 0, d⟩ ∈ q := by
          rcases (mem_pop hp).mp hd1 with h | h
          · rw [← h] at hdir
            exact absurd hdir.symm (opp_ne d)
          · exact h
        have hdne : d ≠ cur.dir := by rw [hdir]; exact (opp_ne d).symm
        have hmeet : meetsA c (visitA c { a with queue := q } cur) cur = false := by
          simp only [meetsA, hch, Bool.false_eq_true, if_false, visitA_vis hch]
          rw [hdir, opp_opp, upd_other _ _ (by rintro ⟨h1, _⟩; exact opp_ne _ h1.symm)]
          exact hd3 _
        have hvis : ∀ v, (visitA c { a with queue := q } cur).vis d v = false := by
          intro v
          rw [visitA_vis hch, upd_other _ _ (by rintro ⟨h1, _⟩; exact hdne h1)]
          exact hd3 v
        have hvis' : (visitA c { a with queue := q } cur).vis d.opp c.src = true := by
          rw [visitA_vis hch]
          unfold upd
          split
          · rfl
          · exact hd4
        rcases hcase with ⟨hn, rfl, rfl⟩ | ⟨_, h2, _⟩ | ⟨_, _, rfl, rfl⟩
        · exact Or.inr ⟨hch, d, hin, fun x hx => hd2 x ((mem_pop hp).mpr (Or.inr hx)), hd3, hd4⟩
        · exact absurd h2 hnoab
        · unfold newBest
          simp only [hmeet]
          refine Or.inr ⟨hch, d, ?_, ?_, ?_, ?_⟩
          · refine relaxAll_queue_dir.1 ?_
            rw [visitA_queue]; exact hin
          · intro x hx hxd
            rcases relaxAll_queue_dir.2 hx with h | h
            · rw [visitA_queue] at h
              exact hd2 x ((mem_pop hp).mpr (Or.inr h)) hxd
            · rw [hxd] at h; exact absurd h hdne
          · intro v; rw [relaxAll_vis]; exact hvis v
          · rw [relaxAll_vis]; exact hvis'

/-- A query from a node to itself finds this node. -/
theorem self_final {c : Cfg K} {tail : Dir → Nat → Nat} (hk : AddOk K) (ho : OutOk c tail)
    (hsd : c.dst = c.src) {fuel : Nat} {a : A K} {best : Best K}
    (h : loopA c fuel (initA c) none = some (a, best)) : best = some (c.src, some (0 + 0)) := by
  have hne := found hk ho h (v := c.src) (l := []) (l' := []) rfl hsd
  obtain ⟨a0, ⟨_, hi⟩, _⟩ := loopA_induct c (Inv := fun a best => Inv1 c tail a best ∧ InvSelf c a best)
    (fun a best cur q a' best' hi hp hs => ⟨hi.1.step hk ho hp hs, hi.2.step hk hsd hi.1 hp hs⟩)
    ⟨Inv1.init, by
      refine Or.inl (fun d => ⟨?_, ?_, fun v => rfl⟩)
      · rw [initA_queue]; cases d <;> simp [Cfg.root, hsd]
      · intro x hx hxd
        rw [initA_queue] at hx
        rw [hx, hxd]
        cases d <;> simp [Cfg.root, hsd]⟩ h
  cases best with
  | none => exact absurd rfl hne
  | some mb =>
    obtain ⟨m, b⟩ := mb
    obtain ⟨rfl, rfl⟩ := hi
    rfl

/-! ## The visited nodes of another mode do not matter -/

/-- Other visited nodes. -/
def St.setVis (s : St K) (w : Dir → List Bool) : St K := { s with visited := w }

/-- Changes the state in a result. -/
def mapSt (w : Dir → List Bool) : R (St K) → R (St K) := fun r => do
  let s ← r
  pure (s.setVis w)

/-- Changes the state in the result of the loop. -/
def mapStB (w : Dir → List Bool) : R (St K × Best K) → R (St K × Best K) := fun r => do
  let x ← r
  pure (x.1.setVis w, x.2)

/-- Changes the state of what comes next. -/
def Next.setVis (w : Dir → List Bool) : Next K → Next K
  | .stop s b => .stop (s.setVis w) b
  | .go s b => .go (s.setVis w) b

theorem relax_isCh {isNone : Bool} {cur : CN K} {es : List Nat} {s s' : St K}
    (hs : relax h g wt isNone cur es s = .ok s') : s'.isCh = s.isCh := by
  induction es generalizing s with
  | nil => cases hs; rfl
  | cons e es ih =>
    unfold relax at hs
    obtain ⟨v, _, hs⟩ := Res.bind_eq_ok.mp hs
    obtain ⟨lower, _, hs⟩ := Res.bind_eq_ok.mp hs
    split at hs
    · cases hs; rfl
    · obtain ⟨m, _, hs⟩ := Res.bind_eq_ok.mp hs
      obtain ⟨old, hold, hs⟩ := Res.bind_eq_ok.mp hs
      split at hs
      · obtain ⟨ps, hps, hs⟩ := Res.bind_eq_ok.mp hs
        obtain ⟨cs, hcs, hs⟩ := Res.bind_eq_ok.mp hs
        have := ih hs
        exact this
      · exact ih hs

theorem relax_vis (w : Dir → List Bool) {isNone : Bool} {cur : CN K} {es : List Nat} {s : St K} :
    relax h g wt isNone cur es (s.setVis w) = mapSt w (relax h g wt isNone cur es s) := by
  induction es generalizing s with
  | nil => rfl
  | cons e es ih =>
    unfold relax
    rw [show (s.setVis w).isCh = s.isCh from rfl, show (s.setVis w).costs = s.costs from rfl,
      show (s.setVis w).preds = s.preds from rfl, show (s.setVis w).queue = s.queue from rfl,
      show (s.setVis w).touched = s.touched from rfl]
    cases acc (g.dstIdx cur.dir e) with
    | panic => rfl
    | err x => rfl
    | ok v =>
      simp only [Res.ok_bind]
      cases isLower g s.isCh cur.idx v with
      | panic => rfl
      | err x => rfl
      | ok lower =>
        simp only [Res.ok_bind]
        split
        · rfl
        · cases (Res.ofIdx g.metrics[e]? : R (List ℚ)) with
          | panic => rfl
          | err x => rfl
          | ok m =>
            simp only [Res.ok_bind]
            cases (Res.ofIdx (s.costs cur.dir)[v]? : R (Option K)) with
            | panic => rfl
            | err x => rfl
            | ok old =>
              simp only [Res.ok_bind]
              split
              · cases setIdx (s.preds cur.dir) v (some e) with
                | panic => rfl
                | err x => rfl
                | ok ps =>
                  simp only [Res.ok_bind]
                  cases setIdx (s.costs cur.dir) v (some (cur.cost + wt m)) with
                  | panic => rfl
                  | err x => rfl
                  | ok cs =>
                    simp only [Res.ok_bind]
                    rw [← ih]
                    rfl
              · exact ih

theorem expand_vis (w : Dir → List Bool) {best : Best K} {cur : CN K} {s : St K} :
    expand h g wt (s.setVis w) best cur = (do
      let x ← expand h g wt s best cur
      pure (x.setVis w)) := by
  unfold expand
  cases acc (g.startingFrom cur.dir cur.idx) with
  | panic => rfl
  | err x => rfl
  | ok es =>
    simp only [Res.ok_bind, relax_vis, mapSt]
    cases relax h g wt best.isNone cur es s <;> rfl

theorem step_vis (w : Dir → List Bool) {best : Best K} {cur : CN K} {s : St K} (hch : s.isCh = true) :
    step h g wt (s.setVis w) best cur = (do
      let x ← step h g wt s best cur
      pure (x.setVis w)) := by
  have hv : visit s cur = .ok s := by simp [visit, hch]
  have hv' : visit (s.setVis w) cur = .ok (s.setVis w) := by simp [visit, St.setVis, hch]
  have hm : isMeeting (s.setVis w) cur = isMeeting s cur := by simp [isMeeting, St.setVis, hch]
  have ht : ∀ i, totalCost (s.setVis w) i = totalCost s i := fun i => rfl
  unfold step
  rw [show (s.setVis w).flag = s.flag from rfl, show (s.setVis w).costs = s.costs from rfl, hv, hv']
  split
  · rfl
  · cases (Res.ofIdx (s.costs cur.dir)[cur.idx]? : R (Option K)) with
    | panic => rfl
    | err x => rfl
    | ok label =>
      simp only [Res.ok_bind]
      split
      · rfl
      · cases best with
        | none =>
          simp only [hm, ht]
          cases isMeeting s cur with
          | panic => rfl
          | err x => rfl
          | ok meets =>
            simp only [Res.ok_bind]
            split
            · cases totalCost s cur.idx with
              | panic => rfl
              | err x => rfl
              | ok t => simp only [Res.ok_bind]; exact expand_vis w
            · exact expand_vis w
        | some mb =>
          obtain ⟨m, b⟩ := mb
          simp only [ht]
          split
          · rfl
          · cases totalCost s cur.idx with
            | panic => rfl
            | err x => rfl
            | ok t => simp only [Res.ok_bind]; exact expand_vis w

theorem expand_isCh {best : Best K} {cur : CN K} {s : St K} {nx : Next K}
    (hs : expand h g wt s best cur = .ok nx) : nx.st.isCh = s.isCh := by
  unfold expand at hs
  obtain ⟨es, _, hs⟩ := Res.bind_eq_ok.mp hs
  obtain ⟨s1, h1, hs⟩ := Res.bind_eq_ok.mp hs
  cases hs
  exact relax_isCh h1

theorem visit_isCh {cur : CN K} {s s' : St K} (hs : visit s cur = .ok s') : s'.isCh = s.isCh := by
  unfold visit at hs
  split at hs
  · cases hs; rfl
  · obtain ⟨vs, _, hs⟩ := Res.bind_eq_ok.mp hs
    cases hs
    rfl

theorem step_isCh {best : Best K} {cur : CN K} {s : St K} {nx : Next K}
    (hs : step h g wt s best cur = .ok nx) : nx.st.isCh = s.isCh := by
  unfold step at hs
  split at hs
  · cases hs; rfl
  · obtain ⟨label, _, hs⟩ := Res.bind_eq_ok.mp hs
    split at hs
    · cases hs; rfl
    · obtain ⟨s1, h1, hs⟩ := Res.bind_eq_ok.mp hs
      have ht1 := visit_isCh h1
      cases best with
      | some mb =>
        obtain ⟨m, b⟩ := mb
        simp only at hs
        split at hs
        · cases hs; exact ht1
        · obtain ⟨t, _, hs⟩ := Res.bind_eq_ok.mp hs
          rw [expand_isCh hs, ht1]
      | none =>
        simp only at hs
        obtain ⟨meets, _, hs⟩ := Res.bind_eq_ok.mp hs
        split at hs
        · obtain ⟨t, _, hs⟩ := Res.bind_eq_ok.mp hs
          rw [expand_isCh hs, ht1]
        · rw [expand_isCh hs, ht1]

theorem loop_vis (w : Dir → List Bool) {fuel : Nat} {best : Best K} {s : St K} (hch : s.isCh = true) :
    loop h g wt fuel (s.setVis w) best = (loop h g wt fuel s best).map (mapStB w) := by
  induction fuel generalizing s best with
  | zero => rfl
  | succ n ih =>
    unfold loop
    rw [show (s.setVis w).queue = s.queue from rfl]
    cases h.pop s.queue with
    | none => rfl
    | some cq =>
      obtain ⟨cur, q⟩ := cq
      simp only
      have := step_vis (h := h) (g := g) (wt := wt) w (best := best) (cur := cur)
        (s := { s with queue := q }) hch
      rw [show ({ s.setVis w with queue := q } : St K) = ({ s with queue := q } : St K).setVis w from rfl,
        this]
      cases hst : step h g wt { s with queue := q } best cur with
      | panic => rfl
      | err x => rfl
      | ok nx =>
        have hch' := step_isCh hst
        cases nx with
        | stop s' b => rfl
        | go s' b => exact ih (by rw [show s'.isCh = _ from hch']; exact hch)

theorem walk_vis (w : Dir → List Bool) {s : St K} {d : Dir} {fuel cur : Nat} :
    walk g (s.setVis w) d fuel cur = walk g s d fuel cur := by
  induction fuel generalizing cur with
  | zero => rfl
  | succ n ih =>
    unfold walk
    rw [show (s.setVis w).preds = s.preds from rfl]
    simp only [ih]

theorem mkPath_vis (w : Dir → List Bool) {s : St K} {fuel : Nat} {best : Best K} :
    mkPath g fuel (s.setVis w) best src dst = mkPath g fuel s best src dst := by
  unfold mkPath
  simp only [walk_vis]

theorem search_vis (w : Dir → List Bool) {fuel : Nat} {s : St K} (hch : s.isCh = true) :
    answer (search h g wt fuel (s.setVis w) src dst) = answer (search h g wt fuel s src dst) := by
  unfold search
  rw [loop_vis w hch]
  cases loop h g wt fuel s none with
  | none => rfl
  | some r =>
    cases r with
    | panic => rfl
    | err x => rfl
    | ok sb =>
      obtain ⟨s', best⟩ := sb
      simp only [Option.map_some, mapStB, Res.ok_bind, Res.pure_eq, mkPath_vis]
      unfold answer
      rw [Option.map_map, Option.map_map]
      congr 1
      funext r
      cases r <;> rfl

end
end Verif.Dij
