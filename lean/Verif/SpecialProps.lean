import Verif.SpecialLemmas4
import Verif.OverflowProps

/-!
# Property C109: values that are no finite numbers
-/

namespace Verif.Special

open Dij Search Graph Fp

/-! ## Routing -/

section
variable {fuel n : Nat} {s s' : St (Rounded f64)} {q : Query (Rounded f64)} {ms : List (List (Num ℚ))}

theorem valid {p : Path} (hc : router ms fuel s q = some (.ok (s', some p))) :
    q.algo ≠ .explorator ∧ ∀ a ∈ q.alphas, 0 ≤ a := by
  unfold router at hc
  split at hc
  · cases hc
  · rename_i hneg
    constructor
    · rintro ha
      rw [ha] at hc
      cases hc
    · simpa using hneg

theorem cases_of (hwf : q.graph.WellFormed) (hlen : ms.length = q.graph.edgeCount) (hm : Nonneg ms)
    (hn : q.graph.nodeCount ≠ 2)
    (hsrc : q.src < q.graph.nodeCount) (hdst : q.dst < q.graph.nodeCount) (hu : Used q.graph.nodeCount s)
    (halg : q.algo ≠ .explorator) (hal : ∀ a ∈ q.alphas, 0 ≤ a) {c : Cfg (Rounded f64)}
    (hc : c = cfg (heap f64) (code q.graph ms.length) (Over.wt0 (look ms q.alphas)) (decide (q.algo = .chDijkstra))
      q.src q.dst) {fin : Nat → Bool} (hfin : fin = Over.finite (code q.graph ms.length) (look ms q.alphas)) :
    (router ms fuel s q = none ∧
      (Over.loopB Over.fitsF fin c fuel (initA c) none = none ∨ fuel ≤ q.graph.nodeCount)) ∨
    (router ms fuel s q = some .panic ∧ ∃ d u, u < q.graph.nodeCount ∧ ¬ q.graph.Covered d u) ∨
    (∃ s' ans, router ms fuel s q = some (.ok (s', ans)) ∧
      (ans = none → ∀ m tf tb, IsRt (c.out .fwd) q.src tf m → Over.Fine Over.fitsF fin tf →
        IsRt (c.out .bwd) q.dst tb m → ¬ Over.Fine Over.fitsF fin tb) ∧
      ∀ p, ans = some p → ∃ m tf tb i j, IsRt (c.out .fwd) q.src tf m ∧
        Over.Fine Over.fitsF fin tf ∧ IsRt (c.out .bwd) q.dst tb m ∧
        Over.Fine Over.fitsF fin tb ∧ q.graph.nodeId q.src = .ok i ∧
        q.graph.nodeId q.dst = .ok j ∧
        p = Path.new q.src i q.dst j (tf.map (·.1) ++ (tb.map (·.1)).reverse)) := by
  subst hfin
  have h := Over.compute_casesB (fits := Over.fitsF) (h := heap f64) (dotp := look ms) (fuel := fuel) (s := s)
    (q := codeQ q ms.length) (code_wf hwf hlen) (addOk_rounded f64)
    (fun m hmem => look_nonneg hal hm hmem) Over.fits_zero Over.fits_down hn hsrc hdst hu.tidy halg hal hc
  rw [← router_eq hm] at h
  exact h

theorem answered_of {ans : Option Path} (hwf : q.graph.WellFormed) (hlen : ms.length = q.graph.edgeCount)
    (hm : Nonneg ms) (hsrc : q.src < q.graph.nodeCount) (hdst : q.dst < q.graph.nodeCount) (hu : Used n s)
    (halg : q.algo ≠ .explorator) (hal : ∀ a ∈ q.alphas, 0 ≤ a) (hr : router ms fuel s q = some (.ok (s', ans)))
    {c : Cfg (Rounded f64)}
    (hc : c = cfg (heap f64) (code q.graph ms.length) (Over.wt0 (look ms q.alphas)) (decide (q.algo = .chDijkstra))
      q.src q.dst) {fin : Nat → Bool} (hfin : fin = Over.finite (code q.graph ms.length) (look ms q.alphas)) :
    (ans = none → ∀ m tf tb, IsRt (c.out .fwd) q.src tf m → Over.Fine Over.fitsF fin tf →
      IsRt (c.out .bwd) q.dst tb m → ¬ Over.Fine Over.fitsF fin tb) ∧
    ∀ p, ans = some p → ∃ m tf tb i j, IsRt (c.out .fwd) q.src tf m ∧
      Over.Fine Over.fitsF fin tf ∧ IsRt (c.out .bwd) q.dst tb m ∧
      Over.Fine Over.fitsF fin tb ∧ q.graph.nodeId q.src = .ok i ∧
      q.graph.nodeId q.dst = .ok j ∧
      p = Path.new q.src i q.dst j (tf.map (·.1) ++ (tb.map (·.1)).reverse) := by
  subst hfin
  rw [router_eq hm] at hr
  exact Over.compute_answeredB (q := codeQ q ms.length) (code_wf hwf hlen) (addOk_rounded f64)
    (fun m hmem => look_nonneg hal hm hmem) Over.fits_zero Over.fits_down hsrc hdst hu.tidy halg hal hr hc

/-- A returned path is a route that consists of open edges only. -/
theorem C109_route {p : Path} (hwf : q.graph.WellFormed) (hlen : ms.length = q.graph.edgeCount) (hm : Nonneg ms)
    (hdim : ∀ m ∈ ms, m.length = q.alphas.length)
    (hsrc : q.src < q.graph.nodeCount) (hdst : q.dst < q.graph.nodeCount) (hu : Used n s)
    (hc : router ms fuel s q = some (.ok (s', some p))) :
    q.graph.IsRoute q.src p.edges q.dst ∧ (∀ e ∈ p.edges, Open ms e) ∧ p.srcIdx = q.src ∧ p.dstIdx = q.dst ∧
      q.graph.nodeId q.src = .ok p.srcId ∧ q.graph.nodeId q.dst = .ok p.dstId := by
  obtain ⟨halg, hal⟩ := valid hc
  obtain ⟨_, h2⟩ := answered_of hwf hlen hm hsrc hdst hu halg hal hc rfl rfl
  obtain ⟨m, tf, tb, i, j, h3, h4, h5, h6, h7, h8, rfl⟩ := h2 p rfl
  have hf := isRoute_code.mp (fwd_route (code_wf hwf hlen) h3)
  have hb := isRoute_code.mp (bwd_route (code_wf hwf hlen) h5)
  refine ⟨isRoute_append.mpr ⟨m, hf, hb⟩, ?_, rfl, rfl, h7, h8⟩
  intro e he
  rcases List.mem_append.mp he with he | he
  · obtain ⟨t, ht, rfl⟩ := List.mem_map.mp he
    exact open_of_finite hdim (h4.1 t ht)
  · obtain ⟨t, ht, rfl⟩ := List.mem_map.mp (List.mem_reverse.mp he)
    exact open_of_finite hdim (h6.1 t ht)

/-- With finite values and alphas up to `2^400`, there is no path iff there is no route of open edges. -/
theorem C109_none_iff {ans : Option Path} (hwf : q.graph.WellFormed) (hlen : ms.length = q.graph.edgeCount)
    (hm : Nonneg ms) (hmod : Moderate ms q.alphas) (hdim : ∀ m ∈ ms, m.length = q.alphas.length)
    (hdim' : q.alphas.length ≤ 2 ^ 50) (hn' : q.graph.nodeCount ≤ 2 ^ 50)
    (hsrc : q.src < q.graph.nodeCount) (hdst : q.dst < q.graph.nodeCount) (hu : Used n s)
    (halg : q.algo = .dijkstra) (hal : ∀ a ∈ q.alphas, 0 ≤ a) (hc : router ms fuel s q = some (.ok (s', ans))) :
    ans = none ↔ ¬ ∃ l, q.graph.IsRoute q.src l q.dst ∧ ∀ e ∈ l, Open ms e := by
  constructor
  · rintro rfl ⟨l, hl, ho⟩
    have hdec : decide (q.algo = Algo.chDijkstra) = false := by rw [halg]; rfl
    obtain ⟨h5, _⟩ := answered_of hwf hlen hm hsrc hdst hu (by rw [halg]; decide) hal hc rfl rfl
    rw [hdec] at h5
    obtain ⟨l', h1, h2, h3⟩ := short_of q.graph (fun e u v h => hwf.ends_lt .fwd e v h.1) hsrc (isRoute_walk.mp hl) ho
    obtain ⟨tf, rfl, hf⟩ := route_fwd (code_wf hwf hlen) (Over.wt0 (look ms q.alphas))
      (isRoute_code.mpr (isRoute_walk.mpr h1))
    refine h5 rfl q.dst tf [] hf (fine_of_open (k := 400) (by norm_num) hwf hlen hm hmod.1 hal hmod.2 hdim' hf ?_ ?_)
      rfl ⟨by simp, by simp⟩
    · intro t ht
      exact h2 _ (List.mem_map.mpr ⟨t, ht, rfl⟩)
    · rw [List.length_map] at h3
      omega
  · intro hno
    cases ans with
    | none => rfl
    | some p =>
      have := C109_route hwf hlen hm hdim hsrc hdst hu hc
      exact absurd ⟨_, this.1, this.2.1⟩ hno

/-- The same for ch-dijkstra and routes that go up and then down. -/
theorem C109_none_iff_up_down {ans : Option Path} (hwf : q.graph.WellFormed) (hlen : ms.length = q.graph.edgeCount)
    (hm : Nonneg ms) (hmod : Moderate ms q.alphas) (hdim : ∀ m ∈ ms, m.length = q.alphas.length)
    (hdim' : q.alphas.length ≤ 2 ^ 50) (hn' : q.graph.nodeCount ≤ 2 ^ 50)
    (hsrc : q.src < q.graph.nodeCount) (hdst : q.dst < q.graph.nodeCount) (hu : Used n s)
    (halg : q.algo = .chDijkstra) (hal : ∀ a ∈ q.alphas, 0 ≤ a) (hc : router ms fuel s q = some (.ok (s', ans))) :
    ans = none ↔ ¬ ∃ l, IsUpDown q.graph q.src l q.dst ∧ ∀ e ∈ l, Open ms e := by
  have hdec : decide (q.algo = Algo.chDijkstra) = true := by rw [halg]; rfl
  have hcode := code_wf hwf hlen
  obtain ⟨h5, h6⟩ := answered_of hwf hlen hm hsrc hdst hu (by rw [halg]; decide) hal hc rfl rfl
  rw [hdec] at h5 h6
  constructor
  · rintro rfl ⟨l, ⟨w, l1, l2, rfl, hl1, hl2⟩, ho⟩
    have hw : w < q.graph.nodeCount := by
      have hend : ∀ (l : List Nat) (a b : Nat), a < q.graph.nodeCount → IsUp q.graph a l b → b < q.graph.nodeCount := by
        intro l
        induction l with
        | nil => intro a b ha h; cases h; exact ha
        | cons e l ih => rintro a b _ ⟨w, h1, _, h2⟩; exact ih w b (hwf.ends_lt .fwd e w h1.1) h2
      exact hend l1 _ _ hsrc hl1
    obtain ⟨l1', h1, h2, h3⟩ := short_of q.graph (fun e u v h => hwf.ends_lt .fwd e v h.1.1) hsrc (isUp_walk.mp hl1)
      (P := Open ms) (fun e he => ho e (List.mem_append_left _ he))
    obtain ⟨l2', h1', h2', h3'⟩ := short_of q.graph (fun e u v h => hwf.ends_lt .fwd e v h.1.1) hw (isDown_walk.mp hl2)
      (P := Open ms) (fun e he => ho e (List.mem_append_right _ he))
    obtain ⟨tf, rfl, hf⟩ := up_fwd hcode (Over.wt0 (look ms q.alphas)) (isUp_code.mpr (isUp_walk.mpr h1))
    obtain ⟨tb, hb', hb⟩ := down_bwd hcode (Over.wt0 (look ms q.alphas)) (isDown_code.mpr (isDown_walk.mpr h1'))
    refine h5 rfl w tf tb hf (fine_of_open (k := 400) (by norm_num) hwf hlen hm hmod.1 hal hmod.2 hdim' hf ?_ ?_)
      hb (fine_of_open (k := 400) (by norm_num) hwf hlen hm hmod.1 hal hmod.2 hdim' hb ?_ ?_)
    · exact fun t ht => h2 _ (List.mem_map.mpr ⟨t, ht, rfl⟩)
    · rw [List.length_map] at h3; omega
    · exact fun t ht => h2' _ (List.mem_reverse.mp (hb' ▸ List.mem_map.mpr ⟨t, ht, rfl⟩))
    · have := congrArg List.length hb'
      rw [List.length_map, List.length_reverse] at this
      omega
  · intro hno
    cases ans with
    | none => rfl
    | some p =>
      obtain ⟨m, tf, tb, i, j, h3, h4, h7, h8, _, _, rfl⟩ := h6 p rfl
      refine absurd ⟨_, ⟨m, _, _, rfl, isUp_code.mp (fwd_up hcode h3), isDown_code.mp (bwd_down hcode h7)⟩, ?_⟩ hno
      intro e he
      rcases List.mem_append.mp he with he | he
      · obtain ⟨t, ht, rfl⟩ := List.mem_map.mp he
        exact open_of_finite hdim (h4.1 t ht)
      · obtain ⟨t, ht, rfl⟩ := List.mem_map.mp (List.mem_reverse.mp he)
        exact open_of_finite hdim (h8.1 t ht)

/-- An answer comes from the search on open edges. -/
theorem near_of {p : Path} (hwf : q.graph.WellFormed) (hlen : ms.length = q.graph.edgeCount) (hm : Nonneg ms)
    (hmod : Moderate ms q.alphas) (hdim : ∀ m ∈ ms, m.length = q.alphas.length)
    (hdim' : q.alphas.length ≤ 2 ^ 50) (hn' : q.graph.nodeCount ≤ 2 ^ 50)
    (hsrc : q.src < q.graph.nodeCount) (hdst : q.dst < q.graph.nodeCount) (hu : Used n s)
    (hc : router ms fuel s q = some (.ok (s', some p))) {c : Cfg (Rounded f64)}
    (hcf : c = Over.filt (Over.finite (code q.graph ms.length) (look ms q.alphas))
      (cfg (heap f64) (code q.graph ms.length) (Over.wt0 (look ms q.alphas)) (decide (q.algo = .chDijkstra))
        q.src q.dst)) :
    ∃ a m t x y tf tb i j, loopA c fuel (initA c) none = some (a, some (m, some t)) ∧ x + y ≤ t ∧
      IsRt (c.out .fwd) c.src tf m ∧ IsRt (c.out .bwd) c.dst tb m ∧
      costFrom 0 tf ≤ x ∧ costFrom 0 tb ≤ y ∧ tf.length < q.graph.nodeCount ∧ tb.length < q.graph.nodeCount ∧
      p = Path.new q.src i q.dst j (tf.map (·.1) ++ (tb.map (·.1)).reverse) := by
  obtain ⟨halg, hal⟩ := valid hc
  rw [router_eq hm] at hc
  exact Over.compute_near (q := codeQ q ms.length) (code_wf hwf hlen) (addOk_rounded f64)
    (fun m hmem => look_nonneg hal hm hmem) Over.fits_zero
    (bound_code (k := 400) (by norm_num) hm hmod.1 hal hmod.2 hdim' hdim)
    (fits_twice (by norm_num) hn') hsrc hdst hu.tidy halg hal hc hcf

/-- A returned path has at most `2n - 2` edges. -/
theorem C109_length {p : Path} (hwf : q.graph.WellFormed) (hlen : ms.length = q.graph.edgeCount) (hm : Nonneg ms)
    (hmod : Moderate ms q.alphas) (hdim : ∀ m ∈ ms, m.length = q.alphas.length)
    (hdim' : q.alphas.length ≤ 2 ^ 50) (hn' : q.graph.nodeCount ≤ 2 ^ 50)
    (hsrc : q.src < q.graph.nodeCount) (hdst : q.dst < q.graph.nodeCount) (hu : Used n s)
    (hc : router ms fuel s q = some (.ok (s', some p))) : p.edges.length ≤ 2 * q.graph.nodeCount - 2 := by
  obtain ⟨a, m, t, x, y, tf, tb, i, j, _, _, _, _, _, _, l1, l2, rfl⟩ :=
    near_of hwf hlen hm hmod hdim hdim' hn' hsrc hdst hu hc rfl
  simp only [Path.new, List.length_append, List.length_map, List.length_reverse]
  omega

/-- No route of open edges is cheaper by more than a millionth and what comparing approximately costs in `fuel`
iterations. -/
theorem C109_near {p : Path} {deg : Nat} (hwf : q.graph.WellFormed) (hlen : ms.length = q.graph.edgeCount)
    (hm : Nonneg ms) (hmod : Moderate ms q.alphas) (hdim : ∀ m ∈ ms, m.length = q.alphas.length)
    (hdim' : q.alphas.length ≤ 2 ^ 28) (hn' : q.graph.nodeCount ≤ 2 ^ 28)
    (hdeg : MaxDegree q.graph deg)
    (hsrc : q.src < q.graph.nodeCount) (hdst : q.dst < q.graph.nodeCount) (hu : Used n s)
    (halg : q.algo = .dijkstra) (hc : router ms fuel s q = some (.ok (s', some p))) :
    ∀ l, q.graph.IsRoute q.src l q.dst → (∀ e ∈ l, Open ms e) → costOf ms q.alphas p.edges ≤
      (1 + 1 / 1000000) * costOf ms q.alphas l + (2 + fuel * (deg + 2)) * (1 / 250000) := by
  intro l hl hlo
  have hal := (valid hc).2
  have hdec : decide (q.algo = Algo.chDijkstra) = false := by rw [halg]; rfl
  have hd50 : q.alphas.length ≤ 2 ^ 50 := le_trans hdim' (by norm_num)
  obtain ⟨a, m, t, x, y, tf, tb, i, j, h0, hxy, h1, h2, h3, h4, l1, l2, rfl⟩ :=
    near_of hwf hlen hm hmod hdim hd50 (le_trans hn' (by norm_num)) hsrc hdst hu hc rfl
  rw [hdec] at h0 h1 h2
  obtain ⟨l', h5, h6, h7, h8⟩ := short_cost q.graph hm hal (fun e u v h => hwf.ends_lt .fwd e v h.1) hsrc
    (isRoute_walk.mp hl) hlo
  obtain ⟨ts, rfl, hts⟩ := route_fwd (fins_wf hwf hlen) (Fp.dot f64 q.alphas)
    (isRoute_fins.mpr (isRoute_walk.mpr h5))
  have hts' := isRt_open (k := 400) (by norm_num) hwf hlen hm hmod.1 hal hmod.2 hd50 hdim (h := heap f64)
    (src := q.src) (dst := q.dst) hts (fun t ht => h6 _ (List.mem_map.mpr ⟨t, ht, rfl⟩))
  have h9 := near_core f64_err (by norm_num) (by decide +kernel) (fins_wf hwf hlen) (fins_nonneg hm) hal rfl
    (fun d u t ht => ((mem_filt (k := 400) (by norm_num) hwf hlen hm hmod.1 hal hmod.2 hd50 hdim).mp ht).1) rfl
    (deg := deg) (fun d v => le_trans (List.length_filter_le _ _) (outArcs_length (code_wf hwf hlen) hdeg d v))
    (mirror_filt (mirror (code_wf hwf hlen)))
    (Over.outOk_filt (outOk (code_wf hwf hlen) (fun m hmem => look_nonneg hal hm hmem))) h0 hxy h1 h2 h3 h4 hts'
  rw [fins_cost, fins_cost, fins_cost] at h9
  have hnn : ∀ l, 0 ≤ costOf ms q.alphas l := fun l => by
    rw [← fins_cost (g := q.graph)]
    exact routeCost_nonneg' (fins_nonneg hm) hal l
  have happ : costOf ms q.alphas (tf.map (·.1) ++ (tb.map (·.1)).reverse) =
      costOf ms q.alphas (tf.map (·.1)) + costOf ms q.alphas (tb.map (·.1)) := by
    rw [← fins_cost (g := q.graph), ← fins_cost (g := q.graph), ← fins_cost (g := q.graph), routeCost_append,
      routeCost_reverse]
  simp only [Path.new, happ]
  rw [List.length_map] at h7
  have hE : (2 : ℚ) ≤ 2 + fuel * (deg + 2) := by
    have : (0 : ℚ) ≤ fuel * (deg + 2) := by positivity
    linarith
  have h10 := millionth (c := (2 + fuel * (deg + 2)) * (1 / 250000))
    (powers (N := tf.length + tb.length + q.alphas.length + 3) (by omega)).1
    (powers (N := ts.length + q.alphas.length + 3) (by omega)).2
    (add_nonneg (hnn _) (hnn _)) (hnn _) (by positivity) (tiny (by omega) (by omega))
    (tiny (by omega) (by omega)) (by norm_num; linarith) (by norm_num; linarith) h9
  linarith

/-- The same for ch-dijkstra and routes that go up and then down. -/
theorem C109_near_up_down {p : Path} {deg : Nat} (hwf : q.graph.WellFormed) (hlen : ms.length = q.graph.edgeCount)
    (hm : Nonneg ms) (hmod : Moderate ms q.alphas) (hdim : ∀ m ∈ ms, m.length = q.alphas.length)
    (hdim' : q.alphas.length ≤ 2 ^ 28) (hn' : q.graph.nodeCount ≤ 2 ^ 28)
    (hdeg : MaxDegree q.graph deg)
    (hsrc : q.src < q.graph.nodeCount) (hdst : q.dst < q.graph.nodeCount) (hu : Used n s)
    (halg : q.algo = .chDijkstra) (hc : router ms fuel s q = some (.ok (s', some p))) :
    ∀ l, IsUpDown q.graph q.src l q.dst → (∀ e ∈ l, Open ms e) → costOf ms q.alphas p.edges ≤
      (1 + 1 / 1000000) * costOf ms q.alphas l + (2 + fuel * (deg + 2)) * (1 / 500000) := by
  rintro l ⟨w, l1, l2, rfl, hl1, hl2⟩ hlo
  have hal := (valid hc).2
  have hdec : decide (q.algo = Algo.chDijkstra) = true := by rw [halg]; rfl
  have hd50 : q.alphas.length ≤ 2 ^ 50 := le_trans hdim' (by norm_num)
  obtain ⟨a, m, t, x, y, tf, tb, i, j, h0, hxy, h1, h2, h3, h4, len1, len2, rfl⟩ :=
    near_of hwf hlen hm hmod hdim hd50 (le_trans hn' (by norm_num)) hsrc hdst hu hc rfl
  rw [hdec] at h0 h1 h2
  have hw : w < q.graph.nodeCount := by
    have hend : ∀ (l : List Nat) (a b : Nat), a < q.graph.nodeCount → IsUp q.graph a l b → b < q.graph.nodeCount := by
      intro l
      induction l with
      | nil => intro a b ha h; cases h; exact ha
      | cons e l ih => rintro a b _ ⟨w, h1, _, h2⟩; exact ih w b (hwf.ends_lt .fwd e w h1.1) h2
    exact hend l1 _ _ hsrc hl1
  obtain ⟨l1', h5, h6, h7, h8⟩ := short_cost q.graph hm hal (fun e u v h => hwf.ends_lt .fwd e v h.1.1) hsrc
    (isUp_walk.mp hl1) (fun e he => hlo e (List.mem_append_left _ he))
  obtain ⟨l2', h5', h6', h7', h8'⟩ := short_cost q.graph hm hal (fun e u v h => hwf.ends_lt .fwd e v h.1.1) hw
    (isDown_walk.mp hl2) (fun e he => hlo e (List.mem_append_right _ he))
  obtain ⟨t1, rfl, ht1⟩ := up_fwd (fins_wf hwf hlen) (Fp.dot f64 q.alphas) (isUp_fins.mpr (isUp_walk.mpr h5))
  obtain ⟨t2, e2, ht2⟩ := down_bwd (fins_wf hwf hlen) (Fp.dot f64 q.alphas)
    (isDown_fins.mpr (isDown_walk.mpr h5'))
  have ht1' := isRt_open (k := 400) (by norm_num) hwf hlen hm hmod.1 hal hmod.2 hd50 hdim (h := heap f64)
    (src := q.src) (dst := q.dst) ht1 (fun t ht => h6 _ (List.mem_map.mpr ⟨t, ht, rfl⟩))
  have ht2' := isRt_open (k := 400) (by norm_num) hwf hlen hm hmod.1 hal hmod.2 hd50 hdim (h := heap f64)
    (src := q.src) (dst := q.dst) ht2
    (fun t ht => h6' _ (List.mem_reverse.mp (e2 ▸ List.mem_map.mpr ⟨t, ht, rfl⟩)))
  have h9 := near_core_up_down f64_err (by norm_num) (by decide +kernel) (fins_wf hwf hlen) (fins_nonneg hm) hal rfl
    (fun d u t ht => ((mem_filt (k := 400) (by norm_num) hwf hlen hm hmod.1 hal hmod.2 hd50 hdim).mp ht).1) rfl
    (deg := deg) (fun d v => le_trans (List.length_filter_le _ _) (outArcs_length (code_wf hwf hlen) hdeg d v))
    (Over.outOk_filt (outOk (code_wf hwf hlen) (fun m hmem => look_nonneg hal hm hmem))) h0 hxy h1 h2 h3 h4 ht1' ht2'
  rw [fins_cost, fins_cost, fins_cost, fins_cost] at h9
  have hnn : ∀ l, 0 ≤ costOf ms q.alphas l := fun l => by
    rw [← fins_cost (g := q.graph)]
    exact routeCost_nonneg' (fins_nonneg hm) hal l
  have happ : ∀ l l', costOf ms q.alphas (l ++ l') = costOf ms q.alphas l + costOf ms q.alphas l' := by
    intro l l'
    rw [← fins_cost (g := q.graph), ← fins_cost (g := q.graph), ← fins_cost (g := q.graph), routeCost_append]
  have hrev : ∀ l, costOf ms q.alphas l.reverse = costOf ms q.alphas l := by
    intro l
    rw [← fins_cost (g := q.graph), ← fins_cost (g := q.graph), routeCost_reverse]
  simp only [Path.new, happ, hrev]
  rw [List.length_map] at h7
  have hl2len := congrArg List.length e2
  rw [List.length_map, List.length_reverse] at hl2len
  rw [e2, hrev] at h9
  have hE : (2 : ℚ) ≤ 2 + fuel * (deg + 2) := by
    have : (0 : ℚ) ≤ fuel * (deg + 2) := by positivity
    linarith
  have h10 := millionth (c := (2 + fuel * (deg + 2)) * (1 / 500000))
    (powers (N := tf.length + tb.length + q.alphas.length + 2) (by omega)).1
    (powers (N := t1.length + t2.length + q.alphas.length + 2) (by omega)).2
    (add_nonneg (hnn _) (hnn _)) (add_nonneg (hnn _) (hnn _)) (by positivity) (tiny (by omega) (by omega))
    (tiny (by omega) (by omega)) (by linarith) (by linarith) h9
  linarith

/-- Queries terminate. -/
theorem C109_terminates (hwf : q.graph.WellFormed) (hlen : ms.length = q.graph.edgeCount) (hm : Nonneg ms)
    (hsrc : q.src < q.graph.nodeCount) (hdst : q.dst < q.graph.nodeCount) :
    ∃ N, ∀ fuel, N ≤ fuel → ∀ (n : Nat) s, Used n s → router ms fuel s q ≠ none := by
  by_cases hal : ∀ a ∈ q.alphas, 0 ≤ a
  swap
  · refine ⟨0, fun fuel _ n s _ => ?_⟩
    unfold router
    rw [if_pos (by simpa using hal)]
    simp
  by_cases halg : q.algo = .explorator
  · refine ⟨0, fun fuel _ n s _ => ?_⟩
    unfold router
    rw [if_neg (by simpa using hal), halg]
    simp
  have hf := finOk (h := heap f64) (wt := Over.wt0 (look ms q.alphas)) (isCh := decide (q.algo = .chDijkstra))
    (code_wf hwf hlen) hsrc hdst
  have ho := outOk (h := heap f64) (wt := Over.wt0 (look ms q.alphas)) (isCh := decide (q.algo = .chDijkstra))
    (src := q.src) (dst := q.dst) (code_wf hwf hlen) (fun m hmem => look_nonneg hal hm hmem)
  set c := cfg (heap f64) (code q.graph ms.length) (Over.wt0 (look ms q.alphas)) (decide (q.algo = .chDijkstra))
    q.src q.dst with hcfg
  refine ⟨max (pot (vals c q.graph.nodeCount) q.graph.nodeCount (initA c) + 1) (q.graph.nodeCount + 1),
    fun fuel hfuel n s hu hc => ?_⟩
  have h1 := le_trans (le_max_left _ _) hfuel
  have h2 := le_trans (le_max_right _ _) hfuel
  rw [router_eq hm] at hc
  rcases Over.compute_noneB (q := codeQ q ms.length) (code_wf hwf hlen) (addOk_rounded f64)
    (fun m hmem => look_nonneg hal hm hmem) Over.fits_zero hsrc hdst hu.tidy halg hal hc hcfg with h | h
  · obtain ⟨r, hr⟩ := Over.loopB_terminates (fits := Over.fitsF)
      (fin := Over.finite (code q.graph ms.length) (look ms q.alphas)) (addOk_rounded f64) ho hf
      (Over.InvD.init Over.fits_zero) h1
    exact absurd (hr.symm.trans h) (by simp)
  · exact absurd h (by
      change ¬ fuel ≤ q.graph.nodeCount
      omega)

/-- Queries on graphs whose nodes can all be asked for their leaving edges don't panic. -/
theorem C109_no_panic (hwf : q.graph.WellFormed) (hlen : ms.length = q.graph.edgeCount) (hm : Nonneg ms)
    (hn : q.graph.nodeCount ≠ 2) (hcov : AllCovered q.graph) (hsrc : q.src < q.graph.nodeCount)
    (hdst : q.dst < q.graph.nodeCount) (hu : Used q.graph.nodeCount s) (halg : q.algo ≠ .explorator) :
    router ms fuel s q ≠ some .panic := by
  intro hc
  by_cases hal : ∀ a ∈ q.alphas, 0 ≤ a
  · rcases cases_of (fuel := fuel) hwf hlen hm hn hsrc hdst hu halg hal rfl rfl with
      ⟨h, _⟩ | ⟨_, d, u, h1, h2⟩ | ⟨_, _, h, _⟩
    · rw [h] at hc; cases hc
    · exact h2 (hcov d u h1)
    · rw [h] at hc; cases hc
  · unfold router at hc
    rw [if_pos (by simpa using hal)] at hc
    cases hc

/-- If all values are finite, the router is that of `Overflow.lean`. -/
theorem C109_finite : router (q.graph.metrics.map (·.map .fin)) fuel s q = Over.router fuel s q := router_fin

end

/-! ## Loading -/

/-- What is loaded: undefined and positive infinite values are accepted, negative ones are not. -/
theorem C109_load {parseF : List Char → Option ℚ} {rows : List (List (List Char))} {ms : List (List (Num ℚ))} :
    load parseF rows = .ok ms ↔ List.Forall₂ (List.Forall₂ (Reads parseF)) rows ms := load_iff

/-- Loaded values are as the router's theorems assume. -/
theorem C109_loaded {parseF : List Char → Option ℚ} {rows : List (List (List Char))} {ms : List (List (Num ℚ))}
    (h : load parseF rows = .ok ms) : Nonneg ms ∧ ms.length = rows.length := by
  have h := load_iff.mp h
  refine ⟨?_, h.length_eq.symm⟩
  intro m hm x hx
  obtain ⟨i, hi, rfl⟩ := List.getElem_of_mem hm
  obtain ⟨j, hj, rfl⟩ := List.getElem_of_mem hx
  have hi' : i < rows.length := by rw [h.length_eq]; exact hi
  have h2 := h.get hi' hi
  have hj' : j < rows[i].length := by
    have := h2.length_eq
    simp only [List.get_eq_getElem] at this
    omega
  have h3 := h2.get hj' hj
  change Reads parseF rows[i][j] ms[i][j] at h3
  generalize ms[i][j] = x at h3
  generalize rows[i][j] = t at h3
  cases h3 with
  | nan => exact ⟨by simp, fun y hy => by cases hy⟩
  | inf => exact ⟨by simp, fun y hy => by cases hy⟩
  | small _ _ _ => exact ⟨by simp, fun y hy => by cases hy; norm_num⟩
  | large _ _ hy => exact ⟨by simp, fun y hy' => by cases hy'; exact le_trans (by norm_num) hy⟩

/-- Edges with values that are not finite are no duplicates, not even of themselves. -/
theorem C109_duplicates {m m' : List (Num ℚ)} (hlen : m.length = m'.length) (h : ∃ x ∈ m, ∀ y : ℚ, x ≠ .fin y) :
    sameAll m m' = false := by
  induction m generalizing m' with
  | nil => obtain ⟨x, hx, _⟩ := h; cases hx
  | cons a m ih =>
    cases m' with
    | nil => simp at hlen
    | cons b m' =>
      unfold sameAll
      split
      · rename_i hs
        refine ih (by simpa using hlen) ?_
        obtain ⟨x, hx, hy⟩ := h
        rcases List.mem_cons.mp hx with rfl | hx
        · cases x with
          | fin y => exact absurd rfl (hy y)
          | inf | neg | nan => cases hs
        · exact ⟨x, hx, hy⟩
      · rfl

/-- Finite values are compared as in `Building.lean`. -/
theorem C109_duplicates_finite (m m' : List ℚ) : sameAll (m.map .fin) (m'.map .fin) =
    (m.zip m').all (fun p => Approx.eq p.1 p.2) := by
  induction m generalizing m' with
  | nil => rfl
  | cons a m ih =>
    cases m' with
    | nil => rfl
    | cons b m' =>
      simp only [List.map_cons, sameAll, same, List.zip_cons_cons, List.all_cons, ih]
      cases Approx.eq a b <;> rfl

/-! ## Generating and normalizing -/

/-- Calculated values: those of `Config.lean`, and if the divisor is zero, they are infinite or undefined. -/
theorem C109_calc (result ua : Cfg.Unit) (a : ℚ) (ub : Cfg.Unit) (b : ℚ) :
    tryCalc result ua (.fin a) ub (.fin b) = match Cfg.Unit.tryCalc result ua a ub b with
      | .ok y => some (.fin y)
      | .error .infinite => some (if 0 < a then .inf else if a < 0 then .neg else .nan)
      | .error _ => none := by
  have hd : div (.fin a) (.fin b) = if b = 0 then (if 0 < a then .inf else if a < 0 then .neg else .nan) else
      .fin (a / b) := by
    unfold div signed
    rcases lt_trichotomy a 0 with h | rfl | h
    · simp [h, h.ne, not_lt.mpr (le_of_lt h)]
    · simp
    · simp [h, h.ne']
  cases result <;> simp only [tryCalc, Cfg.Unit.tryCalc, hd] <;>
    (by_cases hb : b = 0 <;> split_ifs <;> simp_all [scale, Cfg.sOfH, Cfg.minOfH])

theorem fold_fin' {ms : List (List ℚ)} {acc : List ℚ} :
    (ms.map (·.map Num.fin)).foldl (List.zipWith add) (acc.map .fin) = (ms.foldl Gen.addVec acc).map .fin := by
  induction ms generalizing acc with
  | nil => rfl
  | cons m ms ih =>
    simp only [List.map_cons, List.foldl_cons]
    rw [← ih]
    congr 1
    unfold Gen.addVec
    rw [List.map_zipWith, List.zipWith_map]
    rfl

theorem means_fin {dim : Nat} {ms : List (List ℚ)} (h : ms ≠ []) :
    means dim (ms.map (·.map .fin)) = (Gen.meansOf dim ms ms.length).map .fin := by
  have hz : (ms.length : ℚ) ≠ 0 := by simpa using h
  have hr : List.replicate dim (Num.fin (0 : ℚ)) = (List.replicate dim (0 : ℚ)).map .fin := by simp
  unfold means Gen.meansOf
  rw [hr, fold_fin', List.map_map, List.map_map, List.length_map]
  refine List.map_congr_left fun x _ => ?_
  simp only [Function.comp, div, hz, if_false]

theorem divide_fin {ns : List ℚ} (hz : ∀ x ∈ ns, x ≠ 0) {m : List ℚ} {k : Nat} (hl : ns.length = k + m.length) :
    ∃ m', Gen.divide ns k m = .ok m' ∧ divide ((ns.drop k).map .fin) (m.map .fin) = m'.map .fin := by
  induction m generalizing k with
  | nil => exact ⟨[], rfl, by simp [divide]⟩
  | cons x m ih =>
    have hk : k < ns.length := by rw [hl]; simp
    obtain ⟨m', h1, h2⟩ := ih (k := k + 1) (by rw [hl]; simp; omega)
    refine ⟨(if Approx.eq (x / ns[k]) 0 then eps else x / ns[k]) :: m', ?_, ?_⟩
    · unfold Gen.divide
      rw [List.getElem?_eq_getElem hk, h1]
      rfl
    · rw [List.drop_eq_getElem_cons hk]
      unfold divide at h2 ⊢
      simp only [List.map_cons, List.zipWith_cons_cons]
      rw [h2]
      refine congrArg (· :: _) ?_
      simp only [div, hz _ (List.getElem_mem hk), if_false, lift, same]
      split <;> rfl

/-- Finite values are normalized as in `Generating.lean`. -/
theorem C109_normalize_finite {dim : Nat} {ms : List (List ℚ)} (h : ms ≠ []) (hdim : ∀ m ∈ ms, m.length = dim) :
    ((Gen.meansOf dim ms ms.length).any (fun mean => Approx.eq mean 0) = true ∧
      normalize dim (ms.map (·.map .fin)) = .error .zeroMean) ∨
    ((Gen.meansOf dim ms ms.length).any (fun mean => Approx.eq mean 0) = false ∧
      ∃ ms', Gen.divideAll (Gen.meansOf dim ms ms.length) ms = .ok ms' ∧
        normalize dim (ms.map (·.map .fin)) = .ok (ms'.map (·.map .fin))) := by
  have hlen : (Gen.meansOf dim ms ms.length).length = dim := by
    unfold Gen.meansOf
    rw [List.length_map]
    have : ∀ (l : List (List ℚ)) (acc : List ℚ), (∀ m ∈ l, m.length = dim) → acc.length = dim →
        (l.foldl Gen.addVec acc).length = dim := by
      intro l
      induction l with
      | nil => exact fun _ _ h => h
      | cons m l ih =>
        intro acc h1 h2
        exact ih _ (fun m hm => h1 m (List.mem_cons_of_mem _ hm))
          (by simp [Gen.addVec, h2, h1 m List.mem_cons_self])
    exact this ms _ hdim (by simp)
  have hany : (means dim (ms.map (·.map .fin))).any (fun mean => same mean (.fin 0)) =
      (Gen.meansOf dim ms ms.length).any (fun mean => Approx.eq mean 0) := by
    rw [means_fin h, List.any_map]
    rfl
  unfold normalize
  rw [if_neg (by simpa using h), hany, means_fin h]
  generalize Gen.meansOf dim ms ms.length = ns at hlen
  cases hc : ns.any (fun mean => Approx.eq mean 0) with
  | true => exact .inl ⟨rfl, rfl⟩
  | false =>
    refine .inr ⟨rfl, ?_⟩
    have hz : ∀ x ∈ ns, x ≠ 0 := by
      rintro x hx rfl
      have := List.any_eq_false.mp hc 0 hx
      exact this eq_zero
    clear h hany hc
    induction ms with
    | nil => exact ⟨[], rfl, rfl⟩
    | cons m ms ih =>
      obtain ⟨ms', h1, h2⟩ := ih (fun m hm => hdim m (List.mem_cons_of_mem _ hm))
      obtain ⟨m', h3, h4⟩ := divide_fin hz (m := m) (k := 0) (by rw [hlen, hdim m List.mem_cons_self]; simp)
      refine ⟨m' :: ms', ?_, ?_⟩
      · unfold Gen.divideAll
        rw [h3, h1]
        rfl
      · simp only [if_false, Bool.false_eq_true, Except.ok.injEq] at h2 ⊢
        simp only [List.map_cons, h2]
        rw [List.drop_zero] at h4
        rw [h4]

section
variable {dim : Nat} {ms ms' : List (List (Num ℚ))}

/-- One undefined value makes its whole column undefined. -/
theorem C109_nan_column (h : normalize dim ms = .ok ms') (hdim : ∀ m ∈ ms, m.length = dim) {i : Nat}
    (hi : i < dim) (hnan : ∃ m ∈ ms, m[i]? = some .nan) : ∀ m' ∈ ms', m'[i]? = some .nan := by
  obtain ⟨xs, hx, hmem⟩ := column hdim hi
  have hmean := means_get hi hx
  rw [sum_nan (.inr ((hmem _).mpr hnan))] at hmean
  unfold normalize at h
  split_ifs at h
  cases h
  intro m' hm'
  obtain ⟨m, hm, rfl⟩ := List.mem_map.mp hm'
  have hlt : i < m.length := by rw [hdim m hm]; exact hi
  unfold divide
  rw [zipWith_get, List.getElem?_eq_getElem hlt, hmean]
  rw [show div Num.nan (.fin (ms.length : ℚ)) = .nan from rfl]
  simp only [div_nan]
  rfl

/-- One infinite value makes the finite values of its column `1e-6` and the infinite ones undefined. -/
theorem C109_inf_column (h : normalize dim ms = .ok ms') (hdim : ∀ m ∈ ms, m.length = dim) {i : Nat}
    (hi : i < dim) (hinf : ∃ m ∈ ms, m[i]? = some .inf)
    (hno : ∀ m ∈ ms, m[i]? ≠ some .nan ∧ m[i]? ≠ some .neg) {e : Nat} {m m' : List (Num ℚ)} {x : Num ℚ}
    (hm : ms[e]? = some m) (hm' : ms'[e]? = some m') (hx : m[i]? = some x) :
    m'[i]? = some (if x = .inf then .nan else .fin (1 / 1000000)) := by
  obtain ⟨xs, hcol, hmem⟩ := column hdim hi
  have hmean := means_get hi hcol
  rw [sum_inf (fun x hx => ?_) ⟨by simp, by simp⟩ (.inr ((hmem _).mpr hinf))] at hmean
  · unfold normalize at h
    split_ifs at h
    cases h
    rw [List.getElem?_map, hm] at hm'
    cases hm'
    unfold divide
    have hno := hno m (List.mem_of_getElem? hm)
    rw [hx] at hno
    rw [zipWith_get, hx, hmean]
    have hp : (0 : ℚ) ≤ (ms.length : ℚ) := by positivity
    cases x with
    | fin y =>
      simp only [div, signed, hp, decide_true, if_true, lift, same, eq_zero]
      rfl
    | inf =>
      simp only [div, signed, hp, decide_true, if_true, lift, same]
      rfl
    | neg | nan => simp at hno
  · obtain ⟨m, hm, hx⟩ := (hmem x).mp hx
    have := hno m hm
    rw [hx] at this
    simpa using this

end

/-- Hence, a normalized map with an undefined value has no open edges. -/
theorem C109_undefined {dim : Nat} {ms ms' : List (List (Num ℚ))} (h : normalize dim ms = .ok ms')
    (hdim : ∀ m ∈ ms, m.length = dim) (hnan : ∃ m ∈ ms, .nan ∈ m) (e : Nat) : ¬ Open ms' e := by
  rintro ⟨m', hm', hfin⟩
  obtain ⟨m, hm, hx⟩ := hnan
  obtain ⟨i, hi, hget⟩ := List.getElem_of_mem hx
  have := C109_nan_column h hdim (i := i) (by rw [← hdim m hm]; exact hi)
    ⟨m, hm, by rw [List.getElem?_eq_getElem hi, hget]⟩ m' (List.mem_of_getElem? hm')
  obtain ⟨y, hy⟩ := hfin _ (List.mem_of_getElem? this)
  cases hy

/-- On such a map, no path between different nodes is found. -/
theorem C109_undefined_none {fuel dim n : Nat} {s s' : St (Rounded f64)} {q : Query (Rounded f64)}
    {ms ms' : List (List (Num ℚ))} {ans : Option Path} (h : normalize dim ms = .ok ms')
    (hdim : ∀ m ∈ ms, m.length = dim) (hnan : ∃ m ∈ ms, .nan ∈ m) (hwf : q.graph.WellFormed)
    (hlen : ms'.length = q.graph.edgeCount) (hm : Nonneg ms') (hdim' : ∀ m ∈ ms', m.length = q.alphas.length)
    (hsrc : q.src < q.graph.nodeCount) (hdst : q.dst < q.graph.nodeCount)
    (hne : q.src ≠ q.dst) (hu : Used n s) (hc : router ms' fuel s q = some (.ok (s', ans))) :
    ans = none := by
  cases ans with
  | none => rfl
  | some p =>
    obtain ⟨h1, h2, _⟩ := C109_route hwf hlen hm hdim' hsrc hdst hu hc
    cases hp : p.edges with
    | nil => rw [hp] at h1; exact absurd h1 hne
    | cons e l => exact absurd (h2 e (by rw [hp]; exact List.mem_cons_self)) (C109_undefined h hdim hnan e)

/-! ## Examples and counterexamples -/

/-- `0 → 1`, `0 → 2`, `1 → 2` and `2 → 0`. -/
def triBuild : Build.R Graph :=
  Build.build 1 [edge1 0 1 1, edge1 0 2 1, edge1 1 2 1, edge1 2 0 1] (lvNodes 0 [0, 0, 0])

def triQuery (src dst : Nat) : Query (Rounded f64) :=
  { src, dst, graph := okGraph triBuild, algo := .dijkstra, alphas := [1] }

theorem tri_ok : triBuild = .ok (okGraph triBuild) := by decide +kernel

/-- Numbers for the examples. -/
def digits (t : List Char) : Option ℚ := (Text.digits? t).map fun n => (n : ℚ)

def orElse {ε α : Type} (d : α) : Except ε α → α
  | .ok x => x
  | .error _ => d

/-- The values of a map whose last edge has this text. -/
def triRows (t : List Char) : List (List (List Char)) := [[['1']], [['1', '0', '0']], [['1']], [t]]

def triLoaded (t : List Char) : List (List (Num ℚ)) := orElse [] (load digits (triRows t))

def triNormal (t : List Char) : List (List (Num ℚ)) := orElse [] (normalize 1 (triLoaded t))

/-- A map is loaded although the value of `2 → 0` is `NaN`. If its metrics are normalized, then no path from `0` to `2`
is found, although the routes don't use that edge. -/
theorem C109_false_normalized : load digits (triRows ['N', 'a', 'N']) = .ok (triLoaded ['N', 'a', 'N']) ∧
    normalize 1 (triLoaded ['N', 'a', 'N']) = .ok (triNormal ['N', 'a', 'N']) ∧
    (triQuery 0 2).graph.IsRoute 0 [0, 2] 2 ∧
    Open (triLoaded ['N', 'a', 'N']) 0 ∧ Open (triLoaded ['N', 'a', 'N']) 2 ∧
    answer (router (triLoaded ['N', 'a', 'N']) 20 St.new (triQuery 0 2)) =
      some (.ok (some (Path.new 0 0 2 2 [0, 2]))) ∧
    answer (router (triNormal ['N', 'a', 'N']) 20 St.new (triQuery 0 2)) = some (.ok none) := by
  refine ⟨by decide +kernel, by decide +kernel, ⟨1, ⟨by decide +kernel, by decide +kernel⟩, 2,
    ⟨by decide +kernel, by decide +kernel⟩, rfl⟩, ⟨[.fin 1], by decide +kernel, by simp⟩,
    ⟨[.fin 1], by decide +kernel, by simp⟩, by decide +kernel, by decide +kernel⟩

/-- If the value of `2 → 0` is `inf` and the metrics are normalized, then all other edges cost the same, so the path
from `0` to `2` is the edge that costs `100` instead of two edges that cost `1`. -/
theorem C109_false_inf : load digits (triRows ['i', 'n', 'f']) = .ok (triLoaded ['i', 'n', 'f']) ∧
    triNormal ['i', 'n', 'f'] = [[.fin (1 / 1000000)], [.fin (1 / 1000000)], [.fin (1 / 1000000)], [.nan]] ∧
    answer (router (triLoaded ['i', 'n', 'f']) 20 St.new (triQuery 0 2)) =
      some (.ok (some (Path.new 0 0 2 2 [0, 2]))) ∧
    answer (router (triNormal ['i', 'n', 'f']) 20 St.new (triQuery 0 2)) =
      some (.ok (some (Path.new 0 0 2 2 [1]))) := by
  refine ⟨by decide +kernel, by decide +kernel, by decide +kernel, by decide +kernel⟩

/-- Such values need not be written in a map: a generated duration is infinite if the speed is zero. -/
theorem C109_false_calc : tryCalc .hours .kilometers (.fin 5) .kmh (.fin 0) = some .inf ∧
    tryCalc .seconds .kilometers (.fin 0) .kmh (.fin 0) = some .nan := by decide +kernel

/-- The assumptions of `C109_route`, `C109_none_iff`, `C109_terminates`, `C109_no_panic`: the map with `inf`. -/
example : (triQuery 0 2).graph.WellFormed ∧ (triLoaded ['i', 'n', 'f']).length = (triQuery 0 2).graph.edgeCount ∧
    Nonneg (triLoaded ['i', 'n', 'f']) ∧ Moderate (triLoaded ['i', 'n', 'f']) [1] ∧
    (∀ m ∈ triLoaded ['i', 'n', 'f'], m.length = 1) ∧ (triQuery 0 2).graph.nodeCount = 3 ∧
    Used 3 (St.new : St (Rounded f64)) ∧ AllCovered (triQuery 0 2).graph ∧
    answer (router (triLoaded ['i', 'n', 'f']) 20 St.new (triQuery 0 2)) =
      some (.ok (some (Path.new 0 0 2 2 [0, 2]))) ∧
    answer (router (triLoaded ['i', 'n', 'f']) 20 St.new (triQuery 2 1)) = some (.ok none) ∧
    (triQuery 2 1).graph.IsRoute 2 [3, 0] 1 := by
  have hms : triLoaded ['i', 'n', 'f'] = [[.fin 1], [.fin 100], [.fin 1], [.inf]] := by decide +kernel
  refine ⟨Build.built_wellFormed tri_ok, by decide +kernel, (C109_loaded (rows := triRows ['i', 'n', 'f'])
    (parseF := digits) (by decide +kernel)).1, ⟨?_, ?_⟩, ?_, by decide +kernel, .new, ?_, by decide +kernel,
    by decide +kernel, ⟨0, ⟨by decide +kernel, by decide +kernel⟩, 1, ⟨by decide +kernel, by decide +kernel⟩, rfl⟩⟩
  · rw [hms]
    intro m hm y hy
    simp only [List.mem_cons, List.not_mem_nil, or_false] at hm
    rcases hm with rfl | rfl | rfl | rfl <;> simp at hy <;> subst hy <;> decide +kernel
  · intro a ha
    simp only [List.mem_cons, List.not_mem_nil, or_false] at ha
    subst ha
    exact one_le_pow₀ (by norm_num)
  · rw [hms]; simp
  · have h : ∀ d : Dir, (List.range 3).all (fun i => match (triQuery 0 2).graph.startingFrom d i with
        | .ok _ => true
        | _ => false) = true := by intro d; cases d <;> decide +kernel
    intro d i hi
    have := List.all_eq_true.mp (h d) i (List.mem_range.mpr (by
      have e : (triQuery 0 2).graph.nodeCount = 3 := by decide +kernel
      omega))
    cases h2 : (triQuery 0 2).graph.startingFrom d i with
    | ok es => exact ⟨es, h2⟩
    | err e => rw [h2] at this; cases this
    | panic => rw [h2] at this; cases this

/-- The assumptions of `C109_near`, `C109_length`: the edge that costs `100` is open as well, and it would be too
expensive. -/
example : MaxDegree (triQuery 0 2).graph 4 ∧ (triQuery 0 2).graph.IsRoute 0 [1] 2 ∧
    Open (triLoaded ['i', 'n', 'f']) 1 ∧ costOf (triLoaded ['i', 'n', 'f']) [1] [0, 2] = 2 ∧
    costOf (triLoaded ['i', 'n', 'f']) [1] [1] = 100 ∧
    (1 + 1 / 1000000 : ℚ) * 2 + (2 + (20 : Nat) * ((4 : Nat) + 2)) * (1 / 250000) < 100 := by
  have h := maxDegree_edges (Build.built_wellFormed tri_ok)
  have e : (okGraph triBuild).edgeCount = 4 := by decide +kernel
  rw [e] at h
  exact ⟨h, ⟨2, ⟨by decide +kernel, by decide +kernel⟩, rfl⟩, ⟨[.fin 100], by decide +kernel, by simp⟩,
    by decide +kernel, by decide +kernel, by norm_num⟩

/-- The same with ch-dijkstra. -/
example : answer (router (triLoaded ['i', 'n', 'f']) 20 St.new { triQuery 0 2 with algo := .chDijkstra }) =
      some (.ok (some (Path.new 0 0 2 2 [0, 2]))) ∧
    answer (router (triLoaded ['i', 'n', 'f']) 20 St.new { triQuery 2 1 with algo := .chDijkstra }) =
      some (.ok none) := by
  decide +kernel

/-- A router that has been used on the map, on a graph of two nodes, one of whose edges is not finite. -/
example : Used 3 (Over.after (router (triLoaded ['i', 'n', 'f']) 20 St.new (triQuery 0 2))) ∧
    (Over.pairQuery .dijkstra).graph.nodeCount = 2 ∧ Nonneg [[.fin 1], [.inf]] ∧
    answer (router [[.fin 1], [.inf]] 20 (Over.after (router (triLoaded ['i', 'n', 'f']) 20 St.new (triQuery 0 2)))
      (Over.pairQuery .dijkstra)) = some (.ok (some (Path.new 0 0 1 1 [0]))) ∧
    answer (router [[.nan], [.inf]] 20 (Over.after (router (triLoaded ['i', 'n', 'f']) 20 St.new (triQuery 0 2)))
      (Over.pairQuery .dijkstra)) = some (.ok none) := by
  refine ⟨Used.query .new (show (triQuery 0 2).graph.nodeCount ≤ 3 by decide +kernel)
    (C109_loaded (rows := triRows ['i', 'n', 'f']) (parseF := digits) (by decide +kernel)).1
    (Over.after_eq (ans := some (Path.new 0 0 2 2 [0, 2])) (by decide +kernel)), by decide +kernel, ?_,
    by decide +kernel, by decide +kernel⟩
  intro m hm x hx
  simp only [List.mem_cons, List.not_mem_nil, or_false] at hm
  rcases hm with rfl | rfl <;> simp at hx <;> subst hx <;> simp

/-- Texts that are accepted or not. -/
example : load digits [[['0'], ['2']], [['N', 'a', 'N'], ['i', 'n', 'f']]] =
      .ok [[.fin (1 / 1000000), .fin 2], [.nan, .inf]] ∧
    load digits [[['-', 'i', 'n', 'f']]] = .error .tooSmall ∧ load (fun _ => some (-1)) [[['2']]] = .error .tooSmall ∧
    load digits [[['x']]] = .error .text := by decide +kernel

/-- The assumptions of `C109_duplicates`. -/
example : sameAll [.fin 1, .inf] [.fin 1, .inf] = false ∧ sameAll [.fin 1, .fin 2] [.fin 1, .fin 2] = true := by
  decide +kernel

/-- The assumptions of `C109_normalize_finite`, `C109_nan_column`, `C109_inf_column`, `C109_undefined`,
`C109_undefined_none`. -/
example : normalize 2 [[.fin 1, .fin 4], [.fin 3, .fin 4]] = .ok [[.fin (1 / 2), .fin 1], [.fin (3 / 2), .fin 1]] ∧
    normalize 2 [[.fin 1, .fin 4], [.nan, .inf]] = .ok [[.nan, .fin (1 / 1000000)], [.nan, .nan]] ∧
    triNormal ['N', 'a', 'N'] = [[.nan], [.nan], [.nan], [.nan]] ∧
    normalize 1 [] = .error .noEdges ∧ normalize 1 [[.fin 0]] = .error .zeroMean := by decide +kernel

end Verif.Special
