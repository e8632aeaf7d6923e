import Verif.DijkstraLemmas4
import Verif.BinHeapLemmas
import Mathlib.Algebra.Order.BigOperators.Group.List

/-!
# Lemmas connecting the search to the properties of the router
-/

namespace Verif.Dij

set_option linter.unusedSectionVars false

open Graph Search

section
variable {K : Type} [LinearOrder K] [Zero K] [Add K] {h : Heap K}

/-- A query panics at once or starts the search, after any history. -/
theorem compute_split {dotp : List ℚ → List ℚ → K} {fuel n : Nat} {s : St K} {q : Query K}
    (ht : Tidy n s) (hle : q.graph.nodeCount ≤ n)
    (halg : q.algo ≠ .explorator) (hal : ∀ a ∈ q.alphas, 0 ≤ a) :
    computeBestPath h dotp fuel s q = some .panic ∨
    ∃ s0 s1, s0 = blank (decide (q.algo = .chDijkstra))
        (newLenD { s with isCh := decide (q.algo = .chDijkstra) } q.graph.nodeCount)
        (if decide (q.algo = .chDijkstra) then s.visited
          else fun _ => List.replicate q.graph.nodeCount false) ∧
      start h s0 q.src q.dst = .ok s1 ∧
      computeBestPath h dotp fuel s q = search h q.graph (dotp q.alphas) fuel s1 q.src q.dst := by
  rw [compute_eq halg hal]
  set b := decide (q.algo = .chDijkstra) with hb
  cases h0 : initQuery { s with isCh := b } q.graph.nodeCount with
  | panic => exact Or.inl rfl
  | err e => cases e
  | ok s0 =>
    rw [Res.ok_bind]
    have ht' : Tidy n { s with isCh := b } := ht.congr rfl rfl rfl
    have e := initQuery_inv hle ht' h0
    cases h1 : start h s0 q.src q.dst with
    | panic => exact Or.inl rfl
    | err e => cases e
    | ok s1 => exact Or.inr ⟨s0, s1, e, h1, rfl⟩

variable {g : Graph} {wt : List ℚ → K} {src dst : Nat}

theorem loop_pad_none (k : Nat) {fuel : Nat} {best : Best K} {s : St K}
    (hs : loop h g wt fuel s best = none) : loop h g wt fuel (s.pad k) best = none := by
  induction fuel generalizing s best with
  | zero => rfl
  | succ n ih =>
    unfold loop at hs ⊢
    rw [show (s.pad k).queue = s.queue from rfl]
    split at hs
    · cases hs
    · rename_i cur q hp
      rw [show ({ s.pad k with queue := q } : St K) = ({ s with queue := q } : St K).pad k from rfl]
      split at hs
      · cases hs
      · cases hs
      · cases hs
      · rename_i s1 b1 h1
        rw [step_pad k h1]
        exact ih hs

theorem walk_pad_none (k : Nat) {s : St K} {d : Dir} {fuel cur : Nat}
    (hs : walk g s d fuel cur = none) : walk g (s.pad k) d fuel cur = none := by
  induction fuel generalizing cur with
  | zero => rfl
  | succ n ih =>
    unfold walk at hs ⊢
    split at hs
    · cases hs
    · cases hs
    · rename_i e hp
      have hpre : ((s.pad k).preds d)[cur]? = some (some e) := by
        simp only [St.pad]
        rw [List.getElem?_append_left (Build.lt_length_of_getElem? hp)]
        exact hp
      rw [hpre]
      simp only
      split at hs
      · rename_i u hu
        rw [Option.map_eq_none_iff] at hs ⊢
        exact ih hs
      · cases hs

theorem search_pad_none (k : Nat) {fuel : Nat} {s : St K}
    (hs : search h g wt fuel s src dst = none) : search h g wt fuel (s.pad k) src dst = none := by
  unfold search at hs ⊢
  split at hs
  · rename_i hl
    rw [loop_pad_none k hl]
  · cases hs
  · cases hs
  · rename_i s1 best hl
    rw [loop_pad k hl]
    simp only
    rw [Option.map_eq_none_iff] at hs ⊢
    unfold mkPath at hs ⊢
    cases best with
    | none => cases hs
    | some mb =>
      obtain ⟨m, b⟩ := mb
      simp only at hs ⊢
      cases hf : walk g s1 .fwd fuel m with
      | none => rw [walk_pad_none k hf]; rfl
      | some rf =>
        cases hb : walk g s1 .bwd fuel m with
        | none =>
          rw [walk_pad_none k hb]
          cases walk g (s1.pad k) .fwd fuel m <;> rfl
        | some rb => rw [hf, hb] at hs; cases hs

/-- If the fuel does not suffice, it does not suffice for the search or for following predecessors. -/
theorem compute_none {dotp : List ℚ → List ℚ → K} {fuel n : Nat} {s : St K} {q : Query K}
    (hwf : q.graph.WellFormed) (hk : AddOk K)
    (hw : ∀ m ∈ q.graph.metrics, 0 ≤ dotp q.alphas m)
    (hsrc : q.src < q.graph.nodeCount) (hdst : q.dst < q.graph.nodeCount)
    (hu : Used h dotp n s) (hc : computeBestPath h dotp fuel s q = none)
    {c : Cfg K} (hcf : c = cfg h q.graph (dotp q.alphas) (decide (q.algo = .chDijkstra)) q.src q.dst) :
    loopA c fuel (initA c) none = none ∨ fuel ≤ q.graph.nodeCount := by
  have halg : q.algo ≠ .explorator := by
    intro ha
    unfold computeBestPath at hc
    rw [ha] at hc
    split at hc <;> cases hc
  have hal : ∀ a ∈ q.alphas, 0 ≤ a := by
    unfold computeBestPath at hc
    split at hc
    · cases hc
    · rename_i hneg
      simpa using hneg
  have ht := (hu.mono (le_max_left n q.graph.nodeCount)).tidy
  rcases compute_split (h := h) (dotp := dotp) (fuel := fuel) ht (le_max_right _ _) halg hal with
    h1 | ⟨s0, s1, rfl, h1, h2⟩
  · rw [h1] at hc; cases hc
  · rw [h2] at hc
    have hp := search_pad_none q.graph.nodeCount hc
    have hst := start_pad (h := h) q.graph.nodeCount h1
    obtain ⟨s3, h3, hsim⟩ := start_sim' (h := h) (g := q.graph) (wt := dotp q.alphas)
      (isCh := decide (q.algo = .chDijkstra)) (src := q.src) (dst := q.dst)
      (vis := if decide (q.algo = .chDijkstra) then s.visited
          else fun _ => List.replicate q.graph.nodeCount false)
      (L := fun d => newLenD { s with isCh := decide (q.algo = .chDijkstra) } q.graph.nodeCount d +
        q.graph.nodeCount)
      hsrc hdst (fun d => Nat.le_add_left _ _) (fun hbf => by rw [if_neg (by rw [hbf]; decide)])
    have hblank : ∀ b L v, (blank b L v : St K).pad q.graph.nodeCount =
        blank b (fun d => L d + q.graph.nodeCount) v := by
      intro b L v
      simp only [St.pad, blank, List.replicate_append_replicate]
    rw [hblank] at hst
    rw [hst] at h3
    cases h3
    rcases search_cases (fuel := fuel) hwf hk hw hsrc hdst hsim with h4 | h4 | ⟨_, _, _, _, h4, _⟩
    · rw [hcf]; exact h4.2
    · rw [h4.1] at hp; cases hp
    · rw [h4] at hp; cases hp

end

theorem dot_eq (a m : List ℚ) : dot a m = (List.zipWith (· * ·) a m).sum := by
  have key : ∀ (l : List (ℚ × ℚ)) (s : ℚ),
      l.foldl (fun s p => s + p.1 * p.2) s = s + (l.map (fun p => p.1 * p.2)).sum := by
    intro l
    induction l with
    | nil => intro s; simp
    | cons p l ih =>
      intro s
      rw [List.foldl_cons, ih, List.map_cons, List.sum_cons, add_assoc]
  rw [dot, key, zero_add]
  congr 1
  induction a generalizing m with
  | nil => simp
  | cons x a ih => cases m with
    | nil => simp
    | cons y m => simp [ih]

theorem dot_nonneg {a m : List ℚ} (ha : ∀ x ∈ a, 0 ≤ x) (hm : ∀ x ∈ m, 0 ≤ x) : 0 ≤ dot a m := by
  rw [dot_eq]
  induction a generalizing m with
  | nil => simp
  | cons x a ih => cases m with
    | nil => simp
    | cons y m =>
      rw [List.zipWith_cons_cons, List.sum_cons]
      exact add_nonneg (mul_nonneg (ha x List.mem_cons_self) (hm y List.mem_cons_self))
        (ih (fun z hz => ha z (List.mem_cons_of_mem _ hz)) (fun z hz => hm z (List.mem_cons_of_mem _ hz)))

theorem weights_nonneg {g : Graph} {al : List ℚ} (ha : ∀ x ∈ al, 0 ≤ x) (hm : NonnegMetrics g) :
    ∀ m ∈ g.metrics, 0 ≤ dot al m := fun m hmem => dot_nonneg ha (hm m hmem)

section
variable {g : Graph} {al : List ℚ} {isCh : Bool}

theorem routeCost_append (l l' : List Nat) :
    routeCost g al (l ++ l') = routeCost g al l + routeCost g al l' := by
  simp [routeCost]

theorem routeCost_reverse (l : List Nat) : routeCost g al l.reverse = routeCost g al l := by
  unfold routeCost
  rw [List.map_reverse, List.sum_reverse]

/-- The cost of arcs is the cost of the edges. -/
theorem cost_eq (hwf : g.WellFormed) {d : Dir} {u v : Nat} {ts : List (Arc ℚ)}
    (hr : IsRt (outArcs g (dot al) isCh d) u ts v) : cost ts = routeCost g al (ts.map (·.1)) := by
  induction ts generalizing u with
  | nil => rfl
  | cons t ts ih =>
    obtain ⟨_, _, ⟨m, hm, hw⟩, _⟩ := (mem_outArcs hwf).mp hr.1
    rw [cost_cons, ih hr.2, hw, dot_eq]
    simp [routeCost, hm]

theorem mirror (hwf : g.WellFormed) {h : Heap ℚ} {src dst : Nat} :
    Mirror (cfg h g (dot al) false src dst) := by
  intro u v e w
  simp only [cfg, mem_outArcs hwf, Dir.opp]
  constructor
  · rintro ⟨h1, h2, h3, _⟩; exact ⟨h2, h1, h3, by intro h; cases h⟩
  · rintro ⟨h1, h2, h3, _⟩; exact ⟨h2, h1, h3, by intro h; cases h⟩

theorem minOk (hwf : g.WellFormed) {h : Heap ℚ} {src dst : Nat} {V : ℚ → Prop} (hm : h.Min V)
    (h0 : V 0) (hadd : ∀ m ∈ g.metrics, ∀ x, V x → V (x + dot al m)) :
    MinOk (cfg h g (dot al) isCh src dst) V := by
  refine ⟨hm, h0, fun d u t x ht hx => ?_⟩
  obtain ⟨_, _, ⟨m, hmm, hw⟩, _⟩ := (mem_outArcs hwf).mp ht
  rw [hw]
  exact hadd m (List.mem_of_getElem? hmm) x hx

end
end Verif.Dij
