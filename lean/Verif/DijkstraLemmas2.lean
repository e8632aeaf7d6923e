import Verif.DijkstraLemmas

/-!
# What a used router looks like before the next query
-/

namespace Verif.Dij

set_option linter.unusedSectionVars false

open Search Graph Build

section
variable {K : Type}

/-- Everything that is not touched is unset, and all vectors are at most `n` long. -/
structure Tidy (n : Nat) (s : St K) : Prop where
  len : ∀ d, (s.costs d).length = (s.preds d).length
  le : ∀ d, (s.costs d).length ≤ n
  touched : ∀ d, ∀ i ∈ s.touched d, i < (s.costs d).length
  unset : ∀ d i, i < (s.costs d).length → i ∉ s.touched d →
    (s.costs d)[i]? = some none ∧ (s.preds d)[i]? = some none

theorem Tidy.new (n : Nat) : Tidy n (St.new : St K) := by
  constructor
  · intro d; rfl
  · intro d; simp [St.new]
  · intro d i hi; cases hi
  · intro d i hi; simp [St.new] at hi

theorem setIdx_inv {α : Type} {l l' : List α} {i : Nat} {x : α} (h : setIdx l i x = .ok l') :
    i < l.length ∧ l' = l.set i x := by
  unfold setIdx at h
  split at h
  · rename_i hi
    cases h
    exact ⟨hi, rfl⟩
  · cases h

theorem drain_inv {is : List Nat} {cs cs' : List (Option K)} {ps ps' : List (Option Nat)}
    (h : drain is cs ps = .ok (cs', ps')) :
    cs'.length = cs.length ∧ ps'.length = ps.length ∧
    (∀ i ∈ is, cs'[i]? = some none ∧ ps'[i]? = some none) ∧
    (∀ i, i ∉ is → cs'[i]? = cs[i]? ∧ ps'[i]? = ps[i]?) := by
  induction is generalizing cs ps with
  | nil =>
    simp only [drain, Res.ok.injEq, Prod.mk.injEq] at h
    obtain ⟨rfl, rfl⟩ := h
    exact ⟨rfl, rfl, (by intro i hi; cases hi), fun i _ => ⟨rfl, rfl⟩⟩
  | cons j is ih =>
    unfold drain at h
    obtain ⟨c1, hc1, h⟩ := Res.bind_eq_ok.mp h
    obtain ⟨p1, hp1, h⟩ := Res.bind_eq_ok.mp h
    obtain ⟨hj, rfl⟩ := setIdx_inv hc1
    obtain ⟨hj', rfl⟩ := setIdx_inv hp1
    obtain ⟨h1, h2, h3, h4⟩ := ih h
    rw [List.length_set] at h1 h2
    refine ⟨h1, h2, ?_, ?_⟩
    · intro i hi
      by_cases hm : i ∈ is
      · exact h3 i hm
      · rcases List.mem_cons.mp hi with rfl | hi
        · obtain ⟨h5, h6⟩ := h4 i hm
          rw [h5, h6]
          simp [hj, hj']
        · exact absurd hi hm
    · intro i hi
      have hij : j ≠ i := fun h => hi (h ▸ List.mem_cons_self)
      obtain ⟨h5, h6⟩ := h4 i (fun h => hi (List.mem_cons_of_mem _ h))
      rw [h5, h6, List.getElem?_set, List.getElem?_set, if_neg hij, if_neg hij]
      exact ⟨rfl, rfl⟩

theorem drain_ok {is : List Nat} {cs : List (Option K)} {ps : List (Option Nat)}
    (hc : ∀ i ∈ is, i < cs.length) (hp : ∀ i ∈ is, i < ps.length) :
    ∃ r, drain is cs ps = .ok r := by
  induction is generalizing cs ps with
  | nil => exact ⟨_, rfl⟩
  | cons j is ih =>
    unfold drain
    have h1 := hc j List.mem_cons_self
    have h2 := hp j List.mem_cons_self
    simp only [setIdx, h1, h2, if_true, Res.ok_bind]
    exact ih (by intro i hi; simpa using hc i (List.mem_cons_of_mem _ hi))
      (by intro i hi; simpa using hp i (List.mem_cons_of_mem _ hi))

theorem resize_length {α : Type} (l : List α) (n : Nat) (a : α) : (resize l n a).length = n := by
  simp only [resize, List.length_append, List.length_take, List.length_replicate]
  omega

theorem resize_getElem? {α : Type} (l : List α) (n : Nat) (a : α) {i : Nat} (hi : i < n) :
    (resize l n a)[i]? = some (l[i]?.getD a) := by
  unfold resize
  by_cases h : i < l.length
  · rw [List.getElem?_append_left (by rw [List.length_take]; omega), List.getElem?_take_of_lt hi]
    simp [h]
  · rw [List.getElem?_append_right (by rw [List.length_take]; omega), List.length_take,
      List.getElem?_replicate, if_pos (by omega)]
    simp [List.getElem?_eq_none (by omega : l.length ≤ i)]

theorem eq_replicate_of {α : Type} {l : List α} {a : α} {n : Nat} (hl : l.length = n)
    (h : ∀ i, i < n → l[i]? = some a) : l = List.replicate n a := by
  apply List.ext_getElem?
  intro i
  by_cases hi : i < n
  · rw [h i hi, List.getElem?_replicate, if_pos hi]
  · rw [List.getElem?_eq_none (by omega), List.getElem?_eq_none (by simp; omega)]

/-- The length of the vectors after `init_query`. -/
def newLenD (s : St K) (m : Nat) (d : Dir) : Nat := if 2 ≠ m then m else (s.costs d).length

/-- What `init_query` makes of one direction. -/
theorem initDir_inv {n m : Nat} {s s' : St K} {d : Dir} (ht : Tidy n s) (h : initDir s m d = .ok s') :
    s' = { s with
      costs := Function.update s.costs d (List.replicate (newLenD s m d) none)
      preds := Function.update s.preds d (List.replicate (newLenD s m d) none)
      visited := Function.update s.visited d (if s.isCh then s.visited d else List.replicate m false)
      flag := Function.update s.flag d false
      touched := Function.update s.touched d [] } := by
  unfold initDir at h
  obtain ⟨⟨cs, ps⟩, hdr, h⟩ := Res.bind_eq_ok.mp h
  simp only [Res.pure_eq, Res.ok.injEq] at h
  obtain ⟨h1, h2, h3, h4⟩ := drain_inv hdr
  have hlenc : cs.length = newLenD s m d := by
    rw [h1]
    unfold newLenD
    split
    · exact resize_length _ _ _
    · rfl
  have hlenp : ps.length = newLenD s m d := by
    rw [h2]
    unfold newLenD
    split
    · exact resize_length _ _ _
    · exact (ht.len d).symm
  have hcs : cs = List.replicate (newLenD s m d) none := by
    refine eq_replicate_of hlenc (fun i hi => ?_)
    by_cases hm : i ∈ s.touched d
    · exact (h3 i hm).1
    · rw [(h4 i hm).1]
      unfold newLenD at hi
      split
      · rename_i hne
        rw [if_pos hne] at hi
        rw [resize_getElem? _ _ _ hi]
        by_cases hl : i < (s.costs d).length
        · rw [(ht.unset d i hl hm).1]; rfl
        · rw [List.getElem?_eq_none (by omega)]; rfl
      · rename_i hne
        rw [if_neg hne] at hi
        exact (ht.unset d i hi hm).1
  have hps : ps = List.replicate (newLenD s m d) none := by
    refine eq_replicate_of hlenp (fun i hi => ?_)
    by_cases hm : i ∈ s.touched d
    · exact (h3 i hm).2
    · rw [(h4 i hm).2]
      unfold newLenD at hi
      split
      · rename_i hne
        rw [if_pos hne] at hi
        rw [resize_getElem? _ _ _ hi]
        by_cases hl : i < (s.costs d).length
        · rw [(ht.unset d i hl hm).2]; rfl
        · rw [List.getElem?_eq_none (by rw [← ht.len d]; omega)]; rfl
      · rename_i hne
        rw [if_neg hne] at hi
        exact (ht.unset d i hi hm).2
  have hvs : (resize (s.visited d) m false).map (fun _ => false) = List.replicate m false := by
    refine eq_replicate_of (by rw [List.length_map, resize_length]) (fun i hi => ?_)
    rw [List.getElem?_map, resize_getElem? _ _ _ hi]
    rfl
  rw [← h, hcs, hps, hvs]

theorem initDir_tidy {n m : Nat} (hm : m ≤ n) {s s' : St K} {d : Dir} (ht : Tidy n s)
    (h : initDir s m d = .ok s') : Tidy n s' := by
  rw [initDir_inv ht h]
  have hle : newLenD s m d ≤ n := by
    unfold newLenD; split
    · exact hm
    · exact ht.le d
  constructor
  · intro d'
    by_cases hd : d' = d
    · subst hd; simp
    · simp [Function.update_of_ne hd, ht.len d']
  · intro d'
    by_cases hd : d' = d
    · subst hd; simpa using hle
    · simpa [Function.update_of_ne hd] using ht.le d'
  · intro d' i hi
    by_cases hd : d' = d
    · subst hd; simp at hi
    · simp only [Function.update_of_ne hd] at hi ⊢
      exact ht.touched d' i hi
  · intro d' i hi hit
    by_cases hd : d' = d
    · subst hd
      simp only [Function.update_self, List.length_replicate] at hi ⊢
      simp [hi]
    · simp only [Function.update_of_ne hd] at hi hit ⊢
      exact ht.unset d' i hi hit

/-- A router of which only mode and visited nodes are known. -/
def blank (isCh : Bool) (L : Dir → Nat) (vis : Dir → List Bool) : St K :=
  { isCh, queue := [], costs := fun d => List.replicate (L d) none,
    preds := fun d => List.replicate (L d) none, visited := vis, flag := fun _ => false,
    touched := fun _ => [] }

/-- What `init_query` makes of a used router. -/
theorem initQuery_inv {n m : Nat} (hm : m ≤ n) {s s' : St K} (ht : Tidy n s)
    (h : initQuery s m = .ok s') :
    s' = blank s.isCh (newLenD s m)
      (if s.isCh then s.visited else fun _ => List.replicate m false) := by
  unfold initQuery at h
  obtain ⟨s1, h1, h⟩ := Res.bind_eq_ok.mp h
  obtain ⟨s2, h2, h⟩ := Res.bind_eq_ok.mp h
  simp only [Res.pure_eq, Res.ok.injEq] at h
  have ht1 := initDir_tidy hm ht h1
  have e1 := initDir_inv ht h1
  have e2 := initDir_inv ht1 h2
  rw [← h, e2, e1]
  unfold blank newLenD
  congr 1
  · funext d; cases d <;> simp
  · funext d; cases d <;> simp
  · cases s.isCh
    · funext d; cases d <;> simp
    · funext d; cases d <;> simp
  · funext d; cases d <;> simp
  · funext d; cases d <;> simp

/-- `init_query` succeeds if the graph is not smaller than before and has not two nodes. -/
theorem initQuery_ok {n : Nat} (hn : n ≠ 2) {s : St K} (ht : Tidy n s) :
    ∃ s', initQuery s n = .ok s' := by
  have key : ∀ (s : St K) d, Tidy n s → ∃ s', initDir s n d = .ok s' := by
    intro s d ht
    unfold initDir
    obtain ⟨⟨cs, ps⟩, hr⟩ := drain_ok (is := s.touched d)
      (cs := if 2 ≠ n then resize (s.costs d) n none else s.costs d)
      (ps := if 2 ≠ n then resize (s.preds d) n none else s.preds d)
      (by
        intro i hi
        rw [if_pos (Ne.symm hn), resize_length]
        exact lt_of_lt_of_le (ht.touched d i hi) (ht.le d))
      (by
        intro i hi
        rw [if_pos (Ne.symm hn), resize_length]
        exact lt_of_lt_of_le (ht.touched d i hi) (ht.le d))
    simp only [hr, Res.ok_bind, Res.pure_eq]
    exact ⟨_, rfl⟩
  obtain ⟨s1, h1⟩ := key s .fwd ht
  obtain ⟨s2, h2⟩ := key s1 .bwd (initDir_tidy (le_refl n) ht h1)
  refine ⟨{ s2 with queue := [] }, ?_⟩
  simp [initQuery, h1, h2]

theorem blank_tidy {n : Nat} {isCh : Bool} {L : Dir → Nat} {vis : Dir → List Bool}
    (hL : ∀ d, L d ≤ n) : Tidy n (blank isCh L vis : St K) := by
  constructor
  · intro d; simp [blank]
  · intro d; simpa [blank] using hL d
  · intro d i hi; simp [blank] at hi
  · intro d i hi _
    simp only [blank, List.length_replicate] at hi ⊢
    simp [hi]

/-- Setting an entry and noting it as touched. -/
theorem Tidy.set {n : Nat} {s s' : St K} (ht : Tidy n s) {d : Dir} {i : Nat}
    {cs : List (Option K)} {ps : List (Option Nat)}
    (hi : i < (s.costs d).length) (hc : ∀ j, j ≠ i → cs[j]? = (s.costs d)[j]?)
    (hp : ∀ j, j ≠ i → ps[j]? = (s.preds d)[j]?) (hcl : cs.length = (s.costs d).length)
    (hpl : ps.length = (s.preds d).length)
    (h1 : s'.costs = Function.update s.costs d cs) (h2 : s'.preds = Function.update s.preds d ps)
    (h3 : s'.touched = Function.update s.touched d (s.touched d ++ [i])) : Tidy n s' := by
  constructor
  · intro d'
    rw [h1, h2]
    by_cases hd : d' = d
    · subst hd; simp [hcl, hpl, ht.len d']
    · simp [Function.update_of_ne hd, ht.len d']
  · intro d'
    rw [h1]
    by_cases hd : d' = d
    · subst hd; simpa [hcl] using ht.le d'
    · simpa [Function.update_of_ne hd] using ht.le d'
  · intro d' j hj
    rw [h3] at hj
    rw [h1]
    by_cases hd : d' = d
    · subst hd
      simp only [Function.update_self, List.mem_append, List.mem_singleton] at hj ⊢
      rw [hcl]
      rcases hj with hj | rfl
      · exact ht.touched d' j hj
      · exact hi
    · simp only [Function.update_of_ne hd] at hj ⊢
      exact ht.touched d' j hj
  · intro d' j hj hjt
    rw [h1] at hj
    rw [h3] at hjt
    rw [h1, h2]
    by_cases hd : d' = d
    · subst hd
      simp only [Function.update_self, List.mem_append, List.mem_singleton, not_or] at hj hjt ⊢
      rw [hcl] at hj
      rw [hc j hjt.2, hp j hjt.2]
      exact ht.unset d' j hj hjt.1
    · simp only [Function.update_of_ne hd] at hj hjt ⊢
      exact ht.unset d' j hj hjt

variable [LinearOrder K] [Zero K] [Add K] {h : Heap K} {g : Graph} {wt : List ℚ → K}

theorem start_tidy {n : Nat} {s s' : St K} (ht : Tidy n s) {src dst : Nat}
    (hs : start h s src dst = .ok s') : Tidy n s' := by
  unfold start at hs
  obtain ⟨cf, hcf, hs⟩ := Res.bind_eq_ok.mp hs
  obtain ⟨cb, hcb, hs⟩ := Res.bind_eq_ok.mp hs
  simp only [Res.pure_eq, Res.ok.injEq] at hs
  obtain ⟨hi, rfl⟩ := setIdx_inv hcf
  obtain ⟨hi', rfl⟩ := setIdx_inv hcb
  have h1 : Tidy n { s with
      costs := Function.update s.costs .fwd ((s.costs .fwd).set src (some 0))
      touched := Function.update s.touched .fwd (s.touched .fwd ++ [src]) } :=
    ht.set (d := .fwd) (i := src) hi
      (fun j hj => by rw [List.getElem?_set, if_neg (Ne.symm hj)]) (fun j _ => rfl)
      (by simp) rfl rfl (by simp) rfl
  rw [← hs]
  exact h1.set (d := .bwd) (i := dst) (by simpa using hi')
      (cs := (s.costs .bwd).set dst (some 0)) (ps := s.preds .bwd)
      (fun j hj => by rw [List.getElem?_set, if_neg (Ne.symm hj)]; simp) (fun j _ => rfl)
      (by simp) rfl rfl (by simp) (by simp)

theorem relax_tidy {n : Nat} {isNone : Bool} {cur : CN K} {es : List Nat} {s s' : St K}
    (ht : Tidy n s) (hs : relax h g wt isNone cur es s = .ok s') : Tidy n s' := by
  induction es generalizing s with
  | nil => cases hs; exact ht
  | cons e es ih =>
    unfold relax at hs
    obtain ⟨v, _, hs⟩ := Res.bind_eq_ok.mp hs
    obtain ⟨lower, _, hs⟩ := Res.bind_eq_ok.mp hs
    split at hs
    · cases hs; exact ht
    · obtain ⟨m, _, hs⟩ := Res.bind_eq_ok.mp hs
      obtain ⟨old, hold, hs⟩ := Res.bind_eq_ok.mp hs
      split at hs
      · obtain ⟨ps, hps, hs⟩ := Res.bind_eq_ok.mp hs
        obtain ⟨cs, hcs, hs⟩ := Res.bind_eq_ok.mp hs
        obtain ⟨hi, rfl⟩ := setIdx_inv hps
        obtain ⟨hi', rfl⟩ := setIdx_inv hcs
        refine ih ?_ hs
        exact ht.set hi' (fun j hj => by rw [List.getElem?_set, if_neg (Ne.symm hj)])
          (fun j hj => by rw [List.getElem?_set, if_neg (Ne.symm hj)]) (by simp) (by simp) rfl rfl rfl
      · exact ih ht hs

theorem Tidy.congr {n : Nat} {s s' : St K} (ht : Tidy n s) (h1 : s'.costs = s.costs)
    (h2 : s'.preds = s.preds) (h3 : s'.touched = s.touched) : Tidy n s' := by
  constructor
  · rw [h1, h2]; exact ht.len
  · rw [h1]; exact ht.le
  · rw [h1, h3]; exact ht.touched
  · rw [h1, h2, h3]; exact ht.unset

theorem visit_tidy {n : Nat} {cur : CN K} {s s' : St K} (ht : Tidy n s) (hs : visit s cur = .ok s') :
    Tidy n s' := by
  unfold visit at hs
  split at hs
  · cases hs; exact ht
  · obtain ⟨vs, _, hs⟩ := Res.bind_eq_ok.mp hs
    cases hs
    exact ht.congr rfl rfl rfl

/-- The router's state after an iteration. -/
def Next.st : Next K → St K
  | .stop s _ => s
  | .go s _ => s

theorem expand_tidy {n : Nat} {best : Best K} {cur : CN K} {s : St K} {nx : Next K} (ht : Tidy n s)
    (hs : expand h g wt s best cur = .ok nx) : Tidy n nx.st := by
  unfold expand at hs
  obtain ⟨es, _, hs⟩ := Res.bind_eq_ok.mp hs
  obtain ⟨s1, h1, hs⟩ := Res.bind_eq_ok.mp hs
  cases hs
  exact relax_tidy ht h1

theorem step_tidy {n : Nat} {best : Best K} {cur : CN K} {s : St K} {nx : Next K} (ht : Tidy n s)
    (hs : step h g wt s best cur = .ok nx) : Tidy n nx.st := by
  unfold step at hs
  split at hs
  · cases hs; exact ht
  · obtain ⟨label, _, hs⟩ := Res.bind_eq_ok.mp hs
    split at hs
    · cases hs; exact ht
    · obtain ⟨s1, h1, hs⟩ := Res.bind_eq_ok.mp hs
      have ht1 := visit_tidy ht h1
      cases best with
      | some mb =>
        obtain ⟨m, b⟩ := mb
        simp only at hs
        split at hs
        · cases hs; exact ht1.congr rfl rfl rfl
        · obtain ⟨t, _, hs⟩ := Res.bind_eq_ok.mp hs
          exact expand_tidy ht1 hs
      | none =>
        simp only at hs
        obtain ⟨meets, _, hs⟩ := Res.bind_eq_ok.mp hs
        split at hs
        · obtain ⟨t, _, hs⟩ := Res.bind_eq_ok.mp hs
          exact expand_tidy ht1 hs
        · exact expand_tidy ht1 hs

theorem loop_tidy {n fuel : Nat} {best best' : Best K} {s s' : St K} (ht : Tidy n s)
    (hs : loop h g wt fuel s best = some (.ok (s', best'))) : Tidy n s' := by
  induction fuel generalizing s best with
  | zero => cases hs
  | succ k ih =>
    unfold loop at hs
    split at hs
    · cases hs; exact ht
    · rename_i cur q _
      have htq : Tidy n { s with queue := q } := ht.congr rfl rfl rfl
      split at hs
      · cases hs
      · cases hs
      · rename_i s1 b1 h1
        cases hs
        exact step_tidy htq h1
      · rename_i s1 b1 h1
        exact ih (step_tidy htq h1) hs

/-- A successful query leaves the router tidy. -/
theorem compute_tidy {n fuel : Nat} {dotp : List ℚ → List ℚ → K} {s s' : St K} {q : Query K}
    {ans : Option Path} (hq : q.graph.nodeCount ≤ n) (ht : Tidy n s)
    (hs : computeBestPath h dotp fuel s q = some (.ok (s', ans))) : Tidy n s' := by
  unfold computeBestPath at hs
  split at hs
  · cases hs; exact ht
  · cases ha : q.algo with
    | explorator => rw [ha] at hs; cases hs
    | dijkstra | chDijkstra =>
      rw [ha] at hs
      simp only at hs
      split at hs
      · cases hs
      · cases hs
      · rename_i s1 h1
        obtain ⟨s0, h0, h1⟩ := Res.bind_eq_ok.mp h1
        have ht' : ∀ b, Tidy n { s with isCh := b } := fun b => ht.congr rfl rfl rfl
        have hb := initQuery_inv hq (ht' _) h0
        have ht0 : Tidy n s0 := by
          rw [hb]
          refine blank_tidy (fun d => ?_)
          unfold newLenD
          split
          · exact hq
          · exact ht.le d
        have ht1 := start_tidy ht0 h1
        unfold search at hs
        split at hs
        · cases hs
        · cases hs
        · cases hs
        · rename_i s2 best h2
          have ht2 := loop_tidy ht1 h2
          simp only [Option.map_eq_some_iff] at hs
          obtain ⟨r, _, hr⟩ := hs
          obtain ⟨p, _, hr⟩ := Res.bind_eq_ok.mp hr
          cases hr
          exact ht2

end
end Verif.Dij
