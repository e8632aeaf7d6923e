import Verif.BinHeapLemmas
import Verif.DijkstraSpec
import Mathlib.Algebra.Order.Ring.Unbundled.Rat

/-!
# Two routers in lockstep

A router whose costs are of type `K` does the same as a router with costs of type `K'`, as long as `φ : K → K'`
respects order, sums and queues. Proof device only, used to compare `f64` with exact numbers.
-/

namespace Verif.Dij

set_option linter.unusedSectionVars false

section
variable {K K' : Type}

/-- The same element with other costs. -/
def CN.map (φ : K → K') (c : CN K) : CN K' := { idx := c.idx, cost := φ c.cost, dir := c.dir }

/-- The queues do the same with elements whose costs fulfil `P`. -/
structure Heap.Same (h : Heap K) (h' : Heap K') (φ : K → K') (P : K → Prop) : Prop where
  push : ∀ q c, (∀ x ∈ q, P x.cost) → P c.cost → h'.push (q.map (CN.map φ)) (c.map φ) = (h.push q c).map (CN.map φ)
  pop : ∀ q, (∀ x ∈ q, P x.cost) →
    h'.pop (q.map (CN.map φ)) = (h.pop q).map fun x => (x.1.map φ, x.2.map (CN.map φ))

/-- Both panic, or both answer. -/
inductive Both {α β : Type} (P : α → β → Prop) : R α → R β → Prop
  | ok {a : α} {b : β} : P a b → Both P (.ok a) (.ok b)
  | panic : Both P .panic .panic

theorem Both.bind {α β γ δ : Type} {P : α → β → Prop} {Q : γ → δ → Prop} {r : R α} {r' : R β} {f : α → R γ}
    {f' : β → R δ} (h : Both P r r') (hf : ∀ a b, P a b → Both Q (f a) (f' b)) : Both Q (r >>= f) (r' >>= f') := by
  cases h with
  | ok h => exact hf _ _ h
  | panic => exact .panic

theorem Both.refl {α : Type} (r : R α) : Both (fun a b => a = b ∧ r = .ok a) r r := by
  cases r with
  | ok a => exact .ok ⟨rfl, rfl⟩
  | err e => exact e.elim
  | panic => exact .panic

theorem both_setIdx {α β : Type} (f : α → β) (l : List α) (i : Nat) (a : α) :
    Both (fun x y => y = x.map f ∧ x = l.set i a ∧ i < l.length) (setIdx l i a) (setIdx (l.map f) i (f a)) := by
  unfold setIdx
  rw [List.length_map]
  split
  · rename_i h
    exact .ok ⟨by rw [List.map_set], rfl, h⟩
  · exact .panic

theorem both_ofIdx {α β : Type} (f : α → β) (l : List α) (i : Nat) :
    Both (fun x y => y = f x ∧ l[i]? = some x) (Res.ofIdx l[i]?) (Res.ofIdx (l.map f)[i]?) := by
  rw [List.getElem?_map]
  cases l[i]? with
  | none => exact .panic
  | some a => exact .ok ⟨rfl, rfl⟩

end

section
variable {K K' : Type} [LinearOrder K] [Zero K] [Add K] [LinearOrder K'] [Zero K'] [Add K']

/-- Costs in `V m` are sums of at most `m` weights. -/
structure Exactly (φ : K → K') (V : Nat → K → Prop) (N : Nat) (wt : List ℚ → K) (wt' : List ℚ → K')
    (ms : List (List ℚ)) : Prop where
  lt : ∀ a b, φ a < φ b ↔ a < b
  zero : φ 0 = 0
  base : ∀ m, V m 0
  mono : ∀ m m' x, m ≤ m' → V m x → V m' x
  step : ∀ m x, m ≤ N → V m x → ∀ a ∈ ms, V (m + 1) (x + wt a) ∧ φ (x + wt a) = φ x + wt' a
  down : ∀ m x y, V (m + 1) x → V m y → x < y → V m x
  sum : ∀ x y, V N x → V N y → φ (x + y) = φ x + φ y

variable {φ : K → K'} {V : Nat → K → Prop} {N : Nat} {wt : List ℚ → K} {wt' : List ℚ → K'} {h : Heap K} {h' : Heap K'}
  {g : Graph}

/-- The number of labelled nodes. -/
def labelled (s : St K) (d : Dir) : Nat := (s.costs d).countP Option.isSome

/-- The second router's state is the first one's, and the first one's costs are sums of few weights. -/
structure Rel (φ : K → K') (V : Nat → K → Prop) (N : Nat) (s : St K) (s' : St K') : Prop where
  isCh : s'.isCh = s.isCh
  queue : s'.queue = s.queue.map (CN.map φ)
  costs : ∀ d, s'.costs d = (s.costs d).map (Option.map φ)
  preds : s'.preds = s.preds
  visited : s'.visited = s.visited
  flag : s'.flag = s.flag
  touched : s'.touched = s.touched
  len : ∀ d, (s.costs d).length ≤ N
  lab : ∀ d x, some x ∈ s.costs d → V (labelled s d) x
  small : ∀ c ∈ s.queue, V (labelled s c.dir) c.cost

theorem labelled_le {s : St K} {s' : St K'} (hr : Rel φ V N s s') (d : Dir) : labelled s d ≤ N :=
  le_trans List.countP_le_length (hr.len d)

variable {ms : List (List ℚ)}

theorem ltInf_map (he : Exactly φ V N wt wt' ms) (a b : Option K) :
    ltInf (a.map φ) (b.map φ) = ltInf a b := by
  cases a <;> cases b <;> simp [ltInf, he.lt]

theorem leInf_map (he : Exactly φ V N wt wt' ms) (a : K) (b : Option K) :
    leInf (φ a) (b.map φ) = leInf a b := by
  cases b with
  | none => rfl
  | some b => simp [leInf, ← not_lt, he.lt]

/-- Labelling a node with a lower cost. -/
theorem labelled_set {l : List (Option K)} {v : Nat} {old : Option K} {c : K} (ho : l[v]? = some old) :
    (l.set v (some c)).countP Option.isSome = l.countP Option.isSome + (if old.isSome then 0 else 1) := by
  induction l generalizing v with
  | nil => simp at ho
  | cons x l ih =>
    cases v with
    | zero =>
      simp only [List.getElem?_cons_zero, Option.some.injEq] at ho
      subst ho
      cases x <;> simp
    | succ v =>
      simp only [List.getElem?_cons_succ] at ho
      simp only [List.set_cons_succ, List.countP_cons, ih ho]
      omega

/-- Same best meeting node. -/
def BestRel (φ : K → K') (b : Best K) (b' : Best K') : Prop := b' = b.map fun x => (x.1, x.2.map φ)

theorem both_relax (he : Exactly φ V N wt wt' g.metrics) (hh : h.Same h' φ (V N)) (isNone : Bool) {cur : CN K} (es : List Nat)
    {s : St K} {s' : St K'} (hr : Rel φ V N s s') (hc : V (labelled s cur.dir) cur.cost) :
    Both (Rel φ V N) (relax h g wt isNone cur es s) (relax h' g wt' isNone (cur.map φ) es s') := by
  induction es generalizing s s' with
  | nil => exact .ok hr
  | cons e es ih =>
    unfold relax
    refine (Both.refl _).bind ?_
    rintro v _ ⟨rfl, _⟩
    rw [hr.isCh]
    refine (Both.refl _).bind ?_
    rintro lower _ ⟨rfl, _⟩
    cases lower with
    | true => exact .ok hr
    | false =>
      simp only [Bool.false_eq_true, if_false]
      refine (Both.refl _).bind ?_
      rintro m _ ⟨rfl, hm⟩
      rw [Res.ofIdx_eq_ok] at hm
      have hm' := List.mem_of_getElem? hm
      obtain ⟨h1, h2⟩ := he.step _ _ (labelled_le hr _) hc m hm'
      show Both _ (Res.ofIdx (s.costs cur.dir)[v]? >>= _) (Res.ofIdx (s'.costs cur.dir)[v]? >>= _)
      rw [hr.costs]
      refine (both_ofIdx _ _ _).bind ?_
      rintro old _ ⟨rfl, ho⟩
      have e1 : (CN.map φ cur).cost + wt' m = φ (cur.cost + wt m) := h2.symm
      rw [e1]
      have e2 : ltInf (some (φ (cur.cost + wt m))) (old.map φ) = ltInf (some (cur.cost + wt m)) old :=
        ltInf_map he (some (cur.cost + wt m)) old
      rw [e2]
      split
      · rename_i hlt
        have hcount := labelled_set (c := cur.cost + wt m) ho
        have hnew : V ((s.costs cur.dir).countP Option.isSome + (if old.isSome then 0 else 1)) (cur.cost + wt m) := by
          cases old with
          | none => exact h1
          | some y =>
            simp only [ltInf, decide_eq_true_eq] at hlt
            exact he.down _ _ _ h1 (hr.lab _ _ (List.mem_of_getElem? ho)) hlt
        have hle : (s.costs cur.dir).countP Option.isSome + (if old.isSome then 0 else 1) ≤ N := by
          rw [← hcount]
          exact le_trans List.countP_le_length (by rw [List.length_set]; exact hr.len _)
        rw [hr.preds]
        refine (Both.refl _).bind ?_
        rintro ps _ ⟨rfl, _⟩
        have hset := both_setIdx (Option.map φ) (s.costs cur.dir) v (some (cur.cost + wt m))
        rw [← hr.costs] at hset
        refine Both.bind hset ?_
        rintro cs _ ⟨rfl, rfl, hv⟩
        have hlab : ∀ d, labelled s d ≤ ((Function.update s.costs cur.dir ((s.costs cur.dir).set v
            (some (cur.cost + wt m)))) d).countP Option.isSome := by
          intro d
          by_cases hd : d = cur.dir
          · subst hd
            rw [Function.update_self, hcount]
            exact Nat.le_add_right _ _
          · rw [Function.update_of_ne hd]
            exact le_refl _
        refine ih ?_ (he.mono _ _ _ (hlab _) hc)
        refine { isCh := rfl, queue := ?_, costs := ?_, preds := rfl, visited := hr.visited, flag := hr.flag,
                 touched := by simp only [hr.touched]; rfl, len := ?_, lab := ?_, small := ?_ }
        · simp only
          split
          · rw [hr.queue]
            exact hh.push _ ⟨v, _, cur.dir⟩ (fun x hx => he.mono _ _ _ (labelled_le hr _) (hr.small x hx))
              (he.mono _ _ _ hle hnew)
          · exact hr.queue
        · intro d
          simp only
          by_cases hd : d = cur.dir
          · subst hd
            rw [Function.update_self]
            exact Function.update_self _ _ _
          · rw [Function.update_of_ne hd]
            exact (Function.update_of_ne hd _ _).trans (hr.costs d)
        · intro d
          simp only
          by_cases hd : d = cur.dir
          · subst hd
            rw [Function.update_self, List.length_set]
            exact hr.len _
          · rw [Function.update_of_ne hd]
            exact hr.len d
        · intro d x hx
          simp only at hx
          by_cases hd : d = cur.dir
          · subst hd
            rw [Function.update_self] at hx
            unfold labelled
            simp only
            rw [Function.update_self, hcount]
            rcases List.mem_or_eq_of_mem_set hx with hx | hx
            · exact he.mono _ _ _ (Nat.le_add_right _ _) (hr.lab _ _ hx)
            · cases hx
              exact hnew
          · rw [Function.update_of_ne hd] at hx
            exact he.mono _ _ _ (hlab _) (hr.lab _ _ hx)
        · intro c hc'
          simp only at hc'
          split at hc'
          · rcases List.mem_cons.mp ((h.push_perm _ _).mem_iff.mp hc') with rfl | hc'
            · unfold labelled
              simp only
              rw [Function.update_self, hcount]
              exact hnew
            · exact he.mono _ _ _ (hlab _) (hr.small _ hc')
          · exact he.mono _ _ _ (hlab _) (hr.small _ hc')
      · exact ih hr hc

theorem both_totalCost (he : Exactly φ V N wt wt' ms) {s : St K} {s' : St K'} (hr : Rel φ V N s s') (i : Nat) :
    Both (fun a b => b = a.map φ) (totalCost s i) (totalCost s' i) := by
  unfold totalCost
  rw [hr.costs, hr.costs]
  refine (both_ofIdx _ _ _).bind ?_
  rintro a _ ⟨rfl, ha⟩
  refine (both_ofIdx _ _ _).bind ?_
  rintro b _ ⟨rfl, hb⟩
  refine .ok ?_
  cases a with
  | none => rfl
  | some a =>
    cases b with
    | none => rfl
    | some b =>
      exact congrArg some (he.sum a b (he.mono _ _ _ (labelled_le hr _) (hr.lab _ _ (List.mem_of_getElem? ha)))
        (he.mono _ _ _ (labelled_le hr _) (hr.lab _ _ (List.mem_of_getElem? hb)))).symm

theorem both_isMeeting {s : St K} {s' : St K'} (hr : Rel φ V N s s') (cur : CN K) :
    Both (fun a b => a = b) (isMeeting s cur) (isMeeting s' (cur.map φ)) := by
  unfold isMeeting
  rw [hr.isCh]
  split
  · rw [hr.costs]
    refine (both_ofIdx _ _ _).bind ?_
    rintro a _ ⟨rfl, ha⟩
    exact .ok (by simp)
  · rw [hr.visited]
    show Both _ (Res.ofIdx (s.visited cur.dir.opp)[cur.idx]?) (Res.ofIdx (s.visited cur.dir.opp)[cur.idx]?)
    cases (s.visited cur.dir.opp)[cur.idx]? with
    | none => exact .panic
    | some _ => exact .ok rfl

theorem both_visit {s : St K} {s' : St K'} (hr : Rel φ V N s s') (cur : CN K) :
    Both (fun a b => Rel φ V N a b ∧ a.costs = s.costs) (visit s cur) (visit s' (cur.map φ)) := by
  unfold visit
  rw [hr.isCh]
  split
  · exact .ok ⟨hr, rfl⟩
  · rw [hr.visited]
    refine (Both.refl _).bind ?_
    rintro vs _ ⟨rfl, _⟩
    exact .ok ⟨{ hr with isCh := rfl, visited := rfl }, rfl⟩

/-- Same next iteration. -/
inductive NextRel (φ : K → K') (V : Nat → K → Prop) (N : Nat) : Next K → Next K' → Prop
  | stop {s : St K} {s' : St K'} {b : Best K} {b' : Best K'} : Rel φ V N s s' → BestRel φ b b' →
      NextRel φ V N (.stop s b) (.stop s' b')
  | go {s : St K} {s' : St K'} {b : Best K} {b' : Best K'} : Rel φ V N s s' → BestRel φ b b' →
      NextRel φ V N (.go s b) (.go s' b')

theorem both_expand (he : Exactly φ V N wt wt' g.metrics) (hh : h.Same h' φ (V N)) {s : St K} {s' : St K'}
    (hr : Rel φ V N s s') {b : Best K} {b' : Best K'} (hb : BestRel φ b b') {cur : CN K}
    (hc : V (labelled s cur.dir) cur.cost) :
    Both (NextRel φ V N) (expand h g wt s b cur) (expand h' g wt' s' b' (cur.map φ)) := by
  unfold expand
  refine (Both.refl _).bind ?_
  rintro es _ ⟨rfl, _⟩
  have e : b'.isNone = b.isNone := by rw [hb]; cases b <;> rfl
  rw [e]
  exact (both_relax he hh _ es hr hc).bind fun a a' h => .ok (.go h hb)

theorem both_step (he : Exactly φ V N wt wt' g.metrics) (hh : h.Same h' φ (V N)) {s : St K} {s' : St K'}
    (hr : Rel φ V N s s') {b : Best K} {b' : Best K'} (hb : BestRel φ b b') {cur : CN K}
    (hc : V (labelled s cur.dir) cur.cost) :
    Both (NextRel φ V N) (step h g wt s b cur) (step h' g wt' s' b' (cur.map φ)) := by
  unfold step
  rw [hr.flag]
  split
  · exact .ok (.stop hr hb)
  · show Both _ (Res.ofIdx (s.costs cur.dir)[cur.idx]? >>= _) (Res.ofIdx (s'.costs cur.dir)[cur.idx]? >>= _)
    rw [hr.costs]
    refine (both_ofIdx _ _ _).bind ?_
    rintro label _ ⟨rfl, _⟩
    rw [show leInf (CN.map φ cur).cost (label.map φ) = leInf cur.cost label from leInf_map he _ _]
    split
    · exact .ok (.go hr hb)
    · refine (both_visit hr cur).bind ?_
      rintro s1 s1' ⟨h1, h2⟩
      have hc1 : V (labelled s1 cur.dir) cur.cost := by
        unfold labelled at hc ⊢
        rw [h2]
        exact hc
      unfold BestRel at hb
      subst hb
      cases b with
      | none =>
        refine (both_isMeeting h1 cur).bind ?_
        rintro meets _ rfl
        split
        · refine (both_totalCost he h1 _).bind ?_
          rintro t _ rfl
          exact both_expand he hh h1 rfl hc1
        · exact both_expand he hh h1 rfl hc1
      | some x =>
        obtain ⟨m, b⟩ := x
        simp only [Option.map_some]
        rw [show ltInf (b.map φ) (some (CN.map φ cur).cost) = ltInf b (some cur.cost) from
          ltInf_map he b (some cur.cost)]
        split
        · refine .ok (.go { h1 with flag := ?_ } rfl)
          simp only [h1.flag]
          rfl
        · refine (both_totalCost he h1 _).bind ?_
          rintro t _ rfl
          refine both_expand he hh h1 ?_ hc1
          unfold BestRel
          rw [ltInf_map he]
          split <;> rfl

/-- Both run out of fuel, or both end. -/
inductive Same' {α β : Type} (P : α → β → Prop) : Option (R α) → Option (R β) → Prop
  | none : Same' P none none
  | some {r : R α} {r' : R β} : Both P r r' → Same' P (some r) (some r')

theorem both_loop (he : Exactly φ V N wt wt' g.metrics) (hh : h.Same h' φ (V N)) (fuel : Nat) {s : St K} {s' : St K'}
    (hr : Rel φ V N s s') {b : Best K} {b' : Best K'} (hb : BestRel φ b b') :
    Same' (fun x y => Rel φ V N x.1 y.1 ∧ BestRel φ x.2 y.2) (loop h g wt fuel s b) (loop h' g wt' fuel s' b') := by
  induction fuel generalizing s s' b b' with
  | zero => exact .none
  | succ fuel ih =>
    unfold loop
    have hP : ∀ x ∈ s.queue, V N x.cost := fun x hx => he.mono _ _ _ (labelled_le hr _) (hr.small x hx)
    rw [hr.queue, hh.pop _ hP]
    cases hp : h.pop s.queue with
    | none => exact .some (.ok ⟨hr, hb⟩)
    | some x =>
      obtain ⟨cur, q⟩ := x
      simp only [Option.map_some]
      have hperm := h.pop_perm _ _ _ hp
      have hq : Rel φ V N { s with queue := q } { s' with queue := q.map (CN.map φ) } :=
        { hr with
          queue := rfl
          small := fun c hc => hr.small c (hperm.mem_iff.mpr (List.mem_cons_of_mem _ hc)) }
      have hs := both_step he hh hq hb (cur := cur) (hr.small cur (hperm.mem_iff.mpr List.mem_cons_self))
      revert hs
      generalize step h g wt _ b cur = r1
      generalize step h' g wt' _ b' (CN.map φ cur) = r2
      intro hs
      cases hs with
      | panic => exact .some .panic
      | ok hn =>
        cases hn with
        | stop h1 h2 => exact .some (.ok ⟨h1, h2⟩)
        | go h1 h2 => exact ih h1 h2

theorem walk_same {s : St K} {s' : St K'} (hp : s'.preds = s.preds) (d : Dir) (fuel v : Nat) :
    walk g s' d fuel v = walk g s d fuel v := by
  induction fuel generalizing v with
  | zero => rfl
  | succ fuel ih =>
    unfold walk
    rw [hp]
    cases (s.preds d)[v]? with
    | none => rfl
    | some o =>
      cases o with
      | none => rfl
      | some e =>
        simp only
        cases g.dstIdx d.opp e with
        | ok u => simp only [ih]
        | err _ => rfl
        | panic => rfl

theorem mkPath_same {s : St K} {s' : St K'} (hp : s'.preds = s.preds) {b : Best K} {b' : Best K'} (hb : BestRel φ b b')
    (fuel src dst : Nat) : mkPath g fuel s' b' src dst = mkPath g fuel s b src dst := by
  unfold BestRel at hb
  subst hb
  cases b with
  | none => rfl
  | some x =>
    obtain ⟨m, b⟩ := x
    simp only [mkPath, Option.map_some, walk_same hp]

theorem search_same (he : Exactly φ V N wt wt' g.metrics) (hh : h.Same h' φ (V N)) (fuel : Nat) {s : St K} {s' : St K'}
    (hr : Rel φ V N s s') (src dst : Nat) :
    answer (search h' g wt' fuel s' src dst) = answer (search h g wt fuel s src dst) := by
  unfold search
  have hl := both_loop he hh fuel hr (b := none) (b' := none) rfl
  revert hl
  generalize loop h g wt fuel s none = r1
  generalize loop h' g wt' fuel s' none = r2
  intro hl
  cases hl with
  | none => rfl
  | some hb =>
    cases hb with
    | panic => rfl
    | @ok x y h1 =>
      obtain ⟨s1, b1⟩ := x
      obtain ⟨s2, b2⟩ := y
      simp only
      rw [mkPath_same h1.1.preds h1.2]
      cases mkPath g fuel s1 b1 src dst with
      | none => rfl
      | some r =>
        cases r with
        | ok p => rfl
        | err e => exact e.elim
        | panic => rfl

theorem initQuery_new {K : Type} (b : Bool) (n : Nat) :
    initQuery { (St.new : St K) with isCh := b } n =
      .ok { isCh := b, queue := [],
            costs := fun _ => if 2 ≠ n then List.replicate n none else [],
            preds := fun _ => if 2 ≠ n then List.replicate n none else [],
            visited := fun _ => if b then [] else List.replicate n false,
            flag := fun _ => false, touched := fun _ => [] } := by
  have hne : Dir.bwd ≠ Dir.fwd := by decide
  simp only [initQuery, initDir, St.new, drain, resize, Res.ok_bind, Res.pure_eq, List.take_nil, List.nil_append,
    List.length_nil, Nat.sub_zero, List.map_replicate, Function.update_of_ne hne]
  congr 1
  have hup : ∀ {α : Type} (f : Dir → α) (x : α), Function.update (Function.update f .fwd x) .bwd x = fun _ => x := by
    intro α f x
    funext d
    cases d <;> simp
  congr 1 <;> exact hup _ _

theorem both_start (he : Exactly φ V N wt wt' ms) (hh : h.Same h' φ (V N)) (b : Bool) (src dst : Nat) :
    Both (Rel φ V N) (initQuery { (St.new : St K) with isCh := b } N >>= fun s => start h s src dst)
      (initQuery { (St.new : St K') with isCh := b } N >>= fun s => start h' s src dst) := by
  rw [initQuery_new, initQuery_new, Res.ok_bind, Res.ok_bind]
  unfold start
  have e : (if 2 ≠ N then List.replicate N none else [] : List (Option K')) =
      (if 2 ≠ N then List.replicate N none else [] : List (Option K)).map (Option.map φ) := by
    split <;> simp
  have hlen : (if 2 ≠ N then List.replicate N none else [] : List (Option K)).length ≤ N := by
    split <;> simp
  have hnone : ∀ x, some x ∉ (if 2 ≠ N then List.replicate N none else [] : List (Option K)) := by
    intro x
    split <;> simp
  simp only
  rw [e]
  generalize (if 2 ≠ N then List.replicate N none else [] : List (Option K)) = l at hlen hnone ⊢
  have hset : ∀ i, Both (fun x y => y = x.map (Option.map φ) ∧ x = l.set i (some 0) ∧ i < l.length)
      (setIdx l i (some 0)) (setIdx (l.map (Option.map φ)) i (some 0)) := by
    intro i
    have := both_setIdx (Option.map φ) l i (some 0)
    rwa [Option.map_some, he.zero] at this
  refine (hset src).bind ?_
  rintro cf _ ⟨rfl, rfl, _⟩
  refine (hset dst).bind ?_
  rintro cb _ ⟨rfl, rfl, _⟩
  have hl0 : ∀ i x, some x ∈ l.set i (some (0 : K)) → x = 0 := by
    intro i x hx
    rcases List.mem_or_eq_of_mem_set hx with hx | hx
    · exact absurd hx (hnone x)
    · exact Option.some.inj hx
  refine .ok { isCh := rfl, queue := ?_, costs := ?_, preds := ?_, visited := rfl, flag := rfl, touched := rfl,
               len := ?_, lab := ?_, small := ?_ }
  · have h1 := hh.push [] ⟨src, 0, .fwd⟩ (by simp) (he.base _)
    have h2 := hh.push (h.push [] ⟨src, 0, .fwd⟩) ⟨dst, 0, .bwd⟩ (by
      intro x hx
      have := (h.push_perm _ _).mem_iff.mp hx
      simp only [List.mem_cons, List.not_mem_nil, or_false] at this
      subst this
      exact he.base _) (he.base _)
    simp only [CN.map, he.zero] at h1 h2
    rw [← h1] at h2
    exact h2
  · intro d
    cases d <;> simp [Function.update]
  · funext d
    simp
  · intro d
    cases d <;> simpa [Function.update] using hlen
  · intro d x hx
    have : x = 0 := by
      cases d
      · exact hl0 src x (by simpa [Function.update] using hx)
      · exact hl0 dst x (by simpa [Function.update] using hx)
    rw [this]
    exact he.base _
  · intro c hc
    have h1 := (h.push_perm _ _).mem_iff.mp hc
    rcases List.mem_cons.mp h1 with rfl | h1
    · exact he.base _
    · have h2 := (h.push_perm _ _).mem_iff.mp h1
      simp only [List.mem_cons, List.not_mem_nil, or_false] at h2
      subst h2
      exact he.base _

/-- New routers answer the same. -/
theorem answer_same {dotp : List ℚ → List ℚ → K} {dotp' : List ℚ → List ℚ → K'} {q : Query K}
    (he : Exactly φ V q.graph.nodeCount (dotp q.alphas) (dotp' q.alphas) q.graph.metrics)
    (hh : h.Same h' φ (V q.graph.nodeCount)) (fuel : Nat) :
    answer (computeBestPath h' dotp' fuel St.new
      { src := q.src, dst := q.dst, graph := q.graph, algo := q.algo, alphas := q.alphas }) =
      answer (computeBestPath h dotp fuel St.new q) := by
  have key : ∀ b : Bool, answer (match (do
        let s ← initQuery { (St.new : St K') with isCh := b } q.graph.nodeCount
        start h' s q.src q.dst) with
      | .panic => some .panic
      | .err e => some (.err e)
      | .ok s => search h' q.graph (dotp' q.alphas) fuel s q.src q.dst) =
      answer (match (do
        let s ← initQuery { (St.new : St K) with isCh := b } q.graph.nodeCount
        start h s q.src q.dst) with
      | .panic => some .panic
      | .err e => some (.err e)
      | .ok s => search h q.graph (dotp q.alphas) fuel s q.src q.dst) := by
    intro b
    have hb : Both (Rel φ V q.graph.nodeCount) (do
        let s ← initQuery { (St.new : St K) with isCh := b } q.graph.nodeCount
        start h s q.src q.dst) (do
        let s ← initQuery { (St.new : St K') with isCh := b } q.graph.nodeCount
        start h' s q.src q.dst) := both_start he hh b q.src q.dst
    revert hb
    generalize (do
        let s ← initQuery { (St.new : St K) with isCh := b } q.graph.nodeCount
        start h s q.src q.dst) = r1
    generalize (do
        let s ← initQuery { (St.new : St K') with isCh := b } q.graph.nodeCount
        start h' s q.src q.dst) = r2
    intro hb
    cases hb with
    | panic => rfl
    | ok hr => exact search_same he hh fuel hr _ _
  unfold computeBestPath
  simp only
  split
  · rfl
  · cases q.algo with
    | explorator => rfl
    | dijkstra => exact key _
    | chDijkstra => exact key _

end
end Verif.Dij
