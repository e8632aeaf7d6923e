import Verif.RoutesSpec
import Verif.FmiLemmas3
import Verif.FuelMono
import Verif.DijkstraProps

/-!
# Lemmas about route-pairs
-/

namespace Verif.Routes

open Text
open Fmi (scan inRange mapR)
open Dij (Used St computeBestPath Query)

/-! ## Reading -/

theorem readRoute_routeLine {p : Int × Int} (h1 : FitsI64 p.1) (h2 : FitsI64 p.2) :
    readRoute (routeLine p) = .ok { src := p.1, dst := p.2, count := 1 } := by
  have hw : words (routeLine p) = [printInt p.1, printInt p.2, printNat 1] :=
    Fmi.words_line (by
      simp only [List.mem_cons, List.not_mem_nil, or_false, forall_eq_or_imp, forall_eq]
      exact ⟨Fmi.cell_printInt _, Fmi.cell_printInt _, Fmi.cell_printNat _⟩)
  have e : ∀ i : Int, FitsI64 i → parseInt maxI64 (printInt i) = some i := by
    intro i hi
    obtain ⟨a, b⟩ := hi
    exact parseInt_printInt (by simp only [maxI64]; omega) (by simp only [maxI64]; omega)
  have e1 : parseNat maxUsize (printNat 1) = some 1 := parseNat_printNat (by decide)
  unfold readRoute
  rw [hw]
  simp only [e _ h1, e _ h2, e1]

theorem scan_skip {l rest : List Text} (h : ∀ line ∈ l, (words line).length ≠ 1) (n : Nat) :
    scan false [] n (l ++ rest) = scan false [] (n + l.length) rest := by
  induction l generalizing n with
  | nil => rfl
  | cons a l ih =>
    rw [List.cons_append, scan]
    split
    · rename_i p hp
      exact absurd (by simp [hp]) (h a (by simp))
    · rw [if_neg (by simp), ih (fun line hl => h line (by simp [hl])), List.length_cons]
      congr 1
      omega

theorem scan_stop_head {counts : List Nat} {n : Nat} {l : List Text}
    (h : ∀ line ∈ l.head?, (words line).length ≠ 1) : scan true counts n l = (n, counts) := by
  cases l with
  | nil => rfl
  | cons a l =>
    rw [scan]
    split
    · rename_i p hp
      exact absurd (by simp [hp]) (h a (by simp))
    · rfl

/-- Reading a file of one count. -/
theorem read_of_parts {file pre rest : List Text} {cnt p : Text} {count : Nat}
    (hf : file.filter isFunctional = pre ++ cnt :: rest) (hpre : ∀ line ∈ pre, (words line).length ≠ 1)
    (hcnt : words cnt = [p]) (hp : parseNat maxUsize p = some count)
    (hrest : ∀ line ∈ rest.head?, (words line).length ≠ 1) :
    read file = if maxRoutes < count then .panic else mapR readRoute (rest.take count) := by
  unfold read
  simp only [hf, scan_skip hpre]
  rw [scan, hcnt]
  simp only [hp, List.nil_append, scan_stop_head hrest]
  simp only [List.getLast?_singleton]
  rw [Fmi.inRange_drop (Nat.zero_le _)]
  simp

/-! ## Writing -/

section
variable {K : Type} [LinearOrder K] [Zero K] [Add K] {e : Env K}

/-- The router has answered the pair with a path. -/
def Yes (e : Env K) (p : Nat × Nat) : Prop :=
  ∃ s s' path, Used e.heap e.dotp e.graph.nodeCount s ∧
    computeBestPath e.heap e.dotp e.fuel s (e.query p) = some (.ok (s', some path))

/-- The router has answered that there is no path. -/
def No (e : Env K) (p : Nat × Nat) : Prop :=
  ∃ s s', Used e.heap e.dotp e.graph.nodeCount s ∧
    computeBestPath e.heap e.dotp e.fuel s (e.query p) = some (.ok (s', none))

/-- What is known after some attempts. `ps` are the found pairs as indices. -/
structure Inv (e : Env K) (w : W K) (ps : List (Nat × Nat)) : Prop where
  used : Used e.heap e.dotp e.graph.nodeCount w.dij
  succ_eq : w.successes = ps.length
  succ_le : w.successes ≤ w.attempts
  goal : w.successes ≤ e.goal
  att : w.attempts ≤ e.possible
  done : ∀ p, p ∈ w.processed ↔ ∃ k < w.attempts, p = e.pick k
  nodup : ps.Nodup
  sub : ∀ p ∈ ps, p ∈ w.processed ∧ p.1 ≠ p.2 ∧ Yes e p
  rest : ∀ p ∈ w.processed, p ∉ ps → p.1 ≠ p.2 → No e p
  ids : List.Forall₂ (fun p x => e.graph.nodeIds[p.1]? = some x.1 ∧ e.graph.nodeIds[p.2]? = some x.2) ps w.found

theorem Inv.init : Inv e
    { successes := 0, attempts := 0, processed := [], dij := Dij.St.new, found := [] } [] :=
  ⟨.new, rfl, le_rfl, Nat.zero_le _, Nat.zero_le _, by simp, .nil, by simp, by simp, .nil⟩

omit [LinearOrder K] [Zero K] [Add K] in
theorem done_step {w : W K} (hd : ∀ p, p ∈ w.processed ↔ ∃ k < w.attempts, p = e.pick k) (p : Nat × Nat) :
    (p ∈ (if decide (e.pick w.attempts ∈ w.processed) then w.processed else e.pick w.attempts :: w.processed)) ↔
      ∃ k < w.attempts + 1, p = e.pick k := by
  have key : (∃ k < w.attempts + 1, p = e.pick k) ↔ p = e.pick w.attempts ∨ p ∈ w.processed := by
    rw [hd]
    constructor
    · rintro ⟨k, hk, rfl⟩
      rcases Nat.lt_succ_iff_lt_or_eq.mp hk with h | h
      · exact .inr ⟨k, h, rfl⟩
      · exact .inl (by rw [h])
    · rintro (h | ⟨k, hk, rfl⟩)
      · exact ⟨_, Nat.lt_succ_self _, h⟩
      · exact ⟨k, by omega, rfl⟩
  rw [key]
  by_cases hm : e.pick w.attempts ∈ w.processed
  · simp only [hm, decide_true, if_true]
    constructor
    · exact .inr
    · rintro (rfl | h)
      · exact hm
      · exact h
  · simp [hm]

theorem createNode_id {g : Graph} {i : Nat} {n : Graph.Node} (h : g.createNode i = .ok n) :
    g.nodeIds[i]? = some n.id :=
  Res.ofIdx_eq_ok.mp (Fmi.createNode_ok h).2.1

theorem dacc_ok {α : Type} {r : Res AccErr α} {a : α} : Dij.acc r = .ok a ↔ r = .ok a := by
  cases r <;> simp [Dij.acc]

theorem Inv.attempt {w w' : W K} {ps : List (Nat × Nat)} (hi : Inv e w ps) (hr : e.running w = true)
    (ha : e.attempt w = some (.ok w')) : w'.attempts = w.attempts + 1 ∧ ∃ ps', Inv e w' ps' := by
  simp only [Env.running, Bool.and_eq_true, decide_eq_true_eq] at hr
  have hdone := done_step (e := e) hi.done
  unfold Env.attempt at ha
  simp only [] at ha
  set p := e.pick w.attempts with hp
  set pr := (if decide (p ∈ w.processed) then w.processed else p :: w.processed) with hpr
  have hsub : ∀ x ∈ w.processed, x ∈ pr := by
    intro x hx
    rw [hpr]
    split
    · exact hx
    · exact List.mem_cons_of_mem _ hx
  have hnew : ∀ x ∈ pr, x ∈ w.processed ∨ x = p := by
    intro x hx
    rw [hpr] at hx
    split at hx
    · exact .inl hx
    · rcases List.mem_cons.mp hx with h | h
      · exact .inr h
      · exact .inl h
  split at ha
  · rename_i hc
    obtain ⟨hc1, hc2⟩ := hc
    have hnp : p ∉ w.processed := by simpa using hc2
    have hmem : p ∈ pr := by rw [hpr]; simp [hnp]
    have hnps : p ∉ ps := fun h => hnp (hi.sub p h).1
    split at ha
    · cases ha
    · cases ha
    · cases ha
    · rename_i dij path hcb
      simp only [Env.success, Option.some.injEq, Res.bind_eq_ok, dacc_ok, Res.pure_eq, Res.ok.injEq] at ha
      obtain ⟨a, h1, b, h2, rfl⟩ := ha
      refine ⟨rfl, ps ++ [p], ?_⟩
      refine ⟨.query hi.used le_rfl hcb, ?_, ?_, ?_, ?_, hdone, ?_, ?_, ?_, ?_⟩
      · simp [hi.succ_eq]
      · simpa using hi.succ_le
      · exact hr.1
      · exact hr.2
      · rw [List.nodup_append]
        exact ⟨hi.nodup, by simp, by
          intro x hx y hy
          rw [List.mem_singleton] at hy
          rintro rfl
          exact hnps (hy ▸ hx)⟩
      · intro x hx
        rcases List.mem_append.mp hx with h | h
        · exact ⟨hsub x (hi.sub x h).1, (hi.sub x h).2⟩
        · rw [List.mem_singleton] at h
          subst h
          exact ⟨hmem, hc1, _, _, _, hi.used, hcb⟩
      · intro x hx hxp hne
        rw [List.mem_append, List.mem_singleton, not_or] at hxp
        rcases hnew x hx with h | h
        · exact hi.rest x h hxp.1 hne
        · exact absurd h hxp.2
      · exact List.rel_append hi.ids (.cons ⟨createNode_id h1, createNode_id h2⟩ .nil)
    · rename_i dij hcb
      simp only [W.failure, Option.some.injEq, Res.ok.injEq] at ha
      subst ha
      refine ⟨rfl, ps, .query hi.used le_rfl hcb, hi.succ_eq, by have := hi.succ_le; simp only; omega, hi.goal, hr.2,
        hdone, hi.nodup, fun x hx => ⟨hsub x (hi.sub x hx).1, (hi.sub x hx).2⟩, ?_, hi.ids⟩
      intro x hx hxp hne
      rcases hnew x hx with h | h
      · exact hi.rest x h hxp hne
      · subst h
        exact ⟨_, _, hi.used, hcb⟩
  · rename_i hc
    simp only [W.failure, Option.some.injEq, Res.ok.injEq] at ha
    subst ha
    refine ⟨rfl, ps, hi.used, hi.succ_eq, by have := hi.succ_le; simp only; omega, hi.goal, hr.2,
      hdone, hi.nodup, fun x hx => ⟨hsub x (hi.sub x hx).1, (hi.sub x hx).2⟩, ?_, hi.ids⟩
    intro x hx hxp hne
    rcases hnew x hx with h | h
    · exact hi.rest x h hxp hne
    · by_cases hk : p ∈ w.processed
      · exact hi.rest x (h ▸ hk) hxp hne
      · exact absurd ⟨h ▸ hne, by simpa using hk⟩ hc

theorem Inv.loop {n : Nat} {w w' : W K} {ps : List (Nat × Nat)} (hi : Inv e w ps)
    (hl : e.loop n w = some (.ok w')) : e.running w' = false ∧ ∃ ps', Inv e w' ps' := by
  induction n generalizing w ps with
  | zero =>
    rw [Env.loop] at hl
    split at hl
    · cases hl
    · simp only [Option.some.injEq, Res.ok.injEq] at hl
      subst hl
      rename_i hr
      exact ⟨by simpa using hr, ps, hi⟩
  | succ n ih =>
    rw [Env.loop] at hl
    split at hl
    · rename_i hr
      split at hl
      · cases hl
      · cases hl
      · cases hl
      · rename_i w1 h1
        obtain ⟨_, ps', hi'⟩ := hi.attempt hr h1
        exact ih hi' hl
    · simp only [Option.some.injEq, Res.ok.injEq] at hl
      subst hl
      rename_i hr
      exact ⟨by simpa using hr, ps, hi⟩

theorem pairs_ok {fuel : Nat} {l : List (Int × Int)} (h : e.pairs fuel = some (.ok l)) :
    ∃ w ps, Inv e w ps ∧ e.running w = false ∧ e.graph.nodeCount ≠ 0 ∧ l = stableSort pairLe w.found := by
  unfold Env.pairs at h
  split at h
  · cases h
  · rename_i hn
    obtain ⟨r, h1, h2⟩ := Option.map_eq_some_iff.mp h
    simp only [Res.bind_eq_ok, Res.pure_eq, Res.ok.injEq] at h2
    obtain ⟨w, rfl, rfl⟩ := h2
    obtain ⟨h3, ps, hi⟩ := (Inv.init (e := e)).loop h1
    exact ⟨w, ps, hi, h3, hn, rfl⟩

theorem pairLe_trans (a b c : Int × Int) (h1 : pairLe a b = true) (h2 : pairLe b c = true) : pairLe a c = true := by
  simp only [pairLe, Bool.or_eq_true, Bool.and_eq_true, decide_eq_true_eq] at *
  omega

theorem pairLe_total (a b : Int × Int) : (pairLe a b || pairLe b a) = true := by
  simp only [pairLe, Bool.or_eq_true, Bool.and_eq_true, decide_eq_true_eq] at *
  omega

omit [LinearOrder K] [Zero K] [Add K] in
theorem pick_lt (hn : e.graph.nodeCount ≠ 0)
    (hd : ∀ k, (e.draws k).1 < e.graph.nodeCount ∧ (e.draws k).2 < e.graph.nodeCount) {k : Nat}
    (hk : k < e.possible) : (e.pick k).1 < e.graph.nodeCount ∧ (e.pick k).2 < e.graph.nodeCount := by
  unfold Env.pick
  split
  · exact ⟨Nat.div_lt_of_lt_mul hk, Nat.mod_lt _ (by omega)⟩
  · exact hd k

theorem nodeIds_inj {g : Graph} (hwf : g.WellFormed) {i j : Nat} {x : Int} (h1 : g.nodeIds[i]? = some x)
    (h2 : g.nodeIds[j]? = some x) : i = j := by
  have a := (idxFrom_eq_ok_iff hwf.ids_sorted).mpr h1
  have b := (idxFrom_eq_ok_iff hwf.ids_sorted).mpr h2
  rw [a] at b
  simpa using b

theorem forall₂_nodup {g : Graph} (hwf : g.WellFormed) {ps : List (Nat × Nat)} {l : List (Int × Int)}
    (h : List.Forall₂ (fun p x => g.nodeIds[p.1]? = some x.1 ∧ g.nodeIds[p.2]? = some x.2) ps l) (hn : ps.Nodup) :
    l.Nodup := by
  induction h with
  | nil => exact .nil
  | @cons p x ps l hpx hl ih =>
    rw [List.nodup_cons] at hn ⊢
    refine ⟨fun hx => hn.1 ?_, ih hn.2⟩
    clear ih hn
    induction hl with
    | nil => cases hx
    | @cons q y ps l hqy hl ih =>
      rcases List.mem_cons.mp hx with rfl | hx
      · have h1 := nodeIds_inj hwf hpx.1 hqy.1
        have h2 := nodeIds_inj hwf hpx.2 hqy.2
        rw [Prod.ext h1 h2]
        simp
      · exact List.mem_cons_of_mem _ (ih hx)

theorem ascending {l : List (Int × Int)} (hn : l.Nodup) : Ascending (stableSort pairLe l) := by
  have h1 := pairwise_stableSort pairLe_trans pairLe_total l
  have h2 : (stableSort pairLe l).Nodup := (stableSort_perm l).nodup_iff.mpr hn
  refine (h1.and h2).imp ?_
  rintro ⟨a, b⟩ ⟨c, d⟩ ⟨h, hne⟩
  simp only [pairLe, Bool.or_eq_true, Bool.and_eq_true, decide_eq_true_eq, ne_eq, Prod.mk.injEq] at *
  omega

/-! ### Termination -/

/-- The router always answers. -/
def Answers (e : Env K) : Prop :=
  ∀ p s, p.1 < e.graph.nodeCount → p.2 < e.graph.nodeCount → Used e.heap e.dotp e.graph.nodeCount s →
    ∃ s' ans, computeBestPath e.heap e.dotp e.fuel s (e.query p) = some (.ok (s', ans))

/-- The router always terminates. -/
def Halts (e : Env K) : Prop :=
  ∀ p s, p.1 < e.graph.nodeCount → p.2 < e.graph.nodeCount → Used e.heap e.dotp e.graph.nodeCount s →
    computeBestPath e.heap e.dotp e.fuel s (e.query p) ≠ none

theorem attempt_halts (hn : e.graph.nodeCount ≠ 0)
    (hd : ∀ k, (e.draws k).1 < e.graph.nodeCount ∧ (e.draws k).2 < e.graph.nodeCount) (hh : Halts e) {w : W K}
    {ps : List (Nat × Nat)} (hi : Inv e w ps) (hr : e.running w = true) : e.attempt w ≠ none := by
  simp only [Env.running, Bool.and_eq_true, decide_eq_true_eq] at hr
  have hp := pick_lt hn hd hr.2
  unfold Env.attempt
  simp only
  split
  · have := hh _ w.dij hp.1 hp.2 hi.used
    split
    · rename_i h; exact absurd h this
    all_goals simp
  · simp

theorem attempt_answers (hwf : e.graph.WellFormed) (hn : e.graph.nodeCount ≠ 0)
    (hd : ∀ k, (e.draws k).1 < e.graph.nodeCount ∧ (e.draws k).2 < e.graph.nodeCount) (ha : Answers e) {w : W K}
    {ps : List (Nat × Nat)} (hi : Inv e w ps) (hr : e.running w = true) : ∃ w', e.attempt w = some (.ok w') := by
  simp only [Env.running, Bool.and_eq_true, decide_eq_true_eq] at hr
  have hp := pick_lt hn hd hr.2
  unfold Env.attempt
  simp only
  split
  · obtain ⟨s', ans, hc⟩ := ha _ w.dij hp.1 hp.2 hi.used
    rw [hc]
    cases ans with
    | none => exact ⟨_, rfl⟩
    | some path =>
      obtain ⟨a, h1⟩ := Fmi.createNode_total hwf hp.1
      obtain ⟨b, h2⟩ := Fmi.createNode_total hwf hp.2
      simp only [Env.success, h1, h2, Dij.acc, Res.ok_bind, Res.pure_eq]
      exact ⟨_, rfl⟩
  · exact ⟨_, rfl⟩

theorem loop_halts (hn : e.graph.nodeCount ≠ 0)
    (hd : ∀ k, (e.draws k).1 < e.graph.nodeCount ∧ (e.draws k).2 < e.graph.nodeCount) (hh : Halts e) {n : Nat}
    {w : W K} {ps : List (Nat × Nat)} (hi : Inv e w ps) (hf : e.possible ≤ w.attempts + n) : e.loop n w ≠ none := by
  induction n generalizing w ps with
  | zero =>
    rw [Env.loop, if_neg]
    · simp
    · simp only [Env.running, Bool.and_eq_true, decide_eq_true_eq]
      omega
  | succ n ih =>
    rw [Env.loop]
    split
    · rename_i hr
      have h1 := attempt_halts hn hd hh hi hr
      split
      · rename_i h; exact absurd h h1
      · simp
      · simp
      · rename_i w' h
        obtain ⟨h2, ps', hi'⟩ := hi.attempt hr h
        exact ih hi' (by omega)
    · simp

theorem loop_answers (hwf : e.graph.WellFormed) (hn : e.graph.nodeCount ≠ 0)
    (hd : ∀ k, (e.draws k).1 < e.graph.nodeCount ∧ (e.draws k).2 < e.graph.nodeCount) (ha : Answers e) {n : Nat}
    {w : W K} {ps : List (Nat × Nat)} (hi : Inv e w ps) (hf : e.possible ≤ w.attempts + n) :
    ∃ w', e.loop n w = some (.ok w') := by
  induction n generalizing w ps with
  | zero =>
    rw [Env.loop, if_neg]
    · simp
    · simp only [Env.running, Bool.and_eq_true, decide_eq_true_eq]
      omega
  | succ n ih =>
    rw [Env.loop]
    split
    · rename_i hr
      obtain ⟨w', h⟩ := attempt_answers hwf hn hd ha hi hr
      rw [h]
      obtain ⟨h2, ps', hi'⟩ := hi.attempt hr h
      exact ih hi' (by omega)
    · simp

/-- A bound for finitely many pairs. -/
theorem bound_pairs (P : Nat × Nat → Nat → Prop) {n : Nat}
    (h : ∀ p : Nat × Nat, p.1 < n → p.2 < n → ∃ N, ∀ fuel, N ≤ fuel → P p fuel) :
    ∃ N, ∀ fuel, N ≤ fuel → ∀ p : Nat × Nat, p.1 < n → p.2 < n → P p fuel := by
  have key : ∀ l : List (Nat × Nat), (∀ p ∈ l, p.1 < n ∧ p.2 < n) →
      ∃ N, ∀ fuel, N ≤ fuel → ∀ p ∈ l, P p fuel := by
    intro l hl
    induction l with
    | nil => exact ⟨0, by simp⟩
    | cons a l ih =>
      obtain ⟨N, hN⟩ := ih (fun p hp => hl p (by simp [hp]))
      obtain ⟨M, hM⟩ := h a (hl a (by simp)).1 (hl a (by simp)).2
      refine ⟨max N M, fun fuel hf p hp => ?_⟩
      rcases List.mem_cons.mp hp with rfl | hp
      · exact hM fuel (by omega)
      · exact hN fuel (by omega) p hp
  obtain ⟨N, hN⟩ := key ((List.range n) ×ˢ (List.range n)) (by
    rintro ⟨a, b⟩ hp
    rw [List.mem_product] at hp
    simpa using hp)
  refine ⟨N, fun fuel hf p h1 h2 => hN fuel hf p ?_⟩
  rw [show p = (p.1, p.2) from rfl, List.mem_product]
  simp [h1, h2]

end

end Verif.Routes
