import Verif.SessionLines
import Verif.ExploratingReuse
import Verif.ParallelDijkstra
import Verif.DijkstraProps
import Verif.RecordLemmas
import Verif.PathProps

/-!
# Lemmas about the queries of the tool
-/

namespace Verif.Session

open Text Gen
open Dij (Heap St computeBestPath Used)
open Search (AddOk)

section
variable {K : Type} [LinearOrder K] [Zero K] [Add K] {w : World K} {fuel : Nat} {g : Graph}

/-- The outcome without the router. -/
def report : Option (Res Err (Report × St K)) → Option (Res Err Report) := Option.map fun r => r.bind fun x => .ok x.1

/-- Outcomes do not depend on former ones. -/
structure Steady (U : St K → Prop) (one : St K → Graph.Node → Graph.Node → Option (Res Err (Report × St K))) :
    Prop where
  same : ∀ s s' a b, U s → U s' → report (one s a b) = report (one s' a b)
  keeps : ∀ s a b rep s', U s → one s a b = some (.ok (rep, s')) → U s'

theorem best_steady (algo : Dij.Algo) (al : List ℚ) (h2 : g.nodeCount ≠ 2) :
    Steady (Used w.heap w.dotp g.nodeCount) (best w fuel g algo al) where
  same s s' a b hu hu' := by
    have h1 := Dij.C17_reuse_partial (fuel := fuel)
      (q := { src := a.idx, dst := b.idx, graph := g, algo, alphas := al }) hu le_rfl h2
    rw [← Dij.C17_reuse_partial (fuel := fuel)
      (q := { src := a.idx, dst := b.idx, graph := g, algo, alphas := al }) hu' le_rfl h2] at h1
    unfold best
    generalize computeBestPath w.heap w.dotp fuel s _ = x at h1
    generalize computeBestPath w.heap w.dotp fuel s' _ = y at h1
    match x, y, h1 with
    | none, none, _ => rfl
    | none, some r, h => simp [Dij.answer] at h
    | some r, none, h => simp [Dij.answer] at h
    | some .panic, some .panic, _ => rfl
    | some (.ok x), some .panic, h => simp [Dij.answer] at h
    | some .panic, some (.ok y), h => simp [Dij.answer] at h
    | some (.ok (s1, p)), some (.ok (s2, p')), h =>
      simp only [Dij.answer, Option.map_some, Res.ok_bind, Res.pure_eq, Option.some.injEq, Res.ok.injEq] at h
      subst h
      cases p with
      | none => rfl
      | some p =>
        dsimp only
        generalize p.flatten g fuel = z
        match z with
        | none => rfl
        | some .panic => rfl
        | some (.err _) => rfl
        | some (.ok p) =>
          dsimp only
          generalize p.getCosts = c
          cases c <;> rfl
  keeps s a b rep s' hu h := by
    unfold best at h
    split at h
    · cases h
    · rename_i s1 hc
      cases h
      exact .query (q := { src := a.idx, dst := b.idx, graph := g, algo, alphas := al }) hu le_rfl hc
    · rename_i s1 p hc
      have hu1 : Used w.heap w.dotp g.nodeCount s1 :=
        .query (q := { src := a.idx, dst := b.idx, graph := g, algo, alphas := al }) hu le_rfl hc
      repeat' split at h
      all_goals cases h
      exact hu1
    · cases h

theorem explore_steady (algo : Dij.Algo) (al : List ℚ) (scales : List (Option ℚ)) (h2 : g.nodeCount ≠ 2) :
    Steady (Used w.heap w.dotp g.nodeCount) (explore w fuel g algo al scales) where
  same s s' a b hu hu' := by
    have hsim := Exp.fullyExplorate_sim (b := w.backend) (fuel := fuel) (scales := scales)
      (q := { src := a.idx, dst := b.idx, graph := g, algo, alphas := al }) rfl h2 hu hu'
    unfold explore
    generalize Exp.fullyExplorate w.heap w.dotp w.backend fuel s _ scales = x at hsim
    generalize Exp.fullyExplorate w.heap w.dotp w.backend fuel s' _ scales = y at hsim
    cases hsim with
    | none => rfl
    | panic => rfl
    | ok he =>
      dsimp only
      rw [he.2.2]
      rfl
  keeps s a b rep s' hu h := by
    have hsim := Exp.fullyExplorate_sim (b := w.backend) (fuel := fuel) (scales := scales)
      (q := { src := a.idx, dst := b.idx, graph := g, algo, alphas := al }) rfl h2 hu hu
    unfold explore at h
    generalize Exp.fullyExplorate w.heap w.dotp w.backend fuel s _ scales = x at hsim h
    cases hsim with
    | none => cases h
    | panic => cases h
    | ok he =>
      cases h
      exact he.1

theorem compute_two_panics {h : Heap K} {dotp : List ℚ → List ℚ → K} {q : Dij.Query K} (h2 : q.graph.nodeCount = 2)
    (hal : ∀ x ∈ q.alphas, 0 ≤ x) : computeBestPath h dotp fuel St.new q = some .panic := by
  unfold computeBestPath
  rw [if_neg]
  · cases q.algo <;> simp [Dij.initQuery, Dij.initDir, Dij.start, Dij.drain, Dij.St.new, Dij.setIdx, h2]
  · simpa using hal

/-- A new router stays as it is on graphs with two nodes, or panics. -/
theorem compute_two {h : Heap K} {dotp : List ℚ → List ℚ → K} {q : Dij.Query K} (h2 : q.graph.nodeCount = 2) :
    computeBestPath h dotp fuel St.new q = some (.ok (St.new, none)) ∨
    computeBestPath h dotp fuel St.new q = some .panic := by
  by_cases hal : ∀ x ∈ q.alphas, 0 ≤ x
  · exact .inr (compute_two_panics h2 hal)
  · push Not at hal
    obtain ⟨x, hx, h1⟩ := hal
    exact .inl (Dij.C16_negative_alpha hx h1)

theorem compute_two_sim {h : Heap K} {dotp : List ℚ → List ℚ → K} {q : Dij.Query K} (h2 : q.graph.nodeCount = 2)
    (s s' : St K) (al : List ℚ) (hs : s = St.new) (hs' : s' = St.new) :
    Exp.Sim (Exp.Eqv (· = St.new)) (computeBestPath h dotp fuel s { q with alphas := al })
      (computeBestPath h dotp fuel s' { q with alphas := al }) := by
  subst hs hs'
  rcases compute_two (h := h) (dotp := dotp) (fuel := fuel) (q := { q with alphas := al }) h2 with h1 | h1
  · rw [h1]
    exact .ok ⟨rfl, rfl, rfl⟩
  · rw [h1]
    exact .panic

theorem best_two (algo : Dij.Algo) (al : List ℚ) (h2 : g.nodeCount = 2) :
    Steady (· = St.new) (best w fuel g algo al) where
  same s s' a b hs hs' := by rw [hs, hs']
  keeps s a b rep s' hs h := by
    subst hs
    unfold best at h
    rcases compute_two (h := w.heap) (dotp := w.dotp) (fuel := fuel)
      (q := { src := a.idx, dst := b.idx, graph := g, algo, alphas := al }) h2 with h1 | h1
    · rw [h1] at h
      cases h
      rfl
    · rw [h1] at h
      cases h

theorem explore_two (algo : Dij.Algo) (al : List ℚ) (scales : List (Option ℚ)) (h2 : g.nodeCount = 2) :
    Steady (· = St.new) (explore w fuel g algo al scales) where
  same s s' a b hs hs' := by rw [hs, hs']
  keeps s a b rep s' hs h := by
    have hsim := Exp.explorate_sim (b := w.backend) (k := fuel) (alphas := al) (scales := scales) (g := g)
      (compute_two_sim (h := w.heap) (dotp := w.dotp) (fuel := fuel)
        (q := { src := a.idx, dst := b.idx, graph := g, algo, alphas := al }) h2) hs hs
    unfold explore Exp.fullyExplorate at h
    dsimp only at h hsim
    generalize Exp.explorate _ g w.backend fuel al scales s = x at hsim h
    cases hsim with
    | none => cases h
    | panic => cases h
    | ok he =>
      cases h
      exact he.1

section
variable {U : St K → Prop} {one : St K → Graph.Node → Graph.Node → Option (Res Err (Report × St K))}

omit [LinearOrder K] [Zero K] [Add K] in
theorem queries_same (hs : Steady U one) : ∀ (rs : List Routes.Route) (s s' : St K), U s → U s' →
    queries g one s rs = queries g one s' rs
  | [], _, _, _, _ => rfl
  | r :: rs, s, s', hu, hu' => by
    rw [queries, queries]
    generalize (do
      let src ← intoNode g r.src
      let dst ← intoNode g r.dst
      pure (src, dst) : Res Err (Graph.Node × Graph.Node)) = e
    match e with
    | .err _ => rfl
    | .panic => rfl
    | .ok (a, b) =>
      have h1 := hs.same s s' a b hu hu'
      have h2 := hs.keeps s a b
      have h3 := hs.keeps s' a b
      dsimp only
      generalize one s a b = x at h1 h2
      generalize one s' a b = y at h1 h3
      match x, y, h1, h2, h3 with
      | none, none, _, _, _ => rfl
      | none, some _, h, _, _ => simp [report] at h
      | some _, none, h, _, _ => simp [report] at h
      | some .panic, some .panic, _, _, _ => rfl
      | some (.err _), some (.err _), h, _, _ =>
        simp only [report, Option.map_some, Res.bind, Option.some.injEq, Res.err.injEq] at h
        rw [h]
      | some (.ok _), some .panic, h, _, _ => simp [report, Res.bind] at h
      | some .panic, some (.ok _), h, _, _ => simp [report, Res.bind] at h
      | some (.err _), some .panic, h, _, _ => simp [report, Res.bind] at h
      | some .panic, some (.err _), h, _, _ => simp [report, Res.bind] at h
      | some (.err _), some (.ok _), h, _, _ => simp [report, Res.bind] at h
      | some (.ok _), some (.err _), h, _, _ => simp [report, Res.bind] at h
      | some (.ok (rep, s1)), some (.ok (rep', s2)), h, h2, h3 =>
        simp only [report, Option.map_some, Res.bind, Option.some.injEq, Res.ok.injEq] at h
        subst h
        dsimp only
        rw [queries_same hs rs s1 s2 (h2 rep s1 hu rfl) (h3 rep s2 hu' rfl)]

omit [LinearOrder K] [Zero K] [Add K] in
theorem queries_append (hs : Steady U one) : ∀ (rs rs' : List Routes.Route) (s s' : St K), U s → U s' →
    ((queries g one s rs).2 = some (.ok ⟨⟩) → queries g one s (rs ++ rs') =
      ((queries g one s rs).1 ++ (queries g one s' rs').1, (queries g one s' rs').2)) ∧
    ((queries g one s rs).2 ≠ some (.ok ⟨⟩) → queries g one s (rs ++ rs') = queries g one s rs)
  | [], rs', s, s', hu, hu' => by
    simp only [List.nil_append, queries, ne_eq, not_true_eq_false, false_implies, and_true, true_implies]
    exact queries_same hs rs' s s' hu hu'
  | r :: rs, rs', s, s', hu, hu' => by
    rw [List.cons_append, queries, queries]
    generalize (do
      let src ← intoNode g r.src
      let dst ← intoNode g r.dst
      pure (src, dst) : Res Err (Graph.Node × Graph.Node)) = e
    match e with
    | .err _ => simp
    | .panic => simp
    | .ok (a, b) =>
      have h2 := hs.keeps s a b
      dsimp only
      generalize one s a b = x at h2
      match x, h2 with
      | none, _ => simp
      | some .panic, _ => simp
      | some (.err _), _ => simp
      | some (.ok (rep, s1)), h2 =>
        dsimp only
        obtain ⟨h3, h4⟩ := queries_append hs rs rs' s1 s' (h2 rep s1 hu rfl) hu'
        exact ⟨fun h => by rw [h3 h]; rfl, fun h => by rw [h4 h]⟩

omit [LinearOrder K] [Zero K] [Add K] in
/-- What is reported about a single pair. -/
theorem queries_one (s : St K) (r : Routes.Route) (rep : Report) : queries g one s [r] = ([rep], some (.ok ⟨⟩)) ↔
    ∃ a b s', intoNode g r.src = .ok a ∧ intoNode g r.dst = .ok b ∧ one s a b = some (.ok (rep, s')) := by
  rw [queries]
  cases hsrc : intoNode g r.src with
  | err e => simp
  | panic => simp
  | ok a =>
    cases hdst : intoNode g r.dst with
    | err e => simp
    | panic => simp
    | ok b =>
      simp only [Res.ok_bind, Res.pure_eq]
      generalize ho : one s a b = x
      match x, ho with
      | none, ho => simp [ho]
      | some .panic, ho => simp [ho]
      | some (.err _), ho => simp [ho]
      | some (.ok (rep', s')), ho => simp [queries, ho]

omit [LinearOrder K] [Zero K] [Add K] in
theorem queries_cons (s : St K) (r : Routes.Route) (rs : List Routes.Route) (reps : List Report)
    (last : Option (Res Err PUnit)) (h : queries g one s (r :: rs) = (reps, last)) :
    (reps = [] ∧ last ≠ some (.ok ⟨⟩)) ∨
    ∃ a b s' rep reps', intoNode g r.src = .ok a ∧ intoNode g r.dst = .ok b ∧ one s a b = some (.ok (rep, s')) ∧
      reps = rep :: reps' ∧ queries g one s' rs = (reps', last) := by
  rw [queries] at h
  cases hsrc : intoNode g r.src with
  | err e => simp [hsrc] at h; left; simp [← h.1, ← h.2]
  | panic => simp [hsrc] at h; left; simp [← h.1, ← h.2]
  | ok a =>
    cases hdst : intoNode g r.dst with
    | err e => simp [hsrc, hdst] at h; left; simp [← h.1, ← h.2]
    | panic => simp [hsrc, hdst] at h; left; simp [← h.1, ← h.2]
    | ok b =>
      simp only [hsrc, hdst, Res.ok_bind, Res.pure_eq] at h
      generalize ho : one s a b = x at h
      match x, ho, h with
      | none, ho, h => simp at h; left; simp [← h.1, ← h.2]
      | some .panic, ho, h => simp at h; left; simp [← h.1, ← h.2]
      | some (.err _), ho, h => simp at h; left; simp [← h.1, ← h.2]
      | some (.ok (rep', s')), ho, h =>
        right
        simp only [Prod.mk.injEq] at h
        exact ⟨a, b, s', rep', _, rfl, rfl, ho, h.1.symm, by rw [← h.2]⟩

omit [LinearOrder K] [Zero K] [Add K] in
/-- What holds for every single query holds for all reports. -/
theorem queries_all (hs : ∀ s a b rep s', U s → one s a b = some (.ok (rep, s')) → U s') {P : Int → Int → Report → Prop}
    (hP : ∀ s a b rep s' x y, U s → intoNode g x = .ok a → intoNode g y = .ok b → one s a b = some (.ok (rep, s')) →
      P x y rep) : ∀ (rs : List Routes.Route) (s : St K), U s →
    ∃ done rest, rs = done ++ rest ∧ List.Forall₂ (fun (r : Routes.Route) rep => P r.src r.dst rep) done
      (queries g one s rs).1 ∧ ((queries g one s rs).2 = some (.ok ⟨⟩) → rest = [])
  | [], s, _ => ⟨[], [], rfl, .nil, fun _ => rfl⟩
  | r :: rs, s, hu => by
    obtain ⟨reps, last, hq⟩ : ∃ reps last, queries g one s (r :: rs) = (reps, last) := ⟨_, _, rfl⟩
    rw [hq]
    rcases queries_cons s r rs reps last hq with ⟨rfl, h2⟩ | ⟨a, b, s', rep, reps, h1, h2, h3, rfl, h5⟩
    · exact ⟨[], r :: rs, rfl, .nil, fun h => absurd h h2⟩
    · obtain ⟨done, rest, h6, h7, h8⟩ := queries_all hs hP rs s' (hs _ _ _ _ _ hu h3)
      rw [h5] at h7 h8
      exact ⟨r :: done, rest, by rw [h6]; rfl, .cons (hP _ _ _ _ _ _ _ hu h1 h2 h3) h7, h8⟩

end

theorem intoNode_ne {id : Int} {e : Err} : intoNode g id ≠ .err e := by
  unfold intoNode
  split <;> simp

theorem intoNode_ok {id : Int} {n : Graph.Node} (hwf : g.WellFormed) (h : intoNode g id = .ok n) :
    g.nodeId n.idx = .ok id ∧ n.id = id := by
  unfold intoNode at h
  split at h
  · rename_i m hm
    cases h
    unfold Graph.createNodeFrom at hm
    split at hm
    · rename_i i hi
      simp only [Graph.createNode, Res.bind_eq_ok, Res.pure_eq, Res.ok.injEq, Option.some.injEq] at hm
      obtain ⟨_, ⟨x, h1, y, h2, z, h3, rfl⟩, rfl⟩ := hm
      have h4 := (idxFrom_eq_ok_iff hwf.ids_sorted).mp hi
      rw [Graph.nodeId, Res.ofIdx_eq_ok] at h1 ⊢
      rw [h4] at h1
      cases h1
      exact ⟨h4, rfl⟩
    · simp at hm
  · cases h

end

end Verif.Session
