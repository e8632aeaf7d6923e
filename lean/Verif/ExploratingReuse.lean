import Verif.ExploratingLemmas2
import Verif.ExploratingLemmas3
import Verif.DijkstraProps

/-!
# Helper lemmas: the explorator's answer does not depend on former queries
-/

namespace Verif.Exp

open Dij (R Heap Used computeBestPath)

/-- Both need more fuel, both panic, or both have results that correspond to each other. -/
inductive Sim {α β : Type} (E : α → β → Prop) : Option (R α) → Option (R β) → Prop
  | none : Sim E none none
  | panic : Sim E (some .panic) (some .panic)
  | ok {a : α} {b : β} : E a b → Sim E (some (.ok a)) (some (.ok b))

theorem Sim.andThen {α β γ δ : Type} {E : α → β → Prop} {E' : γ → δ → Prop} {x : Option (R α)}
    {y : Option (R β)} {f : α → Option (R γ)} {f' : β → Option (R δ)} (hx : Sim E x y)
    (hf : ∀ a b, E a b → Sim E' (f a) (f' b)) : Sim E' (Exp.andThen x f) (Exp.andThen y f') := by
  cases hx with
  | none => exact .none
  | panic => exact .panic
  | ok h => exact hf _ _ h

theorem Sim.refl {α : Type} (r : R α) : Sim (α := α) (β := α) (· = ·) (some r) (some r) := by
  cases r with
  | ok a => exact .ok rfl
  | err e => exact e.elim
  | panic => exact .panic

section
variable {S : Type} {ask : S → List ℚ → Option (R (S × Option Path))} {g : Graph} {b : Backend}
  {I : S → Prop}

/-- The states of the router are fine and the rest is equal. -/
def Eqv {α : Type} (I : S → Prop) (x y : S × α) : Prop := I x.1 ∧ I y.1 ∧ x.2 = y.2

theorem exploreInit_sim (ha : ∀ s s' al, I s → I s' → Sim (Eqv I) (ask s al) (ask s' al))
    {scales : List (Option ℚ)} {l : List (Option Nat × List ℚ)} {s s' : S} {q : Query}
    {found : List Path} (hs : I s) (hs' : I s') :
    Sim (Eqv I) (exploreInit ask g scales l s q found) (exploreInit ask g scales l s' q found) := by
  induction l generalizing s s' q found with
  | nil => exact .ok ⟨hs, hs', rfl⟩
  | cons x l ih =>
    obtain ⟨mi, al⟩ := x
    unfold exploreInit
    refine (ha s s' al hs hs').andThen ?_
    rintro ⟨s1, ans⟩ ⟨s2, _⟩ ⟨h1, h2, rfl⟩
    cases ans with
    | none => exact ih h1 h2
    | some p =>
      simp only
      refine (Sim.refl _).andThen ?_
      rintro x _ rfl
      exact ih h1 h2

theorem exploreCell_sim (ha : ∀ s s' al, I s → I s' → Sim (Eqv I) (ask s al) (ask s' al)) {q : Query}
    {cell : List Path} {acc acc' : Acc S} (h : Eqv I acc acc') :
    Sim (Eqv I) (exploreCell ask g b q cell acc) (exploreCell ask g b q cell acc') := by
  unfold exploreCell
  refine (Sim.refl _).andThen ?_
  rintro al _ rfl
  cases al with
  | none => exact .ok h
  | some al =>
    simp only
    refine (ha _ _ al h.1 h.2.1).andThen ?_
    rintro ⟨s1, ans⟩ ⟨s2, _⟩ ⟨h1, h2, rfl⟩
    cases ans with
    | none => exact .ok ⟨h1, h2, h.2.2⟩
    | some p =>
      simp only
      rw [h.2.2]
      refine (Sim.refl _).andThen ?_
      rintro new _ rfl
      exact .ok ⟨h1, h2, rfl⟩

theorem exploreCells_sim (ha : ∀ s s' al, I s → I s' → Sim (Eqv I) (ask s al) (ask s' al)) {q : Query}
    {cells : List RawCell} {st : St b} {acc acc' : Acc S} (h : Eqv I acc acc') :
    Sim (fun x y => x.1 = y.1 ∧ Eqv I x.2 y.2) (exploreCells ask g b q cells st acc)
      (exploreCells ask g b q cells st acc') := by
  induction cells generalizing st acc acc' with
  | nil => exact .ok ⟨rfl, h⟩
  | cons raw cells ih =>
    unfold exploreCells
    split
    · exact ih h
    · refine (Sim.refl _).andThen ?_
      rintro cell _ rfl
      exact (exploreCell_sim ha h).andThen fun a b hab => ih hab

theorem exploreLoop_sim (ha : ∀ s s' al, I s → I s' → Sim (Eqv I) (ask s al) (ask s' al)) {q : Query}
    {k : Nat} {dirty : Bool} {st : St b} {s s' : S} (hs : I s) (hs' : I s') :
    Sim (fun x y => x.1 = y.1 ∧ I x.2 ∧ I y.2) (exploreLoop ask g b q k dirty st s)
      (exploreLoop ask g b q k dirty st s') := by
  induction k generalizing dirty st s s' with
  | zero => exact .none
  | succ k ih =>
    unfold exploreLoop
    split
    · refine (exploreCells_sim ha (acc := (s, [])) (acc' := (s', [])) ⟨hs, hs', rfl⟩).andThen ?_
      rintro ⟨st1, s1, new⟩ ⟨st2, s2, _⟩ ⟨rfl, h1, h2, rfl⟩
      refine (Sim.refl _).andThen ?_
      rintro st3 _ rfl
      exact ih h1 h2
    · exact .ok ⟨rfl, hs, hs'⟩

theorem explorate_sim (ha : ∀ s s' al, I s → I s' → Sim (Eqv I) (ask s al) (ask s' al)) {k : Nat}
    {alphas : List ℚ} {scales : List (Option ℚ)} {s s' : S} (hs : I s) (hs' : I s') :
    Sim (Eqv I) (explorate ask g b k alphas scales s) (explorate ask g b k alphas scales s') := by
  unfold explorate
  refine (Sim.refl _).andThen ?_
  rintro init _ rfl
  refine (exploreInit_sim ha hs hs').andThen ?_
  rintro ⟨s1, q, new⟩ ⟨s2, _⟩ ⟨h1, h2, rfl⟩
  refine (Sim.refl _).andThen ?_
  rintro st _ rfl
  refine Sim.andThen (E := fun x y => x.1 = y.1 ∧ I x.2 ∧ I y.2) ?_ ?_
  · simp only
    split
    · exact exploreLoop_sim ha h1 h2
    · exact .ok ⟨rfl, h1, h2⟩
  · rintro ⟨st1, s3⟩ ⟨_, s4⟩ ⟨rfl, h3, h4⟩
    refine (Sim.refl _).andThen ?_
    rintro ps _ rfl
    exact .ok ⟨h3, h4, rfl⟩

end

section
variable {K : Type} [LinearOrder K] [Zero K] [Add K] {h : Heap K} {dotp : List ℚ → List ℚ → K}
  {b : Backend} {fuel n : Nat} {q : Dij.Query K} {scales : List (Option ℚ)}

theorem compute_sim (hn : n = q.graph.nodeCount) (h2 : q.graph.nodeCount ≠ 2) (s s' : Dij.St K)
    (al : List ℚ) (hu : Used h dotp n s) (hu' : Used h dotp n s') :
    Sim (Eqv (Used h dotp n)) (computeBestPath h dotp fuel s { q with alphas := al })
      (computeBestPath h dotp fuel s' { q with alphas := al }) := by
  have e : ∀ s, Used h dotp n s → Dij.answer (computeBestPath h dotp fuel s { q with alphas := al }) =
      Dij.answer (computeBestPath h dotp fuel Dij.St.new { q with alphas := al }) :=
    fun s hu => Dij.C17_reuse_partial (q := { q with alphas := al }) hu hn.le h2
  have he := (e s hu).trans (e s' hu').symm
  have step : ∀ s s1 ans, Used h dotp n s →
      computeBestPath h dotp fuel s { q with alphas := al } = some (.ok (s1, ans)) → Used h dotp n s1 :=
    fun s s1 ans hu hc => used_step hn.ge s al s1 ans hu hc
  cases hc : computeBestPath h dotp fuel s { q with alphas := al } with
  | none =>
    cases hc' : computeBestPath h dotp fuel s' { q with alphas := al } with
    | none => exact .none
    | some r => rw [hc, hc'] at he; simp [Dij.answer] at he
  | some r =>
    cases hc' : computeBestPath h dotp fuel s' { q with alphas := al } with
    | none => rw [hc, hc'] at he; simp [Dij.answer] at he
    | some r' =>
      rw [hc, hc'] at he
      cases r with
      | err e => exact e.elim
      | panic =>
        cases r' with
        | err e => exact e.elim
        | panic => exact .panic
        | ok x => simp [Dij.answer] at he
      | ok x =>
        cases r' with
        | err e => exact e.elim
        | panic => simp [Dij.answer] at he
        | ok y =>
          simp only [Dij.answer, Option.map_some, Res.ok_bind, Res.pure_eq, Option.some.injEq,
            Res.ok.injEq] at he
          exact .ok ⟨step s x.1 x.2 hu hc, step s' y.1 y.2 hu' hc', he⟩

theorem fullyExplorate_sim (hn : n = q.graph.nodeCount) (h2 : q.graph.nodeCount ≠ 2) {s s' : Dij.St K}
    (hu : Used h dotp n s) (hu' : Used h dotp n s') :
    Sim (Eqv (Used h dotp n)) (fullyExplorate h dotp b fuel s q scales)
      (fullyExplorate h dotp b fuel s' q scales) :=
  explorate_sim (compute_sim hn h2) hu hu'

end

end Verif.Exp
