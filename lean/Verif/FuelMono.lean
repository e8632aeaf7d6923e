import Verif.Dijkstra
import Verif.Path

/-!
# More fuel does not change a result
-/

set_option linter.unusedSectionVars false

namespace Verif

namespace Dij

section
variable {K : Type} [LinearOrder K] [Zero K] [Add K] {h : Heap K} {g : Graph} {wt : List ℚ → K}

theorem loop_mono {r : R (St K × Best K)} : ∀ (fuel : Nat) (s : St K) (best : Best K),
    loop h g wt fuel s best = some r → ∀ k, loop h g wt (fuel + k) s best = some r
  | 0, s, best, hl, k => by simp [loop] at hl
  | fuel + 1, s, best, hl, k => by
    rw [Nat.add_right_comm, loop]
    rw [loop] at hl
    cases hp : h.pop s.queue with
    | none => rw [hp] at hl; exact hl
    | some x =>
      obtain ⟨cur, q⟩ := x
      rw [hp] at hl
      dsimp only at hl ⊢
      cases hstep : step h g wt { s with queue := q } best cur with
      | panic => rw [hstep] at hl; exact hl
      | err e => cases e
      | ok nx =>
        rw [hstep] at hl
        cases nx with
        | stop s b => exact hl
        | go s b => exact loop_mono fuel s b hl k

theorem walk_mono {s : St K} {d : Dir} : ∀ (fuel cur : Nat) (r : R (List Nat)),
    walk g s d fuel cur = some r → ∀ k, walk g s d (fuel + k) cur = some r
  | 0, cur, r, hl, k => by simp [walk] at hl
  | fuel + 1, cur, r, hl, k => by
    rw [Nat.add_right_comm, walk]
    rw [walk] at hl
    cases hp : (s.preds d)[cur]? with
    | none => rw [hp] at hl; exact hl
    | some x =>
      cases x with
      | none => rw [hp] at hl; exact hl
      | some e =>
        rw [hp] at hl
        dsimp only at hl ⊢
        cases hd : g.dstIdx d.opp e with
        | panic => rw [hd] at hl; exact hl
        | err e => rw [hd] at hl; exact hl
        | ok u =>
          rw [hd] at hl
          dsimp only at hl ⊢
          obtain ⟨r', h1, h2⟩ := Option.map_eq_some_iff.mp hl
          rw [walk_mono fuel u r' h1 k, Option.map_some, h2]

theorem mkPath_mono {s : St K} {best : Best K} {src dst fuel : Nat} {r : R (Option Path)}
    (hl : mkPath g fuel s best src dst = some r) (k : Nat) :
    mkPath g (fuel + k) s best src dst = some r := by
  unfold mkPath at hl ⊢
  cases best with
  | none => exact hl
  | some b =>
    dsimp only at hl ⊢
    cases hf : walk g s .fwd fuel b.1 with
    | none => rw [hf] at hl; cases hl
    | some rf =>
      cases hb : walk g s .bwd fuel b.1 with
      | none => rw [hf, hb] at hl; cases hl
      | some rb =>
        rw [hf, hb] at hl
        rw [walk_mono _ _ _ hf k, walk_mono _ _ _ hb k]
        exact hl

theorem search_mono {s : St K} {src dst fuel : Nat} {r : R (St K × Option Path)}
    (hl : search h g wt fuel s src dst = some r) (k : Nat) :
    search h g wt (fuel + k) s src dst = some r := by
  unfold search at hl ⊢
  cases hlo : loop h g wt fuel s none with
  | none => rw [hlo] at hl; cases hl
  | some x =>
    rw [hlo] at hl
    rw [loop_mono fuel s none hlo k]
    cases x with
    | panic => exact hl
    | err e => cases e
    | ok y =>
      obtain ⟨s1, best⟩ := y
      dsimp only at hl ⊢
      obtain ⟨r', h1, h2⟩ := Option.map_eq_some_iff.mp hl
      rw [mkPath_mono h1 k, Option.map_some, h2]

/-- The router's answer does not depend on the fuel. -/
theorem compute_mono {dotp : List ℚ → List ℚ → K} {s : St K} {q : Query K} {fuel : Nat}
    {r : R (St K × Option Path)} (hc : computeBestPath h dotp fuel s q = some r) (k : Nat) :
    computeBestPath h dotp (fuel + k) s q = some r := by
  unfold computeBestPath at hc ⊢
  by_cases hal : q.alphas.any (fun a => decide (a < 0)) = true
  · rw [if_pos hal] at hc ⊢
    exact hc
  · rw [if_neg hal] at hc ⊢
    cases halg : q.algo with
    | explorator => rw [halg] at hc; exact hc
    | dijkstra =>
      rw [halg] at hc
      dsimp only at hc ⊢
      revert hc
      split
      · exact id
      · exact id
      · exact fun hc => search_mono hc k
    | chDijkstra =>
      rw [halg] at hc
      dsimp only at hc ⊢
      revert hc
      split
      · exact id
      · exact id
      · exact fun hc => search_mono hc k

theorem compute_unique {dotp : List ℚ → List ℚ → K} {s : St K} {q : Query K} {f₁ f₂ : Nat}
    {r₁ r₂ : R (St K × Option Path)} (h₁ : computeBestPath h dotp f₁ s q = some r₁)
    (h₂ : computeBestPath h dotp f₂ s q = some r₂) : r₁ = r₂ := by
  have a := compute_mono h₁ f₂
  have b := compute_mono h₂ f₁
  rw [Nat.add_comm, b] at a
  simpa using a.symm

end
end Dij

namespace Path

theorem flatGo_mono {g : Graph} {r : Res Err (List Nat × List ℚ)} :
    ∀ (fuel : Nat) (cur : Option Nat) (stack out : List Nat) (costs : List ℚ),
    flatGo g fuel cur stack out costs = some r → ∀ k, flatGo g (fuel + k) cur stack out costs = some r
  | 0, _, _, _, _, h, _ => by simp [flatGo] at h
  | fuel + 1, none, [], out, costs, h, k => by
    rw [Nat.add_right_comm, flatGo]
    rw [flatGo] at h
    exact h
  | fuel + 1, none, e :: stack, out, costs, h, k => by
    rw [Nat.add_right_comm, flatGo]
    rw [flatGo] at h
    exact flatGo_mono fuel _ _ _ _ h k
  | fuel + 1, some e, stack, out, costs, h, k => by
    rw [Nat.add_right_comm, flatGo]
    rw [flatGo] at h
    revert h
    split
    · split
      · exact id
      · exact fun h => flatGo_mono fuel _ _ _ _ h k
    · split
      · exact fun h => flatGo_mono fuel _ _ _ _ h k
      · exact id
    · exact id

/-- The flattened path does not depend on the fuel. -/
theorem tryFlatten_mono {g : Graph} {fuel : Nat} {p : Path} {r : Res Err Path}
    (h : tryFlatten g fuel p = some r) (k : Nat) : tryFlatten g (fuel + k) p = some r := by
  unfold tryFlatten at h ⊢
  obtain ⟨x, h1, h2⟩ := Option.map_eq_some_iff.mp h
  rw [flatGo_mono _ _ _ _ _ h1 k, Option.map_some, h2]

theorem flatten_mono {g : Graph} {fuel : Nat} {p : Path} {r : Res Err Path}
    (h : flatten g fuel p = some r) (k : Nat) : flatten g (fuel + k) p = some r := by
  unfold flatten at h ⊢
  obtain ⟨x, h1, h2⟩ := Option.map_eq_some_iff.mp h
  rw [tryFlatten_mono h1 k, Option.map_some, h2]

end Path
end Verif
