import Verif.SessionProps
import Verif.ExploratingHullProps

/-!
# What is reported doesn't depend on how many steps are granted

Part of C89.
-/

namespace Verif.Session

open Text Dij
open Yml (Yaml)

section
variable {K : Type} [LinearOrder K] [Zero K] [Add K] {w : World K} {g : Graph}

theorem best_mono {algo : Dij.Algo} {alphas : List ℚ} {s : St K} {src dst : Graph.Node} {fuel fuel' : Nat}
    (hf : fuel ≤ fuel') {r : Res Err (Report × St K)} (h : best w fuel g algo alphas s src dst = some r) :
    best w fuel' g algo alphas s src dst = some r := by
  obtain ⟨k, rfl⟩ := Nat.exists_eq_add_of_le hf
  unfold best at h ⊢
  cases hc : computeBestPath w.heap w.dotp fuel s { src := src.idx, dst := dst.idx, graph := g, algo, alphas } with
  | none => simp [hc] at h
  | some x =>
    rw [compute_mono hc k]
    rw [hc] at h
    match x with
    | .ok (s', none) => exact h
    | .ok (s', some p) =>
      dsimp only at h ⊢
      cases hp : p.flatten g fuel with
      | none => simp [hp] at h
      | some y =>
        rw [Path.flatten_mono hp k]
        rwa [hp] at h
    | .err e => exact h
    | .panic => exact h

theorem explore_mono {algo : Dij.Algo} {alphas : List ℚ} {scales : List (Option ℚ)} {s : St K} {src dst : Graph.Node}
    {fuel fuel' : Nat} (hf : fuel ≤ fuel') {r : Res Err (Report × St K)}
    (h : explore w fuel g algo alphas scales s src dst = some r) :
    explore w fuel' g algo alphas scales s src dst = some r := by
  unfold explore at h ⊢
  cases hc : Exp.fullyExplorate w.heap w.dotp w.backend fuel s
      { src := src.idx, dst := dst.idx, graph := g, algo, alphas } scales with
  | none => simp [hc] at h
  | some x =>
    rw [Exp.fullyExplorate_mono hf hc]
    rwa [hc] at h

omit [LinearOrder K] [Zero K] [Add K] in
/-- With more steps, the same is reported, and maybe more. -/
theorem queries_mono {one one' : St K → Graph.Node → Graph.Node → Option (Res Err (Report × St K))}
    (hm : ∀ s a b r, one s a b = some r → one' s a b = some r) (rs : List Routes.Route) (s : St K) :
    (queries g one s rs).1 <+: (queries g one' s rs).1 ∧
    ((queries g one s rs).2 ≠ none → queries g one' s rs = queries g one s rs) := by
  induction rs generalizing s with
  | nil => exact ⟨List.prefix_rfl, fun _ => rfl⟩
  | cons r rs ih =>
    unfold queries
    split
    · rename_i src dst _
      cases hx : one s src dst with
      | none => exact ⟨List.nil_prefix, fun h => absurd rfl h⟩
      | some x =>
        rw [hm _ _ _ _ hx]
        match x with
        | .ok (rep, s') =>
          obtain ⟨h1, h2⟩ := ih s'
          refine ⟨(List.prefix_cons_inj rep).mpr h1, fun h => ?_⟩
          dsimp only
          rw [h2 h]
        | .err e => exact ⟨List.prefix_rfl, fun _ => rfl⟩
        | .panic => exact ⟨List.prefix_rfl, fun _ => rfl⟩
    · exact ⟨List.prefix_rfl, fun _ => rfl⟩
    · exact ⟨List.prefix_rfl, fun _ => rfl⟩

theorem answers_mono {rc : Yml.RoutingCfg} {rs : List Routes.Route} {fuel fuel' : Nat} (hf : fuel ≤ fuel') :
    (answers w fuel g rc rs).1 <+: (answers w fuel' g rc rs).1 ∧
    ((answers w fuel g rc rs).2 ≠ none → answers w fuel' g rc rs = answers w fuel g rc rs) := by
  unfold answers
  cases rc.algo with
  | dijkstra => exact queries_mono (fun _ _ _ _ h => best_mono hf h) rs _
  | chDijkstra => exact queries_mono (fun _ _ _ _ h => best_mono hf h) rs _
  | explorator ch => exact queries_mono (fun _ _ _ _ h => explore_mono hf h) rs _

end

section
variable {K : Type} [LinearOrder K] [Zero K] [Add K]

/-- C89: what the tool reports is determined: with more steps, the former reports stay the same, and if the tool has come
to an end, nothing changes at all. -/
theorem C89_determined (w : World K) (doc : Yaml) {fuel fuel' : Nat} (hf : fuel ≤ fuel') :
    (run w fuel doc).1 <+: (run w fuel' doc).1 ∧
    ((run w fuel doc).2 ≠ none → run w fuel' doc = run w fuel doc) := by
  unfold run
  split
  · exact ⟨List.prefix_rfl, fun _ => rfl⟩
  · split
    · exact ⟨List.prefix_rfl, fun _ => rfl⟩
    · exact ⟨List.prefix_rfl, fun _ => rfl⟩
    · unfold route
      split
      · exact ⟨List.prefix_rfl, fun _ => rfl⟩
      · exact ⟨List.prefix_rfl, fun _ => rfl⟩
      · split
        · exact ⟨List.prefix_rfl, fun _ => rfl⟩
        · exact ⟨List.prefix_rfl, fun _ => rfl⟩
        · exact answers_mono hf

end

/-- The sample ends. -/
example : run exWorld 1000000 (exDoc exIr) = run exWorld 60 (exDoc exIr) :=
  (C89_determined _ _ (by norm_num)).2 (by rw [ex_run]; simp)

end Verif.Session
