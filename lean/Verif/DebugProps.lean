import Verif.Debug
import Verif.DijkstraProps
import Verif.Config

/-!
# C119: debug builds and release builds do the same
-/

namespace Verif.Dbg

section
variable {K : Type} [LinearOrder K] [Zero K] [Add K] {h : Dij.Heap K} {g : Graph} {wt : List ℚ → K}

omit [LinearOrder K] [Zero K] [Add K] in
/-- Right after a visit, the assertion holds. -/
theorem isMeeting_visited {s s' : Dij.St K} {cur : Dij.CN K} (hv : Dij.visit s cur = .ok s') :
    isMeeting s' cur = Dij.isMeeting s' cur := by
  unfold Dij.visit at hv
  split at hv
  · rename_i hc
    simp only [Res.ok.injEq] at hv
    subst hv
    simp [isMeeting, Dij.isMeeting, hc]
  · rename_i hc
    obtain ⟨vs, h1, h2⟩ := Res.bind_eq_ok.mp hv
    simp only [Res.pure_eq, Res.ok.injEq] at h2
    subst h2
    unfold Dij.setIdx at h1
    split at h1
    · rename_i hlt
      simp only [Res.ok.injEq] at h1
      subst h1
      unfold isMeeting Dij.isMeeting
      rw [if_neg hc, if_neg hc]
      simp only [Function.update_self, List.getElem?_set_self hlt, Res.ofIdx, check, Res.ok_bind, if_true]
    · cases h1

omit [Zero K] in
theorem step_eq {s : Dij.St K} {best : Dij.Best K} {cur : Dij.CN K} :
    step h g wt s best cur = Dij.step h g wt s best cur := by
  unfold step Dij.step
  split
  · rfl
  · congr 1
    funext label
    split
    · rfl
    · cases hv : Dij.visit s cur with
      | panic => rfl
      | err e => rfl
      | ok s' =>
        simp only [Res.ok_bind]
        cases best with
        | some mb => rfl
        | none => simp only [isMeeting_visited hv]

omit [Zero K] in
theorem loop_eq (fuel : Nat) (s : Dij.St K) (best : Dij.Best K) :
    loop h g wt fuel s best = Dij.loop h g wt fuel s best := by
  induction fuel generalizing s best with
  | zero => rfl
  | succ fuel ih =>
    unfold loop Dij.loop
    cases hp : h.pop s.queue with
    | none => rfl
    | some x =>
      obtain ⟨cur, q⟩ := x
      simp only [step_eq, ih]
      generalize Dij.step h g wt _ best cur = r
      cases r with
      | ok n => cases n <;> rfl
      | err e => rfl
      | panic => rfl

/-- C119: with alphas, the assertions of the router hold for all queries: its answers, and its panics, are those of the
release build. This holds for every state of the router. -/
theorem C119_router {dotp : List ℚ → List ℚ → K} {fuel : Nat} {s : Dij.St K} {q : Dij.Query K} (hal : q.alphas ≠ []) :
    computeBestPath h dotp fuel s q = Dij.computeBestPath h dotp fuel s q := by
  have he : q.alphas.isEmpty = false := by simpa using hal
  have hs : ∀ (f : Nat) (t : Dij.St K) (a b : Nat), search h q.graph (dotp q.alphas) f t a b =
      Dij.search h q.graph (dotp q.alphas) f t a b := by
    intro f t a b
    unfold search Dij.search
    rw [loop_eq]
    generalize Dij.loop h q.graph (dotp q.alphas) f t none = r
    cases r with
    | none => rfl
    | some r => cases r <;> rfl
  unfold computeBestPath Dij.computeBestPath
  rw [he]
  simp only [Bool.false_eq_true, if_false, check, dirIdx, decide_true, if_true, Res.ok_bind, hs]
  split
  · rfl
  · cases q.algo with
    | explorator => rfl
    | dijkstra =>
      dsimp only
      split <;> rename_i hr <;> rw [hr]
    | chDijkstra =>
      dsimp only
      split <;> rename_i hr <;> rw [hr]

/-- C119: without alphas, debug builds panic. -/
theorem C119_no_alphas {dotp : List ℚ → List ℚ → K} {fuel : Nat} {s : Dij.St K} {q : Dij.Query K} (hal : q.alphas = []) :
    computeBestPath h dotp fuel s q = some .panic := by
  simp [computeBestPath, hal]

end

theorem setEntries_length {e : Cfg.Edges} {entries : List Cfg.Entry} {r r' : Cfg.Routing}
    (h : entries.foldlM (Cfg.setEntry e) r = .ok r') : r'.alphas.length = r.alphas.length := by
  induction entries generalizing r with
  | nil =>
    simp only [List.foldlM_nil, Res.pure_eq, Res.ok.injEq] at h
    rw [h]
  | cons x entries ih =>
    rw [List.foldlM_cons] at h
    obtain ⟨r1, h1, h2⟩ := Res.bind_eq_ok.mp h
    rw [ih h2]
    unfold Cfg.setEntry at h1
    split at h1
    · cases h1
    · split at h1
      · simp only [Res.ok.injEq] at h1
        rw [← h1]
        simp
      · cases h1

/-- C119: alphas of routing-configs are not missing, if edges have a metric. So debug builds answer like release builds,
whatever the config says about routing. -/
theorem C119_configured {K : Type} [LinearOrder K] [Zero K] [Add K] {h : Dij.Heap K} {dotp : List ℚ → List ℚ → K}
    {fuel : Nat} {s : Dij.St K} {q : Dij.Query K} {e : Cfg.Edges} {entries : List Cfg.Entry} {r : Cfg.Routing}
    (hr : Cfg.routing e entries = .ok r) (hu : e.units ≠ []) (hq : q.alphas = r.alphas) :
    computeBestPath h dotp fuel s q = Dij.computeBestPath h dotp fuel s q := by
  apply C119_router
  have hl := setEntries_length hr
  rw [List.length_replicate] at hl
  intro hn
  rw [← hq, hn] at hl
  exact hu (List.length_eq_zero_iff.mp hl.symm)

/-- C119 doesn't hold without alphas: the release build finds a path, for which all edges are for free. -/
theorem C119_false_no_alphas :
    (Dij.answer (Dij.computeBestPath Dij.codeHeap dot 40 Dij.St.new { Dij.sqQuery .dijkstra 0 3 with alphas := [] })).map
      (fun r => r.bind fun a => .ok a.isSome) = some (.ok true) ∧
    Dij.answer (computeBestPath Dij.codeHeap dot 40 Dij.St.new { Dij.sqQuery .dijkstra 0 3 with alphas := [] }) =
      some .panic := by
  decide +kernel

/-- A query with alphas, and its path in the debug build. -/
example : (Dij.sqQuery .dijkstra 0 3).alphas ≠ [] ∧
    Dij.answer (computeBestPath Dij.codeHeap dot 40 Dij.St.new (Dij.sqQuery .dijkstra 0 3)) =
      some (.ok (some (Path.new 0 0 3 3 [0, 3]))) := by decide +kernel

/-- The assertion is not for free: it would fail for nodes that have not been visited. -/
example : isMeeting { Dij.St.new with visited := fun _ => [false] } { idx := 0, cost := (0 : ℚ), dir := .fwd } = .panic ∧
    Dij.isMeeting { Dij.St.new with visited := fun _ => [false] } { idx := 0, cost := (0 : ℚ), dir := .fwd } =
      .ok false := by decide +kernel

/-- A config with two metrics, of which one is mentioned. -/
example :
    let e : Cfg.Edges := ⟨[], false, [.meters, .seconds], ["length".toList, "duration".toList]⟩
    Cfg.routing e [{ id := "duration".toList, alpha := 2, tolerance := none }] =
      .ok { alphas := [0, 2], tolerances := [none, none] } ∧ e.units ≠ [] := by decide +kernel

theorem offsetsGo_eq (srcs : List Nat) : ∀ (src off : Nat), (∃ rest, offsetsGo src off srcs = .ok (rest, off + srcs.length) ∧
      Build.offsetsGo src off srcs = .ok (rest ++ [off + srcs.length])) ∨
    (offsetsGo src off srcs = .panic ∧ Build.offsetsGo src off srcs = .panic) := by
  induction srcs with
  | nil => exact fun src off => Or.inl ⟨[], rfl, rfl⟩
  | cons s l ih =>
    intro src off
    unfold offsetsGo Build.offsetsGo
    split
    · rcases ih s (off + 1) with ⟨rest, h1, h2⟩ | ⟨h1, h2⟩
      · left
        refine ⟨List.replicate (s - src) off ++ rest, ?_, ?_⟩
        · rw [h1]
          simp only [Res.ok_bind, Res.pure_eq, List.length_cons]
          congr 2
          omega
        · rw [h2]
          simp only [Res.ok_bind, Res.pure_eq, List.length_cons, List.append_assoc]
          congr 4
          omega
      · right
        rw [h1, h2]
        exact ⟨rfl, rfl⟩
    · exact Or.inr ⟨rfl, rfl⟩

theorem mkOffsets_eq (srcs : List Nat) : mkOffsets srcs = Build.mkOffsets srcs := by
  unfold mkOffsets Build.mkOffsets
  rcases offsetsGo_eq srcs 0 0 with ⟨rest, h1, h2⟩ | ⟨h1, h2⟩
  · rw [h1, h2]
    simp [check]
  · rw [h1, h2]
    rfl

/-- C119: the assertion of the builder holds, whatever has been inserted. -/
theorem C119_builder (dim : Nat) (b : Build.NodeBuilder) : finalize dim b = Build.finalize dim b := by
  unfold finalize Build.finalize
  simp only [mkOffsets_eq]

/-- The offsets of a sample. -/
example : mkOffsets [0, 2, 2] = .ok [0, 1, 1, 3] := by decide

end Verif.Dbg
