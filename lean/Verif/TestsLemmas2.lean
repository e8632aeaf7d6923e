import Verif.Tests

/-!
# Evaluation of the repository's tests, continued

One theorem for each test, because evaluation by the kernel needs memory.
-/

namespace Verif.Tests

open Shipped
open Session (World load pairsEnv)
open Yml (Yaml)

theorem small_shortest :
    testDijkstra (world files) smallFmi "kilometers" "Dijkstra" (1 / 1000) smallShortest = true := by
  decide +kernel

theorem small_shortestCh :
    testDijkstra (world files) smallFmi "kilometers" "CHDijkstra" (1 / 1000) smallShortest = true := by
  decide +kernel

theorem small_fastest :
    testDijkstra (world files) smallFmi "hours" "Dijkstra" (1 / 3600) smallFastest = true := by
  decide +kernel

theorem small_fastestCh :
    testDijkstra (world files) smallFmi "hours" "CHDijkstra" (1 / 3600) smallFastest = true := by
  decide +kernel

theorem smallCh_shortest :
    testDijkstra (world files) smallChFmi "kilometers" "Dijkstra" (1 / 1000) smallShortest = true := by
  decide +kernel

theorem smallCh_shortestCh :
    testDijkstra (world files) smallChFmi "kilometers" "CHDijkstra" (1 / 1000) smallShortest = true := by
  decide +kernel

theorem smallCh_fastest :
    testDijkstra (world files) smallChFmi "hours" "Dijkstra" (1 / 3600) smallFastest = true := by
  decide +kernel

theorem smallCh_fastestCh :
    testDijkstra (world files) smallChFmi "hours" "CHDijkstra" (1 / 3600) smallFastest = true := by
  decide +kernel

/-! ## Route-pairs -/

section
variable {K : Type} [LinearOrder K] [Zero K] [Add K]

theorem loop_draws {e : Routes.Env K} (h : e.possible ≤ e.maxCount) (draws : Nat → Nat × Nat) (n : Nat) (s : Routes.W K) :
    ({ e with draws } : Routes.Env K).loop n s = e.loop n s := by
  have hp : ∀ n, ({ e with draws } : Routes.Env K).pick n = e.pick n := fun n => by
    unfold Routes.Env.pick
    rw [if_pos h, if_pos (show ({ e with draws } : Routes.Env K).possible ≤ _ from h)]
  have ha : ∀ s, ({ e with draws } : Routes.Env K).attempt s = e.attempt s := fun s => by
    unfold Routes.Env.attempt
    rw [hp]
    rfl
  induction n generalizing s with
  | zero => rfl
  | succ n ih =>
    unfold Routes.Env.loop
    rw [ha]
    simp only [ih]
    rfl

/-- Whoever asks for all pairs gets no random ones. -/
theorem write_draws {e : Routes.Env K} (h : e.possible ≤ e.maxCount) (draws : Nat → Nat × Nat) (n : Nat) (file : Text)
    (seed : Nat) : ({ e with draws } : Routes.Env K).write n file seed = e.write n file seed := by
  unfold Routes.Env.write Routes.Env.pairs
  rw [loop_draws h]

end

/-- The number of pairs that a document asks for is at least that of all pairs. -/
def asksForAll (w : World ℚ) (doc : Yaml) : Bool :=
  match load w doc, Yml.routePairs w.numbers doc with
  | .ok net, some o => decide (net.graph.nodeCount * net.graph.nodeCount ≤ o.maxCount)
  | _, _ => true

theorem pairsAnew_draws {w : World ℚ} {doc : Yaml} (h : asksForAll w doc = true) (algo metric : String)
    (draws draws' : Nat → Nat → Nat → Nat × Nat) :
    pairsAnew w doc algo metric draws = pairsAnew w doc algo metric draws' := by
  unfold pairsAnew
  unfold asksForAll at h
  split
  · rename_i net o file cfg h1 h2 h3
    rw [h1, h2] at h
    split
    · rename_i rc shipped h4 h5
      have := write_draws (e := pairsEnv w draws' 100 net.graph rc o) (by simpa [Routes.Env.possible, pairsEnv] using h) (draws o.seed net.graph.nodeCount)
        1000 file o.seed
      have he : ({ pairsEnv w draws' 100 net.graph rc o with draws := draws o.seed net.graph.nodeCount } :
        Routes.Env ℚ) = pairsEnv w draws 100 net.graph rc o := rfl
      rw [he] at this
      rw [this]
    · rfl
  · rfl

/-- What is shown about the written and the shipped lines. -/
def linesOk (p : List Text × List Text) : Bool :=
  sameButSelf p && (p.2.drop 9).any selfPair && decide (p.1 ≠ p.2)

/-- Documents, algorithms and metrics. -/
def asked : List (Yaml × String × String) :=
  [(baitFmi, "Dijkstra", "kilometers"), (simpleFmi, "Dijkstra", "hours"), (smallFmi, "Dijkstra", "kilometers"),
    (smallChFmi, "CHDijkstra", "kilometers")]


theorem bait_pairs : (pairsAnew (world files) baitFmi "Dijkstra" "kilometers" fun _ _ _ => (0, 0)).any linesOk = true := by
  decide +kernel

theorem simple_pairs : (pairsAnew (world files) simpleFmi "Dijkstra" "hours" fun _ _ _ => (0, 0)).any linesOk = true := by
  decide +kernel

theorem small_pairs : (pairsAnew (world files) smallFmi "Dijkstra" "kilometers" fun _ _ _ => (0, 0)).any linesOk = true := by
  decide +kernel

theorem smallCh_pairs : (pairsAnew (world files) smallChFmi "CHDijkstra" "kilometers" fun _ _ _ => (0, 0)).any linesOk = true := by
  decide +kernel

theorem lines_ok : ∀ q ∈ asked, ∀ draws, (pairsAnew (world files) q.1 q.2.1 q.2.2 draws).any linesOk = true := by
  have h : ∀ q ∈ asked, asksForAll (world files) q.1 = true := by
    decide +kernel
  intro q hq draws
  rw [pairsAnew_draws (h q hq) q.2.1 q.2.2 draws fun _ _ _ => (0, 0)]
  simp only [asked, List.mem_cons, List.not_mem_nil, or_false] at hq
  rcases hq with rfl | rfl | rfl | rfl
  · exact bait_pairs
  · exact simple_pairs
  · exact small_pairs
  · exact smallCh_pairs

end Verif.Tests
