import Verif.TestsLemmas
import Verif.TestsLemmas2

/-!
# C101 and C102: the repository's tests and route-pairs, for the model

Where properties are proved for all inputs, a model can still be the wrong one. The theorems of C101 say that the model
passes the tests of the repository, with the maps and expectations of the repository.
-/

namespace Verif.Tests

open Shipped

/-- C101: `tests/*/parsing.rs`: the maps are loaded as expected, with nodes, edges, coordinates and metrics. -/
theorem C101_graphs :
    testGraph (world files) baitFmi baitNodes baitFwd baitBwd (1 / 1000, 1, 1 / 3600) = true ∧
    testGraph (world files) simpleFmi simpleNodes simpleFwd simpleBwd (1, 1, 1 / 3600) = true ∧
    testGraph (world files) simpleNormalizedFmi normalizedNodes normalizedFwd normalizedBwd
      (1 / 15.313, 1 / 76.153846154, 1 / 685.098461538) = true ∧
    testGraph (world files) smallFmi smallNodes smallFwd smallBwd (1 / 1000, 1, 1 / 3600) = true ∧
    testLoaded (world files) smallChFmi (sloppy 8 18) = true := by
  decide +kernel

/-- C101: `tests/*/routing/*.rs`: queries have the expected answers, with both algorithms. -/
theorem C101_routes : ∀ algo ∈ ["Dijkstra", "CHDijkstra"],
    testDijkstra (world files) baitFmi "kilometers" algo (1 / 1000) baitShortest = true ∧
    testDijkstra (world files) baitFmi "hours" algo (1 / 3600) baitFastest = true ∧
    testDijkstra (world files) simpleFmi "kilometers" algo 1 simpleShortest = true ∧
    testDijkstra (world files) simpleFmi "hours" algo (1 / 60) simpleFastest = true ∧
    testDijkstra (world files) simpleNormalizedFmi "kilometers" algo (1 / 15.313) normalizedShortest = true ∧
    testDijkstra (world files) simpleNormalizedFmi "hours" algo (60 / 685.098461538) normalizedFastest = true ∧
    testDijkstra (world files) smallFmi "kilometers" algo (1 / 1000) smallShortest = true ∧
    testDijkstra (world files) smallFmi "hours" algo (1 / 3600) smallFastest = true ∧
    testDijkstra (world files) smallChFmi "kilometers" algo (1 / 1000) smallShortest = true ∧
    testDijkstra (world files) smallChFmi "hours" algo (1 / 3600) smallFastest = true := by
  simp only [List.forall_mem_cons, List.not_mem_nil, false_implies, implies_true, and_true]
  exact ⟨⟨bait_shortest, bait_fastest, simple_shortest, simple_fastest, normalized_shortest, normalized_fastest,
      small_shortest, small_fastest, smallCh_shortest, smallCh_fastest⟩,
    ⟨bait_shortestCh, bait_fastestCh, simple_shortestCh, simple_fastestCh, normalized_shortestCh, normalized_fastestCh,
      small_shortestCh, small_fastestCh, smallCh_shortestCh, smallCh_fastestCh⟩⟩

/-- All pairs of nodes are asked for; there is not always a way. -/
example : smallShortest.length = 64 ∧ (smallShortest.filter fun e => e.result.isNone).length = 21 := by
  decide +kernel

/-- C101: `tests/small/routing`: both algorithms agree on the contracted map, for all shipped pairs. -/
theorem C101_ch : ∀ metric ∈ ["kilometers", "hours"], compareDijkstras (world files) smallChFmi metric = true := by
  decide +kernel

/-- C101: `tests/*/parsing.rs`, the tests of configs. -/
theorem C101_sections :
    (∀ doc ∈ [baitFmi, simpleFmi, simpleNormalizedFmi, smallFmi, smallChFmi, regbezOsmPbf],
      testSections doc false true false = true) ∧
    (∀ doc ∈ [isleChFmi, saarlandChFmi, regbezChFmi], testSections doc false true true = true) ∧
    (∀ doc ∈ [isleFmi, regbezFmi], testSections doc false false true = true) ∧
    (∀ doc ∈ [isleOsmPbf, saarlandOsmPbf], testSections doc false false false = true) := by
  decide +kernel

/-- C101: `tests/asdf/parsing.rs`: a map with an unknown extension is refused, and a section for routing chooses its
algorithm. -/
theorem C101_asdf : testExtension (world files) smallFmi "foo.asdf" = true ∧
    testAlgo smallFmi "CHDijkstra" = some .chDijkstra ∧ testAlgo smallFmi "Dijkstra" = some .dijkstra := by
  decide +kernel

/-- C101: `examples/dijkstra.rs`: it finds a way from the second to the sixth node, over the third. -/
theorem C101_example :
    exampleRun (world files) simpleFmi 1 5 = some ([26160028, 252787940, 2933335353], [40, 220, 217 / 600]) := by
  decide +kernel

/-- Tests notice wrong expectations: other costs, other edges, other sections. -/
example : testDijkstra (world files) baitFmi "kilometers" "Dijkstra" (1 / 999) baitShortest = false ∧
    testGraph (world files) baitFmi baitNodes baitFwd baitFwd (1 / 1000, 1, 1 / 3600) = false ∧
    testSections isleFmi false true true = false := by
  decide +kernel

/-! ## Route-pairs -/

/-- C102 for the maps that are shipped as text: with these algorithms and metrics, and whatever the random numbers are, the
tool writes the lines of the shipped file except those that lead from a node to itself. -/
theorem C102_pairs_partial : ∀ q ∈ [(baitFmi, "Dijkstra", "kilometers"), (simpleFmi, "Dijkstra", "hours"),
      (smallFmi, "Dijkstra", "kilometers"), (smallChFmi, "CHDijkstra", "kilometers")],
    ∀ draws, ∃ p ∈ pairsAnew (world files) q.1 q.2.1 q.2.2 draws, sameButSelf p = true := by
  intro q hq draws
  obtain ⟨p, hp, h⟩ := (Option.any_eq_true _ _).mp (lines_ok q hq draws)
  simp only [linesOk, Bool.and_eq_true] at h
  exact ⟨p, hp, h.1.1⟩

/-- C102 is false: the shipped files have lines that lead from a node to itself, which the tool doesn't write. -/
theorem C102_false_self : ∀ q ∈ [(baitFmi, "Dijkstra", "kilometers"), (simpleFmi, "Dijkstra", "hours"),
      (smallFmi, "Dijkstra", "kilometers"), (smallChFmi, "CHDijkstra", "kilometers")],
    ∀ draws, ∃ p ∈ pairsAnew (world files) q.1 q.2.1 q.2.2 draws, (p.2.drop 9).any selfPair = true ∧ p.1 ≠ p.2 := by
  intro q hq draws
  obtain ⟨p, hp, h⟩ := (Option.any_eq_true _ _).mp (lines_ok q hq draws)
  simp only [linesOk, Bool.and_eq_true, decide_eq_true_eq] at h
  exact ⟨p, hp, h.1.2, h.2⟩

/-- Two of the lines that aren't written anew. -/
example : selfPair "0 0 1".toList = true ∧ baitPairs[9]? = some "0 0 1".toList := by
  decide +kernel

end Verif.Tests
