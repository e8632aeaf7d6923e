import Verif.Tests

/-!
# Evaluation of the repository's tests

One theorem for each test, because evaluation by the kernel needs memory.
-/

namespace Verif.Tests

open Shipped
open Session (World load pairsEnv)
open Yml (Yaml)

theorem bait_shortest :
    testDijkstra (world files) baitFmi "kilometers" "Dijkstra" (1 / 1000) baitShortest = true := by
  decide +kernel

theorem bait_shortestCh :
    testDijkstra (world files) baitFmi "kilometers" "CHDijkstra" (1 / 1000) baitShortest = true := by
  decide +kernel

theorem bait_fastest :
    testDijkstra (world files) baitFmi "hours" "Dijkstra" (1 / 3600) baitFastest = true := by
  decide +kernel

theorem bait_fastestCh :
    testDijkstra (world files) baitFmi "hours" "CHDijkstra" (1 / 3600) baitFastest = true := by
  decide +kernel

theorem simple_shortest :
    testDijkstra (world files) simpleFmi "kilometers" "Dijkstra" 1 simpleShortest = true := by
  decide +kernel

theorem simple_shortestCh :
    testDijkstra (world files) simpleFmi "kilometers" "CHDijkstra" 1 simpleShortest = true := by
  decide +kernel

theorem simple_fastest :
    testDijkstra (world files) simpleFmi "hours" "Dijkstra" (1 / 60) simpleFastest = true := by
  decide +kernel

theorem simple_fastestCh :
    testDijkstra (world files) simpleFmi "hours" "CHDijkstra" (1 / 60) simpleFastest = true := by
  decide +kernel

theorem normalized_shortest :
    testDijkstra (world files) simpleNormalizedFmi "kilometers" "Dijkstra" (1 / 15.313) normalizedShortest = true := by
  decide +kernel

theorem normalized_shortestCh :
    testDijkstra (world files) simpleNormalizedFmi "kilometers" "CHDijkstra" (1 / 15.313) normalizedShortest = true := by
  decide +kernel

theorem normalized_fastest :
    testDijkstra (world files) simpleNormalizedFmi "hours" "Dijkstra" (60 / 685.098461538) normalizedFastest = true := by
  decide +kernel

theorem normalized_fastestCh :
    testDijkstra (world files) simpleNormalizedFmi "hours" "CHDijkstra" (60 / 685.098461538) normalizedFastest = true := by
  decide +kernel

end Verif.Tests
