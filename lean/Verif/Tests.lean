import Verif.TestsSpec

/-!
# The tests' maps, route-pairs and expectations

Texts of files below `resources` and data of the tests below `tests`, translated by a script.
-/

namespace Verif.Tests

/-- `resources/bidirectional_bait/graph.fmi` -/
def baitMap : List Text :=
  [
    text! "# node-count", text! "5", text! "", text! "# edge-count", text! "10", text! "", text! "# nodes:", text! "# [NodeId, Latitude, Longitude]",
    text! "      0        0         0       # ll (left, src)", text! "      1        0         0       # bb (bottom)",
    text! "      2        0         0       # rr (right, dst)", text! "      3        0         0       # tr (top-right)",
    text! "      4        0         0       # tl (top-left)", text! "", text! "# edges:", text! "# Consider a path from left to right.",
    text! "# It is important to have the smaller hop-distance at the bottom-path,",
    text! "# but the smaller weight-distance at the top-path.", text! "#", text! "# [SrcId, DstId, Meters, KilometersPerHour]",
    text! "     0      1       5            30          # ll -> bb",
    text! "     1      2       5            30          # bb -> rr",
    text! "     2      3       3            30          # rr -> tr",
    text! "     3      4       3            30          # tr -> tl",
    text! "     4      0       3            30          # tl -> ll", text! "",
    text! "     0      4       3            30          # ll -> tl",
    text! "     4      3       3            30          # tl -> tr",
    text! "     3      2       3            30          # tr -> rr",
    text! "     2      1       5            30          # rr -> bb",
    text! "     1      0       5            30          # bb -> ll"]

/-- `resources/simple_stuttgart/graph.fmi` -/
def simpleMap : List Text :=
  [
    text! "# node-count", text! "6", text! "", text! "# edge-count", text! "13", text! "", text! "# nodes:", text! "# [ NodeId,   Latitude,  Longitude]",
    text! "  26033921   48.984010    9.458919    # Oppenweiler", text! "  26160028   48.941602    9.433202    # Backnang",
    text! "1621605361   48.939633    9.418868    # Dead-end in Backnang",
    text! " 298249467   48.810851    9.367949    # Endersbach", text! " 252787940   48.827110    9.309866    # Waiblingen",
    text! "2933335353   48.770176    9.156577    # Stuttgart (Schwabstrasse)", text! "", text! "# edges:",
    text! "# [  SrcId,      DstId,   Meters, KilometersPerHour]",
    text! "  26033921    26160028      8000          50          # Oppenweiler -> Backnang", text! "",
    text! "  26160028    26033921      8000          50          # Backnang -> Oppenweiler",
    text! "  26160028   252787940     23000         120          # Backnang -> Waiblingen",
    text! "  26160028   298249467     22000          80          # Backnang -> Endersbach",
    text! "  26160028  1621605361      1069          30          # Backnang -> Dead-end", text! "",
    text! " 298249467    26160028     22000          80          # Endersbach -> Backnang",
    text! " 298249467   252787940      8000          50          # Endersbach -> Waiblingen",
    text! " 298249467  2933335353     21000          80          # Endersbach -> Stuttgart (Schwabstrasse)", text! "",
    text! " 252787940    26160028     23000         120          # Waiblingen -> Backnang",
    text! " 252787940   298249467      8000          50          # Waiblingen -> Endersbach",
    text! " 252787940  2933335353     17000         100          # Waiblingen -> Stuttgart (Schwabstrasse)", text! "",
    text! "2933335353   252787940     17000         100          # Stuttgart (Schwabstrasse) -> Waiblingen",
    text! "2933335353   298249467     21000          80          # Stuttgart (Schwabstrasse) -> Endersbach"]

/-- `resources/small/graph.fmi` -/
def smallMap : List Text :=
  [
    text! "# node-count", text! "8", text! "", text! "# edge-count", text! "19", text! "", text! "# nodes:", text! "# [NodeId, Latitude, Longitude]",
    text! "      0        0         0       # a", text! "      1        0         0       # b",
    text! "      2        0         0       # c", text! "      3        0         0       # d",
    text! "      4        0         0       # e", text! "      5        0         0       # f",
    text! "      6        0         0       # g", text! "      7        0         0       # h", text! "", text! "# edges:",
    text! "# [SrcId, DstId, Meters, KilometersPerHour]", text! "     1      0       1            30          # b -> a",
    text! "     1      0       1            30          # b -> a # duplicate",
    text! "     1      0       1            30          # b -> a # duplicate",
    text! "     1      2       1            30          # b -> c", text! "     2      0       1            30          # c -> a",
    text! "     2      1       1            30          # c -> b", text! "     3      1       1            30          # d -> b",
    text! "     3      4       2            30          # d -> e", text! "     3      7       1            30          # d -> h",
    text! "     4      3       2            30          # e -> d", text! "     4      5       1            30          # e -> f",
    text! "     5      4       1            30          # f -> e",
    text! "     5      4       1            30          # f -> e # duplicate",
    text! "     5      7       1            30          # f -> h", text! "     6      4       1            30          # g -> e",
    text! "     6      5       1            30          # g -> f", text! "     7      2       4            30          # h -> c",
    text! "     7      3       1            30          # h -> d", text! "     7      5       1            30          # h -> f"]

/-- `resources/small/graph.ch.fmi` -/
def smallChMap : List Text :=
  [
    text! "# Graph created at: 2020-03-14 20:15:56", text! "# Contracted to: 100%",
    text! "# Input Graphfile: ../osmgraphing/custom/resources/maps/small.fmi", text! "#", text! "# edge-metric-count", text! "# node-count",
    text! "# edge-count", text! "# nodes: [NodeIdx, NodeId, Latitude, Longitude, Ignore, Level]",
    text! "# edges: [\"SrcIdx\", \"DstIdx\", \"Meters\", \"Seconds\", \"ShortcutEdgeIdx0\", \"ShortcutEdgeIdx1\"]", text! "", text! "3",
    text! "8", text! "25", text! "0 0 0 0 0 1    # a", text! "3 3 0 0 0 1    # d", text! "6 6 0 0 0 1    # g", text! "2 2 0 0 0 2    # c",
    text! "4 4 0 0 0 2    # e", text! "1 1 0 0 0 3    # b", text! "5 5 0 0 0 3    # f", text! "7 7 0 0 0 4    # h", text! "1 0 1 0.12 -1 -1",
    text! "1 0 1 0.12 -1 -1 # duplicate", text! "1 0 1 0.12 -1 -1 # duplicate", text! "1 2 1 0.12 -1 -1", text! "2 0 1 0.12 -1 -1",
    text! "2 1 1 0.12 -1 -1", text! "3 1 1 0.12 -1 -1", text! "3 4 2 0.24 -1 -1", text! "3 7 1 0.12 -1 -1", text! "4 3 2 0.24 -1 -1",
    text! "4 5 1 0.12 -1 -1", text! "5 4 1 0.12 -1 -1", text! "5 4 1 0.12 -1 -1 # duplicate", text! "5 7 1 0.12 -1 -1", text! "6 4 1 0.12 -1 -1",
    text! "6 5 1 0.12 -1 -1 # needs >= (3 + 1) duplicates for testing sc-idx-correction", text! "6 5 1 0.12 -1 -1 # duplicate",
    text! "6 5 1 0.12 -1 -1 # duplicate", text! "6 5 1 0.12 -1 -1 # duplicate", text! "6 5 1 0.12 -1 -1 # duplicate",
    text! "7 2 4 0.48 -1 -1", text! "7 3 1 0.12 -1 -1", text! "7 5 1 0.12 -1 -1",
    text! "4 1 3 0.36 9 6 # shortcut (+1 above because of this one, adding one to 21 below)", text! "7 1 2 0.24 21 6 # shortcut"]

/-- `resources/bidirectional_bait/all_25.route-pairs` -/
def baitPairs : List Text :=
  [
    text! "# graph-file: resources/bidirectional_bait/graph.fmi", text! "# node-count: 5", text! "# edge-count: 10", text! "",
    text! "# route-count", text! "25", text! "", text! "# random routes: (src-id dst-id count) as (i64, i64, usize)", text! "# seed: 42", text! "0 0 1",
    text! "0 1 1", text! "0 2 1", text! "0 3 1", text! "0 4 1", text! "1 0 1", text! "1 1 1", text! "1 2 1", text! "1 3 1", text! "1 4 1", text! "2 0 1", text! "2 1 1", text! "2 2 1",
    text! "2 3 1", text! "2 4 1", text! "3 0 1", text! "3 1 1", text! "3 2 1", text! "3 3 1", text! "3 4 1", text! "4 0 1", text! "4 1 1", text! "4 2 1", text! "4 3 1", text! "4 4 1"]

/-- `resources/simple_stuttgart/all_31.route-pairs` -/
def simplePairs : List Text :=
  [
    text! "# graph-file: resources/simple_stuttgart/graph.fmi", text! "# node-count: 6", text! "# edge-count: 13", text! "", text! "# route-count",
    text! "31", text! "", text! "# random routes: (src-id dst-id count) as (i64, i64, usize)", text! "# seed: 42", text! "26033921 26033921 1",
    text! "26033921 26160028 1", text! "26033921 252787940 1", text! "26033921 298249467 1", text! "26033921 1621605361 1",
    text! "26033921 2933335353 1", text! "26160028 26033921 1", text! "26160028 26160028 1", text! "26160028 252787940 1",
    text! "26160028 298249467 1", text! "26160028 1621605361 1", text! "26160028 2933335353 1", text! "252787940 26033921 1",
    text! "252787940 26160028 1", text! "252787940 252787940 1", text! "252787940 298249467 1", text! "252787940 1621605361 1",
    text! "252787940 2933335353 1", text! "298249467 26033921 1", text! "298249467 26160028 1", text! "298249467 252787940 1",
    text! "298249467 298249467 1", text! "298249467 1621605361 1", text! "298249467 2933335353 1", text! "1621605361 1621605361 1",
    text! "2933335353 26033921 1", text! "2933335353 26160028 1", text! "2933335353 252787940 1", text! "2933335353 298249467 1",
    text! "2933335353 1621605361 1", text! "2933335353 2933335353 1"]

/-- `resources/small/all_43.fmi.route-pairs` -/
def smallPairs : List Text :=
  [
    text! "# graph-file: resources/small/graph.fmi", text! "# node-count: 8", text! "# edge-count: 16", text! "", text! "# route-count", text! "43", text! "",
    text! "# random routes: (src-id dst-id count) as (i64, i64, usize)", text! "# seed: 42", text! "0 0 1", text! "1 0 1", text! "1 1 1", text! "1 2 1",
    text! "2 0 1", text! "2 1 1", text! "2 2 1", text! "3 0 1", text! "3 1 1", text! "3 2 1", text! "3 3 1", text! "3 4 1", text! "3 5 1", text! "3 7 1", text! "4 0 1", text! "4 1 1",
    text! "4 2 1", text! "4 3 1", text! "4 4 1", text! "4 5 1", text! "4 7 1", text! "5 0 1", text! "5 1 1", text! "5 2 1", text! "5 3 1", text! "5 4 1", text! "5 5 1", text! "5 7 1",
    text! "6 0 1", text! "6 1 1", text! "6 2 1", text! "6 3 1", text! "6 4 1", text! "6 5 1", text! "6 6 1", text! "6 7 1", text! "7 0 1", text! "7 1 1", text! "7 2 1", text! "7 3 1",
    text! "7 4 1", text! "7 5 1", text! "7 7 1"]

/-- `resources/small/all_43.ch.fmi.route-pairs` -/
def smallChPairs : List Text :=
  [
    text! "# graph-file: resources/small/graph.ch.fmi", text! "# node-count: 8", text! "# edge-count: 18", text! "", text! "# route-count", text! "43",
    text! "", text! "# random routes: (src-id dst-id count) as (i64, i64, usize)", text! "# seed: 42", text! "0 0 1", text! "1 0 1", text! "1 1 1",
    text! "1 2 1", text! "2 0 1", text! "2 1 1", text! "2 2 1", text! "3 0 1", text! "3 1 1", text! "3 2 1", text! "3 3 1", text! "3 4 1", text! "3 5 1", text! "3 7 1", text! "4 0 1",
    text! "4 1 1", text! "4 2 1", text! "4 3 1", text! "4 4 1", text! "4 5 1", text! "4 7 1", text! "5 0 1", text! "5 1 1", text! "5 2 1", text! "5 3 1", text! "5 4 1", text! "5 5 1",
    text! "5 7 1", text! "6 0 1", text! "6 1 1", text! "6 2 1", text! "6 3 1", text! "6 4 1", text! "6 5 1", text! "6 6 1", text! "6 7 1", text! "7 0 1", text! "7 1 1", text! "7 2 1",
    text! "7 3 1", text! "7 4 1", text! "7 5 1", text! "7 7 1"]

/-- The files of the tests. -/
def files : List (Text × List Text) :=
  [
    (text! "resources/bidirectional_bait/graph.fmi", baitMap), (text! "resources/simple_stuttgart/graph.fmi", simpleMap),
    (text! "resources/small/graph.fmi", smallMap), (text! "resources/small/graph.ch.fmi", smallChMap),
    (text! "resources/bidirectional_bait/all_25.route-pairs", baitPairs),
    (text! "resources/simple_stuttgart/all_31.route-pairs", simplePairs),
    (text! "resources/small/all_43.fmi.route-pairs", smallPairs),
    (text! "resources/small/all_43.ch.fmi.route-pairs", smallChPairs)]

/-- `tests/bidirectional_bait/routing/shortest.rs:63-94`, where a cost `c` means `Kilometers(c / 1_000.0)`. -/
def baitShortest : List ExpPath :=
  [
    ⟨0, 0, some (0, [[]])⟩, ⟨0, 1, some (5, [[0, 1]])⟩, ⟨0, 2, some (9, [[0, 4, 3, 2]])⟩,
    ⟨0, 3, some (6, [[0, 4, 3]])⟩, ⟨0, 4, some (3, [[0, 4]])⟩, ⟨1, 0, some (5, [[1, 0]])⟩, ⟨1, 1, some (0, [[]])⟩,
    ⟨1, 2, some (5, [[1, 2]])⟩, ⟨1, 3, some (8, [[1, 2, 3]])⟩, ⟨1, 4, some (8, [[1, 0, 4]])⟩,
    ⟨2, 0, some (9, [[2, 3, 4, 0]])⟩, ⟨2, 1, some (5, [[2, 1]])⟩, ⟨2, 2, some (0, [[]])⟩, ⟨2, 3, some (3, [[2, 3]])⟩,
    ⟨2, 4, some (6, [[2, 3, 4]])⟩, ⟨3, 0, some (6, [[3, 4, 0]])⟩, ⟨3, 1, some (8, [[3, 2, 1]])⟩,
    ⟨3, 2, some (3, [[3, 2]])⟩, ⟨3, 3, some (0, [[]])⟩, ⟨3, 4, some (3, [[3, 4]])⟩, ⟨4, 0, some (3, [[4, 0]])⟩,
    ⟨4, 1, some (8, [[4, 0, 1]])⟩, ⟨4, 2, some (6, [[4, 3, 2]])⟩, ⟨4, 3, some (3, [[4, 3]])⟩, ⟨4, 4, some (0, [[]])⟩]

/-- `tests/bidirectional_bait/routing/fastest.rs:66-97`, where a cost `c` means `Hours::from(Seconds(c))`. -/
def baitFastest : List ExpPath :=
  [
    ⟨0, 0, some (0, [[]])⟩, ⟨0, 1, some (0.6, [[0, 1]])⟩, ⟨0, 2, some (1.08, [[0, 4, 3, 2]])⟩,
    ⟨0, 3, some (0.72, [[0, 4, 3]])⟩, ⟨0, 4, some (0.36, [[0, 4]])⟩, ⟨1, 0, some (0.6, [[1, 0]])⟩,
    ⟨1, 1, some (0, [[]])⟩, ⟨1, 2, some (0.6, [[1, 2]])⟩, ⟨1, 3, some (0.96, [[1, 2, 3]])⟩,
    ⟨1, 4, some (0.96, [[1, 0, 4]])⟩, ⟨2, 0, some (1.08, [[2, 3, 4, 0]])⟩, ⟨2, 1, some (0.6, [[2, 1]])⟩,
    ⟨2, 2, some (0, [[]])⟩, ⟨2, 3, some (0.36, [[2, 3]])⟩, ⟨2, 4, some (0.72, [[2, 3, 4]])⟩,
    ⟨3, 0, some (0.72, [[3, 4, 0]])⟩, ⟨3, 1, some (0.96, [[3, 2, 1]])⟩, ⟨3, 2, some (0.36, [[3, 2]])⟩,
    ⟨3, 3, some (0, [[]])⟩, ⟨3, 4, some (0.36, [[3, 4]])⟩, ⟨4, 0, some (0.36, [[4, 0]])⟩,
    ⟨4, 1, some (0.96, [[4, 0, 1]])⟩, ⟨4, 2, some (0.72, [[4, 3, 2]])⟩, ⟨4, 3, some (0.36, [[4, 3]])⟩,
    ⟨4, 4, some (0, [[]])⟩]

/-- `tests/simple_stuttgart/routing/shortest.rs:66-109`, where a cost `c` means `Kilometers(c)`. -/
def simpleShortest : List ExpPath :=
  [
    ⟨0, 0, some (0, [[]])⟩, ⟨0, 1, some (8, [[0, 1]])⟩, ⟨0, 2, some (31, [[0, 1, 2]])⟩,
    ⟨0, 3, some (30, [[0, 1, 3]])⟩, ⟨0, 4, some (9.069, [[0, 1, 4]])⟩, ⟨0, 5, some (48, [[0, 1, 2, 5]])⟩,
    ⟨1, 0, some (8, [[1, 0]])⟩, ⟨1, 1, some (0, [[]])⟩, ⟨1, 2, some (23, [[1, 2]])⟩, ⟨1, 3, some (22, [[1, 3]])⟩,
    ⟨1, 4, some (1.069, [[1, 4]])⟩, ⟨1, 5, some (40, [[1, 2, 5]])⟩, ⟨2, 0, some (31, [[2, 1, 0]])⟩,
    ⟨2, 1, some (23, [[2, 1]])⟩, ⟨2, 2, some (0, [[]])⟩, ⟨2, 3, some (8, [[2, 3]])⟩,
    ⟨2, 4, some (24.069, [[2, 1, 4]])⟩, ⟨2, 5, some (17, [[2, 5]])⟩, ⟨3, 0, some (30, [[3, 1, 0]])⟩,
    ⟨3, 1, some (22, [[3, 1]])⟩, ⟨3, 2, some (8, [[3, 2]])⟩, ⟨3, 3, some (0, [[]])⟩,
    ⟨3, 4, some (23.069, [[3, 1, 4]])⟩, ⟨3, 5, some (21, [[3, 5]])⟩, ⟨4, 0, none⟩, ⟨4, 1, none⟩, ⟨4, 2, none⟩,
    ⟨4, 3, none⟩, ⟨4, 4, some (0, [[]])⟩, ⟨4, 5, none⟩, ⟨5, 0, some (48, [[5, 2, 1, 0]])⟩,
    ⟨5, 1, some (40, [[5, 2, 1]])⟩, ⟨5, 2, some (17, [[5, 2]])⟩, ⟨5, 3, some (21, [[5, 3]])⟩,
    ⟨5, 4, some (41.069, [[5, 2, 1, 4]])⟩, ⟨5, 5, some (0, [[]])⟩]

/-- `tests/simple_stuttgart/routing/fastest.rs:69-112`, where a cost `c` means `Hours::from(Minutes(c))`. -/
def simpleFastest : List ExpPath :=
  [
    ⟨0, 0, some (0, [[]])⟩, ⟨0, 1, some (9.6, [[0, 1]])⟩, ⟨0, 2, some (21.1, [[0, 1, 2]])⟩,
    ⟨0, 3, some (26.1, [[0, 1, 3]])⟩, ⟨0, 4, some (11.738, [[0, 1, 4]])⟩, ⟨0, 5, some (31.3, [[0, 1, 2, 5]])⟩,
    ⟨1, 0, some (9.6, [[1, 0]])⟩, ⟨1, 1, some (0, [[]])⟩, ⟨1, 2, some (11.5, [[1, 2]])⟩,
    ⟨1, 3, some (16.5, [[1, 3]])⟩, ⟨1, 4, some (2.138, [[1, 4]])⟩, ⟨1, 5, some (21.7, [[1, 2, 5]])⟩,
    ⟨2, 0, some (21.1, [[2, 1, 0]])⟩, ⟨2, 1, some (11.5, [[2, 1]])⟩, ⟨2, 2, some (0, [[]])⟩,
    ⟨2, 3, some (9.6, [[2, 3]])⟩, ⟨2, 4, some (13.638, [[2, 1, 4]])⟩, ⟨2, 5, some (10.2, [[2, 5]])⟩,
    ⟨3, 0, some (26.1, [[3, 1, 0]])⟩, ⟨3, 1, some (16.5, [[3, 1]])⟩, ⟨3, 2, some (9.6, [[3, 2]])⟩,
    ⟨3, 3, some (0, [[]])⟩, ⟨3, 4, some (18.638, [[3, 1, 4]])⟩, ⟨3, 5, some (15.75, [[3, 5]])⟩, ⟨4, 0, none⟩,
    ⟨4, 1, none⟩, ⟨4, 2, none⟩, ⟨4, 3, none⟩, ⟨4, 4, some (0, [[]])⟩, ⟨4, 5, none⟩,
    ⟨5, 0, some (31.3, [[5, 2, 1, 0]])⟩, ⟨5, 1, some (21.7, [[5, 2, 1]])⟩, ⟨5, 2, some (10.2, [[5, 2]])⟩,
    ⟨5, 3, some (15.75, [[5, 3]])⟩, ⟨5, 4, some (23.838, [[5, 2, 1, 4]])⟩, ⟨5, 5, some (0, [[]])⟩]

/-- `tests/simple_stuttgart_normalized/routing/shortest.rs:69-112`, where a cost `c` means `Kilometers(c) / mean_distance`. -/
def normalizedShortest : List ExpPath :=
  [
    ⟨0, 0, some (0, [[]])⟩, ⟨0, 1, some (8, [[0, 1]])⟩, ⟨0, 2, some (31, [[0, 1, 2]])⟩,
    ⟨0, 3, some (30, [[0, 1, 3]])⟩, ⟨0, 4, some (9.069, [[0, 1, 4]])⟩, ⟨0, 5, some (48, [[0, 1, 2, 5]])⟩,
    ⟨1, 0, some (8, [[1, 0]])⟩, ⟨1, 1, some (0, [[]])⟩, ⟨1, 2, some (23, [[1, 2]])⟩, ⟨1, 3, some (22, [[1, 3]])⟩,
    ⟨1, 4, some (1.069, [[1, 4]])⟩, ⟨1, 5, some (40, [[1, 2, 5]])⟩, ⟨2, 0, some (31, [[2, 1, 0]])⟩,
    ⟨2, 1, some (23, [[2, 1]])⟩, ⟨2, 2, some (0, [[]])⟩, ⟨2, 3, some (8, [[2, 3]])⟩,
    ⟨2, 4, some (24.069, [[2, 1, 4]])⟩, ⟨2, 5, some (17, [[2, 5]])⟩, ⟨3, 0, some (30, [[3, 1, 0]])⟩,
    ⟨3, 1, some (22, [[3, 1]])⟩, ⟨3, 2, some (8, [[3, 2]])⟩, ⟨3, 3, some (0, [[]])⟩,
    ⟨3, 4, some (23.069, [[3, 1, 4]])⟩, ⟨3, 5, some (21, [[3, 5]])⟩, ⟨4, 0, none⟩, ⟨4, 1, none⟩, ⟨4, 2, none⟩,
    ⟨4, 3, none⟩, ⟨4, 4, some (0, [[]])⟩, ⟨4, 5, none⟩, ⟨5, 0, some (48, [[5, 2, 1, 0]])⟩,
    ⟨5, 1, some (40, [[5, 2, 1]])⟩, ⟨5, 2, some (17, [[5, 2]])⟩, ⟨5, 3, some (21, [[5, 3]])⟩,
    ⟨5, 4, some (41.069, [[5, 2, 1, 4]])⟩, ⟨5, 5, some (0, [[]])⟩]

/-- `tests/simple_stuttgart_normalized/routing/fastest.rs:72-115`, where a cost `c` means `Hours::from(Minutes(c)) / mean_duration`. -/
def normalizedFastest : List ExpPath :=
  [
    ⟨0, 0, some (0, [[]])⟩, ⟨0, 1, some (9.6, [[0, 1]])⟩, ⟨0, 2, some (21.1, [[0, 1, 2]])⟩,
    ⟨0, 3, some (26.1, [[0, 1, 3]])⟩, ⟨0, 4, some (11.738, [[0, 1, 4]])⟩, ⟨0, 5, some (31.3, [[0, 1, 2, 5]])⟩,
    ⟨1, 0, some (9.6, [[1, 0]])⟩, ⟨1, 1, some (0, [[]])⟩, ⟨1, 2, some (11.5, [[1, 2]])⟩,
    ⟨1, 3, some (16.5, [[1, 3]])⟩, ⟨1, 4, some (2.138, [[1, 4]])⟩, ⟨1, 5, some (21.7, [[1, 2, 5]])⟩,
    ⟨2, 0, some (21.1, [[2, 1, 0]])⟩, ⟨2, 1, some (11.5, [[2, 1]])⟩, ⟨2, 2, some (0, [[]])⟩,
    ⟨2, 3, some (9.6, [[2, 3]])⟩, ⟨2, 4, some (13.638, [[2, 1, 4]])⟩, ⟨2, 5, some (10.2, [[2, 5]])⟩,
    ⟨3, 0, some (26.1, [[3, 1, 0]])⟩, ⟨3, 1, some (16.5, [[3, 1]])⟩, ⟨3, 2, some (9.6, [[3, 2]])⟩,
    ⟨3, 3, some (0, [[]])⟩, ⟨3, 4, some (18.638, [[3, 1, 4]])⟩, ⟨3, 5, some (15.75, [[3, 5]])⟩, ⟨4, 0, none⟩,
    ⟨4, 1, none⟩, ⟨4, 2, none⟩, ⟨4, 3, none⟩, ⟨4, 4, some (0, [[]])⟩, ⟨4, 5, none⟩,
    ⟨5, 0, some (31.3, [[5, 2, 1, 0]])⟩, ⟨5, 1, some (21.7, [[5, 2, 1]])⟩, ⟨5, 2, some (10.2, [[5, 2]])⟩,
    ⟨5, 3, some (15.75, [[5, 3]])⟩, ⟨5, 4, some (23.838, [[5, 2, 1, 4]])⟩, ⟨5, 5, some (0, [[]])⟩]

/-- `tests/small/routing/shortest.rs:95-180`, where a cost `c` means `Kilometers(c / 1_000.0)`. -/
def smallShortest : List ExpPath :=
  [
    ⟨0, 0, some (0, [[]])⟩, ⟨0, 1, none⟩, ⟨0, 2, none⟩, ⟨0, 3, none⟩, ⟨0, 4, none⟩, ⟨0, 5, none⟩, ⟨0, 6, none⟩,
    ⟨0, 7, none⟩, ⟨1, 0, some (1, [[1, 0]])⟩, ⟨1, 1, some (0, [[]])⟩, ⟨1, 2, some (1, [[1, 2]])⟩, ⟨1, 3, none⟩,
    ⟨1, 4, none⟩, ⟨1, 5, none⟩, ⟨1, 6, none⟩, ⟨1, 7, none⟩, ⟨2, 0, some (1, [[2, 0]])⟩, ⟨2, 1, some (1, [[2, 1]])⟩,
    ⟨2, 2, some (0, [[]])⟩, ⟨2, 3, none⟩, ⟨2, 4, none⟩, ⟨2, 5, none⟩, ⟨2, 6, none⟩, ⟨2, 7, none⟩,
    ⟨3, 0, some (2, [[3, 1, 0]])⟩, ⟨3, 1, some (1, [[3, 1]])⟩, ⟨3, 2, some (2, [[3, 1, 2]])⟩, ⟨3, 3, some (0, [[]])⟩,
    ⟨3, 4, some (2, [[3, 4]])⟩, ⟨3, 5, some (2, [[3, 7, 5]])⟩, ⟨3, 6, none⟩, ⟨3, 7, some (1, [[3, 7]])⟩,
    ⟨4, 0, some (4, [[4, 3, 1, 0]])⟩, ⟨4, 1, some (3, [[4, 3, 1]])⟩, ⟨4, 2, some (4, [[4, 3, 1, 2]])⟩,
    ⟨4, 3, some (2, [[4, 3]])⟩, ⟨4, 4, some (0, [[]])⟩, ⟨4, 5, some (1, [[4, 5]])⟩, ⟨4, 6, none⟩,
    ⟨4, 7, some (2, [[4, 5, 7]])⟩, ⟨5, 0, some (4, [[5, 7, 3, 1, 0]])⟩, ⟨5, 1, some (3, [[5, 7, 3, 1]])⟩,
    ⟨5, 2, some (4, [[5, 7, 3, 1, 2]])⟩, ⟨5, 3, some (2, [[5, 7, 3]])⟩, ⟨5, 4, some (1, [[5, 4]])⟩,
    ⟨5, 5, some (0, [[]])⟩, ⟨5, 6, none⟩, ⟨5, 7, some (1, [[5, 7]])⟩,
    ⟨6, 0, some (5, [[6, 4, 3, 1, 0], [6, 5, 7, 3, 1, 0]])⟩, ⟨6, 1, some (4, [[6, 4, 3, 1], [6, 5, 7, 3, 1]])⟩,
    ⟨6, 2, some (5, [[6, 4, 3, 1, 2], [6, 5, 7, 3, 1, 2]])⟩, ⟨6, 3, some (3, [[6, 4, 3], [6, 5, 7, 3]])⟩,
    ⟨6, 4, some (1, [[6, 4]])⟩, ⟨6, 5, some (1, [[6, 5]])⟩, ⟨6, 6, some (0, [[]])⟩, ⟨6, 7, some (2, [[6, 5, 7]])⟩,
    ⟨7, 0, some (3, [[7, 3, 1, 0]])⟩, ⟨7, 1, some (2, [[7, 3, 1]])⟩, ⟨7, 2, some (3, [[7, 3, 1, 2]])⟩,
    ⟨7, 3, some (1, [[7, 3]])⟩, ⟨7, 4, some (2, [[7, 5, 4]])⟩, ⟨7, 5, some (1, [[7, 5]])⟩, ⟨7, 6, none⟩,
    ⟨7, 7, some (0, [[]])⟩]

/-- `tests/small/routing/fastest.rs:98-183`, where a cost `c` means `Hours::from(Seconds(c))`. -/
def smallFastest : List ExpPath :=
  [
    ⟨0, 0, some (0, [[]])⟩, ⟨0, 1, none⟩, ⟨0, 2, none⟩, ⟨0, 3, none⟩, ⟨0, 4, none⟩, ⟨0, 5, none⟩, ⟨0, 6, none⟩,
    ⟨0, 7, none⟩, ⟨1, 0, some (0.12, [[1, 0]])⟩, ⟨1, 1, some (0, [[]])⟩, ⟨1, 2, some (0.12, [[1, 2]])⟩, ⟨1, 3, none⟩,
    ⟨1, 4, none⟩, ⟨1, 5, none⟩, ⟨1, 6, none⟩, ⟨1, 7, none⟩, ⟨2, 0, some (0.12, [[2, 0]])⟩,
    ⟨2, 1, some (0.12, [[2, 1]])⟩, ⟨2, 2, some (0, [[]])⟩, ⟨2, 3, none⟩, ⟨2, 4, none⟩, ⟨2, 5, none⟩, ⟨2, 6, none⟩,
    ⟨2, 7, none⟩, ⟨3, 0, some (0.24, [[3, 1, 0]])⟩, ⟨3, 1, some (0.12, [[3, 1]])⟩, ⟨3, 2, some (0.24, [[3, 1, 2]])⟩,
    ⟨3, 3, some (0, [[]])⟩, ⟨3, 4, some (0.24, [[3, 4]])⟩, ⟨3, 5, some (0.24, [[3, 7, 5]])⟩, ⟨3, 6, none⟩,
    ⟨3, 7, some (0.12, [[3, 7]])⟩, ⟨4, 0, some (0.48, [[4, 3, 1, 0]])⟩, ⟨4, 1, some (0.36, [[4, 3, 1]])⟩,
    ⟨4, 2, some (0.48, [[4, 3, 1, 2]])⟩, ⟨4, 3, some (0.24, [[4, 3]])⟩, ⟨4, 4, some (0, [[]])⟩,
    ⟨4, 5, some (0.12, [[4, 5]])⟩, ⟨4, 6, none⟩, ⟨4, 7, some (0.24, [[4, 5, 7]])⟩,
    ⟨5, 0, some (0.48, [[5, 7, 3, 1, 0]])⟩, ⟨5, 1, some (0.36, [[5, 7, 3, 1]])⟩,
    ⟨5, 2, some (0.48, [[5, 7, 3, 1, 2]])⟩, ⟨5, 3, some (0.24, [[5, 7, 3]])⟩, ⟨5, 4, some (0.12, [[5, 4]])⟩,
    ⟨5, 5, some (0, [[]])⟩, ⟨5, 6, none⟩, ⟨5, 7, some (0.12, [[5, 7]])⟩,
    ⟨6, 0, some (0.6, [[6, 5, 7, 3, 1, 0], [6, 4, 3, 1, 0]])⟩, ⟨6, 1, some (0.48, [[6, 4, 3, 1], [6, 5, 7, 3, 1]])⟩,
    ⟨6, 2, some (0.6, [[6, 4, 3, 1, 2], [6, 5, 7, 3, 1, 2]])⟩, ⟨6, 3, some (0.36, [[6, 4, 3], [6, 5, 7, 3]])⟩,
    ⟨6, 4, some (0.12, [[6, 4]])⟩, ⟨6, 5, some (0.12, [[6, 5]])⟩, ⟨6, 6, some (0, [[]])⟩,
    ⟨6, 7, some (0.24, [[6, 5, 7]])⟩, ⟨7, 0, some (0.36, [[7, 3, 1, 0]])⟩, ⟨7, 1, some (0.24, [[7, 3, 1]])⟩,
    ⟨7, 2, some (0.36, [[7, 3, 1, 2]])⟩, ⟨7, 3, some (0.12, [[7, 3]])⟩, ⟨7, 4, some (0.24, [[7, 5, 4]])⟩,
    ⟨7, 5, some (0.12, [[7, 5]])⟩, ⟨7, 6, none⟩, ⟨7, 7, some (0, [[]])⟩]

/-- `tests/bidirectional_bait/parsing.rs:29-106`: nodes with id and coordinate. -/
def baitNodes : List (Int × ℚ × ℚ) :=
  [
    (0, 0, 0), (1, 0, 0), (2, 0, 0), (3, 0, 0), (4, 0, 0)]

/-- Forward edges. -/
def baitFwd : List ExpEdge :=
  [
    ⟨0, 0, 1, 5, 30, 0.60⟩, ⟨1, 0, 4, 3, 30, 0.36⟩, ⟨2, 1, 0, 5, 30, 0.60⟩, ⟨3, 1, 2, 5, 30, 0.60⟩,
    ⟨4, 2, 1, 5, 30, 0.60⟩, ⟨5, 2, 3, 3, 30, 0.36⟩, ⟨6, 3, 2, 3, 30, 0.36⟩, ⟨7, 3, 4, 3, 30, 0.36⟩,
    ⟨8, 4, 0, 3, 30, 0.36⟩, ⟨9, 4, 3, 3, 30, 0.36⟩]

/-- Backward edges. -/
def baitBwd : List ExpEdge :=
  [
    ⟨0, 1, 0, 5, 30, 0.60⟩, ⟨1, 4, 0, 3, 30, 0.36⟩, ⟨2, 0, 1, 5, 30, 0.60⟩, ⟨3, 2, 1, 5, 30, 0.60⟩,
    ⟨4, 1, 2, 5, 30, 0.60⟩, ⟨5, 3, 2, 3, 30, 0.36⟩, ⟨6, 2, 3, 3, 30, 0.36⟩, ⟨7, 4, 3, 3, 30, 0.36⟩,
    ⟨8, 0, 4, 3, 30, 0.36⟩, ⟨9, 3, 4, 3, 30, 0.36⟩]

/-- `tests/simple_stuttgart/parsing.rs:29-114`: nodes with id and coordinate. -/
def simpleNodes : List (Int × ℚ × ℚ) :=
  [
    (26033921, 48.9840100, 9.4589188), (26160028, 48.9416023, 9.4332023), (252787940, 48.8271096, 9.3098661),
    (298249467, 48.8108510, 9.3679493), (1621605361, 48.9396327, 9.4188681), (2933335353, 48.7701757, 9.1565768)]

/-- Forward edges. -/
def simpleFwd : List ExpEdge :=
  [
    ⟨0, 0, 1, 8, 50, 576⟩, ⟨1, 1, 0, 8, 50, 576⟩, ⟨2, 1, 2, 23, 120, 690⟩, ⟨3, 1, 3, 22, 80, 990⟩,
    ⟨4, 1, 4, 1.069, 30, 128.28⟩, ⟨5, 2, 1, 23, 120, 690⟩, ⟨6, 2, 3, 8, 50, 576⟩, ⟨7, 2, 5, 17, 100, 612⟩,
    ⟨8, 3, 1, 22, 80, 990⟩, ⟨9, 3, 2, 8, 50, 576⟩, ⟨10, 3, 5, 21, 80, 945⟩, ⟨11, 5, 2, 17, 100, 612⟩,
    ⟨12, 5, 3, 21, 80, 945⟩]

/-- Backward edges. -/
def simpleBwd : List ExpEdge :=
  [
    ⟨0, 1, 0, 8, 50, 576⟩, ⟨1, 0, 1, 8, 50, 576⟩, ⟨2, 2, 1, 23, 120, 690⟩, ⟨3, 3, 1, 22, 80, 990⟩,
    ⟨4, 4, 1, 1.069, 30, 128.28⟩, ⟨5, 1, 2, 23, 120, 690⟩, ⟨6, 3, 2, 8, 50, 576⟩, ⟨7, 5, 2, 17, 100, 612⟩,
    ⟨8, 1, 3, 22, 80, 990⟩, ⟨9, 2, 3, 8, 50, 576⟩, ⟨10, 5, 3, 21, 80, 945⟩, ⟨11, 2, 5, 17, 100, 612⟩,
    ⟨12, 3, 5, 21, 80, 945⟩]

/-- `tests/simple_stuttgart_normalized/parsing.rs:35-125`: nodes with id and coordinate. -/
def normalizedNodes : List (Int × ℚ × ℚ) :=
  [
    (26033921, 48.9840100, 9.4589188), (26160028, 48.9416023, 9.4332023), (252787940, 48.8271096, 9.3098661),
    (298249467, 48.8108510, 9.3679493), (1621605361, 48.9396327, 9.4188681), (2933335353, 48.7701757, 9.1565768)]

/-- Forward edges. -/
def normalizedFwd : List ExpEdge :=
  [
    ⟨0, 0, 1, 8, 50, 576⟩, ⟨1, 1, 0, 8, 50, 576⟩, ⟨2, 1, 2, 23, 120, 690⟩, ⟨3, 1, 3, 22, 80, 990⟩,
    ⟨4, 1, 4, 1.069, 30, 128.28⟩, ⟨5, 2, 1, 23, 120, 690⟩, ⟨6, 2, 3, 8, 50, 576⟩, ⟨7, 2, 5, 17, 100, 612⟩,
    ⟨8, 3, 1, 22, 80, 990⟩, ⟨9, 3, 2, 8, 50, 576⟩, ⟨10, 3, 5, 21, 80, 945⟩, ⟨11, 5, 2, 17, 100, 612⟩,
    ⟨12, 5, 3, 21, 80, 945⟩]

/-- Backward edges. -/
def normalizedBwd : List ExpEdge :=
  [
    ⟨0, 1, 0, 8, 50, 576⟩, ⟨1, 0, 1, 8, 50, 576⟩, ⟨2, 2, 1, 23, 120, 690⟩, ⟨3, 3, 1, 22, 80, 990⟩,
    ⟨4, 4, 1, 1.069, 30, 128.28⟩, ⟨5, 1, 2, 23, 120, 690⟩, ⟨6, 3, 2, 8, 50, 576⟩, ⟨7, 5, 2, 17, 100, 612⟩,
    ⟨8, 1, 3, 22, 80, 990⟩, ⟨9, 2, 3, 8, 50, 576⟩, ⟨10, 5, 3, 21, 80, 945⟩, ⟨11, 2, 5, 17, 100, 612⟩,
    ⟨12, 3, 5, 21, 80, 945⟩]

/-- `tests/small/parsing.rs:39-131`: nodes with id and coordinate. -/
def smallNodes : List (Int × ℚ × ℚ) :=
  [
    (0, 0, 0), (1, 0, 0), (2, 0, 0), (3, 0, 0), (4, 0, 0), (5, 0, 0), (6, 0, 0), (7, 0, 0)]

/-- Forward edges. -/
def smallFwd : List ExpEdge :=
  [
    ⟨0, 1, 0, 1, 30, 0.12⟩, ⟨1, 1, 2, 1, 30, 0.12⟩, ⟨2, 2, 0, 1, 30, 0.12⟩, ⟨3, 2, 1, 1, 30, 0.12⟩,
    ⟨4, 3, 1, 1, 30, 0.12⟩, ⟨5, 3, 4, 2, 30, 0.24⟩, ⟨6, 3, 7, 1, 30, 0.12⟩, ⟨7, 4, 3, 2, 30, 0.24⟩,
    ⟨8, 4, 5, 1, 30, 0.12⟩, ⟨9, 5, 4, 1, 30, 0.12⟩, ⟨10, 5, 7, 1, 30, 0.12⟩, ⟨11, 6, 4, 1, 30, 0.12⟩,
    ⟨12, 6, 5, 1, 30, 0.12⟩, ⟨13, 7, 2, 4, 30, 0.48⟩, ⟨14, 7, 3, 1, 30, 0.12⟩, ⟨15, 7, 5, 1, 30, 0.12⟩]

/-- Backward edges. -/
def smallBwd : List ExpEdge :=
  [
    ⟨0, 0, 1, 1, 30, 0.12⟩, ⟨1, 2, 1, 1, 30, 0.12⟩, ⟨2, 0, 2, 1, 30, 0.12⟩, ⟨3, 1, 2, 1, 30, 0.12⟩,
    ⟨4, 1, 3, 1, 30, 0.12⟩, ⟨5, 4, 3, 2, 30, 0.24⟩, ⟨6, 7, 3, 1, 30, 0.12⟩, ⟨7, 3, 4, 2, 30, 0.24⟩,
    ⟨8, 5, 4, 1, 30, 0.12⟩, ⟨9, 4, 5, 1, 30, 0.12⟩, ⟨10, 7, 5, 1, 30, 0.12⟩, ⟨11, 4, 6, 1, 30, 0.12⟩,
    ⟨12, 5, 6, 1, 30, 0.12⟩, ⟨13, 2, 7, 4, 30, 0.48⟩, ⟨14, 3, 7, 1, 30, 0.12⟩, ⟨15, 5, 7, 1, 30, 0.12⟩]

end Verif.Tests
