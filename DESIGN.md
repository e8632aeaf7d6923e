# Design of the formal model of osmgraphing

The model is written in Lean 4 (4.33.0, with Mathlib) under `lean/Verif/`. Every definition cites the
file and lines of `/repo` it models. This file says what is modelled and how, which properties are
false of the code (a machine-checked counterexample is given then), and what the trusted base is.
`properties.jsonl` lists the properties, `MANIFEST.json` maps each of them to its theorems, and
`seeded/LOG.jsonl` lists wrong programs (edits of model definitions) together with the theorems whose
proof no longer goes through. How to read an entry:

* `failed_directly` are the property theorems and examples whose own proof did not compile after the edit.
  `theorems_failed` has also those whose proof rests on a helper lemma that did not compile.
* A theorem listed there has lost its proof. That it is false of the edited program is not proved,
  and for edits that seem to be equivalent (claim `none: ..`) it is probably still true.
* A run stops as soon as a theorem of the named claim has failed, hence the lists are not complete.
* The script that replaces failed proofs by `sorry` cut off statements that contain `let`, `match` or a
  line starting with `|x|`, and removed these theorems altogether. Whatever uses them was then reported
  as failing directly, though it only rests on them. This concerns 59 entries. Their lists were
  edited afterwards: the remark `(statement)` and names of helper lemmas were taken out of
  `theorems_failed`. The entries `SF..` have been run again with a corrected script, which still
  removed the helper lemmas `newMean_near` and `products_near` but no property theorem.

## Conventions

* `Res ε α = ok a | err e | panic`. `err` is the code's own `Err(..)`, `panic` stands for a Rust panic
  (index out of bounds, `expect`, arithmetic underflow in a debug build). Nothing is totalised: an
  out-of-bounds access is `panic`, never a default value.
* Rust `Vec`s are `List`s, `usize`/`i64` are `Nat`/`Int` (overflow is modelled only where the text of
  a file is parsed: `Text.parseNat`/`parseInt` reject what does not fit into 64 bits).
* `f64` is `ℚ` (exact), `f64::INFINITY` as a label or tolerance is `none`. The search loop of the
  router is parametrised by an arbitrary linearly ordered cost type with an addition; where a
  statement does not need exact arithmetic, the addition is only assumed to be inflationary and
  monotone (`Search.AddOk`), which rounding to nearest satisfies.
* Loops are structural recursions/folds. Loops whose termination is a property take fuel and return
  `Option`; the theorem is then that some fuel suffices (C19, C36, C37) or that none does (C22).
  Results never depend on the amount of fuel (`FuelMono.lean`).
* The queue of the router is an arbitrary function that neither loses nor invents elements (`Heap`);
  optimality additionally needs that a cheapest element is popped (`Heap.Min`). `BinHeap.lean` models
  std's binary heap with an arbitrary comparison, so that both instances exist: with an exact
  comparison, and with the code's approximate comparison (`codeHeap`).
* Threads are a transition system whose steps can be taken in any order (`Parallel.lean`).
* File layout: `X.lean` is the model, `XSpec.lean` the specification used in theorem statements,
  `XLemmas*.lean` helper lemmas, `XProps.lean` the property theorems with an `example` beside each.
  `Search*.lean`, `Hierarchy.lean`, `ParallelInv.lean`, `Sort.lean` are proof devices only.

## What is modelled

| model | code | properties |
|-------|------|------------|
| `Approx` | `src/approximating.rs` | C24–C26 |
| `Sort` | std's stable sort and binary search | used by C01, C11 |
| `Graph` | accessors of `src/network/graph/mod.rs` | C01–C12 |
| `Building` | `src/network/graph/building.rs:69-884` (inserting, sorting, dedup, offsets, shortcuts, ids) | C01–C07, C09–C12, C57 |
| `Generating` | `src/network/graph/building.rs:886-1455` (generating, merging, normalizing) | C08, C27, C43–C45, C50, C54–C56 |
| `Path` | `src/routing/paths.rs`, vector helpers of `src/helpers/mod.rs` | C21–C23 |
| `Dijkstra`, `BinHeap` | `src/routing/dijkstra.rs` (all of it), std's `BinaryHeap` | C13–C20, C61, C62 |
| `Explorating` | `src/routing/explorating.rs` | C46, C47, C63–C65, C79 |
| `Parallel` | `src/bin/osmgraphing/balancing/multithreading.rs` (master, workers, Dijkstra jobs), running statistics | C37–C39 |
| `ParallelExplorator` | `src/bin/osmgraphing/balancing/multithreading.rs` (`work_off_with_explorator`) | C66 |
| `Balancing` | `update_new_metric` in `src/defaults.rs` | C40, C60 |
| `BalancingRun` | the loop of `src/bin/osmgraphing/balancing/mod.rs` | C71 |
| `Tool` | `src/bin/osmgraphing/mod.rs`, `src/io/mod.rs` (extensions), `src/io/writing/evaluating_balance.rs`, `src/io/writing/network/graph/mod.rs` | C73, C74 |
| `Float` | `f64` rounding; `src/helpers/mod.rs:23-27` and `src/approximating.rs:164-199` with rounded operations | C75–C77 |
| `Session` | `src/bin/osmgraphing/mod.rs:60-178,191-275`, `src/io/parsing/network/graph/mod.rs:46-62`, `src/io/parsing/routing/mod.rs`: the tool with `--routing`, from documents and files to the reports; `SessionSpec` describes routes in terms of the lines of a map | C89, C90 |
| `ContractSpec`, `FlattenSpec`, `CyclicSpec`, `SessionChSpec` | no code: contracted maps in terms of records and of lines, and how many edges are set aside while flattening | C91, C92, C21, C22 |
| `SessionStreetsSpec` | no code: a user's settings for minutes on a pbf-map, and true reports in terms of streets | C93 |
| `Export` | `src/bin/osmgraphing/mod.rs:65-108`: the graph of a document, and what is written for it | C94 |
| `ExportSpec` | no code: a user exports all columns of a map and reads them again | C94 |
| `Pairs` | `src/bin/osmgraphing/mod.rs:141-178`, `src/io/writing/routing/mod.rs:9-27`: how the tool depends on the document when it writes route-pairs and routes | C95 |
| `PairsSpec` | no code: the written file is the one that is used for routing | C95 |
| `Evaluate` | `src/bin/osmgraphing/mod.rs:277-322`, `src/io/writing/evaluating_balance.rs:35-89`, `src/defaults.rs:65,112`: how the tool depends on the document when it evaluates a balance | C96 |
| `EvaluateSpec` | no code: what is counted for a report, and the file of workloads | C96 |
| `Balancer` | `src/bin/osmgraphing/balancing/mod.rs:13-373,419-490`: the balancer with documents and files in place of `BalancingRun`'s open world | C97 |
| `BalancerSpec` | no code: relative paths, files outside of a directory, names | C97 |
| `BalancedSpec` | no code: streets by id, iterations, values that are taken over | C98 |
| `FitSpec` | no code: columns after loading, sections that fit | C99, C100 |
| `Shipped` | the documents in `resources/*/**.yaml`, translated one by one | C100 |
| `TestsSpec` | `tests/helpers/mod.rs`, `tests/helpers/components.rs`, `tests/asdf/parsing.rs`, `examples/dijkstra.rs` | C101, C102 |
| `Tests` | data of `tests/*` and of the text-files in `resources/*`, translated one by one | C101, C102 |
| `Visual` | `scripts/balancing/visualizer/visualizing/model.py`, `simulating.py` | C103 |
| `Norm` | `scripts/balancing/visualizer/visualizing/helpers.py:7-105` | C104 |
| `Cmdline` | `src/bin/osmgraphing/mod.rs:324-530` | C105 |
| `Shuffle*` (no model of its own) | `src/network/graph/building.rs:203-884` | C106 |
| `Layout*` (no model of its own) | `src/network/graph/mod.rs:14-77`, `src/network/graph/building.rs:462-876` | C107 |
| `Overflow*` | `src/routing/dijkstra.rs:136-342`, `src/helpers/mod.rs:23-27`, `src/approximating.rs:168-199` | C108 |
| `Special*` | `src/network/graph/building.rs:69-88,521-535,658-666,1397-1455`, `src/configs/parsing/generating/edges/metrics.rs:140-263`, `src/routing/dijkstra.rs:144-342` | C109 |
| `Alphas*` | `src/routing/dijkstra.rs:144-342`, `src/helpers/mod.rs:23-27` | C110 |
| `Describe*` | `src/network/graph/mod.rs:162-331` | C111 |
| `Figures*` | `scripts/balancing/visualizer/visualizing/plotting.py`, `__init__.py`, `model.py` | C112 |
| `BalanceFloat*` | `update_new_metric` in `src/defaults.rs` with every operation on `f64` rounded | C113 |
| `NormFloat*` | the normalization at the end of `src/network/graph/building.rs` and denormalizing in `src/io/writing/network/mod.rs` with every operation on `f64` rounded | C114 |
| `BalanceFloatRun*` | several updates in a row (`src/bin/osmgraphing/balancing/mod.rs:35-72`) on `f64` | C115 |
| `PathFloat*` | costs and flattening of paths (`src/routing/paths.rs:73-134`) on `f64` | C116 |
| `StatsFloat*` | mean and variance of found paths (`src/bin/osmgraphing/balancing/multithreading.rs:85-118`) on `f64` | C117 |
| `ToleranceFloat*` | tolerances of the explorator (`src/routing/explorating.rs:432-441,570`) on `f64` | C118 |
| `Debug*` | debug-assertions of router and builder (`src/routing/dijkstra.rs:114-117,145-148,173-182`, `src/network/graph/building.rs:871-875`) | C119 |
| `MapName*` | names of maps (`src/bin/osmgraphing/balancing/mod.rs:378-416`, not called) | C120 |
| `Yaml`, `YamlConfig` | yaml-documents as read by serde; `src/configs/**` and `src/multi_ch_constructor/configs.rs` from the document to the configuration; `src/multi_ch_constructor/mod.rs` (arguments only) | C82–C88 |
| `Text` | what is used of `str` and integer parsing/printing | C49, C50, C53 |
| `Streets` | `src/defaults.rs:271-814` (street tables, tags) | C31–C33, C53 |
| `Pbf` | `src/io/parsing/network/graph/pbf.rs` | C31, C32 |
| `Config` | unit tables, edge/node/routing configs, `check_config` of `src/io/parsing/network/graph/mod.rs` | C41–C43, C52 |
| `Fmi` | fmi parser and writer, csv writer of edge data | C28–C30, C49, C50, C58 |
| `Routes` | route-pair parser and writer | C34–C36, C50, C59 |
| `Matrix` | `src/helpers/algebra.rs` | C48 |
| `Smarts` | `src/io/writing/smarts.rs` | C51 |

## Method per property

| id | method | what is false of the code |
|----|--------|---------------------------|
| C01, C02 | invariant over insertions, loop invariant of the binary search | |
| C03, C04 | permutation argument, offset arrays; exactly which nodes can be asked (`_covered_iff`) | offsets are too short for nodes behind the last source (destination): panic |
| C05, C06 | permutation/sublist invariants of the in-place dedup loop | duplicates that are not neighbours after sorting remain |
| C07, C08 | direct; per generator | generated metrics may lie below the threshold |
| C09, C10, C11, C12 | counting, representative map, sortedness; C11_fails_iff: the sort is stable, so the first insertion of an id is kept, unless an earlier edge with the same id is equal to it | |
| C13, C15, C16, C18, C19 | invariants of the search for every pop order and rounded addition | panics for uncovered nodes and two-node graphs |
| C19 (negation) | a family of graphs of `k` stages; the search passes everything below a stage twice, by induction over stages | exact arithmetic; small alphas |
| C14, C20 | label-setting argument; contracted graphs are hierarchies by a multiset order | the approximate order of the queue leads to suboptimal answers |
| C14, C20 (bounds) | heap with inexact comparison: slack grows by 1.5e-6 per push and 3e-6 per pop; label-setting argument with slack | bound depends on the number of iterations; relative to the optimum, the error is unbounded for small alphas (`C14_false_factor`) |
| C17 | two states of a router that agree on what a query uses | `init_query` does not resize for two-node or smaller graphs |
| C21, C22 | unfolding of shortcuts as a relation; measure; the edges waiting on the stack, counted along the way into a cycle | acyclic paths can be rejected; cyclic references can diverge |
| C23 | additivity of folds | |
| C24–C26 | rounding to the grid; exact characterisations | the approximate order is not transitive; slices of different length |
| C27 | exact arithmetic | |
| C28–C30, C58 | files are lists of lines; printing of floats is an abstract codec; induction over lines and columns | destination coordinates; edges lost by lifting; ids of nodes not checked |
| C31–C33, C53 | case analysis of tables, induction over ways | documentation and tables differ; white space |
| C34–C36, C59 | invariants of the writing loop for every random stream | cut-off files are accepted; all pairs of two-node graphs panic; attempts are capped |
| C37–C39 | invariant of the transition system for every schedule, decreasing measure | no threads, unknown nodes and counts of zero lose pairs; statistics depend on chunks |
| C40, C60 | exact arithmetic, induction over updates | corrections above one; graphs without edges |
| C41–C43, C52 | case analysis of unit tables, decision logic | conversion through `F64`; ids of generated metrics |
| C44, C45, C54–C56 | invariants of the generator folds | units of generating configs are never compared |
| C46, C47 | invariant of the exploration for every triangulation and solver | panics and untolerated routes if ids are given twice; 32 metrics |
| C63, C64 | alphas of a cell solve its linear system, so a cheaper path is not known; there are finitely many routes without circles | upper cells of a convex hull: known routes again; the loop need not end |
| C65 | the explorator uses the router only through its answers, which don't depend on its state (C17) | as for C17 |
| C66 | the worker is `Reliable`, so the theorems of C37 and C39 apply; fuel from C64 | which routes are chosen depends on the schedule |
| C67 | two runs in lockstep: all steps of the search use weights only | the explorator compares costs of all metrics |
| C68 | C67 with C27: dividing metrics and multiplying alphas leaves weights as they are | values lifted by normalizing |
| C69 | C05, C13, C14, C15 and C20 composed: chains of records and routes of the graph translate into each other | near duplicates; near ties as in C14 |
| C70 | composition: file → records (C31) → edges (C05) → generated minutes (C55) → routes (C13–C15), both directions by induction over the trip | code's queue: up to the bound of C14 |
| C71 | case distinction over the remaining iterations; a history as inductive relation, in both directions | files, contraction and simulation are parameters |
| C72 | invariant of the transition system: only flattened paths are counted (C21) | |
| C73 | a relation between plan and disk, composed along the tasks; both directions | parts of the tool are parameters; the balancer's files are assumed to be kept |
| C74 | characterisation of the extension by the last dot | |
| C75 | spacing of numbers by the binary logarithm; monotone across powers of two | overflow, see C108 |
| C76 | invariant of the search with values of costs: some entry of a given route is in the queue and expanded on the other side; factors `1 ± u` per operation | slack by rounding and comparing, `k` is not bounded |
| C77 | two routers in lockstep; a label is the sum of at most as many weights as nodes are labelled | weights on a grid of powers of two |
| C78 | induction over the rounds | code compiled for more than 24999994 metrics |
| C79 | the system's rows are rewritten to equal weighted costs of all vertices, then uniqueness of the solution is used; two metrics: position of a point below a line | more than two metrics for the loss of routes (`C79_false_strict`: tolerated only approximately) |
| C80 | invariant of the loop: every cell seen so far is settled, i.e. no route lies below its line by more than the tolerance; at the end, the best vertex for some weights is the corner of two settled cells or an end of the hull | more than two metrics; too few initial routes (`C80_false_few`); approximate comparison only up to the router's error |
| C81 | the loop invariant of C80 for any number of metrics; weights and points are translated between all metrics and the considered ones; counterexample on a graph with five routes with a lower convex hull in space | best routes below edges of the hull (`C81_false_best`); scales; approximate comparison only up to the router's error |
| C82 | readers look at the values of one key only | – |
| C83 | combinators for readers that collect the keys they know | elements of lists in parsing (`C83_false_parsing`), below `random_or_all` (`C83_false_pairs`) |
| C84 | readers respect the relation of documents that differ in the order of keys | – |
| C85 | documents are written from the user's decisions by an independent specification and read back | the largest number of updates (`C85_false_updates`) |
| C86 | monotonicity of buffered readers; replacing a part of an accepted document | texts that look like something else (`C86_false_ratio`, `C86_false_id`) |
| C87 | evaluation of the documented names | `C87_false_vehicles`, `C87_false_generating`, `C87_false_explorator` |
| C88 | comparison with the command line of a specification | empty arguments (`C88_false_empty`) |
| C89 | Former queries leave a router that answers like a new one (C17), on two nodes none is left because the first query panics; induction over the pairs; the explorator ends as in C64 | answers with exactly two nodes and with uncovered nodes are false, see C15 |
| C90 | Documents by C85, maps by C50 and the like for lines, then C69 and C19 for the records of the lines | optimality needs the conditions of C69; negative alphas and small tolerated scales are false |
| C91 | Up-down-routes by induction over the lowest inner node, on records instead of graph-edges; removal of duplicates keeps costs (C09); flattened costs by induction over shortcuts; success because an optimal path repeats no edge and shortcuts cost something | false with costs around zero, near ties, and without contraction |
| C92 | Lines by C90, records by C91; a pair's path is flattened by C21 and C91 | conditions of C91; finishing as in C89 |
| C93 | The document gives graph, categories and alphas by C85 and C54; routes are trips and costs are minutes by C70; the added metrics are found by their names; flattening changes nothing, since pbf-maps have no shortcuts | slack of near ties (C14); dead ends and maps of two nodes for finishing (C15) |
| C94 | The tool writes all columns of the graph (C73, C85); the graph of a pbf-map with generated metrics is complete and neighboured edges differ, because metrics of the map are natural numbers, so reading yields the same graph (C28); routing depends on its section and the route-pairs only | values around zero (C94_false_zero); texts of numbers are exact |
| C95 | What the writer has found is found again by a router with other former queries (C17) and more fuel; the file is read as written (C34); the writer terminates (C36); unpacking paths without shortcuts succeeds (C21) | shortcuts (see C91); memory for more than 2^63 bytes of pairs |
| C96 | Workers answer like routing: a finished query is found by any later router with enough fuel (C17, C66); a run of threads with more fuel is the same run; the workloads of a run that ends are the occurrences of answered paths (C37, C66); writers write what they are given (C73, C58) | rounding of costs; a simulation that doesn't end; other tasks in the same call |
| C97 | a predicate on files that every stage keeps is kept by a run in all cases (ok, error, panic); paths are split at slashes; the stored map from C71's history, kept by each stage of the last iteration | links and `..` in paths; the external programs' own files; creating directories |
| C98 | by induction over the iterations, the value of a street is one function of how often it has been used, the same for all streets; this function is monotone, or a weighted sum, or an average | that the external contraction takes over the streets' metric is a hypothesis |
| C99 | the generating categories change columns in the same way as the specification does, one by one, and loading ends with generating | maps that cannot be loaded have no columns |
| C100 | evaluation of the modelled parsers of all sections by the kernel; C99 for all maps | the documents have been translated by a script, comments are left out |
| C101 | evaluation of the translated tests by the kernel | maps, documents and expectations have been translated by scripts |
| C102 | evaluation by the kernel; random numbers are not used if all pairs are asked for | one algorithm and metric per map |
| C103 | a graph's ids are unique, so sorting rows by id yields the same order in every iteration; a column's text follows from the first category with its name | the scripts' `float` is exact; names without spaces and quotation marks |
| C104 | the logarithm is monotone; exactly the values with twice the interpolation in [-1, 1] stay in the range | real numbers; limits are given and different |
| C105 | a command line is cut into parts uniquely; counting flags | `clap` as documented; no `=`, no joined short options, no `--` |
| C106 | sorting by a total key; everything else depends on sets of ids and on the last record | no shortcuts, no two records with the same key |
| C107 | sortedness of both sorts, counting; the examples by evaluation and C106 | - |
| C108 | the searches with and without overflow agree step by step within a bound on labels; otherwise, invariants as for C13 and C15 with arcs whose sums fit | a path that is found if a route exists, cheapest ones |
| C109 | the router is that of C108 on a graph whose metrics are edge-indices; columns and their means | normalized metrics |
| C110 | every query is answered as one with finite weights, maybe with edges that can't be used | |
| C111 | a loop invariant for excerpts; offsets are counts of edges (C107) | printing panics if the last two nodes have no leaving, or no entering, edges (`C111_false_panic`) |
| C112 | stable sorting; loops over indices and slices become runs of equal lane-counts | no figures if all streets are used equally often (`C112_false_run`), or if all workloads grow in the dark style (`C112_false_dark`); boxes share a position if lane-counts are no integers (`C112_false_position`) |
| C113 | errors of each operation, products of `1 ± 2^-53` for sums | the mean isn't exactly one (`C113_false_exact`); old values near the largest number overflow (`C113_false_size`) |
| C114 | the lemmas on sums and means of C113, columnwise | means depend on the order of edges (`C114_false_order`); sums of huge values overflow (`C114_false_size`) |
| C115 | C113 for each update; an error is damped by the weighted average, and each update adds at most one more | the average isn't exact (`C115_false_exact`) |
| C116 | one rounding per edge (as in C113); the machine of C21 with other costs; Bernoulli's inequality for the relative error | exact costs, the same costs after flattening, strict growth, independence of the order, finite costs (`C116_false_*`) |
| C117 | the exact update (C39) plus errors of each operation; errors grow linearly (mean) and quadratically (variance) | exact results, independence of the outcomes' order and sizes (`C117_false_exact`) |
| C118 | costs from C116, one rounding per product, comparisons are off by at most 1/625000; rounding is monotone | tolerances for exact costs, a limit for an infinitely long best path with a scale of zero (`C118_false_*`) |
| C119 | step by step the same results as without assertions; a visited node is visited | equality without alphas (`C119_false_no_alphas`) |
| C120 | position of the first dot, one byte per ascii-character | one extension, characters with several bytes (`C120_false_*`) |
| C48 | index arithmetic | every non-square shape with two or more columns |
| C49, C50 | exact panic conditions of the line parsers | short edge ids, nodes without coordinates; lines of white space |
| C51 | induction over paths | |
| C61, C62 | ghost cost at which a node was last relaxed; the chains of both directions share only the meeting node | zero alphas: a flattened route visits a node twice |
| C57 | a well-formed graph is a fixed point of building | duplicates are searched for before metrics are lifted |

Where a property is false, a theorem `Cxx_false_...` proves the negation with a concrete witness, and a
theorem `Cxx_..._partial` proves what holds instead, under the weakest condition that was found. The
full statement is in `properties.jsonl`.

## Assumptions of single parts

* Router: debug-assertions are modelled in C119 only, NaN and infinite metrics only for C109 and C110, such alphas only for C110. The theorems on optimality (C14, C20) use exact
  rationals; C76 bounds the error in `f64` arithmetic.
* `C14_grid_partial`, `C20_code_partial`, `C19_linear_code_partial`: the code's approximate comparison,
  but metrics and alphas that lead to weights on a grid of step at least 1.5e-6.
* `C20`: `Hierarchy` (every route can be lifted to an up-down route) is shown for contracted graphs
  (`Contracted`: shortcuts exist for each valley of a shortest route). The construction of contracted
  graphs is done by an external program and not modelled.
* Threads: a worker's work on a chunk is one step; channels deliver each message once and in order per
  sender; a panicking worker disconnects its channel; there are no spurious wake-ups.
* Fmi/csv/routes: `Codec` and `Env` contain `f64` parsing and printing, `Debug` of lists, haversine
  distances and random numbers as arbitrary functions; theorems on round trips assume `Codec.Exact`.
* Explorator: triangulation (`nd_triangulation`) and solver (`nalgebra`) are arbitrary functions
  (`Backend`). `Sound` is the assumption of `C46_within` that an id is given again only for equal
  coordinates, `Regular` the assumption of `C46_no_panic` that ids are new and cells and systems fit,
  `Lower` the assumption of C63 and C64 that solutions are solutions and that cells belong to the lower
  convex hull.
* Random choices of the workers: an arbitrary `Die`; C66 assumes that it shows numbers in its range.
* Balancer's loop: files, the contraction tool, the routing-config and the simulation are an arbitrary
  `World`, whose stages succeed or fail but don't panic.
* Tool: a disk maps paths to lines; different paths are different files; no other process writes meanwhile;
  opening a new file fails or not (`openable`); a failing writer leaves an arbitrary `cut` text; reading
  parts don't write. Parsing, queries, simulation and balancer are an arbitrary `World`.
* Yaml: a document is the tree found by the yaml-parser, whose syntax, tags, anchors and aliases are not modelled. Keys are
  texts, structs are maps, and all errors of serde are the same. `Yaml.lean` models what `serde` (1.0.114) and `serde_yaml`
  (0.8.13) do for the attributes in use. Their sources are not part of `/repo`, so this is written from their documented
  behaviour and couldn't be checked against their code. `Numbers` (which plain scalars are numbers) is arbitrary; infinite
  values and NaN are no numbers.
* Pbf: `osmpbfreader` yields a list of objects, unreadable ones as `none`.
* Visualizer: Python's `csv` without quotation marks; `float` reads exactly what Rust prints; what figures show is modelled (C112), drawing isn't. Its
  colours (C104) are computed with real numbers; numpy's `interp` is the documented function.
* Units: the factors of `kissunits` are 1000 m = 1 km, 60 s = 1 min, 60 min = 1 h, v = s/t.

## Trusted base

* Lean's kernel. Axioms of every theorem are among `propext`, `Classical.choice`, `Quot.sound`
  (per-theorem list in the section *Axioms* below).
* The hand-made correspondence between `/repo` and the model (comments cite lines). On the inputs of the repository's
  tests, the model has the results that the tests expect of the code (C101).
* `f64` as `ℚ`: rounding, NaN, overflow to infinity are not modelled unless a theorem says so. The router with
  rounding is in C75 and C76, with overflow in C108, with infinite and undefined metrics in C109, with such alphas in C110. The balancer's
  update with rounding and overflow is in C113, several updates in C115, normalizing in C114, costs of paths in C116, running statistics in C117, tolerances in C118.
* `usize`/`i64` without overflow; memory is unbounded.
* std: `sort_by_key`/`sort` are stable sorts, `sort_unstable` sorts, `binary_search` is the documented
  algorithm (only its documented result is used), the algorithm of `BinaryHeap`, `HashSet`, `HashMap`,
  `mpsc` channels, `str` functions and integer parsing as documented.
* External crates (`kissunits`, `nd_triangulation`, `nalgebra`, `osmpbfreader`, `serde`, `serde_yaml`, `progressing`,
  `quick-xml`, `rand`) are not modelled apart from the assumptions above.
* `clap` (2.33) parses command lines as documented (C105). Arguments with `=`, joined short options, `--`, the value `-`
  and the arguments for help and version are refused in the model.
* Not modelled: the syntax of yaml, logging, progress bars, file system (but see
  Tool), the external multi-ch-constructor process.

## Axioms

Output of `#print axioms` for every theorem named in `MANIFEST.json`. `p` = `propext`, `c` =
`Classical.choice`, `q` = `Quot.sound`, `-` = none. No theorem uses any other axiom.

* C01: `Build.C01_node_ids` pcq, `Build.C01_lookup` pcq, `Build.C01_absent` pcq
* C02: `Build.C02_missing_iff` pcq, `Build.C02_node_data` pcq
* C03: `Build.C03_false_trailing_node` pcq, `Build.C03_forward_partial` pcq, `Build.C03_covered_iff` pcq, `Build.C03_forward_of_last` pcq, `Build.C03_between_partial` pcq
* C04: `Build.C04_backward_partial` pcq, `Build.C04_covered_iff` pcq, `Build.C04_mirror` pcq, `Build.C04_false_trailing_node` pcq
* C05: `Build.C05_no_edge_invented` pcq, `Build.C05_no_edge_lost` pcq, `Build.C05_count` pcq
* C06: `Build.C06_false_duplicates_remain` pcq, `Build.C06_neighbours_partial` pcq, `Build.C06_unambiguous_partial` pcq
* C07: `Build.C07_metrics_positive` pcq, `Build.C07_error_reason` pcq, `Build.C07_negative_rejected` pcq
* C08: `Gen.C08_normalized_partial` pcq, `Gen.C08_safe_partial` pcq, `Gen.C08_false_custom` pcq, `Gen.C08_false_convert` pcq, `Gen.C08_false_haversine` pcq
* C09: `Build.C09_representatives` pcq, `Build.C09_in_range` pcq, `Build.C09_panic_iff` pcq
* C10: `Build.C10_flags` pcq, `Build.C09_representatives` pcq
* C11: `Build.C11_fails_iff` pcq, `Build.C11_unique` pcq, `Build.C11_lookup` pcq, `Build.C11_absent` pcq, `Build.C11_conflict` pcq, `Build.C11_error_reason` pcq
* C12: `Build.C12_level_order` pcq, `Build.C12_break_is_filter` pcq
* C13: `Dij.C13_route` pcq, `Dij.C13_up_down` pcq, `Dij.C13_explorator` pcq
* C14: `Dij.C14_optimal` pcq, `Dij.C14_exact_comparison` pcq, `Dij.C14_grid_partial` pcq, `Dij.C14_false_near_ties` pcq, `Dij.C14_near_optimal_partial` pcq, `Dij.C14_separated_partial` pcq, `Dij.C14_false_factor` pcq
* C15: `Dij.C15_none_iff` pcq, `Dij.C15_answers_partial` pcq, `Dij.C15_false_uncovered` pcq, `Dij.C15_false_two_nodes` pcq
* C16: `Dij.C16_negative_alpha` pq, `Dij.C16_later_answers` pq
* C17: `Dij.C17_reuse_partial` pcq, `Dij.C17_false_two_nodes` pcq, `Dij.C17_false_smaller_graph` pcq
* C18: `Dij.C18_self` pcq, `Dij.C18_false_uncovered` pcq
* C19: `Dij.C19_terminates` pcq, `Dij.C19_linear` pcq, `Dij.C19_linear_code_partial` pcq, `Dij.C19_false_exponential` pcq, `Dij.C19_false_linear` pcq
* C20: `Dij.C20_up_down` pcq, `Dij.C20_optimal` pcq, `Dij.C20_code_partial` pcq, `Dij.C20_none_iff_up_down` pcq, `Dij.C20_none_iff` pcq, `Dij.C20_agrees` pcq, `Dij.C20_contracted` pcq, `Dij.C20_false_near_ties` pcq, `Dij.C20_near_up_down_partial` pcq, `Dij.C20_near_optimal_partial` pcq
* C21: `Path.C21_outcome` pcq, `Path.C21_succeeds_iff` pcq, `Path.C21_expansion` pcq, `Path.C21_no_shortcut` pcq, `Path.C21_route` pcq, `Path.C21_costs` pcq, `Path.C21_succeeds` pcq, `Path.C21_built_succeeds` pcq, `Path.C21_idempotent` pcq, `Path.C21_flat_succeeds` pcq, `Path.C21_false_acyclic_rejected` pcq
* C22: `Path.C22_outcome` pcq, `Path.C22_first_again` pcq, `Path.C22_cyclic_never_ok` pcq, `Path.C22_false_diverges` pcq, `Path.C22_first_chain_partial` pcq
* C23: `Path.C23_calc_costs` pcq, `Path.C23_panic` pcq, `Path.C23_concat` pcq, `Path.C23_cached` pcq
* C24: `Approx.C24_eq_iff` pcq, `Approx.C24_eq_refl` pcq, `Approx.C24_eq_symm` pcq, `Approx.C24_cmp_spec` pcq, `Approx.C24_cmp_swap` pcq, `Approx.C24_cmp_exact` pcq, `Approx.C24_le_of_le` pcq, `Approx.C24_le_iff` pcq, `Approx.C24_option` pcq, `Approx.C24_coord` pcq
* C25: `Approx.C25_false_eq_not_transitive` pcq, `Approx.C25_false_le_not_transitive` pcq, `Approx.C25_grid_partial` pcq
* C26: `Approx.C26_eqSlice_iff` pcq, `Approx.C26_leSlice_iff` pcq, `Approx.C26_geSlice` pcq, `Approx.C26_partialCmp_iff` pcq, `Approx.C26_false_different_dim` pcq, `Approx.C26_false_empty` pcq, `Path.C26_vle` pq
* C27: `Fmi.C27_written` pcq, `Gen.C27_succeeds_iff` pcq, `Gen.C27_means` pcq, `Gen.C27_values` pcq, `Gen.C27_mean_one` pcq, `Gen.C27_off` pcq
* C28: `Fmi.C28_writes` pcq, `Fmi.C28_reads` pcq, `Fmi.C28_same_graph` pcq, `Fmi.C28_false_lifted` pcq, `Fmi.C28_false_no_id` pcq, `Fmi.C28_false_node_ids` pcq
* C29: `Fmi.C29_counts` pcq
* C30: `Fmi.C30_edges_partial` pcq, `Fmi.C30_csv_partial` pcq, `Fmi.C30_nodes` pcq, `Fmi.C30_words` p, `Fmi.C30_false_dst` pcq
* C31: `Osm.C31_direction` pcq, `Osm.C31_way` pcq, `Osm.C31_unusable` pcq, `Osm.C31_file` pcq, `Osm.C31_metrics` pcq, `Osm.C31_graph` pcq, `Osm.C31_false_true` pcq
* C32: `Osm.C32_picky` -, `Osm.C32_roundtrip_partial` pcq, `Osm.C32_roundtrip_way` pcq, `Osm.C32_false_display` pcq, `Osm.C32_display_injective` pcq, `Osm.C32_speed` pcq, `Osm.C32_numeric_speed` pcq, `Osm.C32_default_speed` pcq
* C33: `Osm.C33_access_partial` pq, `Osm.C33_speed` -, `Osm.C33_false_service` -, `Osm.C33_false_road` -
* C34: `Routes.C34_round_trip` pcq, `Routes.C34_written` pcq, `Routes.C34_takes_partial` pcq, `Routes.C34_false_cut_off` pcq, `Routes.C34_false_huge` pcq
* C35: `Routes.C35_all` pcq, `Routes.C35_all_ch` pcq, `Routes.C35_false_two_nodes` pcq, `Routes.C35_false_empty` pcq
* C36: `Routes.C36_sound` pcq, `Routes.C36_terminates` pcq, `Routes.C36_writes` pcq
* C37: `Par.C37_terminates` pcq, `Par.C37_progress` pcq, `Par.C37_every_pair_once` pcq, `Par.C37_dijkstra_partial` pcq, `Par.C37_flattens_plain` pcq, `Par.C37_flattens_built` pcq, `Par.C37_false_no_thread` pcq, `Par.C37_false_unknown_node` pcq, `Par.C37_false_count_zero` pcq
* C38: `Par.C38_in_range` pcq, `Par.C38_defaults` pcq, `Par.C38_system` pcq, `Par.C38_false_constants` p
* C39: `Par.C39_incremental_partial` pcq, `Par.C39_chunking` pcq, `Par.C39_false_missing` pcq, `Par.C39_false_balancer` pcq, `Par.C39_system` pcq
* C40: `Bal.C40_untouched` pcq, `Bal.C40_errors` pcq, `Bal.C40_values` pcq, `Bal.C40_mean_one` pcq, `Bal.C40_positive_min` pcq, `Bal.C40_positive_flag` pcq, `Bal.C40_nonneg` pcq, `Bal.C40_succeeds_iff` pcq, `Bal.C40_sparse` pcq, `Bal.C40_false_negative` pcq, `Bal.C40_false_nan` pcq
* C41: `Cfg.C41_same` pcq, `Cfg.C41_physical` pcq, `Cfg.C41_incompatible` pcq, `Cfg.C41_roundtrip` pcq, `Cfg.C41_compose_partial` pcq, `Cfg.C41_false_compose` pcq, `Cfg.C41_calc` pcq, `Cfg.C41_calc_physical` pcq
* C42: `Cfg.C42_routing` pcq, `Cfg.C42_unknown` pcq, `Cfg.C42_entry_defaults` pcq, `Cfg.C42_entry_tolerance` pcq
* C43: `Cfg.C43_parsed` pq, `Cfg.C43_lookup` pcq, `Gen.C43_generated` pcq, `Gen.C43_fresh` pcq, `Gen.C43_false_generated` pcq, `Gen.C43_false_convert` pcq
* C44: `Gen.C44_ids` pcq, `Gen.C44_kept` pcq
* C45: `Gen.C45_untouched` pcq, `Gen.C45_last_wins` pcq, `Gen.C45_known` pcq, `Gen.C45_only_metrics` pcq
* C46: `Exp.C46_route` pcq, `Exp.C46_found` pcq, `Exp.C46_tolerated` pcq, `Exp.C46_within` pcq, `Exp.C46_within_code_partial` pcq, `Exp.C46_preferred` pcq, `Exp.C46_complete` pcq, `Exp.C46_no_panic` pcq, `Exp.C46_false_unsound` pcq, `Exp.C46_false_twins` pcq, `Exp.C46_false_cells` pcq
* C47: `Exp.C47_combinations` pcq, `Exp.C47_units` pcq, `Exp.C47_total` pq, `Exp.C47_false_dim` pq, `Exp.C47_tolerances` pcq
* C48: `Matrix.C48_created` pq, `Matrix.C48_empty` pq, `Matrix.C48_linear` pcq, `Matrix.C48_square_partial` pcq, `Matrix.C48_false_shape` pcq
* C49: `Fmi.C49_edge_partial` pcq, `Fmi.C49_edge_panics` pcq, `Fmi.C49_edge_ascii` pcq, `Fmi.C49_false_edge_id` pcq, `Fmi.C49_false_edge_utf8` pcq, `Fmi.C49_node_partial` pq, `Fmi.C49_node_long` pq, `Fmi.C49_false_node` pcq, `Fmi.C49_read_partial` pcq, `Fmi.C49_read_safe` pcq
* C50: `Fmi.C50_fmi` pcq, `Fmi.C50_fmi_insert` pcq, `Fmi.C50_merge` pcq, `Fmi.C50_false_blank` pcq, `Routes.C50_routes` pcq
* C51: `Smarts.C51_vehicle` pcq, `Smarts.C51_empty` pcq, `Smarts.C51_file` pcq, `Smarts.C51_readable` pcq
* C52: `Gen.C52_dims` pcq, `Gen.C52_too_many_iff` pcq, `Gen.C52_shortcuts` pcq, `Cfg.C52_check_iff` pcq, `Cfg.C52_false_pair` pcq, `Cfg.C52_false_endpoints` p
* C53: `Osm.C53_oneway` pcq, `Osm.C53_highway_partial` pcq, `Osm.C53_maxspeed_partial` pcq, `Osm.C53_false_highway` pcq, `Osm.C53_false_maxspeed` pcq
* C54: `Gen.C54_topology` pcq, `Gen.C54_wellformed` pcq, `Gen.C54_dimension` pcq, `Gen.C54_start` pcq
* C55: `Gen.C55_generated` pcq, `Gen.C55_kept` pcq, `Gen.C55_converted` pcq
* C56: `Gen.C56_copy_partial` pcq, `Gen.C56_false_unit` pcq
* C57: `Build.C57_rebuild` pcq, `Build.C57_rebuild_ids` pcq, `Build.C57_rebuild_metrics` pcq, `Build.C57_false_lifted` pcq
* C58: `Fmi.C58_values` pcq, `Fmi.C58_metrics` pcq, `Fmi.C58_false_header` pcq
* C59: `Routes.C59_enough_partial` pcq, `Routes.C59_false_unlucky` pcq
* C60: `Bal.C60_euler` pcq, `Bal.C60_averaging` pcq, `Bal.C60_false_min` pcq
* C61: `Dij.C61_simple` pcq, `Dij.C61_length` pcq, `Dij.C61_rounded_partial` pcq
* C62: `Dij.C62_flattened_partial` pcq, `Dij.C62_false_zero_alphas` pcq
* C63: `Exp.C63_distinct_partial` pcq, `Exp.C63_false_upper` pcq
* C64: `Exp.C64_ends_partial` pcq, `Exp.C64_false_new_ids` pcq, `Exp.C64_terminates_partial` pcq
* C65: `Par.C65_reuse_partial` pcq, `Par.C65_false_two_nodes` pcq, `Par.C65_false_smaller_graph` pcq
* C66: `Par.C66_explorator_partial` pcq, `Par.C66_route` pcq, `Par.C66_flattens_plain` pcq, `Par.C66_false_schedule` pcq
* C67: `Dij.C67_weights` pcq, `Dij.C67_zero_alpha` pcq, `Dij.C67_false_explorator` pcq
* C68: `Dij.C68_normalized_partial` pcq, `Dij.C68_false_lifted` pcq
* C69: `Build.C69_near_code_partial` pcq, `Build.C69_chain` pcq, `Build.C69_none_iff` pcq, `Build.C69_near_cheapest` pcq, `Build.C69_cheapest` pcq, `Build.C69_cheapest_grid_partial` pcq, `Build.C69_cheapest_ch_partial` pcq, `Build.C69_false_duplicates` pcq
* C70: `Osm.C70_streets` pcq, `Osm.C70_none_iff` pcq, `Osm.C70_minutes` pcq, `Osm.C70_every_drive` pcq, `Osm.C70_fastest` pcq, `Osm.C70_near_fastest` pcq
* C71: `Bal.C71_iteration` pcq, `Bal.C71_stored` pcq, `Bal.C71_failing` pcq, `Bal.C71_false_no_dimension` pcq, `Bal.C71_iterates` pcq, `Bal.C71_succeeds` pcq, `Bal.C71_average` pcq, `Bal.C71_false_stored_then_error` pcq
* C72: `Par.C72_idle` pcq, `Bal.C72_unused` pcq, `Bal.C72_false_shortcuts` pcq
* C73: `Tool.C73_kept` pq, `Tool.C73_succeeds_iff` pq, `Tool.C73_interrupted` pq, `Tool.C73_false_retry` pcq, `Tool.C73_false_late_collision` pcq, `Tool.C73_accepted` pcq
* C74: `Session.C74_route_pairs` pcq, `Session.C74_pairs` pcq, `Session.C74_maps` pcq, `Tool.C74_extension` pcq, `Tool.C74_supported` pcq, `Tool.C74_osm_pbf` pcq, `Tool.C74_parser` pcq, `Tool.C74_written` pcq
* C75: `Fp.C75_numbers` pcq, `Fp.C75_nearest` pcq
* C76: `Fp.C76_route` pcq, `Fp.C76_none_iff` pcq, `Fp.C76_terminates` pcq, `Fp.C76_near` pcq, `Fp.C76_near_up_down` pcq, `Fp.C76_f64_partial` pcq, `Fp.C76_f64_separated_partial` pcq, `Fp.C76_f64_up_down_partial` pcq, `Fp.C76_false_optimal` pcq
* C77: `Fp.C77_exact` pcq, `Fp.C77_reuse` pcq, `Fp.C77_optimal` pcq, `Fp.C77_optimal_ch` pcq, `Fp.C77_false_all` pcq
* C78: `Build.C78_chunks` pq, `Build.C78_bounded` pcq, `Build.C78_sizes` pcq, `Build.C78_finalize` pcq, `Build.C78_false_dim` pcq
* C79: `Exp.C79_skipped` pcq, `Exp.C79_small` pcq, `Exp.C79_asked` pcq, `Exp.C79_full` pcq, `Exp.C79_safe` pcq, `Exp.C79_false_strict` pcq
* C80: `Exp.C80_found` pcq, `Exp.C80_every_weighting` pcq, `Exp.C80_every_weighting_partial` pcq, `Exp.C80_false_few` pcq
* C81: `Exp.C81_facets` pcq, `Exp.C81_facets_partial` pcq, `Exp.C81_false_best` pcq
* C82: `Yml.C82_sections` pcq, `Yml.C82_missing` pcq
* C83: `Yml.C83_keys` pcq, `Yml.C83_keys_partial` pcq, `Yml.C83_false_pairs` pcq, `Yml.C83_false_parsing` pcq
* C84: `Yml.C84_order` pcq
* C85: `Yml.C85_multi_ch` pcq, `Yml.C85_writing` pcq, `Yml.C85_balancing` pcq, `Yml.C85_evaluating` pcq, `Yml.C85_routing` pcq, `Yml.C85_parsing` pcq, `Yml.C85_false_updates` pcq, `Yml.C85_null` pcq, `Yml.C85_tolerance` pcq
* C86: `Yml.C86_same` pcq, `Yml.C86_embedded_partial` pcq, `Yml.C86_false_ratio` pcq, `Yml.C86_false_id` pcq
* C87: `Yml.C87_names_partial` pcq, `Yml.C87_false_vehicles` pcq, `Yml.C87_false_generating` pcq, `Yml.C87_false_explorator` pcq
* C88: `Yml.C88_command_partial` pcq, `Yml.C88_command` pcq, `Yml.C88_false_empty` pcq, `Yml.C88_build` pcq, `Yml.C88_min_cost` pcq
* C89: `Session.C89_explores_partial` pcq, `Session.C89_explorator_terminates_partial` pcq, `Session.C89_determined` pcq, `Session.C89_append` pcq, `Session.C89_independent` pcq, `Session.C89_unknown` pcq, `Session.C89_two_nodes` pcq, `Session.C89_finishes_partial` pcq, `Session.C89_terminates` pcq, `Session.C89_false_uncovered` pcq, `Session.C89_false_two_nodes` pcq
* C90: `Session.C90_truthful` pcq, `Session.C90_explored` pcq, `Session.C90_near_partial` pcq, `Session.C90_cheapest_partial` pcq, `Session.C90_false_negative` pcq, `Session.C90_false_limits` pcq
* C91: `Build.C91_chain` pcq, `Build.C91_none_iff` pcq, `Build.C91_none_iff_plain` pcq, `Build.C91_cheapest` pcq, `Build.C91_cheapest_grid_partial` pcq, `Build.C91_near_partial` pcq, `Build.C91_flatten_ends` pcq, `Build.C91_flattens` pcq, `Build.C91_flattens_grid_partial` pcq, `Build.C91_false_zero` pcq, `Build.C91_false_twice` pcq, `Build.C91_false_valley` pcq
* C92: `Session.C92_explored` pcq, `Session.C92_false_forever` pcq, `Session.C92_truthful` pcq, `Session.C92_dijkstra` pcq, `Session.C92_terminates` pcq, `Session.C92_cheapest_partial` pcq, `Session.C92_near_partial` pcq, `Session.C92_finishes_partial` pcq
* C93: `Session.C93_truthful` pcq, `Session.C93_terminates` pcq, `Session.C93_finishes_partial` pcq, `Session.C93_fastest` pcq, `Session.C93_near_fastest_partial` pcq, `Session.C93_false_dead_end` pcq
* C94: `Session.C94_same_reports` pcq, `Session.C94_truthful` pcq, `Session.C94_rejected` pcq, `Session.C94_false_zero` pcq
* C95: `Session.C95_answered` pcq, `Session.C95_false_extension` pcq, `Session.C95_false_explorator` pcq
* C96: `Session.C96_simulated` pcq, `Session.C96_workloads` pcq, `Session.C96_false_no_thread` pcq, `Session.C96_false_count_zero` pcq, `Session.C96_false_unknown_node` pcq, `Session.C96_false_no_edge_id` pcq
* C97: `Session.C97_outside` pcq, `Session.C97_stored` pcq, `Session.C97_rejected` pcq, `Session.C97_false_absolute` pcq, `Session.C97_false_no_generating` pcq, `Session.C97_false_late` pcq
* C98: `Bal.C98_monotone` pcq, `Bal.C98_weights` pcq, `Bal.C98_average_partial` pcq, `Bal.C98_all_used` pcq, `Bal.C98_false_average` pcq, `Bal.C98_false_mean` pcq, `Bal.C98_false_zero` pcq
* C99: `Fit.C99_columns` pcq, `Fit.C99_any_map` pcq, `Fit.C99_routing` pcq
* C100: `Fit.C100_shipped_partial` pcq, `Fit.C100_all` pcq, `Fit.C100_any_map` pcq, `Fit.C100_iterations` pcq, `Fit.C100_merged` pcq, `Fit.C100_chain` pcq, `Fit.C100_false_normalized` pcq, `Fit.C100_false_balancing` pcq, `Fit.C100_false_export` pcq
* C101: `Tests.C101_graphs` pcq, `Tests.C101_routes` pcq, `Tests.C101_ch` pcq, `Tests.C101_sections` pcq, `Tests.C101_asdf` pcq, `Tests.C101_example` pcq
* C102: `Tests.C102_pairs_partial` pcq, `Tests.C102_false_self` pcq
* C103: `Vis.C103_streets_partial` pcq, `Vis.C103_workloads` pcq, `Vis.C103_deltas` pcq, `Vis.C103_max` pcq, `Vis.C103_ids` pcq, `Vis.C103_false_middle` pcq, `Vis.C103_balancing` pcq, `Vis.C103_evaluating` pcq
* C104: `Norm.C104_without_centre` pcq, `Norm.C104_with_centre` pcq, `Norm.C104_centre_at_limit` pcq, `Norm.C104_errors` pcq, `Norm.C104_range_partial` pcq, `Norm.C104_false_range` pcq
* C105: `Cmd.C105_accepted_iff` pcq, `Cmd.C105_order` pcq, `Cmd.C105_documented` pcq, `Cmd.C105_false_script` pcq
* C106: `Session.C106_load_partial` pcq, `Session.C106_reports_partial` pcq, `Build.C106_order_partial` pcq, `Build.C106_false_parallel` pcq
* C107: `Build.C107_layout` pcq, `Build.C107_order_partial` pcq, `Build.C107_false_order` pcq, `Build.C107_offsets_iff` pcq, `Build.C107_example` pcq, `Build.C107_table` pcq
* C108: `Over.C108_route` pcq, `Over.C108_none_iff` pcq, `Over.C108_none_iff_up_down` pcq, `Over.C108_terminates` pcq, `Over.C108_no_panic` pcq, `Over.C108_same` pcq, `Over.C108_none_iff_partial` pcq, `Over.C108_near_partial` pcq, `Over.C108_near_up_down_partial` pcq, `Over.C108_compare` pcq, `Over.C108_false_none` pcq, `Over.C108_false_cheapest` pcq
* C109: `Special.C109_route` pcq, `Special.C109_none_iff` pcq, `Special.C109_none_iff_up_down` pcq, `Special.C109_length` pcq, `Special.C109_near` pcq, `Special.C109_near_up_down` pcq, `Special.C109_terminates` pcq, `Special.C109_no_panic` pcq, `Special.C109_finite` pcq, `Special.C109_load` pcq, `Special.C109_loaded` pcq, `Special.C109_duplicates` pcq, `Special.C109_duplicates_finite` pcq, `Special.C109_calc` pcq, `Special.C109_normalize_finite` pcq, `Special.C109_nan_column` pcq, `Special.C109_inf_column` pcq, `Special.C109_undefined` pcq, `Special.C109_undefined_none` pcq, `Special.C109_false_normalized` pcq, `Special.C109_false_inf` pcq, `Special.C109_false_calc` pcq
* C110: `Special.C110_route` pcq, `Special.C110_self` pcq, `Special.C110_not_finite` pcq, `Special.C110_below` pcq, `Special.C110_finite` pcq, `Special.C110_terminates` pcq, `Special.C110_no_panic` pcq
* C111: `Desc.C111_describe_partial` pcq, `Desc.C111_panic_iff` pcq, `Desc.C111_false_panic` pcq
* C112: `Vis.C112_line` pq, `Vis.C112_extremes` pcq, `Vis.C112_unique` p, `Vis.C112_lanes_partial` pcq, `Vis.C112_false_position` pcq, `Vis.C112_figures` pcq, `Vis.C112_figures_iff` pcq, `Vis.C112_run` pcq, `Vis.C112_run_iff` pcq, `Vis.C112_complete` pcq, `Vis.C112_written` pcq, `Vis.C112_false_run` pcq, `Vis.C112_false_dark` pcq
* C113: `BalF.C113_untouched` pcq, `BalF.C113_mean_one` pcq, `BalF.C113_nonneg` pcq, `BalF.C113_positive_min` pcq, `BalF.C113_positive_flag` pcq, `BalF.C113_values` pcq, `BalF.C113_total` pcq, `BalF.C113_errors` pcq, `BalF.C113_workloads` pcq, `BalF.C113_false_exact` pcq, `BalF.C113_false_size` pcq
* C114: `NormF.C114_total` pcq, `NormF.C114_off` pcq, `NormF.C114_untouched` pcq, `NormF.C114_means` pcq, `NormF.C114_values` pcq, `NormF.C114_positive` pcq, `NormF.C114_mean_one` pcq, `NormF.C114_written` pcq, `NormF.C114_false_order` pcq, `NormF.C114_false_size` pcq
* C115: `BalF.C115_run` pcq, `BalF.C115_total` pcq, `BalF.C115_values` pcq, `BalF.C115_averaging` pcq, `BalF.C115_false_exact` pcq
* C116: `PathF.C116_total` pcq, `PathF.C116_cached` pcq, `PathF.C116_cost` pcq, `PathF.C116_near` pcq, `PathF.C116_whole` pcq, `PathF.C116_order` pcq, `PathF.C116_grows` pcq, `PathF.C116_flatten_edges` pcq, `PathF.C116_flatten_costs` pcq, `PathF.C116_false_exact` pcq, `PathF.C116_false_flatten` pcq, `PathF.C116_false_strict` pcq, `PathF.C116_false_order` pcq, `PathF.C116_false_finite` pcq
* C117: `StatsF.C117_near` pcq, `StatsF.C117_constant` pcq, `StatsF.C117_false_exact` pcq, `StatsF.C117_system` pcq, `StatsF.C117_system_constant` pcq, `StatsF.C117_dijkstra` pcq
* C118: `TolF.C118_tolerated` pcq, `TolF.C118_kept` pcq, `TolF.C118_itself` pcq, `TolF.C118_monotone` pcq, `TolF.C118_false_exact` pcq, `TolF.C118_false_zero` pcq
* C119: `Dbg.C119_router` pq, `Dbg.C119_no_alphas` pq, `Dbg.C119_configured` pq, `Dbg.C119_false_no_alphas` pcq, `Dbg.C119_builder` pcq
* C120: `MapName.C120_generic` pcq, `MapName.C120_extensions_partial` pcq, `MapName.C120_false_unicode` pcq, `MapName.C120_false_one_extension` pcq
