{"id": "C01", "title": "Node set and id lookup are exact", "statement": "After inserting any sequence of edges, the graph's nodes are exactly the endpoint ids of these edges, each once and in ascending id order. Looking up an id returns the index that carries this id iff the id occurs, and otherwise reports absence.", "quantifier": "every sequence of edge insertions (any ids, any order, any length) and every queried id", "why_tests_cant": "The builder skips ids only if they occur among the last two pushed ones and relies on a later sort+dedup and binary search; a test sees finitely many insertion orders.", "anchors": ["src/network/graph/building.rs: EdgeBuilder::insert, EdgeBuilder::next", "src/network/graph/mod.rs: NodeAccessor::idx_from, create_from"]}
{"id": "C02", "title": "Building fails exactly when a coordinate is missing, and node data is the last one given", "statement": "After the node phase, finalizing reports a missing-coordinate error iff some endpoint id never received a node record. If it does not, each node's coordinate is that of the last record given for its id and its level is the last level given for its id (level 0 if none was ever given), whatever unrelated node records are interleaved.", "quantifier": "every edge sequence and every node-record sequence", "why_tests_cant": "Quantifies over every interleaving of records including duplicates and unrelated ids.", "anchors": ["src/network/graph/building.rs: NodeBuilder::insert, NodeBuilder::next, GraphBuilder::finalize 351-452"]}
{"id": "C03", "title": "Forward adjacency is exact", "statement": "Iterating the edges leaving a node yields exactly the edges whose source is this node, each once.", "quantifier": "every built graph and every node index of it", "why_tests_cant": "The offset array is filled incrementally; the number of offsets depends on which nodes have edges, so small symmetric test graphs do not reach the short-array case.", "anchors": ["src/network/graph/building.rs: GraphBuilder::finalize 712-771", "src/network/graph/mod.rs: EdgeAccessor::starting_from, offset_indices, between"]}
{"id": "C04", "title": "Backward adjacency mirrors forward adjacency", "statement": "Iterating the edges entering a node yields exactly the edges whose destination is this node, each once; an edge leaves u towards v in the forward view iff it is seen from v towards u in the backward view.", "quantifier": "every built graph and every node index", "why_tests_cant": "Requires a permutation argument between two independently sorted arrays.", "anchors": ["src/network/graph/building.rs: GraphBuilder::finalize 813-884", "src/network/graph/mod.rs: EdgeAccessor"]}
{"id": "C05", "title": "No edge is invented or lost", "statement": "Every edge of the graph is one of the inserted edges with unchanged id, endpoints and (zero-corrected) metrics; every inserted edge is represented in the graph by an edge with the same id and endpoints and metrics equal up to the tolerance.", "quantifier": "every sequence of inserted edges", "why_tests_cant": "In-place swap-and-truncate deduplication over a sorted array; correctness depends on all interleavings of duplicates.", "anchors": ["src/network/graph/building.rs: GraphBuilder::finalize 457-573"]}
{"id": "C06", "title": "No duplicate edges remain", "statement": "After building, no two edges share id, endpoints and tolerance-equal metrics.", "quantifier": "every sequence of inserted edges", "why_tests_cant": "Only neighbours in a sort order that ignores metrics are compared; a counterexample needs three parallel edges in a particular order.", "anchors": ["src/network/graph/building.rs: GraphBuilder::finalize 503-573"]}
{"id": "C07", "title": "Stored metrics are never below the accuracy threshold", "statement": "In a graph built without generated metrics and without normalization, every stored metric value is at least 1e-6; the build returns an error otherwise.", "quantifier": "every sequence of inserted edges with any metric values", "why_tests_cant": "Ranges over all values around the threshold, including negative ones and zero.", "anchors": ["src/network/graph/building.rs: add_metrics 69-88, finalize 580-666"]}
{"id": "C08", "title": "Generated or normalized metrics are never below the accuracy threshold", "statement": "The metrics of a finalized graph are at least 1e-6 also after generating and normalizing metrics.", "quantifier": "every generating configuration and every edge sequence", "why_tests_cant": "The check runs before generation; only reasoning about all later writes shows whether it is preserved.", "anchors": ["src/network/graph/building.rs: finalize 889-1455"]}
{"id": "C09", "title": "Shortcuts keep referring to the edges they replace", "statement": "If an inserted shortcut names the i-th and j-th inserted edge as the edges it replaces, then in the built graph its two replaced edges are (representatives of) exactly these edges, although edges were sorted and deduplicated in between.", "quantifier": "every sequence of inserted edges with arbitrary in-range shortcut references and arbitrary duplicates", "why_tests_cant": "Index remapping through a sort permutation and a sequence of decrements; any off-by-one shows only for specific removed positions.", "anchors": ["src/network/graph/building.rs: finalize 481-573"]}
{"id": "C10", "title": "Shortcut flags and pairs are attached to the right edges", "statement": "An edge reports to be a shortcut iff it was inserted with replaced edges, and then reports exactly its own pair.", "quantifier": "every built graph and every edge index", "why_tests_cant": "The offset array for shortcuts is filled by a loop that stops early; correctness depends on positions of all shortcuts.", "anchors": ["src/network/graph/building.rs: finalize 682-706", "src/network/graph/mod.rs: EdgeAccessor::is_shortcut, sc_edges"]}
{"id": "C11", "title": "Edge-id lookup is exact and ids are unique", "statement": "Building fails iff two edges of the graph carry the same id; otherwise looking up an edge-id returns the edge carrying it, and reports an error iff no edge carries it.", "quantifier": "every sequence of inserted edges with optional ids and every queried id", "why_tests_cant": "Binary search over a sorted map, for every id multiset.", "anchors": ["src/network/graph/building.rs: finalize 775-808", "src/network/graph/mod.rs: EdgeAccessor::try_idx_from, try_id"]}
{"id": "C12", "title": "Edges of a node are ordered by descending level of the neighbour", "statement": "Edges leaving (entering) a node are listed with non-increasing contraction-level of the neighbour, hence stopping at the first lower neighbour visits exactly the neighbours that are not lower.", "quantifier": "every built graph, node and level assignment", "why_tests_cant": "Shown by sortedness of the composed key for all graphs; the pruned search is only correct because of it.", "anchors": ["src/network/graph/building.rs: sort keys 457-475, 813-828", "src/routing/dijkstra.rs: compute_best_path level-break"]}
{"id": "C13", "title": "Routing returns a real route", "statement": "A returned path consists of existing edges that connect head-to-tail from the queried source to the queried destination.", "quantifier": "every graph, query, non-negative alphas, every order in which equal-cost (or nearly equal) queue entries are popped, with arbitrary rounding of the cost addition", "why_tests_cant": "Priority-queue tie-breaking and rounding are not controllable from tests; must hold for all of them.", "anchors": ["src/routing/dijkstra.rs: Dijkstra::compute_best_path"]}
{"id": "C14", "title": "Routing is optimal", "statement": "The returned path has the least alpha-weighted cost among all routes from source to destination.", "quantifier": "every graph with non-negative weights and every pair of nodes", "why_tests_cant": "Optimality compares with all walks, of which there are infinitely many.", "anchors": ["src/routing/dijkstra.rs: Dijkstra::compute_best_path"]}
{"id": "C15", "title": "No path is reported iff the destination is unreachable", "statement": "With non-negative alphas, the query answers with no path iff there is no route.", "quantifier": "every graph and query", "why_tests_cant": "Completeness of the search for every graph.", "anchors": ["src/routing/dijkstra.rs: Dijkstra::compute_best_path"]}
{"id": "C16", "title": "Negative alphas are rejected without side effects", "statement": "If any alpha is negative the query answers with no path, and the router's later answers are unaffected.", "quantifier": "every graph, query and router state", "why_tests_cant": "Quantifies over all router histories.", "anchors": ["src/routing/dijkstra.rs: Dijkstra::compute_best_path 144-170"]}
{"id": "C17", "title": "Router reuse is transparent", "statement": "A router object that already answered any sequence of queries answers the next query exactly as a fresh one.", "quantifier": "every history of queries and every next query", "why_tests_cant": "History-quantified; stale cost/visited/predecessor entries appear only for specific sequences.", "anchors": ["src/routing/dijkstra.rs: Dijkstra::init_query, touched"]}
{"id": "C18", "title": "Querying a node to itself gives the empty route", "statement": "A query with equal source and destination returns the path without edges and cost zero.", "quantifier": "every graph, node and non-negative alphas", "why_tests_cant": "Depends on the meeting logic with both directions starting at the same node, for all edge weights including zero-weight cycles.", "anchors": ["src/routing/dijkstra.rs"]}
{"id": "C19", "title": "Routing terminates", "statement": "Every query terminates after a number of queue operations bounded linearly in the number of edges, and the path reconstruction never loops, even with zero-weight cycles.", "quantifier": "every graph with non-negative weights", "why_tests_cant": "Non-termination can't be observed by a test, zero-weight cycles in predecessor links need an invariant.", "anchors": ["src/routing/dijkstra.rs"]}
{"id": "C20", "title": "Contraction-hierarchy routing agrees with plain routing", "statement": "If every shortest distance is realised by some up-then-down route of the hierarchy, the pruned search returns a path with the optimal cost.", "quantifier": "every graph, level assignment with this property, every query", "why_tests_cant": "Quantifies over all hierarchies.", "anchors": ["src/routing/dijkstra.rs"]}
{"id": "C21", "title": "Flattening a path removes all shortcuts and keeps route and costs", "statement": "Flattening returns a path without shortcut edges, connecting the same endpoints, whose costs are the sum of its edges' metrics; if every shortcut's metrics are the sum of its replaced edges' metrics, costs are unchanged. Flattening twice equals flattening once.", "quantifier": "every graph with non-cyclic shortcut references and every path", "why_tests_cant": "Recursive expansion of unbounded depth.", "anchors": ["src/routing/paths.rs: Path::try_flatten, flatten, calc_costs"]}
{"id": "C22", "title": "Cyclic shortcut references are reported", "statement": "Flattening a path over cyclic shortcut references ends with an error.", "quantifier": "every graph whose shortcut references are cyclic", "why_tests_cant": "Non-termination cannot be tested; only some cycles are caught by the stack-length check.", "anchors": ["src/routing/paths.rs: Path::try_flatten"]}
{"id": "C23", "title": "Path costs are additive", "statement": "The computed cost vector of a path is the componentwise sum of its edges' metrics; the costs of a concatenation are the sum of costs.", "quantifier": "every graph and edge sequence", "why_tests_cant": "All lengths and dimensions.", "anchors": ["src/routing/paths.rs: Path::calc_costs", "src/helpers/mod.rs: add, add_assign, dot_product"]}
{"id": "C24", "title": "Approximate comparison is a sound tolerance", "statement": "Two values are approximately equal iff they differ by less than 1.5e-6; the relation is reflexive and symmetric; approximate ordering is total, antisymmetric in direction, and agrees with exact ordering for values further apart.", "quantifier": "all pairs of values", "why_tests_cant": "Continuum of values near the threshold.", "anchors": ["src/approximating.rs"]}
{"id": "C25", "title": "Approximate comparison is a consistent total order", "statement": "The approximate ordering, as used by sorting and the priority queue, is transitive.", "quantifier": "all triples of values", "why_tests_cant": "A counterexample is a chain of values just below the tolerance.", "anchors": ["src/approximating.rs", "src/routing/dijkstra.rs: CostNode Ord"]}
{"id": "C26", "title": "Approximate comparison of cost vectors is componentwise", "statement": "Cost-vector comparison: 'equal' iff all components are approximately equal, 'below tolerance' iff no component is above.", "quantifier": "all pairs of vectors of equal dimension", "why_tests_cant": "All dimensions and values.", "anchors": ["src/approximating.rs: slices"]}
{"id": "C27", "title": "Normalization divides every metric by its mean", "statement": "After building with normalization each metric has mean one (before near-zero values are lifted), the remembered mean is the mean of the original values, and writing with denormalization restores the original values.", "quantifier": "every graph with at least one edge and non-vanishing means", "why_tests_cant": "All graphs; relation between two far-apart code places.", "anchors": ["src/network/graph/building.rs: finalize 1397-1455", "src/io/writing/network/mod.rs 175-185"]}
{"id": "C28", "title": "Written graph files can be parsed back", "statement": "Writing a graph to the fmi format and parsing it with the same columns yields the same nodes and edges.", "quantifier": "every graph and column configuration that can be parsed", "why_tests_cant": "All ids, coordinates, metrics, shortcut pairs and column orders.", "anchors": ["src/io/writing/network/graph/fmi.rs", "src/io/writing/network/mod.rs", "src/io/parsing/network/graph/fmi.rs"]}
{"id": "C29", "title": "Written counts match the written lines", "statement": "The node- and edge-counts written in the header equal the numbers of node- and edge-lines that follow, with and without shortcuts.", "quantifier": "every graph and configuration", "why_tests_cant": "All graphs with arbitrary shortcut positions.", "anchors": ["src/io/writing/network/graph/fmi.rs 92-103"]}
{"id": "C30", "title": "Written columns contain the value they are named after", "statement": "Each written edge column contains the value of its category: id, source/destination id, index, latitude, longitude, replaced edges or metric.", "quantifier": "every graph, edge and column", "why_tests_cant": "Per-column; a wrong column remains unnoticed if test graphs aren't compared column by column.", "anchors": ["src/io/writing/network/mod.rs 13-230"]}
{"id": "C31", "title": "Ways are expanded into the right directed edges", "statement": "An OSM way produces an edge for each consecutive node pair in way direction if oneway, in reverse direction if reversed, and in both directions otherwise; and nothing else.", "quantifier": "every way (node list of any length) and oneway tag", "why_tests_cant": "All lengths, including repeated nodes.", "anchors": ["src/io/parsing/network/graph/pbf.rs: parse_ways", "src/defaults.rs: parse_oneway"]}
{"id": "C32", "title": "Street access rules are consistent", "statement": "A picky driver accesses only streets that a non-picky driver accesses too; every street category that can be parsed can be printed and parsed back to itself; speeds are at least 5 km/h.", "quantifier": "all street categories, vehicles, all tag strings", "why_tests_cant": "All strings as tag values.", "anchors": ["src/defaults.rs: network"]}
{"id": "C33", "title": "Access rules match the documentation", "statement": "The documented table of street categories and vehicles agrees with the routing network filter.", "quantifier": "all street categories and vehicles", "why_tests_cant": "Finite, but not tested; the documentation is what users rely on.", "anchors": ["src/network/mod.rs docs 10-42", "src/defaults.rs: is_for"]}
{"id": "C34", "title": "Route-pair files round-trip", "statement": "Parsing a written route-pair file yields exactly the written pairs with count one, in order; parsing takes exactly the announced number of lines.", "quantifier": "every list of pairs of node ids", "why_tests_cant": "All ids and all lengths.", "anchors": ["src/io/parsing/routing/routes.rs", "src/io/writing/routing/random_or_all.rs"]}
{"id": "C35", "title": "Writing all route-pairs is exhaustive", "statement": "If the requested maximum is at least the number of possible ordered pairs, the written pairs are exactly the pairs of distinct nodes connected by a route, each once.", "quantifier": "every graph", "why_tests_cant": "All graphs.", "anchors": ["src/io/writing/routing/random_or_all.rs"]}
{"id": "C36", "title": "Randomly written route-pairs are sound", "statement": "Whatever the random choices, written pairs are distinct, connect distinct nodes, are routable, and are at most as many as requested; the loop terminates.", "quantifier": "every graph, every random sequence", "why_tests_cant": "All random sequences.", "anchors": ["src/io/writing/routing/random_or_all.rs"]}
{"id": "C37", "title": "Every route-pair is processed exactly once, whatever the schedule", "statement": "The parallel balancer's edge workloads equal the sum over all route-pairs of the edges of their (flattened) routes, weighted by count, independent of thread count (at least one), message order and chunk sizes; it terminates when all pairs are processed.", "quantifier": "every number of threads >= 1 and every interleaving of workers' messages", "why_tests_cant": "Schedules cannot be enumerated by tests.", "anchors": ["src/bin/osmgraphing/balancing/multithreading.rs: Master::work_off, Worker"]}
{"id": "C38", "title": "Work size stays in range", "statement": "The adaptive chunk size never underflows or overflows and stays at least the decrement.", "quantifier": "every history of fast and slow receives", "why_tests_cant": "History-quantified.", "anchors": ["src/bin/osmgraphing/balancing/multithreading.rs: recv, work_size"]}
{"id": "C39", "title": "Running statistics equal batch statistics", "statement": "The incrementally updated mean and variance of found paths per route-pair equal mean and variance over all route-pairs, independently of chunking.", "quantifier": "every partition of every outcome sequence", "why_tests_cant": "All chunkings and values.", "anchors": ["src/bin/osmgraphing/balancing/multithreading.rs 85-118"]}
{"id": "C40", "title": "The balanced metric is a normalized positive metric", "statement": "After a successful balancing update, the updated metric has mean one, other metrics and edges are untouched; with a positive minimum every value stays positive; errors leave the graph unchanged.", "quantifier": "every workload vector, every graph, both update methods", "why_tests_cant": "All workloads and prior metrics.", "anchors": ["src/defaults.rs: update_new_metric"]}
{"id": "C41", "title": "Unit conversion is consistent", "statement": "Conversion between compatible units succeeds, converting there and back is the identity, conversion composes, and incompatible units are rejected.", "quantifier": "all pairs/triples of units and all values", "why_tests_cant": "All values.", "anchors": ["src/configs/parsing/edges/metrics.rs: try_convert", "src/configs/parsing/generating/edges/metrics.rs: try_convert, try_calc"]}
{"id": "C42", "title": "Routing configuration assigns each metric its alpha", "statement": "Unmentioned metrics get alpha zero and infinite tolerance, the last mention of a metric wins, an unknown metric is an error, and the vectors have the graph's dimension.", "quantifier": "every list of entries and metric ids", "why_tests_cant": "All configurations.", "anchors": ["src/configs/routing.rs: try_from_proto"]}
{"id": "C43", "title": "Metric ids are unique in the graph", "statement": "After parsing and generating, no two edge categories share an id.", "quantifier": "every parsing and generating configuration", "why_tests_cant": "All configurations; duplicates inside the generated part need two entries.", "anchors": ["src/configs/parsing/edges/mod.rs: TryFrom", "src/network/graph/building.rs: finalize 939-1001"]}
{"id": "C44", "title": "Generated edge-ids identify edges", "statement": "After generating edge-ids, each edge's id is its index and the lookup returns it.", "quantifier": "every graph", "why_tests_cant": "All graphs.", "anchors": ["src/network/graph/building.rs: finalize 1009-1028"]}
{"id": "C45", "title": "Merging external values sets exactly the named edges", "statement": "Merging a file of edge values overwrites exactly the named metrics of exactly the named edges, last line wins; an unknown edge-id is an error.", "quantifier": "every graph and file", "why_tests_cant": "All files.", "anchors": ["src/network/graph/building.rs: finalize 1319-1392"]}
{"id": "C46", "title": "Alternative routes respect the tolerances", "statement": "Every alternative route returned lies within the per-metric tolerances, connects source to destination, and was found by the router.", "quantifier": "every graph, query, tolerances and any triangulation/linear-algebra backend", "why_tests_cant": "External geometry library behaves arbitrarily.", "anchors": ["src/routing/explorating.rs"]}
{"id": "C47", "title": "Initial exploration tries every combination of considered metrics", "statement": "The initial alpha vectors are exactly the non-zero 0/1 vectors supported on considered metrics, each once, and a metric's tolerance is derived from the optimum of this metric alone.", "quantifier": "every dimension and every set of considered metrics", "why_tests_cant": "Bit-mask arithmetic for all dimensions.", "anchors": ["src/routing/explorating.rs: explore_initial_paths"]}
{"id": "C48", "title": "Matrix entries are addressed by row and column", "statement": "Reading the entry at (row, column) of a matrix created from rows returns this row's entry of this column.", "quantifier": "every matrix shape", "why_tests_cant": "Only square shapes behave as expected.", "anchors": ["src/helpers/algebra.rs: Index<(usize,usize)>"]}
{"id": "C49", "title": "Parsing never panics on malformed lines", "statement": "A malformed edge or node line yields an error, not a crash.", "quantifier": "every line and column configuration", "why_tests_cant": "All strings.", "anchors": ["src/io/parsing/network/graph/fmi.rs: try_from_str, from_str"]}
{"id": "C50", "title": "Comment lines and blank lines are irrelevant", "statement": "Inserting or removing comment lines and empty lines anywhere in a map or route file doesn't change the parsed result.", "quantifier": "every file", "why_tests_cant": "All positions.", "anchors": ["src/helpers/mod.rs: is_line_functional", "src/io/parsing/network/graph/fmi.rs", "src/io/parsing/routing/routes.rs"]}
{"id": "C51", "title": "Exported vehicle routes visit the path's nodes", "statement": "The exported node list of a route starts with the source id, follows each edge, and ends with the destination id.", "quantifier": "every graph and non-empty path", "why_tests_cant": "All paths.", "anchors": ["src/io/writing/smarts.rs"]}
{"id": "C52", "title": "Configuration checks reject incomplete configurations", "statement": "Parsing starts only if node-id, latitude and longitude columns exist, the metric count fits the compiled dimension and shortcut columns come as a pair.", "quantifier": "every configuration", "why_tests_cant": "All configurations.", "anchors": ["src/io/parsing/network/graph/mod.rs: check_config"]}
{"id": "C53", "title": "Whitespace and letter case of tag values are irrelevant", "statement": "Tags of a way that differ only in surrounding whitespace or letter case are read as the same street category, direction and speed.", "quantifier": "all tag strings", "why_tests_cant": "Infinitely many strings; the code trims at different places for different tags.", "anchors": ["src/defaults.rs: from, from_str, parse_maxspeed, parse_oneway"]}
{"id": "C54", "title": "Generating and normalizing keep the graph intact", "statement": "Generating and normalizing change neither nodes nor edges nor adjacency of a graph, a usable graph stays usable, and every edge has exactly one value for each metric of the finished configuration.", "quantifier": "every graph and every generating configuration with distinct ids", "why_tests_cant": "All sequences of categories; three parallel lists (categories, units, ids) and all edges have to agree after each.", "anchors": ["src/network/graph/building.rs: finalize 889-1455"]}
{"id": "C55", "title": "Generated metrics have the configured values", "statement": "A custom metric is its default, a copied or converted metric is the converted metric it is made from, a calculated metric is the quotient of its two metrics and a haversine-metric is the distance of the edge's ends; other metrics are untouched.", "quantifier": "every graph, every sequence of categories and every edge", "why_tests_cant": "All sequences of categories: later categories use metrics created by earlier ones.", "anchors": ["src/network/graph/building.rs: finalize 1130-1318"]}
{"id": "C56", "title": "Conversions respect the unit of a metric", "statement": "Copying or converting a metric interprets its values in the unit the metric has been configured with.", "quantifier": "every parsing and generating configuration", "why_tests_cant": "All pairs of configurations; the unit is named twice and never compared.", "anchors": ["src/network/graph/building.rs: finalize 1209-1282"]}
{"id": "C57", "title": "Rebuilding a graph from its own nodes and edges yields the same graph", "statement": "Building a graph from the nodes and edges of a built graph, in their order, yields the same graph: node indices, edge indices, offsets, shortcuts and ids.", "quantifier": "every graph that has been built, also with other metrics", "why_tests_cant": "All built graphs: sorting, removing duplicates and renumbering shortcuts have to be the identity on their own results.", "anchors": ["src/network/graph/building.rs: finalize 332-884"]}
{"id": "C58", "title": "Written values of edges can be merged back", "statement": "Merging a file of edge values that has been written with the same columns and header-flag sets exactly the written values of the written edges.", "quantifier": "every graph, every list of values, with and without header and shortcuts", "why_tests_cant": "All ids, values and column orders; reader and writer are far apart and share only the text format.", "anchors": ["src/io/writing/network/edges.rs", "src/io/parsing/network/edges.rs", "src/network/graph/building.rs: finalize 1319-1394"]}
{"id": "C59", "title": "As many random routes as requested are written", "statement": "If the map has at least as many connected pairs of distinct nodes as requested, then exactly the requested number of route-pairs is written.", "quantifier": "every graph, every number, every random sequence", "why_tests_cant": "Depends on random draws and on how many pairs are connected.", "anchors": ["src/io/writing/routing/random_or_all.rs"]}
{"id": "C60", "title": "Repeated balancing averages the workloads", "statement": "Balancing repeatedly by averaging, without a minimum, leaves each edge with the average of its relative workloads of all iterations, independent of the metric before the first iteration; explicit Euler gives the weighted average of the old value and the relative workload.", "quantifier": "every graph, every number of iterations, all workloads", "why_tests_cant": "The number of iterations and all workloads.", "anchors": ["src/defaults.rs: update_new_metric", "src/bin/osmgraphing/balancing/mod.rs: run"]}
{"id": "C61", "title": "Returned routes visit no node twice", "statement": "No part of a route returned by Dijkstra or ch-dijkstra is a circle, hence it has less edges than the graph has nodes, even if alphas or metrics are zero.", "quantifier": "every well-formed graph, every query, every order of the queue", "why_tests_cant": "The route is composed of two halves searched from both sides; that they share only the meeting node depends on the whole course of the search, in particular with zero weights.", "anchors": ["src/routing/dijkstra.rs: compute_best_path"]}
{"id": "C62", "title": "Flattened routes visit no node twice", "statement": "If a route of ch-dijkstra is flattened, i.e. its shortcuts are replaced by original edges, then no part of the flattened route is a circle.", "quantifier": "every contracted graph, every query, every alphas", "why_tests_cant": "Depends on the interplay of contraction, search and flattening.", "anchors": ["src/routing/dijkstra.rs: compute_best_path", "src/routing/paths.rs: flatten"]}
{"id": "C63", "title": "Alternative routes are pairwise different", "statement": "The routes returned by one exploration are pairwise different.", "quantifier": "every graph, every query, every triangulation and solver", "why_tests_cant": "Depends on all cells of the convex hull in all iterations.", "anchors": ["src/routing/explorating.rs: fully_explorate"]}
{"id": "C64", "title": "The exploration of alternative routes ends", "statement": "The loop of the explorator, which runs as long as new routes are found, ends and routes are returned.", "quantifier": "every graph, every query, every triangulation and solver", "why_tests_cant": "A test cannot show that a loop ends for all inputs.", "anchors": ["src/routing/explorating.rs: fully_explorate"]}
{"id": "C65", "title": "Exploring does not depend on former queries", "statement": "Which alternative routes are found for a query does not depend on the queries a router has answered before.", "quantifier": "every sequence of former queries, every graph, query, triangulation and solver", "why_tests_cant": "The router keeps its state between queries; a test covers only some histories.", "anchors": ["src/routing/explorating.rs: fully_explorate", "src/routing/dijkstra.rs: compute_best_path"]}
{"id": "C66", "title": "Balancing with the explorator counts every route-pair", "statement": "With the explorator, the balancer returns, every route-pair contributes exactly its count of flattened routes out of its alternative routes to the workloads, and mean and variance are those of the numbers of alternative routes. None of this depends on threads or schedule.", "quantifier": "every graph, all route-pairs, every number of threads, every schedule, all random numbers", "why_tests_cant": "Schedules of threads and random numbers cannot be enumerated.", "anchors": ["src/bin/osmgraphing/balancing/multithreading.rs: work_off_with_explorator", "src/bin/osmgraphing/balancing/multithreading.rs: work_off"]}
{"id": "C67", "title": "The router sees metrics and alphas only as weights", "statement": "If metrics and alphas are exchanged so that the weights of all edges stay the same, the router answers the same. In particular, a metric with alpha zero does not influence routes.", "quantifier": "every graph, query, former state, heap and arithmetic; every metric with alpha zero", "why_tests_cant": "It compares two runs over all possible values of the ignored metric.", "anchors": ["src/routing/dijkstra.rs: compute_best_path", "src/routing/explorating.rs: fully_explorate", "src/bin/osmgraphing/balancing/mod.rs: read_in_routing_cfg"]}
{"id": "C68", "title": "Normalizing does not change routes", "statement": "On a normalized graph, a query whose alphas are multiplied by the means of their metrics has the same answer as on the original graph.", "quantifier": "every graph, every query, all alphas", "why_tests_cant": "It compares two graphs for all values and all queries; tests use a few maps.", "anchors": ["src/network/graph/building.rs: finalize 1397-1455", "src/routing/dijkstra.rs: compute_best_path"]}
{"id": "C69", "title": "Answers are cheapest chains of inserted edges", "statement": "The path between two nodes of a built graph is a chain of inserted edges between the two node-ids with the same cost, no chain of inserted edges is cheaper, and there is no path iff there is no such chain.", "quantifier": "all inserted edges and nodes, all pairs of node-ids, all non-negative alphas, every history of the router", "why_tests_cant": "All chains of all inputs; the property spans building and routing.", "anchors": ["src/network/graph/building.rs: EdgeBuilder, NodeBuilder, GraphBuilder::finalize", "src/routing/dijkstra.rs: compute_best_path"]}
{"id": "C70", "title": "Routes on a map follow its streets and are as fast as possible", "statement": "For every pbf-file that is parsed, generated and possibly normalized: each answer of the routers between two nodes is a trip along consecutive nodes of ways in the file, each usable by the configured vehicle and passed in an allowed direction; there is no answer (with Dijkstra) iff there is no such trip. If the configuration parses speeds, generates lengths in km and calculates minutes from both, and only the minutes are weighted, then the answer's cost is the duration of its trip (60 * distance / maxspeed, summed up), and no trip in the file is faster, up to the accuracy of the queue's comparison: exactly for an exact comparison, and within 2 (2 + k (deg + 2)) 1.5e-6 minutes for the code's one, with k iterations and degree deg.", "quantifier": "all files, configurations, distance functions, node pairs, queues' previous uses", "why_tests_cant": "Connects parsing, building, generating and routing: every way, direction and speed of every file has to end up in the graph, and every answer has to be compared with all trips, which are infinitely many.", "anchors": ["src/io/parsing/network/graph/pbf.rs", "src/network/graph/building.rs", "src/routing/dijkstra.rs", "src/configs/parsing/edges/metrics.rs"]}
{"id": "C71", "title": "The balancer stores exactly the graph after the requested updates", "statement": "If a run of the balancer succeeds, exactly one graph is stored. It is reached from the parsed graph by as many iterations as updates are requested; each writes the graph, contracts it, reads it, simulates it and updates its metric with the resulting workloads, in the order 0, 1, ... . The last simulation takes place after storing and has no influence on the stored graph. The first iteration contracts with one dimension less and weights the new metric with zero. Conversely, if all these stages work out, the run succeeds with exactly this history. A failing run stores at most one graph, and only the right one. If contracting does not change the graph and the method is averaging without a minimum, the stored metric is the average of the relative workloads; without any update, the parsed graph is stored.", "quantifier": "all graphs, configurations, numbers of updates, contraction tools, file systems, simulations", "why_tests_cant": "Depends on the outcomes of external tools, files and threads in every iteration, for every number of iterations.", "anchors": ["src/bin/osmgraphing/balancing/mod.rs", "src/configs/balancing.rs", "src/defaults.rs"]}
{"id": "C72", "title": "Shortcuts have no workload", "statement": "Whatever the workers compute and however threads are scheduled, the counted workload of a shortcut is zero. So with averaging, without a minimum, and with the (default) error on zero metrics, the first update of a graph with a shortcut (or any unused edge) fails with an error and leaves the graph as it is.", "quantifier": "all graphs, workers, schedules, jobs, numbers of threads", "why_tests_cant": "Quantifies over all schedules and everything workers may send.", "anchors": ["src/bin/osmgraphing/balancing/multithreading.rs", "src/network/routes.rs", "src/defaults.rs"]}
{"id": "C73", "title": "The tool never overwrites a file and writes exactly what is asked for", "statement": "A run of the command line tool changes no file that has been there before, whatever fails. It succeeds exactly if the map is parsed, all the files that are asked for are pairwise different, new, accepted by their writers and completely written in the order graph, edges, route-pairs, and afterwards the queries work out, and the results of an evaluation are written if asked for; then exactly these files are new and they are complete. If it fails, a beginning of this list is complete, at most the next file has been begun, and nothing else has changed.", "quantifier": "all disks, maps, arguments, configurations and failures of parts", "why_tests_cant": "All combinations of tasks, present files and failures.", "anchors": ["src/bin/osmgraphing/mod.rs: run 60-189, do_evaluating_routing 277-322", "src/io/writing/evaluating_balance.rs", "src/io/writing/network/graph/mod.rs", "src/io/writing/network/edges.rs"]}
{"id": "C74", "title": "The kind of a file follows from its extension", "statement": "The extension of a file's name is what follows the last dot, if something precedes the dot; a name has at most one extension. A file is supported iff its extension in lower case is listed, so the parser reads exactly .pbf as pbf and .fmi as fmi, in whatever case. A file that is accepted for writing a graph is read as fmi again. The listed extension osm.pbf never matches.", "quantifier": "all file names", "why_tests_cant": "Infinitely many names.", "anchors": ["src/io/mod.rs", "src/io/parsing/network/graph/mod.rs", "src/io/writing/network/graph/mod.rs"]}
{"id": "C75", "title": "The model's f64 are the numbers of IEEE 754 and rounding is to nearest", "statement": "The rounding that is used for f64 keeps exactly the numbers n * 2^e with |n| < 2^53 and e >= -1074, and the result of rounding x is such a number with no other one nearer to x. (Overflow is not modelled.)", "quantifier": "all rational numbers", "why_tests_cant": "Infinitely many numbers; it grounds the error bounds of C76.", "anchors": ["src/helpers/mod.rs: dot_product 23-27", "src/approximating.rs: Approx<f64> 164-199"]}
{"id": "C76", "title": "The router's answers with f64 arithmetic are routes and nearly cheapest", "statement": "If the weights, the sums of costs, and the approximate comparison are all computed in f64, a returned path is a route from the source to the destination of at most 2n-2 edges, no path is returned only if there is no route, and every query ends. The path of Dijkstra's algorithm costs at most a millionth and (2 + k (deg + 2)) 4e-6 more than any route, on graphs of up to 2^28 nodes, where k is the number of iterations and deg the maximum degree; the path of ch-dijkstra at most a millionth and (2 + k (deg + 2)) 2e-6 more than any route going up and then down.", "quantifier": "all graphs, queries and histories of the router", "why_tests_cant": "Errors of rounding and of the non-transitive comparison accumulate along routes and in the queue; tests see a few of them.", "anchors": ["src/routing/dijkstra.rs", "src/helpers/mod.rs: dot_product 23-27", "src/approximating.rs: Approx<f64> 164-199"]}
{"id": "C77", "title": "With whole weights, the router's f64 arithmetic is exact", "statement": "If alphas times metrics are multiples of some 2^e with e >= -19, and (n + 1) times the largest weight of an edge is less than 2^52 * 2^e (n nodes), then the router with all its operations in f64 and with its approximate comparison answers exactly what it would answer with rational numbers and exact comparisons, in the same number of iterations. Hence Dijkstra's answer is a cheapest route, and so is ch-dijkstra's on contracted graphs.", "quantifier": "all graphs, queries, and routers used on graphs that are not larger", "why_tests_cant": "It is about every sum and every comparison of a search.", "anchors": ["src/routing/dijkstra.rs", "src/helpers/mod.rs: dot_product 23-27", "src/approximating.rs: Approx<f64> 164-199"]}
{"id": "C78", "title": "Working in chunks does not change what is worked off", "statement": "Finalizing reverses the edges and cuts chunks from the end until nothing is left. For every chunk size above zero, the chunks one after the other are exactly the edges in their original order, and no chunk exceeds its size. The chunk sizes, derived from 200 MB and the size of an edge, are above zero for every dimension up to 24999994.", "quantifier": "all lists of edges, chunk sizes, dimensions", "why_tests_cant": "Test graphs fit into one chunk of about two million edges, so the second round never runs.", "anchors": ["src/network/graph/building.rs: GraphBuilder::finalize 395-440, 586-640; mem_size_b 103-180", "src/defaults.rs: MAX_BYTE_PER_CHUNK 35"]}
{"id": "C79", "title": "Which cells of the hull are explored", "statement": "A cell whose vertices all exceed one and the same tolerance is skipped, where each vertex's costs are compared with the tolerance of their own metric. A cell with fewer vertices than considered metrics is skipped. For every other cell with as many vertices as considered metrics, the router is asked with the weights of the hyperplane through the vertices, with zero weight for ignored metrics and sum one. The answer is kept iff it lies below the hyperplane by at least 1.5e-6 and is not known from this round. With two metrics, skipping loses no route within the tolerances.", "quantifier": "all graphs, queries, cells with costs, routers, solvers that find unique solutions", "why_tests_cant": "The tests look at the routes returned for one small graph without tolerances, not at which cells are skipped or which weights are used.", "anchors": ["src/routing/explorating.rs: ConvexHullExplorator::fully_explorate, create_linear_system"]}
{"id": "C80", "title": "With two metrics, the exploration finds every route that is best for some weighting", "statement": "If both metrics are considered and no scale is given, then for every weighting of the two metrics, the explorator's answer contains a route that is best up to 1.5e-6. A route that is better than all routes with other costs by at least 1.5e-6, for some weighting, is in the answer even if scales are given, as long as it exceeds no route by more than the scale of a metric.", "quantifier": "all graphs with two nonnegative metrics, queries, scales, lower convex hulls without gaps", "why_tests_cant": "The tests compare the answer with a known set of routes of one small graph; completeness is about all weightings and all routes of a graph.", "anchors": ["src/routing/explorating.rs: ConvexHullExplorator::fully_explorate"]}
{"id": "C81", "title": "Every facet of the lower convex hull of the answer is final", "statement": "With any number of metrics and without scales: if more routes are found than metrics are considered, then no route of the graph lies below a facet of the lower convex hull of the found routes' costs, i.e. no route is cheaper by more than 1.5e-6 for the weights of the facet. Ignored metrics have no weight. The answer contains every route that is best for some positive weights.", "quantifier": "all graphs with nonnegative metrics, numbers of metrics, queries, triangulations with a cell in every facet of the lower convex hull, solvers of linear systems", "why_tests_cant": "The tests compare the answer with a known set of routes of one small graph with two metrics; the hull's facets and the routes below them range over all graphs, and the missed routes show up with at least three metrics.", "anchors": ["src/routing/explorating.rs: ConvexHullExplorator::fully_explorate", "src/routing/explorating.rs: ConvexHullExplorator::create_linear_system"]}
{"id": "C82", "title": "Sections of a config-file don't disturb each other", "statement": "What is read from a yaml-document for parsing, routing, balancing, evaluating, the multi-ch-constructor, or one of the three kinds of writing depends on nothing but the values of its own section. If the section is missing, reading fails.", "quantifier": "all pairs of documents with unique upmost keys, all ways to read numbers, all files of lines, all metrics of graphs", "why_tests_cant": "The tests read the files in resources, in which all sections are correct. Other sections range over all documents, including broken ones.", "anchors": ["src/configs/parsing/mod.rs: RawConfig", "src/configs/routing.rs: RawConfig", "src/configs/balancing.rs: RawConfig", "src/configs/writing/network/graph/mod.rs: WrappedRawConfig"]}
{"id": "C83", "title": "A misspelt key is rejected", "statement": "If a section of a document is accepted, then every key in it, on all levels and within lists, is a known key of this section.", "quantifier": "all documents, all ways to read numbers, all paths of keys", "why_tests_cant": "Misspelt keys are infinitely many and can be anywhere in the document; the tests contain none.", "anchors": ["src/configs/parsing/edges/mod.rs: RawCategory", "src/configs/parsing/generating/edges/mod.rs: RawCategory", "src/configs/writing/routing.rs: RawCategory", "src/configs/balancing.rs: RawContent"]}
{"id": "C84", "title": "The order of keys in a config-file is irrelevant", "statement": "Two documents that differ only in the order of keys, on any level, lead to the same configuration or are both rejected.", "quantifier": "all documents and all reorderings of keys on all levels", "why_tests_cant": "The number of orders is factorial, and the documents are arbitrary; each file in resources has one order.", "anchors": ["src/configs/balancing.rs: RawContent", "src/configs/routing.rs: RawContent", "src/configs/parsing/mod.rs: RawContent", "src/multi_ch_constructor/configs.rs: RawContent"]}
{"id": "C85", "title": "A configuration is what the user has written, with the documented defaults", "statement": "If a user writes a section with any choice of omitted optional keys, then it is accepted, and the configuration has exactly the written values and the default of each omitted one. The balancer does one more iteration than there are updates. For routing, each metric has the alpha and the tolerance of its last entry.", "quantifier": "all values and all subsets of omitted optional keys of all sections, all ways to write numbers that are read back", "why_tests_cant": "The tests read few files, in which optional keys are mostly given; subsets of omitted keys and values are too many.", "anchors": ["src/defaults.rs", "src/multi_ch_constructor/defaults.rs", "src/configs/balancing.rs: From<ProtoConfig> for Config", "src/configs/routing.rs: try_from_proto", "src/configs/parsing/mod.rs: RawContent"]}
{"id": "C86", "title": "A section means the same on its own and within the balancer's section", "statement": "A section for the multi-ch-constructor or for edges-info is accepted on its own if and only if it is accepted within the section of the balancer, with the same result.", "quantifier": "all documents, all ways to read numbers", "why_tests_cant": "No test reads the same section in both ways, and the difference shows only for texts that look like numbers.", "anchors": ["src/configs/balancing.rs: RawContent", "src/configs/balancing.rs: RawMonitoringConfig", "src/multi_ch_constructor/configs.rs: RawContent"]}
{"id": "C87", "title": "What the blueprint documents is accepted", "statement": "The names of infos, units, vehicles and algorithms in resources/blueprint.yaml are accepted where the blueprint gives them, and keys with a documented default can be omitted.", "quantifier": "all documented names, all ways to read numbers", "why_tests_cant": "The blueprint is not read by any test, since it is no valid document.", "anchors": ["resources/blueprint.yaml", "src/configs/parsing/vehicles.rs: RawConfig", "src/configs/parsing/generating/nodes/mod.rs: RawMetaInfo", "src/configs/parsing/generating/edges/mod.rs: RawMetaInfo", "src/configs/routing.rs: RawRoutingAlgo"]}
{"id": "C88", "title": "The multi-ch-constructor gets the command line for its configuration", "statement": "The arguments of the multi-ch-constructor are each option followed by its configured value, and each flag that is set. Its build gets dimension and accuracy. The minimal cost has no effect.", "quantifier": "all configurations of the multi-ch-constructor", "why_tests_cant": "The external program isn't run by the tests, so its arguments are never looked at.", "anchors": ["src/multi_ch_constructor/mod.rs: build", "src/multi_ch_constructor/mod.rs: construct_ch_graph", "src/multi_ch_constructor/configs.rs: RawContent"]}
{"id": "C89", "title": "The tool's routing answers pairs independently and terminates", "statement": "With `--routing` and any algorithm, the report about a route-pair depends neither on the former pairs nor on the later ones, there is one report for each pair in the order of the file, and a pair that fails ends the task while former reports stay. A pair with an id that is no node of the graph panics the tool. With Dijkstra on a map without shortcuts the tool terminates in the setting of C90, and if all nodes are covered and there are not exactly two of them, it finishes iff all ids are known.", "quantifier": "for all graphs, routing-configs, lists of route-pairs, queues, backends and numbers of steps", "why_tests_cant": "The router is reused for all pairs of a file; tests try few of the infinitely many sequences of pairs.", "anchors": ["src/bin/osmgraphing/mod.rs:191-275", "src/routing/dijkstra.rs:71-97", "src/io/parsing/routing/mod.rs:9-57"]}
{"id": "C90", "title": "The tool's reports are true of the lines of the map", "statement": "Let a yaml-document, an fmi-map and a route-pairs-file be given, without shortcuts, generated metrics and normalization. With Dijkstra and non-negative alphas, the tool logs `No path` for a pair iff no lines of the map lead from source to destination head to tail; otherwise the logged costs are the sums of the metrics of such lines, and no such lines are cheaper with respect to the alphas in the document. With the explorator, every logged path has the costs of such lines, and without tolerated scales `No path` is logged iff there are none.", "quantifier": "for all documents, maps, route-pairs, queues and, besides optimality, all rounded arithmetics", "why_tests_cant": "It connects reading of documents, maps and pairs, building of the graph and searching; a test compares single outputs with expected ones on few maps.", "anchors": ["src/bin/osmgraphing/mod.rs:60-178", "src/bin/osmgraphing/mod.rs:191-275", "src/io/parsing/network/graph/mod.rs:46-62", "src/configs/routing.rs:35-84"]}
{"id": "C91", "title": "Ch-dijkstra on contracted maps is true of the inserted edges", "statement": "Let a graph be built from nodes with levels and edges that may be shortcuts. If the edges are contracted for some weights, ch-dijkstra denies a path iff no inserted edges lead from source to destination. If a path is found and flattened, it consists of inserted edges that are no shortcuts. If the map is contracted for the weights of the query and no shortcut is cheaper than what it stands for, no inserted edges are cheaper than the flattened path, and flattening ends, successfully.", "quantifier": "for all lists of nodes and edges, queries, reused searches and, besides optimality, all rounded arithmetics", "why_tests_cant": "Contraction is a property of all paths over lower nodes; removal of duplicates and lifting of zero costs happen in between, and tests use one map where none of it matters.", "anchors": ["src/routing/dijkstra.rs:71-446", "src/routing/paths.rs:91-141", "src/network/graph/building.rs:389-884"]}
{"id": "C92", "title": "The tool's reports on contracted maps are true of the lines of the map", "statement": "Let a yaml-document, a route-pairs-file and an fmi-map with levels and shortcuts be given. If every shortcut leads where its lines lead, and the lines are contracted for some weights, then with ch-dijkstra the tool logs `No path` for a pair iff no lines besides shortcuts lead from source to destination, otherwise the logged costs are sums of the metrics of such lines. They are cheapest if the map is contracted for the alphas in the document. The tool terminates, and finishes if all ids are known.", "quantifier": "for all documents, maps, route-pairs and, besides optimality, all rounded arithmetics and queues", "why_tests_cant": "It connects reading of shortcuts and levels, building of the graph, bidirectional search and flattening; tests compare few queries on one map.", "anchors": ["src/bin/osmgraphing/mod.rs:60-178", "src/bin/osmgraphing/mod.rs:191-275", "src/routing/paths.rs:91-141", "src/io/parsing/network/graph/fmi.rs"]}
{"id": "C93", "title": "The tool's reports on pbf-maps are true of the streets", "statement": "Let a yaml-document, a route-pairs-file and a pbf-map be given, where the minutes of edges are generated from their lengths and speeds and are the only metric with an alpha. With Dijkstra, the tool logs `No path` for a pair iff the vehicle cannot get from source to destination on the streets of the file, otherwise it logs minutes and kilometers of a trip, and no trip takes less time. The tool terminates, and finishes if all ids are on streets.", "quantifier": "for all documents, pbf-files, route-pairs, vehicles, names of metrics and, besides optimality, all rounded arithmetics and queues", "why_tests_cant": "It connects tags of ways, oneways, generated metrics, the configuration of routing, the search and the flattening; tests compare few routes of one map.", "anchors": ["src/bin/osmgraphing/mod.rs:60-178", "src/bin/osmgraphing/mod.rs:191-275", "src/io/parsing/network/graph/pbf.rs", "src/network/graph/building.rs:389-884"]}
{"id": "C94", "title": "Routing on an exported map yields the same reports", "statement": "If a pbf-map is written as fmi-map by the tool with all its columns, including generated metrics, and a second document reads this file with the same columns and has the same section for routing, then routing with the second document yields exactly the reports that routing with the first one yields; so they are true of the streets of the pbf-map.", "quantifier": "for all documents, pbf-files, route-pairs, generated metrics, names, queues and algorithms, if numbers are written without loss and no metric of the graph is close to zero", "why_tests_cant": "Tests compare a few accessors of two maps; here writing, reading, building a graph again, matching of columns and the whole of routing have to agree for all maps.", "anchors": ["src/bin/osmgraphing/mod.rs:60-189", "src/io/writing/network/graph/fmi.rs", "src/io/parsing/network/graph/fmi.rs", "src/network/graph/building.rs:389-884"]}
{"id": "C95", "title": "Written route-pairs are all answered", "statement": "If the tool has written route-pairs into the file that the document's section for routing names, then routing reads exactly these pairs, knows all their ids, and reports the costs of a path for every one of them in the order of the file; it never reports a missing path, an error or a panic.", "quantifier": "for all documents, maps without shortcuts, seeds and draws, numbers of pairs, queues and arithmetics", "why_tests_cant": "The written pairs depend on a random seed and on the graph; writer and reader use routers with different former queries, and the router is stateful.", "anchors": ["src/bin/osmgraphing/mod.rs:141-275", "src/io/writing/routing/random_or_all.rs:32-158", "src/io/writing/routing/mod.rs:9-36", "src/io/parsing/routing/mod.rs:9-57"]}
{"id": "C96", "title": "Evaluated workloads are those of the reported routes", "statement": "If routing finishes with a document, then the simulation of an evaluation with the same document succeeds under every schedule of its threads, and the written file of workloads tells for every edge how often it is part of the reported paths (unpacked, each counted as often as its route-pair requests; a reported path that isn't unique is drawn among the reported alternatives); the counted paths lead from the route-pairs' sources to their destinations.", "quantifier": "for all documents, maps, route-pairs, numbers of threads, schedules, random draws and queues", "why_tests_cant": "The result depends on the interleaving of threads and on random draws, and compares two tasks of the binary on arbitrary maps.", "anchors": ["src/bin/osmgraphing/mod.rs:191-322", "src/bin/osmgraphing/balancing/multithreading.rs:27-440", "src/io/writing/evaluating_balance.rs:13-89", "src/io/writing/network/edges.rs:63-123"]}
{"id": "C97", "title": "The balancer keeps its files together and stores the balanced map", "statement": "A run of the balancer changes no file outside of its own directory, whether it succeeds, fails or panics, if the paths for its iterations are relative. After a successful run, the file with the configured map's name in this directory contains exactly the graph that as many iterations as configured updates have made of the given map; neither the last iteration nor the copied route-pairs overwrite it.", "quantifier": "for all documents, files, maps, external contractions, simulations and numbers of updates", "why_tests_cant": "Effects on all other files, under all errors and panics in any iteration, and for arbitrary outcomes of an external program, can't be enumerated.", "anchors": ["src/bin/osmgraphing/balancing/mod.rs:13-373", "src/bin/osmgraphing/balancing/mod.rs:436-490", "src/io/writing/evaluating_balance.rs:35-89"]}
{"id": "C98", "title": "Streets are balanced by their workloads, also with shortcuts", "statement": "If the balancer finishes by averaging, then in the stored map a street that has been used at least as often as another one in every iteration isn't less expensive, whatever shortcuts the contractions add. Without a minimum, the stored metric is the same positively weighted sum of workloads for all streets, namely the average of their relative workloads; the metric from before the first iteration doesn't matter.", "quantifier": "for all maps, numbers of updates, workloads and contractions that take over the metric of streets", "why_tests_cant": "The external contraction adds arbitrary shortcuts and reorders edges between the updates; the tests of the repository only update a metric once.", "anchors": ["src/defaults.rs:131-259", "src/bin/osmgraphing/balancing/mod.rs:34-72"]}
{"id": "C99", "title": "Whether a configuration fits does not depend on the map", "statement": "After loading a map, the columns of nodes and edges, to which the sections for routing, writing and monitoring refer, are those that the section for parsing leads to: first the columns of the file, then the generated ones in their order, converted metrics at their place under the new name and unit, and merging changes none. They are the same for every map and every merged file, so whether other sections are accepted, and what they mean, does not depend on the map.", "quantifier": "for all documents, maps (fmi and pbf) and merged files", "why_tests_cant": "Columns change with every generated category while metrics are computed; tests check a few documents with one map each.", "anchors": ["src/network/graph/building.rs:886-1455", "src/configs/parsing/edges/mod.rs:11-92", "src/configs/routing.rs:35-84"]}
{"id": "C100", "title": "Shipped configurations are accepted and fit together", "statement": "Every document below resources (blueprint.yaml is documentation) is accepted by the sections it contains, and names only columns that its section for parsing leads to; with any map. The documents of a balancer fit together: each iteration finds the columns it routes with, writes and monitors, and merges exactly the data of edges that it has written. Converted and balanced maps are read as what has been written, column by column.", "quantifier": "for all documents that are shipped, and all maps that can be loaded with them", "why_tests_cant": "The tests of the repository load a few of the documents, and only the sections for parsing; balancing runs for days on these maps.", "anchors": ["resources/isle_of_man_2020-03-14/balancing/config.yaml:1-121", "resources/simple_stuttgart/normalized_fmi.yaml:1-34", "resources/stuttgart-regbez_2019-09-07/balancing/config.yaml:1-94", "resources/stuttgart-regbez_2019-09-07/pbf_to_fmi.yaml:1-47", "src/configs/routing.rs:297-305", "src/configs/balancing.rs:257-279"]}
{"id": "C101", "title": "The repository's tests pass", "statement": "The tests of the repository on maps that are shipped as text pass: maps are loaded with the expected nodes, edges, coordinates, metrics and normalized metrics; every query between two nodes is answered by one of the expected routes with the expected costs, by both algorithms, with one router for all queries; both algorithms agree on the contracted map; the sections of shipped configurations are accepted or refused as expected; an unknown extension is refused; and the example examples/dijkstra.rs finds a way.", "quantifier": "for all tests of the repository whose map is shipped as text, and all of their queries", "why_tests_cant": "Tests run the code, not this model. Here, the model has to have the expected results, so it would be noticed if it behaved unlike the code on these inputs.", "anchors": ["tests/helpers/mod.rs:75-352", "tests/helpers/components.rs:38-296", "tests/small/parsing.rs:1-142", "tests/simple_stuttgart_normalized/parsing.rs:1-126", "tests/asdf/parsing.rs:1-45", "examples/dijkstra.rs:20-72"]}
{"id": "C102", "title": "Shipped route-pairs can be written anew", "statement": "For the maps that are shipped as text, the tool writes exactly the shipped file of route-pairs, if it is asked to with the section for writing of the shipped configuration, whatever the random numbers are.", "quantifier": "for all maps that are shipped as text, and all random numbers", "why_tests_cant": "No test of the repository writes route-pairs.", "anchors": ["src/io/writing/routing/random_or_all.rs:20-158", "resources/bidirectional_bait/all_25.route-pairs:1-34", "resources/simple_stuttgart/all_31.route-pairs:1-40", "resources/small/all_43.fmi.route-pairs:1-52", "resources/small/all_43.ch.fmi.route-pairs:1-52"]}
{"id": "C103", "title": "The visualizer shows every street with its own data", "statement": "If a simulation writes the data of its edges and the workloads of every iteration, with names above the columns, and all iterations are about the same streets, then in every iteration, the k-th position, length, number of lanes, workload and difference of workloads of the visualizer belong to the street with the k-th smallest id: the position is the middle between both ends of the edge, length and lanes are those of the graph, the workload is the number of routes through the edge, and the difference is the one to the iteration before. The largest workload is the largest one of all iterations. With the shipped configurations for balancing and evaluating, all columns the visualizer asks for are written.", "quantifier": "for all graphs, sequences of iterations, selections of columns and workloads", "why_tests_cant": "There are no tests for the scripts, and the writing side and the reading side are in different languages.", "anchors": ["scripts/balancing/visualizer/visualizing/model.py:9-308", "scripts/balancing/visualizer/visualizing/simulating.py:9-15", "src/io/writing/network/mod.rs:13-230", "src/io/writing/network/edges.rs:63-123", "src/io/writing/evaluating_balance.rs:46-86"]}
{"id": "C104", "title": "Colours of the visualizer lie between 0 and 1", "statement": "The norm for workloads, TwoSlopeLoggedNorm, maps values between its limits to [0, 1]: the smallest value to 0, the largest one to 1, a centre strictly between them to 0.5, and larger values to larger ones. A centre at one of the limits doesn't matter. Errors are raised for unordered limits, a centre outside of them and a base up to 1, but for nothing else.", "quantifier": "for all bases, limits, centres and values", "why_tests_cant": "There are no tests for the scripts, and colormaps silently cut values off which are outside of [0, 1].", "anchors": ["scripts/balancing/visualizer/visualizing/helpers.py:7-105", "scripts/balancing/visualizer/visualizing/plotting.py:382-397", "scripts/balancing/visualizer/visualizing/plotting.py:554-568"]}
{"id": "C105", "title": "The command line asks for what it says", "statement": "A command line is accepted exactly if it consists of a config-file, maybe a level of logging, and known flags, each at most once, in any order. Then exactly the tasks are executed whose flags are given, with this config-file and this level. Balancing and evaluating are refused without the cargo-feature gpl. The commands in the documentation, in the continuous integration and in the scripts are accepted.", "quantifier": "for all lists of arguments, with and without the cargo-feature", "why_tests_cant": "The tests call the library and never the binary, and the scripts aren't executed by any test.", "anchors": ["src/bin/osmgraphing/mod.rs:324-530", "README.md:79-97", "scripts/rebuild_route-pairs.bash:39", ".github/workflows/rust.yml:39-40"]}
{"id": "C106", "title": "The order in which a map lists its nodes and edges is irrelevant", "statement": "If the nodes and the edges of a map are given in another order, the very same graph is built, with the same indices, offsets and metrics, or building fails for the same reason. Hence another order of an fmi-file's lines changes neither the loaded graph nor what the tool reports.", "quantifier": "for all lists of records and all their permutations, all fmi-files and all configs", "why_tests_cant": "The tests read each map in one order, or shuffle single small maps; the number of orders is factorial.", "anchors": ["src/network/graph/building.rs:203-267", "src/network/graph/building.rs:308-318", "src/network/graph/building.rs:351-884", "src/io/parsing/network/graph/fmi.rs:100-157"]}
{"id": "C107", "title": "A graph is laid out in memory as documented", "statement": "All data is stored for edges sorted by source and destination. In each direction, an array lists every edge once in the order of this direction, an offset is the number of edges leaving earlier nodes, and the edges of a node are exactly those between its offset and the next one. The offsets have one entry more than there are nodes. The arrays shown in the documentation are those of the shown graphs.", "quantifier": "for every built graph, both directions and all nodes; the documented examples in every order of insertion", "why_tests_cant": "The tests compare what iterators yield on few maps; the arrays are private, and the documentation's tables are never computed.", "anchors": ["src/network/graph/mod.rs:14-77", "src/network/graph/building.rs:462-482", "src/network/graph/building.rs:716-876", "src/network/graph/mod.rs:600-632"]}
{"id": "C108", "title": "Costs that overflow don't mislead the router", "statement": "With numbers of type f64 including infinity, queries end and don't panic, and a returned path is a route. With metrics and weights up to 2^400, the router behaves as if there were no largest number. There is no path iff there is no route, and a returned path is a cheapest one.", "quantifier": "for all graphs, alphas without negative numbers and used routers, for dijkstra and ch-dijkstra", "why_tests_cant": "The tests' maps have costs far below 2^1023; which of infinitely many routes overflow cannot be enumerated.", "anchors": ["src/routing/dijkstra.rs:136-138", "src/routing/dijkstra.rs:214-299", "src/helpers/mod.rs:23-27", "src/approximating.rs:168-199"]}
{"id": "C109", "title": "Metrics that are no finite numbers only close their edges", "statement": "If a metric of an edge is infinite or undefined (a text like inf or NaN, or a division by zero when generating), the map is rejected, or that edge can't be used and everything else is as without it: queries end and don't panic, a returned path is a route of edges with finite metrics and no such route is cheaper by more than the router's usual error, and there is no path iff there is no such route. This also holds if metrics are normalized.", "quantifier": "for all graphs, metrics without negative values, alphas without negative numbers and used routers, for dijkstra and ch-dijkstra", "why_tests_cant": "The tests' maps have finite metrics only; how an undefined value spreads to other edges depends on all the others.", "anchors": ["src/io/parsing/network/graph/fmi.rs:278", "src/network/graph/building.rs:69-88", "src/network/graph/building.rs:521-535", "src/network/graph/building.rs:658-666", "src/network/graph/building.rs:1397-1455", "src/configs/parsing/generating/edges/metrics.rs:140-263", "src/routing/dijkstra.rs:264-298", "src/helpers/mod.rs:23-27"]}
{"id": "C110", "title": "Weights that are no finite numbers are harmless", "statement": "If a weight of the routing-config is infinite or undefined, then queries end and don't panic. With a weight of minus infinity, there is no path, as with all negative weights. With other such weights, no edge is used: a node is found from itself by a path without edges, and every other query has no path. So a path with edges is found only if all weights are finite, and then it has only edges whose metrics are finite.", "quantifier": "for all graphs, metrics without negative values, weights, and routers used with any weights before, for dijkstra and ch-dijkstra", "why_tests_cant": "The tests' configs have finite weights only.", "anchors": ["src/configs/routing.rs:62-83", "src/configs/routing.rs:261-289", "src/routing/dijkstra.rs:144-342", "src/helpers/mod.rs:23-27"]}
{"id": "C111", "title": "A graph can always be printed", "statement": "Printing a graph, as the tools do with log-level debug, shows up to 20 of its nodes, of its edges in both directions, of the offsets of its nodes, and of its shortcuts, each with its correct values. If there are more than 20, then these are the first 19 ones, dots, and the last one.", "quantifier": "for all graphs that are built from records, also with generated metrics and edge-ids", "why_tests_cant": "Tests don't print graphs.", "anchors": ["src/network/graph/mod.rs:162-331", "src/bin/osmgraphing/mod.rs:84", "src/network/graph/building.rs:669-880"]}
{"id": "C112", "title": "The visualizer's figures show the iterations", "statement": "For the files the balancer wrote, the visualizer draws all its figures. Each iteration's line and box are the workloads of its used streets. Maps show each street once, sorted by workload, and by the size of the difference. The colours' boundaries are the smallest workload, a 95-percent-quantile and the largest workload of all iterations, and for differences the extremes and the quantiles of 5 and 95 percent. The histogram has as many bins as the workloads' range. There's one box per lane-count, at the position of this lane-count, with the workloads of its used streets.", "quantifier": "for all iterations and maps", "why_tests_cant": "There are no tests for scripts.", "anchors": ["scripts/balancing/visualizer/visualizing/plotting.py:113-145", "scripts/balancing/visualizer/visualizing/plotting.py:446-485", "scripts/balancing/visualizer/visualizing/plotting.py:614-653", "scripts/balancing/visualizer/visualizing/plotting.py:728-815", "scripts/balancing/visualizer/visualizing/__init__.py:21-64"]}
{"id": "C113", "title": "With f64 the balanced metric is accurate, positive, and nearly normalized", "statement": "With numbers of type f64, where each operation rounds, an update of the balanced metric still changes only this metric. If there are at most 2^50 edges and at most 2^53 uses in total: the new metric's mean differs from 1 by at most (n+8)/2^52 for n edges; no value is negative; with a minimum of at least 2^-40, or if a vanishing metric is an error, all values are positive. Each value, times the remembered mean, is the exact target, up to a factor of about 2^-47 of old value and relative workload, and (with a minimum) up to the comparison's accuracy. The remembered mean is accurate as well. With metrics up to 2^900 no number overflows, and the update succeeds or returns an error. An error needs an average workload, an average target, or (if this is an error) a target that is zero up to the accuracy.", "quantifier": "for all workloads, iterations, configurations and graphs", "why_tests_cant": "The tests don't cover the update; errors of rounding grow with the number of edges and can't be seen in small samples.", "anchors": ["src/defaults.rs:131-259", "src/approximating.rs:167-199"]}
{"id": "C114", "title": "With f64 the metrics are normalized accurately and stay positive", "statement": "With numbers of type f64, where each operation rounds, normalizing still changes only metrics and means. Let there be at most 2^50 edges, and metrics that aren't negative. The remembered means are exact up to a factor of (n+4)/2^52 for n edges. Each value is replaced by the accuracy 1e-6 if its quotient by the mean vanishes; otherwise value times remembered mean is the original value up to a factor of 2^-52. No value is below 1e-6. The mean of each normalized metric differs from 1 by at most (n+8)/2^52, plus 2e-6 if values have been replaced. A writer that denormalizes writes the original values up to a factor of 2^-51, unless replaced. With metrics up to 2^900, no number overflows, nothing panics, and normalizing fails exactly without edges or with a mean that is zero up to the accuracy.", "quantifier": "for all graphs and metrics", "why_tests_cant": "Errors of rounding grow with the number of edges and can't be seen in small samples; the tests compare with a tolerance.", "anchors": ["src/network/graph/building.rs:1397-1455", "src/helpers/mod.rs:11-13", "src/io/writing/network/mod.rs:175-185", "src/approximating.rs:167-199"]}
{"id": "C115", "title": "With f64, errors of rounding stay small over many balancing iterations", "statement": "Let the balanced metric be updated several times with numbers of type f64, with at most 2^40 edges and at most 2^53 uses per iteration. Whatever the workloads are, no number overflows and nothing panics if the metric is at most 2^900 at the beginning; only the balanced metric is changed, no value gets negative, and after any number of iterations its mean differs from 1 by at most (n+8)/2^52 for n edges. Without a minimum, the value of an edge after j iterations differs by at most j(n+36)/2^47 times R from that of exact arithmetic (for averaging from iteration 0 on: from the average of the edge's relative workloads), where R >= 1 bounds the edge's first value and its relative workloads.", "quantifier": "for all numbers of iterations, workloads, configurations and graphs", "why_tests_cant": "Accumulated errors need many iterations on large maps; there are no tests for the update.", "anchors": ["src/defaults.rs:131-259", "src/bin/osmgraphing/balancing/mod.rs:35-72"]}
{"id": "C116", "title": "Costs of paths with f64 are near to the exact sums", "statement": "Let the metrics be non-negative numbers of type f64. calc_costs yields one cost per metric, and panics iff an edge is unknown. Each cost of a path with n edges is the exact sum up to a factor between (1-2^-53)^n and (1+2^-53)^n, and infinite only if the latter bound exceeds the largest f64; for metrics up to 2^900 it is finite with a relative error of at most n/2^52. Whole numbers with a sum of at most 2^53 are added exactly. A longer path never costs less than its beginning, and of two paths whose exact costs differ clearly the cheaper one remains cheaper. The edges of a flattened path don't depend on rounding, and its costs are bit by bit those that calc_costs yields for its edges.", "quantifier": "for all graphs, metrics and paths", "why_tests_cant": "Errors of rounding depend on the values, of which the repository's tests use a few small ones.", "anchors": ["src/routing/paths.rs:73-134", "src/helpers/mod.rs:11-17"]}
{"id": "C117", "title": "Running statistics with f64 are near to mean and variance", "statement": "Let every route-pair report its number of found paths, in t outcomes of at most K numbers up to B (K*B and the number of pairs at most 2^53, t*(t+K+1) at most 2^46). Then the running mean and variance of the master are finite, in whichever order the outcomes arrive; the mean differs from the mean of all numbers by at most t*B/2^48, the variance by at most t*(t+K+1)*B^2/2^46. If all numbers are equal to x (as with Dijkstra, where x is 1), then the mean is exactly x and the variance exactly 0.", "quantifier": "for all lists of outcomes within the stated bounds", "why_tests_cant": "Errors of rounding grow with the number of outcomes, and outcomes arrive in any order.", "anchors": ["src/bin/osmgraphing/balancing/multithreading.rs:58-59", "src/bin/osmgraphing/balancing/multithreading.rs:85-118"]}
{"id": "C118", "title": "With f64, alternative routes are tolerated up to errors of rounding", "statement": "Let metrics be non-negative numbers of type f64 up to 2^900 and paths have at most 2^52 edges. If a path with n edges is tolerated, then, for every metric with a finite scale s, its exact cost times (1-n/2^52) is at most s times the exact cost of the best path (n' edges) for this metric times (1+n'/2^52)(1+2^-53), plus 1/600000 (the accuracy of comparisons). Conversely, a path is tolerated if, for every metric, the scale is infinite or its exact cost times (1+n/2^52) is at most s times the exact cost of the best path times (1-n'/2^52). With a scale of at least one, the best path meets its own tolerance whatever it costs, and with larger scales nothing is rejected that was tolerated before.", "quantifier": "for all graphs, paths and scales within the stated bounds", "why_tests_cant": "Errors of rounding depend on values and lengths of paths, of which there are too many.", "anchors": ["src/routing/explorating.rs:432-441", "src/routing/explorating.rs:570", "src/approximating.rs:119-131"]}
{"id": "C119", "title": "Debug-assertions never fail, except for missing alphas", "statement": "In a debug build, the router does the same as in a release build for all queries with at least one alpha, in whatever state the router is: the assertions that a node has been visited before it is tested for being a meeting-node, and that directions have their indices, never fail. Without alphas, a debug build panics, whereas a release build finds a path. The builder of graphs does the same in both builds, whatever is inserted: the last backward offset is always the number of edges.", "quantifier": "for all router states, queries, queues and arithmetics of costs; for all inserted nodes and edges", "why_tests_cant": "Tests run few queries, and release builds skip the assertions.", "anchors": ["src/routing/dijkstra.rs:107-120", "src/routing/dijkstra.rs:145-148", "src/routing/dijkstra.rs:173-182", "src/network/graph/building.rs:871-875"]}
{"id": "C120", "title": "The name of a map is its file's name without extensions", "statement": "The name of a map is the file's name without all extensions. If the file's name starts with graph, it is the name of the file's directory.", "quantifier": "all file and directory names", "why_tests_cant": "Infinitely many names; the function has no test.", "anchors": ["src/bin/osmgraphing/balancing/mod.rs:378-416"]}
