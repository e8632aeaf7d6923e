{
 "claims": [
  {
   "property": "C01",
   "status": "proved",
   "theorems": [
    "Verif.Build.C01_node_ids",
    "Verif.Build.C01_lookup",
    "Verif.Build.C01_absent"
   ],
   "note": "all inputs"
  },
  {
   "property": "C02",
   "status": "proved",
   "theorems": [
    "Verif.Build.C02_missing_iff",
    "Verif.Build.C02_node_data"
   ],
   "note": "all inputs; error iff and node data of the last record"
  },
  {
   "property": "C03",
   "status": "partial",
   "theorems": [
    "Verif.Build.C03_false_trailing_node",
    "Verif.Build.C03_forward_partial",
    "Verif.Build.C03_covered_iff",
    "Verif.Build.C03_forward_of_last",
    "Verif.Build.C03_between_partial"
   ],
   "note": "false as stated: nodes behind the last source panic (C03_false_trailing_node). Proved: exact adjacency for every node that can be asked, which nodes these are, and the full statement if the last node has a leaving edge"
  },
  {
   "property": "C04",
   "status": "partial",
   "theorems": [
    "Verif.Build.C04_backward_partial",
    "Verif.Build.C04_covered_iff",
    "Verif.Build.C04_mirror",
    "Verif.Build.C04_false_trailing_node"
   ],
   "note": "false as stated for nodes behind the last destination (C04_false_trailing_node); otherwise proved incl. mirror"
  },
  {
   "property": "C05",
   "status": "proved",
   "theorems": [
    "Verif.Build.C05_no_edge_invented",
    "Verif.Build.C05_no_edge_lost",
    "Verif.Build.C05_count"
   ],
   "note": "all inputs, together with C09_representatives"
  },
  {
   "property": "C06",
   "status": "partial",
   "theorems": [
    "Verif.Build.C06_false_duplicates_remain",
    "Verif.Build.C06_neighbours_partial",
    "Verif.Build.C06_unambiguous_partial"
   ],
   "note": "false as stated (C06_false_duplicates_remain); proved for neighbours and for unambiguous input"
  },
  {
   "property": "C07",
   "status": "proved",
   "theorems": [
    "Verif.Build.C07_metrics_positive",
    "Verif.Build.C07_error_reason",
    "Verif.Build.C07_negative_rejected"
   ],
   "note": "stored metrics are at least 1e-6; when the build fails because of it"
  },
  {
   "property": "C08",
   "status": "partial",
   "theorems": [
    "Verif.Gen.C08_normalized_partial",
    "Verif.Gen.C08_safe_partial",
    "Verif.Gen.C08_false_custom",
    "Verif.Gen.C08_false_convert",
    "Verif.Gen.C08_false_haversine"
   ],
   "note": "False as stated: custom values may be zero (C08_false_custom), conversions may shrink values (C08_false_convert), haversine-distances may be zero (C08_false_haversine). Proved: normalized metrics are at least 1e-6 if the metrics before are not negative; categories that can't shrink values keep the bound."
  },
  {
   "property": "C09",
   "status": "proved",
   "theorems": [
    "Verif.Build.C09_representatives",
    "Verif.Build.C09_in_range",
    "Verif.Build.C09_panic_iff"
   ],
   "note": "incl. that the build panics iff a shortcut refers to an edge never inserted"
  },
  {
   "property": "C10",
   "status": "proved",
   "theorems": [
    "Verif.Build.C10_flags",
    "Verif.Build.C09_representatives"
   ],
   "note": "all inputs; the pair itself is covered by C09_representatives"
  },
  {
   "property": "C11",
   "status": "proved",
   "theorems": [
    "Verif.Build.C11_fails_iff",
    "Verif.Build.C11_unique",
    "Verif.Build.C11_lookup",
    "Verif.Build.C11_absent",
    "Verif.Build.C11_conflict",
    "Verif.Build.C11_error_reason"
   ],
   "note": "uniqueness, lookup iff, absence iff; building fails with a duplicate id iff, for some id, a later insertion isn't the same edge as the first insertion with this id (C11_fails_iff)"
  },
  {
   "property": "C12",
   "status": "proved",
   "theorems": [
    "Verif.Build.C12_level_order",
    "Verif.Build.C12_break_is_filter"
   ],
   "note": "both directions; break equals filter"
  },
  {
   "property": "C13",
   "status": "proved",
   "theorems": [
    "Verif.Dij.C13_route",
    "Verif.Dij.C13_up_down",
    "Verif.Dij.C13_explorator"
   ],
   "note": "every queue order, any monotone inflationary (e.g. rounded) addition, after any history of queries"
  },
  {
   "property": "C14",
   "status": "partial",
   "theorems": [
    "Verif.Dij.C14_optimal",
    "Verif.Dij.C14_exact_comparison",
    "Verif.Dij.C14_grid_partial",
    "Verif.Dij.C14_false_near_ties",
    "Verif.Dij.C14_near_optimal_partial",
    "Verif.Dij.C14_separated_partial",
    "Verif.Dij.C14_false_factor"
   ],
   "note": "False as stated with the code's approximate comparison (C14_false_near_ties: a built graph and a non-optimal answer; C14_false_factor: with an alpha of 1e-12, an answer that costs 250000 times the optimum). Proved for every queue that pops a cheapest element, for std's binary heap with exact comparison, and for the code's comparison when weights are multiples of a step >= 1.5e-6. Without any assumption on weights, the code's answer is at most 2(2+k(deg+2))1.5e-6 above the optimum after k iterations (C14_near_optimal_partial). Exact arithmetic."
  },
  {
   "property": "C15",
   "status": "partial",
   "theorems": [
    "Verif.Dij.C15_none_iff",
    "Verif.Dij.C15_answers_partial",
    "Verif.Dij.C15_false_uncovered",
    "Verif.Dij.C15_false_two_nodes"
   ],
   "note": "false as stated because of panics (C15_false_uncovered, C15_false_two_nodes). Proved: every answered query says 'no path' iff there is no route, and when queries are answered"
  },
  {
   "property": "C16",
   "status": "proved",
   "theorems": [
    "Verif.Dij.C16_negative_alpha",
    "Verif.Dij.C16_later_answers"
   ],
   "note": "all graphs, queries and routers"
  },
  {
   "property": "C17",
   "status": "partial",
   "theorems": [
    "Verif.Dij.C17_reuse_partial",
    "Verif.Dij.C17_false_two_nodes",
    "Verif.Dij.C17_false_smaller_graph"
   ],
   "note": "false as stated (C17_false_two_nodes, C17_false_smaller_graph). Proved for every history on graphs not larger than the next one, which must not have two nodes"
  },
  {
   "property": "C18",
   "status": "partial",
   "theorems": [
    "Verif.Dij.C18_self",
    "Verif.Dij.C18_false_uncovered"
   ],
   "note": "every answered query; a query may panic (C18_false_uncovered)"
  },
  {
   "property": "C19",
   "status": "partial",
   "theorems": [
    "Verif.Dij.C19_terminates",
    "Verif.Dij.C19_linear",
    "Verif.Dij.C19_linear_code_partial",
    "Verif.Dij.C19_false_exponential",
    "Verif.Dij.C19_false_linear"
   ],
   "note": "Termination is proved for every queue order and rounded addition, the linear bound for a queue that pops a cheapest element. With the code's approximate comparison the linear bound holds on a grid of weights (C19_linear_code_partial), and is false in general: with a small alpha all costs are nearly equal, nodes are popped in the order of their indices, and graphs of 3k+1 edges need more than 2^k iterations (C19_false_exponential, C19_false_linear)."
  },
  {
   "property": "C20",
   "status": "partial",
   "theorems": [
    "Verif.Dij.C20_up_down",
    "Verif.Dij.C20_optimal",
    "Verif.Dij.C20_code_partial",
    "Verif.Dij.C20_none_iff_up_down",
    "Verif.Dij.C20_none_iff",
    "Verif.Dij.C20_agrees",
    "Verif.Dij.C20_contracted",
    "Verif.Dij.C20_false_near_ties",
    "Verif.Dij.C20_near_up_down_partial",
    "Verif.Dij.C20_near_optimal_partial"
   ],
   "note": "False with the code's approximate comparison (C20_false_near_ties). Proved for every queue popping a cheapest element (and the code's on a grid of weights), incl. that contracted graphs meet the assumption (C20_contracted). Without assumption on weights, the code's answer is at most (2+k(deg+2))1.5e-6 above the optimum after k iterations. That none is found iff no up-down-path exists holds for every queue and rounded arithmetics too."
  },
  {
   "property": "C21",
   "status": "partial",
   "theorems": [
    "Verif.Path.C21_outcome",
    "Verif.Path.C21_succeeds_iff",
    "Verif.Path.C21_expansion",
    "Verif.Path.C21_no_shortcut",
    "Verif.Path.C21_route",
    "Verif.Path.C21_costs",
    "Verif.Path.C21_succeeds",
    "Verif.Path.C21_built_succeeds",
    "Verif.Path.C21_idempotent",
    "Verif.Path.C21_flat_succeeds",
    "Verif.Path.C21_false_acyclic_rejected"
   ],
   "note": "false as stated for routes that repeat an edge (C21_false_acyclic_rejected: flattening an acyclic graph's path returns the cycle error). Proved: every success is the full expansion, contains no shortcut, keeps route and costs; the exact condition of success on built graphs (C21_succeeds_iff), and that flattening ends with success or with the cycle-error if shortcuts are acyclic (C21_outcome)"
  },
  {
   "property": "C22",
   "status": "partial",
   "theorems": [
    "Verif.Path.C22_outcome",
    "Verif.Path.C22_first_again",
    "Verif.Path.C22_cyclic_never_ok",
    "Verif.Path.C22_false_diverges",
    "Verif.Path.C22_first_chain_partial"
   ],
   "note": "False as stated: some cyclic references never hit the check, and flattening never ends (C22_false_diverges). C22_outcome says for every built graph and every path what happens: the error about cycles, success, or never ending, each with an exact condition. So the error is certain if the way through the cycle passes first edges of shortcuts again and again (C22_first_again, C22_first_chain_partial). There is never a success with a cyclic edge (C22_cyclic_never_ok)."
  },
  {
   "property": "C23",
   "status": "proved",
   "theorems": [
    "Verif.Path.C23_calc_costs",
    "Verif.Path.C23_panic",
    "Verif.Path.C23_concat",
    "Verif.Path.C23_cached"
   ],
   "note": "all paths; panic exactly on unknown edges; caching made explicit"
  },
  {
   "property": "C24",
   "status": "proved",
   "theorems": [
    "Verif.Approx.C24_eq_iff",
    "Verif.Approx.C24_eq_refl",
    "Verif.Approx.C24_eq_symm",
    "Verif.Approx.C24_cmp_spec",
    "Verif.Approx.C24_cmp_swap",
    "Verif.Approx.C24_cmp_exact",
    "Verif.Approx.C24_le_of_le",
    "Verif.Approx.C24_le_iff",
    "Verif.Approx.C24_option",
    "Verif.Approx.C24_coord"
   ],
   "note": "exact arithmetic on rationals"
  },
  {
   "property": "C25",
   "status": "partial",
   "theorems": [
    "Verif.Approx.C25_false_eq_not_transitive",
    "Verif.Approx.C25_false_le_not_transitive",
    "Verif.Approx.C25_grid_partial"
   ],
   "note": "false (two witnesses); C25_grid_partial: transitive for values on a grid of at least 1.5e-6"
  },
  {
   "property": "C26",
   "status": "partial",
   "theorems": [
    "Verif.Approx.C26_eqSlice_iff",
    "Verif.Approx.C26_leSlice_iff",
    "Verif.Approx.C26_geSlice",
    "Verif.Approx.C26_partialCmp_iff",
    "Verif.Approx.C26_false_different_dim",
    "Verif.Approx.C26_false_empty",
    "Verif.Path.C26_vle"
   ],
   "note": "equality/le/ge characterised; false for different dimensions and for empty vectors (witnesses)"
  },
  {
   "property": "C27",
   "status": "proved",
   "theorems": [
    "Verif.Fmi.C27_written",
    "Verif.Gen.C27_succeeds_iff",
    "Verif.Gen.C27_means",
    "Verif.Gen.C27_values",
    "Verif.Gen.C27_mean_one",
    "Verif.Gen.C27_off"
   ],
   "note": "Means, normalized values and the mean one are exact (f64 as rationals); C27_written: the writer restores the original value unless the normalized value has been lifted to 1e-6."
  },
  {
   "property": "C28",
   "status": "partial",
   "theorems": [
    "Verif.Fmi.C28_writes",
    "Verif.Fmi.C28_reads",
    "Verif.Fmi.C28_same_graph",
    "Verif.Fmi.C28_false_lifted",
    "Verif.Fmi.C28_false_no_id",
    "Verif.Fmi.C28_false_node_ids"
   ],
   "note": "Proved: writing succeeds if everything is available (C28_writes), reading yields the written records as far as there are columns (C28_reads), and with all columns the same graph including the configuration (C28_same_graph). Needs exact float texts (Codec.Exact), unique ids and no neighbouring duplicates. False without: C28_false_lifted (an edge gets lost), C28_false_no_id (panic), C28_false_node_ids (ids of node columns aren't checked)."
  },
  {
   "property": "C29",
   "status": "proved",
   "theorems": [
    "Verif.Fmi.C29_counts"
   ],
   "note": "All three counts, with and without shortcuts."
  },
  {
   "property": "C30",
   "status": "partial",
   "theorems": [
    "Verif.Fmi.C30_edges_partial",
    "Verif.Fmi.C30_csv_partial",
    "Verif.Fmi.C30_nodes",
    "Verif.Fmi.C30_words",
    "Verif.Fmi.C30_false_dst"
   ],
   "note": "Proved for all columns of nodes and all columns of edges but the destination's coordinates, in maps and csv-files. False for DstLat/DstLon: the source's coordinates are written (C30_false_dst)."
  },
  {
   "property": "C31",
   "status": "proved",
   "theorems": [
    "Verif.Osm.C31_direction",
    "Verif.Osm.C31_way",
    "Verif.Osm.C31_unusable",
    "Verif.Osm.C31_file",
    "Verif.Osm.C31_metrics",
    "Verif.Osm.C31_graph",
    "Verif.Osm.C31_false_true"
   ],
   "note": "exact edge list of every way for every value of the oneway-tag, every file, and the parsed graph; C31_false_true notes that the OSM-value true is not understood (no part of the claim)"
  },
  {
   "property": "C32",
   "status": "partial",
   "theorems": [
    "Verif.Osm.C32_picky",
    "Verif.Osm.C32_roundtrip_partial",
    "Verif.Osm.C32_roundtrip_way",
    "Verif.Osm.C32_false_display",
    "Verif.Osm.C32_display_injective",
    "Verif.Osm.C32_speed",
    "Verif.Osm.C32_numeric_speed",
    "Verif.Osm.C32_default_speed"
   ],
   "note": "picky and speeds proved; the round-trip holds only with the prefix highway: (C32_false_display)"
  },
  {
   "property": "C33",
   "status": "partial",
   "theorems": [
    "Verif.Osm.C33_access_partial",
    "Verif.Osm.C33_speed",
    "Verif.Osm.C33_false_service",
    "Verif.Osm.C33_false_road"
   ],
   "note": "false for Service (car) and Road (witnesses); proved that these are the only differences"
  },
  {
   "property": "C34",
   "status": "partial",
   "theorems": [
    "Verif.Routes.C34_round_trip",
    "Verif.Routes.C34_written",
    "Verif.Routes.C34_takes_partial",
    "Verif.Routes.C34_false_cut_off",
    "Verif.Routes.C34_false_huge"
   ],
   "note": "Round trip proved for every list of pairs of 64-bit ids; announced lines are exactly what is read if the file has them. Cut-off files and huge announcements violate the claim (C34_false_*)."
  },
  {
   "property": "C35",
   "status": "partial",
   "theorems": [
    "Verif.Routes.C35_all",
    "Verif.Routes.C35_all_ch",
    "Verif.Routes.C35_false_two_nodes",
    "Verif.Routes.C35_false_empty"
   ],
   "note": "Proved for every run that answers, for both kinds of search. Graphs of two nodes and of no node panic (C35_false_*)."
  },
  {
   "property": "C36",
   "status": "proved",
   "theorems": [
    "Verif.Routes.C36_sound",
    "Verif.Routes.C36_terminates",
    "Verif.Routes.C36_writes"
   ],
   "note": "Soundness for every random sequence, termination, and existence of an answer."
  },
  {
   "property": "C37",
   "status": "partial",
   "theorems": [
    "Verif.Par.C37_terminates",
    "Verif.Par.C37_progress",
    "Verif.Par.C37_every_pair_once",
    "Verif.Par.C37_dijkstra_partial",
    "Verif.Par.C37_flattens_plain",
    "Verif.Par.C37_flattens_built",
    "Verif.Par.C37_false_no_thread",
    "Verif.Par.C37_false_unknown_node",
    "Verif.Par.C37_false_count_zero"
   ],
   "note": "Transition system of master, workers and channels; holds for every schedule, every number of threads >= 1 and every work-size setting. Proved for any worker that answers every chunk, and instantiated with the Dijkstra and ch-dijkstra workers. Partial: the instance needs accessible nodes, a node-count other than two, known ids, counts >= 1, and flattenable answers. C37_false_*: no threads, unknown node, or count zero make route-pairs disappear while the balancer reports success. The explorator is not part of the instance."
  },
  {
   "property": "C38",
   "status": "proved",
   "theorems": [
    "Verif.Par.C38_in_range",
    "Verif.Par.C38_defaults",
    "Verif.Par.C38_system",
    "Verif.Par.C38_false_constants"
   ],
   "note": "For every history of receives and in every reachable state of the transition system. C38_false_constants shows that the range of the constants matters; those of the code are fine."
  },
  {
   "property": "C39",
   "status": "partial",
   "theorems": [
    "Verif.Par.C39_incremental_partial",
    "Verif.Par.C39_chunking",
    "Verif.Par.C39_false_missing",
    "Verif.Par.C39_false_balancer",
    "Verif.Par.C39_system"
   ],
   "note": "Equal for every division into outcomes, provided every route-pair reports a number. C39_false_missing and C39_false_balancer: if some pair has no path, Dijkstra-workers report nothing for it and the result depends on chunks and order. Exact rationals instead of f64."
  },
  {
   "property": "C40",
   "status": "partial",
   "theorems": [
    "Verif.Bal.C40_untouched",
    "Verif.Bal.C40_errors",
    "Verif.Bal.C40_values",
    "Verif.Bal.C40_mean_one",
    "Verif.Bal.C40_positive_min",
    "Verif.Bal.C40_positive_flag",
    "Verif.Bal.C40_nonneg",
    "Verif.Bal.C40_succeeds_iff",
    "Verif.Bal.C40_sparse",
    "Verif.Bal.C40_false_negative",
    "Verif.Bal.C40_false_nan"
   ],
   "note": "Values, mean one, untouched rest, positivity, success and errors are proved for all inputs. Without a minimum and without the error flag, a correction above one gives negative values (C40_false_negative); without edges NaN is stored as mean (C40_false_nan)."
  },
  {
   "property": "C41",
   "status": "partial",
   "theorems": [
    "Verif.Cfg.C41_same",
    "Verif.Cfg.C41_physical",
    "Verif.Cfg.C41_incompatible",
    "Verif.Cfg.C41_roundtrip",
    "Verif.Cfg.C41_compose_partial",
    "Verif.Cfg.C41_false_compose",
    "Verif.Cfg.C41_calc",
    "Verif.Cfg.C41_calc_physical"
   ],
   "note": "everything proved except that composition is false if F64 is involved (C41_false_compose); try_calc is physically correct"
  },
  {
   "property": "C42",
   "status": "proved",
   "theorems": [
    "Verif.Cfg.C42_routing",
    "Verif.Cfg.C42_unknown",
    "Verif.Cfg.C42_entry_defaults",
    "Verif.Cfg.C42_entry_tolerance"
   ],
   "note": "exact vectors, unknown metric is an error, defaults of entries"
  },
  {
   "property": "C43",
   "status": "partial",
   "theorems": [
    "Verif.Cfg.C43_parsed",
    "Verif.Cfg.C43_lookup",
    "Verif.Gen.C43_generated",
    "Verif.Gen.C43_fresh",
    "Verif.Gen.C43_false_generated",
    "Verif.Gen.C43_false_convert"
   ],
   "note": "Proved for parsed configs; for generated ones the ids are unique exactly if the generated ids are distinct (no conversion), resp. if introduced ids are new. False in general: C43_false_generated, C43_false_convert."
  },
  {
   "property": "C44",
   "status": "proved",
   "theorems": [
    "Verif.Gen.C44_ids",
    "Verif.Gen.C44_kept"
   ],
   "note": "Both directions: generated ids equal indices and lookups agree; without generation the ids are kept."
  },
  {
   "property": "C45",
   "status": "proved",
   "theorems": [
    "Verif.Gen.C45_untouched",
    "Verif.Gen.C45_last_wins",
    "Verif.Gen.C45_known",
    "Verif.Gen.C45_only_metrics"
   ],
   "note": "Proved for merge steps on usable graphs with distinct metric-ids; str::parse for f64 is a parameter."
  },
  {
   "property": "C46",
   "status": "partial",
   "theorems": [
    "Verif.Exp.C46_route",
    "Verif.Exp.C46_found",
    "Verif.Exp.C46_tolerated",
    "Verif.Exp.C46_within",
    "Verif.Exp.C46_within_code_partial",
    "Verif.Exp.C46_preferred",
    "Verif.Exp.C46_complete",
    "Verif.Exp.C46_no_panic",
    "Verif.Exp.C46_false_unsound",
    "Verif.Exp.C46_false_twins",
    "Verif.Exp.C46_false_cells"
   ],
   "note": "Routes, costs and being found by the router hold for every triangulation and solver. The tolerances hold up to the accuracy of Approx and if the triangulation gives an id again only for the same coordinates; without that it is false (C46_false_unsound). No panic is proved for regular triangulations; C46_false_twins and C46_false_cells show panics otherwise."
  },
  {
   "property": "C47",
   "status": "partial",
   "theorems": [
    "Verif.Exp.C47_combinations",
    "Verif.Exp.C47_units",
    "Verif.Exp.C47_total",
    "Verif.Exp.C47_false_dim",
    "Verif.Exp.C47_tolerances"
   ],
   "note": "Proved for less than 32 metrics; from 32 metrics on, the code panics (C47_false_dim). The tolerance is the scale times the cost of the path answered for this metric alone, which is the optimum if the router is exact, see C14 and C46_within."
  },
  {
   "property": "C48",
   "status": "partial",
   "theorems": [
    "Verif.Matrix.C48_created",
    "Verif.Matrix.C48_empty",
    "Verif.Matrix.C48_linear",
    "Verif.Matrix.C48_square_partial",
    "Verif.Matrix.C48_false_shape"
   ],
   "note": "Proved for square matrices and first columns; for every other shape it is false (C48_false_shape)."
  },
  {
   "property": "C49",
   "status": "partial",
   "theorems": [
    "Verif.Fmi.C49_edge_partial",
    "Verif.Fmi.C49_edge_panics",
    "Verif.Fmi.C49_edge_ascii",
    "Verif.Fmi.C49_false_edge_id",
    "Verif.Fmi.C49_false_edge_utf8",
    "Verif.Fmi.C49_node_partial",
    "Verif.Fmi.C49_node_long",
    "Verif.Fmi.C49_false_node",
    "Verif.Fmi.C49_read_partial",
    "Verif.Fmi.C49_read_safe"
   ],
   "note": "False: C49_false_edge_id, C49_false_edge_utf8, C49_false_node. Proved: these are the only reasons (C49_edge_partial, C49_node_partial, C49_read_partial), and configurations for which parsing never panics (C49_read_safe)."
  },
  {
   "property": "C50",
   "status": "partial",
   "theorems": [
    "Verif.Fmi.C50_fmi",
    "Verif.Fmi.C50_fmi_insert",
    "Verif.Fmi.C50_merge",
    "Verif.Fmi.C50_false_blank",
    "Verif.Routes.C50_routes"
   ],
   "note": "Proved for comments and empty lines in maps, merged files and route files. False for lines of white space only (C50_false_blank)."
  },
  {
   "property": "C51",
   "status": "proved",
   "theorems": [
    "Verif.Smarts.C51_vehicle",
    "Verif.Smarts.C51_empty",
    "Verif.Smarts.C51_file",
    "Verif.Smarts.C51_readable"
   ],
   "note": "For paths whose edges connect their ends; a path without edges has no node line (C51_empty)."
  },
  {
   "property": "C52",
   "status": "partial",
   "theorems": [
    "Verif.Gen.C52_dims",
    "Verif.Gen.C52_too_many_iff",
    "Verif.Gen.C52_shortcuts",
    "Verif.Cfg.C52_check_iff",
    "Verif.Cfg.C52_false_pair",
    "Verif.Cfg.C52_false_endpoints"
   ],
   "note": "exact condition proved, including that all generated metrics fit (C52_dims, C52_too_many_iff); two columns of the same shortcut side pass (C52_false_pair), missing endpoints pass (C52_false_endpoints)"
  },
  {
   "property": "C53",
   "status": "partial",
   "theorems": [
    "Verif.Osm.C53_oneway",
    "Verif.Osm.C53_highway_partial",
    "Verif.Osm.C53_maxspeed_partial",
    "Verif.Osm.C53_false_highway",
    "Verif.Osm.C53_false_maxspeed"
   ],
   "note": "proved for oneway; for highway and maxspeed with exceptions that are witnessed"
  },
  {
   "property": "C54",
   "status": "proved",
   "theorems": [
    "Verif.Gen.C54_topology",
    "Verif.Gen.C54_wellformed",
    "Verif.Gen.C54_dimension",
    "Verif.Gen.C54_start"
   ],
   "note": "C54_start links the parsed configuration and the built graph to the hypotheses."
  },
  {
   "property": "C55",
   "status": "proved",
   "theorems": [
    "Verif.Gen.C55_generated",
    "Verif.Gen.C55_kept",
    "Verif.Gen.C55_converted"
   ],
   "note": "For sequences without conversion and merge the final values are proved; a conversion is proved as a single step; merging see C45."
  },
  {
   "property": "C56",
   "status": "partial",
   "theorems": [
    "Verif.Gen.C56_copy_partial",
    "Verif.Gen.C56_false_unit"
   ],
   "note": "False as stated (C56_false_unit): the unit named in the generating config is never compared with the metric's unit. Proved if both agree."
  },
  {
   "property": "C57",
   "status": "partial",
   "theorems": [
    "Verif.Build.C57_rebuild",
    "Verif.Build.C57_rebuild_ids",
    "Verif.Build.C57_rebuild_metrics",
    "Verif.Build.C57_false_lifted"
   ],
   "note": "Proved for records without neighbouring duplicates, also with changed metrics. False otherwise: C57_false_lifted (duplicates are searched for before metrics are lifted)."
  },
  {
   "property": "C58",
   "status": "partial",
   "theorems": [
    "Verif.Fmi.C58_values",
    "Verif.Fmi.C58_metrics",
    "Verif.Fmi.C58_false_header"
   ],
   "note": "Proved for external values (C58_values) and for metrics of a graph (C58_metrics). False if the first column's id begins with '#' (C58_false_header)."
  },
  {
   "property": "C59",
   "status": "partial",
   "theorems": [
    "Verif.Routes.C59_enough_partial",
    "Verif.Routes.C59_false_unlucky"
   ],
   "note": "False: attempts are limited (C59_false_unlucky). Proved if enough connected pairs are drawn."
  },
  {
   "property": "C60",
   "status": "partial",
   "theorems": [
    "Verif.Bal.C60_euler",
    "Verif.Bal.C60_averaging",
    "Verif.Bal.C60_false_min"
   ],
   "note": "Proved without a minimum; with a minimum it is false (C60_false_min). Only the updates are composed, not the files written between them."
  },
  {
   "property": "C61",
   "status": "proved",
   "theorems": [
    "Verif.Dij.C61_simple",
    "Verif.Dij.C61_length",
    "Verif.Dij.C61_rounded_partial"
   ],
   "note": "Exact arithmetic as in all models; C61_rounded_partial shows the weaker bound of 2n-2 edges for every arithmetic with monotone addition, e.g. rounding ones."
  },
  {
   "property": "C62",
   "status": "partial",
   "theorems": [
    "Verif.Dij.C62_flattened_partial",
    "Verif.Dij.C62_false_zero_alphas"
   ],
   "note": "Proved for exactly contracted graphs, a queue that pops the cheapest node, and positive weights. With zero alphas, the flattened route can visit a node twice (C62_false_zero_alphas)."
  },
  {
   "property": "C63",
   "status": "partial",
   "theorems": [
    "Verif.Exp.C63_distinct_partial",
    "Verif.Exp.C63_false_upper"
   ],
   "note": "Proved if ids are new, the solver solves and all cells belong to the lower convex hull. With the upper cells of a convex hull, known routes are returned twice or the explorator panics (C63_false_upper)."
  },
  {
   "property": "C64",
   "status": "partial",
   "theorems": [
    "Verif.Exp.C64_ends_partial",
    "Verif.Exp.C64_false_new_ids",
    "Verif.Exp.C64_terminates_partial"
   ],
   "note": "Proved under the assumptions of C63 and C46_no_panic; without the latter's, the exploration still ends, maybe by a panic (C64_terminates_partial). If a cell outside of the lower convex hull gets a new id in every iteration, the loop never ends (C64_false_new_ids)."
  },
  {
   "property": "C65",
   "status": "partial",
   "theorems": [
    "Verif.Par.C65_reuse_partial",
    "Verif.Par.C65_false_two_nodes",
    "Verif.Par.C65_false_smaller_graph"
   ],
   "note": "Proved if former graphs are not larger and the graph does not have exactly two nodes. Otherwise false: C65_false_two_nodes, C65_false_smaller_graph, see C17."
  },
  {
   "property": "C66",
   "status": "partial",
   "theorems": [
    "Verif.Par.C66_explorator_partial",
    "Verif.Par.C66_route",
    "Verif.Par.C66_flattens_plain",
    "Verif.Par.C66_false_schedule"
   ],
   "note": "Proved under the assumptions of C37 and C64. Which alternative routes are chosen depends on the schedule (C66_false_schedule)."
  },
  {
   "property": "C67",
   "status": "partial",
   "theorems": [
    "Verif.Dij.C67_weights",
    "Verif.Dij.C67_zero_alpha",
    "Verif.Dij.C67_false_explorator"
   ],
   "note": "Proved for the router. The explorator detects duplicates by the costs of all metrics, so a metric with alpha zero changes its answer (C67_false_explorator)."
  },
  {
   "property": "C68",
   "status": "partial",
   "theorems": [
    "Verif.Dij.C68_normalized_partial",
    "Verif.Dij.C68_false_lifted"
   ],
   "note": "Proved if no value is lifted to the accuracy and means are positive. Lifted values can change the best route (C68_false_lifted)."
  },
  {
   "property": "C69",
   "status": "partial",
   "theorems": [
    "Verif.Build.C69_near_code_partial",
    "Verif.Build.C69_chain",
    "Verif.Build.C69_none_iff",
    "Verif.Build.C69_near_cheapest",
    "Verif.Build.C69_cheapest",
    "Verif.Build.C69_cheapest_grid_partial",
    "Verif.Build.C69_cheapest_ch_partial",
    "Verif.Build.C69_false_duplicates"
   ],
   "note": "Chain and reachability hold for every queue. Cheapest is proved for exact comparison (C69_cheapest), for the code's queue if costs lie on a grid (C69_cheapest_grid_partial), and in general up to a stated slack (C69_near_cheapest, C69_near_code_partial). Without slack it is false (C69_false_duplicates)."
  },
  {
   "property": "C70",
   "status": "proved",
   "theorems": [
    "Verif.Osm.C70_streets",
    "Verif.Osm.C70_none_iff",
    "Verif.Osm.C70_minutes",
    "Verif.Osm.C70_every_drive",
    "Verif.Osm.C70_fastest",
    "Verif.Osm.C70_near_fastest"
   ],
   "note": "Composition of C31, C05, C54, C55 and C13/C14/C15: streets and directions, absence of answers, minutes of edges, every drive has its edge (speeds are whole numbers, so duplicates never mix speeds), fastest trip with an exact queue, bounded distance from it with the code's queue. Distances are those of an arbitrary non-negative function (haversine isn't modelled); normalization has to be off for the minutes."
  },
  {
   "property": "C71",
   "status": "proved",
   "theorems": [
    "Verif.Bal.C71_iteration",
    "Verif.Bal.C71_stored",
    "Verif.Bal.C71_failing",
    "Verif.Bal.C71_false_no_dimension",
    "Verif.Bal.C71_iterates",
    "Verif.Bal.C71_succeeds",
    "Verif.Bal.C71_average",
    "Verif.Bal.C71_false_stored_then_error"
   ],
   "note": "Files, contraction tool, routing-config and simulation are a parameter (World), whose stages may change a state, fail or panic; C97 puts documents and files in its place. C71_false_no_dimension: a configured dimension of zero panics in the first iteration. C71_false_stored_then_error: a run may fail although the balanced graph is already stored."
  },
  {
   "property": "C72",
   "status": "proved",
   "theorems": [
    "Verif.Par.C72_idle",
    "Verif.Bal.C72_unused",
    "Verif.Bal.C72_false_shortcuts"
   ],
   "note": "C72_idle for any worker; C72_false_shortcuts shows that the balancer cannot handle contracted graphs with averaging and its default settings."
  },
  {
   "property": "C73",
   "status": "proved",
   "theorems": [
    "Verif.Tool.C73_kept",
    "Verif.Tool.C73_succeeds_iff",
    "Verif.Tool.C73_interrupted",
    "Verif.Tool.C73_false_retry",
    "Verif.Tool.C73_false_late_collision",
    "Verif.Tool.C73_accepted"
   ],
   "note": "Parsing, queries, simulation and writers are parameters (World, Output), with the real writers as sample. For the balancer it is assumed that it keeps files. C73_false_retry: a failed writer leaves a file that blocks the next run. C73_false_late_collision: equal paths of an evaluation are only noticed after the simulation."
  },
  {
   "property": "C74",
   "status": "proved",
   "theorems": [
    "Verif.Session.C74_route_pairs",
    "Verif.Session.C74_pairs",
    "Verif.Session.C74_maps",
    "Verif.Tool.C74_extension",
    "Verif.Tool.C74_supported",
    "Verif.Tool.C74_osm_pbf",
    "Verif.Tool.C74_parser",
    "Verif.Tool.C74_written"
   ],
   "note": "Lower case of ASCII letters only (as in the code)."
  },
  {
   "property": "C75",
   "status": "proved",
   "theorems": [
    "Verif.Fp.C75_numbers",
    "Verif.Fp.C75_nearest"
   ],
   "note": "Unbounded exponents upwards, no infinity and no NaN. Ties to even are checked by examples."
  },
  {
   "property": "C76",
   "status": "partial",
   "theorems": [
    "Verif.Fp.C76_route",
    "Verif.Fp.C76_none_iff",
    "Verif.Fp.C76_terminates",
    "Verif.Fp.C76_near",
    "Verif.Fp.C76_near_up_down",
    "Verif.Fp.C76_f64_partial",
    "Verif.Fp.C76_f64_separated_partial",
    "Verif.Fp.C76_f64_up_down_partial",
    "Verif.Fp.C76_false_optimal"
   ],
   "note": "A cheapest route is not guaranteed, see C76_false_optimal. C76_near and C76_near_up_down give the bound for every rounding with a relative error. For overflow see C108. Metrics are arbitrary non-negative numbers, f64 in particular."
  },
  {
   "property": "C77",
   "status": "proved",
   "theorems": [
    "Verif.Fp.C77_exact",
    "Verif.Fp.C77_reuse",
    "Verif.Fp.C77_optimal",
    "Verif.Fp.C77_optimal_ch",
    "Verif.Fp.C77_false_all"
   ],
   "note": "C77_false_all shows that it is false without the condition on weights. Reused routers as in C17. Overflow cannot occur within the bound."
  },
  {
   "property": "C78",
   "status": "proved",
   "theorems": [
    "Verif.Build.C78_chunks",
    "Verif.Build.C78_bounded",
    "Verif.Build.C78_sizes",
    "Verif.Build.C78_finalize",
    "Verif.Build.C78_false_dim"
   ],
   "note": "C78_false_dim: compiled for a larger dimension, the loop would not end."
  },
  {
   "property": "C79",
   "status": "partial",
   "theorems": [
    "Verif.Exp.C79_skipped",
    "Verif.Exp.C79_small",
    "Verif.Exp.C79_asked",
    "Verif.Exp.C79_full",
    "Verif.Exp.C79_safe",
    "Verif.Exp.C79_false_strict"
   ],
   "note": "C79_full: a cell with one vertex too many leads to a query with all weights zero whose answer is never kept. C79_false_strict: skipping compares exactly although a route exceeding a tolerance slightly is tolerated, so tolerated routes can be lost. C79_safe covers two metrics only."
  },
  {
   "property": "C80",
   "status": "partial",
   "theorems": [
    "Verif.Exp.C80_found",
    "Verif.Exp.C80_every_weighting",
    "Verif.Exp.C80_every_weighting_partial",
    "Verif.Exp.C80_false_few"
   ],
   "note": "C80_false_few: the exploration starts only if more than two routes are known from the initial queries, so routes are missed otherwise; proved if more than two routes are returned or if the three initial queries have different answers. Exact comparison in the router; with the code's approximate comparison (C80_every_weighting_partial) only up to the error of the router and without scales. Plain Dijkstra on graphs with exactly two metrics."
  },
  {
   "property": "C81",
   "status": "partial",
   "theorems": [
    "Verif.Exp.C81_facets",
    "Verif.Exp.C81_facets_partial",
    "Verif.Exp.C81_false_best"
   ],
   "note": "The part about facets is proved (C81_facets). C81_false_best: with three metrics, a route that is best for positive weights by a clear margin is missed, since it lies below an edge of the hull but below no facet, although triangulation and solver are correct. With the code's approximate comparison (C81_facets_partial) only up to the error of the router. Plain Dijkstra; nothing is said if at most as many routes are found as metrics are considered."
  },
  {
   "property": "C82",
   "status": "proved",
   "theorems": [
    "Verif.Yml.C82_sections",
    "Verif.Yml.C82_missing"
   ],
   "note": "Documents have every upmost key once, as yaml demands."
  },
  {
   "property": "C83",
   "status": "partial",
   "theorems": [
    "Verif.Yml.C83_keys",
    "Verif.Yml.C83_keys_partial",
    "Verif.Yml.C83_false_pairs",
    "Verif.Yml.C83_false_parsing"
   ],
   "note": "Proved for balancing, evaluating, routing, multi-ch-constructor, graph and edges-info (C83_keys). For parsing only keys that don't belong to an element of a list, for route-pairs only the upmost keys (C83_keys_partial). The rest is false: a misspelt key in an element of a list (C83_false_parsing) or below random_or_all (C83_false_pairs) is ignored silently, and the default is taken. Known keys are those of the blueprint and of the configurations in resources."
  },
  {
   "property": "C84",
   "status": "proved",
   "theorems": [
    "Verif.Yml.C84_order"
   ],
   "note": ""
  },
  {
   "property": "C85",
   "status": "partial",
   "theorems": [
    "Verif.Yml.C85_multi_ch",
    "Verif.Yml.C85_writing",
    "Verif.Yml.C85_balancing",
    "Verif.Yml.C85_evaluating",
    "Verif.Yml.C85_routing",
    "Verif.Yml.C85_parsing",
    "Verif.Yml.C85_false_updates",
    "Verif.Yml.C85_null",
    "Verif.Yml.C85_tolerance"
   ],
   "note": "Proved for all sections (C85_multi_ch, C85_writing, C85_balancing, C85_evaluating, C85_routing, C85_parsing) for numbers that fit u64 with quoted texts. C85_false_updates: the largest number of updates is accepted but adding one panics. Infos without a name in yaml can't be written. An optional key without a value is like an omitted one (C85_null)."
  },
  {
   "property": "C86",
   "status": "partial",
   "theorems": [
    "Verif.Yml.C86_same",
    "Verif.Yml.C86_embedded_partial",
    "Verif.Yml.C86_false_ratio",
    "Verif.Yml.C86_false_id"
   ],
   "note": "From embedded to standalone is proved (C86_same). The converse holds if texts can't be taken for something else (C86_embedded_partial) and is false otherwise: contraction-ratio: 99.8 (C86_false_ratio) and id: 5 (C86_false_id) are accepted on their own only, since flattened sections are buffered. This depends on the modelled behaviour of serde's buffering."
  },
  {
   "property": "C87",
   "status": "partial",
   "theorems": [
    "Verif.Yml.C87_names_partial",
    "Verif.Yml.C87_false_vehicles",
    "Verif.Yml.C87_false_generating",
    "Verif.Yml.C87_false_explorator"
   ],
   "note": "C87_names_partial lists the accepted names. False: both keys of vehicles have a documented default but are required (C87_false_vehicles); generated CHLevel, ShortcutIdx0 and ShortcutIdx1 are rejected (C87_false_generating); the algorithm 'Explorator' is rejected as a mere name (C87_false_explorator). Texts and numbers of the blueprint are not part of the statement."
  },
  {
   "property": "C88",
   "status": "partial",
   "theorems": [
    "Verif.Yml.C88_command_partial",
    "Verif.Yml.C88_command",
    "Verif.Yml.C88_false_empty",
    "Verif.Yml.C88_build",
    "Verif.Yml.C88_min_cost"
   ],
   "note": "C88_command if both flags are set, C88_command_partial up to empty arguments, C88_build, C88_min_cost. C88_false_empty: a flag that isn't set is passed as an empty argument. How the external program treats it is not modelled."
  },
  {
   "property": "C89",
   "status": "partial",
   "theorems": [
    "Verif.Session.C89_explores_partial",
    "Verif.Session.C89_explorator_terminates_partial",
    "Verif.Session.C89_determined",
    "Verif.Session.C89_append",
    "Verif.Session.C89_independent",
    "Verif.Session.C89_unknown",
    "Verif.Session.C89_two_nodes",
    "Verif.Session.C89_finishes_partial",
    "Verif.Session.C89_terminates",
    "Verif.Session.C89_false_uncovered",
    "Verif.Session.C89_false_two_nodes"
   ],
   "note": "Independence and order of the reports are shown for all algorithms and graphs. Finishing is false on graphs with exactly two nodes (C89_false_two_nodes, C89_two_nodes) and if no edge leads from or to the last node (C89_false_uncovered). Termination is shown for Dijkstra, and for the explorator if the hull's cells are as assumed in C63 (C89_explores_partial, C89_explorator_terminates_partial)."
  },
  {
   "property": "C90",
   "status": "partial",
   "theorems": [
    "Verif.Session.C90_truthful",
    "Verif.Session.C90_explored",
    "Verif.Session.C90_near_partial",
    "Verif.Session.C90_cheapest_partial",
    "Verif.Session.C90_false_negative",
    "Verif.Session.C90_false_limits"
   ],
   "note": "Costs are exact for the comparison with other routes, and optimality holds up to a slack (C90_near_partial), or exactly if lines and their costs differ enough (C90_cheapest_partial), see C14 and C69. The claim is false with negative alphas (C90_false_negative) and with tolerated scales that are too small (C90_false_limits): `No path` is logged although there are routes."
  },
  {
   "property": "C91",
   "status": "partial",
   "theorems": [
    "Verif.Build.C91_chain",
    "Verif.Build.C91_none_iff",
    "Verif.Build.C91_none_iff_plain",
    "Verif.Build.C91_cheapest",
    "Verif.Build.C91_cheapest_grid_partial",
    "Verif.Build.C91_near_partial",
    "Verif.Build.C91_flatten_ends",
    "Verif.Build.C91_flattens",
    "Verif.Build.C91_flattens_grid_partial",
    "Verif.Build.C91_false_zero",
    "Verif.Build.C91_false_twice",
    "Verif.Build.C91_false_valley"
   ],
   "note": "With exact comparison it is proved (C91_none_iff, C91_none_iff_plain, C91_chain, C91_cheapest, C91_flattens); with the code's comparison, optimality and success of flattening are proved for costs on a grid, optimality otherwise up to a slack. Findings: values around zero are lifted to 1e-6, so a shortcut over them becomes cheaper than its edges and the flattened path may be worse than a direct edge (C91_false_zero); removing duplicates may turn acyclic shortcuts into cyclic ones, then flattening runs forever (C91_false_twice); without contraction existing paths are denied (C91_false_valley)."
  },
  {
   "property": "C92",
   "status": "partial",
   "theorems": [
    "Verif.Session.C92_explored",
    "Verif.Session.C92_false_forever",
    "Verif.Session.C92_truthful",
    "Verif.Session.C92_dijkstra",
    "Verif.Session.C92_terminates",
    "Verif.Session.C92_cheapest_partial",
    "Verif.Session.C92_near_partial",
    "Verif.Session.C92_finishes_partial"
   ],
   "note": "Truth about existence and costs is proved without conditions on costs (C92_truthful, C92_dijkstra; C92_explored for the explorator above ch-dijkstra, which logs routes without flattening them). Optimality is proved for costs on a grid (C92_cheapest_partial) or up to a slack (C92_near_partial), see C91. Termination needs positive costs and shortcuts that are not cheaper than their lines; with a loop of length zero it is false (C92_false_forever: the tool never answers). Finishing is shown on a grid, for covered nodes that are not exactly two (C92_finishes_partial), see C89."
  },
  {
   "property": "C93",
   "status": "partial",
   "theorems": [
    "Verif.Session.C93_truthful",
    "Verif.Session.C93_terminates",
    "Verif.Session.C93_finishes_partial",
    "Verif.Session.C93_fastest",
    "Verif.Session.C93_near_fastest_partial",
    "Verif.Session.C93_false_dead_end"
   ],
   "note": "Truth about existence, minutes and kilometers is proved for every queue and rounded weights (C93_truthful), as is termination (C93_terminates). Optimality is proved with exact comparison (C93_fastest), with the code's comparison up to a slack (C93_near_fastest_partial). Finishing needs more than two nodes and streets to and from each (C93_finishes_partial): finding: if no street leads to the destination, the tool may panic instead of logging `No path` (C93_false_dead_end)."
  },
  {
   "property": "C94",
   "status": "proved",
   "theorems": [
    "Verif.Session.C94_same_reports",
    "Verif.Session.C94_truthful",
    "Verif.Session.C94_rejected",
    "Verif.Session.C94_false_zero"
   ],
   "note": "Same reports for every fuel, queue and algorithm (C94_same_reports), hence true of streets (C94_truthful). The hypothesis on metrics is needed; finding: a generated zero, e.g. the length of an edge between nodes at one place, is kept by the graph but read from the exported map as 1e-6 (C94_false_zero). C94_rejected: a document with a wrong parsing-section is an error, and nothing is written."
  },
  {
   "property": "C95",
   "status": "proved",
   "theorems": [
    "Verif.Session.C95_answered",
    "Verif.Session.C95_false_extension",
    "Verif.Session.C95_false_explorator"
   ],
   "note": "Holds for every draw, queue and arithmetic, if the file is named *.route-pairs. Findings: writing takes any extension, but routing refuses the file then (C95_false_extension); if the explorator is configured, writing panics and an incomplete file remains, which prevents the next attempt (C95_false_explorator)."
  },
  {
   "property": "C96",
   "status": "proved",
   "theorems": [
    "Verif.Session.C96_simulated",
    "Verif.Session.C96_workloads",
    "Verif.Session.C96_false_no_thread",
    "Verif.Session.C96_false_count_zero",
    "Verif.Session.C96_false_unknown_node",
    "Verif.Session.C96_false_no_edge_id"
   ],
   "note": "Exact arithmetic; at least one thread, counts of at least one, no map of exactly two nodes, and alternatives of the explorator can be unpacked. Findings: without threads, the tool succeeds and writes workloads of zero (C96_false_no_thread); a count of zero or an unknown node lets a worker panic silently, and the tool succeeds with missing workloads (C96_false_count_zero, C96_false_unknown_node); without edge-ids, the workloads are refused only after the whole simulation (C96_false_no_edge_id)."
  },
  {
   "property": "C97",
   "status": "proved",
   "theorems": [
    "Verif.Session.C97_outside",
    "Verif.Session.C97_stored",
    "Verif.Session.C97_rejected",
    "Verif.Session.C97_false_absolute",
    "Verif.Session.C97_false_no_generating",
    "Verif.Session.C97_false_late"
   ],
   "note": "Paths are compared as texts (no links, no `..`), and the external programs read and write nothing but both graphs. Findings: an absolute path for the iterations' maps is written outside of the run's directory, and the second iteration fails since the file exists (C97_false_absolute); without a section for generating, which is optional elsewhere, the balancer panics after the whole contraction (C97_false_no_generating); a column of the balanced map that the iterations don't keep is noticed only after all updates, when the run fails (C97_false_late)."
  },
  {
   "property": "C98",
   "status": "partial",
   "theorems": [
    "Verif.Bal.C98_monotone",
    "Verif.Bal.C98_weights",
    "Verif.Bal.C98_average_partial",
    "Verif.Bal.C98_all_used",
    "Verif.Bal.C98_false_average",
    "Verif.Bal.C98_false_mean",
    "Verif.Bal.C98_false_zero"
   ],
   "note": "Streets are told apart by ids; values are assumed to be taken over by the contraction, in C98_monotone up to any monotone rounding. The average of relative workloads (C98_average_partial) holds if metrics have a mean of one when they are read. False with shortcuts: the mean is taken over shortcuts as well, which have no workload but a metric, so the stored metric isn't proportional to the average workloads (C98_false_average: 5 to 2 instead of 2 to 1) and its mean over streets isn't one (C98_false_mean). Furthermore, by averaging without a minimum, every edge has to be used in the first iteration (C98_all_used), which shortcuts never are; as zeros are errors by default, the balancer then always fails if there is a shortcut (C98_false_zero)."
  },
  {
   "property": "C99",
   "status": "proved",
   "theorems": [
    "Verif.Fit.C99_columns",
    "Verif.Fit.C99_any_map",
    "Verif.Fit.C99_routing"
   ],
   "note": "About the columns: their categories, units, names and whether they are normalized. A map that cannot be loaded has none."
  },
  {
   "property": "C100",
   "status": "partial",
   "theorems": [
    "Verif.Fit.C100_shipped_partial",
    "Verif.Fit.C100_all",
    "Verif.Fit.C100_any_map",
    "Verif.Fit.C100_iterations",
    "Verif.Fit.C100_merged",
    "Verif.Fit.C100_chain",
    "Verif.Fit.C100_false_normalized",
    "Verif.Fit.C100_false_balancing",
    "Verif.Fit.C100_false_export"
   ],
   "note": "Proved for 33 of 36 documents (C100_shipped_partial, C100_all). False for three: simple_stuttgart/normalized_fmi.yaml has a section for routing without an algorithm, though one is needed (C100_false_normalized); stuttgart-regbez/balancing/config.yaml has the form of an older version (C100_false_balancing); stuttgart-regbez/pbf_to_fmi.yaml lists columns of edges without `ids` (C100_false_export). Each is accepted after the correction named in the theorem. The documents have been translated to Lean by a script; that the translation is right is trusted."
  },
  {
   "property": "C101",
   "status": "proved",
   "theorems": [
    "Verif.Tests.C101_graphs",
    "Verif.Tests.C101_routes",
    "Verif.Tests.C101_ch",
    "Verif.Tests.C101_sections",
    "Verif.Tests.C101_asdf",
    "Verif.Tests.C101_example"
   ],
   "note": "Expectations, maps and documents are translated by scripts. Tests on maps in pbf-format and tests that are ignored by default are not part of it. Equality of coordinates and metrics is that of the tests, up to the tolerance of the code."
  },
  {
   "property": "C102",
   "status": "partial",
   "theorems": [
    "Verif.Tests.C102_pairs_partial",
    "Verif.Tests.C102_false_self"
   ],
   "note": "False: the files contain pairs of a node and itself, which the tool does not write, so all four files differ from what is written (C102_false_self). Without those pairs, and with the number of routes adapted, the written lines are the shipped ones (C102_pairs_partial). Only the configuration of simple_stuttgart has a section for routing, though the tool needs one to write route-pairs; here it is the one of the tests."
  },
  {
   "property": "C103",
   "status": "partial",
   "theorems": [
    "Verif.Vis.C103_streets_partial",
    "Verif.Vis.C103_workloads",
    "Verif.Vis.C103_deltas",
    "Verif.Vis.C103_max",
    "Verif.Vis.C103_ids",
    "Verif.Vis.C103_false_middle",
    "Verif.Vis.C103_balancing",
    "Verif.Vis.C103_evaluating"
   ],
   "note": "False for the position: the writer writes the source's coordinates into the columns for the destination (see C30), so every street is shown where it begins (C103_false_middle); that is what C103_streets_partial proves, besides lengths and lanes. Everything else is proved (C103_workloads, C103_deltas, C103_max, C103_balancing, C103_evaluating). Python's csv-reader is modelled without quotation marks, and its float is assumed to read what Rust prints."
  },
  {
   "property": "C104",
   "status": "partial",
   "theorems": [
    "Verif.Norm.C104_without_centre",
    "Verif.Norm.C104_with_centre",
    "Verif.Norm.C104_centre_at_limit",
    "Verif.Norm.C104_errors",
    "Verif.Norm.C104_range_partial",
    "Verif.Norm.C104_false_range"
   ],
   "note": "False with a centre: the interpolated value is multiplied by 2 before the logarithm is taken, so for every base and all limits, the largest value is mapped above 1 and the smallest one below 0 (C104_false_range). C104_range_partial proves which values are mapped to [0, 1], namely those in the inner half of each side. Everything else is proved. Numbers are real numbers."
  },
  {
   "property": "C105",
   "status": "partial",
   "theorems": [
    "Verif.Cmd.C105_accepted_iff",
    "Verif.Cmd.C105_order",
    "Verif.Cmd.C105_documented",
    "Verif.Cmd.C105_false_script"
   ],
   "note": "False for one script: scripts/rebuild_route-pairs.bash asks for --writing-routes, which doesn't exist, after having removed the old route-pairs (C105_false_script, for every config-file). Everything else is proved. clap's parser is modelled from its documentation."
  },
  {
   "property": "C106",
   "status": "partial",
   "theorems": [
    "Verif.Session.C106_load_partial",
    "Verif.Session.C106_reports_partial",
    "Verif.Build.C106_order_partial",
    "Verif.Build.C106_false_parallel"
   ],
   "note": "Proved for maps without shortcuts in which edges with the same ends and id are the same (C106_order_partial); for files, different lines lead between different nodes (C106_load_partial), and so the tool's reports are the same (C106_reports_partial). False for parallel edges: of three edges whose metrics differ by 1e-6 each, one or two are kept, depending on the order (C106_false_parallel), because being duplicates up to a tolerance isn't transitive. Shortcuts refer to lines by number, hence their order can't be arbitrary."
  },
  {
   "property": "C107",
   "status": "partial",
   "theorems": [
    "Verif.Build.C107_layout",
    "Verif.Build.C107_order_partial",
    "Verif.Build.C107_false_order",
    "Verif.Build.C107_offsets_iff",
    "Verif.Build.C107_example",
    "Verif.Build.C107_table"
   ],
   "note": "C107_layout holds of every built graph and C107_example, C107_table confirm the documented arrays for every order of insertion. The documented order is false with levels, as the level of the reached node takes precedence (C107_false_order); it is true without levels (C107_order_partial). The documented additional offset exists iff the last node is left by an edge (C107_offsets_iff)."
  },
  {
   "property": "C108",
   "status": "partial",
   "theorems": [
    "Verif.Over.C108_route",
    "Verif.Over.C108_none_iff",
    "Verif.Over.C108_none_iff_up_down",
    "Verif.Over.C108_terminates",
    "Verif.Over.C108_no_panic",
    "Verif.Over.C108_same",
    "Verif.Over.C108_none_iff_partial",
    "Verif.Over.C108_near_partial",
    "Verif.Over.C108_near_up_down_partial",
    "Verif.Over.C108_compare",
    "Verif.Over.C108_false_none",
    "Verif.Over.C108_false_cheapest"
   ],
   "note": "With metrics up to 2^400, everything is as without overflow (C108_same), so no path iff no route (C108_none_iff_partial) and nearly cheapest paths (C108_near_partial, C108_near_up_down_partial, see C76). In general, C108_route, C108_terminates, C108_no_panic, C108_compare hold, and C108_none_iff and C108_none_iff_up_down tell exactly when there is no path: iff no route can be split into two parts of finite cost. The last sentence is false: a route may exist although none is found (C108_false_none), and of two routes with infinite costs, the first one is kept (C108_false_cheapest). All of this holds for routers with any history and graphs of any size, except for C108_no_panic and C108_same: the former excludes graphs of two nodes and routers used on larger graphs, see C17, the latter graphs of two nodes. For infinite or undefined metrics see C109. For such alphas see C110. Costs of paths are not modelled; they may be infinite, too."
  },
  {
   "property": "C109",
   "status": "partial",
   "theorems": [
    "Verif.Special.C109_route",
    "Verif.Special.C109_none_iff",
    "Verif.Special.C109_none_iff_up_down",
    "Verif.Special.C109_length",
    "Verif.Special.C109_near",
    "Verif.Special.C109_near_up_down",
    "Verif.Special.C109_terminates",
    "Verif.Special.C109_no_panic",
    "Verif.Special.C109_finite",
    "Verif.Special.C109_load",
    "Verif.Special.C109_loaded",
    "Verif.Special.C109_duplicates",
    "Verif.Special.C109_duplicates_finite",
    "Verif.Special.C109_calc",
    "Verif.Special.C109_normalize_finite",
    "Verif.Special.C109_nan_column",
    "Verif.Special.C109_inf_column",
    "Verif.Special.C109_undefined",
    "Verif.Special.C109_undefined_none",
    "Verif.Special.C109_false_normalized",
    "Verif.Special.C109_false_inf",
    "Verif.Special.C109_false_calc"
   ],
   "note": "C109_load, C109_loaded, C109_duplicates and C109_calc tell which values occur; C109_finite, C109_normalize_finite, C109_duplicates_finite tie the model to those of finite numbers. C109_route, C109_none_iff, C109_none_iff_up_down (finite values and alphas up to 2^400, see C108), C109_near, C109_near_up_down (up to 2^28 nodes and metrics), C109_length, C109_terminates, C109_no_panic hold for the values the router gets. The last sentence is false: when normalizing, one undefined value makes all edges unusable (C109_nan_column, C109_undefined, C109_undefined_none, witness C109_false_normalized), and one infinite value makes all finite ones the same (C109_inf_column, witness C109_false_inf). Such values are never rejected, and generating creates them (C109_false_calc). C109_no_panic excludes graphs of two nodes and routers used on larger graphs, see C17."
  },
  {
   "property": "C110",
   "status": "proved",
   "theorems": [
    "Verif.Special.C110_route",
    "Verif.Special.C110_self",
    "Verif.Special.C110_not_finite",
    "Verif.Special.C110_below",
    "Verif.Special.C110_finite",
    "Verif.Special.C110_terminates",
    "Verif.Special.C110_no_panic"
   ],
   "note": "C110_route, C110_self, C110_not_finite, C110_below, C110_terminates and C110_no_panic; C110_finite ties the router to that of C109. There are as many weights as metrics. C110_no_panic excludes graphs with two nodes, see C17. Reading such weights from yaml is not modelled."
  },
  {
   "property": "C111",
   "status": "partial",
   "theorems": [
    "Verif.Desc.C111_describe_partial",
    "Verif.Desc.C111_panic_iff",
    "Verif.Desc.C111_false_panic"
   ],
   "note": "False if there are more than two nodes and no edge leaves, or no edge enters, one of the last two nodes: then printing panics (C111_false_panic), and never otherwise (C111_panic_iff). All other graphs are described correctly (C111_describe_partial). The text of a line and the printed config are not modelled."
  },
  {
   "property": "C112",
   "status": "partial",
   "theorems": [
    "Verif.Vis.C112_line",
    "Verif.Vis.C112_extremes",
    "Verif.Vis.C112_unique",
    "Verif.Vis.C112_lanes_partial",
    "Verif.Vis.C112_false_position",
    "Verif.Vis.C112_figures",
    "Verif.Vis.C112_figures_iff",
    "Verif.Vis.C112_run",
    "Verif.Vis.C112_run_iff",
    "Verif.Vis.C112_complete",
    "Verif.Vis.C112_written",
    "Verif.Vis.C112_false_run",
    "Verif.Vis.C112_false_dark"
   ],
   "note": "False if all streets of an iteration are used equally often: its histogram would have no bins, which numpy refuses (C112_false_run). In the dark style, also false if all workloads grow (C112_false_dark). C112_written and C112_run_iff tell exactly when the visualizer succeeds. If it does, figures are as stated (C112_run), except that lane-counts are rounded to get a position, so boxes can lie on each other (C112_false_position; C112_lanes_partial for integers). Drawing itself is not modelled; indices of quantiles are computed exactly."
  },
  {
   "property": "C113",
   "status": "proved",
   "theorems": [
    "Verif.BalF.C113_untouched",
    "Verif.BalF.C113_mean_one",
    "Verif.BalF.C113_nonneg",
    "Verif.BalF.C113_positive_min",
    "Verif.BalF.C113_positive_flag",
    "Verif.BalF.C113_values",
    "Verif.BalF.C113_total",
    "Verif.BalF.C113_errors",
    "Verif.BalF.C113_workloads",
    "Verif.BalF.C113_false_exact",
    "Verif.BalF.C113_false_size"
   ],
   "note": "Every operation is rounded as IEEE 754 does, and results that don't fit are not finite; what the program does with infinite numbers isn't modelled. The mean isn't exactly one (C113_false_exact), and huge old values overflow (C113_false_size)."
  },
  {
   "property": "C114",
   "status": "proved",
   "theorems": [
    "Verif.NormF.C114_total",
    "Verif.NormF.C114_off",
    "Verif.NormF.C114_untouched",
    "Verif.NormF.C114_means",
    "Verif.NormF.C114_values",
    "Verif.NormF.C114_positive",
    "Verif.NormF.C114_mean_one",
    "Verif.NormF.C114_written",
    "Verif.NormF.C114_false_order",
    "Verif.NormF.C114_false_size"
   ],
   "note": "Every operation is rounded as IEEE 754 does, and results that don't fit are not finite; what the program does with infinite numbers isn't modelled. Means aren't exact and depend on the order of edges (C114_false_order); sums of huge values overflow (C114_false_size)."
  },
  {
   "property": "C115",
   "status": "proved",
   "theorems": [
    "Verif.BalF.C115_run",
    "Verif.BalF.C115_total",
    "Verif.BalF.C115_values",
    "Verif.BalF.C115_averaging",
    "Verif.BalF.C115_false_exact"
   ],
   "note": "Only the updates are composed; the files written and read between them are left out (decimal texts of f64 are exact, see C28 and C94). Values aren't exact (C115_false_exact)."
  },
  {
   "property": "C116",
   "status": "proved",
   "theorems": [
    "Verif.PathF.C116_total",
    "Verif.PathF.C116_cached",
    "Verif.PathF.C116_cost",
    "Verif.PathF.C116_near",
    "Verif.PathF.C116_whole",
    "Verif.PathF.C116_order",
    "Verif.PathF.C116_grows",
    "Verif.PathF.C116_flatten_edges",
    "Verif.PathF.C116_flatten_costs",
    "Verif.PathF.C116_false_exact",
    "Verif.PathF.C116_false_flatten",
    "Verif.PathF.C116_false_strict",
    "Verif.PathF.C116_false_order",
    "Verif.PathF.C116_false_finite"
   ],
   "note": "Costs needn't be exact (C116_false_exact), flattening may change them although shortcuts are exact sums (C116_false_flatten), an edge of positive length needn't raise them (C116_false_strict), they depend on the order of edges (C116_false_order), and they may be infinite (C116_false_finite)."
  },
  {
   "property": "C117",
   "status": "proved",
   "theorems": [
    "Verif.StatsF.C117_near",
    "Verif.StatsF.C117_constant",
    "Verif.StatsF.C117_false_exact",
    "Verif.StatsF.C117_system",
    "Verif.StatsF.C117_system_constant",
    "Verif.StatsF.C117_dijkstra"
   ],
   "note": "C117_system, C117_system_constant: the same for all runs of the balancer with reliable workers that report one number per route-pair, for every schedule, with respect to the results of all route-pairs. C117_dijkstra: exactly 1 and 0 for Dijkstra's algorithm if every pair has a route. Exact results, or results that don't depend on the order and sizes of outcomes, are refuted (C117_false_exact). Pairs that report nothing are dealt with in C39."
  },
  {
   "property": "C118",
   "status": "proved",
   "theorems": [
    "Verif.TolF.C118_tolerated",
    "Verif.TolF.C118_kept",
    "Verif.TolF.C118_itself",
    "Verif.TolF.C118_monotone",
    "Verif.TolF.C118_false_exact",
    "Verif.TolF.C118_false_zero"
   ],
   "note": "Comparing exact costs instead is refuted: a path that is longer by 1 is tolerated with a scale of 1 (C118_false_exact). An infinitely long best path and a scale of zero tolerate everything, since the tolerance is NaN (C118_false_zero). C46 is about the same lines with exact numbers."
  },
  {
   "property": "C119",
   "status": "proved",
   "theorems": [
    "Verif.Dbg.C119_router",
    "Verif.Dbg.C119_no_alphas",
    "Verif.Dbg.C119_configured",
    "Verif.Dbg.C119_false_no_alphas",
    "Verif.Dbg.C119_builder"
   ],
   "note": "C119_configured: alphas of a routing-config are not missing if edges have a metric. The panic without alphas is proved as C119_no_alphas, with a path found by the release build in C119_false_no_alphas. The assertion in src/routing/explorating.rs:576-579 directly follows a drain of the vector it is about, and is not modelled; neither are the overflow checks of debug builds."
  },
  {
   "property": "C120",
   "status": "partial",
   "theorems": [
    "Verif.MapName.C120_generic",
    "Verif.MapName.C120_extensions_partial",
    "Verif.MapName.C120_false_unicode",
    "Verif.MapName.C120_false_one_extension"
   ],
   "note": "Proved for names that start with graph, and for names with at least two extensions whose first part is ascii. Violated by names with exactly one extension, for which the function always panics (C120_false_one_extension), and by other characters, since a number of characters is used as number of bytes (C120_false_unicode). The function is not called in this version."
  }
 ]
}