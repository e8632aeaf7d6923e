import Verif.FitSpec

/-!
# The configurations in `resources`

The documents of all yaml-files below `resources`, without `resources/blueprint.yaml`, which is documentation and no
document. They have been translated one by one; comments are left out.
-/

namespace Verif.Shipped

open Yml (Yaml)

/-- A quoted scalar. -/
def quoted (t : String) : Yaml := .scalar true t.toList

/-- A plain scalar. -/
def plain (t : String) : Yaml := .scalar false t.toList

/-- A map. -/
def dict (es : List (String × Yaml)) : Yaml := .map (es.map fun e => (e.1.toList, e.2))

/-- `{ unit: .., id: .. }` -/
def unitOf (u id : String) : Yaml := dict [("unit", quoted u), ("id", quoted id)]

/-- `meta: { info: .., id: .. }` -/
def info (i id : String) : Yaml := dict [("meta", dict [("info", quoted i), ("id", quoted id)])]

/-- `metric: { unit: .., id: .. }` -/
def metric (u id : String) : Yaml := dict [("metric", unitOf u id)]

/-- `id: ..` -/
def col (id : String) : Yaml := dict [("id", quoted id)]

/-- `resources/bidirectional_bait/fmi.yaml` -/
def baitFmi : Yaml :=
  dict [
    ("parsing", dict [
        ("map-file", quoted "resources/bidirectional_bait/graph.fmi"),
        ("nodes", .seq [info "NodeId" "node-id", metric "Latitude" "latitude", metric "Longitude" "longitude"]),
        ("edges", dict [
            ("data", .seq [
                info "SrcId" "src-id", info "DstId" "dst-id", metric "Meters" "meters",
                metric "KilometersPerHour" "kmph"])]),
        ("generating", dict [
            ("nodes", .seq []),
            ("edges", .seq [
                dict [
                  ("convert", dict [("from", unitOf "Meters" "meters"), ("to", unitOf "Kilometers" "kilometers")])],
                dict [
                  ("calc", dict [
                      ("result", unitOf "Hours" "hours"),
                      ("a", unitOf "Kilometers" "kilometers"),
                      ("b", unitOf "KilometersPerHour" "kmph")])]])])]),
    ("writing", dict [
        ("route-pairs", dict [
            ("file", quoted "resources/bidirectional_bait/all_25.route-pairs"),
            ("random_or_all", dict [("max_count", plain "100")])])])]

/-- `resources/isle_of_man_2020-03-14/balancing/config.yaml` -/
def isleBalConfig : Yaml :=
  dict [
    ("parsing", dict [
        ("map-file", quoted "resources/isle_of_man_2020-03-14/graph.fmi"),
        ("nodes", .seq [
            plain "ignored", info "NodeId" "node-id", metric "Latitude" "latitude",
            metric "Longitude" "longitude"]),
        ("edges", dict [
            ("will_normalize_metrics_by_mean", plain "true"),
            ("data", .seq [
                info "EdgeId" "edge-id", info "SrcId" "src-id", info "DstId" "dst-id",
                metric "Kilometers" "kilometers", metric "Hours" "hours", metric "LaneCount" "lane-count"])]),
        ("generating", dict [
            ("nodes", .seq [info "NodeIdx" "node-idx"]),
            ("edges", .seq [
                info "SrcIdx" "src-idx", info "SrcLat" "src-lat", info "SrcLon" "src-lon",
                info "DstIdx" "dst-idx", info "DstLat" "dst-lat", info "DstLon" "dst-lon",
                dict [
                  ("copy", dict [("from", unitOf "Kilometers" "kilometers"), ("to", unitOf "Kilometers" "dummy")])],
                dict [
                  ("custom", dict [("id", quoted "workload"), ("unit", quoted "F64"), ("default", plain "1.0")])]])])]),
    ("balancing", dict [
        ("seed", plain "42"),
        ("number_of_threads", plain "4"),
        ("results-dir", quoted "custom/results/isle_of_man_2020-03-14"),
        ("iter-0-cfg", quoted "resources/isle_of_man_2020-03-14/balancing/init.yaml"),
        ("iter-i-cfg", quoted "resources/isle_of_man_2020-03-14/balancing/iteration.yaml"),
        ("optimizing_with", dict [("metric-id", quoted "workload"), ("method", plain "averaging")]),
        ("number_of_metric-updates", plain "2"),
        ("min_new_metric", plain "0.1"),
        ("multi-ch-constructor", dict [
            ("fmi-graph", quoted "graph.fmi"),
            ("contracted-graph", quoted "graph.ch.fmi"),
            ("dimension", plain "3"),
            ("contraction-ratio", quoted "99.8"),
            ("number_of_threads", plain "4"),
            ("is_printing_osm-ids", plain "true"),
            ("is_using_external_edge-ids", plain "true")]),
        ("monitoring", dict [
            ("edges-info", dict [
                ("file", quoted "edges-info.csv"),
                ("will_denormalize_metrics_by_mean", plain "false"),
                ("with_shortcuts", plain "false"),
                ("ids", .seq [
                    col "edge-id", col "src-lat", col "src-lon", col "dst-lat", col "dst-lon",
                    col "kilometers", col "lane-count"])])])]),
    ("routing", dict [
        ("route-pairs-file", quoted "resources/isle_of_man_2020-03-14/10_000.route-pairs"),
        ("algorithm", dict [("Explorator", dict [("algo", quoted "CHDijkstra")])]),
        ("metrics", .seq [
            col "kilometers", dict [("id", quoted "hours"), ("tolerated-scale", plain "1.4")], col "workload"])]),
    ("writing", dict [
        ("graph", dict [
            ("map-file", quoted "balanced_graph.fmi"),
            ("nodes", .seq [col "node-idx", col "node-id", col "latitude", col "longitude"]),
            ("edges", dict [
                ("with_shortcuts", plain "false"),
                ("will_denormalize_metrics_by_mean", plain "false"),
                ("ids", .seq [
                    col "edge-id", col "src-id", col "dst-id", col "kilometers", col "hours", col "lane-count",
                    col "workload", col "dummy"])])])])]

/-- `resources/isle_of_man_2020-03-14/balancing/evaluation/dijkstra/0/config.yaml` -/
def isleBalEvalDijkstra0Config : Yaml :=
  dict [
    ("parsing", dict [
        ("map-file", quoted "custom/results/isle_of_man_2020-03-14/utc_YYYY-mm-dd_HH-MM-SS/balanced_graph.fmi"),
        ("nodes", .seq [
            plain "ignored", info "NodeId" "node-id", metric "Latitude" "latitude",
            metric "Longitude" "longitude"]),
        ("edges", dict [
            ("will_normalize_metrics_by_mean", plain "false"),
            ("data", .seq [
                info "EdgeId" "edge-id", info "SrcId" "src-id", info "DstId" "dst-id",
                metric "Kilometers" "kilometers", metric "Hours" "hours", metric "LaneCount" "lane-count"])]),
        ("generating", dict [
            ("nodes", .seq []),
            ("edges", .seq [
                info "SrcLat" "src-lat", info "SrcLon" "src-lon", info "DstLat" "dst-lat",
                info "DstLon" "dst-lon"])])]),
    ("routing", dict [
        ("route-pairs-file", quoted "custom/results/isle_of_man_2020-03-14/utc_YYYY-mm-dd_HH-MM-SS/evaluation/10_000_eval.route-pairs"),
        ("algorithm", quoted "Dijkstra"),
        ("metrics", .seq [col "kilometers", dict [("id", quoted "hours"), ("tolerated-scale", plain "1.4")]])]),
    ("evaluating_balance", dict [
        ("seed", plain "24"),
        ("number_of_threads", plain "15"),
        ("results-dir", quoted "custom/results/isle_of_man_2020-03-14/utc_YYYY-mm-dd_HH-MM-SS/evaluation/dijkstra/0/stats"),
        ("monitoring", dict [
            ("export_vehicles_for_SMARTS", plain "true"),
            ("edges-info", dict [
                ("file", quoted "edges-info.csv"),
                ("will_denormalize_metrics_by_mean", plain "false"),
                ("with_shortcuts", plain "false"),
                ("ids", .seq [
                    col "edge-id", col "src-lat", col "src-lon", col "dst-lat", col "dst-lon",
                    col "kilometers", col "lane-count"])])])])]

/-- `resources/isle_of_man_2020-03-14/balancing/evaluation/dijkstra/1/config.yaml` -/
def isleBalEvalDijkstra1Config : Yaml :=
  dict [
    ("parsing", dict [
        ("map-file", quoted "custom/results/isle_of_man_2020-03-14/utc_YYYY-mm-dd_HH-MM-SS/balanced_graph.fmi"),
        ("nodes", .seq [
            plain "ignored", info "NodeId" "node-id", metric "Latitude" "latitude",
            metric "Longitude" "longitude"]),
        ("edges", dict [
            ("will_normalize_metrics_by_mean", plain "false"),
            ("data", .seq [
                info "EdgeId" "edge-id", info "SrcId" "src-id", info "DstId" "dst-id",
                metric "Kilometers" "kilometers", metric "Hours" "hours", metric "LaneCount" "lane-count",
                metric "F64" "workload", plain "ignored"])]),
        ("generating", dict [
            ("nodes", .seq []),
            ("edges", .seq [
                info "SrcLat" "src-lat", info "SrcLon" "src-lon", info "DstLat" "dst-lat",
                info "DstLon" "dst-lon"])])]),
    ("routing", dict [
        ("route-pairs-file", quoted "custom/results/isle_of_man_2020-03-14/utc_YYYY-mm-dd_HH-MM-SS/evaluation/10_000_eval.route-pairs"),
        ("algorithm", quoted "Dijkstra"),
        ("metrics", .seq [
            col "kilometers", dict [("id", quoted "hours"), ("tolerated-scale", plain "1.4")], col "workload"])]),
    ("evaluating_balance", dict [
        ("seed", plain "24"),
        ("number_of_threads", plain "4"),
        ("results-dir", quoted "custom/results/isle_of_man_2020-03-14/utc_YYYY-mm-dd_HH-MM-SS/evaluation/dijkstra/1/stats"),
        ("monitoring", dict [
            ("export_vehicles_for_SMARTS", plain "true"),
            ("edges-info", dict [
                ("file", quoted "edges-info.csv"),
                ("will_denormalize_metrics_by_mean", plain "false"),
                ("with_shortcuts", plain "false"),
                ("ids", .seq [
                    col "edge-id", col "src-lat", col "src-lon", col "dst-lat", col "dst-lon",
                    col "kilometers", col "lane-count"])])])])]

/-- `resources/isle_of_man_2020-03-14/balancing/evaluation/explorator/0/config.yaml` -/
def isleBalEvalExpl0Config : Yaml :=
  dict [
    ("parsing", dict [
        ("map-file", quoted "custom/results/isle_of_man_2020-03-14/utc_YYYY-mm-dd_HH-MM-SS/balanced_graph.fmi"),
        ("nodes", .seq [
            plain "ignored", info "NodeId" "node-id", metric "Latitude" "latitude",
            metric "Longitude" "longitude"]),
        ("edges", dict [
            ("will_normalize_metrics_by_mean", plain "false"),
            ("data", .seq [
                info "EdgeId" "edge-id", info "SrcId" "src-id", info "DstId" "dst-id",
                metric "Kilometers" "kilometers", metric "Hours" "hours", metric "LaneCount" "lane-count"])]),
        ("generating", dict [
            ("nodes", .seq []),
            ("edges", .seq [
                info "SrcLat" "src-lat", info "SrcLon" "src-lon", info "DstLat" "dst-lat",
                info "DstLon" "dst-lon"])])]),
    ("routing", dict [
        ("route-pairs-file", quoted "custom/results/isle_of_man_2020-03-14/utc_YYYY-mm-dd_HH-MM-SS/evaluation/10_000_eval.route-pairs"),
        ("algorithm", dict [("Explorator", dict [("algo", quoted "Dijkstra")])]),
        ("metrics", .seq [col "kilometers", dict [("id", quoted "hours"), ("tolerated-scale", plain "1.4")]])]),
    ("evaluating_balance", dict [
        ("seed", plain "24"),
        ("number_of_threads", plain "4"),
        ("results-dir", quoted "custom/results/isle_of_man_2020-03-14/utc_YYYY-mm-dd_HH-MM-SS/evaluation/explorator/0/stats"),
        ("monitoring", dict [
            ("export_vehicles_for_SMARTS", plain "true"),
            ("edges-info", dict [
                ("file", quoted "edges-info.csv"),
                ("will_denormalize_metrics_by_mean", plain "false"),
                ("with_shortcuts", plain "false"),
                ("ids", .seq [
                    col "edge-id", col "src-lat", col "src-lon", col "dst-lat", col "dst-lon",
                    col "kilometers", col "lane-count"])])])])]

/-- `resources/isle_of_man_2020-03-14/balancing/evaluation/explorator/1/config.yaml` -/
def isleBalEvalExpl1Config : Yaml :=
  dict [
    ("parsing", dict [
        ("map-file", quoted "custom/results/isle_of_man_2020-03-14/utc_YYYY-mm-dd_HH-MM-SS/balanced_graph.fmi"),
        ("nodes", .seq [
            plain "ignored", info "NodeId" "node-id", metric "Latitude" "latitude",
            metric "Longitude" "longitude"]),
        ("edges", dict [
            ("will_normalize_metrics_by_mean", plain "false"),
            ("data", .seq [
                info "EdgeId" "edge-id", info "SrcId" "src-id", info "DstId" "dst-id",
                metric "Kilometers" "kilometers", metric "Hours" "hours", metric "LaneCount" "lane-count",
                metric "F64" "workload", plain "ignored"])]),
        ("generating", dict [
            ("nodes", .seq []),
            ("edges", .seq [
                info "SrcLat" "src-lat", info "SrcLon" "src-lon", info "DstLat" "dst-lat",
                info "DstLon" "dst-lon"])])]),
    ("routing", dict [
        ("route-pairs-file", quoted "custom/results/isle_of_man_2020-03-14/utc_YYYY-mm-dd_HH-MM-SS/evaluation/10_000_eval.route-pairs"),
        ("algorithm", dict [("Explorator", dict [("algo", quoted "Dijkstra")])]),
        ("metrics", .seq [
            col "kilometers", dict [("id", quoted "hours"), ("tolerated-scale", plain "1.4")], col "workload"])]),
    ("evaluating_balance", dict [
        ("seed", plain "24"),
        ("number_of_threads", plain "4"),
        ("results-dir", quoted "custom/results/isle_of_man_2020-03-14/utc_YYYY-mm-dd_HH-MM-SS/evaluation/explorator/1/stats"),
        ("monitoring", dict [
            ("export_vehicles_for_SMARTS", plain "true"),
            ("edges-info", dict [
                ("file", quoted "edges-info.csv"),
                ("will_denormalize_metrics_by_mean", plain "false"),
                ("with_shortcuts", plain "false"),
                ("ids", .seq [
                    col "edge-id", col "src-lat", col "src-lon", col "dst-lat", col "dst-lon",
                    col "kilometers", col "lane-count"])])])])]

/-- `resources/isle_of_man_2020-03-14/balancing/init.yaml` -/
def isleBalInit : Yaml :=
  dict [
    ("writing", dict [
        ("graph", dict [
            ("map-file", quoted "graph.fmi"),
            ("nodes", .seq [
                col "node-idx", col "node-id", col "latitude", col "longitude", plain "ignored",
                plain "ignored"]),
            ("edges", dict [
                ("with_shortcuts", plain "false"),
                ("will_denormalize_metrics_by_mean", plain "false"),
                ("ids", .seq [
                    col "edge-id", col "src-idx", col "dst-idx", col "kilometers", col "hours",
                    plain "ignored", plain "ignored"])])]),
        ("edges-info", dict [
            ("file", quoted "edges-info.csv"),
            ("with_shortcuts", plain "false"),
            ("will_denormalize_metrics_by_mean", plain "false"),
            ("ids", .seq [col "edge-id", col "lane-count", col "dummy"])])]),
    ("parsing", dict [
        ("map-file", quoted "graph.ch.fmi"),
        ("nodes", .seq [
            plain "ignored", info "NodeId" "node-id", metric "Latitude" "latitude",
            metric "Longitude" "longitude", plain "ignored", info "CHLevel" "ch-level"]),
        ("edges", dict [
            ("will_normalize_metrics_by_mean", plain "false"),
            ("data", .seq [
                info "EdgeId" "edge-id", info "SrcId" "src-id", info "DstId" "dst-id",
                metric "Kilometers" "kilometers", metric "Hours" "hours", info "ShortcutIdx0" "sc-idx-0",
                info "ShortcutIdx1" "sc-idx-1"])]),
        ("generating", dict [
            ("nodes", .seq [info "NodeIdx" "node-idx"]),
            ("edges", .seq [
                info "SrcIdx" "src-idx", info "SrcLat" "src-lat", info "SrcLon" "src-lon",
                info "DstIdx" "dst-idx", info "DstLat" "dst-lat", info "DstLon" "dst-lon",
                dict [
                  ("custom", dict [("id", quoted "workload"), ("unit", quoted "F64"), ("default", plain "1.0")])],
                dict [
                  ("custom", dict [
                      ("id", quoted "lane-count"),
                      ("unit", quoted "LaneCount"),
                      ("default", plain "1.0")])],
                dict [
                  ("custom", dict [("id", quoted "dummy"), ("unit", quoted "F64"), ("default", plain "0.1")])],
                dict [
                  ("merge", dict [
                      ("from", quoted "edges-info.csv"),
                      ("edge-id", quoted "edge-id"),
                      ("edges-info", .seq [col "edge-id", col "lane-count", col "dummy"])])]])])])]

/-- `resources/isle_of_man_2020-03-14/balancing/iteration.yaml` -/
def isleBalIteration : Yaml :=
  dict [
    ("writing", dict [
        ("graph", dict [
            ("map-file", quoted "graph.fmi"),
            ("nodes", .seq [
                col "node-idx", col "node-id", col "latitude", col "longitude", plain "ignored",
                plain "ignored"]),
            ("edges", dict [
                ("with_shortcuts", plain "false"),
                ("will_denormalize_metrics_by_mean", plain "false"),
                ("ids", .seq [
                    col "edge-id", col "src-idx", col "dst-idx", col "kilometers", col "hours", col "workload",
                    plain "ignored", plain "ignored"])])]),
        ("edges-info", dict [
            ("file", quoted "edges-info.csv"),
            ("with_shortcuts", plain "false"),
            ("will_denormalize_metrics_by_mean", plain "false"),
            ("ids", .seq [col "edge-id", col "lane-count", col "dummy"])])]),
    ("parsing", dict [
        ("map-file", quoted "graph.ch.fmi"),
        ("nodes", .seq [
            plain "ignored", info "NodeId" "node-id", metric "Latitude" "latitude",
            metric "Longitude" "longitude", plain "ignored", info "CHLevel" "ch-level"]),
        ("edges", dict [
            ("will_normalize_metrics_by_mean", plain "false"),
            ("data", .seq [
                info "EdgeId" "edge-id", info "SrcId" "src-id", info "DstId" "dst-id",
                metric "Kilometers" "kilometers", metric "Hours" "hours", metric "F64" "workload",
                info "ShortcutIdx0" "sc-idx-0", info "ShortcutIdx1" "sc-idx-1"])]),
        ("generating", dict [
            ("nodes", .seq [info "NodeIdx" "node-idx"]),
            ("edges", .seq [
                info "SrcIdx" "src-idx", info "SrcLat" "src-lat", info "SrcLon" "src-lon",
                info "DstIdx" "dst-idx", info "DstLat" "dst-lat", info "DstLon" "dst-lon",
                dict [
                  ("custom", dict [
                      ("id", quoted "lane-count"),
                      ("unit", quoted "LaneCount"),
                      ("default", plain "1.0")])],
                dict [
                  ("custom", dict [("id", quoted "dummy"), ("unit", quoted "F64"), ("default", plain "0.1")])],
                dict [
                  ("merge", dict [
                      ("from", quoted "edges-info.csv"),
                      ("edge-id", quoted "edge-id"),
                      ("edges-info", .seq [col "edge-id", col "lane-count", col "dummy"])])]])])])]

/-- `resources/isle_of_man_2020-03-14/ch.fmi.yaml` -/
def isleChFmi : Yaml :=
  dict [
    ("parsing", dict [
        ("map-file", quoted "resources/isle_of_man_2020-03-14/graph.ch.fmi"),
        ("nodes", .seq [
            plain "ignored", info "NodeId" "node-id", metric "Latitude" "latitude",
            metric "Longitude" "longitude", plain "ignored", info "CHLevel" "ch-level"]),
        ("edges", dict [
            ("data", .seq [
                info "EdgeId" "edge-id", info "SrcId" "src-id", info "DstId" "dst-id",
                metric "Kilometers" "kilometers", metric "Hours" "hours", info "ShortcutIdx0" "sc-idx-0",
                info "ShortcutIdx1" "sc-idx-1"])])]),
    ("routing", dict [("algorithm", quoted "CHDijkstra"), ("metrics", .seq [col "hours"])]),
    ("writing", dict [
        ("route-pairs", dict [
            ("file", quoted "resources/isle_of_man_2020-03-14/10_000.route-pairs"),
            ("random_or_all", dict [("seed", plain "42"), ("max_count", plain "10000")])])])]

/-- `resources/isle_of_man_2020-03-14/fmi.yaml` -/
def isleFmi : Yaml :=
  dict [
    ("parsing", dict [
        ("map-file", quoted "resources/isle_of_man_2020-03-14/graph.fmi"),
        ("nodes", .seq [
            plain "ignored", info "NodeId" "node-id", metric "Latitude" "latitude",
            metric "Longitude" "longitude"]),
        ("edges", dict [
            ("data", .seq [
                info "EdgeId" "edge-id", info "SrcId" "src-id", info "DstId" "dst-id",
                metric "Kilometers" "kilometers", metric "Hours" "hours", metric "LaneCount" "lane-count"])]),
        ("generating", dict [("nodes", .seq []), ("edges", .seq [])])]),
    ("routing", dict [("algorithm", quoted "Dijkstra"), ("metrics", .seq [col "kilometers", col "hours"])])]

/-- `resources/isle_of_man_2020-03-14/fmi_to_ch.yaml` -/
def isleFmiToCh : Yaml :=
  dict [
    ("parsing", dict [
        ("map-file", quoted "resources/isle_of_man_2020-03-14/graph.fmi"),
        ("nodes", .seq [
            plain "ignored", info "NodeId" "node-id", metric "Latitude" "latitude",
            metric "Longitude" "longitude"]),
        ("edges", dict [
            ("data", .seq [
                info "EdgeId" "edge-id", info "SrcId" "src-id", info "DstId" "dst-id",
                metric "Kilometers" "kilometers", metric "Hours" "hours", metric "LaneCount" "lane-count"])]),
        ("generating", dict [
            ("nodes", .seq [info "NodeIdx" "node-idx"]),
            ("edges", .seq [info "SrcIdx" "src-idx", info "DstIdx" "dst-idx"])])]),
    ("writing", dict [
        ("graph", dict [
            ("map-file", quoted "resources/isle_of_man_2020-03-14/graph_for_ch.fmi"),
            ("nodes", .seq [
                col "node-idx", col "node-id", col "latitude", col "longitude", plain "ignored",
                plain "ignored"]),
            ("edges", dict [
                ("with_shortcuts", plain "false"),
                ("ids", .seq [
                    col "edge-id", col "src-idx", col "dst-idx", col "kilometers", col "hours",
                    plain "ignored", plain "ignored"])])])]),
    ("multi-ch-constructor", dict [
        ("fmi-graph", quoted "resources/isle_of_man_2020-03-14/graph_for_ch.fmi"),
        ("contracted-graph", quoted "resources/isle_of_man_2020-03-14/graph.ch.fmi"),
        ("dimension", plain "2"),
        ("cost-accuracy", plain "0.000001"),
        ("contraction-ratio", quoted "99.8"),
        ("number_of_threads", plain "4"),
        ("is_printing_osm-ids", plain "true"),
        ("is_using_external_edge-ids", plain "true")])]

/-- `resources/isle_of_man_2020-03-14/osm.pbf.yaml` -/
def isleOsmPbf : Yaml :=
  dict [
    ("parsing", dict [
        ("map-file", quoted "resources/isle_of_man_2020-03-14/graph.osm.pbf"),
        ("nodes", .seq [info "NodeId" "node-id", metric "Latitude" "latitude", metric "Longitude" "longitude"]),
        ("edges", dict [
            ("data", .seq [
                info "SrcId" "src-id", info "DstId" "dst-id", plain "ignored",
                metric "KilometersPerHour" "kmph", metric "LaneCount" "lanecount"])]),
        ("generating", dict [
            ("nodes", .seq [info "NodeIdx" "node-idx"]),
            ("edges", .seq [
                info "SrcIdx" "src-idx", info "DstIdx" "dst-idx",
                dict [("haversine", unitOf "Kilometers" "kilometers")],
                dict [
                  ("calc", dict [
                      ("result", unitOf "Hours" "hours"),
                      ("a", unitOf "Kilometers" "kilometers"),
                      ("b", unitOf "KilometersPerHour" "kmph")])]])])]),
    ("routing", dict [
        ("route-pairs-file", quoted "resources/isle_of_man_2020-03-14/10_000.route-pairs"),
        ("algorithm", quoted "Dijkstra"),
        ("metrics", .seq [col "kilometers", col "hours"])])]

/-- `resources/isle_of_man_2020-03-14/pbf_to_fmi.yaml` -/
def islePbfToFmi : Yaml :=
  dict [
    ("parsing", dict [
        ("map-file", quoted "resources/isle_of_man_2020-03-14/graph.osm.pbf"),
        ("nodes", .seq [info "NodeId" "node-id", metric "Latitude" "latitude", metric "Longitude" "longitude"]),
        ("edges", dict [
            ("data", .seq [
                info "SrcId" "src-id", info "DstId" "dst-id", metric "KilometersPerHour" "kmph",
                metric "LaneCount" "lane-count"])]),
        ("generating", dict [
            ("nodes", .seq [info "NodeIdx" "node-idx"]),
            ("edges", .seq [
                info "EdgeId" "edge-id", dict [("haversine", unitOf "Kilometers" "kilometers")],
                dict [
                  ("calc", dict [
                      ("result", unitOf "Hours" "hours"),
                      ("a", unitOf "Kilometers" "kilometers"),
                      ("b", unitOf "KilometersPerHour" "kmph")])]])])]),
    ("writing", dict [
        ("graph", dict [
            ("map-file", quoted "resources/isle_of_man_2020-03-14/graph.fmi"),
            ("nodes", .seq [col "node-idx", col "node-id", col "latitude", col "longitude"]),
            ("edges", dict [
                ("with_shortcuts", plain "false"),
                ("ids", .seq [
                    col "edge-id", col "src-id", col "dst-id", col "kilometers", col "hours", col "lane-count"])])])])]

/-- `resources/saarland_2020-07-30/balancing/config.yaml` -/
def saarlandBalConfig : Yaml :=
  dict [
    ("parsing", dict [
        ("map-file", quoted "resources/saarland_2020-07-30/graph.fmi"),
        ("nodes", .seq [
            plain "ignored", info "NodeId" "node-id", metric "Latitude" "latitude",
            metric "Longitude" "longitude"]),
        ("edges", dict [
            ("will_normalize_metrics_by_mean", plain "true"),
            ("data", .seq [
                info "EdgeId" "edge-id", info "SrcId" "src-id", info "DstId" "dst-id",
                metric "Kilometers" "kilometers", metric "Hours" "hours", metric "LaneCount" "lane-count"])]),
        ("generating", dict [
            ("nodes", .seq [info "NodeIdx" "node-idx"]),
            ("edges", .seq [
                info "SrcIdx" "src-idx", info "SrcLat" "src-lat", info "SrcLon" "src-lon",
                info "DstIdx" "dst-idx", info "DstLat" "dst-lat", info "DstLon" "dst-lon",
                dict [
                  ("custom", dict [("id", quoted "workload"), ("unit", quoted "F64"), ("default", plain "1.0")])]])])]),
    ("balancing", dict [
        ("seed", plain "42"),
        ("number_of_threads", plain "15"),
        ("results-dir", quoted "custom/results/saarland_2020-07-30"),
        ("iter-0-cfg", quoted "resources/saarland_2020-07-30/balancing/init.yaml"),
        ("iter-i-cfg", quoted "resources/saarland_2020-07-30/balancing/iteration.yaml"),
        ("optimizing_with", dict [("metric-id", quoted "workload"), ("method", plain "averaging")]),
        ("number_of_metric-updates", plain "2"),
        ("min_new_metric", plain "0.001"),
        ("multi-ch-constructor", dict [
            ("fmi-graph", quoted "graph.fmi"),
            ("contracted-graph", quoted "graph.ch.fmi"),
            ("dimension", plain "3"),
            ("contraction-ratio", quoted "99.8"),
            ("number_of_threads", plain "15"),
            ("is_printing_osm-ids", plain "true"),
            ("is_using_external_edge-ids", plain "true")]),
        ("monitoring", dict [
            ("edges-info", dict [
                ("file", quoted "edges-info.csv"),
                ("will_denormalize_metrics_by_mean", plain "false"),
                ("with_shortcuts", plain "false"),
                ("ids", .seq [
                    col "edge-id", col "src-lat", col "src-lon", col "dst-lat", col "dst-lon",
                    col "kilometers", col "lane-count"])])])]),
    ("routing", dict [
        ("route-pairs-file", quoted "resources/saarland_2020-07-30/10_000.route-pairs"),
        ("algorithm", dict [("Explorator", dict [("algo", quoted "CHDijkstra")])]),
        ("metrics", .seq [
            col "kilometers", dict [("id", quoted "hours"), ("tolerated-scale", plain "1.2")], col "workload"])]),
    ("writing", dict [
        ("graph", dict [
            ("map-file", quoted "balanced_graph.fmi"),
            ("nodes", .seq [col "node-idx", col "node-id", col "latitude", col "longitude"]),
            ("edges", dict [
                ("with_shortcuts", plain "false"),
                ("will_denormalize_metrics_by_mean", plain "false"),
                ("ids", .seq [
                    col "edge-id", col "src-id", col "dst-id", col "kilometers", col "hours", col "lane-count",
                    col "workload"])])])])]

/-- `resources/saarland_2020-07-30/balancing/evaluation/dijkstra/0/config.yaml` -/
def saarlandBalEvalDijkstra0Config : Yaml :=
  dict [
    ("parsing", dict [
        ("map-file", quoted "custom/results/saarland_2020-07-30/utc_YYYY-mm-dd_HH-MM-SS/balanced_graph.fmi"),
        ("nodes", .seq [
            plain "ignored", info "NodeId" "node-id", metric "Latitude" "latitude",
            metric "Longitude" "longitude"]),
        ("edges", dict [
            ("will_normalize_metrics_by_mean", plain "false"),
            ("data", .seq [
                info "EdgeId" "edge-id", info "SrcId" "src-id", info "DstId" "dst-id",
                metric "Kilometers" "kilometers", metric "Hours" "hours", metric "LaneCount" "lane-count"])]),
        ("generating", dict [
            ("nodes", .seq []),
            ("edges", .seq [
                info "SrcLat" "src-lat", info "SrcLon" "src-lon", info "DstLat" "dst-lat",
                info "DstLon" "dst-lon"])])]),
    ("routing", dict [
        ("route-pairs-file", quoted "custom/results/saarland_2020-07-30/utc_YYYY-mm-dd_HH-MM-SS/evaluation/10_000_eval.route-pairs"),
        ("algorithm", quoted "Dijkstra"),
        ("metrics", .seq [col "kilometers", dict [("id", quoted "hours"), ("tolerated-scale", plain "1.2")]])]),
    ("evaluating_balance", dict [
        ("seed", plain "24"),
        ("number_of_threads", plain "15"),
        ("results-dir", quoted "custom/results/saarland_2020-07-30/utc_YYYY-mm-dd_HH-MM-SS/evaluation/dijkstra/0/stats"),
        ("monitoring", dict [
            ("export_vehicles_for_SMARTS", plain "true"),
            ("edges-info", dict [
                ("file", quoted "edges-info.csv"),
                ("will_denormalize_metrics_by_mean", plain "false"),
                ("with_shortcuts", plain "false"),
                ("ids", .seq [
                    col "edge-id", col "src-lat", col "src-lon", col "dst-lat", col "dst-lon",
                    col "kilometers", col "lane-count"])])])])]

/-- `resources/saarland_2020-07-30/balancing/evaluation/dijkstra/1/config.yaml` -/
def saarlandBalEvalDijkstra1Config : Yaml :=
  dict [
    ("parsing", dict [
        ("map-file", quoted "custom/results/saarland_2020-07-30/utc_YYYY-mm-dd_HH-MM-SS/balanced_graph.fmi"),
        ("nodes", .seq [
            plain "ignored", info "NodeId" "node-id", metric "Latitude" "latitude",
            metric "Longitude" "longitude"]),
        ("edges", dict [
            ("will_normalize_metrics_by_mean", plain "false"),
            ("data", .seq [
                info "EdgeId" "edge-id", info "SrcId" "src-id", info "DstId" "dst-id",
                metric "Kilometers" "kilometers", metric "Hours" "hours", metric "LaneCount" "lane-count",
                metric "F64" "workload"])]),
        ("generating", dict [
            ("nodes", .seq []),
            ("edges", .seq [
                info "SrcLat" "src-lat", info "SrcLon" "src-lon", info "DstLat" "dst-lat",
                info "DstLon" "dst-lon"])])]),
    ("routing", dict [
        ("route-pairs-file", quoted "custom/results/saarland_2020-07-30/utc_YYYY-mm-dd_HH-MM-SS/evaluation/10_000_eval.route-pairs"),
        ("algorithm", quoted "Dijkstra"),
        ("metrics", .seq [
            col "kilometers", dict [("id", quoted "hours"), ("tolerated-scale", plain "1.2")], col "workload"])]),
    ("evaluating_balance", dict [
        ("seed", plain "24"),
        ("number_of_threads", plain "15"),
        ("results-dir", quoted "custom/results/saarland_2020-07-30/utc_YYYY-mm-dd_HH-MM-SS/evaluation/dijkstra/1/stats"),
        ("monitoring", dict [
            ("export_vehicles_for_SMARTS", plain "true"),
            ("edges-info", dict [
                ("file", quoted "edges-info.csv"),
                ("will_denormalize_metrics_by_mean", plain "false"),
                ("with_shortcuts", plain "false"),
                ("ids", .seq [
                    col "edge-id", col "src-lat", col "src-lon", col "dst-lat", col "dst-lon",
                    col "kilometers", col "lane-count"])])])])]

/-- `resources/saarland_2020-07-30/balancing/evaluation/explorator/0/config.yaml` -/
def saarlandBalEvalExpl0Config : Yaml :=
  dict [
    ("parsing", dict [
        ("map-file", quoted "custom/results/saarland_2020-07-30/utc_YYYY-mm-dd_HH-MM-SS/balanced_graph.fmi"),
        ("nodes", .seq [
            plain "ignored", info "NodeId" "node-id", metric "Latitude" "latitude",
            metric "Longitude" "longitude"]),
        ("edges", dict [
            ("will_normalize_metrics_by_mean", plain "false"),
            ("data", .seq [
                info "EdgeId" "edge-id", info "SrcId" "src-id", info "DstId" "dst-id",
                metric "Kilometers" "kilometers", metric "Hours" "hours", metric "LaneCount" "lane-count"])]),
        ("generating", dict [
            ("nodes", .seq []),
            ("edges", .seq [
                info "SrcLat" "src-lat", info "SrcLon" "src-lon", info "DstLat" "dst-lat",
                info "DstLon" "dst-lon"])])]),
    ("routing", dict [
        ("route-pairs-file", quoted "custom/results/saarland_2020-07-30/utc_YYYY-mm-dd_HH-MM-SS/evaluation/10_000_eval.route-pairs"),
        ("algorithm", dict [("Explorator", dict [("algo", quoted "Dijkstra")])]),
        ("metrics", .seq [col "kilometers", dict [("id", quoted "hours"), ("tolerated-scale", plain "1.2")]])]),
    ("evaluating_balance", dict [
        ("seed", plain "24"),
        ("number_of_threads", plain "15"),
        ("results-dir", quoted "custom/results/saarland_2020-07-30/utc_YYYY-mm-dd_HH-MM-SS/evaluation/explorator/0/stats"),
        ("monitoring", dict [
            ("export_vehicles_for_SMARTS", plain "true"),
            ("edges-info", dict [
                ("file", quoted "edges-info.csv"),
                ("will_denormalize_metrics_by_mean", plain "false"),
                ("with_shortcuts", plain "false"),
                ("ids", .seq [
                    col "edge-id", col "src-lat", col "src-lon", col "dst-lat", col "dst-lon",
                    col "kilometers", col "lane-count"])])])])]

/-- `resources/saarland_2020-07-30/balancing/evaluation/explorator/1/config.yaml` -/
def saarlandBalEvalExpl1Config : Yaml :=
  dict [
    ("parsing", dict [
        ("map-file", quoted "custom/results/saarland_2020-07-30/utc_YYYY-mm-dd_HH-MM-SS/balanced_graph.fmi"),
        ("nodes", .seq [
            plain "ignored", info "NodeId" "node-id", metric "Latitude" "latitude",
            metric "Longitude" "longitude"]),
        ("edges", dict [
            ("will_normalize_metrics_by_mean", plain "false"),
            ("data", .seq [
                info "EdgeId" "edge-id", info "SrcId" "src-id", info "DstId" "dst-id",
                metric "Kilometers" "kilometers", metric "Hours" "hours", metric "LaneCount" "lane-count",
                metric "F64" "workload"])]),
        ("generating", dict [
            ("nodes", .seq []),
            ("edges", .seq [
                info "SrcLat" "src-lat", info "SrcLon" "src-lon", info "DstLat" "dst-lat",
                info "DstLon" "dst-lon"])])]),
    ("routing", dict [
        ("route-pairs-file", quoted "custom/results/saarland_2020-07-30/utc_YYYY-mm-dd_HH-MM-SS/evaluation/10_000_eval.route-pairs"),
        ("algorithm", dict [("Explorator", dict [("algo", quoted "Dijkstra")])]),
        ("metrics", .seq [
            col "kilometers", dict [("id", quoted "hours"), ("tolerated-scale", plain "1.2")], col "workload"])]),
    ("evaluating_balance", dict [
        ("seed", plain "24"),
        ("number_of_threads", plain "15"),
        ("results-dir", quoted "custom/results/saarland_2020-07-30/utc_YYYY-mm-dd_HH-MM-SS/evaluation/explorator/1/stats"),
        ("monitoring", dict [
            ("export_vehicles_for_SMARTS", plain "true"),
            ("edges-info", dict [
                ("file", quoted "edges-info.csv"),
                ("will_denormalize_metrics_by_mean", plain "false"),
                ("with_shortcuts", plain "false"),
                ("ids", .seq [
                    col "edge-id", col "src-lat", col "src-lon", col "dst-lat", col "dst-lon",
                    col "kilometers", col "lane-count"])])])])]

/-- `resources/saarland_2020-07-30/balancing/init.yaml` -/
def saarlandBalInit : Yaml :=
  dict [
    ("writing", dict [
        ("graph", dict [
            ("map-file", quoted "graph.fmi"),
            ("nodes", .seq [
                col "node-idx", col "node-id", col "latitude", col "longitude", plain "ignored",
                plain "ignored"]),
            ("edges", dict [
                ("with_shortcuts", plain "false"),
                ("will_denormalize_metrics_by_mean", plain "false"),
                ("ids", .seq [
                    col "edge-id", col "src-idx", col "dst-idx", col "kilometers", col "hours",
                    plain "ignored", plain "ignored"])])]),
        ("edges-info", dict [
            ("file", quoted "edges-info.csv"),
            ("with_shortcuts", plain "false"),
            ("will_denormalize_metrics_by_mean", plain "false"),
            ("ids", .seq [col "edge-id", col "lane-count"])])]),
    ("parsing", dict [
        ("map-file", quoted "graph.ch.fmi"),
        ("nodes", .seq [
            plain "ignored", info "NodeId" "node-id", metric "Latitude" "latitude",
            metric "Longitude" "longitude", plain "ignored", info "CHLevel" "ch-level"]),
        ("edges", dict [
            ("will_normalize_metrics_by_mean", plain "false"),
            ("data", .seq [
                info "EdgeId" "edge-id", info "SrcId" "src-id", info "DstId" "dst-id",
                metric "Kilometers" "kilometers", metric "Hours" "hours", info "ShortcutIdx0" "sc-idx-0",
                info "ShortcutIdx1" "sc-idx-1"])]),
        ("generating", dict [
            ("nodes", .seq [info "NodeIdx" "node-idx"]),
            ("edges", .seq [
                info "SrcIdx" "src-idx", info "SrcLat" "src-lat", info "SrcLon" "src-lon",
                info "DstIdx" "dst-idx", info "DstLat" "dst-lat", info "DstLon" "dst-lon",
                dict [
                  ("custom", dict [("id", quoted "workload"), ("unit", quoted "F64"), ("default", plain "1.0")])],
                dict [
                  ("custom", dict [
                      ("id", quoted "lane-count"),
                      ("unit", quoted "LaneCount"),
                      ("default", plain "1.0")])],
                dict [
                  ("merge", dict [
                      ("from", quoted "edges-info.csv"),
                      ("edge-id", quoted "edge-id"),
                      ("edges-info", .seq [col "edge-id", col "lane-count"])])]])])])]

/-- `resources/saarland_2020-07-30/balancing/iteration.yaml` -/
def saarlandBalIteration : Yaml :=
  dict [
    ("writing", dict [
        ("graph", dict [
            ("map-file", quoted "graph.fmi"),
            ("nodes", .seq [
                col "node-idx", col "node-id", col "latitude", col "longitude", plain "ignored",
                plain "ignored"]),
            ("edges", dict [
                ("with_shortcuts", plain "false"),
                ("will_denormalize_metrics_by_mean", plain "false"),
                ("ids", .seq [
                    col "edge-id", col "src-idx", col "dst-idx", col "kilometers", col "hours", col "workload",
                    plain "ignored", plain "ignored"])])]),
        ("edges-info", dict [
            ("file", quoted "edges-info.csv"),
            ("with_shortcuts", plain "false"),
            ("will_denormalize_metrics_by_mean", plain "false"),
            ("ids", .seq [col "edge-id", col "lane-count"])])]),
    ("parsing", dict [
        ("map-file", quoted "graph.ch.fmi"),
        ("nodes", .seq [
            plain "ignored", info "NodeId" "node-id", metric "Latitude" "latitude",
            metric "Longitude" "longitude", plain "ignored", info "CHLevel" "ch-level"]),
        ("edges", dict [
            ("will_normalize_metrics_by_mean", plain "false"),
            ("data", .seq [
                info "EdgeId" "edge-id", info "SrcId" "src-id", info "DstId" "dst-id",
                metric "Kilometers" "kilometers", metric "Hours" "hours", metric "F64" "workload",
                info "ShortcutIdx0" "sc-idx-0", info "ShortcutIdx1" "sc-idx-1"])]),
        ("generating", dict [
            ("nodes", .seq [info "NodeIdx" "node-idx"]),
            ("edges", .seq [
                info "SrcIdx" "src-idx", info "SrcLat" "src-lat", info "SrcLon" "src-lon",
                info "DstIdx" "dst-idx", info "DstLat" "dst-lat", info "DstLon" "dst-lon",
                dict [
                  ("custom", dict [
                      ("id", quoted "lane-count"),
                      ("unit", quoted "LaneCount"),
                      ("default", plain "1.0")])],
                dict [
                  ("merge", dict [
                      ("from", quoted "edges-info.csv"),
                      ("edge-id", quoted "edge-id"),
                      ("edges-info", .seq [col "edge-id", col "lane-count"])])]])])])]

/-- `resources/saarland_2020-07-30/ch.fmi.yaml` -/
def saarlandChFmi : Yaml :=
  dict [
    ("parsing", dict [
        ("map-file", quoted "resources/saarland_2020-07-30/graph.ch.fmi"),
        ("nodes", .seq [
            plain "ignored", info "NodeId" "node-id", metric "Latitude" "latitude",
            metric "Longitude" "longitude", plain "ignored", info "CHLevel" "ch-level"]),
        ("edges", dict [
            ("data", .seq [
                info "EdgeId" "edge-id", info "SrcId" "src-id", info "DstId" "dst-id",
                metric "Kilometers" "kilometers", metric "Hours" "hours", info "ShortcutIdx0" "sc-idx-0",
                info "ShortcutIdx1" "sc-idx-1"])])]),
    ("routing", dict [("algorithm", quoted "CHDijkstra"), ("metrics", .seq [col "hours"])]),
    ("writing", dict [
        ("route-pairs", dict [
            ("file", quoted "resources/saarland_2020-07-30/10_000.route-pairs"),
            ("random_or_all", dict [("seed", plain "42"), ("max_count", plain "10000")])])])]

/-- `resources/saarland_2020-07-30/fmi.yaml` -/
def saarlandFmi : Yaml :=
  dict [
    ("parsing", dict [
        ("map-file", quoted "resources/saarland_2020-07-30/graph.fmi"),
        ("nodes", .seq [
            plain "ignored", info "NodeId" "node-id", metric "Latitude" "latitude",
            metric "Longitude" "longitude"]),
        ("edges", dict [
            ("data", .seq [
                info "EdgeId" "edge-id", info "SrcId" "src-id", info "DstId" "dst-id",
                metric "Kilometers" "kilometers", metric "Hours" "hours", metric "LaneCount" "lane-count"])]),
        ("generating", dict [("nodes", .seq []), ("edges", .seq [])])]),
    ("routing", dict [("algorithm", quoted "Dijkstra"), ("metrics", .seq [col "kilometers", col "hours"])])]

/-- `resources/saarland_2020-07-30/fmi_to_ch.yaml` -/
def saarlandFmiToCh : Yaml :=
  dict [
    ("parsing", dict [
        ("map-file", quoted "resources/saarland_2020-07-30/graph.fmi"),
        ("nodes", .seq [
            plain "ignored", info "NodeId" "node-id", metric "Latitude" "latitude",
            metric "Longitude" "longitude"]),
        ("edges", dict [
            ("data", .seq [
                info "EdgeId" "edge-id", info "SrcId" "src-id", info "DstId" "dst-id",
                metric "Kilometers" "kilometers", metric "Hours" "hours", metric "LaneCount" "lane-count"])]),
        ("generating", dict [
            ("nodes", .seq [info "NodeIdx" "node-idx"]),
            ("edges", .seq [info "SrcIdx" "src-idx", info "DstIdx" "dst-idx"])])]),
    ("writing", dict [
        ("graph", dict [
            ("map-file", quoted "resources/saarland_2020-07-30/graph_for_ch.fmi"),
            ("nodes", .seq [
                col "node-idx", col "node-id", col "latitude", col "longitude", plain "ignored",
                plain "ignored"]),
            ("edges", dict [
                ("with_shortcuts", plain "false"),
                ("ids", .seq [
                    col "edge-id", col "src-idx", col "dst-idx", col "kilometers", col "hours",
                    plain "ignored", plain "ignored"])])])]),
    ("multi-ch-constructor", dict [
        ("fmi-graph", quoted "resources/saarland_2020-07-30/graph_for_ch.fmi"),
        ("contracted-graph", quoted "resources/saarland_2020-07-30/graph.ch.fmi"),
        ("dimension", plain "2"),
        ("cost-accuracy", plain "0.000001"),
        ("contraction-ratio", quoted "99.8"),
        ("number_of_threads", plain "4"),
        ("is_printing_osm-ids", plain "true"),
        ("is_using_external_edge-ids", plain "true")])]

/-- `resources/saarland_2020-07-30/osm.pbf.yaml` -/
def saarlandOsmPbf : Yaml :=
  dict [
    ("parsing", dict [
        ("map-file", quoted "resources/saarland_2020-07-30/graph.osm.pbf"),
        ("nodes", .seq [info "NodeId" "node-id", metric "Latitude" "latitude", metric "Longitude" "longitude"]),
        ("edges", dict [
            ("data", .seq [
                info "SrcId" "src-id", info "DstId" "dst-id", plain "ignored",
                metric "KilometersPerHour" "kmph", metric "LaneCount" "lanecount"])]),
        ("generating", dict [
            ("nodes", .seq [info "NodeIdx" "node-idx"]),
            ("edges", .seq [
                info "SrcIdx" "src-idx", info "DstIdx" "dst-idx",
                dict [("haversine", unitOf "Kilometers" "kilometers")],
                dict [
                  ("calc", dict [
                      ("result", unitOf "Hours" "hours"),
                      ("a", unitOf "Kilometers" "kilometers"),
                      ("b", unitOf "KilometersPerHour" "kmph")])]])])])]

/-- `resources/saarland_2020-07-30/pbf_to_fmi.yaml` -/
def saarlandPbfToFmi : Yaml :=
  dict [
    ("parsing", dict [
        ("map-file", quoted "resources/saarland_2020-07-30/graph.osm.pbf"),
        ("nodes", .seq [info "NodeId" "node-id", metric "Latitude" "latitude", metric "Longitude" "longitude"]),
        ("edges", dict [
            ("data", .seq [
                info "SrcId" "src-id", info "DstId" "dst-id", metric "KilometersPerHour" "kmph",
                metric "LaneCount" "lane-count"])]),
        ("generating", dict [
            ("nodes", .seq [info "NodeIdx" "node-idx"]),
            ("edges", .seq [
                info "EdgeId" "edge-id", dict [("haversine", unitOf "Kilometers" "kilometers")],
                dict [
                  ("calc", dict [
                      ("result", unitOf "Hours" "hours"),
                      ("a", unitOf "Kilometers" "kilometers"),
                      ("b", unitOf "KilometersPerHour" "kmph")])]])])]),
    ("writing", dict [
        ("graph", dict [
            ("map-file", quoted "resources/saarland_2020-07-30/graph.fmi"),
            ("nodes", .seq [col "node-idx", col "node-id", col "latitude", col "longitude"]),
            ("edges", dict [
                ("with_shortcuts", plain "false"),
                ("ids", .seq [
                    col "edge-id", col "src-id", col "dst-id", col "kilometers", col "hours", col "lane-count"])])])])]

/-- `resources/simple_stuttgart/fmi.yaml` -/
def simpleFmi : Yaml :=
  dict [
    ("parsing", dict [
        ("map-file", quoted "resources/simple_stuttgart/graph.fmi"),
        ("vehicles", dict [("category", quoted "Car"), ("are_drivers_picky", plain "false")]),
        ("nodes", .seq [info "NodeId" "node-id", metric "Latitude" "latitude", metric "Longitude" "longitude"]),
        ("edges", dict [
            ("data", .seq [
                info "SrcId" "src-id", info "DstId" "dst-id", metric "Meters" "meters",
                metric "KilometersPerHour" "kmph"])]),
        ("generating", dict [
            ("nodes", .seq []),
            ("edges", .seq [
                dict [
                  ("convert", dict [("from", unitOf "Meters" "meters"), ("to", unitOf "Kilometers" "kilometers")])],
                dict [
                  ("calc", dict [
                      ("result", unitOf "Hours" "hours"),
                      ("a", unitOf "Kilometers" "kilometers"),
                      ("b", unitOf "KilometersPerHour" "kmph")])]])])]),
    ("writing", dict [
        ("route-pairs", dict [
            ("file", quoted "resources/simple_stuttgart/all_31.route-pairs"),
            ("random_or_all", dict [("max_count", plain "100")])])]),
    ("routing", dict [("algorithm", quoted "Dijkstra"), ("metrics", .seq [col "kilometers"])])]

/-- `resources/simple_stuttgart/normalized_fmi.yaml` -/
def simpleNormalizedFmi : Yaml :=
  dict [
    ("parsing", dict [
        ("map-file", quoted "resources/simple_stuttgart/graph.fmi"),
        ("vehicles", dict [("category", quoted "Car"), ("are_drivers_picky", plain "false")]),
        ("nodes", .seq [info "NodeId" "node-id", metric "Latitude" "latitude", metric "Longitude" "longitude"]),
        ("edges", dict [
            ("will_normalize_metrics_by_mean", plain "true"),
            ("data", .seq [
                info "SrcId" "src-id", info "DstId" "dst-id", metric "Meters" "meters",
                metric "KilometersPerHour" "kmph"])]),
        ("generating", dict [
            ("nodes", .seq []),
            ("edges", .seq [
                dict [
                  ("convert", dict [("from", unitOf "Meters" "meters"), ("to", unitOf "Kilometers" "kilometers")])],
                dict [
                  ("calc", dict [
                      ("result", unitOf "Hours" "hours"),
                      ("a", unitOf "Kilometers" "kilometers"),
                      ("b", unitOf "KilometersPerHour" "kmph")])]])])]),
    ("writing", dict [
        ("route-pairs", dict [
            ("file", quoted "resources/simple_stuttgart/all_31.route-pairs"),
            ("random_or_all", dict [("max_count", plain "100")])])]),
    ("routing", dict [("metrics", .seq [col "kilometers"])])]

/-- `resources/small/ch.fmi.yaml` -/
def smallChFmi : Yaml :=
  dict [
    ("parsing", dict [
        ("map-file", quoted "resources/small/graph.ch.fmi"),
        ("vehicles", dict [("category", quoted "Car"), ("are_drivers_picky", plain "false")]),
        ("nodes", .seq [
            info "NodeId" "node-id", plain "ignored", metric "Latitude" "latitude",
            metric "Longitude" "longitude", plain "ignored", info "CHLevel" "ch-level"]),
        ("edges", dict [
            ("data", .seq [
                info "SrcId" "src-id", info "DstId" "dst-id", metric "Meters" "meters",
                metric "Seconds" "seconds", info "ShortcutIdx0" "sc-idx-0", info "ShortcutIdx1" "sc-idx-1"])]),
        ("generating", dict [
            ("nodes", .seq []),
            ("edges", .seq [
                dict [
                  ("convert", dict [("from", unitOf "Meters" "meters"), ("to", unitOf "Kilometers" "kilometers")])],
                dict [
                  ("convert", dict [("from", unitOf "Seconds" "seconds"), ("to", unitOf "Hours" "hours")])]])])]),
    ("writing", dict [
        ("route-pairs", dict [
            ("file", quoted "resources/small/all_43.ch.fmi.route-pairs"),
            ("random_or_all", dict [("max_count", plain "100")])])])]

/-- `resources/small/fmi.yaml` -/
def smallFmi : Yaml :=
  dict [
    ("parsing", dict [
        ("map-file", quoted "resources/small/graph.fmi"),
        ("vehicles", dict [("category", quoted "Car"), ("are_drivers_picky", plain "false")]),
        ("nodes", .seq [info "NodeId" "node-id", metric "Latitude" "latitude", metric "Longitude" "longitude"]),
        ("edges", dict [
            ("data", .seq [
                info "SrcId" "src-id", info "DstId" "dst-id", metric "Meters" "meters",
                metric "KilometersPerHour" "kmph"])]),
        ("generating", dict [
            ("nodes", .seq []),
            ("edges", .seq [
                dict [
                  ("convert", dict [("from", unitOf "Meters" "meters"), ("to", unitOf "Kilometers" "kilometers")])],
                dict [
                  ("calc", dict [
                      ("result", unitOf "Hours" "hours"),
                      ("a", unitOf "Kilometers" "kilometers"),
                      ("b", unitOf "KilometersPerHour" "kmph")])]])])]),
    ("writing", dict [
        ("route-pairs", dict [
            ("file", quoted "resources/small/all_43.fmi.route-pairs"),
            ("random_or_all", dict [("max_count", plain "100")])])])]

/-- `resources/stuttgart-regbez_2019-09-07/balancing/config.yaml` -/
def regbezBalConfig : Yaml :=
  dict [
    ("parsing", dict [
        ("map-file", quoted "resources/stuttgart-regbez_2019-09-07/graph.osm.pbf"),
        ("vehicles", dict [("category", quoted "Car"), ("are_drivers_picky", plain "false")]),
        ("nodes", .seq [info "NodeId" "node-id", metric "Latitude" "latitude", metric "Longitude" "longitude"]),
        ("edges", dict [
            ("data", .seq [
                info "SrcId" "src-id", info "DstId" "dst-id", metric "KilometersPerHour" "kmph",
                metric "LaneCount" "lane-count"])]),
        ("generating", dict [
            ("nodes", .seq [info "NodeIdx" "node-idx"]),
            ("edges", .seq [
                info "SrcIdx" "src-idx", info "DstIdx" "dst-idx", info "EdgeId" "edge-id",
                dict [("haversine", unitOf "Kilometers" "kilometers")],
                dict [
                  ("calc", dict [
                      ("result", unitOf "Hours" "hours"),
                      ("a", unitOf "Kilometers" "kilometers"),
                      ("b", unitOf "KilometersPerHour" "kmph")])],
                dict [
                  ("custom", dict [("id", quoted "workload"), ("unit", quoted "F64"), ("default", plain "1.0")])]])])]),
    ("balancing", dict [
        ("seed", plain "42"),
        ("number_of_threads", plain "15"),
        ("results-dir", quoted "custom/results/stuttgart-regbez_2019-09-07"),
        ("iter-0-cfg", quoted "resources/stuttgart-regbez_2019-09-07/balancing/init.yaml"),
        ("iter-i-cfg", quoted "resources/stuttgart-regbez_2019-09-07/balancing/iteration.yaml"),
        ("optimizing_with", plain "averaging"),
        ("number_of_metric-updates", plain "2"),
        ("multi-ch-constructor", dict [
            ("fmi-graph", quoted "graph.fmi"),
            ("contracted-graph", quoted "graph.ch.fmi"),
            ("dimension", plain "3"),
            ("contraction-ratio", quoted "99.8"),
            ("number_of_threads", plain "15"),
            ("is_printing_osm-ids", plain "true"),
            ("is_using_external_edge-ids", plain "true")]),
        ("monitoring", dict [
            ("distance", quoted "kilometers"),
            ("lane-count", quoted "lane-count"),
            ("workload", quoted "workload"),
            ("will_denormalize_metrics_by_mean", plain "false")]),
        ("min_new_metric", plain "0.1")]),
    ("routing", dict [
        ("route-pairs-file", quoted "resources/stuttgart-regbez_2019-09-07/10_000.route-pairs"),
        ("algorithm", quoted "CHDijkstra"),
        ("metrics", .seq [
            col "kilometers", dict [("id", quoted "hours"), ("tolerated-scale", plain "1.25")], col "workload"])]),
    ("writing", dict [
        ("graph", dict [
            ("map-file", quoted "balanced_graph.fmi"),
            ("nodes", .seq [col "node-idx", col "node-id", col "latitude", col "longitude"]),
            ("edges", dict [
                ("with_shortcuts", plain "false"),
                ("will_denormalize_metrics_by_mean", plain "false"),
                ("ids", .seq [
                    col "src-id", col "dst-id", col "kilometers", col "hours", col "lane-count",
                    col "workload"])])])])]

/-- `resources/stuttgart-regbez_2019-09-07/balancing/init.yaml` -/
def regbezBalInit : Yaml :=
  dict [
    ("writing", dict [
        ("graph", dict [
            ("map-file", quoted "graph.fmi"),
            ("nodes", .seq [
                col "node-idx", col "node-id", col "latitude", col "longitude", plain "ignored",
                plain "ignored"]),
            ("edges", dict [
                ("with_shortcuts", plain "false"),
                ("will_denormalize_metrics_by_mean", plain "false"),
                ("ids", .seq [
                    col "edge-id", col "src-idx", col "dst-idx", col "kilometers", col "hours",
                    plain "ignored", plain "ignored"])])]),
        ("edges-info", dict [
            ("file", quoted "edges-info.csv"),
            ("with_shortcuts", plain "false"),
            ("will_denormalize_metrics_by_mean", plain "false"),
            ("ids", .seq [col "edge-id", col "lane-count"])])]),
    ("parsing", dict [
        ("map-file", quoted "graph.ch.fmi"),
        ("vehicles", dict [("category", quoted "Car"), ("are_drivers_picky", plain "false")]),
        ("nodes", .seq [
            plain "ignored", info "NodeId" "node-id", metric "Latitude" "latitude",
            metric "Longitude" "longitude", plain "ignored", info "CHLevel" "ch-level"]),
        ("edges", dict [
            ("will_normalize_metrics_by_mean", plain "false"),
            ("data", .seq [
                info "EdgeId" "edge-id", info "SrcId" "src-id", info "DstId" "dst-id",
                metric "Kilometers" "kilometers", metric "Hours" "hours", info "ShortcutIdx0" "sc-idx-0",
                info "ShortcutIdx1" "sc-idx-1"])]),
        ("generating", dict [
            ("nodes", .seq [info "NodeIdx" "node-idx"]),
            ("edges", .seq [
                info "SrcIdx" "src-idx", info "DstIdx" "dst-idx",
                dict [
                  ("custom", dict [("id", quoted "workload"), ("unit", quoted "F64"), ("default", plain "1.0")])],
                dict [
                  ("custom", dict [
                      ("id", quoted "lane-count"),
                      ("unit", quoted "LaneCount"),
                      ("default", plain "1.0")])],
                dict [
                  ("merge", dict [
                      ("from", quoted "edges-info.csv"),
                      ("edge-id", quoted "edge-id"),
                      ("edges-info", .seq [col "edge-id", col "lane-count"])])]])])])]

/-- `resources/stuttgart-regbez_2019-09-07/balancing/iteration.yaml` -/
def regbezBalIteration : Yaml :=
  dict [
    ("writing", dict [
        ("graph", dict [
            ("map-file", quoted "graph.fmi"),
            ("nodes", .seq [
                col "node-idx", col "node-id", col "latitude", col "longitude", plain "ignored",
                plain "ignored"]),
            ("edges", dict [
                ("with_shortcuts", plain "false"),
                ("will_denormalize_metrics_by_mean", plain "false"),
                ("ids", .seq [
                    col "edge-id", col "src-idx", col "dst-idx", col "kilometers", col "hours", col "workload",
                    plain "ignored", plain "ignored"])])]),
        ("edges-info", dict [
            ("file", quoted "edges-info.csv"),
            ("with_shortcuts", plain "false"),
            ("will_denormalize_metrics_by_mean", plain "false"),
            ("ids", .seq [col "edge-id", col "lane-count"])])]),
    ("parsing", dict [
        ("map-file", quoted "graph.ch.fmi"),
        ("vehicles", dict [("category", quoted "Car"), ("are_drivers_picky", plain "false")]),
        ("nodes", .seq [
            plain "ignored", info "NodeId" "node-id", metric "Latitude" "latitude",
            metric "Longitude" "longitude", plain "ignored", info "CHLevel" "ch-level"]),
        ("edges", dict [
            ("will_normalize_metrics_by_mean", plain "false"),
            ("data", .seq [
                info "EdgeId" "edge-id", info "SrcId" "src-id", info "DstId" "dst-id",
                metric "Kilometers" "kilometers", metric "Hours" "hours", metric "F64" "workload",
                info "ShortcutIdx0" "sc-idx-0", info "ShortcutIdx1" "sc-idx-1"])]),
        ("generating", dict [
            ("nodes", .seq [info "NodeIdx" "node-idx"]),
            ("edges", .seq [
                info "SrcIdx" "src-idx", info "DstIdx" "dst-idx",
                dict [
                  ("custom", dict [
                      ("id", quoted "lane-count"),
                      ("unit", quoted "LaneCount"),
                      ("default", plain "1.0")])],
                dict [
                  ("merge", dict [
                      ("from", quoted "edges-info.csv"),
                      ("edge-id", quoted "edge-id"),
                      ("edges-info", .seq [col "edge-id", col "lane-count"])])]])])])]

/-- `resources/stuttgart-regbez_2019-09-07/ch.fmi.yaml` -/
def regbezChFmi : Yaml :=
  dict [
    ("parsing", dict [
        ("map-file", quoted "resources/stuttgart-regbez_2019-09-07/graph.ch.fmi"),
        ("vehicles", dict [("category", quoted "Car"), ("are_drivers_picky", plain "false")]),
        ("nodes", .seq [
            plain "ignored", info "NodeId" "node-id", metric "Latitude" "latitude",
            metric "Longitude" "longitude", plain "ignored", info "CHLevel" "ch-level"]),
        ("edges", dict [
            ("data", .seq [
                info "SrcId" "src-id", info "DstId" "dst-id", metric "Kilometers" "kilometers",
                metric "Hours" "hours", plain "ignored", info "ShortcutIdx0" "sc-idx-0",
                info "ShortcutIdx1" "sc-idx-1"])])]),
    ("writing", dict [
        ("route-pairs", dict [
            ("file", quoted "resources/stuttgart-regbez_2019-09-07/10_000.route-pairs"),
            ("random_or_all", dict [("max_count", plain "10000")])])]),
    ("routing", dict [
        ("route-pairs-file", quoted "resources/stuttgart-regbez_2019-09-07/10_000.route-pairs"),
        ("algorithm", quoted "CHDijkstra"),
        ("metrics", .seq [col "kilometers"])])]

/-- `resources/stuttgart-regbez_2019-09-07/fmi.yaml` -/
def regbezFmi : Yaml :=
  dict [
    ("parsing", dict [
        ("map-file", quoted "resources/stuttgart-regbez_2019-09-07/graph.fmi"),
        ("vehicles", dict [("category", quoted "Car"), ("are_drivers_picky", plain "false")]),
        ("nodes", .seq [
            info "NodeId" "node-id", plain "ignored", metric "Latitude" "latitude",
            metric "Longitude" "longitude"]),
        ("edges", dict [
            ("data", .seq [
                info "SrcId" "src-id", info "DstId" "dst-id", metric "Kilometers" "kilometers",
                metric "Hours" "hours", plain "ignored"])])]),
    ("routing", dict [
        ("route-pairs-file", quoted "resources/stuttgart-regbez_2019-09-07/10_000.route-pairs"),
        ("algorithm", quoted "Dijkstra"),
        ("metrics", .seq [col "kilometers"])])]

/-- `resources/stuttgart-regbez_2019-09-07/osm.pbf.yaml` -/
def regbezOsmPbf : Yaml :=
  dict [
    ("parsing", dict [
        ("map-file", quoted "resources/stuttgart-regbez_2019-09-07/graph.osm.pbf"),
        ("vehicles", dict [("category", quoted "Car"), ("are_drivers_picky", plain "false")]),
        ("nodes", .seq [info "NodeId" "node-id", metric "Latitude" "latitude", metric "Longitude" "longitude"]),
        ("edges", dict [
            ("data", .seq [
                info "SrcId" "src-id", info "DstId" "dst-id", plain "ignored",
                metric "KilometersPerHour" "kmph", metric "LaneCount" "lanecount"])]),
        ("generating", dict [
            ("nodes", .seq [info "NodeIdx" "node-idx"]),
            ("edges", .seq [
                info "SrcIdx" "src-idx", info "DstIdx" "dst-idx",
                dict [("haversine", unitOf "Kilometers" "kilometers")],
                dict [
                  ("calc", dict [
                      ("result", unitOf "Hours" "hours"),
                      ("a", unitOf "Kilometers" "kilometers"),
                      ("b", unitOf "KilometersPerHour" "kmph")])]])])]),
    ("routing", dict [
        ("route-pairs-file", quoted "resources/stuttgart-regbez_2019-09-07/10_000.route-pairs"),
        ("algorithm", quoted "Dijkstra"),
        ("metrics", .seq [col "kilometers"])]),
    ("writing", dict [
        ("route-pairs", dict [
            ("file", quoted "resources/saarland_2020-07-30/10_000.route-pairs"),
            ("random_or_all", dict [("max_count", plain "10000")])])])]

/-- `resources/stuttgart-regbez_2019-09-07/pbf_to_fmi.yaml` -/
def regbezPbfToFmi : Yaml :=
  dict [
    ("parsing", dict [
        ("map-file", quoted "resources/stuttgart-regbez_2019-09-07/graph.osm.pbf"),
        ("vehicles", dict [("category", quoted "Car"), ("are_drivers_picky", plain "false")]),
        ("nodes", .seq [info "NodeId" "node-id", metric "Latitude" "latitude", metric "Longitude" "longitude"]),
        ("edges", dict [
            ("data", .seq [
                info "SrcId" "src-id", info "DstId" "dst-id", metric "KilometersPerHour" "kmph",
                metric "LaneCount" "lane-count"])]),
        ("generating", dict [
            ("nodes", .seq [info "NodeIdx" "node-idx"]),
            ("edges", .seq [
                info "SrcIdx" "src-idx", info "DstIdx" "dst-idx",
                dict [("haversine", unitOf "Kilometers" "kilometers")],
                dict [
                  ("calc", dict [
                      ("result", unitOf "Hours" "hours"),
                      ("a", unitOf "Kilometers" "kilometers"),
                      ("b", unitOf "KilometersPerHour" "kmph")])]])])]),
    ("writing", dict [
        ("route-pairs", dict [
            ("file", quoted "resources/stuttgart-regbez_2019-09-07/10_000.route-pairs"),
            ("random_or_all", dict [("max_count", plain "10000")])]),
        ("graph", dict [
            ("map-file", quoted "resources/stuttgart-regbez_2019-09-07/graph.fmi"),
            ("nodes", .seq [
                col "node-idx", col "node-id", col "latitude", col "longitude", plain "ignored",
                plain "ignored"]),
            ("edges", .seq [
                col "src-idx", col "dst-idx", col "kilometers", col "hours", col "lane-count", plain "ignored",
                plain "ignored"])])])]

/-- Documents without the following. -/
def fine : List Yaml :=
  [baitFmi, isleBalConfig, isleBalEvalDijkstra0Config, isleBalEvalDijkstra1Config, isleBalEvalExpl0Config,
   isleBalEvalExpl1Config, isleBalInit, isleBalIteration, isleChFmi, isleFmi, isleFmiToCh, isleOsmPbf,
   islePbfToFmi, saarlandBalConfig, saarlandBalEvalDijkstra0Config, saarlandBalEvalDijkstra1Config,
   saarlandBalEvalExpl0Config, saarlandBalEvalExpl1Config, saarlandBalInit, saarlandBalIteration,
   saarlandChFmi, saarlandFmi, saarlandFmiToCh, saarlandOsmPbf, saarlandPbfToFmi, simpleFmi, smallChFmi,
   smallFmi, regbezBalInit, regbezBalIteration, regbezChFmi, regbezFmi, regbezOsmPbf]

/-- Documents with a section that is rejected. -/
def broken : List Yaml := [simpleNormalizedFmi, regbezBalConfig, regbezPbfToFmi]

/-- All documents. -/
def all : List Yaml := fine ++ broken

end Verif.Shipped
