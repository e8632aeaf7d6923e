import Verif.StreetRoutesLemmas
import Verif.ConfigProps
import Verif.NearProps

/-!
# C70: routes on a map follow its streets
-/

namespace Verif.Osm

open Cfg Build Gen Dij Search
open Approx (Coord)

section
variable {K : Type} [LinearOrder K] [Zero K] [Add K] {h : Heap K} {dotp : List ℚ → List ℚ → K} {fuel n maxDim : Nat}
  {s s' : St K} {src dst : Nat} {c : Parsing} {file : List (Option Obj)} {env : Gen.Env} {gen : Option Generating}
  {g : Graph} {net : Net} {al : List ℚ} {a b : Int} {algo : Algo}

/-- C70: a path on a parsed, generated and possibly normalized map is a trip along usable streets of the file, in
allowed directions, between the asked nodes: its edges lead to the nodes of the trip. -/
theorem C70_streets {p : Path} (hp : parse maxDim c file = .ok (.ok g))
    (hf : finish env gen ⟨g, c.nodes, c.edges⟩ = .ok net) (hk : AddOk K)
    (hw : ∀ m ∈ net.graph.metrics, 0 ≤ dotp al m) (hsrc : net.graph.nodeId src = .ok a)
    (hdst : net.graph.nodeId dst = .ok b) (hu : Used h dotp n s)
    (hc : computeBestPath h dotp fuel s ⟨src, dst, net.graph, algo, al⟩ = some (.ok (s', some p))) :
    p.srcId = a ∧ p.dstId = b ∧ ∃ trip, Trip c file a trip b ∧
      List.Forall₂ (fun e x => ∃ w, net.graph.dstIdx .fwd e = .ok w ∧ net.graph.nodeId w = .ok x.1) p.edges trip := by
  have hwf := C54_wellformed hf (built_wellFormed (parse_build hp).2)
  obtain ⟨h1, -, -, h2, h3, -⟩ := C13_route (q := ⟨src, dst, net.graph, algo, al⟩) hwf hk hw
    (nodeId_lt hsrc) (nodeId_lt hdst) hu hc
  exact ⟨Res.ok.inj (h2.symm.trans hsrc), Res.ok.inj (h3.symm.trans hdst),
    trip_of_route hp (C54_topology hf) h1 hsrc hdst⟩

/-- C70: there is no path iff there is no trip. -/
theorem C70_none_iff {ans : Option Path} (hp : parse maxDim c file = .ok (.ok g))
    (hf : finish env gen ⟨g, c.nodes, c.edges⟩ = .ok net) (hk : AddOk K)
    (hw : ∀ m ∈ net.graph.metrics, 0 ≤ dotp al m) (hal : ∀ x ∈ al, 0 ≤ x) (hsrc : net.graph.nodeId src = .ok a)
    (hdst : net.graph.nodeId dst = .ok b) (hu : Used h dotp n s)
    (hc : computeBestPath h dotp fuel s ⟨src, dst, net.graph, .dijkstra, al⟩ = some (.ok (s', ans))) :
    ans = none ↔ ¬ ∃ trip, Trip c file a trip b := by
  have hwf := C54_wellformed hf (built_wellFormed (parse_build hp).2)
  rw [C15_none_iff (q := ⟨src, dst, net.graph, .dijkstra, al⟩) hwf hk hw hal rfl (nodeId_lt hsrc)
    (nodeId_lt hdst) hu hc, not_iff_not]
  constructor
  · rintro ⟨l, hl⟩
    obtain ⟨trip, h1, -⟩ := trip_of_route hp (C54_topology hf) hl hsrc hdst
    exact ⟨trip, h1⟩
  · rintro ⟨trip, h1⟩
    exact route_of_trip hp (C54_topology hf) h1 hsrc hdst

end

section
variable {fuel n maxDim : Nat} {c : Parsing} {file : List (Option Obj)} {env : Gen.Env}
  {gen : Generating} {g : Graph} {net : Net} {speed length time : Text} {k : Nat}

/-- What generating gives with such a configuration. -/
theorem net_ok (hp : parse maxDim c file = .ok (.ok g)) (hf : finish env (some gen) ⟨g, c.nodes, c.edges⟩ = .ok net)
    (ht : TimeConfig c gen speed length time) :
    net.edges.ids.Nodup ∧ Consistent (⟨g, c.nodes, c.edges⟩ : Net) ∧ Consistent net ∧
      generate env (some gen) ⟨g, c.nodes, c.edges⟩ = .ok net := by
  obtain ⟨hpre, hb⟩ := parse_build hp
  have hcons : Consistent (⟨g, c.nodes, c.edges⟩ : Net) := C54_start ht.parsed hb (fun e he => by
    obtain ⟨-, tags, s, -, -, -, -, -, -, -, hm⟩ := (C31_file c file e).mp he
    have := congrArg List.length (C31_metrics ht.parsed hpre s tags)
    rw [List.length_map, List.length_map] at this
    rw [hm, this]) c.nodes
  have huniq : UniqueIds c.edges.cats := (C43_parsed _ _).1.mp ⟨_, ht.parsed⟩
  have hconv : ∀ x y, GenCat.convert x y ∉ gen.edges := fun x y hm => ht.adds _ hm trivial
  have hnorm : c.edges.normalized = false := by
    have := ht.parsed
    unfold Edges.tryFrom at this
    split at this
    · exact absurd this (by simp)
    · rw [← Except.ok.inj this]
  have hu := (C43_generated hf huniq hconv).mpr ht.names
  simp only [finish, Res.bind_eq_ok] at hf
  obtain ⟨t, hg, hn⟩ := hf
  obtain ⟨u, hu1, hu2, -, hgen⟩ := generate_ok hg
  have hn' := (keeps_edges hgen).norm
  rw [C27_off (by rw [hn', hu2]; exact hnorm), Res.ok.injEq] at hn
  subst hn
  have hcu : Consistent u := ⟨by rw [hu2]; exact hcons.metrics, by rw [hu2]; exact hcons.len,
    by rw [hu1, hu2]; exact hcons.dim, by rw [hu1, hu2]; exact hcons.values⟩
  have hcn : Consistent t := foldlM_ind hgen Consistent hcu fun x hx _ _ h1 h2 => step_consistent h2 (ht.adds x hx) h1
  exact ⟨hcn.nodup hu, hcons, hcn, hg⟩

/-- The minutes of an edge that stands for this record. -/
theorem minutes_of_record (hp : parse maxDim c file = .ok (.ok g))
    (hf : finish env (some gen) ⟨g, c.nodes, c.edges⟩ = .ok net)
    (ht : TimeConfig c gen speed length time) (hk : net.edges.ids[k]? = some time) {e : Nat} {pe : ProtoEdge}
    {s : Street} {tags : Tags} (hE : EdgeIs g e pe) (hm : pe.metrics = wayMetrics c.edges.cats s tags) :
    ∃ x y, position file pe.srcId = some x ∧ position file pe.dstId = some y ∧
      value net.graph.metrics e k = some (60 * (env.haversine x y / (parseMaxspeed s tags : ℚ))) := by
  obtain ⟨hpre, hb⟩ := parse_build hp
  have hwf := built_wellFormed hb
  have htopo := C54_topology hf
  obtain ⟨hnd, hcons, -, hg⟩ := net_ok hp hf ht
  obtain ⟨w, hw, hws⟩ := hE.dst
  obtain ⟨u, hu, hus⟩ := hE.src
  have hlt : e < net.graph.edgeCount := by
    rw [edgeCount_topo htopo]
    exact Dij.edge_lt hwf hw
  have hinj : ∀ {i j : Nat} {id : Text}, net.edges.ids[i]? = some id → net.edges.ids[j]? = some id → i = j := by
    intro i j id h1 h2
    rw [← idxOf_iff hnd] at h1 h2
    exact Res.ok.inj (h1.symm.trans h2)
  obtain ⟨k0, hk0, hk0u⟩ : ∃ k0 : Nat, c.edges.ids[k0]? = some speed ∧ c.edges.units[k0]? = some .kmh := by
    have h1 : (Cfg.Unit.kmh, speed) ∈ List.zip c.edges.units c.edges.ids := by
      rw [hcons.metrics]
      exact List.mem_filterMap.mpr ⟨_, ht.hasSpeed, rfl⟩
    obtain ⟨i, hi⟩ := List.mem_iff_getElem?.mp h1
    rw [List.getElem?_zip_eq_some] at hi
    exact ⟨i, hi.2, hi.1⟩
  obtain ⟨hmk, hval⟩ := C55_kept hg ht.adds hcons hwf (k := k0) ⟨hk0, hk0u⟩
  have hv0 := hval e _ (parsed_speed ht.parsed hpre hk0u hE hm)
  obtain ⟨-, k1, hk1, h1⟩ := C55_generated hg ht.adds hcons hwf _ ht.hasLength
  obtain ⟨u', w', x, y, he', hx, hy, hv1⟩ := h1 e hlt
  obtain rfl : w' = w := Res.ok.inj (he'.1.symm.trans (((isEdge_topo htopo e u w).mpr ⟨hw, hu⟩).1))
  obtain rfl : u' = u := Res.ok.inj (he'.2.symm.trans (((isEdge_topo htopo e u w').mpr ⟨hw, hu⟩).2))
  obtain ⟨i, j, k', hi, hj, hk', h2⟩ := C55_generated hg ht.adds hcons hwf _ ht.hasTime
  obtain ⟨vi, vj, vk, hvi, hvj, hvk, hcalc⟩ := h2 e hlt
  obtain rfl := hinj hi hk1.1
  obtain rfl := hinj hj hmk.1
  obtain rfl := hinj hk'.1 hk
  rw [hvi, Option.some.injEq] at hv1
  rw [hvj, Option.some.injEq] at hv0
  subst hv1 hv0
  obtain ⟨x', hx', hx''⟩ := coord_position hp hus
  obtain ⟨y', hy', hy''⟩ := coord_position hp hws
  rw [nodeCoord_topo htopo] at hx hy
  obtain rfl : x' = x := Res.ok.inj (hx''.symm.trans hx)
  obtain rfl : y' = y := Res.ok.inj (hy''.symm.trans hy)
  refine ⟨x', y', hx', hy', ?_⟩
  rw [hvk]
  have h5 : (parseMaxspeed s tags : ℚ) ≠ 0 := by
    have : (5 : ℚ) ≤ parseMaxspeed s tags := by exact_mod_cast C32_speed s tags
    linarith
  have hq := hcalc.2.2
  simp only [Unit.size] at hq
  congr 1
  field_simp at hq ⊢
  linarith

/-- C70: with such a configuration, the minutes of every edge are those of a drive between its ends. -/
theorem C70_minutes (hp : parse maxDim c file = .ok (.ok g))
    (hf : finish env (some gen) ⟨g, c.nodes, c.edges⟩ = .ok net)
    (ht : TimeConfig c gen speed length time) (hk : net.edges.ids[k]? = some time) {e u w : Nat}
    (he : net.graph.IsEdge e u w) :
    ∃ a b v x y, net.graph.nodeId u = .ok a ∧ net.graph.nodeId w = .ok b ∧ Drive c file a b v ∧
      position file a = some x ∧ position file b = some y ∧
      value net.graph.metrics e k = some (60 * (env.haversine x y / (v : ℚ))) := by
  have htopo := C54_topology hf
  have he0 := (isEdge_topo htopo e u w).mp he
  have hbd := (parse_build hp).2
  obtain ⟨pe, hpe, hE⟩ := C05_no_edge_invented hbd (Dij.edge_lt (built_wellFormed hbd) he0.1)
  obtain ⟨nodes, tags, s, d, h1, h2, h3, h4, -, -, h5⟩ := (C31_file c file pe).mp hpe
  obtain ⟨x, y, hx, hy, hv⟩ := minutes_of_record hp hf ht hk hE h5
  obtain ⟨w', hw', hws⟩ := hE.dst
  obtain ⟨u', hu', hus⟩ := hE.src
  obtain rfl : w' = w := Res.ok.inj (hw'.symm.trans he0.1)
  obtain rfl : u' = u := Res.ok.inj (hu'.symm.trans he0.2)
  exact ⟨pe.srcId, pe.dstId, parseMaxspeed s tags, x, y, by rw [nodeId_topo htopo]; exact hus,
    by rw [nodeId_topo htopo]; exact hws, ⟨nodes, tags, s, d, h1, h2, h3, h4, rfl⟩, hx, hy, hv⟩

/-- C70: and every drive has an edge with its minutes: no street is replaced by a slower or faster one. -/
theorem C70_every_drive (hp : parse maxDim c file = .ok (.ok g))
    (hf : finish env (some gen) ⟨g, c.nodes, c.edges⟩ = .ok net)
    (ht : TimeConfig c gen speed length time) (hk : net.edges.ids[k]? = some time) {a b : Int} {v : Nat}
    (hd : Drive c file a b v) :
    ∃ e u w x y, net.graph.IsEdge e u w ∧ net.graph.nodeId u = .ok a ∧ net.graph.nodeId w = .ok b ∧
      position file a = some x ∧ position file b = some y ∧
      value net.graph.metrics e k = some (60 * (env.haversine x y / (v : ℚ))) := by
  have htopo := C54_topology hf
  obtain ⟨hpre, hbd⟩ := parse_build hp
  obtain ⟨nodes, tags, s, d, h1, h2, h3, h4, rfl⟩ := hd
  have hpe : (⟨none, a, b, wayMetrics c.edges.cats s tags, none⟩ : ProtoEdge) ∈ parseWays c file :=
    (C31_file c file _).mpr ⟨nodes, tags, s, d, h1, h2, h3, h4, rfl, rfl, rfl⟩
  obtain ⟨e, -, pe', hpe', hE, hor⟩ := C05_no_edge_lost hbd hpe
  obtain ⟨nodes', tags', s', d', g1, g2, g3, g4, -, -, g5⟩ := (C31_file c file pe').mp hpe'
  obtain ⟨x, y, hx, hy, hv⟩ := minutes_of_record hp hf ht hk hE g5
  obtain ⟨w, hw, hws⟩ := hE.dst
  obtain ⟨u, hu, hus⟩ := hE.src
  have hsame : pe'.srcId = a ∧ pe'.dstId = b := by
    rcases hor with rfl | hs
    · exact ⟨rfl, rfl⟩
    · exact ⟨hs.2.1, hs.2.2.1⟩
  have hspeed : parseMaxspeed s' tags' = parseMaxspeed s tags := by
    obtain ⟨-, hcons, -⟩ := net_ok hp hf ht
    obtain ⟨k0, hk0u⟩ : ∃ k0 : Nat, c.edges.units[k0]? = some .kmh := by
      have h1 : (Cfg.Unit.kmh, speed) ∈ List.zip c.edges.units c.edges.ids := by
        rw [hcons.metrics]
        exact List.mem_filterMap.mpr ⟨_, ht.hasSpeed, rfl⟩
      obtain ⟨i, hi⟩ := List.mem_iff_getElem?.mp h1
      rw [List.getElem?_zip_eq_some] at hi
      exact ⟨i, hi.1⟩
    have key : ∀ s tags, (wayMetrics c.edges.cats s tags)[k0]? = some (parseMaxspeed s tags : ℚ) := fun s tags => by
      have h1 := congrArg (fun l => l[k0]?) (C31_metrics ht.parsed hpre s tags)
      simp only [List.getElem?_map, hk0u, Option.map_some, metricOf, Option.map_eq_some_iff, Option.some.injEq] at h1
      obtain ⟨x, hx, rfl⟩ := h1
      exact hx
    rcases hor with rfl | hs
    · have := (key s' tags').symm.trans ((congrArg (fun l => l[k0]?) g5.symm).trans (key s tags))
      rw [Option.some.injEq] at this
      exact_mod_cast this
    · have h1 := hs.2.2.2 k0 _ _ (by rw [g5]; exact key s' tags') (key s tags)
      have h2 : ((|(parseMaxspeed s' tags' : ℤ) - parseMaxspeed s tags| : ℤ) : ℚ) < 1 := by
        push_cast
        linarith
      have h3 : |(parseMaxspeed s' tags' : ℤ) - parseMaxspeed s tags| < 1 := by exact_mod_cast h2
      rw [abs_lt] at h3
      omega
  rw [hsame.1] at hus hx
  rw [hsame.2] at hws hy
  rw [hspeed] at hv
  exact ⟨e, u, w, x, y, (isEdge_topo htopo e u w).mpr ⟨hw, hu⟩, by rw [nodeId_topo htopo]; exact hus,
    by rw [nodeId_topo htopo]; exact hws, hx, hy, hv⟩

theorem edge_minutes {e : Nat} {al : List ℚ} {x : ℚ} (hal : Only al k) (hv : value net.graph.metrics e k = some x) :
    (List.zipWith (· * ·) al ((net.graph.metrics[e]?).getD [])).sum = x := by
  unfold value at hv
  rw [Option.bind_eq_some_iff] at hv
  obtain ⟨m, hm, hv⟩ := hv
  rw [hm]
  exact only_dot hal.1 (fun j x hj hx => hal.2 j x hj hx) hv

/-- The cost of a route is the duration of a trip. -/
theorem trip_cost (hp : parse maxDim c file = .ok (.ok g))
    (hf : finish env (some gen) ⟨g, c.nodes, c.edges⟩ = .ok net)
    (ht : TimeConfig c gen speed length time) (hk : net.edges.ids[k]? = some time) {al : List ℚ} (hal : Only al k)
    {l : List Nat} {u v : Nat} {a b : Int} (hr : net.graph.IsRoute u l v) (ha : net.graph.nodeId u = .ok a)
    (hb : net.graph.nodeId v = .ok b) :
    ∃ trip, Trip c file a trip b ∧ Takes env.haversine file a trip (routeCost net.graph al l) ∧
      List.Forall₂ (fun e x => ∃ w, net.graph.dstIdx .fwd e = .ok w ∧ net.graph.nodeId w = .ok x.1) l trip := by
  induction l generalizing u a with
  | nil =>
    obtain rfl : u = v := hr
    rw [ha] at hb
    exact ⟨[], Res.ok.inj hb, rfl, .nil⟩
  | cons e l ih =>
    obtain ⟨w, he, hr⟩ := hr
    obtain ⟨a', b', sp, x, y, ha', hb', hd, hx, hy, hv⟩ := C70_minutes hp hf ht hk he
    obtain rfl : a' = a := Res.ok.inj (ha'.symm.trans ha)
    obtain ⟨trip, h1, h2, h3⟩ := ih hr hb'
    refine ⟨(b', sp) :: trip, ⟨hd, h1⟩, ⟨x, y, _, hx, hy, h2, ?_⟩, .cons ⟨w, he.1, hb'⟩ h3⟩
    simp only [routeCost, List.map_cons, List.sum_cons, edge_minutes hal hv]

/-- Every trip has a route with its duration as cost. -/
theorem route_cost (hp : parse maxDim c file = .ok (.ok g))
    (hf : finish env (some gen) ⟨g, c.nodes, c.edges⟩ = .ok net)
    (ht : TimeConfig c gen speed length time) (hk : net.edges.ids[k]? = some time) {al : List ℚ} (hal : Only al k)
    {trip : List (Int × Nat)} {u v : Nat} {a b : Int} {t : ℚ} (hr : Trip c file a trip b)
    (htk : Takes env.haversine file a trip t) (ha : net.graph.nodeId u = .ok a) (hb : net.graph.nodeId v = .ok b) :
    ∃ l, net.graph.IsRoute u l v ∧ routeCost net.graph al l = t := by
  have hwf := C54_wellformed hf (built_wellFormed (parse_build hp).2)
  induction trip generalizing u a t with
  | nil =>
    obtain rfl : a = b := hr
    obtain rfl : t = 0 := htk
    exact ⟨[], nodeId_inj hwf ha hb, rfl⟩
  | cons s trip ih =>
    obtain ⟨hd, hr⟩ := hr
    obtain ⟨x, y, t', hx, hy, htk, rfl⟩ := htk
    obtain ⟨e, u', w, x', y', he, hu', hw, hx', hy', hv⟩ := C70_every_drive hp hf ht hk hd
    obtain rfl := nodeId_inj hwf hu' ha
    obtain ⟨l, hl, rfl⟩ := ih hr htk hw
    refine ⟨e :: l, ⟨w, he, hl⟩, ?_⟩
    rw [hx, Option.some.injEq] at hx'
    rw [hy, Option.some.injEq] at hy'
    subst hx' hy'
    simp only [routeCost, List.map_cons, List.sum_cons, edge_minutes hal hv]

theorem minutes_nonneg (hp : parse maxDim c file = .ok (.ok g))
    (hf : finish env (some gen) ⟨g, c.nodes, c.edges⟩ = .ok net)
    (ht : TimeConfig c gen speed length time) (hk : net.edges.ids[k]? = some time) {al : List ℚ} (hal : Only al k)
    (hdist : ∀ x y, 0 ≤ env.haversine x y) : ∀ m ∈ net.graph.metrics, 0 ≤ dot al m := by
  intro m hm
  have hbd := (parse_build hp).2
  have hwf := C54_wellformed hf (built_wellFormed hbd)
  obtain ⟨e, he⟩ := List.mem_iff_getElem?.mp hm
  have hlt : e < g.edgeCount := by
    rw [← edgeCount_topo (C54_topology hf), ← hwf.metrics_len]
    exact lt_length_of_getElem? he
  obtain ⟨pe, hpe, hE⟩ := C05_no_edge_invented hbd hlt
  obtain ⟨nodes, tags, s, d, -, -, -, -, -, -, h5⟩ := (C31_file c file pe).mp hpe
  obtain ⟨x, y, -, -, hv⟩ := minutes_of_record hp hf ht hk hE h5
  have := edge_minutes hal hv
  rw [he, Option.getD_some] at this
  rw [dot_eq, this]
  have := hdist x y
  positivity

/-- C70: if only the minutes count, the answer is a fastest trip: its edges are those of a trip with the answer's
costs as duration, and no trip in the file is shorter. Holds for a queue comparing exactly (see C14). -/
theorem C70_fastest {s s' : St ℚ} {src dst : Nat} {a b : Int} {al : List ℚ} {p : Path}
    (hp : parse maxDim c file = .ok (.ok g)) (hf : finish env (some gen) ⟨g, c.nodes, c.edges⟩ = .ok net)
    (ht : TimeConfig c gen speed length time) (hk : net.edges.ids[k]? = some time) (hal : Only al k)
    (hdist : ∀ x y, 0 ≤ env.haversine x y) (hsrc : net.graph.nodeId src = .ok a)
    (hdst : net.graph.nodeId dst = .ok b) (hu : Used (binHeap compare) dot n s)
    (hc : computeBestPath (binHeap compare) dot fuel s ⟨src, dst, net.graph, .dijkstra, al⟩ =
      some (.ok (s', some p))) :
    ∃ trip t, Trip c file a trip b ∧ Takes env.haversine file a trip t ∧ routeCost net.graph al p.edges = t ∧
      List.Forall₂ (fun e x => ∃ w, net.graph.dstIdx .fwd e = .ok w ∧ net.graph.nodeId w = .ok x.1) p.edges trip ∧
      ∀ trip' t', Trip c file a trip' b → Takes env.haversine file a trip' t' → t ≤ t' := by
  have hwf := C54_wellformed hf (built_wellFormed (parse_build hp).2)
  have hw := minutes_nonneg hp hf ht hk hal hdist
  obtain ⟨h1, -⟩ := C13_route (q := ⟨src, dst, net.graph, .dijkstra, al⟩) hwf addOk_rat hw
    (nodeId_lt hsrc) (nodeId_lt hdst) hu hc
  obtain ⟨trip, h2, h3, h4⟩ := trip_cost hp hf ht hk hal h1 hsrc hdst
  refine ⟨trip, _, h2, h3, rfl, h4, fun trip' t' h5 h6 => ?_⟩
  obtain ⟨l, hl, rfl⟩ := route_cost hp hf ht hk hal h5 h6 hsrc hdst
  exact optimal_of_weights (q := ⟨src, dst, net.graph, .dijkstra, al⟩) hwf hw rfl (nodeId_lt hsrc) (nodeId_lt hdst) hu
    (V := fun _ => True) (binHeap_min (fun _ _ _ _ => rfl)) trivial (fun _ _ _ _ => trivial) hc l hl

/-- C70 with the code's queue: the answer takes at most `2 (2 + k (deg + 2)) 1.5e-6` minutes longer than any trip,
where `k` is the number of iterations of the search. It needn't be a fastest trip, see `C14_false_near_ties`. -/
theorem C70_near_fastest {s s' : St ℚ} {src dst deg : Nat} {a b : Int} {al : List ℚ} {p : Path}
    (hp : parse maxDim c file = .ok (.ok g)) (hf : finish env (some gen) ⟨g, c.nodes, c.edges⟩ = .ok net)
    (ht : TimeConfig c gen speed length time) (hk : net.edges.ids[k]? = some time) (hal : Only al k)
    (hdist : ∀ x y, 0 ≤ env.haversine x y) (hdeg : MaxDegree net.graph deg) (hsrc : net.graph.nodeId src = .ok a)
    (hdst : net.graph.nodeId dst = .ok b) (hu : Used codeHeap dot n s)
    (hc : computeBestPath codeHeap dot fuel s ⟨src, dst, net.graph, .dijkstra, al⟩ = some (.ok (s', some p))) :
    ∃ trip t, Trip c file a trip b ∧ Takes env.haversine file a trip t ∧ routeCost net.graph al p.edges = t ∧
      List.Forall₂ (fun e x => ∃ w, net.graph.dstIdx .fwd e = .ok w ∧ net.graph.nodeId w = .ok x.1) p.edges trip ∧
      ∀ trip' t', Trip c file a trip' b → Takes env.haversine file a trip' t' →
        t ≤ t' + 2 * ((2 + fuel * (deg + 2)) * (3 / 2000000)) := by
  have hwf := C54_wellformed hf (built_wellFormed (parse_build hp).2)
  have hw := minutes_nonneg hp hf ht hk hal hdist
  obtain ⟨h1, -⟩ := C13_route (q := ⟨src, dst, net.graph, .dijkstra, al⟩) hwf addOk_rat hw
    (nodeId_lt hsrc) (nodeId_lt hdst) hu hc
  obtain ⟨trip, h2, h3, h4⟩ := trip_cost hp hf ht hk hal h1 hsrc hdst
  refine ⟨trip, _, h2, h3, rfl, h4, fun trip' t' h5 h6 => ?_⟩
  obtain ⟨l, hl, rfl⟩ := route_cost hp hf ht hk hal h5 h6 hsrc hdst
  exact near_of_weights (q := ⟨src, dst, net.graph, .dijkstra, al⟩) hwf hw rfl hdeg (nodeId_lt hsrc)
    (nodeId_lt hdst) hu hc l hl

end

/-- Streets of a small town: the short way from 1 to 3 is slow, the long one via 2 is fast, and a oneway leads
back from 3 to 1. -/
def townFile : List (Option Obj) :=
  [some (.node 1 0 0), some (.node 2 0 200000), some (.node 3 0 100000), some (.node 4 0 400000),
   some (.way [1, 2, 3] [("highway".toList, "primary".toList)]),
   some (.way [1, 3] [("highway".toList, "living_street".toList)]),
   some (.way [1, 3] [("highway".toList, "primary".toList), ("oneway".toList, "-1".toList)]),
   some (.way [4, 1] [("highway".toList, "residential".toList), ("oneway".toList, "yes".toList)]),
   some (.way [3, 4] [("highway".toList, "cycleway".toList)])]

@[inherit_doc townFile] def townGen : Generating :=
  { nodes := []
    edges := [.haversine .kilometers "km".toList,
      .calc ⟨.minutes, "min".toList⟩ ⟨.kilometers, "km".toList⟩ ⟨.kmh, "speed".toList⟩] }

/-- A stand-in for the distance on the sphere: 100 km per degree, along the axes. -/
def townEnv : Gen.Env := { haversine := fun x y => 100 * (|x.lat - y.lat| + |x.lon - y.lon|), parseF := fun _ => none }

/-- The graphs of the town. -/
def townGraph : Graph :=
  match parse 4 sampleCfg townFile with
  | .ok (.ok g) => g
  | _ => exGraph

@[inherit_doc townGraph] def townNet : Net :=
  match finish townEnv (some townGen) ⟨townGraph, sampleCfg.nodes, sampleCfg.edges⟩ with
  | .ok net => net
  | _ => ⟨exGraph, [], sampleCfg.edges⟩

/-- The configuration of the town has minutes. -/
theorem town_time : TimeConfig sampleCfg townGen "speed".toList "km".toList "min".toList :=
  ⟨by decide +kernel, by decide +kernel, by decide +kernel, by decide +kernel, by
    intro x hx
    simp only [townGen, List.mem_cons, List.not_mem_nil, or_false] at hx
    rcases hx with rfl | rfl <;> exact id, by decide +kernel⟩

/-- From 1 to 3, the way via 2 is chosen, with 1.8 instead of 4 minutes; all hypotheses hold. -/
example : parse 4 sampleCfg townFile = .ok (.ok townGraph) ∧
    finish townEnv (some townGen) ⟨townGraph, sampleCfg.nodes, sampleCfg.edges⟩ = .ok townNet ∧
    Only [0, 0, 0, 1] 3 ∧ townNet.edges.ids[3]? = some "min".toList ∧
    (∃ s', computeBestPath codeHeap dot 60 St.new ⟨0, 2, townNet.graph, .dijkstra, [0, 0, 0, 1]⟩ =
      some (.ok (s', some (Path.new 0 1 2 3 [0, 3])))) ∧
    routeCost townNet.graph [0, 0, 0, 1] [0, 3] = 9 / 5 ∧
    (∃ trip, Trip sampleCfg townFile 1 trip 3 ∧ Takes townEnv.haversine townFile 1 trip (9 / 5)) ∧
    ∀ trip t, Trip sampleCfg townFile 1 trip 3 → Takes townEnv.haversine townFile 1 trip t →
      9 / 5 ≤ t + 2 * ((2 + 60 * (townNet.graph.edgeCount + 2)) * (3 / 2000000)) := by
  have h0 : ∃ s', computeBestPath codeHeap dot 60 St.new ⟨0, 2, townNet.graph, .dijkstra, [0, 0, 0, 1]⟩ =
      some (.ok (s', some (Path.new 0 1 2 3 [0, 3]))) := by
    have : answer (computeBestPath codeHeap dot 60 St.new ⟨0, 2, townNet.graph, .dijkstra, [0, 0, 0, 1]⟩) =
        some (.ok (some (Path.new 0 1 2 3 [0, 3]))) := by decide +kernel
    revert this
    generalize computeBestPath codeHeap dot 60 St.new ⟨0, 2, townNet.graph, .dijkstra, [0, 0, 0, 1]⟩ = r
    intro this
    match r, this with
    | some (.ok (s, ans)), this =>
      simp only [answer, Option.map_some, Res.ok_bind, Res.pure_eq, Option.some.injEq, Res.ok.injEq] at this
      exact ⟨s, by rw [this]⟩
  have hp : parse 4 sampleCfg townFile = .ok (.ok townGraph) := by decide +kernel
  have hf : finish townEnv (some townGen) ⟨townGraph, sampleCfg.nodes, sampleCfg.edges⟩ = .ok townNet := by
    decide +kernel
  have ho : Only [0, 0, 0, 1] 3 := by
    refine ⟨rfl, fun j x hj hx => ?_⟩
    match j, hj, hx with
    | 0, _, hx | 1, _, hx | 2, _, hx => simpa using hx.symm
    | j + 4, _, hx => simp at hx
  have hr : routeCost townNet.graph [0, 0, 0, 1] [0, 3] = 9 / 5 := by decide +kernel
  obtain ⟨s', h1⟩ := h0
  obtain ⟨trip, t, h2, h3, h4, -, h5⟩ := C70_near_fastest (k := 3) (a := 1) (b := 3) (n := 0) hp hf town_time
    (by decide +kernel) ho (fun x y => by simp only [townEnv]; positivity)
    (maxDegree_edges (C54_wellformed hf (built_wellFormed (parse_build hp).2))) (by decide +kernel)
    (by decide +kernel) .new h1
  have h6 : t = 9 / 5 := h4.symm.trans hr
  subst h6
  exact ⟨hp, hf, ho, by decide +kernel, ⟨s', h1⟩, hr, ⟨trip, h2, h3⟩, fun trip t h6 h7 => h5 trip t h6 h7⟩

end Verif.Osm
