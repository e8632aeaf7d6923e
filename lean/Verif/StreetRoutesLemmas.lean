import Verif.StreetRoutesSpec
import Verif.OsmProps
import Verif.GeneratingProps
import Verif.RecordLemmas

/-!
# Routes of a parsed pbf-file and trips
-/

namespace Verif.Osm

open Cfg Build Gen
open Approx (Coord)

theorem isEdge_topo {g g' : Graph} (h : SameTopology g g') (e u v : Nat) : g'.IsEdge e u v ↔ g.IsEdge e u v := by
  unfold Graph.IsEdge Graph.dstIdx Graph.dsts
  rw [h.fwdDsts, h.bwdDsts]

theorem nodeId_topo {g g' : Graph} (h : SameTopology g g') (u : Nat) : g'.nodeId u = g.nodeId u := by
  unfold Graph.nodeId
  rw [h.nodeIds]

theorem nodeCoord_topo {g g' : Graph} (h : SameTopology g g') (u : Nat) : g'.nodeCoord u = g.nodeCoord u := by
  unfold Graph.nodeCoord
  rw [h.nodeCoords]

theorem edgeCount_topo {g g' : Graph} (h : SameTopology g g') : g'.edgeCount = g.edgeCount := by
  unfold Graph.edgeCount
  rw [h.fwdDsts]

theorem isRoute_topo {g g' : Graph} (h : SameTopology g g') {l : List Nat} {u v : Nat} :
    g'.IsRoute u l v ↔ g.IsRoute u l v := by
  induction l generalizing u with
  | nil => exact Iff.rfl
  | cons e l ih =>
    simp only [Graph.IsRoute, isEdge_topo h, ih]

theorem parse_build {maxDim : Nat} {c : Parsing} {file : List (Option Obj)} {g : Graph}
    (h : parse maxDim c file = .ok (.ok g)) :
    preprocess maxDim c = .ok ⟨⟩ ∧ build c.edges.units.length (parseWays c file) (parseNodes file) = .ok g := by
  unfold parse at h
  split at h
  · exact absurd h (by simp)
  · rename_i hp
    simp only [Except.ok.injEq] at h
    exact ⟨hp, h⟩

/-- The position of a node is that of its last record. -/
theorem position_eq (file : List (Option Obj)) (id : Int) :
    position file id = (lastRecord (parseNodes file) id).map (·.coord) := by
  unfold position lastRecord
  rw [← List.getLast?_map]
  congr 1
  induction file with
  | nil => rfl
  | cons o file ih =>
    have hcons : parseNodes (o :: file) = parseNodes [o] ++ parseNodes file := by
      simp [parseNodes]
    rw [hcons, List.filter_append, List.map_append, ← ih, List.filterMap_cons]
    match o with
    | none => simp [parseNodes]
    | some (.way _ _) => simp [parseNodes]
    | some .relation => simp [parseNodes]
    | some (.node i lat lon) =>
      by_cases hi : i = id <;> simp [parseNodes, hi]

/-- The coordinates of a node of the graph. -/
theorem coord_position {maxDim : Nat} {c : Parsing} {file : List (Option Obj)} {g : Graph}
    (h : parse maxDim c file = .ok (.ok g)) {u : Nat} {a : Int} (ha : g.nodeId u = .ok a) :
    ∃ p, position file a = some p ∧ g.nodeCoord u = .ok p := by
  have hb := (parse_build h).2
  have he := ((C01_node_ids hb).2 a).mp ⟨u, ha⟩
  obtain ⟨i, n, h1, h2⟩ := C02_node_data hb he
  have hlook := (C01_lookup hb a u).mpr ha
  refine ⟨n.coord, by rw [position_eq, h1]; rfl, ?_⟩
  simp only [Graph.createNodeFrom, hlook, Graph.createNode, Res.bind_eq_ok, Res.pure_eq, Res.ok.injEq,
    Option.some.injEq] at h2
  obtain ⟨x, ⟨id, hid, coord, hc, level, hl, rfl⟩, h3⟩ := h2
  simp only [Graph.Node.mk.injEq] at h3
  rw [hc, h3.2.2.1]

/-- A record stands for a way between its ends, and vice versa. -/
theorem drive_iff (c : Parsing) (file : List (Option Obj)) (a b : Int) (speed : Nat) :
    Drive c file a b speed ↔ ∃ s tags, speed = parseMaxspeed s tags ∧
      (⟨none, a, b, wayMetrics c.edges.cats s tags, none⟩ : ProtoEdge) ∈ parseWays c file ∧
      ∃ nodes d, some (Obj.way nodes tags) ∈ file ∧ Usable c tags s ∧ Leads (tags.get "oneway") d ∧
        (a, b) ∈ directed d nodes := by
  constructor
  · rintro ⟨nodes, tags, s, d, h1, h2, h3, h4, h5⟩
    exact ⟨s, tags, h5, (C31_file c file _).mpr ⟨nodes, tags, s, d, h1, h2, h3, h4, rfl, rfl, rfl⟩, nodes, d, h1, h2,
      h3, h4⟩
  · rintro ⟨s, tags, h5, _, nodes, d, h1, h2, h3, h4⟩
    exact ⟨nodes, tags, s, d, h1, h2, h3, h4, h5⟩

section
variable {maxDim : Nat} {c : Parsing} {file : List (Option Obj)} {g g' : Graph}

/-- Every route is a trip. -/
theorem trip_of_route (hp : parse maxDim c file = .ok (.ok g)) (ht : SameTopology g g') {l : List Nat} {u v : Nat}
    {a b : Int} (hr : g'.IsRoute u l v) (ha : g'.nodeId u = .ok a) (hb : g'.nodeId v = .ok b) :
    ∃ trip, Trip c file a trip b ∧
      List.Forall₂ (fun e x => ∃ w, g'.dstIdx .fwd e = .ok w ∧ g'.nodeId w = .ok x.1) l trip := by
  induction l generalizing u a with
  | nil =>
    obtain rfl : u = v := hr
    rw [ha] at hb
    exact ⟨[], Res.ok.inj hb, .nil⟩
  | cons e l ih =>
    obtain ⟨w, he, hr⟩ := hr
    have he0 := (isEdge_topo ht e u w).mp he
    have hbd := (parse_build hp).2
    have hlt := Dij.edge_lt (built_wellFormed hbd) he0.1
    obtain ⟨pe, hpe, hE⟩ := C05_no_edge_invented hbd hlt
    obtain ⟨w', hw', hws⟩ := hE.dst
    obtain ⟨u', hu', hus⟩ := hE.src
    obtain rfl : w' = w := Res.ok.inj (hw'.symm.trans he0.1)
    obtain rfl : u' = u := Res.ok.inj (hu'.symm.trans he0.2)
    rw [← nodeId_topo ht] at hws hus
    obtain ⟨trip, h1, h2⟩ := ih hr hws
    obtain ⟨nodes, tags, s, d, h3, h4, h5, h6, -⟩ := (C31_file c file pe).mp hpe
    rw [Res.ok.inj (hus.symm.trans ha)] at h6
    exact ⟨(pe.dstId, parseMaxspeed s tags) :: trip, ⟨⟨nodes, tags, s, d, h3, h4, h5, h6, rfl⟩, h1⟩,
      .cons ⟨w', he.1, hws⟩ h2⟩

/-- Every trip is a route. -/
theorem route_of_trip (hp : parse maxDim c file = .ok (.ok g)) (ht : SameTopology g g') {trip : List (Int × Nat)}
    {u v : Nat} {a b : Int} (hr : Trip c file a trip b) (ha : g'.nodeId u = .ok a) (hb : g'.nodeId v = .ok b) :
    ∃ l, g'.IsRoute u l v := by
  have hwf := built_wellFormed (parse_build hp).2
  induction trip generalizing u a with
  | nil =>
    obtain rfl : a = b := hr
    rw [nodeId_topo ht] at ha hb
    exact ⟨[], nodeId_inj hwf ha hb⟩
  | cons x trip ih =>
    obtain ⟨⟨nodes, tags, s, d, h1, h2, h3, h4, h5⟩, hr⟩ := hr
    obtain ⟨e, u', w, he, hu', hw⟩ := (C31_graph hp a x.1).mpr ⟨nodes, tags, s, d, h1, h2, h3, h4⟩
    have : u' = u := nodeId_inj hwf hu' (by rw [← nodeId_topo ht]; exact ha)
    subst this
    obtain ⟨l, hl⟩ := ih hr (by rw [nodeId_topo ht]; exact hw)
    exact ⟨e :: l, w, (isEdge_topo ht _ _ _).mpr he, hl⟩

/-- Trips of a parsed file have a duration. -/
theorem takes_total (hp : parse maxDim c file = .ok (.ok g)) (dist : Coord → Coord → ℚ)
    {trip : List (Int × Nat)} {a b : Int} (h : Trip c file a trip b) : ∃ t, Takes dist file a trip t := by
  induction trip generalizing a with
  | nil => exact ⟨0, rfl⟩
  | cons x trip ih =>
    obtain ⟨⟨nodes, tags, s, d, h1, h2, h3, h4, h5⟩, h⟩ := h
    obtain ⟨e, u, w, he, hu, hw⟩ := (C31_graph hp a x.1).mpr ⟨nodes, tags, s, d, h1, h2, h3, h4⟩
    obtain ⟨p, hp1, -⟩ := coord_position hp hu
    obtain ⟨q, hq1, -⟩ := coord_position hp hw
    obtain ⟨t, ht⟩ := ih h
    exact ⟨_, p, q, t, hp1, hq1, ht, rfl⟩

end

/-- The `k`-th metric of an edge of the parsed graph. -/
theorem parsed_speed {maxDim : Nat} {c : Parsing} {cats : List EdgeCat} {normalized : Bool} {g : Graph} {e k : Nat}
    {pe : ProtoEdge} {s : Street} {tags : Tags} (hc : Edges.tryFrom cats normalized = .ok c.edges)
    (hp : preprocess maxDim c = .ok ⟨⟩) (hk : c.edges.units[k]? = some .kmh) (hE : EdgeIs g e pe)
    (hm : pe.metrics = wayMetrics c.edges.cats s tags) :
    value g.metrics e k = some (parseMaxspeed s tags : ℚ) := by
  have h1 := congrArg (fun l => l[k]?) (C31_metrics hc hp s tags)
  simp only [List.getElem?_map, hk, Option.map_some, metricOf, Option.map_eq_some_iff, Option.some.injEq] at h1
  obtain ⟨x, hx, rfl⟩ := h1
  have h2 := hE.metrics
  rw [Graph.edgeMetrics, Res.ofIdx_eq_ok] at h2
  have h5 : (5 : ℚ) ≤ parseMaxspeed s tags := by exact_mod_cast C32_speed s tags
  simp only [value, h2, Option.bind_some, List.getElem?_map, hm, hx, Option.map_some, lifted, Option.some.injEq]
  rw [if_neg]
  rw [abs_lt]
  rintro ⟨-, h⟩
  linarith

/-- Weighting only metric `k`. -/
theorem only_dot {al m : List ℚ} {k : Nat} (h1 : al[k]? = some 1) (h0 : ∀ j x, j ≠ k → al[j]? = some x → x = 0)
    {x : ℚ} (hx : m[k]? = some x) : (List.zipWith (· * ·) al m).sum = x := by
  induction al generalizing m k with
  | nil => simp at h1
  | cons a al ih =>
    match m, k with
    | [], _ => simp at hx
    | y :: m, 0 =>
      simp only [List.getElem?_cons_zero, Option.some.injEq] at h1 hx
      have : ∀ (al m : List ℚ), (∀ z ∈ al, z = 0) → (List.zipWith (· * ·) al m).sum = 0 := by
        intro al
        induction al with
        | nil => simp
        | cons z al ih =>
          intro m hz
          cases m with
          | nil => simp
          | cons y m => simp [ih m fun z hz' => hz z (by simp [hz']), hz z (by simp)]
      rw [List.zipWith_cons_cons, List.sum_cons, this al m, h1, hx]
      · ring
      · intro z hz
        obtain ⟨i, hi⟩ := List.mem_iff_getElem?.mp hz
        exact h0 (i + 1) z (by omega) (by simpa using hi)
    | y :: m, k + 1 =>
      rw [List.zipWith_cons_cons, List.sum_cons, h0 0 a (by omega) rfl,
        ih (k := k) (by simpa using h1) (fun j z hj hz => h0 (j + 1) z (by omega) (by simpa using hz))
          (by simpa using hx)]
      ring

end Verif.Osm
