import Verif.OsmSpec
import Verif.TextLemmas
import Verif.BuildingProps

/-!
# Properties of streets and of parsed ways (C31, C32, C33, C53)
-/

namespace Verif.Osm

open Text Cfg Build

/-! ## C32 -/

/-- C32: a picky driver only uses streets that others use too. -/
theorem C32_picky (s : Street) (v : Vehicle) (h : s.isFor v true = true) : s.isFor v false = true := by
  revert h
  cases s <;> cases v <;> decide

/-- C32: pickiness matters for cars and bicycles. -/
example : ∃ s, Street.isFor s .car true = false ∧ Street.isFor s .car false = true := ⟨.track, by decide⟩

/-- C32: every category can be parsed. The text of the category has to be prefixed by the key. -/
theorem C32_roundtrip_partial (s : Street) :
    parseStreet ("highway:".toList ++ s.display.toList) = .ok s := by
  cases s <;> decide +kernel

/-- C32: every category is the category of a way, and of the way with the printed category as tag. -/
theorem C32_roundtrip_way (s : Street) (tags : Tags) :
    streetOf (("highway".toList, s.display.toList) :: tags) = some s := by
  have : Tags.get (("highway".toList, s.display.toList) :: tags) "highway" = some s.display.toList := by
    simp [Tags.get]
  rw [streetOf, this, Option.bind_some, C32_roundtrip_partial]

set_option maxHeartbeats 1000000 in
/-- C32 is false as stated for printing and parsing alone: no printed category can be parsed. -/
theorem C32_false_display (s : Street) : parseStreet s.display.toList = .error true := by
  cases s <;> decide +kernel

/-- C32: different categories are printed differently. -/
theorem C32_display_injective (s t : Street) (h : s.display = t.display) : s = t := by
  have h1 := C32_roundtrip_partial s
  rw [h, C32_roundtrip_partial t] at h1
  exact (Except.ok.inj h1).symm

theorem lookup_mem {α : Type} {table : List (String × α)} {t : Text} {a : α}
    (h : lookup table t = some a) : ∃ s, (s, a) ∈ table ∧ s.toList = t := by
  unfold lookup at h
  cases hf : table.find? fun e => decide (e.1.toList = t) with
  | none => rw [hf] at h; exact absurd h (by simp)
  | some e =>
    rw [hf] at h
    simp only [Option.map_some, Option.some.injEq] at h
    subst h
    exact ⟨e.1, List.mem_of_find?_eq_some hf, by simpa using List.find?_some hf⟩

theorem maxspeedTable_min : ∀ e ∈ maxspeedTable, ∀ n, e.2 = some n → 5 ≤ n := by decide +kernel

/-- C32: whatever the tags of a way are, the speed is at least 5 km/h. -/
theorem C32_speed (s : Street) (tags : Tags) : 5 ≤ parseMaxspeed s tags := by
  have hs : 5 ≤ s.maxspeed := by cases s <;> decide
  unfold parseMaxspeed
  split
  · exact hs
  · split
    · exact le_max_left _ _
    · rename_i snippet _ _ _
      cases h1 : lookup maxspeedTable (lower (trim snippet)) with
      | none => exact hs
      | some o =>
        cases o with
        | none => exact hs
        | some n =>
          obtain ⟨t, ht, -⟩ := lookup_mem h1
          exact maxspeedTable_min _ ht n rfl

/-- C32: a numeric speed limit counts, unless it is slower than 5 km/h. -/
theorem C32_numeric_speed (s : Street) (tags : Tags) (n : Nat) (hn : n ≤ 65535)
    (h : tags.get "maxspeed" = some (printNat n)) : parseMaxspeed s tags = max 5 n := by
  unfold parseMaxspeed
  rw [h]
  dsimp only
  rw [parseNat_printNat (show n ≤ maxU16 from hn)]
  rfl

/-- C32: without a speed limit, the default counts. -/
theorem C32_default_speed (s : Street) (tags : Tags) (h : tags.get "maxspeed" = none) :
    parseMaxspeed s tags = (documented s).speed := by
  unfold parseMaxspeed
  rw [h]
  cases s <;> rfl

/-- Tags with a low speed limit and with an unknown one. -/
example : parseMaxspeed .residential [("maxspeed".toList, "3".toList)] = 5 ∧
    parseMaxspeed .residential [("maxspeed".toList, "DE:zone:30".toList)] = 30 ∧
    parseMaxspeed .residential [("maxspeed".toList, "fast".toList)] = 50 ∧
    Tags.get [("maxspeed".toList, "70".toList)] "maxspeed" = some (printNat 70) := by decide +kernel

/-! ## C33 -/

/-- C33: code and documentation agree on who may use a street exactly if it is neither of category `Road`,
nor of category `Service` and used by a car. Full agreement (for all categories and vehicles) is false,
see `C33_false_service` and `C33_false_road`. -/
theorem C33_access_partial (s : Street) (v : Vehicle) :
    (∀ picky, s.isFor v picky = true ↔ ((documented s).access v).permits picky) ↔
      ¬ (s = .road ∨ (s = .service ∧ v = .car)) := by
  cases s <;> cases v <;> simp [Street.isFor, Street.isForVehicles, Street.isForBicycles,
    Street.isForPedestrians, documented, Row.access, Allowed.permits]

/-- C33: the default speeds agree. -/
theorem C33_speed (s : Street) : s.maxspeed = (documented s).speed := by cases s <;> rfl

/-- C33 is false: cars never use service roads although this is documented as possible. -/
theorem C33_false_service : ((documented .service).access .car).permits false ∧
    ∀ picky, Street.isFor .service .car picky = false := by
  refine ⟨rfl, ?_⟩
  decide

/-- C33 is false: nobody uses undefined roads although this is documented as possible for all. -/
theorem C33_false_road (v : Vehicle) : ((documented .road).access v).permits false ∧
    ∀ picky, Street.isFor .road v picky = false := by
  cases v <;> exact ⟨rfl, by decide⟩

/-! ## C53 -/

/-- Adding whitespace. -/
def Padded (t' t : Text) : Prop :=
  ∃ a b, t' = a ++ t ++ b ∧ (∀ c ∈ a, isWs c = true) ∧ ∀ c ∈ b, isWs c = true

/-- C53: letter case and surrounding whitespace of the tag `oneway` are irrelevant. -/
theorem C53_oneway {tags tags' : Tags} {v v' : Text} (h : tags.get "oneway" = some v)
    (h' : tags'.get "oneway" = some v') (hv : Padded v' v ∨ lower v' = lower v) :
    parseOneway tags' = parseOneway tags := by
  have : lower (trim v') = lower (trim v) := by
    rcases hv with ⟨a, b, rfl, ha, hb⟩ | hv
    · rw [trim_ws ha hb]
    · rw [← trim_lower, ← trim_lower, hv]
  unfold parseOneway
  rw [h, h']
  dsimp only
  rw [this]

/-- C53: letter case and trailing whitespace of the tag `highway` are irrelevant. Missing: leading
whitespace, see `C53_false_highway`. -/
theorem C53_highway_partial {tags tags' : Tags} {v v' : Text} (h : tags.get "highway" = some v)
    (h' : tags'.get "highway" = some v')
    (hv : (∃ b, v' = v ++ b ∧ ∀ c ∈ b, isWs c = true) ∨ lower v' = lower v) :
    streetOf tags' = streetOf tags := by
  have : lower (trim ("highway:".toList ++ v')) = lower (trim ("highway:".toList ++ v)) := by
    rcases hv with ⟨b, rfl, hb⟩ | hv
    · have := trim_ws (a := []) (t := "highway:".toList ++ v) (b := b) (by simp) hb
      rw [← this]
      simp
    · rw [← trim_lower, ← trim_lower]
      have e : ∀ x, lower ("highway:".toList ++ x) = lower "highway:".toList ++ lower x := by
        intro x; simp [lower]
      rw [e, e, hv]
  unfold streetOf parseStreet
  rw [h, h', Option.bind_some, Option.bind_some, this]

/-- C53: letter case of the tag `maxspeed` is irrelevant, and surrounding whitespace is, too, if the tag
isn't a number. Missing: whitespace around numbers, see `C53_false_maxspeed`. -/
theorem C53_maxspeed_partial (s : Street) {tags tags' : Tags} {v v' : Text}
    (h : tags.get "maxspeed" = some v) (h' : tags'.get "maxspeed" = some v')
    (hv : Padded v' v ∨ lower v' = lower v) (hn : parseNat maxU16 v = none)
    (hn' : parseNat maxU16 v' = none) : parseMaxspeed s tags' = parseMaxspeed s tags := by
  have : lower (trim v') = lower (trim v) := by
    rcases hv with ⟨a, b, rfl, ha, hb⟩ | hv
    · rw [trim_ws ha hb]
    · rw [← trim_lower, ← trim_lower, hv]
  unfold parseMaxspeed
  rw [h, h']
  dsimp only
  rw [hn, hn']
  dsimp only
  rw [this]

/-- C53 is false: a way with whitespace in front of its category is no street. -/
theorem C53_false_highway : ∃ v v' : Text, Padded v' v ∧
    streetOf [("highway".toList, v)] = some .motorway ∧ streetOf [("highway".toList, v')] = none :=
  ⟨"motorway".toList, " motorway".toList, ⟨[' '], [], by decide, by decide, by simp⟩, by decide +kernel⟩

/-- C53 is false: whitespace around a number makes it unknown, and the default of the street counts. -/
theorem C53_false_maxspeed : ∃ v v' : Text, Padded v' v ∧
    parseMaxspeed .motorway [("maxspeed".toList, v)] = 50 ∧
    parseMaxspeed .motorway [("maxspeed".toList, v')] = 130 :=
  ⟨"50".toList, "50 ".toList, ⟨[], [' '], by decide, by simp, by decide⟩, by decide +kernel⟩

/-- The hypotheses of C53 can be met. -/
example : Padded " Yes\n".toList "Yes".toList ∧ lower "YES".toList = lower "yes".toList ∧
    parseNat maxU16 "Walk".toList = none ∧ parseOneway [("oneway".toList, " Yes\n".toList)] = (true, false) ∧
    parseMaxspeed .motorway [("maxspeed".toList, "Walk ".toList)] = 15 :=
  ⟨⟨[' '], ['\n'], by decide, by decide, by decide⟩, by decide +kernel, by decide +kernel,
    by decide +kernel, by decide +kernel⟩

/-! ## C31 -/

theorem onewayTable_spec : ∀ e ∈ onewayTable,
    (e.2 = (true, false) → e.1 ∈ forwardValues) ∧ (e.2 = (true, true) → e.1 ∈ backwardValues) ∧
    (e.2.1 = false → e.2.2 = false ∧ e.1 ∉ forwardValues ∧ e.1 ∉ backwardValues) := by decide +kernel

theorem lookup_forward : ∀ s ∈ forwardValues, lookup onewayTable s.toList = some (true, false) := by
  decide +kernel

theorem lookup_backward : ∀ s ∈ backwardValues, lookup onewayTable s.toList = some (true, true) := by
  decide +kernel

/-- C31: the direction of a way, for every value of its tag `oneway`. -/
theorem C31_direction (tags : Tags) :
    (parseOneway tags = (true, false) ↔ Leads (tags.get "oneway") .forward) ∧
    (parseOneway tags = (true, true) ↔ Leads (tags.get "oneway") .backward) ∧
    (parseOneway tags = (false, false) ↔ Leads (tags.get "oneway") .both) := by
  unfold parseOneway Leads
  cases h : tags.get "oneway" with
  | none => simp
  | some v =>
    simp only [Option.some.injEq, sameTag]
    cases hl : lookup onewayTable (lower (trim v)) with
    | some d =>
      obtain ⟨s, hs, he⟩ := lookup_mem hl
      obtain ⟨h1, h2, h3⟩ := onewayTable_spec _ hs
      dsimp only at h1 h2 h3
      simp only [Option.getD_some]
      refine ⟨⟨fun hd => ⟨v, s, rfl, h1 hd, he.symm⟩, ?_⟩, ⟨fun hd => ⟨v, s, rfl, h2 hd, he.symm⟩, ?_⟩,
        ⟨?_, ?_⟩⟩
      · rintro ⟨v', s', rfl, hs', hv'⟩
        rw [hv', lookup_forward s' hs'] at hl
        exact (Option.some.inj hl).symm
      · rintro ⟨v', s', rfl, hs', hv'⟩
        rw [hv', lookup_backward s' hs'] at hl
        exact (Option.some.inj hl).symm
      · rintro hd v' s' rfl hs' hv'
        rw [hv'] at hl
        rcases List.mem_append.mp hs' with hs' | hs'
        · rw [lookup_forward s' hs', hd] at hl
          simp at hl
        · rw [lookup_backward s' hs', hd] at hl
          simp at hl
      · intro hb
        obtain ⟨d1, d2⟩ := d
        cases d1 with
        | false =>
          have := (h3 rfl).1
          dsimp only at this
          rw [this]
        | true =>
          cases d2 with
          | false => exact absurd he.symm (hb v s rfl (by simp [h1 rfl]))
          | true => exact absurd he.symm (hb v s rfl (by simp [h2 rfl]))
    | none =>
      simp only [Option.getD_none]
      refine ⟨⟨by simp, ?_⟩, ⟨by simp, ?_⟩, ⟨?_, by simp⟩⟩
      · rintro ⟨v', s', rfl, hs', hv'⟩
        rw [hv', lookup_forward s' hs'] at hl
        exact absurd hl (by simp)
      · rintro ⟨v', s', rfl, hs', hv'⟩
        rw [hv', lookup_backward s' hs'] at hl
        exact absurd hl (by simp)
      · rintro - v' s' rfl hs' hv'
        rw [hv'] at hl
        rcases List.mem_append.mp hs' with hs' | hs'
        · rw [lookup_forward s' hs'] at hl
          exact absurd hl (by simp)
        · rw [lookup_backward s' hs'] at hl
          exact absurd hl (by simp)

theorem edgesOf_eq (m : List ℚ) (l : List Int) : edgesOf m l =
    (steps l).map fun p => { id := none, srcId := p.1, dstId := p.2, metrics := m, sc := none } := by
  match l with
  | [] => rfl
  | [a] => rfl
  | a :: b :: l =>
    rw [edgesOf, edgesOf_eq m (b :: l)]
    rfl

theorem steps_cons_cons (a b : Int) (l : List Int) : steps (a :: b :: l) = (a, b) :: steps (b :: l) := rfl

theorem steps_append (l : List Int) (x : Int) (r : List Int) :
    steps (l ++ x :: r) = steps (l ++ [x]) ++ steps (x :: r) := by
  match l with
  | [] => rfl
  | [a] => rfl
  | a :: b :: l =>
    have := steps_append (b :: l) x r
    simp only [List.cons_append] at this ⊢
    rw [steps_cons_cons, steps_cons_cons, this]
    rfl

theorem steps_reverse (l : List Int) : steps l.reverse = ((steps l).map Prod.swap).reverse := by
  match l with
  | [] => rfl
  | [a] => rfl
  | a :: b :: l =>
    have ih := steps_reverse (b :: l)
    have e : (((a, b) :: steps (b :: l)).map Prod.swap).reverse =
        ((steps (b :: l)).map Prod.swap).reverse ++ [(b, a)] := by simp
    rw [steps_cons_cons, e, ← ih, List.reverse_cons, List.reverse_cons, List.append_assoc]
    exact steps_append _ _ _

theorem steps_both {l : List Int} (h : l ≠ []) : steps (l ++ (l.take (l.length - 1)).reverse) =
    steps l ++ steps l.reverse := by
  obtain ⟨r, x, rfl⟩ : ∃ r x, l = r ++ [x] := ⟨l.dropLast, l.getLast h, (List.dropLast_append_getLast h).symm⟩
  have e : (r ++ [x]).take ((r ++ [x]).length - 1) = r := by simp
  rw [e, List.append_assoc, List.reverse_append]
  exact steps_append _ _ _

/-- C31: the edges of a usable way are exactly its consecutive nodes, in the directions of the way. All of
them have the metrics of the street. -/
theorem C31_way {c : Parsing} {tags : Tags} {s : Street} {d : Dir} (nodes : List Int)
    (hu : Usable c tags s) (hd : Leads (tags.get "oneway") d) :
    wayEdges c nodes tags = (directed d nodes).map fun p =>
      { id := none, srcId := p.1, dstId := p.2, metrics := wayMetrics c.edges.cats s tags, sc := none } := by
  obtain ⟨h1, h2⟩ := hu
  have hsmall : nodes.length < 2 → directed d nodes = [] := by
    intro hl
    have : steps nodes = [] := by
      match nodes, hl with
      | [], _ => rfl
      | [a], _ => rfl
    cases d <;> simp [directed, this]
  unfold wayEdges
  by_cases hl : nodes.length < 2
  · rw [if_pos hl, hsmall hl]
    rfl
  rw [if_neg hl, h1]
  dsimp only
  rw [if_neg (by simp [h2])]
  have hne : nodes ≠ [] := by rintro rfl; simp at hl
  obtain ⟨d1, d2, d3⟩ := C31_direction tags
  cases d with
  | forward =>
    rw [d1.mpr hd]
    simp [edgesOf_eq, wayNodes, directed]
  | backward =>
    rw [d2.mpr hd]
    simp [edgesOf_eq, wayNodes, directed, steps_reverse]
  | both =>
    rw [d3.mpr hd]
    simp [edgesOf_eq, wayNodes, directed, steps_both hne, steps_reverse]

/-- C31: ways that aren't streets for this vehicle have no edges. -/
theorem C31_unusable {c : Parsing} {tags : Tags} (nodes : List Int) (h : ∀ s, ¬ Usable c tags s) :
    wayEdges c nodes tags = [] := by
  unfold wayEdges
  split
  · rfl
  · split
    · rfl
    · rename_i s hs
      have : s.isFor c.vehicle c.picky = false := by
        by_contra hc
        exact h s ⟨hs, by simpa using hc⟩
      simp [this]

/-- Every way leads somewhere. -/
theorem leads_total (o : Option Text) : ∃ d, Leads o d := by
  by_cases h : Leads o .both
  · exact ⟨_, h⟩
  · unfold Leads at h
    push Not at h
    obtain ⟨v, s, hv, hs, ht⟩ := h
    rcases List.mem_append.mp hs with hs | hs
    · exact ⟨.forward, v, s, hv, hs, ht⟩
    · exact ⟨.backward, v, s, hv, hs, ht⟩

/-- C31: the inserted edges of a whole file come from usable ways, and all of these are inserted. -/
theorem C31_file (c : Parsing) (file : List (Option Obj)) (e : ProtoEdge) :
    e ∈ parseWays c file ↔ ∃ nodes tags s d, some (Obj.way nodes tags) ∈ file ∧ Usable c tags s ∧
      Leads (tags.get "oneway") d ∧ (e.srcId, e.dstId) ∈ directed d nodes ∧ e.id = none ∧ e.sc = none ∧
      e.metrics = wayMetrics c.edges.cats s tags := by
  unfold parseWays
  rw [List.mem_flatMap]
  constructor
  · rintro ⟨o, ho, he⟩
    match o, ho, he with
    | some (.way nodes tags), ho, he =>
      dsimp only at he
      by_cases hu : ∃ s, Usable c tags s
      · obtain ⟨s, hs⟩ := hu
        obtain ⟨d, hd⟩ := leads_total (tags.get "oneway")
        rw [C31_way nodes hs hd] at he
        obtain ⟨p, hp, rfl⟩ := List.mem_map.mp he
        exact ⟨nodes, tags, s, d, ho, hs, hd, hp, rfl, rfl, rfl⟩
      · rw [C31_unusable nodes (fun s hs => hu ⟨s, hs⟩)] at he
        exact absurd he (by simp)
    | some (.node _ _ _), _, he => exact absurd he (by simp)
    | some .relation, _, he => exact absurd he (by simp)
    | none, _, he => exact absurd he (by simp)
  · rintro ⟨nodes, tags, s, d, ho, hs, hd, hp, h1, h2, h3⟩
    refine ⟨_, ho, ?_⟩
    dsimp only
    rw [C31_way nodes hs hd]
    refine List.mem_map.mpr ⟨_, hp, ?_⟩
    cases e
    simp_all

/-- C31: the metrics of an edge are those asked for, in this order. -/
theorem C31_metrics {maxDim : Nat} {c : Parsing} {cats : List EdgeCat} {normalized : Bool}
    (hc : Edges.tryFrom cats normalized = .ok c.edges) (hp : preprocess maxDim c = .ok ⟨⟩) (s : Street)
    (tags : Tags) : (wayMetrics c.edges.cats s tags).map some = c.edges.units.map (metricOf s tags) := by
  unfold Edges.tryFrom at hc
  split at hc
  · exact absurd hc (by simp)
  simp only [Except.ok.injEq] at hc
  unfold preprocess at hp
  split at hp
  · exact absurd hp (by simp)
  rw [← hc] at hp ⊢
  dsimp only at hp ⊢
  clear hc
  induction cats with
  | nil => rfl
  | cons x xs ih =>
    have hd : ¬ hasDuplicate xs = true := by
      rename_i hd
      intro h
      exact hd (by simp [hasDuplicate, h])
    have hp' : (checkCat x >>= fun _ => xs.forM checkCat) = .ok ⟨⟩ := hp
    have hstep : checkCat x = .ok ⟨⟩ ∧ xs.forM checkCat = .ok ⟨⟩ := by
      cases hx : checkCat x with
      | error err => rw [hx] at hp'; exact absurd hp' (by simp [bind, Except.bind])
      | ok u => rw [hx] at hp'; exact ⟨rfl, hp'⟩
    have ih := ih hd hstep.2
    have hx := hstep.1
    unfold wayMetrics at ih ⊢
    rw [List.flatMap_cons, List.map_append, ih, List.filterMap_cons]
    match x, hx with
    | .info _ _, _ => rfl
    | .metric .kmh _, _ => rfl
    | .metric .laneCount _, _ => rfl
    | .ignored, _ => rfl

/-- C31: the parsed graph has an edge from `a` to `b` iff a usable way of the file leads from `a` to its
neighbour `b`. -/
theorem C31_graph {maxDim : Nat} {c : Parsing} {file : List (Option Obj)} {g : Graph}
    (h : parse maxDim c file = .ok (.ok g)) (a b : Int) :
    (∃ (e u v : Nat), g.IsEdge e u v ∧ g.nodeId u = .ok a ∧ g.nodeId v = .ok b) ↔
      ∃ nodes tags s d, some (Obj.way nodes tags) ∈ file ∧ Usable c tags s ∧
        Leads (tags.get "oneway") d ∧ (a, b) ∈ directed d nodes := by
  unfold parse at h
  split at h
  · exact absurd h (by simp)
  simp only [Except.ok.injEq] at h
  constructor
  · rintro ⟨e, u, v, he, hu, hv⟩
    have hlt : e < g.edgeCount := by
      have := he.1
      unfold Graph.dstIdx at this
      exact lt_length_of_getElem? (Res.ofIdx_eq_ok.mp this)
    obtain ⟨pe, hpe, hE⟩ := C05_no_edge_invented h hlt
    obtain ⟨nodes, tags, s, d, ho, hs, hd, hp, -⟩ := (C31_file c file pe).mp hpe
    refine ⟨nodes, tags, s, d, ho, hs, hd, ?_⟩
    obtain ⟨u', hu', hus⟩ := hE.src
    obtain ⟨v', hv', hvs⟩ := hE.dst
    have e1 := he.1.symm.trans hv'
    have e2 := he.2.symm.trans hu'
    simp only [Res.ok.injEq] at e1 e2
    subst e1 e2
    rw [hu] at hus
    rw [hv] at hvs
    simp only [Res.ok.injEq] at hus hvs
    rw [hus, hvs]
    exact hp
  · rintro ⟨nodes, tags, s, d, ho, hs, hd, hp⟩
    have hpe := (C31_file c file ⟨none, a, b, wayMetrics c.edges.cats s tags, none⟩).mpr
      ⟨nodes, tags, s, d, ho, hs, hd, hp, rfl, rfl, rfl⟩
    obtain ⟨e, -, pe', -, hE, hor⟩ := C05_no_edge_lost h hpe
    obtain ⟨u, hu, hus⟩ := hE.src
    obtain ⟨v, hv, hvs⟩ := hE.dst
    have : pe'.srcId = a ∧ pe'.dstId = b := by
      rcases hor with rfl | hs
      · exact ⟨rfl, rfl⟩
      · exact ⟨hs.2.1, hs.2.2.1⟩
    exact ⟨e, u, v, ⟨hv, hu⟩, by rw [hus, this.1], by rw [hvs, this.2]⟩

/-- A file with a oneway, a reversed oneway, a street with both directions, a way that isn't for cars, an
object that can't be read, and its configuration. -/
def sampleFile : List (Option Obj) :=
  [some (.node 1 0 0), some (.node 2 0 100000), some (.node 3 100000 0), none,
   some (.way [1, 2] [("highway".toList, "primary".toList), ("oneway".toList, "yes".toList)]),
   some (.way [1, 3] [("highway".toList, "primary".toList), ("oneway".toList, "-1".toList)]),
   some (.way [2, 3] [("highway".toList, "residential".toList), ("maxspeed".toList, "30".toList)]),
   some (.way [1, 2, 3] [("highway".toList, "cycleway".toList)]), some .relation, some (.way [1] [])]

@[inherit_doc sampleFile] def sampleCfg : Parsing :=
  { vehicle := .car, picky := false
    nodes := [.info .nodeId "id".toList, .metric .latitude "lat".toList, .metric .longitude "lon".toList]
    edges :=
      { cats := [.info .srcId "src".toList, .info .dstId "dst".toList, .metric .kmh "speed".toList,
          .metric .laneCount "lanes".toList]
        normalized := false, units := [.kmh, .laneCount], ids := ["speed".toList, "lanes".toList] }
    generating := none }

/-- The sample is parsed, meets the hypotheses of C31, and has the expected edges. -/
example : (∃ g, parse 2 sampleCfg sampleFile = .ok (.ok g) ∧ g.edgeCount = 4) ∧
    preprocess 2 sampleCfg = .ok ⟨⟩ ∧
    Edges.tryFrom sampleCfg.edges.cats false = .ok sampleCfg.edges ∧
    (parseWays sampleCfg sampleFile).map (fun e => (e.srcId, e.dstId, e.metrics)) =
      [(1, 2, [100, 2]), (3, 1, [100, 2]), (2, 3, [30, 1]), (3, 2, [30, 1])] := by
  refine ⟨⟨{
      nodeIds := [1, 2, 3], nodeCoords := [⟨0, 0⟩, ⟨0, 1 / 100⟩, ⟨1 / 100, 0⟩], nodeLevels := [0, 0, 0],
      fwdDsts := [1, 2, 0, 1], fwdOffsets := [0, 1, 2, 4], fwdMap := [0, 1, 2, 3],
      bwdDsts := [0, 1, 2, 2], bwdOffsets := [0, 1, 3, 4], bwdMap := [2, 0, 3, 1],
      metrics := [[100, 2], [30, 1], [100, 2], [30, 1]], means := none,
      edgeIds := [none, none, none, none], idMap := [], scOffsets := [0, 0, 0, 0, 0], scEdges := [],
      dim := 2 }, ?_, ?_⟩, ?_, ?_, ?_⟩ <;> decide +kernel

/-- The ways of the sample are usable and lead in different directions. -/
example : Usable sampleCfg [("highway".toList, "primary".toList)] .primary ∧
    Leads (some " YES".toList) .forward ∧ Leads (some "-1".toList) .backward ∧ Leads none .both ∧
    directed .both [1, 2, 3] = [(1, 2), (2, 3), (3, 2), (2, 1)] ∧
    directed .backward [1, 2, 3] = [(3, 2), (2, 1)] :=
  ⟨⟨by decide +kernel, by decide⟩, ⟨_, "yes", rfl, by decide, by unfold sameTag; decide +kernel⟩,
    ⟨_, "-1", rfl, by decide, by unfold sameTag; decide +kernel⟩, fun _ _ h => absurd h (by simp), by decide, by decide⟩

/-- C31: the value `true`, a documented alternative of `yes` in OSM, isn't understood: such a way leads in
both directions. -/
theorem C31_false_true : parseOneway [("oneway".toList, "true".toList)] = (false, false) := by decide +kernel

end Verif.Osm
