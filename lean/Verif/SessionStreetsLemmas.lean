import Verif.SessionStreetsSpec
import Verif.SessionProps
import Verif.StreetRoutesProps

/-!
# Lemmas about the tool's routing on pbf-maps
-/

namespace Verif.Session

open Text Gen Cfg
open Dij (Heap St computeBestPath Used codeHeap binHeap routeCost)
open Search (AddOk)
open Build (ProtoEdge ProtoNode build)
open Yml (ParsingIn RoutingIn Writer Yaml)
open Osm (Trip Takes TimeConfig Only position)

/-! ## Metrics -/

theorem step_ids {env : Env} {s s' : Net} {c : GenCat} (h : edgeStep env s c = .ok s') (hr : ¬ replaces c) :
    s'.edges.ids = s.edges.ids ++ (addedMetric c).toList := by
  cases c with
  | info i id =>
    cases i <;> simp only [edgeStep, Res.ok.injEq, reduceCtorEq] at h
    all_goals subst h; simp [addInfo, addedMetric]
  | custom unit id default =>
    simp only [edgeStep, Res.bind_eq_ok, Res.pure_eq, Res.ok.injEq] at h
    obtain ⟨xs, -, rfl⟩ := h
    rfl
  | haversine unit id =>
    simp only [edgeStep] at h
    split at h
    · simp only [Res.bind_eq_ok, Res.pure_eq, Res.ok.injEq] at h
      obtain ⟨xs, -, rfl⟩ := h
      rfl
    · cases h
  | copy src dst =>
    simp only [edgeStep, Res.bind_eq_ok, Res.pure_eq, Res.ok.injEq] at h
    obtain ⟨i, -, xs, -, rfl⟩ := h
    rfl
  | convert src dst => exact absurd trivial hr
  | «calc» result a b =>
    simp only [edgeStep, Res.bind_eq_ok, Res.pure_eq, Res.ok.injEq] at h
    obtain ⟨i, -, j, -, xs, -, rfl⟩ := h
    rfl
  | merge file hd id cols => exact absurd trivial hr

theorem steps_ids {env : Env} {l : List GenCat} {s s' : Net} (h : l.foldlM (edgeStep env) s = .ok s')
    (hr : ∀ c ∈ l, ¬ replaces c) : s'.edges.ids = s.edges.ids ++ l.filterMap addedMetric := by
  induction l generalizing s with
  | nil =>
    simp only [List.foldlM_nil, Res.pure_eq, Res.ok.injEq] at h
    simp [h]
  | cons c l ih =>
    simp only [List.foldlM_cons, Res.bind_eq_ok] at h
    obtain ⟨t, h1, h2⟩ := h
    rw [ih h2 fun x hx => hr x (by simp [hx]), step_ids h1 (hr c (by simp)), List.append_assoc]
    congr 1
    cases hc : addedMetric c <;> simp [hc]

/-- Routing reads nothing but the names of metrics. -/
theorem routing_entries {e : Edges} (hn : e.ids.Nodup) (hl : e.ids.length = e.units.length) (entries : List Entry)
    (h : ∀ x ∈ entries, x.id ∈ e.ids) :
    Cfg.routing e entries =
      .ok { alphas := e.ids.map (alphaOf entries), tolerances := e.ids.map (toleranceOf entries) } := by
  let cats : List EdgeCat := List.zipWith EdgeCat.metric e.units e.ids
  have key : ∀ (us : List Cfg.Unit) (is : List Text), is.length = us.length →
      (List.zipWith EdgeCat.metric us is).filterMap (fun | .metric u _ => some u | _ => none) = us ∧
      (List.zipWith EdgeCat.metric us is).filterMap (fun | .metric _ id => some id | _ => none) = is ∧
      (List.zipWith EdgeCat.metric us is).filterMap EdgeCat.id? = is := by
    intro us
    induction us with
    | nil => intro is h; simp only [List.length_nil, List.length_eq_zero_iff] at h; simp [h]
    | cons u us ih =>
      intro is h
      cases is with
      | nil => simp at h
      | cons i is =>
        obtain ⟨h1, h2, h3⟩ := ih is (by simpa using h)
        simp only [List.zipWith_cons_cons, List.filterMap_cons, EdgeCat.id?]
        rw [h1, h2, h3]
        exact ⟨rfl, rfl, rfl⟩
  obtain ⟨h1, h2, h3⟩ := key e.units e.ids hl
  have he : Edges.tryFrom cats false = .ok { cats, normalized := false, units := e.units, ids := e.ids } := by
    unfold Edges.tryFrom
    rw [(hasDuplicate_iff cats).mpr (by unfold UniqueIds; rw [h3]; exact hn)]
    simp only [Bool.false_eq_true, if_false]
    exact congrArg Except.ok (by rw [Edges.mk.injEq]; exact ⟨rfl, rfl, h1, h2⟩)
  exact C42_routing he entries h

theorem routing_net {N : Yml.Numbers} {wr : Writer} (hw : wr.Fits N) {e : Edges} (hn : e.ids.Nodup)
    (hl : e.ids.length = e.units.length) (i : RoutingIn) (hi : ∀ m ∈ i.metrics, m.id ∈ e.ids) (d : Yaml)
    (h : Yml.valuesAt ["routing"] d = [i.doc wr]) :
    Yml.routing N e d = .ok
      { pairsFile := i.pairsFile, algo := i.algo
        routing :=
          { alphas := e.ids.map (alphaOf (i.metrics.map Yml.EntryIn.entry))
            tolerances := e.ids.map (toleranceOf (i.metrics.map Yml.EntryIn.entry)) } } := by
  unfold Yml.routing
  rw [Yml.section_eq _ h, Yml.routing_doc hw i]
  dsimp only
  rw [routing_entries hn hl (i.metrics.map Yml.EntryIn.entry) (by
    intro x hx
    obtain ⟨m, hm, rfl⟩ := List.mem_map.mp hx
    exact hi m hm)]

/-- If only one metric is mentioned, then only it counts. -/
theorem only_of {ids : List Text} {k : Nat} {time : Text} {a : Option ℚ} {t : Option (Option ℚ)} (hn : ids.Nodup)
    (hk : ids[k]? = some time) (ha : a = none ∨ a = some 1) :
    Only (ids.map (alphaOf ([({ id := time, alpha := a, tolerance := t } : Yml.EntryIn)].map Yml.EntryIn.entry))) k := by
  constructor
  · rw [List.getElem?_map, hk]
    rcases ha with rfl | rfl <;> simp [alphaOf, lastEntry, Yml.EntryIn.entry]
  · intro j x hj hx
    rw [List.getElem?_map, Option.map_eq_some_iff] at hx
    obtain ⟨id, h1, rfl⟩ := hx
    have hne : time ≠ id := by
      rintro rfl
      obtain ⟨h2, h3⟩ := List.getElem?_eq_some_iff.mp hk
      obtain ⟨h4, h5⟩ := List.getElem?_eq_some_iff.mp h1
      exact hj ((List.Nodup.getElem_inj_iff hn).mp (h5.trans h3.symm))
    simp [alphaOf, lastEntry, Yml.EntryIn.entry, hne]

/-! ## Streets -/

section
variable {fuel n maxDim : Nat} {c : Parsing} {file : List (Option Osm.Obj)} {env : Gen.Env}
  {gen : Generating} {g : Graph} {net : Net} {speed length time : Text}

theorem net_ids (hp : Osm.parse maxDim c file = .ok (.ok g)) (hf : finish env (some gen) ⟨g, c.nodes, c.edges⟩ = .ok net)
    (ht : TimeConfig c gen speed length time) : net.edges.ids = c.edges.ids ++ gen.edges.filterMap addedMetric := by
  obtain ⟨-, -, -, hg⟩ := Osm.net_ok hp hf ht
  obtain ⟨u, -, hu2, -, hgen⟩ := generate_ok hg
  rw [steps_ids hgen ht.adds, hu2]

theorem net_plain (hp : Osm.parse maxDim c file = .ok (.ok g)) {gen : Option Generating}
    (hf : finish env gen ⟨g, c.nodes, c.edges⟩ = .ok net) {e : Nat} (he : e < net.graph.edgeCount) :
    net.graph.scEdgesOf e = .ok none := by
  have hb := (Osm.parse_build hp).2
  have htopo := C54_topology hf
  rw [Osm.edgeCount_topo htopo] at he
  obtain ⟨pe, hpe, -, -, h8⟩ := Build.C10_flags hb he
  obtain ⟨_, _, _, _, -, -, -, -, -, hsc, -⟩ := (Osm.C31_file c file pe).mp hpe
  rw [htopo.eq]
  exact h8.mpr hsc

/-- The length of every edge. -/
theorem edge_length (hp : Osm.parse maxDim c file = .ok (.ok g))
    (hf : finish env (some gen) ⟨g, c.nodes, c.edges⟩ = .ok net) (ht : TimeConfig c gen speed length time) :
    ∃ j, net.edges.ids[j]? = some length ∧ ∀ e u v a b, net.graph.IsEdge e u v → net.graph.nodeId u = .ok a →
      net.graph.nodeId v = .ok b → ∃ x y, position file a = some x ∧ position file b = some y ∧
        value net.graph.metrics e j = some (env.haversine x y) := by
  have hb := (Osm.parse_build hp).2
  have hwf := Build.built_wellFormed hb
  have htopo := C54_topology hf
  obtain ⟨-, hcons, -, hg⟩ := Osm.net_ok hp hf ht
  obtain ⟨-, j, hj, h1⟩ := C55_generated hg ht.adds hcons hwf _ ht.hasLength
  refine ⟨j, hj.1, fun e u v a b he ha hb' => ?_⟩
  have hlt := Dij.edge_lt (C54_wellformed hf hwf) he.1
  obtain ⟨u', v', x, y, he', hx, hy, hv⟩ := h1 e hlt
  obtain rfl : v' = v := Res.ok.inj (he'.1.symm.trans he.1)
  obtain rfl : u' = u := Res.ok.inj (he'.2.symm.trans he.2)
  rw [Osm.nodeId_topo htopo] at ha hb'
  rw [Osm.nodeCoord_topo htopo] at hx hy
  obtain ⟨x', hx', hx''⟩ := Osm.coord_position hp ha
  obtain ⟨y', hy', hy''⟩ := Osm.coord_position hp hb'
  obtain rfl : x' = x := Res.ok.inj (hx''.symm.trans hx)
  obtain rfl : y' = y := Res.ok.inj (hy''.symm.trans hy)
  exact ⟨x', y', hx', hy', hv⟩

theorem metric_of_value {g : Graph} {e k : Nat} {x : ℚ} (h : value g.metrics e k = some x) : g.metric e k = x := by
  unfold value at h
  rw [Option.bind_eq_some_iff] at h
  obtain ⟨m, h1, h2⟩ := h
  simp [Graph.metric, h1, h2]

/-- The kilometers of a route are those of its trip. -/
theorem drives_of {j : Nat} (hj : ∀ e u v a b, net.graph.IsEdge e u v → net.graph.nodeId u = .ok a →
      net.graph.nodeId v = .ok b → ∃ x y, position file a = some x ∧ position file b = some y ∧
        value net.graph.metrics e j = some (env.haversine x y)) {l : List Nat} {trip : List (Int × Nat)} {u v : Nat}
    {a : Int} (hr : net.graph.IsRoute u l v) (ha : net.graph.nodeId u = .ok a)
    (h : List.Forall₂ (fun e x => ∃ w, net.graph.dstIdx .fwd e = .ok w ∧ net.graph.nodeId w = .ok x.1) l trip) :
    Drives env.haversine file a trip ((l.map fun e => net.graph.metric e j).sum) := by
  induction h generalizing u a with
  | nil => rfl
  | @cons e x l trip h1 h2 ih =>
    obtain ⟨w, he, hr⟩ := hr
    obtain ⟨w', h3, h4⟩ := h1
    obtain rfl : w' = w := Res.ok.inj (h3.symm.trans he.1)
    obtain ⟨p, q, h5, h6, h7⟩ := hj e u w' a x.1 he ha h4
    exact ⟨p, q, _, h5, h6, ih hr h4, by rw [List.map_cons, List.sum_cons, metric_of_value h7]⟩

/-- Weights of one metric are its sums. -/
theorem routeCost_only (hwf : net.graph.WellFormed) (hcons : Consistent net) {k : Nat} (hk : k < net.edges.units.length)
    {al : List ℚ} (hal : Only al k) {l : List Nat} (hl : ∀ e ∈ l, e < net.graph.edgeCount) :
    routeCost net.graph al l = (l.map fun e => net.graph.metric e k).sum := by
  unfold routeCost
  congr 1
  refine List.map_congr_left fun e he => ?_
  have hlt : e < net.graph.metrics.length := by rw [hwf.metrics_len]; exact hl e he
  have hm := hcons.values _ (List.getElem_mem hlt)
  have hv : value net.graph.metrics e k = some ((net.graph.metrics[e])[k]'(by rw [hm]; exact hk)) := by
    simp [value, List.getElem?_eq_getElem hlt, List.getElem?_eq_getElem (l := net.graph.metrics[e]) (by rw [hm]; exact hk)]
  rw [Osm.edge_minutes hal hv, metric_of_value hv]

/-- What is flattened stays the same. -/
theorem flatten_same {g : Graph} (hsc : ∀ e, e < g.edgeCount → g.scEdgesOf e = .ok none) {p q : Path}
    (hp : ∀ e ∈ p.edges, e < g.edgeCount) (hq : p.flatten g fuel = some (.ok q)) :
    ∃ cs, q.costs = some cs ∧ g.IsCost p.edges cs := by
  have hq' : Path.tryFlatten g fuel p = some (.ok q) := by
    unfold Path.flatten at hq
    rw [Option.map_eq_some_iff] at hq
    obtain ⟨r, h1, h2⟩ := hq
    split at h2
    · cases h2
    · rw [h1, h2]
  obtain ⟨ls, h1, h2, -, -, -, -, cs, h3, h4⟩ := Path.C21_expansion hq'
  have h5 : ∀ {l : List Nat} {ls : List (List Nat)}, (∀ e ∈ l, e < g.edgeCount) →
      List.Forall₂ (Graph.Expands g) l ls → ls.flatten = l := by
    intro l ls hlt hx
    induction hx with
    | nil => rfl
    | @cons e l' es' ls h6 h7 ih =>
      rw [List.flatten_cons, ih fun x hx => hlt x (by simp [hx])]
      have h9 := hsc e (hlt e (by simp))
      cases h6 with
      | plain => rfl
      | shortcut h10 => rw [h9] at h10; cases h10
  have h5 := h5 hp h1
  rw [h2, h5] at h4
  exact ⟨cs, h3, h4⟩

theorem segments_le (c : Parsing) (file : List (Option Osm.Obj)) : (Osm.parseWays c file).length ≤ segments file := by
  have key : ∀ (m : List ℚ) (l : List Int), (Osm.edgesOf m l).length ≤ l.length := by
    intro m l
    fun_induction Osm.edgesOf m l with
    | case1 a b l ih => simp only [List.length_cons] at ih ⊢; omega
    | case2 => simp
  unfold Osm.parseWays segments
  rw [List.length_flatMap]
  refine List.sum_le_sum fun o _ => ?_
  match o with
  | none => simp
  | some (.node _ _ _) => simp
  | some .relation => simp
  | some (.way nodes tags) =>
    dsimp only
    unfold Osm.wayEdges
    split
    · simp
    · split
      · simp
      · split
        · simp
        · refine (key _ _).trans ?_
          unfold Osm.wayNodes
          dsimp only
          rw [List.length_append, List.length_reverse, List.length_take]
          split <;> split <;> try simp only [List.length_reverse]
          all_goals omega

end

end Verif.Session
