import Verif.ExportSpec
import Verif.SessionStreetsProps
import Verif.FmiProps
import Verif.ToolProps

/-!
# Lemmas about exported maps
-/

namespace Verif.Session

open Text Gen Cfg
open Dij (Heap St computeBestPath Used codeHeap binHeap routeCost)
open Search (AddOk)
open Build (ProtoEdge ProtoNode build)
open Yml (ParsingIn RoutingIn GraphIn Writer Yaml)
open Osm (Trip Takes TimeConfig Only position)

/-! ## What generating adds -/

theorem step_added {env : Env} {s s' : Net} {c : GenCat} (h : edgeStep env s c = .ok s') (hc : addedColumn c ≠ none) :
    ∃ u id xs, addedColumn c = some (.metric u id) ∧ s' = addMetric s u id xs := by
  cases c with
  | info i id => exact absurd rfl hc
  | custom unit id default =>
    simp only [edgeStep, Res.bind_eq_ok, Res.pure_eq, Res.ok.injEq] at h
    obtain ⟨xs, -, rfl⟩ := h
    exact ⟨_, _, xs, rfl, rfl⟩
  | haversine unit id =>
    simp only [edgeStep] at h
    split at h
    · simp only [Res.bind_eq_ok, Res.pure_eq, Res.ok.injEq] at h
      obtain ⟨xs, -, rfl⟩ := h
      exact ⟨_, _, xs, rfl, rfl⟩
    · cases h
  | copy src dst =>
    simp only [edgeStep, Res.bind_eq_ok, Res.pure_eq, Res.ok.injEq] at h
    obtain ⟨i, -, xs, -, rfl⟩ := h
    exact ⟨_, _, xs, rfl, rfl⟩
  | convert src dst => exact absurd rfl hc
  | «calc» result a b =>
    simp only [edgeStep, Res.bind_eq_ok, Res.pure_eq, Res.ok.injEq] at h
    obtain ⟨i, -, j, -, xs, -, rfl⟩ := h
    exact ⟨_, _, xs, rfl, rfl⟩
  | merge file hd id cols => exact absurd rfl hc

/-- The metrics of columns. -/
def unitsOf (cats : List EdgeCat) : List Cfg.Unit := cats.filterMap fun | .metric u _ => some u | _ => none

theorem steps_added {env : Env} {l : List GenCat} {s s' : Net} (h : l.foldlM (edgeStep env) s = .ok s')
    (hc : ∀ c ∈ l, addedColumn c ≠ none) :
    (∃ ms dim, s'.graph = { s.graph with metrics := ms, dim := dim }) ∧ s'.nodes = s.nodes ∧
      s'.edges =
        { cats := s.edges.cats ++ l.filterMap addedColumn, normalized := s.edges.normalized
          units := s.edges.units ++ unitsOf (l.filterMap addedColumn)
          ids := s.edges.ids ++ Fmi.metricIds (l.filterMap addedColumn) } := by
  induction l generalizing s with
  | nil =>
    simp only [List.foldlM_nil, Res.pure_eq, Res.ok.injEq] at h
    subst h
    exact ⟨⟨_, _, rfl⟩, rfl, by simp [unitsOf, Fmi.metricIds]⟩
  | cons c l ih =>
    simp only [List.foldlM_cons, Res.bind_eq_ok] at h
    obtain ⟨t, h1, h2⟩ := h
    obtain ⟨u, id, xs, h3, rfl⟩ := step_added h1 (hc c (by simp))
    obtain ⟨⟨ms, dim, h4⟩, h5, h6⟩ := ih h2 fun x hx => hc x (by simp [hx])
    refine ⟨⟨ms, dim, h4⟩, h5, ?_⟩
    rw [h6]
    simp [addMetric, unitsOf, Fmi.metricIds, h3]

theorem added_dims {l : List GenCat} (hc : ∀ c ∈ l, addedColumn c ≠ none) :
    (l.map GenCat.newDims).sum = (unitsOf (l.filterMap addedColumn)).length := by
  induction l with
  | nil => rfl
  | cons c l ih =>
    have ih := ih fun x hx => hc x (by simp [hx])
    have h := hc c (by simp)
    cases c <;> simp_all [addedColumn, GenCat.newDims, unitsOf] <;> omega

theorem added_count {l : List GenCat} (p : EdgeCat → Bool) (hp : ∀ u id, p (.metric u id) = false) :
    (l.filterMap addedColumn).countP p = 0 := by
  rw [List.countP_eq_zero]
  intro x hx
  obtain ⟨c, -, h⟩ := List.mem_filterMap.mp hx
  cases c <;> simp only [addedColumn, Option.some.injEq, reduceCtorEq] at h <;> subst h <;> simp [hp]

theorem pbf_cats {cats : List EdgeCat} (h : cats.forM Osm.checkCat = .ok ⟨⟩) : ∀ x ∈ cats,
    (∃ id, x = .info .srcId id) ∨ (∃ id, x = .info .dstId id) ∨ (∃ id, x = .metric .kmh id) ∨
      (∃ id, x = .metric .laneCount id) ∨ x = .ignored := by
  induction cats with
  | nil => intro x hx; cases hx
  | cons c cats ih =>
    have h' : (Osm.checkCat c >>= fun _ => cats.forM Osm.checkCat) = .ok ⟨⟩ := h
    cases hc : Osm.checkCat c with
    | error e => rw [hc] at h'; cases h'
    | ok u =>
      rw [hc] at h'
      intro x hx
      rcases List.mem_cons.mp hx with rfl | hx
      · cases x with
        | info i id => cases i <;> simp_all [Osm.checkCat]
        | metric u id => cases u <;> simp_all [Osm.checkCat]
        | ignored => simp
      · exact ih h' x hx

/-! ## The graph of a pbf-map -/

section
variable {maxDim : Nat} {c : Parsing} {file : List (Option Osm.Obj)} {env : Gen.Env}
  {gen : Generating} {g : Graph} {net : Net} {speed length time : Text}

theorem net_added (hp : Osm.parse maxDim c file = .ok (.ok g))
    (hf : finish env (some gen) ⟨g, c.nodes, c.edges⟩ = .ok net) (ht : TimeConfig c gen speed length time)
    (hn : gen.nodes = []) (hm : ∀ x ∈ gen.edges, addedColumn x ≠ none) :
    (∃ ms dim, net.graph = { g with metrics := ms, dim := dim }) ∧ net.nodes = c.nodes ∧
      net.edges =
        { cats := c.edges.cats ++ gen.edges.filterMap addedColumn, normalized := false
          units := c.edges.units ++ unitsOf (gen.edges.filterMap addedColumn)
          ids := c.edges.ids ++ Fmi.metricIds (gen.edges.filterMap addedColumn) } := by
  obtain ⟨-, -, -, hg⟩ := Osm.net_ok hp hf ht
  simp only [generate, hn, List.foldlM_nil, Res.pure_eq, Res.ok_bind] at hg
  split at hg
  · cases hg
  · obtain ⟨h1, h2, h3⟩ := steps_added hg hm
    have hnorm : c.edges.normalized = false := by
      have := ht.parsed
      unfold Edges.tryFrom at this
      split at this
      · exact absurd this (by simp)
      · rw [← Except.ok.inj this]
    exact ⟨h1, h2, by rw [h3]; simp only [hnorm]⟩

theorem natural_metrics (hp : Osm.parse maxDim c file = .ok (.ok g)) (ht : TimeConfig c gen speed length time)
    {pe : ProtoEdge} (hpe : pe ∈ Osm.parseWays c file) {k : Nat} {x : ℚ} (hx : pe.metrics[k]? = some x) :
    ∃ n : Nat, x = n := by
  obtain ⟨-, tags, s, -, -, -, -, -, -, -, hm⟩ := (Osm.C31_file c file pe).mp hpe
  have h := congrArg (fun l => l[k]?) (Osm.C31_metrics ht.parsed (Osm.parse_build hp).1 s tags)
  simp only [← hm, List.getElem?_map, hx, Option.map_some] at h
  obtain ⟨u, -, hu⟩ := Option.map_eq_some_iff.mp h.symm
  cases u <;> simp only [Osm.metricOf, Option.some.injEq, reduceCtorEq] at hu
  all_goals exact ⟨_, hu.symm⟩

theorem natural_lifted {a b : Nat} (h : |Build.lifted a - Build.lifted b| < 3 / 2000000) : a = b := by
  have key : ∀ n : Nat, Build.lifted n = if n = 0 then 1 / 1000000 else (n : ℚ) := by
    intro n
    unfold Build.lifted
    rcases Nat.eq_zero_or_pos n with rfl | hn
    · norm_num
    · have : (1 : ℚ) ≤ n := by exact_mod_cast hn
      rw [if_neg (by rw [abs_of_nonneg (by linarith)]; linarith), if_neg (by omega)]
  rw [key, key, abs_lt] at h
  obtain ⟨h1, h2⟩ := h
  split at h1 <;> split at h1 <;> rename_i ha hb <;> simp only [ha, hb, if_true, if_false] at h2
  · omega
  · have : (1 : ℚ) ≤ b := by exact_mod_cast Nat.pos_of_ne_zero hb
    linarith
  · have : (1 : ℚ) ≤ a := by exact_mod_cast Nat.pos_of_ne_zero ha
    linarith
  · rcases Nat.lt_trichotomy a b with h | h | h
    · have : (a : ℚ) + 1 ≤ b := by exact_mod_cast h
      linarith
    · exact h
    · have : (b : ℚ) + 1 ≤ a := by exact_mod_cast h
      linarith

/-- Neighboured edges differ. -/
theorem net_distinct (hp : Osm.parse maxDim c file = .ok (.ok g))
    (hf : finish env (some gen) ⟨g, c.nodes, c.edges⟩ = .ok net) (ht : TimeConfig c gen speed length time)
    {e : Nat} {pe pe' : ProtoEdge} (h1 : Build.EdgeOf net.graph e pe) (h2 : Build.EdgeOf net.graph (e + 1) pe') :
    ¬ Build.SameEdge pe pe' := by
  rintro ⟨-, hs, hd, hm⟩
  obtain ⟨hpre, hb⟩ := Osm.parse_build hp
  have hwf := Build.built_wellFormed hb
  have hwf' := C54_wellformed hf hwf
  have htopo := C54_topology hf
  obtain ⟨-, hcons, hcn, hg⟩ := Osm.net_ok hp hf ht
  have hlt : e + 1 < g.edgeCount := by
    rw [← Osm.edgeCount_topo htopo, ← hwf'.metrics_len]
    exact (List.getElem?_eq_some_iff.mp (Res.ofIdx_eq_ok.mp h2.metrics)).1
  obtain ⟨x, hx, x', hx', k1, k2, hne⟩ := Build.C06_neighbours_partial hb hlt
  refine hne ?_
  obtain ⟨_, _, _, _, -, -, -, -, i1, -, -⟩ := (Osm.C31_file c file x).mp hx
  obtain ⟨_, _, _, _, -, -, -, -, i2, -, -⟩ := (Osm.C31_file c file x').mp hx'
  have ends : ∀ {e : Nat} {p q : ProtoEdge}, Build.EdgeOf net.graph e p → Build.EdgeIs g e q →
      p.srcId = q.srcId ∧ p.dstId = q.dstId := by
    intro e p q hp hq
    obtain ⟨u, hu1, hu2⟩ := hp.src
    obtain ⟨v, hv1, hv2⟩ := hp.dst
    obtain ⟨u', hu1', hu2'⟩ := hq.src
    obtain ⟨v', hv1', hv2'⟩ := hq.dst
    rw [htopo.eq] at hu1 hu2 hv1 hv2
    obtain rfl : u = u' := Res.ok.inj (hu1.symm.trans hu1')
    obtain rfl : v = v' := Res.ok.inj (hv1.symm.trans hv1')
    exact ⟨Res.ok.inj (hu2.symm.trans hu2'), Res.ok.inj (hv2.symm.trans hv2')⟩
  obtain ⟨a1, a2⟩ := ends h1 k1
  obtain ⟨b1, b2⟩ := ends h2 k2
  refine ⟨i1.trans i2.symm, by rw [← a1, ← b1]; exact hs, by rw [← a2, ← b2]; exact hd, ?_⟩
  intro k y y' hy hy'
  obtain ⟨n, rfl⟩ := natural_metrics hp ht hx hy
  obtain ⟨n', rfl⟩ := natural_metrics hp ht hx' hy'
  have at_k : ∀ {e : Nat} {p q : ProtoEdge} {z : ℚ}, Build.EdgeOf net.graph e p → Build.EdgeIs g e q →
      q.metrics[k]? = some z → p.metrics[k]? = some (Build.lifted z) := by
    intro e p q z hp hq hz
    have hv : value g.metrics e k = some (Build.lifted z) := by
      rw [value, Res.ofIdx_eq_ok.mp hq.metrics, Option.bind_some, List.getElem?_map, hz, Option.map_some]
    have hku : k < c.edges.units.length := by
      have hl := hcons.values _ (List.mem_of_getElem? (Res.ofIdx_eq_ok.mp hq.metrics))
      rw [List.length_map] at hl
      rw [← hl]
      exact (List.getElem?_eq_some_iff.mp hz).1
    have hki : k < c.edges.ids.length := by rw [hcons.len]; exact hku
    have := (C55_kept hg ht.adds hcons hwf (k := k) ⟨List.getElem?_eq_getElem hki, List.getElem?_eq_getElem hku⟩).2 e _ hv
    rw [value, Res.ofIdx_eq_ok.mp hp.metrics, Option.bind_some] at this
    exact this
  have := natural_lifted (hm k _ _ (at_k h1 k1 hy) (at_k h2 k2 hy'))
  subst this
  norm_num

theorem net_complete (hp : Osm.parse maxDim c file = .ok (.ok g))
    (hf : finish env (some gen) ⟨g, c.nodes, c.edges⟩ = .ok net) (ht : TimeConfig c gen speed length time)
    (hn : gen.nodes = []) (hm : ∀ x ∈ gen.edges, addedColumn x ≠ none) : Fmi.Complete net := by
  obtain ⟨hpre, hb⟩ := Osm.parse_build hp
  have htopo := C54_topology hf
  obtain ⟨⟨ms, dim, hg⟩, -, -⟩ := net_added hp hf ht hn hm
  refine ⟨.inr fun e he => ?_, .inr fun e he => net_plain hp hf he, .inr fun i hi => ?_⟩
  · rw [Osm.edgeCount_topo htopo] at he
    obtain ⟨pe, hpe, hE, -⟩ := Build.C10_flags hb he
    obtain ⟨_, _, _, _, -, -, -, -, i1, -, -⟩ := (Osm.C31_file c file pe).mp hpe
    rw [hg]
    rw [← i1]
    exact hE.id
  · rw [hg] at hi ⊢
    have hi : i < g.nodeIds.length := hi
    show g.nodeLevel i = .ok 0
    have hid : g.nodeId i = .ok g.nodeIds[i] := Res.ofIdx_eq_ok.mpr (List.getElem?_eq_getElem hi)
    have hend := ((Build.C01_node_ids hb).2 _).mp ⟨i, hid⟩
    obtain ⟨j, n, h1, h2⟩ := Build.C02_node_data hb hend
    have hlook := (Build.C01_lookup hb _ i).mpr hid
    have hlast : Build.lastLevel (Osm.parseNodes file) g.nodeIds[i] = none := by
      have hnil : ((Osm.parseNodes file).filter (fun n => n.id = g.nodeIds[i])).filterMap ProtoNode.level = [] := by
        rw [List.filterMap_eq_nil_iff]
        intro n hn
        obtain ⟨o, -, ho⟩ := List.mem_flatMap.mp (List.mem_filter.mp hn).1
        split at ho
        · rw [List.mem_singleton.mp ho]
        · cases ho
      rw [Build.lastLevel, hnil]
      rfl
    rw [hlast] at h2
    simp only [Graph.createNodeFrom, hlook, Graph.createNode, hid, Res.ok_bind, Res.bind_eq_ok, Res.pure_eq, Res.ok.injEq,
      Option.some.injEq, Option.getD_none] at h2
    obtain ⟨n', ⟨x, -, lv, hlv, rfl⟩, h3⟩ := h2
    rw [hlv]
    exact congrArg Res.ok (Graph.Node.mk.inj h3).2.2.2

/-! ## The document for the exported map -/

theorem reads_exported {c' : Parsing} {cd : Fmi.Codec} {d : Bool} {lines : List Text}
    (hp : Osm.parse maxDim c file = .ok (.ok g))
    (hf : finish env (some gen) ⟨g, c.nodes, c.edges⟩ = .ok net) (ht : TimeConfig c gen speed length time)
    (hgen : c.generating = some gen)
    (hn : gen.nodes = []) (hm : ∀ x ∈ gen.edges, addedColumn x ≠ none)
    (hc1 : c'.nodes = c.nodes) (hc2 : c'.edges = net.edges) (hc3 : c'.generating = none)
    (hnc : Fmi.NodeCols c.nodes) (hnn : (c.nodes.filterMap Fmi.idOfNode).Nodup)
    (hsrc : c.edges.cats.countP (Fmi.isInfo .srcId) = 1) (hdst : c.edges.cats.countP (Fmi.isInfo .dstId) = 1)
    (hfew : net.edges.cats.length ≤ maxUsize) (hl : Lossless cd d net)
    (hw : Fmi.write cd net (Fmi.allColumns net true d) = .ok lines) :
    Cfg.check maxDim c' = .ok ⟨⟩ ∧ Fmi.load cd env maxDim c' lines = .ok net := by
  obtain ⟨hpre, hb⟩ := Osm.parse_build hp
  have hwf := Build.built_wellFormed hb
  have hwf' := C54_wellformed hf hwf
  obtain ⟨-, -, hcn, -⟩ := Osm.net_ok hp hf ht
  obtain ⟨⟨ms, dim, hg⟩, hnodes, hedges⟩ := net_added hp hf ht hn hm
  have huniq : UniqueIds c.edges.cats := (C43_parsed _ _).1.mp ⟨_, ht.parsed⟩
  have hconv : ∀ x y, GenCat.convert x y ∉ gen.edges := fun x y hm => ht.adds _ hm trivial
  have hu := (C43_generated hf huniq hconv).mpr ht.names
  unfold Osm.preprocess at hpre
  split at hpre
  · cases hpre
  · rename_i hck
    obtain ⟨k1, k2, k3, k4, -⟩ := (C52_check_iff _ _).mp hck
    have hcats := pbf_cats hpre
    have hcount : ∀ i : MetaInfo, net.edges.cats.countP (Fmi.isInfo i) = c.edges.cats.countP (Fmi.isInfo i) := by
      intro i
      rw [hedges, List.countP_append, added_count _ (by intro u id; rfl), Nat.add_zero]
    have hnone : ∀ i : MetaInfo, i ≠ .srcId → i ≠ .dstId → net.edges.cats.countP (Fmi.isInfo i) = 0 := by
      intro i h1 h2
      rw [hcount, List.countP_eq_zero]
      intro x hx
      rcases hcats x hx with ⟨id, rfl⟩ | ⟨id, rfl⟩ | ⟨id, rfl⟩ | ⟨id, rfl⟩ | rfl <;>
        simp [Fmi.isInfo, Ne.symm h1, Ne.symm h2]
    have hck' : Cfg.check maxDim c' = .ok ⟨⟩ := by
      rw [C52_check_iff, hc1, hc2, hc3]
      refine ⟨k1, k2, k3, ?_, .inl ?_⟩
      · rw [hgen] at k4
        simp only [Option.elim_some, added_dims hm] at k4
        rw [hedges]
        simpa using k4
      · rw [hedges, List.countP_append, added_count _ (by intro u id; rfl), Nat.add_zero, List.countP_eq_zero]
        intro x hx
        rcases hcats x hx with ⟨id, rfl⟩ | ⟨id, rfl⟩ | ⟨id, rfl⟩ | ⟨id, rfl⟩ | rfl <;> simp [EdgeCat.isShortcut]
    refine ⟨hck', ?_⟩
    refine Fmi.C28_same_graph (d := d) hb hg ?_ ?_ hcn hu (by rw [hnodes]; exact hnn) hl.1 (net_complete hp hf ht hn hm)
      hck' (hc1.trans hnodes.symm) hc2 hc3 (by rw [hedges]) ?_ (by rw [hnodes]; exact hnc) hfew
      (fun e pe pe' h1 h2 => net_distinct hp hf ht h1 h2) hw
    · have := hwf'.metrics_len
      rw [hg] at this
      exact this
    · have := hl.2
      rw [hg] at this
      exact this
    · refine ⟨by rw [hcount, hsrc], by rw [hcount, hdst], by rw [hnone _ (by decide) (by decide)]; omega,
        by rw [hnone _ (by decide) (by decide)]; omega, ?_⟩
      intro i hi
      refine hnone i ?_ ?_ <;> rintro rfl <;> simp at hi

end

end Verif.Session
