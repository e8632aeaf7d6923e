import Verif.ContractLemmas
import Verif.RecordProps
import Verif.NearProps
import Verif.FlattenProps
import Mathlib.Data.List.Duplicate

/-!
# Ch-dijkstra in terms of inserted records (C91)

A map with shortcuts and levels is inserted into a builder, and the answers of ch-dijkstra on the built graph are
claims about its plain edges.
-/

namespace Verif.Build

open Dij Search

section
variable {K : Type} [LinearOrder K] [Zero K] [Add K] {h : Heap K} {dotp : List ℚ → List ℚ → K} {fuel fuel' n : Nat}
  {s s' : St K} {dim src dst : Nat} {es : List ProtoEdge} {ns : List ProtoNode} {g : Graph} {algo : Algo}
  {al : List ℚ} {a b : Int}

/-- The flattened path consists of inserted edges that are no shortcuts, and they lead from `a` to `b`. Its costs are
sums of their metrics. -/
theorem C91_chain {p q : Path} (hb : build dim es ns = .ok g) (hl : ShortcutsLead es) (hk : AddOk K)
    (hw : ∀ m ∈ g.metrics, 0 ≤ dotp al m) (hsrc : g.nodeId src = .ok a) (hdst : g.nodeId dst = .ok b)
    (hu : Used h dotp n s) (hc : computeBestPath h dotp fuel s ⟨src, dst, g, algo, al⟩ = some (.ok (s', some p)))
    (hf : Path.tryFlatten g fuel' p = some (.ok q)) :
    ∃ rs : List ProtoEdge, (∀ pe ∈ rs, pe ∈ es ∧ pe.sc = none) ∧ Chain a rs b ∧
      chainCost al rs = routeCost g al q.edges ∧ List.Forall₂ (EdgeIs g) q.edges rs ∧
      ∃ c, q.costs = some c ∧ g.IsCost q.edges c := by
  obtain ⟨h1, -⟩ := C13_route (q := ⟨src, dst, g, algo, al⟩) (built_wellFormed hb) hk hw (nodeId_lt hsrc)
    (nodeId_lt hdst) hu hc
  have h2 := Path.C21_route (shortcutsConnect_of hb hl) hf h1
  obtain ⟨rs, h3, h4, h5, h6⟩ := chain_of_plain (al := al) hb h2 (Path.C21_no_shortcut hf) hsrc hdst
  obtain ⟨-, -, -, -, -, -, -, h7⟩ := Path.C21_expansion hf
  exact ⟨rs, h3, h4, h5, h6, h7⟩

/-- Ch-dijkstra answers that there is no path iff no inserted edges lead from `a` to `b`, if the edges are contracted
for some weights. It does not matter if these are the weights of the query. -/
theorem C91_none_iff {ans : Option Path} {al' : List ℚ} (hb : build dim es ns = .ok g) (hk : AddOk K)
    (hct : ContractedRecords al' (levelOf ns) es) (hw : ∀ m ∈ g.metrics, 0 ≤ dotp al m) (hal : ∀ x ∈ al, 0 ≤ x)
    (hsrc : g.nodeId src = .ok a) (hdst : g.nodeId dst = .ok b) (hu : Used h dotp n s)
    (hc : computeBestPath h dotp fuel s ⟨src, dst, g, .chDijkstra, al⟩ = some (.ok (s', ans))) :
    ans = none ↔ ¬ ∃ rs : List ProtoEdge, (∀ pe ∈ rs, pe ∈ es) ∧ Chain a rs b := by
  rw [C20_none_iff_up_down (q := ⟨src, dst, g, .chDijkstra, al⟩) (built_wellFormed hb) hk hw hal rfl (nodeId_lt hsrc)
    (nodeId_lt hdst) hu hc, not_iff_not]
  constructor
  · rintro ⟨l, hl⟩
    obtain ⟨rs, h1, h2, -⟩ := chain_of_route (al := al) hb hl.route hsrc hdst
    exact ⟨rs, h1, h2⟩
  · rintro ⟨rs, h1, h2⟩
    obtain ⟨l, -, hl, -⟩ := route_of_chain (al := al) hb h1 h2 hsrc hdst
    obtain ⟨l', h3, -⟩ := hierarchy_forget hb hct _ _ _ hl
    exact ⟨l', h3⟩

/-- The same for edges that are no shortcuts. -/
theorem C91_none_iff_plain {ans : Option Path} {al' : List ℚ} (hb : build dim es ns = .ok g) (hk : AddOk K)
    (hct : ContractedRecords al' (levelOf ns) es) (hl : ShortcutsLead es) (he : ShortcutsEnd es)
    (hw : ∀ m ∈ g.metrics, 0 ≤ dotp al m) (hal : ∀ x ∈ al, 0 ≤ x)
    (hsrc : g.nodeId src = .ok a) (hdst : g.nodeId dst = .ok b) (hu : Used h dotp n s)
    (hc : computeBestPath h dotp fuel s ⟨src, dst, g, .chDijkstra, al⟩ = some (.ok (s', ans))) :
    ans = none ↔ ¬ ∃ rs : List ProtoEdge, (∀ pe ∈ rs, pe ∈ es ∧ pe.sc = none) ∧ Chain a rs b := by
  rw [C91_none_iff hb hk hct hw hal hsrc hdst hu hc, not_iff_not]
  constructor
  · rintro ⟨rs, h1, h2⟩
    exact chain_plain hl he h1 h2
  · rintro ⟨rs, h1, h2⟩
    exact ⟨rs, fun pe hpe => (h1 pe hpe).1, h2⟩

end

section
variable {fuel fuel' n : Nat} {s s' : St ℚ} {dim src dst : Nat} {es : List ProtoEdge} {ns : List ProtoNode} {g : Graph}
  {al : List ℚ} {a b : Int} {p q : Path}

/-- A pattern for bounds of the flattened costs. -/
theorem flattened_cheapest {slack : ℚ} (hb : build dim es ns = .ok g) (hnd : NoNearDuplicates es)
    (hsc : ShortcutsCost al es) (hsrc : g.nodeId src = .ok a) (hdst : g.nodeId dst = .ok b)
    (hf : Path.tryFlatten g fuel' p = some (.ok q))
    (hopt : ∀ l, g.IsRoute src l dst → routeCost g al p.edges ≤ routeCost g al l + slack)
    {rs : List ProtoEdge} (hrs : ∀ pe ∈ rs, pe ∈ es) (hr : Chain a rs b) :
    routeCost g al q.edges ≤ chainCost al rs + slack := by
  obtain ⟨ls, h2, h3, -⟩ := Path.C21_expansion hf
  have h4 := flatten_cost hb hnd hsc h2
  obtain ⟨l, ps, h5, h6, h7⟩ := route_of_chain (al := al) hb hrs hr hsrc hdst
  have h8 := hopt l h5
  rw [h6, chainCost_same hnd hrs h7] at h8
  rw [h3]
  exact h4.trans h8

theorem hierarchy_of_records (hb : build dim es ns = .ok g) (hnd : NoNearDuplicates es)
    (hct : ContractedRecords al (levelOf ns) es) (hal : ∀ x ∈ al, 0 ≤ x) : Hierarchy g al :=
  C20_contracted (built_wellFormed hb) (built_nonneg hb) hal
    (contracted_of_records hb hct fun _ _ h1 h2 => (chainCost_same hnd h1 h2).le)

/-- The path itself is a cheapest one, if costs are compared exactly. -/
theorem optimal_exact (hb : build dim es ns = .ok g) (hnd : NoNearDuplicates es)
    (hct : ContractedRecords al (levelOf ns) es) (hsrc : g.nodeId src = .ok a) (hdst : g.nodeId dst = .ok b)
    (hu : Used (binHeap compare) dot n s)
    (hc : computeBestPath (binHeap compare) dot fuel s ⟨src, dst, g, .chDijkstra, al⟩ = some (.ok (s', some p)))
    (l : List Nat) (hl : g.IsRoute src l dst) : routeCost g al p.edges ≤ routeCost g al l :=
  (C20_optimal (q := ⟨src, dst, g, .chDijkstra, al⟩) (V := fun _ => True) (built_wellFormed hb) (built_nonneg hb)
    (hierarchy_of_records hb hnd hct (computed_valid hc).2) rfl (nodeId_lt hsrc) (nodeId_lt hdst) hu
    (binHeap_min (fun _ _ _ _ => rfl)) trivial (fun _ _ _ _ => trivial) hc).2 l hl

/-- The same with the code's comparison. -/
theorem optimal_grid {u : ℚ} (hb : build dim es ns = .ok g) (hnd : NoNearDuplicates es)
    (hct : ContractedRecords al (levelOf ns) es) (hgrid : ∀ pe ∈ es, ∃ i : ℤ, recordCost al pe = i * u)
    (hstep : 3 / 2000000 ≤ u) (hsrc : g.nodeId src = .ok a) (hdst : g.nodeId dst = .ok b) (hu : Used codeHeap dot n s)
    (hc : computeBestPath codeHeap dot fuel s ⟨src, dst, g, .chDijkstra, al⟩ = some (.ok (s', some p)))
    (l : List Nat) (hl : g.IsRoute src l dst) : routeCost g al p.edges ≤ routeCost g al l :=
  (C20_code_partial (q := ⟨src, dst, g, .chDijkstra, al⟩) (built_wellFormed hb) (built_nonneg hb)
    (hierarchy_of_records hb hnd hct (computed_valid hc).2) rfl (nodeId_lt hsrc) (nodeId_lt hdst) hu (fun m hm => by
      obtain ⟨pe, hpe, h5⟩ := built_weights (al := al) hb hm
      rw [h5]
      exact hgrid pe hpe) hstep hc).2 l hl

/-- No inserted edges from `a` to `b` are cheaper than the flattened path, if costs are compared exactly, if the edges
are contracted for the weights of the query, and if no shortcut is cheaper than what it stands for. -/
theorem C91_cheapest (hb : build dim es ns = .ok g) (hnd : NoNearDuplicates es)
    (hct : ContractedRecords al (levelOf ns) es) (hsc : ShortcutsCost al es)
    (hsrc : g.nodeId src = .ok a) (hdst : g.nodeId dst = .ok b) (hu : Used (binHeap compare) dot n s)
    (hc : computeBestPath (binHeap compare) dot fuel s ⟨src, dst, g, .chDijkstra, al⟩ = some (.ok (s', some p)))
    (hf : Path.tryFlatten g fuel' p = some (.ok q))
    {rs : List ProtoEdge} (hrs : ∀ pe ∈ rs, pe ∈ es) (hr : Chain a rs b) :
    routeCost g al q.edges ≤ chainCost al rs := by
  have := flattened_cheapest (slack := 0) hb hnd hsc hsrc hdst hf
    (fun l hl => by rw [add_zero]; exact optimal_exact hb hnd hct hsrc hdst hu hc l hl) hrs hr
  rwa [add_zero] at this

/-- The same with the code's comparison, if the costs of edges are multiples of a step that it can tell apart.
Partial: for other costs it is false, see `C20_false_near_ties`. -/
theorem C91_cheapest_grid_partial {u : ℚ} (hb : build dim es ns = .ok g) (hnd : NoNearDuplicates es)
    (hct : ContractedRecords al (levelOf ns) es) (hsc : ShortcutsCost al es)
    (hgrid : ∀ pe ∈ es, ∃ i : ℤ, recordCost al pe = i * u) (hstep : 3 / 2000000 ≤ u)
    (hsrc : g.nodeId src = .ok a) (hdst : g.nodeId dst = .ok b) (hu : Used codeHeap dot n s)
    (hc : computeBestPath codeHeap dot fuel s ⟨src, dst, g, .chDijkstra, al⟩ = some (.ok (s', some p)))
    (hf : Path.tryFlatten g fuel' p = some (.ok q))
    {rs : List ProtoEdge} (hrs : ∀ pe ∈ rs, pe ∈ es) (hr : Chain a rs b) :
    routeCost g al q.edges ≤ chainCost al rs := by
  have := flattened_cheapest (slack := 0) hb hnd hsc hsrc hdst hf
    (fun l hl => by rw [add_zero]; exact optimal_grid hb hnd hct hgrid hstep hsrc hdst hu hc l hl) hrs hr
  rwa [add_zero] at this

/-- With the code's comparison, the flattened path exceeds every chain of inserted edges only by a slack that grows with
the number of steps.
Partial: without slack it is false, see `C20_false_near_ties`. -/
theorem C91_near_partial {deg : Nat} (hb : build dim es ns = .ok g) (hnd : NoNearDuplicates es)
    (hct : ContractedRecords al (levelOf ns) es) (hsc : ShortcutsCost al es)
    (hdeg : MaxDegree g deg)
    (hsrc : g.nodeId src = .ok a) (hdst : g.nodeId dst = .ok b) (hu : Used codeHeap dot n s)
    (hc : computeBestPath codeHeap dot fuel s ⟨src, dst, g, .chDijkstra, al⟩ = some (.ok (s', some p)))
    (hf : Path.tryFlatten g fuel' p = some (.ok q))
    {rs : List ProtoEdge} (hrs : ∀ pe ∈ rs, pe ∈ es) (hr : Chain a rs b) :
    routeCost g al q.edges ≤ chainCost al rs + (2 + fuel * (deg + 2)) * (3 / 2000000) :=
  flattened_cheapest hb hnd hsc hsrc hdst hf (fun l hl =>
    C20_near_optimal_partial (q := ⟨src, dst, g, .chDijkstra, al⟩) (built_wellFormed hb) (built_nonneg hb)
      (hierarchy_of_records hb hnd hct (computed_valid hc).2) rfl hdeg (nodeId_lt hsrc) (nodeId_lt hdst) hu hc l hl)
    hrs hr

/-- If no shortcut is cheaper than what it stands for, and every edge costs something, then flattening ends. -/
theorem C91_flatten_ends (hb : build dim es ns = .ok g) (hnd : NoNearDuplicates es) (hsc : ShortcutsCost al es)
    (hpos : ∀ pe ∈ es, 0 < recordCost al pe) (hp : ∀ e ∈ p.edges, e < g.edgeCount) :
    ∃ k, ∀ fuel, k ≤ fuel → (∃ q, Path.tryFlatten g fuel p = some (.ok q)) ∨
      Path.tryFlatten g fuel p = some (.err .cycle) := by
  obtain ⟨ds, hds⟩ : ∃ ds, List.Forall₂ (Graph.SetsAside g) p.edges ds := by
    generalize p.edges = l at hp
    induction l with
    | nil => exact ⟨[], .nil⟩
    | cons e l ih =>
      obtain ⟨ds, h1⟩ := ih fun x hx => hp x (by simp [hx])
      obtain ⟨_, h2⟩ := expands_all hb hnd hsc hpos (hp e (by simp))
      obtain ⟨d, h3⟩ := Path.sets_of_expands h2
      exact ⟨d :: ds, .cons h3 h1⟩
  obtain ⟨k, hk⟩ := Path.C21_outcome hb hds
  refine ⟨k, fun fuel hf => ?_⟩
  by_cases h : ∀ i d, ds[i]? = some d → d = 0 ∨ p.edges.length - (i + 1) + d ≤ g.edgeCount
  · exact .inl ((hk fuel hf).1 h)
  · exact .inr ((hk fuel hf).2 h)

/-- What a cheapest path stands for does not repeat edges, hence it is flattened successfully. -/
theorem flattens_of_optimal (hb : build dim es ns = .ok g) (hnd : NoNearDuplicates es)
    (hl : ShortcutsLead es) (hsc : ShortcutsCost al es) (hpos : ∀ pe ∈ es, 0 < recordCost al pe)
    (hp : g.IsRoute src p.edges dst) (hopt : ∀ l, g.IsRoute src l dst → routeCost g al p.edges ≤ routeCost g al l) :
    ∃ k, ∀ fuel, k ≤ fuel → ∃ q, Path.tryFlatten g fuel p = some (.ok q) := by
  have hwf := built_wellFormed hb
  obtain ⟨ls, h1, h2⟩ : ∃ ls, List.Forall₂ (Graph.Expands g) p.edges ls ∧ g.IsRoute src ls.flatten dst := by
    clear hopt
    generalize p.edges = l at hp
    induction l generalizing src with
    | nil => exact ⟨[], .nil, hp⟩
    | cons e l ih =>
      obtain ⟨w, he, hr⟩ := hp
      obtain ⟨ls, h1, h2⟩ := ih hr
      obtain ⟨l', h3⟩ := expands_all hb hnd hsc hpos (edge_lt hwf he.1)
      refine ⟨l' :: ls, .cons h3 h1, ?_⟩
      rw [List.flatten_cons]
      exact Graph.isRoute_append.mpr ⟨w, Path.route_expand (shortcutsConnect_of hb hl) h3 he, h2⟩
  have h3 := flatten_cost hb hnd hsc h1
  obtain ⟨k, hk⟩ := Path.C21_built_succeeds hb h1 (by
    by_contra hdup
    obtain ⟨x, hx⟩ := List.exists_duplicate_iff_not_nodup.mpr hdup
    obtain ⟨A, B, hAB, hA, hB⟩ := List.append_sublist_iff.mp
      (show List.Sublist ([x] ++ [x]) ls.flatten from List.duplicate_iff_sublist.mp hx)
    obtain ⟨A1, A2, rfl⟩ := List.append_of_mem (List.singleton_sublist.mp hA)
    obtain ⟨B1, B2, rfl⟩ := List.append_of_mem (List.singleton_sublist.mp hB)
    rw [hAB] at h2 h3
    obtain ⟨w, h4, h5⟩ := Graph.isRoute_append.mp h2
    obtain ⟨w1, h6, w2, h7, h8⟩ := Graph.isRoute_append.mp h4
    obtain ⟨w3, h9, w4, h10, h11⟩ := Graph.isRoute_append.mp h5
    have h12 : w4 = w2 := Res.ok.inj (h10.1.symm.trans h7.1)
    subst h12
    have h13 := hopt (A1 ++ x :: B2) (Graph.isRoute_append.mpr ⟨w1, h6, w4, h7, h11⟩)
    have hx' := edge_lt hwf h7.1
    obtain ⟨pe, hpe, hce⟩ := edge_cost (al := al) hb hx'
    have hcx := hpos pe hpe
    rw [← hce] at hcx
    have hnn : ∀ l u v, g.IsRoute u l v → 0 ≤ routeCost g al l := by
      intro l
      induction l with
      | nil => intro u v _; exact le_rfl
      | cons e l ih =>
        rintro u v ⟨w, he, hr⟩
        obtain ⟨pe, hpe, hce⟩ := edge_cost (al := al) hb (edge_lt hwf he.1)
        rw [show e :: l = [e] ++ l from rfl, routeCost_append, hce]
        exact add_nonneg (hpos pe hpe).le (ih _ _ hr)
    have hA2 := hnn _ _ _ h8
    have hB1 := hnn _ _ _ h9
    rw [show x :: A2 = [x] ++ A2 from rfl, show x :: B2 = [x] ++ B2 from rfl] at h3
    rw [show x :: B2 = [x] ++ B2 from rfl] at h13
    simp only [routeCost_append] at h3 h13
    linarith)
  refine ⟨k, fun fuel hf => ?_⟩
  obtain ⟨f, rfl⟩ := Nat.exists_eq_add_of_le' hf
  obtain ⟨q, hq, -⟩ := hk f
  exact ⟨q, hq⟩

/-- The path of ch-dijkstra is flattened successfully, if costs are compared exactly. -/
theorem C91_flattens (hb : build dim es ns = .ok g) (hnd : NoNearDuplicates es)
    (hct : ContractedRecords al (levelOf ns) es) (hl : ShortcutsLead es) (hsc : ShortcutsCost al es)
    (hpos : ∀ pe ∈ es, 0 < recordCost al pe)
    (hsrc : g.nodeId src = .ok a) (hdst : g.nodeId dst = .ok b) (hu : Used (binHeap compare) dot n s)
    (hc : computeBestPath (binHeap compare) dot fuel s ⟨src, dst, g, .chDijkstra, al⟩ = some (.ok (s', some p))) :
    ∃ k, ∀ fuel, k ≤ fuel → ∃ q, Path.tryFlatten g fuel p = some (.ok q) :=
  flattens_of_optimal hb hnd hl hsc hpos
    (C13_route (q := ⟨src, dst, g, .chDijkstra, al⟩) (built_wellFormed hb) addOk_rat
      (weights_nonneg (computed_valid hc).2 (built_nonneg hb)) (nodeId_lt hsrc) (nodeId_lt hdst) hu hc).1
    fun l hl' => optimal_exact hb hnd hct hsrc hdst hu hc l hl'

/-- The same with the code's comparison, if the costs of edges are multiples of a step that it can tell apart.
Partial: for other costs, the path may be flattened or end with an error, but it ends, see `C91_flatten_ends`. -/
theorem C91_flattens_grid_partial {u : ℚ} (hb : build dim es ns = .ok g) (hnd : NoNearDuplicates es)
    (hct : ContractedRecords al (levelOf ns) es) (hl : ShortcutsLead es) (hsc : ShortcutsCost al es)
    (hpos : ∀ pe ∈ es, 0 < recordCost al pe)
    (hgrid : ∀ pe ∈ es, ∃ i : ℤ, recordCost al pe = i * u) (hstep : 3 / 2000000 ≤ u)
    (hsrc : g.nodeId src = .ok a) (hdst : g.nodeId dst = .ok b) (hu : Used codeHeap dot n s)
    (hc : computeBestPath codeHeap dot fuel s ⟨src, dst, g, .chDijkstra, al⟩ = some (.ok (s', some p))) :
    ∃ k, ∀ fuel, k ≤ fuel → ∃ q, Path.tryFlatten g fuel p = some (.ok q) :=
  flattens_of_optimal hb hnd hl hsc hpos
    (C13_route (q := ⟨src, dst, g, .chDijkstra, al⟩) (built_wellFormed hb) addOk_rat
      (weights_nonneg (computed_valid hc).2 (built_nonneg hb)) (nodeId_lt hsrc) (nodeId_lt hdst) hu hc).1
    fun l hl' => optimal_grid hb hnd hct hgrid hstep hsrc hdst hu hc l hl'

end

/-! ## Samples -/

/-- Checks `ContractedRecords` with single edges as bypasses. -/
def contractedRecordsB (al : List ℚ) (lv : Int → Nat) (es : List ProtoEdge) : Bool :=
  es.all (fun pe => decide (pe.srcId = pe.dstId) || decide (lv pe.srcId ≠ lv pe.dstId)) &&
  es.all (fun pe => es.all fun pe' =>
    decide (pe'.srcId ≠ pe.dstId) || decide (lv pe.srcId ≤ lv pe.dstId) || decide (lv pe'.dstId ≤ lv pe.dstId) ||
      (decide (pe.srcId = pe'.dstId) && decide (0 ≤ recordCost al pe + recordCost al pe')) ||
      es.any fun r => decide (r.srcId = pe.srcId) && decide (r.dstId = pe'.dstId) &&
        decide (recordCost al r ≤ recordCost al pe + recordCost al pe'))

theorem contractedRecords_of {al : List ℚ} {lv : Int → Nat} {es : List ProtoEdge}
    (h : contractedRecordsB al lv es = true) : ContractedRecords al lv es := by
  unfold contractedRecordsB at h
  simp only [Bool.and_eq_true, List.all_eq_true, Bool.or_eq_true, decide_eq_true_eq, ne_eq, List.any_eq_true] at h
  constructor
  · intro pe hpe hne
    exact (h.1 pe hpe).resolve_left hne
  · intro pe hpe pe' hpe' h1 h2 h3
    rcases h.2 pe hpe pe' hpe' with (((h4 | h4) | h4) | h4) | ⟨r, h4, ⟨h5, h6⟩, h7⟩
    · exact absurd h1 h4
    · omega
    · omega
    · exact ⟨[], by simp, h4.1, by simp, by simpa [chainCost] using h4.2⟩
    · exact ⟨[r], by simpa using h4, ⟨h5, h6⟩, by simp, by simpa [chainCost] using h7⟩

/-- A circle with two shortcuts. -/
def ringEdges : List ProtoEdge :=
  [edge1 0 1 1, edge1 1 2 1, edge1 2 3 1, edge1 3 0 1,
    { edge1 0 2 2 with sc := some (0, 1) }, { edge1 2 0 2 with sc := some (2, 3) }]

def ringNodes : List ProtoNode := lvNodes 0 [2, 0, 3, 1]

def ringGraph : Graph := okGraph (build 1 ringEdges ringNodes)

theorem ring_build : build 1 ringEdges ringNodes = .ok ringGraph := by decide +kernel

theorem ring_contracted : ContractedRecords [1] (levelOf ringNodes) ringEdges :=
  contractedRecords_of (by decide +kernel)

theorem ring_unique : NoNearDuplicates ringEdges := by
  intro pe hpe pe' hpe' hs
  have key : ∀ x ∈ ringEdges, ∀ y ∈ ringEdges, y.srcId = x.srcId → y.dstId = x.dstId → y.metrics = x.metrics := by
    decide +kernel
  exact key pe hpe pe' hpe' hs.2.1 hs.2.2.1

/-- Checks shortcuts one after the other. -/
def eachShortcut (es : List ProtoEdge) (f : ProtoEdge → ProtoEdge → ProtoEdge → Bool) : Bool :=
  es.all fun pe =>
    match pe.sc with
    | none => true
    | some (i, j) =>
      match es[i]?, es[j]? with
      | some p, some q => f pe p q
      | _, _ => false

theorem each_of {es : List ProtoEdge} {f : ProtoEdge → ProtoEdge → ProtoEdge → Bool} (h : eachShortcut es f = true)
    {pe : ProtoEdge} (hpe : pe ∈ es) {i j : Nat} (hs : pe.sc = some (i, j)) :
    ∃ p q, es[i]? = some p ∧ es[j]? = some q ∧ f pe p q = true := by
  have := List.all_eq_true.mp h pe hpe
  simp only [hs] at this
  split at this
  · rename_i p q h1 h2
    exact ⟨p, q, h1, h2, this⟩
  · cases this

theorem shortcutsLead_of {es : List ProtoEdge}
    (h : eachShortcut es (fun pe p q => p.srcId = pe.srcId ∧ q.srcId = p.dstId ∧ q.dstId = pe.dstId) = true) :
    ShortcutsLead es := by
  intro pe hpe i j hs
  obtain ⟨p, q, h1, h2, h3⟩ := each_of h hpe hs
  exact ⟨p, q, h1, h2, of_decide_eq_true h3⟩

theorem shortcutsCost_of {al : List ℚ} {es : List ProtoEdge}
    (h : eachShortcut es (fun pe p q => recordCost al p + recordCost al q ≤ recordCost al pe) = true) :
    ShortcutsCost al es := by
  intro pe hpe i j p q hs hp hq
  obtain ⟨p', q', h1, h2, h3⟩ := each_of h hpe hs
  rw [hp, Option.some.injEq] at h1
  rw [hq, Option.some.injEq] at h2
  subst h1 h2
  exact of_decide_eq_true h3

theorem shortcutsEnd_of {es : List ProtoEdge}
    (h : (es.zipIdx.all fun x => match x.1.sc with
      | none => true
      | some (i, j) => decide (i < x.2) && decide (j < x.2)) = true) : ShortcutsEnd es := by
  refine ⟨id, fun k pe i j hk hs => ?_⟩
  have := List.all_eq_true.mp h (pe, k) (List.mem_zipIdx_iff_getElem?.mpr hk)
  simpa [hs] using this

theorem answer_ok {K : Type} {r : Option (Dij.R (St K × Option Path))} {ans : Option Path}
    (h : answer r = some (.ok ans)) : ∃ s, r = some (.ok (s, ans)) := by
  match r, h with
  | some (.ok (s, a)), h =>
    simp only [answer, Option.map_some, Res.ok_bind, Res.pure_eq, Option.some.injEq, Res.ok.injEq] at h
    exact ⟨s, by rw [h]⟩

/-- From node 1 to node 0, the path uses a shortcut, which is flattened; and the hypotheses hold. -/
example : ∃ s', computeBestPath codeHeap dot 40 St.new ⟨1, 0, ringGraph, .chDijkstra, [1]⟩ =
      some (.ok (s', some (Path.new 1 1 0 0 [2, 3]))) ∧
    Path.tryFlatten ringGraph 40 (Path.new 1 1 0 0 [2, 3]) =
      some (.ok { Path.new 1 1 0 0 [2, 4, 5] with costs := some [3] }) ∧
    (∃ rs : List ProtoEdge, (∀ pe ∈ rs, pe ∈ ringEdges ∧ pe.sc = none) ∧ Chain 1 rs 0 ∧ chainCost [1] rs = 3) ∧
    ∀ rs : List ProtoEdge, (∀ pe ∈ rs, pe ∈ ringEdges) → Chain 1 rs 0 → 3 ≤ chainCost [1] rs := by
  obtain ⟨s', h0⟩ := answer_ok (show answer (computeBestPath codeHeap dot 40 St.new
    ⟨1, 0, ringGraph, .chDijkstra, [1]⟩) = some (.ok (some (Path.new 1 1 0 0 [2, 3]))) by decide +kernel)
  have hf : Path.tryFlatten ringGraph 40 (Path.new 1 1 0 0 [2, 3]) =
      some (.ok { Path.new 1 1 0 0 [2, 4, 5] with costs := some [3] }) := by decide +kernel
  have hl : ShortcutsLead ringEdges := shortcutsLead_of (by decide +kernel)
  have hcost : routeCost ringGraph [1] [2, 4, 5] = 3 := by decide +kernel
  refine ⟨s', h0, hf, ?_, fun rs h1 h2 => ?_⟩
  · obtain ⟨rs, h1, h2, h3, -⟩ := C91_chain (a := 1) (b := 0) ring_build hl addOk_rat
      (weights_nonneg (by simp) (built_nonneg ring_build)) (by decide +kernel) (by decide +kernel) (n := 0) .new h0 hf
    exact ⟨rs, h1, h2, h3.trans hcost⟩
  · have := C91_cheapest_grid_partial (u := 1) ring_build ring_unique ring_contracted
      (shortcutsCost_of (by decide +kernel)) (fun pe hpe => by
        have : ∀ x ∈ ringEdges, recordCost [1] x = ((recordCost [1] x).num : ℚ) * 1 := by decide +kernel
        exact ⟨_, this pe hpe⟩) (by norm_num) (by decide +kernel) (by decide +kernel) (n := 0) .new h0 hf h1 h2
    exact hcost.symm.trans_le this

/-- Its path is flattened, whatever the number of steps is. -/
example : (∀ pe ∈ ringEdges, 0 < recordCost [1] pe) ∧ ∃ k, ∀ fuel, k ≤ fuel →
    ∃ q, Path.tryFlatten ringGraph fuel (Path.new 1 1 0 0 [2, 3]) = some (.ok q) := by
  have hpos : ∀ pe ∈ ringEdges, 0 < recordCost [1] pe := by decide +kernel
  obtain ⟨s', h0⟩ := answer_ok (show answer (computeBestPath codeHeap dot 40 St.new
    ⟨1, 0, ringGraph, .chDijkstra, [1]⟩) = some (.ok (some (Path.new 1 1 0 0 [2, 3]))) by decide +kernel)
  exact ⟨hpos, C91_flattens_grid_partial (u := 1) ring_build ring_unique ring_contracted
    (shortcutsLead_of (by decide +kernel)) (shortcutsCost_of (by decide +kernel)) hpos (fun pe hpe => by
      have : ∀ x ∈ ringEdges, recordCost [1] x = ((recordCost [1] x).num : ℚ) * 1 := by decide +kernel
      exact ⟨_, this pe hpe⟩) (by norm_num) (a := 1) (b := 0) (by decide +kernel) (by decide +kernel) (n := 0) .new h0⟩

/-- Whatever the answer is, it says whether plain edges connect the nodes. -/
example {s' : St ℚ} {ans : Option Path}
    (hc : computeBestPath codeHeap dot 40 St.new ⟨1, 0, ringGraph, .chDijkstra, [1]⟩ = some (.ok (s', ans))) :
    ans = none ↔ ¬ ∃ rs : List ProtoEdge, (∀ pe ∈ rs, pe ∈ ringEdges ∧ pe.sc = none) ∧ Chain 1 rs 0 :=
  C91_none_iff_plain ring_build addOk_rat ring_contracted (shortcutsLead_of (by decide +kernel))
    (shortcutsEnd_of (by decide +kernel)) (weights_nonneg (by simp) (built_nonneg ring_build)) (by simp)
    (by decide +kernel) (by decide +kernel) (n := 0) .new hc

/-- The path is a cheapest one with exact comparison, too, and a nearly cheapest one in any case. -/
example {s' : St ℚ} (hc : computeBestPath (binHeap compare) dot 40 St.new ⟨1, 0, ringGraph, .chDijkstra, [1]⟩ =
      some (.ok (s', some (Path.new 1 1 0 0 [2, 3])))) {s'' : St ℚ}
    (hc' : computeBestPath codeHeap dot 40 St.new ⟨1, 0, ringGraph, .chDijkstra, [1]⟩ =
      some (.ok (s'', some (Path.new 1 1 0 0 [2, 3])))) {rs : List ProtoEdge} (hrs : ∀ pe ∈ rs, pe ∈ ringEdges)
    (hr : Chain 1 rs 0) : routeCost ringGraph [1] [2, 4, 5] ≤ chainCost [1] rs ∧
      routeCost ringGraph [1] [2, 4, 5] ≤ chainCost [1] rs + (2 + (40 : Nat) * ((6 : Nat) + 2)) * (3 / 2000000) := by
  have hf : Path.tryFlatten ringGraph 40 (Path.new 1 1 0 0 [2, 3]) =
      some (.ok { Path.new 1 1 0 0 [2, 4, 5] with costs := some [3] }) := by decide +kernel
  have hl : ShortcutsLead ringEdges := shortcutsLead_of (by decide +kernel)
  have hsc : ShortcutsCost [1] ringEdges := shortcutsCost_of (by decide +kernel)
  have hdeg : MaxDegree ringGraph 6 :=
    (show ringGraph.edgeCount = 6 by decide +kernel) ▸ maxDegree_edges (built_wellFormed ring_build)
  exact ⟨C91_cheapest ring_build ring_unique ring_contracted hsc (by decide +kernel) (by decide +kernel) (n := 0) .new
      hc hf hrs hr,
    C91_near_partial ring_build ring_unique ring_contracted hsc hdeg (by decide +kernel) (by decide +kernel) (n := 0)
      .new hc' hf hrs hr⟩

example : answer (computeBestPath (binHeap compare) dot 40 St.new ⟨1, 0, ringGraph, .chDijkstra, [1]⟩) =
    some (.ok (some (Path.new 1 1 0 0 [2, 3]))) := by decide +kernel

/-! ## What may go wrong -/

/-- An edge for two others. -/
def over (id : Nat) (a b : Int) (m : ℚ) (i j : Nat) : ProtoEdge := { edge1 a b m with id := some id, sc := some (i, j) }

/-- Six nodes in a row with edges that cost nothing, a direct edge for `3e-6`, and shortcuts that cost nothing. -/
def zeroEdges : List ProtoEdge :=
  [edge1 0 1 0, edge1 1 2 0, edge1 2 3 0, edge1 3 4 0, edge1 4 5 0, edge1 0 5 (3 / 1000000),
    over 10 0 2 0 0 1, over 11 0 3 0 6 2, over 12 0 4 0 7 3, over 13 0 5 0 8 4, edge1 5 0 1]

def zeroNodes : List ProtoNode := lvNodes 0 [5, 0, 1, 2, 3, 4]

/-- In the map, every shortcut costs exactly what its edges cost, and the records are contracted. Values around zero
become `1e-6`, though, hence five edges cost more than their shortcut: the flattened path costs `5e-6` although there is
an edge for `3e-6`. -/
theorem C91_false_zero : ∃ g, build 1 zeroEdges zeroNodes = .ok g ∧
    ContractedRecords [1] (levelOf zeroNodes) zeroEdges ∧ ShortcutsLead zeroEdges ∧
    (∀ pe ∈ zeroEdges, ∀ (i j : Nat) (p q : ProtoEdge), pe.sc = some (i, j) → zeroEdges[i]? = some p →
      zeroEdges[j]? = some q → pe.metrics = List.zipWith (· + ·) p.metrics q.metrics) ∧
    (∃ p q, answer (computeBestPath codeHeap dot 60 St.new ⟨0, 5, g, .chDijkstra, [1]⟩) = some (.ok (some p)) ∧
      Path.tryFlatten g 60 p = some (.ok q) ∧ q.costs = some [5 / 1000000]) ∧
    edge1 0 5 (3 / 1000000) ∈ zeroEdges ∧ chainCost [1] [edge1 0 5 (3 / 1000000)] = 3 / 1000000 := by
  refine ⟨okGraph (build 1 zeroEdges zeroNodes), by decide +kernel, contractedRecords_of (by decide +kernel),
    shortcutsLead_of (by decide +kernel), ?_, ?_, by decide +kernel, by decide +kernel⟩
  · intro pe hpe i j p q hs hp hq
    obtain ⟨p', q', h1, h2, h3⟩ := each_of (f := fun pe p q => pe.metrics = List.zipWith (· + ·) p.metrics q.metrics)
      (by decide +kernel) hpe hs
    rw [hp, Option.some.injEq] at h1
    rw [hq, Option.some.injEq] at h2
    subst h1 h2
    exact of_decide_eq_true h3
  · exact ⟨Path.new 0 0 5 5 [1], { Path.new 0 0 5 5 [5, 6, 7, 8, 9] with costs := some [5 / 1000000] }, by decide +kernel,
      by decide +kernel, by decide +kernel⟩

/-- The edge from 0 to 1 is given twice, first as a shortcut for a loop that costs nothing and for the other one. -/
def twiceEdges : List ProtoEdge :=
  [{ edge1 0 1 1 with sc := some (2, 1) }, edge1 0 1 1, edge1 0 0 0, edge1 1 2 1, edge1 2 0 1,
    { edge1 1 0 2 with sc := some (3, 4) }]

def twiceNodes : List ProtoNode := lvNodes 0 [2, 1, 0]

def twiceGraph : Graph := okGraph (build 1 twiceEdges twiceNodes)

/-- No shortcut stands for itself, and all of them cost what their edges cost. Yet the second edge from 0 to 1 is removed
as a duplicate of the first one, which then stands for itself: the found path is flattened forever. -/
theorem C91_false_twice : build 1 twiceEdges twiceNodes = .ok twiceGraph ∧
    ContractedRecords [1] (levelOf twiceNodes) twiceEdges ∧ ShortcutsLead twiceEdges ∧ ShortcutsEnd twiceEdges ∧
    NoNearDuplicates twiceEdges ∧
    (∀ pe ∈ twiceEdges, ∀ (i j : Nat) (p q : ProtoEdge), pe.sc = some (i, j) → twiceEdges[i]? = some p →
      twiceEdges[j]? = some q → pe.metrics = List.zipWith (· + ·) p.metrics q.metrics) ∧
    answer (computeBestPath codeHeap dot 60 St.new ⟨0, 1, twiceGraph, .chDijkstra, [1]⟩) =
      some (.ok (some (Path.new 0 0 1 1 [1]))) ∧
    ∀ fuel, Path.tryFlatten twiceGraph fuel (Path.new 0 0 1 1 [1]) = none := by
  refine ⟨by decide +kernel, contractedRecords_of (by decide +kernel), shortcutsLead_of (by decide +kernel), ?_, ?_, ?_,
    by decide +kernel, ?_⟩
  · refine ⟨fun k => if k = 0 ∨ k = 5 then 1 else 0, fun k pe i j hk hs => ?_⟩
    match k, hk with
    | 0, hk => cases hk; cases hs; decide
    | 1, hk => cases hk; cases hs
    | 2, hk => cases hk; cases hs
    | 3, hk => cases hk; cases hs
    | 4, hk => cases hk; cases hs
    | 5, hk => cases hk; cases hs; decide
  · intro pe hpe pe' hpe' hs
    have key : ∀ x ∈ twiceEdges, ∀ y ∈ twiceEdges, y.srcId = x.srcId → y.dstId = x.dstId → y.metrics = x.metrics := by
      decide +kernel
    exact key pe hpe pe' hpe' hs.2.1 hs.2.2.1
  · intro pe hpe i j p q hs hp hq
    obtain ⟨p', q', h1, h2, h3⟩ := each_of (f := fun pe p q => pe.metrics = List.zipWith (· + ·) p.metrics q.metrics)
      (by decide +kernel) hpe hs
    rw [hp, Option.some.injEq] at h1
    rw [hq, Option.some.injEq] at h2
    subst h1 h2
    exact of_decide_eq_true h3
  · have h0 : twiceGraph.scEdgesOf 0 = .ok none := by decide +kernel
    have h1 : twiceGraph.scEdgesOf 1 = .ok (some (0, 1)) := by decide +kernel
    have hm : twiceGraph.metrics[0]? = some [1 / 1000000] := by decide +kernel
    have hE : twiceGraph.edgeCount = 5 := by decide +kernel
    have key : ∀ n fuel, fuel ≤ n → ∀ out costs, Path.flatGo twiceGraph fuel none [1] out costs = none := by
      intro n
      induction n with
      | zero =>
        intro fuel hf out costs
        obtain rfl : fuel = 0 := by omega
        rfl
      | succ n ih =>
        intro fuel hf out costs
        match fuel with
        | 0 => rfl
        | 1 => rfl
        | 2 => simp [Path.flatGo, h1, hE]
        | f + 3 =>
          simp only [Path.flatGo, h1, h0, hm, hE, List.length_cons, List.length_nil]
          rw [if_neg (by decide)]
          exact ih f (by omega) _ _
    intro fuel
    unfold Path.tryFlatten
    rw [Option.map_eq_none_iff]
    exact key fuel fuel le_rfl _ _

/-- Without contraction, ch-dijkstra denies a path over a lower node. -/
theorem C91_false_valley : ∃ g, build 1 [edge1 0 1 1, edge1 1 2 1, edge1 2 0 1] (lvNodes 0 [1, 0, 2]) = .ok g ∧
    answer (computeBestPath codeHeap dot 40 St.new ⟨0, 2, g, .chDijkstra, [1]⟩) = some (.ok none) ∧
    Chain 0 [edge1 0 1 1, edge1 1 2 1] 2 :=
  ⟨okGraph (build 1 [edge1 0 1 1, edge1 1 2 1, edge1 2 0 1] (lvNodes 0 [1, 0, 2])), by decide +kernel,
    by decide +kernel, rfl, rfl, rfl⟩

end Verif.Build
