import Verif.RecordSpec
import Verif.BuildingProps
import Verif.DijkstraProps

/-!
# Routes of a built graph and chains of inserted edges
-/

namespace Verif.Build

open Graph

variable {dim : Nat} {es : List ProtoEdge} {ns : List ProtoNode} {g : Graph} {al : List ℚ}

theorem nodeId_inj (hw : g.WellFormed) {u v : Nat} {a : Int} (h1 : g.nodeId u = .ok a) (h2 : g.nodeId v = .ok a) :
    u = v := by
  rw [Graph.nodeId, Res.ofIdx_eq_ok] at h1 h2
  have := (idxFrom_eq_ok_iff hw.ids_sorted (id := a) (i := u)).mpr h1
  have h' := (idxFrom_eq_ok_iff hw.ids_sorted (id := a) (i := v)).mpr h2
  rw [this] at h'
  exact Except.ok.inj h'

theorem edgeIs_cost {e : Nat} {pe : ProtoEdge} (h : EdgeIs g e pe) :
    (List.zipWith (· * ·) al ((g.metrics[e]?).getD [])).sum = recordCost al pe := by
  have := h.metrics
  rw [Graph.edgeMetrics, Res.ofIdx_eq_ok] at this
  rw [this]
  rfl

/-- Every route is a chain of records. -/
theorem chain_of_route (h : build dim es ns = .ok g) {l : List Nat} {u v : Nat} {a b : Int}
    (hr : g.IsRoute u l v) (ha : g.nodeId u = .ok a) (hb : g.nodeId v = .ok b) :
    ∃ rs : List ProtoEdge, (∀ pe ∈ rs, pe ∈ es) ∧ Chain a rs b ∧ chainCost al rs = Dij.routeCost g al l ∧
      List.Forall₂ (EdgeIs g) l rs := by
  induction l generalizing u a with
  | nil =>
    obtain rfl : u = v := hr
    rw [ha] at hb
    exact ⟨[], by simp, Res.ok.inj hb, rfl, .nil⟩
  | cons e l ih =>
    obtain ⟨w, he, hr⟩ := hr
    have hlt : e < g.edgeCount := by
      have := he.1
      rw [Graph.dstIdx, Res.ofIdx_eq_ok] at this
      exact lt_length_of_getElem? this
    obtain ⟨pe, hpe, hE⟩ := C05_no_edge_invented h hlt
    obtain ⟨u', hu', hus⟩ := hE.src
    obtain ⟨w', hw', hws⟩ := hE.dst
    obtain rfl : u' = u := Res.ok.inj (hu'.symm.trans he.2)
    obtain rfl : w' = w := Res.ok.inj (hw'.symm.trans he.1)
    obtain ⟨rs, h1, h2, h3, h4⟩ := ih hr hws
    refine ⟨pe :: rs, ?_, ⟨Res.ok.inj (hus.symm.trans ha), h2⟩, ?_, .cons hE h4⟩
    · intro x hx
      rcases List.mem_cons.mp hx with rfl | hx
      · exact hpe
      · exact h1 x hx
    · simp only [chainCost, Dij.routeCost, List.map_cons, List.sum_cons, edgeIs_cost hE] at h3 ⊢
      rw [h3]

/-- Every chain of records is a route over their representatives. -/
theorem route_of_chain (h : build dim es ns = .ok g) {rs : List ProtoEdge} {v : Nat} {a b : Int} {u : Nat}
    (hrs : ∀ pe ∈ rs, pe ∈ es) (hc : Chain a rs b) (ha : g.nodeId u = .ok a) (hb : g.nodeId v = .ok b) :
    ∃ l ps, g.IsRoute u l v ∧ Dij.routeCost g al l = chainCost al ps ∧
      List.Forall₂ (fun pe' pe => pe' ∈ es ∧ (pe' = pe ∨ SameEdge pe' pe)) ps rs := by
  have hwf := built_wellFormed h
  induction rs generalizing u a with
  | nil =>
    obtain rfl : a = b := hc
    exact ⟨[], [], nodeId_inj hwf ha hb, rfl, .nil⟩
  | cons pe rs ih =>
    obtain ⟨h1, h2⟩ := hc
    obtain ⟨e, -, pe', hpe', hE, hor⟩ := C05_no_edge_lost h (hrs pe (by simp))
    obtain ⟨u', hu', hus⟩ := hE.src
    obtain ⟨w, hw, hws⟩ := hE.dst
    have hsame : pe'.srcId = pe.srcId ∧ pe'.dstId = pe.dstId := by
      rcases hor with rfl | hs
      · exact ⟨rfl, rfl⟩
      · exact ⟨hs.2.1, hs.2.2.1⟩
    rw [hsame.1, h1] at hus
    rw [hsame.2] at hws
    obtain rfl := nodeId_inj hwf hus ha
    obtain ⟨l, ps, h3, h4, h5⟩ := ih (fun x hx => hrs x (by simp [hx])) h2 hws
    refine ⟨e :: l, pe' :: ps, ⟨w, ⟨hw, hu'⟩, h3⟩, ?_, .cons ⟨hpe', hor⟩ h5⟩
    simp only [chainCost, Dij.routeCost, List.map_cons, List.sum_cons, edgeIs_cost hE] at h4 ⊢
    rw [h4]

theorem lifted_near {x y : ℚ} (h : |x - y| < 3 / 2000000) : lifted x ≤ lifted y + 1 / 250000 := by
  rw [abs_lt] at h
  unfold lifted
  split <;> split <;> rename_i h1 h2 <;> rw [abs_lt] at h1 <;> rw [abs_lt] at h2 <;> by_contra h3
  · linarith
  · apply h2; constructor <;> linarith
  · apply h1; constructor <;> linarith
  · linarith

theorem zip_near {m m' : List ℚ} (hal : ∀ a ∈ al, 0 ≤ a) (hl : m.length = al.length) (hl' : m'.length = al.length)
    (h : ∀ (k : Nat) (x y : ℚ), m'[k]? = some x → m[k]? = some y → x ≤ y + 1 / 250000) :
    (List.zipWith (· * ·) al m').sum ≤ (List.zipWith (· * ·) al m).sum + al.sum / 250000 := by
  induction al generalizing m m' with
  | nil => simp
  | cons a al ih =>
    match m, m', hl, hl' with
    | y :: m, x :: m', hl, hl' =>
      have h1 := ih (m := m) (m' := m') (fun b hb => hal b (by simp [hb])) (by simpa using hl) (by simpa using hl')
        (fun k x y hx hy => h (k + 1) x y (by simpa using hx) (by simpa using hy))
      have h2 := h 0 x y rfl rfl
      have h3 : 0 ≤ a := hal a (by simp)
      simp only [List.zipWith_cons_cons, List.sum_cons]
      nlinarith

theorem recordCost_near {pe pe' : ProtoEdge} (hal : ∀ a ∈ al, 0 ≤ a) (hl : pe.metrics.length = al.length)
    (hl' : pe'.metrics.length = al.length) (h : pe' = pe ∨ SameEdge pe' pe) :
    recordCost al pe' ≤ recordCost al pe + al.sum / 250000 := by
  have hs : 0 ≤ al.sum := List.sum_nonneg hal
  rcases h with rfl | h
  · have : 0 ≤ al.sum / 250000 := by positivity
    linarith
  · refine zip_near hal (by simpa using hl) (by simpa using hl') fun k x y hx hy => ?_
    rw [List.getElem?_map, Option.map_eq_some_iff] at hx hy
    obtain ⟨x', hx', rfl⟩ := hx
    obtain ⟨y', hy', rfl⟩ := hy
    exact lifted_near (h.2.2.2 k x' y' hx' hy')

theorem chainCost_near {ps rs : List ProtoEdge} (hal : ∀ a ∈ al, 0 ≤ a)
    (hdim : ∀ pe ∈ es, pe.metrics.length = al.length) (hrs : ∀ pe ∈ rs, pe ∈ es)
    (h : List.Forall₂ (fun pe' pe => pe' ∈ es ∧ (pe' = pe ∨ SameEdge pe' pe)) ps rs) :
    chainCost al ps ≤ chainCost al rs + rs.length * (al.sum / 250000) := by
  induction h with
  | nil => simp [chainCost]
  | cons h1 h2 ih =>
    have h3 := recordCost_near hal (hdim _ (hrs _ (by simp))) (hdim _ h1.1) h1.2
    have h4 := ih fun pe hpe => hrs pe (by simp [hpe])
    simp only [chainCost, List.map_cons, List.sum_cons, List.length_cons, Nat.cast_add, Nat.cast_one] at h4 ⊢
    linarith

theorem chainCost_same {ps rs : List ProtoEdge} (hnd : NoNearDuplicates es) (hrs : ∀ pe ∈ rs, pe ∈ es)
    (h : List.Forall₂ (fun pe' pe => pe' ∈ es ∧ (pe' = pe ∨ SameEdge pe' pe)) ps rs) :
    chainCost al ps = chainCost al rs := by
  induction h with
  | nil => rfl
  | @cons pe' pe ps rs h1 h2 ih =>
    have h3 : recordCost al pe' = recordCost al pe := by
      rcases h1.2 with h5 | h5
      · rw [h5]
      · unfold recordCost
        rw [hnd pe (hrs _ (by simp)) pe' h1.1 h5]
    have h4 := ih fun pe hpe => hrs pe (by simp [hpe])
    simp only [chainCost, List.map_cons, List.sum_cons] at h4 ⊢
    rw [h3, h4]

theorem nodeId_lt {u : Nat} {a : Int} (h : g.nodeId u = .ok a) : u < g.nodeCount := by
  rw [Graph.nodeId, Res.ofIdx_eq_ok] at h
  exact lt_length_of_getElem? h

theorem built_nonneg (h : build dim es ns = .ok g) : Dij.NonnegMetrics g := by
  intro m hm x hx
  obtain ⟨e, he⟩ := List.getElem?_of_mem hm
  have := C07_metrics_positive h (e := e) (m := m) (by rw [Graph.edgeMetrics, Res.ofIdx_eq_ok]; exact he) hx
  linarith

theorem built_weights (h : build dim es ns = .ok g) {m : List ℚ} (hm : m ∈ g.metrics) :
    ∃ pe ∈ es, (List.zipWith (· * ·) al m).sum = recordCost al pe := by
  obtain ⟨e, he⟩ := List.getElem?_of_mem hm
  have hlt := lt_length_of_getElem? he
  rw [(built_wellFormed h).metrics_len] at hlt
  obtain ⟨pe, hpe, hE⟩ := C05_no_edge_invented h hlt
  refine ⟨pe, hpe, ?_⟩
  rw [← edgeIs_cost hE, he]
  rfl

end Verif.Build
