import Verif.ContractSpec
import Verif.RecordLemmas
import Verif.PathProps

/-!
# Graphs built of contracted records
-/

namespace Verif.Build

open Graph

variable {dim : Nat} {es : List ProtoEdge} {ns : List ProtoNode} {g : Graph} {al : List ℚ}

theorem level_of (h : build dim es ns = .ok g) {u l : Nat} {a : Int} (ha : g.nodeId u = .ok a)
    (hl : g.nodeLevel u = .ok l) : l = levelOf ns a := by
  have he : Endpoint es a := ((C01_node_ids h).2 a).mp ⟨u, ha⟩
  obtain ⟨i, n, -, hn⟩ := C02_node_data h he
  have hi := (C01_lookup h a u).mpr ha
  simp only [Graph.createNodeFrom, hi, Graph.createNode, Res.bind_eq_ok, Res.pure_eq, Res.ok.injEq, Option.some.injEq,
    hl] at hn
  obtain ⟨m, ⟨id, -, c, -, l', rfl, rfl⟩, h2⟩ := hn
  exact congrArg Graph.Node.level h2

/-- Ends of the edge of a record. -/
theorem edgeIs_isEdge (h : build dim es ns = .ok g) {e u v : Nat} {pe : ProtoEdge} (hE : EdgeIs g e pe)
    (hu : g.nodeId u = .ok pe.srcId) (hv : g.nodeId v = .ok pe.dstId) : g.IsEdge e u v := by
  have hwf := built_wellFormed h
  obtain ⟨u', h1, h2⟩ := hE.src
  obtain ⟨v', h3, h4⟩ := hE.dst
  obtain rfl := nodeId_inj hwf h2 hu
  obtain rfl := nodeId_inj hwf h4 hv
  exact ⟨h3, h1⟩

/-- The record of an edge. -/
theorem isEdge_record (h : build dim es ns = .ok g) {e u v : Nat} (he : g.IsEdge e u v) :
    ∃ pe ∈ es, EdgeIs g e pe ∧ g.nodeId u = .ok pe.srcId ∧ g.nodeId v = .ok pe.dstId ∧
      ∃ rep : Nat → Nat, g.scEdgesOf e = .ok (pe.sc.map fun p => (rep p.1, rep p.2)) ∧
        ∀ (i : Nat) (p : ProtoEdge), es[i]? = some p → ∃ p' ∈ es, EdgeIs g (rep i) p' ∧ (p' = p ∨ SameEdge p' p) := by
  obtain ⟨rep, h1, h2⟩ := C09_representatives h
  obtain ⟨i, pe, h3, -, hE, h4⟩ := h1 e (Dij.edge_lt (built_wellFormed h) he.1)
  obtain ⟨u', hu1, hu2⟩ := hE.src
  obtain ⟨v', hv1, hv2⟩ := hE.dst
  obtain rfl : u' = u := Res.ok.inj (hu1.symm.trans he.2)
  obtain rfl : v' = v := Res.ok.inj (hv1.symm.trans he.1)
  refine ⟨pe, List.mem_of_getElem? h3, hE, hu2, hv2, rep, h4, fun i p hi => ?_⟩
  obtain ⟨-, i', p', h5, -, h6, h7⟩ := h2 i p hi
  refine ⟨p', List.mem_of_getElem? h5, h6, ?_⟩
  rcases h7 with rfl | h7
  · left
    rw [hi] at h5
    exact (Option.some.inj h5).symm
  · exact .inr h7

theorem same_ends {p' p : ProtoEdge} (h : p' = p ∨ SameEdge p' p) : p'.srcId = p.srcId ∧ p'.dstId = p.dstId := by
  rcases h with rfl | h
  · exact ⟨rfl, rfl⟩
  · exact ⟨h.2.1, h.2.2.1⟩

theorem shortcutsConnect_of (h : build dim es ns = .ok g) (hl : ShortcutsLead es) : ShortcutsConnect g := by
  intro e a b u v hsc he
  obtain ⟨pe, h1, -, h2, h3, rep, h4, h5⟩ := isEdge_record h he
  rw [hsc] at h4
  cases hp : pe.sc with
  | none => rw [hp] at h4; simp at h4
  | some ij =>
    obtain ⟨i, j⟩ := ij
    rw [hp] at h4
    simp only [Option.map_some, Res.ok.injEq, Option.some.injEq, Prod.mk.injEq] at h4
    obtain ⟨rfl, rfl⟩ := h4
    obtain ⟨p, q, h6, h7, h8, h9, h10⟩ := hl pe h1 i j hp
    obtain ⟨p', hp', hE, hs⟩ := h5 i p h6
    obtain ⟨q', hq', hE', hs'⟩ := h5 j q h7
    obtain ⟨w, hw1, hw2⟩ := hE.dst
    have e1 := same_ends hs
    have e2 := same_ends hs'
    refine ⟨w, edgeIs_isEdge h hE ?_ hw2, edgeIs_isEdge h hE' ?_ ?_⟩
    · rw [e1.1, h8]; exact h2
    · rw [e2.1, h9, ← e1.2]; exact hw2
    · rw [e2.2, h10]; exact h3

/-- Every route without shortcuts is a chain of records without shortcuts. -/
theorem chain_of_plain (h : build dim es ns = .ok g) {l : List Nat} {u v : Nat} {a b : Int}
    (hr : g.IsRoute u l v) (hp : ∀ e ∈ l, g.scEdgesOf e = .ok none) (ha : g.nodeId u = .ok a)
    (hb : g.nodeId v = .ok b) :
    ∃ rs : List ProtoEdge, (∀ pe ∈ rs, pe ∈ es ∧ pe.sc = none) ∧ Chain a rs b ∧
      chainCost al rs = Dij.routeCost g al l ∧ List.Forall₂ (EdgeIs g) l rs := by
  induction l generalizing u a with
  | nil =>
    obtain rfl : u = v := hr
    rw [ha] at hb
    exact ⟨[], by simp, Res.ok.inj hb, rfl, .nil⟩
  | cons e l ih =>
    obtain ⟨w, he, hr⟩ := hr
    obtain ⟨pe, h1, hE, h2, h3, rep, h4, -⟩ := isEdge_record h he
    rw [hp e (by simp)] at h4
    have hsc : pe.sc = none := by
      cases hx : pe.sc with
      | none => rfl
      | some ij => rw [hx] at h4; simp at h4
    obtain ⟨rs, h5, h6, h7, h8⟩ := ih hr (fun x hx => hp x (by simp [hx])) h3
    refine ⟨pe :: rs, ?_, ⟨Res.ok.inj (h2.symm.trans ha), h6⟩, ?_, .cons hE h8⟩
    · intro x hx
      rcases List.mem_cons.mp hx with rfl | hx
      · exact ⟨h1, hsc⟩
      · exact h5 x hx
    · simp only [chainCost, Dij.routeCost, List.map_cons, List.sum_cons, edgeIs_cost hE] at h7 ⊢
      rw [h7]

/-- Chains over high nodes are routes over high nodes. -/
theorem routeAbove_of {k : Nat} (h : build dim es ns = .ok g) {rs : List ProtoEdge} {u v : Nat} {a b : Int}
    (hrs : ∀ pe ∈ rs, pe ∈ es) (hc : Chain a rs b) (hk : ∀ r ∈ rs.dropLast, k < levelOf ns r.dstId)
    (ha : g.nodeId u = .ok a) (hb : g.nodeId v = .ok b) :
    ∃ l ps, Dij.RouteAbove g k u l v ∧ l.length = rs.length ∧ Dij.routeCost g al l = chainCost al ps ∧
      List.Forall₂ (fun pe' pe => pe' ∈ es ∧ (pe' = pe ∨ SameEdge pe' pe)) ps rs := by
  have hwf := built_wellFormed h
  induction rs generalizing u a with
  | nil =>
    obtain rfl : a = b := hc
    exact ⟨[], [], nodeId_inj hwf ha hb, rfl, rfl, .nil⟩
  | cons pe rs ih =>
    obtain ⟨h1, h2⟩ := hc
    obtain ⟨e, -, pe', hpe', hE, hor⟩ := C05_no_edge_lost h (hrs pe (by simp))
    obtain ⟨w, hw, hws⟩ := hE.dst
    have hsame := same_ends hor
    rw [hsame.2] at hws
    have hu : g.nodeId u = .ok pe'.srcId := by rw [hsame.1, h1]; exact ha
    have hedge := edgeIs_isEdge h hE hu (by rw [hsame.2]; exact hws)
    obtain ⟨l, ps, h3, h4, h5, h6⟩ := ih (fun x hx => hrs x (by simp [hx])) h2
      (fun r hr => hk r (by
        cases rs with
        | nil => cases hr
        | cons r' rs => simp only [List.dropLast_cons_cons, List.mem_cons]; exact .inr hr)) hws
    have hcost : Dij.routeCost g al (e :: l) = chainCost al (pe' :: ps) := by
      simp only [chainCost, Dij.routeCost, List.map_cons, List.sum_cons, edgeIs_cost hE] at h5 ⊢
      rw [h5]
    refine ⟨e :: l, pe' :: ps, ?_, by simp [h4], hcost, .cons ⟨hpe', hor⟩ h6⟩
    cases l with
    | nil =>
      obtain rfl : w = v := h3
      exact hedge
    | cons e' l =>
      refine ⟨w, hedge, fun x hx => ?_, h3⟩
      rw [level_of h hws hx]
      refine hk pe ?_
      cases rs with
      | nil => simp at h4
      | cons r' rs => simp

theorem contracted_of_records (h : build dim es ns = .ok g) (hc : ContractedRecords al (levelOf ns) es)
    (hs : ∀ rs ps : List ProtoEdge, (∀ pe ∈ rs, pe ∈ es) →
      List.Forall₂ (fun pe' pe => pe' ∈ es ∧ (pe' = pe ∨ SameEdge pe' pe)) ps rs → chainCost al ps ≤ chainCost al rs) :
    Dij.Contracted g al := by
  have hwf := built_wellFormed h
  constructor
  · intro e u v a b he hne ha hb
    obtain ⟨pe, h1, -, h2, h3, -⟩ := isEdge_record h he
    rw [level_of h h2 ha, level_of h h3 hb]
    refine hc.differ pe h1 fun heq => hne ?_
    rw [← heq] at h3
    exact nodeId_inj hwf h2 h3
  · intro e₁ e₂ u v w a b c he₁ he₂ ha hb hcl hab hcb
    obtain ⟨pe, h1, hE, h2, h3, -⟩ := isEdge_record h he₁
    obtain ⟨pe', h4, hE', h5, h6, -⟩ := isEdge_record h he₂
    rw [level_of h h3 hb, level_of h h2 ha] at hab
    rw [level_of h h3 hb, level_of h h6 hcl] at hcb
    obtain ⟨rs, h7, h8, h9, h10⟩ := hc.bypass pe h1 pe' h4 (Res.ok.inj (h5.symm.trans h3)) hab hcb
    obtain ⟨l, ps, h11, -, h12, h13⟩ := routeAbove_of (al := al) h h7 h8 h9 h2 h6
    rw [← level_of h h3 hb] at h11
    refine ⟨l, h11, ?_⟩
    rw [h12]
    refine (hs rs ps h7 h13).trans (h10.trans_eq ?_)
    simp [Dij.routeCost, edgeIs_cost hE, edgeIs_cost hE']

theorem chainCost_nil (rs : List ProtoEdge) : chainCost [] rs = 0 := by
  induction rs with
  | nil => rfl
  | cons r rs ih =>
    simp only [chainCost, List.map_cons, List.sum_cons] at ih ⊢
    rw [ih]
    simp [recordCost]

theorem contracted_forget {lv : Int → Nat} (hc : ContractedRecords al lv es) : ContractedRecords [] lv es := by
  refine ⟨hc.differ, fun pe hpe pe' hpe' h1 h2 h3 => ?_⟩
  obtain ⟨rs, h4, h5, h6, -⟩ := hc.bypass pe hpe pe' hpe' h1 h2 h3
  exact ⟨rs, h4, h5, h6, by simp [chainCost_nil, recordCost]⟩

theorem hierarchy_forget (h : build dim es ns = .ok g) (hc : ContractedRecords al (levelOf ns) es) :
    Dij.Hierarchy g [] :=
  Dij.C20_contracted (built_wellFormed h) (built_nonneg h) (by simp)
    (contracted_of_records h (contracted_forget hc) fun rs ps _ _ => by simp [chainCost_nil])

/-- The edges of a shortcut cost not more than it. -/
theorem shortcut_cost (h : build dim es ns = .ok g) (hnd : NoNearDuplicates es) (hc : ShortcutsCost al es) {e a b : Nat}
    (hsc : g.scEdgesOf e = .ok (some (a, b))) :
    a < g.edgeCount ∧ b < g.edgeCount ∧
      Dij.routeCost g al [a] + Dij.routeCost g al [b] ≤ Dij.routeCost g al [e] := by
  obtain ⟨rep, h1, h2⟩ := C09_representatives h
  obtain ⟨i, pe, h3, -, hE, h4⟩ := h1 e ((built_wellFormed h).sc_len _ _ hsc)
  rw [hsc] at h4
  cases hp : pe.sc with
  | none => rw [hp] at h4; simp at h4
  | some ij =>
    obtain ⟨i, j⟩ := ij
    rw [hp] at h4
    simp only [Option.map_some, Res.ok.injEq, Option.some.injEq, Prod.mk.injEq] at h4
    obtain ⟨rfl, rfl⟩ := h4
    have hpe := List.mem_of_getElem? h3
    obtain ⟨hi, hj⟩ := (build_ok h).2.1 pe hpe (i, j) hp
    obtain ⟨p, h6⟩ : ∃ p, es[i]? = some p := ⟨_, List.getElem?_eq_getElem hi⟩
    obtain ⟨q, h7⟩ : ∃ q, es[j]? = some q := ⟨_, List.getElem?_eq_getElem hj⟩
    have h8 := hc pe hpe i j p q hp h6 h7
    have cost : ∀ (i : Nat) (p : ProtoEdge), es[i]? = some p →
        rep i < g.edgeCount ∧ Dij.routeCost g al [rep i] = recordCost al p := by
      intro i p hi
      obtain ⟨h9, i', p', h10, -, h11, h12⟩ := h2 i p hi
      refine ⟨h9, ?_⟩
      simp only [Dij.routeCost, List.map_cons, List.map_nil, List.sum_cons, List.sum_nil, add_zero, edgeIs_cost h11]
      rcases h12 with rfl | h12
      · rw [hi] at h10
        rw [Option.some.inj h10]
      · unfold recordCost
        rw [hnd p (List.mem_of_getElem? hi) p' (List.mem_of_getElem? h10) h12]
    obtain ⟨ha1, ha2⟩ := cost i p h6
    obtain ⟨hb1, hb2⟩ := cost j q h7
    have h15 : Dij.routeCost g al [e] = recordCost al pe := by
      simp [Dij.routeCost, edgeIs_cost hE]
    rw [h15, ha2, hb2]
    exact ⟨ha1, hb1, h8⟩

/-- What an edge stands for costs not more than the edge. -/
theorem expands_cost (h : build dim es ns = .ok g) (hnd : NoNearDuplicates es)
    (hc : ShortcutsCost al es) {e : Nat} {l : List Nat} (hx : Graph.Expands g e l) :
    Dij.routeCost g al l ≤ Dij.routeCost g al [e] := by
  induction hx with
  | plain => exact le_rfl
  | @shortcut e a b la lb hsc ha hb iha ihb =>
    obtain ⟨-, -, h1⟩ := shortcut_cost h hnd hc hsc
    rw [Dij.routeCost_append]
    linarith

/-- Edges of the graph are records. -/
theorem edge_cost (h : build dim es ns = .ok g) {e : Nat} (he : e < g.edgeCount) :
    ∃ pe ∈ es, Dij.routeCost g al [e] = recordCost al pe := by
  obtain ⟨pe, hpe, hE⟩ := C05_no_edge_invented h he
  exact ⟨pe, hpe, by simp [Dij.routeCost, edgeIs_cost hE]⟩

/-- If edges cost something, then every edge stands for plain ones. -/
theorem expands_all (h : build dim es ns = .ok g) (hnd : NoNearDuplicates es) (hc : ShortcutsCost al es)
    (hpos : ∀ pe ∈ es, 0 < recordCost al pe) {e : Nat} (he : e < g.edgeCount) : ∃ l, Graph.Expands g e l := by
  let below (x : Nat) := (Finset.range g.edgeCount).filter fun y => Dij.routeCost g al [y] < Dij.routeCost g al [x]
  have hlt : ∀ x y, y < g.edgeCount → Dij.routeCost g al [y] < Dij.routeCost g al [x] → (below y).card < (below x).card := by
    intro x y hy hxy
    refine Finset.card_lt_card ⟨fun z hz => ?_, fun hs => ?_⟩
    · simp only [below, Finset.mem_filter] at hz ⊢
      exact ⟨hz.1, hz.2.trans hxy⟩
    · have := hs (show y ∈ below x by simp [below, hy, hxy])
      simp [below] at this
  induction hn : (below e).card using Nat.strong_induction_on generalizing e with
  | _ n ih =>
    subst hn
    cases hsc : g.scEdgesOf e with
    | err x =>
      obtain ⟨rep, h1, -⟩ := C09_representatives h
      obtain ⟨_, _, _, _, _, h2⟩ := h1 e he
      rw [hsc] at h2
      cases h2
    | panic =>
      obtain ⟨rep, h1, -⟩ := C09_representatives h
      obtain ⟨_, _, _, _, _, h2⟩ := h1 e he
      rw [hsc] at h2
      cases h2
    | ok o =>
      cases o with
      | none => exact ⟨_, .plain hsc⟩
      | some ab =>
        obtain ⟨a, b⟩ := ab
        obtain ⟨ha, hb, h1⟩ := shortcut_cost h hnd hc hsc
        obtain ⟨pa, hpa, ca⟩ := edge_cost (al := al) h ha
        obtain ⟨pb, hpb, cb⟩ := edge_cost (al := al) h hb
        have h2 := hpos pa hpa
        have h3 := hpos pb hpb
        rw [← ca] at h2
        rw [← cb] at h3
        obtain ⟨la, hla⟩ := ih _ (hlt e a ha (by linarith)) ha rfl
        obtain ⟨lb, hlb⟩ := ih _ (hlt e b hb (by linarith)) hb rfl
        exact ⟨_, .shortcut hsc hla hlb⟩

theorem flatten_cost (h : build dim es ns = .ok g) (hnd : NoNearDuplicates es)
    (hc : ShortcutsCost al es) {es' : List Nat} {ls : List (List Nat)} (hx : List.Forall₂ (Graph.Expands g) es' ls) :
    Dij.routeCost g al ls.flatten ≤ Dij.routeCost g al es' := by
  induction hx with
  | nil => exact le_rfl
  | @cons e l es' ls h1 h2 ih =>
    rw [List.flatten_cons, Dij.routeCost_append, show e :: es' = [e] ++ es' from rfl, Dij.routeCost_append]
    exact add_le_add (expands_cost h hnd hc h1) ih

theorem chain_append {a b c : Int} {rs rs' : List ProtoEdge} (h1 : Chain a rs b) (h2 : Chain b rs' c) :
    Chain a (rs ++ rs') c := by
  induction rs generalizing a with
  | nil =>
    obtain rfl : a = b := h1
    exact h2
  | cons r rs ih => exact ⟨h1.1, ih h1.2⟩

/-- What a record stands for. -/
theorem record_plain (hl : ShortcutsLead es) (he : ShortcutsEnd es) {k : Nat} {pe : ProtoEdge} (hk : es[k]? = some pe) :
    ∃ rs : List ProtoEdge, (∀ r ∈ rs, r ∈ es ∧ r.sc = none) ∧ Chain pe.srcId rs pe.dstId := by
  obtain ⟨rank, hr⟩ := he
  induction hn : rank k using Nat.strong_induction_on generalizing k pe with
  | _ n ih =>
    subst hn
    cases hp : pe.sc with
    | none => exact ⟨[pe], by simpa [hp] using List.mem_of_getElem? hk, rfl, rfl⟩
    | some ij =>
      obtain ⟨i, j⟩ := ij
      obtain ⟨p, q, h1, h2, h3, h4, h5⟩ := hl pe (List.mem_of_getElem? hk) i j hp
      obtain ⟨h6, h7⟩ := hr k pe i j hk hp
      obtain ⟨rs, h8, h9⟩ := ih _ h6 h1 rfl
      obtain ⟨rs', h10, h11⟩ := ih _ h7 h2 rfl
      refine ⟨rs ++ rs', fun r hr => ?_, ?_⟩
      · rcases List.mem_append.mp hr with hr | hr
        · exact h8 r hr
        · exact h10 r hr
      · rw [h3] at h9
        rw [h4, h5] at h11
        exact chain_append h9 h11

theorem chain_plain (hl : ShortcutsLead es) (he : ShortcutsEnd es) {rs : List ProtoEdge} {a b : Int}
    (hrs : ∀ r ∈ rs, r ∈ es) (hc : Chain a rs b) :
    ∃ rs' : List ProtoEdge, (∀ r ∈ rs', r ∈ es ∧ r.sc = none) ∧ Chain a rs' b := by
  induction rs generalizing a with
  | nil => exact ⟨[], by simp, hc⟩
  | cons r rs ih =>
    obtain ⟨h1, h2⟩ := hc
    obtain ⟨k, hk⟩ := List.getElem?_of_mem (hrs r (by simp))
    obtain ⟨l, h3, h4⟩ := record_plain hl he hk
    obtain ⟨l', h5, h6⟩ := ih (fun x hx => hrs x (by simp [hx])) h2
    refine ⟨l ++ l', fun r hr => ?_, ?_⟩
    · rcases List.mem_append.mp hr with hr | hr
      · exact h3 r hr
      · exact h5 r hr
    · rw [h1] at h4
      exact chain_append h4 h6

end Verif.Build
