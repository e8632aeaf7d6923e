import Verif.SessionLemmas
import Verif.ExploratingProps
import Verif.RecordProps
import Verif.NearProps
import Verif.FacetProps
import Verif.ToolProps
import Verif.YamlProps
import Verif.GeneratingProps

/-!
# Lemmas about the tool's routing on the lines of a map
-/

namespace Verif.Session

open Text Gen Cfg
open Dij (Heap St computeBestPath Used)
open Search (AddOk)
open Build (ProtoEdge ProtoNode build Chain chainCost lifted EdgeIs)
open Fmi (readEdge mapR)
open Yml (ParsingIn RoutingIn Writer Yaml)

/-! ## Records and lines -/

section
variable {c : Fmi.Codec} {cats : List EdgeCat} {lines : List Text} {es : List ProtoEdge}

/-- Every chain of records is one of lines. -/
theorem connects_of_chain (h : List.Forall₂ (fun line pe => readEdge c cats line = .ok pe) lines es) :
    ∀ {rs : List ProtoEdge} {a b : Int}, (∀ pe ∈ rs, pe ∈ es) → Chain a rs b →
      Connects c cats lines a (rs.map (·.metrics)) b
  | [], _, _, _, hc => hc
  | pe :: rs, a, b, hm, hc => by
    obtain ⟨h1, h2⟩ := hc
    obtain ⟨line, h3, h4⟩ := Exp.forall₂_mem_right h (hm pe (by simp))
    have := (readEdge_leads h4).1
    rw [h1] at this
    exact ⟨line, h3, pe.dstId, this, connects_of_chain h (fun x hx => hm x (by simp [hx])) h2⟩

/-- Every chain of lines is one of records. -/
theorem chain_of_connects (h : List.Forall₂ (fun line pe => readEdge c cats line = .ok pe) lines es) :
    ∀ {ms : List (List ℚ)} {a b : Int}, Connects c cats lines a ms b →
      ∃ rs : List ProtoEdge, (∀ pe ∈ rs, pe ∈ es) ∧ Chain a rs b ∧ rs.map (·.metrics) = ms
  | [], a, b, hc => ⟨[], by simp, hc, rfl⟩
  | m :: ms, a, b, ⟨line, h1, x, h2, h3⟩ => by
    obtain ⟨rs, h4, h5, h6⟩ := chain_of_connects h h3
    obtain ⟨j, hj⟩ := List.getElem?_of_mem h1
    obtain ⟨pe, h7, h8⟩ := (Build.forall₂_getElem? h).2.1 j line hj
    obtain ⟨h9, h10, h11⟩ := readEdge_unique h8 h2
    refine ⟨pe :: rs, ?_, ⟨h9, by rw [h10]; exact h5⟩, by rw [List.map_cons, h11, h6]⟩
    intro y hy
    rcases List.mem_cons.mp hy with rfl | hy
    · exact List.mem_of_getElem? h7
    · exact h4 y hy

theorem metrics_length (h : List.Forall₂ (fun line pe => readEdge c cats line = .ok pe) lines es) {pe : ProtoEdge}
    (hpe : pe ∈ es) : pe.metrics.length = (Fmi.metricIds cats).length := by
  obtain ⟨line, -, h4⟩ := Exp.forall₂_mem_right h hpe
  rw [← metricCols_length, (readEdge_leads h4).1.metrics.length_eq]

theorem chainCost_eq (al : List ℚ) (rs : List ProtoEdge) :
    chainCost al rs = ((rs.map (·.metrics)).map fun m => weighed al (m.map lifted)).sum := by
  rw [List.map_map]
  rfl

theorem noNearDuplicates_of (h : List.Forall₂ (fun line pe => readEdge c cats line = .ok pe) lines es)
    (hd : Distinct c cats lines) : Build.NoNearDuplicates es := by
  intro pe hpe pe' hpe' ⟨_, h2, h3, h4⟩
  obtain ⟨line, h5, h6⟩ := Exp.forall₂_mem_right h hpe
  obtain ⟨line', h7, h8⟩ := Exp.forall₂_mem_right h hpe'
  have h9 := (readEdge_leads h8).1
  rw [h2, h3] at h9
  rcases hd line h5 line' h7 _ _ _ _ (readEdge_leads h6).1 h9 with h10 | ⟨k, x, y, h10, h11, h12⟩
  · exact h10.symm
  · have := h4 k y x h11 h10
    rw [abs_sub_comm] at this
    linarith

end

section
variable {c : Fmi.Codec} {cats : List EdgeCat} {lines : List Text} {es : List ProtoEdge} {ns : List ProtoNode}
  {dim : Nat} {g : Graph}

theorem maxDegree_of (h : List.Forall₂ (fun line pe => readEdge c cats line = .ok pe) lines es)
    (hb : build dim es ns = .ok g) {deg : Nat} (hd : Degree c cats lines deg) : Dij.MaxDegree g deg := by
  have hwf := Build.built_wellFormed hb
  obtain ⟨rep, h1, -⟩ := Build.C09_representatives hb
  intro v l hl hv
  have hlt : ∀ e ∈ l, e < g.edgeCount := by
    intro e he
    rcases hv with hv | hv
    · obtain ⟨w, hw⟩ := hv e he; exact Dij.edge_lt hwf hw.1
    · obtain ⟨w, hw⟩ := hv e he; exact Dij.edge_lt hwf hw.1
  choose f hf using h1
  let js := l.attach.map fun e => f e.1 (hlt e.1 e.2)
  have hjs : js.Nodup := by
    refine List.Nodup.map_on ?_ hl.attach
    intro x _ y _ hxy
    obtain ⟨_, _, hx, _⟩ := hf x.1 (hlt x.1 x.2)
    obtain ⟨_, _, hy, _⟩ := hf y.1 (hlt y.1 y.2)
    apply Subtype.ext
    rw [← hx, ← hy, hxy]
  have hlen : js.length = l.length := by simp [js]
  rw [← hlen]
  obtain ⟨e0, he0⟩ | hnil : (∃ e, e ∈ l) ∨ l = [] := by
    cases l with
    | nil => exact .inr rfl
    | cons e l => exact .inl ⟨e, by simp⟩
  · have hid : ∃ a, g.nodeId v = .ok a := by
      rcases hv with hv | hv
      · obtain ⟨w, hw⟩ := hv e0 he0
        obtain ⟨i, hi⟩ := Build.C05_no_edge_invented hb (hlt e0 he0)
        obtain ⟨u, hu, hu'⟩ := hi.2.src
        have : u = v := Res.ok.inj (hu.symm.trans hw.2)
        exact ⟨_, this ▸ hu'⟩
      · obtain ⟨w, hw⟩ := hv e0 he0
        obtain ⟨i, hi⟩ := Build.C05_no_edge_invented hb (hlt e0 he0)
        obtain ⟨u, hu, hu'⟩ := hi.2.dst
        have : u = v := Res.ok.inj (hu.symm.trans hw.1)
        exact ⟨_, this ▸ hu'⟩
    obtain ⟨a, ha⟩ := hid
    refine hd a js hjs ?_
    rcases hv with hv | hv
    · left
      intro j hj
      obtain ⟨⟨e, he⟩, -, rfl⟩ := List.mem_map.mp hj
      obtain ⟨pe, h2, -, h3, -⟩ := hf e (hlt e he)
      obtain ⟨line, h4, h5⟩ := (Build.forall₂_getElem? h).2.2 _ pe h2
      obtain ⟨w, hw⟩ := hv e he
      obtain ⟨u, hu, hu'⟩ := h3.src
      have : u = v := Res.ok.inj (hu.symm.trans hw.2)
      rw [this, ha] at hu'
      have h6 := (readEdge_leads h5).1
      rw [← Res.ok.inj hu'] at h6
      exact ⟨line, _, _, h4, h6⟩
    · right
      intro j hj
      obtain ⟨⟨e, he⟩, -, rfl⟩ := List.mem_map.mp hj
      obtain ⟨pe, h2, -, h3, -⟩ := hf e (hlt e he)
      obtain ⟨line, h4, h5⟩ := (Build.forall₂_getElem? h).2.2 _ pe h2
      obtain ⟨w, hw⟩ := hv e he
      obtain ⟨u, hu, hu'⟩ := h3.dst
      have : u = v := Res.ok.inj (hu.symm.trans hw.1)
      rw [this, ha] at hu'
      have h6 := (readEdge_leads h5).1
      rw [← Res.ok.inj hu'] at h6
      exact ⟨line, _, _, h4, h6⟩
  · have : js = [] := by simp [js, hnil]
    rw [this]
    simp

theorem dimOk_of (h : List.Forall₂ (fun line pe => readEdge c cats line = .ok pe) lines es)
    (hb : build (Fmi.metricIds cats).length es ns = .ok g) : g.DimOk ∧ g.dim = (Fmi.metricIds cats).length := by
  have hdim : g.dim = (Fmi.metricIds cats).length := (Build.build_ok hb).2.2.1
  refine ⟨fun m hm => ?_, hdim⟩
  obtain ⟨e, he⟩ := List.getElem?_of_mem hm
  have hlt := Build.lt_length_of_getElem? he
  rw [(Build.built_wellFormed hb).metrics_len] at hlt
  obtain ⟨pe, hpe, hE⟩ := Build.C05_no_edge_invented hb hlt
  have := hE.metrics
  rw [Graph.edgeMetrics, Res.ofIdx_eq_ok, he, Option.some.injEq] at this
  rw [this, List.length_map, metrics_length h hpe, hdim]

/-- The costs of a route are sums of lines. -/
theorem sums_of (h : List.Forall₂ (fun line pe => readEdge c cats line = .ok pe) lines es)
    (hb : build (Fmi.metricIds cats).length es ns = .ok g) {l : List Nat} {rs : List ProtoEdge}
    (hl : List.Forall₂ (EdgeIs g) l rs) (hrs : ∀ pe ∈ rs, pe ∈ es) {cs : List ℚ} (hc : g.IsCost l cs) :
    Sums (Fmi.metricIds cats).length (rs.map (·.metrics)) cs := by
  obtain ⟨-, hdim⟩ := dimOk_of h hb
  refine ⟨by rw [hc.1, hdim], fun k hk => ?_⟩
  rw [hc.2 k (by rw [hdim]; exact hk)]
  congr 2
  clear hc
  induction hl with
  | nil => rfl
  | @cons e pe l rs h1 h2 ih =>
    rw [List.map_cons, List.map_cons, List.map_cons, ih fun x hx => hrs x (by simp [hx])]
    congr 1
    have := h1.metrics
    rw [Graph.edgeMetrics, Res.ofIdx_eq_ok] at this
    unfold Graph.metric
    rw [this, Option.getD_some]
    have hlt : k < pe.metrics.length := by rw [metrics_length h (hrs pe (by simp))]; exact hk
    rw [List.getElem?_map, List.getElem?_eq_getElem hlt]
    rfl

/-- Without shortcuts, flattening keeps the edges. -/
theorem flatten_plain (hsc : ∀ pe ∈ es, pe.sc = none) (hb : build dim es ns = .ok g) {fuel : Nat} {p q : Path}
    (hp : ∀ e ∈ p.edges, e < g.edgeCount) (hq : p.flatten g fuel = some (.ok q)) :
    q.edges = p.edges ∧ ∃ cs, q.costs = some cs ∧ g.IsCost p.edges cs := by
  have hq' : Path.tryFlatten g fuel p = some (.ok q) := by
    unfold Path.flatten at hq
    rw [Option.map_eq_some_iff] at hq
    obtain ⟨r, h1, h2⟩ := hq
    split at h2
    · cases h2
    · rw [h1, h2]
  obtain ⟨ls, h1, h2, -, -, -, -, cs, h3, h4⟩ := Path.C21_expansion hq'
  have h5 : ∀ {l : List Nat} {ls : List (List Nat)}, (∀ e ∈ l, e < g.edgeCount) →
      List.Forall₂ (Graph.Expands g) l ls → ls.flatten = l := by
    intro l ls hlt hx
    induction hx with
    | nil => rfl
    | @cons e l' es' ls h6 h7 ih =>
      rw [List.flatten_cons, ih fun x hx => hlt x (by simp [hx])]
      obtain ⟨pe, hpe, -, -, h8⟩ := Build.C10_flags hb (hlt e (by simp))
      have h9 := h8.mpr (hsc pe hpe)
      cases h6 with
      | plain => rfl
      | shortcut h10 => rw [h9] at h10; cases h10
  have h5 := h5 hp h1
  rw [h2, h5] at h4
  exact ⟨by rw [h2, h5], cs, h3, h4⟩

end


/-! ## From files to answers -/

theorem forall₂_append_right {α β : Type} {R : α → β → Prop} {l : List α} {l1 l2 : List β}
    (h : List.Forall₂ R l (l1 ++ l2)) : ∃ p1 p2, List.Forall₂ R p1 l1 ∧ List.Forall₂ R p2 l2 ∧ l = p1 ++ p2 := by
  induction l1 generalizing l with
  | nil => exact ⟨[], l, .nil, h, rfl⟩
  | cons x l1 ih =>
    cases h with
    | cons h1 h2 =>
      obtain ⟨p1, p2, h3, h4, rfl⟩ := ih h2
      exact ⟨_ :: p1, p2, .cons h1 h3, h4, rfl⟩

theorem forall₂_trans {α β γ : Type} {R : α → β → Prop} {S : β → γ → Prop} {T : α → γ → Prop} {l1 : List α}
    {l2 : List β} {l3 : List γ} (h1 : List.Forall₂ R l1 l2) (h2 : List.Forall₂ S l2 l3)
    (h : ∀ a b c, R a b → S b c → T a c) : List.Forall₂ T l1 l3 := by
  induction h1 generalizing l3 with
  | nil => cases h2; exact .nil
  | cons h3 _ ih =>
    cases h2 with
    | cons h4 h5 => exact .cons (h _ _ _ h3 h4) (ih h5)

section
variable {K : Type} [LinearOrder K] [Zero K] [Add K] {w : World K} {fuel : Nat} {wr : Writer} {doc : Yaml}
  {ip : ParsingIn} {ir : RoutingIn} {nodes edges pairs : List Text}

theorem edges_tryFrom (hu : UniqueIds ip.edges) (lines : Text → Option (List Text)) :
    Edges.tryFrom ip.edges (ip.normalized.getD false) = .ok (ip.cfg lines).edges := by
  unfold Edges.tryFrom
  rw [(hasDuplicate_iff _).mpr hu]
  rfl

theorem units_length (lines : Text → Option (List Text)) :
    (ip.cfg lines).edges.units.length = (Fmi.metricIds ip.edges).length := by
  unfold ParsingIn.cfg Fmi.metricIds
  dsimp only
  induction ip.edges with
  | nil => rfl
  | cons x xs ih => cases x <;> simp [ih]

/-- Either something fails before any query, or there are a graph, routes and queries. -/
theorem run_cases (hs : Setting w wr doc ip ir nodes edges pairs) :
    (∃ r : Res Err PUnit, (∀ fuel, run w fuel doc = ([], some r)) ∧ r ≠ .ok ⟨⟩) ∨
    ∃ es ns g rs rc, List.Forall₂ (fun line pe => readEdge w.codec ip.edges line = .ok pe) edges es ∧
      List.Forall₂ (fun line n => Fmi.readNode w.codec ip.nodes line = .ok n) nodes ns ∧
      build (Fmi.metricIds ip.edges).length es ns = .ok g ∧
      List.Forall₂ (fun line r => Routes.readRoute line = .ok r) pairs rs ∧
      rc.algo = ir.algo ∧ rc.routing.alphas = alphas ip ir ∧
      rc.routing.tolerances = tolerances ip ir ∧
      ∀ fuel, run w fuel doc = answers w fuel g rc rs := by
  obtain ⟨y, hy1, hy2⟩ := hs.parsing
  obtain ⟨file, hf1, hf2⟩ := hs.map
  obtain ⟨pf, pfile, hp1, hp2, hp3⟩ := hs.pairs
  unfold run
  rw [Yml.C85_parsing hs.writer w.text ip hs.unique doc y hy1 hy2]
  dsimp only
  have hx : Tool.fromPath Tool.parserExts (Tool.fileName ip.mapFile) = some .fmi :=
    (Tool.C74_parser _ .fmi).mpr hs.fmi
  unfold loadMap
  rw [hx]
  dsimp only
  cases hc : Cfg.check w.maxDim (ip.cfg w.text) with
  | error e => exact .inl ⟨_, fun _ => rfl, by simp⟩
  | ok u =>
    obtain ⟨⟩ := u
    rw [hf1]
    dsimp only
    unfold Fmi.load
    rw [read_map hf2 hc]
    cases h1 : mapR (readEdge w.codec (ip.cfg w.text).edges.cats) edges with
    | err e => exact .inl ⟨_, fun _ => rfl, by simp⟩
    | panic => exact .inl ⟨_, fun _ => rfl, by simp⟩
    | ok es =>
      cases h2 : mapR (Fmi.readNode w.codec (ip.cfg w.text).nodes) nodes with
      | err e => exact .inl ⟨_, fun _ => rfl, by simp⟩
      | panic => exact .inl ⟨_, fun _ => rfl, by simp⟩
      | ok ns =>
        simp only [Res.ok_bind, Res.pure_eq, Fmi.mapErr]
        cases h3 : build (ip.cfg w.text).edges.units.length es ns with
        | err e => exact .inl ⟨_, fun _ => rfl, by simp⟩
        | panic => exact .inl ⟨_, fun _ => rfl, by simp⟩
        | ok g =>
          have hg : (ip.cfg w.text).generating = none := by
            unfold ParsingIn.cfg
            dsimp only
            rw [hs.generating]
            rfl
          have hn : (ip.cfg w.text).edges.normalized = false := by
            unfold ParsingIn.cfg
            dsimp only
            cases hn : ip.normalized with
            | none => rfl
            | some b =>
              cases b with
              | false => rfl
              | true => exact absurd hn hs.normalized
          have hfin : Gen.finish w.env (ip.cfg w.text).generating
              { graph := g, nodes := (ip.cfg w.text).nodes, edges := (ip.cfg w.text).edges } =
              .ok { graph := g, nodes := (ip.cfg w.text).nodes, edges := (ip.cfg w.text).edges } := by
            rw [hg]
            simp only [Gen.finish, Gen.generate, Res.ok_bind]
            exact Gen.C27_off hn
          simp only [Res.ok_bind, hfin]
          unfold route
          rw [Yml.C85_routing hs.writer (edges_tryFrom hs.unique w.text) ir hs.known doc hs.routing]
          dsimp only
          rw [hp1]
          cases he : readPairs w (some pf) with
          | err e => exact .inl ⟨_, fun _ => rfl, by simp⟩
          | panic => exact .inl ⟨_, fun _ => rfl, by simp⟩
          | ok rs =>
            unfold readPairs at he
            dsimp only at he
            split at he
            · cases he
            · rw [hp2] at he
              dsimp only at he
              rw [read_pairs hp3] at he
              split at he
              · rename_i rs' hr
                cases he
                split at hr
                · cases hr
                · right
                  rw [units_length] at h3
                  exact ⟨es, ns, g, rs, _, Fmi.mapR_ok.mp h1, Fmi.mapR_ok.mp h2, h3, Fmi.mapR_ok.mp hr, rfl, rfl, rfl, fun _ => rfl⟩
              · cases he
              · cases he

/-- Claims about all queries are claims about the reports. -/
theorem reportsOn_of {P : Int → Int → Report → Prop} {g : Graph} {rs : List Routes.Route}
    {one : St K → Graph.Node → Graph.Node → Option (Res Err (Report × St K))} {n : Nat}
    (hr : List.Forall₂ (fun line r => Routes.readRoute line = .ok r) pairs rs)
    (hk : ∀ s a b rep s', Used w.heap w.dotp n s → one s a b = some (.ok (rep, s')) → Used w.heap w.dotp n s')
    (hP : ∀ s a b rep s' x y, Used w.heap w.dotp n s → intoNode g x = .ok a → intoNode g y = .ok b →
      one s a b = some (.ok (rep, s')) → P x y rep) : ReportsOn P pairs (queries g one St.new rs) := by
  obtain ⟨done, rest, h1, h2, h3⟩ := queries_all hk hP rs St.new .new
  subst h1
  obtain ⟨p1, p2, h4, h5, rfl⟩ := forall₂_append_right hr
  refine ⟨p1, p2, rfl, ?_, fun h => ?_⟩
  · exact forall₂_trans h4 h2 fun line r rep h6 h7 => ⟨r.src, r.dst, readRoute_asks h6, h7⟩
  · have := h3 h
    subst this
    exact List.forall₂_nil_right_iff.mp h5

end

end Verif.Session
