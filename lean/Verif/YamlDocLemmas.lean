import Verif.YamlDocSpec
import Verif.YamlLemmas
import Verif.ConfigProps

/-!
# Reading what a user writes
-/

namespace Verif.Yml

open Cfg

/-- The given entries of a section. -/
def given (fs : List (String × Option Yaml)) : Entries := fs.filterMap fun f => f.2.map fun v => (f.1.toList, v)

theorem sectionOf_eq (fs : List (String × Option Yaml)) : sectionOf fs = .map (given fs) := rfl

theorem values_given (k : String) (fs : List (String × Option Yaml)) :
    values k (given fs) = (fs.filter fun f => decide (f.1 = k)).filterMap Prod.snd := by
  induction fs with
  | nil => rfl
  | cons f fs ih =>
    obtain ⟨l, o⟩ := f
    unfold given values at ih ⊢
    cases o with
    | none =>
      simp only [List.filterMap_cons, Option.map_none]
      rw [ih]
      by_cases h : l = k <;> simp [h]
    | some v =>
      simp only [List.filterMap_cons, Option.map_some]
      by_cases h : l = k
      · simp [h] at ih ⊢
        exact ih
      · have h' : l.toList ≠ k.toList := fun hc => h (String.toList_inj.mp hc)
        simp [h, String.toList_inj] at ih ⊢
        exact ih

theorem req_given {α : Type} {k : String} {d : Dec α} {fs : List (String × Option Yaml)} {v : Yaml} {a : α}
    (h : fs.filter (fun f => decide (f.1 = k)) = [(k, some v)]) (hv : d v = some a) : req k d (given fs) = some a := by
  unfold req
  rw [values_given, h]
  exact hv

theorem opt_given {α β : Type} {k : String} {d : Dec α} {fs : List (String × Option Yaml)} {o : Option β} {f : β → Yaml}
    {g : β → α} (h : fs.filter (fun f => decide (f.1 = k)) = [(k, o.map f)])
    (hv : ∀ x, o = some x → orNull d (f x) = some (some (g x))) : opt k d (given fs) = some (o.map g) := by
  unfold opt
  rw [values_given, h]
  cases o with
  | none => rfl
  | some x => exact hv x rfl

theorem closed_given {α : Type} {known : List String} {f : Entries → Option α} {fs : List (String × Option Yaml)}
    (h : ∀ k ∈ fs.map Prod.fst, k ∈ known) : closed known f (sectionOf fs) = f (given fs) := by
  rw [sectionOf_eq]
  show (if _ then _ else _) = _
  rw [if_pos]
  rw [List.all_eq_true]
  intro e he
  obtain ⟨x, hx, hxe⟩ := List.mem_filterMap.mp he
  obtain ⟨v, -, rfl⟩ := Option.map_eq_some_iff.mp hxe
  rw [List.any_eq_true]
  exact ⟨x.1, h _ (List.mem_map_of_mem hx), by simp⟩

theorem open_given {α : Type} (f : Entries → Option α) (fs : List (String × Option Yaml)) :
    open_ f (sectionOf fs) = f (given fs) := rfl

section
variable {N : Numbers} {w : Writer}

theorem special_null {t : Text} (h : t ∉ special) : isNull t = false := by
  simp only [special, List.mem_cons, List.not_mem_nil, or_false, not_or] at h
  simp only [isNull, h.1, h.2.1, decide_false, Bool.or_self]

theorem kind_plain {t : Text} (h : t ∉ special) :
    kind N false t = match N.nat t with
      | some n => .nat n
      | none => match N.float t with
        | some x => .num x
        | none => .str := by
  have h0 := special_null h
  simp only [special, List.mem_cons, List.not_mem_nil, or_false, not_or] at h
  simp only [kind, h0, h.2.2.1, h.2.2.2, if_false, Bool.false_eq_true]
  rfl

theorem text_str (buf : Bool) (t : Text) : text N buf (str t) = some t := by cases buf <;> rfl

theorem orNull_str (buf : Bool) (t : Text) : orNull (text N buf) (str t) = some (some t) := by
  show (text N buf (str t)).map some = _
  rw [text_str]; rfl

theorem nat_count (hw : w.Fits N) {n : Nat} (h : n < 2 ^ 64) : nat N (count w n) = some n := by
  simp only [nat, count, kind_plain (hw.nat_plain n h), hw.nat_read n h]

theorem orNull_plain {α : Type} (d : Dec α) {t : Text} (h : t ∉ special) :
    orNull d (.scalar false t) = (d (.scalar false t)).map some := by
  simp [orNull, special_null h]

theorem orNull_count (hw : w.Fits N) {n : Nat} (h : n < 2 ^ 64) : orNull (nat N) (count w n) = some (some n) := by
  have := nat_count hw h
  unfold count at this ⊢
  rw [orNull_plain _ (hw.nat_plain n h), this]; rfl

theorem num_number (hw : w.Fits N) (x : ℚ) : num N (number w x) = some x := by
  simp only [num, number, kind_plain (hw.num_plain x), hw.num_not_nat x, hw.num_read x]

theorem orNull_number (hw : w.Fits N) (x : ℚ) : orNull (num N) (number w x) = some (some x) := by
  have := num_number hw x
  unfold number at this ⊢
  rw [orNull_plain _ (hw.num_plain x), this]; rfl

theorem bool_flag (b : Bool) : bool N (flag b) = some b := by cases b <;> rfl

theorem orNull_flag (b : Bool) : orNull (bool N) (flag b) = some (some b) := by cases b <;> rfl

theorem orNull_map {α : Type} (d : Dec α) (es : Entries) : orNull d (.map es) = (d (.map es)).map some := rfl

theorem vec_map {α β : Type} {d : Dec α} {f : β → Yaml} {g : β → α} {l : List β} (h : ∀ x ∈ l, d (f x) = some (g x)) :
    vec d (.seq (l.map f)) = some (l.map g) := by
  show (l.map f).mapM d = _
  induction l with
  | nil => rfl
  | cons x l ih =>
    rw [List.map_cons, List.mapM_cons, h x (by simp), ih fun y hy => h y (by simp [hy])]
    rfl

theorem column_doc (hw : w.Fits N) (buf : Bool) (c : Option Text) : column N buf (columnDoc c) = some c := by
  cases c with
  | some id =>
    simp [column, firstOf, columnDoc, tagged, variant, text_str]
  | none =>
    have hk : kind N false "ignored".toList = .str := by
      rw [kind_plain (by decide), hw.ignored.1, hw.ignored.2]
    simp only [column, firstOf, columnDoc, List.findSome?, variant, names, List.find?, unitVariant, hk]
    cases buf <;> rfl

theorem columns_doc (hw : w.Fits N) (buf : Bool) (cs : List (Option Text)) :
    vec (column N buf) (.seq (cs.map columnDoc)) = some cs := by
  have := vec_map (d := column N buf) (f := columnDoc) (g := id) (l := cs) fun c _ => column_doc hw buf c
  rwa [List.map_id] at this

theorem map_id_opt {α : Type} (o : Option α) : o.map (fun x => x) = o := by cases o <;> rfl

/-! ## The sections -/

/-- Find the field of a section. -/
local macro "fd" : term => `(by simp <;> rfl)

theorem multiCh_doc (hw : w.Fits N) (buf : Bool) (i : MultiChIn) (hi : i.Small) :
    multiChContent N buf (i.doc w) = some i.cfg := by
  unfold multiChContent MultiChIn.doc
  rw [closed_given (by simp)]
  rw [req_given fd (text_str buf i.fmiGraph), req_given fd (text_str buf i.chGraph),
    req_given fd (nat_count hw hi.dim),
    opt_given (g := fun x => x) fd (fun x _ => orNull_number hw x),
    opt_given (g := fun x => x) fd (fun x _ => orNull_number hw x),
    opt_given (g := fun x => x) fd (fun x _ => orNull_str buf x),
    opt_given (g := fun x => x) fd (fun x hx => orNull_count hw (hi.threads x hx)),
    req_given fd (bool_flag i.osmIds), req_given fd (bool_flag i.externalIds)]
  simp only [map_id_opt]
  rfl

theorem edgesInfo_doc (hw : w.Fits N) (buf : Bool) (i : EdgesInfoIn) :
    edgesInfoContent N buf i.doc = some i.cfg := by
  unfold edgesInfoContent EdgesInfoIn.doc
  rw [closed_given (by simp)]
  rw [req_given fd (text_str buf i.file),
    opt_given (g := fun x => x) fd (fun x _ => orNull_flag x),
    opt_given (g := fun x => x) fd (fun x _ => orNull_flag x),
    req_given fd (columns_doc hw buf i.ids)]
  simp only [map_id_opt]
  rfl

theorem graph_doc (hw : w.Fits N) (i : GraphIn) : graphContent N i.doc = some i.cfg := by
  have he : graphEdges N i.mapFile (sectionOf
      [("with_shortcuts", i.shortcuts.map flag), ("will_denormalize_metrics_by_mean", i.denormalize.map flag),
        ("ids", some (.seq (i.edges.map columnDoc)))]) = some i.cfg.edges := by
    unfold graphEdges
    rw [closed_given (by simp)]
    rw [opt_given (g := fun x => x) fd (fun x _ => orNull_flag x),
      opt_given (g := fun x => x) fd (fun x _ => orNull_flag x),
      req_given fd (columns_doc hw false i.edges)]
    simp only [map_id_opt]
    rfl
  unfold graphContent GraphIn.doc
  rw [closed_given (by simp)]
  rw [req_given fd (text_str false i.mapFile), req_given fd (columns_doc hw false i.nodes)]
  simp only [Option.bind_eq_bind, Option.bind_some]
  rw [req_given fd he]
  rfl

theorem routePairs_doc (hw : w.Fits N) (i : RoutePairsIn) (hi : i.Small) :
    routePairsContent N (i.doc w) = some i.cfg := by
  have hr : randomOrAll N (sectionOf [("seed", i.seed.map (count w)), ("max_count", some (count w i.maxCount))]) =
      some (i.seed.getD 42, i.maxCount) := by
    unfold randomOrAll
    rw [open_given]
    rw [opt_given (g := fun x => x) fd (fun x hx => orNull_count hw (hi.seed x hx)),
      req_given fd (nat_count hw hi.maxCount)]
    simp only [map_id_opt]
    rfl
  unfold routePairsContent RoutePairsIn.doc
  rw [closed_given (by simp)]
  rw [req_given fd (text_str false i.file), req_given fd hr]
  rfl

theorem monitoring_doc (hw : w.Fits N) (i : MonitoringIn) : monitoring N i.doc = some i.cfg := by
  unfold monitoring MonitoringIn.doc
  rw [closed_given (by simp)]
  rw [req_given fd (edgesInfo_doc hw true i.edgesInfo),
    opt_given (g := fun x => x) fd (fun x _ => orNull_flag x)]
  simp only [map_id_opt]
  rfl

theorem method_doc (hw : w.Fits N) (m : Bal.Method) : method N (methodDoc w m) = some m := by
  cases m with
  | explicitEuler c =>
    have h : (closed ["correction"] fun es => (req "correction" (num N) es).map Bal.Method.explicitEuler)
        (sectionOf [("correction", some (number w c))]) = some (.explicitEuler c) := by
      rw [closed_given (by simp), req_given fd (num_number hw c)]
      rfl
    simp only [method, firstOf, methodDoc, tagged, variant, List.findSome?, h, if_pos]
  | averaging => rfl

theorem optimization_doc (hw : w.Fits N) (id : Text) (m : Bal.Method) :
    optimization N (sectionOf [("metric-id", some (str id)), ("method", some (methodDoc w m))]) = some (id, m) := by
  unfold optimization
  rw [closed_given (by simp)]
  rw [req_given fd (text_str false id), req_given fd (method_doc hw m)]
  rfl

theorem balancing_doc (hw : w.Fits N) (i : BalancingIn) (hi : i.Small) :
    balancingContent N (i.doc w) = some { i.cfg with numIter := i.updates } := by
  have hu : i.updates < 2 ^ 64 := by have := hi.updates; omega
  unfold balancingContent BalancingIn.doc
  rw [closed_given (by simp)]
  rw [opt_given (g := fun x => x) fd (fun x hx => orNull_count hw (hi.seed x hx)),
    req_given fd (text_str false i.resultsDir), req_given fd (text_str false i.iter0),
    req_given fd (text_str false i.iterI), req_given fd (multiCh_doc hw true i.multiCh hi.multiCh),
    req_given fd (nat_count hw hu), req_given fd (monitoring_doc hw i.monitoring),
    req_given fd (optimization_doc hw i.metricId i.method),
    opt_given (g := fun x => x) fd (fun x hx => orNull_count hw (hi.threads x hx)),
    opt_given (g := fun x => x) fd (fun x _ => orNull_number hw x),
    opt_given (g := fun x => x) fd (fun x _ => orNull_flag x)]
  simp only [map_id_opt]
  rfl

theorem evaluating_doc (hw : w.Fits N) (i : EvaluatingIn) (hi : i.Small) :
    evaluatingContent N (i.doc w) = some i.cfg := by
  unfold evaluatingContent EvaluatingIn.doc
  rw [closed_given (by simp)]
  rw [opt_given (g := fun x => x) fd (fun x hx => orNull_count hw (hi.seed x hx)),
    req_given fd (text_str false i.resultsDir), req_given fd (monitoring_doc hw i.monitoring),
    opt_given (g := fun x => x) fd (fun x hx => orNull_count hw (hi.threads x hx))]
  simp only [map_id_opt]
  rfl

/-! ## Routing -/

/-- The text of a tolerance. -/
def tolText (w : Writer) : Option ℚ → Text
  | some x => w.num x
  | none => "inf".toList

theorem orNull_tolerance (hw : w.Fits N) (o : Option ℚ) :
    orNull (text N false) (toleranceDoc w o) = some (some (tolText w o)) := by
  cases o with
  | none => rfl
  | some x =>
    show orNull (text N false) (.scalar false (w.num x)) = _
    rw [orNull_plain _ (hw.num_plain x)]
    rfl

theorem entry_doc (hw : w.Fits N) (i : EntryIn) : entry N (i.doc w) = some i.entry := by
  have hr : rawEntry N (i.doc w) = some ⟨i.id, i.alpha, i.tolerance.map (tolText w)⟩ := by
    unfold rawEntry EntryIn.doc
    rw [closed_given (by simp)]
    rw [req_given fd (text_str false i.id), opt_given (g := fun x => x) fd (fun x _ => orNull_number hw x),
      opt_given (g := tolText w) fd (fun x _ => orNull_tolerance hw x)]
    simp only [map_id_opt]
    rfl
  unfold entry
  rw [hr, Option.bind_some]
  rcases i with ⟨id, alpha, _ | _ | x⟩
  · rfl
  · rfl
  · have hf := hw.num_finite x
    simp only [Entry.tryFrom, Option.map_some, tolText, hf.1, hf.2, or_self, if_false, hw.num_parse x]
    rfl

theorem algo_doc (a : Algo) : algo N (algoDoc a) = some a := by
  cases a with
  | dijkstra => rfl
  | chDijkstra => rfl
  | explorator ch => cases ch <;> rfl

theorem routing_doc (hw : w.Fits N) (i : RoutingIn) :
    routingContent N (i.doc w) = some ⟨i.pairsFile, i.algo, i.metrics.map EntryIn.entry⟩ := by
  unfold routingContent RoutingIn.doc
  rw [closed_given (by simp)]
  rw [opt_given (g := fun x => x) fd (fun x _ => orNull_str false x), req_given fd (algo_doc i.algo),
    req_given fd (vec_map (d := entry N) (f := EntryIn.doc w) (g := EntryIn.entry) fun x _ => entry_doc hw x)]
  simp only [map_id_opt]
  rfl

/-! ## Parsing -/

theorem unit_doc (u : Cfg.Unit) : unit N (name (unitName u)) = some u := by cases u <;> rfl

theorem orNull_unit (u : Cfg.Unit) : orNull (unit N) (name (unitName u)) = some (some u) := by cases u <;> rfl

/-- Reading items of which each may have no document. -/
theorem vec_mapM {α β : Type} {d : Dec α} {f : β → Option Yaml} {g : β → α} {l : List β} {ys : List Yaml}
    (hl : l.mapM f = some ys) (h : ∀ x y, f x = some y → d y = some (g x)) : vec d (.seq ys) = some (l.map g) := by
  show ys.mapM d = _
  induction l generalizing ys with
  | nil =>
    rw [List.mapM_nil] at hl
    obtain rfl : [] = ys := Option.some.inj hl
    rfl
  | cons x l ih =>
    rw [List.mapM_cons] at hl
    simp only [Option.bind_eq_bind, Option.bind_eq_some_iff] at hl
    obtain ⟨y, hy, zs, hz, hp⟩ := hl
    obtain rfl : y :: zs = ys := Option.some.inj hp
    rw [List.mapM_cons, h x y hy, ih hz]
    rfl

theorem firstOf_variant {α : Type} {ds : List (Dec α)} {s : String} {y : Yaml} {a : α} (pre post : List (Dec α)) (d : Dec α)
    (hs : ds = pre ++ variant s d :: post) (hp : ∀ e ∈ pre, e (tagged s y) = none) (h : d y = some a) :
    firstOf ds (tagged s y) = some a := by
  subst hs
  unfold firstOf
  rw [List.findSome?_append, List.findSome?_eq_none_iff.mpr hp, List.findSome?_cons]
  simp [variant, tagged, h]

theorem variant_ne {α : Type} {s k : String} (d : Dec α) (y : Yaml) (h : s ≠ k) : variant k d (tagged s y) = none := by
  simp [variant, tagged, String.toList_inj, h]

theorem edgeInfo_doc {i : MetaInfo} {n : String} (h : edgeInfoName i = some n) : edgeInfo N (name n) = some i := by
  cases i <;> simp [edgeInfoName] at h <;> subst h <;> rfl

theorem nodeInfo_doc {i : NodeInfo} {n : String} (h : nodeInfoName i = some n) : nodeInfo N (name n) = some i := by
  cases i <;> simp [nodeInfoName] at h <;> subst h <;> rfl

theorem nodeUnit_doc {i : NodeUnit} {n : String} (h : nodeUnitName i = some n) : nodeUnit N (name n) = some i := by
  cases i <;> simp [nodeUnitName] at h <;> subst h <;> rfl

theorem genInfo_doc {i : GenInfo} {n : String} (h : genInfoName i = some n) : genInfo N (name n) = some i := by
  cases i <;> simp [genInfoName] at h <;> subst h <;> rfl

theorem edgeCat_doc (c : EdgeCat) (y : Yaml) (h : edgeCatDoc c = some y) : edgeCat N y = some c := by
  cases c with
  | info i id =>
    obtain ⟨n, hn, rfl⟩ := Option.map_eq_some_iff.mp h
    refine firstOf_variant [] _ _ rfl (by simp) ?_
    rw [open_given, req_given fd (edgeInfo_doc hn), req_given fd (text_str false id)]
    rfl
  | metric u id =>
    obtain rfl := Option.some.inj h
    refine firstOf_variant [_] _ _ rfl (by simp [variant_ne]) ?_
    rw [open_given, req_given fd (unit_doc u), req_given fd (text_str false id)]
    rfl
  | ignored =>
    obtain rfl := Option.some.inj h
    rfl

theorem nodeCat_doc (c : NodeCat) (y : Yaml) (h : nodeCatDoc c = some y) : nodeCat N y = some c := by
  cases c with
  | info i id =>
    obtain ⟨n, hn, rfl⟩ := Option.map_eq_some_iff.mp h
    refine firstOf_variant [] _ _ rfl (by simp) ?_
    rw [open_given, req_given fd (nodeInfo_doc hn), req_given fd (text_str false id)]
    rfl
  | metric u id =>
    obtain ⟨n, hn, rfl⟩ := Option.map_eq_some_iff.mp h
    refine firstOf_variant [_] _ _ rfl (by simp [variant_ne]) ?_
    rw [open_given, req_given fd (nodeUnit_doc hn), req_given fd (text_str false id)]
    rfl
  | ignored =>
    obtain rfl := Option.some.inj h
    rfl

theorem genMetric_doc (m : GenMetric) : genMetric N (genMetricDoc m) = some m := by
  unfold genMetric genMetricDoc
  rw [open_given, req_given fd (unit_doc m.unit), req_given fd (text_str false m.id)]
  rfl

theorem genEdge_doc (hw : w.Fits N) (lines : Text → Option (List Text)) (c : GenIn) (y : Yaml)
    (h : c.doc w = some y) : genEdge N lines y = some (c.cat lines) := by
  cases c with
  | info i id =>
    obtain ⟨n, hn, rfl⟩ := Option.map_eq_some_iff.mp h
    refine firstOf_variant [] _ _ rfl (by simp) ?_
    rw [open_given, req_given fd (genInfo_doc hn), req_given fd (text_str false id)]
    rfl
  | custom u id x =>
    obtain rfl := Option.some.inj h
    refine firstOf_variant [_] _ _ rfl (by simp [variant_ne]) ?_
    rw [open_given, opt_given (g := fun x => x) fd (fun x _ => orNull_unit x), req_given fd (text_str false id),
      opt_given (g := fun x => x) fd (fun x _ => orNull_number hw x)]
    simp only [map_id_opt]
    rfl
  | haversine u id =>
    obtain rfl := Option.some.inj h
    refine firstOf_variant [_, _] _ _ rfl (by simp [variant_ne]) ?_
    rw [open_given, req_given fd (unit_doc u), req_given fd (text_str false id)]
    rfl
  | copy a b =>
    obtain rfl := Option.some.inj h
    refine firstOf_variant [_, _, _] _ _ rfl (by simp [variant_ne]) ?_
    rw [open_given, req_given fd (genMetric_doc a), req_given fd (genMetric_doc b)]
    rfl
  | convert a b =>
    obtain rfl := Option.some.inj h
    refine firstOf_variant [_, _, _, _] _ _ rfl (by simp [variant_ne]) ?_
    rw [open_given, req_given fd (genMetric_doc a), req_given fd (genMetric_doc b)]
    rfl
  | «calc» r a b =>
    obtain rfl := Option.some.inj h
    refine firstOf_variant [_, _, _, _, _] _ _ rfl (by simp [variant_ne]) ?_
    rw [open_given, req_given fd (genMetric_doc r), req_given fd (genMetric_doc a), req_given fd (genMetric_doc b)]
    rfl
  | merge path header id cols =>
    obtain rfl := Option.some.inj h
    refine firstOf_variant [_, _, _, _, _, _] _ _ rfl (by simp [variant_ne]) ?_
    rw [open_given, req_given fd (text_str false path), opt_given (g := fun x => x) fd (fun x _ => orNull_flag x),
      req_given fd (text_str false id), req_given fd (columns_doc hw false cols)]
    simp only [map_id_opt]
    rfl

theorem vehicles_doc (v : Osm.Vehicle × Bool) :
    orNull (vehicles N) (sectionOf [("category", some (name (vehicleName v.1))), ("are_drivers_picky", some (flag v.2))]) =
      some (some v) := by
  obtain ⟨c, b⟩ := v
  cases c <;> cases b <;> rfl

theorem genNode_doc (id : Text) : genNode N (genNodeDoc id) = some { info := .nodeIdx, id } := by
  have h : names N false [("NodeIdx", NodeInfo.nodeIdx)] (name "NodeIdx") = some .nodeIdx := rfl
  unfold genNode genNodeDoc variant tagged
  dsimp only
  rw [if_pos rfl, open_given, req_given fd h, req_given fd (text_str false id)]
  rfl

theorem parsing_doc (hw : w.Fits N) (lines : Text → Option (List Text)) (i : ParsingIn) (hu : UniqueIds i.edges) (y : Yaml)
    (h : i.doc w = some y) : parsingContent N lines y = some (i.mapFile, i.cfg lines) := by
  unfold ParsingIn.doc at h
  simp only [Option.bind_eq_bind, Option.bind_eq_some_iff] at h
  obtain ⟨nodes, hn, edges, he, gens, hg, hp⟩ := h
  obtain rfl := Option.some.inj hp
  have h1 := vec_mapM (d := nodeCat N) (g := fun c => c) hn (fun c y h => nodeCat_doc c y h)
  have h2 := vec_mapM (d := edgeCat N) (g := fun c => c) he (fun c y h => edgeCat_doc c y h)
  have h3 := vec_mapM (d := genEdge N lines) (g := GenIn.cat lines) hg (fun c y h => genEdge_doc hw lines c y h)
  rw [List.map_id'] at h1 h2
  have h4 : edgesContent N (sectionOf
      [("will_normalize_metrics_by_mean", i.normalized.map flag), ("data", some (.seq edges))]) =
      some (i.edges, i.normalized.getD false) := by
    unfold edgesContent
    rw [closed_given (by simp), opt_given (g := fun x => x) fd (fun x _ => orNull_flag x), req_given fd h2]
    simp only [map_id_opt]
    rfl
  have h5 : ∀ g, i.generating = some g → orNull (generating N lines) (sectionOf
      [("nodes", some (.seq (g.1.map genNodeDoc))), ("edges", some (.seq gens))]) =
      some (some { nodes := g.1.map fun id => { info := .nodeIdx, id }, edges := g.2.map (GenIn.cat lines) }) := by
    intro g hgg
    rw [hgg] at h3
    show (generating N lines (sectionOf _)).map some = _
    unfold generating
    rw [closed_given (by simp), req_given fd (vec_map (d := genNode N) (f := genNodeDoc) fun id _ => genNode_doc id),
      req_given fd h3]
    rfl
  unfold parsingContent
  rw [closed_given (by simp)]
  rw [req_given fd (text_str false i.mapFile), opt_given (g := fun x => x) fd (fun x _ => vehicles_doc x),
    req_given fd h1, req_given fd h4, opt_given fd h5]
  simp only [map_id_opt, Option.bind_eq_bind, Option.bind_some, Edges.tryFrom, (hasDuplicate_iff _).mpr hu,
    Bool.false_eq_true, if_false]
  cases hv : i.vehicles <;> simp [ParsingIn.cfg, hv] <;> exact ⟨rfl, rfl⟩

end

end Verif.Yml
