import Verif.YamlLemmas

/-!
# Lemmas: the order of keys
-/

namespace Verif.Yml

open Cfg

/-- Entries that are the same except for the order. -/
def ESame (es es' : Entries) : Prop :=
  ∃ (vs vs' : List Yaml) (ks : List Text), List.Forall₂ Same vs vs' ∧ es.Perm (ks.zip vs) ∧ es' = ks.zip vs'

theorem same_map {es es' : Entries} : Same (.map es) (.map es') ↔ ESame es es' := by
  constructor
  · intro h
    cases h with
    | map h1 h2 h3 => exact ⟨_, _, _, h1, h2, h3⟩
  · rintro ⟨vs, vs', ks, h1, h2, h3⟩
    exact .map h1 h2 h3

/-- Reading doesn't depend on the order. -/
def Respects {α : Type} (d : Yaml → α) : Prop := ∀ y y', Same y y' → d y = d y'

theorem values_zip {vs vs' : List Yaml} (h : List.Forall₂ Same vs vs') (k : String) (ks : List Text) :
    List.Forall₂ Same (values k (ks.zip vs)) (values k (ks.zip vs')) := by
  induction h generalizing ks with
  | nil => simp [values]
  | cons h1 _ ih =>
    cases ks with
    | nil => simp [values]
    | cons x ks =>
      have := ih ks
      by_cases hx : x = k.toList
      · simp only [values, List.zip_cons_cons, List.filter_cons, hx, decide_true, if_true, List.map_cons] at this ⊢
        exact .cons h1 this
      · simpa [values, hx] using this

theorem ESame.values {es es' : Entries} (h : ESame es es') (k : String) :
    ∃ ws, (values k es).Perm ws ∧ List.Forall₂ Same ws (values k es') := by
  obtain ⟨vs, vs', ks, h1, h2, rfl⟩ := h
  exact ⟨_, (h2.filter _).map _, values_zip h1 k ks⟩

theorem ESame.length {es es' : Entries} (h : ESame es es') : es.length = es'.length := by
  obtain ⟨vs, vs', ks, h1, h2, rfl⟩ := h
  rw [h2.length_eq, List.length_zip, List.length_zip, h1.length_eq]

theorem ESame.keys {es es' : Entries} (h : ESame es es') : (es.map Prod.fst).Perm (es'.map Prod.fst) := by
  obtain ⟨vs, vs', ks, h1, h2, rfl⟩ := h
  refine (h2.map _).trans (.of_eq ?_)
  have := h1.length_eq
  clear h2
  induction h1 generalizing ks with
  | nil => simp
  | cons _ h ih =>
    cases ks with
    | nil => simp
    | cons x ks => simpa using ih ks (by simpa using this)

theorem ESame.single {k : Text} {v : Yaml} {es' : Entries} (h : ESame [(k, v)] es') :
    ∃ v', es' = [(k, v')] ∧ Same v v' := by
  obtain ⟨vs, vs', ks, h1, h2, rfl⟩ := h
  have h3 := List.singleton_perm.mp h2
  cases h1 with
  | nil => simp at h3
  | cons hs hr =>
    cases ks with
    | nil => simp at h3
    | cons x ks =>
      simp only [List.zip_cons_cons, List.cons.injEq, Prod.mk.injEq] at h3
      obtain ⟨⟨rfl, rfl⟩, h4⟩ := h3
      refine ⟨_, ?_, hs⟩
      simp only [List.zip_cons_cons, List.cons.injEq, true_and]
      have := congrArg List.length h4
      rw [List.length_zip, hr.length_eq, ← List.length_zip] at this
      have := this.symm
      exact List.length_eq_zero_iff.mp this

theorem req_same {α : Type} {d : Dec α} (hd : Respects d) {es es' : Entries} (h : ESame es es') (k : String) :
    req k d es = req k d es' := by
  obtain ⟨ws, h1, h2⟩ := h.values k
  unfold req
  match ws, h2 with
  | [], h2 =>
    rw [List.perm_nil.mp h1]
    generalize hg : values k es' = l at h2
    cases h2; rfl
  | [w], h2 =>
    rw [List.perm_singleton.mp h1]
    generalize hg : values k es' = l at h2
    cases h2 with
    | cons h3 h4 => cases h4; exact hd _ _ h3
  | w :: x :: ws, h2 =>
    have hl := h1.length_eq
    have hl' := h2.length_eq
    generalize values k es = l at hl
    generalize values k es' = l' at hl'
    match l, l', hl, hl' with
    | _ :: _ :: _, _ :: _ :: _, _, _ => rfl

theorem Respects.orNull {α : Type} {d : Dec α} (hd : Respects d) : Respects (orNull d) := by
  intro y y' h
  cases h with
  | scalar q t => rfl
  | seq h => exact congrArg (Option.map some) (hd _ _ (.seq h))
  | map h1 h2 h3 => exact congrArg (Option.map some) (hd _ _ (.map h1 h2 h3))

theorem opt_same {α : Type} {d : Dec α} (hd : Respects d) {es es' : Entries} (h : ESame es es') (k : String) :
    opt k d es = opt k d es' := by
  obtain ⟨ws, h1, h2⟩ := h.values k
  unfold opt
  match ws, h2 with
  | [], h2 =>
    rw [List.perm_nil.mp h1]
    generalize hg : values k es' = l at h2
    cases h2; rfl
  | [w], h2 =>
    rw [List.perm_singleton.mp h1]
    generalize hg : values k es' = l at h2
    cases h2 with
    | cons h3 h4 => cases h4; exact hd.orNull _ _ h3
  | w :: x :: ws, h2 =>
    have hl := h1.length_eq
    have hl' := h2.length_eq
    generalize values k es = l at hl
    generalize values k es' = l' at hl'
    match l, l', hl, hl' with
    | _ :: _ :: _, _ :: _ :: _, _, _ => rfl

theorem respects_scalar {α : Type} {d : Dec α} (h1 : ∀ ys, d (.seq ys) = none) (h2 : ∀ es, d (.map es) = none) :
    Respects d := by
  intro y y' h
  cases h with
  | scalar q t => rfl
  | seq h => rw [h1, h1]
  | map _ _ _ => rw [h2, h2]

theorem respects_text (N : Numbers) (buf : Bool) : Respects (text N buf) := respects_scalar (fun _ => rfl) fun _ => rfl
theorem respects_nat (N : Numbers) : Respects (nat N) := respects_scalar (fun _ => rfl) fun _ => rfl
theorem respects_num (N : Numbers) : Respects (num N) := respects_scalar (fun _ => rfl) fun _ => rfl
theorem respects_bool (N : Numbers) : Respects (bool N) := respects_scalar (fun _ => rfl) fun _ => rfl

theorem Respects.map {α β : Type} {d : Yaml → α} (h : Respects d) (f : α → β) : Respects fun y => f (d y) :=
  fun y y' hs => congrArg f (h y y' hs)

theorem Respects.vec {α : Type} {d : Dec α} (hd : Respects d) : Respects (vec d) := by
  intro y y' h
  cases h with
  | scalar q t => rfl
  | map _ _ _ => rfl
  | seq h =>
    simp only [Yml.vec]
    induction h with
    | nil => rfl
    | cons h1 _ ih => rw [List.mapM_cons, List.mapM_cons, hd _ _ h1, ih]

theorem respects_open {α : Type} {f : Entries → Option α} (hf : ∀ es es', ESame es es' → f es = f es') :
    Respects (open_ f) := by
  intro y y' h
  cases h with
  | scalar q t => rfl
  | seq _ => rfl
  | map h1 h2 h3 => exact hf _ _ ⟨_, _, _, h1, h2, h3⟩

theorem respects_closed {α : Type} {known : List String} {f : Entries → Option α}
    (hf : ∀ es es', ESame es es' → f es = f es') : Respects (closed known f) := by
  intro y y' h
  cases h with
  | scalar q t => rfl
  | seq _ => rfl
  | @map es es' _ _ _ h1 h2 h3 =>
    have he : ESame es es' := ⟨_, _, _, h1, h2, h3⟩
    have hall : (es.all fun e => known.any fun k => decide (e.1 = k.toList)) =
        es'.all fun e => known.any fun k => decide (e.1 = k.toList) := by
      have := he.keys.all_eq (f := fun x => known.any fun k => decide (x = k.toList))
      rw [List.all_map, List.all_map] at this
      exact this
    simp only [closed, hall, hf es es' he]

theorem respects_variant {α : Type} {name : String} {d : Dec α} (hd : Respects d) : Respects (variant name d) := by
  intro y y' h
  cases h with
  | scalar q t => rfl
  | seq _ => rfl
  | @map es es' _ _ _ h1 h2 h3 =>
    have he : ESame es es' := ⟨_, _, _, h1, h2, h3⟩
    match es, he with
    | [(k, v)], he =>
      obtain ⟨v', rfl, hs⟩ := he.single
      simp only [variant, hd _ _ hs]
    | [], he =>
      have := he.length
      match es', this with
      | [], _ => rfl
    | _ :: _ :: _, he =>
      have := he.length
      match es', this with
      | _ :: _ :: _, _ => rfl

theorem respects_unit (N : Numbers) (buf : Bool) (name : String) : Respects (unitVariant N buf name) := by
  intro y y' h
  cases h with
  | scalar q t => rfl
  | seq _ => rfl
  | @map es es' _ _ _ h1 h2 h3 =>
    have he : ESame es es' := ⟨_, _, _, h1, h2, h3⟩
    match es, he with
    | [(k, v)], he =>
      obtain ⟨v', rfl, hs⟩ := he.single
      cases hs with
      | scalar q t => rfl
      | seq _ => rfl
      | map _ _ _ => rfl
    | [], he =>
      have := he.length
      match es', this with
      | [], _ => rfl
    | c :: _ :: _, he =>
      have := he.length
      obtain ⟨_, w⟩ := c
      match es', this with
      | a :: b :: _, _ => obtain ⟨_, v⟩ := a; simp [unitVariant]

theorem respects_names {α : Type} (N : Numbers) (buf : Bool) (vs : List (String × α)) : Respects (names N buf vs) := by
  intro y y' h
  simp only [names, fun s => respects_unit N buf s y y' h]

theorem respects_firstOf {α : Type} {ds : List (Dec α)} (h : ∀ d ∈ ds, Respects d) : Respects (firstOf ds) := by
  intro y y' hs
  simp only [firstOf]
  induction ds with
  | nil => rfl
  | cons d ds ih =>
    rw [List.findSome?_cons, List.findSome?_cons, h d (by simp) y y' hs, ih fun d hd => h d (by simp [hd])]

/-! ## The configurations -/

variable (N : Numbers)

theorem respects_multiCh (buf : Bool) : Respects (multiChContent N buf) := by
  refine respects_closed fun es es' h => ?_
  simp only [req_same (respects_text N buf) h, req_same (respects_nat N) h, opt_same (respects_num N) h,
    opt_same (respects_text N buf) h, opt_same (respects_nat N) h, req_same (respects_bool N) h]

theorem respects_column (buf : Bool) : Respects (column N buf) := by
  refine respects_firstOf fun d hd => ?_
  simp only [List.mem_cons, List.not_mem_nil, or_false] at hd
  rcases hd with rfl | rfl
  · exact respects_variant ((respects_text N buf).map _)
  · exact respects_names _ _ _

theorem respects_edgesInfo (buf : Bool) : Respects (edgesInfoContent N buf) := by
  refine respects_closed fun es es' h => ?_
  simp only [req_same (respects_text N buf) h, opt_same (respects_bool N) h, req_same (respects_column N buf).vec h]

theorem respects_graph : Respects (graphContent N) := by
  refine respects_closed fun es es' h => ?_
  have hE : ∀ file, Respects (graphEdges N file) := by
    intro file
    refine respects_closed fun es es' h => ?_
    simp only [opt_same (respects_bool N) h, req_same (respects_column N false).vec h]
  simp only [req_same (respects_text N false) h, req_same (respects_column N false).vec h, req_same (hE _) h]

theorem respects_routePairs : Respects (routePairsContent N) := by
  refine respects_closed fun es es' h => ?_
  have hE : Respects (randomOrAll N) := by
    refine respects_open fun es es' h => ?_
    simp only [opt_same (respects_nat N) h, req_same (respects_nat N) h]
  simp only [req_same (respects_text N false) h, req_same hE h]

theorem respects_monitoring : Respects (monitoring N) := by
  refine respects_closed fun es es' h => ?_
  simp only [req_same (respects_edgesInfo N true) h, opt_same (respects_bool N) h]

theorem respects_method : Respects (method N) := by
  refine respects_firstOf fun d hd => ?_
  simp only [List.mem_cons, List.not_mem_nil, or_false] at hd
  rcases hd with rfl | rfl
  · refine respects_variant (respects_closed fun es es' h => ?_)
    simp only [req_same (respects_num N) h]
  · exact respects_names _ _ _

theorem respects_optimization : Respects (optimization N) := by
  refine respects_closed fun es es' h => ?_
  simp only [req_same (respects_text N false) h, req_same (respects_method N) h]

theorem respects_balancing : Respects (balancingContent N) := by
  refine respects_closed fun es es' h => ?_
  simp only [opt_same (respects_nat N) h, req_same (respects_text N false) h, req_same (respects_multiCh N true) h,
    req_same (respects_nat N) h, req_same (respects_monitoring N) h, req_same (respects_optimization N) h,
    opt_same (respects_num N) h, opt_same (respects_bool N) h]

theorem respects_evaluating : Respects (evaluatingContent N) := by
  refine respects_closed fun es es' h => ?_
  simp only [opt_same (respects_nat N) h, req_same (respects_text N false) h, req_same (respects_monitoring N) h]

theorem respects_algo : Respects (algo N) := by
  refine respects_firstOf fun d hd => ?_
  simp only [List.mem_cons, List.not_mem_nil, or_false] at hd
  rcases hd with rfl | rfl
  · exact respects_names _ _ _
  · refine respects_variant (respects_closed fun es es' h => ?_)
    simp only [req_same (d := exploratorAlgo N) (respects_names _ _ _) h]

theorem respects_entry : Respects (entry N) := by
  have : Respects (rawEntry N) := by
    refine respects_closed fun es es' h => ?_
    simp only [req_same (respects_text N false) h, opt_same (respects_text N false) h, opt_same (respects_num N) h]
  intro y y' h
  simp only [entry, this y y' h]

theorem respects_routing : Respects (routingContent N) := by
  refine respects_closed fun es es' h => ?_
  simp only [opt_same (respects_text N false) h, req_same (respects_algo N) h, req_same (respects_entry N).vec h]

theorem respects_unitName : Respects (unit N) := respects_names _ _ _

theorem respects_edgeCat : Respects (edgeCat N) := by
  refine respects_firstOf fun d hd => ?_
  simp only [List.mem_cons, List.not_mem_nil, or_false] at hd
  rcases hd with rfl | rfl | rfl
  · refine respects_variant (respects_open fun es es' h => ?_)
    simp only [req_same (d := edgeInfo N) (respects_names _ _ _) h, req_same (respects_text N false) h]
  · refine respects_variant (respects_open fun es es' h => ?_)
    simp only [req_same (respects_unitName N) h, req_same (respects_text N false) h]
  · exact respects_names _ _ _

theorem respects_nodeCat : Respects (nodeCat N) := by
  refine respects_firstOf fun d hd => ?_
  simp only [List.mem_cons, List.not_mem_nil, or_false] at hd
  rcases hd with rfl | rfl | rfl
  · refine respects_variant (respects_open fun es es' h => ?_)
    simp only [req_same (d := nodeInfo N) (respects_names _ _ _) h, req_same (respects_text N false) h]
  · refine respects_variant (respects_open fun es es' h => ?_)
    simp only [req_same (d := nodeUnit N) (respects_names _ _ _) h, req_same (respects_text N false) h]
  · exact respects_names _ _ _

theorem respects_genNode : Respects (genNode N) := by
  refine respects_variant (respects_open fun es es' h => ?_)
  simp only [req_same (respects_names N false [("NodeIdx", NodeInfo.nodeIdx)]) h, req_same (respects_text N false) h]

theorem respects_genMetric : Respects (genMetric N) := by
  refine respects_open fun es es' h => ?_
  simp only [req_same (respects_unitName N) h, req_same (respects_text N false) h]

theorem respects_genEdge (lines : Text → Option (List Text)) : Respects (genEdge N lines) := by
  refine respects_firstOf fun d hd => ?_
  simp only [List.mem_cons, List.not_mem_nil, or_false] at hd
  rcases hd with rfl | rfl | rfl | rfl | rfl | rfl | rfl <;>
    refine respects_variant (respects_open fun es es' h => ?_)
  · simp only [req_same (d := genInfo N) (respects_names _ _ _) h, req_same (respects_text N false) h]
  · simp only [opt_same (respects_unitName N) h, req_same (respects_text N false) h, opt_same (respects_num N) h]
  · simp only [req_same (respects_unitName N) h, req_same (respects_text N false) h]
  · simp only [req_same (respects_genMetric N) h]
  · simp only [req_same (respects_genMetric N) h]
  · simp only [req_same (respects_genMetric N) h]
  · simp only [req_same (respects_text N false) h, opt_same (respects_bool N) h, req_same (respects_column N false).vec h]

theorem respects_parsing (lines : Text → Option (List Text)) : Respects (parsingContent N lines) := by
  have hV : Respects (vehicles N) := by
    refine respects_closed fun es es' h => ?_
    simp only [req_same (d := vehicle N) (respects_names _ _ _) h, req_same (respects_bool N) h]
  have hE : Respects (edgesContent N) := by
    refine respects_closed fun es es' h => ?_
    simp only [opt_same (respects_bool N) h, req_same (respects_edgeCat N).vec h]
  have hG : Respects (generating N lines) := by
    refine respects_closed fun es es' h => ?_
    simp only [req_same (respects_genNode N).vec h, req_same (respects_genEdge N lines).vec h]
  refine respects_closed fun es es' h => ?_
  simp only [req_same (respects_text N false) h, opt_same hV h, req_same (respects_nodeCat N).vec h, req_same hE h,
    opt_same hG h]

theorem respects_section {α : Type} {d : Dec α} (hd : Respects d) (k : String) : Respects (open_ (req k d)) :=
  respects_open fun _ _ h => req_same hd h k

end Verif.Yml
