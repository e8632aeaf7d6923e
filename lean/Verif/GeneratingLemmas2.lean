import Verif.GeneratingLemmas
import Mathlib.Tactic.FieldSimp
import Mathlib.Tactic.Ring
import Mathlib.Tactic.Linarith
import Mathlib.Algebra.BigOperators.Ring.List
import Mathlib.Algebra.BigOperators.GroupWithZero.Action

/-!
# Lemmas about generating and normalizing: ids, categories, merging, means
-/

namespace Verif.Gen

open Cfg Text

/-! ## Edge-ids -/

/-- Every edge has its index as id. -/
def IdsAreIdx (g : Graph) : Prop :=
  g.edgeIds = (List.range g.edgeCount).map some ∧ g.idMap = (List.range g.edgeCount).map fun i => (i, i)

theorem idsAreIdx_tryId {g : Graph} (h : IdsAreIdx g) (e : Nat) :
    g.tryId e = if e < g.edgeCount then .ok (some e) else .panic := by
  unfold Graph.tryId
  rw [h.1, List.getElem?_map]
  by_cases he : e < g.edgeCount
  · rw [if_pos he, List.getElem?_range he]
    rfl
  · rw [if_neg he, List.getElem?_eq_none (by simpa using he)]
    rfl

theorem idsAreIdx_tryIdxFrom {g : Graph} (h : IdsAreIdx g) (id : Nat) :
    g.tryIdxFrom id = if id < g.edgeCount then .ok id else .err .unknownEdgeId := by
  have hk : g.idMap.map Prod.fst = List.range g.edgeCount := by
    rw [h.2, List.map_map]
    simp [Function.comp_def]
  unfold Graph.tryIdxFrom
  rw [hk]
  by_cases he : id < g.edgeCount
  · have : bsearch (fun a b => decide (a < b)) (List.range g.edgeCount) id = .ok id :=
      bsearch_found (by simp) (by simp; intro a b h; omega)
        (by simpa using List.pairwise_lt_range) (List.getElem?_range he)
    rw [this, if_pos he]
    dsimp only
    rw [h.2, List.getElem?_map, List.getElem?_range he]
    rfl
  · rw [if_neg he]
    cases hb : bsearch (fun a b => decide (a < b)) (List.range g.edgeCount) id with
    | ok i =>
      have := bsearch_ok hb
      rw [List.getElem?_eq_some_iff] at this
      obtain ⟨h1, h2⟩ := this
      simp at h1 h2
      omega
    | error i => rfl

theorem idsAreIdx_iff {g : Graph} (h : IdsAreIdx g) (e id : Nat) :
    g.tryIdxFrom id = .ok e ↔ g.tryId e = .ok (some id) := by
  rw [idsAreIdx_tryId h, idsAreIdx_tryIdxFrom h]
  by_cases h1 : id < g.edgeCount <;> by_cases h2 : e < g.edgeCount <;> simp [h1, h2]
  · exact ⟨fun h => h.symm, fun h => h.symm⟩
  · omega
  · omega

/-- A step keeps the ids, or sets all of them. -/
theorem edgeStep_ids {env : Env} {s s' : Net} {c : GenCat} (h : edgeStep env s c = .ok s') :
    (∃ id, c = .info .edgeId id) ∧ IdsAreIdx s'.graph ∨
      (∀ id, c ≠ .info .edgeId id) ∧ s'.graph.edgeIds = s.graph.edgeIds ∧ s'.graph.idMap = s.graph.idMap := by
  cases c with
  | info i id =>
    cases i <;> simp only [edgeStep, Res.ok.injEq, reduceCtorEq] at h
    all_goals subst h
    · exact .inl ⟨⟨_, rfl⟩, rfl, rfl⟩
    all_goals exact .inr ⟨by simp, rfl, rfl⟩
  | custom u id d =>
    simp only [edgeStep, Res.bind_eq_ok, Res.pure_eq, Res.ok.injEq] at h
    obtain ⟨xs, hxs, rfl⟩ := h
    exact .inr ⟨by simp, rfl, rfl⟩
  | haversine u id =>
    simp only [edgeStep] at h
    split at h
    · simp only [Res.bind_eq_ok, Res.pure_eq, Res.ok.injEq] at h
      obtain ⟨xs, hxs, rfl⟩ := h
      exact .inr ⟨by simp, rfl, rfl⟩
    · exact absurd h (by simp)
  | copy src dst =>
    simp only [edgeStep, Res.bind_eq_ok, Res.pure_eq, Res.ok.injEq] at h
    obtain ⟨i, -, xs, hxs, rfl⟩ := h
    exact .inr ⟨by simp, rfl, rfl⟩
  | convert src dst =>
    simp only [edgeStep, Res.bind_eq_ok] at h
    obtain ⟨i, -, xs, hxs, h⟩ := h
    split at h
    · simp only [Res.pure_eq, Res.ok.injEq] at h
      subst h
      exact .inr ⟨by simp, rfl, rfl⟩
    · exact absurd h (by simp)
  | «calc» r a b =>
    simp only [edgeStep, Res.bind_eq_ok, Res.pure_eq, Res.ok.injEq] at h
    obtain ⟨i, -, j, -, xs, hxs, rfl⟩ := h
    exact .inr ⟨by simp, rfl, rfl⟩
  | merge file hd edgeId cols =>
    simp only [edgeStep, Res.bind_eq_ok, Res.pure_eq, Res.ok.injEq] at h
    obtain ⟨lines, -, ms, hms, rfl⟩ := h
    exact .inr ⟨by simp, rfl, rfl⟩

theorem sameTopology_count {g g' : Graph} (h : SameTopology g g') : g'.edgeCount = g.edgeCount := by
  unfold Graph.edgeCount
  rw [h.fwdDsts]

theorem edges_idsAreIdx {env : Env} {l : List GenCat} {s s' : Net} (h : l.foldlM (edgeStep env) s = .ok s')
    (hor : IdsAreIdx s.graph ∨ ∃ id, GenCat.info .edgeId id ∈ l) : IdsAreIdx s'.graph := by
  induction l generalizing s with
  | nil =>
    simp only [List.foldlM_nil, Res.pure_eq, Res.ok.injEq] at h
    subst h
    rcases hor with h | ⟨id, h⟩
    · exact h
    · exact absurd h (by simp)
  | cons c l ih =>
    obtain ⟨t, ht, h⟩ := foldlM_cons_ok.mp h
    refine ih h ?_
    rcases edgeStep_ids ht with ⟨-, hi⟩ | ⟨hne, h1, h2⟩
    · exact .inl hi
    · rcases hor with hi | ⟨id, hm⟩
      · left
        have := sameTopology_count (keeps_edgeStep ht).topo
        exact ⟨by rw [h1, this, hi.1], by rw [h2, this, hi.2]⟩
      · right
        rcases List.mem_cons.mp hm with rfl | hm
        · exact absurd rfl (hne id)
        · exact ⟨id, hm⟩

/-- Generating edges keeps a graph well formed. -/
theorem edges_wellFormed {env : Env} {l : List GenCat} {s s' : Net} (h : l.foldlM (edgeStep env) s = .ok s')
    (hw : s.graph.WellFormed) : s'.graph.WellFormed := by
  have hk := keeps_edges h
  refine wellFormed_of_sameTopology hw hk.topo (hk.count.trans hw.metrics_len) ?_ ?_
  · refine foldlM_ind h (fun t => Keeps s t ∧ t.graph.edgeIds.length = s.graph.edgeCount)
      ⟨.refl _, hw.edgeIds_len⟩ (fun x _ c c' hc hcc => ⟨hc.1.trans (keeps_edgeStep hcc), ?_⟩) |>.2
    rcases edgeStep_ids hcc with ⟨-, hi⟩ | ⟨-, h1, -⟩
    · rw [hi.1]
      simp [sameTopology_count (hc.1.trans (keeps_edgeStep hcc)).topo]
    · rw [h1, hc.2]
  · refine foldlM_ind h (fun t => ∀ e id, t.graph.tryIdxFrom id = .ok e ↔ t.graph.tryId e = .ok (some id))
      hw.idMap_iff (fun x _ c c' hc hcc => ?_)
    rcases edgeStep_ids hcc with ⟨-, hi⟩ | ⟨-, h1, h2⟩
    · exact idsAreIdx_iff hi
    · intro e id
      unfold Graph.tryIdxFrom Graph.tryId
      rw [h1, h2]
      exact hc e id

/-! ## Categories -/

theorem metricsOf_snd_sublist (cats : List EdgeCat) :
    ((metricsOf cats).map Prod.snd).Sublist (cats.filterMap EdgeCat.id?) := by
  unfold metricsOf
  induction cats with
  | nil => simp
  | cons c cs ih =>
    cases c with
    | info i id => simpa [EdgeCat.id?, List.filterMap_cons] using ih.cons _
    | metric u id => simpa [EdgeCat.id?, List.filterMap_cons] using ih
    | ignored => simpa [EdgeCat.id?, List.filterMap_cons] using ih

theorem Consistent.ids_eq {s : Net} (h : Consistent s) :
    s.edges.ids = (metricsOf s.edges.cats).map Prod.snd := by
  rw [← h.metrics, List.map_snd_zip h.len.le]

theorem Consistent.nodup {s : Net} (h : Consistent s) (hu : UniqueIds s.edges.cats) : s.edges.ids.Nodup := by
  rw [h.ids_eq]
  exact (metricsOf_snd_sublist _).nodup hu

/-- Parsed categories are consistent. -/
theorem tryFrom_metrics {cats : List EdgeCat} {n : Bool} {e : Edges} (h : Edges.tryFrom cats n = .ok e) :
    List.zip e.units e.ids = metricsOf e.cats ∧ e.ids.length = e.units.length := by
  unfold Edges.tryFrom at h
  split at h
  · exact absurd h (by simp)
  simp only [Except.ok.injEq] at h
  subst h
  dsimp only
  unfold metricsOf
  clear * -
  induction cats with
  | nil => exact ⟨rfl, rfl⟩
  | cons c cs ih =>
    cases c with
    | info i id => simpa [List.filterMap_cons] using ih
    | metric u id => simpa [List.filterMap_cons] using ih
    | ignored => simpa [List.filterMap_cons] using ih

/-- The ids of the categories after a step that isn't a conversion. -/
theorem edgeStep_cats {env : Env} {s s' : Net} {c : GenCat} (h : edgeStep env s c = .ok s')
    (hc : ∀ a b, c ≠ .convert a b) :
    s'.edges.cats.filterMap EdgeCat.id? = s.edges.cats.filterMap EdgeCat.id? ++ (introduces c).toList ∧
      introduces c = newId? c := by
  cases c with
  | info i id =>
    cases i <;> simp only [edgeStep, Res.ok.injEq, reduceCtorEq] at h
    all_goals subst h
    all_goals exact ⟨by simp [addInfo, EdgeCat.id?, introduces], rfl⟩
  | custom u id d =>
    simp only [edgeStep, Res.bind_eq_ok, Res.pure_eq, Res.ok.injEq] at h
    obtain ⟨xs, hxs, rfl⟩ := h
    exact ⟨by simp [addMetric, EdgeCat.id?, introduces], rfl⟩
  | haversine u id =>
    simp only [edgeStep] at h
    split at h
    · simp only [Res.bind_eq_ok, Res.pure_eq, Res.ok.injEq] at h
      obtain ⟨xs, hxs, rfl⟩ := h
      exact ⟨by simp [addMetric, EdgeCat.id?, introduces], rfl⟩
    · exact absurd h (by simp)
  | copy src dst =>
    simp only [edgeStep, Res.bind_eq_ok, Res.pure_eq, Res.ok.injEq] at h
    obtain ⟨i, -, xs, hxs, rfl⟩ := h
    exact ⟨by simp [addMetric, EdgeCat.id?, introduces], rfl⟩
  | convert src dst => exact absurd rfl (hc _ _)
  | «calc» r a b =>
    simp only [edgeStep, Res.bind_eq_ok, Res.pure_eq, Res.ok.injEq] at h
    obtain ⟨i, -, j, -, xs, hxs, rfl⟩ := h
    exact ⟨by simp [addMetric, EdgeCat.id?, introduces], rfl⟩
  | merge file hd edgeId cols =>
    simp only [edgeStep, Res.bind_eq_ok, Res.pure_eq, Res.ok.injEq] at h
    obtain ⟨lines, -, ms, hms, rfl⟩ := h
    exact ⟨by simp [introduces], rfl⟩

/-- Replacing the only entry of a name. -/
theorem map_replace {α β : Type} [DecidableEq β] (key : α → β) {l : List α} (hn : (l.map key).Nodup) {i : Nat}
    {a : α} (hi : l[i]? = some a) (q : α) :
    l.map (fun p => if key p = key a then q else p) = l.set i q := by
  apply List.ext_getElem?
  intro j
  rw [List.getElem?_set, List.getElem?_map]
  have hlt := lt_of_some hi
  by_cases hij : i = j
  · subst hij
    rw [if_pos rfl, hi, if_pos hlt]
    simp
  · rw [if_neg hij]
    cases hj : l[j]? with
    | none => rfl
    | some b =>
      have : key b ≠ key a := by
        intro hk
        have h1 : (l.map key)[i]? = some (key a) := by rw [List.getElem?_map, hi]; rfl
        have h2 : (l.map key)[j]? = some (key b) := by rw [List.getElem?_map, hj]; rfl
        have hl1 := lt_of_some h1
        have hl2 := lt_of_some h2
        rw [List.getElem?_eq_getElem hl1, Option.some.injEq] at h1
        rw [List.getElem?_eq_getElem hl2, Option.some.injEq] at h2
        exact hij ((List.Nodup.getElem_inj_iff hn).mp (by rw [h1, h2, hk]))
      simp [this]

theorem mergeCols_length {env : Env} {e : Edges} {edgeId : Text} {params : List Text} {i : Nat}
    {cols : List (Option Text)} {m m' : List ℚ} (h : mergeCols env e edgeId params i cols m = .ok m') :
    m'.length = m.length := by
  induction cols generalizing i m with
  | nil =>
    simp only [mergeCols, Res.ok.injEq] at h
    rw [h]
  | cons c cols ih =>
    cases c with
    | none => exact ih h
    | some id =>
      simp only [mergeCols] at h
      split at h
      · exact ih h
      · simp only [Res.bind_eq_ok] at h
        obtain ⟨k, -, p, -, h⟩ := h
        split at h
        · exact absurd h (by simp)
        · split at h
          · rw [ih h]
            simp
          · exact absurd h (by simp)

theorem mergeLine_values {env : Env} {s : Net} {edgeId : Text} {cols : List (Option Text)}
    {ms ms' : List (List ℚ)} {line : Text} {n : Nat} (h : mergeLine env s edgeId cols ms line = .ok ms')
    (hv : ∀ m ∈ ms, m.length = n) : ∀ m ∈ ms', m.length = n := by
  unfold mergeLine at h
  simp only [Res.bind_eq_ok] at h
  obtain ⟨o, -, h⟩ := h
  cases o with
  | none => exact absurd h (by simp)
  | some e =>
    simp only [Res.bind_eq_ok, Res.pure_eq, Res.ok.injEq] at h
    obtain ⟨m, hm, m', hm', rfl⟩ := h
    intro x hx
    rcases List.mem_or_eq_of_mem_set hx with hx | rfl
    · exact hv x hx
    · rw [mergeCols_length hm']
      exact hv m (List.mem_of_getElem? (Res.ofIdx_eq_ok.mp hm))

theorem consistent_addInfo {s : Net} (h : Consistent s) (i : MetaInfo) (id : Text) : Consistent (addInfo s i id) :=
  ⟨by rw [show (addInfo s i id).edges.units = s.edges.units from rfl,
        show (addInfo s i id).edges.ids = s.edges.ids from rfl, h.metrics]
      simp [metricsOf, addInfo], h.len, h.dim, h.values⟩

theorem mem_pushAll {ms : List (List ℚ)} {xs : List ℚ} {m : List ℚ} (h : m ∈ pushAll ms xs) :
    ∃ m' ∈ ms, ∃ x ∈ xs, m = m' ++ [x] := by
  unfold pushAll at h
  obtain ⟨i, hi, rfl⟩ := List.mem_iff_getElem.mp h
  rw [List.length_zipWith] at hi
  exact ⟨ms[i], List.getElem_mem .., xs[i], List.getElem_mem .., by simp⟩

theorem mem_setAll {i : Nat} {ms : List (List ℚ)} {xs : List ℚ} {m : List ℚ} (h : m ∈ setAll i ms xs) :
    ∃ m' ∈ ms, ∃ x ∈ xs, m = m'.set i x := by
  unfold setAll at h
  obtain ⟨j, hj, rfl⟩ := List.mem_iff_getElem.mp h
  rw [List.length_zipWith] at hj
  exact ⟨ms[j], List.getElem_mem .., xs[j], List.getElem_mem .., by simp⟩

theorem consistent_addMetric {s : Net} (h : Consistent s) (u : Cfg.Unit) (id : Text) (xs : List ℚ) :
    Consistent (addMetric s u id xs) := by
  refine ⟨?_, ?_, ?_, fun m hm => ?_⟩
  · rw [show (addMetric s u id xs).edges.units = s.edges.units ++ [u] from rfl,
      show (addMetric s u id xs).edges.ids = s.edges.ids ++ [id] from rfl,
      List.zip_append h.len.symm, h.metrics]
    simp [metricsOf, addMetric]
  · simp [addMetric, h.len]
  · simp [addMetric, h.dim]
  · obtain ⟨m', hm', x, -, rfl⟩ := mem_pushAll hm
    simp [addMetric, h.values m' hm']

/-- A step keeps the configuration consistent, and its ids unique, if new ids are really new. -/
theorem edgeStep_consistent {env : Env} {s s' : Net} {c : GenCat} {rest : List Text}
    (h : edgeStep env s c = .ok s') (hc : Consistent s)
    (hn : (s.edges.cats.filterMap EdgeCat.id? ++ ((introduces c).toList ++ rest)).Nodup) :
    Consistent s' ∧ (s'.edges.cats.filterMap EdgeCat.id? ++ rest).Nodup := by
  by_cases hcv : ∀ a b, c ≠ .convert a b
  · refine ⟨?_, by rw [(edgeStep_cats h hcv).1]; simpa using hn⟩
    cases c with
    | info i id =>
      cases i <;> simp only [edgeStep, Res.ok.injEq, reduceCtorEq] at h
      all_goals subst h
      · exact consistent_addInfo (s := { s with graph := { s.graph with
          edgeIds := (List.range s.graph.edgeCount).map some
          idMap := (List.range s.graph.edgeCount).map fun i => (i, i) } })
          ⟨hc.metrics, hc.len, hc.dim, hc.values⟩ _ _
      all_goals exact consistent_addInfo hc _ _
    | custom u id d =>
      simp only [edgeStep, Res.bind_eq_ok, Res.pure_eq, Res.ok.injEq] at h
      obtain ⟨xs, hxs, rfl⟩ := h
      exact consistent_addMetric hc _ _ _
    | haversine u id =>
      simp only [edgeStep] at h
      split at h
      · simp only [Res.bind_eq_ok, Res.pure_eq, Res.ok.injEq] at h
        obtain ⟨xs, hxs, rfl⟩ := h
        exact consistent_addMetric hc _ _ _
      · exact absurd h (by simp)
    | copy src dst =>
      simp only [edgeStep, Res.bind_eq_ok, Res.pure_eq, Res.ok.injEq] at h
      obtain ⟨i, -, xs, hxs, rfl⟩ := h
      exact consistent_addMetric hc _ _ _
    | convert src dst => exact absurd rfl (hcv _ _)
    | «calc» r a b =>
      simp only [edgeStep, Res.bind_eq_ok, Res.pure_eq, Res.ok.injEq] at h
      obtain ⟨i, -, j, -, xs, hxs, rfl⟩ := h
      exact consistent_addMetric hc _ _ _
    | merge file hd edgeId cols =>
      simp only [edgeStep, Res.bind_eq_ok, Res.pure_eq, Res.ok.injEq] at h
      obtain ⟨lines, -, ms, hms, rfl⟩ := h
      refine ⟨hc.metrics, hc.len, hc.dim, ?_⟩
      exact foldlM_ind hms (fun ms => ∀ m ∈ ms, m.length = s.edges.units.length) hc.values
        fun _ _ a b ha hb => mergeLine_values hb ha
  · push Not at hcv
    obtain ⟨src, dst, rfl⟩ := hcv
    have hu : UniqueIds s.edges.cats := (List.nodup_append.mp hn).1
    have hids := hc.nodup hu
    simp only [edgeStep, Res.bind_eq_ok] at h
    obtain ⟨i, hi, xs, hxs, h⟩ := h
    split at h
    swap
    · exact absurd h (by simp)
    simp only [Res.pure_eq, Res.ok.injEq] at h
    subst h
    have hi := idxOf_ok hi
    have hil := lt_of_some hi
    have hzip : (List.zip s.edges.units s.edges.ids)[i]? =
        some (s.edges.units[i]'(by rw [← hc.len]; exact hil), src.id) := by
      rw [List.getElem?_zip_eq_some]
      exact ⟨List.getElem?_eq_getElem _, hi⟩
    have hren : metricsOf (s.edges.cats.map (renamed src dst)) = (metricsOf s.edges.cats).map fun p =>
        if p.2 = src.id then (dst.unit, dst.id) else p := by
      unfold metricsOf
      clear * -
      induction s.edges.cats with
      | nil => rfl
      | cons c cs ih =>
        cases c with
        | info i id => simpa [renamed, List.filterMap_cons] using ih
        | metric u id =>
          by_cases h : id = src.id <;> simp [renamed, h] <;> simpa using ih
        | ignored => simpa [renamed, List.filterMap_cons] using ih
    -- no other category has the old id
    have hsrc : ∀ c ∈ s.edges.cats, c.id? = some src.id → ∃ u, c = .metric u src.id := by
      intro c hcm hcid
      have hm : (s.edges.units[i]'(by rw [← hc.len]; exact hil), src.id) ∈ metricsOf s.edges.cats := by
        rw [← hc.metrics]
        exact List.mem_of_getElem? hzip
      unfold metricsOf at hm
      obtain ⟨d, hd, hd'⟩ := List.mem_filterMap.mp hm
      have hdm : ∃ u, d = .metric u src.id := by
        cases d with
        | info _ _ => exact absurd hd' (by simp)
        | metric u id =>
          simp only [Option.some.injEq, Prod.mk.injEq] at hd'
          exact ⟨u, by rw [hd'.2]⟩
        | ignored => exact absurd hd' (by simp)
      obtain ⟨u, rfl⟩ := hdm
      refine ⟨u, ?_⟩
      -- both are the same category because ids are unique
      clear * - hu hcm hcid hd
      unfold UniqueIds at hu
      generalize s.edges.cats = cs at hu hcm hd
      induction cs with
      | nil => exact absurd hcm (by simp)
      | cons x xs ih =>
        have hu' : (xs.filterMap EdgeCat.id?).Nodup := by
          cases hx : x.id? with
          | none => rwa [List.filterMap_cons_none hx] at hu
          | some id => rw [List.filterMap_cons_some hx, List.nodup_cons] at hu; exact hu.2
        rcases List.mem_cons.mp hcm with rfl | h1 <;> rcases List.mem_cons.mp hd with h2 | h2
        · exact h2.symm
        · rw [List.filterMap_cons_some hcid, List.nodup_cons] at hu
          exact absurd (List.mem_filterMap (f := EdgeCat.id?).mpr ⟨_, h2, rfl⟩) hu.1
        · subst h2
          rw [List.filterMap_cons_some (show EdgeCat.id? (.metric u src.id) = some src.id from rfl),
            List.nodup_cons] at hu
          exact absurd (List.mem_filterMap.mpr ⟨_, h1, hcid⟩) hu.1
        · exact ih hu' h1 h2
    have hidr : (s.edges.cats.map (renamed src dst)).filterMap EdgeCat.id? =
        (s.edges.cats.filterMap EdgeCat.id?).map fun id => if id = src.id then dst.id else id := by
      clear * - hsrc
      generalize s.edges.cats = cs at hsrc
      induction cs with
      | nil => rfl
      | cons x xs ih =>
        have ih := ih fun c hc => hsrc c (by simp [hc])
        have hx := hsrc x (by simp)
        cases x with
        | info i id =>
          have : id ≠ src.id := by
            rintro rfl
            obtain ⟨u, hu⟩ := hx rfl
            exact absurd hu (by simp)
          simpa [renamed, EdgeCat.id?, this] using ih
        | metric u id =>
          by_cases h : id = src.id <;> simpa [renamed, EdgeCat.id?, h] using ih
        | ignored => simpa [renamed, EdgeCat.id?, List.filterMap_cons] using ih
    refine ⟨⟨?_, ?_, ?_, ?_⟩, ?_⟩
    · dsimp only
      rw [hren, ← hc.metrics]
      have := map_replace Prod.snd (l := List.zip s.edges.units s.edges.ids)
        (by rw [List.map_snd_zip hc.len.le]; exact hids) hzip (dst.unit, dst.id)
      dsimp only at this
      rw [this]
      apply List.ext_getElem?
      intro j
      rw [List.getElem?_set]
      by_cases hij : i = j
      · subst hij
        rw [if_pos rfl, if_pos (by simpa [hc.len] using hil), List.getElem?_zip_eq_some]
        have : i < s.edges.units.length := by rw [← hc.len]; exact hil
        simp [this, hil]
      · rw [if_neg hij]
        unfold List.zip
        rw [List.getElem?_zipWith, List.getElem?_zipWith, List.getElem?_set_ne hij, List.getElem?_set_ne hij]
    · simp [hc.len]
    · simp [hc.dim]
    · intro m hm
      obtain ⟨m', hm', x, -, rfl⟩ := mem_setAll hm
      simp [hc.values m' hm']
    · dsimp only
      rw [hidr]
      by_cases hsd : src.id = dst.id
      · have : introduces (.convert src dst) = none := by simp [introduces, hsd]
        rw [this] at hn
        have e : (fun id => if id = src.id then dst.id else id) = (id : Text → Text) := by
          funext id
          by_cases h : id = src.id
          · simp [h, hsd]
          · simp [h]
        rw [e, List.map_id]
        simpa using hn
      · have : introduces (.convert src dst) = some dst.id := by simp [introduces, hsd]
        rw [this] at hn
        simp only [Option.toList_some, List.singleton_append, List.nodup_append, List.nodup_cons,
          List.mem_cons] at hn ⊢
        obtain ⟨h1, ⟨h2, h3⟩, h4⟩ := hn
        refine ⟨?_, h3, ?_⟩
        · refine (List.nodup_map_iff_inj_on h1).mpr ?_
          intro x hx y hy hxy
          by_cases hxs : x = src.id <;> by_cases hys : y = src.id
          · rw [hxs, hys]
          · rw [if_pos hxs, if_neg hys] at hxy
            exact absurd rfl (h4 y hy dst.id (.inl rfl) |> fun hne => by rw [← hxy] at hne; exact hne)
          · rw [if_neg hxs, if_pos hys] at hxy
            exact absurd hxy (h4 x hx dst.id (.inl rfl))
          · rwa [if_neg hxs, if_neg hys] at hxy
        · intro a ha b hb
          obtain ⟨x, hx, rfl⟩ := List.mem_map.mp ha
          by_cases hxs : x = src.id
          · rw [if_pos hxs]
            rintro rfl
            exact h2 hb
          · rw [if_neg hxs]
            exact h4 x hx b (.inr hb)

end Verif.Gen
