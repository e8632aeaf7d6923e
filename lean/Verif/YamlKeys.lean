import Verif.YamlLemmas

/-!
# Lemmas: the keys of sections
-/

namespace Verif.Yml

open Cfg

instance (ps : List (List String)) (p : List Text) : Decidable (OneOf ps p) :=
  inferInstanceAs (Decidable (p ∈ ps.map fun q => q.map String.toList))

theorem oneOf_step {sub big : List (List String)} {k : String} (h : ∀ q ∈ sub, k :: q ∈ big) {p : List Text}
    (hp : OneOf sub p) : OneOf big (k.toList :: p) := by
  obtain ⟨q, hq, rfl⟩ := List.mem_map.mp hp
  exact List.mem_map.mpr ⟨k :: q, h q hq, rfl⟩

variable (N : Numbers)

theorem keys_multiCh (buf : Bool) : Keys (multiChContent N buf) (OneOf multiChKeys) := by
  refine keys_closed (by decide +kernel) ?_
  intro es a h k hk v hv p hp
  simp only [Option.bind_eq_bind, Option.bind_eq_some_iff] at h
  obtain ⟨_, h1, _, h2, _, h3, _, h4, _, h5, _, h6, _, h7, _, h8, _, h9, -⟩ := h
  simp only [List.mem_cons, List.not_mem_nil, or_false] at hk
  rcases hk with rfl | rfl | rfl | rfl | rfl | rfl | rfl | rfl | rfl
  · exact ((keys_text N buf fun _ => False).req h1 hv hp).elim
  · exact ((keys_text N buf fun _ => False).req h2 hv hp).elim
  · exact ((keys_nat N fun _ => False).req h3 hv hp).elim
  · exact ((keys_num N fun _ => False).opt h4 hv hp).elim
  · exact ((keys_num N fun _ => False).opt h5 hv hp).elim
  · exact ((keys_text N buf fun _ => False).opt h6 hv hp).elim
  · exact ((keys_nat N fun _ => False).opt h7 hv hp).elim
  · exact ((keys_bool N fun _ => False).req h8 hv hp).elim
  · exact ((keys_bool N fun _ => False).req h9 hv hp).elim

theorem keys_column (buf : Bool) : Keys (column N buf) (OneOf columnKeys) := by
  refine keys_firstOf ?_
  intro d hd
  simp only [List.mem_cons, List.not_mem_nil, or_false] at hd
  rcases hd with rfl | rfl
  · exact keys_variant (by decide +kernel) ((keys_text N buf _).map some)
  · exact keys_names (by decide +kernel)

theorem keys_edgesInfo (buf : Bool) : Keys (edgesInfoContent N buf) (OneOf edgesInfoKeys) := by
  refine keys_closed (by decide +kernel) ?_
  intro es a h k hk v hv p hp
  simp only [Option.bind_eq_bind, Option.bind_eq_some_iff] at h
  obtain ⟨_, h1, _, h2, _, h3, _, h4, -⟩ := h
  simp only [List.mem_cons, List.not_mem_nil, or_false] at hk
  rcases hk with rfl | rfl | rfl | rfl
  · exact ((keys_text N buf fun _ => False).req h1 hv hp).elim
  · exact ((keys_bool N fun _ => False).opt h2 hv hp).elim
  · exact ((keys_bool N fun _ => False).opt h3 hv hp).elim
  · exact oneOf_step (by decide) ((keys_column N buf).vec.req h4 hv hp)

theorem keys_graph : Keys (graphContent N) (OneOf graphKeys) := by
  have hE : ∀ file, Keys (graphEdges N file)
      (OneOf ([["with_shortcuts"], ["will_denormalize_metrics_by_mean"]] ++ below "ids" columnKeys)) := by
    intro file
    refine keys_closed (by decide +kernel) ?_
    intro es a h k hk v hv p hp
    simp only [Option.bind_eq_bind, Option.bind_eq_some_iff] at h
    obtain ⟨_, h1, _, h2, _, h3, -⟩ := h
    simp only [List.mem_cons, List.not_mem_nil, or_false] at hk
    rcases hk with rfl | rfl | rfl
    · exact ((keys_bool N fun _ => False).opt h1 hv hp).elim
    · exact ((keys_bool N fun _ => False).opt h2 hv hp).elim
    · exact oneOf_step (by decide) ((keys_column N false).vec.req h3 hv hp)
  refine keys_closed (by decide +kernel) ?_
  intro es a h k hk v hv p hp
  simp only [Option.bind_eq_bind, Option.bind_eq_some_iff] at h
  obtain ⟨_, h1, _, h2, _, h3, -⟩ := h
  simp only [List.mem_cons, List.not_mem_nil, or_false] at hk
  rcases hk with rfl | rfl | rfl
  · exact ((keys_text N false fun _ => False).req h1 hv hp).elim
  · exact oneOf_step (by decide) ((keys_column N false).vec.req h2 hv hp)
  · exact oneOf_step (by decide) ((hE _).req h3 hv hp)

theorem keys_monitoring : Keys (monitoring N) (OneOf monitoringKeys) := by
  refine keys_closed (by decide +kernel) ?_
  intro es a h k hk v hv p hp
  simp only [Option.bind_eq_bind, Option.bind_eq_some_iff] at h
  obtain ⟨_, h1, _, h2, -⟩ := h
  simp only [List.mem_cons, List.not_mem_nil, or_false] at hk
  rcases hk with rfl | rfl
  · exact oneOf_step (by decide) ((keys_edgesInfo N true).req h1 hv hp)
  · exact ((keys_bool N fun _ => False).opt h2 hv hp).elim

theorem keys_method : Keys (method N) (OneOf ([["averaging"]] ++ below "explicit_euler" [["correction"]])) := by
  refine keys_firstOf ?_
  intro d hd
  simp only [List.mem_cons, List.not_mem_nil, or_false] at hd
  rcases hd with rfl | rfl
  · refine keys_variant (by decide +kernel) ?_
    refine keys_closed (by decide +kernel) ?_
    intro es a h k hk v hv p hp
    obtain ⟨_, h1, -⟩ := Option.map_eq_some_iff.mp h
    simp only [List.mem_cons, List.not_mem_nil, or_false] at hk
    subst hk
    exact ((keys_num N fun _ => False).req h1 hv hp).elim
  · exact keys_names (by decide +kernel)

theorem keys_optimization :
    Keys (optimization N) (OneOf ([["metric-id"]] ++ below "method" ([["averaging"]] ++ below "explicit_euler" [["correction"]]))) := by
  refine keys_closed (by decide +kernel) ?_
  intro es a h k hk v hv p hp
  simp only [Option.bind_eq_bind, Option.bind_eq_some_iff] at h
  obtain ⟨_, h1, _, h2, -⟩ := h
  simp only [List.mem_cons, List.not_mem_nil, or_false] at hk
  rcases hk with rfl | rfl
  · exact ((keys_text N false fun _ => False).req h1 hv hp).elim
  · exact oneOf_step (by decide) ((keys_method N).req h2 hv hp)

theorem keys_balancing : Keys (balancingContent N) (OneOf balancingKeys) := by
  refine keys_closed (by decide +kernel) ?_
  intro es a h k hk v hv p hp
  simp only [Option.bind_eq_bind, Option.bind_eq_some_iff] at h
  obtain ⟨_, h1, _, h2, _, h3, _, h4, _, h5, _, h6, _, h7, _, h8, _, h9, _, h10, _, h11, -⟩ := h
  simp only [List.mem_cons, List.not_mem_nil, or_false] at hk
  rcases hk with rfl | rfl | rfl | rfl | rfl | rfl | rfl | rfl | rfl | rfl | rfl
  · exact ((keys_nat N fun _ => False).opt h1 hv hp).elim
  · exact ((keys_text N false fun _ => False).req h2 hv hp).elim
  · exact ((keys_text N false fun _ => False).req h3 hv hp).elim
  · exact ((keys_text N false fun _ => False).req h4 hv hp).elim
  · exact oneOf_step (by decide) ((keys_multiCh N true).req h5 hv hp)
  · exact ((keys_nat N fun _ => False).req h6 hv hp).elim
  · exact oneOf_step (by decide) ((keys_monitoring N).req h7 hv hp)
  · exact oneOf_step (by decide) ((keys_optimization N).req h8 hv hp)
  · exact ((keys_nat N fun _ => False).opt h9 hv hp).elim
  · exact ((keys_num N fun _ => False).opt h10 hv hp).elim
  · exact ((keys_bool N fun _ => False).opt h11 hv hp).elim

theorem keys_evaluating : Keys (evaluatingContent N) (OneOf evaluatingKeys) := by
  refine keys_closed (by decide +kernel) ?_
  intro es a h k hk v hv p hp
  simp only [Option.bind_eq_bind, Option.bind_eq_some_iff] at h
  obtain ⟨_, h1, _, h2, _, h3, _, h4, -⟩ := h
  simp only [List.mem_cons, List.not_mem_nil, or_false] at hk
  rcases hk with rfl | rfl | rfl | rfl
  · exact ((keys_nat N fun _ => False).opt h1 hv hp).elim
  · exact ((keys_text N false fun _ => False).req h2 hv hp).elim
  · exact oneOf_step (by decide) ((keys_monitoring N).req h3 hv hp)
  · exact ((keys_nat N fun _ => False).opt h4 hv hp).elim

theorem keys_algo : Keys (algo N)
    (OneOf ([["Dijkstra"], ["CHDijkstra"]] ++ below "Explorator" (below "algo" [["Dijkstra"], ["CHDijkstra"]]))) := by
  refine keys_firstOf ?_
  intro d hd
  simp only [List.mem_cons, List.not_mem_nil, or_false] at hd
  rcases hd with rfl | rfl
  · exact keys_names (by decide +kernel)
  · refine keys_variant (by decide +kernel) ?_
    refine keys_closed (by decide +kernel) ?_
    intro es a h k hk v hv p hp
    obtain ⟨_, h1, -⟩ := Option.map_eq_some_iff.mp h
    simp only [List.mem_cons, List.not_mem_nil, or_false] at hk
    subst hk
    have : Keys (exploratorAlgo N) (OneOf [["Dijkstra"], ["CHDijkstra"]]) := keys_names (by decide +kernel)
    have := oneOf_step (big := below "algo" [["Dijkstra"], ["CHDijkstra"]]) (k := "algo") (by decide) (this.req h1 hv hp)
    exact oneOf_step (k := "Explorator") (by decide) this

theorem keys_entry : Keys (entry N) (OneOf [["id"], ["alpha"], ["tolerated-scale"]]) := by
  have : Keys (rawEntry N) (OneOf [["id"], ["alpha"], ["tolerated-scale"]]) := by
    refine keys_closed (by decide +kernel) ?_
    intro es a h k hk v hv p hp
    simp only [Option.bind_eq_bind, Option.bind_eq_some_iff] at h
    obtain ⟨_, h1, _, h2, _, h3, -⟩ := h
    simp only [List.mem_cons, List.not_mem_nil, or_false] at hk
    rcases hk with rfl | rfl | rfl
    · exact ((keys_text N false fun _ => False).req h1 hv hp).elim
    · exact ((keys_num N fun _ => False).opt h2 hv hp).elim
    · exact ((keys_text N false fun _ => False).opt h3 hv hp).elim
  intro y a p h hp
  obtain ⟨r, hr, -⟩ := Option.bind_eq_some_iff.mp h
  exact this y r p hr hp

theorem keys_routing : Keys (routingContent N) (OneOf routingKeys) := by
  refine keys_closed (by decide +kernel) ?_
  intro es a h k hk v hv p hp
  simp only [Option.bind_eq_bind, Option.bind_eq_some_iff] at h
  obtain ⟨_, h1, _, h2, _, h3, -⟩ := h
  simp only [List.mem_cons, List.not_mem_nil, or_false] at hk
  rcases hk with rfl | rfl | rfl
  · exact ((keys_text N false fun _ => False).opt h1 hv hp).elim
  · exact oneOf_step (by decide) ((keys_algo N).req h2 hv hp)
  · exact oneOf_step (by decide) ((keys_entry N).vec.req h3 hv hp)

/-! ## Without the elements of lists -/

/-- If reading succeeds, all paths of keys that don't pass a list are fine. -/
def MapKeys {α : Type} (d : Dec α) (P : List Text → Prop) : Prop :=
  ∀ (y : Yaml) (a : α) (p : List Text), d y = some a → HasMapPath y p → P p

theorem HasMapPath.toPath {y : Yaml} {p : List Text} (h : HasMapPath y p) : HasPath y p := by
  induction h with
  | here hm => exact .here hm
  | key hm _ ih => exact .key hm ih

theorem Keys.mapKeys {α : Type} {d : Dec α} {P : List Text → Prop} (h : Keys d P) : MapKeys d P :=
  fun y a p h1 h2 => h y a p h1 h2.toPath

theorem mapKeys_vec {α : Type} (d : Dec α) (P : List Text → Prop) : MapKeys (vec d) P := by
  intro y a p h hp
  cases y with
  | scalar q t => cases hp
  | seq ys => cases hp
  | map es => cases h

theorem mapKeys_closed {α : Type} {known : List String} {f : Entries → Option α} {P : List Text → Prop}
    (h1 : ∀ k ∈ known, P [k.toList])
    (h2 : ∀ es a, f es = some a → ∀ k ∈ known, ∀ v, (k.toList, v) ∈ es → ∀ p, HasMapPath v p → P (k.toList :: p)) :
    MapKeys (closed known f) P := by
  intro y a p h hp
  cases y with
  | scalar q t => cases h
  | seq ys => cases h
  | map es =>
    simp only [closed] at h
    split at h
    · rename_i hall
      rw [List.all_eq_true] at hall
      have hk : ∀ k v, (k, v) ∈ es → ∃ k' ∈ known, k = k'.toList := by
        intro k v hkv
        have := hall _ hkv
        simpa using this
      cases hp with
      | here hm =>
        obtain ⟨k', hk', rfl⟩ := hk _ _ hm
        exact h1 _ hk'
      | key hm hp =>
        obtain ⟨k', hk', rfl⟩ := hk _ _ hm
        exact h2 es a h _ hk' _ hm _ hp
    · exact absurd h (by simp)

theorem MapKeys.req {α : Type} {d : Dec α} {P : List Text → Prop} (h : MapKeys d P) {k : String} {es : Entries} {a : α}
    (hr : req k d es = some a) {v : Yaml} (hv : (k.toList, v) ∈ es) {p : List Text} (hp : HasMapPath v p) : P p :=
  h v a p (req_mem hr hv) hp

theorem MapKeys.opt {α : Type} {d : Dec α} {P : List Text → Prop} (h : MapKeys d P) {k : String} {es : Entries}
    {a : Option α} (hr : opt k d es = some a) {v : Yaml} (hv : (k.toList, v) ∈ es) {p : List Text}
    (hp : HasMapPath v p) : P p := by
  have h1 := opt_mem hr hv
  cases v with
  | scalar q t => cases hp
  | seq ys =>
    obtain ⟨b, hb, -⟩ := Option.map_eq_some_iff.mp h1
    exact h _ b p hb hp
  | map es =>
    obtain ⟨b, hb, -⟩ := Option.map_eq_some_iff.mp h1
    exact h _ b p hb hp

theorem mapKeys_parsing (lines : Text → Option (List Text)) :
    MapKeys (parsingContent N lines) (OneOf (parsingMapKeys ++ vehicleNames)) := by
  have hV : Keys (vehicles N) (OneOf [["category"], ["are_drivers_picky"], ["category", "Car"], ["category", "Bicycle"],
      ["category", "Pedestrian"]]) := by
    refine keys_closed (by decide +kernel) ?_
    intro es a h k hk v hv p hp
    simp only [Option.bind_eq_bind, Option.bind_eq_some_iff] at h
    obtain ⟨_, h1, _, h2, -⟩ := h
    simp only [List.mem_cons, List.not_mem_nil, or_false] at hk
    rcases hk with rfl | rfl
    · have : Keys (vehicle N) (OneOf [["Car"], ["Bicycle"], ["Pedestrian"]]) := keys_names (by decide +kernel)
      exact oneOf_step (by decide) (this.req h1 hv hp)
    · exact ((keys_bool N fun _ => False).req h2 hv hp).elim
  have hE : MapKeys (edgesContent N) (OneOf [["will_normalize_metrics_by_mean"], ["data"]]) := by
    refine mapKeys_closed (by decide +kernel) ?_
    intro es a h k hk v hv p hp
    simp only [Option.bind_eq_bind, Option.bind_eq_some_iff] at h
    obtain ⟨_, h1, _, h2, -⟩ := h
    simp only [List.mem_cons, List.not_mem_nil, or_false] at hk
    rcases hk with rfl | rfl
    · exact ((keys_bool N fun _ => False).mapKeys.opt h1 hv hp).elim
    · exact ((mapKeys_vec (edgeCat N) fun _ => False).req h2 hv hp).elim
  have hG : MapKeys (generating N lines) (OneOf [["nodes"], ["edges"]]) := by
    refine mapKeys_closed (by decide +kernel) ?_
    intro es a h k hk v hv p hp
    simp only [Option.bind_eq_bind, Option.bind_eq_some_iff] at h
    obtain ⟨_, h1, _, h2, -⟩ := h
    simp only [List.mem_cons, List.not_mem_nil, or_false] at hk
    rcases hk with rfl | rfl
    · exact ((mapKeys_vec (genNode N) fun _ => False).req h1 hv hp).elim
    · exact ((mapKeys_vec (genEdge N lines) fun _ => False).req h2 hv hp).elim
  refine mapKeys_closed (by decide +kernel) ?_
  intro es a h k hk v hv p hp
  simp only [Option.bind_eq_bind, Option.bind_eq_some_iff] at h
  obtain ⟨_, h1, _, h2, _, h3, _, h4, _, h5, -⟩ := h
  simp only [List.mem_cons, List.not_mem_nil, or_false] at hk
  rcases hk with rfl | rfl | rfl | rfl | rfl
  · exact ((keys_text N false fun _ => False).mapKeys.req h1 hv hp).elim
  · exact oneOf_step (by decide) (hV.mapKeys.opt h2 hv hp)
  · exact ((mapKeys_vec (nodeCat N) fun _ => False).req h3 hv hp).elim
  · exact oneOf_step (by decide) (hE.req h4 hv hp)
  · exact oneOf_step (by decide) (hG.opt h5 hv hp)

theorem path_ne_nil {y : Yaml} {p : List Text} (h : HasPath y p) : p ≠ [] := by
  induction h with
  | here => simp
  | key => simp
  | item _ _ ih => exact ih

/-- The keys of the section itself. -/
theorem keys_routePairs_top (y : Yaml) (a : RoutePairs) (k : Text) (h : routePairsContent N y = some a)
    (hp : HasPath y [k]) : OneOf [["file"], ["random_or_all"]] [k] := by
  cases y with
  | scalar q t => cases h
  | seq ys => cases h
  | map es =>
    simp only [routePairsContent, closed] at h
    split at h
    · rename_i hall
      rw [List.all_eq_true] at hall
      cases hp with
      | here hm =>
        have := hall _ hm
        simp only [List.any_cons, List.any_nil, Bool.or_false, Bool.or_eq_true, decide_eq_true_eq] at this
        rcases this with rfl | rfl <;> decide +kernel
      | key hm hp => exact absurd rfl (path_ne_nil hp)
    · exact absurd h (by simp)

end Verif.Yml
