import Verif.CmdlineSpec

/-!
# C105: the command line
-/

namespace Verif.Cmd

open Text

/-! ### Lemmas -/

/-- The flag of a part. -/
def Item.flag? : Item → Option Flag
  | .graph => some .graph
  | .edges => some .edges
  | .routePairs => some .routePairs
  | .routing => some .routing
  | .balancing => some .balancing
  | .evaluating => some .evaluating
  | _ => none

/-- The part of a flag. -/
def ofFlag : Flag → Item
  | .graph => .graph
  | .edges => .edges
  | .routePairs => .routePairs
  | .routing => .routing
  | .balancing => .balancing
  | .evaluating => .evaluating

theorem flag_iff (i : Item) (f : Flag) : i.flag? = some f ↔ i = ofFlag f := by
  cases i <;> cases f <;> simp [Item.flag?, ofFlag]

theorem ofFlag_words (f : Flag) : (ofFlag f).words = [flagName f] := by cases f <;> rfl

theorem flagOf_name (f : Flag) : flagOf (flagName f) = some f := by cases f <;> decide

theorem optOf_name (f : Flag) : optOf (flagName f) = none := by cases f <;> decide

theorem flagOf_some {a : Text} {f : Flag} (h : flagOf a = some f) : a = flagName f := by
  have := List.find?_some h
  exact (of_decide_eq_true this).symm

theorem optOf_log {a : Text} : optOf a = some .log ↔ a ∈ ["--log".toList, "-l".toList] := by
  unfold optOf
  constructor
  · intro h
    split at h
    · rename_i h1
      simpa using h1
    · split at h <;> cases h
  · intro h
    rw [if_pos (by simpa using h)]

theorem optOf_cfg {a : Text} : optOf a = some .cfg ↔ a ∈ ["--config".toList, "--parsing".toList, "-c".toList] := by
  constructor
  · unfold optOf
    intro h
    split at h
    · cases h
    · split at h
      · rename_i h1
        rcases h1 with h1 | h1 | h1 <;> simp [h1]
      · cases h
  · intro h
    simp only [List.mem_cons, List.not_mem_nil, or_false] at h
    rcases h with rfl | rfl | rfl <;> decide

theorem isLevel_iff (v : Text) : isLevel v = true ↔
    lower v ∈ ["trace".toList, "debug".toList, "info".toList, "warn".toList, "error".toList] := by
  unfold isLevel
  exact List.contains_iff_mem

theorem level_head {v : Text} (h : isLevel v = true) : v.head? ≠ some '-' := by
  rw [isLevel_iff] at h
  cases v with
  | nil => simp
  | cons c t =>
    intro hc
    have hc' : c = '-' := by simpa using hc
    subst hc'
    have h1 : (lower ('-' :: t)).head? = some '-' := by
      show some (lowerChar '-') = some '-'
      decide
    have h2 : ∀ x ∈ ["trace".toList, "debug".toList, "info".toList, "warn".toList, "error".toList],
        x.head? ≠ some '-' := by decide
    exact h2 _ h h1

/-- Reading one part. -/
def step (s : Seen) : Item → Option Seen
  | .config _ v => if s.cfg.isSome then none else some { s with cfg := some v }
  | .log _ v => if s.log.isSome then none else some { s with log := some v }
  | i => match i.flag? with
    | some f => if f ∈ s.flags then none else some { s with flags := s.flags ++ [f] }
    | none => none

theorem step_flag (s : Seen) (f : Flag) :
    step s (ofFlag f) = if f ∈ s.flags then none else some { s with flags := s.flags ++ [f] } := by
  cases f <;> rfl

theorem item_cases (i : Item) : (∃ f, i = ofFlag f) ∨ (∃ k v, i = .config k v) ∨ ∃ k v, i = .log k v := by
  cases i with
  | config k v => exact .inr (.inl ⟨k, v, rfl⟩)
  | log k v => exact .inr (.inr ⟨k, v, rfl⟩)
  | graph => exact .inl ⟨.graph, rfl⟩
  | edges => exact .inl ⟨.edges, rfl⟩
  | routePairs => exact .inl ⟨.routePairs, rfl⟩
  | routing => exact .inl ⟨.routing, rfl⟩
  | balancing => exact .inl ⟨.balancing, rfl⟩
  | evaluating => exact .inl ⟨.evaluating, rfl⟩

theorem fine_flag (f : Flag) : (ofFlag f).Fine := by cases f <;> exact trivial

theorem go_item {s : Seen} {i : Item} (hi : i.Fine) (rest : List Text) :
    go s (i.words ++ rest) = (step s i).bind fun s => go s rest := by
  rcases item_cases i with ⟨f, rfl⟩ | ⟨k, v, rfl⟩ | ⟨k, v, rfl⟩
  · rw [ofFlag_words, step_flag, List.singleton_append, go, optOf_name, flagOf_name]
    dsimp only
    split <;> rfl
  · obtain ⟨h1, h2⟩ := hi
    show go s (k :: v :: rest) = _
    rw [go, optOf_cfg.mpr h1]
    dsimp only
    rw [if_neg h2]
    unfold step
    split <;> rfl
  · obtain ⟨h1, h2⟩ := hi
    have h2' := (isLevel_iff v).mpr h2
    show go s (k :: v :: rest) = _
    rw [go, optOf_log.mpr h1]
    dsimp only
    rw [if_neg (level_head h2')]
    unfold step
    simp only [h2', Bool.not_true, Bool.false_eq_true, or_false]
    split <;> rfl

theorem go_items {items : List Item} (hi : ∀ i ∈ items, i.Fine) (s : Seen) :
    go s (items.flatMap Item.words) = items.foldlM step s := by
  induction items generalizing s with
  | nil => rfl
  | cons i items ih =>
    rw [List.flatMap_cons, go_item (hi i (by simp)), List.foldlM_cons]
    cases step s i with
    | none => rfl
    | some s' => exact ih (fun j hj => hi j (by simp [hj])) s'

theorem go_some : ∀ (n : Nat) (s s' : Seen) (words : List Text), words.length ≤ n → go s words = some s' →
    ∃ items : List Item, (∀ i ∈ items, i.Fine) ∧ words = items.flatMap Item.words
  | _, s, s', [], _, _ => ⟨[], by simp, rfl⟩
  | 0, s, s', a :: rest, hn, _ => by simp at hn
  | n + 1, s, s', a :: rest, hn, h => by
    rw [go] at h
    cases ho : optOf a with
    | some o =>
      rw [ho] at h
      cases rest with
      | nil => cases h
      | cons v rest =>
        dsimp only at h
        split at h
        · cases h
        · rename_i hv
          have hlen : rest.length ≤ n := by
            rw [List.length_cons, List.length_cons] at hn
            omega
          cases o with
          | log =>
            dsimp only at h
            split at h
            · cases h
            · rename_i h1
              have h2 : isLevel v = true := by
                by_contra h2
                exact h1 (.inr (by simp [h2]))
              obtain ⟨items, h3, h4⟩ := go_some n _ s' rest hlen h
              refine ⟨.log a v :: items, ?_, by rw [List.flatMap_cons, ← h4]; rfl⟩
              intro i hi
              rcases List.mem_cons.mp hi with rfl | hi
              · exact ⟨optOf_log.mp ho, (isLevel_iff v).mp h2⟩
              · exact h3 i hi
          | cfg =>
            dsimp only at h
            split at h
            · cases h
            · obtain ⟨items, h3, h4⟩ := go_some n _ s' rest hlen h
              refine ⟨.config a v :: items, ?_, by rw [List.flatMap_cons, ← h4]; rfl⟩
              intro i hi
              rcases List.mem_cons.mp hi with rfl | hi
              · exact ⟨optOf_cfg.mp ho, hv⟩
              · exact h3 i hi
    | none =>
      rw [ho] at h
      dsimp only at h
      cases hf : flagOf a with
      | none => rw [hf] at h; cases h
      | some f =>
        rw [hf] at h
        dsimp only at h
        split at h
        · cases h
        · obtain ⟨items, h3, h4⟩ := go_some n _ s' rest (by rw [List.length_cons] at hn; omega) h
          refine ⟨ofFlag f :: items, ?_, by
            rw [List.flatMap_cons, ← h4, ofFlag_words, flagOf_some hf]; rfl⟩
          intro i hi
          rcases List.mem_cons.mp hi with rfl | hi
          · exact fine_flag f
          · exact h3 i hi

theorem steps_iff (items : List Item) (s s' : Seen) (hs : s.flags.Nodup) : items.foldlM step s = some s' ↔
    s.cfg.toList ++ items.filterMap Item.config? = s'.cfg.toList ∧
    s.log.toList ++ items.filterMap Item.log? = s'.log.toList ∧
    s'.flags = s.flags ++ items.filterMap Item.flag? ∧ s'.flags.Nodup := by
  induction items generalizing s with
  | nil =>
    simp only [List.foldlM_nil, List.filterMap_nil, List.append_nil]
    constructor
    · intro h
      cases h
      exact ⟨rfl, rfl, rfl, hs⟩
    · rintro ⟨h1, h2, h3, -⟩
      have e1 : s.cfg = s'.cfg := by
        cases hc : s.cfg <;> cases hc' : s'.cfg <;> simp_all
      have e2 : s.log = s'.log := by
        cases hc : s.log <;> cases hc' : s'.log <;> simp_all
      cases s
      cases s'
      simp_all
  | cons i items ih =>
    rw [List.foldlM_cons]
    rcases item_cases i with ⟨f, rfl⟩ | ⟨k, v, rfl⟩ | ⟨k, v, rfl⟩
    · rw [step_flag]
      have e1 : (ofFlag f).config? = none := by cases f <;> rfl
      have e2 : (ofFlag f).log? = none := by cases f <;> rfl
      have e3 : (ofFlag f).flag? = some f := (flag_iff _ _).mpr rfl
      rw [List.filterMap_cons_none e1, List.filterMap_cons_none e2, List.filterMap_cons_some e3]
      split
      · rename_i hf
        constructor
        · intro h
          cases h
        · rintro ⟨-, -, h3, h4⟩
          rw [h3, List.nodup_append] at h4
          exact absurd rfl (h4.2.2 f hf f (by simp))
      · rename_i hf
        show items.foldlM step _ = some s' ↔ _
        rw [ih _ (by simp [List.nodup_append, hs]; exact fun a ha e => hf (e ▸ ha))]
        simp [List.append_assoc]
    · show (step s (.config k v)).bind (fun s => items.foldlM step s) = some s' ↔ _
      have e : step s (.config k v) = if s.cfg.isSome then none else some { s with cfg := some v } := rfl
      rw [e]
      have e1 : Item.config? (.config k v) = some v := rfl
      cases hc : s.cfg with
      | some w =>
        simp only [Option.isSome_some, if_true, Option.bind_none, Option.toList_some]
        constructor
        · intro h
          cases h
        · rintro ⟨h1, -⟩
          have := congrArg List.length h1
          rw [List.filterMap_cons_some e1, List.length_append, List.length_cons, List.length_cons] at this
          cases hc' : s'.cfg <;> rw [hc'] at this <;> simp at this
      | none =>
        simp only [Option.isSome_none, Bool.false_eq_true, if_false, Option.bind_some]
        have e2 : Item.log? (.config k v) = none := rfl
        have e3 : Item.flag? (.config k v) = none := rfl
        rw [ih { s with cfg := some v } hs, List.filterMap_cons_some e1, List.filterMap_cons_none e2,
          List.filterMap_cons_none e3]
        rfl
    · show (step s (.log k v)).bind (fun s => items.foldlM step s) = some s' ↔ _
      have e : step s (.log k v) = if s.log.isSome then none else some { s with log := some v } := rfl
      rw [e]
      have e1 : Item.log? (.log k v) = some v := rfl
      cases hc : s.log with
      | some w =>
        simp only [Option.isSome_some, if_true, Option.bind_none, Option.toList_some]
        constructor
        · intro h
          cases h
        · rintro ⟨-, h1, -⟩
          have := congrArg List.length h1
          rw [List.filterMap_cons_some e1, List.length_append, List.length_cons, List.length_cons] at this
          cases hc' : s'.log <;> rw [hc'] at this <;> simp at this
      | none =>
        simp only [Option.isSome_none, Bool.false_eq_true, if_false, Option.bind_some]
        have e2 : Item.config? (.log k v) = none := rfl
        have e3 : Item.flag? (.log k v) = none := rfl
        rw [ih { s with log := some v } hs, List.filterMap_cons_some e1, List.filterMap_cons_none e2,
          List.filterMap_cons_none e3]
        rfl

theorem mem_flags (items : List Item) (f : Flag) : f ∈ items.filterMap Item.flag? ↔ ofFlag f ∈ items := by
  rw [List.mem_filterMap]
  constructor
  · rintro ⟨i, hi, h⟩
    exact (flag_iff i f).mp h ▸ hi
  · intro h
    exact ⟨_, h, (flag_iff _ _).mpr rfl⟩

theorem count_flags (items : List Item) (f : Flag) :
    (items.filterMap Item.flag?).count f = items.count (ofFlag f) := by
  induction items with
  | nil => rfl
  | cons i items ih =>
    rw [List.count_cons, ← ih]
    cases h : i.flag? with
    | none =>
      rw [List.filterMap_cons_none h]
      have : i ≠ ofFlag f := fun e => by
        rw [(flag_iff i f).mpr e] at h
        cases h
      simp [this]
    | some f' =>
      rw [List.filterMap_cons_some h, List.count_cons]
      obtain rfl := (flag_iff i f').mp h
      by_cases e : f' = f
      · simp [e]
      · have : ofFlag f' ≠ ofFlag f := fun e' => by
          have := (flag_iff (ofFlag f') f).mpr e'
          rw [h] at this
          exact e (Option.some.inj this)
        simp [e, this]

theorem nodup_flags (items : List Item) : (items.filterMap Item.flag?).Nodup ↔
    ∀ i, i.config? = none → i.log? = none → items.count i ≤ 1 := by
  rw [List.nodup_iff_count_le_one]
  constructor
  · intro h i h1 h2
    rcases item_cases i with ⟨f, rfl⟩ | ⟨k, v, rfl⟩ | ⟨k, v, rfl⟩
    · rw [← count_flags]
      exact h f
    · cases h1
    · cases h2
  · intro h f
    rw [count_flags]
    exact h (ofFlag f) (by cases f <;> rfl) (by cases f <;> rfl)

/-! ### Theorems -/

/-- C105: a command line is accepted exactly if it consists of the known parts: a config-file, maybe a level of logging,
and flags, nothing of it twice. Then exactly the tasks whose flags are given are asked for, in whatever order. Balancing
and evaluating need the feature `gpl`. -/
theorem C105_accepted_iff (gpl : Bool) (words : List Text) (c : Call) : parse gpl words = some c ↔
    ∃ items : List Item, words = items.flatMap Item.words ∧ Asks gpl items c := by
  have hnil : ([] : List Flag).Nodup := List.nodup_nil
  constructor
  · intro h
    unfold parse at h
    cases hg : go { log := none, cfg := none, flags := [] } words with
    | none => rw [hg] at h; cases h
    | some s =>
      rw [hg] at h
      dsimp only at h
      cases hc : s.cfg with
      | none => rw [hc] at h; cases h
      | some cfg =>
        rw [hc] at h
        dsimp only at h
        split at h
        · cases h
        · rename_i hgpl
          obtain ⟨items, hfine, rfl⟩ := go_some _ _ _ _ le_rfl hg
          rw [go_items hfine, steps_iff _ _ _ hnil] at hg
          obtain ⟨h1, h2, h3, h4⟩ := hg
          simp only [Option.toList_none, List.nil_append] at h1 h2 h3
          refine ⟨items, rfl, ?_⟩
          have hm : ∀ f, f ∈ s.flags ↔ ofFlag f ∈ items := fun f => by rw [h3]; exact mem_flags items f
          cases h
          refine ⟨hfine, by rw [h1, hc]; rfl, ?_, (nodup_flags items).mp (h3 ▸ h4), ?_, ?_, ?_, ?_, ?_, ?_, ?_⟩
          · rw [h2]
            cases s.log with
            | none => exact .inl ⟨rfl, rfl⟩
            | some l => exact .inr rfl
          · exact decide_eq_true_iff.trans (hm .graph)
          · exact decide_eq_true_iff.trans (hm .edges)
          · exact decide_eq_true_iff.trans (hm .routePairs)
          · exact decide_eq_true_iff.trans (hm .routing)
          · exact decide_eq_true_iff.trans (hm .evaluating)
          · exact decide_eq_true_iff.trans (hm .balancing)
          · dsimp only
            intro h
            cases gpl with
            | true => rfl
            | false =>
              exfalso
              apply hgpl
              rcases h with h | h <;> simp [of_decide_eq_true h]
  · rintro ⟨items, rfl, ⟨hfine, hcfg, hlog, honce, k1, k2, k3, k4, k5, k6, k7⟩⟩
    have hnd := (nodup_flags items).mpr honce
    have hg : go { log := none, cfg := none, flags := [] } (items.flatMap Item.words) = some
        { log := (items.filterMap Item.log?).head?, cfg := some c.cfg, flags := items.filterMap Item.flag? } := by
      rw [go_items hfine, steps_iff _ _ _ hnil]
      refine ⟨by simpa using hcfg, ?_, rfl, hnd⟩
      rcases hlog with ⟨h, -⟩ | h <;> simp [h]
    unfold parse
    rw [hg]
    dsimp only
    have hd : ∀ (b : Bool) (f : Flag), (b = true ↔ ofFlag f ∈ items) → decide (f ∈ items.filterMap Item.flag?) = b := by
      intro b f h
      rw [Bool.eq_iff_iff, decide_eq_true_iff, mem_flags, h]
    rw [hd _ .graph k1, hd _ .edges k2, hd _ .routePairs k3, hd _ .routing k4, hd _ .evaluating k5, hd _ .balancing k6]
    rw [if_neg]
    · have : ((items.filterMap Item.log?).head?).getD "INFO".toList = c.log := by
        rcases hlog with ⟨h, h'⟩ | h
        · rw [h, h']; rfl
        · rw [h]; rfl
      rw [this]
    · intro h
      rw [Bool.and_eq_true, Bool.or_eq_true] at h
      have := k7 h.1.symm
      simp [this] at h

/-- C105: the order doesn't matter. -/
theorem C105_order {gpl : Bool} {items items' : List Item} {c : Call} (h : Asks gpl items c)
    (hp : items.Perm items') : parse gpl (items'.flatMap Item.words) = some c := by
  refine (C105_accepted_iff _ _ _).mpr ⟨items', rfl, ?_⟩
  have one : ∀ {l : List Text} {f : Item → Option Text} {x : Text}, items.filterMap f = [x] →
      items'.filterMap f = [x] := fun {l f x} h => by
    have := hp.filterMap f
    rw [h] at this
    exact List.perm_singleton.mp this.symm
  refine ⟨fun i hi => h.fine i (hp.mem_iff.mpr hi), one (l := []) h.config, ?_,
    fun i h1 h2 => by rw [← hp.count_eq]; exact h.once i h1 h2,
    h.graph.trans hp.mem_iff, h.edges.trans hp.mem_iff, h.routePairs.trans hp.mem_iff, h.routing.trans hp.mem_iff,
    h.evaluating.trans hp.mem_iff, h.balancing.trans hp.mem_iff, h.gpl⟩
  rcases h.log with ⟨h1, h2⟩ | h1
  · left
    have := hp.filterMap Item.log?
    rw [h1] at this
    exact ⟨List.perm_nil.mp this.symm, h2⟩
  · exact .inr (one (l := []) h1)

/-- No task. -/
def idle : Tool.Args :=
  { graph := false, edges := false, routePairs := false, routing := false, evaluating := false, balancing := false }

/-- C105: the commands of the readme (lines 79 and 97) and of the workflow (`.github/workflows/rust.yml:39-40`), with the
feature if it is given there. -/
theorem C105_documented :
    parse false ["--config".toList, "resources/isle_of_man_2020-03-14/osm.pbf.yaml".toList, "--routing".toList] = some
      { log := "INFO".toList, cfg := "resources/isle_of_man_2020-03-14/osm.pbf.yaml".toList,
        args := { idle with routing := true } } ∧
    parse true ["--config".toList, "resources/isle_of_man_2020-03-14/balancing/config.yaml".toList,
      "--balancing".toList] = some
      { log := "INFO".toList, cfg := "resources/isle_of_man_2020-03-14/balancing/config.yaml".toList,
        args := { idle with balancing := true } } ∧
    parse false ["--config".toList, "resources/isle_of_man_2020-03-14/osm.pbf.yaml".toList] = some
      { log := "INFO".toList, cfg := "resources/isle_of_man_2020-03-14/osm.pbf.yaml".toList, args := idle } := by
  refine ⟨?_, ?_, ?_⟩
  · refine (C105_accepted_iff _ _ _).mpr ⟨[.config "--config".toList _, .routing], rfl, ?_⟩
    refine ⟨by simp [Item.Fine], by simp [Item.config?], by simp [Item.log?], ?_, by simp [idle], by simp [idle],
      by simp [idle], by simp, by simp [idle], by simp [idle], by simp [idle]⟩
    intro i
    cases i <;> simp [Item.config?, Item.log?]
  · refine (C105_accepted_iff _ _ _).mpr ⟨[.config "--config".toList _, .balancing], rfl, ?_⟩
    refine ⟨by simp [Item.Fine], by simp [Item.config?], by simp [Item.log?], ?_, by simp [idle], by simp [idle],
      by simp [idle], by simp [idle], by simp [idle], by simp, by simp⟩
    intro i
    cases i <;> simp [Item.config?, Item.log?]
  · refine (C105_accepted_iff _ _ _).mpr ⟨[.config "--config".toList _], rfl, ?_⟩
    refine ⟨by simp [Item.Fine], by simp [Item.config?], by simp [Item.log?], ?_, by simp [idle], by simp [idle],
      by simp [idle], by simp [idle], by simp [idle], by simp [idle], by simp [idle]⟩
    intro i
    cases i <;> simp [Item.config?, Item.log?]

/-- C105 is false for `scripts/rebuild_route-pairs.bash:39`, for every config-file: there is no flag `--writing-routes`.
The script has removed the old route-pairs by then (lines 29-36). With the right flag, the command is accepted. -/
theorem C105_false_script (gpl : Bool) (cfg : Text) :
    parse gpl ["--config".toList, cfg, "--writing-routes".toList] = none ∧
    (cfg.head? ≠ some '-' → (parse gpl ["--config".toList, cfg, "--writing_route-pairs".toList]).isSome = true) := by
  have h1 : optOf "--config".toList = some .cfg := by decide
  have h2 : optOf "--writing-routes".toList = none ∧ flagOf "--writing-routes".toList = none := by decide
  have h3 : optOf "--writing_route-pairs".toList = none ∧
      flagOf "--writing_route-pairs".toList = some .routePairs := by decide
  constructor
  · unfold parse
    by_cases hc : cfg.head? = some '-'
    · simp only [go, h1, hc, if_true]
    · simp only [go, h1, hc, if_false, h2, Option.isSome_none, Bool.false_eq_true]
  · intro hc
    unfold parse
    simp only [go, h1, hc, if_false, h3, Option.isSome_none, Bool.false_eq_true]
    simp

/-- Balancing isn't available without the feature. -/
example : parse false ["-c".toList, "x.yaml".toList, "--balancing".toList] = none ∧
    (parse true ["--balancing".toList, "-l".toList, "Debug".toList, "-c".toList, "x.yaml".toList]).isSome = true := by
  decide

end Verif.Cmd
