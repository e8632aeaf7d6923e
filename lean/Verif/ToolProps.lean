import Verif.ToolSpec
import Verif.FmiSample
import Verif.TextLemmas
import Mathlib.Data.List.TakeWhile

/-!
# C73: the tool's files; C74: file extensions
-/

namespace Verif.Tool

open Text Gen

/-! ## C74 -/

theorem split_dot (name : Text) :
    name = (name.reverse.dropWhile (· ≠ '.')).reverse ++ (name.reverse.takeWhile (· ≠ '.')).reverse := by
  rw [← List.reverse_append, List.takeWhile_append_dropWhile, List.reverse_reverse]

/-- C74: the extension is what is behind the last dot, if there is something before it. -/
theorem C74_extension (name ext : Text) : extension name = some ext ↔ Named name ext := by
  unfold extension Named
  by_cases hd : name = "..".toList
  · simp [hd]
  rw [if_neg hd]
  simp only [Option.ite_none_left_eq_some, Option.some.injEq, not_le]
  constructor
  · rintro ⟨h1, rfl⟩
    refine ⟨hd, ?_, ?_⟩
    · intro h
      have := List.mem_takeWhile_imp (List.mem_reverse.mp h)
      simp at this
    · have hsp := split_dot name
      cases hb : name.reverse.dropWhile (· ≠ '.') with
      | nil => rw [hb] at h1; simp at h1
      | cons x xs =>
        have hx : x = '.' := by
          have h2 := List.head?_dropWhile_not (fun c : Char => decide (c ≠ '.')) name.reverse
          rw [hb] at h2
          simpa using h2
        subst hx
        rw [hb] at h1
        refine ⟨xs.reverse, ?_, ?_⟩
        · intro h
          rw [List.reverse_eq_nil_iff] at h
          simp [h] at h1
        · conv_lhs => rw [hsp]
          rw [hb]
          simp
  · rintro ⟨-, h1, stem, h2, rfl⟩
    have hall : ∀ c ∈ ext.reverse, decide (c ≠ '.') = true := by
      intro c hc
      rw [decide_eq_true_iff]
      rintro rfl
      exact h1 (List.mem_reverse.mp hc)
    have ht : (stem ++ '.' :: ext).reverse.takeWhile (· ≠ '.') = ext.reverse := by
      rw [List.reverse_append, List.reverse_cons, List.append_assoc, List.takeWhile_append_of_pos hall]
      simp
    have hr : (stem ++ '.' :: ext).reverse.dropWhile (· ≠ '.') = '.' :: stem.reverse := by
      rw [List.reverse_append, List.reverse_cons, List.append_assoc, List.dropWhile_append_of_pos hall]
      simp
    rw [ht, hr]
    refine ⟨?_, by simp⟩
    have : stem.length ≠ 0 := by simpa using h2
    simp only [List.length_reverse, List.length_cons]
    omega

/-- C74: a file is supported iff its extension in lower case is listed. -/
theorem C74_supported (exts : List Text) (name s : Text) :
    findSupported exts name = some s ↔ s ∈ exts ∧ ∃ ext, Named name ext ∧ lower ext = s := by
  unfold findSupported
  cases h : extension name with
  | none =>
    simp only [reduceCtorEq, false_iff, not_and, not_exists]
    intro _ ext hn
    rw [(C74_extension name ext).mpr hn] at h
    simp at h
  | some ext =>
    have hn := (C74_extension name ext).mp h
    have huniq : ∀ x, Named name x → x = ext := fun x hx => by
      have := (C74_extension name x).mpr hx
      rw [h, Option.some.injEq] at this
      exact this.symm
    constructor
    · intro hf
      have h1 := List.mem_of_find?_eq_some hf
      have h2 := List.find?_some hf
      exact ⟨h1, ext, hn, (of_decide_eq_true h2).symm⟩
    · rintro ⟨h1, x, hx, h2⟩
      obtain rfl := huniq x hx
      subst h2
      cases hf : exts.find? fun s => decide (s = lower x) with
      | none =>
        rw [List.find?_eq_none] at hf
        exact absurd (hf _ h1) (by simp)
      | some y =>
        have h3 := List.find?_some hf
        have h4 : y = lower x := of_decide_eq_true h3
        rw [← h4]
        exact h4 ▸ hf

theorem lower_dot {t : Text} (h : '.' ∉ t) : '.' ∉ lower t := by
  unfold lower
  rw [List.mem_map]
  rintro ⟨c, hc, h1⟩
  unfold lowerChar at h1
  split at h1
  · rename_i h2
    have hv : (Char.ofNat (c.toNat + 32)).toNat = c.toNat + 32 := toNat_ofNat_lt (by
      have : 'Z'.toNat = 90 := rfl
      omega)
    rw [h1] at hv
    have h3 : '.'.toNat = 46 := rfl
    have h4 : 'A'.toNat = 65 := rfl
    omega
  · exact h (h1 ▸ hc)

/-- C74: `osm.pbf` is listed as extension of maps, but is never found. -/
theorem C74_osm_pbf (name : Text) : findSupported mapExts name ≠ some "osm.pbf".toList := by
  rw [ne_eq, C74_supported]
  rintro ⟨-, ext, ⟨-, h1, -⟩, h2⟩
  exact lower_dot h1 (h2 ▸ by decide)

/-- C74: the parser reads files as pbf or fmi according to their extension, in whatever case. -/
theorem C74_parser (name : Text) (k : MapExt) : fromPath parserExts name = some k ↔
    ∃ ext, Named name ext ∧ lower ext = (match k with
      | .pbf => "pbf".toList
      | .fmi => "fmi".toList) := by
  unfold fromPath
  have h := C74_supported parserExts name
  cases hf : findSupported parserExts name with
  | none =>
    simp only [reduceCtorEq, false_iff, not_exists]
    rintro ext ⟨h1, h2⟩
    have := (h (lower ext)).mpr ⟨by rw [h2]; cases k <;> simp [parserExts], ext, h1, rfl⟩
    rw [hf] at this
    simp at this
  | some s =>
    obtain ⟨h1, ext, h2, h3⟩ := (h s).mp hf
    have huniq : ∀ x, Named name x → x = ext := fun x hx => by
      have e1 := (C74_extension name x).mpr hx
      have e2 := (C74_extension name ext).mpr h2
      rw [e1, Option.some.injEq] at e2
      exact e2
    simp only [parserExts, List.mem_cons, List.not_mem_nil, or_false] at h1
    have key : (∃ x, Named name x ∧ lower x = (match k with
      | .pbf => "pbf".toList
      | .fmi => "fmi".toList)) ↔ s = (match k with
      | .pbf => "pbf".toList
      | .fmi => "fmi".toList) := by
      constructor
      · rintro ⟨x, hx, e⟩
        rw [huniq x hx, h3] at e
        exact e
      · intro e
        exact ⟨ext, h2, h3.trans e⟩
    rw [key]
    rcases h1 with rfl | rfl <;> cases k <;> decide

/-- C74: a graph's file that is accepted for writing is read by the parser as the same kind, which is fmi. -/
theorem C74_written {name : Text} {k : MapExt} (h : fromPath graphExts name = some k) :
    k = .fmi ∧ fromPath parserExts name = some .fmi := by
  unfold fromPath at h
  cases hf : findSupported graphExts name with
  | none => rw [hf] at h; simp at h
  | some s =>
    rw [hf] at h
    obtain ⟨h1, h2⟩ := (C74_supported _ _ _).mp hf
    simp only [graphExts, List.mem_cons, List.not_mem_nil, or_false] at h1
    subst h1
    exact ⟨by simpa using h.symm, (C74_parser name .fmi).mpr h2⟩

/-- Some names. -/
example : fromPath parserExts "isle-of-man.osm.PBF".toList = some .pbf ∧ fromPath parserExts ".pbf".toList = none ∧
    fromPath parserExts "map.fmi.bak".toList = none ∧ fromPath graphExts "a.Fmi".toList = some .fmi ∧
    extension "a.".toList = some [] := by
  decide

/-! ## C73 -/

variable {w : World} {net : Net}

theorem Written.nil (d : Disk) : Written w net [] d d :=
  ⟨by simp, by simp, by simp, by simp, fun _ _ => rfl⟩

theorem Written.append {outs outs' : List Output} {d d1 d2 : Disk} (h : Written w net outs d d1)
    (h' : Written w net outs' d1 d2) : Written w net (outs ++ outs') d d2 := by
  have hnew : ∀ o ∈ outs', o.path ∉ outs.map Output.path := by
    intro o ho hm
    obtain ⟨o1, h1, h2⟩ := List.mem_map.mp hm
    obtain ⟨l, -, hl⟩ := h.complete o1 h1
    have := h'.fresh o ho
    rw [← h2, hl] at this
    simp at this
  refine ⟨?_, ?_, ?_, ?_, ?_⟩
  · rw [List.map_append, List.nodup_append]
    refine ⟨h.distinct, h'.distinct, ?_⟩
    intro a ha b hb hab
    obtain ⟨o, ho, rfl⟩ := List.mem_map.mp hb
    exact hnew o ho (hab ▸ ha)
  · intro o ho
    rcases List.mem_append.mp ho with ho | ho
    · exact h.fresh o ho
    · rw [← h.others _ (hnew o ho)]
      exact h'.fresh o ho
  · intro o ho
    rcases List.mem_append.mp ho with ho | ho
    · exact h.accepted o ho
    · exact h'.accepted o ho
  · intro o ho
    rcases List.mem_append.mp ho with ho | ho
    · obtain ⟨l, h1, h2⟩ := h.complete o ho
      refine ⟨l, h1, ?_⟩
      rw [h'.others, h2]
      intro hm
      obtain ⟨o', h3, h4⟩ := List.mem_map.mp hm
      exact hnew o' h3 (h4 ▸ List.mem_map.mpr ⟨o, ho, rfl⟩)
    · exact h'.complete o ho
  · intro p hp
    rw [List.map_append, List.mem_append, not_or] at hp
    rw [h'.others p hp.2, h.others p hp.1]

/-- The converse: what has been written one after the other. -/
theorem Written.split {outs outs' : List Output} {d d2 : Disk} (h : Written w net (outs ++ outs') d d2) :
    ∃ d1, Written w net outs d d1 ∧ Written w net outs' d1 d2 := by
  have hd := h.distinct
  rw [List.map_append, List.nodup_append] at hd
  obtain ⟨hd1, hd2, hd3⟩ := hd
  refine ⟨fun p => if p ∈ outs.map Output.path then d2 p else d p, ⟨hd1, ?_, ?_, ?_, ?_⟩, ⟨hd2, ?_, ?_, ?_, ?_⟩⟩
  · exact fun o ho => h.fresh o (List.mem_append_left _ ho)
  · exact fun o ho => h.accepted o (List.mem_append_left _ ho)
  · intro o ho
    obtain ⟨l, h1, h2⟩ := h.complete o (List.mem_append_left _ ho)
    refine ⟨l, h1, ?_⟩
    rw [if_pos (List.mem_map.mpr ⟨o, ho, rfl⟩), h2]
  · intro p hp
    rw [if_neg hp]
  · intro o ho
    rw [if_neg]
    · exact h.fresh o (List.mem_append_right _ ho)
    · intro hm
      exact hd3 _ hm _ (List.mem_map.mpr ⟨o, ho, rfl⟩) rfl
  · exact fun o ho => h.accepted o (List.mem_append_right _ ho)
  · exact fun o ho => h.complete o (List.mem_append_right _ ho)
  · intro p hp
    by_cases hm : p ∈ outs.map Output.path
    · rw [if_pos hm]
    · rw [if_neg hm, h.others p (by rw [List.map_append, List.mem_append, not_or]; exact ⟨hm, hp⟩)]

theorem Written.kept {outs : List Output} {d d' : Disk} (h : Written w net outs d d') : Kept d d' := by
  intro p l hp
  rw [h.others, hp]
  intro hm
  obtain ⟨o, h1, rfl⟩ := List.mem_map.mp hm
  rw [h.fresh o h1] at hp
  simp at hp

theorem Kept.put {d : Disk} {p : Text} {l : List Text} (h : d p = none) : Kept d (d.put p l) := by
  intro q l' hq
  unfold Disk.put
  rw [if_neg, hq]
  rintro rfl
  rw [h] at hq
  simp at hq

theorem Kept.trans {d d1 d2 : Disk} (h : Kept d d1) (h' : Kept d1 d2) : Kept d d2 := fun p l hp => h' p l (h p l hp)

theorem Interrupted.kept {plan : List (Option Output)} {d d' : Disk} (h : Interrupted w net plan d d') : Kept d d' := by
  obtain ⟨outs, d1, -, h1, rfl | ⟨o, -, h2, rfl⟩⟩ := h
  · exact h1.kept
  · exact h1.kept.trans (Kept.put h2)

/-- What tasks do with the files. -/
def Follows (w : World) (net : Net) (plan : List (Option Output)) (d : Disk) (o : Out) : Prop :=
  (o.1 = .ok ⟨⟩ ∧ ∃ outs, outs.map some = plan ∧ Written w net outs d o.2) ∨
    (o.1 ≠ .ok ⟨⟩ ∧ Interrupted w net plan d o.2)

theorem follows_stop {plan : List (Option Output)} {d : Disk} {r : Res Err Unit} (h : r ≠ .ok ⟨⟩) :
    Follows w net plan d (r, d) :=
  .inr ⟨h, [], d, by simp, .nil d, .inl rfl⟩

theorem follows_done {d : Disk} : Follows w net [] d (.ok ⟨⟩, d) := .inl ⟨rfl, [], rfl, .nil d⟩

theorem create_cases (o : Output) (d : Disk) :
    (∃ d', create w o net d = (.ok ⟨⟩, d') ∧ Written w net [o] d d') ∨
    (∃ r, r ≠ .ok ⟨⟩ ∧ create w o net d = (r, d)) ∨
    ∃ r, r ≠ .ok ⟨⟩ ∧ d o.path = none ∧ create w o net d = (r, d.put o.path (w.cut o.path)) := by
  unfold create
  split
  · exact .inr (.inl ⟨_, by simp, rfl⟩)
  · rename_i hacc
    split
    · exact .inr (.inl ⟨_, by simp, rfl⟩)
    · rename_i hop
      simp only [Bool.or_eq_true, Bool.not_eq_true', not_or, Bool.not_eq_true, Option.isSome_eq_false_iff,
        Option.isNone_iff_eq_none, Bool.not_eq_false] at hop hacc
      cases ht : o.text net with
      | err e => exact .inr (.inr ⟨_, by simp, hop.1, rfl⟩)
      | panic => exact .inr (.inr ⟨_, by simp, hop.1, rfl⟩)
      | ok lines =>
        refine .inl ⟨_, rfl, by simp, by simpa using hop.1, by simpa using ⟨hacc, hop.2⟩, ?_, ?_⟩
        · simp [Disk.put, ht]
        · intro p hp
          have : p ≠ o.path := by simpa using hp
          simp [Disk.put, this]

theorem follows_create (o : Output) (d : Disk) : Follows w net [some o] d (create w o net d) := by
  rcases create_cases (w := w) (net := net) o d with ⟨d', h1, h2⟩ | ⟨r, h1, h2⟩ | ⟨r, h1, h2, h3⟩
  · rw [h1]
    exact .inl ⟨rfl, [o], rfl, h2⟩
  · rw [h2]
    exact follows_stop h1
  · rw [h3]
    exact .inr ⟨h1, [], d, by simp, .nil d, .inr ⟨o, by simp, h2, rfl⟩⟩

theorem follows_writeNew (b : Bool) (o : Option Output) (d : Disk) :
    Follows w net (if b then [o] else []) d (writeNew w b o net d) := by
  unfold writeNew
  cases b with
  | false => exact follows_done
  | true =>
    cases o with
    | none => exact follows_stop (by simp)
    | some o =>
      simp only [if_true]
      split
      · exact follows_stop (by simp)
      · exact follows_create o d

theorem follows_andThen {plan plan' : List (Option Output)} {d : Disk} {o : Out} {f : Disk → Out}
    (h : Follows w net plan d o) (h' : ∀ d1, o = (.ok ⟨⟩, d1) → Follows w net plan' d1 (f d1)) :
    Follows w net (plan ++ plan') d (o.andThen f) := by
  obtain ⟨r, d1⟩ := o
  rcases h with ⟨h1, outs, h2, h3⟩ | ⟨h1, outs, dm, h2, h3, h4⟩
  · dsimp only at h1 h3
    subst h1
    have h5 := h' d1 rfl
    simp only [Out.andThen]
    rcases h5 with ⟨h6, outs', h7, h8⟩ | ⟨h6, outs', dm, h7, h8, h9⟩
    · exact .inl ⟨h6, outs ++ outs', by rw [List.map_append, h2, h7], h3.append h8⟩
    · refine .inr ⟨h6, outs ++ outs', dm, ?_, h3.append h8, ?_⟩
      · rw [List.map_append, h2]
        exact (List.prefix_append_right_inj _).mpr h7
      · rcases h9 with h9 | ⟨o, h9, h10⟩
        · exact .inl h9
        · refine .inr ⟨o, ?_, h10⟩
          rw [List.append_assoc, List.map_append, h2]
          exact (List.prefix_append_right_inj _).mpr h9
  · have hr : Out.andThen (r, d1) f = (r, d1) := by
      cases r with
      | ok x => exact absurd rfl h1
      | err e => rfl
      | panic => rfl
    rw [hr]
    refine .inr ⟨h1, outs, dm, h2.trans (List.prefix_append _ _), h3, ?_⟩
    rcases h4 with h4 | ⟨o, h4, h5⟩
    · exact .inl h4
    · exact .inr ⟨o, h4.trans (List.prefix_append _ _), h5⟩

theorem follows_asked (a : Args) (d : Disk) : Follows w net (asked w a net) d
    (((writeNew w a.graph w.graph net d).andThen (writeNew w a.edges w.edges net)).andThen
      (writeNew w a.routePairs (w.routePairs net) net)) :=
  follows_andThen (follows_andThen (follows_writeNew _ _ _) fun _ _ => follows_writeNew _ _ _)
    fun _ _ => follows_writeNew _ _ _

theorem check_ok {d : Disk} {ps : List Text} : check d ps = .ok ⟨⟩ ↔ ∀ p ∈ ps, d p = none := by
  induction ps with
  | nil => simp [check]
  | cons p ps ih =>
    unfold check
    cases h : d p <;> simp [h, ih]

/-- All about an evaluation. -/
theorem follows_evaluate (d : Disk) : (∃ r, r ≠ .ok ⟨⟩ ∧ evaluate w net d = (r, d)) ∨
    ∃ info loads paths ls ps, w.eval net = some (info, loads, paths) ∧
      d info.path = none ∧ d (loads []).path = none ∧ d (paths []).path = none ∧
      w.simulate net d = .ok (ls, ps) ∧
      Follows w net ((results info loads paths ls ps).map some) d (evaluate w net d) := by
  unfold evaluate
  cases he : w.eval net with
  | none => exact .inl ⟨_, by simp, rfl⟩
  | some x =>
    obtain ⟨info, loads, paths⟩ := x
    dsimp only
    cases hc : check d [info.path, (loads []).path, (paths []).path] with
    | err e => exact .inl ⟨_, by simp, rfl⟩
    | panic => exact .inl ⟨_, by simp, rfl⟩
    | ok u =>
      have hn := check_ok.mp (show check d _ = .ok ⟨⟩ from hc)
      simp only [List.mem_cons, List.not_mem_nil, or_false, forall_eq_or_imp, forall_eq] at hn
      dsimp only
      cases hs : w.simulate net d with
      | err e => exact .inl ⟨_, by simp, rfl⟩
      | panic => exact .inl ⟨_, by simp, rfl⟩
      | ok x =>
        obtain ⟨ls, ps⟩ := x
        refine .inr ⟨info, loads, paths, ls, ps, rfl, hn.1, hn.2.1, hn.2.2, rfl, ?_⟩
        simp only [reading, results, List.map_append]
        refine follows_andThen (follows_andThen (plan := [some info]) (plan' := [some (loads ls)])
          (follows_create _ _) fun _ _ => follows_create _ _) fun d1 _ => ?_
        cases ps with
        | none => exact follows_done
        | some ps => exact follows_create _ _

/-- C73: no file that has been there before is changed, whatever happens; for the balancer this is assumed. -/
theorem C73_kept {a : Args} {d d' : Disk} {r : Res Err Unit} (h : run w a d = (r, d'))
    (hb : a.balancing = true → ∀ d, Kept d (w.balance d).2) : Kept d d' := by
  have hrefl : ∀ d : Disk, Kept d d := fun _ _ _ h => h
  have hf : ∀ {net plan d} {o : Out}, Follows w net plan d o → Kept d o.2 := by
    rintro net plan d o (⟨-, outs, -, h⟩ | ⟨-, h⟩)
    · exact h.kept
    · exact h.kept
  have hthen : ∀ {d : Disk} {o : Out} {f : Disk → Out}, Kept d o.2 → (∀ d1, Kept d1 (f d1).2) →
      Kept d (o.andThen f).2 := by
    intro d o f h1 h2
    obtain ⟨r, d1⟩ := o
    cases r with
    | ok x => exact h1.trans (h2 d1)
    | err e => exact h1
    | panic => exact h1
  have : Kept d (run w a d).2 := by
    unfold run
    cases hp : w.parse d with
    | err e => exact hrefl d
    | panic => exact hrefl d
    | ok net =>
      refine hthen (hthen (hf (follows_asked a d)) fun d1 => ?_) fun d1 => ?_
      · split
        · split
          · cases hr : w.route net d1 <;> exact hrefl d1
          · rcases follows_evaluate (w := w) (net := net) d1 with ⟨r, -, h⟩ | ⟨_, _, _, _, _, -, -, -, -, -, h⟩
            · rw [h]; exact hrefl d1
            · exact hf h
        · exact hrefl d1
      · split
        · rename_i hbal
          have := hb hbal d1
          revert this
          cases hbd : w.balance d1 with
          | mk r d2 => cases r <;> exact id
        · exact hrefl d1
  rw [h] at this
  exact this

theorem Written.unique {outs : List Output} {d d1 d2 : Disk} (h1 : Written w net outs d d1)
    (h2 : Written w net outs d d2) : d1 = d2 := by
  funext p
  by_cases hp : p ∈ outs.map Output.path
  · obtain ⟨o, ho, rfl⟩ := List.mem_map.mp hp
    obtain ⟨l1, e1, e2⟩ := h1.complete o ho
    obtain ⟨l2, e3, e4⟩ := h2.complete o ho
    rw [e1, Res.ok.injEq] at e3
    rw [e2, e4, e3]
  · rw [h1.others p hp, h2.others p hp]

theorem create_of_written {o : Output} {d d' : Disk} (h : Written w net [o] d d') :
    create w o net d = (.ok ⟨⟩, d') := by
  have h1 := h.fresh o (by simp)
  obtain ⟨h2, h3⟩ := h.accepted o (by simp)
  obtain ⟨l, h4, h5⟩ := h.complete o (by simp)
  rcases create_cases (w := w) (net := net) o d with ⟨d1, e1, e2⟩ | ⟨r, e1, e2⟩ | ⟨r, e1, e2, e3⟩
  · rw [e1, h.unique e2]
  · exfalso
    simp [create, h1, h2, h3, h4] at e2
    exact e1 e2.1.symm
  · exfalso
    simp [create, h1, h2, h3, h4] at e3
    exact e1 e3.1.symm

theorem writeNew_of_written {b : Bool} {o : Option Output} {outs : List Output}
    (ho : outs.map some = if b then [o] else []) {d d' : Disk} (h : Written w net outs d d') :
    writeNew w b o net d = (.ok ⟨⟩, d') := by
  cases b with
  | false =>
    have : outs = [] := by simpa using ho
    subst this
    rw [(Written.nil d).unique h]
    rfl
  | true =>
    match outs, ho with
    | [], ho => simp at ho
    | x :: y :: l, ho => simp at ho
    | [x], ho =>
      have : o = some x := by simpa using ho.symm
      subst this
      have h1 := h.fresh x (by simp)
      simp only [writeNew, if_true, h1, Option.isSome_none, Bool.false_eq_true, if_false]
      exact create_of_written h

theorem map_some_split {outs : List Output} {p q : List (Option Output)} (h : outs.map some = p ++ q) :
    ∃ o1 o2, outs = o1 ++ o2 ∧ o1.map some = p ∧ o2.map some = q := by
  obtain ⟨l1, l2, h1, h2, h3⟩ := List.map_eq_append_iff.mp h
  exact ⟨l1, l2, h1, h2, h3⟩

theorem asked_of_written {a : Args} {outs : List Output} (ho : outs.map some = asked w a net) {d d' : Disk}
    (h : Written w net outs d d') :
    ((writeNew w a.graph w.graph net d).andThen (writeNew w a.edges w.edges net)).andThen
      (writeNew w a.routePairs (w.routePairs net) net) = (.ok ⟨⟩, d') := by
  obtain ⟨o12, o3, rfl, h12, h3⟩ := map_some_split ho
  obtain ⟨o1, o2, rfl, h1, h2⟩ := map_some_split h12
  obtain ⟨d2, hw12, hw3⟩ := h.split
  obtain ⟨d1, hw1, hw2⟩ := hw12.split
  rw [writeNew_of_written h1 hw1]
  simp only [Out.andThen]
  rw [writeNew_of_written h2 hw2]
  simp only
  rw [writeNew_of_written h3 hw3]

theorem evaluate_of_written {d d' : Disk} {info : Output} {loads : List Nat → Output} {paths : List Path → Output}
    {ls : List Nat} {ps : Option (List Path)} (h1 : w.eval net = some (info, loads, paths)) (h2 : d info.path = none)
    (h3 : d (loads []).path = none) (h4 : d (paths []).path = none) (h5 : w.simulate net d = .ok (ls, ps))
    (h : Written w net (results info loads paths ls ps) d d') : evaluate w net d = (.ok ⟨⟩, d') := by
  have hc : check d [info.path, (loads []).path, (paths []).path] = .ok ⟨⟩ := check_ok.mpr (by simp [h2, h3, h4])
  unfold results at h
  obtain ⟨d2, hw12, hw3⟩ := h.split
  obtain ⟨d1, hw1, hw2⟩ := Written.split (outs := [info]) (outs' := [loads ls]) hw12
  simp only [evaluate, h1, hc, h5, reading]
  rw [create_of_written hw1]
  simp only [Out.andThen]
  rw [create_of_written hw2]
  simp only
  cases ps with
  | none =>
    simp only [Option.map_none, Option.toList_none] at hw3
    simp only [(Written.nil d2).unique hw3]
  | some ps => exact create_of_written hw3

theorem andThen_ok {o : Out} {f : Disk → Out} {d : Disk} (h : o.andThen f = (.ok ⟨⟩, d)) :
    ∃ d1, o = (.ok ⟨⟩, d1) ∧ f d1 = (.ok ⟨⟩, d) := by
  obtain ⟨r, d1⟩ := o
  cases r with
  | ok x => exact ⟨d1, rfl, h⟩
  | err e => simp [Out.andThen] at h
  | panic => simp [Out.andThen] at h

/-- C73: without balancing, the tool succeeds exactly if everything works out, and then exactly the files that have been
asked for are new. They are complete and differ in their paths. -/
theorem C73_succeeds_iff {a : Args} (hb : a.balancing = false) {d d' : Disk} :
    run w a d = (.ok ⟨⟩, d') ↔ Succeeds w a d d' := by
  constructor
  · intro h
    unfold run at h
    cases hp : w.parse d with
    | err e => rw [hp] at h; simp [reading] at h
    | panic => rw [hp] at h; simp [reading] at h
    | ok net =>
      rw [hp] at h
      simp only [reading, hb] at h
      obtain ⟨d2, h2, h3⟩ := andThen_ok h
      obtain rfl : d2 = d' := by simpa using h3
      obtain ⟨d1, h1, h4⟩ := andThen_ok h2
      rcases follows_asked (w := w) (net := net) a d with ⟨-, outs, e1, e2⟩ | ⟨e1, -⟩
      · rw [h1] at e2
        refine ⟨net, outs, d1, hp, e1, e2, ?_, ?_⟩
        · intro hev
          simp only [hev, Bool.or_false, Bool.not_false, if_true] at h4
          split at h4
          · rename_i hr
            cases hro : w.route net d1 with
            | ok u =>
              rw [hro] at h4
              exact ⟨by simpa using h4.symm, fun _ => rfl⟩
            | err e => rw [hro] at h4; simp at h4
            | panic => rw [hro] at h4; simp at h4
          · rename_i hr
            exact ⟨by simpa using h4.symm, fun h => absurd h hr⟩
        · intro hev
          simp only [hev, Bool.or_true, Bool.not_true, Bool.false_eq_true, if_true, if_false] at h4
          rcases follows_evaluate (w := w) (net := net) d1 with ⟨r, hr, e3⟩ |
            ⟨info, loads, paths, ls, ps, f1, f2, f3, f4, f5, f6⟩
          · rw [e3] at h4
            simp only [Prod.mk.injEq] at h4
            exact absurd h4.1 hr
          · rcases f6 with ⟨-, outs', g1, g2⟩ | ⟨g1, -⟩
            · rw [h4] at g2
              have : outs' = results info loads paths ls ps := List.map_injective_iff.mpr (Option.some_injective _) g1
              exact ⟨info, loads, paths, ls, ps, f1, f2, f3, f4, f5, this ▸ g2⟩
            · rw [h4] at g1
              exact absurd rfl g1
      · rw [h1] at e1
        exact absurd rfl e1
  · rintro ⟨net, outs, d1, h1, h2, h3, h4, h5⟩
    unfold run
    rw [h1]
    simp only [reading, hb]
    rw [asked_of_written h2 h3]
    simp only [Out.andThen]
    cases hev : a.evaluating with
    | false =>
      obtain ⟨rfl, h6⟩ := h4 hev
      cases hr : a.routing with
      | false => simp
      | true => simp [h6 hr]
    | true =>
      obtain ⟨info, loads, paths, ls, ps, f1, f2, f3, f4, f5, f6⟩ := h5 hev
      simp [evaluate_of_written f1 f2 f3 f4 f5 f6]

theorem Follows.interrupted {plan : List (Option Output)} {d : Disk} {o : Out} (h : Follows w net plan d o) :
    Interrupted w net plan d o.2 := by
  rcases h with ⟨-, outs, e1, e2⟩ | ⟨-, h⟩
  · exact ⟨outs, o.2, by rw [e1], e2, .inl rfl⟩
  · exact h

/-- C73: without balancing, however the tool ends: if the map has been parsed, the first of the files that have been asked
for are new and complete, and at most the next one has been begun. The files of an evaluation are only begun after the
other ones are complete. Nothing else has changed. -/
theorem C73_interrupted {a : Args} (hb : a.balancing = false) {d d' : Disk} {r : Res Err Unit}
    (h : run w a d = (r, d')) :
    d' = d ∨ ∃ net, w.parse d = .ok net ∧ (Interrupted w net (asked w a net) d d' ∨
      a.evaluating = true ∧ ∃ outs d1 info loads paths ls ps, outs.map some = asked w a net ∧ Written w net outs d d1 ∧
        w.eval net = some (info, loads, paths) ∧ w.simulate net d1 = .ok (ls, ps) ∧
        Interrupted w net ((results info loads paths ls ps).map some) d1 d') := by
  unfold run at h
  cases hp : w.parse d with
  | err e => rw [hp] at h; simp only [reading, Prod.mk.injEq] at h; exact .inl h.2.symm
  | panic => rw [hp] at h; simp only [reading, Prod.mk.injEq] at h; exact .inl h.2.symm
  | ok net =>
    right
    refine ⟨net, rfl, ?_⟩
    rw [hp] at h
    simp only [reading, hb] at h
    have hf := follows_asked (w := w) (net := net) a d
    generalize ((writeNew w a.graph w.graph net d).andThen (writeNew w a.edges w.edges net)).andThen
      (writeNew w a.routePairs (w.routePairs net) net) = o at h hf
    obtain ⟨r1, d1⟩ := o
    cases r1 with
    | err e =>
      simp only [Out.andThen, Prod.mk.injEq] at h
      exact .inl (h.2 ▸ hf.interrupted)
    | panic =>
      simp only [Out.andThen, Prod.mk.injEq] at h
      exact .inl (h.2 ▸ hf.interrupted)
    | ok x =>
      have hi := hf.interrupted
      dsimp only at hi
      rcases hf with ⟨-, outs, e1, e2⟩ | ⟨e1, -⟩
      · dsimp only at e2
        have hfst : ∀ {o : Out}, o.andThen (fun d => (.ok ⟨⟩, d)) = (r, d') → o.2 = d' := by
          rintro ⟨r2, d2⟩ h
          cases r2 <;> (simp only [Out.andThen, Prod.mk.injEq] at h; exact h.2)
        simp only [Bool.false_eq_true, if_false] at h
        have h2 := hfst h
        simp only [Out.andThen] at h2
        cases hev : a.evaluating with
        | false =>
          left
          have : d1 = d' := by
            rw [hev] at h2
            cases hro : a.routing with
            | false => simpa [hro] using h2
            | true =>
              simp only [hro] at h2
              cases hq : w.route net d1 <;> simpa [hq] using h2
          exact this ▸ hi
        | true =>
          simp only [hev, Bool.or_true, Bool.not_true, Bool.false_eq_true, if_true, if_false] at h2
          rcases follows_evaluate (w := w) (net := net) d1 with ⟨r, hr, e3⟩ |
            ⟨info, loads, paths, ls, ps, f1, -, -, -, f5, f6⟩
          · rw [e3] at h2
            exact .inl (h2 ▸ hi)
          · exact .inr ⟨rfl, outs, d1, info, loads, paths, ls, ps, e1, e2, f1, f5, h2 ▸ f6.interrupted⟩
      · exact absurd rfl e1

/-! ### A sample -/

/-- A config for the edges of the sample. -/
def exEdges (path col : String) : EdgesCfg :=
  { path := path.toList, header := true, shortcuts := true, denormalize := false, cols := [some "id".toList, some col.toList] }

/-- Writing the sample's graph, its edges (one column by name), and its evaluation, which has found workloads. -/
def exWorld (col info : String) : World where
  openable _ := true
  cut _ := [[]]
  parse _ := .ok Fmi.exNet
  graph := some (graphOutput Fmi.exCodec "out/graph.fmi".toList
    { nodes := [some "node".toList, some "lat".toList, some "lon".toList, some "level".toList]
      edges := [some "id".toList, some "src".toList, some "dst".toList, some "km".toList], shortcuts := true,
      denormalize := false })
  edges := some (edgesOutput Fmi.exCodec (exEdges "out/edges.csv" col))
  routePairs _ := none
  route _ _ := .ok ⟨⟩
  eval _ := some (edgesOutput Fmi.exCodec (exEdges info "km"),
    loadsOutput (exEdges info "km") "out/loads.csv".toList, pathsOutput "out/paths.bin".toList)
  simulate _ _ := .ok ([1, 0, 2, 0], none)
  balance d := (.ok ⟨⟩, d)

/-- Graph and edges are written, then the sample is evaluated. -/
def exArgs : Args :=
  { graph := true, edges := true, routePairs := false, routing := false, evaluating := true, balancing := false }

/-- The lines of a file afterwards. -/
def linesAt (o : Out) (path : String) : Option Nat := (o.2 path.toList).map List.length

/-- The sample's run succeeds, so it has written its files according to `C73_succeeds_iff`. -/
theorem ex_run : (run (exWorld "km" "out/info.csv") exArgs fun _ => none).1 = .ok ⟨⟩ ∧
    ["out/graph.fmi", "out/edges.csv", "out/info.csv", "out/loads.csv", "out/paths.bin"].map
      (linesAt (run (exWorld "km" "out/info.csv") exArgs fun _ => none)) = [some 17, some 5, some 5, some 5, none] := by
  decide +kernel

example : ∃ d', Succeeds (exWorld "km" "out/info.csv") exArgs (fun _ => none) d' :=
  ⟨_, (C73_succeeds_iff rfl).mp (Prod.ext ex_run.1 rfl)⟩

/-- Also `C73_kept` applies: a file beside them remains. -/
example : (run (exWorld "km" "out/info.csv") exArgs
    (Disk.put (fun _ => none) "notes.txt".toList ["x".toList])).2 "notes.txt".toList = some ["x".toList] :=
  C73_kept (Prod.mk.eta (p := run _ _ _)).symm (by simp [exArgs]) _ _ (by simp [Disk.put])

/-- C73 is false if a failed run should be repeatable: with a column that doesn't exist, the writer of edges fails after
its file has been created. The file remains, so the run with the correct column fails, although it would have succeeded in
the beginning. -/
theorem C73_false_retry :
    (run (exWorld "kmm" "out/info.csv") { exArgs with graph := false } fun _ => none).1 =
      .err (.writing "out/edges.csv".toList) ∧
    (run (exWorld "km" "out/info.csv") { exArgs with graph := false }
      (run (exWorld "kmm" "out/info.csv") { exArgs with graph := false } fun _ => none).2).1 =
      .err (.alreadyThere "out/edges.csv".toList) ∧
    (run (exWorld "km" "out/info.csv") { exArgs with graph := false } fun _ => none).1 = .ok ⟨⟩ := by
  decide +kernel

/-- C73 is false if all files' paths should be checked before the simulation: if the edges' info and the workloads share a
path, the check passes, but the workloads can't be written after the simulation. -/
theorem C73_false_late_collision :
    check (fun _ => none) ["out/loads.csv".toList, "out/loads.csv".toList, "out/paths.bin".toList] = .ok ⟨⟩ ∧
    (run (exWorld "km" "out/loads.csv") { exArgs with graph := false, edges := false } fun _ => none).1 =
      .err (.opening "out/loads.csv".toList) ∧
    linesAt (run (exWorld "km" "out/loads.csv") { exArgs with graph := false, edges := false } fun _ => none)
      "out/loads.csv" = some 5 := by
  decide +kernel

end Verif.Tool
