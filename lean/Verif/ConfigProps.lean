import Verif.ConfigSpec
import Verif.Basic
import Mathlib.Tactic.FieldSimp
import Mathlib.Tactic.Ring
import Mathlib.Tactic.Linarith
import Mathlib.Data.List.Nodup
import Mathlib.Data.List.Induction

/-!
# Properties of configurations (C41, C42, C43, C52)
-/

namespace Verif.Cfg

/-! ## C41 -/

/-- C41: both conversions of the code are the same. -/
theorem C41_same (src dst : Unit) (x : ℚ) : src.genConvert dst x = src.tryConvert dst x := by
  cases src <;> cases dst <;> rfl

/-- C41: between units of the same quantity, conversion keeps the physical value. -/
theorem C41_physical (src dst : Unit) (x : ℚ) (h : src.quantity = dst.quantity) :
    ∃ y, src.tryConvert dst x = .ok y ∧ y * dst.size = x * src.size := by
  cases src <;> cases dst <;> first
    | exact absurd h (by decide)
    | refine ⟨_, rfl, ?_⟩
      simp only [Unit.size, kmOfM, mOfKm, minOfS, hOfS, sOfMin, hOfMin, sOfH, minOfH]
      try ring

/-- C41: units of different quantities are rejected, except for plain numbers, which are kept. -/
theorem C41_incompatible (src dst : Unit) (x : ℚ) (h : src.quantity ≠ dst.quantity) :
    src.tryConvert dst x = if src = .f64 ∨ dst = .f64 then .ok x else .error .unit := by
  cases src <;> cases dst <;> first
    | exact absurd rfl h
    | rfl

/-- C41: converting there and back is the identity. -/
theorem C41_roundtrip (src dst : Unit) (x y : ℚ) (h : src.tryConvert dst x = .ok y) :
    dst.tryConvert src y = .ok x := by
  cases src <;> cases dst <;> first
    | (simp only [Unit.tryConvert, reduceCtorEq] at h; done)
    | simp only [Unit.tryConvert, Except.ok.injEq] at h ⊢
      subst h
      simp only [kmOfM, mOfKm, minOfS, hOfS, sOfMin, hOfMin, sOfH, minOfH]
      try ring

/-- C41: conversions compose, unless plain numbers are involved (see `C41_false_compose`). -/
theorem C41_compose_partial (a b c : Unit) (x y z : ℚ) (ha : a ≠ .f64) (hb : b ≠ .f64) (hc : c ≠ .f64)
    (h1 : a.tryConvert b x = .ok y) (h2 : b.tryConvert c y = .ok z) : a.tryConvert c x = .ok z := by
  have q : ∀ (s t : Unit) (u v : ℚ), s ≠ .f64 → t ≠ .f64 → s.tryConvert t u = .ok v →
      s.quantity = t.quantity := by
    intro s t u v hs ht h
    by_contra hq
    rw [C41_incompatible s t u hq, if_neg (by tauto)] at h
    exact absurd h (by simp)
  have hpos : ∀ u : Unit, u.size ≠ 0 := by intro u; cases u <;> norm_num [Unit.size]
  have q1 := q a b x y ha hb h1
  have q2 := q b c y z hb hc h2
  obtain ⟨y', hy', ey⟩ := C41_physical a b x q1
  obtain ⟨z', hz', ez⟩ := C41_physical b c y q2
  obtain ⟨w, hw, ew⟩ := C41_physical a c x (q1.trans q2)
  rw [h1, Except.ok.injEq] at hy'
  rw [h2, Except.ok.injEq] at hz'
  subst hy' hz'
  rw [hw]
  congr 1
  exact mul_right_cancel₀ (hpos c) (by rw [ew, ← ey, ez])

/-- C41 is false for plain numbers: meters become kilometers of the same number on the way via `F64`. -/
theorem C41_false_compose : ∃ x y z w : ℚ, Unit.tryConvert .meters .f64 x = .ok y ∧
    Unit.tryConvert .f64 .kilometers y = .ok z ∧ Unit.tryConvert .meters .kilometers x = .ok w ∧ z ≠ w :=
  ⟨1000, 1000, 1000, 1, by decide +kernel⟩

/-- C41: a metric is calculated exactly for durations from kilometers and km/h, and for km/h from kilometers
and hours; the result times the divisor is the dividend. -/
theorem C41_calc (r ua ub : Unit) (a b : ℚ) (hb : b ≠ 0) :
    (∃ y, r.tryCalc ua a ub b = .ok y) ↔
      (r.quantity = .time ∧ ua = .kilometers ∧ ub = .kmh) ∨
        (r = .kmh ∧ ua = .kilometers ∧ ub = .hours) := by
  cases r <;> simp [Unit.tryCalc, Unit.quantity, hb] <;> (split <;> simp_all)

theorem tryConvert_sameValue {src dst : Unit} {x y : ℚ} (h : src.tryConvert dst x = .ok y) :
    src.SameValue dst x y := by
  unfold Unit.SameValue
  split
  · rename_i hq
    obtain ⟨y', h1, h2⟩ := C41_physical src dst x hq
    rw [h, Except.ok.injEq] at h1
    rw [h1]; exact h2
  · rename_i hq
    rw [C41_incompatible src dst x hq] at h
    split at h
    · rename_i hf
      rw [Except.ok.injEq] at h
      exact ⟨hf, h.symm⟩
    · exact absurd h (by simp)

/-- C41: a calculated metric is physically the quotient. -/
theorem C41_calc_physical (r ua ub : Unit) (a b y : ℚ) (h : r.tryCalc ua a ub b = .ok y) :
    r.Quotient ua ub a b y := by
  have key : ∀ (o : Option ℚ), (match o with
      | some y => if b = 0 then Except.error Err.infinite else .ok y
      | none => .error .unit) = .ok y → o = some y ∧ b ≠ 0 := by
    intro o ho
    cases o with
    | none => exact absurd ho (by simp)
    | some v =>
      dsimp only at ho
      split at ho
      · exact absurd ho (by simp)
      · rename_i hb
        exact ⟨by simpa using ho, hb⟩
  obtain ⟨h1, h2⟩ := key _ h
  cases r <;> simp only [reduceCtorEq] at h1 <;> (split at h1 <;> [skip; exact absurd h1 (by simp)])
  all_goals
    rename_i hu
    obtain ⟨rfl, rfl⟩ := hu
    simp only [Option.some.injEq] at h1
    subst h1
    refine ⟨by simp [Unit.quantity], h2, ?_⟩
    simp only [Unit.size, sOfH, minOfH]
    field_simp
    try norm_num

/-- Hypotheses of C41. -/
example : Unit.tryConvert .kilometers .meters 2 = .ok 2000 ∧
    Unit.tryConvert .hours .minutes 2 = .ok 120 ∧ Unit.tryConvert .minutes .seconds 120 = .ok 7200 ∧
    Unit.tryCalc .minutes .kilometers 10 .kmh 60 = .ok 10 ∧
    Unit.tryCalc .kmh .kilometers 10 .hours 2 = .ok 5 ∧
    Unit.tryCalc .meters .kmh 10 .hours 2 = .error .unit ∧
    Unit.tryCalc .hours .kilometers 10 .kmh 0 = .error .infinite := by decide +kernel

/-! ## C43 (parsed categories) -/

theorem hasDuplicate_iff (cats : List EdgeCat) : hasDuplicate cats = false ↔ UniqueIds cats := by
  unfold UniqueIds
  induction cats with
  | nil => simp [hasDuplicate]
  | cons c cs ih =>
    rw [hasDuplicate, Bool.or_eq_false_iff, ih]
    cases hc : c.id? with
    | none => simp [hc]
    | some id =>
      rw [List.filterMap_cons_some hc, List.nodup_cons]
      refine and_congr_left' ?_
      simp [List.mem_filterMap]

/-- C43: a configuration is accepted iff no two of its categories share an id. -/
theorem C43_parsed (cats : List EdgeCat) (n : Bool) :
    ((∃ e, Edges.tryFrom cats n = .ok e) ↔ UniqueIds cats) ∧
    ∀ e, Edges.tryFrom cats n = .ok e → e.cats = cats ∧ e.ids.Nodup ∧ e.ids.length = e.units.length := by
  unfold Edges.tryFrom
  cases hd : hasDuplicate cats with
  | true =>
    have : ¬ UniqueIds cats := fun h => by
      rw [(hasDuplicate_iff cats).mpr h] at hd
      exact absurd hd (by simp)
    simp [this]
  | false =>
    have hu := (hasDuplicate_iff cats).mp hd
    refine ⟨by simp [hu], fun e he => ?_⟩
    simp only [Bool.false_eq_true, if_false, Except.ok.injEq] at he
    subst he
    refine ⟨rfl, ?_, ?_⟩
    · dsimp only
      refine List.Nodup.sublist ?_ hu
      clear hu hd
      induction cats with
      | nil => simp
      | cons c cs ih => cases c <;> simp [EdgeCat.id?, List.filterMap_cons, ih]
    · dsimp only
      clear hu hd
      induction cats with
      | nil => rfl
      | cons c cs ih => cases c <;> simp [ih]

/-- C43: the metric of an id is found at its index. -/
theorem C43_lookup {cats : List EdgeCat} {n : Bool} {e : Edges} (h : Edges.tryFrom cats n = .ok e)
    (id : Text) (i : Nat) : e.tryIdxOf id = .ok i ↔ e.ids[i]? = some id := by
  obtain ⟨-, hn, -⟩ := (C43_parsed cats n).2 e h
  unfold Edges.tryIdxOf
  constructor
  · intro hi
    split at hi
    · rename_i j hj
      simp only [Except.ok.injEq] at hi
      subst hi
      rw [List.findIdx?_eq_some_iff_getElem] at hj
      obtain ⟨hlt, hj, -⟩ := hj
      rw [List.getElem?_eq_getElem hlt]
      simpa using hj
    · exact absurd hi (by simp)
  · intro hi
    have hlt : i < e.ids.length := by
      by_contra hc
      rw [List.getElem?_eq_none (by omega)] at hi
      exact absurd hi (by simp)
    have : e.ids.findIdx? (fun j => decide (j = id)) = some i := by
      rw [List.findIdx?_eq_some_iff_getElem]
      rw [List.getElem?_eq_getElem hlt] at hi
      simp only [Option.some.injEq] at hi
      refine ⟨hlt, by simpa using hi, fun j hj => ?_⟩
      simp only [decide_eq_true_eq]
      intro hc
      have := (List.Nodup.getElem_inj_iff hn (hi := by omega) (hj := hlt)).mp (hc.trans hi.symm)
      omega
    rw [this]

/-! ## C52 -/

/-- C52: parsing starts iff the columns for node-ids and coordinates exist, the metrics fit into the compiled
dimension, and there are no or two shortcut columns. -/
theorem C52_check_iff (maxDim : Nat) (c : Parsing) : check maxDim c = .ok ⟨⟩ ↔
    (∃ id, NodeCat.info .nodeId id ∈ c.nodes) ∧ (∃ id, NodeCat.metric .latitude id ∈ c.nodes) ∧
    (∃ id, NodeCat.metric .longitude id ∈ c.nodes) ∧
    c.edges.units.length + ((c.generating.elim [] Generating.edges).map GenCat.newDims).sum ≤ maxDim ∧
    (c.edges.cats.countP EdgeCat.isShortcut = 0 ∨ c.edges.cats.countP EdgeCat.isShortcut = 2) := by
  have h1 : (c.nodes.any fun | .info .nodeId _ => true | _ => false) = true ↔
      ∃ id, NodeCat.info .nodeId id ∈ c.nodes := by
    rw [List.any_eq_true]
    constructor
    · rintro ⟨x, hx, h⟩
      split at h
      · exact ⟨_, hx⟩
      · exact absurd h (by simp)
    · rintro ⟨id, h⟩
      exact ⟨_, h, rfl⟩
  have h2 : (c.nodes.any fun | .metric .latitude _ => true | _ => false) = true ↔
      ∃ id, NodeCat.metric .latitude id ∈ c.nodes := by
    rw [List.any_eq_true]
    constructor
    · rintro ⟨x, hx, h⟩
      split at h
      · exact ⟨_, hx⟩
      · exact absurd h (by simp)
    · rintro ⟨id, h⟩
      exact ⟨_, h, rfl⟩
  have h3 : (c.nodes.any fun | .metric .longitude _ => true | _ => false) = true ↔
      ∃ id, NodeCat.metric .longitude id ∈ c.nodes := by
    rw [List.any_eq_true]
    constructor
    · rintro ⟨x, hx, h⟩
      split at h
      · exact ⟨_, hx⟩
      · exact absurd h (by simp)
    · rintro ⟨id, h⟩
      exact ⟨_, h, rfl⟩
  rw [← h1, ← h2, ← h3]
  unfold check
  dsimp only
  generalize (c.nodes.any fun | .info .nodeId _ => true | _ => false) = b1
  generalize (c.nodes.any fun | .metric .latitude _ => true | _ => false) = b2
  generalize (c.nodes.any fun | .metric .longitude _ => true | _ => false) = b3
  generalize c.edges.cats.countP EdgeCat.isShortcut = n
  have key : ∀ k : Nat, ((if (!b1) = true then Except.error Err.noNodeId
      else if (!b2) = true then .error .noLatitude
      else if (!b3) = true then .error .noLongitude
      else if c.edges.units.length + k > maxDim then .error .dimension
      else if n > 0 ∧ n ≠ 2 then .error .shortcutCount else .ok PUnit.unit.{1}) = .ok PUnit.unit) ↔
      b1 = true ∧ b2 = true ∧ b3 = true ∧ c.edges.units.length + k ≤ maxDim ∧ (n = 0 ∨ n = 2) := by
    intro k
    by_cases hk : c.edges.units.length + k > maxDim
    · have : ¬ c.edges.units.length + k ≤ maxDim := by omega
      cases b1 <;> cases b2 <;> cases b3 <;> simp [hk, this]
    · have : c.edges.units.length + k ≤ maxDim := by omega
      by_cases hn : n > 0 ∧ n ≠ 2
      · have h' : ¬ (n = 0 ∨ n = 2) := by omega
        cases b1 <;> cases b2 <;> cases b3 <;> simp [hk, hn]
        omega
      · have h' : n = 0 ∨ n = 2 := by omega
        cases b1 <;> cases b2 <;> cases b3 <;> simp [hk, hn, h', this]
  cases hg : c.generating with
  | none => exact key 0
  | some gen => exact key _

/-- C52 for "shortcut columns come as a pair" is false: two columns of the first replaced edge are accepted,
and the second replaced edge is missing. -/
theorem C52_false_pair : ∃ c : Parsing, check 0 c = .ok ⟨⟩ ∧
    (∃ id, EdgeCat.info .shortcutIdx0 id ∈ c.edges.cats) ∧ ∀ id, EdgeCat.info .shortcutIdx1 id ∉ c.edges.cats :=
  ⟨{ vehicle := .car, picky := false
     nodes := [.info .nodeId [], .metric .latitude [], .metric .longitude []]
     edges := { cats := [.info .shortcutIdx0 "a".toList, .info .shortcutIdx0 "b".toList], normalized := false,
                units := [], ids := [] }
     generating := none },
   by decide +kernel, ⟨_, List.mem_cons_self ..⟩, by simp⟩

/-- C52 doesn't cover the endpoints: a configuration without columns for the source and destination of edges
is accepted. -/
theorem C52_false_endpoints : ∃ c : Parsing, check 0 c = .ok ⟨⟩ ∧ c.edges.cats = [] :=
  ⟨{ vehicle := .car, picky := false
     nodes := [.info .nodeId [], .metric .latitude [], .metric .longitude []]
     edges := { cats := [], normalized := false, units := [], ids := [] }
     generating := none },
   by decide +kernel, rfl⟩

/-! ## C42 -/

theorem lastEntry_snoc (l : List Entry) (x : Entry) (id : Text) :
    lastEntry (l ++ [x]) id = if x.id = id then some x else lastEntry l id := by
  unfold lastEntry
  rw [List.filter_append]
  by_cases h : x.id = id <;> simp [h]

theorem foldlM_snoc {α β ε : Type} (f : β → α → Res ε β) (l : List α) (x : α) (b : β) :
    (l ++ [x]).foldlM f b = (l.foldlM f b >>= fun r => f r x) := by
  induction l generalizing b with
  | nil =>
    simp only [List.nil_append, List.foldlM_cons, List.foldlM_nil, Res.pure_eq, Res.ok_bind]
    cases f b x <;> rfl
  | cons a l ih =>
    simp only [List.cons_append, List.foldlM_cons]
    cases f b a with
    | ok c => exact ih c
    | err e => rfl
    | panic => rfl

theorem routing_snoc (e : Edges) (l : List Entry) (x : Entry) :
    routing e (l ++ [x]) = (routing e l >>= fun r => setEntry e r x) := foldlM_snoc _ _ _ _

/-- C42: with metrics of unique ids, a routing configuration has exactly the alphas and tolerances of the
last entries. -/
theorem C42_routing {cats : List EdgeCat} {n : Bool} {e : Edges} (he : Edges.tryFrom cats n = .ok e)
    (entries : List Entry) (h : ∀ x ∈ entries, x.id ∈ e.ids) :
    routing e entries =
      .ok { alphas := e.ids.map (alphaOf entries), tolerances := e.ids.map (toleranceOf entries) } := by
  obtain ⟨-, hn, hl⟩ := (C43_parsed cats n).2 e he
  induction entries using List.reverseRecOn with
  | nil =>
    have e1 : ∀ {α : Type} (a : α) (f : Text → α), (∀ id, f id = a) →
        List.replicate e.units.length a = e.ids.map f := by
      intro α a f hf
      rw [← hl, funext hf]
      simp
    unfold routing
    simp only [List.foldlM_nil]
    rw [e1 0 (alphaOf []) (fun _ => rfl), e1 none (toleranceOf []) (fun _ => rfl)]
    rfl
  | append_singleton l x ih =>
    have ih := ih fun y hy => h y (by simp [hy])
    obtain ⟨i, hi⟩ := List.getElem?_of_mem (h x (by simp))
    have hlt : i < e.ids.length := by
      by_contra hc
      rw [List.getElem?_eq_none (by omega)] at hi
      exact absurd hi (by simp)
    rw [routing_snoc, ih, Res.ok_bind]
    unfold setEntry
    rw [(C43_lookup he x.id i).mpr hi]
    dsimp only
    rw [if_pos (by simp [hlt])]
    have key : ∀ {α : Type} (f : Text → α) (a : α), (e.ids.map f).set i a =
        e.ids.map fun id => if x.id = id then a else f id := by
      intro α f a
      apply List.ext_getElem?
      intro j
      rw [List.getElem?_set, List.getElem?_map, List.getElem?_map]
      by_cases hij : i = j
      · subst hij
        rw [if_pos rfl, hi, List.length_map, if_pos hlt]
        simp
      · rw [if_neg hij]
        cases hj : e.ids[j]? with
        | none => rfl
        | some id =>
          have : x.id ≠ id := by
            rintro rfl
            have hjl : j < e.ids.length := by
              by_contra hc
              rw [List.getElem?_eq_none (by omega)] at hj
              exact absurd hj (by simp)
            rw [List.getElem?_eq_getElem hlt, Option.some.injEq] at hi
            rw [List.getElem?_eq_getElem hjl, Option.some.injEq] at hj
            exact hij ((List.Nodup.getElem_inj_iff hn).mp (hi.trans hj.symm))
          simp [this]
    rw [key, key]
    congr 3
    · funext id
      unfold alphaOf
      rw [lastEntry_snoc]
      split <;> rfl
    · funext id
      unfold toleranceOf
      rw [lastEntry_snoc]
      split <;> rfl

/-- C42: an unknown metric is an error. -/
theorem C42_unknown {cats : List EdgeCat} {n : Bool} {e : Edges} (he : Edges.tryFrom cats n = .ok e)
    (entries : List Entry) (x : Entry) (hx : x ∈ entries) (h : x.id ∉ e.ids) :
    routing e entries = .err .unknownMetric := by
  induction entries using List.reverseRecOn generalizing x with
  | nil => exact absurd hx (by simp)
  | append_singleton l y ih =>
    rw [routing_snoc]
    by_cases hl : ∀ z ∈ l, z.id ∈ e.ids
    · have hxy : x = y := by
        rcases List.mem_append.mp hx with hx | hx
        · exact absurd (hl x hx) h
        · simpa using hx
      subst hxy
      rw [C42_routing he l hl]
      have : e.tryIdxOf x.id = .error .unknownMetric := by
        cases ht : e.tryIdxOf x.id with
        | ok i =>
          exact absurd (List.mem_of_getElem? ((C43_lookup he x.id i).mp ht)) h
        | error err =>
          unfold Edges.tryIdxOf at ht
          split at ht
          · exact absurd ht (by simp)
          · simpa using ht.symm
      rw [Res.ok_bind]
      unfold setEntry
      rw [this]
    · push Not at hl
      obtain ⟨z, hz, hzi⟩ := hl
      rw [ih z hz hzi]
      rfl

/-- C42: what an entry doesn't mention has its default: alpha is one, and the tolerance is infinite. -/
theorem C42_entry_defaults (parseF : Text → Option (Option ℚ)) (id : Text) (alpha : Option ℚ) :
    Entry.tryFrom parseF { id, alpha, tolerance := none } = .ok ⟨id, alpha.getD 1, none⟩ := rfl

/-- C42: a mentioned tolerance is infinite, a number, or an error. -/
theorem C42_entry_tolerance (parseF : Text → Option (Option ℚ)) (id : Text) (alpha : Option ℚ) (t : Text) :
    Entry.tryFrom parseF { id, alpha, tolerance := some t } =
      if Text.lower t = "inf".toList ∨ Text.lower t = "infinity".toList then .ok ⟨id, alpha.getD 1, none⟩
      else match parseF (Text.lower t) with
        | some x => .ok ⟨id, alpha.getD 1, x⟩
        | none => .error .number := by
  unfold Entry.tryFrom
  dsimp only
  split
  · rfl
  · cases parseF (Text.lower t) <;> rfl

/-- C42: a configuration. The second entry of the first metric wins. -/
example : Edges.tryFrom [.metric .kmh "a".toList, .ignored, .metric .meters "b".toList, .metric .f64 "c".toList]
      false = .ok ⟨[.metric .kmh "a".toList, .ignored, .metric .meters "b".toList, .metric .f64 "c".toList],
        false, [.kmh, .meters, .f64], ["a".toList, "b".toList, "c".toList]⟩ ∧
    routing ⟨[.metric .kmh "a".toList, .ignored, .metric .meters "b".toList, .metric .f64 "c".toList],
        false, [.kmh, .meters, .f64], ["a".toList, "b".toList, "c".toList]⟩
      [⟨"a".toList, 1, none⟩, ⟨"c".toList, 3, some 2⟩, ⟨"a".toList, 5, some 7⟩] =
      .ok { alphas := [5, 0, 3], tolerances := [some 7, none, some 2] } := by decide +kernel

end Verif.Cfg
