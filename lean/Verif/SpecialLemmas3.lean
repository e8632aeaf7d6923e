import Verif.SpecialLemmas2
import Verif.ApproxProps

/-!
# Lemmas about finite values, loading and normalizing
-/

namespace Verif.Special

open Dij Search Graph Fp

/-! ## Finite values only -/

section
variable {h : Heap (Rounded f64)} {g : Graph} {ms : List (List (Num ℚ))} {al : List ℚ}

theorem nonneg_fin (hm : NonnegMetrics g) : Nonneg (g.metrics.map (·.map .fin)) := by
  intro m hmem x hx
  obtain ⟨m, hmem', rfl⟩ := List.mem_map.mp hmem
  obtain ⟨x, hx', rfl⟩ := List.mem_map.mp hx
  exact ⟨by simp, fun y hy => by cases hy; exact hm m hmem' x hx'⟩

theorem relax_fin (ha : ∀ a ∈ al, 0 ≤ a) {isNone : Bool} {cur : CN (Rounded f64)} {es : List Nat}
    {s : St (Rounded f64)} : relax h g (g.metrics.map (·.map .fin)) (dotN al) isNone cur es s =
      Over.relax Over.fitsF h g (Over.dot al) isNone cur es s := by
  induction es generalizing s with
  | nil => rfl
  | cons e es ih =>
    unfold relax Over.relax
    refine congrArg _ (funext fun v => congrArg _ (funext fun lower => ?_))
    split
    · rfl
    rw [List.getElem?_map]
    cases hv : g.metrics[e]? with
    | none => rfl
    | some m =>
      simp only [Option.map_some, Res.ofIdx, Res.ok_bind]
      refine congrArg _ (funext fun old => ?_)
      have hneg : addN (.fin cur.cost) (dotN al (m.map .fin)) ≠ .neg :=
        addN_neg (by simp) (dotN_neg ha fun x hx => by
          obtain ⟨y, _, rfl⟩ := List.mem_map.mp hx
          simp)
      have hp : Over.plus Over.fitsF (some cur.cost) (Over.dot al m) =
          toOpt (addN (.fin cur.cost) (dotN al (m.map .fin))) := by rw [addN_plus, dotN_fin]; rfl
      rw [hp]
      cases hc : addN (.fin cur.cost) (dotN al (m.map .fin)) with
      | inf => exact ih
      | nan => exact ih
      | neg => exact absurd hc hneg
      | fin c =>
        simp only [toOpt]
        split
        · refine congrArg _ (funext fun ps => congrArg _ (funext fun cs => ih))
        · exact ih

theorem expand_fin (ha : ∀ a ∈ al, 0 ≤ a) : expand h g (g.metrics.map (·.map .fin)) (dotN al) =
    Over.expand Over.fitsF h g (Over.dot al) := by
  funext s best cur
  unfold expand Over.expand
  refine congrArg _ (funext fun es => ?_)
  rw [relax_fin ha]

theorem step_fin (ha : ∀ a ∈ al, 0 ≤ a) : step h g (g.metrics.map (·.map .fin)) (dotN al) =
    Over.step Over.fitsF h g (Over.dot al) := by
  funext s best cur
  unfold step Over.step
  rw [expand_fin ha]
  split
  · rfl
  refine congrArg _ (funext fun label => ?_)
  split
  · rfl
  refine congrArg _ (funext fun s => ?_)
  rcases best with _ | ⟨m, b⟩ <;> rfl

theorem loop_fin (ha : ∀ a ∈ al, 0 ≤ a) : loop h g (g.metrics.map (·.map .fin)) (dotN al) =
    Over.loop Over.fitsF h g (Over.dot al) := by
  funext fuel
  induction fuel with
  | zero => rfl
  | succ fuel ih =>
    funext s best
    unfold loop Over.loop
    rw [step_fin ha, ih]
    rcases h.pop s.queue with _ | ⟨cur, q⟩
    · rfl
    simp only
    rcases Over.step Over.fitsF h g (Over.dot al) { s with queue := q } best cur with (_ | _) | _ | _ <;> rfl

end

theorem router_fin {fuel : Nat} {s : St (Rounded f64)} {q : Query (Rounded f64)} :
    router (q.graph.metrics.map (·.map .fin)) fuel s q = Over.router fuel s q := by
  unfold router Over.router Over.computeBestPath
  by_cases hal : ∀ a ∈ q.alphas, 0 ≤ a
  swap
  · rw [if_pos (by simpa using hal), if_pos (by simpa using hal)]
  rw [if_neg (by simpa using hal), if_neg (by simpa using hal)]
  have hs : search (heap f64) q.graph (q.graph.metrics.map (·.map .fin)) (dotN q.alphas) =
      Over.search Over.fitsF (heap f64) q.graph (Over.dot q.alphas) := by
    funext fuel s src dst
    unfold search Over.search
    rw [loop_fin hal]
    rcases Over.loop Over.fitsF (heap f64) q.graph (Over.dot q.alphas) fuel s none with _ | ⟨_, _⟩ | _ | _ <;> rfl
  rw [hs]
  cases q.algo with
  | explorator => rfl
  | dijkstra | chDijkstra =>
    simp only
    split <;> rename_i h1 <;> (simp only [h1]; try rfl)

/-! ## Loading -/

variable {parseF : List Char → Option ℚ}

theorem parse_reads {t : List Char} {x : Num ℚ} :
    (∃ y, parse parseF t = some y ∧ lift y = x ∧ lt x (.fin eps) = false) ↔ Reads parseF t x := by
  have hzero (y : ℚ) : Approx.eq y 0 = true ↔ |y| < 3 / 2000000 := by rw [Approx.C24_eq_iff, sub_zero]
  constructor
  · rintro ⟨y, h1, rfl, h3⟩
    unfold parse at h1
    split_ifs at h1 with c1 c2 c3
    · cases h1; exact c1 ▸ .nan
    · cases h1; exact c2 ▸ .inf
    · cases h1; cases h3
    · cases hp : parseF t with
      | none => rw [hp] at h1; cases h1
      | some z =>
        rw [hp] at h1
        cases h1
        by_cases hz : |z| < 3 / 2000000
        · rw [show lift (.fin z) = .fin eps by simp [lift, same, (hzero z).mpr hz]]
          exact .small ⟨c1, c2, c3⟩ hp hz
        · have hz' : ¬ Approx.eq z 0 = true := fun h => hz ((hzero z).mp h)
          have hl : lift (.fin z) = .fin z := by simp [lift, same, hz']
          rw [hl] at h3 ⊢
          have : eps ≤ z := by simpa [lt] using h3
          refine .large ⟨c1, c2, c3⟩ hp ?_
          have h0 : 0 ≤ z := le_trans (le_of_lt Approx.eps_pos) this
          rw [abs_of_nonneg h0] at hz
          exact not_lt.mp hz
  · intro h
    cases h with
    | nan => exact ⟨.nan, by simp [parse], rfl, rfl⟩
    | inf => exact ⟨.inf, by simp [parse], rfl, rfl⟩
    | @small _ y c hp hy =>
      refine ⟨.fin y, ?_, ?_, by simp [lt, eps]⟩
      · simp [parse, c.1, c.2.1, c.2.2, hp]
      · simp [lift, same, (hzero y).mpr hy, eps]
    | @large _ y c hp hy =>
      have h0 : (0 : ℚ) ≤ y := le_trans (by norm_num) hy
      have hz : ¬ Approx.eq y 0 = true := fun h => by
        have := (hzero y).mp h
        rw [abs_of_nonneg h0] at this
        exact absurd hy (not_le.mpr this)
      refine ⟨.fin y, ?_, ?_, ?_⟩
      · simp [parse, c.1, c.2.1, c.2.2, hp]
      · simp [lift, same, hz]
      · have : eps ≤ y := le_trans (by norm_num [eps]) hy
        simpa [lt] using this

theorem parseRow_iff {ts : List (List Char)} {m : List (Num ℚ)} :
    parseRow parseF ts = some m ↔ List.Forall₂ (fun t y => parse parseF t = some y) ts m := by
  induction ts generalizing m with
  | nil => simp [parseRow, eq_comm]
  | cons t ts ih =>
    unfold parseRow
    constructor
    · intro h
      cases h1 : parse parseF t with
      | none => rw [h1] at h; cases h
      | some x =>
        cases h2 : parseRow parseF ts with
        | none => rw [h1, h2] at h; cases h
        | some m' =>
          rw [h1, h2] at h
          cases h
          exact .cons h1 (ih.mp h2)
    · intro h
      cases h with
      | cons h1 h2 => rw [h1, ih.mpr h2]

theorem parseRows_iff {ts : List (List (List Char))} {m : List (List (Num ℚ))} :
    parseRows parseF ts = some m ↔ List.Forall₂ (List.Forall₂ (fun t y => parse parseF t = some y)) ts m := by
  induction ts generalizing m with
  | nil => simp [parseRows, eq_comm]
  | cons t ts ih =>
    unfold parseRows
    constructor
    · intro h
      cases h1 : parseRow parseF t with
      | none => rw [h1] at h; cases h
      | some x =>
        cases h2 : parseRows parseF ts with
        | none => rw [h1, h2] at h; cases h
        | some m' =>
          rw [h1, h2] at h
          cases h
          exact .cons (parseRow_iff.mp h1) (ih.mp h2)
    · intro h
      cases h with
      | cons h1 h2 => rw [parseRow_iff.mpr h1, ih.mpr h2]

/-- Relations of lists whose values are mapped and checked. -/
theorem forall₂_map {α β γ : Type} {P : α → β → Prop} {Q : α → γ → Prop} {f : β → γ} {ok : γ → Prop}
    (h : ∀ a c, (∃ b, P a b ∧ f b = c ∧ ok c) ↔ Q a c) {as : List α} {cs : List γ} :
    (∃ bs, List.Forall₂ P as bs ∧ bs.map f = cs ∧ ∀ c ∈ cs, ok c) ↔ List.Forall₂ Q as cs := by
  induction as generalizing cs with
  | nil =>
    constructor
    · rintro ⟨bs, h1, rfl, _⟩
      cases h1
      exact .nil
    · intro h1
      cases h1
      exact ⟨[], .nil, rfl, by simp⟩
  | cons a as ih =>
    constructor
    · rintro ⟨bs, h1, rfl, h3⟩
      cases h1 with
      | cons h1 h2 =>
        exact .cons ((h _ _).mp ⟨_, h1, rfl, h3 _ List.mem_cons_self⟩)
          (ih.mp ⟨_, h2, rfl, fun c hc => h3 c (List.mem_cons_of_mem _ hc)⟩)
    · intro h1
      cases h1 with
      | cons h1 h2 =>
        obtain ⟨b, hb1, hb2, hb3⟩ := (h _ _).mpr h1
        obtain ⟨bs, hbs1, hbs2, hbs3⟩ := ih.mpr h2
        exact ⟨b :: bs, .cons hb1 hbs1, by simp [hb2, hbs2], by simp [hb3]; exact hbs3⟩

theorem load_iff {rows : List (List (List Char))} {ms : List (List (Num ℚ))} :
    load parseF rows = .ok ms ↔ List.Forall₂ (List.Forall₂ (Reads parseF)) rows ms := by
  rw [← forall₂_map (P := List.Forall₂ (fun t y => parse parseF t = some y)) (f := fun m => m.map lift)
    (ok := fun m => ∀ x ∈ m, lt x (.fin eps) = false)
    (fun a c => forall₂_map (ok := fun x => lt x (.fin eps) = false) fun t x => parse_reads)]
  unfold load
  cases h1 : parseRows parseF rows with
  | none =>
    constructor
    · intro h; cases h
    · rintro ⟨bs, hb, _⟩
      rw [parseRows_iff.mpr hb] at h1
      cases h1
  | some vs =>
    have h1 := parseRows_iff.mp h1
    simp only
    constructor
    · intro h
      split at h
      · cases h
      · rename_i hno
        cases h
        refine ⟨vs, h1, rfl, ?_⟩
        intro m hm x hx
        by_contra hc
        exact hno (List.any_eq_true.mpr ⟨m, hm, List.any_eq_true.mpr ⟨x, hx, by simpa using hc⟩⟩)
    · rintro ⟨bs, hb, rfl, hok⟩
      have : vs = bs := by
        have := (parseRows_iff.mpr h1).symm.trans (parseRows_iff.mpr hb)
        simpa using this
      subst this
      rw [if_neg]
      intro hany
      obtain ⟨m, hm, h2⟩ := List.any_eq_true.mp hany
      obtain ⟨x, hx, h3⟩ := List.any_eq_true.mp h2
      rw [hok m hm x hx] at h3
      cases h3

/-! ## Normalizing -/

theorem zipWith_get {α β γ : Type} {f : α → β → γ} {a : List α} {b : List β} {i : Nat} :
    (List.zipWith f a b)[i]? = match a[i]?, b[i]? with
      | some x, some y => some (f x y)
      | _, _ => none := by
  rw [List.getElem?_zipWith]
  cases a[i]? <;> cases b[i]? <;> rfl

/-- The sum of a column. -/
theorem sum_get {ms : List (List (Num ℚ))} {i : Nat} {acc : List (Num ℚ)} {a : Num ℚ} (ha : acc[i]? = some a)
    {xs : List (Num ℚ)} (hx : ms.map (fun m => m[i]?) = xs.map some) :
    (ms.foldl (List.zipWith add) acc)[i]? = some (xs.foldl add a) := by
  induction ms generalizing acc a xs with
  | nil =>
    cases xs with
    | nil => exact ha
    | cons x xs => simp at hx
  | cons m ms ih =>
    cases xs with
    | nil => simp at hx
    | cons x xs =>
      simp only [List.map_cons, List.cons.injEq] at hx
      refine ih (acc := List.zipWith add acc m) (a := add a x) ?_ hx.2
      rw [zipWith_get, ha, hx.1]

theorem add_nan {a : Num ℚ} : add a .nan = .nan := by cases a <;> rfl

theorem sum_nan {xs : List (Num ℚ)} {a : Num ℚ} (h : a = .nan ∨ .nan ∈ xs) : xs.foldl add a = .nan := by
  induction xs generalizing a with
  | nil => simpa using h
  | cons x xs ih =>
    refine ih ?_
    rcases h with rfl | h
    · left; rfl
    · rcases List.mem_cons.mp h with rfl | h
      · left; exact add_nan
      · exact .inr h

theorem sum_inf {xs : List (Num ℚ)} {a : Num ℚ} (hx : ∀ x ∈ xs, x ≠ .nan ∧ x ≠ .neg) (ha : a ≠ .nan ∧ a ≠ .neg)
    (h : a = .inf ∨ .inf ∈ xs) : xs.foldl add a = .inf := by
  induction xs generalizing a with
  | nil => simpa using h
  | cons x xs ih =>
    have hx' := hx x List.mem_cons_self
    refine ih (fun y hy => hx y (List.mem_cons_of_mem _ hy)) ?_ ?_
    · cases a <;> cases x <;> simp_all [add]
    · rcases h with rfl | h
      · left; cases x <;> simp_all [add]
      · rcases List.mem_cons.mp h with rfl | h
        · left; cases a <;> simp_all [add]
        · exact .inr h

/-- A column has a value in each row. -/
theorem column {ms : List (List (Num ℚ))} {dim i : Nat} (hdim : ∀ m ∈ ms, m.length = dim) (hi : i < dim) :
    ∃ xs : List (Num ℚ), ms.map (fun m => m[i]?) = xs.map some ∧
      ∀ x, x ∈ xs ↔ ∃ m ∈ ms, m[i]? = some x := by
  induction ms with
  | nil => exact ⟨[], rfl, by simp⟩
  | cons m ms ih =>
    obtain ⟨xs, h1, h2⟩ := ih (fun m hm => hdim m (List.mem_cons_of_mem _ hm))
    have hlt : i < m.length := by rw [hdim m List.mem_cons_self]; exact hi
    refine ⟨m[i] :: xs, by simp [h1, hlt], fun x => ?_⟩
    simp only [List.mem_cons, h2, exists_eq_or_imp, List.getElem?_eq_getElem hlt, Option.some.injEq]
    exact or_congr_left eq_comm

theorem means_get {ms : List (List (Num ℚ))} {dim i : Nat} (hi : i < dim) {xs : List (Num ℚ)}
    (hx : ms.map (fun m => m[i]?) = xs.map some) :
    (means dim ms)[i]? = some (div (xs.foldl add (.fin 0)) (.fin ms.length)) := by
  unfold means
  rw [List.getElem?_map, sum_get (a := .fin 0) (by simp [hi]) hx]
  rfl

theorem normalize_get {dim : Nat} {ms ms' : List (List (Num ℚ))} (h : normalize dim ms = .ok ms')
    {e i : Nat} {m m' : List (Num ℚ)} {x y mean : Num ℚ} (hm : ms[e]? = some m) (hm' : ms'[e]? = some m')
    (hx : m[i]? = some x) (hy : m'[i]? = some y) (hmean : (means dim ms)[i]? = some mean) : y = lift (div x mean) := by
  unfold normalize at h
  split_ifs at h
  cases h
  rw [List.getElem?_map, hm] at hm'
  cases hm'
  unfold divide at hy
  rw [zipWith_get, hx, hmean] at hy
  cases hy
  rfl

theorem div_nan {x : Num ℚ} : div x .nan = .nan := by cases x <;> rfl

theorem eq_zero : Approx.eq 0 0 = true := Approx.C24_eq_refl 0

end Verif.Special
