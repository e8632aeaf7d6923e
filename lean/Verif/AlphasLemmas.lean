import Verif.AlphasSpec
import Verif.SpecialLemmas3

/-!
# Lemmas about weights that are no finite numbers
-/

namespace Verif.Special

open Dij Search Graph Fp

theorem lt_zero {a : Num ℚ} : lt a (.fin 0) = true ↔ Below a := by
  cases a <;> simp [lt, Below]

/-! ## Finite weights -/

theorem dotA_fin (al : List ℚ) (m : List (Num ℚ)) : dotA (al.map .fin) m = dotN al m := by
  unfold dotA dotN
  generalize (Num.fin 0 : Num (Rounded f64)) = s
  induction al generalizing m s with
  | nil => rfl
  | cons a al ih =>
    cases m with
    | nil => rfl
    | cons x m => exact ih m _

theorem routerA_fin {ms : List (List (Num ℚ))} {al : List ℚ} {fuel : Nat} {s : St (Rounded f64)}
    {q : Query (Rounded f64)} : routerA ms (al.map .fin) fuel s q = router ms fuel s { q with alphas := al } := by
  unfold routerA router
  have h1 : (al.map Num.fin).any (fun a => lt a (.fin 0)) = al.any (fun a => decide (a < 0)) := by
    rw [List.any_map]; rfl
  have h2 : dotA (al.map .fin) = dotN al := funext (dotA_fin al)
  rw [h1, h2]
  by_cases h : al.any (fun a => decide (a < 0)) = true
  · rw [if_pos h, if_pos h]
  rw [if_neg h, if_neg h]
  cases q.algo with
  | explorator => rfl
  | dijkstra | chDijkstra =>
    simp only
    split <;> rename_i h3 <;> simp only [h3]

/-! ## Other weights -/

/-- A weight of an edge that is not used. -/
def Closed (x : Num (Rounded f64)) : Prop := x = .inf ∨ x = .nan

theorem addN_closed {x y : Num (Rounded f64)} (hx : x ≠ .neg) (hy : y ≠ .neg) (h : Closed x ∨ Closed y) :
    Closed (addN x y) := by
  unfold Closed at *
  cases x <;> cases y <;> simp_all [addN]

theorem mulA_neg {a x : Num ℚ} (ha : ¬ Below a) (hx : x ≠ .neg ∧ ∀ y : ℚ, x = .fin y → 0 ≤ y) : mulA a x ≠ .neg := by
  cases a with
  | fin a => exact mulN_neg (not_lt.mp ha) hx.1
  | neg => exact absurd trivial ha
  | nan => simp [mulA]
  | inf =>
    cases x with
    | fin x =>
      simp only [mulA]
      by_cases h : x = 0
      · simp [h]
      · rw [if_neg h, if_pos (lt_of_le_of_ne (hx.2 x rfl) (Ne.symm h))]; simp
    | inf => simp [mulA]
    | neg => exact absurd rfl hx.1
    | nan => simp [mulA]

theorem mulA_closed {a x : Num ℚ} (ha : ¬ Below a) (hx : x ≠ .neg ∧ ∀ y : ℚ, x = .fin y → 0 ≤ y)
    (h : ∀ y : ℚ, a ≠ .fin y) : Closed (mulA a x) := by
  have hn := mulA_neg ha hx
  cases a with
  | fin a => exact absurd rfl (h a)
  | neg => exact absurd trivial ha
  | nan => exact .inr rfl
  | inf =>
    cases x with
    | fin x =>
      simp only [mulA] at hn ⊢
      split_ifs at hn ⊢ <;> simp_all [Closed]
    | inf => exact .inl rfl
    | neg => exact absurd rfl hx.1
    | nan => exact .inr rfl

theorem foldA {l : List (Num ℚ × Num ℚ)}
    (hl : ∀ p ∈ l, ¬ Below p.1 ∧ p.2 ≠ .neg ∧ ∀ y : ℚ, p.2 = .fin y → 0 ≤ y) {s : Num (Rounded f64)}
    (hs : s ≠ .neg) (h : Closed s ∨ ∃ p ∈ l, ∀ y : ℚ, p.1 ≠ .fin y) :
    Closed (l.foldl (fun s p => addN s (mulA p.1 p.2)) s) := by
  induction l generalizing s with
  | nil =>
    rcases h with h | ⟨p, hp, _⟩
    · exact h
    · cases hp
  | cons p l ih =>
    obtain ⟨h1, h2⟩ := hl p List.mem_cons_self
    have hm := mulA_neg h1 h2
    refine ih (fun q hq => hl q (List.mem_cons_of_mem _ hq)) (addN_neg hs hm) ?_
    rcases h with h | ⟨p', hp, hy⟩
    · exact .inl (addN_closed hs hm (.inl h))
    · rcases List.mem_cons.mp hp with rfl | hp
      · exact .inl (addN_closed hs hm (.inr (mulA_closed h1 h2 hy)))
      · exact .inr ⟨p', hp, hy⟩

theorem exists_zip_left {α β : Type} {l : List α} {m : List β} (h : m.length = l.length) {a : α} (ha : a ∈ l) :
    ∃ x, (a, x) ∈ l.zip m := by
  induction l generalizing m with
  | nil => cases ha
  | cons b l ih =>
    cases m with
    | nil => simp at h
    | cons y m =>
      rcases List.mem_cons.mp ha with rfl | ha
      · exact ⟨y, by simp⟩
      · obtain ⟨x, hx⟩ := ih (by simpa using h) ha
        exact ⟨x, List.mem_cons_of_mem _ hx⟩

theorem dotA_closed {al m : List (Num ℚ)} (ha : ∀ a ∈ al, ¬ Below a)
    (hm : ∀ x ∈ m, x ≠ .neg ∧ ∀ y : ℚ, x = .fin y → 0 ≤ y) (hlen : m.length = al.length)
    (h : ∃ a ∈ al, ∀ y : ℚ, a ≠ .fin y) : Closed (dotA al m) := by
  refine foldA (fun p hp => ⟨ha _ (List.of_mem_zip hp).1, hm _ (List.of_mem_zip hp).2⟩) (by simp) ?_
  obtain ⟨a, hmem, hy⟩ := h
  obtain ⟨x, hx⟩ := exists_zip_left hlen hmem
  exact .inr ⟨_, hx, hy⟩

/-- Metrics so that no edge is used. -/
def shut (ms : List (List (Num ℚ))) : List (List (Num ℚ)) := ms.map fun _ => [.nan]

theorem shut_dot (m : List (Num ℚ)) (ms : List (List (Num ℚ))) (hm : m ∈ shut ms) : Closed (dotN [1] m) := by
  obtain ⟨_, _, rfl⟩ := List.mem_map.mp hm
  exact .inr rfl

section
variable {h : Heap (Rounded f64)} {g : Graph} {ms : List (List (Num ℚ))} {wt : List (Num ℚ) → Num (Rounded f64)}

theorem relax_shut (hw : ∀ m ∈ ms, Closed (wt m)) {isNone : Bool} {cur : CN (Rounded f64)} {es : List Nat}
    {s : St (Rounded f64)} : relax h g ms wt isNone cur es s = relax h g (shut ms) (dotN [1]) isNone cur es s := by
  induction es generalizing s with
  | nil => rfl
  | cons e es ih =>
    unfold relax
    refine congrArg _ (funext fun v => congrArg _ (funext fun lower => ?_))
    split
    · rfl
    have hg : (shut ms)[e]? = (ms[e]?).map fun _ => [Num.nan] := by unfold shut; rw [List.getElem?_map]
    rw [hg]
    cases hv : ms[e]? with
    | none => rfl
    | some m =>
      simp only [Option.map_some, Res.ofIdx, Res.ok_bind]
      refine congrArg _ (funext fun old => ?_)
      have h1 : Closed (addN (.fin cur.cost) (wt m)) := by
        rcases hw m (List.mem_of_getElem? hv) with h | h <;> rw [h]
        · exact .inl rfl
        · exact .inr rfl
      have h2 : addN (.fin cur.cost) (dotN [1] [.nan]) = .nan := rfl
      rw [h2]
      rcases h1 with h1 | h1 <;> rw [h1] <;> exact ih

theorem expand_shut (hw : ∀ m ∈ ms, Closed (wt m)) : expand h g ms wt = expand h g (shut ms) (dotN [1]) := by
  funext s best cur
  unfold expand
  refine congrArg _ (funext fun es => ?_)
  rw [relax_shut hw]

theorem step_shut (hw : ∀ m ∈ ms, Closed (wt m)) : step h g ms wt = step h g (shut ms) (dotN [1]) := by
  funext s best cur
  unfold step
  rw [expand_shut hw]

theorem loop_shut (hw : ∀ m ∈ ms, Closed (wt m)) : loop h g ms wt = loop h g (shut ms) (dotN [1]) := by
  funext fuel
  induction fuel with
  | zero => rfl
  | succ fuel ih =>
    funext s best
    unfold loop
    rw [step_shut hw, ih]

theorem search_shut (hw : ∀ m ∈ ms, Closed (wt m)) : search h g ms wt = search h g (shut ms) (dotN [1]) := by
  funext fuel s src dst
  unfold search
  rw [loop_shut hw]

end

theorem routerA_shut {ms : List (List (Num ℚ))} {al : List (Num ℚ)} (hm : Nonneg ms)
    (hdim : ∀ m ∈ ms, m.length = al.length) (ha : ∀ a ∈ al, ¬ Below a) (h : ∃ a ∈ al, ∀ y : ℚ, a ≠ .fin y)
    {fuel : Nat} {s : St (Rounded f64)} {q : Query (Rounded f64)} :
    routerA ms al fuel s q = router (shut ms) fuel s { q with alphas := [1] } := by
  unfold routerA router
  have h1 : ¬ al.any (fun a => lt a (.fin 0)) = true := by
    rw [List.any_eq_true]
    rintro ⟨a, hmem, hlt⟩
    exact ha a hmem (lt_zero.mp hlt)
  have h2 : ¬ ([1] : List ℚ).any (fun a => decide (a < 0)) = true := by simp
  rw [if_neg h1, if_neg h2, search_shut fun m hmem => dotA_closed ha (hm m hmem) (hdim m hmem) h]
  cases q.algo with
  | explorator => rfl
  | dijkstra | chDijkstra =>
    simp only
    split <;> rename_i h3 <;> simp only [h3]

theorem routerA_below {ms : List (List (Num ℚ))} {al : List (Num ℚ)} (h : ∃ a ∈ al, Below a) {fuel : Nat}
    {s : St (Rounded f64)} {q : Query (Rounded f64)} : routerA ms al fuel s q = some (.ok (s, none)) := by
  unfold routerA
  obtain ⟨a, ha, hb⟩ := h
  rw [if_pos (List.any_eq_true.mpr ⟨a, ha, lt_zero.mpr hb⟩)]

theorem shut_nonneg (ms : List (List (Num ℚ))) : Nonneg (shut ms) := by
  intro m hm x hx
  obtain ⟨_, _, rfl⟩ := List.mem_map.mp hm
  simp only [List.mem_singleton] at hx
  subst hx
  simp

/-- Every query is one with finite weights. -/
theorem routerA_cases {ms : List (List (Num ℚ))} {al : List (Num ℚ)} (hm : Nonneg ms)
    (hdim : ∀ m ∈ ms, m.length = al.length) : ∃ ms' al', Nonneg ms' ∧ ms'.length = ms.length ∧
      ∀ fuel s (q : Query (Rounded f64)), routerA ms al fuel s q = router ms' fuel s { q with alphas := al' } := by
  by_cases hb : ∃ a ∈ al, Below a
  · refine ⟨ms, [-1], hm, rfl, fun fuel s q => ?_⟩
    rw [routerA_below hb]
    unfold router
    rw [if_pos (by simp)]
  push Not at hb
  by_cases h : ∃ a ∈ al, ∀ y : ℚ, a ≠ .fin y
  · exact ⟨shut ms, [1], shut_nonneg ms, by simp [shut], fun fuel s q => routerA_shut hm hdim hb h⟩
  · push Not at h
    obtain ⟨al', rfl⟩ := all_fin h
    exact ⟨ms, al', hm, rfl, fun fuel s q => routerA_fin⟩

theorem UsedA.used {n : Nat} {s : St (Rounded f64)} (hu : UsedA n s) : Used n s := by
  induction hu with
  | new => exact .new
  | @query s s' q ms al fuel ans _ hq hm hdim hc ih =>
    obtain ⟨ms', al', h1, _, h3⟩ := routerA_cases hm hdim
    rw [h3] at hc
    exact Used.query ih (q := { q with alphas := al' }) hq h1 hc

end Verif.Special
