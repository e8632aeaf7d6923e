import Verif.CellSpec
import Verif.ExploratingHullProps

/-!
# Property C79: which routes are looked for in a cell

The explorator asks the router with the weights of the hyperplane through the vertices of a cell, unless
no vertex is tolerated in some metric.
-/

namespace Verif.Exp

open Dij (R)

/-! ## Helper lemmas -/

/-- The costs of the paths. -/
def HasCosts (dim : Nat) (cell : List Path) (cs : List (List ℚ)) : Prop :=
  cell.map (·.costs) = cs.map some ∧ ∀ c ∈ cs, c.length = dim

theorem HasCosts.costed {dim : Nat} {cell : List Path} {cs : List (List ℚ)} (h : HasCosts dim cell cs) :
    ∀ p ∈ cell, ∃ c ∈ cs, p.costs = some c := by
  intro p hp
  have : p.costs ∈ cs.map some := h.1 ▸ List.mem_map_of_mem hp
  obtain ⟨c, hc, he⟩ := List.mem_map.mp this
  exact ⟨c, hc, he.symm⟩

theorem HasCosts.back {dim : Nat} {cell : List Path} {cs : List (List ℚ)} (h : HasCosts dim cell cs) :
    ∀ c ∈ cs, ∃ p ∈ cell, p.costs = some c := by
  intro c hc
  have : some c ∈ cell.map (·.costs) := h.1 ▸ List.mem_map_of_mem hc
  obtain ⟨p, hp, he⟩ := List.mem_map.mp this
  exact ⟨p, hp, he⟩

theorem HasCosts.length {dim : Nat} {cell : List Path} {cs : List (List ℚ)} (h : HasCosts dim cell cs) :
    cell.length = cs.length := by
  have := congrArg List.length h.1
  simpa using this

theorem HasCosts.all {dim : Nat} {cell : List Path} {cs : List (List ℚ)} (h : HasCosts dim cell cs) :
    ∀ p ∈ cell, Costed dim p := by
  intro p hp
  obtain ⟨c, h1, h2⟩ := h.costed p hp
  exact ⟨c, h2, h.2 c h1⟩

theorem undercut_ok {i : Nat} {t : Option ℚ} {cell : List Path} {r : Bool}
    (h : undercut i t cell = .ok r) :
    r = true ↔ ∃ p ∈ cell, ∃ c x, p.costs = some c ∧ c[i]? = some x ∧ ∀ y, t = some y → x ≤ y := by
  induction cell with
  | nil => cases h; simp
  | cons p ps ih =>
    unfold undercut at h
    obtain ⟨c, hc, h⟩ := Res.bind_eq_ok.mp h
    rw [pacc_ok, getCosts_ok] at hc
    obtain ⟨x, hx, h⟩ := Res.bind_eq_ok.mp h
    rw [Build.ofIdx_iff] at hx
    split at h
    · rename_i hle
      cases h
      simp only [true_iff]
      exact ⟨p, List.mem_cons_self, c, x, hc, hx, Search.leInf_iff.mp hle⟩
    · rename_i hle
      rw [ih h]
      constructor
      · rintro ⟨p, hp, hr⟩; exact ⟨p, List.mem_cons_of_mem _ hp, hr⟩
      · rintro ⟨r, hr, c', x', h1, h2, h3⟩
        rcases List.mem_cons.mp hr with rfl | hr
        · rw [hc] at h1; cases h1
          rw [hx] at h2; cases h2
          exact absurd (Search.leInf_iff.mpr h3) hle
        · exact ⟨r, hr, c', x', h1, h2, h3⟩

theorem hopeless_ok {cell : List Path} {i : Nat} {tol : List (Option ℚ)} {r : Bool}
    (h : hopeless cell i tol = .ok r) :
    r = true ↔ ∃ (k : Nat) (t : Option ℚ), tol[k]? = some t ∧
      ∀ p ∈ cell, ∀ c x, p.costs = some c → c[i + k]? = some x → ∃ y, t = some y ∧ y < x := by
  induction tol generalizing i with
  | nil => cases h; simp
  | cons t tol ih =>
    unfold hopeless at h
    obtain ⟨ok, hok, h⟩ := Res.bind_eq_ok.mp h
    have hu := undercut_ok hok
    cases ok with
    | false =>
      cases h
      simp only [true_iff]
      refine ⟨0, t, rfl, fun p hp c x hc hx => ?_⟩
      by_contra hcon
      refine absurd (hu.mpr ⟨p, hp, c, x, hc, hx, fun y hy => ?_⟩) (by simp)
      by_contra hlt
      exact hcon ⟨y, hy, not_le.mp hlt⟩
    | true =>
      simp only [if_true] at h
      obtain ⟨p, hp, c, x, hc, hx, hle⟩ := hu.mp rfl
      rw [ih h]
      constructor
      · rintro ⟨k, t', h1, h2⟩
        exact ⟨k + 1, t', by simpa using h1, fun p hp c x hc hx => h2 p hp c x hc (by
          rwa [show i + 1 + k = i + (k + 1) by omega])⟩
      · rintro ⟨k, t', h1, h2⟩
        cases k with
        | zero =>
          simp only [List.getElem?_cons_zero, Option.some.injEq] at h1
          subst h1
          obtain ⟨y, h3, h4⟩ := h2 p hp c x hc hx
          exact absurd (hle y h3) (not_le.mpr h4)
        | succ k =>
          exact ⟨k, t', by simpa using h1, fun p hp c x hc hx => h2 p hp c x hc (by
            rwa [show i + (k + 1) = i + 1 + k by omega])⟩

/-- The model's test is the specified one. -/
theorem hopeless_spec {dim : Nat} {cell : List Path} {cs : List (List ℚ)} (hc : HasCosts dim cell cs)
    (hne : cell ≠ []) {tol : List (Option ℚ)} (ht : tol.length = dim) :
    ∃ r, hopeless cell 0 tol = .ok r ∧ (r = true ↔ Hopeless cs tol) := by
  obtain ⟨r, hr⟩ := hopeless_total (i := 0) (tol := tol) hc.all (by omega)
  refine ⟨r, hr, ?_⟩
  rw [hopeless_ok hr]
  constructor
  · rintro ⟨k, t, h1, h2⟩
    obtain ⟨p, ps, rfl⟩ := List.exists_cons_of_ne_nil hne
    have hk : k < dim := by rw [← ht]; exact (List.getElem?_eq_some_iff.mp h1).1
    obtain ⟨c, hc1, hc2⟩ := hc.costed p List.mem_cons_self
    have hx : c[0 + k]? = some (c[k]'(by rw [hc.2 c hc1]; exact hk)) := by
      rw [Nat.zero_add]; exact List.getElem?_eq_getElem _
    obtain ⟨y, rfl, _⟩ := h2 p List.mem_cons_self c _ hc2 hx
    refine ⟨k, y, h1, fun c hc' x hx => ?_⟩
    obtain ⟨p', hp', hpc⟩ := hc.back c hc'
    obtain ⟨y', e, hlt⟩ := h2 p' hp' c x hpc (by rwa [Nat.zero_add])
    cases e
    exact hlt
  · rintro ⟨k, t, h1, h2⟩
    refine ⟨k, some t, h1, fun p hp c x hpc hx => ⟨t, rfl, ?_⟩⟩
    obtain ⟨c', hc', he⟩ := hc.costed p hp
    rw [hpc] at he
    cases he
    exact h2 c hc' x (by rwa [Nat.zero_add] at hx)

/-! ### The linear system -/

theorem costRows_iff {dim : Nat} {c0 : List ℚ} {ps : List Path} {cs : List (List ℚ)}
    (hc : HasCosts dim ps cs) : costRows c0 ps = .ok (cs.map (vsub c0)) := by
  induction ps generalizing cs with
  | nil =>
    have : cs = [] := by
      have := hc.length
      exact List.length_eq_zero_iff.mp this.symm
    subst this
    rfl
  | cons p ps ih =>
    cases cs with
    | nil => exact absurd hc.length (by simp)
    | cons c cs =>
      have h1 := hc.1
      simp only [List.map_cons, List.cons.injEq] at h1
      unfold costRows
      rw [pacc_ok.mpr (getCosts_ok.mpr h1.1), Res.ok_bind,
        ih ⟨h1.2, fun d hd => hc.2 d (List.mem_cons_of_mem _ hd)⟩, Res.ok_bind]
      rfl

theorem unitRows_ok {dim i : Nat} {ds : List Bool} {rows : List (List ℚ)}
    (h : unitRows dim i ds = .ok rows) {row : List ℚ} (hr : row ∈ rows) :
    ∃ k : Nat, ds[k]? = some false ∧ row = (List.replicate dim 0).set (i + k) 1 := by
  induction ds generalizing i rows with
  | nil => cases h; cases hr
  | cons d ds ih =>
    unfold unitRows at h
    cases d with
    | true =>
      rw [if_pos rfl] at h
      obtain ⟨k, h1, h2⟩ := ih h hr
      exact ⟨k + 1, by simpa using h1, by rw [h2, show i + 1 + k = i + (k + 1) by omega]⟩
    | false =>
      simp only [Bool.false_eq_true, if_false] at h
      obtain ⟨row', hr', h⟩ := Res.bind_eq_ok.mp h
      obtain ⟨rows', hrs, h⟩ := Res.bind_eq_ok.mp h
      cases h
      rw [setIdx_ok] at hr'
      rcases List.mem_cons.mp hr with rfl | hr
      · exact ⟨0, by simp, hr'.2⟩
      · obtain ⟨k, h1, h2⟩ := ih hrs hr
        exact ⟨k + 1, by simpa using h1, by rw [h2, show i + 1 + k = i + (k + 1) by omega]⟩

theorem solves_zero {m : List (List ℚ)} {x : List ℚ} :
    Solves m (List.replicate m.length 0) x ↔ ∀ row ∈ m, weigh row x = 0 := by
  constructor
  · intro h row hr
    obtain ⟨i, hi, rfl⟩ := List.mem_iff_getElem.mp hr
    exact h i _ 0 (List.getElem?_eq_getElem hi) (by simp [hi])
  · intro h i row r h1 h2
    rw [List.getElem?_replicate] at h2
    split at h2
    · cases h2; exact h row (List.mem_of_getElem? h1)
    · cases h2

theorem solves_append {m m' : List (List ℚ)} {r r' x : List ℚ} (hl : r.length = m.length) :
    Solves (m ++ m') (r ++ r') x ↔ Solves m r x ∧ Solves m' r' x := by
  constructor
  · intro h
    refine ⟨fun i row b h1 h2 => h i row b ?_ ?_, fun i row b h1 h2 => h (m.length + i) row b ?_ ?_⟩
    · rw [List.getElem?_append_left (List.getElem?_eq_some_iff.mp h1).1]; exact h1
    · rw [List.getElem?_append_left (List.getElem?_eq_some_iff.mp h2).1]; exact h2
    · rw [List.getElem?_append_right (by omega), Nat.add_sub_cancel_left]; exact h1
    · rw [List.getElem?_append_right (by omega), hl, Nat.add_sub_cancel_left]; exact h2
  · rintro ⟨h, h'⟩ i row b h1 h2
    by_cases hi : i < m.length
    · rw [List.getElem?_append_left hi] at h1
      rw [List.getElem?_append_left (by omega)] at h2
      exact h i row b h1 h2
    · rw [List.getElem?_append_right (by omega)] at h1
      rw [List.getElem?_append_right (by omega), hl] at h2
      exact h' _ row b h1 h2

theorem weigh_ones {dim : Nat} {x : List ℚ} (hx : x.length = dim) :
    weigh (List.replicate dim 1) x = x.sum := by
  unfold weigh
  induction x generalizing dim with
  | nil => simp
  | cons a x ih =>
    cases dim with
    | zero => simp at hx
    | succ dim =>
      simp only [List.replicate_succ, List.zipWith_cons_cons, List.sum_cons, one_mul]
      rw [ih (by simpa using hx)]

theorem count_sum (ds : List Bool) : ds.count true + ds.count false = ds.length := by
  induction ds with
  | nil => rfl
  | cons d ds ih => cases d <;> simp <;> omega

/-- The rows say that the weights are those of a hyperplane through the cell. -/
theorem system_rows {q : Query} {cell : List Path} {cs : List (List ℚ)} (hc : HasCosts q.dim cell cs)
    (hne : cell ≠ []) (hcon : q.considered.length = q.dim) :
    ∃ rows, createSystem q cell = finishSystem q.dim rows ∧
      rows.length + 1 = cs.length + q.considered.count false ∧ (∀ row ∈ rows, row.length = q.dim) ∧
      ∀ x, x.length = q.dim → ((∀ row ∈ rows, weigh row x = 0) ↔ Normal cs q.considered x) := by
  obtain ⟨units, h1, h2, h3⟩ := unitRows_total (dim := q.dim) (i := 0) (ds := q.considered) (by omega)
  obtain ⟨p0, ps, rfl⟩ := List.exists_cons_of_ne_nil hne
  cases cs with
  | nil => exact absurd hc.length (by simp)
  | cons c0 cs =>
    have hm := hc.1
    simp only [List.map_cons, List.cons.injEq] at hm
    have hc' : HasCosts q.dim ps cs := ⟨hm.2, fun d hd => hc.2 d (List.mem_cons_of_mem _ hd)⟩
    have hl0 := hc.2 c0 List.mem_cons_self
    refine ⟨cs.map (vsub c0) ++ units, ?_, ?_, ?_, fun x hx => ?_⟩
    · unfold createSystem
      cases ps with
      | nil =>
        have : cs = [] := List.length_eq_zero_iff.mp hc'.length.symm
        subst this
        simp only [List.isEmpty_nil, if_true, List.map_nil, List.nil_append]
        rw [h1, Res.ok_bind]
      | cons p1 ps =>
        simp only [List.isEmpty_cons, Bool.false_eq_true, if_false]
        rw [pacc_ok.mpr (getCosts_ok.mpr hm.1), Res.ok_bind, costRows_iff hc', Res.ok_bind, h1, Res.ok_bind]
    · simp only [List.length_append, List.length_map, List.length_cons, h2]; omega
    · intro row hr
      rcases List.mem_append.mp hr with hr | hr
      · obtain ⟨rows, k1, _, k3⟩ := costRows_total hl0 hc'.all
        rw [costRows_iff hc'] at k1
        cases k1
        exact k3 row hr
      · exact h3 row hr
    · have hrow : ∀ c ∈ cs, weigh (vsub c0 c) x = weigh x c0 - weigh x c := fun c hcs =>
        weigh_vsub (by rw [hl0, hc'.2 c hcs])
      constructor
      · intro h
        have heq : ∀ c ∈ c0 :: cs, weigh x c = weigh x c0 := by
          intro c hcs
          rcases List.mem_cons.mp hcs with rfl | hcs
          · rfl
          · have := h _ (List.mem_append_left _ (List.mem_map_of_mem hcs))
            rw [hrow c hcs] at this
            linarith
        refine ⟨by omega, fun c hc d hd => (heq c hc).trans (heq d hd).symm, fun i hi => ?_⟩
        have := h _ (List.mem_append_right _ (unitRows_mem h1 hi))
        rw [weigh_unit hx, Nat.zero_add] at this
        have hlt : i < x.length := by
          have := (List.getElem?_eq_some_iff.mp hi).1
          omega
        rw [List.getElem?_eq_getElem hlt] at this ⊢
        simpa using this
      · intro h row hr
        rcases List.mem_append.mp hr with hr | hr
        · obtain ⟨c, hcs, rfl⟩ := List.mem_map.mp hr
          rw [hrow c hcs, h.same c0 List.mem_cons_self c (List.mem_cons_of_mem _ hcs), sub_self]
        · obtain ⟨k, hk, rfl⟩ := unitRows_ok h1 hr
          rw [weigh_unit hx, Nat.zero_add, h.ignored k hk]
          rfl

/-- The system of a cell, by the number of its vertices. -/
theorem system_cases {q : Query} {cell : List Path} {cs : List (List ℚ)} (hc : HasCosts q.dim cell cs)
    (hne : cell ≠ []) (hcon : q.considered.length = q.dim) :
    (cs.length < q.considered.count true → createSystem q cell = .ok none) ∧
    (cs.length = q.considered.count true → ∃ m rhs, createSystem q cell = .ok (some (m, rhs)) ∧
      m.length = q.dim ∧ rhs.length = q.dim ∧ (∀ row ∈ m, row.length = q.dim) ∧
      ∀ x, x.length = q.dim → (Solves m rhs x ↔ Normal cs q.considered x ∧ x.sum = 1)) ∧
    (cs.length = q.considered.count true + 1 → ∃ m rhs, createSystem q cell = .ok (some (m, rhs)) ∧
      m.length = q.dim ∧ rhs.length = q.dim ∧ (∀ row ∈ m, row.length = q.dim) ∧
      ∀ x, x.length = q.dim → (Solves m rhs x ↔ Normal cs q.considered x)) ∧
    (q.considered.count true + 1 < cs.length → createSystem q cell = .panic) := by
  obtain ⟨rows, h1, h2, h3, h4⟩ := system_rows hc hne hcon
  have hsum := count_sum q.considered
  rw [h1]
  unfold finishSystem
  refine ⟨fun h => ?_, fun h => ?_, fun h => ?_, fun h => ?_⟩
  · rw [if_neg (by omega), if_neg (by omega), if_neg (by omega)]
  · rw [if_neg (by omega), if_neg (by omega), if_pos (by omega)]
    refine ⟨_, _, rfl, by simp; omega, by simp; omega, ?_, fun x hx => ?_⟩
    · intro row hr
      rcases List.mem_append.mp hr with hr | hr
      · exact h3 row hr
      · rw [List.mem_singleton.mp hr]; simp
    · rw [solves_append (by simp), solves_zero, h4 x hx]
      refine and_congr_right fun _ => ?_
      constructor
      · intro h
        have := h 0 _ 1 rfl rfl
        rwa [weigh_ones hx] at this
      · intro h i row r h5 h6
        cases i with
        | zero =>
          cases h5; cases h6
          rw [weigh_ones hx, h]
        | succ i => simp at h5
  · rw [if_neg (by omega), if_pos (by omega)]
    refine ⟨_, _, rfl, by omega, by simp; omega, h3, fun x hx => ?_⟩
    rw [solves_zero, h4 x hx]
  · rw [if_pos (by omega)]

/-! ## C79 -/

section
variable {S : Type} {ask : S → List ℚ → Option (R (S × Option Path))} {g : Graph} {b : Backend} {q : Query}
  {cell : List Path} {cs : List (List ℚ)} {acc : Acc S}

/-- A cell is skipped, without asking the router, if all its vertices exceed the same tolerance. -/
theorem C79_skipped (hc : HasCosts q.dim cell cs) (hne : cell ≠ []) (ht : q.tolerances.length = q.dim)
    (hh : Hopeless cs q.tolerances) : exploreCell ask g b q cell acc = some (.ok acc) := by
  obtain ⟨r, hr, hiff⟩ := hopeless_spec hc hne ht
  have : r = true := hiff.mpr hh
  subst this
  unfold exploreCell cellAlphas
  rw [hr]
  rfl

theorem cellAlphas_explored (hc : HasCosts q.dim cell cs) (hne : cell ≠ [])
    (ht : q.tolerances.length = q.dim) (hh : ¬ Hopeless cs q.tolerances) :
    cellAlphas b q cell = (do
      let sys ← createSystem q cell
      match sys with
      | none => pure none
      | some (rows, rhs) => b.solve rows rhs) := by
  obtain ⟨r, hr, hiff⟩ := hopeless_spec hc hne ht
  have : r = false := by
    rw [← Bool.not_eq_true, hiff]
    exact hh
  subst this
  unfold cellAlphas
  rw [hr]
  rfl

/-- Nothing happens for a cell with fewer vertices than there are considered metrics. -/
theorem C79_small (hc : HasCosts q.dim cell cs) (hne : cell ≠ []) (ht : q.tolerances.length = q.dim)
    (hcon : q.considered.length = q.dim) (hlen : cs.length < q.considered.count true) :
    exploreCell ask g b q cell acc = some (.ok acc) := by
  by_cases hh : Hopeless cs q.tolerances
  · exact C79_skipped hc hne ht hh
  · unfold exploreCell
    rw [cellAlphas_explored hc hne ht hh, (system_cases hc hne hcon).1 hlen]
    rfl

/-- A cell with as many vertices as considered metrics is given to the router. -/
theorem exploreCell_asked (hs : Solver q.dim b.solve) (hc : HasCosts q.dim cell cs) (hne : cell ≠ [])
    (ht : q.tolerances.length = q.dim) (hcon : q.considered.length = q.dim)
    (hlen : cs.length = q.considered.count true) (hh : ¬ Hopeless cs q.tolerances) {x : List ℚ}
    (hx : Normal cs q.considered x) (h1 : x.sum = 1)
    (hu : ∀ y, Normal cs q.considered y → y.sum = 1 → y = x) :
    exploreCell ask g b q cell acc = andThen (ask acc.1 x) fun r =>
      match r.2 with
      | none => some (.ok (r.1, acc.2))
      | some p => andThen (some (judge g cell x acc.2 p)) fun new => some (.ok (r.1, new)) := by
  obtain ⟨m, rhs, k1, k2, k3, k4, k5⟩ := (system_cases hc hne hcon).2.1 hlen
  have hxl : x.length = q.dim := hx.length.trans hcon
  have hal : cellAlphas b q cell = .ok (some x) := by
    rw [cellAlphas_explored hc hne ht hh, k1]
    refine hs.complete m rhs x k2 k3 k4 hxl
      ((k5 x hxl).mpr ⟨hx, h1⟩) (fun y hy hsy => ?_)
    obtain ⟨h2, h3⟩ := (k5 y hy).mp hsy
    exact hu y h2 h3
  unfold exploreCell
  rw [hal]
  rfl

/-- Every other cell with as many vertices as considered metrics is explored: the router is asked with
the weights of the hyperplane through the cell, if there is only one. The answer is a new path iff it lies
below the hyperplane by at least `1.5e-6` and no new path has the same edges between the same nodes. -/
theorem C79_asked (hs : Solver q.dim b.solve) (hc : HasCosts q.dim cell cs) (hne : cell ≠ [])
    (ht : q.tolerances.length = q.dim) (hcon : q.considered.length = q.dim)
    (hlen : cs.length = q.considered.count true) (hh : ¬ Hopeless cs q.tolerances) {x : List ℚ}
    (hx : Normal cs q.considered x) (h1 : x.sum = 1)
    (hu : ∀ y, Normal cs q.considered y → y.sum = 1 → y = x) :
    (∀ s', ask acc.1 x = some (.ok (s', none)) → exploreCell ask g b q cell acc = some (.ok (s', acc.2))) ∧
    (∀ s' p p' c, ask acc.1 x = some (.ok (s', some p)) → p.calcCosts g = .ok p' → p'.costs = some c →
      ((∃ c0 ∈ cs, weigh x c + 3 / 2000000 ≤ weigh x c0) ∧
          (∀ r ∈ acc.2, ¬ (r.srcId = p'.srcId ∧ r.dstId = p'.dstId ∧ r.edges = p'.edges)) →
        exploreCell ask g b q cell acc = some (.ok (s', acc.2 ++ [p']))) ∧
      (¬ ((∃ c0 ∈ cs, weigh x c + 3 / 2000000 ≤ weigh x c0) ∧
          (∀ r ∈ acc.2, ¬ (r.srcId = p'.srcId ∧ r.dstId = p'.dstId ∧ r.edges = p'.edges))) →
        exploreCell ask g b q cell acc = some (.ok (s', acc.2)))) := by
  have hex := exploreCell_asked (ask := ask) (g := g) (acc := acc) hs hc hne ht hcon hlen hh hx h1 hu
  refine ⟨fun s' ha => by rw [hex, ha]; rfl, fun s' p p' c ha hp hcp => ?_⟩
  obtain ⟨p0, ps, rfl⟩ := List.exists_cons_of_ne_nil hne
  obtain ⟨c0, hc0, hpc0⟩ := hc.costed p0 List.mem_cons_self
  have hj : judge g (p0 :: ps) x acc.2 p =
      .ok (if Approx.lt (dot x c) (dot x c0) && !acc.2.any (fun r => r.beq p') then acc.2 ++ [p']
        else acc.2) := by
    unfold judge
    rw [pacc_ok.mpr hp, Res.ok_bind, pacc_ok.mpr (getCosts_ok.mpr hcp), Res.ok_bind]
    simp only [List.getElem?_cons_zero, Res.ofIdx, Res.ok_bind]
    rw [pacc_ok.mpr (getCosts_ok.mpr hpc0), Res.ok_bind]
    rfl
  have hiff : (Approx.lt (dot x c) (dot x c0) && !acc.2.any (fun r => r.beq p')) = true ↔
      (∃ c0 ∈ cs, weigh x c + 3 / 2000000 ≤ weigh x c0) ∧
        (∀ r ∈ acc.2, ¬ (r.srcId = p'.srcId ∧ r.dstId = p'.dstId ∧ r.edges = p'.edges)) := by
    rw [Bool.and_eq_true]
    refine and_congr ?_ ?_
    · unfold Approx.lt
      rw [beq_iff_eq, (Approx.C24_cmp_spec _ _).2.1, dot_weigh, dot_weigh]
      constructor
      · intro h; exact ⟨c0, hc0, h⟩
      · rintro ⟨d, hd, h⟩
        rwa [hx.same c0 hc0 d hd]
    · simp only [Bool.not_eq_true', List.any_eq_false, Path.beq, Bool.and_eq_true, decide_eq_true_eq, and_assoc]
  rw [hex, ha]
  simp only [andThen]
  rw [hj]
  simp only
  constructor
  · intro h
    rw [if_pos (hiff.mpr h)]
  · intro h
    rw [if_neg (fun hc => h (hiff.mp hc))]

/-- A cell with one vertex more has a homogeneous system. If its only solution is zero, the router is
asked with zeros and its answer is never a new path. -/
theorem C79_full (hs : Solver q.dim b.solve) (hc : HasCosts q.dim cell cs) (hne : cell ≠ [])
    (ht : q.tolerances.length = q.dim) (hcon : q.considered.length = q.dim)
    (hlen : cs.length = q.considered.count true + 1) (hh : ¬ Hopeless cs q.tolerances)
    (hu : ∀ y, Normal cs q.considered y → ∀ a ∈ y, a = 0) {s' : S} {new : List Path}
    (he : exploreCell ask g b q cell acc = some (.ok (s', new))) :
    new = acc.2 ∧ ∃ o, ask acc.1 (List.replicate q.dim 0) = some (.ok (s', o)) := by
  obtain ⟨m, rhs, k1, k2, k3, k4, k5⟩ := (system_cases hc hne hcon).2.2.1 hlen
  have hz : ∀ c : List ℚ, weigh (List.replicate q.dim 0) c = 0 := by
    intro c
    unfold weigh
    induction c generalizing q with
    | nil => simp
    | cons a c ih =>
      cases hq : q.dim with
      | zero => simp
      | succ n =>
        have key : ∀ (n : Nat) (c : List ℚ), (List.zipWith (· * ·) (List.replicate n (0 : ℚ)) c).sum = 0 := by
          intro n
          induction n with
          | zero => simp
          | succ n ih => intro c; cases c <;> simp [List.replicate_succ, ih]
        exact key _ _
  have hx : Normal cs q.considered (List.replicate q.dim 0) := by
    refine ⟨by simp [hcon], fun c _ d _ => by rw [hz, hz], fun i hi => ?_⟩
    have := (List.getElem?_eq_some_iff.mp hi).1
    rw [List.getElem?_replicate, if_pos (by omega)]
  have hal : cellAlphas b q cell = .ok (some (List.replicate q.dim 0)) := by
    rw [cellAlphas_explored hc hne ht hh, k1]
    refine hs.complete m rhs _ k2 k3 k4 (by simp)
      ((k5 _ (by simp)).mpr hx) (fun y hy hsy => ?_)
    exact List.eq_replicate_iff.mpr ⟨hy, hu y ((k5 y hy).mp hsy)⟩
  unfold exploreCell at he
  rw [hal] at he
  simp only [andThen] at he
  split at he
  · rename_i r hr
    obtain ⟨s1, o⟩ := r
    cases o with
    | none => cases he; exact ⟨rfl, none, hr⟩
    | some p =>
      simp only at he
      split at he
      · rename_i new' hj
        cases he
        refine ⟨?_, some p, hr⟩
        simp only [Option.some.injEq] at hj
        unfold judge at hj
        obtain ⟨p', _, hj⟩ := Res.bind_eq_ok.mp hj
        obtain ⟨c, _, hj⟩ := Res.bind_eq_ok.mp hj
        obtain ⟨v, _, hj⟩ := Res.bind_eq_ok.mp hj
        obtain ⟨d, _, hj⟩ := Res.bind_eq_ok.mp hj
        rw [dot_weigh, dot_weigh, hz, hz] at hj
        have hlt : Approx.lt (0 : ℚ) 0 = false := by decide +kernel
        rw [hlt] at hj
        simp only [Bool.false_and, Bool.false_eq_true, if_false] at hj
        cases hj
        rfl
      · rename_i e he' ; exact e.elim
      · cases he
      · cases he
  · rename_i e he'; exact e.elim
  · cases he
  · cases he

end

/-! ### Skipping is safe for two metrics -/

theorem below_line {p1 p2 r1 r2 n1 n2 x1 x2 a1 a2 b1 b2 : ℚ} (hx2 : 0 ≤ x2)
    (hpr : x1 * p1 + x2 * p2 = x1 * r1 + x2 * r2) (hn : x1 * n1 + x2 * n2 < x1 * p1 + x2 * p2)
    (ha2 : 0 ≤ a2) (ha0 : 0 < a1 ∨ 0 < a2) (ha : a1 * p1 + a2 * p2 ≤ a1 * r1 + a2 * r2)
    (han : a1 * p1 + a2 * p2 ≤ a1 * n1 + a2 * n2) (hb2 : 0 ≤ b2) (hb0 : 0 < b1 ∨ 0 < b2)
    (hb : b1 * r1 + b2 * r2 ≤ b1 * p1 + b2 * p2) (hbn : b1 * r1 + b2 * r2 ≤ b1 * n1 + b2 * n2)
    (hne : p1 ≠ r1 ∨ p2 ≠ r2) (hle : p1 ≤ r1) : p1 ≤ n1 := by
  by_contra hlt
  push Not at hlt
  rcases eq_or_lt_of_le hle with he | hd
  · subst he
    rcases hne with h | h
    · exact h rfl
    · rcases lt_or_gt_of_ne h with h | h
      · have : b2 = 0 := by
          by_contra hc
          have : 0 < b2 := lt_of_le_of_ne hb2 (Ne.symm hc)
          nlinarith
        subst this
        have : 0 < b1 := by simpa using hb0
        nlinarith
      · have : a2 = 0 := by
          by_contra hc
          have : 0 < a2 := lt_of_le_of_ne ha2 (Ne.symm hc)
          nlinarith
        subst this
        have : 0 < a1 := by simpa using ha0
        nlinarith
  · -- the direction of the line
    have e : x1 * (r1 - p1) = x2 * (p2 - r2) := by linarith
    have k1 : 0 ≤ a1 * (r1 - p1) + a2 * (r2 - p2) := by linarith
    have k2 : 0 ≤ a1 * (n1 - p1) + a2 * (n2 - p2) := by linarith
    have k3 : x1 * (n1 - p1) + x2 * (n2 - p2) < 0 := by linarith
    have hx2' : 0 < x2 := by
      by_contra hc
      have h0 : x2 = 0 := le_antisymm (not_lt.mp hc) hx2
      rw [h0, zero_mul] at e
      have : x1 = 0 := by
        rcases mul_eq_zero.mp e with h | h
        · exact h
        · linarith
      rw [h0, this] at k3
      simp at k3
    have ha2' : 0 < a2 := by
      by_contra hc
      have h0 : a2 = 0 := le_antisymm (not_lt.mp hc) ha2
      rw [h0] at k2 ha0
      have : 0 < a1 := by simpa using ha0
      nlinarith
    -- multiply by the positive factors
    have m1 : 0 ≤ (a1 * x2 - a2 * x1) * (r1 - p1) := by
      have := mul_nonneg k1 hx2
      nlinarith
    have m2 : 0 ≤ a1 * x2 - a2 * x1 := by
      by_contra hc
      push Not at hc
      nlinarith
    have m3 : 0 < (a1 * x2 - a2 * x1) * (n1 - p1) := by
      have h1 := mul_nonneg k2 hx2
      have h2 := mul_pos_of_neg_of_neg k3 (neg_neg_of_pos ha2')
      nlinarith
    nlinarith

/-- With two metrics, no tolerated route is lost if a cell is skipped: a route below the line through the
two routes of the cell exceeds the same tolerance as they do. The routes of the cell are cheapest for some
weights, as all routes found by the explorator. -/
theorem C79_safe {c d n x a e : List ℚ} {tol : List (Option ℚ)} (hne : c ≠ d)
    (hl : ∀ l ∈ [c, d, n, x, a, e], l.length = 2) (ht2 : tol.length = 2) (hh : Hopeless [c, d] tol)
    (hx : ∀ y ∈ x, 0 ≤ y) (hcd : weigh x c = weigh x d) (hn : weigh x n < weigh x c)
    (ha : ∀ y ∈ a, 0 ≤ y) (ha0 : ∃ y ∈ a, 0 < y) (hac : weigh a c ≤ weigh a d ∧ weigh a c ≤ weigh a n)
    (he : ∀ y ∈ e, 0 ≤ y) (he0 : ∃ y ∈ e, 0 < y) (hec : weigh e d ≤ weigh e c ∧ weigh e d ≤ weigh e n) :
    ∃ (i : Nat) (t z : ℚ), tol[i]? = some (some t) ∧ n[i]? = some z ∧ t < z := by
  obtain ⟨i, t, ht, hall⟩ := hh
  match c, d, n, x, a, e, hl c (by simp), hl d (by simp), hl n (by simp), hl x (by simp), hl a (by simp),
    hl e (by simp) with
  | [c1, c2], [d1, d2], [n1, n2], [x1, x2], [a1, a2], [e1, e2], _, _, _, _, _, _ =>
    simp only [weigh, List.zipWith_cons_cons, List.zipWith_nil_left, List.sum_cons, List.sum_nil, add_zero,
      List.mem_cons, List.not_mem_nil, or_false, forall_eq_or_imp, forall_eq, exists_eq_or_imp,
      exists_eq_left] at *
    have hne' : c1 ≠ d1 ∨ c2 ≠ d2 := by
      by_contra hc
      push Not at hc
      exact hne (by rw [hc.1, hc.2])
    obtain ⟨hc', hd'⟩ := hall
    match i with
    | 0 =>
      refine ⟨0, t, n1, ht, rfl, ?_⟩
      have k1 := hc' c1 rfl
      have k2 := hd' d1 rfl
      rcases le_total c1 d1 with h | h
      · have := below_line hx.2 hcd hn ha.2 ha0 hac.1 hac.2 he.2 he0 hec.1 hec.2 hne' h
        linarith
      · have := below_line hx.2 hcd.symm (hcd ▸ hn) he.2 he0 hec.1 hec.2 ha.2 ha0 hac.1 hac.2
          (by rcases hne' with h | h
              · exact .inl h.symm
              · exact .inr h.symm) h
        linarith
    | 1 =>
      refine ⟨1, t, n2, ht, rfl, ?_⟩
      have k1 := hc' c2 rfl
      have k2 := hd' d2 rfl
      rcases le_total c2 d2 with h | h
      · have := below_line (x1 := x2) (a1 := a2) (b1 := e2) (p1 := c2) (p2 := c1) (r1 := d2) (r2 := d1) (n1 := n2) (n2 := n1) hx.1
          (by linarith) (by linarith) ha.1 ha0.symm (by linarith [hac.1]) (by linarith [hac.2]) he.1
          he0.symm (by linarith [hec.1]) (by linarith [hec.2]) hne'.symm h
        linarith
      · have := below_line (x1 := x2) (a1 := e2) (b1 := a2) (p1 := d2) (p2 := d1) (r1 := c2) (r2 := c1) (n1 := n2) (n2 := n1) hx.1
          (by linarith) (by linarith) he.1 he0.symm (by linarith [hec.1]) (by linarith [hec.2]) ha.1
          ha0.symm (by linarith [hac.1]) (by linarith [hac.2])
          (by rcases hne' with h | h
              · exact .inr h.symm
              · exact .inl h.symm) h
        linarith
    | i + 2 =>
      have := (List.getElem?_eq_some_iff.mp ht).1
      omega

/-! ### Examples -/

/-- The solver of the samples. -/
theorem cramer_solver : Solver 2 cramer := by
  constructor
  · intro m rhs x h hm hr hrows
    exact lower_lower.solved m rhs x h (by omega) (fun row hrow => by rw [hrows row hrow, hm]) |>.imp
      (fun h => h.trans hm) id
  · intro m rhs x hm hr hrows hx hsol huni
    match m, hm with
    | [r1, r2], _ =>
      match r1, hrows r1 (by simp), r2, hrows r2 (by simp), rhs, hr, x, hx with
      | [a, b], _, [c, d], _, [u, v], _, [x, y], _ =>
        have s1 := hsol 0 _ _ rfl rfl
        have s2 := hsol 1 _ _ rfl rfl
        simp only [weigh, List.zipWith_cons_cons, List.zipWith_nil_left, List.sum_cons, List.sum_nil,
          add_zero] at s1 s2
        have key : ∀ n1 n2 : ℚ, a * n1 + b * n2 = 0 → c * n1 + d * n2 = 0 → n1 = 0 ∧ n2 = 0 := by
          intro n1 n2 h1 h2
          have := huni [x + n1, y + n2] rfl (by
            intro i row r hi hri
            match i with
            | 0 =>
              cases hi; cases hri
              simp only [weigh, List.zipWith_cons_cons, List.zipWith_nil_left, List.sum_cons, List.sum_nil,
                add_zero]
              linarith
            | 1 =>
              cases hi; cases hri
              simp only [weigh, List.zipWith_cons_cons, List.zipWith_nil_left, List.sum_cons, List.sum_nil,
                add_zero]
              linarith
            | i + 2 => simp at hi)
          simp only [List.cons.injEq, and_true] at this
          exact ⟨by linarith [this.1], by linarith [this.2]⟩
        have hdet : a * d - b * c ≠ 0 := by
          intro h0
          obtain ⟨h1, h2⟩ := key (-b) a (by ring) (by linarith)
          obtain ⟨h3, h4⟩ := key (-d) c (by linarith) (by ring)
          obtain ⟨h5, _⟩ := key 1 0 (by rw [h2]; ring) (by rw [h4]; ring)
          exact one_ne_zero h5
        show (Res.ok (if a * d - b * c = 0 then none
          else some [(u * d - b * v) / (a * d - b * c), (a * v - u * c) / (a * d - b * c)]) :
            Dij.R (Option (List ℚ))) = _
        rw [if_neg hdet]
        have e1 : (u * d - b * v) / (a * d - b * c) = x := by
          rw [div_eq_iff hdet, ← s1, ← s2]; ring
        have e2 : (a * v - u * c) / (a * d - b * c) = y := by
          rw [div_eq_iff hdet, ← s1, ← s2]; ring
        rw [e1, e2]

/-- A cell with the routes `(2, 10)` and `(6, 2)`. -/
def exCell : List Path :=
  [{ Path.new 0 10 5 60 [0, 4] with costs := some [2, 10] },
    { Path.new 0 10 5 60 [1, 5] with costs := some [6, 2] }]

/-- Two considered metrics; in the first one, not more than `t` is tolerated. -/
def exAsk (t : ℚ) : Query := { dim := 2, triDim := 2, tolerances := [some t, none], considered := [true, true] }

/-- The cell is skipped if both routes exceed the tolerance, otherwise the router is asked. -/
example : Hopeless [[2, 10], [6, 2]] (exAsk 1).tolerances ∧ ¬ Hopeless [[2, 10], [6, 2]] (exAsk 3).tolerances := by
  constructor
  · refine ⟨0, 1, rfl, fun c hc x hx => ?_⟩
    simp only [List.mem_cons, List.not_mem_nil, or_false] at hc
    rcases hc with rfl | rfl <;> cases hx <;> norm_num
  · rintro ⟨i, t, ht, hall⟩
    match i with
    | 0 =>
      cases ht
      exact absurd (hall [2, 10] (by simp) 2 rfl) (by norm_num)
    | 1 => cases ht
    | i + 2 => simp [exAsk] at ht

example : HasCosts 2 exCell [[2, 10], [6, 2]] := ⟨rfl, by simp⟩

/-- The weights of the line are two thirds and one third; a route is asked for with them. -/
example : cellAlphas listBackend (exAsk 3) exCell = .ok (some [2 / 3, 1 / 3]) ∧
    cellAlphas listBackend (exAsk 1) exCell = .ok none ∧
    weigh [2 / 3, 1 / 3] [2, 10] = weigh [2 / 3, 1 / 3] [6, 2] := by decide +kernel

/-- The weights are the only ones. -/
example : Normal [[2, 10], [6, 2]] [true, true] [2 / 3, 1 / 3] ∧
    ∀ y, Normal [[2, 10], [6, 2]] [true, true] y → y.sum = 1 → y = [2 / 3, 1 / 3] := by
  constructor
  · refine ⟨rfl, fun c hc d hd => ?_, fun i hi => ?_⟩
    · simp only [List.mem_cons, List.not_mem_nil, or_false] at hc hd
      rcases hc with rfl | rfl <;> rcases hd with rfl | rfl <;> decide +kernel
    · match i with
      | 0 => cases hi
      | 1 => cases hi
      | i + 2 => simp at hi
  · intro y hy h1
    match y, hy.length with
    | [a, b], _ =>
      have := hy.same [2, 10] (by simp) [6, 2] (by simp)
      simp only [weigh, List.zipWith_cons_cons, List.zipWith_nil_left, List.sum_cons, List.sum_nil,
        add_zero] at this h1
      have ha : a = 2 / 3 := by linarith
      have hb : b = 1 / 3 := by linarith
      rw [ha, hb]

/-- Cells with three routes and two metrics: the only weights are zero. -/
example : cellAlphas listBackend (exAsk 3)
    (exCell ++ [{ Path.new 0 10 5 60 [2, 6] with costs := some [3, 3] }]) = .ok (some [0, 0]) := by
  decide +kernel

/-- Hypotheses of `C79_safe`: the routes `(2, 10)` and `(6, 2)` are cheapest in the first and in the
second metric, and `(3, 3)` lies below the line. -/
example : ∃ (i : Nat) (t z : ℚ), [some (1 : ℚ), none][i]? = some (some t) ∧
    [(3 : ℚ), 3][i]? = some z ∧ t < z := by
  refine C79_safe (c := [2, 10]) (d := [6, 2]) (x := [2 / 3, 1 / 3]) (a := [1, 0]) (e := [0, 1]) (by simp)
    (by simp) rfl ⟨0, 1, rfl, ?_⟩ ?_ ?_ ?_ ?_ ?_ ?_ ?_ ?_ ?_
  · intro c hc x hx
    simp only [List.mem_cons, List.not_mem_nil, or_false] at hc
    rcases hc with rfl | rfl <;> cases hx <;> norm_num
  all_goals decide +kernel

/-- Skipping compares exactly while a route is tolerated if it exceeds a tolerance only slightly: both
routes of a cell and a route below it are tolerated, but the cell is skipped. -/
theorem C79_false_strict : ∃ (cell : List Path) (t : ℚ),
    (∀ p ∈ cell, ∃ c, p.costs = some c ∧ tolerates c (exAsk t).tolerances = true) ∧
    cellAlphas listBackend (exAsk t) cell = .ok none ∧
    ∃ x n, (∀ p ∈ cell, ∀ c, p.costs = some c → weigh x n + 1 ≤ weigh x c) ∧ (∀ a ∈ x, 0 < a) ∧
      tolerates n (exAsk t).tolerances = true := by
  refine ⟨[{ Path.new 0 10 5 60 [0, 4] with costs := some [2 + 1 / 1000000, 10] },
    { Path.new 0 10 5 60 [1, 5] with costs := some [2 + 12 / 10000000, 4] }], 2, ?_, by decide +kernel,
    [30000000, 1], [2 + 11 / 10000000, 1], ?_, by simp, by decide +kernel⟩
  · intro p hp
    simp only [List.mem_cons, List.not_mem_nil, or_false] at hp
    rcases hp with rfl | rfl
    · exact ⟨_, rfl, by decide +kernel⟩
    · exact ⟨_, rfl, by decide +kernel⟩
  · intro p hp c hc
    simp only [List.mem_cons, List.not_mem_nil, or_false] at hp
    rcases hp with rfl | rfl
    · cases hc; decide +kernel
    · cases hc; decide +kernel

end Verif.Exp
