import Verif.CompleteSpec
import Verif.CellProps

/-!
# Helper lemmas: what the explorator has settled when it stops
-/

namespace Verif.Exp

open Dij (R)

/-! ## The plane -/

/-- Among functions that are not negative at zero, walk on until the first one is about to become negative. -/
theorem walk_on {α : Type} (A B : α → ℚ) (V : List α) (h0 : ∀ w ∈ V, 0 ≤ A w) :
    ∃ s : ℚ, 0 ≤ s ∧ s ≤ 1 ∧ (∀ w ∈ V, 0 ≤ A w + s * B w) ∧
      (s = 1 ∨ s < 1 ∧ ∃ w ∈ V, A w + s * B w = 0 ∧ A w + B w < 0) := by
  induction V with
  | nil => exact ⟨1, by norm_num, le_rfl, by simp, .inl rfl⟩
  | cons w V ih =>
    obtain ⟨s, hs0, hs1, hV, hs⟩ := ih fun u hu => h0 u (List.mem_cons_of_mem _ hu)
    have hA := h0 w List.mem_cons_self
    by_cases hw : 0 ≤ A w + s * B w
    · refine ⟨s, hs0, hs1, ?_, ?_⟩
      · intro u hu
        rcases List.mem_cons.mp hu with rfl | hu
        · exact hw
        · exact hV u hu
      · rcases hs with h | ⟨h, u, hu, h1, h2⟩
        · exact .inl h
        · exact .inr ⟨h, u, List.mem_cons_of_mem _ hu, h1, h2⟩
    · push Not at hw
      have hB : B w < 0 := by
        by_contra hB
        push Not at hB
        have := mul_nonneg hs0 hB
        linarith
      have hB' : 0 < -B w := by linarith
      refine ⟨A w / -B w, div_nonneg hA hB'.le, ?_, ?_, .inr ⟨?_, w, List.mem_cons_self, ?_, ?_⟩⟩
      · rw [div_le_one hB']
        have := mul_le_mul_of_nonneg_right hs1 hB'.le
        linarith
      · have hlt : A w / -B w ≤ s := by rw [div_le_iff₀ hB']; linarith
        have hge : 0 ≤ A w / -B w := div_nonneg hA hB'.le
        intro u hu
        rcases List.mem_cons.mp hu with rfl | hu
        · have : A u / -B u * B u = -A u := by have := hB.ne; field_simp
          linarith
        · have h1 := h0 u (List.mem_cons_of_mem _ hu)
          have h2 := hV u hu
          by_cases hu0 : 0 ≤ B u
          · have := mul_nonneg hge hu0; linarith
          · push Not at hu0
            have := mul_le_mul_of_nonpos_right hlt hu0.le
            linarith
      · rw [div_lt_one hB']
        have := mul_le_mul_of_nonneg_right hs1 hB'.le
        linarith
      · have : A w / -B w * B w = -A w := by have := hB.ne; field_simp
        linarith
      · have := mul_le_mul_of_nonneg_right hs1 hB'.le
        linarith

/-- The least element. -/
theorem exists_least {α : Type} (f : α → ℚ) {V : List α} (h : V ≠ []) : ∃ v ∈ V, ∀ w ∈ V, f v ≤ f w := by
  induction V with
  | nil => exact absurd rfl h
  | cons a V ih =>
    by_cases hV : V = []
    · subst hV
      exact ⟨a, by simp, by simp⟩
    · obtain ⟨v, hv, hmin⟩ := ih hV
      rcases le_total (f a) (f v) with hle | hle
      · refine ⟨a, List.mem_cons_self, fun w hw => ?_⟩
        rcases List.mem_cons.mp hw with rfl | hw
        · exact le_rfl
        · exact hle.trans (hmin w hw)
      · refine ⟨v, List.mem_cons_of_mem _ hv, fun w hw => ?_⟩
        rcases List.mem_cons.mp hw with rfl | hw
        · exact hle
        · exact hmin w hw

theorem weigh_two (a b c d : ℚ) : weigh [a, b] [c, d] = a * c + b * d := by
  simp [weigh]

/-- If a point lies below no end and below no line through two different vertices with no vertex below, seen with
some slack, then it is below the vertices in no direction. -/
theorem plane_fan {V : List (List ℚ)} (hlen : ∀ v ∈ V, v.length = 2) (hne : V ≠ []) {e : List ℚ}
    (he : e.length = 2) {slack : ℚ}
    (h1 : ∃ v ∈ V, weigh [1, 0] v < weigh [1, 0] e + slack)
    (h2 : ∃ v ∈ V, weigh [0, 1] v < weigh [0, 1] e + slack)
    (hline : ∀ x : List ℚ, x.length = 2 → (∀ a ∈ x, 0 < a) → x.sum = 1 → ∀ v ∈ V, ∀ w ∈ V, v ≠ w →
      weigh x v = weigh x w → (∀ u ∈ V, weigh x v ≤ weigh x u) → weigh x v < weigh x e + slack)
    {x : List ℚ} (hx : x.length = 2) (hx0 : ∀ a ∈ x, 0 ≤ a) (hx1 : x.sum = 1) :
    ∃ v ∈ V, weigh x v < weigh x e + slack := by
  match x, hx with
  | [t, u], _ =>
    have ht : 0 ≤ t := hx0 t (by simp)
    have hu : 0 ≤ u := hx0 u (by simp)
    have htu : t + u = 1 := by simpa using hx1
    obtain rfl : u = 1 - t := by linarith
    rcases eq_or_lt_of_le ht with h0 | ht'
    · subst h0; simpa using h2
    rcases eq_or_lt_of_le hu with h0 | hu'
    · obtain rfl : t = 1 := by linarith
      simpa using h1
    obtain ⟨v, hv, hmin⟩ := exists_least (weigh [t, 1 - t]) hne
    refine ⟨v, hv, ?_⟩
    -- the values at the ends of the segment
    have key : ∀ r : ℚ, 0 ≤ r → r ≤ 1 → (∃ w ∈ V, weigh [r, 1 - r] w < weigh [r, 1 - r] e + slack) →
        ∃ s : ℚ, 0 ≤ s ∧ s ≤ 1 ∧
          weigh [t + s * (r - t), 1 - (t + s * (r - t))] v <
            weigh [t + s * (r - t), 1 - (t + s * (r - t))] e + slack := by
      intro r hr0 hr1 hr
      obtain ⟨s, k1, k2, k3, k4⟩ := walk_on (fun w => weigh [t, 1 - t] w - weigh [t, 1 - t] v)
        (fun w => (weigh [r, 1 - r] w - weigh [r, 1 - r] v) - (weigh [t, 1 - t] w - weigh [t, 1 - t] v)) V
        (fun w hw => by have := hmin w hw; linarith)
      have lin : ∀ w : List ℚ, w.length = 2 → weigh [t + s * (r - t), 1 - (t + s * (r - t))] w =
          weigh [t, 1 - t] w + s * (weigh [r, 1 - r] w - weigh [t, 1 - t] w) := by
        intro w hw
        match w, hw with
        | [a, b], _ => simp only [weigh_two]; ring
      have hmin' : ∀ w ∈ V, weigh [t + s * (r - t), 1 - (t + s * (r - t))] v ≤
          weigh [t + s * (r - t), 1 - (t + s * (r - t))] w := by
        intro w hw
        have := k3 w hw
        rw [lin v (hlen v hv), lin w (hlen w hw)]
        linarith
      refine ⟨s, k1, k2, ?_⟩
      rcases k4 with rfl | ⟨hs, w, hw, hw0, hw1⟩
      · obtain ⟨w, hw, hwe⟩ := hr
        have := hmin' w hw
        have e1 : t + 1 * (r - t) = r := by ring
        rw [e1] at this ⊢
        linarith
      · have hpos : 0 < t + s * (r - t) := by
          have : t + s * (r - t) = (1 - s) * t + s * r := by ring
          rw [this]
          have h3 := mul_pos (sub_pos.mpr hs) ht'
          have h4 := mul_nonneg k1 hr0
          linarith
        have hpos' : 0 < 1 - (t + s * (r - t)) := by
          have : 1 - (t + s * (r - t)) = (1 - s) * (1 - t) + s * (1 - r) := by ring
          rw [this]
          have h3 := mul_pos (sub_pos.mpr hs) hu'
          have h4 := mul_nonneg k1 (sub_nonneg.mpr hr1)
          linarith
        refine hline _ rfl ?_ (by simp) v hv w hw ?_ ?_ hmin'
        · intro a ha
          simp only [List.mem_cons, List.not_mem_nil, or_false] at ha
          rcases ha with rfl | rfl
          · exact hpos
          · exact hpos'
        · rintro rfl
          simp at hw1
        · rw [lin v (hlen v hv), lin w (hlen w hw)]
          linarith
    obtain ⟨s, s0, s1, hs⟩ := key 1 (by norm_num) le_rfl (by simpa using h1)
    obtain ⟨r, r0, r1, hr⟩ := key 0 le_rfl (by norm_num) (by simpa using h2)
    match v, hlen v hv, e, he with
    | [a, b], _, [c, d], _ =>
      simp only [weigh_two] at hs hr ⊢
      -- both are affine functions of the direction
      have f1 : 0 < (t * c + (1 - t) * d + slack - (t * a + (1 - t) * b)) +
          s * (1 - t) * ((c - d) - (a - b)) := by linear_combination hs
      have f2 : 0 < (t * c + (1 - t) * d + slack - (t * a + (1 - t) * b)) -
          r * t * ((c - d) - (a - b)) := by linear_combination hr
      rcases le_total 0 ((c - d) - (a - b)) with hc | hc
      · have := mul_nonneg (mul_nonneg r0 ht) hc
        linarith
      · have := mul_nonneg (mul_nonneg s0 hu) (neg_nonneg.mpr hc)
        linarith

/-- Two different points have at most one line. -/
theorem normal_unique {c d : List ℚ} (hc : c.length = 2) (hd : d.length = 2) (hne : c ≠ d) {x y : List ℚ}
    (hx : x.length = 2) (hy : y.length = 2) (hx1 : x.sum = 1) (hy1 : y.sum = 1)
    (hxc : weigh x c = weigh x d) (hyc : weigh y c = weigh y d) : y = x := by
  match c, hc, d, hd, x, hx, y, hy with
  | [c1, c2], _, [d1, d2], _, [x1, x2], _, [y1, y2], _ =>
    simp only [weigh_two, List.sum_cons, List.sum_nil, add_zero] at *
    obtain rfl : x2 = 1 - x1 := by linarith
    obtain rfl : y2 = 1 - y1 := by linarith
    have h : (y1 - x1) * ((c1 - d1) - (c2 - d2)) = 0 := by linear_combination hyc - hxc
    rcases mul_eq_zero.mp h with h | h
    · obtain rfl : y1 = x1 := by linarith
      rfl
    · have e : c1 - d1 = c2 - d2 := by linarith
      have h1 : c1 - d1 = 0 := by linear_combination hxc + (1 - x1) * e
      have h2 : c2 - d2 = 0 := by linarith
      exact absurd (by rw [show c1 = d1 by linarith, show c2 = d2 by linarith]) hne

/-! ## One cell -/

/-- The router answers with the costs of a route, and no route is cheaper by more than `slack`. -/
structure Router {S : Type} (ask : S → List ℚ → Option (R (S × Option Path))) (g : Graph) (I : S → Prop)
    (RC : List ℚ → Prop) (slack : ℚ) : Prop where
  best : ∀ s al s' p0 p c, I s → ask s al = some (.ok (s', some p0)) → p0.calcCosts g = .ok p →
    p.costs = some c → RC c ∧ (al.length = 2 → ∀ e, RC e → weigh al c ≤ weigh al e + slack)
  none : ∀ s al s', I s → (∀ a ∈ al, 0 ≤ a) → ask s al = some (.ok (s', none)) → ∀ e, ¬ RC e

/-- Optimal for some weights. -/
def Opt (RC : List ℚ → Prop) (slack : ℚ) (c : List ℚ) : Prop :=
  RC c ∧ ∃ a : List ℚ, a.length = 2 ∧ (∀ y ∈ a, 0 ≤ y) ∧ (∃ y ∈ a, 0 < y) ∧
    ∀ e, RC e → weigh a c ≤ weigh a e + slack

section
variable {b : Backend} {coords : b.Tri → Nat → Option (List ℚ)} {size : b.Tri → Nat} {q : Query}
  {S : Type} {ask : S → List ℚ → Option (R (S × Option Path))} {g : Graph} {I : S → Prop}
  {i j : Int} {W : List (List Nat)} {RC : List ℚ → Prop} {slack : ℚ}

/-- What is known about two points after the router has been asked: the line through them is not worth it, or
no route is below, or a path below is known. -/
def Settled (tol : List (Option ℚ)) (RC : List ℚ → Prop) (slack : ℚ) (Known : List ℚ → Prop) (c d : List ℚ) :
    Prop :=
  c ≠ d → ∀ x : List ℚ, x.length = 2 → (∀ a ∈ x, 0 < a) → x.sum = 1 → weigh x c = weigh x d →
    Hopeless [c, d] tol ∨ (∀ e, RC e → weigh x c < weigh x e + (3 / 2000000 + slack)) ∨
      ∃ e, Known e ∧ weigh x e < weigh x c

theorem Settled.mono {tol : List (Option ℚ)} {Known Known' : List ℚ → Prop} {c d : List ℚ}
    (h : Settled tol RC slack Known c d) (hk : ∀ e, Known e → Known' e) : Settled tol RC slack Known' c d := by
  intro hne x h1 h2 h3 h4
  rcases h hne x h1 h2 h3 h4 with h | h | ⟨e, h5, h6⟩
  · exact .inl h
  · exact .inr (.inl h)
  · exact .inr (.inr ⟨e, hk e h5, h6⟩)

/-- The query considers two metrics, and there are no others. -/
structure Two (q : Query) : Prop where
  dim : q.dim = 2
  tri : q.triDim = 2
  con : q.considered = [true, true]
  tol : q.tolerances.length = 2

theorem Two.count (h : Two q) : q.considered.count true = 2 := by rw [h.con]; rfl

theorem Two.project (h : Two q) {c : List ℚ} (hc : c.length = 2) : project q.considered c = .ok c := by
  rw [h.con]
  match c, hc with
  | [a, b], _ => rfl

theorem judge_cases {cell : List Path} {al : List ℚ} {new new' : List Path} {p0 p : Path} {c : List ℚ}
    (hp : p0.calcCosts g = .ok p) (hc : p.costs = some c) (h : judge g cell al new p0 = .ok new') :
    ∃ v d, cell[0]? = some v ∧ v.costs = some d ∧
      new' = if Approx.lt (weigh al c) (weigh al d) && !new.any (fun x => x.beq p) then new ++ [p] else new := by
  unfold judge at h
  rw [pacc_ok.mpr hp, Res.ok_bind, pacc_ok.mpr (getCosts_ok.mpr hc), Res.ok_bind] at h
  obtain ⟨v, hv, h⟩ := Res.bind_eq_ok.mp h
  obtain ⟨d, hd, h⟩ := Res.bind_eq_ok.mp h
  rw [pacc_ok, getCosts_ok] at hd
  rw [Res.ofIdx_eq_ok] at hv
  cases h
  exact ⟨v, d, hv, hd, by rw [dot_weigh, dot_weigh]⟩

/-- New paths are kept, and they are optimal for some weights. -/
theorem exploreCell_grows (ha : Serves ask g I i j W) (hr : Router ask g I RC slack)
    (hl : Lower b coords size) (h2 : Two q) {cell : List Path} (hcell : ∀ p ∈ cell, Costed q.dim p)
    (hlen : cell.length ≤ 3) {acc acc' : Acc S} (hs : I acc.1)
    (ho : ∀ p ∈ acc.2, ∃ c, p.costs = some c ∧ Opt RC slack c)
    (h : exploreCell ask g b q cell acc = some (.ok acc')) :
    (∀ p ∈ acc.2, p ∈ acc'.2) ∧ ∀ p ∈ acc'.2, ∃ c, p.costs = some c ∧ Opt RC slack c := by
  unfold exploreCell at h
  obtain ⟨al, hal, h⟩ := andThen_ok.mp h
  simp only [Option.some.injEq] at hal
  cases al with
  | none => cases h; exact ⟨fun _ h => h, ho⟩
  | some al =>
    obtain ⟨⟨s1, ans⟩, hans, h⟩ := andThen_ok.mp h
    cases ans with
    | none => cases h; exact ⟨fun _ h => h, ho⟩
    | some p0 =>
      obtain ⟨new, hnew, h⟩ := andThen_ok.mp h
      cases h
      simp only [Option.some.injEq] at hnew
      obtain ⟨hnn, p, hp, hgood⟩ := ha.good _ _ _ _ hs hans
      obtain ⟨c, hc, _⟩ := hgood.costs
      obtain ⟨v, d, _, _, rfl⟩ := judge_cases hp hc hnew
      obtain ⟨k1, k2⟩ := hr.best _ _ _ _ _ _ hs hans hp hc
      have hlen' : al.length = 2 := by
        have := (cellAlphas_spec hl (by rw [h2.con, h2.dim]; rfl) hcell (by rw [h2.count]; exact hlen) hal).1
        rw [this, h2.dim]
      simp only
      split
      · rename_i hif
        rw [Bool.and_eq_true] at hif
        refine ⟨fun r hr => List.mem_append_left _ hr, fun r hr => ?_⟩
        rcases List.mem_append.mp hr with hr | hr
        · exact ho r hr
        · rw [List.mem_singleton.mp hr]
          refine ⟨c, hc, k1, al, hlen', hnn, ?_, k2 hlen'⟩
          by_contra hcon
          push Not at hcon
          have hz : ∀ y ∈ al, y = 0 := fun y hy => le_antisymm (hcon y hy) (hnn y hy)
          have := lt_of_approx hif.1
          rw [← dot_weigh, ← dot_weigh, dot_zero hz, dot_zero hz] at this
          exact lt_irrefl _ this
      · exact ⟨fun _ h => h, ho⟩

/-- After a cell has been explored, it is settled. -/
theorem exploreCell_settles (ha : Serves ask g I i j W) (hr : Router ask g I RC slack)
    (hsol : Solver 2 b.solve) (h2 : Two q) {p r : Path} {c d : List ℚ} (hp : p.costs = some c)
    (hrc : r.costs = some d) (hcl : c.length = 2) (hdl : d.length = 2) {acc acc' : Acc S} (hs : I acc.1)
    (hnew : ∀ p ∈ acc.2, Proper g i j W p)
    (h : exploreCell ask g b q [p, r] acc = some (.ok acc')) :
    Settled q.tolerances RC slack (fun e => ∃ p ∈ acc'.2, p.costs = some e) c d := by
  intro hne x hx hpos h1 hxcd
  by_cases hh : Hopeless [c, d] q.tolerances
  · exact .inl hh
  right
  have hcon : q.considered.length = q.dim := by rw [h2.con, h2.dim]; rfl
  have hn : ∀ y : List ℚ, y.length = 2 → weigh y c = weigh y d → Normal [c, d] q.considered y := by
    intro y hy hycd
    refine ⟨by rw [h2.con]; exact hy, fun u hu v hv => ?_, fun k hk => ?_⟩
    · simp only [List.mem_cons, List.not_mem_nil, or_false] at hu hv
      rcases hu with rfl | rfl <;> rcases hv with rfl | rfl <;> first | rfl | exact hycd | exact hycd.symm
    · rw [h2.con] at hk
      match k with
      | 0 => cases hk
      | 1 => cases hk
      | k + 2 => simp at hk
  have hcs : HasCosts q.dim [p, r] [c, d] := by
    refine ⟨by simp [hp, hrc], fun u hu => ?_⟩
    simp only [List.mem_cons, List.not_mem_nil, or_false] at hu
    rw [h2.dim]
    rcases hu with rfl | rfl
    · exact hcl
    · exact hdl
  rw [exploreCell_asked (h2.dim ▸ hsol) hcs (by simp) (by rw [h2.tol, h2.dim]) hcon (by rw [h2.count]; rfl) hh
    (hn x hx hxcd) h1 (fun y hy hy1 => normal_unique hcl hdl hne hx (by rw [hy.length, h2.con]; rfl) h1 hy1 hxcd
      (hy.same c (by simp) d (by simp)))] at h
  obtain ⟨⟨s1, ans⟩, hans, h⟩ := andThen_ok.mp h
  cases ans with
  | none =>
    left
    intro e he
    exact absurd he (hr.none _ _ _ hs (fun a ha => (hpos a ha).le) hans e)
  | some p0 =>
    obtain ⟨new, hnew', h⟩ := andThen_ok.mp h
    cases h
    simp only [Option.some.injEq] at hnew'
    obtain ⟨_, p', hp', hgood⟩ := ha.good _ _ _ _ hs hans
    obtain ⟨c', hc', hcost⟩ := hgood.costs
    obtain ⟨v, d', hv, hd', rfl⟩ := judge_cases hp' hc' hnew'
    cases hv
    rw [hp] at hd'
    cases hd'
    obtain ⟨_, k2⟩ := hr.best _ _ _ _ _ _ hs hans hp' hc'
    by_cases hlt : Approx.lt (weigh x c') (weigh x c) = true
    · right
      refine ⟨c', ?_, lt_of_approx hlt⟩
      rw [hlt, Bool.true_and]
      split
      · exact ⟨p', by simp, hc'⟩
      · rename_i hany
        simp only [Bool.not_eq_true', Bool.not_eq_false] at hany
        obtain ⟨r', hr', hb⟩ := List.any_eq_true.mp hany
        obtain ⟨c'', h3, h4⟩ := (hnew r' hr').costs
        unfold Path.beq at hb
        simp only [Bool.and_eq_true, decide_eq_true_eq] at hb
        refine ⟨r', hr', ?_⟩
        rw [hb.2] at h4
        rw [h3, isCost_unique h4 hcost]
    · left
      intro e he
      have := k2 hx e he
      unfold Approx.lt at hlt
      rw [beq_iff_eq, (Approx.C24_cmp_spec _ _).2.1] at hlt
      linarith

/-! ## The whole exploration -/

/-- The costs of a path that has been found. -/
def Known (found : List (Nat × Path)) (new : List Path) (e : List ℚ) : Prop :=
  (∃ k p, (k, p) ∈ found ∧ p.costs = some e) ∨ ∃ p ∈ new, p.costs = some e

/-- All visited cells are settled. -/
def Seen (b : Backend) (tol : List (Option ℚ)) (RC : List ℚ → Prop) (slack : ℚ) (found : List (Nat × Path))
    (new : List Path) (visited : List Nat) : Prop :=
  ∀ id ∈ visited, ∃ t, ∃ raw ∈ b.cells t, raw.id = id ∧ ∀ v w, raw.vertices = [v, w] →
    ∃ p r c d, (v, p) ∈ found ∧ (w, r) ∈ found ∧ p.costs = some c ∧ r.costs = some d ∧
      Settled tol RC slack (Known found new) c d

theorem Seen.mono {tol : List (Option ℚ)} {found found' : List (Nat × Path)} {new new' : List Path}
    {visited : List Nat} (h : Seen b tol RC slack found new visited) (hf : ∀ x ∈ found, x ∈ found')
    (hk : ∀ e, Known found new e → Known found' new' e) : Seen b tol RC slack found' new' visited := by
  intro id hid
  obtain ⟨t, raw, h1, h2, h3⟩ := h id hid
  refine ⟨t, raw, h1, h2, fun v w hvw => ?_⟩
  obtain ⟨p, r, c, d, h4, h5, h6, h7, h8⟩ := h3 v w hvw
  exact ⟨p, r, c, d, hf _ h4, hf _ h5, h6, h7, h8.mono hk⟩

/-- Tolerated paths are marked, and all paths are optimal for some weights. -/
structure Marked (q : Query) (RC : List ℚ → Prop) (slack : ℚ) (st : St b) : Prop where
  tol : ∀ k p c, (k, p) ∈ st.found → p.costs = some c → tolerates c q.tolerances = true → k ∈ st.tolerated
  opt : ∀ k p, (k, p) ∈ st.found → ∃ c, p.costs = some c ∧ Opt RC slack c

theorem Marked.visit {st : St b} (h : Marked q RC slack st) (vs : List Nat) :
    Marked q RC slack { st with visited := vs } := ⟨h.tol, h.opt⟩

theorem register_grows (hb : Regular b coords size) (h2 : Two q) (hdim : g.dim = 2) {st st' : St b} {p : Path}
    (hj : Good g i j W q coords size st) (hm : Marked q RC slack st) (hp : Proper g i j W p)
    (ho : ∃ c, p.costs = some c ∧ Opt RC slack c) (h : register b q st p = .ok st') :
    Marked q RC slack st' ∧ st'.visited = st.visited ∧ (∃ id, st'.found = (id, p) :: st.found) := by
  have hv : st'.visited = st.visited := by
    unfold register at h
    obtain ⟨c, hc, h⟩ := Res.bind_eq_ok.mp h
    obtain ⟨x, hx, h⟩ := Res.bind_eq_ok.mp h
    obtain ⟨⟨id, tri⟩, ht, h⟩ := Res.bind_eq_ok.mp h
    cases h
    rfl
  obtain ⟨c, x, id, tri, g1, g2, g3, g4, g5, g6⟩ := register_ok h
  obtain ⟨c', hc', hcost⟩ := hp.costs
  rw [g1] at hc'
  cases hc'
  have hcl : c.length = 2 := by rw [hcost.1, hdim]
  have hid : coords st.tri id = none := by
    rw [h2.project hcl] at g2
    cases g2
    obtain ⟨id', t', k1, k2, _⟩ := hb.add st.tri c (by rw [hcl, hj.size_eq, h2.tri])
    rw [g3] at k1
    cases k1
    exact k2
  have hfil : st.found.filter (fun x => x.1 ≠ id) = st.found := by
    rw [List.filter_eq_self]
    rintro ⟨k, r⟩ hr
    obtain ⟨_, y, _, _, _, hy⟩ := hj.found k r hr
    simp only [ne_eq, decide_not, Bool.not_eq_eq_eq_not, Bool.not_true, decide_eq_false_iff_not]
    rintro rfl
    rw [hid] at hy
    cases hy
  have hfound : st'.found = (id, p) :: st.found := by rw [g5, insertKey, hfil]
  refine ⟨⟨fun k r e hr he ht => ?_, fun k r hr => ?_⟩, hv, id, hfound⟩
  · rw [hfound] at hr
    rw [g6]
    rcases List.mem_cons.mp hr with hr | hr
    · cases hr
      rw [g1] at he
      cases he
      rw [if_pos ht]
      simp
    · have := hm.tol k r e hr he ht
      split
      · exact List.mem_append_left _ this
      · exact this
  · rw [hfound] at hr
    rcases List.mem_cons.mp hr with hr | hr
    · cases hr; exact ho
    · exact hm.opt k r hr

theorem update_grows (hb : Regular b coords size) (h2 : Two q) (hdim : g.dim = 2) {st st' : St b}
    {new : List Path} (hj : Good g i j W q coords size st) (hm : Marked q RC slack st)
    (hn : NewOk g i j W st new) (ho : ∀ p ∈ new, ∃ c, p.costs = some c ∧ Opt RC slack c)
    (h : update b q st new = .ok st') :
    Marked q RC slack st' ∧ st'.visited = st.visited ∧ (∀ x ∈ st.found, x ∈ st'.found) ∧
      ∀ p ∈ new, ∃ k, (k, p) ∈ st'.found := by
  have hq : q.triDim = q.considered.count true := by rw [h2.tri, h2.count]
  have hcon : q.considered.length = q.dim := by rw [h2.con, h2.dim]; rfl
  have hd : q.dim = g.dim := by rw [h2.dim, hdim]
  unfold update at h
  induction new generalizing st with
  | nil => cases h; exact ⟨hm, rfl, fun _ h => h, fun _ h => nomatch h⟩
  | cons p new ih =>
    obtain ⟨st1, h1, k2, k3, _⟩ := register_good hb hq hcon hd hj hn
    rw [List.foldlM_cons, h1, Res.ok_bind] at h
    obtain ⟨m1, m2, id, m3⟩ := register_grows hb h2 hdim hj hm (hn.proper p List.mem_cons_self)
      (ho p List.mem_cons_self) h1
    obtain ⟨n1, n2, n3, n4⟩ := ih k2 m1 k3 (fun r hr => ho r (List.mem_cons_of_mem _ hr)) h
    refine ⟨n1, n2.trans m2, fun x hx => n3 x (by rw [m3]; exact List.mem_cons_of_mem _ hx), fun r hr => ?_⟩
    rcases List.mem_cons.mp hr with rfl | hr
    · exact ⟨id, n3 _ (by rw [m3]; exact List.mem_cons_self)⟩
    · exact n4 r hr

theorem exploreCells_seen (ha : Serves ask g I i j W) (hr : Router ask g I RC slack) (hl : Lower b coords size)
    (hb : Regular b coords size) (hsol : Solver 2 b.solve) (h2 : Two q) {cells : List RawCell}
    {st st' : St b} (hj : Good g i j W q coords size st) (hraw : ∀ raw ∈ cells, raw ∈ b.cells st.tri)
    {acc acc' : Acc S} (hs : I acc.1) (hn : NewOk g i j W st acc.2)
    (ho : ∀ p ∈ acc.2, ∃ c, p.costs = some c ∧ Opt RC slack c)
    (hv : Seen b q.tolerances RC slack st.found acc.2 st.visited)
    (h : exploreCells ask g b q cells st acc = some (.ok (st', acc'))) :
    Seen b q.tolerances RC slack st'.found acc'.2 st'.visited ∧
      (∀ p ∈ acc'.2, ∃ c, p.costs = some c ∧ Opt RC slack c) ∧ (∀ id ∈ st.visited, id ∈ st'.visited) ∧
      ∀ raw ∈ cells, raw.id ∈ st'.visited := by
  have hq : q.triDim = q.considered.count true := by rw [h2.tri, h2.count]
  have hcon : q.considered.length = q.dim := by rw [h2.con, h2.dim]; rfl
  induction cells generalizing st acc with
  | nil => cases h; exact ⟨hv, ho, fun _ h => h, fun _ h => nomatch h⟩
  | cons raw cells ih =>
    have hraw' := fun r hr => hraw r (List.mem_cons_of_mem _ hr)
    unfold exploreCells at h
    split at h
    · rename_i hmem
      obtain ⟨k1, k2, k3, k4⟩ := ih hj hraw' hs hn ho hv h
      refine ⟨k1, k2, k3, fun r hr => ?_⟩
      rcases List.mem_cons.mp hr with rfl | hr
      · exact k3 _ hmem
      · exact k4 r hr
    · obtain ⟨cell, hcell, h⟩ := andThen_ok.mp h
      simp only [Option.some.injEq] at hcell
      obtain ⟨acc1, h1, h⟩ := andThen_ok.mp h
      have hrm := hraw raw List.mem_cons_self
      obtain ⟨n2, n3⟩ := exploreCell_new ha hl hb hq hcon hj hrm hcell hs hn h1
      have hmem := cellFrom_mem hcell
      obtain ⟨_, r2, _⟩ := hb.cells st.tri raw hrm
      rw [hj.size_eq, h2.tri] at r2
      have hcosted : ∀ p ∈ cell, Costed q.dim p := by
        intro p hp
        obtain ⟨w, _, hw⟩ := forall₂_mem_right hmem hp
        exact hj.costed w p hw
      obtain ⟨o1, o2⟩ := exploreCell_grows ha hr hl h2 hcosted (by rw [← hmem.length_eq]; exact r2) hs ho h1
      have hseen : Seen b q.tolerances RC slack st.found acc1.2 (raw.id :: st.visited) := by
        intro id hid
        have hkn : ∀ e, Known st.found acc.2 e → Known st.found acc1.2 e := by
          rintro e (he | ⟨p, hp, he⟩)
          · exact .inl he
          · exact .inr ⟨p, o1 p hp, he⟩
        rcases List.mem_cons.mp hid with rfl | hid
        · refine ⟨st.tri, raw, hrm, rfl, fun v w hvw => ?_⟩
          rw [hvw] at hmem
          match cell, hmem with
          | [p, r], .cons hp (.cons hr' .nil) =>
            obtain ⟨c, hc, hcl⟩ := hj.costed v p hp
            obtain ⟨d, hd, hdl⟩ := hj.costed w r hr'
            rw [h2.dim] at hcl hdl
            refine ⟨p, r, c, d, hp, hr', hc, hd, ?_⟩
            exact (exploreCell_settles ha hr hsol h2 hc hd hcl hdl hs hn.proper h1).mono fun e he => .inr he
        · exact (hv.mono (fun _ h => h) hkn) id hid
      obtain ⟨k1, k2, k3, k4⟩ := ih (st := { st with visited := raw.id :: st.visited }) (hj.visit _) hraw' n2
        ⟨n3.proper, n3.distinct⟩ o2 hseen h
      refine ⟨k1, k2, fun id hid => k3 id (List.mem_cons_of_mem _ hid), fun r hr => ?_⟩
      rcases List.mem_cons.mp hr with rfl | hr
      · exact k3 _ List.mem_cons_self
      · exact k4 r hr

theorem exploreLoop_seen (ha : Serves ask g I i j W) (hr : Router ask g I RC slack) (hl : Lower b coords size)
    (hb : Regular b coords size) (hsol : Solver 2 b.solve) (h2 : Two q) (hdim : g.dim = 2) {fuel : Nat}
    {dirty : Bool} {st st' : St b} {s s' : S} (hj : Good g i j W q coords size st) (hm : Marked q RC slack st)
    (hs : I s) (hv : Seen b q.tolerances RC slack st.found [] st.visited)
    (hd : dirty = false → ∀ raw ∈ b.cells st.tri, raw.id ∈ st.visited)
    (h : exploreLoop ask g b q fuel dirty st s = some (.ok (st', s'))) :
    Good g i j W q coords size st' ∧ Marked q RC slack st' ∧ (∀ x ∈ st.found, x ∈ st'.found) ∧
      Seen b q.tolerances RC slack st'.found [] st'.visited ∧ ∀ raw ∈ b.cells st'.tri, raw.id ∈ st'.visited := by
  have hq : q.triDim = q.considered.count true := by rw [h2.tri, h2.count]
  have hcon : q.considered.length = q.dim := by rw [h2.con, h2.dim]; rfl
  have hdim' : q.dim = g.dim := by rw [h2.dim, hdim]
  induction fuel generalizing dirty st s with
  | zero => cases h
  | succ fuel ih =>
    unfold exploreLoop at h
    cases dirty with
    | false =>
      simp only [Bool.false_eq_true, if_false] at h
      cases h
      exact ⟨hj, hm, fun _ h => h, hv, hd rfl⟩
    | true =>
      simp only [if_true] at h
      obtain ⟨⟨st1, s1, new⟩, h1, h⟩ := andThen_ok.mp h
      obtain ⟨st2, h3, h⟩ := andThen_ok.mp h
      simp only [Option.some.injEq] at h3
      have hn0 : NewOk g i j W st [] := ⟨(fun _ h => nomatch h), by simpa [es] using hj.distinct⟩
      obtain ⟨k1, k2, k3, k4⟩ := exploreCells_new ha hl hb hq hcon hj (fun _ h => h) (acc := (s, [])) hs hn0 h1
      obtain ⟨m1, m2, m3, m4⟩ := exploreCells_seen ha hr hl hb hsol h2 hj (fun _ h => h) (acc := (s, [])) hs hn0
        (fun _ h => nomatch h) hv h1
      obtain ⟨_, _, vs, hst1⟩ := exploreCells_ok ha.inv (acc := (s, [])) hs (by simp) h1
      obtain ⟨st3, u1, u2, _⟩ := update_good hb hq hcon hdim' k2 k3
      rw [h3] at u1
      cases u1
      obtain ⟨w1, w2, w3, w4⟩ := update_grows hb h2 hdim k2 (hst1 ▸ hm.visit vs) k3 m2 h3
      have hkn : ∀ e, Known st1.found new e → Known st2.found [] e := by
        rintro e (⟨k, p, hp, he⟩ | ⟨p, hp, he⟩)
        · exact .inl ⟨k, p, w3 _ hp, he⟩
        · obtain ⟨k, hk⟩ := w4 p hp
          exact .inl ⟨k, p, hk, he⟩
      have hv2 : Seen b q.tolerances RC slack st2.found [] st2.visited := by
        rw [w2]
        exact m1.mono w3 hkn
      obtain ⟨z1, z2, z3, z4, z5⟩ := ih u2 w1 k1 hv2 (fun hdirty => by
        simp only [Bool.not_eq_false', List.isEmpty_iff] at hdirty
        subst hdirty
        cases h3
        intro raw hraw
        refine m4 raw ?_
        rw [hst1] at hraw
        exact hraw) h
      refine ⟨z1, z2, fun x hx => z3 x (w3 x ?_), z4, z5⟩
      rw [k4]
      exact hx

/-- When the exploration has stopped, no tolerated route is below the found ones, in any direction. -/
theorem final_bound (hg : Gapless b coords size) (h2 : Two q)
    {st : St b} (hslack : 0 ≤ slack) (hj : Good g i j W q coords size st) (hm : Marked q RC slack st)
    (hv : Seen b q.tolerances RC slack st.found [] st.visited)
    (hall : ∀ raw ∈ b.cells st.tri, raw.id ∈ st.visited) (hRC : ∀ e, RC e → e.length = 2)
    (hends : ∀ u ∈ [[(1 : ℚ), 0], [0, 1]], ∃ v, Known st.found [] v ∧ ∀ e, RC e →
      weigh u v < weigh u e + (3 / 2000000 + slack))
    (hskip : slack = 0 ∨ ∀ (k : Nat) t, q.tolerances[k]? ≠ some (some t))
    {e : List ℚ} (he : RC e)
    (htol : ∀ (k : Nat) t x, q.tolerances[k]? = some (some t) → e[k]? = some x → x ≤ t)
    {x : List ℚ} (hx : x.length = 2) (hx0 : ∀ a ∈ x, 0 ≤ a) (hx1 : x.sum = 1) :
    ∃ v, Known st.found [] v ∧ weigh x v < weigh x e + (3 / 2000000 + slack) := by
  -- the costs of all found paths
  obtain ⟨V, hV⟩ : ∃ V : List (List ℚ), ∀ v, v ∈ V ↔ Known st.found [] v := by
    refine ⟨st.found.filterMap fun x => x.2.costs, fun v => ?_⟩
    rw [List.mem_filterMap]
    constructor
    · rintro ⟨⟨k, p⟩, h1, h3⟩; exact .inl ⟨k, p, h1, h3⟩
    · rintro (⟨k, p, h1, h3⟩ | ⟨_, h1, _⟩)
      · exact ⟨(k, p), h1, h3⟩
      · cases h1
  have hco : ∀ k p c, (k, p) ∈ st.found → p.costs = some c → c.length = 2 ∧ coords st.tri k = some c := by
    intro k p c hp hc
    obtain ⟨c', y, h1, h3, h4, h5⟩ := hj.found k p hp
    rw [hc] at h1
    cases h1
    rw [h2.dim] at h3
    rw [h2.project h3] at h4
    cases h4
    exact ⟨h3, h5⟩
  have hback : ∀ k y, coords st.tri k = some y → ∃ p, (k, p) ∈ st.found ∧ p.costs = some y := by
    intro k y hy
    obtain ⟨p, hp⟩ := hj.find k (by rw [hy]; simp)
    have hp := mem_of_lookup hp
    obtain ⟨c, hc, _⟩ := hj.costed k p hp
    obtain ⟨_, h3⟩ := hco k p c hp hc
    rw [hy] at h3
    cases h3
    exact ⟨p, hp, hc⟩
  have hlenV : ∀ v ∈ V, v.length = 2 := by
    intro v hv
    rcases (hV v).mp hv with ⟨k, p, hp, hc⟩ | ⟨_, h1, _⟩
    · exact (hco k p v hp hc).1
    · cases h1
  obtain ⟨v1, k1, k1'⟩ := hends [1, 0] (by simp)
  obtain ⟨v2, k2, k2'⟩ := hends [0, 1] (by simp)
  have hline : ∀ x : List ℚ, x.length = 2 → (∀ a ∈ x, 0 < a) → x.sum = 1 → ∀ v ∈ V, ∀ w ∈ V, v ≠ w →
      weigh x v = weigh x w → (∀ u ∈ V, weigh x v ≤ weigh x u) →
      weigh x v < weigh x e + (3 / 2000000 + slack) := by
    intro x hx hpos h1 v hv' w hw' hne heq hmin
    obtain ⟨kv, pv, hpv, hcv⟩ := ((hV v).mp hv').resolve_right (by rintro ⟨_, h, _⟩; cases h)
    obtain ⟨kw, pw, hpw, hcw⟩ := ((hV w).mp hw').resolve_right (by rintro ⟨_, h, _⟩; cases h)
    obtain ⟨raw, hraw, v', w', y', z', r1, r2, r3, r4, r5, r6⟩ := hg.cover st.tri (by rw [hj.size_eq, h2.tri]) x hx
      hpos kv kw v w (hco _ _ _ hpv hcv).2 (hco _ _ _ hpw hcw).2 hne heq (fun u r hu => by
        obtain ⟨p, hp, hc⟩ := hback u r hu
        exact ⟨(hco u p r hp hc).1, hmin r ((hV r).mpr (.inl ⟨u, p, hp, hc⟩))⟩)
    obtain ⟨t, raw', h3, h4, h5⟩ := hv _ (hall raw hraw)
    rw [hg.id t st.tri raw' h3 raw hraw h4] at h5
    obtain ⟨p, r, c, d, g1, g2, g3, g4, g5⟩ := h5 v' w' r1
    have ec : c = y' := by
      have := (hco _ _ _ g1 g3).2
      rw [r2] at this
      exact (Option.some.inj this).symm
    have ed : d = z' := by
      have := (hco _ _ _ g2 g4).2
      rw [r3] at this
      exact (Option.some.inj this).symm
    subst ec ed
    rcases g5 r4 x hx hpos h1 (r5.trans r6.symm) with hh | hh | ⟨u, hu, hlt⟩
    · by_contra hcon
      push Not at hcon
      rcases hskip with rfl | hskip
      · obtain ⟨c', hc', hcR, a, a1, a2, a3, a4⟩ := hm.opt _ _ g1
        obtain ⟨d', hd', hdR, a', a1', a2', a3', a4'⟩ := hm.opt _ _ g2
        rw [g3] at hc'
        cases hc'
        rw [g4] at hd'
        cases hd'
        obtain ⟨k, t, z, t1, t2, t3⟩ := C79_safe (n := e) (x := x) (a := a) (e := a') r4 (by
            simp only [List.mem_cons, List.not_mem_nil, or_false, forall_eq_or_imp, forall_eq]
            exact ⟨hRC _ hcR, hRC _ hdR, hRC _ he, hx, a1, a1'⟩) h2.tol hh (fun y hy => (hpos y hy).le)
          (r5.trans r6.symm) (by rw [r5]; linarith) a2 a3
          ⟨by simpa using a4 _ hdR, by simpa using a4 _ he⟩ a2' a3'
          ⟨by simpa using a4' _ hcR, by simpa using a4' _ he⟩
        have := htol k t z t1 t2
        linarith
      · obtain ⟨k, t, ht, _⟩ := hh
        exact hskip k t ht
    · have := hh e he
      rwa [r5] at this
    · have := hmin u ((hV u).mpr hu)
      rw [r5] at hlt
      linarith
  obtain ⟨v, hv1, hv2⟩ := plane_fan hlenV (List.ne_nil_of_mem ((hV _).mpr k1)) (hRC e he)
    (slack := 3 / 2000000 + slack) ⟨v1, (hV _).mpr k1, k1' e he⟩ ⟨v2, (hV _).mpr k2, k2' e he⟩ hline hx hx0 hx1
  exact ⟨v, (hV v).mp hv1, hv2⟩

/-! ## From the beginning to the end -/

/-- The costs of an answer. -/
def Ans (ask : S → List ℚ → Option (R (S × Option Path))) (g : Graph) (I : S → Prop) (al c : List ℚ) : Prop :=
  ∃ s s' p0 p, I s ∧ ask s al = some (.ok (s', some p0)) ∧ p0.calcCosts g = .ok p ∧ p.costs = some c

theorem exploreInit_ends (hI : ∀ s al s' ans, I s → ask s al = some (.ok (s', ans)) → I s')
    {scales : List (Option ℚ)} {l : List (Option Nat × List ℚ)} {s s' : S} {q q' : Query}
    {found found' : List Path} (hs : I s)
    (hno : ∀ mi al, (mi, al) ∈ l → ∀ s s', I s → ask s al ≠ some (.ok (s', none)))
    (h : exploreInit ask g scales l s q found = some (.ok (s', q', found'))) :
    (∀ p ∈ found, p ∈ found') ∧
    (∀ mi al, (mi, al) ∈ l → ∃ c, Ans ask g I al c ∧ ∃ r ∈ found', ∃ d, r.costs = some d ∧
      Approx.eqSlice d c = true) ∧
    (∀ p ∈ found', p ∈ found ∨ ∃ mi al c, (mi, al) ∈ l ∧ p.costs = some c ∧ Ans ask g I al c) ∧
    ((∀ p ∈ found, ∃ c, p.costs = some c ∧ ∀ mi al, (mi, al) ∈ l → ∀ d, Ans ask g I al d → Apart c d) →
      l.Pairwise (fun a b => ∀ c d, Ans ask g I a.2 c → Ans ask g I b.2 d → Apart c d) →
      found'.length = found.length + l.length) := by
  induction l generalizing s q found with
  | nil =>
    cases h
    exact ⟨fun _ h => h, (by intro _ _ h; cases h), fun _ h => .inl h, fun _ _ => rfl⟩
  | cons x l ih =>
    obtain ⟨mi, al⟩ := x
    unfold exploreInit at h
    obtain ⟨⟨s1, ans⟩, ha, h⟩ := andThen_ok.mp h
    have hs1 := hI _ _ _ _ hs ha
    have hno' := fun mi al hm => hno mi al (List.mem_cons_of_mem _ hm)
    cases ans with
    | none => exact absurd ha (hno mi al List.mem_cons_self s s1 hs)
    | some p0 =>
      obtain ⟨⟨q1, found1⟩, hf, h⟩ := andThen_ok.mp h
      simp only [Option.some.injEq] at hf
      obtain ⟨p, c, hp, hc, _, hfound⟩ := initFound_ok g hf
      obtain ⟨h1, h2, h3, h4⟩ := ih hs1 hno' h
      have hans : Ans ask g I al c := ⟨s, s1, p0, p, hs, ha, hp, hc⟩
      have hsub : ∀ p ∈ found, p ∈ found1 := by
        intro r hr
        rcases hfound with rfl | ⟨rfl, _⟩
        · exact List.mem_append_left _ hr
        · exact hr
      refine ⟨fun r hr => h1 r (hsub r hr), fun mi' al' hm => ?_, fun r hr => ?_, fun ho hpw => ?_⟩
      · rcases List.mem_cons.mp hm with hm | hm
        · cases hm
          refine ⟨c, hans, ?_⟩
          rcases hfound with rfl | ⟨rfl, f, hf', d, hd, he⟩
          · exact ⟨p, h1 p (by simp), c, hc, eqSlice_refl c⟩
          · exact ⟨f, h1 f hf', d, hd, he⟩
        · exact h2 mi' al' hm
      · rcases h3 r hr with hr | ⟨mi', al', c', k1, k2⟩
        · rcases hfound with rfl | ⟨rfl, _⟩
          · rcases List.mem_append.mp hr with hr | hr
            · exact .inl hr
            · rw [List.mem_singleton.mp hr]
              exact .inr ⟨mi, al, c, List.mem_cons_self, hc, hans⟩
          · exact .inl hr
        · exact .inr ⟨mi', al', c', List.mem_cons_of_mem _ k1, k2⟩
      · rw [List.pairwise_cons] at hpw
        rcases hfound with rfl | ⟨rfl, f, hf', d, hd, he⟩
        · rw [h4 ?_ hpw.2]
          · simp only [List.length_append, List.length_cons, List.length_nil]
            omega
          · intro r hr
            rcases List.mem_append.mp hr with hr | hr
            · obtain ⟨c', k1, k2⟩ := ho r hr
              exact ⟨c', k1, fun mi' al' hm => k2 mi' al' (List.mem_cons_of_mem _ hm)⟩
            · rw [List.mem_singleton.mp hr]
              exact ⟨c, hc, fun mi' al' hm d hd => hpw.1 _ hm c d hans hd⟩
        · obtain ⟨c', k1, k2⟩ := ho f hf'
          rw [hd] at k1
          cases k1
          obtain ⟨k, x, y, e1, e2, e3⟩ := k2 mi al List.mem_cons_self c hans
          have := (Approx.C26_eqSlice_iff d c).mp he k x y e1 e2
          linarith

/-- A route whose costs exceed no tolerance. -/
def Within (scales : List (Option ℚ)) (RC : List ℚ → Prop) (e : List ℚ) : Prop :=
  ∀ (k : Nat) sc x, scales[k]? = some (some sc) → e[k]? = some x → ∀ d y, RC d → d[k]? = some y → x ≤ y * sc

theorem init_two {a1 a2 : ℚ} (h1 : 0 < a1) (h2 : 0 < a2) :
    initAlphas (Query.start 2 [a1, a2]) = .ok [(some 0, [1, 0]), (some 1, [0, 1]), (none, [1, 1])] := by
  have : Query.start 2 [a1, a2] =
      { dim := 2, triDim := 2, tolerances := [none, none], considered := [true, true] } := by
    simp [Query.start, h1, h2, List.replicate]
  rw [this]
  decide +kernel

theorem explorate_complete (ha : Serves ask g I i j W) (hr : Router ask g I RC slack) (hl : Lower b coords size)
    (hb : Regular b coords size) (hg : Gapless b coords size) (hsol : Solver 2 b.solve) (hdim : g.dim = 2)
    (hslack : 0 ≤ slack) {a1 a2 : ℚ} (ha1 : 0 < a1) (ha2 : 0 < a2) (hRC : ∀ e, RC e → e.length = 2)
    (hex : ∃ e, RC e) {scales : List (Option ℚ)} (hskip : slack = 0 ∨ ∀ sc ∈ scales, sc = none) {fuel : Nat}
    {s s' : S} {res : List Path} (hs : I s)
    (hstart : 2 < res.length ∨ ∀ c d e, Ans ask g I [1, 0] c → Ans ask g I [0, 1] d → Ans ask g I [1, 1] e →
      Apart c d ∧ Apart c e ∧ Apart d e)
    (h : explorate ask g b fuel [a1, a2] scales s = some (.ok (s', res))) :
    ∃ V : List (List ℚ), (∀ v ∈ V, RC v) ∧
      (∀ v ∈ V, Within scales RC v → ∃ p ∈ res, p.costs = some v) ∧
      ∀ e, RC e → Within scales RC e → ∀ x : List ℚ, x.length = 2 → (∀ a ∈ x, 0 ≤ a) → x.sum = 1 →
        ∃ v ∈ V, weigh x v < weigh x e + (3 / 2000000 + slack) := by
  obtain ⟨e0, he0⟩ := hex
  unfold explorate at h
  rw [hdim] at h
  obtain ⟨init, h1, h⟩ := andThen_ok.mp h
  simp only [Option.some.injEq] at h1
  obtain ⟨⟨s1, q, new⟩, h2, h⟩ := andThen_ok.mp h
  obtain ⟨st0, h3, h⟩ := andThen_ok.mp h
  obtain ⟨⟨st, s2⟩, h4, h⟩ := andThen_ok.mp h
  obtain ⟨ps, h5, h⟩ := andThen_ok.mp h
  cases h
  simp only [Option.some.injEq] at h3 h5
  obtain ⟨k1, ⟨k2, k3, k4, k5⟩, _, _, _, k6, _⟩ := exploreInit_ok ha.inv hs (init_nonzero h1) h2
  have hinit := h1
  rw [init_two ha1 ha2] at h1
  cases h1
  obtain ⟨n1, n2⟩ := exploreInit_distinct ha hs (by intro _ h; cases h) (by simp [es]) h2
  have hno : ∀ mi al, (mi, al) ∈ [(some 0, [(1 : ℚ), 0]), (some 1, [0, 1]), (none, [1, 1])] →
      ∀ s s', I s → ask s al ≠ some (.ok (s', none)) := by
    intro mi al hm s s' hs hc
    refine hr.none s al s' hs ?_ hc e0 he0
    simp only [List.mem_cons, Prod.mk.injEq, List.not_mem_nil, or_false] at hm
    rcases hm with ⟨_, rfl⟩ | ⟨_, rfl⟩ | ⟨_, rfl⟩ <;> decide
  obtain ⟨_, i2, i3, i4⟩ := exploreInit_ends ha.inv hs hno h2
  have htwo : Two q := by
    refine ⟨k2, ?_, ?_, ?_⟩
    · rw [k3]; simp [Query.start, ha1, ha2]
    · rw [k4]; simp [Query.start, ha1, ha2]
    · rw [k5]; simp [Query.start]
  have hq : q.triDim = q.considered.count true := by rw [htwo.tri, htwo.count]
  have hcon : q.considered.length = q.dim := by rw [htwo.con, htwo.dim]; rfl
  have hdim' : q.dim = g.dim := by rw [htwo.dim, hdim]
  have hAns : ∀ al c, Ans ask g I al c → RC c ∧ (al.length = 2 → ∀ e, RC e → weigh al c ≤ weigh al e + slack) := by
    rintro al c ⟨s, s', p0, p, g1, g2, g3, g4⟩
    exact hr.best s al s' p0 p c g1 g2 g3 g4
  have hopt : ∀ p ∈ new, ∃ c, p.costs = some c ∧ Opt RC slack c := by
    intro p hp
    obtain ⟨mi, al, c, g1, g2, g3⟩ := (i3 p hp).resolve_left (fun h => nomatch h)
    obtain ⟨g4, g5⟩ := hAns al c g3
    refine ⟨c, g2, g4, al, ?_⟩
    simp only [List.mem_cons, Prod.mk.injEq, List.not_mem_nil, or_false] at g1
    rcases g1 with ⟨_, rfl⟩ | ⟨_, rfl⟩ | ⟨_, rfl⟩
    · exact ⟨rfl, by decide, by decide, g5 rfl⟩
    · exact ⟨rfl, by decide, by decide, g5 rfl⟩
    · exact ⟨rfl, by decide, by decide, g5 rfl⟩
  have hn0 : NewOk g i j W ({ tri := b.new q.triDim, found := [], tolerated := [], visited := [] } : St b) new :=
    ⟨n1, by simpa [esK] using n2⟩
  obtain ⟨st1, g1, g2, g3⟩ := update_good (q := q) hb hq hcon hdim' (good_start hb []) hn0
  rw [h3] at g1
  cases g1
  simp only [List.length_nil, Nat.zero_add] at g3
  obtain ⟨m1, m2, _, m4⟩ := update_grows (RC := RC) (slack := slack) hb htwo hdim (good_start hb [])
    ⟨(by intro _ _ _ h; cases h), (by intro _ _ h; cases h)⟩ hn0 hopt h3
  -- the loop has been entered
  have hthree : 2 < st0.found.length := by
    rcases hstart with hstart | hstart
    · by_contra hle
      rw [if_neg (by omega)] at h4
      cases h4
      have hd := collect_distinct g2.distinct h5
      have hsub : es res ⊆ esK st0.found := by
        intro l hl
        obtain ⟨p, hp, rfl⟩ := List.mem_map.mp hl
        obtain ⟨k, _, hk⟩ := forall₂_mem_right (collect_ok h5).1 hp
        exact List.mem_map.mpr ⟨(k, p), hk, rfl⟩
      have := (hd.subperm hsub).length_le
      simp only [List.length_map] at this
      omega
    · rw [g3, i4 (fun _ h => nomatch h) ?_]
      · simp
      · simp only [List.pairwise_cons, List.mem_cons, List.not_mem_nil, or_false, forall_eq_or_imp, forall_eq,
          List.Pairwise.nil, and_true, false_implies, implies_true]
        obtain ⟨c1, z1, _⟩ := i2 (some 0) [1, 0] (by simp)
        obtain ⟨c2, z2, _⟩ := i2 (some 1) [0, 1] (by simp)
        obtain ⟨c3, z3, _⟩ := i2 none [1, 1] (by simp)
        exact ⟨⟨fun c d hc hd => (hstart c d c3 hc hd z3).1, fun c d hc hd => (hstart c c2 d hc z2 hd).2.1⟩,
          fun c d hc hd => (hstart c1 c d z1 hc hd).2.2⟩
  rw [if_pos ⟨by rw [htwo.tri]; omega, by rw [htwo.tri]; exact hthree⟩] at h4
  obtain ⟨f1, f2, f3, f4, f5⟩ := exploreLoop_seen ha hr hl hb hsol htwo hdim g2 m1 k1
    (by rw [m2]; intro _ h; cases h) (fun hd => by
      simp only [Bool.not_eq_false', List.isEmpty_iff] at hd
      rw [g3, hd] at hthree
      simp at hthree) h4
  obtain ⟨V, hV⟩ : ∃ V : List (List ℚ), ∀ v, v ∈ V ↔ Known st.found [] v := by
    refine ⟨st.found.filterMap fun x => x.2.costs, fun v => ?_⟩
    rw [List.mem_filterMap]
    constructor
    · rintro ⟨⟨k, p⟩, h1, h3⟩; exact .inl ⟨k, p, h1, h3⟩
    · rintro (⟨k, p, h1, h3⟩ | ⟨_, h1, _⟩)
      · exact ⟨(k, p), h1, h3⟩
      · cases h1
  -- the tolerances
  have htol : ∀ (k : Nat) t, q.tolerances[k]? = some (some t) → ∃ sc d y, scales[k]? = some (some sc) ∧ RC d ∧
      d[k]? = some y ∧ t = y * sc := by
    intro k t ht
    rcases k6 k _ ht with ⟨h6, _⟩ | ⟨al, _, s1, s2, p0, p, c, w1, w2, w3, w4, sc, w5, w6⟩
    · simp only [Query.start, List.getElem?_replicate] at h6
      split at h6 <;> cases h6
    · rcases w6 with ⟨_, h7⟩ | ⟨x, y, rfl, h8, h9⟩
      · cases h7
      · cases h9
        exact ⟨x, c, y, w5, (hAns al c ⟨s1, s2, p0, p, w1, w2, w3, w4⟩).1, h8, rfl⟩
  refine ⟨V, fun v hv => ?_, fun v hv hw => ?_, fun e he hw x hx hx0 hx1 => ?_⟩
  · rcases (hV v).mp hv with ⟨k, p, hp, hc⟩ | ⟨_, h1, _⟩
    · obtain ⟨c, hc', ho⟩ := f2.opt k p hp
      rw [hc] at hc'
      cases hc'
      exact ho.1
    · cases h1
  · rcases (hV v).mp hv with ⟨k, p, hp, hc⟩ | ⟨_, h1, _⟩
    · have hk := f2.tol k p v hp hc (by
        rw [tolerates_iff]
        intro m x t hx ht
        obtain ⟨sc, d, y, t1, t2, t3, rfl⟩ := htol m t ht
        have := hw m sc x t1 hx d y t2 t3
        linarith)
      have key : ∀ {ks : List Nat} {ps : List Path},
          List.Forall₂ (fun v p => (v, p) ∈ st.found) ks ps → k ∈ ks → ∃ r ∈ ps, (k, r) ∈ st.found := by
        intro ks ps hf
        induction hf with
        | nil => intro h; cases h
        | cons h _ ih =>
          intro hw
          rcases List.mem_cons.mp hw with rfl | hw
          · exact ⟨_, List.mem_cons_self, h⟩
          · obtain ⟨r, h1, h2⟩ := ih hw
            exact ⟨r, List.mem_cons_of_mem _ h1, h2⟩
      obtain ⟨r, hr1, hr2⟩ := key (collect_ok h5).1 hk
      obtain ⟨c1, x1, u1, u2, u3, u4⟩ := f1.found k p hp
      obtain ⟨c2, x2, v1, v2, v3, v4⟩ := f1.found k r hr2
      rw [htwo.dim] at u2 v2
      rw [htwo.project u2] at u3
      rw [htwo.project v2] at v3
      cases u3
      cases v3
      rw [u4] at v4
      cases v4
      rw [hc] at u1
      cases u1
      exact ⟨r, hr1, v1⟩
    · cases h1
  · suffices hfb : ∃ v, Known st.found [] v ∧ weigh x v < weigh x e + (3 / 2000000 + slack) by
      obtain ⟨v, hv1, hv2⟩ := hfb
      exact ⟨v, (hV v).mpr hv1, hv2⟩
    refine final_bound hg htwo hslack f1 f2 f4 f5 hRC ?_ ?_ he ?_ hx hx0 hx1
    · intro u hu
      have : ∃ mi, (mi, u) ∈ [(some 0, [(1 : ℚ), 0]), (some 1, [0, 1]), (none, [1, 1])] ∧ u.length = 2 := by
        simp only [List.mem_cons, List.not_mem_nil, or_false] at hu
        rcases hu with rfl | rfl
        · exact ⟨some 0, by simp, rfl⟩
        · exact ⟨some 1, by simp, rfl⟩
      obtain ⟨mi, hmi, hul⟩ := this
      obtain ⟨c, hc1, r, hr1, d, hd1, hd2⟩ := i2 mi u hmi
      obtain ⟨kk, hkk⟩ := m4 r hr1
      refine ⟨d, .inl ⟨kk, r, f3 _ hkk, hd1⟩, fun e he => ?_⟩
      obtain ⟨hcR, hcb⟩ := hAns u c hc1
      have hcb := hcb hul e he
      have hdl : d.length = 2 := by
        obtain ⟨c', hc', ho⟩ := hopt r hr1
        rw [hd1] at hc'
        cases hc'
        exact hRC _ ho.1
      have hcl := hRC c hcR
      have hap := (Approx.C26_eqSlice_iff d c).mp hd2
      match d, hdl, c, hcl with
      | [d1, d2], _, [c1, c2], _ =>
        have p1 := abs_lt.mp (hap 0 d1 c1 rfl rfl)
        have p2 := abs_lt.mp (hap 1 d2 c2 rfl rfl)
        simp only [List.mem_cons, List.not_mem_nil, or_false] at hu
        rcases hu with rfl | rfl
        · rw [weigh_two] at hcb ⊢
          linarith
        · rw [weigh_two] at hcb ⊢
          linarith
    · rcases hskip with h | h
      · exact .inl h
      · refine .inr fun k t ht => ?_
        obtain ⟨sc, d, y, t1, _⟩ := htol k t ht
        cases h _ (List.mem_of_getElem? t1)
    · intro k t x ht hx
      obtain ⟨sc, d, y, t1, t2, t3, rfl⟩ := htol k t ht
      exact hw k sc x t1 hx d y t2 t3

end

end Verif.Exp
