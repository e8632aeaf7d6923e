import Verif.FacetSpec
import Verif.CompleteLemmas

/-!
# Helper lemmas: facets of the lower convex hull when the explorator stops
-/

namespace Verif.Exp

open Dij (R)

/-! ## Considered metrics -/

/-- No weight for ignored metrics. -/
def lift : List Bool → List ℚ → List ℚ
  | [], _ => []
  | true :: ds, [] => 0 :: lift ds []
  | true :: ds, y :: ys => y :: lift ds ys
  | false :: ds, ys => 0 :: lift ds ys

theorem lift_length (ds : List Bool) (y : List ℚ) : (lift ds y).length = ds.length := by
  induction ds generalizing y with
  | nil => rfl
  | cons d ds ih =>
    cases d with
    | false => simp [lift, ih]
    | true => cases y <;> simp [lift, ih]

theorem lift_ignored {ds : List Bool} {y : List ℚ} {i : Nat} (h : ds[i]? = some false) :
    (lift ds y)[i]? = some 0 := by
  induction ds generalizing y i with
  | nil => cases h
  | cons d ds ih =>
    cases i with
    | zero => cases h; rfl
    | succ i =>
      cases d with
      | false => exact ih (by simpa using h)
      | true => cases y <;> exact ih (by simpa using h)

theorem project_lift {ds : List Bool} {y : List ℚ} (h : y.length = ds.count true) :
    project ds (lift ds y) = .ok y := by
  induction ds generalizing y with
  | nil =>
    have : y = [] := List.length_eq_zero_iff.mp h
    subst this
    rfl
  | cons d ds ih =>
    cases d with
    | false =>
      unfold lift project
      rw [ih (by simpa using h)]
      rfl
    | true =>
      cases y with
      | nil => simp at h
      | cons a y =>
        unfold lift project
        rw [ih (by simpa using h)]
        rfl

theorem sum_project {ds : List Bool} {x y : List ℚ} (h : project ds x = .ok y) (hl : x.length = ds.length)
    (hz : ∀ (i : Nat), ds[i]? = some false → x[i]? = some 0) : x.sum = y.sum := by
  induction ds generalizing x y with
  | nil =>
    have : x = [] := List.length_eq_zero_iff.mp hl
    subst this
    cases h
    rfl
  | cons d ds ih =>
    cases x with
    | nil => simp at hl
    | cons a x =>
      obtain ⟨y', hy, rfl⟩ := project_cons_ok h
      have := ih hy (by simpa using hl) (fun i hi => by simpa using hz (i + 1) (by simpa using hi))
      cases d with
      | true => simp [this]
      | false =>
        have h0 := hz 0 rfl
        simp only [List.getElem?_cons_zero, Option.some.injEq] at h0
        simp [this, h0]

theorem project_inj {ds : List Bool} {x x' y : List ℚ} (h : project ds x = .ok y) (h' : project ds x' = .ok y)
    (hl : x.length = ds.length) (hl' : x'.length = ds.length)
    (hz : ∀ (i : Nat), ds[i]? = some false → x[i]? = some 0)
    (hz' : ∀ (i : Nat), ds[i]? = some false → x'[i]? = some 0) : x = x' := by
  induction ds generalizing x x' y with
  | nil => rw [List.length_eq_zero_iff.mp hl, List.length_eq_zero_iff.mp hl']
  | cons d ds ih =>
    cases x with
    | nil => simp at hl
    | cons a x =>
      cases x' with
      | nil => simp at hl'
      | cons a' x' =>
        obtain ⟨z, h1, rfl⟩ := project_cons_ok h
        obtain ⟨z', h2, h3⟩ := project_cons_ok h'
        have tail : z = z' → x = x' := by
          rintro rfl
          exact ih h1 h2 (by simpa using hl) (by simpa using hl')
            (fun i hi => by simpa using hz (i + 1) (by simpa using hi))
            (fun i hi => by simpa using hz' (i + 1) (by simpa using hi))
        cases d with
        | true =>
          simp only [if_true, List.cons.injEq] at h3
          rw [h3.1, tail h3.2]
        | false =>
          simp only [Bool.false_eq_true, if_false] at h3
          have e1 := hz 0 rfl
          have e2 := hz' 0 rfl
          simp only [List.getElem?_cons_zero, Option.some.injEq] at e1 e2
          rw [e1, e2, tail h3]

theorem project_pos {ds : List Bool} {x y : List ℚ} (h : project ds x = .ok y)
    (hp : ∀ (i : Nat) a, ds[i]? = some true → x[i]? = some a → 0 < a) : ∀ a ∈ y, 0 < a := by
  induction ds generalizing x y with
  | nil =>
    cases x with
    | nil => cases h; simp
    | cons => cases h
  | cons d ds ih =>
    cases x with
    | nil => cases h; simp
    | cons a x =>
      obtain ⟨z, h1, rfl⟩ := project_cons_ok h
      have := ih h1 (fun i a hi ha => hp (i + 1) a (by simpa using hi) (by simpa using ha))
      cases d with
      | false => simpa using this
      | true =>
        have h0 := hp 0 a rfl rfl
        simp only [if_true, List.mem_cons, forall_eq_or_imp]
        exact ⟨h0, this⟩

/-- Weights of points and of their considered coordinates. -/
theorem normal_project {ds : List Bool} {cs zs : List (List ℚ)} {x x' : List ℚ}
    (h : List.Forall₂ (fun c z => project ds c = .ok z) cs zs) (hcs : ∀ c ∈ cs, c.length = ds.length)
    (hx : project ds x = .ok x') (hl : x.length = ds.length) (hz : ∀ (i : Nat), ds[i]? = some false → x[i]? = some 0) :
    List.Forall₂ (fun c z => weigh x c = weigh x' z) cs zs := by
  have hz' : ∀ (i : Nat) a, ds[i]? = some false → x[i]? = some a → a = 0 := by
    intro i a hi ha
    rw [hz i hi] at ha
    exact (Option.some.inj ha).symm
  induction h with
  | nil => exact .nil
  | cons h1 _ ih =>
    exact .cons (weigh_project hx h1 hz' hl (hcs _ List.mem_cons_self))
      (ih fun c hc => hcs c (List.mem_cons_of_mem _ hc))

theorem forall₂_left {α β : Type} {P : α → β → Prop} {l : List α} {m : List β} (h : List.Forall₂ P l m) :
    ∀ a ∈ l, ∃ b ∈ m, P a b := by
  induction h with
  | nil => simp
  | cons h _ ih =>
    intro a ha
    rcases List.mem_cons.mp ha with rfl | ha
    · exact ⟨_, List.mem_cons_self, h⟩
    · obtain ⟨b, h1, h2⟩ := ih a ha
      exact ⟨b, List.mem_cons_of_mem _ h1, h2⟩

theorem spans_project {ds : List Bool} {cs zs : List (List ℚ)} {x x' : List ℚ}
    (h : List.Forall₂ (fun c z => project ds c = .ok z) cs zs) (hcs : ∀ c ∈ cs, c.length = ds.length)
    (hx : project ds x = .ok x') (hl : x.length = ds.length) (hz : ∀ (i : Nat), ds[i]? = some false → x[i]? = some 0) :
    Spans cs ds x ↔ Spans zs (List.replicate (ds.count true) true) x' := by
  have hno : ∀ (n i : Nat), (List.replicate n true)[i]? ≠ some false := by
    intro n i hi
    rw [List.getElem?_replicate] at hi
    split at hi <;> cases hi
  -- a vector without weights for ignored metrics
  have key : ∀ y y' : List ℚ, project ds y = .ok y' → y.length = ds.length →
      (∀ (i : Nat), ds[i]? = some false → y[i]? = some 0) →
      (Normal cs ds y ↔ Normal zs (List.replicate (ds.count true) true) y') := by
    intro y y' hy hyl hyz
    have hw := normal_project h hcs hy hyl hyz
    have hyl' : y'.length = ds.count true := by
      obtain ⟨y'', h1, h2⟩ := project_total hyl
      rw [hy] at h1
      cases h1
      exact h2
    constructor
    · intro hn
      refine ⟨by simp [hyl'], fun z hz1 z' hz2 => ?_, fun i hi => absurd hi (hno _ i)⟩
      obtain ⟨c, hc, e1⟩ := forall₂_mem_right hw hz1
      obtain ⟨c', hc', e2⟩ := forall₂_mem_right hw hz2
      rw [← e1, ← e2]
      exact hn.same c hc c' hc'
    · intro hn
      refine ⟨hyl, fun c hc c' hc' => ?_, hyz⟩
      obtain ⟨z, hz1, e1⟩ := forall₂_left hw c hc
      obtain ⟨z', hz2, e2⟩ := forall₂_left hw c' hc'
      rw [e1, e2]
      exact hn.same z hz1 z' hz2
  constructor
  · intro hs
    refine ⟨(key x x' hx hl hz).mp hs.normal, by rw [← sum_project hx hl hz]; exact hs.sum, fun y' hn hy1 => ?_⟩
    have hyl : y'.length = ds.count true := by simpa using hn.length
    have hp := project_lift hyl
    have e := hs.unique (lift ds y') ((key _ _ hp (lift_length _ _) fun i hi => lift_ignored hi).mpr hn)
      (by rw [sum_project hp (lift_length _ _) fun i hi => lift_ignored hi]; exact hy1)
    rw [e, hx] at hp
    exact (Res.ok.inj hp).symm
  · intro hs
    refine ⟨(key x x' hx hl hz).mpr hs.normal, by rw [sum_project hx hl hz]; exact hs.sum, fun y hn hy1 => ?_⟩
    obtain ⟨y', hy', _⟩ := project_total (ds := ds) (c := y) hn.length
    have := hs.unique y' ((key y y' hy' hn.length hn.ignored).mp hn)
      (by rw [← sum_project hy' hn.length hn.ignored]; exact hy1)
    subst this
    exact project_inj hy' hx hn.length hl hn.ignored hz

/-! ## One cell -/

/-- The router answers with the costs of a route, and no route is cheaper by more than `slack`. -/
structure Asker {S : Type} (ask : S → List ℚ → Option (R (S × Option Path))) (g : Graph) (I : S → Prop)
    (RC : List ℚ → Prop) (slack : ℚ) : Prop where
  best : ∀ s al s' p0 p c, I s → ask s al = some (.ok (s', some p0)) → p0.calcCosts g = .ok p →
    p.costs = some c → RC c ∧ (al.length = g.dim → ∀ e, RC e → weigh al c ≤ weigh al e + slack)
  none : ∀ s al s', I s → (∀ a ∈ al, 0 ≤ a) → ask s al = some (.ok (s', none)) → ∀ e, ¬ RC e

section
variable {b : Backend} {coords : b.Tri → Nat → Option (List ℚ)} {size : b.Tri → Nat} {q : Query}
  {S : Type} {ask : S → List ℚ → Option (R (S × Option Path))} {g : Graph} {I : S → Prop}
  {i j : Int} {W : List (List Nat)} {RC : List ℚ → Prop} {slack : ℚ}

/-- What is known about a cell after the router has been asked: no route is below, or a path below is known. -/
def SettledF (considered : List Bool) (RC : List ℚ → Prop) (slack : ℚ) (Known : List ℚ → Prop)
    (cs : List (List ℚ)) : Prop :=
  ∀ x : List ℚ, Spans cs considered x → (∀ a ∈ x, 0 ≤ a) →
    (∀ c ∈ cs, ∀ e, RC e → weigh x c < weigh x e + (3 / 2000000 + slack)) ∨
      ∃ e, Known e ∧ ∀ c ∈ cs, weigh x e < weigh x c

theorem SettledF.mono {considered : List Bool} {Known Known' : List ℚ → Prop} {cs : List (List ℚ)}
    (h : SettledF considered RC slack Known cs) (hk : ∀ e, Known e → Known' e) :
    SettledF considered RC slack Known' cs := by
  intro x h1 h2
  rcases h x h1 h2 with h | ⟨e, h5, h6⟩
  · exact .inl h
  · exact .inr ⟨e, hk e h5, h6⟩

theorem exploreCell_keeps {cell : List Path} {acc acc' : Acc S}
    (h : exploreCell ask g b q cell acc = some (.ok acc')) : ∀ p ∈ acc.2, p ∈ acc'.2 := by
  unfold exploreCell at h
  obtain ⟨al, hal, h⟩ := andThen_ok.mp h
  cases al with
  | none => cases h; exact fun _ h => h
  | some al =>
    obtain ⟨⟨s1, ans⟩, hans, h⟩ := andThen_ok.mp h
    cases ans with
    | none => cases h; exact fun _ h => h
    | some p0 =>
      obtain ⟨new, hnew, h⟩ := andThen_ok.mp h
      cases h
      simp only [Option.some.injEq] at hnew
      unfold judge at hnew
      obtain ⟨p, _, hnew⟩ := Res.bind_eq_ok.mp hnew
      obtain ⟨c, _, hnew⟩ := Res.bind_eq_ok.mp hnew
      obtain ⟨v, _, hnew⟩ := Res.bind_eq_ok.mp hnew
      obtain ⟨d, _, hnew⟩ := Res.bind_eq_ok.mp hnew
      cases hnew
      intro r hr
      simp only
      split
      · exact List.mem_append_left _ hr
      · exact hr

/-- After a cell has been explored, it is settled. -/
theorem exploreCell_settlesF (ha : Serves ask g I i j W) (hr : Asker ask g I RC slack)
    (hsol : Solver q.dim b.solve) (hcon : q.considered.length = q.dim) (hdim : q.dim = g.dim)
    (htl : q.tolerances.length = q.dim) (htol : ∀ t ∈ q.tolerances, t = none) {cell : List Path}
    {cs : List (List ℚ)} (hcs : HasCosts q.dim cell cs) (hne : cell ≠ [])
    (hlen : cs.length = q.considered.count true) {acc acc' : Acc S} (hs : I acc.1)
    (hnew : ∀ p ∈ acc.2, Proper g i j W p)
    (h : exploreCell ask g b q cell acc = some (.ok acc')) :
    SettledF q.considered RC slack (fun e => ∃ p ∈ acc'.2, p.costs = some e) cs := by
  intro x hx hpos
  have hh : ¬ Hopeless cs q.tolerances := by
    rintro ⟨k, t, ht, _⟩
    exact absurd (htol _ (List.mem_of_getElem? ht)) (by simp)
  rw [exploreCell_asked hsol hcs hne htl hcon hlen hh hx.normal hx.sum hx.unique] at h
  obtain ⟨⟨s1, ans⟩, hans, h⟩ := andThen_ok.mp h
  cases ans with
  | none =>
    left
    intro c _ e he
    exact absurd he (hr.none _ _ _ hs hpos hans e)
  | some p0 =>
    obtain ⟨new, hnew', h⟩ := andThen_ok.mp h
    cases h
    simp only [Option.some.injEq] at hnew'
    obtain ⟨_, p', hp', hgood⟩ := ha.good _ _ _ _ hs hans
    obtain ⟨c', hc', hcost⟩ := hgood.costs
    obtain ⟨v, d, hv, hd, rfl⟩ := judge_cases hp' hc' hnew'
    obtain ⟨_, k2⟩ := hr.best _ _ _ _ _ _ hs hans hp' hc'
    have hdc : d ∈ cs := by
      obtain ⟨c, h1, h2⟩ := hcs.costed v (List.mem_of_getElem? hv)
      rw [hd] at h2
      cases h2
      exact h1
    have hsame : ∀ c ∈ cs, weigh x c = weigh x d := fun c hc => hx.normal.same c hc d hdc
    by_cases hlt : Approx.lt (weigh x c') (weigh x d) = true
    · right
      refine ⟨c', ?_, fun c hc => by rw [hsame c hc]; exact lt_of_approx hlt⟩
      rw [hlt, Bool.true_and]
      split
      · exact ⟨p', by simp, hc'⟩
      · rename_i hany
        simp only [Bool.not_eq_true', Bool.not_eq_false] at hany
        obtain ⟨r', hr', hb⟩ := List.any_eq_true.mp hany
        obtain ⟨c'', h3, h4⟩ := (hnew r' hr').costs
        unfold Path.beq at hb
        simp only [Bool.and_eq_true, decide_eq_true_eq] at hb
        refine ⟨r', hr', ?_⟩
        rw [hb.2] at h4
        rw [h3, isCost_unique h4 hcost]
    · left
      intro c hc e he
      have := k2 (by rw [hx.normal.length, hcon, hdim]) e he
      unfold Approx.lt at hlt
      rw [beq_iff_eq, (Approx.C24_cmp_spec _ _).2.1] at hlt
      rw [hsame c hc]
      linarith

/-! ## The whole exploration -/

theorem hasCosts_of {dim : Nat} {cell : List Path} (h : ∀ p ∈ cell, Costed dim p) : ∃ cs, HasCosts dim cell cs := by
  induction cell with
  | nil => exact ⟨[], rfl, by simp⟩
  | cons p cell ih =>
    obtain ⟨cs, h1, h2⟩ := ih fun r hr => h r (List.mem_cons_of_mem _ hr)
    obtain ⟨c, hc, hl⟩ := h p List.mem_cons_self
    refine ⟨c :: cs, by simp [hc, h1], fun d hd => ?_⟩
    rcases List.mem_cons.mp hd with rfl | hd
    · exact hl
    · exact h2 d hd

/-- All visited cells are settled. -/
def SeenF (b : Backend) (q : Query) (RC : List ℚ → Prop) (slack : ℚ) (found : List (Nat × Path)) (new : List Path)
    (visited : List Nat) : Prop :=
  ∀ id ∈ visited, ∃ t, ∃ raw ∈ b.cells t, raw.id = id ∧ ∃ cell cs,
    List.Forall₂ (fun v p => (v, p) ∈ found) raw.vertices cell ∧ HasCosts q.dim cell cs ∧
      (cs.length = q.considered.count true → SettledF q.considered RC slack (Known found new) cs)

theorem SeenF.mono {found found' : List (Nat × Path)} {new new' : List Path}
    {visited : List Nat} (h : SeenF b q RC slack found new visited) (hf : ∀ x ∈ found, x ∈ found')
    (hk : ∀ e, Known found new e → Known found' new' e) : SeenF b q RC slack found' new' visited := by
  intro id hid
  obtain ⟨t, raw, h1, h2, cell, cs, h3, h4, h5⟩ := h id hid
  exact ⟨t, raw, h1, h2, cell, cs, h3.imp fun _ _ h => hf _ h, h4, fun hl => (h5 hl).mono hk⟩

/-- All paths are marked, and keys are unique. -/
structure MarkedF (st : St b) : Prop where
  tol : ∀ k p, (k, p) ∈ st.found → k ∈ st.tolerated
  keys : ∀ k p r, (k, p) ∈ st.found → (k, r) ∈ st.found → p = r

theorem MarkedF.visit {st : St b} (h : MarkedF st) (vs : List Nat) : MarkedF { st with visited := vs } :=
  ⟨h.tol, h.keys⟩

theorem register_growsF (hb : Regular b coords size) (hq : q.triDim = q.considered.count true)
    (hcon : q.considered.length = q.dim) (hdim : q.dim = g.dim) (htol : ∀ t ∈ q.tolerances, t = none)
    {st st' : St b} {p : Path} (hj : Good g i j W q coords size st) (hm : MarkedF st) (hp : Proper g i j W p)
    (h : register b q st p = .ok st') :
    MarkedF st' ∧ st'.visited = st.visited ∧ (∃ id, st'.found = (id, p) :: st.found) := by
  have hv : st'.visited = st.visited := by
    unfold register at h
    obtain ⟨c, hc, h⟩ := Res.bind_eq_ok.mp h
    obtain ⟨x, hx, h⟩ := Res.bind_eq_ok.mp h
    obtain ⟨⟨id, tri⟩, ht, h⟩ := Res.bind_eq_ok.mp h
    cases h
    rfl
  obtain ⟨c, x, id, tri, g1, g2, g3, g4, g5, g6⟩ := register_ok h
  obtain ⟨c', hc', hcost⟩ := hp.costs
  rw [g1] at hc'
  cases hc'
  have hcl : c.length = q.considered.length := by rw [hcost.1, hcon, hdim]
  have hid : coords st.tri id = none := by
    obtain ⟨x', hx', hxl⟩ := project_total hcl
    rw [g2] at hx'
    cases hx'
    obtain ⟨id', t', k1, k2, _⟩ := hb.add st.tri x (by rw [hxl, hj.size_eq, hq])
    rw [g3] at k1
    cases k1
    exact k2
  have hnot : ∀ k r, (k, r) ∈ st.found → k ≠ id := by
    rintro k r hr rfl
    obtain ⟨_, y, _, _, _, hy⟩ := hj.found k r hr
    rw [hid] at hy
    cases hy
  have hfil : st.found.filter (fun x => x.1 ≠ id) = st.found := by
    rw [List.filter_eq_self]
    rintro ⟨k, r⟩ hr
    simpa using hnot k r hr
  have hfound : st'.found = (id, p) :: st.found := by rw [g5, insertKey, hfil]
  have htt : tolerates c q.tolerances = true := by
    rw [tolerates_iff]
    intro m y t _ ht
    exact absurd (htol _ (List.mem_of_getElem? ht)) (by simp)
  rw [if_pos htt] at g6
  refine ⟨⟨fun k r hr => ?_, fun k r r' hr hr' => ?_⟩, hv, id, hfound⟩
  · rw [hfound] at hr
    rw [g6]
    rcases List.mem_cons.mp hr with hr | hr
    · cases hr; simp
    · exact List.mem_append_left _ (hm.tol k r hr)
  · rw [hfound] at hr hr'
    rcases List.mem_cons.mp hr with hr | hr <;> rcases List.mem_cons.mp hr' with hr' | hr'
    · cases hr; cases hr'; rfl
    · cases hr; exact absurd rfl (hnot _ _ hr')
    · cases hr'; exact absurd rfl (hnot _ _ hr)
    · exact hm.keys k r r' hr hr'

theorem update_growsF (hb : Regular b coords size) (hq : q.triDim = q.considered.count true)
    (hcon : q.considered.length = q.dim) (hdim : q.dim = g.dim) (htol : ∀ t ∈ q.tolerances, t = none)
    {st st' : St b} {new : List Path} (hj : Good g i j W q coords size st) (hm : MarkedF st)
    (hn : NewOk g i j W st new) (h : update b q st new = .ok st') :
    MarkedF st' ∧ st'.visited = st.visited ∧ (∀ x ∈ st.found, x ∈ st'.found) ∧
      ∀ p ∈ new, ∃ k, (k, p) ∈ st'.found := by
  unfold update at h
  induction new generalizing st with
  | nil => cases h; exact ⟨hm, rfl, fun _ h => h, fun _ h => nomatch h⟩
  | cons p new ih =>
    obtain ⟨st1, h1, k2, k3, _⟩ := register_good hb hq hcon hdim hj hn
    rw [List.foldlM_cons, h1, Res.ok_bind] at h
    obtain ⟨m1, m2, id, m3⟩ := register_growsF hb hq hcon hdim htol hj hm (hn.proper p List.mem_cons_self) h1
    obtain ⟨n1, n2, n3, n4⟩ := ih k2 m1 k3 h
    refine ⟨n1, n2.trans m2, fun x hx => n3 x (by rw [m3]; exact List.mem_cons_of_mem _ hx), fun r hr => ?_⟩
    rcases List.mem_cons.mp hr with rfl | hr
    · exact ⟨id, n3 _ (by rw [m3]; exact List.mem_cons_self)⟩
    · exact n4 r hr

theorem exploreCells_seenF (ha : Serves ask g I i j W) (hr : Asker ask g I RC slack) (hl : Lower b coords size)
    (hb : Regular b coords size) (hsol : Solver q.dim b.solve) (hq : q.triDim = q.considered.count true)
    (hcon : q.considered.length = q.dim) (hdim : q.dim = g.dim) (htl : q.tolerances.length = q.dim)
    (htol : ∀ t ∈ q.tolerances, t = none) {cells : List RawCell}
    {st st' : St b} (hj : Good g i j W q coords size st) (hraw : ∀ raw ∈ cells, raw ∈ b.cells st.tri)
    {acc acc' : Acc S} (hs : I acc.1) (hn : NewOk g i j W st acc.2)
    (hv : SeenF b q RC slack st.found acc.2 st.visited)
    (h : exploreCells ask g b q cells st acc = some (.ok (st', acc'))) :
    SeenF b q RC slack st'.found acc'.2 st'.visited ∧ (∀ id ∈ st.visited, id ∈ st'.visited) ∧
      ∀ raw ∈ cells, raw.id ∈ st'.visited := by
  induction cells generalizing st acc with
  | nil => cases h; exact ⟨hv, fun _ h => h, fun _ h => nomatch h⟩
  | cons raw cells ih =>
    have hraw' := fun r hr => hraw r (List.mem_cons_of_mem _ hr)
    unfold exploreCells at h
    split at h
    · rename_i hmem
      obtain ⟨k1, k3, k4⟩ := ih hj hraw' hs hn hv h
      refine ⟨k1, k3, fun r hr => ?_⟩
      rcases List.mem_cons.mp hr with rfl | hr
      · exact k3 _ hmem
      · exact k4 r hr
    · obtain ⟨cell, hcell, h⟩ := andThen_ok.mp h
      simp only [Option.some.injEq] at hcell
      obtain ⟨acc1, h1, h⟩ := andThen_ok.mp h
      have hrm := hraw raw List.mem_cons_self
      obtain ⟨n2, n3⟩ := exploreCell_new ha hl hb hq hcon hj hrm hcell hs hn h1
      have hmem := cellFrom_mem hcell
      obtain ⟨r1, _, _⟩ := hb.cells st.tri raw hrm
      have hcosted : ∀ p ∈ cell, Costed q.dim p := by
        intro p hp
        obtain ⟨w, _, hw⟩ := forall₂_mem_right hmem hp
        exact hj.costed w p hw
      have hne : cell ≠ [] := by
        rintro rfl
        exact r1 (List.length_eq_zero_iff.mp (by rw [hmem.length_eq]; rfl))
      have o1 := exploreCell_keeps h1
      have hseen : SeenF b q RC slack st.found acc1.2 (raw.id :: st.visited) := by
        intro id hid
        have hkn : ∀ e, Known st.found acc.2 e → Known st.found acc1.2 e := by
          rintro e (he | ⟨p, hp, he⟩)
          · exact .inl he
          · exact .inr ⟨p, o1 p hp, he⟩
        rcases List.mem_cons.mp hid with rfl | hid
        · obtain ⟨cs, hcs⟩ := hasCosts_of hcosted
          exact ⟨st.tri, raw, hrm, rfl, cell, cs, hmem, hcs, fun hlen =>
            (exploreCell_settlesF ha hr hsol hcon hdim htl htol hcs hne hlen hs hn.proper h1).mono
              fun e he => .inr he⟩
        · exact (hv.mono (fun _ h => h) hkn) id hid
      obtain ⟨k1, k3, k4⟩ := ih (st := { st with visited := raw.id :: st.visited }) (hj.visit _) hraw' n2
        ⟨n3.proper, n3.distinct⟩ hseen h
      refine ⟨k1, fun id hid => k3 id (List.mem_cons_of_mem _ hid), fun r hr => ?_⟩
      rcases List.mem_cons.mp hr with rfl | hr
      · exact k3 _ List.mem_cons_self
      · exact k4 r hr

theorem exploreLoop_seenF (ha : Serves ask g I i j W) (hr : Asker ask g I RC slack) (hl : Lower b coords size)
    (hb : Regular b coords size) (hsol : Solver q.dim b.solve) (hq : q.triDim = q.considered.count true)
    (hcon : q.considered.length = q.dim) (hdim : q.dim = g.dim) (htl : q.tolerances.length = q.dim)
    (htol : ∀ t ∈ q.tolerances, t = none) {fuel : Nat}
    {dirty : Bool} {st st' : St b} {s s' : S} (hj : Good g i j W q coords size st) (hm : MarkedF st)
    (hs : I s) (hv : SeenF b q RC slack st.found [] st.visited)
    (hd : dirty = false → ∀ raw ∈ b.cells st.tri, raw.id ∈ st.visited)
    (h : exploreLoop ask g b q fuel dirty st s = some (.ok (st', s'))) :
    Good g i j W q coords size st' ∧ MarkedF st' ∧ (∀ x ∈ st.found, x ∈ st'.found) ∧
      SeenF b q RC slack st'.found [] st'.visited ∧ ∀ raw ∈ b.cells st'.tri, raw.id ∈ st'.visited := by
  induction fuel generalizing dirty st s with
  | zero => cases h
  | succ fuel ih =>
    unfold exploreLoop at h
    cases dirty with
    | false =>
      simp only [Bool.false_eq_true, if_false] at h
      cases h
      exact ⟨hj, hm, fun _ h => h, hv, hd rfl⟩
    | true =>
      simp only [if_true] at h
      obtain ⟨⟨st1, s1, new⟩, h1, h⟩ := andThen_ok.mp h
      obtain ⟨st2, h3, h⟩ := andThen_ok.mp h
      simp only [Option.some.injEq] at h3
      have hn0 : NewOk g i j W st [] := ⟨(fun _ h => nomatch h), by simpa [es] using hj.distinct⟩
      obtain ⟨k1, k2, k3, k4⟩ := exploreCells_new ha hl hb hq hcon hj (fun _ h => h) (acc := (s, [])) hs hn0 h1
      obtain ⟨m1, m3, m4⟩ := exploreCells_seenF ha hr hl hb hsol hq hcon hdim htl htol hj (fun _ h => h)
        (acc := (s, [])) hs hn0 hv h1
      obtain ⟨_, _, vs, hst1⟩ := exploreCells_ok ha.inv (acc := (s, [])) hs (by simp) h1
      obtain ⟨st3, u1, u2, _⟩ := update_good hb hq hcon hdim k2 k3
      rw [h3] at u1
      cases u1
      obtain ⟨w1, w2, w3, w4⟩ := update_growsF hb hq hcon hdim htol k2 (hst1 ▸ hm.visit vs) k3 h3
      have hkn : ∀ e, Known st1.found new e → Known st2.found [] e := by
        rintro e (⟨k, p, hp, he⟩ | ⟨p, hp, he⟩)
        · exact .inl ⟨k, p, w3 _ hp, he⟩
        · obtain ⟨k, hk⟩ := w4 p hp
          exact .inl ⟨k, p, hk, he⟩
      have hv2 : SeenF b q RC slack st2.found [] st2.visited := by
        rw [w2]
        exact m1.mono w3 hkn
      obtain ⟨z1, z2, z3, z4, z5⟩ := ih u2 w1 k1 hv2 (fun hdirty => by
        simp only [Bool.not_eq_false', List.isEmpty_iff] at hdirty
        subst hdirty
        cases h3
        intro raw hraw
        refine m4 raw ?_
        rw [hst1] at hraw
        exact hraw) h
      refine ⟨z1, z2, fun x hx => z3 x (w3 x ?_), z4, z5⟩
      rw [k4]
      exact hx

theorem forall₂_compose {found : List (Nat × Path)} {ds : List Bool} {t : b.Tri} {vs : List Nat} {cell : List Path}
    {cs zs : List (List ℚ)} {dim : Nat} (h1 : List.Forall₂ (fun v p => (v, p) ∈ found) vs cell)
    (h2 : HasCosts dim cell cs) (h3 : List.Forall₂ (fun v z => coords t v = some z) vs zs)
    (hco : ∀ k p c, (k, p) ∈ found → p.costs = some c → ∃ y, project ds c = .ok y ∧ coords t k = some y) :
    List.Forall₂ (fun c z => project ds c = .ok z) cs zs := by
  induction h1 generalizing cs zs with
  | nil =>
    cases h3
    have : cs = [] := List.length_eq_zero_iff.mp h2.length.symm
    subst this
    exact .nil
  | @cons v p vs cell h _ ih =>
    cases h3 with
    | cons h4 h5 =>
      cases cs with
      | nil => exact absurd h2.length (by simp)
      | cons c cs =>
        have hm := h2.1
        simp only [List.map_cons, List.cons.injEq] at hm
        refine .cons ?_ (ih ⟨hm.2, fun d hd => h2.2 d (List.mem_cons_of_mem _ hd)⟩ h5)
        obtain ⟨y, h6, h7⟩ := hco v p c h hm.1
        rw [h4] at h7
        cases h7
        exact h6

/-- When the exploration has stopped, no route is below a facet. -/
theorem final_facet (hg : Covering q.triDim b coords size) (hq : q.triDim = q.considered.count true)
    (hcon : q.considered.length = q.dim)
    {st : St b} (hj : Good g i j W q coords size st)
    (hv : SeenF b q RC slack st.found [] st.visited) (hall : ∀ raw ∈ b.cells st.tri, raw.id ∈ st.visited)
    {cs : List (List ℚ)} {x : List ℚ}
    (hf : LowerFacet (fun c => ∃ k p, (k, p) ∈ st.found ∧ p.costs = some c) q.considered cs x)
    {c e : List ℚ} (hc : c ∈ cs) (he : RC e) : weigh x c < weigh x e + (3 / 2000000 + slack) := by
  have hco : ∀ k p c, (k, p) ∈ st.found → p.costs = some c → ∃ y, project q.considered c = .ok y ∧
      coords st.tri k = some y := by
    intro k p c hp hc
    obtain ⟨c', y, h1, h3, h4, h5⟩ := hj.found k p hp
    rw [hc] at h1
    cases h1
    exact ⟨y, h4, h5⟩
  have hback : ∀ k y, coords st.tri k = some y → ∃ p c, (k, p) ∈ st.found ∧ p.costs = some c ∧
      project q.considered c = .ok y ∧ c.length = q.dim := by
    intro k y hy
    obtain ⟨p, hp⟩ := hj.find k (by rw [hy]; simp)
    have hp := mem_of_lookup hp
    obtain ⟨c, hc, hcl⟩ := hj.costed k p hp
    obtain ⟨y', h3, h4⟩ := hco k p c hp hc
    rw [hy] at h4
    cases h4
    exact ⟨p, c, hp, hc, h3, hcl⟩
  have hclen : ∀ k p c, (k, p) ∈ st.found → p.costs = some c → c.length = q.considered.length := by
    intro k p c hp hc
    obtain ⟨c', hc', hcl⟩ := hj.costed k p hp
    rw [hc] at hc'
    cases hc'
    rw [hcl, hcon]
  have hxl : x.length = q.considered.length := hf.normal.length
  have hxz := hf.normal.ignored
  obtain ⟨x', hx', hxl'⟩ := project_total hxl
  have hw : ∀ {c y}, c.length = q.considered.length → project q.considered c = .ok y → weigh x c = weigh x' y := by
    intro c y hcl hy
    refine weigh_project hx' hy (fun m a hm ha => ?_) hxl hcl
    rw [hxz m hm] at ha
    exact (Option.some.inj ha).symm
  -- the facet in the coordinates of the triangulation
  have hcsl : ∀ c ∈ cs, c.length = q.considered.length := by
    intro c hc
    obtain ⟨k, p, h1, h2⟩ := hf.mem c hc
    exact hclen k p c h1 h2
  obtain ⟨ys, hys⟩ : ∃ ys, List.Forall₂ (fun c z => project q.considered c = .ok z) cs ys := by
    have : ∀ cs : List (List ℚ), (∀ c ∈ cs, c.length = q.considered.length) →
        ∃ ys, List.Forall₂ (fun c z => project q.considered c = .ok z) cs ys := by
      intro cs
      induction cs with
      | nil => exact fun _ => ⟨[], .nil⟩
      | cons c cs ih =>
        intro h
        obtain ⟨ys, h1⟩ := ih fun d hd => h d (List.mem_cons_of_mem _ hd)
        obtain ⟨y, hy, _⟩ := project_total (h c List.mem_cons_self)
        exact ⟨y :: ys, .cons hy h1⟩
    exact this cs hcsl
  have hfac : LowerFacet (fun y => ∃ v, coords st.tri v = some y) (List.replicate q.triDim true) ys x' := by
    refine ⟨by rw [hq]; exact (spans_project hys hcsl hx' hxl hxz).mp hf.toSpans, ?_, ?_, ?_, ?_⟩
    · rintro rfl
      cases hys
      exact hf.ne rfl
    · intro y hy
      obtain ⟨c, hc, hp⟩ := forall₂_mem_right hys hy
      obtain ⟨k, p, h1, h2⟩ := hf.mem c hc
      obtain ⟨y', h3, h4⟩ := hco k p c h1 h2
      rw [hp] at h3
      cases h3
      exact ⟨k, h4⟩
    · intro m a _ ha
      exact project_pos hx' hf.pos a (List.mem_of_getElem? ha)
    · rintro y hy z ⟨k, hz⟩
      obtain ⟨c, hc, hp⟩ := forall₂_mem_right hys hy
      obtain ⟨p, d, h1, h2, h3, h4⟩ := hback k z hz
      rw [← hw (hcsl c hc) hp, ← hw (by rw [h4, hcon]) h3]
      exact hf.below c hc d ⟨k, p, h1, h2⟩
  obtain ⟨raw, hraw, zs, r1, r2, r3, r4⟩ := hg.cover st.tri (by rw [hj.size_eq]) (by
    intro k y hy
    obtain ⟨p, c, h1, h2, h3, h4⟩ := hback k y hy
    obtain ⟨y', h5, h6⟩ := project_total (hclen k p c h1 h2)
    rw [h3] at h5
    cases h5
    rw [h6, hq]) ys x' hfac
  obtain ⟨t, raw', h3, h4, cell, ds, h5, h6, h7⟩ := hv _ (hall raw hraw)
  rw [hg.id t st.tri raw' h3 raw hraw h4] at h5
  have hdz := forall₂_compose h5 h6 r1 hco
  have hdl : ∀ d ∈ ds, d.length = q.considered.length := fun d hd => by rw [h6.2 d hd, hcon]
  have hspan : Spans ds q.considered x := (spans_project hdz hdl hx' hxl hxz).mpr (by rw [← hq]; exact r3)
  have hnn : ∀ a ∈ x, 0 ≤ a := by
    intro a ha
    obtain ⟨m, hm⟩ := List.mem_iff_getElem?.mp ha
    have hml : m < q.considered.length := by rw [← hxl]; exact Build.lt_length_of_getElem? hm
    cases hcm : q.considered[m] with
    | true => exact (hf.pos m a (by rw [List.getElem?_eq_getElem hml, hcm]) hm).le
    | false =>
      rw [hxz m (by rw [List.getElem?_eq_getElem hml, hcm])] at hm
      exact (Option.some.inj hm) ▸ le_rfl
  -- the cell lies in the facet
  have hsame : ∀ d ∈ ds, weigh x d = weigh x c := by
    intro d hd
    obtain ⟨z, hz, hp⟩ := forall₂_left hdz d hd
    obtain ⟨y, hy, hp'⟩ := forall₂_left hys c hc
    rw [hw (hdl d hd) hp, hw (hcsl c hc) hp', r4 z hz y hy]
  have hpos : 0 < ds.length := by
    rw [hdz.length_eq, r2, hq]
    by_contra h0
    have : x' = [] := List.length_eq_zero_iff.mp (by omega)
    have h1 := r3.sum
    rw [this] at h1
    simp at h1
  obtain ⟨d, hd⟩ : ∃ d, d ∈ ds := ⟨ds[0], List.getElem_mem hpos⟩
  rcases h7 (by rw [hdz.length_eq, r2, hq]) x hspan hnn with hh | ⟨u, hu, hlt⟩
  · have := hh d hd e he
    rwa [hsame d hd] at this
  · have h1 := hlt d hd
    rw [hsame d hd] at h1
    rcases hu with ⟨k, p, hp, hpc⟩ | ⟨_, h, _⟩
    · have := hf.below c hc u ⟨k, p, hp, hpc⟩
      linarith
    · cases h

/-- From the beginning to the end. -/
theorem explorate_facets (ha : Serves ask g I i j W) (hr : Asker ask g I RC slack) (hl : Lower b coords size)
    (hb : Regular b coords size) {alphas : List ℚ} (hal : alphas.length = g.dim)
    (hg : Covering ((alphas.map fun a => decide (0 < a)).count true) b coords size) (hsol : Solver g.dim b.solve)
    {scales : List (Option ℚ)} (hsc : ∀ sc ∈ scales, sc = none) {fuel : Nat}
    {s s' : S} {res : List Path} (hs : I s) (hone : 1 < (alphas.map fun a => decide (0 < a)).count true)
    (hstart : (alphas.map fun a => decide (0 < a)).count true < res.length)
    (h : explorate ask g b fuel alphas scales s = some (.ok (s', res)))
    {cs : List (List ℚ)} {x : List ℚ}
    (hf : LowerFacet (fun c => ∃ p ∈ res, p.costs = some c) (alphas.map fun a => decide (0 < a)) cs x)
    {c e : List ℚ} (hc : c ∈ cs) (he : RC e) : weigh x c < weigh x e + (3 / 2000000 + slack) := by
  unfold explorate at h
  obtain ⟨init, h1, h⟩ := andThen_ok.mp h
  simp only [Option.some.injEq] at h1
  obtain ⟨⟨s1, q, new⟩, h2, h⟩ := andThen_ok.mp h
  obtain ⟨st0, h3, h⟩ := andThen_ok.mp h
  obtain ⟨⟨st, s2⟩, h4, h⟩ := andThen_ok.mp h
  obtain ⟨ps, h5, h⟩ := andThen_ok.mp h
  cases h
  simp only [Option.some.injEq] at h3 h5
  dsimp only at h4
  obtain ⟨k1, ⟨k2, k3, k4, k5⟩, _, _, _, k6, _⟩ := exploreInit_ok ha.inv hs (init_nonzero h1) h2
  obtain ⟨n1, n2⟩ := exploreInit_distinct ha hs (by intro _ h; cases h) (by simp [es]) h2
  have hqc : q.considered = alphas.map fun a => decide (0 < a) := k4
  have hqt : q.triDim = (alphas.map fun a => decide (0 < a)).count true := k3
  have hq : q.triDim = q.considered.count true := by rw [hqc, hqt]
  have hdim : q.dim = g.dim := k2
  have hcon : q.considered.length = q.dim := by rw [hqc, List.length_map, hal, hdim]
  have htl : q.tolerances.length = q.dim := by rw [k5, hdim]; simp [Query.start]
  have htol : ∀ t ∈ q.tolerances, t = none := by
    intro t ht
    obtain ⟨m, hm⟩ := List.mem_iff_getElem?.mp ht
    rcases k6 m t hm with ⟨h6, _⟩ | ⟨al, _, s1, s2, p0, p, c, w1, w2, w3, w4, sc, w5, w6⟩
    · simp only [Query.start, List.getElem?_replicate] at h6
      split at h6 <;> cases h6
      rfl
    · rcases w6 with ⟨_, h7⟩ | ⟨x, y, rfl, _⟩
      · exact h7
      · exact absurd (hsc _ (List.mem_of_getElem? w5)) (by simp)
  have hn0 : NewOk g i j W ({ tri := b.new q.triDim, found := [], tolerated := [], visited := [] } : St b) new :=
    ⟨n1, by simpa [esK] using n2⟩
  obtain ⟨st1, g1, g2, g3⟩ := update_good (q := q) hb hq hcon hdim (good_start hb []) hn0
  rw [h3] at g1
  cases g1
  simp only [List.length_nil, Nat.zero_add] at g3
  obtain ⟨m1, m2, _, _⟩ := update_growsF (i := i) (j := j) (W := W) hb hq hcon hdim htol (good_start hb [])
    ⟨(by intro _ _ h; cases h), (by intro _ _ _ h; cases h)⟩ hn0 h3
  have hthree : q.triDim < st0.found.length := by
    by_contra hle
    rw [if_neg (by omega)] at h4
    cases h4
    have hd := collect_distinct g2.distinct h5
    have hsub : es res ⊆ esK st0.found := by
      intro l hl
      obtain ⟨p, hp, rfl⟩ := List.mem_map.mp hl
      obtain ⟨k, _, hk⟩ := forall₂_mem_right (collect_ok h5).1 hp
      exact List.mem_map.mpr ⟨(k, p), hk, rfl⟩
    have := (hd.subperm hsub).length_le
    simp only [List.length_map] at this
    omega
  rw [if_pos ⟨by omega, hthree⟩] at h4
  obtain ⟨f1, f2, f3, f4, f5⟩ := exploreLoop_seenF ha hr hl hb (hdim ▸ hsol) hq hcon hdim htl htol g2 m1 k1
    (by rw [m2]; intro _ h; cases h) (fun hd => by
      simp only [Bool.not_eq_false', List.isEmpty_iff] at hd
      rw [g3, hd] at hthree
      simp at hthree) h4
  -- the answer consists of all paths
  have hin : ∀ k p, (k, p) ∈ st.found → p ∈ res := by
    intro k p hp
    obtain ⟨r, hr1, hr2⟩ := forall₂_left (collect_ok h5).1 k (f2.tol k p hp)
    rw [f2.keys k p r hp hr2]
    exact hr1
  have hout : ∀ p ∈ res, ∃ k, (k, p) ∈ st.found := by
    intro p hp
    obtain ⟨k, _, hk⟩ := forall₂_mem_right (collect_ok h5).1 hp
    exact ⟨k, hk⟩
  refine final_facet (q := q) (by rw [hqt]; exact hg) hq hcon f1 f4 f5 (cs := cs) ?_ hc he
  rw [hqc]
  refine ⟨hf.toSpans, hf.ne, fun c hc => ?_, hf.pos, fun c hc v hv => ?_⟩
  · obtain ⟨p, hp, hpc⟩ := hf.mem c hc
    obtain ⟨k, hk⟩ := hout p hp
    exact ⟨k, p, hk, hpc⟩
  · obtain ⟨k, p, hk, hpc⟩ := hv
    exact hf.below c hc v ⟨p, hin k p hk, hpc⟩

end

end Verif.Exp
