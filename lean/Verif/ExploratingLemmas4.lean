import Verif.ExploratingLemmas3

/-!
# Helper lemmas: when the explorator does not panic
-/

namespace Verif.Exp

open Dij (R Heap Used NonnegMetrics computeBestPath routeCost)
open Search (AddOk)

theorem andThen_np {α β : Type} {x : Option (R α)} {f : α → Option (R β)} (hx : x ≠ some .panic)
    (hf : ∀ a, x = some (.ok a) → f a ≠ some .panic) : andThen x f ≠ some .panic := by
  unfold andThen
  cases x with
  | none => simp
  | some x =>
    cases x with
    | ok a => exact hf a rfl
    | err e => exact e.elim
    | panic => exact absurd rfl hx

theorem some_np {α : Type} {x : R α} (h : ∃ a, x = .ok a) : some x ≠ some .panic := by
  obtain ⟨a, rfl⟩ := h
  simp

/-- The path has costs, one for every metric. -/
def Costed (dim : Nat) (p : Path) : Prop := ∃ c, p.costs = some c ∧ c.length = dim

theorem Costed.get {dim : Nat} {p : Path} (h : Costed dim p) :
    ∃ c, pacc p.getCosts = .ok c ∧ c.length = dim := by
  obtain ⟨c, h1, h2⟩ := h
  exact ⟨c, pacc_ok.mpr (getCosts_ok.mpr h1), h2⟩

theorem anyEqual_total {dim : Nat} {c : List ℚ} {found : List Path} (hf : ∀ p ∈ found, Costed dim p) :
    ∃ r, anyEqual c found = .ok r := by
  induction found with
  | nil => exact ⟨false, rfl⟩
  | cons p ps ih =>
    obtain ⟨d, hd, _⟩ := (hf p List.mem_cons_self).get
    unfold anyEqual
    rw [hd, Res.ok_bind]
    split
    · exact ⟨true, rfl⟩
    · exact ih (fun r hr => hf r (List.mem_cons_of_mem _ hr))

theorem setTolerance_total {scales : List (Option ℚ)} {q : Query} {mi : Option Nat} {c : List ℚ}
    (h : ∀ i, mi = some i → i < scales.length ∧ i < c.length ∧ i < q.tolerances.length) :
    ∃ q', setTolerance scales q mi c = .ok q' := by
  unfold setTolerance
  cases mi with
  | none => exact ⟨q, rfl⟩
  | some i =>
    obtain ⟨h1, h2, h3⟩ := h i rfl
    simp only [List.getElem?_eq_getElem h1, Res.ofIdx, Res.ok_bind]
    cases scales[i] with
    | none => simp [Dij.setIdx, h3]
    | some x => simp [List.getElem?_eq_getElem h2, Dij.setIdx, h3]

section
variable {S : Type} {ask : S → List ℚ → Option (R (S × Option Path))} {g : Graph} {I : S → Prop}
  {dim : Nat}

/-- What is assumed of the router: it never panics and its answers have costs. -/
structure Asks (ask : S → List ℚ → Option (R (S × Option Path))) (g : Graph) (I : S → Prop) (dim : Nat) :
    Prop where
  np : ∀ s al, I s → ask s al ≠ some .panic
  inv : ∀ s al s' ans, I s → ask s al = some (.ok (s', ans)) → I s'
  costs : ∀ s al s' p, I s → ask s al = some (.ok (s', some p)) → ∃ p', p.calcCosts g = .ok p' ∧
    Costed dim p'

theorem Asks.fnd (ha : Asks ask g I dim) {p : Path} (hp : Fnd ask g I p) : Costed dim p := by
  obtain ⟨al, s, s', p0, h1, h2, h3, _⟩ := hp
  obtain ⟨p', h4, h5⟩ := ha.costs s al s' p0 h1 h2
  rw [h3] at h4
  cases h4
  exact h5

theorem exploreInit_np (ha : Asks ask g I dim) {scales : List (Option ℚ)}
    {l : List (Option Nat × List ℚ)} {s : S} {q : Query} {found : List Path} (hs : I s)
    (hf : ∀ p ∈ found, Costed dim p) (hsc : scales.length = dim) (ht : q.tolerances.length = dim)
    (hl : ∀ i al, (some i, al) ∈ l → i < dim) :
    exploreInit ask g scales l s q found ≠ some .panic := by
  induction l generalizing s q found with
  | nil => simp [exploreInit]
  | cons x l ih =>
    obtain ⟨mi, al⟩ := x
    unfold exploreInit
    have hl' : ∀ i al, (some i, al) ∈ l → i < dim := fun i al h => hl i al (List.mem_cons_of_mem _ h)
    refine andThen_np (ha.np s al hs) fun ⟨s1, ans⟩ hans => ?_
    have hs1 := ha.inv _ _ _ _ hs hans
    cases ans with
    | none => exact ih hs1 hf ht hl'
    | some p =>
      obtain ⟨p', hp', c, hc, hcl⟩ := ha.costs _ _ _ _ hs hans
      refine andThen_np (some_np ?_) fun ⟨q1, found1⟩ hq => ?_
      · unfold initFound
        obtain ⟨r, hr⟩ := anyEqual_total (c := c) hf
        obtain ⟨q1, hq1⟩ := setTolerance_total (scales := scales) (q := q) (mi := mi) (c := c)
          (fun i hi => by
            have := hl i al (by rw [hi]; exact List.mem_cons_self)
            omega)
        rw [pacc_ok.mpr hp', Res.ok_bind, pacc_ok.mpr (getCosts_ok.mpr hc), Res.ok_bind, hq1, Res.ok_bind,
          hr, Res.ok_bind]
        exact ⟨_, rfl⟩
      · simp only [Option.some.injEq] at hq
        obtain ⟨p2, c2, h1, h2, h3, h4⟩ := initFound_ok g hq
        rw [hp'] at h1
        cases h1
        refine ih hs1 (fun r hr => ?_) ((setTolerance_ok h3).2.2.2.1.trans ht) hl'
        rcases h4 with h4 | ⟨h4, _⟩
        · rw [h4] at hr
          rcases List.mem_append.mp hr with hr | hr
          · exact hf r hr
          · rw [List.mem_singleton.mp hr]; exact ⟨c, hc, hcl⟩
        · rw [h4] at hr; exact hf r hr

end

/-! ## The triangulation -/

theorem project_total {ds : List Bool} {c : List ℚ} (h : c.length = ds.length) :
    ∃ x, project ds c = .ok x ∧ x.length = ds.count true := by
  induction ds generalizing c with
  | nil =>
    have : c = [] := List.length_eq_zero_iff.mp h
    subst this
    exact ⟨[], rfl, rfl⟩
  | cons d ds ih =>
    cases c with
    | nil => simp at h
    | cons a c =>
      obtain ⟨x, h1, h2⟩ := ih (c := c) (by simpa using h)
      unfold project
      rw [h1, Res.ok_bind]
      cases d
      · exact ⟨x, rfl, by simp [h2]⟩
      · exact ⟨a :: x, rfl, by simp [h2]⟩

theorem undercut_total {dim i : Nat} {t : Option ℚ} {cell : List Path} (hc : ∀ p ∈ cell, Costed dim p)
    (hi : i < dim) : ∃ r, undercut i t cell = .ok r := by
  induction cell with
  | nil => exact ⟨false, rfl⟩
  | cons p ps ih =>
    obtain ⟨c, h1, h2⟩ := (hc p List.mem_cons_self).get
    unfold undercut
    rw [h1, Res.ok_bind, List.getElem?_eq_getElem (by omega)]
    simp only [Res.ofIdx, Res.ok_bind]
    split
    · exact ⟨true, rfl⟩
    · exact ih (fun r hr => hc r (List.mem_cons_of_mem _ hr))

theorem hopeless_total {dim : Nat} {cell : List Path} (hc : ∀ p ∈ cell, Costed dim p) {i : Nat}
    {tol : List (Option ℚ)} (hi : i + tol.length ≤ dim) : ∃ r, hopeless cell i tol = .ok r := by
  induction tol generalizing i with
  | nil => exact ⟨false, rfl⟩
  | cons t tol ih =>
    rw [List.length_cons] at hi
    obtain ⟨r, hr⟩ := undercut_total (t := t) hc (show i < dim by omega)
    unfold hopeless
    rw [hr, Res.ok_bind]
    cases r
    · exact ⟨true, rfl⟩
    · exact ih (by omega)

theorem costRows_total {dim : Nat} {c0 : List ℚ} (h0 : c0.length = dim) {ps : List Path}
    (hc : ∀ p ∈ ps, Costed dim p) : ∃ rows, costRows c0 ps = .ok rows ∧ rows.length = ps.length ∧
      ∀ row ∈ rows, row.length = dim := by
  induction ps with
  | nil => exact ⟨[], rfl, rfl, fun _ h => nomatch h⟩
  | cons p ps ih =>
    obtain ⟨c, h1, h2⟩ := (hc p List.mem_cons_self).get
    obtain ⟨rows, h3, h4, h5⟩ := ih (fun r hr => hc r (List.mem_cons_of_mem _ hr))
    refine ⟨vsub c0 c :: rows, by simp [costRows, h1, h3], by simp [h4], fun row hr => ?_⟩
    rcases List.mem_cons.mp hr with rfl | hr
    · have key : ∀ (a b : List ℚ), a.length = b.length → (vsub a b).length = a.length := by
        intro a
        induction a with
        | nil => intro b _; cases b <;> rfl
        | cons x a ih =>
          intro b hb
          cases b with
          | nil => simp at hb
          | cons y b => simp [vsub, ih b (by simpa using hb)]
      rw [key _ _ (by omega), h0]
    · exact h5 row hr

theorem unitRows_total {dim : Nat} {i : Nat} {ds : List Bool} (hi : i + ds.length ≤ dim) :
    ∃ rows, unitRows dim i ds = .ok rows ∧ rows.length = ds.count false ∧ ∀ row ∈ rows, row.length = dim := by
  induction ds generalizing i with
  | nil => exact ⟨[], rfl, rfl, fun _ h => nomatch h⟩
  | cons d ds ih =>
    rw [List.length_cons] at hi
    obtain ⟨rows, h1, h2, h3⟩ := ih (i := i + 1) (by omega)
    unfold unitRows
    cases d with
    | true => exact ⟨rows, by rw [if_pos rfl, h1], by simp [h2], h3⟩
    | false =>
      refine ⟨(List.replicate dim 0).set i 1 :: rows, ?_, by simp [h2], fun row hr => ?_⟩
      · simp [Dij.setIdx, show i < dim by omega, h1]
      · rcases List.mem_cons.mp hr with rfl | hr
        · simp
        · exact h3 row hr

theorem finishSystem_total {dim : Nat} {rows : List (List ℚ)} (h : rows.length ≤ dim)
    (hr : ∀ row ∈ rows, row.length = dim) : ∃ o, finishSystem dim rows = .ok o ∧
      ∀ m rhs, o = some (m, rhs) → m.length = dim ∧ rhs.length = dim ∧ ∀ row ∈ m, row.length = dim := by
  unfold finishSystem
  rw [if_neg (by omega)]
  by_cases h0 : dim - rows.length = 0
  · refine ⟨some (rows, List.replicate rows.length 0), by simp [h0], ?_⟩
    rintro m rhs h1
    simp only [Option.some.injEq, Prod.mk.injEq] at h1
    obtain ⟨rfl, rfl⟩ := h1
    exact ⟨by omega, by simp; omega, hr⟩
  · by_cases h1 : dim - rows.length = 1
    · refine ⟨some (rows ++ [List.replicate dim 1], List.replicate rows.length 0 ++ [1]), by simp [h1], ?_⟩
      rintro m rhs h2
      simp only [Option.some.injEq, Prod.mk.injEq] at h2
      obtain ⟨rfl, rfl⟩ := h2
      refine ⟨by simp; omega, by simp; omega, fun row hrow => ?_⟩
      rcases List.mem_append.mp hrow with h | h
      · exact hr row h
      · rw [List.mem_singleton.mp h]; simp
    · exact ⟨none, by simp [h0, h1], fun _ _ h => nomatch h⟩

theorem createSystem_total {q : Query} {cell : List Path} (hc : ∀ p ∈ cell, Costed q.dim p)
    (hne : cell ≠ []) (hcon : q.considered.length = q.dim)
    (hlen : cell.length ≤ q.considered.count true + 1) : ∃ o, createSystem q cell = .ok o ∧
      ∀ m rhs, o = some (m, rhs) → m.length = q.dim ∧ rhs.length = q.dim ∧ ∀ row ∈ m, row.length = q.dim := by
  obtain ⟨units, h1, h2, h3⟩ := unitRows_total (dim := q.dim) (i := 0) (ds := q.considered) (by omega)
  have hsum : q.considered.count true + q.considered.count false = q.dim := by
    rw [← hcon]
    induction q.considered with
    | nil => rfl
    | cons d ds ih => cases d <;> simp <;> omega
  cases cell with
  | nil => exact absurd rfl hne
  | cons p0 ps =>
    rw [List.length_cons] at hlen
    unfold createSystem
    cases ps with
    | nil =>
      simp only [List.isEmpty_nil, if_true]
      rw [h1, Res.ok_bind]
      exact finishSystem_total (by omega) h3
    | cons p1 ps =>
      obtain ⟨c0, hc0, hl0⟩ := (hc p0 List.mem_cons_self).get
      obtain ⟨rows, h4, h5, h6⟩ := costRows_total hl0 (ps := p1 :: ps)
        (fun r hr => hc r (List.mem_cons_of_mem _ hr))
      simp only [List.isEmpty_cons, Bool.false_eq_true, if_false]
      rw [hc0, Res.ok_bind, h4, Res.ok_bind, h1, Res.ok_bind]
      refine finishSystem_total (by rw [List.length_append]; omega) (fun row hr => ?_)
      rcases List.mem_append.mp hr with h | h
      · exact h6 row h
      · exact h3 row h

section
variable {b : Backend} {coords : b.Tri → Nat → Option (List ℚ)} {size : b.Tri → Nat} {q : Query}

/-- The state of the explorator is consistent. -/
structure Consistent (q : Query) (coords : b.Tri → Nat → Option (List ℚ)) (size : b.Tri → Nat) (st : St b) :
    Prop where
  size_eq : size st.tri = q.triDim
  find : ∀ k, coords st.tri k ≠ none → ∃ p, lookup k st.found = some p
  costed : ∀ k p, (k, p) ∈ st.found → Costed q.dim p
  known : ∀ k ∈ st.tolerated, coords st.tri k ≠ none
  nodup : st.tolerated.Nodup

theorem lookup_insert {k id : Nat} {p : Path} {l : List (Nat × Path)} :
    lookup k (insertKey id p l) = if k = id then some p else lookup k l := by
  unfold lookup insertKey
  rw [List.find?_cons]
  by_cases h : k = id
  · simp [h]
  · rw [if_neg h]
    have h' : (id = k) = False := by simp [Ne.symm h]
    simp only [h', decide_false]
    congr 1
    induction l with
    | nil => rfl
    | cons x l ih =>
      rw [List.filter_cons]
      by_cases hx : x.1 = id
      · rw [if_neg (by simp [hx]), ih, List.find?_cons_of_neg (by simp [hx]; exact Ne.symm h)]
      · rw [if_pos (by simp [hx]), List.find?_cons, List.find?_cons, ih]

theorem register_consistent (hb : Regular b coords size) (hq : q.triDim = q.considered.count true)
    (hcon : q.considered.length = q.dim) {st : St b} {p : Path} (hp : Costed q.dim p)
    (hj : Consistent q coords size st) :
    ∃ st', register b q st p = .ok st' ∧ Consistent q coords size st' := by
  obtain ⟨c, h1, h2⟩ := hp.get
  obtain ⟨x, h3, h4⟩ := project_total (ds := q.considered) (c := c) (by omega)
  obtain ⟨id, t', h5, h6, h7⟩ := hb.add st.tri x (by rw [h4, hj.size_eq, hq])
  obtain ⟨k1, _, k3⟩ := hb.added _ _ _ _ h5
  refine ⟨{ st with
    tri := t'
    tolerated := if tolerates c q.tolerances then st.tolerated ++ [id] else st.tolerated
    found := insertKey id p st.found }, ?_, ?_⟩
  · unfold register
    rw [h1, Res.ok_bind, h3, Res.ok_bind, h5, Res.ok_bind]
    rfl
  · have hid : id ∉ st.tolerated := fun h => hj.known id h h6
    have keep : ∀ k, coords st.tri k ≠ none → coords t' k ≠ none := by
      intro k hk
      rw [k3 k (fun hc => hk (hc ▸ h6))]
      exact hk
    refine ⟨h7.trans hj.size_eq, fun k hk => ?_, fun k r hr => ?_, fun k hk => ?_, ?_⟩
    · simp only at hk ⊢
      rw [lookup_insert]
      by_cases he : k = id
      · rw [if_pos he]; exact ⟨p, rfl⟩
      · rw [if_neg he]
        rw [k3 k he] at hk
        exact hj.find k hk
    · rcases mem_insertKey hr with ⟨_, rfl⟩ | ⟨_, hr⟩
      · exact hp
      · exact hj.costed k r hr
    · simp only at hk ⊢
      split at hk
      · rcases List.mem_append.mp hk with hk | hk
        · exact keep k (hj.known k hk)
        · rw [List.mem_singleton.mp hk, k1]; simp
      · exact keep k (hj.known k hk)
    · simp only
      split
      · rw [List.nodup_append]
        refine ⟨hj.nodup, by simp, fun a ha c hc he => ?_⟩
        rw [List.mem_singleton.mp hc] at he
        exact hid (he ▸ ha)
      · exact hj.nodup

theorem update_consistent (hb : Regular b coords size) (hq : q.triDim = q.considered.count true)
    (hcon : q.considered.length = q.dim) {new : List Path} {st : St b} (hn : ∀ p ∈ new, Costed q.dim p)
    (hj : Consistent q coords size st) : ∃ st', update b q st new = .ok st' ∧ Consistent q coords size st' := by
  unfold update
  induction new generalizing st with
  | nil => exact ⟨st, rfl, hj⟩
  | cons p new ih =>
    obtain ⟨st1, h1, h2⟩ := register_consistent hb hq hcon (hn p List.mem_cons_self) hj
    rw [List.foldlM_cons, h1, Res.ok_bind]
    exact ih (fun r hr => hn r (List.mem_cons_of_mem _ hr)) h2

theorem cellFrom_total {found : List (Nat × Path)} {vs : List Nat} {P : Path → Prop}
    (h : ∀ v ∈ vs, ∃ p, lookup v found = some p) (hP : ∀ k p, (k, p) ∈ found → P p) :
    ∃ cell, cellFrom found vs = .ok cell ∧ cell.length = vs.length ∧ ∀ p ∈ cell, P p := by
  induction vs with
  | nil => exact ⟨[], rfl, rfl, fun _ h => nomatch h⟩
  | cons v vs ih =>
    obtain ⟨p, hp⟩ := h v List.mem_cons_self
    obtain ⟨cell, h1, h2, h3⟩ := ih (fun w hw => h w (List.mem_cons_of_mem _ hw))
    refine ⟨p :: cell, by simp [cellFrom, hp, h1, Res.ofIdx], by simp [h2], fun r hr => ?_⟩
    rcases List.mem_cons.mp hr with rfl | hr
    · exact hP v r (mem_of_lookup hp)
    · exact h3 r hr

theorem collect_total {ks : List Nat} {found : List (Nat × Path)} (hn : ks.Nodup)
    (h : ∀ k ∈ ks, ∃ p, lookup k found = some p) : ∃ ps, collect ks found = .ok ps := by
  induction ks generalizing found with
  | nil => exact ⟨[], rfl⟩
  | cons k ks ih =>
    obtain ⟨p, hp⟩ := h k List.mem_cons_self
    rw [List.nodup_cons] at hn
    have hkeep : ∀ j, j ≠ k → lookup j (found.filter fun x => x.1 ≠ k) = lookup j found := by
      intro j hj
      have := lookup_insert (k := j) (id := k) (p := p) (l := found)
      rw [if_neg hj] at this
      rw [← this]
      unfold lookup insertKey
      rw [List.find?_cons_of_neg (by simp; exact Ne.symm hj)]
    obtain ⟨ps, hps⟩ := ih (found := found.filter fun x => x.1 ≠ k) hn.2 (fun j hj => by
      rw [hkeep j (fun hc => hn.1 (hc ▸ hj))]
      exact h j (List.mem_cons_of_mem _ hj))
    exact ⟨p :: ps, by unfold collect; rw [hp, hps]; rfl⟩

variable {S : Type} {ask : S → List ℚ → Option (R (S × Option Path))} {g : Graph} {I : S → Prop}

theorem exploreCell_np (ha : Asks ask g I q.dim) (hb : Regular b coords size)
    (hcon : q.considered.length = q.dim) (ht : q.tolerances.length = q.dim) {cell : List Path}
    (hc : ∀ p ∈ cell, Costed q.dim p) (hne : cell ≠ []) (hlen : cell.length ≤ q.considered.count true + 1)
    {acc : Acc S} (hs : I acc.1) : exploreCell ask g b q cell acc ≠ some .panic := by
  unfold exploreCell
  refine andThen_np (some_np ?_) fun al _ => ?_
  · unfold cellAlphas
    obtain ⟨r, hr⟩ := hopeless_total (i := 0) (tol := q.tolerances) hc (by omega)
    rw [hr, Res.ok_bind]
    cases r with
    | true => exact ⟨none, rfl⟩
    | false =>
      obtain ⟨o, h1, h2⟩ := createSystem_total hc hne hcon hlen
      simp only [Bool.false_eq_true, if_false]
      rw [h1, Res.ok_bind]
      cases o with
      | none => exact ⟨none, rfl⟩
      | some m =>
        obtain ⟨m, rhs⟩ := m
        obtain ⟨h3, h4, h5⟩ := h2 m rhs rfl
        exact hb.solve m rhs (by omega) (fun row hr => (h5 row hr).trans h3.symm)
  · cases al with
    | none => simp
    | some al =>
      refine andThen_np (ha.np _ _ hs) fun ⟨s1, ans⟩ hans => ?_
      cases ans with
      | none => simp
      | some p =>
        refine andThen_np (some_np ?_) fun _ _ => by simp
        obtain ⟨p', hp', c, hc', _⟩ := ha.costs _ _ _ _ hs hans
        cases cell with
        | nil => exact absurd rfl hne
        | cons v vs =>
          obtain ⟨d, hd, _⟩ := (hc v List.mem_cons_self).get
          unfold judge
          rw [pacc_ok.mpr hp', Res.ok_bind, pacc_ok.mpr (getCosts_ok.mpr hc'), Res.ok_bind,
            List.getElem?_cons_zero]
          simp only [Res.ofIdx, Res.ok_bind, hd]
          exact ⟨_, rfl⟩

theorem exploreCells_np (ha : Asks ask g I q.dim) (hb : Regular b coords size)
    (hq : q.triDim = q.considered.count true)
    (hcon : q.considered.length = q.dim) (ht : q.tolerances.length = q.dim) {cells : List RawCell}
    {st : St b} (hj : Consistent q coords size st)
    (hcells : ∀ c ∈ cells, c.vertices ≠ [] ∧ c.vertices.length ≤ q.triDim + 1 ∧
      ∀ v ∈ c.vertices, coords st.tri v ≠ none)
    {acc : Acc S} (hs : I acc.1) (hf : ∀ p ∈ acc.2, Fnd ask g I p) :
    exploreCells ask g b q cells st acc ≠ some .panic := by
  induction cells generalizing st acc with
  | nil => simp [exploreCells]
  | cons raw cells ih =>
    have hcells' := fun c hc => hcells c (List.mem_cons_of_mem _ hc)
    unfold exploreCells
    split
    · exact ih hj hcells' hs hf
    · obtain ⟨c1, c2, c3⟩ := hcells raw List.mem_cons_self
      obtain ⟨cell, h1, h2, h3⟩ := cellFrom_total (P := Costed q.dim) (fun v hv => hj.find v (c3 v hv))
        hj.costed
      refine andThen_np (some_np ⟨cell, h1⟩) fun cell' hcell' => ?_
      rw [h1] at hcell'
      cases hcell'
      have hne : cell ≠ [] := by
        intro hc
        rw [hc] at h2
        exact c1 (List.length_eq_zero_iff.mp h2.symm)
      refine andThen_np (exploreCell_np ha hb hcon ht h3 hne (by omega) hs) fun acc1 hacc => ?_
      obtain ⟨h4, h5⟩ := exploreCell_ok ha.inv hs hf hacc
      exact ih (st := { st with visited := raw.id :: st.visited })
        ⟨hj.size_eq, hj.find, hj.costed, hj.known, hj.nodup⟩ hcells' h4 h5

theorem exploreLoop_np (ha : Asks ask g I q.dim) (hb : Regular b coords size)
    (hq : q.triDim = q.considered.count true)
    (hcon : q.considered.length = q.dim) (ht : q.tolerances.length = q.dim)
    {fuel : Nat} {dirty : Bool} {st : St b} {s : S} (hj : Consistent q coords size st) (hs : I s) :
    exploreLoop ask g b q fuel dirty st s ≠ some .panic ∧ ∀ st' s',
      exploreLoop ask g b q fuel dirty st s = some (.ok (st', s')) → Consistent q coords size st' := by
  induction fuel generalizing dirty st s with
  | zero => simp [exploreLoop]
  | succ fuel ih =>
    unfold exploreLoop
    cases dirty with
    | false =>
      simp only [Bool.false_eq_true, if_false]
      refine ⟨by simp, fun st' s' h => ?_⟩
      cases h
      exact hj
    | true =>
      simp only [if_true]
      have hcells : ∀ c ∈ b.cells st.tri, c.vertices ≠ [] ∧ c.vertices.length ≤ q.triDim + 1 ∧
          ∀ v ∈ c.vertices, coords st.tri v ≠ none := by
        intro c hc
        have := hb.cells st.tri c hc
        rwa [hj.size_eq] at this
      have key : ∀ st1 s1 new,
          exploreCells ask g b q (b.cells st.tri) st (s, []) = some (.ok (st1, s1, new)) →
          I s1 ∧ ∃ st2, update b q st1 new = .ok st2 ∧ Consistent q coords size st2 := by
        intro st1 s1 new h1
        obtain ⟨h3, h4, vs, rfl⟩ := exploreCells_ok ha.inv (acc := (s, [])) hs (by simp) h1
        exact ⟨h3, update_consistent hb hq hcon (fun p hp => ha.fnd (h4 p hp))
          ⟨hj.size_eq, hj.find, hj.costed, hj.known, hj.nodup⟩⟩
      constructor
      · refine andThen_np (exploreCells_np ha hb hq hcon ht hj hcells hs (by simp)) fun ⟨st1, s1, new⟩ h1 => ?_
        obtain ⟨h3, st2, h4, h5⟩ := key st1 s1 new h1
        refine andThen_np (some_np ⟨st2, h4⟩) fun st3 h6 => ?_
        rw [h4] at h6
        cases h6
        exact (ih h5 h3).1
      · intro st' s' h
        obtain ⟨⟨st1, s1, new⟩, h1, h⟩ := andThen_ok.mp h
        obtain ⟨h3, st2, h4, h5⟩ := key st1 s1 new h1
        obtain ⟨st3, h6, h⟩ := andThen_ok.mp h
        rw [h4] at h6
        cases h6
        exact (ih h5 h3).2 st' s' h

theorem explorate_np {dim : Nat} (hg : g.dim = dim) (ha : Asks ask g I dim) (hb : Regular b coords size)
    (hdim : dim < 32) {alphas : List ℚ} {scales : List (Option ℚ)} (hal : alphas.length = dim)
    (hsc : scales.length = dim) {fuel : Nat} {s : S} (hs : I s) :
    explorate ask g b fuel alphas scales s ≠ some .panic := by
  subst hg
  have hstart : (Query.start g.dim alphas).considered.length = g.dim := by simp [Query.start, hal]
  unfold explorate
  have hinit : ∃ l, initAlphas (Query.start g.dim alphas) = .ok l := by
    unfold initAlphas
    have h1 := imcMask_lt (Query.start g.dim alphas).considered
    rw [hstart] at h1
    have h2 : 2 ^ g.dim ≤ 2 ^ 32 := Nat.pow_le_pow_right (by omega) (by omega)
    rw [if_neg (by omega), if_neg (by simp only [Query.start]; omega)]
    exact ⟨_, rfl⟩
  refine andThen_np (some_np hinit) fun init hi => ?_
  simp only [Option.some.injEq] at hi
  have hl : ∀ i al, (some i, al) ∈ init → i < g.dim := fun i al hm => ((unit_mem hi).mp hm).1
  refine andThen_np (exploreInit_np ha hs (by simp) hsc (by simp [Query.start]) hl) fun ⟨s1, q, new⟩ h1 => ?_
  have hnz : ∀ mi al, (mi, al) ∈ init → ∃ a ∈ al, a ≠ (0 : ℚ) := by
    intro mi al hm
    obtain ⟨m, hm0, hm1, _, rfl, _⟩ := (mem_initAlphas hi).mp hm
    obtain ⟨i, hi⟩ := Nat.exists_testBit_of_ne_zero (Nat.pos_iff_ne_zero.mp hm0)
    have hid : i < (Query.start g.dim alphas).dim := by
      by_contra hc
      rw [Nat.testBit_lt_two_pow (lt_of_lt_of_le hm1 (Nat.pow_le_pow_right (by omega) (by omega)))] at hi
      cases hi
    have := alphasOf_get (mask := m) hid
    rw [hi] at this
    exact ⟨1, List.mem_of_getElem? this, one_ne_zero⟩
  obtain ⟨k1, ⟨k2, k3, k4, k5⟩, k6, _⟩ := exploreInit_ok ha.inv hs hnz h1
  have hqd : q.dim = g.dim := k2
  have hq : q.triDim = q.considered.count true := by rw [k3, k4]; rfl
  have hcon : q.considered.length = q.dim := by rw [k4, hqd, hstart]
  have ht : q.tolerances.length = q.dim := by rw [k5, hqd]; simp [Query.start]
  have hj : Consistent q coords size
      { tri := b.new q.triDim, found := [], tolerated := [], visited := [] } :=
    ⟨hb.size_new _, fun k hk => absurd (hb.new _ _) hk, (by intro _ _ h; cases h), (by intro _ h; cases h),
      List.nodup_nil⟩
  have ha' : Asks ask g I q.dim := hqd ▸ ha
  obtain ⟨st, h2, h3⟩ := update_consistent hb hq hcon
    (fun p hp => ha'.fnd ((k6 p hp).resolve_left (fun h => nomatch h))) hj
  refine andThen_np (some_np ⟨st, h2⟩) fun st0 h4 => ?_
  simp only [Option.some.injEq] at h4
  rw [h2] at h4
  cases h4
  have hfin : ∀ (st : St b), Consistent q coords size st → ∃ ps, collect st.tolerated st.found = .ok ps :=
    fun st hj => collect_total hj.nodup (fun k hk => hj.find k (hj.known k hk))
  refine andThen_np ?_ fun ⟨st1, s2⟩ h5 => ?_
  · split
    · exact (exploreLoop_np ha' hb hq hcon ht h3 k1).1
    · simp
  · have hj1 : Consistent q coords size st1 := by
      split at h5
      · exact (exploreLoop_np ha' hb hq hcon ht h3 k1).2 st1 s2 h5
      · cases h5; exact h3
    exact andThen_np (some_np (hfin st1 hj1)) fun _ _ => by simp

end

end Verif.Exp
