import Verif.ExploratingLemmas4
import Verif.ExploratingHullSpec

/-!
# Helper lemmas: the explorator finds every path once if cells belong to the lower convex hull
-/

namespace Verif.Exp

open Dij (R)

/-! ## Linear systems -/

theorem dot_weigh (a m : List ℚ) : dot a m = weigh a m := Dij.dot_eq a m

theorem weigh_comm (a b : List ℚ) : weigh a b = weigh b a := by
  unfold weigh
  rw [List.zipWith_comm_of_comm]
  exact fun x y => mul_comm x y

theorem weigh_vsub {al c d : List ℚ} (h : c.length = d.length) :
    weigh (vsub c d) al = weigh al c - weigh al d := by
  unfold weigh
  induction al generalizing c d with
  | nil => cases c <;> cases d <;> simp [vsub]
  | cons a al ih =>
    cases c with
    | nil =>
      cases d with
      | nil => simp [vsub]
      | cons => simp at h
    | cons x c =>
      cases d with
      | nil => simp at h
      | cons y d =>
        simp only [vsub, List.zipWith_cons_cons, List.sum_cons]
        rw [ih (by simpa using h)]
        ring

theorem weigh_unit {dim i : Nat} {al : List ℚ} (hl : al.length = dim) :
    weigh ((List.replicate dim 0).set i 1) al = al[i]?.getD 0 := by
  unfold weigh
  induction al generalizing dim i with
  | nil => simp
  | cons a al ih =>
    cases dim with
    | zero => simp at hl
    | succ dim =>
      have hl' : al.length = dim := by simpa using hl
      cases i with
      | zero =>
        have hz : ∀ (al : List ℚ) (n : Nat), (List.zipWith (· * ·) (List.replicate n (0 : ℚ)) al).sum = 0 := by
          intro al
          induction al with
          | nil => simp
          | cons b al ih =>
            intro n
            cases n with
            | zero => simp
            | succ n => simp [List.replicate_succ, ih n]
        simp [List.replicate_succ, hz]
      | succ i =>
        simp only [List.replicate_succ, List.set_cons_succ, List.zipWith_cons_cons, List.sum_cons,
          List.getElem?_cons_succ, zero_mul, zero_add]
        exact ih hl'

/-- Only considered metrics matter if the others have no weight. -/
theorem weigh_project {ds : List Bool} {al c x y : List ℚ} (h1 : project ds al = .ok x)
    (h2 : project ds c = .ok y) (hz : ∀ (i : Nat) a, ds[i]? = some false → al[i]? = some a → a = 0)
    (hl : al.length = ds.length) (hc : c.length = ds.length) : weigh al c = weigh x y := by
  unfold weigh
  induction ds generalizing al c x y with
  | nil =>
    have e1 : al = [] := List.length_eq_zero_iff.mp hl
    have e2 : c = [] := List.length_eq_zero_iff.mp hc
    subst e1 e2
    cases h1; cases h2
    rfl
  | cons d ds ih =>
    cases al with
    | nil => simp at hl
    | cons a al =>
      cases c with
      | nil => simp at hc
      | cons b c =>
        obtain ⟨x', hx, rfl⟩ := project_cons_ok h1
        obtain ⟨y', hy, rfl⟩ := project_cons_ok h2
        have := ih hx hy (fun i a h1 h2 => hz (i + 1) a (by simpa using h1) (by simpa using h2))
          (by simpa using hl) (by simpa using hc)
        cases d with
        | true => simp [this]
        | false =>
          have h0 := hz 0 a (by simp) (by simp)
          subst h0
          simp [this]

theorem project_nonneg {ds : List Bool} {c x : List ℚ} (h : project ds c = .ok x)
    (hc : ∀ a ∈ c, 0 ≤ a) : ∀ a ∈ x, 0 ≤ a := by
  induction ds generalizing c x with
  | nil =>
    cases c with
    | nil => cases h; simp
    | cons => cases h
  | cons d ds ih =>
    cases c with
    | nil => cases h; simp
    | cons b c =>
      obtain ⟨y, hy, rfl⟩ := project_cons_ok h
      have h1 := ih hy (fun a ha => hc a (List.mem_cons_of_mem _ ha))
      cases d with
      | true =>
        intro a ha
        rcases List.mem_cons.mp ha with rfl | ha
        · exact hc a List.mem_cons_self
        · exact h1 a ha
      | false => exact h1

theorem unitRows_mem {dim i : Nat} {ds : List Bool} {rows : List (List ℚ)}
    (h : unitRows dim i ds = .ok rows) {k : Nat} (hk : ds[k]? = some false) :
    (List.replicate dim 0).set (i + k) 1 ∈ rows := by
  induction ds generalizing i k rows with
  | nil => simp at hk
  | cons d ds ih =>
    unfold unitRows at h
    cases d with
    | true =>
      rw [if_pos rfl] at h
      cases k with
      | zero => simp at hk
      | succ k =>
        have := ih h (k := k) (by simpa using hk)
        rwa [show i + 1 + k = i + (k + 1) by omega] at this
    | false =>
      simp only [Bool.false_eq_true, if_false] at h
      obtain ⟨row, hr, h⟩ := Res.bind_eq_ok.mp h
      obtain ⟨rows', hr', h⟩ := Res.bind_eq_ok.mp h
      cases h
      cases k with
      | zero =>
        rw [setIdx_ok] at hr
        rw [hr.2]
        exact List.mem_cons_self
      | succ k =>
        have := ih hr' (k := k) (by simpa using hk)
        rw [show i + 1 + k = i + (k + 1) by omega] at this
        exact List.mem_cons_of_mem _ this

theorem costRows_mem {c0 : List ℚ} {ps : List Path} {rows : List (List ℚ)} (h : costRows c0 ps = .ok rows)
    {p : Path} (hp : p ∈ ps) {c : List ℚ} (hc : p.costs = some c) : vsub c0 c ∈ rows := by
  induction ps generalizing rows with
  | nil => cases hp
  | cons r ps ih =>
    unfold costRows at h
    obtain ⟨d, hd, h⟩ := Res.bind_eq_ok.mp h
    obtain ⟨rows', hr, h⟩ := Res.bind_eq_ok.mp h
    cases h
    rcases List.mem_cons.mp hp with rfl | hp
    · rw [pacc_ok, getCosts_ok, hc] at hd
      cases hd
      exact List.mem_cons_self
    · exact List.mem_cons_of_mem _ (ih hr hp)

theorem finishSystem_rows {dim : Nat} {rows m : List (List ℚ)} {rhs : List ℚ}
    (h : finishSystem dim rows = .ok (some (m, rhs))) {row : List ℚ} (hr : row ∈ rows) :
    ∃ i : Nat, m[i]? = some row ∧ rhs[i]? = some 0 := by
  obtain ⟨i, hi, rfl⟩ := List.mem_iff_getElem.mp hr
  unfold finishSystem at h
  split at h
  · cases h
  · simp only at h
    split at h
    · cases h
      exact ⟨i, List.getElem?_eq_getElem hi, by simp [hi]⟩
    · split at h
      · cases h
        refine ⟨i, ?_, ?_⟩
        · rw [List.getElem?_append_left hi]; exact List.getElem?_eq_getElem hi
        · rw [List.getElem?_append_left (by simpa using hi)]; simp [hi]
      · cases h

section
variable {b : Backend} {coords : b.Tri → Nat → Option (List ℚ)} {size : b.Tri → Nat} {q : Query}

/-- The alphas of a cell give the same weight to all its vertices and no weight to ignored metrics. -/
theorem cellAlphas_spec (hl : Lower b coords size) (hcon : q.considered.length = q.dim)
    {cell : List Path} (hc : ∀ p ∈ cell, Costed q.dim p)
    (hlen : cell.length ≤ q.considered.count true + 1) {al : List ℚ}
    (h : cellAlphas b q cell = .ok (some al)) : al.length = q.dim ∧
      (∀ p ∈ cell, ∀ r ∈ cell, ∀ c d, p.costs = some c → r.costs = some d → weigh al c = weigh al d) ∧
      ∀ (i : Nat) a, q.considered[i]? = some false → al[i]? = some a → a = 0 := by
  unfold cellAlphas at h
  obtain ⟨skip, _, h⟩ := Res.bind_eq_ok.mp h
  cases skip with
  | true => cases h
  | false =>
    simp only [Bool.false_eq_true, if_false] at h
    obtain ⟨sys, hs, hsol⟩ := Res.bind_eq_ok.mp h
    cases sys with
    | none => cases hsol
    | some sys =>
      obtain ⟨m, rhs⟩ := sys
      simp only at hsol
      cases cell with
      | nil => cases hs
      | cons p0 ps =>
        obtain ⟨o, ho, ho'⟩ := createSystem_total hc (by simp) hcon hlen
        rw [hs] at ho
        cases ho
        obtain ⟨k1, k2, k3⟩ := ho' m rhs rfl
        obtain ⟨k4, k5⟩ := hl.solved m rhs al hsol (by omega) (fun row hr => (k3 row hr).trans k1.symm)
        rw [k1] at k4
        obtain ⟨c0, hc0, hl0⟩ := hc p0 List.mem_cons_self
        -- the rows of the system
        have key : ∃ rows units, finishSystem q.dim (rows ++ units) = .ok (some (m, rhs)) ∧
            unitRows q.dim 0 q.considered = .ok units ∧
            ∀ p ∈ ps, ∀ c, p.costs = some c → vsub c0 c ∈ rows := by
          unfold createSystem at hs
          cases ps with
          | nil =>
            simp only [List.isEmpty_nil, if_true] at hs
            obtain ⟨units, hu, hs⟩ := Res.bind_eq_ok.mp hs
            exact ⟨[], units, hs, hu, fun _ h => nomatch h⟩
          | cons p1 ps =>
            simp only [List.isEmpty_cons, Bool.false_eq_true, if_false] at hs
            obtain ⟨c, hc1, hs⟩ := Res.bind_eq_ok.mp hs
            rw [pacc_ok, getCosts_ok, hc0] at hc1
            cases hc1
            obtain ⟨rows, hr, hs⟩ := Res.bind_eq_ok.mp hs
            obtain ⟨units, hu, hs⟩ := Res.bind_eq_ok.mp hs
            exact ⟨rows, units, hs, hu, fun p hp c hc => costRows_mem hr hp hc⟩
        obtain ⟨rows, units, f1, f2, f3⟩ := key
        have hzero : ∀ row ∈ rows ++ units, weigh row al = 0 := by
          intro row hr
          obtain ⟨i, h1, h2⟩ := finishSystem_rows f1 hr
          exact k5 i row 0 h1 h2
        have heq : ∀ p ∈ p0 :: ps, ∀ c, p.costs = some c → weigh al c = weigh al c0 := by
          intro p hp c hcp
          rcases List.mem_cons.mp hp with rfl | hp'
          · rw [hc0] at hcp
            cases hcp
            rfl
          · obtain ⟨c', h1, h2⟩ := hc p hp
            rw [hcp] at h1
            cases h1
            have := hzero _ (List.mem_append_left _ (f3 p hp' c hcp))
            rw [weigh_vsub (by omega)] at this
            linarith
        refine ⟨k4, fun p hp r hr c d h1 h2 => (heq p hp c h1).trans (heq r hr d h2).symm, ?_⟩
        intro i a h1 h2
        have := hzero _ (List.mem_append_right _ (unitRows_mem f2 h1))
        rw [weigh_unit k4, Nat.zero_add, h2] at this
        simpa using this

/-! ## Paths -/

/-- A path between the two nodes of the query, out of `W`, with its costs. -/
structure Proper (g : Graph) (i j : Int) (W : List (List Nat)) (p : Path) : Prop where
  src : p.srcId = i
  dst : p.dstId = j
  known : p.edges ∈ W
  costs : ∃ c, p.costs = some c ∧ g.IsCost p.edges c

theorem isCost_unique {g : Graph} {l : List Nat} {c d : List ℚ} (hc : g.IsCost l c) (hd : g.IsCost l d) :
    c = d := by
  apply List.ext_getElem?
  intro k
  by_cases hk : k < g.dim
  · rw [hc.2 k hk, hd.2 k hk]
  · rw [List.getElem?_eq_none (by rw [hc.1]; omega), List.getElem?_eq_none (by rw [hd.1]; omega)]

/-- What is assumed of the router. -/
structure Serves {S : Type} (ask : S → List ℚ → Option (R (S × Option Path))) (g : Graph) (I : S → Prop)
    (i j : Int) (W : List (List Nat)) : Prop where
  inv : ∀ s al s' ans, I s → ask s al = some (.ok (s', ans)) → I s'
  good : ∀ s al s' p0, I s → ask s al = some (.ok (s', some p0)) → (∀ a ∈ al, 0 ≤ a) ∧
    ∃ p, p0.calcCosts g = .ok p ∧ Proper g i j W p

/-- The edges of paths. -/
abbrev es (l : List Path) : List (List Nat) := l.map (·.edges)

/-- The edges of paths with keys. -/
abbrev esK (l : List (Nat × Path)) : List (List Nat) := l.map (·.2.edges)

theorem eqSlice_refl (c : List ℚ) : Approx.eqSlice c c = true := by
  unfold Approx.eqSlice
  have key : ∀ (l : List ℚ), (l.zip l).foldl (fun acc p => acc && Approx.eq p.1 p.2) true = true := by
    intro l
    induction l with
    | nil => rfl
    | cons a l ih => simpa [Approx.C24_eq_refl] using ih
  exact key c

theorem anyEqual_false {c : List ℚ} {found : List Path} (hd : anyEqual c found = .ok false) :
    ∀ f ∈ found, ∀ d, f.costs = some d → Approx.eqSlice d c = false := by
  induction found with
  | nil => intro f hf; cases hf
  | cons f fs ih =>
    unfold anyEqual at hd
    obtain ⟨d, hd0, hd⟩ := Res.bind_eq_ok.mp hd
    rw [pacc_ok, getCosts_ok] at hd0
    split at hd
    · cases hd
    · rename_i he
      intro r hr e hre
      rcases List.mem_cons.mp hr with rfl | hr
      · rw [hd0] at hre
        cases hre
        simpa using he
      · exact ih hd r hr e hre

variable {S : Type} {ask : S → List ℚ → Option (R (S × Option Path))} {g : Graph} {I : S → Prop}
  {i j : Int} {W : List (List Nat)}

theorem initFound_distinct {scales : List (Option ℚ)} {mi : Option Nat} {q q' : Query}
    {found found' : List Path} {p0 p : Path} (hp : p0.calcCosts g = .ok p) (hgood : Proper g i j W p)
    (hf : ∀ r ∈ found, Proper g i j W r) (hn : (es found).Nodup)
    (h : initFound g scales mi q found p0 = .ok (q', found')) :
    (∀ r ∈ found', Proper g i j W r) ∧ (es found').Nodup := by
  unfold initFound at h
  rw [pacc_ok.mpr hp, Res.ok_bind] at h
  obtain ⟨c, hc, h⟩ := Res.bind_eq_ok.mp h
  obtain ⟨q1, hq, h⟩ := Res.bind_eq_ok.mp h
  obtain ⟨dup, hd, h⟩ := Res.bind_eq_ok.mp h
  rw [pacc_ok, getCosts_ok] at hc
  cases h
  cases dup with
  | true => exact ⟨hf, hn⟩
  | false =>
    simp only [Bool.false_eq_true, if_false]
    constructor
    · intro r hr
      rcases List.mem_append.mp hr with hr | hr
      · exact hf r hr
      · rw [List.mem_singleton.mp hr]; exact hgood
    · unfold es
      rw [List.map_append, List.nodup_append]
      refine ⟨hn, by simp, fun l1 h1 l2 h2 he => ?_⟩
      obtain ⟨r, hr, rfl⟩ := List.mem_map.mp h1
      simp only [List.map_cons, List.map_nil, List.mem_singleton] at h2
      subst h2
      obtain ⟨d, hd1, hd2⟩ := (hf r hr).costs
      obtain ⟨c', hc1, hc2⟩ := hgood.costs
      rw [hc] at hc1
      cases hc1
      rw [he] at hd2
      have := anyEqual_false hd r hr d hd1
      rw [isCost_unique hd2 hc2, eqSlice_refl] at this
      cases this

theorem exploreInit_distinct (ha : Serves ask g I i j W) {scales : List (Option ℚ)}
    {l : List (Option Nat × List ℚ)} {s s' : S} {q q' : Query} {found found' : List Path} (hs : I s)
    (hf : ∀ r ∈ found, Proper g i j W r) (hn : (es found).Nodup)
    (h : exploreInit ask g scales l s q found = some (.ok (s', q', found'))) :
    (∀ r ∈ found', Proper g i j W r) ∧ (es found').Nodup := by
  induction l generalizing s q found with
  | nil => cases h; exact ⟨hf, hn⟩
  | cons x l ih =>
    obtain ⟨mi, al⟩ := x
    unfold exploreInit at h
    obtain ⟨⟨s1, ans⟩, hans, h⟩ := andThen_ok.mp h
    have hs1 := ha.inv _ _ _ _ hs hans
    cases ans with
    | none => exact ih hs1 hf hn h
    | some p0 =>
      obtain ⟨⟨q1, found1⟩, hq, h⟩ := andThen_ok.mp h
      simp only [Option.some.injEq] at hq
      obtain ⟨_, p, hp, hgood⟩ := ha.good _ _ _ _ hs hans
      obtain ⟨h1, h2⟩ := initFound_distinct hp hgood hf hn hq
      exact ih hs1 h1 h2 h

/-- The state of the explorator is consistent and has no path twice. -/
structure Good (g : Graph) (i j : Int) (W : List (List Nat)) (q : Query)
    (coords : b.Tri → Nat → Option (List ℚ)) (size : b.Tri → Nat) (st : St b) : Prop
    extends Consistent q coords size st, Fits q coords st where
  proper : ∀ k p, (k, p) ∈ st.found → Proper g i j W p
  distinct : (esK st.found).Nodup

theorem Good.visit {st : St b} (hj : Good g i j W q coords size st) (vs : List Nat) :
    Good g i j W q coords size { st with visited := vs } :=
  ⟨⟨hj.size_eq, hj.find, hj.costed, hj.known, hj.nodup⟩, ⟨hj.found, hj.tolerated⟩, hj.proper, hj.distinct⟩

/-- New paths: no path twice, also not together with the old ones. -/
structure NewOk (g : Graph) (i j : Int) (W : List (List Nat)) (st : St b) (new : List Path) : Prop where
  proper : ∀ p ∈ new, Proper g i j W p
  distinct : (esK st.found ++ es new).Nodup

theorem register_good (hb : Regular b coords size) (hq : q.triDim = q.considered.count true)
    (hcon : q.considered.length = q.dim) (hdim : q.dim = g.dim) {st : St b} {p : Path} {new : List Path}
    (hj : Good g i j W q coords size st) (hn : NewOk g i j W st (p :: new)) :
    ∃ st', register b q st p = .ok st' ∧ Good g i j W q coords size st' ∧ NewOk g i j W st' new ∧
      st'.found.length = st.found.length + 1 := by
  have hp := hn.proper p List.mem_cons_self
  obtain ⟨c, hc, hcost⟩ := hp.costs
  have hcl : c.length = q.dim := by rw [hcost.1, hdim]
  obtain ⟨st', h1, h2⟩ := register_consistent hb hq hcon ⟨c, hc, hcl⟩ hj.toConsistent
  have h3 := register_fits hb.toSound (fun d hd => by rw [hc] at hd; cases hd; exact hcl) hj.toFits h1
  obtain ⟨c', x, id, tri, g1, g2, g3, g4, g5, _⟩ := register_ok h1
  -- the id is new
  have hid : coords st.tri id = none := by
    obtain ⟨y, hy, hyl⟩ := project_total (ds := q.considered) (c := c) (by omega)
    rw [hc] at g1
    cases g1
    rw [g2] at hy
    cases hy
    obtain ⟨id', t', k1, k2, _⟩ := hb.add st.tri x (by rw [hyl, hj.size_eq, hq])
    rw [g3] at k1
    cases k1
    exact k2
  have hfil : st.found.filter (fun x => x.1 ≠ id) = st.found := by
    rw [List.filter_eq_self]
    rintro ⟨k, r⟩ hr
    obtain ⟨_, y, _, _, _, hy⟩ := hj.found k r hr
    simp only [ne_eq, decide_not, Bool.not_eq_eq_eq_not, Bool.not_true, decide_eq_false_iff_not]
    rintro rfl
    rw [hid] at hy
    cases hy
  have hfound : st'.found = (id, p) :: st.found := by rw [g5, insertKey, hfil]
  have hd := hn.distinct
  have hperm : (esK st.found ++ es (p :: new)).Perm (p.edges :: (esK st.found ++ es new)) := by
    simp only [es, List.map_cons]
    exact List.perm_middle
  rw [hperm.nodup_iff] at hd
  refine ⟨st', h1, ⟨h2, h3, ?_, ?_⟩, ⟨fun r hr => hn.proper r (List.mem_cons_of_mem _ hr), ?_⟩, ?_⟩
  · intro k r hr
    rw [hfound] at hr
    rcases List.mem_cons.mp hr with hr | hr
    · cases hr; exact hp
    · exact hj.proper k r hr
  · rw [hfound]
    simp only [esK, List.map_cons]
    rw [List.nodup_cons] at hd ⊢
    exact ⟨fun hm => hd.1 (List.mem_append_left _ hm), hj.distinct⟩
  · rw [hfound]
    simpa [esK, es] using hd
  · rw [hfound]; simp

theorem update_good (hb : Regular b coords size) (hq : q.triDim = q.considered.count true)
    (hcon : q.considered.length = q.dim) (hdim : q.dim = g.dim) {st : St b} {new : List Path}
    (hj : Good g i j W q coords size st) (hn : NewOk g i j W st new) :
    ∃ st', update b q st new = .ok st' ∧ Good g i j W q coords size st' ∧
      st'.found.length = st.found.length + new.length := by
  unfold update
  induction new generalizing st with
  | nil => exact ⟨st, rfl, hj, rfl⟩
  | cons p new ih =>
    obtain ⟨st1, h1, h2, h3, h4⟩ := register_good hb hq hcon hdim hj hn
    obtain ⟨st2, h5, h6, h7⟩ := ih h2 h3
    refine ⟨st2, ?_, h6, by rw [h7, h4, List.length_cons]; omega⟩
    rw [List.foldlM_cons, h1, Res.ok_bind]
    exact h5

theorem cellFrom_mem {found : List (Nat × Path)} {vs : List Nat} {cell : List Path}
    (h : cellFrom found vs = .ok cell) : List.Forall₂ (fun v p => (v, p) ∈ found) vs cell := by
  induction vs generalizing cell with
  | nil => cases h; exact .nil
  | cons v vs ih =>
    unfold cellFrom at h
    obtain ⟨p, hp, h⟩ := Res.bind_eq_ok.mp h
    obtain ⟨ps, hps, h⟩ := Res.bind_eq_ok.mp h
    cases h
    rw [Res.ofIdx_eq_ok] at hp
    exact .cons (mem_of_lookup hp) (ih hps)

theorem lt_of_approx {a b : ℚ} (h : Approx.lt a b = true) : a < b := by
  unfold Approx.lt at h
  rw [beq_iff_eq] at h
  have := (Approx.C24_cmp_spec a b).2.1.mp h
  linarith

/-- A path that is cheaper than a cell of the lower convex hull is not known. -/
theorem cheaper_unknown (hl : Lower b coords size) (hb : Regular b coords size)
    (hq : q.triDim = q.considered.count true) (hcon : q.considered.length = q.dim) {st : St b}
    (hj : Good g i j W q coords size st) {raw : RawCell} (hraw : raw ∈ b.cells st.tri)
    {cell : List Path} (hcell : cellFrom st.found raw.vertices = .ok cell) {al : List ℚ}
    (hal : cellAlphas b q cell = .ok (some al)) (hnn : ∀ a ∈ al, 0 ≤ a) {v : Path}
    (hv : cell[0]? = some v) {c d : List ℚ} (hd : v.costs = some d) {k : Nat} {p : Path}
    (hp : (k, p) ∈ st.found) (hc : p.costs = some c) : weigh al d ≤ weigh al c := by
  have hmem := cellFrom_mem hcell
  have hclen : cell.length = raw.vertices.length := hmem.length_eq.symm
  obtain ⟨r1, r2, r3⟩ := hb.cells st.tri raw hraw
  rw [hj.size_eq] at r2
  have hcosted : ∀ p ∈ cell, Costed q.dim p := by
    intro p hp
    obtain ⟨w, _, hw⟩ := forall₂_mem_right hmem hp
    exact hj.costed w p hw
  obtain ⟨a1, a2, a3⟩ := cellAlphas_spec hl hcon hcosted (by omega) hal
  obtain ⟨x, hx, hxl⟩ := project_total (ds := q.considered) (c := al) (by omega)
  -- a known path in coordinates
  have conv : ∀ w r, (w, r) ∈ st.found → ∀ e, r.costs = some e → ∃ y, coords st.tri w = some y ∧
      weigh al e = weigh x y := by
    intro w r hr e he
    obtain ⟨e', y, h1, h2, h3, h4⟩ := hj.found w r hr
    rw [he] at h1
    cases h1
    exact ⟨y, h4, weigh_project hx h3 a3 (by omega) (by omega)⟩
  have hv' : v ∈ cell := List.mem_of_getElem? hv
  obtain ⟨w, hw1, hw2⟩ := forall₂_mem_right hmem hv'
  obtain ⟨y, hy1, hy2⟩ := conv w v hw2 d hd
  obtain ⟨z, hz1, hz2⟩ := conv k p hp c hc
  rw [hy2, hz2]
  refine hl.below st.tri raw hraw x (by rw [hxl, hj.size_eq, hq]) (project_nonneg hx hnn) ?_ w hw1 k y z hy1
    hz1
  -- all vertices of the cell have the same weight
  intro w1 h1 w2 h2 y1 y2 e1 e2
  have pick : ∀ w ∈ raw.vertices, ∃ r ∈ cell, (w, r) ∈ st.found := by
    intro w hw
    have key : ∀ {vs : List Nat} {cell : List Path},
        List.Forall₂ (fun v p => (v, p) ∈ st.found) vs cell → w ∈ vs → ∃ r ∈ cell, (w, r) ∈ st.found := by
      intro vs cell hf
      induction hf with
      | nil => intro h; cases h
      | cons h _ ih =>
        intro hw
        rcases List.mem_cons.mp hw with rfl | hw
        · exact ⟨_, List.mem_cons_self, h⟩
        · obtain ⟨r, h1, h2⟩ := ih hw
          exact ⟨r, List.mem_cons_of_mem _ h1, h2⟩
    exact key hmem hw
  obtain ⟨p1, f1, f2⟩ := pick w1 h1
  obtain ⟨p2, f3, f4⟩ := pick w2 h2
  obtain ⟨c1, hc1, _⟩ := hcosted p1 f1
  obtain ⟨c2, hc2, _⟩ := hcosted p2 f3
  obtain ⟨y1', g1, g2⟩ := conv w1 p1 f2 c1 hc1
  obtain ⟨y2', g3, g4⟩ := conv w2 p2 f4 c2 hc2
  rw [g1] at e1
  rw [g3] at e2
  cases e1
  cases e2
  rw [← g2, ← g4]
  exact a2 p1 f1 p2 f3 c1 c2 hc1 hc2

theorem exploreCell_new (ha : Serves ask g I i j W) (hl : Lower b coords size) (hb : Regular b coords size)
    (hq : q.triDim = q.considered.count true) (hcon : q.considered.length = q.dim) {st : St b}
    (hj : Good g i j W q coords size st) {raw : RawCell} (hraw : raw ∈ b.cells st.tri)
    {cell : List Path} (hcell : cellFrom st.found raw.vertices = .ok cell) {acc acc' : Acc S}
    (hs : I acc.1) (hn : NewOk g i j W st acc.2)
    (h : exploreCell ask g b q cell acc = some (.ok acc')) : I acc'.1 ∧ NewOk g i j W st acc'.2 := by
  unfold exploreCell at h
  obtain ⟨al, hal, h⟩ := andThen_ok.mp h
  simp only [Option.some.injEq] at hal
  cases al with
  | none => cases h; exact ⟨hs, hn⟩
  | some al =>
    obtain ⟨⟨s1, ans⟩, hans, h⟩ := andThen_ok.mp h
    have hs1 := ha.inv _ _ _ _ hs hans
    cases ans with
    | none => cases h; exact ⟨hs1, hn⟩
    | some p0 =>
      obtain ⟨new, hnew, h⟩ := andThen_ok.mp h
      cases h
      refine ⟨hs1, ?_⟩
      simp only [Option.some.injEq] at hnew
      obtain ⟨hnn, p, hp, hgood⟩ := ha.good _ _ _ _ hs hans
      unfold judge at hnew
      rw [pacc_ok.mpr hp, Res.ok_bind] at hnew
      obtain ⟨c, hc, hnew⟩ := Res.bind_eq_ok.mp hnew
      obtain ⟨v, hv, hnew⟩ := Res.bind_eq_ok.mp hnew
      obtain ⟨d, hd, hnew⟩ := Res.bind_eq_ok.mp hnew
      rw [pacc_ok, getCosts_ok] at hc hd
      rw [Res.ofIdx_eq_ok] at hv
      cases hnew
      simp only
      split
      · rename_i hif
        rw [Bool.and_eq_true] at hif
        obtain ⟨hlt, hfresh⟩ := hif
        have hlt := lt_of_approx hlt
        rw [dot_weigh, dot_weigh] at hlt
        constructor
        · intro r hr
          rcases List.mem_append.mp hr with hr | hr
          · exact hn.proper r hr
          · rw [List.mem_singleton.mp hr]; exact hgood
        · have hnot : p.edges ∉ esK st.found ++ es acc.2 := by
            intro hm
            rcases List.mem_append.mp hm with hm | hm
            · obtain ⟨⟨k, r⟩, hr, he⟩ := List.mem_map.mp hm
              simp only at he
              obtain ⟨c', h1, h2⟩ := (hj.proper k r hr).costs
              obtain ⟨c'', h3, h4⟩ := hgood.costs
              rw [hc] at h3
              cases h3
              rw [he] at h2
              have := isCost_unique h2 h4
              subst this
              have := cheaper_unknown hl hb hq hcon hj hraw hcell hal hnn hv hd hr h1
              linarith
            · obtain ⟨r, hr, he⟩ := List.mem_map.mp hm
              have hr' := hn.proper r hr
              have hany : acc.2.any (fun x => x.beq p) = true := by
                rw [List.any_eq_true]
                refine ⟨r, hr, ?_⟩
                unfold Path.beq
                rw [hr'.src, hr'.dst, hgood.src, hgood.dst, he]
                simp
              rw [hany] at hfresh
              cases hfresh
          have := hn.distinct
          unfold es
          rw [List.map_append, ← List.append_assoc, List.nodup_append]
          refine ⟨this, by simp, fun l1 h1 l2 h2 he => ?_⟩
          simp only [List.map_cons, List.map_nil, List.mem_singleton] at h2
          subst h2
          exact hnot (he ▸ h1)
      · exact hn

theorem exploreCells_new (ha : Serves ask g I i j W) (hl : Lower b coords size) (hb : Regular b coords size)
    (hq : q.triDim = q.considered.count true) (hcon : q.considered.length = q.dim) {cells : List RawCell}
    {st st' : St b} (hj : Good g i j W q coords size st) (hraw : ∀ raw ∈ cells, raw ∈ b.cells st.tri)
    {acc acc' : Acc S} (hs : I acc.1) (hn : NewOk g i j W st acc.2)
    (h : exploreCells ask g b q cells st acc = some (.ok (st', acc'))) :
    I acc'.1 ∧ Good g i j W q coords size st' ∧ NewOk g i j W st' acc'.2 ∧ st'.found = st.found := by
  induction cells generalizing st acc with
  | nil => cases h; exact ⟨hs, hj, hn, rfl⟩
  | cons raw cells ih =>
    have hraw' := fun r hr => hraw r (List.mem_cons_of_mem _ hr)
    unfold exploreCells at h
    split at h
    · exact ih hj hraw' hs hn h
    · obtain ⟨cell, hcell, h⟩ := andThen_ok.mp h
      simp only [Option.some.injEq] at hcell
      obtain ⟨acc1, h1, h⟩ := andThen_ok.mp h
      obtain ⟨h2, h3⟩ := exploreCell_new ha hl hb hq hcon hj (hraw raw List.mem_cons_self) hcell hs hn h1
      exact ih (st := { st with visited := raw.id :: st.visited }) (hj.visit _) hraw' h2
        ⟨h3.proper, h3.distinct⟩ h

theorem exploreLoop_good (ha : Serves ask g I i j W) (hl : Lower b coords size) (hb : Regular b coords size)
    (hq : q.triDim = q.considered.count true) (hcon : q.considered.length = q.dim) (hdim : q.dim = g.dim)
    {fuel : Nat} {dirty : Bool} {st st' : St b} {s s' : S} (hj : Good g i j W q coords size st) (hs : I s)
    (h : exploreLoop ask g b q fuel dirty st s = some (.ok (st', s'))) :
    Good g i j W q coords size st' := by
  induction fuel generalizing dirty st s with
  | zero => cases h
  | succ fuel ih =>
    unfold exploreLoop at h
    cases dirty with
    | false =>
      simp only [Bool.false_eq_true, if_false] at h
      cases h
      exact hj
    | true =>
      simp only [if_true] at h
      obtain ⟨⟨st1, s1, new⟩, h1, h⟩ := andThen_ok.mp h
      obtain ⟨st2, h2, h⟩ := andThen_ok.mp h
      simp only [Option.some.injEq] at h2
      obtain ⟨k1, k2, k3, _⟩ := exploreCells_new ha hl hb hq hcon hj (fun _ h => h) (acc := (s, [])) hs
        ⟨(fun _ h => nomatch h), by simpa [es] using hj.distinct⟩ h1
      obtain ⟨st3, h3, h4, _⟩ := update_good hb hq hcon hdim k2 k3
      rw [h2] at h3
      cases h3
      exact ih h4 k1 h

theorem collect_distinct {ks : List Nat} {found : List (Nat × Path)} {ps : List Path}
    (hn : (esK found).Nodup) (h : collect ks found = .ok ps) : (es ps).Nodup := by
  obtain ⟨h1, h2⟩ := collect_ok h
  have inj : ∀ x ∈ found, ∀ y ∈ found, x.2.edges = y.2.edges → x = y :=
    fun x hx y hy he => List.inj_on_of_nodup_map hn hx hy he
  clear h hn
  induction h1 with
  | nil => exact List.nodup_nil
  | @cons k p ks ps hkp hrest ih =>
    rw [List.nodup_cons] at h2
    simp only [es, List.map_cons, List.nodup_cons]
    refine ⟨fun hm => ?_, ih h2.2⟩
    obtain ⟨r, hr, he⟩ := List.mem_map.mp hm
    obtain ⟨k', hk', hr'⟩ := forall₂_mem_right hrest hr
    have := inj _ hr' _ hkp he
    cases this
    exact h2.1 hk'

theorem good_start (hb : Regular b coords size) (vs : List Nat) : Good g i j W q coords size
    { tri := b.new q.triDim, found := [], tolerated := [], visited := vs } :=
  ⟨⟨hb.size_new _, fun k hk => absurd (hb.new _ _) hk, (by intro _ _ h; cases h), (by intro _ h; cases h),
    List.nodup_nil⟩, ⟨(by intro _ _ h; cases h), (by intro _ h; cases h)⟩, (by intro _ _ h; cases h),
    List.nodup_nil⟩

/-- The masks are not zero. -/
theorem init_nonzero {q : Query} {init : List (Option Nat × List ℚ)} (hi : initAlphas q = .ok init) :
    ∀ mi al, (mi, al) ∈ init → ∃ a ∈ al, a ≠ (0 : ℚ) := by
  intro mi al hm
  obtain ⟨m, hm0, hm1, _, rfl, _⟩ := (mem_initAlphas hi).mp hm
  obtain ⟨i, hi⟩ := Nat.exists_testBit_of_ne_zero (Nat.pos_iff_ne_zero.mp hm0)
  have hid : i < q.dim := by
    by_contra hc
    rw [Nat.testBit_lt_two_pow (lt_of_lt_of_le hm1 (Nat.pow_le_pow_right (by omega) (by omega)))] at hi
    cases hi
  have := alphasOf_get (mask := m) hid
  rw [hi] at this
  exact ⟨1, List.mem_of_getElem? this, one_ne_zero⟩

theorem explorate_distinct (ha : Serves ask g I i j W) (hl : Lower b coords size)
    (hb : Regular b coords size) {alphas : List ℚ} {scales : List (Option ℚ)}
    (hal : alphas.length = g.dim) {fuel : Nat} {s s' : S} {res : List Path} (hs : I s)
    (h : explorate ask g b fuel alphas scales s = some (.ok (s', res))) :
    (res.map (·.edges)).Nodup := by
  unfold explorate at h
  obtain ⟨init, h1, h⟩ := andThen_ok.mp h
  simp only [Option.some.injEq] at h1
  obtain ⟨⟨s1, q, new⟩, h2, h⟩ := andThen_ok.mp h
  obtain ⟨st0, h3, h⟩ := andThen_ok.mp h
  obtain ⟨⟨st, s2⟩, h4, h⟩ := andThen_ok.mp h
  obtain ⟨ps, h5, h⟩ := andThen_ok.mp h
  cases h
  simp only [Option.some.injEq] at h3 h5
  obtain ⟨k1, ⟨k2, k3, k4, k5⟩, _⟩ := exploreInit_ok ha.inv hs (init_nonzero h1) h2
  obtain ⟨n1, n2⟩ := exploreInit_distinct ha hs (by intro _ h; cases h) (by simp [es]) h2
  have hdim : q.dim = g.dim := k2
  have hq : q.triDim = q.considered.count true := by rw [k3, k4]; rfl
  have hcon : q.considered.length = q.dim := by rw [k4, hdim]; simp [Query.start, hal]
  obtain ⟨st1, g1, g2, _⟩ := update_good (q := q) hb hq hcon hdim (good_start hb [])
    (new := new) ⟨n1, by simpa [esK] using n2⟩
  rw [h3] at g1
  cases g1
  have hgood : Good g i j W q coords size st := by
    split at h4
    · exact exploreLoop_good ha hl hb hq hcon hdim g2 k1 h4
    · cases h4; exact g2
  exact collect_distinct hgood.distinct h5

end

end Verif.Exp
