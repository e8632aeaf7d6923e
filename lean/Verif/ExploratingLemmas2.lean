import Verif.ExploratingLemmas1
import Verif.PathProps
import Verif.ApproxProps

/-!
# Helper lemmas: what the explorator keeps
-/

namespace Verif.Exp

open Dij (R)

theorem andThen_ok {α β : Type} {x : Option (R α)} {f : α → Option (R β)} {b : β} :
    andThen x f = some (.ok b) ↔ ∃ a, x = some (.ok a) ∧ f a = some (.ok b) := by
  unfold andThen
  cases x with
  | none => simp
  | some x => cases x <;> simp

theorem pacc_ok {α : Type} {x : Res Path.Err α} {a : α} : pacc x = .ok a ↔ x = .ok a := by
  unfold pacc
  cases x <;> simp

theorem getCosts_ok {p : Path} {c : List ℚ} : p.getCosts = .ok c ↔ p.costs = some c := by
  unfold Path.getCosts
  exact Res.ofIdx_eq_ok

theorem forall₂_mem_right {α β : Type} {P : α → β → Prop} {l : List α} {l' : List β}
    (h : List.Forall₂ P l l') {b : β} (hb : b ∈ l') : ∃ a ∈ l, P a b := by
  induction h with
  | nil => cases hb
  | cons hx _ ih =>
    rcases List.mem_cons.mp hb with rfl | hb
    · exact ⟨_, List.mem_cons_self, hx⟩
    · obtain ⟨a, h1, h2⟩ := ih hb
      exact ⟨a, List.mem_cons_of_mem _ h1, h2⟩

theorem setIdx_ok {α : Type} {l l' : List α} {i : Nat} {a : α} :
    Dij.setIdx l i a = .ok l' ↔ i < l.length ∧ l' = l.set i a := by
  unfold Dij.setIdx
  split
  · rename_i h; simp [h, eq_comm]
  · rename_i h; simp [h]

section
variable {S : Type} (ask : S → List ℚ → Option (R (S × Option Path))) (g : Graph) (I : S → Prop)

/-- The path is an answer of the router for alphas that are not all zero, together with its costs. -/
def Fnd (p : Path) : Prop := ∃ al s s' p0, I s ∧ ask s al = some (.ok (s', some p0)) ∧
  p0.calcCosts g = .ok p ∧ ∃ a ∈ al, a ≠ 0

/-- The tolerance that comes from an answer for alphas `al`. -/
def TolFrom (scales : List (Option ℚ)) (i : Nat) (al : List ℚ) (t : Option ℚ) : Prop :=
  ∃ s s' p0 p c, I s ∧ ask s al = some (.ok (s', some p0)) ∧ p0.calcCosts g = .ok p ∧
    p.costs = some c ∧ ∃ sc, scales[i]? = some sc ∧
      ((sc = none ∧ t = none) ∨ ∃ x y, sc = some x ∧ c[i]? = some y ∧ t = some (y * x))

theorem setTolerance_ok {scales : List (Option ℚ)} {q q' : Query} {mi : Option Nat} {c : List ℚ}
    (h : setTolerance scales q mi c = .ok q') :
    q'.dim = q.dim ∧ q'.triDim = q.triDim ∧ q'.considered = q.considered ∧
      q'.tolerances.length = q.tolerances.length ∧
      (∀ i, mi ≠ some i → q'.tolerances[i]? = q.tolerances[i]?) ∧
      ∀ i t, mi = some i → q'.tolerances[i]? = some t → ∃ sc, scales[i]? = some sc ∧
        ((sc = none ∧ t = none) ∨ ∃ x y, sc = some x ∧ c[i]? = some y ∧ t = some (y * x)) := by
  unfold setTolerance at h
  cases mi with
  | none =>
    cases h
    exact ⟨rfl, rfl, rfl, rfl, fun _ _ => rfl, fun _ _ h => nomatch h⟩
  | some i =>
    obtain ⟨sc, hsc, h⟩ := Res.bind_eq_ok.mp h
    rw [Res.ofIdx_eq_ok] at hsc
    cases sc with
    | none =>
      obtain ⟨t, ht, h⟩ := Res.bind_eq_ok.mp h
      rw [setIdx_ok] at ht
      obtain ⟨hi, rfl⟩ := ht
      cases h
      refine ⟨rfl, rfl, rfl, List.length_set, fun j hj => ?_, fun j t hj ht => ?_⟩
      · exact List.getElem?_set_ne (fun hc => hj (by rw [hc]))
      · cases hj
        rw [List.getElem?_set_self hi] at ht
        cases ht
        exact ⟨none, hsc, .inl ⟨rfl, rfl⟩⟩
    | some x =>
      obtain ⟨y, hy, h⟩ := Res.bind_eq_ok.mp h
      obtain ⟨t, ht, h⟩ := Res.bind_eq_ok.mp h
      rw [Res.ofIdx_eq_ok] at hy
      rw [setIdx_ok] at ht
      obtain ⟨hi, rfl⟩ := ht
      cases h
      refine ⟨rfl, rfl, rfl, List.length_set, fun j hj => ?_, fun j t hj ht => ?_⟩
      · exact List.getElem?_set_ne (fun hc => hj (by rw [hc]))
      · cases hj
        rw [List.getElem?_set_self hi] at ht
        cases ht
        exact ⟨some x, hsc, .inr ⟨x, y, rfl, hy, rfl⟩⟩

theorem anyEqual_true {c : List ℚ} {found : List Path} (hd : anyEqual c found = .ok true) :
    ∃ f ∈ found, ∃ d, f.costs = some d ∧ Approx.eqSlice d c = true := by
  induction found with
  | nil => simp [anyEqual] at hd
  | cons f fs ih =>
    unfold anyEqual at hd
    obtain ⟨d, hd0, hd⟩ := Res.bind_eq_ok.mp hd
    rw [pacc_ok, getCosts_ok] at hd0
    split at hd
    · rename_i he
      exact ⟨f, List.mem_cons_self, d, hd0, he⟩
    · obtain ⟨f', hf', r⟩ := ih hd
      exact ⟨f', List.mem_cons_of_mem _ hf', r⟩

theorem initFound_ok {scales : List (Option ℚ)} {mi : Option Nat} {q q' : Query} {found found' : List Path}
    {p0 : Path} (h : initFound g scales mi q found p0 = .ok (q', found')) :
    ∃ p c, p0.calcCosts g = .ok p ∧ p.costs = some c ∧ setTolerance scales q mi c = .ok q' ∧
      (found' = found ++ [p] ∨ found' = found ∧ ∃ f ∈ found, ∃ d, f.costs = some d ∧
        Approx.eqSlice d c = true) := by
  unfold initFound at h
  obtain ⟨p, hp, h⟩ := Res.bind_eq_ok.mp h
  obtain ⟨c, hc, h⟩ := Res.bind_eq_ok.mp h
  obtain ⟨q1, hq, h⟩ := Res.bind_eq_ok.mp h
  obtain ⟨dup, hd, h⟩ := Res.bind_eq_ok.mp h
  rw [pacc_ok] at hp hc
  rw [getCosts_ok] at hc
  cases h
  refine ⟨p, c, hp, hc, hq, ?_⟩
  cases dup with
  | false => exact .inl rfl
  | true =>
    exact .inr ⟨rfl, anyEqual_true hd⟩

variable {ask g I}

theorem exploreInit_ok (hI : ∀ s al s' ans, I s → ask s al = some (.ok (s', ans)) → I s')
    {scales : List (Option ℚ)} {l : List (Option Nat × List ℚ)} {s s' : S} {q q' : Query}
    {found found' : List Path} (hs : I s)
    (hnz : ∀ mi al, (mi, al) ∈ l → ∃ a ∈ al, a ≠ (0 : ℚ))
    (h : exploreInit ask g scales l s q found = some (.ok (s', q', found'))) :
    I s' ∧ (q'.dim = q.dim ∧ q'.triDim = q.triDim ∧ q'.considered = q.considered ∧
      q'.tolerances.length = q.tolerances.length) ∧
    (∀ p ∈ found', p ∈ found ∨ Fnd ask g I p) ∧
    (∀ p ∈ found, p ∈ found') ∧
    (∀ mi al, (mi, al) ∈ l → ∃ s s' ans, I s ∧ ask s al = some (.ok (s', ans)) ∧
      ∀ p0, ans = some p0 → found' ≠ []) ∧
    (∀ i t, q'.tolerances[i]? = some t →
      (q.tolerances[i]? = some t ∧ ∀ al, (some i, al) ∈ l → ∃ s s', I s ∧ ask s al = some (.ok (s', none))) ∨
      ∃ al, (some i, al) ∈ l ∧ TolFrom ask g I scales i al t) ∧
    (found' = [] → ∀ mi al, (mi, al) ∈ l → ∃ s s', I s ∧ ask s al = some (.ok (s', none))) := by
  induction l generalizing s q found with
  | nil =>
    cases h
    exact ⟨hs, ⟨rfl, rfl, rfl, rfl⟩, fun p hp => .inl hp, fun p hp => hp, (fun _ _ h => nomatch h),
      fun i t ht => .inl ⟨ht, fun _ h => nomatch h⟩, fun _ _ _ h => nomatch h⟩
  | cons x l ih =>
    obtain ⟨mi, al⟩ := x
    unfold exploreInit at h
    obtain ⟨⟨s1, ans⟩, ha, h⟩ := andThen_ok.mp h
    have hs1 := hI _ _ _ _ hs ha
    have hnz' : ∀ mi al, (mi, al) ∈ l → ∃ a ∈ al, a ≠ (0 : ℚ) :=
      fun mi al hm => hnz mi al (List.mem_cons_of_mem _ hm)
    cases ans with
    | none =>
      obtain ⟨h1, h2, h3, h4, h5, h6, h7⟩ := ih hs1 hnz' h
      refine ⟨h1, h2, h3, h4, fun mi' al' hm => ?_, fun i t ht => ?_, fun hf mi' al' hm => ?_⟩
      · rcases List.mem_cons.mp hm with hm | hm
        · cases hm
          exact ⟨s, s1, none, hs, ha, fun _ hc => nomatch hc⟩
        · exact h5 mi' al' hm
      · rcases h6 i t ht with ⟨h8, h9⟩ | ⟨al', hm, h8⟩
        · refine .inl ⟨h8, fun al' hm => ?_⟩
          rcases List.mem_cons.mp hm with hm | hm
          · cases hm
            exact ⟨s, s1, hs, ha⟩
          · exact h9 al' hm
        · exact .inr ⟨al', List.mem_cons_of_mem _ hm, h8⟩
      · rcases List.mem_cons.mp hm with hm | hm
        · cases hm
          exact ⟨s, s1, hs, ha⟩
        · exact h7 hf mi' al' hm
    | some p0 =>
      obtain ⟨⟨q1, found1⟩, hf, h⟩ := andThen_ok.mp h
      simp only [Option.some.injEq] at hf
      obtain ⟨p, c, hp, hc, hq, hfound⟩ := initFound_ok g hf
      obtain ⟨e1, e2, e3, e4, e5, e6⟩ := setTolerance_ok hq
      obtain ⟨h1, h2, h3, h4, h5, h6, h7⟩ := ih hs1 hnz' h
      have hfnd : Fnd ask g I p := ⟨al, s, s1, p0, hs, ha, hp, hnz mi al List.mem_cons_self⟩
      have hsub : ∀ p ∈ found, p ∈ found1 := by
        intro r hr
        rcases hfound with rfl | ⟨rfl, _⟩
        · exact List.mem_append_left _ hr
        · exact hr
      have hne : found' ≠ [] := by
        intro hc0
        have : ∃ r, r ∈ found1 := by
          rcases hfound with rfl | ⟨rfl, f, hf, _⟩
          · exact ⟨p, by simp⟩
          · exact ⟨f, hf⟩
        obtain ⟨r, hr⟩ := this
        have := h4 r hr
        rw [hc0] at this
        cases this
      refine ⟨h1, ⟨h2.1.trans e1, h2.2.1.trans e2, h2.2.2.1.trans e3, h2.2.2.2.trans e4⟩, fun r hr => ?_,
        fun r hr => h4 r (hsub r hr), fun mi' al' hm => ?_, fun i t ht => ?_, fun hc0 => absurd hc0 hne⟩
      · rcases h3 r hr with hh | hh
        · rcases hfound with hfound | ⟨hfound, _⟩
          · rw [hfound] at hh
            rcases List.mem_append.mp hh with hh | hh
            · exact .inl hh
            · rw [List.mem_singleton.mp hh]
              exact .inr hfnd
          · exact .inl (hfound ▸ hh)
        · exact .inr hh
      · rcases List.mem_cons.mp hm with hm | hm
        · cases hm
          exact ⟨s, s1, some p0, hs, ha, fun _ _ => hne⟩
        · exact h5 mi' al' hm
      · rcases h6 i t ht with ⟨h8, h9⟩ | ⟨al', hm, h8⟩
        · by_cases hmi : mi = some i
          · subst hmi
            exact .inr ⟨al, List.mem_cons_self, s, s1, p0, p, c, hs, ha, hp, hc, e6 i t rfl h8⟩
          · refine .inl ⟨by rw [← e5 i hmi]; exact h8, fun al' hm => ?_⟩
            rcases List.mem_cons.mp hm with hm | hm
            · cases hm
              exact absurd rfl hmi
            · exact h9 al' hm
        · exact .inr ⟨al', List.mem_cons_of_mem _ hm, h8⟩

theorem dot_zero {a b : List ℚ} (h : ∀ x ∈ a, x = 0) : dot a b = 0 := by
  unfold dot
  have key : ∀ (l : List (ℚ × ℚ)) (s : ℚ), (∀ x ∈ l, x.1 = 0) →
      l.foldl (fun s p => s + p.1 * p.2) s = s := by
    intro l
    induction l with
    | nil => intro s _; rfl
    | cons y l ih =>
      intro s hl
      rw [List.foldl_cons, ih _ (fun x hx => hl x (List.mem_cons_of_mem _ hx)), hl y List.mem_cons_self]
      simp
  exact key _ _ (fun x hx => h _ (List.of_mem_zip (a := x.1) (b := x.2) hx).1)

theorem judge_ok {cell : List Path} {al : List ℚ} {new new' : List Path} {p0 : Path}
    (h : judge g cell al new p0 = .ok new') : new' = new ∨ ∃ p, new' = new ++ [p] ∧
      p0.calcCosts g = .ok p ∧ ∃ a ∈ al, a ≠ 0 := by
  unfold judge at h
  obtain ⟨p, hp, h⟩ := Res.bind_eq_ok.mp h
  obtain ⟨c, hc, h⟩ := Res.bind_eq_ok.mp h
  obtain ⟨v, hv, h⟩ := Res.bind_eq_ok.mp h
  obtain ⟨d, hd, h⟩ := Res.bind_eq_ok.mp h
  rw [pacc_ok] at hp
  cases h
  split
  · rename_i hlt
    refine .inr ⟨p, rfl, hp, ?_⟩
    by_contra hz
    push Not at hz
    rw [dot_zero hz, dot_zero hz] at hlt
    revert hlt
    have : Approx.lt 0 0 = false := by decide +kernel
    rw [this]
    simp
  · exact .inl rfl

variable {b : Backend}

theorem exploreCell_ok (hI : ∀ s al s' ans, I s → ask s al = some (.ok (s', ans)) → I s')
    {q : Query} {cell : List Path} {acc acc' : Acc S} (hs : I acc.1)
    (hf : ∀ p ∈ acc.2, Fnd ask g I p)
    (h : exploreCell ask g b q cell acc = some (.ok acc')) : I acc'.1 ∧ ∀ p ∈ acc'.2, Fnd ask g I p := by
  unfold exploreCell at h
  obtain ⟨al, _, h⟩ := andThen_ok.mp h
  cases al with
  | none => cases h; exact ⟨hs, hf⟩
  | some al =>
    obtain ⟨⟨s1, ans⟩, ha, h⟩ := andThen_ok.mp h
    have hs1 := hI _ _ _ _ hs ha
    cases ans with
    | none => cases h; exact ⟨hs1, hf⟩
    | some p0 =>
      obtain ⟨new, hn, h⟩ := andThen_ok.mp h
      cases h
      refine ⟨hs1, ?_⟩
      simp only [Option.some.injEq] at hn
      rcases judge_ok hn with rfl | ⟨p, rfl, hp, hz⟩
      · exact hf
      · intro r hr
        rcases List.mem_append.mp hr with hr | hr
        · exact hf r hr
        · rw [List.mem_singleton.mp hr]
          exact ⟨al, acc.1, s1, p0, hs, ha, hp, hz⟩

theorem exploreCells_ok (hI : ∀ s al s' ans, I s → ask s al = some (.ok (s', ans)) → I s')
    {q : Query} {cells : List RawCell} {st st' : St b} {acc acc' : Acc S} (hs : I acc.1)
    (hf : ∀ p ∈ acc.2, Fnd ask g I p)
    (h : exploreCells ask g b q cells st acc = some (.ok (st', acc'))) :
    I acc'.1 ∧ (∀ p ∈ acc'.2, Fnd ask g I p) ∧ ∃ vs, st' = { st with visited := vs } := by
  induction cells generalizing st acc with
  | nil => cases h; exact ⟨hs, hf, st'.visited, rfl⟩
  | cons raw cells ih =>
    unfold exploreCells at h
    split at h
    · exact ih hs hf h
    · obtain ⟨cell, _, h⟩ := andThen_ok.mp h
      obtain ⟨acc1, h1, h⟩ := andThen_ok.mp h
      obtain ⟨h2, h3⟩ := exploreCell_ok hI hs hf h1
      obtain ⟨h4, h5, vs, h6⟩ := ih h2 h3 h
      exact ⟨h4, h5, vs, h6⟩

/-- Whatever is kept when registering found paths is kept by the exploration. -/
theorem update_keeps {q : Query} {F : Path → Prop} {J : St b → Prop}
    (hJ : ∀ st p st', F p → J st → register b q st p = .ok st' → J st')
    {new : List Path} {st st' : St b} (hn : ∀ p ∈ new, F p) (hj : J st)
    (h : update b q st new = .ok st') : J st' := by
  unfold update at h
  induction new generalizing st with
  | nil => cases h; exact hj
  | cons p new ih =>
    rw [List.foldlM_cons] at h
    obtain ⟨st1, h1, h⟩ := Res.bind_eq_ok.mp h
    exact ih (fun r hr => hn r (List.mem_cons_of_mem _ hr)) (hJ _ _ _ (hn p List.mem_cons_self) hj h1) h

theorem exploreLoop_keeps (hI : ∀ s al s' ans, I s → ask s al = some (.ok (s', ans)) → I s')
    {q : Query} {J : St b → Prop}
    (hJ : ∀ st p st', Fnd ask g I p → J st → register b q st p = .ok st' → J st')
    (hv : ∀ st vs, J st → J { st with visited := vs })
    {fuel : Nat} {dirty : Bool} {st st' : St b} {s s' : S} (hs : I s) (hj : J st)
    (h : exploreLoop ask g b q fuel dirty st s = some (.ok (st', s'))) : J st' ∧ I s' := by
  induction fuel generalizing dirty st s with
  | zero => cases h
  | succ fuel ih =>
    unfold exploreLoop at h
    split at h
    · obtain ⟨⟨st1, s1, new⟩, h1, h⟩ := andThen_ok.mp h
      obtain ⟨st2, h2, h⟩ := andThen_ok.mp h
      obtain ⟨h3, h4, vs, rfl⟩ := exploreCells_ok hI hs (by simp) h1
      simp only [Option.some.injEq] at h2
      exact ih h3 (update_keeps hJ h4 (hv st vs hj) h2) h
    · cases h
      exact ⟨hj, hs⟩

theorem mem_of_lookup {k : Nat} {p : Path} {l : List (Nat × Path)} (h : lookup k l = some p) :
    (k, p) ∈ l := by
  unfold lookup at h
  obtain ⟨x, hx, rfl⟩ := Option.map_eq_some_iff.mp h
  have h1 := List.find?_some hx
  have h2 := List.mem_of_find?_eq_some hx
  simp only [decide_eq_true_eq] at h1
  rw [← h1]
  exact h2

theorem collect_ok {ks : List Nat} {found : List (Nat × Path)} {ps : List Path}
    (h : collect ks found = .ok ps) :
    List.Forall₂ (fun k p => (k, p) ∈ found) ks ps ∧ ks.Nodup := by
  induction ks generalizing found ps with
  | nil => cases h; exact ⟨.nil, List.nodup_nil⟩
  | cons k ks ih =>
    unfold collect at h
    obtain ⟨p, hp, h⟩ := Res.bind_eq_ok.mp h
    obtain ⟨ps', hps, h⟩ := Res.bind_eq_ok.mp h
    cases h
    rw [Res.ofIdx_eq_ok] at hp
    obtain ⟨h1, h2⟩ := ih hps
    refine ⟨.cons (mem_of_lookup hp) (h1.imp fun _ _ h => (List.mem_filter.mp h).1), ?_⟩
    rw [List.nodup_cons]
    refine ⟨fun hk => ?_, h2⟩
    have key : ∀ (ks : List Nat) (ps : List Path),
        List.Forall₂ (fun j p => (j, p) ∈ found.filter fun x => x.1 ≠ k) ks ps → k ∉ ks := by
      intro ks ps hf
      induction hf with
      | nil => simp
      | cons hx _ ih =>
        intro hk
        rcases List.mem_cons.mp hk with rfl | hk
        · simp at hx
        · exact ih hk
    exact key _ _ h1 hk

/-- Where the returned paths come from. -/
theorem explorate_ok (hI : ∀ s al s' ans, I s → ask s al = some (.ok (s', ans)) → I s')
    {fuel : Nat} {alphas : List ℚ} {scales : List (Option ℚ)} {s s' : S} {res : List Path} (hs : I s)
    (h : explorate ask g b fuel alphas scales s = some (.ok (s', res))) :
    ∃ init s1 q new st0 st, initAlphas (Query.start g.dim alphas) = .ok init ∧
      exploreInit ask g scales init s (Query.start g.dim alphas) [] = some (.ok (s1, q, new)) ∧ I s1 ∧
      update b q { tri := b.new q.triDim, found := [], tolerated := [], visited := [] } new = .ok st0 ∧
      collect st.tolerated st.found = .ok res ∧ I s' ∧
      (∀ p ∈ new, Fnd ask g I p) ∧
      ∀ J : St b → Prop, (∀ st p st', Fnd ask g I p → J st → register b q st p = .ok st' → J st') →
        (∀ st vs, J st → J { st with visited := vs }) → J st0 → J st := by
  unfold explorate at h
  obtain ⟨init, h1, h⟩ := andThen_ok.mp h
  obtain ⟨⟨s1, q, new⟩, h2, h⟩ := andThen_ok.mp h
  obtain ⟨st0, h3, h⟩ := andThen_ok.mp h
  obtain ⟨⟨st, s2⟩, h4, h⟩ := andThen_ok.mp h
  obtain ⟨ps, h5, h⟩ := andThen_ok.mp h
  simp only [Option.some.injEq, Res.ok.injEq, Prod.mk.injEq] at h h1 h3 h5
  obtain ⟨rfl, rfl⟩ := h
  have hnz : ∀ mi al, (mi, al) ∈ init → ∃ a ∈ al, a ≠ (0 : ℚ) := by
    intro mi al hm
    obtain ⟨m, hm0, hm1, _, rfl, _⟩ := (mem_initAlphas h1).mp hm
    obtain ⟨i, hi⟩ := Nat.exists_testBit_of_ne_zero (Nat.pos_iff_ne_zero.mp hm0)
    have hid : i < (Query.start g.dim alphas).dim := by
      by_contra hc
      rw [Nat.testBit_lt_two_pow (lt_of_lt_of_le hm1 (Nat.pow_le_pow_right (by omega) (by omega)))] at hi
      cases hi
    have := alphasOf_get (mask := m) hid
    rw [hi] at this
    exact ⟨1, List.mem_of_getElem? this, one_ne_zero⟩
  obtain ⟨k1, _, k3, _⟩ := exploreInit_ok hI hs hnz h2
  have hnew : ∀ p ∈ new, Fnd ask g I p := fun p hp => (k3 p hp).resolve_left (fun h => nomatch h)
  have hs2 : I s2 := by
    split at h4
    · exact (exploreLoop_keeps (J := fun _ => True) hI (fun _ _ _ _ _ _ => trivial) (fun _ _ _ => trivial)
        k1 trivial h4).2
    · cases h4; exact k1
  refine ⟨init, s1, q, new, st0, st, h1, h2, k1, h3, h5, hs2, hnew, fun J hJ hv hj => ?_⟩
  split at h4
  · exact (exploreLoop_keeps hI hJ hv k1 hj h4).1
  · cases h4; exact hj

end

end Verif.Exp
