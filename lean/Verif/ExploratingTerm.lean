import Verif.ExploratingDistinct

/-!
# Helper lemmas: the exploration ends if cells belong to the lower convex hull
-/

namespace Verif.Exp

open Dij (R)

/-- With enough fuel, there is a result, and more fuel does not change it. -/
def Ev {α : Type} (f : Nat → Option (R α)) : Prop := ∃ N r, ∀ F, N ≤ F → f F = some r

theorem Ev.const {α : Type} (r : R α) : Ev (fun _ => some r) := ⟨0, r, fun _ _ => rfl⟩

theorem Ev.andThen {α β : Type} {x : Nat → Option (R α)} {f : Nat → α → Option (R β)} (hx : Ev x)
    (hf : ∀ a, (∃ F, x F = some (.ok a)) → Ev (fun F => f F a)) :
    Ev (fun F => Exp.andThen (x F) (f F)) := by
  obtain ⟨N, r, h⟩ := hx
  cases r with
  | ok a =>
    obtain ⟨M, r, hM⟩ := hf a ⟨N, h N le_rfl⟩
    refine ⟨max N M, r, fun F hF => ?_⟩
    simp only [h F (by omega), Exp.andThen]
    exact hM F (by omega)
  | err e => exact e.elim
  | panic => exact ⟨N, .panic, fun F hF => by simp only [h F hF, Exp.andThen]⟩

section
variable {b : Backend} {coords : b.Tri → Nat → Option (List ℚ)} {size : b.Tri → Nat} {q : Query}
  {S : Type} {ask : Nat → S → List ℚ → Option (R (S × Option Path))} {g : Graph} {I : S → Prop}
  {i j : Int} {W : List (List Nat)}

theorem exploreInit_ev (ha : ∀ F, Serves (ask F) g I i j W) (he : ∀ s al, I s → Ev fun F => ask F s al)
    {scales : List (Option ℚ)} {l : List (Option Nat × List ℚ)} {s : S} {q : Query} {found : List Path}
    (hs : I s) : Ev fun F => exploreInit (ask F) g scales l s q found := by
  induction l generalizing s q found with
  | nil => exact Ev.const _
  | cons x l ih =>
    obtain ⟨mi, al⟩ := x
    unfold exploreInit
    refine Ev.andThen (he s al hs) ?_
    rintro ⟨s1, ans⟩ ⟨F, hF⟩
    have hs1 := (ha F).inv _ _ _ _ hs hF
    cases ans with
    | none => exact ih hs1
    | some p =>
      simp only
      exact Ev.andThen (Ev.const _) fun a _ => ih hs1

theorem exploreCell_ev (he : ∀ s al, I s → Ev fun F => ask F s al) {cell : List Path} {acc : Acc S}
    (hs : I acc.1) : Ev fun F => exploreCell (ask F) g b q cell acc := by
  unfold exploreCell
  refine Ev.andThen (Ev.const _) fun al _ => ?_
  cases al with
  | none => exact Ev.const _
  | some al =>
    refine Ev.andThen (he _ _ hs) ?_
    rintro ⟨s1, ans⟩ _
    cases ans with
    | none => exact Ev.const _
    | some p => exact Ev.andThen (Ev.const _) fun _ _ => Ev.const _

theorem exploreCells_ev (ha : ∀ F, Serves (ask F) g I i j W) (he : ∀ s al, I s → Ev fun F => ask F s al)
    (hl : Lower b coords size) (hb : Regular b coords size)
    (hq : q.triDim = q.considered.count true) (hcon : q.considered.length = q.dim) {cells : List RawCell}
    {st : St b} (hj : Good g i j W q coords size st) (hraw : ∀ raw ∈ cells, raw ∈ b.cells st.tri)
    {acc : Acc S} (hs : I acc.1) (hn : NewOk g i j W st acc.2) :
    Ev fun F => exploreCells (ask F) g b q cells st acc := by
  induction cells generalizing st acc with
  | nil => exact Ev.const _
  | cons raw cells ih =>
    have hraw' := fun r hr => hraw r (List.mem_cons_of_mem _ hr)
    unfold exploreCells
    split
    · exact ih hj hraw' hs hn
    · refine Ev.andThen (Ev.const _) ?_
      rintro cell ⟨_, hcell⟩
      simp only [Option.some.injEq] at hcell
      refine Ev.andThen (exploreCell_ev he hs) ?_
      rintro acc1 ⟨F, h1⟩
      obtain ⟨h2, h3⟩ := exploreCell_new (ha F) hl hb hq hcon hj (hraw raw List.mem_cons_self) hcell hs hn h1
      exact ih (st := { st with visited := raw.id :: st.visited }) (hj.visit _) hraw' h2
        ⟨h3.proper, h3.distinct⟩

theorem Good.count {st : St b} (hj : Good g i j W q coords size st) : st.found.length ≤ W.length := by
  have h1 : esK st.found ⊆ W := by
    intro l hl
    obtain ⟨⟨k, p⟩, hp, rfl⟩ := List.mem_map.mp hl
    exact (hj.proper k p hp).known
  have := (hj.distinct.subperm h1).length_le
  simpa [esK] using this

theorem exploreLoop_ev (ha : ∀ F, Serves (ask F) g I i j W) (he : ∀ s al, I s → Ev fun F => ask F s al)
    (hl : Lower b coords size) (hb : Regular b coords size)
    (hq : q.triDim = q.considered.count true) (hcon : q.considered.length = q.dim) (hdim : q.dim = g.dim)
    {B : Nat} {dirty : Bool} {st : St b} {s : S} (hj : Good g i j W q coords size st) (hs : I s)
    (hB : W.length - st.found.length ≤ B) :
    ∃ N r, ∀ F, N ≤ F → ∀ k, B + 2 ≤ k → exploreLoop (ask F) g b q k dirty st s = some r := by
  have stop : ∀ (st : St b) s, ∀ F k, 1 ≤ k → exploreLoop (ask F) g b q k false st s = some (.ok (st, s)) := by
    intro st s F k hk
    obtain ⟨k, rfl⟩ : ∃ m, k = m + 1 := ⟨k - 1, by omega⟩
    simp [exploreLoop]
  induction B using Nat.strong_induction_on generalizing dirty st s with
  | _ B ih =>
    cases dirty with
    | false => exact ⟨0, _, fun F _ k hk => stop st s F k (by omega)⟩
    | true =>
      have hn0 : NewOk g i j W st [] := ⟨(fun _ h => nomatch h), by simpa [es] using hj.distinct⟩
      obtain ⟨N, r, h1⟩ := exploreCells_ev ha he hl hb hq hcon hj (fun _ h => h) (acc := (s, [])) hs hn0
      have unfoldk : ∀ F k, N ≤ F → 1 ≤ k → exploreLoop (ask F) g b q k true st s =
          Exp.andThen (some r) fun r => Exp.andThen (some (update b q r.1 r.2.2)) fun st =>
            exploreLoop (ask F) g b q (k - 1) (!r.2.2.isEmpty) st r.2.1 := by
        intro F k hF hk
        obtain ⟨k, rfl⟩ : ∃ m, k = m + 1 := ⟨k - 1, by omega⟩
        rw [← h1 F hF]
        simp [exploreLoop]
      cases r with
      | err e => exact e.elim
      | panic => exact ⟨N, .panic, fun F hF k hk => by rw [unfoldk F k hF (by omega)]; rfl⟩
      | ok x =>
        obtain ⟨st1, s1, new⟩ := x
        obtain ⟨k1, k2, k3, k4⟩ := exploreCells_new (ha N) hl hb hq hcon hj (fun _ h => h) (acc := (s, []))
          hs hn0 (h1 N le_rfl)
        obtain ⟨st2, u1, u2, u3⟩ := update_good hb hq hcon hdim k2 k3
        rw [k4] at u3
        cases new with
        | nil =>
          refine ⟨N, .ok (st2, s1), fun F hF k hk => ?_⟩
          rw [unfoldk F k hF (by omega)]
          simp only [Exp.andThen, u1, List.isEmpty_nil, Bool.not_true]
          exact stop st2 s1 F (k - 1) (by omega)
        | cons p new =>
          have hcount := u2.count
          rw [List.length_cons] at u3
          obtain ⟨M, r, hM⟩ := ih (B - 1) (by omega) (dirty := true) u2 k1 (by omega)
          refine ⟨max N M, r, fun F hF k hk => ?_⟩
          rw [unfoldk F k (by omega) (by omega)]
          simp only [Exp.andThen, u1, List.isEmpty_cons, Bool.not_false]
          exact hM F (by omega) (k - 1) (by omega)

theorem explorate_ev (ha : ∀ F, Serves (ask F) g I i j W) (he : ∀ s al, I s → Ev fun F => ask F s al)
    (hl : Lower b coords size) (hb : Regular b coords size) {alphas : List ℚ} {scales : List (Option ℚ)}
    (hal : alphas.length = g.dim) {s : S} (hs : I s) :
    Ev fun F => explorate (ask F) g b F alphas scales s := by
  unfold explorate
  refine Ev.andThen (Ev.const _) ?_
  rintro init ⟨_, h1⟩
  simp only [Option.some.injEq] at h1
  refine Ev.andThen (exploreInit_ev ha he hs) ?_
  rintro ⟨s1, q, new⟩ ⟨F, h2⟩
  obtain ⟨k1, ⟨k2, k3, k4, k5⟩, _⟩ := exploreInit_ok (ha F).inv hs (init_nonzero h1) h2
  obtain ⟨n1, n2⟩ := exploreInit_distinct (ha F) hs (by intro _ h; cases h) (by simp [es]) h2
  have hdim : q.dim = g.dim := k2
  have hq : q.triDim = q.considered.count true := by rw [k3, k4]; rfl
  have hcon : q.considered.length = q.dim := by rw [k4, hdim]; simp [Query.start, hal]
  obtain ⟨st1, g1, g2, _⟩ := update_good (q := q) hb hq hcon hdim (good_start hb [])
    (new := new) ⟨n1, by simpa [esK] using n2⟩
  refine Ev.andThen (Ev.const _) ?_
  rintro st0 ⟨_, h3⟩
  simp only [Option.some.injEq] at h3
  rw [h3] at g1
  cases g1
  refine Ev.andThen ?_ fun x _ => Ev.andThen (Ev.const _) fun _ _ => Ev.const _
  simp only
  split
  · obtain ⟨N, r, h4⟩ := exploreLoop_ev (dirty := !new.isEmpty) ha he hl hb hq hcon hdim g2 k1 le_rfl
    exact ⟨max N (W.length - st1.found.length + 2), r, fun F hF => h4 F (by omega) F (by omega)⟩
  · exact Ev.const _

end

/-! ## More fuel -/

section
variable {S : Type} {ask ask' : S → List ℚ → Option (R (S × Option Path))} {g : Graph} {b : Backend}

theorem andThen_mono {α β : Type} {x x' : Option (R α)} {f f' : α → Option (R β)} {r : R β}
    (hx : ∀ a, x = some a → x' = some a) (hf : ∀ a r, f a = some r → f' a = some r)
    (h : andThen x f = some r) : andThen x' f' = some r := by
  cases x with
  | none => cases h
  | some x =>
    rw [hx x rfl]
    cases x with
    | ok a => exact hf a r h
    | err e => exact e.elim
    | panic => exact h

theorem exploreInit_mono (hm : ∀ s al r, ask s al = some r → ask' s al = some r)
    {scales : List (Option ℚ)} {l : List (Option Nat × List ℚ)} {s : S} {q : Query} {found : List Path}
    {r : R (S × Query × List Path)} (h : exploreInit ask g scales l s q found = some r) :
    exploreInit ask' g scales l s q found = some r := by
  induction l generalizing s q found r with
  | nil => exact h
  | cons x l ih =>
    obtain ⟨mi, al⟩ := x
    unfold exploreInit at h ⊢
    refine andThen_mono (hm s al) ?_ h
    rintro ⟨s1, ans⟩ r h
    cases ans with
    | none => exact ih h
    | some p => exact andThen_mono (fun _ h => h) (fun _ _ h => ih h) h

theorem exploreCells_mono (hm : ∀ s al r, ask s al = some r → ask' s al = some r) {q : Query}
    {cells : List RawCell} {st : St b} {acc : Acc S} {r : R (St b × Acc S)}
    (h : exploreCells ask g b q cells st acc = some r) :
    exploreCells ask' g b q cells st acc = some r := by
  induction cells generalizing st acc r with
  | nil => exact h
  | cons raw cells ih =>
    unfold exploreCells at h ⊢
    split at h
    · rename_i hv
      rw [if_pos hv]
      exact ih h
    · rename_i hv
      rw [if_neg hv]
      refine andThen_mono (fun _ h => h) (fun cell r h => ?_) h
      refine andThen_mono (fun x hx => ?_) (fun _ _ h => ih h) h
      unfold exploreCell at hx ⊢
      refine andThen_mono (fun _ h => h) (fun al r h => ?_) hx
      cases al with
      | none => exact h
      | some al => exact andThen_mono (hm _ _) (fun _ _ h => h) h

theorem exploreLoop_mono (hm : ∀ s al r, ask s al = some r → ask' s al = some r) {q : Query}
    {k k' : Nat} (hk : k ≤ k') {dirty : Bool} {st : St b} {s : S} {r : R (St b × S)}
    (h : exploreLoop ask g b q k dirty st s = some r) :
    exploreLoop ask' g b q k' dirty st s = some r := by
  induction k generalizing k' dirty st s r with
  | zero => cases h
  | succ k ih =>
    obtain ⟨k', rfl⟩ : ∃ m, k' = m + 1 := ⟨k' - 1, by omega⟩
    unfold exploreLoop at h ⊢
    cases dirty with
    | false => exact h
    | true =>
      rw [if_pos rfl] at h ⊢
      refine andThen_mono (fun _ h => exploreCells_mono hm h) (fun x r h => ?_) h
      exact andThen_mono (fun _ h => h) (fun _ _ h => ih (by omega) h) h

theorem explorate_mono (hm : ∀ s al r, ask s al = some r → ask' s al = some r) {F F' : Nat} (hF : F ≤ F')
    {alphas : List ℚ} {scales : List (Option ℚ)} {s : S} {r : R (S × List Path)}
    (h : explorate ask g b F alphas scales s = some r) :
    explorate ask' g b F' alphas scales s = some r := by
  unfold explorate at h ⊢
  refine andThen_mono (fun _ h => h) (fun init r h => ?_) h
  refine andThen_mono (fun _ h => exploreInit_mono hm h) (fun x r h => ?_) h
  refine andThen_mono (fun _ h => h) (fun st r h => ?_) h
  refine andThen_mono (fun y hy => ?_) (fun _ _ h => h) h
  split at hy
  · rename_i hc
    rw [if_pos hc]
    exact exploreLoop_mono hm hF hy
  · rename_i hc
    rw [if_neg hc]
    exact hy

end

end Verif.Exp
