import Verif.DijkstraLemmas5
import Mathlib.Data.Multiset.DershowitzManna

/-!
# Contracted graphs are hierarchies

Replacing valleys of a route by routes over higher nodes ends, because the multiset of the depths of
its nodes gets smaller.
-/

namespace Verif.Dij

open Graph Search

variable {g : Graph} {al : List ℚ}

/-- An upper bound of the levels. -/
def maxLevel (g : Graph) : Nat := g.nodeLevels.foldr max 0

theorem level_le (u : Nat) : levelD g u ≤ maxLevel g := by
  unfold levelD maxLevel
  cases h : g.nodeLevels[u]? with
  | none => simp
  | some a =>
    have hm := List.mem_of_getElem? h
    simp only [Option.getD_some]
    clear h
    generalize g.nodeLevels = ls at hm
    induction ls with
    | nil => cases hm
    | cons b l ih =>
      rcases List.mem_cons.mp hm with rfl | hm
      · exact le_max_left _ _
      · exact le_trans (ih hm) (le_max_right _ _)

/-- How far a node is from the top. -/
def depth (g : Graph) (u : Nat) : Nat := maxLevel g - levelD g u

theorem depth_lt {u v : Nat} (h : levelD g u < levelD g v) : depth g v < depth g u := by
  unfold depth
  have := level_le (g := g) v
  omega

abbrev Rt (g : Graph) (al : List ℚ) := IsRt (outArcs g (dot al) false .fwd)

/-- The depths of the nodes behind the first one. -/
def depths (g : Graph) (ts : List (Arc ℚ)) : Multiset Nat := (ts.map (fun t => depth g t.2.1) : List Nat)

theorem depths_append (ts ts' : List (Arc ℚ)) : depths g (ts ++ ts') = depths g ts + depths g ts' := by
  simp [depths]

theorem depths_cons (t : Arc ℚ) (ts : List (Arc ℚ)) :
    depths g (t :: ts) = depth g t.2.1 ::ₘ depths g ts := rfl

/-- Arcs of a route above a level. -/
theorem above_rt (hwf : g.WellFormed) {k u v : Nat} {l : List Nat} (h : RouteAbove g k u l v) :
    (l = [] ∧ u = v) ∨ ∃ ts t, ts.map (·.1) ++ [t.1] = l ∧ Rt g al u (ts ++ [t]) v ∧ t.2.1 = v ∧
      ∀ x ∈ ts, k < levelD g x.2.1 := by
  induction l generalizing u with
  | nil => exact Or.inl ⟨rfl, h⟩
  | cons e l ih =>
    right
    cases l with
    | nil =>
      have h' : g.IsEdge e u v := h
      obtain ⟨m, hm⟩ := edge_metrics hwf (edge_lt hwf h'.1)
      exact ⟨[], (e, v, dot al m), rfl, ⟨(mem_outArcs hwf).mpr
        ⟨h'.2, h'.1, ⟨m, hm, rfl⟩, by intro h; cases h⟩, rfl⟩, rfl, by intro x hx; cases hx⟩
    | cons e' l =>
      obtain ⟨w, h', hk, hr⟩ := h
      obtain ⟨m, hm⟩ := edge_metrics hwf (edge_lt hwf h'.1)
      rcases ih hr with ⟨h1, _⟩ | ⟨ts, t, h1, h2, h3, h4⟩
      · cases h1
      · refine ⟨(e, w, dot al m) :: ts, t, by rw [List.map_cons, List.cons_append, h1], ⟨(mem_outArcs hwf).mpr
          ⟨h'.2, h'.1, ⟨m, hm, rfl⟩, by intro h; cases h⟩, h2⟩, h3, ?_⟩
        intro x hx
        rcases List.mem_cons.mp hx with rfl | hx
        · exact hk _ (level_ok hwf (hwf.ends_lt _ _ _ h'.1))
        · exact h4 x hx

/-- Either there is a loop or a valley, or the route goes up and then down. -/
theorem valley_or (hwf : g.WellFormed) (hc : Contracted g al) {u v : Nat} {ts : List (Arc ℚ)}
    (hr : Rt g al u ts v) :
    (∃ p t s w, ts = p ++ t :: s ∧ Rt g al u p w ∧ t.2.1 = w) ∨
    (∃ p t t' s w, ts = p ++ t :: t' :: s ∧ Rt g al u p w ∧ levelD g t.2.1 < levelD g w ∧
      levelD g t.2.1 < levelD g t'.2.1) ∨
    ((∀ t s, ts = t :: s → levelD g t.2.1 < levelD g u → IsDown g u (ts.map (·.1)) v) ∧
      IsUpDown g u (ts.map (·.1)) v) := by
  induction ts generalizing u with
  | nil =>
    refine Or.inr (Or.inr ⟨?_, u, [], [], rfl, rfl, hr⟩)
    intro t s h
    cases h
  | cons t ts ih =>
    obtain ⟨ht, hr'⟩ := hr
    obtain ⟨h1, h2, _, _⟩ := (mem_outArcs hwf).mp ht
    have he : g.IsEdge t.1 u t.2.1 := ⟨h2, h1⟩
    have hlu := level_ok hwf (hwf.ends_lt _ _ _ h1)
    have hlv := level_ok hwf (hwf.ends_lt _ _ _ h2)
    by_cases hloop : t.2.1 = u
    · exact Or.inl ⟨[], t, ts, u, rfl, rfl, hloop⟩
    have hne := hc.differ _ _ _ _ _ he (Ne.symm hloop) hlu hlv
    rcases ih hr' with ⟨p, t1, s, w, rfl, h3, h4⟩ | ⟨p, t1, t2, s, w, rfl, h3, h4⟩ | ⟨h3, h4⟩
    · exact Or.inl ⟨t :: p, t1, s, w, rfl, ⟨ht, h3⟩, h4⟩
    · exact Or.inr (Or.inl ⟨t :: p, t1, t2, s, w, rfl, ⟨ht, h3⟩, h4⟩)
    · by_cases hup : levelD g u ≤ levelD g t.2.1
      · right; right
        constructor
        · intro t' s' heq hlt
          cases heq
          omega
        · obtain ⟨w, l1, l2, e, h5, h6⟩ := h4
          refine ⟨w, t.1 :: l1, l2, by rw [List.map_cons, e]; rfl, ⟨t.2.1, he, ?_, h5⟩, h6⟩
          intro a b ha hb
          rwa [levelD_eq ha, levelD_eq hb] at hup
      · have hdown : levelD g t.2.1 < levelD g u := by omega
        have hstep : ∀ l, IsDown g t.2.1 l v → IsDown g u (t.1 :: l) v := by
          intro l hl
          refine ⟨t.2.1, he, ?_, hl⟩
          intro a b ha hb
          have := le_of_lt hdown
          rwa [levelD_eq ha, levelD_eq hb] at this
        have key : IsDown g t.2.1 (ts.map (·.1)) v ∨ ∃ t2 s, ts = t2 :: s ∧
            (t2.2.1 = t.2.1 ∨ levelD g t.2.1 < levelD g t2.2.1) := by
          cases ts with
          | nil => exact Or.inl hr'
          | cons t2 s =>
            by_cases hl2 : levelD g t2.2.1 < levelD g t.2.1
            · exact Or.inl (h3 t2 s rfl hl2)
            · by_cases heq : t2.2.1 = t.2.1
              · exact Or.inr ⟨t2, s, rfl, Or.inl heq⟩
              · refine Or.inr ⟨t2, s, rfl, Or.inr ?_⟩
                obtain ⟨h5, h6, _, _⟩ := (mem_outArcs hwf).mp hr'.1
                have hne2 := hc.differ _ _ _ _ _ ⟨h6, h5⟩ (Ne.symm heq) hlv
                  (level_ok hwf (hwf.ends_lt _ _ _ h6))
                omega
        rcases key with hd | ⟨t2, s, rfl, h5 | h5⟩
        · right; right
          refine ⟨fun _ _ _ _ => hstep _ hd, u, [], _, rfl, rfl, hstep _ hd⟩
        · exact Or.inl ⟨[t], t2, s, t.2.1, rfl, ⟨ht, rfl⟩, h5⟩
        · exact Or.inr (Or.inl ⟨[], t, t2, s, u, rfl, rfl, hdown, h5⟩)

theorem isRt_unique {out : Nat → List (Arc ℚ)} {u v w : Nat} {l : List (Arc ℚ)} (h : IsRt out u l v)
    (h' : IsRt out u l w) : v = w := by
  induction l generalizing u with
  | nil => exact Eq.trans (Eq.symm h) h'
  | cons t l ih => exact ih h.2 h'.2

theorem dm_erase (A B : Multiset Nat) (x : Nat) :
    Multiset.IsDershowitzMannaLT (A + B) (A + x ::ₘ B) :=
  ⟨A + B, 0, {x}, by simp, by simp, by rw [← Multiset.singleton_add, add_comm {x} B, add_assoc],
    by intro y hy; simp at hy⟩

/-- Every route can be replaced by one that goes up and then down. -/
theorem replace (hwf : g.WellFormed) (hw : ∀ m ∈ g.metrics, 0 ≤ dot al m) (hc : Contracted g al)
    (M : Multiset Nat) : ∀ u v ts, depths g ts = M → Rt g al u ts v →
      ∃ l', IsUpDown g u l' v ∧ routeCost g al l' ≤ cost ts := by
  refine (Multiset.wellFounded_isDershowitzMannaLT (α := Nat)).induction (C := fun M => ∀ u v ts,
    depths g ts = M → Rt g al u ts v → ∃ l', IsUpDown g u l' v ∧ routeCost g al l' ≤ cost ts) M ?_
  · intro M ih u v ts hM hr
    rcases valley_or hwf hc hr with ⟨p, t, s, w, rfl, h1, h2⟩ | ⟨p, t, t', s, w, rfl, h1, h2, h3⟩ | ⟨_, h⟩
    · obtain ⟨w', h3, h4, h5⟩ := isRt_append.mp hr
      have hw' : w' = w := isRt_unique h3 h1
      subst hw'
      rw [h2] at h5
      have hnew : Rt g al u (p ++ s) v := isRt_append.mpr ⟨_, h1, h5⟩
      obtain ⟨l', h6, h7⟩ := ih (depths g (p ++ s)) (by
        rw [← hM, depths_append, depths_append, depths_cons]
        exact dm_erase _ _ _) u v _ rfl hnew
      refine ⟨l', h6, le_trans h7 ?_⟩
      rw [cost_append, cost_append, cost_cons]
      have : 0 ≤ t.2.2 := by
        obtain ⟨_, _, ⟨m, hm, e⟩, _⟩ := (mem_outArcs hwf).mp h4
        rw [e]; exact hw m (List.mem_of_getElem? hm)
      linarith
    · obtain ⟨w', h4, h5, h6, h7⟩ := isRt_append.mp hr
      have hw' : w' = w := isRt_unique h4 h1
      subst hw'
      obtain ⟨h8, h9, _, _⟩ := (mem_outArcs hwf).mp h5
      obtain ⟨h10, h11, _, _⟩ := (mem_outArcs hwf).mp h6
      obtain ⟨l, hl, hcost⟩ := hc.bypass t.1 t'.1 _ t.2.1 t'.2.1 _ _ _ ⟨h9, h8⟩ ⟨h11, h10⟩
        (level_ok hwf (hwf.ends_lt _ _ _ h8)) (level_ok hwf (hwf.ends_lt _ _ _ h9))
        (level_ok hwf (hwf.ends_lt _ _ _ h11)) h2 h3
      have hpair : cost [t, t'] = routeCost g al [t.1, t'.1] :=
        cost_eq hwf (d := .fwd) (isCh := false) (u := w') (v := t'.2.1) (ts := [t, t']) ⟨h5, h6, rfl⟩
      rw [← hpair] at hcost
      have hsplit : p ++ t :: t' :: s = p ++ ([t, t'] ++ s) := rfl
      rcases above_rt (al := al) hwf hl with ⟨rfl, e⟩ | ⟨xs, y, e1, e2, e3, e4⟩
      · have hnew : Rt g al u (p ++ s) v := isRt_append.mpr ⟨_, h1, e ▸ h7⟩
        obtain ⟨l', h12, h13⟩ := ih (depths g (p ++ s)) (by
          rw [← hM, depths_append, depths_append, depths_cons, depths_cons]
          exact (dm_erase _ _ _).trans (dm_erase _ _ _)) u v _ rfl hnew
        refine ⟨l', h12, le_trans h13 ?_⟩
        rw [hsplit, cost_append, cost_append, cost_append]
        have : routeCost g al [] = 0 := rfl
        linarith
      · have hnew : Rt g al u (p ++ ((xs ++ [y]) ++ s)) v :=
          isRt_append.mpr ⟨_, h1, isRt_append.mpr ⟨_, e2, h7⟩⟩
        obtain ⟨l', h12, h13⟩ := ih (depths g (p ++ ((xs ++ [y]) ++ s))) (by
          rw [← hM]
          simp only [depths_append, depths_cons]
          refine ⟨depths g p + (depth g t'.2.1 ::ₘ depths g s), depths g xs, {depth g t.2.1}, by simp, ?_, ?_, ?_⟩
          · have : depths g [] = 0 := rfl
            rw [this, e3, ← Multiset.singleton_add _ (depths g s), ← Multiset.singleton_add _ 0]
            abel
          · rw [← Multiset.singleton_add (depth g t.2.1), ← Multiset.singleton_add (depth g t'.2.1)]
            abel
          · intro x hx
            refine ⟨_, Multiset.mem_singleton_self _, ?_⟩
            obtain ⟨z, hz, rfl⟩ := List.mem_map.mp (Multiset.mem_coe.mp hx)
            exact depth_lt (e4 z hz)) u v _ rfl hnew
        refine ⟨l', h12, le_trans h13 ?_⟩
        have e5 : cost (xs ++ [y]) = routeCost g al l := by
          rw [cost_eq hwf e2, List.map_append, ← e1]; rfl
        rw [hsplit, cost_append, cost_append (xs ++ [y]), e5, cost_append p, cost_append [t, t']]
        linarith
    · exact ⟨_, h, by rw [← cost_eq hwf hr]⟩

theorem hierarchy_of_contracted (hwf : g.WellFormed) (hw : ∀ m ∈ g.metrics, 0 ≤ dot al m)
    (hc : Contracted g al) : Hierarchy g al := by
  intro u l v hl
  obtain ⟨ts, rfl, hts⟩ := route_fwd hwf (dot al) hl
  obtain ⟨l', h1, h2⟩ := replace hwf hw hc _ u v ts rfl hts
  exact ⟨l', h1, by rw [← cost_eq hwf hts]; exact h2⟩

end Verif.Dij
