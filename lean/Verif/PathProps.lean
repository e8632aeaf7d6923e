import Verif.Path
import Verif.RouteSpec
import Verif.BuildingProps
import Mathlib.Tactic.Ring
import Mathlib.Tactic.IntervalCases
import Mathlib.Data.List.Basic

/-!
# Properties of paths: C21, C22, C23
-/

namespace Verif.Path

open Graph (IsRoute Expands metric DimOk IsCost ShortcutsConnect ShortcutsAdd isRoute_append)

/-! ## Helpers -/

theorem expands_fun {g : Graph} {e : Nat} {l l' : List Nat} (h : Expands g e l)
    (h' : Expands g e l') : l = l' := by
  induction h generalizing l' with
  | plain h1 =>
    cases h' with
    | plain => rfl
    | shortcut h2 => rw [h1] at h2; cases h2
  | shortcut h1 _ _ iha ihb =>
    cases h' with
    | plain h2 => rw [h1] at h2; cases h2
    | shortcut h2 ha hb =>
      rw [h1] at h2; cases h2
      rw [iha ha, ihb hb]

theorem expands_ne_nil {g : Graph} {e : Nat} {l : List Nat} (h : Expands g e l) : l ≠ [] := by
  induction h with
  | plain => simp
  | shortcut _ _ _ iha _ => simp [iha]

theorem expands_plain {g : Graph} {e : Nat} {l : List Nat} (h : Expands g e l) :
    ∀ x ∈ l, g.scEdgesOf x = .ok none := by
  induction h with
  | plain h1 => simpa using h1
  | shortcut _ _ _ iha ihb =>
    intro x hx
    rcases List.mem_append.mp hx with hx | hx
    · exact iha x hx
    · exact ihb x hx

/-- Costs after pushing the edges `l`. -/
def addAll (g : Graph) (c : List ℚ) (l : List Nat) : List ℚ :=
  l.foldl (fun c e => vaddAssign c ((g.metrics[e]?).getD [])) c

theorem addAll_append (g : Graph) (c : List ℚ) (l l' : List Nat) :
    addAll g c (l ++ l') = addAll g (addAll g c l) l' := by
  simp [addAll, List.foldl_append]

theorem length_vaddAssign (a b : List ℚ) : (vaddAssign a b).length = a.length := by
  induction a generalizing b with
  | nil => simp [vaddAssign]
  | cons x a ih => cases b <;> simp [vaddAssign, ih]

theorem getElem?_vaddAssign (a b : List ℚ) (k : Nat) :
    (vaddAssign a b)[k]? = a[k]?.map (· + b[k]?.getD 0) := by
  induction a generalizing b k with
  | nil => simp [vaddAssign]
  | cons x a ih =>
    cases b with
    | nil => simp [vaddAssign]
    | cons y b =>
      cases k with
      | zero => simp [vaddAssign]
      | succ k => simp [vaddAssign, ih]

theorem length_addAll (g : Graph) (c : List ℚ) (l : List Nat) :
    (addAll g c l).length = c.length := by
  induction l generalizing c with
  | nil => rfl
  | cons e l ih =>
    have : addAll g c (e :: l) = addAll g (vaddAssign c ((g.metrics[e]?).getD [])) l := rfl
    rw [this, ih, length_vaddAssign]

theorem getElem?_addAll (g : Graph) (c : List ℚ) (l : List Nat) (k : Nat) :
    (addAll g c l)[k]? = c[k]?.map (· + (l.map (fun e => metric g e k)).sum) := by
  induction l generalizing c with
  | nil => cases h : c[k]? <;> simp [addAll, h]
  | cons e l ih =>
    have : addAll g c (e :: l) = addAll g (vaddAssign c ((g.metrics[e]?).getD [])) l := rfl
    rw [this, ih, getElem?_vaddAssign]
    cases h : c[k]? with
    | none => simp
    | some x => simp [metric, add_assoc]

theorem isCost_addAll (g : Graph) (l : List Nat) : IsCost g l (addAll g (List.replicate g.dim 0) l) := by
  refine ⟨by rw [length_addAll, List.length_replicate], fun k hk => ?_⟩
  rw [getElem?_addAll, List.getElem?_replicate, if_pos hk]
  simp

theorem isCost_unique {g : Graph} {l : List Nat} {c c' : List ℚ} (h : IsCost g l c)
    (h' : IsCost g l c') : c = c' := by
  apply List.ext_getElem?
  intro k
  by_cases hk : k < g.dim
  · rw [h.2 k hk, h'.2 k hk]
  · rw [List.getElem?_eq_none (by rw [h.1]; omega), List.getElem?_eq_none (by rw [h'.1]; omega)]

/-- A finished machine has replaced every edge by what it stands for. -/
theorem flatGo_ok {g : Graph} {fuel : Nat} {cur : Option Nat} {stack out : List Nat}
    {costs : List ℚ} {out' : List Nat} {costs' : List ℚ}
    (h : flatGo g fuel cur stack out costs = some (.ok (out', costs'))) :
    ∃ ls, List.Forall₂ (Expands g) (cur.toList ++ stack) ls ∧ out' = out ++ ls.flatten ∧
      costs' = addAll g costs ls.flatten ∧ ∀ x ∈ ls.flatten, x < g.metrics.length := by
  induction fuel generalizing cur stack out costs with
  | zero => simp [flatGo] at h
  | succ n ih =>
    cases cur with
    | none =>
      cases stack with
      | nil =>
        simp only [flatGo, Option.some.injEq, Res.ok.injEq, Prod.mk.injEq] at h
        exact ⟨[], by simp, by simp [h.1], by simp [addAll, h.2], by simp⟩
      | cons e stack =>
        simp only [flatGo] at h
        obtain ⟨ls, h1, h2⟩ := ih h
        exact ⟨ls, by simpa using h1, h2⟩
    | some e =>
      simp only [flatGo] at h
      cases hsc : g.scEdgesOf e with
      | err x => simp [hsc] at h
      | panic => simp [hsc] at h
      | ok o =>
        cases o with
        | none =>
          simp only [hsc] at h
          cases hm : g.metrics[e]? with
          | none => simp [hm] at h
          | some m =>
            simp only [hm] at h
            obtain ⟨ls, h1, h2, h3, h4⟩ := ih h
            refine ⟨[e] :: ls, ?_, ?_, ?_, ?_⟩
            · simp only [Option.toList_some, List.singleton_append]
              exact .cons (.plain hsc) (by simpa using h1)
            · rw [h2]; simp
            · rw [h3]; simp [addAll, hm]
            · intro x hx
              simp only [List.flatten_cons, List.singleton_append, List.mem_cons] at hx
              rcases hx with rfl | hx
              · exact (List.getElem?_eq_some_iff.mp hm).1
              · exact h4 x hx
        | some p =>
          obtain ⟨a, b⟩ := p
          simp only [hsc] at h
          split at h
          · cases h
          · obtain ⟨ls, h1, h2, h3⟩ := ih h
            simp only [Option.toList_some, List.singleton_append] at h1
            cases h1 with
            | @cons _ la _ _ ha h1 =>
              cases h1 with
              | @cons _ lb _ ls hb h1 =>
                refine ⟨(la ++ lb) :: ls, ?_, ?_, ?_⟩
                · exact .cons (.shortcut hsc ha hb) h1
                · rw [h2]; simp
                · simpa using h3

/-- Expanding one edge takes some number of steps and ends in the cycle error or with the plain edges
pushed. -/
theorem flatGo_expand {g : Graph} {e : Nat} {l : List Nat} (h : Expands g e l)
    (hm : ∀ x ∈ l, x < g.metrics.length) :
    ∃ k, ∀ fuel stack out costs,
      flatGo g (fuel + k) (some e) stack out costs = some (.err .cycle) ∨
      flatGo g (fuel + k) (some e) stack out costs =
        flatGo g fuel none stack (out ++ l) (addAll g costs l) := by
  induction h with
  | @plain e h1 =>
    refine ⟨1, fun fuel stack out costs => Or.inr ?_⟩
    have := hm e (by simp)
    simp [flatGo, h1, List.getElem?_eq_getElem this, addAll]
  | @shortcut e a b la lb h1 ha hb iha ihb =>
    obtain ⟨ka, hka⟩ := iha (fun x hx => hm x (by simp [hx]))
    obtain ⟨kb, hkb⟩ := ihb (fun x hx => hm x (by simp [hx]))
    refine ⟨kb + 1 + ka + 1, fun fuel stack out costs => ?_⟩
    have hs : flatGo g (fuel + (kb + 1 + ka + 1)) (some e) stack out costs =
        if (b :: stack).length > g.edgeCount then some (.err .cycle)
        else flatGo g (fuel + kb + 1 + ka) (some a) (b :: stack) out costs := by
      rw [show fuel + (kb + 1 + ka + 1) = (fuel + kb + 1 + ka) + 1 by omega]
      simp [flatGo, h1]
    rw [hs]
    split
    · exact Or.inl rfl
    · rcases hka (fuel + kb + 1) (b :: stack) out costs with h2 | h2
      · exact Or.inl h2
      · rw [h2]
        have : flatGo g (fuel + kb + 1) none (b :: stack) (out ++ la) (addAll g costs la) =
            flatGo g (fuel + kb) (some b) stack (out ++ la) (addAll g costs la) := rfl
        rw [this]
        rcases hkb fuel stack (out ++ la) (addAll g costs la) with h3 | h3
        · exact Or.inl h3
        · right; rw [h3, List.append_assoc, addAll_append]

/-- Distinct plain edges imply distinct stacked edges. -/
theorem nodup_of_expands {g : Graph} {st : List Nat} {ls : List (List Nat)}
    (h : List.Forall₂ (Expands g) st ls) (hn : ls.flatten.Nodup) : st.Nodup := by
  induction h with
  | nil => simp
  | @cons e l st ls he hst ih =>
    rw [List.flatten_cons, List.nodup_append] at hn
    refine List.nodup_cons.mpr ⟨fun hmem => ?_, ih hn.2.1⟩
    have : l ∈ ls := by
      clear ih
      induction hst with
      | nil => cases hmem
      | @cons e' l' st ls he' hst ih' =>
        rcases List.mem_cons.mp hmem with rfl | hm
        · rw [expands_fun he he']; simp
        · have := ih' ⟨hn.1, (List.nodup_append.mp (by simpa using hn.2.1)).2.1,
            fun a ha b hb => hn.2.2 a ha b (by simp [hb])⟩ hm
          simp [this]
    cases hl : l with
    | nil => exact expands_ne_nil he hl
    | cons x l' =>
      have hx : x ∈ l := by rw [hl]; simp
      exact hn.2.2 x hx x (List.mem_flatten.mpr ⟨l, this, hx⟩) rfl

theorem length_le_of_nodup_lt {l : List Nat} {n : Nat} (hn : l.Nodup) (hl : ∀ x ∈ l, x < n) :
    l.length ≤ n := by
  have hsub : l ⊆ List.range n := fun x hx => List.mem_range.mpr (hl x hx)
  have := (List.subperm_of_subset hn hsub).length_le
  simpa using this

/-- If all plain edges are distinct the cycle check never fires. -/
theorem flatGo_expand_ok {g : Graph} (hr : ∀ e a b, g.scEdgesOf e = .ok (some (a, b)) →
      a < g.edgeCount ∧ b < g.edgeCount) {e : Nat} {l : List Nat} (h : Expands g e l)
    (hm : ∀ x ∈ l, x < g.metrics.length) :
    ∃ k, ∀ fuel stack out costs ls, List.Forall₂ (Expands g) stack ls → (l ++ ls.flatten).Nodup →
      (∀ x ∈ stack, x < g.edgeCount) →
      flatGo g (fuel + k) (some e) stack out costs =
        flatGo g fuel none stack (out ++ l) (addAll g costs l) := by
  induction h with
  | @plain e h1 =>
    refine ⟨1, fun fuel stack out costs ls _ _ _ => ?_⟩
    have := hm e (by simp)
    simp [flatGo, h1, List.getElem?_eq_getElem this, addAll]
  | @shortcut e a b la lb h1 ha hb iha ihb =>
    obtain ⟨ka, hka⟩ := iha (fun x hx => hm x (by simp [hx]))
    obtain ⟨kb, hkb⟩ := ihb (fun x hx => hm x (by simp [hx]))
    refine ⟨kb + 1 + ka + 1, fun fuel stack out costs ls hst hn hlt => ?_⟩
    have hab := hr e a b h1
    have hall : List.Forall₂ (Expands g) (a :: b :: stack) (la :: lb :: ls) := .cons ha (.cons hb hst)
    have hnd := nodup_of_expands hall (by simpa using hn)
    have hlen := length_le_of_nodup_lt hnd (n := g.edgeCount) (by
      intro x hx
      simp only [List.mem_cons] at hx
      rcases hx with rfl | rfl | hx
      · exact hab.1
      · exact hab.2
      · exact hlt x hx)
    have hs : flatGo g (fuel + (kb + 1 + ka + 1)) (some e) stack out costs =
        flatGo g (fuel + kb + 1 + ka) (some a) (b :: stack) out costs := by
      rw [show fuel + (kb + 1 + ka + 1) = (fuel + kb + 1 + ka) + 1 by omega]
      simp only [flatGo, h1]
      rw [if_neg]
      simp only [List.length_cons] at hlen ⊢
      omega
    rw [hs, hka (fuel + kb + 1) (b :: stack) out costs (lb :: ls) (.cons hb hst)
      (by simpa using hn) (by
        intro x hx
        rcases List.mem_cons.mp hx with rfl | hx
        · exact hab.2
        · exact hlt x hx)]
    have : flatGo g (fuel + kb + 1) none (b :: stack) (out ++ la) (addAll g costs la) =
        flatGo g (fuel + kb) (some b) stack (out ++ la) (addAll g costs la) := rfl
    rw [this, hkb fuel stack _ _ ls hst (by
      rw [List.append_assoc] at hn
      exact (List.nodup_append.mp hn).2.1) hlt, List.append_assoc, addAll_append]

theorem flatGo_stack_ok {g : Graph} (hr : ∀ e a b, g.scEdgesOf e = .ok (some (a, b)) →
      a < g.edgeCount ∧ b < g.edgeCount) {stack : List Nat} {ls : List (List Nat)}
    (h : List.Forall₂ (Expands g) stack ls) (hm : ∀ x ∈ ls.flatten, x < g.metrics.length)
    (hn : ls.flatten.Nodup) (hlt : ∀ x ∈ stack, x < g.edgeCount) :
    ∃ k, ∀ fuel out costs, flatGo g (fuel + k) none stack out costs =
      some (.ok (out ++ ls.flatten, addAll g costs ls.flatten)) := by
  induction h with
  | nil => exact ⟨1, fun fuel out costs => by simp [flatGo, addAll]⟩
  | @cons e l stack ls he hst ih =>
    simp only [List.flatten_cons] at hm hn ⊢
    obtain ⟨k, hk⟩ := ih (fun x hx => hm x (by simp [hx])) (List.nodup_append.mp hn).2.1
      (fun x hx => hlt x (by simp [hx]))
    obtain ⟨k', hk'⟩ := flatGo_expand_ok hr he (fun x hx => hm x (by simp [hx]))
    refine ⟨k + k' + 1, fun fuel out costs => ?_⟩
    have : flatGo g (fuel + (k + k' + 1)) none (e :: stack) out costs =
        flatGo g (fuel + k + k') (some e) stack out costs := by
      rw [show fuel + (k + k' + 1) = (fuel + k + k') + 1 by omega]
      rfl
    rw [this, hk' (fuel + k) stack out costs ls hst hn (fun x hx => hlt x (by simp [hx])), hk fuel,
      List.append_assoc, addAll_append]

theorem flatGo_stack {g : Graph} {pre : List Nat} {ls : List (List Nat)} (post : List Nat)
    (h : List.Forall₂ (Expands g) pre ls) (hm : ∀ x ∈ ls.flatten, x < g.metrics.length) :
    ∃ k, ∀ fuel out costs,
      flatGo g (fuel + k) none (pre ++ post) out costs = some (.err .cycle) ∨
      flatGo g (fuel + k) none (pre ++ post) out costs =
        flatGo g fuel none post (out ++ ls.flatten) (addAll g costs ls.flatten) := by
  induction h with
  | nil => exact ⟨0, fun fuel out costs => Or.inr (by simp [addAll])⟩
  | @cons e l stack ls he hst ih =>
    simp only [List.flatten_cons] at hm ⊢
    obtain ⟨k, hk⟩ := ih (fun x hx => hm x (by simp [hx]))
    obtain ⟨k', hk'⟩ := flatGo_expand he (fun x hx => hm x (by simp [hx]))
    refine ⟨k + k' + 1, fun fuel out costs => ?_⟩
    have : flatGo g (fuel + (k + k' + 1)) none (e :: stack ++ post) out costs =
        flatGo g (fuel + k + k') (some e) (stack ++ post) out costs := by
      rw [show fuel + (k + k' + 1) = (fuel + k + k') + 1 by omega]
      rfl
    rw [this]
    rcases hk' (fuel + k) (stack ++ post) out costs with h1 | h1
    · exact Or.inl h1
    · rw [h1]
      rcases hk fuel (out ++ l) (addAll g costs l) with h2 | h2
      · exact Or.inl h2
      · right; rw [h2, List.append_assoc, addAll_append]

theorem tryFlatten_ok_iff {g : Graph} {fuel : Nat} {p q : Path} :
    tryFlatten g fuel p = some (.ok q) ↔ ∃ es c,
      flatGo g fuel none p.edges [] (List.replicate g.dim 0) = some (.ok (es, c)) ∧
      q = { p with edges := es, costs := some c } := by
  unfold tryFlatten
  cases h : flatGo g fuel none p.edges [] (List.replicate g.dim 0) with
  | none => simp
  | some r =>
    cases r with
    | ok a => simp only [Option.map_some, Res.ok_bind, Res.pure_eq, Option.some.injEq, Res.ok.injEq]
              constructor
              · intro h; exact ⟨a.1, a.2, rfl, h.symm⟩
              · rintro ⟨es, c, rfl, rfl⟩; rfl
    | err e => simp
    | panic => simp

theorem route_expand {g : Graph} (hc : ShortcutsConnect g) {e : Nat} {l : List Nat}
    (h : Expands g e l) {u v : Nat} (he : g.IsEdge e u v) : IsRoute g u l v := by
  induction h generalizing u v with
  | plain => exact ⟨v, he, rfl⟩
  | shortcut h1 _ _ iha ihb =>
    obtain ⟨w, ha, hb⟩ := hc _ _ _ _ _ h1 he
    exact isRoute_append.mpr ⟨w, iha ha, ihb hb⟩

theorem cost_expand {g : Graph} (hc : ShortcutsAdd g) {e : Nat} {l : List Nat}
    (h : Expands g e l) {k : Nat} (hk : k < g.dim) :
    (l.map (fun e => metric g e k)).sum = metric g e k := by
  induction h with
  | plain => simp
  | shortcut h1 _ _ iha ihb =>
    rw [List.map_append, List.sum_append, iha, ihb, hc _ _ _ h1 k hk]

/-! ## C21 -/

/-- Flattening replaces every edge by the plain edges it stands for and sums up their metrics.
Everything else of the path is unchanged. -/
theorem C21_expansion {g : Graph} {fuel : Nat} {p q : Path}
    (h : tryFlatten g fuel p = some (.ok q)) :
    ∃ ls, List.Forall₂ (Expands g) p.edges ls ∧ q.edges = ls.flatten ∧
      q.srcIdx = p.srcIdx ∧ q.srcId = p.srcId ∧ q.dstIdx = p.dstIdx ∧ q.dstId = p.dstId ∧
      ∃ c, q.costs = some c ∧ IsCost g q.edges c := by
  obtain ⟨es, c, hf, rfl⟩ := tryFlatten_ok_iff.mp h
  obtain ⟨ls, h1, h2, h3, -⟩ := flatGo_ok hf
  refine ⟨ls, by simpa using h1, by simpa using h2, rfl, rfl, rfl, rfl, c, rfl, ?_⟩
  rw [List.nil_append] at h2
  rw [h3, ← h2]
  exact isCost_addAll g es

/-- A flattened path contains no shortcut. -/
theorem C21_no_shortcut {g : Graph} {fuel : Nat} {p q : Path}
    (h : tryFlatten g fuel p = some (.ok q)) : ∀ e ∈ q.edges, g.scEdgesOf e = .ok none := by
  obtain ⟨ls, h1, h2, -⟩ := C21_expansion h
  intro e he
  rw [h2] at he
  obtain ⟨l, hl, hel⟩ := List.mem_flatten.mp he
  clear h2 he h
  generalize p.edges = es at h1
  induction h1 with
  | nil => cases hl
  | cons hx _ ih =>
    rcases List.mem_cons.mp hl with rfl | hl
    · exact expands_plain hx e hel
    · exact ih hl

/-- The flattened path connects the same nodes if every shortcut leads where its edges lead. -/
theorem C21_route {g : Graph} (hc : ShortcutsConnect g) {fuel : Nat} {p q : Path}
    (h : tryFlatten g fuel p = some (.ok q)) {u v : Nat} (hp : IsRoute g u p.edges v) :
    IsRoute g u q.edges v := by
  obtain ⟨ls, h1, h2, -⟩ := C21_expansion h
  rw [h2]
  clear h2 h
  generalize p.edges = es at h1 hp
  induction h1 generalizing u with
  | nil => exact hp
  | cons hx _ ih =>
    obtain ⟨w, he, hr⟩ := hp
    rw [List.flatten_cons]
    exact isRoute_append.mpr ⟨w, route_expand hc hx he, ih hr⟩

/-- The costs are unchanged if every shortcut costs what its edges cost. -/
theorem C21_costs {g : Graph} (hc : ShortcutsAdd g) {fuel : Nat} {p q : Path}
    (h : tryFlatten g fuel p = some (.ok q)) {c : List ℚ} (hp : IsCost g p.edges c) :
    q.costs = some c := by
  obtain ⟨ls, h1, h2, -, -, -, -, c', hc', hq⟩ := C21_expansion h
  rw [hc', Option.some.injEq]
  refine isCost_unique (l := p.edges) ⟨hq.1, fun k hk => ?_⟩ hp
  rw [hq.2 k hk, h2]
  congr 1
  clear h2 h hp hq hc'
  generalize p.edges = es at h1
  induction h1 with
  | nil => rfl
  | cons hx _ ih =>
    rw [List.flatten_cons, List.map_append, List.sum_append, ih, List.map_cons, List.sum_cons,
      cost_expand hc hx hk]

/-- Flattening succeeds, without panic or error, if the shortcuts are not cyclic (every edge stands
for some plain edges) and the resulting route visits no edge twice. -/
theorem C21_succeeds {g : Graph} (hmet : g.metrics.length = g.edgeCount)
    (hr : ∀ e a b, g.scEdgesOf e = .ok (some (a, b)) → a < g.edgeCount ∧ b < g.edgeCount)
    (hcnt : ∀ e o, g.scEdgesOf e = .ok o → e < g.edgeCount)
    {p : Path} {ls : List (List Nat)} (hx : List.Forall₂ (Expands g) p.edges ls)
    (hn : ls.flatten.Nodup) :
    ∃ k, ∀ fuel, ∃ q, tryFlatten g (fuel + k) p = some (.ok q) ∧ q.edges = ls.flatten := by
  have hlt : ∀ {st : List Nat} {ls : List (List Nat)}, List.Forall₂ (Expands g) st ls →
      (∀ x ∈ st, x < g.edgeCount) ∧ ∀ x ∈ ls.flatten, x < g.edgeCount := by
    intro st ls h
    induction h with
    | nil => simp
    | cons he _ ih =>
      constructor
      · intro x hx
        rcases List.mem_cons.mp hx with rfl | hx
        · cases he with
          | plain h1 => exact hcnt _ _ h1
          | shortcut h1 => exact hcnt _ _ h1
        · exact ih.1 x hx
      · intro x hx
        rw [List.flatten_cons] at hx
        rcases List.mem_append.mp hx with hx | hx
        · exact hcnt _ _ (expands_plain he x hx)
        · exact ih.2 x hx
  obtain ⟨k, hk⟩ := flatGo_stack_ok hr hx (by rw [hmet]; exact (hlt hx).2) hn (hlt hx).1
  refine ⟨k, fun fuel => ⟨_, tryFlatten_ok_iff.mpr ⟨_, _, hk fuel _ _, rfl⟩, by simp⟩⟩

/-- In a built graph, flattening succeeds for every path that stands for a route without repeated
edges. -/
theorem C21_built_succeeds {dim : Nat} {es : List Build.ProtoEdge} {ns : List Build.ProtoNode}
    {g : Graph} (hb : Build.build dim es ns = .ok g) {p : Path} {ls : List (List Nat)}
    (hx : List.Forall₂ (Expands g) p.edges ls) (hn : ls.flatten.Nodup) :
    ∃ k, ∀ fuel, ∃ q, tryFlatten g (fuel + k) p = some (.ok q) ∧ q.edges = ls.flatten :=
  C21_succeeds (Build.built_wellFormed hb).metrics_len (fun _ _ _ h => Build.C09_in_range hb h)
    (Build.built_wellFormed hb).sc_len hx hn

/-- Flattening twice equals flattening once: a path of plain edges stays as it is. -/
theorem C21_idempotent {g : Graph} {fuel fuel' : Nat} {p q r : Path}
    (h : tryFlatten g fuel p = some (.ok q)) (h' : tryFlatten g fuel' q = some (.ok r)) : r = q := by
  have hplain := C21_no_shortcut h
  obtain ⟨-, -, -, -, -, -, -, c, hc, hcost⟩ := C21_expansion h
  obtain ⟨ls, h1, h2, h3, h4, h5, h6, c', hc', hcost'⟩ := C21_expansion h'
  have hes : r.edges = q.edges := by
    rw [h2]
    clear h2 hcost hcost' h' h
    generalize q.edges = es at h1 hplain
    induction h1 with
    | nil => rfl
    | @cons e l es ls hx _ ih =>
      rw [List.flatten_cons, ih (fun e he => hplain e (by simp [he])),
        expands_fun hx (.plain (hplain e (by simp)))]
      rfl
  rw [hes] at hcost'
  have := isCost_unique hcost' hcost
  cases r; cases q
  simp_all

/-- ... and flattening a flattened path does succeed. -/
theorem C21_flat_succeeds {g : Graph} {fuel : Nat} {p q : Path}
    (h : tryFlatten g fuel p = some (.ok q)) : ∃ fuel', tryFlatten g fuel' q = some (.ok q) := by
  have hplain := C21_no_shortcut h
  obtain ⟨es, c, hf, hq⟩ := tryFlatten_ok_iff.mp h
  obtain ⟨ls, -, h2, -, h4⟩ := flatGo_ok hf
  rw [List.nil_append] at h2
  have hqe : q.edges = es := by rw [hq]
  have hm : ∀ x ∈ q.edges, x < g.metrics.length := by rw [hqe, h2]; exact h4
  have key : ∀ (st : List Nat), (∀ x ∈ st, g.scEdgesOf x = .ok none) →
      (∀ x ∈ st, x < g.metrics.length) → ∀ out costs, ∃ k r,
      flatGo g k none st out costs = some (.ok r) := by
    intro st
    induction st with
    | nil => intro _ _ out costs; exact ⟨1, (out, costs), rfl⟩
    | cons e st ih =>
      intro h1 h2 out costs
      obtain ⟨k, r, hk⟩ := ih (fun x hx => h1 x (by simp [hx])) (fun x hx => h2 x (by simp [hx]))
        (out ++ [e]) (vaddAssign costs (g.metrics[e]'(h2 e (by simp))))
      refine ⟨k + 2, r, ?_⟩
      simp only [flatGo, h1 e (by simp), List.getElem?_eq_getElem (h2 e (by simp))]
      exact hk
  obtain ⟨k, r, hk⟩ := key q.edges hplain hm [] (List.replicate g.dim 0)
  have hr : tryFlatten g k q = some (.ok { q with edges := r.1, costs := some r.2 }) :=
    tryFlatten_ok_iff.mpr ⟨_, _, hk, rfl⟩
  exact ⟨k, by rw [hr, C21_idempotent h hr]⟩

/-- A sample with nested shortcuts: 0, 1, 2 are plain, 3 = 0 1, 4 = 3 2. -/
def scGraph : Graph :=
  { nodeIds := [10, 20, 30, 40], nodeCoords := [⟨0, 0⟩, ⟨0, 0⟩, ⟨0, 0⟩, ⟨0, 0⟩],
    nodeLevels := [3, 0, 1, 2], fwdDsts := [1, 2, 3, 2, 3], fwdOffsets := [0, 3, 4, 5, 5],
    fwdMap := [0, 3, 4, 1, 2], bwdDsts := [0, 1, 2, 0, 0], bwdOffsets := [0, 0, 1, 3, 5],
    bwdMap := [0, 1, 3, 2, 4], metrics := [[1], [2], [3], [3], [6]], means := none,
    edgeIds := [none, none, none, none, none], idMap := [], scOffsets := [0, 0, 0, 0, 1, 2],
    scEdges := [(0, 1), (3, 2)], dim := 1 }

/-- The sample path. -/
def scPath : Path := Path.new 0 10 3 40 [4]

example : tryFlatten scGraph 100 scPath =
    some (.ok { scPath with edges := [0, 1, 2], costs := some [6] }) := by decide +kernel

theorem scGraph_sc {e a b : Nat} (h : scGraph.scEdgesOf e = .ok (some (a, b))) :
    (e = 3 ∧ a = 0 ∧ b = 1) ∨ (e = 4 ∧ a = 3 ∧ b = 2) := by
  by_cases he : e < 5
  · interval_cases e <;> revert h <;> (intro h; cases h <;> simp)
  · exfalso
    have : scGraph.scOffsets[e + 1]? = none := by
      rw [List.getElem?_eq_none]; simp [scGraph]; omega
    simp [Graph.scEdgesOf, Graph.isShortcut, this] at h

example : ShortcutsConnect scGraph ∧ ShortcutsAdd scGraph ∧ IsRoute scGraph 0 scPath.edges 3 ∧
    List.Forall₂ (Expands scGraph) scPath.edges [[0, 1, 2]] ∧ [[0, 1, 2]].flatten.Nodup := by
  refine ⟨?_, ?_, ⟨3, ⟨by decide, by decide⟩, rfl⟩, .cons ?_ .nil, by decide⟩
  · intro e a b u v h he
    rcases scGraph_sc h with ⟨rfl, rfl, rfl⟩ | ⟨rfl, rfl, rfl⟩
    · obtain ⟨h1, h2⟩ := he
      cases h1; cases h2
      exact ⟨1, ⟨by decide, by decide⟩, by decide, by decide⟩
    · obtain ⟨h1, h2⟩ := he
      cases h1; cases h2
      exact ⟨2, ⟨by decide, by decide⟩, by decide, by decide⟩
  · intro e a b h k hk
    have : k = 0 := by simp only [scGraph] at hk; omega
    subst this
    rcases scGraph_sc h with ⟨rfl, rfl, rfl⟩ | ⟨rfl, rfl, rfl⟩ <;> decide +kernel
  · exact .shortcut (la := [0, 1]) (lb := [2]) (a := 3) (b := 2) (by decide)
      (.shortcut (la := [0]) (lb := [1]) (a := 0) (b := 1) (by decide) (.plain (by decide))
        (.plain (by decide))) (.plain (by decide))

/-- Witness for `C21_false_acyclic_rejected`. -/
def loopGraph : Graph :=
  { nodeIds := [1], nodeCoords := [⟨0, 0⟩], nodeLevels := [0], fwdDsts := [0, 0, 0],
    fwdOffsets := [0, 3], fwdMap := [0, 1, 2], bwdDsts := [0, 0, 0], bwdOffsets := [0, 3],
    bwdMap := [0, 1, 2], metrics := [[1], [2], [4]], means := none,
    edgeIds := [none, none, none], idMap := [], scOffsets := [0, 0, 1, 2],
    scEdges := [(0, 0), (1, 1)], dim := 1 }

/-- C21 is false for routes that repeat edges: the shortcuts 2 = 1 1 and 1 = 0 0 are not cyclic, yet
flattening the path 2 2 2 2 ends with the cycle error. -/
theorem C21_false_acyclic_rejected :
    ∃ g, Build.build 1 [{ id := none, srcId := 1, dstId := 1, metrics := [1], sc := none },
                  { id := none, srcId := 1, dstId := 1, metrics := [2], sc := some (0, 0) },
                  { id := none, srcId := 1, dstId := 1, metrics := [4], sc := some (1, 1) }]
        [{ id := 1, coord := ⟨0, 0⟩, level := none }] = .ok g ∧
      (∃ l, Expands g 2 l) ∧ IsRoute g 0 [2, 2, 2, 2] 0 ∧
      tryFlatten g 100 (Path.new 0 1 0 1 [2, 2, 2, 2]) = some (.err .cycle) := by
  refine ⟨loopGraph, by decide +kernel, ?_, ?_, by decide +kernel⟩
  · have h0 : Expands loopGraph 0 [0] := .plain (by decide)
    have h1 : Expands loopGraph 1 ([0] ++ [0]) := .shortcut (a := 0) (b := 0) (by decide) h0 h0
    exact ⟨_, .shortcut (a := 1) (b := 1) (by decide) h1 h1⟩
  · exact ⟨0, ⟨by decide, by decide⟩, 0, ⟨by decide, by decide⟩, 0, ⟨by decide, by decide⟩, 0,
      ⟨by decide, by decide⟩, rfl⟩

/-! ## C22 -/

/-- Flattening never succeeds if an edge of the path stands for no plain edges, i.e. if its shortcut
references are cyclic. -/
theorem C22_cyclic_never_ok {g : Graph} {fuel : Nat} {p q : Path} {e : Nat} (he : e ∈ p.edges)
    (hcyc : ∀ l, ¬ Expands g e l) : tryFlatten g fuel p ≠ some (.ok q) := by
  intro h
  obtain ⟨ls, h1, -⟩ := C21_expansion h
  generalize p.edges = es at h1 he
  induction h1 with
  | nil => cases he
  | cons hx _ ih =>
    rcases List.mem_cons.mp he with rfl | he
    · exact hcyc _ hx
    · exact ih he

/-- Witness for `C22_false_diverges`. -/
def cycGraph : Graph :=
  { nodeIds := [1], nodeCoords := [⟨0, 0⟩], nodeLevels := [0], fwdDsts := [0, 0],
    fwdOffsets := [0, 2], fwdMap := [0, 1], bwdDsts := [0, 0], bwdOffsets := [0, 2],
    bwdMap := [0, 1], metrics := [[1], [2]], means := none,
    edgeIds := [none, none], idMap := [], scOffsets := [0, 0, 1],
    scEdges := [(0, 1)], dim := 1 }

/-- C22 is false: in this buildable graph edge 1 is a shortcut for edge 0 followed by itself.
Flattening a path over it never ends, however many steps are granted. -/
theorem C22_false_diverges :
    ∃ g, Build.build 1 [{ id := none, srcId := 1, dstId := 1, metrics := [1], sc := none },
                  { id := none, srcId := 1, dstId := 1, metrics := [2], sc := some (0, 1) }]
        [{ id := 1, coord := ⟨0, 0⟩, level := none }] = .ok g ∧
      ∀ fuel, tryFlatten g fuel (Path.new 0 1 0 1 [1]) = none := by
  refine ⟨cycGraph, by decide +kernel, ?_⟩
  have key : ∀ n fuel, fuel ≤ n → ∀ out costs, flatGo cycGraph fuel none [1] out costs = none := by
    intro n
    induction n with
    | zero => intro fuel hf out costs; have : fuel = 0 := by omega
              subst this; rfl
    | succ n ih =>
      intro fuel hf out costs
      match fuel with
      | 0 => rfl
      | 1 => rfl
      | 2 => rfl
      | f + 3 => exact ih f (by omega) _ _
  intro fuel
  unfold tryFlatten
  rw [Option.map_eq_none_iff]
  exact key fuel fuel le_rfl _ _

/-- C22 for cycles through the first replaced edge: if a path contains an edge all of whose successive
first replaced edges are shortcuts, flattening ends with an error. Missing: cycles that are only
reached through a second replaced edge (`C22_false_diverges`). -/
theorem C22_first_chain_partial {g : Graph} (hmet : g.metrics.length = g.edgeCount)
    (hcnt : ∀ e o, g.scEdgesOf e = .ok o → e < g.edgeCount) (P : Nat → Prop)
    (hP : ∀ e, P e → ∃ a b, g.scEdgesOf e = .ok (some (a, b)) ∧ P a)
    {p : Path} {pre post : List Nat} {e : Nat} (hp : p.edges = pre ++ e :: post) (he : P e)
    (hpre : ∀ x ∈ pre, ∃ l, Expands g x l) :
    ∃ k, ∀ fuel, tryFlatten g (fuel + k) p = some (.err .cycle) := by
  have hls : ∃ ls, List.Forall₂ (Expands g) pre ls ∧ ∀ x ∈ ls.flatten, x < g.metrics.length := by
    clear hp
    induction pre with
    | nil => exact ⟨[], .nil, by simp⟩
    | cons y pre ih =>
      obtain ⟨ls, h1, h2⟩ := ih (fun x hx => hpre x (by simp [hx]))
      obtain ⟨l, hl⟩ := hpre y (by simp)
      refine ⟨l :: ls, .cons hl h1, ?_⟩
      intro x hx
      rw [List.flatten_cons] at hx
      rcases List.mem_append.mp hx with hx | hx
      · rw [hmet]; exact hcnt _ _ (expands_plain hl x hx)
      · exact h2 x hx
  obtain ⟨ls, h1, h2⟩ := hls
  have key : ∀ n (st : List Nat) e, P e → g.edgeCount + 1 ≤ st.length + n → ∀ fuel out costs,
      flatGo g (fuel + n + 1) (some e) st out costs = some (.err .cycle) := by
    intro n
    induction n with
    | zero =>
      intro st e he hn fuel out costs
      obtain ⟨a, b, hab, -⟩ := hP e he
      simp only [flatGo, hab]
      rw [if_pos (by simp only [List.length_cons]; omega)]
    | succ n ih =>
      intro st e he hn fuel out costs
      obtain ⟨a, b, hab, ha⟩ := hP e he
      simp only [flatGo, hab]
      split
      · rfl
      · exact ih (b :: st) a ha (by simp only [List.length_cons]; omega) fuel out costs
  obtain ⟨k, hk⟩ := flatGo_stack (e :: post) h1 h2
  refine ⟨g.edgeCount + 1 + 1 + 1 + k, fun fuel => ?_⟩
  unfold tryFlatten
  rw [hp]
  have := hk (fuel + (g.edgeCount + 1 + 1 + 1)) [] (List.replicate g.dim 0)
  rw [show fuel + (g.edgeCount + 1 + 1 + 1 + k) = fuel + (g.edgeCount + 1 + 1 + 1) + k by omega]
  rcases this with h3 | h3
  · rw [h3]; rfl
  · rw [h3]
    have h4 := key (g.edgeCount + 1) post e he (by omega) fuel ([] ++ ls.flatten)
      (addAll g (List.replicate g.dim 0) ls.flatten)
    rw [show flatGo g (fuel + (g.edgeCount + 1 + 1 + 1)) none (e :: post) ([] ++ ls.flatten)
      (addAll g (List.replicate g.dim 0) ls.flatten) = flatGo g (fuel + (g.edgeCount + 1) + 1) (some e)
        post ([] ++ ls.flatten) (addAll g (List.replicate g.dim 0) ls.flatten) from rfl, h4]
    rfl

/-- A shortcut that replaces itself first is reported. -/
example : ∃ g, Build.build 1 [{ id := none, srcId := 1, dstId := 1, metrics := [1], sc := none },
                  { id := none, srcId := 1, dstId := 1, metrics := [2], sc := some (1, 0) }]
        [{ id := 1, coord := ⟨0, 0⟩, level := none }] = .ok g ∧ g.metrics.length = g.edgeCount ∧
      (∀ e, e = 1 → ∃ a b, g.scEdgesOf e = .ok (some (a, b)) ∧ a = 1) ∧
      tryFlatten g 10 (Path.new 0 1 0 1 [0, 1]) = some (.err .cycle) :=
  ⟨{ nodeIds := [1], nodeCoords := [⟨0, 0⟩], nodeLevels := [0], fwdDsts := [0, 0],
     fwdOffsets := [0, 2], fwdMap := [0, 1], bwdDsts := [0, 0], bwdOffsets := [0, 2],
     bwdMap := [0, 1], metrics := [[1], [2]], means := none, edgeIds := [none, none], idMap := [],
     scOffsets := [0, 0, 1], scEdges := [(1, 0)], dim := 1 }, by decide +kernel, rfl,
   fun e he => ⟨1, 0, by subst he; decide, rfl⟩, by decide +kernel⟩

/-! ## C23 -/

theorem vadd_eq_vaddAssign {a b : List ℚ} (h : a.length ≤ b.length) : vadd a b = vaddAssign a b := by
  induction a generalizing b with
  | nil => simp [vadd, vaddAssign]
  | cons x a ih =>
    cases b with
    | nil => simp at h
    | cons y b => simp only [vadd, vaddAssign, ih (by simpa using h)]

theorem sumMetrics_spec {g : Graph} (hd : DimOk g) {l : List Nat} (hl : ∀ e ∈ l, e < g.metrics.length)
    {acc : List ℚ} (ha : acc.length = g.dim) : sumMetrics g l acc = .ok (addAll g acc l) := by
  induction l generalizing acc with
  | nil => rfl
  | cons e l ih =>
    have he := hl e (by simp)
    have hm := hd _ (List.getElem_mem he)
    simp only [sumMetrics, List.getElem?_eq_getElem he, Res.ofIdx_some, Res.ok_bind]
    rw [vadd_eq_vaddAssign (by omega), ih (fun x hx => hl x (by simp [hx]))
      (by rw [length_vaddAssign, ha])]
    simp [addAll, List.getElem?_eq_getElem he]

/-- The calculated costs are the componentwise sums of the edges' metrics. -/
theorem C23_calc_costs {g : Graph} (hd : DimOk g) {p : Path}
    (hl : ∀ e ∈ p.edges, e < g.metrics.length) (hp : p.costs = none) :
    ∃ c, calcCosts g p = .ok { p with costs := some c } ∧ IsCost g p.edges c := by
  refine ⟨addAll g (List.replicate g.dim 0) p.edges, ?_, isCost_addAll g _⟩
  unfold calcCosts
  rw [hp, sumMetrics_spec hd hl (by simp)]
  rfl

/-- Calculating the costs panics if an edge does not exist. -/
theorem C23_panic {g : Graph} {p : Path} {e : Nat} (he : e ∈ p.edges) (hl : g.metrics.length ≤ e)
    (hp : p.costs = none) : calcCosts g p = .panic := by
  have key : ∀ (l : List Nat) acc, e ∈ l → sumMetrics g l acc = .panic := by
    intro l
    induction l with
    | nil => intro acc h; cases h
    | cons x l ih =>
      intro acc h
      unfold sumMetrics
      rcases List.mem_cons.mp h with rfl | h
      · rw [List.getElem?_eq_none hl]; rfl
      · cases hx : g.metrics[x]? with
        | none => rfl
        | some m => rw [Res.ofIdx_some, Res.ok_bind]; exact ih _ h
  unfold calcCosts
  rw [hp, key p.edges _ he]
  rfl

/-- The costs of a concatenation are the sum of the costs. -/
theorem C23_concat {g : Graph} {l l' : List Nat} {c c' c'' : List ℚ} (h : IsCost g l c)
    (h' : IsCost g l' c') (h'' : IsCost g (l ++ l') c'') : c'' = List.zipWith (· + ·) c c' := by
  apply List.ext_getElem?
  intro k
  rw [List.getElem?_zipWith]
  by_cases hk : k < g.dim
  · rw [h.2 k hk, h'.2 k hk, h''.2 k hk, List.map_append, List.sum_append]
  · rw [List.getElem?_eq_none (by rw [h''.1]; omega),
      List.getElem?_eq_none (l := c) (by rw [h.1]; omega)]

/-- Costs are calculated once: a second calculation, even with another graph, returns the first
result. -/
theorem C23_cached {g g' : Graph} {p q : Path} (h : calcCosts g p = .ok q) :
    calcCosts g' q = .ok q := by
  unfold calcCosts at h
  cases hp : p.costs with
  | some c => rw [hp] at h; cases h; simp [calcCosts, hp]
  | none =>
    rw [hp] at h
    obtain ⟨c, -, hc⟩ := Res.bind_eq_ok.mp h
    cases hc
    rfl

example : calcCosts scGraph scPath = .ok { scPath with costs := some [6] } ∧
    calcCosts scGraph (Path.new 0 10 3 40 [0, 1, 2]) =
      .ok { Path.new 0 10 3 40 [0, 1, 2] with costs := some [6] } := by decide +kernel

example : DimOk scGraph := by
  intro m hm
  simp only [scGraph, List.mem_cons, List.not_mem_nil, or_false] at hm
  rcases hm with rfl | rfl | rfl | rfl | rfl <;> rfl

/-! ## C26: exact comparison of vectors -/

/-- C26: the exact comparison of vectors holds iff no common component is greater. -/
theorem C26_vle (a b : List ℚ) :
    vle a b = true ↔ ∀ (i : ℕ) (x y : ℚ), a[i]? = some x → b[i]? = some y → x ≤ y := by
  have hf (l : List (ℚ × ℚ)) (c : Bool) :
      l.foldl (fun s p => s && decide (p.1 ≤ p.2)) c = (c && l.all fun p => decide (p.1 ≤ p.2)) := by
    induction l generalizing c with
    | nil => simp
    | cons p l ih => simp only [List.foldl_cons, ih, List.all_cons, Bool.and_assoc]
  unfold vle
  rw [hf, Bool.true_and, List.all_eq_true, ← Approx.mem_zip_iff_getElem]
  simp only [decide_eq_true_eq]

example : vle [1, 2] [1, 3] = true ∧ vle [1, 4] [1, 3] = false := by decide +kernel

end Verif.Path
