import Verif.VisualLemmas

/-!
# Lemmas about the iterations of the visualizer
-/

namespace Verif.Vis

open Text Cfg
open Gen (Net)
open Fmi

variable {c : Codec} {float : Text → Option ℚ} {sc d : Bool} {cols : List (Option Text)} {its : List Iteration}
  {results : Results}

/-- What is read for one iteration's workloads. -/
structure LoadsAt (sc : Bool) (ids : List Nat) (it : Iteration) (l : List Nat) : Prop where
  pairs : ∃ pairs : List (Nat × Nat), pairs.map Prod.fst = ids ∧ pairs.map Prod.snd = l ∧
    ∀ p ∈ pairs, ∃ e, HasId it.net sc e p.1 ∧ it.routes[e]? = some p.2

theorem LoadsAt.length {sc : Bool} {ids l : List Nat} {it : Iteration} (h : LoadsAt sc ids it l) :
    l.length = ids.length := by
  obtain ⟨pairs, rfl, rfl, -⟩ := h.pairs
  simp

theorem LoadsAt.get {sc : Bool} {ids l : List Nat} {it : Iteration} (h : LoadsAt sc ids it l) {k id : Nat}
    (hk : ids[k]? = some id) : ∃ e n, HasId it.net sc e id ∧ it.routes[e]? = some n ∧ l[k]? = some n := by
  obtain ⟨pairs, rfl, rfl, hp⟩ := h.pairs
  rw [List.getElem?_map, Option.map_eq_some_iff] at hk
  obtain ⟨p, hk, rfl⟩ := hk
  obtain ⟨e, h1, h2⟩ := hp p (List.mem_of_getElem? hk)
  exact ⟨e, p.2, h1, h2, by rw [List.getElem?_map, hk]; rfl⟩

theorem wrote_at {i : Nat} {it : Iteration} (hwr : List.Forall₂ (Wrote c sc d cols) its results)
    (hi : its[i]? = some it) : ∃ files, results[i]? = some files ∧ Wrote c sc d cols it files := by
  obtain ⟨hl, rfl⟩ := List.getElem?_eq_some_iff.mp hi
  have hl' : i < results.length := by rw [← hwr.length_eq]; exact hl
  exact ⟨results[i], List.getElem?_eq_getElem hl', (List.forall₂_iff_get.mp hwr).2 i hl hl'⟩

theorem loads_read {ids : List Nat} {it : Iteration} {files : Option (List Text) × Option (List Text)}
    (hw : it.net.graph.WellFormed) (hn : Named it.net.edges.cats cols) (hids : ids.Pairwise (· < ·)) (hall : ∀ id, id ∈ ids ↔ ∃ e, HasId it.net sc e id)
    (h : Wrote c sc d cols it files) : ∃ file l, files.2 = some file ∧ readWorkloads file = some l ∧
      LoadsAt sc ids it l := by
  obtain ⟨file, hf, ht⟩ := h.routes
  obtain ⟨rows, hr, hrows⟩ := workload_rows hn ht
  obtain ⟨h1, h2, h3⟩ := sort_rows (key := Prod.fst) (P := fun e p => it.routes[e]? = some p.2) hw hrows
  refine ⟨file, _, hf, by rw [readWorkloads, hr]; rfl, ⟨_, ?_, rfl, h3⟩⟩
  exact increasing_eq h1 hids fun x => (h2 x).trans (hall x).symm

theorem ids_exist (hw : ∀ it ∈ its, it.net.graph.WellFormed) (hn : ∀ it ∈ its, Named it.net.edges.cats cols)
    (hwr : List.Forall₂ (Wrote c sc d cols) its results) (hs : SameStreets sc its) : ∃ ids, Ids sc its ids := by
  cases its with
  | nil => exact ⟨[], .nil, by simp⟩
  | cons it its =>
    cases hwr with
    | cons h1 _ =>
      obtain ⟨file, -, ht⟩ := h1.routes
      obtain ⟨rows, -, hrows⟩ := workload_rows (hn it (by simp)) ht
      obtain ⟨h1, h2, -⟩ := sort_rows (key := Prod.fst) (P := fun e p => it.routes[e]? = some p.2)
        (hw it (by simp)) hrows
      refine ⟨_, h1, fun it' hit' id => (h2 id).trans ⟨?_, ?_⟩⟩
      · exact hs it (by simp) it' hit' id
      · exact hs it' hit' it (by simp) id

/-- What is read for one iteration. -/
structure Loaded (sc d : Bool) (its : List Iteration) (ids : List Nat) (i : Nat) (data : Data) : Prop where
  iteration : data.iteration = i
  sorted : data.streets.map Street.id = ids
  streets : ∀ it0, its[0]? = some it0 → ∀ s ∈ data.streets, ∃ e, HasId it0.net sc e s.id ∧ AtSource it0.net e s ∧
    Measured it0.net d e s
  workloads : ∀ it, its[i]? = some it → LoadsAt sc ids it data.workloads
  old : ∀ j it, i = j + 1 → its[j]? = some it → LoadsAt sc ids it data.old

theorem data_loaded (hf : ∀ x, float (c.printF x) = some x ∧ Plain (c.printF x))
    (hw : ∀ it ∈ its, it.net.graph.WellFormed) (hn : ∀ it ∈ its, Named it.net.edges.cats cols)
    (hwr : List.Forall₂ (Wrote c sc d cols) its results) {ids : List Nat} (hids : Ids sc its ids) :
    ∀ i, i < its.length → ∃ data, dataAt float results i = some data ∧ Loaded sc d its ids i data
  | 0, hi => by
    have h0 : its[0]? = some its[0] := List.getElem?_eq_getElem hi
    have hm : its[0] ∈ its := List.getElem_mem hi
    obtain ⟨files, hfiles, hwrote⟩ := wrote_at hwr h0
    obtain ⟨file, l, g1, g2, g3⟩ := loads_read (hw _ hm) (hn _ hm) hids.increasing (hids.all _ hm) hwrote
    obtain ⟨info, k1, k2⟩ := hwrote.info
    obtain ⟨rows, hr, hrows⟩ := streets_rows hf (hw _ hm) (hn _ hm) k2
    obtain ⟨h1, h2, h3⟩ := sort_rows (key := Street.id)
      (P := fun e s => AtSource its[0].net e s ∧ Measured its[0].net d e s) (hw _ hm) hrows
    refine ⟨{ iteration := 0, streets := stableSort (fun a b => decide (a.id ≤ b.id)) rows, old := [], workloads := l },
      ?_, ⟨rfl, increasing_eq h1 hids.increasing fun x => (h2 x).trans (hids.all _ hm x).symm, ?_, ?_, ?_⟩⟩
    · simp only [dataAt, first, hfiles, Option.bind_eq_bind, Option.bind_some, k1, g1, g2, readStreets, hr,
        Option.map_some]
      rfl
    · intro it0 hit
      rw [h0, Option.some.injEq] at hit
      subst hit
      exact h3
    · intro it hit
      rw [h0, Option.some.injEq] at hit
      subst hit
      exact g3
    · intro j it hj
      omega
  | i + 1, hi => by
    obtain ⟨data, hd, hload⟩ := data_loaded hf hw hn hwr hids i (by omega)
    have h0 : its[i + 1]? = some its[i + 1] := List.getElem?_eq_getElem hi
    have hm : its[i + 1] ∈ its := List.getElem_mem hi
    obtain ⟨files, hfiles, hwrote⟩ := wrote_at hwr h0
    obtain ⟨file, l, g1, g2, g3⟩ := loads_read (hw _ hm) (hn _ hm) hids.increasing (hids.all _ hm) hwrote
    refine ⟨{ data with iteration := i + 1, old := data.workloads, workloads := l }, ?_,
      ⟨rfl, hload.sorted, hload.streets, ?_, ?_⟩⟩
    · simp only [dataAt, hd, next, hload.iteration, hfiles, Option.bind_eq_bind, Option.bind_some, g1, g2]
      rfl
    · intro it hit
      rw [h0, Option.some.injEq] at hit
      subst hit
      exact g3
    · intro j it hj hit
      obtain rfl : i = j := by omega
      exact hload.workloads it hit

theorem foldl_max_spec (l : List Nat) : ∀ n, n ≤ l.foldl max n ∧ (∀ x ∈ l, x ≤ l.foldl max n) ∧
    (l.foldl max n = n ∨ l.foldl max n ∈ l) := by
  induction l with
  | nil => intro n; simp
  | cons a l ih =>
    intro n
    obtain ⟨h1, h2, h3⟩ := ih (max n a)
    simp only [List.foldl_cons, List.mem_cons, forall_eq_or_imp]
    refine ⟨by omega, ⟨by omega, h2⟩, ?_⟩
    rcases h3 with h3 | h3
    · rw [h3]
      rcases le_total n a with h | h
      · rw [max_eq_right h]; exact .inr (.inl rfl)
      · rw [max_eq_left h]; exact .inl rfl
    · exact .inr (.inr h3)

theorem maximum_spec {l : List Nat} (h : l ≠ []) : ∃ m, maximum l = some m ∧ m ∈ l ∧ ∀ x ∈ l, x ≤ m := by
  cases l with
  | nil => exact absurd rfl h
  | cons n l =>
    obtain ⟨h1, h2, h3⟩ := foldl_max_spec l n
    refine ⟨_, rfl, ?_, ?_⟩
    · rcases h3 with h3 | h3
      · rw [h3]; simp
      · exact List.mem_cons_of_mem _ h3
    · intro x hx
      rcases List.mem_cons.mp hx with rfl | hx
      · exact h1
      · exact h2 x hx

end Verif.Vis
