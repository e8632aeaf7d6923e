import Verif.RoutesLemmas
import Verif.FmiReadProps

/-!
# Properties of files of route-pairs (C34 - C36, C50, C59)
-/

namespace Verif.Routes

open Text
open Fmi (mapR IsComment functional)
open Dij (Used St computeBestPath Query NonnegMetrics AllCovered Hierarchy)
open Search (AddOk)

/-! ## C34 -/

theorem forall₂_mem_right {α β : Type} {R : α → β → Prop} {l : List α} {l' : List β} (h : List.Forall₂ R l l') {b : β}
    (hb : b ∈ l') : ∃ a ∈ l, R a b := by
  induction h with
  | nil => cases hb
  | @cons a x _ _ hr _ ih =>
    rcases List.mem_cons.mp hb with rfl | hb
    · exact ⟨a, by simp, hr⟩
    · obtain ⟨a', h1, h2⟩ := ih hb
      exact ⟨a', by simp [h1], h2⟩

theorem forall₂_mem_left {α β : Type} {R : α → β → Prop} {l : List α} {l' : List β} (h : List.Forall₂ R l l') {a : α}
    (ha : a ∈ l) : ∃ b ∈ l', R a b := by
  obtain ⟨b, h1, h2⟩ := forall₂_mem_right (List.Forall₂.flip h) ha
  exact ⟨b, h1, h2⟩

theorem readRoute_ok {line : Text} {r : Route} : readRoute line = .ok r ↔ Says line r := by
  unfold readRoute Says
  constructor
  · intro h
    split at h
    · rename_i a b c hw
      split at h
      · cases h
      · rename_i src h1
        split at h
        · cases h
        · rename_i dst h2
          split at h
          · cases h
          · rename_i n h3
            simp only [Res.ok.injEq] at h
            subst h
            exact ⟨a, b, c, hw, h1, h2, h3⟩
    · cases h
  · rintro ⟨a, b, c, hw, h1, h2, h3⟩
    rw [hw]
    simp only [maxI64, maxUsize, h1, h2, h3]

/-- C34: what is read from a written file are the written pairs in order, each with count one. -/
theorem C34_round_trip (mapFile : Text) (nodeCount edgeCount seed : Nat) {pairs : List (Int × Int)}
    (hfit : ∀ p ∈ pairs, FitsI64 p.1 ∧ FitsI64 p.2) (hlen : 24 * pairs.length < 2 ^ 63) :
    read (fileOf mapFile nodeCount edgeCount seed pairs) =
      .ok (pairs.map fun p => { src := p.1, dst := p.2, count := 1 }) := by
  have hline : ∀ p, isFunctional (routeLine p) = true := fun p => Fmi.line_functional (Fmi.cell_printInt _)
  have hcnt : isFunctional (printNat pairs.length) = true :=
    Fmi.line_functional (ts := []) (Fmi.cell_printNat _)
  have hf : (fileOf mapFile nodeCount edgeCount seed pairs).filter isFunctional =
      [] ++ printNat pairs.length :: pairs.map routeLine := by
    unfold fileOf
    rw [List.filter_append]
    have h1 : ∀ t, isFunctional ('#' :: t) = false := by intro t; simp [isFunctional]
    have h2 : isFunctional [] = false := rfl
    simp only [List.filter_cons, h1, h2, hcnt, Bool.false_eq_true, if_false, if_true, List.filter_nil,
      List.nil_append, List.singleton_append, List.cons.injEq, true_and]
    rw [List.filter_eq_self]
    intro line hl
    obtain ⟨p, _, rfl⟩ := List.mem_map.mp hl
    exact hline p
  have hw : ∀ p, words (routeLine p) = [printInt p.1, printInt p.2, printNat 1] := fun p =>
    Fmi.words_line (by
      simp only [List.mem_cons, List.not_mem_nil, or_false, forall_eq_or_imp, forall_eq]
      exact ⟨Fmi.cell_printInt _, Fmi.cell_printInt _, Fmi.cell_printNat _⟩)
  rw [read_of_parts hf (by simp) (Fmi.words_printNat _) (parseNat_printNat (by simp only [maxUsize]; omega)) ?_,
    if_neg (by simp only [maxRoutes]; omega), List.take_of_length_le (by simp), Fmi.mapR_ok]
  · rw [List.forall₂_map_left_iff, List.forall₂_map_right_iff, List.forall₂_same]
    intro p hp
    exact readRoute_routeLine (hfit p hp).1 (hfit p hp).2
  · intro line hl
    have : line ∈ pairs.map routeLine := List.mem_of_mem_head? hl
    obtain ⟨p, _, rfl⟩ := List.mem_map.mp this
    simp [hw]

example : read (fileOf "map.fmi".toList 3 4 42 [(-5, 7), (2, 9223372036854775807)]) =
    .ok [⟨-5, 7, 1⟩, ⟨2, 9223372036854775807, 1⟩] :=
  C34_round_trip _ 3 4 42 (by unfold FitsI64; decide) (by decide)

/-- C34 for a whole run of the writer. -/
theorem C34_written {K : Type} [LinearOrder K] [Zero K] [Add K] {e : Env K} {fuel : Nat} {mapFile : Text} {seed : Nat}
    {file : List Text} (hids : IdsFit e.graph) (hmax : 24 * e.maxCount < 2 ^ 63)
    (h : e.write fuel mapFile seed = some (.ok file)) :
    ∃ pairs, e.pairs fuel = some (.ok pairs) ∧
      read file = .ok (pairs.map fun p => { src := p.1, dst := p.2, count := 1 }) := by
  unfold Env.write at h
  obtain ⟨r, h1, h2⟩ := Option.map_eq_some_iff.mp h
  simp only [Res.bind_eq_ok, Res.pure_eq, Res.ok.injEq] at h2
  obtain ⟨pairs, rfl, rfl⟩ := h2
  refine ⟨pairs, h1, ?_⟩
  obtain ⟨w, ps, hi, _, _, rfl⟩ := pairs_ok h1
  refine C34_round_trip _ _ _ _ ?_ ?_
  · intro p hp
    have hp := mem_stableSort.mp hp
    obtain ⟨q, _, h3, h4⟩ := forall₂_mem_right hi.ids hp
    exact ⟨hids _ (List.mem_of_getElem? h3), hids _ (List.mem_of_getElem? h4)⟩
  · rw [(stableSort_perm w.found).length_eq, ← hi.ids.length_eq, ← hi.succ_eq]
    have h3 := hi.goal
    unfold Env.goal at h3
    omega

/-- C34, for files that have the announced number of lines: every announced line is read in order, or reading
fails because a line doesn't say a route. -/
theorem C34_takes_partial {file rest : List Text} {count : Nat} (h : Announces file count rest)
    (hlen : count ≤ rest.length) (hmax : 24 * count < 2 ^ 63) :
    (∃ routes, read file = .ok routes ∧ routes.length = count ∧ List.Forall₂ Says (rest.take count) routes) ∨
      (∃ err, read file = .err err) ∧ ∃ line ∈ rest.take count, ∀ r, ¬ Says line r := by
  obtain ⟨pre, cnt, p, h1, h2, h3, h4, h5⟩ := h
  rw [← Fmi.functional_eq] at h1
  have hr := read_of_parts h1 h2 h3 h4 h5
  rw [if_neg (by simp only [maxRoutes]; omega)] at hr
  rw [hr]
  by_cases hall : ∀ line ∈ rest.take count, ∃ r, Says line r
  · left
    obtain ⟨routes, hm⟩ := Fmi.mapR_total (f := readRoute) (fun line hl => (hall line hl).imp fun r => readRoute_ok.mpr)
    have hm' := Fmi.mapR_ok.mp hm
    refine ⟨routes, hm, ?_, hm'.imp fun _ _ => readRoute_ok.mp⟩
    rw [← hm'.length_eq, List.length_take]
    omega
  · right
    push Not at hall
    refine ⟨?_, hall⟩
    obtain ⟨line, hl, hno⟩ := hall
    generalize rest.take count = l at hl
    induction l with
    | nil => cases hl
    | cons a l ih =>
      rw [mapR]
      cases ha : readRoute a with
      | panic =>
        unfold readRoute at ha
        split at ha
        · split at ha
          · cases ha
          · split at ha
            · cases ha
            · split at ha <;> cases ha
        · cases ha
      | err x => exact ⟨x, rfl⟩
      | ok r =>
        rcases List.mem_cons.mp hl with rfl | hl
        · exact absurd (readRoute_ok.mp ha) (hno r)
        · obtain ⟨x, hx⟩ := ih hl
          exact ⟨x, by simp [hx]⟩

/-- A file with a line that isn't announced. -/
def exFile : List Text :=
  ["# comment".toList, "a b".toList, "2".toList, [], "1 2 3".toList, "-4 5 1".toList, "6 7 1".toList]

theorem exFile_announces : Announces exFile 2 ["1 2 3".toList, "-4 5 1".toList, "6 7 1".toList] :=
  ⟨["a b".toList], "2".toList, "2".toList, by decide +kernel, by decide +kernel, by decide +kernel, by decide +kernel,
    by decide +kernel⟩

example : (∃ routes, read exFile = .ok routes ∧ routes.length = 2 ∧
      List.Forall₂ Says ["1 2 3".toList, "-4 5 1".toList] routes) ∨
    (∃ err, read exFile = .err err) ∧ ∃ line ∈ ["1 2 3".toList, "-4 5 1".toList], ∀ r, ¬ Says line r :=
  C34_takes_partial exFile_announces (by decide) (by decide)

example : read exFile = .ok [⟨1, 2, 3⟩, ⟨-4, 5, 1⟩] := by decide +kernel

/-- C34 is false for files that have been cut off: fewer routes than announced are read without an error. -/
theorem C34_false_cut_off : Announces ["3".toList, "1 2 1".toList] 3 ["1 2 1".toList] ∧
    read ["3".toList, "1 2 1".toList] = .ok [⟨1, 2, 1⟩] :=
  ⟨⟨[], "3".toList, "3".toList, by decide +kernel, by decide +kernel, by decide +kernel, by decide +kernel,
    by decide +kernel⟩, by decide +kernel⟩

/-- Memory for all announced routes is requested, so announcing too many panics. -/
theorem C34_false_huge : read ["384307168202282326".toList, "1 2 1".toList] = .panic ∧
    read ["384307168202282325".toList, "1 2 1".toList] = .ok [⟨1, 2, 1⟩] := by
  decide +kernel

/-! ## C50 -/

/-- C50: comments and empty lines don't matter for files of route-pairs. -/
theorem C50_routes (a b : List Text) {line : Text} (h : line = [] ∨ IsComment line) :
    read (a ++ line :: b) = read (a ++ b) := by
  unfold read
  rw [Fmi.functional_eq, Fmi.functional_eq, Fmi.functional_insert h]

example : read (exFile.take 4 ++ "#1".toList :: exFile.drop 4) = .ok [⟨1, 2, 3⟩, ⟨-4, 5, 1⟩] := by
  rw [C50_routes _ _ (line := "#1".toList) (.inr rfl), List.take_append_drop]
  decide +kernel

/-! ## C36 -/

section
variable {K : Type} [LinearOrder K] [Zero K] [Add K] {e : Env K}

/-- What is drawn are nodes. -/
def Draws (e : Env K) : Prop := ∀ k, (e.draws k).1 < e.graph.nodeCount ∧ (e.draws k).2 < e.graph.nodeCount

theorem yes_connects (hwf : e.graph.WellFormed) (hk : AddOk K)
    (hw : ∀ m ∈ e.graph.metrics, 0 ≤ e.dotp e.alphas m) {p : Nat × Nat}
    (h1 : p.1 < e.graph.nodeCount) (h2 : p.2 < e.graph.nodeCount) (h : Yes e p) : ∃ l, e.graph.IsRoute p.1 l p.2 := by
  obtain ⟨s, s', path, hu, hc⟩ := h
  exact ⟨path.edges, (Dij.C13_route (q := e.query p) hwf hk hw h1 h2 hu hc).1⟩

/-- C36: whatever is drawn, the written pairs are at most as many as requested, connect different nodes by a
route, and are strictly ascending. So they are different. -/
theorem C36_sound (hwf : e.graph.WellFormed) (hk : AddOk K)
    (hw : ∀ m ∈ e.graph.metrics, 0 ≤ e.dotp e.alphas m) (hd : Draws e) {fuel : Nat}
    {l : List (Int × Int)} (h : e.pairs fuel = some (.ok l)) :
    l.length ≤ e.maxCount ∧ Ascending l ∧ ∀ p ∈ l, Connects e.graph p := by
  obtain ⟨w, ps, hi, _, hn, rfl⟩ := pairs_ok h
  have hlen : (stableSort pairLe w.found).length = w.successes := by
    rw [(stableSort_perm w.found).length_eq, ← hi.ids.length_eq, ← hi.succ_eq]
  refine ⟨?_, ascending (forall₂_nodup hwf hi.ids hi.nodup), ?_⟩
  · rw [hlen]
    exact le_trans hi.goal (min_le_right _ _)
  · intro x hx
    obtain ⟨p, hp, h1, h2⟩ := forall₂_mem_right hi.ids (mem_stableSort.mp hx)
    obtain ⟨h3, h4, h5⟩ := hi.sub p hp
    obtain ⟨k, hk', rfl⟩ := (hi.done p).mp h3
    have hlt := pick_lt hn hd (k := k) (lt_of_lt_of_le hk' hi.att)
    obtain ⟨l, hl⟩ := yes_connects hwf hk hw hlt.1 hlt.2 h5
    exact ⟨_, _, l, h4, h1, h2, hl⟩

/-- C36: the writer terminates (with pairs or with a panic), the loop needs at most as many iterations as there
are pairs of nodes. -/
theorem C36_terminates (hwf : e.graph.WellFormed) (hk : AddOk K)
    (hw : ∀ m ∈ e.graph.metrics, 0 ≤ e.dotp e.alphas m) (hd : Draws e) :
    ∃ N, ∀ f, N ≤ f → ∀ fuel, e.graph.nodeCount ^ 2 ≤ fuel → ({ e with fuel := f } : Env K).pairs fuel ≠ none := by
  obtain ⟨N, hN⟩ := bound_pairs (fun p fuel => ∀ (n : Nat) (s : St K), Used e.heap e.dotp n s →
      computeBestPath e.heap e.dotp fuel s (e.query p) ≠ none) (n := e.graph.nodeCount)
    (fun p h1 h2 => Dij.C19_terminates (q := e.query p) hwf hk hw h1 h2)
  refine ⟨N, fun f hf fuel hfuel => ?_⟩
  unfold Env.pairs
  split
  · simp
  · rename_i hn
    have := loop_halts (e := { e with fuel := f }) hn hd (fun p s h1 h2 hu => hN f hf p h1 h2 _ s hu) Inv.init
      (n := fuel) (by simp only [Env.possible]; rw [← Nat.pow_two]; omega)
    rw [Ne, Option.map_eq_none_iff]
    exact this

/-- C36: pairs are written, if queries are answered (see C15) and if the graph has a node. -/
theorem C36_writes (hwf : e.graph.WellFormed) (hk : AddOk K)
    (hw : ∀ m ∈ e.graph.metrics, 0 ≤ e.dotp e.alphas m) (hd : Draws e) (halg : e.algo ≠ .explorator)
    (hcov : AllCovered e.graph) (h2 : e.graph.nodeCount ≠ 2) (h0 : e.graph.nodeCount ≠ 0) :
    ∃ N, ∀ f, N ≤ f → ∀ fuel, e.graph.nodeCount ^ 2 ≤ fuel →
      ∃ l, ({ e with fuel := f } : Env K).pairs fuel = some (.ok l) := by
  obtain ⟨N, hN⟩ := bound_pairs (fun p fuel => ∀ (n : Nat) (s : St K), Used e.heap e.dotp n s →
      computeBestPath e.heap e.dotp fuel s (e.query p) ≠ none) (n := e.graph.nodeCount)
    (fun p h1 h2 => Dij.C19_terminates (q := e.query p) hwf hk hw h1 h2)
  refine ⟨N, fun f hf fuel hfuel => ?_⟩
  have ha : Answers ({ e with fuel := f } : Env K) := by
    intro p s h1 h3 hu
    obtain ⟨M, hM⟩ := Dij.C15_answers_partial (q := e.query p) hwf hk hw halg hcov h2 h1 h3 hu le_rfl
    obtain ⟨s', ans, hc⟩ := hM M le_rfl
    have hne := hN f hf p h1 h3 _ s hu
    cases hx : computeBestPath e.heap e.dotp f s (e.query p) with
    | none => exact absurd hx hne
    | some r => exact ⟨s', ans, by rw [← Dij.compute_unique hx hc]; exact hx⟩
  unfold Env.pairs
  rw [if_neg h0]
  obtain ⟨w', hw'⟩ := loop_answers (e := { e with fuel := f }) hwf h0 hd ha Inv.init
      (n := fuel) (by simp only [Env.possible]; rw [← Nat.pow_two]; omega)
  rw [hw']
  exact ⟨_, rfl⟩

/-! ## C35 -/

/-- If the router is right about missing routes. -/
theorem all_of (hwf : e.graph.WellFormed) (hk : AddOk K)
    (hw : ∀ m ∈ e.graph.metrics, 0 ≤ e.dotp e.alphas m) (hmax : e.graph.nodeCount ^ 2 ≤ e.maxCount)
    (hno : ∀ p : Nat × Nat, p.1 < e.graph.nodeCount → p.2 < e.graph.nodeCount → No e p →
      ¬ ∃ l, e.graph.IsRoute p.1 l p.2)
    {fuel : Nat} {l : List (Int × Int)} (h : e.pairs fuel = some (.ok l)) :
    Ascending l ∧ ∀ p, p ∈ l ↔ Connects e.graph p := by
  have hposs : e.possible ≤ e.maxCount := by unfold Env.possible; rw [← Nat.pow_two]; exact hmax
  obtain ⟨w, ps, hi, hr, hn, rfl⟩ := pairs_ok h
  have hpick : ∀ k, e.pick k = (k / e.graph.nodeCount, k % e.graph.nodeCount) := by
    intro k; unfold Env.pick; rw [if_pos hposs]
  have hlt : ∀ k, k < e.possible → (e.pick k).1 < e.graph.nodeCount ∧ (e.pick k).2 < e.graph.nodeCount := by
    intro k hk'
    rw [hpick]
    exact ⟨Nat.div_lt_of_lt_mul hk', Nat.mod_lt _ (by omega)⟩
  have hatt : e.possible ≤ w.attempts := by
    simp only [Env.running, Bool.and_eq_false_iff, decide_eq_false_iff_not] at hr
    have h1 := hi.succ_le
    have h2 : e.goal = e.possible := min_eq_left hposs
    omega
  refine ⟨ascending (forall₂_nodup hwf hi.ids hi.nodup), ?_⟩
  intro x
  rw [mem_stableSort]
  constructor
  · intro hx
    obtain ⟨p, hp, h1, h2⟩ := forall₂_mem_right hi.ids hx
    obtain ⟨h3, h4, h5⟩ := hi.sub p hp
    obtain ⟨k, hk', rfl⟩ := (hi.done p).mp h3
    have hlt := hlt k (lt_of_lt_of_le hk' hi.att)
    obtain ⟨l, hl⟩ := yes_connects hwf hk hw hlt.1 hlt.2 h5
    exact ⟨_, _, l, h4, h1, h2, hl⟩
  · rintro ⟨u, v, l, huv, h1, h2, hl⟩
    have hu : u < e.graph.nodeCount := Gen.lt_of_some h1
    have hv : v < e.graph.nodeCount := Gen.lt_of_some h2
    have hk' : u * e.graph.nodeCount + v < e.possible := by
      unfold Env.possible
      calc u * e.graph.nodeCount + v < u * e.graph.nodeCount + e.graph.nodeCount := by omega
        _ = (u + 1) * e.graph.nodeCount := by rw [Nat.add_mul, Nat.one_mul]
        _ ≤ e.graph.nodeCount * e.graph.nodeCount := Nat.mul_le_mul_right _ hu
    have hp : e.pick (u * e.graph.nodeCount + v) = (u, v) := by
      rw [hpick]
      have : 0 < e.graph.nodeCount := by omega
      rw [Nat.mul_comm, Nat.mul_add_div this, Nat.div_eq_of_lt hv, Nat.mul_add_mod, Nat.mod_eq_of_lt hv]
      rfl
    have hproc : (u, v) ∈ w.processed := (hi.done _).mpr ⟨_, lt_of_lt_of_le hk' hatt, hp.symm⟩
    by_cases hin : (u, v) ∈ ps
    · obtain ⟨y, hy, h3, h4⟩ := forall₂_mem_left hi.ids hin
      have e1 : y.1 = x.1 := by simpa [h1] using h3.symm
      have e2 : y.2 = x.2 := by simpa [h2] using h4.symm
      rwa [Prod.ext e1 e2] at hy
    · exact absurd ⟨l, hl⟩ (hno (u, v) hu hv (hi.rest _ hproc hin huv))

/-- C35: if all pairs are requested, then exactly those are written that connect different nodes by a route,
each once. -/
theorem C35_all (hwf : e.graph.WellFormed) (hk : AddOk K)
    (hw : ∀ m ∈ e.graph.metrics, 0 ≤ e.dotp e.alphas m) (hal : ∀ a ∈ e.alphas, 0 ≤ a) (halg : e.algo = .dijkstra)
    (hmax : e.graph.nodeCount ^ 2 ≤ e.maxCount) {fuel : Nat} {l : List (Int × Int)}
    (h : e.pairs fuel = some (.ok l)) : Ascending l ∧ ∀ p, p ∈ l ↔ Connects e.graph p :=
  all_of hwf hk hw hmax (fun p h1 h2 ⟨_, _, hu, hc⟩ =>
    (Dij.C15_none_iff (q := e.query p) hwf hk hw hal halg h1 h2 hu hc).mp rfl) h

/-! ## C59 -/

/-- C59, if enough is drawn: if at least as many different pairs as requested, that connect different nodes by a
route, are among the draws of as many attempts as there are pairs of nodes, then exactly as many pairs as requested
are written. -/
theorem C59_enough_partial (hwf : e.graph.WellFormed) (hk : AddOk K)
    (hw : ∀ m ∈ e.graph.metrics, 0 ≤ e.dotp e.alphas m) (hal : ∀ a ∈ e.alphas, 0 ≤ a) (halg : e.algo = .dijkstra)
    (hd : Draws e) (hmax : e.maxCount < e.graph.nodeCount ^ 2)
    {S : List (Nat × Nat)} (hS : S.Nodup) (hlen : e.maxCount ≤ S.length)
    (hgood : ∀ p ∈ S, (∃ k < e.graph.nodeCount ^ 2, e.draws k = p) ∧ p.1 ≠ p.2 ∧ ∃ l, e.graph.IsRoute p.1 l p.2)
    {fuel : Nat} {l : List (Int × Int)} (h : e.pairs fuel = some (.ok l)) : l.length = e.maxCount := by
  have hposs : e.possible = e.graph.nodeCount ^ 2 := by unfold Env.possible; rw [Nat.pow_two]
  obtain ⟨w, ps, hi, hr, hn, rfl⟩ := pairs_ok h
  rw [(stableSort_perm w.found).length_eq, ← hi.ids.length_eq, ← hi.succ_eq]
  have hgoal : e.goal = e.maxCount := by unfold Env.goal; rw [hposs]; omega
  have hle := hi.goal
  rw [hgoal] at hle
  refine le_antisymm hle ?_
  simp only [Env.running, Bool.and_eq_false_iff, decide_eq_false_iff_not, hgoal] at hr
  rcases hr with hr | hr
  · omega
  · have hsub : S ⊆ ps := by
      intro p hp
      obtain ⟨⟨k, hk', hkp⟩, hne, hroute⟩ := hgood p hp
      have hpick : e.pick k = p := by
        unfold Env.pick
        rw [if_neg (by rw [hposs]; omega)]
        exact hkp
      have hproc : p ∈ w.processed := (hi.done p).mpr ⟨k, by omega, hpick.symm⟩
      by_contra hin
      obtain ⟨_, _, hu, hc⟩ := hi.rest p hproc hin hne
      have hlt := pick_lt hn hd (k := k) (by rw [hposs]; exact hk')
      rw [hpick] at hlt
      exact (Dij.C15_none_iff (q := e.query p) hwf hk hw hal halg hlt.1 hlt.2 hu hc).mp rfl hroute
    have h1 : S.length ≤ ps.length := (hS.subperm hsub).length_le
    have h2 := hi.succ_eq
    omega

end

/-- C35 for contracted graphs. -/
theorem C35_all_ch {e : Env ℚ} (hdot : e.dotp = dot) (hwf : e.graph.WellFormed) (hm : NonnegMetrics e.graph)
    (hhi : Hierarchy e.graph e.alphas) (hal : ∀ a ∈ e.alphas, 0 ≤ a) (halg : e.algo = .chDijkstra)
    (hmax : e.graph.nodeCount ^ 2 ≤ e.maxCount) {fuel : Nat} {l : List (Int × Int)}
    (h : e.pairs fuel = some (.ok l)) : Ascending l ∧ ∀ p, p ∈ l ↔ Connects e.graph p :=
  all_of hwf Search.addOk_rat (by rw [hdot]; exact Dij.weights_nonneg hal hm) hmax (fun p h1 h2 ⟨_, _, hu, hc⟩ =>
    (Dij.C20_none_iff (q := e.query p) hwf hm hhi hal halg h1 h2 (hdot ▸ hu) (hdot ▸ hc)).mp rfl) h

/-! ## Samples -/

/-- `0 → 2`, and `1` and `2` in both directions. -/
def forkBuild : Build.R Graph :=
  Build.build 1 [Dij.edge1 0 2 1, Dij.edge1 1 2 1, Dij.edge1 2 1 1] (Dij.lvNodes 0 [0, 1, 2])

def forkGraph : Graph := Dij.okGraph forkBuild

theorem fork_build : forkBuild = .ok forkGraph := by decide +kernel
theorem fork_wf : forkGraph.WellFormed := Build.built_wellFormed fork_build

theorem fork_nonneg : NonnegMetrics forkGraph := by
  have : forkGraph.metrics.all (fun m => m.all (fun x => decide (0 ≤ x))) = true := by decide +kernel
  intro m hm x hx
  simpa using List.all_eq_true.mp (List.all_eq_true.mp this m hm) x hx

theorem fork_weights : ∀ m ∈ forkGraph.metrics, 0 ≤ dot [1] m := Dij.weights_nonneg (by simp) fork_nonneg

/-- A writer for it, drawing the pairs of a list and then the last node twice. -/
def forkEnv (maxCount : Nat) (draws : List (Nat × Nat)) : Env ℚ :=
  { heap := Dij.codeHeap, dotp := dot, fuel := 40, graph := forkGraph, algo := .dijkstra, alphas := [1], maxCount
    draws := fun k => draws.getD k (2, 2) }

/-- All four connected pairs are written, if nine are requested. -/
theorem fork_all : (forkEnv 9 []).pairs 9 = some (.ok [(0, 1), (0, 2), (1, 2), (2, 1)]) := by decide +kernel

example (p : Int × Int) : Connects forkGraph p ↔ p ∈ [((0 : Int), (1 : Int)), (0, 2), (1, 2), (2, 1)] :=
  ((C35_all fork_wf Search.addOk_rat fork_weights (by simp [forkEnv]) rfl (by decide +kernel) fork_all).2 p).symm

/-- Two random pairs, drawn with repetitions and without success. -/
def forkDraws : List (Nat × Nat) := [(1, 0), (1, 1), (2, 1), (2, 1), (0, 2)]

theorem fork_draws : Draws (forkEnv 2 forkDraws) := by
  have h1 : ∀ p ∈ forkDraws, p.1 < forkGraph.nodeCount ∧ p.2 < forkGraph.nodeCount := by decide +kernel
  have h2 : 2 < forkGraph.nodeCount := by decide +kernel
  intro k
  show (forkDraws.getD k (2, 2)).1 < forkGraph.nodeCount ∧ (forkDraws.getD k (2, 2)).2 < forkGraph.nodeCount
  rw [List.getD_eq_getElem?_getD]
  cases h : forkDraws[k]? with
  | none => exact ⟨h2, h2⟩
  | some p => exact h1 p (List.mem_of_getElem? h)

theorem fork_two : (forkEnv 2 forkDraws).pairs 9 = some (.ok [(0, 2), (2, 1)]) := by decide +kernel

example : Ascending [(0, 2), (2, 1)] ∧ ∀ p ∈ [((0 : Int), (2 : Int)), (2, 1)], Connects forkGraph p :=
  (C36_sound fork_wf Search.addOk_rat fork_weights fork_draws fork_two).2

example : ∃ N, ∀ f, N ≤ f → ∀ fuel, forkGraph.nodeCount ^ 2 ≤ fuel →
    ∃ l, ({ forkEnv 2 forkDraws with fuel := f } : Env ℚ).pairs fuel = some (.ok l) :=
  C36_writes (e := forkEnv 2 forkDraws) fork_wf Search.addOk_rat fork_weights fork_draws (by simp [forkEnv])
    (Dij.allCovered_of (by decide +kernel)) (by decide +kernel) (by decide +kernel)

example : ∃ N, ∀ f, N ≤ f → ∀ fuel, forkGraph.nodeCount ^ 2 ≤ fuel →
    ({ forkEnv 2 forkDraws with fuel := f } : Env ℚ).pairs fuel ≠ none :=
  C36_terminates (e := forkEnv 2 forkDraws) fork_wf Search.addOk_rat fork_weights fork_draws

/-- Fewer iterations than pairs aren't enough. -/
example : (forkEnv 9 []).pairs 8 = none := by decide +kernel

example : ([(0, 2), (2, 1)] : List (Int × Int)).length = 2 :=
  C59_enough_partial (S := [(2, 1), (0, 2)]) fork_wf Search.addOk_rat fork_weights (by simp [forkEnv]) rfl fork_draws
    (by decide +kernel) (by decide) (by decide)
    (by
      intro p hp
      simp only [List.mem_cons, List.not_mem_nil, or_false] at hp
      rcases hp with rfl | rfl
      · exact ⟨⟨2, by decide +kernel, by decide +kernel⟩, by decide, [2], 1, ⟨by decide +kernel, by decide +kernel⟩, rfl⟩
      · exact ⟨⟨4, by decide +kernel, by decide +kernel⟩, by decide, [0], 2, ⟨by decide +kernel, by decide +kernel⟩, rfl⟩)
    fork_two

example : ∃ pairs, (forkEnv 2 forkDraws).pairs 9 = some (.ok pairs) ∧
    read (fileOf "map.fmi".toList 3 3 42 [(0, 2), (2, 1)]) =
      .ok (pairs.map fun p => { src := p.1, dst := p.2, count := 1 }) :=
  C34_written (e := forkEnv 2 forkDraws) (fuel := 9) (mapFile := "map.fmi".toList) (seed := 42)
    (by unfold IdsFit; decide +kernel) (by decide) (by decide +kernel)

/-- A writer of all pairs for a graph of at most four nodes. -/
def allEnv (graph : Graph) (algo : Dij.Algo) : Env ℚ :=
  { heap := Dij.codeHeap, dotp := dot, fuel := 40, graph, algo, alphas := [1], maxCount := 16, draws := fun _ => (0, 0) }

theorem ch_all : (allEnv Dij.chGraph .chDijkstra).pairs 16 = some (.ok [(0, 1), (0, 2), (0, 3), (1, 0), (1, 2), (1, 3),
    (2, 0), (2, 1), (2, 3), (3, 0), (3, 1), (3, 2)]) := by decide +kernel

/-- All pairs of the contracted circle. -/
example (p : Int × Int) : Connects Dij.chGraph p ↔ p ∈ [((0 : Int), (1 : Int)), (0, 2), (0, 3), (1, 0), (1, 2), (1, 3),
    (2, 0), (2, 1), (2, 3), (3, 0), (3, 1), (3, 2)] :=
  have hw := Build.built_wellFormed Dij.ch_build
  ((C35_all_ch (e := allEnv Dij.chGraph .chDijkstra) rfl hw Dij.ch_nonneg
    (Dij.C20_contracted hw Dij.ch_nonneg (by simp [allEnv])
      (Dij.contracted_of hw (Dij.weights_nonneg (by simp [allEnv]) Dij.ch_nonneg) (by decide +kernel)))
    (by simp [allEnv]) rfl (by decide +kernel) ch_all).2 p).symm

/-- C59 is false: four pairs are connected and one is requested, but none is written because none of the nine
draws is one of them. -/
theorem C59_false_unlucky : Draws (forkEnv 1 []) ∧ (forkEnv 1 []).pairs 9 = some (.ok []) ∧
    Connects forkGraph (0, 2) := by
  refine ⟨?_, by decide +kernel, 0, 2, [0], by decide, by decide +kernel, by decide +kernel, 2,
    ⟨by decide +kernel, by decide +kernel⟩, rfl⟩
  have h2 : 2 < forkGraph.nodeCount := by decide +kernel
  intro k
  simpa [forkEnv] using h2

/-- Two nodes and an edge in both directions: the pair is connected but the router panics, see
`C15_false_two_nodes`. -/
theorem C35_false_two_nodes : Connects Dij.twoNodesGraph (0, 1) ∧
    (allEnv Dij.twoNodesGraph .dijkstra).pairs 4 = some .panic :=
  ⟨⟨0, 1, [0], by decide, by decide +kernel, by decide +kernel, 1, ⟨by decide +kernel, by decide +kernel⟩, rfl⟩,
    by decide +kernel⟩

/-- There is no pair to write for an empty graph, but the writer panics. -/
theorem C35_false_empty : Build.build 1 [] [] = .ok (Dij.okGraph (Build.build 1 [] [])) ∧
    (Dij.okGraph (Build.build 1 [] [])).nodeCount = 0 ∧
    (allEnv (Dij.okGraph (Build.build 1 [] [])) .dijkstra).pairs 4 = some .panic := by
  decide +kernel

end Verif.Routes
