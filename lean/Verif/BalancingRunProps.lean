import Verif.BalancingRunSpec
import Verif.BalancingProps
import Verif.FmiLemmas

/-!
# C71: what the balancer stores
-/

namespace Verif.Bal

open Text Gen
open Cfg hiding Unit

variable {w : World} {cfg : RunConfig}

theorem Step.bind_ok {σ ε α β : Type} {x : Step σ ε α} {f : α → Step σ ε β} {s s' : σ} {b : β} :
    x.bind f s = (.ok b, s') ↔ ∃ a s1, x s = (.ok a, s1) ∧ f a s1 = (.ok b, s') := by
  unfold Step.bind
  generalize x s = r
  obtain ⟨r, s1⟩ := r
  cases r with
  | ok a =>
    constructor
    · intro h
      exact ⟨a, s1, rfl, h⟩
    · rintro ⟨a', s1', h1, h2⟩
      cases h1
      exact h2
  | err e => simp
  | panic => simp

theorem outcome_ok {α : Type} {s : Stage} {r : Res Unit α} {x : α} : outcome s r = .ok x ↔ r = .ok x := by
  cases r <;> simp [outcome]

theorem stage_ok {σ α : Type} {s : Stage} {f : Step σ Unit α} {st st' : σ} {x : α} :
    stage s f st = (.ok x, st') ↔ f st = (.ok x, st') := by
  unfold stage
  generalize f st = r
  obtain ⟨r, s1⟩ := r
  simp [outcome_ok]

theorem peek_ok {σ α : Type} {s : Stage} {f : σ → Res Unit α} {st st' : σ} {x : α} :
    peek s f st = (.ok x, st') ↔ f st = .ok x ∧ st' = st := by
  simp [peek, outcome_ok, eq_comm]

theorem lift_ok {σ ε α : Type} {r : Res ε α} {st st' : σ} {x : α} :
    Step.lift r st = (.ok x, st') ↔ r = .ok x ∧ st' = st := by
  simp [Step.lift, eq_comm]

/-- C71: what an iteration does. -/
theorem C71_iteration {i : Nat} {net net' : Net} {s s' : w.State} {es : List Event}
    (h : iteration w cfg i net s = (.ok (es, net'), s')) :
    ∃ ch dim alphas loads, Iterates w cfg i net ch net' s s' dim alphas loads ∧
      es = [.contracted i dim, .simulated i ch alphas, .updated i loads ch net'] := by
  unfold iteration simulation at h
  simp only [Step.bind_ok, stage_ok, peek_ok, lift_ok, Prod.exists] at h
  obtain ⟨dim0, ch0, al0, loads0, paths0, s3, ⟨_, s1, hw, dim, t1, ⟨hdim, rfl⟩, _, s2, hc, ch, t2, ⟨hr, rfl⟩, al, t3,
    ⟨hal, rfl⟩, al', t4, ⟨hal', rfl⟩, loads, paths, t5, hsim, hx, rfl⟩, h⟩ := h
  simp only [Res.ok.injEq, Prod.mk.injEq] at hx
  obtain ⟨rfl, rfl, rfl, rfl, rfl⟩ := hx
  cases hup : update i loads ch cfg.update with
  | mk r n =>
    rw [hup] at h
    cases r with
    | err e => exact absurd h (by simp [lift_ok])
    | panic => exact absurd h (by simp [lift_ok])
    | ok done =>
      simp only [Step.bind_ok, stage_ok, lift_ok, Res.ok.injEq, Prod.mk.injEq] at h
      obtain ⟨_, s4, hst, ⟨rfl, rfl⟩, rfl⟩ := h
      have hdim' : dim + (if i = 0 then 1 else 0) = cfg.dim := by
        unfold dimOf at hdim
        split at hdim
        · split at hdim
          · exact absurd hdim (by simp)
          · simp only [Res.ok.injEq] at hdim
            split <;> omega
        · simp only [Res.ok.injEq] at hdim
          split <;> omega
      have hal2 : (al'.length = al.length ∧ ∀ j : Nat, al'[j]? = al[j]? ∨
          i = 0 ∧ ch.edges.ids[j]? = some cfg.update.metricId ∧ al'[j]? = some 0) ∧
          (i = 0 → ∃ j : Nat, ch.edges.ids[j]? = some cfg.update.metricId ∧ al'[j]? = some 0) := by
        unfold alphasOf at hal'
        split at hal'
        · rename_i hi
          split at hal'
          · exact absurd hal' (by simp)
          · rename_i k hk
            split at hal'
            · rename_i hlt
              simp only [Res.ok.injEq] at hal'
              subst hal'
              have hid : ch.edges.ids[k]? = some cfg.update.metricId := by
                have : idxOf ch.edges cfg.update.metricId = .ok k := by unfold idxOf; rw [hk]
                exact idxOf_ok this
              refine ⟨⟨by simp, fun j => ?_⟩, fun _ => ⟨k, hid, by simp [hlt]⟩⟩
              by_cases hj : k = j
              · subst hj
                exact .inr ⟨hi, hid, by simp [hlt]⟩
              · exact .inl (by simp [hj])
            · exact absurd hal' (by simp)
        · rename_i hi
          simp only [Res.ok.injEq] at hal'
          subst hal'
          exact ⟨⟨rfl, fun j => .inl rfl⟩, fun h0 => absurd h0 hi⟩
      exact ⟨ch, dim, al', loads, ⟨hdim', ⟨t1, t4, s3, al, paths, hw, hc, hr, hal, hal2.1, hsim, hst⟩, hal2.2, ⟨done, hup⟩⟩,
        rfl⟩

theorem storedOf_history {i j : Nat} {net net' : Net} {s s' : w.State} {es : List Event}
    (h : History w cfg i net s es j net' s') : storedOf es = [] := by
  induction h with
  | nil => rfl
  | cons _ _ ih => simpa [storedOf] using ih

theorem updatedOf_history {i j : Nat} {net net' : Net} {s s' : w.State} {es : List Event}
    (h : History w cfg i net s es j net' s') : i ≤ j ∧ updatedOf es = List.range' i (j - i) := by
  induction h with
  | nil => simp [updatedOf]
  | @cons i j _ _ _ _ _ _ _ _ _ _ _ _ _ ih =>
    obtain ⟨h1, h2⟩ := ih
    refine ⟨by omega, ?_⟩
    rw [show j - i = (j - (i + 1)) + 1 by omega, List.range'_succ, ← h2]
    rfl

/-- The iterations that are left, in all cases. -/
theorem iterations_cases (i k : Nat) (net : Net) (s : w.State) (hi : i + k = cfg.numUpdates + 1) :
    (∃ es r f, iterations w cfg i k net s = (es, r, f) ∧ r ≠ .ok ⟨⟩ ∧ ∃ j net' s', j ≤ cfg.numUpdates ∧
      History w cfg i net s es j net' s') ∨
    (k = 0 ∧ iterations w cfg i k net s = ([], .ok ⟨⟩, s)) ∨
    ∃ es es' r net' s' s1 f, iterations w cfg i k net s = (es ++ .stored net' :: es', r, f) ∧
      History w cfg i net s es cfg.numUpdates net' s' ∧ w.store net' s' = (.ok ⟨⟩, s1) ∧
      (r ≠ .ok ⟨⟩ ∧ es' = [] ∨
        r = .ok ⟨⟩ ∧ ∃ net'', History w cfg cfg.numUpdates net' s1 es' (cfg.numUpdates + 1) net'' f) := by
  induction k generalizing i net s with
  | zero => exact .inr (.inl ⟨rfl, rfl⟩)
  | succ k ih =>
    unfold iterations
    by_cases hlast : i = cfg.numUpdates
    · obtain rfl : k = 0 := by omega
      have hst : storing w cfg i net s = ((stage .store (w.store net)).bind fun _ => Step.lift (.ok [.stored net])) s := by
        unfold storing
        rw [if_pos (by unfold RunConfig.numIter; omega)]
      cases hs : storing w cfg i net s with
      | mk r s1 =>
        cases r with
        | err e => exact .inl ⟨[], .err e, s1, rfl, by simp, i, net, s, by omega, .nil _ _ _⟩
        | panic => exact .inl ⟨[], .panic, s1, rfl, by simp, i, net, s, by omega, .nil _ _ _⟩
        | ok es0 =>
          rw [hs] at hst
          obtain ⟨_, s1', h1, h2⟩ := Step.bind_ok.mp hst.symm
          rw [stage_ok] at h1
          rw [lift_ok] at h2
          simp only [Res.ok.injEq] at h2
          obtain ⟨rfl, rfl⟩ := h2
          right; right
          dsimp only
          cases hit : iteration w cfg i net s1 with
          | mk r s2 =>
            cases r with
            | err e => exact ⟨[], [], .err e, net, s, s1, s2, rfl, hlast ▸ .nil _ _ _, h1, .inl ⟨by simp, rfl⟩⟩
            | panic => exact ⟨[], [], .panic, net, s, s1, s2, rfl, hlast ▸ .nil _ _ _, h1, .inl ⟨by simp, rfl⟩⟩
            | ok x =>
              obtain ⟨es', net'⟩ := x
              obtain ⟨ch, dim, al, loads, h3, rfl⟩ := C71_iteration hit
              refine ⟨[], _, .ok ⟨⟩, net, s, s1, s2, by simp [iterations]; rfl, hlast ▸ .nil _ _ _, h1,
                .inr ⟨rfl, net', ?_⟩⟩
              subst hlast
              exact .cons h3 (.nil _ _ _)
    · have hst : storing w cfg i net s = (.ok [], s) := by
        unfold storing
        rw [if_neg (by unfold RunConfig.numIter; omega)]
        rfl
      rw [hst]
      dsimp only
      cases hit : iteration w cfg i net s with
      | mk r s2 =>
        cases r with
        | err e => exact .inl ⟨[], .err e, s2, rfl, by simp, i, net, s, by omega, .nil _ _ _⟩
        | panic => exact .inl ⟨[], .panic, s2, rfl, by simp, i, net, s, by omega, .nil _ _ _⟩
        | ok x =>
          obtain ⟨es', net'⟩ := x
          obtain ⟨ch, dim, al, loads, h1, rfl⟩ := C71_iteration hit
          rcases ih (i + 1) net' s2 (by omega) with ⟨es, r, f, h2, h3, j, n2, r2, h4, h5⟩ | ⟨h2, -⟩ |
            ⟨es, es2, r, n2, r2, t, f, h2, h3, h4, h5⟩
          · refine .inl ⟨_, r, f, by simp only [h2]; rfl, h3, j, n2, r2, h4, ?_⟩
            exact .cons h1 h5
          · omega
          · refine .inr (.inr ⟨_, es2, r, n2, r2, t, f, ?_, .cons h1 h3, h4, h5⟩)
            simp only [h2]
            simp

/-- C71: a successful run stores exactly one graph. It is the one after as many iterations as updates are asked for,
and it is stored before the last iteration, which only evaluates it. The first iterations lead from the given graph
to the stored one, one update each. -/
theorem C71_stored {net : Net} {s f : w.State} {es : List Event} (h : balance w cfg net s = (es, .ok ⟨⟩, f)) :
    ∃ es' es'' stored last s' s'', es = es' ++ .stored stored :: es'' ∧ storedOf es = [stored] ∧
      History w cfg 0 net s es' cfg.numUpdates stored s' ∧ w.store stored s' = (.ok ⟨⟩, s'') ∧
      History w cfg cfg.numUpdates stored s'' es'' (cfg.numUpdates + 1) last f ∧
      updatedOf es' = List.range cfg.numUpdates ∧ updatedOf es'' = [cfg.numUpdates] := by
  rcases iterations_cases (w := w) (cfg := cfg) 0 (cfg.numUpdates + 1) net s (by omega) with
    ⟨es', r, f', h1, h2, -⟩ | ⟨h1, -⟩ | ⟨es', es'', r, n', r', t, f', h1, h2, h3, h4⟩
  · have := h1.symm.trans h
    simp only [Prod.mk.injEq] at this
    exact absurd this.2.1 h2
  · omega
  · have h5 := h1.symm.trans h
    simp only [Prod.mk.injEq] at h5
    obtain ⟨rfl, rfl, rfl⟩ := h5
    rcases h4 with ⟨h4, -⟩ | ⟨-, n'', h4⟩
    · exact absurd rfl h4
    · refine ⟨es', es'', n', n'', r', t, rfl, ?_, h2, h3, h4, ?_, ?_⟩
      · have e1 := storedOf_history h2
        have e2 := storedOf_history h4
        unfold storedOf at e1 e2 ⊢
        rw [List.filterMap_append, e1, List.filterMap_cons, e2]
        rfl
      · rw [(updatedOf_history h2).2, List.range_eq_range', Nat.sub_zero]
      · rw [(updatedOf_history h4).2, Nat.add_sub_cancel_left]
        rfl

/-- C71: also a failing run stores at most one graph, and only one after as many iterations as updates are asked
for. -/
theorem C71_failing {net : Net} {s f : w.State} {es : List Event} {r : Res RunErr PUnit}
    (h : balance w cfg net s = (es, r, f)) (hr : r ≠ .ok ⟨⟩) :
    storedOf es = [] ∨ ∃ es' stored s', es = es' ++ [.stored stored] ∧ storedOf es = [stored] ∧
      History w cfg 0 net s es' cfg.numUpdates stored s' := by
  rcases iterations_cases (w := w) (cfg := cfg) 0 (cfg.numUpdates + 1) net s (by omega) with
    ⟨es', r', f', h1, h2, j, n', r'', -, h3⟩ | ⟨h1, -⟩ | ⟨es', es'', r', n', r'', t, f', h1, h2, h3, h4⟩
  · have h5 := h1.symm.trans h
    simp only [Prod.mk.injEq] at h5
    obtain ⟨rfl, rfl, rfl⟩ := h5
    exact .inl (storedOf_history h3)
  · omega
  · have h5 := h1.symm.trans h
    simp only [Prod.mk.injEq] at h5
    obtain ⟨rfl, rfl, rfl⟩ := h5
    rcases h4 with ⟨-, rfl⟩ | ⟨h4, -⟩
    · refine .inr ⟨es', n', r'', rfl, ?_, h2⟩
      have e1 := storedOf_history h2
      unfold storedOf at e1 ⊢
      rw [List.filterMap_append, e1]
      rfl
    · exact absurd h4 hr

/-- C71: without a dimension, the first iteration panics; nothing is stored if an update is asked for. -/
theorem C71_false_no_dimension {net : Net} {s s' : w.State} (hd : cfg.dim = 0) (hn : cfg.numUpdates ≠ 0)
    (hw : w.write 0 net s = (.ok ⟨⟩, s')) : balance w cfg net s = ([], .panic, s') := by
  have hit : iteration w cfg 0 net s = (.panic, s') := by
    simp [iteration, simulation, Step.bind, stage, hw, outcome, Step.lift, dimOf, hd]
  have hst : storing w cfg 0 net s = (.ok [], s) := by
    unfold storing
    rw [if_neg (by unfold RunConfig.numIter; omega)]
    rfl
  unfold balance RunConfig.numIter iterations
  simp [hit, hst]

theorem tryIdxOf_eq {net : Net} {id : Text} {k : Nat} (hn : net.edges.ids.Nodup) (hk : net.edges.ids[k]? = some id) :
    net.edges.tryIdxOf id = .ok k := by
  obtain ⟨j, h⟩ := Fmi.tryIdxOf_total (e := net.edges) (List.mem_of_getElem? hk)
  have : idxOf net.edges id = .ok j := by unfold idxOf; rw [h]
  rw [h, key_unique hn hk (idxOf_ok this)]

/-- C71: if everything works out for an iteration, it succeeds. -/
theorem C71_iterates {i : Nat} {net ch net' : Net} {s s' : w.State} {dim : Nat} {alphas : List ℚ} {loads : List Nat}
    (h : Iterates w cfg i net ch net' s s' dim alphas loads) (hn : ch.edges.ids.Nodup) :
    iteration w cfg i net s =
      (.ok ([.contracted i dim, .simulated i ch alphas, .updated i loads ch net'], net'), s') := by
  obtain ⟨s1, s2, s3, al, paths, h1, h2, h3, h4, ⟨h5, h6⟩, h8, h9⟩ := h.steps
  obtain ⟨done, h7⟩ := h.updated
  have hdim : dimOf cfg i = .ok dim := by
    have := h.dimension
    unfold dimOf
    split at this
    · rename_i hi
      rw [if_pos hi, if_neg (by omega), ← this]
      simp
    · rename_i hi
      rw [if_neg hi, ← this]
      simp
  have hal : alphasOf cfg i ch al = .ok alphas := by
    unfold alphasOf
    split
    · rename_i hi
      obtain ⟨k, hk, h0⟩ := h.first hi
      have hlt := lt_of_some h0
      rw [tryIdxOf_eq hn hk]
      simp only
      rw [if_pos (by omega), Res.ok.injEq]
      apply List.ext_getElem?
      intro j
      by_cases hj : k = j
      · subst hj
        rw [h0]
        simp [h5 ▸ hlt]
      · rcases h6 j with h6 | ⟨-, h6, -⟩
        · simp [hj, h6]
        · exact absurd (key_unique hn hk h6) hj
    · rename_i hi
      rw [Res.ok.injEq]
      apply List.ext_getElem?
      intro j
      rcases h6 j with h6 | ⟨h6, -⟩
      · exact h6.symm
      · exact absurd h6 hi
  simp [iteration, simulation, Step.bind, stage, peek, outcome, Step.lift, h1, hdim, h2, h3, h4, hal, h8, h7, h9]

/-- C71: if all iterations work out and the graph can be stored, the run succeeds with exactly this history. -/
theorem C71_succeeds {net stored last : Net} {s s' s'' f : w.State} {es es' : List Event}
    (h1 : History w cfg 0 net s es cfg.numUpdates stored s') (h2 : w.store stored s' = (.ok ⟨⟩, s''))
    (h3 : History w cfg cfg.numUpdates stored s'' es' (cfg.numUpdates + 1) last f)
    (hn : ∀ i d net, w.read i d = .ok net → net.edges.ids.Nodup) :
    balance w cfg net s = (es ++ .stored stored :: es', .ok ⟨⟩, f) := by
  have hread : ∀ {i : Nat} {net ch net' : Net} {s s' : w.State} {dim : Nat} {alphas : List ℚ} {loads : List Nat},
      Iterates w cfg i net ch net' s s' dim alphas loads → ch.edges.ids.Nodup := by
    intro _ _ _ _ _ _ _ _ _ h
    obtain ⟨s1, s2, s3, al, paths, -, -, h, -⟩ := h.steps
    exact hn _ _ _ h
  have hle : ∀ {i j : Nat} {net net' : Net} {s s' : w.State} {es : List Event},
      History w cfg i net s es j net' s' → i ≤ j := fun h => (updatedOf_history h).1
  have hlast : iterations w cfg cfg.numUpdates 1 stored s' = (.stored stored :: es', .ok ⟨⟩, f) := by
    have hst : storing w cfg cfg.numUpdates stored s' = (.ok [.stored stored], s'') := by
      unfold storing
      rw [if_pos (by unfold RunConfig.numIter; omega)]
      exact Step.bind_ok.mpr ⟨_, _, stage_ok.mpr h2, rfl⟩
    generalize hj : cfg.numUpdates + 1 = j at h3
    cases h3 with
    | nil => omega
    | cons hi hr =>
      cases hr with
      | nil => simp [iterations, hst, C71_iterates hi (hread hi)]
      | cons hi' hr => exact absurd (hle hr) (by omega)
  have key : ∀ {i j : Nat} {net net' : Net} {s s' : w.State} {es : List Event},
      History w cfg i net s es j net' s' → j = cfg.numUpdates →
      iterations w cfg cfg.numUpdates 1 net' s' = (.stored stored :: es', .ok ⟨⟩, f) →
      iterations w cfg i (cfg.numUpdates - i + 1) net s = (es ++ .stored stored :: es', .ok ⟨⟩, f) := by
    intro i j net net' s s' es h hj hl
    induction h with
    | nil => subst hj; simpa using hl
    | @cons i j net _ _ _ s _ _ _ _ _ _ hi hr ih =>
      have := hle hr
      have ih := ih hj hl
      rw [show cfg.numUpdates - i + 1 = (cfg.numUpdates - (i + 1) + 1) + 1 by omega]
      have hst : storing w cfg i net s = (.ok [], s) := by
        unfold storing
        rw [if_neg (by unfold RunConfig.numIter; omega)]
        rfl
      unfold iterations
      simp [hst, C71_iterates hi (hread hi), ih]
  exact key h1 rfl hlast

theorem loadsOf_history {i j : Nat} {net net' : Net} {s s' : w.State} {es : List Event}
    (h : History w cfg i net s es j net' s') : (loadsOf es).length = j - i := by
  induction h with
  | nil => simp [loadsOf]
  | cons _ hr ih =>
    have := (updatedOf_history hr).1
    simp only [loadsOf, List.filterMap_cons, List.length_cons] at ih ⊢
    omega

/-- The updates of a history if contracting doesn't change the graph. -/
theorem updates_history (hf : w.Faithful) {i j : Nat} {net net' : Net} {s s' : w.State} {es : List Event}
    (h : History w cfg i net s es j net' s') (hl : ∀ l ∈ loadsOf es, l ≠ []) :
    updates cfg.update i (loadsOf es) net = (.ok .finished, net') := by
  induction h with
  | nil => rfl
  | cons hi hr ih =>
    obtain ⟨s1, s2, s3, al, paths, h1, h2, h3, -⟩ := hi.steps
    obtain rfl := hf _ _ _ _ _ _ _ h1 h2 h3
    obtain ⟨done, h4⟩ := hi.updated
    have hne := hl _ (by simp only [loadsOf, List.filterMap_cons]; exact List.mem_cons_self)
    obtain ⟨-, -, -, -, -, -, -, -, -, hd⟩ := update_ok h4
    cases done with
    | nanMean => exact absurd (hd.mp rfl).1 hne
    | finished =>
      have ih := ih fun l hl' => hl l (by
        simp only [loadsOf, List.filterMap_cons]
        exact List.mem_cons_of_mem _ hl')
      simp only [loadsOf, List.filterMap_cons] at ih ⊢
      unfold updates
      rw [h4]
      exact ih

/-- C71: if contracting doesn't change the graph, then the stored metric is, by averaging and without a minimum, the
average of the relative workloads of as many iterations as updates are asked for; without any update, the graph is
stored as it is. -/
theorem C71_average {net : Net} {s f : w.State} {es : List Event} (h : balance w cfg net s = (es, .ok ⟨⟩, f))
    (hf : w.Faithful) (hn : net.edges.ids.Nodup) {k : Nat} (hk : net.edges.ids[k]? = some cfg.update.metricId)
    (hc : cfg.update.method = .averaging) (hm : cfg.update.minNewMetric = none)
    (hl : ∀ l ∈ loadsOf es, l.length = net.graph.metrics.length) :
    ∃ stored, storedOf es = [stored] ∧ (loadsOf es).length = cfg.numUpdates + 1 ∧
      (cfg.numUpdates = 0 → stored = net) ∧
      (cfg.numUpdates ≠ 0 → ∀ e < net.graph.metrics.length, value stored.graph.metrics e k =
        some (average (((loadsOf es).take cfg.numUpdates).map fun l => relative l e))) := by
  obtain ⟨es', es'', stored, last, s', s'', rfl, h1, h2, -, h3, -, -⟩ := C71_stored h
  have hsplit : loadsOf (es' ++ .stored stored :: es'') = loadsOf es' ++ loadsOf es'' := by
    simp [loadsOf, List.filterMap_append]
  have hlen : (loadsOf es').length = cfg.numUpdates := by
    rw [loadsOf_history h2, Nat.sub_zero]
  refine ⟨stored, h1, ?_, ?_, ?_⟩
  · rw [hsplit, List.length_append, hlen, loadsOf_history h3]
    omega
  · intro h0
    rw [h0] at h2
    cases h2 with
    | nil => rfl
    | cons _ hr => exact absurd (updatedOf_history hr).1 (by omega)
  · intro h0 e he
    have hu := updates_history hf h2 (fun l hmem => by
      have := hl l (by rw [hsplit]; exact List.mem_append_left _ hmem)
      rintro rfl
      simp only [List.length_nil] at this
      omega)
    rw [hsplit, ← hlen, List.take_left']
    · exact C60_averaging hu hn hk hc hm (fun l hmem => hl l (by rw [hsplit]; exact List.mem_append_left _ hmem))
        (fun h => h0 (by rw [← hlen, h]; rfl)) he
    · rfl

/-! ## A sample -/

/-- Nothing is contracted, and the workloads are given. The state are the written graph and the workloads. -/
def exWorld : World where
  State := Net × List (List Nat)
  store _ s := (.ok ⟨⟩, s)
  write _ net s := (.ok ⟨⟩, net, s.2)
  contract _ _ s := (.ok ⟨⟩, s)
  read _ s := .ok s.1
  alphas net _ := .ok (net.edges.ids.map fun _ => 1)
  simulate _ _ _
    | (net, []) => (.err ⟨⟩, net, [])
    | (net, l :: ls) => (.ok (l, none), net, ls)
  stats _ _ _ _ s := (.ok ⟨⟩, s)

/-- Two updates. -/
def exRun : RunConfig where
  update := exAvg
  numUpdates := 2
  dim := 2

def exState : exWorld.State := (exS, [[0, 4, 2, 2], [1, 1, 1, 1], [4, 0, 0, 4]])

def exEvents : List Event := (balance exWorld exRun exS exState).1

theorem exRun_ok : ∃ f, balance exWorld exRun exS exState = (exEvents, .ok ⟨⟩, f) := by
  have h : (balance exWorld exRun exS exState).2.1 = .ok ⟨⟩ := by decide +kernel
  exact ⟨(balance exWorld exRun exS exState).2.2, by rw [← h]; rfl⟩

theorem exWorld_faithful : exWorld.Faithful := by
  intro i dim net s s1 s2 net' h1 h2 h3
  have e1 : (net, s.2) = s1 := congrArg Prod.snd h1
  have e2 : s1 = s2 := congrArg Prod.snd h2
  subst e1
  subst e2
  exact (Res.ok.inj h3).symm

/-- The third simulation has no influence on what is stored. -/
example : ∃ stored, storedOf exEvents = [stored] ∧ value stored.graph.metrics 0 0 = some (1 / 2) ∧
    value stored.graph.metrics 1 0 = some (3 / 2) := by
  obtain ⟨f, hok⟩ := exRun_ok
  obtain ⟨stored, h1, -, -, h2⟩ := C71_average hok exWorld_faithful exS_nodup exS_id rfl rfl (by decide +kernel)
  have h2 := h2 (by decide)
  refine ⟨stored, h1, ?_, ?_⟩
  · rw [h2 0 (by decide +kernel)]
    decide +kernel
  · rw [h2 1 (by decide +kernel)]
    decide +kernel

/-- The first iteration is contracted with one dimension less, and simulated without the new metric. -/
example : exEvents.take 1 = [.contracted 0 1] ∧
    (exEvents.filterMap fun
      | .simulated i _ alphas => some (i, alphas)
      | _ => none) = [(0, [0]), (1, [1]), (2, [1])] := by
  decide +kernel

/-- The hypotheses of `C71_succeeds`. -/
example : ∃ stored last s' s'' f es es',
    History exWorld exRun 0 exS exState es exRun.numUpdates stored s' ∧
    exWorld.store stored s' = (.ok ⟨⟩, s'') ∧
    History exWorld exRun exRun.numUpdates stored s'' es' (exRun.numUpdates + 1) last f := by
  obtain ⟨f, hok⟩ := exRun_ok
  obtain ⟨es', es'', stored, last, s', s'', -, -, h2, h3, h4, -, -⟩ := C71_stored hok
  exact ⟨stored, last, s', s'', f, es', es'', h2, h3, h4⟩

/-- C71 is false for failing runs: the balanced graph may be stored although the run fails afterwards, here since
there are no more workloads. -/
theorem C71_false_stored_then_error : ∃ stored,
    (balance exWorld { exRun with numUpdates := 1 } exS (exS, [[0, 4, 2, 2]])).2.1 = .err (.stage .simulate) ∧
    storedOf (balance exWorld { exRun with numUpdates := 1 } exS (exS, [[0, 4, 2, 2]])).1 = [stored] :=
  ⟨(updates exAvg 0 [[0, 4, 2, 2]] exS).2, by decide +kernel, by decide +kernel⟩

/-- The hypotheses of `C71_false_no_dimension`. -/
example : balance exWorld { exRun with dim := 0 } exS (exS, [[0, 4, 2, 2]]) = ([], .panic, exS, [[0, 4, 2, 2]]) :=
  C71_false_no_dimension (w := exWorld) rfl (by decide) rfl

end Verif.Bal
