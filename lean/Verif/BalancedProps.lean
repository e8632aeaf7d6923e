import Verif.BalancedLemmas

/-!
# Properties of the balanced metric if graphs are contracted between the updates

C98
-/

namespace Verif.Bal

open Text Gen

variable {w : World} {cfg : RunConfig}

/-- What is stored is the graph after the last of the wanted updates. -/
theorem stored_round {net : Net} {s f : w.State} {es : List Event} (h : balance w cfg net s = (es, .ok ⟨⟩, f))
    (h0 : cfg.numUpdates ≠ 0) :
    ∃ stored n r, storedOf es = [stored] ∧ cfg.numUpdates = n + 1 ∧
      ((roundsOf es).take cfg.numUpdates)[n]? = some r ∧ r.after = stored ∧
      (roundsOf es).length = cfg.numUpdates + 1 ∧
      (∀ (n : Nat) (r : Round), (roundsOf es)[n]? = some r →
        ∃ d, update n r.loads r.before cfg.update = (.ok d, r.after)) := by
  obtain ⟨es', es'', stored, last, s', s'', rfl, h1, h2, -, h3, -, -⟩ := C71_stored h
  obtain ⟨n, hn⟩ := Nat.exists_eq_succ_of_ne_zero h0
  have hr : roundsOf (es' ++ .stored stored :: es'') = roundsOf es' ++ roundsOf es'' := by
    rw [roundsOf_append]
    rfl
  obtain ⟨l1, u1, e1⟩ := roundsOf_history h2
  obtain ⟨l2, u2, -⟩ := roundsOf_history h3
  obtain ⟨r, hr1, hr2⟩ := e1 n (by omega)
  refine ⟨stored, n, r, h1, hn, ?_, hr2, ?_, ?_⟩
  · rw [List.getElem?_take_of_lt (by omega), hr, List.getElem?_append_left (lt_of_some hr1)]
    exact hr1
  · rw [hr, List.length_append, l1, l2]
    omega
  · intro m r hm
    rw [hr] at hm
    by_cases hlt : m < (roundsOf es').length
    · rw [List.getElem?_append_left hlt] at hm
      have := u1 m r hm
      rwa [Nat.zero_add] at this
    · rw [List.getElem?_append_right (by omega)] at hm
      have := u2 _ r hm
      rwa [l1, show cfg.numUpdates + (m - (cfg.numUpdates - 0)) = m by omega] at this

/-- The updates of the iterations that matter for what is stored. -/
theorem take_updates {rs : List Round} {n : Nat}
    (hu : ∀ (n : Nat) (r : Round), rs[n]? = some r → ∃ d, update n r.loads r.before cfg.update = (.ok d, r.after))
    (m : Nat) (r : Round) (hr : (rs.take n)[m]? = some r) :
    ∃ d, update m r.loads r.before cfg.update = (.ok d, r.after) := by
  refine hu m r ?_
  rw [List.getElem?_take] at hr
  split at hr
  · exact hr
  · simp at hr

/-! ## C98 -/

/-- C98: by averaging, with or without a minimum, and whatever shortcuts there are: a street that has been used at least
as often as another one in every iteration isn't less expensive in the stored graph. -/
theorem C98_monotone {net : Net} {s f : w.State} {es : List Event} (h : balance w cfg net s = (es, .ok ⟨⟩, f))
    (hc : cfg.update.method = .averaging) (h0 : cfg.numUpdates ≠ 0)
    (hs : ∀ r ∈ (roundsOf es).take cfg.numUpdates, r.Sound) {round : ℚ → ℚ} (hr : Monotone round)
    (hl : Linked cfg.update.metricId round ((roundsOf es).take cfg.numUpdates)) :
    ∃ stored, storedOf es = [stored] ∧ ((roundsOf es).take cfg.numUpdates).length = cfg.numUpdates ∧
      ∀ e id v e' id' v', Street stored.graph e id → HasMetric stored cfg.update.metricId e v →
        Street stored.graph e' id' → HasMetric stored cfg.update.metricId e' v' →
        ∃ ls ls', List.Forall₂ (fun r l => Round.Used r id l) ((roundsOf es).take cfg.numUpdates) ls ∧
          List.Forall₂ (fun r l => Round.Used r id' l) ((roundsOf es).take cfg.numUpdates) ls' ∧
          (List.Forall₂ (· ≤ ·) ls ls' → v ≤ v') := by
  obtain ⟨stored, n, r, h1, h2, h3, rfl, h5, h6⟩ := stored_round h h0
  refine ⟨r.after, h1, by rw [List.length_take]; omega, ?_⟩
  intro e id v e' id' v' a1 a2 a3 a4
  obtain ⟨F, hF, hall⟩ := rounds_induct (Good := fun _ => Mono) hc (take_updates h6) hs hl
    (fun r k _ _ p1 p2 => nextValue_mono hc (fun _ _ _ => le_refl _) p1 p2 (fun _ _ _ => le_refl _))
    (fun n r k F _ _ p1 p2 hF => nextValue_mono hc hr p1 p2 hF) n r h3 ⟨e, id, v, a1, a2⟩
  obtain ⟨ls, b1, rfl⟩ := hall e id v a1 a2
  obtain ⟨ls', b2, rfl⟩ := hall e' id' v' a3 a4
  rw [List.take_take, h2, Nat.min_self] at b1 b2
  rw [h2]
  exact ⟨ls, ls', b1, b2, hF ls ls'⟩

/-- C98: by averaging without a minimum, the stored metric is the same sum of workloads for all streets, with positive
weights that depend on the iteration only. The metric from before the first iteration doesn't matter. -/
theorem C98_weights {net : Net} {s f : w.State} {es : List Event} (h : balance w cfg net s = (es, .ok ⟨⟩, f))
    (hc : cfg.update.method = .averaging) (hm : cfg.update.minNewMetric = none) (h0 : cfg.numUpdates ≠ 0)
    (hs : ∀ r ∈ (roundsOf es).take cfg.numUpdates, r.Sound)
    (hl : Linked cfg.update.metricId id ((roundsOf es).take cfg.numUpdates)) :
    ∃ stored weights, storedOf es = [stored] ∧ weights.length = cfg.numUpdates ∧ (∀ c ∈ weights, 0 < c) ∧
      ∀ e id v, Street stored.graph e id → HasMetric stored cfg.update.metricId e v →
        ∃ ls, List.Forall₂ (fun r l => Round.Used r id l) ((roundsOf es).take cfg.numUpdates) ls ∧
          v = weighted weights ls := by
  obtain ⟨stored, n, r, h1, h2, h3, rfl, h5, h6⟩ := stored_round h h0
  by_cases hex : ∃ e id v, Street r.after.graph e id ∧ HasMetric r.after cfg.update.metricId e v
  · obtain ⟨F, ⟨cs, c1, c2, c3⟩, hall⟩ := rounds_induct (Good := Weighted) hc (take_updates h6) hs hl
      (fun r k _ _ p1 p2 => nextValue_first hc hm p1 p2)
      (fun n r k F _ _ p1 p2 hF => nextValue_next hc hm p1 p2 hF) n r h3 hex
    refine ⟨r.after, cs, h1, by rw [c1, h2], c2, fun e id v a1 a2 => ?_⟩
    obtain ⟨ls, b1, rfl⟩ := hall e id v a1 a2
    rw [List.take_take, h2, Nat.min_self] at b1
    rw [h2]
    refine ⟨ls, b1, c3 ls ?_⟩
    rw [← b1.length_eq, List.length_take]
    omega
  · exact ⟨r.after, List.replicate cfg.numUpdates 1, h1, List.length_replicate,
      fun c hc => by rw [List.eq_of_mem_replicate hc]; exact one_pos,
      fun e id v a1 a2 => absurd ⟨e, id, v, a1, a2⟩ hex⟩

/-- C98: if furthermore the metric's values have a mean of one whenever they are taken over, which they have unless there
are shortcuts, the stored metric is the average of relative workloads. What is missing: with
shortcuts, see `C98_false_average`. -/
theorem C98_average_partial {net : Net} {s f : w.State} {es : List Event} (h : balance w cfg net s = (es, .ok ⟨⟩, f))
    (hc : cfg.update.method = .averaging) (hm : cfg.update.minNewMetric = none) (h0 : cfg.numUpdates ≠ 0)
    (hs : ∀ r ∈ (roundsOf es).take cfg.numUpdates, r.Sound)
    (hl : Linked cfg.update.metricId id ((roundsOf es).take cfg.numUpdates))
    (hone : ∀ (i : Nat) (r : Round) (k : Nat), ((roundsOf es).take cfg.numUpdates)[i + 1]? = some r →
      r.before.edges.ids[k]? = some cfg.update.metricId → mean r.before.graph.metrics k = 1) :
    ∃ stored, storedOf es = [stored] ∧
      ∀ e id v, Street stored.graph e id → HasMetric stored cfg.update.metricId e v →
        ∃ ls, List.Forall₂ (fun r l => Round.Used r id l) ((roundsOf es).take cfg.numUpdates) ls ∧
          v = average (List.zipWith (fun r (l : Nat) => (l : ℚ) / Round.avg r)
            ((roundsOf es).take cfg.numUpdates) ls) := by
  obtain ⟨stored, n, r, h1, h2, h3, rfl, h5, h6⟩ := stored_round h h0
  refine ⟨r.after, h1, fun e id v a1 a2 => ?_⟩
  obtain ⟨F, hF, hall⟩ := rounds_induct (Good := Averaged ((roundsOf es).take cfg.numUpdates)) hc (take_updates h6) hs hl
    (fun r k hr _ p1 _ => by
      obtain ⟨d, hd⟩ := take_updates h6 _ _ hr
      exact averaged_first hc hm hr
        (average_targets_one hc hm hd (hs r (List.mem_of_getElem? hr)) p1 (.inl rfl)))
    (fun n r k F hr hk p1 _ hF => by
      obtain ⟨d, hd⟩ := take_updates h6 _ _ hr
      exact averaged_next hc hm hr
        (average_targets_one hc hm hd (hs r (List.mem_of_getElem? hr)) p1 (.inr (hone n r k hr hk))) hF)
    n r h3 ⟨e, id, v, a1, a2⟩
  obtain ⟨ls, b1, rfl⟩ := hall e id v a1 a2
  rw [List.take_take, h2, Nat.min_self] at b1
  rw [h2] at hF ⊢
  refine ⟨ls, b1, ?_⟩
  rw [hF ls ?_, List.take_take, Nat.min_self]
  rw [← b1.length_eq, List.length_take]
  omega

/-- C98: by averaging without a minimum, and if zeros are errors, a run succeeds only if every edge of the first
contracted graph has been used. Shortcuts never are, since paths are flattened before they are counted; so then a run
succeeds only without any shortcuts. -/
theorem C98_all_used {net : Net} {s f : w.State} {es : List Event} (h : balance w cfg net s = (es, .ok ⟨⟩, f))
    (hc : cfg.update.method = .averaging) (hm : cfg.update.minNewMetric = none) (hz : cfg.update.isErrWhenZero = true) :
    ∃ r, (roundsOf es)[0]? = some r ∧ ∀ (e n : Nat), r.loads[e]? = some n → 0 < n := by
  obtain ⟨es', es'', stored, last, s', s'', rfl, h1, h2, -, h3, -, -⟩ := C71_stored h
  have hr : roundsOf (es' ++ .stored stored :: es'') = roundsOf es' ++ roundsOf es'' := by
    rw [roundsOf_append]
    rfl
  obtain ⟨l1, u1, -⟩ := roundsOf_history h2
  obtain ⟨l2, u2, -⟩ := roundsOf_history h3
  obtain ⟨r, hr0, d, hd⟩ : ∃ r : Round, (roundsOf (es' ++ .stored stored :: es''))[0]? = some r ∧
      ∃ d, update 0 r.loads r.before cfg.update = (.ok d, r.after) := by
    rw [hr]
    by_cases h0 : cfg.numUpdates = 0
    · have hlt : 0 < (roundsOf es'').length := by rw [l2]; omega
      have hnil : roundsOf es' = [] := List.length_eq_zero_iff.mp (by rw [l1, h0])
      have h4 := u2 0 _ (List.getElem?_eq_getElem hlt)
      rw [h0] at h4
      exact ⟨_, by rw [hnil]; exact List.getElem?_eq_getElem hlt, h4⟩
    · have hlt : 0 < (roundsOf es').length := by rw [l1]; omega
      refine ⟨_, by rw [List.getElem?_append_left hlt]; exact List.getElem?_eq_getElem hlt, ?_⟩
      exact u1 0 _ (List.getElem?_eq_getElem hlt)
  refine ⟨r, hr0, fun e n he => Nat.pos_of_ne_zero ?_⟩
  rintro rfl
  obtain ⟨k, -, -, -, -, h5, -⟩ := update_ok hd
  have hmem : target cfg.update 0 ((value r.before.graph.metrics e k).getD 0) (relative r.loads e) ∈
      targets cfg.update 0 r.loads r.before.graph.metrics k :=
    List.mem_map.mpr ⟨e, List.mem_range.mpr (lt_of_some he), rfl⟩
  have := h5 hm hz _ hmem
  rw [target_free hc hm, relative, List.getD_eq_getElem?_getD, he] at this
  norm_num at this

/-! ## Samples -/

/-- Two streets, one after the other, and a shortcut for both. -/
def roads (a b : ℚ) : Net where
  graph :=
    { nodeIds := [10, 20, 30], nodeCoords := [⟨0, 0⟩, ⟨1, 1⟩, ⟨2, 2⟩], nodeLevels := [1, 0, 2],
      fwdDsts := [2, 1, 2], fwdOffsets := [0, 2, 3], fwdMap := [0, 1, 2],
      bwdDsts := [0, 0, 1], bwdOffsets := [0, 0, 1, 3], bwdMap := [1, 0, 2],
      metrics := [[a + b], [a], [b]], means := none,
      edgeIds := [none, some 1, some 2], idMap := [(1, 1), (2, 2)],
      scOffsets := [0, 1, 1, 1], scEdges := [(1, 2)], dim := 1 }
  nodes := []
  edges := exS.edges

/-- The graph is built of such edges. -/
example : Build.build 1
    [ { id := some 1, srcId := 10, dstId := 20, metrics := [2], sc := none },
      { id := none, srcId := 10, dstId := 30, metrics := [5], sc := some (0, 2) },
      { id := some 2, srcId := 20, dstId := 30, metrics := [3], sc := none } ]
    [ { id := 10, coord := ⟨0, 0⟩, level := some 1 }, { id := 20, coord := ⟨1, 1⟩, level := some 0 },
      { id := 30, coord := ⟨2, 2⟩, level := some 2 } ] = .ok (roads 2 3).graph := by decide +kernel

/-- Contracting adds the shortcut, whose metric is the sum. -/
def scWorld : World :=
  { exWorld with
    read := fun _ s => .ok (roads ((value s.1.graph.metrics 1 0).getD 0) ((value s.1.graph.metrics 2 0).getD 0)) }

/-- Three updates. -/
def scRun : RunConfig where
  update := exAvg
  numUpdates := 3
  dim := 2

def scState : scWorld.State := (roads 1 1, [[0, 2, 1], [0, 1, 2], [0, 3, 0], [0, 1, 0]])

def scEvents : List Event := (balance scWorld scRun (roads 1 1) scState).1

theorem scRun_ok : ∃ f, balance scWorld scRun (roads 1 1) scState = (scEvents, .ok ⟨⟩, f) := by
  have h : (balance scWorld scRun (roads 1 1) scState).2.1 = .ok ⟨⟩ := by decide +kernel
  exact ⟨(balance scWorld scRun (roads 1 1) scState).2.2, by rw [← h]; rfl⟩

theorem roads_street {a b : ℚ} {e id : Nat} (h : Street (roads a b).graph e id) : e = 1 ∧ id = 1 ∨ e = 2 ∧ id = 2 := by
  obtain ⟨h1, -⟩ := h
  have he : e < 3 := by
    by_contra hlt
    rw [Graph.tryId, List.getElem?_eq_none (by simpa [roads] using hlt)] at h1
    cases h1
  interval_cases e
  · cases h1
  · exact .inl ⟨rfl, (Option.some.inj (Res.ok.inj h1)).symm⟩
  · exact .inr ⟨rfl, (Option.some.inj (Res.ok.inj h1)).symm⟩

/-- The iterations of the sample. -/
def scRounds : List Round :=
  [⟨[0, 2, 1], roads 1 1, (update 0 [0, 2, 1] (roads 1 1) exAvg).2⟩,
   ⟨[0, 1, 2], roads 2 1, (update 1 [0, 1, 2] (roads 2 1) exAvg).2⟩,
   ⟨[0, 3, 0], roads 1 1, (update 2 [0, 3, 0] (roads 1 1) exAvg).2⟩]

theorem scRounds_eq : (roundsOf scEvents).take scRun.numUpdates = scRounds := by decide +kernel

theorem roads_metric {a b v : ℚ} {e : Nat} (h : HasMetric (roads a b) exAvg.metricId e v) :
    value (roads a b).graph.metrics e 0 = some v := by
  obtain ⟨k, h1, h2⟩ := h
  obtain rfl := key_unique exS_nodup exS_id h1
  exact h2

/-- Values of both streets. -/
theorem roads_taken {net : Net} {a b : ℚ} (h1 : Street net.graph 1 1) (h2 : Street net.graph 2 2)
    (h3 : HasMetric net exAvg.metricId 1 a) (h4 : HasMetric net exAvg.metricId 2 b) :
    TakenOver exAvg.metricId id net (roads a b) := by
  intro e id v hs hv
  have hv := roads_metric hv
  rcases roads_street hs with ⟨rfl, rfl⟩ | ⟨rfl, rfl⟩
  · exact ⟨1, a, h1, h3, (Option.some.inj hv).symm⟩
  · exact ⟨2, b, h2, h4, (Option.some.inj hv).symm⟩

theorem scRounds_linked : Linked exAvg.metricId id scRounds := by
  intro i r r' h1 h2
  match i, h1, h2 with
  | 0, h1, h2 =>
    obtain rfl := Option.some.inj h1
    obtain rfl := Option.some.inj h2
    exact roads_taken ⟨by decide +kernel, by decide +kernel⟩ ⟨by decide +kernel, by decide +kernel⟩
      ⟨0, by decide +kernel, by decide +kernel⟩ ⟨0, by decide +kernel, by decide +kernel⟩
  | 1, h1, h2 =>
    obtain rfl := Option.some.inj h1
    obtain rfl := Option.some.inj h2
    exact roads_taken ⟨by decide +kernel, by decide +kernel⟩ ⟨by decide +kernel, by decide +kernel⟩
      ⟨0, by decide +kernel, by decide +kernel⟩ ⟨0, by decide +kernel, by decide +kernel⟩
  | i + 2, h1, h2 => simp [scRounds] at h2

theorem scRounds_sound : ∀ r ∈ scRounds, r.Sound := by
  intro r hr
  simp only [scRounds, List.mem_cons, List.not_mem_nil, or_false] at hr
  rcases hr with rfl | rfl | rfl <;> exact ⟨rfl, exS_nodup⟩

/-- The hypotheses of `C98_monotone` and `C98_weights`: three updates with a shortcut. -/
example : ∃ stored weights, storedOf scEvents = [stored] ∧ weights.length = 3 ∧ (∀ c ∈ weights, 0 < c) ∧
    ∀ e id v, Street stored.graph e id → HasMetric stored exAvg.metricId e v →
      ∃ ls, List.Forall₂ (fun r l => Round.Used r id l) scRounds ls ∧ v = weighted weights ls := by
  obtain ⟨f, h⟩ := scRun_ok
  have h1 := C98_weights h rfl rfl (by decide) (by rw [scRounds_eq]; exact scRounds_sound)
    (by rw [scRounds_eq]; exact scRounds_linked)
  have h2 := C98_monotone h rfl (by decide) (by rw [scRounds_eq]; exact scRounds_sound) (round := id) monotone_id
    (by rw [scRounds_eq]; exact scRounds_linked)
  rw [scRounds_eq] at h1
  exact h1

/-- C98 is false, if there are shortcuts: in three iterations, the first street has been used 2, 1 and 3 times, the second
one 1, 2 and 0 times, each time by the same average over all edges. By average the first street has twice the workload,
but its metric is 5/2 of the second one's. -/
theorem C98_false_average : ∃ stored, storedOf scEvents = [stored] ∧
    (roundsOf scEvents).map (fun r => r.loads) = [[0, 2, 1], [0, 1, 2], [0, 3, 0], [0, 1, 0]] ∧
    Street stored.graph 1 1 ∧ Street stored.graph 2 2 ∧
    HasMetric stored exAvg.metricId 1 (15 / 11) ∧ HasMetric stored exAvg.metricId 2 (6 / 11) :=
  ⟨(update 2 [0, 3, 0] (roads 1 1) exAvg).2, by decide +kernel, by decide +kernel,
    ⟨by decide +kernel, by decide +kernel⟩, ⟨by decide +kernel, by decide +kernel⟩,
    ⟨0, by decide +kernel, by decide +kernel⟩, ⟨0, by decide +kernel, by decide +kernel⟩⟩

/-- C98 is false, if there are shortcuts: after the first update, the metric doesn't have a mean of one over the streets,
because the mean is taken over shortcuts as well. -/
theorem C98_false_mean : ∃ stored,
    storedOf (balance scWorld { scRun with numUpdates := 1 } (roads 1 1) scState).1 = [stored] ∧
    (balance scWorld { scRun with numUpdates := 1 } (roads 1 1) scState).2.1 = .ok ⟨⟩ ∧
    (∀ e id, Street stored.graph e id → e = 1 ∨ e = 2) ∧
    HasMetric stored exAvg.metricId 1 2 ∧ HasMetric stored exAvg.metricId 2 1 :=
  ⟨(update 0 [0, 2, 1] (roads 1 1) exAvg).2, by decide +kernel, by decide +kernel, fun e id h => by
    have h1 : update 0 [0, 2, 1] (roads 1 1) exAvg = (.ok .finished, (update 0 [0, 2, 1] (roads 1 1) exAvg).2) := by
      decide +kernel
    have h' : Street (roads 1 1).graph e id := .of_only (C40_untouched h1 exS_nodup exS_id) h
    rcases roads_street h' with ⟨h, -⟩ | ⟨h, -⟩
    · exact .inl h
    · exact .inr h, ⟨0, by decide +kernel, by decide +kernel⟩, ⟨0, by decide +kernel, by decide +kernel⟩⟩

/-- C98 is false, if zeros are errors, as they are by default: both streets are used, but the shortcut isn't, so the
balancer fails in the first iteration. -/
theorem C98_false_zero :
    (balance scWorld { scRun with update := { exAvg with isErrWhenZero := true } } (roads 1 1) scState).1 = [] ∧
    (balance scWorld { scRun with update := { exAvg with isErrWhenZero := true } } (roads 1 1) scState).2.1 =
      .err (.update .zeroMetric) := by
  decide +kernel

/-- The iterations of the sample in which nothing is contracted. -/
def exRounds : List Round :=
  [⟨[0, 4, 2, 2], exS, (update 0 [0, 4, 2, 2] exS exAvg).2⟩,
   ⟨[1, 1, 1, 1], (update 0 [0, 4, 2, 2] exS exAvg).2,
    (update 1 [1, 1, 1, 1] (update 0 [0, 4, 2, 2] exS exAvg).2 exAvg).2⟩]

theorem exRounds_eq : (roundsOf exEvents).take exRun.numUpdates = exRounds := by decide +kernel

/-- The hypotheses of `C98_average_partial`. -/
example : ∃ stored, storedOf exEvents = [stored] ∧
    ∀ e id v, Street stored.graph e id → HasMetric stored exAvg.metricId e v →
      ∃ ls, List.Forall₂ (fun r l => Round.Used r id l) exRounds ls ∧
        v = average (List.zipWith (fun r (l : Nat) => (l : ℚ) / Round.avg r) exRounds ls) := by
  obtain ⟨f, h⟩ := exRun_ok
  have hid : ∀ r ∈ exRounds, r.before.edges.ids = exS.edges.ids := by decide +kernel
  have h1 := C98_average_partial h rfl rfl (by decide) (by
      rw [exRounds_eq]
      intro r hr
      exact ⟨by revert r; decide +kernel, by rw [hid r hr]; exact exS_nodup⟩) (by
      rw [exRounds_eq]
      intro i r r' h1 h2
      match i, h1, h2 with
      | 0, h1, h2 =>
        obtain rfl := Option.some.inj h1
        obtain rfl := Option.some.inj h2
        exact fun e id v hs hv => ⟨e, v, hs, hv, rfl⟩
      | i + 1, h1, h2 => simp [exRounds] at h2) (by
      rw [exRounds_eq]
      intro i r k h1 h2
      rw [hid r (List.mem_of_getElem? h1)] at h2
      obtain rfl := key_unique exS_nodup exS_id h2
      match i, h1 with
      | 0, h1 =>
        obtain rfl := Option.some.inj h1
        decide +kernel
      | i + 1, h1 => simp [exRounds] at h1)
  rw [exRounds_eq] at h1
  exact h1

/-- Both have streets. -/
example : Street exS.graph 1 5 ∧ Street (roads 2 1).graph 1 1 :=
  ⟨⟨by decide +kernel, by decide +kernel⟩, ⟨by decide +kernel, by decide +kernel⟩⟩

/-- The hypotheses of `C98_all_used`. -/
example : ∃ r, (roundsOf (balance exWorld { exRun with update := { exAvg with isErrWhenZero := true } } exS
    (exS, [[1, 4, 2, 2], [1, 1, 1, 1], [4, 0, 0, 4]])).1)[0]? = some r ∧
    ∀ (e n : Nat), r.loads[e]? = some n → 0 < n := by
  have h : (balance exWorld { exRun with update := { exAvg with isErrWhenZero := true } } exS
      (exS, [[1, 4, 2, 2], [1, 1, 1, 1], [4, 0, 0, 4]])).2.1 = .ok ⟨⟩ := by decide +kernel
  exact C98_all_used (w := exWorld) (cfg := { exRun with update := { exAvg with isErrWhenZero := true } })
    (net := exS) (s := (exS, [[1, 4, 2, 2], [1, 1, 1, 1], [4, 0, 0, 4]])) (f := _) (es := _)
    (by rw [← h]) rfl rfl rfl

end Verif.Bal
