import Verif.BalancedSpec
import Verif.BalancingRunProps

/-!
# Lemmas about the balanced metric if graphs are contracted between the updates
-/

namespace Verif.Bal

open Text Gen

variable {w : World} {cfg : RunConfig}

theorem roundsOf_append (a b : List Event) : roundsOf (a ++ b) = roundsOf a ++ roundsOf b := by
  simp [roundsOf, List.filterMap_append]

theorem roundsOf_history {i j : Nat} {net net' : Net} {s s' : w.State} {es : List Event}
    (h : History w cfg i net s es j net' s') :
    (roundsOf es).length = j - i ∧
    (∀ (n : Nat) (r : Round), (roundsOf es)[n]? = some r →
      ∃ d, update (i + n) r.loads r.before cfg.update = (.ok d, r.after)) ∧
    (∀ n : Nat, j - i = n + 1 → ∃ r : Round, (roundsOf es)[n]? = some r ∧ r.after = net') := by
  induction h with
  | nil i net s => simp [roundsOf]
  | @cons i j net ch net' net'' s s' s'' dim alphas loads es hi hr ih =>
    obtain ⟨h1, h2, h3⟩ := ih
    have hle := (updatedOf_history hr).1
    have hcons : roundsOf (.contracted i dim :: .simulated i ch alphas :: .updated i loads ch net' :: es) =
        ⟨loads, ch, net'⟩ :: roundsOf es := rfl
    rw [hcons]
    refine ⟨by rw [List.length_cons, h1]; omega, ?_, ?_⟩
    · intro n r hn
      cases n with
      | zero =>
        simp only [List.getElem?_cons_zero, Option.some.injEq] at hn
        subst hn
        exact hi.updated
      | succ n =>
        rw [List.getElem?_cons_succ] at hn
        have := h2 n r hn
        rwa [show i + 1 + n = i + (n + 1) by omega] at this
    · intro n hn
      cases n with
      | zero =>
        refine ⟨_, rfl, ?_⟩
        have : j = i + 1 := by omega
        subst this
        cases hr with
        | nil => rfl
        | cons _ hr' => exact absurd (updatedOf_history hr').1 (by omega)
      | succ n =>
        obtain ⟨r, h4, h5⟩ := h3 n (by omega)
        exact ⟨r, by rwa [List.getElem?_cons_succ], h5⟩

theorem target_first {cfg : Config} (hc : cfg.method = .averaging) (a b rel : ℚ) :
    target cfg 0 a rel = target cfg 0 b rel := by
  simp [target, hc]

/-- The value of a street after an iteration, as a function of how often it has been used. -/
def nextValue (cfg : Config) (i : Nat) (r : Round) (k : Nat) (round : ℚ → ℚ) (F : List Nat → ℚ) (ls : List Nat) : ℚ :=
  target cfg i (round (F ls.dropLast)) ((ls.getLastD 0 : Nat) / r.avg) /
    average (targets cfg i r.loads r.before.graph.metrics k)

theorem Street.of_only {k n e id : Nat} {s s' : Net} (h : OnlyMetric k n s s') (hs : Street s'.graph e id) :
    Street s.graph e id := by
  obtain ⟨h1, h2⟩ := hs
  refine ⟨?_, ?_⟩
  · unfold Graph.tryId at h1 ⊢
    rwa [h.ids] at h1
  · unfold Graph.scEdgesOf Graph.isShortcut at h2 ⊢
    rwa [h.topology.scOffsets, h.topology.scEdges] at h2

theorem lt_of_hasMetric {net : Net} {metric : Text} {e : Nat} {v : ℚ} (h : HasMetric net metric e v) :
    e < net.graph.metrics.length := by
  obtain ⟨k, -, h⟩ := h
  obtain ⟨m, hm, -⟩ := value_eq_some.mp h
  exact lt_of_some hm

/-- A single iteration. -/
theorem round_step {cfg : Config} {i : Nat} {r : Round} {d : Done} (h : update i r.loads r.before cfg = (.ok d, r.after))
    (hs : r.Sound) {e id : Nat} {v : ℚ} (hst : Street r.after.graph e id) (hv : HasMetric r.after cfg.metricId e v) :
    ∃ k old l, r.before.edges.ids[k]? = some cfg.metricId ∧ Street r.before.graph e id ∧
      HasMetric r.before cfg.metricId e old ∧ r.loads[e]? = some l ∧
      v = target cfg i old ((l : Nat) / r.avg) / average (targets cfg i r.loads r.before.graph.metrics k) ∧
      0 < r.avg ∧ 0 < average (targets cfg i r.loads r.before.graph.metrics k) := by
  obtain ⟨k, h1, -, h3, h4, -, h6, -⟩ := update_ok h
  have he : e < r.loads.length := by
    rw [hs.1, ← h6.count]
    exact lt_of_hasMetric hv
  obtain ⟨old, ho, hnew⟩ := (C40_values h hs.2 h1).1 e he
  obtain ⟨k', hk', hv⟩ := hv
  rw [h6.edges] at hk'
  obtain rfl := key_unique hs.2 h1 hk'
  rw [hv, Option.some.injEq] at hnew
  have hne : r.loads ≠ [] := by rintro hn; simp [hn] at he
  refine ⟨k, old, r.loads[e], h1, .of_only h6 hst, ⟨k, h1, ho⟩, List.getElem?_eq_getElem he, ?_,
    lt_of_lt_of_le (by norm_num) (h3 hne), lt_of_lt_of_le (by norm_num) (h4 hne)⟩
  rw [hnew]
  simp only [relative, Round.avg, List.getD_eq_getElem?_getD, List.getElem?_eq_getElem he, Option.getD_some]

theorem forall₂_concat {α β : Type} {R : α → β → Prop} {as : List α} {bs : List β} {a : α} {b : β}
    (h : List.Forall₂ R as bs) (hab : R a b) : List.Forall₂ R (as ++ [a]) (bs ++ [b]) :=
  List.rel_append h (.cons hab .nil)

/-- Something that holds for the value as a function of how often streets have been used, by induction. -/
theorem rounds_induct {cfg : Config} {rs : List Round} {round : ℚ → ℚ} (hc : cfg.method = .averaging)
    (hu : ∀ (n : Nat) (r : Round), rs[n]? = some r → ∃ d, update n r.loads r.before cfg = (.ok d, r.after))
    (hs : ∀ r ∈ rs, r.Sound) (hl : Linked cfg.metricId round rs) {Good : Nat → (List Nat → ℚ) → Prop}
    (hfirst : ∀ (r : Round) (k : Nat), rs[0]? = some r → r.before.edges.ids[k]? = some cfg.metricId → 0 < r.avg →
      0 < average (targets cfg 0 r.loads r.before.graph.metrics k) → Good 0 (nextValue cfg 0 r k (fun _ => 0) fun _ => 0))
    (hnext : ∀ (n : Nat) (r : Round) (k : Nat) F, rs[n + 1]? = some r → r.before.edges.ids[k]? = some cfg.metricId →
      0 < r.avg → 0 < average (targets cfg (n + 1) r.loads r.before.graph.metrics k) → Good n F →
      Good (n + 1) (nextValue cfg (n + 1) r k round F)) (n : Nat) (r : Round) (hr : rs[n]? = some r) :
    (∃ e id v, Street r.after.graph e id ∧ HasMetric r.after cfg.metricId e v) →
    ∃ F, Good n F ∧ ∀ e id v, Street r.after.graph e id → HasMetric r.after cfg.metricId e v →
      ∃ ls, List.Forall₂ (fun r l => Round.Used r id l) (rs.take (n + 1)) ls ∧ v = F ls := by
  induction n generalizing r with
  | zero =>
    rintro ⟨e, id, v, h1, h2⟩
    obtain ⟨d, hup⟩ := hu 0 r hr
    have hsr := hs r (List.mem_of_getElem? hr)
    obtain ⟨k, old, l, h3, h4, h5, h6, h7, h8, h9⟩ := round_step hup hsr h1 h2
    refine ⟨_, hfirst r k hr h3 h8 h9, fun e id v h1 h2 => ?_⟩
    obtain ⟨k', old, l, h3', h4, h5, h6, h7, h8, h9⟩ := round_step hup hsr h1 h2
    obtain rfl := key_unique hsr.2 h3 h3'
    have ht : rs.take (0 + 1) = [r] := by
      cases rs with
      | nil => simp at hr
      | cons a rs => simpa using hr
    refine ⟨[l], by rw [ht]; exact .cons ⟨e, h4, h6⟩ .nil, ?_⟩
    rw [h7, target_first hc old 0]
    rfl
  | succ n ih =>
    rintro ⟨e, id, v, h1, h2⟩
    obtain ⟨d, hup⟩ := hu (n + 1) r hr
    have hsr := hs r (List.mem_of_getElem? hr)
    obtain ⟨r', hr'⟩ : ∃ r', rs[n]? = some r' := by
      have := lt_of_some hr
      exact ⟨rs[n], List.getElem?_eq_getElem (by omega)⟩
    have hlink := hl n r' r hr' hr
    obtain ⟨k, old, l, h3, h4, h5, h6, h7, h8, h9⟩ := round_step hup hsr h1 h2
    obtain ⟨e', v', h10, h11, -⟩ := hlink e id old h4 h5
    obtain ⟨F, hF, hall⟩ := ih r' hr' ⟨e', id, v', h10, h11⟩
    refine ⟨_, hnext n r k F hr h3 h8 h9 hF, fun e id v h1 h2 => ?_⟩
    obtain ⟨k', old, l, h3', h4, h5, h6, h7, h8, h9⟩ := round_step hup hsr h1 h2
    obtain rfl := key_unique hsr.2 h3 h3'
    obtain ⟨e', v', h10, h11, rfl⟩ := hlink e id old h4 h5
    obtain ⟨ls, h12, rfl⟩ := hall e' id v' h10 h11
    refine ⟨ls ++ [l], ?_, ?_⟩
    · rw [List.take_add_one, hr]
      exact forall₂_concat h12 ⟨e, h4, h6⟩
    · rw [h7]
      simp [nextValue]

theorem target_mono {cfg : Config} (hc : cfg.method = .averaging) {i : Nat} {a b x y : ℚ} (hab : a ≤ b) (hxy : x ≤ y) :
    target cfg i a x ≤ target cfg i b y := by
  have h : ((i : ℚ) * a + x) / (i + 1) ≤ ((i : ℚ) * b + y) / (i + 1) := by
    refine div_le_div_of_nonneg_right ?_ (by positivity)
    exact add_le_add (mul_le_mul_of_nonneg_left hab (by positivity)) hxy
  unfold target
  simp only [hc]
  cases cfg.minNewMetric with
  | none => exact h
  | some m =>
    dsimp only
    split_ifs with h1 h2
    · rfl
    · linarith
    · linarith
    · exact h

/-- Streets that are used more often are more expensive. -/
def Mono (F : List Nat → ℚ) : Prop := ∀ ls ls', List.Forall₂ (· ≤ ·) ls ls' → F ls ≤ F ls'

theorem forall₂_dropLast {ls ls' : List Nat} (h : List.Forall₂ (· ≤ ·) ls ls') :
    List.Forall₂ (· ≤ ·) ls.dropLast ls'.dropLast ∧ ls.getLastD 0 ≤ ls'.getLastD 0 := by
  induction h with
  | nil => exact ⟨.nil, le_refl _⟩
  | @cons a b as bs hab h ih =>
    cases h with
    | nil => exact ⟨.nil, by simpa using hab⟩
    | cons hcd h =>
      refine ⟨.cons hab ih.1, ?_⟩
      simpa using ih.2

theorem nextValue_mono {cfg : Config} (hc : cfg.method = .averaging) {i : Nat} {r : Round} {k : Nat} {round : ℚ → ℚ}
    {F : List Nat → ℚ} (hr : Monotone round) (h1 : 0 < r.avg)
    (h2 : 0 < average (targets cfg i r.loads r.before.graph.metrics k)) (hF : Mono F) :
    Mono (nextValue cfg i r k round F) := by
  intro ls ls' h
  obtain ⟨h3, h4⟩ := forall₂_dropLast h
  unfold nextValue
  refine div_le_div_of_nonneg_right (target_mono hc (hr (hF _ _ h3)) ?_) h2.le
  exact div_le_div_of_nonneg_right (by exact_mod_cast h4) h1.le

theorem weighted_concat {cs : List ℚ} {ls : List Nat} (h : cs.length = ls.length) (c : ℚ) (l : Nat) :
    weighted (cs ++ [c]) (ls ++ [l]) = weighted cs ls + c * l := by
  unfold weighted
  rw [List.zipWith_append h]
  simp

theorem weighted_map (cs : List ℚ) (ls : List Nat) (a : ℚ) : weighted (cs.map fun c => a * c) ls = a * weighted cs ls := by
  unfold weighted
  induction cs generalizing ls with
  | nil => simp
  | cons c cs ih =>
    cases ls with
    | nil => simp
    | cons l ls =>
      simp only [List.map_cons, List.zipWith_cons_cons, List.sum_cons, ih]
      ring

theorem weighted_eq_zipWith (cs : List ℚ) (ls : List Nat) :
    weighted cs ls = (List.zipWith (fun (c : ℚ) (l : Nat) => c * (l : ℚ)) cs ls).sum := rfl

/-- A positive combination. -/
def Weighted (n : Nat) (F : List Nat → ℚ) : Prop :=
  ∃ cs : List ℚ, cs.length = n + 1 ∧ (∀ c ∈ cs, 0 < c) ∧ ∀ ls, ls.length = n + 1 → F ls = weighted cs ls

theorem target_free {cfg : Config} (hc : cfg.method = .averaging) (hm : cfg.minNewMetric = none) (i : Nat) (a x : ℚ) :
    target cfg i a x = (i * a + x) / (i + 1) := by
  simp [target, hc, hm]

theorem nextValue_first {cfg : Config} (hc : cfg.method = .averaging) (hm : cfg.minNewMetric = none) {r : Round} {k : Nat}
    (h1 : 0 < r.avg) (h2 : 0 < average (targets cfg 0 r.loads r.before.graph.metrics k)) :
    Weighted 0 (nextValue cfg 0 r k (fun _ => 0) fun _ => 0) := by
  refine ⟨[1 / r.avg / average (targets cfg 0 r.loads r.before.graph.metrics k)], rfl, ?_, ?_⟩
  · intro c hc
    rw [List.mem_singleton.mp hc]
    positivity
  · intro ls hl
    obtain ⟨l, rfl⟩ := List.length_eq_one_iff.mp hl
    simp only [nextValue, target_free hc hm, weighted, List.zipWith_cons_cons, List.zipWith_nil_left, List.sum_cons,
      List.sum_nil, List.getLastD_cons, List.getLastD_nil]
    push_cast
    ring

theorem nextValue_next {cfg : Config} (hc : cfg.method = .averaging) (hm : cfg.minNewMetric = none) {n : Nat} {r : Round}
    {k : Nat} {F : List Nat → ℚ} (h1 : 0 < r.avg)
    (h2 : 0 < average (targets cfg (n + 1) r.loads r.before.graph.metrics k)) (hF : Weighted n F) :
    Weighted (n + 1) (nextValue cfg (n + 1) r k id F) := by
  obtain ⟨cs, h3, h4, h5⟩ := hF
  refine ⟨(cs.map fun c => ((n + 1 : ℚ) / (n + 2) / average (targets cfg (n + 1) r.loads r.before.graph.metrics k)) * c) ++
    [1 / r.avg / (n + 2) / average (targets cfg (n + 1) r.loads r.before.graph.metrics k)], by simp [h3], ?_, ?_⟩
  · intro c hc
    rcases List.mem_append.mp hc with hc | hc
    · obtain ⟨c', hc', rfl⟩ := List.mem_map.mp hc
      have := h4 c' hc'
      positivity
    · rw [List.mem_singleton.mp hc]
      positivity
  · intro ls hl
    obtain ⟨ls, l, rfl⟩ : ∃ ls' l, ls = ls' ++ [l] := by
      refine ⟨ls.dropLast, ls.getLast (by rintro rfl; simp at hl), ?_⟩
      exact (List.dropLast_append_getLast _).symm
    have hl' : ls.length = n + 1 := by simpa using hl
    rw [weighted_concat (by simp [h3, hl']), weighted_map, ← h5 ls hl']
    simp only [nextValue, target_free hc hm, List.dropLast_concat, List.getLastD_concat, id]
    push_cast
    field_simp
    ring

theorem average_targets_one {cfg : Config} (hc : cfg.method = .averaging) (hm : cfg.minNewMetric = none) {i : Nat}
    {r : Round} {d : Done} (h : update i r.loads r.before cfg = (.ok d, r.after)) (hs : r.Sound) {k : Nat}
    (h1 : 0 < r.avg) (hone : i = 0 ∨ mean r.before.graph.metrics k = 1) :
    average (targets cfg i r.loads r.before.graph.metrics k) = 1 := by
  have hne : r.loads ≠ [] := by
    intro h
    simp [Round.avg, h, average] at h1
  obtain ⟨-, -, -, h3, -⟩ := update_ok h
  have ht : ∀ old rel, target cfg i old rel = (i / (i + 1)) * old + (1 / (i + 1)) * rel := by
    intro old rel
    rw [target_free hc hm]
    ring
  have hi : ((i : ℚ) + 1) ≠ 0 := by positivity
  rw [average_targets ht hs.1 hne (h3 hne)]
  rcases hone with rfl | hone
  · simp
  · rw [hone]
    field_simp

/-- The average of relative workloads. -/
def Averaged (rs : List Round) (n : Nat) (F : List Nat → ℚ) : Prop :=
  ∀ ls, ls.length = n + 1 → F ls = average (List.zipWith (fun r (l : Nat) => (l : ℚ) / Round.avg r) (rs.take (n + 1)) ls)

theorem averaged_first {cfg : Config} (hc : cfg.method = .averaging) (hm : cfg.minNewMetric = none) {rs : List Round}
    {r : Round} {k : Nat} (hr : rs[0]? = some r) (h2 : average (targets cfg 0 r.loads r.before.graph.metrics k) = 1) :
    Averaged rs 0 (nextValue cfg 0 r k (fun _ => 0) fun _ => 0) := by
  intro ls hl
  obtain ⟨l, rfl⟩ := List.length_eq_one_iff.mp hl
  have ht : rs.take (0 + 1) = [r] := by
    cases rs with
    | nil => simp at hr
    | cons a rs => simpa using hr
  rw [ht, nextValue, h2, target_free hc hm]
  simp [average]

theorem averaged_next {cfg : Config} (hc : cfg.method = .averaging) (hm : cfg.minNewMetric = none) {rs : List Round}
    {n : Nat} {r : Round} {k : Nat} {F : List Nat → ℚ} (hr : rs[n + 1]? = some r)
    (h2 : average (targets cfg (n + 1) r.loads r.before.graph.metrics k) = 1) (hF : Averaged rs n F) :
    Averaged rs (n + 1) (nextValue cfg (n + 1) r k id F) := by
  intro ls hl
  obtain ⟨ls, l, rfl⟩ : ∃ ls' l, ls = ls' ++ [l] := by
    refine ⟨ls.dropLast, ls.getLast (by rintro rfl; simp at hl), ?_⟩
    exact (List.dropLast_append_getLast _).symm
  have hl' : ls.length = n + 1 := by simpa using hl
  have hlen : (rs.take (n + 1)).length = ls.length := by
    rw [List.length_take, hl']
    have := lt_of_some hr
    omega
  rw [List.take_add_one, hr, nextValue, h2, target_free hc hm, List.dropLast_concat, id, hF ls hl', Option.toList_some,
    List.zipWith_append hlen]
  simp only [average, List.sum_append, List.length_append, List.length_zipWith, hlen, hl', List.zipWith_cons_cons,
    List.zipWith_nil_left, List.sum_cons, List.sum_nil, List.length_cons, List.length_nil, Nat.min_self,
    List.getLastD_concat]
  push_cast
  field_simp
  ring

end Verif.Bal
