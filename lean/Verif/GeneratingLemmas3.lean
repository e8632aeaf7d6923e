import Verif.GeneratingLemmas2

/-!
# Lemmas about merging and normalizing
-/

namespace Verif.Gen

open Cfg Text

/-! ## Merging -/

theorem mergeEdge_ok {g : Graph} {edgeId : Text} {params : List Text} {i0 : Nat} {cols : List (Option Text)}
    {e : Nat} (h : mergeEdge g edgeId params i0 cols = .ok (some e)) :
    ∃ (i : Nat) (p : Text) (id : Nat), cols[i]? = some (some edgeId) ∧ (∀ j : Nat, j < i → cols[j]? ≠ some (some edgeId)) ∧
      params[i0 + i]? = some p ∧ parseNat maxUsize p = some id ∧ g.tryIdxFrom id = .ok e := by
  induction cols generalizing i0 with
  | nil => exact absurd h (by simp [mergeEdge])
  | cons c cols ih =>
    have step : c ≠ some edgeId → mergeEdge g edgeId params (i0 + 1) cols = .ok (some e) →
        ∃ (i : Nat) (p : Text) (id : Nat), (c :: cols)[i]? = some (some edgeId) ∧ (∀ j : Nat, j < i → (c :: cols)[j]? ≠ some (some edgeId)) ∧
          params[i0 + i]? = some p ∧ parseNat maxUsize p = some id ∧ g.tryIdxFrom id = .ok e := by
      intro hne h
      obtain ⟨i, p, id, h1, h2, h3, h4⟩ := ih h
      refine ⟨i + 1, p, id, by simpa using h1, ?_, by rw [← h3]; congr 1; omega, h4⟩
      intro j hj
      cases j with
      | zero => simpa using hne
      | succ j => simpa using h2 j (by omega)
    cases c with
    | none => exact step (by simp) h
    | some id =>
      simp only [mergeEdge, Res.bind_eq_ok] at h
      obtain ⟨p, hp, h⟩ := h
      split at h
      · subst id
        split at h
        · exact absurd h (by simp)
        · rename_i raw hraw
          split at h
          · rename_i e' he'
            simp only [Res.ok.injEq, Option.some.injEq] at h
            subst h
            exact ⟨0, p, raw, by simp, by simp, by simpa using Res.ofIdx_eq_ok.mp hp, hraw, he'⟩
          · exact absurd h (by simp)
          · exact absurd h (by simp)
      · rename_i hne
        exact step (by simpa using hne) h

theorem mergeCols_ok {env : Env} {e : Edges} {edgeId : Text} {params : List Text} {i0 : Nat}
    {cols : List (Option Text)} {m m' : List ℚ} (h : mergeCols env e edgeId params i0 cols m = .ok m') (k : Nat) :
    ((∀ (j : Nat) (id : Text), cols[j]? = some (some id) → id ≠ edgeId → idxOf e id ≠ .ok k) → m'[k]? = m[k]?) ∧
    (∀ (j : Nat) (id : Text), cols[j]? = some (some id) → id ≠ edgeId → idxOf e id = .ok k →
      (∀ j' : Nat, j < j' → ∀ id' : Text, cols[j']? = some (some id') → id' ≠ edgeId → idxOf e id' ≠ .ok k) →
      ∃ p x, params[i0 + j]? = some p ∧ env.parseF p = some x ∧ m'[k]? = some x) := by
  induction cols generalizing i0 m with
  | nil =>
    simp only [mergeCols, Res.ok.injEq] at h
    subst h
    exact ⟨fun _ => rfl, by simp⟩
  | cons c cols ih =>
    -- a column that doesn't write
    have skip : (∀ id, c = some id → id = edgeId) → mergeCols env e edgeId params (i0 + 1) cols m = .ok m' →
        ((∀ (j : Nat) (id : Text), (c :: cols)[j]? = some (some id) → id ≠ edgeId → idxOf e id ≠ .ok k) → m'[k]? = m[k]?) ∧
        (∀ (j : Nat) (id : Text), (c :: cols)[j]? = some (some id) → id ≠ edgeId → idxOf e id = .ok k →
          (∀ j' : Nat, j < j' → ∀ id' : Text, (c :: cols)[j']? = some (some id') → id' ≠ edgeId → idxOf e id' ≠ .ok k) →
          ∃ p x, params[i0 + j]? = some p ∧ env.parseF p = some x ∧ m'[k]? = some x) := by
      intro hc h
      obtain ⟨h1, h2⟩ := ih h
      refine ⟨fun hno => h1 fun j id hj => hno (j + 1) id (by simpa using hj), fun j id hj hne hk hlast => ?_⟩
      cases j with
      | zero => exact absurd (hc id (by simpa using hj)) hne
      | succ j =>
        have := h2 j id (by simpa using hj) hne hk fun j' hj' id' hid' =>
          hlast (j' + 1) (by omega) id' (by simpa using hid')
        rwa [show i0 + (j + 1) = i0 + 1 + j by omega]
    cases c with
    | none => exact skip (by simp) h
    | some id =>
      simp only [mergeCols] at h
      split at h
      · rename_i heq
        exact skip (by simpa using heq) h
      · rename_i hne
        simp only [Res.bind_eq_ok] at h
        obtain ⟨k0, hk0, p, hp, h⟩ := h
        split at h
        · exact absurd h (by simp)
        rename_i x hx
        split at h
        swap
        · exact absurd h (by simp)
        rename_i hlt
        obtain ⟨h1, h2⟩ := ih h
        constructor
        · intro hno
          rw [h1 fun j id hj => hno (j + 1) id (by simpa using hj)]
          have : k0 ≠ k := fun hh => hno 0 id (by simp) hne (by rw [hk0, hh])
          rw [List.getElem?_set_ne this]
        · intro j id' hj hne' hk hlast
          cases j with
          | zero =>
            simp only [List.getElem?_cons_zero, Option.some.injEq] at hj
            subst hj
            rw [hk0, Res.ok.injEq] at hk
            subst hk
            refine ⟨p, x, by simpa using Res.ofIdx_eq_ok.mp hp, hx, ?_⟩
            rw [h1 fun j id hj => hlast (j + 1) (by omega) id (by simpa using hj)]
            simp [hlt]
          | succ j =>
            have := h2 j id' (by simpa using hj) hne' hk fun j' hj' id' hid' =>
              hlast (j' + 1) (by omega) id' (by simpa using hid')
            rwa [show i0 + (j + 1) = i0 + 1 + j by omega]

/-- With unique names, the index of a name is its position. -/
theorem idxOf_iff {e : Edges} (hn : e.ids.Nodup) {id : Text} {k : Nat} :
    idxOf e id = .ok k ↔ e.ids[k]? = some id := by
  refine ⟨idxOf_ok, fun h => ?_⟩
  have hlt := lt_of_some h
  have : e.ids.findIdx? (fun i => decide (i = id)) = some k := by
    rw [List.findIdx?_eq_some_iff_getElem]
    rw [List.getElem?_eq_getElem hlt, Option.some.injEq] at h
    refine ⟨hlt, by simpa using h, fun j hj => ?_⟩
    simp only [decide_eq_true_eq]
    intro hh
    have := (List.Nodup.getElem_inj_iff hn (hi := by omega) (hj := hlt)).mp (hh.trans h.symm)
    omega
  unfold idxOf Edges.tryIdxOf
  rw [this]

/-- What one line does. -/
theorem mergeLine_ok {env : Env} {s : Net} {edgeId : Text} {cols : List (Option Text)} {ms ms' : List (List ℚ)}
    {line : Text} (h : mergeLine env s edgeId cols ms line = .ok ms') :
    ∃ e m m', mergeEdge s.graph edgeId (words line) 0 cols = .ok (some e) ∧ ms[e]? = some m ∧
      mergeCols env s.edges edgeId (words line) 0 cols m = .ok m' ∧ ms' = ms.set e m' := by
  unfold mergeLine at h
  simp only [Res.bind_eq_ok] at h
  obtain ⟨o, ho, h⟩ := h
  cases o with
  | none => exact absurd h (by simp)
  | some e =>
    simp only [Res.bind_eq_ok, Res.pure_eq, Res.ok.injEq] at h
    obtain ⟨m, hm, m', hm', rfl⟩ := h
    exact ⟨e, m, m', ho, Res.ofIdx_eq_ok.mp hm, hm', rfl⟩

/-! ## Normalizing -/

theorem foldl_addVec {n : Nat} {ms : List (List ℚ)} {acc : List ℚ} (hm : ∀ m ∈ ms, m.length = n)
    (ha : acc.length = n) : (ms.foldl addVec acc).length = n ∧
      ∀ k, k < n → (ms.foldl addVec acc)[k]? = some (acc.getD k 0 + (ms.map fun m => m.getD k 0).sum) := by
  induction ms generalizing acc with
  | nil =>
    refine ⟨ha, fun k hk => ?_⟩
    simp [List.getD_eq_getElem?_getD, List.getElem?_eq_getElem (ha ▸ hk : k < acc.length)]
  | cons m ms ih =>
    have hm0 := hm m (by simp)
    have hl : (addVec acc m).length = n := by simp [addVec, ha, hm0]
    obtain ⟨h1, h2⟩ := ih (acc := addVec acc m) (fun m hm' => hm m (by simp [hm'])) hl
    refine ⟨h1, fun k hk => ?_⟩
    rw [List.foldl_cons, h2 k hk]
    have ha' : k < acc.length := ha ▸ hk
    have hm' : k < m.length := hm0 ▸ hk
    simp [addVec, List.getD_eq_getElem?_getD, List.getElem?_zipWith, List.getElem?_eq_getElem ha',
      List.getElem?_eq_getElem hm', add_assoc]

theorem meansOf_get {n : Nat} {ms : List (List ℚ)} (hm : ∀ m ∈ ms, m.length = n) :
    (meansOf n ms ms.length).length = n ∧
      ∀ k, k < n → (meansOf n ms ms.length)[k]? = some (mean ms k) := by
  obtain ⟨h1, h2⟩ := foldl_addVec (acc := List.replicate n 0) hm (by simp)
  refine ⟨by simpa [meansOf] using h1, fun k hk => ?_⟩
  unfold meansOf mean
  rw [List.getElem?_map, h2 k hk]
  simp [hk]

/-- What becomes of a value. -/
def normalized (x mean : ℚ) : ℚ := if Approx.eq (x / mean) 0 then eps else x / mean

theorem divide_ok {means m m' : List ℚ} {i : Nat} (h : divide means i m = .ok m') :
    m'.length = m.length ∧ ∀ (k : Nat) (x : ℚ), m[k]? = some x →
      ∃ μ, means[i + k]? = some μ ∧ m'[k]? = some (normalized x μ) := by
  induction m generalizing i m' with
  | nil =>
    simp only [divide, Res.ok.injEq] at h
    subst h
    exact ⟨rfl, by simp⟩
  | cons x m ih =>
    simp only [divide, Res.bind_eq_ok, Res.pure_eq, Res.ok.injEq] at h
    obtain ⟨μ, hμ, rest, hr, rfl⟩ := h
    obtain ⟨h1, h2⟩ := ih hr
    refine ⟨by simp [h1], fun k y hk => ?_⟩
    cases k with
    | zero =>
      simp only [List.getElem?_cons_zero, Option.some.injEq] at hk
      subst hk
      exact ⟨μ, by simpa using Res.ofIdx_eq_ok.mp hμ, rfl⟩
    | succ k =>
      obtain ⟨μ', h3, h4⟩ := h2 k y (by simpa using hk)
      exact ⟨μ', by rw [← h3]; congr 1; omega, by simpa using h4⟩

theorem divide_total {means m : List ℚ} {i : Nat} (h : i + m.length ≤ means.length) :
    ∃ m', divide means i m = .ok m' := by
  induction m generalizing i with
  | nil => exact ⟨[], rfl⟩
  | cons x m ih =>
    simp only [List.length_cons] at h
    obtain ⟨m', hm'⟩ := ih (i := i + 1) (by omega)
    have hlt : i < means.length := by omega
    refine ⟨(if Approx.eq (x / means[i]) 0 then eps else x / means[i]) :: m', ?_⟩
    simp only [divide, List.getElem?_eq_getElem hlt, Res.ofIdx_some, Res.ok_bind, hm', Res.pure_eq]

theorem divideAll_ok {means : List ℚ} {ms ms' : List (List ℚ)} (h : divideAll means ms = .ok ms') :
    ms'.length = ms.length ∧ ∀ (e : Nat) (m : List ℚ), ms[e]? = some m →
      ∃ m', ms'[e]? = some m' ∧ divide means 0 m = .ok m' := by
  induction ms generalizing ms' with
  | nil =>
    simp only [divideAll, Res.ok.injEq] at h
    subst h
    exact ⟨rfl, by simp⟩
  | cons m ms ih =>
    simp only [divideAll, Res.bind_eq_ok, Res.pure_eq, Res.ok.injEq] at h
    obtain ⟨m', hm', rest, hr, rfl⟩ := h
    obtain ⟨h1, h2⟩ := ih hr
    refine ⟨by simp [h1], fun e x he => ?_⟩
    cases e with
    | zero =>
      simp only [List.getElem?_cons_zero, Option.some.injEq] at he
      subst he
      exact ⟨m', rfl, hm'⟩
    | succ e =>
      obtain ⟨m'', h3, h4⟩ := h2 e x (by simpa using he)
      exact ⟨m'', by simpa using h3, h4⟩

theorem divideAll_total {means : List ℚ} {ms : List (List ℚ)} (h : ∀ m ∈ ms, m.length ≤ means.length) :
    ∃ ms', divideAll means ms = .ok ms' := by
  induction ms with
  | nil => exact ⟨[], rfl⟩
  | cons m ms ih =>
    obtain ⟨m', hm'⟩ := divide_total (means := means) (m := m) (i := 0) (by simpa using h m (by simp))
    obtain ⟨rest, hr⟩ := ih fun m hm => h m (by simp [hm])
    exact ⟨m' :: rest, by simp only [divideAll, hm', Res.ok_bind, hr, Res.pure_eq]⟩

/-- The three outcomes of normalizing. -/
theorem normalize_cases {s : Net} (hn : s.edges.normalized = true) (hc : Consistent s)
    (hm : s.graph.metrics.length = s.graph.edgeCount) :
    (s.graph.metrics = [] ∧ normalize s = .err .noEdges) ∨
    (s.graph.metrics ≠ [] ∧ (∃ k < s.edges.units.length, Approx.eq (mean s.graph.metrics k) 0 = true) ∧
      normalize s = .err .zeroMean) ∨
    (s.graph.metrics ≠ [] ∧ (∀ k < s.edges.units.length, Approx.eq (mean s.graph.metrics k) 0 = false) ∧
      ∃ ms, divideAll (meansOf s.edges.units.length s.graph.metrics s.graph.metrics.length) s.graph.metrics = .ok ms ∧
        normalize s = .ok { s with graph := { s.graph with
          metrics := ms, means := some (meansOf s.edges.units.length s.graph.metrics s.graph.metrics.length) } }) := by
  obtain ⟨hl, hg⟩ := meansOf_get hc.values
  unfold normalize
  rw [if_pos hn]
  dsimp only
  rw [← hm]
  by_cases h0 : s.graph.metrics.length = 0
  · rw [if_pos h0]
    exact .inl ⟨List.length_eq_zero_iff.mp h0, rfl⟩
  · rw [if_neg h0]
    have hne : s.graph.metrics ≠ [] := fun h => h0 (by rw [h]; rfl)
    right
    by_cases ha : (meansOf s.edges.units.length s.graph.metrics s.graph.metrics.length).any
        fun mean => Approx.eq mean 0
    · left
      rw [if_pos ha]
      refine ⟨hne, ?_, rfl⟩
      obtain ⟨x, hx, hx'⟩ := List.any_eq_true.mp ha
      obtain ⟨k, hk, rfl⟩ := List.mem_iff_getElem.mp hx
      have := hg k (by omega)
      rw [List.getElem?_eq_getElem hk, Option.some.injEq] at this
      exact ⟨k, by omega, by rw [← this]; exact hx'⟩
    · right
      rw [if_neg ha]
      obtain ⟨ms, hms⟩ := divideAll_total
        (means := meansOf s.edges.units.length s.graph.metrics s.graph.metrics.length)
        (ms := s.graph.metrics) (fun m hm => by rw [hl, hc.values m hm])
      refine ⟨hne, fun k hk => ?_, ms, hms, by rw [hms, Res.ok_bind, Res.pure_eq]⟩
      rw [Bool.not_eq_true, List.any_eq_false] at ha
      simpa using ha _ (List.mem_of_getElem? (hg k hk))

end Verif.Gen
