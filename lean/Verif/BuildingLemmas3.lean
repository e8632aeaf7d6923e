import Verif.BuildingLemmas2
import Verif.GraphSpec

/-!
# Helper lemmas: id map, backward adjacency and the finalized graph
-/

namespace Verif
namespace Build

/-! ## Edge-id map -/

theorem idPairs_map_fst (es : List EdgeC) : ∀ i, (idPairs i es).map Prod.fst = es.filterMap EdgeC.id := by
  induction es with
  | nil => intro i; rfl
  | cons e es ih =>
    intro i
    cases h : e.id <;> simp [idPairs, h, ih]

theorem mem_idPairs (es : List EdgeC) : ∀ i id k, (id, k) ∈ idPairs i es ↔
    ∃ j e, k = i + j ∧ es[j]? = some e ∧ e.id = some id := by
  induction es with
  | nil => intro i id k; simp [idPairs]
  | cons e es ih =>
    intro i id k
    have key : (id, k) ∈ idPairs (i + 1) es ↔
        ∃ j e', k = i + (j + 1) ∧ (e :: es)[j + 1]? = some e' ∧ e'.id = some id := by
      rw [ih]
      simp only [List.getElem?_cons_succ]
      constructor <;> rintro ⟨j, e', h1, h2⟩ <;> exact ⟨j, e', by omega, h2⟩
    constructor
    · intro h
      cases hid : e.id with
      | none =>
        simp only [idPairs, hid] at h
        obtain ⟨j, e', h1, h2⟩ := key.mp h
        exact ⟨j + 1, e', h1, h2⟩
      | some x =>
        simp only [idPairs, hid, List.mem_cons, Prod.mk.injEq] at h
        rcases h with ⟨rfl, rfl⟩ | h
        · exact ⟨0, e, rfl, rfl, hid⟩
        · obtain ⟨j, e', h1, h2⟩ := key.mp h
          exact ⟨j + 1, e', h1, h2⟩
    · rintro ⟨j, e', h1, h2, h3⟩
      cases j with
      | zero =>
        simp only [List.getElem?_cons_zero, Option.some.injEq] at h2
        subst h2 h1
        simp [idPairs, h3]
      | succ j =>
        have := key.mpr ⟨j, e', h1, h2, h3⟩
        cases hid : e.id <;> simp [idPairs, hid, this]

theorem dedupGo_sublist {α κ : Type} [DecidableEq κ] (key : α → κ) (l : List α) :
    ∀ p, (dedupGo key p l).Sublist (p :: l) := by
  induction l with
  | nil => intro p; simp [dedupGo]
  | cons b l ih =>
    intro p
    unfold dedupGo
    split
    · exact (ih p).trans ((List.sublist_cons_self b l).cons_cons p)
    · exact (ih b).cons_cons p

theorem dedupGo_eq_of_strict {α : Type} {key : α → Nat} (l : List α) :
    ∀ p, (p :: l).Pairwise (fun a b => key a < key b) → dedupGo key p l = p :: l := by
  induction l with
  | nil => intro p _; rfl
  | cons b l ih =>
    intro p h
    rw [List.pairwise_cons] at h
    have := h.1 b (by simp)
    unfold dedupGo
    rw [if_neg (by omega), ih b h.2]

theorem idsIncreasing_of (l : List (Nat × Nat)) (h : l.Pairwise (fun a b => a.1 < b.1)) :
    idsIncreasing l = true := by
  induction l with
  | nil => rfl
  | cons a l ih =>
    cases l with
    | nil => rfl
    | cons b l =>
      rw [List.pairwise_cons] at h
      simp [idsIncreasing, h.1 b (by simp), ih h.2]

theorem mkIdMap_cases (es : List EdgeC) :
    (¬ (es.filterMap EdgeC.id).Nodup ∧ mkIdMap es = .err .duplicateEdgeId) ∨
    ((es.filterMap EdgeC.id).Nodup ∧ ∃ m, mkIdMap es = .ok m ∧ m.Perm (idPairs 0 es) ∧
      m.Pairwise (fun a b => a.1 < b.1)) := by
  have hsorted : (stableSort (fun a b => decide (a.1 ≤ b.1)) (idPairs 0 es)).Pairwise
      (fun a b => a.1 ≤ b.1) := by
    have := pairwise_stableSort (le := fun a b : Nat × Nat => decide (a.1 ≤ b.1))
      (by simp; intros; omega) (by simp; intros; omega) (idPairs 0 es)
    simpa using this
  have hperm := stableSort_perm (le := fun a b => decide (a.1 ≤ b.1)) (idPairs 0 es)
  have hfst := hperm.map Prod.fst
  rw [idPairs_map_fst] at hfst
  have hlen := hperm.length_eq
  by_cases hn : (es.filterMap EdgeC.id).Nodup
  · right
    refine ⟨hn, stableSort (fun a b => decide (a.1 ≤ b.1)) (idPairs 0 es), ?_, hperm, ?_⟩
    all_goals
      have hn' := hfst.nodup_iff.mpr hn
      unfold List.Nodup at hn'
      rw [List.pairwise_map] at hn'
      have hstrict : (stableSort (fun a b => decide (a.1 ≤ b.1)) (idPairs 0 es)).Pairwise
          (fun a b => a.1 < b.1) :=
        (hsorted.and hn').imp (fun h => Nat.lt_of_le_of_ne h.1 h.2)
    · have hd : dedupBy Prod.fst (stableSort (fun a b => decide (a.1 ≤ b.1)) (idPairs 0 es)) =
          stableSort (fun a b => decide (a.1 ≤ b.1)) (idPairs 0 es) := by
        generalize stableSort (fun a b => decide (a.1 ≤ b.1)) (idPairs 0 es) = l at hstrict
        cases l with
        | nil => rfl
        | cons a l => exact dedupGo_eq_of_strict l a hstrict
      unfold mkIdMap
      simp only [hd, hlen, ne_eq, not_true, if_false, idsIncreasing_of _ hstrict, if_true]
    · exact hstrict
  · left
    refine ⟨hn, ?_⟩
    unfold mkIdMap
    dsimp only
    rw [if_pos]
    intro hc
    apply hn
    rw [← hfst.nodup_iff]
    generalize hl : stableSort (fun a b => decide (a.1 ≤ b.1)) (idPairs 0 es) = l at hc hsorted hlen
    unfold List.Nodup
    rw [List.pairwise_map]
    cases l with
    | nil => simp
    | cons a l =>
      have hsub := dedupGo_sublist Prod.fst l a
      have heq := hsub.eq_of_length (by rw [hlen]; exact hc)
      have := (dedupGo_strict (key := Prod.fst) hsorted).1
      rw [heq] at this
      exact this.imp (fun h => Nat.ne_of_lt h)

/-! ## Indexed access -/

theorem idxAll_range' {α : Type} (l : List α) (n : Nat) : ∀ a, a + n ≤ l.length →
    Graph.idxAll l (List.range' a n) = .ok ((l.drop a).take n) := by
  induction n with
  | zero => intro a _; simp [Graph.idxAll]
  | succ n ih =>
    intro a h
    rw [List.range'_succ, Graph.idxAll, ih (a + 1) (by omega)]
    rw [List.getElem?_eq_getElem (by omega), List.drop_eq_getElem_cons (by omega : a < l.length)]
    simp only [Res.ofIdx, Res.ok_bind, Res.pure_eq, List.take_succ_cons]

theorem mem_setIdx (l : List EdgeC) : ∀ (i : Nat) (c : EdgeC), c ∈ setIdx i l ↔
    ∃ (j : Nat) (e : EdgeC), l[j]? = some e ∧ c = { e with idx := i + j } := by
  induction l with
  | nil => intro i c; simp [setIdx]
  | cons e l ih =>
    intro i c
    rw [setIdx, List.mem_cons, ih]
    constructor
    · rintro (rfl | ⟨j, e', h1, rfl⟩)
      · exact ⟨0, e, rfl, rfl⟩
      · exact ⟨j + 1, e', by simpa using h1, by congr 1; omega⟩
    · rintro ⟨j, e', h1, rfl⟩
      cases j with
      | zero =>
        simp only [List.getElem?_cons_zero, Option.some.injEq] at h1
        subst h1; left; rfl
      | succ j => right; exact ⟨j, e', by simpa using h1, by congr 1; omega⟩

theorem setIdx_idx (l : List EdgeC) : ∀ i, (setIdx i l).map EdgeC.idx = List.range' i l.length := by
  induction l with
  | nil => intro i; rfl
  | cons e l ih => intro i; simp [setIdx, ih, List.range'_succ]

theorem mem_drop_take {α : Type} {l : List α} {a n : Nat} {x : α} :
    x ∈ (l.drop a).take n ↔ ∃ p, a ≤ p ∧ p < a + n ∧ l[p]? = some x := by
  rw [List.mem_iff_getElem?]
  constructor
  · rintro ⟨i, hi⟩
    rw [List.getElem?_take] at hi
    split at hi
    · rw [List.getElem?_drop] at hi
      exact ⟨a + i, by omega, by omega, hi⟩
    · cases hi
  · rintro ⟨p, h1, h2, h3⟩
    refine ⟨p - a, ?_⟩
    rw [List.getElem?_take, if_pos (by omega), List.getElem?_drop, show a + (p - a) = p by omega, h3]

/-! ## Adjacency -/

theorem start_spec {g : Graph} {d : Dir} {srcs : List Nat} (hs : srcs.Pairwise (· ≤ ·))
    (hlen : (g.toFwdMap d).length = srcs.length)
    (ho : ∀ i, i < (g.offsets d).length → (g.offsets d)[i]? = some (cntLt srcs i))
    (i : Nat) (hi : i + 1 < (g.offsets d).length) :
    ∃ l, g.startingFrom d i = .ok l ∧ l.Sublist (g.toFwdMap d) ∧
      ∀ e, e ∈ l ↔ ∃ p : Nat, srcs[p]? = some i ∧ (g.toFwdMap d)[p]? = some e := by
  have hle := cntLt_mono srcs (show i ≤ i + 1 by omega)
  have hle2 := cntLt_le_length srcs (i + 1)
  refine ⟨((g.toFwdMap d).drop (cntLt srcs i)).take (cntLt srcs (i + 1) - cntLt srcs i), ?_, ?_, ?_⟩
  · unfold Graph.startingFrom
    rw [ho i (by omega), ho (i + 1) hi]
    simp only [Res.ofIdx, Res.ok_bind]
    exact idxAll_range' _ _ _ (by omega)
  · exact (List.take_sublist _ _).trans (List.drop_sublist _ _)
  · intro e
    rw [mem_drop_take]
    constructor
    · rintro ⟨p, h1, h2, h3⟩
      exact ⟨p, (cntLt_pos hs i p).mp (by omega), h3⟩
    · rintro ⟨p, h1, h2⟩
      have := (cntLt_pos hs i p).mpr h1
      exact ⟨p, by omega, by omega, h2⟩

theorem startingFrom_panic {g : Graph} {d : Dir} {i : Nat} (hi : (g.offsets d).length ≤ i + 1) :
    g.startingFrom d i = .panic := by
  unfold Graph.startingFrom
  rw [List.getElem?_eq_none hi]
  cases h : (g.offsets d)[i]? <;> simp [Res.ofIdx]

/-- `isShortcut`/`scEdgesOf` read off the sorted entries. -/
theorem scEdgesOf_spec {g : Graph} {ss : List (Nat × (Nat × Nat))} {m : Nat}
    (hs : ss.Pairwise (fun a b => a.1 < b.1))
    (ho : ∀ i, i ≤ m → g.scOffsets[i]? = some (cntLt (ss.map Prod.fst) i))
    (he : g.scEdges = ss.map Prod.snd) (e : Nat) (hem : e < m) :
    (∀ p, (e, p) ∈ ss → g.scEdgesOf e = .ok (some p)) ∧
    ((∀ p, (e, p) ∉ ss) → g.scEdgesOf e = .ok none) := by
  have hs' : (ss.map Prod.fst).Pairwise (· ≤ ·) := by
    rw [List.pairwise_map]; exact hs.imp (fun h => Nat.le_of_lt h)
  have hnd : (ss.map Prod.fst).Nodup := by
    unfold List.Nodup
    rw [List.pairwise_map]; exact hs.imp (fun h => Nat.ne_of_lt h)
  have hle := cntLt_mono (ss.map Prod.fst) (show e ≤ e + 1 by omega)
  unfold Graph.scEdgesOf Graph.isShortcut
  rw [ho (e + 1) (by omega), ho e (by omega)]
  simp only [Res.ofIdx, Res.ok_bind, if_neg (Nat.not_lt.mpr hle), Res.pure_eq]
  constructor
  · intro p hp
    obtain ⟨q, hq⟩ := List.getElem?_of_mem hp
    have hfst : (ss.map Prod.fst)[q]? = some e := by simp [hq]
    have hpos := (cntLt_pos hs' e q).mpr hfst
    have hq0 : cntLt (ss.map Prod.fst) e = q := by
      by_contra hne
      have h7 := (cntLt_pos hs' e (cntLt (ss.map Prod.fst) e)).mp (by omega)
      have hl1 : cntLt (ss.map Prod.fst) e < (ss.map Prod.fst).length := by
        by_contra hcon
        rw [List.getElem?_eq_none (by omega)] at h7; cases h7
      have hl2 : q < (ss.map Prod.fst).length := by
        by_contra hcon
        rw [List.getElem?_eq_none (by omega)] at hfst; cases hfst
      rw [List.getElem?_eq_getElem hl1] at h7
      rw [List.getElem?_eq_getElem hl2] at hfst
      exact hne ((List.Nodup.getElem_inj_iff hnd).mp
        ((Option.some.inj h7).trans (Option.some.inj hfst).symm))
    have hne : (cntLt (ss.map Prod.fst) (e + 1) - cntLt (ss.map Prod.fst) e != 0) = true := by
      simp only [bne_iff_ne, ne_eq]; omega
    rw [if_pos hne, hq0, he]
    simp [hq]
  · intro hno
    have heq : cntLt (ss.map Prod.fst) (e + 1) = cntLt (ss.map Prod.fst) e := by
      by_contra hne
      have h7 := (cntLt_pos hs' e (cntLt (ss.map Prod.fst) e)).mp (by omega)
      have := List.mem_of_getElem? h7
      obtain ⟨x, hx, rfl⟩ := List.mem_map.mp this
      exact hno x.2 hx
    simp [heq]

/-! ## The finalized graph -/

/-- `a'` and `a` are duplicates of each other in the sense of the builder. -/
def DupA (a' a : EdgeA) : Prop :=
  a'.id = a.id ∧ a'.srcId = a.srcId ∧ a'.dstId = a.dstId ∧
    ∀ (k : Nat) (x y : ℚ), a'.metrics[k]? = some x → a.metrics[k]? = some y → Approx.eq x y = true

theorem isDuplicate_spec {ids : List Int} {a' a : EdgeA} {x' x : EdgeB} (h' : IdxOf ids a' x')
    (h : IdxOf ids a x) (hd : isDuplicate x' x = true) : DupA a' a := by
  unfold isDuplicate at hd
  simp only [Bool.and_eq_true, decide_eq_true_eq, Prod.mk.injEq] at hd
  obtain ⟨⟨h1, h2, h3⟩, h4⟩ := hd
  obtain ⟨-, i2, i3, i4, i5, -⟩ := h'
  obtain ⟨-, j2, j3, j4, j5, -⟩ := h
  refine ⟨by rw [← i2, ← j2, h1], ?_, ?_, ?_⟩
  · rw [h2, j3] at i3; exact (Option.some.inj i3).symm
  · rw [h3, j4] at i4; exact (Option.some.inj i4).symm
  · intro k u v hu hv
    rw [List.all_eq_true] at h4
    rw [← i5] at hu; rw [← j5] at hv
    exact h4 (u, v) (List.mem_of_getElem? (i := k) (by
      rw [List.getElem?_zip_eq_some]; exact ⟨hu, hv⟩))

/-- What is known about the kept edges: `rep` maps every inserted edge to its representative. -/
structure Rep (b : NodeBuilder) (kept : List EdgeB) (scs : List (Nat × Nat)) (rep : Nat → Nat) :
    Prop where
  old : ∀ (i : Nat) (a : EdgeA), b.edges[i]? = some a → ∃ (x : EdgeB) (a' : EdgeA) (i' : Nat), kept[rep i]? = some x ∧
    b.edges[i']? = some a' ∧ IdxOf b.nodeIds a' x ∧ rep i' = rep i ∧ (i' = i ∨ DupA a' a)
  new : ∀ (e : Nat) (x : EdgeB), kept[e]? = some x → ∃ (i : Nat) (a : EdgeA), b.edges[i]? = some a ∧ rep i = e ∧
    IdxOf b.nodeIds a x ∧
    x.sc.bind (fun k => scs[k]?) =
      (a.sc.bind (fun k => b.shortcuts[k]?)).map (fun p => (rep p.1, rep p.2))
  count : kept.length ≤ b.edges.length
  adj : ∀ (q : Nat) (x y : EdgeB), kept[q]? = some x → kept[q + 1]? = some y →
    isDuplicate x y = false
  sorted : kept.Pairwise (fun x y => ∀ kx ky, fwdKey b.levels x = some kx →
    fwdKey b.levels y = some ky → keyLe kx ky = true)
  ends : ∀ e ∈ kept, e.src < b.nodeIds.length ∧ e.dst < b.nodeIds.length

/-- Data of the finalized graph in terms of the kept edges. -/
structure Final (b : NodeBuilder) (kept : List EdgeB) (scs : List (Nat × Nat)) (g : Graph) :
    Prop where
  nodeIds : g.nodeIds = b.nodeIds
  levels : g.nodeLevels = b.levels
  coords : b.coords = g.nodeCoords.map some
  fwdDsts : g.fwdDsts = kept.map EdgeB.dst
  bwdDsts : g.bwdDsts = kept.map EdgeB.src
  metrics : g.metrics = kept.map (fun e => e.metrics.map correctMetric)
  edgeIds : g.edgeIds = kept.map EdgeB.id
  sc : ∀ (e : Nat) (x : EdgeB), kept[e]? = some x → g.scEdgesOf e = .ok (x.sc.bind (fun k => scs[k]?))
  wf : g.WellFormed

/-- Hypotheses on the builder: what insertion guarantees, plus shortcuts that refer to inserted
edges. -/
structure Ready (b : NodeBuilder) : Prop where
  wf : b.WF
  known : ∀ a ∈ b.edges, a.srcId ∈ b.nodeIds ∧ a.dstId ∈ b.nodeIds
  idx : ∀ (i : Nat) (a : EdgeA), b.edges[i]? = some a → a.idx = i
  sc_nodup : (b.edges.filterMap EdgeA.sc).Nodup
  sc_lt : ∀ a ∈ b.edges, ∀ k, a.sc = some k → ∃ p, b.shortcuts[k]? = some p ∧
    p.1 < b.edges.length ∧ p.2 < b.edges.length

theorem forall₂_getElem? {α β : Type} {R : α → β → Prop} {l : List α} {l' : List β}
    (h : List.Forall₂ R l l') : l.length = l'.length ∧
    (∀ (i : Nat) (a : α), l[i]? = some a → ∃ b, l'[i]? = some b ∧ R a b) ∧
    (∀ (i : Nat) (b : β), l'[i]? = some b → ∃ a, l[i]? = some a ∧ R a b) := by
  induction h with
  | nil => simp
  | cons hab _ ih =>
    obtain ⟨h1, h2, h3⟩ := ih
    refine ⟨by simp [h1], ?_, ?_⟩
    · intro i a hi
      cases i with
      | zero =>
        simp only [List.getElem?_cons_zero, Option.some.injEq] at hi
        subst hi; exact ⟨_, rfl, hab⟩
      | succ i => simpa using h2 i a (by simpa using hi)
    · intro i a hi
      cases i with
      | zero =>
        simp only [List.getElem?_cons_zero, Option.some.injEq] at hi
        subst hi; exact ⟨_, rfl, hab⟩
      | succ i => simpa using h3 i a (by simpa using hi)

theorem fwdKey_some {levels : List Nat} {e : EdgeB} (h : e.dst < levels.length) :
    fwdKey levels e = some (e.src, levels[e.dst], e.dst, e.id) := by
  simp [fwdKey, h]

theorem bwdKey_some {levels : List Nat} {e : EdgeC} (h : e.src < levels.length) :
    bwdKey levels e = some (e.dst, levels[e.src], e.src, e.id) := by
  simp [bwdKey, h]

theorem keyLe_fst {x y : Nat × Nat × Nat × Option Nat} (h : keyLe x y = true) : x.1 ≤ y.1 := by
  unfold keyLe at h
  simp only [Bool.or_eq_true, Bool.and_eq_true, decide_eq_true_eq] at h
  omega

theorem keyLe_snd {x y : Nat × Nat × Nat × Option Nat} (h : keyLe x y = true) (he : x.1 = y.1) :
    y.2.1 ≤ x.2.1 := by
  unfold keyLe at h
  simp only [Bool.or_eq_true, Bool.and_eq_true, decide_eq_true_eq] at h
  omega

theorem lt_length_of_getElem? {α : Type} {l : List α} {i : Nat} {a : α} (h : l[i]? = some a) :
    i < l.length := by
  by_contra hc
  rw [List.getElem?_eq_none (by omega)] at h; cases h

theorem filterMap_sc {ids : List Int} {l : List EdgeA} {l' : List EdgeB}
    (h : List.Forall₂ (IdxOf ids) l l') : l'.filterMap EdgeB.sc = l.filterMap EdgeA.sc := by
  induction h with
  | nil => rfl
  | cons hab _ ih => simp only [List.filterMap_cons, hab.2.2.2.2.2, ih]

/-- The steps of `finalize` up to the shortcut correction. -/
theorem stage1 {b : NodeBuilder} (h : Ready b) :
    ∃ edgesB sorted newIdx scs1 kept removed scs2 rep,
      toEdgesB b.nodeIds b.edges = .ok edgesB ∧
      sortByKey (fwdKey b.levels) edgesB = .ok sorted ∧
      newIndices sorted = .ok newIdx ∧
      remapShortcuts newIdx sorted b.shortcuts = .ok scs1 ∧
      dedupEdges sorted = .ok (kept, removed) ∧
      correctShortcuts removed kept scs1 = .ok scs2 ∧
      Rep b kept scs2 rep ∧
      (∀ e ∈ kept, e.src < b.nodeIds.length ∧ e.dst < b.nodeIds.length) ∧
      (∀ e ∈ kept, ∀ k, e.sc = some k → ∃ p, scs2[k]? = some p) ∧
      kept.Pairwise (fun x y => ∀ kx ky, fwdKey b.levels x = some kx → fwdKey b.levels y = some ky →
        keyLe kx ky = true) := by
  obtain ⟨⟨hids, hcl, hll⟩, hknown, hidx, hscn, hscl⟩ := h
  obtain ⟨edgesB, hB, hF⟩ := toEdgesB_ok hids hknown
  obtain ⟨hlenB, hFr, hFl⟩ := forall₂_getElem? hF
  have hidxB : ∀ (i : Nat) (x : EdgeB), edgesB[i]? = some x → x.idx = i := by
    intro i x hx
    obtain ⟨a, ha, hax⟩ := hFl i x hx
    rw [hax.1, hidx i a ha]
  have hends : ∀ e ∈ edgesB, e.src < b.nodeIds.length ∧ e.dst < b.nodeIds.length := by
    intro e he
    obtain ⟨i, hi⟩ := List.getElem?_of_mem he
    obtain ⟨a, ha, hax⟩ := hFl i e hi
    exact ⟨lt_length_of_getElem? hax.2.2.1, lt_length_of_getElem? hax.2.2.2.1⟩
  obtain ⟨sorted, hS, hperm, hsort⟩ := sortByKey_ok (key := fwdKey b.levels) (l := edgesB) (by
    intro a ha
    exact ⟨_, fwdKey_some (by rw [hll]; exact (hends a ha).2)⟩)
  have hslen := hperm.length_eq
  have hsidx : ∀ e ∈ sorted, edgesB[e.idx]? = some e := by
    intro e he
    obtain ⟨i, hi⟩ := List.getElem?_of_mem (hperm.mem_iff.mp he)
    rw [hidxB i e hi]; exact hi
  have hidxnd : (sorted.map EdgeB.idx).Nodup := by
    rw [(hperm.map EdgeB.idx).nodup_iff]
    have : edgesB.map EdgeB.idx = List.range edgesB.length := by
      apply List.ext_getElem?
      intro i
      rw [List.getElem?_map]
      by_cases hi : i < edgesB.length
      · rw [List.getElem?_eq_getElem hi, List.getElem?_range hi]
        simp [hidxB i _ (List.getElem?_eq_getElem hi)]
      · rw [List.getElem?_eq_none (by omega), List.getElem?_eq_none (by simpa using hi)]; rfl
    rw [this]; exact List.nodup_range
  obtain ⟨newIdx, hN, hnlen, hnew⟩ := newIndices_ok (l := sorted) (by
    intro e he
    rw [hslen]; exact lt_length_of_getElem? (hsidx e he)) hidxnd
  have hscB : edgesB.filterMap EdgeB.sc = b.edges.filterMap EdgeA.sc := filterMap_sc hF
  have hscnS : (sorted.filterMap EdgeB.sc).Nodup := by
    rw [(hperm.filterMap EdgeB.sc).nodup_iff, hscB]; exact hscn
  have hA : ∀ x ∈ sorted, ∃ a, b.edges[x.idx]? = some a ∧ IdxOf b.nodeIds a x := by
    intro x hx; exact hFl _ _ (hsidx x hx)
  have hscb : ∀ x ∈ sorted, ∀ k, x.sc = some k → ∃ p, b.shortcuts[k]? = some p ∧
      p.1 < newIdx.length ∧ p.2 < newIdx.length := by
    intro x hx k hk
    obtain ⟨a, ha, hax⟩ := hA x hx
    rw [hax.2.2.2.2.2] at hk
    rw [hnlen, hslen, ← hlenB]
    exact hscl a (List.mem_of_getElem? ha) k hk
  obtain ⟨scs1, hR, hr1, -⟩ := remapShortcuts_ok sorted b.shortcuts hscnS hscb
  obtain ⟨kept, removed, hD, hsub, hrem, hcount, hrep1, hrep2⟩ := dedupEdges_ok sorted
  obtain ⟨scs2, hC, hc1, -⟩ := correctShortcuts_ok (removed := removed) kept scs1
    (hscnS.sublist (hsub.filterMap _)) (by
      intro x hx k hk
      obtain ⟨p, hp, -, -⟩ := hscb x (hsub.subset hx) k hk
      obtain ⟨u, v, -, -, h3⟩ := hr1 x (hsub.subset hx) k p hk hp
      exact ⟨_, h3⟩)
  let rep : Nat → Nat := fun i => (newIdx[i]?.getD 0) - cntLe removed (newIdx[i]?.getD 0)
  have hrepOf : ∀ (p : Nat) (x : EdgeB), sorted[p]? = some x → rep x.idx = p - cntLe removed p := by
    intro p x hx
    show (newIdx[x.idx]?.getD 0) - cntLe removed (newIdx[x.idx]?.getD 0) = _
    rw [hnew p x hx]; rfl
  have hsc2 : ∀ x ∈ kept, ∀ k, x.sc = some k → ∃ p, b.shortcuts[k]? = some p ∧
      scs2[k]? = some (rep p.1, rep p.2) := by
    intro x hx k hk
    obtain ⟨p, hp, -, -⟩ := hscb x (hsub.subset hx) k hk
    obtain ⟨u, v, h1, h2, h3⟩ := hr1 x (hsub.subset hx) k p hk hp
    refine ⟨p, hp, ?_⟩
    rw [hc1 x hx k _ hk h3]
    show _ = some ((newIdx[p.1]?.getD 0) - cntLe removed (newIdx[p.1]?.getD 0),
      (newIdx[p.2]?.getD 0) - cntLe removed (newIdx[p.2]?.getD 0))
    rw [h1, h2, decrement_eq hrem, decrement_eq hrem]; rfl
  refine ⟨edgesB, sorted, newIdx, scs1, kept, removed, scs2, rep, hB, hS, hN, hR, hD, hC, ?_, ?_, ?_, ?_⟩
  · refine ⟨?_, ?_, by omega, dedupEdges_adj hD, hsort.sublist hsub,
      fun e he => hends e (hperm.mem_iff.mp (hsub.subset he))⟩
    · intro i a hi
      obtain ⟨x, hx, hax⟩ := hFr i a hi
      obtain ⟨p, hp⟩ := List.getElem?_of_mem (hperm.mem_iff.mpr (List.mem_of_getElem? hx))
      have hri := hrepOf p x hp
      rw [hidxB i x hx] at hri
      obtain ⟨e', he', hor⟩ := hrep1 p x hp
      have he's : e' ∈ sorted := hsub.subset (List.mem_of_getElem? he')
      obtain ⟨a', ha', hax'⟩ := hA e' he's
      refine ⟨e', a', e'.idx, by rw [hri]; exact he', ha', hax', ?_, ?_⟩
      · obtain ⟨p', hp', hq'⟩ := hrep2 _ e' he'
        rw [hrepOf p' e' hp', hri, hq']
      · rcases hor with rfl | hd
        · left; exact hidxB i _ hx
        · right; exact isDuplicate_spec hax' hax hd
    · intro e x hx
      obtain ⟨p, hp, hq⟩ := hrep2 e x hx
      have hxs : x ∈ sorted := List.mem_of_getElem? hp
      obtain ⟨a, ha, hax⟩ := hA x hxs
      refine ⟨x.idx, a, ha, by rw [hrepOf p x hp, hq], hax, ?_⟩
      rw [← hax.2.2.2.2.2]
      cases hk : x.sc with
      | none => rfl
      | some k =>
        obtain ⟨q, hq1, hq2⟩ := hsc2 x (List.mem_of_getElem? hx) k hk
        simp [hq1, hq2]
  · intro e he
    exact hends e (hperm.mem_iff.mp (hsub.subset he))
  · intro e he k hk
    obtain ⟨p, -, h2⟩ := hsc2 e he k hk
    exact ⟨_, h2⟩
  · exact hsort.sublist hsub

/-- What insertion alone guarantees. -/
structure Base (b : NodeBuilder) : Prop where
  wf : b.WF
  known : ∀ a ∈ b.edges, a.srcId ∈ b.nodeIds ∧ a.dstId ∈ b.nodeIds
  idx : ∀ (i : Nat) (a : EdgeA), b.edges[i]? = some a → a.idx = i
  sc_nodup : (b.edges.filterMap EdgeA.sc).Nodup
  sc_get : ∀ a ∈ b.edges, ∀ k, a.sc = some k → ∃ p, b.shortcuts[k]? = some p

/-- Without in-range shortcuts, `finalize` panics (unless a coordinate is missing). -/
theorem finalize_panic (dim : Nat) {b : NodeBuilder} (h : Base b) (hc : none ∉ b.coords)
    (hbad : ¬ ∀ a ∈ b.edges, ∀ k p, a.sc = some k → b.shortcuts[k]? = some p →
      p.1 < b.edges.length ∧ p.2 < b.edges.length) : finalize dim b = .panic := by
  obtain ⟨⟨hids, hcl, hll⟩, hknown, hidx, hscn, hget⟩ := h
  obtain ⟨edgesB, hB, hF⟩ := toEdgesB_ok hids hknown
  obtain ⟨hlenB, hFr, hFl⟩ := forall₂_getElem? hF
  have hidxB : ∀ (i : Nat) (x : EdgeB), edgesB[i]? = some x → x.idx = i := by
    intro i x hx
    obtain ⟨a, ha, hax⟩ := hFl i x hx
    rw [hax.1, hidx i a ha]
  obtain ⟨sorted, hS, hperm, -⟩ := sortByKey_ok (key := fwdKey b.levels) (l := edgesB) (by
    intro e he
    obtain ⟨i, hi⟩ := List.getElem?_of_mem he
    obtain ⟨a, ha, hax⟩ := hFl i e hi
    exact ⟨_, fwdKey_some (by rw [hll]; exact lt_length_of_getElem? hax.2.2.2.1)⟩)
  have hslen := hperm.length_eq
  have hidxnd : (sorted.map EdgeB.idx).Nodup := by
    rw [(hperm.map EdgeB.idx).nodup_iff]
    have : edgesB.map EdgeB.idx = List.range edgesB.length := by
      apply List.ext_getElem?
      intro i
      rw [List.getElem?_map]
      by_cases hi : i < edgesB.length
      · rw [List.getElem?_eq_getElem hi, List.getElem?_range hi]
        simp [hidxB i _ (List.getElem?_eq_getElem hi)]
      · rw [List.getElem?_eq_none (by omega), List.getElem?_eq_none (by simpa using hi)]; rfl
    rw [this]; exact List.nodup_range
  obtain ⟨newIdx, hN, hnlen, -⟩ := newIndices_ok (l := sorted) (by
    intro e he
    obtain ⟨i, hi⟩ := List.getElem?_of_mem (hperm.mem_iff.mp he)
    rw [hslen, hidxB i e hi]; exact lt_length_of_getElem? hi) hidxnd
  have hpanic : remapShortcuts newIdx sorted b.shortcuts = .panic := by
    apply remapShortcuts_panic
    · rw [(hperm.filterMap EdgeB.sc).nodup_iff, filterMap_sc hF]; exact hscn
    · push Not at hbad
      obtain ⟨a, ha, k, p, hk, hp, hlt⟩ := hbad
      obtain ⟨i, hi⟩ := List.getElem?_of_mem ha
      obtain ⟨x, hx, hax⟩ := hFr i a hi
      refine ⟨x, hperm.mem_iff.mpr (List.mem_of_getElem? hx), k, p, by rw [hax.2.2.2.2.2]; exact hk,
        hp, ?_⟩
      rw [hnlen, hslen, ← hlenB]
      intro hcon
      have := hlt hcon.1
      omega
  rcases checkCoords_cases b.coords with ⟨hc1, -⟩ | ⟨-, coords, hc2, -⟩
  · exact absurd hc1 hc
  · simp [finalize, hc2, hB, hS, hN, hpanic]

theorem le_getLastD_iff {l : List Nat} (hs : l.Pairwise (· ≤ ·)) (i : Nat) :
    i < l.getLastD 0 + 1 ↔ i = 0 ∨ ∃ v ∈ l, i ≤ v := by
  cases l with
  | nil => simp
  | cons a l =>
    have hmem : (a :: l).getLastD 0 ∈ a :: l := by
      rw [List.getLastD_eq_getLast?, List.getLast?_eq_some_getLast (by simp)]
      simp
    have hmax : ∀ v ∈ a :: l, v ≤ (a :: l).getLastD 0 := by
      intro v hv
      rw [List.getLastD_eq_getLast?, List.getLast?_eq_some_getLast (by simp : a :: l ≠ [])]
      simp only [Option.getD_some]
      obtain ⟨j, hj, rfl⟩ := List.mem_iff_getElem.mp hv
      rw [List.getLast_eq_getElem]
      rcases Nat.lt_or_ge j ((a :: l).length - 1) with hlt | hge
      · exact List.pairwise_iff_getElem.mp hs _ _ hj (by simp) hlt
      · have : j = (a :: l).length - 1 := by omega
        subst this; exact Nat.le_refl _
    constructor
    · intro h
      exact Or.inr ⟨_, hmem, by omega⟩
    · rintro (rfl | ⟨v, hv, hiv⟩)
      · omega
      · have := hmax v hv; omega

/-- Adjacency of one direction from the construction. -/
theorem adj_spec {g : Graph} {d : Dir} {srcs : List Nat} (hs : srcs.Pairwise (· ≤ ·))
    (hlen : (g.toFwdMap d).length = srcs.length)
    (holen : (g.offsets d).length = srcs.getLastD 0 + 2)
    (ho : ∀ i, i < (g.offsets d).length → (g.offsets d)[i]? = some (cntLt srcs i))
    (hmp : ∀ (e v : Nat), (∃ p : Nat, srcs[p]? = some v ∧ (g.toFwdMap d)[p]? = some e) ↔
      g.dstIdx d.opp e = .ok v) :
    (∀ i l, g.startingFrom d i = .ok l → l.Sublist (g.toFwdMap d) ∧
      ∀ e, e ∈ l ↔ g.dstIdx d.opp e = .ok i) ∧
    (∀ i, g.Covered d i ↔ i = 0 ∨ ∃ e v, g.dstIdx d.opp e = .ok v ∧ i ≤ v) ∧
    (∀ i, ¬ g.Covered d i → g.startingFrom d i = .panic) := by
  have hcov : ∀ i, g.Covered d i ↔ i + 1 < (g.offsets d).length := by
    intro i
    constructor
    · rintro ⟨l, hl⟩
      by_contra hc
      rw [startingFrom_panic (by omega)] at hl; cases hl
    · intro hi
      obtain ⟨l, hl, -⟩ := start_spec hs hlen ho i hi
      exact ⟨l, hl⟩
  refine ⟨?_, ?_, ?_⟩
  · intro i l hl
    obtain ⟨l', h1, h2, h3⟩ := start_spec hs hlen ho i ((hcov i).mp ⟨l, hl⟩)
    rw [hl] at h1
    cases h1
    exact ⟨h2, fun e => (h3 e).trans (hmp e i)⟩
  · intro i
    rw [hcov, holen]
    have := le_getLastD_iff hs i
    rw [show (i + 1 < srcs.getLastD 0 + 2) = (i < srcs.getLastD 0 + 1) by simp, this]
    constructor
    · rintro (h | ⟨v, hv, hiv⟩)
      · exact Or.inl h
      · obtain ⟨p, hp⟩ := List.getElem?_of_mem hv
        have hpl := lt_length_of_getElem? hp
        exact Or.inr ⟨(g.toFwdMap d)[p], v, (hmp _ v).mp
          ⟨p, hp, List.getElem?_eq_getElem (by omega)⟩, hiv⟩
    · rintro (h | ⟨e, v, he, hiv⟩)
      · exact Or.inl h
      · obtain ⟨p, hp, -⟩ := (hmp e v).mpr he
        exact Or.inr ⟨v, List.mem_of_getElem? hp, hiv⟩
  · intro i hi
    rw [hcov] at hi
    exact startingFrom_panic (by omega)

theorem ofIdx_iff {ε α : Type} {o : Option α} {a : α} : (Res.ofIdx o : Res ε α) = .ok a ↔ o = some a := by
  cases o <;> simp [Res.ofIdx]

/-- The id map is the inverse of the id array. -/
theorem idMap_spec {g : Graph} {edgesC : List EdgeC} (he : g.edgeIds = edgesC.map EdgeC.id)
    (hp : g.idMap.Perm (idPairs 0 edgesC)) (hs : g.idMap.Pairwise (fun a b => a.1 < b.1))
    (e id : Nat) : g.tryIdxFrom id = .ok e ↔ g.tryId e = .ok (some id) := by
  have hs' : (g.idMap.map Prod.fst).Pairwise (fun a b => decide (a < b) = true) := by
    rw [List.pairwise_map]; exact hs.imp (fun h => by simpa using h)
  have hmem : (id, e) ∈ g.idMap ↔ g.tryId e = .ok (some id) := by
    rw [hp.mem_iff, mem_idPairs, Graph.tryId, ofIdx_iff, he, List.getElem?_map]
    constructor
    · rintro ⟨j, c, rfl, h2, h3⟩
      simp [h2, h3]
    · intro h
      cases hc : edgesC[e]? with
      | none => simp [hc] at h
      | some c => exact ⟨e, c, by omega, hc, by simpa [hc] using h⟩
  rw [← hmem]
  unfold Graph.tryIdxFrom
  constructor
  · intro h
    cases hb : bsearch (fun a b => decide (a < b)) (g.idMap.map Prod.fst) id with
    | error i => simp [hb] at h
    | ok i =>
      have hi := bsearch_ok hb
      rw [List.getElem?_map] at hi
      simp only [hb] at h
      cases hq : g.idMap[i]? with
      | none => simp [hq] at hi
      | some q =>
        simp only [hq, Option.map_some, Option.some.injEq, Res.ofIdx, Res.ok_bind, Res.pure_eq,
          Res.ok.injEq] at hi h
        rw [← hi, ← h]
        exact List.mem_of_getElem? hq
  · intro h
    obtain ⟨i, hi⟩ := List.getElem?_of_mem h
    have hb := bsearch_found (lt := fun a b : Nat => decide (a < b)) (x := id) (j := i) (by simp)
      (by simp; intros; omega) hs' (by simp [hi])
    simp [hb, hi, Res.ofIdx]

/-- Everything about `finalize`. -/
theorem finalize_spec (dim : Nat) {b : NodeBuilder} (h : Ready b) :
    (none ∈ b.coords ∧ finalize dim b = .err .missingCoord) ∨
    (none ∉ b.coords ∧ ∃ kept scs rep, Rep b kept scs rep ∧
      (((∃ e ∈ kept, ∃ x ∈ e.metrics, correctMetric x < eps) ∧
          finalize dim b = .err .metricTooSmall) ∨
       ((∀ e ∈ kept, ∀ x ∈ e.metrics, eps ≤ correctMetric x) ∧
        ((¬ (kept.filterMap EdgeB.id).Nodup ∧ finalize dim b = .err .duplicateEdgeId) ∨
         ((kept.filterMap EdgeB.id).Nodup ∧ ∃ g, finalize dim b = .ok g ∧ g.dim = dim ∧
           Final b kept scs g))))) := by
  rcases checkCoords_cases b.coords with ⟨hc1, hc2⟩ | ⟨hc1, coords, hc2, hc3⟩
  · left; exact ⟨hc1, by simp [finalize, hc2]⟩
  right
  refine ⟨hc1, ?_⟩
  obtain ⟨edgesB, sorted, newIdx, scs1, kept, removed, scs, rep, s1, s2, s3, s4, s5, s6, hrep, hends,
    hscs, hsort⟩ := stage1 h
  obtain ⟨⟨hids, hcl, hll⟩, -, -, -, -⟩ := h
  refine ⟨kept, scs, rep, hrep, ?_⟩
  have s7 := storeMetrics_ok kept 0 hscs
  let edgesC : List EdgeC := kept.map (fun e => { src := e.src, dst := e.dst, idx := 0, id := e.id })
  have hid : edgesC.filterMap EdgeC.id = kept.filterMap EdgeB.id := by
    simp only [edgesC, List.filterMap_map]; rfl
  have hsrc : edgesC.map EdgeC.src = kept.map EdgeB.src := by simp [edgesC]
  have hdst : edgesC.map EdgeC.dst = kept.map EdgeB.dst := by simp [edgesC]
  have hCl : edgesC.length = kept.length := by simp [edgesC]
  have hCg : ∀ (j : Nat) (c : EdgeC), edgesC[j]? = some c ↔
      ∃ x, kept[j]? = some x ∧ c = { src := x.src, dst := x.dst, idx := 0, id := x.id } := by
    intro j c
    simp only [edgesC, List.getElem?_map, Option.map_eq_some_iff]
    constructor <;> rintro ⟨x, h1, h2⟩ <;> exact ⟨x, h1, h2.symm⟩
  rcases checkMetrics_cases (kept.map (fun e => e.metrics.map correctMetric)) with ⟨hm1, hm2⟩ | ⟨hm1, hm2⟩
  · left
    constructor
    · obtain ⟨m, hm, x, hx, hlt⟩ := hm1
      obtain ⟨e, he, rfl⟩ := List.mem_map.mp hm
      obtain ⟨y, hy, rfl⟩ := List.mem_map.mp hx
      exact ⟨e, he, y, hy, hlt⟩
    · simp [finalize, hc2, s1, s2, s3, s4, s5, s6, s7, hm2]
  right
  refine ⟨fun e he x hx => hm1 _ (List.mem_map_of_mem he) _ (List.mem_map_of_mem hx), ?_⟩
  obtain ⟨hse1, hse2, hse3⟩ := scEntries_spec (scs := scs) kept 0
  obtain ⟨scOffs, s8, hso1, hso2⟩ := scOffsets_ok hse1 edgesC.length (by
    intro x hx; have := hse2 x hx; omega)
  have hsrcs : (kept.map EdgeB.src).Pairwise (· ≤ ·) := by
    rw [List.pairwise_map]
    refine hsort.imp_of_mem ?_
    intro x y hx hy hxy
    have := hxy _ _ (fwdKey_some (by rw [hll]; exact (hends x hx).2))
      (fwdKey_some (by rw [hll]; exact (hends y hy).2))
    exact keyLe_fst this
  obtain ⟨fwdOffs, s9, hfo1, hfo2⟩ := mkOffsets_ok hsrcs
  rcases mkIdMap_cases edgesC with ⟨hi1, s10⟩ | ⟨hi1, idMap, s10, hi2, hi3⟩
  · left
    refine ⟨by rw [← hid]; exact hi1, ?_⟩
    have s9' : mkOffsets (edgesC.map EdgeC.src) = .ok fwdOffs := by rw [hsrc]; exact s9
    unfold finalize
    simp only [hc2, s1, s2, s3, s4, s5, s6, s7, hm2, Res.ok_bind]
    rw [show kept.map (fun e => ({ src := e.src, dst := e.dst, idx := 0, id := e.id } : EdgeC)) =
      edgesC from rfl]
    simp only [s8, s9', s10, Res.ok_bind, Res.err_bind]
  right
  refine ⟨by rw [← hid]; exact hi1, ?_⟩
  have hmemI : ∀ c ∈ setIdx 0 edgesC, ∃ x, kept[c.idx]? = some x ∧ c.src = x.src ∧ c.dst = x.dst ∧
      c.id = x.id := by
    intro c hc
    obtain ⟨j, e, he, rfl⟩ := (mem_setIdx edgesC 0 c).mp hc
    obtain ⟨x, hx, rfl⟩ := (hCg j e).mp he
    exact ⟨x, by simpa using hx, rfl, rfl, rfl⟩
  have hcl' : ∀ c ∈ setIdx 0 edgesC, c.src < b.nodeIds.length ∧ c.dst < b.nodeIds.length := by
    intro c hc
    obtain ⟨x, hx, h1, h2, -⟩ := hmemI c hc
    rw [h1, h2]; exact hends x (List.mem_of_getElem? hx)
  obtain ⟨bwd, s11, hbp, hbs⟩ := sortByKey_ok (key := bwdKey b.levels) (l := setIdx 0 edgesC) (by
    intro c hc
    exact ⟨_, bwdKey_some (by rw [hll]; exact (hcl' c hc).1)⟩)
  have hbdst : (bwd.map EdgeC.dst).Pairwise (· ≤ ·) := by
    rw [List.pairwise_map]
    refine hbs.imp_of_mem ?_
    intro x y hx hy hxy
    have := hxy _ _ (bwdKey_some (by rw [hll]; exact (hcl' x (hbp.mem_iff.mp hx)).1))
      (bwdKey_some (by rw [hll]; exact (hcl' y (hbp.mem_iff.mp hy)).1))
    exact keyLe_fst this
  obtain ⟨bwdOffs, s12, hbo1, hbo2⟩ := mkOffsets_ok hbdst
  refine ⟨_, by
    unfold finalize
    simp only [hc2, s1, s2, s3, s4, s5, s6, s7, hm2, Res.ok_bind]
    rw [show kept.map (fun e => ({ src := e.src, dst := e.dst, idx := 0, id := e.id } : EdgeC)) =
      edgesC from rfl]
    have s9' : mkOffsets (edgesC.map EdgeC.src) = .ok fwdOffs := by rw [hsrc]; exact s9
    simp only [s8, s9', s10, s11, s12, Res.ok_bind, Res.pure_eq]
    rfl, rfl, ?_⟩
  have hsc : ∀ (e : Nat) (x : EdgeB), kept[e]? = some x → ∀ g : Graph, g.scOffsets = scOffs →
      g.scEdges = (scEntries scs 0 kept).map Prod.snd →
      g.scEdgesOf e = .ok (x.sc.bind (fun k => scs[k]?)) := by
    intro e x hx g hg1 hg2
    have hel := lt_length_of_getElem? hx
    have hspec := scEdgesOf_spec (g := g) hse1 (m := edgesC.length) (by rw [hg1]; exact hso2) hg2 e
      (by omega)
    cases hk : x.sc with
    | none =>
      refine hspec.2 ?_
      intro p hp
      rw [show (e, p) = (0 + e, p) by simp, hse3] at hp
      obtain ⟨x', k, h1, h2, h3⟩ := hp
      rw [hx] at h1; cases h1
      rw [hk] at h2; cases h2
    | some k =>
      obtain ⟨p, hp⟩ := hscs x (List.mem_of_getElem? hx) k hk
      have := hspec.1 p (by
        rw [show (e, p) = (0 + e, p) by simp, hse3]
        exact ⟨x, k, hx, hk, hp⟩)
      rw [this]; simp [hp]
  refine { nodeIds := rfl, levels := rfl, coords := hc3, fwdDsts := hdst, bwdDsts := hsrc,
           metrics := rfl, edgeIds := ?_, sc := ?_, wf := ?_ }
  · simp [edgesC]
  · intro e x hx; exact hsc e x hx _ rfl rfl
  -- well-formedness
  have hfadj := adj_spec (g := {
      nodeIds := b.nodeIds, nodeCoords := coords, nodeLevels := b.levels,
      fwdDsts := edgesC.map EdgeC.dst, fwdOffsets := fwdOffs, fwdMap := List.range edgesC.length,
      bwdDsts := edgesC.map EdgeC.src, bwdOffsets := bwdOffs, bwdMap := bwd.map EdgeC.idx,
      metrics := kept.map (fun e => e.metrics.map correctMetric), means := none,
      edgeIds := edgesC.map EdgeC.id, idMap := idMap, scOffsets := scOffs,
      scEdges := (scEntries scs 0 kept).map Prod.snd, dim := dim }) (d := .fwd) hsrcs
    (by simp [Graph.toFwdMap, edgesC]) hfo1 hfo2 (by
      intro e v
      simp only [Graph.dstIdx, Graph.dsts, Dir.opp, ofIdx_iff, Graph.toFwdMap, hsrc]
      constructor
      · rintro ⟨p, h1, h2⟩
        have hpl := lt_length_of_getElem? h2
        rw [List.getElem?_range (by simpa using hpl)] at h2
        cases h2; exact h1
      · intro h1
        have hpl := lt_length_of_getElem? h1
        exact ⟨e, h1, List.getElem?_range (by simpa [edgesC] using hpl)⟩)
  have hbadj := adj_spec (g := {
      nodeIds := b.nodeIds, nodeCoords := coords, nodeLevels := b.levels,
      fwdDsts := edgesC.map EdgeC.dst, fwdOffsets := fwdOffs, fwdMap := List.range edgesC.length,
      bwdDsts := edgesC.map EdgeC.src, bwdOffsets := bwdOffs, bwdMap := bwd.map EdgeC.idx,
      metrics := kept.map (fun e => e.metrics.map correctMetric), means := none,
      edgeIds := edgesC.map EdgeC.id, idMap := idMap, scOffsets := scOffs,
      scEdges := (scEntries scs 0 kept).map Prod.snd, dim := dim }) (d := .bwd) hbdst
    (by simp [Graph.toFwdMap]) hbo1 hbo2 (by
      intro e v
      simp only [Graph.dstIdx, Graph.dsts, Dir.opp, ofIdx_iff, Graph.toFwdMap, hdst,
        List.getElem?_map, Option.map_eq_some_iff]
      constructor
      · rintro ⟨p, ⟨c, h1, h2⟩, ⟨c', h3, h4⟩⟩
        rw [h1] at h3; cases h3
        obtain ⟨x, hx, -, hd, -⟩ := hmemI c (hbp.mem_iff.mp (List.mem_of_getElem? h1))
        exact ⟨x, by rw [← h4]; exact hx, by rw [← hd]; exact h2⟩
      · rintro ⟨x, hx, hv⟩
        have hc : ({ src := x.src, dst := x.dst, idx := e, id := x.id } : EdgeC) ∈ bwd := by
          rw [hbp.mem_iff, mem_setIdx]
          exact ⟨e, _, (hCg e _).mpr ⟨x, hx, rfl⟩, by simp⟩
        obtain ⟨p, hp⟩ := List.getElem?_of_mem hc
        exact ⟨p, ⟨_, hp, hv⟩, ⟨_, hp, rfl⟩⟩)
  have hbnd : (bwd.map EdgeC.idx).Nodup := by
    rw [(hbp.map EdgeC.idx).nodup_iff, setIdx_idx]; exact List.nodup_range'
  refine { ids_sorted := hids, coords_len := ?_, levels_len := hll, bwd_len := ?_, metrics_len := ?_,
           edgeIds_len := ?_, ends_lt := ?_, start := ?_, covered_iff := ?_, not_covered := ?_,
           sc_ok := ?_, sc_len := ?_, idMap_iff := ?_ }
  · have := hcl; rw [hc3, List.length_map] at this; exact this
  · simp [Graph.edgeCount]
  · simp [Graph.edgeCount, edgesC]
  · simp [Graph.edgeCount]
  · intro d e v hv
    simp only [Graph.dstIdx, ofIdx_iff] at hv
    cases d with
    | fwd =>
      simp only [Graph.dsts, hdst, List.getElem?_map, Option.map_eq_some_iff] at hv
      obtain ⟨x, hx, rfl⟩ := hv
      exact (hends x (List.mem_of_getElem? hx)).2
    | bwd =>
      simp only [Graph.dsts, hsrc, List.getElem?_map, Option.map_eq_some_iff] at hv
      obtain ⟨x, hx, rfl⟩ := hv
      exact (hends x (List.mem_of_getElem? hx)).1
  · intro d i l hl
    cases d with
    | fwd =>
      obtain ⟨h1, h2⟩ := hfadj.1 i l hl
      refine ⟨List.nodup_range.sublist h1, h2, ?_⟩
      have hr : (List.range edgesC.length).Pairwise (fun a c => ∀ x y, kept[a]? = some x →
          kept[c]? = some y → ∀ kx ky, fwdKey b.levels x = some kx → fwdKey b.levels y = some ky →
          keyLe kx ky = true) := by
        rw [List.pairwise_iff_getElem]
        intro i j hi hj hij x y hx hy
        simp only [List.getElem_range] at hx hy
        have hil := lt_length_of_getElem? hx
        have hjl := lt_length_of_getElem? hy
        have := List.pairwise_iff_getElem.mp hsort i j hil hjl hij
        rw [List.getElem?_eq_getElem hil] at hx
        rw [List.getElem?_eq_getElem hjl] at hy
        cases hx; cases hy; exact this
      refine (hr.sublist h1).imp_of_mem ?_
      intro a c ha hc hac u v lu lv hu hv hlu hlv
      have ha' := (h2 a).mp ha
      have hc' := (h2 c).mp hc
      simp only [Graph.dstIdx, Graph.dsts, Dir.opp, ofIdx_iff, hsrc, hdst, List.getElem?_map,
        Option.map_eq_some_iff, Graph.nodeLevel] at ha' hc' hu hv hlu hlv
      obtain ⟨x, hx, hxi⟩ := ha'
      obtain ⟨y, hy, hyi⟩ := hc'
      rw [hx] at hu
      rw [hy] at hv
      obtain ⟨_, hh, hxu⟩ := hu; cases hh
      obtain ⟨_, hh, hyv⟩ := hv; cases hh
      have hk := hac x y hx hy (x.src, lu, x.dst, x.id) (y.src, lv, y.dst, y.id)
        (by simp [fwdKey, hxu, hlu]) (by simp [fwdKey, hyv, hlv])
      exact keyLe_snd hk (by simp [hxi, hyi])
    | bwd =>
      obtain ⟨h1, h2⟩ := hbadj.1 i l hl
      refine ⟨hbnd.sublist h1, h2, ?_⟩
      have hr : (bwd.map EdgeC.idx).Pairwise (fun a c => ∀ x y, kept[a]? = some x →
          kept[c]? = some y → ∀ lx ly, b.levels[x.src]? = some lx → b.levels[y.src]? = some ly →
          x.dst = y.dst → ly ≤ lx) := by
        rw [List.pairwise_map]
        refine hbs.imp_of_mem ?_
        intro c c' hc hc' hcc x y hx hy lx ly hlx hly hd
        obtain ⟨x', hx', e1, e2, e3⟩ := hmemI c (hbp.mem_iff.mp hc)
        obtain ⟨y', hy', f1, f2, f3⟩ := hmemI c' (hbp.mem_iff.mp hc')
        rw [hx] at hx'; cases hx'
        rw [hy] at hy'; cases hy'
        have hk := hcc (c.dst, lx, c.src, c.id) (c'.dst, ly, c'.src, c'.id)
          (by simp [bwdKey, e1, hlx]) (by simp [bwdKey, f1, hly])
        exact keyLe_snd hk (by simp [e2, f2, hd])
      refine (hr.sublist h1).imp_of_mem ?_
      intro a c ha hc hac u v lu lv hu hv hlu hlv
      have ha' := (h2 a).mp ha
      have hc' := (h2 c).mp hc
      simp only [Graph.dstIdx, Graph.dsts, Dir.opp, ofIdx_iff, hsrc, hdst, List.getElem?_map,
        Option.map_eq_some_iff, Graph.nodeLevel] at ha' hc' hu hv hlu hlv
      obtain ⟨x, hx, hxi⟩ := ha'
      obtain ⟨y, hy, hyi⟩ := hc'
      rw [hx] at hu
      rw [hy] at hv
      obtain ⟨_, hh, hxu⟩ := hu; cases hh
      obtain ⟨_, hh, hyv⟩ := hv; cases hh
      exact hac x y hx hy lu lv (by rw [hxu]; exact hlu) (by rw [hyv]; exact hlv) (by rw [hxi, hyi])
  · intro d; cases d
    · exact hfadj.2.1
    · exact hbadj.2.1
  · intro d; cases d
    · exact hfadj.2.2
    · exact hbadj.2.2
  · intro e he
    have hel : e < kept.length := by simpa [Graph.edgeCount, edgesC] using he
    exact ⟨_, hsc e _ (List.getElem?_eq_getElem hel) _ rfl rfl⟩
  · intro e o ho
    by_contra hc
    have hn : scOffs[e + 1]? = none := by
      rw [List.getElem?_eq_none]
      rw [hso1]
      simp only [Graph.edgeCount, List.length_map] at hc
      omega
    simp [Graph.scEdgesOf, Graph.isShortcut, hn] at ho
  · intro e id
    exact idMap_spec (edgesC := edgesC) rfl hi2 hi3 e id

end Build
end Verif
