import Verif.SpecialLemmas3
import Verif.OverflowNear
import Verif.FloatProps

/-!
# Costs of routes of open edges
-/

namespace Verif.Special

open Dij Search Graph Fp

section
variable {g : Graph} {ms : List (List (Num ℚ))} {al : List ℚ}

/-- The graph with the finite values. -/
def fins (g : Graph) (ms : List (List (Num ℚ))) : Graph := { g with metrics := ms.map (·.map part) }

theorem fins_wf (hwf : g.WellFormed) (h : ms.length = g.edgeCount) : (fins g ms).WellFormed :=
  ⟨hwf.ids_sorted, hwf.coords_len, hwf.levels_len, hwf.bwd_len,
    (by simp only [fins, List.length_map]; exact h), hwf.edgeIds_len, hwf.ends_lt, hwf.start,
    hwf.covered_iff, hwf.not_covered, hwf.sc_ok, hwf.sc_len, hwf.idMap_iff⟩

theorem fins_nonneg (hm : Nonneg ms) : NonnegMetrics (fins g ms) := by
  intro m hmem x hx
  obtain ⟨v, hv, rfl⟩ := List.mem_map.mp hmem
  obtain ⟨y, hy, rfl⟩ := List.mem_map.mp hx
  cases y with
  | fin z => exact (hm v hv _ hy).2 z rfl
  | inf | neg | nan => exact le_refl _

theorem fins_cost (l : List Nat) : routeCost (fins g ms) al l = costOf ms al l := by
  unfold routeCost costOf
  refine congrArg _ (List.map_congr_left fun e _ => ?_)
  simp only [fins, List.getElem?_map]
  cases ms[e]? <;> rfl

theorem isRoute_fins {u v : Nat} {l : List Nat} : (fins g ms).IsRoute u l v ↔ g.IsRoute u l v := by
  induction l generalizing u with
  | nil => exact Iff.rfl
  | cons e l ih => exact exists_congr fun w => and_congr Iff.rfl ih

theorem isUp_fins {u v : Nat} {l : List Nat} : IsUp (fins g ms) u l v ↔ IsUp g u l v := by
  induction l generalizing u with
  | nil => exact Iff.rfl
  | cons e l ih => exact exists_congr fun w => and_congr Iff.rfl (and_congr Iff.rfl ih)

theorem isDown_fins {u v : Nat} {l : List Nat} : IsDown (fins g ms) u l v ↔ IsDown g u l v := by
  induction l generalizing u with
  | nil => exact Iff.rfl
  | cons e l ih => exact exists_congr fun w => and_congr Iff.rfl (and_congr Iff.rfl ih)

theorem part_fin (ys : List ℚ) : (ys.map Num.fin).map part = ys := by
  rw [List.map_map]
  exact (List.map_congr_left fun _ _ => rfl).trans (List.map_id _)

section
variable {k : ℕ} (hk : 50 + (k + k) ≤ 970) (hwf : g.WellFormed) (hlen : ms.length = g.edgeCount)
  (hm : Nonneg ms) (hmod : ∀ m ∈ ms, ∀ y : ℚ, .fin y ∈ m → y ≤ 2 ^ k) (ha : ∀ a ∈ al, 0 ≤ a)
  (hmod' : ∀ a ∈ al, a ≤ 2 ^ k) (hal : al.length ≤ 2 ^ 50)
include hk hm hmod ha hmod' hal

/-- Open edges have the weight of their finite values. -/
theorem look_open {e : Nat} (h : Open ms e) :
    look ms al [(e : ℚ)] = some (Fp.dot f64 al (((ms[e]?).getD []).map part)) := by
  obtain ⟨v, hv, hx⟩ := h
  obtain ⟨ys, rfl⟩ := all_fin hx
  have hmem := List.mem_of_getElem? hv
  have h1 := Over.weight_moderate (k := k) (by omega) (a := al) (m := ys) (fun x hx => ⟨ha x hx, hmod' x hx⟩)
    (fun x hx => ⟨(hm _ hmem _ (List.mem_map.mpr ⟨x, hx, rfl⟩)).2 x rfl,
      hmod _ hmem x (List.mem_map.mpr ⟨x, hx, rfl⟩)⟩) hal
  rw [look_get hv, dotN_fin, h1.1, hv, Option.getD_some, part_fin]

/-- The weights of all edges are moderate. -/
theorem bound_code (hdim : ∀ m ∈ ms, m.length = al.length) : Over.Bound (code g ms.length) (Over.wt0 (look ms al)) (Over.mult (50 + (k + k))) := by
  have hone : (0 : Rounded f64) ≤ Over.rd (2 ^ (50 + (k + k))) := by
    rw [Over.le_rounded, Over.rd_pow]
    exact (by positivity : (0 : ℚ) ≤ 2 ^ (50 + (k + k)))
  refine ⟨le_refl _, monotone_nat_of_le_succ fun j => (addOk_rounded f64).infl _ _ hone, ?_⟩
  intro j x hx m hmem
  refine le_trans ((addOk_rounded f64).mono _ _ _ hx) ((addOk_rounded f64).mono' _ _ _ ?_)
  obtain ⟨e, he, rfl⟩ := List.mem_map.mp hmem
  have hlt : e < ms.length := by simpa using he
  unfold Over.wt0
  by_cases ho : Open ms e
  · obtain ⟨w, h1, h2⟩ := weight_open (k := k) (by omega) hm hmod ha hmod' hal ho
    rw [h1]
    exact h2
  · cases hw : look ms al [(e : ℚ)] with
    | none => exact hone
    | some w =>
      have hv := List.getElem?_eq_getElem hlt
      rw [look_get hv] at hw
      exact absurd ⟨_, hv, dotN_open (hdim _ (List.getElem_mem hlt)) hw⟩ ho

include hwf hlen

/-- The arcs with a finite weight are those of open edges. -/
theorem mem_filt (hdim : ∀ m ∈ ms, m.length = al.length) {h : Heap (Rounded f64)} {isCh : Bool} {src dst : Nat}
    {d : Dir} {u : Nat} {t : Arc (Rounded f64)} :
    t ∈ (Over.filt (Over.finite (code g ms.length) (look ms al))
      (cfg h (code g ms.length) (Over.wt0 (look ms al)) isCh src dst)).out d u ↔
    t ∈ outArcs (fins g ms) (Fp.dot f64 al) isCh d u ∧ Open ms t.1 := by
  have key : ∀ e, Open ms e → ∃ v, ms[e]? = some v ∧ Over.finite (code g ms.length) (look ms al) e = true ∧
      (code g ms.length).metrics[e]? = some [(e : ℚ)] ∧
      Over.wt0 (look ms al) [(e : ℚ)] = Fp.dot f64 al (v.map part) ∧
      (fins g ms).metrics[e]? = some (v.map part) := by
    intro e he
    have h1 := look_open hk hm hmod ha hmod' hal he
    obtain ⟨v, hv, _⟩ := he
    have h2 : (code g ms.length).metrics[e]? = some [(e : ℚ)] := by rw [code_get, hv]; rfl
    refine ⟨v, hv, ?_, h2, ?_, ?_⟩
    · unfold Over.finite
      rw [h2]
      simp only [h1]
      rfl
    · rw [Over.wt0, h1, hv]
      rfl
    · simp only [fins, List.getElem?_map, hv]
      rfl
  have hlev : ∀ n, levelD (fins g ms) n = levelD (code g ms.length) n := fun _ => rfl
  constructor
  · intro ht
    obtain ⟨h1, h2⟩ := List.mem_filter.mp ht
    have ho := open_of_finite hdim h2
    obtain ⟨v, h3, _, h4, h5, h6⟩ := key _ ho
    obtain ⟨h7, h8, ⟨m, h9, h10⟩, h11⟩ := (mem_outArcs (code_wf hwf hlen)).mp h1
    rw [h4] at h9
    cases h9
    exact ⟨(mem_outArcs (fins_wf hwf hlen)).mpr ⟨h7, h8, ⟨_, h6, by rw [h10, h5]⟩, h11⟩, ho⟩
  · rintro ⟨h1, ho⟩
    obtain ⟨v, h3, hf, h4, h5, h6⟩ := key _ ho
    obtain ⟨h7, h8, ⟨m, h9, h10⟩, h11⟩ := (mem_outArcs (fins_wf hwf hlen)).mp h1
    rw [h6] at h9
    cases h9
    exact List.mem_filter.mpr
      ⟨(mem_outArcs (code_wf hwf hlen)).mpr ⟨h7, h8, ⟨_, h4, by rw [h10, h5]⟩, h11⟩, hf⟩

theorem isRt_open (hdim : ∀ m ∈ ms, m.length = al.length) {h : Heap (Rounded f64)} {isCh : Bool} {src dst : Nat}
    {d : Dir} {u v : Nat} {ts : List (Arc (Rounded f64))}
    (hr : IsRt (outArcs (fins g ms) (Fp.dot f64 al) isCh d) u ts v) (ho : ∀ t ∈ ts, Open ms t.1) :
    IsRt ((Over.filt (Over.finite (code g ms.length) (look ms al))
      (cfg h (code g ms.length) (Over.wt0 (look ms al)) isCh src dst)).out d) u ts v := by
  induction ts generalizing u with
  | nil => exact hr
  | cons t ts ih =>
    exact ⟨(mem_filt hk hwf hlen hm hmod ha hmod' hal hdim).mpr ⟨hr.1, ho t List.mem_cons_self⟩,
      ih hr.2 fun t' ht' => ho t' (List.mem_cons_of_mem _ ht')⟩

end

/-- Sums of two moderate costs fit. -/
theorem fits_twice {k n : ℕ} (hk : k ≤ 400) (hn : n ≤ 2 ^ 50) (x : Rounded f64)
    (hx : x ≤ Over.mult (50 + (k + k)) n + Over.mult (50 + (k + k)) n) : Over.fitsF x = true := by
  refine Over.fits_down _ _ hx ?_
  simp only [Over.fitsF, decide_eq_true_eq, Over.add_val]
  have e := Over.mult_le (e := 50 + (k + k)) (k := 50) (by norm_num) hn
  have h3 := Over.rd_pow (50 + (50 + (k + k)) + 1)
  refine le_trans (f64.mono (b := 2 ^ (50 + (50 + (k + k)) + 1)) ?_) ?_
  · rw [pow_succ]
    linarith
  · exact h3.le.trans (Over.pow_le_max (by omega))

theorem mirror_filt {fin : Nat → Bool} {c : Cfg (Rounded f64)} (h : Mirror c) : Mirror (Over.filt fin c) := by
  intro u v e w
  simp only [Over.filt, List.mem_filter, h u v e w]

/-- Every route of open edges can be shortened without becoming more expensive. -/
theorem short_cost (g : Graph) {R : Nat → Nat → Nat → Prop} {n : Nat} (hm : Nonneg ms) (ha : ∀ a ∈ al, 0 ≤ a)
    (hR : ∀ e u v, R e u v → v < n) {u v : Nat} (hu : u < n) {l : List Nat} (h : Walk R u l v)
    (hP : ∀ e ∈ l, Open ms e) : ∃ l', Walk R u l' v ∧ (∀ e ∈ l', Open ms e) ∧ l'.length < n ∧
      costOf ms al l' ≤ costOf ms al l := by
  obtain ⟨l', h1, h2, h3⟩ := walk_short (g := fins g ms) (fins_nonneg hm) ha (n := n)
    (R := fun e u w => R e u w ∧ Open ms e) (fun e u v h => hR e u v h.1) hu (walk_and.mpr ⟨h, hP⟩)
  rw [fins_cost, fins_cost] at h3
  exact ⟨l', (walk_and.mp h1).1, (walk_and.mp h1).2, h2, h3⟩

end

end Verif.Special
