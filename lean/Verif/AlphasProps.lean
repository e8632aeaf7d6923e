import Verif.AlphasLemmas
import Verif.SpecialProps

/-!
# Property C110: weights that are no finite numbers
-/

namespace Verif.Special

open Dij Search Graph Fp

section
variable {fuel n : Nat} {s s' : St (Rounded f64)} {q : Query (Rounded f64)} {ms : List (List (Num ℚ))}
  {alphas : List (Num ℚ)}

/-- A returned path is a route of open edges. It has edges only if all weights are finite, and none of the weights is
below zero. -/
theorem C110_route {p : Path} (hwf : q.graph.WellFormed) (hlen : ms.length = q.graph.edgeCount) (hm : Nonneg ms)
    (hdim : ∀ m ∈ ms, m.length = alphas.length) (hsrc : q.src < q.graph.nodeCount) (hdst : q.dst < q.graph.nodeCount)
    (hu : UsedA n s) (hc : routerA ms alphas fuel s q = some (.ok (s', some p))) :
    q.graph.IsRoute q.src p.edges q.dst ∧ (∀ e ∈ p.edges, Open ms e) ∧
      (p.edges ≠ [] → ∀ a ∈ alphas, ∃ x : ℚ, a = .fin x) ∧ (∀ a ∈ alphas, ¬ Below a) ∧
      p.srcIdx = q.src ∧ p.dstIdx = q.dst ∧
      q.graph.nodeId q.src = .ok p.srcId ∧ q.graph.nodeId q.dst = .ok p.dstId := by
  have hb : ∀ a ∈ alphas, ¬ Below a := by
    intro a ha hb
    rw [routerA_below ⟨a, ha, hb⟩] at hc
    cases hc
  by_cases h : ∃ a ∈ alphas, ∀ y : ℚ, a ≠ .fin y
  · rw [routerA_shut hm hdim hb h] at hc
    obtain ⟨h1, h2, h3⟩ := C109_route (q := { q with alphas := [1] }) hwf (by simpa [shut] using hlen) (shut_nonneg ms)
      (by intro m hm; obtain ⟨_, _, rfl⟩ := List.mem_map.mp hm; rfl) hsrc hdst hu.used hc
    have h4 : p.edges = [] := by
      rw [List.eq_nil_iff_forall_not_mem]
      intro e he
      obtain ⟨m, h5, h6⟩ := h2 e he
      obtain ⟨_, _, rfl⟩ := List.mem_map.mp (List.mem_of_getElem? h5)
      obtain ⟨y, hy⟩ := h6 .nan (by simp)
      cases hy
    refine ⟨h1, ?_, fun h => absurd h4 h, hb, h3⟩
    rw [h4]
    intro e he
    cases he
  · push Not at h
    obtain ⟨al, rfl⟩ := all_fin h
    rw [routerA_fin] at hc
    obtain ⟨h1, h2, h3⟩ := C109_route (q := { q with alphas := al }) hwf hlen hm
      (by intro m hmem; simpa using hdim m hmem) hsrc hdst hu.used hc
    exact ⟨h1, h2, fun _ => h, hb, h3⟩

/-- A node is always found from itself, unless a weight is below zero. -/
theorem C110_self {ans : Option Path} (hwf : q.graph.WellFormed) (hlen : ms.length = q.graph.edgeCount) (hm : Nonneg ms)
    (hdim : ∀ m ∈ ms, m.length = alphas.length) (hsrc : q.src < q.graph.nodeCount) (heq : q.src = q.dst)
    (hu : UsedA n s) (hb : ∀ a ∈ alphas, ¬ Below a)
    (hc : routerA ms alphas fuel s q = some (.ok (s', ans))) : ans ≠ none := by
  have key : ∀ (ms' : List (List (Num ℚ))) (al : List ℚ), ms'.length = q.graph.edgeCount → Nonneg ms' →
      (∀ a ∈ al, 0 ≤ a) → router ms' fuel s { q with alphas := al } = some (.ok (s', ans)) → ans ≠ none := by
    intro ms' al hlen' hm' hal hr hnone
    have halg : q.algo ≠ .explorator := by
      intro ha
      unfold router at hr
      rw [if_neg (by simpa using hal)] at hr
      simp only [ha] at hr
      cases hr
    have h5 := (answered_of (q := { q with alphas := al }) hwf hlen' hm' hsrc (by rw [← heq]; exact hsrc) hu.used halg
      hal hr rfl rfl).1 hnone q.src [] [] rfl ⟨by simp, by simp⟩ heq.symm
    exact h5 ⟨by simp, by simp⟩
  by_cases h : ∃ a ∈ alphas, ∀ y : ℚ, a ≠ .fin y
  · rw [routerA_shut hm hdim hb h] at hc
    exact key _ _ (by simpa [shut] using hlen) (shut_nonneg ms) (by simp) hc
  · push Not at h
    obtain ⟨al, rfl⟩ := all_fin h
    rw [routerA_fin] at hc
    exact key _ _ hlen hm (fun a ha => not_lt.mp (hb _ (List.mem_map.mpr ⟨a, ha, rfl⟩))) hc

/-- If a weight is infinite or undefined, then there is a path if and only if source and destination are the same, and
it has no edges. -/
theorem C110_not_finite {ans : Option Path} (hwf : q.graph.WellFormed) (hlen : ms.length = q.graph.edgeCount)
    (hm : Nonneg ms) (hdim : ∀ m ∈ ms, m.length = alphas.length) (hsrc : q.src < q.graph.nodeCount)
    (hdst : q.dst < q.graph.nodeCount) (hu : UsedA n s) (hb : ∀ a ∈ alphas, ¬ Below a)
    (h : .inf ∈ alphas ∨ .nan ∈ alphas) (hc : routerA ms alphas fuel s q = some (.ok (s', ans))) :
    (ans = none ↔ q.src ≠ q.dst) ∧ ∀ p, ans = some p → p.edges = [] := by
  have hno : ∀ p, ans = some p → p.edges = [] := by
    rintro p rfl
    by_contra hne
    have h1 := (C110_route hwf hlen hm hdim hsrc hdst hu hc).2.2.1 hne
    rcases h with h | h <;> (obtain ⟨x, hx⟩ := h1 _ h; cases hx)
  refine ⟨⟨fun hn heq => C110_self hwf hlen hm hdim hsrc heq hu hb hc hn, fun hne => ?_⟩, hno⟩
  cases ans with
  | none => rfl
  | some p =>
    have h1 := (C110_route hwf hlen hm hdim hsrc hdst hu hc).1
    rw [hno p rfl] at h1
    exact absurd h1 hne

/-- If a weight is below zero, then there is no path, and the router remains as it is. -/
theorem C110_below (h : ∃ a ∈ alphas, Below a) : routerA ms alphas fuel s q = some (.ok (s, none)) :=
  routerA_below h

/-- With finite weights, the router is the one of C109. -/
theorem C110_finite {al : List ℚ} :
    routerA ms (al.map .fin) fuel s q = router ms fuel s { q with alphas := al } := routerA_fin

/-- Every query ends. -/
theorem C110_terminates (hwf : q.graph.WellFormed) (hlen : ms.length = q.graph.edgeCount) (hm : Nonneg ms)
    (hdim : ∀ m ∈ ms, m.length = alphas.length) (hsrc : q.src < q.graph.nodeCount)
    (hdst : q.dst < q.graph.nodeCount) :
    ∃ N, ∀ fuel, N ≤ fuel → ∀ (n : Nat) s, UsedA n s → routerA ms alphas fuel s q ≠ none := by
  obtain ⟨ms', al', h1, h2, h3⟩ := routerA_cases hm hdim
  obtain ⟨N, hN⟩ := C109_terminates (q := { q with alphas := al' }) hwf (h2.trans hlen) h1 hsrc hdst
  refine ⟨N, fun fuel hf n s hu => ?_⟩
  rw [h3]
  exact hN fuel hf n s hu.used

/-- No query panics. -/
theorem C110_no_panic (hwf : q.graph.WellFormed) (hlen : ms.length = q.graph.edgeCount) (hm : Nonneg ms)
    (hdim : ∀ m ∈ ms, m.length = alphas.length) (hn : q.graph.nodeCount ≠ 2) (hcov : AllCovered q.graph)
    (hsrc : q.src < q.graph.nodeCount) (hdst : q.dst < q.graph.nodeCount) (hu : UsedA q.graph.nodeCount s)
    (halg : q.algo ≠ .explorator) : routerA ms alphas fuel s q ≠ some .panic := by
  obtain ⟨ms', al', h1, h2, h3⟩ := routerA_cases hm hdim
  rw [h3]
  exact C109_no_panic (q := { q with alphas := al' }) hwf (h2.trans hlen) h1 hn hcov hsrc hdst hu.used halg

end

/-! ## Examples -/

/-- A triangle whose edges have two metrics. The second weight is infinite or undefined, hence its first metric alone
doesn't help. -/
def triTwo : List (List (Num ℚ)) := [[.fin 1, .fin 0], [.fin 100, .fin 2], [.fin 1, .inf], [.fin 1, .fin 3]]

theorem triTwo_nonneg : Nonneg triTwo := by
  intro m hm x hx
  simp only [triTwo, List.mem_cons, List.not_mem_nil, or_false] at hm
  rcases hm with rfl | rfl | rfl | rfl <;> simp only [List.mem_cons, List.not_mem_nil, or_false] at hx <;>
    rcases hx with rfl | rfl <;> refine ⟨by simp, fun y hy => ?_⟩ <;> cases hy <;> norm_num

/-- The assumptions of the theorems. -/
example : (triQuery 0 2).graph.WellFormed ∧ triTwo.length = (triQuery 0 2).graph.edgeCount ∧ Nonneg triTwo ∧
    (∀ m ∈ triTwo, m.length = [Num.fin (1 : ℚ), .inf].length) ∧ (triQuery 0 2).graph.nodeCount = 3 ∧
    (∀ a ∈ [Num.fin (1 : ℚ), .inf, .nan], ¬ Below a) ∧
    answer (routerA triTwo [.fin 1, .fin 1] 20 St.new (triQuery 0 2)) = some (.ok (some (Path.new 0 0 2 2 [1]))) ∧
    answer (routerA triTwo [.fin 1, .inf] 20 St.new (triQuery 0 2)) = some (.ok none) ∧
    answer (routerA triTwo [.fin 1, .nan] 20 St.new (triQuery 0 2)) = some (.ok none) ∧
    answer (routerA triTwo [.nan, .inf] 20 St.new { triQuery 0 2 with algo := .chDijkstra }) = some (.ok none) ∧
    answer (routerA triTwo [.fin 1, .inf] 20 St.new (triQuery 1 1)) = some (.ok (some (Path.new 1 1 1 1 []))) ∧
    answer (routerA triTwo [.fin 1, .neg] 20 St.new (triQuery 1 1)) = some (.ok none) := by
  refine ⟨Build.built_wellFormed tri_ok, by decide +kernel, triTwo_nonneg, ?_, by decide +kernel, ?_, by decide +kernel,
    by decide +kernel, by decide +kernel, by decide +kernel, by decide +kernel, by decide +kernel⟩
  · intro m hm
    simp only [triTwo, List.mem_cons, List.not_mem_nil, or_false] at hm
    rcases hm with rfl | rfl | rfl | rfl <;> rfl
  · intro a ha
    simp only [List.mem_cons, List.not_mem_nil, or_false] at ha
    rcases ha with rfl | rfl | rfl <;> simp [Below]

/-- A router that has been used with an infinite weight still finds paths with finite ones. -/
example : UsedA 3 (Over.after (routerA triTwo [.fin 1, .inf] 20 St.new (triQuery 0 2))) ∧
    answer (routerA triTwo [.fin 1, .fin 1] 20
      (Over.after (routerA triTwo [.fin 1, .inf] 20 St.new (triQuery 0 2))) (triQuery 0 2)) =
      some (.ok (some (Path.new 0 0 2 2 [1]))) := by
  refine ⟨UsedA.query .new (show (triQuery 0 2).graph.nodeCount ≤ 3 by decide +kernel) triTwo_nonneg ?_
    (Over.after_eq (ans := none) (by decide +kernel)), by decide +kernel⟩
  intro m hm
  simp only [triTwo, List.mem_cons, List.not_mem_nil, or_false] at hm
  rcases hm with rfl | rfl | rfl | rfl <;> rfl

end Verif.Special
