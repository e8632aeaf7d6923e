import Verif.SessionChExplore
import Verif.SessionFuel

/-!
# The tool's explorator ends (C64, C89)

The explorator's libraries are assumed to return cells of the lower convex hull only, see C63 and C64.
-/

namespace Verif.Exp

open Dij (Used computeBestPath)
open Search (AddOk)

variable {K : Type} [LinearOrder K] [Zero K] [Add K] {h : Dij.Heap K} {dotp : List ℚ → List ℚ → K}
  {b : Backend} {n : Nat} {s : Dij.St K} {q : Dij.Query K} {scales : List (Option ℚ)}
  {coords : b.Tri → Nat → Option (List ℚ)} {size : b.Tri → Nat}

/-- The exploration ends on every graph, but it may panic.
Partial: for other cells it is false, see `C64_false_new_ids`. -/
theorem C64_terminates_partial (hb : Regular b coords size) (hl : Lower b coords size)
    (hwf : q.graph.WellFormed) (hk : AddOk K) (hd : q.graph.DimOk)
    (hw : ∀ al, (∀ a ∈ al, 0 ≤ a) → ∀ m ∈ q.graph.metrics, 0 ≤ dotp al m)
    (hsrc : q.src < q.graph.nodeCount) (hdst : q.dst < q.graph.nodeCount) (hu : Used h dotp n s)
    (hal : q.alphas.length = q.graph.dim) :
    ∃ N r, ∀ fuel, N ≤ fuel → fullyExplorate h dotp b fuel s q scales = some r := by
  obtain ⟨i, j, ha⟩ := compute_serves (h := h) (dotp := dotp) (q := q) (n := max n q.graph.nodeCount) hwf hk
    hd hw hsrc hdst (le_max_right _ _)
  refine explorate_ev (scales := scales) ha ?_ hl hb hal (hu.mono (le_max_left _ _))
  intro s2 al hu2
  suffices h : ∃ N r, computeBestPath h dotp N s2 { q with alphas := al } = some r by
    obtain ⟨N, r, h⟩ := h
    refine ⟨N, r, fun fuel hf => ?_⟩
    have := Dij.compute_mono h (fuel - N)
    rwa [Nat.add_sub_cancel' hf] at this
  by_cases hal : ∀ a ∈ al, 0 ≤ a
  · obtain ⟨N, hN⟩ := Dij.C19_terminates (h := h) (dotp := dotp) (q := { q with alphas := al }) hwf hk (hw al hal)
      hsrc hdst
    exact ⟨N, Option.ne_none_iff_exists'.mp (hN N le_rfl _ s2 hu2)⟩
  · push Not at hal
    obtain ⟨a, h3, h4⟩ := hal
    refine ⟨0, .ok (s2, none), ?_⟩
    unfold computeBestPath
    rw [if_pos (List.any_eq_true.mpr ⟨a, h3, by simpa using h4⟩)]

end Verif.Exp

namespace Verif.Session

open Text Dij
open Search (AddOk)
open Build (ProtoEdge ProtoNode build Endpoint)
open Yml (ParsingIn RoutingIn Writer Yaml)

section
variable {K : Type} [LinearOrder K] [Zero K] [Add K] {w : World K} {g : Graph} {rc : Yml.RoutingCfg}
  {coords : w.backend.Tri → Nat → Option (List ℚ)} {size : w.backend.Tri → Nat} {ch : Bool}

theorem answers_explore (halg : rc.algo = .explorator ch) (fuel : Nat) (rs : List Routes.Route) :
    answers w fuel g rc rs =
      queries g (explore w fuel g (below ch) rc.routing.alphas rc.routing.tolerances) St.new rs := by
  unfold answers
  rw [halg]

/-- With enough steps, the explorator's task finishes iff the ids of all pairs are known, also on maps with shortcuts.
Partial: The cells have to belong to the lower convex hull, see C64. The graph must not have exactly two nodes, and all
nodes must be covered, see C15. There must be less than 32 metrics, see C46. -/
theorem C89_explores_partial {dim : Nat} {es : List ProtoEdge} {ns : List ProtoNode} (hb : build dim es ns = .ok g)
    (hr : Exp.Regular w.backend coords size) (hl : Exp.Lower w.backend coords size) (hk : AddOk K) (hd : g.DimOk)
    (hw : ∀ al, (∀ a ∈ al, 0 ≤ a) → ∀ m ∈ g.metrics, 0 ≤ w.dotp al m) (halg : rc.algo = .explorator ch)
    (hcov : AllCovered g) (h2 : g.nodeCount ≠ 2) (hdim : dim < 32) (hal : rc.routing.alphas.length = dim)
    (htol : rc.routing.tolerances.length = dim) (rs : List Routes.Route) :
    ∃ N, ∀ fuel, N ≤ fuel → ((answers w fuel g rc rs).2 = some (.ok ⟨⟩) ↔
      ∀ r ∈ rs, Endpoint es r.src ∧ Endpoint es r.dst) := by
  have hwf := Build.built_wellFormed hb
  have hgd : g.dim = dim := (Build.build_ok hb).2.2.1
  have hone : ∀ r : Routes.Route, Endpoint es r.src → Endpoint es r.dst → ∃ N, ∀ fuel, N ≤ fuel →
      ∃ rep, answers w fuel g rc [r] = ([rep], some (.ok ⟨⟩)) := by
    intro r hs hd'
    obtain ⟨a, hi'⟩ := (intoNode_iff hb _).mpr hs
    obtain ⟨b, hj'⟩ := (intoNode_iff hb _).mpr hd'
    obtain ⟨hi1, -⟩ := intoNode_ok hwf hi'
    obtain ⟨hj1, -⟩ := intoNode_ok hwf hj'
    obtain ⟨N, s', ps, hN⟩ := Exp.C64_ends_partial (h := w.heap) (dotp := w.dotp) (n := 0) (s := St.new)
      (q := { src := a.idx, dst := b.idx, graph := g, algo := below ch, alphas := rc.routing.alphas })
      (scales := rc.routing.tolerances) hr hl hwf hk hd hw (by unfold below; split <;> simp) hcov h2 (Build.nodeId_lt hi1)
      (Build.nodeId_lt hj1) .new (Nat.zero_le _) (by simpa only [hgd] using hdim) (by simpa only [hgd] using hal)
      (by simpa only [hgd] using htol)
    refine ⟨N, fun fuel hf => ⟨if ps.isEmpty then .nothing a b else .found a b ps, ?_⟩⟩
    rw [answers_explore halg]
    refine (queries_one _ _ _).mpr ⟨a, b, s', hi', hj', ?_⟩
    unfold explore
    rw [hN fuel hf]
  induction rs with
  | nil => exact ⟨0, fun fuel _ => by simp [answers_explore halg, queries]⟩
  | cons r rs ih =>
    obtain ⟨N, hN⟩ := ih
    by_cases hr : Endpoint es r.src ∧ Endpoint es r.dst
    · obtain ⟨M, hM⟩ := hone r hr.1 hr.2
      refine ⟨max N M, fun fuel hf => ?_⟩
      obtain ⟨rep, h3⟩ := hM fuel (le_trans (le_max_right N M) hf)
      have h4 := (C89_append (w := w) (fuel := fuel) (rc := rc) [r] rs).1 (by rw [h3])
      rw [List.singleton_append] at h4
      rw [h4]
      simp only [hN fuel (le_trans (le_max_left N M) hf), List.mem_cons, forall_eq_or_imp, hr, true_and, and_self]
    · refine ⟨0, fun fuel _ => ?_⟩
      rw [answers_unknown r rs fun h => hr ⟨(intoNode_iff hb _).mp h.1, (intoNode_iff hb _).mp h.2⟩]
      simp only [Option.some.injEq, reduceCtorEq, false_iff]
      exact fun h => hr (h r (by simp))

end

section
variable {K : Type} [LinearOrder K] [Zero K] [Add K] {w : World K} {wr : Writer} {doc : Yaml}
  {ip : ParsingIn} {ir : RoutingIn} {nodes edges pairs : List Text}
  {coords : w.backend.Tri → Nat → Option (List ℚ)} {size : w.backend.Tri → Nat} {ch : Bool}

/-- The tool terminates with the explorator, too: whatever the map is like, it does not explore forever.
Partial: for cells outside of the lower convex hull it is false, see `C64_false_new_ids`. -/
theorem C89_explorator_terminates_partial (hs : Setting w wr doc ip ir nodes edges pairs)
    (hr : Exp.Regular w.backend coords size) (hl : Exp.Lower w.backend coords size) (halg : ir.algo = .explorator ch)
    (hk : AddOk K) (hw : ∀ al m : List ℚ, (∀ x ∈ al, 0 ≤ x) → (∀ x ∈ m, 0 ≤ x) → 0 ≤ w.dotp al m) :
    ∃ N, ∀ fuel, N ≤ fuel → (run w fuel doc).2 ≠ none := by
  rcases run_cases hs with ⟨r, h1, h2⟩ | ⟨es, ns, g, rs, rc, h1, -, h2, -, h4, h5, -, h7⟩
  · exact ⟨0, fun fuel _ => by simp [h1]⟩
  simp only [h7]
  have hans := fun fuel => answers_explore (w := w) (g := g) (rc := rc) (h4.trans halg) fuel
  have hwf := Build.built_wellFormed h2
  obtain ⟨hd, hgd⟩ := dimOk_of h1 h2
  have hone : ∀ r : Routes.Route, ∃ N, ∀ fuel, N ≤ fuel → (answers w fuel g rc [r]).2 ≠ none := by
    intro r
    simp only [hans, queries]
    cases hsrc : intoNode g r.src with
    | err e => exact ⟨0, fun _ _ => by simp⟩
    | panic => exact ⟨0, fun _ _ => by simp⟩
    | ok a =>
      cases hdst : intoNode g r.dst with
      | err e => exact ⟨0, fun _ _ => by simp⟩
      | panic => exact ⟨0, fun _ _ => by simp⟩
      | ok b =>
        simp only [Res.ok_bind, Res.pure_eq]
        obtain ⟨hi1, -⟩ := intoNode_ok hwf hsrc
        obtain ⟨hj1, -⟩ := intoNode_ok hwf hdst
        obtain ⟨N, x, hN⟩ := Exp.C64_terminates_partial (h := w.heap) (dotp := w.dotp) (n := 0) (s := St.new)
          (q := { src := a.idx, dst := b.idx, graph := g, algo := below ch, alphas := rc.routing.alphas })
          (scales := rc.routing.tolerances) hr hl hwf hk hd
          (fun al hal m hm => hw al m hal (Build.built_nonneg h2 m hm)) (Build.nodeId_lt hi1) (Build.nodeId_lt hj1) .new
          (by simp only [hgd, h5, alphas_length])
        refine ⟨N, fun fuel hf => ?_⟩
        unfold explore
        rw [hN fuel hf]
        match x with
        | .ok (s', ps) => simp
        | .panic => simp
        | .err e => simp
  clear h7
  induction rs with
  | nil => exact ⟨0, fun fuel _ => by simp [hans, queries]⟩
  | cons r rs ih =>
    obtain ⟨N, hN⟩ := ih
    obtain ⟨M, hM⟩ := hone r
    refine ⟨max N M, fun fuel hf => ?_⟩
    obtain ⟨h3, h4⟩ := C89_append (w := w) (fuel := fuel) (rc := rc) (g := g) [r] rs
    rw [List.singleton_append] at h3 h4
    by_cases h : (answers w fuel g rc [r]).2 = some (.ok ⟨⟩)
    · rw [h3 h]
      exact hN fuel (le_trans (le_max_left N M) hf)
    · rw [h4 h]
      exact hM fuel (le_trans (le_max_right N M) hf)

end

/-! ## Sample -/

/-- The small map, explored on its lower convex hull. -/
def hullWorld : World ℚ := { exWorld with backend := Exp.lowerBackend }

def hullRc : Yml.RoutingCfg := { exRc with algo := .explorator false, routing := { alphas := [1, 1], tolerances := [none, none] } }

/-- The hypotheses of `C89_explores_partial` hold. An unknown id panics after the former pairs. -/
example : (∃ N, ∀ fuel, N ≤ fuel → ∀ rs, rs = [⟨10, 40, 1⟩, ⟨40, 10, 1⟩] →
      ((answers hullWorld fuel exGraph hullRc rs).2 = some (.ok ⟨⟩) ↔
        ∀ r ∈ rs, Endpoint exRecords r.src ∧ Endpoint exRecords r.dst)) ∧
    Endpoint exRecords 10 ∧ Endpoint exRecords 40 ∧ ¬ Endpoint exRecords 50 ∧
    (answers hullWorld 60 exGraph hullRc [⟨10, 40, 1⟩, ⟨40, 10, 1⟩]).2 = some (.ok ⟨⟩) ∧
    (answers hullWorld 60 exGraph hullRc [⟨10, 40, 1⟩, ⟨10, 50, 1⟩]).1.length = 1 ∧
    (answers hullWorld 60 exGraph hullRc [⟨10, 40, 1⟩, ⟨10, 50, 1⟩]).2 = some .panic := by
  refine ⟨?_, by unfold Endpoint; decide +kernel, by unfold Endpoint; decide +kernel, by unfold Endpoint; decide +kernel,
    by decide +kernel, by decide +kernel, by decide +kernel⟩
  have hb : build 2 exRecords exNodes = .ok exGraph := by decide +kernel
  obtain ⟨N, hN⟩ := C89_explores_partial (w := hullWorld) (rc := hullRc) (ch := false) hb Exp.lower_regular Exp.lower_lower
    Search.addOk_rat (by unfold Graph.DimOk; decide +kernel)
    (fun al hal m hm => Dij.dot_nonneg hal (Build.built_nonneg hb m hm)) rfl (Dij.allCovered_of (by decide +kernel))
    (by decide +kernel) (by decide) rfl rfl [⟨10, 40, 1⟩, ⟨40, 10, 1⟩]
  exact ⟨N, fun fuel hf rs h => by subst h; exact hN fuel hf⟩

theorem hull_setting : Setting hullWorld Yml.exWriter (exDoc exBoth) exIp exBoth exMapNodes exMapEdges exPairs :=
  { ex_setting exBoth (by decide +kernel) rfl with }

/-- The hypotheses of `C89_explorator_terminates_partial` hold: all three pairs are explored. -/
example : (∃ N, ∀ fuel, N ≤ fuel → (run hullWorld fuel (exDoc exBoth)).2 ≠ none) ∧
    (run hullWorld 60 (exDoc exBoth)).2 = some (.ok ⟨⟩) ∧ (run hullWorld 60 (exDoc exBoth)).1.length = 3 :=
  ⟨C89_explorator_terminates_partial hull_setting Exp.lower_regular Exp.lower_lower rfl Search.addOk_rat
    (fun _ _ h1 h2 => Dij.dot_nonneg h1 h2), by decide +kernel, by decide +kernel⟩

end Verif.Session
