import Verif.ParallelProps
import Verif.BalancingProps

/-!
# C72: shortcuts have no workload
-/

namespace Verif.Par

open Graph Dij

variable {σ : Type} {process : σ → Work → Option (R (σ × Outcome))} {c : SizeCfg} {g : Graph} {fuel : Nat}

/-- The edges that aren't plain have no workload. -/
def Idle (g : Graph) (loads : List Nat) : Prop :=
  loads.length = g.edgeCount ∧ ∀ e : Nat, e < g.edgeCount → g.scEdgesOf e ≠ .ok none → loads[e]? = some 0

theorem idle_addLoads {es : List Nat} (hes : ∀ e ∈ es, g.scEdgesOf e = .ok none) {loads loads' : List Nat}
    (h : addLoads loads es = .ok loads') (hi : Idle g loads) : Idle g loads' := by
  induction es generalizing loads with
  | nil =>
    simp only [addLoads, Res.ok.injEq] at h
    exact h ▸ hi
  | cons x es ih =>
    simp only [addLoads, Res.bind_eq_ok] at h
    obtain ⟨n, -, h⟩ := h
    refine ih (fun e he => hes e (List.mem_cons_of_mem _ he)) h ⟨by simpa using hi.1, fun e he hs => ?_⟩
    have hne : x ≠ e := by
      rintro rfl
      exact hs (hes x List.mem_cons_self)
    simpa [hne] using hi.2 e he hs

theorem flatten_ok {p q : Path} (h : Path.flatten g fuel p = some (.ok q)) : Path.tryFlatten g fuel p = some (.ok q) := by
  unfold Path.flatten at h
  cases ht : Path.tryFlatten g fuel p with
  | none => simp [ht] at h
  | some r =>
    cases r with
    | ok q' => simpa [ht] using h
    | err e => simp [ht] at h
    | panic => simp [ht] at h

theorem idle_addPaths {ps : List Path} {acc acc' : List Nat × Option (List Path)}
    (h : addPaths g fuel ps acc = some (.ok acc')) (hi : Idle g acc.1) : Idle g acc'.1 := by
  induction ps generalizing acc with
  | nil =>
    simp only [addPaths, Option.some.injEq, Res.ok.injEq] at h
    exact h ▸ hi
  | cons p ps ih =>
    obtain ⟨loads, paths⟩ := acc
    unfold addPaths at h
    split at h
    · simp at h
    · rename_i q hq
      split at h
      · rename_i loads' hl
        exact ih h (idle_addLoads (Path.C21_no_shortcut (flatten_ok hq)) hl hi)
      · simp at h
    · simp at h

theorem idle_step {s s' : Sys σ} {e : Event} (h : step process c g fuel s e = some s') (hi : Idle g s.master.loads) :
    Idle g s'.master.loads := by
  cases e with
  | work i =>
    simp only [step, stepWork] at h
    split at h
    · split at h
      · simp only [Option.some.injEq] at h; exact h ▸ hi
      · simp only [Option.some.injEq] at h; exact h ▸ hi
      · simp at h
    · simp at h
  | exit i =>
    simp only [step, stepExit] at h
    split at h
    · simp only [Option.some.injEq] at h; exact h ▸ hi
    · simp at h
  | joined =>
    simp only [step, stepJoined] at h
    split at h
    · split at h
      · simp only [Option.some.injEq] at h; exact h ▸ hi
      · simp only [Option.some.injEq] at h; exact h ▸ hi
      · simp at h
    · simp at h
  | disconnected =>
    simp only [step, stepDisconnected] at h
    split at h
    · split at h
      · simp only [Option.some.injEq] at h; exact h ▸ hi
      · simp at h
    · simp at h
  | recv fast seed =>
    simp only [step, stepRecv] at h
    split at h
    · rename_i i o channel hph hch
      have key : ∀ {m : Master} {a : Action}, handle c g fuel fast seed i o s.master = some (.ok (m, a)) →
          Idle g m.loads := by
        intro m a hm
        unfold handle at hm
        split at hm
        · split at hm
          · simp at hm
          · rename_i loads paths hp
            simp only at hm
            split at hm
            · simp only [Option.some.injEq, Res.ok.injEq] at hm
              have := idle_addPaths hp hi
              unfold nextAction at hm
              split at hm
              · simp only [Prod.mk.injEq] at hm; exact hm.1 ▸ this
              · simp only [Prod.mk.injEq] at hm; exact hm.1 ▸ this
            · simp at hm
          · simp at hm
        · simp at hm
      split at h
      · simp at h
      · rename_i m w hm
        simp only [Option.some.injEq] at h
        subst h
        unfold sendWork
        split
        · exact key hm
        · exact key hm
      · rename_i m hm
        simp only [Option.some.injEq] at h
        subst h
        exact key hm
      · simp only [Option.some.injEq] at h; exact h ▸ hi
    · simp at h

theorem idle_run {s₀ : σ} {n : Nat} {jobs : List Job} {coll : Bool} {es : List Event} {s : Sys σ}
    (hr : run process c g fuel (start c g s₀ n jobs coll) es = some s) : Idle g s.master.loads := by
  have key : ∀ (es : List Event) (t : Sys σ), run process c g fuel t es = some s → Idle g t.master.loads →
      Idle g s.master.loads := by
    intro es
    induction es with
    | nil =>
      intro t h hi
      simp only [run, Option.some.injEq] at h
      exact h ▸ hi
    | cons ev es ih =>
      intro t h hi
      simp only [run, Option.bind_eq_some_iff] at h
      obtain ⟨t', h1, h2⟩ := h
      exact ih t' h2 (idle_step h1 hi)
  exact key es _ hr ⟨by simp [start], fun e he _ => by simp [start, he]⟩

/-- C72: a shortcut never gets any workload, whatever the workers do and however they are scheduled: chosen paths are
flattened before their edges are counted. -/
theorem C72_idle {s₀ : σ} {n : Nat} {jobs : List Job} {coll : Bool} {es : List Event} {s : Sys σ}
    (hr : run process c g fuel (start c g s₀ n jobs coll) es = some s) {e x y : Nat} (he : e < g.edgeCount)
    (hs : g.scEdgesOf e = .ok (some (x, y))) : s.master.loads[e]? = some 0 :=
  (idle_run hr).2 e he (by rw [hs]; simp)

end Verif.Par

namespace Verif.Bal

open Gen Par

/-- C72: by averaging, without a minimum, and with the flag (which is set by default), the first update fails if some
edge has no workload. -/
theorem C72_unused {w : List Nat} {s : Net} {cfg : Config} {k : Nat} (hn : s.edges.ids.Nodup)
    (hk : s.edges.ids[k]? = some cfg.metricId) (hc : Consistent s)
    (hmeans : ∀ means, s.graph.means = some means → means.length = s.edges.units.length)
    (hw : w.length = s.graph.metrics.length) (hm : cfg.method = .averaging) (hmin : cfg.minNewMetric = none)
    (hf : cfg.isErrWhenZero = true) {e : Nat} (he : w[e]? = some 0) :
    ∃ err, update 0 w s cfg = (.err err, s) := by
  have hlt : e < w.length := lt_of_some he
  have hne : w ≠ [] := by rintro rfl; simp at hlt
  obtain ⟨h1, h2⟩ := C40_succeeds_iff (i := 0) (cfg := cfg) hn hk hc hmeans hw hne
  cases hu : update 0 w s cfg with
  | mk r s' =>
    cases r with
    | panic => rw [hu] at h2; exact absurd rfl h2
    | err err => exact ⟨err, by rw [(C40_errors (i := 0) (w := w) (s := s) (cfg := cfg)).1 err s' hu]⟩
    | ok d =>
      exfalso
      obtain ⟨k', h3, h4, -, -, h5, -⟩ := update_ok hu
      have := h5 hmin hf (target cfg 0 ((value s.graph.metrics e k').getD 0) (relative w e))
        (by unfold targets; exact List.mem_map.mpr ⟨e, List.mem_range.mpr hlt, rfl⟩)
      unfold target relative at this
      rw [hm, hmin, List.getD_eq_getElem?_getD, he] at this
      norm_num at this

/-- C72: so the balancer can't finish its first iteration on a graph with shortcuts. -/
theorem C72_false_shortcuts {σ : Type} {process : σ → Work → Option (Par.R (σ × Outcome))} {c : SizeCfg} {fuel : Nat}
    {s₀ : σ} {n : Nat} {jobs : List Job} {coll : Bool} {es : List Par.Event} {t : Sys σ} {s : Net} {cfg : Config} {k : Nat}
    (hr : run process c s.graph fuel (start c s.graph s₀ n jobs coll) es = some t)
    (hlen : s.graph.metrics.length = s.graph.edgeCount)
    (hn : s.edges.ids.Nodup) (hk : s.edges.ids[k]? = some cfg.metricId) (hc : Consistent s)
    (hmeans : ∀ means, s.graph.means = some means → means.length = s.edges.units.length)
    (hm : cfg.method = .averaging) (hmin : cfg.minNewMetric = none) (hf : cfg.isErrWhenZero = true)
    {e x y : Nat} (he : e < s.graph.edgeCount) (hs : s.graph.scEdgesOf e = .ok (some (x, y))) :
    ∃ err, update 0 t.master.loads s cfg = (.err err, s) :=
  C72_unused hn hk hc hmeans ((idle_run hr).1.trans hlen.symm) hm hmin hf (C72_idle hr he hs)

/-- The circle with two shortcuts and its only metric. -/
def chNet : Net where
  graph := Dij.chGraph
  nodes := []
  edges := { cats := [.metric .kilometers "km".toList], units := [.kilometers], ids := ["km".toList], normalized := false }

/-- The shortest routes use shortcuts, but these get no workload. So the update fails, although every plain edge is
used. -/
example : ∃ t, run (dijkstraWork Dij.codeHeap chNet.graph .chDijkstra [1] 60) sizeDefaults chNet.graph 60
      (start sizeDefaults chNet.graph Dij.St.new 1 [⟨0, 2, 1⟩, ⟨2, 0, 1⟩] false)
      [.recv true 0, .work 0, .recv false 1, .exit 0, .joined, .disconnected] = some t ∧
    t.phase = .returned ∧ ∃ err, update 0 t.master.loads chNet { exCfg with method := .averaging } = (.err err, chNet) := by
  have h : (run (dijkstraWork Dij.codeHeap chNet.graph .chDijkstra [1] 60) sizeDefaults chNet.graph 60
      (start sizeDefaults chNet.graph Dij.St.new 1 [⟨0, 2, 1⟩, ⟨2, 0, 1⟩] false)
      [.recv true 0, .work 0, .recv false 1, .exit 0, .joined, .disconnected]).map (fun t => t.phase) =
        some .returned := by decide +kernel
  rw [Option.map_eq_some_iff] at h
  obtain ⟨t, h1, h2⟩ := h
  exact ⟨t, h1, h2, C72_false_shortcuts (k := 0) (e := 0) (x := 1) (y := 2) h1 (by decide +kernel) (by decide +kernel)
    (by decide +kernel) ⟨by decide +kernel, by decide +kernel, by decide +kernel, by decide +kernel⟩ (by decide +kernel)
    rfl rfl rfl (by decide +kernel) (by decide +kernel)⟩

end Verif.Bal
