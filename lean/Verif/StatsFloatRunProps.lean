import Verif.StatsFloatProps
import Verif.ParallelProps

/-!
# C117 for whole runs of the parallel balancer
-/

namespace Verif.StatsF

open Par (R Outcome Job Result Work SizeCfg Event Sys Reliable Flattens mean variance run start step usizeMax)

variable {σ : Type} {process : σ → Work → Option (R (σ × Outcome))} {c : SizeCfg} {g : Graph} {fuel n : Nat}
  {Ok : σ → Prop} {Rel : Job → Result → Prop} {jobs : List Job} {coll : Bool}

/-- The outcomes that the master receives in the schedule `es`, the oldest one first. -/
def received (process : σ → Work → Option (R (σ × Outcome))) (c : SizeCfg) (g : Graph) (fuel : Nat) :
    Sys σ → List Event → List Outcome
  | _, [] => []
  | s, e :: es =>
    match step process c g fuel s e with
    | none => []
    | some s' =>
      match e with
      | .recv _ _ => (s.channel.head?.map Prod.snd).toList ++ received process c g fuel s' es
      | _ => received process c g fuel s' es

/-- The statistics of the master with exact numbers. -/
def masterStats (s : Sys σ) : (ℚ × ℚ) × Nat := ((s.master.avg, s.master.var), s.master.progress)

theorem nextAction_stats {i seed : Nat} {m : Par.Master} :
    (Par.nextAction i seed m).1.avg = m.avg ∧ (Par.nextAction i seed m).1.var = m.var ∧
      (Par.nextAction i seed m).1.progress = m.progress := by
  unfold Par.nextAction
  split <;> simp

theorem sendWork_master {i : Nat} {w : Work} {s : Sys σ} : (Par.sendWork i w s).master = s.master := by
  unfold Par.sendWork
  split <;> rfl

/-- What a received outcome does to the statistics. -/
theorem recv_stats {fast : Bool} {seed : Nat} {s s' : Sys σ}
    (hs : Par.stepRecv c g fuel fast seed s = some s') (hp : s'.phase ≠ .panicked) :
    ∃ x xs, s.channel = x :: xs ∧
      masterStats s' = (Par.updateStats (s.master.progress + x.2.pairs) x.2.found (s.master.avg, s.master.var),
        s.master.progress + x.2.pairs) := by
  unfold Par.stepRecv at hs
  split at hs
  · rename_i i o ch hph hch
    refine ⟨(i, o), ch, hch, ?_⟩
    have key : ∀ m a, Par.handle c g fuel fast seed i o s.master = some (.ok (m, a)) →
        ((m.avg, m.var), m.progress) = (Par.updateStats (s.master.progress + o.pairs) o.found
          (s.master.avg, s.master.var), s.master.progress + o.pairs) := by
      intro m a hh
      unfold Par.handle at hh
      split at hh
      · split at hh
        · cases hh
        · dsimp only at hh
          split at hh
          · simp only [Option.some.injEq, Res.ok.injEq] at hh
            have h1 : m = (Par.nextAction i seed _).1 := (congrArg Prod.fst hh).symm
            obtain ⟨a1, a2, a3⟩ := nextAction_stats (i := i) (seed := seed) (m := { s.master with
              size := _, loads := _, paths := _, avg := (Par.updateStats (s.master.progress + o.pairs) o.found
                (s.master.avg, s.master.var)).1, var := (Par.updateStats (s.master.progress + o.pairs) o.found
                (s.master.avg, s.master.var)).2, progress := s.master.progress + o.pairs })
            rw [h1, a1, a2, a3]
          · cases hh
        · cases hh
      · cases hh
    split at hs
    · cases hs
    · rename_i m w hh
      simp only [Option.some.injEq] at hs
      subst hs
      unfold masterStats
      rw [sendWork_master]
      exact key m _ hh
    · rename_i m hh
      simp only [Option.some.injEq] at hs
      subst hs
      exact key m _ hh
    · simp only [Option.some.injEq] at hs
      subst hs
      exact absurd rfl hp
  · cases hs

/-- The other steps don't touch the statistics. -/
theorem other_stats {e : Event} {s s' : Sys σ} (he : ∀ f k, e ≠ .recv f k)
    (hs : step process c g fuel s e = some s') : s'.master = s.master := by
  cases e with
  | recv f k => exact absurd rfl (he f k)
  | work i =>
    simp only [step, Par.stepWork] at hs
    split at hs
    · split at hs <;> first | (cases hs; done) | (simp only [Option.some.injEq] at hs; subst hs; rfl)
    · cases hs
  | exit i =>
    simp only [step, Par.stepExit] at hs
    split at hs
    · simp only [Option.some.injEq] at hs; subst hs; rfl
    · cases hs
  | joined =>
    simp only [step, Par.stepJoined] at hs
    split at hs
    · split at hs <;> first | (cases hs; done) | (simp only [Option.some.injEq] at hs; subst hs; rfl)
    · cases hs
  | disconnected =>
    simp only [step, Par.stepDisconnected] at hs
    split at hs
    · split at hs <;> first | (cases hs; done) | (simp only [Option.some.injEq] at hs; subst hs; rfl)
    · cases hs

/-- An outcome is what workers may report. -/
def Reported (Rel : Job → Result → Prop) (jobs : List Job) (o : Outcome) : Prop :=
  ∃ l : List (Job × Result), l.length ≤ jobs.length ∧ (∀ x ∈ l, Rel x.1 x.2) ∧ o = Par.outcomeOf l

theorem head_reported {s : Sys σ} (hi : Par.Inv c g fuel n Ok Rel jobs coll s) {x : Nat × Outcome}
    {xs : List (Nat × Outcome)} (hx : s.channel = x :: xs) : Reported Rel jobs x.2 := by
  obtain ⟨-, L, Lc, qs, hd⟩ := hi
  have hc := hd.chan
  rw [hx] at hc
  cases Lc with
  | nil => cases hc
  | cons l Lc =>
    simp only [List.map_cons, List.cons.injEq] at hc
    refine ⟨l, ?_, hd.relc l (by simp), hc.1⟩
    have := hd.perm.length_eq
    simp only [List.flatten_cons, List.map_append, List.length_append, List.length_map] at this
    omega

theorem received_spec (hrel : Reliable process jobs Ok Rel) (hfl : Flattens g fuel Rel)
    (hcs : c.minus + c.plus ≤ usizeMax) (hm : 1 ≤ c.minus) : ∀ (es : List Event) (s s' : Sys σ) (os : List Outcome),
    Par.Inv c g fuel n Ok Rel jobs coll s → run process c g fuel s es = some s' →
    masterStats s = Par.stats os →
    masterStats s' = Par.stats ((received process c g fuel s es).reverse ++ os) ∧
      (∀ o ∈ received process c g fuel s es, Reported Rel jobs o) ∧
      (received process c g fuel s es).length ≤ es.length
  | [], s, s', os, hi, hs, hst => by
    simp only [run, Option.some.injEq] at hs
    subst hs
    simpa [received] using hst
  | e :: es, s, s', os, hi, hs, hst => by
    rw [run] at hs
    obtain ⟨s1, h1, h2⟩ := Option.bind_eq_some_iff.mp hs
    have hi1 := (Par.inv_step hrel hfl hcs hm hi h1).1
    by_cases he : ∃ f k, e = .recv f k
    · obtain ⟨f, k, rfl⟩ := he
      have hp : s1.phase ≠ .panicked := by
        rcases hi1.1.phase with h | ⟨i, h, -⟩ | ⟨h, -, -⟩ <;> rw [h] <;> simp
      obtain ⟨x, xs, hx, hx2⟩ := recv_stats h1 hp
      have hst1 : masterStats s1 = Par.stats (x.2 :: os) := by
        rw [hx2, Par.stats, ← hst]
        rfl
      obtain ⟨a1, a2, a3⟩ := received_spec hrel hfl hcs hm es s1 s' (x.2 :: os) hi1 h2 hst1
      have hrec : received process c g fuel s (.recv f k :: es) = x.2 :: received process c g fuel s1 es := by
        simp [received, h1, hx]
      rw [hrec]
      refine ⟨by simpa using a1, ?_, by simpa using a3⟩
      intro o ho
      rcases List.mem_cons.mp ho with rfl | ho
      · exact head_reported hi hx
      · exact a2 o ho
    · have hm1 := other_stats (fun f k h => he ⟨f, k, h⟩) h1
      have hst1 : masterStats s1 = Par.stats os := by rw [← hst]; simp only [masterStats, hm1]
      obtain ⟨a1, a2, a3⟩ := received_spec hrel hfl hcs hm es s1 s' os hi1 h2 hst1
      have hrec : received process c g fuel s (e :: es) = received process c g fuel s1 es := by
        cases e <;> simp [received, h1] at he ⊢
      rw [hrec]
      exact ⟨a1, a2, by simp only [List.length_cons]; omega⟩

theorem found_length (hone : ∀ j r, Rel j r → r.found.length = 1) {l : List (Job × Result)}
    (hl : ∀ x ∈ l, Rel x.1 x.2) : (Par.allFound l).length = l.length := by
  induction l with
  | nil => rfl
  | cons x l ih =>
    have h1 := hone _ _ (hl x (by simp))
    have h2 := ih (fun y hy => hl y (by simp [hy]))
    simp only [Par.allFound, List.flatMap_cons, List.length_append, List.length_cons] at h2 ⊢
    omega

/-- In a run of the balancer, whatever the threads do when, the statistics of the received outcomes, calculated with
rounding in the order in which they have been received, are near the exact ones of the results of all route-pairs.
Here, `t` bounds the number of outcomes. -/
theorem C117_system {s₀ : σ} {B t : Nat}
    (hrel : Reliable process jobs Ok Rel) (hfl : Flattens g fuel Rel)
    (hcs : c.minus + c.plus ≤ usizeMax) (hm : 1 ≤ c.minus) (hok : Ok s₀) (hn : 1 ≤ n)
    (hone : ∀ j r, Rel j r → r.found.length = 1) (hB1 : 1 ≤ B) (hB : ∀ j r, Rel j r → ∀ x ∈ r.found, x ≤ B)
    (hJB : jobs.length * B ≤ 2 ^ 53) (htn : 2 * jobs.length + 3 * n + 1 ≤ t)
    (ht : t * (t + jobs.length + 1) ≤ 2 ^ 46) {es : List Event} {s : Sys σ}
    (hr : run process c g fuel (start c g s₀ n jobs coll) es = some s) (hph : s.phase = .returned) :
    ∃ rs m v, List.Forall₂ Rel jobs rs ∧
      stats (received process c g fuel (start c g s₀ n jobs coll) es).reverse = .ok ((m, v), jobs.length) ∧
      |m - mean ((rs.flatMap Result.found).map fun (x : Nat) => (x : ℚ))| ≤ t * B / 2 ^ 48 ∧
      |v - variance ((rs.flatMap Result.found).map fun (x : Nat) => (x : ℚ))| ≤
        t * (t + jobs.length + 1) * B ^ 2 / 2 ^ 46 := by
  have hi0 : Par.Inv c g fuel n Ok Rel jobs coll (start c g s₀ n jobs coll) := Par.inv_start hcs hok
  obtain ⟨hi, hlen⟩ := Par.inv_run hrel hfl hcs hm es _ s hi0 hr
  rw [Par.rank_start] at hlen
  obtain ⟨-, -, -, -, -, -, -, -, hprog, -⟩ := Par.returned_spec hn hi hph
  obtain ⟨rs, hrs, havg, hvar⟩ := Par.C39_system hrel hfl hcs hm hok hn hone hr hph
  obtain ⟨a1, a2, a3⟩ := received_spec hrel hfl hcs hm es _ s [] hi0 hr rfl
  rw [List.append_nil] at a1
  set os := (received process c g fuel (start c g s₀ n jobs coll) es).reverse with hosdef
  have hrep : ∀ o ∈ os, Reported Rel jobs o := fun o ho => a2 o (List.mem_reverse.mp ho)
  have hosl : os.length ≤ t := by
    rw [hosdef, List.length_reverse]
    omega
  have hos : ∀ o ∈ os, o.found.length = o.pairs := by
    intro o ho
    obtain ⟨l, -, hl, rfl⟩ := hrep o ho
    exact found_length hone hl
  have hK : ∀ o ∈ os, o.found.length ≤ jobs.length := by
    intro o ho
    rw [hos o ho]
    obtain ⟨l, hll, -, rfl⟩ := hrep o ho
    exact hll
  have hBo : ∀ o ∈ os, ∀ x ∈ o.found, x ≤ B := by
    intro o ho x hx
    obtain ⟨l, -, hl, rfl⟩ := hrep o ho
    obtain ⟨y, hy, hxy⟩ := List.mem_flatMap.mp hx
    exact hB _ _ (hl y hy) x hxy
  have hsum : (os.map Outcome.pairs).sum = jobs.length := by
    rw [← Par.stats_pairs, ← a1, ← hprog]
    rfl
  have hJ : jobs.length ≤ 2 ^ 53 := le_trans (Nat.le_mul_of_pos_right _ hB1) hJB
  have hto : os.length * (os.length + jobs.length + 1) ≤ t * (t + jobs.length + 1) :=
    Nat.mul_le_mul hosl (by omega)
  obtain ⟨m, v, b1, b2, b3⟩ := C117_near hB1 hJB hos hK hBo (by rw [hsum]; exact hJ) (le_trans hto ht)
  have hinc := Par.C39_incremental_partial hos
  rw [← a1] at hinc
  have e1 := congrArg Prod.fst hinc
  have e2 := congrArg Prod.snd hinc
  simp only [masterStats] at e1 e2
  rw [← e1, havg] at b2
  rw [← e2, hvar] at b3
  rw [hsum] at b1
  have hq1 : (os.length : ℚ) ≤ t := by exact_mod_cast hosl
  refine ⟨rs, m, v, hrs, b1, le_trans b2 ?_, le_trans b3 ?_⟩
  · gcongr
  · gcongr

/-- In a run of the balancer where `x` paths are found for every route-pair (with Dijkstra's algorithm and routes for all
pairs, `x` is 1), whatever the threads do when, the statistics at the end are exactly `x` and 0. -/
theorem C117_system_constant {s₀ : σ} {x : Nat}
    (hrel : Reliable process jobs Ok Rel) (hfl : Flattens g fuel Rel)
    (hcs : c.minus + c.plus ≤ usizeMax) (hm : 1 ≤ c.minus) (hok : Ok s₀) (hn : 1 ≤ n)
    (hx : ∀ j r, Rel j r → r.found = [x]) (hne : jobs ≠ []) (hJ : jobs.length ≤ 2 ^ 53)
    (hJx : jobs.length * x ≤ 2 ^ 53) {es : List Event} {s : Sys σ}
    (hr : run process c g fuel (start c g s₀ n jobs coll) es = some s) (hph : s.phase = .returned) :
    stats (received process c g fuel (start c g s₀ n jobs coll) es).reverse = .ok (((x : ℚ), 0), jobs.length) := by
  have hi0 : Par.Inv c g fuel n Ok Rel jobs coll (start c g s₀ n jobs coll) := Par.inv_start hcs hok
  have hi := (Par.inv_run hrel hfl hcs hm es _ s hi0 hr).1
  obtain ⟨-, -, -, -, -, -, -, -, hprog, -⟩ := Par.returned_spec hn hi hph
  obtain ⟨a1, a2, a3⟩ := received_spec hrel hfl hcs hm es _ s [] hi0 hr rfl
  rw [List.append_nil] at a1
  set os := (received process c g fuel (start c g s₀ n jobs coll) es).reverse with hosdef
  have hrep : ∀ o ∈ os, Reported Rel jobs o := fun o ho => a2 o (List.mem_reverse.mp ho)
  have hos : ∀ o ∈ os, o.found.length = o.pairs := by
    intro o ho
    obtain ⟨l, -, hl, rfl⟩ := hrep o ho
    exact found_length (fun j r h => by rw [hx j r h]; rfl) hl
  have hsum : (os.map Outcome.pairs).sum = jobs.length := by
    rw [← Par.stats_pairs, ← a1, ← hprog]
    rfl
  have hsome : ∃ o ∈ os, o.found ≠ [] := by
    by_contra hno
    push Not at hno
    have h0 : (os.map Outcome.pairs).sum = 0 := by
      rw [List.sum_eq_zero_iff]
      intro k hk
      obtain ⟨o, ho, rfl⟩ := List.mem_map.mp hk
      rw [← hos o ho, hno o ho]
      rfl
    rw [hsum] at h0
    exact hne (List.length_eq_zero_iff.mp h0)
  have := C117_constant (x := x) hos (by
      intro o ho y hy
      obtain ⟨l, -, hl, rfl⟩ := hrep o ho
      obtain ⟨z, hz, hyz⟩ := List.mem_flatMap.mp hy
      rw [hx _ _ (hl z hz)] at hyz
      exact List.mem_singleton.mp hyz) (by
      intro o ho
      rw [hos o ho]
      obtain ⟨l, hll, -, rfl⟩ := hrep o ho
      exact le_trans (Nat.mul_le_mul_right _ hll) hJx) (by rw [hsum]; exact hJ)
  rw [this, if_pos hsome, hsum]

/-- With Dijkstra's algorithm on a graph without shortcuts, in which every route-pair has a route, the statistics of every
run are exactly 1 and 0. (`C15_false_uncovered` and `C15_false_two_nodes` are why `hcov` and `h2` are needed.) -/
theorem C117_dijkstra {h : Dij.Heap ℚ} {alphas : List ℚ} (hwf : g.WellFormed) (hm : Dij.NonnegMetrics g)
    (hal : ∀ a ∈ alphas, 0 ≤ a) (hcov : Dij.AllCovered g) (h2 : g.nodeCount ≠ 2)
    (hplain : ∀ e, e < g.edgeCount → g.scEdgesOf e = .ok none)
    (hjobs : ∀ j ∈ jobs, j.src ∈ g.nodeIds ∧ j.dst ∈ g.nodeIds ∧ 1 ≤ j.count)
    (hroute : ∀ j ∈ jobs, ∀ src dst : Nat, g.nodeIds[src]? = some j.src → g.nodeIds[dst]? = some j.dst →
      ∃ l, g.IsRoute src l dst) (hne : jobs ≠ []) (hJ : jobs.length ≤ 2 ^ 53) :
    ∃ N, ∀ fuel n coll es s, N ≤ fuel → 1 ≤ n →
      run (Par.dijkstraWork h g .dijkstra alphas fuel) Par.sizeDefaults g fuel
        (start Par.sizeDefaults g Dij.St.new n jobs coll) es = some s → s.phase = .returned →
      stats (received (Par.dijkstraWork h g .dijkstra alphas fuel) Par.sizeDefaults g fuel
        (start Par.sizeDefaults g Dij.St.new n jobs coll) es).reverse = .ok ((1, 0), jobs.length) := by
  have hw := Dij.weights_nonneg hal hm
  obtain ⟨N₁, hN₁⟩ := Par.enough_fuel (h := h) (algo := .dijkstra) hwf hw (by decide) hcov h2 jobs
  obtain ⟨N₂, hN₂⟩ := Par.enough_flat (h := h) (algo := .dijkstra) (alphas := alphas) (jobs := jobs) hwf
    (fun _ _ src dst p hs hd ha => by
      obtain ⟨q, hq, -⟩ := Par.C37_flattens_plain hwf hw hplain (Par.lt_of_getElem? hs) (Par.lt_of_getElem? hd) ha
      exact ⟨q, hq⟩)
  refine ⟨max N₁ N₂, fun fuel n coll es s hf hn hrun hph => ?_⟩
  have hrel := Par.dijkstra_reliable hwf h2 (hN₁ fuel (by omega)) hjobs
  have hrel' : Reliable (Par.dijkstraWork h g .dijkstra alphas fuel) jobs (Dij.Used h dot g.nodeCount)
      (fun j r => j ∈ jobs ∧ Par.DijRel h g .dijkstra alphas j r) := by
    constructor
    intro st w hst hsub
    obtain ⟨s', o, l, a1, a2, a3, a4, a5⟩ := hrel.answers st w hst hsub
    refine ⟨s', o, l, a1, a2, a3, fun x hx => ⟨hsub _ ?_, a4 x hx⟩, a5⟩
    rw [← a3]
    exact List.mem_map_of_mem hx
  have hfl : Flattens g fuel (fun j r => j ∈ jobs ∧ Par.DijRel h g .dijkstra alphas j r) := by
    rintro j r ⟨hj, src, dst, ans, hs, hd, ha, rfl⟩ p hp
    cases ans with
    | none => simp [Par.resultOf] at hp
    | some p' =>
      simp only [Par.resultOf] at hp
      have := List.eq_of_mem_replicate hp
      subst this
      obtain ⟨q, hq⟩ := hN₂ fuel (by omega) j hj src dst p hs hd ha
      exact ⟨q, hq, Par.flattened_lt hwf hq⟩
  have := C117_system_constant (x := 1) hrel' hfl (by decide) (by decide) .new hn (by
      rintro j r ⟨hj, src, dst, ans, hs, hd, ⟨f, s', ha⟩, rfl⟩
      cases ans with
      | some p => rfl
      | none =>
        exact absurd (hroute j hj src dst hs hd) ((Dij.C15_none_iff (q := Par.jobQuery g .dijkstra alphas src dst) hwf
          Search.addOk_rat hw hal rfl (Par.lt_of_getElem? hs) (Par.lt_of_getElem? hd) (.new (n := 0)) ha).mp rfl))
    hne hJ (by simpa using hJ) hrun hph
  simpa using this

/-- A worker that finds as many paths for a route-pair as its count says. -/
def countWork (_ : Unit) (w : Work) : Option (R (Unit × Outcome)) :=
  some (.ok ((), { chosen := [], found := w.jobs.map Job.count, pairs := w.jobs.length }))

theorem countWork_reliable {jobs : List Job} : Reliable countWork jobs (fun _ => True)
    (fun j r => j ∈ jobs ∧ r = { chosen := [], found := [j.count] }) where
  answers s w _ hw := by
    refine ⟨(), _, w.jobs.map fun j => (j, { chosen := [], found := [j.count] }), rfl, trivial, ?_, ?_, ?_⟩
    · simp [Function.comp_def]
    · intro x hx
      obtain ⟨j, hj, rfl⟩ := List.mem_map.mp hx
      exact ⟨hw j hj, rfl⟩
    · have h1 : ∀ js : List Job, Par.allChosen (js.map fun j => (j, ({ chosen := [], found := [j.count] } : Result))) = [] := by
        intro js
        simp [Par.allChosen, List.flatMap_map]
      have h2 : ∀ js : List Job, Par.allFound (js.map fun j => (j, ({ chosen := [], found := [j.count] } : Result)))
          = js.map Job.count := by
        intro js
        induction js with
        | nil => rfl
        | cons j js ih => simpa [Par.allFound] using ih
      rw [h1, h2, List.length_map]

def runJobs : List Job := [⟨0, 1, 1⟩, ⟨1, 2, 2⟩, ⟨2, 0, 2⟩]

def runSizes : SizeCfg := { init := 1, plus := 1, minus := 1 }

def runEvents : List Event := [.recv false 0, .work 0, .recv false 0, .work 0, .recv false 0, .work 0, .recv false 0,
  .exit 0, .joined, .disconnected]

/-- A run of one worker which gets the route-pairs one after the other. -/
example : ((run countWork runSizes Dij.sqGraph 5 (start runSizes Dij.sqGraph () 1 runJobs false) runEvents).map
    fun s => s.phase) = some .returned := by decide +kernel

/-- So the theorem applies to it. -/
example {es : List Event} {s : Sys Unit}
    (hr : run countWork runSizes Dij.sqGraph 5 (start runSizes Dij.sqGraph () 1 runJobs false) es = some s)
    (hph : s.phase = .returned) :
    ∃ rs m v, List.Forall₂ (fun j r => j ∈ runJobs ∧ r = { chosen := [], found := [j.count] }) runJobs rs ∧
      stats (received countWork runSizes Dij.sqGraph 5 (start runSizes Dij.sqGraph () 1 runJobs false) es).reverse =
        .ok ((m, v), 3) ∧
      |m - mean ((rs.flatMap Result.found).map fun (x : Nat) => (x : ℚ))| ≤ (10 : Nat) * (2 : Nat) / 2 ^ 48 ∧
      |v - variance ((rs.flatMap Result.found).map fun (x : Nat) => (x : ℚ))| ≤
        (10 : Nat) * ((10 : Nat) + (3 : Nat) + 1) * (2 : Nat) ^ 2 / 2 ^ 46 :=
  C117_system (t := 10) (B := 2) countWork_reliable (fun j r h p hp => by rw [h.2] at hp; cases hp) (by decide)
    (by decide) trivial (by decide) (fun j r h => by rw [h.2]; rfl) (by decide)
    (fun j r h x hx => by
      have hj : ∀ j ∈ runJobs, j.count ≤ 2 := by decide
      rw [h.2] at hx
      rw [List.mem_singleton.mp hx]
      exact hj j h.1)
    (by decide) (by decide) (by decide) hr hph

/-- The outcomes of the run above. -/
example : (received countWork runSizes Dij.sqGraph 5 (start runSizes Dij.sqGraph () 1 runJobs false) runEvents).map
    (fun o => o.found) = [[], [1], [2], [2]] := by decide +kernel

def sameJobs : List Job := [⟨0, 1, 2⟩, ⟨1, 2, 2⟩]

/-- If the counts are equal, the statistics are exact. -/
example {es : List Event} {s : Sys Unit}
    (hr : run countWork runSizes Dij.sqGraph 5 (start runSizes Dij.sqGraph () 1 sameJobs false) es = some s)
    (hph : s.phase = .returned) :
    stats (received countWork runSizes Dij.sqGraph 5 (start runSizes Dij.sqGraph () 1 sameJobs false) es).reverse =
      .ok (((2 : Nat), 0), 2) :=
  C117_system_constant countWork_reliable (fun j r h p hp => by rw [h.2] at hp; cases hp) (by decide)
    (by decide) trivial (by decide)
    (fun j r h => by
      have hj : ∀ j ∈ sameJobs, j.count = 2 := by decide
      rw [h.2, hj j h.1])
    (by decide) (by decide) (by decide) hr hph

/-- Dijkstra's algorithm on a sample. -/
example : ∃ N, ∀ fuel n coll es s, N ≤ fuel → 1 ≤ n →
    run (Par.dijkstraWork Dij.codeHeap Dij.sqGraph .dijkstra [1] fuel) Par.sizeDefaults Dij.sqGraph fuel
      (start Par.sizeDefaults Dij.sqGraph Dij.St.new n Par.sqJobs coll) es = some s → s.phase = .returned →
    stats (received (Par.dijkstraWork Dij.codeHeap Dij.sqGraph .dijkstra [1] fuel) Par.sizeDefaults Dij.sqGraph fuel
      (start Par.sizeDefaults Dij.sqGraph Dij.St.new n Par.sqJobs coll) es).reverse = .ok ((1, 0), 3) := by
  have ids : ∀ i : Nat, ∀ k ∈ ([0, 1, 2, 3] : List Nat), Dij.sqGraph.nodeIds[i]? = some (k : Int) → i = k := by
    intro i k hk h
    have hi : i < 4 := by
      have := Par.lt_of_getElem? h
      simpa [show Dij.sqGraph.nodeIds = [0, 1, 2, 3] by decide +kernel] using this
    revert h
    revert k
    have : ∀ i < 4, ∀ k ∈ ([0, 1, 2, 3] : List Nat), Dij.sqGraph.nodeIds[i]? = some (k : Int) → i = k := by
      decide +kernel
    exact this i hi
  have r1 : ∃ l, Dij.sqGraph.IsRoute 0 l 3 :=
    ⟨[0, 3], 2, by unfold Graph.IsEdge; decide +kernel, 3, by unfold Graph.IsEdge; decide +kernel, rfl⟩
  have r2 : ∃ l, Dij.sqGraph.IsRoute 1 l 2 :=
    ⟨[2, 4, 0], 3, by unfold Graph.IsEdge; decide +kernel, 0, by unfold Graph.IsEdge; decide +kernel, 2,
      by unfold Graph.IsEdge; decide +kernel, rfl⟩
  have r3 : ∃ l, Dij.sqGraph.IsRoute 3 l 3 := ⟨[], rfl⟩
  refine C117_dijkstra Dij.sq_wf Dij.sq_nonneg (by decide +kernel) Dij.sq_covered (by decide +kernel) (by decide +kernel)
    (by decide +kernel) ?_ (by decide) (by decide)
  intro j hj src dst hs hd
  simp only [Par.sqJobs, List.mem_cons, List.not_mem_nil, or_false] at hj
  rcases hj with rfl | rfl | rfl
  · rw [ids src 0 (by simp) hs, ids dst 3 (by simp) hd]; exact r1
  · rw [ids src 1 (by simp) hs, ids dst 2 (by simp) hd]; exact r2
  · rw [ids src 3 (by simp) hs, ids dst 3 (by simp) hd]; exact r3

end Verif.StatsF
