import Verif.ParallelLemmas

/-!
# Invariants of the parallel balancer
-/

namespace Verif.Par

section
variable {σ : Type}

/-- The route-pairs that wait in the channels of the workers. -/
def inboxJobs (ws : List (Worker σ)) : List Job := ws.flatMap fun w => w.inbox.flatMap Work.jobs

/-- The outcome for some route-pairs with their results. -/
def outcomeOf (l : List (Job × Result)) : Outcome :=
  { chosen := allChosen l, found := allFound l, pairs := l.length }

/-- Every route-pair is in exactly one place: remaining, sent to a worker, on the way back (`Lc`), or
counted (`L`). -/
structure Data (g : Graph) (fuel : Nat) (Rel : Job → Result → Prop) (jobs : List Job) (coll : Bool)
    (s : Sys σ) (L : List (Job × Result)) (Lc : List (List (Job × Result))) (qs : List Path) :
    Prop where
  rel : ∀ x ∈ L, Rel x.1 x.2
  relc : ∀ l ∈ Lc, ∀ x ∈ l, Rel x.1 x.2
  chan : s.channel.map Prod.snd = Lc.map outcomeOf
  perm : ((L ++ Lc.flatten).map Prod.fst ++ (inboxJobs s.workers ++ s.master.rev)).Perm jobs
  flat : Flat g fuel (allChosen L) qs
  len : s.master.loads.length = g.edgeCount
  loads : ∀ e < g.edgeCount, s.master.loads[e]? = some (occurrences e qs)
  paths : s.master.paths = if coll then some qs else none
  progress : s.master.progress = L.length
  stats : (∀ x ∈ L, x.2.found.length = 1) →
    s.master.avg = mean ((allFound L).map fun (x : Nat) => (x : ℚ)) ∧
    s.master.var = variance ((allFound L).map fun (x : Nat) => (x : ℚ))

/-- A worker is at work or waits for the master to receive its outcome, or it has been dropped, in which
case nothing remains to be sent. -/
structure Ctl (c : SizeCfg) (n : Nat) (Ok : σ → Prop) (s : Sys σ) : Prop where
  lenW : s.workers.length = n
  lenS : s.master.sockets.length = n
  chan : ∀ x ∈ s.channel, x.1 < n
  worker : ∀ (i : Nat) (w : Worker σ), s.workers[i]? = some w →
    (s.master.sockets[i]? = some true ∧ (∃ st, w.thread = .alive st ∧ Ok st) ∧
      (s.channel.map Prod.fst).count i + w.inbox.length = 1) ∨
    (s.master.sockets[i]? = some false ∧ s.master.rev = [] ∧ ((∃ st, w.thread = .alive st) ∨ w.thread = .ended) ∧
      (s.channel.map Prod.fst).count i + w.inbox.length = 0)
  phase : s.phase = .receiving ∨ (∃ i, s.phase = .joining i ∧ s.master.sockets[i]? = some false) ∨
    (s.phase = .returned ∧ s.channel = [] ∧ ∀ w ∈ s.workers, w.thread.isAlive = false)
  size : c.minus ≤ s.master.size ∧ s.master.size ≤ usizeMax - c.plus

/-- How far the master is from returning. -/
def phaseRank : Phase → Nat
  | .receiving => 1
  | .joining _ => 2
  | _ => 0

/-- One unit for every living thread. -/
def aliveUnits (w : Worker σ) : List Unit := if w.thread.isAlive then [()] else []

/-- One unit for every socket that is not taken. -/
def openUnits (b : Bool) : List Unit := if b then [()] else []

/-- Decreases with every step. -/
def rank (s : Sys σ) : Nat :=
  2 * s.master.rev.length + 2 * (s.workers.flatMap Worker.inbox).length + s.channel.length
    + (s.master.sockets.flatMap openUnits).length
    + (s.workers.flatMap aliveUnits).length
    + phaseRank s.phase

variable {process : σ → Work → Option (R (σ × Outcome))} {c : SizeCfg} {g : Graph} {fuel n : Nat}
  {Ok : σ → Prop} {Rel : Job → Result → Prop} {jobs : List Job} {coll : Bool} {s s' : Sys σ}

/-- All invariants. -/
def Inv (c : SizeCfg) (g : Graph) (fuel n : Nat) (Ok : σ → Prop) (Rel : Job → Result → Prop)
    (jobs : List Job) (coll : Bool) (s : Sys σ) : Prop :=
  Ctl c n Ok s ∧ ∃ L Lc qs, Data g fuel Rel jobs coll s L Lc qs

theorem flatMap_set_length {α β : Type} (f : α → List β) {l : List α} {i : Nat} {a b : α}
    (h : l[i]? = some a) :
    (f a).length + ((l.set i b).flatMap f).length = (f b).length + (l.flatMap f).length := by
  have := (flatMap_set_perm f l i a b h).length_eq
  simpa using this

theorem lt_of_getElem? {α : Type} {l : List α} {i : Nat} {a : α} (h : l[i]? = some a) :
    i < l.length := by
  by_contra hn
  rw [List.getElem?_eq_none (by omega)] at h
  cases h

theorem perm_to_channel {A B W W' R J : List Job} (hW : (B ++ W').Perm W) (h : (A ++ (W ++ R)).Perm J) :
    ((A ++ B) ++ (W' ++ R)).Perm J := by
  refine List.Perm.trans ?_ h
  rw [List.append_assoc]
  refine List.Perm.append_left _ ?_
  rw [← List.append_assoc]
  exact List.Perm.append_right _ hW

/-- A worker works off a chunk. -/
theorem inv_work (hrel : Reliable process jobs Ok Rel) (hi : Inv c g fuel n Ok Rel jobs coll s) {i : Nat}
    (hs : stepWork process i s = some s') :
    Inv c g fuel n Ok Rel jobs coll s' ∧ rank s' < rank s := by
  obtain ⟨hc, L, Lc, qs, hd⟩ := hi
  unfold stepWork at hs
  split at hs
  case h_2 => cases hs
  case h_1 w ws st hw =>
  have hw' := hc.worker i _ hw
  rcases hw' with ⟨h1, ⟨st', h2, h3⟩, h4⟩ | ⟨-, -, -, h4⟩
  swap
  · simp at h4
  simp only [Thread.alive.injEq] at h2
  subst h2
  have hws : ws = [] := by
    simp only [List.length_cons] at h4
    exact List.length_eq_zero_iff.mp (by omega)
  subst hws
  have hcnt : (s.channel.map Prod.fst).count i = 0 := by simp at h4; simpa using h4
  have hin := flatMap_set_perm (fun w : Worker σ => w.inbox.flatMap Work.jobs) s.workers i _
    { inbox := [], thread := .alive st } hw
  simp only [List.flatMap_cons, List.flatMap_nil, List.append_nil, List.nil_append] at hin
  have hsub : ∀ j ∈ w.jobs, j ∈ jobs := by
    intro j hj
    refine hd.perm.mem_iff.mp ?_
    have : j ∈ inboxJobs s.workers := hin.mem_iff.mp (by simp [hj])
    simp [this]
  obtain ⟨st', o, l, p1, p2, p3, p4, p5⟩ := hrel.answers st w h3 hsub
  rw [p1] at hs
  simp only [Option.some.injEq] at hs
  subst hs
  have hlt := lt_of_getElem? hw
  refine ⟨⟨?_, L, Lc ++ [l], qs, ?_⟩, ?_⟩
  · constructor
    · simpa using hc.lenW
    · exact hc.lenS
    · intro x hx
      rcases List.mem_append.mp hx with hx | hx
      · exact hc.chan x hx
      · rw [List.mem_singleton] at hx
        subst hx
        rw [← hc.lenW]
        exact hlt
    · intro k v hk
      by_cases hki : i = k
      · subst hki
        dsimp only at hk
        rw [List.getElem?_set_self hlt] at hk
        simp only [Option.some.injEq] at hk
        subst hk
        left
        refine ⟨h1, ⟨st', rfl, p2⟩, ?_⟩
        simp [hcnt]
      · dsimp only at hk
        rw [List.getElem?_set_ne hki] at hk
        have := hc.worker k v hk
        simpa [List.count_append, List.count_singleton, hki] using this
    · rcases hc.phase with h | h | ⟨-, -, h⟩
      · exact Or.inl h
      · exact Or.inr (Or.inl h)
      · have := h _ (List.mem_of_getElem? hw)
        simp [Thread.isAlive] at this
    · exact hc.size
  · constructor
    · exact hd.rel
    · intro l' hl'
      rcases List.mem_append.mp hl' with hl' | hl'
      · exact hd.relc l' hl'
      · rw [List.mem_singleton] at hl'
        subst hl'
        exact p4
    · simp only [List.map_append, List.map_cons, List.map_nil, hd.chan, p5, outcomeOf]
    · have hin' : (w.jobs ++ inboxJobs (s.workers.set i { inbox := [], thread := .alive st' })).Perm
          (inboxJobs s.workers) := by
        have := flatMap_set_perm (fun w : Worker σ => w.inbox.flatMap Work.jobs) s.workers i _
          { inbox := [], thread := .alive st' } hw
        simpa [inboxJobs] using this
      have := perm_to_channel hin' hd.perm
      rw [← p3] at this
      simpa [List.append_assoc] using this
    · exact hd.flat
    · exact hd.len
    · exact hd.loads
    · exact hd.paths
    · exact hd.progress
    · exact hd.stats
  · have r1 := flatMap_set_length Worker.inbox (b := { inbox := [], thread := .alive st' }) hw
    have r2 := flatMap_set_length aliveUnits
      (b := { inbox := [], thread := .alive st' }) hw
    have u : ∀ (l : List Work) (st : σ), (aliveUnits { inbox := l, thread := .alive st }).length = 1 :=
      fun _ _ => rfl
    simp only [List.length_cons, List.length_nil, u] at r1 r2
    simp only [rank, List.length_append, List.length_cons, List.length_nil]
    omega

/-- A worker ends. -/
theorem inv_exit (hi : Inv c g fuel n Ok Rel jobs coll s) {i : Nat} (hs : stepExit i s = some s') :
    Inv c g fuel n Ok Rel jobs coll s' ∧ rank s' < rank s := by
  obtain ⟨hc, L, Lc, qs, hd⟩ := hi
  unfold stepExit at hs
  split at hs
  case h_2 => cases hs
  case h_1 st hw hsock =>
  simp only [Option.some.injEq] at hs
  subst hs
  have hlt := lt_of_getElem? hw
  have hin := flatMap_set_perm (fun w : Worker σ => w.inbox.flatMap Work.jobs) s.workers i _
    { inbox := [], thread := .ended } hw
  simp only [List.flatMap_nil, List.nil_append] at hin
  refine ⟨⟨?_, L, Lc, qs, ?_⟩, ?_⟩
  · constructor
    · simpa using hc.lenW
    · exact hc.lenS
    · exact hc.chan
    · intro k v hk
      by_cases hki : i = k
      · subst hki
        dsimp only at hk
        rw [List.getElem?_set_self hlt] at hk
        simp only [Option.some.injEq] at hk
        subst hk
        rcases hc.worker i _ hw with ⟨h1, -, -⟩ | ⟨h1, h2, -, h4⟩
        · rw [hsock] at h1; simp at h1
        · right
          exact ⟨h1, h2, Or.inr rfl, h4⟩
      · dsimp only at hk
        rw [List.getElem?_set_ne hki] at hk
        exact hc.worker k v hk
    · rcases hc.phase with h | h | ⟨-, -, h⟩
      · exact Or.inl h
      · exact Or.inr (Or.inl h)
      · have := h _ (List.mem_of_getElem? hw)
        simp [Thread.isAlive] at this
    · exact hc.size
  · exact ⟨hd.rel, hd.relc, hd.chan,
      (List.Perm.append_left _ (List.Perm.append_right _ hin)).trans hd.perm, hd.flat, hd.len, hd.loads,
      hd.paths, hd.progress, hd.stats⟩
  · have r1 := flatMap_set_length Worker.inbox (b := ({ inbox := [], thread := .ended } : Worker σ)) hw
    have r2 := flatMap_set_length aliveUnits
      (b := { inbox := [], thread := .ended }) hw
    have u1 : (aliveUnits ({ inbox := [], thread := .alive st } : Worker σ)).length = 1 := rfl
    have u2 : (aliveUnits ({ inbox := [], thread := .ended } : Worker σ)).length = 0 := rfl
    simp only [List.length_nil, u1, u2] at r1 r2
    simp only [rank]
    omega

theorem allFound_length {L : List (Job × Result)} (h : ∀ x ∈ L, x.2.found.length = 1) :
    (allFound L).length = L.length := by
  induction L with
  | nil => rfl
  | cons x L ih =>
    have := ih (fun x hx => h x (by simp [hx]))
    simp only [allFound, List.flatMap_cons, List.length_append, List.length_cons] at this ⊢
    rw [this, h x (by simp)]
    omega

theorem allFound_append (A B : List (Job × Result)) : allFound (A ++ B) = allFound A ++ allFound B := by
  simp [allFound]

theorem allChosen_append (A B : List (Job × Result)) :
    allChosen (A ++ B) = allChosen A ++ allChosen B := by
  simp [allChosen]

/-- What the master does with an outcome before it sends or joins. -/
theorem handle_spec (hfl : Flattens g fuel Rel) (hcs : c.minus + c.plus ≤ usizeMax) {m : Master}
    {L l : List (Job × Result)} {qs : List Path} {i : Nat} {fast : Bool} {seed : Nat}
    (hrel : ∀ x ∈ l, Rel x.1 x.2) (hsock : m.sockets[i]? = some true)
    (hsize : c.minus ≤ m.size ∧ m.size ≤ usizeMax - c.plus)
    (hflat : Flat g fuel (allChosen L) qs) (hlen : m.loads.length = g.edgeCount)
    (hloads : ∀ e < g.edgeCount, m.loads[e]? = some (occurrences e qs))
    (hpaths : m.paths = if coll then some qs else none) (hprog : m.progress = L.length)
    (hstats : (∀ x ∈ L, x.2.found.length = 1) →
      m.avg = mean ((allFound L).map fun (x : Nat) => (x : ℚ)) ∧
      m.var = variance ((allFound L).map fun (x : Nat) => (x : ℚ))) :
    ∃ m' qs', handle c g fuel fast seed i (outcomeOf l) m = some (.ok (nextAction i seed m')) ∧
      m'.sockets = m.sockets ∧ m'.rev = m.rev ∧ (c.minus ≤ m'.size ∧ m'.size ≤ usizeMax - c.plus) ∧
      Flat g fuel (allChosen (L ++ l)) qs' ∧ m'.loads.length = g.edgeCount ∧
      (∀ e < g.edgeCount, m'.loads[e]? = some (occurrences e qs')) ∧
      m'.paths = (if coll then some qs' else none) ∧ m'.progress = (L ++ l).length ∧
      ((∀ x ∈ L ++ l, x.2.found.length = 1) →
        m'.avg = mean ((allFound (L ++ l)).map fun (x : Nat) => (x : ℚ)) ∧
        m'.var = variance ((allFound (L ++ l)).map fun (x : Nat) => (x : ℚ))) := by
  obtain ⟨size', e1, e2, e3⟩ := adjustSize_ok hcs (fast := fast) (i := i) hsize.1 hsize.2
  have hfl' : ∀ p ∈ allChosen l, ∃ q, Path.flatten g fuel p = some (.ok q) ∧
      ∀ e ∈ q.edges, e < m.loads.length := by
    intro p hp
    obtain ⟨x, hx, hpx⟩ := List.mem_flatMap.mp hp
    rw [hlen]
    exact hfl _ _ (hrel x hx) p hpx
  obtain ⟨qs1, loads', f1, f2, f3, f4⟩ := addPaths_spec (allChosen l) m.loads m.paths hfl'
  refine ⟨{ m with
      size := size', loads := loads', paths := m.paths.map (· ++ qs1),
      avg := (updateStats (m.progress + l.length) (allFound l) (m.avg, m.var)).1,
      var := (updateStats (m.progress + l.length) (allFound l) (m.avg, m.var)).2,
      progress := m.progress + l.length }, qs ++ qs1, ?_, rfl, rfl, ⟨e2, e3⟩, ?_, ?_, ?_, ?_, ?_, ?_⟩
  · unfold handle outcomeOf
    simp only [e1, f2, hsock, if_true]
  · rw [allChosen_append]
    exact List.rel_append hflat f1
  · rw [f3, hlen]
  · intro e he
    rw [f4 e _ (hloads e he), occurrences_append]
  · dsimp only
    rw [hpaths]
    cases coll <;> simp
  · simp [hprog]
  · intro hall
    have hA : ∀ x ∈ L, x.2.found.length = 1 := fun x hx => hall x (by simp [hx])
    have hB : ∀ x ∈ l, x.2.found.length = 1 := fun x hx => hall x (by simp [hx])
    obtain ⟨s1, s2⟩ := hstats hA
    have := updateStats_spec ((allFound L).map fun (x : Nat) => (x : ℚ)) (allFound l)
    rw [List.length_map, allFound_length hA, allFound_length hB] at this
    dsimp only
    rw [hprog, s1, s2, this, allFound_append, List.map_append]
    exact ⟨rfl, rfl⟩

theorem workSize_pos {c : SizeCfg} (hm : 1 ≤ c.minus) {i size : Nat} (h : c.minus ≤ size) :
    1 ≤ workSize i size := by
  unfold workSize
  split <;> omega

/-- The master receives an outcome. -/
theorem inv_recv (hfl : Flattens g fuel Rel) (hcs : c.minus + c.plus ≤ usizeMax) (hm : 1 ≤ c.minus)
    (hi : Inv c g fuel n Ok Rel jobs coll s) {fast : Bool} {seed : Nat}
    (hs : stepRecv c g fuel fast seed s = some s') :
    Inv c g fuel n Ok Rel jobs coll s' ∧ rank s' < rank s := by
  obtain ⟨hc, L, Lc, qs, hd⟩ := hi
  unfold stepRecv at hs
  split at hs
  case h_2 => cases hs
  case h_1 i o ch hph hch =>
  have hin : i < n := hc.chan (i, o) (by rw [hch]; simp)
  obtain ⟨w, hw⟩ : ∃ w, s.workers[i]? = some w :=
    ⟨_, List.getElem?_eq_getElem (by rw [hc.lenW]; exact hin)⟩
  have hcw := hc.worker i w hw
  rw [hch] at hcw
  simp only [List.map_cons, List.count_cons_self] at hcw
  rcases hcw with ⟨h1, ⟨st, h2, h3⟩, h4⟩ | ⟨-, -, -, h4⟩
  swap
  · omega
  have hinb : w.inbox = [] := List.length_eq_zero_iff.mp (by omega)
  have hcnt : (ch.map Prod.fst).count i = 0 := by omega
  have hdc := hd.chan
  rw [hch] at hdc
  cases Lc with
  | nil => simp at hdc
  | cons l Lc =>
  simp only [List.map_cons, List.cons.injEq] at hdc
  obtain ⟨rfl, hdc⟩ := hdc
  obtain ⟨m', qs', q1, q2, q3, q4, q5, q6, q7, q8, q9, q10⟩ := handle_spec (coll := coll) hfl hcs (L := L)
    (seed := seed) (fast := fast) (hd.relc l (by simp)) h1 hc.size hd.flat hd.len hd.loads hd.paths
    hd.progress hd.stats
  rw [q1] at hs
  have hlt := lt_of_getElem? hw
  have hworkers : ∀ k, i ≠ k → ((s.channel.map Prod.fst).count k = (ch.map Prod.fst).count k) := by
    intro k hk
    rw [hch, List.map_cons, List.count_cons_of_ne hk]
  have hrelL : ∀ x ∈ L ++ l, Rel x.1 x.2 := by
    intro x hx
    rcases List.mem_append.mp hx with hx | hx
    · exact hd.rel x hx
    · exact hd.relc l (by simp) x hx
  have hrelc : ∀ l' ∈ Lc, ∀ x ∈ l', Rel x.1 x.2 := fun l' hl' => hd.relc l' (by simp [hl'])
  unfold nextAction at hs
  by_cases hr : m'.rev.length > 0
  · -- send
    rw [if_pos hr] at hs
    dsimp only at hs
    have hwe : w = { inbox := [], thread := .alive st } := by
      rw [← hinb, ← h2]
    rw [hwe] at hw
    unfold sendWork at hs
    dsimp only at hs
    rw [hw] at hs
    simp only [Option.some.injEq] at hs
    set start := m'.rev.length - min m'.rev.length (workSize i m'.size) with hstart
    have hpos := workSize_pos (i := i) hm q4.1
    have hstart' : start < m'.rev.length := by omega
    have hrevne : s.master.rev ≠ [] := by
      rw [← q3]; intro h0; rw [h0] at hr; simp at hr
    subst hs
    have hinbox : ∀ W : Work, (W.jobs ++ inboxJobs s.workers).Perm
        (inboxJobs (s.workers.set i { inbox := [] ++ [W], thread := .alive st })) := by
      intro W
      have := (flatMap_set_perm (fun w : Worker σ => w.inbox.flatMap Work.jobs) s.workers i _
        { inbox := [] ++ [W], thread := .alive st } hw).symm
      simpa [inboxJobs] using this
    refine ⟨⟨?_, L ++ l, Lc, qs', ?_⟩, ?_⟩
    · constructor
      · simpa using hc.lenW
      · show m'.sockets.length = n
        rw [q2]; exact hc.lenS
      · intro x hx
        exact hc.chan x (by rw [hch]; exact List.mem_cons_of_mem _ hx)
      · intro k v hk
        dsimp only at hk ⊢
        by_cases hki : i = k
        · subst hki
          rw [List.getElem?_set_self hlt] at hk
          simp only [Option.some.injEq] at hk
          subst hk
          left
          rw [q2]
          refine ⟨h1, ⟨st, rfl, h3⟩, ?_⟩
          simpa using hcnt
        · rw [List.getElem?_set_ne hki] at hk
          have := hc.worker k v hk
          rw [hworkers k hki] at this
          rw [q2]
          rcases this with h | ⟨-, h, -⟩
          · exact Or.inl h
          · exact absurd h hrevne
      · exact Or.inl hph
      · exact q4
    · constructor
      · exact hrelL
      · exact hrelc
      · exact hdc
      · refine List.Perm.trans ?_ hd.perm
        dsimp only
        rw [List.flatten_cons, List.append_assoc]
        refine List.Perm.append_left _ ?_
        refine (List.Perm.append_right _ (hinbox _).symm).trans ?_
        dsimp only
        rw [← q3]
        have hsplit : ((m'.rev.drop start).reverse ++ m'.rev.take start).Perm m'.rev := by
          refine (List.perm_append_comm).trans ?_
          refine (List.Perm.append_left _ (List.reverse_perm _)).trans ?_
          rw [List.take_append_drop]
        refine (List.Perm.trans ?_ (List.Perm.append_left _ hsplit))
        rw [← List.append_assoc]
        exact List.Perm.append_right _ List.perm_append_comm
      · exact q5
      · exact q6
      · exact q7
      · exact q8
      · exact q9
      · exact q10
    · have r1 := flatMap_set_length Worker.inbox
        (b := ({ inbox := [] ++ [{ jobs := (m'.rev.drop start).reverse, seed := seed }],
                 thread := .alive st } : Worker σ)) hw
      have r2 := flatMap_set_length aliveUnits
        (b := ({ inbox := [] ++ [{ jobs := (m'.rev.drop start).reverse, seed := seed }],
                 thread := .alive st } : Worker σ)) hw
      have u : ∀ (l : List Work) (st : σ), (aliveUnits { inbox := l, thread := .alive st }).length = 1 :=
        fun _ _ => rfl
      simp only [List.nil_append, List.length_cons, List.length_nil, u] at r1 r2
      have r3 : (m'.rev.take start).length = start := by rw [List.length_take]; omega
      have r4 : s.master.rev.length = m'.rev.length := by rw [q3]
      simp only [rank, hch, List.length_cons, List.nil_append, q2, r3, r4, hph]
      omega
  · -- join
    rw [if_neg hr] at hs
    simp only [Option.some.injEq] at hs
    subst hs
    have hrev : m'.rev = [] := List.length_eq_zero_iff.mp (by omega)
    have hlts : i < s.master.sockets.length := by rw [hc.lenS]; exact hin
    refine ⟨⟨?_, L ++ l, Lc, qs', ?_⟩, ?_⟩
    · constructor
      · exact hc.lenW
      · simpa [q2] using hc.lenS
      · intro x hx
        exact hc.chan x (by rw [hch]; exact List.mem_cons_of_mem _ hx)
      · intro k v hk
        dsimp only at hk ⊢
        rw [q2]
        by_cases hki : i = k
        · subst hki
          rw [hw] at hk
          simp only [Option.some.injEq] at hk
          subst hk
          right
          rw [List.getElem?_set_self hlts]
          refine ⟨rfl, hrev, Or.inl ⟨st, h2⟩, ?_⟩
          rw [hcnt, hinb]
          rfl
        · have := hc.worker k v hk
          rw [hworkers k hki] at this
          rw [List.getElem?_set_ne hki]
          rcases this with h | ⟨a1, a2, a3, a4⟩
          · exact Or.inl h
          · exact Or.inr ⟨a1, hrev, a3, a4⟩
      · refine Or.inr (Or.inl ⟨i, rfl, ?_⟩)
        dsimp only
        rw [q2, List.getElem?_set_self hlts]
      · exact q4
    · constructor
      · exact hrelL
      · exact hrelc
      · exact hdc
      · have := hd.perm
        dsimp only
        rw [q3]
        simpa [List.append_assoc] using this
      · exact q5
      · exact q6
      · exact q7
      · exact q8
      · exact q9
      · exact q10
    · have r1 := flatMap_set_length openUnits (b := false) h1
      have u1 : (openUnits true).length = 1 := rfl
      have u2 : (openUnits false).length = 0 := rfl
      rw [u1, u2] at r1
      simp only [rank, hch, List.length_cons, q2, q3, hph, phaseRank]
      omega

/-- The master has joined a thread. -/
theorem inv_joined (hi : Inv c g fuel n Ok Rel jobs coll s) (hs : stepJoined s = some s') :
    Inv c g fuel n Ok Rel jobs coll s' ∧ rank s' < rank s := by
  obtain ⟨hc, L, Lc, qs, hd⟩ := hi
  unfold stepJoined at hs
  split at hs
  case h_2 => cases hs
  case h_1 i hph =>
  split at hs
  · simp only [Option.some.injEq] at hs
    subst hs
    refine ⟨⟨⟨hc.lenW, hc.lenS, hc.chan, hc.worker, Or.inl rfl, hc.size⟩, L, Lc, qs,
      ⟨hd.rel, hd.relc, hd.chan, hd.perm, hd.flat, hd.len, hd.loads, hd.paths, hd.progress, hd.stats⟩⟩, ?_⟩
    simp only [rank, hph, phaseRank]
    omega
  · rename_i hw
    rcases hc.worker i _ hw with ⟨-, ⟨st, h2, -⟩, -⟩ | ⟨-, -, ⟨st, h2⟩ | h2, -⟩ <;> cases h2
  · cases hs

/-- The master returns. -/
theorem inv_disconnected (hi : Inv c g fuel n Ok Rel jobs coll s) (hs : stepDisconnected s = some s') :
    Inv c g fuel n Ok Rel jobs coll s' ∧ rank s' < rank s := by
  obtain ⟨hc, L, Lc, qs, hd⟩ := hi
  unfold stepDisconnected at hs
  split at hs
  case h_2 => cases hs
  case h_1 hph hch =>
  split at hs
  case isFalse => cases hs
  case isTrue hall =>
  simp only [Option.some.injEq] at hs
  subst hs
  refine ⟨⟨⟨hc.lenW, hc.lenS, hc.chan, hc.worker, Or.inr (Or.inr ⟨rfl, hch, ?_⟩), hc.size⟩, L, Lc, qs,
    ⟨hd.rel, hd.relc, hd.chan, hd.perm, hd.flat, hd.len, hd.loads, hd.paths, hd.progress, hd.stats⟩⟩, ?_⟩
  · intro w hw
    have := List.all_eq_true.mp hall w hw
    simpa using this
  · simp only [rank, hph, phaseRank]
    omega

/-- Every step keeps the invariants and decreases the rank. -/
theorem inv_step (hrel : Reliable process jobs Ok Rel) (hfl : Flattens g fuel Rel)
    (hcs : c.minus + c.plus ≤ usizeMax) (hm : 1 ≤ c.minus) (hi : Inv c g fuel n Ok Rel jobs coll s)
    {e : Event} (hs : step process c g fuel s e = some s') :
    Inv c g fuel n Ok Rel jobs coll s' ∧ rank s' < rank s := by
  cases e with
  | work i => exact inv_work hrel hi hs
  | exit i => exact inv_exit hi hs
  | recv fast seed => exact inv_recv hfl hcs hm hi hs
  | joined => exact inv_joined hi hs
  | disconnected => exact inv_disconnected hi hs

theorem inv_run (hrel : Reliable process jobs Ok Rel) (hfl : Flattens g fuel Rel)
    (hcs : c.minus + c.plus ≤ usizeMax) (hm : 1 ≤ c.minus) : ∀ (es : List Event) (s s' : Sys σ),
    Inv c g fuel n Ok Rel jobs coll s → run process c g fuel s es = some s' →
    Inv c g fuel n Ok Rel jobs coll s' ∧ es.length + rank s' ≤ rank s
  | [], s, s', hi, hs => by
    simp only [run, Option.some.injEq] at hs
    subst hs
    exact ⟨hi, by simp⟩
  | e :: es, s, s', hi, hs => by
    rw [run] at hs
    obtain ⟨s1, h1, h2⟩ := Option.bind_eq_some_iff.mp hs
    obtain ⟨hi1, hr1⟩ := inv_step hrel hfl hcs hm hi h1
    obtain ⟨hi2, hr2⟩ := inv_run hrel hfl hcs hm es s1 s' hi1 h2
    exact ⟨hi2, by rw [List.length_cons]; omega⟩

/-- The invariants hold at the beginning. -/
theorem inv_start (hcs : c.minus + c.plus ≤ usizeMax) {s₀ : σ} (hok : Ok s₀) :
    Inv c g fuel n Ok Rel jobs coll (start c g s₀ n jobs coll) := by
  refine ⟨⟨by simp [start], by simp [start], by simp [start], ?_, Or.inl rfl, initSize_ok hcs⟩, [],
    List.replicate n [], [], ?_⟩
  · intro i w hw
    have hi : i < n := by
      have := lt_of_getElem? hw
      simpa [start] using this
    simp only [start] at hw ⊢
    rw [List.getElem?_replicate, if_pos hi] at hw
    simp only [Option.some.injEq] at hw
    subst hw
    left
    refine ⟨by rw [List.getElem?_replicate, if_pos hi], ⟨s₀, rfl, hok⟩, ?_⟩
    rw [List.map_map]
    simp only [Function.comp_def, List.map_id', List.length_nil, Nat.add_zero]
    exact List.count_eq_one_of_mem List.nodup_range (List.mem_range.mpr hi)
  · constructor
    · simp
    · intro l hl
      rw [List.eq_of_mem_replicate hl]
      simp
    · simp only [start, List.map_map, Function.comp_def, List.map_replicate]
      rw [List.map_const']
      simp [outcomeOf, allChosen, allFound]
    · have h1 : inboxJobs (List.replicate n ({ inbox := [], thread := .alive s₀ } : Worker σ)) = [] := by
        simp [inboxJobs]
      have h2 : (List.replicate n ([] : List (Job × Result))).flatten = [] := by simp
      simp only [start, h1, h2, List.nil_append, List.map_nil]
      exact List.reverse_perm _
    · exact .nil
    · simp [start]
    · intro e he
      simp [start, occurrences, he]
    · cases coll <;> rfl
    · rfl
    · intro _
      exact ⟨by simp [start, mean, allFound], by simp [start, variance, mean, allFound]⟩

theorem rank_start {s₀ : σ} : rank (start c g s₀ n jobs coll) = 2 * jobs.length + 3 * n + 1 := by
  have h1 : (List.replicate n ({ inbox := [], thread := .alive s₀ } : Worker σ)).flatMap Worker.inbox = [] := by
    simp
  have h2 : ((List.replicate n true).flatMap openUnits).length = n := by
    induction n with
    | zero => rfl
    | succ n ih => rw [List.replicate_succ, List.flatMap_cons, List.length_append, ih (by simp)]
                   simp [openUnits]; omega
  have h3 : ((List.replicate n ({ inbox := [], thread := .alive s₀ } : Worker σ)).flatMap
      aliveUnits).length = n := by
    clear h1 h2
    induction n with
    | zero => rfl
    | succ n ih =>
      rw [List.replicate_succ, List.flatMap_cons, List.length_append, ih]
      simp [aliveUnits, Thread.isAlive]; omega
  simp only [rank, start, h1, h2, h3, phaseRank]
  simp
  omega

/-- Unless the master has returned, some thread can do a step. -/
theorem can_step (hrel : Reliable process jobs Ok Rel) (hfl : Flattens g fuel Rel)
    (hcs : c.minus + c.plus ≤ usizeMax)
    (hi : Inv c g fuel n Ok Rel jobs coll s) (hne : s.phase ≠ .returned) :
    ∃ e, step process c g fuel s e ≠ none := by
  obtain ⟨hc, L, Lc, qs, hd⟩ := hi
  rcases hc.phase with hph | ⟨i, hph, hsock⟩ | ⟨hph, -⟩
  · cases hch : s.channel with
    | cons x ch =>
      obtain ⟨i, o⟩ := x
      refine ⟨.recv true 0, ?_⟩
      have hin : i < n := hc.chan (i, o) (by rw [hch]; simp)
      obtain ⟨w, hw⟩ : ∃ w, s.workers[i]? = some w :=
        ⟨_, List.getElem?_eq_getElem (by rw [hc.lenW]; exact hin)⟩
      have hcw := hc.worker i w hw
      rw [hch] at hcw
      simp only [List.map_cons, List.count_cons_self] at hcw
      rcases hcw with ⟨h1, -, -⟩ | ⟨-, -, -, h4⟩
      swap
      · omega
      have hdc := hd.chan
      rw [hch] at hdc
      cases Lc with
      | nil => simp at hdc
      | cons l Lc =>
      simp only [List.map_cons, List.cons.injEq] at hdc
      obtain ⟨rfl, hdc⟩ := hdc
      obtain ⟨m', qs', q1, -⟩ := handle_spec (coll := coll) hfl hcs (L := L)
        (seed := 0) (fast := true) (hd.relc l (by simp)) h1 hc.size hd.flat hd.len hd.loads hd.paths
        hd.progress hd.stats
      simp only [step, stepRecv, hph, hch, q1]
      cases nextAction i 0 m' with
      | mk m a => cases a <;> simp
    | nil =>
      by_cases hal : s.workers.all (fun w => !w.thread.isAlive) = true
      · exact ⟨.disconnected, by simp [step, stepDisconnected, hph, hch, hal]⟩
      · rw [Bool.not_eq_true, List.all_eq_false] at hal
        obtain ⟨w, hw, halive⟩ := hal
        obtain ⟨i, hlt, rfl⟩ := List.mem_iff_getElem.mp hw
        have hgi := List.getElem?_eq_getElem hlt
        have hcw := hc.worker i _ hgi
        rw [hch] at hcw
        simp only [List.map_nil, List.count_nil, Nat.zero_add] at hcw
        generalize s.workers[i] = w at *
        obtain ⟨inbox, thread⟩ := w
        cases thread with
        | ended => simp [Thread.isAlive] at halive
        | panicked => simp [Thread.isAlive] at halive
        | alive st =>
          rcases hcw with ⟨h1, ⟨st', h2, h3⟩, h4⟩ | ⟨h1, -, -, h4⟩
          · simp only [Thread.alive.injEq] at h2
            subst h2
            cases inbox with
            | nil => simp at h4
            | cons W inbox =>
              refine ⟨.work i, ?_⟩
              have hsub : ∀ j ∈ W.jobs, j ∈ jobs := by
                intro j hj
                refine hd.perm.mem_iff.mp ?_
                have : j ∈ inboxJobs s.workers :=
                  List.mem_flatMap.mpr ⟨_, hw, by simp [hj]⟩
                simp [this]
              obtain ⟨st', o, l, p1, -⟩ := hrel.answers st W h3 hsub
              simp [step, stepWork, hgi, p1]
          · have : inbox = [] := List.length_eq_zero_iff.mp (by simpa using h4)
            subst this
            exact ⟨.exit i, by simp [step, stepExit, hgi, h1]⟩
  · have hlt : i < n := by
      rw [← hc.lenS]
      exact lt_of_getElem? hsock
    obtain ⟨w, hgi⟩ : ∃ w, s.workers[i]? = some w :=
      ⟨_, List.getElem?_eq_getElem (by rw [hc.lenW]; exact hlt)⟩
    have hcw := hc.worker i _ hgi
    obtain ⟨inbox, thread⟩ := w
    rcases hcw with ⟨h1, -⟩ | ⟨-, -, h3, h4⟩
    · rw [hsock] at h1; simp at h1
    · have : inbox = [] := List.length_eq_zero_iff.mp (by dsimp only at h4; omega)
      subst this
      rcases h3 with ⟨st, h3⟩ | h3
      · dsimp only at h3
        subst h3
        exact ⟨.exit i, by simp [step, stepExit, hgi, hsock]⟩
      · dsimp only at h3
        subst h3
        exact ⟨.joined, by simp [step, stepJoined, hph, hgi]⟩
  · exact absurd hph hne

/-- When the master has returned, everything has been counted. -/
theorem returned_spec (hn : 0 < n) (hi : Inv c g fuel n Ok Rel jobs coll s) (hph : s.phase = .returned) :
    ∃ L qs, L.map Prod.fst = jobs ∧ (∀ x ∈ L, Rel x.1 x.2) ∧
      (∃ ps, ps.Perm (allChosen L) ∧ Flat g fuel ps qs) ∧
      s.master.loads.length = g.edgeCount ∧
      (∀ e < g.edgeCount, s.master.loads[e]? = some (occurrences e qs)) ∧
      s.master.paths = (if coll then some qs else none) ∧ s.master.progress = jobs.length ∧
      ((∀ x ∈ L, x.2.found.length = 1) → ∃ fs : List Nat, fs.Perm (allFound L) ∧
        s.master.avg = mean (fs.map fun (x : Nat) => (x : ℚ)) ∧
        s.master.var = variance (fs.map fun (x : Nat) => (x : ℚ))) := by
  obtain ⟨hc, L, Lc, qs, hd⟩ := hi
  obtain ⟨hch, hal⟩ : s.channel = [] ∧ ∀ w ∈ s.workers, w.thread.isAlive = false := by
    rcases hc.phase with h | ⟨i, h, -⟩ | ⟨-, h1, h2⟩
    · rw [hph] at h; cases h
    · rw [hph] at h; cases h
    · exact ⟨h1, h2⟩
  have hLc : Lc = [] := by
    have := hd.chan
    rw [hch] at this
    simpa using this.symm
  subst hLc
  have hclosed : ∀ (i : Nat) (w : Worker σ), s.workers[i]? = some w → s.master.rev = [] ∧ w.inbox = [] := by
    intro i w hw
    have ha := hal w (List.mem_of_getElem? hw)
    rcases hc.worker i w hw with ⟨-, ⟨st, h2, -⟩, -⟩ | ⟨-, h2, -, h4⟩
    · rw [h2] at ha; simp [Thread.isAlive] at ha
    · exact ⟨h2, List.length_eq_zero_iff.mp (by omega)⟩
  have hrev : s.master.rev = [] :=
    (hclosed 0 _ (List.getElem?_eq_getElem (by rw [hc.lenW]; exact hn))).1
  have hinb : inboxJobs s.workers = [] := by
    unfold inboxJobs
    rw [List.flatMap_eq_nil_iff]
    intro w hw
    obtain ⟨i, hlt, rfl⟩ := List.mem_iff_getElem.mp hw
    rw [(hclosed i _ (List.getElem?_eq_getElem hlt)).2]
    rfl
  have hperm := hd.perm
  rw [hrev, hinb] at hperm
  simp only [List.flatten_nil, List.append_nil] at hperm
  obtain ⟨L', p1, p2⟩ := perm_of_keys jobs L hperm
  refine ⟨L', qs, p2, fun x hx => hd.rel x (p1.mem_iff.mp hx), ⟨allChosen L, ?_, hd.flat⟩, hd.len, hd.loads,
    hd.paths, ?_, ?_⟩
  · exact List.Perm.flatMap_right _ p1.symm
  · rw [hd.progress, ← p2, List.length_map, p1.length_eq]
  · intro hall
    refine ⟨allFound L, List.Perm.flatMap_right _ p1.symm, ?_⟩
    exact hd.stats (fun x hx => hall x (p1.mem_iff.mpr hx))

end

end Verif.Par
