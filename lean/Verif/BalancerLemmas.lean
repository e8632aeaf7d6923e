import Verif.BalancerSpec
import Verif.BalancingRunProps
import Verif.ToolProps

/-!
# Lemmas: the files of the balancer
-/

namespace Verif.Bal

open Gen

variable {w : World} {cfg : RunConfig}

/-- What steps keep. -/
def Keeps {σ ε α : Type} (P : σ → Prop) (x : Step σ ε α) : Prop := ∀ s, P s → P (x s).2

theorem Keeps.lift {σ ε α : Type} {P : σ → Prop} (r : Res ε α) : Keeps P (Step.lift r) := fun _ h => h

theorem Keeps.bind {σ ε α β : Type} {P : σ → Prop} {x : Step σ ε α} {f : α → Step σ ε β} (hx : Keeps P x)
    (hf : ∀ a, Keeps P (f a)) : Keeps P (x.bind f) := by
  intro s hs
  have h := hx s hs
  unfold Step.bind
  generalize x s = r at h ⊢
  obtain ⟨r, s1⟩ := r
  cases r with
  | ok a => exact hf a s1 h
  | err e => exact h
  | panic => exact h

theorem Keeps.stage {σ α : Type} {P : σ → Prop} {x : Step σ Unit α} (hx : Keeps P x) (st : Stage) :
    Keeps P (Bal.stage st x) := fun s hs => hx s hs

theorem Keeps.peek {σ α : Type} {P : σ → Prop} (x : σ → Res Unit α) (st : Stage) : Keeps P (Bal.peek st x) :=
  fun _ hs => hs

/-- What all stages keep. -/
structure World.Keeps (w : World) (P : w.State → Prop) : Prop where
  store : ∀ net, Bal.Keeps P (w.store net)
  write : ∀ i net, Bal.Keeps P (w.write i net)
  contract : ∀ i dim, Bal.Keeps P (w.contract i dim)
  simulate : ∀ i net al, Bal.Keeps P (w.simulate i net al)
  stats : ∀ i loads ps net, Bal.Keeps P (w.stats i loads ps net)

theorem World.Keeps.iteration {P : w.State → Prop} (h : w.Keeps P) (i : Nat) (net : Net) :
    Bal.Keeps P (Bal.iteration w cfg i net) := by
  unfold Bal.iteration simulation
  refine Bal.Keeps.bind (Bal.Keeps.bind (Bal.Keeps.stage (h.write _ _) _) fun _ => Bal.Keeps.bind (Bal.Keeps.lift _)
    fun _ => Bal.Keeps.bind (Bal.Keeps.stage (h.contract _ _) _) fun _ => Bal.Keeps.bind (Bal.Keeps.peek _ _) fun _ =>
    Bal.Keeps.bind (Bal.Keeps.peek _ _) fun _ => Bal.Keeps.bind (Bal.Keeps.lift _) fun _ =>
    Bal.Keeps.bind (Bal.Keeps.stage (h.simulate _ _ _) _) fun _ => Bal.Keeps.lift _) fun x => ?_
  obtain ⟨dim, ch, al, loads, paths⟩ := x
  dsimp only
  split
  · exact Bal.Keeps.bind (Bal.Keeps.stage (h.stats _ _ _ _) _) fun _ => Bal.Keeps.lift _
  · exact Bal.Keeps.lift _
  · exact Bal.Keeps.lift _

theorem World.Keeps.storing {P : w.State → Prop} (h : w.Keeps P) (i : Nat) (net : Net) :
    Bal.Keeps P (Bal.storing w cfg i net) := by
  unfold Bal.storing
  split
  · exact Bal.Keeps.bind (Bal.Keeps.stage (h.store _) _) fun _ => Bal.Keeps.lift _
  · exact Bal.Keeps.lift _

theorem World.Keeps.iterations {P : w.State → Prop} (h : w.Keeps P) (i k : Nat) (net : Net) (s : w.State) (hs : P s) :
    P (Bal.iterations w cfg i k net s).2.2 := by
  induction k generalizing i net s with
  | zero => exact hs
  | succ k ih =>
    unfold Bal.iterations
    have h1 := h.storing (cfg := cfg) i net s hs
    generalize Bal.storing w cfg i net s = r at h1 ⊢
    obtain ⟨r, s1⟩ := r
    cases r with
    | err e => exact h1
    | panic => exact h1
    | ok es =>
      have h2 := h.iteration (cfg := cfg) i net s1 h1
      dsimp only
      generalize Bal.iteration w cfg i net s1 = r2 at h2 ⊢
      obtain ⟨r2, s2⟩ := r2
      cases r2 with
      | err e => exact h2
      | panic => exact h2
      | ok x => exact ih (i + 1) x.2 s2 h2

/-- What all stages keep is kept by a run, also if it fails. -/
theorem World.Keeps.balance {P : w.State → Prop} (h : w.Keeps P) (net : Net) (s : w.State) (hs : P s) :
    P (Bal.balance w cfg net s).2.2 := h.iterations _ _ _ _ hs

end Verif.Bal

namespace Verif.Session

open Text Gen
open Tool (Disk)
open Yml (Yaml)
open Bal (Step Keeps)

section
variable {w : World ℚ} {t : Tool.World} {o : Outside} {doc : Yaml} {b : Yml.Balancing} {cfgFile : Text} {d d' : Disk}

/-! ## Paths -/

theorem joinPath_below {dir file : Text} (h1 : dir ≠ []) (h2 : dir.getLast? ≠ some '/') (h3 : Relative file) :
    joinPath dir file = dir ++ '/' :: file := by
  unfold joinPath
  rw [if_neg h3, if_neg h1, if_neg h2]

/-- A directory to which names can be added. -/
def DirOk (dir : Text) : Prop := dir ≠ [] ∧ dir.getLast? ≠ some '/'

theorem DirOk.join {dir file : Text} (h : DirOk dir) (h3 : Relative file) : joinPath dir file = dir ++ '/' :: file :=
  joinPath_below h.1 h.2 h3

theorem getLast_of_name {name : Text} (h : IsName name) : name.getLast? ≠ some '/' := by
  intro hc
  exact h.2 (List.mem_of_getLast? hc)

theorem IsName.relative {name : Text} (h : IsName name) : Relative name := by
  intro hc
  exact h.2 (List.mem_of_mem_head? hc)

theorem DirOk.add {dir name : Text} (h : IsName name) : DirOk (dir ++ '/' :: name) := by
  refine ⟨by simp, ?_⟩
  have : (dir ++ '/' :: name).getLast? = name.getLast? := by
    rw [List.getLast?_append, List.getLast?_cons]
    cases name with
    | nil => exact absurd rfl h.1
    | cons a l => simp [List.getLast?_cons]
  rw [this]
  exact getLast_of_name h

theorem runDir_dirOf (h : IsName o.stamp) : DirOf b.resultsDir o.stamp (runDir o b) := by
  unfold runDir joinPath DirOf
  rw [if_neg h.relative]
  split
  · rename_i h1
    simp [h1]
  · split
    · rename_i h2
      simp [h2]
    · simp

theorem runDir_ok (h : IsName o.stamp) : DirOk (runDir o b) := by
  have hl : ∀ pre : Text, (pre ++ o.stamp).getLast? ≠ some '/' := by
    intro pre
    rw [List.getLast?_append]
    cases hn : o.stamp.getLast? with
    | none => exact absurd (List.getLast?_eq_none_iff.mp hn) h.1
    | some c =>
      have := getLast_of_name h
      rw [hn] at this
      simpa using this
  rcases runDir_dirOf (b := b) h with h1 | ⟨h1, -⟩
  · rw [h1]
    exact DirOk.add h
  · rw [h1]
    exact ⟨by simp [h.1], hl _⟩

theorem printNat_name (i : Nat) : IsName (printNat i) := by
  refine ⟨printNat_ne_nil i, fun h => ?_⟩
  have := (printNat_digits h).1
  revert this
  decide

theorem below_trans {dir mid rest : Text} : Below dir (dir ++ '/' :: mid ++ '/' :: rest) :=
  ⟨mid ++ '/' :: rest, by simp⟩

theorem iterDir_eq (h : IsName o.stamp) (i : Nat) : iterDir o b i = runDir o b ++ '/' :: printNat i :=
  (runDir_ok h).join (printNat_name i).relative

theorem iterDir_ok (h : IsName o.stamp) (i : Nat) : DirOk (iterDir o b i) := by
  rw [iterDir_eq h]
  exact DirOk.add (printNat_name i)

/-- A relative file in the directory of an iteration. -/
theorem iterFile_eq (h : IsName o.stamp) (i : Nat) {file : Text} (hf : Relative file) :
    joinPath (iterDir o b i) file = runDir o b ++ '/' :: (printNat i ++ '/' :: file) := by
  rw [(iterDir_ok h i).join hf, iterDir_eq h]
  simp

theorem relative_iteration : Relative "iteration.yaml".toList := by unfold Relative; decide
theorem name_stats : IsName "stats".toList := by unfold IsName; decide

theorem iterCfg_eq (h : IsName o.stamp) (i : Nat) :
    iterCfg o b i = runDir o b ++ '/' :: (printNat i ++ '/' :: "iteration.yaml".toList) :=
  iterFile_eq h i relative_iteration

/-- A relative file in the directory of statistics. -/
theorem statsFile_eq (h : IsName o.stamp) (i : Nat) {file : Text} (hf : Relative file) :
    joinPath (statsCfg o b i).resultsDir file =
      runDir o b ++ '/' :: (printNat i ++ '/' :: ("stats".toList ++ '/' :: file)) := by
  have h1 : (statsCfg o b i).resultsDir = iterDir o b i ++ '/' :: "stats".toList := (iterDir_ok h i).join name_stats.relative
  rw [h1, (DirOk.add name_stats).join hf, iterDir_eq h]
  simp

theorem lastName_nameOf {path name : Text} (h : lastName path = some name) : NameOf path name := by
  unfold lastName Tool.fileName at h
  dsimp only at h
  split at h
  · cases h
  · rename_i hn
    rw [not_or] at hn
    simp only [Option.some.injEq] at h
    subst h
    have hsplit := List.takeWhile_append_dropWhile (p := fun c => decide (c ≠ '/')) (l := path.reverse)
    refine ⟨⟨hn.1, fun hc => ?_⟩, ?_⟩
    · have := List.mem_takeWhile_imp (List.mem_reverse.mp hc)
      simp at this
    · generalize hd : List.dropWhile (fun c => decide (c ≠ '/')) path.reverse = rest at hsplit
      cases rest with
      | nil =>
        left
        rw [List.append_nil] at hsplit
        rw [hsplit, List.reverse_reverse]
      | cons c rest =>
        right
        refine ⟨rest.reverse, ?_⟩
        have hc : c = '/' := by
          have := List.head?_dropWhile_not (fun c => decide (c ≠ '/')) path.reverse
          rw [hd] at this
          simpa using this
        subst hc
        have := congrArg List.reverse hsplit
        simpa using this.symm

/-- A copy into the directory of the run. -/
theorem named_eq (h : IsName o.stamp) {path name : Text} (hn : lastName path = some name) :
    joinPath (runDir o b) name = runDir o b ++ '/' :: name :=
  (runDir_ok h).join (lastName_nameOf hn).1.relative

/-! ## Files outside -/

theorem put_below {dir p : Text} {d0 : Disk} {lines : List Text} (hp : Below dir p) (h : SameOutside dir d0 d) :
    SameOutside dir d0 (d.put p lines) := by
  intro q hq
  unfold Disk.put
  rw [if_neg (fun hc : q = p => hq (by rw [hc]; exact hp))]
  exact h q hq

theorem keeps_copy {dir src dst : Text} {d0 : Disk} (hp : Below dir dst) : Keeps (SameOutside dir d0) (copy src dst) := by
  intro s hs
  unfold copy
  split
  · exact hs
  · exact put_below hp hs

theorem create_keeps {dir : Text} {d0 : Disk} {out : Tool.Output} {net : Net} (hp : Below dir out.path)
    (hs : SameOutside dir d0 d) : SameOutside dir d0 (Tool.create t out net d).2 := by
  unfold Tool.create
  split
  · exact hs
  · split
    · exact hs
    · split <;> exact put_below hp hs

theorem keeps_new {dir : Text} {d0 : Disk} {out : Tool.Output} {net : Net} (hp : Below dir out.path) :
    Keeps (SameOutside dir d0) (fun d => quiet (Tool.writeNew t true (some out) net d)) := by
  intro s hs
  unfold quiet Tool.writeNew
  dsimp only
  rw [if_pos rfl]
  split
  · exact hs
  · exact create_keeps hp hs

theorem keeps_given {α β : Type} {P : Disk → Prop} {x : Option α} {f : α → Step Disk Unit β}
    (h : ∀ a, x = some a → Keeps P (f a)) : Keeps P (given x f) := by
  unfold given
  split
  · exact Keeps.lift _
  · exact h _ rfl

theorem relative_loads : Relative "abs_workloads.csv".toList := by unfold Relative; decide
theorem relative_smarts : Relative "smarts.xml".toList := by unfold Relative; decide

theorem andThen_keeps {P : Disk → Prop} {out : Tool.Out} {f : Disk → Tool.Out} (h1 : P out.2)
    (h2 : ∀ d, P d → P (f d).2) : P (out.andThen f).2 := by
  obtain ⟨r, d⟩ := out
  cases r with
  | ok _ => exact h2 d h1
  | err _ => exact h1
  | panic => exact h1

theorem balancer_keeps (hst : IsName o.stamp) (ht : Tidy w.numbers o.yaml (runDir o b) b d) :
    (balancerWorld w t o doc b).Keeps (SameOutside (runDir o b) d) where
  store net := by
    refine keeps_given fun g _ => keeps_given fun name hn => keeps_new ?_
    exact ⟨name, named_eq hst hn⟩
  write i net := by
    show Keeps _ (writeIteration w t o b i net)
    intro s hs
    unfold writeIteration Step.bind copy
    have hsrc : s (if i = 0 then b.iter0 else b.iterI) = d (if i = 0 then b.iter0 else b.iterI) := by
      apply hs
      split
      · exact ht.iter0
      · exact ht.iterI
    cases hl : s (if i = 0 then b.iter0 else b.iterI) with
    | none => exact hs
    | some lines =>
      dsimp only
      have h1 : SameOutside (runDir o b) d (s.put (iterCfg o b i) lines) :=
        put_below ⟨_, iterCfg_eq hst i⟩ hs
      have h2 : (s.put (iterCfg o b i) lines) (iterCfg o b i) = some lines := by simp [Disk.put]
      rw [h2]
      refine keeps_given (fun doc hdoc => ?_) _ h1
      have hout : RelativeOutputs w.numbers doc := by
        refine ht.outputs (if i = 0 then b.iter0 else b.iterI) ?_ lines doc (hsrc ▸ hl) hdoc
        split <;> simp
      refine Bal.Keeps.bind (keeps_given fun g hg => keeps_new ?_) fun _ => keeps_given fun e he => keeps_new ?_
      · exact ⟨_, iterFile_eq hst i (hout.graph g hg)⟩
      · exact ⟨_, iterFile_eq hst i (hout.edges e he)⟩
  contract i dim := by
    show Keeps _ (contractGraph o b i dim)
    intro s hs
    unfold contractGraph
    split
    · exact hs
    · exact put_below ⟨_, iterFile_eq hst i ht.chGraph⟩ hs
  simulate i net al := by
    show Keeps _ (simulatePairs w o doc b i net al)
    unfold simulatePairs
    intro s hs
    unfold Step.lift Step.bind
    dsimp only
    cases hr : routingCfg w o doc b net with
    | err e => exact hs
    | panic => exact hs
    | ok x =>
      obtain ⟨rc, file, new⟩ := x
      dsimp only
      have hnew : Below (runDir o b) new := by
        unfold routingCfg at hr
        split at hr
        · cases hr
        · cases hr
        · split at hr
          · cases hr
          · split at hr
            · cases hr
            · rename_i name hn
              simp only [Res.ok.injEq, Prod.mk.injEq] at hr
              obtain ⟨-, -, rfl⟩ := hr
              exact ⟨name, named_eq hst hn⟩
      have hk : Keeps (SameOutside (runDir o b) d) ((if i = 0 then copy file new else Step.lift (.ok ⟨⟩)).bind fun _ d =>
          match readPairs { w with text := d } (some new) with
          | .err _ => (.err ⟨⟩, d)
          | .panic => (.panic, d)
          | .ok rs => (o.master i net.graph { rc with routing := { rc.routing with alphas := al } } rs, d)) := by
        refine Bal.Keeps.bind ?_ fun _ => ?_
        · split
          · exact keeps_copy hnew
          · exact Keeps.lift _
        · intro s1 hs1
          dsimp only
          split <;> exact hs1
      exact hk s hs
  stats i loads ps net := by
    show Keeps _ (writeStats w t o b i loads ps net)
    intro s hs
    unfold writeStats evalOutputs quiet
    dsimp only
    refine andThen_keeps (andThen_keeps (create_keeps ?_ hs) fun d1 h1 => create_keeps ?_ h1) fun d1 h1 => ?_
    · exact ⟨_, statsFile_eq hst i ht.info⟩
    · exact ⟨_, statsFile_eq hst i relative_loads⟩
    · cases ps with
      | none => exact h1
      | some ps => exact create_keeps ⟨_, statsFile_eq hst i relative_smarts⟩ h1

/-! ## The balanced map -/

/-- The file has these lines. -/
def Holds (path : Text) (lines : List Text) (d : Disk) : Prop := d path = some lines

theorem put_holds {path q : Text} {lines l : List Text} (hq : q ≠ path) (h : Holds path lines d) :
    Holds path lines (d.put q l) := by
  unfold Holds Disk.put
  rw [if_neg (fun hc => hq hc.symm)]
  exact h

theorem create_holds {path : Text} {lines : List Text} {out : Tool.Output} {net : Net} (h : Holds path lines d) :
    Holds path lines (Tool.create t out net d).2 := by
  unfold Tool.create
  split
  · exact h
  · split
    · exact h
    · rename_i hno
      have hne : out.path ≠ path := by
        intro hc
        apply hno
        rw [hc, show d path = some lines from h]
        rfl
      split <;> exact put_holds hne h

theorem new_holds {path : Text} {lines : List Text} {out : Tool.Output} {net : Net} :
    Keeps (Holds path lines) (fun d => quiet (Tool.writeNew t true (some out) net d)) := by
  intro s hs
  unfold quiet Tool.writeNew
  dsimp only
  rw [if_pos rfl]
  split
  · exact hs
  · exact create_holds hs

theorem quiet_ok {out : Tool.Out} (h : quiet out = (.ok ⟨⟩, d)) : out = (.ok ⟨⟩, d) := by
  obtain ⟨r, d1⟩ := out
  unfold quiet at h
  simp only [Prod.mk.injEq] at h
  obtain ⟨h1, rfl⟩ := h
  cases r with
  | ok u => rfl
  | err e => simp [Fmi.mapErr] at h1
  | panic => simp [Fmi.mapErr] at h1

theorem given_ok {α β : Type} {x : Option α} {f : α → Step Disk Unit β} {y : β} (h : given x f d = (.ok y, d')) :
    ∃ a, x = some a ∧ f a d = (.ok y, d') := by
  unfold given at h
  split at h
  · simp [Step.lift] at h
  · exact ⟨_, rfl, h⟩

/-- What storing does. -/
theorem store_ok {net : Net} (h : storeGraph w t o doc b net d = (.ok ⟨⟩, d')) :
    ∃ g name lines, Yml.graphOut w.numbers doc = some g ∧ lastName g.mapFile = some name ∧
      Tool.fromPath Tool.graphExts (Tool.fileName (joinPath (runDir o b) name)) = some .fmi ∧
      Fmi.write w.codec net (columnsOf g) = .ok lines ∧
      Holds (joinPath (runDir o b) name) lines d' := by
  obtain ⟨g, hg, h⟩ := given_ok h
  obtain ⟨name, hn, h⟩ := given_ok h
  have h := quiet_ok h
  unfold Tool.writeNew at h
  rw [if_pos rfl] at h
  dsimp only at h
  split at h
  · simp at h
  · rcases Tool.create_cases (w := t) (net := net) (graphAt w.codec (joinPath (runDir o b) name) g) d with
      ⟨d1, e1, e2⟩ | ⟨r, e1, e2⟩ | ⟨r, e1, e2, e3⟩
    · rw [e1] at h
      simp only [Prod.mk.injEq] at h
      obtain ⟨-, rfl⟩ := h
      obtain ⟨lines, h1, h2⟩ := e2.complete _ (List.mem_singleton.mpr rfl)
      have h3 := (e2.accepted _ (List.mem_singleton.mpr rfl)).1
      exact ⟨g, name, lines, hg, hn, of_decide_eq_true h3, h1, h2⟩
    · rw [e2] at h
      simp only [Prod.mk.injEq] at h
      exact absurd h.1 e1
    · rw [e3] at h
      simp only [Prod.mk.injEq] at h
      exact absurd h.1 e1

theorem name_ne_sub {dir name : Text} (h : IsName name) {mid rest : Text} :
    dir ++ '/' :: (mid ++ '/' :: rest) ≠ dir ++ '/' :: name := by
  intro hc
  have := List.append_cancel_left hc
  simp only [List.cons.injEq, true_and] at this
  exact h.2 (by rw [← this]; simp)

theorem write_holds (hst : IsName o.stamp) {i : Nat} {net : Net} {s s1 : Disk} {name : Text} {lines : List Text}
    (hname : IsName name) (h1 : writeIteration w t o b i net s = (.ok ⟨⟩, s1))
    (hs : Holds (joinPath (runDir o b) name) lines s) : Holds (joinPath (runDir o b) name) lines s1 := by
  have hpath : joinPath (runDir o b) name = runDir o b ++ '/' :: name := (runDir_ok hst).join hname.relative
  have hk : Keeps (Holds (joinPath (runDir o b) name) lines) (writeIteration w t o b i net) := by
    refine Bal.Keeps.bind ?_ fun _ s hs => ?_
    · intro s hs
      unfold copy
      split
      · exact hs
      · refine put_holds ?_ hs
        rw [hpath, iterCfg_eq hst]
        exact name_ne_sub hname
    · refine keeps_given (fun doc hdoc => ?_) _ hs
      exact Bal.Keeps.bind (keeps_given fun g hg => new_holds) fun _ => keeps_given fun e he => new_holds
  have := hk s hs
  rw [h1] at this
  exact this

theorem contract_holds (hst : IsName o.stamp) (hch : Relative b.multiCh.chGraph) {i dim : Nat} {s s1 : Disk} {name : Text}
    {lines : List Text} (hname : IsName name) (h2 : contractGraph o b i dim s = (.ok ⟨⟩, s1))
    (hs : Holds (joinPath (runDir o b) name) lines s) : Holds (joinPath (runDir o b) name) lines s1 := by
  have hpath : joinPath (runDir o b) name = runDir o b ++ '/' :: name := (runDir_ok hst).join hname.relative
  unfold contractGraph at h2
  split at h2
  · simp at h2
  · simp only [Prod.mk.injEq, true_and] at h2
    subst h2
    refine put_holds ?_ hs
    show joinPath (iterDir o b i) b.multiCh.chGraph ≠ _
    rw [hpath, iterFile_eq hst i hch]
    exact name_ne_sub hname

theorem simulate_holds {i : Nat} {ch : Net} {alphas : List ℚ} {s2 s3 : Disk} {loads : List Nat}
    {paths : Option (List Path)} {path : Text} {lines : List Text}
    (hext : Tool.fromPath Tool.graphExts (Tool.fileName path) = some .fmi)
    (h5 : simulatePairs w o doc b i ch alphas s2 = (.ok (loads, paths), s3)) (hs2 : Holds path lines s2) :
    Holds path lines s3 := by
  unfold simulatePairs at h5
  rw [Bal.Step.bind_ok] at h5
  obtain ⟨⟨rc, file, new⟩, u, hu, h5⟩ := h5
  rw [Bal.lift_ok] at hu
  obtain ⟨-, rfl⟩ := hu
  dsimp only at h5
  rw [Bal.Step.bind_ok] at h5
  obtain ⟨_, v, hv, h5⟩ := h5
  have hne : new ≠ path := by
    rintro rfl
    have hno : Tool.findSupported pairsExts (Tool.fileName new) = none := by
      unfold Tool.fromPath at hext
      unfold Tool.findSupported at hext ⊢
      cases hx : Tool.extension (Tool.fileName new) with
      | none => rfl
      | some ext =>
        rw [hx] at hext
        dsimp only at hext ⊢
        by_cases he : lower ext = "fmi".toList
        · rw [he]
          rfl
        · have : Tool.graphExts.find? (fun s => decide (s = lower ext)) = none := by
            unfold Tool.graphExts
            simp only [List.find?_cons, List.find?_nil]
            rw [decide_eq_false (fun hc => he hc.symm)]
          rw [this] at hext
          cases hext
    unfold readPairs at h5
    dsimp only at h5
    rw [hno] at h5
    simp at h5
  have hkv : Holds path lines v := by
    split at hv
    · unfold copy at hv
      split at hv
      · simp at hv
      · simp only [Prod.mk.injEq, true_and] at hv
        subst hv
        exact put_holds hne hs2
    · rw [Bal.lift_ok] at hv
      obtain ⟨-, rfl⟩ := hv
      exact hs2
  split at h5
  · simp at h5
  · simp at h5
  · simp only [Prod.mk.injEq] at h5
    obtain ⟨-, rfl⟩ := h5
    exact hkv

theorem stats_holds {i : Nat} {net : Net} {s3 s4 : Disk} {loads : List Nat} {paths : Option (List Path)} {path : Text}
    {lines : List Text} (h6 : writeStats w t o b i loads paths net s3 = (.ok ⟨⟩, s4)) (hs3 : Holds path lines s3) :
    Holds path lines s4 := by
  have hk : Holds path lines (writeStats w t o b i loads paths net s3).2 := by
    unfold writeStats evalOutputs quiet
    dsimp only
    refine andThen_keeps (andThen_keeps (create_holds hs3) fun d1 h1 => create_holds h1) fun d1 h1 => ?_
    cases paths with
    | none => exact h1
    | some ps => exact create_holds h1
  rw [h6] at hk
  exact hk

/-- A further iteration doesn't touch the map. -/
theorem iterates_holds (hst : IsName o.stamp) (hch : Relative b.multiCh.chGraph) {i : Nat} {cfg : Bal.RunConfig}
    {net ch net' : Net} {s s' : Disk} {dim : Nat} {alphas : List ℚ} {loads : List Nat} {name : Text} {lines : List Text}
    (hname : IsName name)
    (hext : Tool.fromPath Tool.graphExts (Tool.fileName (joinPath (runDir o b) name)) = some .fmi)
    (h : Bal.Iterates (balancerWorld w t o doc b) cfg i net ch net' s s' dim alphas loads)
    (hs : Holds (joinPath (runDir o b) name) lines s) : Holds (joinPath (runDir o b) name) lines s' := by
  obtain ⟨s1, s2, s3, al, paths, h1, h2, -, -, -, h5, h6⟩ := h.steps
  exact stats_holds h6 (simulate_holds hext h5 (contract_holds hst hch hname h2 (write_holds hst hname h1 hs)))

theorem history_holds (hst : IsName o.stamp) (hch : Relative b.multiCh.chGraph) {name : Text} {lines : List Text}
    (hname : IsName name)
    (hext : Tool.fromPath Tool.graphExts (Tool.fileName (joinPath (runDir o b) name)) = some .fmi)
    {i j : Nat} {cfg : Bal.RunConfig} {net net' : Net} {s s' : (balancerWorld w t o doc b).State} {es : List Bal.Event}
    (h : Bal.History (balancerWorld w t o doc b) cfg i net s es j net' s') :
    Holds (joinPath (runDir o b) name) lines s → Holds (joinPath (runDir o b) name) lines s' := by
  induction h with
  | nil => exact id
  | cons hi _ ih => exact fun hs => ih (iterates_holds hst hch hname hext hi hs)

/-- What a successful balancer has done. -/
theorem balancer_ok (h : balancer w t o cfgFile doc d = (.ok ⟨⟩, d')) :
    ∃ b net name lines es, Yml.balancing w.numbers doc = .ok b ∧ load { w with text := d } doc = .ok net ∧
      lastName cfgFile = some name ∧ d cfgFile = some lines ∧
      Bal.balance (balancerWorld w t o doc b) (runCfg b) net (d.put (joinPath (runDir o b) name) lines) =
        (es, .ok ⟨⟩, d') := by
  unfold balancer at h
  split at h
  · simp at h
  · simp at h
  · simp at h
  · rename_i b _ hb
    split at h
    · simp at h
    · simp at h
    · rename_i net hl
      split at h
      · simp at h
      · simp at h
      · obtain ⟨_, s, hcopy, h⟩ := Bal.Step.bind_ok.mp h
        obtain ⟨name, hname, hcopy⟩ := given_ok hcopy
        unfold copy at hcopy
        split at hcopy
        · simp at hcopy
        rename_i lines hlines
        simp only [Prod.mk.injEq, true_and] at hcopy
        subst hcopy
        dsimp only at h
        cases hr : Bal.balance (balancerWorld w t o doc b) (runCfg b) net (d.put (joinPath (runDir o b) name) lines) with
        | mk es x =>
          obtain ⟨r, f⟩ := x
          rw [hr] at h
          have h1 : Fmi.mapErr (fun _ => PUnit.unit) r = .ok ⟨⟩ := congrArg Prod.fst h
          have h2 : f = d' := congrArg Prod.snd h
          subst h2
          cases r with
          | ok u => exact ⟨b, net, name, lines, es, hb, hl, hname, hlines, hr⟩
          | err e => simp [Fmi.mapErr] at h1
          | panic => simp [Fmi.mapErr] at h1

end

end Verif.Session
