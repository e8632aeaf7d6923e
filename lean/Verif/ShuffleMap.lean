import Verif.ShuffleProps
import Verif.ShuffleSpec
import Verif.SessionChLines
import Verif.SessionProps

/-!
# The order of lines is irrelevant (C106)
-/

namespace Verif.Session

open Text Cfg Yml
open Gen (Net)
open Build (ProtoEdge ProtoNode build)
open Fmi (mapR readEdge)

theorem readNode_names {c : Fmi.Codec} {cats : List NodeCat} {line : Text} {n : ProtoNode}
    (h : Fmi.readNode c cats line = .ok n) : Names cats line n.id := by
  simp only [Fmi.readNode, Res.bind_eq_ok] at h
  obtain ⟨a, h1, h2⟩ := h
  obtain ⟨d1, -, -⟩ := readNodeColumns_ok h1
  split at h2
  · cases h2
  · rename_i id hid
    split at h2
    · cases h2
      simpa [Names] using d1 id hid
    · cases h2

/-- Reading lines in another order gives the records in another order. -/
theorem forall₂_perm {α β : Type} {R : α → β → Prop} {l l' : List α} (h : l.Perm l') {m : List β}
    (hm : List.Forall₂ R l m) : ∃ m', m.Perm m' ∧ List.Forall₂ R l' m' := by
  induction h generalizing m with
  | nil => exact ⟨m, .refl _, hm⟩
  | cons x _ ih =>
    cases hm with
    | cons h1 h2 =>
      obtain ⟨m', h3, h4⟩ := ih h2
      exact ⟨_, h3.cons _, .cons h1 h4⟩
  | swap x y l =>
    cases hm with
    | cons h1 h2 =>
      cases h2 with
      | cons h3 h4 => exact ⟨_, .swap _ _ _, .cons h3 (.cons h1 h4)⟩
  | trans _ _ ih1 ih2 =>
    obtain ⟨m1, h1, h2⟩ := ih1 hm
    obtain ⟨m2, h3, h4⟩ := ih2 h2
    exact ⟨m2, h1.trans h3, h4⟩

section

variable {c : Fmi.Codec} {env : Gen.Env} {maxDim : Nat} {cfg : Cfg.Parsing} {file file' nodes nodes' edges edges' : List Text}

theorem load_order (hm : MapFile file nodes edges) (hm' : MapFile file' nodes' edges') (hn : nodes.Perm nodes')
    (he : edges.Perm edges') (hp : ∀ id, .info .shortcutIdx0 id ∉ cfg.edges.cats) (h1 : OneLineEach cfg.nodes nodes)
    (h2 : Simple c cfg.edges.cats edges) {net : Net} (h : Fmi.load c env maxDim cfg file = .ok net) :
    Fmi.load c env maxDim cfg file' = .ok net := by
  unfold Fmi.load at h ⊢
  cases hc : Cfg.check maxDim cfg with
  | error e => simp [Fmi.read, hc, Fmi.mapErr] at h
  | ok u =>
    obtain ⟨⟩ := u
    rw [read_map hm hc] at h
    rw [read_map hm' hc]
    cases he1 : mapR (readEdge c cfg.edges.cats) edges with
    | err e => simp [he1, Fmi.mapErr] at h
    | panic => simp [he1, Fmi.mapErr] at h
    | ok es =>
      cases hn1 : mapR (Fmi.readNode c cfg.nodes) nodes with
      | err e => simp [he1, hn1, Fmi.mapErr] at h
      | panic => simp [he1, hn1, Fmi.mapErr] at h
      | ok ns =>
        obtain ⟨es', p1, p2⟩ := forall₂_perm he (Fmi.mapR_ok.mp he1)
        obtain ⟨ns', p3, p4⟩ := forall₂_perm hn (Fmi.mapR_ok.mp hn1)
        rw [Fmi.mapR_ok.mpr p2, Fmi.mapR_ok.mpr p4]
        rw [he1, hn1] at h
        have q1 : ∀ a ∈ es, ∃ line ∈ edges, readEdge c cfg.edges.cats line = .ok a := by
          intro a ha
          obtain ⟨i, hi⟩ := List.getElem?_of_mem ha
          obtain ⟨line, k1, k2⟩ := (Build.forall₂_getElem? (Fmi.mapR_ok.mp he1)).2.2 i a hi
          exact ⟨line, List.mem_of_getElem? k1, k2⟩
        have q2 : ∀ a ∈ ns, ∃ line ∈ nodes, Fmi.readNode c cfg.nodes line = .ok a := by
          intro a ha
          obtain ⟨i, hi⟩ := List.getElem?_of_mem ha
          obtain ⟨line, k1, k2⟩ := (Build.forall₂_getElem? (Fmi.mapR_ok.mp hn1)).2.2 i a hi
          exact ⟨line, List.mem_of_getElem? k1, k2⟩
        have hb := Build.C106_order_partial (dim := cfg.edges.units.length) p1 p3 (fun a ha => by
            obtain ⟨line, k1, k2⟩ := q1 a ha
            exact (readEdge_leads k2).2 hp)
          (fun a ha b hb e1 e2 _ => by
            obtain ⟨line, k1, k2⟩ := q1 a ha
            obtain ⟨line', k3, k4⟩ := q1 b hb
            have l1 := (readEdge_leads k2).1
            have l2 := (readEdge_leads k4).1
            rw [← e1, ← e2] at l2
            rw [h2 line k1 line' k3 _ _ _ _ l1 l2, k4, Res.ok.injEq] at k2
            exact k2.symm)
          (fun a ha b hb e1 => by
            obtain ⟨line, k1, k2⟩ := q2 a ha
            obtain ⟨line', k3, k4⟩ := q2 b hb
            have l1 := readNode_names k2
            rw [e1] at l1
            rw [h1 line k1 line' k3 _ l1 (readNode_names k4), k4, Res.ok.injEq] at k2
            exact k2.symm)
        simpa [Fmi.mapErr, hb] using h

/-- The order in which a map lists its nodes and edges is irrelevant: the very same graph is loaded, with the same
indices, and the same metrics are generated and normalized.
Partial: there is no column for shortcuts, and different lines are different nodes and lead between different nodes.
Which of several mistakes is reported may depend on the order. -/
theorem C106_load_partial (hm : MapFile file nodes edges) (hm' : MapFile file' nodes' edges') (hn : nodes.Perm nodes')
    (he : edges.Perm edges') (hp : ∀ id, .info .shortcutIdx0 id ∉ cfg.edges.cats) (h1 : OneLineEach cfg.nodes nodes)
    (h2 : Simple c cfg.edges.cats edges) (net : Net) :
    Fmi.load c env maxDim cfg file = .ok net ↔ Fmi.load c env maxDim cfg file' = .ok net :=
  ⟨load_order hm hm' hn he hp h1 h2, load_order hm' hm hn.symm he.symm hp
    (fun a ha b hb => h1 a (hn.mem_iff.mpr ha) b (hn.mem_iff.mpr hb))
    (fun a ha b hb => h2 a (he.mem_iff.mpr ha) b (he.mem_iff.mpr hb))⟩

end

section

variable {K : Type} [LinearOrder K] [Zero K] [Add K] {w : World K} {fuel : Nat} {wr : Yml.Writer} {doc : Yaml}
  {ip : Yml.ParsingIn} {ir : Yml.RoutingIn} {nodes nodes' edges edges' pairs : List Text}

/-- What is done after reading the settings of the map. -/
theorem run_eq (hs : Setting w wr doc ip ir nodes edges pairs) (fuel : Nat) :
    run w fuel doc = match loadMap w ip.mapFile (ip.cfg w.text) with
      | .err e => ([], some (.err e))
      | .panic => ([], some .panic)
      | .ok net => route w fuel doc net := by
  obtain ⟨y, hy1, hy2⟩ := hs.parsing
  unfold run
  rw [Yml.C85_parsing hs.writer w.text ip hs.unique doc y hy1 hy2]
  rfl

omit [LinearOrder K] [Zero K] [Add K] in
/-- The map of a setting. -/
theorem loadMap_eq (hs : Setting w wr doc ip ir nodes edges pairs) : ∃ file, MapFile file nodes edges ∧
    ∀ net, loadMap w ip.mapFile (ip.cfg w.text) = .ok net ↔
      Fmi.load w.codec w.env w.maxDim (ip.cfg w.text) file = .ok net := by
  obtain ⟨file, hf1, hf2⟩ := hs.map
  refine ⟨file, hf2, fun net => ?_⟩
  have hx : Tool.fromPath Tool.parserExts (Tool.fileName ip.mapFile) = some .fmi := (Tool.C74_parser _ .fmi).mpr hs.fmi
  unfold loadMap
  rw [hx, hf1]
  dsimp only
  cases hc : Cfg.check w.maxDim (ip.cfg w.text) with
  | error e => simp [Fmi.load, Fmi.read, hc, Fmi.mapErr]
  | ok u =>
    dsimp only
    cases Fmi.load w.codec w.env w.maxDim (ip.cfg w.text) file <;> simp [Fmi.mapErr]

/-- The tool's reports don't depend on the order in which the map lists its nodes and edges: they are the same, or the
map can't be loaded, neither in the one order nor in the other.
Partial: as `C106_load_partial`; the map is an fmi-file. -/
theorem C106_reports_partial {text : Text → Option (List Text)} (hs : Setting w wr doc ip ir nodes edges pairs)
    (hs' : Setting { w with text } wr doc ip ir nodes' edges' pairs) (hn : nodes.Perm nodes') (he : edges.Perm edges')
    (hp : NoShortcuts ip) (h1 : OneLineEach ip.nodes nodes) (h2 : Simple w.codec ip.edges edges) :
    run { w with text } fuel doc = run w fuel doc ∨
    (∃ r, run w fuel doc = ([], some r) ∧ r ≠ .ok ⟨⟩) ∧ ∃ r, run { w with text } fuel doc = ([], some r) ∧ r ≠ .ok ⟨⟩ := by
  obtain ⟨file, f1, f2⟩ := loadMap_eq hs
  obtain ⟨file', f3, f4⟩ := loadMap_eq hs'
  have hcfg : ip.cfg text = ip.cfg w.text := by
    unfold Yml.ParsingIn.cfg
    rw [hs.generating]
    rfl
  dsimp only at f4
  rw [run_eq hs, run_eq hs']
  dsimp only
  rw [hcfg] at f4 ⊢
  have key := C106_load_partial (c := w.codec) (env := w.env) (maxDim := w.maxDim) (cfg := ip.cfg w.text) f1 f3 hn he hp
    h1 h2
  cases hl : loadMap w ip.mapFile (ip.cfg w.text) with
  | ok net =>
    left
    rw [(f4 net).mpr ((key net).mp ((f2 net).mp hl))]
    dsimp only
    obtain ⟨pf, pfile, p1, p2, p3⟩ := hs.pairs
    obtain ⟨pf', pfile', p1', p2', p3'⟩ := hs'.pairs
    rw [p1, Option.some.injEq] at p1'
    subst p1'
    have hr : readPairs { w with text } (some pf) = readPairs w (some pf) := by
      unfold readPairs
      dsimp only at p2' ⊢
      rw [p2, p2']
      dsimp only
      rw [read_pairs p3, read_pairs p3']
    have hed : net.edges = (ip.cfg w.text).edges := by
      have hg : (ip.cfg w.text).generating = none := by
        unfold ParsingIn.cfg
        dsimp only
        rw [hs.generating]
        rfl
      have hn : (ip.cfg w.text).edges.normalized = false := by
        unfold ParsingIn.cfg
        dsimp only
        cases hn : ip.normalized with
        | none => rfl
        | some b =>
          cases b with
          | false => rfl
          | true => exact absurd hn hs.normalized
      have h := (f2 net).mp hl
      simp only [Fmi.load, hg, Res.bind_eq_ok] at h
      obtain ⟨x, -, g, -, h⟩ := h
      simp only [Gen.finish, Gen.generate, Res.ok_bind] at h
      rw [Gen.C27_off hn] at h
      simp only [Fmi.mapErr, Res.ok.injEq] at h
      rw [← h]
    unfold route
    dsimp only
    rw [hed, Yml.C85_routing hs.writer (edges_tryFrom hs.unique w.text) ir hs.known doc hs.routing]
    dsimp only
    rw [p1, hr]
    rfl
  | err e =>
    right
    refine ⟨⟨_, rfl, by simp⟩, ?_⟩
    cases hl' : loadMap { w with text } ip.mapFile (ip.cfg w.text) with
    | ok net =>
      rw [(f2 net).mpr ((key net).mpr ((f4 net).mp hl'))] at hl
      cases hl
    | err e => exact ⟨_, rfl, by simp⟩
    | panic => exact ⟨_, rfl, by simp⟩
  | panic =>
    right
    refine ⟨⟨_, rfl, by simp⟩, ?_⟩
    cases hl' : loadMap { w with text } ip.mapFile (ip.cfg w.text) with
    | ok net =>
      rw [(f2 net).mpr ((key net).mpr ((f4 net).mp hl'))] at hl
      cases hl
    | err e => exact ⟨_, rfl, by simp⟩
    | panic => exact ⟨_, rfl, by simp⟩

end

/-! ## Sample -/

theorem ex_oneLine : OneLineEach exIp.nodes exMapNodes := by
  rintro line hl line' hl' id ⟨k, name, t, h1, h2, h3⟩ ⟨k', name', t', h4, h5, h6⟩
  have hk : ∀ (k : Nat) name, exIp.nodes[k]? = some (.info .nodeId name) → k = 0 := by
    intro k name h
    have := List.all_eq_true.mp (show (List.range 3).all (fun k => match exIp.nodes[k]? with
      | some (.info .nodeId _) => k == 0
      | _ => true) = true by decide +kernel) k (by
        have := Build.lt_length_of_getElem? h
        rw [show exIp.nodes.length = 3 by decide +kernel] at this
        simpa using this)
    simp only [h] at this
    simpa using this
  rw [hk k name h1] at h2
  rw [hk k' name' h4] at h5
  have key : ∀ line ∈ exMapNodes, ∀ line' ∈ exMapNodes, (words line)[0]?.bind (parseInt maxI64) =
      (words line')[0]?.bind (parseInt maxI64) → line = line' := by decide +kernel
  exact key line hl line' hl' (by rw [h2, h5, Option.bind_some, Option.bind_some, h3, h6])

theorem ex_simple : Simple Fmi.exCodec exIp.edges exMapEdges := by
  intro line hl line' hl' a b m m' h h'
  obtain ⟨j, hj⟩ := List.getElem?_of_mem hl
  obtain ⟨j', hj'⟩ := List.getElem?_of_mem hl'
  obtain ⟨pe, h1, h2⟩ := (Build.forall₂_getElem? ex_read).2.1 j line hj
  obtain ⟨pe', h3, h4⟩ := (Build.forall₂_getElem? ex_read).2.1 j' line' hj'
  obtain ⟨e1, e2, -⟩ := readEdge_unique h2 h
  obtain ⟨e3, e4, -⟩ := readEdge_unique h4 h'
  have key : ∀ j < 5, ∀ j' < 5, (exRecords[j]?.map fun pe => (pe.srcId, pe.dstId)) =
      (exRecords[j']?.map fun pe => (pe.srcId, pe.dstId)) → j = j' := by decide +kernel
  have l1 := Build.lt_length_of_getElem? h1
  have l2 := Build.lt_length_of_getElem? h3
  rw [show exRecords.length = 5 by decide +kernel] at l1 l2
  rw [key j l1 j' l2 (by rw [h1, h3, Option.map_some, Option.map_some, e1, e2, e3, e4]), hj', Option.some.injEq] at hj
  exact hj.symm

/-- The lines of the map in another order. -/
def mixedNodes : List Text :=
  ["40 1/1 0/1".toList, "20 0/1 1/1".toList, "10 0/1 0/1".toList, "30 1/1 1/1".toList]

def mixedEdges : List Text :=
  ["40 30 x 1/1 1/1".toList, "30 40 x 4/1 0/1".toList, "10 30 x 1/1 5/1".toList, "20 40 x 2/1 1/1".toList,
    "10 20 x 2/1 1/1".toList]

/-- With other comments, too. -/
def mixedMap : List Text := ["4".toList, "# mixed".toList, "5".toList] ++ (mixedNodes ++ mixedEdges)

def mixedText (f : Text) : Option (List Text) := if f = "isle.fmi".toList then some mixedMap else exWorld.text f

theorem mixed_setting : Setting { exWorld with text := mixedText } Yml.exWriter (exDoc exIr) exIp exIr mixedNodes mixedEdges
    exPairs where
  writer := Yml.exFits
  parsing := (ex_setting exIr (by decide +kernel) rfl).parsing
  routing := (ex_setting exIr (by decide +kernel) rfl).routing
  unique := (ex_setting exIr (by decide +kernel) rfl).unique
  known := (ex_setting exIr (by decide +kernel) rfl).known
  generating := rfl
  normalized := by decide
  fmi := (ex_setting exIr (by decide +kernel) rfl).fmi
  map := by
    refine ⟨mixedMap, rfl, [], [], [], ["4".toList, "5".toList], by decide +kernel, by simp, ?_, ?_⟩
    · exact .cons ⟨"4".toList, by decide +kernel, by decide +kernel⟩
        (.cons ⟨"5".toList, by decide +kernel, by decide +kernel⟩ .nil)
    · decide +kernel
  pairs := by
    refine ⟨_, _, rfl, rfl, [], [], [], ["3".toList], by decide +kernel, by simp, ?_, by decide +kernel⟩
    exact .cons ⟨"3".toList, by decide +kernel, by decide +kernel⟩ .nil

/-- The map in another order gives the reports of `ex_run`. -/
example : run { exWorld with text := mixedText } 60 (exDoc exIr) = run exWorld 60 (exDoc exIr) ∧
    (run exWorld 60 (exDoc exIr)).1.length = 3 ∧ mixedEdges ≠ exMapEdges := by
  refine ⟨?_, by decide +kernel, by decide +kernel⟩
  rcases C106_reports_partial (fuel := 60) (ex_setting exIr (by decide +kernel) rfl) mixed_setting (by decide +kernel)
    (by decide +kernel) ex_plain ex_oneLine ex_simple with h | ⟨⟨r, h, -⟩, -⟩
  · exact h
  · rw [ex_run] at h
    cases h

/-- The same on the level of files. -/
example (net : Net) : Fmi.load Fmi.exCodec Gen.exEnv 4 (exIp.cfg exWorld.text) exMap = .ok net ↔
    Fmi.load Fmi.exCodec Gen.exEnv 4 (exIp.cfg exWorld.text) mixedMap = .ok net := by
  obtain ⟨file, h1, h2⟩ := (ex_setting exIr (by decide +kernel) rfl).map
  obtain ⟨file', h3, h4⟩ := mixed_setting.map
  cases h1
  cases h3
  exact C106_load_partial (cfg := exIp.cfg exWorld.text) h2 h4 (by decide +kernel) (by decide +kernel) ex_plain ex_oneLine ex_simple net

end Verif.Session
