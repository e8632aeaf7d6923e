import Verif.ToolProps
import Verif.ToolSpec2

/-!
# C73: which files the tool's writers accept
-/

namespace Verif.Tool

open Text Gen

/-- The last component of a path. -/
theorem fileName_eq {dir name : Text} (hd : dir = [] ∨ ∃ parent, dir = parent ++ ['/']) (hn : '/' ∉ name) :
    fileName (dir ++ name) = name := by
  unfold fileName
  have h : ∀ c ∈ name.reverse, decide (c ≠ '/') = true := fun c hc => by
    have : c ≠ '/' := fun e => hn (e ▸ List.mem_reverse.mp hc)
    simpa using this
  rw [List.reverse_append, List.takeWhile_append_of_pos h]
  rcases hd with rfl | ⟨parent, rfl⟩ <;> simp

theorem fileName_split (path : Text) : ∃ dir, path = dir ++ fileName path ∧
    (dir = [] ∨ ∃ parent, dir = parent ++ ['/']) ∧ '/' ∉ fileName path := by
  refine ⟨(path.reverse.dropWhile (· ≠ '/')).reverse, ?_, ?_, ?_⟩
  · unfold fileName
    rw [← List.reverse_append, List.takeWhile_append_dropWhile, List.reverse_reverse]
  · cases h : path.reverse.dropWhile (· ≠ '/') with
    | nil => exact .inl rfl
    | cons c cs =>
      have := List.head?_dropWhile_not (fun c : Char => decide (c ≠ '/')) path.reverse
      rw [h] at this
      obtain rfl : c = '/' := by simpa using this
      exact .inr ⟨cs.reverse, by simp⟩
  · intro h
    have := List.mem_takeWhile_imp (List.mem_reverse.mp h)
    simp at this

theorem pathWith_iff (path ext : Text) : PathWith path ext ↔ ∃ e, Named (fileName path) e ∧ lower e = ext := by
  constructor
  · rintro ⟨dir, name, e, rfl, hd, hn, h1, h2⟩
    exact ⟨e, by rwa [fileName_eq hd hn], h2⟩
  · rintro ⟨e, h1, h2⟩
    obtain ⟨dir, h, hd, hn⟩ := fileName_split path
    exact ⟨dir, fileName path, e, h, hd, hn, h1, h2⟩

theorem supported_one (ext name : Text) :
    (findSupported [ext] name).isSome = true ↔ ∃ e, Named name e ∧ lower e = ext := by
  rw [Option.isSome_iff_exists]
  constructor
  · rintro ⟨s, h⟩
    obtain ⟨h1, e, h2, h3⟩ := (C74_supported _ _ _).mp h
    exact ⟨e, h2, h3.trans (List.mem_singleton.mp h1)⟩
  · rintro ⟨e, h1, h2⟩
    exact ⟨ext, (C74_supported _ _ _).mpr ⟨by simp, e, h1, h2⟩⟩

/-- C73: a graph's file is accepted exactly with the extension `fmi`, edges exactly with `csv`, workloads exactly with
`csv` if the graph has a column of edge-ids, and paths always. All are written to their configured paths. -/
theorem C73_accepted (c : Fmi.Codec) (net : Net) (path : Text) (w : Fmi.WriteCfg) (cfg : EdgesCfg) (loads : List Nat)
    (paths : List Path) :
    (graphOutput c path w).path = path ∧ (edgesOutput c cfg).path = cfg.path ∧
    (loadsOutput cfg path loads).path = path ∧ (pathsOutput path paths).path = path ∧
    ((graphOutput c path w).accepts net = true ↔ PathWith path "fmi".toList) ∧
    ((edgesOutput c cfg).accepts net = true ↔ PathWith cfg.path "csv".toList) ∧
    ((loadsOutput cfg path loads).accepts net = true ↔
      PathWith path "csv".toList ∧ ∃ id, .info .edgeId id ∈ net.edges.cats) ∧
    (pathsOutput path paths).accepts net = true := by
  refine ⟨rfl, rfl, rfl, rfl, ?_, ?_, ?_, rfl⟩
  · rw [pathWith_iff, ← supported_one]
    show decide (fromPath ["fmi".toList] (fileName path) = some .fmi) = true ↔ _
    rw [decide_eq_true_iff]
    unfold fromPath
    cases h : findSupported ["fmi".toList] (fileName path) with
    | none => simp
    | some s =>
      obtain rfl : s = "fmi".toList := by simpa using ((C74_supported _ _ _).mp h).1
      simp
  · rw [pathWith_iff, ← supported_one]
    rfl
  · rw [pathWith_iff, ← supported_one]
    show ((edgeIdName net).isSome && (findSupported ["csv".toList] (fileName path)).isSome) = true ↔ _
    rw [Bool.and_eq_true, and_comm]
    refine and_congr_right fun _ => ?_
    unfold edgeIdName
    rw [List.findSome?_isSome_iff]
    constructor
    · rintro ⟨x, hx, h⟩
      split at h
      · exact ⟨_, hx⟩
      · simp at h
    · rintro ⟨id, h⟩
      exact ⟨_, h, rfl⟩

/-- The sample's paths are accepted. -/
example : PathWith "out/graph.FMI".toList "fmi".toList :=
  ⟨"out/".toList, "graph.FMI".toList, "FMI".toList, by decide, .inr ⟨"out".toList, by decide⟩, by decide,
    ⟨by decide, by decide, "graph".toList, by decide, by decide⟩, by decide⟩

end Verif.Tool
