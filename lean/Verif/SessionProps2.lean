import Verif.Session
import Verif.ToolProps2

/-!
# C74: which files the tool reads
-/

namespace Verif.Session

open Text Gen
open Tool (PathWith pathWith_iff)

variable {K : Type} (w : World K)

theorem pairsExts_some (file : Text) : (Tool.findSupported pairsExts (Tool.fileName file)).isSome = true ↔
    PathWith file "route-pairs".toList := by
  rw [pathWith_iff]
  exact Tool.supported_one "route-pairs".toList (Tool.fileName file)

/-- C74: route-pairs are read exactly from files with the extension `route-pairs`, in whatever case. Other files are
refused, be they readable or not. -/
theorem C74_pairs (file : Text) :
    (∀ rs, readPairs w (some file) = .ok rs ↔
      PathWith file "route-pairs".toList ∧ ∃ lines, w.text file = some lines ∧ Routes.read lines = .ok rs) ∧
    (¬ PathWith file "route-pairs".toList → readPairs w (some file) = .err .pairs) := by
  rw [← pairsExts_some]
  unfold readPairs
  cases hs : Tool.findSupported pairsExts (Tool.fileName file) with
  | none => simp [hs]
  | some e =>
    cases ht : w.text file with
    | none => simp [hs, ht]
    | some lines =>
      cases h : Routes.read lines <;> simp [hs, ht, h]

/-- C74: a map is read only from files with the extension `fmi` or `pbf`, in whatever case. -/
theorem C74_maps (file : Text) (cfg : Cfg.Parsing) :
    ((∃ net, loadMap w file cfg = .ok net) → PathWith file "fmi".toList ∨ PathWith file "pbf".toList) ∧
    (¬ (PathWith file "fmi".toList ∨ PathWith file "pbf".toList) → loadMap w file cfg = .err .map) := by
  have h : ¬ (PathWith file "fmi".toList ∨ PathWith file "pbf".toList) → loadMap w file cfg = .err .map := by
    intro h
    have hn : Tool.fromPath Tool.parserExts (Tool.fileName file) = none := by
      cases hk : Tool.fromPath Tool.parserExts (Tool.fileName file) with
      | none => rfl
      | some k =>
        have := (Tool.C74_parser _ _).mp hk
        refine absurd ?_ h
        cases k with
        | fmi => exact .inl ((pathWith_iff _ _).mpr this)
        | pbf => exact .inr ((pathWith_iff _ _).mpr this)
    unfold loadMap
    rw [hn]
  refine ⟨?_, h⟩
  rintro ⟨net, hok⟩
  by_contra hc
  rw [h hc] at hok
  cases hok

example : PathWith "resources/small/fmi.route-pairs".toList "route-pairs".toList :=
  (pathWith_iff _ _).mpr ⟨"route-pairs".toList, (Tool.C74_extension _ _).mp (by decide), by decide⟩

example : ¬ PathWith "resources/small/route-pairs".toList "route-pairs".toList := by
  rw [← pairsExts_some]
  decide

end Verif.Session
