import Verif.MapName
import Verif.ToolProps

/-!
# C120: names of maps
-/

namespace Verif.MapName

open Tool (extension)

theorem bytes_ascii {a : Text} (ha : ∀ c ∈ a, c.utf8Size = 1) (b : Text) : bytes a.length (a ++ b) = .ok a := by
  induction a with
  | nil => rw [List.length_nil, bytes]
  | cons c a ih =>
    have hc := ha c (by simp)
    rw [List.length_cons, List.cons_append, bytes, if_pos (by omega), hc, Nat.add_sub_cancel,
      ih (fun x hx => ha x (by simp [hx]))]
    rfl

theorem findIdx_dot {a : Text} (ha : '.' ∉ a) (b : Text) : (a ++ '.' :: b).findIdx? (· = '.') = some a.length := by
  induction a with
  | nil => rw [List.nil_append, List.findIdx?_cons, if_pos (by simp)]; rfl
  | cons c a ih =>
    have hc : c ≠ '.' := fun h => ha (by simp [h])
    rw [List.cons_append, List.findIdx?_cons, if_neg (by simpa using hc), ih (fun h => ha (by simp [h]))]
    simp

theorem findIdx_none {a : Text} (ha : '.' ∉ a) : a.findIdx? (· = '.') = none := by
  rw [List.findIdx?_eq_none_iff]
  intro x hx
  simp only [decide_eq_false_iff_not]
  rintro rfl
  exact ha hx

theorem stem_of {a c : Text} (hc : '.' ∉ c) (ha : a ≠ []) (hd : a ++ '.' :: c ≠ "..".toList) :
    stem (a ++ '.' :: c) = a := by
  have h : extension (a ++ '.' :: c) = some c := (Tool.C74_extension _ _).mpr ⟨hd, hc, a, ha, rfl⟩
  unfold stem
  rw [h]
  simp

/-- C120: the names of maps with generic names are those of their directories. Without directory, there is a panic. -/
theorem C120_generic {rest ext : Text} (he : '.' ∉ ext) (dir : Text) :
    mapName (some dir) (some ("graph".toList ++ rest ++ '.' :: ext)) = .ok dir ∧
      mapName none (some ("graph".toList ++ rest ++ '.' :: ext)) = .panic := by
  have h := stem_of (a := "graph".toList ++ rest) he (by simp) (by simp)
  have hp : ("graph".toList.isPrefixOf ("graph".toList ++ rest)) = true := by simp
  unfold mapName
  simp only [h, hp, if_true, and_self]

/-- C120: for names with at least two extensions, the name of the map is what precedes the first dot. Partial: it must
consist of ascii-characters. -/
theorem C120_extensions_partial {a b ext : Text} {dir : Option Text} (ha : '.' ∉ a) (he : '.' ∉ ext)
    (hg : ¬ "graph".toList <+: a ++ '.' :: b) (hascii : ∀ c ∈ a, c.utf8Size = 1) :
    mapName dir (some ((a ++ '.' :: b) ++ '.' :: ext)) = .ok a := by
  by_cases hd : (a ++ '.' :: b) ++ '.' :: ext = "..".toList
  · have hl := congrArg List.length hd
    simp only [List.length_append, List.length_cons, String.length_toList] at hl
    have hl2 : ("..".length) = 2 := by decide
    rw [hl2] at hl
    obtain rfl : a = [] := List.length_eq_zero_iff.mp (by omega)
    obtain rfl : b = [] := List.length_eq_zero_iff.mp (by omega)
    obtain rfl : ext = [] := List.length_eq_zero_iff.mp (by omega)
    have hs : stem "..".toList = "..".toList := by decide +kernel
    have hp : "graph".toList.isPrefixOf "..".toList = false := by decide +kernel
    have hi : ("..".toList).findIdx? (· = '.') = some 0 := by decide +kernel
    rw [hd]
    unfold mapName
    simp only [hs, hp, hi, Bool.false_eq_true, if_false, bytes]
  · have h := stem_of (a := a ++ '.' :: b) he (by simp) hd
    have hp : ("graph".toList.isPrefixOf (a ++ '.' :: b)) = false := by
      rw [← Bool.not_eq_true, List.isPrefixOf_iff_prefix]
      exact hg
    unfold mapName
    simp only [h, hp, Bool.false_eq_true, if_false, findIdx_dot ha, bytes_ascii hascii]

/-- C120 is false for other characters, since they have more than one byte: characters are missing from or left in the
name, or there is a panic. -/
theorem C120_false_unicode :
    mapName none (some "köln.osm.pbf".toList) = .ok "köl".toList ∧
    mapName none (some "ö.osm.pbf".toList) = .panic := by
  decide +kernel

/-- C120 is false for names with one extension, as that of every fmi-file: always a panic. -/
theorem C120_false_one_extension {a ext : Text} {dir : Option Text} (ha : '.' ∉ a) (hne : a ≠ []) (he : '.' ∉ ext)
    (hg : ¬ "graph".toList <+: a) : mapName dir (some (a ++ '.' :: ext)) = .panic := by
  have h := stem_of (a := a) he hne (by
    intro hd
    cases a with
    | nil => exact hne rfl
    | cons c a =>
      have : c = '.' := by
        have := congrArg List.head? hd
        simpa using this
      exact ha (by simp [this]))
  have hp : ("graph".toList.isPrefixOf a) = false := by
    rw [← Bool.not_eq_true, List.isPrefixOf_iff_prefix]
    exact hg
  unfold mapName
  simp only [h, hp, Bool.false_eq_true, if_false, findIdx_none ha]

/-- Names for which the theorems apply. -/
example : mapName (some "isle-of-man".toList) (some "graph.fmi".toList) = .ok "isle-of-man".toList ∧
    mapName none (some "isle-of-man.osm.pbf".toList) = .ok "isle-of-man".toList ∧
    mapName none (some "isle-of-man.fmi".toList) = .panic ∧
    mapName none none = .err .noFile := by
  decide +kernel

/-- The conditions of the theorems hold for these names. -/
example : '.' ∉ "isle-of-man".toList ∧ '.' ∉ "pbf".toList ∧ ¬ "graph".toList <+: "isle-of-man".toList ++ '.' :: "osm".toList ∧
    (∀ c ∈ "isle-of-man".toList, c.utf8Size = 1) ∧ ¬ "graph".toList <+: "isle-of-man".toList := by
  decide +kernel

end Verif.MapName
