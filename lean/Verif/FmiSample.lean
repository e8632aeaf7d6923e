import Verif.FmiLemmas3
import Verif.RebuildProps
import Verif.GeneratingProps

/-!
# A sample for the properties of fmi-files

A text for rational numbers that can be read back exactly (`numerator/denominator`), and the sample graph with a
configuration for all of its data.
-/

namespace Verif.Fmi

open Cfg Text
open Build (ProtoEdge ProtoNode)
open Gen (Net value)

def readInt (t : Text) : Option Int :=
  match t with
  | '-' :: t => (digits? t).map fun n => -(n : Int)
  | t => (digits? t).map fun n => (n : Int)

def exCodec : Codec where
  parseF t := (readInt (t.takeWhile (· ≠ '/'))).bind fun n =>
    (digits? ((t.dropWhile (· ≠ '/')).drop 1)).map fun d => mkRat n d
  printF x := printInt x.num ++ '/' :: printNat x.den
  debug ts := join ',' ts

theorem readInt_printInt (i : Int) : readInt (printInt i) = some i := by
  cases i with
  | ofNat n =>
    show readInt (printNat n) = _
    unfold readInt
    split
    · rename_i t heq
      have := printNat_digits (n := n) (c := '-') (by rw [heq]; simp)
      exact absurd this.1 (by decide)
    · rw [digits?_printNat]; rfl
  | negSucc n =>
    show readInt ('-' :: printNat (n + 1)) = _
    simp only [readInt, digits?_printNat]
    rfl

theorem printInt_noSlash {i : Int} {c : Char} (h : c ∈ printInt i) : c ≠ '/' := by
  rintro rfl
  cases i with
  | ofNat n => exact absurd (printNat_digits h).1 (by decide)
  | negSucc n =>
    rcases List.mem_cons.mp h with h | h
    · exact absurd h (by decide)
    · exact absurd (printNat_digits h).1 (by decide)

theorem exCodec_exact (x : ℚ) : exCodec.Exact x := by
  refine ⟨?_, ⟨by simp [exCodec], ?_⟩, ?_⟩
  · have h1 : (printInt x.num ++ '/' :: printNat x.den).takeWhile (· ≠ '/') = printInt x.num := by
      rw [List.takeWhile_append_of_pos (by intro c hc; simpa using printInt_noSlash hc)]
      simp
    have h2 : ((printInt x.num ++ '/' :: printNat x.den).dropWhile (· ≠ '/')).drop 1 = printNat x.den := by
      rw [List.dropWhile_append_of_pos (by intro c hc; simpa using printInt_noSlash hc)]
      simp
    simp only [exCodec, h1, h2, readInt_printInt, digits?_printNat, Option.bind_some, Option.map_some, Option.some.injEq]
    exact Rat.mkRat_self x
  · intro c hc
    simp only [exCodec, List.mem_append, List.mem_cons] at hc
    rcases hc with h | rfl | h
    · exact printInt_noWs h
    · decide
    · exact printNat_noWs h
  · have := printInt_head x.num
    have hne := printInt_ne_nil x.num
    simp only [exCodec]
    cases h : printInt x.num with
    | nil => exact absurd h hne
    | cons a t => rw [h] at this; exact this

def exEdgeCats : List EdgeCat :=
  [.info .edgeId "id".toList, .info .srcId "src".toList, .info .dstId "dst".toList, .metric .kilometers "km".toList,
    .info .shortcutIdx0 "sc0".toList, .info .shortcutIdx1 "sc1".toList]

def exNodeCats : List NodeCat :=
  [.info .nodeId "node".toList, .metric .latitude "lat".toList, .metric .longitude "lon".toList,
    .info .chLevel "level".toList]

/-- The sample graph with a configuration for all data. -/
def exNet : Net :=
  { graph := Build.exGraph
    nodes := exNodeCats
    edges := { cats := exEdgeCats, normalized := false, units := [.kilometers], ids := ["km".toList] } }

theorem exNet_edges : Edges.tryFrom exEdgeCats false = .ok exNet.edges := by decide +kernel

theorem exNet_consistent : Gen.Consistent exNet :=
  Gen.C54_start exNet_edges (es := Build.exEdges) (ns := Build.exNodes) Build.ex_build (by decide +kernel) _

theorem exNet_wellFormed : exNet.graph.WellFormed := Build.built_wellFormed Build.ex_build

theorem all_of_getElem? {α : Type} {l : List α} {P : α → Prop} (h : ∀ a ∈ l, P a) {i : Nat} {a : α} {ε : Type}
    (hi : (Res.ofIdx l[i]? : Res ε α) = .ok a) : P a :=
  h a (List.mem_of_getElem? (Res.ofIdx_eq_ok.mp hi))

theorem exNet_printable (d : Bool) : Printable exCodec exNet d where
  nodeCount := by decide +kernel
  edgeCount := by decide +kernel
  dim := by decide +kernel
  nodeId := fun i id h => all_of_getElem? (P := fun id => -(maxI64 : Int) - 1 ≤ id ∧ id ≤ maxI64)
    (l := Build.exGraph.nodeIds) (by decide +kernel) h
  level := fun i lv h => all_of_getElem? (P := fun lv => lv ≤ maxUsize)
    (l := Build.exGraph.nodeLevels) (by decide +kernel) h
  coord := fun i x h => ⟨exCodec_exact _, exCodec_exact _⟩
  edgeId := fun e id h => all_of_getElem? (P := fun o => ∀ id, o = some id → id ≤ maxUsize)
    (l := Build.exGraph.edgeIds) (by
      intro o ho id hid
      have hid' : id ∈ Build.exGraph.edgeIds.filterMap fun o => o := List.mem_filterMap.mpr ⟨o, ho, hid⟩
      revert id
      have : ∀ id ∈ Build.exGraph.edgeIds.filterMap (fun o => o), id ≤ maxUsize := by decide +kernel
      exact fun id _ h => this id h) h id rfl
  sc := fun e p h => by
    have := Build.C09_in_range Build.ex_build h
    have h4 : Build.exGraph.edgeCount = 4 := by decide +kernel
    have hm : 4 ≤ maxUsize := by decide +kernel
    rw [h4] at this
    omega
  metrics := fun e k y h => exCodec_exact y

end Verif.Fmi
