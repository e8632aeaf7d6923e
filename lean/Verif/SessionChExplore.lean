import Verif.SessionChProps

/-!
# The tool's explorator on maps with shortcuts (C92)
-/

namespace Verif.Session

open Text Cfg
open Dij (St computeBestPath Used codeHeap)
open Search (AddOk)
open Build (ProtoEdge ProtoNode build Chain)
open Yml (ParsingIn RoutingIn Writer Yaml)

variable {K : Type} [LinearOrder K] [Zero K] [Add K] {w : World K} {fuel : Nat} {wr : Writer} {doc : Yaml}
  {ip : ParsingIn} {ir : RoutingIn} {nodes edges pairs : List Text}

/-- The explorator above ch-dijkstra: its routes are lines from source to destination, shortcuts included. On a map that
is contracted for some weights, without limits and with a considered metric, `No path` is logged iff no lines lead from
source to destination. -/
theorem C92_explored {lv : Int → Nat} {al : List ℚ} (hs : Setting w wr doc ip ir nodes edges pairs)
    (halg : ir.algo = .explorator true) (hk : AddOk K)
    (hw : ∀ al m : List ℚ, (∀ x ∈ al, 0 ≤ x) → (∀ x ∈ m, 0 ≤ x) → 0 ≤ w.dotp al m) :
    ReportsOn (fun a b rep => ((∀ src dst, rep ≠ .nothing src dst) → Truthful w.codec ip edges a b rep) ∧
      (Levels ip.nodes nodes lv → ContractedLines w.codec ip.edges edges lv al →
        (∃ x ∈ alphas ip ir, 0 < x) → (∀ t ∈ tolerances ip ir, t = none) → Truthful w.codec ip edges a b rep))
      pairs (run w fuel doc) := by
  rcases run_cases hs with ⟨r, h1, h2⟩ | ⟨es, ns, g, rs, rc, h1, hns, h2, h3, h4, h5, h6, h7⟩
  · rw [h1]
    exact reportsOn_nothing (by simpa using h2)
  rw [h7, answers, h4, halg]
  dsimp only
  rw [h5, h6]
  refine reportsOn_of h3 explore_keeps ?_
  intro s a b rep s' x y hu hx hy hb
  have hwf := Build.built_wellFormed h2
  have hw' : ∀ al, (∀ x ∈ al, 0 ≤ x) → ∀ m ∈ g.metrics, 0 ≤ w.dotp al m :=
    fun al hal m hm => hw al m hal (Build.built_nonneg h2 m hm)
  obtain ⟨hd, hdim⟩ := dimOk_of h1 h2
  obtain ⟨hx1, hx2⟩ := intoNode_ok hwf hx
  obtain ⟨hy1, hy2⟩ := intoNode_ok hwf hy
  obtain ⟨ps, h8, ⟨rfl, rfl⟩ | ⟨h9, rfl⟩⟩ := explore_ok hb
  · refine ⟨fun h => absurd rfl (h a b), fun hlv hct ⟨v, hv, hv0⟩ ht => ⟨hx2, hy2, ?_⟩⟩
    rintro ⟨ms, hms⟩
    obtain ⟨rs, h10, h11, -⟩ := chain_of_connects h1 hms
    obtain ⟨l, -, hl, -⟩ := Build.route_of_chain (al := []) h2 h10 h11 hx1 hy1
    obtain ⟨i, hi⟩ := List.getElem?_of_mem hv
    have hi' : i < g.dim := by
      rw [hdim, ← alphas_length (ir := ir)]
      exact Build.lt_length_of_getElem? hi
    refine ((Exp.complete_of (q := { src := a.idx, dst := b.idx, graph := g, algo := .chDijkstra, alphas := alphas ip ir })
      hwf hk hd hw' (Build.nodeId_lt hx1) (Build.nodeId_lt hy1) hu ht hi' hi hv0 ?_ h8).mp rfl) ⟨l, hl⟩
    intro s2 s3 hu2 hc
    exact fun _ => (Build.C91_none_iff h2 hk (contracted_of_lines h1 hns h2 hlv hct)
      (hw' _ (Exp.unit_nonneg _ _)) (Exp.unit_nonneg _ _) hx1 hy1 hu2 hc).mp rfl ⟨rs, h10, h11⟩
  · have key : Truthful w.codec ip edges x y (.found a b ps) := by
      refine ⟨hx2, hy2, h9, fun p hp => ?_⟩
      obtain ⟨h10, -, -, -, -, cs, h11, h12⟩ := Exp.C46_route
        (q := { src := a.idx, dst := b.idx, graph := g, algo := .chDijkstra, alphas := alphas ip ir })
        hwf hk hd hw' (Build.nodeId_lt hx1) (Build.nodeId_lt hy1) hu h8 hp
      obtain ⟨rs, h13, h14, -, h15⟩ := Build.chain_of_route (al := []) h2 h10 hx1 hy1
      exact ⟨rs.map (·.metrics), cs, h11, connects_of_chain h1 h13 h14, sums_of h1 h2 h15 h13 h12⟩
    exact ⟨fun _ => key, fun _ _ _ _ => key⟩

/-! ## Sample -/

def climbIr : RoutingIn := { ringIr with algo := .explorator true }

def climbDoc : Yaml :=
  Yml.sectionOf [("parsing", ringIp.doc Yml.exWriter), ("routing", some (climbIr.doc Yml.exWriter))]

theorem climb_setting : Setting ringWorld Yml.exWriter climbDoc ringIp climbIr ringNodeLines ringEdgeLines ringPairs where
  writer := Yml.exFits
  parsing := by
    obtain ⟨y, hy⟩ : ∃ y, ringIp.doc Yml.exWriter = some y := ⟨_, by rfl⟩
    refine ⟨y, hy, ?_⟩
    unfold climbDoc
    rw [hy, Yml.sectionOf_eq, Yml.valuesAt_one, Yml.values_given]
    simp
  routing := by
    unfold climbDoc
    rw [Yml.sectionOf_eq, Yml.valuesAt_one, Yml.values_given]
    simp
  unique := ring_setting.unique
  known := by decide +kernel
  generating := rfl
  normalized := by decide
  fmi := ring_setting.fmi
  map := ring_setting.map
  pairs := ring_setting.pairs

/-- The hypotheses of `C92_explored` hold, and the tool finishes. -/
example : ReportsOn (fun a b rep => Truthful Fmi.exCodec ringIp ringEdgeLines a b rep) ringPairs
    (run ringWorld 60 climbDoc) := by
  obtain ⟨done, rest, h1, h2, h3⟩ := C92_explored (al := [1]) (lv := ringLevel) (fuel := 60) climb_setting rfl Search.addOk_rat
    (fun al m h1 h2 => Dij.dot_nonneg h1 h2)
  refine ⟨done, rest, h1, h2.imp fun line rep => ?_, h3⟩
  rintro ⟨a, b, h4, -, h5⟩
  exact ⟨a, b, h4, h5 ring_levels ring_lines (by decide +kernel) (by decide +kernel)⟩

example : (run ringWorld 60 climbDoc).1.length = 2 ∧ (run ringWorld 60 climbDoc).2 = some (.ok ⟨⟩) := by decide +kernel

end Verif.Session
