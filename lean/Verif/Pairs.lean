import Verif.Export

/-!
# Writing route-pairs according to a yaml-document

Model of the parts of `src/bin/osmgraphing/mod.rs` that lead from a document to written route-pairs.
-/

namespace Verif.Session

open Text Gen
open Yml (Yaml)

/-- `src/io/writing/routing/random_or_all.rs:107-112`: the writer gives the routing-config to a Dijkstra unchanged, also
if it asks for the explorator. -/
def writerAlgo : Yml.Algo → Dij.Algo
  | .dijkstra => .dijkstra
  | .chDijkstra => .chDijkstra
  | .explorator _ => .explorator

section
variable {K : Type} [LinearOrder K] [Zero K] [Add K] (w : World K)

/-- `src/io/writing/routing/mod.rs:9-27`, `src/io/writing/routing/random_or_all.rs:20-62`: the writer of a document.
`draws seed n` are the pairs that `Pcg32` with this seed draws from `0..n`. -/
def pairsEnv (draws : Nat → Nat → Nat → Nat × Nat) (fuel : Nat) (g : Graph) (rc : Yml.RoutingCfg) (o : Yml.RoutePairs) :
    Routes.Env K where
  heap := w.heap
  dotp := w.dotp
  fuel := fuel
  graph := g
  algo := writerAlgo rc.algo
  alphas := rc.routing.alphas
  maxCount := o.maxCount
  draws := draws o.seed g.nodeCount

/-- The tool, started with these files, works with this document: `src/bin/osmgraphing/mod.rs:65-88` (`parse`), 141-167
(`pairs`), 170-178 (`route`). The writer doesn't check the extension of its file. Simplification: nothing is said about
routing-configs that panic. -/
structure RoutesWith (draws : Nat → Nat → Nat → Nat × Nat) (doc : Yaml) (d : Tool.Disk) (t : Tool.World) : Prop where
  parse : t.parse d = Fmi.mapErr (fun _ => ⟨⟩) (load { w with text := d } doc)
  refuses : ∀ net e, load { w with text := d } doc = .ok net → Yml.routing w.numbers net.edges doc = .err e →
    t.routePairs net = none
  pairs : ∀ mapFile cfg net rc, Yml.parsing w.numbers d doc = some (mapFile, cfg) →
    loadMap { w with text := d } mapFile cfg = .ok net → Yml.routing w.numbers net.edges doc = .ok rc →
    (Yml.routePairs w.numbers doc = none → t.routePairs net = none) ∧
    ∀ o, Yml.routePairs w.numbers doc = some o → ∃ out, t.routePairs net = some out ∧ out.path = o.file ∧
      out.accepts net = true ∧ ∀ f fuel r, (pairsEnv w draws f net.graph rc o).write fuel mapFile o.seed = some r →
        Fmi.mapErr (fun _ => ()) (out.text net) = Fmi.mapErr (fun _ => ()) r
  route : ∀ net d' r N, load { w with text := d } doc = .ok net →
    (∀ fuel, N ≤ fuel → (route { w with text := d' } fuel doc net).2 = some r) →
    t.route net d' = Fmi.mapErr (fun _ => ⟨⟩) r

end

end Verif.Session
