import Verif.ParallelExplorator
import Verif.ParallelSpec
import Verif.ExploratingHullSpec

/-!
# What is expected of the balancer with the explorator

Specification only.
-/

namespace Verif.Par

/-- A die that shows numbers in its range. -/
def Die.InRange (die : Die) : Prop := ∀ n r, 1 ≤ n → (die.sample n r).1 < n

/-- `routes` are the alternative routes that a new explorator finds for a route-pair, given enough
time. -/
def JobFinds (h : Dij.Heap ℚ) (b : Exp.Backend) (g : Graph) (algo : Dij.Algo) (alphas : List ℚ)
    (scales : List (Option ℚ)) (j : Job) (routes : List Path) : Prop :=
  ∃ src dst fuel s', g.nodeIds[src]? = some j.src ∧ g.nodeIds[dst]? = some j.dst ∧
    Exp.fullyExplorate h dot b fuel Dij.St.new { src, dst, graph := g, algo, alphas } scales =
      some (.ok (s', routes))

/-- `picked` are `count` flattened routes, repetitions are possible. There are none if there is no
route. -/
def Picks (g : Graph) (count : Nat) (routes picked : List Path) : Prop :=
  picked.length = (if routes = [] then 0 else count) ∧ ∀ q ∈ picked, ∃ p ∈ routes, FlattensTo g p q

end Verif.Par
