import Verif.Parallel
import Verif.RouteSpec
import Mathlib.Data.List.Count

/-!
# What is expected of the parallel balancer

Specification only.
-/

namespace Verif.Par

/-- The mean of a list of numbers (zero for no numbers). -/
def mean (l : List ℚ) : ℚ := l.sum / l.length

/-- The variance of a list of numbers: the mean of the squared distances to the mean. -/
def variance (l : List ℚ) : ℚ := mean (l.map fun x => (x - mean l) ^ 2)

/-- What comes out for one route-pair: the paths that are chosen, and the numbers of found paths that
are reported. -/
structure Result where
  chosen : List Path
  found : List Nat

/-- All results of a list of route-pairs with their results. -/
def allChosen (l : List (Job × Result)) : List Path := l.flatMap fun x => x.2.chosen

/-- All reported numbers of found paths. -/
def allFound (l : List (Job × Result)) : List Nat := l.flatMap fun x => x.2.found

/-- A worker that does not fail on the route-pairs `jobs`: as long as its state is `Ok`, every chunk of
them is answered, and the outcome consists of a possible result (`Rel`) for each of its route-pairs. -/
structure Reliable {σ : Type} (process : σ → Work → Option (R (σ × Outcome))) (jobs : List Job)
    (Ok : σ → Prop) (Rel : Job → Result → Prop) : Prop where
  answers : ∀ s w, Ok s → (∀ j ∈ w.jobs, j ∈ jobs) → ∃ s' o l, process s w = some (.ok (s', o)) ∧ Ok s' ∧
    l.map Prod.fst = w.jobs ∧ (∀ x ∈ l, Rel x.1 x.2) ∧
    o = { chosen := allChosen l, found := allFound l, pairs := l.length }

/-- Every path that may be chosen can be flattened with this fuel to edges of the graph. -/
def Flattens (g : Graph) (fuel : Nat) (Rel : Job → Result → Prop) : Prop :=
  ∀ j r, Rel j r → ∀ p ∈ r.chosen, ∃ q, Path.flatten g fuel p = some (.ok q) ∧
    ∀ e ∈ q.edges, e < g.edgeCount

/-- `qs` are the flattened paths of `ps`. -/
def Flat (g : Graph) (fuel : Nat) (ps qs : List Path) : Prop :=
  List.Forall₂ (fun p q => Path.flatten g fuel p = some (.ok q)) ps qs

/-- How often an edge occurs in some paths. -/
def occurrences (e : Nat) (qs : List Path) : Nat := (qs.map fun q => q.edges.count e).sum

/-- What a new router answers, given enough time. -/
def RouterAnswers (h : Dij.Heap ℚ) (q : Dij.Query ℚ) (ans : Option Path) : Prop :=
  ∃ fuel s', Dij.computeBestPath h dot fuel Dij.St.new q = some (.ok (s', ans))

/-- What a path is flattened to, given enough time. -/
def FlattensTo (g : Graph) (p q : Path) : Prop := ∃ fuel, Path.flatten g fuel p = some (.ok q)

/-- `l` are the edges of the flattened route of a route-pair; none, if there is no route. -/
def JobEdges (h : Dij.Heap ℚ) (g : Graph) (algo : Dij.Algo) (alphas : List ℚ) (j : Job)
    (l : List Nat) : Prop :=
  ∃ src dst ans, g.nodeIds[src]? = some j.src ∧ g.nodeIds[dst]? = some j.dst ∧
    RouterAnswers h { src, dst, graph := g, algo, alphas } ans ∧
    (ans = none ∧ l = [] ∨ ∃ p q, ans = some p ∧ FlattensTo g p q ∧ l = q.edges)

end Verif.Par
