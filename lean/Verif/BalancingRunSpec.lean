import Verif.BalancingRun
import Verif.BalancingSpec

/-!
# What is expected of the balancer's iterations

Specification only.
-/

namespace Verif.Bal

open Gen

/-- Iteration `i` turns `net` into `net'`, and the state `s` into `s'`: `net` is written and contracted, the contracted
graph `ch` is simulated with `alphas`, and its metric is updated with the resulting workloads. The first iteration works
without the new metric: with one dimension less, and with alpha zero for it. -/
structure Iterates (w : World) (cfg : RunConfig) (i : Nat) (net ch net' : Net) (s s' : w.State) (dim : Nat)
    (alphas : List ℚ) (loads : List Nat) : Prop where
  dimension : dim + (if i = 0 then 1 else 0) = cfg.dim
  steps : ∃ s1 s2 s3 al paths, w.write i net s = (.ok ⟨⟩, s1) ∧ w.contract i dim s1 = (.ok ⟨⟩, s2) ∧
    w.read i s2 = .ok ch ∧ w.alphas ch s2 = .ok al ∧
    (alphas.length = al.length ∧ ∀ j : Nat, alphas[j]? = al[j]? ∨
      i = 0 ∧ ch.edges.ids[j]? = some cfg.update.metricId ∧ alphas[j]? = some 0) ∧
    w.simulate i ch alphas s2 = (.ok (loads, paths), s3) ∧ w.stats i loads paths net' s3 = (.ok ⟨⟩, s')
  first : i = 0 → ∃ j : Nat, ch.edges.ids[j]? = some cfg.update.metricId ∧ alphas[j]? = some 0
  updated : ∃ d, update i loads ch cfg.update = (.ok d, net')

/-- What is observed of the iterations from `i` on, leading from `net` to `net'`. -/
inductive History (w : World) (cfg : RunConfig) : Nat → Net → w.State → List Event → Nat → Net → w.State → Prop
  | nil (i : Nat) (net : Net) (s : w.State) : History w cfg i net s [] i net s
  | cons {i j : Nat} {net ch net' net'' : Net} {s s' s'' : w.State} {dim : Nat} {alphas : List ℚ} {loads : List Nat}
      {es : List Event} :
      Iterates w cfg i net ch net' s s' dim alphas loads → History w cfg (i + 1) net' s' es j net'' s'' →
      History w cfg i net s
        (.contracted i dim :: .simulated i ch alphas :: .updated i loads ch net' :: es) j net'' s''

/-- The stored graphs. -/
def storedOf (es : List Event) : List Net :=
  es.filterMap fun
    | .stored net => some net
    | _ => none

/-- The workloads of the iterations. -/
def loadsOf (es : List Event) : List (List Nat) :=
  es.filterMap fun
    | .updated _ loads _ _ => some loads
    | _ => none

/-- The iterations in which the metric has been updated. -/
def updatedOf (es : List Event) : List Nat :=
  es.filterMap fun
    | .updated i _ _ _ => some i
    | _ => none

/-- Writing, contracting and reading again yields the same graph, e.g. because nothing is contracted. -/
def World.Faithful (w : World) : Prop :=
  ∀ i dim net s s1 s2 net', w.write i net s = (.ok ⟨⟩, s1) → w.contract i dim s1 = (.ok ⟨⟩, s2) →
    w.read i s2 = .ok net' → net' = net

end Verif.Bal
