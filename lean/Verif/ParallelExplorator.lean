import Verif.Parallel
import Verif.Explorating

/-!
# Model of the workers that use the explorator

`src/bin/osmgraphing/balancing/multithreading.rs:486-536` `work_off_with_explorator`.
-/

namespace Verif.Par

/-- The random numbers of a worker: `Pcg32::seed_from_u64` (490) and `Uniform::from(0..n)` with `sample`
(517, 519). Nothing is assumed about them here. -/
structure Die where
  State : Type
  seed : Nat → State
  sample : Nat → State → Nat × State

section
variable (die : Die)

/-- `src/bin/osmgraphing/balancing/multithreading.rs:517-522`: choose `count` times one of the found
paths. -/
def choosePaths (found : List Path) : Nat → die.State → R (List Path × die.State)
  | 0, r => .ok ([], r)
  | k + 1, r => do
    let x := die.sample found.length r
    let p ← .ofIdx found[x.1]?
    let (ps, r) ← choosePaths found k x.2
    pure (p :: ps, r)

/-- `src/bin/osmgraphing/balancing/multithreading.rs:510-525`: what is pushed for the found paths. -/
def pushFound (count : Nat) (found : List Path) (r : die.State) (o : Outcome) : R (Outcome × die.State) :=
  if found.length > 0 then do
    let (ps, r) ← choosePaths die found count r
    pure ({ o with chosen := o.chosen ++ ps, found := o.found ++ [found.length] }, r)
  else .ok ({ o with found := o.found ++ [found.length] }, r)

variable (h : Dij.Heap ℚ) (b : Exp.Backend) (g : Graph) (algo : Dij.Algo) (alphas : List ℚ)
  (scales : List (Option ℚ)) (fuel : Nat)

/-- `src/bin/osmgraphing/balancing/multithreading.rs:495-526`: the loop over the route-pairs. `algo` is
the explorator's algorithm, which replaces the algorithm of the routing-config (492-493). Takes fuel for
the explorator. -/
def exploratorJobs : List Job → Dij.St ℚ → die.State → Outcome → Option (R (Dij.St ℚ × Outcome))
  | [], s, _, o => some (.ok (s, o))
  | j :: js, s, r, o =>
    match nodeIdxOf g j.src, nodeIdxOf g j.dst with
    | .ok src, .ok dst =>
      match Exp.fullyExplorate h dot b fuel s (jobQuery g algo alphas src dst) scales with
      | none => none
      | some (.ok (s, found)) =>
        match pushFound die j.count found r o with
        | .ok (o, r) => exploratorJobs js s r o
        | _ => some .panic
      | some _ => some .panic
    | _, _ => some .panic

/-- `src/bin/osmgraphing/balancing/multithreading.rs:486-536` `work_off_with_explorator`. -/
def exploratorWork (s : Dij.St ℚ) (w : Work) : Option (R (Dij.St ℚ × Outcome)) :=
  exploratorJobs die h b g algo alphas scales fuel w.jobs s (die.seed w.seed)
    { chosen := [], found := [], pairs := w.jobs.length }

end

end Verif.Par
