import Mathlib.Analysis.SpecialFunctions.Log.Basic

/-!
# Model: the colours of workloads

`TwoSlopeLoggedNorm` of `scripts/balancing/visualizer/visualizing/helpers.py`. Numbers are real numbers, one value is
mapped at a time, and both limits are given (the code takes the smallest and the largest value if they are missing).
A raised error is `none`.
-/

namespace Verif.Norm

/-- numpy's `interp` between two neighbouring points. -/
noncomputable def line (x0 y0 x1 y1 x : ℝ) : ℝ := y0 + (x - x0) / (x1 - x0) * (y1 - y0)

/-- numpy's `interp` with two points `x0 < x1`, used in
`scripts/balancing/visualizer/visualizing/helpers.py:77-78`. -/
noncomputable def interp2 (x0 y0 x1 y1 x : ℝ) : ℝ :=
  if x ≤ x0 then y0 else if x1 ≤ x then y1 else line x0 y0 x1 y1 x

/-- numpy's `interp` with three points `x0 < x1 < x2`, used in
`scripts/balancing/visualizer/visualizing/helpers.py:81-82`. -/
noncomputable def interp3 (x0 y0 x1 y1 x2 y2 x : ℝ) : ℝ :=
  if x ≤ x0 then y0
  else if x ≤ x1 then line x0 y0 x1 y1 x
  else if x2 ≤ x then y2
  else line x1 y1 x2 y2 x

/-- `scripts/balancing/visualizer/visualizing/helpers.py:7-18` `_check_inputs`: `none` is an error, otherwise the
centre. A centre at one of the limits is dropped. -/
noncomputable def checked (vmin : ℝ) (vcenter : Option ℝ) (vmax : ℝ) : Option (Option ℝ) :=
  if vmax < vmin then none
  else match vcenter with
    | none => some none
    | some c =>
      if c < vmin then none
      else if vmax < c then none
      else if ¬ c < vmax ∨ ¬ vmin < c then some none
      else some (some c)

/-- `scripts/balancing/visualizer/visualizing/helpers.py:87-98`. -/
noncomputable def logged (base v : ℝ) : ℝ :=
  if v > 0 then Real.log ((base - 1) * v + 1) / Real.log base
  else if v < 0 then -Real.log (-(base - 1) * v + 1) / Real.log base
  else v

/-- `scripts/balancing/visualizer/visualizing/helpers.py:41-105` `TwoSlopeLoggedNorm.__call__`. Simplification: for
`vmin = vmax`, numpy's behaviour is not modelled. -/
noncomputable def norm (base vmin : ℝ) (vcenter : Option ℝ) (vmax x : ℝ) : Option ℝ :=
  match checked vmin vcenter vmax with
  | none => none
  | some centre =>
    if ¬ base > 1 then none
    else match centre with
      | none => some (Real.log (interp2 vmin 1 vmax base x) / Real.log base)
      | some c => some (logged base (2 * interp3 vmin (-1) c 0 vmax 1 x) / 2 + 1 / 2)

end Verif.Norm
