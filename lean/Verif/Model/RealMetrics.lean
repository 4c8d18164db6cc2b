import Mathlib.Analysis.SpecialFunctions.Log.Base
import Mathlib.Analysis.SpecialFunctions.Complex.Arg

/-!
# Real-valued metrics of `rubin_sim/maf/metrics/simple_metrics.py`

Coadded depth and directional statistics over the real numbers. Unit vectors
(cos, sin) are complex numbers of modulus one; `np.hypot` is the modulus and
`np.arctan2(y, x)` the argument of `x + iy`.
-/

namespace Verif.RealMetrics

open Real

/-- `Coaddm5Metric.coadd`, `simple_metrics.py:99-101`, on a non-empty list (for the empty
list numpy gives minus infinity, see `coaddRun`). -/
noncomputable def coadd (m5s : List ℝ) : ℝ :=
  1.25 * logb 10 (m5s.map (fun m => (10 : ℝ) ^ (0.8 * m))).sum

/-- Results of `Coaddm5Metric.run`. -/
inductive Depth
  | badval
  | negInf
  | mag (m : ℝ)

/-- `Coaddm5Metric.run`, `simple_metrics.py:103-111`; visits are (filter, m5) pairs. -/
noncomputable def coaddRun (filterName : Option String) (visits : List (String × ℝ)) : Depth :=
  if visits.length = 0 then .badval
  else
    let m5s := match filterName with
      | some f => (visits.filter (fun v => v.1 = f)).map Prod.snd
      | none => visits.map Prod.snd
    match m5s with
    | [] => .negInf
    | _ => .mag (coadd m5s)

/-- Mean unit vector of angles given in radians. -/
noncomputable def meanVec (angles : List ℝ) : ℂ :=
  (angles.map (fun a : ℝ => Complex.exp (a * Complex.I))).sum / (angles.length : ℂ)

/-- `AngularSpreadMetric.run`, `simple_metrics.py:534-542`. -/
noncomputable def angularSpread (period : ℝ) (data : List ℝ) : ℝ :=
  1 - ‖meanVec (data.map (fun a => a * 2 * π / period))‖

/-- `x % y` -/
noncomputable def rmod (x y : ℝ) : ℝ := x - y * ⌊x / y⌋

/-- `MeanAngleMetric.run`, `simple_metrics.py:464-479`, with angles in radians. -/
noncomputable def meanAngle (angles : List ℝ) : ℝ :=
  let v := meanVec angles
  if ‖v‖ < 0.1 then π else rmod v.arg (2 * π)

end Verif.RealMetrics
