import Verif.Model.MoSummary
import Verif.Model.RealMetrics
import Verif.Model.NumpyMore
import Mathlib.Analysis.SpecialFunctions.Pow.Real
import Mathlib.Analysis.SpecialFunctions.Log.Base
import Mathlib.Analysis.Real.Pi.Bounds

/-!
# Model of the crowding of stars

`rubin_sim/maf/metrics/crowding_metric.py`, `star_density.py`. Numbers are real; the maps of stars are two lists, the
magnitudes of the bins without the first edge and the cumulative numbers of stars. -/

namespace Verif.Crowd

open Real

/-- Flux of a star, `crowding_metric.py:44`. -/
noncomputable def lum (m : ℝ) : ℝ := (10 : ℝ) ^ (-0.4 * m)

/-- The coefficient of the error, `crowding_metric.py:43-45`. -/
noncomputable def coeff (seeing : ℝ) : ℝ := √(π / (3600 : ℝ) ^ 2) * seeing / 2

/-- The errors before the coefficient, `crowding_metric.py:41-47`: running sums from the faint end. -/
noncomputable def temp (mags lumf : List ℝ) : List ℝ :=
  let d := Np.diff lumf
  let m := mags.tail
  let l := m.map lum
  let s := (MoSum.cumsum (List.zipWith (fun l d => l ^ 2 * d) l d).reverse).reverse
  List.zipWith (fun s l => √s / l) s l

/-- `_comp_crowd_error` without a magnitude, `crowding_metric.py:12-52`. -/
noncomputable def crowdErr (mags lumf : List ℝ) (seeing : ℝ) : List ℝ := (temp mags lumf).map (fun t => coeff seeing * t)

/-- `interp1d`: linear between the points, an exception outside. -/
noncomputable def interp1d (pts : List (ℝ × ℝ)) (x : ℝ) : Except String ℝ :=
  open Classical in
  match pts with
  | [] => .error "ValueError"
  | p :: l => if p.1 ≤ x ∧ x ≤ ((p :: l).getLast (by simp)).1 then .ok (MoSum.interp (p :: l) x) else .error "ValueError"

/-- `_comp_crowd_error` at a magnitude, `crowding_metric.py:48-52`. -/
noncomputable def crowdErrAt (mags lumf : List ℝ) (seeing m : ℝ) : Except String ℝ :=
  match interp1d (mags.tail.zip (temp mags lumf)) m with
  | .ok t => .ok (coeff seeing * t)
  | .error e => .error e

/-- `CrowdingM5Metric.run`, `crowding_metric.py:98-117`, from the errors; nothing for an empty map. -/
noncomputable def crowdMag (limit : ℝ) (mags errs : List ℝ) : Option ℝ :=
  open Classical in
  match errs.findIdx? (fun e => decide (limit ≤ e)) with
  | none => mags.max?
  | some k => mags[k - 1]?

/-- `CrowdingM5Metric.run`; nothing (an exception) without visits. -/
noncomputable def crowdM5 (limit : ℝ) (mags lumf seeings : List ℝ) : Option ℝ :=
  seeings.min?.bind (fun s => crowdMag limit mags (crowdErr mags lumf s))

/-- The depth at which the error is reached, `crowding_metric.py:189-190`. -/
noncomputable def magLimit (limit : ℝ) (m5s : List ℝ) : ℝ := -2.5 * logb 10 (1 / (limit * (1.09 * 5))) + RealMetrics.coadd m5s

/-- `NstarsMetric.run`, `crowding_metric.py:168-208`. A visit is its seeing and depth. -/
noncomputable def nstars (ignore : Bool) (limit area : ℝ) (mags lumf : List ℝ) (visits : List (ℝ × ℝ)) : Option ℝ :=
  (crowdM5 limit mags lumf (visits.map Prod.fst)).map (fun c =>
    let l := magLimit limit (visits.map Prod.snd)
    let m := if ignore then l else min c l
    MoSum.interp (mags.zip lumf) m * area)

/-- `CrowdingMagUncertMetric.run`, `crowding_metric.py:242-255`. -/
noncomputable def magUncert (rmag : ℝ) (mags lumf seeings : List ℝ) : Except String ℝ :=
  match seeings.min? with
  | none => .error "ValueError"
  | some s => crowdErrAt mags lumf s rmag

/-- `StarDensityMetric.run`, `star_density.py:62-77`. -/
noncomputable def starDensity (badval limit : ℝ) (mags lumf : List ℝ) : ℝ :=
  match interp1d (mags.zip lumf) limit with
  | .ok r => r / (3600 : ℝ) ^ 2
  | .error _ => badval

end Verif.Crowd
