import Mathlib.Analysis.SpecialFunctions.Pow.Real
import Mathlib.Analysis.SpecialFunctions.Trigonometric.Inverse
import Mathlib.Data.List.Dedup
import Verif.Model.RealMetrics
import Verif.Model.MoMetrics

/-!
# Astrometry

Models of `rubin_sim/maf/utils/astrometry_utils.py`, of
`rubin_sim/maf/metrics/calibration_metrics.py`, `dcr_metric.py`, `optimal_m5_metric.py` and
`snr_weight.py`, over the real numbers. Of floating point infinities only those are kept that
reach the result.
-/

namespace Verif.Astro

open Real

/-- `np.sum` of `f` over the visits. -/
noncomputable def total {α : Type*} (f : α → ℝ) (l : List α) : ℝ := (l.map f).sum

/-! ## Utilities -/

/-- `sigma_slope`, `astrometry_utils.py:26-32`, on pairs (x, sigma_y); `none` is NaN. -/
noncomputable def sigmaSlope (pts : List (ℝ × ℝ)) : Option ℝ :=
  let w : ℝ × ℝ → ℝ := fun p => 1 / p.2 ^ 2
  let denom := total w pts * total (fun p => w p * p.1 ^ 2) pts - total (fun p => w p * p.1) pts ^ 2
  if denom ≤ 0 then none else some (√(total w pts / denom))

/-- `m52snr`, `astrometry_utils.py:63-68`. -/
noncomputable def m52snr (gamma : Option ℝ) (m m5 : ℝ) : ℝ :=
  match gamma with
  | none => 5 * (10 : ℝ) ^ (-0.4 * (m - m5))
  | some g =>
    let x := (10 : ℝ) ^ (0.4 * (m - m5))
    1 / √((0.04 - g) * x + g * x * x)

/-- `astrom_precision`, `astrometry_utils.py:92`. -/
noncomputable def astromPrecision (fwhm snr floor : ℝ) : ℝ := √((fwhm / snr) ^ 2 + floor ^ 2)

/-! ## Visits -/

/-- The columns that the metrics of this file read. -/
structure Visit where
  band : String
  m5 : ℝ
  seeing : ℝ
  mjd : ℝ
  ra : ℝ
  dec : ℝ
  zd : ℝ
  pa : ℝ

/-- One pass of the loop over filters, `calibration_metrics.py:122-124`: visits in the filter
get their signal to noise, here for visits paired with the array. -/
noncomputable def snrStep (mags : String → ℝ) (l : List (Visit × ℝ)) (f : String) : List (Visit × ℝ) :=
  l.map (fun p => if p.1.band = f then (p.1, m52snr (some 0.04) (mags f) p.1.m5) else p)

/-- The loop, `calibration_metrics.py:120-124`, from an array of zeros. -/
noncomputable def snrLoop (mags : String → ℝ) (filters : List String) (vs : List Visit) : List (Visit × ℝ) :=
  filters.foldl (snrStep mags) (vs.map (fun v => (v, 0)))

/-- Position errors, `calibration_metrics.py:125`. -/
noncomputable def errors (mags : String → ℝ) (atm : ℝ) (vs : List Visit) : List (Visit × ℝ) :=
  (snrLoop mags (vs.map Visit.band).dedup vs).map (fun p => (p.1, astromPrecision p.1.seeing p.2 atm))

/-! ## Parallax -/

/-- `ParallaxMetric._final_sigma`, `calibration_metrics.py:104-114`, on (error, ra, dec);
`none` is infinity. Division by zero in line 110 gives infinity and so adds nothing in line
113; as zero is its own inverse here, the terms are the same. -/
noncomputable def finalSigma (l : List (ℝ × ℝ × ℝ)) : Option ℝ :=
  let sigmaRa := √(1 / total (fun p => 1 / (p.1 / p.2.1) ^ 2) l)
  let sigmaDec := √(1 / total (fun p => 1 / (p.1 / p.2.2) ^ 2) l)
  let s := 1 / sigmaRa ^ 2 + 1 / sigmaDec ^ 2
  if s = 0 then none else some (√(1 / s) * 1000)

/-- `ParallaxMetric.run` without normalisation, `calibration_metrics.py:116-126`. -/
noncomputable def parallax (mags : String → ℝ) (atm : ℝ) (vs : List Visit) : Option ℝ :=
  finalSigma ((errors mags atm vs).map (fun p => (p.2, p.1.ra, p.1.dec)))

/-- With normalisation, `calibration_metrics.py:127-138`; a number divided by infinity is
zero. -/
noncomputable def parallaxNorm (mags : String → ℝ) (atm : ℝ) (vs : List Visit) : Option ℝ :=
  (finalSigma ((errors mags atm vs).map (fun p => (p.2, p.1.ra * 0 + 1, p.1.dec * 0)))).map (fun best =>
    match parallax mags atm vs with
    | none => 0
    | some s => best / s)

/-! ## Proper motion -/

/-- The visits that are used and their errors, `calibration_metrics.py:242-254`: those in
filters with at least two visits. The bad value is taken to be none of the errors. -/
noncomputable def pmKept (mags : String → ℝ) (atm : ℝ) (vs : List Visit) : List (ℝ × ℝ) :=
  (vs.filter (fun v => decide (2 ≤ vs.countP (fun u => decide (u.band = v.band))))).map
    (fun v => (v.mjd, astromPrecision v.seeing (m52snr (some 0.04) (mags v.band) v.m5) atm))

/-- `calibration_metrics.py:255-256` -/
noncomputable def pm (pts : List (ℝ × ℝ)) : Option ℝ := (sigmaSlope pts).map (fun s => s * 365.25 * 1000)

/-- `calibration_metrics.py:258-260`: the first half of the visits at zero and the others at
the end of the baseline. -/
noncomputable def bestDates (baseline : ℝ) (pts : List (ℝ × ℝ)) : List (ℝ × ℝ) :=
  (pts.take (pts.length / 2)).map (fun p => (0, p.2)) ++ (pts.drop (pts.length / 2)).map (fun p => (baseline * 365.25, p.2))

/-- `calibration_metrics.py:257-265`, where NaN becomes the bad value `none`. -/
noncomputable def pmNorm (baseline : ℝ) (pts : List (ℝ × ℝ)) : Option ℝ :=
  match sigmaSlope (bestDates baseline pts), pm pts with
  | some b, some r => some (b * 365.25 * 1000 / r)
  | _, _ => none

/-- `ProperMotionMetric.run`, `calibration_metrics.py:241-265`. -/
noncomputable def properMotion (normalize : Bool) (baseline : ℝ) (mags : String → ℝ) (atm : ℝ) (vs : List Visit) : Option ℝ :=
  if normalize then pmNorm baseline (pmKept mags atm vs) else pm (pmKept mags atm vs)

/-! ## Coverage -/

/-- `np.average` with weights, of `f`. -/
noncomputable def average {α : Type*} (f w : α → ℝ) (l : List α) : ℝ := total (fun p => f p * w p) l / total w l

/-- `ParallaxCoverageMetric._weighted_r`, `calibration_metrics.py:390-395`, on
(weight, first, second). -/
noncomputable def weightedR (l : List (ℝ × ℝ × ℝ)) : ℝ :=
  let y0 := average (fun p => p.2.1) (fun p => p.1) l
  let x0 := average (fun p => p.2.2) (fun p => p.1) l
  average (fun p => √((p.2.2 - x0) ^ 2 + (p.2.1 - y0) ^ 2)) (fun p => p.1) l

/-- `x % y` of numpy, for `y` not zero. -/
noncomputable def fmod (x y : ℝ) : ℝ := x - y * (⌊x / y⌋ : ℝ)

/-- `theta - np.min(theta)`, then its largest value; `none` for an empty array. -/
noncomputable def spread (theta : List ℝ) : Option ℝ :=
  theta.min?.bind (fun a => (theta.map (fun t => t - a)).max?)

/-- `ParallaxCoverageMetric._theta_check`, `calibration_metrics.py:370-382`, on the angles of
the visits above the limit; `none` is the exception for no visits. In line 378 the product
with pi comes after the remainder. -/
noncomputable def thetaCheck (range : ℝ) (theta : List ℝ) : Option Bool :=
  match theta.min?, spread theta with
  | some a, some m =>
    if range ≤ m then
      (spread ((theta.map (fun t => t - a)).map (fun t => fmod (t + π) 2 * π))).map (fun m => decide (range ≤ m))
    else some false
  | _, _ => none

/-- What `ParallaxCoverageMetric.run` gives. -/
inductive Coverage
  | bad
  | error
  | ok (r : ℝ)

/-- `ParallaxCoverageMetric.run`, `calibration_metrics.py:397-416`; weights as in 384-388,
and `np.arctan2` as the argument of a complex number. -/
noncomputable def coverage (mags : String → ℝ) (atm range snrLimit : ℝ) (vs : List Visit) : Coverage :=
  if vs.length < 2 then .bad
  else
    let r := weightedR ((errors mags atm vs).map (fun p => (1 / p.2 ^ 2, p.1.ra, p.1.dec)))
    if 0 < range then
      let good := (snrLoop mags (vs.map Visit.band).dedup vs).filter (fun p => decide (snrLimit ≤ p.2))
      match thetaCheck range (good.map (fun p => Complex.arg (p.1.ra + p.1.dec * Complex.I))) with
      | none => .error
      | some true => .ok (r * 1)
      | some false => .ok (r * 0)
    else .ok (r * 1)

/-! ## Degeneracy -/

/-- The correlation of `ParallaxDcrDegenMetric.run`, `calibration_metrics.py:526-551`, on
(error, parallax, dcr), where the visits come twice, once for each coordinate. The fit is a
library function: for independent columns it finds the coefficients 1 and 1, and the
covariance is the inverse of the normal matrix. `none` for dependent columns. -/
noncomputable def degen (l : List (ℝ × ℝ × ℝ)) : Option ℝ :=
  let pp := total (fun p => p.2.1 * p.2.1 / p.1 ^ 2) l
  let pd := total (fun p => p.2.1 * p.2.2 / p.1 ^ 2) l
  let dd := total (fun p => p.2.2 * p.2.2 / p.1 ^ 2) l
  let det := pp * dd - pd * pd
  if det = 0 then none
  else some (-pd / det / (√(dd / det) * √(pp / det)))

/-- Columns that the metrics say they need, with the default names,
`calibration_metrics.py:65`, 200, 344 and 476-483. -/
def declared : String → List String
  | "ParallaxMetric" => ["fiveSigmaDepth", "band", "seeingFwhmGeom", "ra_pi_amp", "dec_pi_amp"]
  | "ProperMotionMetric" => ["fiveSigmaDepth", "observationStartMJD", "band", "seeingFwhmGeom"]
  | "ParallaxCoverageMetric" => ["ra_pi_amp", "dec_pi_amp", "fiveSigmaDepth", "observationStartMJD", "band", "seeingFwhmGeom"]
  | "ParallaxDcrDegenMetric" => ["ra_pi_amp", "dec_pi_amp", "ra_dcr_amp", "dec_dcr_amp", "seeingFwhmGeom", "fiveSigmaDepth"]
  | _ => []

/-- Columns that `run` reads, `calibration_metrics.py:116-138`, 241-265, 384-416 and 503-529. -/
def read : String → List String
  | "ParallaxMetric" => ["band", "fiveSigmaDepth", "seeingFwhmGeom", "ra_pi_amp", "dec_pi_amp"]
  | "ProperMotionMetric" => ["band", "fiveSigmaDepth", "seeingFwhmGeom", "observationStartMJD"]
  | "ParallaxCoverageMetric" => ["seeingFwhmGeom", "band", "fiveSigmaDepth", "ra_pi_amp", "dec_pi_amp"]
  | "ParallaxDcrDegenMetric" => ["band", "fiveSigmaDepth", "seeingFwhmGeom", "ra_pi_amp", "dec_pi_amp", "ra_dcr_amp", "dec_dcr_amp"]
  | _ => []

/-! ## Refraction -/

/-- `DcrPrecisionMetric.run`, `dcr_metric.py:58-93`; `none` is infinity. The loop is over the
six filters, so that visits in others keep a signal to noise of zero and an infinite error,
and add nothing in line 83. -/
noncomputable def dcrPrecision (mags : String → ℝ) (atm : ℝ) (vs : List Visit) : Option ℝ :=
  let l := (snrLoop mags ["u", "g", "r", "i", "z", "y"] vs).filter (fun p => decide (p.2 ≠ 0))
  let err : Visit × ℝ → ℝ := fun p => √(astromPrecision p.1.seeing p.2 0 ^ 2 + atm ^ 2)
  let x : Visit × ℝ → ℝ := fun p => tan (p.1.zd * (π / 180)) * sin (p.1.pa * (π / 180))
  let y : Visit × ℝ → ℝ := fun p => tan (p.1.zd * (π / 180)) * cos (p.1.pa * (π / 180))
  let s := total (fun p => 1 / (err p / x p) ^ 2) l + total (fun p => 1 / (err p / y p) ^ 2) l
  if s = 0 then none else some (1 / √s)

/-! ## Depth -/

/-- `OptimalM5Metric.run` with neither option, `optimal_m5_metric.py:79-89`; visits are
(m5, m5 on the meridian), at least one. -/
noncomputable def optimalM5 (l : List (ℝ × ℝ)) : ℝ :=
  let regular := RealMetrics.coadd (l.map Prod.fst)
  let optimal := RealMetrics.coadd (l.map Prod.snd)
  ((10 : ℝ) ^ (0.8 * optimal) - (10 : ℝ) ^ (0.8 * regular)) / (10 : ℝ) ^ (0.8 * Mo.median (l.map Prod.fst))

/-- With `normalize`, lines 91-92. -/
noncomputable def optimalM5Norm (l : List (ℝ × ℝ)) : ℝ := optimalM5 l / (l.length : ℝ) * 100

/-- With `mag_diff`, lines 81-82. -/
noncomputable def optimalM5Diff (l : List (ℝ × ℝ)) : ℝ := RealMetrics.coadd (l.map Prod.snd) - RealMetrics.coadd (l.map Prod.fst)

/-- `SnrWeightedMetric.run`, `snr_weight.py:21-24`, on (value, m5). -/
noncomputable def snrWeighted (starMag : ℝ) (l : List (ℝ × ℝ)) : ℝ :=
  average (fun p => p.1) (fun p => m52snr (some 0.04) starMag p.2) l

/-! ## Distances -/

/-- `RadiusObsMetric.run`, `calibration_metrics.py:580-581` and 599-609, for one visit: the
slice point in radians and the visit in degrees. -/
noncomputable def radius (ra dec raDeg decDeg : ℝ) : ℝ :=
  let ra2 := raDeg * (π / 180)
  let dec2 := decDeg * (π / 180)
  arccos (sin dec2 * sin dec + cos dec * cos dec2 * cos (ra2 - ra)) * (180 / π)

/-- The unit that `RadiusObsMetric` gives, `calibration_metrics.py:591`. -/
def radiusUnits : String := "radians"

end Verif.Astro
