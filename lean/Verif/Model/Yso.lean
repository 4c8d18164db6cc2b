import Mathlib.Analysis.SpecialFunctions.Integrals.Basic
import Mathlib.Analysis.SpecialFunctions.Log.Base
import Mathlib.Analysis.SpecialFunctions.Pow.Real
import Mathlib.Analysis.Real.Sqrt
import Mathlib.Order.WithBot
import Verif.Model.RealMetrics
import Verif.Model.Maps

/-!
# Young stars

`rubin_sim/maf/maf_contrib/young_stellar_objects_metric.py`.

Floats are real numbers, and `scipy.integrate.quad` is the integral.  A depth is a `WithBot ℝ`, where `⊥` is the minus infinity that numpy gives for the
logarithm of zero (the warning is turned off, `young_stellar_objects_metric.py:160`).  The limit of crowding (`Crowd.crowdM5`) and the extinction at the slice
point are inputs.
-/

namespace Verif.Yso

open Real

/-- `StarDensity.__init__`, `young_stellar_objects_metric.py:37`. -/
noncomputable def A : ℝ := 0.8e8 / (4 * π * 0.3 * 2.6 ^ 2)

/-- `young_stellar_objects_metric.py:46`. -/
noncomputable def rGalac (l r : ℝ) : ℝ := √((8.178 - r * cos l) ^ 2 + (r * sin l) ^ 2)

/-- `StarDensity.__call__`, `young_stellar_objects_metric.py:39-51`: the stars per steradian and kpc. -/
noncomputable def density (l b r : ℝ) : ℝ := A * r ^ 2 * exp (-1 * r * |sin b| / 0.3 - rGalac l r / 2.6)

/-- What the metric has of a filter: the absolute magnitude, the signal to noise asked for (`young_stellar_objects_metric.py:126-128`) and the extinction per
unit of reddening (`young_stellar_objects_metric.py:139-140`). -/
structure Band where
  mag : ℝ
  snr : ℝ
  rx : ℝ

/-- `young_stellar_objects_metric.py:164`; the depths are those of the visits in the filter. -/
noncomputable def coadded (m5s : List ℝ) : WithBot ℝ := if m5s = [] then ⊥ else (RealMetrics.coadd m5s : ℝ)

/-- `young_stellar_objects_metric.py:165-169`; `crowdError` is the option of the metric and `crowd` what `CrowdingM5Metric` gives. -/
noncomputable def depth (crowdError crowd : ℝ) (m5s : List ℝ) : WithBot ℝ :=
  if 0 < crowdError then min (coadded m5s) (crowd : ℝ) else coadded m5s

/-- `young_stellar_objects_metric.py:175-176`. -/
noncomputable def appMag (b : Band) (d : WithBot ℝ) : WithBot ℝ := d.map (fun x => -2.5 * logb 10 (b.snr / 5) + x)

/-- `young_stellar_objects_metric.py:178-181`, where `100 ** -inf` is zero. -/
noncomputable def dist2 (b : Band) (ebv : ℝ) : WithBot ℝ → ℝ
  | ⊥ => 10 * (0 : ℝ) ^ (0.5 : ℝ)
  | some m => 10 * ((100 : ℝ) ^ ((m - b.rx * ebv - b.mag) / 5)) ^ (0.5 : ℝ)

/-- `young_stellar_objects_metric.py:183-188`; `l` has the distances and the reddening at them.  For minus infinity all the distances to the goal are infinite, so
`argmin` gives the first, and the other candidate is `10 ** -inf`, zero (`dust_map_3d.py:187-190`). -/
noncomputable def dist3 (b : Band) (l : List (ℝ × ℝ)) : WithBot ℝ → Option ℝ
  | ⊥ => l.head?.map (fun p => if 0 > p.1 then 0 else p.1)
  | some m => Maps.distAt false b.rx (m - b.mag) l

/-- `young_stellar_objects_metric.py:192`; `np.min` of nothing raises an exception. -/
noncomputable def final (dists : List ℝ) : Option ℝ := dists.min?.map (· / 1e3)

/-- `young_stellar_objects_metric.py:197-200`. -/
noncomputable def count (l b area d : ℝ) : ℝ := (∫ r in (0:ℝ)..d, density l b r) * area

/-- `young_stellar_objects_metric.py:144-149`; `pix` is `hp.nside2pixarea`. -/
noncomputable def skyArea (pix : ℕ → ℝ) : Option ℕ → ℝ
  | some n => pix n
  | none => π * (1.75 * π / 180) ^ 2

/-- What the slice point says. -/
structure Point where
  gall : ℝ
  galb : ℝ
  nside : Option ℕ

/-- `NYoungStarsMetric.run`, `young_stellar_objects_metric.py:142-200`, from the distances in each filter; `limit` is `galb_limit` in degrees
(`young_stellar_objects_metric.py:125`). -/
noncomputable def run (pix : ℕ → ℝ) (limit badval : ℝ) (returnDistance : Bool) (p : Point) (dists : List ℝ) : Option ℝ :=
  if |p.galb| > limit * π / 180 then some badval
  else (final dists).map (fun d => if returnDistance then d else count p.gall p.galb (skyArea pix p.nside) d)

/-- The distances in all filters with the extinction of the whole line of sight, for each filter with the limit of crowding and the depths of the visits in it. -/
noncomputable def dists2 (crowdError ebv : ℝ) (bs : List (Band × ℝ × List ℝ)) : List ℝ :=
  bs.map (fun x => dist2 x.1 ebv (appMag x.1 (depth crowdError x.2.1 x.2.2)))

end Verif.Yso
