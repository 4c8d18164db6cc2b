import Mathlib.Data.Char
import Mathlib.Analysis.SpecialFunctions.Pow.Real
import Mathlib.Analysis.SpecialFunctions.Log.Base
import Verif.Model.RealMetrics

/-!
# Limits of surface brightness

`rubin_sim/maf/metrics/surfb_metric.py` and `sky_sat_metric.py`.

Floats are real numbers.  Names of filters are single characters.  The warning of `surfb_metric.py:75-77` is left out.  Exceptions are values.
-/

namespace Verif.Surf

open Real

/-- The arguments of `surface_brightness_limit_approx`, `surfb_metric.py:12-23`. -/
structure Args where
  zp : ℝ
  k : ℝ
  airmass : ℝ
  sky : ℝ
  rn : ℝ
  pix : ℝ
  nsigma : ℝ
  texp : ℝ
  area : ℝ

/-- `n_pix`, `surfb_metric.py:57-59`. -/
noncomputable def nPix (a : Args) : ℝ := a.area / a.pix ^ 2

/-- `surfb_metric.py:62`. -/
noncomputable def skyLim (a : Args) : ℝ :=
  -1.25 * logb 10 (a.nsigma ^ 2 / (a.pix ^ 2 * a.texp * nPix a)) + 0.5 * a.sky + 0.5 * a.zp - a.k * a.airmass

/-- `surfb_metric.py:66`. -/
noncomputable def sourceLim (a : Args) : ℝ :=
  -5 * logb 10 a.nsigma + 2.5 * logb 10 (nPix a * a.pix ^ 2 * a.texp) + a.zp - a.k * a.airmass

/-- `surfb_metric.py:69`. -/
noncomputable def rnLim (a : Args) : ℝ :=
  -2.5 * logb 10 (a.nsigma * a.rn / (a.texp * a.pix ^ 2 * (nPix a) ^ (0.5 : ℝ))) + a.zp - a.k * a.airmass

/-- `surface_brightness_limit_approx` for one visit, `surfb_metric.py:57-82`. -/
noncomputable def limit (a : Args) : ℝ := min (min (skyLim a) (sourceLim a)) (rnLim a)

/-- A row of the data. -/
structure Visit where
  band : Char
  airmass : ℝ
  texp : ℝ
  sky : ℝ
  nexp : ℕ

/-- A dictionary by filter. -/
abbrev Table := Char → Option ℝ

/-- The metric, `surfb_metric.py:130-147`. -/
structure Metric where
  readnoise : ℝ
  pix : ℝ
  nsigma : ℝ
  area : ℝ
  zpt : Table
  katm : Option Table

/-- `surfb_metric.py:140-147`: the zero points and the extinctions kept, of those of the instrument and those given. -/
def init (inst : Table × Table) (zpt katm : Option Table) : Table × Option Table :=
  match zpt with
  | none => (inst.1, some inst.2)
  | some z => (z, katm)

/-- The arguments for a visit, `surfb_metric.py:156-168`. -/
noncomputable def argsOf (m : Metric) (zp k : ℝ) (v : Visit) : Args :=
  { zp := zp, k := k, airmass := v.airmass, sky := v.sky, rn := m.readnoise * √(v.nexp : ℝ), pix := m.pix, nsigma := m.nsigma, texp := v.texp, area := m.area }

/-- `SurfaceBrightLimitMetric.run`, `surfb_metric.py:149-171`: the exception for several filters is made and not raised. -/
noncomputable def run (m : Metric) (vs : List Visit) : Except String ℝ :=
  match (vs.map Visit.band).min? with
  | none => .error "IndexError"
  | some f =>
    match m.zpt f, m.katm with
    | none, _ => .error "KeyError"
    | some _, none => .error "TypeError"
    | some z, some t =>
      match t f with
      | none => .error "KeyError"
      | some k => .ok (1.25 * logb 10 (vs.map (fun v => (10 : ℝ) ^ (0.8 * limit (argsOf m z k v)))).sum)

/-- `SkySaturationMetric.run`, `sky_sat_metric.py:14-18`: `none` is what is not finite. -/
def skySat (mags : List (Option ℝ)) : ℤ := (mags.length : ℤ) - ((List.range mags.length).filter (fun i => (mags[i]?.join).isSome)).length

end Verif.Surf
