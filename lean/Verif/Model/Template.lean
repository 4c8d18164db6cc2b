import Verif.Model.RealMetrics
import Verif.Model.Bins
import Verif.Model.DirectObs
import Verif.Model.NumpyMore
import Mathlib.Analysis.SpecialFunctions.Log.Base
import Mathlib.Analysis.SpecialFunctions.Trigonometric.Basic

/-!
# Template and time lag metrics

Models of `rubin_sim/maf/metrics/incremental_template_metric.py` and `agn_time_lag_metric.py`, over
the real numbers. Not modelled: the season of the template (`calc_season` of the scheduler), and the
band of the visits, which only chooses constants.
-/

namespace Verif.Template

open Real

/-! ## Templates -/

structure Vis where
  mjd : ℝ
  night : ℤ
  seeing : ℝ
  m5 : ℝ

/-- The best airmass, `incremental_template_metric.py:134-135`. -/
noncomputable def airmass (lat dec : ℝ) : ℝ := 1 / cos |dec - lat|

/-- The scaled limit of seeing, `incremental_template_metric.py:136-138`; `lam` is the wavelength of
the band. -/
noncomputable def bestSeeing (thr x lam : ℝ) : ℝ := thr * x ^ (0.6 : ℝ) * (500 / lam) ^ (0.3 : ℝ)

/-- The scaled limit of depth, `incremental_template_metric.py:148-152`; `k` is the extinction
coefficient of the band, a negative number. -/
noncomputable def bestM5 (thrM k x thr best : ℝ) : ℝ := thrM - k * (1 - x) + 2.5 * logb 10 (thr / best)

/-- `incremental_template_metric.py:140-141`. -/
noncomputable def benchSeeing (best pS : ℝ) (vs : List Vis) : ℝ := max best ((Bins.pct (pS / 100) (vs.map Vis.seeing)).getD 0)

/-- `incremental_template_metric.py:153-154`. -/
noncomputable def benchM5 (best pM : ℝ) (vs : List Vis) : ℝ := min best ((Bins.pct ((100 - pM) / 100) (vs.map Vis.m5)).getD 0)

open Classical in
/-- `incremental_template_metric.py:156-158`. -/
noncomputable def ok (bS bM : ℝ) (v : Vis) : Bool := decide (v.seeing ≤ bS) && decide (v.m5 ≥ bM)

/-- The results. -/
structure Out where
  night : ℤ
  nUntil : ℕ
  nWith : ℕ
  m5 : ℝ
  seeing : ℝ
  inputs : List Vis
  /-- later visits, with the depth of the difference image and the number of alerts -/
  later : List (Vis × ℝ × ℝ)
  alerts : ℝ
  /-- `none` is NaN -/
  fraction : Option ℝ

/-- The depth of the template, `incremental_template_metric.py:184`. -/
noncomputable def templateM5 (inputs : List Vis) : ℝ := 1.25 * logb 10 ((inputs.map (fun v => (10 : ℝ) ^ (0.8 * v.m5))).sum)

/-- The seeing of the template, `incremental_template_metric.py:187-196`. -/
noncomputable def templateSeeing (inputs : List Vis) : ℝ :=
  let f0 := √((inputs.map (fun v => 25 * (10 : ℝ) ^ (0.8 * v.m5))).sum)
  let noise := fun v : Vis => f0 / 5 * (10 : ℝ) ^ (-0.4 * v.m5)
  √((inputs.map (fun v => (v.seeing / noise v) ^ 2)).sum)

/-- The depth of a difference image, `incremental_template_metric.py:198-199`. -/
noncomputable def diffM5 (t m : ℝ) : ℝ := m + -2.5 * logb 10 (√(1 + (10 : ℝ) ^ (-0.8 * (t - m))))

/-- The number of alerts, `incremental_template_metric.py:201`. -/
noncomputable def nAlerts (d : ℝ) : ℝ := 1e4 * (10 : ℝ) ^ (0.6 * (d - 24.7))

open Classical in
/-- `TemplateTime.run`, `incremental_template_metric.py:124-231`, for the rows after the sort by time
at line 132; `none` is the bad value. -/
noncomputable def template (n : ℕ) (best pS bestM pM : ℝ) (vs : List Vis) : Option Out :=
  if vs.length < n then none
  else
    let idx := Direct.whereIdx (ok (benchSeeing best pS vs) (benchM5 bestM pM vs)) vs
    if idx.length < n then none
    else
      match idx[n - 1]? with
      | none => none
      | some i =>
        match vs[i]? with
        | none => none
        | some v =>
          let inputs := Direct.take vs (idx.take n)
          let t := templateM5 inputs
          let s := templateSeeing inputs
          let after := vs.filter (fun u => decide (u.night > v.night))
          some {
            night := v.night
            nUntil := i + 1
            nWith := after.length
            m5 := t
            seeing := s
            inputs := inputs
            later := after.map (fun u => (u, diffM5 t u.m5, nAlerts (diffM5 t u.m5)))
            alerts := (after.map (fun u => nAlerts (diffM5 t u.m5))).sum
            fraction := if after.length = 0 then none else
              some ((after.countP (fun u => decide (u.seeing > s)) : ℝ) / (after.length : ℝ)) }

/-! ## Time lag -/

/-- A visit for `AgnTimeLagMetric`. -/
structure Agn where
  mjd : ℝ
  band : String
  m5 : ℝ

/-- What `AgnTimeLagMetric.run` gives. -/
inductive Lag
  | bad
  | inf
  | val (x : ℝ)

/-- `calc_type`. -/
inductive Calc
  | mean
  | min
  | max
  | gcd

open Classical in
/-- The time of a visit after the magnitude cuts, `agn_time_lag_metric.py:72-81`: zero if it is not
used. The second and third branch assign to copies, but are never reached. -/
noncomputable def cutTime (_gCut _rCut : ℝ) (v : Agn) : ℝ :=
  if v.band ∈ ["u", "i", "z", "y", "r", "g"] then v.mjd
  else if v.band = "g" then 0
  else if v.band = "r" then 0
  else 0

open Classical in
/-- The times that are used, in order, `agn_time_lag_metric.py:71-87`. -/
noncomputable def agnTimes (gCut rCut : ℝ) (vs : List Agn) : List ℝ :=
  Np.sort ((vs.map (cutTime gCut rCut)).filter (fun t => decide (t > 0)))

/-- `np.gcd.reduce(np.rint(val).astype(int))`; the rounding is a parameter, as it only matters at half
days. -/
noncomputable def gcdDays (rint : ℝ → ℤ) (gaps : List ℝ) : ℝ := ((gaps.map rint).foldl (fun a b => Int.gcd a b) (0 : ℤ) : ℤ)

/-- The summary of the gaps, `agn_time_lag_metric.py:93-102`. -/
noncomputable def cadence (rint : ℝ → ℤ) (c : Calc) (gaps : List ℝ) : ℝ :=
  match c with
  | .mean => gaps.sum / (gaps.length : ℝ)
  | .min => (gaps.min?).getD 0
  | .max => (gaps.max?).getD 0
  | .gcd => gcdDays rint gaps

open Classical in
/-- `AgnTimeLagMetric.run`, `agn_time_lag_metric.py:58-118`, for a positive lag, `0 ≤ z` and a positive
threshold (so that the logarithms exist). The depth after dust, lines 60-69, is not used. -/
noncomputable def agnLag (rint : ℝ → ℤ) (c : Calc) (log : Bool) (lag z thr gCut rCut : ℝ) (vs : List Agn) : Lag :=
  let gaps := Np.diff (agnTimes gCut rCut vs)
  if gaps.length = 0 then .bad
  else
    let v := cadence rint c gaps
    if v = 0 then .inf
    else
      let q := lag / ((1 + z) * v)
      let q := if log then Real.log q else q
      let t := if log then Real.log thr else thr
      if q < t then .bad else .val q

end Verif.Template
