import Mathlib.Analysis.SpecialFunctions.Pow.Real
import Mathlib.Analysis.SpecialFunctions.Log.Base
import Mathlib.Analysis.Real.Sqrt
import Verif.Model.MoSummary

/-!
# Microlensing events

`rubin_sim/maf/maf_contrib/microlensing_metric.py`.

Floats are reals here.  The light curve, the Fisher matrix and the counts of `MicrolensingMetric.run` are modelled; the inversion of the matrix
(`np.linalg.inv`) and the draw of positions on the sky are not, except for the choice of a pixel from a uniform draw.
-/

namespace Verif.Lens

open Real

noncomputable section

/-! ## The light curve -/

/-- `lightcurve_u` (`microlensing_metric.py:44`, `:67`). -/
def sep (t u0 te t0 : ℝ) : ℝ := sqrt (u0 ^ 2 + (t - t0) ^ 2 / te ^ 2)

/-- `microlensing_amplification` (`microlensing_metric.py:27-49`). -/
def amp (t u0 te t0 bf : ℝ) : ℝ :=
  let u := sep t u0 te t0
  (u ^ 2 + 2) / (u * sqrt (u ^ 2 + 4)) * bf + (1 - bf)

/-- `microlensing_amplification_fsfb` (`microlensing_metric.py:52-72`). -/
def ampFsfb (t u0 te t0 fs fb : ℝ) : ℝ :=
  let u := sep t u0 te t0
  logb 10 ((u ^ 2 + 2) / (u * sqrt (u ^ 2 + 4)) * fs + fb) * (-2.5)

/-- The magnitude of a visit: `self.mags[filtername] - 2.5 * np.log10(amplitudes)` (`microlensing_metric.py:382`, `:385`). -/
def magnitude (m amplitude : ℝ) : ℝ := m - 2.5 * logb 10 amplitude

/-- The times of the visits (`microlensing_metric.py:333-334`). -/
def times (mjd night : List ℝ) : List ℝ :=
  let t := mjd.map fun m => m - (night.minimum.untopD 0)
  t.map fun x => x - (t.minimum.untopD 0)

/-- `info_peak_before_t0` (`microlensing_metric.py:75-99`). -/
def infoPeak (u0 te : ℝ) : ℝ := te * sqrt (-(u0 ^ 2) + sqrt (9 * u0 ^ 4 + 36 * u0 ^ 2 + 4) - 2) / 2

/-! ## The Fisher matrix -/

/-- `coefficients_pspl` (`microlensing_metric.py:102-144`): the list it returns. -/
def coeffs (t t0 te u0 fs : ℝ) : List ℝ :=
  let x0 := (te ^ 2)⁻¹
  let x1 := (t - t0) ^ 2
  let x2 := u0 ^ 2 + x0 * x1
  let x3 := 1 / sqrt x2
  let x4 := 2 * x3
  let x5 := x2 + 4
  let x6 := fs / sqrt x5
  let x7 := x1 / te ^ 3
  let x8 := x6 * x7
  let x9 := x2 + 2
  let x10 := x9 / x2 ^ ((3 : ℝ) / 2)
  let x11 := fs * x3 * x9 / x5 ^ ((3 : ℝ) / 2)
  let x12 := u0 * x6
  let x13 := x0 * (-2 * t + 2 * t0)
  let x14 := x13 * x6
  let c0 := x10 * x8 + x11 * x7 - x4 * x8
  let c1 := -u0 * x11 - x10 * x12 + x12 * x4
  let c2 := -1 / 2 * x10 * x14 - 1 / 2 * x11 * x13 + x14 * x3
  [c2, c1, c0]

/-- The flux of the event the coefficients are about: the source amplified, and the blend. -/
def flux (t t0 te u0 fs fb : ℝ) : ℝ :=
  let w := (t - t0) ^ 2 / te ^ 2 + u0 ^ 2
  fs * ((w + 2) / sqrt (w * (w + 4))) + fb

/-- `coefficients_fsfb` (`microlensing_metric.py:147-174`): `[c1, c0]`. -/
def coeffsFsfb (t t0 te u0 : ℝ) : List ℝ :=
  let x0 := u0 ^ 2 + (t - t0) ^ 2 / te ^ 2
  [1, (x0 + 2) / (sqrt x0 * sqrt (x0 + 4))]

/-- The derivatives of one visit in `fisher_matrix` (`microlensing_metric.py:220-225`): the assignments into `np.array(fsfb_derivatives)` fill a copy,
so the list added is still zeros. -/
def derivatives (nfilters : ℕ) (t t0 te u0 fs : ℝ) : List ℝ := coeffs t t0 te u0 fs ++ List.replicate (2 * nfilters) 0

/-- The matrix of one visit before the errors (`microlensing_metric.py:219`, `:226-230`): the upper half, its transpose, less the diagonal. -/
def outer (d : List ℝ) (i j : ℕ) : ℝ :=
  let up := fun i j : ℕ => if i ≤ j then d.getD i 0 * d.getD j 0 else 0
  up i j + up j i - (if i = j then up i i else 0)

/-- `fisher_matrix` (`microlensing_metric.py:177-240`), for visits given by time and signal-to-noise ratio. -/
def fisher (nfilters : ℕ) (visits : List (ℝ × ℝ)) (t0 te u0 fs fb : ℝ) (i j : ℕ) : ℝ :=
  (visits.map fun v => outer (derivatives nfilters v.1 t0 te u0 fs) i j / (flux v.1 t0 te u0 fs fb / v.2) ^ 2).sum

/-- A visit as the Fisher branch of `run` sees it. -/
structure FVisit where
  filter : String
  t : ℝ
  snr : ℝ

/-- The matrix at the end of the loop of `run` (`microlensing_metric.py:394`, `:455-480`): `infilt` is what the previous loop left, the visits of the
last filter; `fs` and `fb` are those of the filter of the turn. -/
def fisherRun (filters : List String) (visits : List FVisit) (t0 te u0 : ℝ) (fs fb : String → ℝ) (i j : ℕ) : ℝ :=
  let infilt := visits.filter fun v => some v.filter == filters.getLast?
  (filters.map fun f => fisher filters.length (infilt.map fun v => (v.t, v.snr)) t0 te u0 (fs f) (fb f) i j).sum

/-! ## Counts -/

/-- A visit with its amplified magnitude and five-sigma depth. -/
structure Pt where
  filter : String
  t : ℝ
  mag : ℝ
  m5 : ℝ

/-- `m52snr` (`rubin_sim/maf/utils/maf_utils.py`), as used at `microlensing_metric.py:388`. -/
def snr (p : Pt) : ℝ := 5 * (10 : ℝ) ^ (-0.4 * (p.mag - p.m5))

/-- `mag_uncert` (`microlensing_metric.py:390`). -/
def uncert (p : Pt) : ℝ := 2.5 * logb 10 (1 + 1 / snr p)

open Classical in
/-- `sigma_above > self.detect_sigma` for two visits (`microlensing_metric.py:418-432`). -/
def above (σ : ℝ) (a b : Pt) : Bool := decide (σ < |b.mag - a.mag| / sqrt (uncert b ^ 2 + uncert a ^ 2))

end

/-- The number of entries of the matrix of pairs that pass (`microlensing_metric.py:432`, before the division by two). -/
def ordered {A : Type} (r : A → A → Bool) (l : List A) : ℕ := (l.map fun a => l.countP fun b => r a b).sum

noncomputable section

open Classical in
/-- `n_pre` and `n_post` summed over the filters, for "detect" (`microlensing_metric.py:394-435`, `:497-498`). -/
def nPre (σ before t0 : ℝ) (filters : List String) (pts : List Pt) : ℚ :=
  (filters.map fun f => (ordered (above σ) (pts.filter fun p => decide (p.filter = f ∧ p.t < t0 - before)) : ℚ) / 2).sum

open Classical in
@[inherit_doc nPre] def nPost (σ t0 : ℝ) (filters : List String) (pts : List Pt) : ℚ :=
  (filters.map fun f => (ordered (above σ) (pts.filter fun p => decide (p.filter = f ∧ t0 < p.t)) : ℚ) / 2).sum

/-- The result for "detect" (`microlensing_metric.py:499-509`). -/
def detected (detect : Bool) (needed : ℚ) (pre post : ℚ) : Bool :=
  if detect then decide (needed ≤ pre) && decide (needed ≤ post) else decide (needed ≤ pre)

open Classical in
/-- The result for "Npts" (`microlensing_metric.py:437-453`, `:510-511`). -/
def npts (σ t0 te : ℝ) (filters : List String) (pts : List Pt) : ℕ :=
  (filters.map fun f => (pts.filter fun p => decide (p.filter = f ∧ p.t < t0 ∧ t0 - te < p.t ∧ σ < snr p)).length).sum +
  (filters.map fun f => (pts.filter fun p => decide (p.filter = f ∧ t0 < p.t ∧ p.t < t0 + te ∧ σ < snr p)).length).sum

end

/-! ## The draw of a pixel -/

section

variable {K : Type} [Field K] [LinearOrder K] [FloorRing K]

/-- The cumulative sums divided by the largest of them (`microlensing_metric.py:579-581`). -/
def cumul (dist : List K) : List K :=
  let c := (List.range dist.length).map fun i => (dist.take (i + 1)).sum
  c.map fun x => x / (c.maximum.unbotD 0)

/-- The index in the ordered pixels for a uniform draw (`microlensing_metric.py:582-583`). -/
def draw (cumm : List K) (u : K) : ℤ := ⌊MoSum.interp (cumm.zip ((List.range cumm.length).map fun i : ℕ => (i : K))) u⌋

end

end Verif.Lens
