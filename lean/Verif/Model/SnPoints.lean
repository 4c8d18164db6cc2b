import Mathlib.Analysis.SpecialFunctions.Pow.Real
import Mathlib.Analysis.SpecialFunctions.Log.Base
import Verif.Model.Astrometry

/-!
# Points of simulated light curves of supernovae

Model of `LcfastNew.process_band` and `get_flag`, `rubin_sim/maf/utils/sn_n_sn_utils.py:174-329`, for one band, and of the
cut of `sn_effi` (`sn_n_sn_metric.py:677-679`). Arrays with a row for each simulated supernova are lists in the order of
their entries (masks of arrays select the same entries in the same order for each column). The interpolated fluxes and the rounding
of redshifts are parameters; components of the Fisher matrix are left out.
-/

namespace Verif.SnPoints

open Verif.Astro
open Classical

/-- A simulated supernova, a row of `gen_par`. -/
structure Gen where
  daymax : ℝ
  z : ℝ
  minRF : ℝ
  maxRF : ℝ

/-- A visit in the band. -/
structure Obs where
  mjd : ℝ
  m5 : ℝ

/-- The reference of the band and the cuts. -/
structure Ref where
  flux : ℝ → ℝ → ℝ
  wave : ℝ
  blue : ℝ
  red : ℝ
  round4 : ℝ → ℝ
  snrMin : ℝ

/-- A row of the light curve. -/
structure Pt where
  flux : ℝ
  mag : ℝ
  phase : ℝ
  z : ℝ
  daymax : ℝ
  mjd : ℝ
  m5 : ℝ
  snr : ℝ
  nAft : Prop
  nBef : Prop
  phMin : Prop
  phMax : Prop

/-- `p`, `sn_n_sn_utils.py:181-189`. -/
noncomputable def phase (c : Ref) (g : Gen) (o : Obs) : ℝ := (o.mjd - g.daymax) / (1 + c.round4 g.z)

/-- `fluxes_obs`, `sn_n_sn_utils.py:190-194`. -/
noncomputable def fluxOf (c : Ref) (g : Gen) (o : Obs) : ℝ := c.flux (phase c g o) (c.round4 g.z)

/-- `get_flag`, `sn_n_sn_utils.py:313-329`. -/
def flag (c : Ref) (g : Gen) (o : Obs) : Prop :=
  (g.minRF ≤ phase c g o ∧ phase c g o ≤ g.maxRF) ∧ (c.blue < c.wave / (1 + g.z) ∧ c.wave / (1 + g.z) < c.red) ∧
    1 / 10 ^ 10 < fluxOf c g o

/-- A row, `sn_n_sn_utils.py:255-285`. -/
noncomputable def point (c : Ref) (g : Gen) (o : Obs) : Pt :=
  let mag := -2.5 * Real.logb 10 (fluxOf c g o / 3631)
  let snr := m52snr (some 0.04) mag o.m5
  { flux := fluxOf c g o, mag := mag, phase := phase c g o, z := g.z, daymax := g.daymax, mjd := o.mjd, m5 := o.m5,
    snr := snr, nAft := SignType.sign (phase c g o) = 1 ∧ c.snrMin ≤ snr,
    nBef := SignType.sign (phase c g o) = -1 ∧ c.snrMin ≤ snr, phMin := phase c g o ≤ -5, phMax := 20 ≤ phase c g o }

/-- `process_band`, `sn_n_sn_utils.py:213-294`: the points with the flag (217-228, 255), without those that are too faint
(291-292). -/
noncomputable def processBand (c : Ref) (gens : List Gen) (obs : List Obs) : List Pt :=
  (gens.flatMap (fun g => (obs.filter (fun o => decide (flag c g o))).map (point c g))).filter
    (fun p => decide (p.mag < p.m5 + 0.5))

/-- The cut of `sn_effi`, `sn_n_sn_metric.py:677-679`. -/
noncomputable def snrCut (snrMin : ℝ) (lc : List Pt) : List Pt := lc.filter (fun p => decide (snrMin ≤ p.snr))

end Verif.SnPoints
