import Mathlib.Analysis.SpecialFunctions.Complex.Arg
import Mathlib.Analysis.SpecialFunctions.Log.Base
import Mathlib.Analysis.SpecialFunctions.Pow.Real
import Mathlib.Analysis.SpecialFunctions.Trigonometric.Inverse

/-!
# Stackers for moving objects, `rubin_sim/maf/stackers/mo_stackers.py` and `mo_phase.py`

Over the real numbers, for one observation unless said otherwise. Random numbers are a stream.
-/

namespace Verif.MoStack

open Real

/-! ## Apparent magnitudes -/

/-- `AppMagStacker._run`, `mo_stackers.py:235-237`. -/
def appMag (vMag color loss hval href : ℝ) : ℝ := vMag + color + loss + hval - href

/-- `VMAG_SUN` and `KM_PER_AU`, `mo_stackers.py:19-21`. -/
noncomputable def vmagSun : ℝ := -26.76
noncomputable def kmPerAu : ℝ := 149597870.7

/-- `radius`, `mo_stackers.py:337`. -/
noncomputable def radius (ap hval : ℝ) : ℝ := 10 ^ (0.2 * (vmagSun - hval)) / √ap * kmPerAu

/-- The columns of one observation used for the coma, `mo_stackers.py:321-330`. `phaseVal` is the
phase function at the phase angle. -/
structure Obs where
  rh : ℝ
  delta : ℝ
  phaseVal : ℝ
  seeing : ℝ
  /-- `AB_SUN` of the band -/
  abSun : ℝ

/-- `afrho`, `mo_stackers.py:340-343`. -/
noncomputable def afrho (const ap hval : ℝ) (k : ℝ) (o : Obs) : ℝ :=
  const * radius ap hval ^ 2 * o.rh ^ k * o.phaseVal

/-- `rho`, `mo_stackers.py:347-348`. -/
noncomputable def rho (apScale : ℝ) (o : Obs) : ℝ := 725 * 10 ^ 5 * o.delta * (o.seeing * apScale)

/-- Magnitude of the coma, `mo_stackers.py:350-358`; `unit` is the factor after `KM_PER_AU`, which
is 1000 in the code. -/
noncomputable def comaWith (unit const ap apScale hval : ℝ) (k : ℝ) (o : Obs) : ℝ :=
  let delta := o.delta * kmPerAu * unit
  o.abSun + -2.5 * logb 10 (afrho const ap hval k o * rho apScale o / (2 * o.rh * delta) ^ 2)

/-- As in the code, `mo_stackers.py:350`. -/
noncomputable def coma (const ap apScale hval : ℝ) (k : ℝ) (o : Obs) : ℝ :=
  comaWith 1000 const ap apScale hval k o

/-- The sum of two sources in magnitudes, `mo_stackers.py:365`. -/
noncomputable def combine (m m' : ℝ) : ℝ := -2.5 * logb 10 (10 ^ (-0.4 * m) + 10 ^ (-0.4 * m'))

/-- `CometAppMagStacker._run`, `mo_stackers.py:335-366`. -/
noncomputable def cometMag (const ap apScale : ℝ) (k : ℝ) (o : Obs) (vMag color loss hval href : ℝ) : ℝ :=
  combine (coma const ap apScale hval k o) (appMag vMag color loss hval href)

/-- Argument `comet_type`: a string, or a dictionary from keys to numbers. -/
inductive CometType
  | name (s : String)
  | dict (d : String → Option ℝ)

/-- The exponent and constant set by the constructor, `mo_stackers.py:291-311`; `none` is the
`ValueError`. -/
def cometParams : CometType → Option (ℝ × ℝ)
  | .name s =>
    if s = "short" then some (-4, 100)
    else if s = "oort" then some (-2, 1000)
    else if s = "mbc" then some (-6, 4000)
    else none
  | .dict d =>
    match d "k", d "Afrho1_const" with
    | some k, some c => some (k, c)
    | _, _ => none

/-! ## Signal to noise and visibility -/

/-- Column `SNR` of `SNRStacker`, `mo_stackers.py:432-433`. -/
noncomputable def snr (gamma mag m5 : ℝ) : ℝ :=
  let x := (10 : ℝ) ^ (0.5 * (mag - m5))
  1 / √((0.04 - gamma) * x + gamma * x * x)

/-- `completeness`, `mo_stackers.py:434`. -/
noncomputable def completeness (sigma mag m5 : ℝ) : ℝ := 1 / (1 + exp ((mag - m5) / sigma))

/-- Column `vis`, `mo_stackers.py:441`. -/
noncomputable def vis (sigma p mag m5 : ℝ) : ℕ := if p ≤ completeness sigma mag m5 then 1 else 0

/-- `SNRStacker._run` on the rows of one object, `mo_stackers.py:434-442`: the column `vis`, and
the rest of the stream of random numbers, which the stacker keeps for the next call. -/
noncomputable def run (sigma : ℝ) (rng : ℕ → ℝ) (rows : List (ℝ × ℝ)) : List ℕ × (ℕ → ℝ) :=
  ((List.range rows.length).zipWith (fun i row => vis sigma (rng i) row.1 row.2) rows,
   fun i => rng (rows.length + i))

/-- Calls of one stacker, one after the other. -/
noncomputable def runs (sigma : ℝ) (rng : ℕ → ℝ) : List (List (ℝ × ℝ)) → List (List ℕ)
  | [] => []
  | rows :: more => (run sigma rng rows).1 :: runs sigma (run sigma rng rows).2 more

/-! ## Ecliptic coordinates -/

/-- The vector rotated to the ecliptic, `mo_stackers.py:477-482`, in radians. -/
noncomputable def rotated (inc ra dec : ℝ) : ℝ × ℝ × ℝ :=
  let x := cos ra * cos dec
  let y := sin ra * cos dec
  let z := sin dec
  (x, cos inc * y + sin inc * z, -sin inc * y + cos inc * z)

/-- `np.degrees` -/
noncomputable def degrees (x : ℝ) : ℝ := x * (180 / π)

/-- `np.radians` -/
noncomputable def radians (x : ℝ) : ℝ := x * (π / 180)

/-- `x % 360` -/
noncomputable def mod360 (x : ℝ) : ℝ := x - 360 * ⌊x / 360⌋

/-- `EclStacker._run`, `mo_stackers.py:471-486`: latitude and longitude in degrees. `arctan2(y, x)`
is the argument of `x + i y`. -/
noncomputable def ecliptic (inc : ℝ) (inDeg : Bool) (ra dec : ℝ) : ℝ × ℝ :=
  let ra := if inDeg then radians ra else ra
  let dec := if inDeg then radians dec else dec
  let p := rotated inc ra dec
  (degrees (arcsin p.2.2), mod360 (degrees (Complex.arg ⟨p.1, p.2.1⟩)))

/-! ## Phase functions -/

/-- `phase__log_linear`, `mo_phase.py:238`. -/
noncomputable def logLinear (phase slope : ℝ) : ℝ := 10 ^ (-0.4 * slope * phase)

/-- `phase_hg`, `mo_phase.py:259-261`. -/
noncomputable def phaseHg (phase g : ℝ) : ℝ :=
  let phi1 := exp (-3.33 * tan (radians phase / 2) ^ (0.63 : ℝ))
  let phi2 := exp (-1.87 * tan (radians phase / 2) ^ (1.22 : ℝ))
  (1 - g) * phi1 + g * phi2

end Verif.MoStack
