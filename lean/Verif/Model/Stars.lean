import Mathlib.Analysis.SpecialFunctions.Pow.Real
import Mathlib.Analysis.SpecialFunctions.Trigonometric.Arctan
import Mathlib.Analysis.SpecialFunctions.Trigonometric.Inverse
import Mathlib.Analysis.Real.Sqrt
import Mathlib.Analysis.Real.Pi.Bounds
import Verif.Model.MoSummary

/-!
# Counts of stars along a line of sight

`rubin_sim/maf/maf_contrib/star_counts/starcount.py`, `starcount_bymass.py`, `stellardensity.py`, `coords.py`,
`spec_type.py`, `abs_mag.py`.

Floats are reals here (rationals for the interpolation tables).  `coords.eq_gal3` uses names that astropy and numpy do not have
(`u.radians`, `np.rad`), so `starcount` raises; the count is modelled for a direction already in galactic coordinates.
`scipy.optimize.fsolve` is not modelled: what `eq_gal` does with the root it finds is.
-/

namespace Verif.Stars

open Real

noncomputable section

/-! ## `starcount.py` -/

/-- `skyarea` (`starcount.py:13`). -/
def skyarea : ℝ := 41253

/-- The `i`-th of the `distancebins = 51` edges (`starcount.py:14`, `:18`): equally spaced in the cube of the distance. -/
def edge (d1 d2 : ℝ) (i : ℕ) : ℝ := (d1 ^ 3 + i * ((d2 ^ 3 - d1 ^ 3) / 50)) ^ ((1 : ℝ) / 3)

/-- The volumes of the shells of `star_vols` (`starcount.py:19`). -/
def volumes (d1 d2 area : ℝ) : List ℝ :=
  (List.range 50).map fun i => area / skyarea * (4 * π / 3) * (edge d1 d2 (i + 1) ^ 3 - edge d1 d2 i ^ 3)

/-- The distances of `star_vols` (`starcount.py:20`). -/
def distances (d1 d2 : ℝ) : List ℝ :=
  (List.range 50).map fun i => ((edge d1 d2 (i + 1) ^ 3 + edge d1 d2 i ^ 3) / 2) ^ ((1 : ℝ) / 3)

/-! ## `stellardensity.py` -/

/-- `zsun`, `rsun`, `density_rsun` (`stellardensity.py:11-13`). -/
def zsun : ℝ := 25

@[inherit_doc zsun] def rsun : ℝ := 8000

@[inherit_doc zsun] def densityRsun : ℝ := 0.0364

/-- `diskprofile` (`stellardensity.py:17-22`). -/
def diskprofile (R Z L H : ℝ) : ℝ := densityRsun * exp (-R / L - |Z + zsun| / H) * exp (rsun / L)

/-- `thindisk` (`stellardensity.py:25-26`). -/
def thindisk (R Z : ℝ) : ℝ := diskprofile R Z 2150 245

/-- `thickdisk` (`stellardensity.py:29-30`). -/
def thickdisk (R Z : ℝ) : ℝ := diskprofile R Z 3261 743

/-- `bulge` (`stellardensity.py:33-37`). -/
def bulge (R Z : ℝ) : ℝ :=
  2 * (diskprofile 0 0 2150 245 + diskprofile 0 0 3261 743) * exp (-sqrt (R ^ 2 + Z ^ 2) / 800)

/-- `halo` (`stellardensity.py:40-48`).  At the centre numpy gives infinity where this gives `0`. -/
def halo (R Z : ℝ) : ℝ := densityRsun * 0.001 * (rsun / sqrt (R ^ 2 + (Z / 0.64) ^ 2)) ^ (2.77 : ℝ)

/-- `stellardensity` (`stellardensity.py:51-55`), `f = 0.1`. -/
def stellardensity (R Z : ℝ) : ℝ := thindisk R Z / 1.1 + 0.1 / 1.1 * thickdisk R Z + halo R Z + bulge R Z

/-! ## `coords.py` -/

/-- `np.degrees`, `np.radians`. -/
def degrees (x : ℝ) : ℝ := x * (180 / π)

@[inherit_doc degrees] def radians (x : ℝ) : ℝ := x * (π / 180)

/-- `x % 360` of a float. -/
def mod360 (x : ℝ) : ℝ := x - 360 * ⌊x / 360⌋

/-- What `eq_gal` does with the root `(b, ll)` of its equations (`coords.py:36-43`): the latitude and longitude in degrees. -/
def normalise (b ll : ℝ) : ℝ × ℝ :=
  let b1 := mod360 (degrees b)
  let b2 := if 270 ≤ b1 then b1 - 360 else b1
  if 90 < b2 then (180 - b2, mod360 (degrees (ll + π))) else (b2, mod360 (degrees ll))

/-- The three functions whose zero `eq_gal` looks for (`coords.py:25-33`), for a direction `(a, d)` in radians. -/
def equations (a d b ll : ℝ) : ℝ × ℝ × ℝ :=
  let rad1 := radians 282.25
  let rad2 := radians 62.6
  let rad3 := radians 33
  (cos b * cos (ll - rad3) - cos d * cos (a - rad1),
   cos b * sin (ll - rad3) - (sin d * sin rad2 + cos d * sin (a - rad1) * cos rad2),
   sin b - (sin d * cos rad2 - cos d * sin (a - rad1) * sin rad2))

/-- The clipping of a cosine to `[-1, 1]` (`coords.py:58-61`, `:66-69`). -/
def clip (x : ℝ) : ℝ := if 1 < x then 1 else if x < -1 then -1 else x

/-- `eq_gal2` (`coords.py:47-75`). -/
def eqGal2 (ra dec : ℝ) : ℝ × ℝ :=
  let d := radians dec
  let p := radians ra
  let AB := radians 62.8717
  let CAB := radians 192.8585 - p
  let BC := arccos (sin d * cos AB + cos d * sin AB * cos CAB)
  let AD := radians 118.9362
  let CAD := radians 266.4051 - p
  let CBD := arccos (clip ((sin d * cos AD + cos d * sin AD * cos CAD) / sin BC))
  let cad := radians 282.8595 - p
  let cbd := arccos (clip (cos cad * cos d / sin BC))
  (90 - degrees BC, if cbd - CBD < 32.9319 then 360 - degrees CBD else degrees CBD)

/-- `gal_cyn` (`coords.py:89-99`): the distance from the axis of the galaxy, `rho`, and the height. -/
def galCyn (b l dist : ℝ) : ℝ × ℝ × ℝ :=
  let x := cos (radians l) * (cos (radians b) * dist)
  let y := sin (radians l) * (cos (radians b) * dist)
  (sqrt ((8000 - x) ^ 2 + y ^ 2), arctan (y / x), sin (radians b) * dist)

/-- `starcount` (`starcount.py:24-30`) along the direction `(b, l)` in galactic coordinates. -/
def starcount (b l d1 d2 : ℝ) : ℝ :=
  (List.zipWith (fun v x => v * stellardensity (galCyn b l x).1 (galCyn b l x).2.2) (volumes d1 d2 9.62) (distances d1 d2)).sum

/-! ## `starcount_bymass.py` -/

/-- `IMF` (`starcount_bymass.py:18-27`). -/
def imf (lower upper : ℝ) : ℝ := 1 / (2.35 - 1) * (lower ^ (-(2.35 - 1) : ℝ) - upper ^ (-(2.35 - 1) : ℝ))

/-- `np.linspace(m1, m2, num=20)` (`starcount_bymass.py:86`). -/
def mass (m1 m2 : ℝ) (i : ℕ) : ℝ := m1 + i * ((m2 - m1) / 19)

/-- `massfractions` (`starcount_bymass.py:86-90`). -/
def fractions (m1 m2 : ℝ) : List ℝ := (List.range 19).map fun i => imf (mass m1 m2 i) (mass m1 m2 (i + 1)) / imf 0.2 1.04

/-- `get_distance` (`starcount_bymass.py:30-33`). -/
def getDistance (apparent absolute : ℝ) : ℝ := 10 * (10 : ℝ) ^ ((apparent - absolute) / 5)

/-- The bands of the survey. -/
inductive Band
  | u | g | r | i | z | y
  deriving DecidableEq

/-- `gamma` and `m5` (`starcount_bymass.py:45-46`, `:57-58`). -/
def gamma : Band → ℝ
  | .u => 0.037 | .g => 0.038 | .r => 0.039 | .i => 0.039 | .z => 0.040 | .y => 0.040

@[inherit_doc gamma] def depth : Band → ℝ
  | .u => 23.9 | .g => 25.0 | .r => 24.7 | .i => 24.0 | .z => 23.3 | .y => 22.1

open Classical in
/-- `mag_error` (`starcount_bymass.py:44-53`): `calcm5 = 0` stands for the depth of the table. -/
def magError (m : ℝ) (band : Band) (calcm5 : ℝ) : ℝ :=
  let m5 := if calcm5 = 0 then depth band else calcm5
  let X := (10 : ℝ) ^ (0.4 * (m - m5))
  sqrt (sqrt ((0.04 - gamma band) * X + gamma band * X * X) ^ 2 + 0.005 ^ 2)

/-- The values Python can hold in `newton(fun, 25)` (`starcount_bymass.py:62-68`): `fun` has no `return`. -/
def noiseFun (_band : Band) (_x : ℝ) : Option ℝ := none

end

/-! ## `spec_type.py`, `abs_mag.py` -/

/-- The table of `spec_type` (`spec_type.py:33-76`): masses and spectral types. -/
def massTable : List (ℚ × ℚ) :=
  [(6/100, 68), (21/100, 65), (40/100, 62), (51/100, 60), (67/100, 55), (79/100, 50), (92/100, 45), (105/100, 40), (14/10, 35), (16/10, 30),
   (2, 25), (29/10, 20), (38/10, 18), (59/10, 15), (76/10, 13), (175/10, 10), (23, 8), (37, 6), (60, 5), (120, 3)]

/-- `spec_range` (`abs_mag.py:33-70`). -/
def specRange : List ℚ :=
  [5, 9, 10, 11, 13, 16, 18, 19, 20, 22, 23, 25, 27, 30, 32, 35, 36, 38, 40, 42, 45, 48, 50, 52, 53, 54, 55, 57, 60, 61, 62, 125/2, 63, 64, 65, 66]

/-- The absolute magnitudes of the six bands, in hundredths (`abs_mag.py:71-298`). -/
def absTable : Band → List ℤ
  | .u => [-580, -492, -378, -275, -151, -54, 17, 114, 272, 355, 364, 412, 452, 524, 540, 552, 597, 629, 665, 723, 752, 817, 866, 974, 1058, 1118,
           1219, 1274, 1333, 1392, 1411, 1495, 1535, 1715, 1812, 1937]
  | .g => [-541, -460, -353, -262, -169, -105, -58, 28, 163, 239, 249, 292, 331, 408, 428, 443, 483, 507, 535, 586, 603, 657, 698, 779, 848, 897,
           965, 1018, 1068, 1120, 1152, 1221, 1268, 1402, 1507, 1638]
  | .r => [-502, -428, -328, -249, -187, -156, -133, -58, 54, 123, 134, 172, 210, 292, 316, 334, 369, 385, 405, 449, 454, 497, 530, 584, 638, 676,
           711, 762, 803, 848, 893, 947, 1001, 1089, 1202, 1339]
  | .i => [-465, -393, -293, -216, -161, -133, -110, -35, 72, 140, 149, 183, 218, 293, 313, 331, 361, 375, 391, 433, 438, 478, 508, 560, 606, 638,
           671, 708, 739, 770, 808, 846, 881, 938, 1029, 1127]
  | .z => [-430, -357, -261, -190, -135, -110, -93, -17, 89, 155, 164, 193, 226, 302, 315, 333, 362, 372, 389, 429, 432, 472, 501, 549, 593, 622,
           651, 678, 701, 724, 756, 783, 814, 862, 935, 1003]
  | .y => [-496, -418, -305, -222, -195, -150, -127, -61, 32, 96, 99, 138, 179, 251, 257, 274, 304, 311, 336, 370, 376, 416, 461, 498, 543, 580,
           607, 638, 645, 686, 697, 725, 752, 782, 839, 860]

/-- `spec_type` (`spec_type.py:32-87`): `interp1d` continued by its end values is `np.interp`. -/
def specType (mass : ℚ) : ℚ := MoSum.interp massTable mass

/-- The table of a band. -/
def bandTable (b : Band) : List (ℚ × ℚ) := specRange.zip ((absTable b).map fun n : ℤ => (n : ℚ) / 100)

/-- One entry of the result of `abs_mag` (`abs_mag.py:299-318`). -/
def absMag (b : Band) (spec : ℚ) : ℚ := MoSum.interp (bandTable b) spec

/-- The list `abs_all` (`abs_mag.py:311-318`). -/
def absAll (spec : ℚ) : List ℚ := [absMag .z spec, absMag .y spec, absMag .i spec, absMag .r spec, absMag .g spec, absMag .u spec]

/-- `bands` (`abs_mag.py:319`, `starcount_bymass.py:74`). -/
def bands : List Band := [.z, .y, .i, .r, .g, .u]

/-- The absolute magnitude `dist_calc` picks (`starcount_bymass.py:75-77`). -/
def pick (mass : ℚ) (band : Band) : Option ℚ := (absAll (specType mass))[bands.idxOf band]?

end Verif.Stars
