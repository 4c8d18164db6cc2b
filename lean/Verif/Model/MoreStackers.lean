import Mathlib.Algebra.BigOperators.Group.List.Basic
import Verif.Model.MoMetrics
import Verif.Model.MoStackers

/-!
# Depth, distance, refraction and label stackers

`teff_stacker.py`, `sn_stacker.py`, `m5_optimal_stacker.py`, `neo_dist_stacker.py`,
`label_stackers.py`, `coord_stackers.py` and parts of `general_stackers.py` in
`rubin_sim/maf/stackers/`. Over the real numbers, for one visit unless said otherwise.
-/

namespace Verif.Stack2

open Real
open Verif.MoStack (radians degrees)

/-! ## Effective exposure times and coadded depths -/

/-- `compute_teff` for one visit, `teff_stacker.py:77-83`, with the fiducial depth of its band. -/
noncomputable def teff (base fid : ℝ) (normed : Bool) (exptime m5 : ℝ) : ℝ :=
  let t := base * 10 ^ (0.8 * (m5 - fid))
  if normed then t / exptime else t

/-- `CoaddStacker.m5_coadd`, `sn_stacker.py:152`. -/
noncomputable def m5Coadd (m5 : List ℝ) : ℝ :=
  1.25 * logb 10 (m5.map fun m => (10 : ℝ) ^ (0.8 * m)).sum

section Coadd

variable {K : Type} [Field K] [LinearOrder K]

/-- The columns used by `CoaddStacker`, `sn_stacker.py:47-57`. -/
structure Visit (K : Type) where
  ra : K
  dec : K
  band : ℕ
  night : ℤ
  m5 : K
  numExposures : K
  visitTime : K
  exposureTime : K

/-- `idx`, `sn_stacker.py:77-79`. -/
def near (tol : K) (key : K × K × ℕ) (v : Visit K) : Bool :=
  decide (|v.ra - key.1| < tol) && decide (|v.dec - key.2.1| < tol) && decide (v.band = key.2.2)

/-- `fill`, `sn_stacker.py:108-135`, on the visits of one group; `coadd` is `m5_coadd`. -/
def fill (coadd : List K → K) (band : ℕ) (tab : List (Visit K)) : Visit K where
  ra := Mo.median (tab.map (·.ra))
  dec := Mo.median (tab.map (·.dec))
  band := band
  night := (tab.map (·.night)).headD 0
  m5 := coadd (tab.map (·.m5))
  numExposures := (tab.map (·.numExposures)).sum
  visitTime := (tab.map (·.visitTime)).sum
  exposureTime := (tab.map (·.exposureTime)).sum

/-- The groups of visits of `CoaddStacker._run`, `sn_stacker.py:76-84`. `np.unique` sorts, here the
groups have the order of first appearance. The median of equal nights is the night. -/
def groups (tol : K) (data : List (Visit K)) : List (ℕ × List (Visit K)) :=
  (data.map fun v => (v.ra, v.dec, v.band)).dedup.flatMap fun key =>
    let sel := data.filter (near tol key)
    (sel.map (·.night)).dedup.map fun night => (key.2.2, sel.filter fun v => decide (v.night = night))

/-- `CoaddStacker._run`, `sn_stacker.py:74-87`; the tolerance is 1.0e-5 in the code. -/
def coaddRun (coadd : List K → K) (tol : K) (data : List (Visit K)) : List (Visit K) :=
  (groups tol data).map fun g => fill coadd g.1 g.2

end Coadd

/-! ## Depths on the meridian -/

/-- `min_airmass_possible`, `m5_optimal_stacker.py:108-109` and `general_stackers.py:253-254`, in
radians. -/
noncomputable def minAirmass (lat dec : ℝ) : ℝ := 1 / cos |dec - lat|

/-- `NormAirmassStacker._run`, `general_stackers.py:250-255`; the latitude is in degrees. -/
noncomputable def normAirmass (isDeg : Bool) (latDeg airmass dec : ℝ) : ℝ :=
  let dec := if isDeg then radians dec else dec
  airmass / minAirmass (radians latDeg) dec

/-- `k_atm` and `sky_slopes`, `m5_optimal_stacker.py:96-107`. Bands are u, g, r, i, z, y. -/
noncomputable def kAtm : Fin 6 → ℝ := ![0.50, 0.21, 0.13, 0.10, 0.07, 0.18]
noncomputable def skySlopes : Fin 6 → ℝ :=
  ![-0.27840980367303503, -0.52611780327408397, -0.61378749766766827, -0.67898669252082422,
    -0.69652846002009128, -0.69635091524779691]

/-- `M5OptimalStacker._run`, `m5_optimal_stacker.py:108-125`; `lat` in radians, `dec` in
degrees. -/
noncomputable def m5Optimal (lat : ℝ) (band : Fin 6) (dec airmass moonAlt sunAlt m5 : ℝ) : ℝ :=
  let xmin := minAirmass lat (radians dec)
  let deltaSky := if moonAlt > 0 ∨ sunAlt > radians (-18) then 0 else skySlopes band * (airmass - xmin)
  m5 - 0.5 * deltaSky - 0.15 * logb 10 (xmin / airmass) - kAtm band * (xmin - airmass)

/-- `cols_req` of `M5OptimalStacker` for the default arguments, `m5_optimal_stacker.py:63-71`,
83-91. -/
def m5ColsReq : List String :=
  ["airmass", "fieldDec", "skyBrightness", "seeingFwhmEff", "filter", "moonAlt", "sunAlt"]

/-- The columns that `_run` reads, `m5_optimal_stacker.py:108-124`. -/
def m5ColsRead : List String :=
  ["fieldDec", "filter", "airmass", "moonAlt", "sunAlt", "fiveSigmaDepth"]

/-! ## Distances of near earth objects -/

/-- `R`, `neo_dist_stacker.py:83`. -/
noncomputable def helioDist (elong d : ℝ) : ℝ := √(1 + d ^ 2 - 2 * d * cos elong)

/-- `(1.0 - R**2 - self.deltas**2) / (-2.0 * self.deltas * R)`, the cosine of the phase angle,
`neo_dist_stacker.py:85`. -/
noncomputable def cosAlpha (elong d : ℝ) : ℝ :=
  (1 - helioDist elong d ^ 2 - d ^ 2) / (-2 * d * helioDist elong d)

/-- `appmag`, `neo_dist_stacker.py:85-91`. -/
noncomputable def neoMag (h elong d : ℝ) : ℝ :=
  let ta2 := tan (arccos (cosAlpha elong d) / 2)
  let phi1 := exp (-3.33 * ta2 ^ (0.63 : ℝ))
  let phi2 := exp (-1.87 * ta2 ^ (1.22 : ℝ))
  h + 5 * logb 10 (helioDist elong d * d) - 2.5 * logb 10 ((1 - 0.15) * phi1 + 0.15 * phi2)

/-- `MaxGeoDist`, `neo_dist_stacker.py:95-101`, for the magnitudes `mag` at the increasing
distances `deltas`. -/
noncomputable def maxGeoDist (mag : ℝ → ℝ) (v5 : ℝ) (deltas : List ℝ) : ℝ :=
  ((deltas.filter fun d => decide (v5 < mag d)).min?).getD 0

/-- `NEOHelioX` before the flip and `NEOHelioY`, `neo_dist_stacker.py:104-112`. -/
noncomputable def helioXY (elong d : ℝ) : ℝ × ℝ :=
  if elong ≤ π / 2 then (d * sin elong, -d * cos elong + 1)
  else (d * sin (π - elong), d * cos (π - elong) + 1)

/-- `halfval`, `neo_dist_stacker.py:115-118`, from the smallest azimuth. -/
noncomputable def halfval (azMin : ℝ) : ℝ := if azMin < -π / 2 then 180 else π

/-- `flip`, `neo_dist_stacker.py:119-122`. -/
def flip (half sunAz az : ℝ) : Prop := (sunAz > half ∧ az > half) ∨ (sunAz < half ∧ az > half)

/-! ## Labels -/

/-- `s.replace("u,", "")` -/
def dropU : List Char → List Char
  | 'u' :: ',' :: s => dropU s
  | c :: s => c :: dropU s
  | [] => []

/-- `define_ddname`, `label_stackers.py:78-81`. -/
def ddName (note : List Char) : List Char := (dropU note).takeWhile (· ≠ ',')

/-- `WFDlabelStacker._run` for one visit, `label_stackers.py:96-113`: `disc` has the values of the
footprint in the healpixels of the visit. Strings are cut to 15 characters. `nan >= x` is false. -/
def label {K : Type} [Field K] [LinearOrder K] (threshold : K) (name : List Char)
    (excludeDd : Bool) (note : List Char) (disc : List K) : List Char :=
  let l :=
    if ['D', 'D'].isPrefixOf note && excludeDd then ddName note
    else if disc ≠ [] ∧ threshold ≤ disc.sum / disc.length then name
    else ['N', 'U', 'L', 'L']
  l.take 15

/-! ## Altitude and azimuth -/

/-- `np.where(x < -1, -1, x)` and `np.where(x > 1, 1, x)` -/
noncomputable def clip1 (x : ℝ) : ℝ :=
  let x := if x < -1 then -1 else x
  if x > 1 then 1 else x

/-- `ra_dec2_alt_az`, `coord_stackers.py:60-78`, from the hour angle. -/
noncomputable def altAz (dec lat ha : ℝ) : ℝ × ℝ :=
  let sinalt := clip1 (sin dec * sin lat + cos dec * cos lat * cos ha)
  let alt := arcsin sinalt
  let cosaz := clip1 ((sin dec - sin alt * sin lat) / (cos alt * cos lat))
  let az := arccos cosaz
  (alt, if sin ha > 0 then 2 * π - az else az)

/-- `wrap_ra`, `coord_stackers.py:27`. -/
noncomputable def wrapRa (ra : ℝ) : ℝ := ra - 2 * π * ⌊ra / (2 * π)⌋

/-- `GalacticStacker._run`, `coord_stackers.py:110-119`: `toGal` is the transformation of the
library, in radians. -/
noncomputable def galactic (toGal : ℝ → ℝ → ℝ × ℝ) (isDeg : Bool) (ra dec : ℝ) : ℝ × ℝ :=
  if isDeg then toGal (radians ra) (radians dec) else toGal ra dec

/-- `units`, `coord_stackers.py:99-102`. -/
def galacticUnits (isDeg : Bool) : List String :=
  if isDeg then ["degrees", "degrees"] else ["radians", "radians"]

/-! ## Refraction -/

/-- `DcrStacker._run`, `general_stackers.py:467-480`: `ra_dcr_amp` and `dec_dcr_amp`. -/
noncomputable def dcr (isDeg : Bool) (mag zd pa : ℝ) : ℝ × ℝ :=
  let zd := if isDeg then radians zd else zd
  let pa := if isDeg then radians pa else pa
  (mag * (tan zd * sin pa), mag * (tan zd * cos pa))

/-- `Dcr2Stacker._run`, `general_stackers.py:621-645`. -/
structure Moments where
  var : ℝ
  ra : ℝ
  dec : ℝ
  cov : ℝ

noncomputable def dcr2 (isDeg : Bool) (mag zd pa : ℝ) : Moments :=
  let zd := if isDeg then radians zd else zd
  let pa := if isDeg then radians pa else pa
  let v := tan zd ^ 2
  { var := mag * v
    ra := mag * (v * sin pa ^ 2)
    dec := mag * (v * cos pa ^ 2)
    cov := mag * (v * sin pa * cos pa) }

/-- The attributes `zstacker` and `pastacker` of a `Dcr2Stacker`, `general_stackers.py:590-606`;
`none` if there is no such attribute. -/
def dcr2Init {Z P : Type} (zDefault : Z) (pDefault : P) (z : Option Z) (p : Option P) :
    Option Z × Option P :=
  (match z with
    | none => some zDefault
    | some _ => none,
   match p with
    | none => some pDefault
    | some q => some q)

/-- The stackers that `_run` uses, `general_stackers.py:618-619`; `none` is the
`AttributeError`. -/
def dcr2Uses {Z P : Type} : Option Z × Option P → Option (Z × P)
  | (some z, some p) => some (z, p)
  | _ => none

end Verif.Stack2
