import Mathlib.Algebra.Order.Floor.Defs
import Mathlib.Algebra.Order.Field.Basic
import Mathlib.Analysis.SpecialFunctions.Log.Base
import Mathlib.Analysis.SpecialFunctions.Pow.Real

/-!
# Templates of the sky, visibility of fields, and a slicer for images

`rubin_sim/skybrightness/data/ESO_Spectra/eso_tools.py`, `rubin_sim/skybrightness/allsky_db.py` (with the reader in `interp_components.py`),
`rubin_sim/maf/maf_contrib/calculate_lsst_field_visibility_astropy.py`, `rubin_sim/maf/slicers/healpix_sdss_slicer.py`.

The altitudes of the target and of the sun are arbitrary functions of time; the program that makes the spectra, the tree search and the test whether a
point is in a polygon are arbitrary functions.  Databases are lists of rows.
-/

namespace Verif.Eso

inductive PyErr
  | value | type | key
  deriving DecidableEq, Repr

/-! ## Visibility of a field -/

section
variable {K : Type*} [Field K] [LinearOrder K] [FloorRing K]

/-- `np.arange(a, b, d)` -/
def arange (a b d : K) : List K := (List.range ⌈(b - a) / d⌉.toNat).map fun i : ℕ => a + (i : K) * d

/-- `calculate_lsst_field_visibility_fast` (`calculate_lsst_field_visibility_astropy.py:152-170`). -/
def visibleFast (alt sun : K → K) (start stop minAlt sunLimit rate : K) : K × List K :=
  let dates := arange start (stop + rate / 2) rate
  let dates := dates.filter (fun t => decide (minAlt ≤ alt t))
  let dates := dates.filter (fun t => decide (sun t ≤ sunLimit))
  ((dates.length : K) * rate, dates)

/-- One date of `calculate_lsst_field_visibility` (`calculate_lsst_field_visibility_astropy.py:62-105`): the time in days. -/
def visibleNight (alt sun : K → K) (minAlt sunLimit rate d : K) : Except PyErr K :=
  let ts := (arange 0 1 rate).map (fun i => d + i)
  let down := ts.filter (fun t => decide (sun t < sunLimit))
  if down = [] then .error .value
  else
    let idx := down.filter (fun t => decide (minAlt ≤ alt t))
    .ok (if idx = [] then 0 else rate * (idx.length : K))

def visibleNights (alt sun : K → K) (minAlt sunLimit rate : K) : List K → Except PyErr (List K)
  | [] => .ok []
  | d :: ds =>
    match visibleNight alt sun minAlt sunLimit rate d with
    | .error e => .error e
    | .ok v => match visibleNights alt sun minAlt sunLimit rate ds with
      | .error e => .error e
      | .ok vs => .ok (v :: vs)

/-- `calculate_lsst_field_visibility` (`calculate_lsst_field_visibility_astropy.py:53-107`): the total in days and the hours of each night. -/
def visible (alt sun : K → K) (start stop minAlt sunLimit rate : K) : Except PyErr (K × List K) :=
  match visibleNights alt sun minAlt sunLimit rate (arange start stop 1) with
  | .error e => .error e
  | .ok vs => .ok (vs.foldl (· + ·) 0, vs.map (· * 24))

end

/-! ## Merging and splitting templates -/

/-- One magnitude of `merged_spec` (`eso_tools.py:250-260`), from the magnitudes of the components; `z` is the logarithm of 3631. -/
noncomputable def merged (z : ℝ) (ms : List ℝ) : ℝ :=
  -2.5 * Real.logb 10 (ms.foldl (fun acc m => acc + (if m = 0 then 0 else (10 : ℝ) ^ (-0.4 * (m - z)))) 0) + z

/-- `np.linspace(0, n, k + 1, dtype=int)[i]` (`eso_tools.py:335,487`). -/
def cut (n k i : ℕ) : ℕ := i * n / k

/-- The rows of file `i` (`eso_tools.py:337-343,489-495`). -/
def part {α : Type*} (rows : List α) (k i : ℕ) : List α := (rows.take (cut rows.length k (i + 1))).drop (cut rows.length k i)

/-- The files that are written, with their names. -/
def files {α : Type*} (stem : String) (rows : List α) (k : ℕ) : List (String × List α) :=
  (List.range k).map (fun i => (stem ++ toString i ++ ".npz", part rows k i))

/-- `load_spec_files` on the sorted names (`interp_components.py:169-170`, `114-146`). -/
def load {α : Type*} (fs : List (String × List α)) : List α := ((fs.mergeSort (fun a b => decide (a.1 ≤ b.1))).map Prod.snd).flatten

section
variable {K : Type*}

/-- The rows of `generate_zodi`, before they are sorted (`eso_tools.py:458-465`). -/
def zodiRows (ams : List K) (nhp : ℕ) : List (K × ℕ) := (List.range nhp).flatMap (fun h => ams.map (fun a => (a, h)))

/-- The rows of `generate_moon` (`eso_tools.py:296-312`). -/
def moonRows (seps alts : List K) (hps : List ℕ) : List (K × K × ℕ) :=
  seps.flatMap (fun s => alts.flatMap (fun a => hps.map (fun h => (s, a, h))))

variable [LinearOrder K]

/-- The order of `sort(order=["airmass", "hpid"])` (`eso_tools.py:483`). -/
def lt2 (x y : K × ℕ) : Prop := x.1 < y.1 ∨ (x.1 = y.1 ∧ x.2 < y.2)

/-- The order of `sort(order=["moonSunSep", "moonAltitude", "hpid"])` (`eso_tools.py:332`). -/
def lt3 (x y : K × K × ℕ) : Prop := x.1 < y.1 ∨ (x.1 = y.1 ∧ (x.2.1 < y.2.1 ∨ (x.2.1 = y.2.1 ∧ x.2.2 < y.2.2)))

end

/-- The fields of the table that a generator writes (`eso_tools.py:165-170,212-217,318-324,371-376,418-423,471-476`); `merged_spec` copies those of
the lower atmosphere. -/
def written (comp : String) : Option (List String) :=
  if comp = "Airglow" then some ["airmass", "solar_flux", "spectra", "mags"]
  else if comp = "LowerAtm" ∨ comp = "UpperAtm" ∨ comp = "ScatteredStarLight" ∨ comp = "MergedSpec" then some ["airmass", "nightTimes", "spectra", "mags"]
  else if comp = "Moon" then some ["hpid", "moonAltitude", "moonSunSep", "spectra", "mags"]
  else if comp = "Zodiacal" then some ["airmass", "hpid", "spectra", "mags"]
  else none

/-- The dimensions that a reader wants (`interp_components.py:164,317,692,755`). -/
def wanted (comp : String) : Option (List String) :=
  if comp = "Airglow" then some ["airmass", "solarFlux"]
  else if comp = "LowerAtm" ∨ comp = "UpperAtm" ∨ comp = "ScatteredStarLight" ∨ comp = "MergedSpec" then some ["airmass", "nightTimes"]
  else if comp = "Moon" then some ["moonSunSep", "moonAltitude", "hpid"]
  else if comp = "Zodiacal" then some ["airmass", "hpid"]
  else none

/-- Reading the dimensions (`interp_components.py:186-188`). -/
def readDims (fields dims : List String) : Except PyErr Unit := if dims.all (fun d => fields.contains d) then .ok () else .error .value

/-- The ecliptic latitude for which the spectrum of a pixel with colatitude `theta` is made, in degrees (`eso_tools.py:453`). -/
def zodiLat {K : Type*} [Field K] (theta : K) : K := theta - 90

/-- The colatitude at which a point is looked up, in degrees (`interp_components.py:776`). -/
def zodiTheta {K : Type*} [Field K] (altEclip : K) : K := 90 - altEclip

/-! ## Databases of the sky -/

structure SkyStar where
  id : ℤ
  ra : ℚ
  dec : ℚ
  deriving DecidableEq

structure SkyObs where
  starId : ℤ
  dateId : ℤ
  filter : String
  alt : ℚ
  starMag : ℚ
  sky : ℚ
  deriving DecidableEq

/-- `"%i" % x` -/
def trunc (x : ℚ) : ℤ := if 0 ≤ x then ⌊x⌋ else ⌈x⌉

/-- `all_sky_db` (`allsky_db.py:40-65`) with the default query: the rows and the date. -/
def allSky (stars : List SkyStar) (obs : List SkyObs) (dates : List (ℤ × ℚ)) (dateId : ℚ) (filt : String) :
    List (SkyStar × SkyObs) × Option ℚ :=
  (obs.flatMap (fun o => (stars.filter (fun s => decide (o.starId = s.id) && decide (o.filter = filt) && decide (o.dateId = trunc dateId))).map (fun s => (s, o))),
    ((dates.filter (fun d => decide (d.1 = trunc dateId))).head?).map Prod.snd)

structure Diode where
  mjd : ℚ
  r : ℚ
  y : ℚ
  z : ℚ
  deriving DecidableEq

/-- `diode_sky_db` (`allsky_db.py:70-93`); `env` is the environment variable. -/
def diode (env addr : Option String) (table : String → List Diode) (mid : ℚ) (clean : Bool) : Except PyErr (List Diode) :=
  match (match addr with
    | some a => Except.ok a
    | none => match env with
      | none => Except.error PyErr.type
      | some e => Except.ok ("sqlite:///" ++ e ++ "/photometry/skydata.sqlite")) with
  | .error e => .error e
  | .ok a =>
    let data := (table a).filter (fun d => decide (mid - 1 < d.mjd) && decide (d.mjd < mid + 1))
    .ok (if clean then data.filter (fun d => decide (0 < d.r) && decide (0 < d.z) && decide (0 < d.y)) else data)

/-! ## Images with corners -/

/-- `HealpixSDSSSlicer._slice_sim_data` (`healpix_sdss_slicer.py:58-109`): the images are `0, …, n-1`; `dist` is the distance of the first corner from
the point, `near` an enumeration of the ones that the tree finds, `inside` whether the point is in the polygon of the corners. -/
def imagesAt (near : List ℕ) (inside : ℕ → Bool) : List ℕ :=
  near.foldl (fun acc i => if inside i then acc ++ [i] else acc) []

end Verif.Eso
