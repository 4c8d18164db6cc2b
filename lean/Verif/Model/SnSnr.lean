import Mathlib.Analysis.Real.Sqrt
import Verif.Model.AreaMetrics
import Verif.Model.OneDSlicer

/-!
# Signal to noise of supernovae against fake observations

`rubin_sim/maf/metrics/sn_snr_metric.py` and `rubin_sim/maf/utils/sn_utils.py`.

Floats are elements of an ordered field, or real numbers where there are roots.  The arrays of the reference files and their interpolation are
parameters.  Rows with the same time are sorted in some order.  Exceptions are values.  Contours, plots and the interpolation of `Lims` are left out.
-/

namespace Verif.SnSnr

open Verif.Np

inductive PyErr | value | type | key | attribute
  deriving DecidableEq, Repr

/-! ## Columns -/

/-- `cols`, `sn_snr_metric.py:65-77`, for the default names of the columns (36-46). -/
def columns (coadd : Bool) : List String :=
  ["night", "fiveSigmaDepth", "band", "observationStartMJD", "observationId", "numExposures", "visitTime", "visitExposureTime", "season"] ++
    (if coadd then ["coadd"] else [])

/-- The fields of what `snr_slice` gives, for one name of reference data, `sn_snr_metric.py:354-363` and 257-265. -/
def snrFields (name : String) : List String :=
  ["SNR_" ++ name, "season", "cadence", "season_length", "MJD_min", "DayMax", "MJD", "m5_eff", "field_ra", "field_dec", "band", "m5", "nvisits",
    "ExposureTime"]

section
variable {K : Type*} [Field K] [LinearOrder K]

/-! ## Seasons -/

/-- A row of the data: `filter` is the column of this name. -/
structure Visit (K : Type*) where
  filter : String
  mjd : K
  season : K
  nexp : K
  m5 : K

/-- A row of `info_season`, `sn_snr_metric.py:302-313`. -/
structure Season (K : Type*) where
  season : K
  cadence : K
  length : K
  lo : K
  hi : K
  nvisits : K
  m5 : K
  deriving DecidableEq

/-- `season_info`, `sn_snr_metric.py:288-315`. -/
def seasonInfo (vs : List (Visit K)) (season : K) : Option (Season K) :=
  let sel := vs.filter (fun v => decide (v.season = season))
  if sel.length < 5 then none
  else
    let ts := sort (sel.map Visit.mjd)
    match ts.head?, ts.getLast?, Area.median (sel.map Visit.nexp), Area.median (sel.map Visit.m5) with
    | some a, some b, some n, some m => some ⟨season, (diff ts).sum / ((diff ts).length : K), b - a, a, b, n, m⟩
    | _, _, _, _ => none

/-- `sn_snr_metric.py:709-713`: each season but the first begins at least 20 days after the end of the one before; `prev` is this end. -/
def moveStarts (prev : K) : List (Season K) → List (Season K)
  | [] => []
  | s :: rest => (if s.lo - prev < 20 then { s with lo := prev + 20, length := s.hi - (prev + 20) } else s) :: moveStarts s.hi rest

/-- `check_seasons`, `sn_snr_metric.py:705-715`, for at least one season. -/
def checkSeasons : List (Season K) → List (Season K)
  | [] => []
  | [s] => [s]
  | s :: rest => (s :: moveStarts s.hi rest).filter (fun x => decide (30 < x.length))

/-- Which seasons are asked for, `sn_snr_metric.py:116-122`: −1 are all. -/
inductive Wanted (K : Type*)
  | all
  | these (l : List K)

/-- `sn_snr_metric.py:116-119`. -/
def wantedOf (w : Wanted K) (vs : List (Visit K)) : List K :=
  match w with
  | .all => (sort (vs.map Visit.season)).dedup
  | .these l => l

/-- The seasons before the check, `sn_snr_metric.py:124-131`. -/
def infos (w : Wanted K) (vs : List (Visit K)) : List (Season K) :=
  (wantedOf w vs).filterMap (fun s => (seasonInfo vs s).filter (fun i => decide (10 ≤ i.length)))

/-! ## Days of maximum -/

variable [FloorRing K]

/-- The dates of one season, `sn_snr_metric.py:225`. -/
def dates (s : Season K) : List K := Slicers.arange (s.lo + 10) (s.hi + 1) 1

/-- The days of maximum of one season, `sn_snr_metric.py:235`. -/
def daysMax (s : Season K) : List K := (dates s).map (· - 10)

/-- All of them, `sn_snr_metric.py:223-235`: `None` cannot be subtracted from. -/
def allDays (l : List (Season K)) : Except PyErr (List K) := if l = [] then .error .type else .ok (l.flatMap daysMax)

/-- `get_season`, `sn_snr_metric.py:393-399`: the mean of the seasons with the day in them, none if it is masked. -/
def getSeason (l : List (Season K)) (t0 : K) : Option K :=
  let g := l.filter (fun s => decide (0 ≤ t0 - s.lo) && decide (0 ≤ -t0 + s.hi))
  if g = [] then none else some ((g.map Season.season).sum / (g.length : K))

/-- `infos`, `sn_snr_metric.py:254-255`: the row for a day is found by the place of its season among the seasons of all days in order. -/
def infoOf (l : List (Season K)) (days : List K) (t0 : K) : Option (Season K) :=
  let all := (sort (days.filterMap (getSeason l))).dedup
  (getSeason l t0).bind (fun s => l[all.idxOf s]?)

/-! ## Fake observations -/

/-- A configuration: what is there for the keys. -/
structure Config (K : Type*) where
  bands : List String
  cadence : List K
  shiftDays : K
  m5 : List K
  nvisits : List K
  exposureTime : Option (List K)
  ra : Option K
  dec : Option K
  seasons : List K
  mjdMin : List K
  seasonLength : K

structure Fake (K : Type*) where
  mjd : K
  band : String
  m5 : K
  nexp : K
  exptime : K
  season : K
  deriving DecidableEq

/-- `m5_coadd`, `sn_utils.py:296`; `log10` is the logarithm. -/
def m5Coadd (log10 : K → K) (m5 n t : K) : K := m5 + (5 / 4) * log10 (n * t / 30)

/-- `dict(zip(bands, values))[band]`: the last one of a band that is there more than once. -/
def byBand (bands : List String) (vals : List K) (b : String) : Option K := (bands.zip vals).reverse.lookup b

/-- The times of one band in one season, `sn_utils.py:249-254`. -/
def fakeTimes (a len c shift : K) : List K := (Slicers.arange a (a + len + c) c).map (· + shift)

/-- The rows of one band and season, `sn_utils.py:252-272`. -/
def fakeRows (log10 : K → K) (c : Config K) (expo : List K) (season a : K) (b : String) : Except PyErr (List (Fake K)) :=
  match byBand c.bands c.cadence b, byBand c.bands ((List.range c.bands.length).map (fun i : ℕ => c.shiftDays * (i : K))) b,
    byBand c.bands c.m5 b, byBand c.bands c.nvisits b, byBand c.bands expo b with
  | some cad, some sh, some m, some n, some e => .ok ((fakeTimes a c.seasonLength cad sh).map (fun t => ⟨t, b, m5Coadd log10 m n e, n, n * e, season⟩))
  | _, _, _, _, _ => .error .key

/-- The loops, `sn_utils.py:247-272`, as pairs of season with its first day and band; the days are at least as many as the seasons. -/
def fakeAll (log10 : K → K) (c : Config K) (expo : List K) : List ((K × K) × String) → Except PyErr (List (Fake K))
  | [] => .ok []
  | x :: l =>
    match fakeRows log10 c expo x.1.1 x.1.2 x.2 with
    | .error e => .error e
    | .ok r =>
      match fakeAll log10 c expo l with
      | .error e => .error e
      | .ok rs => .ok (r ++ rs)

/-- `make_fake`, `sn_utils.py:236-277`; keys that are not there are exceptions, and so is an array of nothing (274). -/
def makeFake (log10 : K → K) (c : Config K) : Except PyErr (List (Fake K)) :=
  match c.exposureTime, c.ra, c.dec with
  | some e, some _, some _ =>
    let pairs := (c.seasons.zip c.mjdMin).flatMap (fun s => c.bands.map (fun b => (s, b)))
    if pairs = [] then .error .value
    else
      match fakeAll log10 c e pairs with
      | .error e => .error e
      | .ok r => .ok (r.insertionSort (fun x y => x.mjd ≤ y.mjd))
  | _, _, _ => .error .key

/-- The configuration of one season, `sn_snr_metric.py:469-481`: the keys are `Ra`, `Dec` and `Exposure_Time`. -/
def fakeConfig (log10 : K → K) (band : String) (s : Season K) : Config K :=
  { bands := [band], cadence := [s.cadence], shiftDays := 0, m5 := [s.m5 - (5 / 4) * log10 (s.nvisits * 30 / 30)], nvisits := [s.nvisits],
    exposureTime := none, ra := none, dec := none, seasons := [s.season], mjdMin := [s.lo], seasonLength := s.length }

/-- `gen_fakes`, `sn_snr_metric.py:455-487`: the object has `observations` and not `Observations` (482). -/
def genFakes (log10 : K → K) (band : String) : List (Season K) → Except PyErr (List (Fake K))
  | [] => .ok []
  | s :: _ =>
    match makeFake log10 (fakeConfig log10 band s) with
    | .error e => .error e
    | .ok _ => .error .attribute

/-! ## The detection rate -/

/-- `detection_rate`, `sn_snr_metric.py:659-689`: the means of fields which have to be there, then for each season the part of the days on which
the observations are not below the fakes; `days` are the days of a season and the values of both. -/
def detectionRate (fields : List String) (days : List (List (K × K))) : Except PyErr (List K) :=
  if "fieldRA" ∉ fields then .error .value
  else if "fieldDec" ∉ fields then .error .value
  else .ok (days.map (fun d => (d.countP (fun x => decide (0 ≤ x.1 - x.2)) : K) / (d.length : K)))

/-- `process`, `sn_snr_metric.py:168-178`: the signal to noise of the observations, of the fakes, and the rate; `days` gives the values on the days. -/
def process (log10 : K → K) (name band : String) (days : List (Fake K) → List (List (K × K))) (l : List (Season K)) : Except PyErr (List K) :=
  match allDays l with
  | .error e => .error e
  | .ok _ =>
    match genFakes log10 band l with
    | .error e => .error e
    | .ok f => detectionRate (snrFields name) (days f)

/-- `run`, `sn_snr_metric.py:110-146`; `cols` are the columns of the data.  The value is none for `None`. -/
def run (log10 : K → K) (name band : String) (days : List (Fake K) → List (List (K × K))) (w : Wanted K) (cols : List String) (vs : List (Visit K)) :
    Except PyErr (Option K) :=
  if "filter" ∉ cols then .error .value
  else
    let good := vs.filter (fun v => ["u", "g", "r", "i", "z", "y"].contains v.filter)
    if good = [] then .ok none
    else
      match infos w good with
      | [] => .ok (some 0)
      | i :: is =>
        let sel := good.filter (fun v => decide (v.season ∈ wantedOf w good))
        if sel.length < 5 then .ok (some 0)
        else
          match process log10 name band days (checkSeasons (i :: is)) with
          | .error e => .error e
          | .ok r => .ok (Area.median r)

end

/-! ## Signal to noise -/

/-- The phase of a visit is used, `sn_snr_metric.py:240-245`. -/
noncomputable def used (z t0 mjd : ℝ) : Bool :=
  decide (-20 ≤ (-t0 + mjd) / (1 + z)) && decide ((-t0 + mjd) / (1 + z) ≤ 10 / (1 + z))

/-- `sn_snr_metric.py:350-352` for one day of maximum: `flux` is the light curve of the reference and `f5` the flux of a depth. -/
noncomputable def snr (z : ℝ) (flux f5 : ℝ → ℝ) (t0 : ℝ) (vs : List (ℝ × ℝ)) : ℝ :=
  5 * √((vs.map (fun v => flux (-t0 + v.1) ^ 2 / f5 v.2 ^ 2 * (if used z t0 v.1 then 1 else 0))).sum)

/-! ## Limits -/

/-- A row of a table of light curves. -/
structure LiRow where
  z : ℝ
  band : String
  flux : ℝ

/-- `get_lims`, `sn_utils.py:72-82`: the limit for a redshift, none if it is not in the table. -/
noncomputable def lim (band : String) (snr : ℝ) (tab : List LiRow) (z : ℝ) : Option ℝ :=
  let sel := tab.filter (fun r => decide (r.z = z) && r.band == "LSST::" ++ band && decide (0 < r.flux))
  if sel = [] then none else some (5 * √((sel.map (fun r => r.flux ^ 2)).sum) / snr)

/-- What is drawn, `sn_utils.py:108`, for a time between visits and a flux of the depth. -/
noncomputable def contourValue (dt f5 : ℝ) : ℝ := √dt * f5

/-- `points_ref`, `sn_utils.py:132-155`: the points of the last of the files. -/
def pointsRef {P : Type*} (perFile : List P) : Option P := perFile.foldl (fun _ p => some p) none

end Verif.SnSnr
