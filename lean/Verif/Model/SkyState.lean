import Mathlib.Analysis.SpecialFunctions.Trigonometric.Arctan
import Mathlib.Algebra.Order.Field.Basic
import Mathlib.Data.Rat.Defs
import Verif.Model.Kne

/-!
# What the sky model remembers, its tables of magnitudes, and small programs around them

Models of parts of `rubin_sim/skybrightness/sky_model.py` and `utils.py`, of
`maf/maf_contrib/presto_color_kne_pop_metric.py`, `maf/stackers/n_follow_stacker.py` and `date_stackers.py`,
`maf/run_comparison/archive.py` and `gather_summaries.py`, `maf/plots/night_pointing_plotter.py`, `xyplotter.py` and
`spatial_plotters.py`, of the summary metrics of stripes and of the static probes, of the paths of satellites and of the
map of dust in three dimensions.  Floats are the elements of an ordered field or reals.  Positions from astropy, spectra,
light curves, the emulator and the plots themselves are inputs.
-/

namespace Verif.SkyS

/-! ## The attributes of the sky model -/

/-- The names that `get_computed_vals` reports, `sky_model.py:458-480`. -/
inductive Attr where
  | ra | dec | alts | azs | airmass | solarFlux | moonPhase | moonAz | moonAlt | sunAlt | sunAz | azRelSun | moonSunSep
  | azRelMoon | eclipLon | eclipLat | moonRa | moonDec | sunRa | sunDec | sunEclipLon
deriving DecidableEq, Repr

/-- The list of `get_computed_vals`, `sky_model.py:458-480`. -/
def attributes : List Attr :=
  [.ra, .dec, .alts, .azs, .airmass, .solarFlux, .moonPhase, .moonAz, .moonAlt, .sunAlt, .sunAz, .azRelSun, .moonSunSep,
    .azRelMoon, .eclipLon, .eclipLat, .moonRa, .moonDec, .sunRa, .sunDec, .sunEclipLon]

/-- How a call of `set_ra_dec_mjd` or `set_ra_dec_alt_az_mjd` ends: an array of dates, exact coordinates asked for, or not. -/
inductive Ends where
  | manyDates | precise | grid
deriving DecidableEq, Repr

/-- The calls that set conditions. `set_ra_dec_mjd`, with `az_alt`; `set_ra_dec_alt_az_mjd`; `set_params`. -/
inductive Kind where
  | radec (azAlt : Bool) | radecAltaz | params
deriving DecidableEq, Repr

/-- A call, with the components that are switched on at the time, and the values it computes. -/
structure Call (V : Type) where
  kind : Kind
  ends : Ends
  twilight : Bool
  moon : Bool
  zodiacal : Bool
  val : Attr → V

/-- What `_setup_point_grid` sets, `sky_model.py:495-561`. -/
def gridSets (twilight moon zodiacal : Bool) : Attr → Bool
  | .sunRa | .sunDec | .sunAlt | .sunAz | .airmass => true
  | .azRelSun => twilight
  | .moonRa | .moonDec | .moonAlt | .moonAz | .moonPhase | .azRelMoon | .moonSunSep => moon
  | .eclipLon | .eclipLat | .sunEclipLon => zodiacal
  | _ => false

/-- What a call sets: `sky_model.py:251-313` for `set_ra_dec_mjd`, 344-381 for `set_ra_dec_alt_az_mjd`, which does not ask
for exact coordinates, and 589-637 for `set_params`. -/
def setsOf (twilight moon zodiacal : Bool) : Kind → Ends → Attr → Bool
  | .params, _, a => !([Attr.ra, .dec, .azRelSun, .moonRa, .moonDec, .sunRa, .sunDec].contains a)
  | .radec _, .manyDates, a => [Attr.ra, .dec].contains a
  | .radec azAlt, .precise, a => [Attr.ra, .dec].contains a || ([Attr.alts, .azs].contains a && azAlt)
  | .radec _, .grid, a => [Attr.ra, .dec, .alts, .azs, .solarFlux].contains a || gridSets twilight moon zodiacal a
  | .radecAltaz, .manyDates, a => [Attr.ra, .dec, .alts, .azs].contains a
  | .radecAltaz, _, a => [Attr.ra, .dec, .alts, .azs, .solarFlux].contains a || gridSets twilight moon zodiacal a

/-- What a call sets. -/
def sets {V : Type} (c : Call V) (a : Attr) : Bool := setsOf c.twilight c.moon c.zodiacal c.kind c.ends a

/-- The attributes after a call. -/
def step {V : Type} (s : Attr → Option V) (c : Call V) : Attr → Option V := fun a => if sets c a then some (c.val a) else s a

/-- The attributes after some calls on a new model, which has none of them but `azs` (line 138, None). -/
def after {V : Type} (cs : List (Call V)) : Attr → Option V := cs.foldl step (fun _ => none)

/-- `get_computed_vals`, `sky_model.py:482-488`. -/
def computedVals {V : Type} (s : Attr → Option V) : List (Attr × Option V) := attributes.map (fun a => (a, s a))

/-! ## New magnitudes for the files of the sky model -/

/-- The bands of `spec2mags`, `utils.py:37`. -/
def bands : List String := ["u", "g", "r", "i", "z", "y"]

/-- The directories of `recalc_mags`, `utils.py:72`. -/
def skyDirs : List String := ["Airglow", "MergedSpec", "ScatteredStarLight", "Zodiacal", "LowerAtm", "Moon", "UpperAtm"]

/-- The magnitudes of a spectrum, `utils.py:57-61`: a band for which `calc_mag` raises a ValueError stays at the zero of
the new array. -/
def magsOf {S K : Type} [Zero K] (mag : S → String → Option K) (s : S) : List K := bands.map (fun b => (mag s b).getD 0)

/-- A file of templates: `spec` is a table of the spectra with their magnitudes and other columns, `extra` the names of
other arrays in the file. -/
structure Npz (S R W K : Type) where
  wave : W
  spec : List (S × List K × R)
  filterWave : List K
  extra : List (String × W)

/-- `recalc_mags` on one file, `utils.py:81-89`. -/
def recalcFile {S R W K : Type} [Zero K] (mag : W → S → String → Option K) (effWave : String → K) (f : Npz S R W K) : Npz S R W K :=
  ⟨f.wave, f.spec.map (fun r => (r.1, magsOf (mag f.wave) r.1, r.2.2)), bands.map effWave, []⟩

/-- `recalc_mags`, `utils.py:77-89`: a file is a directory with a name; those that end in .npz in the directories of the
list are rewritten. -/
def recalc {F : Type} (change : F → F) (npz : String → Bool) (files : List ((String × String) × F)) : List ((String × String) × F) :=
  files.map (fun f => if skyDirs.contains f.1.1 && npz f.1.2 then (f.1, change f.2) else f)

/-! ## The table of the presto metric -/

section
variable {K : Type} [Field K] [LinearOrder K]

/-- The information that comes with the table. -/
structure Info (K : Type) where
  binMag : List K
  binColor : List K
  bandPairs : List String
  dT1s : List K
  dT2s : List K
  timePairs : List (K × K)

/-- `abs(x - grid).argmin()`, `presto_color_kne_pop_metric.py:268-269`: the first of the nearest. -/
def nearestIn (x : K) : List K → Option K
  | [] => none
  | g :: l => match nearestIn x l with
    | none => some g
    | some h => if |x - h| < |x - g| then some h else some g

/-- `np.where(x >= bins)[0][-1]`, `presto_color_kne_pop_metric.py:273-274`. -/
def lastBin (x : K) (bins : List K) : Option ℕ := ((List.range bins.length).filter (fun i => decide (bins.getD i 0 ≤ x))).getLast?

/-- The test of the ranges, `presto_color_kne_pop_metric.py:259-262`, for bins that are there. -/
def inBins (x : K) (bins : List K) : Bool :=
  match bins.head?, bins.getLast? with
  | some a, some b => decide (a ≤ x) && decide (x < b)
  | _, _ => false

/-- What `_enquiry` gives. -/
inductive Ans (K : Type) where
  | rate (x : K) | valueError | indexError
deriving DecidableEq, Repr

/-- `_enquiry`, `presto_color_kne_pop_metric.py:259-276`, for grids of times and bins that are not empty. -/
def enquiry (table : ℕ → ℕ → ℕ → ℕ → K) (info : Info K) (pair : String) (dT1 dT2 dMag color : K) : Ans K :=
  if inBins dMag info.binMag && inBins color info.binColor then
    if info.bandPairs.contains pair then
      match nearestIn dT1 info.dT1s, nearestIn dT2 info.dT2s with
      | some a, some b =>
        if info.timePairs.contains (a, b) then
          match lastBin dMag info.binMag, lastBin color info.binColor with
          | some i, some j => .rate (table (info.bandPairs.idxOf pair) (info.timePairs.idxOf (a, b)) i j)
          | _, _ => .indexError
        else .indexError
      | _, _ => .valueError
    else .valueError
  else .rate 0

/-- The detections of `run`, `presto_color_kne_pop_metric.py:401`; the time is from the peak. -/
def aroundPeak (l : List (Kne.Obs K)) : List (Kne.Obs K) := l.filter (fun v => decide (0 < v.t) && decide (v.t < 30) && decide (v.mag < v.m5))

/-- The light curve of `run`, lines 409-415. -/
def curve (l : List (Kne.Obs K)) : List (Kne.Obs K) := l.filter (fun v => decide (v.mag < 100))

/-- `run`, `presto_color_kne_pop_metric.py:400-432`: `score` is `_get_score` of the light curve.  The parts are the
detection and the two scores. -/
def prestoRun (score : List (Kne.Obs K) → ℕ × K) (l : List (Kne.Obs K)) : ℕ × ℕ × K :=
  if Kne.presto (aroundPeak l) = 1 then (1, score (curve l)) else (Kne.presto (aroundPeak l), 0, 0)

/-! ## Large telescopes -/

/-- Degrees and minutes to degrees, `n_follow_stacker.py:94-97`. -/
def dms (deg min : K) : K := (|deg| + min / 60) * (deg / |deg|)

/-- `find_telescopes`, `n_follow_stacker.py:91-105`: `none` is a KeyError for a place that is not in the table. -/
def telescopes (scopes : List (K × String × String)) (places : List (String × K × K × K × K)) (minSize : K) : Option (List (K × String × K × K)) :=
  (scopes.mapM (fun t => (places.lookup t.2.2).map (fun p => (t.1, t.2.1, dms p.1 p.2.1, dms p.2.2.1 p.2.2.2)))).map
    (·.filter (fun t => decide (minSize ≤ t.1)))

end

/-- The places, `n_follow_stacker.py:67-89`. -/
def places : List (String × ℚ × ℚ × ℚ × ℚ) :=
  [("Cerro Paranal", -24, 38, -70, 24), ("Nizhny Arkhyz", 43, 39, 41, 26), ("Cerro La Silla", -29, 15, -70, 44),
   ("Lowell Observatory", 35, 12, -111, 40), ("Apache Point", 32, 47, -105, 49), ("Mount Hamilton", 37, 21, -121, 38),
   ("South African Astronomical Observatory", -32, 23, 20, 49), ("Cerro Pachon", -30, 20, -70, 59),
   ("Coonabarabran", -31, 17, 149, 4), ("Mt. Fowlkes", 30, 40, -104, 1), ("La Palma", 28, 46, -17, 53),
   ("Mt. Graham", 32, 42, -109, 53), ("Calar Alto", 37, 13, -2, 33), ("British Columbia", 49, 17, -122, 34),
   ("Kitt Peak", 31, 57, -111, 37), ("La Serena", -30, 10, -70, 48), ("Palomar Mountain", 33, 21, -116, 52),
   ("Xinglong Station", 40, 23, 105, 50), ("Mt. Hopkins", 31, 41, -110, 53), ("Cerro Tololo", -30, 10, -70, 49),
   ("Mauna Kea", 19, 50, -155, 28)]

/-- The telescopes, `n_follow_stacker.py:21-59`: aperture, name and place. -/
def scopes : List (ℚ × String × String) :=
  [(104/10, "Gran Canarias", "La Palma"), (10, "Keck", "Mauna Kea"), (10, "Keck II", "Mauna Kea"),
   (92/10, "SALT", "South African Astronomical Observatory"), (92/10, "Hobby-Eberly", "Mt. Fowlkes"),
   (84/10, "Large Binocular Telescope", "Mt. Graham"), (83/10, "Subaru", "Mauna Kea"), (82/10, "Antu", "Cerro Paranal"),
   (82/10, "Kueyen", "Cerro Paranal"), (82/10, "Melipal", "Cerro Paranal"), (82/10, "Yepun", "Cerro Paranal"),
   (81/10, "Gemini North", "Mauna Kea"), (81/10, "Gemini South", "Cerro Pachon"), (65/10, "MMT", "Mt. Hopkins"),
   (65/10, "Walter Baade", "La Serena"), (65/10, "Landon Clay", "La Serena"),
   (6, "Bolshoi Teleskop Azimutalnyi", "Nizhny Arkhyz"), (6, "LZT", "British Columbia"), (5, "Hale", "Palomar Mountain"),
   (43/10, "Dicovery Channel", "Lowell Observatory"), (42/10, "William Herschel", "La Palma"),
   (42/10, "SOAR", "Cerro Pachon"), (42/10, "LAMOST", "Xinglong Station"), (4, "Victor Blanco", "Cerro Tololo"),
   (4, "Vista", "Cerro Paranal"), (39/10, "Anglo-Australian", "Coonabarabran"), (38/10, "Mayall", "Kitt Peak"),
   (38/10, "UKIRT", "Mauna Kea"), (36/10, "360", "Cerro La Silla"), (36/10, "Canada-France-Hawaii", "Mauna Kea"),
   (36/10, "Telescopio Nazionale Galileo", "La Palma"), (35/10, "MPI-CAHA", "Calar Alto"),
   (35/10, "New Technology", "Cerro La Silla"), (35/10, "ARC", "Apache Point"), (35/10, "WIYN", "Kitt Peak"),
   (3, "Shane", "Mount Hamilton"), (3, "NASA IRTF", "Mauna Kea")]

/-! ## Tables of the comparison of runs -/

/-- An argument of `create_metric_subset`: a value for all metrics or a list. -/
inductive Arg (A : Type) where
  | one (a : A) | many (l : List A)

/-- The column for `n` rows; lists of another length are a ValueError of pandas. -/
def Arg.column {A : Type} (n : ℕ) : Arg A → Option (List A)
  | .one a => some (List.replicate n a)
  | .many l => if l.length = n then some l else none

/-- A row of a table of metrics; the index is the name of the subset and of the metric. -/
structure SubRow where
  subset : String
  metric : String
  shortName : String
  style : String
  invert : Bool
  mag : Bool
deriving DecidableEq, Repr

/-- `create_metric_subset`, `archive.py:130-148`: `none` is the ValueError of pandas. -/
def createSubset (name : String) (metrics : List String) (short : Option (Arg String)) (style : Arg String) (invert mag : Arg Bool) : Option (List SubRow) :=
  match (short.getD (.many metrics)).column metrics.length, style.column metrics.length, invert.column metrics.length, mag.column metrics.length with
  | some s, some st, some i, some m => some ((metrics.zip (s.zip (st.zip (i.zip m)))).map (fun r => ⟨name, r.1, r.2.1, r.2.2.1, r.2.2.2.1, r.2.2.2.2⟩))
  | _, _, _, _ => none

/-- `BY_RUN_COLS`, `archive.py:50`. -/
def byRun : List String := ["run", "brief", "filepath", "url"]

/-- The columns of `get_family_descriptions` from a file, `archive.py:481-482`: `none` is the KeyError of pandas. -/
def familyCols (cols : List String) : Option (List String) :=
  if byRun.all (cols.contains ·) then some (cols.filter (fun c => !byRun.contains c) ++ byRun) else none

/-- The arguments of `gather_summaries`. -/
structure Gather where
  outfile : String
  toCsv : Bool
  toHdf : Bool
deriving DecidableEq

/-- The kind of file and its name, `gather_summaries.py:113-125`. -/
def gatherOut (a : Gather) : String × String := if a.toCsv then ("csv", a.outfile ++ ".csv") else ("hdf", a.outfile ++ ".h5")

/-! ## Plots -/

section
variable {K : Type} [Field K] [LinearOrder K]

/-- A visit of a night: its band, time, altitude and azimuth. -/
structure NVis (K : Type) where
  band : String
  mjd : K
  alt : K
  az : K
deriving DecidableEq

/-- The colors of the bands, `night_pointing_plotter.py:25-32`. -/
def bandColor : List (String × String) := [("u", "purple"), ("g", "blue"), ("r", "green"), ("i", "cyan"), ("z", "orange"), ("y", "red")]

/-- The points of the visits in the upper plot, `night_pointing_plotter.py:41-51`: `us` are the bands in the order of
`np.unique`; each point has its color.  `none` is a KeyError. -/
def pointingPoints (us : List String) (l : List (NVis K)) : Option (List (String × K × K)) :=
  (us.mapM (fun b => (bandColor.lookup b).map (fun c => (l.filter (fun v => v.band == b)).map (fun v => (c, v.mjd, v.alt))))).map List.flatten

/-- The track of the moon or the sun, lines 61-68 and 80-81: `deg` is `np.degrees`. -/
def track (deg : K → K) (limit : K) (l : List (K × K)) : List (K × K) := (l.filter (fun p => decide (limit < deg p.2))).map (fun p => (p.1, deg p.2))

end

/-- `dict.update` for the value of one key. -/
def upd {V : Type} (new old : List (String × V)) (k : String) : Option V := (new.lookup k).or (old.lookup k)

/-- The value of a key in `XyPlotter`, `xyplotter.py:23-26`. -/
def xyDict {V : Type} (default user metric : List (String × V)) (k : String) : Option V := (metric.lookup k).or (upd user default k)

/-- What `HealpixPowerSpectrum` draws, `spatial_plotters.py:337-360`: `cl` is the spectrum; `some none` is no figure, and
`none` the ValueError of the maximum of nothing. -/
noncomputable def powerSpectrum (allMasked removeDipole : Bool) (cl : List ℝ) : Option (Option (List (ℕ × ℝ))) :=
  if allMasked then some none
  else
    let ell := (List.range cl.length).filter (fun l => if removeDipole then decide (1 < l) else decide (0 < l))
    if ell = [] then none else some (some (ell.map (fun l => (l, cl.getD l 0 * l * (l + 1) / 2 / Real.pi))))

/-- The declination of the line of the ecliptic, `spatial_plotters.py:609-611`; `inc` is the inclination. -/
noncomputable def eclipticDec (inc ra : ℝ) : ℝ := Real.sin ra * inc

/-- The latitude of the zone of the galaxy, `spatial_plotters.py:630-632`: `sign` is 1 or -1. -/
noncomputable def zone (width taper sign l : ℝ) : ℝ := if |l| ≤ taper then sign * (width * Real.cos (l / taper * Real.pi / 2)) else 0

/-! ## Time stamps -/

/-- The kinds of visits. -/
inductive Form where
  | frame | dict | records
deriving DecidableEq, Repr

/-- A table of visits: names of columns with their values. -/
abbrev Cols (V : Type) := List (String × List V)

/-- Set a column of a table, as in pandas: in its place, or at the end. -/
def setCol {V : Type} (k : String) (c : List V) (t : Cols V) : Cols V :=
  if (t.map Prod.fst).contains k then t.map (fun p => if p.1 == k then (k, c) else p) else t ++ [(k, c)]

/-- The values in a result: as they are, or as dictionaries from the number of the row. -/
inductive Vals (V : Type) where
  | plain (l : List V) | byRow (l : List (ℕ × V))
deriving DecidableEq, Repr

/-- The result of `run`, `date_stackers.py:62-84`: the kind of the result, its columns, and the columns of the argument
afterwards.  `stamp` converts a time.  `none` is a KeyError for the column of the times. -/
def stampRun {V : Type} (stamp : V → V) (mjdCol : String) (form : Form) (override : Bool) (t : Cols V) : Option (Form × List (String × Vals V) × Cols V) :=
  let out (f : Form) (t : Cols V) : List (String × Vals V) :=
    t.map (fun p => (p.1, if f = .dict then .byRow (p.2.mapIdx (fun i v => (i, v))) else .plain p.2))
  if (t.map Prod.fst).contains "start_timestamp" && !override then some (form, t.map (fun p => (p.1, .plain p.2)), t)
  else match t.lookup mjdCol with
    | none => none
    | some m => let t' := setCol "start_timestamp" (m.map stamp) t
      some (form, out form t', if form = .frame then t' else t)

/-! ## Summary metrics -/

/-- A value of a map: masked, not finite, or a number. -/
inductive PixVal where
  | masked | notFinite | num (x : ℚ)
deriving DecidableEq, Repr

/-- `hp.UNSEEN`. -/
def unseen : ℚ := -16375 * 10 ^ 26

/-- The values given to the test of stripes, `cosmology_summary_metrics.py:737-745`. -/
def recast : PixVal → ℚ
  | .masked => unseen
  | .notFinite => unseen
  | .num x => if x = -666 then unseen else x

/-- `StripinessMetric.run`, `cosmology_summary_metrics.py:736-752`: `nside` is the resolution for a number of pixels
(`none` is the ValueError of healpy), the outer `none` stands for the exceptions. -/
def stripRun {R : Type} (npix2nside : ℕ → Option ℕ) (test : List ℚ → ℕ → R) (want : ℕ) (m : List PixVal) : Option R :=
  match npix2nside m.length with
  | none => none
  | some n => if n = want then some (test (m.map recast) n) else none

/-- The summary of the static probes, `static_probes_fom_summary_metric.py:333-386`: the emulator gets the area and the
median of the depths that are positive; `none` is not a number. -/
def probesRun {K R : Type} [Zero K] [LinearOrder K] (pixArea : ℕ → K) (median : List K → Option K) (emulator : K → Option K → R) (m : List (Option K)) : R :=
  let good := m.filterMap (fun x => x.filter (fun v => decide (0 < v)))
  emulator (pixArea good.length) (median good)

/-! ## Satellites and dust -/

/-- `paths_array`, `sat_utils.py:324-341`, for one of the four arrays: `at` is the value for a satellite at a time;
`none` is the ValueError of `np.vstack` of nothing. -/
def pathsArray {S T V : Type} (at' : S → T → V) (sats : List S) (times : List T) : Option (List (List V)) :=
  if sats = [] then none else some (sats.map (fun s => times.map (at' s)))

/-- What `DustMap3D.run` sets, `dust_map_3d.py:134-137`; `fmt` is the format with one decimal. -/
def dustKeys {K : Type} (fmt : K → String) (dist dmag : K) : List String :=
  ["ebv3d_dists", "ebv3d_ebvs", "ebv3d_ebv_at_" ++ fmt dist, "ebv3d_dist_at_" ++ fmt dmag]

/-- The names of the map, `dust_map_3d.py:95-100`. -/
def dustKeynames {K : Type} (fmt : K → String) (dist dmag : K) : List String :=
  ["ebv3d_ebvs", "ebv3d_dists", "ebv3d_ebv_at_" ++ fmt dist, "ebv3d_dist_at_" ++ fmt dmag]

/-- Where the map looks, `dust_map_3d.py:105-125`: the resolution and, if the slicer has none, whether it interpolates. -/
def dustLook (mapNside : ℕ) (interp : Bool) (slicerNside : Option ℕ) : ℕ × Bool :=
  match slicerNside with
  | some n => (n, false)
  | none => (mapNside, interp)

end Verif.SkyS
