import Mathlib.Data.Finset.Card
import Mathlib.Data.Finset.Image
import Verif.Model.AreaMetrics
import Verif.Model.Depth
import Verif.Model.Dwarf
import Verif.Model.MoSummary
import Verif.Model.Numpy

/-!
# Smaller metrics and tools

`rubin_sim/maf/maf_contrib/example_new_metrics.py`, `selfcal_uniformity_metric.py`, `depth_limited_num_gal_metric.py`,
`lss_obs_strategy/galaxy_counts_with_pixel_calibration.py`, `star_count_metric.py` and `star_count_mass_metric.py`;
`rubin_sim/phot_utils/sed_utils.py`; `rubin_sim/maf/batches/col_map_dict.py`; `rubin_sim/moving_objects/utils.py`.

The solution of the self calibration, the pixel of a star, the integral over magnitudes and the error function are arbitrary functions.
-/

namespace Verif.Small

inductive PyErr
  | value | index | type | key | runtime | attribute
  deriving DecidableEq, Repr

/-! ## Nights with filters -/

/-- `NightsWithNFiltersMetric.run` (`example_new_metrics.py:32-40`); a visit is its night and its filter. -/
def nightsWithN (nFilters : ℕ) (vs : List (ℤ × String)) : ℕ :=
  (vs.map Prod.fst).dedup.countP (fun n => decide (nFilters < ((vs.filter (fun v => decide (v.1 = n))).map Prod.snd).dedup.length))

/-! ## Matching of identifiers -/

section
variable {K : Type*} [LinearOrder K]

/-- `_match` (`selfcal_uniformity_metric.py:19-29`): the first array has `n` values `f 0, …`; `st` is what `np.argsort` gives for it. -/
def matchArr (n : ℕ) (f : ℕ → K) (st : List ℕ) (arr2 : List K) : Except PyErr (List ℕ × List ℕ) :=
  if n = 0 ∨ arr2 = [] then .error .value
  else
    let sub1 := arr2.map (fun v => Np.searchsortedLeft (st.map f) v)
    let sub1 := if arr2.any (fun v => (List.range n).all (fun i => decide (f i < v))) then sub1.map (fun p => if p = n then n - 1 else p) else sub1
    match sub1.mapM (fun p => st[p]?) with
    | none => .error .index
    | some is =>
      let found := ((is.zip arr2).zipIdx).filter (fun x => decide (f x.1.1 = x.1.2))
      .ok (found.map (fun x => x.1.1), found.map (fun x => x.2))

end

/-! ## Uniformity of the self calibration -/

section
variable {K : Type*} [Field K] [LinearOrder K]

/-- A star with a solution: its pixel, its magnitude and the one that was fitted. -/
structure Star (K : Type*) where
  pix : ℕ
  mag : K
  fit : K

/-- The residuals without the zero point (`selfcal_uniformity_metric.py:116-117`). -/
def resid (stars : List (Star K)) : List (ℕ × K) :=
  match Area.median (stars.map (fun s => s.mag - s.fit)) with
  | none => []
  | some m => stars.map (fun s => (s.pix, s.mag - s.fit - m))

/-- The pixels of the map that have a value (`selfcal_uniformity_metric.py:119-127`), with the median of their stars. -/
def residMap (npix : ℕ) (stars : List (Star K)) : List (ℕ × K) :=
  (List.range npix).filterMap (fun p =>
    (Area.median (((resid stars).filter (fun s => decide (s.1 = p))).map Prod.snd)).map (fun m => (p, m)))

/-- `median_abs_deviation(xs, scale="normal")`, where `g` is the factor for a normal distribution. -/
def mad (g : K) (xs : List K) : Option K :=
  match Area.median xs with
  | none => none
  | some m => (Area.median (xs.map (fun x => |x - m|))).map (fun d => d * g)

structure Uniformity (K : Type*) where
  scatterFull : K
  scatterHigh : K
  fracFull : K
  fracHigh : K
  deriving DecidableEq

/-- `selfcal_uniformity_metric.py:127-157`: the results from the pixels with a value; `high` says which are at a high latitude.  `none` is where
something is not a number. -/
def uniformityOf (g nsig : K) (high : ℕ → Bool) (map : List (ℕ × K)) : Option (Uniformity K) :=
  let hi := map.filter (fun x => high x.1)
  match mad g (map.map Prod.snd), mad g (hi.map Prod.snd) with
  | some s, some sh =>
    let out := map.countP (fun x => decide (nsig * s < |x.2|))
    let outH := hi.countP (fun x => decide (nsig * sh < |x.2|))
    some ⟨s * 1000, sh * 1000, out / map.length, outH / map.length⟩
  | _, _ => none

/-- `PhotometricSelfCalUniformityMetric.run` (`selfcal_uniformity_metric.py:110-159`) after the fit. -/
def uniformity (g nsig : K) (npix : ℕ) (high : ℕ → Bool) (stars : List (Star K)) : Option (Uniformity K) :=
  uniformityOf g nsig high (residMap npix stars)

end

/-- The columns that the metric asks for (`selfcal_uniformity_metric.py:41-48`). -/
def uniformityCols : List String := ["observationid", "fieldra", "fielddec", "fiveSigmaDepth", "rotSkyPos", "filter"]

/-- The columns that `run` reads (`selfcal_uniformity_metric.py:80-84`). -/
def uniformityReads : List String := ["observationId", "fieldRA", "fieldDec", "fiveSigmaDepth", "rotSkyPos"]

/-- Reading columns of a table that has only some. -/
def readAll (have_ reads : List String) : Except PyErr Unit :=
  if reads.all (fun c => have_.contains c) then .ok () else .error .value

/-! ## Counts of galaxies -/

/-- The correction for the band (`galaxy_counts_with_pixel_calibration.py:79-100`). -/
noncomputable def pixBand (b : String) : ℝ :=
  if b = "u" then -0.4 * 3
  else if b = "g" then -0.4 * 2
  else if b = "r" then -0.4
  else if b = "i" then 0
  else if b = "z" then 0.4
  else if b = "y" then 0.4 * 2
  else 0

/-- `galaxy_counts_with_pixel_calibration` (`galaxy_counts_with_pixel_calibration.py:74-171`); `complete` is `0.5 * erfc(mag - depth)`, `quad` the
integral up to the limit. -/
noncomputable def pixCounts (laws : List (String × ℝ × ℝ)) (norm : ℝ) (complete : ℝ → ℝ → ℝ) (quad : (ℝ → ℝ) → ℝ) (nside : ℕ) (band bin : String)
    (cfht normalized : Bool) (coaddm5 : ℝ) : ℝ :=
  let scale : ℝ := 41253 / (12 * (nside : ℝ) ^ 2)
  let bin := if bin ≠ "all" ∧ laws.lookup bin = none then "all" else bin
  let binCount := fun mag depth : ℝ =>
    (10 : ℝ) ^ (((laws.lookup bin).getD (0, 0)).1 * (mag + pixBand band) + ((laws.lookup bin).getD (0, 0)).2) * complete mag depth
  let allCount := fun mag depth : ℝ =>
    (if cfht then 46 * 3600 * (10 : ℝ) ^ (0.31 * (mag + pixBand band - 25))
      else laws.foldl (fun acc l => acc + (10 : ℝ) ^ (l.2.1 * (mag + pixBand band) + l.2.2)) 0) * complete mag depth
  let depth := if coaddm5 < 1 then 0 else coaddm5
  let num := if bin = "all" then quad (fun m => allCount m depth) else quad (fun m => binCount m depth)
  let num := if normalized && !cfht then norm * num else num
  let num := if depth < 1 then 0 else num
  let num := if num < 1 then 0 else num
  num * scale

/-- `GalaxyCountsMetricExtended.run` for a place with visits in the band, `galaxy_counts_metric_extended.py:189-205`. -/
noncomputable def extCounts (laws : List (String × ℝ × ℝ)) (norm : ℝ) (complete : ℝ → ℝ → ℝ) (quad : (ℝ → ℝ) → ℝ) (nside : ℕ) (band bin : String)
    (cfht normalized : Bool) (coaddm5 : ℝ) : ℝ :=
  Dwarf.galTotal (if normalized && !cfht then norm else 1) (41253 / (12 * (nside : ℝ) ^ 2)) coaddm5
    (quad (fun m => (Dwarf.galCount laws cfht bin band (complete m coaddm5) m).2))

section
open Classical

/-- `DepthLimitedNumGalMetric.run` (`depth_limited_num_gal_metric.py:101-110`), where `bad` is the bad value of the metric and `count` the number
of galaxies from visits in the band; the two metrics inside have the default bad value. -/
noncomputable def depthLimited (ax1 : String → ℝ) (bad : Depth.Val) (f : String) (extCut depthCut : ℝ) (n : ℕ) (count : List Depth.Obs → ℝ) (ebv : ℝ)
    (vs : List Depth.Obs) : Depth.Val :=
  if (Depth.withCuts ax1 (some (-666)) f extCut depthCut n ebv vs).eq bad then bad
  else
    let vf := Depth.inBand f vs
    if vf = [] then some (-666) else some (count vf)

end

/-! ## Normalization of spectra -/

/-- `-2.5 * np.log10(np.interp(wavelen, sed.wavelen, sed.fnu)) - sed.zp` (`sed_utils.py:50`). -/
noncomputable def imsimMag (w zp : ℝ) (sed : List (ℝ × ℝ)) : ℝ := -2.5 * Real.logb 10 (MoSum.interp sed w) - zp

/-- `get_imsim_flux_norm` (`sed_utils.py:36-52`) at the wavelength `w` of the bandpass. -/
noncomputable def fluxNorm (w zp : ℝ) (sed : List (ℝ × ℝ)) (magmatch : ℝ) : Except PyErr ℝ :=
  match (sed.map Prod.fst).min?, (sed.map Prod.fst).max? with
  | some lo, some hi =>
    if w < lo ∨ hi < w then .error .runtime
    else .ok ((10 : ℝ) ^ (-0.4 * (magmatch - imsimMag w zp sed)))
  | _, _ => .error .value

/-! ## Names of columns -/

abbrev Str := List Char

/-- The entries of `col_map_dict` that are names of columns, for the lower case name of the dictionary (`col_map_dict.py:9-274`). -/
def tableOf (name : Str) : Option (List (String × String)) :=
  if name = "fbs".toList then some
    [("ra", "fieldRA"), ("dec", "fieldDec"), ("mjd", "observationStartMJD"), ("exptime", "visitExposureTime"), ("visittime", "visitTime"),
     ("alt", "altitude"), ("az", "azimuth"), ("lst", "observationStartLST"), ("filter", "band"), ("band", "band"), ("fiveSigmaDepth", "fiveSigmaDepth"),
     ("night", "night"), ("slewtime", "slewTime"), ("slewdist", "slewDistance"), ("seeingEff", "seeingFwhmEff"), ("seeingGeom", "seeingFwhmGeom"),
     ("skyBrightness", "skyBrightness"), ("moonDistance", "moonDistance"), ("scheduler_note", "scheduler_note"),
     ("scheduler_note_root", "scheduler_note_root")]
  else if name = "consdb".toList then some
    [("ra", "s_ra"), ("dec", "s_dec"), ("mjd", "obs_start_mjd"), ("exptime", "exp_time"), ("visittime", "dark_time"), ("alt", "altitude"),
     ("az", "azimuth"), ("filter", "band"), ("band", "band"), ("fiveSigmaDepth", "stats_mag_lim_median"), ("night", "day_obs"),
     ("slewtime", "slew_time"), ("slewdist", "slew_distance"), ("seeingEff", "fwhm_eff"), ("seeingGeom", "fwhm_geom"),
     ("skyBrightness", "sky_bg_median_mag"), ("moonDistance", "moon_distance"), ("scheduler_note", "scheduler_note"),
     ("scheduler_note_root", "scheduler_note_root")]
  else if name = "fbs_sim".toList ∨ name = "opsimfbs".toList then some
    [("ra", "fieldRA"), ("dec", "fieldDec"), ("mjd", "observationStartMJD"), ("exptime", "visitExposureTime"), ("visittime", "visitTime"),
     ("alt", "altitude"), ("az", "azimuth"), ("lst", "observationStartLST"), ("filter", "filter"), ("fiveSigmaDepth", "fiveSigmaDepth"),
     ("night", "night"), ("slewtime", "slewTime"), ("slewdist", "slewDistance"), ("seeingEff", "seeingFwhmEff"), ("seeingGeom", "seeingFwhmGeom"),
     ("skyBrightness", "skyBrightness"), ("moonDistance", "moonDistance"), ("scheduler_note", "scheduler_note"),
     ("scheduler_note_root", "scheduler_note_root")]
  else if name = "opsimv4".toList then some
    [("ra", "fieldRA"), ("dec", "fieldDec"), ("mjd", "observationStartMJD"), ("exptime", "visitExposureTime"), ("visittime", "visitTime"),
     ("alt", "altitude"), ("az", "azimuth"), ("lst", "observationStartLST"), ("filter", "filter"), ("fiveSigmaDepth", "fiveSigmaDepth"),
     ("night", "night"), ("slewtime", "slewTime"), ("slewdist", "slewDistance"), ("seeingEff", "seeingFwhmEff"), ("seeingGeom", "seeingFwhmGeom"),
     ("skyBrightness", "skyBrightness"), ("moonDistance", "moonDistance"), ("fieldId", "fieldId"), ("proposalId", "proposalId")]
  else if name = "opsimv3".toList then some
    [("ra", "fieldRA"), ("dec", "fieldDec"), ("mjd", "expMJD"), ("exptime", "visitExpTime"), ("visittime", "visitTime"), ("alt", "altitude"),
     ("az", "azimuth"), ("lst", "lst"), ("filter", "filter"), ("fiveSigmaDepth", "fiveSigmaDepth"), ("night", "night"), ("slewtime", "slewTime"),
     ("slewdist", "slewDist"), ("seeingEff", "FWHMeff"), ("seeingGeom", "FWHMgeom"), ("skyBrightness", "filtSkyBrightness"),
     ("moonDistance", "dist2Moon"), ("fieldId", "fieldID"), ("proposalId", "propID")]
  else if name = "barebones".toList then some
    [("ra", "ra"), ("dec", "dec"), ("mjd", "mjd"), ("exptime", "exptime"), ("visittime", "exptime"), ("alt", "alt"), ("az", "az"),
     ("filter", "filter"), ("fiveSigmaDepth", "fivesigmadepth"), ("night", "night"), ("slewtime", "slewtime"), ("seeingGeom", "seeing"),
     ("seeingEff", "seeing")]
  else none

/-- `col_map_dict` (`col_map_dict.py:4-274`). -/
def colMapDict (name : Option Str) : Except PyErr (List (String × String)) :=
  match tableOf ((name.getD "FBS".toList).map Char.toLower) with
  | some t => .ok t
  | none => .error .value

/-- Looking up keys one after the other. -/
def getAll (m : List (String × String)) : List String → Except PyErr (List String)
  | [] => .ok []
  | k :: ks =>
    match m.lookup k with
    | none => .error .key
    | some v => match getAll m ks with
      | .error e => .error e
      | .ok vs => .ok (v :: vs)

/-- `read_observations` (`utils.py:30-59`): the dictionary of the caller afterwards, and the columns that are asked for, in some order. -/
def readObs (colmap : List (String × String)) (dbcols : Option (List String)) : List (String × String) × Except PyErr (List String) :=
  let colmap := if (colmap.lookup "rotSkyPos").isSome then colmap else colmap ++ [("rotSkyPos", "rotSkyPos")]
  (colmap,
    match getAll colmap ["mjd", "night", "ra", "dec", "filter", "exptime", "seeingGeom", "fiveSigmaDepth"] with
    | .error e => .error e
    | .ok minCols =>
      match getAll colmap ["rotSkyPos", "seeingEff"] with
      | .error e => .error e
      | .ok more => .ok ((minCols ++ dbcols.getD []) ++ (more ++ ["solarElong", "observationId"])).dedup)

/-! ## Star counts -/

/-- What a name in the package of star counts stands for. -/
inductive Obj
  | module (members : List String)
  | func
  deriving DecidableEq

/-- The package has its files as members, none of which is replaced by a function (`star_counts/__init__.py:1-8`, `starcount.py:24`,
`starcount_bymass.py:85`). -/
def starCounts : List (String × Obj) :=
  [("abs_mag", .module ["extrap1d", "abs_mag"]), ("coords", .module ["eq_gal", "eq_gal2", "eq_gal3", "gal_cyn"]),
   ("spec_type", .module ["extrap1d", "spec_type"]), ("starcount", .module ["star_vols", "starcount"]),
   ("starcount_bymass", .module ["IMF", "get_distance", "noise_opt", "mag_error", "noise_calc", "dist_calc", "starcount_bymass"]),
   ("stellardensity", .module ["diskprofile", "thindisk", "thickdisk", "bulge", "halo", "stellardensity"])]

/-- `name(...)` after `from .star_counts import name`. -/
def callName (pkg : List (String × Obj)) (name : String) (result : ℝ) : Except PyErr ℝ :=
  match pkg.lookup name with
  | some .func => .ok result
  | some (.module _) => .error .type
  | none => .error .attribute

/-- `name.attr(...)` after `from .star_counts import name`. -/
def callMember (pkg : List (String × Obj)) (name attr : String) (result : ℝ) : Except PyErr ℝ :=
  match pkg.lookup name with
  | some (.module ms) => if ms.contains attr then .ok result else .error .attribute
  | _ => .error .attribute

/-- `StarCountMetric.run` (`star_count_metric.py:53-56`): the columns of the first visit are taken by their number; `count` is the function of the
position in degrees. -/
noncomputable def starCount (pkg : List (String × Obj)) (count : ℝ → ℝ → ℝ) (row : List ℝ) : Except PyErr ℝ :=
  match row[3]?, row[2]? with
  | some d, some r => callName pkg "starcount" (count (r * 180 / Real.pi) (d * 180 / Real.pi))
  | _, _ => .error .index

/-- `StarCountMassMetric.run` (`star_count_mass_metric.py:61-64`). -/
noncomputable def starCountMass (pkg : List (String × Obj)) (count : ℝ → ℝ → ℝ) (row : List ℝ) : Except PyErr ℝ :=
  match row[3]?, row[2]? with
  | some d, some r => callMember pkg "starcount_bymass" "starcount_bymass" (count (r * 180 / Real.pi) (d * 180 / Real.pi))
  | _, _ => .error .index

end Verif.Small
