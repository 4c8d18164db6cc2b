import Mathlib.Analysis.SpecialFunctions.Trigonometric.Basic
import Verif.Model.Astrometry
import Verif.Model.AreaMetrics
import Verif.Model.NumpyMore
import Verif.Model.OneDSlicer
import Verif.Model.MoSummary

/-!
# Quasars, structure functions, brown dwarfs, periodic stars

`rubin_sim/maf/metrics/qso_number_counts_metric.py`, `agnstructure.py`, `brown_dwarf_metric.py`, `night_pointing_metric.py` and
`periodic_detect_metric.py`.

Floats are real numbers; the change of times to half precision in `agnstructure.py:118` is left out.  Positions of Sun and Moon, the splines of `scipy` and its
F distribution are parameters.  Exceptions are values.
-/

namespace Verif.Few

open Real

/-! ## Quasars -/

/-- `effwavelen`, `qso_number_counts_metric.py:44-51`. -/
noncomputable def effwavelen : List (Char × ℝ) := [('u', 367.0), ('g', 482.5), ('r', 622.2), ('i', 754.5), ('z', 869.1), ('y', 971.0)]

/-- `zmax`, `qso_number_counts_metric.py:67-70`; a filter that is not known is an exception. -/
noncomputable def zmax (band : Char) : Option ℝ → Except String ℝ
  | some z => .ok z
  | none => match effwavelen.lookup band with
    | none => .error "KeyError"
    | some w => .ok (min 6.7 (w / 91.2 - 1))

/-- `qso_number_counts_metric.py:94-95`: the table with a row and a column of zeros in front. -/
def padded (table : ℕ → ℕ → ℝ) : ℕ → ℕ → ℝ
  | 0, _ => 0
  | _, 0 => 0
  | r + 1, c + 1 => table r c

/-- `c_mz_data`, `qso_number_counts_metric.py:94-97`: the padded table with running sums along both axes; `j` counts magnitudes
and `k` redshifts. -/
noncomputable def cumulative (table : ℕ → ℕ → ℝ) (j k : ℕ) : ℝ :=
  ((List.range (k + 1)).map (fun c => ((List.range (j + 1)).map (fun r => padded table r c)).sum)).sum

/-- What the slice point and the data say: the reddening, the area of the pixel and for each visit in the filter the depth and the magnitude of saturation. -/
structure Slice where
  ebv : ℝ
  area : ℝ
  visits : List (Char × ℝ × ℝ)

/-- `QSONumberCountsMetric.run`, `qso_number_counts_metric.py:116-138`; `count z m` is the spline, `exgal` the depth of the visits after extinction.  `np.max` of
nothing is an exception. -/
noncomputable def qso (badval cut : ℝ) (band : Char) (zmin zmax : ℝ) (count : ℝ → ℝ → ℝ) (exgal : List ℝ → ℝ) (s : Slice) : Except String ℝ :=
  if s.ebv > cut then .ok badval
  else
    let ds := s.visits.filter (fun v => v.1 == band)
    match (ds.map (fun v => v.2.2)).max? with
    | none => .error "ValueError"
    | some bright =>
      let lim := exgal (ds.map (fun v => v.2.1))
      .ok ((count zmax lim - count zmax bright - count zmin lim + count zmin bright) * s.area)

/-! ## Structure functions -/

/-- `agnstructure.py:68-71`: the attribute `weight`, for `n` bins; `none` if it does not exist. -/
noncomputable def sfWeight (n : ℕ) : Option (List ℝ) → Option (List ℝ)
  | none => some ((List.replicate n (1 : ℝ)).map (· / (List.replicate n (1 : ℝ)).sum))
  | some _ => none

/-- `agnstructure.py:127`. -/
noncomputable def counted (n : ℕ) : ℝ := if 0 < n then (n : ℝ) else 0.01

/-- `agnstructure.py:115-120` for sorted times: all gaps that are not zero, or those of neighbours. -/
noncomputable def sfGaps (all : Bool) (ts : List ℝ) : List ℝ :=
  if all then (ts.flatMap (fun a => ts.map (fun b => b - a))).filter (fun d => decide (0 < d)) else Np.diff ts

/-- `agnstructure.py:112`. -/
noncomputable def magErr (snr : ℝ) : ℝ := 2.5 * logb 10 (1 + 1 / snr)

/-- A visit: filter, time and depth. -/
structure Obs where
  band : Char
  t : ℝ
  m5 : ℝ

/-- `agnstructure.py:96-100`: the magnitude with extinction; the filter is that of the first visit. -/
noncomputable def sfMag (dust : Bool) (mag ebv : ℝ) (ax : Char → ℝ) (vs : List Obs) : Option ℝ :=
  if dust then vs.head?.map (fun v => mag + ax v.band * ebv) else some mag

/-- `SFUncertMetric.run`, `agnstructure.py:88-141`; `madStd` is `mad_std` of astropy. -/
noncomputable def sf (badval : ℝ) (weight : Option (List ℝ)) (bins : List ℝ) (all dust : Bool) (mag cut ebv : ℝ) (ax : Char → ℝ) (madStd : List ℝ → ℝ) (vs : List Obs) :
    Except String ℝ :=
  match sfMag dust mag ebv ax vs with
  | none => .error "IndexError"
  | some m =>
    let good := vs.filter (fun v => decide (cut < Astro.m52snr (some 0.04) m v.m5))
    if good.length < 2 then .ok badval
    else
      let h := Np.histogram bins (sfGaps all (Np.sort (good.map Obs.t)))
      let var := good.map (fun v => magErr (Astro.m52snr (some 0.04) m v.m5) ^ 2)
      match weight with
      | none => .error "AttributeError"
      | some w => .ok (List.zipWith (fun n w => 2 * ((Area.median var).getD 0 + madStd var / √(counted n)) * w) h w).sum

/-! ## Brown dwarfs -/

/-- What `bd_colors` gives: a dictionary, or a tuple with one in it. -/
inductive Colors
  | dict (d : List (Char × ℚ))
  | tuple (d : List (Char × ℚ))
  deriving DecidableEq

/-- `bd_colors`, `brown_dwarf_metric.py:21-42`; a type that is not known is an exception. -/
def bdColors (t : String) : Except String Colors :=
  match [("L0", Colors.dict [('i', 1600/100), ('z', 1452/100), ('y', 1358/100)]), ("L1", .dict [('i', 1641/100), ('z', 1493/100), ('y', 1397/100)]),
    ("L2", .dict [('i', 1673/100), ('z', 1530/100), ('y', 1433/100)]), ("L3", .tuple [('i', 1740/100), ('z', 1588/100), ('y', 1489/100)]),
    ("L4", .dict [('i', 1835/100), ('z', 1668/100), ('y', 1566/100)]), ("L5", .dict [('i', 1871/100), ('z', 1694/100), ('y', 1587/100)]),
    ("L6", .dict [('i', 1927/100), ('z', 1735/100), ('y', 1627/100)]), ("L7", .dict [('i', 2009/100), ('z', 1818/100), ('y', 1713/100)]),
    ("L8", .dict [('i', 2038/100), ('z', 1810/100), ('y', 1704/100)]), ("L9", .dict [('i', 2009/100), ('z', 1769/100), ('y', 1657/100)]),
    ("T0", .dict [('i', 2022/100), ('z', 1798/100), ('y', 1677/100)]), ("T1", .dict [('i', 2110/100), ('z', 1884/100), ('y', 1745/100)]),
    ("T2", .dict [('i', 2197/100), ('z', 1826/100), ('y', 1675/100)]), ("T3", .dict [('i', 2250/100), ('z', 1808/100), ('y', 1650/100)]),
    ("T4", .dict [('i', 2250/100), ('z', 1802/100), ('y', 1632/100)]), ("T5", .dict [('i', 2269/100), ('z', 1920/100), ('y', 1743/100)]),
    ("T6", .dict [('i', 2300/100), ('z', 1982/100), ('y', 1806/100)]), ("T7", .dict [('z', 2117/100), ('y', 1934/100)]),
    ("T8", .dict [('z', 2152/100), ('y', 1975/100)]), ("T9", .dict [('z', 2182/100), ('y', 2037/100)])].lookup t with
  | none => .error "KeyError"
  | some c => .ok c

/-- The loop over the keys of the magnitudes, `brown_dwarf_metric.py:111-112`: a tuple is indexed by what is in it. -/
def magsOf : Colors → Except String (List (Char × ℚ))
  | .dict d => .ok d
  | .tuple _ => .error "TypeError"

/-- A visit: filter, depth, seeing and amplitudes of the parallax. -/
structure BdVisit where
  band : Char
  m5 : ℝ
  seeing : ℝ
  ra : ℝ
  dec : ℝ

/-- `brown_dwarf_metric.py:108-112`. -/
noncomputable def atDist (mag d : ℝ) : ℝ := mag + (5 * logb 10 d - 5)

/-- `brown_dwarf_metric.py:131-140`: the position errors; `none` is the infinity of a ratio of zero, in a filter without a magnitude. -/
noncomputable def bdErr (mags : List (Char × ℝ)) (atm d : ℝ) (v : BdVisit) : Option ℝ :=
  (mags.lookup v.band).map (fun m => Astro.astromPrecision v.seeing (Astro.m52snr (some 0.04) (atDist m d) v.m5) atm)

/-- The sums of `_final_sigma`, `brown_dwarf_metric.py:118-128`, over the visits with a finite error; the others add nothing. -/
noncomputable def bdSigma (mags : List (Char × ℝ)) (atm d : ℝ) (vs : List BdVisit) : Option ℝ :=
  Astro.finalSigma (vs.filterMap (fun v => (bdErr mags atm d v).map (fun e => (e, v.ra, v.dec))))

/-- `fitted_parallax_snr`, `brown_dwarf_metric.py:116,143`; a number divided by infinity is zero. -/
noncomputable def bdSnr (mags : List (Char × ℝ)) (atm : ℝ) (vs : List BdVisit) (d : ℝ) : ℝ :=
  match bdSigma mags atm d vs with
  | none => 0
  | some s => 1000 / d / s

/-- `interp1d` of `scipy` with `fill_value="extrapolate"`: the points are sorted, the segment is the one that contains `x` or the first or last, and the line of it is
followed.  `none` is what is not a number. -/
noncomputable def interp1d (pts : List (ℝ × ℝ)) (x : ℝ) : Option ℝ :=
  let s := pts.insertionSort (fun p q => p.1 ≤ q.1)
  let hi := min (max 1 (s.countP (fun p => decide (p.1 < x)))) (s.length - 1)
  match s[hi - 1]?, s[hi]? with
  | some p, some q => if q.1 = p.1 then none else some ((q.2 - p.2) / (q.1 - p.1) * (x - p.1) + p.2)
  | _, _ => none

/-- `BDParallaxMetric.run`, `brown_dwarf_metric.py:130-149`; `none` is what is not a number. -/
noncomputable def bd (badval goal : ℝ) (mags : List (Char × ℝ)) (atm : ℝ) (dists : List ℝ) (vs : List BdVisit) : Except String (Option ℝ) :=
  match (dists.map (bdSnr mags atm vs)).max? with
  | none => .error "ValueError"
  | some x => .ok (if goal ≤ x then interp1d (dists.map (fun d => (bdSnr mags atm vs d, d))) goal else some badval)

/-- `VolumeSumMetric.run`, `brown_dwarf_metric.py:159-162`. -/
noncomputable def volume (pixArea : ℝ) (dists : List ℝ) : ℝ := (dists.map (fun d => 1 / 3 * d ^ 3 * pixArea)).sum

/-! ## Night -/

/-- The times of `NightPointingMetric.run`, `night_pointing_metric.py:44-50`. -/
noncomputable def nightTimes (ts : List ℝ) : Except String (List ℝ) :=
  match ts.min?, ts.max? with
  | some a, some b =>
    let pad := 30 / 60 / 24
    let step := 20 / 60 / 24
    .ok (Slicers.arange (a - pad) (b + pad + step) step)
  | _, _ => .error "ValueError"

/-! ## Periodic stars -/

/-- The weighted mean and chi squared of a filter, `periodic_detect_metric.py:107-116`. -/
noncomputable def chiFilt (amp period mean : ℝ) (vs : List Obs) : ℝ :=
  let lc : Obs → ℝ := fun v => amp * sin (v.t * (π * 2) / period) + mean
  let err : Obs → ℝ := fun v => magErr (Astro.m52snr (some 0.04) (lc v) v.m5)
  let w := Astro.average lc (fun v => 1 / err v ^ 2) vs
  Astro.total (fun v => (lc v - w) ^ 2 / err v ^ 2) vs

/-- `chi_sq_1`, `periodic_detect_metric.py:104-116`; the order of the filters does not matter. -/
noncomputable def chi1 (amp period : ℝ) (mean : Char → ℝ) (vs : List Obs) : ℝ :=
  ((vs.map Obs.band).dedup.map (fun f => chiFilt amp period (mean f) (vs.filter (fun v => v.band == f)))).sum

/-- A star: period, mean magnitudes and amplitude. -/
structure Star where
  period : ℝ
  mean : Char → ℝ
  amp : ℝ

/-- The stars that are tried, `periodic_detect_metric.py:103-105`; `colors` is `stellar_mags`. -/
def starsOf (colors : ℝ → Char → ℝ) (periods mags amps : List ℝ) : List Star :=
  (periods.zip (mags.zip amps)).map (fun x => ⟨x.1, colors x.2.1, x.2.2⟩)

/-- `PeriodicDetectMetric.run`, `periodic_detect_metric.py:88-133`; `sf` is `scipy.stats.f.sf`, `none` for what is not finite. -/
noncomputable def detect (sf : ℝ → ℝ → ℝ → Option ℝ) (level : ℝ) (stars : List Star) (vs : List Obs) : ℕ :=
  open Classical in
  let nFilt : ℝ := ((vs.map Obs.band).dedup.length : ℝ)
  let p2 := 3 + nFilt
  let chi2 := (vs.length : ℝ) - p2
  if p2 < (vs.length : ℝ) then
    stars.countP (fun s => decide (∃ p, sf ((chi1 s.amp s.period s.mean vs - chi2) / (p2 - nFilt) / 1) (p2 - nFilt) ((vs.length : ℝ) - p2) = some p ∧ p < level))
  else 0

end Verif.Few
