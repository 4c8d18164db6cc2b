import Verif.Model.NumpyMore
import Mathlib.Algebra.Order.Field.Basic
import Mathlib.Algebra.Order.Group.Unbundled.Abs
import Mathlib.Algebra.BigOperators.Group.List.Basic
import Mathlib.Analysis.Real.Sqrt
import Mathlib.Algebra.Order.Monoid.WithTop

/-!
# Model of metrics of `maf_contrib` that count visits and gaps

`triplet_metric.py`, `num_obs_in_survey_time_overlap_metric.py`, `intervals_between_obs_metric.py` and
`filter_pair_t_gaps_metric.py`. Times are elements of an ordered field; the change of dates to MJD is done by astropy and not
modelled, windows are pairs of numbers. -/

namespace Verif.Contrib

variable {K : Type*} [Field K] [LinearOrder K]

/-- `np.where((lo < times) & (times < hi))[0]`, as the times at these indices. -/
def window (ts : List K) (lo hi : K) : List K := ts.filter (fun x => decide (lo < x) && decide (x < hi))

/-- `TripletMetric.run`, `triplet_metric.py:39-59`. `dmin` and `dmax` are in days (lines 33-34). `ratiomin` and `ratiomax`
(lines 35-36) are attributes that `run` does not read. -/
def triplets (dmin dmax _ratiomin _ratiomax : K) (times : List K) : ℕ :=
  let ts := times.map (· - 49378)
  (ts.map (fun a => ((window ts (a + dmin) (a + dmax)).map (fun b => (window ts (b + dmin) (b + dmax)).length)).sum)).sum

/-- The test of `triplet_metric.py:128-133`, for the times of the three visits. -/
def ratioOk (ratiomin ratiomax a b c : K) : Bool :=
  let ratio := max (b - a) (c - b) / min (b - a) (c - b)
  decide (ratiomin < ratio) && decide (ratio < ratiomax)

/-- `triplet_metric.py:110-134`: the counter of one band, of the times of its visits. -/
def bandTriplets (dmin dmax ratiomin ratiomax : K) (ts : List K) : ℕ :=
  (ts.map (fun a => ((window ts (a + dmin) (a + dmax)).map (fun b =>
    ((window ts (b + dmin) (b + dmax)).filter (fun c => ratioOk ratiomin ratiomax a b c)).length)).sum)).sum

/-- `triplet_metric.py:91`. -/
def bandset : List String := ["u", "g", "r", "i", "z", "y"]

/-- `TripletBandMetric.run`, `triplet_metric.py:87-135`: the counters, of visits with time and band. -/
def tripletsBand (dmin dmax ratiomin ratiomax : K) (visits : List (K × String)) : List (String × ℕ) :=
  bandset.map (fun band => (band, bandTriplets dmin dmax ratiomin ratiomax
    ((visits.filter (fun v => decide (band = v.2))).map (fun v => v.1 - 49378))))

/-- `reduce_bandall`, `triplet_metric.py:137-138`. -/
def reduceAll (c : List (String × ℕ)) : ℕ := (c.map Prod.snd).sum

/-- `NumObsInSurveyTimeOverlapMetric.run`, `num_obs_in_survey_time_overlap_metric.py:32-43`. -/
def numObs (wins : List (K × K)) (ts : List K) : ℕ := wins.foldl (fun n w => n + (window ts w.1 w.2).length) 0

/-- `obs_diff` of `intervals_between_obs_metric.py:44-57`. -/
def obsDiff (wins : List (K × K)) (ts : List K) : List K :=
  wins.foldl (fun d w => d ++ Np.diff (window (Np.sort ts) w.1 w.2)) []

/-- A number, `nan` of an empty list, or the exception for the unbound `result`. -/
inductive Stat (K : Type*)
  | val (x : K)
  | nan
  | unbound
deriving DecidableEq

/-- `IntervalsBetweenObsMetric.run`, `intervals_between_obs_metric.py:43-68`, for `stat` equal to `"mean"` or a text that is none of
the three; the median is modelled elsewhere and `"std"` not. -/
def intervals (stat : String) (wins : List (K × K)) (ts : List K) : Stat K :=
  let d := obsDiff wins ts
  if stat = "mean" then (if d = [] then .nan else .val (d.sum / (d.length : K))) else .unbound

/-- A visit of the filter pair metric. -/
structure Obs (K : Type*) where
  mjd : K
  band : String
  m5 : K

/-- `filter_pair_t_gaps_metric.py:112-116`: times of the visits of a filter that are deep enough. -/
def chosen (lim : String → K) (data : List (Obs K)) (f : String) : List K :=
  (data.filter (fun v => decide (v.band = f) && decide (lim f < v.m5))).map Obs.mjd

/-- `filter_pair_t_gaps_metric.py:124-132`: the matrix of differences, `np.tril(_, -1)` of it and what is not zero there. -/
def sameGaps (ts : List K) : List K :=
  (ts.zipIdx.flatMap (fun a => ts.zipIdx.map (fun b => if b.2 < a.2 then |a.1 - b.1| else 0))).filter (fun x => decide (x ≠ 0))

/-- `filter_pair_t_gaps_metric.py:134-145`. -/
def diffGaps (dtmax : K) (t0 t1 : List K) : List K :=
  t0.flatMap (fun t => (t1.filter (fun x => decide (t - dtmax ≤ x) && decide (x ≤ t + dtmax))).map (fun x => |x - t|))

/-- `filter_pair_t_gaps_metric.py:160-176`, the rows with something that is not masked; `none` is the exception of `np.max` over
an axis of length zero. -/
def nearest (t0 t1 : List K) : Option (List K) :=
  if t0 ≠ [] ∧ t1 = [] then none
  else some (t0.filterMap (fun t => ((t1.map (t - ·)).filter (fun x => decide (x < 0))).max?.map (fun x => -x)) ++
    t0.filterMap (fun t => ((t1.map (t - ·)).filter (fun x => decide (0 < x))).min?))

/-- `_get_d_t`, `filter_pair_t_gaps_metric.py:110-177`, of the data sorted by time; `dtmax` is the largest edge of
`bins_diff`. -/
def getDT (allgaps : Bool) (dtmax : K) (lim : String → K) (data : List (Obs K)) (f0 f1 : String) : Option (List K) :=
  let t0 := chosen lim data f0
  let t1 := chosen lim data f1
  if allgaps then some (if f0 = f1 then sameGaps t0 else diffGaps dtmax t0 t1)
  else if f0 = f1 then some (Np.diff t0) else nearest t0 t1

/-- `np.std` squared -/
noncomputable def variance (h : List ℕ) : ℝ :=
  let m := (h.map (fun n : ℕ => (n : ℝ))).sum / h.length
  (h.map (fun n : ℕ => ((n : ℝ) - m) ^ 2)).sum / h.length

/-- `filter_pair_t_gaps_metric.py:200-204`: the figure of merit of a histogram; `none` is nan and `⊤` the infinity of a division
by zero. -/
noncomputable def fom (clip : ℕ) (hist : List ℕ) : Option (WithTop ℝ) :=
  if hist.any (fun n => decide (n ≠ 0)) then
    (let s := Real.sqrt (variance (hist.map (fun n => min n clip)))
     some (if s = 0 then ⊤ else ((hist.sum : ℝ) / s : ℝ)))
  else none

/-- `np.nansum`, `filter_pair_t_gaps_metric.py:208`. -/
noncomputable def nansum (l : List (Option (WithTop ℝ))) : WithTop ℝ := (l.filterMap id).sum

/-- `run`, `filter_pair_t_gaps_metric.py:179-208`, of the histograms and clips of the pairs. -/
noncomputable def fomRun (pairs : List (ℕ × List ℕ)) : WithTop ℝ := nansum (pairs.map (fun p => fom p.1 p.2))

end Verif.Contrib
