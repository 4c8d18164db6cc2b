import Mathlib.Algebra.Field.Defs
import Verif.Model.NumpyMore

/-!
# Model of `rubin_sim/maf/metrics/season_metrics.py`

`calc_season` belongs to another package: a visit carries the whole number of its
season. `reduce_func` arguments are left out: the functions give the array that is
reduced.
-/

namespace Verif.Seasons

open Verif.Np

variable {K : Type*}

/-- The columns used. -/
structure Obs (K : Type*) where
  mjd : K
  night : Int
  expTime : K
  season : Int
  deriving DecidableEq

/-- `np.unique` of whole numbers -/
def uniqueInt (xs : List Int) : List Int := sort xs.dedup

/-- `find_season_edges`, `season_metrics.py:22-42`, of the whole numbers of the seasons. -/
def findSeasonEdges (seasons : List Int) : List (Nat × Nat) :=
  (uniqueInt seasons).map (fun n => (searchsortedLeft seasons n, searchsortedRight seasons n - 1))

/-- `data_slice[long]`, lines 86, 116, 150. -/
def long [LinearOrder K] (minExp : K) (visits : List (Obs K)) : List (Obs K) :=
  visits.filter (fun v => decide (minExp < v.expTime))

/-- `SeasonLengthMetric.run`, lines 92-94, after sorting by time. -/
def seasonLengths [Sub K] (s : List (Obs K)) : List (Option K) :=
  (findSeasonEdges (s.map (·.season))).map (fun e =>
    match s[e.2]?, s[e.1]? with
    | some b, some a => some (b.mjd - a.mjd)
    | _, _ => none)

/-- `CampaignLengthMetric.run`, lines 120-123. -/
def campaignLength (s : List (Obs K)) : Nat := (uniqueInt (s.map (·.season))).length

/-- `np.mean` -/
def mean [Field K] (l : List K) : K := l.sum / (l.length : K)

/-- One entry of `season_means`, lines 160-164. -/
def seasonMean [Field K] (s : List (Obs K)) (e : Nat × Nat) : K :=
  if e.1 < e.2 then
    let deltas := diff (uniqueInt ((pySlice s e.1 (e.2 + 1)).map (·.night)))
    if 0 < deltas.length then mean (deltas.map (fun d : Int => (d : K))) else 0
  else 0

/-- `MeanCampaignFrequencyMetric.run`, lines 156-165, after sorting by time. -/
def meanFrequency [Field K] (s : List (Obs K)) : K :=
  mean ((findSeasonEdges (s.map (·.season))).map (seasonMean s))

end Verif.Seasons
