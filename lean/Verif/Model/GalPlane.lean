import Mathlib.Analysis.SpecialFunctions.Exp
import Verif.Model.Seasons

/-!
# Metrics of the galactic plane

Models of `rubin_sim/maf/metrics/galactic_plane_metrics.py` and `galplane_time_sampling_metrics.py`, over the real
numbers. The values of the priority map at the slice point are parameters: `prio f` for a filter, `total` for their
sum. `none` as a result is `badval`. The season of a time (`calc_season`) is a parameter.
-/

namespace Verif.GalPlane

open Verif.Np

/-- A visit: time, filter, depth and exposure time. -/
structure Visit where
  mjd : ℝ
  band : String
  m5 : ℝ
  exp : ℝ

/-! ## Footprint and time per filter -/

/-- `galplane_nvisits_thresholds`, `galactic_plane_metrics.py:47-54`. -/
noncomputable def nvisits (years tau : ℝ) : ℝ := 365.25 * years * (6.5 / 12) * 2 / tau

/-- `galplane_priority_map_thresholds`, `galactic_plane_metrics.py:72-78`. -/
noncomputable def threshold (science : String) : ℝ :=
  if science = "galactic_plane" then 0.4 else if science = "combined_map" then 0.001 else 0

/-- The visits of a filter that are deep enough, `galactic_plane_metrics.py:202-203`, also 323-325. -/
noncomputable def deep (cut : String → ℝ) (vs : List Visit) (f : String) : List Visit := vs.filter (fun v => decide (v.band = f) && decide (cut f ≤ v.m5))

/-- What the footprint metric gives. -/
structure Foot where
  n : ℕ
  nPrio : ℝ
  prio : ℝ

/-- `GalPlaneFootprintMetric.run`, `galactic_plane_metrics.py:185-212`. -/
noncomputable def footprint (science : String) (cut prio : String → ℝ) (total : ℝ) (filters : List String) (vs : List Visit) : Option Foot :=
  if total ≤ threshold science then none
  else
    let r := filters.foldl (fun (a : ℕ × ℝ) f => (a.1 + (deep cut vs f).length, a.2 + ((deep cut vs f).length : ℝ) * prio f)) (0, 0)
    some ⟨r.1, r.2, total⟩

/-- The functions of the time scales, `galactic_plane_metrics.py:83-90` with 167-173. -/
noncomputable def footReduce (tau : ℝ) (r : Foot) : ℝ := if nvisits 10 tau ≤ (r.n : ℝ) then r.prio else 0

/-- `exp_time_per_filter`, `galactic_plane_metrics.py:318-334`; the indices of a set are each taken once. -/
noncomputable def expTime (cut : String → ℝ) (vs : List Visit) (f : String) : ℝ := ((deep cut vs f).map Visit.exp).sum

/-- `GalPlaneTimePerFilterMetric.run`, `galactic_plane_metrics.py:300-357`: a value for each filter, where `none` is
`badval` for this filter only. -/
noncomputable def timePerFilter (science : String) (cut prio : String → ℝ) (total : ℝ) (filters : List String) (vs : List Visit) : Option (List (String × Option ℝ)) :=
  if total ≤ threshold science then none
  else
    let all := (filters.map (expTime cut vs)).sum
    some (filters.map (fun f => (f,
      if all = 0 then some 0
      else if prio f / total > 0 then some (expTime cut vs f / all / (prio f / total)) else none)))

/-- The functions `reduce_u` to `reduce_y`, `galactic_plane_metrics.py:359-375`. -/
def bandReduce (f : String) (r : List (String × Option ℝ)) : Except String (Option ℝ) :=
  match r.lookup f with
  | none => .error "KeyError"
  | some v => .ok v

/-! ## Time scales -/

/-- `calc_interval_decay`, `galplane_time_sampling_metrics.py:26-32`, of one interval. -/
noncomputable def decay (tau d : ℝ) : ℝ := if d ≤ tau then 1 else Real.exp (-(1 / tau) * (d - tau))

/-- `GalPlaneVisitIntervalsTimescaleMetric.run`, `galplane_time_sampling_metrics.py:110-135`. -/
noncomputable def visitIntervals (science : String) (total maglim : ℝ) (taus : List ℝ) (vs : List Visit) : Option (List (ℝ × ℝ)) :=
  if total ≤ threshold science then none
  else
    let times := (vs.filter (fun v => decide (maglim ≤ v.m5))).map Visit.mjd
    if times.length < 2 then none
    else
      let ds := diff (sort times)
      some (taus.map (fun tau => (tau, (ds.map (decay tau)).sum / (ds.length : ℝ))))

/-- The gaps between seasons, `galplane_time_sampling_metrics.py:216-225`, of times in order. -/
noncomputable def gaps (season : ℝ → ℤ) (times : List ℝ) : List ℝ :=
  let e := Seasons.findSeasonEdges (times.map season)
  List.zipWith (fun a b => times.getD b.1 0 - times.getD a.2 0) e e.tail

/-- The data after the metric has run: the column of times is sorted in place, line 217. -/
noncomputable def sortedInPlace (vs : List Visit) : List Visit := List.zipWith (fun t v => { v with mjd := t }) (sort (vs.map Visit.mjd)) vs

/-- `GalPlaneSeasonGapsTimescaleMetric.run`, `galplane_time_sampling_metrics.py:207-236`. `keys` are the values of
maps at the slice point, in which that of the priority map is looked up. Together with the data afterwards. -/
noncomputable def seasonGaps (science : String) (keys : List (String × ℝ)) (_maglim expected : ℝ) (season : ℝ → ℤ) (taus : List ℝ) (vs : List Visit) :
    Except String (Option (List (ℝ × ℝ))) × List Visit :=
  match keys.lookup ("galplane_priority_" ++ science ++ ":sum") with
  | none => (.error "KeyError", vs)
  | some total =>
    if total ≤ threshold science then (.ok none, vs)
    else
      let gs := gaps season (sort (vs.map Visit.mjd))
      if gs.length = 0 then (.ok none, sortedInPlace vs)
      else
        (.ok (some (taus.map (fun tau => (tau, (gs.map (fun g => if g ≤ expected then 1 else decay tau g)).sum / (gs.length : ℝ))))), sortedInPlace vs)

/-- The argument `maps` given to the base class: line 203 gives none, line 104 the priority map. -/
def gapsMaps : List String := []

def visitMaps : List String := ["GalacticPlanePriorityMap"]

end Verif.GalPlane
