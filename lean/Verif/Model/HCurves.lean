import Verif.Model.Bins
import Verif.Model.SnResult

/-!
# Curves of metrics against H

Model of the values of `MetricVsH`, `rubin_sim/maf/plots/mo_plotters.py:49-86`, of the H values of slicers of moving
objects (`mo_slicer.py:78-83`), and of `plot_single`, `rubin_sim/maf/batches/moving_objects_batch.py:1411-1466`. Values are
filled, one row for each object. The values of the bins of H (64-81, C384) are an input.
-/

namespace Verif.HCurves

variable {K : Type*} [Field K] [LinearOrder K] [FloorRing K] [IsStrictOrderedRing K]

/-- A slicer: the H of each object, and the range of H of clones, if there is one. -/
structure Slicer (K : Type*) where
  own : List K
  hrange : Option (List K)

/-- `slice_points["H"]`, `mo_slicer.py:78-83`. -/
def hvals (s : Slicer K) : List K := s.hrange.getD s.own

/-- `shape[1]`, `mo_slicer.py:79` and 82. -/
def ncols (s : Slicer K) : Nat := (s.hrange.map List.length).getD 1

/-- `np_reduce` of `plot_single`, `moving_objects_batch.py:1413-1450`. -/
inductive Red (K : Type*)
  | mean
  | median
  | pct (q : K)

/-- The value of a reduction. -/
def Red.apply : Red K → List K → Option K
  | .mean, l => if l.length = 0 then none else some (l.sum / l.length)
  | .median, l => if l.length = 0 then none else some (SnResult.median l)
  | .pct q, l => Bins.pct q l

/-- Whether it can be called without an axis: the lambdas need one. -/
def Red.noAxis : Red K → Bool
  | .mean => true
  | _ => false

/-- `m_vals`, `mo_plotters.py:53-86`; `none` is a TypeError. -/
def mVals (bad : K) (s : Slicer K) (rows : List (List K)) (groups : List (List K)) (r : Red K) :
    Option (List (Option K)) :=
  if (hvals s).length = 1 then some ((rows.headD []).map some)
  else if (hvals s).length = ncols s then
    some ((List.range (ncols s)).map (fun j => r.apply (rows.filterMap (fun row => row[j]?))))
  else if !r.noAxis && groups.any (fun g => decide (0 < g.length)) then none
  else some (groups.map (fun g => if g.length = 0 then some bad else r.apply g))

/-- All of a list, or the first exception. -/
def collect {α : Type*} : List (Option α) → Option (List α)
  | [] => some []
  | none :: _ => none
  | some a :: l => (collect l).map (fun r => a :: r)

/-- `plot_single`, `moving_objects_batch.py:1413-1466`: the curves in the order of the dict. -/
def plotSingle (bad : K) (s : Slicer K) (rows groups : List (List K)) : Option (List (List (Option K))) :=
  collect ([Red.pct (95 / 100), .pct (75 / 100), .median, .mean, .pct (25 / 100), .pct (5 / 100)].map
    (mVals bad s rows groups))

end Verif.HCurves
