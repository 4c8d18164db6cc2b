import Mathlib.Algebra.Field.Defs
import Mathlib.Algebra.Order.Floor.Defs
import Verif.Model.NumpyMore

/-!
# Model of `rubin_sim/maf/metrics/area_summary_metrics.py` and the footprint metrics of
`summary_metrics.py`

A metric value is `none` if it is not a number. `hp.nside2pixarea` is the area of the
sky divided by the number of pixels.
-/

namespace Verif.Area

open Verif.Np

variable {K : Type*} [Field K] [LinearOrder K] [IsStrictOrderedRing K] [FloorRing K]

/-- `pix_area` -/
def pixArea (sky : K) (npix : Nat) : K := sky / (npix : K)

/-- `AreaSummaryMetric.run`, `area_summary_metrics.py:53-65`, with the default
`reduce_func`. `none` is the `ValueError` of the minimum of no values. -/
def areaSummary (sky area : K) (decreasing : Bool) (data : List (Option K)) : Option K :=
  let need := ⌈area / pixArea sky data.length⌉₊
  let values := sort (data.filterMap id)
  if decreasing then (values.reverse.take need).min? else (values.take need).max?

/-- `AreaThresholdMetric.run`, lines 101-120. -/
def areaThreshold (sky : K) (upper lower : Option K) (data : List (Option K)) : K :=
  let npix : Nat := match upper, lower with
    | none, none => data.length
    | none, some l => data.countP (fun x => x.any (fun v => decide (l < v)))
    | some u, none => data.countP (fun x => x.any (fun v => decide (v < u)))
    | some u, some l => data.countP (fun x => x.any (fun v => decide (l < v) && decide (v < u)))
  pixArea sky data.length * (npix : K)

/-- `FootprintFractionMetric.run`, `summary_metrics.py:36`, 41-44: pairs of the footprint
and the metric value, where masked values are zero. -/
def footprintFraction (nMin : K) (pixels : List (K × K)) : K :=
  (pixels.countP (fun p => decide (0 < p.1) && decide (nMin ≤ p.2)) : K) / (pixels.countP (fun p => decide (0 < p.1)) : K)

/-- `np.median` -/
def median (xs : List K) : Option K :=
  let s := sort xs
  match s[(s.length - 1) / 2]?, s[s.length / 2]? with
  | some a, some b => some ((a + b) / 2)
  | _, _ => none

/-- `xs[-n:]` -/
def lastN (xs : List K) (n : Nat) : List K := if n = 0 then xs else xs.drop (xs.length - n)

/-- `FONv.run` without `norm`, `summary_metrics.py:78`, 82-99: median and minimum. `none`
is the bad value. -/
def foNv (scale asky : K) (data : List K) : Option (K × K) :=
  let need := ⌈asky / scale⌉₊
  if data.length < need then none
  else
    let top := lastN (sort data) need
    match median top, top.min? with
    | some m, some l => some (m, l)
    | _, _ => none

/-- `FOArea.run` without `norm`, lines 140-150. -/
def foArea (scale nVisit : K) (data : List K) : Option K :=
  let above := (sort data).filter (fun v => decide (nVisit ≤ v))
  if above.length = 0 then none else some ((above.length : K) * scale)

end Verif.Area
