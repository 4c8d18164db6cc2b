import Mathlib.Algebra.Field.Defs
import Mathlib.Algebra.Order.Group.Abs
import Verif.Model.NumpyMore

/-!
# Model of `rubin_sim/maf/metrics/vector_metrics.py`

`none` is the bad value. Rows are pairs of the bin column and the accumulated column, in
the order given by the sort.
-/

namespace Verif.Vec

open Verif.Np

variable {K V : Type*}

/-- The running values of a ufunc from a start value. -/
def accumulateFrom (f : V → V → V) : V → List V → List V
  | a, [] => [a]
  | a, b :: l => a :: accumulateFrom f (f a b) l

/-- `function.accumulate(data)` -/
def accumulate (f : V → V → V) : List V → List V
  | [] => []
  | a :: l => accumulateFrom f a l

/-- `AccumulateMetric.run`, `vector_metrics.py:79-87`, for rows already sorted. -/
def atEdges [LinearOrder K] (f : V → V → V) (bins : List K) (rows : List (K × V)) : List (Option V) :=
  let result := accumulate f (rows.map Prod.snd)
  (bins.drop 1).map (fun e =>
    let i := searchsortedRight (rows.map Prod.fst) e
    let j := if result.length ≤ i then result.length - 1 else i
    if j = 0 then none else result[j]?)

/-- `AccumulateCountMetric.run`, lines 91-99, with the default function `np.add`. -/
def countAtEdges [LinearOrder K] (bins : List K) (rows : List K) : List (Option Nat) :=
  atEdges (· + ·) bins (rows.map (fun k => (k, 1)))

/-- `AccumulateUniformityMetric.run`, lines 178-190. -/
def accumulateUniformity [Field K] [LinearOrder K] (bins nights : List K) : List K :=
  if nights.length = 1 then List.replicate (bins.length - 1) 1
  else
    let visits := accumulate (· + ·) (histogram bins nights)
    let expected : List K := (List.range (bins.length - 1)).map
      (fun i : Nat => (i : K) / ((bins.length - 2 : Nat) : K) * (nights.length : K))
    let dMax := accumulate max (List.zipWith (fun (v : Nat) e => |(v : K) - e|) visits expected)
    dMax.map (fun d => d / (expected.max?.getD 0))

end Verif.Vec
