import Mathlib.Algebra.Order.Floor.Ring
import Mathlib.Algebra.Order.Floor.Semiring
import Mathlib.Algebra.Order.Field.Basic
import Mathlib.Data.List.Sort

/-!
# Model of `optimal_bins` and `percentile_clipping` of
`rubin_sim/maf/utils/maf_utils.py`

Numbers are elements of an ordered field with a floor; NaN in the data is `none`.
The cube root in the Freedman-Diaconis rule is an arbitrary function.
-/

namespace Verif.Bins

variable {K : Type*} [Field K] [LinearOrder K] [FloorRing K] [IsStrictOrderedRing K]

/-- `np.percentile(d, 100 q)` (linear interpolation); `none` for no data. -/
def pct (q : K) (d : List K) : Option K :=
  let s := d.insertionSort (· ≤ ·)
  let h := ((s.length : K) - 1) * q
  let i := ⌊h⌋₊
  match s[i]? with
  | none => none
  | some lo => some (lo + (h - (i : K)) * ((s[i + 1]?).getD lo - lo))

/-- A numpy float after a division. -/
inductive Num (K : Type*)
  | nan
  | posInf
  | negInf
  | fin (x : K)

/-- `a / b` with numpy semantics. -/
def fdiv (a b : K) : Num K :=
  if b = 0 then (if a = 0 then .nan else if 0 < a then .posInf else .negInf) else .fin (a / b)

/-- `int(x)` -/
def trunc (x : K) : ℤ := if 0 ≤ x then ⌊x⌋ else ⌈x⌉

/-- `maf_utils.py:150-165`: limits, NaN replacement, conversion. -/
def limitBins (nmax nmin : ℤ) : Num K → ℤ
  | .nan => nmax
  | .posInf => if nmax < nmin then nmin else nmax
  | .negInf => nmin
  | .fin x =>
    if (nmax : K) < x then (if nmax < nmin then nmin else nmax)
    else if x < (nmin : K) then nmin
    else trunc x

/-- `optimal_bins`, 94-165. -/
def optimalBins (croot : Nat → K) (data : List (Option K)) (binmin binmax : Option K) (nmax nmin : ℤ) : ℤ :=
  let d := data.filterMap id
  match binmin <|> d.min?, binmax <|> d.max? with
  | some lo, some hi =>
    let sel := d.filter (fun x => decide (lo ≤ x) && decide (x ≤ hi))
    match pct (3 / 4) sel, pct (1 / 4) sel with
    | some q3, some q1 => limitBins nmax nmin (fdiv (hi - lo) (2 * (q3 - q1) * croot sel.length))
    | _, _ => nmax
  | _, _ => nmax

/-- `percentile_clipping`, 168-190, with the percentile as a fraction. -/
def clip (p : K) (d : List K) : Option (K × K) :=
  let lower := (1 - p) / 2
  let upper := 1 - lower
  match pct lower d, pct upper d with
  | some a, some b => some (a, b)
  | _, _ => none

end Verif.Bins
