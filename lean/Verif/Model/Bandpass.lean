import Verif.Model.Sed
import Verif.Model.MoSummary
import Mathlib.Algebra.Order.Floor.Semiring
import Mathlib.Data.List.Sort

/-!
# Throughput curves, `rubin_sim/phot_utils/bandpass.py`

A throughput curve is a list of pairs of wavelength and throughput. Numbers are elements of an
ordered field. `none` is an exception.
-/

namespace Verif.Bandpass

open Verif.Sed

variable {K : Type*} [Field K] [LinearOrder K]

abbrev Curve (K : Type*) := List (K × K)

/-- `Bandpass.read_throughput` from the rows of a file that are not comments,
`bandpass.py:177-188`. -/
def readThroughput (rows : Curve K) : Option (Curve K) :=
  if (rows.map Prod.fst).length ≠ (rows.map Prod.fst).dedup.length then none
  else some (rows.insertionSort (fun a b => a.1 ≤ b.1))

/-- `scipy.interpolate.interp1d(wavelen, sb, fill_value=0, bounds_error=False)` for increasing
wavelengths, `bandpass.py:308-309`. -/
def interp0 (c : Curve K) (w : K) : K :=
  match (c.map Prod.fst).min?, (c.map Prod.fst).max? with
  | some a, some b => if w < a ∨ b < w then 0 else Verif.MoSum.interp c w
  | _, _ => 0

section floor

variable [IsStrictOrderedRing K] [FloorSemiring K]

/-- `np.arange(wavelen_min, wavelen_max + wavelen_step / 2, wavelen_step)`,
`bandpass.py:223-228` and `bandpass.py:306`. -/
def halfGrid (lo hi step : K) : List K := grid lo step ⌈(hi + step / 2 - lo) / step⌉₊

/-- `Bandpass.resample_bandpass`, `bandpass.py:302-317`. -/
def resampleBandpass (c : Curve K) (lo hi step : K) : Option (Curve K) :=
  match (c.map Prod.fst).min?, (c.map Prod.fst).max? with
  | some a, some b =>
    if hi < a ∨ b < lo then none
    else some ((halfGrid lo hi step).map fun w => (w, interp0 c w))
  | _, _ => none

/-- One component in `Bandpass.read_throughput_list`, `bandpass.py:234-244`. -/
def addComponent (lo hi step : K) (acc : Option (Curve K)) (c : Curve K) : Option (Curve K) :=
  match acc, resampleBandpass c lo hi step with
  | some a, some r => some (List.zipWith (fun x y => (x.1, x.2 * y.2)) a r)
  | _, _ => none

/-- `Bandpass.read_throughput_list` of curves that were read, `bandpass.py:223-245`. -/
def readThroughputList (cs : List (Curve K)) (lo hi step : K) : Option (Curve K) :=
  cs.foldl (addComponent lo hi step) (some ((halfGrid lo hi step).map fun w => (w, 1)))

/-- `Bandpass.multiply_throughputs`, `bandpass.py:341-354`. Grids of different
length are not equal, as in numpy before 1.25; products of arrays of different length raise,
unless one of them has length one, which is not modelled. -/
def multiplyThroughputs (own other : Curve K) : Option (Curve K) :=
  if own.map Prod.fst = other.map Prod.fst then
    some (List.zipWith (fun x y => (x.1, x.2 * y.2)) own other)
  else
    match (own.map Prod.fst).min?, (own.map Prod.fst).max? with
    | some lo, some hi =>
      let w := own.map Prod.fst
      match resampleBandpass other lo hi (w.getD 1 0 - w.getD 0 0) with
      | none => none
      | some r =>
        if r.length = own.length then some (List.zipWith (fun x y => (x.1, x.2 * y.2)) own r)
        else none
    | _, _ => none

/-- `Bandpass.imsim_bandpass`, `bandpass.py:119-128`. -/
def imsimBandpass (target lo hi step : K) : Curve K :=
  (grid lo step ⌈(hi + step - lo) / step⌉₊).map fun w =>
    (w, if |w - target| < step / 2 then 1 else 0)

end floor

/-- `Bandpass.calc_eff_wavelen`, `bandpass.py:395-399`, with `phi` up to date. -/
def effWavelen (c : Curve K) : Option (K × K) :=
  match sbToPhi (⟨c.map Prod.fst, c.map Prod.snd, none⟩ : Band K) with
  | none => none
  | some phi =>
    some ((List.zipWith (· * ·) (c.map Prod.fst) phi).sum / phi.sum,
      (List.zipWith (· * ·) (c.map Prod.fst) (c.map Prod.snd)).sum / (c.map Prod.snd).sum)

end Verif.Bandpass
