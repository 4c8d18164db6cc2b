import Verif.Model.Numpy
import Mathlib.Algebra.Order.Floor.Ring
import Mathlib.Algebra.Order.Field.Basic

/-!
# `OneDSlicer` and `MovieSlicer`

Models `rubin_sim/maf/slicers/one_d_slicer.py` and
`rubin_sim/maf/slicers/movie_slicer.py`. Values are elements of an exact
linearly ordered field (floats idealised, no NaN).
-/

namespace Verif.Slicers

open Verif.Np

/-- Exceptions the slicer setup can raise. -/
inductive SetupError
  /-- `np.nanmin`/`min` of an empty column -/
  | valueError
  /-- `np.arange` with a zero step -/
  | zeroDivision
  /-- `warnings.warning` does not exist (`one_d_slicer.py:70`) -/
  | attributeError
  deriving DecidableEq, Repr

section Binning
variable {K : Type*} [Field K] [LinearOrder K] [IsStrictOrderedRing K] [FloorRing K] {n : Nat}

/-- `np.arange(start, stop, step, "float")` for a non-zero step: numpy
documents the length as `ceil((stop - start)/step)`. -/
def arange (start stop step : K) : List K :=
  (List.range (⌈(stop - start) / step⌉).toNat).map (fun (i : Nat) => start + (i : K) * step)

/-- Constructor arguments of `OneDSlicer` that decide the bins
(`one_d_slicer.py:40-75`). -/
structure BinArgs (K : Type*) where
  bins : Option (List K) := none
  binMin : Option K := none
  binMax : Option K := none
  binSize : Option K := none

/-- The column as a list, in row order. -/
def column (vals : Fin n → K) : List K := (List.finRange n).map vals

/-- `one_d_slicer.py:62-76,113-138`: the bin edges used by
`OneDSlicer.setup_slicer` (with the constructor check on the arguments: giving
`bins` together with one of the others is meant to warn, but calls the
non-existent `warnings.warning`, line 70, and so raises).
`nbins lo hi` stands for `np.round(optimal_bins(slice_col, lo, hi))`; a zero
`nbins` (float division by zero, then a failing `arange`) is reported as
`zeroDivision`. -/
def oneDBins (a : BinArgs K) (vals : Fin n → K) (nbins : K → K → Nat) :
    Except SetupError (List K) :=
  match a.bins with
  | some b =>
    if a.binMin.isSome || a.binMax.isSome || a.binSize.isSome then .error .attributeError
    else .ok b
  | none =>
    match a.binMin.or (column vals).min?, a.binMax.or (column vals).max? with
    | some lo, some hi0 =>
      let hi := if lo = hi0 then
          (match a.binSize with
           | some s => hi0 + 2 * s
           | none => hi0 + 1)
        else hi0
      let size := match a.binSize with
        | some s => s
        | none => (hi - lo) / (nbins lo hi : K)
      if size = 0 then .error .zeroDivision else .ok (arange lo (hi + size / 2) size)
    | _, _ => .error .valueError

/-- `movie_slicer.py:92-143`: the bin edges used by `MovieSlicer.setup_slicer`.
`binsArg` is the `bins` argument: a sequence (`.inl`), a number (`.inr`) or
`None`. `nbins lo hi` stands for `int(optimal_bins(...))`. Unlike `OneDSlicer`,
`bin_size` wins over `bins`, and given bins are sorted. -/
def movieBins (binsArg : Option (List K ⊕ Nat)) (a : BinArgs K) (vals : Fin n → K)
    (nbins : K → K → Nat) : Except SetupError (List K) :=
  match a.binMin.or (column vals).min?, a.binMax.or (column vals).max? with
  | some lo, some hi0 =>
    let hi := if lo = hi0 then
        (match a.binSize with
         | some s => hi0 + 2 * s
         | none => hi0 + 1)
      else hi0
    match a.binSize with
    | some s => if s = 0 then .error .zeroDivision else .ok (arange lo (hi + s / 2) s)
    | none =>
      match binsArg with
      | some (.inl b) => .ok (b.insertionSort (· ≤ ·))
      | some (.inr k) =>
        let size := (hi - lo) / (k : K)
        if size = 0 then .error .zeroDivision else .ok (arange lo (hi + size / 2) size)
      | none =>
        let size := (hi - lo) / (nbins lo hi : K)
        if size = 0 then .error .zeroDivision else .ok (arange lo (hi + size / 2) size)
  | _, _ => .error .valueError

end Binning

section Slicing
variable {α : Type*} [LinearOrder α] {n : Nat}

/-- `one_d_slicer.py:152-160`: `self.sim_idxs`, one list of row numbers per
slice. `p` is the result of `np.argsort`. -/
def oneDSimIdxs (vals : Fin n → α) (bins : List α) (p : List (Fin n)) :
    List (List (Fin n)) :=
  let dataSorted := p.map vals
  let left := bins.dropLast.map (searchsortedLeft dataSorted)
  let right := bins.tail.map (searchsortedLeft dataSorted)
  List.zipWith (fun le ri => pySlice p le ri) left right

/-- State left by `OneDSlicer.setup_slicer` that slicing uses. -/
structure OneDState (α : Type*) (n : Nat) where
  bins : List α
  simIdxs : List (List (Fin n))
  deriving DecidableEq

/-- `movie_slicer.py:152-167`: `self.left`, with the data length appended. -/
def movieLeft (vals : Fin n → α) (bins : List α) (p : List (Fin n)) : List Nat :=
  bins.dropLast.map (searchsortedLeft (p.map vals)) ++ [p.length]

/-- `movie_slicer.py:170-191`: slice `islice` in cumulative mode,
`self.sim_idxs[0 : self.left[islice + 1]]`; `none` is an `IndexError`. -/
def movieCumulative (vals : Fin n → α) (bins : List α) (p : List (Fin n)) (islice : Nat) :
    Option (List (Fin n)) :=
  (movieLeft vals bins p)[islice + 1]?.map (fun r => pySlice p 0 r)

/-- `movie_slicer.py:195-212`: slice `islice` in non-cumulative mode,
`self.sim_idxs[self.left[islice] : self.left[islice + 1]]`. -/
def movieStep (vals : Fin n → α) (bins : List α) (p : List (Fin n)) (islice : Nat) :
    Option (List (Fin n)) :=
  match (movieLeft vals bins p)[islice]?, (movieLeft vals bins p)[islice + 1]? with
  | some l, some r => some (pySlice p l r)
  | _, _ => none

end Slicing

/-- `one_d_slicer.py:95-184`: `OneDSlicer.setup_slicer`. The maps and the units
are not modelled. Slice `i` of the iteration is `simIdxs[i]`. -/
def oneDSetup {K : Type*} [Field K] [LinearOrder K] [IsStrictOrderedRing K] [FloorRing K] {n : Nat}
    (a : BinArgs K) (vals : Fin n → K) (nbins : K → K → Nat) (p : List (Fin n)) :
    Except SetupError (OneDState K n) := do
  let bins ← oneDBins a vals nbins
  return { bins := bins, simIdxs := oneDSimIdxs vals bins p }

end Verif.Slicers
