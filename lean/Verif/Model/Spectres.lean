import Mathlib.Algebra.Order.Field.Basic
import Mathlib.Data.List.Basic

/-!
# Resampling of spectra, `rubin_sim/phot_utils/spectral_resampling.py`

Numbers are elements of an ordered field; `none` in a result is NaN. One spectrum is
resampled (no leading dimensions) and no errors are propagated.
-/

namespace Verif.Spectres

variable {K : Type*} [Field K] [LinearOrder K]

/-- Edge number `i` of the bins of the wavelengths `w`, `make_bins`,
`spectral_resampling.py:14-19`. -/
def edge (w : List K) (i : Nat) : K :=
  let n := w.length
  if i = 0 then w.getD 0 0 - (w.getD 1 0 - w.getD 0 0) / 2
  else if i = n then w.getD (n - 1) 0 + (w.getD (n - 1) 0 - w.getD (n - 2) 0) / 2
  else (w.getD i 0 + w.getD (i - 1) 0) / 2

/-- Width of bin `i`, `make_bins`, `spectral_resampling.py:17-20`. -/
def width (w : List K) (i : Nat) : K :=
  let n := w.length
  if i = n - 1 then w.getD (n - 1) 0 - w.getD (n - 2) 0
  else edge w (i + 1) - edge w i

/-- `make_bins`, `spectral_resampling.py:11-22`: edges and widths; `none` is the
`IndexError` of fewer than two wavelengths. -/
def makeBins (w : List K) : Option (List K × List K) :=
  if w.length < 2 then none
  else some ((List.range (w.length + 1)).map (edge w), (List.range w.length).map (width w))

/-- The loops `while p(old_edges[i + 1]): i += 1`, `spectral_resampling.py:118-123`.
`none` is the `IndexError` past the last edge. The fuel is the number of edges. -/
def advance (p : K → Bool) (edges : List K) : Nat → Nat → Option Nat
  | 0, _ => none
  | fuel + 1, i =>
    match edges[i + 1]? with
    | none => none
    | some v => if p v then advance p edges fuel (i + 1) else some i

/-- `a[start : stop + 1]` -/
def slice (a : List K) (start stop : Nat) : List K := (a.drop start).take (stop + 1 - start)

/-- The pointers and the array of widths carried through the loop over new bins. -/
structure State (K : Type*) where
  start : Nat
  stop : Nat
  widths : List K

/-- One pass of the loop over new bins, `spectral_resampling.py:98-153`. -/
def step (fill : Option K) (oldEdges oldFluxes newEdges : List K) (st : State K) (j : Nat) :
    Option (State K × Option K) :=
  let a := newEdges.getD j 0
  let b := newEdges.getD (j + 1) 0
  if a < oldEdges.getD 0 0 ∨ oldEdges.getD (oldEdges.length - 1) 0 < b then
    some (st, fill)
  else
    match advance (fun v => decide (v ≤ a)) oldEdges oldEdges.length st.start,
        advance (fun v => decide (v < b)) oldEdges oldEdges.length st.stop with
    | some start, some stop =>
      if stop = start then
        some (⟨start, stop, st.widths⟩, some (oldFluxes.getD start 0))
      else
        let startFactor := (oldEdges.getD (start + 1) 0 - a) /
          (oldEdges.getD (start + 1) 0 - oldEdges.getD start 0)
        let endFactor := (b - oldEdges.getD stop 0) /
          (oldEdges.getD (stop + 1) 0 - oldEdges.getD stop 0)
        let widths := (st.widths.modify start (· * startFactor)).modify stop (· * endFactor)
        let fWidths := List.zipWith (· * ·) (slice widths start stop) (slice oldFluxes start stop)
        let total := (slice widths start stop).sum
        let value := if total = 0 then none else some (fWidths.sum / total)
        some (⟨start, stop, (widths.modify start (· / startFactor)).modify stop (· / endFactor)⟩,
          value)
    | _, _ => none

/-- The loop over new bins `j, j + 1, ...`. -/
def loop (fill : Option K) (oldEdges oldFluxes newEdges : List K) :
    Nat → Nat → State K → Option (List (Option K))
  | 0, _, _ => some []
  | n + 1, j, st =>
    match step fill oldEdges oldFluxes newEdges st j with
    | none => none
    | some (st', v) => (loop fill oldEdges oldFluxes newEdges n (j + 1) st').map (v :: ·)

/-- `spectres`, `spectral_resampling.py:25-161`; the outer `none` is an `IndexError`. -/
def spectres (newWavs oldWavs oldFluxes : List K) (fill : Option K) :
    Option (List (Option K)) :=
  match makeBins oldWavs, makeBins newWavs with
  | some (oldEdges, oldWidths), some (newEdges, _) =>
    loop fill oldEdges oldFluxes newEdges newWavs.length 0 ⟨0, 0, oldWidths⟩
  | _, _ => none

end Verif.Spectres
