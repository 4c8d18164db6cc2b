import Mathlib.Analysis.SpecialFunctions.Log.Base
import Mathlib.Analysis.SpecialFunctions.Trigonometric.Basic
import Verif.Model.NumpyMore
import Verif.Model.Seasons

/-!
# Interpolation of the components of the sky

Models of `rubin_sim/skybrightness/interp_components.py` and `twilight_func.py`. Arrays of points are treated point by
point (the `argsort` of `_indx_and_weights` is undone in the next line), spectra wavelength by wavelength: `values` is
the column of one wavelength or filter. A grid (`dim_dict`, from `np.unique`) is a strictly increasing list.
-/

namespace Verif.SkyI

open Verif.Np

/-! ## Identifiers -/

/-- `a[lo:hi] = v` -/
def setRange (c : List ℤ) (lo hi : ℕ) (v : ℤ) : List ℤ := c.mapIdx (fun j x => if lo ≤ j ∧ j < hi then v else x)

/-- The loops of lines 49-50 and 64-65: the range of each key in the sorted column `c` is given its value. -/
def fill (c : List ℤ) (kv : List (ℤ × ℤ)) (init : List ℤ) : List ℤ :=
  kv.foldl (fun acc e => setRange acc (searchsortedLeft c e.1) (searchsortedRight c e.1) e.2) init

/-- `result[order] = vals` -/
def scatter (order : List ℕ) (vals : List ℤ) (n : ℕ) : List ℤ := (List.range n).map (fun j => vals.getD (order.idxOf j) 0)

/-- `ids[order]` -/
def gather (ids : List ℤ) (order : List ℕ) : List ℤ := order.map (fun i => ids.getD i 0)

/-- `id2intid`, `interp_components.py:38-53`, with the result of `argsort` and the contents of `np.empty`. The three results. -/
def id2intid (order : List ℕ) (empty ids : List ℤ) : List ℤ × List ℤ × List ℤ :=
  let uids := Seasons.uniqueInt ids
  let uintids := (List.range uids.length).map (fun i : ℕ => (i : ℤ))
  (scatter order (fill (gather ids order) (uids.zip uintids) empty) ids.length, uids, uintids)

/-- `intid2id`, `interp_components.py:56-69`, with the result of `argsort`. -/
def intid2id (order : List ℕ) (intids uintids uids : List ℤ) : List ℤ :=
  scatter order (fill (gather intids order) (uintids.zip uids) (List.replicate intids.length 0)) intids.length

/-! ## Weights -/

section
variable {K : Type*} [Field K] [LinearOrder K]

/-- `a[i]`, where a negative index counts from the end. -/
def get (a : List K) (i : ℤ) : K := if 0 ≤ i then a.getD i.toNat 0 else a.getD (a.length - (-i).toNat) 0

/-- The two indices and weights. -/
structure IW (K : Type*) where
  r : ℤ
  l : ℤ
  wr : K
  wl : K

/-- `_indx_and_weights`, `interp_components.py:200-238`, of one point. -/
def indxWeights (p : K) (grid : List K) : IW K :=
  let r0 : ℤ := searchsortedLeft grid p
  let l := r0 - 1
  let r := if r0 = grid.length then (grid.length : ℤ) - 1 else r0
  let full := get grid r - get grid l
  if full = 0 then ⟨r, l, 1, 0⟩ else ⟨r, l, (p - get grid l) / full, (get grid r - p) / full⟩

/-- Lines 262-264: the weighted sum. -/
def lin (p : K) (grid values : List K) : K :=
  let w := indxWeights p grid
  w.wr * get values w.r + w.wl * get values w.l

/-- `in_range`, `interp_components.py:250-253` (the extremes of a grid are its ends). -/
def inRange (p : K) (grid : List K) : Bool := decide (p ≤ get grid (-1)) && decide (get grid 0 ≤ p)

/-- `BaseSingleInterp._weighting`, `interp_components.py:240-266`. -/
def single (p : K) (grid values : List K) : K := if inRange p grid then lin p grid values else 0

/-- `Airglow._weighting`, `interp_components.py:321-344`: `values` is in the order of airmass and solar flux. -/
def airglow (am sf : K) (ams sfs values : List K) : K :=
  if inRange am ams && inRange sf sfs then
    let a := indxWeights am ams
    let s := indxWeights sf sfs
    let n : ℤ := sfs.length
    a.wr * s.wr * get values (a.r * n + s.r) + a.wr * s.wl * get values (a.r * n + s.l) +
      a.wl * s.wr * get values (a.l * n + s.r) + a.wl * s.wl * get values (a.l * n + s.l)
  else 0

/-- The weights of neighbouring pixels, `interp_components.py:715-720` and 780-785: those not in the map are left out. -/
def pixWeights (known : List ℕ) (nb : List (ℕ × K)) : List (ℕ × K) :=
  let w := nb.map (fun e => (e.1, if e.1 ∈ known then e.2 else 0))
  let norm := (w.map Prod.snd).sum
  if norm = 0 then w else w.map (fun e => (e.1, e.2 / norm))

/-- `ZodiacalInterp._weighting`, `interp_components.py:761-798`; `nb` are the neighbouring pixels of the point. -/
def zodiacal (am : K) (ams : List K) (known : List ℕ) (nb : List (ℕ × K)) (values : List K) : K :=
  if inRange am ams then
    let a := indxWeights am ams
    let n : ℤ := known.length
    ((pixWeights known nb).map (fun e => e.2 * a.wr * get values (a.r * n + e.1) + e.2 * a.wl * get values (a.l * n + e.1))).sum
  else 0

end

/-! ## Spectra and magnitudes -/

/-- `log_spec`, `interp_components.py:173-176`. -/
noncomputable def logSpec (values : List ℝ) : List ℝ := values.map (fun v => if v ≠ 0 then Real.logb 10 v else 0)

/-- `interp_spec`, `interp_components.py:268-273`, of a column of spectra. -/
noncomputable def interpSpec (p : ℝ) (grid values : List ℝ) : ℝ :=
  let r := single p grid (logSpec values)
  if r = 0 then 0 else (10 : ℝ) ^ r

/-- `interp_mag`, `interp_components.py:275-281`, of a column of magnitudes. -/
noncomputable def interpMag (p : ℝ) (grid mags : List ℝ) : ℝ :=
  let r := single p grid mags
  if r = 0 then 0 else (10 : ℝ) ^ (-0.4 * (r - Real.logb 10 3631))

/-! ## Twilight -/

/-- The five parameters of the fit. -/
structure Fit where
  ratio : ℝ
  slope : ℝ
  amTerm : ℝ
  azTerm : ℝ
  dark : ℝ

/-- Twelve degrees in radians. -/
noncomputable def twelve : ℝ := 12 * (Real.pi / 180)

/-- `towards`, `twilight_func.py:53`. -/
noncomputable def towards (amCut az am : ℝ) : Bool := decide (amCut < am) && (decide (az < Real.pi / 2) || decide (3 * Real.pi / 2 < az))

/-- `away`, `twilight_func.py:52`. -/
noncomputable def away (amCut az am : ℝ) : Bool := decide (am ≤ amCut) || (decide (Real.pi / 2 ≤ az) && decide (az ≤ 3 * Real.pi / 2))

/-- `twilight_func`, `twilight_func.py:26-65`, of one point. `hp` is the parameter of its pixel if there are more than five. -/
noncomputable def twilight (f : Fit) (hp : Option ℝ) (amCut az am sun : ℝ) : ℝ :=
  let x := f.ratio * f.dark * (10 : ℝ) ^ (f.slope * (sun + twelve) + f.amTerm * (am - 1))
  let y := if towards amCut az am then x * (10 : ℝ) ^ (f.azTerm * Real.cos az * (am - 1)) else x
  match hp with
  | none => y
  | some h =>
    let z := if away amCut az am then y + f.dark * Real.exp (h * (am - 1)) else y
    if towards amCut az am then z + f.dark * Real.exp (h * (am - 1)) else z

/-- `zenith_twilight`, `twilight_func.py:68-83`. -/
noncomputable def zenith (f : Fit) (sun : ℝ) : ℝ := f.ratio * f.dark * (10 : ℝ) ^ (f.slope * (sun + twelve)) + f.dark

/-- `TwilightInterp.interp_mag`, `interp_components.py:569-619`, of one point and filter: `none` is not a number. `high`
says whether some point of the call has the sun above the limits. -/
noncomputable def twilightMag (f : Fit) (high : Bool) (az am sun : ℝ) : Option ℝ :=
  if high then none
  else if -20 * (Real.pi / 180) ≤ sun ∧ sun ≤ 15 * (Real.pi / 180) ∧ am ≤ 3 ∧ 1 ≤ am then some (twilight f none 1 az am sun)
  else some 0

end Verif.SkyI
