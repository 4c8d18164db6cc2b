import Mathlib.Analysis.SpecialFunctions.Log.Base
import Mathlib.Analysis.SpecialFunctions.Pow.Real
import Mathlib.Algebra.Order.Floor.Ring
import Mathlib.Data.Rat.Floor
import Verif.Model.NumpyMore
import Verif.Model.OneDSlicer
import Verif.Model.NDSlicer

/-!
# Model of the numbers that the plotters draw

`rubin_sim/maf/plots/spatial_plotters.py`, `two_d_plotters.py`, `nd_plotters.py`,
`mo_plotters.py` and `special_plotters.py`. Drawing (matplotlib, healpy) is left out: the
model gives the limits, the edges of bins and the points that are passed on. Numbers are
those of an ordered field; values that are masked are left out of the lists.
-/

namespace Verif.Plotters

open Verif.Np

inductive PyErr | key | attribute | value
  deriving DecidableEq, Repr

section
variable {K : Type*} [Field K] [LinearOrder K]

/-! ## Limits of the colours -/

/-- `set_color_lims`, `spatial_plotters.py:66-98`; `clip` is `percentile_clipping` with the
percentile of the dictionary, if there is one. -/
def colorLims (cmin cmax : Option K) (clip : Option (List K → K × K)) (data : List K) : K × K :=
  let temp : K × K :=
    match data.min?, data.max? with
    | some lo, some hi =>
      let t := match clip with
        | some f => f data
        | none => (lo, hi)
      let t := if t.1 = t.2 then (t.1 - 1 / 2, t.2 + 1 / 2) else t
      (min t.1 t.2, max t.1 t.2)
    | _, _ => (0, 1)
  (cmin.getD temp.1, cmax.getD temp.2)

/-! ## Histograms -/

variable [FloorRing K]

/-- The edges of the bins when `bin_size` is given and the histogram is not cumulative,
`spatial_plotters.py:459-470`. -/
def histBins (xmin xmax w : K) : List K :=
  let b := Slicers.arange xmin (xmax + w / 2) w
  match b with
  | [a] => Slicers.arange (a - w * 2) (a + w * 2) w
  | _ => b

/-- The edges for a cumulative histogram, `spatial_plotters.py:451-455`. -/
def cumBins (lo hi xmin xmax w : K) : List K := histBins (min lo xmin) (max hi xmax) w

/-- Longitude on the map, `spatial_plotters.py:674` (also 612, 638, 643); `tau` is a full
turn. -/
def skyLon (tau ra cen : K) : K :=
  let x := -(ra - cen - tau / 2)
  x - tau * ⌊x / tau⌋ - tau / 2

/-! ## Visits in singles, pairs, triples -/

/-- The edges of the bins of `VisitPairsHist`, `two_d_plotters.py:162`. -/
def pairBins (m : Nat) : List ℚ := Slicers.arange (1 / 2) ((m : ℚ) + 1 / 2) 1

/-- The heights of the bars, `two_d_plotters.py:161-170`: the middle of the bin times the
number of nights in it. -/
def pairBars (counts : List Nat) : List ℚ :=
  let bins := pairBins (counts.max?.getD 0)
  let vals := histogram bins (counts.map (fun c : Nat => (c : ℚ)))
  (List.range vals.length).map (fun i => ((vals.getD i 0 : Nat) : ℚ) * ((bins.getD i 0 + bins.getD (i + 1) 0) / 2))

end

/-! ## Masks -/

/-- `TwoDMap`, `two_d_plotters.py:79-81`: values and mask of the bundle after the call. -/
def twoDMap {K : Type*} [LinearOrder K] (cmin : Option K) (vals : List (K × Bool)) : List (K × Bool) :=
  match cmin with
  | some c => vals.map (fun v => (v.1, v.2 || decide (v.1 < c)))
  | none => vals

/-! ## Slices in several dimensions -/

/-- The index of each value in an array of the given shape: `reshape` is in the order of
rows. -/
def indices (shape : List Nat) : List (List Nat) := Slicers.product (shape.map List.range)

/-- The sum of the values whose index has a property; masked values are left out before. -/
def sumWhere {K : Type*} [AddCommMonoid K] (vals : List K) (idx : List (List Nat)) (P : List Nat → Bool) : K :=
  (((vals.zip idx).filter (fun v => P v.2)).map Prod.fst).sum

/-- `OneDSubsetData`, `nd_plotters.py:179-205`, for a slicer with the attributes `attrs` and
`shape` bins: the values at the bins of the axis. The number of dimensions is looked up as
`slicer.nD` (186); the numbers of bins and of values have to be the same to be drawn. -/
def oneDSubset {K : Type*} [AddCommMonoid K] (attrs : List String) (shape : List Nat) (vals : List K) (axis : Nat) : Except PyErr (List K) :=
  if "nD" ∉ attrs then .error .attribute
  else
    let n := shape.reverse.getD axis 0
    if n ≠ shape.getD axis 0 then .error .value
    else .ok ((List.range n).map (fun j => sumWhere vals (indices shape.reverse) (fun i => i.getD axis 0 == j)))

/-- `TwoDSubsetData`, `nd_plotters.py:69-89`: the value drawn at bin `i` of the x axis and
bin `j` of the y axis. The axes that are left are in the order of the array, and the row is
the bin of the y axis. -/
def twoDSubset {K : Type*} [AddCommMonoid K] (shape : List Nat) (vals : List K) (x y i j : Nat) : K :=
  sumWhere vals (indices shape.reverse) (fun k => k.getD (min x y) 0 == j && k.getD (max x y) 0 == i)

/-- The attributes which `NDSlicer` sets, `nd_slicer.py:33-46` and 51-114, with those of
`base_slicer.py:68-121`. -/
def ndSlicerAttrs : List String :=
  ["slice_col_list", "columns_needed", "n_d", "bins_list", "slicer_init", "plot_funcs", "bins", "nslice", "shape", "slice_points",
    "sim_idxs", "lefts", "_slice_sim_data", "verbose", "badval", "cache_size", "slicer_name", "islice"]

/-! ## Moving objects -/

/-- The keys of the defaults of `MetricVsOrbit`, `mo_plotters.py:152-167`. -/
def orbitKeys : List String :=
  ["title", "xlabel", "ylabel", "xaxis", "yaxis", "label", "cmap", "np_reduce", "nxbins", "nybins", "levels", "h_val", "Hwidth", "figsize"]

/-- The lookups of `MetricVsOrbit` for the width and the value of H, `mo_plotters.py:198-215`:
`cloned` says that all objects have the same values of H, `hval` what is there for it. -/
def orbitLookups (cloned : Bool) (keys : List String) (hvalNone : Bool) : Except PyErr Unit :=
  if "hwidth" ∉ keys then .error .key
  else if "hval" ∉ keys then .error .key
  else if cloned then .ok ()
  else if hvalNone then .ok ()
  else if "hvals" ∉ keys then .error .key
  else .ok ()

/-- The bins of H of `MetricVsH`, `mo_plotters.py:65-74`. -/
def hBins {K : Type*} [Field K] [LinearOrder K] [FloorRing K] (lo hi : K) (nbins : Nat) : List K :=
  let range := if hi - lo < 1 then 1 else hi - lo
  let start := if hi - lo < 1 then lo - 1 / 2 else lo
  let step := range / (nbins : K)
  Slicers.arange start (start + range + step / 2) step

/-- `np.digitize(hvals, bins) - 1`, `mo_plotters.py:77-78`. -/
def hIndex {K : Type*} [LinearOrder K] (bins : List K) (h : K) : Int := (bins.countP (fun b => decide (b ≤ h)) : Int) - 1

/-- The diameter in metres of an object with the magnitude `h`, `mo_plotters.py:112-115`. -/
noncomputable def diameter (albedo h : ℝ) : ℝ :=
  2 * √((10 : ℝ) ^ ((-26.74 - h - 2.5 * Real.logb 10 albedo) / 2.5)) * 149600000 * 1000

/-! ## Cumulative area -/

/-- The curve of `FOPlot`, `special_plotters.py:72-79`. -/
def foCurve {K : Type*} [Field K] [LinearOrder K] (scale : K) (vals : List K) : List (K × K) :=
  (sort vals).zip (((List.range vals.length).map (fun i : Nat => ((i + 1 : Nat) : K) * scale)).reverse)

/-- `SummaryHistogram`, `special_plotters.py:200-208`, with `SumMetric`: the sum of each bin
over the sky; `rows` are the values of the points. -/
def summaryHist {K : Type*} [AddCommMonoid K] (n : Nat) (rows : List (List K)) (cumulative : Bool) : List K :=
  let h := (List.range n).map (fun i => (rows.map (fun r => r.getD i 0)).sum)
  if cumulative then (List.range n).map (fun i => (h.take (i + 1)).sum) else h

end Verif.Plotters
