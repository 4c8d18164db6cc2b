import Verif.Model.RealMetrics
import Verif.Model.MoMetrics
import Mathlib.Data.List.Dedup

/-!
# Depth after dust

Models of `rubin_sim/maf/metrics/exgal_m5.py`, `weak_lensing_systematics_metric.py`,
`uniformity_metrics.py` and `scaling_metrics.py`, over the real numbers.
-/

namespace Verif.Depth

open Real

/-- A float: a real number or NaN. -/
abbrev Val := Option ℝ

/-- `x == y` -/
def Val.eq (x y : Val) : Prop :=
  match x, y with
  | some a, some b => a = b
  | _, _ => False

/-- `x < y` -/
def Val.lt (x y : Val) : Prop :=
  match x, y with
  | some a, some b => a < b
  | _, _ => False

/-- The columns that these metrics read. -/
structure Obs where
  band : String
  m5 : ℝ
  exp : ℝ
  seeing : ℝ

/-- `data_slice[data_slice[filter_col] == f]` -/
def inBand (f : String) (vs : List Obs) : List Obs := vs.filter (fun v => decide (v.band = f))

/-- `len(set(data_slice[filter_col]))` -/
def nFilters (vs : List Obs) : ℕ := (vs.map Obs.band).dedup.length

/-- `ExgalM5.run`, `exgal_m5.py:47-57`. The coadded depth is never the bad value -666 of
`Coaddm5Metric` other than for no visits. -/
noncomputable def exgal (ax1 : String → ℝ) (bad : Val) (ebv : ℝ) (vs : List Obs) : Val :=
  match vs with
  | [] => bad
  | v :: _ => some (RealMetrics.coadd (vs.map Obs.m5) - ax1 v.band * ebv)

/-! ## Cuts -/

section

open Classical

/-- `ExgalM5WithCuts.run`, `weak_lensing_systematics_metric.py:54-75`. The inner metric has the
default bad value, line 45. -/
noncomputable def withCuts (ax1 : String → ℝ) (bad : Val) (f : String) (extCut depthCut : ℝ) (n : ℕ) (ebv : ℝ) (vs : List Obs) : Val :=
  if ebv > extCut then bad
  else if nFilters vs < n then bad
  else
    let d := exgal ax1 (some (-666)) ebv (inBand f vs)
    if d.lt (some depthCut) then bad else d

/-- `WeakLensingNvisits.run`, `weak_lensing_systematics_metric.py:111-121`. -/
noncomputable def nVisits (ax1 : String → ℝ) (bad : Val) (f : String) (ebvLim depthCut minExp : ℝ) (ebv : ℝ) (vs : List Obs) : Val :=
  if ebv > ebvLim then bad
  else
    let d := exgal ax1 (some (-666)) ebv (inBand f vs)
    if d.lt (some depthCut) then bad
    else some ((vs.filter (fun v => decide (v.exp > minExp))).length : ℝ)

/-- `RIZDetectionCoaddExposureTime.run`, `weak_lensing_systematics_metric.py:197-210`; the
bands that should be present are an attribute that is not read. -/
noncomputable def rizTime (bad : Val) (det minBands : List String) (ebvLim minExp ebv : ℝ) (vs : List Obs) : Val :=
  if ebv > ebvLim then bad
  else some ((vs.filter (fun v => decide (v.exp > minExp) && decide (v.band ∈ det))).map Obs.exp).sum

/-- `NestedRIZExptimeExgalM5Metric.run`, `uniformity_metrics.py:351-362`, as the pair of depth
and time. -/
noncomputable def nestedRiz (ax1 : String → ℝ) (bad : Val) (f : String) (extCut depthCut : ℝ) (n : ℕ) (ebv : ℝ) (vs : List Obs) : Val × Val :=
  (withCuts ax1 bad f extCut depthCut n ebv vs,
   rizTime (some (-666)) ["r", "i", "z"] ["u", "g", "r", "i", "z", "y"] extCut 15 ebv (inBand "i" vs))

/-! ## Linear models -/

def lsst : List String := ["u", "g", "r", "i", "z", "y"]

/-- What `run` gives or raises. -/
inductive Res (α : Type)
  | error (name : String)
  | val (x : α)

/-- `np.dot` of depths and coefficients. -/
noncomputable def dot : List (ℝ × Val) → Val
  | [] => some 0
  | (c, d) :: l =>
    match d, dot l with
    | some x, some y => some (c * x + y)
    | _, _ => none

/-- The loop that subtracts the mean depths, `uniformity_metrics.py:127-129` and 297-299:
`depths` has one row, so that `depths[0]` is the whole row and others do not exist. -/
noncomputable def subMeans (means : String → Option ℝ) : ℕ → List String → List Val → Res (List Val)
  | _, [], ds => .val ds
  | i, b :: bs, ds =>
    match means b with
    | none => subMeans means (i + 1) bs ds
    | some m => if i = 0 then subMeans means (i + 1) bs (ds.map (Option.map (· - m))) else .error "IndexError"

/-- The loop over depth cuts, `uniformity_metrics.py:138-148`: whether the result is bad. -/
noncomputable def cuts (lo hi means : String → Option ℝ) : List (String × Val) → Res Bool
  | [] => .val false
  | (b, d) :: l =>
    let low : Res Bool :=
      match lo b with
      | none => .val false
      | some c => match means b with
        | none => .error "KeyError"
        | some m => .val (decide (d.lt (some (c - m))))
    match low with
    | .error e => .error e
    | .val true => .val true
    | .val false =>
      let high : Res Bool :=
        match hi b with
        | none => .val false
        | some c => match means b with
          | none => .error "KeyError"
          | some m => .val (decide (Val.lt (some (c - m)) d))
      match high with
      | .error e => .error e
      | .val true => .val true
      | .val false => cuts lo hi means l

/-- The parameters of the linear models. -/
structure Lin where
  ax1 : String → ℝ
  bad : Val
  extCut : ℝ
  n : ℕ
  lo : String → Option ℝ
  hi : String → Option ℝ
  means : String → Option ℝ
  post : Val → Val

/-- The means that are used if none are given, `uniformity_metrics.py:83-85`. -/
noncomputable def zeroMeans : String → Option ℝ := fun b => if b ∈ lsst then some 0 else none

/-- `SingleLinearMultibandModelMetric.run`, `uniformity_metrics.py:110-151`; `bands` are the
bands of the model with their coefficients, line 95. -/
noncomputable def single (p : Lin) (bands : List (String × ℝ)) (cst ebv : ℝ) (vs : List Obs) : Res Val :=
  if ebv > p.extCut then .val p.bad
  else if nFilters vs < p.n then .val p.bad
  else if bands = [] then .error "ValueError"
  else
    match subMeans p.means 0 (bands.map Prod.fst) (bands.map (fun b => exgal p.ax1 p.bad ebv (inBand b.1 vs))) with
    | .error e => .error e
    | .val ds =>
      if ∃ d ∈ ds, Val.eq d p.bad then .val p.bad
      else
        match cuts p.lo p.hi p.means ((bands.map Prod.fst).zip ds) with
        | .error e => .error e
        | .val true => .val p.bad
        | .val false => .val (p.post ((dot ((bands.map Prod.snd).zip ds)).map (cst + ·)))

/-- The cut at the faint limit, `uniformity_metrics.py:290-294`. -/
noncomputable def cutLow (p : Lin) (f : String) (d : Val) : Val :=
  match p.lo f with
  | some c => if d.lt (some c) then p.bad else d
  | none => d

/-- The cut at the bright limit, `uniformity_metrics.py:290-294`. -/
noncomputable def cutHigh (p : Lin) (f : String) (d : Val) : Val :=
  match p.hi f with
  | some c => if Val.lt (some c) d then p.bad else d
  | none => d

/-- One depth after the cuts, `uniformity_metrics.py:290-294`. -/
noncomputable def cutDepth (p : Lin) (f : String) (d : Val) : Val := cutHigh p f (cutLow p f d)

/-- One bin of `NestedLinearMultibandModelMetric.run`, `uniformity_metrics.py:281-305`; the
model is a dictionary. -/
noncomputable def nestedBin (p : Lin) (model : String → Option ℝ) (ebv : ℝ) (vs : List Obs) : Res Val :=
  let ds := lsst.map (fun f => cutDepth p f (exgal p.ax1 p.bad ebv (inBand f vs)))
  match subMeans p.means 0 lsst ds with
  | .error e => .error e
  | .val ds => .val (p.post ((dot ((lsst.map (fun f => (model f).getD 0)).zip ds)).map ((model "cst").getD 0 + ·)))

/-- All bins in turn; the first exception ends the loop. -/
noncomputable def bins (p : Lin) (ebv : ℝ) (vs : List Obs) : List (String → Option ℝ) → Res (List Val)
  | [] => .val []
  | m :: ms =>
    match nestedBin p m ebv vs with
    | .error e => .error e
    | .val x => match bins p ebv vs ms with
      | .error e => .error e
      | .val xs => .val (x :: xs)

/-- `NestedLinearMultibandModelMetric.run`, `uniformity_metrics.py:264-310`. -/
noncomputable def nested (p : Lin) (models : List (String → Option ℝ)) (ebv : ℝ) (vs : List Obs) : Res (List Val) :=
  if ebv > p.extCut then .val (models.map (fun _ => p.bad))
  else if nFilters vs < p.n then .val (models.map (fun _ => p.bad))
  else bins p ebv vs models

/-- `MultibandExgalM5.run`, `uniformity_metrics.py:402-418`. -/
noncomputable def multiband (ax1 : String → ℝ) (bad : Val) (extCut : ℝ) (n : ℕ) (ebv : ℝ) (vs : List Obs) : List Val :=
  if ebv > extCut then lsst.map (fun _ => bad)
  else if nFilters vs < n then lsst.map (fun _ => bad)
  else lsst.map (fun f => exgal ax1 bad ebv (inBand f vs))

end

/-! ## Galaxies and light curves -/

/-- `NgalScaleMetric.run`, `scaling_metrics.py:57-76`, for at least one visit and a pixel of
`area` square arcminutes. The depth of no visits is minus infinity. -/
noncomputable def ngal (ax1 : String → ℝ) (f : String) (aMax m5min area ebv : ℝ) (vs : List Obs) : ℝ :=
  let ax := ax1 ((vs.head?.map Obs.band).getD "") * ebv
  if ax > aMax then 0
  else
    let sel := inBand f vs
    if sel = [] ∨ RealMetrics.coadd (sel.map Obs.m5) < m5min then 0
    else 57 * (0.75 / Mo.median (vs.map Obs.seeing)) ^ (1.5 : ℝ) * area

/-- `NlcPointsMetric.run`, `scaling_metrics.py:125-148`, for matching nside; `nstars` is the
number of stars in the pixel from the map of each filter. -/
noncomputable def nlc (ndpmin : ℕ) (mag : ℝ) (nstars : String → ℝ) (vs : List Obs) : ℝ :=
  ((vs.map Obs.band).dedup.map (fun f =>
    let nObs := (vs.filter (fun v => decide (v.band = f) && decide (v.m5 > mag))).length
    if nObs > ndpmin then (nObs : ℝ) * nstars f else 0)).sum

end Verif.Depth
