import Verif.Model.Astrometry
import Verif.Model.AreaMetrics

/-!
# Cosmology summary metrics

Models of `rubin_sim/maf/metrics/cosmology_summary_metrics.py`, over the real numbers. Parameters of
the model: power spectra and removal of multipoles (healpy), the clusters (sklearn), the emulated
figure of merit, and the polynomial fits of degree two and five. Not modelled: the standard deviation
that `get_stats_by_region` gives too, plots and printing.
-/

namespace Verif.Cosmo

open Real Astro

/-! ## Power -/

open Classical in
/-- `cosmology_summary_metrics.py:84-87`, for a power spectrum. -/
noncomputable def power (lmin lmax : ℝ) (cl : List ℝ) : ℝ :=
  total (fun l : ℕ => (cl[l]?).getD 0 * (2 * (l : ℝ) + 1)) ((List.range cl.length).filter (fun l => decide ((l : ℝ) ≤ lmax) && decide ((l : ℝ) ≥ lmin)))

/-- `TotalPowerMetric.run`, `cosmology_summary_metrics.py:75-87`. -/
noncomputable def totalPower {M : Type*} (rmMono rmDip : M → M) (anafast : M → List ℝ) (mono dip : Bool) (lmin lmax : ℝ) (m : M) : ℝ :=
  let _data := if mono then rmMono m else m
  let cl := if dip then anafast (rmDip m) else anafast m
  power lmin lmax cl

/-! ## Fit of sigma8 -/

/-- A redshift bin: the greatest multipole, the model spectrum, the spurious power of the map and the
fraction of the sky. -/
structure Bin where
  lmax : ℕ
  cell : ℕ → ℝ
  spurious : ℝ
  fsky : ℝ

/-- `np.arange(lmin, lmax)`, `cosmology_summary_metrics.py:356`. -/
def ells (lmin : ℕ) (b : Bin) : List ℕ := List.range' lmin (b.lmax - lmin)

/-- `cosmology_summary_metrics.py:361`. -/
noncomputable def modPower (lmin : ℕ) (b : Bin) : ℝ := total (fun l : ℕ => b.cell l * (2 * (l : ℝ) + 1)) (ells lmin b)

/-- `cosmology_summary_metrics.py:364`. -/
noncomputable def obsPower (lmin : ℕ) (mult : ℝ) (b : Bin) : ℝ := modPower lmin b + b.spurious * mult

/-- `cosmology_summary_metrics.py:367-368`. -/
noncomputable def varPower (lmin : ℕ) (b : Bin) : ℝ :=
  total (fun l : ℕ => 2 * b.cell l ^ 2 / (2 * (l : ℝ) + 1) / b.fsky * (2 * (l : ℝ) + 1) ^ 2) (ells lmin b)

/-- `FTT`, `cosmology_summary_metrics.py:375` and 381. -/
noncomputable def ftt (lmin : ℕ) (s : ℝ) (bs : List Bin) : ℝ := total (fun b => (modPower lmin b / s) * (modPower lmin b / s) / varPower lmin b) bs

/-- `FOT`, `cosmology_summary_metrics.py:375` and 380. -/
noncomputable def fot (lmin : ℕ) (mult s : ℝ) (bs : List Bin) : ℝ := total (fun b => (modPower lmin b / s) * obsPower lmin mult b / varPower lmin b) bs

/-- `sigma8square_fit`, `cosmology_summary_metrics.py:383`. -/
noncomputable def fit (lmin : ℕ) (mult s : ℝ) (bs : List Bin) : ℝ := fot lmin mult s bs / ftt lmin s bs

/-- `sigma8square_error`, `cosmology_summary_metrics.py:384`. -/
noncomputable def fitError (lmin : ℕ) (s : ℝ) (bs : List Bin) : ℝ := (ftt lmin s bs) ^ (-0.5 : ℝ)

/-- The result of `TomographicClusteringSigma8biasMetric.run`, `cosmology_summary_metrics.py:393-406`. -/
noncomputable def sigma8Bias (conv : Bool) (lmin : ℕ) (mult s : ℝ) (bs : List Bin) : ℝ :=
  let f := fit lmin mult s bs
  let e := fitError lmin s bs
  if !conv then (f - s) / e
  else
    let f8 := f ^ (0.5 : ℝ)
    let s8 := s ^ (0.5 : ℝ)
    let e8 := 0.5 * e * f8 / f
    (f8 - s8) / e8

/-- The fraction of the sky, `cosmology_summary_metrics.py:305-312`, for an area in square degrees. -/
noncomputable def skyFraction (area : ℝ) : ℝ := area / 42000

/-! ## Simple figure of merit -/

/-- What a call gives or raises. -/
inductive Res (α : Type*)
  | error (name : String)
  | val (x : α)

open Classical in
/-- `StaticProbesFoMEmulatorMetricSimple.run`, `cosmology_summary_metrics.py:131-198`. The name of the
spline class in line 196 does not exist in scipy. -/
noncomputable def simpleFoM (bad : ℝ) (year : ℤ) (data : List ℝ) : Res ℝ :=
  if (data.filter (fun x => decide (x > 0))).length = 0 then .val bad
  else if year = 1 ∨ year = 3 ∨ year = 6 ∨ year = 10 then .error "AttributeError"
  else .val bad

/-- The areas of the grid of each year, `cosmology_summary_metrics.py:155-182`. -/
def simpleAreas (year : ℤ) : List ℕ :=
  if year = 1 then [7500, 13000, 16000]
  else if year = 3 then [10000, 15000, 20000]
  else if year = 6 then [10000, 15000, 2000]
  else if year = 10 then [10000, 15000, 20000]
  else []

/-! ## Mean redshift -/

/-- The part of the model that `compute_dzfromdm` reads, `cosmology_summary_metrics.py:498-503`: the keys
are "year1", "year2" and so on. -/
def yearModel {D : Type} (model : List (ℕ × D)) (year : ℕ) : Res D :=
  match model.lookup (year + 1) with
  | none => .error "KeyError"
  | some d => .val d

/-- The values of the fitted straight line at the points, `cosmology_summary_metrics.py:582-585`
(least squares). -/
noncomputable def lineFit (ps : List (ℝ × ℝ)) : List ℝ :=
  let n : ℝ := ps.length
  let mx := total Prod.fst ps / n
  let my := total Prod.snd ps / n
  let slope := total (fun p => (p.1 - mx) * (p.2 - my)) ps / total (fun p => (p.1 - mx) ^ 2) ps
  ps.map (fun p => my + slope * (p.1 - mx))

/-- `compute_Clbias`, `cosmology_summary_metrics.py:533-586`, for bins that are all used; `quad` is the
fit through the figure; a bin is its mean redshift and scatter. -/
noncomputable def clBias (quad : ℝ → ℝ) (zs : List (ℝ × ℝ)) : List ℝ :=
  lineFit (zs.map (fun z => (z.1, quad z.1 * (z.2 / 0.02))))

/-- A band: the scatter of the depth, and for each bin the mean redshift and the derivative. -/
structure Band where
  rms : ℝ
  bins : List (ℝ × ℝ)

/-- `cosmology_summary_metrics.py:610-619`: the sum over the bands. -/
noncomputable def totalBias (quad : ℝ → ℝ) (nz : ℕ) (bands : List Band) : List ℝ :=
  bands.foldl (fun acc b => List.zipWith (· + ·) acc (clBias quad (b.bins.map (fun z => (z.1, |z.2| * b.rms))))) (List.replicate nz 0)

/-- The two ratios, `cosmology_summary_metrics.py:623-632`: for the first and the tenth year. -/
noncomputable def ratios (quad : ℝ → ℝ) (nz : ℕ) (bands : List Band) : List (ℝ × ℝ) :=
  (totalBias quad nz bands).map (fun c => (c / 0.013, c / 0.003))

/-! ## Stripes -/

/-- A pixel: its value (`none` is NaN), and whether it is in the north. -/
structure Pix where
  v : Option ℝ
  north : Bool

/-- `get_stats_by_region`, `cosmology_summary_metrics.py:644-666`: the values that are used. -/
noncomputable def regionValues (region : String) (ps : List Pix) : Res (List ℝ) :=
  if ¬ region ∈ ["all", "north", "south"] then .error "ValueError"
  else
    let sel := if region = "all" then ps else if region = "north" then ps.filter (fun p => p.north) else ps.filter (fun p => !p.north)
    .val ((sel.filterMap Pix.v).filter (fun x => decide (x > 0)))

/-- `median_abs_deviation`. -/
noncomputable def mad (xs : List ℝ) : Option ℝ :=
  match Area.median xs with
  | none => none
  | some m => Area.median (xs.map (fun x => |x - m|))

/-- `frac_scatter`, `cosmology_summary_metrics.py:679-681`, for positive values. -/
noncomputable def scatter (xs : List ℝ) : Option ℝ :=
  match mad xs, Area.median xs with
  | some a, some m => some (a / m)
  | _, _ => none

open Classical in
/-- `stripiness_test_statistic`, `cosmology_summary_metrics.py:669-683`; `none` is NaN or infinite. -/
noncomputable def stripiness (ps : List Pix) : Option ℝ :=
  match regionValues "north" ps, regionValues "south" ps with
  | .val ns, .val ss =>
    match scatter ns, scatter ss with
    | some n, some s => if s = 0 then none else some (n / s - 1)
    | _, _ => none
  | _, _ => none

open Classical in
/-- The decision, `cosmology_summary_metrics.py:840-846`. -/
noncomputable def stripes (year : ℕ) (ps : List Pix) : Bool :=
  match stripiness ps with
  | some t => !decide (|t| < |0.7 / √(year : ℝ)|)
  | none => true

open Classical in
/-- `expand_labels`, `cosmology_summary_metrics.py:861-867`, for `maskval` zero. -/
noncomputable def expand : List ℝ → List ℕ → List ℕ
  | [], _ => []
  | v :: vs, ls =>
    if v > 0.1 then
      match ls with
      | [] => 0 :: expand vs []
      | l :: ls => l :: expand vs ls
    else 0 :: expand vs ls

open Classical in
/-- The fractions of `get_area_stats`, `cosmology_summary_metrics.py:869-883`. -/
noncomputable def areaFrac (vs : List ℝ) (ls : List ℕ) (i : ℕ) : ℝ :=
  (((vs.zip (expand vs ls)).countP (fun p => decide (p.2 = i) && decide (p.1 > 0.1)) : ℕ) : ℝ) / ((vs.countP (fun v => decide (v > 0.1)) : ℕ) : ℝ)

/-- The depths that remain if the other label is masked, `cosmology_summary_metrics.py:961-970`. -/
def keepNot (other : ℕ) (depths : List ℝ) (labels : List ℕ) (mask : ℝ) : List ℝ :=
  List.zipWith (fun d l => if l = other then mask else d) depths labels

/-- `UniformAreaFoMFractionMetric.run`, `cosmology_summary_metrics.py:822-977`, for finite exposure times;
`fom` is the figure of merit, `cluster` gives the labels. -/
noncomputable def uniformArea (fom : List ℝ → ℝ) (cluster : List ℝ → List ℕ) (mask : ℝ) (year : ℕ) (north : List Bool) (riz depths : List ℝ) : ℝ :=
  if stripes year (List.zipWith (fun v n => ⟨some v, n⟩) riz north) then
    let labels := expand riz (cluster riz)
    max (fom (keepNot 2 depths labels mask)) (fom (keepNot 1 depths labels mask)) / fom depths
  else 1

/-! ## Dropouts -/

/-- Calling `BaseMetric.__init__` (`base_metric.py:131-140`) with keywords. -/
def baseInit (given : List String) : Res Unit :=
  if ∀ k ∈ given, k ∈ ["col", "metric_name", "maps", "units", "metric_dtype", "badval", "mask_val"] then .val () else .error "TypeError"

/-- `UDropoutsNumbersShallowestDepth.__init__` and `UDropoutsArea.__init__`,
`cosmology_summary_metrics.py:1012-1013`: the first call. -/
def dropoutsInit (kwargs : List String) : Res Unit := baseInit ("col" :: "percentile" :: kwargs)

end Verif.Cosmo
