import Mathlib.Analysis.SpecialFunctions.Log.Base
import Mathlib.Analysis.SpecialFunctions.Pow.Real
import Mathlib.LinearAlgebra.Matrix.NonsingularInverse
import Mathlib.Data.List.Dedup
import Verif.Model.MoSummary
import Verif.Model.AreaMetrics

/-!
# Model of the supernova metrics: `rubin_sim/maf/metrics/sn_n_sn_metric.py`,
`rubin_sim/maf/utils/sn_n_sn_utils.py` (`SnRate`, `CovColor`, `load_sne_cached`, the points
of a light curve) and `rubin_sim/maf/metrics/sn_sl_metric.py`

Numbers are reals. The reference light curves (fluxes and their derivatives) and the
comoving volume of the cosmology are arguments. The tables of pandas are lists of rows;
`groupby` gives the rows of each key, in an order that is not part of the model. The
rounding to six decimals of `sn_n_sn_metric.py:1252` is left out.
-/

namespace Verif.SnN

open Verif.Np

/-- The depth of several exposures of the depths `ms` together. The reference against
which `coadd` is measured; `coadd_m5` of `maf_utils.py:42-44`. -/
noncomputable def coaddM5 (ms : List ℝ) : ℝ :=
  1.25 * Real.logb 10 ((ms.map (fun m => (10 : ℝ) ^ (0.8 * m))).sum)

/-! ## Seasons -/

/-- `np.where(diff > season_gap)[0]`, `sn_n_sn_metric.py:1135-1136`. -/
noncomputable def gapsAt (gap : ℝ) (ts : List ℝ) : List Nat :=
  (List.range (ts.length - 1)).filter (fun i => decide (gap < ts.getD (i + 1) 0 - ts.getD i 0))

/-- `seasoncalc[indx + 1 :] = v` -/
def setFrom (s : List Nat) (i v : Nat) : List Nat := s.mapIdx (fun k x => if i ≤ k then v else x)

/-- `for i, indx in enumerate(flag): seasoncalc[indx + 1 :] = i + 2`, lines 1139-1140;
`n` is the number of the first entry. -/
def assign : List Nat → Nat → List Nat → List Nat
  | [], _, s => s
  | f :: fl, n, s => assign fl (n + 1) (setFrom s (f + 1) (n + 2))

/-- `getseason`, lines 1132-1140, on the times in order (line 1130). -/
noncomputable def getseason (gap : ℝ) (ts : List ℝ) : List Nat :=
  assign (gapsAt gap ts) 0 (List.replicate ts.length 1)

/-! ## Visits of one night -/

/-- A visit: the columns of lines 1084-1090. -/
structure Visit where
  band : Char
  night : Int
  nexp : Nat
  vistime : ℝ
  exptime : ℝ
  mjd : ℝ
  m5 : ℝ

/-- `groupby([filter_col, night_col])`: the keys. -/
def keys (l : List Visit) : List (Char × Int) := (l.map (fun v => (v.band, v.night))).dedup

/-- The visits of one key. -/
def ofKey (l : List Visit) (k : Char × Int) : List Visit :=
  l.filter (fun v => decide ((v.band, v.night) = k))

/-- `mean` of a column. -/
noncomputable def mean (xs : List ℝ) : ℝ := xs.sum / (xs.length : ℝ)

/-- One row of `coadd_df`, lines 1084-1106; `single` is `exptime_single`. -/
noncomputable def coaddRow (single : ℝ) (l : List Visit) (k : Char × Int) : Visit :=
  let g := ofKey l k
  let e := (g.map Visit.exptime).sum
  { band := k.1, night := k.2,
    nexp := (g.map Visit.nexp).sum,
    vistime := (g.map Visit.vistime).sum,
    exptime := e,
    mjd := mean (g.map Visit.mjd),
    m5 := mean (g.map Visit.m5) + 1.25 * Real.logb 10 (e / single) }

/-- `coadd`, lines 1074-1108, but for the order of the rows. -/
noncomputable def coadd (l : List Visit) : List Visit :=
  (keys l).map (coaddRow ((Area.median (l.map Visit.exptime)).getD 0) l)

/-! ## Seasons against redshift -/

/-- Lines 400-402: `T0_min`, `T0_max` for a season from `a` to `b` and the redshift `z`. -/
noncomputable def t0min (rfmin a z : ℝ) : ℝ := a - (1 + z) * rfmin

/-- Line 401. -/
noncomputable def t0max (rfmax b z : ℝ) : ℝ := b - (1 + z) * rfmax

/-- Lines 402-406, with lines 534-536: the redshifts of a season that are kept. -/
noncomputable def keptZ (rfmin rfmax minDur a b : ℝ) (zs : List ℝ) : List ℝ :=
  if minDur ≤ b - a then
    zs.filter (fun z => decide (minDur ≤ t0max rfmax b z - t0min rfmin a z))
  else []

/-- `np.linspace(a, b, n)` -/
noncomputable def linspace (a b : ℝ) (n : Nat) : List ℝ :=
  (List.range n).map (fun i : ℕ => a + (b - a) / ((n : ℝ) - 1) * (i : ℝ))

/-- `calc_daymax`, lines 601-608. -/
noncomputable def calcDaymax (step a b : ℝ) : List ℝ :=
  if 10 < b - a then linspace a b ⌊(b - a) / step⌋₊ else [-1]

/-! ## Light curves and efficiencies -/

/-- `get_epochs`, lines 767-772, for one row of the array: the nights of the entries that
are not masked. `np.diff` of masked entries is masked; the sum of a row that is all masked
is masked, and line 715 makes it zero. -/
def epochs (nights : List Int) : Nat :=
  match sort nights with
  | [] => 0
  | [_] => 0
  | s => (List.range (s.length - 1)).countP (fun i => decide (0 < s.getD (i + 1) 0 - s.getD i 0)) + 1

/-- A point of a light curve. -/
structure Point where
  daymax : ℝ
  night : Int
  phase : ℝ
  snr : ℝ

/-- The selection parameters. -/
structure Cuts where
  snrMin : ℝ
  nPhaseMin : Nat
  nPhaseMax : Nat
  nBef : Nat
  nAft : Nat
  sigmaC : ℝ

/-- `np.unique(lcarr["daymax"])`, lines 677-681; two values of `daymax` are further apart
than the tolerance of line 686, so that the flag of that line is equality. -/
noncomputable def t0s (c : Cuts) (lc : List Point) : List ℝ :=
  ((lc.filter (fun p => decide (c.snrMin ≤ p.snr))).map Point.daymax).dedup

/-- The points of the supernova `t`. -/
noncomputable def pointsOf (c : Cuts) (lc : List Point) (t : ℝ) : List Point :=
  (lc.filter (fun p => decide (c.snrMin ≤ p.snr))).filter (fun p => decide (p.daymax = t))

/-- `n_phmin` and `n_phmax` are those of `sn_n_sn_utils.py:284-285`; the cuts are
`sn_n_sn_metric.py:705-713`, 840-843. -/
noncomputable def sampled (c : Cuts) (g : List Point) : Bool :=
  decide (c.nPhaseMin ≤ g.countP (fun p => decide (p.phase ≤ -5))) &&
  decide (c.nPhaseMax ≤ g.countP (fun p => decide (20 ≤ p.phase))) &&
  decide (c.nBef ≤ epochs ((g.filter (fun p => decide (p.phase ≤ 0))).map Point.night)) &&
  decide (c.nAft ≤ epochs ((g.filter (fun p => decide (0 ≤ p.phase))).map Point.night))

/-- `efficiencies`, lines 840-865: `ntot` and `nsel`; `cov` is `Cov_colorcolor` of the
supernova. -/
noncomputable def efficiencies (c : Cuts) (cov : List Point → ℝ) (lc : List Point) : Nat × Nat :=
  ((t0s c lc).length,
   (t0s c lc).countP (fun t =>
     sampled c (pointsOf c lc t) && decide (cov (pointsOf c lc t) ≤ c.sigmaC ^ 2)))

/-- Lines 456-462. -/
noncomputable def effi (n : Nat × Nat) : ℝ × ℝ :=
  if n.1 = 0 then (0, 0)
  else
    let e := (n.2 : ℝ) / (n.1 : ℝ)
    (e, Real.sqrt ((n.2 : ℝ) * (1 - e)) / (n.1 : ℝ))

/-! ## The redshift limit and the number of supernovae -/

/-- `interp1d(..., bounds_error=False, fill_value=0)` -/
noncomputable def interp0 (l : List (ℝ × ℝ)) (x : ℝ) : ℝ :=
  match l.head?, l.getLast? with
  | some a, some b => if x < a.1 ∨ b.1 < x then 0 else MoSum.interp l x
  | _, _ => 0

/-- `np.cumsum` -/
def cum : ℝ → List ℝ → List ℝ
  | _, [] => []
  | a, x :: l => (a + x) :: cum (a + x) l

/-- `zlim_or_nsn` with `zlim < 0`, `sn_n_sn_metric.py:1216-1233`; the rows are the redshift and the
number of supernovae, in the order of the redshift. The quotient by a total of zero is not
a number and never below one. -/
noncomputable def zlim (coeff : ℝ) (rows : List (ℝ × ℝ)) : ℝ :=
  let c := cum 0 (rows.map Prod.snd)
  let tot := c.getLast?.getD 0
  if tot = 0 then -1
  else
    let pts := (c.map (fun x => x / tot)).zip (rows.map Prod.fst)
    let idx := (List.range pts.length).filter (fun i => decide ((pts.getD i (0, 0)).1 < 1))
    match idx.getLast? with
    | none => -1
    | some k => interp0 (pts.take (k + 2)) coeff

/-- `np.arange(a, b, d)` -/
noncomputable def arange (a b d : ℝ) : List ℝ :=
  (List.range ⌈(b - a) / d⌉₊).map (fun i : ℕ => a + (i : ℝ) * d)

/-- The middle of neighbouring values, `sn_n_sn_utils.py:699`. -/
noncomputable def mids : List ℝ → List ℝ
  | a :: b :: l => (1 / 2) * (b + a) :: mids (b :: l)
  | _ => []

/-- `dvol[1:] - dvol[:-1]` -/
def diffs : List ℝ → List ℝ
  | a :: b :: l => (b - a) :: diffs (b :: l)
  | _ => []

/-- `SnRate.__call__`, `sn_n_sn_utils.py:697-724`, for `bins=None` and `account_for_edges=False`:
redshifts and numbers of supernovae. `vol` is the comoving volume, `omega` the product
`norm / steradian2_sqdeg`, `rate` and `dur` functions of the redshift. -/
noncomputable def snRate (zmin zmax dz area omega : ℝ) (rate dur vol : ℝ → ℝ) : List (ℝ × ℝ) :=
  let bins := arange zmin (zmax + dz) dz
  (mids bins).zip (List.zipWith (fun z v => rate z * (area * omega) * v * (dur z / 365.25) / (1 + z))
    (mids bins) (diffs (bins.map vol)))

/-- Lines 713-716: `account_for_edges`. -/
noncomputable def edgeDuration (duration rfmin rfmax z : ℝ) : ℝ :=
  let e := duration / 365.25 - (1 + z) * (rfmax - rfmin) / 365.25
  if e ≤ 0 then 0 else e

/-- The arrays of `SnRate.__call__` have lengths; the product of lines 724 broadcasts
arrays of the same length, or of length one. -/
def broadcasts (a b : Nat) : Bool := a == b || a == 1 || b == 1

/-- Line 724 is possible: `nb` bins are given (`bins`, lines 701-702) or made (698-699). -/
def shapesOk (given : Bool) (nb : Nat) : Bool :=
  broadcasts (if given then nb else nb - 1) (nb - 1)

/-- `get_nsn`, `sn_n_sn_metric.py:1320-1333`. -/
noncomputable def getNsn (eff dur rate vol : ℝ → ℝ) (area omega zmin zmax zstep : ℝ) : ℝ :=
  ((cum 0 ((snRate zmin (zmax + zstep) zstep area omega rate dur vol).map
    (fun p => eff p.1 * p.2))).getLast?).getD 0

/-- `nsn`, lines 1290-1295. -/
noncomputable def nsnOf (effis : List ℝ) (n : ℝ) : ℝ :=
  if 0.02 < mean effis then n else -1

/-- The end of `run`, lines 311-319: the rows are `zcomp` and `nsn` of the seasons. -/
noncomputable def finalRow (rows : List (ℝ × ℝ)) : Option (ℝ × ℝ) :=
  let sel := rows.filter (fun r => decide (0 < r.1))
  match Area.median (sel.map Prod.fst) with
  | none => none
  | some z => some ((sel.map Prod.snd).sum, z)

/-! ## Rates (`sn_n_sn_utils.py`) -/

/-- `ripoche_rate`, `sn_n_sn_utils.py:743-748`. -/
noncomputable def ripoche (z : ℝ) : ℝ × ℝ :=
  let r := (1.53e-4 * 0.343) * ((1 + min z 1) / 1.5) ^ (2.14 : ℝ)
  (r, 0.2 * r)

/-- `perrett_rate`, lines 763-772. -/
noncomputable def perrett (z : ℝ) : ℝ × ℝ :=
  let r := 0.17e-4 * (1 + z) ^ (2.11 : ℝ)
  (r, ((1 + z) ^ (2 * 2.11 : ℝ) * (0.03e-4 : ℝ) ^ (2 : ℝ) + (r * Real.log (1 + z) * 0.28) ^ (2 : ℝ)) ^ (0.5 : ℝ))

/-- `dilday_rate`, lines 788-796. -/
noncomputable def dilday (z : ℝ) : ℝ × ℝ :=
  let r := 2.6e-5 * (1 + min z 1) ^ (1.5 : ℝ)
  (r, r * Real.log (1 + min z 1) * 0.6)

/-- `sn_rate`, lines 811-816: `none` for the `None` of a name that is not known. -/
noncomputable def snRateOf (name : String) (z : ℝ) : Option (ℝ × ℝ) :=
  if name = "Ripoche" then some (ripoche z)
  else if name = "Perrett" then some (perrett z)
  else if name = "Dilday" then some (dilday z)
  else none

/-! ## The variance of the colour -/

/-- `CovColor.det`, lines 891-894. -/
def det3 (a1 a2 a3 b1 b2 b3 c1 c2 c3 : ℝ) : ℝ :=
  (a1 * b2 * c3 + b1 * c2 * a3 + c1 * a2 * b3) - (a3 * b2 * c1 + b3 * c2 * a1 + c3 * a2 * b1)

/-- The entries of the Fisher matrix: `F_x0x0`, `F_x0x1`, ... -/
structure Fisher where
  xx : ℝ
  xs : ℝ
  xd : ℝ
  xc : ℝ
  ss : ℝ
  sd : ℝ
  sc : ℝ
  dd : ℝ
  dc : ℝ
  cc : ℝ

/-- `var_color`, lines 847-870: `det_m`. -/
def detM (f : Fisher) : ℝ :=
  f.xx * det3 f.ss f.sd f.sc f.sd f.dd f.dc f.sc f.dc f.cc
  - f.xs * det3 f.xs f.xd f.xc f.sd f.dd f.dc f.sc f.dc f.cc
  + f.xd * det3 f.xs f.xd f.xc f.ss f.sd f.sc f.sc f.dc f.cc
  - f.xc * det3 f.xs f.xd f.xc f.ss f.sd f.sc f.sd f.dd f.dc

/-- `var_color`, lines 872-874. -/
noncomputable def varColor (f : Fisher) : ℝ :=
  (-f.xd * f.ss * f.xd + f.xs * f.sd * f.xd + f.xd * f.xs * f.sd - f.xx * f.sd * f.sd
    - f.xs * f.xs * f.dd + f.xx * f.ss * f.dd) / detM f

/-- `sn_n_sn_metric.py:789-809`: the upper triangle of line 805 and the symmetric matrix of line 809, for one
supernova. -/
def fisherMat (f : Fisher) : Matrix (Fin 4) (Fin 4) ℝ :=
  let up : Matrix (Fin 4) (Fin 4) ℝ :=
    !![f.xx, f.xs, f.xd, f.xc; 0, f.ss, f.sd, f.sc; 0, 0, f.dd, f.dc; 0, 0, 0, f.cc]
  up + (Matrix.of (fun i j => if i < j then up i j else 0)).transpose

/-- `sigma_s_nparams`, lines 795-817: `fisher__big` has the matrices of the supernovae along
its diagonal, entry `ia + 4 * iv` of the code being `(ia, iv)`. `none` is the
`LinAlgError` of a matrix without inverse; the value is `Cov_colorcolor`. -/
noncomputable def sigmas {n : Nat} (fs : Fin n → Fisher) : Option (Fin n → ℝ) :=
  let big := Matrix.blockDiagonal (fun v => fisherMat (fs v))
  if big.det = 0 then none else some (fun v => (big⁻¹) (3, v) (3, v))

/-! ## The cached reference files -/

/-- The attributes of `load_sne_cached`: `gammaName` and `data`. -/
abbrev Cache (α : Type) := Option (String × α)

/-- `load_sne_cached`, `sn_n_sn_utils.py:373-382`; the second entry tells whether the file was read. -/
def loadCached {α : Type} (read : String → α) (s : Cache α) (name : String) : (α × Bool) × Cache α :=
  match s with
  | some (n, d) => if n = name then ((d, false), s) else ((read name, true), some (name, read name))
  | none => ((read name, true), some (name, read name))

/-- Several calls one after another. -/
def loadAll {α : Type} (read : String → α) : Cache α → List String → List (α × Bool)
  | _, [] => []
  | s, n :: l => (loadCached read s n).1 :: loadAll read (loadCached read s n).2 l

/-! ## The points of a light curve -/

/-- `get_flag`, lines 313-329, for one visit and one supernova: the phase `p`, the mean
wavelength of the band `wl`, redshift `z` and flux. -/
noncomputable def flagged (rfmin rfmax blue red p wl z flux : ℝ) : Bool :=
  decide (rfmin ≤ p) && decide (p ≤ rfmax) && decide (blue < wl / (1 + z)) && decide (wl / (1 + z) < red) &&
    decide (1e-10 < flux)

/-- Line 189: the phase of a visit. -/
noncomputable def phase (mjd t0 z : ℝ) : ℝ := (mjd - t0) / (1 + z)

/-- `val[~mask]` of a masked two-dimensional array, in the order of numpy (by rows): the
rows are supernovae, the columns visits. -/
def flat {α : Type} (flag : List (List Bool)) (val : List (List α)) : List α :=
  (List.zipWith (fun fr vr => ((fr.zip vr).filter Prod.fst).map Prod.snd) flag val).flatten

/-- `np.tile(arr, (nvals, 1))` -/
def tile {α : Type} (n : Nat) (arr : List α) : List (List α) := List.replicate n arr

/-- `gen_par["z"][flag_idx[:, 0]]`, lines 214, 219: the value of the row, for each flag that
is set, in the order of `np.argwhere`. -/
def byRow {α : Type} (flag : List (List Bool)) (val : List α) : List α :=
  (List.zipWith (fun fr v => (fr.filter id).map (fun _ => v)) flag val).flatten

/-! ## Strongly lensed supernovae (`sn_sl_metric.py`) -/

/-- `n_lensed`, line 135. -/
noncomputable def nLensed (area cadence len : ℝ) : ℝ :=
  45.7 * area / 20000 * len / 2.5 / (2.15 * Real.exp (0.37 * cadence))

/-- A row of `night_slice`: filter, time, depth without dust, and the season of line 192. -/
structure NightRow where
  band : Char
  mjd : ℝ
  m5 : ℝ
  season : ℝ

/-- One season, lines 202-214; `none` is a value that is not a number, the median of no
gaps. -/
noncomputable def seasonLensed (area : ℝ) (minObs minFilters : Nat) (g : List NightRow) : Option ℝ :=
  if g.length < minObs ∨ ((g.map NightRow.band).dedup).length < minFilters then some 0
  else
    let gaps := (diffs (g.map NightRow.mjd)).filter (fun d => decide (0.4 < d))
    match Area.median gaps, g.head?, g.getLast? with
    | some c, some a, some b => some (nLensed area c (b.season - a.season))
    | _, _, _ => none

/-- The value of `run`. -/
inductive SlOut where
  | badVal (v : ℝ)
  | num (v : ℝ)
  | nan

/-- `a + b`, where a value that is not a number gives none. -/
noncomputable def addOpt : Option ℝ → Option ℝ → Option ℝ
  | some a, some b => some (a + b)
  | _, _ => none

/-- The sum of lines 200-214, where a summand that is not a number spoils the sum. -/
noncomputable def sumOpt : List (Option ℝ) → Option ℝ
  | [] => some 0
  | x :: l => addOpt x (sumOpt l)

/-- `run`, lines 153-216, after `collapse_night`: the rows are in the order of time, `ax` is
the extinction per unit of `ebv`, `m5min` the least depth; `wanted` is `[-1]` or the seasons
asked for. `badval` is the attribute of `BaseMetric`. -/
noncomputable def lensedRun (badval area ebv : ℝ) (ax m5min : Char → ℝ) (minObs minFilters : Nat) (wanted : List Int)
    (rows : List NightRow) : SlOut :=
  if rows = [] then .badVal 0
  else
    let deep := rows.filter (fun r => decide (m5min r.band < r.m5 - ax r.band * ebv))
    if deep = [] then .badVal badval
    else
      let loop := if wanted = [-1] then (deep.map (fun r => ⌊r.season⌋)).dedup else wanted
      match sumOpt (loop.map (fun s => seasonLensed area minObs minFilters (deep.filter (fun r => decide (⌊r.season⌋ = s))))) with
      | some v => .num v
      | none => .nan

end Verif.SnN
