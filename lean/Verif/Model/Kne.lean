import Mathlib.Data.List.Dedup
import Mathlib.Analysis.SpecialFunctions.Pow.Real
import Verif.Model.MoSummary

/-!
# Populations of kilonovae and tidal disruption events

`rubin_sim/maf/maf_contrib/kne_metrics.py`, `tdes_pop_metric.py`, `presto_color_kne_pop_metric.py`.

Floats are the elements of an ordered field.  The files of light curves, the random draws and the pickled table of the presto metric are inputs.
`np.where(...)[0]` of a condition and the indexing by it are filters; `np.unique` of the filters is the list without repetitions.
-/

namespace Verif.Kne

variable {K : Type} [Field K] [LinearOrder K]

/-! ## Light curves -/

/-- `KnLc.interp`, `TdeLc.interp` (`kne_metrics.py:126-133`, `tdes_pop_metric.py:55-62`): 99 outside the times of the file. -/
def lcInterp (pts : List (K × K)) (t : K) : K :=
  match pts.head?, pts.getLast? with
  | some a, some b => if t < a.1 ∨ b.1 < t then 99 else MoSum.interp pts t
  | _, _ => 99

/-- The magnitude of a visit (`kne_metrics.py:346-352`; `tdes_pop_metric.py:160-162` with `distmod` zero). -/
def appMag (pts : List (K × K)) (ax ebv distmod t : K) : K := lcInterp pts t + ax * ebv + distmod

/-- A visit with the magnitude of the event at its time. -/
structure Obs (K : Type) where
  filter : Char
  t : K
  mag : K
  unc : K
  m5 : K
  deriving DecidableEq

/-- `mags < data_slice[self.m5_col]`. -/
def det (o : Obs K) : Bool := decide (o.mag < o.m5)

/-- `np.size(np.unique(filters))`. -/
def nFilters (l : List (Obs K)) : ℕ := (l.map Obs.filter).dedup.length

/-! ## Tidal disruption events -/

/-- `_pre_peak_detect` (`tdes_pop_metric.py:96-108`). -/
def prePeak (needed : ℕ) (l : List (Obs K)) : ℕ :=
  if needed < (l.filter fun o => decide (o.t < 0) && det o).length then 1 else 0

/-- The detections more than ten days before the peak, near the peak, and after it (`tdes_pop_metric.py:113`, `:118`, `:123`). -/
def before (l : List (Obs K)) : List (Obs K) := l.filter fun o => decide (o.t < -10) && det o

@[inherit_doc before] def near (l : List (Obs K)) : List (Obs K) := l.filter fun o => decide (|o.t| < 5) && det o

@[inherit_doc before] def post (l : List (Obs K)) : List (Obs K) := l.filter fun o => decide (10 < o.t) && decide (o.t < 30) && det o

/-- `_some_color_detect` (`tdes_pop_metric.py:110-127`). -/
def someColor (l : List (Obs K)) : ℕ :=
  if (before l).length < 1 then 0 else if nFilters (near l) < 3 then 0 else if nFilters (post l) < 2 then 0 else 1

/-- `_some_color_pu_detect` (`tdes_pop_metric.py:129-151`). -/
def someColorPu (l : List (Obs K)) : ℕ :=
  if (before l).length < 1 then 0
  else if nFilters (near l) < 2 then 0
  else if 'u' ∉ (near l).map Obs.filter then 0
  else if nFilters (post l) < 2 then 0
  else if 'u' ∉ (post l).map Obs.filter then 0
  else 1

/-- `_some_color_pnum_detect` (`tdes_pop_metric.py:242-272`). -/
def someColorPnum (tmin tmax : K) (l : List (Obs K)) : K :=
  if someColor l = 0 then 0 else ((l.filter fun o => decide (tmin < o.t) && decide (o.t < tmax) && det o).length : K) / (tmax - tmin)

/-- `_some_color_pu_pnum_detect` (`tdes_pop_metric.py:274-310`). -/
def someColorPuPnum (tmin tmax : K) (l : List (Obs K)) : K :=
  if someColorPu l = 0 then 0 else ((l.filter fun o => decide (tmin < o.t) && decide (o.t < tmax) && det o).length : K) / (tmax - tmin)

/-! ## Kilonovae -/

/-- The detections (`kne_metrics.py:355`). -/
def around (l : List (Obs K)) : List (Obs K) := l.filter fun o => decide (0 < o.t) && decide (o.t < 30) && det o

/-- `_multi_detect` (`kne_metrics.py:177-186`), of the detections. -/
def multiDetect (needed : ℕ) (l : List (Obs K)) : ℕ := if l.length < needed then 0 else 1

/-- `_multi_color_detect` (`kne_metrics.py:282-291`). -/
def multiColor (l : List (Obs K)) : ℕ := if nFilters l < 2 then 0 else 1

/-- The number of detections in a filter. -/
def inFilter (c : Char) (l : List (Obs K)) : ℕ := (l.filter fun o => decide (o.filter = c)).length

/-- `_red_color_detect` and `_blue_color_detect` (`kne_metrics.py:293-337`). -/
def redColor (minDet : ℕ) (l : List (Obs K)) : ℕ := if inFilter 'i' l + inFilter 'z' l + inFilter 'y' l < minDet then 0 else 1

@[inherit_doc redColor] def blueColor (minDet : ℕ) (l : List (Obs K)) : ℕ :=
  if inFilter 'u' l + inFilter 'g' l + inFilter 'r' l < minDet then 0 else 1

/-- `np.argmax` and `np.argmin` of the magnitudes: the first of the faintest, the first of the brightest. -/
def faintest : List (Obs K) → Option (Obs K)
  | [] => none
  | a :: l => some (l.foldl (fun m o => if m.mag < o.mag then o else m) a)

@[inherit_doc faintest] def brightest : List (Obs K) → Option (Obs K)
  | [] => none
  | a :: l => some (l.foldl (fun m o => if o.mag < m.mag then o else m) a)

/-- The rate of a band (`kne_metrics.py:251-272`). -/
def rate (minDt : K) (l : List (Obs K)) (f : Char) : K :=
  match faintest (l.filter fun o => decide (o.filter = f)), brightest (l.filter fun o => decide (o.filter = f)) with
  | some a, some b => if minDt < |a.t - b.t| ∧ b.mag + b.unc < a.mag - a.unc then (a.mag - b.mag) / (a.t - b.t) else 0
  | _, _ => 0

/-- The largest and smallest of a list of numbers (`np.max`, `np.min`). -/
def maxL : List K → Option K
  | [] => none
  | a :: l => some (l.foldl max a)

@[inherit_doc maxL] def minL : List K → Option K
  | [] => none
  | a :: l => some (l.foldl min a)

/-- `max(ts) - min(ts)` of the detections. -/
def span (l : List (Obs K)) : Option K := do
  let a ← maxL (l.map Obs.t)
  let b ← minL (l.map Obs.t)
  return a - b

/-- `_ztfrest_simple` (`kne_metrics.py:188-280`): `order` is the order of `set(filters)`, `ok` the bands kept; `none` is the error of `np.max` of nothing. -/
def ztf (needed : ℕ) (minDt minFade maxRise : K) (ok : Char → Bool) (order : List Char) (l : List (Obs K)) : Option ℕ :=
  if l.length < needed then some 0
  else (span l).bind fun s =>
    if s < minDt then some 0
    else
      let rates := (order.filter ok).map (rate minDt l)
      match maxL rates, minL rates with
      | some a, some b => if a < minFade ∧ maxRise < b then some 0 else some 1
      | _, _ => some 0

/-- `np.isclose` with the default tolerances. -/
def isclose (a b : K) : Bool := decide (|a - b| ≤ 1 / 100000000 + 1 / 100000 * |b|)

/-- `all([np.isclose(...)])` of one file and one set of parameters (`kne_metrics.py:69`); `none` for the `KeyError`. -/
def matches? (params inj : List (String × K)) : Option Bool :=
  (inj.mapM fun kv => (params.lookup kv.1).map fun v => isclose v kv.2).map fun l => l.all id

/-- `get_kne_filename` (`kne_metrics.py:30-76`), the files given with their parameters. -/
def kneFilenames (files : List (String × List (String × K))) (injs : Option (List (List (String × K)))) : Option (List String) :=
  match injs with
  | none => some (files.map Prod.fst)
  | some [] => some (files.map Prod.fst)
  | some injs =>
    (files.mapM fun f => (injs.mapM fun inj => (matches? f.2 inj).map fun b => if b then [f.1] else []).map List.flatten).map List.flatten

/-! ## Presto -/

/-- `_presto_color_detect` (`presto_color_kne_pop_metric.py:202-228`). -/
def presto (l : List (Obs K)) : ℕ :=
  let r := if l.length < 3 then 0 else 1
  let counts := (l.map Obs.filter).dedup.map fun c => inFilter c l
  if counts.length < 2 then 0 else if (counts.foldl max 0) < 2 then 0 else r

/-- A detection in the table of the presto metric. -/
structure Pt (K : Type) where
  filter : Char
  t : K
  mag : K

/-- The gap `d_ts[i, j]` (`presto_color_kne_pop_metric.py:317`). -/
def gap (a b : Pt K) : K := b.t - a.t

/-- The choice among the two observations of the repeated band (`presto_color_kne_pop_metric.py:349-355`); `none` for `continue`. -/
def choose (lim1 : K) (a b c : Pt K) : Option (Pt K × Pt K) :=
  if |gap b c| < |gap a c| ∧ |gap b c| < lim1 then some (b, a)
  else if lim1 < |gap a c| then none
  else some (a, b)

/-- `np.sign`. -/
def sign (x : K) : K := if 0 < x then 1 else if x < 0 then -1 else 0

/-- The coordinates of a triplet: `d_t1`, `d_t2`, `d_mag`, `color` (`presto_color_kne_pop_metric.py:357-367`). -/
def coords (lim1 : K) (a b c : Pt K) : Option (K × K × K × K) :=
  (choose lim1 a b c).map fun p => (gap p.1 c, gap p.1 p.2, (p.1.mag - p.2.mag) * sign (gap p.1 p.2), p.1.mag - c.mag)

/-- The two scores from the rates (`presto_color_kne_pop_metric.py:371-382`). -/
def scores (thr : K) (rates : List K) : ℕ × K :=
  let s := rates.foldl (fun s r => if s = 0 ∧ r < thr then 1 else s) 0
  (s, (rates.map fun r => 1 - r).foldl max 0)

/-- What `_load_hash` keeps between calls: the region and the table. -/
structure Hash (T : Type) where
  region : String
  table : T

/-- `_load_hash` (`presto_color_kne_pop_metric.py:32-68`): the table returned and what is kept; `read` is the content of a file. -/
def loadHash {T : Type} (read : String → T) (kept : Option (Hash T)) (fileGal fileExt region : String) : Option (T × Hash T) :=
  let load (f : String) : Option (T × Hash T) := some (read f, ⟨region, read f⟩)
  let fresh : Option (T × Hash T) := if region = "galactic" then load fileGal else if region = "extragalactic" then load fileExt else none
  match kept with
  | some h => if region = h.region then some (h.table, h) else fresh
  | none => fresh

/-- The events kept by `generate_presto_pop_slicer` (`presto_color_kne_pop_metric.py:122-129`), given by galactic latitude. -/
def keepRegion (region : String) (cut : K) (gb : List K) : List K :=
  if region = "galactic" then gb.filter fun b => decide (|b| < cut)
  else if region = "extragalactic" then gb.filter fun b => decide (cut < |b|)
  else gb

/-! ## Random parameters -/

/-- `rndm` (`kne_metrics.py:449-453`, `presto_color_kne_pop_metric.py:110-114`) for a draw `r`. -/
noncomputable def rndm (a b g r : ℝ) : ℝ := (a ^ g + (b ^ g - a ^ g) * r) ^ (1 / g)

/-- `file_indx` (`kne_metrics.py:459`) for a draw `r` of `np.random.uniform(0, 1)`. -/
noncomputable def fileIndx (nFiles : ℕ) (r : ℝ) : ℤ := ⌊0 + r * ((nFiles : ℝ) - 0)⌋

/-- The draws of `generate_kn_pop_slicer` (`kne_metrics.py:455-471`) from the state of `np.random`: `sphere` is `uniform_sphere` and `draws` the three
calls after it.  The state left behind is not returned. -/
def knPop {S P D : Type} (sphere : ℕ → S → P × S) (draws : S → D) (seed : ℕ) (given : Option P) (s : S) : P × D :=
  match given with
  | some p => (p, draws s)
  | none => ((sphere seed s).1, draws (sphere seed s).2)

end Verif.Kne
