import Mathlib.Algebra.Order.Field.Basic
import Mathlib.Algebra.Order.Floor.Ring
import Mathlib.Data.List.Dedup

/-!
# Model of the metrics of colours and slopes, of vendors, uses and of the cadence for supernovae

`rubin_sim/maf/metrics/color_slope_metrics.py`, `chip_vendor_metric.py`, `use_metrics.py`, `sn_cadence_metric.py`. -/

namespace Verif.ColSlope

section
variable {K : Type} [Field K] [LinearOrder K]

/-- Times of the visits in a filter. -/
def timesIn (l : List (String × K)) (f : String) : List K := (l.filter (fun v => v.1 == f)).map Prod.snd

/-- Lines 42-45: the times span at least the length. -/
def wide (slope : K) (ts : List K) : Bool :=
  match ts.max?, ts.min? with
  | some a, some b => decide (slope ≤ a - b)
  | _, _ => false

/-- Lines 56-57: there are gaps and the least is at most the length. -/
def near (color : K) (gaps : List K) : Bool :=
  match gaps.min? with
  | some d => decide (d ≤ color)
  | none => false

/-- `CheckColorSlope.__call__`, `color_slope_metrics.py:29-63`, on visits (filter, time). The loops only ask if some filter
qualifies, so their order does not matter. -/
def check (color slope : K) (l : List (String × K)) : ℕ :=
  if l.length < 3 then 0 else
  let u := (l.map Prod.fst).dedup
  let hasSlope := u.any (fun f => wide slope (timesIn l f))
  let hasColor := u.any (fun f => u.any (fun g => f != g && near color (((timesIn l f).flatMap (fun t => (timesIn l g).map (fun s => t - s))).filter (fun d => decide (0 < d)))))
  if hasColor && hasSlope then 1 else 0

/-- A visit: the night, the depth, the filter in the column of the metric, and the filter and time in the columns `band` and
`observationStartMJD`, if they exist. -/
structure Obs (K : Type) where
  night : ℤ
  m5 : K
  filt : String
  dflt : Option (String × K)

/-- `int_binned_stat` of `rubin_scheduler` with the sum of its results: the statistic of the rows of each number. -/
def binnedSum {A : Type} (ids : A → ℤ) (stat : List A → ℕ) (l : List A) : ℕ :=
  ((l.map ids).dedup.map (fun i => stat (l.filter (fun v => ids v == i)))).sum

/-- Selection by depth, `color_slope_metrics.py:116-121` and lines 172-177; a filter without a limit is an exception. -/
def deep (mag : String → Option K) (l : List (Obs K)) : Except String (List (Obs K)) :=
  if l.all (fun v => (mag v.filt).isSome) then .ok (l.filter (fun v => match mag v.filt with | some m => decide (m < v.m5) | none => false)) else .error "KeyError"

/-- The columns used by the check, `color_slope_metrics.py:112`: always those with the names of the defaults. -/
def view (l : List (Obs K)) : List (String × K) := l.filterMap Obs.dflt

/-- A group has three rows, so that the check reads its columns. -/
def hasThree {A : Type} (ids : A → ℤ) (l : List A) : Bool := (l.map ids).any (fun i => decide (3 ≤ (l.filter (fun v => ids v == i)).length))

/-- `ColorSlopeMetric.run`, `color_slope_metrics.py:114-125`. -/
def run (mag : String → Option K) (color slope : K) (l : List (Obs K)) : Except String ℕ :=
  match deep mag l with
  | .error e => .error e
  | .ok d => if d = [] then .ok 0 else
    if d.any (fun v => v.dflt.isNone) && hasThree Obs.night d then .error "ValueError" else .ok (binnedSum Obs.night (fun g => check color slope (view g)) d)

/-- `ColorSlope2NightMetric.run`, `color_slope_metrics.py:170-189`: `floor` and `ceil` of half of the night. -/
def run2 (mag : String → Option K) (color slope : K) (l : List (Obs K)) : Except String ℕ :=
  match deep mag l with
  | .error e => .error e
  | .ok d => if d = [] then .ok 0 else
    if d.any (fun v => v.dflt.isNone) && (hasThree (fun v => v.night / 2) d || hasThree (fun v => -((-v.night) / 2)) d) then .error "ValueError" else
    .ok (binnedSum (fun v => v.night / 2) (fun g => check color slope (view g)) d + binnedSum (fun v => -((-v.night) / 2)) (fun g => check color slope (view g)) d)

end

/-! ## Vendors and uses -/

/-- `ChipVendorMetric._chip_names2vendor_id`, `chip_vendor_metric.py:20-32`, for one name. -/
def vendor (chip : List Char) : Except String ℕ :=
  match chip[2]? with
  | none => .error "IndexError"
  | some c => if c.isDigit then .ok (if (c.toNat - '0'.toNat) % 2 = 0 then 1 else 2) else .error "ValueError"

/-- `ChipVendorMetric.run`, `chip_vendor_metric.py:34-43`, with the names of the chips. -/
def chipVendor (chips : List (List Char)) : Except String ℕ :=
  match chips.mapM vendor with
  | .error e => .error e
  | .ok vs => match vs.dedup with
    | [v] => .ok v
    | _ => .ok 3

/-- The uses known, `use_metrics.py:9-21`. -/
def uses : List (List Char) := ["singles".toList, "pairs".toList, "triplet".toList, "template".toList, "too".toList, "twilight".toList,
  "ddf_cosmos".toList, "ddf_ecdfs".toList, "ddf_edfs".toList, "ddf_elaiss1".toList, "ddf_xmm_lss".toList]

/-- `UseMetric.run`, `use_metrics.py:31-53`, for one visit. -/
def use (programs : List (List Char)) (note prog : List Char) : List Char :=
  if programs ≠ [] ∧ prog ∉ programs then "not science".toList else
  match uses.find? (fun u => u.isPrefixOf note) with
  | some u => u
  | none => "other".toList

/-- What comes of `data_slice[col]`: a value for one visit, an array for a list. -/
inductive Cell
  | scalar (s : List Char)
  | array (l : List (List Char))

/-- `UseMetric.run` on the data of a slicer: arrays have no `startswith`. Membership of an array in a list asks for the truth
of a comparison with each program, which exists for arrays of one element. -/
def useSlice (programs : List (List Char)) (note prog : Cell) : Except String (List Char) :=
  match note, prog with
  | .scalar n, .scalar p => .ok (use programs n p)
  | .array _, .array p =>
    if programs = [] then .error "AttributeError" else
    if p.length ≠ 1 then .error "ValueError" else
    if p.all (fun q => decide (q ∈ programs)) then .error "AttributeError" else .ok "not science".toList
  | _, _ => .error "TypeError"

/-! ## Cadence for supernovae -/

section
variable {K : Type} [Field K] [LinearOrder K] [FloorRing K]

/-- Counts of `np.histogram` in bins of one day from `a`: all but the last are open at the end. -/
def dayCounts (ts : List K) (a : ℤ) (n : ℕ) : List ℕ :=
  (List.range n).map (fun i : ℕ => ts.countP (fun t => decide ((a : K) + i ≤ t) && (if i + 1 = n then decide (t ≤ (a : K) + i + 1) else decide (t < (a : K) + i + 1))))

/-- The cadence, `sn_cadence_metric.py:88-93`: bins from `floor(min)` to `ceil(max)`, without the last edge. -/
def cadence (ts : List K) (lo hi : K) : K :=
  let a := ⌊lo⌋
  let edges := (⌈hi⌉ - a).toNat
  let c := dayCounts ts a (edges - 1)
  if c = [] then 0 else
  let mean := (c.sum : K) / c.length
  if mean < 1 / 100000000 then 0 else 1 / mean

end

/-- Columns that `SNCadenceMetric` declares with its defaults, `sn_cadence_metric.py:53-65`. -/
def declared : List String := ["night", "fiveSigmaDepth", "band", "observationStartMJD", "observationId", "numExposures", "visitTime", "visitExposureTime", "season", "coadd"]

/-- Columns that `SNCadenceMetric.run` reads with its defaults, `sn_cadence_metric.py:73-97`. -/
def read : List String := ["filter", "observationStartMJD", "fieldRA", "fieldDec", "band", "fiveSigmaDepth"]

end Verif.ColSlope
