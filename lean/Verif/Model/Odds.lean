import Verif.Model.Seasons
import Verif.Model.Selfcal
import Verif.Model.MoMetrics
import Verif.Model.Web
import Mathlib.Data.List.Sort
import Mathlib.Analysis.SpecialFunctions.Pow.Real

/-!
# Comments and indexes of the archive, text of bandpasses, time delays

Models of parts of `sim_archive/vseqmetadata.py`, `vseqarchive.py`, `prenightindex.py`, of
`phot_utils/bandpass.py` (writing and reading a file as text), of `maf/metrics/season_metrics.py`
(`TdcMetric`), of `maf/web/maf_run_results.py` (metrics with statistics), of `selfcal/offsets.py`,
`maf/maf_contrib/lss_metrics.py` and `xrb_metrics.py`.
Left out: the connection to the database, the order in which a database gives rows, the writing of
JSON and of decimal numbers, `calc_season` (a visit carries the whole number of its season), the
random numbers (parameters).
-/

namespace Verif.Odds

open Verif.Np

abbrev Str := List Char

/-! ## Comments -/

/-- A row of the table of comments; `none` for NULL. -/
structure CRow (U T : Type) where
  uuid : U
  time : T
  author : Option Str
  text : Str
  deriving DecidableEq

/-- A call of `comment`. -/
structure CCall (U T : Type) where
  uuid : U
  text : Str
  author : Option Str
  /-- the clock -/
  now : T

/-- `comment`, `vseqmetadata.py:1014-1057`: one of two INSERTs. -/
def comment {U T : Type} (table : List (CRow U T)) (c : CCall U T) : List (CRow U T) :=
  match c.author with
  | none => table ++ [⟨c.uuid, c.now, none, c.text⟩]
  | some a => table ++ [⟨c.uuid, c.now, some a, c.text⟩]

/-- `get_comments`, `vseqmetadata.py:1059-1094`, up to the order of the rows. -/
def getComments {U T : Type} [DecidableEq U] (table : List (CRow U T)) (u : U) : List (CRow U T) :=
  table.filter (fun r => decide (r.uuid = u))

/-! ## Versions of software -/

/-- A row of `simulation_packages`. -/
structure PRow (U : Type) where
  uuid : U
  package : Str
  version : Str
  deriving DecidableEq

/-- `get_software_versions_for_sim`, `vseqmetadata.py:1734-1747`. -/
def versions {U : Type} [DecidableEq U] (table : List (PRow U)) (u : U) (packages : Option (List Str)) : List (PRow U) :=
  let rows := table.filter (fun r => decide (r.uuid = u))
  match packages with
  | none => rows
  | some ps => (ps.filter (fun p => decide (p ∈ rows.map PRow.package))).flatMap (fun p => rows.filter (fun r => decide (r.package = p)))

/-! ## Index of prenights -/

/-- A `datetime.date`. -/
structure Date where
  year : ℕ
  month : ℕ
  day : ℕ
  deriving DecidableEq

/-- A digit. -/
def dg (n : ℕ) : Char := Char.ofNat (48 + n % 10)

/-- `date.isoformat()` -/
def iso (d : Date) : Str :=
  [dg (d.year / 1000), dg (d.year / 100), dg (d.year / 10), dg d.year, '-', dg (d.month / 10), dg d.month, '-',
    dg (d.day / 10), dg d.day]

/-- `str(n)` -/
def str (n : ℕ) : Str := (Nat.repr n).toList

/-- Where `make_prenight_index` writes, `vseqarchive.py:953-959`: the names below the destination. -/
def writtenAt (telescope : Str) (d : Date) : List Str :=
  [telescope, str d.year, str d.month, telescope ++ "_prenights_for_".toList ++ iso d ++ ".json".toList]

/-- Where `get_prenight_index_from_bucket` reads, `prenightindex.py:125-134`. -/
def readAt (telescope : Str) (d : Date) : List Str :=
  let isodate := iso d
  [telescope, str d.year, str d.month, telescope ++ "_prenights_for_".toList ++ isodate ++ ".json".toList]

/-- A call of `make_prenight_index` with the table of that night. -/
structure Made (V : Type) where
  telescope : Str
  date : Date
  table : V

/-- The writing of a file, `vseqarchive.py:960`. -/
def make {V : Type} (files : List Str → Option V) (m : Made V) : List Str → Option V :=
  fun p => if p = writtenAt m.telescope m.date then some m.table else files p

/-- `get_prenight_index_from_bucket`, `prenightindex.py:119-140`; `none` when there is no file. -/
def readIndex {V : Type} (files : List Str → Option V) (telescope : Str) (d : Date) : Option V := files (readAt telescope d)

/-! ## Text of a bandpass -/

/-- The pieces of a text between the characters of a kind. -/
def splitP (p : Char → Bool) : Str → List Str
  | [] => [[]]
  | c :: cs =>
    if p c then [] :: splitP p cs
    else match splitP p cs with
      | [] => [[c]]
      | l :: ls => (c :: l) :: ls

/-- Ends of lines in text mode. -/
def isNl (c : Char) : Bool := c == '\n' || c == '\r'

/-- Blanks for `str.split()`. -/
def isWs (c : Char) : Bool := c == ' ' || c == '\t' || isNl c

/-- `line.split()` -/
def words (l : Str) : List Str := (splitP isWs l).filter (fun w => decide (w ≠ []))

/-- The writing and the reading of a number: `print` and `float`. -/
structure Codec (K : Type) where
  put : K → Str
  get : Str → Option K

/-- The line of the names of the columns without its end, `bandpass.py:416` and 418. -/
def columns (phi : Bool) : Str :=
  if phi then "# Wavelength(nm)  Throughput(0-1)   Phi".toList else "# Wavelength(nm)  Throughput(0-1)".toList

/-- The first line of `write_throughput`, `bandpass.py:409-418`. -/
def head (header : Option Str) (phi : Bool) : Str :=
  (match header with
    | none => []
    | some h => if "#".toList.isPrefixOf h then h else '#' :: h) ++
  (columns phi ++ ['\n'])

/-- A line of the data, `bandpass.py:420-424`. -/
def dataLine {K : Type} (cd : Codec K) (r : K × K) (phi : Option K) : Str :=
  match phi with
  | none => cd.put r.1 ++ ' ' :: cd.put r.2 ++ ['\n']
  | some x => cd.put r.1 ++ ' ' :: cd.put r.2 ++ ' ' :: cd.put x ++ ['\n']

/-- `write_throughput`, `bandpass.py:401-425`; `phi` gives the third column when it is written. -/
def writeText {K : Type} (cd : Codec K) (header : Option Str) (phi : Option (K × K → K)) (curve : List (K × K)) : Str :=
  head header phi.isSome ++ curve.flatMap (fun r => dataLine cd r (phi.map (fun f => f r)))

/-- Does a line start with a sign of comments? `bandpass.py:167` -/
def commented (l : Str) : Bool := "#".toList.isPrefixOf l || "$".toList.isPrefixOf l || "!".toList.isPrefixOf l

/-- The lines that are read, `bandpass.py:167-173`. -/
def kept (l : Str) : Bool :=
  !commented l && decide (2 ≤ (words l).length) && !decide ((words l).head? ∈ [some "$".toList, some "#".toList, some "!".toList])

/-- The two numbers of a line, `bandpass.py:174-175`. -/
def numbers {K : Type} (cd : Codec K) (l : Str) : Option (K × K) :=
  match words l with
  | a :: b :: _ => (cd.get a).bind (fun x => (cd.get b).map (fun y => (x, y)))
  | _ => none

/-- `read_throughput`, `bandpass.py:166-188`; `none` for a ValueError. -/
def readText {K : Type} [LinearOrder K] (cd : Codec K) (text : Str) : Option (List (K × K)) :=
  match ((splitP isNl text).filter kept).mapM (numbers cd) with
  | none => none
  | some rows =>
    if (rows.map Prod.fst).length ≠ (rows.map Prod.fst).dedup.length then none
    else some (rows.insertionSort (fun a b => a.1 ≤ b.1))

/-! ## Time delays -/

/-- The columns that `TdcMetric` uses. -/
structure TObs (K : Type) where
  mjd : K
  night : Int
  m5 : K
  band : String
  season : Int

section tdc

variable {K : Type} [Field K] [LinearOrder K]

/-- The visits deep enough behind the dust, `season_metrics.py:271-281`. -/
def deep (ax cuts : String → K) (ebv : K) (visits : List (TObs K)) : List (TObs K) :=
  visits.filter (fun v => decide (cuts v.band < v.m5 - ax v.band * ebv))

/-- `season_means[i]`, `season_metrics.py:296-300`. -/
def tdcMean (s : List (TObs K)) (e : Nat × Nat) : K :=
  let deltas := diff (Seasons.uniqueInt ((pySlice s e.1 (e.2 + 1)).map TObs.night))
  if 0 < deltas.length then (deltas.map (fun d : Int => (d : K))).sum / (deltas.length : K) else 0

/-- The campaign, `season_metrics.py:288`. -/
def tdcCamp (s : List (TObs K)) : Nat := (Seasons.uniqueInt (s.map TObs.season)).length

/-- The lengths of the seasons, `season_metrics.py:290`. -/
def tdcLengths (s : List (TObs K)) : List (Option K) :=
  (Seasons.findSeasonEdges (s.map TObs.season)).map (fun e => (s[e.2]?).bind (fun b => (s[e.1]?).map (fun a => b.mjd - a.mjd)))

/-- The season in months, `season_metrics.py:291-293`. -/
def tdcSea (s : List (TObs K)) : K := Mo.median ((tdcLengths s).filterMap (fun v => v)) / 30

/-- The cadence, `season_metrics.py:295-301`. -/
def tdcCad (s : List (TObs K)) : K :=
  let ms := (Seasons.findSeasonEdges (s.map TObs.season)).map (tdcMean s)
  ms.sum / (ms.length : K)

end tdc

/-- The normalisations. -/
structure Norms where
  cad : ℝ
  sea : ℝ
  camp : ℝ

/-- What `TdcMetric` gives. -/
structure Tdc where
  accuracy : ℝ
  precision : ℝ
  rate : ℝ
  cadence : ℝ
  season : ℝ
  campaign : ℕ

/-- The formulas, `season_metrics.py:306-326`. -/
noncomputable def tdcOf (n : Norms) (cad sea : ℝ) (camp : ℕ) : Tdc where
  accuracy := 0.06 * (n.sea / sea) * (n.camp / camp) ^ (1.1 : ℝ)
  precision := 4.0 * (cad / n.cad) ^ (0.7 : ℝ) * (n.sea / sea) ^ (0.3 : ℝ) * (n.camp / camp) ^ (0.6 : ℝ)
  rate := 30.0 * (n.cad / cad) ^ (0.4 : ℝ) * (sea / n.sea) ^ (0.8 : ℝ) * (n.camp / camp) ^ (0.2 : ℝ)
  cadence := cad
  season := sea
  campaign := camp

open Classical in
/-- `TdcMetric.run`, `season_metrics.py:269-326`, on visits in the order of time; `none` for `badval`. -/
noncomputable def tdcRun (n : Norms) (ax cuts : String → ℝ) (ebv : ℝ) (visits : List (TObs ℝ)) : Option Tdc :=
  let s := deep ax cuts ebv visits
  if s = [] then none
  else if tdcSea s = 0 ∨ tdcCad s = 0 ∨ tdcCamp s = 0 then none
  else some (tdcOf n (tdcCad s) (tdcSea s) (tdcCamp s))

/-! ## Metrics with statistics -/

/-- `metrics_with_summary_stat`, `maf_run_results.py:290-314`; a row of the statistics is the id of
its metric and its name; `srt` sorts. -/
def withStat (srt : List Web.Metric → List Web.Metric) (stats : List (ℕ × Str)) (names : List Str) (metrics : List Web.Metric) :
    List Web.Metric :=
  let ids := (stats.filter (fun s => decide (s.2 ∈ names))).map Prod.fst
  srt (metrics.filter (fun m => decide (m.id ∈ ids)))

/-- `metrics_with_stats`, `maf_run_results.py:316-335`. -/
def withAny (srt : List Web.Metric → List Web.Metric) (stats : List (ℕ × Str)) (metrics : List Web.Metric) : List Web.Metric :=
  srt (metrics.filter (fun m => decide (m.id ∈ stats.map Prod.fst)))

/-- `unique_metric_name_and_info_label`, `maf_run_results.py:354-367`, of names and labels. -/
def nameLabels (rows : List (Str × Str)) : List Str :=
  rows.foldl (fun out r => if r.1 ++ ' ' :: r.2 ∈ out then out else out ++ [r.1 ++ ' ' :: r.2]) []

/-! ## Offsets -/

/-- `OffsetClouds.__call__`, `offsets.py:56-83`: `self.SF` is None. -/
noncomputable def clouds (transparency : ℝ) (nstars : ℕ) : Selfcal.Res (List ℝ) :=
  open Classical in
  if transparency ≠ 0 then .error "AttributeError" else .val (List.replicate nstars 0)

/-- `OffsetSNR.__call__` for one star, `offsets.py:109-119`: its error before the random factor. -/
noncomputable def snrErr (mag m5 : ℝ) (dmags : List (String × ℝ)) : ℝ := Selfcal.magErr (dmags.foldl (fun m d => m + d.2) mag) m5

/-! ## Galaxies and X-ray binaries -/

/-- The result of a call of a method with some arguments that have no default. -/
def call {R : Type} (required given : ℕ) (body : R) : Except String R := if given < required then .error "TypeError" else .ok body

/-- `GalaxyCountsMetric.run`, `lss_metrics.py:35-45`: `ExgalM5.run`, `exgal_m5.py:47`, has two arguments
without default and gets one. -/
def galaxyCounts {D P R : Type} (coadd : D → P → R) (count : R → R) (data : D) (point : P) : Except String R :=
  (call 2 1 (coadd data point)).bind (fun m => .ok (count m))

/-- The periods of the catalogue, `xrb_metrics.py:48-68`. -/
noncomputable def catalogPorb : List ℝ :=
  [33.85, 6.4713, 2.5445, 1.7557, 1.5420, 0.5213, 0.4326, 0.3441, 0.3230, 0.3205, 0.2852, 0.2740, 0.2122, 0.1699, 0.1352,
    0.117, 0.1006]

/-- Magnitudes in the bands. -/
structure Ugrizy where
  u : ℝ
  g : ℝ
  r : ℝ
  i : ℝ
  z : ℝ
  y : ℝ

/-- `lmxb_abs_mags`, `xrb_metrics.py:70-87`, from the periods that are drawn and their factors. -/
noncomputable def lmxb (draws : List (ℝ × ℝ)) : List Ugrizy × List ℝ :=
  let porbs := draws.map (fun d => d.1 * d.2)
  ((porbs.map (fun p => 4.64 - 3.69 * (Real.log p / Real.log 10))).map
    (fun r => ⟨r + 4.14, r + 3.24, r, r + 0.33, r + 1.05, r + 2.36⟩), porbs)

end Verif.Odds
