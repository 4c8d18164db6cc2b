import Mathlib.Algebra.Order.Field.Basic
import Verif.Model.BaseMetric
import Verif.Model.Batches

/-!
# Model of the names of bundles made by the batches

`rubin_sim/maf/batches/common.py`, `altaz_batch.py`, `time_batch.py`, `metadata_batch.py`, `slew_batch.py`, `filterchange_batch.py`,
`openshutter_batch.py`. Of a bundle the name of its metric, its label, the first letters of the name of its slicer and its subgroup are
kept. Conditions are strings here; plots, colours and the computation of the metrics are not modelled. -/

namespace Verif.Batch2

abbrev Str := List Char

/-- A bundle: metric, label, letters of the slicer, condition, subgroup and caption. -/
structure Bun where
  metric : Str
  info : Str
  slicer : Str
  sql : Str := []
  subgroup : Str := []
  caption : Str := []
deriving DecidableEq

/-- `_build_file_root`, `metric_bundle.py:263-278`, with the name of the run set by `set_run_name` at the end of a batch. -/
def Bun.root (run : Str) (b : Bun) : Str := BaseM.fileRoot run b.metric b.info b.slicer

/-- The loop of `make_bundles_dict_from_list`, `metric_bundle_group.py:32-37`, with the dictionary so far. -/
def fillDict (run : Str) (d : List (Str × Bun)) : List Bun → Except String (List (Str × Bun))
  | [] => .ok d
  | b :: bs => if (d.map Prod.fst).contains (b.root run) then .error "NameError" else fillDict run (d ++ [(b.root run, b)]) bs

/-- `make_bundles_dict_from_list` -/
def makeDict (run : Str) (bs : List Bun) : Except String (List (Str × Bun)) := fillDict run [] bs

/-! ## Labels and conditions per band -/

/-- The label before that of the band, `common.py:66-72`. -/
def prefixLabel (extraSql extraLabel : Option Str) : Str :=
  match extraLabel with
  | some l => l ++ [' ']
  | none => match extraSql with
    | none => []
    | some s => if s.isEmpty then [] else s ++ [' ']

/-- `info_labels` of `filter_list`, lines 73-79; `none` is "all". -/
def bandLabel (extraSql extraLabel : Option Str) : Option Char → Str
  | none => prefixLabel extraSql extraLabel ++ "all bands".toList
  | some c => prefixLabel extraSql extraLabel ++ c :: " band".toList

/-- `sqls` of `filter_list`, lines 73-85, as text. -/
def bandText (bandCol : Str) (extraSql : Option Str) (b : Option Char) : Str :=
  let own : Str := match b with
    | none => []
    | some c => bandCol ++ " = '".toList ++ [c, '\'']
  match extraSql with
  | none => own
  | some e => if e.isEmpty then own else match b with
    | none => e
    | some _ => ['('] ++ e ++ ") and (".toList ++ own ++ [')']

/-- The column of the bands when the batches do not give one, line 32. -/
def defaultBandCol : Str := "band".toList

/-- One bundle for every band and metric, with the same slicer. -/
def perBand (metrics : List Str) (slicer : Str) (sql label : Option Str) : List Bun :=
  (Batches.bandList true).flatMap (fun b => metrics.map (fun m => { metric := m, info := bandLabel sql label b, slicer := slicer, sql := bandText defaultBandCol sql b }))

/-! ## Batches -/

/-- `altazHealpix`, `altaz_batch.py:57-94`; `altazLambert` differs in the plots. The columns of `colmap` do not matter for the names. -/
def altaz (metric : Str) (sql label : Option Str) : List Bun := perBand [metric] "HEAL".toList sql label

/-- The bundles of `seasons`, `time_batch.py:659-752`. -/
def seasons (slicer : Str) (sql label : Option Str) : List Bun :=
  perBand ["Median Season Length".toList] slicer sql label ++ perBand ["80thPercentile Season Length".toList] slicer sql label
    ++ [{ metric := "NSeasons".toList, info := bandLabel sql label none, slicer := slicer, sql := bandText defaultBandCol sql none }]

/-- The bundles of one band in `timeGaps`, `time_batch.py:541-608`, with the subgroup left in `displayDict` by the band before; gives it on. -/
def gapsBand (slicer : Str) (sql label : Option Str) (sub : Str) (b : Option Char) : List Bun × Str :=
  let mk (m sub : Str) : Bun := { metric := m, info := bandLabel sql label b, slicer := slicer, sql := bandText defaultBandCol sql b, subgroup := sub }
  (mk "Tgaps observationStartMJD".toList sub ::
    ["Gaps at  3.0 hr".toList, "Gaps at  7.0 hr".toList, "Gaps at  24.0 hr".toList].map (fun m => mk m "Gaps Sampling".toList), "Gaps Sampling".toList)

/-- The loop over the bands. -/
def gapsLoop (slicer : Str) (sql label : Option Str) : Str → List (Option Char) → List Bun
  | _, [] => []
  | sub, b :: bs => (gapsBand slicer sql label sub b).1 ++ gapsLoop slicer sql label (gapsBand slicer sql label sub b).2 bs

/-- `timeGaps`, `time_batch.py:514-610`. -/
def timeGaps (slicer : Str) (sql label : Option Str) (subgroup : Str) : List Bun := gapsLoop slicer sql label subgroup (Batches.bandList true)

/-- Names of `extended_metrics(colname, replace_colname=colname)`, `common.py:167-172` and lines 202-217, the replacement being by the same text. -/
def extendedNames (col : Str) : List Str :=
  ["Mean ", "Median ", "Min ", "Max ", "Rms ", "N(+3Sigma) ", "N(-3Sigma) ", "25th%ile ", "75th%ile ", "Count "].map (fun p => p.toList ++ col)

/-- `metadataBasics`, `metadata_batch.py:98-177`, for `valueName=None`; `sky` are the letters of the slicer given, "HEAL" otherwise. -/
def metadataBasics (value : Str) (sky : Str) (sql label : Option Str) : List Bun :=
  perBand (extendedNames value) "UNIS".toList sql label ++ perBand [value ++ " Histogram".toList] "ONED".toList sql label
    ++ perBand ["Min ".toList ++ value, "Median ".toList ++ value, "Max ".toList ++ value] sky sql label

/-- The statistics of slew times, names and captions, `slew_batch.py:49-65`. -/
def slewUni (slewtime label sql : Str) : List Bun :=
  (("Slew Count".toList, "Total number of slews recorded.".toList) ::
    ["Mean ", "Median ", "Min ", "Max "].map (fun p => (p.toList ++ slewtime, p.toList ++ slewtime ++ " in seconds.".toList))).map
      (fun p => { metric := p.1, info := label, slicer := "UNIS".toList, sql := sql, subgroup := "Slew Basics".toList, caption := p.2 })

/-- The histograms, lines 67-141. -/
def slewHist (slewdist : Option Str) (sql : Str) : List Bun :=
  ([("Slew Time Histogram".toList, "Histogram of slew times (seconds) for all visits.".toList),
    ("Zoom Slew Time Histogram".toList, "Histogram of slew times (seconds) for all visits (zoom).".toList)]
    ++ (match slewdist with
      | none => []
      | some _ => [("Slew Distance Histogram".toList, "Histogram of slew distances (angle) for all visits.".toList),
                   ("Zoom Slew Distance Histogram".toList, "Histogram of slew distances (angle) for all visits.".toList)])).map
      (fun p => { metric := p.1, info := "All visits".toList, slicer := "ONED".toList, sql := sql, subgroup := "Slew Basics".toList, caption := p.2 })

/-- `info_label`, lines 40-42. -/
def slewLabel (sql : Option Str) : Str :=
  match sql with
  | none => "All visits".toList
  | some s => if s.isEmpty then "All visits".toList else s

/-- `slewBasics`, lines 32-145; `slewtime` and `slewdist` are columns of `colmap`. -/
def slewBasics (slewtime : Str) (slewdist : Option Str) (sql : Option Str) : List Bun :=
  slewUni slewtime (slewLabel sql) (sql.getD []) ++ slewHist slewdist (sql.getD [])

/-- The names of `setupMetrics`, `filterchange_batch.py:11-57`. -/
def changeNames (filterCol : Str) (whole : Bool) : List Str :=
  [if whole then "Total Filter Changes".toList else "Filter Changes".toList,
   "Minimum time between ".toList ++ filterCol ++ " changes (minutes)".toList,
   "Number of ".toList ++ filterCol ++ " changes faster than <10.0 minutes".toList,
   "Number of ".toList ++ filterCol ++ " changes faster than <20.0 minutes".toList,
   "Max number of ".toList ++ filterCol ++ " changes within 10.0 minutes".toList,
   "Max number of ".toList ++ filterCol ++ " changes within 20.0 minutes".toList]

/-- The label of both batches of filter changes, lines 94-100 and 154-160. -/
def changeLabel (start : Str) (sql label : Option Str) : Str :=
  let l := match sql, label with
    | some s, none => if s.isEmpty then start else start ++ ' ' :: s
    | _, _ => start
  match label with
  | none => l
  | some x => l ++ ' ' :: x

/-- `filtersPerNight`, lines 82-124; `nights` as text. -/
def perNight (filterCol nights : Str) (sql label : Option Str) : List Bun :=
  let start : Str := if nights = ['1'] then "Per Night".toList else "Per ".toList ++ nights ++ " Nights".toList
  (changeNames filterCol false).map (fun m => { metric := m, info := changeLabel start sql label, slicer := "ONED".toList, sql := sql.getD [] })

/-- `filtersWholeSurvey`, lines 146-182. -/
def wholeSurvey (filterCol : Str) (sql label : Option Str) : List Bun :=
  (changeNames filterCol false).map (fun m => { metric := m, info := changeLabel "Whole Survey".toList sql label, slicer := "UNIS".toList, sql := sql.getD [] })

/-- The label of `openshutterFractions`, `openshutter_batch.py:37-41`, also 70-74; `lower` is the start in lower case. -/
def shutterLabel (start lower : Str) (sql label : Option Str) : Str :=
  match label with
  | some l => l ++ ' ' :: lower
  | none => match sql with
    | some s => start ++ ' ' :: s
    | none => start

/-- `openshutterFractions`, lines 31-100. -/
def openShutter (nightCol : Str) (sql label : Option Str) : List Bun :=
  let all := shutterLabel "All visits".toList "all visits".toList sql label
  let mk (m info s : Str) : Bun := { metric := m, info := info, slicer := s, sql := sql.getD [], subgroup := info }
  [mk "OpenShutterFraction".toList all "UNIS".toList, mk ("CountUnique ".toList ++ nightCol) all "UNIS".toList,
   mk ("FullRange ".toList ++ nightCol) all "UNIS".toList,
   mk "OpenShutterFraction".toList (shutterLabel "Per night".toList "per night".toList sql label) "ONED".toList]

/-! ## Summaries -/

section
variable {K : Type} [Field K] [LinearOrder K]

/-- `np.mean` -/
def mean (l : List K) : K := l.sum / l.length

/-- The values a summary is given: those not masked, or all with the masked ones filled, `metric_bundle.py:635-652`. -/
def summaryData (mask : Option K) (vals : List (Option K)) : List K :=
  match mask with
  | none => vals.filterMap (fun v => v)
  | some m => vals.map (fun v => v.getD m)

/-- One summary statistic: `badval` if there is no value, lines 653-656. -/
def summary (bad : K) (f : List K → K) (mask : Option K) (vals : List (Option K)) : K :=
  let d := summaryData mask vals
  if d.isEmpty then bad else f d

/-- `lightcurve_summary`, `common.py:136-144`, applied to the values of a metric. -/
def lightcurveSummary (bad : K) (vals : List (Option K)) : List (String × K) :=
  [("Total detected", summary bad List.sum none vals),
   ("Total lightcurves in footprint", summary bad (fun d => d.length) none vals),
   ("Total lightcurves on sky", summary bad (fun d => d.length) (some 0) vals),
   ("Fraction detected in footprint (mean)", summary bad mean none vals),
   ("Fraction detected of total (mean)", summary bad mean (some 0) vals)]

/-- `FracAboveMetric.run`, `simple_metrics.py:369-373`, with scale 1. -/
def fracAbove (cut : K) (d : List K) : K := (d.filter (fun x => decide (cut ≤ x))).length / d.length

/-- `FracBelowMetric.run`, lines 386-390. -/
def fracBelow (cut : K) (d : List K) : K := (d.filter (fun x => decide (x ≤ cut))).length / d.length

/-- `microlensing_summary`, `common.py:364-388`; all values are finite, so `RealMeanMetric` is the mean. -/
def microlensingSummary (kind : String) (npts cutoff bad : K) (vals : List (Option K)) : Except String (List K) :=
  if kind ≠ "Npts" ∧ kind ≠ "Fisher" then .error "Exception"
  else
    let first := if kind = "Npts" then summary bad (fracAbove npts) none vals else summary bad (fracBelow cutoff) none vals
    .ok [first, summary bad (fun d => d.length) none vals, summary bad (fun d => d.length) (some 0) vals, summary bad mean none vals,
      summary bad mean (some 0) vals]

end

/-- `FullRangeMetric` and `CountUniqueMetric` on the nights, `openshutter_batch.py:55-67`. -/
def fullRange (nights : List Int) : Int := (nights.max?.getD 0) - (nights.min?.getD 0)
def countUnique (nights : List Int) : Nat := nights.dedup.length

end Verif.Batch2
