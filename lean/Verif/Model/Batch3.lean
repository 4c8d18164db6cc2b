import Mathlib.Algebra.Order.Floor.Ring
import Verif.Model.Batch2
import Verif.Model.Bins
import Verif.Model.Periodic

/-!
# Model of the conditions and requirements of further batches

`rubin_sim/maf/batches/srd_batch.py`, `ddf_batch.py`, `visitdepth_batch.py`, `time_sci_batch.py`, `metadata_batch.py`. Conditions are lists of
tokens as in `Model/Batches.lean`. Plots, orders, groups and captions are not modelled, nor the values of the metrics except those of the
rapid revisits and of percentiles. -/

namespace Verif.Batch3

open Verif.Batches (Tok Str)

/-! ## Requirements on rapid revisits -/

section
variable {K : Type} [Field K] [LinearOrder K]

/-- `d_tmin` as given to the metric, `srd_batch.py:581` and 591: 40 seconds are turned to minutes and then divided as seconds. In days. -/
def revisitMin : K := 40 / 60 / 60 / 60 / 24

/-- `d_tpairs`, `srd_batch.py:582` and 592, in days. -/
def revisitPairs : K := 20 / 60 / 24

/-- `d_tmax`, `srd_batch.py:583` and 593, in days. -/
def revisitMax : K := 30 / 60 / 24

/-- The value of "RapidRevisits" at a point of the sky with visits at these times, `srd_batch.py:588-596`: `min_n1` is `nOne`, `min_n2` is `nTwo`. -/
def rapidRevisits (times : List K) : Nat := Periodic.rapidRevisit revisitMin revisitPairs revisitMax 82 28 times

/-- The summary "Area (sq deg)", `srd_batch.py:586-605`; `none` is a masked pixel and `pixArea` the area of a pixel of `npix`. -/
def revisitArea (bad pixArea : K) (npix : Nat) (vals : List (Option K)) : K :=
  Batch2.summary bad (fun d => Batch2.fracAbove (9 / 10) d * (pixArea * npix)) none vals

end

section
variable {K : Type*} [Field K] [LinearOrder K] [FloorRing K] [IsStrictOrderedRing K]

/-- `PercentileMetric`, `simple_metrics.py:396-404`; the percentile is 90 unless given. -/
def percentileMetric (percentile : Option Nat) (d : List K) : Option K := Bins.pct (((percentile.getD 90 : Nat) : K) / 100) d

/-- Percentiles in the summaries of `astrometryBatch`, names and arguments, `srd_batch.py:261` and 428. -/
def astrometryPercentiles : List (String × Option Nat) :=
  [("95th Percentile Parallax Uncert", some 95), ("95th Percentile Proper Motion Uncert", none)]

/-- The value of the summary with the name. -/
def astrometrySummary (name : String) (d : List K) : Option K := (astrometryPercentiles.lookup name).bind (fun p => percentileMetric p d)

end

/-! ## Conditions -/

section
variable {R : Type}

/-- `ysql`, `srd_batch.py:364-367`, of rows whose columns hold letters; the column of the bands in `colmap` is `bandCol`, not used. -/
def ySql (col : String → R → Char) (_bandCol : String) (extra : List (Tok R)) : List (Tok R) :=
  if extra.isEmpty then [.atom (fun r => col "filter" r == 'y')] else extra ++ [.and, .atom (fun r => col "filter" r == 'y')]

/-- The condition of `firstYearMetadata`, `metadata_batch.py:534-538`; `"night < 365.5"` on whole nights. -/
def firstYear (night : R → Nat) (extra : Option (List (Tok R))) : List (Tok R) :=
  let own : List (Tok R) := [.atom (fun r => decide (2 * night r < 731))]
  match extra with
  | none => own
  | some e => Batches.both own e

/-- Three bands, `ddf_batch.py:222-225` and 261-264. -/
def threeBands (bandOf : R → Char) (a b c : Char) : List (Tok R) :=
  [.atom (fun r => bandOf r == a), .or, .atom (fun r => bandOf r == b), .or, .atom (fun r => bandOf r == c)]

/-- `fieldsqls` of a field, `ddf_batch.py:497-507`; `note` is the test `scheduler_note like '%…%'`, `none` for the field "WFD". -/
def fieldSql (bandOf : R → Char) (note : Option (R → Bool)) (extra : Option (List (Tok R))) (b : Option Char) : List (Tok R) :=
  match note with
  | none => Batches.bandSql bandOf extra b
  | some t =>
    let s := Batches.bandSql bandOf extra b
    if s.isEmpty then [.atom t] else [.atom t, .and] ++ s

/-- What a bundle of `ddfBatch` computes. -/
inductive Kind
  | sne | lensedSne | kne | kuiper | weakLensing | qso | lag (days : Nat) | structure' | coadd | nVisits | nights
  | perNight | coaddPerNight | visitsOverTime | coaddOverTime | nightGaps | medianGap | seasons | medianSeason | cumulative
deriving DecidableEq

/-- Bundle: kind, band of its label (`none` for all bands, or for a label that names none) and condition. -/
structure DBun (R : Type) where
  kind : Kind
  label : Option Char
  sql : List (Tok R)

/-- The six bands, `"ugrizy"`. -/
def six : List Char := ['u', 'g', 'r', 'i', 'z', 'y']

/-- The bundles of one field that are computed on the sky, `ddf_batch.py:140-475`. -/
def skyBundles (bandOf : R → Char) (extra : Option (List (Tok R))) : List (DBun R) :=
  let s := Batches.bandSql bandOf extra
  [⟨.sne, none, []⟩, ⟨.lensedSne, none, s none⟩, ⟨.kne, none, []⟩,
   ⟨.kuiper, none, threeBands bandOf 'g' 'r' 'i'⟩, ⟨.kuiper, none, threeBands bandOf 'g' 'r' 'i'⟩,
   ⟨.kuiper, none, threeBands bandOf 'r' 'i' 'z'⟩, ⟨.kuiper, none, threeBands bandOf 'r' 'i' 'z'⟩,
   ⟨.weakLensing, none, threeBands bandOf 'g' 'r' 'i'⟩, ⟨.weakLensing, none, threeBands bandOf 'r' 'i' 'z'⟩]
  ++ six.map (fun f => ⟨.qso, some f, s (some f)⟩)
  ++ (Batches.bandList true).map (fun f => ⟨.lag 100, f, s f⟩)
  ++ (Batches.bandList true).map (fun f => ⟨.lag 5, f, s f⟩)
  ++ six.map (fun f => ⟨.structure', some f, s (some f)⟩)
  ++ six.flatMap (fun f => [⟨.coadd, some f, s (some f)⟩, ⟨.nVisits, some f, s (some f)⟩])
  ++ [⟨.nVisits, none, s none⟩, ⟨.nights, none, s none⟩]

/-- The bundles of one field that are computed once, `ddf_batch.py:509-722`; in line 692 `f` is the last of `filterlist`, line 636. -/
def fieldBundles (bandOf : R → Char) (note : Option (R → Bool)) (extra : Option (List (Tok R))) : List (DBun R) :=
  let q := fieldSql bandOf note extra
  [⟨.perNight, none, q none⟩]
  ++ six.map (fun f => ⟨.coaddPerNight, some f, q (some f)⟩)
  ++ (if note.isNone then [] else [⟨.visitsOverTime, none, q none⟩])
  ++ (if note.isNone then [] else six.map (fun f => ⟨.coaddOverTime, some f, q (some f)⟩))
  ++ [⟨.nightGaps, none, q none⟩]
  ++ (Batches.bandList true).map (fun f => ⟨.medianGap, f, q f⟩)
  ++ [⟨.seasons, none, q none⟩, ⟨.medianSeason, none, q ((Batches.bandList true).getLastD none)⟩]
  ++ (if note.isNone then [] else [⟨.cumulative, none, q none⟩])

/-- The bundles of one field. -/
def ddfBundles (bandOf : R → Char) (note : Option (R → Bool)) (extra : Option (List (Tok R))) : List (DBun R) :=
  skyBundles bandOf extra ++ fieldBundles bandOf note extra

end

/-- `fieldname`, `ddf_batch.py:129-131`. -/
def fieldName (ddf : Str) : Str := if "DD".toList.isPrefixOf ddf then ddf else "DD:".toList ++ ddf

/-- The slicers of the metrics that are computed once. -/
inductive PtSlicer
  | point | uni
deriving DecidableEq

/-- `ptslicer`, `ddf_batch.py:485-492`. -/
def ptSlicer (ddf : Str) : PtSlicer := if fieldName ddf = "WFD".toList then .point else .uni

/-- The pixels of a field, `ddf_batch.py:89-107`: `near c i` tells if pixel `i` is within the radius of centre `c`; more than one centre is joined
by `np.unique`. -/
def fieldPixels {C : Type} (near : C → Nat → Bool) (npix : Nat) (centres : List C) : List Nat :=
  match centres with
  | [c] => (List.range npix).filter (near c)
  | cs => ((cs.flatMap (fun c => (List.range npix).filter (near c))).dedup).insertionSort (· ≤ ·)

/-! ## Effective time -/

/-- `tEffMetrics`, `visitdepth_batch.py:244-300`; `sky` are the letters of the slicer given, "HEAL" otherwise. -/
def tEff (sky : Str) (sql label : Option Str) : List Batch2.Bun :=
  let mk (m : Str) : Batch2.Bun :=
    { metric := m, info := Batch2.bandLabel sql label none, slicer := "UNIS".toList, sql := Batch2.bandText Batch2.defaultBandCol sql none }
  [mk "Total Teff".toList, mk "Normalized Teff".toList] ++ Batch2.perBand ["Normalized Teff".toList] sky sql label

/-! ## Phase gaps -/

/-- Arguments of `PhaseGapMetric` and, through `kwargs`, of `BaseMetric`, `phase_gap_metric.py:33-47`; `units` is given there. -/
def phaseGapArgs : List String :=
  ["col", "n_periods", "period_min", "period_max", "n_visits_min", "metric_name", "maps", "metric_dtype", "badval", "mask_val"]

/-- A call with keywords: one that is not an argument is a `TypeError`. -/
def callKeywords (args given : List String) : Except String Unit := if given.all (fun k => args.contains k) then .ok () else .error "TypeError"

/-- `phaseGap`, `time_sci_batch.py:61-100`; lines 72-73 use the text of a condition as an index of a list. The number of bundles. -/
def phaseGap (extraSql : Option Str) : Except String Nat :=
  if (extraSql.getD []).isEmpty = false then .error "TypeError"
  else match callKeywords phaseGapArgs ["nPeriods", "periodMin", "periodMax", "nVisitsMin", "metric_name"] with
    | .error e => .error e
    | .ok _ => .ok 16

/-! ## Names with the column replaced -/

/-- `s.replace(old, new)`, from the left; `old` is not empty. -/
def replaceAll (old new : Str) (s : Str) : Str :=
  match s with
  | [] => []
  | c :: cs =>
    if old.isPrefixOf (c :: cs) ∧ old ≠ [] then new ++ replaceAll old new ((c :: cs).drop old.length)
    else c :: replaceAll old new cs
termination_by s.length
decreasing_by
  · rename_i h
    have : 0 < old.length := List.length_pos_iff.mpr h.2
    simp only [List.length_drop, List.length_cons]; omega
  · simp

/-- Names of `extended_metrics(value, replace_colname=valueName)`, `common.py:202-216`. -/
def replacedNames (value valueName : Str) : List Str := (Batch2.extendedNames value).map (replaceAll value valueName)

end Verif.Batch3
