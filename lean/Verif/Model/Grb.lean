import Verif.Model.Transient
import Mathlib.Algebra.Order.Group.Unbundled.Abs

/-!
# Model of `rubin_sim/maf/maf_contrib/grb_transient_metric.py`

`GRBTransientMetric`. The number drawn from the normal distribution for each phase is a parameter of the model; so is the fading
`alpha * 2.5 * log10(minutes)` of line 135. Rows with equal times may be sorted in any order, so the sort is a parameter, too. -/

namespace Verif.Grb

open Verif.Np
open Verif.Transient (Visit fmod)

variable {K : Type*} [Field K] [LinearOrder K] [IsStrictOrderedRing K] [FloorRing K]

/-- Parameters, `grb_transient_metric.py:94-114`; `fade` gives the magnitudes after one minute at a time in days. -/
structure Params (K : Type*) where
  fade : K → K
  duration : K
  years : K
  surveyStart : Option K
  plus : K
  nPer : ℕ
  nFilters : ℕ
  delta : K
  nPhase : ℕ

/-- `light_curve` for one visit, `grb_transient_metric.py:131-143`; `peak_time` is zero. -/
def lightCurve (p : Params K) (draw t : K) : K := if 0 < t then draw + p.fade t else 0

/-- A row of `data_slice`, `lc_number`, `lc_mags` and `detected`. -/
structure Row (K : Type*) where
  visit : Visit K
  lc : ℤ
  mag : K
  det : Bool

/-- `grb_transient_metric.py:163-175`. -/
def mkRow (p : Params K) (draw start tshift : K) (v : Visit K) : Row K :=
  let m := lightCurve p draw (fmod (v.mjd - start + tshift) p.duration)
  { visit := v, lc := ⌊(v.mjd - start) / p.duration⌋, mag := m, det := decide (m < v.m5 + p.plus) }

/-- `bandcounter` of `grb_transient_metric.py:177-185`. -/
def zeroed : List (String × ℕ) := ["u", "g", "r", "i", "z", "y", "any"].map (fun b => (b, 0))

/-- `bandcounter[k] += 1`; `none` is the `KeyError`. -/
def bump (k : String) (c : List (String × ℕ)) : Option (List (String × ℕ)) :=
  if (c.map Prod.fst).contains k then some (c.map (fun e => if e.1 = k then (e.1, e.2 + 1) else e)) else none

/-- `nbanddet` of `grb_transient_metric.py:204-212` for the visits `g` of a light curve. -/
def nBandDet (p : Params K) (g : List (Row K)) (f : String) : ℕ :=
  let points := (g.filter (fun r => decide (r.visit.band = f) && r.det)).map Row.mag
  (diff points).countP (fun d => decide (p.delta < |d|)) + 1

/-- `grb_transient_metric.py:203-215`: the loop over the filters, with `bandcounter` and `nfilts_lci`. -/
def filterLoop (p : Params K) (g : List (Row K)) : List String → List (String × ℕ) → ℕ → Option (List (String × ℕ) × ℕ)
  | [], c, n => some (c, n)
  | f :: fs, c, n =>
    if p.nPer ≤ nBandDet p g f then (bump f c).bind (fun c' => filterLoop p g fs c' (n + 1)) else filterLoop p g fs c n

/-- `grb_transient_metric.py:200-217` for one light curve. The order of `np.unique` is not kept: it does not matter. -/
def perLc (p : Params K) (g : List (Row K)) (c : List (String × ℕ)) : Option (List (String × ℕ)) :=
  let ufilters := ((g.filter Row.det).map (fun r => r.visit.band)).dedup
  (filterLoop p g ufilters c 0).bind (fun r => if p.nFilters ≤ r.2 then bump "any" r.1 else some r.1)

/-- `grb_transient_metric.py:193-217`: the counters of the rows, sorted by time. -/
def counters (p : Params K) (rows : List (Row K)) : Option (List (String × ℕ)) :=
  let lcs := rows.map Row.lc
  (sort lcs.dedup).foldl (fun c n => c.bind (perLc p (pySlice rows (searchsortedLeft lcs n) (searchsortedRight lcs n))))
    (some zeroed)

/-- Line 158. -/
def room (p : Params K) : ℤ := ⌊p.years / (p.duration / (1461 / 4))⌋

/-- `grb_transient_metric.py:152`. -/
def tshifts (p : Params K) : List K := (List.range p.nPhase).map (fun i : ℕ => (i : K) * p.duration / (p.nPhase : K))

/-- Numerators and denominator of the fractions, or an exception. -/
inductive Res
  | fraction (c : List (String × ℕ)) (trans : ℤ)
  | unbound
  | empty
  | keyError
deriving DecidableEq

/-- The loop over `tshifts`, `grb_transient_metric.py:154-217`; the counters are set to zero in each round (lines 177-185) and what
is left of them is those of the last round. -/
def phases (srt : List (Visit K) → List (Visit K)) (p : Params K) (draws : ℕ → K) :
    List K → ℕ → List (Visit K) → Option (List (String × ℕ)) → ℤ → Res
  | [], _, _, none, _ => .unbound
  | [], _, _, some c, nt => .fraction c nt
  | s :: ss, i, vs, _, nt =>
    match p.surveyStart with
    | some _ => .unbound
    | none =>
      match (vs.map Visit.mjd).min? with
      | none => .empty
      | some start =>
        match counters p ((srt vs).map (mkRow p (draws i) start s)) with
        | none => .keyError
        | some c => phases srt p draws ss (i + 1) (srt vs) (some c) (nt + room p - (if s ≠ 0 then 1 else 0))

/-- `run`, `grb_transient_metric.py:145-223`, up to the divisions. -/
def run (srt : List (Visit K) → List (Visit K)) (p : Params K) (draws : ℕ → K) (vs : List (Visit K)) : Res :=
  phases srt p draws (tshifts p) 0 vs none 0

/-- `reduce_band1_filt_avg`, `grb_transient_metric.py:225-227`, of the counters and the number of transients. -/
def filtAvg (c : List (String × ℕ)) (trans : K) : K := (c.map (fun e => (e.2 : K) / trans)).sum / (c.length : K)

end Verif.Grb
