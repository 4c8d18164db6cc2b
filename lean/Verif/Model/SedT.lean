import Mathlib.Algebra.Order.Floor.Ring
import Mathlib.Data.Rat.Floor
import Mathlib.Data.List.Dedup
import Verif.Model.NumpyMore

/-!
# Model of the metric for transients with a table of spectra

`rubin_sim/maf/maf_contrib/transient_ascii_sed_metric.py`. The magnitudes (`sncosmo`) and
their signal to noise are one function of the phase, the band and the depth; the duration of
the transient is a parameter. Numbers are those of an ordered field.
-/

namespace Verif.SedT

inductive PyErr | key
  deriving DecidableEq, Repr

structure Visit (K : Type*) where
  mjd : K
  m5 : K
  band : String

structure Params (K : Type*) where
  dur : K
  nPre : Nat
  preTime : K
  nFilters : Nat
  filterTime : Option K
  nPer : Nat
  nPhases : Nat
  detect : List (String × K)

/-- What the metric keeps from one point to the next, lines 136-137. -/
structure State (K : Type*) where
  start : Option K
  years : K

section
variable {K : Type*} [Field K] [LinearOrder K]

/-- The first and last time of a list of times, `none` if it is empty. -/
def ends (ts : List K) : Option (K × K) := ts.min?.bind (fun a => ts.max?.map (fun b => (a, b)))

/-- `setup_run_metric_variables`, lines 501-514, on the times of the visits: the state
after it. -/
def setup (st : State K) (ts : List K) : State K :=
  match ends ts with
  | none => st
  | some (a, b) => ⟨some (st.start.getD a), max ((b - a) / (36525 / 100)) st.years⟩

/-- The state after several points. -/
def setupAll (st : State K) (points : List (List K)) : State K := points.foldl setup st

/-- `time_phase_shifts`, lines 547-549. -/
def shifts (p : Params K) : List K := (List.range p.nPhases).map (fun i : ℕ => (i : K) * p.dur / (p.nPhases : K))

/-- A visit with its phase, the number of its transient and whether it is a detection. -/
structure Row (K : Type*) where
  epoch : K
  id : Int
  band : String
  above : Bool

variable [FloorRing K]

/-- `x % y` for numbers. -/
def fmod (x y : K) : K := x - y * (⌊x / y⌋ : K)

/-- `transient_id_start`, lines 557-559. -/
def idStart (p : Params K) (start tmin : K) : Int := -⌊(tmin - start) / p.dur⌋

/-- The number of the transient of a visit, lines 465-468. -/
def ident (p : Params K) (start : K) (base : Int) (v : Visit K) : Int := ⌊(v.mjd - start) / p.dur⌋ + base

/-- The phase of a visit, lines 461-463. -/
def epoch (p : Params K) (start shift : K) (v : Visit K) : K := fmod (v.mjd - start + shift) p.dur

/-- `evaluate_snr_thresholds`, lines 580-593, and the rows of one phase shift, lines 461-476;
`snr` is the signal to noise for phase, band and depth. -/
def mkRows (p : Params K) (snr : K → String → K → K) (start shift : K) (base : Int) (vs : List (Visit K)) : Except PyErr (List (Row K)) :=
  vs.mapM (fun v =>
    match p.detect.lookup v.band with
    | none => .error .key
    | some lim => .ok ⟨epoch p start shift v, ident p start base v, v.band, decide (lim ≤ snr (epoch p start shift v) v.band v.m5)⟩)

/-- `evaluate_filter_in_time_detection_criteria`, lines 405-422, on the detections of one
transient; `searchsorted` counts the phases that are not later, as for sorted phases. -/
def inTime (p : Params K) (ab : List (Row K)) : Bool :=
  match p.filterTime with
  | none => true
  | some ft =>
    if 1 < p.nFilters then
      (List.range ab.length).any (fun i =>
        match ab[i]? with
        | none => false
        | some r =>
          let e := ab.countP (fun x => decide (x.epoch ≤ r.epoch + ft))
          let e := if e < ab.length - 1 then e else ab.length - 1
          decide (p.nFilters ≤ (((ab.take e).drop i).map Row.band).dedup.length))
    else true

/-- The criteria of one transient in turn, lines 282-324; `g` are its visits, which are next
to each other as the visits are sorted by time. -/
def detected (p : Params K) (g : List (Row K)) : Bool :=
  let ab := g.filter Row.above
  if ab.countP (fun r => decide (r.epoch < p.preTime)) < p.nPre then false
  else if (ab.map (fun r => ⌊r.epoch / p.dur * (p.nPer : K)⌋)).dedup.length < p.nPer then false
  else if (ab.map Row.band).dedup.length < p.nFilters then false
  else inTime p ab

/-- The number of transients detected for one phase shift, lines 260-328. -/
def numDetected (p : Params K) (rows : List (Row K)) : Nat :=
  (rows.map Row.id).dedup.countP (fun n => detected p (rows.filter (fun r => r.id == n)))

/-- The loop over the phase shifts, lines 625-636: the transients of the next shift are
numbered from the last one (470). -/
def phases (p : Params K) (snr : K → String → K → K) (start : K) (vs : List (Visit K)) : List K → Int → Except PyErr Nat
  | [], _ => .ok 0
  | s :: rest, base =>
    match mkRows p snr start s base vs with
    | .error e => .error e
    | .ok rows =>
      match phases p snr start vs rest ((rows.map Row.id).max?.getD base) with
      | .error e => .error e
      | .ok n => .ok (numDetected p rows + n)

/-- `run` without the light curves, lines 617-652. -/
def run (p : Params K) (snr : K → String → K → K) (st : State K) (vs : List (Visit K)) : State K × Except PyErr Nat :=
  let st := setup st (vs.map Visit.mjd)
  match st.start, (vs.map Visit.mjd).min? with
  | some s, some a => (st, phases p snr s vs (shifts p) (idStart p s a))
  | _, _ => (st, .ok 0)

end

end Verif.SedT
