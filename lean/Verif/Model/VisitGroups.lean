import Mathlib.Algebra.Field.Defs
import Mathlib.Algebra.BigOperators.Group.List.Basic
import Verif.Model.NumpyMore

/-!
# Model of `VisitGroupsMetric` (`rubin_sim/maf/metrics/visit_groups_metric.py:71-341`)

Times are in days, nights are integers. The metric value is the list of nights with
their number of visits, in the order of nights.
-/

namespace Verif.Groups

open Verif.Np

/-- `timegood` and `timetooclose` of one difference of times. -/
structure Gap where
  good : Bool
  close : Bool
deriving DecidableEq, Repr

section Run
variable {K : Type*} [Field K] [LinearOrder K]

/-- Lines 190-195. -/
def gapOf (dmin dmax d : K) : Gap := ⟨decide (d ≤ dmax) && decide (dmin ≤ d), decide (d < dmin)⟩

/-- The loop body, lines 198-208: `nvisits` and `ntooclose`. -/
def gapStep (acc : Nat × Nat) (g : Gap × Gap) : Nat × Nat :=
  (acc.1 + (if g.1.good then 1 + (if !g.2.good then 1 else 0) else 0),
   acc.2 + (if g.1.close then 1 + (if !g.2.good && !g.2.close then 1 else 0) else 0))

/-- Lines 196-218: `nvisits` and `ntooclose` for the gaps of a night. -/
def nightCount (gs : List Gap) : Nat × Nat :=
  match gs.reverse with
  | [] => (0, 0)
  | [_] => (2, 0)
  | last :: prev :: _ =>
    let acc := (gs.dropLast.zip gs.tail).foldl gapStep (0, 0)
    (acc.1 + (if last.good then 2 else 0),
     acc.2 + (if last.close then 1 + (if !prev.good && !prev.close then 1 else 0) else 0))

/-- Lines 184-223 for one night: `none` if the night is left out. -/
def nightVisits (dmin dmax : K) (times : List K) : Option K :=
  let c := nightCount ((diff (sort times)).map (gapOf dmin dmax))
  if 0 < c.1 then some ((c.1 : K) + (c.2 : K) / 2) else none

/-- A night of the metric value. -/
structure NV (K : Type*) where
  night : Int
  visits : K
deriving DecidableEq

/-- `run`, lines 164-233; rows are (night, time). The empty list stands for the bad value. -/
def runGroups (dmin dmax : K) (rows : List (Int × K)) : List (NV K) :=
  (sort (rows.map Prod.fst).dedup).filterMap (fun n =>
    (nightVisits dmin dmax ((rows.filter (fun r => r.1 = n)).map Prod.snd)).map (fun v => ⟨n, v⟩))

end Run

section Reduce
variable {K : Type*} [LinearOrder K]

/-- `_in_window`, lines 245-248. -/
def inWindow (l : List (NV K)) (night window : Int) (minVisits : K) : List (NV K) :=
  (l.filter (fun x => decide (night ≤ x.night) && decide (x.night < night + window))).filter
    (fun x => decide (minVisits ≤ x.visits))

/-- `reduce_n_visits_in_window`, lines 250-263. -/
def nVisitsInWindow [AddMonoid K] (window : Int) (minVisits : K) (l : List (NV K)) : K :=
  l.foldl (fun m x => max ((inWindow l x.night window minVisits).map NV.visits).sum m) 0

/-- `reduce_n_nights_in_window`, lines 265-278. -/
def nNightsInWindow (window : Int) (minVisits : K) (l : List (NV K)) : Nat :=
  l.foldl (fun m x => max (inWindow l x.night window minVisits).length m) 0

/-- `_in_lunation`, lines 280-282. -/
def inLunation (l : List (NV K)) (start : Int) : List (NV K) :=
  l.filter (fun x => decide (start ≤ x.night) && decide (x.night < start + 30))

/-- `np.arange(nights[0], nights[-1] + 15, 30)`, lines 290-294, 313-317: the number of
elements is the quotient rounded up; no nights raise `IndexError` (`none`). -/
def lunations (l : List (NV K)) : Option (List Int) :=
  match l.head?, l.getLast? with
  | some a, some b => some ((List.range ((b.night + 15 - a.night + 29) / 30).toNat).map (fun k : Nat => a.night + 30 * (k : Int)))
  | _, _ => none

/-- Does a group start at a night of the lunation? Lines 295-300. -/
def hasGroup (window : Int) (minVisits : K) (minNights : Nat) (vl : List (NV K)) : Bool :=
  vl.any (fun n => decide (minNights ≤ (inWindow vl n.night window minVisits).length))

/-- `reduce_n_lunations`, lines 284-305. -/
def nLunations (window : Int) (minVisits : K) (minNights : Nat) (l : List (NV K)) : Option Nat :=
  (lunations l).map (fun ls => ls.countP (fun s => hasGroup window minVisits minNights (inLunation l s)))

/-- The loop over the nights of a lunation, lines 327-337; the state is
(`max_sequence`, `cur_sequence`). -/
def seqInner (window : Int) (minVisits : K) (minNights : Nat) (vl : List (NV K)) : List (NV K) → Nat × Nat → Nat × Nat
  | [], st => st
  | n :: rest, st =>
    if minNights ≤ (inWindow vl n.night window minVisits).length then (st.1, st.2 + 1)
    else seqInner window minVisits minNights vl rest (max st.1 st.2, 0)

/-- One lunation, lines 320-337. -/
def seqStep (window : Int) (minVisits : K) (minNights : Nat) (l : List (NV K)) (st : Nat × Nat) (start : Int) : Nat × Nat :=
  let vl := inLunation l start
  let st := if vl.length = 0 then (max st.1 st.2, 0) else st
  seqInner window minVisits minNights vl vl st

/-- `reduce_max_seq_lunations`, lines 307-341. -/
def maxSeqLunations (window : Int) (minVisits : K) (minNights : Nat) (l : List (NV K)) : Option Nat :=
  (lunations l).map (fun ls =>
    let st := ls.foldl (seqStep window minVisits minNights l) (0, 0)
    max st.1 st.2)

end Reduce

end Verif.Groups
