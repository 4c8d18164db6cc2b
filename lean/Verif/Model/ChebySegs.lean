import Mathlib.Order.Defs.LinearOrder
import Mathlib.Order.Basic
import Mathlib.Algebra.Field.Defs

/-!
# Model of `rubin_sim/moving_objects/cheby_values.py` and the segment arithmetic of
`rubin_sim/moving_objects/cheby_fits.py`
-/

namespace Verif.Cheby

section Values
variable {O K D : Type*} [DecidableEq O] [LinearOrder K]

/-- A row of the coefficient table: object, time range, coefficients. -/
structure Seg (O K D : Type*) where
  obj : O
  ts : K
  te : K
  data : D
  deriving DecidableEq

/-- A cell of the result: the initial zero, NaN, or the evaluation of a segment at a
time (`_eval_segment`, 90-150, with `mask=False`). -/
inductive Cell (O K D : Type*)
  | zero
  | nan
  | val (s : Seg O K D) (t : K)
  deriving DecidableEq

/-- Smallest start and largest end of the matching segments; `none` for an empty
table, where numpy raises `ValueError`. -/
def minStart (tbl : List (Seg O K D)) : Option K := (tbl.map Seg.ts).min?
def maxEnd (tbl : List (Seg O K D)) : Option K := (tbl.map Seg.te).max?

/-- `cheby_values.py:199-220`: the fill value of the column and the segments used at
time `t`. -/
def pick (tbl : List (Seg O K D)) (extrapolate : Bool) (t : K) : Option (Cell O K D × List (Seg O K D)) :=
  let segs := tbl.filter (fun s => decide (s.ts ≤ t) && decide (t < s.te))
  if segs ≠ [] then some (.zero, segs)
  else
    match minStart tbl, maxEnd tbl with
    | some a, some b =>
      if t < a ∨ b < t then
        if extrapolate then
          let s1 := if t < a then tbl.filter (fun s => decide (s.ts = a)) else []
          let s2 := if b < t then tbl.filter (fun s => decide (s.te = b)) else s1
          some (.zero, s2)
        else some (.nan, [])
      else if b = t then some (.zero, tbl.filter (fun s => decide (s.te = b)))
      else some (.zero, [])
    | _, _ => none

inductive EphErr
  | emptyTable
  | indexError
  | mismatch
  deriving DecidableEq

/-- Lines 221-225: fill one column and overwrite the labels. -/
def fillCol (ids : List O) (base : Cell O K D) (segs : List (Seg O K D)) (t : K) :
    Option (List O × List (Cell O K D)) :=
  if ids.length < segs.length then none
  else some (segs.map Seg.obj ++ ids.drop segs.length,
    segs.map (fun s => Cell.val s t) ++ List.replicate (ids.length - segs.length) base)

/-- The loop over times, lines 198-225: final labels and one column per time. -/
def ephLoop (tbl : List (Seg O K D)) (extrapolate : Bool) :
    List O → List K → Except EphErr (List O × List (List (Cell O K D)))
  | ids, [] => .ok (ids, [])
  | ids, t :: ts =>
    match pick tbl extrapolate t with
    | none => .error .emptyTable
    | some (base, segs) =>
      match fillCol ids base segs t with
      | none => .error .indexError
      | some (ids', col) =>
        match ephLoop tbl extrapolate ids' ts with
        | .ok (ids'', cols) => .ok (ids'', col :: cols)
        | .error e => .error e

/-- Result of a call: labels and columns, and the caller's `obj_ids` afterwards. -/
structure EphResult (O K D : Type*) where
  ids : List O
  cols : List (List (Cell O K D))
  callerIds : List O

/-- `get_ephemerides` with `obj_ids` given as an array, lines 155-231. The result
array `ephemerides["obj_id"]` is the caller's array, so the comparison at the end
sees the overwritten labels on both sides. -/
def getEphemerides (coeffs : List (Seg O K D)) (objIds : List O) (times : List K) (extrapolate : Bool) :
    Except EphErr (EphResult O K D) :=
  let tbl := coeffs.filter (fun s => decide (s.obj ∈ objIds))
  match ephLoop tbl extrapolate objIds times with
  | .error e => .error e
  | .ok (ids, cols) =>
    let caller := ids
    if (ids.all (fun o => decide (o ∈ caller)) && caller.all (fun o => decide (o ∈ ids))) = true then
      .ok ⟨ids, cols, caller⟩
    else .error .mismatch

/-- `get_ephemerides` without `obj_ids`; `uniq` is `np.unique` of the object column. -/
def getEphemeridesAll (uniq : List O → List O) (coeffs : List (Seg O K D)) (times : List K) (extrapolate : Bool) :
    Except EphErr (List O × List (List (Cell O K D))) :=
  ephLoop coeffs extrapolate (uniq (coeffs.map Seg.obj)) times

end Values

section Segments

/-- The loop of `calc_segments`, `cheby_fits.py:465-485`, for one object, in units of
the last decimal: `j` segments are done, `L` is the segment length, `P` the time span,
`g` the granularity. The first four-fold inequality is
`t_segment_start < t_end - eps` with `eps = L/(4g)`. Each segment is given by the first
and last index of the grid times `t_start + k L/g`, `k ≤ K` it uses
(`t_segment_start ≤ time < t_segment_end + eps`); these are the recorded ends
(`calc_one_segment`, 491-508). -/
def segLoop (L P g K : Nat) : Nat → Nat → List (Nat × Nat)
  | 0, _ => []
  | fuel + 1, j =>
    if 4 * g * (j * L) + L < 4 * g * P then (j * g, min ((j + 1) * g) K) :: segLoop L P g K fuel (j + 1)
    else []

/-- `make_all_times`, 222-240: the last index `k` with `k L/g < P + L/(2g)`. -/
def lastIndex (L P g : Nat) : Nat := (2 * g * P + L - 1) / (2 * L)

/-- `calc_segments` for one object. `P` iterations suffice for positive lengths. -/
def calcSegments (L P g : Nat) : List (Nat × Nat) := segLoop L P g (lastIndex L P g) P 0

inductive RoundErr
  | zeroDivision
  | noLength
  deriving DecidableEq

/-- The loop of `_round_length`, 276-285, with `fuel` iterations left; `rnd P f` is
`round(P/f)` in units of the last decimal. -/
def roundLoop (rnd : Nat → Nat → Nat) (P : Nat) : Nat → Nat → Nat → Except RoundErr Nat
  | 0, _, len => .ok len
  | fuel + 1, prev, len =>
    if len = 0 then .error .zeroDivision
    else if P % len > 10 then
      let f := P / len + 1
      let f := if f = prev then prev + 1 else f
      roundLoop rnd P fuel f (rnd P f)
    else .ok len

/-- `_round_length`, 259-295. The tolerance `10 ** -(n_decimal - 1)` is ten units. -/
def roundLength (rnd : Nat → Nat → Nat) (P len : Nat) : Except RoundErr Nat :=
  match roundLoop rnd P 20 0 len with
  | .error e => .error e
  | .ok len =>
    if len = 0 then .error .zeroDivision
    else if P % len > 10 then .error .noLength
    else .ok len

end Segments

section Wrap
variable {K : Type*} [Field K] [LinearOrder K]

/-- `three_sixty_to_neg`, `cheby_fits.py:13-17`; empty arrays raise in numpy. -/
def threeSixtyToNeg (ra : List K) : List K :=
  match ra.min?, ra.max? with
  | some lo, some hi =>
    if lo < 100 ∧ 270 < hi then ra.map (fun r => if 270 < r then r - 360 else r) else ra
  | _, _ => ra

end Wrap

end Verif.Cheby
