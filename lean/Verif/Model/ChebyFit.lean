import Mathlib.Algebra.Order.Floor.Ring
import Mathlib.Algebra.Order.Field.Basic
import Verif.Model.ChebySegs

/-!
# Fits of Chebyshev polynomials to the track of an object

Model of `rubin_sim/moving_objects/cheby_fits.py`: the search for the length of segments (`calc_segment_length`,
311-392), the fit of one segment with its subdivision (`calc_one_segment`, 487-538, `_subdivide_segment`, 540-585), and
the files (`write`, 587-689).

Times are numbers of units of the last decimal. What is a parameter: the residual of the position for a segment (pure
mathematics, `_get_coeffs_position`), the residuals of the other quantities, `none` if one is not a number
(`_get_coeffs_other`), the rounding of half a length, and that of a quotient (`rnd`, as in `roundLength` of
`Verif.Model.ChebySegs`, where the loop of `_round_length` is modelled). For the residual of a test length there is one
object, as in a subdivision. The ends of segments are exact (what the grid of times does to them is C36).
-/

namespace Verif.ChebyFit

open Verif.Cheby

/-- What is raised; `attributeError` is that of `as_matrix`, which series of pandas do not have since version 1.0. -/
inductive FErr
  | valueError
  | attributeError
  | zeroDivision
  | recursion
deriving DecidableEq

section Guess
variable {K : Type*} [Field K] [LinearOrder K] [FloorRing K]

/-- The first length in days, `cheby_fits.py:353-365`; `np.round` is the parameter `rnd`, any
rounding to whole numbers. `int` of a positive number is its floor. -/
def guess (rnd : K → ℤ) (tol : K) : K :=
  if tol < 5 then 2
  else if 5000 ≤ tol then min 60 ((⌊((rnd (5000 / 20 * (tol - 5000)) : K) + 5) * 10⌋ : K) / 10)
  else 4

end Guess

section Length
variable {K : Type*} [LinearOrder K]

/-- The errors of `_round_length`, 263-286: the list of failures is filled (279) before the `ValueError` (281). -/
def roundErr (pandas1 : Bool) : RoundErr → FErr
  | .zeroDivision => .zeroDivision
  | .noLength => if pandas1 then .attributeError else .valueError

def roundFit (pandas1 : Bool) (rnd : Nat → Nat → Nat) (span len : Nat) : Except FErr Nat :=
  (roundLength rnd span len).mapError (roundErr pandas1)

/-- The loop of `calc_segment_length`, `cheby_fits.py:376-380`; the first number is `max_iterations + 1 - counter`. The
result has it after the loop. -/
def search (round : Nat → Except FErr Nat) (half : Nat → Nat) (resid : Nat → K) (tol : K) :
    Nat → Nat → Except FErr (Nat × Nat)
  | 0, len => .ok (0, len)
  | n + 1, len =>
    if tol < resid len ∧ 0 < len then
      match round (half len) with
      | .error e => .error e
      | .ok l => search round half resid tol n l
    else .ok (n + 1, len)

/-- After the loop, `cheby_fits.py:381-392`. -/
def finish (pandas1 : Bool) : Except FErr (Nat × Nat) → Except FErr Nat
  | .error e => .error e
  | .ok (left, len) =>
    if left = 0 ∨ len = 0 then .error (if pandas1 then .attributeError else .valueError) else .ok len

/-- `calc_segment_length` without an argument, from the first guess, `cheby_fits.py:370-392`. -/
def calcLength (pandas1 : Bool) (round : Nat → Except FErr Nat) (half : Nat → Nat) (resid : Nat → K) (tol : K)
    (start : Nat) : Except FErr Nat :=
  match round start with
  | .error e => .error e
  | .ok l => finish pandas1 (search round half resid tol 51 l)

/-- `calc_segment_length` with an argument, `cheby_fits.py:328-337`: the length, and if there is a warning. -/
def givenLength (round : Nat → Except FErr Nat) (resid : Nat → K) (tol : K) (len : Nat) : Except FErr (Nat × Bool) :=
  match round len with
  | .error e => .error e
  | .ok l => .ok (l, decide (tol < resid l))

end Length

section Fit
variable {K : Type*} [LinearOrder K]

/-- A row of `self.resids`. -/
structure Res (K : Type*) where
  s : Nat
  e : Nat
  pos : K
  geo : K
  vmag : K
  elong : K
deriving DecidableEq

/-- The residuals of `_get_coeffs_other`. -/
structure Other (K : Type*) where
  geo : K
  vmag : K
  elong : K
deriving DecidableEq

/-- What a fit has recorded for an object: segments with coefficients, residuals, and failures, where the first part is
true if the failure has the name of the object (383) and false if it has the whole column of names (520). -/
structure Out (K : Type*) where
  segs : List (Nat × Nat)
  res : List (Res K)
  failed : List (Bool × Nat × Nat)
deriving DecidableEq

/-- Values of a subdivided segment are added, `cheby_fits.py:581-585`. -/
def Out.add (a b : Out K) : Out K := ⟨a.segs ++ b.segs, a.res ++ b.res, a.failed ++ b.failed⟩

/-- What a fit is made of. -/
structure Setup (K : Type*) where
  pandas1 : Bool
  rnd : Nat → Nat → Nat
  half : Nat → Nat
  start : Nat
  tol : K
  pos : Nat → Nat → K
  other : Nat → Nat → Option (Other K)

/-- The segments of a span, `cheby_fits.py:475-485`. -/
def splitLoop (len e : Nat) : Nat → Nat → List (Nat × Nat)
  | 0, _ => []
  | f + 1, s => if s < e then (s, min (s + len) e) :: splitLoop len e f (s + len) else []

def split (s e len : Nat) : List (Nat × Nat) := splitLoop len e (e - s) s

/-- `calc_one_segment`, `cheby_fits.py:503-538`; `sub` is `_subdivide_segment`. The residual of `vmag` is that of
`geo_dist` (537). -/
def oneSegment (c : Setup K) (sub : Nat → Nat → Except FErr (Out K)) (s e : Nat) : Except FErr (Out K) :=
  if c.tol < c.pos s e then sub s e
  else match c.other s e with
    | none => .ok ⟨[], [], [(false, s, e)]⟩
    | some r => .ok ⟨[(s, e)], [⟨s, e, c.pos s e, r.geo, r.geo, r.elong⟩], []⟩

/-- The loop of `calc_segments`, `cheby_fits.py:478-485`, for one object. -/
def runSegs (c : Setup K) (sub : Nat → Nat → Except FErr (Out K)) : List (Nat × Nat) → Except FErr (Out K)
  | [] => .ok ⟨[], [], []⟩
  | (s, e) :: l =>
    match oneSegment c sub s e with
    | .error x => .error x
    | .ok a => match runSegs c sub l with
      | .error x => .error x
      | .ok b => .ok (a.add b)

/-- The length for a subdivision. -/
def subLength (c : Setup K) (s e : Nat) : Except FErr Nat :=
  calcLength c.pandas1 (roundFit c.pandas1 c.rnd (e - s)) c.half (fun l => c.pos s (s + l)) c.tol c.start

/-- `_subdivide_segment`, `cheby_fits.py:551-585`, with a depth of recursion; only `ValueError` is caught (568). -/
def subdivide (c : Setup K) : Nat → Nat → Nat → Except FErr (Out K)
  | 0, _, _ => .error .recursion
  | n + 1, s, e =>
    match subLength c s e with
    | .error .valueError => .ok ⟨[], [], [(true, s, e)]⟩
    | .error x => .error x
    | .ok len => runSegs c (subdivide c n) (split s e len)

/-- `calc_segments` for one object and a length that is set. -/
def calcSegs (c : Setup K) (depth s e len : Nat) : Except FErr (Out K) := runSegs c (subdivide c depth) (split s e len)

end Fit

section Write

/-- The check of modes by `open`: exactly one of create, read, write and append. -/
def modeOk (mode : List Char) : Bool := mode.countP (fun c => decide (c ∈ ['x', 'r', 'w', 'a'])) == 1

/-- `write`, `cheby_fits.py:607-689`: the lines of the three files after the call, from those of failures before (`none`: no file);
`none` as a whole is the `ValueError` of `open`. -/
def write {L : Type*} (append : Bool) (header resHeader : L) (coeffs resids failed : List L)
    (old : Option (List L)) :
    Option (List L × List L × Option (List L)) :=
  let mode := if append then ['a', 'w'] else ['w']
  if modeOk mode then
    some (header :: coeffs, resHeader :: resids, if failed.length > 0 then some failed else old)
  else none

end Write

end Verif.ChebyFit
