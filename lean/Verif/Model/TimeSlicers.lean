import Verif.Model.OneDSlicer
import Mathlib.Data.List.Dedup

/-!
# Time interval slicers, `UniSlicer`, and slicer iteration

Models `rubin_sim/maf/slicers/time_interval_slicers.py`,
`rubin_sim/maf/slicers/uni_slicer.py`, and the iterator protocol of
`rubin_sim/maf/slicers/base_slicer.py` (also used by
`healpix_subset_slicer.py` and `mo_slicer.py`).
-/

namespace Verif.Slicers
open Verif.Np

section TimeInterval
variable {K : Type*} [Field K] [LinearOrder K] [IsStrictOrderedRing K] [FloorRing K] {n : Nat}

/-- `np.digitize(x, edges)` for increasing `edges`: the number of edges `≤ x`. -/
def digitize (x : K) (edges : List K) : Nat :=
  (edges.filter (fun e => decide (e ≤ x))).length

/-- What `_slice_sim_data` may return as `idxs`
(`time_interval_slicers.py:96-99`): a list of rows, or, when the list was empty,
that empty list wrapped in another list. -/
inductive Idxs (n : Nat)
  | flat (rows : List (Fin n))
  | nested (rows : List (List (Fin n)))
  deriving DecidableEq

/-- `len(sim_data[idxs])` as tested by the bundle runner: the length of the
outermost dimension of the index. -/
def Idxs.outerLen : Idxs n → Nat
  | .flat r => r.length
  | .nested r => r.length

/-- The rows selected, at any depth. -/
def Idxs.rows : Idxs n → List (Fin n)
  | .flat r => r
  | .nested r => r.flatten

/-- State of a `TimeIntervalSlicer` after `setup_slicer`: the slice point times
and the groups `sid ↦ rows` (a `defaultdict(list)`). -/
structure TimeState (K : Type*) (n : Nat) where
  mjds : List K
  sid : Fin n → Nat

/-- `time_interval_slicers.py:64-90`: `TimeIntervalSlicer.setup_slicer`, with
`d = interval_seconds / 86400 > 0`. The minimum and maximum of an empty column
raise (`none`). -/
def timeSetup (d : K) (vals : Fin n → K) : Option (TimeState K n) :=
  match (column vals).min?, (column vals).max? with
  | some lo, some hi =>
    let start : K := (⌊lo⌋ : ℤ)
    let stop : K := (⌈hi⌉ : ℤ)
    let edges := arange start (stop + d) d
    some { mjds := arange start stop d, sid := fun j => digitize (vals j) edges }
  | _, _ => none

/-- `self.sim_idxs[islice]`: the rows with that group number, in row order, `[]`
if there is no such group. -/
def TimeState.group (st : TimeState K n) (i : Nat) : List (Fin n) :=
  (List.finRange n).filter (fun j => decide (st.sid j = i))

/-- `time_interval_slicers.py:92-107`: the indices and the slice point time of
slice `islice`. The slice point duration is the interval. -/
def TimeState.slice (st : TimeState K n) (i : Nat) : Option (Idxs n × K) :=
  st.mjds[i]?.map (fun t =>
    (match st.group i with
     | [] => .nested [[]]
     | r => .flat r, t))

end TimeInterval

section Block
variable {K : Type*} [Field K] [LinearOrder K] [IsStrictOrderedRing K]

/-- The columns `BlockIntervalSlicer` uses. Times in days; `endMjd` is
`mjd + duration/86400` (`time_interval_slicers.py:180`). -/
structure BlockVisit (K : Type*) where
  mjd : K
  endMjd : K
  note : String

/-- `time_interval_slicers.py:182-184`: whether a new block starts after visit
`a` when `b` follows it. `tol` is `gap_tolerance / 24`. Missing notes (`None`,
which pandas never considers equal) are not modelled. -/
def blockBreak (tol : K) (a b : BlockVisit K) : Bool :=
  !(decide (a.note = b.note) && decide (a.endMjd + tol > b.mjd))

/-- The column `not (same_note and adjacent_times)`; after the last visit the
shifted values are missing and the comparison is false, giving `True`. -/
def breaks (tol : K) : List (BlockVisit K) → List Bool
  | [] => []
  | [_] => [true]
  | a :: b :: l => blockBreak tol a b :: breaks tol (b :: l)

/-- `Series.cumsum()` of a boolean column, from a starting value. -/
def cumsum (acc : Nat) : List Bool → List Nat
  | [] => []
  | b :: bs => (acc + b.toNat) :: cumsum (acc + b.toNat) bs

/-- `time_interval_slicers.py:184-186`: `cumsum().shift()` with the first entry
filled by 0: the block numbers of the time-sorted visits. -/
def blockSids (tol : K) (l : List (BlockVisit K)) : List Nat :=
  (0 :: cumsum 0 (breaks tol l)).take l.length

variable {n : Nat}

/-- The time-sorted visits paired with their block number. -/
def blockRows (tol : K) (vis : Fin n → BlockVisit K) (p : List (Fin n)) : List (Nat × Fin n) :=
  (blockSids tol (p.map vis)).zip p

/-- `time_interval_slicers.py:194`: `nslice = len(blocks)`, the number of
distinct block numbers. -/
def blockNslice (tol : K) (vis : Fin n → BlockVisit K) (p : List (Fin n)) : Nat :=
  (blockSids tol (p.map vis)).dedup.length

/-- `time_interval_slicers.py:196-214`: rows of block `islice`. -/
def blockSlice (tol : K) (vis : Fin n → BlockVisit K) (p : List (Fin n)) (i : Nat) : List (Fin n) :=
  ((blockRows tol vis p).filter (fun x => decide (x.1 = i))).map Prod.snd

end Block

section Visit
variable {α β : Type*} {n : Nat}

/-- `time_interval_slicers.py:255-280`: slice `islice` of a
`VisitIntervalSlicer`: the row from the sorted index list, the slice point time
and duration from the *unsorted* columns. -/
def visitSlice (mjd : Fin n → α) (dur : Fin n → β) (p : List (Fin n)) (i : Nat) :
    Option (Fin n × α × β) :=
  if h : i < n then p[i]?.map (fun row => (row, mjd ⟨i, h⟩, dur ⟨i, h⟩)) else none

/-- `uni_slicer.py:30-53`: the boolean index of the only slice. -/
def uniIndices (n : Nat) : List Bool := List.replicate n true

end Visit

section Iteration

/-- The two calls of the iterator protocol. -/
inductive IterOp
  | iter
  | next

/-- Result of `next()`. -/
inductive IterOut
  /-- `self._slice_sim_data(islice)` is returned -/
  | slice (islice : Nat)
  | stopIteration
  /-- `next()` before any `iter()`: the counter attribute does not exist -/
  | attributeError
  deriving DecidableEq

/-- `base_slicer.py:119-136` (and `healpix_subset_slicer.py:215-236` with
`nslice = len(hpid)`, `mo_slicer.py:150-161` with `nslice = nSso`): one call. The
state is the counter `self.islice`. -/
def iterStep (nslice : Nat) (st : Option Nat) : IterOp → Option Nat × Option IterOut
  | .iter => (some 0, none)
  | .next =>
    match st with
    | none => (none, some .attributeError)
    | some i =>
      if i ≥ nslice then (some i, some .stopIteration)
      else (some (i + 1), some (.slice i))

/-- A history of calls, returning the outputs of the `next` calls in order. -/
def iterRun (nslice : Nat) : Option Nat → List IterOp → Option Nat × List IterOut
  | st, [] => (st, [])
  | st, op :: ops =>
    let (st', o) := iterStep nslice st op
    let (st'', os) := iterRun nslice st' ops
    (st'', o.toList ++ os)

end Iteration

end Verif.Slicers
