import Mathlib.Data.List.Basic
import Mathlib.Data.Nat.Init

/-!
# Model of the batches

`rubin_sim/maf/batches/common.py`, `time_batch.py`, `glance_batch.py`, `hourglass_batch.py`, `visitdepth_batch.py`: conditions, names and
captions. Conditions of SQL are lists of tokens, whose atoms are the tests they stand for; the text between the tokens is
not modelled. -/

namespace Verif.Batches

abbrev Str := List Char

/-- Tokens of a condition on rows `R`. -/
inductive Tok (R : Type)
  | lp | rp | and | or | not
  | atom (p : R → Bool)

/-! ## Conditions -/

section
variable {R : Type}

/-- `"(%s) and (%s)"`, as in `common.py:85`, `skycoverage.py:121`, `hourglass_batch.py:61`, `metadata_batch.py:536`. -/
def both (a b : List (Tok R)) : List (Tok R) := [.lp] ++ a ++ [.rp, .and, .lp] ++ b ++ [.rp]

/-- The bands of `filter_list`; `none` is "all". -/
def bandList (all : Bool) : List (Option Char) :=
  (if all then [none] else []) ++ ['u', 'g', 'r', 'i', 'z', 'y'].map some

/-- `sqls` of `filter_list`, `common.py:64-86`; no condition is the empty list. -/
def bandSql (bandOf : R → Char) (extra : Option (List (Tok R))) (b : Option Char) : List (Tok R) :=
  let own : List (Tok R) := match b with
    | none => []
    | some c => [.atom (fun r => bandOf r == c)]
  match extra with
  | none => own
  | some e => if e.isEmpty then own else match b with
    | none => e
    | some _ => both e own

/-- Subsets of adjacent bands, `time_batch.py:215-229`. -/
def subsetSql (bandOf : R → Char) (extra : Option (List (Tok R))) (a b : Char) : List (Tok R) :=
  let own : List (Tok R) := [.lp, .atom (fun r => bandOf r == a), .or, .atom (fun r => bandOf r == b), .rp]
  match extra with
  | none => own
  | some e => if e.isEmpty then own else e ++ [.and] ++ own

/-- `sql_per_filt`, `glance_batch.py:67-79`. -/
def glanceSql (bandOf : R → Char) (extra : Option (List (Tok R))) (b : Char) : List (Tok R) :=
  (match extra with | none => [] | some e => [.lp] ++ e ++ [.rp, .and]) ++ [.atom (fun r => bandOf r == b)]

end

/-- `365.25 * year` as an integer, `hourglass_batch.py:56-59`. -/
def yearEnd (year : ℕ) : ℕ := 1461 * year / 4

/-- The nights of a year of the hourglass, `hourglass_batch.py:56-59`. -/
def inYear (year night : ℕ) : Bool := decide (yearEnd (year - 1) < night ∧ night ≤ yearEnd year)

/-- The nights up to a year for weak lensing, `science_radar_batch.py:686-689`. -/
def beforeYear (year night : ℕ) : Bool := decide (night < yearEnd year)

/-! ## Names and captions -/

/-- `combine_info_labels`, `common.py:20-29`. -/
def combine : Option Str → Option Str → Option Str
  | some a, some b => some (a ++ ' ' :: b)
  | some a, none => some a
  | none, some b => some b
  | none, none => none

/-- `s.rstrip(chars)` -/
def rstrip (s chars : Str) : Str := (s.reverse.dropWhile (fun c => decide (c ∈ chars))).reverse

/-- Names of metrics with the column left out, `common.py:178`, also lines 216 and 251. -/
def shortName (name col : Str) : Str := rstrip name (' ' :: col)

/-- `fraction_population_at_threshold`, `common.py:331-341`: threshold and name of each. -/
def fractions {T : Type} (sh : T → Str) : List T → Option (List Str) → Except String (List (T × Str))
  | [], _ => .ok []
  | t :: ts, none => (fractions sh ts none).map ((t, "FractionPop ".toList ++ sh t) :: ·)
  | _ :: _, some [] => .error "IndexError"
  | t :: ts, some (o :: os) => (fractions sh ts (some os)).map ((t, "FractionPop ".toList ++ o) :: ·)

/-- Captions of the loop over filters, `time_batch.py:193-214`: the caption is added to. -/
def captions : Str → List Str → List Str
  | _, [] => []
  | cap, l :: ls =>
    let cap := cap ++ (if l = [] then ", all visits.".toList else ", ".toList ++ l ++ ['.'])
    cap :: captions cap ls

/-- The label of `nvisitsPerSubset`, line 420 of `visitdepth_batch.py`, without a footprint: `None += str` is an exception. -/
def subsetLabel (label constraint : Option Str) : Except String (Option Str) :=
  if label = none ∧ constraint ≠ none then .error "TypeError" else .ok label

end Verif.Batches
