import Mathlib.Analysis.SpecialFunctions.Log.Base
import Mathlib.Algebra.Order.Floor.Ring

/-!
# Model of the reading of simulations and of benchmarks

`rubin_sim/maf/utils/opsim_utils.py`. The database answers a query, a string, with a list of rows; strings are lists of characters. -/

namespace Verif.Opsim

abbrev Str := List Char

/-- What `get_sim_data` is given: a string (whether it is a file, with the tables in it, and whether it has a scheme as in a
URL), a connection to sqlite, or another object. -/
inductive Con
  | str (isFile : Bool) (tables : List Str) (scheme : Bool)
  | sqlite
  | other
  deriving DecidableEq

/-- `", ".join(cols)` -/
def joinCols : List Str → Str
  | [] => []
  | [c] => c
  | c :: cs => c ++ ',' :: ' ' :: joinCols cs

/-- The table, `opsim_utils.py:62-80`, when neither it nor the full query is given. -/
def guess : Con → Except String Str
  | .str _ tables _ =>
    if "observations".toList ∈ tables then .ok "observations".toList
    else if "SummaryAllProps".toList ∈ tables then .ok "SummaryAllProps".toList
    else if "summary".toList ∈ tables then .ok "summary".toList
    else .error "ValueError"
  | _ => .ok "observations".toList

/-- Line 83 of `opsim_utils.py`. -/
def colStr : Option (List Str) → Str
  | none => ['*']
  | some cs => joinCols cs

/-- The query, `opsim_utils.py:82-88`. -/
def mkQuery (cols : Option (List Str)) (table constraint : Str) : Str :=
  "SELECT ".toList ++ colStr cols ++ " FROM ".toList ++ table ++
    (if 0 < constraint.length then " WHERE ".toList ++ constraint else []) ++ [';']

/-- The query that is run: the full one if given, else one for the table given or guessed. -/
def theQuery (con : Con) (constraint : Str) (cols : Option (List Str)) (table full : Option Str) : Except String Str :=
  match full with
  | some q => .ok q
  | none => match table with
    | some t => .ok (mkQuery cols t constraint)
    | none => (guess con).map (fun t => mkQuery cols t constraint)

/-- `get_sim_data`, `opsim_utils.py:18-118`; `exec` is the answer of the database, `resources` whether `lsst.resources` is installed. -/
def getSimData {D : Type} (exec : Str → List D) (resources : Bool) (con : Con) (constraint : Option Str) (cols : Option (List Str))
    (stackers : List (List D → List D)) (table full : Option Str) : Except String (List D) :=
  let constraint := constraint.getD []
  match con with
  | .str false _ _ => .error "FileNotFoundError"
  | _ =>
    match theQuery con constraint cols table full with
    | .error e => .error e
    | .ok q =>
      let read : Except String (List D) := match con with
        | .sqlite => .ok (exec q)
        | .str true _ _ => .ok (exec q)
        | .str false _ scheme => if scheme then (if resources then .ok (exec q) else .error "RuntimeError") else .error "RuntimeError"
        | .other => if resources then .ok (exec q) else .error "RuntimeError"
      match read with
      | .error e => .error e
      | .ok rows => if rows = [] then .error "UserWarning" else .ok (stackers.foldl (fun d s => s d) rows)

/-! ## Benchmarks -/

/-- Visits by filter, line 152 and 153 of `opsim_utils.py`. -/
def designVisits : List (Char × ℕ) := [('u', 56), ('g', 80), ('r', 184), ('i', 184), ('z', 160), ('y', 160)]
def stretchVisits : List (Char × ℕ) := [('u', 70), ('g', 100), ('r', 230), ('i', 230), ('z', 200), ('y', 200)]

/-- `scale_benchmarks`, `opsim_utils.py:219-233`: total visits and visits by filter. -/
def benchmarks {K : Type} [Field K] [LinearOrder K] [FloorRing K] (runLength : K) (benchmark : String) : Except String (ℤ × List (Char × ℤ)) :=
  let scale := fun (l : List (Char × ℕ)) => l.map (fun e => (e.1, if runLength ≠ 10 then ⌊(e.2 : K) * (runLength / 10)⌋ else (e.2 : ℤ)))
  if benchmark = "design" then .ok (825, scale designVisits)
  else if benchmark = "stretch" then .ok (1000, scale stretchVisits)
  else .error "ValueError"

/-- One filter of `calc_coadded_depth`, `opsim_utils.py:256-258`; the logarithm is not finite for no visits or fewer. -/
noncomputable def depth (n m : ℝ) : ℝ := if 0 < n then 1.25 * Real.logb 10 (n * (10 : ℝ) ^ (0.8 * m)) else m

/-- `calc_coadded_depth`, `opsim_utils.py:236-259`. -/
noncomputable def coaddedDepth : List (Char × ℝ) → List (Char × ℝ) → Except String (List (Char × ℝ))
  | [], _ => .ok []
  | (f, n) :: rest, single => match single.lookup f with
    | none => .error "ValueError"
    | some m => (coaddedDepth rest single).map ((f, depth n m) :: ·)

end Verif.Opsim
