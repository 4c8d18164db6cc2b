import Mathlib.Data.List.Basic

/-!
# Model of `rubin_sim/maf/utils/output_utils.py`

Strings are lists of characters.
-/

namespace Verif.Names

/-- `s.replace(c, r)` for a single character `c`. -/
def repl (c : Char) (r : List Char) (s : List Char) : List Char := s.flatMap (fun x => if x = c then r else [x])

/-- The replacements of `name_sanitize`, lines 19-31, in order. -/
def subst (s : List Char) : List Char :=
  let s := repl '=' ['e', 'q'] (repl '<' ['l', 't'] (repl '>' ['g', 't'] s))
  let s := repl ',' [] (repl '.' ['_'] (repl ' ' ['_'] s))
  let s := repl '\\' ['_'] (repl '/' ['_'] s)
  let s := repl ')' [] (repl '(' [] s)
  let s := repl ';' ['_'] (repl ':' ['_'] s)
  repl '#' ['_'] (repl '%' ['_'] s)

/-- `"__" in s` -/
def hasDouble : List Char → Bool
  | c :: d :: r => (c == '_' && d == '_') || hasDouble (d :: r)
  | _ => false

/-- `s.replace("__", "_")`: non-overlapping occurrences, from the left. -/
def halve : List Char → List Char
  | c :: d :: r => if c = '_' ∧ d = '_' then '_' :: halve r else c :: halve (d :: r)
  | s => s

/-- The loop of lines 32-33, with a bound on the number of rounds; every round
shortens the string, so its length suffices. -/
def collapse : Nat → List Char → List Char
  | 0, s => s
  | fuel + 1, s => if hasDouble s then collapse fuel (halve s) else s

/-- `name_sanitize`, lines 4-34. -/
def sanitize (s : List Char) : List Char :=
  let s := subst s
  collapse s.length s

end Verif.Names
