import Mathlib.Algebra.Order.Field.Basic
import Mathlib.Data.List.Basic
import Mathlib.Data.Rat.Defs
import Mathlib.Algebra.Order.Ring.Rat

/-!
# Orbits of moving objects, `rubin_sim/moving_objects/orbits.py`

A data frame is its number of rows, the three columns that are not numbers (`FORMAT`, `obj_id` and
`sed_filename`), and a list of named columns of numbers. Object ids are integers. The index of the
frame is always `0, 1, ...`, and there is no NaN. Warnings are not modelled.
-/

namespace Verif.Orbits

/-- A `pandas` data frame of orbits. -/
structure Frame (K : Type) where
  n : ℕ
  fmt : Option (List String) := none
  ids : Option (List ℤ) := none
  sed : Option (List String) := none
  num : List (String × List K) := []
  deriving DecidableEq

/-- Exceptions that are raised. -/
inductive Err
  | value
  | key
  | type
  | index
  deriving DecidableEq

/-- An `Orbits` object, `orbits.py:19-21`; `rng` is the seed of the attribute `_rng` and how many
numbers were drawn from it. -/
structure Obj (K : Type) where
  orbits : Option (Frame K) := none
  fmt : Option String := none
  rng : Option (ℕ × ℕ) := none
  deriving DecidableEq

namespace Frame

variable {K : Type}

/-- A column of numbers. -/
def col (f : Frame K) (c : String) : Option (List K) := f.num.lookup c

/-- `c in orbits`. -/
def has (f : Frame K) (c : String) : Bool :=
  if c = "FORMAT" then f.fmt.isSome
  else if c = "obj_id" then f.ids.isSome
  else if c = "sed_filename" then f.sed.isSome
  else (f.col c).isSome

/-- `del orbits[c]` for a column of numbers. -/
def del (f : Frame K) (c : String) : Frame K := { f with num := f.num.filter fun p => p.1 ≠ c }

/-- `orbits.assign(c=x)` for a new column with one value. -/
def fill (f : Frame K) (c : String) (x : K) : Frame K :=
  if f.has c then f else { f with num := f.num ++ [(c, List.replicate f.n x)] }

/-- `orbits.iloc[i]`, as a frame of one row. -/
def row (f : Frame K) (i : ℕ) : Frame K where
  n := 1
  fmt := f.fmt.map fun l => (l.drop i).take 1
  ids := f.ids.map fun l => (l.drop i).take 1
  sed := f.sed.map fun l => (l.drop i).take 1
  num := f.num.map fun p => (p.1, (p.2.drop i).take 1)

end Frame

/-- `data_cols`, `orbits.py:25-63`. -/
def dataCols (fmt : String) : Option (List String) :=
  if fmt = "COM" then
    some ["obj_id", "q", "e", "inc", "Omega", "argPeri", "tPeri", "epoch", "H", "g", "sed_filename"]
  else if fmt = "KEP" then
    some ["obj_id", "a", "e", "inc", "Omega", "argPeri", "meanAnomaly", "epoch", "H", "g",
      "sed_filename"]
  else if fmt = "CAR" then
    some ["obj_id", "x", "y", "z", "xdot", "ydot", "zdot", "epoch", "H", "g", "sed_filename"]
  else none

/-- What is known of the format after its column was read: the new `orb_format`, the frame that is
left, and the exception if one is raised. -/
structure Fmt (K : Type) where
  fmt : Option String
  frame : Frame K
  err : Option Err

/-- Whether the column that belongs to a stated format is missing, `orbits.py:153-161`. -/
def lacks {K : Type} (fmt : String) (f : Frame K) : Bool :=
  (fmt = "COM" && !f.has "q") || (fmt = "KEP" && !f.has "a") || (fmt = "CAR" && !f.has "x")

/-- The format from the columns, `orbits.py:162-175`. -/
def guess {K : Type} (f : Frame K) : Option String :=
  if f.has "q" then some "COM" else if f.has "a" then some "KEP"
  else if f.has "x" then some "CAR" else none

/-- The format of the orbits, `orbits.py:142-175`. -/
def readFormat {K : Type} (f : Frame K) : Fmt K :=
  match f.fmt with
  | some [] | none =>
    match guess f with
    | some s => ⟨some s, f, none⟩
    | none => ⟨none, f, some .value⟩
  | some (s :: rest) =>
    if rest.all (· = s) then
      let s' := if s = "CART" then "CAR" else s
      let f' := { f with fmt := none }
      if lacks s' f' then ⟨some s', f', some .value⟩ else ⟨some s', f', none⟩
    else ⟨none, f, some .value⟩

section Set

variable {K : Type} [Field K] [LinearOrder K]

/-- `chance <= prob_c`, `orbits.py:257-260`. -/
def sedOf (chance a : K) : String := if chance ≤ 1 / 2 * a - 1 then "C.dat" else "S.dat"

/-- The same from the perihelion distance and the eccentricity, where `a` is `q / (1 - e)`; with
`e = 1` this is infinite, `orbits.py:244`. -/
def sedOfQ (chance q e : K) : String :=
  if e = 1 then (if 0 < q then "C.dat" else "S.dat") else sedOf chance (q / (1 - e))

/-- The generator used by `assign_sed`, `orbits.py:251-255`. -/
def generator (o : Obj K) (seed : Option ℕ) : ℕ × ℕ := o.rng.getD (seed.getD 42, 0)

/-- `assign_sed`, `orbits.py:241-261`: the names, or an exception. `stream seed k` is number `k` of
the random numbers with that seed; `norm x y z` is the length of a vector. -/
def assignSed (stream : ℕ → ℕ → K) (norm : K → K → K → K) (o : Obj K) (f : Frame K)
    (seed : Option ℕ) : Except Err (List String × (ℕ × ℕ)) :=
  let g := generator o seed
  let chance := (List.range f.n).map fun k => stream g.1 (g.2 + k)
  let g' := (g.1, g.2 + f.n)
  if f.has "a" then
    .ok (List.zipWith sedOf chance ((f.col "a").getD []), g')
  else if f.has "q" then
    match f.col "e" with
    | none => .error .key
    | some e =>
      .ok (List.zipWith (fun c p => sedOfQ c p.1 p.2) chance (((f.col "q").getD []).zip e), g')
  else if f.has "x" then
    match f.col "y", f.col "z" with
    | some y, some z =>
      .ok (List.zipWith (fun c p => sedOf c (norm p.1 p.2.1 p.2.2)) chance
        (((f.col "x").getD []).zip (y.zip z)), g')
    | _, _ => .error .key
  else .error .value

/-- What a call of a method leaves: the object, the frame of the caller, and the exception. -/
structure Out (K : Type) where
  obj : Obj K
  frame : Frame K
  err : Option Err

/-- The ids, `orbits.py:193-195`. -/
def fillIds (f : Frame K) : Frame K :=
  { f with ids := some (f.ids.getD ((List.range f.n).map Int.ofNat)) }

/-- Whether the epoch is odd; only the first row is looked at, `orbits.py:179-184`. -/
def oddEpoch (ep : List K) : Bool :=
  match ep with
  | [] => false
  | t :: _ => decide (t < -21503) || decide (124594 < t)

/-- The last part of `set_orbits`, from the missing columns on, `orbits.py:193-216`. -/
def complete (stream : ℕ → ℕ → K) (norm : K → K → K → K) (o : Obj K) (f : Frame K) :
    Obj K × Option Err :=
  let f3 := ((fillIds f).fill "H" 20).fill "g" (15 / 100)
  let filled : Except Err (Frame K × Option (ℕ × ℕ)) :=
    match f3.sed with
    | some _ => .ok (f3, o.rng)
    | none =>
      match assignSed stream norm o f3 none with
      | .ok (s, g) => .ok ({ f3 with sed := some s }, some g)
      | .error e => .error e
  match filled with
  | .error e => (o, some e)
  | .ok (f4, g) =>
    let o' := { o with rng := g }
    match o.fmt.bind dataCols with
    | none => (o', some .key)
    | some cols =>
      if cols.all f4.has then ({ o' with orbits := some f4 }, none) else (o', some .value)

/-- `set_orbits` with a data frame, `orbits.py:126-216`. The columns `index` and `FORMAT` are
deleted from the frame of the caller. -/
def setOrbits (stream : ℕ → ℕ → K) (norm : K → K → K → K) (o : Obj K) (f : Frame K) : Out K :=
  let f1 := f.del "index"
  if f1.n = 0 then ⟨o, f1, some .value⟩
  else
    let r := readFormat f1
    let o1 := { o with fmt := r.fmt }
    match r.err with
    | some e => ⟨o1, r.frame, some e⟩
    | none =>
      match r.frame.col "epoch" with
      | none => ⟨o1, r.frame, some .key⟩
      | some ep =>
        if oddEpoch ep then ⟨o1, r.frame, some .value⟩
        else
          let c := complete stream norm o1 r.frame
          ⟨c.1, r.frame, c.2⟩

/-- `__getitem__`, `orbits.py:68-71`: a new object with row `i`. -/
def getItem (stream : ℕ → ℕ → K) (norm : K → K → K → K) (o : Obj K) (i : ℕ) : Out K :=
  match o.orbits with
  | none => ⟨{}, { n := 0 }, some .type⟩
  | some f => if i < f.n then setOrbits stream norm {} (f.row i) else ⟨{}, f, some .index⟩

/-- `__iter__`, `orbits.py:73-77`. -/
def iter (stream : ℕ → ℕ → K) (norm : K → K → K → K) (o : Obj K) : List (Out K) :=
  match o.orbits with
  | none => []
  | some f => (List.range f.n).map fun i => setOrbits stream norm {} (f.row i)

/-- `update_orbits`, `orbits.py:504-507`, where the new frame has no more rows than the old one. A
frame with `obj_id` or `sed_filename` cannot be joined. -/
def updateOrbits (stream : ℕ → ℕ → K) (norm : K → K → K → K) (o : Obj K) (new : Frame K) : Out K :=
  match o.orbits with
  | none => ⟨o, new, some .type⟩
  | some f =>
    if new.ids.isSome || new.sed.isSome then ⟨o, new, some .value⟩
    else
      let joined := { new with ids := f.ids.map (·.take new.n), sed := f.sed.map (·.take new.n) }
      let r := setOrbits stream norm o joined
      ⟨r.obj, new, r.err⟩

end Set

/-! ## Comparison -/

/-- `np.all(a == b)` for two columns: equal lengths, or one of length 1 that is repeated; otherwise
the shapes do not agree. -/
def allEq {V : Type} [DecidableEq V] (a b : List V) : Except Err Bool :=
  if a.length = b.length then .ok (decide (a = b))
  else
    match a, b with
    | [x], b => .ok (b.all (· = x))
    | a, [y] => .ok (a.all (· = y))
    | _, _ => .error .value

/-- Comparison of one column. -/
def colEq {K : Type} [DecidableEq K] (f g : Frame K) (c : String) : Except Err Bool :=
  if c = "obj_id" then
    match f.ids, g.ids with
    | some a, some b => allEq a b
    | _, _ => .error .key
  else if c = "sed_filename" then
    match f.sed, g.sed with
    | some a, some b => allEq a b
    | _, _ => .error .key
  else
    match f.col c, g.col c with
    | some a, some b => allEq a b
    | _, _ => .error .key

/-- The loop over the columns, `orbits.py:83-87`, which returns in its first turn. -/
def eqLoop {K : Type} [DecidableEq K] (f g : Frame K) : List String → Except Err (Option Bool)
  | [] => .ok none
  | c :: _ =>
    match colEq f g c with
    | .error e => .error e
    | .ok false => .ok (some false)
    | .ok true => .ok (some true)

/-- `__eq__`, `orbits.py:79-89`; `none` is the Python value. -/
def eq {K : Type} [DecidableEq K] (o p : Obj K) : Except Err (Option Bool) :=
  if o.fmt = p.fmt then
    match o.fmt.bind dataCols with
    | none => .error .key
    | some cols =>
      match o.orbits, p.orbits with
      | some f, some g => eqLoop f g cols
      | _, _ => .error .type
  else .ok (some false)

/-! ## Reading files -/

/-- The search for the header, `orbits.py:301-323`: the number of lines before the first orbit,
less one, and the last of these lines. `isNum` tells which strings `float` accepts; a line is its
list of values. -/
def scan (isNum : String → Bool) : List (List String) → ℤ × Option (List String) → ℤ × Option (List String)
  | [], s => s
  | l :: ls, s =>
    match l[3]? with
    | some v => if isNum v then s else scan isNum ls (s.1 + 1, some l)
    | none => scan isNum ls (s.1 + 1, some l)

/-- How the file is read, `orbits.py:300-341`: as a file without header, or with names after
skipped lines. An empty header line is an `IndexError`. -/
inductive Header
  | des
  | named (skip : ℕ) (names : List String)
  | error
  deriving DecidableEq

/-- The header of a file, with `skiprows = None`. -/
def header (isNum : String → Bool) (lines : List (List String)) : Header :=
  match scan isNum lines (-1, none) with
  | (_, none) => .des
  | (_, some []) => .error
  | (k, some (start :: rest)) =>
    .named (k + 1).toNat (if start = "#" ∨ start = "!!" ∨ start = "##" then rest else start :: rest)

/-- The lines that are read as orbits. -/
def body (isNum : String → Bool) (lines : List (List String)) : Option (List (List String)) :=
  match header isNum lines with
  | .des => some lines
  | .named k _ => some (lines.drop k)
  | .error => none

/-- `alt_names`, `orbits.py:425-466`. A comma is missing after `"S3MID"`. -/
def altNames : List (String × List String) :=
  [("obj_id", ["obj_id", "objid", "!!ObjID", "!!OID", "!!S3MID", "OID", "S3MIDobjid(int)",
      "full_name", "#name"]),
    ("q", ["q"]), ("a", ["a"]), ("e", ["e", "ecc"]), ("inc", ["inc", "i", "i(deg)", "incl"]),
    ("Omega", ["Omega", "omega", "node", "om", "node(deg)", "BigOmega", "Omega/node", "longNode"]),
    ("argPeri", ["argPeri", "argperi", "omega/argperi", "w", "argperi(deg)", "peri"]),
    ("tPeri", ["tPeri", "t_p", "timeperi", "t_peri", "T_peri"]),
    ("epoch", ["epoch", "t_0", "Epoch", "epoch_mjd"]),
    ("H", ["H", "magH", "magHv", "Hv", "H_v"]),
    ("g", ["g", "phaseV", "phase", "gV", "phase_g", "G"]),
    ("meanAnomaly", ["meanAnomaly", "meanAnom", "M", "ma"]),
    ("sed_filename", ["sed_filename", "sed"]),
    ("xdot", ["xdot", "xDot"]), ("ydot", ["ydot", "yDot"]), ("zdot", ["zdot", "zDot"])]

/-- Replace the first element equal to `x`, `orbits.py:476-477`. -/
def replaceFirst (x y : String) : List String → List String
  | [] => []
  | z :: l => if z = x then y :: l else z :: replaceFirst x y l

/-- One turn of the renaming, `orbits.py:470-477`; `none` is the `ValueError`. -/
def renameOne (cols : List String) (g : String × List String) : Option (List String) :=
  match (g.2.filter fun x => cols.contains x).dedup with
  | [] => some cols
  | [x] => some (replaceFirst x g.1 cols)
  | _ => none

/-- All the turns, `orbits.py:469-477`. -/
def renameAll : List (String × List String) → List String → Option (List String)
  | [], cols => some cols
  | g :: gs, cols => (renameOne cols g).bind (renameAll gs)

/-- The names of the columns after reading. -/
def rename (cols : List String) : Option (List String) := renameAll altNames cols

/-- The check of the inclinations, `orbits.py:482-486`. The exception for negative inclinations is
made but not raised; the ids are looked up. -/
def incCheck {K : Type} [Zero K] [LinearOrder K] (f : Frame K) : Option Err :=
  match f.col "inc" with
  | none => none
  | some inc => if inc.any (· < 0) then (if f.ids.isSome then none else some .key) else none

/-- The end of `read_orbits`, `orbits.py:482-489`. -/
def readEnd {K : Type} [Field K] [LinearOrder K] (stream : ℕ → ℕ → K) (norm : K → K → K → K)
    (o : Obj K) (f : Frame K) : Out K :=
  match incCheck f with
  | some e => ⟨o, f, some e⟩
  | none => setOrbits stream norm o f

end Verif.Orbits
