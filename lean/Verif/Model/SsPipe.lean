import Verif.Model.TimeSlicers
import Verif.Model.AreaMetrics
import Mathlib.Data.Rat.Floor

/-!
# Model of the chain of tools for moving objects

`rubin_sim/maf/generate_ss.py`, `rubin_sim/moving_objects/make_lsst_obs.py`,
`rubin_sim/maf/run_moving_calc.py`, `rubin_sim/maf/run_moving_fractions.py`,
`rubin_sim/maf/run_moving_join.py` and parts of
`rubin_sim/maf/batches/moving_objects_batch.py`. Strings are lists of characters. A command is
the name of a program with options and values; what the shell does with spaces is left out.
Files are names; the metrics themselves are in other models.
-/

namespace Verif.SsPipe

inductive PyErr | type | key | value | index | attribute | name | usage
  deriving DecidableEq, Repr

abbrev Str := List Char

def s (x : String) : Str := x.toList

/-! ## Strings and paths -/

/-- `s.replace(pat, "")`; the number counts characters that are still to be skipped. -/
def removeGo (pat : Str) : Nat → Str → Str
  | _, [] => []
  | k + 1, _ :: cs => removeGo pat k cs
  | 0, c :: cs => if pat.isPrefixOf (c :: cs) then removeGo pat (pat.length - 1) cs else c :: removeGo pat 0 cs

def remove (pat x : Str) : Str := removeGo pat 0 x

/-- `os.path.split(p)[-1]` and `os.path.basename`. -/
def baseName (p : Str) : Str := (p.reverse.takeWhile (· ≠ '/')).reverse

/-- `os.path.join`. -/
def pathJoin (a b : Str) : Str :=
  if b.head? = some '/' then b
  else if a = [] ∨ a.getLast? = some '/' then a ++ b
  else a ++ '/' :: b

/-- `".".join(x.split(".")[:-1])`, `make_lsst_obs.py:178`: nothing is left without a dot. -/
def stem (x : Str) : Str := ((x.reverse.dropWhile (· ≠ '.')).drop 1).reverse

/-- The name of the run, `make_lsst_obs.py:175`, `run_moving_calc.py:110`, `generate_ss.py:79`. -/
def runName (f : Str) : Str := remove (s ".db") (baseName f)

/-! ## Commands -/

structure Cmd where
  prog : String
  args : List (String × Str)

def Cmd.get (c : Cmd) (k : String) : Option Str := c.args.lookup k

/-- The options of the programs: `make_lsst_obs.py:37-165`, `run_moving_calc.py:24-107`,
`run_moving_join.py:22-34`, `run_moving_fractions.py:18-48`. -/
def options : String → List String
  | "make_lsst_obs" => ["--simulation_db", "--orbit_file", "--positions_file", "--out_dir", "--output_file", "--sql_constraint", "--obs_info",
      "--footprint", "--r_fov", "--x_tol", "--y_tol", "--rough_tol", "--obs_code", "--t_step", "--eph_mode", "--prelim_eph_mode", "--eph_type",
      "--log_file", "--verbose"]
  | "run_moving_calc" => ["--orbit_file", "--objtype", "--obs_file", "--out_dir", "--simulation_db", "--h_min", "--h_max", "--h_step", "--h_mark",
      "--characterization", "--constraint_info_label", "--constraint", "--albedo", "--n_years_max", "--start_time"]
  | "run_moving_join" => ["--orbit_file", "--base_dir", "--out_dir"]
  | "run_moving_fractions" => ["--work_dir", "--metadata", "--h_mark", "--n_years_max", "--start_time"]
  | _ => []

/-- `argparse`: an option may be given by its name or by a beginning of just one name. -/
def accepted (opts : List String) (o : String) : Bool :=
  opts.contains o || (opts.filter (fun x => o.toList.isPrefixOf x.toList)).length == 1

def parses (c : Cmd) : Bool := c.args.all (fun a => accepted (options c.prog) a.1)

/-! ## make_lsst_obs -/

/-- The name in the directory, `make_lsst_obs.py:182`. -/
def obsName (run base : Str) : Str := run ++ s "__" ++ base ++ s "_obs.npz"

/-- `np.savez` adds the ending. -/
def npz (f : Str) : Str := if (s ".npz").isSuffixOf f then f else f ++ s ".npz"

/-- The file that is written, `make_lsst_obs.py:175-184` and 276-277. -/
def obsFile (db orbit outDir : Str) (output : Option Str) : Str :=
  let out := match output with
    | none => pathJoin outDir (obsName (runName db) (stem (baseName orbit)))
    | some o => pathJoin outDir o
  npz (pathJoin outDir out)

/-- A run of the program: `make_lsst_obs.py:169-173` and the file that is written. -/
def makeObs (c : Cmd) : Except PyErr Str :=
  if parses c then
    match c.get "--simulation_db", c.get "--orbit_file" with
    | some d, some o => .ok (obsFile d o ((c.get "--out_dir").getD (s ".")) (c.get "--output_file"))
    | _, _ => .error .value
  else .error .usage

/-! ## run_moving_calc -/

/-- Files of observations and directory of the results, `run_moving_calc.py:110-114`; `exit` without files is no error. -/
def runCalc (c : Cmd) : Except PyErr (Option (Str × Str)) :=
  if parses c then
    match c.get "--simulation_db" with
    | none => .error .type
    | some _ =>
      match c.get "--orbit_file", c.get "--obs_file" with
      | some _, some b => .ok (some (b, (c.get "--out_dir").getD (s ".")))
      | _, _ => .ok none
  else .error .usage

/-- Defaults of a population, `moving_objects_batch.py:43-108`. -/
structure Defaults where
  hMin : ℚ
  hMax : ℚ
  hStep : ℚ
  hMark : ℚ
  magtype : String
  char : String
  deriving DecidableEq

def defaults : List (String × Defaults) :=
  [("Vatira", ⟨16, 28, 1 / 5, 22, "asteroid", "inner"⟩), ("PHA", ⟨16, 28, 1 / 5, 22, "asteroid", "inner"⟩),
    ("NEO", ⟨16, 28, 1 / 5, 22, "asteroid", "inner"⟩), ("MBA", ⟨16, 26, 1 / 5, 20, "asteroid", "inner"⟩),
    ("MBC", ⟨16, 26, 1 / 5, 20, "asteroid", "inner"⟩), ("Trojan", ⟨14, 22, 1 / 5, 18, "asteroid", "inner"⟩),
    ("TNO", ⟨4, 12, 1 / 5, 8, "asteroid", "outer"⟩), ("SDO", ⟨4, 12, 1 / 5, 8, "asteroid", "outer"⟩),
    ("LPC", ⟨6, 22, 1 / 2, 13, "comet_oort", "outer"⟩), ("SPC", ⟨4, 20, 1 / 2, 8, "comet_short", "outer"⟩),
    ("generic", ⟨4, 28, 1 / 2, 10, "asteroid", "inner"⟩)]

/-- The name that is looked up, `moving_objects_batch.py:110-122`. -/
def population (objtype : String) : String :=
  let o := if (s "GRANVIK").isPrefixOf objtype.toUpper.toList then "NEO" else objtype
  let o := if (s "L7").isPrefixOf o.toUpper.toList then "TNO" else o
  let o := if (s "OCC").isPrefixOf o.toUpper.toList then "LPC" else o
  if (defaults.lookup o).isSome then o else "generic"

/-- `ss_population_defaults`, `moving_objects_batch.py:110-124`. -/
def popDefaults (objtype : String) : Except PyErr Defaults :=
  match defaults.lookup (population objtype) with
  | some d => .ok d
  | none => .error .key

/-- The values of H, `run_moving_calc.py:117-135`: what is given on the command line is used
instead of the defaults. -/
def hRange (d : Defaults) (hMin hMax hStep : Option ℚ) : List ℚ :=
  let a := hMin.getD d.hMin
  let b := hMax.getD d.hMax
  let st := hStep.getD d.hStep
  Slicers.arange a (b + st) st

/-- Which batch characterises, `run_moving_calc.py:133-134` and 212-238: for other words the
variable is not set. -/
def charBatch (d : Defaults) (given : Option String) : Except PyErr String :=
  let c := given.getD d.char
  if c.toLower = "inner" then .ok "characterization_inner_batch"
  else if c.toLower = "outer" then .ok "characterization_outer_batch"
  else .error .name

/-! ## generate_ss -/

/-- The names of populations with orbits, `generate_ss.py:25-34` and 37-46. -/
def orbitPops : List String :=
  ["granvik_5k", "granvik_pha_5k", "vatiras_granvik_10k", "l7_5k", "mba_5k", "occ_rmax5_5k", "occ_rmax20_5k", "trojan_5k"]

/-- The types of objects, `generate_ss.py:48-58`. -/
def objtypes : List (String × String) :=
  [("granvik_5k", "NEO"), ("granvik_pha_5k", "PHA"), ("vatiras_granvik_10k", "Vatira"), ("l7_5k", "TNO"), ("mba_5k", "MBA"),
    ("occ_rmax5_5k", "OCC_r5"), ("occ_rmax20_5k", "OCC_r20"), ("sdo_5k", "SDO"), ("trojan_5k", "Trojan")]

/-- `generate_ss.py:24-46`: the file of orbits of a population in the directory of the data. -/
def orbitFile (dataDir : Str) (pop : String) : Except PyErr Str :=
  if orbitPops.contains pop then .ok (pathJoin (pathJoin dataDir (s "orbits")) (pop.toList ++ s ".txt")) else .error .key

/-- The populations, `generate_ss.py:60-77`. -/
def pops : Option String → List String
  | none => ["trojan_5k", "l7_5k", "mba_5k", "granvik_5k", "granvik_pha_5k", "vatiras_granvik_10k", "occ_rmax5_5k", "occ_rmax20_5k"]
  | some p => [p]

/-- `generate_ss.py:79-80` and the pairs of lines 92, 103 and 124. -/
def pairs (dbfiles : List Str) : List (Str × Str) :=
  let runs := (dbfiles.map runName).filter (fun r => ¬ s "tracking" <:+: r)
  runs.zip dbfiles

/-- One line of the script, `generate_ss.py:104-122`; `start` is the first night of a file. -/
def line (dataDir : Str) (start : Str → Str) (pop : String) (rf : Str × Str) : Except PyErr (Cmd × Cmd × Cmd) :=
  match objtypes.lookup pop with
  | none => .error .key
  | some t =>
    match orbitFile dataDir pop with
    | .error e => .error e
    | .ok o =>
      .ok (⟨"make_lsst_obs", [("--simulation_db", rf.2), ("--orbit_file", o),
          ("--positions_file", pathJoin (pathJoin dataDir (s "orbits_precompute")) (pop.toList ++ s ".npz"))]⟩,
        ⟨"run_moving_calc", [("--obs_file", obsName rf.1 pop.toList), ("--simulation_db", rf.2), ("--orbit_file", o), ("--out_dir", rf.1 ++ s "_ss"),
          ("--objtype", t.toList), ("--start_time", start rf.2)]⟩,
        ⟨"run_moving_fractions", [("--work_dir", rf.1 ++ s "_ss"), ("--metadata", t.toList), ("--start_time", start rf.2)]⟩)

/-- The script, `generate_ss.py:90-122`. -/
def script (dataDir : Str) (start : Str → Str) (pop : Option String) (dbfiles : List Str) : Except PyErr (List (Cmd × Cmd × Cmd)) :=
  ((pops pop).flatMap (fun p => (pairs dbfiles).map (fun rf => (p, rf)))).mapM (fun x => line dataDir start x.1 x.2)

/-- One part of a population that is split, `generate_ss.py:145-162`. -/
def splitLine (dataDir : Str) (start : Str → Str) (pop : String) (rf : Str × Str) (splitfile : Str) : Except PyErr (Cmd × Cmd) :=
  match objtypes.lookup pop with
  | none => .error .key
  | some t =>
    match orbitFile dataDir pop with
    | .error e => .error e
    | .ok o =>
      let split := remove (s ".txt") (remove (s ".s3m") (remove (s ".des") (baseName splitfile)))
      let outDir := rf.1 ++ s "_ss"
      .ok (⟨"make_lsst_obs", [("--simulation_db", rf.2), ("--orbit_file", splitfile),
          ("--positions_file", pathJoin (pathJoin dataDir (s "orbits_precompute")) (pop.toList ++ s ".npz")), ("--out_dir", outDir)]⟩,
        ⟨"run_moving_calc", [("--obs_file", outDir ++ s "/" ++ obsName rf.1 split), ("--simulation_db", rf.2), ("--orbit_file", o),
          ("--out_dir", outDir ++ s "/" ++ split), ("--run_name", rf.1), ("--objtype", t.toList), ("--start_time", start rf.2)]⟩)

/-! ## run_moving_join and combine_subsets -/

/-- The directory of one part, `run_moving_join.py:58` and 66, `moving_objects_batch.py:1547`. -/
def splitDir (baseDir orbit : Str) (i : Nat) : Str :=
  pathJoin baseDir (remove (s ".s3m") (remove (s ".des") (remove (s ".txt") orbit)) ++ s "_" ++ (toString i).toList)

/-- Which files are joined, `run_moving_join.py:78-90`. -/
def joins (name : Str) : Bool :=
  if s "Discovery" <:+: name then
    if s "DiscoveryTime" <:+: name then true
    else if s "DiscoveryNChances" <:+: name then true
    else if s "Magic" <:+: name then true
    else if s "HighVelocity" <:+: name then true
    else false
  else true

/-- One of the bundles to be joined: the H values, the orbits, and the values, none for masked ones. -/
structure Part where
  h : List ℚ
  orbits : List Nat
  values : List (Option ℚ)

/-- The check of the slicers, `moving_objects_batch.py:1567-1570`. -/
def sameSlicer (first p : Part) : Bool := !(first.h ≠ p.h ∧ first.orbits ≠ p.orbits)

/-- The sums and the mask, `moving_objects_batch.py:1576-1580`, for each cell of the array. -/
def joinValues (n : Nat) (parts : List Part) : List (ℚ × Bool) :=
  parts.foldl (fun acc p => acc.zipWith (fun (a : ℚ × Bool) v => (a.1 + v.getD 0, a.2 && v.isNone)) p.values) (List.replicate n (0, false))

/-- `combine_subsets`, `moving_objects_batch.py:1553-1587`: bundles have no `plotDict` (line 1585). -/
def combine (parts : List Part) : Except PyErr (List (ℚ × Bool)) :=
  match parts with
  | [] => .error .index
  | first :: _ => if parts.all (sameSlicer first) then .error .attribute else .error .value

/-! ## run_moving_fractions and the marks -/

/-- The files that are read, `run_moving_fractions.py:66-70`, by their names;
letters with a meaning for `glob` and hidden files are left out. -/
def selected (metadata : Option Str) (name : Str) : Bool :=
  match metadata with
  | none => (s "MOOB.npz").isSuffixOf name
  | some m => (s "MOOB.npz").isSuffixOf name && decide (m <:+: name.take (name.length - 8))

/-- The root of the names of figures, `run_moving_fractions.py:71-88`; `runs` are the names of the runs of the files. -/
def figroot (metadata : Option Str) (runs : List Str) : Except PyErr Str :=
  match runs with
  | [] => .error .index
  | r :: _ => .ok (if metadata = some (s ".") then r else r ++ s "_" ++ metadata.getD (s "None"))

/-- The times of the completeness, `run_moving_fractions.py:56-58`. -/
def times (years : Nat) (start : ℚ) : List ℚ :=
  let step : ℚ := 365 / 6
  (Slicers.arange 0 ((years : ℚ) * 365 + step / 2) step).map (· + start)

/-- What matters of a bundle: `h_mark` of its dict of plots (none if it is not there) and its H values. -/
structure B where
  mark : Option (Option ℚ)
  h : List ℚ

/-- The mark of one bundle for the completeness, `moving_objects_batch.py:695-698`. -/
def compMark (given : Option ℚ) (b : B) : Option ℚ :=
  let m := match given with
    | some v => some v
    | none => b.mark.join
  match m with
  | some v => some v
  | none => Area.median b.h

/-- One round of the loop for the fractions, `moving_objects_batch.py:1337-1343`. -/
def fracStep (h : Option ℚ) (b : B) : Except PyErr ℚ :=
  let m : Except PyErr (Option ℚ) :=
    match h, b.mark with
    | none, some none => .error .type
    | none, some (some v) => .ok (some (v - 2))
    | h, _ => .ok h
  match m with
  | .error e => .error e
  | .ok m =>
    match m.orElse (fun _ => (Area.median b.h).map (· - 2)), b.h.min? with
    | some v, some lo => .ok (if v < lo then lo else v)
    | _, _ => .error .value

/-- The marks of all bundles, `moving_objects_batch.py:1335-1343`: the variable is kept. -/
def fracMarks : Option ℚ → List B → Except PyErr (List ℚ)
  | _, [] => .ok []
  | h, b :: bs =>
    match fracStep h b with
    | .error e => .error e
    | .ok v =>
      match fracMarks (some v) bs with
      | .error e => .error e
      | .ok vs => .ok (v :: vs)

/-- How many bundles of completeness there are for a metric, `moving_objects_batch.py:706-744`, with its place in the code. -/
def compKind (name : Str) : Option String :=
  if s "Discovery" <:+: name ∨ s "MagicDiscovery" <:+: name ∨ s "HighVelocity" <:+: name then
    if s "Time" <:+: name then some "time"
    else if s "NChances" <:+: name ∨ s "N_Chances" <:+: name then some "h"
    else if s "MagicDiscovery" <:+: name then some "h"
    else if s "HighVelocity" <:+: name then some "h"
    else none
  else none

end Verif.SsPipe
