import Verif.Model.Tools
import Verif.Model.Bandpass
import Verif.Model.BaseMetric


/-!
# The cache of spectra of `rubin_sim/phot_utils/sed.py`, comparisons of spectra, and stellar templates

A path is a list of characters. A spectrum is a list of pairs of wavelength and flux. The library of spectra is given by
the directories below each of its sub directories and by what `numpy.genfromtxt` gives for a path (`none` raises).
Dictionaries are lists of pairs. What is printed is left out.
-/

namespace Verif.SedCache

open SsPipe (s)
open Tools (pySplit)
open BaseM (put)

abbrev Str := List Char

inductive Err
  /-- `SedCacheError` -/
  | cache
  /-- `AttributeError` -/
  | attribute
  | index
  | runtime
  | type
  | value
  | fileNotFound
  /-- `OSError` of `genfromtxt` -/
  | io
  | zeroDivision
  deriving DecidableEq, Repr

/-! ## Paths -/

/-- `os.path.join(a, b)` on POSIX. -/
def join (a b : Str) : Str :=
  if b.head? = some '/' then b
  else if a = [] ∨ a.getLast? = some '/' then a ++ b
  else a ++ '/' :: b

/-- `name.endswith(".gz")` -/
def isGz (n : Str) : Bool := (s ".gz").isSuffixOf n

/-- `sims_sed_library`: for each sub directory the directories below it (with the part of their path that follows the
sub directory, empty for the sub directory itself) and their files; the contents of files; the entries of
`starSED/kurucz`, `none` when there is no such directory. -/
structure Lib (D : Type) where
  below : Str → List (Str × List Str)
  read : Str → Option D
  kurucz : Option (List Str)

variable {D : Type}

/-- `os.walk(os.path.join(root, sub))`: the path of each directory and its files. -/
def walk (lib : Lib D) (root sub : Str) : List (Str × List Str) := (lib.below sub).map (fun e => (join root sub ++ e.1, e.2))

/-! ## `_generate_sed_cache` -/

/-- `sed.py:224` -/
def allDirs : List Str := [s "agnSED", s "flatSED", s "ssmSED", s "starSED", s "galaxySED"]

/-- The files that are read, in order, `sed.py:239-248`. -/
def genFiles (lib : Lib D) (root : Str) : List Str :=
  allDirs.flatMap (fun sub => (walk lib root sub).flatMap (fun e => (e.2.filter isGz).map (join e.1)))

/-- `total_files`, `sed.py:228-232` -/
def totalFiles (lib : Lib D) (root : Str) : Nat :=
  (allDirs.map (fun sub => ((walk lib root sub).map (fun e => (e.2.filter isGz).length)).sum)).sum

/-- The body of the `try`, `sed.py:247-258`: the cache when it is left, and the exception that leaves it. -/
def loadOne (lib : Lib D) (total : Nat) (cache : List (Str × D)) (f : Str) : List (Str × D) × Option Err :=
  match lib.read f with
  | none => (cache, some .io)
  | some d =>
    let c := put cache f d
    if total / 20 = 0 then (c, some .zeroDivision) else (c, none)

/-- The dictionary of `_generate_sed_cache`, `sed.py:226-260`; exceptions are passed over. -/
def generate (lib : Lib D) (root : Str) : List (Str × D) :=
  (genFiles lib root).foldl (fun c f => (loadOne lib (totalFiles lib root) c f).1) []

/-! ## `SedUnpickler` -/

/-- `sed.py:102-106` -/
def allowedObj : List (Str × Str) := [(s "numpy", s "ndarray"), (s "numpy", s "dtype"), (s "numpy.core.multiarray", s "_reconstruct")]

/-- `SedUnpickler.find_class`, `sed.py:108-132`; the value is the object that is named. -/
def findClass (m n : Str) : Except Err (Str × Str) :=
  if allowedObj.any (fun a => decide (m = a.1 ∧ n = a.2)) then
    if m = s "numpy" then
      if n = s "ndarray" then .ok (m, n) else if n = s "dtype" then .ok (m, n) else .error .runtime
    else if m = s "numpy.core.multiarray" then .ok (m, n)
    else .error .runtime
  else .error .runtime

/-- What `_global_lsst_sed_cache` can be. -/
inductive Global (D : Type)
  | none
  | dict (c : List (Str × D))
  | other
  deriving DecidableEq

/-- A pickle: the objects it names and the value it gives when all of them are found. -/
structure Pickle (D : Type) where
  classes : List (Str × Str)
  value : Global D

/-- Whether a named object is found. -/
def found (c : Str × Str) : Bool :=
  match findClass c.1 c.2 with
  | .ok _ => true
  | .error _ => false

/-- `SedUnpickler(input_file).load()`, `sed.py:347` -/
def load (p : Pickle D) : Except Err (Global D) := if p.classes.all found then .ok p.value else .error .runtime

/-! ## Checks -/

/-- `sed.py:155` -/
def checkedDirs : List Str := [s "galaxySED", s "starSED"]

/-- The names that are looked up, `sed.py:157-164`. -/
def checkedFiles (lib : Lib D) (root : Str) : List Str :=
  checkedDirs.flatMap (fun sub => (walk lib root sub).flatMap (fun e =>
    (e.2.filter isGz).map (fun n => join (join (join root sub) e.1) n)))

/-- `_validate_sed_cache`, `sed.py:150-169` -/
def validate (lib : Lib D) (root : Str) : Global D → Except Err Unit
  | .none => .error .cache
  | .other => .error .cache
  | .dict c =>
    if (checkedFiles lib root).any (fun f => (c.lookup f).isNone) then .error .cache
    else if (checkedFiles lib root).length = 0 then .error .cache
    else .ok ()

/-- `Sed.read_sed_flambda` with the cache, `sed.py:513-554`; the cache of other spectra is left out. -/
def readSed (lib : Lib D) (c : List (Str × D)) (f : Str) : Option D :=
  let gz := if isGz f then f else f ++ s ".gz"
  let un := if isGz f then f.take (f.length - 3) else f
  match c.lookup gz with
  | some d => some d
  | none =>
    match c.lookup un with
    | some d => some d
    | none =>
      match lib.read gz with
      | some d => some d
      | none => lib.read un

/-- One of the spectra compared, `sed.py:193-200`. -/
def compareOne [DecidableEq D] (lib : Lib D) (c : List (Str × D)) (f : Str) : Except Err Unit :=
  match lib.read f with
  | none => .error .io
  | some d =>
    match readSed lib c f with
    | none => .error .io
    | some d' => if d' = d then .ok () else .error .cache

/-- The loop over numbers, `sed.py:192-200`. -/
def compareLoop [DecidableEq D] (lib : Lib D) (c : List (Str × D)) (dir : Str) (names : List Str) : List Nat → Except Err Unit
  | [] => .ok ()
  | i :: is =>
    match names[i]? with
    | none => .error .index
    | some n =>
      match compareOne lib c (join dir n) with
      | .error e => .error e
      | .ok _ => compareLoop lib c dir names is

/-- `_compare_cached_versus_uncached`, `sed.py:179-200`. Before it is called the cache has been accepted. -/
def compare [DecidableEq D] (lib : Lib D) (root : Str) (c : List (Str × D)) : Except Err Unit :=
  match lib.kurucz with
  | none => .error .fileNotFound
  | some names => compareLoop lib c (join (join root (s "starSED")) (s "kurucz")) names (List.range 5)

/-- The checks, `sed.py:353-355`. -/
def checks [DecidableEq D] (lib : Lib D) (root : Str) (g : Global D) : Except Err Unit :=
  match validate lib root g with
  | .error e => .error e
  | .ok _ =>
    match g with
    | .dict c => compare lib root c
    | _ => .ok ()

/-! ## `cache_lsst_seds` -/

/-- `lsst_sed_cache_3.p`, `sed.py:310` -/
def cacheName : Str := s "lsst_sed_cache_3.p"

/-- Characters that `str.split()` splits at. -/
def isWs (c : Char) : Bool := c.isWhitespace

/-- `x.split()` -/
def words (x : Str) : List Str := (x.splitOnP isWs).filter (fun w => decide (w ≠ []))

/-- The number of lines of a file, `input_file.readlines()`. -/
def nLines (x : Str) : Nat := x.count '\n' + if x = [] ∨ x.getLast? = some '\n' then 0 else 1

/-- What is in the directory of the cache: whether it and its parent exist, the pickle, and the text of
`cache_version_3.txt`. -/
structure Disk (D : Type) where
  parent : Bool
  dir : Bool
  pickle : Option (Pickle D)
  version : Option Str

/-- `must_generate`, `sed.py:318-338` -/
def mustGenerate (disk : Disk D) (root : Str) : Bool :=
  disk.pickle.isNone ||
  match disk.version with
  | none => true
  | some text =>
    if nLines text ≠ 1 then true
    else
      match words text with
      | [a, b] => if a ≠ root then true else decide (b ≠ cacheName)
      | _ => true

/-- The objects named in a pickle of the cache; `multi` is the module of `_reconstruct`: `numpy.core.multiarray`, or
`numpy._core.multiarray` since numpy 2. -/
def npClasses (multi : Str) : List (Str × Str) := [(multi, s "_reconstruct"), (s "numpy", s "ndarray"), (s "numpy", s "dtype")]

/-- What `_generate_sed_cache` leaves on disk, `sed.py:264-273`. -/
def written (multi : Str) (disk : Disk D) (root : Str) (c : List (Str × D)) : Disk D :=
  { disk with pickle := some ⟨npClasses multi, .dict c⟩, version := some (root ++ ' ' :: cacheName) }

/-- `sed.py:340-347` -/
def obtain' (multi : Str) (lib : Lib D) (root : Str) (disk : Disk D) (g : Global D) : (Disk D × Global D) × Option Err :=
  if mustGenerate disk root then
    let c := generate lib root
    ((written multi disk root c, .dict c), none)
  else
    match disk.pickle with
    | none => ((disk, g), some .fileNotFound)
    | some p =>
      match load p with
      | .ok v => ((disk, v), none)
      | .error e => ((disk, g), some e)

section trunc

variable {K : Type} [LinearOrder K] [Zero K]

/-- `wav <= wavelen_max`, `sed.py:365-372`; `none` is `numpy.inf`. -/
def below' (hi : Option K) (w : K) : Bool :=
  match hi with
  | none => true
  | some h => decide (w ≤ h)

/-- One spectrum, `sed.py:371-373`. -/
def cut (lo : K) (hi : Option K) (d : List (K × K)) : List (K × K) := d.filter (fun p => decide (lo ≤ p.1) && below' hi p.1)

/-- `sed.py:362-375` -/
def truncate (lo hi : Option K) : Global (List (K × K)) → Except Err (Global (List (K × K)))
  | g =>
    if lo.isNone && hi.isNone then .ok g
    else
      match g with
      | .dict c => .ok (.dict (c.map (fun e => (e.1, cut (lo.getD 0) hi e.2))))
      | _ => .error .attribute

/-- `cache_lsst_seds`, `sed.py:308-377`: what is on disk and in `_global_lsst_sed_cache` afterwards, and the exception.
Exceptions have no attribute `message`, `sed.py:357`. -/
def cacheSeds (multi : Str) (lib : Lib (List (K × K))) (root : Str) (lo hi : Option K) (disk : Disk (List (K × K)))
    (g : Global (List (K × K))) : (Disk (List (K × K)) × Global (List (K × K))) × Option Err :=
  if !disk.dir && !disk.parent then ((disk, g), some .fileNotFound)
  else
    let disk := { disk with dir := true }
    match obtain' multi lib root disk g with
    | (st, some e) => (st, some e)
    | (st, none) =>
      match checks lib root st.2 with
      | .error .cache => (st, some .attribute)
      | .error e => (st, some e)
      | .ok _ =>
        match truncate lo hi st.2 with
        | .ok g' => ((st.1, g'), none)
        | .error e => (st, some e)

end trunc

/-! ## `Sed.__eq__` and `clear_sed` -/

/-- A `Sed`; numbers that are not a number are `none`. -/
structure SedObj (N K : Type) where
  name : Option N
  zp : K
  badval : Option K
  wavelen : Option (List (Option K))
  flambda : Option (List (Option K))
  fnu : Option (List (Option K))

section eq

variable {N K : Type} [DecidableEq N] [DecidableEq K]

/-- Whether `numpy.testing.assert_array_equal` passes for an array and an array or `None`; values that are not a number are
equal to each other, and no element is equal to `None`. -/
def arrEq (a : List (Option K)) : Option (List (Option K)) → Bool
  | none => a.isEmpty
  | some b => decide (a = b)

/-- Both are `None`, or both are not and are equal, `sed.py:417-425` and `sed.py:437-445`. -/
def sameArr : Option (List (Option K)) → Option (List (Option K)) → Bool
  | some _, none => false
  | none, some _ => false
  | some a, some b => arrEq a (some b)
  | none, none => true

/-- `flambda`, `sed.py:427-435`: the first two conditions are the same. -/
def sameFlambda (a b : Option (List (Option K))) : Bool :=
  if a.isNone && b.isSome then false
  else if b.isSome && a.isNone then false
  else
    match a with
    | some x => arrEq x b
    | none => true

/-- Whether the bad values differ, `sed.py:411-416`. -/
def badDiffers (a b : Option K) : Bool :=
  match a with
  | some v => decide (b ≠ some v)
  | none => b.isSome

/-- `Sed.__eq__`, `sed.py:407-447` -/
def sedEq (a b : SedObj N K) : Bool :=
  if a.name ≠ b.name then false
  else if a.zp ≠ b.zp then false
  else if badDiffers a.badval b.badval then false
  else if !sameArr a.fnu b.fnu then false
  else if !sameFlambda a.flambda b.flambda then false
  else sameArr a.wavelen b.wavelen

/-- `Sed()`, `sed.py:389-395`; `zp0` is `-2.5 * numpy.log10(3631)`. -/
def fresh (zp0 : K) : SedObj N K := ⟨none, zp0, none, none, none, none⟩

/-- `Sed.clear_sed`, `sed.py:652-656`; `zp1` is `-8.9`. -/
def clear (zp1 : K) (o : SedObj N K) : SedObj N K := { o with wavelen := none, fnu := none, flambda := none, zp := zp1, name := none }

/-- What `Sed.read_sed_flambda` sets, `sed.py:567-573`. -/
def setRead (o : SedObj N K) (f : N) (name : Option N) (w fl : List (Option K)) : SedObj N K :=
  { o with wavelen := some w, flambda := some fl, fnu := none, name := some (name.getD f) }

end eq

/-! ## `read_close__kurucz` -/

/-- The parts of a base name that are read, `sed.py:1738-1747`: whether the metallicity is negative, its digits (in tenths), the
digits of the surface gravity and of the temperature; `none` is an exception. -/
def parseName (f : Str) : Option (Bool × Str × Str × Str) :=
  match f[1]?, (pySplit ['_'] f)[0]?, (pySplit ['g'] f)[1]? with
  | some c, some z, some g =>
    some (decide (c = 'm'), z.drop 2, ((pySplit ['_'] g)[0]?).getD [], ((pySplit ['.'] (((pySplit ['_'] f).getLast?).getD []))[0]?).getD [])
  | _, _, _ => none

/-- A row of `param_combos`. -/
structure Combo (K : Type) where
  file : Str
  teff : K
  feh : K
  logg : K

/-- The column of names has 200 characters, `sed.py:1730` and `sed.py:1737`. -/
def stored (f : Str) : Str := f.take 200

section close

variable {K : Type} [Field K] [LinearOrder K]

/-- Rows whose difference is the least, `sed.py:1754-1755`; `none`: the minimum of an empty array raises. -/
def nearest (key : Combo K → K) (x : K) (l : List (Combo K)) : Option (List (Combo K)) :=
  match (l.map (fun e => |key e - x|)).min? with
  | none => none
  | some m => some (l.filter (fun e => decide (|key e - x| = m)))

/-- The rows that match, `sed.py:1754-1760`. -/
def matches' (teff feh logg : K) (l : List (Combo K)) : Option (List (Combo K)) :=
  match nearest Combo.teff teff l with
  | none => none
  | some l1 =>
    match nearest Combo.feh feh l1 with
    | none => none
    | some l2 => nearest Combo.logg logg l2

/-- `read_close__kurucz`, `sed.py:1753-1773`: an array of strings cannot be compared with a number, `sed.py:1761`. -/
def readClose (teff feh logg : K) (l : List (Combo K)) : Except Err (Combo K) :=
  match matches' teff feh logg l with
  | none => .error .value
  | some _ => .error .type

/-! ## `Sed.setup_phi_array` -/

/-- The first and the last wavelength of a curve. -/
def ends (c : List (K × K)) : Option (K × K) :=
  match c.head?, c.getLast? with
  | some a, some b => some (a.1, b.1)
  | _, _ => none

/-- `wavelen_min` and `wavelen_max`, `sed.py:1591-1592`. -/
def range (cs : List (List (K × K))) : Option (K × K) :=
  match (cs.mapM ends) with
  | none => none
  | some es =>
    match (es.map Prod.fst).min?, (es.map Prod.snd).max? with
    | some a, some b => some (a, b)
    | _, _ => none

/-- `wavelen_step`, `sed.py:1590` -/
def stepOf (cs : List (List (K × K))) : Option K :=
  match cs with
  | (a :: b :: _) :: _ => some (b.1 - a.1)
  | _ => none

variable [IsStrictOrderedRing K] [FloorSemiring K]

/-- The width of `phiarray`, `sed.py:1594-1600`. -/
def phiWidth (lo hi step : K) : Nat := ⌈(hi + step - lo) / step⌉₊

/-- One row, `sed.py:1605-1611`: the curve on the new grid; an array of another length cannot be stored. An array of length one is
stored in every element, which is left out. -/
def phiRow (lo hi step : K) (c : List (K × K)) : Option (List (K × K)) :=
  match Bandpass.resampleBandpass c lo hi step with
  | none => none
  | some r => if r.length = phiWidth lo hi step then some r else none

/-- `Sed.setup_phi_array`, `sed.py:1590-1613`: the curves after it, which are normalized row by row by `sb_tophi`, and the step. -/
def setupPhi (cs : List (List (K × K))) : Option (List (List (K × K)) × K) :=
  match stepOf cs, range cs with
  | some step, some (lo, hi) => ((cs.mapM (phiRow lo hi step)).map (fun r => (r, step)))
  | _, _ => none

end close

/-! ## `HourglassPlot` -/

/-- The segments that are drawn, `hourglass_plotters.py:47-52`: rows `0, 2, …` with the rows that follow; `none` is an `IndexError`. -/
def segments {R : Type} : List R → Option (List (R × R))
  | [] => some []
  | [_] => none
  | a :: b :: r => (segments r).map (fun l => (a, b) :: l)

end Verif.SedCache
