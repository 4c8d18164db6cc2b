import Verif.Model.Bandpass
import Mathlib.Algebra.Order.Floor.Ring

/-!
# Reading, writing and normalising spectra, `rubin_sim/phot_utils/sed.py`, and
`PhotometricParameters`

Contents of files are values of any type. Names end in `.gz` or not, and do not end in `.gz.gz`.
-/

namespace Verif.SedFiles

open Verif.Sed

/-! ## Caches of `read_sed_flambda` -/

/-- A file name without suffix, and whether it has the suffix `.gz`. -/
abbrev Name (B : Type*) := B × Bool

/-- Files, and the two caches `_global_lsst_sed_cache` and `_global_misc_sed_cache`; a cache that
is `None` is an empty one. -/
structure State (B D : Type*) where
  files : Name B → Option D
  lsst : Name B → Option D
  misc : Name B → Option D

variable {B D : Type*} [DecidableEq B]

/-- Reading from disk, `sed.py:541-554`. -/
def disk (files : Name B → Option D) (b : B) : Option D :=
  match files (b, true) with
  | some d => some d
  | none => files (b, false)

/-- `cached_source`, `sed.py:519-531`. -/
def cached (s : State B D) (b : B) : Option D :=
  let c := match s.lsst (b, true) with
    | some d => some d
    | none => s.lsst (b, false)
  match c with
  | some d => some d
  | none =>
    match s.misc (b, false) with
    | some d => some d
    | none => s.misc (b, true)

/-- `Sed.read_sed_flambda`, `sed.py:513-569`; `none` is an exception. -/
def readSed (s : State B D) (name : Name B) (cacheSed : Bool) : Option D × State B D :=
  match cached s name.1 with
  | some d => (some d, s)
  | none =>
    match disk s.files name.1 with
    | none => (none, s)
    | some d =>
      (some d, if cacheSed then
        { s with misc := fun n => if n = name then some d else s.misc n } else s)

/-- Calls of `read_sed_flambda`, and changes of files by others. -/
inductive Op (B D : Type*)
  | read (name : Name B) (cacheSed : Bool)
  | change (name : Name B) (d : Option D)

def step (s : State B D) : Op B D → State B D
  | .read n c => (readSed s n c).2
  | .change n d => { s with files := fun m => if m = n then d else s.files m }

/-! ## `renormalize_sed` and `multiply_sed` -/

/-- What a call gives. -/
inductive Out (α : Type*)
  | ok (a : α)
  /-- `AttributeError` -/
  | attribute
  /-- `TypeError` -/
  | type
  /-- any other exception -/
  | error
  deriving DecidableEq

section field
variable {K : Type*} [Field K] [LinearOrder K] [IsStrictOrderedRing K] [FloorRing K]

/-- `gapval`, `sed.py:1460-1468`. -/
def gapval (pts : List (K × K)) (lambdanorm gap step : K) : K :=
  if gap = 0 then Verif.MoSum.interp pts lambdanorm
  else
    let at_ := grid (lambdanorm - gap) step ⌈(lambdanorm + gap - (lambdanorm - gap)) / step⌉₊
    (at_.map (Verif.MoSum.interp pts)).sum / (at_.length : K)

/-- `Sed.renormalize_sed` with `normflux="flambda"`, `sed.py:1432-1477`; the points are
wavelengths and `flambda`. `PhysicalParameters` has no attribute `wavelenstep`. -/
def renormFlambda (pts : List (K × K)) (lambdanorm normvalue gap : K) (wavelenStep : Option K) :
    Out (List (K × K)) :=
  match wavelenStep with
  | none => .attribute
  | some step =>
    match (pts.map Prod.fst).min?, (pts.map Prod.fst).max? with
    | some lo, some hi =>
      if hi < lambdanorm ∨ lambdanorm < lo then .error
      else if gapval pts lambdanorm gap step = 0 then .error
      else
        let konst := normvalue / gapval pts lambdanorm gap step
        .ok (pts.map fun p => (p.1, p.2 * konst))
    | _, _ => .error

/-- `Sed.renormalize_sed` with `normflux="fnu"`, `sed.py:1432-1433` and `sed.py:1479-1519`;
`flambdaGiven` says if `flambda` was passed as well. Without it, `np.interp` of `None` raises
`TypeError`. `Sed` has no method `fnutoflambda`. -/
def renormFnu (pts : List (K × K)) (flambda : Option (List (K × K))) (lambdanorm gap : K)
    (wavelenStep : Option K) : Out (List (K × K)) :=
  match wavelenStep with
  | none => .attribute
  | some step =>
    match (pts.map Prod.fst).min?, (pts.map Prod.fst).max? with
    | some lo, some hi =>
      if hi < lambdanorm ∨ lambdanorm < lo then .error
      else if gap = 0 then
        match flambda with
        | none => .type
        | some f => if gapval f lambdanorm 0 step = 0 then .error else .attribute
      else if gapval pts lambdanorm gap step = 0 then .error else .attribute
    | _, _ => .error

/-- `Sed.multiply_sed` of spectra on the same grid, `sed.py:1148-1155`. -/
def multiplySame (wavelen f g : List K) (wavelenStep : Option K) : Out (List K × List K) :=
  match wavelenStep with
  | none => .attribute
  | some _ => .ok (wavelen, List.zipWith (· * ·) f g)

/-! ## `write_sed` -/

/-- A wavelength written by `%.2f`, `sed.py:1571`, up to ties. -/
def written (w : K) : K := (⌊w * 100 + 1 / 2⌋ : K) / 100

/-- Wavelengths in the file, `sed.py:1566-1571`, without `print_fnu`. -/
def writeSed (wavelen : List K) : List K := wavelen.map written

/-- `Sed.write_sed` with `print_fnu`, `sed.py:1566-1569`: the number of lines written, and whether
the loop ends. `fnu` is a pair of arrays, and `fnu[i]` raises for `i` from 2 on. -/
def writeLoop : Nat → Nat → Nat × Bool
  | 0, i => (i, true)
  | n + 1, i => if i < 2 then writeLoop n (i + 1) else (i, false)

end field

/-! ## `PhotometricParameters` -/

/-- The nine parameters in the order of the constructor, `photometric_parameters.py:142-154`. -/
inductive Field_
  | exptime | nexp | effarea | gain | readnoise | darkcurrent | othernoise | platescale | sigmaSys
  deriving DecidableEq

/-- Names of bandpasses, `photometric_parameters.py:93`. -/
inductive BandName
  | u | g | r | i | z | y | any
  /-- a name not in the list -/
  | other (name : Nat)
  deriving DecidableEq

variable {K : Type*} [Field K]

/-- Keys of the tables of defaults, `photometric_parameters.py:93-138`. -/
def known : BandName → Bool
  | .other _ => false
  | _ => true

/-- Default values, `photometric_parameters.py:95-138`; `pi` stands for `np.pi`. -/
def default (pi : K) (b : BandName) : Field_ → Option K
  | .exptime => if known b then some 15 else none
  | .nexp => if known b then some 2 else none
  | .effarea => if known b then some (pi * (6423 / 1000 / 2 * 100) ^ 2) else none
  | .gain => if known b then some (23 / 10) else none
  | .readnoise => if known b then some (88 / 10) else none
  | .darkcurrent => if known b then some (2 / 10) else none
  | .othernoise => if known b then some 0 else none
  | .platescale => if known b then some (2 / 10) else none
  | .sigmaSys =>
    match b with
    | .u | .z | .y => some (75 / 10000)
    | .g | .r | .i | .any => some (5 / 1000)
    | .other _ => none

/-- Order in which parameters are checked, `photometric_parameters.py:268-308`. -/
def allFields : List Field_ :=
  [.exptime, .nexp, .effarea, .gain, .platescale, .sigmaSys, .readnoise, .darkcurrent, .othernoise]

/-- The constructor, `photometric_parameters.py:209-308`; `none` if it raises. -/
def construct (pi : K) (bandpass : Option BandName) (given : Field_ → Option K) :
    Option (Field_ → K) :=
  let key := bandpass.getD .any
  let value := fun f => (given f).or (default pi key f)
  if allFields.all fun f => (value f).isSome then some fun f => (value f).getD 0 else none

end Verif.SedFiles
