import Mathlib.Data.Rat.Defs
import Mathlib.Logic.Function.Basic
import Verif.Model.BundleGroup

/-!
# Moving object slicer and bundle groups

Model of `maf/slicers/mo_slicer.py` and `maf/metric_bundles/mo_metric_bundle.py`. Orbits and observations are
lists, the identity of an object is a value of a type with equality (the code compares through the text of a query),
and files are functions from names to contents. Metrics, stackers and child metrics are functions. The table given to the
stackers is a value of any type, its number of rows is that of the observations. Plots, summary statistics and the results
database are left out.
-/

namespace Verif.MoB

/-! ## The slicer -/

section Slicer
variable {I O R : Type} [DecidableEq I]

/-- A row of the orbits: object, H magnitude, and the rest. -/
structure Orbit (I R : Type) where
  id : I
  h : ℚ
  rest : R

/-- A slicer that has been set up (`mo_slicer.py:28-64`); `oid` is the object of an observation. -/
structure Slicer (I O R : Type) where
  orbitFile : String
  obsFile : Option String
  orbits : List (Orbit I R)
  obs : List O
  hrange : Option (List ℚ)

/-- `mo_slicer.py:74-85`: the shape. -/
def Slicer.shape (s : Slicer I O R) : ℕ × ℕ :=
  match s.hrange with
  | some hs => (s.orbits.length, hs.length)
  | none => (s.orbits.length, 1)

/-- `mo_slicer.py:85`. -/
def Slicer.nslice (s : Slicer I O R) : ℕ := s.shape.1 * s.shape.2

/-- `mo_slicer.py:78-83`: `slice_points["H"]`. -/
def Slicer.hPoints (s : Slicer I O R) : List ℚ :=
  match s.hrange with
  | some hs => hs
  | none => s.orbits.map fun o => o.h

/-- One slice. -/
structure Slice (I O R : Type) where
  obs : List O
  orbit : Orbit I R
  hvals : List ℚ

/-- `mo_slicer.py:107-114`: `subset_obs` (`q` is the query, `none` if there is no constraint). -/
def subsetObs (q : Option (O → Bool)) (all : List O) : List O :=
  match q with
  | none => all
  | some q => all.filter q

/-- `mo_slicer.py:116-143`: `_slice_obs`. -/
def sliceObs (oid : O → I) (s : Slicer I O R) (idx : ℕ) : Option (Slice I O R) :=
  (s.orbits[idx]?).map fun orb =>
    ⟨s.obs.filter fun o => decide (oid o = orb.id), orb,
      match s.hrange with
      | some hs => hs
      | none => [orb.h]⟩

/-- `mo_slicer.py:150-156`: `__next__`: `none` for `StopIteration`; the state is `self.idx`. -/
def next (oid : O → I) (s : Slicer I O R) (idx : ℕ) : Option (Slice I O R) × ℕ :=
  if s.orbits.length ≤ idx then (none, idx) else (sliceObs oid s idx, idx + 1)

/-- The loop of Python over the slicer, with at most `fuel` rounds. -/
def iterFrom (oid : O → I) (s : Slicer I O R) : ℕ → ℕ → List (Slice I O R)
  | 0, _ => []
  | fuel + 1, idx =>
    match next oid s idx with
    | (none, _) => []
    | (some p, idx') => p :: iterFrom oid s fuel idx'

/-- `mo_slicer.py:145-148`: `__iter__` starts again, whatever `self.idx` was; the rounds end after the
last orbit. -/
def iter (oid : O → I) (s : Slicer I O R) (_idx : ℕ) : List (Slice I O R) :=
  iterFrom oid s (s.orbits.length + 1) 0

/-- `mo_slicer.py:163-171`: `__eq__`. -/
def slicerEq (s t : Slicer I O R) : Bool :=
  if t.orbitFile = s.orbitFile then
    if t.obsFile = s.obsFile then decide (t.hPoints = s.hPoints) else false
  else false

end Slicer

/-! ## Groups of bundles -/

section Groups
variable {κ S O D Orb V Q σ : Type} [DecidableEq κ] [DecidableEq V] [DecidableEq Q]

/-- A child bundle: its metric gets the value of the parent. -/
structure Child (D Orb V : Type) where
  metric : D → Orb → ℚ → V → V
  bad : V

/-- A bundle; `Q` is the type of constraints. -/
structure Bundle (S D Orb V Q σ : Type) where
  constraint : Option Q
  slicer : σ
  stackers : List S
  metric : D → Orb → ℚ → V
  bad : V
  children : List (Child D Orb V)

/-- `mo_metric_bundle.py:395-425`: `_check_compatible`. `cls` is the class name of a stacker, `eq` its `__eq__`. The
maps are compared by what `sort()` returns, which is always `None`. -/
def checkCompatible {N : Type} [DecidableEq N] (slEq : σ → σ → Bool) (cls : S → N) (eq : S → S → Bool)
    (a b : Bundle S D Orb V Q σ) : Bool :=
  if a.constraint ≠ b.constraint then false
  else if !slEq a.slicer b.slicer then false
  else !(a.stackers.any fun s => b.stackers.any fun t => decide (cls s = cls t) && !eq s t)

/-- `mo_metric_bundle.py:455-479`: one key. The loop over the lists overwrites the flag; after it, the name of the
loop variable is the last list. -/
def place (compat : κ → κ → Bool) (lists : List (List κ)) (k : κ) : List (List κ) :=
  let found := lists.foldl (fun _ l => l.all fun c => compat c k) false
  if found then
    match lists.getLast? with
    | some l => lists.dropLast ++ [l ++ [k]]
    | none => lists
  else lists ++ [[k]]

/-- `mo_metric_bundle.py:427-480`: `_find_compatible`, for keys of the dict. -/
def findCompatible (compat : κ → κ → Bool) (keys : List κ) : List (List κ) :=
  keys.foldl (place compat) []

/-- A masked array of metric values. -/
structure Arr (V : Type) where
  data : ℕ → ℕ → V
  mask : ℕ → ℕ → Bool

def Arr.setMask (a : Arr V) (i j : ℕ) : Arr V :=
  ⟨a.data, fun x y => if x = i ∧ y = j then true else a.mask x y⟩

def Arr.setData (a : Arr V) (i j : ℕ) (v : V) : Arr V :=
  ⟨fun x y => if x = i ∧ y = j then v else a.data x y, a.mask⟩

/-- The values of a bundle and of its children. -/
structure Vals (V : Type) where
  self : Arr V
  kids : List (Arr V)

/-- `metric_bundle.py:224-240`: `_setup_metric_values` (the contents of the new array are anything). -/
def setupVals (junk : V) (b : Bundle S D Orb V Q σ) : Vals V :=
  ⟨⟨fun _ _ => junk, fun _ _ => false⟩, b.children.map fun _ => ⟨fun _ _ => junk, fun _ _ => false⟩⟩

/-- Mask of the bundle and its children (`mo_metric_bundle.py:568-570` and 578-580). -/
def Vals.maskAll (v : Vals V) (i j : ℕ) : Vals V := ⟨v.self.setMask i j, v.kids.map fun a => a.setMask i j⟩

/-- `mo_metric_bundle.py:586-590`: a child. -/
def evalChild (d : D) (o : Orb) (h : ℚ) (i j : ℕ) (m : V) (c : Child D Orb V) (a : Arr V) : Arr V :=
  let w := c.metric d o h m
  if w = c.bad then a.setMask i j else a.setData i j w

/-- `mo_metric_bundle.py:564-590`: one bundle, one object, one H value. -/
def evalCell (b : Bundle S D Orb V Q σ) (rows : ℕ) (d : D) (o : Orb) (h : ℚ) (i j : ℕ) (v : Vals V) : Vals V :=
  if rows = 0 then v.maskAll i j
  else
    let m := b.metric d o h
    if m = b.bad then v.maskAll i j
    else ⟨v.self.setData i j m, List.zipWith (evalChild d o h i j m) b.children v.kids⟩

/-- `mo_metric_bundle.py:563-590`: all bundles of the list. -/
def keysLoop (bd : κ → Bundle S D Orb V Q σ) (keys : List κ) (rows : ℕ) (d : D) (o : Orb) (h : ℚ) (i j : ℕ)
    (st : κ → Vals V) : κ → Vals V :=
  keys.foldl (fun st k => Function.update st k (evalCell (bd k) rows d o h i j (st k))) st

/-- `mo_metric_bundle.py:560-561` with `mo_stackers.py:32-45`: the stackers; nothing is done for no rows. -/
def stack (run : S → ℚ → ℚ → D → D) (ss : List S) (rows : ℕ) (href h : ℚ) (d : D) : D :=
  ss.foldl (fun d s => if rows = 0 then d else run s href h d) d

/-- `mo_metric_bundle.py:556-590`: the H values of an object. The table of one H value is used for the next one. -/
def hLoop (run : S → ℚ → ℚ → D → D) (ss : List S) (bd : κ → Bundle S D Orb V Q σ) (keys : List κ) (rows : ℕ) (o : Orb)
    (href : ℚ) (i : ℕ) : List ℚ → ℕ → D → (κ → Vals V) → κ → Vals V
  | [], _, _, st => st
  | h :: hs, j, d, st =>
    let d' := stack run ss rows href h d
    hLoop run ss bd keys rows o href i hs (j + 1) d' (keysLoop bd keys rows d' o h i j st)

/-- What `enumerate(self.slicer)` gives: number of rows, table, orbit, its H and the H values. -/
structure Point (D Orb : Type) where
  rows : ℕ
  table : D
  orbit : Orb
  href : ℚ
  hvals : List ℚ

/-- `mo_metric_bundle.py:554-590`. -/
def sLoop (run : S → ℚ → ℚ → D → D) (ss : List S) (bd : κ → Bundle S D Orb V Q σ) (keys : List κ) :
    List (Point D Orb) → ℕ → (κ → Vals V) → κ → Vals V
  | [], _, st => st
  | p :: ps, i, st =>
    sLoop run ss bd keys ps (i + 1) (hLoop run ss bd keys p.rows p.orbit p.href i p.hvals 0 p.table st)

/-- `mo_metric_bundle.py:526-590`: `_run_compatible`. The stackers are those of all the bundles of the group, also
of those not in the list (line 534). -/
def runCompatible (eq : S → S → Bool) (run : S → ℚ → ℚ → D → D) (junk : V) (all : List κ) (bd : κ → Bundle S D Orb V Q σ)
    (keys : List κ) (points : List (Point D Orb)) (st : κ → Vals V) : κ → Vals V :=
  let ss := Bundles.uniqStackers eq (all.flatMap fun k => (bd k).stackers)
  let st := keys.foldl (fun st k => Function.update st k (setupVals junk (bd k))) st
  sLoop run ss bd keys points 0 st

/-- `mo_metric_bundle.py:482-509`: `run_constraint`; `points c` are the slices of the observations that meet the
constraint. -/
def runConstraint (compat : κ → κ → Bool) (eq : S → S → Bool) (run : S → ℚ → ℚ → D → D) (junk : V) (all : List κ)
    (bd : κ → Bundle S D Orb V Q σ) (points : Option Q → List (Point D Orb)) (c : Option Q) (st : κ → Vals V) :
    κ → Vals V :=
  let matching := all.filter fun k => decide ((bd k).constraint = c)
  if matching.length = 0 then st
  else (findCompatible compat matching).foldl (fun st l => runCompatible eq run junk all bd l (points c) st) st

/-- `mo_metric_bundle.py:601-604`: `run_all`; `cs` is the list of the set of constraints (line 393), in some
order. -/
def runAll (compat : κ → κ → Bool) (eq : S → S → Bool) (run : S → ℚ → ℚ → D → D) (junk : V) (all : List κ)
    (bd : κ → Bundle S D Orb V Q σ) (points : Option Q → List (Point D Orb)) (cs : List (Option Q)) (st : κ → Vals V) :
    κ → Vals V :=
  cs.foldl (fun st c => runConstraint compat eq run junk all bd points c st) st

end Groups

/-! ## Labels and summary metrics -/

/-- `mo_metric_bundle.py:265-278`: `_build_metadata`. The slicer has no attribute `obsfile` (it has
`obs_file`), so that line 273 is used. -/
def infoLabel (_obsFile : Option String) (constraint given : Option String) : String :=
  match given with
  | some l => l
  | none =>
    match constraint with
    | some c => "noObs" ++ " " ++ c
    | none => "noObs"

/-- `metric_bundle.py:263-276`: the default root of the file name (before unwanted characters are
replaced). -/
def fileRoot (runName metricName label slicerName : String) : String :=
  runName ++ "_" ++ metricName ++ "_" ++ label ++ "_" ++ slicerName

/-- `mo_metric_bundle.py:298-316`: the summary metrics of the bundle, and of each child bundle. -/
def setChildBundles {M A : Type} (children : List M) (summary : List A) : List A × List (M × List A) :=
  (if children.length > 0 then [] else summary, children.map fun m => (m, summary))

end Verif.MoB
