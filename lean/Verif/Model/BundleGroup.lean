import Mathlib.Data.Finset.Basic
import Mathlib.Data.List.Basic
import Mathlib.Logic.Function.Basic

/-!
# Model of `rubin_sim/maf/metric_bundles/metric_bundle_group.py`

* `_check_compatible` (144-177), `_find_compatible_lists` (179-215);
* the collection of unique stackers and the stacker runs (424-441);
* the slice loop of `_run_compatible` with and without the cache (458-533).

Not modelled: the database query, verbose printing, plotting, writing to disk,
exceptions raised inside metrics (metrics are total functions here).
-/

namespace Verif.Bundles

section Compat
/-- What `_check_compatible` looks at. `S` slicers, `T` stackers, `M` maps. -/
structure Bundle (S T M : Type*) where
  constraint : String
  slicer : S
  maps : List M
  stackers : List T

/-- The equality tests the code uses: `slicer1 != slicer2` (`BaseSlicer.__eq__`),
`stacker != stacker2` (`base_stacker.py:84-120`) and the class names of the
stackers. They are parameters because slicers and stackers are open classes. -/
structure EqTests (S T : Type*) where
  slicerEq : S → S → Bool
  cls : T → String
  stackerEq : T → T → Bool

variable {S T M κ : Type*} [DecidableEq κ]

/-- `list.sort()` sorts in place and returns `None`. -/
def pySortResult (_ : List M) : Option Unit := none

/-- `metric_bundle_group.py:144-177`. Line 168 compares the *results* of the two
`sort()` calls, i.e. `None != None`. -/
def checkCompatible (q : EqTests S T) (b1 b2 : Bundle S T M) : Bool :=
  if b1.constraint ≠ b2.constraint then false
  else if !q.slicerEq b1.slicer b2.slicer then false
  else if pySortResult b1.maps ≠ pySortResult b2.maps then false
  else if b1.stackers.any (fun s => b2.stackers.any (fun s2 =>
      (q.cls s == q.cls s2) && !q.stackerEq s s2)) then false
  else true

/-- `metric_bundle_group.py:197-203`: scan of the remaining members with `break`;
the local `compatible` it leaves behind is not read afterwards. -/
def scanRest (compat : κ → κ → Bool) (k : κ) : List κ → Bool
  | [] => true
  | m :: ms => if compat m k then scanRest compat k ms else false

/-- `metric_bundle_group.py:187-206`: body of the loop over existing lists. The
append happens whatever the scan found. Returns the found flag. -/
def offerTo (compat : κ → κ → Bool) (k : κ) : List κ → Bool × List κ
  | [] => (false, [])
  | h :: t =>
    if compat h k then
      let _compatible := scanRest compat k t
      (true, (h :: t) ++ [k])
    else (false, h :: t)

/-- `metric_bundle_group.py:184-214`: one bundle of the current dict. -/
def placeKey (compat : κ → κ → Bool) (lists : List (List κ)) (k : κ) : List (List κ) :=
  let r := lists.map (offerTo compat k)
  let lists' := r.map Prod.snd
  if r.any Prod.fst then lists' else lists' ++ [[k]]

/-- `metric_bundle_group.py:179-215`: `compat` is `_check_compatible` on the
bundles of two keys (first argument: the member of the list). -/
def findCompatibleLists (compat : κ → κ → Bool) (keys : List κ) : List (List κ) :=
  keys.foldl (placeKey compat) []

end Compat

section Stackers
variable {T D : Type*}

/-- `metric_bundle_group.py:424-436`: `uniq_stackers` keeps the first of equal
stackers in order (`in` uses `__eq__`). -/
def uniqStackers (eq : T → T → Bool) (all : List T) : List T :=
  all.foldl (fun u s => if u.any (fun x => eq x s) then u else u ++ [s]) []

/-- `metric_bundle_group.py:438-441`: run the stackers one after the other, each
overriding existing columns, on the shared `self.sim_data`. -/
def runStackers (run : T → D → D) (ss : List T) (d : D) : D :=
  ss.foldl (fun d s => run s d) d

/-- The table a group of bundles (given by their stacker lists) is evaluated on. -/
def groupData (eq : T → T → Bool) (run : T → D → D) (stackerLists : List (List T)) (d : D) : D :=
  runStackers run (uniqStackers eq stackerLists.flatten) d

/-- `metric_bundle_group.py:336-348`: the groups of one constraint are run one
after the other on the *same* `self.sim_data`, which each group replaces by its
stacked version. Returns the table each group sees. -/
def groupsData (eq : T → T → Bool) (run : T → D → D) : List (List (List T)) → D → List D
  | [], _ => []
  | g :: gs, d =>
    let d' := groupData eq run g d
    d' :: groupsData eq run gs d'

end Stackers

section Run
variable {ρ β P V : Type*} [DecidableEq ρ]

/-- One item of the slicer iteration: `slice_point["sid"]`, the slice point and
the rows selected by `idxs`. -/
structure Slice (ρ P : Type*) where
  sid : Nat
  point : P
  idxs : List ρ

/-- Metric values of all bundles of the group during the loop: `data b i` and
`mask b i`, plus the `OrderedDict` cache (oldest entry first). -/
structure RunState (ρ β V : Type*) where
  data : β → Nat → V
  mask : β → Nat → Bool
  cache : List (Finset ρ × Nat)

/-- `metric_bundle_group.py:478-483` (`len(slicedata) == 0`). -/
def maskSlice (st : RunState ρ β V) (i : Nat) : RunState ρ β V :=
  { st with mask := fun b => Function.update (st.mask b) i true }

/-- `metric_bundle_group.py:511-522`: direct evaluation. -/
def evalSlice (metric : β → P → List ρ → V) (st : RunState ρ β V) (s : Slice ρ P) : RunState ρ β V :=
  { st with data := fun b => Function.update (st.data b) s.sid (metric b s.point s.idxs) }

/-- Dictionary lookup `cache_dict[key]`. -/
def cacheGet (c : List (Finset ρ × Nat)) (k : Finset ρ) : Option Nat :=
  (c.find? (fun e => decide (e.1 = k))).map Prod.snd

/-- `del cache_dict[key]`. -/
def cacheDel (c : List (Finset ρ × Nat)) (k : Finset ρ) : List (Finset ρ × Nat) :=
  c.filter (fun e => decide (e.1 ≠ k))

/-- `metric_bundle_group.py:506-509`: drop the oldest entry when too long. -/
def cacheEvict (size : Nat) (c : List (Finset ρ × Nat)) : List (Finset ρ × Nat) :=
  if c.length > size then c.tail else c

/-- `metric_bundle_group.py:486-509`: one non-empty slice with the cache. -/
def cachedSlice (size : Nat) (metric : β → P → List ρ → V) (st : RunState ρ β V) (s : Slice ρ P) :
    RunState ρ β V :=
  let key := s.idxs.toFinset
  match cacheGet st.cache key with
  | some j =>
    { st with
      data := fun b => Function.update (st.data b) s.sid (st.data b j)
      cache := cacheEvict size (cacheDel st.cache key ++ [(key, j)]) }
  | none =>
    let st' := evalSlice metric st s
    { st' with cache := cacheEvict size (st.cache ++ [(key, s.sid)]) }

/-- `metric_bundle_group.py:477-522`: one slice. `cacheSize = 0` means no cache
(458-465). -/
def sliceStep (cacheSize : Nat) (metric : β → P → List ρ → V) (st : RunState ρ β V) (s : Slice ρ P) :
    RunState ρ β V :=
  if s.idxs.length = 0 then maskSlice st s.sid
  else if cacheSize > 0 then cachedSlice cacheSize metric st s
  else evalSlice metric st s

/-- `metric_bundle_group.py:523-533`: mask bad values. `isBad b v` is
`v == badval` (or `is badval` for object arrays). -/
def maskBad (isBad : β → V → Bool) (st : RunState ρ β V) : RunState ρ β V :=
  { st with mask := fun b i => isBad b (st.data b i) || st.mask b i }

/-- `metric_bundle_group.py:454-533`: the slice loop and the final masking.
`garbage` is the content of `np.empty`, `mask0` the initial mask
(`metric_bundle.py:224-240`: all `False`, or the slicer's own mask). -/
def runSlices (cacheSize : Nat) (metric : β → P → List ρ → V) (isBad : β → V → Bool)
    (garbage : β → Nat → V) (mask0 : Nat → Bool) (slices : List (Slice ρ P)) : RunState ρ β V :=
  maskBad isBad (slices.foldl (sliceStep cacheSize metric)
    { data := garbage, mask := fun _ => mask0, cache := [] })

end Run

end Verif.Bundles
