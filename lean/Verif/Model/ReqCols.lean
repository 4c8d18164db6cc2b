import Mathlib.Data.Finset.Basic
import Mathlib.Data.Finset.Card

/-!
# Model of `MetricBundle._find_req_cols`
(`rubin_sim/maf/metric_bundles/metric_bundle.py:280-330`) and of
`ColInfo.get_data_source` (`rubin_sim/maf/stackers/get_col_info.py:82-104`)

Python sets of stacker classes are iterated in an unspecified order: `enum` is an
arbitrary enumeration of a finite set.
-/

namespace Verif.ReqCols

variable {C : Type*} [DecidableEq C]

/-- `get_col_info.py:52-57,82-104` and the default instances `s()` of the stacker
classes: `source col` is `get_data_source(col)` (`none` = database), `colsReq c`
is `c().cols_req`. -/
structure Registry (C : Type*) where
  source : String → Option C
  colsReq : C → List String

/-- A stacker instance: its class and its `cols_req`. -/
structure Inst (C : Type*) where
  cls : C
  colsReq : List String
  deriving DecidableEq

/-- Local state of the method: `self.db_cols`, `self.stacker_list`,
`new_stackers`. -/
structure St (C : Type*) where
  db : Finset String
  stackers : List (Inst C)
  new : Finset C

/-- `metric_bundle.py:296-302` and `317-321`: the loop over a set of columns. -/
def classify (r : Registry C) (cols : List String) (db : Finset String) : Finset String × Finset C :=
  (db ∪ (cols.filter (fun c => (r.source c).isNone)).toFinset, (cols.filterMap r.source).toFinset)

/-- `metric_bundle.py:303-306` and `322-324`: drop classes already in the list. -/
def dropKnown (stackers : List (Inst C)) (new : Finset C) : Finset C :=
  new.filter (fun c => ∀ s ∈ stackers, s.cls ≠ c)

/-- `metric_bundle.py:287-306`: before the `while`. -/
def initSt (r : Registry C) (slicerCols metricCols : List String) (given : List (Inst C)) : St C :=
  let known := slicerCols ++ metricCols ++ given.flatMap Inst.colsReq
  let x := classify r known ∅
  { db := x.1, stackers := given, new := dropKnown given x.2 }

/-- `metric_bundle.py:308-324`: one pass of the `while` body. -/
def body (r : Registry C) (enum : Finset C → List C) (st : St C) : St C :=
  let added := (enum st.new).map (fun c => Inst.mk c (r.colsReq c))
  let stackers := st.stackers ++ added
  let x := classify r (added.flatMap Inst.colsReq) st.db
  { db := x.1, stackers := stackers, new := dropKnown stackers x.2 }

/-- `metric_bundle.py:308-324`: the `while` loop, `none` when not finished within
`fuel` passes. -/
def loop (r : Registry C) (enum : Finset C → List C) : Nat → St C → Option (St C)
  | 0, st => if st.new = ∅ then some st else none
  | fuel + 1, st => if st.new = ∅ then some st else loop r enum fuel (body r enum st)

/-- `metric_bundle.py:280-330`: the whole method, returning the database columns
and the stacker list. -/
def findReqCols (r : Registry C) (enum : Finset C → List C) (fuel : Nat)
    (slicerCols metricCols : List String) (given : List (Inst C)) :
    Option (Finset String × List (Inst C)) :=
  (loop r enum fuel (initSt r slicerCols metricCols given)).map
    (fun st => ((st.db.erase "metricdata").erase "None", st.stackers))

end Verif.ReqCols
