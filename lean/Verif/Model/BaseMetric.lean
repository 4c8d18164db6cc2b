import Mathlib.Data.List.SplitOn
import Verif.Model.Names

/-!
# Registries and the base class of metrics

Models of `rubin_sim/maf/metrics/base_metric.py`, of the registries of `base_map.py`, `base_stacker.py` and
`base_slicer.py`, of `get_col_info.py`, of the names of reduced metrics (`metric_bundle.py:703-749`,
`metric_bundle_group.py:576-600`) and of `MetricBundleGroup.read_all` (`metric_bundle_group.py:750-835`).

Texts are lists of characters, dictionaries are lists of pairs with one pair for each key, in the order of
insertion. Classes are numbers. Printing and warnings are left out.
-/

namespace Verif.BaseM

abbrev Str := List Char

variable {K V : Type} [DecidableEq K]

/-- `d[k] = v` -/
def put (d : List (K × V)) (k : K) (v : V) : List (K × V) :=
  match d with
  | [] => [(k, v)]
  | (k', v') :: r => if k = k' then (k, v) :: r else (k', v') :: put r k v

/-! ## Registries -/

/-- A class: the name of its module, its own name, and the class itself. -/
structure Def where
  mod : Str
  name : Str
  cls : ℕ

/-- `base_metric.py:22-30`, the same in `base_map.py:16-24` and `base_stacker.py:21-29`. -/
def fullName (pkg : Str) (d : Def) : Str :=
  if pkg.isPrefixOf d.mod then d.name
  else if (d.mod.splitOn '.').length > 1 then ['.'].intercalate (d.mod.splitOn '.').dropLast ++ ['.'] ++ d.name
  else d.mod ++ ['.'] ++ d.name

/-- `base_slicer.py:24-27`. -/
def slicerName (pkg : Str) (d : Def) : Str :=
  if pkg.isPrefixOf (d.mod ++ ['.']) then d.name else d.mod ++ ['.'] ++ d.name

/-- `base_metric.py:31-34`: a second definition replaces the first. -/
def addMetric (reg : List (Str × ℕ)) (d : Def) : List (Str × ℕ) :=
  let n := fullName "rubin_sim.maf.metrics".toList d
  if n ∈ ["BaseMetric".toList, "SimpleScalarMetric".toList] then reg else put reg n d.cls

/-- `base_map.py:25-28`, `base_stacker.py:30-35` and `base_slicer.py:28-31`: a second definition is an exception;
`skip` are the names that are left out. -/
def addOnce (name : Def → Str) (skip : List Str) (reg : List (Str × ℕ)) (d : Def) : Except String (List (Str × ℕ)) :=
  if (reg.lookup (name d)).isSome then .error "Exception"
  else if name d ∈ skip then .ok reg else .ok (put reg (name d) d.cls)

/-- Definitions one after the other, until an exception. -/
def addAll (name : Def → Str) (skip : List Str) : List Def → List (Str × ℕ) → Except String (List (Str × ℕ))
  | [], reg => .ok reg
  | d :: ds, reg =>
    match addOnce name skip reg d with
    | .error e => .error e
    | .ok reg' => addAll name skip ds reg'

/-- The registry of maps, `base_map.py:17` and 27. -/
def addMaps : List Def → List (Str × ℕ) → Except String (List (Str × ℕ)) := addAll (fullName "rubin_sim.maf.maps".toList) ["BaseMaps".toList]

/-- The registry of stackers, `base_stacker.py:22` and 34. -/
def addStackers : List Def → List (Str × ℕ) → Except String (List (Str × ℕ)) := addAll (fullName "rubin_sim.maf.stackers".toList) ["BaseStacker".toList]

/-- The registry of slicers, `base_slicer.py:25` and 30. -/
def addSlicers : List Def → List (Str × ℕ) → Except String (List (Str × ℕ)) :=
  addAll (slicerName "rubin_sim.maf.slicers".toList) ["BaseSlicer".toList, "BaseSpatialSlicer".toList]

/-! ## Columns -/

/-- A class of stackers: the columns that it adds and their units, which can be `None`. -/
structure Stacker where
  cls : ℕ
  cols : List Str
  units : List (Option Str)

/-- `ColInfo.__init__`, `get_col_info.py:52-57`: sources and units; `known` are the units of the table in the code. -/
def colInfo (known : List (Str × Option Str)) (reg : List Stacker) : List (Str × ℕ) × List (Str × Option Str) :=
  reg.foldl (fun st s => (s.cols.zip s.units).foldl (fun st cu => (put st.1 cu.1 s.cls, put st.2 cu.1 cu.2)) st) ([], known)

/-- `get_units`, `get_col_info.py:62-80`. -/
def getUnits (info : List (Str × ℕ) × List (Str × Option Str)) (col : Option Str) : Option Str :=
  match col with
  | none => some []
  | some c => (info.2.lookup c).getD (some [])

/-- `ColRegistry`: the columns, those of the database, and those of stackers with their classes. -/
structure ColReg where
  cols : List Str
  db : List Str
  stackers : List (Str × ℕ)

/-- `ColRegistry.__init__`, `base_metric.py:67-70`. -/
def ColReg.empty : ColReg := ⟨[], [], []⟩

/-- One step of `add_cols`, `base_metric.py:89-96`. -/
def addCol (source : Str → Option ℕ) (r : ColReg) (col : Option Str) : ColReg :=
  match col with
  | none => r
  | some c =>
    let cols := if c ∈ r.cols then r.cols else c :: r.cols
    match source c with
    | none => { r with cols := cols, db := if c ∈ r.db then r.db else c :: r.db }
    | some s => { r with cols := cols, stackers := if (r.stackers.lookup c).isSome then r.stackers else put r.stackers c s }

/-- What is done with the registry. -/
inductive RegOp
  | clear
  | add (cols : List (Option Str))

/-- `clear_reg` and `add_cols`, `base_metric.py:72-96`. -/
def regStep (source : Str → Option ℕ) (r : ColReg) : RegOp → ColReg
  | .clear => .empty
  | .add cols => cols.foldl (addCol source) r

/-! ## Names, types and units of metrics -/

/-- `t.replace(pat, "", 1)` for a pattern that is not empty. -/
def removeFirst (pat : Str) : Str → Str
  | [] => []
  | c :: t => if pat.isPrefixOf (c :: t) then (c :: t).drop pat.length else c :: removeFirst pat t

/-- `t.replace(pat, "")` for a pattern that is not empty; the number bounds the steps. -/
def removeAll (pat : Str) : ℕ → Str → Str
  | 0, t => t
  | _, [] => []
  | n + 1, c :: t => if pat.isPrefixOf (c :: t) then removeAll pat n ((c :: t).drop pat.length) else c :: removeAll pat n t

/-- `str` of a column. -/
def colStr : Option Str → Str
  | none => "None".toList
  | some c => c

/-- `base_metric.py:159-167`. -/
def metricName (given : Option Str) (cls : Str) (cols : List (Option Str)) : Str :=
  match given with
  | some n => n
  | none => removeFirst "Metric".toList cls ++ [' '] ++ [',', ' '].intercalate (cols.map colStr)

/-- `" ".join`, which takes texts only. -/
def joinUnits : List (Option Str) → Except String Str
  | [] => .ok []
  | us => if us.any Option.isNone then .error "TypeError" else .ok ([' '].intercalate (us.map (fun u => u.getD [])))

/-- `base_metric.py:185-189`. -/
def metricUnits (info : List (Str × ℕ) × List (Str × Option Str)) (given : Option Str) (cols : List (Option Str)) : Except String Str :=
  match given with
  | some u => .ok u
  | none =>
    match joinUnits (cols.map (getUnits info)) with
    | .error e => .error e
    | .ok u => if u.all (fun c => c = ' ') then .ok [] else .ok u

/-- The names of functions that are added in `base_metric.py:171-176`; `ms` are the methods with their places, in
alphabetical order. `reduce_funcs` has the name of the method, `reduce_order` its place. -/
def reduces (ms : List (ℕ × Str)) : List (Str × Str) × List (Str × ℕ) :=
  ms.foldl (fun st m =>
    if "reduce".toList.isPrefixOf m.2 then
      let k := removeFirst "reduce_".toList m.2
      (put st.1 k m.2, put st.2 k m.1)
    else st) ([], [])

/-- `base_metric.py:178-183`. -/
def metricDtype (given : Option Str) (funcs : List (Str × Str)) : Str :=
  match given with
  | some t => t
  | none => if funcs.length > 0 then "object".toList else "float".toList

/-- `metric_bundle.py:703-707`, with the name of the function from `metric_bundle_group.py:583`. -/
def reducedName (metric key : Str) : Str := metric ++ ['_'] ++ removeAll "reduce_".toList key.length key

/-- `metric_bundle.py:746`. -/
def reducedOrder (order : List (Str × ℕ)) (key : Str) : Except String ℕ :=
  match order.lookup (removeAll "reduce_".toList key.length key) with
  | none => .error "KeyError"
  | some i => .ok i

/-- `metric_bundle_group.py:782`; `fn` is `__name__` of the function. -/
def readName (metric fn : Str) : Str := metric ++ ['_'] ++ removeAll "reduce".toList fn.length fn

/-- `_build_file_root`, `metric_bundle.py:269-278`. -/
def fileRoot (run metric info slicer : Str) : Str := Names.sanitize (run ++ ['_'] ++ metric ++ ['_'] ++ info ++ ['_'] ++ slicer)

/-! ## Reading -/

/-- A bundle: the name of its metric, the rest of its file name, and the functions of its metric. -/
structure Bun where
  metric : Str
  run : Str
  info : Str
  slicer : Str
  funcs : List Str

/-- The name of the file of a metric of this name. -/
def Bun.root (b : Bun) (metric : Str) : Str := fileRoot b.run metric b.info b.slicer

/-- `metric_bundle_group.py:781-820`: the attribute of line 802 does not exist, which is not an `IOError`. -/
def readReduced {D : Type} (files : Str → Option D) (b : Bun) : List Str → Except String Unit
  | [] => .ok ()
  | f :: fs =>
    match files (b.root (readName b.metric f)) with
    | none => readReduced files b fs
    | some _ => .error "AttributeError"

/-- `read_all`, `metric_bundle_group.py:750-835`: the bundles that are left, with their values. -/
def readAll {D : Type} (files : Str → Option D) : List (Str × Bun) → Except String (List (Str × D))
  | [] => .ok []
  | (k, b) :: bs =>
    match readReduced files b b.funcs with
    | .error e => .error e
    | .ok () =>
      match readAll files bs with
      | .error e => .error e
      | .ok r =>
        match files (b.root b.metric) with
        | none => .ok r
        | some d => .ok ((k, d) :: r)

/-! ## Order of the time scales -/

/-- `galplane_time_sampling_metrics.py:107-108` and 204-205: the orders are put in after those of the base class.
`pre` is what is left of the text in front, `taus` are the numbers as texts. -/
def tauOrder (pre : Str) (order : List (Str × ℕ)) (taus : List Str) : List (Str × ℕ) :=
  (taus.zipIdx).foldl (fun o t => put o (pre ++ t.1) t.2) order

/-- `reduceTau_` without `reduce`, line 108. -/
def preVisit : Str := removeAll "reduce".toList 10 "reduceTau_".toList

/-- `reduce_Tau_` without `reduce`, line 205. -/
def preGaps : Str := removeAll "reduce".toList 11 "reduce_Tau_".toList

end Verif.BaseM
