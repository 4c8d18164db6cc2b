import Mathlib.Data.List.Dedup
import Verif.Model.BaseMetric
import Verif.Model.ResultsDb

/-!
# Setting up, labelling, writing and plotting bundles

`rubin_sim/maf/metric_bundles/metric_bundle.py` and `metric_bundle_group.py`: what the constructor and the setters make of their arguments, the label
from the constraint, the dictionaries for plots and display, files and the rows in the database of results, plots, and the bookkeeping of a group.

Dictionaries are lists of pairs.  Objects that the code only passes on (stackers, metrics, plotters, figures, values) are arbitrary.
-/

namespace Verif.BunSet

inductive PyErr
  | value | type | attribute | io | other
  deriving DecidableEq, Repr

/-! ## Dictionaries -/

section
variable {V : Type*}

/-- `d[k] = v` -/
def put : List (String × V) → String → V → List (String × V)
  | [], k, v => [(k, v)]
  | (k', v') :: l, k, v => if k' = k then (k, v) :: l else (k', v') :: put l k v

/-- `d.update(e)` -/
def update (d e : List (String × V)) : List (String × V) := e.foldl (fun d p => put d p.1 p.2) d

/-- `del d[k]`, if it is there -/
def del (d : List (String × V)) (k : String) : List (String × V) := d.filter (fun p => decide (p.1 ≠ k))

end

/-! ## Arguments of the constructor -/

/-- An item of a list that is given: an object of the right kind, `None`, or something else. -/
inductive Item (α : Type*)
  | obj (a : α)
  | none
  | bad
  deriving DecidableEq, Repr

/-- An argument: `None`, one object, or a list. -/
inductive Arg (α : Type*)
  | none
  | one (a : α)
  | many (l : List (Item α))

section
variable {α : Type*}

/-- The loop `metric_bundle.py:146-152`. -/
def stackerLoop : List (Item α) → List α → Except PyErr (List α)
  | [], acc => .ok acc
  | .none :: l, acc => stackerLoop l acc
  | .bad :: _, _ => .error .value
  | .obj s :: l, acc => stackerLoop l (acc ++ [s])

/-- `metric_bundle.py:139-154` -/
def stackerList : Arg α → Except PyErr (List α)
  | .none => .ok []
  | .one s => .ok [s]
  | .many l => stackerLoop l []

/-- The loops `metric_bundle.py:346-349` and `375-380`. -/
def objLoop : List (Item α) → List α → Except PyErr (List α)
  | [], acc => .ok acc
  | .obj s :: l, acc => objLoop l (acc ++ [s])
  | _ :: _, _ => .error .value

/-- `set_summary_metrics`, `metric_bundle.py:341-356` -/
def summaryMetrics (identity : α) (slicerName : String) : Arg α → Except PyErr (List α)
  | .one m => .ok [m]
  | .many l => objLoop l []
  | .none => if slicerName = "UniSlicer" then .ok [identity] else .ok []

/-- `set_plot_funcs`, `metric_bundle.py:370-387`.  `plot_funcs is isinstance(...)` is never true of a plotter, which cannot be iterated over.  Those of the slicer
are instances already or are made to be. -/
def plotFuncs (slicers : List α) : Arg α → Except PyErr (List α)
  | .one _ => .error .type
  | .many l => objLoop l []
  | .none => .ok slicers

end

/-! ## Label -/

abbrev Str := List Char

/-- `s.replace(pat, "")` -/
def remove (pat : Str) (s : Str) : Str := BaseM.removeAll pat s.length s

/-- `s.replace("  ", " ")` -/
def oneBlank : Str → Str
  | ' ' :: ' ' :: l => ' ' :: oneBlank l
  | c :: l => c :: oneBlank l
  | [] => []

/-- `s.strip(" ")` -/
def strip (s : Str) : Str := ((s.dropWhile (fun c => c = ' ')).reverse.dropWhile (fun c => c = ' ')).reverse

/-- `_build_metadata`, `metric_bundle.py:249-261` -/
def buildLabel (constraint : Str) (info metadata : Option Str) : Str :=
  match info.or metadata with
  | some l => l
  | none =>
    let l := remove ['\''] (remove "filter".toList (remove ['='] constraint))
    let l := remove "band".toList l
    let l := oneBlank (remove ['"'] l)
    strip l

/-! ## Plot dictionary -/

section
variable {V : Type*}

/-- `metric_bundle.py:399-400` and `442-443` -/
def updateOpt (d : List (String × V)) : Option (List (String × V)) → List (String × V)
  | some e => update d e
  | none => d

/-- `metric_bundle.py:403-415`, for each of the two entries. -/
def dropIf (bad : V → Bool) (k : String) (d : List (String × V)) : List (String × V) :=
  match d.lookup k with
  | some z => if bad z then del d k else d
  | none => d

/-- `set_plot_dict`, `metric_bundle.py:399-415`: `inf` tells whether a value is a number that is not finite, `zero` whether it is 0. -/
def setPlot (inf zero : V → Bool) (d : List (String × V)) (new : Option (List (String × V))) : List (String × V) :=
  dropIf zero "norm_val" (dropIf inf "zp" (updateOpt d new))

/-- The plot dictionary of a reduced bundle, `metric_bundle.py:735-740`: its own is empty before. -/
def reducedPlot (inf zero : V → Bool) (parent : List (String × V)) (given : Option (List (String × V))) : List (String × V) :=
  let d := parent.foldl (fun d p => if (d.lookup p.1).isSome then d else put d p.1 p.2) (setPlot inf zero [] none)
  setPlot inf zero d given

end

/-! ## Display dictionary -/

/-- What a caption is made from: the comment and name of the metric, the name of the slicer, the constraint. -/
structure About where
  comment : Option String
  name : String
  slicer : String
  constraint : String

/-- `" ... %.2f." % x`, where `x` is `None` or a number that is printed as a text. -/
def phrase (text : String) : Option (Option String) → Except PyErr String
  | none => .ok ""
  | some none => .error .type
  | some (some x) => .ok (text ++ x ++ ".")

/-- `metric_bundle.py:448-461`; `zp` and `norm` are the entries of the plot dictionary. -/
def caption (a : About) (zp norm : Option (Option String)) : Except PyErr String :=
  let c := match a.comment with
    | none => a.name ++ " calculated on a " ++ a.slicer ++ " basis" ++
        (if a.constraint ≠ "" then " using a subset of data selected via " ++ a.constraint ++ "." else ".")
    | some c => c
  match phrase " Values plotted with a zeropoint of " zp with
  | .error e => .error e
  | .ok z => match phrase " Values plotted with a normalization value of " norm with
    | .error e => .error e
    | .ok n => .ok (c ++ z ++ n)

section
variable {A : Type*}

/-- `metric_bundle.py:433-438` -/
def defaults (zero : A) : List (String × Option A) := [("group", none), ("subgroup", none), ("order", some zero), ("caption", none)]

/-- `metric_bundle.py:447-461`: the caption is made if there is none. -/
def fillCaption (auto : Except PyErr A) (tmp : List (String × Option A)) : Except PyErr (List (String × Option A)) :=
  match tmp.lookup "caption" with
  | some (some _) => .ok tmp
  | _ => match auto with
    | .error e => .error e
    | .ok c => .ok (put tmp "caption" (some c))

/-- `set_display_dict`, `metric_bundle.py:433-462`: `auto` is the caption that would be made now. -/
def setDisplay (zero : A) (auto : Except PyErr A) (d : List (String × Option A)) (new : Option (List (String × Option A))) :
    Except PyErr (List (String × Option A)) :=
  fillCaption auto (updateOpt (update (defaults zero) d) new)

/-- A number of calls of `set_display_dict`, each with the caption that would be made at its time. -/
def displays (zero : A) : List (Except PyErr A × Option (List (String × Option A))) → List (String × Option A) → Except PyErr (List (String × Option A))
  | [], d => .ok d
  | (auto, new) :: l, d => match setDisplay zero auto d new with
    | .error e => .error e
    | .ok d => displays zero l d

/-- The dictionary of a reduced bundle, `metric_bundle.py:741-751`: made by the constructor (`metric_bundle.py:198-200`), then from the one of its parent, then `order`, then what is given.
`auto` is the caption for the reduced metric when the constructor is run, with an empty plot dictionary, and `auto'` afterwards. -/
def reducedDisplay (zero : A) (auto auto' : Except PyErr A) (parent : List (String × Option A)) (order : A) (given : Option (List (String × Option A))) :
    Except PyErr (List (String × Option A)) :=
  match setDisplay zero auto [] none with
  | .error e => .error e
  | .ok d => match setDisplay zero auto' d (some parent) with
    | .error e => .error e
    | .ok d => setDisplay zero auto' (put d "order" (some order)) given

end

/-! ## Files -/

/-- What a bundle has when it is written. -/
structure Bun (P S V : Type*) where
  metric : Str
  units : Str
  run : Str
  constraint : Str
  label : Str
  plot : List (String × P)
  display : List (String × Option P)
  summary : Option S
  values : V
  root : Str

/-- The parts of the file `base_slicer.py:199-210` that are not the values and the slicer. -/
structure File (P S V : Type*) where
  metric : Str
  constraint : Str
  label : Str
  run : Str
  display : List (String × Option P)
  plot : List (String × P)
  summary : Option S
  values : V

section
variable {P S V : Type*}

/-- `metric_bundle.py:492-495` and `522-525` -/
def outfile (root : Str) (suffix : Option Str) : Str :=
  match suffix with
  | some x => root ++ ['_'] ++ x ++ ".npz".toList
  | none => root ++ ".npz".toList

/-- `write`, `metric_bundle.py:522-536`, without the database. -/
def write (b : Bun P S V) (comment : Str) (suffix : Option Str) : Str × File P S V :=
  (outfile b.root suffix, ⟨b.metric, b.constraint, b.label ++ comment, b.run, b.display, b.plot, b.summary, b.values⟩)

/-- `read`, `metric_bundle.py:567-606`, of a file that is there.  `str` is the text of an entry of the plot dictionary. -/
def read (str : P → Str) (inf zero : P → Bool) (zeroP : P) (auto : Except PyErr P) (name : Str) (f : File P S V) : Except PyErr (Bun P S V) :=
  let plot := setPlot inf zero [] (some f.plot)
  match setDisplay zeroP auto [] (some f.display) with
  | .error e => .error e
  | .ok display => .ok
      { metric := f.metric
        units := match f.plot.lookup "units" with
          | some u => str u
          | none => []
        run := f.run
        constraint := f.constraint
        label := f.label
        plot := plot
        display := display
        summary := f.summary
        values := f.values
        root := remove ".npz".toList name }

end

/-- `write` with a database (`metric_bundle.py:522-538`, `492-505`): the name of the file, and the database, in which no suffix is given. -/
def writeDb {K : Type*} (db : Db.DB K) (a : Db.MetricArgs) (root : Str) (suffix : Option Str) : Str × Db.DB K :=
  (outfile root suffix, (Db.updateMetric db { a with datafile := some (String.ofList (outfile root none)) }).1)

/-! ## Plots -/

/-- `plot`, `metric_bundle.py:797-816`: with a plotter (and its type), or with those of the bundle; the attribute `plotType` does not exist. -/
def plot {Fig α : Type*} (draw : α → Fig) (typ : α → String) (given : Option α) (funcs : List α) : Except PyErr (List (String × Fig)) :=
  match given with
  | some _ => .error .attribute
  | none => .ok (funcs.foldl (fun d p => put d (typ p) (draw p)) [])

/-- `plot_current`, `metric_bundle_group.py:714-726`: the bundles that were plotted, those for which there was a warning, and the error at which it stopped. -/
def plotCurrent {B : Type*} (result : B → Except PyErr Unit) : List B → List B × List B × Option PyErr
  | [] => ([], [], none)
  | b :: l => match result b with
    | .ok _ => let r := plotCurrent result l; (b :: r.1, r.2.1, r.2.2)
    | .error .value => let r := plotCurrent result l; (r.1, b :: r.2.1, r.2.2)
    | .error e => ([], [], some e)

/-! ## Group -/

section
variable {B C : Type*} [DecidableEq C]

/-- `set_current`, `metric_bundle_group.py:257-262` -/
def current (constraint : B → String) (d : List (String × B)) (c : Option String) : List (String × B) :=
  let c := c.getD ""
  d.filter (fun p => decide (constraint p.2 = c))

/-- `metric_bundle_group.py:263-267`, as a set. -/
def dbCols (cols : B → List C) (cur : List (String × B)) : List C := (cur.flatMap (fun p => cols p.2)).dedup

/-- The names under which the reduced bundles are added (`metric_bundle_group.py:575-594`): `reduced` are the new ones in order, with their names and file roots. -/
def reducedDict (keys : List String) (reduced : List (String × String × B)) : List (String × B) :=
  reduced.foldl (fun d r => put d (if r.1 ∈ keys then r.2.1 else r.1) r.2.2) []

/-- `reduce_current`, `metric_bundle_group.py:575-601`, for the group. -/
def reduceCurrent (reduce : B → List (String × String × B)) (d cur : List (String × B)) : List (String × B) × List (String × B) :=
  let new := reducedDict (d.map Prod.fst) (cur.flatMap (fun p => reduce p.2))
  (update d new, update cur new)

/-- `run_all`, `metric_bundle_group.py:230-238`: the bundles that are run for each constraint (all have data), and the dictionary afterwards. -/
def runAll (constraint : B → String) (reduce : B → List (String × String × B)) : List String → List (String × B) → List (List (String × B)) × List (String × B)
  | [], d => ([], d)
  | c :: cs, d =>
    let cur := current constraint d (some c)
    let r := runAll constraint reduce cs (reduceCurrent reduce d cur).1
    (cur :: r.1, r.2)

end

end Verif.BunSet
