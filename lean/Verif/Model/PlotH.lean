import Mathlib.Algebra.Order.Field.Basic
import Mathlib.Data.List.Dedup
import Mathlib.Data.List.Basic
import Mathlib.Data.Char

/-!
# Model of `rubin_sim/maf/plots/plot_handler.py`

A bundle is what the handler reads of it. Python sets are lists without repeats in an
arbitrary order. Strings which are only joined and compared are of an arbitrary type or
`String`; strings which are taken apart are lists of characters. Drawing itself
(matplotlib) is left out.
-/

namespace Verif.PlotH

inductive PyErr | index | value
  deriving DecidableEq, Repr

/-! ## The value that is plotted -/

/-- `apply_zp_norm`, `plot_handler.py:12-19`; a missing key is as `None`. -/
def applyZpNorm {K : Type*} [Field K] (zp norm : Option K) (v : K) : K :=
  let v := match zp with
    | some z => v - z
    | none => v
  match norm with
  | some n => v / n
  | none => v

/-! ## The order of the bundles -/

/-- `list.insert(i, x)`: a negative index counts from the end, and indices out of range
are moved to the nearest end. -/
def pyInsert {α : Type*} (l : List α) (i : Int) (x : α) : List α :=
  let n : Int := l.length
  let k := (if i < 0 then max (i + n) 0 else min i n).toNat
  l.take k ++ x :: l.drop k

/-- `self.filterorder`, line 111. -/
def filterOrder (c : Char) : Option Int :=
  if c = ' ' then some (-1) else if c = 'u' then some 0 else if c = 'g' then some 1 else if c = 'r' then some 2
  else if c = 'i' then some 3 else if c = 'z' then some 4 else if c = 'y' then some 5 else none

/-- A piece of a single letter. -/
def single : List Char → Option Char
  | [c] => some c
  | _ => none

/-- `forder`, lines 123-129: the place of the last piece of the file root that is a
band; `none` when there is no such piece. -/
def forder (root : List Char) : Option Int :=
  ((root.splitOn '_').filterMap (fun v => (single v).bind filterOrder)).getLast?

/-- What the handler reads of a bundle to put it in its place. -/
structure Bundle where
  root : List Char
  slicer : String
  deriving DecidableEq

/-- One turn of the loops of lines 122-130 and 133-141. -/
def addBundle (l : List Bundle) (b : Bundle) : List Bundle :=
  pyInsert l ((forder b.root).getD l.length) b

/-- The list of bundles, lines 119-145: the empty list has no first element (131, 142),
and all slicers have to have the name of the first. -/
def setBundles (bs : List Bundle) : Except PyErr (List Bundle) :=
  match bs.foldl addBundle [] with
  | [] => .error .index
  | b :: l => if ∃ c ∈ b :: l, c.slicer ≠ b.slicer then .error .value else .ok (b :: l)

/-! ## The plot dictionaries -/

/-- A dictionary: absent, `None` or a value. -/
abbrev Dict (α : Type*) := String → Option (Option α)

/-- `lo.update(hi)` -/
def upd {α : Type*} (lo hi : Dict α) : Dict α := fun k => (hi k).or (lo k)

/-- `d[key] = v` -/
def put {α : Type*} (d : Dict α) (key : String) (v : Option α) : Dict α := fun k => if k = key then some v else d k

/-- The entries that are not `None`, lines 197-199. -/
def notNone {α : Type*} (d : Dict α) : Dict α := fun k => (d k).bind (fun v => v.map some)

/-- What `set_plot_dicts` takes from a plotter: its defaults and the labels made for it
(line 177). -/
structure Plotter (α : Type*) where
  defaults : Dict α
  xlabel : Option α
  ylabel : Option α

/-- The dictionary of one bundle, lines 182-207: `auto` are the title, label, colour and
format made by the handler. -/
def resolve {α : Type*} (auto prev : Dict α) (pf : Option (Plotter α)) (bundle : Dict α) (user : Option (Dict α)) : Dict α :=
  let d := upd auto prev
  let d := match pf with
    | some p => upd (put (put d "xlabel" p.xlabel) "ylabel" p.ylabel) (notNone p.defaults)
    | none => d
  let d := upd d bundle
  match user with
  | some u => upd d u
  | none => d

/-- One call of `set_plot_dicts` with `reset=False`, from the point of view of one bundle. -/
structure Call (α : Type*) where
  auto : Dict α
  pf : Option (Plotter α)
  user : Option (Dict α)

/-- The dictionary of a bundle after some calls, the first of which resets it (lines 150
and 163-166). -/
def runCalls {α : Type*} (bundle : Dict α) (auto : Dict α) (cs : List (Call α)) : Dict α :=
  cs.foldl (fun d c => resolve c.auto d c.pf bundle c.user) (resolve auto (fun _ => none) none bundle none)

/-- The dictionaries passed to the bundles, lines 168-170 and 205: one dictionary is used
for all, and a list that is too short raises. -/
inductive UserDicts (α : Type*)
  | none
  | one (d : Dict α)
  | list (l : List (Dict α))

def userDict {α : Type*} (u : UserDicts α) (i : Nat) : Except PyErr (Option (Dict α)) :=
  match u with
  | .none => .ok Option.none
  | .one d => .ok (some d)
  | .list l => match l[i]? with
    | some d => .ok (some d)
    | Option.none => .error .index

/-! ## The check of the dictionaries -/

/-- A value of a dictionary as `np.unique` sees it: the atoms of it, since arrays are
flattened. A number or string is one atom, a pair of limits two. -/
abbrev Atoms (A : Type*) := List A

/-- The keys of line 583. -/
def keysToCheck : List String := ["xlim", "ylim", "color_min", "color_max", "title"]

/-- `values`, line 598. -/
def valuesOf {A : Type*} (ds : List (Dict (Atoms A))) (key : String) : List (Option (Atoms A)) := ds.filterMap (fun d => d key)

/-- All atoms of the values, `None` being one. -/
def atomsOf {A : Type*} (vs : List (Option (Atoms A))) : List (Option A) :=
  vs.flatMap (fun v => match v with
    | some l => l.map some
    | none => [none])

/-- `len(np.unique(values)) > 1`, line 599. -/
def conflict {A : Type*} [DecidableEq A] (ds : List (Dict (Atoms A))) (key : String) : Bool :=
  decide (1 < (atomsOf (valuesOf ds key)).dedup.length)

/-- `key.endswith(s)` -/
def endsWith (key s : String) : Bool := s.toList.isSuffixOf key.toList

/-- Lines 599-617 for one key: the branches `Max` and `Min` take the largest and the
smallest value, `title` the title made by the handler, and other keys are to be reset. -/
def fixKey {A : Type*} [LinearOrder A] (title : Atoms A) (ds : List (Dict (Atoms A))) (key : String) : List (Dict (Atoms A)) :=
  if conflict ds key then
    let atoms := (atomsOf (valuesOf ds key)).filterMap id
    if endsWith key "Max" then ds.map (fun d => put d key (atoms.max?.map (fun a => [a])))
    else if endsWith key "Min" then ds.map (fun d => put d key (atoms.min?.map (fun a => [a])))
    else if key = "title" then ds.map (fun d => put d key (some title))
    else ds.map (fun d => put d key none)
  else ds

/-- `_check_plot_dicts`, lines 576-622. The keys are different, so that resetting them at
the end (620-622) is the same as at once. -/
def checkDicts {A : Type*} [LinearOrder A] (title : Atoms A) (ds : List (Dict (Atoms A))) : List (Dict (Atoms A)) :=
  if (valuesOf ds "subplot").dedup.length ≤ 1 then keysToCheck.foldl (fixKey title) ds else ds

/-! ## Names -/

/-- `order`, lines 221 and 274. -/
def bandOrder : List String := ["u", "g", "r", "i", "z", "y"]

/-- The word at one place of the joint name, lines 234-245. `enum` is the order in which
the set of words is read. -/
def jointWord (enum : List String → List String) (ws : List String) : String :=
  if ∀ w ∈ ws, w ∈ bandOrder then String.join (bandOrder.filter (fun f => decide (f ∈ ws)))
  else String.join (enum ws)

/-- `_combine_metric_names`, lines 222-250, as the list of the words which are joined by
blanks. `names` are the different names, each in words, in the order of the set. -/
def jointName (enum : List String → List String) (names : List (List String)) : List String :=
  match names with
  | [] => []
  | n :: rest =>
    if rest = [] then n
    else if ∀ m ∈ rest, m.length = n.length then
      (List.range n.length).map (fun i => jointWord enum (names.map (fun m => m.getD i "")))
    else names.flatten

/-! ## Labels -/

/-- The parts of the joint label of lines 339-345. -/
structure Combo where
  parts : List (List String)
  shared : List String
  common : List String
  deriving DecidableEq

/-- `set.intersection(*sets)` -/
def interAll : List (List String) → List String
  | [] => []
  | s :: rest => s.filter (fun x => decide (∀ t ∈ rest, x ∈ t))

/-- The words of the first of the phrases, lines 301-304. -/
def firstWords (words : String → List String) : List String → List String
  | [] => []
  | p :: _ => (words p).dedup

/-- The bands first and in order, lines 326-336. -/
def bandsFirst (dd : List (List String)) : List (List String) :=
  let ordered := bandOrder.flatMap (fun f => dd.filter (fun d => decide (d = [f])))
  ordered ++ dd.filter (fun d => decide (d ∉ ordered))

/-- `_combine_metadata`, lines 278-345, for two or more different labels: `labels` are
their phrases (lines 279-292) and `words` splits a phrase. `sortLen` orders the phrases
by length (318-320). -/
def combineLabels (words : String → List String) (sortLen : List String → List String) (labels : List (List String)) :
    Except PyErr Combo :=
  let common := interAll labels
  let diff := labels.map (fun s => s.filter (fun x => decide (x ∉ common)))
  let split := diff.map (firstWords words)
  let shared := interAll split
  let dd := split.map (fun s => s.filter (fun x => decide (x ∉ shared)))
  if ∃ d ∈ dd, d = [] then
    match diff.mapM (fun d => d.head?) with
    | none => .error .index
    | some ps => .ok ⟨(sortLen ps).map words, [], common⟩
  else .ok ⟨bandsFirst dd, shared, common⟩

/-! ## Colours -/

/-- `self.filtercolors`, lines 102-110; the colour of a blank is `None`. -/
def filterColor (c : Char) : Option (Option String) :=
  if c = 'u' then some (some "cyan") else if c = 'g' then some (some "g") else if c = 'r' then some (some "y")
  else if c = 'i' then some (some "r") else if c = 'z' then some (some "m") else if c = 'y' then some (some "k")
  else if c = ' ' then some none else none

/-- What is read of a bundle for its colour. -/
structure ColorOf where
  color : Option (Option String)
  constraint : Option (List Char)

/-- Lines 463-477: the colour of the dictionary, else that of the last piece between
double quotes which is a band, if the constraint has the word `filter` in it, else `b`. -/
def guessColor (b : ColorOf) : Option String :=
  match b.color with
  | some c => c
  | none =>
    match b.constraint with
    | none => some "b"
    | some s =>
      if "filter".toList <:+: s then
        (((s.splitOn '"').filterMap (fun v => (single v).bind filterColor)).getLast?).getD (some "b")
      else some "b"

/-- `_build_colors`, lines 456-488; `none` stands for colours at random. -/
def buildColors (bs : List ColorOf) : Option (List (Option String)) :=
  match bs with
  | [b] => some [b.color.getD (some "b")]
  | _ => if ((bs.map guessColor).dedup.length = 1) then none else some (bs.map guessColor)

/-! ## The display dictionary -/

/-- `order`, lines 542-548. -/
def displayOrder (os : List Int) : Int := os.foldl (fun a o => if a < o then o + 1 else a) 0

/-- `group` and `subgroup`, lines 549-556; the list is not empty. -/
def displayGroup (gs : List String) : String :=
  if 1 < gs.dedup.length then "Comparisons" else gs.headD ""

/-! ## A plot -/

/-- What `plot` reads of a bundle: whether its values are objects, whether its dictionary
says that they are colours, and the mask of its values. -/
structure PBundle where
  isObject : Bool
  metricIsColor : Bool
  mask : Option (List Bool)

/-- What comes of `plot`. -/
structure Outcome where
  refused : Bool
  drawn : List Nat
  saved : Bool
  recorded : Bool
  deriving DecidableEq

/-- The bundle is drawn, lines 681-690. -/
def canDraw (b : PBundle) : Bool :=
  match b.mask with
  | none => false
  | some m => m.any (fun x => !x)

/-- `plot` and `save_fig`, lines 657-766, in terms of which bundles are drawn and whether
a file and a row in the database come of it. -/
def plot (objectPlotter savefig db : Bool) (bs : List PBundle) : Outcome :=
  if !objectPlotter && bs.any (fun b => b.isObject && !b.metricIsColor) then ⟨true, [], false, false⟩
  else
    let drawn := (List.range bs.length).filter (fun i => ((bs[i]?).map canDraw).getD false)
    let saved := savefig && !drawn.isEmpty
    ⟨false, drawn, saved, saved && db⟩

end Verif.PlotH
