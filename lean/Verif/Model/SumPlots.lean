import Mathlib.Algebra.Order.Field.Basic
import Verif.Model.Comparison

/-!
# Plots of summaries of runs

`plot_run_metric_mesh`, `plot_run_metric_uncert`, the shading of `plot_run_metric` and `find_family_lines` of
`rubin_sim/maf/run_comparison/summary_plots.py`. What matplotlib draws is given by what it is called with; that it accepts the colours, lines and markers is not modelled.
Tables are given by their names and a function of the positions; normalised tables are a parameter (`Verif.Cmp`). -/

namespace Verif.SumPlots

abbrev Str := List Char

/-! ## Mesh -/

/-- A `DataFrame`: names of the rows and columns, names of the two axes, and values by position. -/
structure Frame (K : Type*) where
  index : List String
  columns : List String
  indexName : Option String
  colName : Option String
  value : Nat → Nat → K

/-- `summary.T`. -/
def Frame.T {K : Type*} (f : Frame K) : Frame K := ⟨f.columns, f.index, f.colName, f.indexName, fun i j => f.value j i⟩

/-- `RUN_COL_NAMES` and `METRIC_COL_NAMES`, `summary_plots.py:22-23`. -/
def runNames : List String := ["run", "OpsimRun", "run_name"]
def metricNames : List String := ["metric"]

/-- Lines 467-470. -/
def orient {K : Type*} (f : Frame K) : Frame K :=
  if f.colName.any (fun n => runNames.contains n) || f.indexName.any (fun n => metricNames.contains n) then f.T else f

/-- Lines 478-480: the limits of the colours for a number. -/
def limits {K : Type*} [Field K] (r : K) : K × K := (1 - r / 2, 1 - r / 2 + r)

/-- The first of several labels for a metric, lines 513-517, and the label, lines 530-532. -/
def metricLabel (labels : List (String × String)) (inverted : List String) (m : String) : Option String :=
  match labels.lookup m with
  | none => none
  | some l => if inverted.contains m then some ("1/" ++ l) else some l

/-- The labels of the vertical axis, lines 509-532; `none` is a `KeyError`. -/
def metricLabels (labels : Option (List (String × String))) (inverted : List String) (metrics : List String) : Option (List String) :=
  match labels with
  | none => some metrics
  | some l => metrics.mapM (metricLabel l inverted)

/-- The metrics with an inverse, lines 525-528. -/
def inverted (baseline : Bool) (subset : Option (List (String × Bool))) : List String :=
  match baseline, subset with
  | true, some s => (s.filter (·.2)).map (·.1)
  | _, _ => []

/-- The labels of the horizontal axis, lines 537-541. -/
def runLabels' (labels : Option (List (String × String))) (runs : List String) : Option (List String) :=
  match labels with
  | none => some runs
  | some l => runs.mapM (fun r => l.lookup r)

/-- A plot: the labels of the columns and rows of coloured cells, in their order, and the value of the cell in column `x` and row `y`. -/
structure Mesh (K : Type*) where
  xlabels : List String
  ylabels : List String
  cell : Nat → Nat → K

/-- `plot_run_metric_mesh`, `summary_plots.py:467-542`; `norm` is what the normalisation does to the values of a table with runs as rows. -/
def mesh {K : Type*} (norm : Frame K → Frame K) (baseline : Bool) (subset : Option (List (String × Bool))) (runLabels metLabels : Option (List (String × String)))
    (f : Frame K) : Option (Mesh K) :=
  let g := if baseline then norm (orient f) else orient f
  match metricLabels metLabels (inverted baseline subset) g.columns with
  | none => none
  | some yl =>
    match runLabels' runLabels g.index with
    | none => none
    | some xl => some ⟨xl, yl, fun x y => g.T.value y x⟩

/-! ## Lines with uncertainties -/

inductive Err | index | value
  deriving DecidableEq

/-- The style of one metric, lines 650-661; `dflt` is `cmap_default`. Colours that were set before an error stay set, so the colours are returned with the error. -/
def setStyle (dflt : Bool) (c l : List Str) (i : Nat) : Option Str → List Str × Except Err (List Str)
  | none => (c, .ok l)
  | some (a :: b :: _) =>
    if dflt then
      if i < c.length then (c.set i [a], if i < l.length then .ok (l.set i [b]) else .error .index) else (c, .error .index)
    else (c, if i < l.length then .ok (l.set i [b]) else .error .index)
  | some s => (c, if i < l.length then .ok (l.set i s) else .error .index)

/-- The loop of lines 648-661 from metric `i` on. -/
def setStyles (dflt : Bool) : List Str → List Str → Nat → List (Option Str) → List Str × Except Err (List Str)
  | c, l, _, [] => (c, .ok l)
  | c, l, i, s :: ss =>
    match setStyle dflt c l i s with
    | (c', .error e) => (c', .error e)
    | (c', .ok l') => setStyles dflt c' l' (i + 1) ss

/-- `cycler.cycler(color=[c]) + cycler.cycler(linestyle=l) + cycler.cycler(marker=m)`, lines 671-676: the texts are taken apart into their letters, and all must be as many as the
colours. -/
def one (c l m : Str) : Except Err (Str × Str × Str) := if l.length = 1 ∧ m.length = 1 then .ok (c, l, m) else .error .value

/-- The `i`-th metric in a plot of its own, lines 667-681; the first uses the axes of lines 663-665. -/
def drawSep (c l m : List Str) (i : Nat) : Except Err (Str × Str × Str) :=
  match c[i]?, l[i]?, m[i]? with
  | some a, some b, some d => if i = 0 then .ok (a, b, d) else one a b d
  | _, _, _ => .error .index

/-- The `i`-th metric in a common plot, lines 663-665 and 681: colours, lines and markers repeat. -/
def drawAll (c l m : List Str) (i : Nat) : Except Err (Str × Str × Str) :=
  match c[i % c.length]?, l[i % l.length]?, m[i % m.length]? with
  | some a, some b, some d => .ok (a, b, d)
  | _, _, _ => .error .index

/-- All metrics. -/
def draws (f : Nat → Except Err (Str × Str × Str)) : List Nat → Except Err (List (Str × Str × Str))
  | [] => .ok []
  | i :: is =>
    match f i with
    | .error e => .error e
    | .ok x =>
      match draws f is with
      | .error e => .error e
      | .ok xs => .ok (x :: xs)

/-- `plot_run_metric_uncert`, `summary_plots.py:630-697`, with the list of colours of `colorcet` before and after. `styles` has one entry for each metric, `none` for those that are not in
the table of metrics. -/
def uncert (palette : List Str) (cmap : Option (List Str)) (linestyles markers : List Str) (sep : Bool) (styles : List (Option Str)) :
    List Str × Except Err (List (Str × Str × Str)) :=
  let c := cmap.getD palette
  let l := Cmp.grow linestyles c.length
  let m := Cmp.grow markers c.length
  match setStyles cmap.isNone c l 0 styles with
  | (c', .error e) => (if cmap.isNone then c' else palette, .error e)
  | (c', .ok l') => (if cmap.isNone then c' else palette, draws (if sep then drawSep c' l' m else drawAll c' l' m) (List.range styles.length))

/-! ## Shading -/

/-- The two shaded regions, `summary_plots.py:376-393`, of the values between `lo` and `hi`: from a lower to an upper value. -/
def shade {K : Type*} [Field K] [LinearOrder K] (frac : Option K) (lo hi : K) : Option (K × K) × Option (K × K) :=
  match frac with
  | none => (none, none)
  | some f => if 0 < f then (if 1 + f < hi then some (1 + f, hi) else none, if lo < 1 - f then some (lo, 1 - f) else none) else (none, none)

/-! ## Lines between families -/

/-- `len(families.loc[f]["run"])`, `summary_plots.py:703`: rows of the table by family. A family with one row gives the row, and then the length is that of the text of its run. -/
def familyLen (rows : List (String × String)) (f : String) : Option Nat :=
  match rows.filter (fun r => r.1 == f) with
  | [] => none
  | [r] => some r.2.length
  | rs => some rs.length

/-- The sums so far, line 704. -/
def cumsum : Nat → List Nat → List Nat
  | _, [] => []
  | s, x :: xs => (s + x) :: cumsum (s + x) xs

/-- `find_family_lines`, `summary_plots.py:700-705`; `none` is a `KeyError`. -/
def familyLines (rows : List (String × String)) (fs : List String) : Option (List Nat) := (fs.mapM (familyLen rows)).map (cumsum 0)

end Verif.SumPlots
