import Mathlib.Data.List.Dedup

/-!
# Titles and legends of plots of several bundles

Model of `PlotHandler._build_title` and `_build_legend_labels`, `rubin_sim/maf/plots/plot_handler.py`. Texts are lists of
characters. Names of runs, labels and metrics of the bundles are in sets (217-219, 257-259, 266-269), of which only the
number and, if there is one, the only element matter. The joint names (374) are parameters.
-/

namespace Verif.PlotNames

/-- A bundle: names of run, label and metric, and `plot_dict["label"]`. -/
structure B where
  run : List Char
  info : List Char
  metric : List Char
  label : Option (List Char)

/-- `len(self.run_names)` and the like. -/
def count (f : B → List Char) (bs : List B) : Nat := (bs.map f).dedup.length

/-- `list(self.run_names)[0]` and the like. -/
def only (f : B → List Char) (bs : List B) : List Char := (bs.map f).dedup.headD []

/-- `_build_title`, `plot_handler.py:364-375`. -/
def title (jointInfo jointMetric : List Char) (bs : List B) : List Char :=
  let t1 := if count B.run bs = 1 then only B.run bs else []
  let t2 := if count B.info bs = 1 then t1 ++ ' ' :: only B.info bs else t1
  let t3 := if count B.metric bs = 1 then t2 ++ ':' :: ' ' :: only B.metric bs else t2
  if t3 = [] then jointInfo ++ ' ' :: jointMetric else t3

/-- The label of a bundle, `plot_handler.py:439-448`. -/
def legendOf (bs : List B) (b : B) : List Char :=
  match b.label with
  | some l => l
  | none =>
    let l1 := if 1 < count B.run bs then b.run else []
    let l2 := if 1 < count B.info bs then l1 ++ ' ' :: b.info else l1
    if 1 < count B.metric bs then l2 ++ ' ' :: b.metric else l2

/-- `_build_legend_labels`, `plot_handler.py:435-450`. -/
def legend (bs : List B) : List (Option (List Char)) :=
  if bs.length = 1 then [none] else bs.map (fun b => some (legendOf bs b))

end Verif.PlotNames
