import Mathlib.Algebra.Order.Floor.Ring
import Mathlib.Algebra.Order.Field.Basic
import Mathlib.Analysis.SpecialFunctions.Trigonometric.Basic
import Mathlib.Data.Rat.Floor
import Verif.Model.BundleSet

/-!
# Maps with skyproj, radar plots, old files, and the archive of runs

`rubin_sim/maf/plots/skyproj_plotters.py`, `oned_plotters.py`, `neo_distance_plotter.py`, `rubin_sim/maf/run_comparison/radar_plot.py` and `archive.py`,
and the reading of files from before version 1.0 in `rubin_sim/maf/slicers/base_slicer.py`.

Drawing itself (matplotlib, skyproj), spherical trigonometry (astropy) and the network are left out; the model gives what is passed on to them.  Numbers
are those of an ordered field.
-/

namespace Verif.SkyPlot

open BunSet (put del)

inductive PyErr
  | type | assertion | value | key | index | attribute | notImplemented | fileNotFound
  deriving DecidableEq, Repr

/-! ## Circles on the sphere -/

/-- The bearings of the points, `skyproj_plotters.py:55`, for whole numbers of degrees and a step that is positive. -/
def bearings (start stop step : Int) : List Int :=
  (List.range ((stop + step - start + step - 1) / step).toNat).map (fun i : Nat => start + i * step)

section
variable {K : Type*} [Field K] [LinearOrder K]

/-- One turn of the loop over the right ascensions, `skyproj_plotters.py:67-70`. -/
def unwrapOne (previous ra : K) : K :=
  let ra := if ra - previous > 180 then ra - 360 else ra
  if ra - previous < -180 then ra + 360 else ra

/-- The loop, `skyproj_plotters.py:66-71`. -/
def unwrapFrom : K → List K → List K
  | _, [] => []
  | previous, ra :: l => unwrapOne previous ra :: unwrapFrom (unwrapOne previous ra) l

/-- `skyproj_plotters.py:65-71` -/
def unwrap : List K → List K
  | [] => []
  | ra :: l => ra :: unwrapFrom ra l

end

/-! ## One projection for each part of a figure -/

/-- `plot_dict["subplot"]`: an integer, or a sequence. -/
inductive Subplot
  | int (n : Nat)
  | seq (l : List Nat)
  deriving DecidableEq, Repr

/-- `skyproj_plotters.py:150-152`: `tuple` of an integer is a `TypeError`. -/
def normSubplot : Subplot → Except PyErr (List Nat)
  | .int n => if 100 ≤ n ∧ n ≤ 999 then .ok [n / 100, n / 10 % 10, n % 10] else .error .type
  | .seq l => .ok l

section
variable {F C A : Type*} [DecidableEq F]

/-- An instance of a class of skyproj, made with the arguments `skyproj_kwargs`; `id` tells instances apart. -/
structure Inst (C A : Type*) where
  id : Nat
  cls : C
  kwargs : A
  deriving DecidableEq, Repr

/-- A call: the figure, and the entries `subplot`, `skyproj` and `skyproj_kwargs` of the dictionary. -/
structure Call (F C A : Type*) where
  fig : F
  subplot : Subplot
  cls : C
  kwargs : A

/-- The instances that exist, by figure and part; figures that are still in use, so that none is taken away. -/
abbrev Reg (F C A : Type*) := List ((F × List Nat) × Inst C A)

/-- `_prepare_skyproj`, `skyproj_plotters.py:150-171`; `isInst c d` says that `c` is `d` or a class derived from it. -/
def prepare (isInst : C → C → Bool) (reg : Reg F C A) (c : Call F C A) : Except PyErr (Reg F C A × Inst C A) :=
  match normSubplot c.subplot with
  | .error e => .error e
  | .ok sub =>
    match reg.lookup (c.fig, sub) with
    | some inst => if isInst inst.cls c.cls then .ok (reg, inst) else .error .assertion
    | none => .ok (reg ++ [((c.fig, sub), ⟨reg.length, c.cls, c.kwargs⟩)], ⟨reg.length, c.cls, c.kwargs⟩)

/-- Calls one after the other, with those that raise an exception left aside. -/
def calls (isInst : C → C → Bool) : Reg F C A → List (Call F C A) → Reg F C A
  | reg, [] => reg
  | reg, c :: l =>
    match prepare isInst reg c with
    | .error _ => calls isInst reg l
    | .ok (reg', _) => calls isInst reg' l

end

/-! ## Values on a healpix grid -/

section
variable {K : Type*} [DecidableEq K]

/-- `_healbin` of rubin_scheduler: the reduced values of the points of each pixel, `fill` where there are none. -/
def healbin (npix : Nat) (reduce : List K → K) (fill : K) (pts : List (Nat × K)) : List K :=
  (List.range npix).map (fun p =>
    let vs := (pts.filter (fun q => q.1 == p)).map Prod.snd
    if vs.isEmpty then fill else reduce vs)

/-- `_transform_to_healpix`, `skyproj_plotters.py:422-434` (the same in `spatial_plotters.py:176-187`); values that are masked are `none`. -/
def toHealpix (npix : Nat) (reduce : List K → K) (badval : K) (pts : List (Nat × Option K)) : List (Option K) :=
  (healbin npix reduce badval (pts.map (fun p => (p.1, p.2.getD badval)))).map (fun v => if v = badval then none else some v)

end

/-! ## Colours of a map -/

section
variable {K : Type*} [Field K] [LinearOrder K]

/-- `_compatible_color_limits`, `skyproj_plotters.py:438`. -/
def compatible (norm : String) (lo hi : K) : Bool :=
  decide (norm ≠ "log") || (decide (lo < 0) && decide (hi < 0)) || (decide (0 < lo) && decide (0 < hi))

/-- What is passed to `draw_hpxmap`: the norm, the limits. -/
structure Scale (K : Type*) where
  norm : Option String
  limits : Option (K × K)
  deriving DecidableEq, Repr

/-- `skyproj_plotters.py:471-484`: `norm` and `given` are the norm and the limits in `draw_hpxmap_kwargs`, `clims` those of `set_color_lims`. -/
def scale (norm : Option String) (given : Option (K × K)) (logScale : Bool) (clims : K × K) : Except PyErr (Scale K) :=
  if logScale && norm.isSome && decide (norm ≠ some "log") then .error .value
  else
    let norm := if logScale then some "log" else norm
    match norm with
    | none => .ok ⟨none, some clims⟩
    | some n => if compatible n clims.1 clims.2 then .ok ⟨some n, some clims⟩ else .ok ⟨some n, given⟩

/-- The values that are drawn, `skyproj_plotters.py:492-497`. -/
def drawn (maskBelow : Option K) (unseen badval : K) (map : List (Option K)) : List K :=
  match maskBelow with
  | some m => map.map (fun v => match v with
      | some v => if v ≤ m then unseen else v
      | none => unseen)
  | none => map.map (fun v => v.getD badval)

end

/-- Where the colour bar goes: `location`, `orientation`, `shrink` in hundredths, `skyproj_plotters.py:377-396`, for an orientation in small letters. -/
def colorbar : Option String → Except PyErr (String × String × Nat)
  | none => .ok ("bottom", "horizontal", 75)
  | some o =>
    if o = "vertical" then .ok ("right", o, 50)
    else if o = "horizontal" then .ok ("bottom", o, 75)
    else .error .notImplemented

/-! ## Files from before version 1.0 -/

section
variable {V : Type*}

/-- `slicer_init[n] = slicer_init[o]; del slicer_init[o]` if `o` is there, `base_slicer.py:472-474`. -/
def rename (d : List (String × V)) (p : String × String) : List (String × V) :=
  match d.lookup p.1 with
  | none => d
  | some v => del (put d p.2 v) p.1

/-- The old names and the new ones, in the order of `base_slicer.py:469-491`. -/
def renames : List (String × String) :=
  [("latCol", "lat_col"), ("lonCol", "lon_col"), ("useCamera", "use_camera"), ("Hrange", "h_range"), ("binMin", "bin_min"), ("binMax", "bin_max"),
   ("binsize", "bin_size"), ("sliceColName", "slice_col_name"), ("sliceColUnits", "slice_col_units"), ("spatialkey1", "lon_col"),
   ("spatialkey2", "lat_col")]

/-- The arguments of the slicer, `base_slicer.py:463-491`. -/
def convertInit (d : List (String × V)) : List (String × V) := renames.foldl rename d

/-- The slicer that is made, `base_slicer.py:492-499`: an argument that the class does not have is a `TypeError`, and the class is then called without. -/
def oldSlicer (accepts : String → Bool) (d : List (String × V)) : List (String × V) :=
  if (convertInit d).all (fun p => accepts p.1) then convertInit d else []

/-- A copy of an entry under another name, `base_slicer.py:455-462`. -/
def copyKey (h : List (String × V)) (p : String × String) : List (String × V) :=
  match h.lookup p.1 with
  | none => h
  | some v => put h p.2 v

/-- The header, `base_slicer.py:452-462`. -/
def oldHeader (h : List (String × V)) : Except PyErr (List (String × V)) :=
  match h.lookup "metricName", h.lookup "simDataName" with
  | some _, some _ =>
    .ok ([("metricName", "metric_name"), ("simDataName", "sim_data_name"), ("metadata", "info_label"), ("plotDict", "plot_dict"),
      ("displayDict", "display_dict"), ("dateRan", "date_ran")].foldl copyKey h)
  | _, _ => .error .key

end

/-! ## Radar plots -/

section
variable {K : Type*} [Field K] [LinearOrder K] [FloorRing K]

/-- `x % tau` -/
def fmod (x tau : K) : K := x - tau * (⌊x / tau⌋ : K)

/-- The angles of the axes, `radar_plot.py:84-88`; `tau` is a full turn. -/
def radarTheta (tau : K) (n : Nat) : List K := (List.range n).map (fun i : Nat => fmod (tau * (i : K) / (n : K) + tau / 4) tau)

/-- `_close_line`, `radar_plot.py:121-126`, on the points of a line; `x[0]` of an empty array is an `IndexError`. -/
def closeLine (pts : List (K × K)) : Except PyErr (List (K × K)) :=
  match pts.head?, pts.getLast? with
  | some a, some b => .ok (if a.1 ≠ b.1 then pts ++ [a] else pts)
  | _, _ => .error .index

end

/-- `_unit_poly_verts`, `radar_plot.py:160-162`. -/
noncomputable def polyVert (t : ℝ) : ℝ × ℝ := (1 / 2 * Real.cos t + 1 / 2, 1 / 2 * Real.sin t + 1 / 2)

/-- The colours of the lines, `radar_plot.py:181-188`; no list is `None` for every line. -/
def lineColours {C : Type*} (colors : Option (List C)) (rows : Nat) : Except PyErr (List (Option C)) :=
  match colors with
  | none => .ok (List.replicate rows none)
  | some l => if rows ≤ l.length then .ok ((l.take rows).map some) else .error .index

/-! ## Binned data in one dimension -/

section
variable {K : Type*} [Field K] [LinearOrder K]

/-- The points of the line, `oned_plotters.py:54-62`; values that are masked are `none`, `fill` is the fill value. -/
def onedPoints (filled : Bool) (fill : K) (bins : List K) (vals : List (Option K)) : List (K × K) :=
  let left := bins.dropLast
  let width := (bins.tail.zip bins.dropLast).map (fun p => p.1 - p.2)
  let rows := (left.zip width).zip vals
  let rows := if filled then rows.map (fun r => (r.1, r.2.getD fill)) else rows.filterMap (fun r => r.2.map (fun v => (r.1, v)))
  rows.flatMap (fun r => [(r.1.1, r.2), (r.1.1 + r.1.2, r.2)])

/-- The lower limit of the y axis, `oned_plotters.py:89-106`; `clip` is the lower limit of `percentile_clipping`, if it is used. -/
def onedYMin (given : Option K) (clip : Option K) (fill : K) (vals : List (Option K)) : Option K :=
  let y := given.or clip
  if y.isNone && decide ((vals.map (fun v => v.getD fill)).min? = some 0) then some 0 else y

/-- The colour of the line, `oned_plotters.py:68` and 78: the defaults (18-36) have no entry `color`. -/
def onedColour {V : Type*} (user : List (String × V)) : Except PyErr V :=
  match user.lookup "color" with
  | some c => .ok c
  | none => .error .key

end

/-! ## The distances at which objects near the Earth are seen -/

section
variable {K : Type*} [Field K] [LinearOrder K]

/-- Directions of the cells in units of half a degree, `neo_distance_plotter.py:99-100`: from -180 degrees in steps of 3.5, up to 360 + 3.5 degrees
later. -/
def neoThetas : List Int := (List.range 104).map (fun i : Nat => 7 * i - 360)

/-- Positions of the nearest values, `neo_distance_plotter.py:116-117`. -/
def nearest (ts : List K) (t : K) : List Nat :=
  match (ts.map (fun s => |s - t|)).min? with
  | none => []
  | some m => (List.range ts.length).filter (fun i => decide ((ts.map (fun s => |s - t|))[i]? = some m))

/-- One object: its ecliptic latitude, direction from the Earth, and the largest distance at which it is seen. -/
structure Neo (K : Type*) where
  lat : K
  theta : K
  dist : K

/-- One cell of the histogram, `neo_distance_plotter.py:73-75` and 110-122: direction number `j`, radius `r`.  An object with two nearest directions
is an exception, which the model leaves out: it counts in both. -/
def neoCell (latMin latMax : K) (ts : List K) (objs : List (Neo K)) (j : Nat) (r : K) : Nat :=
  objs.foldl (fun h o =>
    if decide (latMin ≤ o.lat) && decide (o.lat ≤ latMax) then
      if (nearest ts o.theta).contains j && decide (r ≤ o.dist) then h + 1 else h
    else h) 0

end

/-! ## Downloads -/

section
variable {D : Type*}

/-- A row of the table of runs: name, path in the archive, address; `other` is the rest of the metadata. -/
structure Run (D : Type*) where
  name : String
  filepath : String
  url : String
  other : D

/-- One turn of the loop, `archive.py:443-452`: `join` is `os.path.join` with the directory, `web` what is at an address. -/
def dlStep {B : Type*} (join : String → String) (web : String → B) (clobber : Bool) (s : List (String × B) × List (String × String)) (r : Run D) :
    List (String × B) × List (String × String) :=
  let f := join r.filepath
  (if clobber || (s.1.lookup f).isNone then put s.1 f (web r.url) else s.1, put s.2 r.name f)

/-- `download_runs`, `archive.py:435-454`, from the table of runs on: the files afterwards, and what is returned, the names of the files by run. -/
def download {B : Type*} (destExists : Bool) (join : String → String) (web : String → B) (clobber : Bool) (fs : List (String × B)) (runs : List (Run D)) :
    Except PyErr (List (String × B) × List (String × String)) :=
  if destExists then .ok (runs.foldl (dlStep join web clobber) (fs, [])) else .error .fileNotFound

end

/-! ## Descriptions of families -/

/-- The columns of the table of a family, `archive.py:542-556`: `summary` are the columns of the summary, `subset` the metrics of
`table_metric_subset`, with their short names. -/
def tableCols (summary : Option (List String)) (subset : Option (List (String × String))) : Except PyErr (List String) :=
  match summary with
  | none => .ok ["run", "brief", "filepath"]
  | some cols =>
    let metrics : Except PyErr (List String) := match subset with
      | some s => if s.all (fun p => cols.contains p.1) then .ok (s.map Prod.snd) else .error .key
      | none => .ok cols
    match metrics with
    | .error e => .error e
    | .ok ms =>
      let all := ["run", "brief", "filepath"] ++ ms
      .ok (if 5 < all.length then ["run", "brief"] ++ ms else all)

/-- The runs of the plot, `archive.py:569-571`: the run to compare with comes first, if it is not there. -/
def plotRuns (runs : List String) : Option String → List String
  | some b => if runs.contains b then runs else b :: runs
  | none => runs

/-- The runs and the metrics of the plot, `archive.py:568-574`: `runs` are those of the families, `summary` the runs and the metrics of the summary; no
summary is an `AttributeError`, a run that it does not have a `KeyError`. -/
def plotted (runs : List String) (baseline : Option String) (metrics : List String) (summary : Option (List String × List String)) :
    Except PyErr (List String × List String) :=
  match summary with
  | none => .error .attribute
  | some (sruns, scols) =>
    if (plotRuns runs baseline).all sruns.contains then .ok (plotRuns runs baseline, metrics.filter scols.contains) else .error .key

end Verif.SkyPlot
