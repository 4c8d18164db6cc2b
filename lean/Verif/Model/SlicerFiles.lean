import Mathlib.Data.List.Basic
import Mathlib.Data.Rat.Defs

/-!
# Files of metric values, `rubin_sim/maf/slicers/base_slicer.py`

`write_data`, `read_data` and `output_json`, with the parameters of the classes of slicers.
Left out: files from before version 1.0, the contents of the header, `HealpixSDSSSlicer` and
`HourglassSlicer`.
-/

namespace Verif.Files

/-- Values of parameters. -/
inductive PyVal where
  | none
  | nan
  | bool (b : Bool)
  | num (q : ℚ)
  | str (s : String)
  | nums (l : List ℚ)
  | strs (l : List String)
  deriving DecidableEq

/-- Keyword arguments. -/
abbrev Kw := List (String × PyVal)

/-- Value of a key. -/
def lookup (kw : Kw) (k : String) : Option PyVal := (kw.find? fun e => e.1 == k).map Prod.snd

/-- Classes of slicers. -/
inductive Cls where
  | uni | oneD | nd | movie | healpix | subset | user | time | block | visit | mo
  deriving DecidableEq

/-- Parameters that all spatial slicers share, except for `badval`. -/
def spatial : List (String × Option PyVal) :=
  [("lon_col", some (.str "fieldRA")), ("lat_col", some (.str "fieldDec")), ("lat_lon_deg", some (.bool true)),
   ("verbose", some (.bool true)), ("leafsize", some (.num 100)), ("radius", some (.num (245 / 100))),
   ("use_camera", some (.bool true)), ("camera_radius", some (.num (194 / 100))),
   ("camera_footprint_file", some .none), ("rot_sky_pos_col_name", some (.str "rotSkyPos"))]

/-- Parameters of the constructors with their defaults; those without default are required.
`uni_slicer.py:15`, `one_d_slicer.py:42-52`, `nd_slicer.py:31`, `movie_slicer.py:19-31`,
`healpix_slicer.py:90-105`, `healpix_subset_slicer.py:152-168`, `user_points_slicer.py:60-75`,
`time_interval_slicers.py:51-57, 146-153, 240-247`, `mo_slicer.py:27`. -/
def params : Cls → List (String × Option PyVal)
  | .uni => [("verbose", some (.bool true)), ("badval", some (.num (-666)))]
  | .oneD => [("slice_col_name", some .none), ("slice_col_units", some .none), ("bins", some .none),
      ("bin_min", some .none), ("bin_max", some .none), ("bin_size", some .none), ("verbose", some (.bool true)),
      ("badval", some (.num 0))]
  | .nd => [("slice_col_list", some .none), ("bins_list", some (.num 100)), ("verbose", some (.bool true))]
  | .movie => [("slice_col_name", some .none), ("slice_col_units", some .none), ("bins", some .none),
      ("bin_min", some .none), ("bin_max", some .none), ("bin_size", some .none), ("verbose", some (.bool true)),
      ("badval", some (.num 0)), ("cumulative", some (.bool true)), ("force_no_ffmpeg", some (.bool false))]
  | .healpix => spatial ++ [("nside", some (.num 128)), ("use_cache", some (.bool true)), ("badval", some .nan)]
  | .subset => spatial ++ [("nside", none), ("hpid", none), ("use_cache", some (.bool true)), ("badval", some .nan)]
  | .user => spatial ++ [("ra", none), ("dec", none), ("badval", some (.num (-666)))]
  | .time => [("interval_seconds", some (.num 90)), ("mjd_column_name", some (.str "observationStartMJD")),
      ("badval", some .nan), ("verbose", some (.bool false))]
  | .block => [("mjd_column_name", some (.str "observationStartMJD")), ("duration_column_name", some (.str "visitTime")),
      ("note_column_name", some (.str "scheduler_note")), ("badval", some .nan), ("verbose", some (.bool false))]
  | .visit => [("mjd_column_name", some (.str "observationStartMJD")), ("duration_column_name", some (.str "visitTime")),
      ("extra_column_names", some (.strs [])), ("badval", some .nan), ("verbose", some (.bool false))]
  | .mo => [("h_range", some .none), ("verbose", some (.bool true)), ("badval", some (.num 0))]

/-- The parameters in `slicer_init`. `base_slicer.py:85`, `one_d_slicer.py:84-92`, `nd_slicer.py:45`,
`movie_slicer.py:84-88`, `healpix_slicer.py:136-141`, `healpix_subset_slicer.py:187`,
`user_points_slicer.py:111-117`, `mo_slicer.py:30`. -/
def initKeys : Cls → List String
  | .uni => ["badval"]
  | .oneD => ["slice_col_name", "slice_col_units", "badval", "bin_min", "bin_max", "bin_size", "bins"]
  | .nd => ["slice_col_list", "bins_list"]
  | .movie => ["slice_col_name", "slice_col_units", "badval"]
  | .healpix => ["nside", "lon_col", "lat_col", "radius"]
  | .subset => ["nside", "lon_col", "lat_col", "radius", "hpid"]
  | .user => ["ra", "dec", "lon_col", "lat_col", "radius"]
  | .time => ["badval"]
  | .block => ["badval"]
  | .visit => ["badval"]
  | .mo => ["h_range", "badval"]

/-- Outcomes of a constructor. -/
inductive Res (α : Type) where
  | ok (a : α)
  | typeError
  | otherError

/-- All parameters with their values, or `none` if a required one is missing. -/
def bind (ps : List (String × Option PyVal)) (kw : Kw) : Option Kw :=
  ps.mapM fun p => (match lookup kw p.1 with | some v => some v | none => p.2).map fun v => (p.1, v)

/-- Call of a constructor: a TypeError for unknown or missing parameters; `MovieSlicer` looks for `ffmpeg`
unless `force_no_ffmpeg` (`movie_slicer.py:63-72`). -/
def construct (ffmpeg : Bool) (c : Cls) (kw : Kw) : Res Kw :=
  if kw.any (fun e => !((params c).map Prod.fst).contains e.1) then .typeError
  else match bind (params c) kw with
    | none => .typeError
    | some ps =>
      if decide (c = .movie) && !ffmpeg && !decide (lookup ps "force_no_ffmpeg" = some (.bool true)) then .otherError
      else .ok ps

/-- `np.radians` of a value; `rad` for numbers. -/
def radVal (rad : ℚ → ℚ) : PyVal → PyVal
  | .num q => .nums [rad q]
  | .nums l => .nums (l.map rad)
  | v => v

/-- `slicer_init` of a slicer with the given parameters. Those of `UserPointsSlicer` are in radians
(`user_points_slicer.py:97-98, 111-117`), `MoObjSlicer` adds the files when it is set up
(`mo_slicer.py:63-64`). -/
def slicerInit (rad : ℚ → ℚ) (c : Cls) (ps : Kw) (files : Kw) : Kw :=
  ((initKeys c).filterMap fun k => (lookup ps k).map fun v =>
    (k, if decide (c = .user) && (k == "ra" || k == "dec") then radVal rad v else v)) ++
  (if c = .mo then files else [])

/-- A slicer: its class, its parameters and what belongs to the metric values. -/
structure Slicer (P : Type) where
  cls : Cls
  ps : Kw
  points : P
  nslice : ℕ
  shape : List ℕ

/-- Metric values: data, with mask and fill value if they are a masked array. -/
structure Values (V : Type) where
  data : List V
  mask : Option (List Bool × PyVal)

/-- A file of metric values, `base_slicer.py:223-241`. -/
structure File (P V : Type) where
  data : List V
  mask : Option (List Bool × PyVal)
  init : Kw
  name : Cls
  points : P
  nslice : ℕ
  shape : List ℕ

variable {P V : Type}

/-- `write_data`, `base_slicer.py:213-241`. -/
def write (rad : ℚ → ℚ) (files : Kw) (s : Slicer P) (v : Values V) : File P V :=
  ⟨v.data, v.mask, slicerInit rad s.cls s.ps files, s.cls, s.points, s.nslice, s.shape⟩

/-- `read_data`, `base_slicer.py:414-440`: the parameters are those of `slicer_init`, or the defaults after a
TypeError; `none` is any other error. -/
def read (ffmpeg : Bool) (f : File P V) : Option (Values V × Slicer P) :=
  let make : Res Kw := match construct ffmpeg f.name f.init with
    | .typeError => construct ffmpeg f.name []
    | r => r
  match make with
  | .ok ps => some (⟨f.data, f.mask⟩, ⟨f.name, ps, f.points, f.nslice, f.shape⟩)
  | _ => none

/-- `badval` of a slicer: the parameter; that of `NDSlicer` is always -666 (`nd_slicer.py:32`). -/
def badval (s : Slicer P) : Option PyVal :=
  if s.cls = .nd then some (.num (-666)) else lookup s.ps "badval"

/-- `MetricBundle.read`, `metric_bundle.py:574-577`: the fill value becomes that of the slicer. -/
def readBundle (ffmpeg : Bool) (f : File P V) : Option (Values V × Slicer P) :=
  (read ffmpeg f).map fun r =>
    (⟨r.1.data, match badval r.2 with
      | some b => some ((match r.1.mask with | some m => m.1 | none => List.replicate r.1.data.length false), b)
      | none => r.1.mask⟩, r.2)

/-! ## JSON -/

/-- Types of values. -/
inductive DType where
  | float | int | object
  deriving DecidableEq

/-- The test at the start of `output_json`, `base_slicer.py:285`. -/
def refused (t : DType) : Bool := !decide (t = .float) || decide (t = .int)

/-- Slice points as far as `output_json` looks at them. -/
inductive Points where
  | sky (radec : List (ℚ × ℚ))
  | bins (edges : List ℚ)
  | uni
  | other

/-- The data of the JSON output, `base_slicer.py:330-374`. `deg` changes radians to degrees, `mask` is
`none` for plain arrays. The result `none` is an exception: one more edge than values is needed, and with a
plain array the last edge is indexed (`[i + 1][0]`, line 372), which numbers do not allow; a masked value cannot
be written either. -/
def jsonData (deg : ℚ → ℚ) (p : Points) (data : List ℚ) (mask : Option (List Bool)) : Option (List (List ℚ)) :=
  match mask with
  | some m =>
    match p with
    | .sky radec => some ((radec.zip (data.zip m)).filterMap fun e =>
        if !e.2.2 then some [deg e.1.1, deg e.1.2, e.2.1] else none)
    | .bins edges =>
      if data.length = 0 ∨ edges.length ≤ data.length then none
      else match edges[data.length]? with
        | none => none
        | some last => some ((edges.zip (data.zip m)).map (fun e => [e.1, if !e.2.2 then e.2.1 else 0]) ++ [[last, 0]])
    | .uni => if m[0]? = some true then none else (data[0]?).map fun v => [[v]]
    | .other => some []
  | none =>
    match p with
    | .sky radec => some ((radec.zip data).map fun e => [deg e.1.1, deg e.1.2, e.2])
    | .bins _ => none
    | .uni => (data[0]?).map fun v => [[v]]
    | .other => some []

/-- `output_json` of a slicer, `base_slicer.py:243-378`: outer `none` is an exception, inner `none` the result
None. -/
def outputJson (deg : ℚ → ℚ) (p : Points) (t : DType) (data : List ℚ) (mask : Option (List Bool)) :
    Option (Option (List (List ℚ))) :=
  if refused t then some none else (jsonData deg p data mask).map some

/-- Keywords of `BaseSlicer.output_json`, `base_slicer.py:243-250`. -/
def jsonKeywords : List String := ["metric_values", "metric_name", "sim_data_name", "info_label", "plot_dict"]

/-- Keywords in the call of `MetricBundle.output_json`, `metric_bundle.py:549-555`. -/
def bundleKeywords : List String := ["metric_name", "simDataName", "info_label", "plot_dict"]

/-- `MetricBundle.output_json`, `metric_bundle.py:540-556`: `none` is an exception. -/
def bundleJson (deg : ℚ → ℚ) (p : Points) (t : DType) (data : List ℚ) (mask : Option (List Bool)) :
    Option (Option (List (List ℚ))) :=
  if bundleKeywords.all (fun k => jsonKeywords.contains k) then outputJson deg p t data mask else none

end Verif.Files
