import Verif.Model.DirectObs
import Mathlib.Analysis.SpecialFunctions.Trigonometric.Inverse

/-!
# Spatial slicers, `rubin_sim/maf/slicers/base_spatial_slicer.py`, `healpix_slicer.py`,
`healpix_subset_slicer.py`, `user_points_slicer.py`

The positions of the pixels (`healpy`) and the camera footprint (`rubin_scheduler`) are parameters;
the k-d tree is a list of points, its ball query gives the points of the closed ball in some order.
Coordinates are real numbers. Galactic coordinates, plots and warnings are left out.
-/

namespace Verif.Spatial

open Verif.Direct (whereIdx take)

/-! ## Positions -/

section Sphere

/-- `_xyz_from_ra_dec` of `rubin_scheduler`, `base_spatial_slicer.py:149-151`. -/
noncomputable def xyz (ra dec : ℝ) : ℝ × ℝ × ℝ :=
  (Real.cos dec * Real.cos ra, Real.cos dec * Real.sin ra, Real.sin dec)

/-- Distance of two points in space. -/
noncomputable def dist3 (p q : ℝ × ℝ × ℝ) : ℝ :=
  √((p.1 - q.1) ^ 2 + (p.2.1 - q.2.1) ^ 2 + (p.2.2 - q.2.2) ^ 2)

/-- `np.radians`. -/
noncomputable def radians (x : ℝ) : ℝ := x * Real.pi / 180

/-- `xyz_angular_radius` of `rubin_scheduler`, `base_spatial_slicer.py:200-202`. -/
noncomputable def setRad (radius : ℝ) : ℝ := dist3 (xyz (radians radius) 0) (xyz 0 0)

/-- A visit: the columns `lon_col`, `lat_col` and `rot_sky_pos_col_name`. -/
structure Visit where
  lon : ℝ
  lat : ℝ
  rot : ℝ

/-- `data_ra`, `data_dec`, `data_rot`, `base_spatial_slicer.py:128-135`. -/
noncomputable def dataOf (deg : Bool) (v : Visit) : Visit :=
  if deg then ⟨radians v.lon, radians v.lat, radians v.rot⟩ else v

/-- The points within the distance, in order of the list (`query_ball_point`). -/
noncomputable def ball (data : List Visit) (p : ℝ × ℝ × ℝ) (rad : ℝ) : List ℕ :=
  whereIdx (fun v => decide (dist3 (xyz v.lon v.lat) p ≤ rad)) data

/-- The camera footprint: is the position in the footprint of the visit, in radians? -/
abbrev Camera := ℝ → ℝ → Visit → Bool

/-- What of a spatial slicer matters for its slices. `camera` stands for the footprint made of
`camera_radius` and `camera_footprint_file`, `base_spatial_slicer.py:186-190`. -/
structure Setup where
  latLonDeg : Bool
  radius : ℝ
  useCamera : Bool
  camera : Camera

/-- Indices of one slice, `base_spatial_slicer.py:142-165`. `order` is the order of the ball query. -/
noncomputable def sliceIdxs (order : List ℕ → List ℕ) (s : Setup) (visits : List Visit) (ra dec : ℝ) : List ℕ :=
  let data := visits.map (dataOf s.latLonDeg)
  let indices := order (ball data (xyz ra dec) (setRad s.radius))
  if s.useCamera && decide (indices.length > 0) then
    take indices (whereIdx (s.camera ra dec) (take data indices))
  else indices

end Sphere

/-! ## Information of the slice points -/

/-- A value of `slice_points`: a scalar, or an array given by its rows. -/
inductive Val (α : Type) where
  | scalar (a : α)
  | array (rows : List α)
  deriving DecidableEq

variable {α : Type}

/-- `keyShape`, `base_spatial_slicer.py:174-178`. -/
def keyShape : Val α → ℕ
  | .scalar _ => 0
  | .array rows => rows.length

/-- The value of one key for one slice, `base_spatial_slicer.py:179-182`; `none` is an IndexError. -/
def pick (nslice islice : ℕ) (v : Val α) : Option (Val α) :=
  if keyShape v = nslice then
    match v with
    | .array rows => (rows[islice]?).map Val.scalar
    | .scalar _ => none
  else some v

/-- Assignment to a key of a dictionary. -/
def put (d : List (String × Val α)) (k : String) (v : Val α) : List (String × Val α) :=
  if d.any (fun e => e.1 == k) then d.map (fun e => if e.1 == k then (k, v) else e) else d ++ [(k, v)]

/-- Value of a key of a dictionary. -/
def get (d : List (String × Val α)) (k : String) : Option (Val α) :=
  (d.find? (fun e => e.1 == k)).map Prod.snd

/-- The loop over the keys, `base_spatial_slicer.py:173-182`. -/
def fillPoint (nslice islice : ℕ) : List (String × Val α) → List (String × Val α) → Option (List (String × Val α))
  | [], acc => some acc
  | (k, v) :: rest, acc =>
    match pick nslice islice v with
    | none => none
    | some w => fillPoint nslice islice rest (put acc k w)

/-- `slice_point`, `base_spatial_slicer.py:147-148, 173-182`. -/
def slicePoint (points : List (String × Val α)) (nslice islice : ℕ) (sid : α) : Option (List (String × Val α)) :=
  fillPoint nslice islice points [("sid", .scalar sid)]

/-- `slice_point` of a `HealpixSubsetSlicer`, `healpix_subset_slicer.py:253, 281-289`. -/
def subsetPoint (points : List (String × Val α)) (nslice islice : ℕ) (sid nside : α) (hpid : List ℕ) :
    Option (List (String × Val α)) :=
  let start := [("sid", Val.scalar sid), ("nside", Val.scalar nside)]
  if !hpid.contains islice then some start else fillPoint nslice islice points start

/-! ## The subset of pixels -/

/-- Indices of a slice of a `HealpixSubsetSlicer`, `healpix_subset_slicer.py:254-272`. `pix` gives the
positions of the pixels. -/
noncomputable def subsetIdxs (order : List ℕ → List ℕ) (s : Setup) (visits : List Visit) (pix : ℕ → ℝ × ℝ)
    (hpid : List ℕ) (islice : ℕ) : List ℕ :=
  if !hpid.contains islice then [] else sliceIdxs order s visits (pix islice).1 (pix islice).2

/-- State of the iteration, `healpix_subset_slicer.py:208-228`: the counter, if any. -/
abbrev Iter := Option ℕ

/-- `__iter__`, `healpix_subset_slicer.py:208-211`. -/
def iterStart (_ : Iter) : Iter := some 0

/-- `__next__`, `healpix_subset_slicer.py:213-228`: the pixel and the new state, or the end. Without a
counter there is an AttributeError, here as the end. -/
def iterNext (hpid : List ℕ) : Iter → Option ℕ × Iter
  | none => (none, none)
  | some c => if c ≥ hpid.length then (none, some c) else (hpid[c]?, some (c + 1))

/-- A `for` loop: call `__next__` until the end, at most `fuel` times. -/
def iterAll (hpid : List ℕ) : ℕ → Iter → List ℕ
  | 0, _ => []
  | fuel + 1, st =>
    match iterNext hpid st with
    | (none, _) => []
    | (some p, st') => p :: iterAll hpid fuel st'

/-- `self.mask`, `healpix_subset_slicer.py:190-191`. -/
def subsetMask (npix : ℕ) (hpid : List ℕ) : List Bool :=
  hpid.foldl (fun m p => m.set p false) (List.replicate npix true)

/-- The mask of new metric values, `metric_bundle.py:230-240`: `a.flat = mask` goes through the values
of the array row by row and starts again with the mask when that is used up. Entry `(i, j)`. -/
def initialMask (mask : Option (List Bool)) (nslice width : ℕ) (i j : ℕ) : Option Bool :=
  if i < nslice ∧ j < width then
    match mask with
    | none => some false
    | some m => m[(i * width + j) % m.length]?
  else none

/-- `make_circle_subset_slicer`, `healpix_subset_slicer.py:42-45`; `sep` is the angular separation. -/
def circlePixels (npix : ℕ) (sep : ℕ → ℚ) (radius : ℚ) : List ℕ :=
  whereIdx (fun p => decide (sep p ≤ radius)) (List.range npix)

/-- `make_wfd_subset_slicer`, `healpix_subset_slicer.py:74-78`. -/
def wfdPixels (labels wfd : List String) : List ℕ := whereIdx (fun l => wfd.contains l) labels

/-! ## Points of the user -/

/-- An argument that is a number or a list of numbers, `user_points_slicer.py:91-94`. -/
inductive Coord where
  | one (x : ℝ)
  | many (xs : List ℝ)

/-- The list of an argument, `user_points_slicer.py:91-94`. -/
def Coord.list : Coord → List ℝ
  | .one x => [x]
  | .many xs => xs

/-- The points, in radians, `user_points_slicer.py:89-101`; `none` is the ValueError. -/
noncomputable def userPoints (ra dec : Coord) : Option (List (ℝ × ℝ)) :=
  if ra.list.length ≠ dec.list.length then none
  else some ((ra.list.map radians).zip (dec.list.map radians))

/-! ## Comparison of slicers -/

/-- Classes of spatial slicers. -/
inductive Cls where
  | healpix | sdss | subset | user
  deriving DecidableEq

/-- `issubclass`, the headers of the classes (`healpix_sdss_slicer.py:14`, `healpix_subset_slicer.py:82`). -/
def isSub : Cls → Cls → Bool
  | .sdss, .healpix => true
  | .subset, .healpix => true
  | a, b => decide (a = b)

/-- Attributes of a spatial slicer. `points` are the values of `slice_points`, as dictionary. -/
structure Slicer where
  cls : Cls
  nside : ℕ := 0
  nslice : ℕ
  lonCol : String := "fieldRA"
  latCol : String := "fieldDec"
  rotCol : String := "rotSkyPos"
  latLonDeg : Bool := true
  radius : ℚ := 245 / 100
  useCamera : Bool := true
  cameraRadius : ℚ := 194 / 100
  cameraFile : Option String := none
  useCache : Bool := true
  hpid : List ℕ := []
  points : List (String × Val ℚ) := []

/-- `HealpixSlicer.__eq__`, `healpix_slicer.py:164-177`. -/
def healpixEq (self other : Slicer) : Bool :=
  isSub other.cls .healpix && decide (other.nside = self.nside) &&
    (decide (other.lonCol = self.lonCol) && decide (other.latCol = self.latCol)) &&
    decide (other.radius = self.radius) && decide (other.useCamera = self.useCamera) &&
    decide (other.rotCol = self.rotCol) && decide (other.nslice = self.nslice) &&
    decide (other.useCache = self.useCache)

/-- `HealpixSubsetSlicer.__eq__`, `healpix_subset_slicer.py:193-206`. -/
def subsetEq (self other : Slicer) : Bool :=
  isSub other.cls .subset && decide (other.nside = self.nside) && decide (other.hpid = self.hpid) &&
    (decide (other.lonCol = self.lonCol) && decide (other.latCol = self.latCol)) &&
    decide (other.radius = self.radius) && decide (other.useCamera = self.useCamera) &&
    decide (other.rotCol = self.rotCol) && decide (other.nslice = self.nslice)

/-- `UserPointsSlicer.__eq__`, `user_points_slicer.py:120-141`. -/
def userEq (self other : Slicer) : Bool :=
  other.points.all (fun e => decide (get self.points e.1 = some e.2)) &&
    isSub other.cls .user && decide (other.nslice = self.nslice) &&
    (decide (get other.points "ra" = get self.points "ra") && decide (get other.points "dec" = get self.points "dec")) &&
    (decide (other.lonCol = self.lonCol) && decide (other.latCol = self.latCol)) &&
    decide (other.radius = self.radius) && decide (other.useCamera = self.useCamera) &&
    decide (other.rotCol = self.rotCol)

/-- The method of the class; `HealpixSDSSSlicer` has that of `HealpixSlicer`. -/
def eqMethod (self other : Slicer) : Bool :=
  match self.cls with
  | .healpix => healpixEq self other
  | .sdss => healpixEq self other
  | .subset => subsetEq self other
  | .user => userEq self other

/-- `a == b` in Python: the method of the right operand first, if its class is a proper subclass. -/
def pyEq (a b : Slicer) : Bool :=
  if a.cls ≠ b.cls ∧ isSub b.cls a.cls then eqMethod b a else eqMethod a b

/-- The setup of a slicer; `cam` makes the camera of its radius and file. -/
noncomputable def Slicer.setup (cam : ℚ → Option String → Camera) (s : Slicer) : Setup :=
  ⟨s.latLonDeg, s.radius, s.useCamera, cam s.cameraRadius s.cameraFile⟩

/-- The visits of a table, `base_spatial_slicer.py:128-135`: the three columns of each row. -/
def Slicer.visits (s : Slicer) (table : List (String → ℝ)) : List Visit :=
  table.map fun r => ⟨r s.lonCol, r s.latCol, r s.rotCol⟩

/-- Position of a slice, `healpix_slicer.py:152, 179-189`, `user_points_slicer.py:99-101`. `pix` gives the
positions of the pixels for each `nside`. -/
noncomputable def Slicer.position (pix : ℕ → ℕ → ℝ × ℝ) (s : Slicer) (i : ℕ) : Option (ℝ × ℝ) :=
  match s.cls with
  | .user =>
    match get s.points "ra", get s.points "dec" with
    | some (.array ra), some (.array dec) =>
      match ra[i]?, dec[i]? with
      | some a, some d => some ((a : ℝ), (d : ℝ))
      | _, _ => none
    | _, _ => none
  | _ => if i < s.nslice then some (pix s.nside i) else none

/-- Indices of slice `i` (`slicer[i]["idxs"]`), except for the class `HealpixSDSSSlicer`. -/
noncomputable def Slicer.idxs (cam : ℚ → Option String → Camera) (pix : ℕ → ℕ → ℝ × ℝ) (order : List ℕ → List ℕ)
    (s : Slicer) (table : List (String → ℝ)) (i : ℕ) : Option (List ℕ) :=
  (s.position pix i).map fun p =>
    if decide (s.cls = .subset) && !s.hpid.contains i then []
    else sliceIdxs order (s.setup cam) (s.visits table) p.1 p.2

end Verif.Spatial
