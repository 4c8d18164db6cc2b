import Mathlib.Analysis.SpecialFunctions.Log.Base
import Mathlib.Analysis.SpecialFunctions.Pow.Real
import Mathlib.Data.List.SplitOn
import Mathlib.Data.List.Dedup

/-!
# Maps

Models of `rubin_sim/maf/maps`, of the maps of a bundle (`metric_bundles/metric_bundle.py:156-181`) and of
those of a group (`metric_bundle_group.py:426-436`). Parameters of the model: the files, the pixel of a
position and interpolation (healpy). An array of positions is looked up element by element, so the
functions here have one position or pixel. Warnings and printing are left out, and `trilegal_map.py`
and `gal_coords_map.py`, which only call astropy and a tree.
-/

namespace Verif.Maps

open Real

/-! ## Lookup -/

/-- What is asked for: a resolution, a directory or file, a pixel, a position, and whether to interpolate. -/
structure Args (P : Type) where
  nside : ℕ
  path : Option String
  pixel : Option ℕ
  pos : Option P
  interp : Bool

/-- `radec2pix` and `hp.get_interp_val`. -/
structure Sky (P V : Type) where
  near : ℕ → P → ℕ
  interp : List V → P → V

variable {P V : Type}

/-- `m[i]` -/
def index (m : List V) (i : ℕ) : Except String V :=
  match m[i]? with
  | none => .error "IndexError"
  | some v => .ok v

/-- `ebv_hp.py:52-62`. -/
def look (sky : Sky P V) (m : List V) (nside : ℕ) (a : Args P) : Except String V :=
  if a.interp then
    match a.pos with
    | none => .error "TypeError"
    | some p => .ok (sky.interp m p)
  else
    match a.pixel with
    | some i => index m i
    | none =>
      match a.pos with
      | none => .error "TypeError"
      | some p => index m (sky.near nside p)

/-! ## Dust -/

/-- The attributes of the function `eb_vhp`, with the number of files that were read. -/
structure Ebv (V : Type) where
  nside : Option ℕ
  dustMap : Option (List V)
  reads : ℕ

/-- `hasattr(eb_vhp, "dustmap")`, `ebv_hp.py:47`: the attribute has the name `dustMap`. -/
def hasDustmap (_ : Ebv V) : Bool := false

/-- `eb_vhp`, `ebv_hp.py:36-64`. -/
def ebv (disk : Option String → ℕ → Option (List V)) (sky : Sky P V) (st : Ebv V) (a : Args P) : Except String V × Ebv V :=
  if a.pixel.isNone && a.pos.isNone then (.error "RuntimeError", st)
  else
    let st1 := if st.nside.isNone then { st with nside := some a.nside } else st
    if (!hasDustmap st1) || decide (st1.nside ≠ some a.nside) then
      let st2 := { st1 with nside := some a.nside }
      match disk a.path a.nside with
      | none => (.error "FileNotFoundError", st2)
      | some m => (look sky m a.nside a, { st2 with dustMap := some m, reads := st2.reads + 1 })
    else
      match st1.dustMap with
      | none => (.error "AttributeError", st1)
      | some m => (look sky m a.nside a, st1)

/-- `DustMap.run`, `dust_map.py:41-66`, at one slice point: the resolution of a healpix slicer, if it is one. -/
def dustArgs (mapNside : ℕ) (interp : Bool) (path : Option String) (slicer : Option ℕ) (sid : ℕ) (pos : P) : Args P :=
  match slicer with
  | some n => ⟨n, path, some sid, none, false⟩
  | none => ⟨mapNside, path, none, some pos, interp⟩

/-! ## Dust with distances -/

/-- A file of the map; a row holds distances and extinctions. -/
structure File (V : Type) where
  nside : ℕ
  nested : Bool
  rows : List V

/-- The attributes of the function `ebv_3d_hp`. -/
structure Ebv3 (V : Type) where
  mapFile : Option String
  nside : Option ℕ
  rows : Option (List V)

/-- `hasattr(ebv_3d_hp, "map_file")`, `ebv_3d_hp.py:72`: the attribute has the name `mapFile`. -/
def hasMapFile (_ : Ebv3 V) : Bool := false

/-- `ebv_3d_hp.py:53-70`; `dir` is the directory of the data. -/
def mapFile (isfile : String → Bool) (dir : String) (a : Args P) : Except String String :=
  match a.path with
  | none =>
    if a.nside = 64 then .ok (dir ++ "merged_ebv3d_nside64_defaults.fits")
    else if a.nside = 128 then .ok (dir ++ "merged_ebv3d_nside128_defaults.fits")
    else .error "Exception"
  | some f => if !isfile f && isfile (dir ++ f) then .ok (dir ++ f) else .ok f

/-- `ebv_3d_hp.py:117-133`. -/
def look3 (sky : Sky P V) (m : List V) (nside : ℕ) (a : Args P) : Except String V :=
  match a.pixel with
  | some i => index m i
  | none =>
    match a.pos with
    | none => .error "TypeError"
    | some p => if a.interp then .ok (sky.interp m p) else index m (sky.near nside p)

/-- `ebv_3d_hp`, `ebv_3d_hp.py:49-135`. -/
def ebv3 (disk : String → Option (File V)) (reorder : List V → List V) (dir : String) (sky : Sky P V) (st : Ebv3 V) (a : Args P) : Except String V × Ebv3 V :=
  if a.pixel.isNone && a.pos.isNone then (.error "RuntimeError", st)
  else
    match mapFile (fun f => (disk f).isSome) dir a with
    | .error e => (.error e, st)
    | .ok f =>
      let st1 := if !hasMapFile st then { st with mapFile := some f, nside := some a.nside } else st
      let read : Except String V × Ebv3 V :=
        let st2 := { st1 with mapFile := some f, nside := some a.nside }
        match disk f with
        | none => (.error "FileNotFoundError", st2)
        | some h =>
          if a.nside ≠ h.nside ∧ a.pixel.isSome then (.error "ValueError", st2)
          else
            let m := if h.nested then reorder h.rows else h.rows
            (look3 sky m h.nside a, { st2 with rows := some m })
      match st1.rows with
      | none => read
      | some m => if st1.mapFile ≠ some f then read else (look3 sky m a.nside a, st1)

/-- `get_x_at_nearest_y`, `ebv_3d_hp.py:166-169`, on pairs; the first of the nearest. -/
noncomputable def nearest (goal : ℝ) : List (ℝ × ℝ) → Option (ℝ × ℝ)
  | [] => none
  | p :: l => some (l.foldl (fun b q => if |q.1 - goal| < |b.1 - goal| then q else b) p)

/-- `dust_map_3d.py:171`. -/
noncomputable def distMod (d : ℝ) : ℝ := 5 * logb 10 d - 5

/-- `distance_at_dmag`, `dust_map_3d.py:168-190`, on pairs of distance and extinction: `map` for the arrays of
all slice points and otherwise for those of one. -/
noncomputable def distAt (map : Bool) (rx dmag : ℝ) (l : List (ℝ × ℝ)) : Option ℝ :=
  let ax := l.map (fun p => rx * p.2)
  match nearest dmag (l.map (fun p => (distMod p.1 + rx * p.2, p.1))), (if map then ax.getLast? else ax.max?) with
  | some c, some a =>
    let far := (10 : ℝ) ^ (0.2 * (dmag - a) + 1)
    some (if far > c.2 then far else c.2)
  | _, _ => none

/-! ## Galactic plane -/

abbrev Str := List Char

/-- The text in front of the keys. -/
def prefixStr : Str := "galplane_priority_".toList

/-- `gp_priority_map_components_to_keys`, `galactic_plane_priority_maps.py:19-23`. -/
def toKey (f s : Str) : Str := prefixStr ++ s ++ ':' :: f

/-- `t.replace(pat, "")` for a pattern that is not empty. -/
def remove (pat : Str) : ℕ → Str → Str
  | 0, t => t
  | _, [] => []
  | n + 1, c :: t => if pat.isPrefixOf (c :: t) then remove pat n ((c :: t).drop pat.length) else c :: remove pat n t

/-- `gp_priority_map_keys_to_components`, `galactic_plane_priority_maps.py:26-28`. -/
def toComponents (key : Str) : Except String (Str × Str) :=
  match (remove prefixStr key.length key).splitOn ':' with
  | [s, f] => .ok (f, s)
  | _ => .error "ValueError"

/-- A table of one filter: the columns by name. -/
abbrev Table (V : Type) := List (Str × List V)

/-- The attributes `maps` and `science_maps` of the function. -/
structure Gal (V : Type) where
  maps : Option (List (Str × Table V))
  science : Option (List Str)

/-- `galactic_plane_priority_maps.py:99`. -/
def filters : List Str := ["u".toList, "g".toList, "r".toList, "i".toList, "z".toList, "y".toList, "sum".toList]

/-- The loop of `galactic_plane_priority_maps.py:106-117`; `enum` is an order of a set. -/
def readAll (enum : List Str → List Str) (file : Str → Option (Table V)) : List Str → Gal V → Except String Unit × Gal V
  | [], st => (.ok (), st)
  | f :: fs, st =>
    match file f with
    | none => (.error "FileNotFoundError", st)
    | some t =>
      readAll enum file fs ⟨some ((st.maps.getD []) ++ [(f, t)]), some (enum ((st.science.getD []) ++ t.map Prod.fst))⟩

/-- What the function gives: keys or values. -/
inductive Got (V : Type)
  | keys (ks : List Str)
  | vals (d : List (Str × V))

/-- The value of one key, `galactic_plane_priority_maps.py:131-132`, 138-139 and 144-145. -/
def valueOf (sky : Sky P V) (maps : List (Str × Table V)) (a : Args P) (k : Str) : Except String V :=
  match toComponents k with
  | .error e => .error e
  | .ok (f, s) =>
    match maps.lookup f with
    | none => .error "KeyError"
    | some t =>
      match t.lookup s with
      | none => .error "ValueError"
      | some m => look3 sky m a.nside a

/-- The dictionary of all keys. -/
def valuesOf (sky : Sky P V) (maps : List (Str × Table V)) (a : Args P) : List Str → Except String (List (Str × V))
  | [] => .ok []
  | k :: ks =>
    match valueOf sky maps a k with
    | .error e => .error e
    | .ok v =>
      match valuesOf sky maps a ks with
      | .error e => .error e
      | .ok d => .ok ((k, v) :: d)

/-- `galplane_priority_map`, `galactic_plane_priority_maps.py:84-147`. -/
def galplane (enum : List Str → List Str) (disk : Option String → Bool → Str → Option (Table V)) (sky : Sky P V) (st : Gal V) (getKeys alt : Bool) (a : Args P) :
    Except String (Got V) × Gal V :=
  if !getKeys && a.pixel.isNone && a.pos.isNone then (.error "RuntimeError", st)
  else if a.nside ≠ 64 then (.error "RuntimeError", st)
  else
    let r := match st.maps with
      | none => readAll enum (disk a.path alt) filters ⟨some [], st.science⟩
      | some _ => (.ok (), st)
    match r.1 with
    | .error e => (.error e, r.2)
    | .ok () =>
      match r.2.science with
      | none => (.error "AttributeError", r.2)
      | some ss =>
        let ks := filters.flatMap (fun f => ss.map (fun s => toKey f s))
        if getKeys then (.ok (.keys ks), r.2)
        else
          match valuesOf sky (r.2.maps.getD []) a ks with
          | .error e => (.error e, r.2)
          | .ok d => (.ok (.vals d), r.2)

/-- `GalacticPlanePriorityMap.__init__`, `galactic_plane_priority_maps.py:175-179`: the directory is not given. -/
def galInit (enum : List Str → List Str) (disk : Option String → Bool → Str → Option (Table V)) (sky : Sky P V) (st : Gal V) : Except String (Got V) × Gal V :=
  galplane enum disk sky st true false ⟨64, none, none, none, false⟩

/-- `GalacticPlanePriorityMap.run`, `galactic_plane_priority_maps.py:181-210`, with a healpix slicer. -/
def galRun (enum : List Str → List Str) (disk : Option String → Bool → Str → Option (Table V)) (sky : Sky P V) (st : Gal V) (path : Option String) (nside sid : ℕ) :
    Except String (Got V) × Gal V :=
  galplane enum disk sky st false false ⟨nside, path, some sid, none, false⟩

/-! ## Stars -/

/-- `StellarDensityMap.run`, `stellar_density_map.py:62-70`: the rows of the slice points. `pos` are the positions
of the slice points, `near` the pixels of positions. -/
def stellar (near : P → ℕ) (mapNside : ℕ) (rows : List V) (slicer : Option ℕ) (pos : List P) : Except String (List V) :=
  if slicer = some mapNside then .ok rows
  else
    pos.foldr (fun p acc => match index rows (near p), acc with
      | .error e, _ => .error e
      | .ok _, .error e => .error e
      | .ok v, .ok vs => .ok (v :: vs)) (.ok [])

/-! ## Lists of maps -/

/-- A map object: its class, its parameters and the keys that it adds. -/
structure Map where
  cls : String
  params : String
  keys : List String
deriving DecidableEq

/-- `__eq__`, `base_map.py:49-50`. -/
def Map.eq (m n : Map) : Bool := decide (m.keys = n.keys)

/-- `metric_bundle_group.py:434-436`. -/
def uniq (all : List Map) : List Map := all.foldl (fun acc m => if acc.any (fun n => Map.eq m n) then acc else acc ++ [m]) []

/-- The argument `maps_list` of a bundle. -/
inductive Given
  | none
  | single (m : Map)
  | many (ms : List Map)

/-- What a metric needs: the name of a class, or an object. -/
inductive Need
  | name (n : String)
  | obj (m : Map)

/-- The loop over the maps of the metric, `metric_bundle.py:172-181`; `make` calls a class without arguments. -/
def addNeeds (make : String → Option Map) : List Need → List Map → List String → Except String (List Map)
  | [], l, _ => .ok l
  | .name n :: ns, l, names =>
    if n ∈ names then addNeeds make ns l names
    else
      match make n with
      | none => .error "AttributeError"
      | some m => addNeeds make ns (l ++ [m]) (names ++ [n])
  | .obj m :: ns, l, names =>
    if l.any (fun n => Map.eq m n) then addNeeds make ns l names else addNeeds make ns (l ++ [m]) (names ++ [m.cls])

/-- `metric_bundle.py:156-181`: a single map is assigned to another attribute. -/
def bundleMaps (make : String → Option Map) (given : Given) (needs : List Need) : Except String (List Map) :=
  match given with
  | .none => addNeeds make needs [] []
  | .single _ => .error "AttributeError"
  | .many ms => addNeeds make needs ms (ms.map Map.cls)

end Verif.Maps
