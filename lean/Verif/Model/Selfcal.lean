import Verif.Model.DirectObs
import Verif.Model.Seasons
import Verif.Model.Astrometry
import Mathlib.Algebra.Order.Floor.Ring

/-!
# Self calibration

Models of `rubin_sim/selfcal/solver.py`, `star_tools.py`, `offsets.py` and `generate_catalog.py`.
Parameters of the model: the order of rows with equal keys after a sort, the least squares solver of
scipy, random numbers, and the tree of stars. The gnomonic projection is in rubin_scheduler. Not
modelled: messages of progress, and the sort of the caller's array in place (`solver.py:58`).
-/

namespace Verif.Selfcal

open Np

/-! ## Cleaning -/

/-- An observation of a star on a patch. -/
structure Obs (K : Type) where
  id : ℤ
  patch : ℤ
  mag : K
  uncert : K
deriving DecidableEq

variable {K : Type}

/-- A possible `sort(order=...)` for each key. -/
abbrev Sorter (K : Type) : Type := (Obs K → ℤ) → List (Obs K) → List (Obs K)

/-- `solver.py:60-64` and `70-74`: rows with the key of a neighbour; `np.roll` is cyclic. -/
def neighbours (key : Obs K → ℤ) (l : List (Obs K)) : List ℕ :=
  let n := l.length
  let k := fun i : ℕ => ((l[i]?).map key).getD 0
  (List.range n).filter (fun i => decide ((k i - k ((i + n - 1) % n)) * (k i - k ((i + 1) % n)) = 0))

/-- The body of the loop, `solver.py:58-75`. -/
def pass (srt : Sorter K) (l : List (Obs K)) : List (Obs K) :=
  let a := srt Obs.id l
  let a := Direct.take a (neighbours Obs.id a)
  let b := srt Obs.patch a
  Direct.take b (neighbours Obs.patch b)

/-- The loop, `solver.py:54-76`; the size never grows (`pass_le`). -/
def core (srt : Sorter K) (l : List (Obs K)) : List (Obs K) :=
  if (pass srt l).length < l.length then core srt (pass srt l) else pass srt l
termination_by l.length

/-- `a[lo:hi] = v` -/
def setRange (c : List ℤ) (lo hi : ℕ) (v : ℤ) : List ℤ := c.mapIdx (fun j x => if lo ≤ j ∧ j < hi then v else x)

/-- `solver.py:84-88` and `97-101`, for the sorted column `c` and its values. -/
def renumber (vals : List ℤ) (start : ℤ) (c : List ℤ) : List ℤ :=
  (List.range vals.length).foldl (fun acc (i : ℕ) =>
    setRange acc (searchsortedLeft c ((vals[i]?).getD 0)) (searchsortedRight c ((vals[i]?).getD 0)) (start + i)) c

/-- The state after `clean_data`. -/
structure Clean (K : Type) where
  obs : List (Obs K)
  patches : List ℤ
  stars : List ℤ

/-- `clean_data`, `solver.py:49-101`. -/
def cleanData (srt : Sorter K) (l : List (Obs K)) : Clean K :=
  let s1 := srt Obs.patch (core srt l)
  let patches := Seasons.uniqueInt (s1.map Obs.patch)
  let o1 := List.zipWith (fun o p => { o with patch := p }) s1 (renumber patches 0 (s1.map Obs.patch))
  let s2 := srt Obs.id o1
  let stars := Seasons.uniqueInt (s2.map Obs.id)
  let o2 := List.zipWith (fun o i => { o with id := i }) s2 (renumber stars 1 (s2.map Obs.id))
  ⟨o2, patches, stars⟩

/-! ## Solution -/

/-- A row of the matrix with its two columns and their value, and the right side. -/
structure Row (K : Type) where
  c1 : ℤ
  c2 : ℤ
  w : K
  b : K

/-- `solve_matrix`, `solver.py:103-126`; `np.max` of nothing is an exception. -/
def solveMatrix [Field K] (lsqr : List (Row K) → ℕ → List K) (s : Clean K) : Option (List K) :=
  match (s.obs.map Obs.patch).max? with
  | none => none
  | some m => some (lsqr (s.obs.map (fun o => ⟨o.patch, o.id + m, 1 / o.uncert, o.mag / o.uncert⟩)) (s.patches.length + s.stars.length))

/-- `return_solution`, `solver.py:128-143`. -/
def returnSolution (s : Clean K) (x : List K) : List (ℤ × K) × List (ℤ × K) :=
  (s.patches.zip (x.take s.patches.length), s.stars.zip (x.drop s.patches.length))

/-- `run` and `return_solution`. -/
def solve [Field K] (srt : Sorter K) (lsqr : List (Row K) → ℕ → List K) (l : List (Obs K)) : Option (List (ℤ × K) × List (ℤ × K)) :=
  (solveMatrix lsqr (cleanData srt l)).map (returnSolution (cleanData srt l))

/-! ## Patches -/

/-- `gnomonic_project_toxy` of rubin_scheduler. -/
noncomputable def gnomonic (ra dec ra0 dec0 : ℝ) : ℝ × ℝ :=
  let cosc := Real.sin dec0 * Real.sin dec + Real.cos dec0 * Real.cos dec * Real.cos (ra - ra0)
  (Real.cos dec * Real.sin (ra - ra0) / cosc, (Real.cos dec0 * Real.sin dec - Real.sin dec0 * Real.cos dec * Real.cos (ra - ra0)) / cosc)

/-- `stars_project`, `star_tools.py:17-22`, after the projection. -/
noncomputable def rotate (rot : ℝ) (p : ℝ × ℝ) : ℝ × ℝ :=
  (Real.cos rot * p.1 + Real.sin rot * p.2, -1 * Real.sin rot * p.1 + Real.cos rot * p.2)

/-- `maxy`, `star_tools.py:33`, for a radius in radians. -/
noncomputable def maxy (radius : ℝ) : ℝ := (gnomonic 0 radius 0 0).2

/-- `star_tools.py:37-38`. -/
noncomputable def cell (nsides : ℕ) (m x : ℝ) : ℤ := ⌊(x + m) / (2 * m) * nsides⌋

/-- `assign_patches`, `star_tools.py:28-42`, for `nsides` squared patches. -/
noncomputable def patchId (nsides : ℕ) (radius : ℝ) (visit : ℤ) (p : ℝ × ℝ) : ℤ :=
  cell nsides (maxy radius) p.1 + cell nsides (maxy radius) p.2 * nsides + visit * ((nsides ^ 2 : ℕ) : ℤ)

/-- The default of `radius_fov` in radians, `star_tools.py:28`. -/
noncomputable def defaultRadius : ℝ := 1.8 * Real.pi / 180

/-- The patch in `generate_catalog`, `generate_catalog.py:154`: the radius is not given. -/
noncomputable def catalogPatch (nsides : ℕ) (_radius : ℝ) (visit : ℤ) (p : ℝ × ℝ) : ℤ := patchId nsides defaultRadius visit p

/-! ## Catalog -/

/-- Values or an exception. -/
inductive Res (α : Type) where
  | error (e : String)
  | val (a : α)

/-- What an offset gives: an array of numbers, or something that can not be added to one: a structured
array or None. -/
inductive Out where
  | arr (xs : List ℝ)
  | other

/-- An offset class. -/
structure Offset (S V : Type) where
  key : String
  call : S → V → List (String × Out) → Out

/-- `NoOffset`, `offsets.py:21-28`: a structured array. -/
def noOffset (S V : Type) : Offset S V := ⟨"dmag_zero", fun _ _ _ => .other⟩

/-- `d[k] = v` -/
def put {α : Type} (d : List (String × α)) (k : String) (v : α) : List (String × α) :=
  if d.any (fun p => p.1 == k) then d.map (fun p => if p.1 == k then (k, v) else p) else d ++ [(k, v)]

/-- `generate_catalog.py:145` and 157-158. -/
def dmags {S V : Type} (offs : List (Offset S V)) (s : S) (v : V) : List (String × Out) :=
  offs.foldl (fun d o => put d o.key (o.call s v d)) []

/-- `generate_catalog.py:161-164`. -/
def obsMag (mags : List ℝ) (d : List (String × Out)) : Res (List ℝ) :=
  d.foldl (fun acc kv => match acc, kv.2 with
    | .val a, .arr x => .val (List.zipWith (· + ·) a x)
    | .val _, .other => .error "TypeError"
    | .error e, _ => .error e) (.val mags)

/-- `calc_mag_errors` with `err_only`, `offsets.py:98-107`. -/
noncomputable def magErr (m m5 : ℝ) : ℝ := 2.5 * (Real.log (1 + 1 / Astro.m52snr (some 0.04) m m5) / Real.log 10)

/-- `generate_catalog.py:167-170`. -/
noncomputable def uncert (floor m m5 : ℝ) : ℝ := (magErr m m5 ^ 2 + floor ^ 2) ^ (0.5 : ℝ)

/-- `generate_catalog`, `generate_catalog.py:95-98`, 144 and 187-188; the rows of a visit are a parameter. -/
def catalog {V R : Type} (offsets : Option Unit) (rows : V → List R) (visits : List V) : Res (Option (List R)) :=
  match offsets with
  | none => .val none
  | some _ => if visits = [] then .error "ValueError" else .val (some (visits.flatMap rows))

end Verif.Selfcal
