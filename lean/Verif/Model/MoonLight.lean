import Verif.Model.SkyInterp

/-!
# Scattered moonlight

Model of `MoonInterp._weighting`, `rubin_sim/skybrightness/interp_components.py:699-745`, for one column of spectra or
magnitudes. The neighbours of a point on the sphere with their weights (`get_neighbours`) are an input.
-/

namespace Verif.Moon

open Verif.SkyI

variable {K : Type*} [Field K] [LinearOrder K]

/-- A point: altitude of the moon, its separation from the sun, and the neighbouring pixels with weights. -/
structure Pt (K : Type*) where
  alt : K
  sep : K
  nb : List (ℕ × K)

/-- `intid2id(hpids.ravel(), ...)`, `interp_components.py:735`: the place of a pixel, zero if it is not there. -/
def place (known : List ℕ) (h : ℕ) : ℕ := if h ∈ known then known.idxOf h else 0

/-- The value of a point, `interp_components.py:711-743`. -/
def value (alts seps : List K) (known : List ℕ) (values : List K) (p : Pt K) : K :=
  let a := indxWeights p.alt alts
  let s := indxWeights p.sep seps
  let n : ℤ := known.length
  let na : ℤ := alts.length
  ((pixWeights known p.nb).map (fun e =>
    let j : ℤ := place known e.1
    e.2 * a.wr * s.wr * get values (s.r * (n * na) + a.r * n + j) + e.2 * a.wr * s.wl * get values (s.l * (n * na) + a.r * n + j) +
    e.2 * a.wl * s.wr * get values (s.r * (n * na) + a.l * n + j) +
    e.2 * a.wl * s.wl * get values (s.l * (n * na) + a.l * n + j))).sum

/-- `_weighting`, `interp_components.py:704-745`: zeros if the moon is lower than the grid at all points. -/
def weighting (alts seps : List K) (known : List ℕ) (values : List K) (pts : List (Pt K)) : List K :=
  if pts.all (fun p => decide (p.alt < get alts 0)) then pts.map (fun _ => 0)
  else pts.map (value alts seps known values)

end Verif.Moon
