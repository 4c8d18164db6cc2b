import Mathlib.Algebra.Order.Field.Basic
import Mathlib.Algebra.Field.Rat
import Mathlib.Algebra.Order.Ring.Rat

/-!
# Spectra of twilight

Model of `TwilightInterp.interp_spec`, `rubin_sim/skybrightness/interp_components.py:621-681`. The flux of a point in a
filter (`twilight_func`, see `Verif.Model.SkyInterp`) and the flux of the sun in it (669) are parameters. Filters are in the
order of their effective wavelengths (492-495). Numbers are those of an ordered field.
-/

namespace Verif.TwiSpec

variable {K : Type*} [Field K] [LinearOrder K]

/-- A point of the sky. -/
structure P (K : Type*) where
  sun : K
  am : K
  az : K

/-- A filter: effective wavelength, flux of points, flux of the sun. -/
structure F (K : Type*) where
  wave : K
  flux : P K → K
  solar : K

/-- The line through two knots. -/
def line (a b : K × K) (x : K) : K := a.2 + (x - a.1) * ((b.2 - a.2) / (b.1 - a.1))

/-- `interp1d` within the knots, linear. -/
def inside : List (K × K) → K → K
  | a :: b :: l, x => if x ≤ b.1 then line a b x else inside (b :: l) x
  | [a], _ => a.2
  | [], _ => 0

/-- `interp_f`, `interp_components.py:675`: the last value is the one outside of the knots. -/
def interp1d (ks : List (K × K)) (x : K) : K :=
  match ks.head?, ks.getLast? with
  | some a, some z => if x < a.1 ∨ z.1 < x then z.2 else inside ks x
  | _, _ => 0

/-- `interp_blue`, `interp_components.py:677`: a spline of degree 1 goes on as the first line. -/
def blue (ks : List (K × K)) (x : K) : K :=
  match ks with
  | a :: b :: _ => if x < a.1 then line a b x else inside ks x
  | _ => 0

/-- `ratio` at a wavelength, `interp_components.py:672-678`. -/
def ratio (ks : List (K × K)) (x : K) : K :=
  if (ks.head?.map (fun a => decide (x < a.1))).getD false then blue ks x else interp1d ks x

/-- `good`, `interp_components.py:650-655`. -/
def goodP (lo hi maxAm : K) (p : P K) : Bool :=
  decide (lo ≤ p.sun) && decide (p.sun ≤ hi) && decide (p.am ≤ maxAm) && decide (1 ≤ p.am)

/-- `yvals` of a point with the wavelengths, `interp_components.py:659-669`. -/
def knots (fs : List (F K)) (p : P K) : List (K × K) := fs.map (fun f => (f.wave, f.flux p / f.solar))

/-- `result[good[i]] = ...`, `interp_components.py:679`, for the point with a number. -/
def setRow (pts : List (P K)) (g : P K → List K) (r : List (List K)) (i : Nat) : List (List K) :=
  match pts[i]? with
  | some p => r.set i (g p)
  | none => r

/-- `interp_spec`, `interp_components.py:643-681`. `none` is an IndexError: with the sun too high at some point there is a
single NaN for each filter (661-663), and 675 takes the last entry of a number. -/
def interpSpec (lo hi maxAm : K) (fs : List (F K)) (sun : List (K × K)) (pts : List (P K)) : Option (List (List K)) :=
  let zeros := List.replicate pts.length (List.replicate sun.length (0 : K))
  let good := (List.range pts.length).filter (fun i => (pts[i]?.map (goodP lo hi maxAm)).getD false)
  if pts.any (fun p => decide (hi < p.sun)) && decide (0 < fs.length) then none
  else some (good.foldl (setRow pts (fun p => sun.map (fun s => s.2 * ratio (knots fs p) s.1))) zeros)

end Verif.TwiSpec
