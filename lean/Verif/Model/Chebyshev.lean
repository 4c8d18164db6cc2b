import Mathlib.Algebra.Field.Defs
import Mathlib.Data.Fintype.BigOperators
import Mathlib.LinearAlgebra.Matrix.NonsingularInverse

/-!
# Model of `rubin_sim/moving_objects/chebyshev_utils.py`

Floating point numbers are idealised as elements of a field `K`; `np.linalg.inv` is
the exact inverse (an error for singular matrices). Arrays of points are handled
pointwise.
-/

namespace Verif.Cheby

section Eval
variable {K : Type*} [Field K]

/-- The loop variables of `chebeval`, `chebyshev_utils.py:51-59`. -/
structure St (K : Type*) where
  y : K
  v : K
  y0 : K
  y1 : K
  v0 : K
  v1 : K

/-- Rescaled coordinate, lines 47-49. -/
def rescale (a b x : K) : K := (2 * x - a - b) / (b - a)

/-- State before the loop, lines 51-56 (`v2` is overwritten before use). -/
def St.init (t : K) : St K := ⟨0, 0, 1, t, 0, 1⟩

/-- One iteration of the loop with velocity, lines 61-79; `tt` is the doubled
coordinate of line 57, `n` the number of coefficients. -/
def stepV (tt : K) (p : List K) (n : Nat) (s : St K) (i : Nat) : St K :=
  let y1 := if i + 1 = n then 0 else s.y1
  let v1 := if i + 1 = n then 0 else s.v1
  let j := min (i + 1) (n - 1)
  let y := s.y + (p.getD i 0 * s.y0 + p.getD j 0 * y1)
  let v := s.v + (p.getD i 0 * s.v0 + p.getD j 0 * v1)
  let y2 := tt * y1 - s.y0
  let y3 := tt * y2 - y1
  let v2 := tt * v1 - s.v0 + 2 * y1
  let v3 := tt * v2 - v1 + 2 * y2
  ⟨y, v, y2, y3, v2, v3⟩

/-- `np.arange(0, n, 2)`. -/
def evens (n : Nat) : List Nat := (List.range ((n + 1) / 2)).map (2 * ·)

/-- `chebeval` with velocity and without mask, lines 13-86. -/
def chebevalV (a b : K) (p : List K) (x : K) : K × K :=
  let t := rescale a b x
  let s := (evens p.length).foldl (stepV (2 * t) p p.length) (St.init t)
  (s.y, 2 * s.v / (b - a))

/-- The loop variables without velocity. -/
structure St0 (K : Type*) where
  y : K
  y0 : K
  y1 : K

/-- One iteration of the loop without velocity, lines 88-94. -/
def step0 (tt : K) (p : List K) (n : Nat) (s : St0 K) (i : Nat) : St0 K :=
  let y1 := if i + 1 = n then 0 else s.y1
  let j := min (i + 1) (n - 1)
  let y := s.y + (p.getD i 0 * s.y0 + p.getD j 0 * y1)
  let y0 := tt * y1 - s.y0
  ⟨y, y0, tt * y0 - y1⟩

/-- `chebeval` without velocity and without mask. -/
def cheb0 (a b : K) (p : List K) (x : K) : K :=
  let t := rescale a b x
  ((evens p.length).foldl (step0 (2 * t) p p.length) ⟨0, 1, t⟩).y

/-- The mask, lines 81-85 and 95-97; NaN is `none`. -/
def masked [LinearOrder K] (a b x : K) (mask : Bool) (y : K) : Option K :=
  if mask && (decide (x < a) || decide (b < x)) then none else some y

end Eval

section Fit
variable {K : Type*} [Field K]

/-- `np.linspace(1, -1, n)`. -/
def node (n : Nat) (i : Fin n) : K := 1 + (i : Nat) * (-2 / ((n : K) - 1))

/-- `cj[:] = 0; cj[i] = 1`, lines 150-151. -/
def unit (m : Nat) (k : Fin m) : List K := List.ofFn (fun i : Fin m => if i = k then 1 else 0)

/-- `tmat`, lines 149-154 and 213-216; default interval (-1, 1). -/
def tmat (n m : Nat) : Matrix (Fin n) (Fin m) K := fun i k => (chebevalV (-1) 1 (unit m k) (node n i)).1

/-- `tdot`, lines 149-154. -/
def tdot (n m : Nat) : Matrix (Fin n) (Fin m) K := fun i k => (chebevalV (-1) 1 (unit m k) (node n i)).2

/-- Index of the first and last point. -/
def firstPt (n : Nat) [NeZero n] : Fin n := 0
def lastPt (n : Nat) [NeZero n] : Fin n := Fin.rev 0

/-- Lines 218-222: `C2` without velocities; the two additional rows are `Sum.inr`. -/
def c2x (n m : Nat) [NeZero n] : Matrix (Fin m ⊕ Fin 2) (Fin n) K
  | .inl k, j => tmat n m j k
  | .inr 0, j => if j = firstPt n then 1 else 0
  | .inr 1, j => if j = lastPt n then 1 else 0

/-- The constraint rows of `C1`, lines 227-228. -/
def bx (n m : Nat) [NeZero n] : Matrix (Fin 2) (Fin m) K
  | 0, k => tmat n m (firstPt n) k
  | 1, k => tmat n m (lastPt n) k

/-- Lines 224-229: `C1` without velocities. -/
def c1x (n m : Nat) [NeZero n] : Matrix (Fin m ⊕ Fin 2) (Fin m ⊕ Fin 2) K :=
  Matrix.fromBlocks ((tmat n m).transpose * tmat n m) (bx n m).transpose (bx n m) 0

/-- `make_cheb_matrix_only_x`, lines 231-238: the points are reversed at the end. -/
noncomputable def multX (n m : Nat) [NeZero n] : Matrix (Fin m) (Fin n) K :=
  fun k j => ((c1x n m)⁻¹ * c2x n m : Matrix (Fin m ⊕ Fin 2) (Fin n) K) (.inl k) j.rev

/-- Lines 157-171: `C2` with velocities. The last axis pair `(point, component)` is
flattened by the code (component 0 position, 1 velocity). -/
def c2v (w : K) (n m : Nat) [NeZero n] : Matrix (Fin m ⊕ Fin 4) (Fin n × Fin 2) K
  | .inl k, (j, 0) => tmat n m j k
  | .inl k, (j, 1) => tdot n m j k * w
  | .inr 0, j => if j = (firstPt n, 0) then 1 else 0
  | .inr 1, j => if j = (firstPt n, 1) then 1 else 0
  | .inr 2, j => if j = (lastPt n, 0) then 1 else 0
  | .inr 3, j => if j = (lastPt n, 1) then 1 else 0

/-- The constraint rows, lines 176-179. -/
def bv (n m : Nat) [NeZero n] : Matrix (Fin 4) (Fin m) K
  | 0, k => tmat n m (firstPt n) k
  | 1, k => tdot n m (firstPt n) k
  | 2, k => tmat n m (lastPt n) k
  | 3, k => tdot n m (lastPt n) k

/-- Lines 162, 173-181: `C1` with velocities. -/
def c1v (w : K) (n m : Nat) [NeZero n] : Matrix (Fin m ⊕ Fin 4) (Fin m ⊕ Fin 4) K :=
  Matrix.fromBlocks
    ((tmat n m).transpose * tmat n m + (w • (tdot n m).transpose) * tdot n m)
    (bv n m).transpose (bv n m) 0

/-- `make_cheb_matrix`, lines 183-190. -/
noncomputable def multV (w : K) (n m : Nat) [NeZero n] (comp : Fin 2) : Matrix (Fin m) (Fin n) K :=
  fun k j => ((c1v w n m)⁻¹ * c2v w n m : Matrix (Fin m ⊕ Fin 4) (Fin n × Fin 2) K) (.inl k) (j.rev, comp)

inductive FitErr
  | tooMany
  | tooFew
  | singular
  deriving DecidableEq

/-- `chebfit` without derivatives, lines 254-365 (coefficients; multipliers computed
or precomputed by `make_cheb_matrix_only_x`). -/
noncomputable def fitX (n m : Nat) [NeZero n] (x : Fin n → K) : Except FitErr (Fin m → K) :=
  open Classical in
  if n < m then .error .tooMany
  else if m < 2 then .error .tooFew
  else if ¬ IsUnit (c1x n m : Matrix _ _ K).det then .error .singular
  else .ok ((multX n m).mulVec x)

/-- `chebfit` with derivatives; `h` is the length of the time interval. -/
noncomputable def fitV (w : K) (n m : Nat) [NeZero n] (h : K) (x dxdt : Fin n → K) : Except FitErr (Fin m → K) :=
  open Classical in
  if 2 * n < m then .error .tooMany
  else if m < 4 then .error .tooFew
  else if ¬ IsUnit (c1v w n m : Matrix _ _ K).det then .error .singular
  else .ok ((multV w n m 0).mulVec x + (multV w n m 1).mulVec (fun j => dxdt j * h / 2))

end Fit

end Verif.Cheby
