import Mathlib.RingTheory.Polynomial.Chebyshev
import Mathlib.Analysis.Calculus.Deriv.Polynomial
import Mathlib.Tactic.Ring
import Mathlib.Tactic.FieldSimp
import Mathlib.Tactic.LinearCombination
import Verif.Model.Chebyshev

/-! # C32, C33: evaluation of Chebyshev series -/

namespace Verif.Cheby

open Polynomial Polynomial.Chebyshev

variable {K : Type*} [Field K]

/-- The Chebyshev series with coefficients `p`, as a polynomial in the rescaled
variable. Independent of the model: sum of `p_n T_n` with Mathlib's `T`. -/
noncomputable def series (p : List K) : K[X] :=
  ∑ i ∈ Finset.range p.length, Polynomial.C (p.getD i 0) * T K (i : ℤ)

/-- The rescaling `x ↦ (2x - a - b)/(b - a)` as a polynomial. -/
noncomputable def affine (a b : K) : K[X] := Polynomial.C (2 / (b - a)) * X + Polynomial.C ((-a - b) / (b - a))

/-- The series as a polynomial in the original variable. -/
noncomputable def seriesOn (a b : K) (p : List K) : K[X] := (series p).comp (affine a b)

theorem rescale_eq (a b x : K) : rescale a b x = (affine a b).eval x := by
  simp [rescale, affine]
  ring

/-- Partial sums. -/
noncomputable def part (p : List K) (k : Nat) : K[X] :=
  ∑ i ∈ Finset.range k, Polynomial.C (p.getD i 0) * T K (i : ℤ)

theorem part_succ (p : List K) (k : Nat) : part p (k + 1) = part p k + Polynomial.C (p.getD k 0) * T K (k : ℤ) :=
  Finset.sum_range_succ _ _

theorem derivative_T_add_two (n : ℤ) :
    derivative (T K (n + 2)) = 2 * X * derivative (T K (n + 1)) - derivative (T K n) + 2 * T K (n + 1) := by
  rw [T_add_two]
  simp only [derivative_sub, derivative_mul, derivative_X, derivative_ofNat]
  ring

theorem eval_T_add_two (n : ℤ) (t : K) :
    (T K (n + 2)).eval t = 2 * t * (T K (n + 1)).eval t - (T K n).eval t := by
  rw [T_add_two]; simp

theorem eval_dT_add_two (n : ℤ) (t : K) :
    (derivative (T K (n + 2))).eval t =
      2 * t * (derivative (T K (n + 1))).eval t - (derivative (T K n)).eval t + 2 * (T K (n + 1)).eval t := by
  rw [derivative_T_add_two]; simp

/-- The loop invariant. -/
theorem loopV (p : List K) (t : K) (k : Nat) (hk : 2 * k ≤ p.length) :
    ((List.range k).map (2 * ·)).foldl (stepV (2 * t) p p.length) (St.init t) =
      ⟨(part p (2 * k)).eval t, (derivative (part p (2 * k))).eval t,
       (T K (2 * k : ℤ)).eval t, (T K (2 * k + 1 : ℤ)).eval t,
       (derivative (T K (2 * k : ℤ))).eval t, (derivative (T K (2 * k + 1 : ℤ))).eval t⟩ := by
  induction k with
  | zero => simp [St.init, part]
  | succ k ih =>
    rw [List.range_succ, List.map_append, List.foldl_append, ih (by omega)]
    have h1 : ¬ (2 * k + 1 = p.length) := by omega
    have h2 : min (2 * k + 1) (p.length - 1) = 2 * k + 1 := by omega
    have e2 : (2 * ((k + 1 : ℕ) : ℤ)) = 2 * k + 2 := by push_cast; ring
    have e3 : (2 * ((k + 1 : ℕ) : ℤ) + 1) = (2 * k + 1) + 2 := by push_cast; ring
    have e4 : (2 * (k : ℤ) + 1 + 1) = 2 * k + 2 := by ring
    have es : 2 * (k + 1) = 2 * k + 1 + 1 := by ring
    simp only [List.map_cons, List.map_nil, List.foldl_cons, List.foldl_nil, stepV, h1, if_false, h2]
    rw [e3, e2, es, part_succ, part_succ]
    simp only [eval_dT_add_two, eval_T_add_two, e4, St.mk.injEq]
    refine ⟨?_, ?_, trivial, trivial, trivial, trivial⟩
    · simp only [eval_add, eval_mul, eval_C]
      push_cast
      ring
    · simp only [derivative_add, derivative_mul, derivative_C, eval_add, eval_mul, eval_C, zero_mul, zero_add]
      push_cast
      ring

theorem chebevalV_eq (a b : K) (p : List K) (x : K) :
    chebevalV a b p x = ((series p).eval (rescale a b x), 2 * (derivative (series p)).eval (rescale a b x) / (b - a)) := by
  have hs : series p = part p p.length := rfl
  unfold chebevalV evens
  simp only
  generalize rescale a b x = t
  rcases Nat.even_or_odd' p.length with ⟨k, hk | hk⟩
  · have : (p.length + 1) / 2 = k := by omega
    rw [this, loopV p t k (by omega), hs, ← hk]
  · have : (p.length + 1) / 2 = k + 1 := by omega
    rw [this, List.range_succ, List.map_append, List.foldl_append, loopV p t k (by omega), hs]
    have h1 : 2 * k + 1 = p.length := by omega
    simp only [List.map_cons, List.map_nil, List.foldl_cons, List.foldl_nil, stepV, h1, if_true, mul_zero, add_zero]
    have hp : part p p.length = part p (2 * k) + Polynomial.C (p.getD (2 * k) 0) * T K ((2 * k : ℕ) : ℤ) := by
      rw [← part_succ, h1]
    rw [hp]
    simp only [eval_add, eval_mul, eval_C, derivative_add, derivative_mul, derivative_C, zero_mul, zero_add]
    push_cast
    rfl

theorem loop0 (p : List K) (t : K) (k : Nat) (hk : 2 * k ≤ p.length) :
    ((List.range k).map (2 * ·)).foldl (step0 (2 * t) p p.length) ⟨0, 1, t⟩ =
      ⟨(part p (2 * k)).eval t, (T K (2 * k : ℤ)).eval t, (T K (2 * k + 1 : ℤ)).eval t⟩ := by
  induction k with
  | zero => simp [part]
  | succ k ih =>
    rw [List.range_succ, List.map_append, List.foldl_append, ih (by omega)]
    have h1 : ¬ (2 * k + 1 = p.length) := by omega
    have h2 : min (2 * k + 1) (p.length - 1) = 2 * k + 1 := by omega
    have e2 : (2 * ((k + 1 : ℕ) : ℤ)) = 2 * k + 2 := by push_cast; ring
    have e3 : (2 * ((k + 1 : ℕ) : ℤ) + 1) = (2 * k + 1) + 2 := by push_cast; ring
    have e4 : (2 * (k : ℤ) + 1 + 1) = 2 * k + 2 := by ring
    have es : 2 * (k + 1) = 2 * k + 1 + 1 := by ring
    simp only [List.map_cons, List.map_nil, List.foldl_cons, List.foldl_nil, step0, h1, if_false, h2]
    rw [e3, e2, es, part_succ, part_succ]
    simp only [eval_T_add_two, e4, St0.mk.injEq]
    refine ⟨?_, trivial, trivial⟩
    simp only [eval_add, eval_mul, eval_C]
    push_cast
    ring

/-- **C32.** `chebeval` returns the value of the series at the rescaled point, for any
number of coefficients. -/
theorem chebeval_value (a b : K) (p : List K) (x : K) :
    (chebevalV a b p x).1 =
      ∑ i ∈ Finset.range p.length, p.getD i 0 * (T K (i : ℤ)).eval ((2 * x - a - b) / (b - a)) := by
  rw [chebevalV_eq, series, eval_finsetSum]
  simp [rescale]

/-- **C32.** The version without velocity returns the same. -/
theorem chebeval_no_velocity (a b : K) (p : List K) (x : K) :
    cheb0 a b p x = (chebevalV a b p x).1 := by
  rw [chebevalV_eq]
  have hs : series p = part p p.length := rfl
  unfold cheb0 evens
  simp only
  generalize rescale a b x = t
  rcases Nat.even_or_odd' p.length with ⟨k, hk | hk⟩
  · have : (p.length + 1) / 2 = k := by omega
    rw [this, loop0 p t k (by omega), hs, ← hk]
  · have : (p.length + 1) / 2 = k + 1 := by omega
    rw [this, List.range_succ, List.map_append, List.foldl_append, loop0 p t k (by omega), hs]
    have h1 : 2 * k + 1 = p.length := by omega
    simp only [List.map_cons, List.map_nil, List.foldl_cons, List.foldl_nil, step0, h1, if_true, mul_zero, add_zero]
    have hp : part p p.length = part p (2 * k) + Polynomial.C (p.getD (2 * k) 0) * T K ((2 * k : ℕ) : ℤ) := by
      rw [← part_succ, h1]
    rw [hp]
    simp only [eval_add, eval_mul, eval_C]
    push_cast
    rfl

omit [Field K] in
/-- **C32.** With `mask` the value is NaN exactly outside the interval. -/
theorem chebeval_mask [LinearOrder K] (a b x y : K) :
    (masked a b x true y = none ↔ ¬ (a ≤ x ∧ x ≤ b)) ∧
    (a ≤ x ∧ x ≤ b → masked a b x true y = some y) ∧ masked a b x false y = some y := by
  refine ⟨?_, ?_, by simp [masked]⟩
  · unfold masked
    by_cases h : a ≤ x ∧ x ≤ b
    · simp [not_lt.mpr h.1, not_lt.mpr h.2, h]
    · simp only [h, not_false_iff, iff_true, Bool.true_and, Bool.or_eq_true, decide_eq_true_eq]
      rw [if_pos]
      rcases not_and_or.mp h with h | h
      · exact Or.inl (not_le.mp h)
      · exact Or.inr (not_le.mp h)
  · rintro ⟨h1, h2⟩
    simp [masked, not_lt.mpr h1, not_lt.mpr h2]

theorem chebeval_poly (a b : K) (p : List K) (x : K) : (chebevalV a b p x).1 = (seriesOn a b p).eval x := by
  rw [chebevalV_eq, seriesOn, eval_comp, rescale_eq]

/-- **C33**, over any field: value and velocity are the value and the formal
derivative, at `x`, of one and the same polynomial in `x`. -/
theorem chebeval_velocity (a b : K) (p : List K) (x : K) :
    (chebevalV a b p x).1 = (seriesOn a b p).eval x ∧
    (chebevalV a b p x).2 = (derivative (seriesOn a b p)).eval x := by
  refine ⟨chebeval_poly a b p x, ?_⟩
  rw [chebevalV_eq, seriesOn, derivative_comp, eval_mul, eval_comp, rescale_eq]
  have : derivative (affine a b) = Polynomial.C (2 / (b - a)) := by
    simp [affine]
  rw [this, eval_C]
  ring

/-- **C33.** Over the reals the velocity is the derivative of the value function. -/
theorem chebeval_hasDerivAt (a b : ℝ) (p : List ℝ) (x : ℝ) :
    HasDerivAt (fun x => (chebevalV a b p x).1) (chebevalV a b p x).2 x := by
  have : (fun x => (chebevalV a b p x).1) = fun x => (seriesOn a b p).eval x := funext (chebeval_poly a b p)
  rw [this, (chebeval_velocity a b p x).2]
  exact Polynomial.hasDerivAt _ x

/-- 1 + 2 t + 3 (2 t² - 1) on [0, 4] at x = 3, i.e. t = 1/2; odd number of
coefficients. -/
example : chebevalV (0 : ℚ) 4 [1, 2, 3] 3 = (1 / 2, 4) := by decide +kernel

end Verif.Cheby
