import Mathlib.Algebra.Polynomial.Sequence
import Mathlib.LinearAlgebra.Matrix.ToLinearEquiv
import Mathlib.Algebra.Polynomial.FieldDivision
import Mathlib.Algebra.Order.BigOperators.Ring.Finset
import Mathlib.Tactic.Linarith
import Verif.Props.ChebEval

/-! # C34, C58: constrained Chebyshev fits -/

namespace Verif.Cheby

open Polynomial Polynomial.Chebyshev Matrix

section Algebra
variable {K : Type*} [Field K]

/-- The series of a coefficient vector. -/
noncomputable def pol {m : Nat} (u : Fin m → K) : K[X] := ∑ k : Fin m, Polynomial.C (u k) * T K (k : ℤ)

theorem series_ofFn {m : Nat} (u : Fin m → K) : series (List.ofFn u) = pol u := by
  unfold series pol
  rw [List.length_ofFn, Finset.sum_range]
  apply Finset.sum_congr rfl
  intro k _
  simp [List.getD_eq_getElem?_getD]

theorem pol_eval {m : Nat} (u : Fin m → K) (t : K) : (pol u).eval t = ∑ k, u k * (T K (k : ℤ)).eval t := by
  simp [pol, eval_finsetSum]

theorem pol_deriv_eval {m : Nat} (u : Fin m → K) (t : K) :
    (derivative (pol u)).eval t = ∑ k, u k * (derivative (T K (k : ℤ))).eval t := by
  simp [pol, eval_finsetSum]

theorem pol_sub {m : Nat} (u v : Fin m → K) : pol (u - v) = pol u - pol v := by
  simp [pol, sub_mul, Finset.sum_sub_distrib]

theorem pol_unit (m : Nat) (k : Fin m) : series (unit m k : List K) = T K (k : ℤ) := by
  unfold unit
  rw [series_ofFn, pol, Finset.sum_eq_single k]
  · simp
  · intro b _ hb; simp [hb]
  · simp

variable [NeZero (2 : K)]

theorem rescale_unit (x : K) : rescale (-1) 1 x = x := by
  have : (2 : K) ≠ 0 := NeZero.ne _
  have h : (1 : K) - -1 = 2 := by ring
  rw [rescale, h, div_eq_iff this]
  ring

theorem tmat_eq (n m : Nat) (i : Fin n) (k : Fin m) : tmat n m i k = (T K (k : ℤ)).eval (node n i) := by
  rw [tmat, chebevalV_eq, pol_unit, rescale_unit]

theorem tdot_eq (n m : Nat) (i : Fin n) (k : Fin m) :
    tdot n m i k = (derivative (T K (k : ℤ))).eval (node n i) := by
  have : (2 : K) ≠ 0 := NeZero.ne _
  have h : (1 : K) - -1 = 2 := by ring
  rw [tdot, chebevalV_eq, pol_unit, rescale_unit, h, mul_div_cancel_left₀ _ this]

theorem tmat_mulVec (n m : Nat) (u : Fin m → K) (i : Fin n) : (tmat n m *ᵥ u) i = (pol u).eval (node n i) := by
  rw [pol_eval, Matrix.mulVec, dotProduct]
  exact Finset.sum_congr rfl (fun k _ => by rw [tmat_eq, mul_comm])

theorem tdot_mulVec (n m : Nat) (u : Fin m → K) (i : Fin n) :
    (tdot n m *ᵥ u) i = (derivative (pol u)).eval (node n i) := by
  rw [pol_deriv_eval, Matrix.mulVec, dotProduct]
  exact Finset.sum_congr rfl (fun k _ => by rw [tdot_eq, mul_comm])

/-- Coefficients are determined by the polynomial. -/
theorem pol_eq_zero {m : Nat} {u : Fin m → K} (h : pol u = 0) : u = 0 := by
  let S : Polynomial.Sequence K := ⟨fun n => T K (n : ℤ), fun n => by simp [degree_T]⟩
  have hl := (S.linearIndependent).comp (fun k : Fin m => (k : ℕ)) Fin.val_injective
  rw [Fintype.linearIndependent_iff] at hl
  funext k
  apply hl u
  rw [← h, pol]
  exact Finset.sum_congr rfl (fun k _ => by rw [← smul_eq_C_mul]; rfl)

theorem pol_degree_lt {m : Nat} (u : Fin m → K) : (pol u).degree < m := by
  unfold pol
  rw [← Polynomial.mem_degreeLT]
  apply Submodule.sum_mem
  intro k _
  rw [← smul_eq_C_mul]
  apply Submodule.smul_mem
  rw [Polynomial.mem_degreeLT, degree_T]
  exact_mod_cast (by simp : (k : ℤ).natAbs < m)

end Algebra

section Ordered
variable {K : Type*} [Field K] [LinearOrder K] [IsStrictOrderedRing K]

theorem node_first (n : Nat) [NeZero n] : (node n (firstPt n) : K) = 1 := by simp [node, firstPt]

theorem pred_ne_zero {n : Nat} (hn : 2 ≤ n) : ((n : K) - 1) ≠ 0 := by
  have : (1 : K) < n := by exact_mod_cast hn
  exact ne_of_gt (by linarith)

theorem node_last (n : Nat) [NeZero n] (hn : 2 ≤ n) : (node n (lastPt n) : K) = -1 := by
  have h := pred_ne_zero (K := K) hn
  have hc : (((lastPt n : Fin n) : Nat) : K) = (n : K) - 1 := by
    have : ((lastPt n : Fin n) : Nat) = n - 1 := by simp [lastPt, Fin.val_rev]
    rw [this, Nat.cast_sub (by omega)]; simp
  rw [node, hc]
  field_simp
  ring

theorem node_injective {n : Nat} (hn : 2 ≤ n) : Function.Injective (node n : Fin n → K) := by
  intro i j h
  have hp := pred_ne_zero (K := K) hn
  unfold node at h
  have h2 : (-2 / ((n : K) - 1)) ≠ 0 := div_ne_zero (by norm_num) hp
  have := mul_right_cancel₀ h2 (add_left_cancel h)
  exact Fin.ext (by exact_mod_cast this)

/-- Regular sampling: the rescaled times are the nodes in reverse order. -/
theorem node_rev (n : Nat) (hn : 2 ≤ n) (α β : K) (hab : α ≠ β) (j : Fin n) :
    rescale α β (α + (j : Nat) * ((β - α) / ((n : K) - 1))) = node n j.rev := by
  have hp := pred_ne_zero (K := K) hn
  have hd : β - α ≠ 0 := sub_ne_zero.mpr (Ne.symm hab)
  have hc : ((j.rev : Nat) : K) = (n : K) - 1 - (j : Nat) := by
    rw [Fin.val_rev, Nat.cast_sub (by omega)]; push_cast; ring
  rw [rescale, node, hc]
  field_simp
  ring

/-- Values at all nodes determine a polynomial of low degree. -/
theorem pol_zero_of_nodes {n m : Nat} (hn : 2 ≤ n) (hm : m ≤ n) {u : Fin m → K}
    (h : ∀ i : Fin n, (pol u).eval (node n i) = 0) : u = 0 := by
  apply pol_eq_zero
  by_contra hne
  have hd : (∏ i : Fin n, (X - Polynomial.C (node n i : K))) ∣ pol u :=
    Fintype.prod_dvd_of_coprime (pairwise_coprime_X_sub_C (node_injective hn))
      (fun i => dvd_iff_isRoot.mpr (h i))
  have h1 := degree_le_of_dvd hd hne
  have h2 : (∏ i : Fin n, (X - Polynomial.C (node n i : K))).degree = ((n : ℕ) : WithBot ℕ) := by
    rw [degree_prod]; simp
  rw [h2] at h1
  have h3 := lt_of_le_of_lt h1 (pol_degree_lt u)
  have : n < m := by exact_mod_cast h3
  omega

/-- Values and derivatives at all nodes determine a polynomial of twice that degree. -/
theorem pol_zero_of_double_nodes {n m : Nat} (hn : 2 ≤ n) (hm : m ≤ 2 * n) {u : Fin m → K}
    (h : ∀ i : Fin n, (pol u).eval (node n i) = 0) (h' : ∀ i : Fin n, (derivative (pol u)).eval (node n i) = 0) :
    u = 0 := by
  apply pol_eq_zero
  by_contra hne
  have hd : (∏ i : Fin n, (X - Polynomial.C (node n i : K)) ^ 2) ∣ pol u := by
    apply Fintype.prod_dvd_of_coprime
    · intro i j hij
      exact IsCoprime.pow (pairwise_coprime_X_sub_C (node_injective hn) hij)
    · intro i
      have : 1 < (pol u).rootMultiplicity (node n i) :=
        (one_lt_rootMultiplicity_iff_isRoot hne).mpr ⟨h i, h' i⟩
      exact (le_rootMultiplicity_iff hne).mp this
  have h1 := degree_le_of_dvd hd hne
  have h2 : (∏ i : Fin n, (X - Polynomial.C (node n i : K)) ^ 2).degree = ((2 * n : ℕ) : WithBot ℕ) := by
    rw [degree_prod]
    simp [degree_pow]
    ring
  rw [h2] at h1
  have h3 := lt_of_le_of_lt h1 (pol_degree_lt u)
  have : 2 * n < m := by exact_mod_cast h3
  omega

omit [LinearOrder K] [IsStrictOrderedRing K] in
/-- Saddle point matrices are invertible. -/
theorem saddle_det {m r : Type*} [Fintype m] [DecidableEq m] [Fintype r] [DecidableEq r] (G : Matrix m m K)
    (B : Matrix r m K) (hG : ∀ u, u ⬝ᵥ (G *ᵥ u) = 0 → u = 0) (hB : ∀ l, Bᵀ *ᵥ l = 0 → l = 0) :
    (Matrix.fromBlocks G Bᵀ B 0).det ≠ 0 := by
  intro hdet
  obtain ⟨v, hv, hz⟩ := Matrix.exists_mulVec_eq_zero_iff.mpr hdet
  obtain ⟨u, l, rfl⟩ : ∃ u l, v = Sum.elim u l := ⟨v ∘ Sum.inl, v ∘ Sum.inr, by simp⟩
  rw [Matrix.fromBlocks_mulVec] at hz
  have h1 : G *ᵥ u + Bᵀ *ᵥ l = 0 := by
    funext i; have := congrFun hz (.inl i); simpa using this
  have h2 : B *ᵥ u = 0 := by
    funext i; have := congrFun hz (.inr i); simpa using this
  have hu : u = 0 := by
    apply hG
    have h3 : u ⬝ᵥ (Bᵀ *ᵥ l) = 0 := by
      rw [Matrix.mulVec_transpose, dotProduct_comm, ← Matrix.dotProduct_mulVec, h2, dotProduct_zero]
    have : u ⬝ᵥ (G *ᵥ u + Bᵀ *ᵥ l) = 0 := by rw [h1, dotProduct_zero]
    rw [dotProduct_add, h3, add_zero] at this
    exact this
  have hl : l = 0 := by
    apply hB
    rw [hu, Matrix.mulVec_zero, zero_add] at h1
    exact h1
  apply hv
  rw [hu, hl]
  funext i
  cases i <;> rfl

omit [LinearOrder K] [IsStrictOrderedRing K] in
theorem dot_gram {n m : Type*} [Fintype n] [Fintype m] (A : Matrix n m K) (u : m → K) :
    u ⬝ᵥ ((Aᵀ * A) *ᵥ u) = (A *ᵥ u) ⬝ᵥ (A *ᵥ u) := by
  rw [← Matrix.mulVec_mulVec, Matrix.mulVec_transpose, dotProduct_comm, ← Matrix.dotProduct_mulVec]

theorem dot_self_nonneg {n : Type*} [Fintype n] (v : n → K) : 0 ≤ v ⬝ᵥ v :=
  Finset.sum_nonneg (fun i _ => mul_self_nonneg (v i))

theorem dot_self_zero {n : Type*} [Fintype n] {v : n → K} (h : v ⬝ᵥ v = 0) : v = 0 := by
  funext i
  have := (Finset.sum_eq_zero_iff_of_nonneg (fun i _ => mul_self_nonneg (v i))).mp h i (Finset.mem_univ i)
  exact mul_self_eq_zero.mp this

/-- The normal matrix without velocities is invertible for all admissible sizes. -/
theorem c1x_det {n m : Nat} [NeZero n] (hmn : m ≤ n) (hm : 2 ≤ m) : (c1x n m : Matrix _ _ K).det ≠ 0 := by
  have hn : 2 ≤ n := le_trans hm hmn
  apply saddle_det
  · intro u h
    rw [dot_gram] at h
    have h0 := dot_self_zero h
    exact pol_zero_of_nodes hn hmn (fun i => by rw [← tmat_mulVec, h0]; rfl)
  · intro l h
    have e0 := congrFun h ⟨0, by omega⟩
    have e1 := congrFun h ⟨1, by omega⟩
    simp [Matrix.mulVec, dotProduct, Fin.sum_univ_two, bx, tmat_eq, node_first, node_last n hn] at e0 e1
    funext i
    fin_cases i
    · simp; linarith
    · simp; linarith

/-- The same with velocities and a positive weight. -/
theorem c1v_det {w : K} (hw : 0 < w) {n m : Nat} [NeZero n] (hmn : m ≤ 2 * n) (hm : 4 ≤ m) :
    (c1v w n m : Matrix _ _ K).det ≠ 0 := by
  have hn : 2 ≤ n := by omega
  apply saddle_det
  · intro u h
    rw [Matrix.add_mulVec, dotProduct_add, dot_gram, Matrix.smul_mul, Matrix.smul_mulVec, dotProduct_smul,
      dot_gram, smul_eq_mul] at h
    have p1 := dot_self_nonneg (tmat n m *ᵥ u)
    have p2 := mul_nonneg hw.le (dot_self_nonneg (tdot n m *ᵥ u))
    have h1 := dot_self_zero (show (tmat n m *ᵥ u) ⬝ᵥ (tmat n m *ᵥ u) = 0 by linarith)
    have h2 := dot_self_zero (show (tdot n m *ᵥ u) ⬝ᵥ (tdot n m *ᵥ u) = 0 by
      have : w * ((tdot n m *ᵥ u) ⬝ᵥ (tdot n m *ᵥ u)) = 0 := by linarith
      exact (mul_eq_zero.mp this).resolve_left hw.ne')
    exact pol_zero_of_double_nodes hn hmn (fun i => by rw [← tmat_mulVec, h1]; rfl)
      (fun i => by rw [← tdot_mulVec, h2]; rfl)
  · intro l h
    have e0 := congrFun h ⟨0, by omega⟩
    have e1 := congrFun h ⟨1, by omega⟩
    have e2 := congrFun h ⟨2, by omega⟩
    have e3 := congrFun h ⟨3, by omega⟩
    have t3 : T K 3 = 4 * X ^ 3 - 3 * X := by
      rw [show (3 : ℤ) = 1 + 2 by norm_num, T_add_two, show (1 : ℤ) + 1 = 2 by norm_num, T_two, T_one]; ring
    simp [Matrix.mulVec, dotProduct, Fin.sum_univ_four, bv, tmat_eq, tdot_eq, node_first, node_last n hn,
      T_two, t3] at e0 e1 e2 e3
    norm_num at e0 e1 e2 e3
    funext i
    fin_cases i <;> simp <;> linarith


omit [LinearOrder K] [IsStrictOrderedRing K] in
/-- Evaluation of the fit at a time, in terms of the rescaled polynomial. -/
theorem eval_fit {m : Nat} (α β : K) (u : Fin m → K) (t : K) :
    cheb0 α β (List.ofFn u) t = (pol u).eval (rescale α β t) := by
  rw [chebeval_no_velocity, chebevalV_eq, series_ofFn]

omit [LinearOrder K] [IsStrictOrderedRing K] in
theorem eval_fitV {m : Nat} (α β : K) (u : Fin m → K) (t : K) :
    chebevalV α β (List.ofFn u) t =
      ((pol u).eval (rescale α β t), 2 * (derivative (pol u)).eval (rescale α β t) / (β - α)) := by
  rw [chebevalV_eq, series_ofFn]

omit [LinearOrder K] [IsStrictOrderedRing K] in
theorem rescale_left (α β : K) (h : α ≠ β) : rescale α β α = -1 := by
  have hd : β - α ≠ 0 := sub_ne_zero.mpr (Ne.symm h)
  rw [rescale, div_eq_iff hd]; ring

omit [LinearOrder K] [IsStrictOrderedRing K] in
theorem rescale_right (α β : K) (h : α ≠ β) : rescale α β β = 1 := by
  have hd : β - α ≠ 0 := sub_ne_zero.mpr (Ne.symm h)
  rw [rescale, div_eq_iff hd]; ring

omit [LinearOrder K] [IsStrictOrderedRing K] in
theorem sum_pick {ι : Type*} [Fintype ι] [DecidableEq ι] (i0 : ι) (f : ι → K) :
    ∑ i, (if i = i0 then (1 : K) else 0) * f i = f i0 := by
  rw [Finset.sum_eq_single i0]
  · simp
  · intro b _ hb; simp [hb]
  · simp

/-- The linear system solved by the fit without velocities. -/
theorem multX_system {n m : Nat} [NeZero n] (hmn : m ≤ n) (hm : 2 ≤ m) (x : Fin n → K) :
    ∃ l : Fin 2 → K,
      ((tmat n m)ᵀ * tmat n m) *ᵥ (multX n m *ᵥ x) + (bx n m)ᵀ *ᵥ l = (tmat n m)ᵀ *ᵥ (fun i => x i.rev) ∧
      (bx n m *ᵥ (multX n m *ᵥ x)) 0 = x (lastPt n) ∧ (bx n m *ᵥ (multX n m *ᵥ x)) 1 = x (firstPt n) := by
  set b : Fin n → K := fun i => x i.rev with hb
  set Z : Fin m ⊕ Fin 2 → K := ((c1x n m)⁻¹ * c2x n m : Matrix (Fin m ⊕ Fin 2) (Fin n) K) *ᵥ b with hZ
  have ha : multX n m *ᵥ x = Z ∘ Sum.inl := by
    funext k
    simp only [Matrix.mulVec, dotProduct, multX, hZ, Function.comp, hb]
    rw [← Equiv.sum_comp Fin.revPerm]
    exact Finset.sum_congr rfl (fun j _ => by simp [Fin.revPerm])
  have hsys : c1x n m *ᵥ Z = c2x n m *ᵥ b := by
    rw [hZ, Matrix.mulVec_mulVec, ← Matrix.mul_assoc,
      Matrix.mul_nonsing_inv _ (isUnit_iff_ne_zero.mpr (c1x_det hmn hm)), Matrix.one_mul]
  have hZe : Z = Sum.elim (Z ∘ Sum.inl) (Z ∘ Sum.inr) := by simp
  rw [hZe, c1x, Matrix.fromBlocks_mulVec, ← ha, Sum.elim_comp_inl, Sum.elim_comp_inr] at hsys
  refine ⟨Z ∘ Sum.inr, ?_, ?_, ?_⟩
  · funext k
    have := congrFun hsys (.inl k)
    simpa [Matrix.mulVec, dotProduct, c2x, Matrix.transpose] using this
  · have := congrFun hsys (.inr 0)
    simp only [Sum.elim_inr, Matrix.zero_mulVec, add_zero] at this
    rw [this]
    exact (sum_pick _ b).trans (by simp [hb, lastPt, firstPt])
  · have := congrFun hsys (.inr 1)
    simp only [Sum.elim_inr, Matrix.zero_mulVec, add_zero] at this
    rw [this]
    exact (sum_pick _ b).trans (by simp [hb, lastPt, firstPt])

theorem fitX_ok {n m : Nat} [NeZero n] (hmn : m ≤ n) (hm : 2 ≤ m) (x : Fin n → K) :
    fitX n m x = .ok (multX n m *ᵥ x) := by
  have h := isUnit_iff_ne_zero.mpr (c1x_det (K := K) hmn hm)
  simp [fitX, not_lt.mpr hmn, not_lt.mpr hm, c1x_det (K := K) hmn hm]

/-- **C34**, without derivatives. The fit succeeds exactly for the documented sizes
(never because of a singular matrix), and then the fitted series takes the sample
values at both ends of the interval exactly. -/
theorem chebfit_endpoints (n m : Nat) [NeZero n] (x : Fin n → K) :
    ((∃ e, fitX n m x = .error e) ↔ n < m ∨ m < 2) ∧
    ∀ a, fitX n m x = .ok a → ∀ α β : K, α ≠ β →
      cheb0 α β (List.ofFn a) α = x (firstPt n) ∧ cheb0 α β (List.ofFn a) β = x (lastPt n) := by
  constructor
  · by_cases h1 : n < m
    · simp [fitX, h1]
    · by_cases h2 : m < 2
      · simp [fitX, h1, h2]
      · rw [fitX_ok (not_lt.mp h1) (not_lt.mp h2)]
        simp [h1, h2]
  · intro a ha α β hab
    have hmn : m ≤ n := by
      by_contra h
      simp [fitX, not_le.mp h] at ha
    have hm : 2 ≤ m := by
      by_contra h
      simp [fitX, not_lt.mpr hmn, not_le.mp h] at ha
    rw [fitX_ok hmn hm] at ha
    cases ha
    obtain ⟨l, _, h1, h2⟩ := multX_system hmn hm x
    rw [eval_fit, eval_fit, rescale_left α β hab, rescale_right α β hab]
    have hn : 2 ≤ n := le_trans hm hmn
    constructor
    · rw [← h2, ← node_last n hn, ← tmat_mulVec]; rfl
    · rw [← h1, ← node_first n, ← tmat_mulVec]; rfl

omit [LinearOrder K] [IsStrictOrderedRing K] in
/-- Minimality from the linear system. -/
theorem saddle_minimal {n m r : Type*} [Fintype n] [Fintype m] [Fintype r] (A : Matrix n m K) (B : Matrix r m K)
    (b : n → K) (a u : m → K) (l : r → K) (h : (Aᵀ * A) *ᵥ a + Bᵀ *ᵥ l = Aᵀ *ᵥ b) (hB : B *ᵥ u = B *ᵥ a) :
    (b - A *ᵥ u) ⬝ᵥ (b - A *ᵥ u) = (b - A *ᵥ a) ⬝ᵥ (b - A *ᵥ a) + (A *ᵥ (u - a)) ⬝ᵥ (A *ᵥ (u - a)) := by
  have h1 : Aᵀ *ᵥ (b - A *ᵥ a) = Bᵀ *ᵥ l := by
    rw [Matrix.mulVec_sub, Matrix.mulVec_mulVec, ← h]; abel
  have h2 : (A *ᵥ (u - a)) ⬝ᵥ (b - A *ᵥ a) = 0 := by
    rw [dotProduct_comm, Matrix.dotProduct_mulVec, ← Matrix.mulVec_transpose, h1, Matrix.mulVec_transpose,
      ← Matrix.dotProduct_mulVec, Matrix.mulVec_sub, hB, sub_self, dotProduct_zero]
  have h3 : b - A *ᵥ u = (b - A *ᵥ a) - A *ᵥ (u - a) := by
    rw [Matrix.mulVec_sub]; abel
  rw [h3]
  generalize A *ᵥ (u - a) = e at h2 ⊢
  generalize b - A *ᵥ a = r at h2 ⊢
  rw [sub_dotProduct, dotProduct_sub, dotProduct_sub, h2, dotProduct_comm r e, h2]
  ring

/-- Sum of squared residuals of a series on a regular grid. -/
def sse {n m : Nat} (α β : K) (x : Fin n → K) (u : Fin m → K) : K :=
  ∑ j : Fin n, (x j - cheb0 α β (List.ofFn u) (α + (j : Nat) * ((β - α) / ((n : K) - 1)))) ^ 2

theorem sse_eq {n m : Nat} (hn : 2 ≤ n) (α β : K) (hab : α ≠ β) (x : Fin n → K) (u : Fin m → K) :
    sse α β x u = ((fun i => x i.rev) - tmat n m *ᵥ u) ⬝ᵥ ((fun i => x i.rev) - tmat n m *ᵥ u) := by
  unfold sse dotProduct
  rw [← Equiv.sum_comp Fin.revPerm]
  apply Finset.sum_congr rfl
  intro j _
  rw [eval_fit, node_rev n hn α β hab]
  simp only [Fin.revPerm_apply, Fin.rev_rev, Pi.sub_apply, tmat_mulVec]
  ring

/-- **C58.** On a regular grid the fit without derivatives is optimal: every other
series of that length with the same values at the ends has a larger sum of squared
residuals. -/
theorem chebfit_optimal (n m : Nat) [NeZero n] (x : Fin n → K) (a : Fin m → K) (ha : fitX n m x = .ok a) (α β : K)
    (hab : α ≠ β) (u : Fin m → K) (h1 : cheb0 α β (List.ofFn u) α = x (firstPt n))
    (h2 : cheb0 α β (List.ofFn u) β = x (lastPt n)) (hne : u ≠ a) : sse α β x a < sse α β x u := by
  have hmn : m ≤ n := by
    by_contra h
    simp [fitX, not_le.mp h] at ha
  have hm : 2 ≤ m := by
    by_contra h
    simp [fitX, not_lt.mpr hmn, not_le.mp h] at ha
  have hn : 2 ≤ n := le_trans hm hmn
  rw [fitX_ok hmn hm] at ha
  cases ha
  obtain ⟨l, hs, e1, e2⟩ := multX_system hmn hm x
  rw [eval_fit] at h1 h2
  rw [rescale_left α β hab, ← node_last n hn, ← tmat_mulVec] at h1
  rw [rescale_right α β hab, ← node_first n, ← tmat_mulVec] at h2
  have hB : bx n m *ᵥ u = bx n m *ᵥ (multX n m *ᵥ x) := by
    funext i
    fin_cases i
    · exact h2.trans e1.symm
    · exact h1.trans e2.symm
  rw [sse_eq hn α β hab, sse_eq hn α β hab, saddle_minimal _ _ _ _ _ l hs hB]
  have hpos := dot_self_nonneg (tmat n m *ᵥ (u - multX n m *ᵥ x))
  rcases hpos.lt_or_eq with h | h
  · linarith
  · exfalso
    apply hne
    have h0 := dot_self_zero h.symm
    have := pol_zero_of_nodes (K := K) hn hmn (u := u - multX n m *ᵥ x)
      (fun i => by rw [← tmat_mulVec, h0]; rfl)
    exact sub_eq_zero.mp this

/-- **C58.** A sampled polynomial is recovered: fitting samples of a series of that
length on a regular grid returns its coefficients. -/
theorem chebfit_recovers (n m : Nat) [NeZero n] (hmn : m ≤ n) (hm : 2 ≤ m) (u : Fin m → K) (α β : K) (hab : α ≠ β) :
    fitX n m (fun j : Fin n => cheb0 α β (List.ofFn u) (α + (j : Nat) * ((β - α) / ((n : K) - 1)))) = .ok u := by
  have hn : 2 ≤ n := le_trans hm hmn
  set x : Fin n → K := fun j => cheb0 α β (List.ofFn u) (α + (j : Nat) * ((β - α) / ((n : K) - 1))) with hx
  rw [fitX_ok hmn hm]
  congr 1
  by_contra hne
  have hp := pred_ne_zero (K := K) hn
  have h1 : cheb0 α β (List.ofFn u) α = x (firstPt n) := by simp [hx, firstPt]
  have h2 : cheb0 α β (List.ofFn u) β = x (lastPt n) := by
    have hc : (((lastPt n : Fin n) : Nat) : K) = (n : K) - 1 := by
      have : ((lastPt n : Fin n) : Nat) = n - 1 := by simp [lastPt, Fin.val_rev]
      rw [this, Nat.cast_sub (by omega)]; simp
    simp only [hx, hc]
    congr 1
    field_simp
    ring
  have := chebfit_optimal n m x _ (fitX_ok hmn hm x) α β hab u h1 h2 (Ne.symm hne)
  have hz : sse α β x u = 0 := by simp [sse, hx]
  have hnn : 0 ≤ sse α β x (multX n m *ᵥ x) := Finset.sum_nonneg (fun j _ => sq_nonneg _)
  linarith

/-- The linear system solved by the fit with velocities; `b` are the samples at the
nodes, `d` the rescaled velocities. -/
theorem multV_system {w : K} (hw : 0 < w) {n m : Nat} [NeZero n] (hmn : m ≤ 2 * n) (hm : 4 ≤ m) (x d : Fin n → K) :
    ∃ (a : Fin m → K) (l : Fin 4 → K), multV w n m 0 *ᵥ x + multV w n m 1 *ᵥ d = a ∧
      ((tmat n m)ᵀ * tmat n m + (w • (tdot n m)ᵀ) * tdot n m) *ᵥ a + (bv n m)ᵀ *ᵥ l =
        (tmat n m)ᵀ *ᵥ (fun i => x i.rev) + w • ((tdot n m)ᵀ *ᵥ (fun i => d i.rev)) ∧
      (bv n m *ᵥ a) 0 = x (lastPt n) ∧ (bv n m *ᵥ a) 1 = d (lastPt n) ∧
      (bv n m *ᵥ a) 2 = x (firstPt n) ∧ (bv n m *ᵥ a) 3 = d (firstPt n) := by
  set b : Fin n × Fin 2 → K := fun i => if i.2 = 0 then x i.1.rev else d i.1.rev with hb
  set Z : Fin m ⊕ Fin 4 → K := ((c1v w n m)⁻¹ * c2v w n m : Matrix (Fin m ⊕ Fin 4) (Fin n × Fin 2) K) *ᵥ b with hZ
  have ha : multV w n m 0 *ᵥ x + multV w n m 1 *ᵥ d = Z ∘ Sum.inl := by
    funext k
    simp only [Matrix.mulVec, dotProduct, multV, hZ, Function.comp, hb, Pi.add_apply, Fintype.sum_prod_type,
      Fin.sum_univ_two, Finset.sum_add_distrib]
    rw [← Equiv.sum_comp Fin.revPerm]
    congr 1
    · exact Finset.sum_congr rfl (fun j _ => by simp [Fin.revPerm])
    · rw [← Equiv.sum_comp Fin.revPerm]
      exact Finset.sum_congr rfl (fun j _ => by simp [Fin.revPerm])
  have hsys : c1v w n m *ᵥ Z = c2v w n m *ᵥ b := by
    rw [hZ, Matrix.mulVec_mulVec, ← Matrix.mul_assoc,
      Matrix.mul_nonsing_inv _ (isUnit_iff_ne_zero.mpr (c1v_det hw hmn hm)), Matrix.one_mul]
  have hZe : Z = Sum.elim (Z ∘ Sum.inl) (Z ∘ Sum.inr) := by simp
  rw [hZe, c1v, Matrix.fromBlocks_mulVec, ← ha, Sum.elim_comp_inl, Sum.elim_comp_inr] at hsys
  refine ⟨_, Z ∘ Sum.inr, rfl, ?_, ?_, ?_, ?_, ?_⟩
  · funext k
    have := congrFun hsys (.inl k)
    simp only [Sum.elim_inl] at this
    simp only [Pi.add_apply] at this ⊢
    rw [this]
    simp only [Matrix.mulVec, dotProduct, Fintype.sum_prod_type, Fin.sum_univ_two, Finset.sum_add_distrib, c2v, hb,
      Matrix.transpose, Pi.smul_apply, smul_eq_mul, Finset.mul_sum, Matrix.of_apply]
    congr 1
    exact Finset.sum_congr rfl (fun j _ => by simp; ring)
  · have := congrFun hsys (.inr 0)
    simp only [Sum.elim_inr, Matrix.zero_mulVec, add_zero] at this
    rw [this]
    exact (sum_pick _ b).trans (by simp [hb, lastPt, firstPt])
  · have := congrFun hsys (.inr 1)
    simp only [Sum.elim_inr, Matrix.zero_mulVec, add_zero] at this
    rw [this]
    exact (sum_pick _ b).trans (by simp [hb, lastPt, firstPt])
  · have := congrFun hsys (.inr 2)
    simp only [Sum.elim_inr, Matrix.zero_mulVec, add_zero] at this
    rw [this]
    exact (sum_pick _ b).trans (by simp [hb, lastPt, firstPt])
  · have := congrFun hsys (.inr 3)
    simp only [Sum.elim_inr, Matrix.zero_mulVec, add_zero] at this
    rw [this]
    exact (sum_pick _ b).trans (by simp [hb, lastPt, firstPt])

theorem fitV_ok {w : K} (hw : 0 < w) {n m : Nat} [NeZero n] (hmn : m ≤ 2 * n) (hm : 4 ≤ m) (h : K) (x d : Fin n → K) :
    fitV w n m h x d = .ok (multV w n m 0 *ᵥ x + multV w n m 1 *ᵥ (fun j => d j * h / 2)) := by
  simp [fitV, not_lt.mpr hmn, not_lt.mpr hm, c1v_det (K := K) hw hmn hm]

/-- **C34**, with derivatives. The fit succeeds exactly for the documented sizes, and
then value and velocity of the fitted series agree exactly with the samples at both
ends of the interval. -/
theorem chebfit_endpoints_velocity {w : K} (hw : 0 < w) (n m : Nat) [NeZero n] (α β : K) (hab : α ≠ β)
    (x dxdt : Fin n → K) :
    ((∃ e, fitV w n m (β - α) x dxdt = .error e) ↔ 2 * n < m ∨ m < 4) ∧
    ∀ a, fitV w n m (β - α) x dxdt = .ok a →
      chebevalV α β (List.ofFn a) α = (x (firstPt n), dxdt (firstPt n)) ∧
      chebevalV α β (List.ofFn a) β = (x (lastPt n), dxdt (lastPt n)) := by
  have hd : β - α ≠ 0 := sub_ne_zero.mpr (Ne.symm hab)
  constructor
  · by_cases h1 : 2 * n < m
    · simp [fitV, h1]
    · by_cases h2 : m < 4
      · simp [fitV, h1, h2]
      · rw [fitV_ok hw (not_lt.mp h1) (not_lt.mp h2)]
        simp [h1, h2]
  · intro a ha
    have hmn : m ≤ 2 * n := by
      by_contra h
      simp [fitV, not_le.mp h] at ha
    have hm : 4 ≤ m := by
      by_contra h
      simp [fitV, not_lt.mpr hmn, not_le.mp h] at ha
    have hn : 2 ≤ n := by omega
    rw [fitV_ok hw hmn hm] at ha
    obtain ⟨a', l, h0, _, h1, h2, h3, h4⟩ := multV_system hw hmn hm x (fun j => dxdt j * (β - α) / 2)
    rw [h0] at ha
    cases ha
    rw [eval_fitV, eval_fitV, rescale_left α β hab, rescale_right α β hab]
    have g1 : (pol a).eval 1 = x (lastPt n) := by rw [← h1, ← node_first n, ← tmat_mulVec]; rfl
    have g2 : (derivative (pol a)).eval 1 = dxdt (lastPt n) * (β - α) / 2 := by
      rw [← h2, ← node_first n, ← tdot_mulVec]; rfl
    have g3 : (pol a).eval (-1) = x (firstPt n) := by rw [← h3, ← node_last n hn, ← tmat_mulVec]; rfl
    have g4 : (derivative (pol a)).eval (-1) = dxdt (firstPt n) * (β - α) / 2 := by
      rw [← h4, ← node_last n hn, ← tdot_mulVec]; rfl
    rw [g1, g2, g3, g4]
    constructor
    · congr 1; field_simp
    · congr 1; field_simp

/-- Consecutive segments that share an end point join up: continuous value, and with
velocities continuous velocity. -/
theorem chebfit_joins {w : K} (hw : 0 < w) (n m : Nat) [NeZero n] (α β γ : K) (hab : α ≠ β) (hbc : β ≠ γ)
    (x dxdt x' dxdt' : Fin n → K) (hx : x (lastPt n) = x' (firstPt n)) (hd : dxdt (lastPt n) = dxdt' (firstPt n))
    (a a' : Fin m → K) (ha : fitV w n m (β - α) x dxdt = .ok a) (ha' : fitV w n m (γ - β) x' dxdt' = .ok a') :
    chebevalV α β (List.ofFn a) β = chebevalV β γ (List.ofFn a') β := by
  rw [((chebfit_endpoints_velocity hw n m α β hab x dxdt).2 a ha).2,
    ((chebfit_endpoints_velocity hw n m β γ hbc x' dxdt').2 a' ha').1, hx, hd]

/-- Admissible sizes: the defaults of `ChebyFits` (65 points, 14 and 9 terms). -/
example (x d : Fin 65 → ℚ) : (∃ a, fitX 65 9 x = .ok (a : Fin 9 → ℚ)) ∧
    ∃ a, fitV (4 / 25) 65 14 2 x d = .ok (a : Fin 14 → ℚ) :=
  ⟨⟨_, fitX_ok (by norm_num) (by norm_num) x⟩, ⟨_, fitV_ok (by norm_num) (by norm_num) (by norm_num) 2 x d⟩⟩

end Ordered

end Verif.Cheby
