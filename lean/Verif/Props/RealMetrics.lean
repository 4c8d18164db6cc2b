import Mathlib.Tactic.Linarith
import Mathlib.Tactic.Ring
import Mathlib.Tactic.FieldSimp
import Mathlib.Tactic.Push
import Mathlib.Tactic.Positivity
import Mathlib.Analysis.Convex.StrictConvexSpace
import Mathlib.Analysis.InnerProductSpace.Convex
import Mathlib.Algebra.Order.BigOperators.Group.List
import Verif.Model.RealMetrics

/-! # C71–C73: coadded depth, angular spread and mean angle -/

namespace Verif.RealMetrics

open Real

/-! ## C71: coadded depth -/

/-- Summed inverse variance of the visits, in units of that of magnitude zero. -/
noncomputable def weight (m5s : List ℝ) : ℝ := (m5s.map (fun m => (10 : ℝ) ^ (0.8 * m))).sum

theorem weight_pos {m5s : List ℝ} (h : m5s ≠ []) : 0 < weight m5s := by
  apply List.sum_pos
  · intro x hx
    obtain ⟨m, -, rfl⟩ := List.mem_map.mp hx
    positivity
  · simpa using h

theorem weight_append (a b : List ℝ) : weight (a ++ b) = weight a + weight b := by simp [weight]

theorem pow_coadd {m5s : List ℝ} (h : m5s ≠ []) : (10 : ℝ) ^ (0.8 * coadd m5s) = weight m5s := by
  unfold coadd
  have : (0.8 : ℝ) * (1.25 * logb 10 (weight m5s)) = logb 10 (weight m5s) := by ring
  show (10 : ℝ) ^ ((0.8 : ℝ) * (1.25 * logb 10 (weight m5s))) = _
  rw [this]
  exact rpow_logb (by norm_num) (by norm_num) (weight_pos h)

theorem coadd_lt {a b : List ℝ} (ha : a ≠ []) (h : weight a < weight b) : coadd a < coadd b := by
  unfold coadd
  have := logb_lt_logb (b := 10) (by norm_num) (weight_pos ha) h
  show 1.25 * logb 10 (weight a) < 1.25 * logb 10 (weight b)
  linarith

theorem coadd_congr {a b : List ℝ} (h : weight a = weight b) : coadd a = coadd b := by
  show 1.25 * logb 10 (weight a) = 1.25 * logb 10 (weight b)
  rw [h]

/-- **C71.** A single visit has its own depth. -/
theorem coadd_single (m : ℝ) : coadd [m] = m := by
  unfold coadd
  simp only [List.map_cons, List.map_nil, List.sum_cons, List.sum_nil, add_zero]
  rw [logb_rpow (by norm_num) (by norm_num)]
  ring

/-- **C71.** `n` equal visits are deeper by 1.25 log10 n. -/
theorem coadd_replicate (n : ℕ) (m : ℝ) (h : n ≠ 0) : coadd (List.replicate n m) = m + 1.25 * logb 10 n := by
  unfold coadd
  rw [List.map_replicate, List.sum_replicate, nsmul_eq_mul, logb_mul (by exact_mod_cast h) (by positivity),
    logb_rpow (by norm_num) (by norm_num)]
  ring

/-- **C71.** The order of the visits does not matter. -/
theorem coadd_perm {a b : List ℝ} (h : a.Perm b) : coadd a = coadd b :=
  coadd_congr ((h.map _).sum_eq)

/-- **C71.** Coadding the depths of groups of visits is the same as coadding the visits: any
grouping, such as one by night, gives the same depth. -/
theorem coadd_groups (gs : List (List ℝ)) (h : ∀ g ∈ gs, g ≠ []) : coadd (gs.map coadd) = coadd gs.flatten := by
  apply coadd_congr
  induction gs with
  | nil => rfl
  | cons g gs ih =>
    rw [List.flatten_cons, weight_append, ← ih (fun x hx => h x (List.mem_cons_of_mem _ hx))]
    unfold weight
    rw [List.map_cons, List.map_cons, List.sum_cons, pow_coadd (h g List.mem_cons_self)]
    rfl

/-- **C71.** More visits are strictly deeper. -/
theorem coadd_more (a b : List ℝ) (ha : a ≠ []) (hb : b ≠ []) : coadd a < coadd (a ++ b) := by
  apply coadd_lt ha
  rw [weight_append]
  linarith [weight_pos hb]

/-- **C71.** The coadded depth is at least that of the deepest visit and exceeds it by at most
1.25 log10 n. -/
theorem coadd_bounds (m5s : List ℝ) (h : m5s ≠ []) (hi : ℝ) (hm : hi ∈ m5s) (hmax : ∀ m ∈ m5s, m ≤ hi) :
    hi ≤ coadd m5s ∧ coadd m5s ≤ hi + 1.25 * logb 10 m5s.length := by
  have hlen : m5s.length ≠ 0 := by simpa using h
  constructor
  · rw [← coadd_single hi]
    have hle : weight [hi] ≤ weight m5s := by
      unfold weight
      simp only [List.map_cons, List.map_nil, List.sum_cons, List.sum_nil, add_zero]
      exact List.single_le_sum (by intro y hy; obtain ⟨z, -, rfl⟩ := List.mem_map.mp hy; positivity) _
        (List.mem_map_of_mem (f := fun m => (10 : ℝ) ^ (0.8 * m)) hm)
    rcases hle.lt_or_eq with h1 | h1
    · exact (coadd_lt (by simp) h1).le
    · exact (coadd_congr h1).le
  · rw [← coadd_replicate _ hi hlen]
    have hle : weight m5s ≤ weight (List.replicate m5s.length hi) := by
      unfold weight
      rw [List.map_replicate, List.sum_replicate]
      have := List.sum_le_card_nsmul (m5s.map (fun m => (10 : ℝ) ^ (0.8 * m))) ((10 : ℝ) ^ (0.8 * hi)) (by
        intro x hx
        obtain ⟨m, hmm, rfl⟩ := List.mem_map.mp hx
        exact rpow_le_rpow_of_exponent_le (by norm_num) (by have := hmax m hmm; linarith))
      simpa using this
    rcases hle.lt_or_eq with h1 | h1
    · exact (coadd_lt h h1).le
    · exact (coadd_congr h1).le

/-- **C71.** Where no visit is in the wanted filter but others exist, the result is minus
infinity and not the bad value, so the point is not masked. -/
theorem coadd_other_filters (f : String) (visits : List (String × ℝ)) (hne : visits ≠ []) (h : ∀ v ∈ visits, v.1 ≠ f) :
    coaddRun (some f) visits = .negInf := by
  unfold coaddRun
  rw [if_neg (by simpa using hne)]
  have : visits.filter (fun v => v.1 = f) = [] := by
    rw [List.filter_eq_nil_iff]
    intro v hv
    simpa using h v hv
  simp [this]

/-- The metric is the coadd of the visits in the filter when there are any. -/
theorem coadd_run_spec (f : String) (visits : List (String × ℝ)) (v : String × ℝ) (hv : v ∈ visits) (hf : v.1 = f) :
    coaddRun (some f) visits = .mag (coadd ((visits.filter (fun v => v.1 = f)).map Prod.snd)) := by
  unfold coaddRun
  have hne : visits.length ≠ 0 := by
    have := List.length_pos_of_mem hv
    omega
  rw [if_neg hne]
  have hm : v.2 ∈ (visits.filter (fun v => v.1 = f)).map Prod.snd :=
    List.mem_map_of_mem (List.mem_filter.mpr ⟨hv, by simpa using hf⟩)
  cases hl : (visits.filter (fun v => v.1 = f)).map Prod.snd with
  | nil => rw [hl] at hm; cases hm
  | cons a l => simp [hl]

/-- Ten equal visits gain 1.25 magnitudes. -/
example : coadd (List.replicate 10 24) = 25.25 := by
  rw [coadd_replicate 10 24 (by norm_num)]
  have : logb 10 ((10 : ℕ) : ℝ) = 1 := by
    push_cast
    exact logb_self_eq_one (by norm_num)
  rw [this]
  norm_num

/-! ## C72: angular spread -/

theorem norm_unit (a : ℝ) : ‖Complex.exp (a * Complex.I)‖ = 1 := Complex.norm_exp_ofReal_mul_I a

theorem norm_sum_le (l : List ℝ) : ‖(l.map (fun a : ℝ => Complex.exp (a * Complex.I))).sum‖ ≤ l.length := by
  induction l with
  | nil => simp
  | cons a l ih =>
    rw [List.map_cons, List.sum_cons, List.length_cons]
    have := norm_add_le (Complex.exp (a * Complex.I)) (l.map (fun a : ℝ => Complex.exp (a * Complex.I))).sum
    rw [norm_unit] at this
    push_cast
    linarith

theorem norm_meanVec_le (l : List ℝ) : ‖meanVec l‖ ≤ 1 := by
  unfold meanVec
  rw [norm_div, Complex.norm_natCast]
  rcases Nat.eq_zero_or_pos l.length with h | h
  · rw [h]; simp
  · have h' : (0 : ℝ) < l.length := by exact_mod_cast h
    rw [div_le_one h']
    exact norm_sum_le l

/-- **C72.** The spread lies in [0, 1]. -/
theorem spread_range (period : ℝ) (data : List ℝ) : 0 ≤ angularSpread period data ∧ angularSpread period data ≤ 1 := by
  unfold angularSpread
  constructor
  · linarith [norm_meanVec_le (data.map (fun a => a * 2 * π / period))]
  · linarith [norm_nonneg (meanVec (data.map (fun a => a * 2 * π / period)))]

theorem meanVec_rotate (l : List ℝ) (c : ℝ) : meanVec (l.map (· + c)) = Complex.exp (c * Complex.I) * meanVec l := by
  unfold meanVec
  rw [List.map_map, List.length_map, mul_div_assoc']
  congr 1
  rw [← List.sum_map_mul_left]
  congr 1
  apply List.map_congr_left
  intro a _
  simp only [Function.comp]
  rw [← Complex.exp_add]
  congr 1
  push_cast
  ring

/-- Adding whole turns changes no unit vector. -/
theorem meanVec_turns (tr : List (ℝ × ℤ)) : meanVec (tr.map (fun e => e.1 + e.2 * (2 * π))) = meanVec (tr.map Prod.fst) := by
  unfold meanVec
  rw [List.map_map, List.map_map, List.length_map, List.length_map]
  congr 2
  apply List.map_congr_left
  intro e _
  simp only [Function.comp]
  have : ((e.1 + e.2 * (2 * π) : ℝ) : ℂ) * Complex.I = e.1 * Complex.I + e.2 * (2 * π * Complex.I) := by
    push_cast
    ring
  rw [this, Complex.exp_add, Complex.exp_int_mul_two_pi_mul_I, mul_one]

/-- **C72.** Turning all angles together, and shifting any of them by whole periods, leaves
the spread unchanged. -/
theorem spread_rotation (period c : ℝ) (hp : period ≠ 0) (tr : List (ℝ × ℤ)) :
    angularSpread period (tr.map (fun e => e.1 + e.2 * period + c)) = angularSpread period (tr.map Prod.fst) := by
  unfold angularSpread
  have h1 : (tr.map (fun e : ℝ × ℤ => e.1 + e.2 * period + c)).map (fun a => a * 2 * π / period) =
      ((tr.map (fun e : ℝ × ℤ => (e.1 * 2 * π / period, e.2))).map (fun e => e.1 + e.2 * (2 * π))).map (· + c * 2 * π / period) := by
    simp only [List.map_map]
    apply List.map_congr_left
    intro e _
    simp only [Function.comp]
    field_simp
  rw [h1, meanVec_rotate, meanVec_turns, norm_mul, norm_unit, one_mul, List.map_map, List.map_map]
  rfl

/-- **C72.** The spread is zero exactly if all angles are the same direction. -/
theorem spread_zero_iff (period : ℝ) (data : List ℝ) (hne : data ≠ []) :
    angularSpread period data = 0 ↔ ∀ a ∈ data, ∀ b ∈ data,
      Complex.exp ((a * 2 * π / period : ℝ) * Complex.I) = Complex.exp ((b * 2 * π / period : ℝ) * Complex.I) := by
  have key : ∀ l : List ℝ, ‖(l.map (fun a : ℝ => Complex.exp (a * Complex.I))).sum‖ = l.length →
      ∀ a ∈ l, (l.map (fun a : ℝ => Complex.exp (a * Complex.I))).sum = l.length * Complex.exp (a * Complex.I) := by
    intro l
    induction l with
    | nil => intro _ a ha; cases ha
    | cons x l ih =>
      intro h a ha
      rw [List.map_cons, List.sum_cons, List.length_cons] at h
      have h1 := norm_add_le (Complex.exp (x * Complex.I)) (l.map (fun a : ℝ => Complex.exp (a * Complex.I))).sum
      have h2 := norm_sum_le l
      rw [norm_unit] at h1
      push_cast at h
      have hl : ‖(l.map (fun a : ℝ => Complex.exp (a * Complex.I))).sum‖ = l.length := by linarith
      have hray : SameRay ℝ (Complex.exp (x * Complex.I)) (l.map (fun a : ℝ => Complex.exp (a * Complex.I))).sum := by
        rw [sameRay_iff_norm_add, norm_unit, hl, h]
        ring
      have hs : (l.map (fun a : ℝ => Complex.exp (a * Complex.I))).sum = l.length * Complex.exp (x * Complex.I) := by
        have := hray.norm_smul_eq
        rw [norm_unit, hl] at this
        simpa using this
      rw [List.map_cons, List.sum_cons, List.length_cons]
      rcases List.mem_cons.mp ha with rfl | ha
      · rw [hs]
        push_cast
        ring
      · have := ih hl a ha
        have hn : (l.length : ℂ) ≠ 0 := by
          have := List.length_pos_of_mem ha
          exact_mod_cast this.ne'
        have he : Complex.exp (x * Complex.I) = Complex.exp (a * Complex.I) := by
          apply mul_left_cancel₀ hn
          rw [← hs, this]
        rw [this, he]
        push_cast
        ring
  set l := data.map (fun a => a * 2 * π / period) with hl
  have hlne : l ≠ [] := by simpa [hl] using hne
  have hn : (0 : ℝ) < l.length := by exact_mod_cast List.length_pos_iff.mpr hlne
  have hnc : (l.length : ℂ) ≠ 0 := by exact_mod_cast (List.length_pos_iff.mpr hlne).ne'
  have hz : angularSpread period data = 0 ↔ ‖(l.map (fun a : ℝ => Complex.exp (a * Complex.I))).sum‖ = l.length := by
    unfold angularSpread
    rw [← hl]
    unfold meanVec
    rw [norm_div, Complex.norm_natCast, sub_eq_zero, eq_comm, div_eq_one_iff_eq hn.ne']
  rw [hz]
  constructor
  · intro h a ha b hb
    have h1 := key l h _ (List.mem_map_of_mem (f := fun a => a * 2 * π / period) ha)
    have h2 := key l h _ (List.mem_map_of_mem (f := fun a => a * 2 * π / period) hb)
    exact mul_left_cancel₀ hnc (h1.symm.trans h2)
  · intro h
    obtain ⟨a, ha⟩ := List.exists_mem_of_ne_nil data hne
    have : l.map (fun a : ℝ => Complex.exp (a * Complex.I)) = List.replicate l.length (Complex.exp ((a * 2 * π / period : ℝ) * Complex.I)) := by
      rw [List.eq_replicate_iff]
      refine ⟨by simp, ?_⟩
      intro z hz
      obtain ⟨y, hy, rfl⟩ := List.mem_map.mp hz
      obtain ⟨b, hb, rfl⟩ := List.mem_map.mp hy
      exact h b hb a ha
    rw [this, List.sum_replicate, nsmul_eq_mul, norm_mul, norm_unit, Complex.norm_natCast, mul_one]

/-- The docstring says the offset R "approaches 1 for a uniform distribution": for two
opposite directions it is 0. -/
example : angularSpread (2 * π) [0, π] = 1 := by
  unfold angularSpread meanVec
  have h : (π * 2 * π / (2 * π) : ℝ) = π := by field_simp
  simp [h]

/-! ## C73: mean angle -/

theorem rmod_range {y : ℝ} (hy : 0 < y) (x : ℝ) : 0 ≤ rmod x y ∧ rmod x y < y := by
  unfold rmod
  have h1 := Int.floor_le (x / y)
  have h2 := Int.lt_floor_add_one (x / y)
  have e : y * (x / y) = x := by field_simp
  constructor
  · have := mul_le_mul_of_nonneg_left h1 hy.le
    linarith
  · have := mul_lt_mul_of_pos_left h2 hy
    rw [mul_add] at this
    linarith

theorem coe_rmod (x : ℝ) : ((rmod x (2 * π) : ℝ) : Real.Angle) = (x : Real.Angle) := by
  rw [Real.Angle.angle_eq_iff_two_pi_dvd_sub]
  refine ⟨-⌊x / (2 * π)⌋, ?_⟩
  unfold rmod
  push_cast
  ring

theorem arg_unit (a : ℝ) : (((Complex.exp (a * Complex.I)).arg : ℝ) : Real.Angle) = (a : Real.Angle) := by
  rw [Complex.exp_mul_I]
  have := Complex.arg_cos_add_sin_mul_I_coe_angle (a : Real.Angle)
  simpa using this

/-- **C73.** The mean angle lies in [0, 2π). -/
theorem mean_angle_range (angles : List ℝ) : 0 ≤ meanAngle angles ∧ meanAngle angles < 2 * π := by
  have hpi := Real.pi_pos
  unfold meanAngle
  simp only
  split
  · constructor <;> linarith
  · exact rmod_range (by positivity) _

/-- **C73.** Unless the angles are nearly uniform, turning them all by `c` turns
the mean by `c`. -/
theorem mean_angle_rotation (angles : List ℝ) (c : ℝ) (h : 0.1 ≤ ‖meanVec angles‖) :
    ((meanAngle (angles.map (· + c)) : ℝ) : Real.Angle) = (meanAngle angles : Real.Angle) + (c : Real.Angle) := by
  unfold meanAngle
  have hn : ‖meanVec (angles.map (· + c))‖ = ‖meanVec angles‖ := by rw [meanVec_rotate, norm_mul, norm_unit, one_mul]
  simp only [hn, if_neg (not_lt.mpr h), coe_rmod]
  rw [meanVec_rotate]
  have hv : meanVec angles ≠ 0 := by
    intro h0
    rw [h0] at h
    norm_num at h
  rw [Complex.arg_mul_coe_angle (Complex.exp_ne_zero _) hv, arg_unit, add_comm]

/-- **C73.** Nearly uniform angles have mean 180 degrees, and turning them keeps it. -/
theorem mean_angle_uniform (angles : List ℝ) (c : ℝ) (h : ‖meanVec angles‖ < 0.1) :
    meanAngle angles = π ∧ meanAngle (angles.map (· + c)) = π := by
  have hn : ‖meanVec (angles.map (· + c))‖ = ‖meanVec angles‖ := by rw [meanVec_rotate, norm_mul, norm_unit, one_mul]
  constructor
  · unfold meanAngle
    rw [if_pos h]
  · unfold meanAngle
    rw [← hn] at h
    rw [if_pos h]

/-- **C73.** Equal angles have themselves as mean. -/
theorem mean_angle_same (n : ℕ) (hn : n ≠ 0) (a : ℝ) : ((meanAngle (List.replicate n a) : ℝ) : Real.Angle) = (a : Real.Angle) := by
  have hv : meanVec (List.replicate n a) = Complex.exp (a * Complex.I) := by
    unfold meanVec
    have : (n : ℂ) ≠ 0 := by exact_mod_cast hn
    rw [List.map_replicate, List.sum_replicate, List.length_replicate, nsmul_eq_mul]
    field_simp
  unfold meanAngle
  simp only [hv, norm_unit]
  rw [if_neg (by norm_num), coe_rmod, arg_unit]

/-- The mean turns with the angles, without the exception. -/
def MeanTurns : Prop :=
  ∀ (angles : List ℝ) (c : ℝ), angles ≠ [] →
    ((meanAngle (angles.map (· + c)) : ℝ) : Real.Angle) = (meanAngle angles : Real.Angle) + (c : Real.Angle)

/-- **C73.** The exception is needed: nearly uniform angles always have mean 180 degrees. -/
theorem mean_turns_false : ¬ MeanTurns := by
  intro h
  have h0 : meanVec [0, π] = 0 := by simp [meanVec]
  have h1 := h [0, π] (π / 2) (by simp)
  have e1 : meanAngle [0, π] = π := by unfold meanAngle; rw [h0, if_pos (by norm_num)]
  have e2 : meanAngle ([0, π].map (· + π / 2)) = π := by
    unfold meanAngle
    rw [meanVec_rotate, h0, if_pos (by norm_num)]
  rw [e1, e2] at h1
  have : ((π / 2 : ℝ) : Real.Angle) = 0 := by
    have := h1
    rw [eq_comm, add_eq_left] at this
    exact this
  exact Real.Angle.pi_div_two_ne_zero this

end Verif.RealMetrics
