import Verif.Model.Stars
import Verif.Props.MoSummary
import Mathlib.Analysis.SpecialFunctions.Integrals.Basic
import Mathlib.Analysis.SpecialFunctions.Pow.NNReal
import Mathlib.Analysis.SpecialFunctions.Log.Base
import Mathlib.Tactic.Linarith
import Mathlib.Tactic.NormNum
import Mathlib.Tactic.Ring
import Mathlib.Tactic.FieldSimp
import Mathlib.Tactic.Positivity

/-!
# Properties of the counts of stars (C310–C315)
-/

namespace Verif.Stars

open Real

/-! ## The shells -/

theorem cube_root (x : ℝ) (h : 0 ≤ x) : (x ^ ((1 : ℝ) / 3)) ^ 3 = x := by
  rw [← rpow_natCast, ← rpow_mul h]
  norm_num

theorem root_cube (x : ℝ) (h : 0 ≤ x) : (x ^ 3) ^ ((1 : ℝ) / 3) = x := by
  rw [← rpow_natCast, ← rpow_mul h]
  norm_num

theorem edge_arg_nonneg (d1 d2 : ℝ) (h1 : 0 ≤ d1) (h : d1 ≤ d2) (i : ℕ) : 0 ≤ d1 ^ 3 + i * ((d2 ^ 3 - d1 ^ 3) / 50) := by
  have e : d1 ^ 3 ≤ d2 ^ 3 := pow_le_pow_left₀ h1 h 3
  have : 0 ≤ (d2 ^ 3 - d1 ^ 3) / 50 := by linarith
  positivity

theorem edge_cube (d1 d2 : ℝ) (h1 : 0 ≤ d1) (h : d1 ≤ d2) (i : ℕ) : edge d1 d2 i ^ 3 = d1 ^ 3 + i * ((d2 ^ 3 - d1 ^ 3) / 50) :=
  cube_root _ (edge_arg_nonneg d1 d2 h1 h i)

/-- **C310.** The first edge is `d1`, the last `d2`, and the edges do not decrease. -/
theorem edges_spec (d1 d2 : ℝ) (h1 : 0 ≤ d1) (h : d1 ≤ d2) :
    edge d1 d2 0 = d1 ∧ edge d1 d2 50 = d2 ∧ ∀ i, edge d1 d2 i ≤ edge d1 d2 (i + 1) := by
  refine ⟨?_, ?_, ?_⟩
  · unfold edge
    simp only [Nat.cast_zero, zero_mul, add_zero]
    exact root_cube d1 h1
  · unfold edge
    have e : d1 ^ 3 + ((50 : ℕ) : ℝ) * ((d2 ^ 3 - d1 ^ 3) / 50) = d2 ^ 3 := by push_cast; ring
    rw [e]
    exact root_cube d2 (h1.trans h)
  · intro i
    unfold edge
    apply rpow_le_rpow (edge_arg_nonneg d1 d2 h1 h i)
    · have e : d1 ^ 3 ≤ d2 ^ 3 := pow_le_pow_left₀ h1 h 3
      push_cast
      linarith
    · norm_num

/-- **C310.** All the shells have the same volume. -/
theorem volumes_equal (d1 d2 area : ℝ) (h1 : 0 ≤ d1) (h : d1 ≤ d2) (v : ℝ) (hv : v ∈ volumes d1 d2 area) :
    v = area / 41253 * (4 * π / 3) * (d2 ^ 3 - d1 ^ 3) / 50 := by
  unfold volumes at hv
  obtain ⟨i, _, rfl⟩ := List.mem_map.mp hv
  rw [edge_cube d1 d2 h1 h, edge_cube d1 d2 h1 h]
  unfold skyarea
  push_cast
  ring

theorem volumes_length (d1 d2 area : ℝ) : (volumes d1 d2 area).length = 50 := by simp [volumes]

theorem distances_length (d1 d2 : ℝ) : (distances d1 d2).length = 50 := by simp [distances]

/-- **C310.** The volumes sum to that of the part of the solid angle `area` (in square degrees, of the 41253 of the sky) between the distances
`d1` and `d2`. -/
theorem volumes_sum (d1 d2 area : ℝ) (h1 : 0 ≤ d1) (h : d1 ≤ d2) :
    (volumes d1 d2 area).sum = area / 41253 * (4 * π / 3 * d2 ^ 3 - 4 * π / 3 * d1 ^ 3) := by
  have e := List.eq_replicate_of_mem (fun v hv => volumes_equal d1 d2 area h1 h v hv)
  rw [e, List.sum_replicate, volumes_length]
  rw [nsmul_eq_mul]
  push_cast
  ring

/-- **C310.** The distance given to a shell lies in it, and halves its volume. -/
theorem distances_spec (d1 d2 : ℝ) (h1 : 0 ≤ d1) (h : d1 ≤ d2) (i : ℕ) (d : ℝ) (hd : (distances d1 d2)[i]? = some d) :
    edge d1 d2 i ≤ d ∧ d ≤ edge d1 d2 (i + 1) ∧ d ^ 3 - edge d1 d2 i ^ 3 = edge d1 d2 (i + 1) ^ 3 - d ^ 3 := by
  unfold distances at hd
  rw [List.getElem?_map] at hd
  obtain ⟨j, hj, rfl⟩ := Option.map_eq_some_iff.mp hd
  have hji : j = i := by
    rw [List.getElem?_range] at hj
    · exact (Option.some.inj hj).symm
    · by_contra hc
      rw [List.getElem?_eq_none (by simpa using hc)] at hj
      exact absurd hj (by simp)
  subst hji
  have hn : ∀ k, 0 ≤ edge d1 d2 k := fun k => rpow_nonneg (edge_arg_nonneg d1 d2 h1 h k) _
  have hm := (edges_spec d1 d2 h1 h).2.2 j
  have hc : edge d1 d2 j ^ 3 ≤ edge d1 d2 (j + 1) ^ 3 := pow_le_pow_left₀ (hn j) hm 3
  have h0 : 0 ≤ edge d1 d2 j ^ 3 := pow_nonneg (hn j) 3
  refine ⟨?_, ?_, ?_⟩
  · rw [← root_cube (edge d1 d2 j) (hn j)]
    apply rpow_le_rpow h0 _ (by norm_num)
    rw [root_cube _ (hn j)]
    linarith
  · conv_rhs => rw [← root_cube (edge d1 d2 (j + 1)) (hn (j + 1))]
    apply rpow_le_rpow (by linarith) _ (by norm_num)
    linarith
  · rw [cube_root _ (by linarith)]
    ring

/-- **C310.** Hence every distance is between `d1` and `d2`. -/
theorem distances_within (d1 d2 : ℝ) (h1 : 0 ≤ d1) (h : d1 ≤ d2) (d : ℝ) (hd : d ∈ distances d1 d2) : d1 ≤ d ∧ d ≤ d2 := by
  obtain ⟨i, hi⟩ := List.mem_iff_getElem?.mp hd
  have hlt : i < 50 := by
    by_contra hc
    rw [List.getElem?_eq_none (by rw [distances_length]; omega)] at hi
    exact absurd hi (by simp)
  obtain ⟨ha, hb, _⟩ := distances_spec d1 d2 h1 h i d hi
  obtain ⟨h0, h50, hm⟩ := edges_spec d1 d2 h1 h
  have mono := monotone_nat_of_le_succ hm
  have a := mono (Nat.zero_le i)
  have b := mono (show i + 1 ≤ 50 by omega)
  rw [h0] at a
  rw [h50] at b
  exact ⟨a.trans ha, hb.trans b⟩

example : (volumes 0 10 41253).sum = 4 * π / 3 * 1000 := by
  rw [volumes_sum 0 10 41253 le_rfl (by norm_num)]
  norm_num

/-! ## The density -/

theorem diskprofile_pos (R Z L H : ℝ) : 0 < diskprofile R Z L H := by
  unfold diskprofile densityRsun
  have := exp_pos (-R / L - |Z + zsun| / H)
  have := exp_pos (rsun / L)
  positivity

/-- **C312.** The density is positive everywhere. -/
theorem stellardensity_pos (R Z : ℝ) : 0 < stellardensity R Z := by
  have a := diskprofile_pos R Z 2150 245
  have b := diskprofile_pos R Z 3261 743
  have c : 0 ≤ halo R Z := by
    unfold halo densityRsun rsun
    have : 0 ≤ 8000 / sqrt (R ^ 2 + (Z / 0.64) ^ 2) := by positivity
    have := rpow_nonneg this (2.77 : ℝ)
    positivity
  have d : 0 < bulge R Z := by
    unfold bulge
    have := diskprofile_pos 0 0 2150 245
    have := diskprofile_pos 0 0 3261 743
    have := exp_pos (-sqrt (R ^ 2 + Z ^ 2) / 800)
    positivity
  unfold stellardensity thindisk thickdisk
  have : 0 < diskprofile R Z 2150 245 / 1.1 := by positivity
  have : 0 < 0.1 / 1.1 * diskprofile R Z 3261 743 := by positivity
  linarith

/-- **C312.** The discs are scaled so that, at the place of the Sun in the plane of the galaxy, their densities weighted as in the total make the
density near the Sun. -/
theorem disc_at_sun : thindisk 8000 (-25) = 0.0364 ∧ thickdisk 8000 (-25) = 0.0364 ∧
    thindisk 8000 (-25) / 1.1 + 0.1 / 1.1 * thickdisk 8000 (-25) = 0.0364 := by
  have e : ∀ L H : ℝ, diskprofile 8000 (-25) L H = 0.0364 := by
    intro L H
    unfold diskprofile zsun rsun densityRsun
    rw [mul_assoc, ← exp_add]
    norm_num
    ring_nf
  refine ⟨e _ _, e _ _, ?_⟩
  unfold thindisk thickdisk
  rw [e, e]
  norm_num

/-- **C312.** A disc is symmetric about the height `-25`, and thins out away from it and outwards. -/
theorem disk_shape (R R' Z Z' L H : ℝ) (hL : 0 < L) (hH : 0 < H) (hR : R ≤ R') (hZ : |Z + 25| ≤ |Z' + 25|) :
    diskprofile R' Z' L H ≤ diskprofile R Z L H ∧ diskprofile R (-25 + Z) L H = diskprofile R (-25 - Z) L H := by
  constructor
  · unfold diskprofile densityRsun zsun
    apply mul_le_mul_of_nonneg_right _ (exp_pos _).le
    apply mul_le_mul_of_nonneg_left _ (by norm_num)
    apply exp_le_exp.mpr
    have a : R / L ≤ R' / L := div_le_div_of_nonneg_right hR hL.le
    have b : |Z + 25| / H ≤ |Z' + 25| / H := div_le_div_of_nonneg_right hZ hH.le
    have c : ∀ x : ℝ, -x / L = -(x / L) := fun x => neg_div _ _
    rw [c, c]
    linarith
  · unfold diskprofile zsun
    have e1 : -25 + Z + 25 = Z := by ring
    have e2 : -25 - Z + 25 = -Z := by ring
    rw [e1, e2, abs_neg]

example : thindisk 8000 0 < thindisk 8000 (-25) := by
  have e : thindisk 8000 0 = densityRsun * exp (-8000 / 2150 - |0 + zsun| / 245) * exp (rsun / 2150) := rfl
  have e' : thindisk 8000 (-25) = densityRsun * exp (-8000 / 2150 - |-25 + zsun| / 245) * exp (rsun / 2150) := rfl
  rw [e, e']
  apply mul_lt_mul_of_pos_right _ (exp_pos _)
  apply mul_lt_mul_of_pos_left _ (by unfold densityRsun; norm_num)
  apply exp_lt_exp.mpr
  unfold zsun
  norm_num

theorem sum_zipWith_le (f : ℝ → ℝ) (ρ : ℝ) : ∀ (vs ds : List ℝ), vs.length = ds.length → (∀ v ∈ vs, 0 ≤ v) → (∀ d ∈ ds, f d ≤ ρ) →
    (List.zipWith (fun v x => v * f x) vs ds).sum ≤ vs.sum * ρ
  | [], [], _, _, _ => by simp
  | v :: vs, d :: ds, hl, hv, hd => by
    have ih := sum_zipWith_le f ρ vs ds (by simpa using hl) (fun v h => hv v (List.mem_cons_of_mem _ h)) (fun d h => hd d (List.mem_cons_of_mem _ h))
    have a := mul_le_mul_of_nonneg_left (hd d (by simp)) (hv v (by simp))
    simp only [List.zipWith_cons_cons, List.sum_cons]
    linarith

/-- **C310.** The count is positive, and no more than the volume searched times the largest density met on the way. -/
theorem starcount_bounds (b l d1 d2 ρ : ℝ) (h1 : 0 ≤ d1) (h : d1 < d2)
    (hρ : ∀ d, d1 ≤ d → d ≤ d2 → stellardensity (galCyn b l d).1 (galCyn b l d).2.2 ≤ ρ) :
    0 < starcount b l d1 d2 ∧ starcount b l d1 d2 ≤ 9.62 / 41253 * (4 * π / 3 * d2 ^ 3 - 4 * π / 3 * d1 ^ 3) * ρ := by
  have hp : d1 ^ 3 < d2 ^ 3 := pow_lt_pow_left₀ h h1 (by norm_num)
  have hv : ∀ v ∈ volumes d1 d2 9.62, 0 < v := by
    intro v hv
    rw [volumes_equal d1 d2 9.62 h1 h.le v hv]
    have : 0 < d2 ^ 3 - d1 ^ 3 := by linarith
    have := pi_pos
    positivity
  constructor
  · unfold starcount
    have hl : (volumes d1 d2 9.62).length = (distances d1 d2).length := by rw [volumes_length, distances_length]
    have hne : volumes d1 d2 9.62 ≠ [] := by
      intro hc
      have := volumes_length d1 d2 9.62
      rw [hc] at this
      simp at this
    have key : ∀ (vs ds : List ℝ), vs.length = ds.length → (∀ v ∈ vs, 0 < v) → vs ≠ [] →
        0 < (List.zipWith (fun v x => v * stellardensity (galCyn b l x).1 (galCyn b l x).2.2) vs ds).sum := by
      intro vs ds hl hv hne
      apply List.sum_pos
      · intro x hx
        obtain ⟨i, hi⟩ := List.mem_iff_getElem?.mp hx
        rw [List.getElem?_zipWith_eq_some] at hi
        obtain ⟨a, c, ha, _, rfl⟩ := hi
        exact mul_pos (hv a (List.mem_of_getElem? ha)) (stellardensity_pos _ _)
      · intro hc
        have := congrArg List.length hc
        rw [List.length_zipWith, ← hl, min_self] at this
        exact hne (List.length_eq_zero_iff.mp this)
    exact key _ _ hl hv hne
  · unfold starcount
    have := sum_zipWith_le (fun x => stellardensity (galCyn b l x).1 (galCyn b l x).2.2) ρ (volumes d1 d2 9.62) (distances d1 d2)
      (by rw [volumes_length, distances_length]) (fun v h' => (hv v h').le)
      (fun d hd => hρ d (distances_within d1 d2 h1 h.le d hd).1 (distances_within d1 d2 h1 h.le d hd).2)
    rw [volumes_sum d1 d2 9.62 h1 h.le] at this
    exact this

/-! ## The initial mass function -/

/-- **C311.** `IMF(a, b)` is the integral of the Salpeter law `m^(-2.35)` from `a` to `b`. -/
theorem imf_integral (a b : ℝ) (ha : 0 < a) (hb : 0 < b) : imf a b = ∫ m in a..b, m ^ (-2.35 : ℝ) := by
  rw [integral_rpow (Or.inr ⟨by norm_num, by
    rw [Set.mem_uIcc]
    push Not
    exact ⟨fun h => absurd h (by linarith), fun h => absurd h (by linarith)⟩⟩)]
  unfold imf
  norm_num
  ring

/-- **C311.** It adds up over adjoining ranges, and is positive. -/
theorem imf_add (a b c : ℝ) : imf a b + imf b c = imf a c := by
  unfold imf
  ring

@[inherit_doc imf_add] theorem imf_pos (a b : ℝ) (ha : 0 < a) (h : a < b) : 0 < imf a b := by
  unfold imf
  have := rpow_lt_rpow_of_neg ha h (show (-(2.35 - 1) : ℝ) < 0 by norm_num)
  have : 0 < a ^ (-(2.35 - 1) : ℝ) - b ^ (-(2.35 - 1) : ℝ) := by linarith
  have : (0 : ℝ) < 1 / (2.35 - 1) := by norm_num
  positivity

theorem sum_telescope (g : ℕ → ℝ) (c : ℝ) : ∀ n, ((List.range n).map fun i => imf (g i) (g (i + 1)) / c).sum = imf (g 0) (g n) / c
  | 0 => by simp [imf]
  | n + 1 => by
    rw [List.range_succ, List.map_append, List.sum_append, sum_telescope g c n]
    simp only [List.map_cons, List.map_nil, List.sum_cons, List.sum_nil, add_zero]
    rw [← add_div, imf_add]

/-- **C311.** The shares of the nineteen ranges of mass sum to the share of the whole range in that of masses 0.2 to 1.04. -/
theorem fractions_sum (m1 m2 : ℝ) : (fractions m1 m2).sum = imf m1 m2 / imf 0.2 1.04 := by
  unfold fractions
  rw [sum_telescope (mass m1 m2)]
  unfold mass
  have e1 : m1 + ((0 : ℕ) : ℝ) * ((m2 - m1) / 19) = m1 := by simp
  have e2 : m1 + ((19 : ℕ) : ℝ) * ((m2 - m1) / 19) = m2 := by push_cast; ring
  rw [e1, e2]

/-- **C311.** They sum to one for masses from 0.2 to 1.04. -/
theorem fractions_sum_partial : (fractions 0.2 1.04).sum = 1 := by
  rw [fractions_sum]
  exact div_self (imf_pos _ _ (by norm_num) (by norm_num)).ne'

/-- **C311.** Not in general: the total of the range asked for is computed and then overwritten. -/
theorem fractions_sum_false : ¬ ∀ m1 m2 : ℝ, 0 < m1 → m1 < m2 → (fractions m1 m2).sum = 1 := by
  intro h
  have e := h 0.1 1.04 (by norm_num) (by norm_num)
  rw [fractions_sum] at e
  have p := imf_pos 0.2 1.04 (by norm_num) (by norm_num)
  rw [div_eq_one_iff_eq p.ne'] at e
  have a := imf_add 0.1 0.2 1.04
  have q := imf_pos 0.1 0.2 (by norm_num) (by norm_num)
  linarith

/-! ## Magnitudes -/

theorem gamma_bounds (b : Band) : 0.037 ≤ gamma b ∧ gamma b ≤ 0.04 := by
  cases b <;> norm_num [gamma]

theorem depth_ne (b : Band) : depth b ≠ 0 := by
  cases b <;> norm_num [depth]

/-- The square of the error of `mag_error`, away from the roots. -/
theorem magError_sq (m : ℝ) (b : Band) (m5 : ℝ) (h : m5 ≠ 0) :
    magError m b m5 = sqrt ((0.04 - gamma b) * (10 : ℝ) ^ (0.4 * (m - m5)) + gamma b * ((10 : ℝ) ^ (0.4 * (m - m5))) ^ 2 + 0.005 ^ 2) := by
  unfold magError
  dsimp only
  rw [if_neg h]
  have hx := rpow_pos_of_pos (show (0 : ℝ) < 10 by norm_num) (0.4 * (m - m5))
  obtain ⟨g1, g2⟩ := gamma_bounds b
  rw [sq_sqrt]
  · ring_nf
  · have : 0 ≤ 0.04 - gamma b := by linarith
    have : 0 ≤ gamma b := by linarith
    positivity

theorem quad_strictMono (γ x y : ℝ) (h1 : 0.037 ≤ γ) (h2 : γ ≤ 0.04) (hx : 0 < x) (h : x < y) :
    (0.04 - γ) * x + γ * x ^ 2 < (0.04 - γ) * y + γ * y ^ 2 := by
  have a : (0.04 - γ) * x ≤ (0.04 - γ) * y := mul_le_mul_of_nonneg_left h.le (by linarith)
  have b : x ^ 2 < y ^ 2 := pow_lt_pow_left₀ h hx.le (by norm_num)
  have c : γ * x ^ 2 < γ * y ^ 2 := mul_lt_mul_of_pos_left b (by linarith)
  linarith

/-- **C313.** A fainter star has a larger error; none is below the systematic 0.005; a star at the five-sigma depth has the random error 0.2. -/
theorem magError_spec (b : Band) (m5 : ℝ) (h : m5 ≠ 0) :
    (∀ m m', m < m' → magError m b m5 < magError m' b m5) ∧ (∀ m, 0.005 < magError m b m5) ∧ magError m5 b m5 ^ 2 = 0.2 ^ 2 + 0.005 ^ 2 := by
  obtain ⟨g1, g2⟩ := gamma_bounds b
  refine ⟨?_, ?_, ?_⟩
  · intro m m' hm
    rw [magError_sq m b m5 h, magError_sq m' b m5 h]
    have hx := rpow_pos_of_pos (show (0 : ℝ) < 10 by norm_num) (0.4 * (m - m5))
    have hlt : (10 : ℝ) ^ (0.4 * (m - m5)) < (10 : ℝ) ^ (0.4 * (m' - m5)) := rpow_lt_rpow_of_exponent_lt (by norm_num) (by linarith)
    have q := quad_strictMono (gamma b) _ _ g1 g2 hx hlt
    apply sqrt_lt_sqrt
    · have : 0 ≤ 0.04 - gamma b := by linarith
      have : 0 ≤ gamma b := by linarith
      positivity
    · linarith
  · intro m
    rw [magError_sq m b m5 h]
    have hx := rpow_pos_of_pos (show (0 : ℝ) < 10 by norm_num) (0.4 * (m - m5))
    apply lt_sqrt_of_sq_lt
    have : 0 ≤ 0.04 - gamma b := by linarith
    have : 0 < gamma b := by linarith
    have : 0 < (0.04 - gamma b) * (10 : ℝ) ^ (0.4 * (m - m5)) + gamma b * ((10 : ℝ) ^ (0.4 * (m - m5))) ^ 2 := by positivity
    linarith
  · rw [magError_sq m5 b m5 h]
    rw [sub_self, mul_zero, rpow_zero, sq_sqrt]
    · ring
    · norm_num

/-- **C313.** Exactly one magnitude has the error 0.03 the counts ask for. -/
theorem noise_limit (b : Band) : ∃! m, magError m b 0 = 0.03 := by
  have hz : ∀ m, magError m b 0 = magError m b (depth b) := by
    intro m
    unfold magError
    simp [depth_ne b]
  obtain ⟨g1, g2⟩ := gamma_bounds b
  have mono := (magError_spec b (depth b) (depth_ne b)).1
  -- the positive root of the quadratic
  have hg : 0 < gamma b := by linarith
  obtain ⟨X, hX, hr⟩ : ∃ X : ℝ, 0 < X ∧ (0.04 - gamma b) * X + gamma b * X ^ 2 = 0.03 ^ 2 - 0.005 ^ 2 := by
    refine ⟨(-(0.04 - gamma b) + sqrt ((0.04 - gamma b) ^ 2 + 4 * gamma b * (0.03 ^ 2 - 0.005 ^ 2))) / (2 * gamma b), ?_, ?_⟩
    · apply div_pos _ (by linarith)
      have : 0.04 - gamma b < sqrt ((0.04 - gamma b) ^ 2 + 4 * gamma b * (0.03 ^ 2 - 0.005 ^ 2)) := by
        apply lt_sqrt_of_sq_lt
        have : 0 < 4 * gamma b * (0.03 ^ 2 - 0.005 ^ 2) := by
          apply mul_pos (by linarith)
          norm_num
        linarith
      linarith
    · have hs : sqrt ((0.04 - gamma b) ^ 2 + 4 * gamma b * (0.03 ^ 2 - 0.005 ^ 2)) ^ 2 =
          (0.04 - gamma b) ^ 2 + 4 * gamma b * (0.03 ^ 2 - 0.005 ^ 2) := by
        rw [sq_sqrt]
        have : (0 : ℝ) ≤ 0.03 ^ 2 - 0.005 ^ 2 := by norm_num
        positivity
      set s := sqrt ((0.04 - gamma b) ^ 2 + 4 * gamma b * (0.03 ^ 2 - 0.005 ^ 2)) with hsd
      have hg' : gamma b ≠ 0 := hg.ne'
      generalize hk : (0.03 ^ 2 - 0.005 ^ 2 : ℝ) = k at *
      generalize gamma b = γ at *
      generalize hc : (0.04 - γ : ℝ) = c at *
      field_simp
      nlinarith
  refine ⟨depth b + logb 10 X / 0.4, ?_, ?_⟩
  · dsimp only
    rw [hz, magError_sq _ _ _ (depth_ne b)]
    have e : (0.4 : ℝ) * (depth b + logb 10 X / 0.4 - depth b) = logb 10 X := by ring
    rw [e, rpow_logb (by norm_num) (by norm_num) hX, hr]
    have : (0.03 ^ 2 - 0.005 ^ 2 + 0.005 ^ 2 : ℝ) = 0.03 ^ 2 := by ring
    rw [this, sqrt_sq (by norm_num)]
  · intro m hm
    have key : magError (depth b + logb 10 X / 0.4) b (depth b) = 0.03 := by
      rw [magError_sq _ _ _ (depth_ne b)]
      have e : (0.4 : ℝ) * (depth b + logb 10 X / 0.4 - depth b) = logb 10 X := by ring
      rw [e, rpow_logb (by norm_num) (by norm_num) hX, hr]
      have : (0.03 ^ 2 - 0.005 ^ 2 + 0.005 ^ 2 : ℝ) = 0.03 ^ 2 := by ring
      rw [this, sqrt_sq (by norm_num)]
    rw [hz] at hm
    rcases lt_trichotomy m (depth b + logb 10 X / 0.4) with hl | he | hl
    · have := mono _ _ hl
      rw [hm, key] at this
      exact absurd this (lt_irrefl _)
    · exact he
    · have := mono _ _ hl
      rw [hm, key] at this
      exact absurd this (lt_irrefl _)

/-- **C313.** `noise_calc` does not find it: its function gives no number at any magnitude, so none is a zero of it. -/
theorem noise_calc_false : ¬ ∀ b : Band, ∃ m, magError m b 0 = 0.03 ∧ noiseFun b m = some 0 := by
  intro h
  obtain ⟨m, _, hm⟩ := h .r
  simp [noiseFun] at hm

/-- **C313.** A depth of 0 cannot be asked for. -/
theorem magError_zero_false : ¬ ∀ (b : Band) (m5 : ℝ), magError m5 b m5 ^ 2 = 0.2 ^ 2 + 0.005 ^ 2 := by
  intro h
  have e := h .r 0
  have hz : magError 0 .r 0 = magError 0 .r (depth .r) := by
    unfold magError
    simp [depth_ne .r]
  have mono := (magError_spec .r (depth .r) (depth_ne _)).1 0 (depth .r) (by norm_num [depth])
  have f := (magError_spec .r (depth .r) (depth_ne _)).2.2
  have p := (magError_spec .r (depth .r) (depth_ne _)).2.1 0
  rw [hz, ← f] at e
  have := pow_lt_pow_left₀ mono (by linarith) (show (2 : ℕ) ≠ 0 by norm_num)
  linarith

/-- **C313.** `get_distance` inverts the distance modulus, and a star seen fainter, or brighter in itself, is further. -/
theorem getDistance_spec (m M : ℝ) : 5 * logb 10 (getDistance m M / 10) = m - M ∧
    (∀ m', m < m' → getDistance m M < getDistance m' M) ∧ (∀ M', M' < M → getDistance m M < getDistance m M') := by
  have hl : ∀ x y : ℝ, x < y → (10 : ℝ) * 10 ^ x < 10 * 10 ^ y := fun x y h =>
    mul_lt_mul_of_pos_left (rpow_lt_rpow_of_exponent_lt (by norm_num) h) (by norm_num)
  refine ⟨?_, ?_, ?_⟩
  · unfold getDistance
    rw [mul_div_assoc, mul_comm, mul_comm (10 : ℝ), div_mul_cancel₀ _ (by norm_num), logb_rpow (by norm_num) (by norm_num)]
    ring
  · intro m' h
    exact hl _ _ (by linarith)
  · intro M' h
    exact hl _ _ (by linarith)

example : getDistance 20 15 = 100 := by
  unfold getDistance
  norm_num

/-! ## Coordinates -/

theorem mod360_spec (x : ℝ) : 0 ≤ mod360 x ∧ mod360 x < 360 ∧ ∃ k : ℤ, mod360 x = x - 360 * k := by
  unfold mod360
  have a := Int.floor_le (x / 360)
  have b := Int.lt_floor_add_one (x / 360)
  refine ⟨?_, ?_, ⌊x / 360⌋, rfl⟩
  · have := mul_le_mul_of_nonneg_left a (show (0 : ℝ) ≤ 360 by norm_num)
    linarith [mul_div_cancel₀ x (show (360 : ℝ) ≠ 0 by norm_num)]
  · have := mul_lt_mul_of_pos_left b (show (0 : ℝ) < 360 by norm_num)
    linarith [mul_div_cancel₀ x (show (360 : ℝ) ≠ 0 by norm_num)]

theorem radians_degrees (x : ℝ) : radians (degrees x) = x := by
  unfold radians degrees
  field_simp

theorem radians_sub360 (x : ℝ) (k : ℤ) : radians (x - 360 * k) = radians x - k * (2 * π) := by
  unfold radians
  ring

theorem radians_mod360 (x : ℝ) : ∃ k : ℤ, radians (mod360 (degrees x)) = x - k * (2 * π) := by
  obtain ⟨_, _, k, hk⟩ := mod360_spec (degrees x)
  exact ⟨k, by rw [hk, radians_sub360, radians_degrees]⟩

/-- **C314.** `eq_gal` turns any root of its equations into a latitude from -90 to 90 and a longitude from 0 to 360 degrees of the same direction. -/
theorem normalise_spec (b ll : ℝ) :
    -90 ≤ (normalise b ll).1 ∧ (normalise b ll).1 ≤ 90 ∧ 0 ≤ (normalise b ll).2 ∧ (normalise b ll).2 < 360 ∧
    sin (radians (normalise b ll).1) = sin b ∧
    cos (radians (normalise b ll).1) * cos (radians (normalise b ll).2) = cos b * cos ll ∧
    cos (radians (normalise b ll).1) * sin (radians (normalise b ll).2) = cos b * sin ll := by
  obtain ⟨h0, h1, k, hk⟩ := mod360_spec (degrees b)
  have r1 : radians (mod360 (degrees b)) = b - k * (2 * π) := by rw [hk, radians_sub360, radians_degrees]
  obtain ⟨j, hj⟩ := radians_mod360 ll
  obtain ⟨i, hi⟩ := radians_mod360 (ll + π)
  obtain ⟨a0, a1, _⟩ := mod360_spec (degrees ll)
  obtain ⟨c0, c1, _⟩ := mod360_spec (degrees (ll + π))
  have r2 : radians (mod360 (degrees b) - 360) = b - (k + 1 : ℤ) * (2 * π) := by
    have := radians_sub360 (mod360 (degrees b)) 1
    rw [Int.cast_one, mul_one] at this
    rw [this, r1]
    push_cast
    ring
  unfold normalise
  dsimp only
  by_cases h270 : 270 ≤ mod360 (degrees b)
  · rw [if_pos h270]
    rw [if_neg (by linarith)]
    refine ⟨by dsimp only; linarith, by dsimp only; linarith, a0, a1, ?_, ?_, ?_⟩
    · dsimp only
      rw [r2, sin_sub_int_mul_two_pi]
    · dsimp only
      rw [r2, hj, cos_sub_int_mul_two_pi, cos_sub_int_mul_two_pi]
    · dsimp only
      rw [r2, hj, cos_sub_int_mul_two_pi, sin_sub_int_mul_two_pi]
  · rw [if_neg h270]
    push Not at h270
    by_cases h90 : 90 < mod360 (degrees b)
    · rw [if_pos h90]
      have r3 : radians (180 - mod360 (degrees b)) = π - (b - k * (2 * π)) := by
        rw [← r1]
        unfold radians
        ring
      refine ⟨by dsimp only; linarith, by dsimp only; linarith, c0, c1, ?_, ?_, ?_⟩
      · dsimp only
        rw [r3, sin_pi_sub, sin_sub_int_mul_two_pi]
      · dsimp only
        rw [r3, hi, cos_pi_sub, cos_sub_int_mul_two_pi, cos_sub_int_mul_two_pi, cos_add_pi]
        ring
      · dsimp only
        rw [r3, hi, cos_pi_sub, cos_sub_int_mul_two_pi, sin_sub_int_mul_two_pi, sin_add_pi]
        ring
    · rw [if_neg h90]
      push Not at h90
      refine ⟨by dsimp only; linarith, by dsimp only; linarith, a0, a1, ?_, ?_, ?_⟩
      · dsimp only
        rw [r1, sin_sub_int_mul_two_pi]
      · dsimp only
        rw [r1, hj, cos_sub_int_mul_two_pi, cos_sub_int_mul_two_pi]
      · dsimp only
        rw [r1, hj, cos_sub_int_mul_two_pi, sin_sub_int_mul_two_pi]

/-- **C314.** So if `fsolve` gave a root, what `eq_gal` returns solves the equations too. -/
theorem eqGal_solves (a d b ll : ℝ) (h : equations a d b ll = (0, 0, 0)) :
    equations a d (radians (normalise b ll).1) (radians (normalise b ll).2) = (0, 0, 0) := by
  obtain ⟨_, _, _, _, hs, hc, hn⟩ := normalise_spec b ll
  generalize radians (normalise b ll).1 = b' at *
  generalize radians (normalise b ll).2 = l' at *
  unfold equations at *
  simp only [Prod.mk.injEq] at *
  obtain ⟨e1, e2, e3⟩ := h
  refine ⟨?_, ?_, ?_⟩
  · rw [cos_sub, mul_add, ← mul_assoc, ← mul_assoc, hc, hn, mul_assoc, mul_assoc, ← mul_add, ← cos_sub]
    exact e1
  · rw [sin_sub, mul_sub, ← mul_assoc, ← mul_assoc, hc, hn, mul_assoc, mul_assoc, ← mul_sub, ← sin_sub]
    exact e2
  · rw [hs]
    exact e3

/-- **C314.** `eq_gal2` gives every direction of the sky a longitude from 180 to 360 degrees: it compares radians with a number of degrees. -/
theorem eqGal2_range (ra dec : ℝ) : 180 ≤ (eqGal2 ra dec).2 ∧ (eqGal2 ra dec).2 ≤ 360 := by
  have key : ∀ x y : ℝ, 180 ≤ (if arccos x - arccos y < 32.9319 then 360 - degrees (arccos y) else degrees (arccos y)) ∧
      (if arccos x - arccos y < 32.9319 then 360 - degrees (arccos y) else degrees (arccos y)) ≤ 360 := by
    intro x y
    have h : arccos x - arccos y < 32.9319 := by
      have a := arccos_le_pi x
      have b := arccos_nonneg y
      have c := pi_lt_d2
      norm_num at c ⊢
      linarith
    rw [if_pos h]
    have a := arccos_le_pi y
    have b := arccos_nonneg y
    unfold degrees
    have c : arccos y * (180 / π) ≤ π * (180 / π) := mul_le_mul_of_nonneg_right a (by positivity)
    have d : π * (180 / π) = 180 := by field_simp
    have e : 0 ≤ arccos y * (180 / π) := by positivity
    constructor <;> linarith
  exact key _ _

/-- **C314.** So no direction is given the longitude 90. -/
theorem eqGal2_false : ¬ ∀ l : ℝ, 0 ≤ l → l < 360 → ∃ ra dec, (eqGal2 ra dec).2 = l := by
  intro h
  obtain ⟨ra, dec, e⟩ := h 90 (by norm_num) (by norm_num)
  have := (eqGal2_range ra dec).1
  rw [e] at this
  norm_num at this

/-- **C314.** The cylindrical coordinates of a star are about an axis 8000 pc away towards longitude 0: its distance from the centre obeys the law of
cosines, and its distance from the axis differs from 8000 by no more than the way to it. -/
theorem galCyn_spec (b l d : ℝ) (hd : 0 ≤ d) :
    (galCyn b l d).1 ^ 2 + (galCyn b l d).2.2 ^ 2 = d ^ 2 + 8000 ^ 2 - 2 * 8000 * d * (cos (radians b) * cos (radians l)) ∧
    |(galCyn b l d).1 - 8000| ≤ d ∧ |(galCyn b l d).2.2| ≤ d := by
  have hl := sin_sq_add_cos_sq (radians l)
  have hb := sin_sq_add_cos_sq (radians b)
  unfold galCyn
  dsimp only
  generalize sin (radians l) = sl at *
  generalize cos (radians l) = cl at *
  generalize sin (radians b) = sb at *
  generalize cos (radians b) = cb at *
  have hR : (8000 - cl * (cb * d)) ^ 2 + (sl * (cb * d)) ^ 2 = 8000 ^ 2 - 2 * 8000 * d * (cb * cl) + cb ^ 2 * d ^ 2 := by
    have : sl ^ 2 = 1 - cl ^ 2 := by linarith
    rw [mul_pow, this]
    ring
  have hsq : sqrt ((8000 - cl * (cb * d)) ^ 2 + (sl * (cb * d)) ^ 2) ^ 2 = 8000 ^ 2 - 2 * 8000 * d * (cb * cl) + cb ^ 2 * d ^ 2 := by
    rw [sq_sqrt (by positivity), hR]
  have hcb : cb ^ 2 ≤ 1 := by nlinarith [sq_nonneg sb]
  have hcl : cl ^ 2 ≤ 1 := by nlinarith [sq_nonneg sl]
  have hcc : |cb * cl| ≤ |cb| := by
    rw [abs_mul]
    exact mul_le_of_le_one_right (abs_nonneg _) ((sq_le_one_iff_abs_le_one _).mp hcl)
  have hb1 : |cb| ≤ 1 := (sq_le_one_iff_abs_le_one _).mp hcb
  refine ⟨?_, ?_, ?_⟩
  · rw [hsq]
    have : sb ^ 2 = 1 - cb ^ 2 := by linarith
    rw [mul_pow, this]
    ring
  · have e : |sqrt ((8000 - cl * (cb * d)) ^ 2 + (sl * (cb * d)) ^ 2) - 8000| ≤ |cb| * d := by
      have habs := abs_le.mp hcc
      have hsqcb : |cb| ^ 2 = cb ^ 2 := sq_abs cb
      have hnn : 0 ≤ |cb| * d := mul_nonneg (abs_nonneg _) hd
      rw [abs_le]
      constructor
      · by_cases h8 : |cb| * d ≤ 8000
        · have : 8000 - |cb| * d ≤ sqrt ((8000 - cl * (cb * d)) ^ 2 + (sl * (cb * d)) ^ 2) := by
            apply le_sqrt_of_sq_le
            rw [hR]
            have := mul_le_mul_of_nonneg_left habs.2 hd
            nlinarith
          linarith
        · push Not at h8
          have := sqrt_nonneg ((8000 - cl * (cb * d)) ^ 2 + (sl * (cb * d)) ^ 2)
          linarith
      · have : sqrt ((8000 - cl * (cb * d)) ^ 2 + (sl * (cb * d)) ^ 2) ≤ 8000 + |cb| * d := by
          apply sqrt_le_iff.mpr
          refine ⟨by linarith, ?_⟩
          rw [hR]
          have := mul_le_mul_of_nonneg_left habs.1 hd
          nlinarith
        linarith
    exact e.trans (mul_le_of_le_one_left hd hb1)
  · have hsb : sb ^ 2 ≤ 1 := by nlinarith [sq_nonneg cb]
    rw [abs_mul, abs_of_nonneg hd]
    exact mul_le_of_le_one_left hd ((sq_le_one_iff_abs_le_one _).mp hsb)

/-- **C314.** Its `rho` is not an angle about the axis: it does not tell a direction from the opposite one, at any distance. -/
theorem rho_opposite (b l d d' : ℝ) (hd : d ≠ 0) (hd' : d' ≠ 0) (hb : cos (radians b) ≠ 0) :
    (galCyn b l d).2.1 = (galCyn b (l + 180) d').2.1 := by
  have e : radians (l + 180) = radians l + π := by unfold radians; ring
  unfold galCyn
  dsimp only
  rw [e, cos_add_pi, sin_add_pi]
  congr 1
  rw [mul_div_mul_right _ _ (mul_ne_zero hb hd), mul_div_mul_right _ _ (mul_ne_zero hb hd'), neg_div_neg_eq]

example : (galCyn 0 0 1000).1 = 7000 := by
  unfold galCyn radians
  norm_num
  rw [show (49000000 : ℝ) = 7000 ^ 2 by norm_num, sqrt_sq (by norm_num)]

/-! ## Spectral types and absolute magnitudes -/

theorem interp_neg (l : List (ℚ × ℚ)) (x : ℚ) : MoSum.interp (l.map fun p => (p.1, -p.2)) x = -MoSum.interp l x := by
  induction l with
  | nil => simp [MoSum.interp]
  | cons a l ih =>
    obtain ⟨a, p⟩ := a
    cases l with
    | nil => simp [MoSum.interp]
    | cons b l =>
      obtain ⟨b, q⟩ := b
      simp only [List.map_cons] at ih ⊢
      unfold MoSum.interp
      split_ifs
      · rfl
      · ring
      · exact ih

theorem massTable_sorted : massTable.Pairwise (fun a b => a.1 < b.1) := by decide +kernel

theorem bandTable_sorted (b : Band) : (bandTable b).Pairwise (fun a b => a.1 < b.1) := by cases b <;> decide +kernel

/-- **C315.** A heavier star is of an earlier type. -/
theorem specType_anti (m m' : ℚ) (h : m ≤ m') : specType m' ≤ specType m := by
  have a := MoSum.interp_mono (massTable.map fun p => (p.1, -p.2)) (by decide +kernel) (by decide +kernel) m m' h
  rw [interp_neg, interp_neg] at a
  unfold specType
  linarith

/-- **C315.** A later type is fainter in every band. -/
theorem absMag_mono (b : Band) (s s' : ℚ) (h : s ≤ s') : absMag b s ≤ absMag b s' :=
  MoSum.interp_mono _ (bandTable_sorted b) (by cases b <;> decide +kernel) s s' h

/-- **C315.** The tables are met at their entries, and the end values stand beyond the ends. -/
theorem specType_table (m s : ℚ) (h : (m, s) ∈ massTable) : specType m = s := MoSum.interp_node _ massTable_sorted m s h

@[inherit_doc specType_table] theorem specType_ends (m : ℚ) : (m ≤ 6 / 100 → specType m = 68) ∧ (120 ≤ m → specType m = 3) := by
  have h := MoSum.interp_ends (6/100) 68 massTable.tail massTable_sorted m
  exact ⟨h.1, fun hm => h.2 120 3 rfl hm⟩

@[inherit_doc specType_table] theorem absMag_table (b : Band) (i : ℕ) (s : ℚ) (n : ℤ) (hs : specRange[i]? = some s) (hn : (absTable b)[i]? = some n) :
    absMag b s = n / 100 := by
  apply MoSum.interp_node _ (bandTable_sorted b)
  unfold bandTable
  rw [List.mem_iff_getElem?]
  refine ⟨i, ?_⟩
  rw [List.getElem?_zip_eq_some]
  exact ⟨hs, by rw [List.getElem?_map, hn]; rfl⟩

/-- **C315.** Every absolute magnitude is one of the range of its table. -/
theorem absMag_range (b : Band) (s : ℚ) : absMag b 5 ≤ absMag b s ∧ absMag b s ≤ absMag b 66 := by
  constructor
  · rcases le_total 5 s with h | h
    · exact absMag_mono b _ _ h
    · have e : absMag b s = absMag b 5 := by
        have hh : bandTable b = (5, ((absTable b).map fun n : ℤ => (n : ℚ) / 100).headI) :: (bandTable b).tail := by cases b <;> decide +kernel
        have hs := bandTable_sorted b
        unfold absMag
        rw [hh] at hs ⊢
        rw [(MoSum.interp_ends _ _ _ hs s).1 h, (MoSum.interp_ends _ _ _ hs 5).1 le_rfl]
      rw [e]
  · rcases le_total s 66 with h | h
    · exact absMag_mono b _ _ h
    · have e : absMag b s = absMag b 66 := by
        have hh : ∃ a p l q, bandTable b = (a, p) :: l ∧ ((a, p) :: l).getLast? = some (66, q) := by
          cases b
          · exact ⟨_, _, _, 1937 / 100, rfl, by decide +kernel⟩
          · exact ⟨_, _, _, 1638 / 100, rfl, by decide +kernel⟩
          · exact ⟨_, _, _, 1339 / 100, rfl, by decide +kernel⟩
          · exact ⟨_, _, _, 1127 / 100, rfl, by decide +kernel⟩
          · exact ⟨_, _, _, 1003 / 100, rfl, by decide +kernel⟩
          · exact ⟨_, _, _, 860 / 100, rfl, by decide +kernel⟩
        obtain ⟨a, p, l, q, e1, e2⟩ := hh
        have hs := bandTable_sorted b
        unfold absMag
        rw [e1] at hs ⊢
        rw [(MoSum.interp_ends _ _ _ hs s).2 66 q e2 h, (MoSum.interp_ends _ _ _ hs 66).2 66 q e2 le_rfl]
      rw [e]

/-- **C315.** `dist_calc` takes the magnitude of the band it is asked for. -/
theorem pick_spec (mass : ℚ) (b : Band) : pick mass b = some (absMag b (specType mass)) := by
  cases b <;> rfl

/-- **C315.** So a heavier star can be seen as far as a lighter one, or further, in every band. -/
theorem reach_mono (m m' : ℚ) (h : m ≤ m') (b : Band) (lim : ℝ) (M M' : ℚ) (hM : pick m b = some M) (hM' : pick m' b = some M') :
    getDistance lim M ≤ getDistance lim M' := by
  rw [pick_spec] at hM hM'
  rw [← Option.some.inj hM, ← Option.some.inj hM']
  have a := absMag_mono b _ _ (specType_anti m m' h)
  unfold getDistance
  apply mul_le_mul_of_nonneg_left _ (by norm_num)
  apply rpow_le_rpow_of_exponent_le (by norm_num)
  have : ((absMag b (specType m') : ℚ) : ℝ) ≤ ((absMag b (specType m) : ℚ) : ℝ) := by exact_mod_cast a
  linarith

/-- The density is that of the discs, with a tenth as many stars in the thick one as in the thin one, the bulge and the halo. So
at the sun the discs have the local density, and nowhere are there fewer stars than in any of the components. -/
theorem stellardensity_parts (R Z : ℝ) :
    stellardensity R Z = (10 * thindisk R Z + thickdisk R Z) / 11 + bulge R Z + halo R Z ∧
    bulge R Z < stellardensity R Z ∧ halo R Z < stellardensity R Z := by
  have hd : ∀ L H, 0 < diskprofile R Z L H := by
    intro L H
    unfold diskprofile densityRsun
    positivity
  have h1 : 0 < thindisk R Z := hd _ _
  have h2 : 0 < thickdisk R Z := hd _ _
  have hb : 0 < bulge R Z := by
    unfold bulge diskprofile densityRsun
    positivity
  have hh : 0 ≤ halo R Z := by
    unfold halo densityRsun rsun
    positivity
  have e : stellardensity R Z = (10 * thindisk R Z + thickdisk R Z) / 11 + bulge R Z + halo R Z := by
    unfold stellardensity
    ring
  refine ⟨e, ?_, ?_⟩ <;> rw [e] <;> linarith

/-- The halo is flattened towards the plane: it is as dense 0.64 kpc above the centre as 1 kpc away from it in the plane; the bulge is
round. -/
theorem halo_flattened (d : ℝ) : halo 0 (0.64 * d) = halo d 0 ∧ bulge 0 d = bulge d 0 := by
  constructor
  · unfold halo
    congr 4
    ring
  · unfold bulge
    congr 4
    ring

example : specType 1 = 545 / 13 ∧ absMag .r 31 = 304 / 100 ∧ pick (105 / 100) .g = some (535 / 100) := by decide +kernel

end Verif.Stars
