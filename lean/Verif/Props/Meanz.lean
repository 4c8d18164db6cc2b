import Mathlib.Analysis.SpecialFunctions.Trigonometric.Angle
import Mathlib.Tactic.FieldSimp
import Mathlib.Tactic.Linarith
import Mathlib.Tactic.NormNum
import Mathlib.Tactic.Ring
import Mathlib.Algebra.Order.Field.Rat
import Mathlib.Algebra.BigOperators.Ring.List
import Verif.Model.Meanz

/-! # C579–C584: mean redshifts, the Lambert projection, mappings -/

namespace Verif.Meanz

open Real

/-! ## C579: Lambert projection -/

private theorem r_sq (lat : ℝ) : rPolar lat ^ 2 = 2 * (1 - sin lat) := by
  unfold rPolar
  have h := cos_sq ((π / 2 + lat) / 2)
  rw [show 2 * ((π / 2 + lat) / 2) = lat + π / 2 by ring, cos_add_pi_div_two] at h
  rw [mul_pow, h]
  ring

/-- The distance of a point from the centre of the plot. -/
theorem lambert_dist (lon lat : ℝ) : (lambert lon lat).1 ^ 2 + (lambert lon lat).2 ^ 2 = 2 * (1 - sin lat) := by
  unfold lambert
  have := sin_sq_add_cos_sq (lon + π / 2)
  calc _ = rPolar lat ^ 2 * (sin (lon + π / 2) ^ 2 + cos (lon + π / 2) ^ 2) := by ring
    _ = _ := by rw [this, mul_one, r_sq]

/-- **C579.** The projection keeps areas: the ring between the circles of two latitudes has the area of the zone of the sphere between them. -/
theorem lambert_area (lon lon' lat lat' : ℝ) :
    π * ((lambert lon lat).1 ^ 2 + (lambert lon lat).2 ^ 2) - π * ((lambert lon' lat').1 ^ 2 + (lambert lon' lat').2 ^ 2) = 2 * π * (sin lat' - sin lat) := by
  rw [lambert_dist, lambert_dist]
  ring

private theorem r_nonneg (lat : ℝ) (h1 : -(π / 2) ≤ lat) (h2 : lat ≤ π / 2) : 0 ≤ rPolar lat := by
  unfold rPolar
  have := cos_nonneg_of_mem_Icc (x := (π / 2 + lat) / 2) ⟨by linarith [pi_pos], by linarith⟩
  linarith

private theorem r_pos (lat : ℝ) (h1 : -(π / 2) ≤ lat) (h2 : lat < π / 2) : 0 < rPolar lat := by
  unfold rPolar
  have := cos_pos_of_mem_Ioo (x := (π / 2 + lat) / 2) ⟨by linarith [pi_pos], by linarith⟩
  linarith

/-- **C579.** No two points of the sky, the zenith apart, are at one place. -/
theorem lambert_inj (lon lon' lat lat' : ℝ) (h1 : -(π / 2) ≤ lat) (h2 : lat < π / 2) (h1' : -(π / 2) ≤ lat') (h2' : lat' ≤ π / 2)
    (h : lambert lon lat = lambert lon' lat') : lat = lat' ∧ ∃ k : ℤ, lon - lon' = 2 * π * k := by
  have hs : sin lat = sin lat' := by
    have e := lambert_dist lon lat
    rw [h, lambert_dist] at e
    linarith
  have hl : lat = lat' := injOn_sin ⟨h1, h2.le⟩ ⟨h1', h2'⟩ hs
  subst hl
  have hr := (r_pos lat h1 h2).ne'
  unfold lambert at h
  obtain ⟨hc, hsn⟩ := Prod.mk.inj h
  have := Real.Angle.cos_sin_inj (mul_left_cancel₀ hr hc) (mul_left_cancel₀ hr hsn)
  obtain ⟨k, hk⟩ := Real.Angle.angle_eq_iff_two_pi_dvd_sub.mp this
  exact ⟨rfl, k, by linarith⟩

/-- **C579.** North is up: the points with longitude zero are above the centre. -/
theorem lambert_north (lat : ℝ) (h1 : -(π / 2) ≤ lat) (h2 : lat ≤ π / 2) : (lambert 0 lat).1 = 0 ∧ 0 ≤ (lambert 0 lat).2 := by
  unfold lambert
  rw [zero_add, cos_pi_div_two, sin_pi_div_two, mul_zero, mul_one]
  exact ⟨rfl, r_nonneg lat h1 h2⟩

/-- **C579.** Everything above ten degrees is inside the plot. -/
theorem lambert_inside (lon lat : ℝ) (h1 : 10 * π / 180 ≤ lat) (h2 : lat ≤ π / 2) : |(lambert lon lat).1| ≤ limit ∧ |(lambert lon lat).2| ≤ limit := by
  have hp := pi_pos
  have h0 : limit = rPolar (10 * π / 180) := by
    unfold limit lambert
    dsimp only
    rw [zero_add, cos_pi_div_two, sin_pi_div_two, mul_zero, mul_one, abs_zero, abs_of_nonneg (r_nonneg _ (by linarith) (by linarith))]
    exact max_eq_right (r_nonneg _ (by linarith) (by linarith))
  have hr : rPolar lat ≤ limit := by
    rw [h0]
    unfold rPolar
    have := cos_le_cos_of_nonneg_of_le_pi (x := (π / 2 + 10 * π / 180) / 2) (y := (π / 2 + lat) / 2) (by linarith) (by linarith) (by linarith)
    linarith
  have hn := r_nonneg lat (by linarith) h2
  unfold lambert
  constructor
  · rw [abs_mul, abs_of_nonneg hn]
    exact le_trans (mul_le_of_le_one_right hn (abs_cos_le_one _)) hr
  · rw [abs_mul, abs_of_nonneg hn]
    exact le_trans (mul_le_of_le_one_right hn (abs_sin_le_one _)) hr

example : lambert 0 (π / 2) = (0, 0) := by
  unfold lambert rPolar
  rw [show (π / 2 + π / 2) / 2 = π / 2 by ring, cos_pi_div_two]
  simp

/-! ## Straight lines -/

section Bias
set_option linter.unusedSectionVars false
variable {K : Type*} [Field K] [LinearOrder K] [IsStrictOrderedRing K]

private theorem sum_affine (l : List (K × K)) (a s m : K) : (l.map (fun p => a + s * (p.1 - m))).sum = l.length * a + s * ((l.map (·.1)).sum - l.length * m) := by
  induction l with
  | nil => simp
  | cons p l ih =>
    simp only [List.map_cons, List.sum_cons, ih, List.length_cons, Nat.cast_add, Nat.cast_one]
    ring

/-- The line has the same sum as the points. -/
theorem lineFit_sum (p : List (K × K)) : (lineFit p).sum = (p.map (·.2)).sum := by
  cases p with
  | nil => simp [lineFit]
  | cons a l =>
    unfold lineFit
    dsimp only
    rw [sum_affine]
    have : ((a :: l).length : K) ≠ 0 := by
      rw [List.length_cons]
      positivity
    field_simp
    ring

private theorem sum_mul (l : List (K × K)) (f : K × K → K) (s : K) : (l.map (fun p => s * f p)).sum = s * (l.map f).sum := by
  induction l with
  | nil => simp
  | cons p l ih =>
    simp only [List.map_cons, List.sum_cons, ih]
    ring

/-- The line through points `s` times as high is `s` times as high. -/
theorem lineFit_scale (s : K) (p : List (K × K)) : lineFit (p.map (fun a => (a.1, s * a.2))) = (lineFit p).map (s * ·) := by
  unfold lineFit
  dsimp only
  simp only [List.map_map, List.length_map]
  have e1 : (p.map ((fun x => x.1) ∘ fun a : K × K => (a.1, s * a.2))) = p.map (·.1) := rfl
  have e2 : (p.map ((fun x => x.2) ∘ fun a : K × K => (a.1, s * a.2))).sum = s * (p.map (·.2)).sum := sum_mul p (·.2) s
  rw [e1, e2]
  set mx := (p.map (·.1)).sum / (p.length : K)
  set my := (p.map (·.2)).sum / (p.length : K) with hmy
  have e3 : s * (p.map (·.2)).sum / (p.length : K) = s * my := by rw [hmy, mul_div_assoc]
  rw [e3]
  have e4 : (p.map ((fun x => (x.1 - mx) * (x.2 - s * my)) ∘ fun a : K × K => (a.1, s * a.2))).sum = s * (p.map (fun a => (a.1 - mx) * (a.2 - my))).sum := by
    rw [← sum_mul]
    congr 1
    apply List.map_congr_left
    intro a _
    simp only [Function.comp]
    ring
  have e5 : (p.map ((fun x => (x.1 - mx) * (x.1 - mx)) ∘ fun a : K × K => (a.1, s * a.2))).sum = (p.map (fun a => (a.1 - mx) * (a.1 - mx))).sum := rfl
  rw [e4, e5]
  apply List.map_congr_left
  intro a _
  simp only [Function.comp]
  ring

theorem lineFit_length (p : List (K × K)) : (lineFit p).length = p.length := by simp [lineFit]

/-! ## C580: years -/

/-- **C580.** The bias of a year is that of the table of the year after: it does not depend on any other table. -/
theorem run_year (curve : K → K) (m m' : Tomo K) (zbins year : Nat) (rms : List (String × K)) (h : m.lookup (year + 1) = m'.lookup (year + 1)) :
    run curve m zbins year rms = run curve m' zbins year rms := by
  have e : ∀ t x, stepBand curve m zbins year t x = stepBand curve m' zbins year t x := by
    intro t x
    unfold stepBand dzFromDm
    rw [h]
  have e2 : ∀ t, bands curve m zbins year t rms = bands curve m' zbins year t rms := by
    induction rms with
    | nil => intro t; rfl
    | cons x xs ih =>
      intro t
      rw [bands, bands, e]
      cases stepBand curve m' zbins year t x with
      | error _ => rfl
      | ok t' => exact ih t'
  unfold run
  rw [e2]

/-- **C580.** With the tables of ten years, as in `MEANZ_TOMOGRAPHY_MODEL`, the tenth year, which is the default, is a `KeyError`. -/
theorem year_error (curve : K → K) (m : Tomo K) (h : ∀ n, n ∈ m.map Prod.fst ↔ 1 ≤ n ∧ n ≤ 10) (zbins : Nat) (hz : 1 ≤ zbins) (x : String × K) (rms : List (String × K)) :
    run curve m zbins 10 (x :: rms) = .error .key := by
  have hl : m.lookup (10 + 1) = none := by
    rw [List.lookup_eq_none_iff]
    intro p hp
    have := (h p.1).mp (List.mem_map.mpr ⟨p, hp, rfl⟩)
    simp
    omega
  unfold run
  rw [bands, stepBand, dzFromDm, if_neg (by omega), hl]

/-! ## C581: bins -/

private theorem clBias_ok (curve : K → K) (bins : List (Bin K)) (rms : K) (c : List K) (h : clBias curve bins rms = .ok c) :
    c = lineFit ((bins.filter (fun b => decide (b.meanz < maxZ))).map (fun b => (b.meanz, curve b.meanz * (|b.dz| * rms / (2 / 100))))) ∧ c ≠ [] := by
  unfold clBias at h
  split at h
  · cases h
  · rename_i b bs e
    rw [e]
    have := Except.ok.inj h
    refine ⟨this.symm, ?_⟩
    rw [← this]
    intro e'
    have := congrArg List.length e'
    rw [lineFit_length] at this
    simp at this

omit [LinearOrder K] [IsStrictOrderedRing K] in
private theorem addTo_length (t c s : List K) (h : addTo t c = .ok s) : s.length = t.length := by
  unfold addTo at h
  split at h
  · rw [← Except.ok.inj h, List.length_map]
  · split_ifs at h with hl
    rw [← Except.ok.inj h, List.length_zipWith, hl, min_self]

private theorem bands_length (curve : K → K) (m : Tomo K) (zbins year : Nat) (xs : List (String × K)) (t : List K) (r : Option (List K))
    (h : bands curve m zbins year (some t) xs = .ok r) : ∃ s, r = some s ∧ s.length = t.length := by
  induction xs generalizing t with
  | nil =>
    rw [bands] at h
    exact ⟨t, (Except.ok.inj h).symm, rfl⟩
  | cons x xs ih =>
    rw [bands] at h
    unfold stepBand at h
    cases h1 : dzFromDm m zbins x.1 year with
    | error e => rw [h1] at h; cases h
    | ok bins =>
      rw [h1] at h
      cases h2 : clBias curve bins x.2 with
      | error e => simp only [h2] at h; cases h
      | ok c =>
        simp only [h2] at h
        cases h3 : addTo t c with
        | error e => simp only [h3] at h; cases h
        | ok s =>
          simp only [h3] at h
          obtain ⟨s', e1, e2⟩ := ih s h
          exact ⟨s', e1, e2.trans (addTo_length t c s h3)⟩

/-- **C581.** There is a result only if all bins of the first band, or exactly one of them, are nearer than the limit. -/
theorem far_error (curve : K → K) (m : Tomo K) (zbins year : Nat) (x : String × K) (rms : List (String × K)) (bins : List (Bin K)) (r : List K × List K)
    (hb : dzFromDm m zbins x.1 year = .ok bins) (h : run curve m zbins year (x :: rms) = .ok r) :
    (bins.filter (fun b => decide (b.meanz < maxZ))).length = zbins ∨ (bins.filter (fun b => decide (b.meanz < maxZ))).length = 1 := by
  unfold run at h
  rw [bands] at h
  unfold stepBand at h
  simp only [hb] at h
  cases h2 : clBias curve bins x.2 with
  | error e => simp only [h2] at h; cases h
  | ok c =>
    simp only [h2] at h
    have hc := clBias_ok curve bins x.2 c h2
    have hlen : c.length = (bins.filter (fun b => decide (b.meanz < maxZ))).length := by rw [hc.1, lineFit_length, List.length_map]
    cases h3 : bands curve m zbins year (some c) rms with
    | error e => simp only [h3] at h; cases h
    | ok t =>
      obtain ⟨s, rfl, hs⟩ := bands_length curve m zbins year rms c t h3
      simp only [h3] at h
      rw [← hlen, ← hs]
      unfold fill at h
      match s, h with
      | [], h =>
        exfalso
        rw [List.length_nil] at hs
        exact hc.2 (List.length_eq_zero_iff.mp hs.symm)
      | [_], _ => exact Or.inr rfl
      | a :: b :: l, h =>
        simp only at h
        by_cases hz : (a :: b :: l).length = zbins
        · exact Or.inl hz
        · rw [if_neg hz] at h
          cases h

/-- The bias of one band in all bins, and that of all bands. -/
def total (curve : K → K) (bins : String → List (Bin K)) (rms : List (String × K)) : K :=
  (rms.map (fun x => ((bins x.1).map (fun b => curve b.meanz * |b.dz| * x.2)).sum)).sum / (2 / 100)

omit [LinearOrder K] [IsStrictOrderedRing K] in
private theorem zip_sum (a b : List K) (h : a.length = b.length) : (List.zipWith (· + ·) a b).sum = a.sum + b.sum := by
  induction a generalizing b with
  | nil =>
    cases b with
    | nil => simp
    | cons => simp at h
  | cons x a ih =>
    cases b with
    | nil => simp at h
    | cons y b =>
      simp only [List.zipWith_cons_cons, List.sum_cons]
      rw [ih b (by simpa using h)]
      ring

private theorem addTo_sum (t c : List K) (h : t.length = c.length) : ∃ s, addTo t c = .ok s ∧ s.length = c.length ∧ s.sum = t.sum + c.sum := by
  match c, h with
  | [c], h =>
    obtain ⟨a, rfl⟩ := List.length_eq_one_iff.mp h
    exact ⟨[a + c], rfl, rfl, by simp⟩
  | [], h =>
    have : t = [] := List.length_eq_zero_iff.mp h
    subst this
    exact ⟨[], rfl, rfl, by simp⟩
  | a :: b :: l, h =>
    refine ⟨List.zipWith (· + ·) t (a :: b :: l), ?_, ?_, zip_sum _ _ h⟩
    · show (if t.length = (a :: b :: l).length then _ else _) = _
      rw [if_pos h]
    · rw [List.length_zipWith, h, min_self]

section Full
variable (curve : K → K) (m : Tomo K) (zbins year : Nat) (bins : String → List (Bin K)) (hz : 1 ≤ zbins)

include hz in
private theorem clBias_full (b : List (Bin K)) (hl : b.length = zbins) (hn : ∀ x ∈ b, x.meanz < maxZ) (rms : K) :
    ∃ c, clBias curve b rms = .ok c ∧ c.length = zbins ∧ c.sum = (b.map (fun b => curve b.meanz * |b.dz| * rms)).sum / (2 / 100) := by
  have hf : b.filter (fun b => decide (b.meanz < maxZ)) = b := List.filter_eq_self.mpr (fun x hx => by simpa using hn x hx)
  unfold clBias
  rw [hf]
  match b, hl with
  | [], hl => simp at hl; omega
  | a :: l, hl =>
    refine ⟨_, rfl, ?_, ?_⟩
    · rw [lineFit_length, List.length_map, hl]
    · rw [lineFit_sum, List.map_map]
      have : ∀ l : List (Bin K), (l.map ((fun x : K × K => x.2) ∘ fun b => (b.meanz, curve b.meanz * (|b.dz| * rms / (2 / 100))))).sum =
          (l.map (fun b => curve b.meanz * |b.dz| * rms)).sum / (2 / 100) := by
        intro l
        induction l with
        | nil => simp
        | cons x l ih =>
          simp only [List.map_cons, List.sum_cons, ih, Function.comp]
          ring
      exact this _

include hz in
private theorem bands_full (xs : List (String × K)) (hok : ∀ x ∈ xs, dzFromDm m zbins x.1 year = .ok (bins x.1) ∧ (bins x.1).length = zbins ∧ ∀ b ∈ bins x.1, b.meanz < maxZ)
    (t : List K) (ht : t.length = zbins) :
    ∃ s, bands curve m zbins year (some t) xs = .ok (some s) ∧ s.length = zbins ∧ s.sum = t.sum + total curve bins xs := by
  induction xs generalizing t with
  | nil => exact ⟨t, rfl, ht, by simp [total]⟩
  | cons x xs ih =>
    obtain ⟨h1, h2, h3⟩ := hok x (by simp)
    obtain ⟨c, hc, hcl, hcs⟩ := clBias_full curve zbins hz (bins x.1) h2 h3 x.2
    obtain ⟨s, hs, hsl, hss⟩ := addTo_sum t c (ht.trans hcl.symm)
    obtain ⟨s', e1, e2, e3⟩ := ih (fun y hy => hok y (List.mem_cons_of_mem _ hy)) s (hsl.trans hcl)
    refine ⟨s', ?_, e2, ?_⟩
    · rw [bands, stepBand]
      simp only [h1, hc, hs]
      exact e1
    · rw [e3, hss, hcs]
      unfold total
      simp only [List.map_cons, List.sum_cons]
      ring

private theorem fill_full (s : List K) (hs : s.length = zbins) (d : K) : fill zbins d (some s) = .ok (s.map (· / d)) := by
  match s, hs with
  | [], hs => simp [fill, ← hs]
  | [c], hs => simp [fill, ← hs]
  | a :: b :: l, hs =>
    show (if (a :: b :: l).length = zbins then _ else _) = _
    rw [if_pos hs]

include hz in
/-- **C581.** If the tables have all bins of all bands, all nearer than the limit, there is one row for each bin; the two ratios belong together, and their sums are those of the
curve of the figure, scaled by the scatter of the redshifts that the scatter of the depths makes: the line through the bins moves the bias from one bin to another only. -/
theorem run_partial (x : String × K) (xs : List (String × K))
    (hok : ∀ y ∈ x :: xs, dzFromDm m zbins y.1 year = .ok (bins y.1) ∧ (bins y.1).length = zbins ∧ ∀ b ∈ bins y.1, b.meanz < maxZ) :
    ∃ y1 y10, run curve m zbins year (x :: xs) = .ok (y1, y10) ∧ y1.length = zbins ∧ y10.length = zbins ∧ y1.map (· * 13) = y10.map (· * 3) ∧
      y10.sum = total curve bins (x :: xs) / (3 / 1000) := by
  obtain ⟨h1, h2, h3⟩ := hok x (by simp)
  obtain ⟨c, hc, hcl, hcs⟩ := clBias_full curve zbins hz (bins x.1) h2 h3 x.2
  obtain ⟨s, e1, e2, e3⟩ := bands_full curve m zbins year bins hz xs (fun y hy => hok y (List.mem_cons_of_mem _ hy)) c hcl
  refine ⟨s.map (· / (13 / 1000)), s.map (· / (3 / 1000)), ?_, by simp [e2], by simp [e2], ?_, ?_⟩
  · unfold run
    rw [bands, stepBand]
    simp only [h1, hc, e1, fill_full zbins s e2]
  · rw [List.map_map, List.map_map]
    apply List.map_congr_left
    intro a _
    simp only [Function.comp]
    field_simp
  · have : ∀ l : List K, (l.map (· / (3 / 1000))).sum = l.sum / (3 / 1000) := by
      intro l
      induction l with
      | nil => simp
      | cons a l ih => rw [List.map_cons, List.sum_cons, ih, List.sum_cons, add_div]
    rw [this, e3, hcs]
    unfold total
    simp only [List.map_cons, List.sum_cons]
    ring

end Full

/-! ## C582: scatter of the depths -/

/-- All numbers of a result, times `s`. -/
def times (s : K) (r : List K × List K) : List K × List K := (r.1.map (s * ·), r.2.map (s * ·))

private theorem clBias_scale (curve : K → K) (b : List (Bin K)) (rms s : K) : clBias curve b (s * rms) = (clBias curve b rms).map (List.map (s * ·)) := by
  unfold clBias
  split
  · rfl
  · show _ = Except.ok _
    rw [← lineFit_scale, List.map_map]
    congr 2
    apply List.map_congr_left
    intro x _
    simp only [Function.comp, Prod.mk.injEq, true_and]
    ring

private theorem addTo_scale (t c : List K) (s : K) : addTo (t.map (s * ·)) (c.map (s * ·)) = (addTo t c).map (List.map (s * ·)) := by
  match c with
  | [c] =>
    show Except.ok _ = Except.ok _
    rw [List.map_map, List.map_map]
    congr 1
    apply List.map_congr_left
    intro x _
    simp only [Function.comp]
    ring
  | [] =>
    show (if _ then _ else _) = Except.map _ (if _ then _ else _)
    simp only [List.length_map]
    split_ifs <;> simp [Except.map]
  | a :: b :: l =>
    show (if _ then _ else _) = Except.map _ (if _ then _ else _)
    simp only [List.length_map, List.map_cons, List.length_cons]
    split_ifs with h
    · show Except.ok _ = Except.ok _
      congr 1
      rw [← List.map_cons, ← List.map_cons, List.map_zipWith, List.zipWith_map]
      congr 1
      funext x y
      ring
    · rfl

private theorem bands_scale (curve : K → K) (m : Tomo K) (zbins year : Nat) (s : K) (xs : List (String × K)) (t : Option (List K)) :
    bands curve m zbins year (t.map (List.map (s * ·))) (xs.map (fun x => (x.1, s * x.2))) = (bands curve m zbins year t xs).map (Option.map (List.map (s * ·))) := by
  induction xs generalizing t with
  | nil => rfl
  | cons x xs ih =>
    rw [List.map_cons, bands, bands]
    have e : stepBand curve m zbins year (t.map (List.map (s * ·))) (x.1, s * x.2) = (stepBand curve m zbins year t x).map (Option.map (List.map (s * ·))) := by
      unfold stepBand
      dsimp only
      cases dzFromDm m zbins x.1 year with
      | error e => rfl
      | ok bins =>
        dsimp only
        rw [clBias_scale]
        cases clBias curve bins x.2 with
        | error e => rfl
        | ok c =>
          cases t with
          | none => rfl
          | some t =>
            show (match addTo (t.map (s * ·)) (c.map (s * ·)) with | .error e => _ | .ok s => _) = Except.map _ (match addTo t c with | .error e => _ | .ok s => _)
            rw [addTo_scale]
            cases addTo t c with
            | error e => rfl
            | ok r => rfl
    rw [e]
    cases stepBand curve m zbins year t x with
    | error e => rfl
    | ok t' => exact ih t'

private theorem fill_scale (zbins : Nat) (d s : K) (t : Option (List K)) : fill zbins d (t.map (List.map (s * ·))) = (fill zbins d t).map (List.map (s * ·)) := by
  match t with
  | none => simp [fill, Except.map]
  | some [c] => simp [fill, Except.map, mul_div_assoc]
  | some [] =>
    show (if _ then _ else _) = Except.map _ (if _ then _ else _)
    split_ifs <;> simp_all [Except.map]
  | some (a :: b :: l) =>
    show (if _ then _ else _) = Except.map _ (if _ then _ else _)
    simp only [List.map_cons, List.length_cons, List.length_map]
    split_ifs
    · show Except.ok _ = Except.ok _
      simp [mul_div_assoc]
    · rfl

/-- **C582.** The ratios are proportional to the scatter of the depths: with all of them `s` times as large the result is `s` times as large, and an error stays the error it is. -/
theorem run_scale (curve : K → K) (m : Tomo K) (zbins year : Nat) (s : K) (rms : List (String × K)) :
    run curve m zbins year (rms.map (fun x => (x.1, s * x.2))) = (run curve m zbins year rms).map (times s) := by
  unfold run
  have e := bands_scale curve m zbins year s rms none
  rw [Option.map_none] at e
  rw [e]
  cases bands curve m zbins year none rms with
  | error e => rfl
  | ok t =>
    show (match fill zbins (13 / 1000) (t.map (List.map (s * ·))) with | .error e => _ | .ok y1 => _) = _
    rw [fill_scale, fill_scale]
    dsimp only
    cases fill zbins (13 / 1000) t with
    | error e => rfl
    | ok y1 =>
      show (match (fill zbins (3 / 1000) t).map (List.map (s * ·)) with | .error e => _ | .ok y10 => _) = _
      dsimp only
      cases fill zbins (3 / 1000) t with
      | error e => rfl
      | ok y10 => rfl

/-- **C582.** A survey of uniform depth has no bias. -/
theorem run_uniform (curve : K → K) (m : Tomo K) (zbins year : Nat) (rms : List (String × K)) (r : List K × List K) (h : run curve m zbins year rms = .ok r) :
    ∃ r', run curve m zbins year (rms.map (fun x => (x.1, 0))) = .ok r' ∧ ∀ x ∈ r'.1 ++ r'.2, x = 0 := by
  refine ⟨times 0 r, ?_, ?_⟩
  · have := run_scale curve m zbins year 0 rms
    rw [h] at this
    simp only [zero_mul] at this
    exact this
  · intro x hx
    simp only [times, List.mem_append, List.mem_map] at hx
    rcases hx with ⟨a, _, rfl⟩ | ⟨a, _, rfl⟩ <;> simp

end Bias

/-! ## What does not hold, and examples -/

private def row (z : ℚ) : List (String × Bin ℚ) := [("g", ⟨z, 1 / 50⟩), ("r", ⟨z, 1 / 100⟩)]

private def near : Year ℚ := [row (1 / 2), row 1]
private def far : Year ℚ := [row (1 / 2), row 1, row (8 / 5)]

private def m10 : Tomo ℚ := (List.range 10).map (fun k => (k + 1, near))

/-- **C580.** The default year does not work with the tables of ten years. -/
theorem year_false : ¬ ∀ (curve : ℚ → ℚ) (m : Tomo ℚ) (zbins year : Nat) (rms : List (String × ℚ)),
    (∀ n y, (n, y) ∈ m → ∀ r ∈ y, ∀ x ∈ rms, ∃ b, r.lookup x.1 = some b ∧ b.meanz < maxZ) → (∀ n y, (n, y) ∈ m → zbins ≤ y.length) → (∃ y, m.lookup year = some y) →
    ∃ r, run curve m zbins year rms = .ok r := by
  intro h
  have hh := h id m10 2 10 [("g", 1)] ?_ ?_ ⟨near, rfl⟩
  · obtain ⟨r, hr⟩ := hh
    rw [show run id m10 2 10 [("g", 1)] = .error .key by decide +kernel] at hr
    cases hr
  · intro n y hy r hr x hx
    simp only [m10, List.mem_map] at hy
    obtain ⟨k, _, e⟩ := hy
    cases e
    simp only [List.mem_singleton] at hx
    subst hx
    simp only [near, List.mem_cons, List.not_mem_nil, or_false] at hr
    rcases hr with rfl | rfl
    · exact ⟨⟨1 / 2, 1 / 50⟩, rfl, by norm_num [maxZ]⟩
    · exact ⟨⟨1, 1 / 50⟩, rfl, by norm_num [maxZ]⟩
  · intro n y hy
    simp only [m10, List.mem_map] at hy
    obtain ⟨k, _, e⟩ := hy
    cases e
    decide

/-- **C581.** One bin that is too far makes an error, not a result for the others. -/
theorem far_false : ¬ ∀ (curve : ℚ → ℚ) (m : Tomo ℚ) (zbins year : Nat) (rms : List (String × ℚ)) (y : Year ℚ), m.lookup (year + 1) = some y → zbins ≤ y.length →
    (∀ r ∈ y, ∀ x ∈ rms, ∃ b, r.lookup x.1 = some b) → ∃ r, run curve m zbins year rms = .ok r := by
  intro h
  have hh := h id [(10, far)] 3 9 [("g", 1)] far rfl (by decide) ?_
  · obtain ⟨r, hr⟩ := hh
    rw [show run id [(10, far)] 3 9 [("g", 1)] = .error .value by decide +kernel] at hr
    cases hr
  · intro r hr x hx
    simp only [List.mem_singleton] at hx
    subst hx
    simp only [far, List.mem_cons, List.not_mem_nil, or_false] at hr
    rcases hr with rfl | rfl | rfl <;> exact ⟨_, rfl⟩

example : run (fun z => z / 100) [(10, near)] 2 9 [("g", 1 / 10), ("r", 1 / 10)] = .ok ([15 / 260, 30 / 260], [15 / 60, 30 / 60]) := by decide +kernel

/-! ## C583: mappings -/

/-- **C583.** Each value of an array is replaced by what the mapping has for it, in place, and by `None` if it has nothing; no value is lost. -/
theorem apply_array {α β : Type*} [BEq α] [LawfulBEq α] (mapping : List (α × β)) (l : List α) (i : Nat) :
    (applyArray mapping l).length = l.length ∧ (applyArray mapping l)[i]? = l[i]?.map (fun x => mapping.lookup x) := by
  unfold applyArray
  simp

/-- **C583.** An array of one value and the value itself do not agree on values that are not in the mapping: `None` and a `KeyError`. -/
theorem apply_one {α β : Type*} [BEq α] (mapping : List (α × β)) (x : α) :
    (∀ y, applyOne mapping x = .ok y ↔ applyArray mapping [x] = [some y]) ∧ (applyOne mapping x = .error "KeyError" ↔ applyArray mapping [x] = [none]) := by
  unfold applyOne applyArray
  cases h : mapping.lookup x <;> simp [h]

example : applyArray [("a", 1), ("b", 2)] ["b", "c", "a"] = [some 2, none, some 1] := by decide

/-! ## C584: restarts of the map of Gaia -/

/-- **C584.** A restart from a file that was saved on the way is a `KeyError`. -/
theorem restart_error : restore saved = .error "KeyError" := by decide +kernel

end Verif.Meanz
