import Verif.Model.DirectObs
import Mathlib.Tactic.Linarith
import Mathlib.Tactic.Ring
import Mathlib.Tactic.FieldSimp
import Mathlib.Tactic.Positivity
import Mathlib.Tactic.NormNum

/-!
# Properties of footprints, trailing losses and ephemerides
-/

namespace Verif.Direct

/-! ## C188: footprints -/

theorem degrees_radians (x : ℝ) : degrees (radians x) = x := by
  unfold degrees radians
  have := Real.pi_ne_zero
  field_simp

/-- A circular footprint does not depend on the unit of the field. -/
theorem circle_unit (sep : ℝ → ℝ → ℝ → ℝ → ℝ) (r ra dec fra fdec : ℝ) :
    (inCircle sep false r ra dec (radians fra) (radians fdec) ↔ sep ra dec fra fdec ≤ r) ∧
    (inCircle sep true r ra dec fra fdec ↔ sep ra dec fra fdec ≤ r) := by
  simp [inCircle, degrees_radians]

/-- A rectangular one does. -/
theorem rect_unit_false : ¬ ∀ x y ra dec fra fdec : ℝ, 0 < x → 0 < y →
    (inRectangle false x y ra dec (radians fra) (radians fdec) ↔ inRectangle true x y ra dec fra fdec) := by
  intro h
  have h1 := (h 1 2 0 0 0 90 (by norm_num) (by norm_num)).1 ⟨by
      unfold radians
      rw [abs_le]
      have h1 := Real.pi_pos
      have h2 := Real.pi_le_four
      constructor <;> linarith, by simp [radians]⟩
  have h2 := h1.1
  norm_num at h2

/-- Within half a turn, an object is in the rectangle just if it is so for one of the values of its
right ascension. -/
theorem rect_spec_partial (x y ra dec fra fdec : ℝ) (hd : |fdec| ≤ 90) (hr : |ra - fra| ≤ 180) :
    inRectangle true x y ra dec fra fdec ↔
      |dec - fdec| ≤ y ∧ ∃ k : ℤ, |ra + 360 * k - fra| * Real.cos (radians fdec) ≤ x := by
  have hc : 0 ≤ Real.cos (radians fdec) := by
    apply Real.cos_nonneg_of_mem_Icc
    unfold radians
    rw [abs_le] at hd
    have := Real.pi_pos
    constructor <;> nlinarith
  unfold inRectangle
  rw [abs_mul, abs_of_nonneg hc]
  refine and_congr_right fun _ => ⟨fun h => ⟨0, by simpa using h⟩, ?_⟩
  rintro ⟨k, hk⟩
  refine le_trans (mul_le_mul_of_nonneg_right ?_ hc) hk
  by_cases h0 : k = 0
  · subst h0; simp
  · have h1 : (1 : ℝ) ≤ |(k : ℝ)| := by
      rw [← Int.cast_abs]
      exact_mod_cast Int.one_le_abs h0
    have h2 : |360 * (k : ℝ)| = 360 * |(k : ℝ)| := by rw [abs_mul]; norm_num
    have h3 : |360 * (k : ℝ)| ≤ |ra + 360 * k - fra| + |ra - fra| := by
      have := abs_sub (ra + 360 * k - fra) (ra - fra)
      have he : ra + 360 * (k : ℝ) - fra - (ra - fra) = 360 * k := by ring
      rwa [he] at this
    linarith

/-- On both sides of zero right ascension it is not found. -/
theorem rect_false : ¬ ∀ x y ra dec fra fdec : ℝ, |fdec| ≤ 90 → 0 ≤ ra → ra < 360 → 0 ≤ fra → fra < 360 →
    (inRectangle true x y ra dec fra fdec ↔
      |dec - fdec| ≤ y ∧ ∃ k : ℤ, |ra + 360 * k - fra| * Real.cos (radians fdec) ≤ x) := by
  intro h
  have h1 := (h 1 1 359 0 0 0 (by norm_num) (by norm_num) (by norm_num) (by norm_num) (by norm_num)).2
    ⟨by norm_num, -1, by norm_num [radians]⟩
  have h2 := h1.2
  norm_num [radians, abs_le] at h2

/-- An unknown footprint is taken as a circle. -/
theorem fov_spec (fp : String) : (fovKind fp).1 ∈ ["camera", "rectangle", "circle"] ∧
    (fp ∈ ["camera", "rectangle", "circle"] → (fovKind fp).1 = fp) ∧
    (fp ∉ ["camera", "rectangle", "circle"] → (fovKind fp).1 = "circle") ∧
    (fovKind (fovKind fp).2).1 = (fovKind fp).1 := by
  unfold fovKind
  by_cases h1 : fp = "camera"
  · subst h1; decide
  by_cases h2 : fp = "rectangle"
  · subst h2; decide
  by_cases h3 : fp = "circle"
  · subst h3; decide
  · simp [h1, h2, h3]

/-- The information about the run has the radius for the name `circle` only. -/
theorem info_false : ¬ ∀ fp, (fovKind fp).1 = "circle" → "r_fov" ∈ infoKeys fp := by
  intro h
  exact absurd (h "none" (by decide)) (by decide)

theorem info_partial (fp : String) (h : fp ∈ ["camera", "rectangle", "circle"]) :
    ("r_fov" ∈ infoKeys fp ↔ (fovKind fp).1 = "circle") ∧
    ("xtol" ∈ infoKeys fp ↔ (fovKind fp).1 = "rectangle") := by
  simp only [List.mem_cons, List.not_mem_nil, or_false] at h
  rcases h with h | h | h <;> subst h <;> decide

/-! ## C189: trailing losses -/

theorem log_mono {x y : ℝ} (hx : 0 < x) (h : x ≤ y) : Real.logb 10 x ≤ Real.logb 10 y :=
  Real.logb_le_logb_of_le (by norm_num) hx h

theorem frac_nonneg {a b x : ℝ} (ha : 0 < a) (hb : 0 < b) (hx : 0 ≤ x) : 0 ≤ a * x ^ 2 / (1 + b * x) := by
  positivity

theorem loss_nonneg {a b x : ℝ} (ha : 0 < a) (hb : 0 < b) (hx : 0 ≤ x) : 0 ≤ lossWith a b x := by
  unfold lossWith
  have h1 := frac_nonneg ha hb hx
  have h2 : 0 ≤ Real.logb 10 (1 + a * x ^ 2 / (1 + b * x)) := Real.logb_nonneg (by norm_num) (by linarith)
  positivity

theorem loss_mono {a b x y : ℝ} (ha : 0 < a) (hb : 0 < b) (hx : 0 ≤ x) (h : x ≤ y) :
    lossWith a b x ≤ lossWith a b y := by
  unfold lossWith
  have h1 := frac_nonneg ha hb hx
  have h2 : a * x ^ 2 / (1 + b * x) ≤ a * y ^ 2 / (1 + b * y) := by
    have hy : 0 ≤ y := hx.trans h
    have hbx : 0 < 1 + b * x := by positivity
    have hby : 0 < 1 + b * y := by positivity
    rw [div_le_div_iff₀ hbx hby]
    have e1 : x ^ 2 ≤ y ^ 2 := by nlinarith
    have e2 : x ^ 2 * y ≤ y ^ 2 * x := by nlinarith [mul_nonneg hx hy]
    have e3 := mul_le_mul_of_nonneg_left e1 ha.le
    have e4 := mul_le_mul_of_nonneg_left e2 (mul_pos ha hb).le
    nlinarith
  have h3 := log_mono (x := 1 + a * x ^ 2 / (1 + b * x)) (by linarith)
    (y := 1 + a * y ^ 2 / (1 + b * y)) (by linarith)
  nlinarith

theorem trailX_nonneg {v s t : ℝ} (hv : 0 ≤ v) (hs : 0 < s) (ht : 0 ≤ t) : 0 ≤ trailX v s t := by
  unfold trailX
  positivity

/-- The losses are not negative, and zero for an object at rest. -/
theorem trail_nonneg (v s t : ℝ) (hv : 0 ≤ v) (hs : 0 < s) (ht : 0 ≤ t) :
    0 ≤ (trailing v s t).1 ∧ 0 ≤ (trailing v s t).2 ∧ trailing 0 s t = (0, 0) := by
  have h := trailX_nonneg hv hs ht
  refine ⟨loss_nonneg (by norm_num) (by norm_num) h, loss_nonneg (by norm_num) (by norm_num) h, ?_⟩
  simp [trailing, trailX, lossWith]

/-- A faster object, better seeing or a longer exposure give larger losses. -/
theorem trail_mono (v s t v' s' t' : ℝ) (hv : 0 ≤ v) (hs : 0 < s') (ht : 0 ≤ t) (h1 : v ≤ v') (h2 : s' ≤ s)
    (h3 : t ≤ t') :
    (trailing v s t).1 ≤ (trailing v' s' t').1 ∧ (trailing v s t).2 ≤ (trailing v' s' t').2 := by
  have hs0 : 0 < s := hs.trans_le h2
  have hx := trailX_nonneg hv hs0 ht
  have hm : trailX v s t ≤ trailX v' s' t' := by
    unfold trailX
    have e1 : v * t ≤ v' * t' := mul_le_mul h1 h3 ht (hv.trans h1)
    have e2 : v * t / s ≤ v' * t' / s' := div_le_div₀ (mul_nonneg (hv.trans h1) (ht.trans h3)) e1 hs h2
    exact div_le_div_of_nonneg_right e2 (by norm_num)
  exact ⟨loss_mono (by norm_num) (by norm_num) hx hm, loss_mono (by norm_num) (by norm_num) hx hm⟩

/-- The loss at detection is at least the other one just if the object moves by more than about 0.7
times the seeing (in the units of `x`). -/
theorem trail_order (v s t : ℝ) (hv : 0 < v) (hs : 0 < s) (ht : 0 < t) :
    (trailing v s t).1 ≤ (trailing v s t).2 ↔ 0.341 / 0.485757 ≤ trailX v s t := by
  have hx : 0 < trailX v s t := by unfold trailX; positivity
  unfold trailing
  simp only
  generalize trailX v s t = x at hx
  unfold lossWith
  have p1 : 0 < 1 + 0.761 * x ^ 2 / (1 + 1.162 * x) := by positivity
  have p2 : 0 < 1 + 0.420 * x ^ 2 / (1 + 0.003 * x) := by positivity
  rw [mul_le_mul_iff_right₀ (by norm_num : (0 : ℝ) < 1.25), Real.logb_le_logb (by norm_num) p1 p2,
    add_le_add_iff_left, div_le_div_iff₀ (by positivity) (by positivity), div_le_iff₀ (by norm_num)]
  have hx2 : 0 < x ^ 2 := by positivity
  constructor
  · intro h
    by_contra hlt
    push Not at hlt
    nlinarith
  · intro h
    nlinarith

/-- So the claim of the documentation is not met by slow objects. -/
theorem trail_order_false : ¬ ∀ v s t : ℝ, 0 < v → 0 < s → 0 < t →
    (trailing v s t).1 ≤ (trailing v s t).2 := by
  intro h
  have h1 := (trail_order 0.5 1 30 (by norm_num) (by norm_num) (by norm_num)).1
    (h 0.5 1 30 (by norm_num) (by norm_num) (by norm_num))
  norm_num [trailX] at h1

example : (trailing 1 1 30).1 ≤ (trailing 1 1 30).2 ∧ trailX 1 1 30 = 5 / 4 :=
  ⟨(trail_order 1 1 30 (by norm_num) (by norm_num) (by norm_num)).2 (by norm_num [trailX]), by norm_num [trailX]⟩

/-! ## C190: ephemerides -/

/-- `ephs[i][j]` is for object `i` and time `j` by object, and for time `i` and object `j` by time; this
holds for the velocity too, which is made from the two rates. -/
theorem eph_axes (raw : ℕ → ℕ → ℕ → ℝ) (o t c : ℕ) :
    ephColumn true raw c o t = raw o t c ∧ ephColumn false raw c t o = raw o t c ∧
    ephVelocity true raw o t = Real.sqrt ((raw o t 3) ^ 2 + (raw o t 4) ^ 2) ∧
    ephVelocity false raw t o = Real.sqrt ((raw o t 3) ^ 2 + (raw o t 4) ^ 2) := ⟨rfl, rfl, rfl, rfl⟩

/-- Columns 3 and 4 are the rates of both kinds of ephemerides. -/
theorem eph_rates : basicNames.idxOf "dradt" = 3 ∧ basicNames.idxOf "ddecdt" = 4 ∧
    fullNames.idxOf "dradt" = 3 ∧ fullNames.idxOf "ddecdt" = 4 ∧ basicNames.Nodup ∧ fullNames.Nodup := by
  decide

/-- When there is an exception. -/
theorem generate_none_iff {V : Type} (oorb : String → String → Raw V) (mode type : String) :
    generate oorb mode type = none ↔
      mode.toLower ∉ ["nbody", "n", "2body", "2"] ∨ type.toLower ∉ ["basic", "full"] ∨
      (type.toLower = "full" ∧
        (oorb "full" (if mode.toLower ∈ ["nbody", "n"] then "N" else "2")).err ≠ 0) := by
  unfold generate
  generalize mode.toLower = m
  generalize type.toLower = ty
  by_cases hm1 : m = "nbody" ∨ m = "n"
  · have e1 : m ∈ ["nbody", "n", "2body", "2"] := by rcases hm1 with h | h <;> simp [h]
    have e2 : m ∈ ["nbody", "n"] := by simpa using hm1
    simp only [if_pos hm1, e1, e2, if_true, not_true, false_or]
    by_cases h1 : ty = "basic"
    · subst h1; simp
    by_cases h2 : ty = "full"
    · subst h2; simp
    · simp [h1, h2]
  · have e2 : m ∉ ["nbody", "n"] := by simpa using hm1
    by_cases hm2 : m = "2body" ∨ m = "2"
    · have e1 : m ∈ ["nbody", "n", "2body", "2"] := by rcases hm2 with h | h <;> simp [h]
      simp only [if_neg hm1, if_pos hm2, e1, e2, if_false, not_true, false_or]
      by_cases h1 : ty = "basic"
      · subst h1; simp
      by_cases h2 : ty = "full"
      · subst h2; simp
      · simp [h1, h2]
    · have e1 : m ∉ ["nbody", "n", "2body", "2"] := by
        push Not at hm1 hm2
        simp [hm1.1, hm1.2, hm2.1, hm2.2]
      simp [if_neg hm1, if_neg hm2, e1]

/-- Case does not matter. -/
theorem generate_case {V : Type} (oorb : String → String → Raw V) (m m' t t' : String)
    (h1 : m.toLower = m'.toLower) (h2 : t.toLower = t'.toLower) : generate oorb m t = generate oorb m' t' := by
  unfold generate
  rw [h1, h2]

/-- An error of OpenOrb is an exception for full ephemerides. -/
theorem generate_err_partial {V : Type} (oorb : String → String → Raw V) (mode type : String)
    (ht : type.toLower = "full") (he : ∀ k d, (oorb k d).err ≠ 0) : generate oorb mode type = none := by
  rw [generate_none_iff]
  exact Or.inr (Or.inr ⟨ht, he _ _⟩)

/-- For basic ones it is not. -/
theorem generate_err_false : ¬ ∀ (oorb : String → String → Raw ℤ) (mode type : String),
    (∀ k d, (oorb k d).err ≠ 0) → generate oorb mode type = none := by
  intro h
  have h1 := h (fun _ _ => ⟨0, 1⟩) "N" "basic" (by intros; decide)
  revert h1
  decide +kernel

/-! ## C191: full ephemerides cannot be written -/

theorem copies_basic (obsId : String) (transfer : List String) :
    copies basicNames (outNames obsId transfer) = true := by
  simp only [copies, List.all_eq_true]
  intro n hn
  simp only [basicNames, List.mem_cons, List.not_mem_nil, or_false] at hn
  rcases hn with h | h | h | h | h | h | h | h | h | h | h | h <;> subst h <;> simp [outNames]

/-- The output has a column for them only if one of the visit columns is called so. -/
theorem copies_full (obsId : String) (transfer : List String)
    (h : copies fullNames (outNames obsId transfer) = true) : "pa" = obsId ∨ "pa" ∈ transfer := by
  simp only [copies, List.all_eq_true] at h
  have := h "pa" (by decide)
  simpa [outNames] using this

example : copies fullNames (outNames "observationId"
    ["visitExposureTime", "fiveSigmaDepth", "seeingFwhmGeom", "observationStartMJD", "night", "filter"]) = false := by
  decide

/-! ## C192: packed orbits -/

/-- What is packed is found again. -/
theorem unpack_pack (fmt : String) (k : ℕ) (o : Orbit) (row : List ℝ) (h : pack fmt k o = some row) :
    unpack fmt row = some o ∧ row[0]? = some (k + 1 : ℝ) ∧
      row[7]? = [("CAR", (1 : ℝ)), ("COM", 2), ("KEP", 3)].lookup fmt := by
  unfold pack at h
  by_cases h1 : fmt = "KEP"
  · subst h1
    simp only [elemType] at h
    simp at h
    subst h
    simp [unpack, degrees_radians, List.lookup]
  by_cases h2 : fmt = "COM"
  · subst h2
    simp only [elemType] at h
    simp at h
    subst h
    simp [unpack, degrees_radians, List.lookup]
  by_cases h3 : fmt = "CAR"
  · subst h3
    simp only [elemType] at h
    simp at h
    subst h
    simp [unpack, List.lookup]
  · simp only [h1, h2, h3, if_false] at h
    split at h <;> simp at h

/-- Three formats can be packed. -/
theorem pack_some_iff (fmt : String) (k : ℕ) (o : Orbit) :
    (pack fmt k o).isSome = true ↔ fmt ∈ ["KEP", "COM", "CAR"] := by
  unfold pack
  by_cases h1 : fmt = "KEP"
  · subst h1; simp [elemType]
  by_cases h2 : fmt = "COM"
  · subst h2; simp [elemType]
  by_cases h3 : fmt = "CAR"
  · subst h3; simp [elemType]
  · simp only [h1, h2, h3, if_false]
    simp [h1, h2, h3]
    split <;> rfl

/-- Two more formats have a number but are not packed. -/
theorem pack_false : ¬ ∀ (fmt : String) (k : ℕ) (o : Orbit), (elemType fmt).isSome = true →
    (pack fmt k o).isSome = true := by
  intro h
  have := (pack_some_iff "DEL" 0 ⟨0, 0, 0, 0, 0, 0, 0, 0, 0⟩).1 (h _ _ _ (by simp [elemType]))
  exact absurd this (by decide)

end Verif.Direct
