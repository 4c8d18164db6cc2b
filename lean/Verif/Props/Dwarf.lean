import Verif.Model.Dwarf
import Mathlib.Tactic.Linarith
import Mathlib.Tactic.Ring
import Mathlib.Tactic.FieldSimp
import Mathlib.Tactic.NormNum
import Mathlib.Tactic.Positivity
import Mathlib.Algebra.Order.BigOperators.Group.List

/-!
# Properties of the metric for dwarf galaxies and of two tables of colours
-/

namespace Verif.Dwarf

/-! ## Luminosity functions -/

/-- The light of stars with magnitudes: spec. -/
noncomputable def Light (l : List (ℝ × ℝ)) : ℝ := (l.map (fun x => x.2 * (10 : ℝ) ^ (-0.4 * x.1))).sum

/-- The magnitude of all stars together: spec. -/
noncomputable def TotalMag (l : List (ℝ × ℝ)) : ℝ := -2.5 * Real.logb 10 (Light l)

/-- The scaled stars keep the colour: their total magnitude is as far from the requested
magnitude in B as that of the file is from its magnitude in B, at every distance. -/
theorem fakeLF_total (lf : List (ℝ × ℝ)) (h : 0 < Light lf) (intB mu : ℝ) :
    TotalMag (fakeLF lf intB mu) - intB = TotalMag lf - 6.856379 := by
  have e : Light (fakeLF lf intB mu) = (10 : ℝ) ^ (-0.4 * (intB - 6.856379)) * Light lf := by
    unfold Light fakeLF
    rw [List.map_map, ← List.sum_map_mul_left]
    congr 1
    apply List.map_congr_left
    intro x _
    simp only [Function.comp]
    rw [show -0.4 * (intB - (6.856379 + mu)) = -0.4 * (intB - 6.856379) + 0.4 * mu by ring, show -0.4 * (x.1 + mu) = -0.4 * x.1 + -(0.4 * mu) by ring,
      Real.rpow_add (by norm_num), Real.rpow_add (by norm_num), Real.rpow_neg (by norm_num) (0.4 * mu)]
    have : (10 : ℝ) ^ (0.4 * mu) ≠ 0 := (Real.rpow_pos_of_pos (by norm_num) _).ne'
    field_simp
  unfold TotalMag
  rw [e, Real.logb_mul (Real.rpow_pos_of_pos (by norm_num) _).ne' h.ne', Real.logb_rpow (by norm_num) (by norm_num)]
  ring

private theorem sumRep (n : ℕ) (m r : ℝ) : ((List.replicate n m).map (fun m => (10 : ℝ) ^ ((r - m) / 2.5))).sum =
    (10 : ℝ) ^ (0.4 * r) * ((n : ℝ) * (10 : ℝ) ^ (-0.4 * m)) := by
  rw [List.map_replicate, List.sum_replicate, nsmul_eq_mul, show (r - m) / 2.5 = 0.4 * r + -0.4 * m by ring, Real.rpow_add (by norm_num)]
  ring

/-- The sum is the total magnitude of the stars, whichever bin comes first. -/
theorem sumLuminosity_spec (lf : List (ℝ × ℕ)) (h : ∃ b ∈ lf, 0 < b.2) :
    sumLuminosity lf = TotalMag (lf.map (fun b => (b.1, (b.2 : ℝ)))) := by
  cases lf with
  | nil => simp at h
  | cons b rest =>
    have e : ((b :: rest).map (fun x => ((List.replicate x.2 x.1).map (fun m => (10 : ℝ) ^ ((b.1 - m) / 2.5))).sum)).sum =
        (10 : ℝ) ^ (0.4 * b.1) * Light ((b :: rest).map (fun b => (b.1, (b.2 : ℝ)))) := by
      unfold Light
      simp only [sumRep]
      rw [List.sum_map_mul_left, List.map_map]
      rfl
    have hpos : 0 < Light ((b :: rest).map (fun b => (b.1, (b.2 : ℝ)))) := by
      obtain ⟨c, hc, hc'⟩ := h
      unfold Light
      rw [List.map_map]
      have hnn : ∀ x ∈ (b :: rest).map ((fun x : ℝ × ℝ => x.2 * (10 : ℝ) ^ (-0.4 * x.1)) ∘ fun b : ℝ × ℕ => (b.1, (b.2 : ℝ))), 0 ≤ x := by
        intro x hx
        obtain ⟨y, _, rfl⟩ := List.mem_map.mp hx
        simp only [Function.comp]
        positivity
      have hle := List.single_le_sum hnn _ (List.mem_map.mpr ⟨c, hc, rfl⟩)
      refine lt_of_lt_of_le ?_ hle
      simp only [Function.comp]
      have : (0 : ℝ) < c.2 := by exact_mod_cast hc'
      positivity
    show b.1 - 2.5 * Real.logb 10 _ = _
    rw [e]
    unfold TotalMag
    rw [Real.logb_mul (Real.rpow_pos_of_pos (by norm_num) _).ne' hpos.ne', Real.logb_rpow (by norm_num) (by norm_num)]
    ring

example : sumLuminosity [(5, 1), (0, 100)] = TotalMag [(0, 100), (5, 1)] := by
  rw [sumLuminosity_spec _ ⟨(5, 1), by simp, by norm_num⟩]
  unfold TotalMag Light
  norm_num
  try rw [add_comm]

/-- The distance modulus of ten parsecs is zero; each factor of ten is five magnitudes. -/
theorem distMod_spec (d : ℝ) (h : 0 < d) : distMod (1 / 100000) = 0 ∧ distMod (10 * d) = distMod d + 5 := by
  constructor
  · unfold distMod
    rw [show (1 / 100000 : ℝ) * 1000000 = 10 by norm_num, Real.logb_self_eq_one (by norm_num)]
    norm_num
  · unfold distMod
    rw [show 10 * d * 1000000 = 10 * (d * 1000000) by ring, Real.logb_mul (by norm_num) (by positivity), Real.logb_self_eq_one (by norm_num)]
    ring

/-! ## The search for the limit -/

section
variable {K : Type*} [LinearOrder K]

private theorem search_inv (need : K) (draw : Nat → K × K) : ∀ (fuel k : Nat) (cur : K × K),
    k ≤ (search need draw fuel k cur).1 ∧ (search need draw fuel k cur).1 ≤ k + fuel ∧
      (∀ j, k ≤ j → j + 1 < (search need draw fuel k cur).1 → need < (draw j).1 ∧ need < (draw j).2) ∧
      ((search need draw fuel k cur).1 = k → (search need draw fuel k cur).2 = cur) ∧
      (k < (search need draw fuel k cur).1 → (search need draw fuel k cur).2 = draw ((search need draw fuel k cur).1 - 1) ∧ need < cur.1 ∧ need < cur.2) ∧
      ((search need draw fuel k cur).1 < k + fuel → ¬ (need < (search need draw fuel k cur).2.1 ∧ need < (search need draw fuel k cur).2.2)) := by
  intro fuel
  induction fuel with
  | zero => intro k cur; simp [search]; omega
  | succ fuel ih =>
    intro k cur
    by_cases h : need < cur.1 ∧ need < cur.2
    · have e : search need draw (fuel + 1) k cur = search need draw fuel (k + 1) (draw k) := by
        rw [search, if_pos h]
      rw [e]
      obtain ⟨h1, h2, h3, h4, h5, h6⟩ := ih (k + 1) (draw k)
      refine ⟨by omega, by omega, ?_, by omega, ?_, ?_⟩
      · intro j hj hj2
        rcases Nat.eq_or_lt_of_le hj with rfl | hlt
        · exact (h5 (by omega)).2
        · exact h3 j (by omega) hj2
      · intro _
        refine ⟨?_, h⟩
        rcases Nat.eq_or_lt_of_le h1 with he | hlt
        · rw [h4 he.symm, ← he, Nat.add_sub_cancel]
        · exact (h5 hlt).1
      · intro hh; exact h6 (by omega)
    · have e : search need draw (fuel + 1) k cur = (k, cur) := by
        rw [search, if_neg h]
      rw [e]
      simp only
      refine ⟨le_refl _, by omega, by omega, fun _ => trivial, by omega, fun _ => h⟩

variable [OfNat K 0] [OfNat K 1000000]

/-- The dwarf whose magnitude is returned is the first one that is not detected, or the
last; all brighter ones are detected in both bands, and there is one. -/
theorem limitDwarf_spec (need : K) (draw : Nat → K × K) (k : Nat) (f : String) (h : limitDwarf need draw = some (k, f)) :
    1 ≤ k ∧ k < 150 ∧ (∀ j < k, need < (draw j).1 ∧ need < (draw j).2) ∧
      (¬ (need < (draw k).1 ∧ need < (draw k).2) ∨ k = 149) ∧ (f = "g" ↔ (draw k).1 < (draw k).2) := by
  obtain ⟨h1, h2, h3, h4, h5, h6⟩ := search_inv need draw 150 0 ((1000000, 1000000) : K × K)
  unfold limitDwarf at h
  simp only at h
  split at h
  · rename_i hc
    have h' := Option.some.inj h
    have hk : (search need draw 150 0 ((1000000, 1000000) : K × K)).1 - 1 = k := congrArg Prod.fst h'
    have hf := congrArg Prod.snd h'
    simp only at hf
    have e := (h5 (by omega)).1
    rw [hk] at e
    rw [e] at hf h6
    refine ⟨by omega, by omega, fun j hj => h3 j (by omega) (by omega), ?_, ?_⟩
    · by_cases hl : k = 149
      · exact Or.inr hl
      · exact Or.inl (h6 (by omega))
    · rw [← hf]
      by_cases hg : (draw k).1 < (draw k).2
      · simp [hg]
      · simp [hg]
  · cases h

end

/-- There need not be a limit although dwarfs are detected: it is lost if no star of the
next one is seen. -/
theorem limitDwarf_exists_false : ¬ ∀ (need : Nat) (draw : Nat → Nat × Nat), (∃ k, (∀ j ≤ k, need < (draw j).1 ∧ need < (draw j).2) ∧ 1 ≤ k) →
    (limitDwarf need draw).isSome := by
  intro h
  exact absurd (h 5 (fun k => if k < 3 then (10, 10) else (0, 0)) ⟨2, by decide, by decide⟩) (by decide +kernel)

/-- If stars of every dwarf are seen there is one exactly if the first is detected and fewer
than a million stars are needed. -/
theorem limitDwarf_exists_partial (need : Nat) (draw : Nat → Nat × Nat) (h : ∀ k, 0 < (draw k).1 ∧ 0 < (draw k).2) :
    (limitDwarf need draw).isSome ↔ need < 1000000 ∧ need < (draw 0).1 ∧ need < (draw 0).2 := by
  obtain ⟨h1, h2, h3, h4, h5, h6⟩ := search_inv need draw 150 0 ((1000000, 1000000) : Nat × Nat)
  unfold limitDwarf
  simp only
  constructor
  · intro hs
    split at hs
    · rename_i hc
      obtain ⟨_, hn, _⟩ := h5 (by omega)
      exact ⟨hn, h3 0 (le_refl _) (by omega)⟩
    · cases hs
  · rintro ⟨hn, hd⟩
    have hlt : 1 < (search need draw 150 0 ((1000000, 1000000) : Nat × Nat)).1 := by
      by_contra hle
      rcases Nat.lt_or_ge 0 (search need draw 150 0 ((1000000, 1000000) : Nat × Nat)).1 with hp | hz
      · have he := (h5 hp).1
        have h1' : (search need draw 150 0 ((1000000, 1000000) : Nat × Nat)).1 - 1 = 0 := by omega
        rw [h1'] at he
        exact h6 (by omega) (by rw [he]; exact hd)
      · have he := h4 (by omega)
        exact h6 (by omega) (by rw [he]; exact ⟨hn, hn⟩)
    have he := (h5 (by omega)).1
    rw [he, if_pos ⟨hlt, h _⟩]
    rfl

example : limitDwarf 5 (fun k => (100 - 2 * k, 100 - k)) = some (48, "g") := by decide +kernel

/-! ## The number of stars that is needed -/

/-- The depth has no effect on the density of stars: it is always at the default limit. -/
theorem starDensity_default (lum : ℝ → ℝ) (limit : ℝ) : starDensity lum [("mag_limit", 25)] limit = .ok (lum 25) := by
  have : (setAttr [("mag_limit", (25 : ℝ))] "magLimit" limit).lookup "mag_limit" = some 25 := by
    simp only [setAttr]
    rfl
  unfold starDensity
  rw [this]

theorem starDensity_depth_false : ¬ ∀ (lum : ℝ → ℝ) (limit : ℝ), starDensity lum [("mag_limit", 25)] limit = .ok (lum limit) := by
  intro h
  have := h id 27
  rw [starDensity_default] at this
  injection this with this
  norm_num at this

/-- The number of stars needed: the square is that of the stars and wrong galaxies in a
square arcminute of the selected part of the diagram, times the square of the significance. -/
theorem starsRequired_spec (nsigma cmdFrac cont ngal nstar : ℝ) (h0 : 0 ≤ nsigma) (h1 : 0 ≤ cmdFrac) (h2 : 0 ≤ cont) (h3 : 10 ≤ ngal) (h4 : 0 ≤ nstar) :
    starsRequired nsigma cmdFrac cont ngal nstar ^ 2 = nsigma ^ 2 * (cmdFrac * (cont * (ngal / 60 ^ 2) + nstar * 60 ^ 2)) ∧
      0 ≤ starsRequired nsigma cmdFrac cont ngal nstar := by
  unfold starsRequired
  simp only [if_neg (not_lt.mpr h3)]
  have : 0 ≤ ngal / 3600 * cmdFrac * cont + nstar * 3600 * cmdFrac := by positivity
  refine ⟨?_, by positivity⟩
  rw [mul_pow, Real.sq_sqrt this]
  ring

/-- Where the counts of galaxies are missing more stars are needed than anywhere with at
most ten million galaxies in a square degree. -/
theorem starsRequired_missing (nsigma cmdFrac cont ngal g nstar : ℝ) (h0 : 0 ≤ nsigma) (h1 : 0 ≤ cmdFrac) (h2 : 0 ≤ cont) (h3 : ngal < 10)
    (h4 : 10 ≤ g) (h5 : g ≤ 10000000) :
    starsRequired nsigma cmdFrac cont g nstar ≤ starsRequired nsigma cmdFrac cont ngal nstar := by
  unfold starsRequired
  simp only [if_neg (not_lt.mpr h4), if_pos h3]
  gcongr

/-- A number for the limit of the distance is an exception, and the unit of a quantity is
not used. -/
theorem distValue_spec (v u point : ℝ) :
    distValue (some (.num v)) point = .error .attribute ∧ distValue (some (.quantity v u)) point = .ok v ∧ distValue none point = .ok point :=
  ⟨rfl, rfl, rfl⟩

theorem distValue_documented_false : ¬ ∀ (v point : ℝ), distValue (some (.num v)) point = .ok v := by
  intro h
  have := h 4 0
  simp [distValue] at this

theorem distValue_unit_false : ¬ ∀ (v u point : ℝ), distValue (some (.quantity v u)) point = .ok (v * u) := by
  intro h
  have := h 4000 (1 / 1000) 0
  simp only [distValue] at this
  injection this with this
  norm_num at this

theorem distValue_partial (v point : ℝ) : distValue (some (.quantity v 1)) point = .ok (v * 1) := by
  rw [mul_one]; rfl

/-! ## Counts of galaxies -/

/-- With the correction every galaxy has the magnitude in i that goes with colours of 0.4
between neighbouring bands. -/
theorem bandCorrection_colors (i : ℝ) :
    (i + 1.2) + bandCorrection "u" = i ∧ (i + 0.8) + bandCorrection "g" = i ∧ (i + 0.4) + bandCorrection "r" = i ∧
      i + bandCorrection "i" = i ∧ (i - 0.4) + bandCorrection "z" = i ∧ (i - 0.8) + bandCorrection "y" = i := by
  refine ⟨?_, ?_, ?_, ?_, ?_, ?_⟩ <;> simp [bandCorrection] <;> ring

/-- All redshifts together are the sum over the bins. -/
theorem galCount_all (laws : List (String × ℝ × ℝ)) (hn : (laws.map Prod.fst).Nodup) (ha : "all" ∉ laws.map Prod.fst) (band : String) (c mag : ℝ) :
    (galCount laws false "all" band c mag).2 = ((laws.map Prod.fst).map (fun b => (galCount laws false b band c mag).2)).sum := by
  have hl : ∀ l ∈ laws, laws.lookup l.1 = some l.2 := by
    clear ha
    intro l hl
    induction laws with
    | nil => cases hl
    | cons x xs ih =>
      rw [List.map_cons, List.nodup_cons] at hn
      rcases List.mem_cons.mp hl with rfl | hm
      · simp [List.lookup]
      · have : l.1 ≠ x.1 := by
          intro e
          exact hn.1 (e ▸ List.mem_map.mpr ⟨l, hm, rfl⟩)
        have hb : (l.1 == x.1) = false := by simpa using this
        rw [List.lookup_cons, hb, ih hn.2 hm]
  rw [List.map_map]
  have e : ∀ l ∈ laws, ((fun b => (galCount laws false b band c mag).2) ∘ Prod.fst) l =
      (10 : ℝ) ^ (l.2.1 * (mag + bandCorrection band) + l.2.2) * c := by
    intro l hm
    have hne : l.1 ≠ "all" := fun e => ha (e ▸ List.mem_map.mpr ⟨l, hm, rfl⟩)
    have h1 : ¬ (l.1 ≠ "all" ∧ laws.lookup l.1 = none) := by rw [hl l hm]; simp
    simp only [Function.comp, galCount]
    rw [if_neg h1, if_neg hne, hl l hm, Option.getD_some]
  rw [List.map_congr_left e, List.sum_map_mul_right]
  simp [galCount]

/-- An unknown redshift bin is all redshifts. -/
theorem galCount_unknown (laws : List (String × ℝ × ℝ)) (cfht : Bool) (bin band : String) (c mag : ℝ) (h : laws.lookup bin = none) :
    galCount laws cfht bin band c mag = galCount laws cfht "all" band c mag ∧ (galCount laws cfht bin band c mag).1 = "all" := by
  by_cases e : bin = "all"
  · subst e; simp [galCount]
  · simp [galCount, h, e]

/-- The power law of the book: 46 galaxies per square arcminute and magnitude at i = 25. -/
theorem galCount_cfht (laws : List (String × ℝ × ℝ)) (c : ℝ) : (galCount laws true "all" "i" c 25).2 = 46 * 60 ^ 2 * c := by
  simp [galCount, bandCorrection]
  norm_num

/-- The total is nothing, or at least one galaxy in a square degree. -/
theorem galTotal_spec (norm scale coadd integral : ℝ) :
    galTotal norm scale coadd integral = 0 ∨ 1 ≤ coadd ∧ 1 ≤ norm * integral ∧ galTotal norm scale coadd integral = norm * integral * scale := by
  unfold galTotal
  by_cases h1 : coadd < 1
  · simp [h1]
  · by_cases h2 : norm * integral < 1
    · simp [h1, h2]
    · right
      simp [h1, h2]
      exact ⟨not_lt.mp h1, not_lt.mp h2⟩

/-- So the totals of the bins do not add up. -/
theorem galTotal_bins_false : ¬ ∀ (norm scale coadd a b : ℝ), galTotal norm scale coadd (a + b) = galTotal norm scale coadd a + galTotal norm scale coadd b := by
  intro h
  have := h 1 1 25 (3 / 4) (3 / 4)
  norm_num [galTotal] at this

theorem galTotal_bins_partial (norm scale coadd a b : ℝ) (ha : 1 ≤ norm * a) (hb : 1 ≤ norm * b) :
    galTotal norm scale coadd (a + b) = galTotal norm scale coadd a + galTotal norm scale coadd b := by
  unfold galTotal
  have : ¬ norm * (a + b) < 1 := by rw [mul_add]; linarith
  simp only [if_neg (not_lt.mpr ha), if_neg (not_lt.mpr hb), if_neg this]
  split
  · ring
  · ring

example : (galCount [("a", 0, 0), ("b", 0, 1)] false "all" "i" 1 20).2 = 11 := by
  simp [galCount]; norm_num

/-! ## Colours of stars -/

/-- The magnitudes have the colours of the table, with the magnitude in r as it was given;
other types are an exception. -/
theorem stellarMags_spec (t : List Row) (type : String) (rmag : ℚ) (out : List (String × ℚ)) (h : stellarMags t type rmag = .ok out) :
    ∃ c ∈ t, c.name = type ∧ ∃ u g i z y, out.lookup "u" = some u ∧ out.lookup "g" = some g ∧ out.lookup "r" = some rmag ∧ out.lookup "i" = some i ∧
      out.lookup "z" = some z ∧ out.lookup "y" = some y ∧ u - g = c.ug ∧ g - rmag = c.gr ∧ rmag - i = c.ri ∧ i - z = c.iz ∧ z - y = c.zy := by
  unfold stellarMags at h
  split at h
  · cases h
  · rename_i c hc
    cases h
    refine ⟨c, List.mem_of_find?_eq_some hc, by simpa using List.find?_some hc, _, _, _, _, _, rfl, rfl, rfl, rfl, rfl, rfl, ?_, ?_, ?_, ?_, ?_⟩ <;> ring

theorem stellarMags_known (type : String) (rmag : ℚ) :
    (∃ out, stellarMags table type rmag = .ok out) ↔
      type ∈ ["O", "B", "A", "F", "G", "K", "M", "HeWD_25200_80", "WD_11000_85", "WD_3000_85"] := by
  have : (∃ out, stellarMags table type rmag = .ok out) ↔ (table.find? (fun r => r.name == type)).isSome := by
    unfold stellarMags
    cases table.find? (fun r => r.name == type) with
    | none => simp
    | some c => simp
  rw [this, List.find?_isSome]
  have hnames : table.map Row.name = ["O", "B", "A", "F", "G", "K", "M", "HeWD_25200_80", "WD_11000_85", "WD_3000_85"] := rfl
  rw [← hnames, List.mem_map]
  simp only [beq_iff_eq]

/-- From O to M each of the first four colours is redder than the one before. -/
theorem table_redder : (table.take 7).Pairwise (fun a b => a.ug < b.ug ∧ a.gr < b.gr ∧ a.ri < b.ri ∧ a.iz < b.iz) := by
  decide +kernel

example : (match stellarMags table "G" 19 with | .ok o => o.lookup "g" | .error _ => none) = some 19.3915608688 := by decide +kernel

end Verif.Dwarf
