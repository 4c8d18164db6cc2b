import Mathlib.Tactic.Linarith
import Mathlib.Tactic.FieldSimp
import Mathlib.Tactic.Ring
import Mathlib.Tactic.NormNum
import Verif.Model.TwiSpec

/-!
# Properties of spectra of twilight (C606, C607)
-/

namespace Verif.TwiSpec

variable {K : Type*} [Field K] [LinearOrder K] [IsStrictOrderedRing K]

/-! ## The ratio to the spectrum of the sun (C606) -/

omit [IsStrictOrderedRing K] in
theorem inside_between (pre : List (K × K)) (a b : K × K) (l : List (K × K))
    (hs : (pre ++ a :: b :: l).Pairwise (fun p q => p.1 < q.1)) (x : K) (hx : a.1 < x) (hx' : x ≤ b.1) :
    inside (pre ++ a :: b :: l) x = line a b x := by
  induction pre with
  | nil => simp [inside, hx']
  | cons c pre ih =>
    rw [List.cons_append, List.pairwise_cons] at hs
    have ih := ih hs.2
    cases pre with
    | nil => simpa [inside, not_le.mpr hx] using ih
    | cons d pre =>
      have hd : d.1 < a.1 := by
        have h := hs.2
        rw [List.cons_append, List.pairwise_cons] at h
        exact h.1 a (by simp)
      have : ¬ x ≤ d.1 := not_le.mpr (hd.trans hx)
      simpa [inside, this] using ih

omit [Field K] [IsStrictOrderedRing K] in
theorem le_last (l : List (K × K)) (a z : K × K) (hs : (a :: l).Pairwise (fun p q => p.1 < q.1))
    (hz : (a :: l).getLast? = some z) : ∀ q ∈ a :: l, q.1 ≤ z.1 := by
  induction l generalizing a with
  | nil =>
    simp at hz
    simp [hz]
  | cons b l ih =>
    rw [List.pairwise_cons] at hs
    rw [List.getLast?_cons_cons] at hz
    have := ih b hs.2 hz
    intro q hq
    rcases List.mem_cons.mp hq with rfl | hq
    · exact (le_of_lt (hs.1 b (by simp))).trans (this b (by simp))
    · exact this q hq

omit [IsStrictOrderedRing K] in
/-- Between neighbouring effective wavelengths the ratio is on the line between the two, with both ends. -/
theorem ratio_between (pre : List (K × K)) (a b : K × K) (l : List (K × K))
    (hs : (pre ++ a :: b :: l).Pairwise (fun p q => p.1 < q.1)) (x : K) (hx : a.1 ≤ x) (hx' : x ≤ b.1) :
    (ratio (pre ++ a :: b :: l) x - a.2) * (b.1 - a.1) = (x - a.1) * (b.2 - a.2) := by
  have hab : a.1 < b.1 := by
    have := (List.pairwise_append.mp hs).2.1
    rw [List.pairwise_cons] at this
    exact this.1 b (by simp)
  have hne : b.1 - a.1 ≠ 0 := sub_ne_zero.mpr (ne_of_gt hab)
  have hline : ∀ y, (line a b y - a.2) * (b.1 - a.1) = (y - a.1) * (b.2 - a.2) := by
    intro y
    unfold line
    field_simp
    ring
  obtain ⟨c, l', hl⟩ : ∃ c l', pre ++ a :: b :: l = c :: l' := by
    cases pre with
    | nil => exact ⟨_, _, rfl⟩
    | cons c pre => exact ⟨_, _, rfl⟩
  have hc : c.1 ≤ a.1 := by
    have hm : a ∈ c :: l' := by rw [← hl]; simp
    rw [hl, List.pairwise_cons] at hs
    rcases List.mem_cons.mp hm with h | h
    · rw [h]
    · exact le_of_lt (hs.1 a h)
  obtain ⟨z, hz⟩ : ∃ z, (c :: l').getLast? = some z := ⟨_, List.getLast?_eq_some_getLast (by simp)⟩
  have hbz : b.1 ≤ z.1 := le_last l' c z (hl ▸ hs) hz b (by rw [← hl]; simp)
  have h1 : ratio (pre ++ a :: b :: l) x = inside (pre ++ a :: b :: l) x := by
    unfold ratio interp1d
    rw [hl, hz]
    have e1 : ¬ x < c.1 := not_lt.mpr (hc.trans hx)
    have e2 : ¬ z.1 < x := not_lt.mpr (hx'.trans hbz)
    simp [e1, e2]
  rw [h1]
  rcases lt_or_eq_of_le hx with hlt | heq
  · rw [inside_between pre a b l hs x hlt hx']
    exact hline x
  · subst heq
    rcases List.eq_nil_or_concat pre with rfl | ⟨pre', d, rfl⟩
    · simp only [List.nil_append, inside, if_pos hx']
      exact hline _
    · have hs' : (pre' ++ d :: a :: (b :: l)).Pairwise (fun p q => p.1 < q.1) := by simpa using hs
      have hda : d.1 < a.1 := by
        have := (List.pairwise_append.mp hs').2.1
        rw [List.pairwise_cons] at this
        exact this.1 a (by simp)
      have := inside_between pre' d a (b :: l) hs' a.1 hda le_rfl
      have e : pre'.concat d ++ a :: b :: l = pre' ++ d :: a :: (b :: l) := by simp
      rw [e, this]
      unfold line
      have : a.1 - d.1 ≠ 0 := sub_ne_zero.mpr (ne_of_gt hda)
      field_simp
      ring

omit [IsStrictOrderedRing K] in
/-- Redder than all effective wavelengths the ratio is that of the reddest filter. -/
theorem ratio_red (ks : List (K × K)) (z : K × K) (hs : (ks ++ [z]).Pairwise (fun p q => p.1 < q.1)) (x : K)
    (hx : z.1 < x) : ratio (ks ++ [z]) x = z.2 := by
  obtain ⟨c, l', hl⟩ : ∃ c l', ks ++ [z] = c :: l' := by
    cases ks with
    | nil => exact ⟨_, _, rfl⟩
    | cons c pre => exact ⟨_, _, rfl⟩
  have hz : (c :: l').getLast? = some z := by rw [← hl]; simp
  have hc : c.1 ≤ z.1 := le_last l' c z (hl ▸ hs) hz c (by simp)
  have e1 : ¬ x < c.1 := not_lt.mpr (hc.trans (le_of_lt hx))
  unfold ratio interp1d
  rw [hl, hz]
  simp [e1, hx]

omit [IsStrictOrderedRing K] in
/-- Bluer than all effective wavelengths the ratio goes on along the line of the first two. -/
theorem ratio_blue (a b : K × K) (l : List (K × K)) (hab : a.1 < b.1) (x : K) (hx : x < a.1) :
    (ratio (a :: b :: l) x - a.2) * (b.1 - a.1) = (x - a.1) * (b.2 - a.2) := by
  have hne : b.1 - a.1 ≠ 0 := sub_ne_zero.mpr (ne_of_gt hab)
  have : ratio (a :: b :: l) x = line a b x := by simp [ratio, blue, hx]
  rw [this]
  unfold line
  field_simp
  ring

/-- The ratio at a bluer wavelength is negative exactly if the line of the first two is below zero there, also with
positive ratios in all filters. -/
theorem blue_negative (a b : K × K) (l : List (K × K)) (hab : a.1 < b.1) (x : K) (hx : x < a.1) :
    ratio (a :: b :: l) x < 0 ↔ a.2 * (b.1 - a.1) < (a.1 - x) * (b.2 - a.2) := by
  have h := ratio_blue a b l hab x hx
  have hp : 0 < b.1 - a.1 := sub_pos.mpr hab
  have h' : ratio (a :: b :: l) x * (b.1 - a.1) = a.2 * (b.1 - a.1) - (a.1 - x) * (b.2 - a.2) := by linarith
  constructor
  · intro hn
    have := mul_neg_of_neg_of_pos hn hp
    linarith
  · intro hn
    by_contra hc
    have := mul_nonneg (not_lt.mp hc) (le_of_lt hp)
    linarith

/-- That spectra of twilight are not negative is false: bluer than the filters. -/
theorem nonneg_false : ¬ ∀ (ks : List (ℚ × ℚ)) (x : ℚ), ks.Pairwise (fun p q => p.1 < q.1) → (∀ k ∈ ks, 0 < k.2) →
    0 ≤ ratio ks x := by
  intro h
  have := h [(450, 1), (550, 3), (650, 3)] 350 (by decide +kernel) (by decide +kernel)
  revert this
  decide +kernel

/-! ## Spectra of points (C607) -/

omit [Field K] [LinearOrder K] [IsStrictOrderedRing K] in
theorem fold_set (pts : List (P K)) (g : P K → List K) (idx : List Nat) (r : List (List K)) (j : Nat) :
    (idx.foldl (setRow pts g) r)[j]? =
      if j ∈ idx ∧ j < pts.length ∧ j < r.length then pts[j]?.map g else r[j]? := by
  induction idx generalizing r with
  | nil => simp
  | cons i idx ih =>
    rw [List.foldl_cons, ih]
    unfold setRow
    by_cases hi : i < pts.length
    · rw [List.getElem?_eq_getElem hi]
      simp only [List.length_set, List.mem_cons, List.getElem?_set]
      by_cases hij : i = j
      · subst hij
        by_cases hr : i < r.length
        · simp [hi, hr]
        · simp [hr]
      · have : ¬ j = i := fun h => hij h.symm
        simp [hij, this]
    · rw [List.getElem?_eq_none (not_lt.mp hi)]
      simp only [List.mem_cons]
      by_cases hij : j = i
      · subst hij
        simp [hi]
      · simp [hij]

omit [IsStrictOrderedRing K] in
/-- Each point with the sun between the limits and an airmass from one to the largest has the spectrum of the sun times
its own ratio, all others have zeros, in the order of points. -/
theorem spec_points (lo hi maxAm : K) (fs : List (F K)) (sun : List (K × K)) (pts : List (P K))
    (hp : ∀ p ∈ pts, p.sun ≤ hi) :
    interpSpec lo hi maxAm fs sun pts = some (pts.map (fun p =>
      if lo ≤ p.sun ∧ 1 ≤ p.am ∧ p.am ≤ maxAm then
        sun.map (fun s => s.2 * ratio (fs.map (fun f => (f.wave, f.flux p / f.solar))) s.1)
      else sun.map (fun _ => 0))) := by
  unfold interpSpec
  have hany : pts.any (fun p => decide (hi < p.sun)) = false := by
    rw [List.any_eq_false]
    intro p h
    simpa using hp p h
  rw [hany]
  simp only [Bool.false_and, Bool.false_eq_true, if_false, Option.some.injEq]
  apply List.ext_getElem?
  intro j
  rw [fold_set pts (fun p => sun.map (fun s => s.2 * ratio (knots fs p) s.1)), List.getElem?_map]
  by_cases hj : j < pts.length
  · have hm : pts[j] ∈ pts := List.getElem_mem hj
    have hs := hp _ hm
    simp only [List.mem_filter, List.mem_range, List.length_replicate, hj, List.getElem?_eq_getElem, Option.map_some,
      Option.getD_some, true_and, and_true]
    by_cases hg : goodP lo hi maxAm pts[j] = true
    · have hc : lo ≤ pts[j].sun ∧ 1 ≤ pts[j].am ∧ pts[j].am ≤ maxAm := by
        simp only [goodP, Bool.and_eq_true, decide_eq_true_eq] at hg
        exact ⟨hg.1.1.1, hg.2, hg.1.2⟩
      rw [if_pos hg, if_pos hc]
      rfl
    · have hc : ¬ (lo ≤ pts[j].sun ∧ 1 ≤ pts[j].am ∧ pts[j].am ≤ maxAm) := by
        intro hc
        apply hg
        simp only [goodP, Bool.and_eq_true, decide_eq_true_eq]
        exact ⟨⟨⟨hc.1, hs⟩, hc.2.2⟩, hc.2.1⟩
      rw [if_neg hg, if_neg hc]
      simp
  · simp [hj]

omit [IsStrictOrderedRing K] in
/-- With the sun above the limit at one point, there is an exception for all. -/
theorem high_sun (lo hi maxAm : K) (fs : List (F K)) (sun : List (K × K)) (pts : List (P K)) (p : P K) (hp : p ∈ pts)
    (hs : hi < p.sun) (hf : fs ≠ []) : interpSpec lo hi maxAm fs sun pts = none := by
  unfold interpSpec
  have hany : pts.any (fun p => decide (hi < p.sun)) = true := by
    rw [List.any_eq_true]
    exact ⟨p, hp, by simpa using hs⟩
  have : 0 < fs.length := List.length_pos_of_ne_nil hf
  simp [hany, this]

/-- That the spectrum of a point depends on it alone is false: a second point can make it an exception. -/
theorem alone_false : ¬ ∀ (fs : List (F ℚ)) (sun : List (ℚ × ℚ)) (p q : P ℚ) (s : List ℚ),
    interpSpec (-20) 15 3 fs sun [p] = some [s] → ∃ t, interpSpec (-20) 15 3 fs sun [p, q] = some [s, t] := by
  intro h
  obtain ⟨t, ht⟩ := h [⟨450, fun _ => 1, 1⟩, ⟨550, fun _ => 3, 1⟩] [(500, 2)] ⟨-12, 1, 0⟩ ⟨16, 1, 0⟩ [4] (by decide +kernel)
  rw [high_sun (-20) 15 3 _ _ _ ⟨16, 1, 0⟩ (by simp) (by norm_num) (by simp)] at ht
  cases ht

/-- Three points, one too low. -/
example : interpSpec (-20) 15 3 [⟨450, fun _ => 1, 1⟩, ⟨550, fun p => p.am, 1⟩] [(500, 2), (600, 1)]
    [⟨-12, 1, 0⟩, ⟨-12, 4, 0⟩, ⟨-12, 3, 0⟩] = some [[(2 : ℚ), 1], [0, 0], [4, 3]] := by decide +kernel

end Verif.TwiSpec
