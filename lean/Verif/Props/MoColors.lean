import Mathlib.Algebra.Order.BigOperators.Group.List
import Mathlib.Algebra.Order.AbsoluteValue.Basic
import Verif.Props.MoCounts

/-! # C105 to C109: colours, light curves and earlier discovery of a moving object -/

namespace Verif.Mo

open Verif.Np

variable {K : Type*}

/-! ## C105: colours of asteroids -/

/-- The flag as a function of the six bands. -/
def flag6 (u g r i z y : Bool) : Nat :=
  if u && g && r && i && z && y then 4
  else if g && r && i && z && y then 3
  else if g.toNat + r.toNat + i.toNat + z.toNat + y.toNat = 4 then 2
  else if g && (r || i) && (z || y) then 1
  else 0

theorem colorFlag_eq (has : String → Bool) :
    colorFlag has = flag6 (has "u") (has "g") (has "r") (has "i") (has "z") (has "y") := by
  unfold colorFlag
  cases hu : has "u" <;> cases hg : has "g" <;> cases hr : has "r" <;> cases hi : has "i" <;> cases hz : has "z" <;>
    cases hy : has "y" <;> simp [List.filter, hu, hg, hr, hi, hz, hy, flag6]

/-- The documented meaning of the flags. -/
theorem colorFlag_spec (has : String → Bool) :
    (colorFlag has = 4 ↔ ∀ f ∈ ["u", "g", "r", "i", "z", "y"], has f = true) ∧
    (colorFlag has = 3 ↔ has "u" = false ∧ ∀ f ∈ ["g", "r", "i", "z", "y"], has f = true) ∧
    (colorFlag has = 2 ↔ ∃ f ∈ ["g", "r", "i", "z", "y"], has f = false ∧ ∀ f' ∈ ["g", "r", "i", "z", "y"], f' ≠ f → has f' = true) ∧
    (1 ≤ colorFlag has ↔ (has "g" = true ∧ (has "r" = true ∨ has "i" = true) ∧ (has "z" = true ∨ has "y" = true)) ∨
      (has "g" = false ∧ has "r" = true ∧ has "i" = true ∧ has "z" = true ∧ has "y" = true)) ∧
    colorFlag has ≤ 4 := by
  rw [colorFlag_eq]
  simp only [List.mem_cons, List.not_mem_nil, or_false, forall_eq_or_imp, forall_eq, exists_eq_or_imp,
    exists_eq_left, ne_eq, not_true_eq_false, false_implies, true_and, String.reduceEq, not_false_eq_true, true_implies, and_true]
  generalize has "u" = u
  generalize has "g" = g
  generalize has "r" = r
  generalize has "i" = i
  generalize has "z" = z
  generalize has "y" = y
  cases u <;> cases g <;> cases r <;> cases i <;> cases z <;> cases y <;> decide

/-- A band more never lowers the flag. -/
theorem colorFlag_mono (has has' : String → Bool) (h : ∀ f, has f = true → has' f = true) : colorFlag has ≤ colorFlag has' := by
  rw [colorFlag_eq, colorFlag_eq]
  have hu := h "u"
  have hg := h "g"
  have hr := h "r"
  have hi := h "i"
  have hz := h "z"
  have hy := h "y"
  clear h
  generalize has "u" = u at *
  generalize has "g" = g at *
  generalize has "r" = r at *
  generalize has "i" = i at *
  generalize has "z" = z at *
  generalize has "y" = y at *
  generalize has' "u" = u' at *
  generalize has' "g" = g' at *
  generalize has' "r" = r' at *
  generalize has' "i" = i' at *
  generalize has' "z" = z' at *
  generalize has' "y" = y' at *
  revert u u' g g' r r' i i' z z' y y'
  decide +kernel

section Weights
variable [Field K] [LinearOrder K] [IsStrictOrderedRing K]

theorem clipSnr_nonneg (snrMax : K) (limit : Option K) (o : Obs K) (hm : 0 < snrMax) (ho : 0 ≤ o.snr) :
    0 ≤ clipSnr snrMax limit o := by
  unfold clipSnr
  cases limit <;> dsimp only <;> split_ifs <;> first | exact le_rfl | exact le_min ho hm.le

theorem clipSnr_le (snrMax : K) (limit : Option K) (o : Obs K) (hm : 0 < snrMax) :
    clipSnr snrMax limit o ≤ snrMax := by
  unfold clipSnr
  cases limit <;> dsimp only <;> split_ifs <;> first | exact hm.le | exact min_le_right _ _

/-- An observation weighs at most one: a band counts only with more observations above the
limit than `weight_det`. -/
theorem snrWeight_le (snrMax : K) (limit : Option K) (f : String) (l : List (Obs K)) (hm : 0 < snrMax) :
    snrWeight snrMax limit f l ≤
      ((l.filter (fun o => decide (o.band = f) && decide (0 < clipSnr snrMax limit o))).length : K) := by
  unfold snrWeight
  rw [div_le_iff₀ hm]
  induction l with
  | nil => simp
  | cons o l ih =>
    rw [List.filter_cons, List.filter_cons]
    by_cases hb : o.band = f
    · simp only [hb, decide_true, if_true, Bool.true_and, decide_eq_true_eq, List.map_cons, List.sum_cons]
      by_cases hc : 0 < clipSnr snrMax limit o
      · rw [if_pos hc, List.length_cons]
        have := clipSnr_le snrMax limit o hm
        push_cast
        linarith
      · rw [if_neg hc]
        linarith [not_lt.mp hc]
    · simpa [hb] using ih

theorem snrWeight_mono (snrMax : K) (limit : Option K) (f : String) (l l' : List (Obs K)) (hm : 0 < snrMax)
    (hsub : l.Sublist l') (hs : ∀ o ∈ l', 0 ≤ o.snr) : snrWeight snrMax limit f l ≤ snrWeight snrMax limit f l' := by
  unfold snrWeight
  apply div_le_div_of_nonneg_right _ hm.le
  apply List.Sublist.sum_le_sum ((hsub.filter _).map _)
  intro x hx
  obtain ⟨o, ho, rfl⟩ := List.mem_map.mp hx
  exact clipSnr_nonneg snrMax limit o hm (hs o (List.mem_of_mem_filter ho))

/-- More observations never lower the flag. -/
theorem colorAsteroid_mono (weight snrMax : K) (limit : Option K) (l l' : List (Obs K)) (hm : 0 < snrMax)
    (hsub : l.Sublist l') (hs : ∀ o ∈ l', 0 ≤ o.snr) :
    colorAsteroid weight snrMax 0 limit l ≤ colorAsteroid weight snrMax 0 limit l' := by
  unfold colorAsteroid
  split_ifs with h1 h2 h2
  · exact le_rfl
  · exact Nat.zero_le _
  · exfalso
    exact h1 (Nat.le_zero.mp (h2 ▸ (hsub.filter _).length_le))
  · apply colorFlag_mono
    intro f hf
    simp only [decide_eq_true_eq] at hf ⊢
    exact lt_of_lt_of_le hf (snrWeight_mono snrMax limit f l l' hm hsub hs)

/-- A flag needs more observations than `weight_det` in at least three bands. -/
theorem colorAsteroid_needs (weight snrMax : K) (limit : Option K) (l : List (Obs K)) (hm : 0 < snrMax)
    (h : 1 ≤ colorAsteroid weight snrMax 0 limit l) :
    ∃ a b c : String, a ≠ b ∧ b ≠ c ∧ a ≠ c ∧ ∀ f ∈ [a, b, c],
      weight < ((l.filter (fun o => decide (o.band = f) && decide (0 < clipSnr snrMax limit o))).length : K) := by
  unfold colorAsteroid at h
  split_ifs at h with h1
  · exact absurd h (by decide)
  rw [(colorFlag_spec _).2.2.2.1] at h
  simp only [decide_eq_true_eq] at h
  have w : ∀ f, weight < snrWeight snrMax limit f l →
      weight < ((l.filter (fun o => decide (o.band = f) && decide (0 < clipSnr snrMax limit o))).length : K) :=
    fun f hf => lt_of_lt_of_le hf (snrWeight_le snrMax limit f l hm)
  rcases h with ⟨hg, h2 | h2, h3 | h3⟩ | ⟨_, h2, h3, h4, _⟩
  · exact ⟨"g", "r", "z", by decide, by decide, by decide, by simpa using ⟨w _ hg, w _ h2, w _ h3⟩⟩
  · exact ⟨"g", "r", "y", by decide, by decide, by decide, by simpa using ⟨w _ hg, w _ h2, w _ h3⟩⟩
  · exact ⟨"g", "i", "z", by decide, by decide, by decide, by simpa using ⟨w _ hg, w _ h2, w _ h3⟩⟩
  · exact ⟨"g", "i", "y", by decide, by decide, by decide, by simpa using ⟨w _ hg, w _ h2, w _ h3⟩⟩
  · exact ⟨"r", "i", "z", by decide, by decide, by decide, by simpa using ⟨w _ h2, w _ h3, w _ h4⟩⟩

end Weights

/-- Observations for the examples. -/
def o3 (mjd snr : ℚ) (band : String) : Obs ℚ :=
  { mjd, night := 1, snr, vis := 1, band, velocity := 0, seeing := 1, expTime := 30, ecLon := 0, phase := 0, elong := 180, magV := 20 }

example : colorAsteroid (1 : ℚ) 20 0 none
      ([o3 1 20 "g", o3 2 10 "g", o3 3 20 "i", o3 4 30 "i", o3 5 25 "y", o3 6 25 "y", o3 7 8 "r"]) = 1 ∧
    colorAsteroid (1 : ℚ) 20 0 none [o3 1 20 "g", o3 2 10 "g", o3 3 20 "i"] = 0 := by decide +kernel

/-! ## C106: light curves and colours of outer objects -/

section Lightcurve
variable [Field K] [LinearOrder K]

theorem flag_mono (L C L' C' : List String) (hL : L.Nodup) (hL' : ∀ f ∈ L, f ∈ L') (hC' : ∀ f ∈ C, f ∈ C') :
    (if 0 < (C.filter (fun f => decide (f ∉ L))).length then (if L.length = 0 then 0 else L.length + 1) else L.length) ≤
    (if 0 < (C'.filter (fun f => decide (f ∉ L'))).length then (if L'.length = 0 then 0 else L'.length + 1) else L'.length) := by
  have hle : L.length ≤ L'.length := (hL.subperm hL').length_le
  have hge : L'.length ≤ (if 0 < (C'.filter (fun f => decide (f ∉ L'))).length then (if L'.length = 0 then 0 else L'.length + 1)
      else L'.length) := by split_ifs <;> omega
  by_cases h1 : 0 < (C.filter (fun f => decide (f ∉ L))).length
  · rw [if_pos h1]
    by_cases h2 : L.length = 0
    · rw [if_pos h2]
      exact Nat.zero_le _
    · rw [if_neg h2]
      obtain ⟨f, hf⟩ := List.exists_mem_of_length_pos h1
      obtain ⟨hfC, hfL⟩ := List.mem_filter.mp hf
      simp only [decide_eq_true_eq] at hfL
      by_cases hfL' : f ∈ L'
      · refine le_trans ?_ hge
        have hnd : (f :: L).Nodup := List.nodup_cons.mpr ⟨hfL, hL⟩
        have := (hnd.subperm (l₂ := L') (by
          intro g hg
          rcases List.mem_cons.mp hg with rfl | hg
          · exact hfL'
          · exact hL' g hg)).length_le
        simpa using this
      · rw [if_pos (List.length_pos_of_mem (List.mem_filter.mpr ⟨hC' f hfC, by simpa using hfL'⟩)), if_neg (by omega)]
        omega
  · rw [if_neg h1]
    exact le_trans hle hge

theorem lightcurveColor_of_vis (numReq numSec : Nat) (bands : List String) (limit : Option K) (l l' : List (Obs K))
    (limit' : Option K) (h : (vis limit l).Sublist (vis limit' l')) :
    lightcurveColor numReq numSec bands limit l ≤ lightcurveColor numReq numSec bands limit' l' := by
  unfold lightcurveColor
  by_cases h0 : (vis limit l).length = 0
  · simp only [h0, if_true]
    exact Nat.zero_le _
  · have h0' : ¬ (vis limit' l').length = 0 := by have := h.length_le; omega
    simp only [h0, h0', if_false]
    have hn : ∀ f, ((vis limit l).filter (fun o => decide (o.band = f))).length ≤
        ((vis limit' l').filter (fun o => decide (o.band = f))).length := fun f => (h.filter _).length_le
    apply flag_mono _ _ _ _ (List.nodup_dedup _)
    · intro f hf
      rw [List.mem_dedup, List.mem_filter] at hf ⊢
      exact ⟨hf.1, by have := hn f; have := hf.2; simp only [decide_eq_true_eq] at *; omega⟩
    · intro f hf
      rw [List.mem_dedup, List.mem_filter] at hf ⊢
      exact ⟨hf.1, by have := hn f; have := hf.2; simp only [decide_eq_true_eq] at *; omega⟩

/-- More observations, or a lower limit, never lower the flag. -/
theorem lightcurveColor_mono (numReq numSec : Nat) (bands : List String) (limit : Option K) (l l' : List (Obs K)) (h : l.Sublist l') :
    lightcurveColor numReq numSec bands limit l ≤ lightcurveColor numReq numSec bands limit l' :=
  lightcurveColor_of_vis _ _ _ _ _ _ _ (h.filter _)

theorem lightcurveColor_limit (numReq numSec : Nat) (bands : List String) (l : List (Obs K)) {s s' : K} (h : s ≤ s') :
    lightcurveColor numReq numSec bands (some s') l ≤ lightcurveColor numReq numSec bands (some s) l :=
  lightcurveColor_of_vis _ _ _ _ _ _ _ (vis_limit_mono l h)

/-- The flag is the number of bands with a light curve, and one more when there is such a
band and another band has a colour only. -/
theorem lightcurveColor_spec (numReq numSec : Nat) (bands : List String) (hb : bands.Nodup) (hr : 0 < numReq) (hsec : 0 < numSec)
    (limit : Option K) (l : List (Obs K)) :
    lightcurveColor numReq numSec bands limit l =
      bands.countP (fun f => decide (numReq ≤ (vis limit l).countP (fun o => decide (o.band = f)))) +
      (if (∃ f ∈ bands, numReq ≤ (vis limit l).countP (fun o => decide (o.band = f))) ∧
          (∃ f ∈ bands, numSec ≤ (vis limit l).countP (fun o => decide (o.band = f)) ∧
            (vis limit l).countP (fun o => decide (o.band = f)) < numReq) then 1 else 0) := by
  unfold lightcurveColor
  simp only [← List.countP_eq_length_filter]
  set n := fun f => (vis limit l).countP (fun o => decide (o.band = f)) with hn
  have hd : ∀ q : String → Bool, (bands.filter q).dedup = bands.filter q := fun q => (hb.filter q).dedup
  by_cases h0 : (vis limit l).length = 0
  · have hv : vis limit l = [] := List.length_eq_zero_iff.mp h0
    have hz : ∀ f, (vis limit l).countP (fun o => decide (o.band = f)) = 0 := by simp [hv]
    simp only [h0, if_true, hz, Nat.le_zero, hr.ne', hsec.ne']
    simp
  · simp only [h0, if_false, hd, List.countP_filter, List.mem_filter, decide_eq_true_eq, not_and, not_le]
    have hL : ((bands.filter (fun f => decide (numReq ≤ n f))).length = 0) ↔ ¬ ∃ f ∈ bands, numReq ≤ n f := by
      rw [List.length_eq_zero_iff, List.filter_eq_nil_iff]
      simp
    have hLc : (bands.filter (fun f => decide (numReq ≤ n f))).length = bands.countP (fun f => decide (numReq ≤ n f)) :=
      List.countP_eq_length_filter.symm
    have hC : (0 < bands.countP (fun f => decide (f ∈ bands → n f < numReq) && decide (numSec ≤ n f))) ↔
        ∃ f ∈ bands, numSec ≤ n f ∧ n f < numReq := by
      rw [List.countP_pos_iff]
      constructor
      · rintro ⟨f, hf, h⟩
        simp only [Bool.and_eq_true, decide_eq_true_eq] at h
        exact ⟨f, hf, h.2, h.1 hf⟩
      · rintro ⟨f, hf, h1, h2⟩
        exact ⟨f, hf, by simp [h1, h2]⟩
    by_cases hc : ∃ f ∈ bands, numSec ≤ n f ∧ n f < numReq
    · rw [if_pos (hC.mpr hc)]
      by_cases hl : ∃ f ∈ bands, numReq ≤ n f
      · rw [if_neg (fun h => hL.mp h hl), if_pos ⟨hl, hc⟩, hLc]
      · rw [if_pos (hL.mpr hl), if_neg (fun h => hl h.1)]
        show 0 = bands.countP (fun f => decide (numReq ≤ n f)) + 0
        rw [← hLc, hL.mpr hl]
    · rw [if_neg (fun h => hc (hC.mp h)), if_neg (fun h => hc h.2), hLc, Nat.add_zero]

end Lightcurve

example : lightcurveColor 2 1 ["u", "g", "r", "i", "z", "y"] (some 5) [o3 1 9 "g", o3 2 9 "g", o3 3 9 "r", o3 4 9 "i", o3 5 1 "r"] = 2 ∧
    lightcurveColor 2 1 ["u", "g", "r", "i", "z", "y"] (some 5) [o3 1 9 "g", o3 3 9 "r"] = 0 := by decide +kernel

/-! ## C107: colours from visits close in time -/

section Instant
variable [Field K] [LinearOrder K] [IsStrictOrderedRing K]

/-- Which observations in the second band are counted, for rows in time order: those with
an observation in the first band less than the interval before, and all that come
before the first of these. -/
theorem counted_iff (t1 : List K) (hs : t1.Pairwise (· ≤ ·)) (hne : t1 ≠ []) (dTime t : K) (hd : 0 < dTime) :
    (t - t1.getD (if 0 < (searchsortedRight t1 t : Int) - 1 then ((searchsortedRight t1 t : Int) - 1).toNat else 0) 0 < dTime) ↔
      (∃ x ∈ t1, x ≤ t ∧ t - x < dTime) ∨ ∀ x ∈ t1, t < x := by
  have hi : (if 0 < (searchsortedRight t1 t : Int) - 1 then ((searchsortedRight t1 t : Int) - 1).toNat else 0) =
      searchsortedRight t1 t - 1 := by split_ifs <;> omega
  rw [hi, searchsortedRight_eq_countP hs]
  set n := t1.countP (fun x => decide (x ≤ t)) with hn
  have hlen : 0 < t1.length := List.length_pos_iff.mpr hne
  have hnle : n ≤ t1.length := List.countP_le_length
  have hidx : n - 1 < t1.length := by omega
  rw [List.getD_eq_getElem?_getD, List.getElem?_eq_getElem hidx, Option.getD_some]
  have key := Seasons.lt_countP_iff t1 hs (fun x => decide (x ≤ t))
    (by intro a b hab; simp only [decide_eq_true_eq]; exact le_trans hab)
  rcases Nat.eq_zero_or_pos n with h0 | h0
  · have hall : ∀ x ∈ t1, t < x := by
      intro x hx
      by_contra hcon
      have : 0 < n := List.countP_pos_iff.mpr ⟨x, hx, by simpa using not_lt.mp hcon⟩
      omega
    refine ⟨fun _ => Or.inr hall, fun _ => ?_⟩
    have := hall _ (List.getElem_mem hidx)
    linarith
  · have hle : t1[n - 1] ≤ t := by simpa using (key (n - 1) hidx).mp (by omega)
    constructor
    · intro h
      exact Or.inl ⟨_, List.getElem_mem hidx, hle, h⟩
    · rintro (⟨x, hx, hxt, hxd⟩ | h)
      · obtain ⟨j, hj, rfl⟩ := List.getElem_of_mem hx
        have hjn : j < n := (key j hj).mpr (by simpa using hxt)
        have : t1[j] ≤ t1[n - 1] := by
          rcases Nat.lt_or_ge j (n - 1) with h | h
          · exact List.pairwise_iff_getElem.mp hs j (n - 1) hj hidx h
          · have : j = n - 1 := by omega
            subst this
            exact le_rfl
        linarith
      · exact absurd (h _ (List.getElem_mem hidx)) (not_lt.mpr hle)

/-- What is computed, for rows in time order. -/
theorem instantaneous_partial (nPairs : Nat) (snrLimit dTime : K) (hd : 0 < dTime) (one two : String) (l : List (Obs K))
    (hs : l.Pairwise (fun a b => a.mjd ≤ b.mjd))
    (hn : nPairs * 2 ≤ (l.filter (fun o => decide (snrLimit ≤ o.snr))).length)
    (h1 : ∃ o ∈ l, snrLimit ≤ o.snr ∧ o.band = one) (h2 : ∃ o ∈ l, snrLimit ≤ o.snr ∧ o.band = two) :
    instantaneousColor nPairs snrLimit dTime one two l = 1 ↔
      nPairs ≤ (l.filter (fun o => decide (snrLimit ≤ o.snr) && decide (o.band = two))).countP (fun o => decide (
        (∃ x ∈ l, snrLimit ≤ x.snr ∧ x.band = one ∧ x.mjd ≤ o.mjd ∧ o.mjd - x.mjd < dTime) ∨
        (∀ x ∈ l, snrLimit ≤ x.snr → x.band = one → o.mjd < x.mjd))) := by
  unfold instantaneousColor
  simp only [not_lt.mpr hn, if_false, List.filter_filter]
  set t1 := (l.filter (fun o => decide (o.band = one) && decide (snrLimit ≤ o.snr))).map (·.mjd) with ht1
  have hmem : ∀ x, x ∈ t1 ↔ ∃ o ∈ l, snrLimit ≤ o.snr ∧ o.band = one ∧ o.mjd = x := by
    intro x
    rw [ht1, List.mem_map]
    constructor
    · rintro ⟨o, ho, rfl⟩
      rw [List.mem_filter] at ho
      simp only [Bool.and_eq_true, decide_eq_true_eq] at ho
      exact ⟨o, ho.1, ho.2.2, ho.2.1, rfl⟩
    · rintro ⟨o, ho, hs, hb, rfl⟩
      exact ⟨o, List.mem_filter.mpr ⟨ho, by simp [hs, hb]⟩, rfl⟩
  have hsort : t1.Pairwise (· ≤ ·) := by
    rw [ht1, List.pairwise_map]
    exact hs.sublist List.filter_sublist
  have hne : t1 ≠ [] := by
    obtain ⟨o, ho, hsn, hb⟩ := h1
    exact List.ne_nil_of_mem ((hmem o.mjd).mpr ⟨o, ho, hsn, hb, rfl⟩)
  have hne2 : (l.filter (fun o => decide (o.band = two) && decide (snrLimit ≤ o.snr))).length ≠ 0 := by
    obtain ⟨o, ho, hsn, hb⟩ := h2
    exact (List.length_pos_of_mem (List.mem_filter.mpr ⟨ho, by simp [hsn, hb]⟩)).ne'
  have hlen1 : t1.length ≠ 0 := (List.length_pos_iff.mpr hne).ne'
  simp only [List.length_map, hlen1, hne2, decide_false, Bool.or_self, Bool.false_eq_true, if_false]
  rw [← List.countP_eq_length_filter, List.countP_map, List.countP_map]
  have hc : (l.filter (fun o => decide (o.band = two) && decide (snrLimit ≤ o.snr))).countP
      (((fun d => decide (d < dTime)) ∘ fun t => t - t1.getD (if 0 < (searchsortedRight t1 t : Int) - 1 then
          ((searchsortedRight t1 t : Int) - 1).toNat else 0) 0) ∘ fun o : Obs K => o.mjd) =
      (l.filter (fun o => decide (snrLimit ≤ o.snr) && decide (o.band = two))).countP (fun o => decide (
        (∃ x ∈ l, snrLimit ≤ x.snr ∧ x.band = one ∧ x.mjd ≤ o.mjd ∧ o.mjd - x.mjd < dTime) ∨
        (∀ x ∈ l, snrLimit ≤ x.snr → x.band = one → o.mjd < x.mjd))) := by
    rw [show (fun o : Obs K => decide (o.band = two) && decide (snrLimit ≤ o.snr)) =
      (fun o => decide (snrLimit ≤ o.snr) && decide (o.band = two)) by funext o; rw [Bool.and_comm]]
    apply List.countP_congr
    intro o _
    simp only [Function.comp, decide_eq_true_eq]
    rw [counted_iff t1 hsort hne dTime o.mjd hd]
    apply or_congr
    · constructor
      · rintro ⟨x, hx, h3, h4⟩
        obtain ⟨o', ho', h5, h6, rfl⟩ := (hmem x).mp hx
        exact ⟨o', ho', h5, h6, h3, h4⟩
      · rintro ⟨o', ho', h5, h6, h3, h4⟩
        exact ⟨_, (hmem _).mpr ⟨o', ho', h5, h6, rfl⟩, h3, h4⟩
    · constructor
      · intro h x hx h3 h4
        exact h _ ((hmem _).mpr ⟨x, hx, h3, h4, rfl⟩)
      · intro h x hx
        obtain ⟨o', ho', h5, h6, rfl⟩ := (hmem x).mp hx
        exact h o' ho' h5 h6
  rw [hc]
  split_ifs with h
  · exact ⟨fun _ => h, fun _ => rfl⟩
  · exact ⟨fun h' => absurd h' (by decide), fun h' => absurd h' h⟩

/-- The documented meaning fails: a visit in the second band long before any in the first
counts as a pair. -/
theorem instantaneous_false : ¬ ∀ (nPairs : Nat) (snrLimit dTime : ℚ) (one two : String) (l : List (Obs ℚ)),
    0 < nPairs → 0 < dTime → l.Pairwise (fun a b => a.mjd ≤ b.mjd) →
    instantaneousColor nPairs snrLimit dTime one two l = 1 →
    ∃ a ∈ l, ∃ b ∈ l, a.band = one ∧ b.band = two ∧ |b.mjd - a.mjd| < dTime := by
  intro h
  have := h 1 10 (1 / 48) "g" "r" [o3 1 20 "r", o3 500 20 "g"] (by decide) (by norm_num) (by decide +kernel) (by decide +kernel)
  exact absurd this (by decide +kernel)

/-- When no visit in the second band comes before the first one in the first band, an
answer of one does mean a pair. -/
theorem instantaneous_sound_partial (nPairs : Nat) (snrLimit dTime : K) (hp : 0 < nPairs) (hd : 0 < dTime) (one two : String)
    (l : List (Obs K)) (hs : l.Pairwise (fun a b => a.mjd ≤ b.mjd))
    (hfirst : ∃ a ∈ l, snrLimit ≤ a.snr ∧ a.band = one ∧ ∀ b ∈ l, b.band = two → a.mjd ≤ b.mjd)
    (h : instantaneousColor nPairs snrLimit dTime one two l = 1) :
    ∃ a ∈ l, ∃ b ∈ l, a.band = one ∧ b.band = two ∧ snrLimit ≤ a.snr ∧ snrLimit ≤ b.snr ∧ a.mjd ≤ b.mjd ∧ b.mjd - a.mjd < dTime := by
  obtain ⟨a, ha, has, hab, haf⟩ := hfirst
  have hn : nPairs * 2 ≤ (l.filter (fun o => decide (snrLimit ≤ o.snr))).length := by
    by_contra hcon
    unfold instantaneousColor at h
    simp only [not_le.mp hcon, if_true] at h
    cases h
  have h2 : ∃ o ∈ l, snrLimit ≤ o.snr ∧ o.band = two := by
    by_contra hcon
    push Not at hcon
    unfold instantaneousColor at h
    simp only [not_lt.mpr hn, if_false, List.filter_filter, List.length_map] at h
    have h0 : (l.filter (fun o => decide (o.band = two) && decide (snrLimit ≤ o.snr))) = [] := by
      rw [List.filter_eq_nil_iff]
      intro o ho
      simp only [Bool.and_eq_true, decide_eq_true_eq, not_and]
      exact fun hb hsn => hcon o ho hsn hb
    simp [h0] at h
  rw [instantaneous_partial nPairs snrLimit dTime hd one two l hs hn ⟨a, ha, has, hab⟩ h2] at h
  obtain ⟨o, ho, hP⟩ := List.countP_pos_iff.mp (lt_of_lt_of_le hp h)
  rw [List.mem_filter] at ho
  simp only [Bool.and_eq_true, decide_eq_true_eq] at ho hP
  rcases hP with ⟨x, hx, h3, h4, h5, h6⟩ | hP
  · exact ⟨x, hx, o, ho.1, h4, ho.2.2, h3, ho.2.1, h5, h6⟩
  · exact absurd (hP a ha has hab) (not_lt.mpr (haf o ho.1 ho.2.2))

example : instantaneousColor 1 10 (1 / 48) "g" "r" [o3 1 20 "g", o3 2 20 "r", o3 (2 + 1 / 100) 20 "g", o3 3 20 "i"] = 0 ∧
    instantaneousColor 1 10 (1 / 48) "g" "r" [o3 1 20 "g", o3 (1 + 1 / 100) 20 "r"] = 1 := by decide +kernel

end Instant

/-! ## C108: light curve inversion -/

section Inversion
variable [Field K] [LinearOrder K] [IsStrictOrderedRing K] [FloorRing K]

/-- Observations for the examples. -/
def o4 (ecLon phase : ℚ) : Obs ℚ :=
  { mjd := 1, night := 1, snr := 200, vis := 1, band := "r", velocity := 0, seeing := 1, expTime := 30, ecLon, phase, elong := 180, magV := 20 }

/-- The longitudes need not cover 90 degrees: here all lie within an arc of 12 degrees
around zero. -/
theorem inversion_false : ¬ ∀ (weight snrMax : ℚ) (bands : List String) (limit : Option ℚ) (l : List (Obs ℚ)), 0 < snrMax →
    inversion weight snrMax bands limit l = 1 →
    ∃ f ∈ bands, ¬ ∃ c : ℚ, ∀ o ∈ l, o.band = f → pyMod (o.ecLon - c) 360 < 90 := by
  intro h
  obtain ⟨f, hf, hno⟩ := h 5 100 ["r"] none [o4 350 1, o4 352 2, o4 354 4, o4 356 8, o4 2 10] (by norm_num) (by decide +kernel)
  apply hno
  refine ⟨345, ?_⟩
  have : ∀ o ∈ [o4 350 1, o4 352 2, o4 354 4, o4 356 8, o4 2 10], pyMod (o.ecLon - 345) 360 < 90 := by decide +kernel
  exact fun o ho _ => this o ho

/-- What an answer of one does say: in one of the bands there are at least `weight_det`
observations above the limit, two of them with phase angles five degrees apart and two
with longitudes 90 degrees apart as numbers. -/
theorem inversion_partial (weight snrMax : K) (hm : 0 < snrMax) (bands : List String) (limit : Option K) (l : List (Obs K))
    (h : inversion weight snrMax bands limit l = 1) :
    ∃ f ∈ bands, ∃ v : List (Obs K), v = l.filter (fun o => decide (o.band = f) && decide (0 < clipSnr snrMax limit o)) ∧
      weight ≤ (v.length : K) ∧ (∃ a ∈ v, ∃ b ∈ v, 5 ≤ b.phase - a.phase) ∧ (∃ a ∈ v, ∃ b ∈ v, 90 ≤ b.ecLon - a.ecLon) := by
  unfold inversion at h
  split_ifs at h with h1 h2
  · rw [List.any_eq_true] at h2
    obtain ⟨f, hf, h2⟩ := h2
    simp only [Bool.and_eq_true, decide_eq_true_eq, List.filter_filter] at h2
    obtain ⟨hw, hok⟩ := h2
    rw [show (fun o : Obs K => decide (0 < clipSnr snrMax limit o) && decide (o.band = f)) =
      (fun o => decide (o.band = f) && decide (0 < clipSnr snrMax limit o)) by funext o; rw [Bool.and_comm]] at hok
    refine ⟨f, hf, _, rfl, le_trans hw (snrWeight_le snrMax limit f l hm), ?_⟩
    generalize l.filter (fun o => decide (o.band = f) && decide (0 < clipSnr snrMax limit o)) = v at hok
    unfold inversionOk at hok
    simp only [Bool.and_eq_true, decide_eq_true_eq] at hok
    obtain ⟨⟨hd, _⟩, hph⟩ := hok
    have key : ∀ (g : Obs K → K) (c : K), 0 < c → c ≤ ptp (v.map g) → ∃ a ∈ v, ∃ b ∈ v, c ≤ g b - g a := by
      intro g c hc hcp
      cases v with
      | nil =>
        simp only [ptp, List.map_nil] at hcp
        linarith
      | cons o v =>
        simp only [ptp, List.map_cons] at hcp
        obtain ⟨h3, _⟩ := foldl_max_spec (g o) (v.map g)
        obtain ⟨h4, _⟩ := foldl_min_spec (g o) (v.map g)
        rw [← List.map_cons (f := g)] at h3 h4
        obtain ⟨b, hb, hb'⟩ := List.mem_map.mp h3
        obtain ⟨a, ha, ha'⟩ := List.mem_map.mp h4
        exact ⟨a, ha, b, hb, by rw [hb', ha']; exact hcp⟩
    exact ⟨key (·.phase) 5 (by norm_num) hph, key (·.ecLon) 90 (by norm_num) hd⟩

example : inversion (4 : ℚ) 100 ["g", "r"] none [o4 10 1, o4 60 2, o4 120 4, o4 200 8] = 1 ∧
    inversion (4 : ℚ) 100 ["g", "r"] none [o4 10 1, o4 20 2, o4 30 4, o4 40 8] = 0 := by decide +kernel

end Inversion

/-! ## C109: objects known before -/

section Known
variable [LinearOrder K]

theorem foldl_min_spec' (t : K) (ts : List K) : ts.foldl min t ∈ t :: ts ∧ ∀ x ∈ t :: ts, ts.foldl min t ≤ x := by
  induction ts generalizing t with
  | nil => simp
  | cons a ts ih =>
    obtain ⟨h1, h2⟩ := ih (min t a)
    rw [List.foldl_cons]
    constructor
    · rcases List.mem_cons.mp h1 with h | h
      · rw [h]
        rcases min_choice t a with h' | h' <;> rw [h'] <;> simp
      · simp [h]
    · intro x hx
      have h3 := h2 (min t a) (by simp)
      rcases List.mem_cons.mp hx with rfl | hx
      · exact le_trans h3 (min_le_left _ _)
      · rcases List.mem_cons.mp hx with rfl | hx
        · exact le_trans h3 (min_le_right _ _)
        · exact h2 x (by simp [hx])

/-- Time `t` is that of a row that can be seen in period `i` and for which the random
number lies within the efficiency. -/
def Picked (elongThresh : K) (draws : Nat → List K) (l : List (Obs K)) (ps : List (Period K)) (t : K) : Prop :=
  ∃ (i : Nat) (p : Period K) (j : Nat) (o : Obs K) (r : K), ps[i]? = some p ∧ (l.filter (inPeriod elongThresh p))[j]? = some o ∧
    (draws i)[j]? = some r ∧ r ≤ p.eff ∧ o.mjd = t

/-- The rows of a period: within its times, far enough from the Sun and bright enough. -/
theorem inPeriod_iff (elongThresh : K) (p : Period K) (o : Obs K) :
    inPeriod elongThresh p o = true ↔ (∀ a, p.from_ = some a → a ≤ o.mjd) ∧
      (∀ b, p.until_ = some b → o.mjd < b) ∧ elongThresh ≤ o.elong ∧ o.magV ≤ p.mag := by
  unfold inPeriod
  cases p.from_ <;> cases p.until_ <;> simp [and_assoc]

theorem pickObs_spec (draws times : List K) (eff : K) :
    (pickObs draws eff times = none ∧ ∀ (j : Nat) (r t : K), draws[j]? = some r → times[j]? = some t → ¬ r ≤ eff) ∨
    ∃ t, pickObs draws eff times = some t ∧ (∃ (j : Nat) (r : K), draws[j]? = some r ∧ times[j]? = some t ∧ r ≤ eff) ∧
      ∀ (j : Nat) (r t' : K), draws[j]? = some r → times[j]? = some t' → r ≤ eff → t ≤ t' := by
  have hmem : ∀ t, t ∈ ((draws.zip times).filter (fun x => decide (x.1 ≤ eff))).map (·.2) ↔
      ∃ (j : Nat) (r : K), draws[j]? = some r ∧ times[j]? = some t ∧ r ≤ eff := by
    intro t
    rw [List.mem_map]
    constructor
    · rintro ⟨⟨r, t'⟩, h, rfl⟩
      rw [List.mem_filter] at h
      obtain ⟨j, hj⟩ := List.mem_iff_getElem?.mp h.1
      rw [List.getElem?_zip_eq_some] at hj
      exact ⟨j, r, hj.1, hj.2, by simpa using h.2⟩
    · rintro ⟨j, r, h1, h2, h3⟩
      refine ⟨(r, t), List.mem_filter.mpr ⟨List.mem_iff_getElem?.mpr ⟨j, ?_⟩, by simpa using h3⟩, rfl⟩
      rw [List.getElem?_zip_eq_some]
      exact ⟨h1, h2⟩
  unfold pickObs
  cases h : ((draws.zip times).filter (fun x => decide (x.1 ≤ eff))).map (·.2) with
  | nil =>
    left
    refine ⟨rfl, fun j r t h1 h2 h3 => ?_⟩
    have := (hmem t).mpr ⟨j, r, h1, h2, h3⟩
    rw [h] at this
    cases this
  | cons t ts =>
    right
    obtain ⟨h1, h2⟩ := foldl_min_spec' t ts
    rw [← h] at h1 h2
    exact ⟨_, rfl, (hmem _).mp h1, fun j r t' h3 h4 h5 => h2 t' ((hmem t').mpr ⟨j, r, h3, h4, h5⟩)⟩

theorem knownLoop_spec (elongThresh : K) (draws : Nat → List K) (l : List (Obs K)) (ps : List (Period K)) (i : Nat)
    (hord : ps.Pairwise (fun p q => ∃ b a, p.until_ = some b ∧ q.from_ = some a ∧ b ≤ a)) :
    (knownLoop elongThresh draws l i ps = none ∧ ∀ t, ¬ Picked elongThresh (fun k => draws (i + k)) l ps t) ∨
    ∃ t, knownLoop elongThresh draws l i ps = some t ∧ Picked elongThresh (fun k => draws (i + k)) l ps t ∧
      ∀ t', Picked elongThresh (fun k => draws (i + k)) l ps t' → t ≤ t' := by
  induction ps generalizing i with
  | nil =>
    left
    refine ⟨rfl, ?_⟩
    rintro t ⟨k, p, j, o, r, h, _⟩
    simp at h
  | cons p ps ih =>
    rw [List.pairwise_cons] at hord
    have hcons : ∀ t, Picked elongThresh (fun k => draws (i + k)) l (p :: ps) t ↔
        (∃ (j : Nat) (o : Obs K) (r : K), (l.filter (inPeriod elongThresh p))[j]? = some o ∧ (draws i)[j]? = some r ∧
          r ≤ p.eff ∧ o.mjd = t) ∨ Picked elongThresh (fun k => draws (i + 1 + k)) l ps t := by
      intro t
      constructor
      · rintro ⟨k, q, j, o, r, h1, h2, h3, h4, h5⟩
        cases k with
        | zero =>
          simp only [List.getElem?_cons_zero, Option.some.injEq] at h1
          subst h1
          exact Or.inl ⟨j, o, r, h2, h3, h4, h5⟩
        | succ k =>
          rw [List.getElem?_cons_succ] at h1
          refine Or.inr ⟨k, q, j, o, r, h1, h2, ?_, h4, h5⟩
          show (draws (i + 1 + k))[j]? = some r
          rw [show i + 1 + k = i + (k + 1) by omega]
          exact h3
      · rintro (⟨j, o, r, h2, h3, h4, h5⟩ | ⟨k, q, j, o, r, h1, h2, h3, h4, h5⟩)
        · exact ⟨0, p, j, o, r, rfl, h2, h3, h4, h5⟩
        · refine ⟨k + 1, q, j, o, r, h1, h2, ?_, h4, h5⟩
          show (draws (i + (k + 1)))[j]? = some r
          rw [show i + (k + 1) = i + 1 + k by omega]
          exact h3
    rcases pickObs_spec (draws i) ((l.filter (inPeriod elongThresh p)).map (·.mjd)) p.eff with ⟨h1, h2⟩ | ⟨t, h1, ⟨j, r, h2, h3, h4⟩, h5⟩
    · have hno : ∀ t, ¬ ∃ (j : Nat) (o : Obs K) (r : K), (l.filter (inPeriod elongThresh p))[j]? = some o ∧
          (draws i)[j]? = some r ∧ r ≤ p.eff ∧ o.mjd = t := by
        rintro t ⟨j, o, r, h3, h4, h5, rfl⟩
        exact h2 j r o.mjd h4 (by rw [List.getElem?_map, h3]; rfl) h5
      rw [show knownLoop elongThresh draws l i (p :: ps) = knownLoop elongThresh draws l (i + 1) ps by
        simp only [knownLoop, h1]]
      have hiff : ∀ t, Picked elongThresh (fun k => draws (i + k)) l (p :: ps) t ↔
          Picked elongThresh (fun k => draws (i + 1 + k)) l ps t := fun t => by
        rw [hcons]
        exact or_iff_right (hno t)
      simp only [hiff]
      exact ih (i + 1) hord.2
    · right
      refine ⟨t, by simp only [knownLoop, h1], ?_, ?_⟩
      · rw [hcons]
        left
        rw [List.getElem?_map] at h3
        obtain ⟨o, ho, hot⟩ := Option.map_eq_some_iff.mp h3
        exact ⟨j, o, r, ho, h2, h4, hot⟩
      · intro t' ht'
        rcases (hcons t').mp ht' with ⟨j', o', r', g1, g2, g3, rfl⟩ | ⟨k, q, j', o', r', g1, g2, g3, g4, rfl⟩
        · exact h5 j' r' o'.mjd g2 (by rw [List.getElem?_map, g1]; rfl) g3
        · obtain ⟨b, a, hb, ha, hba⟩ := hord.1 q (List.mem_of_getElem? g1)
          have hin' := (List.mem_filter.mp (List.mem_of_getElem? g2)).2
          have : t < b := by
            rw [List.getElem?_map] at h3
            obtain ⟨o, ho, hot⟩ := Option.map_eq_some_iff.mp h3
            have hin := (List.mem_filter.mp (List.mem_of_getElem? ho)).2
            simp only [inPeriod, hb, Bool.and_eq_true, decide_eq_true_eq] at hin
            rw [← hot]
            exact hin.1.1.2
          have h6 : a ≤ o'.mjd := by
            simp only [inPeriod, ha, Bool.and_eq_true, decide_eq_true_eq] at hin'
            exact hin'.1.1.1
          exact le_trans this.le (le_trans hba h6)

/-- The result is the first time of all visible rows that were picked, over all periods, and
`badval` when there is none. -/
theorem knownObjects_spec (elongThresh badval t1 t2 t3 m1 m2 m3 m4 e1 e2 e3 e4 : K) (h12 : t1 ≤ t2) (h23 : t2 ≤ t3)
    (draws : Nat → List K) (l : List (Obs K)) (ps : List (Period K))
    (hps : ps = [⟨none, some t1, m1, e1⟩, ⟨some t1, some t2, m2, e2⟩, ⟨some t2, some t3, m3, e3⟩, ⟨some t3, none, m4, e4⟩]) :
    ((∀ t, ¬ Picked elongThresh draws l ps t) →
      knownObjects elongThresh badval t1 t2 t3 m1 m2 m3 m4 e1 e2 e3 e4 draws l = badval) ∧
    ((∃ t, Picked elongThresh draws l ps t) →
      Picked elongThresh draws l ps (knownObjects elongThresh badval t1 t2 t3 m1 m2 m3 m4 e1 e2 e3 e4 draws l)) ∧
    ∀ t, Picked elongThresh draws l ps t → knownObjects elongThresh badval t1 t2 t3 m1 m2 m3 m4 e1 e2 e3 e4 draws l ≤ t := by
  have hk := knownLoop_spec elongThresh draws l ps 0 (by
    subst hps
    have h13 := le_trans h12 h23
    simp [h12, h23, h13])
  unfold knownObjects
  rw [← hps]
  simp only [Nat.zero_add] at hk
  rcases hk with ⟨h1, h2⟩ | ⟨t, h1, h2, h3⟩
  · rw [h1]
    exact ⟨fun _ => rfl, fun ⟨t, ht⟩ => absurd ht (h2 t), fun t ht => absurd ht (h2 t)⟩
  · rw [h1]
    exact ⟨fun h => absurd h2 (h t), fun _ => h2, h3⟩

end Known

/-- Observations for the examples. -/
def o5 (mjd magV elong : ℚ) : Obs ℚ :=
  { mjd, night := 1, snr := 200, vis := 1, band := "r", velocity := 0, seeing := 1, expTime := 30, ecLon := 0, phase := 0, elong, magV }

example : knownObjects (100 : ℚ) 9999 10 20 30 20 21 22 22 (1/10) (1/10) (1/10) (1/5)
    (fun i => if i = 1 then [1/20, 1/2] else [1/2, 1/2]) [o5 5 19 120, o5 12 20 120, o5 13 21 120, o5 14 20 50] = 12 := by decide +kernel

end Verif.Mo
