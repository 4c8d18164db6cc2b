import Mathlib.Tactic.Linarith
import Mathlib.Tactic.Ring
import Mathlib.Tactic.FieldSimp
import Mathlib.Tactic.Positivity
import Mathlib.Tactic.NormNum
import Mathlib.Data.Finset.Card
import Mathlib.Data.List.MinMax
import Verif.Model.Kne
import Verif.Props.MoSummary

/-!
# Properties of the populations of kilonovae and tidal disruption events (C324–C331)
-/

namespace Verif.Kne

variable {K : Type} [Field K] [LinearOrder K]

/-! ## Counts of filters -/

theorem nFilters_two (l : List (Obs K)) : 2 ≤ nFilters l ↔ ∃ a ∈ l, ∃ b ∈ l, a.filter ≠ b.filter := by
  unfold nFilters
  rw [← List.card_toFinset]
  show 1 < _ ↔ _
  rw [Finset.one_lt_card]
  simp

theorem nFilters_three (l : List (Obs K)) :
    3 ≤ nFilters l ↔ ∃ a ∈ l, ∃ b ∈ l, ∃ c ∈ l, a.filter ≠ b.filter ∧ a.filter ≠ c.filter ∧ b.filter ≠ c.filter := by
  unfold nFilters
  rw [← List.card_toFinset]
  show 2 < _ ↔ _
  rw [Finset.two_lt_card]
  simp

theorem mem_before (l : List (Obs K)) (o : Obs K) : o ∈ before l ↔ o ∈ l ∧ o.t < -10 ∧ o.mag < o.m5 := by
  simp [before, det]

theorem mem_near (l : List (Obs K)) (o : Obs K) : o ∈ near l ↔ o ∈ l ∧ |o.t| < 5 ∧ o.mag < o.m5 := by
  simp [near, det]

theorem mem_post (l : List (Obs K)) (o : Obs K) : o ∈ post l ↔ o ∈ l ∧ 10 < o.t ∧ o.t < 30 ∧ o.mag < o.m5 := by
  simp [post, det, and_assoc]

/-! ## Tidal disruption events -/

/-- A visit in which the event is seen, between two times. -/
def SeenIn (lo hi : K) (o : Obs K) : Prop := o.mag < o.m5 ∧ lo < o.t ∧ o.t < hi

theorem someColor_iff (l : List (Obs K)) : someColor l = 1 ↔ before l ≠ [] ∧ 3 ≤ nFilters (near l) ∧ 2 ≤ nFilters (post l) := by
  unfold someColor
  rw [← List.length_pos_iff]
  split_ifs <;> simp <;> omega

theorem someColor_01 (l : List (Obs K)) : someColor l = 0 ∨ someColor l = 1 := by
  unfold someColor
  split_ifs <;> simp

theorem someColorPu_01 (l : List (Obs K)) : someColorPu l = 0 ∨ someColorPu l = 1 := by
  unfold someColorPu
  split_ifs <;> simp

theorem before_ne (l : List (Obs K)) : before l ≠ [] ↔ ∃ o ∈ l, o.mag < o.m5 ∧ o.t < -10 := by
  constructor
  · intro h
    obtain ⟨o, ho⟩ := List.exists_mem_of_ne_nil _ h
    obtain ⟨a, b, c⟩ := (mem_before l o).mp ho
    exact ⟨o, a, c, b⟩
  · rintro ⟨o, a, c, b⟩
    exact List.ne_nil_of_mem ((mem_before l o).mpr ⟨a, b, c⟩)

section
variable [IsStrictOrderedRing K]

theorem near_seen (l : List (Obs K)) (o : Obs K) : o ∈ near l ↔ o ∈ l ∧ SeenIn (-5) 5 o := by
  rw [mem_near, abs_lt]
  unfold SeenIn
  tauto

omit [IsStrictOrderedRing K] in
theorem post_seen (l : List (Obs K)) (o : Obs K) : o ∈ post l ↔ o ∈ l ∧ SeenIn 10 30 o := by
  rw [mem_post]
  unfold SeenIn
  tauto

/-- **C324.** An event counts for `some_color` if and only if it is seen in a visit more than ten days before the peak, in three filters less than five
days from it, and in two filters ten to thirty days after it. -/
theorem someColor_spec (l : List (Obs K)) : someColor l = 1 ↔
    (∃ o ∈ l, o.mag < o.m5 ∧ o.t < -10) ∧
    (∃ a ∈ l, ∃ b ∈ l, ∃ c ∈ l, SeenIn (-5) 5 a ∧ SeenIn (-5) 5 b ∧ SeenIn (-5) 5 c ∧ a.filter ≠ b.filter ∧ a.filter ≠ c.filter ∧ b.filter ≠ c.filter) ∧
    (∃ a ∈ l, ∃ b ∈ l, SeenIn 10 30 a ∧ SeenIn 10 30 b ∧ a.filter ≠ b.filter) := by
  rw [someColor_iff, before_ne, nFilters_three, nFilters_two]
  simp only [near_seen, post_seen]
  refine and_congr Iff.rfl (and_congr ?_ ?_)
  · constructor
    · rintro ⟨a, ⟨ha, sa⟩, b, ⟨hb, sb⟩, c, ⟨hc, sc⟩, h⟩
      exact ⟨a, ha, b, hb, c, hc, sa, sb, sc, h⟩
    · rintro ⟨a, ha, b, hb, c, hc, sa, sb, sc, h⟩
      exact ⟨a, ⟨ha, sa⟩, b, ⟨hb, sb⟩, c, ⟨hc, sc⟩, h⟩
  · constructor
    · rintro ⟨a, ⟨ha, sa⟩, b, ⟨hb, sb⟩, h⟩
      exact ⟨a, ha, b, hb, sa, sb, h⟩
    · rintro ⟨a, ha, b, hb, sa, sb, h⟩
      exact ⟨a, ⟨ha, sa⟩, b, ⟨hb, sb⟩, h⟩

omit [Field K] [LinearOrder K] [IsStrictOrderedRing K] in
theorem two_with (l : List (Obs K)) (u : Char) : ((∃ a ∈ l, ∃ b ∈ l, a.filter ≠ b.filter) ∧ u ∈ l.map Obs.filter) ↔
    ∃ a ∈ l, ∃ b ∈ l, a.filter = u ∧ b.filter ≠ u := by
  rw [List.mem_map]
  constructor
  · rintro ⟨⟨a, ha, b, hb, h⟩, c, hc, rfl⟩
    by_cases e : a.filter = c.filter
    · exact ⟨c, hc, b, hb, rfl, fun hh => h (e.trans hh.symm)⟩
    · exact ⟨c, hc, a, ha, rfl, e⟩
  · rintro ⟨a, ha, b, hb, rfl, h⟩
    exact ⟨⟨a, ha, b, hb, fun e => h e.symm⟩, a, ha, rfl⟩

/-- **C324.** For `some_color_pu` near the peak and after it a visit in u and one in another filter are needed. -/
theorem someColorPu_spec (l : List (Obs K)) : someColorPu l = 1 ↔
    (∃ o ∈ l, o.mag < o.m5 ∧ o.t < -10) ∧
    (∃ a ∈ l, ∃ b ∈ l, SeenIn (-5) 5 a ∧ SeenIn (-5) 5 b ∧ a.filter = 'u' ∧ b.filter ≠ 'u') ∧
    (∃ a ∈ l, ∃ b ∈ l, SeenIn 10 30 a ∧ SeenIn 10 30 b ∧ a.filter = 'u' ∧ b.filter ≠ 'u') := by
  have e : someColorPu l = 1 ↔ before l ≠ [] ∧ (2 ≤ nFilters (near l) ∧ 'u' ∈ (near l).map Obs.filter) ∧
      (2 ≤ nFilters (post l) ∧ 'u' ∈ (post l).map Obs.filter) := by
    unfold someColorPu
    rw [← List.length_pos_iff]
    by_cases h1 : 'u' ∈ (near l).map Obs.filter <;> by_cases h2 : 'u' ∈ (post l).map Obs.filter <;>
      simp only [h1, h2, not_true, not_false_iff, if_true, if_false, and_true, and_false] <;> split_ifs <;> simp <;> omega
  rw [e, before_ne, nFilters_two, nFilters_two, two_with, two_with]
  simp only [near_seen, post_seen]
  refine and_congr Iff.rfl (and_congr ?_ ?_) <;>
  · constructor
    · rintro ⟨a, ⟨ha, sa⟩, b, ⟨hb, sb⟩, h⟩
      exact ⟨a, ha, b, hb, sa, sb, h⟩
    · rintro ⟨a, ha, b, hb, sa, sb, h⟩
      exact ⟨a, ⟨ha, sa⟩, b, ⟨hb, sb⟩, h⟩

/-- **C324.** More visits lose no event, and neither does their order. -/
theorem tde_mono (l l' : List (Obs K)) (h : l ⊆ l') :
    (someColor l = 1 → someColor l' = 1) ∧ (someColorPu l = 1 → someColorPu l' = 1) := by
  constructor
  · rw [someColor_spec, someColor_spec]
    rintro ⟨⟨o, ho, h1⟩, ⟨a, ha, b, hb, c, hc, h2⟩, ⟨d, hd, e, he, h3⟩⟩
    exact ⟨⟨o, h ho, h1⟩, ⟨a, h ha, b, h hb, c, h hc, h2⟩, ⟨d, h hd, e, h he, h3⟩⟩
  · rw [someColorPu_spec, someColorPu_spec]
    rintro ⟨⟨o, ho, h1⟩, ⟨a, ha, b, hb, h2⟩, ⟨d, hd, e, he, h3⟩⟩
    exact ⟨⟨o, h ho, h1⟩, ⟨a, h ha, b, h hb, h2⟩, ⟨d, h hd, e, h he, h3⟩⟩

end

/-- **C324.** `pre_peak` needs more visits than `pts_needed` before the peak. -/
theorem prePeak_spec (needed : ℕ) (l : List (Obs K)) :
    prePeak needed l = 1 ↔ ∃ s : List (Obs K), s.Sublist l ∧ needed < s.length ∧ ∀ o ∈ s, o.t < 0 ∧ o.mag < o.m5 := by
  have e : prePeak needed l = 1 ↔ needed < (l.filter fun o => decide (o.t < 0) && det o).length := by
    unfold prePeak
    split_ifs with h <;> simp [h]
  rw [e]
  constructor
  · intro h
    exact ⟨_, List.filter_sublist, h, fun o ho => by simpa [det] using (List.mem_filter.mp ho).2⟩
  · rintro ⟨s, hs, hn, hp⟩
    have := (hs.filter fun o => decide (o.t < 0) && det o).length_le
    rw [List.filter_eq_self.mpr (fun o ho => by simpa [det] using hp o ho)] at this
    omega

/-- **C324.** So the number that is called needed is not enough. -/
theorem prePeak_false : ¬ ∀ (needed : ℕ) (l : List (Obs ℚ)),
    needed ≤ (l.filter fun o => decide (o.t < 0 ∧ o.mag < o.m5)).length → prePeak needed l = 1 := by
  intro h
  have := h 2 [⟨'g', -3, 20, 0, 24⟩, ⟨'r', -2, 20, 0, 24⟩] (by decide +kernel)
  exact absurd this (by decide +kernel)

/-- **C324.** Three filters within ten days of the peak, as documented, are not enough either. -/
theorem tenDays_false : ¬ ∀ l : List (Obs ℚ),
    (∃ o ∈ l, o.mag < o.m5 ∧ o.t < -10) →
    (∃ a ∈ l, ∃ b ∈ l, ∃ c ∈ l, SeenIn (-10) 10 a ∧ SeenIn (-10) 10 b ∧ SeenIn (-10) 10 c ∧ a.filter ≠ b.filter ∧ a.filter ≠ c.filter ∧ b.filter ≠ c.filter) →
    (∃ a ∈ l, ∃ b ∈ l, SeenIn 10 30 a ∧ SeenIn 10 30 b ∧ a.filter ≠ b.filter) → someColor l = 1 := by
  intro h
  have := h [⟨'g', -11, 20, 0, 24⟩, ⟨'g', 1, 20, 0, 24⟩, ⟨'r', 1, 20, 0, 24⟩, ⟨'i', 7, 20, 0, 24⟩, ⟨'g', 20, 20, 0, 24⟩, ⟨'r', 20, 20, 0, 24⟩]
    ⟨⟨'g', -11, 20, 0, 24⟩, by simp, by norm_num⟩
    ⟨⟨'g', 1, 20, 0, 24⟩, by simp, ⟨'r', 1, 20, 0, 24⟩, by simp, ⟨'i', 7, 20, 0, 24⟩, by simp, by norm_num [SeenIn]; decide⟩
    ⟨⟨'g', 20, 20, 0, 24⟩, by simp, ⟨'r', 20, 20, 0, 24⟩, by simp, by norm_num [SeenIn]; decide⟩
  exact absurd this (by decide +kernel)

example : someColor ([⟨'g', -11, 20, 0, 24⟩, ⟨'g', 1, 20, 0, 24⟩, ⟨'r', 1, 20, 0, 24⟩, ⟨'i', 4, 20, 0, 24⟩, ⟨'g', 20, 20, 0, 24⟩,
    ⟨'r', 20, 20, 0, 24⟩] : List (Obs ℚ)) = 1 := by decide +kernel

/-! ## Quality of tidal disruption events -/

section
variable [IsStrictOrderedRing K]

/-- **C325.** The score of an event that fails is zero; of one that passes it is the number of visits in which it is seen, per day of the range. -/
theorem quality_spec (tmin tmax : K) (l : List (Obs K)) (h : tmin < tmax) (h5 : tmin ≤ -5) (h6 : 5 ≤ tmax) :
    (someColor l = 1 → someColorPnum tmin tmax l * (tmax - tmin) = (l.countP fun o => decide (o.mag < o.m5 ∧ tmin < o.t ∧ o.t < tmax) : ℕ)) ∧
    (someColorPnum tmin tmax l = 0 ↔ someColor l = 0) ∧
    (someColorPu l = 1 → someColorPuPnum tmin tmax l * (tmax - tmin) = (l.countP fun o => decide (o.mag < o.m5 ∧ tmin < o.t ∧ o.t < tmax) : ℕ)) ∧
    (someColorPuPnum tmin tmax l = 0 ↔ someColorPu l = 0) := by
  have hd : tmax - tmin ≠ 0 := (sub_pos.mpr h).ne'
  have hc : (l.filter fun o => decide (tmin < o.t) && decide (o.t < tmax) && det o).length =
      l.countP fun o => decide (o.mag < o.m5 ∧ tmin < o.t ∧ o.t < tmax) := by
    rw [List.countP_eq_length_filter]
    congr 2
    funext o
    unfold det
    rw [Bool.eq_iff_iff]
    simp only [Bool.and_eq_true, decide_eq_true_eq]
    tauto
  have pos : ∀ a ∈ l, SeenIn (-5) 5 a → (l.countP fun o => decide (o.mag < o.m5 ∧ tmin < o.t ∧ o.t < tmax)) ≠ 0 := by
    intro a ha sa hz
    rw [List.countP_eq_zero] at hz
    exact hz a ha (by simpa using ⟨sa.1, h5.trans_lt sa.2.1, sa.2.2.trans_le h6⟩)
  refine ⟨?_, ?_, ?_, ?_⟩
  · intro h1
    unfold someColorPnum
    rw [h1, if_neg one_ne_zero, div_mul_cancel₀ _ hd, hc]
  · constructor
    · intro hz
      rcases someColor_01 l with h0 | h1
      · exact h0
      · exfalso
        unfold someColorPnum at hz
        rw [h1, if_neg one_ne_zero, hc, div_eq_zero_iff, or_iff_left hd, Nat.cast_eq_zero] at hz
        obtain ⟨_, ⟨a, ha, _, _, _, _, sa, _⟩, _⟩ := (someColor_spec l).mp h1
        exact pos a ha sa hz
    · intro h0
      unfold someColorPnum
      rw [if_pos h0]
  · intro h1
    unfold someColorPuPnum
    rw [h1, if_neg one_ne_zero, div_mul_cancel₀ _ hd, hc]
  · constructor
    · intro hz
      rcases someColorPu_01 l with h0 | h1
      · exact h0
      · exfalso
        unfold someColorPuPnum at hz
        rw [h1, if_neg one_ne_zero, hc, div_eq_zero_iff, or_iff_left hd, Nat.cast_eq_zero] at hz
        obtain ⟨_, ⟨a, ha, _, _, sa, _⟩, _⟩ := (someColorPu_spec l).mp h1
        exact pos a ha sa hz
    · intro h0
      unfold someColorPuPnum
      rw [if_pos h0]

end

/-- One visit every other night from -29 to 99 days, the filters in turn. -/
def everyOther : List (Obs ℚ) := (List.range 65).map fun i : ℕ =>
  ⟨if i % 3 = 0 then 'g' else if i % 3 = 1 then 'r' else 'i', -29 + 2 * (i : ℚ), 20, 0, 24⟩

/-- **C325.** A score of one is not a visit every other night, as documented: that is a half. -/
theorem quality_false : someColor everyOther = 1 ∧ someColorPnum (-30) 100 everyOther = 1 / 2 := by
  constructor <;> decide +kernel

/-! ## Detections of kilonovae -/

/-- **C326.** Outside of the times of the light curve nothing is seen, however deep the visit, as long as its depth is below 99. -/
theorem outside_unseen [IsStrictOrderedRing K] (pts : List (K × K)) (ax ebv dm t m5 : K) (hax : 0 ≤ ax * ebv) (hdm : 0 ≤ dm) (h5 : m5 ≤ 99)
    (ht : ∀ p ∈ pts, t < p.1) : ¬ appMag pts ax ebv dm t < m5 := by
  have e : lcInterp pts t = 99 := by
    unfold lcInterp
    cases pts with
    | nil => rfl
    | cons a l =>
      rw [List.head?_cons]
      cases hl : (a :: l).getLast? with
      | none => rfl
      | some b =>
        dsimp only
        rw [if_pos (Or.inl (ht a (by simp)))]
  unfold appMag
  rw [e]
  linarith

@[inherit_doc outside_unseen]
theorem after_unseen [IsStrictOrderedRing K] (pts : List (K × K)) (ax ebv dm t m5 : K) (hax : 0 ≤ ax * ebv) (hdm : 0 ≤ dm) (h5 : m5 ≤ 99)
    (ht : ∀ p ∈ pts, p.1 < t) : ¬ appMag pts ax ebv dm t < m5 := by
  have e : lcInterp pts t = 99 := by
    unfold lcInterp
    cases pts with
    | nil => rfl
    | cons a l =>
      rw [List.head?_cons]
      cases hl : (a :: l).getLast? with
      | none => rfl
      | some b =>
        dsimp only
        rw [if_pos (Or.inr (ht b (List.mem_of_getLast? hl)))]
  unfold appMag
  rw [e]
  linarith

/-- **C326.** At a time of the file the magnitude is that of the file with extinction and distance modulus added. -/
theorem appMag_node [IsStrictOrderedRing K] (pts : List (K × K)) (hs : pts.Pairwise fun a b => a.1 < b.1) (ax ebv dm t m : K) (h : (t, m) ∈ pts) :
    appMag pts ax ebv dm t = m + ax * ebv + dm := by
  have e : lcInterp pts t = m := by
    unfold lcInterp
    cases pts with
    | nil => cases h
    | cons a l =>
      rw [List.head?_cons]
      cases hl : (a :: l).getLast? with
      | none => simp at hl
      | some b =>
        dsimp only
        have h1 : ¬ t < a.1 := by
          rcases List.mem_cons.mp h with e | e
          · rw [← e]
            exact lt_irrefl _
          · exact not_lt.mpr ((List.pairwise_cons.mp hs).1 _ e).le
        have h2 : ¬ b.1 < t := by
          obtain ⟨r, hr⟩ := List.getLast?_eq_some_iff.mp hl
          rw [hr] at h hs
          rcases List.mem_append.mp h with e | e
          · exact not_lt.mpr ((List.pairwise_append.mp hs).2.2 _ e b (by simp)).le
          · have e := congrArg Prod.fst (List.mem_singleton.mp e)
            rw [← e]
            exact lt_irrefl _
        rw [if_neg (not_or.mpr ⟨h1, h2⟩)]
        exact MoSum.interp_node _ hs t m h
  unfold appMag
  rw [e]

theorem mem_around (l : List (Obs K)) (o : Obs K) : o ∈ around l ↔ o ∈ l ∧ SeenIn 0 30 o := by
  unfold around SeenIn det
  simp only [List.mem_filter, Bool.and_eq_true, decide_eq_true_eq]
  tauto

theorem inFilter_three (l : List (Obs K)) (a b c : Char) (hab : a ≠ b) (hac : a ≠ c) (hbc : b ≠ c) :
    inFilter a l + inFilter b l + inFilter c l = l.countP fun o => decide (o.filter ∈ [a, b, c]) := by
  unfold inFilter
  induction l with
  | nil => rfl
  | cons o l ih =>
    rw [List.countP_cons, ← ih, List.filter_cons, List.filter_cons, List.filter_cons]
    simp only [List.mem_cons, List.not_mem_nil, or_false, decide_eq_true_eq]
    by_cases h1 : o.filter = a
    · have h2 : o.filter ≠ b := fun h => hab (h1.symm.trans h)
      have h3 : o.filter ≠ c := fun h => hac (h1.symm.trans h)
      simp only [h1, hab, hac, if_true, if_false, true_or, List.length_cons]
      omega
    · by_cases h2 : o.filter = b
      · simp only [h2, hab.symm, hbc, if_true, if_false, true_or, or_true, List.length_cons]
        omega
      · by_cases h3 : o.filter = c
        · simp only [h3, hac.symm, hbc.symm, if_true, if_false, or_true, List.length_cons]
          omega
        · simp only [h1, h2, h3, if_false, or_self]
          omega

/-- **C326.** `multi_detect`, `multi_color_detect`, `red_color_detect` and `blue_color_detect` are one if and only if among the visits up to thirty days
after the peak in which the kilonova is seen there are as many as needed, two filters, four in i, z, y and four in u, g, r. -/
theorem kn_spec (needed minDet : ℕ) (l : List (Obs K)) :
    (multiDetect needed (around l) = 1 ↔ needed ≤ (l.countP fun o => decide (o.mag < o.m5 ∧ 0 < o.t ∧ o.t < 30))) ∧
    (multiColor (around l) = 1 ↔ ∃ a ∈ l, ∃ b ∈ l, SeenIn 0 30 a ∧ SeenIn 0 30 b ∧ a.filter ≠ b.filter) ∧
    (redColor minDet (around l) = 1 ↔ minDet ≤ l.countP fun o => decide (o.filter ∈ ['i', 'z', 'y'] ∧ o.mag < o.m5 ∧ 0 < o.t ∧ o.t < 30)) ∧
    (blueColor minDet (around l) = 1 ↔ minDet ≤ l.countP fun o => decide (o.filter ∈ ['u', 'g', 'r'] ∧ o.mag < o.m5 ∧ 0 < o.t ∧ o.t < 30)) := by
  have key : ∀ q : Obs K → Bool, (around l).countP q = l.countP fun o => q o && decide (o.mag < o.m5 ∧ 0 < o.t ∧ o.t < 30) := by
    intro q
    unfold around
    rw [List.countP_filter]
    congr 1
    funext o
    unfold det
    rw [Bool.eq_iff_iff]
    simp only [Bool.and_eq_true, decide_eq_true_eq]
    tauto
  refine ⟨?_, ?_, ?_, ?_⟩
  · have e := key fun _ => true
    rw [List.countP_true] at e
    simp only [Bool.true_and] at e
    unfold multiDetect
    rw [e]
    split_ifs with h
    · simp only [zero_ne_one, false_iff]
      omega
    · simp only [true_iff]
      omega
  · have e : multiColor (around l) = 1 ↔ 2 ≤ nFilters (around l) := by
      unfold multiColor
      split_ifs <;> simp <;> omega
    rw [e, nFilters_two]
    simp only [mem_around]
    constructor
    · rintro ⟨a, ⟨ha, sa⟩, b, ⟨hb, sb⟩, h⟩
      exact ⟨a, ha, b, hb, sa, sb, h⟩
    · rintro ⟨a, ha, b, hb, sa, sb, h⟩
      exact ⟨a, ⟨ha, sa⟩, b, ⟨hb, sb⟩, h⟩
  · unfold redColor
    rw [inFilter_three _ 'i' 'z' 'y' (by decide) (by decide) (by decide), key]
    simp only [← Bool.decide_and]
    split_ifs with h
    · simp only [zero_ne_one, false_iff]
      omega
    · simp only [true_iff]
      omega
  · unfold blueColor
    rw [inFilter_three _ 'u' 'g' 'r' (by decide) (by decide) (by decide), key]
    simp only [← Bool.decide_and]
    split_ifs with h
    · simp only [zero_ne_one, false_iff]
      omega
    · simp only [true_iff]
      omega

/-- **C326.** `multi_color_detect` is documented to need two detections, which two filters give. -/
theorem color_two (l : List (Obs K)) (h : multiColor l = 1) : multiDetect 2 l = 1 := by
  have e : 2 ≤ nFilters l := by
    unfold multiColor at h
    split_ifs at h
    omega
  have : nFilters l ≤ l.length := by
    unfold nFilters
    exact (List.dedup_sublist _).length_le.trans (by simp)
  unfold multiDetect
  rw [if_neg (by omega)]

example : multiDetect 2 (around ([⟨'g', 1, 20, 0, 24⟩, ⟨'r', 2, 20, 0, 24⟩, ⟨'r', 31, 20, 0, 24⟩] : List (Obs ℚ))) = 1 := by decide +kernel

/-! ## Fast transients -/

theorem faintest_spec (l : List (Obs K)) (m : Obs K) (h : faintest l = some m) : m ∈ l ∧ ∀ o ∈ l, o.mag ≤ m.mag := by
  cases l with
  | nil => cases h
  | cons a l =>
    have e := Option.some.inj h
    clear h
    subst e
    induction l generalizing a with
    | nil => simp
    | cons b l ih =>
      rw [List.foldl_cons]
      obtain ⟨h1, h2⟩ := ih (if a.mag < b.mag then b else a)
      constructor
      · rcases List.mem_cons.mp h1 with e | e
        · rw [e]
          split_ifs <;> simp
        · exact List.mem_cons_of_mem _ (List.mem_cons_of_mem _ e)
      · have h3 := h2 _ (List.mem_cons_self ..)
        have ha : a.mag ≤ (if a.mag < b.mag then b else a).mag := by split_ifs with hc; exacts [hc.le, le_rfl]
        have hb : b.mag ≤ (if a.mag < b.mag then b else a).mag := by split_ifs with hc; exacts [le_rfl, not_lt.mp hc]
        intro o ho
        rcases List.mem_cons.mp ho with rfl | ho
        · exact ha.trans h3
        · rcases List.mem_cons.mp ho with rfl | ho
          · exact hb.trans h3
          · exact h2 o (List.mem_cons_of_mem _ ho)

theorem brightest_spec (l : List (Obs K)) (m : Obs K) (h : brightest l = some m) : m ∈ l ∧ ∀ o ∈ l, m.mag ≤ o.mag := by
  cases l with
  | nil => cases h
  | cons a l =>
    have e := Option.some.inj h
    clear h
    subst e
    induction l generalizing a with
    | nil => simp
    | cons b l ih =>
      rw [List.foldl_cons]
      obtain ⟨h1, h2⟩ := ih (if b.mag < a.mag then b else a)
      constructor
      · rcases List.mem_cons.mp h1 with e | e
        · rw [e]
          split_ifs <;> simp
        · exact List.mem_cons_of_mem _ (List.mem_cons_of_mem _ e)
      · have h3 := h2 _ (List.mem_cons_self ..)
        have ha : (if b.mag < a.mag then b else a).mag ≤ a.mag := by split_ifs with hc; exacts [hc.le, le_rfl]
        have hb : (if b.mag < a.mag then b else a).mag ≤ b.mag := by split_ifs with hc; exacts [le_rfl, not_lt.mp hc]
        intro o ho
        rcases List.mem_cons.mp ho with rfl | ho
        · exact h3.trans ha
        · rcases List.mem_cons.mp ho with rfl | ho
          · exact h3.trans hb
          · exact h2 o (List.mem_cons_of_mem _ ho)

/-- **C327.** A rate that is not zero is that between a faintest and a brightest visit of its band, more than `min_dt` apart and different by more than
their errors. -/
theorem rate_spec (minDt : K) (l : List (Obs K)) (f : Char) (h : rate minDt l f ≠ 0) :
    ∃ a ∈ l, ∃ b ∈ l, a.filter = f ∧ b.filter = f ∧ (∀ o ∈ l, o.filter = f → b.mag ≤ o.mag ∧ o.mag ≤ a.mag) ∧
      minDt < |a.t - b.t| ∧ b.mag + b.unc < a.mag - a.unc ∧ rate minDt l f = (a.mag - b.mag) / (a.t - b.t) := by
  unfold rate at h ⊢
  cases hA : faintest (l.filter fun o => decide (o.filter = f)) with
  | none => simp [hA] at h
  | some a =>
    cases hB : brightest (l.filter fun o => decide (o.filter = f)) with
    | none => simp [hA, hB] at h
    | some b =>
      rw [hA, hB] at h
      dsimp only at h ⊢
      obtain ⟨ma, fa⟩ := faintest_spec _ a hA
      obtain ⟨mb, fb⟩ := brightest_spec _ b hB
      simp only [List.mem_filter, decide_eq_true_eq] at ma mb fa fb
      by_cases hc : minDt < |a.t - b.t| ∧ b.mag + b.unc < a.mag - a.unc
      · exact ⟨a, ma.1, b, mb.1, ma.2, mb.2, fun o ho e => ⟨fb o ⟨ho, e⟩, fa o ⟨ho, e⟩⟩, hc.1, hc.2, if_pos hc⟩
      · rw [if_neg hc] at h
        exact absurd rfl h

theorem maxL_spec (l : List K) (m : K) (h : maxL l = some m) : m ∈ l ∧ ∀ x ∈ l, x ≤ m := by
  cases l with
  | nil => cases h
  | cons a l =>
    have e := Option.some.inj h
    clear h
    subst e
    induction l generalizing a with
    | nil => simp
    | cons b l ih =>
      rw [List.foldl_cons]
      obtain ⟨h1, h2⟩ := ih (max a b)
      have h3 := h2 _ (List.mem_cons_self ..)
      constructor
      · rcases List.mem_cons.mp h1 with e | e
        · rw [e]
          rcases max_choice a b with e | e <;> rw [e] <;> simp
        · exact List.mem_cons_of_mem _ (List.mem_cons_of_mem _ e)
      · intro o ho
        rcases List.mem_cons.mp ho with rfl | ho
        · exact (le_max_left _ _).trans h3
        · rcases List.mem_cons.mp ho with rfl | ho
          · exact (le_max_right _ _).trans h3
          · exact h2 o (List.mem_cons_of_mem _ ho)

theorem minL_spec (l : List K) (m : K) (h : minL l = some m) : m ∈ l ∧ ∀ x ∈ l, m ≤ x := by
  cases l with
  | nil => cases h
  | cons a l =>
    have e := Option.some.inj h
    clear h
    subst e
    induction l generalizing a with
    | nil => simp
    | cons b l ih =>
      rw [List.foldl_cons]
      obtain ⟨h1, h2⟩ := ih (min a b)
      have h3 := h2 _ (List.mem_cons_self ..)
      constructor
      · rcases List.mem_cons.mp h1 with e | e
        · rw [e]
          rcases min_choice a b with e | e <;> rw [e] <;> simp
        · exact List.mem_cons_of_mem _ (List.mem_cons_of_mem _ e)
      · intro o ho
        rcases List.mem_cons.mp ho with rfl | ho
        · exact h3.trans (min_le_left _ _)
        · rcases List.mem_cons.mp ho with rfl | ho
          · exact h3.trans (min_le_right _ _)
          · exact h2 o (List.mem_cons_of_mem _ ho)

theorem span_spec [IsStrictOrderedRing K] (l : List (Obs K)) (hl : l ≠ []) (minDt : K) :
    ∃ s, span l = some s ∧ (minDt ≤ s ↔ ∃ a ∈ l, ∃ b ∈ l, minDt ≤ a.t - b.t) := by
  cases l with
  | nil => exact absurd rfl hl
  | cons o l =>
    obtain ⟨m, hm⟩ : ∃ m, maxL ((o :: l).map Obs.t) = some m := ⟨_, rfl⟩
    obtain ⟨n, hn⟩ : ∃ n, minL ((o :: l).map Obs.t) = some n := ⟨_, rfl⟩
    refine ⟨m - n, by unfold span; rw [hm, hn]; rfl, ?_⟩
    obtain ⟨m1, m2⟩ := maxL_spec _ _ hm
    obtain ⟨n1, n2⟩ := minL_spec _ _ hn
    obtain ⟨a, ha, rfl⟩ := List.mem_map.mp m1
    obtain ⟨b, hb, rfl⟩ := List.mem_map.mp n1
    constructor
    · exact fun h => ⟨a, ha, b, hb, h⟩
    · rintro ⟨c, hc, d, hd, h⟩
      have := m2 c.t (List.mem_map_of_mem hc)
      have := n2 d.t (List.mem_map_of_mem hd)
      linarith

/-- **C327.** A kilonova passes if and only if there are as many visits as needed, two of them `min_dt` apart, and some band that is looked at has a rate
of fading or rising as large as the limits; the order in which the bands are met does not matter. -/
theorem ztf_spec [IsStrictOrderedRing K] (needed : ℕ) (minDt minFade maxRise : K) (ok : Char → Bool) (order : List Char) (l : List (Obs K)) (hl : l ≠ [])
    (ho : ∀ c, c ∈ order ↔ ∃ o ∈ l, o.filter = c) :
    ∃ r, ztf needed minDt minFade maxRise ok order l = some r ∧ (r = 0 ∨ r = 1) ∧
      (r = 1 ↔ needed ≤ l.length ∧ (∃ a ∈ l, ∃ b ∈ l, minDt ≤ a.t - b.t) ∧
        ∃ o ∈ l, ok o.filter = true ∧ (minFade ≤ rate minDt l o.filter ∨ rate minDt l o.filter ≤ maxRise)) := by
  obtain ⟨s, hs, hs2⟩ := span_spec l hl minDt
  unfold ztf
  rw [hs]
  by_cases h1 : l.length < needed
  · refine ⟨0, if_pos h1, Or.inl rfl, ?_⟩
    simp only [zero_ne_one, false_iff]
    rintro ⟨h, _⟩
    omega
  rw [if_neg h1, Option.bind_some]
  by_cases h2 : s < minDt
  · refine ⟨0, if_pos h2, Or.inl rfl, ?_⟩
    simp only [zero_ne_one, false_iff]
    rintro ⟨_, h, _⟩
    exact absurd (hs2.mpr h) (not_le.mpr h2)
  rw [if_neg h2]
  dsimp only
  have hmem : ∀ x, x ∈ (order.filter ok).map (rate minDt l) ↔ ∃ o ∈ l, ok o.filter = true ∧ rate minDt l o.filter = x := by
    intro x
    simp only [List.mem_map, List.mem_filter, ho]
    constructor
    · rintro ⟨c, ⟨⟨o, ho, rfl⟩, hk⟩, rfl⟩
      exact ⟨o, ho, hk, rfl⟩
    · rintro ⟨o, ho, hk, rfl⟩
      exact ⟨o.filter, ⟨⟨o, ho, rfl⟩, hk⟩, rfl⟩
  cases hr : (order.filter ok).map (rate minDt l) with
  | nil =>
    refine ⟨0, rfl, Or.inl rfl, ?_⟩
    simp only [zero_ne_one, false_iff]
    rintro ⟨_, _, o, ho, hk, _⟩
    have := (hmem _).mpr ⟨o, ho, hk, rfl⟩
    rw [hr] at this
    cases this
  | cons x xs =>
    obtain ⟨m, hm⟩ : ∃ m, maxL (x :: xs) = some m := ⟨_, rfl⟩
    obtain ⟨n, hn⟩ : ∃ n, minL (x :: xs) = some n := ⟨_, rfl⟩
    rw [hm, hn]
    dsimp only
    obtain ⟨m1, m2⟩ := maxL_spec _ _ hm
    obtain ⟨n1, n2⟩ := minL_spec _ _ hn
    rw [← hr] at m1 m2 n1 n2
    by_cases hc : m < minFade ∧ maxRise < n
    · refine ⟨0, if_pos hc, Or.inl rfl, ?_⟩
      simp only [zero_ne_one, false_iff]
      rintro ⟨_, _, o, ho, hk, h | h⟩
      · exact absurd (h.trans (m2 _ ((hmem _).mpr ⟨o, ho, hk, rfl⟩))) (not_le.mpr hc.1)
      · exact absurd ((n2 _ ((hmem _).mpr ⟨o, ho, hk, rfl⟩)).trans h) (not_le.mpr hc.2)
    · refine ⟨1, if_neg hc, Or.inr rfl, ?_⟩
      simp only [true_iff]
      refine ⟨by omega, hs2.mp (not_lt.mp h2), ?_⟩
      rw [not_and_or, not_lt, not_lt] at hc
      rcases hc with hc | hc
      · obtain ⟨o, ho, hk, e⟩ := (hmem _).mp m1
        exact ⟨o, ho, hk, Or.inl (by rw [e]; exact hc)⟩
      · obtain ⟨o, ho, hk, e⟩ := (hmem _).mp n1
        exact ⟨o, ho, hk, Or.inr (by rw [e]; exact hc)⟩

/-- **C327.** So one that passes in the red or blue bands passes in all. -/
theorem ztf_bands [IsStrictOrderedRing K] (needed : ℕ) (minDt minFade maxRise : K) (ok : Char → Bool) (order order' : List Char) (l : List (Obs K))
    (hl : l ≠ []) (ho : ∀ c, c ∈ order ↔ ∃ o ∈ l, o.filter = c) (ho' : ∀ c, c ∈ order' ↔ ∃ o ∈ l, o.filter = c)
    (h : ztf needed minDt minFade maxRise ok order l = some 1) : ztf needed minDt minFade maxRise (fun _ => true) order' l = some 1 := by
  obtain ⟨r, e, _, hr⟩ := ztf_spec needed minDt minFade maxRise ok order l hl ho
  obtain ⟨r', e', _, hr'⟩ := ztf_spec needed minDt minFade maxRise (fun _ => true) order' l hl ho'
  rw [e] at h
  obtain ⟨h1, h2, o, hm, _, h3⟩ := hr.mp (Option.some.inj h)
  rw [e', hr'.mpr ⟨h1, h2, o, hm, rfl, h3⟩]

/-- **C327.** With no visit needed and none there is an exception. -/
theorem ztf_empty (minDt minFade maxRise : K) (ok : Char → Bool) (order : List Char) : ztf 0 minDt minFade maxRise ok order [] = none := rfl

/-- **C327.** A further visit may lose a kilonova: the rate is between the extremes only. -/
theorem ztf_more_false : ¬ ∀ (l : List (Obs ℚ)) (o : Obs ℚ),
    ztf 2 (1 / 8) (3 / 10) (-1) (fun _ => true) ['r'] l = some 1 → o.filter = 'r' → ztf 2 (1 / 8) (3 / 10) (-1) (fun _ => true) ['r'] (l ++ [o]) = some 1 := by
  intro h
  have := h [⟨'r', 1, 20, 1 / 10, 24⟩, ⟨'r', 2, 21, 1 / 10, 24⟩] ⟨'r', 20, 43 / 2, 1 / 10, 24⟩ (by decide +kernel) rfl
  exact absurd this (by decide +kernel)

example : ztf 2 (1 / 8) (3 / 10) (-1) (fun c => decide (c ∈ ['i', 'z', 'y'])) ['i', 'g']
    ([⟨'i', 1, 20, 1 / 10, 24⟩, ⟨'g', 1, 20, 1 / 10, 24⟩, ⟨'i', 2, 21, 1 / 10, 24⟩] : List (Obs ℚ)) = some 1 := by decide +kernel

/-! ## Presto -/

theorem foldl_max_ge (l : List ℕ) (a : ℕ) : 2 ≤ l.foldl max a ↔ 2 ≤ a ∨ ∃ x ∈ l, 2 ≤ x := by
  induction l generalizing a with
  | nil => simp
  | cons b l ih =>
    rw [List.foldl_cons, ih, le_max_iff]
    simp only [List.mem_cons, exists_eq_or_imp]
    tauto

/-- **C328.** The presto criterion is three detections, two filters, and one filter with two detections. -/
theorem presto_spec (l : List (Obs K)) : presto l = 1 ↔
    3 ≤ l.length ∧ (∃ a ∈ l, ∃ b ∈ l, a.filter ≠ b.filter) ∧ ∃ c, 2 ≤ l.countP fun o => decide (o.filter = c) := by
  rw [← nFilters_two]
  have hc : (∃ c, 2 ≤ l.countP fun o => decide (o.filter = c)) ↔ 2 ≤ ((l.map Obs.filter).dedup.map fun c => inFilter c l).foldl max 0 := by
    rw [foldl_max_ge]
    simp only [List.mem_map, List.mem_dedup, exists_exists_and_eq_and, inFilter, ← List.countP_eq_length_filter]
    constructor
    · rintro ⟨c, h⟩
      right
      have : 0 < l.countP fun o => decide (o.filter = c) := by omega
      obtain ⟨o, ho, e⟩ := List.countP_pos_iff.mp this
      have e := of_decide_eq_true e
      exact ⟨o, ho, by rw [e]; exact h⟩
    · rintro (h | ⟨o, _, h⟩)
      · omega
      · exact ⟨_, h⟩
  rw [hc]
  unfold presto nFilters
  dsimp only
  rw [List.length_map]
  split_ifs <;> simp <;> omega

/-- **C328.** With exactly two filters three detections suffice. -/
theorem presto_two (l : List (Obs K)) (a b : Char) (h3 : 3 ≤ l.length) (hf : ∀ o ∈ l, o.filter = a ∨ o.filter = b)
    (ha : ∃ o ∈ l, o.filter = a) (hb : ∃ o ∈ l, o.filter = b) (hab : a ≠ b) : presto l = 1 := by
  rw [presto_spec]
  obtain ⟨x, hx, ex⟩ := ha
  obtain ⟨y, hy, ey⟩ := hb
  refine ⟨h3, ⟨x, hx, y, hy, by rw [ex, ey]; exact hab⟩, ?_⟩
  have e : l.length = (l.countP fun o => decide (o.filter = a)) + l.countP fun o => decide (o.filter = b) := by
    clear h3 hx hy
    induction l with
    | nil => rfl
    | cons o l ih =>
      have := ih fun o ho => hf o (List.mem_cons_of_mem _ ho)
      rw [List.length_cons, List.countP_cons, List.countP_cons, this]
      rcases hf o (by simp) with h | h
      · simp [h, hab]
        omega
      · simp [h, hab.symm]
        omega
  by_cases h : 2 ≤ l.countP fun o => decide (o.filter = a)
  · exact ⟨a, h⟩
  · exact ⟨b, by omega⟩

/-- **C328.** Of the two observations in one band the nearer in time to that in the other is taken for the colour, and the triplet only if they are no more
than the first limit apart. -/
theorem choose_spec (lim1 : K) (a b c : Pt K) :
    (∀ p q, choose lim1 a b c = some (p, q) → (p = a ∧ q = b ∨ p = b ∧ q = a) ∧ |gap p c| ≤ |gap q c| ∧ |gap p c| ≤ lim1) ∧
    (choose lim1 a b c = none ↔ lim1 < |gap a c| ∧ (lim1 ≤ |gap b c| ∨ |gap a c| ≤ |gap b c|)) := by
  unfold choose
  constructor
  · intro p q h
    split_ifs at h with h1 h2
    · obtain ⟨rfl, rfl⟩ := Prod.mk.inj (Option.some.inj h)
      exact ⟨Or.inr ⟨rfl, rfl⟩, h1.1.le, h1.2.le⟩
    · obtain ⟨rfl, rfl⟩ := Prod.mk.inj (Option.some.inj h)
      refine ⟨Or.inl ⟨rfl, rfl⟩, ?_, not_lt.mp h2⟩
      by_contra hc
      exact h1 ⟨not_le.mp hc, (not_le.mp hc).trans_le (not_lt.mp h2)⟩
  · split_ifs with h1 h2
    · simp only [reduceCtorEq, false_iff]
      rintro ⟨_, h | h⟩
      · exact absurd h1.2 (not_lt.mpr h)
      · exact absurd h1.1 (not_lt.mpr h)
    · simp only [true_iff]
      refine ⟨h2, ?_⟩
      by_cases h3 : |gap b c| < lim1
      · right
        by_contra hc
        exact h1 ⟨not_le.mp hc, h3⟩
      · exact Or.inl (not_lt.mp h3)
    · simp only [reduceCtorEq, false_iff]
      rintro ⟨h, _⟩
      exact h2 h

/-- **C328.** The change of magnitude of a triplet is the earlier minus the later, whichever is taken for the colour. -/
theorem coords_dmag [IsStrictOrderedRing K] (lim1 : K) (a b c : Pt K) (hab : a.t < b.t) (r : K × K × K × K) (h : coords lim1 a b c = some r) :
    r.2.2.1 = a.mag - b.mag := by
  unfold coords at h
  obtain ⟨⟨p, q⟩, hp, rfl⟩ := Option.map_eq_some_iff.mp h
  obtain ⟨he, _⟩ := (choose_spec lim1 a b c).1 p q hp
  rcases he with ⟨rfl, rfl⟩ | ⟨rfl, rfl⟩
  · have : 0 < gap p q := sub_pos.mpr hab
    simp [sign, this]
  · have : gap p q < 0 := sub_neg.mpr hab
    simp [sign, this, this.not_gt]

/-- **C328.** But for two observations at the same time it is zero, whatever their magnitudes. -/
theorem coords_same_time (lim1 : K) (a b c : Pt K) (hab : a.t = b.t) (r : K × K × K × K) (h : coords lim1 a b c = some r) : r.2.2.1 = 0 := by
  unfold coords at h
  obtain ⟨⟨p, q⟩, hp, rfl⟩ := Option.map_eq_some_iff.mp h
  obtain ⟨he, _⟩ := (choose_spec lim1 a b c).1 p q hp
  rcases he with ⟨rfl, rfl⟩ | ⟨rfl, rfl⟩ <;> simp [sign, gap, hab]

example : presto ([⟨'g', 1, 20, 0, 24⟩, ⟨'r', 2, 20, 0, 24⟩, ⟨'r', 3, 20, 0, 24⟩] : List (Obs ℚ)) = 1 := by decide +kernel

theorem scoreS_aux (thr : K) (rates : List K) (s : ℕ) (hs : s = 0 ∨ s = 1) :
    (rates.foldl (fun s r => if s = 0 ∧ r < thr then 1 else s) s = 0 ∨ rates.foldl (fun s r => if s = 0 ∧ r < thr then 1 else s) s = 1) ∧
    (rates.foldl (fun s r => if s = 0 ∧ r < thr then 1 else s) s = 1 ↔ s = 1 ∨ ∃ r ∈ rates, r < thr) := by
  induction rates generalizing s with
  | nil => simp [hs]
  | cons r rates ih =>
    rw [List.foldl_cons]
    obtain ⟨h1, h2⟩ := ih (if s = 0 ∧ r < thr then 1 else s) (by split_ifs; exacts [Or.inr rfl, hs])
    refine ⟨h1, h2.trans ?_⟩
    simp only [List.mem_cons, exists_eq_or_imp]
    rcases hs with rfl | rfl
    · by_cases h : r < thr <;> simp [h]
    · simp

theorem foldl_max_spec (l : List K) (a : K) : a ≤ l.foldl max a ∧ (∀ x ∈ l, x ≤ l.foldl max a) ∧ (l.foldl max a = a ∨ l.foldl max a ∈ l) := by
  induction l generalizing a with
  | nil => simp
  | cons b l ih =>
    rw [List.foldl_cons]
    obtain ⟨h1, h2, h3⟩ := ih (max a b)
    refine ⟨(le_max_left _ _).trans h1, ?_, ?_⟩
    · intro x hx
      rcases List.mem_cons.mp hx with rfl | hx
      · exact (le_max_right _ _).trans h1
      · exact h2 x hx
    · rcases h3 with h | h
      · rw [h]
        rcases max_choice a b with e | e
        · exact Or.inl e
        · exact Or.inr (by rw [e]; simp)
      · exact Or.inr (List.mem_cons_of_mem _ h)

/-- **C329.** The S score is one if and only if some triplet is rarer than the threshold; the P score is the largest of zero and one minus a rate, so from
zero to one for rates that are; an S score of one has a P score above one minus the threshold. -/
theorem scores_spec [IsStrictOrderedRing K] (thr : K) (rates : List K) (h0 : ∀ r ∈ rates, 0 ≤ r) :
    ((scores thr rates).1 = 0 ∨ (scores thr rates).1 = 1) ∧ ((scores thr rates).1 = 1 ↔ ∃ r ∈ rates, r < thr) ∧
    0 ≤ (scores thr rates).2 ∧ (scores thr rates).2 ≤ 1 ∧ (∀ r ∈ rates, 1 - r ≤ (scores thr rates).2) ∧
    ((scores thr rates).2 = 0 ∨ ∃ r ∈ rates, (scores thr rates).2 = 1 - r) ∧
    ((scores thr rates).1 = 1 → 1 - thr < (scores thr rates).2) := by
  obtain ⟨a1, a2⟩ := scoreS_aux thr rates 0 (Or.inl rfl)
  obtain ⟨b1, b2, b3⟩ := foldl_max_spec (rates.map fun r => 1 - r) 0
  have c2 : (scores thr rates).1 = 1 ↔ ∃ r ∈ rates, r < thr := by
    refine a2.trans ?_
    simp
  have c5 : ∀ r ∈ rates, 1 - r ≤ (scores thr rates).2 := fun r hr => b2 _ (List.mem_map.mpr ⟨r, hr, rfl⟩)
  have c6 : (scores thr rates).2 = 0 ∨ ∃ r ∈ rates, (scores thr rates).2 = 1 - r := by
    rcases b3 with h | h
    · exact Or.inl h
    · obtain ⟨r, hr, e⟩ := List.mem_map.mp h
      exact Or.inr ⟨r, hr, e.symm⟩
  refine ⟨a1, c2, b1, ?_, c5, c6, ?_⟩
  · rcases c6 with h | ⟨r, hr, h⟩
    · rw [h]
      exact zero_le_one
    · rw [h]
      linarith [h0 r hr]
  · intro h
    obtain ⟨r, hr, hlt⟩ := c2.mp h
    linarith [c5 r hr]

/-- **C329.** The table is that of the file of the region, as long as the files are the same in all calls. -/
theorem loadHash_partial {T : Type} (read : String → T) (kept : Option (Hash T)) (fg fe region : String)
    (hr : region = "galactic" ∨ region = "extragalactic")
    (hk : ∀ h, kept = some h → (h.region = "galactic" → h.table = read fg) ∧ (h.region = "extragalactic" → h.table = read fe)) :
    ∃ h, loadHash read kept fg fe region = some (if region = "galactic" then read fg else read fe, h) ∧
      (h.region = "galactic" → h.table = read fg) ∧ (h.region = "extragalactic" → h.table = read fe) := by
  have ne : ("extragalactic" : String) ≠ "galactic" := by decide
  have fresh : kept = none ∨ (∃ h, kept = some h ∧ region ≠ h.region) →
      ∃ h, loadHash read kept fg fe region = some (if region = "galactic" then read fg else read fe, h) ∧
      (h.region = "galactic" → h.table = read fg) ∧ (h.region = "extragalactic" → h.table = read fe) := by
    intro hf
    have e : loadHash read kept fg fe region =
        if region = "galactic" then some (read fg, ⟨region, read fg⟩) else if region = "extragalactic" then some (read fe, ⟨region, read fe⟩) else none := by
      unfold loadHash
      rcases hf with rfl | ⟨h, rfl, hn⟩
      · rfl
      · dsimp only
        rw [if_neg hn]
    rw [e]
    rcases hr with rfl | rfl
    · exact ⟨⟨_, read fg⟩, by simp, fun _ => rfl, fun h => absurd h.symm ne⟩
    · refine ⟨⟨_, read fe⟩, ?_, fun h => absurd h ne, fun _ => rfl⟩
      rw [if_neg ne, if_pos rfl, if_neg ne]
  cases kept with
  | none => exact fresh (Or.inl rfl)
  | some h =>
    by_cases e : region = h.region
    · obtain ⟨h1, h2⟩ := hk h rfl
      refine ⟨h, ?_, h1, h2⟩
      unfold loadHash
      dsimp only
      rw [if_pos e]
      rcases hr with r | r
      · rw [if_pos r, h1 (e ▸ r)]
      · rw [r, if_neg ne, h2 (e ▸ r)]
    · exact fresh (Or.inr ⟨h, rfl, e⟩)

/-- **C329.** With another file for the same region the table of the first is returned. -/
theorem loadHash_false : ¬ ∀ (read : String → ℕ) (kept : Option (Hash ℕ)) (fg fe : String) (t : ℕ) (h : Hash ℕ),
    (kept = none ∨ ∃ fg' fe' k r t', loadHash read k fg' fe' r = some (t', ⟨r, t'⟩) ∧ kept = some ⟨r, t'⟩) →
    loadHash read kept fg fe "galactic" = some (t, h) → t = read fg := by
  intro h
  have := h String.length (some ⟨"galactic", 1⟩) "ab" "ab" 1 ⟨"galactic", 1⟩
    (Or.inr ⟨"a", "a", none, "galactic", 1, by rfl, rfl⟩) (by rfl)
  exact absurd this (by decide +kernel)

/-- **C329.** An unknown region is an exception unless it is that of the table kept, which it cannot be. -/
theorem loadHash_unknown {T : Type} (read : String → T) (kept : Option (Hash T)) (fg fe region : String)
    (hr : region ≠ "galactic" ∧ region ≠ "extragalactic") (hk : ∀ h, kept = some h → h.region = "galactic" ∨ h.region = "extragalactic") :
    loadHash read kept fg fe region = none := by
  unfold loadHash
  cases kept with
  | none => simp [hr.1, hr.2]
  | some h =>
    have : region ≠ h.region := by
      rcases hk h rfl with e | e <;> rw [e]
      exacts [hr.1, hr.2]
    simp [hr.1, hr.2, this]

/-- **C329.** The two regions share no event, and leave out only those at the latitude of the cut. -/
theorem keepRegion_spec (cut : K) (gb : List K) :
    (keepRegion "galactic" cut gb).length + (keepRegion "extragalactic" cut gb).length + (gb.countP fun b => decide (|b| = cut)) = gb.length ∧
    (∀ b ∈ keepRegion "galactic" cut gb, |b| < cut) ∧ (∀ b ∈ keepRegion "extragalactic" cut gb, cut < |b|) := by
  have ne : ("extragalactic" : String) ≠ "galactic" := by decide
  unfold keepRegion
  rw [if_pos rfl, if_neg ne, if_pos rfl]
  refine ⟨?_, by simp, by simp⟩
  induction gb with
  | nil => rfl
  | cons b gb ih =>
    rw [List.filter_cons, List.filter_cons, List.countP_cons, List.length_cons, ← ih]
    rcases lt_trichotomy |b| cut with h | h | h
    · simp [h, h.ne, h.not_gt]
      omega
    · simp [h]
      omega
    · simp [h, h.ne', h.not_gt]
      omega

example : scores (1 / 10 : ℚ) [1 / 2, 1 / 20] = (1, 19 / 20) := by decide +kernel

/-! ## Random parameters -/

/-- **C330.** For a draw from zero to one the distance is between the limits, and the share of draws below `x` is `(x^g - a^g)/(b^g - a^g)`. -/
theorem rndm_spec (a b g r : ℝ) (ha : 0 < a) (hab : a < b) (hg : 0 < g) (h0 : 0 ≤ r) (h1 : r < 1) :
    a ≤ rndm a b g r ∧ rndm a b g r < b ∧
    ∀ x, 0 ≤ x → (rndm a b g r ≤ x ↔ r ≤ (x ^ g - a ^ g) / (b ^ g - a ^ g)) := by
  have hb : 0 < b := ha.trans hab
  have hlt : a ^ g < b ^ g := Real.rpow_lt_rpow ha.le hab hg
  have hag : 0 < a ^ g := Real.rpow_pos_of_pos ha g
  have hd : 0 < b ^ g - a ^ g := sub_pos.mpr hlt
  have hy : 0 < a ^ g + (b ^ g - a ^ g) * r := by positivity
  have key : ∀ x, 0 ≤ x → (rndm a b g r ≤ x ↔ a ^ g + (b ^ g - a ^ g) * r ≤ x ^ g) := by
    intro x hx
    unfold rndm
    rw [one_div, Real.rpow_inv_le_iff_of_pos hy.le hx hg]
  have key2 : ∀ x, 0 ≤ x → (x ≤ rndm a b g r ↔ x ^ g ≤ a ^ g + (b ^ g - a ^ g) * r) := by
    intro x hx
    unfold rndm
    rw [one_div, Real.le_rpow_inv_iff_of_pos hx hy.le hg]
  refine ⟨?_, ?_, ?_⟩
  · rw [key2 a ha.le]
    nlinarith
  · rw [← not_le, key2 b hb.le, not_le]
    nlinarith
  · intro x hx
    rw [key x hx, le_div_iff₀ hd]
    constructor <;> intro h <;> linarith

/-- **C330.** With the exponent 4 that is used the share of events out to half of a large distance is a sixteenth; in a uniform volume it is an eighth. -/
theorem rndm_volume_false : ¬ ∀ b r x : ℝ, 1 < b → 0 ≤ r → r < 1 → 1 ≤ x → x ≤ b → (rndm 1 b 4 r ≤ x ↔ r ≤ (x ^ 3 - 1) / (b ^ 3 - 1)) := by
  intro h
  have a := h 3 (1 / 5) 2 (by norm_num) (by norm_num) (by norm_num) (by norm_num) (by norm_num)
  rw [(rndm_spec 1 3 4 (1 / 5) (by norm_num) (by norm_num) (by norm_num) (by norm_num) (by norm_num)).2.2 2 (by norm_num)] at a
  have e2 : (2 : ℝ) ^ (4 : ℝ) = 16 := by
    rw [show (4 : ℝ) = ((4 : ℕ) : ℝ) by norm_num, Real.rpow_natCast]
    norm_num
  have e3 : (3 : ℝ) ^ (4 : ℝ) = 81 := by
    rw [show (4 : ℝ) = ((4 : ℕ) : ℝ) by norm_num, Real.rpow_natCast]
    norm_num
  rw [e2, e3, Real.one_rpow] at a
  norm_num at a

/-- **C330.** The index of the light curve is that of a file. -/
theorem fileIndx_spec (n : ℕ) (r : ℝ) (hn : 0 < n) (h0 : 0 ≤ r) (h1 : r < 1) : 0 ≤ fileIndx n r ∧ fileIndx n r < n := by
  have hn' : (0 : ℝ) < n := by exact_mod_cast hn
  unfold fileIndx
  constructor
  · apply Int.floor_nonneg.mpr
    rw [sub_zero, zero_add]
    positivity
  · rw [Int.floor_lt, sub_zero, zero_add]
    push_cast
    nlinarith

/-- **C330.** A population is determined by the seed if the positions are drawn and `uniform_sphere` seeds the generator. -/
theorem knPop_partial {S P D : Type} (sphere : ℕ → S → P × S) (draws : S → D) (seed : ℕ) (hs : ∀ s s', sphere seed s = sphere seed s') (s s' : S) :
    knPop sphere draws seed none s = knPop sphere draws seed none s' := by
  unfold knPop
  dsimp only
  rw [hs s s']

/-- **C330.** With given positions the seed has no effect, and the times and distances depend on what was drawn before. -/
theorem knPop_false : (∀ (S P D : Type) (sphere : ℕ → S → P × S) (draws : S → D) (seed seed' : ℕ) (p : P) (s : S),
      knPop sphere draws seed (some p) s = knPop sphere draws seed' (some p) s) ∧
    ¬ ∀ (sphere : ℕ → ℕ → ℕ × ℕ) (draws : ℕ → ℕ) (seed p s s' : ℕ), (∀ s s', sphere seed s = sphere seed s') →
      knPop sphere draws seed (some p) s = knPop sphere draws seed (some p) s' := by
  refine ⟨fun _ _ _ _ _ _ _ _ _ => rfl, ?_⟩
  intro h
  have := h (fun n _ => (n, n)) id 0 0 0 1 (fun _ _ => rfl)
  exact absurd this (by decide)

example : rndm 1 2 1 (1 / 2) = 3 / 2 := by
  unfold rndm
  norm_num

/-! ## Files of kilonovae -/

theorem mapM_some_iff {A B : Type} (f : A → Option B) (l : List A) (r : List B) : l.mapM f = some r ↔ List.Forall₂ (fun a b => f a = some b) l r := by
  induction l generalizing r with
  | nil => cases r <;> simp
  | cons a l ih =>
    rw [List.mapM_cons]
    cases ha : f a with
    | none => cases r <;> simp [ha]
    | some b =>
      cases hl : l.mapM f with
      | none =>
        cases r with
        | nil => simp
        | cons c r =>
          simp only [Option.pure_def, Option.bind_eq_bind, Option.bind_some, Option.bind_none, reduceCtorEq, List.forall₂_cons, false_iff]
          rintro ⟨_, h⟩
          rw [(ih r).mpr h] at hl
          cases hl
      | some bs =>
        have h2 := (ih bs).mp hl
        cases r with
        | nil => simp
        | cons c r =>
          simp only [Option.pure_def, Option.bind_eq_bind, Option.bind_some, Option.some.injEq, List.cons.injEq, List.forall₂_cons, ha]
          refine and_congr Iff.rfl ?_
          rw [← ih r, hl, Option.some.injEq]

/-- What it is for a file to have the parameters: each is there and close to the value asked for. -/
def Fits (params inj : List (String × K)) : Prop :=
  ∀ kv ∈ inj, ∃ v, params.lookup kv.1 = some v ∧ |v - kv.2| ≤ 1 / 100000000 + 1 / 100000 * |kv.2|

theorem matches_spec (params inj : List (String × K)) (b : Bool) (h : matches? params inj = some b) : b = true ↔ Fits params inj := by
  unfold matches? at h
  obtain ⟨r, hr, rfl⟩ := Option.map_eq_some_iff.mp h
  rw [mapM_some_iff] at hr
  clear h
  induction hr with
  | nil => simp [Fits]
  | @cons a c l r h1 _ ih =>
    obtain ⟨v, hv, rfl⟩ := Option.map_eq_some_iff.mp h1
    rw [List.all_cons, Bool.and_eq_true, ih]
    unfold Fits
    simp only [List.forall_mem_cons]
    refine and_congr ?_ Iff.rfl
    rw [hv]
    simp [isclose]

/-- **C331.** Without parameters all files are returned. -/
theorem kne_all (files : List (String × List (String × K))) :
    kneFilenames files none = some (files.map Prod.fst) ∧ kneFilenames files (some []) = some (files.map Prod.fst) := ⟨rfl, rfl⟩

open Classical in
/-- **C331.** Otherwise a file is returned once for each set of parameters that it has, in the order of the files. -/
theorem kne_spec (files : List (String × List (String × K))) (inj : List (String × K)) (injs : List (List (String × K))) (r : List String)
    (h : kneFilenames files (some (inj :: injs)) = some r) :
    r = files.flatMap fun f => List.replicate ((inj :: injs).countP fun i => decide (Fits f.2 i)) f.1 := by
  unfold kneFilenames at h
  dsimp only at h
  generalize inj :: injs = L at h
  obtain ⟨rs, hrs, rfl⟩ := Option.map_eq_some_iff.mp h
  clear h
  rw [mapM_some_iff] at hrs
  induction hrs with
  | nil => rfl
  | @cons f c files rs h1 hrest ih =>
    rw [List.flatten_cons, List.flatMap_cons, ih]
    congr 1
    obtain ⟨cs, hcs, rfl⟩ := Option.map_eq_some_iff.mp h1
    rw [mapM_some_iff] at hcs
    clear ih h1 hrest
    induction hcs with
    | nil => rfl
    | @cons i d L cs h2 _ ih2 =>
      obtain ⟨b, hb, rfl⟩ := Option.map_eq_some_iff.mp h2
      rw [List.flatten_cons, ih2, List.countP_cons]
      have e := matches_spec f.2 i b hb
      cases b with
      | true =>
        have hf := e.mp rfl
        simp only [if_true, hf, decide_true]
        rw [List.replicate_succ]
        rfl
      | false =>
        have hf : ¬ Fits f.2 i := fun hh => absurd (e.mpr hh) (by simp)
        simp [hf]

/-- **C331.** So every file returned has one of the sets of parameters, and every file that has one is returned. -/
theorem kne_mem (files : List (String × List (String × K))) (inj : List (String × K)) (injs : List (List (String × K))) (r : List String)
    (h : kneFilenames files (some (inj :: injs)) = some r) (name : String) :
    name ∈ r ↔ ∃ f ∈ files, f.1 = name ∧ ∃ i ∈ inj :: injs, Fits f.2 i := by
  classical
  rw [kne_spec files inj injs r h, List.mem_flatMap]
  refine exists_congr fun f => and_congr Iff.rfl ?_
  rw [List.mem_replicate, ← Nat.pos_iff_ne_zero, List.countP_pos_iff]
  simp only [decide_eq_true_eq]
  constructor
  · rintro ⟨h1, h2⟩
    exact ⟨h2.symm, h1⟩
  · rintro ⟨h1, h2⟩
    exact ⟨h2, h1.symm⟩

/-- **C331.** A file may be returned twice. -/
theorem kne_once_false : ¬ ∀ (files : List (String × List (String × ℚ))) (injs : List (List (String × ℚ))) (r : List String),
    (files.map Prod.fst).Nodup → injs.Nodup → kneFilenames files (some injs) = some r → r.Nodup := by
  intro h
  have := h [("a", [("phi", 30), ("theta", 25)])] [[("phi", 30)], [("theta", 25)]] ["a", "a"] (by decide +kernel) (by decide +kernel) (by decide +kernel)
  exact absurd this (by decide +kernel)

/-- **C331.** A file that is of neither kind, or a parameter that no file has, is an exception. -/
theorem kne_key (files : List (String × List (String × K))) (inj : List (String × K)) (injs : List (List (String × K))) (f : String × List (String × K))
    (hf : f ∈ files) (kv : String × K) (hk : kv ∈ inj) (hn : f.2.lookup kv.1 = none) : kneFilenames files (some (inj :: injs)) = none := by
  rw [Option.eq_none_iff_forall_ne_some]
  intro r h
  unfold kneFilenames at h
  dsimp only at h
  obtain ⟨rs, hrs, _⟩ := Option.map_eq_some_iff.mp h
  rw [mapM_some_iff] at hrs
  have get : ∀ {A B : Type} (R : A → B → Prop) (l : List A) (m : List B), List.Forall₂ R l m → ∀ a ∈ l, ∃ b, R a b := by
    intro A B R l m hR
    induction hR with
    | nil => simp
    | cons h _ ih =>
      intro a ha
      rcases List.mem_cons.mp ha with rfl | ha
      · exact ⟨_, h⟩
      · exact ih a ha
  obtain ⟨x, hx⟩ := get _ _ _ hrs f hf
  obtain ⟨ys, hys, _⟩ := Option.map_eq_some_iff.mp hx
  rw [mapM_some_iff] at hys
  obtain ⟨y, hy⟩ := get _ _ _ hys inj (by simp)
  obtain ⟨b, hb, _⟩ := Option.map_eq_some_iff.mp hy
  unfold matches? at hb
  obtain ⟨bs, hbs, _⟩ := Option.map_eq_some_iff.mp hb
  rw [mapM_some_iff] at hbs
  obtain ⟨c, hc⟩ := get _ _ _ hbs kv hk
  rw [hn] at hc
  cases hc

example : kneFilenames ([("a", [("phi", 30)]), ("b", [("phi", 45)])] : List (String × List (String × ℚ))) (some [[("phi", 45)]]) = some ["b"] := by
  decide +kernel

end Verif.Kne
