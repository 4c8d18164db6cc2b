import Verif.Props.MoCounts

/-! # C103, C104: nights with enough observations of a moving object -/

namespace Verif.Mo

open Verif.Np
open Verif.Seasons (uniqueInt mem_uniqueInt uniqueInt_sorted)

variable {K : Type*}

theorem sub_roll (f g : Int → Int) (n : Int) (a : Int) (us : List Int)
    (hstep : ∀ x y pre post, a :: us = pre ++ x :: y :: post → f y - f x = g x)
    (hlast : ∀ x pre, a :: us = pre ++ [x] → n - f x = g x) :
    List.zipWith (fun p q => p - q) (us.map f) ((a :: us).map f).dropLast ++
      ((((a :: us).map f).getLast?).map (fun i => n - i)).toList = (a :: us).map g := by
  induction us generalizing a with
  | nil => simpa using hlast a [] rfl
  | cons b us ih =>
    have ih := ih b (fun x y pre post h => hstep x y (a :: pre) post (by rw [h]; rfl))
      (fun x pre h => hlast x (a :: pre) (by rw [h]; rfl))
    have h1 := hstep a b [] us rfl
    simp only [List.map_cons, List.dropLast_cons₂, List.zipWith_cons_cons, List.cons_append, List.getLast?_cons_cons, h1] at ih ⊢
    rw [ih]

theorem countP_lt_succ (l : List Int) (a b : Int) (hab : a < b) (hno : ∀ x ∈ l, x ≤ a ∨ b ≤ x) :
    l.countP (fun x => decide (x < b)) = l.countP (fun x => decide (x < a)) + l.count a := by
  induction l with
  | nil => rfl
  | cons x l ih =>
    have ih := ih (fun y hy => hno y (by simp [hy]))
    have hx := hno x (by simp)
    rw [List.countP_cons, List.countP_cons, List.count_cons, ih]
    simp only [decide_eq_true_eq, beq_iff_eq]
    split_ifs <;> omega

theorem countP_lt_last (l : List Int) (a : Int) (hno : ∀ x ∈ l, x ≤ a) :
    l.length = l.countP (fun x => decide (x < a)) + l.count a := by
  induction l with
  | nil => rfl
  | cons x l ih =>
    have ih := ih (fun y hy => hno y (by simp [hy]))
    have hx := hno x (by simp)
    rw [List.countP_cons, List.count_cons, List.length_cons, ih]
    simp only [decide_eq_true_eq, beq_iff_eq]
    split_ifs <;> omega

/-- The counts per night are counts. -/
theorem obsPerNight_eq (nights : List Int) (hs : nights.Pairwise (· ≤ ·)) :
    obsPerNight nights = (uniqueInt nights).map (fun d => (nights.count d : Int)) := by
  have hmem := mem_uniqueInt nights
  have hsort := uniqueInt_sorted nights
  unfold obsPerNight
  generalize uniqueInt nights = u at hmem hsort
  simp only [searchsortedLeft_eq_countP hs]
  cases u with
  | nil => rfl
  | cons a us =>
    have key := sub_roll (fun d => (nights.countP (fun x => decide (x < d)) : Int)) (fun d => (nights.count d : Int))
      (nights.length : Int) a us ?_ ?_
    · rw [← key]
      congr 1
    · intro x y pre post h
      rw [h] at hsort hmem
      have hxy : x < y := by
        have := (List.pairwise_append.mp hsort).2.1
        exact (List.pairwise_cons.mp this).1 y (by simp)
      have := countP_lt_succ nights x y hxy ?_
      · omega
      · intro z hz
        rw [← hmem] at hz
        have h1 := List.pairwise_append.mp hsort
        have h2 := List.pairwise_cons.mp h1.2.1
        have h3 := List.pairwise_cons.mp h2.2
        rcases List.mem_append.mp hz with hz | hz
        · exact Or.inl (h1.2.2 z hz x (by simp)).le
        · rcases List.mem_cons.mp hz with rfl | hz
          · exact Or.inl le_rfl
          · rcases List.mem_cons.mp hz with rfl | hz
            · exact Or.inr le_rfl
            · exact Or.inr (h3.1 z hz).le
    · intro x pre h
      rw [h] at hsort hmem
      have := countP_lt_last nights x ?_
      · omega
      · intro z hz
        rw [← hmem] at hz
        rcases List.mem_append.mp hz with hz | hz
        · exact ((List.pairwise_append.mp hsort).2.2 z hz x (by simp)).le
        · simp at hz
          exact hz.le

theorem zip_map_filter {β γ : Type*} (u : List β) (g : β → γ) (q : γ → Bool) :
    (((u.zip (u.map g)).filter (fun x => q x.2)).map (·.1)) = u.filter (fun d => q (g d)) := by
  induction u with
  | nil => rfl
  | cons a u ih =>
    rw [List.map_cons, List.zip_cons_cons, List.filter_cons, List.filter_cons]
    split_ifs
    · rw [List.map_cons, ih]
    · exact ih

theorem nightsWith_eq (k : Nat) (nights : List Int) (hs : nights.Pairwise (· ≤ ·)) :
    nightsWith k nights = (uniqueInt nights).filter (fun d => decide (k ≤ nights.count d)) := by
  unfold nightsWith
  rw [obsPerNight_eq nights hs]
  have := zip_map_filter (uniqueInt nights) (fun d => (nights.count d : Int)) (fun x => decide ((k : Int) ≤ x))
  rw [this]
  apply List.filter_congr
  intro d _
  simp

/-! ## C103: windows of nights with enough observations -/

theorem visIdx_take {β : Type*} (q : Obs K → Bool) (f : Obs K → β) (l : List (Obs K)) :
    ((List.range l.length).filter (fun i => match l[i]? with | some o => q o | none => false)).filterMap
      (fun i => (l.map f)[i]?) = (l.filter q).map f := by
  induction l with
  | nil => rfl
  | cons o l ih =>
    rw [List.length_cons, List.range_succ_eq_map, List.filter_cons, List.filter_map]
    have e : ((fun i => match (o :: l)[i]? with | some o => q o | none => false) ∘ Nat.succ) =
        (fun i => match l[i]? with | some o => q o | none => false) := by
      funext i
      simp
    have e2 : ∀ is : List Nat, (is.map Nat.succ).filterMap (fun i => ((o :: l).map f)[i]?) =
        is.filterMap (fun i => (l.map f)[i]?) := by
      intro is
      rw [List.filterMap_map]
      apply List.filterMap_congr
      intro i _
      simp
    rw [e]
    by_cases hq : q o = true
    · rw [if_pos (by exact hq), List.filterMap_cons, e2, ih, List.filter_cons_of_pos hq]
      simp
    · rw [if_neg (by exact hq), e2, ih, List.filter_cons_of_neg hq]

section Magic
variable [Zero K] [LinearOrder K]

theorem visIdx_length (limit : Option K) (l : List (Obs K)) : (visIdx limit l).length = (vis limit l).length := by
  have := congrArg List.length (visIdx_take (visible limit) (fun o => o) l)
  rw [List.length_map] at this
  unfold vis
  rw [← this]
  have hall : ∀ is : List Nat, (∀ i ∈ is, i < l.length) → (is.filterMap (fun i => (l.map (fun o => o))[i]?)).length = is.length := by
    intro is h
    induction is with
    | nil => rfl
    | cons i is ih =>
      rw [List.filterMap_cons, List.getElem?_eq_getElem (by simpa using h i (by simp))]
      simp only [List.length_cons]
      rw [ih (fun j hj => h j (by simp [hj]))]
  symm
  apply hall
  intro i hi
  exact List.mem_range.mp (List.mem_of_mem_filter hi)

/-- For rows in the order of their nights the metric counts the nights with a visible
observation that start a window with enough visible observations. -/
theorem magic_partial (need : Nat) (window : Int) (hw : 0 ≤ window) (limit : Option K) (l : List (Obs K))
    (hs : l.Pairwise (fun a b => a.night ≤ b.night)) :
    magic need window limit l = (((vis limit l).map (·.night)).dedup.filter (fun d =>
      decide (need ≤ (vis limit l).countP (fun o => decide (d ≤ o.night ∧ o.night < d + window))))).length := by
  unfold magic
  have hsn : (l.map (·.night)).Pairwise (· ≤ ·) := by simpa [List.pairwise_map] using hs
  simp only [sort_eq_self hsn, visIdx_length]
  rw [show (visIdx limit l).filterMap (fun i => (l.map (·.night))[i]?) = (vis limit l).map (·.night) from
    visIdx_take (visible limit) (·.night) l]
  have hv : (vis limit l).Pairwise (fun a b => a.night ≤ b.night) := hs.sublist List.filter_sublist
  generalize vis limit l = v at hv
  have hvn : (v.map (·.night)).Pairwise (· ≤ ·) := by simpa [List.pairwise_map] using hv
  have hvw : ((v.map (·.night)).map (· - window)).Pairwise (· ≤ ·) := by
    rw [List.pairwise_map]
    exact hvn.imp (fun h => by omega)
  have hcount : ∀ d : Int, ((searchsortedLeft ((v.map (·.night)).map (· - window)) d : Int) - (searchsortedLeft (v.map (·.night)) d : Int))
      = (v.countP (fun o => decide (d ≤ o.night ∧ o.night < d + window)) : Int) := by
    intro d
    rw [searchsortedLeft_eq_countP hvn, searchsortedLeft_eq_countP hvw]
    clear hv hvn hvw
    induction v with
    | nil => rfl
    | cons o v ih =>
      simp only [List.map_cons, List.countP_cons, decide_eq_true_eq]
      push_cast
      split_ifs <;> omega
  split_ifs with h
  · symm
    rw [List.length_eq_zero_iff, List.filter_eq_nil_iff]
    intro d _
    simp only [decide_eq_true_eq, not_le]
    exact lt_of_le_of_lt List.countP_le_length h
  · simp only [hcount, Nat.cast_le]
    have hp : (uniqueInt (v.map (·.night))).Perm (v.map (·.night)).dedup := sort_perm _
    exact (hp.filter _).length_eq

/-- In another order of the rows the value is another one. -/
theorem magic_false : ¬ ∀ (need : Nat) (window : Int) (limit : Option ℚ) (l l' : List (Obs ℚ)), l.Perm l' →
    magic need window limit l = magic need window limit l' := by
  intro h
  have := h 2 5 (some 5) [o1 1 1 9, o1 2 2 9, o1 30 30 1, o1 40 40 1] [o1 30 30 1, o1 40 40 1, o1 1 1 9, o1 2 2 9]
    (by decide +kernel)
  exact absurd this (by decide +kernel)

example : magic 2 5 (some 5) [o1 1 1 9, o1 2 2 9, o1 30 30 9, o1 40 40 9, o1 44 44 9] = 2 ∧
    magic 2 5 (some 5) [o1 1 1 9, o1 2 2 9, o1 30 30 1, o1 40 40 1] = 1 ∧
    magic 2 5 (some 5) [o1 30 30 1, o1 40 40 1, o1 1 1 9, o1 2 2 9] = 0 := by decide +kernel

end Magic

/-! ## C104: trailed objects -/

section Fast
variable [Field K] [LinearOrder K]

/-- An observation is fast if the trail left during the exposure, from the velocity in degrees
per day, is at least `psf` times the seeing, in arcseconds. -/
theorem fast_iff [IsStrictOrderedRing K] (psf : K) (o : Obs K) (h : 0 < o.expTime) :
    fast psf o = true ↔ psf * o.seeing ≤ o.velocity * 3600 * (o.expTime / 86400) := by
  unfold fast
  rw [decide_eq_true_iff, div_le_iff₀ h]
  have : o.velocity * 3600 * (o.expTime / 86400) = o.velocity * o.expTime / 24 := by ring
  rw [this, le_div_iff₀ (by norm_num)]
  constructor <;> intro h' <;> linarith

/-- For rows in the order of their nights: when a night has enough visible fast
observations, the result is the time of the first row of the first such night; when
there are fast observations but no such night it is `badval`. -/
theorem highVelocityNights_partial (psf badval : K) (k : Nat) (limit : Option K) (l : List (Obs K))
    (hs : l.Pairwise (fun a b => a.night ≤ b.night)) (hk : 0 < k) :
    (∀ d : Int, (k ≤ (vis limit l).countP (fun o => fast psf o && decide (o.night = d))) →
      (∀ d' < d, (vis limit l).countP (fun o => fast psf o && decide (o.night = d')) < k) →
      ∃ pre o post, l = pre ++ o :: post ∧ o.night = d ∧ (∀ x ∈ pre, x.night ≠ d) ∧
        highVelocityNights psf badval k limit l = o.mjd) ∧
    ((∀ d : Int, (vis limit l).countP (fun o => fast psf o && decide (o.night = d)) < k) →
      (∃ o ∈ vis limit l, fast psf o = true) → highVelocityNights psf badval k limit l = badval) := by
  set h := (vis limit l).filter (fast psf) with hh
  have hsh : (h.map (·.night)).Pairwise (· ≤ ·) := by
    rw [List.pairwise_map]
    exact hs.sublist (List.filter_sublist.trans List.filter_sublist)
  have hc : ∀ d : Int, (vis limit l).countP (fun o => fast psf o && decide (o.night = d)) = (h.map (·.night)).count d := by
    intro d
    unfold List.count
    rw [hh, List.countP_map, List.countP_filter]
    apply List.countP_congr
    intro o _
    simp [and_comm]
  have hnw := nightsWith_eq k _ hsh
  constructor
  · intro d hd hfirst
    rw [hc] at hd
    have hmem : d ∈ h.map (·.night) := List.count_pos_iff.mp (by omega)
    obtain ⟨o₀, ho₀, hod⟩ := List.mem_map.mp hmem
    have hfil : ∃ o post, l.filter (fun o => decide (o.night = d)) = o :: post := by
      have : o₀ ∈ l.filter (fun o => decide (o.night = d)) :=
        List.mem_filter.mpr ⟨List.mem_of_mem_filter (List.mem_of_mem_filter ho₀), by simpa using hod⟩
      cases hl : l.filter (fun o => decide (o.night = d)) with
      | nil => rw [hl] at this; cases this
      | cons o post => exact ⟨o, post, rfl⟩
    obtain ⟨o, post, hfil⟩ := hfil
    obtain ⟨pre, rest, h1, h2, h3, _⟩ := List.filter_eq_cons_iff.mp hfil
    refine ⟨pre, o, rest, h1, by simpa using h3, fun x hx => by simpa using h2 x hx, ?_⟩
    have hhead : ∃ rest', nightsWith k (h.map (·.night)) = d :: rest' := by
      rw [hnw]
      have hdm : d ∈ (uniqueInt (h.map (·.night))).filter (fun d => decide (k ≤ (h.map (·.night)).count d)) :=
        List.mem_filter.mpr ⟨(mem_uniqueInt _ _).mpr hmem, by simpa using hd⟩
      have hpw := (uniqueInt_sorted (h.map (·.night))).sublist
        (List.filter_sublist (p := fun d => decide (k ≤ (h.map (·.night)).count d)))
      cases hq : (uniqueInt (h.map (·.night))).filter (fun d => decide (k ≤ (h.map (·.night)).count d)) with
      | nil => rw [hq] at hdm; cases hdm
      | cons e es =>
        rw [hq] at hdm hpw
        rcases List.mem_cons.mp hdm with rfl | hde
        · exact ⟨es, rfl⟩
        · have hlt := (List.pairwise_cons.mp hpw).1 d hde
          have hek : e ∈ (uniqueInt (h.map (·.night))).filter (fun d => decide (k ≤ (h.map (·.night)).count d)) := by
            rw [hq]; simp
          have := (List.mem_filter.mp hek).2
          have h4 := hfirst e hlt
          rw [hc] at h4
          simp at this
          omega
    obtain ⟨rest', hhead⟩ := hhead
    unfold highVelocityNights
    have hvne : (vis limit l).length ≠ 0 := (List.length_pos_of_mem (List.mem_of_mem_filter ho₀)).ne'
    have hhne : ((vis limit l).filter (fast psf)).length ≠ 0 := (List.length_pos_of_mem ho₀).ne'
    simp only [hvne, if_false, hhne]
    rw [← hh, hhead]
    simp only [hfil]
  · intro hall hex
    have hnil : nightsWith k (h.map (·.night)) = [] := by
      rw [hnw, List.filter_eq_nil_iff]
      intro d _
      have := hall d
      rw [hc] at this
      simpa using this
    obtain ⟨o, ho, hf⟩ := hex
    unfold highVelocityNights
    have hvne : (vis limit l).length ≠ 0 := (List.length_pos_of_mem ho).ne'
    have hhne : ((vis limit l).filter (fast psf)).length ≠ 0 :=
      (List.length_pos_of_mem (List.mem_filter.mpr ⟨ho, hf⟩)).ne'
    simp only [hvne, if_false, hhne]
    rw [← hh, hnil]

/-- Observations for the examples. -/
def o2 (mjd : ℚ) (night : Int) (snr velocity : ℚ) : Obs ℚ :=
  { mjd, night, snr, vis := 1, band := "r", velocity, seeing := 1, expTime := 24, ecLon := 0, phase := 0, elong := 180, magV := 20 }

/-- The returned time need not be that of a detection: it is that of the first row of the
night, visible or not, fast or not. -/
theorem highVelocityNights_false : ¬ ∀ (psf badval : ℚ) (k : Nat) (limit : Option ℚ) (l : List (Obs ℚ)),
    l.Pairwise (fun a b => a.mjd ≤ b.mjd) → l.Pairwise (fun a b => a.night ≤ b.night) → 0 < k →
    (∃ d : Int, k ≤ (vis limit l).countP (fun o => fast psf o && decide (o.night = d))) →
    ∃ o ∈ vis limit l, fast psf o = true ∧ highVelocityNights psf badval k limit l = o.mjd := by
  intro h
  have := h 2 0 2 (some 5) [o2 1 1 1 0, o2 2 1 9 7, o2 3 1 9 7] (by decide +kernel) (by decide +kernel) (by decide)
    ⟨1, by decide +kernel⟩
  exact absurd this (by decide +kernel)

/-- The count is that of visible observations with `velocity >= 24 * psf * seeing / time`. -/
theorem highVelocity_le (psf psf' : K) (limit : Option K) (l : List (Obs K)) [IsStrictOrderedRing K] (hp : psf ≤ psf')
    (hl : ∀ o ∈ l, 0 ≤ o.seeing ∧ 0 < o.expTime) :
    highVelocity psf' limit l ≤ highVelocity psf limit l ∧ highVelocity psf limit l ≤ nObs limit l := by
  unfold highVelocity
  refine ⟨?_, List.length_filter_le _ _⟩
  rw [← List.countP_eq_length_filter, ← List.countP_eq_length_filter]
  apply List.countP_mono_left
  intro o ho hf
  obtain ⟨h1, h2⟩ := hl o (List.mem_of_mem_filter ho)
  simp only [fast, decide_eq_true_eq] at hf ⊢
  refine le_trans ?_ hf
  apply div_le_div_of_nonneg_right _ h2.le
  nlinarith

example : highVelocityNights 2 0 2 (some 5) [o2 1 1 9 0, o2 2 2 9 7, o2 3 2 1 7, o2 4 3 9 2, o2 5 3 9 8] = (4 : ℚ) ∧
    highVelocity 2 (some 5) [o2 1 1 9 0, o2 2 2 9 7, o2 3 2 1 7, o2 4 3 9 2, o2 5 3 9 8] = 3 := by decide +kernel

end Fast

end Verif.Mo
