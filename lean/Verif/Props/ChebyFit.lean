import Mathlib.Tactic.Linarith
import Mathlib.Tactic.NormNum
import Mathlib.Algebra.Order.Ring.Rat
import Mathlib.Algebra.Field.Rat
import Mathlib.Data.Rat.Floor
import Verif.Model.ChebyFit
import Verif.Props.ChebySegs

/-!
# Properties of fits of Chebyshev polynomials (C598-C601)
-/

namespace Verif.ChebyFit

open Verif.Cheby

/-! ## The length of segments (C598) -/

section Length
variable {K : Type*} [LinearOrder K]

/-- Specification: the first length is rounded, and each further one is the rounded half of the one before; all but the
last are too long for the tolerance. -/
inductive Halved (round : Nat → Except FErr Nat) (half : Nat → Nat) (resid : Nat → K) (tol : K) : Nat → Nat → Nat → Prop
  | stop (l : Nat) : Halved round half resid tol 0 l l
  | step (k l m r : Nat) (h : tol < resid l) (h0 : 0 < l) (hr : round (half l) = .ok m)
      (hm : Halved round half resid tol k m r) : Halved round half resid tol (k + 1) l r

theorem search_iff (round : Nat → Except FErr Nat) (half : Nat → Nat) (resid : Nat → K) (tol : K) (n l r : Nat)
    (left : Nat) : search round half resid tol n l = .ok (left, r) ∧ left ≠ 0 ∧ r ≠ 0 ↔
      ∃ k, k + left = n ∧ left ≠ 0 ∧ Halved round half resid tol k l r ∧ resid r ≤ tol ∧ 0 < r := by
  induction n generalizing l with
  | zero =>
    unfold search
    constructor
    · rintro ⟨h, h0, _⟩
      rw [Except.ok.injEq, Prod.mk.injEq] at h
      omega
    · rintro ⟨k, hk, h0, _⟩
      omega
  | succ n ih =>
    unfold search
    by_cases hc : tol < resid l ∧ 0 < l
    · rw [if_pos hc]
      cases hr : round (half l) with
      | error e =>
        simp only [reduceCtorEq, false_and, false_iff, not_exists]
        rintro k ⟨_, _, hh, h1, _⟩
        cases hh with
        | stop => exact absurd hc.1 (not_lt.mpr h1)
        | step k' _ m _ _ _ hr' _ =>
          rw [hr] at hr'
          cases hr'
      | ok m =>
        simp only
        rw [ih]
        constructor
        · rintro ⟨k, hk, h0, hh, h1⟩
          exact ⟨k + 1, by omega, h0, .step k l m r hc.1 hc.2 hr hh, h1⟩
        · rintro ⟨k, hk, h0, hh, h1⟩
          cases hh with
          | stop => exact absurd hc.1 (not_lt.mpr h1.1)
          | step k' _ m' _ _ _ hr' hm =>
            rw [hr, Except.ok.injEq] at hr'
            subst hr'
            exact ⟨k', by omega, h0, hm, h1⟩
    · rw [if_neg hc]
      constructor
      · rintro ⟨h, h0, hr0⟩
        rw [Except.ok.injEq, Prod.mk.injEq] at h
        obtain ⟨rfl, rfl⟩ := h
        refine ⟨0, by omega, h0, .stop l, ?_, by omega⟩
        by_contra h
        exact hc ⟨not_le.mp h, by omega⟩
      · rintro ⟨k, hk, h0, hh, h1⟩
        cases hh with
        | stop =>
          refine ⟨?_, h0, by omega⟩
          rw [← hk, Nat.zero_add]
        | step k' _ m' _ h h0' _ _ => exact absurd ⟨h, h0'⟩ hc

/-- A length is found exactly if one of the first fifty halvings meets the tolerance; it is the first of them that does.
A 51st length is tried but never used. -/
theorem calc_length_iff (p1 : Bool) (round : Nat → Except FErr Nat) (half : Nat → Nat) (resid : Nat → K) (tol : K)
    (start r : Nat) : calcLength p1 round half resid tol start = .ok r ↔
      ∃ l, round start = .ok l ∧ ∃ k ≤ 50, Halved round half resid tol k l r ∧ resid r ≤ tol ∧ 0 < r := by
  unfold calcLength
  cases hs : round start with
  | error e => simp
  | ok l =>
    simp only [Except.ok.injEq, exists_eq_left']
    have key : finish p1 (search round half resid tol 51 l) = .ok r ↔
        ∃ left, search round half resid tol 51 l = .ok (left, r) ∧ left ≠ 0 ∧ r ≠ 0 := by
      cases hq : search round half resid tol 51 l with
      | error e => simp [finish]
      | ok q =>
        obtain ⟨left, len⟩ := q
        unfold finish
        simp only
        by_cases hz : left = 0 ∨ len = 0
        · rw [if_pos hz]
          simp only [reduceCtorEq, Except.ok.injEq, Prod.mk.injEq, false_iff, not_exists]
          rintro x ⟨⟨rfl, rfl⟩, h1, h2⟩
          rcases hz with hz | hz
          · exact h1 hz
          · exact h2 hz
        · rw [if_neg hz]
          rw [not_or] at hz
          simp only [Except.ok.injEq, Prod.mk.injEq]
          constructor
          · rintro rfl
            exact ⟨left, ⟨rfl, rfl⟩, hz.1, hz.2⟩
          · rintro ⟨x, ⟨_, rfl⟩, _⟩
            rfl
    rw [key]
    constructor
    · rintro ⟨left, h⟩
      obtain ⟨k, hk, h0, h1⟩ := (search_iff round half resid tol 51 l r left).mp h
      exact ⟨k, by omega, h1⟩
    · rintro ⟨k, hk, h1⟩
      exact ⟨51 - k, (search_iff round half resid tol 51 l r (51 - k)).mpr ⟨k, by omega, by omega, h1⟩⟩

/-- With a length that is given, its rounded value is used whatever the residual; a warning says if it is too large. -/
theorem given_iff (round : Nat → Except FErr Nat) (resid : Nat → K) (tol : K) (len l : Nat) (w : Bool) :
    givenLength round resid tol len = .ok (l, w) ↔ round len = .ok l ∧ (w = true ↔ tol < resid l) := by
  unfold givenLength
  cases hr : round len with
  | error e => simp
  | ok m =>
    simp only [Except.ok.injEq, Prod.mk.injEq]
    constructor
    · rintro ⟨rfl, rfl⟩
      exact ⟨rfl, by simp⟩
    · rintro ⟨rfl, h⟩
      refine ⟨rfl, ?_⟩
      rw [Bool.eq_iff_iff, h, decide_eq_true_eq]

/-- If no length is found there is a `ValueError` with a pandas before 1.0, or a division by zero; never with a newer one,
where filling the list of failures is an `AttributeError`. -/
theorem length_error_false (rnd : Nat → Nat → Nat) (span : Nat) (half : Nat → Nat) (resid : Nat → K) (tol : K)
    (start : Nat) : calcLength true (roundFit true rnd span) half resid tol start ≠ .error .valueError := by
  have hround : ∀ len e, roundFit true rnd span len = .error e → e ≠ .valueError := by
    intro len e h
    unfold roundFit at h
    cases hq : roundLength rnd span len with
    | error x =>
      rw [hq] at h
      simp only [Except.mapError, Except.error.injEq] at h
      rw [← h]
      cases x <;> simp [roundErr]
    | ok x =>
      rw [hq] at h
      cases h
  have hsearch : ∀ n l e, search (roundFit true rnd span) half resid tol n l = .error e → e ≠ .valueError := by
    intro n
    induction n with
    | zero =>
      intro l e h
      cases h
    | succ n ih =>
      intro l e h
      unfold search at h
      split_ifs at h
      cases hq : roundFit true rnd span (half l) with
      | error x =>
        rw [hq] at h
        simp only [Except.error.injEq] at h
        rw [← h]
        exact hround _ _ hq
      | ok m =>
        rw [hq] at h
        exact ih m e h
  unfold calcLength
  cases hs : roundFit true rnd span start with
  | error x =>
    simp only [ne_eq, Except.error.injEq]
    exact hround _ _ hs
  | ok l =>
    simp only
    cases hq : search (roundFit true rnd span) half resid tol 51 l with
    | error x =>
      simp only [finish, ne_eq, Except.error.injEq]
      exact hsearch _ _ _ hq
    | ok q =>
      obtain ⟨a, b⟩ := q
      unfold finish
      simp only
      split_ifs <;> simp

/-- Residuals grow with the length: from 200 units, two halvings. -/
example : calcLength true (roundFit true (fun P f => P / f) 1000) (· / 2) (fun l => (l : ℚ)) 60 200 = .ok 50
    ∧ calcLength true (roundFit true (fun P f => P / f) 1000) (· / 2) (fun _ => (9 : ℚ)) 3 200 = .error .zeroDivision
    ∧ calcLength false (roundFit false (fun P f => P / f) 1000) id (fun _ => (9 : ℚ)) 3 200 = .error .valueError
    ∧ calcLength true (roundFit true (fun P f => P / f) 1000) id (fun _ => (9 : ℚ)) 3 200 = .error .attributeError := by
  decide +kernel

end Length

section Guess
variable {K : Type*} [Field K] [LinearOrder K] [IsStrictOrderedRing K] [FloorRing K]

/-- The first guess is between two and sixty days, and sixty for all tolerances from 5001 mas. -/
theorem guess_bounds (rnd : K → ℤ) (tol : K) (hr : ∀ x, |(rnd x : K) - x| ≤ 1 / 2) :
    2 ≤ guess rnd tol ∧ guess rnd tol ≤ 60 ∧ (5001 ≤ tol → guess rnd tol = 60) := by
  unfold guess
  by_cases h1 : tol < 5
  · rw [if_pos h1]
    refine ⟨le_refl _, by norm_num, fun h => ?_⟩
    linarith
  · rw [if_neg h1]
    by_cases h2 : 5000 ≤ tol
    · rw [if_pos h2]
      have hx := abs_le.mp (hr (5000 / 20 * (tol - 5000)))
      have hf := Int.sub_one_lt_floor (((rnd (5000 / 20 * (tol - 5000)) : K) + 5) * 10)
      have hg : (5000 / 20 * (tol - 5000) : K) = 250 * (tol - 5000) := by norm_num
      rw [hg] at hx hf ⊢
      refine ⟨?_, min_le_left _ _, fun h => ?_⟩
      · refine le_min (by norm_num) ?_
        rw [le_div_iff₀ (by norm_num)]
        nlinarith
      · refine min_eq_left ?_
        rw [le_div_iff₀ (by norm_num)]
        nlinarith
    · rw [if_neg h2]
      refine ⟨by norm_num, by norm_num, fun h => ?_⟩
      linarith

end Guess

/-! ## Segments (C599) -/

section Fit
variable {K : Type*} [LinearOrder K]

/-- How many of the segments contain the time. -/
def cover (t : Nat) (l : List (Nat × Nat)) : Nat := l.countP (fun p => decide (p.1 ≤ t ∧ t < p.2))

theorem cover_append (t : Nat) (a b : List (Nat × Nat)) : cover t (a ++ b) = cover t a + cover t b := List.countP_append

/-- Specification of a fit of the span: each time of it is in exactly one segment with coefficients or one failure, other
times are in none; segments with coefficients meet the tolerance; there is a row of residuals for each, in order. -/
def Good (c : Setup K) (s e : Nat) (o : Out K) : Prop :=
  (∀ t, cover t o.segs + cover t (o.failed.map Prod.snd) = if s ≤ t ∧ t < e then 1 else 0) ∧
  (∀ p ∈ o.segs, c.pos p.1 p.2 ≤ c.tol) ∧
  o.res.map (fun r => (r.s, r.e)) = o.segs ∧
  ∀ r ∈ o.res, r.pos = c.pos r.s r.e ∧ ∃ x, c.other r.s r.e = some x ∧ r.geo = x.geo ∧ r.elong = x.elong

/-- The sum of what is right for parts of a span. -/
def GoodList (c : Setup K) (l : List (Nat × Nat)) (o : Out K) : Prop :=
  (∀ t, cover t o.segs + cover t (o.failed.map Prod.snd) = cover t l) ∧
  (∀ p ∈ o.segs, c.pos p.1 p.2 ≤ c.tol) ∧
  o.res.map (fun r => (r.s, r.e)) = o.segs ∧
  ∀ r ∈ o.res, r.pos = c.pos r.s r.e ∧ ∃ x, c.other r.s r.e = some x ∧ r.geo = x.geo ∧ r.elong = x.elong

theorem cover_one (t s e : Nat) : cover t [(s, e)] = if s ≤ t ∧ t < e then 1 else 0 := by
  unfold cover
  rw [List.countP_singleton]
  simp

theorem one_good (c : Setup K) (sub : Nat → Nat → Except FErr (Out K)) (s e : Nat) (o : Out K)
    (hsub : ∀ o, sub s e = .ok o → Good c s e o) (h : oneSegment c sub s e = .ok o) : Good c s e o := by
  unfold oneSegment at h
  split_ifs at h with hp
  · exact hsub o h
  · cases ho : c.other s e with
    | none =>
      rw [ho] at h
      simp only [Except.ok.injEq] at h
      subst h
      refine ⟨fun t => ?_, by simp, rfl, by simp⟩
      simp only [List.map_cons, List.map_nil, cover_one]
      simp [cover]
    | some r =>
      rw [ho] at h
      simp only [Except.ok.injEq] at h
      subst h
      refine ⟨fun t => ?_, ?_, rfl, ?_⟩
      · simp only [List.map_nil, cover_one]
        simp [cover]
      · intro p hpm
        rw [List.mem_singleton] at hpm
        subst hpm
        exact not_lt.mp hp
      · intro q hq
        rw [List.mem_singleton] at hq
        subst hq
        exact ⟨rfl, r, ho, rfl, rfl⟩

theorem runSegs_good (c : Setup K) (sub : Nat → Nat → Except FErr (Out K)) (l : List (Nat × Nat)) (o : Out K)
    (hsub : ∀ s e o, sub s e = .ok o → Good c s e o) (h : runSegs c sub l = .ok o) : GoodList c l o := by
  induction l generalizing o with
  | nil =>
    unfold runSegs at h
    rw [Except.ok.injEq] at h
    subst h
    exact ⟨fun t => rfl, by simp, rfl, by simp⟩
  | cons p l ih =>
    obtain ⟨s, e⟩ := p
    unfold runSegs at h
    cases h1 : oneSegment c sub s e with
    | error x =>
      rw [h1] at h
      cases h
    | ok a =>
      rw [h1] at h
      cases h2 : runSegs c sub l with
      | error x =>
        rw [h2] at h
        cases h
      | ok b =>
        rw [h2] at h
        simp only [Except.ok.injEq] at h
        subst h
        have ga := one_good c sub s e a (hsub s e) h1
        have gb := ih b h2
        refine ⟨fun t => ?_, ?_, ?_, ?_⟩
        · have ha := ga.1 t
          have hb := gb.1 t
          rw [← cover_one] at ha
          have hc : cover t ((s, e) :: l) = cover t [(s, e)] + cover t l := cover_append t [(s, e)] l
          rw [hc]
          simp only [Out.add, List.map_append, cover_append]
          omega
        · intro p hp
          rcases List.mem_append.mp hp with hp | hp
          · exact ga.2.1 p hp
          · exact gb.2.1 p hp
        · simp only [Out.add, List.map_append]
          rw [ga.2.2.1, gb.2.2.1]
        · intro r hr
          rcases List.mem_append.mp hr with hr | hr
          · exact ga.2.2.2 r hr
          · exact gb.2.2.2 r hr

theorem splitLoop_cover (len e : Nat) (hl : 0 < len) (f s t : Nat) (hf : e ≤ s + f) :
    cover t (splitLoop len e f s) = if s ≤ t ∧ t < e then 1 else 0 := by
  induction f generalizing s with
  | zero =>
    unfold splitLoop
    rw [if_neg (by omega)]
    rfl
  | succ f ih =>
    unfold splitLoop
    split_ifs with h1 h2 h2
    · have hc : cover t ((s, min (s + len) e) :: splitLoop len e f (s + len))
          = cover t [(s, min (s + len) e)] + cover t (splitLoop len e f (s + len)) := cover_append t [_] _
      rw [hc, cover_one, ih (s + len) (by omega)]
      split_ifs <;> omega
    · have hc : cover t ((s, min (s + len) e) :: splitLoop len e f (s + len))
          = cover t [(s, min (s + len) e)] + cover t (splitLoop len e f (s + len)) := cover_append t [_] _
      rw [hc, cover_one, ih (s + len) (by omega)]
      split_ifs <;> omega
    · omega
    · rfl

theorem split_cover (s e len t : Nat) (hl : 0 < len) :
    cover t (split s e len) = if s ≤ t ∧ t < e then 1 else 0 := splitLoop_cover len e hl _ _ _ (by omega)

theorem splitLoop_short (len e : Nat) (f s : Nat) : ∀ p ∈ splitLoop len e f s, p.1 < p.2 + 1 ∧ p.2 ≤ p.1 + len := by
  induction f generalizing s with
  | zero => simp [splitLoop]
  | succ f ih =>
    unfold splitLoop
    intro p hp
    split_ifs at hp with h
    · rcases List.mem_cons.mp hp with rfl | hp
      · constructor
        · simp only
          omega
        · simp only
          omega
      · exact ih _ p hp
    · cases hp

theorem subLength_ok (c : Setup K) (s e len : Nat) (h : subLength c s e = .ok len) :
    0 < len ∧ c.pos s (s + len) ≤ c.tol := by
  obtain ⟨l, _, k, _, _, h1, h2⟩ := (calc_length_iff _ _ _ _ _ _ _).mp h
  exact ⟨h2, h1⟩

theorem subdivide_good (c : Setup K) (n : Nat) : ∀ s e o, subdivide c n s e = .ok o → Good c s e o := by
  induction n with
  | zero =>
    intro s e o h
    cases h
  | succ n ih =>
    intro s e o h
    unfold subdivide at h
    cases hl : subLength c s e with
    | error x =>
      rw [hl] at h
      cases x with
      | valueError =>
        simp only [Except.ok.injEq] at h
        subst h
        refine ⟨fun t => ?_, by simp, rfl, by simp⟩
        simp only [List.map_cons, List.map_nil, cover_one]
        simp [cover]
      | attributeError => cases h
      | zeroDivision => cases h
      | recursion => cases h
    | ok len =>
      rw [hl] at h
      have g := runSegs_good c _ _ o ih h
      refine ⟨fun t => ?_, g.2⟩
      rw [g.1, split_cover _ _ _ _ (subLength_ok c s e len hl).1]

/-- Whatever the depth of subdivision: if the fit ends without an exception, each time of the span is in exactly one
segment or failure, and all segments meet the tolerance. -/
theorem segments_good_partial (c : Setup K) (depth s e len : Nat) (hl : 0 < len) (o : Out K)
    (h : calcSegs c depth s e len = .ok o) : Good c s e o := by
  have g := runSegs_good c _ _ o (subdivide_good c depth) h
  refine ⟨fun t => ?_, g.2⟩
  rw [g.1, split_cover _ _ _ _ hl]

theorem runSegs_error (c : Setup K) (sub : Nat → Nat → Except FErr (Out K)) (l : List (Nat × Nat)) (x : FErr)
    (h : runSegs c sub l = .error x) : ∃ p ∈ l, c.tol < c.pos p.1 p.2 ∧ sub p.1 p.2 = .error x := by
  induction l with
  | nil => cases h
  | cons p l ih =>
    obtain ⟨s, e⟩ := p
    unfold runSegs at h
    cases h1 : oneSegment c sub s e with
    | error y =>
      rw [h1] at h
      simp only [Except.error.injEq] at h
      subst h
      unfold oneSegment at h1
      split_ifs at h1 with hp
      · exact ⟨(s, e), by simp, hp, h1⟩
      · cases ho : c.other s e <;> rw [ho] at h1 <;> cases h1
    | ok a =>
      rw [h1] at h
      cases h2 : runSegs c sub l with
      | error y =>
        rw [h2] at h
        simp only [Except.error.injEq] at h
        subst h
        obtain ⟨p, hp, hq⟩ := ih h2
        exact ⟨p, by simp [hp], hq⟩
      | ok b =>
        rw [h2] at h
        cases h

/-- Subdivision ends: if a longer segment from the same time never has a smaller residual, the depth of recursion is at
most the length of the segment. -/
theorem subdivide_ends (c : Setup K) (hmono : ∀ s a b, a ≤ b → c.pos s a ≤ c.pos s b) (n : Nat) :
    ∀ s e, c.tol < c.pos s e → e - s ≤ n → s ≤ e → subdivide c (n + 1) s e ≠ .error .recursion := by
  have hnot : ∀ s e, subLength c s e ≠ .error .recursion := by
    intro s e
    have hround : ∀ len x, roundFit c.pandas1 c.rnd (e - s) len = .error x → x ≠ .recursion := by
      intro len x h
      unfold roundFit at h
      cases hq : roundLength c.rnd (e - s) len with
      | error y =>
        rw [hq] at h
        simp only [Except.mapError, Except.error.injEq] at h
        rw [← h]
        cases y
        · simp [roundErr]
        · simp only [roundErr]
          split_ifs <;> simp
      | ok y =>
        rw [hq] at h
        cases h
    have hsearch : ∀ n l x, search (roundFit c.pandas1 c.rnd (e - s)) c.half (fun l => c.pos s (s + l)) c.tol n l
        = .error x → x ≠ .recursion := by
      intro n
      induction n with
      | zero =>
        intro l x h
        cases h
      | succ n ih =>
        intro l x h
        unfold search at h
        split_ifs at h
        cases hq : roundFit c.pandas1 c.rnd (e - s) (c.half l) with
        | error y =>
          rw [hq] at h
          simp only [Except.error.injEq] at h
          rw [← h]
          exact hround _ _ hq
        | ok m =>
          rw [hq] at h
          exact ih m x h
    unfold subLength calcLength
    cases hs : roundFit c.pandas1 c.rnd (e - s) c.start with
    | error x =>
      simp only [ne_eq, Except.error.injEq]
      exact hround _ _ hs
    | ok l =>
      simp only
      cases hq : search (roundFit c.pandas1 c.rnd (e - s)) c.half (fun l => c.pos s (s + l)) c.tol 51 l with
      | error x =>
        simp only [finish, ne_eq, Except.error.injEq]
        exact hsearch _ _ _ hq
      | ok q =>
        obtain ⟨a, b⟩ := q
        unfold finish
        simp only
        split_ifs <;> simp
  induction n with
  | zero =>
    intro s e hp hn hse h
    unfold subdivide at h
    cases hl : subLength c s e with
    | error x =>
      rw [hl] at h
      have := hnot s e
      rw [hl] at this
      cases x <;> simp_all
    | ok len =>
      rw [hl] at h
      have hlen := subLength_ok c s e len hl
      have : c.pos s e ≤ c.pos s (s + len) := hmono _ _ _ (by omega)
      exact absurd (lt_of_lt_of_le hp (this.trans hlen.2)) (lt_irrefl _)
  | succ n ih =>
    intro s e hp hn hse h
    unfold subdivide at h
    cases hl : subLength c s e with
    | error x =>
      rw [hl] at h
      have := hnot s e
      rw [hl] at this
      cases x <;> simp_all
    | ok len =>
      rw [hl] at h
      have hlen := subLength_ok c s e len hl
      have hlt : s + len < e := by
        by_contra hge
        have : c.pos s e ≤ c.pos s (s + len) := hmono _ _ _ (by omega)
        exact absurd (lt_of_lt_of_le hp (this.trans hlen.2)) (lt_irrefl _)
      obtain ⟨p, hpm, hpt, hpe⟩ := runSegs_error c _ _ _ h
      have hshort := splitLoop_short len e (e - s) s p hpm
      exact ih p.1 p.2 hpt (by omega) (by omega) hpe

/-- With a pandas from 1.0, a segment for which no length is found ends the whole fit with an exception: it is not
recorded as a failure. -/
theorem no_length_false (c : Setup K) (h1 : c.pandas1 = true) (n s e : Nat) (x : FErr) (h : subLength c s e = .error x) :
    ∃ y, subdivide c (n + 1) s e = .error y := by
  unfold subdivide
  rw [h]
  have hv : x ≠ .valueError := by
    rintro rfl
    unfold subLength at h
    rw [h1] at h
    exact length_error_false _ _ _ _ _ _ h
  cases x
  · exact absurd rfl hv
  · exact ⟨_, rfl⟩
  · exact ⟨_, rfl⟩
  · exact ⟨_, rfl⟩

/-- An object whose track is fitted for up to 40 units; a first length of 50 is subdivided. -/
def demo : Setup ℚ where
  pandas1 := true
  rnd := fun P f => P / f
  half := fun l => l / 2
  start := 20
  tol := 40
  pos := fun s e => (e : ℚ) - s
  other := fun s e => if s = 50 then none else some ⟨s, e, 7⟩

example : calcSegs demo 3 0 100 50 = .ok ⟨[(0, 20), (20, 40), (40, 50), (70, 90), (90, 100)],
    [⟨0, 20, 20, 0, 0, 7⟩, ⟨20, 40, 20, 20, 20, 7⟩, ⟨40, 50, 10, 40, 40, 7⟩, ⟨70, 90, 20, 70, 70, 7⟩,
      ⟨90, 100, 10, 90, 90, 7⟩], [(false, 50, 70)]⟩ := by decide +kernel

/-- Without a length that is good enough the fit ends with an exception, or with a failure that is recorded. -/
example : calcSegs { demo with tol := 0, half := id } 3 0 100 50 = .error .attributeError
    ∧ (calcSegs { demo with pandas1 := false, tol := 0, half := id } 3 0 100 50)
      = .ok ⟨[], [], [(true, 0, 50), (true, 50, 100)]⟩ := by decide +kernel

/-! ## Residuals and failures (C600) -/

/-- What is the same for all rows and failures of all subdivisions. -/
theorem rows (c : Setup K) (P : Res K → Prop) (Q : Bool × Nat × Nat → Prop)
    (hP : ∀ s e r, c.other s e = some r → P ⟨s, e, c.pos s e, r.geo, r.geo, r.elong⟩)
    (hQ : ∀ s e, c.other s e = none → Q (false, s, e))
    (hT : c.pandas1 = false → ∀ s e, Q (true, s, e)) (depth s e len : Nat) (o : Out K)
    (h : calcSegs c depth s e len = .ok o) : (∀ r ∈ o.res, P r) ∧ ∀ f ∈ o.failed, Q f := by
  have hone : ∀ (sub : Nat → Nat → Except FErr (Out K)),
      (∀ s e o, sub s e = .ok o → (∀ r ∈ o.res, P r) ∧ ∀ f ∈ o.failed, Q f) →
      ∀ l o, runSegs c sub l = .ok o → (∀ r ∈ o.res, P r) ∧ ∀ f ∈ o.failed, Q f := by
    intro sub hsub l
    induction l with
    | nil =>
      intro o h
      unfold runSegs at h
      rw [Except.ok.injEq] at h
      subst h
      simp
    | cons p l ih =>
      obtain ⟨s, e⟩ := p
      intro o h
      unfold runSegs at h
      cases h1 : oneSegment c sub s e with
      | error x =>
        rw [h1] at h
        cases h
      | ok a =>
        rw [h1] at h
        cases h2 : runSegs c sub l with
        | error x =>
          rw [h2] at h
          cases h
        | ok b =>
          rw [h2] at h
          simp only [Except.ok.injEq] at h
          subst h
          have ga : (∀ r ∈ a.res, P r) ∧ ∀ f ∈ a.failed, Q f := by
            unfold oneSegment at h1
            split_ifs at h1
            · exact hsub s e a h1
            · cases ho : c.other s e with
              | none =>
                rw [ho] at h1
                simp only [Except.ok.injEq] at h1
                subst h1
                simpa using hQ s e ho
              | some r =>
                rw [ho] at h1
                simp only [Except.ok.injEq] at h1
                subst h1
                simpa using hP s e r ho
          have gb := ih b h2
          constructor
          · intro r hr
            rcases List.mem_append.mp hr with hr | hr
            · exact ga.1 r hr
            · exact gb.1 r hr
          · intro r hr
            rcases List.mem_append.mp hr with hr | hr
            · exact ga.2 r hr
            · exact gb.2 r hr
  have hsub : ∀ n s e o, subdivide c n s e = .ok o → (∀ r ∈ o.res, P r) ∧ ∀ f ∈ o.failed, Q f := by
    intro n
    induction n with
    | zero =>
      intro s e o h
      cases h
    | succ n ih =>
      intro s e o h
      unfold subdivide at h
      cases hl : subLength c s e with
      | error x =>
        rw [hl] at h
        cases x with
        | valueError =>
          simp only [Except.ok.injEq] at h
          subst h
          cases hp : c.pandas1 with
          | false => simpa using hT hp s e
          | true =>
            exfalso
            unfold subLength at hl
            rw [hp] at hl
            exact length_error_false _ _ _ _ _ _ hl
        | attributeError => cases h
        | zeroDivision => cases h
        | recursion => cases h
      | ok len =>
        rw [hl] at h
        exact hone _ ih _ o h
  exact hone _ (hsub depth) _ o h

/-- The residual that is recorded for the magnitude is the one of the distance, in every row. -/
theorem vmag_false (c : Setup K) (depth s e len : Nat) (o : Out K) (h : calcSegs c depth s e len = .ok o) :
    ∀ r ∈ o.res, ∃ x, c.other r.s r.e = some x ∧ r.vmag = x.geo :=
  (rows c (fun r => ∃ x, c.other r.s r.e = some x ∧ r.vmag = x.geo) (fun _ => True)
    (fun _ _ x hx => ⟨x, hx, rfl⟩) (fun _ _ _ => trivial) (fun _ _ _ => trivial) depth s e len o h).1

/-- With a pandas from 1.0 all failures are of segments with a residual that is not a number, and none of them has the name
of the object. -/
theorem failed_false (c : Setup K) (h1 : c.pandas1 = true) (depth s e len : Nat) (o : Out K)
    (h : calcSegs c depth s e len = .ok o) : ∀ f ∈ o.failed, f.1 = false ∧ c.other f.2.1 f.2.2 = none :=
  (rows c (fun _ => True) (fun f => f.1 = false ∧ c.other f.2.1 f.2.2 = none)
    (fun _ _ _ _ => trivial) (fun _ _ hx => ⟨rfl, hx⟩) (fun hp => by rw [h1] at hp; cases hp) depth s e len o h).2

end Fit

/-! ## Files (C601) -/

/-- Appending is an error, whatever there is to write. -/
theorem append_false {L : Type*} (hd rh : L) (a b f : List L) (old : Option (List L)) :
    write true hd rh a b f old = none := rfl

/-- Otherwise the two files have the header and a line for each row; the file of failures is only written if there are
some, so that of an earlier fit is left. -/
theorem write_partial {L : Type*} (hd rh : L) (a b f : List L) (old : Option (List L)) :
    write false hd rh a b f old = some (hd :: a, rh :: b, if f = [] then old else some f) := by
  cases f <;> rfl

example : write false "h" "r" ["1"] ["2"] [] (some ["before"]) = some (["h", "1"], ["r", "2"], some ["before"]) := by
  decide

end Verif.ChebyFit
