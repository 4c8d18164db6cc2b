import Mathlib.Algebra.Order.Floor.Ring
import Mathlib.Algebra.Order.Field.Basic
import Mathlib.Algebra.Order.BigOperators.Group.List
import Mathlib.Algebra.Order.Ring.Rat
import Mathlib.Data.Rat.Floor
import Mathlib.Tactic.Ring
import Mathlib.Tactic.FieldSimp
import Mathlib.Tactic.Linarith
import Mathlib.Tactic.Positivity
import Verif.Lemmas.NumpyMore
import Verif.Model.Periodic

/-!
# Phases, angles and intervals between visits: properties C213-C220
-/

namespace Verif.Periodic

open Verif.Np

section Floor
variable {K : Type*} [Field K] [LinearOrder K] [IsStrictOrderedRing K] [FloorRing K]

theorem fmod_div (t P : K) (hP : 0 < P) : fmod t P / P = Int.fract (t / P) := by
  unfold fmod Int.fract
  field_simp

theorem diff_getElem? (l : List K) (i : Nat) (hi : i + 1 < l.length) : (diff l)[i]? = some (l[i + 1] - l[i]) := by
  unfold diff
  rw [List.getElem?_eq_getElem (by simp; omega), List.getElem_zipWith, List.getElem_tail]

theorem mem_diff (l : List K) (d : K) : d ∈ diff l ↔ ∃ i, ∃ h : i + 1 < l.length, d = l[i + 1] - l[i] := by
  constructor
  · intro h
    obtain ⟨i, hi⟩ := List.mem_iff_getElem?.mp h
    have hil : i + 1 < l.length := by
      have := (List.getElem?_eq_some_iff.mp hi).1
      rw [diff_length] at this
      omega
    rw [diff_getElem? l i hil, Option.some.injEq] at hi
    exact ⟨i, hil, hi.symm⟩
  · rintro ⟨i, h, rfl⟩
    exact List.mem_of_getElem? (diff_getElem? l i h)

theorem sorted_le {l : List K} (hs : l.Pairwise (· ≤ ·)) {i j : Nat} (hij : i ≤ j) (hj : j < l.length) :
    l[i]'(by omega) ≤ l[j] := by
  rcases Nat.lt_or_eq_of_le hij with h | h
  · exact List.pairwise_iff_getElem.mp hs i j (by omega) hj h
  · subst h
    exact le_rfl

/-! ## C213 -/

/-- No visit has a phase strictly inside the arc of length `L` that begins at `c`; phases
are taken modulo one. -/
def FreeArc (times : List K) (P c L : K) : Prop := ∀ t ∈ times, ∀ k : Int, ¬ (c < t / P + k ∧ t / P + k < c + L)

/-- `g` is the length of the longest arc of phase without visits. -/
def LongestFree (times : List K) (P g : K) : Prop := (∀ c L, FreeArc times P c L → L ≤ g) ∧ ∃ c, FreeArc times P c g

/-- The phases of the visits, sorted. -/
def phasesOf (times : List K) (P : K) : List K := sort (times.map (fun t => fmod t P / P))

theorem mem_phasesOf (times : List K) (P : K) (hP : 0 < P) (q : K) :
    q ∈ phasesOf times P ↔ ∃ t ∈ times, Int.fract (t / P) = q := by
  unfold phasesOf
  rw [(sort_perm _).mem_iff, List.mem_map]
  simp only [fmod_div _ _ hP]

theorem phases_range (times : List K) (P : K) (hP : 0 < P) (q : K) (h : q ∈ phasesOf times P) : 0 ≤ q ∧ q < 1 := by
  obtain ⟨t, _, rfl⟩ := (mem_phasesOf times P hP q).mp h
  exact ⟨Int.fract_nonneg _, Int.fract_lt_one _⟩

theorem freeArc_iff (times : List K) (P c L : K) (hP : 0 < P) :
    FreeArc times P c L ↔ ∀ q ∈ phasesOf times P, ∀ k : Int, ¬ (c < q + k ∧ q + k < c + L) := by
  constructor
  · intro h q hq k
    obtain ⟨t, ht, rfl⟩ := (mem_phasesOf times P hP q).mp hq
    have := h t ht (k - ⌊t / P⌋)
    unfold Int.fract
    push_cast at this
    have e : t / P + ((k : K) - (⌊t / P⌋ : K)) = t / P - (⌊t / P⌋ : K) + k := by ring
    rwa [e] at this
  · intro h t ht k
    have := h _ ((mem_phasesOf times P hP _).mpr ⟨t, ht, rfl⟩) (k + ⌊t / P⌋)
    unfold Int.fract at this
    push_cast at this
    have e : t / P - (⌊t / P⌋ : K) + ((k : K) + (⌊t / P⌋ : K)) = t / P + k := by ring
    rwa [e] at this

theorem maxGap_eq (times : List K) (P : K) (a : K) (l : List K) (h : phasesOf times P = a :: l) :
    maxGap times P = (diff (a :: l) ++ [1 - (a :: l).getLast (by simp) + a]).max? := by
  unfold maxGap
  unfold phasesOf at h
  simp only [h, List.head?_cons, List.getLast?_eq_getLast_of_ne_nil (List.cons_ne_nil a l)]

theorem phasesOf_ne (times : List K) (P : K) (h : times ≠ []) : ∃ a l, phasesOf times P = a :: l := by
  have hl : (phasesOf times P).length = times.length := by
    unfold phasesOf
    rw [sort_length, List.length_map]
  cases hp : phasesOf times P with
  | nil =>
    rw [hp] at hl
    exact absurd (List.length_eq_zero_iff.mp hl.symm) h
  | cons a l => exact ⟨a, l, rfl⟩

/-- **C213.** The gap for a period is the longest arc of phase without visits. -/
theorem maxGap_spec (times : List K) (P : K) (hP : 0 < P) (hne : times ≠ []) :
    ∃ g, maxGap times P = some g ∧ LongestFree times P g := by
  obtain ⟨a, l, hal⟩ := phasesOf_ne times P hne
  rw [maxGap_eq times P a l hal]
  set s := a :: l with hs
  have hsl : 0 < s.length := by simp [hs]
  have hsort : s.Pairwise (· ≤ ·) := by
    rw [← hal]
    exact sort_sorted _
  have hr : ∀ q ∈ s, 0 ≤ q ∧ q < 1 := by
    intro q hq
    rw [← hal] at hq
    exact phases_range times P hP q hq
  have hlast : s.getLast (by simp [hs]) = s[s.length - 1]'(by omega) := List.getLast_eq_getElem _
  have hfirst : a = s[0]'hsl := by simp [hs]
  obtain ⟨g, hg⟩ : ∃ g, (diff s ++ [1 - s.getLast (by simp [hs]) + a]).max? = some g := by
    rcases hm : (diff s ++ [1 - s.getLast (by simp [hs]) + a]).max? with _ | g
    · rw [List.max?_eq_none_iff] at hm
      simp at hm
    · exact ⟨g, rfl⟩
  refine ⟨g, hg, ?_, ?_⟩
  · intro c L hfree
    rw [freeArc_iff times P c L hP, hal] at hfree
    obtain ⟨_, hmax⟩ := List.max?_eq_some_iff.mp hg
    have hd : ∀ i (h : i + 1 < s.length), s[i + 1] - s[i] ≤ g := fun i h =>
      hmax _ (List.mem_append_left _ ((mem_diff s _).mpr ⟨i, h, rfl⟩))
    have hw : (1 : K) - s[s.length - 1]'(by omega) + s[0]'hsl ≤ g := by
      rw [← hlast, ← hfirst]
      exact hmax _ (List.mem_append_right _ (by simp))
    by_contra hL
    rw [not_le] at hL
    -- the arc, moved to begin between zero and one
    set f := Int.fract c with hf
    have hf0 : 0 ≤ f := Int.fract_nonneg c
    have hf1 : f < 1 := Int.fract_lt_one c
    have hcf : c = f + (⌊c⌋ : K) := (Int.fract_add_floor c).symm
    have hfr : ∀ q ∈ s, ∀ k : Int, f < q + k → f + L ≤ q + k := by
      intro q hq k h
      by_contra h2
      rw [not_le] at h2
      have := hfree q hq (k + ⌊c⌋)
      push_cast at this
      apply this
      constructor
      · linarith
      · linarith
    by_cases hex : ∃ i, ∃ h : i < s.length, f < s[i]
    · classical
      obtain ⟨hil, hi⟩ := Nat.find_spec hex
      have hmin : ∀ j, j < Nat.find hex → ∀ h : j < s.length, s[j] ≤ f := by
        intro j hj h
        have := Nat.find_min hex hj
        by_contra h2
        exact this ⟨h, not_le.mp h2⟩
      generalize Nat.find hex = i at hil hi hmin
      have h1 := hfr s[i] (List.getElem_mem hil) 0 (by simpa using hi)
      rw [Int.cast_zero, add_zero] at h1
      cases i with
      | zero =>
        have h2 := (hr _ (List.getElem_mem (show s.length - 1 < s.length by omega))).2
        linarith
      | succ i =>
        have h2 := hd i hil
        have h3 := hmin i (by omega) (by omega)
        linarith
    · have hall : ∀ j (h : j < s.length), s[j] ≤ f := by
        intro j h
        by_contra h2
        exact hex ⟨j, h, not_le.mp h2⟩
      have h0 := (hr _ (List.getElem_mem hsl)).1
      have h1 := hfr s[0] (List.getElem_mem hsl) 1 (by push_cast; linarith)
      have h2 := hall (s.length - 1) (by omega)
      push_cast at h1
      linarith
  · obtain ⟨hmem, _⟩ := List.max?_eq_some_iff.mp hg
    have hint : ∀ k : Int, k = 0 ∨ k = 1 ∨ (2 : K) ≤ k ∨ (k : K) ≤ -1 := by
      intro k
      rcases lt_trichotomy k 0 with h | h | h
      · right; right; right
        exact_mod_cast (by omega : k ≤ -1)
      · left; exact h
      · by_cases h1 : k = 1
        · right; left; exact h1
        · right; right; left
          exact_mod_cast (by omega : 2 ≤ k)
    rcases List.mem_append.mp hmem with h | h
    · obtain ⟨i, hi, hgi⟩ := (mem_diff s g).mp h
      refine ⟨s[i], ?_⟩
      rw [freeArc_iff times P _ _ hP, hal]
      intro q hq k hk
      obtain ⟨j, hj, rfl⟩ := List.mem_iff_getElem.mp hq
      have hb := hr _ (List.getElem_mem hj)
      have hi0 := hr _ (List.getElem_mem (show i < s.length by omega))
      have hi1 := hr _ (List.getElem_mem hi)
      have e : s[i] + g = s[i + 1] := by rw [hgi]; ring
      rw [e] at hk
      rcases hint k with h | h | h | h
      · subst h
        rw [Int.cast_zero, add_zero] at hk
        by_cases hij : j ≤ i
        · exact absurd hk.1 (not_lt.mpr (sorted_le hsort hij (by omega)))
        · exact absurd hk.2 (not_lt.mpr (sorted_le hsort (by omega) hj))
      · subst h
        push_cast at hk
        linarith
      · linarith
      · linarith
    · rw [List.mem_singleton, hlast, hfirst] at h
      refine ⟨s[s.length - 1]'(by omega), ?_⟩
      rw [freeArc_iff times P _ _ hP, hal]
      intro q hq k hk
      obtain ⟨j, hj, rfl⟩ := List.mem_iff_getElem.mp hq
      have hb := hr _ (List.getElem_mem hj)
      have h0 := hr _ (List.getElem_mem hsl)
      have h1 := hr _ (List.getElem_mem (show s.length - 1 < s.length by omega))
      have e : s[s.length - 1]'(by omega) + g = s[0]'hsl + 1 := by rw [h]; ring
      rw [e] at hk
      have hj0 : s[0] ≤ s[j] := sorted_le hsort (by omega) hj
      have hj1 : s[j] ≤ s[s.length - 1]'(by omega) := sorted_le hsort (by omega) (by omega)
      rcases hint k with h | h | h | h
      · subst h
        rw [Int.cast_zero, add_zero] at hk
        linarith
      · subst h
        push_cast at hk
        linarith
      · linarith
      · linarith

theorem longestFree_unique {times : List K} {P g g' : K} (h : LongestFree times P g) (h' : LongestFree times P g') : g = g' := by
  obtain ⟨c, hc⟩ := h.2
  obtain ⟨c', hc'⟩ := h'.2
  exact le_antisymm (h'.1 _ _ hc) (h.1 _ _ hc')

/-- The gap is at most one, and at least what evenly spread visits leave. -/
theorem maxGap_bounds (times : List K) (P : K) (hP : 0 < P) (hne : times ≠ []) (g : K) (h : maxGap times P = some g) :
    1 / (times.length : K) ≤ g ∧ g ≤ 1 := by
  obtain ⟨g', hg', hlong⟩ := maxGap_spec times P hP hne
  rw [h, Option.some.injEq] at hg'
  subst hg'
  obtain ⟨a, l, hal⟩ := phasesOf_ne times P hne
  have hlen : (a :: l).length = times.length := by
    rw [← hal]
    unfold phasesOf
    rw [sort_length, List.length_map]
  have hn : (0 : K) < times.length := by
    rw [← hlen]
    simp only [List.length_cons]
    push_cast
    positivity
  constructor
  · rw [maxGap_eq times P a l hal] at h
    obtain ⟨_, hmax⟩ := List.max?_eq_some_iff.mp h
    set gs := diff (a :: l) ++ [1 - (a :: l).getLast (by simp) + a] with hgs
    have hsum : gs.sum = 1 := by
      rw [hgs, List.sum_append, diff_sum]
      simp
    have hgl : gs.length = times.length := by
      rw [hgs, List.length_append, diff_length, List.length_singleton]
      simp only [List.length_cons] at hlen ⊢
      omega
    have := List.sum_le_card_nsmul gs g (fun x hx => hmax x hx)
    rw [hsum, hgl, nsmul_eq_mul] at this
    rw [div_le_iff₀ hn]
    linarith
  · obtain ⟨c, hc⟩ := hlong.2
    obtain ⟨t, ht⟩ := List.exists_mem_of_ne_nil _ hne
    by_contra hg1
    rw [not_le] at hg1
    have := hc t ht (⌊c - t / P⌋ + 1)
    push_cast at this
    have h1 := Int.floor_le (c - t / P)
    have h2 := Int.lt_floor_add_one (c - t / P)
    exact this ⟨by linarith, by linarith⟩

/-- **C213.** For several periods the result has evenly spaced periods from the least to
the largest, and for each the longest arc of phase without visits. -/
theorem phaseGap_spec (nMin n : Nat) (lo hi : K) (times : List K) (hn : 2 ≤ n) (hlo : 0 < lo) (hhi : lo < hi)
    (hne : times ≠ []) (hm : nMin ≤ times.length) :
    ∃ ps gs : List K, phaseGap nMin n lo hi times = .ok (ps.map some) (gs.map some) ∧ ps.length = n ∧ gs.length = n ∧
      (∀ i, ∀ h : i < ps.length, ps[i] = lo + (hi - lo) * ((i : K) / ((n : K) - 1))) ∧
      ∀ i, ∀ h : i < ps.length, ∀ h' : i < gs.length, LongestFree times ps[i] gs[i] := by
  have hn' : (0 : K) < n := by exact_mod_cast (by omega : 0 < n)
  have hn1 : ((n - 1 : Nat) : K) = (n : K) - 1 := by
    rw [Nat.cast_sub (by omega), Nat.cast_one]
  have hn2 : (0 : K) < (n : K) - 1 := by
    rw [← hn1]
    exact_mod_cast (by omega : 0 < n - 1)
  have hstep : (hi - lo) / (n : K) ≠ 0 := (div_pos (by linarith) hn').ne'
  set per : Nat → K := fun i => (i : K) / ((n : K) - 1) * (hi - lo) + lo with hper
  have hperpos : ∀ i, 0 < per i := by
    intro i
    have : 0 ≤ (i : K) / ((n : K) - 1) * (hi - lo) := mul_nonneg (div_nonneg (Nat.cast_nonneg _) hn2.le) (by linarith)
    simp only [hper]
    linarith
  choose gap hgap using fun i => maxGap_spec times (per i) (hperpos i) hne
  refine ⟨(List.range n).map per, (List.range n).map gap, ?_, by simp, by simp, ?_, ?_⟩
  · unfold phaseGap
    rw [if_neg (by omega), if_neg (by omega), if_neg (by simpa using hne)]
    have hps : periods n lo hi = (List.range n).map (fun i => some (per i)) := by
      unfold periods
      rw [if_neg hstep, if_neg (by omega)]
      simp only [hn1, hper]
    simp only [hps, List.length_map, List.length_range, Nat.sub_self, List.replicate_zero, List.append_nil, List.map_map]
    congr 1
    apply List.map_congr_left
    intro i _
    simp [(hgap i).1]
  · intro i h
    simp only [List.getElem_map, List.getElem_range, hper]
    ring
  · intro i h h'
    simp only [List.getElem_map, List.getElem_range]
    exact (hgap i).2

theorem meanGap_sum (gs : List K) : (gs.map some).foldr (fun g s => match g, s with
    | some g, some s => some (g + s)
    | _, _ => none) (some 0) = some gs.sum := by
  induction gs with
  | nil => rfl
  | cons a gs ih => rw [List.map_cons, List.foldr_cons, ih, List.sum_cons]

/-- The mean of gaps that are numbers. -/
theorem meanGap_some (gs : List K) : meanGap (gs.map some) = some (gs.sum / (gs.length : K)) := by
  unfold meanGap
  rw [List.length_map]
  exact congrArg _ (meanGap_sum gs)

/-- **C214.** With equal limits and `n` periods there is one period with a gap, but the mean
is over `n` gaps of which the others are zero. -/
theorem mean_false (nMin n : Nat) (P : K) (times : List K) (hn : 1 ≤ n) (hP : 0 < P) (hne : times ≠ [])
    (hm : nMin ≤ times.length) :
    ∃ g gaps, LongestFree times P g ∧ phaseGap nMin n P P times = .ok [some P] gaps ∧ meanGap gaps = some (g / (n : K)) := by
  obtain ⟨g, hg, hlong⟩ := maxGap_spec times P hP hne
  refine ⟨g, some g :: List.replicate (n - 1) (some 0), hlong, ?_, ?_⟩
  · unfold phaseGap
    rw [if_neg (by omega), if_neg (by omega), if_neg (by simpa using hne)]
    have hps : periods n P P = [some P] := by
      unfold periods
      rw [if_pos (by simp)]
    simp only [hps, List.map_cons, List.map_nil, List.length_singleton, List.cons_append, List.nil_append, Option.bind_some, hg]
  · have e : some g :: List.replicate (n - 1) (some (0 : K)) = (g :: List.replicate (n - 1) 0).map some := by simp
    rw [e, meanGap_some]
    simp [Nat.sub_add_cancel hn]

/-- One period and different limits: the period is 0/0, and so is the gap. -/
theorem single_false (nMin : Nat) (lo hi : K) (times : List K) (h : lo ≠ hi) (hne : times ≠ []) (hm : nMin ≤ times.length) :
    phaseGap nMin 1 lo hi times = .ok [none] [none] := by
  unfold phaseGap
  rw [if_neg (by omega), if_neg (by omega), if_neg (by simpa using hne)]
  have hps : periods 1 lo hi = [none] := by
    unfold periods
    rw [if_neg (by simpa [sub_eq_zero] using h.symm), if_pos rfl]
  simp [hps]

/-- For instance, visits at 0, 1 and 2.5 and periods 1 and 5. -/
example : maxGap ([0, 1, 5 / 2] : List ℚ) 1 = some (1 / 2) ∧ maxGap ([0, 1, 5 / 2] : List ℚ) 5 = some (1 / 2) := by decide +kernel
example : ∃ g, maxGap ([0, 1, 5 / 2] : List ℚ) 5 = some g ∧ LongestFree ([0, 1, 5 / 2] : List ℚ) 5 g :=
  maxGap_spec _ 5 (by norm_num) (by simp)

/-! ## C215 -/

/-- The angle `x` (degrees) is in the closed arc of length `L` that begins at `a`. -/
def InArc (a L x : K) : Prop := ∃ k : Int, a ≤ x + 360 * k ∧ x + 360 * k ≤ a + L

open Classical in
/-- Number of angles in an arc. -/
noncomputable def inArc (data : List K) (a L : K) : Nat := data.countP (fun x => decide (InArc a L x))

/-- By how much the part of the angles in the arc exceeds the part of the circle, less one
angle. -/
noncomputable def excess (data : List K) (a L : K) : K := (inArc data a L : K) / data.length - L / 360 - 1 / data.length

/-- `V` is the largest excess over all arcs. -/
def LargestExcess (data : List K) (V : K) : Prop :=
  (∀ a L, 0 ≤ L → excess data a L ≤ V) ∧ ∃ a L, 0 ≤ L ∧ excess data a L = V

/-- The angles as parts of the circle, sorted. -/
def turns (data : List K) : List K := (sort (data.map (fun x => fmod x 360))).map (fun v => v / 360)

theorem turns_length (data : List K) : (turns data).length = data.length := by
  unfold turns
  rw [List.length_map, sort_length, List.length_map]

theorem turns_sorted (data : List K) : (turns data).Pairwise (· ≤ ·) := by
  unfold turns
  rw [List.pairwise_map]
  refine (sort_sorted _).imp ?_
  intro a b h
  exact div_le_div_of_nonneg_right h (by norm_num)

theorem turns_perm (data : List K) : (turns data).Perm (data.map (fun x => Int.fract (x / 360))) := by
  unfold turns
  have := (sort_perm (data.map (fun x => fmod x 360))).map (fun v : K => v / 360)
  rw [List.map_map] at this
  have e : (fun v : K => v / 360) ∘ (fun x => fmod x 360) = fun x => Int.fract (x / 360) := by
    funext x
    exact fmod_div x 360 (by norm_num)
  rwa [e] at this

theorem turns_range (data : List K) (q : K) (h : q ∈ turns data) : 0 ≤ q ∧ q < 1 := by
  obtain ⟨x, _, rfl⟩ := List.mem_map.mp ((turns_perm data).mem_iff.mp h)
  exact ⟨Int.fract_nonneg _, Int.fract_lt_one _⟩

/-- The arc for parts of the circle. -/
def InTurn (f l q : K) : Prop := ∃ k : Int, f ≤ q + k ∧ q + k ≤ f + l

theorem inArc_iff (a L x : K) : InArc a L x ↔ InTurn (Int.fract (a / 360)) (L / 360) (Int.fract (x / 360)) := by
  have e1 : Int.fract (a / 360) = a / 360 - (⌊a / 360⌋ : K) := rfl
  have e2 : Int.fract (x / 360) = x / 360 - (⌊x / 360⌋ : K) := rfl
  rw [InTurn, e1, e2]
  constructor
  · rintro ⟨k, h1, h2⟩
    refine ⟨k + ⌊x / 360⌋ - ⌊a / 360⌋, ?_, ?_⟩ <;> push_cast <;> linarith
  · rintro ⟨k, h1, h2⟩
    refine ⟨k - ⌊x / 360⌋ + ⌊a / 360⌋, ?_, ?_⟩ <;> push_cast <;> linarith

open Classical in
theorem inArc_eq (data : List K) (a L : K) :
    inArc data a L = (turns data).countP (fun q => decide (InTurn (Int.fract (a / 360)) (L / 360) q)) := by
  rw [(turns_perm data).countP_eq, List.countP_map]
  unfold inArc
  apply List.countP_congr
  intro x _
  simp only [Function.comp, decide_eq_true_eq]
  exact inArc_iff a L x

/-- The statistic in terms of ranks. -/
theorem kuiper_rank (data : List K) (V : K) (h : kuiper data = some V) :
    (∀ i j, ∀ hi : i < (turns data).length, ∀ hj : j < (turns data).length,
      ((j : K) - i) / data.length - ((turns data)[j] - (turns data)[i]) ≤ V) ∧
    ∃ i j, ∃ hi : i < (turns data).length, ∃ hj : j < (turns data).length,
      ((j : K) - i) / data.length - ((turns data)[j] - (turns data)[i]) = V := by
  unfold kuiper at h
  simp only at h
  have hlen : (sort (data.map (fun x => fmod x 360))).length = data.length := by rw [sort_length, List.length_map]
  rw [hlen] at h
  change (match (List.zipWith (fun u d => u - d) (turns data) ((List.range data.length).map (fun i : Nat => ((i : K) + 1) / (data.length : K)))).max?,
    (List.zipWith (fun d u => d - u) ((List.range data.length).map (fun i : Nat => ((i : K) + 1) / (data.length : K))) (turns data)).max? with
    | some a, some b => some (a + b)
    | _, _ => none) = some V at h
  have ht := turns_length data
  set s := turns data with hs
  rcases ha : (List.zipWith (fun u d => u - d) s ((List.range data.length).map (fun i : Nat => ((i : K) + 1) / (data.length : K)))).max? with _ | a
  · rw [ha] at h
    cases h
  rcases hb : (List.zipWith (fun d u => d - u) ((List.range data.length).map (fun i : Nat => ((i : K) + 1) / (data.length : K))) s).max? with _ | b
  · rw [ha, hb] at h
    cases h
  rw [ha, hb] at h
  simp only [Option.some.injEq] at h
  obtain ⟨ham, hamax⟩ := List.max?_eq_some_iff.mp ha
  obtain ⟨hbm, hbmax⟩ := List.max?_eq_some_iff.mp hb
  have hA : ∀ i, ∀ hi : i < s.length, s[i] - ((i : K) + 1) / data.length ≤ a := by
    intro i hi
    apply hamax
    rw [List.mem_iff_getElem]
    exact ⟨i, by simp; omega, by simp⟩
  have hB : ∀ i, ∀ hi : i < s.length, ((i : K) + 1) / data.length - s[i] ≤ b := by
    intro i hi
    apply hbmax
    rw [List.mem_iff_getElem]
    exact ⟨i, by simp; omega, by simp⟩
  constructor
  · intro i j hi hj
    have h1 := hA i hi
    have h2 := hB j hj
    have e : ((j : K) - i) / data.length = ((j : K) + 1) / data.length - ((i : K) + 1) / data.length := by ring
    rw [e]
    linarith
  · obtain ⟨i, hi, hia⟩ := List.mem_iff_getElem.mp ham
    obtain ⟨j, hj, hjb⟩ := List.mem_iff_getElem.mp hbm
    have hi' : i < s.length := by simp at hi; omega
    have hj' : j < s.length := by simp at hj; omega
    simp only [List.getElem_zipWith, List.getElem_map, List.getElem_range] at hia hjb
    refine ⟨i, j, hi', hj', ?_⟩
    have e : ((j : K) - i) / data.length = ((j : K) + 1) / data.length - ((i : K) + 1) / data.length := by ring
    rw [e]
    linarith

theorem kuiper_some (data : List K) (h : data ≠ []) : ∃ V, kuiper data = some V := by
  have hl : 0 < data.length := List.length_pos_iff.mpr h
  unfold kuiper
  simp only
  rcases ha : (List.zipWith (fun u d => u - d) ((sort (data.map (fun x => fmod x 360))).map (fun v => v / 360))
      ((List.range (sort (data.map (fun x => fmod x 360))).length).map
        (fun i : Nat => ((i : K) + 1) / ((sort (data.map (fun x => fmod x 360))).length : K)))).max? with _ | a
  · rw [List.max?_eq_none_iff] at ha
    have := congrArg List.length ha
    simp [sort_length] at this
    exact absurd this h
  rcases hb : (List.zipWith (fun d u => d - u) ((List.range (sort (data.map (fun x => fmod x 360))).length).map
        (fun i : Nat => ((i : K) + 1) / ((sort (data.map (fun x => fmod x 360))).length : K)))
      ((sort (data.map (fun x => fmod x 360))).map (fun v => v / 360))).max? with _ | b
  · rw [List.max?_eq_none_iff] at hb
    have := congrArg List.length hb
    simp [sort_length] at this
    exact absurd this h
  exact ⟨a + b, rfl⟩

omit [IsStrictOrderedRing K] [FloorRing K] [Field K] in
/-- Entries of a sorted list that are below a bound are the first ones. -/
theorem countP_rank (s : List K) (hs : s.Pairwise (· ≤ ·)) (p : K → Bool) (hp : ∀ x y, x ≤ y → p y = true → p x = true) (i : Nat)
    (hi : i < s.length) : p s[i] = true ↔ i < s.countP p := by
  induction s generalizing i with
  | nil => simp at hi
  | cons a s ih =>
    rw [List.pairwise_cons] at hs
    by_cases ha : p a = true
    · rw [List.countP_cons_of_pos ha]
      cases i with
      | zero => simp [ha]
      | succ i =>
        have := ih hs.2 i (by simpa using hi)
        simp only [List.getElem_cons_succ]
        rw [this]
        omega
    · have hz : s.countP p = 0 := by
        rw [List.countP_eq_zero]
        intro b hb h
        exact ha (hp a b (hs.1 b hb) h)
      rw [List.countP_cons_of_neg ha, hz]
      constructor
      · intro h
        cases i with
        | zero => exact absurd h ha
        | succ i => exact absurd (hp a _ (hs.1 _ (List.getElem_mem _)) h) ha
      · intro h
        omega

omit [IsStrictOrderedRing K] [FloorRing K] [Field K] [LinearOrder K] in
/-- A list has at least as many entries with `p` as there are indices with `p`. -/
theorem le_countP_idx (s : List K) (p : K → Bool) (is : List Nat) (hn : is.Nodup)
    (h : ∀ i ∈ is, ∃ hi : i < s.length, p s[i] = true) : is.length ≤ s.countP p := by
  have e : s.countP p = ((List.range s.length).filter (fun i => match s[i]? with | some x => p x | none => false)).length := by
    clear h hn is
    rw [← List.countP_eq_length_filter]
    induction s with
    | nil => rfl
    | cons a s ih =>
      rw [List.length_cons, List.range_succ_eq_map, List.countP_cons, List.countP_cons, List.countP_map, ih]
      simp [Function.comp_def]
  rw [e]
  apply (List.Nodup.subperm hn ?_).length_le
  intro i hi
  obtain ⟨hl, hp⟩ := h i hi
  rw [List.mem_filter, List.mem_range, List.getElem?_eq_getElem hl]
  exact ⟨hl, hp⟩

theorem int_le_neg_or (k : Int) : k = 0 ∨ k = 1 ∨ (2 : K) ≤ k ∨ (k : K) ≤ -1 := by
  rcases lt_trichotomy k 0 with h | h | h
  · right; right; right
    exact_mod_cast (by omega : k ≤ -1)
  · left; exact h
  · by_cases h1 : k = 1
    · right; left; exact h1
    · right; right; left
      exact_mod_cast (by omega : 2 ≤ k)

open Classical in
/-- An arc shorter than the circle has either the angles between two ranks or those outside. -/
theorem countP_turn (s : List K) (hs : s.Pairwise (· ≤ ·)) (hr : ∀ q ∈ s, 0 ≤ q ∧ q < 1) (f l : K) (hf0 : 0 ≤ f) (hf1 : f < 1) (hl0 : 0 ≤ l) (hl1 : l < 1) :
    (s.countP (fun q => decide (InTurn f l q)) : Int) ≤
      (s.countP (fun q => decide (q ≤ f + l)) : Int) - s.countP (fun q => decide (q < f)) + s.countP (fun q => decide (q ≤ f + l - 1)) := by
  induction s with
  | nil => simp
  | cons a s ih =>
    have h := ih (List.pairwise_cons.mp hs).2 (fun q hq => hr q (List.mem_cons_of_mem _ hq))
    obtain ⟨h0, h1⟩ := hr a (by simp)
    simp only [List.countP_cons, decide_eq_true_eq]
    have key : (if InTurn f l a then 1 else 0 : Int) ≤
        (if a ≤ f + l then 1 else 0) - (if a < f then 1 else 0) + (if a ≤ f + l - 1 then 1 else 0) := by
      have c1 : InTurn f l a → (f ≤ a ∧ a ≤ f + l) ∨ a ≤ f + l - 1 := by
        rintro ⟨k, hk1, hk2⟩
        rcases int_le_neg_or (K := K) k with h | h | h | h
        · subst h
          left
          rw [Int.cast_zero, add_zero] at hk1 hk2
          exact ⟨hk1, hk2⟩
        · subst h
          right
          push_cast at hk2
          linarith
        · exfalso; linarith
        · exfalso; linarith
      by_cases hin : InTurn f l a
      · rcases c1 hin with ⟨h2, h3⟩ | h2
        · rw [if_pos hin, if_pos h3, if_neg (not_lt.mpr h2)]
          split <;> omega
        · rw [if_pos hin, if_pos (by linarith : a ≤ f + l), if_pos (by linarith : a < f), if_pos h2]
          omega
      · rw [if_neg hin]
        by_cases h2 : a < f
        · rw [if_pos h2, if_pos (by linarith : a ≤ f + l)]
          split <;> omega
        · rw [if_neg h2]
          split <;> split <;> omega
    push_cast
    split_ifs at key ⊢ <;> omega

open Classical in
/-- Arcs have at most the excess of the statistic. -/
theorem excess_le (data : List K) (V : K) (h : kuiper data = some V) (hne : data ≠ []) (a L : K) (hL : 0 ≤ L) : excess data a L ≤ V := by
  obtain ⟨hV, _⟩ := kuiper_rank data V h
  have hlen := turns_length data
  have hn0 : 0 < data.length := List.length_pos_iff.mpr hne
  have hn : (0 : K) < data.length := by exact_mod_cast hn0
  have hV0 : 0 ≤ V := by
    have := hV 0 0 (by omega) (by omega)
    simpa using this
  unfold excess
  rw [inArc_eq]
  have hs := turns_sorted data
  have hr := turns_range data
  set s := turns data with hsdef
  set f := Int.fract (a / 360) with hf
  have hf0 : 0 ≤ f := Int.fract_nonneg _
  have hf1 : f < 1 := Int.fract_lt_one _
  set l := L / 360 with hl
  have hl0 : 0 ≤ l := by positivity
  have hcn : s.countP (fun q => decide (InTurn f l q)) ≤ data.length := by
    rw [← hlen]
    exact List.countP_le_length
  by_cases hl1 : l < 1
  · have hc := countP_turn s hs hr f l hf0 hf1 hl0 hl1
    set c := s.countP (fun q => decide (InTurn f l q)) with hcdef
    have hA : ∀ i, ∀ hi : i < s.length, s[i] < f ↔ i < s.countP (fun q => decide (q < f)) := fun i hi => by
      have := countP_rank s hs (fun q => decide (q < f)) (fun x y hxy hy => by simp at hy ⊢; exact lt_of_le_of_lt hxy hy) i hi
      simpa using this
    have hB : ∀ i, ∀ hi : i < s.length, s[i] ≤ f + l ↔ i < s.countP (fun q => decide (q ≤ f + l)) := fun i hi => by
      have := countP_rank s hs (fun q => decide (q ≤ f + l)) (fun x y hxy hy => by simp at hy ⊢; exact le_trans hxy hy) i hi
      simpa using this
    have hC : ∀ i, ∀ hi : i < s.length, s[i] ≤ f + l - 1 ↔ i < s.countP (fun q => decide (q ≤ f + l - 1)) := fun i hi => by
      have := countP_rank s hs (fun q => decide (q ≤ f + l - 1)) (fun x y hxy hy => by simp only [decide_eq_true_eq] at hy ⊢; exact le_trans hxy hy) i hi
      simpa using this
    have hAn : s.countP (fun q => decide (q < f)) ≤ s.length := List.countP_le_length
    have hBn : s.countP (fun q => decide (q ≤ f + l)) ≤ s.length := List.countP_le_length
    have hCn : s.countP (fun q => decide (q ≤ f + l - 1)) ≤ s.length := List.countP_le_length
    generalize s.countP (fun q => decide (q < f)) = A at *
    generalize s.countP (fun q => decide (q ≤ f + l)) = B at *
    generalize s.countP (fun q => decide (q ≤ f + l - 1)) = C at *
    -- an arc without angles
    have empty : c = 0 → (c : K) / data.length - l - 1 / data.length ≤ V := by
      intro h0
      rw [h0]
      have : 0 < 1 / (data.length : K) := by positivity
      simp only [Nat.cast_zero, zero_div]
      linarith
    -- an arc between two ranks
    have fin : ∀ i j, ∀ hi : i < s.length, ∀ hj : j < s.length, ∀ w : Int, (c : Int) ≤ j - i + 1 + w * data.length →
        s[j] - s[i] + w ≤ l → (c : K) / data.length - l - 1 / data.length ≤ V := by
      intro i j hi hj w h1 h2
      have h3 := hV i j hi hj
      have h4 : (c : K) ≤ (j : K) - i + 1 + w * data.length := by exact_mod_cast h1
      have h5 : (c : K) / data.length ≤ ((j : K) - i) / data.length + 1 / data.length + w := by
        rw [div_le_iff₀ hn]
        have : (((j : K) - i) / data.length + 1 / data.length + w) * data.length = (j : K) - i + 1 + w * data.length := by
          field_simp
        rw [this]
        exact h4
      linarith
    by_cases hfl : f + l < 1
    · have hC0 : C = 0 := by
        by_contra hne
        have h1 := (hC 0 (by omega)).mpr (by omega)
        have h2 := (hr _ (List.getElem_mem (show 0 < s.length by omega))).1
        linarith
      by_cases hBA : B ≤ A
      · exact empty (by omega)
      · have h1 := (hA A (by omega)).not.mpr (by omega)
        have h2 := (hB (B - 1) (by omega)).mpr (by omega)
        refine fin A (B - 1) (by omega) (by omega) 0 (by omega) ?_
        push_cast
        linarith
    · by_cases hA1 : A < s.length
      · have h1 := (hA A hA1).not.mpr (by omega)
        by_cases hC0 : C = 0
        · have h2 := (hr _ (List.getElem_mem (show s.length - 1 < s.length by omega))).2
          refine fin A (s.length - 1) hA1 (by omega) 0 (by omega) ?_
          push_cast
          linarith
        · have h2 := (hC (C - 1) (by omega)).mpr (by omega)
          refine fin A (C - 1) hA1 (by omega) 1 (by omega) ?_
          push_cast
          linarith
      · by_cases hC0 : C = 0
        · exact empty (by omega)
        · have h2 := (hC (C - 1) (by omega)).mpr (by omega)
          have h3 := (hr _ (List.getElem_mem (show 0 < s.length by omega))).1
          refine fin 0 (C - 1) (by omega) (by omega) 0 (by omega) ?_
          push_cast
          linarith
  · have h1 : ((s.countP (fun q => decide (InTurn f l q)) : Nat) : K) / data.length ≤ 1 := by
      rw [div_le_one hn]
      exact_mod_cast hcn
    have : 0 < 1 / (data.length : K) := by positivity
    linarith

open Classical in
/-- **C215.** The statistic is the largest excess of the angles in an arc over what a
uniform distribution has there, less one angle. -/
theorem kuiper_spec (data : List K) (hne : data ≠ []) : ∃ V, kuiper data = some V ∧ LargestExcess data V := by
  obtain ⟨V, h⟩ := kuiper_some data hne
  refine ⟨V, h, fun a L hL => excess_le data V h hne a L hL, ?_⟩
  obtain ⟨_, i, j, hi, hj, hij⟩ := kuiper_rank data V h
  have hlen := turns_length data
  have hn0 : 0 < data.length := List.length_pos_iff.mpr hne
  have hn : (0 : K) < data.length := by exact_mod_cast hn0
  have hs := turns_sorted data
  have hr := turns_range data
  have hri := hr _ (List.getElem_mem hi)
  have hrj := hr _ (List.getElem_mem hj)
  have e360 : ∀ x : K, 360 * x / 360 = x := fun x => by field_simp
  have hfr : Int.fract (360 * (turns data)[i] / 360) = (turns data)[i] := by
    rw [e360, Int.fract_eq_self]
    exact hri
  -- the arc from rank `i` to rank `j`, around the circle if need be
  have fin : ∀ w : Nat, 0 ≤ (turns data)[j] - (turns data)[i] + w →
      ((j : K) - i + 1 + w * data.length ≤ ((turns data).countP (fun q => decide (InTurn (turns data)[i] ((turns data)[j] - (turns data)[i] + w) q)) : Nat)) →
      ∃ a L, 0 ≤ L ∧ excess data a L = V := by
    intro w h0 hc
    refine ⟨360 * (turns data)[i], 360 * ((turns data)[j] - (turns data)[i] + w), by positivity, ?_⟩
    apply le_antisymm (excess_le data V h hne _ _ (by positivity))
    unfold excess
    rw [inArc_eq, hfr, e360, ← hij]
    have h5 : ((j : K) - i) / data.length + 1 / data.length + w ≤
        (((turns data).countP (fun q => decide (InTurn (turns data)[i] ((turns data)[j] - (turns data)[i] + w) q)) : Nat) : K) / data.length := by
      rw [le_div_iff₀ hn]
      have : (((j : K) - i) / data.length + 1 / data.length + w) * data.length = (j : K) - i + 1 + w * data.length := by
        field_simp
      rw [this]
      exact hc
    linarith
  by_cases hle : i ≤ j
  · apply fin 0
    · have := sorted_le hs hle hj
      push_cast
      linarith
    · have := le_countP_idx (turns data) (fun q => decide (InTurn (turns data)[i] ((turns data)[j] - (turns data)[i] + (0 : Nat)) q))
        (List.range' i (j - i + 1)) List.nodup_range' (by
          intro m hm
          rw [List.mem_range'_1] at hm
          refine ⟨by omega, ?_⟩
          rw [decide_eq_true_eq]
          have h1 := sorted_le hs hm.1 (show m < (turns data).length by omega)
          have h2 := sorted_le hs (show m ≤ j by omega) hj
          refine ⟨0, ?_, ?_⟩ <;> push_cast <;> linarith)
      rw [List.length_range'] at this
      have h2 : ((j - i + 1 : Nat) : K) = (j : K) - i + 1 := by
        push_cast [Nat.cast_sub hle]
        ring
      rw [Nat.cast_zero, zero_mul, add_zero, ← h2]
      exact_mod_cast this
  · apply fin 1
    · push_cast
      linarith
    · have := le_countP_idx (turns data) (fun q => decide (InTurn (turns data)[i] ((turns data)[j] - (turns data)[i] + (1 : Nat)) q))
        (List.range (j + 1) ++ List.range' i (data.length - i)) (by
          rw [List.nodup_append]
          refine ⟨List.nodup_range, List.nodup_range', ?_⟩
          intro x hx y hy
          rw [List.mem_range] at hx
          rw [List.mem_range'_1] at hy
          omega) (by
          intro m hm
          rw [List.mem_append, List.mem_range, List.mem_range'_1] at hm
          refine ⟨by omega, ?_⟩
          rw [decide_eq_true_eq]
          have hrm := hr _ (List.getElem_mem (show m < (turns data).length by omega))
          rcases hm with hm | hm
          · have h2 := sorted_le hs (show m ≤ j by omega) hj
            refine ⟨1, ?_, ?_⟩ <;> push_cast <;> linarith
          · have h2 := sorted_le hs (show i ≤ m by omega) (show m < (turns data).length by omega)
            refine ⟨0, ?_, ?_⟩ <;> push_cast <;> linarith)
      rw [List.length_append, List.length_range, List.length_range'] at this
      have h2 : ((j + 1 + (data.length - i) : Nat) : K) = (j : K) - i + 1 + 1 * data.length := by
        push_cast [Nat.cast_sub (show i ≤ data.length by omega)]
        ring
      rw [Nat.cast_one, ← h2]
      exact_mod_cast this

theorem largestExcess_unique {data data' : List K} {V V' : K} (he : ∀ V, LargestExcess data V → LargestExcess data' V)
    (h : LargestExcess data V) (h' : LargestExcess data' V') : V = V' := by
  have h := he V h
  obtain ⟨a, L, h0, h1⟩ := h.2
  obtain ⟨a', L', h0', h1'⟩ := h'.2
  exact le_antisymm (h1 ▸ h'.1 a L h0) (h1' ▸ h.1 a' L' h0')

open Classical in
/-- The statistic does not depend on where the angles are counted from. -/
theorem kuiper_rotate (data : List K) (r : K) : kuiper (data.map (fun x => x + r)) = kuiper data := by
  by_cases hne : data = []
  · subst hne
    rfl
  obtain ⟨V, h, hV⟩ := kuiper_spec data hne
  obtain ⟨V', h', hV'⟩ := kuiper_spec (data.map (fun x => x + r)) (by simpa using hne)
  rw [h, h']
  have hex : ∀ a L, excess (data.map (fun x => x + r)) (a + r) L = excess data a L := by
    intro a L
    unfold excess inArc
    rw [List.countP_map, List.length_map]
    have : (fun x => decide (InArc (a + r) L x)) ∘ (fun x => x + r) = fun x => decide (InArc a L x) := by
      funext x
      simp only [Function.comp, decide_eq_decide]
      constructor
      · rintro ⟨k, h1, h2⟩
        exact ⟨k, by linarith, by linarith⟩
      · rintro ⟨k, h1, h2⟩
        exact ⟨k, by linarith, by linarith⟩
    simp only [this]
  congr 1
  symm
  refine largestExcess_unique (data := data) (data' := data.map (fun x => x + r)) ?_ hV hV'
  intro W hW
  constructor
  · intro a L hL
    have := hW.1 (a - r) L hL
    rw [← hex, sub_add_cancel] at this
    exact this
  · obtain ⟨a, L, h0, h1⟩ := hW.2
    exact ⟨a + r, L, h0, by rw [hex, h1]⟩

/-- It is at least zero and less than one. -/
theorem kuiper_bounds (data : List K) (V : K) (hne : data ≠ []) (h : kuiper data = some V) :
    0 ≤ V ∧ V ≤ 1 - 1 / data.length := by
  have hn0 : 0 < data.length := List.length_pos_iff.mpr hne
  have hn : (0 : K) < data.length := by exact_mod_cast hn0
  obtain ⟨V', h', hV⟩ := kuiper_spec data hne
  rw [h, Option.some.injEq] at h'
  subst h'
  constructor
  · have := (kuiper_rank data V h).1 0 0 (by rw [turns_length]; omega) (by rw [turns_length]; omega)
    simpa using this
  · obtain ⟨a, L, h0, rfl⟩ := hV.2
    unfold excess
    have : (inArc data a L : K) / data.length ≤ 1 := by
      rw [div_le_one hn]
      exact_mod_cast (by unfold inArc; exact List.countP_le_length : inArc data a L ≤ data.length)
    have : 0 ≤ L / 360 := by positivity
    linarith

/-- Zero means that the angles are evenly spread. -/
theorem kuiper_zero_iff (data : List K) (hne : data ≠ []) :
    kuiper data = some 0 ↔
      ∃ c, (data.map (fun x => x - 360 * (⌊x / 360⌋ : K))).Perm ((List.range data.length).map (fun i : Nat => c + 360 * (i : K) / data.length)) := by
  have hn0 : 0 < data.length := List.length_pos_iff.mpr hne
  have hn : (0 : K) < data.length := by exact_mod_cast hn0
  have hmap : data.map (fun x => x - 360 * (⌊x / 360⌋ : K)) = (data.map (fun x => Int.fract (x / 360))).map (fun q => 360 * q) := by
    rw [List.map_map]
    apply List.map_congr_left
    intro x _
    simp only [Function.comp, Int.fract]
    ring
  have hperm := (turns_perm data).map (fun q => 360 * q)
  rw [← hmap] at hperm
  have hlen := turns_length data
  constructor
  · intro h
    obtain ⟨hV, _⟩ := kuiper_rank data 0 h
    refine ⟨360 * (turns data)[0]'(by omega), hperm.symm.trans (List.Perm.of_eq ?_)⟩
    apply List.ext_getElem
    · simp [hlen]
    · intro i h1 h2
      simp only [List.length_map] at h1
      simp only [List.getElem_map, List.getElem_range]
      have a1 := hV i 0 h1 (by omega)
      have a2 := hV 0 i (by omega) h1
      have e1 : (((0 : Nat) : K) - i) / data.length = - ((i : K) / data.length) := by push_cast; ring
      have e2 : ((i : K) - ((0 : Nat) : K)) / data.length = (i : K) / data.length := by push_cast; ring
      rw [e1] at a1
      rw [e2] at a2
      have : (turns data)[i] = (turns data)[0]'(by omega) + (i : K) / data.length := by linarith
      rw [this]
      ring
  · rintro ⟨c, hc⟩
    have hp := hperm.trans hc
    have hq : turns data = (List.range data.length).map (fun i : Nat => c / 360 + (i : K) / data.length) := by
      have h2 : (turns data).Perm ((List.range data.length).map (fun i : Nat => c / 360 + (i : K) / data.length)) := by
        have := hp.map (fun x => x / 360)
        rw [List.map_map, List.map_map] at this
        have e1 : (fun x : K => x / 360) ∘ (fun q => 360 * q) = id := by
          funext q
          simp only [Function.comp, id]
          field_simp
        have e2 : (fun x : K => x / 360) ∘ (fun i : Nat => c + 360 * (i : K) / data.length) = fun i : Nat => c / 360 + (i : K) / data.length := by
          funext i
          simp only [Function.comp]
          field_simp
        rwa [e1, List.map_id, e2] at this
      refine h2.eq_of_pairwise (fun _ _ _ _ h1 h2 => le_antisymm h1 h2) (turns_sorted data) ?_
      rw [List.pairwise_map]
      refine List.pairwise_lt_range.imp ?_
      intro i j hij
      have : (i : K) / data.length ≤ (j : K) / data.length := div_le_div_of_nonneg_right (by exact_mod_cast hij.le) hn.le
      linarith
    obtain ⟨V, h⟩ := kuiper_some data hne
    obtain ⟨_, i, j, hi, hj, hij⟩ := kuiper_rank data V h
    have hV : V = 0 := by
      rw [← hij]
      simp only [hq, List.getElem_map, List.getElem_range]
      ring
    rw [h, hV]

open Classical in
/-- Angles that are all the same give one less the part of one angle, not one: "1 means
delta function" is false. -/
theorem kuiper_delta (data : List K) (a : K) (hne : data ≠ []) (h : ∀ x ∈ data, ∃ k : Int, x = a + 360 * k) :
    kuiper data = some (1 - 1 / (data.length : K)) := by
  have hn0 : 0 < data.length := List.length_pos_iff.mpr hne
  have hn : (0 : K) < data.length := by exact_mod_cast hn0
  obtain ⟨V, hk, hV⟩ := kuiper_spec data hne
  rw [hk]
  congr 1
  apply le_antisymm (kuiper_bounds data V hne hk).2
  have := hV.1 a 0 le_rfl
  have hc : inArc data a 0 = data.length := by
    unfold inArc
    rw [List.countP_eq_length]
    intro x hx
    rw [decide_eq_true_eq]
    obtain ⟨k, rfl⟩ := h x hx
    refine ⟨-k, ?_, ?_⟩ <;> push_cast <;> linarith
  unfold excess at this
  rw [hc, div_self hn.ne', zero_div, sub_zero] at this
  exact this

/-- No angles give one, and a single angle gives zero, though it is both. -/
theorem kuiper_false : (∀ data : List K, kuiper data ≠ some 1) ∧ ∀ x : K, kuiper [x] = some 0 := by
  constructor
  · intro data h
    by_cases hne : data = []
    · subst hne
      exact absurd h (by simp [kuiper, sort])
    · have h1 := (kuiper_bounds data 1 hne h).2
      have hn0 : 0 < data.length := List.length_pos_iff.mpr hne
      have : (0 : K) < 1 / data.length := by
        have : (0 : K) < data.length := by exact_mod_cast hn0
        positivity
      linarith
  · intro x
    rw [kuiper_delta [x] x (by simp) (by
      intro y hy
      rw [List.mem_singleton] at hy
      exact ⟨0, by rw [hy]; push_cast; ring⟩)]
    simp

/-- For instance. -/
example : kuiper ([10, 20, 370, 200] : List ℚ) = some (17 / 36) := by decide +kernel
example : kuiper ([300, 30, 120, 210] : List ℚ) = some 0 := by decide +kernel
example : kuiper ([7, 367, -353] : List ℚ) = some (2 / 3) := by decide +kernel

end Floor

section Ordered
variable {K : Type*} [Field K] [LinearOrder K] [IsStrictOrderedRing K]

/-! ## C216 -/

/-- Points of the cumulative curve, counted from `k`. -/
def curve (k : K) : List K → List (K × K)
  | [] => []
  | a :: l => (a, k + 1) :: curve (k + 1) l

omit [LinearOrder K] [IsStrictOrderedRing K] in
theorem curve_eq (l : List K) (k : K) : l.zip ((List.range l.length).map (fun i : Nat => (i : K) + (k + 1))) = curve k l := by
  induction l generalizing k with
  | nil => rfl
  | cons a l ih =>
    rw [List.length_cons, List.range_succ_eq_map, List.map_cons, List.zip_cons_cons, curve, ← ih (k + 1), List.map_map]
    congr 2
    · push_cast
      ring
    · apply List.map_congr_left
      intro i _
      simp only [Function.comp]
      push_cast
      ring

theorem curve_spec (a : K) (l : List K) (k x : K) (hs : (a :: l).Pairwise (· ≤ ·)) (hx : a ≤ x) :
    k + ((a :: l).countP (fun y => decide (y ≤ x)) : Nat) ≤ MoSum.interp (curve k (a :: l)) x ∧
      MoSum.interp (curve k (a :: l)) x < k + ((a :: l).countP (fun y => decide (y ≤ x)) : Nat) + 1 ∧
      ((x ∈ a :: l ∨ ∀ y ∈ a :: l, y ≤ x) →
        MoSum.interp (curve k (a :: l)) x = k + ((a :: l).countP (fun y => decide (y ≤ x)) : Nat)) := by
  induction l generalizing a k with
  | nil =>
    simp only [curve, MoSum.interp, List.countP_cons, List.countP_nil, hx, decide_true, if_true]
    push_cast
    refine ⟨by linarith, by linarith, fun _ => by ring⟩
  | cons b l ih =>
    have hb := (List.pairwise_cons.mp hs).2
    have hab : a ≤ b := (List.pairwise_cons.mp hs).1 b (by simp)
    rw [List.countP_cons_of_pos (by simpa using hx)]
    have ecur : curve k (a :: b :: l) = (a, k + 1) :: (b, k + 1 + 1) :: curve (k + 1 + 1) l := rfl
    have einterp : MoSum.interp (curve k (a :: b :: l)) x = if x < a then k + 1 else
        if x < b then (k + 1) + ((k + 1 + 1) - (k + 1)) / (b - a) * (x - a) else MoSum.interp (curve (k + 1) (b :: l)) x := by
      rw [ecur, MoSum.interp]
      rfl
    rw [einterp, if_neg (not_lt.mpr hx)]
    by_cases hxb : x < b
    · rw [if_pos hxb]
      have hz : (b :: l).countP (fun y => decide (y ≤ x)) = 0 := by
        rw [List.countP_eq_zero]
        intro y hy
        simp only [decide_eq_true_eq, not_le]
        rcases List.mem_cons.mp hy with rfl | hy
        · exact hxb
        · exact lt_of_lt_of_le hxb ((List.pairwise_cons.mp hb).1 y hy)
      rw [hz]
      push_cast
      have hba : 0 < b - a := by linarith
      have e : ((k + 1 + 1) - (k + 1)) / (b - a) * (x - a) = (x - a) / (b - a) := by ring
      rw [e]
      have h0 : 0 ≤ (x - a) / (b - a) := div_nonneg (by linarith) hba.le
      have h1 : (x - a) / (b - a) < 1 := by
        rw [div_lt_one hba]
        linarith
      refine ⟨by linarith, by linarith, ?_⟩
      intro h
      have hxa : x = a := by
        rcases h with h | h
        · rcases List.mem_cons.mp h with h | h
          · exact h
          · exfalso
            have := (List.countP_eq_zero.mp hz) x h
            simp at this
        · exact absurd (h b (by simp)) (not_le.mpr hxb)
      rw [hxa, sub_self, zero_div]
      ring
    · rw [if_neg hxb]
      have hbx := not_lt.mp hxb
      obtain ⟨h1, h2, h3⟩ := ih b (k + 1) hb hbx
      push_cast
      refine ⟨by linarith, by linarith, ?_⟩
      intro h
      rw [h3 ?_]
      · ring
      · rcases h with h | h
        · rcases List.mem_cons.mp h with h | h
          · left
            have : x = b := le_antisymm (h ▸ hab) hbx
            rw [this]
            simp
          · left; exact h
        · right
          intro y hy
          exact h y (List.mem_cons_of_mem _ hy)

/-- **C216.** From the first night on the curve is the number of visits up to the night,
exactly so for nights with visits and after the last one, and less than one above otherwise. -/
theorem cumulative_partial (nights : List K) (hs : nights.Pairwise (· ≤ ·)) (x : K) (hx : ∃ y ∈ nights, y ≤ x) :
    (nights.countP (fun y => decide (y ≤ x)) : K) ≤ cumulative nights x ∧
      cumulative nights x < (nights.countP (fun y => decide (y ≤ x)) : K) + 1 ∧
      ((x ∈ nights ∨ ∀ y ∈ nights, y ≤ x) → cumulative nights x = (nights.countP (fun y => decide (y ≤ x)) : K)) := by
  cases nights with
  | nil =>
    obtain ⟨y, hy, _⟩ := hx
    cases hy
  | cons a l =>
    have hax : a ≤ x := by
      obtain ⟨y, hy, hyx⟩ := hx
      rcases List.mem_cons.mp hy with rfl | hy
      · exact hyx
      · exact le_trans ((List.pairwise_cons.mp hs).1 y hy) hyx
    have h := curve_spec a l 0 x hs hax
    have e : cumulative (a :: l) x = MoSum.interp (curve 0 (a :: l)) x := by
      unfold cumulative
      rw [← curve_eq]
      simp only [zero_add]
    rw [e]
    simpa only [zero_add] using h

/-- Before the first visit the curve is one, not zero. -/
theorem cumulative_before (nights : List K) (hne : nights ≠ []) (x : K) (hx : ∀ y ∈ nights, x < y) :
    cumulative nights x = 1 ∧ nights.countP (fun y => decide (y ≤ x)) = 0 := by
  constructor
  · unfold cumulative
    match nights, hne with
    | [a], _ => simp [MoSum.interp]
    | a :: b :: l, _ =>
      have := hx a (by simp)
      simp [List.range_succ_eq_map, MoSum.interp, this]
  · rw [List.countP_eq_zero]
    intro y hy
    simpa using hx y hy

/-- Between visits it is not a number of visits. -/
theorem cumulative_false : ∃ (nights : List ℚ) (x : ℚ), nights.Pairwise (· ≤ ·) ∧ (∃ y ∈ nights, y ≤ x) ∧
    cumulative nights x ≠ (nights.countP (fun y => decide (y ≤ x)) : ℚ) := by
  refine ⟨[0, 0, 10], 5, by decide +kernel, ⟨0, by decide +kernel, by decide +kernel⟩, by decide +kernel⟩

/-- Without given points the curve is at all nights from the first to the last. -/
theorem cumulativePoints_spec (nights : List Int) (x : Int) :
    x ∈ cumulativePoints nights ↔ (∃ a ∈ nights, a ≤ x) ∧ ∃ b ∈ nights, x ≤ b := by
  unfold cumulativePoints
  rcases ha : nights.min? with _ | a
  · rw [List.min?_eq_none_iff] at ha
    subst ha
    simp
  rcases hb : nights.max? with _ | b
  · rw [List.max?_eq_none_iff] at hb
    subst hb
    simp
  obtain ⟨ha1, ha2⟩ := List.min?_eq_some_iff.mp ha
  obtain ⟨hb1, hb2⟩ := List.max?_eq_some_iff.mp hb
  simp only [List.mem_map, List.mem_range]
  constructor
  · rintro ⟨i, hi, rfl⟩
    exact ⟨⟨a, ha1, by omega⟩, ⟨b, hb1, by omega⟩⟩
  · rintro ⟨⟨c, hc, hcx⟩, ⟨d, hd, hdx⟩⟩
    have := ha2 c hc
    have := hb2 d hd
    exact ⟨(x - a).toNat, by omega, by omega⟩

example : cumulative ([3, 3, 5, 9] : List ℚ) 3 = 2 ∧ cumulative ([3, 3, 5, 9] : List ℚ) 4 = 5 / 2 ∧ cumulative ([3, 3, 5, 9] : List ℚ) 20 = 4 := by
  decide +kernel

/-! ## C217 -/

/-- Night `x` is in year `y` of the survey; the last of ten years has its end. -/
def InYear (x : K) (y : Nat) : Prop :=
  1461 / 4 * (y : K) - 1 / 2 ≤ x ∧ (x < 1461 / 4 * ((y : K) + 1) - 1 / 2 ∨ y = 9 ∧ x = 3652)

open Classical in
/-- **C217.** With the default bins the result is the number of the ten years that have a
visit. -/
theorem yearCoverage_spec (nights : List K) :
    yearCoverage yearBins nights = (List.range 10).countP (fun y => decide (∃ x ∈ nights, InYear x y)) := by
  have hlen : (yearBins : List K).length = 11 := by simp [yearBins]
  unfold yearCoverage histogram
  rw [hlen, List.countP_map]
  apply List.countP_congr
  intro y hy
  have hy' : y < 10 := List.mem_range.mp hy
  simp only [Function.comp, decide_eq_true_eq, List.countP_pos_iff]
  have hb : ∀ x : K, inBin yearBins y x = true ↔ InYear x y := by
    intro x
    have h1 : (yearBins : List K)[y]? = some ((y : K) * (1461 / 4) - 1 / 2) := by
      simp [yearBins, show y < 11 by omega]
    have h2 : (yearBins : List K)[y + 1]? = some (((y + 1 : Nat) : K) * (1461 / 4) - 1 / 2) := by
      simp [yearBins, show y + 1 < 11 by omega]
    unfold inBin InYear
    have c3 : (y + 2 = 11) ↔ y = 9 := by omega
    simp only [h1, h2, hlen, c3, Bool.and_eq_true, Bool.or_eq_true, decide_eq_true_eq]
    push_cast
    have c1 : (y : K) * (1461 / 4) - 1 / 2 = 1461 / 4 * (y : K) - 1 / 2 := by ring
    have c2 : ((y : K) + 1) * (1461 / 4) - 1 / 2 = 1461 / 4 * ((y : K) + 1) - 1 / 2 := by ring
    rw [c1, c2]
    constructor
    · rintro ⟨h, h' | ⟨h', h''⟩⟩
      · exact ⟨h, Or.inl h'⟩
      · refine ⟨h, Or.inr ⟨h', ?_⟩⟩
        rw [h'', h']
        norm_num
    · rintro ⟨h, h' | ⟨h', h''⟩⟩
      · exact ⟨h, Or.inl h'⟩
      · refine ⟨h, Or.inr ⟨h', ?_⟩⟩
        rw [h'', h']
        norm_num
  constructor
  · rintro ⟨x, hx, h⟩
    exact ⟨x, hx, (hb x).mp h⟩
  · rintro ⟨x, hx, h⟩
    exact ⟨x, hx, (hb x).mpr h⟩

example : yearCoverage yearBins ([0, 364, 365, 3652, 4000] : List ℚ) = 3 := by decide +kernel

/-! ## C218 -/

/-- The differences between consecutive visits that are in the interval. -/
def inInterval (tmin tmax : K) (times : List K) : List K :=
  (diff (sort times)).filter (fun d => decide (tmin ≤ d) && decide (d ≤ tmax))

/-- The scaled differences begin with zero and are at most one. -/
theorem rapidTimes_spec (m : Nat) (tmin tmax : K) (ht : tmin < tmax) (times d : List K) (h : rapidTimes m tmin tmax times = some d) :
    ∃ c, d.map (fun x => x * (tmax - tmin) + c) = sort (inInterval tmin tmax times) ∧ d.length = (inInterval tmin tmax times).length ∧
      2 ≤ d.length ∧ m ≤ d.length ∧ d.Pairwise (· ≤ ·) ∧ d[0]? = some 0 ∧ ∀ x ∈ d, 0 ≤ x ∧ x ≤ 1 := by
  have hw : 0 < tmax - tmin := by linarith
  unfold rapidTimes at h
  simp only at h
  change (if (inInterval tmin tmax times).length < (if m ≤ 1 then 2 else m) then none else
    match (sort (inInterval tmin tmax times)).min? with
    | none => none
    | some c => some ((sort (inInterval tmin tmax times)).map (fun x => (x - c) / (tmax - tmin)))) = some d at h
  by_cases hlen : (inInterval tmin tmax times).length < (if m ≤ 1 then 2 else m)
  · rw [if_pos hlen] at h
    cases h
  rw [if_neg hlen] at h
  set g := inInterval tmin tmax times with hg
  rcases hm : (sort g).min? with _ | c
  · rw [hm] at h
    cases h
  rw [hm] at h
  simp only [Option.some.injEq] at h
  subst h
  obtain ⟨hc1, hc2⟩ := List.min?_eq_some_iff.mp hm
  have hin : ∀ x ∈ sort g, tmin ≤ x ∧ x ≤ tmax := by
    intro x hx
    have := (sort_perm g).mem_iff.mp hx
    rw [hg, inInterval, List.mem_filter] at this
    simpa using this.2
  have h2 : 2 ≤ g.length ∧ m ≤ g.length := by
    split at hlen <;> omega
  refine ⟨c, ?_, ?_, ?_, ?_, ?_, ?_, ?_⟩
  · rw [List.map_map]
    conv_rhs => rw [← List.map_id (sort g)]
    apply List.map_congr_left
    intro x _
    simp only [Function.comp, id]
    field_simp
    ring
  · rw [List.length_map, sort_length]
  · rw [List.length_map, sort_length]
    exact h2.1
  · rw [List.length_map, sort_length]
    exact h2.2
  · rw [List.pairwise_map]
    refine (sort_sorted g).imp ?_
    intro a b hab
    exact div_le_div_of_nonneg_right (by linarith) hw.le
  · rw [List.getElem?_map]
    have hl : 0 < (sort g).length := by
      rw [sort_length]
      omega
    rw [List.getElem?_eq_getElem hl]
    have hc : (sort g)[0] = c := by
      apply le_antisymm
      · obtain ⟨j, hj, rfl⟩ := List.mem_iff_getElem.mp hc1
        rcases Nat.eq_zero_or_pos j with h | h
        · subst h
          exact le_rfl
        · exact List.pairwise_iff_getElem.mp (sort_sorted g) 0 j hl hj h
      · exact hc2 _ (List.getElem_mem hl)
    simp [hc]
  · intro x hx
    obtain ⟨y, hy, rfl⟩ := List.mem_map.mp hx
    have h1 := hc2 y hy
    have h3 := hin y hy
    have h4 := hin c hc1
    constructor
    · exact div_nonneg (by linarith) hw.le
    · rw [div_le_one hw]
      linarith

/-- The largest distance, by index. -/
theorem rapidMax_spec (d : List K) (h2 : 2 ≤ d.length) :
    ∃ r, rapidMax d = some r ∧ (∀ i, ∀ hi : i < d.length, |((i : K) + (1 : K)) / (d.length : K) - d[i] - d[1]| ≤ r) ∧
      ∃ i, ∃ hi : i < d.length, |((i : K) + (1 : K)) / (d.length : K) - d[i] - d[1]| = r := by
  unfold rapidMax
  rw [List.getElem?_eq_getElem (show 1 < d.length by omega)]
  simp only
  set z := List.zipWith (fun (i : Nat) x => |((i : K) + (1 : K)) / (d.length : K) - x - d[1]|) (List.range d.length) d with hz
  have hzl : z.length = d.length := by simp [hz]
  rcases hm : z.max? with _ | r
  · rw [List.max?_eq_none_iff] at hm
    rw [hm] at hzl
    simp at hzl
    omega
  obtain ⟨h3, h4⟩ := List.max?_eq_some_iff.mp hm
  refine ⟨r, rfl, ?_, ?_⟩
  · intro i hi
    apply h4
    rw [List.mem_iff_getElem]
    exact ⟨i, by omega, by simp [hz]⟩
  · obtain ⟨i, hi, he⟩ := List.mem_iff_getElem.mp h3
    exact ⟨i, by omega, by simpa [hz] using he⟩

/-- **C218.** Zero means that the differences in the interval are evenly spread, starting
with the shortest. -/
theorem rapid_zero_iff (m : Nat) (tmin tmax : K) (ht : tmin < tmax) (times : List K) (d : List K)
    (h : rapidTimes m tmin tmax times = some d) :
    rapidUniformity m tmin tmax times = some 0 ↔
      ∃ c, (inInterval tmin tmax times).Perm ((List.range (inInterval tmin tmax times).length).map
        (fun i : Nat => c + (tmax - tmin) * ((i : K) / (inInterval tmin tmax times).length))) := by
  obtain ⟨c, hc, hlen, h2, _, hsort, h0, hr⟩ := rapidTimes_spec m tmin tmax ht times d h
  obtain ⟨r, hr1, hr2, i, hi, hri⟩ := rapidMax_spec d h2
  have hw : 0 < tmax - tmin := by linarith
  have hn : (0 : K) < d.length := by exact_mod_cast (by omega : 0 < d.length)
  have hd0 : d[0] = 0 := by
    rw [List.getElem?_eq_getElem (by omega), Option.some.injEq] at h0
    exact h0
  have hrun : rapidUniformity m tmin tmax times = some r := by
    unfold rapidUniformity
    rw [h, Option.bind_some, hr1]
  rw [hrun, ← hlen]
  simp only [Option.some.injEq]
  constructor
  · intro hr0
    subst hr0
    have hz : ∀ i, ∀ hi : i < d.length, ((i : K) + (1 : K)) / (d.length : K) - d[i] - d[1] = 0 := fun i hi =>
      abs_eq_zero.mp (le_antisymm (hr2 i hi) (abs_nonneg _))
    have hd1 : d[1] = 1 / d.length := by
      have := hz 0 (by omega)
      rw [hd0] at this
      push_cast at this
      rw [zero_add, sub_zero] at this
      linarith
    refine ⟨c, (sort_perm _).symm.trans (List.Perm.of_eq ?_)⟩
    rw [← hc]
    apply List.ext_getElem
    · simp
    · intro j hj hj'
      simp only [List.length_map] at hj
      simp only [List.getElem_map, List.getElem_range]
      have h5 := hz j hj
      rw [hd1] at h5
      have : d[j] = (j : K) / d.length := by
        have e : ((j : K) + 1) / d.length = (j : K) / d.length + 1 / d.length := by ring
        have h6 : ((j : K) + 1) / d.length - d[j] - 1 / d.length = 0 := by simpa using h5
        rw [e] at h6
        linarith
      rw [this]
      ring
  · rintro ⟨c', hp⟩
    have hsrt : sort (inInterval tmin tmax times) = (List.range d.length).map (fun i : Nat => c' + (tmax - tmin) * ((i : K) / d.length)) := by
      refine ((sort_perm _).trans hp).eq_of_pairwise (fun _ _ _ _ h1 h2 => le_antisymm h1 h2) (sort_sorted _) ?_
      rw [List.pairwise_map]
      refine List.pairwise_lt_range.imp ?_
      intro i j hij
      have h6 : (i : K) / d.length ≤ (j : K) / d.length := div_le_div_of_nonneg_right (by exact_mod_cast hij.le) hn.le
      have := mul_le_mul_of_nonneg_left h6 hw.le
      linarith
    rw [← hc] at hsrt
    have hv : ∀ j, ∀ hj : j < d.length, d[j] * (tmax - tmin) + c = c' + (tmax - tmin) * ((j : K) / d.length) := by
      intro j hj
      have h7 : (d.map (fun x => x * (tmax - tmin) + c))[j]? =
          ((List.range d.length).map (fun i : Nat => c' + (tmax - tmin) * ((i : K) / d.length)))[j]? := by rw [hsrt]
      simpa [hj] using h7
    have hcc : c = c' := by
      have := hv 0 (by omega)
      rw [hd0] at this
      simpa using this
    have hdj : ∀ j, ∀ hj : j < d.length, d[j] = (j : K) / d.length := by
      intro j hj
      have h8 := hv j hj
      rw [hcc] at h8
      have h9 : (tmax - tmin) * d[j] = (tmax - tmin) * ((j : K) / d.length) := by linarith
      exact mul_left_cancel₀ hw.ne' h9
    rw [← hri, hdj i hi, hdj 1 (by omega), abs_eq_zero]
    push_cast
    ring

/-- The result is less than two. -/
theorem rapid_bounds (m : Nat) (tmin tmax : K) (ht : tmin < tmax) (times : List K) (r : K)
    (h : rapidUniformity m tmin tmax times = some r) : 0 ≤ r ∧ r < 2 := by
  unfold rapidUniformity at h
  rcases hd : rapidTimes m tmin tmax times with _ | d
  · rw [hd] at h
    cases h
  rw [hd, Option.bind_some] at h
  obtain ⟨c, hc, hlen, h2, _, hsort, h0, hr⟩ := rapidTimes_spec m tmin tmax ht times d hd
  obtain ⟨r', hr1, _, i, hi, hri⟩ := rapidMax_spec d h2
  rw [h, Option.some.injEq] at hr1
  subst hr1
  have hn : (0 : K) < d.length := by exact_mod_cast (by omega : 0 < d.length)
  have a1 := hr _ (List.getElem_mem hi)
  have a2 := hr _ (List.getElem_mem (show 1 < d.length by omega))
  have a3 : 0 < ((i : K) + 1) / d.length := by positivity
  have a4 : ((i : K) + 1) / d.length ≤ 1 := by
    rw [div_le_one hn]
    exact_mod_cast (by omega : i + 1 ≤ d.length)
  rw [← hri]
  refine ⟨abs_nonneg _, ?_⟩
  rw [abs_lt]
  constructor <;> linarith

/-- Scaled to 0 to 1 it is not: three differences can give 4/3. -/
theorem rapid_false : ∃ times : List ℚ, rapidUniformity 2 1 2 times = some (4 / 3) := ⟨[0, 1, 3, 5], by decide +kernel⟩

example : rapidUniformity 2 1 4 ([0, 1, 3, 6] : List ℚ) = some 0 := by decide +kernel

/-! ## C219 -/

/-- The visit at `t` comes after one at `s`, with none in between. -/
def Next (times : List K) (s t : K) : Prop := s ∈ times ∧ s < t ∧ ∀ u ∈ times, ¬ (s < u ∧ u < t)

open Classical in
theorem countP_diff (l : List K) (hs : l.Pairwise (· < ·)) (p : K → Prop) :
    (diff l).countP (fun d => decide (p d)) = l.countP (fun t => decide (∃ s, Next l s t ∧ p (t - s))) := by
  induction l with
  | nil => rfl
  | cons a l ih =>
    have hfirst : ∀ (a : K) (l : List K), (a :: l).Pairwise (· < ·) → ¬ ∃ s, Next (a :: l) s a ∧ p (a - s) := by
      rintro a l h ⟨s, ⟨hs1, hs2, _⟩, _⟩
      rcases List.mem_cons.mp hs1 with rfl | hs1
      · exact lt_irrefl _ hs2
      · exact lt_asymm hs2 ((List.pairwise_cons.mp h).1 s hs1)
    cases l with
    | nil =>
      rw [diff_single, List.countP_nil, List.countP_cons_of_neg (by simpa using hfirst a [] hs), List.countP_nil]
    | cons b l =>
      have hb := (List.pairwise_cons.mp hs).2
      have ha := (List.pairwise_cons.mp hs).1
      have hbl := (List.pairwise_cons.mp hb).1
      have e1 : l.countP (fun t => decide (∃ s, Next (b :: l) s t ∧ p (t - s))) =
          l.countP (fun t => decide (∃ s, Next (a :: b :: l) s t ∧ p (t - s))) := by
        apply List.countP_congr
        intro t ht
        simp only [decide_eq_true_eq]
        constructor
        · rintro ⟨s, ⟨h1, h2, h3⟩, h4⟩
          refine ⟨s, ⟨List.mem_cons_of_mem _ h1, h2, ?_⟩, h4⟩
          intro u hu
          rcases List.mem_cons.mp hu with rfl | hu
          · rintro ⟨h5, _⟩
            exact lt_asymm h5 (ha s h1)
          · exact h3 u hu
        · rintro ⟨s, ⟨h1, h2, h3⟩, h4⟩
          rcases List.mem_cons.mp h1 with rfl | h1
          · exact absurd ⟨ha b (by simp), hbl t ht⟩ (h3 b (by simp))
          · exact ⟨s, ⟨h1, h2, fun u hu => h3 u (List.mem_cons_of_mem _ hu)⟩, h4⟩
      have e2 : p (b - a) ↔ ∃ s, Next (a :: b :: l) s b ∧ p (b - s) := by
        constructor
        · intro h
          refine ⟨a, ⟨by simp, ha b (by simp), ?_⟩, h⟩
          rintro u hu ⟨h1, h2⟩
          rcases List.mem_cons.mp hu with rfl | hu
          · exact lt_irrefl _ h1
          · rcases List.mem_cons.mp hu with rfl | hu
            · exact lt_irrefl _ h2
            · exact lt_asymm h2 (hbl u hu)
        · rintro ⟨s, ⟨h1, h2, _⟩, h4⟩
          rcases List.mem_cons.mp h1 with rfl | h1
          · exact h4
          · rcases List.mem_cons.mp h1 with rfl | h1
            · exact absurd h2 (lt_irrefl _)
            · exact absurd h2 (lt_asymm (hbl s h1))
      have c1 : (b :: l).countP (fun t => decide (∃ s, Next (b :: l) s t ∧ p (t - s))) =
          l.countP (fun t => decide (∃ s, Next (b :: l) s t ∧ p (t - s))) :=
        List.countP_cons_of_neg (by simpa using hfirst b _ hb)
      have c2 : (a :: b :: l).countP (fun t => decide (∃ s, Next (a :: b :: l) s t ∧ p (t - s))) =
          (b :: l).countP (fun t => decide (∃ s, Next (a :: b :: l) s t ∧ p (t - s))) :=
        List.countP_cons_of_neg (by simpa using hfirst a _ hs)
      rw [diff_cons_cons, List.countP_cons, ih hb, c1, c2, List.countP_cons, e1]
      simp only [decide_eq_true_eq, e2]

omit [Field K] [IsStrictOrderedRing K] in
theorem sort_strict (times : List K) (hn : times.Nodup) : (sort times).Pairwise (· < ·) := by
  have h1 := (sort_perm times).nodup_iff.mpr hn
  exact ((sort_sorted times).and h1).imp (fun h => lt_of_le_of_ne h.1 h.2)

open Classical in
theorem countP_diff_sort (times : List K) (hn : times.Nodup) (p : K → Prop) :
    (diff (sort times)).countP (fun d => decide (p d)) = times.countP (fun t => decide (∃ s, Next times s t ∧ p (t - s))) := by
  rw [countP_diff _ (sort_strict times hn), (sort_perm times).countP_eq]
  apply List.countP_congr
  intro t _
  have : ∀ s, Next (sort times) s t ↔ Next times s t := by
    intro s
    simp only [Next, (sort_perm times).mem_iff]
  simp only [this]

omit [Field K] [IsStrictOrderedRing K] in
/-- A visit after another one has a visit just before it. -/
theorem next_exists (times : List K) (s t : K) (hs : s ∈ times) (h : s < t) : ∃ s', Next times s' t ∧ s ≤ s' := by
  rcases hm : (times.filter (fun u => decide (u < t))).max? with _ | m
  · rw [List.max?_eq_none_iff, List.filter_eq_nil_iff] at hm
    exact absurd (by simpa using h) (hm s hs)
  · obtain ⟨h1, h2⟩ := List.max?_eq_some_iff.mp hm
    rw [List.mem_filter] at h1
    refine ⟨m, ⟨h1.1, by simpa using h1.2, ?_⟩, h2 s (by rw [List.mem_filter]; exact ⟨hs, by simpa using h⟩)⟩
    rintro u hu ⟨h3, h4⟩
    exact absurd (h2 u (by rw [List.mem_filter]; exact ⟨hu, by simpa using h4⟩)) (not_le.mpr h3)

open Classical in
/-- **C219.** The number of fast revisits is the number of visits that come within the given
time of an earlier one. -/
theorem nRevisits_spec (dt : K) (times : List K) (hn : times.Nodup) :
    nRevisits dt times = times.countP (fun t => decide (∃ s ∈ times, s < t ∧ t - s ≤ dt)) := by
  have h := countP_diff_sort times hn (fun x => x ≤ dt)
  have e : nRevisits dt times = (diff (sort times)).countP (fun x => decide (x ≤ dt)) := rfl
  rw [e]
  refine Eq.trans ?_ (h.trans ?_)
  · apply List.countP_congr
    intro x _
    simp
  · apply List.countP_congr
    intro t _
    simp only [decide_eq_true_eq]
    constructor
    · rintro ⟨s, ⟨h1, h2, _⟩, h3⟩
      exact ⟨s, h1, h2, h3⟩
    · rintro ⟨s, h1, h2, h3⟩
      obtain ⟨s', h4, h5⟩ := next_exists times s t h1 h2
      exact ⟨s', h4, by linarith⟩

/-- As a fraction it is less than one. -/
theorem nRevisitsNormed_lt (dt : K) (times : List K) (hne : times ≠ []) :
    0 ≤ nRevisitsNormed dt times ∧ nRevisitsNormed dt times < 1 := by
  have hn0 : 0 < times.length := List.length_pos_iff.mpr hne
  have hn : (0 : K) < times.length := by exact_mod_cast hn0
  unfold nRevisitsNormed
  refine ⟨by positivity, ?_⟩
  rw [div_lt_one hn]
  have h1 : nRevisits dt times ≤ (diff (sort times)).length := List.countP_le_length
  rw [diff_length, sort_length] at h1
  exact_mod_cast (by omega : nRevisits dt times < times.length)

/-- If all visits are in pairs, and these are apart, the fraction is one half. -/
theorem nRevisits_pairs (dt : K) (ps : List (K × K)) (hne : ps ≠ []) (hp : ∀ p ∈ ps, p.1 ≤ p.2 ∧ p.2 - p.1 ≤ dt)
    (hq : ps.Pairwise (fun p q => p.2 + dt < q.1)) (times : List K) (ht : times.Perm (ps.flatMap (fun p => [p.1, p.2]))) :
    nRevisits dt times = ps.length ∧ nRevisitsNormed dt times = 1 / 2 := by
  have hdt : 0 ≤ dt := by
    obtain ⟨p, hpm⟩ := List.exists_mem_of_ne_nil _ hne
    have := hp p hpm
    linarith
  have hsorted : ∀ ps : List (K × K), (∀ p ∈ ps, p.1 ≤ p.2 ∧ p.2 - p.1 ≤ dt) → ps.Pairwise (fun p q => p.2 + dt < q.1) →
      (ps.flatMap (fun p => [p.1, p.2])).Pairwise (· ≤ ·) := by
    intro ps hp hq
    induction ps with
    | nil => simp
    | cons p ps ih =>
      rw [List.pairwise_cons] at hq
      have hpp := hp p (by simp)
      have hle : ∀ x ∈ ps.flatMap (fun p => [p.1, p.2]), p.2 ≤ x := by
        intro x hx
        obtain ⟨q, hqm, hxq⟩ := List.mem_flatMap.mp hx
        have h1 := hq.1 q hqm
        have h2 := hp q (List.mem_cons_of_mem _ hqm)
        simp only [List.mem_cons, List.not_mem_nil, or_false] at hxq
        rcases hxq with rfl | rfl <;> linarith
      rw [List.flatMap_cons]
      simp only [List.cons_append, List.nil_append, List.pairwise_cons]
      refine ⟨?_, hle, ih (fun q hqm => hp q (List.mem_cons_of_mem _ hqm)) hq.2⟩
      intro x hx
      rcases List.mem_cons.mp hx with rfl | hx
      · exact hpp.1
      · exact le_trans hpp.1 (hle x hx)
  have hcount : ∀ ps : List (K × K), (∀ p ∈ ps, p.1 ≤ p.2 ∧ p.2 - p.1 ≤ dt) → ps.Pairwise (fun p q => p.2 + dt < q.1) →
      (diff (ps.flatMap (fun p => [p.1, p.2]))).countP (fun x => decide (x ≤ dt)) = ps.length := by
    intro ps hp hq
    induction ps with
    | nil => rfl
    | cons p ps ih =>
      rw [List.pairwise_cons] at hq
      have hpp := hp p (by simp)
      have hih := ih (fun q hqm => hp q (List.mem_cons_of_mem _ hqm)) hq.2
      rw [List.flatMap_cons]
      simp only [List.cons_append, List.nil_append]
      rw [diff_cons_cons, List.countP_cons_of_pos (by simpa using hpp.2)]
      cases ps with
      | nil => rfl
      | cons q ps =>
        rw [List.flatMap_cons] at hih ⊢
        simp only [List.cons_append, List.nil_append] at hih ⊢
        have h1 := hq.1 q (by simp)
        rw [diff_cons_cons, List.countP_cons_of_neg (by simp only [decide_eq_true_eq, not_le]; linarith), hih]
        rfl
  have h1 : nRevisits dt times = ps.length := by
    unfold nRevisits
    rw [sort_eq_of_perm ht, sort_eq_self (hsorted ps hp hq), hcount ps hp hq]
  refine ⟨h1, ?_⟩
  have h2 : times.length = 2 * ps.length := by
    rw [ht.length_eq, List.length_flatMap]
    simp
    omega
  have h3 : (0 : K) < ps.length := by exact_mod_cast List.length_pos_iff.mpr hne
  unfold nRevisitsNormed
  rw [h1, h2]
  push_cast
  field_simp

open Classical in
/-- Rapid revisits: one exactly if there are enough visits with the given times to the
visits before. -/
theorem rapidRevisit_spec (tmin tpairs tmax : K) (m1 m2 : Nat) (times : List K) (hn : times.Nodup) :
    rapidRevisit tmin tpairs tmax m1 m2 times =
      if m1 ≤ times.countP (fun t => decide (∃ s, Next times s t ∧ tmin ≤ t - s ∧ t - s ≤ tpairs)) ∧
        m2 ≤ times.countP (fun t => decide (∃ s, Next times s t ∧ tmin ≤ t - s ∧ t - s ≤ tmax)) then 1 else 0 := by
  have h : ∀ T : K, (diff (sort times)).countP (fun x => decide (tmin ≤ x) && decide (x ≤ T)) =
      times.countP (fun t => decide (∃ s, Next times s t ∧ tmin ≤ t - s ∧ t - s ≤ T)) := by
    intro T
    rw [← countP_diff_sort times hn (fun x => tmin ≤ x ∧ x ≤ T)]
    apply List.countP_congr
    intro x _
    simp
  unfold rapidRevisit
  simp only [h]

example : nRevisits 1 ([10, 0, 1, 11] : List ℚ) = 2 ∧ nRevisitsNormed 1 ([10, 0, 1, 11] : List ℚ) = 1 / 2 := by decide +kernel
example : rapidRevisit 1 2 5 1 2 ([10, 0, 1, 13] : List ℚ) = 1 ∧ rapidRevisit 2 2 5 1 1 ([10, 0, 1, 13] : List ℚ) = 0 := by decide +kernel

/-! ## C220 -/

omit [IsStrictOrderedRing K] in
/-- The gaps that `VisitGapMetric` reduces add up to the time from the first to the last
visit, in hours, and there is one less than visits. -/
theorem visitGaps_sum (times : List K) (a b : K) (ha : a ∈ times ∧ ∀ x ∈ times, a ≤ x) (hb : b ∈ times ∧ ∀ x ∈ times, x ≤ b) :
    (visitGaps times).sum = 24 * (b - a) ∧ (visitGaps times).length = times.length - 1 := by
  unfold visitGaps
  refine ⟨?_, by rw [List.length_map, diff_length, sort_length]⟩
  rw [List.sum_map_mul_right, List.map_id']
  have hm : ∀ x, x ∈ sort times ↔ x ∈ times := fun x => (sort_perm times).mem_iff
  have hs := sort_sorted times
  cases h : sort times with
  | nil =>
    have := (hm a).mpr ha.1
    rw [h] at this
    cases this
  | cons c l =>
    rw [h] at hs hm
    rw [diff_sum]
    have hc : c = a := by
      apply le_antisymm
      · rcases List.mem_cons.mp ((hm a).mpr ha.1) with h1 | h1
        · exact h1.ge
        · exact (List.pairwise_cons.mp hs).1 a h1
      · exact ha.2 c ((hm c).mp (by simp))
    have hl : (c :: l).getLast (by simp) = b := by
      apply le_antisymm
      · exact hb.2 _ ((hm _).mp (List.getLast_mem _))
      · obtain ⟨i, hi, hib⟩ := List.mem_iff_getElem.mp ((hm b).mpr hb.1)
        rw [List.getLast_eq_getElem, ← hib]
        rcases Nat.lt_or_eq_of_le (show i ≤ (c :: l).length - 1 by omega) with h1 | h1
        · exact List.pairwise_iff_getElem.mp hs i _ hi (by omega) h1
        · simp only [h1]
          exact le_rfl
    rw [hl, hc]
    ring

/-- A single visit has no gap: the function of the user gets an empty array. -/
theorem visitGaps_single (t : K) : visitGaps [t] = [] := rfl

/-- **C220.** Without later visits, the age is the time since the most recent visit, masked
if above the limit. -/
theorem age_partial (mjd limit : K) (times : List K) (hne : times ≠ []) (hb : ∀ t ∈ times, t ≤ mjd) :
    ∃ t ∈ times, (∀ u ∈ times, u ≤ mjd → u ≤ t) ∧ 0 ≤ mjd - t ∧
      (age mjd limit times = if limit < mjd - t then some none else some (some (mjd - t))) := by
  rcases hm : times.max? with _ | m
  · rw [List.max?_eq_none_iff] at hm
    exact absurd hm hne
  obtain ⟨h1, h2⟩ := List.max?_eq_some_iff.mp hm
  refine ⟨m, h1, fun u hu _ => h2 u hu, by linarith [hb m h1], ?_⟩
  unfold age
  rw [hm, Option.map_some]
  split <;> rfl

/-- With a visit after the reference time the age is negative, whatever was before. -/
theorem age_false (mjd limit : K) (hl : 0 ≤ limit) (times : List K) (t : K) (ht : t ∈ times) (h : mjd < t) :
    ∃ r, age mjd limit times = some (some r) ∧ r < 0 := by
  rcases hm : times.max? with _ | m
  · rw [List.max?_eq_none_iff] at hm
    rw [hm] at ht
    cases ht
  obtain ⟨_, h2⟩ := List.max?_eq_some_iff.mp hm
  have h3 := h2 t ht
  refine ⟨mjd - m, ?_, by linarith⟩
  unfold age
  rw [hm, Option.map_some, if_neg (not_lt.mpr (by linarith))]

example : age 10 30 ([1, 8, 4] : List ℚ) = some (some 2) ∧ age 50 30 ([1, 8, 4] : List ℚ) = some none := by decide +kernel
example : visitGaps ([3, 1, 2] : List ℚ) = [24, 24] := by decide +kernel

end Ordered

end Verif.Periodic
