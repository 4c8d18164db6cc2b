import Mathlib.Tactic.Linarith
import Mathlib.Tactic.Ring
import Mathlib.Tactic.NormNum
import Mathlib.Tactic.FieldSimp
import Mathlib.Tactic.Positivity
import Mathlib.Data.Rat.Floor
import Verif.Model.Batch3
import Verif.Lemmas.NumpyMore
import Verif.Props.Batches
import Verif.Props.Batch2

/-!
# Conditions and requirements of batches: C547–C559
-/

namespace Verif.Batch3

open Verif.Batches (brackets Tok Str Means Selects parse both both_means means_unique selects_unique atom_means filter_means and_append)

/-! ## C547: rapid revisits -/

section
variable {K : Type} [Field K] [LinearOrder K] [IsStrictOrderedRing K]

/-- Times between consecutive visits. -/
def gapsOf : List K → List K
  | a :: b :: r => (b - a) :: gapsOf (b :: r)
  | _ => []

/-- How many of the times between visits are in a range, given in seconds. -/
def within (lo hi : K) (times : List K) : Nat := ((gapsOf times).filter (fun d => decide (lo ≤ d * 86400) && decide (d * 86400 ≤ hi))).length

/-- The requirement as the comments and the caption have it: at least 82 revisits between 40 seconds and 30 minutes, 28 of them within 20 minutes. -/
def Meets (times : List K) : Prop := 82 ≤ within 40 1800 times ∧ 28 ≤ within 40 1200 times

private theorem diff_gaps : ∀ l : List K, Np.diff l = gapsOf l
  | [] => rfl
  | [_] => rfl
  | a :: b :: r => congrArg ((b - a) :: ·) (diff_gaps (b :: r))

private theorem count_within (a lo b hi : K) (h1 : ∀ d, a ≤ d ↔ lo ≤ d * 86400) (h2 : ∀ d, d ≤ b ↔ d * 86400 ≤ hi) (times : List K) :
    (gapsOf times).countP (fun x => decide (a ≤ x) && decide (x ≤ b)) = within lo hi times := by
  unfold within
  rw [← List.countP_eq_length_filter]
  refine List.countP_congr (fun d _ => ?_)
  simp [h1, h2]

private theorem scaled_le (c : K) (s : K) (h : c * 86400 = s) (d : K) : c ≤ d ↔ s ≤ d * 86400 := by
  rw [← h]
  constructor <;> intro hh <;> linarith

private theorem scaled_ge (c : K) (s : K) (h : c * 86400 = s) (d : K) : d ≤ c ↔ d * 86400 ≤ s := by
  rw [← h]
  constructor <;> intro hh <;> linarith

private theorem within_mono {lo lo' hi hi' : K} (h : lo' ≤ lo) (h' : hi ≤ hi') (times : List K) : within lo hi times ≤ within lo' hi' times := by
  unfold within
  rw [← List.countP_eq_length_filter, ← List.countP_eq_length_filter]
  refine List.countP_mono_left (fun d _ hd => ?_)
  simp only [Bool.and_eq_true, decide_eq_true_eq] at hd ⊢
  exact ⟨h.trans hd.1, hd.2.trans h'⟩

/-- **C547.** The value of "RapidRevisits" is one exactly if at least 82 of the times between consecutive visits are from two thirds of a second to 20 minutes; it is
zero otherwise. -/
theorem rapid_spec (times : List K) (hs : times.Pairwise (· ≤ ·)) :
    rapidRevisits times = if 82 ≤ within (2 / 3) 1200 times then 1 else 0 := by
  unfold rapidRevisits Periodic.rapidRevisit
  dsimp only
  rw [Np.sort_eq_self hs, diff_gaps]
  rw [count_within revisitMin (2 / 3) revisitPairs 1200 (scaled_le _ _ (by unfold revisitMin; norm_num)) (scaled_ge _ _ (by unfold revisitPairs; norm_num)),
    count_within revisitMin (2 / 3) revisitMax 1800 (scaled_le _ _ (by unfold revisitMin; norm_num)) (scaled_ge _ _ (by unfold revisitMax; norm_num))]
  have hm : within (2 / 3 : K) 1200 times ≤ within (2 / 3) 1800 times := within_mono le_rfl (by norm_num) times
  by_cases h : 82 ≤ within (2 / 3 : K) 1200 times
  · rw [if_pos h, if_pos ⟨h, by omega⟩]
  · rw [if_neg h, if_neg (fun hh => h hh.1)]

/-- If no two visits are nearer than 40 seconds, a point with the value one meets the requirement. -/
theorem rapid_partial (times : List K) (hs : times.Pairwise (· ≤ ·)) (hg : ∀ d ∈ gapsOf times, 40 ≤ d * 86400) (h : rapidRevisits times = 1) : Meets times := by
  rw [rapid_spec times hs] at h
  have h82 : 82 ≤ within (2 / 3 : K) 1200 times := by
    by_contra hn
    rw [if_neg hn] at h
    exact absurd h (by decide)
  have e : within (2 / 3 : K) 1200 times = within 40 1200 times := by
    unfold within
    congr 1
    refine List.filter_congr (fun d hd => ?_)
    have h40 := hg d hd
    have : (2 / 3 : K) ≤ d * 86400 := by linarith
    simp [h40, this]
  rw [e] at h82
  exact ⟨h82.trans (within_mono le_rfl (by norm_num) times), by omega⟩

/-- Visits at intervals of one second: 83 visits of a night. -/
def seconds : List ℚ := (List.range 83).map (fun i => (i : ℚ) / 86400)

/-- 28 intervals of twenty minutes, then 54 of half an hour. -/
def halfHours : List ℚ := (List.range 29).map (fun i => (i : ℚ) / 72) ++ (List.range 54).map (fun i => (28 : ℚ) / 72 + ((i : ℚ) + 1) / 48)

/-- False in general, in both directions: 83 visits one second apart have the value one although none is a revisit after 40 seconds; 82 revisits, 28 after 20 minutes and
the rest after 30 minutes, are as required and have the value zero. -/
theorem rapid_false : (¬ Meets seconds ∧ rapidRevisits seconds = 1 ∧ within 40 1800 seconds = 0) ∧ (Meets halfHours ∧ rapidRevisits halfHours = 0) := by
  have s1 : seconds.Pairwise (· ≤ ·) := by decide +kernel
  have s2 : halfHours.Pairwise (· ≤ ·) := by decide +kernel
  have w1 : within 40 1800 seconds = 0 := by decide +kernel
  have w2 : within (2 / 3) 1200 seconds = 82 := by decide +kernel
  have w3 : within 40 1800 halfHours = 82 := by decide +kernel
  have w4 : within 40 1200 halfHours = 28 := by decide +kernel
  have w5 : within (2 / 3) 1200 halfHours = 28 := by decide +kernel
  refine ⟨⟨fun h => ?_, ?_, w1⟩, ⟨?_, ?_⟩, ?_⟩
  · have := h.1
    omega
  · rw [rapid_spec _ s1, w2]; rfl
  · omega
  · omega
  · rw [rapid_spec _ s2, w5]; rfl

/-! ## C548: the area with rapid revisits -/

/-- The area of the pixels whose value is one. -/
def AreaOf (pixArea : K) (vals : List (Option K)) : K := pixArea * ((vals.filter (fun v => decide (v = some 1))).length : K)

private theorem good_filter (vals : List (Option K)) (h01 : ∀ x, some x ∈ vals → x = 0 ∨ x = 1) :
    ((vals.filterMap (fun v => v)).filter (fun x => decide ((9 / 10 : K) ≤ x))).length = (vals.filter (fun v => decide (v = some 1))).length := by
  induction vals with
  | nil => rfl
  | cons v vs ih =>
    have ih := ih (fun x hx => h01 x (List.mem_cons_of_mem _ hx))
    cases v with
    | none => simpa using ih
    | some x =>
      rcases h01 x List.mem_cons_self with rfl | rfl
      · have : ¬ (9 / 10 : K) ≤ 0 := by norm_num
        simpa [this] using ih
      · have : (9 / 10 : K) ≤ 1 := by norm_num
        simpa [this] using ih

/-- **C548.** The summary "Area" of a map of zeros and ones is the area with the value one, scaled from the pixels with visits to the whole sky. -/
theorem area_spec (bad pixArea : K) (vals : List (Option K)) (h01 : ∀ x, some x ∈ vals → x = 0 ∨ x = 1) (hne : ∃ x, some x ∈ vals) :
    revisitArea bad pixArea vals.length vals = AreaOf pixArea vals * ((vals.length : K) / ((vals.filter Option.isSome).length : K)) := by
  have hl : (vals.filterMap (fun v => v)).length = (vals.filter Option.isSome).length := by
    clear h01 hne
    induction vals with
    | nil => rfl
    | cons v vs ih => cases v <;> simp [ih]
  have hne' : (vals.filterMap (fun v => v)).isEmpty = false := by
    obtain ⟨x, hx⟩ := hne
    have : x ∈ vals.filterMap (fun v => v) := List.mem_filterMap.mpr ⟨some x, hx, rfl⟩
    cases h : vals.filterMap (fun v => v) with
    | nil => rw [h] at this; simp at this
    | cons => rfl
  unfold revisitArea Batch2.summary Batch2.summaryData AreaOf Batch2.fracAbove
  dsimp only
  rw [hne']
  simp only [Bool.false_eq_true, if_false]
  rw [good_filter vals h01, hl]
  ring

/-- It is the area that meets the requirement if every pixel has visits. -/
theorem area_partial (bad pixArea : K) (vals : List (Option K)) (h01 : ∀ x, some x ∈ vals → x = 0 ∨ x = 1) (hne : vals ≠ []) (hall : ∀ v ∈ vals, v.isSome) :
    revisitArea bad pixArea vals.length vals = AreaOf pixArea vals := by
  have he : ∃ x, some x ∈ vals := by
    cases vals with
    | nil => exact absurd rfl hne
    | cons v vs =>
      have := hall v List.mem_cons_self
      obtain ⟨x, rfl⟩ := Option.isSome_iff_exists.mp this
      exact ⟨x, List.mem_cons_self⟩
  rw [area_spec bad pixArea vals h01 he, List.filter_eq_self.mpr hall]
  have : ((vals.length : Nat) : K) ≠ 0 := by
    have : vals.length ≠ 0 := by simpa using hne
    exact_mod_cast this
  rw [div_self this, mul_one]

/-- It is larger whenever some pixel meets the requirement and some pixel has no visits. -/
theorem area_false (bad pixArea : K) (ha : 0 < pixArea) (vals : List (Option K)) (h01 : ∀ x, some x ∈ vals → x = 0 ∨ x = 1) (h1 : some 1 ∈ vals) (h0 : none ∈ vals) :
    AreaOf pixArea vals < revisitArea bad pixArea vals.length vals := by
  rw [area_spec bad pixArea vals h01 ⟨1, h1⟩]
  have hp : 0 < AreaOf pixArea vals := by
    unfold AreaOf
    have : 0 < (vals.filter (fun v => decide (v = some (1 : K)))).length := List.length_pos_of_mem (List.mem_filter.mpr ⟨h1, by simp⟩)
    have : (0 : K) < ((vals.filter (fun v => decide (v = some (1 : K)))).length : K) := by exact_mod_cast this
    positivity
  have hs : 0 < (vals.filter Option.isSome).length := List.length_pos_of_mem (List.mem_filter.mpr ⟨h1, rfl⟩)
  have hlt : (vals.filter Option.isSome).length < vals.length := List.length_filter_lt_length_iff_exists.mpr ⟨none, h0, by simp⟩
  have hs' : (0 : K) < ((vals.filter Option.isSome).length : K) := by exact_mod_cast hs
  have hlt' : ((vals.filter Option.isSome).length : K) < (vals.length : K) := by exact_mod_cast hlt
  have : 1 < (vals.length : K) / ((vals.filter Option.isSome).length : K) := by rw [lt_div_iff₀ hs']; linarith
  nlinarith

end

example : revisitArea (-666 : ℚ) 10 4 [some 1, some 0, none, none] = 20 ∧ AreaOf (10 : ℚ) [some 1, some 0, none, none] = 10 := by decide +kernel

/-! ## C549: percentiles of the uncertainties -/

section
variable {K : Type*} [Field K] [LinearOrder K] [FloorRing K] [IsStrictOrderedRing K]

/-- **C549.** The summary "95th Percentile Parallax Uncert" is the percentile it is named after. -/
theorem parallax_percentile_partial (d : List K) : astrometrySummary "95th Percentile Parallax Uncert" d = Bins.pct (95 / 100) d := by
  simp [astrometrySummary, astrometryPercentiles, percentileMetric]

/-- "95th Percentile Proper Motion Uncert" is the 90th percentile. -/
theorem motion_percentile (d : List K) : astrometrySummary "95th Percentile Proper Motion Uncert" d = Bins.pct (90 / 100) d := by
  simp [astrometrySummary, astrometryPercentiles, percentileMetric, List.lookup]

end

/-- So of the values from 0 to 100 it is 90, and that for the parallax is 95. -/
theorem motion_percentile_false : astrometrySummary "95th Percentile Proper Motion Uncert" ((List.range 101).map (fun i => (i : ℚ))) = some 90 ∧
    astrometrySummary "95th Percentile Parallax Uncert" ((List.range 101).map (fun i => (i : ℚ))) = some 95 := by
  rw [motion_percentile, parallax_percentile_partial]
  decide +kernel

/-! ## C550: the parallax in the y band -/

section
variable {R : Type}

private theorem and_or {n : ℕ} {ts : List (Tok R)} {p : R → Bool} (h : parse n .and ts = some (p, [])) : Means ts p := by
  refine ⟨n + 1, ?_⟩
  rw [parse, h]

private theorem nonempty_of_and {n : ℕ} {e : List (Tok R)} {x : (R → Bool) × List (Tok R)} (he : parse n .and e = some x) : e.isEmpty = false := by
  cases e with
  | nil => exfalso; revert he; cases n with
    | zero => simp [parse]
    | succ n => cases n <;> simp [parse]
  | cons => rfl

/-- **C550.** The metrics for the y band alone select the visits in the band that meet the extra condition, if the bands are in the column "filter" and the extra
condition has no `or` outside of brackets. -/
theorem y_partial (col : String → R → Char) (e : List (Tok R)) (p : R → Bool) (n : ℕ) (he : parse n .and e = some (p, [])) :
    Means (ySql col "filter" e) (fun r => p r && (col "filter" r == 'y')) ∧ Means (ySql col "filter" []) (fun r => col "filter" r == 'y') := by
  constructor
  · unfold ySql
    rw [nonempty_of_and he]
    simp only [Bool.false_eq_true, if_false]
    obtain ⟨k, hk⟩ := and_append n e [.atom (fun r => col "filter" r == 'y')] [] p _ 2 he rfl
    exact and_or hk
  · exact atom_means _

end

/-- The metrics for the y band alone select the visits that meet the extra condition and are in the y band by the column of `colmap`. -/
def YClaim : Prop := ∀ (col : String → ℕ × Char × Char → Char) (bandCol : String) (e : List (Tok (ℕ × Char × Char))) (p : ℕ × Char × Char → Bool),
  Means e p → Means (ySql col bandCol e) (fun r => p r && (col bandCol r == 'y'))

/-- False: with the condition `night < 1 or night > 9` a visit in g is selected, and whatever the column of the bands is, the column "filter" decides. -/
theorem y_false : ¬ YClaim ∧
    ∀ {R : Type} (col : String → R → Char) (bandCol : String) (p : R → Bool), Means (ySql col bandCol [.atom p]) (fun r => p r && (col "filter" r == 'y')) := by
  constructor
  · intro h
    let e : List (Tok (ℕ × Char × Char)) := [.atom (fun r => decide (r.1 < 1)), .or, .atom (fun r => decide (9 < r.1))]
    have h1 : Means e (fun r => decide (r.1 < 1) || decide (9 < r.1)) := ⟨5, by simp [e, parse]⟩
    have h2 := h (fun _ r => r.2.1) "filter" e _ h1
    have h3 : Means (ySql (fun _ r => r.2.1) "filter" e) (fun r => decide (r.1 < 1) || (decide (9 < r.1) && (r.2.1 == 'y'))) := ⟨9, by simp [e, ySql, parse]⟩
    have := congrFun (means_unique _ _ _ h2 h3) (0, 'g', 'g')
    revert this
    decide
  · intro R col bandCol p
    exact ⟨5, by simp [ySql, parse]⟩

/-! ## C551: the first year -/

section
variable {R : Type}

/-- **C551.** `firstYearMetadata` selects the visits up to night 365 that meet the extra condition. -/
theorem first_year (night : R → Nat) (e : List (Tok R)) (p : R → Bool) (he : Means e p) :
    Means (firstYear night (some e)) (fun r => decide (night r ≤ 365) && p r) ∧ Means (firstYear night none) (fun r => decide (night r ≤ 365)) := by
  have h : (fun r => decide (2 * night r < 731)) = (fun r => decide (night r ≤ 365)) := by
    funext r
    exact decide_eq_decide.mpr (by omega)
  unfold firstYear
  rw [h]
  exact ⟨both_means _ _ _ _ (atom_means _) he, atom_means _⟩

end

example : Means (firstYear (fun r : Nat => r) (some [.atom (fun r => r % 2 == 0)])) (fun r => decide (r ≤ 365) && (r % 2 == 0)) := (first_year _ _ _ (atom_means _)).1

/-! ## C554: the conditions of the fields -/

section
variable {R : Type}

private theorem factor_append (t : R → Bool) {n : ℕ} {ts r : List (Tok R)} {p : R → Bool} (h : parse n .and ts = some (p, r)) :
    parse (n + 1) .and (.atom t :: .and :: ts) = some (fun x => t x && p x, r) := by
  cases n with
  | zero => simp [parse] at h
  | succ n => rw [parse]; simp only [parse.eq_2]; rw [h]

private theorem both_and (a : List (Tok R)) (p q : R → Bool) (ha : Means a p) : ∃ n, parse n .and (both a [.atom q]) = some (fun x => p x && q x, []) := by
  obtain ⟨n1, h1⟩ := brackets a (.and :: .lp :: [.atom q, .rp]) p ha
  obtain ⟨n2, h2⟩ := brackets [.atom q] [] q (atom_means q)
  have e : both a [.atom q] = .lp :: (a ++ .rp :: (.and :: .lp :: [.atom q, .rp])) := by unfold both; simp
  have hx := h1 (n1 + n2 + 1) (by omega)
  have hy : parse (n1 + n2) .factor (.lp :: [.atom q, .rp]) = some (q, []) := h2 (n1 + n2) (by omega)
  have hz : parse (n1 + n2 + 1) .and (.lp :: [.atom q, .rp]) = some (q, []) := by rw [parse, hy]
  refine ⟨n1 + n2 + 2, ?_⟩
  rw [e, parse, hx]
  dsimp only
  rw [hz]

private theorem means_cons {e : List (Tok R)} {p : R → Bool} (he : Means e p) : e.isEmpty = false := by
  cases e with
  | nil => obtain ⟨n, hn⟩ := he; exfalso; revert hn; cases n with
    | zero => simp [parse]
    | succ n => cases n with
      | zero => simp [parse]
      | succ n => cases n <;> simp [parse]
  | cons => rfl

/-- **C554.** The condition of a field and a band selects the visits with the note of the field, in the band, that meet the extra condition, whatever it is; without an
extra condition those of the field and the band. -/
theorem field_band (bandOf : R → Char) (t : R → Bool) (e : List (Tok R)) (p : R → Bool) (he : Means e p) (c : Char) :
    Means (fieldSql bandOf (some t) (some e) (some c)) (fun r => t r && (p r && (bandOf r == c))) ∧
    Means (fieldSql bandOf (some t) none (some c)) (fun r => t r && (bandOf r == c)) ∧
    Means (fieldSql bandOf (some t) none none) t := by
  refine ⟨?_, ⟨6, by simp [fieldSql, Batches.bandSql, parse]⟩, ⟨6, by simp [fieldSql, Batches.bandSql, parse]⟩⟩
  obtain ⟨n, hn⟩ := both_and e p (fun r => bandOf r == c) he
  have h1 : Batches.bandSql bandOf (some e) (some c) = both e [.atom (fun r => bandOf r == c)] := by
    simp [Batches.bandSql, means_cons he]
  have h2 : (both e [.atom (fun r => bandOf r == c)]).isEmpty = false := by simp [both]
  unfold fieldSql
  dsimp only
  rw [h1, h2]
  simp only [Bool.false_eq_true, if_false]
  exact and_or (factor_append t hn)

/-- The condition for all bands selects the visits with the note of the field that meet the extra condition, if that has no `or` outside of brackets. -/
theorem field_all_partial (bandOf : R → Char) (t : R → Bool) (e : List (Tok R)) (p : R → Bool) (n : ℕ) (he : parse n .and e = some (p, [])) :
    Means (fieldSql bandOf (some t) (some e) none) (fun r => t r && p r) := by
  have h1 : Batches.bandSql bandOf (some e) none = e := by
    simp [Batches.bandSql, nonempty_of_and he]
  unfold fieldSql
  dsimp only
  rw [h1, nonempty_of_and he]
  simp only [Bool.false_eq_true, if_false]
  exact and_or (factor_append t he)

end

/-- The condition for all bands selects only visits with the note of the field. -/
def FieldClaim : Prop := ∀ (t : ℕ → Bool) (e : List (Tok ℕ)) (p q : ℕ → Bool), Means e p → Means (fieldSql (fun _ => 'r') (some t) (some e) none) q → ∀ r, q r → t r

/-- False: with the extra condition `a or b` every visit with `b` is selected, of whatever field. -/
theorem field_all_false : ¬ FieldClaim ∧
    ∀ {R : Type} (bandOf : R → Char) (t a b : R → Bool), Means (fieldSql bandOf (some t) (some [.atom a, .or, .atom b]) none) (fun r => (t r && a r) || b r) := by
  have g : ∀ {R : Type} (bandOf : R → Char) (t a b : R → Bool), Means (fieldSql bandOf (some t) (some [.atom a, .or, .atom b]) none) (fun r => (t r && a r) || b r) :=
    fun bandOf t a b => ⟨9, by simp [fieldSql, Batches.bandSql, parse]⟩
  refine ⟨fun h => ?_, g⟩
  have := h (fun r => decide (r = 0)) [.atom (fun r => decide (r = 1)), .or, .atom (fun r => decide (r = 2))] _ _ ⟨9, by simp [parse]; rfl⟩ (g _ _ _ _) 2 (by decide)
  revert this
  decide

/-! ## C552: the extra condition of the deep fields -/

section
variable {R : Type}

/-- Only visits that meet `p` are used. -/
def OnlyWith (sql : List (Tok R)) (p : R → Bool) : Prop := ∃ q, Selects sql q ∧ ∀ r, q r = true → p r = true

private theorem sky_only (bandOf : R → Char) (e : List (Tok R)) (p : R → Bool) (he : Selects e p) (b : Option Char) : OnlyWith (Batches.bandSql bandOf (some e) b) p :=
  ⟨_, (filter_means bandOf e p he b).1, fun r h => by simp only [Bool.and_eq_true] at h; exact h.1⟩

private theorem field_only (bandOf : R → Char) (note : Option (R → Bool)) (e : List (Tok R)) (p : R → Bool) (n : ℕ) (he : parse n .and e = some (p, [])) (b : Option Char) :
    OnlyWith (fieldSql bandOf note (some e) b) p := by
  cases note with
  | none => exact sky_only bandOf e p (Or.inr (and_or he)) b
  | some t =>
    cases b with
    | none => exact ⟨_, Or.inr (field_all_partial bandOf t e p n he), fun r h => by simp only [Bool.and_eq_true] at h; exact h.2⟩
    | some c => exact ⟨_, Or.inr (field_band bandOf t e p (and_or he) c).1, fun r h => by simp only [Bool.and_eq_true] at h; exact h.2.1⟩

/-- What holds of each bundle written out holds of all. -/
private theorem sky_cases (bandOf : R → Char) (extra : Option (List (Tok R))) (P : DBun R → Prop) (h1 : P ⟨.sne, none, []⟩) (h2 : P ⟨.kne, none, []⟩)
    (h3 : P ⟨.kuiper, none, threeBands bandOf 'g' 'r' 'i'⟩) (h4 : P ⟨.kuiper, none, threeBands bandOf 'r' 'i' 'z'⟩)
    (h5 : P ⟨.weakLensing, none, threeBands bandOf 'g' 'r' 'i'⟩) (h6 : P ⟨.weakLensing, none, threeBands bandOf 'r' 'i' 'z'⟩)
    (h7 : ∀ k l, k ≠ .sne → k ≠ .kne → k ≠ .kuiper → k ≠ .weakLensing → k ≠ .medianSeason → P ⟨k, l, Batches.bandSql bandOf extra l⟩) :
    ∀ b ∈ skyBundles bandOf extra, P b := by
  intro b hb
  unfold skyBundles at hb
  simp only [List.mem_append] at hb
  rcases hb with ((((((hb | hb) | hb) | hb) | hb) | hb) | hb)
  · simp only [List.mem_cons, List.not_mem_nil, or_false] at hb
    rcases hb with hb | hb | hb | hb | hb | hb | hb | hb | hb <;> rw [hb]
    · exact h1
    · exact h7 _ _ (by simp) (by simp) (by simp) (by simp) (by simp)
    · exact h2
    · exact h3
    · exact h3
    · exact h4
    · exact h4
    · exact h5
    · exact h6
  · obtain ⟨f, _, hb⟩ := List.mem_map.mp hb
    rw [← hb]; exact h7 _ _ (by simp) (by simp) (by simp) (by simp) (by simp)
  · obtain ⟨f, _, hb⟩ := List.mem_map.mp hb
    rw [← hb]; exact h7 _ _ (by simp) (by simp) (by simp) (by simp) (by simp)
  · obtain ⟨f, _, hb⟩ := List.mem_map.mp hb
    rw [← hb]; exact h7 _ _ (by simp) (by simp) (by simp) (by simp) (by simp)
  · obtain ⟨f, _, hb⟩ := List.mem_map.mp hb
    rw [← hb]; exact h7 _ _ (by simp) (by simp) (by simp) (by simp) (by simp)
  · obtain ⟨f, _, hb⟩ := List.mem_flatMap.mp hb
    simp only [List.mem_cons, List.not_mem_nil, or_false] at hb
    rcases hb with hb | hb <;> rw [hb] <;> exact h7 _ _ (by simp) (by simp) (by simp) (by simp) (by simp)
  · simp only [List.mem_cons, List.not_mem_nil, or_false] at hb
    rcases hb with hb | hb <;> rw [hb] <;> exact h7 _ _ (by simp) (by simp) (by simp) (by simp) (by simp)

private theorem field_cases (bandOf : R → Char) (note : Option (R → Bool)) (extra : Option (List (Tok R))) (P : DBun R → Prop)
    (h1 : ∀ k l, k ≠ .sne → k ≠ .kne → k ≠ .kuiper → k ≠ .weakLensing → k ≠ .medianSeason → P ⟨k, l, fieldSql bandOf note extra l⟩)
    (h2 : P ⟨.medianSeason, none, fieldSql bandOf note extra (some 'y')⟩) :
    ∀ b ∈ fieldBundles bandOf note extra, P b := by
  intro b hb
  unfold fieldBundles at hb
  simp only [List.mem_append] at hb
  rcases hb with (((((((hb | hb) | hb) | hb) | hb) | hb) | hb) | hb)
  · rw [List.mem_singleton.mp hb]; exact h1 _ _ (by simp) (by simp) (by simp) (by simp) (by simp)
  · obtain ⟨f, _, hb⟩ := List.mem_map.mp hb
    rw [← hb]; exact h1 _ _ (by simp) (by simp) (by simp) (by simp) (by simp)
  · split_ifs at hb
    · exact absurd hb List.not_mem_nil
    · rw [List.mem_singleton.mp hb]; exact h1 _ _ (by simp) (by simp) (by simp) (by simp) (by simp)
  · split_ifs at hb
    · exact absurd hb List.not_mem_nil
    · obtain ⟨f, _, hb⟩ := List.mem_map.mp hb
      rw [← hb]; exact h1 _ _ (by simp) (by simp) (by simp) (by simp) (by simp)
  · rw [List.mem_singleton.mp hb]; exact h1 _ _ (by simp) (by simp) (by simp) (by simp) (by simp)
  · obtain ⟨f, _, hb⟩ := List.mem_map.mp hb
    rw [← hb]; exact h1 _ _ (by simp) (by simp) (by simp) (by simp) (by simp)
  · simp only [List.mem_cons, List.not_mem_nil, or_false] at hb
    rcases hb with hb | hb <;> rw [hb]
    · exact h1 _ _ (by simp) (by simp) (by simp) (by simp) (by simp)
    · exact h2
  · split_ifs at hb
    · exact absurd hb List.not_mem_nil
    · rw [List.mem_singleton.mp hb]; exact h1 _ _ (by simp) (by simp) (by simp) (by simp) (by simp)

/-- **C552.** All metrics of the deep fields but those of supernovae, kilonovae, the Kuiper belt and weak lensing use only visits that meet the extra condition, if that
has no `or` outside of brackets. -/
theorem ddf_extra_partial (bandOf : R → Char) (note : Option (R → Bool)) (e : List (Tok R)) (p : R → Bool) (n : ℕ) (he : parse n .and e = some (p, []))
    (b : DBun R) (hb : b ∈ ddfBundles bandOf note (some e)) (hk : b.kind ≠ .sne ∧ b.kind ≠ .kne ∧ b.kind ≠ .kuiper ∧ b.kind ≠ .weakLensing) : OnlyWith b.sql p := by
  have s := sky_only bandOf e p (Or.inr (and_or he))
  have q := field_only bandOf note e p n he
  rcases List.mem_append.mp hb with hb | hb
  · revert hk
    refine sky_cases bandOf (some e) (fun b => b.kind ≠ .sne ∧ b.kind ≠ .kne ∧ b.kind ≠ .kuiper ∧ b.kind ≠ .weakLensing → OnlyWith b.sql p) ?_ ?_ ?_ ?_ ?_ ?_ (fun k l _ _ _ _ _ _ => s l) b hb
    all_goals intro hk; simp at hk
  · exact field_cases bandOf note (some e) (fun b => OnlyWith b.sql p) (fun k l _ _ _ _ _ => q l) (q _) b hb

/-- The four kinds do not use the extra condition at all: supernovae and kilonovae are of all visits, the others of three bands. -/
theorem ddf_extra_general (bandOf : R → Char) (note : Option (R → Bool)) (extra : Option (List (Tok R))) (b : DBun R) (hb : b ∈ ddfBundles bandOf note extra) :
    (b.kind = .sne ∨ b.kind = .kne → Selects b.sql (fun _ => true)) ∧
    (b.kind = .kuiper ∨ b.kind = .weakLensing → Selects b.sql (fun r => ['g', 'r', 'i'].contains (bandOf r)) ∨ Selects b.sql (fun r => ['r', 'i', 'z'].contains (bandOf r))) := by
  have three : ∀ x y z, Selects (threeBands bandOf x y z) (fun r => [x, y, z].contains (bandOf r)) := by
    intro x y z
    right
    refine ⟨9, ?_⟩
    simp [threeBands, parse]
    funext r
    simp [Bool.beq_eq_decide_eq, eq_comm]
  have rest : ∀ (k : Kind) (sql : List (Tok R)), k ≠ .sne → k ≠ .kne → k ≠ .kuiper → k ≠ .weakLensing →
      (k = .sne ∨ k = .kne → Selects sql (fun _ => true)) ∧
      (k = .kuiper ∨ k = .weakLensing → Selects sql (fun r => ['g', 'r', 'i'].contains (bandOf r)) ∨ Selects sql (fun r => ['r', 'i', 'z'].contains (bandOf r))) :=
    fun k sql h1 h2 h3 h4 => ⟨fun h => by rcases h with h | h <;> contradiction, fun h => by rcases h with h | h <;> contradiction⟩
  rcases List.mem_append.mp hb with hb | hb
  · refine sky_cases bandOf extra (fun b => (b.kind = .sne ∨ b.kind = .kne → Selects b.sql (fun _ => true)) ∧
      (b.kind = .kuiper ∨ b.kind = .weakLensing → Selects b.sql (fun r => ['g', 'r', 'i'].contains (bandOf r)) ∨ Selects b.sql (fun r => ['r', 'i', 'z'].contains (bandOf r))))
      ⟨fun _ => Or.inl ⟨rfl, rfl⟩, by simp⟩ ⟨fun _ => Or.inl ⟨rfl, rfl⟩, by simp⟩ ⟨by simp, fun _ => Or.inl (three _ _ _)⟩ ⟨by simp, fun _ => Or.inr (three _ _ _)⟩
      ⟨by simp, fun _ => Or.inl (three _ _ _)⟩ ⟨by simp, fun _ => Or.inr (three _ _ _)⟩ (fun k l h1 h2 h3 h4 _ => rest k _ h1 h2 h3 h4) b hb
  · exact field_cases bandOf note extra (fun b => (b.kind = .sne ∨ b.kind = .kne → Selects b.sql (fun _ => true)) ∧
      (b.kind = .kuiper ∨ b.kind = .weakLensing → Selects b.sql (fun r => ['g', 'r', 'i'].contains (bandOf r)) ∨ Selects b.sql (fun r => ['r', 'i', 'z'].contains (bandOf r))))
      (fun k l h1 h2 h3 h4 _ => rest k _ h1 h2 h3 h4) (rest _ _ (by simp) (by simp) (by simp) (by simp)) b hb

/-- So whatever the extra condition, if some visit does not meet it there is a metric that uses that visit. -/
theorem ddf_extra_false (bandOf : R → Char) (note : Option (R → Bool)) (e : List (Tok R)) (p : R → Bool) (r : R) (hr : p r = false) :
    ∃ b ∈ ddfBundles bandOf note (some e), ¬ OnlyWith b.sql p := by
  refine ⟨⟨.sne, none, []⟩, List.mem_append.mpr (Or.inl ?_), ?_⟩
  · unfold skyBundles
    iterate 6 refine List.mem_append.mpr (Or.inl ?_)
    exact List.mem_cons_self
  rintro ⟨q, hq, h⟩
  have : q = fun _ => true := selects_unique [] _ _ hq (Or.inl ⟨rfl, rfl⟩)
  subst this
  have := h r rfl
  rw [hr] at this
  exact absurd this (by decide)

/-! ## C553: the median season -/

/-- The conditions of the two metrics of season lengths, both labelled for all bands. -/
theorem season_bundles (bandOf : R → Char) (note : Option (R → Bool)) (extra : Option (List (Tok R))) :
    (∃ b ∈ ddfBundles bandOf note extra, b.kind = .medianSeason) ∧ ∀ b ∈ ddfBundles bandOf note extra, b.kind = .medianSeason →
      b.label = none ∧ b.sql = fieldSql bandOf note extra (some 'y') := by
  constructor
  · refine ⟨⟨.medianSeason, none, fieldSql bandOf note extra (some 'y')⟩, List.mem_append.mpr (Or.inr ?_), rfl⟩
    unfold fieldBundles
    refine List.mem_append.mpr (Or.inl (List.mem_append.mpr (Or.inr ?_)))
    exact List.mem_cons_of_mem _ (List.mem_singleton.mpr rfl)
  · intro b hb
    rcases List.mem_append.mp hb with hb | hb
    · exact sky_cases bandOf extra (fun b => b.kind = .medianSeason → b.label = none ∧ b.sql = fieldSql bandOf note extra (some 'y'))
        (by simp) (by simp) (by simp) (by simp) (by simp) (by simp) (fun k l _ _ _ _ h hk => absurd hk h) b hb
    · exact field_cases bandOf note extra (fun b => b.kind = .medianSeason → b.label = none ∧ b.sql = fieldSql bandOf note extra (some 'y'))
        (fun k l _ _ _ _ h hk => absurd hk h) (fun _ => ⟨rfl, rfl⟩) b hb

/-- **C553.** The median season length, labelled for all bands, is of the visits in the y band only: those of a field with note `t` are selected exactly if they are in y. -/
theorem median_season_false (bandOf : R → Char) (t : R → Bool) (b : DBun R) (hb : b ∈ ddfBundles bandOf (some t) none) (hk : b.kind = .medianSeason) :
    b.label = none ∧ Selects b.sql (fun r => t r && (bandOf r == 'y')) := by
  obtain ⟨h1, h2⟩ := (season_bundles bandOf (some t) none).2 b hb hk
  refine ⟨h1, ?_⟩
  rw [h2]
  exact Or.inr (field_band bandOf t [.atom t] t (atom_means t) 'y').2.1

/-- The label tells the band that every other metric of the fields uses (without an extra condition). -/
theorem labels_partial (bandOf : R → Char) (t : R → Bool) (b : DBun R) (hb : b ∈ fieldBundles bandOf (some t) none) (hk : b.kind ≠ .medianSeason) :
    Selects b.sql (fun r => t r && b.label.all (fun c => bandOf r == c)) := by
  have q : ∀ l, Selects (fieldSql bandOf (some t) none l) (fun r => t r && l.all (fun c => bandOf r == c)) := by
    intro l
    have h := fun c => (field_band bandOf t [.atom t] t (atom_means t) c).2
    cases l with
    | none => right; simpa using (h 'u').2
    | some c => right; simpa using (h c).1
  revert hk
  exact field_cases bandOf (some t) none (fun b => b.kind ≠ .medianSeason → Selects b.sql (fun r => t r && b.label.all (fun c => bandOf r == c)))
    (fun k l _ _ _ _ _ _ => q l) (fun h => absurd rfl h) b hb

end

/-! ## C555: the point in the main survey -/

/-- **C555.** No field has the slicer of a single point on the sky: not "WFD", the point of the main survey, either. -/
theorem point_slicer_false (ddf : Str) : ptSlicer ddf = .uni := by
  unfold ptSlicer
  rw [if_neg]
  intro h
  unfold fieldName at h
  split_ifs at h with hp
  · subst h; exact absurd hp (by decide)
  · have := congrArg List.head? h
    simp at this

/-- And no condition on the note is there for it, so its metrics are of all the visits of the survey. -/
theorem wfd_all_visits {R : Type} (bandOf : R → Char) (b : DBun R) (hb : b ∈ fieldBundles bandOf none none) (hl : b.label = none) (hk : b.kind ≠ .medianSeason) :
    Selects b.sql (fun _ => true) := by
  have q : Selects (fieldSql bandOf none none none) (fun _ => true) := Or.inl ⟨rfl, rfl⟩
  revert hl hk
  exact field_cases bandOf none none (fun b => b.label = none → b.kind ≠ .medianSeason → Selects b.sql (fun _ => true))
    (fun k l _ _ _ _ _ hl _ => by cases hl; exact q) (fun _ h => absurd rfl h) b hb

example : fieldName "COSMOS".toList = "DD:COSMOS".toList ∧ fieldName "WFD".toList = "DD:WFD".toList ∧ fieldName "DD:EDFS".toList = "DD:EDFS".toList := by decide

/-! ## C556: the pixels of a field -/

/-- **C556.** The pixels of a field are those near any of its centres, each once and in order. -/
theorem field_pixels {C : Type} (near : C → Nat → Bool) (npix : Nat) (centres : List C) :
    (∀ i, i ∈ fieldPixels near npix centres ↔ i < npix ∧ ∃ c ∈ centres, near c i = true) ∧ (fieldPixels near npix centres).Pairwise (· < ·) := by
  have key : ∀ cs : List C, (∀ i, i ∈ ((cs.flatMap (fun c => (List.range npix).filter (near c))).dedup).insertionSort (· ≤ ·) ↔ i < npix ∧ ∃ c ∈ cs, near c i = true) ∧
      (((cs.flatMap (fun c => (List.range npix).filter (near c))).dedup).insertionSort (· ≤ ·)).Pairwise (· < ·) := by
    intro cs
    constructor
    · intro i
      rw [(List.perm_insertionSort _ _).mem_iff, List.mem_dedup, List.mem_flatMap]
      simp only [List.mem_filter, List.mem_range]
      constructor
      · rintro ⟨c, hc, h1, h2⟩; exact ⟨h1, c, hc, h2⟩
      · rintro ⟨h1, c, hc, h2⟩; exact ⟨c, hc, h1, h2⟩
    · have h1 := List.pairwise_insertionSort (· ≤ ·) (cs.flatMap (fun c => (List.range npix).filter (near c))).dedup
      have h2 : (((cs.flatMap (fun c => (List.range npix).filter (near c))).dedup).insertionSort (· ≤ ·)).Nodup :=
        (List.perm_insertionSort _ _).nodup_iff.mpr (List.nodup_dedup _)
      exact (h1.and h2).imp (fun h => lt_of_le_of_ne h.1 h.2)
  unfold fieldPixels
  split
  · rename_i c
    constructor
    · intro i; simp
    · exact List.pairwise_lt_range.filter _
  · exact key _

example : fieldPixels (fun (c i : Nat) => decide (i ≤ c + 1 ∧ c ≤ i + 1)) 10 [7, 6] = [5, 6, 7, 8] := by decide

/-! ## C557: effective times -/

/-- **C557.** The nine bundles of the effective times have different file names, if the slicer given for the maps is not a `UniSlicer`. -/
theorem teff_partial (run sky : Str) (sql label : Option Str) (hs : Batch2.Letters sky) (hne : sky ≠ "UNIS".toList) :
    ∃ d, Batch2.makeDict run (tEff sky sql label) = .ok d ∧ d.map Prod.snd = tEff sky sql label ∧ d.length = 9 := by
  have nd : ((tEff sky sql label).map (Batch2.Bun.root run)).Nodup := by
    unfold tEff
    dsimp only
    rw [List.map_append, List.nodup_append']
    refine ⟨?_, Batch2.perBand_nodup _ _ _ _ _ (by simp), ?_⟩
    · have h := Batch2.band_root run "Total Teff".toList "Normalized Teff".toList "UNIS".toList sql label none none (by decide) (by decide)
      have hsp : Batch2.spot "Total Teff".toList ≠ Batch2.spot "Normalized Teff".toList := by decide +kernel
      simp only [List.map_cons, List.map_nil, List.nodup_cons, List.mem_singleton, List.not_mem_nil, not_false_eq_true, List.nodup_nil, and_true]
      intro he
      exact hsp (h.mp he).2
    · intro x hx hy
      simp only [Batch2.perBand, List.mem_map, List.mem_flatMap] at hx hy
      obtain ⟨_, ⟨a, ha, m, hm, rfl⟩, e⟩ := hy
      have hl : Batch2.Letters "UNIS".toList := by decide +kernel
      obtain ⟨b, hb, rfl⟩ := hx
      simp only [List.mem_cons, List.not_mem_nil, or_false] at hb
      rcases hb with rfl | rfl <;> exact hne (Batch2.root_slicer _ _ _ _ _ _ _ hs hl e)
  refine ⟨_, by rw [Batch2.makeDict_eq, if_pos nd], ?_, ?_⟩
  · rw [List.map_map]
    exact List.map_id _
  · simp [tEff, Batch2.perBand, Batches.bandList]

/-- With a `UniSlicer` for the maps two have the same name and `make_bundles_dict_from_list` raises. -/
theorem teff_uni_false (run : Str) (sql label : Option Str) : Batch2.makeDict run (tEff "UNIS".toList sql label) = .error "NameError" := by
  rw [Batch2.makeDict_eq, if_neg]
  intro h
  simp [tEff, Batch2.perBand, Batches.bandList, Batch2.Bun.root] at h

/-- None of the nine is per night: each is a single number or a map with the slicer given. -/
theorem teff_night_false (sky : Str) (sql label : Option Str) : ∀ b ∈ tEff sky sql label, b.slicer = "UNIS".toList ∨ b.slicer = sky := by
  intro b hb
  simp only [tEff, Batch2.perBand, List.mem_append, List.mem_cons, List.not_mem_nil, or_false, List.mem_flatMap, List.mem_map] at hb
  rcases hb with (rfl | rfl) | ⟨_, _, _, _, rfl⟩
  · exact Or.inl rfl
  · exact Or.inl rfl
  · exact Or.inr rfl

/-- For all bands together and for each of the six there is a map with the text of this band joined to the extra condition, and the
single numbers are over all visits of the extra condition. -/
theorem teff_bands (sky : Str) (sql label : Option Str) :
    (∀ a ∈ [none, some 'u', some 'g', some 'r', some 'i', some 'z', some 'y'], ∃ b ∈ tEff sky sql label,
      b.metric = "Normalized Teff".toList ∧ b.slicer = sky ∧ b.sql = Batch2.bandText Batch2.defaultBandCol sql a ∧ b.info = Batch2.bandLabel sql label a) ∧
    ∀ m ∈ ["Total Teff".toList, "Normalized Teff".toList], ∃ b ∈ tEff sky sql label,
      b.metric = m ∧ b.slicer = "UNIS".toList ∧ b.sql = Batch2.bandText Batch2.defaultBandCol sql none := by
  constructor
  · intro a ha
    have hb : a ∈ Batches.bandList true := by
      revert a
      decide
    refine ⟨{ metric := "Normalized Teff".toList, info := Batch2.bandLabel sql label a, slicer := sky, sql := Batch2.bandText Batch2.defaultBandCol sql a }, ?_, rfl, rfl, rfl, rfl⟩
    unfold tEff Batch2.perBand
    exact List.mem_append_right _ (List.mem_flatMap.2 ⟨a, hb, by simp⟩)
  · intro m hm
    refine ⟨{ metric := m, info := Batch2.bandLabel sql label none, slicer := "UNIS".toList, sql := Batch2.bandText Batch2.defaultBandCol sql none }, ?_, rfl, rfl, rfl⟩
    unfold tEff
    apply List.mem_append_left
    rcases List.mem_cons.1 hm with rfl | hm
    · simp
    · rw [List.mem_singleton.1 hm]
      simp

example : (tEff "HEAL".toList none none).length = 9 := by decide

/-! ## C558: phase gaps -/

/-- **C558.** `phaseGap` raises whatever the extra condition. -/
theorem phase_gap_false (extraSql : Option Str) : phaseGap extraSql = .error "TypeError" := by
  unfold phaseGap
  split_ifs
  · rfl
  · rfl

/-- With the keywords that `PhaseGapMetric` has it would not. -/
theorem phase_gap_keywords : callKeywords phaseGapArgs ["n_periods", "period_min", "period_max", "n_visits_min", "metric_name"] = .ok () := by decide

/-! ## C559: names with another name of the column -/

private theorem replace_end (old new : Str) (hne : old ≠ []) : ∀ pre : Str, (∀ i < pre.length, old.isPrefixOf ((pre ++ old).drop i) = false) → replaceAll old new (pre ++ old) = pre ++ new
  | [], _ => by
    cases old with
    | nil => exact absurd rfl hne
    | cons c cs =>
      rw [List.nil_append, replaceAll, if_pos ⟨by simp, hne⟩, List.drop_length, replaceAll]
      simp
  | d :: ds, h => by
    have h0 := h 0 (by simp)
    rw [List.cons_append, replaceAll, if_neg (by rw [List.drop_zero, List.cons_append] at h0; simp [h0])]
    rw [replace_end old new hne ds (fun i hi => by simpa using h (i + 1) (by simpa using hi))]
    rfl

/-- The words before the name of the column in the names of the metrics. -/
def words : List Str := ["Mean ", "Median ", "Min ", "Max ", "Rms ", "N(+3Sigma) ", "N(-3Sigma) ", "25th%ile ", "75th%ile ", "Count "].map String.toList

/-- **C559.** The names are those of the metrics with the other name of the column, if the name of the column does not occur before its place. -/
theorem replaced_partial (value valueName : Str) (hv : value ≠ []) (h : ∀ w ∈ words, ∀ i < w.length, value.isPrefixOf ((w ++ value).drop i) = false) :
    replacedNames value valueName = words.map (· ++ valueName) := by
  unfold replacedNames Batch2.extendedNames
  rw [List.map_map]
  unfold words at h ⊢
  rw [List.map_map]
  refine List.map_congr_left (fun w hw => ?_)
  exact replace_end value valueName hv w.toList (h w.toList (List.mem_map_of_mem hw))

example : replacedNames "seeingFwhmGeom".toList "seeingGeom".toList = words.map (· ++ "seeingGeom".toList) :=
  replaced_partial _ _ (by decide) (by decide)

/-- The names are those of the metrics with the other name of the column. -/
def ReplacedClaim : Prop := ∀ value valueName : Str, value ≠ [] → replacedNames value valueName = words.map (· ++ valueName)

/-- False: of the column "a" the mean is "MeAirmassn Airmass". -/
theorem replaced_false : ¬ ReplacedClaim ∧ (replacedNames "a".toList "Airmass".toList).head? = some "MeAirmassn Airmass".toList := by
  have h : (replacedNames "a".toList "Airmass".toList).head? = some "MeAirmassn Airmass".toList := by
    simp [replacedNames, Batch2.extendedNames, replaceAll, List.isPrefixOf]
  refine ⟨fun hc => ?_, h⟩
  rw [hc _ _ (by decide)] at h
  exact absurd h (by decide)

end Verif.Batch3
