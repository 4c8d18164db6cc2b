import Mathlib.Tactic.Linarith
import Mathlib.Tactic.Ring
import Mathlib.Tactic.NormNum
import Mathlib.Tactic.Positivity
import Mathlib.Tactic.FieldSimp
import Mathlib.Algebra.Order.Floor.Ring
import Mathlib.Data.Rat.Floor
import Verif.Model.MoMetrics
import Verif.Lemmas.NumpyMore
import Verif.Lemmas.TimeSlicers
import Verif.Props.Seasons

/-! # C99, C100, C101, C102: counting observations of a moving object, activity -/

namespace Verif.Mo

open Verif.Np
open Verif.Seasons (uniqueInt mem_uniqueInt uniqueInt_sorted)

variable {K : Type*}

/-! ## C99: numbers of observations and nights -/

section Counts
variable [Zero K] [LinearOrder K]

theorem mem_vis (limit : Option K) (l : List (Obs K)) (o : Obs K) :
    o ∈ vis limit l ↔ o ∈ l ∧ match limit with | some s => s ≤ o.snr | none => 0 < o.vis := by
  unfold vis visible
  cases limit <;> simp

/-- A higher signal to noise limit keeps fewer observations. -/
theorem vis_limit_mono (l : List (Obs K)) {s s' : K} (h : s ≤ s') :
    (vis (some s') l).Sublist (vis (some s) l) := by
  unfold vis
  apply List.monotone_filter_right
  intro o ho
  simp only [visible, decide_eq_true_eq] at ho ⊢
  exact le_trans h ho

theorem countP_bounded (m : Nat) (x : Int) (hx : 0 ≤ x) (q : Bool) :
    (List.range m).countP (fun i : Nat => decide (x = (i : Int)) && q) = if q = true ∧ x.toNat < m then 1 else 0 := by
  induction m with
  | zero => simp
  | succ m ih =>
    rw [List.range_succ, List.countP_append, ih]
    cases q
    · simp
    · simp only [true_and, Bool.and_true, List.countP_cons, List.countP_nil, decide_eq_true_eq]
      split_ifs <;> omega

/-- The number without singles counts the observations that share their night with another
one. -/
theorem noSingles_spec (limit : Option K) (l : List (Obs K)) (hn : ∀ o ∈ vis limit l, 0 ≤ o.night) :
    nObsNoSingles limit l = some (((vis limit l).filter (fun o =>
      decide (2 ≤ (vis limit l).countP (fun o' => decide (o'.night = o.night))))).length) := by
  unfold nObsNoSingles
  generalize vis limit l = v at hn
  by_cases h0 : v.length = 0
  · rw [List.length_eq_zero_iff] at h0
    subst h0
    rfl
  simp only [h0, if_false]
  have hneg : ((v.map (·.night)).any (fun x => decide (x < 0))) = false := by
    rw [List.any_eq_false]
    intro x hx
    obtain ⟨o, ho, rfl⟩ := List.mem_map.mp hx
    simpa using hn o ho
  unfold bincount
  rw [hneg]
  simp only [Bool.false_eq_true, if_false, Option.map_some, Option.some.injEq]
  set m := ((v.map (·.night)).map Int.toNat).foldr max 0 + 1 with hm
  have hlt : ∀ o ∈ v, o.night.toNat < m := by
    have : ∀ (xs : List Nat) (x : Nat), x ∈ xs → x ≤ xs.foldr max 0 := by
      intro xs x hx
      induction xs with
      | nil => simp at hx
      | cons a xs ih =>
        rw [List.foldr_cons]
        rcases List.mem_cons.mp hx with h | h
        · omega
        · have := ih h
          omega
    intro o ho
    have := this _ o.night.toNat (List.mem_map.mpr ⟨o.night, List.mem_map.mpr ⟨o, ho, rfl⟩, rfl⟩)
    exact Nat.lt_succ_of_le this
  -- the entries above one, written as a sum over nights of a count
  have e1 : ∀ (is : List Nat), ((is.map (fun i : Nat => (v.map (·.night)).count (i : Int))).filter (fun c => decide (1 < c))).sum =
      (is.map (fun i : Nat => v.countP (fun o => decide (o.night = (i : Int)) &&
        decide (2 ≤ v.countP (fun o' => decide (o'.night = o.night)))))).sum := by
    intro is
    induction is with
    | nil => rfl
    | cons i is ih =>
      have hc : (v.map (·.night)).count (i : Int) = v.countP (fun o => decide (o.night = (i : Int))) := by
        unfold List.count
        rw [List.countP_map]
        apply List.countP_congr
        intro o _
        simp
      rw [List.map_cons, List.map_cons, List.sum_cons, List.filter_cons, ← ih, hc]
      have hcc : v.countP (fun o => decide (o.night = (i : Int)) &&
          decide (2 ≤ v.countP (fun o' => decide (o'.night = o.night)))) =
          if 1 < v.countP (fun o => decide (o.night = (i : Int))) then v.countP (fun o => decide (o.night = (i : Int))) else 0 := by
        split_ifs with h
        · apply List.countP_congr
          intro o _
          simp only [Bool.and_eq_true, decide_eq_true_eq, and_iff_left_iff_imp]
          intro ho
          rw [ho]
          exact h
        · rw [List.countP_eq_zero]
          intro o _
          simp only [Bool.and_eq_true, decide_eq_true_eq, not_and]
          intro ho
          rw [ho]
          exact h
      rw [hcc]
      split_ifs with h1 h2 h2
      · rw [List.sum_cons]
      · simp at h1
        omega
      · simp at h1
        omega
      · simp
  rw [e1, sum_countP_swap, ← List.countP_eq_length_filter]
  have e2 : ∀ (q : Obs K → Bool) (w : List (Obs K)), (∀ o ∈ w, o ∈ v) →
      (w.map (fun o => (List.range m).countP (fun i : Nat => decide (o.night = (i : Int)) && q o))).sum = w.countP q := by
    intro q w hw
    induction w with
    | nil => rfl
    | cons o w ih =>
      have ho := hw o (by simp)
      rw [List.map_cons, List.sum_cons, ih (fun o' ho' => hw o' (by simp [ho'])), countP_bounded m o.night (hn o ho) (q o),
        List.countP_cons]
      have := hlt o ho
      simp only [this, and_true]
      omega
  exact e2 (fun o => decide (2 ≤ v.countP (fun o' => decide (o'.night = o.night)))) v (fun _ h => h)

/-- With a negative night among the visible observations there is no answer. -/
theorem noSingles_negative (limit : Option K) (l : List (Obs K)) (o : Obs K) (ho : o ∈ vis limit l) (hn : o.night < 0) :
    nObsNoSingles limit l = none := by
  unfold nObsNoSingles
  have h0 : (vis limit l).length ≠ 0 := (List.length_pos_of_mem ho).ne'
  have h1 : ((vis limit l).map (·.night)).any (fun x => decide (x < 0)) = true := by
    rw [List.any_eq_true]
    exact ⟨o.night, List.mem_map.mpr ⟨o, ho, rfl⟩, by simpa using hn⟩
  simp only [h0, if_false, bincount, h1, if_true, Option.map_none]

/-- The number of nights is the number of distinct nights with a visible observation. -/
theorem nNights_spec (limit : Option K) (l : List (Obs K)) (ns : List Int) (hd : ns.Nodup)
    (hn : ∀ n, n ∈ ns ↔ ∃ o ∈ vis limit l, o.night = n) : nNights limit l = ns.length := by
  unfold nNights
  have hp : (uniqueInt ((vis limit l).map (·.night))).Perm ns := by
    rw [List.perm_ext_iff_of_nodup ((uniqueInt_sorted _).imp (fun h => ne_of_lt h)) hd]
    intro n
    rw [mem_uniqueInt, List.mem_map, hn]
  dsimp only
  split_ifs with h
  · rw [← hp.length_eq, List.length_eq_zero_iff.mp h]
    rfl
  · exact hp.length_eq

theorem nNights_eq (limit : Option K) (l : List (Obs K)) :
    nNights limit l = ((vis limit l).map (·.night)).dedup.length :=
  nNights_spec limit l _ (List.nodup_dedup _) (by simp)

/-- Nights are at most observations; there are no more observations without singles. -/
theorem nNights_le (limit : Option K) (l : List (Obs K)) : nNights limit l ≤ nObs limit l := by
  rw [nNights_eq, nObs]
  exact le_trans (List.dedup_sublist _).length_le (by simp)

theorem noSingles_le (limit : Option K) (l : List (Obs K)) (n : Nat) (h : nObsNoSingles limit l = some n) : n ≤ nObs limit l := by
  by_cases hn : ∀ o ∈ vis limit l, 0 ≤ o.night
  · rw [noSingles_spec limit l hn, Option.some.injEq] at h
    rw [← h, nObs]
    exact List.length_filter_le _ _
  · push Not at hn
    obtain ⟨o, ho, ho'⟩ := hn
    rw [noSingles_negative limit l o ho ho'] at h
    cases h

/-- What is left out are the nights with one observation: together they make up all
observations. -/
theorem noSingles_add (limit : Option K) (l : List (Obs K)) (hn : ∀ o ∈ vis limit l, 0 ≤ o.night) (n : Nat)
    (h : nObsNoSingles limit l = some n) :
    n + ((vis limit l).filter (fun o => decide ((vis limit l).countP (fun o' => decide (o'.night = o.night)) = 1))).length
      = nObs limit l := by
  rw [noSingles_spec limit l hn, Option.some.injEq] at h
  subst h
  unfold nObs
  have key : ∀ (v w : List (Obs K)), (∀ o ∈ w, o ∈ v) →
      (w.filter (fun o => decide (2 ≤ v.countP (fun o' => decide (o'.night = o.night))))).length +
      (w.filter (fun o => decide (v.countP (fun o' => decide (o'.night = o.night)) = 1))).length = w.length := by
    intro v w hw
    induction w with
    | nil => rfl
    | cons o w ih =>
      have ih := ih (fun o' ho' => hw o' (by simp [ho']))
      have hpos : 0 < v.countP (fun o' => decide (o'.night = o.night)) :=
        List.countP_pos_iff.mpr ⟨o, hw o (by simp), by simp⟩
      rw [List.filter_cons, List.filter_cons]
      by_cases h1 : v.countP (fun o' => decide (o'.night = o.night)) = 1
      · simp [h1]
        omega
      · have h2 : 2 ≤ v.countP (fun o' => decide (o'.night = o.night)) := by omega
        simp [h1, h2]
        omega
  exact key _ _ (fun _ h => h)

/-- All counts can only fall when the limit is raised. -/
theorem counts_mono (l : List (Obs K)) {s s' : K} (h : s ≤ s') (hn : ∀ o ∈ l, 0 ≤ o.night) :
    nObs (some s') l ≤ nObs (some s) l ∧ nNights (some s') l ≤ nNights (some s) l ∧
    ∃ n n' : Nat, nObsNoSingles (some s) l = some n ∧ nObsNoSingles (some s') l = some n' ∧ n' ≤ n := by
  have hsub := vis_limit_mono l h
  have hm : ∀ t : K, ∀ o ∈ vis (some t) l, 0 ≤ o.night := fun t o ho => hn o ((mem_vis _ _ _).mp ho).1
  refine ⟨hsub.length_le, ?_, _, _, noSingles_spec _ _ (hm s), noSingles_spec _ _ (hm s'), ?_⟩
  · rw [nNights_eq, nNights_eq]
    apply List.Subperm.length_le
    apply (List.nodup_dedup _).subperm
    intro n hn'
    rw [List.mem_dedup, List.mem_map] at hn' ⊢
    obtain ⟨o, ho, rfl⟩ := hn'
    exact ⟨o, hsub.subset ho, rfl⟩
  · refine le_trans ?_ (List.Sublist.length_le (hsub.filter _))
    rw [← List.countP_eq_length_filter, ← List.countP_eq_length_filter]
    apply List.countP_mono_left
    intro o _ ho
    simp only [decide_eq_true_eq] at ho ⊢
    exact le_trans ho (hsub.countP_le)

end Counts

/-- Observations for the examples. -/
def o1 (mjd : ℚ) (night : Int) (snr : ℚ) : Obs ℚ :=
  { mjd, night, snr, vis := 1, band := "r", velocity := 0, seeing := 1, expTime := 30, ecLon := 0, phase := 0, elong := 180, magV := 20 }

example : nObs (some 5) [o1 1 3 6, o1 2 3 5, o1 3 4 9, o1 4 4 1] = 3 ∧
    nObsNoSingles (some 5) [o1 1 3 6, o1 2 3 5, o1 3 4 9, o1 4 4 1] = some 2 ∧
    nNights (some 5) [o1 1 3 6, o1 2 3 5, o1 3 4 9, o1 4 4 1] = 2 ∧ nObsNoSingles none [o1 1 (-3) 6] = none := by decide +kernel

/-! ## C100: the observed arc -/

section Arc
variable [Field K] [LinearOrder K] [IsStrictOrderedRing K]

theorem foldl_max_spec (t : K) (ts : List K) : ts.foldl max t ∈ t :: ts ∧ ∀ x ∈ t :: ts, x ≤ ts.foldl max t := by
  induction ts generalizing t with
  | nil => simp
  | cons a ts ih =>
    obtain ⟨h1, h2⟩ := ih (max t a)
    rw [List.foldl_cons]
    constructor
    · rcases List.mem_cons.mp h1 with h | h
      · rw [h]
        rcases max_choice t a with h' | h' <;> rw [h'] <;> simp
      · simp [h]
    · intro x hx
      have h3 := h2 (max t a) (by simp)
      rcases List.mem_cons.mp hx with rfl | hx
      · exact le_trans (le_max_left _ _) h3
      · rcases List.mem_cons.mp hx with rfl | hx
        · exact le_trans (le_max_right _ _) h3
        · exact h2 x (by simp [hx])

theorem foldl_min_spec (t : K) (ts : List K) : ts.foldl min t ∈ t :: ts ∧ ∀ x ∈ t :: ts, ts.foldl min t ≤ x := by
  induction ts generalizing t with
  | nil => simp
  | cons a ts ih =>
    obtain ⟨h1, h2⟩ := ih (min t a)
    rw [List.foldl_cons]
    constructor
    · rcases List.mem_cons.mp h1 with h | h
      · rw [h]
        rcases min_choice t a with h' | h' <;> rw [h'] <;> simp
      · simp [h]
    · intro x hx
      have h3 := h2 (min t a) (by simp)
      rcases List.mem_cons.mp hx with rfl | hx
      · exact le_trans h3 (min_le_left _ _)
      · rcases List.mem_cons.mp hx with rfl | hx
        · exact le_trans h3 (min_le_right _ _)
        · exact h2 x (by simp [hx])

/-- The arc is the time from the first to the last visible observation, in any order of
the rows. -/
theorem obsArc_spec (limit : Option K) (l : List (Obs K)) (hv : vis limit l ≠ []) :
    ∃ a ∈ vis limit l, ∃ b ∈ vis limit l, obsArc limit l = b.mjd - a.mjd ∧ ∀ c ∈ vis limit l, a.mjd ≤ c.mjd ∧ c.mjd ≤ b.mjd := by
  unfold obsArc
  cases h : vis limit l with
  | nil => exact absurd h hv
  | cons o os =>
    rw [List.map_cons]
    obtain ⟨h1, h2⟩ := foldl_max_spec o.mjd (os.map (·.mjd))
    obtain ⟨h3, h4⟩ := foldl_min_spec o.mjd (os.map (·.mjd))
    rw [← List.map_cons (f := fun x : Obs K => x.mjd)] at h1 h2 h3 h4
    obtain ⟨b, hb, hb'⟩ := List.mem_map.mp h1
    obtain ⟨a, ha, ha'⟩ := List.mem_map.mp h3
    refine ⟨a, ha, b, hb, ?_, ?_⟩
    · simp only [hb', ha']
    · intro c hc
      rw [hb', ha']
      exact ⟨h4 _ (List.mem_map.mpr ⟨c, hc, rfl⟩), h2 _ (List.mem_map.mpr ⟨c, hc, rfl⟩)⟩

theorem obsArc_nonneg (limit : Option K) (l : List (Obs K)) : 0 ≤ obsArc limit l := by
  by_cases hv : vis limit l = []
  · simp [obsArc, hv]
  · obtain ⟨a, ha, b, hb, h, h'⟩ := obsArc_spec limit l hv
    rw [h]
    linarith [(h' b hb).1]

/-- The arc can only shrink when the limit is raised. -/
theorem obsArc_mono (l : List (Obs K)) {s s' : K} (h : s ≤ s') : obsArc (some s') l ≤ obsArc (some s) l := by
  by_cases hv' : vis (some s') l = []
  · rw [show obsArc (some s') l = 0 by simp [obsArc, hv']]
    exact obsArc_nonneg _ _
  · have hsub := vis_limit_mono l h
    have hv : vis (some s) l ≠ [] := by
      intro h0
      rw [h0] at hsub
      exact hv' (List.sublist_nil.mp hsub)
    obtain ⟨a, ha, b, hb, e, _⟩ := obsArc_spec _ l hv'
    obtain ⟨a', _, b', _, e', g⟩ := obsArc_spec _ l hv
    rw [e, e']
    linarith [(g a (hsub.subset ha)).1, (g b (hsub.subset hb)).2]

example : obsArc (some 5) [o1 7 3 6, o1 2 3 5, o1 30 4 1, o1 4 4 9] = 5 := by decide +kernel

end Arc

/-! ## C101: the share of time windows with an observation -/

section Activity
variable [Field K] [LinearOrder K] [IsStrictOrderedRing K] [FloorRing K]

theorem filled_le (bins xs : List K) : ((histogram bins xs).filter (fun c => decide (0 < c))).length ≤ bins.length - 1 := by
  refine le_trans (List.length_filter_le _ _) ?_
  simp [histogram]

theorem filled_eq (bins xs : List K) : ((histogram bins xs).filter (fun c => decide (0 < c))).length =
    ((List.range (bins.length - 1)).filter (fun i => xs.any (inBin bins i))).length := by
  unfold histogram
  rw [List.filter_map, List.length_map]
  congr 1
  apply List.filter_congr
  intro i _
  rw [Bool.eq_iff_iff]
  simp [List.countP_pos_iff]

/-- The value never reaches one: with `n` edges it is at most `(n - 1) / n`. -/
theorem activity_lt_one (window years badval : K) (limit : Option K) (l : List (Obs K)) (hv : vis limit l ≠ []) :
    activityOverTime window years badval limit l < 1 := by
  unfold activityOverTime
  have h0 : (vis limit l).length ≠ 0 := by rwa [ne_eq, List.length_eq_zero_iff]
  simp only [h0, if_false]
  set bins := windowBins window years
  rcases Nat.eq_zero_or_pos bins.length with h | h
  · simp [h]
  · rw [div_lt_one (by exact_mod_cast h)]
    have := filled_le bins ((vis limit l).map (fun o => (o.night : K)))
    exact_mod_cast (show _ < _ by omega)

/-- What is computed: the number of windows with a visible observation, over the number
of windows plus one. -/
theorem activity_partial (window years badval : K) (limit : Option K) (l : List (Obs K)) (hv : vis limit l ≠ [])
    (hb : windowBins window years ≠ []) :
    activityOverTime window years badval limit l =
      (((List.range ((windowBins window years).length - 1)).filter (fun i =>
          (vis limit l).any (fun o => inBin (windowBins window years) i (o.night : K)))).length : K) /
        ((((windowBins window years).length - 1 : Nat) : K) + 1) := by
  unfold activityOverTime
  have h0 : (vis limit l).length ≠ 0 := by rwa [ne_eq, List.length_eq_zero_iff]
  simp only [h0, if_false]
  rw [filled_eq]
  have hp : 0 < (windowBins window years).length := List.length_pos_iff.mpr hb
  have e : (((windowBins window years).length - 1 : Nat) : K) + 1 = ((windowBins window years).length : K) := by
    exact_mod_cast (show (windowBins window years).length - 1 + 1 = (windowBins window years).length by omega)
  rw [e]
  simp only [List.any_map, Function.comp_def]

/-- The documented value, "what fraction of the total windows receive visits", is not
returned: here the only window has a visit. -/
theorem activity_false : ¬ ∀ (window years badval : ℚ) (limit : Option ℚ) (l : List (Obs ℚ)), vis limit l ≠ [] →
    (∀ i < (windowBins window years).length - 1, ∃ o ∈ vis limit l, inBin (windowBins window years) i (o.night : ℚ) = true) →
    activityOverTime window years badval limit l = 1 := by
  intro h
  have := h 365 1 0 (some 5) [o1 100 100 7] (by decide +kernel) (by decide +kernel)
  exact absurd this (ne_of_lt (activity_lt_one _ _ _ _ _ (by decide +kernel)))

example : activityOverTime (365 : ℚ) 2 0 (some 5) [o1 100 100 7, o1 400 400 8] = 2 / 3 ∧
    windowBins (365 : ℚ) 2 = [0, 365, 730] := by decide +kernel

/-! ## C102: the share of the orbit with an observation -/

theorem pyMod_of_lt (x m : K) (h0 : 0 ≤ x) (h1 : x < m) : pyMod x m = x := by
  unfold pyMod
  have hm : 0 < m := lt_of_le_of_lt h0 h1
  have : ⌊x / m⌋ = 0 := by
    rw [Int.floor_eq_zero_iff]
    exact ⟨div_nonneg h0 hm.le, (div_lt_one hm).mpr h1⟩
  simp [this]

theorem pyMod_range (x m : K) (hm : 0 < m) : 0 ≤ pyMod x m ∧ pyMod x m < m := by
  unfold pyMod
  have h1 := Int.floor_le (x / m)
  have h2 := Int.lt_floor_add_one (x / m)
  rw [le_div_iff₀ hm] at h1
  rw [div_lt_iff₀ hm] at h2
  constructor <;> nlinarith

/-- The two ways to give an orbit, by the time of perihelion (where the anomaly is zero)
or by the anomaly at an epoch, give different anomalies in the first revolution: the
first misses the factor of a full turn. -/
theorem anomaly_differ (twoPi period tPeri mjd : K) (hp : 0 < period) (ht : 1 < twoPi) (h0 : tPeri < mjd) (h1 : mjd < tPeri + period) :
    anomalyFromPeri twoPi period tPeri mjd = (mjd - tPeri) / period ∧
    anomalyFromEpoch twoPi period 0 tPeri mjd = twoPi * ((mjd - tPeri) / period) ∧
    anomalyFromPeri twoPi period tPeri mjd ≠ anomalyFromEpoch twoPi period 0 tPeri mjd := by
  set x := (mjd - tPeri) / period with hx
  have hx0 : 0 < x := div_pos (by linarith) hp
  have hx1 : x < 1 := by rw [hx, div_lt_one hp]; linarith
  have e1 : anomalyFromPeri twoPi period tPeri mjd = x := by
    unfold anomalyFromPeri
    exact pyMod_of_lt _ _ hx0.le (by linarith)
  have e2 : anomalyFromEpoch twoPi period 0 tPeri mjd = twoPi * x := by
    unfold anomalyFromEpoch
    rw [← hx, show (0 + x * 360) * (twoPi / 360) = twoPi * x by field_simp; ring]
    exact pyMod_of_lt _ _ (by positivity) (by nlinarith)
  refine ⟨e1, e2, ?_⟩
  rw [e1, e2]
  intro h
  nlinarith

/-- So a whole revolution of observations reaches only the bins of the first radian. -/
theorem peri_bins (twoPi period tPeri badval binSize : K) (hp : 0 < period) (ht : 1 < twoPi) (hb : 0 < binSize)
    (times : List K) (hne : times ≠ []) (hts : ∀ t ∈ times, tPeri ≤ t ∧ t < tPeri + period) (k : Nat) (hk : 1 ≤ (k : K) * binSize) :
    activityOverPeriod twoPi binSize badval (times.map (anomalyFromPeri twoPi period tPeri)) ≤
      (k : K) / (((anomalyBins twoPi binSize).length - 1 : Nat) : K) := by
  unfold activityOverPeriod
  have h0 : (times.map (anomalyFromPeri twoPi period tPeri)).length ≠ 0 := by
    rw [List.length_map, ne_eq, List.length_eq_zero_iff]
    exact hne
  simp only [h0, if_false]
  apply div_le_div_of_nonneg_right _ (Nat.cast_nonneg _)
  rw [filled_eq]
  have : ((List.range ((anomalyBins twoPi binSize).length - 1)).filter (fun i =>
      (times.map (anomalyFromPeri twoPi period tPeri)).any (inBin (anomalyBins twoPi binSize) i))).Sublist (List.range
        ((anomalyBins twoPi binSize).length - 1)) := List.filter_sublist
  have hsub : ∀ i ∈ (List.range ((anomalyBins twoPi binSize).length - 1)).filter (fun i =>
      (times.map (anomalyFromPeri twoPi period tPeri)).any (inBin (anomalyBins twoPi binSize) i)), i ∈ List.range k := by
    intro i hi
    rw [List.mem_filter, List.any_eq_true] at hi
    obtain ⟨hi, a, ha, hai⟩ := hi
    obtain ⟨t, ht', rfl⟩ := List.mem_map.mp ha
    obtain ⟨h2, h3⟩ := hts t ht'
    have hx1 : (t - tPeri) / period < 1 := by rw [div_lt_one hp]; linarith
    have ea : anomalyFromPeri twoPi period tPeri t = (t - tPeri) / period :=
      pyMod_of_lt _ _ (div_nonneg (by linarith) hp.le) (by linarith)
    rw [ea] at hai
    rw [List.mem_range] at hi ⊢
    have hlen : (anomalyBins twoPi binSize).length = (Slicers.arange 0 twoPi binSize).length + 1 := by simp [anomalyBins]
    have hi' : i < (Slicers.arange 0 twoPi binSize).length := by omega
    unfold inBin at hai
    have ge : (anomalyBins twoPi binSize)[i]? = some ((i : K) * binSize) := by
      unfold anomalyBins
      rw [List.getElem?_append_left hi', List.getElem?_eq_getElem hi', Slicers.arange_get, zero_add]
    rw [ge] at hai
    cases hb2 : (anomalyBins twoPi binSize)[i + 1]? with
    | none => rw [hb2] at hai; simp at hai
    | some b =>
      rw [hb2] at hai
      simp only [Bool.and_eq_true, decide_eq_true_eq] at hai
      by_contra hcon
      have : (k : K) ≤ (i : K) := by exact_mod_cast not_lt.mp hcon
      nlinarith [hai.1]
  have hnd := this.nodup List.nodup_range
  have := (hnd.subperm hsub).length_le
  rw [List.length_range] at this
  exact_mod_cast this

/-- With the anomalies given, the value is the share of bins that hold one; it is one when
all do. -/
theorem period_partial (twoPi binSize badval : K) (xs : List K) (hx : xs ≠ []) (hp : 0 < twoPi) (hb : 0 < binSize) :
    (0 ≤ activityOverPeriod twoPi binSize badval xs ∧ activityOverPeriod twoPi binSize badval xs ≤ 1) ∧
    (activityOverPeriod twoPi binSize badval xs = 1 ↔
      ∀ i < (anomalyBins twoPi binSize).length - 1, ∃ x ∈ xs, inBin (anomalyBins twoPi binSize) i x = true) := by
  have hlen : (anomalyBins twoPi binSize).length - 1 = (Slicers.arange 0 twoPi binSize).length := by simp [anomalyBins]
  have hpos : 0 < (anomalyBins twoPi binSize).length - 1 := by
    rw [hlen, Slicers.arange_length]
    have : 0 < ⌈(twoPi - 0) / binSize⌉ := Int.ceil_pos.mpr (by rw [sub_zero]; positivity)
    omega
  have hposK : (0 : K) < (((anomalyBins twoPi binSize).length - 1 : Nat) : K) := by exact_mod_cast hpos
  unfold activityOverPeriod
  have h0 : xs.length ≠ 0 := by rwa [ne_eq, List.length_eq_zero_iff]
  simp only [h0, if_false]
  have hle := filled_le (anomalyBins twoPi binSize) xs
  refine ⟨⟨by positivity, ?_⟩, ?_⟩
  · rw [div_le_one hposK]
    exact_mod_cast hle
  · rw [div_eq_one_iff_eq hposK.ne', Nat.cast_inj, filled_eq]
    set n := (anomalyBins twoPi binSize).length - 1
    rw [show (((List.range n).filter (fun i => xs.any (inBin (anomalyBins twoPi binSize) i))).length = n) ↔
      (((List.range n).filter (fun i => xs.any (inBin (anomalyBins twoPi binSize) i))).length = (List.range n).length) by
        rw [List.length_range], List.length_filter_eq_length_iff]
    simp only [List.mem_range, List.any_eq_true]

/-- A full turn in four bins: observations spread over a revolution reach every bin when
the orbit is given by an anomaly, and one bin only when it is given by the perihelion. -/
example : activityOverPeriod (4 : ℚ) 1 0 ([10, 35, 60, 85].map (anomalyFromPeri 4 100 0)) = 1 / 4 ∧
    activityOverPeriod (4 : ℚ) 1 0 ([10, 35, 60, 85].map (anomalyFromEpoch 4 100 0 0)) = 1 := by decide +kernel

end Activity

end Verif.Mo
