import Mathlib.Tactic.Linarith
import Mathlib.Tactic.Ring
import Mathlib.Tactic.NormNum
import Mathlib.Tactic.IntervalCases
import Mathlib.Data.Rat.Floor
import Mathlib.Algebra.Order.Floor.Ring
import Verif.Model.Dates
import Verif.Props.ArchiveSims

/-! # C39, C40, C64-C68: dates, nights and simulations for nights -/

namespace Verif.Dates

/-! ## C39 -/

/-- A year with 29 February: divisible by four, but a century only if divisible by
four hundred. -/
def Leap (y : Nat) : Prop := y % 400 = 0 ∨ (y % 4 = 0 ∧ ¬ y % 100 = 0)

instance (y : Nat) : Decidable (Leap y) := by unfold Leap; infer_instance

/-- A date that exists: in a year 1-9999, with days to the length of the month. -/
def Valid (d : Date) : Prop :=
  1 ≤ d.year ∧ d.year ≤ 9999 ∧ 1 ≤ d.month ∧ d.month ≤ 12 ∧ 1 ≤ d.day ∧
  (d.day ≤ 28 ∨ (d.day = 29 ∧ (d.month = 2 → Leap d.year)) ∨ (d.day = 30 ∧ d.month ≠ 2) ∨
    (d.day = 31 ∧ d.month ∈ [1, 3, 5, 7, 8, 10, 12]))

instance (d : Date) : Decidable (Valid d) := by unfold Valid; infer_instance

theorem daysIn_iff {y m d : Nat} (hm : 1 ≤ m) (hm' : m ≤ 12) (hd : 1 ≤ d) :
    d ≤ daysIn y m ↔ (d ≤ 28 ∨ (d = 29 ∧ (m = 2 → Leap y)) ∨ (d = 30 ∧ m ≠ 2) ∨
      (d = 31 ∧ m ∈ [1, 3, 5, 7, 8, 10, 12])) := by
  unfold daysIn Leap
  simp only [List.mem_cons, List.not_mem_nil, or_false]
  split
  · split <;> omega
  · split <;> omega

theorem daysIn_le (y m : Nat) : daysIn y m ≤ 31 := by
  unfold daysIn
  split
  · split <;> omega
  · split <;> omega

theorem mkDate_nat (d : Date) (h : Valid d) : mkDate d.year d.month d.day = some d := by
  obtain ⟨h1, h2, h3, h4, h5, h6⟩ := h
  rw [← daysIn_iff h3 h4 h5] at h6
  unfold mkDate
  rw [if_pos]
  · simp
  · simp only [Int.toNat_natCast]
    omega

/-- **C39.** The integers accepted are exactly the `YYYYMMDD` encodings of existing
dates, each decoded to its date; everything else is rejected. -/
theorem dayobs_int_iff (n : Int) (d : Date) :
    decodeInt n = some d ↔ Valid d ∧ n = 10000 * d.year + 100 * d.month + d.day := by
  constructor
  · unfold decodeInt mkDate
    intro h
    split at h
    · rename_i hv
      cases h
      obtain ⟨h1, h2, h3, h4, h5, h6⟩ := hv
      have h3' : 1 ≤ (n / 100 % 100).toNat := by omega
      have h4' : (n / 100 % 100).toNat ≤ 12 := by omega
      have h5' : 1 ≤ (n % 100).toNat := by omega
      refine ⟨⟨?_, ?_, h3', h4', h5', (daysIn_iff h3' h4' h5').mp ?_⟩, ?_⟩ <;> simp only <;> omega
    · cases h
  · rintro ⟨hv, rfl⟩
    have hd := daysIn_le d.year d.month
    have hv' := hv
    obtain ⟨h1, h2, h3, h4, h5, h6⟩ := hv'
    unfold decodeInt
    have e1 : (10000 * (d.year : Int) + 100 * d.month + d.day) / 10000 = d.year := by omega
    have e2 : (10000 * (d.year : Int) + 100 * d.month + d.day) / 100 % 100 = d.month := by omega
    have e3 : (10000 * (d.year : Int) + 100 * d.month + d.day) % 100 = d.day := by omega
    rw [e1, e2, e3]
    exact mkDate_nat d hv

theorem chr_toNat {k : Nat} (h : k < 10) : (chr k).toNat = 48 + k := by
  interval_cases k <;> rfl

theorem digit_chr {k : Nat} (h : k < 10) : digit (chr k) = some k := by
  interval_cases k <;> rfl

theorem digits_pad2 (n : Nat) (h : n < 100) : digits (pad2 n) = some n := by
  simp only [pad2, digits, List.foldl, digit_chr (Nat.mod_lt _ (by decide : 0 < 10)), Option.some.injEq]
  omega

theorem digits_pad4 (n : Nat) (h : n < 10000) : digits (pad4 n) = some n := by
  simp only [pad4, digits, List.foldl, digit_chr (Nat.mod_lt _ (by decide : 0 < 10)), Option.some.injEq]
  omega

/-- **C39.** ISO strings are decoded to the date they denote, with or without dashes. -/
theorem dayobs_iso (d : Date) (h : Valid d) : fromIso (iso d) = some d ∧ fromIso (compact d) = some d := by
  have hd := daysIn_le d.year d.month
  obtain ⟨h1, h2, h3, h4, h5, h6⟩ := id h
  have e4 := digits_pad4 d.year (by omega)
  have e2 := digits_pad2 d.month (by omega)
  have e2' := digits_pad2 d.day (by omega)
  unfold pad4 at e4
  unfold pad2 at e2 e2'
  constructor
  · simp only [iso, pad4, pad2, List.cons_append, List.nil_append, fromIso, e4, e2, e2']
    exact mkDate_nat d h
  · simp only [compact, pad4, pad2, List.cons_append, List.nil_append, fromIso, e4, e2, e2']
    exact mkDate_nat d h

/-- **C39.** The string of `DayObsStacker`, read as an integer, decodes to the same
date. -/
theorem dayobs_stacker_round_trip (d : Date) (h : Valid d) :
    ∃ n, digits (compact d) = some n ∧ decodeInt n = some d := by
  have hd := daysIn_le d.year d.month
  obtain ⟨h1, h2, h3, h4, h5, h6⟩ := id h
  refine ⟨10000 * d.year + 100 * d.month + d.day, ?_, ?_⟩
  · simp only [compact, pad4, pad2, List.cons_append, List.nil_append, digits, List.foldl,
      digit_chr (Nat.mod_lt _ (by decide : 0 < 10)), Option.some.injEq]
    omega
  · rw [dayobs_int_iff]
    exact ⟨h, by push_cast; ring⟩

example : decodeInt 20240229 = some ⟨2024, 2, 29⟩ ∧ decodeInt 20230229 = none ∧ decodeInt (-1) = none ∧
    fromIso "2025-03-26".toList = some ⟨2025, 3, 26⟩ ∧ iso ⟨2025, 3, 26⟩ = "2025-03-26".toList := by decide

/-! ## C40 -/

section Times
variable {K : Type*} [Field K] [LinearOrder K] [FloorRing K] [IsStrictOrderedRing K]

/-- **C40.** All conventions give the same day number, and it is the day whose noon to
noon (UTC) interval contains the instant. -/
theorem day_obs_agree (mjd : K) (n : Int) :
    dayObsTime mjd = dayObsMjd mjd ∧ dayObsStats mjd = dayObsMjd mjd ∧ dayObsDjd mjd = dayObsMjd mjd ∧
    dayObsIsoPart mjd = dayObsMjd mjd ∧
    (dayObsMjd mjd = n ↔ (n : K) + 1 / 2 ≤ mjd ∧ mjd < (n : K) + 1 + 1 / 2) := by
  refine ⟨?_, ?_, ?_, rfl, ?_⟩
  · unfold dayObsTime dayObsMjd
    congr 1
    ring
  · unfold dayObsStats dayObsMjd
    have : (mjd + 2400000) - (2440587 + 1 / 2) = (mjd - 1 / 2) - ((40587 : ℤ) : K) := by push_cast; ring
    rw [this, Int.floor_sub_intCast]
    omega
  · unfold dayObsDjd dayObsMjd
    have : mjd - (15019 + 1 / 2) = (mjd - 1 / 2) - ((15019 : ℤ) : K) := by push_cast; ring
    rw [this, Int.floor_sub_intCast]
    omega
  · unfold dayObsMjd
    rw [Int.floor_eq_iff]
    constructor <;> rintro ⟨h1, h2⟩ <;> constructor <;> linarith

example : dayObsMjd (60676 + 1 / 2 : ℚ) = 60676 ∧ dayObsMjd (60676 + 49 / 100 : ℚ) = 60675 := by decide +kernel

/-! ## C64 -/

/-- Time since the noon that starts the day of observation. -/
def sinceNoon (t : K) : K := t - 1 / 2 - (dayObsMjd t : K)

omit [IsStrictOrderedRing K] in
theorem sinceNoon_add (t : K) : t - 1 / 2 = (dayObsMjd t : K) + sinceNoon t := by
  unfold sinceNoon; ring

theorem sinceNoon_range (t : K) : 0 ≤ sinceNoon t ∧ sinceNoon t < 1 := by
  have := (day_obs_agree t (dayObsMjd t)).2.2.2.2.mp rfl
  unfold sinceNoon
  constructor <;> linarith [this.1, this.2]

/-- **C64**, what holds: dates taken from the visits contain the night of every visit,
and for a whole number of days so do dates taken from start and duration, if no visit
is earlier in its night than the start. -/
theorem simulated_dates_partial (t : K) :
    (∀ mn mx : K, mn ≤ t → t ≤ mx → ∃ f l, simulatedDates (.fromVisits mn mx) = (f, some l) ∧
      f ≤ dayObsMjd t ∧ dayObsMjd t ≤ l) ∧
    (∀ (s : K) (n : Int), s ≤ t → t < s + n → sinceNoon s ≤ sinceNoon t →
      ∃ f l, simulatedDates (.startDuration s (n : K)) = (f, some l) ∧ f ≤ dayObsMjd t ∧ dayObsMjd t ≤ l ∧
        l = f + n - 1) := by
  have mono : ∀ a b : K, a ≤ b → dayObsMjd a ≤ dayObsMjd b := fun a b h => Int.floor_mono (by linarith)
  constructor
  · intro mn mx h1 h2
    exact ⟨_, _, rfl, mono _ _ h1, mono _ _ h2⟩
  · intro s n h1 h2 h3
    have hl : dayObsMjd (s + n - 1) = dayObsMjd s + n - 1 := by
      unfold dayObsMjd
      have : s + (n : K) - 1 - 1 / 2 = (s - 1 / 2) + ((n - 1 : ℤ) : K) := by push_cast; ring
      rw [this, Int.floor_add_intCast]
      omega
    refine ⟨_, _, rfl, mono _ _ h1, ?_, hl⟩
    rw [hl]
    have e1 := sinceNoon_add t
    have e2 := sinceNoon_add s
    have : (dayObsMjd t : K) < (dayObsMjd s : K) + n := by linarith
    have : dayObsMjd t < dayObsMjd s + n := by exact_mod_cast this
    omega

/-- **C64.** With a duration of `n - 1` days and a part of a day that ends before the
next noon (the duration of `n` nights), the last night is always missing: for one
night the last date lies before the first. -/
theorem last_night_missing (s part : K) (n : Int) (h0 : 0 ≤ part) (h1 : sinceNoon s + part < 1) :
    simulatedDates (.startDuration s ((n : K) - 1 + part)) = (dayObsMjd s, some (dayObsMjd s + n - 2)) ∧
    dayObsMjd (s + ((n : K) - 1 + part)) = dayObsMjd s + n - 1 := by
  have e := sinceNoon_add s
  have hp := (sinceNoon_range s).1
  constructor
  · simp only [simulatedDates, Prod.mk.injEq, true_and, Option.some.injEq]
    rw [(day_obs_agree (s + ((n : K) - 1 + part) - 1) (dayObsMjd s + n - 2)).2.2.2.2]
    push_cast
    constructor <;> linarith
  · rw [(day_obs_agree (s + ((n : K) - 1 + part)) (dayObsMjd s + n - 1)).2.2.2.2]
    push_cast
    constructor <;> linarith

/-- Full statement of C64: the recorded dates contain the night of every time in the
simulated range. -/
def DatesCover (K : Type*) [Field K] [LinearOrder K] [FloorRing K] : Prop :=
  ∀ s d t : K, s ≤ t → t < s + d → ∀ l, (simulatedDates (.startDuration s d)).2 = some l → dayObsMjd t ≤ l

/-- **C64**, refutation: ten hours from dusk. -/
theorem dates_cover_false : ¬ DatesCover ℚ := by
  intro h
  have := h (60676 + 95 / 100) (10 / 24) (60677 + 2 / 10) (by norm_num) (by norm_num) 60675 (by decide +kernel)
  revert this
  decide +kernel

/-! ## C68 -/

/-- **C68**, what holds: with one almanac row per night and a day within the almanac,
the simulation starts on that day and ends `n - 1` nights later. -/
theorem sim_start_end_partial (nights : List (Night K)) (day first : Int) (n : Nat) (delay : K) (s d : K)
    (hrow : ∀ (i : Nat) (r : Night K), nights[i]? = some r → dayObsMjd r.sunset = first + i)
    (hday : first ≤ day) (hn : 0 < n) (h : simStartEnd nights day n delay = .ok (s, d)) :
    ∃ a b, a ∈ nights ∧ b ∈ nights ∧ dayObsMjd a.sunset = day ∧ dayObsMjd b.sunset = day + n - 1 ∧
      s = a.n12 + delay / (24 * 60) ∧ s + d = b.sunrise := by
  unfold simStartEnd at h
  cases nights with
  | nil => cases h
  | cons n0 rest =>
    simp only at h
    have h0 := hrow 0 n0 rfl
    have hj := (day_obs_agree n0.sunset 0).2.2.1
    unfold dayObsDjd at hj
    rw [h0] at hj
    have e : day - 15019 - ⌊n0.sunset - (15019 + 1 / 2)⌋ = day - first := by push_cast at hj; omega
    rw [e] at h
    split at h
    · cases h
    · rename_i a ha
      split at h
      · cases h
      · rename_i b hb
        split at h
        · cases h
          unfold pyGet at ha hb
          rw [if_pos (by omega)] at ha
          rw [if_pos (by omega)] at hb
          refine ⟨a, b, List.mem_of_getElem? ha, List.mem_of_getElem? hb, ?_, ?_, rfl, by ring⟩
          · rw [hrow _ a ha]; omega
          · rw [hrow _ b hb]; omega
        · cases h

/-- **C68.** A day before the almanac silently selects a night counted from the end of
the almanac. -/
theorem before_almanac_wraps (nights : List (Night K)) (day first : Int) (delay : K) (s d : K)
    (hrow : ∀ (i : Nat) (r : Night K), nights[i]? = some r → dayObsMjd r.sunset = first + i)
    (hday : day < first) (h : simStartEnd nights day 1 delay = .ok (s, d)) :
    ∃ a ∈ nights, dayObsMjd a.sunset = day + nights.length ∧ s = a.n12 + delay / (24 * 60) := by
  unfold simStartEnd at h
  cases nights with
  | nil => cases h
  | cons n0 rest =>
    simp only at h
    have h0 := hrow 0 n0 rfl
    have hj := (day_obs_agree n0.sunset 0).2.2.1
    unfold dayObsDjd at hj
    rw [h0] at hj
    have e : day - 15019 - ⌊n0.sunset - (15019 + 1 / 2)⌋ = day - first := by push_cast at hj; omega
    rw [e] at h
    split at h
    · cases h
    · rename_i a ha
      split at h
      · cases h
      · split at h
        · cases h
          unfold pyGet at ha
          rw [if_neg (by omega)] at ha
          split at ha
          · refine ⟨a, List.mem_of_getElem? ha, ?_, rfl⟩
            rw [hrow _ a ha]
            omega
          · cases ha
        · cases h

/-- Full statement of C68: the simulation starts on the requested day. -/
def StartsOnDay (K : Type*) [Field K] [LinearOrder K] [FloorRing K] [IsStrictOrderedRing K] : Prop :=
  ∀ (nights : List (Night K)) (day : Int) (n : Nat) (s d : K),
    simStartEnd nights day n 0 = .ok (s, d) → dayObsMjd s = day

/-- **C68**, refutation: the day before an almanac of two nights. -/
theorem starts_on_day_false : ¬ StartsOnDay ℚ := by
  intro h
  have := h [⟨60000 + 9 / 10, 60001 - 5 / 100, 60001 + 4 / 10⟩, ⟨60001 + 9 / 10, 60002 - 5 / 100, 60002 + 4 / 10⟩]
    59999 1 (60002 - 5 / 100) (45 / 100) (by decide +kernel)
  revert this
  decide +kernel

end Times

/-! ## C65 -/

/-- Chronological order. -/
def Date.le (a b : Date) : Prop :=
  a.year < b.year ∨ (a.year = b.year ∧ (a.month < b.month ∨ (a.month = b.month ∧ a.day ≤ b.day)))

theorem strLe_cons {a b : Char} {s t : List Char} :
    strLe (a :: s) (b :: t) = true ↔ a.toNat < b.toNat ∨ (a.toNat = b.toNat ∧ strLe s t = true) := by
  simp [strLe]

theorem strLe_pad2 (m n : Nat) (hm : m < 100) (hn : n < 100) (s t : List Char) :
    strLe (pad2 m ++ s) (pad2 n ++ t) = true ↔ m < n ∨ (m = n ∧ strLe s t = true) := by
  simp only [pad2, List.cons_append, List.nil_append, strLe_cons, chr_toNat (Nat.mod_lt _ (by decide : 0 < 10))]
  generalize strLe s t = x
  constructor
  · rintro (h | ⟨h, h' | ⟨h', h''⟩⟩)
    · left; omega
    · left; omega
    · right; exact ⟨by omega, h''⟩
  · rintro (h | ⟨h, h'⟩)
    · omega
    · subst h; right; exact ⟨rfl, Or.inr ⟨rfl, h'⟩⟩

theorem pad4_eq (n : Nat) (s : List Char) : pad4 n ++ s = pad2 (n / 100) ++ (pad2 (n % 100) ++ s) := by
  have e1 : n / 100 / 10 % 10 = n / 1000 % 10 := by omega
  have e2 : n % 100 / 10 % 10 = n / 10 % 10 := by omega
  have e3 : n % 100 % 10 = n % 10 := by omega
  simp only [pad4, pad2, e1, e2, e3, List.cons_append, List.nil_append]

theorem strLe_pad4 (m n : Nat) (hm : m < 10000) (hn : n < 10000) (s t : List Char) :
    strLe (pad4 m ++ s) (pad4 n ++ t) = true ↔ m < n ∨ (m = n ∧ strLe s t = true) := by
  rw [pad4_eq, pad4_eq, strLe_pad2 _ _ (by omega) (by omega), strLe_pad2 _ _ (by omega) (by omega)]
  generalize strLe s t = x
  constructor
  · rintro (h | ⟨h, h' | ⟨h', h''⟩⟩)
    · left; omega
    · left; omega
    · right; exact ⟨by omega, h''⟩
  · rintro (h | ⟨h, h'⟩)
    · omega
    · subst h; right; exact ⟨rfl, Or.inr ⟨rfl, h'⟩⟩

/-- **C65.** ISO strings of dates compare like the dates. -/
theorem iso_le_iff (a b : Date) (ha : Valid a) (hb : Valid b) : strLe (iso a) (iso b) = true ↔ a.le b := by
  have hda := daysIn_le a.year a.month
  have hdb := daysIn_le b.year b.month
  obtain ⟨a1, a2, a3, a4, a5, a6⟩ := ha
  obtain ⟨b1, b2, b3, b4, b5, b6⟩ := hb
  have hlast : strLe (pad2 a.day) (pad2 b.day) = true ↔ a.day ≤ b.day := by
    have := strLe_pad2 a.day b.day (by omega) (by omega) [] []
    simp only [List.append_nil] at this
    rw [this]
    simp only [strLe, and_true]
    omega
  unfold iso Date.le
  rw [strLe_pad4 _ _ (by omega) (by omega), strLe_cons, strLe_pad2 _ _ (by omega) (by omega), strLe_cons, hlast]
  simp

section Nights
variable {K : Type*} [Field K] [LinearOrder K] [FloorRing K]

/-- **C65.** With dates as ISO strings, the visits returned are exactly those whose day
of observation lies in the requested range, in order. -/
theorem on_nights_exact (cal : Int → Date) (first last : Date) (hf : Valid first) (hl : Valid last) (visits : List K)
    (hc : ∀ t ∈ visits, Valid (cal (dayObsMjd t))) :
    (onNights cal (iso first) (iso last) visits).Sublist visits ∧
    ∀ t ∈ visits, t ∈ onNights cal (iso first) (iso last) visits ↔
      first.le (cal (dayObsMjd t)) ∧ (cal (dayObsMjd t)).le last := by
  refine ⟨List.filter_sublist, ?_⟩
  intro t ht
  unfold onNights
  simp only [List.mem_filter, Bool.and_eq_true, iso_le_iff _ _ hf (hc t ht), iso_le_iff _ _ (hc t ht) hl]
  exact ⟨fun h => h.2, fun h => ⟨ht, h⟩⟩

/-- **C65.** A first date without dashes (accepted when looking for the simulation)
selects no visit of that year or earlier, whatever month and day. -/
theorem compact_selects_nothing (cal : Int → Date) (first : Date) (last : List Char) (hf : Valid first) (visits : List K)
    (hc : ∀ t ∈ visits, Valid (cal (dayObsMjd t)) ∧ (cal (dayObsMjd t)).year ≤ first.year) :
    onNights cal (compact first) last visits = [] := by
  unfold onNights
  rw [List.filter_eq_nil_iff]
  intro t ht
  obtain ⟨hv, hy⟩ := hc t ht
  obtain ⟨a1, a2, -⟩ := hf
  obtain ⟨b1, b2, -⟩ := hv
  have : ¬ strLe (compact first) (iso (cal (dayObsMjd t))) = true := by
    unfold compact iso
    rw [strLe_pad4 _ _ (by omega) (by omega)]
    rintro (h | ⟨-, h⟩)
    · omega
    · simp only [pad2, List.cons_append, strLe_cons, chr_toNat (Nat.mod_lt _ (by decide : 0 < 10))] at h
      have : '-'.toNat = 45 := rfl
      omega
  simp [this]

end Nights

example : strLe "2025-03-26".toList "2025-04-01".toList = true ∧ strLe "20250326".toList "2025-04-01".toList = false := by
  decide

/-! ## C66 -/

/-- No other stacker adds the day-of-observation column. -/
def Distinct (l : List Stk) : Prop := ∀ s ∈ l, s ≠ .dayObsIso → colOf s ≠ "day_obs_iso8601"

theorem fetchedCols_plain (l : List Stk) (h : Distinct l) (hn : Stk.dayObsIso ∉ l) : fetchedCols l = l.map colOf := by
  unfold fetchedCols
  rw [if_neg hn, List.map_append, List.filter_append]
  have h1 : (l.map colOf).filter (fun c => decide (c ≠ "day_obs_iso8601")) = l.map colOf := by
    rw [List.filter_eq_self]
    intro c hc
    obtain ⟨s, hs, rfl⟩ := List.mem_map.mp hc
    simpa using h s hs (by rintro rfl; exact hn hs)
  rw [h1]
  simp [colOf]

/-- **C66**, what holds: if the caller passes no dictionary and no list (or one that asks
for the column), repeating the call gives the same columns, and the arguments are left
alone. -/
theorem fetch_repeat_partial (isDb : Bool) (a : FetchArgs) (hk : a.kw = none)
    (hs : a.stackers.items = [] ∨ Stk.dayObsIso ∈ a.stackers.items) :
    fetchCols isDb a = none ∨ ∃ cols, fetchCols isDb a = some (cols, a) := by
  obtain ⟨st, kw⟩ := a
  simp only at hk hs
  subst hk
  unfold fetchCols
  by_cases he : st.items = []
  · right
    simp only [he, if_true, setKw]
    exact ⟨_, rfl⟩
  · simp only [he, if_false]
    cases st with
    | tuple l => left; rfl
    | list l =>
      right
      have : Stk.dayObsIso ∈ l := by
        rcases hs with h | h
        · exact absurd h he
        · exact h
      simp only [withIso, if_pos this, setKw]
      exact ⟨_, rfl⟩

/-- **C66.** A list of stackers of the caller gets another stacker appended, and the
next call with it returns another column. -/
theorem fetch_repeat_differs (isDb : Bool) (l : List Stk) (kw : Option (Option (List Stk))) (hd : Distinct l)
    (hn : Stk.dayObsIso ∉ l) (hne : l ≠ []) :
    ∃ a', fetchCols isDb ⟨.list l, kw⟩ = some (l.map colOf, a') ∧ a'.stackers = .list (l ++ [.dayObsIso]) ∧
      ∃ a'', fetchCols isDb a' = some (l.map colOf ++ ["day_obs_iso8601"], a'') := by
  have hi : (StkArg.list l).items = l := rfl
  refine ⟨_, by simp only [fetchCols, hi, hne, if_false, fetchedCols_plain l hd hn]; rfl, by simp [withIso, hn], ?_⟩
  have h2 : (StkArg.list (withIso l)).items ≠ [] := by simp [StkArg.items, withIso, hn]
  refine ⟨⟨.list (withIso (withIso l)), setKw isDb (setKw isDb kw (withIso l)) (withIso (withIso l))⟩, ?_⟩
  simp only [fetchCols, h2, if_false]
  simp [fetchedCols, withIso, hn, colOf]

/-- **C66.** The same happens through the dictionary of keyword arguments, even if it
says nothing about stackers. -/
theorem fetch_repeat_differs_kw (e : Option (List Stk)) (he : ∀ l, e = some l → Distinct l ∧ Stk.dayObsIso ∉ l) :
    ∃ a', fetchCols true ⟨.tuple [], some e⟩ = some ((e.getD []).map colOf, a') ∧ a' ≠ ⟨.tuple [], some e⟩ ∧
      ∃ a'', fetchCols true a' = some ((e.getD []).map colOf ++ ["day_obs_iso8601"], a'') := by
  cases e with
  | none =>
    exact ⟨⟨.tuple [], some (some [.dayObsIso])⟩, by decide, by decide,
      ⟨.tuple [], some (some [.dayObsIso])⟩, by decide⟩
  | some l =>
    obtain ⟨hd, hn⟩ := he l rfl
    refine ⟨⟨.tuple [], some (some (withIso l))⟩, ?_, ?_, ⟨.tuple [], some (some (withIso (withIso l)))⟩, ?_⟩
    · simp [fetchCols, StkArg.items, fetchedCols_plain l hd hn]
    · simp [withIso, hn]
    · simp [fetchCols, StkArg.items, withIso, hn, fetchedCols, colOf]

/-- **C66.** A non-empty tuple, a sequence as documented, always fails. -/
theorem fetch_tuple_fails (isDb : Bool) (s : Stk) (l : List Stk) (kw : Option (Option (List Stk))) :
    fetchCols isDb ⟨.tuple (s :: l), kw⟩ = none := by
  simp [fetchCols, StkArg.items]

/-! ## C67 -/

section Find
variable {U : Type*} [DecidableEq U]

open Archive in
/-- **C67.** For indexes that list under each day the simulations whose range contains
it: the simulation returned is eligible and covers every night of the request, no
eligible simulation that does is newer, and none is returned only if there is none.
`span` gives the first and last simulated day. -/
theorem find_latest_covers (span : U → Int × Int) (index : Int → List (Prenight U × Int)) (enum : List U → List U)
    (henum : ∀ l u, u ∈ enum l ↔ u ∈ l) (first last : Int) (hfl : first ≤ last) (tags : List String) (maxAge : Int)
    (hidx : ∀ d e, e ∈ index d → (span e.1.uuid).1 ≤ d ∧ d ≤ (span e.1.uuid).2)
    (hidx' : ∀ d d' e, e ∈ index d → (span e.1.uuid).1 ≤ d' → d' ≤ (span e.1.uuid).2 →
      ∃ e' ∈ index d', e'.1.uuid = e.1.uuid) :
    match findLatest index enum first last tags maxAge with
    | some b => (∀ d, first ≤ d → d ≤ last → (span b.uuid).1 ≤ d ∧ d ≤ (span b.uuid).2) ∧
        (∃ now, (b, now) ∈ index first ∧ Eligible tags maxAge (b, now)) ∧
        (∀ e ∈ index first, last ≤ (span e.1.uuid).2 → Eligible tags maxAge e → e.1.created ≤ b.created)
    | none => ∀ e ∈ index first, last ≤ (span e.1.uuid).2 → ¬ Eligible tags maxAge e := by
  set rows := (enum (if first ≠ last then
      ((index first).map (fun e => e.1.uuid)).filter (fun u => decide (u ∈ (index last).map (fun e => e.1.uuid)))
    else (index first).map (fun e => e.1.uuid))).flatMap
      (fun u => (index first).filter (fun e => decide (e.1.uuid = u))) with hrows
  have hfind : findLatest index enum first last tags maxAge = selectLatest tags maxAge rows := rfl
  have hmem : ∀ e, e ∈ rows ↔ e ∈ index first ∧ last ≤ (span e.1.uuid).2 := by
    intro e
    rw [hrows, List.mem_flatMap]
    constructor
    · rintro ⟨u, hu, he⟩
      obtain ⟨he1, he2⟩ := List.mem_filter.mp he
      have he2 : e.1.uuid = u := by simpa using he2
      refine ⟨he1, ?_⟩
      rw [henum] at hu
      split at hu
      · obtain ⟨_, hu2⟩ := List.mem_filter.mp hu
        have hu2 : u ∈ (index last).map (fun e => e.1.uuid) := by simpa using hu2
        obtain ⟨e', he', hu'⟩ := List.mem_map.mp hu2
        have := (hidx last e' he').2
        rw [hu', ← he2] at this
        exact this
      · rename_i hh
        have : first = last := by simpa using hh
        rw [← this]
        exact (hidx first e he1).2
    · rintro ⟨he, hl⟩
      refine ⟨e.1.uuid, ?_, List.mem_filter.mpr ⟨he, by simp⟩⟩
      rw [henum]
      split
      · refine List.mem_filter.mpr ⟨List.mem_map_of_mem he, ?_⟩
        have h1 := (hidx first e he).1
        obtain ⟨e', he', hu⟩ := hidx' first last e he (by omega) hl
        have : e.1.uuid ∈ (index last).map (fun e => e.1.uuid) := by
          rw [← hu]; exact List.mem_map_of_mem he'
        simpa using this
      · exact List.mem_map_of_mem he
  rw [hfind]
  have hs := select_latest tags maxAge rows
  cases hb : selectLatest tags maxAge rows with
  | none =>
    rw [hb] at hs
    intro e he hl
    exact hs e ((hmem e).mpr ⟨he, hl⟩)
  | some b =>
    rw [hb] at hs
    obtain ⟨l1, now, l2, hr, hel, h1, h2⟩ := hs
    have hbm : (b, now) ∈ rows := by rw [hr]; simp
    obtain ⟨hb1, hb2⟩ := (hmem _).mp hbm
    refine ⟨?_, ⟨now, hb1, hel⟩, ?_⟩
    · intro d hd1 hd2
      have := (hidx first _ hb1).1
      exact ⟨by simp only at this; omega, by simp only at hb2; omega⟩
    · intro e he hl hel'
      have hm := (hmem e).mpr ⟨he, hl⟩
      rw [hr] at hm
      rcases List.mem_append.mp hm with h | h
      · exact h1 e h hel'
      · rcases List.mem_cons.mp h with h | h
        · rw [h]
        · exact le_of_lt (h2 e h hel')

/-- Two simulations, only the older one reaches the second night. -/
example : findLatest (fun d => if d = 1 then [(⟨7, ["ideal"], 5⟩, 100), (⟨8, ["ideal"], 9⟩, 100)]
    else [((⟨7, ["ideal"], 5⟩ : Archive.Prenight Nat), 100)]) id 1 2 ["ideal"] 2 = some ⟨7, ["ideal"], 5⟩ := by decide

end Find

end Verif.Dates
