import Verif.Model.SedT
import Verif.Props.Transient
import Mathlib.Tactic.Linarith
import Mathlib.Tactic.Ring
import Mathlib.Tactic.FieldSimp
import Mathlib.Tactic.NormNum

/-!
# Properties of the metric for transients with a table of spectra
-/

namespace Verif.SedT

section
variable {K : Type*} [Field K] [LinearOrder K]

/-! ## Start and length of the survey -/

private theorem ends_some (ts : List K) (h : ts ≠ []) : ∃ a b, ends ts = some (a, b) ∧ ts.min? = some a ∧ ts.max? = some b := by
  cases ha : ts.min? with
  | none => exact absurd (List.min?_eq_none_iff.mp ha) h
  | some a =>
    cases hb : ts.max? with
    | none => exact absurd (List.max?_eq_none_iff.mp hb) h
    | some b => exact ⟨a, b, by simp [ends, ha, hb], rfl, rfl⟩

/-- A start that is set, by the user or by an earlier point, stays for all points. -/
theorem setupAll_start (st : State K) (s : K) (h : st.start = some s) (points : List (List K)) : (setupAll st points).start = some s := by
  unfold setupAll
  induction points generalizing st with
  | nil => exact h
  | cons ts rest ih =>
    rw [List.foldl_cons]
    apply ih
    unfold setup
    split
    · exact h
    · simp [h]

/-- Without one the start at every point is the first time of the first point. -/
theorem setupAll_first (y : K) (ts : List K) (hts : ts ≠ []) (points : List (List K)) :
    (setupAll ⟨none, y⟩ (ts :: points)).start = ts.min? := by
  obtain ⟨a, b, he, ha, _⟩ := ends_some ts hts
  unfold setupAll
  rw [List.foldl_cons, ha]
  exact setupAll_start _ a (by simp [setup, he]) points

/-- So it is not the first time of each point. -/
theorem start_documented_false : ¬ ∀ (points : List (List ℚ)) (ts : List ℚ), ts ≠ [] →
    (setupAll ⟨none, 10⟩ (points ++ [ts])).start = ts.min? := by
  intro h
  have := h [[5, 7]] [100] (by simp)
  exact absurd this (by decide +kernel)

theorem start_documented_partial (y : K) (ts : List K) (hts : ts ≠ []) : (setupAll ⟨none, y⟩ [ts]).start = ts.min? :=
  setupAll_first y ts hts []

variable [IsStrictOrderedRing K]

/-- The length of the survey is the longest of what was given and the spans of all points so
far, in years. -/
theorem setupAll_years (st : State K) (points : List (List K)) :
    (∀ ts ∈ points, ∀ x ∈ ts, ∀ y ∈ ts, (x - y) / 365.25 ≤ (setupAll st points).years) ∧ st.years ≤ (setupAll st points).years ∧
      ((setupAll st points).years = st.years ∨ ∃ ts ∈ points, ∃ x ∈ ts, ∃ y ∈ ts, (setupAll st points).years = (x - y) / 365.25) := by
  have hc : (36525 / 100 : K) = 365.25 := by norm_num
  have hp : (0 : K) < 365.25 := by norm_num
  unfold setupAll
  induction points generalizing st with
  | nil => simp
  | cons ts rest ih =>
    rw [List.foldl_cons]
    obtain ⟨h1, h2, h3⟩ := ih (setup st ts)
    by_cases hts : ts = []
    · subst hts
      have e : setup st [] = st := by simp [setup, ends]
      rw [e] at h1 h2 h3 ⊢
      refine ⟨?_, h2, ?_⟩
      · intro us hus
        rcases List.mem_cons.mp hus with rfl | hm
        · simp
        · exact h1 us hm
      · rcases h3 with h3 | ⟨us, hu, hrest⟩
        · exact Or.inl h3
        · exact Or.inr ⟨us, List.mem_cons_of_mem _ hu, hrest⟩
    · obtain ⟨a, b, he, ha, hb⟩ := ends_some ts hts
      obtain ⟨ha1, ha2⟩ := List.min?_eq_some_iff.mp ha
      obtain ⟨hb1, hb2⟩ := List.max?_eq_some_iff.mp hb
      have e : (setup st ts).years = max ((b - a) / 365.25) st.years := by simp only [setup, he, hc]
      rw [e] at h2 h3
      refine ⟨?_, le_trans (le_max_right _ _) h2, ?_⟩
      · intro us hus
        rcases List.mem_cons.mp hus with rfl | hm
        · intro x hx y hy
          refine le_trans ?_ (le_trans (le_max_left _ _) h2)
          rw [div_le_div_iff_of_pos_right hp]
          have := hb2 x hx
          have := ha2 y hy
          linarith
        · exact h1 us hm
      · rcases h3 with h3 | ⟨us, hu, hrest⟩
        · rcases max_choice ((b - a) / 365.25) st.years with hm | hm
          · rw [hm] at h3
            exact Or.inr ⟨ts, by simp, b, hb1, a, ha1, h3⟩
          · rw [hm] at h3
            exact Or.inl h3
        · exact Or.inr ⟨us, List.mem_cons_of_mem _ hu, hrest⟩

example : (setupAll ⟨none, (0 : ℚ)⟩ [[5, 7, 3], [0, 1]]).start = some 3 := by decide +kernel

variable [FloorRing K]

/-! ## Transients and phases -/

private theorem fmod_bounds (x y : K) (hy : 0 < y) : 0 ≤ fmod x y ∧ fmod x y < y := by
  unfold fmod
  have h1 := Int.floor_le (x / y)
  have h2 := Int.lt_floor_add_one (x / y)
  rw [le_div_iff₀ hy] at h1
  rw [div_lt_iff₀ hy] at h2
  constructor <;> nlinarith

/-- The phase is within the duration. -/
theorem epoch_range (p : Params K) (hd : 0 < p.dur) (start shift : K) (v : Visit K) : 0 ≤ epoch p start shift v ∧ epoch p start shift v < p.dur :=
  fmod_bounds _ _ hd

/-- The transients are numbered from zero in the first phase, wherever the survey starts. -/
theorem ident_zero (p : Params K) (hd : 0 < p.dur) (start a : K) (vs : List (Visit K)) (ha : (vs.map Visit.mjd).min? = some a) :
    (∀ v ∈ vs, 0 ≤ ident p start (idStart p start a) v) ∧ ∃ v ∈ vs, ident p start (idStart p start a) v = 0 := by
  obtain ⟨h1, h2⟩ := List.min?_eq_some_iff.mp ha
  constructor
  · intro v hv
    have hle := h2 v.mjd (List.mem_map.mpr ⟨v, hv, rfl⟩)
    have : ⌊(a - start) / p.dur⌋ ≤ ⌊(v.mjd - start) / p.dur⌋ := by
      apply Int.floor_le_floor
      rw [div_le_div_iff_of_pos_right hd]
      linarith
    unfold ident idStart
    omega
  · obtain ⟨v, hv, rfl⟩ := List.mem_map.mp h1
    exact ⟨v, hv, by unfold ident idStart; omega⟩

/-- The transient that a visit sees began at this time: spec. -/
def Began (p : Params K) (start shift : K) (v : Visit K) : K := v.mjd - epoch p start shift v

/-- Without a shift the visits with one number see the same transient, and the visits of
different numbers different ones. -/
theorem same_transient_partial (p : Params K) (hd : 0 < p.dur) (start : K) (base : Int) (v w : Visit K) :
    ident p start base v = ident p start base w ↔ Began p start 0 v = Began p start 0 w := by
  have e : ∀ v : Visit K, Began p start 0 v = start + p.dur * (⌊(v.mjd - start) / p.dur⌋ : K) := by
    intro v; unfold Began epoch fmod; rw [add_zero]; ring
  rw [e, e]
  unfold ident
  constructor
  · intro h
    have : ⌊(v.mjd - start) / p.dur⌋ = ⌊(w.mjd - start) / p.dur⌋ := by omega
    rw [this]
  · intro h
    have h2 := mul_left_cancel₀ hd.ne' (add_left_cancel h)
    have : ⌊(v.mjd - start) / p.dur⌋ = ⌊(w.mjd - start) / p.dur⌋ := by exact_mod_cast h2
    rw [this]

/-- With a shift they do not: visits of two transients are taken together. -/
theorem same_transient_false : ¬ ∀ (p : Params ℚ) (start shift : ℚ) (base : Int) (v w : Visit ℚ), 0 < p.dur → shift ∈ shifts p →
    ident p start base v = ident p start base w → Began p start shift v = Began p start shift w := by
  intro h
  have := h ⟨10, 0, 0, 0, none, 0, 2, []⟩ 0 5 0 ⟨1, 0, "r"⟩ ⟨7, 0, "r"⟩ (by norm_num) (by decide +kernel) (by decide +kernel)
  exact absurd this (by decide +kernel)

/-- For any two visits within one duration of one number that are on both sides of the end
of the shifted transient. -/
theorem same_transient_split (p : Params K) (hd : 0 < p.dur) (start shift : K) (v w : Visit K)
    (h : ⌊(v.mjd - start + shift) / p.dur⌋ < ⌊(w.mjd - start + shift) / p.dur⌋) : Began p start shift v < Began p start shift w := by
  have e : ∀ v : Visit K, Began p start shift v = start - shift + p.dur * (⌊(v.mjd - start + shift) / p.dur⌋ : K) := by
    intro v; unfold Began epoch fmod; ring
  rw [e, e]
  have : ((⌊(v.mjd - start + shift) / p.dur⌋ : ℤ) : K) < ((⌊(w.mjd - start + shift) / p.dur⌋ : ℤ) : K) := Int.cast_lt.mpr h
  nlinarith

/-- The shifts divide the duration evenly. -/
theorem shifts_spec (p : Params K) (hn : 0 < p.nPhases) (i : Nat) (h : i < p.nPhases) :
    (shifts p)[i]? = some ((i : K) / (p.nPhases : K) * p.dur) ∧ (shifts p).length = p.nPhases := by
  constructor
  · simp only [shifts, List.getElem?_map, List.getElem?_range h, Option.map_some]
    congr 1
    ring
  · simp [shifts]

/-! ## Thresholds -/

/-- A band without a threshold is an exception, not left out. -/
theorem mkRows_known (p : Params K) (snr : K → String → K → K) (start shift : K) (base : Int) (vs : List (Visit K)) :
    (∃ rows, mkRows p snr start shift base vs = .ok rows) ↔ ∀ v ∈ vs, ∃ l, p.detect.lookup v.band = some l := by
  unfold mkRows
  induction vs with
  | nil => exact ⟨fun _ v hv => absurd hv (by simp), fun _ => ⟨[], rfl⟩⟩
  | cons v vs ih =>
    rw [List.mapM_cons]
    cases hl : p.detect.lookup v.band with
    | none => simp [hl, bind, Except.bind]
    | some l =>
      simp only [hl, bind, Except.bind, List.forall_mem_cons, Option.some.injEq, exists_eq', true_and]
      rw [← ih]
      constructor
      · rintro ⟨rows, hr⟩
        split at hr
        · cases hr
        · rename_i out ho; exact ⟨out, ho⟩
      · rintro ⟨rows, hr⟩
        rw [hr]
        exact ⟨_, rfl⟩

/-- The rows have the phases, bands and detections of the visits in order. -/
theorem mkRows_get (p : Params K) (snr : K → String → K → K) (start shift : K) (base : Int) (vs : List (Visit K)) (rows : List (Row K))
    (h : mkRows p snr start shift base vs = .ok rows) :
    List.Forall₂ (fun v r => r.epoch = epoch p start shift v ∧ r.id = ident p start base v ∧ r.band = v.band ∧
      ∃ l, p.detect.lookup v.band = some l ∧ (r.above = true ↔ l ≤ snr (epoch p start shift v) v.band v.m5)) vs rows := by
  unfold mkRows at h
  induction vs generalizing rows with
  | nil => cases h; exact .nil
  | cons v vs ih =>
    rw [List.mapM_cons] at h
    cases hl : p.detect.lookup v.band with
    | none => simp [hl, bind, Except.bind] at h
    | some l =>
      simp only [hl, bind, Except.bind] at h
      split at h
      · cases h
      · rename_i out ho
        cases h
        exact .cons ⟨rfl, rfl, rfl, l, hl, by simp⟩ (ih out ho)

theorem thresholds_documented_false : ¬ ∀ (p : Params ℚ) (snr : ℚ → String → ℚ → ℚ) (vs : List (Visit ℚ)),
    ∃ rows, mkRows p snr 0 0 0 vs = .ok rows := by
  intro h
  have := (mkRows_known ⟨10, 0, 0, 0, none, 0, 1, [("r", 5)]⟩ (fun _ _ _ => 1) 0 0 0 [⟨1, 24, "g"⟩]).mp (h _ _ _)
  obtain ⟨l, hl⟩ := this ⟨1, 24, "g"⟩ (by simp)
  exact absurd hl (by simp [List.lookup])

/-! ## The criteria -/

/-- What is asked of a transient without a limit of the time between bands: spec. -/
def Criteria (p : Params K) (ab : List (Row K)) : Prop :=
  (∃ l : List (Row K), l.Sublist ab ∧ l.length = p.nPre ∧ ∀ r ∈ l, r.epoch < p.preTime) ∧
    (∀ k < p.nPer, ∃ r ∈ ab, (k : K) * p.dur / p.nPer ≤ r.epoch ∧ r.epoch < ((k : K) + 1) * p.dur / p.nPer) ∧
    ∃ bs : List String, bs.Nodup ∧ bs.length = p.nFilters ∧ ∀ b ∈ bs, ∃ r ∈ ab, r.band = b

private theorem distinct_iff {α : Type*} [DecidableEq α] (xs : List α) (n : Nat) :
    n ≤ xs.dedup.length ↔ ∃ bs : List α, bs.Nodup ∧ bs.length = n ∧ ∀ b ∈ bs, b ∈ xs := by
  constructor
  · intro h
    refine ⟨xs.dedup.take n, (List.take_sublist _ _).nodup (List.nodup_dedup _), by simp [h], ?_⟩
    intro b hb
    exact List.mem_dedup.mp (List.mem_of_mem_take hb)
  · rintro ⟨bs, hn, rfl, hb⟩
    rw [← List.card_toFinset, ← List.toFinset_card_of_nodup hn]
    apply Finset.card_le_card
    intro b hb'
    rw [List.mem_toFinset] at hb' ⊢
    exact hb b hb'

/-- A transient is detected if and only if its detections meet all criteria: enough before
the given time, one in each section of the light curve, and enough bands. With a limit of
the time between bands this is necessary. -/
theorem detected_spec (p : Params K) (hd : 0 < p.dur) (g : List (Row K)) (hg : ∀ r ∈ g, 0 ≤ r.epoch ∧ r.epoch < p.dur) :
    detected p g = true ↔ Criteria p (g.filter Row.above) ∧ inTime p (g.filter Row.above) = true := by
  set ab := g.filter Row.above with hab
  have hr : ∀ r ∈ ab, 0 ≤ r.epoch ∧ r.epoch < p.dur := fun r h => hg r (List.mem_filter.mp h).1
  have h1 : p.nPre ≤ ab.countP (fun r => decide (r.epoch < p.preTime)) ↔
      ∃ l : List (Row K), l.Sublist ab ∧ l.length = p.nPre ∧ ∀ r ∈ l, r.epoch < p.preTime := by
    rw [Transient.le_countP_iff]
    simp
  have h2 : p.nPer ≤ (ab.map (fun r => ⌊r.epoch / p.dur * (p.nPer : K)⌋)).dedup.length ↔
      ∀ k < p.nPer, ∃ r ∈ ab, (k : K) * p.dur / p.nPer ≤ r.epoch ∧ r.epoch < ((k : K) + 1) * p.dur / p.nPer := by
    rcases Nat.eq_zero_or_pos p.nPer with h0 | hp
    · simp [h0]
    · have hp' : (0 : K) < p.nPer := by exact_mod_cast hp
      rw [Transient.full_iff]
      · apply forall_congr'; intro k
        apply imp_congr_right; intro _
        rw [List.mem_map]
        apply exists_congr; intro r
        apply and_congr_right; intro _
        rw [Int.floor_eq_iff, Int.cast_natCast, div_le_iff₀ hp', lt_div_iff₀ hp', div_mul_eq_mul_div, le_div_iff₀ hd, div_lt_iff₀ hd]
      · intro x hx
        obtain ⟨r, hm, rfl⟩ := List.mem_map.mp hx
        obtain ⟨ha, hb⟩ := hr r hm
        constructor
        · apply Int.floor_nonneg.mpr
          exact mul_nonneg (div_nonneg ha hd.le) hp'.le
        · rw [Int.floor_lt, Int.cast_natCast]
          have : r.epoch / p.dur < 1 := by rw [div_lt_one hd]; exact hb
          nlinarith
  have h3 : p.nFilters ≤ (ab.map Row.band).dedup.length ↔ ∃ bs : List String, bs.Nodup ∧ bs.length = p.nFilters ∧ ∀ b ∈ bs, ∃ r ∈ ab, r.band = b := by
    rw [distinct_iff]
    simp [List.mem_map]
  unfold detected Criteria
  simp only [← hab]
  rw [← h1, ← h2, ← h3]
  split
  · constructor
    · intro h; cases h
    · rintro ⟨⟨h, _⟩, _⟩; omega
  · split
    · constructor
      · intro h; cases h
      · rintro ⟨⟨_, h, _⟩, _⟩; omega
    · split
      · constructor
        · intro h; cases h
        · rintro ⟨⟨_, _, h⟩, _⟩; omega
      · constructor
        · intro h; exact ⟨⟨by omega, by omega, by omega⟩, h⟩
        · intro h; exact h.2

/-- Detections in enough bands within the given time: spec. -/
def WithinTime (n : Nat) (ft : K) (ab : List (Row K)) : Prop :=
  ∃ l : List (Row K), l.Sublist ab ∧ (∀ a ∈ l, ∀ b ∈ l, b.epoch ≤ a.epoch + ft) ∧ n ≤ (l.map Row.band).dedup.length

private theorem sorted_prefix (ab : List (Row K)) (hs : ab.Pairwise (fun a b => a.epoch ≤ b.epoch)) (t : K) (j : Nat) (hj : j < ab.length) :
    j < ab.countP (fun x => decide (x.epoch ≤ t)) ↔ ab[j].epoch ≤ t := by
  induction ab generalizing j with
  | nil => simp at hj
  | cons a l ih =>
    obtain ⟨h1, h2⟩ := List.pairwise_cons.mp hs
    rw [List.countP_cons]
    by_cases ha : a.epoch ≤ t
    · simp only [ha, decide_true, if_true]
      cases j with
      | zero => simp [ha]
      | succ j =>
        rw [List.getElem_cons_succ]
        rw [← ih h2 j (by simpa using hj)]
        omega
    · have hz : l.countP (fun x => decide (x.epoch ≤ t)) = 0 := by
        rw [List.countP_eq_zero]
        intro x hx
        have := h1 x hx
        simp only [decide_eq_true_eq, not_le]
        exact lt_of_lt_of_le (not_le.mp ha) this
      simp only [ha, decide_false, hz]
      cases j with
      | zero => simp [ha]
      | succ j =>
        have := h1 _ (List.getElem_mem (by simpa using hj : j < l.length))
        simp only [List.getElem_cons_succ]
        constructor
        · intro h; simp at h
        · intro h; exact absurd (le_trans this h) ha

/-- What passes has detections in enough bands within the time, none of them the last. -/
theorem inTime_sound (p : Params K) (ft : K) (hft : p.filterTime = some ft) (hn : 1 < p.nFilters) (ab : List (Row K))
    (hs : ab.Pairwise (fun a b => a.epoch ≤ b.epoch)) (h : inTime p ab = true) : WithinTime p.nFilters ft ab.dropLast := by
  unfold inTime at h
  simp only [hft, if_pos hn, List.any_eq_true, List.mem_range] at h
  obtain ⟨i, hi, h⟩ := h
  rw [List.getElem?_eq_getElem hi] at h
  simp only [decide_eq_true_eq] at h
  set c := ab.countP (fun x => decide (x.epoch ≤ ab[i].epoch + ft)) with hc
  set e := (if c < ab.length - 1 then c else ab.length - 1) with he
  have hel : e ≤ ab.length - 1 := by rw [he]; split <;> omega
  have hec : e ≤ c := by rw [he]; split <;> omega
  refine ⟨(ab.take e).drop i, ?_, ?_, h⟩
  · refine (List.drop_sublist _ _).trans ?_
    rw [List.dropLast_eq_take]
    have : ab.take e = (ab.take (ab.length - 1)).take e := by rw [List.take_take, min_eq_left hel]
    rw [this]
    exact List.take_sublist _ _
  · intro a ha b hb
    obtain ⟨j, hj, rfl⟩ := List.mem_iff_getElem.mp ha
    obtain ⟨k, hk, rfl⟩ := List.mem_iff_getElem.mp hb
    simp only [List.length_drop, List.length_take] at hj hk
    rw [List.getElem_drop, List.getElem_take, List.getElem_drop, List.getElem_take]
    have hk2 := (sorted_prefix ab hs (ab[i].epoch + ft) (i + k) (by omega)).mp (by omega)
    have hij : ab[i].epoch ≤ ab[i + j].epoch := by
      rcases Nat.eq_zero_or_pos j with rfl | hp
      · simp
      · exact List.pairwise_iff_getElem.mp hs i (i + j) hi (by omega) (by omega)
    linarith

/-- If there are enough bands within the time without the last detection, it passes. -/
theorem inTime_partial (p : Params K) (ft : K) (hft : p.filterTime = some ft) (hn : 1 < p.nFilters) (ab : List (Row K))
    (hs : ab.Pairwise (fun a b => a.epoch ≤ b.epoch)) (h : WithinTime p.nFilters ft ab.dropLast) : inTime p ab = true := by
  obtain ⟨l, hl, ht, hd⟩ := h
  cases l with
  | nil => simp at hd; omega
  | cons r l =>
    have hsl : ab.dropLast.Pairwise (fun a b => a.epoch ≤ b.epoch) := hs.sublist (List.dropLast_sublist _)
    obtain ⟨f, hf⟩ := List.sublist_iff_exists_fin_orderEmbedding_get_eq.mp hl
    have hlen : ab.dropLast.length = ab.length - 1 := List.length_dropLast
    have hget : ∀ (k : Nat) (hk : k < ab.dropLast.length), ab.dropLast[k] = ab[k]'(by omega) := by
      intro k hk; rw [List.getElem_dropLast]
    set i0 : Fin (r :: l).length := ⟨0, by simp⟩ with hi0
    have hi : (f i0 : Nat) < ab.length := by have := (f i0).2; omega
    have hr : ab[(f i0 : Nat)] = r := by
      have := hf i0
      rw [List.get_eq_getElem, List.get_eq_getElem, hget] at this
      rw [← this]; rfl
    unfold inTime
    simp only [hft, if_pos hn, List.any_eq_true, List.mem_range]
    refine ⟨(f i0 : Nat), hi, ?_⟩
    rw [List.getElem?_eq_getElem hi]
    simp only [decide_eq_true_eq, hr]
    set c := ab.countP (fun x => decide (x.epoch ≤ r.epoch + ft)) with hc
    set e := (if c < ab.length - 1 then c else ab.length - 1) with he
    refine le_trans hd ?_
    rw [← List.card_toFinset, ← List.card_toFinset]
    apply Finset.card_le_card
    intro b hb
    rw [List.mem_toFinset] at hb ⊢
    obtain ⟨x, hx, rfl⟩ := List.mem_map.mp hb
    obtain ⟨k, hk, hxk⟩ := List.mem_iff_getElem.mp hx
    have hfk := hf ⟨k, hk⟩
    have hfl := (f ⟨k, hk⟩).2
    rw [List.get_eq_getElem, List.get_eq_getElem, hget] at hfk
    simp only at hfk
    rw [hxk] at hfk
    have hge : (f i0 : Nat) ≤ (f ⟨k, hk⟩ : Nat) := by
      have : i0 ≤ ⟨k, hk⟩ := Nat.zero_le _
      exact f.monotone this
    have hle := ht r (by simp) x hx
    have hlt : (f ⟨k, hk⟩ : Nat) < c := by
      rw [hc, sorted_prefix ab hs _ _ (by omega), ← hfk]
      exact hle
    have hlt2 : (f ⟨k, hk⟩ : Nat) < e := by rw [he]; split <;> omega
    refine List.mem_map.mpr ⟨x, ?_, rfl⟩
    rw [List.mem_iff_getElem]
    refine ⟨(f ⟨k, hk⟩ : Nat) - (f i0 : Nat), ?_, ?_⟩
    · simp only [List.length_drop, List.length_take]; omega
    · rw [List.getElem_drop, List.getElem_take]
      rw [hfk]
      congr 1
      omega

/-- With as many detections as bands it never passes, however close they are. -/
theorem inTime_never (p : Params K) (ft : K) (hft : p.filterTime = some ft) (hn : 1 < p.nFilters) (ab : List (Row K)) (h : ab.length ≤ p.nFilters) :
    inTime p ab = false := by
  unfold inTime
  simp only [hft, if_pos hn]
  rw [List.any_eq_false]
  intro i hi
  rw [List.mem_range] at hi
  rw [List.getElem?_eq_getElem hi]
  simp only [decide_eq_true_eq, not_le]
  set e := (if ab.countP (fun x => decide (x.epoch ≤ ab[i].epoch + ft)) < ab.length - 1 then ab.countP (fun x => decide (x.epoch ≤ ab[i].epoch + ft)) else ab.length - 1) with he
  have hel : e ≤ ab.length - 1 := by rw [he]; split <;> omega
  have := (List.dedup_sublist (((ab.take e).drop i).map Row.band)).length_le
  simp only [List.length_map, List.length_drop, List.length_take] at this
  omega

end

theorem inTime_documented_false : ¬ ∀ (p : Params ℚ) (ft : ℚ) (ab : List (Row ℚ)), p.filterTime = some ft → 1 < p.nFilters →
    ab.Pairwise (fun a b => a.epoch ≤ b.epoch) → WithinTime p.nFilters ft ab → inTime p ab = true := by
  intro h
  have := h ⟨100, 0, 0, 2, some 5, 0, 1, []⟩ 5 [⟨1, 0, "g", true⟩, ⟨2, 0, "r", true⟩] rfl (by decide) (by simp)
    ⟨[⟨1, 0, "g", true⟩, ⟨2, 0, "r", true⟩], List.Sublist.refl _, by simp; norm_num, by decide⟩
  exact absurd this (by decide +kernel)

example : detected (⟨100, 1, 30, 2, some 5, 2, 1, []⟩ : Params ℚ)
    [⟨1, 0, "g", true⟩, ⟨2, 0, "r", true⟩, ⟨3, 0, "i", false⟩, ⟨60, 0, "r", true⟩] = true := by decide +kernel

/-! ## The whole -/

section
variable {K : Type*} [Field K] [LinearOrder K] [IsStrictOrderedRing K] [FloorRing K]

/-- A visit as a row of its transient, whose number does not matter: spec. -/
def seen (p : Params K) (snr : K → String → K → K) (start shift : K) (v : Visit K) : Row K :=
  ⟨epoch p start shift v, 0, v.band, decide ((p.detect.lookup v.band).getD 0 ≤ snr (epoch p start shift v) v.band v.m5)⟩

/-- The number of transients whose visits meet the criteria of `detected_spec`, for one
shift: spec. -/
def Found (p : Params K) (snr : K → String → K → K) (start shift : K) (vs : List (Visit K)) : Nat :=
  (vs.map (fun v => ⌊(v.mjd - start) / p.dur⌋)).dedup.countP (fun m =>
    detected p ((vs.filter (fun v => ⌊(v.mjd - start) / p.dur⌋ == m)).map (seen p snr start shift)))

private theorem inTime_id (p : Params K) (ab : List (Row K)) (f : Row K → Int) :
    inTime p (ab.map (fun r => { r with id := f r })) = inTime p ab := by
  unfold inTime
  cases p.filterTime with
  | none => rfl
  | some ft =>
    simp only [List.length_map]
    split
    · congr 1
      funext i
      rw [List.getElem?_map]
      cases ab[i]? with
      | none => rfl
      | some r =>
        simp only [Option.map_some, List.countP_map, ← List.map_take, ← List.map_drop, List.map_map]
        rfl
    · rfl

private theorem detected_id (p : Params K) (g : List (Row K)) (f : Row K → Int) :
    detected p (g.map (fun r => { r with id := f r })) = detected p g := by
  have e : (g.map (fun r => { r with id := f r })).filter Row.above = (g.filter Row.above).map (fun r => { r with id := f r }) := by
    rw [List.filter_map]; rfl
  unfold detected
  simp only [e, inTime_id, List.countP_map, List.map_map]
  rfl

private theorem mkRows_eq (p : Params K) (snr : K → String → K → K) (start shift : K) (base : Int) (vs : List (Visit K))
    (hk : ∀ v ∈ vs, ∃ l, p.detect.lookup v.band = some l) :
    mkRows p snr start shift base vs = .ok (vs.map (fun v => { seen p snr start shift v with id := ident p start base v })) := by
  unfold mkRows
  induction vs with
  | nil => rfl
  | cons v vs ih =>
    obtain ⟨l, hl⟩ := hk v (by simp)
    rw [List.mapM_cons, ih (fun w hw => hk w (List.mem_cons_of_mem _ hw))]
    simp [hl, bind, Except.bind, pure, Except.pure, seen]

private theorem numDetected_eq (p : Params K) (snr : K → String → K → K) (start shift : K) (base : Int) (vs : List (Visit K)) :
    numDetected p (vs.map (fun v => { seen p snr start shift v with id := ident p start base v })) = Found p snr start shift vs := by
  unfold numDetected Found
  rw [List.map_map]
  have e : (vs.map (Row.id ∘ fun v => ({ seen p snr start shift v with id := ident p start base v } : Row K))) =
      (vs.map (fun v => ⌊(v.mjd - start) / p.dur⌋)).map (· + base) := by
    rw [List.map_map]; rfl
  rw [e, List.dedup_map_of_injective (add_left_injective base), List.countP_map]
  apply List.countP_congr
  intro m _
  simp only [Function.comp]
  have hg : (vs.map (fun v => ({ seen p snr start shift v with id := ident p start base v } : Row K))).filter (fun r => r.id == m + base) =
      ((vs.filter (fun v => ⌊(v.mjd - start) / p.dur⌋ == m)).map (seen p snr start shift)).map (fun r => { r with id := m + base }) := by
    rw [List.filter_map, List.map_map]
    have : ((fun r : Row K => r.id == m + base) ∘ fun v => ({ seen p snr start shift v with id := ident p start base v } : Row K)) =
        fun v => ⌊(v.mjd - start) / p.dur⌋ == m := by
      funext v
      simp only [Function.comp, ident]
      rw [Bool.eq_iff_iff]
      simp
    rw [this]
    apply List.map_congr_left
    intro v hv
    have := (List.mem_filter.mp hv).2
    simp only [beq_iff_eq] at this
    simp [ident, this, seen]
  rw [hg, detected_id]

/-- The result is the number of transients found, over all shifts; the start is that of the
state, and the visits need a threshold for each band. -/
theorem run_spec (p : Params K) (snr : K → String → K → K) (st : State K) (vs : List (Visit K)) (hv : vs ≠ [])
    (hk : ∀ v ∈ vs, ∃ l, p.detect.lookup v.band = some l) :
    ∃ s, (setup st (vs.map Visit.mjd)).start = some s ∧ (run p snr st vs).1 = setup st (vs.map Visit.mjd) ∧
      (run p snr st vs).2 = .ok ((shifts p).map (fun sh => Found p snr s sh vs)).sum := by
  obtain ⟨a, b, he, ha, _⟩ := ends_some (vs.map Visit.mjd) (by simpa using hv)
  refine ⟨st.start.getD a, by simp [setup, he], ?_⟩
  have hs : (setup st (vs.map Visit.mjd)).start = some (st.start.getD a) := by simp [setup, he]
  have hph : ∀ (ss : List K) (s : K) (base : Int), phases p snr s vs ss base = .ok ((ss.map (fun sh => Found p snr s sh vs)).sum) := by
    intro ss s
    induction ss with
    | nil => intro base; rfl
    | cons sh rest ih =>
      intro base
      rw [phases, mkRows_eq p snr s sh base vs hk]
      simp only [ih, numDetected_eq, List.map_cons, List.sum_cons]
  unfold run
  simp only [hs, ha, hph]
  exact ⟨trivial, trivial⟩

end

example : (match (run (⟨10, 1, 5, 1, none, 1, 2, [("r", 5)]⟩ : Params ℚ) (fun e _ _ => 10 - e) ⟨none, 10⟩
    [⟨100, 24, "r"⟩, ⟨108, 24, "r"⟩, ⟨111, 24, "r"⟩]).2 with | .ok n => some n | .error _ => none) = some 3 := by decide +kernel

end Verif.SedT
