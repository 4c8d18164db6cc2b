import Mathlib.Tactic.NormNum
import Mathlib.Tactic.Linarith
import Mathlib.Tactic.FieldSimp
import Mathlib.Tactic.Ring
import Verif.Lemmas.NumpyMore
import Verif.Props.Seasons
import Verif.Model.GalPlane

/-!
# C268-C271: metrics of the galactic plane
-/

namespace Verif.GalPlane

open Verif.Np Verif.Seasons

/-! ## C268: the footprint -/

/-- What is asked for: a visit in one of the filters, deep enough for its filter. -/
def Wanted (cut : String → ℝ) (filters : List String) (v : Visit) : Prop := v.band ∈ filters ∧ cut v.band ≤ v.m5

theorem foldl_pair (g : String → ℕ) (w : String → ℝ) (l : List String) (a : ℕ × ℝ) :
    l.foldl (fun (a : ℕ × ℝ) f => (a.1 + g f, a.2 + (g f : ℝ) * w f)) a = (a.1 + (l.map g).sum, a.2 + (l.map (fun f => (g f : ℝ) * w f)).sum) := by
  induction l generalizing a with
  | nil => simp
  | cons f l ih => simp only [List.foldl_cons, ih, List.map_cons, List.sum_cons, add_assoc]

open Classical in
/-- Summing over filters and then over their visits is summing over all visits. -/
theorem sum_filters (cut : String → ℝ) (val : Visit → ℝ) (filters : List String) (hnd : filters.Nodup) (vs : List Visit) :
    (filters.map (fun f => ((deep cut vs f).map val).sum)).sum = ((vs.filter (fun v => decide (Wanted cut filters v))).map val).sum := by
  induction vs with
  | nil => simp [deep]
  | cons v vs ih =>
    have h1 : ∀ f, ((deep cut (v :: vs) f).map val).sum = (if v.band = f ∧ cut f ≤ v.m5 then val v else 0) + ((deep cut vs f).map val).sum := by
      intro f
      by_cases h : v.band = f ∧ cut f ≤ v.m5
      · simp [deep, h.1, h.2]
      · rw [if_neg h, zero_add]
        have : (decide (v.band = f) && decide (cut f ≤ v.m5)) = false := by simpa using fun a => not_le.mp (fun b => h ⟨a, b⟩)
        simp only [deep, List.filter_cons, this, Bool.false_eq_true, if_false]
    have h2 : (filters.map (fun f => ((deep cut (v :: vs) f).map val).sum)).sum =
        (filters.map (fun f => if v.band = f ∧ cut f ≤ v.m5 then val v else 0)).sum + (filters.map (fun f => ((deep cut vs f).map val).sum)).sum := by
      simp only [h1]
      exact List.sum_map_add
    have h3 : ∀ l : List String, l.Nodup → (l.map (fun f => if v.band = f ∧ cut f ≤ v.m5 then val v else 0)).sum = if Wanted cut l v then val v else 0 := by
      intro l
      induction l with
      | nil => intro _; simp [Wanted]
      | cons f l ihl =>
        intro hl
        obtain ⟨hf, hl⟩ := List.nodup_cons.mp hl
        rw [List.map_cons, List.sum_cons, ihl hl]
        by_cases hb : v.band = f
        · subst hb
          have h4 : ¬ Wanted cut l v := fun h => hf h.1
          simp [Wanted, hf]
        · have h4 : Wanted cut (f :: l) v ↔ Wanted cut l v := by simp [Wanted, hb]
          simp [hb, h4]
    rw [h2, ih, h3 filters hnd, List.filter_cons]
    by_cases hw : Wanted cut filters v
    · simp [hw]
    · simp [hw]

/-- A point of the sky is left out exactly if its priority does not exceed the threshold of the science map. -/
theorem footprint_none (science : String) (cut prio : String → ℝ) (total : ℝ) (filters : List String) (vs : List Visit) :
    footprint science cut prio total filters vs = none ↔ total ≤ threshold science := by
  unfold footprint
  by_cases h : total ≤ threshold science <;> simp [h]

/-- The thresholds: a point is left out of the map of the plane exactly if its priority is 0.4 or less, of the combined map if it is
0.001 or less, and of the other maps if it has no priority. -/
theorem footprint_thresholds (science : String) (cut prio : String → ℝ) (total : ℝ) (filters : List String) (vs : List Visit) :
    (science = "galactic_plane" → (footprint science cut prio total filters vs = none ↔ total ≤ 2 / 5)) ∧
    (science = "combined_map" → (footprint science cut prio total filters vs = none ↔ total ≤ 1 / 1000)) ∧
    (science ≠ "galactic_plane" → science ≠ "combined_map" → (footprint science cut prio total filters vs = none ↔ total ≤ 0)) := by
  rw [footprint_none]
  unfold threshold
  refine ⟨?_, ?_, ?_⟩
  · rintro rfl
    rw [if_pos rfl]
    norm_num
  · rintro rfl
    rw [if_neg (by decide), if_pos rfl]
    norm_num
  · intro h1 h2
    rw [if_neg h1, if_neg h2]

open Classical in
/-- The number of visits wanted, and the sum of the priorities of their filters. -/
theorem footprint_spec (science : String) (cut prio : String → ℝ) (total : ℝ) (filters : List String) (hnd : filters.Nodup) (vs : List Visit) (ht : threshold science < total) :
    ∃ r, footprint science cut prio total filters vs = some r ∧ r.n = (vs.filter (fun v => decide (Wanted cut filters v))).length ∧
      r.nPrio = ((vs.filter (fun v => decide (Wanted cut filters v))).map (fun v => prio v.band)).sum ∧ r.prio = total := by
  refine ⟨_, by unfold footprint; rw [if_neg (not_le.mpr ht)], ?_, ?_, rfl⟩
  · have := foldl_pair (fun f => (deep cut vs f).length) prio filters (0, 0)
    simp only [this, zero_add]
    have h := sum_filters cut (fun _ => 1) filters hnd vs
    simp only [List.map_const', List.sum_replicate, nsmul_eq_mul, mul_one] at h
    rw [← Nat.cast_inj (R := ℝ), ← h, Nat.cast_list_sum, List.map_map]
    rfl
  · have := foldl_pair (fun f => (deep cut vs f).length) prio filters (0, 0)
    simp only [this, zero_add]
    rw [← sum_filters cut (fun v => prio v.band) filters hnd vs]
    congr 1
    apply List.map_congr_left
    intro f _
    have : (deep cut vs f).map (fun v => prio v.band) = (deep cut vs f).map (fun _ => prio f) := by
      apply List.map_congr_left
      intro v hv
      have := (List.mem_filter.mp hv).2
      simp only [Bool.and_eq_true, decide_eq_true_eq] at this
      rw [this.1]
    rw [this]
    simp

/-- The function of a time scale gives the priority exactly if the point has the visits that the time scale asks for
in ten years: two in each interval `tau` (in days) of the part of the year in which it can be seen. -/
theorem footReduce_spec (tau : ℝ) (ht : 0 < tau) (r : Foot) :
    (3652.5 * (13 / 24) * 2 ≤ (r.n : ℝ) * tau → footReduce tau r = r.prio) ∧ ((r.n : ℝ) * tau < 3652.5 * (13 / 24) * 2 → footReduce tau r = 0) := by
  have h : nvisits 10 tau ≤ (r.n : ℝ) ↔ 3652.5 * (13 / 24) * 2 ≤ (r.n : ℝ) * tau := by
    unfold nvisits
    rw [div_le_iff₀ ht]
    norm_num
  unfold footReduce
  constructor
  · intro h1
    rw [if_pos (h.mpr h1)]
  · intro h1
    rw [if_neg (fun h2 => absurd (h.mp h2) (not_le.mpr h1))]

/-- A longer time scale is never harder to reach. -/
theorem footReduce_mono (tau tau' : ℝ) (ht : 0 < tau) (hle : tau ≤ tau') (r : Foot) (hp : 0 ≤ r.prio) : footReduce tau r ≤ footReduce tau' r := by
  obtain ⟨h1, h2⟩ := footReduce_spec tau ht r
  obtain ⟨h3, h4⟩ := footReduce_spec tau' (ht.trans_le hle) r
  rcases lt_or_ge ((r.n : ℝ) * tau) (3652.5 * (13 / 24) * 2) with h | h
  · rw [h2 h]
    rcases lt_or_ge ((r.n : ℝ) * tau') (3652.5 * (13 / 24) * 2) with h' | h'
    · rw [h4 h']
    · rw [h3 h']
      exact hp
  · rw [h1 h, h3 (h.trans (mul_le_mul_of_nonneg_left hle (Nat.cast_nonneg _)))]

/-- More visits never lower it. -/
theorem footReduce_more (tau : ℝ) (r r' : Foot) (hn : r.n ≤ r'.n) (hp : r.prio = r'.prio) (h0 : 0 ≤ r.prio) : footReduce tau r ≤ footReduce tau r' := by
  have hc : (r.n : ℝ) ≤ (r'.n : ℝ) := Nat.cast_le.mpr hn
  unfold footReduce
  by_cases h : nvisits 10 tau ≤ (r.n : ℝ)
  · rw [if_pos h, if_pos (h.trans hc), hp]
  · rw [if_neg h]
    split
    · rw [← hp]; exact h0
    · exact le_rfl

example : footReduce 2 ⟨2000, 1500, 0.5⟩ = 0.5 ∧ footReduce 1 ⟨2000, 1500, 0.5⟩ = 0 :=
  ⟨(footReduce_spec 2 (by norm_num) _).1 (by norm_num), (footReduce_spec 1 (by norm_num) _).2 (by norm_num)⟩

example : footprint "combined_map" (fun _ => 22) (fun _ => 0.5) 0.001 ["g"] [⟨0, "g", 23, 30⟩] = none :=
  (footprint_none _ _ _ _ _ _).mpr (by unfold threshold; rw [if_neg (by decide), if_pos rfl])

/-! ## C269: exposure time per filter -/

theorem time_some (science : String) (cut prio : String → ℝ) (total : ℝ) (filters : List String) (vs : List Visit) (ht : threshold science < total) :
    timePerFilter science cut prio total filters vs = some (filters.map (fun f => (f,
      if (filters.map (expTime cut vs)).sum = 0 then some 0
      else if prio f / total > 0 then some (expTime cut vs f / (filters.map (expTime cut vs)).sum / (prio f / total)) else none))) := by
  unfold timePerFilter
  rw [if_neg (not_le.mpr ht)]

open Classical in
/-- The exposure time of the visits of the filters that are deep enough. -/
noncomputable def allTime (cut : String → ℝ) (filters : List String) (vs : List Visit) : ℝ := ((vs.filter (fun v => decide (Wanted cut filters v))).map Visit.exp).sum

open Classical in
/-- The exposure time of the visits of one filter that are deep enough. -/
noncomputable def bandTime (cut : String → ℝ) (f : String) (vs : List Visit) : ℝ := ((vs.filter (fun v => decide (v.band = f ∧ cut f ≤ v.m5))).map Visit.exp).sum

theorem expTime_eq (cut : String → ℝ) (vs : List Visit) (f : String) : expTime cut vs f = bandTime cut f vs := by
  unfold expTime bandTime deep
  congr 2
  apply List.filter_congr
  intro v _
  rw [← Bool.decide_and]

theorem allTime_eq (cut : String → ℝ) (filters : List String) (hnd : filters.Nodup) (vs : List Visit) : (filters.map (expTime cut vs)).sum = allTime cut filters vs :=
  sum_filters cut Visit.exp filters hnd vs

/-- The value of a filter is its share of the exposure time over its share of the priority. -/
theorem time_spec (science : String) (cut prio : String → ℝ) (total : ℝ) (filters : List String) (hnd : filters.Nodup) (vs : List Visit) (ht : threshold science < total)
    (hall : allTime cut filters vs ≠ 0) (f : String) (hf : f ∈ filters) (hp : 0 < prio f / total) :
    ∃ r, timePerFilter science cut prio total filters vs = some r ∧ (f, some (bandTime cut f vs / allTime cut filters vs / (prio f / total))) ∈ r := by
  refine ⟨_, time_some _ _ _ _ _ _ ht, ?_⟩
  apply List.mem_map.mpr
  refine ⟨f, hf, ?_⟩
  rw [allTime_eq cut filters hnd, if_neg hall, if_pos hp, expTime_eq]

/-- One for a filter that has exactly the share of the time that is its share of the priority. -/
theorem time_one_iff (b a w t : ℝ) (hw : 0 < w / t) : b / a / (w / t) = 1 ↔ b / a = w / t := by
  rw [div_eq_one_iff_eq hw.ne']

/-- No time at all: zero in every filter. -/
theorem time_zero (science : String) (cut prio : String → ℝ) (total : ℝ) (filters : List String) (hnd : filters.Nodup) (vs : List Visit) (ht : threshold science < total)
    (hall : allTime cut filters vs = 0) : timePerFilter science cut prio total filters vs = some (filters.map (fun f => (f, some 0))) := by
  rw [time_some _ _ _ _ _ _ ht, allTime_eq cut filters hnd]
  simp only [hall, if_true]

/-- The values weighted with the shares of the priority add up to one. -/
theorem weights_one (science : String) (cut prio : String → ℝ) (total : ℝ) (filters : List String) (hnd : filters.Nodup) (vs : List Visit) (ht : threshold science < total)
    (hall : allTime cut filters vs ≠ 0) (hp : ∀ f ∈ filters, 0 < prio f / total) :
    ∃ r, timePerFilter science cut prio total filters vs = some r ∧ (r.map (fun p => p.2.getD 0 * (prio p.1 / total))).sum = 1 := by
  refine ⟨_, time_some _ _ _ _ _ _ ht, ?_⟩
  have h := allTime_eq cut filters hnd vs
  rw [h]
  simp only [hall, if_false]
  rw [List.map_map]
  have : (filters.map ((fun p : String × Option ℝ => p.2.getD 0 * (prio p.1 / total)) ∘ fun f =>
      (f, if prio f / total > 0 then some (expTime cut vs f / allTime cut filters vs / (prio f / total)) else none))) =
      filters.map (fun f => expTime cut vs f * (allTime cut filters vs)⁻¹) := by
    apply List.map_congr_left
    intro f hf
    simp only [Function.comp_apply, if_pos (hp f hf), Option.getD_some]
    rw [div_mul_cancel₀ _ (hp f hf).ne', div_eq_mul_inv]
  rw [this, List.sum_map_mul_right, h, mul_inv_cancel₀ hall]

/-- The comment of the code: where no exposure is expected in a filter the value is one. -/
def OneIfUnexpected : Prop :=
  ∀ (science : String) (cut prio : String → ℝ) (total : ℝ) (filters : List String) (vs : List Visit) (f : String), filters.Nodup → f ∈ filters →
    threshold science < total → prio f = 0 → allTime cut filters vs ≠ 0 → ∃ r, timePerFilter science cut prio total filters vs = some r ∧ (f, some 1) ∈ r

/-- What the code does: such a filter is always masked. -/
theorem unexpected_masked (science : String) (cut prio : String → ℝ) (total : ℝ) (filters : List String) (hnd : filters.Nodup) (vs : List Visit) (f : String)
    (ht : threshold science < total) (hp : prio f = 0) (hall : allTime cut filters vs ≠ 0) (r : List (String × Option ℝ))
    (hr : timePerFilter science cut prio total filters vs = some r) (x : Option ℝ) (hx : (f, x) ∈ r) : x = none := by
  rw [time_some _ _ _ _ _ _ ht, allTime_eq cut filters hnd] at hr
  simp only [hall, if_false, Option.some.injEq] at hr
  subst hr
  obtain ⟨g, _, hg⟩ := List.mem_map.mp hx
  rw [Prod.mk.injEq] at hg
  obtain ⟨rfl, rfl⟩ := hg
  rw [hp, zero_div, if_neg (lt_irrefl _)]

theorem one_visit (cut : String → ℝ) (v : Visit) (fs : List String) (h : Wanted cut fs v) : allTime cut fs [v] = v.exp := by
  unfold allTime
  simp [h]

theorem unexpected_false : ¬ OneIfUnexpected := by
  intro h
  have hall : allTime (fun _ => 20) ["u", "g"] [⟨0, "g", 24, 30⟩] = 30 := one_visit _ _ _ ⟨by decide, by norm_num⟩
  have hall' : allTime (fun _ => 20) ["u", "g"] [⟨0, "g", 24, 30⟩] ≠ 0 := by rw [hall]; norm_num
  have ht : threshold "galactic_plane" < 1 := by norm_num [threshold]
  obtain ⟨r, hr, hm⟩ := h "galactic_plane" (fun _ => 20) (fun f => if f = "u" then 0 else 1) 1 ["u", "g"] [⟨0, "g", 24, 30⟩] "u" (by decide) (by decide) ht (by simp) hall'
  have := unexpected_masked _ _ _ _ _ (by decide) _ _ ht (by simp) hall' r hr _ hm
  simp at this

/-- Only the proportions of the exposure times matter. -/
theorem time_scale (science : String) (cut prio : String → ℝ) (total : ℝ) (filters : List String) (vs : List Visit) (c : ℝ) (hc : c ≠ 0) :
    timePerFilter science cut prio total filters (vs.map (fun v => { v with exp := c * v.exp })) = timePerFilter science cut prio total filters vs := by
  have h1 : ∀ f, expTime cut (vs.map (fun v => { v with exp := c * v.exp })) f = c * expTime cut vs f := by
    intro f
    unfold expTime deep
    rw [List.filter_map, List.map_map, ← List.sum_map_mul_left]
    rfl
  have h2 : (filters.map (expTime cut (vs.map (fun v => { v with exp := c * v.exp })))).sum = c * (filters.map (expTime cut vs)).sum := by
    rw [← List.sum_map_mul_left, show expTime cut (vs.map (fun v => { v with exp := c * v.exp })) = fun f => c * expTime cut vs f from funext h1]
  unfold timePerFilter
  rw [h2]
  simp only [h1, mul_div_mul_left _ _ hc, mul_eq_zero, hc, false_or]

/-- The functions of the six filters, for whatever filters the metric is given. -/
def BandsRead : Prop :=
  ∀ (science : String) (cut prio : String → ℝ) (total : ℝ) (filters : List String) (vs : List Visit) (r : List (String × Option ℝ)),
    timePerFilter science cut prio total filters vs = some r → ∀ f ∈ ["u", "g", "r", "i", "z", "y"], ∃ x, bandReduce f r = .ok x

theorem lookup_map_key (g : String → Option ℝ) (l : List String) (f : String) : (l.map (fun f => (f, g f))).lookup f = if f ∈ l then some (g f) else none := by
  induction l with
  | nil => rfl
  | cons a l ih =>
    rw [List.map_cons, List.lookup_cons]
    by_cases h : f = a
    · subst h
      simp
    · have : (f == a) = false := by simpa using h
      simp [this, ih, h]

/-- The function of a filter that was not asked for fails. -/
theorem bandReduce_spec (science : String) (cut prio : String → ℝ) (total : ℝ) (filters : List String) (vs : List Visit) (r : List (String × Option ℝ))
    (hr : timePerFilter science cut prio total filters vs = some r) (f : String) : bandReduce f r = .error "KeyError" ↔ f ∉ filters := by
  have ht : threshold science < total := by
    by_contra h
    unfold timePerFilter at hr
    rw [if_pos (not_lt.mp h)] at hr
    cases hr
  rw [time_some _ _ _ _ _ _ ht, Option.some.injEq] at hr
  subst hr
  unfold bandReduce
  rw [lookup_map_key]
  by_cases hf : f ∈ filters <;> simp [hf]

theorem bands_false : ¬ BandsRead := by
  intro h
  have ht : threshold "galactic_plane" < 1 := by norm_num [threshold]
  have hr := time_some "galactic_plane" (fun _ => 20) (fun _ => 1) 1 ["g", "r"] [] ht
  obtain ⟨x, hx⟩ := h _ _ _ _ _ _ _ hr "u" (by decide)
  rw [(bandReduce_spec _ _ _ _ _ _ _ hr "u").mpr (by decide)] at hx
  cases hx

/-- The full statement is `BandsRead`; missing: metrics given other filters than the six. -/
theorem bands_partial (science : String) (cut prio : String → ℝ) (total : ℝ) (filters : List String) (vs : List Visit) (r : List (String × Option ℝ))
    (hr : timePerFilter science cut prio total filters vs = some r) (f : String) (hf : f ∈ filters) : ∃ x, bandReduce f r = .ok x ∧ (f, x) ∈ r := by
  have h := fun h => (bandReduce_spec _ _ _ _ _ _ _ hr f).mp h hf
  unfold bandReduce at h ⊢
  cases hl : r.lookup f with
  | none => rw [hl] at h; exact absurd rfl h
  | some x =>
    refine ⟨x, rfl, ?_⟩
    obtain ⟨a, b, rfl, _⟩ := List.lookup_eq_some_iff.mp hl
    simp

example : ∃ r, timePerFilter "galactic_plane" (fun _ => 20) (fun _ => 0.5) 1 ["u", "g"] [⟨0, "g", 24, 30⟩, ⟨1, "u", 19, 30⟩] = some r ∧ (r.map (fun p => p.2.getD 0 * (0.5 / 1))).sum = 1 :=
  weights_one "galactic_plane" _ (fun _ => 0.5) 1 _ (by decide) _ (by norm_num [threshold]) (by
    have : ¬ Wanted (fun _ => 20) ["u", "g"] ⟨1, "u", 19, 30⟩ := fun h => absurd h.2 (by norm_num)
    have h2 : Wanted (fun _ => 20) ["u", "g"] ⟨0, "g", 24, 30⟩ := ⟨by decide, by norm_num⟩
    simp [allTime, this, h2]) (fun _ _ => by norm_num)

/-! ## C270: intervals between visits -/

theorem decay_pos (tau d : ℝ) : 0 < decay tau d := by
  unfold decay
  split
  · exact one_pos
  · exact Real.exp_pos _

theorem decay_lt_one (tau d : ℝ) (ht : 0 < tau) (h : tau < d) : decay tau d < 1 := by
  unfold decay
  rw [if_neg (not_le.mpr h)]
  refine lt_of_lt_of_eq (Real.exp_lt_exp.mpr ?_) Real.exp_zero
  have : 0 < 1 / tau * (d - tau) := mul_pos (one_div_pos.mpr ht) (sub_pos.mpr h)
  linarith

theorem decay_le_one (tau d : ℝ) (ht : 0 < tau) : decay tau d ≤ 1 := by
  rcases le_or_gt d tau with h | h
  · exact (if_pos h).le
  · exact (decay_lt_one tau d ht h).le

/-- An interval counts fully up to the time scale, and less and less beyond. -/
theorem decay_eq_one (tau d : ℝ) (ht : 0 < tau) : decay tau d = 1 ↔ d ≤ tau := by
  constructor
  · intro h
    by_contra h1
    exact (decay_lt_one tau d ht (not_le.mp h1)).ne h
  · intro h
    exact if_pos h

/-- Shorter intervals count more. -/
theorem decay_anti (tau d d' : ℝ) (ht : 0 < tau) (h : d ≤ d') : decay tau d' ≤ decay tau d := by
  rcases le_or_gt d tau with h1 | h1
  · rw [(decay_eq_one tau d ht).mpr h1]
    exact decay_le_one _ _ ht
  · unfold decay
    rw [if_neg (not_le.mpr h1), if_neg (not_le.mpr (h1.trans_le h))]
    apply Real.exp_le_exp.mpr
    have := mul_le_mul_of_nonneg_left (sub_le_sub_right h tau) (one_div_pos.mpr ht).le
    linarith

/-- Longer time scales give more. -/
theorem decay_mono (tau tau' d : ℝ) (ht : 0 < tau) (h : tau ≤ tau') : decay tau d ≤ decay tau' d := by
  have ht' := ht.trans_le h
  rcases le_or_gt d tau' with h1 | h1
  · rw [(decay_eq_one tau' d ht').mpr h1]
    exact decay_le_one _ _ ht
  · unfold decay
    rw [if_neg (not_le.mpr (h.trans_lt h1)), if_neg (not_le.mpr h1)]
    apply Real.exp_le_exp.mpr
    have e1 : -(1 / tau) * (d - tau) = 1 - d / tau := by field_simp; ring
    have e2 : -(1 / tau') * (d - tau') = 1 - d / tau' := by field_simp; ring
    rw [e1, e2]
    have := div_le_div_of_nonneg_left (ht'.trans h1).le ht h
    linarith

/-- The mean of numbers in (0, 1]. -/
theorem mean_range {ι : Type*} (l : List ι) (g : ι → ℝ) (hne : l ≠ []) (h : ∀ x ∈ l, 0 < g x ∧ g x ≤ 1) :
    0 < (l.map g).sum / (l.length : ℝ) ∧ (l.map g).sum / (l.length : ℝ) ≤ 1 ∧ ((l.map g).sum / (l.length : ℝ) = 1 ↔ ∀ x ∈ l, g x = 1) := by
  have hlen : (0 : ℝ) < (l.length : ℝ) := Nat.cast_pos.mpr (List.length_pos_iff.mpr hne)
  have key : ∀ l : List ι, (∀ x ∈ l, 0 < g x ∧ g x ≤ 1) → 0 ≤ (l.map g).sum ∧ (l ≠ [] → 0 < (l.map g).sum) ∧ (l.map g).sum ≤ (l.length : ℝ) ∧
      ((l.map g).sum = (l.length : ℝ) ↔ ∀ x ∈ l, g x = 1) := by
    intro l
    induction l with
    | nil => intro _; simp
    | cons a l ih =>
      intro h
      obtain ⟨h1, h2, h3, h4⟩ := ih (fun x hx => h x (List.mem_cons_of_mem _ hx))
      obtain ⟨h5, h6⟩ := h a List.mem_cons_self
      simp only [List.map_cons, List.sum_cons, List.length_cons, Nat.cast_add, Nat.cast_one, List.forall_mem_cons]
      refine ⟨by linarith, fun _ => by linarith, by linarith, ?_, ?_⟩
      · intro h7
        exact ⟨by linarith, h4.mp (by linarith)⟩
      · rintro ⟨h7, h8⟩
        rw [h7, h4.mpr h8, add_comm]
  obtain ⟨_, h2, h3, h4⟩ := key l h
  refine ⟨div_pos (h2 hne) hlen, (div_le_one hlen).mpr h3, ?_⟩
  rw [div_eq_one_iff_eq hlen.ne', h4]

/-- The times asked for: those of the visits deep enough, in order. -/
def TimesOf (maglim : ℝ) (vs : List Visit) (ts : List ℝ) : Prop :=
  ts.Pairwise (· ≤ ·) ∧ ts.Perm ((vs.filter (fun v => decide (maglim ≤ v.m5))).map Visit.mjd)

theorem times_unique (maglim : ℝ) (vs : List Visit) (ts : List ℝ) (h : TimesOf maglim vs ts) : sort ((vs.filter (fun v => decide (maglim ≤ v.m5))).map Visit.mjd) = ts := by
  rw [← sort_eq_of_perm h.2, sort_eq_self h.1]

/-- The value for `tau` is the mean over the intervals between successive times. -/
theorem intervals_eq (science : String) (total maglim : ℝ) (taus : List ℝ) (vs : List Visit) (ts : List ℝ) (h : TimesOf maglim vs ts) (ht : threshold science < total) :
    visitIntervals science total maglim taus vs = if ts.length < 2 then none else some (taus.map (fun tau => (tau, ((diff ts).map (decay tau)).sum / ((ts.length : ℝ) - 1)))) := by
  unfold visitIntervals
  rw [if_neg (not_le.mpr ht)]
  simp only [times_unique maglim vs ts h, ← h.2.length_eq]
  by_cases h2 : ts.length < 2
  · rw [if_pos h2, if_pos h2]
  · rw [if_neg h2, if_neg h2, diff_length, Nat.cast_sub (by omega), Nat.cast_one]

/-- A point is left out if its priority is low or fewer than two visits are deep enough. -/
theorem intervals_none (science : String) (total maglim : ℝ) (taus : List ℝ) (vs : List Visit) (ts : List ℝ) (h : TimesOf maglim vs ts) :
    visitIntervals science total maglim taus vs = none ↔ total ≤ threshold science ∨ ts.length < 2 := by
  rcases le_or_gt total (threshold science) with h1 | h1
  · simp [visitIntervals, h1]
  · rw [intervals_eq _ _ _ _ _ _ h h1]
    by_cases h2 : ts.length < 2
    · simp [h2]
    · simp [h2, h1]

theorem mem_diff (ts : List ℝ) (d : ℝ) : d ∈ diff ts ↔ ∃ (i : ℕ) (a b : ℝ), ts[i]? = some a ∧ ts[i + 1]? = some b ∧ d = b - a := by
  induction ts with
  | nil => simp
  | cons a ts ih =>
    cases ts with
    | nil => simp
    | cons b ts =>
      rw [diff_cons_cons, List.mem_cons, ih]
      constructor
      · rintro (h | ⟨i, x, y, h1, h2, h3⟩)
        · exact ⟨0, a, b, rfl, rfl, h⟩
        · exact ⟨i + 1, x, y, h1, h2, h3⟩
      · rintro ⟨i, x, y, h1, h2, h3⟩
        cases i with
        | zero =>
          left
          simp only [List.getElem?_cons_zero, Option.some.injEq, zero_add, List.getElem?_cons_succ] at h1 h2
          rw [h3, h1, h2]
        | succ i => exact Or.inr ⟨i, x, y, h1, h2, h3⟩

theorem diff_ne_nil (ts : List ℝ) (h : 2 ≤ ts.length) : diff ts ≠ [] := by
  apply List.ne_nil_of_length_pos
  rw [diff_length]
  omega

/-- The value is above zero, at most one, and one exactly if no interval is longer than the time scale. -/
theorem intervals_range (science : String) (total maglim : ℝ) (taus : List ℝ) (vs : List Visit) (ts : List ℝ) (h : TimesOf maglim vs ts) (r : List (ℝ × ℝ))
    (hr : visitIntervals science total maglim taus vs = some r) (tau x : ℝ) (hx : (tau, x) ∈ r) (hpos : 0 < tau) :
    0 < x ∧ x ≤ 1 ∧ (x = 1 ↔ ∀ (i : ℕ) (a b : ℝ), ts[i]? = some a → ts[i + 1]? = some b → b - a ≤ tau) := by
  have hn : ¬ (total ≤ threshold science ∨ ts.length < 2) := by
    rw [← intervals_none science total maglim taus vs ts h, hr]
    simp
  rw [not_or] at hn
  rw [intervals_eq _ _ _ _ _ _ h (not_le.mp hn.1), if_neg hn.2, Option.some.injEq] at hr
  subst hr
  obtain ⟨t, _, ht⟩ := List.mem_map.mp hx
  rw [Prod.mk.injEq] at ht
  obtain ⟨rfl, rfl⟩ := ht
  have hl : ((diff ts).length : ℝ) = (ts.length : ℝ) - 1 := by
    rw [diff_length, Nat.cast_sub (by omega), Nat.cast_one]
  obtain ⟨h1, h2, h3⟩ := mean_range (diff ts) (decay t) (diff_ne_nil ts (by omega)) (fun d _ => ⟨decay_pos t d, decay_le_one t d hpos⟩)
  rw [hl] at h1 h2 h3
  refine ⟨h1, h2, h3.trans ?_⟩
  constructor
  · intro h4 i a b ha hb
    exact (decay_eq_one t _ hpos).mp (h4 _ ((mem_diff ts _).mpr ⟨i, a, b, ha, hb, rfl⟩))
  · intro h4 d hd
    obtain ⟨i, a, b, ha, hb, rfl⟩ := (mem_diff ts d).mp hd
    exact (decay_eq_one t _ hpos).mpr (h4 i a b ha hb)

/-- The value rises with the time scale. -/
theorem intervals_mono (science : String) (total maglim : ℝ) (taus : List ℝ) (vs : List Visit) (r : List (ℝ × ℝ))
    (hr : visitIntervals science total maglim taus vs = some r) (tau tau' x x' : ℝ) (hx : (tau, x) ∈ r) (hx' : (tau', x') ∈ r) (hpos : 0 < tau) (hle : tau ≤ tau') : x ≤ x' := by
  have h : TimesOf maglim vs (sort ((vs.filter (fun v => decide (maglim ≤ v.m5))).map Visit.mjd)) := ⟨sort_sorted _, sort_perm _⟩
  have hn := (intervals_none science total maglim taus vs _ h).not.mp (by rw [hr]; simp)
  rw [not_or] at hn
  rw [intervals_eq _ _ _ _ _ _ h (not_le.mp hn.1), if_neg hn.2, Option.some.injEq] at hr
  subst hr
  obtain ⟨t, _, ht⟩ := List.mem_map.mp hx
  obtain ⟨t', _, ht'⟩ := List.mem_map.mp hx'
  rw [Prod.mk.injEq] at ht ht'
  obtain ⟨rfl, rfl⟩ := ht
  obtain ⟨rfl, rfl⟩ := ht'
  apply div_le_div_of_nonneg_right
  · apply List.sum_le_sum
    intro d _
    exact decay_mono _ _ _ hpos hle
  · have : (2 : ℝ) ≤ ((sort ((vs.filter (fun v => decide (maglim ≤ v.m5))).map Visit.mjd)).length : ℝ) := by exact_mod_cast not_lt.mp hn.2
    linarith

/-- Neither the order of the visits nor the origin of time matters. -/
theorem intervals_perm (science : String) (total maglim : ℝ) (taus : List ℝ) (vs vs' : List Visit) (h : vs.Perm vs') :
    visitIntervals science total maglim taus vs = visitIntervals science total maglim taus vs' := by
  unfold visitIntervals
  have h1 := (h.filter (fun v => decide (maglim ≤ v.m5))).map Visit.mjd
  simp only [sort_eq_of_perm h1, h1.length_eq]

theorem diff_shift (c : ℝ) (ts : List ℝ) : diff (ts.map (· + c)) = diff ts := by
  induction ts with
  | nil => rfl
  | cons a ts ih =>
    cases ts with
    | nil => rfl
    | cons b ts =>
      rw [List.map_cons, List.map_cons, diff_cons_cons, diff_cons_cons, ← ih, List.map_cons, add_sub_add_right_eq_sub]

theorem intervals_shift (science : String) (total maglim c : ℝ) (taus : List ℝ) (vs : List Visit) :
    visitIntervals science total maglim taus (vs.map (fun v => { v with mjd := v.mjd + c })) = visitIntervals science total maglim taus vs := by
  have h1 : ((vs.map (fun v => { v with mjd := v.mjd + c })).filter (fun v => decide (maglim ≤ v.m5))).map Visit.mjd =
      ((vs.filter (fun v => decide (maglim ≤ v.m5))).map Visit.mjd).map (· + c) := by
    rw [List.filter_map, List.map_map, List.map_map]
    rfl
  have h2 : ∀ l : List ℝ, sort (l.map (· + c)) = (sort l).map (· + c) := by
    intro l
    rw [← sort_eq_self (xs := (sort l).map (· + c))]
    · exact sort_eq_of_perm ((sort_perm l).map _).symm
    · rw [List.pairwise_map]
      exact (sort_sorted l).imp (fun h => add_le_add_left h c)
  unfold visitIntervals
  simp only [h1, h2, diff_shift, List.length_map]

/-- What one would expect of a measure of sampling: a visit more, between the first and the last, does not lower it. -/
def MoreIsBetter : Prop :=
  ∀ (science : String) (total maglim tau : ℝ) (vs : List Visit) (v : Visit) (x x' : ℝ), 0 < tau → (∃ a ∈ vs, ∃ b ∈ vs, a.mjd ≤ v.mjd ∧ v.mjd ≤ b.mjd) →
    visitIntervals science total maglim [tau] vs = some [(tau, x)] → visitIntervals science total maglim [tau] (v :: vs) = some [(tau, x')] → x ≤ x'

theorem more_false : ¬ MoreIsBetter := by
  intro h
  have ht : threshold "galactic_plane" < 1 := by norm_num [threshold]
  have e1 := intervals_eq "galactic_plane" 1 20 [1] [⟨0, "r", 24, 30⟩, ⟨1, "r", 24, 30⟩, ⟨1001, "r", 24, 30⟩] [0, 1, 1001] ⟨by norm_num, by norm_num⟩ ht
  have e2 := intervals_eq "galactic_plane" 1 20 [1] [⟨501, "r", 24, 30⟩, ⟨0, "r", 24, 30⟩, ⟨1, "r", 24, 30⟩, ⟨1001, "r", 24, 30⟩] [0, 1, 501, 1001] ⟨by norm_num, by
    norm_num
    refine List.Perm.trans ?_ (List.Perm.swap _ _ _)
    exact List.Perm.cons _ (List.Perm.swap _ _ _)⟩ ht
  rw [if_neg (by norm_num)] at e1 e2
  simp only [List.map_cons, List.map_nil] at e1 e2
  have := h _ _ _ _ _ ⟨501, "r", 24, 30⟩ _ _ one_pos ⟨_, List.mem_cons_self, ⟨1001, "r", 24, 30⟩, by simp, by norm_num, by norm_num⟩ e1 e2
  have d1 : decay 1 1 = 1 := (decay_eq_one 1 1 one_pos).mpr le_rfl
  have d2 := decay_pos 1 1000
  have d3 : decay 1 500 ≤ 1 / 4 := by
    unfold decay
    rw [if_neg (by norm_num)]
    have h4 : Real.exp (-(1 / 1) * (500 - 1)) * Real.exp 499 = 1 := by
      rw [← Real.exp_add]
      norm_num
    have h5 := Real.add_one_le_exp (499 : ℝ)
    have h6 := Real.exp_pos (-(1 / 1) * (500 - 1))
    nlinarith
  norm_num [d1] at this
  linarith

/-- What holds: the visit lowers no interval's contribution; each of the two intervals into which it splits one counts
at least as much as the whole. The full statement is `MoreIsBetter`; missing: the mean, which may fall because a bad
interval is counted twice. -/
theorem more_partial (tau a b t : ℝ) (hpos : 0 < tau) (h1 : a ≤ t) (h2 : t ≤ b) : decay tau (b - a) ≤ decay tau (t - a) ∧ decay tau (b - a) ≤ decay tau (b - t) :=
  ⟨decay_anti _ _ _ hpos (by linarith), decay_anti _ _ _ hpos (by linarith)⟩

example : visitIntervals "galactic_plane" 1 20 [2] [⟨5, "r", 24, 30⟩, ⟨4, "g", 19, 30⟩, ⟨6, "r", 24, 30⟩] = some [(2, 1)] := by
  rw [intervals_eq "galactic_plane" 1 20 [2] _ [5, 6] ⟨by norm_num, by norm_num⟩ (by norm_num [threshold]), if_neg (by norm_num)]
  norm_num [decay]

/-! ## C271: gaps between seasons -/

/-- The seasons of times in order, and of successive times. -/
theorem season_sorted (season : ℝ → ℤ) (hm : Monotone season) (ts : List ℝ) (h : ts.Pairwise (· ≤ ·)) : (ts.map season).Pairwise (· ≤ ·) := by
  rw [List.pairwise_map]
  exact h.imp (fun h => hm h)

/-- Gap `k` lies between two successive visits, the last of season `k` and the first of the next one. -/
theorem gaps_spec (season : ℝ → ℤ) (hm : Monotone season) (ts : List ℝ) (h : ts.Pairwise (· ≤ ·)) (ns : List ℤ) (hns : ns.Pairwise (· < ·)) (hmem : ∀ n, n ∈ ns ↔ ∃ t ∈ ts, season t = n) :
    (gaps season ts).length = ns.length - 1 ∧
    ∀ (k : ℕ) (n n' : ℤ), ns[k]? = some n → ns[k + 1]? = some n' →
      ∃ (i : ℕ) (a b : ℝ), ts[i]? = some a ∧ ts[i + 1]? = some b ∧ season a = n ∧ season b = n' ∧ (gaps season ts)[k]? = some (b - a) := by
  have hs := season_sorted season hm ts h
  have hu : uniqueInt (ts.map season) = ns := by
    apply List.Perm.eq_of_pairwise (le := fun a b => decide (a < b) = true)
    · intro a b _ _ h1 h2
      exact absurd (of_decide_eq_true h1) (not_lt.mpr (of_decide_eq_true h2).le)
    · exact (uniqueInt_sorted _).imp (fun h => decide_eq_true h)
    · exact hns.imp (fun h => decide_eq_true h)
    · apply (List.perm_ext_iff_of_nodup ((uniqueInt_sorted _).imp (fun h => ne_of_lt h)) (hns.imp (fun h => ne_of_lt h))).mpr
      intro n
      rw [mem_uniqueInt, hmem]
      simp
  obtain ⟨hlen, hspec⟩ := edges_spec _ hs
  rw [hu] at hlen hspec
  refine ⟨by simp [gaps, hlen], ?_⟩
  intro k n n' hk hk'
  obtain ⟨f, l, e1, e2, e3, e4⟩ := hspec k n hk
  obtain ⟨f', l', g1, g2, g3, g4⟩ := hspec (k + 1) n' hk'
  rw [List.length_map] at e3 g3
  have hk0 : k < ns.length := (List.getElem?_eq_some_iff.mp hk).1
  have hk1 : k + 1 < ns.length := (List.getElem?_eq_some_iff.mp hk').1
  have hnn : n < n' := by
    have := List.pairwise_iff_getElem.mp hns k (k + 1) hk0 hk1 (by omega)
    rwa [(List.getElem?_eq_some_iff.mp hk).2, (List.getElem?_eq_some_iff.mp hk').2] at this
  have hss := List.pairwise_iff_getElem.mp hs
  have hval : ∀ (i : ℕ) (hi : i < ts.length) (m : ℤ), (ts.map season)[i]? = some m ↔ season ts[i] = m := by
    intro i hi m
    rw [List.getElem?_map, List.getElem?_eq_getElem hi, Option.map_some, Option.some.injEq]
  have sl : season ts[l] = n := (hval l e3 n).mp ((e4 l).mpr ⟨e2, le_rfl⟩)
  have sf : season ts[f'] = n' := (hval f' (by omega) n').mp ((g4 f').mpr ⟨le_rfl, g2⟩)
  have hlf : l < f' := by
    by_contra hc
    rcases Nat.lt_or_eq_of_le (not_lt.mp hc) with h1 | h1
    · have := hss f' l (by simp; omega) (by simpa using e3) h1
      simp only [List.getElem_map, sl, sf] at this
      omega
    · subst h1
      omega
  have hadj : f' = l + 1 := by
    by_contra hc
    have hlt : l + 1 < f' := by omega
    have hi : l + 1 < ts.length := by omega
    have h1 := hss l (l + 1) (by simpa using e3) (by simpa using hi) (by omega)
    have h2 := hss (l + 1) f' (by simpa using hi) (by simp; omega) hlt
    simp only [List.getElem_map, sl, sf] at h1 h2
    have h3 : season ts[l + 1] ≠ n := fun hx => by
      have := ((e4 (l + 1)).mp ((hval _ hi n).mpr hx)).2
      omega
    have h4 : season ts[l + 1] ≠ n' := fun hx => by
      have := ((g4 (l + 1)).mp ((hval _ hi n').mpr hx)).1
      omega
    obtain ⟨j, hj, hjn⟩ := List.getElem_of_mem ((hmem (season ts[l + 1])).mpr ⟨_, List.getElem_mem hi, rfl⟩)
    have hns' := List.pairwise_iff_getElem.mp hns
    have en := (List.getElem?_eq_some_iff.mp hk).2
    have en' := (List.getElem?_eq_some_iff.mp hk').2
    rcases Nat.lt_trichotomy j k with hjk | hjk | hjk
    · have := hns' j k hj hk0 hjk
      omega
    · subst hjk
      omega
    · rcases Nat.lt_or_eq_of_le (Nat.succ_le_of_lt hjk) with hjk | hjk
      · have := hns' (k + 1) j hk1 hj hjk
        omega
      · have : ns[j] = ns[k + 1] := by simp only [← hjk]
        omega
  subst hadj
  refine ⟨l, ts[l], ts[l + 1], List.getElem?_eq_getElem e3, List.getElem?_eq_getElem (by omega), sl, sf, ?_⟩
  unfold gaps
  simp only
  rw [List.getElem?_zipWith, e1, List.getElem?_tail, g1]
  simp only [List.getD_eq_getElem?_getD, List.getElem?_eq_getElem e3, List.getElem?_eq_getElem (show l + 1 < ts.length by omega), Option.getD_some]

/-- The key under which the priority map is looked up. -/
theorem seasonGaps_eq (science : String) (keys : List (String × ℝ)) (maglim expected total : ℝ) (season : ℝ → ℤ) (taus : List ℝ) (vs : List Visit)
    (hk : keys.lookup ("galplane_priority_" ++ science ++ ":sum") = some total) (ht : threshold science < total) :
    (seasonGaps science keys maglim expected season taus vs).1 = .ok (if (gaps season (sort (vs.map Visit.mjd))).length = 0 then none else
      some (taus.map (fun tau => (tau, ((gaps season (sort (vs.map Visit.mjd))).map (fun g => if g ≤ expected then 1 else decay tau g)).sum / ((gaps season (sort (vs.map Visit.mjd))).length : ℝ))))) := by
  unfold seasonGaps
  rw [hk]
  simp only
  rw [if_neg (not_le.mpr ht)]
  by_cases h : (gaps season (sort (vs.map Visit.mjd))).length = 0
  · rw [if_pos h, if_pos h]
  · rw [if_neg h, if_neg h]

/-- The value is above zero and at most one; it is one exactly if every gap between two successive visits of different
seasons is within the gap expected or within the time scale. -/
theorem gaps_range (science : String) (keys : List (String × ℝ)) (maglim expected total : ℝ) (season : ℝ → ℤ) (hm : Monotone season) (taus : List ℝ) (vs : List Visit)
    (hk : keys.lookup ("galplane_priority_" ++ science ++ ":sum") = some total) (ht : threshold science < total) (ts : List ℝ) (hts : ts.Pairwise (· ≤ ·)) (hp : ts.Perm (vs.map Visit.mjd))
    (r : List (ℝ × ℝ)) (hr : (seasonGaps science keys maglim expected season taus vs).1 = .ok (some r)) (tau x : ℝ) (hx : (tau, x) ∈ r) (hpos : 0 < tau) :
    0 < x ∧ x ≤ 1 ∧ (x = 1 ↔ ∀ (i : ℕ) (a b : ℝ), ts[i]? = some a → ts[i + 1]? = some b → season a ≠ season b → b - a ≤ expected ∨ b - a ≤ tau) := by
  have hso : sort (vs.map Visit.mjd) = ts := by rw [← sort_eq_of_perm hp, sort_eq_self hts]
  rw [seasonGaps_eq _ _ _ _ _ _ _ _ hk ht, hso] at hr
  by_cases h0 : (gaps season ts).length = 0
  · rw [if_pos h0] at hr
    cases hr
  rw [if_neg h0, Except.ok.injEq, Option.some.injEq] at hr
  subst hr
  obtain ⟨t, _, he⟩ := List.mem_map.mp hx
  rw [Prod.mk.injEq] at he
  obtain ⟨rfl, rfl⟩ := he
  have hone : ∀ g, (if g ≤ expected then 1 else decay t g) = 1 ↔ g ≤ expected ∨ g ≤ t := by
    intro g
    by_cases h : g ≤ expected
    · simp [h]
    · rw [if_neg h, decay_eq_one t g hpos]
      simp [h]
  obtain ⟨h1, h2, h3⟩ := mean_range (gaps season ts) (fun g => if g ≤ expected then 1 else decay t g) (List.ne_nil_of_length_pos (Nat.pos_of_ne_zero h0)) (by
    intro g _
    by_cases h : g ≤ expected
    · simp only [if_pos h]
      exact ⟨one_pos, le_rfl⟩
    · simp only [if_neg h]
      exact ⟨decay_pos t g, decay_le_one t g hpos⟩)
  refine ⟨h1, h2, h3.trans ?_⟩
  simp only [hone]
  obtain ⟨hlen, hspec⟩ := gaps_spec season hm ts hts (uniqueInt (ts.map season)) (uniqueInt_sorted _) (by intro n; rw [mem_uniqueInt]; simp)
  constructor
  · intro h4 i a b ha hb hab
    have hma : season a ∈ uniqueInt (ts.map season) := (mem_uniqueInt _ _).mpr (List.mem_map_of_mem (List.mem_of_getElem? ha))
    have hmb : season b ∈ uniqueInt (ts.map season) := (mem_uniqueInt _ _).mpr (List.mem_map_of_mem (List.mem_of_getElem? hb))
    obtain ⟨k, hk1, hk2⟩ := List.getElem_of_mem hma
    obtain ⟨m, hm1, hm2⟩ := List.getElem_of_mem hmb
    have hi := (List.getElem?_eq_some_iff.mp ha)
    have hi' := (List.getElem?_eq_some_iff.mp hb)
    have hord := List.pairwise_iff_getElem.mp hts
    have hlt : season a < season b := by
      have := hm (hord i (i + 1) hi.1 hi'.1 (by omega))
      rw [hi.2, hi'.2] at this
      omega
    have hkm : k < m := by
      by_contra hc
      rcases Nat.lt_or_eq_of_le (not_lt.mp hc) with hc | hc
      · have := List.pairwise_iff_getElem.mp (uniqueInt_sorted (ts.map season)) m k hm1 hk1 hc
        omega
      · subst hc
        omega
    obtain ⟨j, a', b', ja, jb, sa, sb, hg⟩ := hspec k (season a) _ (by rw [List.getElem?_eq_getElem hk1, hk2]) (List.getElem?_eq_getElem (show k + 1 < _ by omega))
    have hja := (List.getElem?_eq_some_iff.mp ja)
    have hjb := (List.getElem?_eq_some_iff.mp jb)
    have hgt : season a < season b' := by
      rw [sb]
      have := List.pairwise_iff_getElem.mp (uniqueInt_sorted (ts.map season)) k (k + 1) hk1 (by omega) (by omega)
      omega
    have hle : ∀ (p q : ℕ) (hp : p < ts.length) (hq : q < ts.length), p ≤ q → season ts[p] ≤ season ts[q] := by
      intro p q hp hq hpq
      rcases Nat.lt_or_eq_of_le hpq with h | h
      · exact hm (hord p q hp hq h)
      · subst h
        exact le_rfl
    have hij : i = j := by
      rcases Nat.lt_trichotomy i j with h | h | h
      · have := hle (i + 1) j hi'.1 hja.1 h
        rw [hi'.2, hja.2] at this
        omega
      · exact h
      · have := hle (j + 1) i hjb.1 hi.1 h
        rw [hjb.2, hi.2] at this
        omega
    subst hij
    rw [ha, Option.some.injEq] at ja
    rw [hb, Option.some.injEq] at jb
    subst ja jb
    exact h4 _ (List.mem_of_getElem? hg)
  · intro h4 g hg
    obtain ⟨k, hk1, hk2⟩ := List.getElem_of_mem hg
    obtain ⟨j, a, b, ja, jb, sa, sb, hg'⟩ := hspec k _ _ (List.getElem?_eq_getElem (show k < _ by omega)) (List.getElem?_eq_getElem (show k + 1 < _ by omega))
    rw [List.getElem?_eq_getElem hk1, Option.some.injEq, hk2] at hg'
    rw [hg']
    apply h4 j a b ja jb
    rw [sa, sb]
    have := List.pairwise_iff_getElem.mp (uniqueInt_sorted (ts.map season)) k (k + 1) (by omega) (by omega) (by omega)
    omega

/-- No value at all exactly if all visits are in one season. -/
theorem gaps_none (science : String) (keys : List (String × ℝ)) (maglim expected total : ℝ) (season : ℝ → ℤ) (hm : Monotone season) (taus : List ℝ) (vs : List Visit)
    (hk : keys.lookup ("galplane_priority_" ++ science ++ ":sum") = some total) (ht : threshold science < total) :
    (seasonGaps science keys maglim expected season taus vs).1 = .ok none ↔ ∀ v ∈ vs, ∀ w ∈ vs, season v.mjd = season w.mjd := by
  rw [seasonGaps_eq _ _ _ _ _ _ _ _ hk ht]
  obtain ⟨hlen, _⟩ := gaps_spec season hm (sort (vs.map Visit.mjd)) (sort_sorted _) (uniqueInt ((vs.map Visit.mjd).map season)) (uniqueInt_sorted _)
    (by intro n; rw [mem_uniqueInt]; simp only [List.mem_map, (sort_perm (vs.map Visit.mjd)).mem_iff])
  have hiff : (gaps season (sort (vs.map Visit.mjd))).length = 0 ↔ ∀ v ∈ vs, ∀ w ∈ vs, season v.mjd = season w.mjd := by
    rw [hlen]
    have hmem : ∀ v ∈ vs, season v.mjd ∈ uniqueInt ((vs.map Visit.mjd).map season) := fun v hv => (mem_uniqueInt _ _).mpr (List.mem_map_of_mem (List.mem_map_of_mem hv))
    constructor
    · intro h v hv w hw
      have h1 := hmem v hv
      have h2 := hmem w hw
      generalize uniqueInt ((vs.map Visit.mjd).map season) = ns at h h1 h2
      match ns, h, h1, h2 with
      | [a], _, h1, h2 => rw [List.mem_singleton.mp h1, List.mem_singleton.mp h2]
    · intro h
      have hsorted := uniqueInt_sorted ((vs.map Visit.mjd).map season)
      have hall : ∀ a ∈ uniqueInt ((vs.map Visit.mjd).map season), ∀ b ∈ uniqueInt ((vs.map Visit.mjd).map season), a = b := by
        intro a ha b hb
        rw [mem_uniqueInt, List.map_map] at ha hb
        obtain ⟨v, hv, rfl⟩ := List.mem_map.mp ha
        obtain ⟨w, hw, rfl⟩ := List.mem_map.mp hb
        exact h v hv w hw
      generalize uniqueInt ((vs.map Visit.mjd).map season) = ns at hsorted hall
      match ns, hsorted, hall with
      | [], _, _ => rfl
      | [a], _, _ => rfl
      | a :: b :: ns, hsorted, hall =>
        have h1 := (List.pairwise_cons.mp hsorted).1 b List.mem_cons_self
        have h2 := hall a List.mem_cons_self b (List.mem_cons_of_mem _ List.mem_cons_self)
        omega
  by_cases h0 : (gaps season (sort (vs.map Visit.mjd))).length = 0
  · rw [if_pos h0]
    exact ⟨fun _ => hiff.mp h0, fun _ => rfl⟩
  · rw [if_neg h0]
    constructor
    · intro h
      cases h
    · intro h
      exact absurd (hiff.mpr h) h0

/-- The argument `mag_limit`: visits that are not as deep have no influence. -/
def DepthCounts : Prop :=
  ∀ (science : String) (keys : List (String × ℝ)) (maglim expected : ℝ) (season : ℝ → ℤ) (taus : List ℝ) (vs : List Visit), Monotone season →
    (seasonGaps science keys maglim expected season taus vs).1 = (seasonGaps science keys maglim expected season taus (vs.filter (fun v => decide (maglim ≤ v.m5)))).1

/-- The limit is not used. -/
theorem mag_ignored (science : String) (keys : List (String × ℝ)) (maglim maglim' expected : ℝ) (season : ℝ → ℤ) (taus : List ℝ) (vs : List Visit) :
    seasonGaps science keys maglim expected season taus vs = seasonGaps science keys maglim' expected season taus vs := rfl

theorem mag_false : ¬ DepthCounts := by
  intro h
  have ht : threshold "galactic_plane" < 1 := by norm_num [threshold]
  have hk : ([("galplane_priority_" ++ "galactic_plane" ++ ":sum", (1 : ℝ))]).lookup ("galplane_priority_" ++ "galactic_plane" ++ ":sum") = some 1 := by
    rw [List.lookup_cons]
    simp
  have hm : Monotone (fun t : ℝ => ⌊t⌋) := Int.floor_mono
  have h1 := h "galactic_plane" [("galplane_priority_" ++ "galactic_plane" ++ ":sum", 1)] 22 0 (fun t => ⌊t⌋) [1] [⟨0, "r", 24, 30⟩, ⟨1, "r", 20, 30⟩] hm
  have h2 := (gaps_none _ _ 22 0 1 _ hm [1] ([⟨0, "r", 24, 30⟩, ⟨1, "r", 20, 30⟩].filter (fun v => decide ((22 : ℝ) ≤ v.m5))) hk ht).mpr (by norm_num)
  rw [h2] at h1
  have h3 := (gaps_none _ _ 22 0 1 _ hm [1] [⟨0, "r", 24, 30⟩, ⟨1, "r", 20, 30⟩] hk ht).mp h1 ⟨0, "r", 24, 30⟩ (by simp) ⟨1, "r", 20, 30⟩ (by simp)
  norm_num at h3

/-- The full statement is `DepthCounts`; missing: data with a visit that is not deep enough. -/
theorem mag_partial (science : String) (keys : List (String × ℝ)) (maglim expected : ℝ) (season : ℝ → ℤ) (taus : List ℝ) (vs : List Visit) (h : ∀ v ∈ vs, maglim ≤ v.m5) :
    (seasonGaps science keys maglim expected season taus vs).1 = (seasonGaps science keys maglim expected season taus (vs.filter (fun v => decide (maglim ≤ v.m5)))).1 := by
  rw [List.filter_eq_self.mpr (fun v hv => decide_eq_true (h v hv))]

/-- The metric names the maps that it needs: those it names suffice for it to run. `filled maps` are the keys that the
maps named give at a slice point. -/
def MapsNamed (maps : List String) : Prop :=
  ∀ (filled : List String → List (String × ℝ)), (∀ science, "GalacticPlanePriorityMap" ∈ maps → ((filled maps).lookup ("galplane_priority_" ++ science ++ ":sum")).isSome) → filled [] = [] →
    ∀ (science : String) (maglim expected : ℝ) (season : ℝ → ℤ) (taus : List ℝ) (vs : List Visit), ∃ r, (seasonGaps science (filled maps) maglim expected season taus vs).1 = .ok r

/-- The metric names no map: alone in a group of bundles it fails. -/
theorem maps_false : ¬ MapsNamed gapsMaps := by
  intro h
  obtain ⟨r, hr⟩ := h (fun _ => []) (fun _ h => absurd h (by simp [gapsMaps])) rfl "galactic_plane" 22 0 (fun _ => 0) [] []
  cases hr

/-- It would run with the maps that the metric of the intervals names. -/
theorem maps_partial : MapsNamed visitMaps := by
  intro filled hf _ science maglim expected season taus vs
  have h := hf science (by simp [visitMaps])
  obtain ⟨total, ht⟩ := Option.isSome_iff_exists.mp h
  unfold seasonGaps
  rw [ht]
  simp only
  split
  · exact ⟨_, rfl⟩
  · split
    · exact ⟨_, rfl⟩
    · exact ⟨_, rfl⟩

/-- The data are the caller's: afterwards they hold the same visits. -/
def RowsKept : Prop :=
  ∀ (science : String) (keys : List (String × ℝ)) (maglim expected : ℝ) (season : ℝ → ℤ) (taus : List ℝ) (vs : List Visit),
    (seasonGaps science keys maglim expected season taus vs).2.Perm vs

theorem rows_after (science : String) (keys : List (String × ℝ)) (maglim expected total : ℝ) (season : ℝ → ℤ) (taus : List ℝ) (vs : List Visit)
    (hk : keys.lookup ("galplane_priority_" ++ science ++ ":sum") = some total) (ht : threshold science < total) :
    (seasonGaps science keys maglim expected season taus vs).2 = sortedInPlace vs := by
  unfold seasonGaps
  rw [hk]
  simp only
  rw [if_neg (not_le.mpr ht)]
  split <;> rfl

/-- The times are sorted in the data and the other columns are not: visits are given the times of others. -/
theorem rows_false : ¬ RowsKept := by
  intro h
  have ht : threshold "galactic_plane" < 1 := by norm_num [threshold]
  have hk : ([("galplane_priority_" ++ "galactic_plane" ++ ":sum", (1 : ℝ))]).lookup ("galplane_priority_" ++ "galactic_plane" ++ ":sum") = some 1 := by
    rw [List.lookup_cons]
    simp
  have h1 := h "galactic_plane" [("galplane_priority_" ++ "galactic_plane" ++ ":sum", 1)] 22 0 (fun _ => 0) [1] [⟨1, "r", 24, 30⟩, ⟨0, "g", 24, 30⟩]
  rw [rows_after _ _ _ _ _ _ _ _ hk ht] at h1
  have hso : sort [(1 : ℝ), 0] = [0, 1] := by
    rw [sort_eq_of_perm (List.Perm.swap (0 : ℝ) 1 []), sort_eq_self (by norm_num)]
  unfold sortedInPlace at h1
  simp only [List.map_cons, List.map_nil, hso, List.zipWith_cons_cons, List.zipWith_nil_right] at h1
  have := h1.mem_iff.mp (List.mem_cons_self (a := (⟨0, "r", 24, 30⟩ : Visit)))
  simp at this

/-- The full statement is `RowsKept`; missing: data not in the order of time. -/
theorem rows_partial (science : String) (keys : List (String × ℝ)) (maglim expected : ℝ) (season : ℝ → ℤ) (taus : List ℝ) (vs : List Visit)
    (h : (vs.map Visit.mjd).Pairwise (· ≤ ·)) : (seasonGaps science keys maglim expected season taus vs).2 = vs := by
  have key : sortedInPlace vs = vs := by
    unfold sortedInPlace
    rw [sort_eq_self h]
    clear h
    induction vs with
    | nil => rfl
    | cons v vs ih => rw [List.map_cons, List.zipWith_cons_cons, ih]
  unfold seasonGaps
  split
  · rfl
  · split
    · rfl
    · dsimp only
      split
      · exact key
      · exact key

example : (gaps (fun t => ⌊t / 365⌋) [10, 20, 400, 410, 800])[1]? = some 390 := by
  have hm : Monotone (fun t : ℝ => ⌊t / 365⌋) := fun a b h => Int.floor_mono (div_le_div_of_nonneg_right h (by norm_num))
  have f0 : ⌊(10 : ℝ) / 365⌋ = 0 := by norm_num [Int.floor_eq_iff]
  have f1 : ⌊(20 : ℝ) / 365⌋ = 0 := by norm_num [Int.floor_eq_iff]
  have f2 : ⌊(400 : ℝ) / 365⌋ = 1 := by norm_num [Int.floor_eq_iff]
  have f3 : ⌊(410 : ℝ) / 365⌋ = 1 := by norm_num [Int.floor_eq_iff]
  have f4 : ⌊(800 : ℝ) / 365⌋ = 2 := by norm_num [Int.floor_eq_iff]
  have hu : findSeasonEdges ([10, 20, 400, 410, 800].map (fun t : ℝ => ⌊t / 365⌋)) = [(0, 1), (2, 3), (4, 4)] := by
    simp only [List.map_cons, List.map_nil, f0, f1, f2, f3, f4]
    decide
  unfold gaps
  simp only [hu]
  norm_num

end Verif.GalPlane
