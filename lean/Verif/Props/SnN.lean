import Mathlib.Analysis.SpecialFunctions.Log.Base
import Mathlib.Data.List.Induction
import Mathlib.LinearAlgebra.Matrix.Block
import Mathlib.Tactic.Linarith
import Mathlib.Tactic.Ring
import Mathlib.Tactic.NormNum
import Mathlib.Tactic.FieldSimp
import Verif.Model.SnN

namespace Verif.SnN

open Verif.Np

/-! ## Seasons -/

theorem setFrom_get (s : List Nat) (i v k : Nat) : (setFrom s i v)[k]? = s[k]?.map (fun x => if i ≤ k then v else x) := by
  simp [setFrom]

theorem assign_get (k : Nat) : ∀ (fl : List Nat) (n : Nat) (s : List Nat), fl.Pairwise (· < ·) →
    (assign fl n s)[k]? = s[k]?.map (fun x =>
      if fl.countP (fun f => decide (f + 1 ≤ k)) = 0 then x else n + fl.countP (fun f => decide (f + 1 ≤ k)) + 1) := by
  intro fl
  induction fl with
  | nil => intro n s _; simp [assign]
  | cons f fl ih =>
    intro n s hp
    rw [List.pairwise_cons] at hp
    rw [assign, ih _ _ hp.2, setFrom_get, Option.map_map]
    congr 1
    funext x
    simp only [Function.comp]
    by_cases h : f + 1 ≤ k
    · rw [List.countP_cons_of_pos (by simpa using h), if_pos h]
      by_cases h0 : fl.countP (fun f => decide (f + 1 ≤ k)) = 0
      · rw [if_pos h0, if_neg (by omega), h0]
      · rw [if_neg h0, if_neg (by omega)]; omega
    · have h0 : fl.countP (fun f => decide (f + 1 ≤ k)) = 0 := by
        rw [List.countP_eq_zero]
        intro f' hf'
        have := hp.1 f' hf'
        simp only [decide_eq_true_eq]; omega
      rw [List.countP_cons_of_neg (by simpa using h), if_neg h, h0]
      simp

/-- **C353** Season numbers: the visit number `k`, in the order of time, belongs to the season one plus the number of
gaps longer than `season_gap` before it. -/
theorem getseason_spec (gap : ℝ) (ts : List ℝ) (k : Nat) (hk : k < ts.length) :
    (getseason gap ts)[k]? = some (1 + (List.range k).countP (fun j => decide (gap < ts.getD (j + 1) 0 - ts.getD j 0))) := by
  have hp : (gapsAt gap ts).Pairwise (· < ·) := List.Pairwise.filter _ List.pairwise_lt_range
  rw [getseason, assign_get _ _ _ _ hp, List.getElem?_replicate, if_pos hk, Option.map_some, gapsAt, List.countP_filter]
  have hc : (List.range (ts.length - 1)).countP (fun a => decide (a + 1 ≤ k) && decide (gap < ts.getD (a + 1) 0 - ts.getD a 0))
      = (List.range k).countP (fun j => decide (gap < ts.getD (j + 1) 0 - ts.getD j 0)) := by
    obtain ⟨m, hm⟩ : ∃ m, ts.length - 1 = k + m := ⟨ts.length - 1 - k, by omega⟩
    rw [hm, List.range_add, List.countP_append]
    have h2 : ((List.range m).map (fun x => k + x)).countP
        (fun a => decide (a + 1 ≤ k) && decide (gap < ts.getD (a + 1) 0 - ts.getD a 0)) = 0 := by
      rw [List.countP_eq_zero]
      intro a ha
      obtain ⟨x, _, rfl⟩ := List.mem_map.mp ha
      have : ¬ (k + x + 1 ≤ k) := by omega
      simp [this]
    rw [h2, Nat.add_zero]
    apply List.countP_congr
    intro a ha
    rw [List.mem_range] at ha
    have : a + 1 ≤ k := ha
    simp [this]
  rw [hc]
  congr 1
  split_ifs with h
  · rw [h]
  · omega

/-- **C353** Two visits one after the other are in the same season exactly if they are not further apart than the gap, and
otherwise the later one starts the next season. -/
theorem getseason_next (gap : ℝ) (ts : List ℝ) (k s : Nat) (hk : k + 1 < ts.length) (h : (getseason gap ts)[k]? = some s) :
    (getseason gap ts)[k + 1]? = some (if gap < ts.getD (k + 1) 0 - ts.getD k 0 then s + 1 else s) := by
  rw [getseason_spec _ _ _ (by omega), Option.some.injEq] at h
  rw [getseason_spec _ _ _ hk, Option.some.injEq, List.range_succ, List.countP_append, ← h]
  by_cases hg : gap < ts.getD (k + 1) 0 - ts.getD k 0
  · rw [if_pos hg, List.countP_cons_of_pos (by simpa using hg), List.countP_nil]; omega
  · rw [if_neg hg, List.countP_cons_of_neg (by simpa using hg), List.countP_nil]; omega

/-- **C353** The first visit is in season one. -/
theorem getseason_first (gap : ℝ) (ts : List ℝ) (h : ts ≠ []) : (getseason gap ts)[0]? = some 1 := by
  rw [getseason_spec _ _ _ (List.length_pos_iff.mpr h)]; simp

example : (getseason 80 [0, 10, 100, 150, 300])[3]? = some 2 ∧ (getseason 80 [0, 10, 100, 150, 300])[4]? = some 3 := by
  rw [getseason_spec _ _ _ (by simp), getseason_spec _ _ _ (by simp)]
  norm_num [List.range_succ]

/-! ## Visits of one night -/

theorem sum_keys {M : Type} [AddCommMonoid M] (f : Visit → M) (K : List (Char × Int)) (hK : K.Nodup) : ∀ (l : List Visit),
    (∀ v ∈ l, (v.band, v.night) ∈ K) → (K.map (fun k => ((ofKey l k).map f).sum)).sum = (l.map f).sum := by
  intro l
  induction l with
  | nil => intro _; simp [ofKey]
  | cons v l ih =>
    intro h
    have h1 := ih (fun w hw => h w (List.mem_cons_of_mem _ hw))
    have h2 : K.map (fun k => ((ofKey (v :: l) k).map f).sum)
        = K.map (fun k => (if (v.band, v.night) = k then f v else 0) + ((ofKey l k).map f).sum) := by
      apply List.map_congr_left
      intro k _
      unfold ofKey
      by_cases hk : (v.band, v.night) = k
      · rw [List.filter_cons_of_pos (by simpa using hk), if_pos hk, List.map_cons, List.sum_cons]
      · rw [List.filter_cons_of_neg (by simpa using hk), if_neg hk, zero_add]
    rw [h2, List.sum_map_add, h1, List.map_cons, List.sum_cons]
    congr 1
    have hv := h v List.mem_cons_self
    clear h h1 h2 ih
    generalize (v.band, v.night) = kk at hv
    induction K with
    | nil => cases hv
    | cons k K ih =>
      rw [List.nodup_cons] at hK
      rw [List.map_cons, List.sum_cons]
      by_cases hk : kk = k
      · rw [if_pos hk]
        have : (K.map (fun k => if kk = k then f v else 0)).sum = 0 := by
          apply List.sum_eq_zero
          intro x hx
          obtain ⟨k', hk', rfl⟩ := List.mem_map.mp hx
          rw [if_neg]
          rintro rfl
          exact hK.1 (hk ▸ hk')
        rw [this, add_zero]
      · rw [if_neg hk, zero_add]
        exact ih hK.2 ((List.mem_cons.mp hv).resolve_left hk)

/-- **C354** Coaddition gives one row for each filter and night that has a visit. -/
theorem coadd_keys (l : List Visit) : ((coadd l).map (fun v => (v.band, v.night))).Nodup ∧
    ∀ k, k ∈ (coadd l).map (fun v => (v.band, v.night)) ↔ ∃ v ∈ l, (v.band, v.night) = k := by
  have h : (coadd l).map (fun v => (v.band, v.night)) = keys l := by
    unfold coadd
    rw [List.map_map]
    conv_rhs => rw [← List.map_id (keys l)]
    apply List.map_congr_left
    intro k _
    rfl
  rw [h]
  refine ⟨List.nodup_dedup _, fun k => ?_⟩
  rw [keys, List.mem_dedup, List.mem_map]

/-- **C354** No exposure and no second is lost: the totals of exposures, of visit time and of exposure time over the rows
are those over the visits. -/
theorem coadd_totals (l : List Visit) : ((coadd l).map Visit.nexp).sum = (l.map Visit.nexp).sum ∧
    ((coadd l).map Visit.exptime).sum = (l.map Visit.exptime).sum ∧
    ((coadd l).map Visit.vistime).sum = (l.map Visit.vistime).sum := by
  have hm : ∀ v ∈ l, (v.band, v.night) ∈ keys l := fun v hv => List.mem_dedup.mpr (List.mem_map_of_mem hv)
  refine ⟨?_, ?_, ?_⟩
  · rw [← sum_keys Visit.nexp (keys l) (List.nodup_dedup _) l hm, coadd, List.map_map]; rfl
  · rw [← sum_keys Visit.exptime (keys l) (List.nodup_dedup _) l hm, coadd, List.map_map]; rfl
  · rw [← sum_keys Visit.vistime (keys l) (List.nodup_dedup _) l hm, coadd, List.map_map]; rfl

theorem pow_lower (mu : ℝ) (ms : List ℝ) : (10 : ℝ) ^ (0.8 * mu) * ((ms.length : ℝ) + 0.8 * Real.log 10 * (ms.sum - ms.length * mu))
    ≤ (ms.map (fun m => (10 : ℝ) ^ (0.8 * m))).sum := by
  induction ms with
  | nil => simp
  | cons m ms ih =>
    rw [List.map_cons, List.sum_cons, List.sum_cons, List.length_cons]
    have h10 : (0 : ℝ) < 10 := by norm_num
    have h : (10 : ℝ) ^ (0.8 * m) = (10 : ℝ) ^ (0.8 * mu) * Real.exp (0.8 * Real.log 10 * (m - mu)) := by
      rw [Real.rpow_def_of_pos h10, Real.rpow_def_of_pos h10, ← Real.exp_add]; congr 1; ring
    have h1 := Real.add_one_le_exp (0.8 * Real.log 10 * (m - mu))
    have hp : (0 : ℝ) < (10 : ℝ) ^ (0.8 * mu) := Real.rpow_pos_of_pos h10 _
    have h2 := mul_le_mul_of_nonneg_left h1 hp.le
    rw [← h] at h2
    push_cast
    nlinarith [h2, ih]

theorem sum_same (e : ℝ) : ∀ xs : List ℝ, (∀ x ∈ xs, x = e) → xs.sum = xs.length * e := by
  intro xs
  induction xs with
  | nil => intro _; simp
  | cons x xs ih =>
    intro h
    rw [List.sum_cons, ih (fun y hy => h y (List.mem_cons_of_mem _ hy)), h x List.mem_cons_self, List.length_cons]
    push_cast; ring

/-- **C354** Several visits of the length of the median visit: the depth of the row never exceeds that of the visits
taken together, `1.25 log10 Σ 10^(0.8 m5)`. -/
theorem coadd_depth_le (single : ℝ) (l : List Visit) (k : Char × Int) (hs : 0 < single) (hne : ofKey l k ≠ [])
    (he : ∀ v ∈ ofKey l k, v.exptime = single) :
    (coaddRow single l k).m5 ≤ coaddM5 ((ofKey l k).map Visit.m5) := by
  have hlen : (0 : ℝ) < ((ofKey l k).length : ℝ) := by
    have := List.length_pos_iff.mpr hne
    exact_mod_cast this
  have hsum : ((ofKey l k).map Visit.exptime).sum / single = ((ofKey l k).length : ℝ) := by
    rw [sum_same single ((ofKey l k).map Visit.exptime)]
    · rw [List.length_map, mul_div_assoc, div_self hs.ne', mul_one]
    · intro x hx
      obtain ⟨v, hv, rfl⟩ := List.mem_map.mp hx
      exact he v hv
  have h10 : (0 : ℝ) < 10 := by norm_num
  show mean ((ofKey l k).map Visit.m5) + 1.25 * Real.logb 10 (((ofKey l k).map Visit.exptime).sum / single) ≤ _
  rw [hsum, coaddM5]
  set ms := (ofKey l k).map Visit.m5 with hms
  have hl : ms.length = (ofKey l k).length := by rw [hms, List.length_map]
  rw [← hl] at hlen ⊢
  have h := pow_lower (mean ms) ms
  have hz : ms.sum - ms.length * mean ms = 0 := by
    rw [mean, mul_div_cancel₀ _ hlen.ne']; ring
  rw [hz, mul_zero, add_zero] at h
  have hpos : (0 : ℝ) < (10 : ℝ) ^ (0.8 * mean ms) * ms.length := mul_pos (Real.rpow_pos_of_pos h10 _) hlen
  have h2 : Real.logb 10 ((10 : ℝ) ^ (0.8 * mean ms) * ms.length) ≤ Real.logb 10 ((ms.map (fun m => (10 : ℝ) ^ (0.8 * m))).sum) :=
    Real.logb_le_logb_of_le (by norm_num) hpos h
  rw [Real.logb_mul (Real.rpow_pos_of_pos h10 _).ne' hlen.ne', Real.logb_rpow h10 (by norm_num)] at h2
  linarith

/-- **C354** If moreover the visits have the same depth, the depth of the row is exactly that of the visits together. -/
theorem coadd_depth_eq (single m : ℝ) (l : List Visit) (k : Char × Int) (hs : 0 < single) (hne : ofKey l k ≠ [])
    (he : ∀ v ∈ ofKey l k, v.exptime = single) (hm : ∀ v ∈ ofKey l k, v.m5 = m) :
    (coaddRow single l k).m5 = coaddM5 ((ofKey l k).map Visit.m5) := by
  have hlen : (0 : ℝ) < ((ofKey l k).length : ℝ) := by
    have := List.length_pos_iff.mpr hne
    exact_mod_cast this
  have hsum : ((ofKey l k).map Visit.exptime).sum / single = ((ofKey l k).length : ℝ) := by
    rw [sum_same single ((ofKey l k).map Visit.exptime)]
    · rw [List.length_map, mul_div_assoc, div_self hs.ne', mul_one]
    · intro x hx
      obtain ⟨v, hv, rfl⟩ := List.mem_map.mp hx
      exact he v hv
  have h10 : (0 : ℝ) < 10 := by norm_num
  have hmean : mean ((ofKey l k).map Visit.m5) = m := by
    rw [mean, sum_same m ((ofKey l k).map Visit.m5), List.length_map, mul_div_cancel_left₀ _ hlen.ne']
    intro x hx
    obtain ⟨v, hv, rfl⟩ := List.mem_map.mp hx
    exact hm v hv
  have hpow : (((ofKey l k).map Visit.m5).map (fun m => (10 : ℝ) ^ (0.8 * m))).sum = ((ofKey l k).length : ℝ) * (10 : ℝ) ^ (0.8 * m) := by
    rw [sum_same ((10 : ℝ) ^ (0.8 * m)), List.length_map, List.length_map]
    intro x hx
    obtain ⟨y, hy, rfl⟩ := List.mem_map.mp hx
    obtain ⟨v, hv, rfl⟩ := List.mem_map.mp hy
    rw [hm v hv]
  show mean ((ofKey l k).map Visit.m5) + 1.25 * Real.logb 10 (((ofKey l k).map Visit.exptime).sum / single) = _
  rw [hsum, hmean, coaddM5, hpow, Real.logb_mul hlen.ne' (Real.rpow_pos_of_pos h10 _).ne', Real.logb_rpow h10 (by norm_num)]
  ring

/-- **C354** A night with one visit of a filter: the row has the depth of the visit plus `1.25 log10` of its exposure time
over the median exposure time of all visits. -/
theorem coadd_single (single : ℝ) (l : List Visit) (v : Visit) (h : ofKey l (v.band, v.night) = [v]) :
    (coaddRow single l (v.band, v.night)).m5 = v.m5 + 1.25 * Real.logb 10 (v.exptime / single) := by
  unfold coaddRow
  simp only [h, mean]
  simp

/-- **C354** So the depth of a visit that is alone in its night and filter is kept exactly if its exposure has the median
length. -/
theorem coadd_single_iff (single : ℝ) (l : List Visit) (v : Visit) (h : ofKey l (v.band, v.night) = [v]) (hs : 0 < single)
    (hv : 0 < v.exptime) : (coaddRow single l (v.band, v.night)).m5 = v.m5 ↔ v.exptime = single := by
  rw [coadd_single _ _ _ h]
  constructor
  · intro h2
    have h3 : Real.logb 10 (v.exptime / single) = 0 := by linarith
    have h4 : v.exptime / single = 1 :=
      Real.eq_one_of_pos_of_logb_eq_zero (by norm_num) (div_pos hv hs) h3
    rwa [div_eq_one_iff_eq hs.ne'] at h4
  · intro h2
    rw [h2, div_self hs.ne', Real.logb_one]; ring

/-- **C354** The time of a row is the mean of those of its visits, and so between the first and the last of them. -/
theorem coadd_time (l : List Visit) (w : Visit) (hw : w ∈ coadd l) :
    w.mjd * ((l.filter (fun v => decide ((v.band, v.night) = (w.band, w.night)))).length : ℝ) =
      ((l.filter (fun v => decide ((v.band, v.night) = (w.band, w.night)))).map Visit.mjd).sum ∧
    ∀ a b : ℝ, (∀ v ∈ l, v.band = w.band → v.night = w.night → a ≤ v.mjd ∧ v.mjd ≤ b) → a ≤ w.mjd ∧ w.mjd ≤ b := by
  unfold coadd at hw
  obtain ⟨k, hk, rfl⟩ := List.mem_map.1 hw
  rw [keys, List.mem_dedup, List.mem_map] at hk
  obtain ⟨v0, hv0, e0⟩ := hk
  have hg : ∀ g, g = ofKey l k → g ≠ [] → mean (g.map Visit.mjd) * (g.length : ℝ) = (g.map Visit.mjd).sum := by
    intro g _ hne
    have : (0 : ℝ) < g.length := by exact_mod_cast List.length_pos_iff.2 hne
    unfold mean
    rw [List.length_map]
    field_simp
  have hof : l.filter (fun v => decide ((v.band, v.night) = ((coaddRow ((Area.median (l.map Visit.exptime)).getD 0) l k).band,
      (coaddRow ((Area.median (l.map Visit.exptime)).getD 0) l k).night))) = ofKey l k := by
    unfold ofKey
    rfl
  have hne : ofKey l k ≠ [] := by
    rw [← hof]
    exact List.ne_nil_of_mem (List.mem_filter.2 ⟨hv0, by simp [coaddRow, e0]⟩)
  rw [hof]
  have hm := hg _ rfl hne
  refine ⟨hm, fun a b hab => ?_⟩
  have hpos : (0 : ℝ) < (ofKey l k).length := by exact_mod_cast List.length_pos_iff.2 hne
  have hall : ∀ x ∈ (ofKey l k).map Visit.mjd, a ≤ x ∧ x ≤ b := by
    intro x hx
    obtain ⟨v, hv, rfl⟩ := List.mem_map.1 hx
    rw [← hof] at hv
    obtain ⟨h1, h2⟩ := List.mem_filter.1 hv
    have h2 := of_decide_eq_true h2
    exact hab v h1 (congrArg Prod.fst h2) (congrArg Prod.snd h2)
  have h1 := List.card_nsmul_le_sum _ a (fun x hx => (hall x hx).1)
  have h2 := List.sum_le_card_nsmul _ b (fun x hx => (hall x hx).2)
  rw [List.length_map, nsmul_eq_mul] at h1 h2
  show a ≤ mean ((ofKey l k).map Visit.mjd) ∧ mean ((ofKey l k).map Visit.mjd) ≤ b
  constructor
  · nlinarith
  · nlinarith

/-- **C354** It is false that nightly coaddition leaves a visit that is alone in its night and filter as it is. -/
theorem coadd_single_false : ¬ ∀ (l : List Visit) (v : Visit), ofKey l (v.band, v.night) = [v] →
    ∀ w ∈ coadd l, (w.band, w.night) = (v.band, v.night) → w.m5 = v.m5 := by
  intro h
  let a : Visit := ⟨'r', 1, 1, 30, 30, 1, 24⟩
  let b : Visit := ⟨'r', 2, 1, 30, 30, 2, 24⟩
  let c : Visit := ⟨'r', 3, 1, 15, 15, 3, 24⟩
  have hc : ofKey [a, b, c] (c.band, c.night) = [c] := by
    simp [ofKey, a, b, c]
  have hmed : Area.median ([a, b, c].map Visit.exptime) = some 30 := by
    have : sort [(30 : ℝ), 30, 15] = [15, 30, 30] := by
      norm_num [sort, List.insertionSort, List.orderedInsert]
    simp only [Area.median, a, b, c, List.map_cons, List.map_nil, this]
    norm_num
  have hk : (c.band, c.night) ∈ keys [a, b, c] := List.mem_dedup.mpr (List.mem_map_of_mem (by simp))
  have h1 := h [a, b, c] c hc (coaddRow ((Area.median ([a, b, c].map Visit.exptime)).getD 0) [a, b, c] (c.band, c.night))
    (List.mem_map_of_mem hk) rfl
  rw [hmed, Option.getD_some, coadd_single_iff 30 _ _ hc (by norm_num) (by norm_num [c])] at h1
  norm_num [c] at h1

example : (coaddRow 30 [⟨'r', 1, 1, 30, 30, 1, 24⟩, ⟨'r', 1, 1, 30, 30, 1, 24⟩] ('r', 1)).m5 = coaddM5 [24, 24] := by
  have := coadd_depth_eq 30 24 [⟨'r', 1, 1, 30, 30, 1, 24⟩, ⟨'r', 1, 1, 30, 30, 1, 24⟩] ('r', 1) (by norm_num)
    (by simp [ofKey]) (by simp [ofKey]) (by simp [ofKey])
  simpa [ofKey] using this

/-! ## Seasons against redshift -/

/-- **C355** The days of maximum between `T0_min` and `T0_max` are those for which the season holds the whole range of
rest-frame phases. -/
theorem t0_window (rfmin rfmax a b z t : ℝ) :
    (t0min rfmin a z ≤ t ∧ t ≤ t0max rfmax b z) ↔ (a ≤ t + (1 + z) * rfmin ∧ t + (1 + z) * rfmax ≤ b) := by
  unfold t0min t0max
  constructor
  · rintro ⟨h1, h2⟩; constructor <;> linarith
  · rintro ⟨h1, h2⟩; constructor <;> linarith

/-- **C355** A redshift is kept for a season exactly if the window of days of maximum is as long as `min_duration`. -/
theorem keptZ_iff (rfmin rfmax d a b : ℝ) (zs : List ℝ) (h : rfmin ≤ rfmax) (hz : ∀ z ∈ zs, -1 ≤ z) (z : ℝ) :
    z ∈ keptZ rfmin rfmax d a b zs ↔ z ∈ zs ∧ d ≤ (b - a) - (1 + z) * (rfmax - rfmin) := by
  unfold keptZ t0max t0min
  split_ifs with hd
  · rw [List.mem_filter, decide_eq_true_eq]
    have : b - (1 + z) * rfmax - (a - (1 + z) * rfmin) = (b - a) - (1 + z) * (rfmax - rfmin) := by ring
    rw [this]
  · constructor
    · intro h0; cases h0
    · rintro ⟨h1, h2⟩
      have := hz z h1
      nlinarith [mul_nonneg (by linarith : (0 : ℝ) ≤ 1 + z) (by linarith : (0 : ℝ) ≤ rfmax - rfmin)]

/-- **C355** A redshift that is kept keeps every smaller one; a longer season keeps every redshift of a shorter one. -/
theorem keptZ_mono (rfmin rfmax d a b a' b' : ℝ) (zs : List ℝ) (h : rfmin ≤ rfmax) (hz : ∀ z ∈ zs, -1 ≤ z) (z z' : ℝ)
    (hk : z ∈ keptZ rfmin rfmax d a b zs) (hz' : z' ∈ zs) (hle : z' ≤ z) (hl : b - a ≤ b' - a') :
    z' ∈ keptZ rfmin rfmax d a' b' zs := by
  rw [keptZ_iff _ _ _ _ _ _ h hz] at hk ⊢
  refine ⟨hz', ?_⟩
  nlinarith [hk.2]

/-- **C355** With the phases of the metric (−15 to 30 days) and its 60 days, a season is used at redshift `z` exactly if it
is as long as `60 + 45 (1 + z)` days. -/
theorem keptZ_default (a b : ℝ) (zs : List ℝ) (hz : ∀ z ∈ zs, 0 ≤ z) (z : ℝ) :
    z ∈ keptZ (-15) 30 60 a b zs ↔ z ∈ zs ∧ 60 + 45 * (1 + z) ≤ b - a := by
  rw [keptZ_iff _ _ _ _ _ _ (by norm_num) (fun z h => by have := hz z h; linarith)]
  constructor
  · rintro ⟨h1, h2⟩; exact ⟨h1, by linarith⟩
  · rintro ⟨h1, h2⟩; exact ⟨h1, by linarith⟩

example : (0.1 : ℝ) ∈ keptZ (-15) 30 60 0 130 [0.1, 0.9] ∧ (0.9 : ℝ) ∉ keptZ (-15) 30 60 0 130 [0.1, 0.9] := by
  rw [keptZ_default _ _ _ (by intro z hz; simp at hz; rcases hz with rfl | rfl <;> norm_num),
    keptZ_default _ _ _ (by intro z hz; simp at hz; rcases hz with rfl | rfl <;> norm_num)]
  norm_num

/-! ## Days of maximum -/

theorem linspace_get (a b : ℝ) (n i : Nat) (hi : i < n) : (linspace a b n)[i]? = some (a + (b - a) / ((n : ℝ) - 1) * i) := by
  simp [linspace, hi]

/-- **C356** The simulated days of maximum go from `T0_min` to `T0_max`, both included, in equal steps, if there are two
or more. -/
theorem calcDaymax_grid (step a b : ℝ) (h10 : 10 < b - a) (hn : 2 ≤ ⌊(b - a) / step⌋₊) :
    (calcDaymax step a b).length = ⌊(b - a) / step⌋₊ ∧ (calcDaymax step a b)[0]? = some a ∧
    (calcDaymax step a b)[⌊(b - a) / step⌋₊ - 1]? = some b ∧
    ∀ i x y, (calcDaymax step a b)[i]? = some x → (calcDaymax step a b)[i + 1]? = some y →
      y - x = (b - a) / ((⌊(b - a) / step⌋₊ : ℝ) - 1) := by
  rw [calcDaymax, if_pos h10]
  generalize ⌊(b - a) / step⌋₊ = n at hn ⊢
  have hn1 : ((n : ℝ) - 1) ≠ 0 := by
    have : (2 : ℝ) ≤ n := by exact_mod_cast hn
    linarith
  refine ⟨by simp [linspace], ?_, ?_, ?_⟩
  · rw [linspace_get _ _ _ _ (by omega)]; simp
  · rw [linspace_get _ _ _ _ (by omega), Option.some.injEq, Nat.cast_sub (by omega), Nat.cast_one, div_mul_cancel₀ _ hn1]
    ring
  · intro i x y hx hy
    have hi : i + 1 < n := by
      have := (List.getElem?_eq_some_iff.mp hy).1
      simpa [linspace] using this
    rw [linspace_get _ _ _ _ (by omega), Option.some.injEq] at hx
    rw [linspace_get _ _ _ _ hi, Option.some.injEq] at hy
    rw [← hx, ← hy]
    push_cast; ring

/-- **C356** The step between the days of maximum is always longer than the step that was asked for. -/
theorem calcDaymax_step_gt (step a b : ℝ) (hs : 0 < step) (h10 : 10 < b - a) (i : Nat) (x y : ℝ)
    (hx : (calcDaymax step a b)[i]? = some x) (hy : (calcDaymax step a b)[i + 1]? = some y) : step < y - x := by
  have hn : 2 ≤ ⌊(b - a) / step⌋₊ := by
    have := (List.getElem?_eq_some_iff.mp hy).1
    rw [calcDaymax, if_pos h10] at this
    simp [linspace] at this
    omega
  rw [(calcDaymax_grid step a b h10 hn).2.2.2 i x y hx hy]
  have hf : (⌊(b - a) / step⌋₊ : ℝ) ≤ (b - a) / step := Nat.floor_le (by positivity)
  have h2 : (2 : ℝ) ≤ (⌊(b - a) / step⌋₊ : ℝ) := by exact_mod_cast hn
  rw [lt_div_iff₀ (by linarith)]
  rw [le_div_iff₀ hs] at hf
  nlinarith

/-- **C356** It is false that the days of maximum are `daymax_step` apart. -/
theorem calcDaymax_step_false : ¬ ∀ (step a b : ℝ), 0 < step → ∀ i x y, (calcDaymax step a b)[i]? = some x →
    (calcDaymax step a b)[i + 1]? = some y → y - x = step := by
  intro h
  have hf : ⌊((12 : ℝ) - 0) / 3⌋₊ = 4 := by
    rw [show ((12 : ℝ) - 0) / 3 = ((4 : ℕ) : ℝ) by norm_num, Nat.floor_natCast]
  have h1 : (calcDaymax 3 0 12)[0]? = some (0 : ℝ) := by
    rw [calcDaymax, if_pos (by norm_num), hf, linspace_get _ _ _ _ (by norm_num)]; norm_num
  have h2 : (calcDaymax 3 0 12)[1]? = some (4 : ℝ) := by
    rw [calcDaymax, if_pos (by norm_num), hf, linspace_get _ _ _ _ (by norm_num)]; norm_num
  have := h 3 0 12 (by norm_num) 0 0 4 h1 h2
  norm_num at this

/-- **C356** A window of ten days or less is not simulated: the day −1 stands for it. -/
theorem calcDaymax_short (step a b : ℝ) (h : b - a ≤ 10) : calcDaymax step a b = [-1] := by
  rw [calcDaymax, if_neg (not_lt.mpr h)]

example : (calcDaymax 3 0 12)[3]? = some (12 : ℝ) := by
  have hf : ⌊((12 : ℝ) - 0) / 3⌋₊ = 4 := by
    rw [show ((12 : ℝ) - 0) / 3 = ((4 : ℕ) : ℝ) by norm_num, Nat.floor_natCast]
  rw [calcDaymax, if_pos (by norm_num), hf, linspace_get _ _ _ _ (by norm_num)]; norm_num

end Verif.SnN
