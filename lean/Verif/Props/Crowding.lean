import Verif.Model.Crowding
import Verif.Lemmas.NumpyMore
import Verif.Props.MoSummary
import Verif.Props.RealMetrics
import Mathlib.Tactic.Linarith
import Mathlib.Tactic.FieldSimp
import Mathlib.Tactic.NormNum

/-!
# Crowding of stars: C284, C285
-/

namespace Verif.Crowd

open Real

/-! ## C284: errors from crowding -/

theorem zip_fst_sub : ∀ l m : List ℝ, List.Sublist ((l.zip m).map Prod.fst) l
  | [], m => by simp
  | a :: l, [] => by simp
  | a :: l, b :: m => by simpa using zip_fst_sub l m

theorem zip_snd_sub : ∀ l m : List ℝ, List.Sublist ((l.zip m).map Prod.snd) m
  | [], m => by simp
  | a :: l, [] => by simp
  | a :: l, b :: m => by simpa using zip_snd_sub l m

theorem lum_pos (m : ℝ) : 0 < lum m := by unfold lum; positivity

theorem temp_length (mags lumf : List ℝ) (h : mags.length = lumf.length) : (temp mags lumf).length = mags.length - 1 := by
  unfold temp
  simp [MoSum.cumsum, MoSum.cumsumFrom_length, Np.diff_length, h]

/-- Sums from the end. -/
theorem suffix_get (l : List ℝ) (k : ℕ) (hk : k < l.length) : (MoSum.cumsum l.reverse).reverse[k]? = some ((l.drop k).sum) := by
  have hlen : (MoSum.cumsum l.reverse).length = l.length := by simp [MoSum.cumsum, MoSum.cumsumFrom_length]
  rw [List.getElem?_reverse (by omega), hlen, MoSum.cumsum_get _ _ (by simp; omega)]
  rw [show l.length - 1 - k + 1 = l.length - k by omega, List.take_reverse, List.sum_reverse, show l.length - (l.length - k) = k by omega]

/-- The formula: for the bin at `k + 1` the error is the seeing times the root of the squared fluxes of all stars that are as
faint or fainter, over the flux. -/
theorem crowdErr_spec (mags lumf : List ℝ) (s : ℝ) (h : mags.length = lumf.length) : (crowdErr mags lumf s).length = mags.length - 1 ∧
    ∀ (k : ℕ) m, mags[k + 1]? = some m → (crowdErr mags lumf s)[k]? = some (√(π / (3600 : ℝ) ^ 2) * s / 2 *
      (√(((List.zipWith (fun m d => ((10 : ℝ) ^ (-0.4 * m)) ^ 2 * d) mags.tail (List.zipWith (fun a b => b - a) lumf lumf.tail)).drop k).sum) / (10 : ℝ) ^ (-0.4 * m))) := by
  refine ⟨by unfold crowdErr; rw [List.length_map, temp_length _ _ h], fun k m hm => ?_⟩
  have hk : k + 1 < mags.length := by
    by_contra hc
    rw [List.getElem?_eq_none (by omega)] at hm
    simp at hm
  unfold crowdErr temp
  dsimp only
  have hlen : (List.zipWith (fun l d => l ^ 2 * d) (mags.tail.map lum) (Np.diff lumf)).length = mags.length - 1 := by
    simp [Np.diff_length, h]
  rw [List.getElem?_map, List.getElem?_zipWith, suffix_get _ k (by rw [hlen]; omega), List.getElem?_map, List.getElem?_tail, hm]
  simp only [Option.map_some, Option.some.injEq]
  rw [List.zipWith_map_left]
  rfl

/-- Errors are not negative and grow with the seeing, in proportion. -/
theorem crowdErr_scale (mags lumf : List ℝ) (c s : ℝ) : crowdErr mags lumf (c * s) = (crowdErr mags lumf s).map (fun e => c * e) := by
  unfold crowdErr
  rw [List.map_map]
  apply List.map_congr_left
  intro t _
  simp only [Function.comp, coeff]
  ring

theorem temp_nonneg (mags lumf : List ℝ) : ∀ t ∈ temp mags lumf, 0 ≤ t := by
  intro t ht
  unfold temp at ht
  dsimp only at ht
  obtain ⟨k, hk⟩ := List.mem_iff_getElem?.mp ht
  obtain ⟨a, b, ha, hb, rfl⟩ := List.getElem?_zipWith_eq_some.mp hk
  rw [List.getElem?_map, Option.map_eq_some_iff] at hb
  obtain ⟨m, _, rfl⟩ := hb
  have := (lum_pos m).le
  positivity

theorem coeff_mono {s t : ℝ} (h : s ≤ t) : coeff s ≤ coeff t := by
  unfold coeff
  have := Real.sqrt_nonneg (π / (3600 : ℝ) ^ 2)
  have := mul_le_mul_of_nonneg_left h this
  linarith

theorem coeff_nonneg {s : ℝ} (h : 0 ≤ s) : 0 ≤ coeff s := by unfold coeff; positivity

theorem crowdErr_mono (mags lumf : List ℝ) (s t : ℝ) (hst : s ≤ t) (k : ℕ) (e e' : ℝ) (he : (crowdErr mags lumf s)[k]? = some e)
    (he' : (crowdErr mags lumf t)[k]? = some e') : e ≤ e' := by
  unfold crowdErr at he he'
  rw [List.getElem?_map, Option.map_eq_some_iff] at he he'
  obtain ⟨a, ha, rfl⟩ := he
  obtain ⟨b, hb, rfl⟩ := he'
  rw [ha] at hb
  cases hb
  exact mul_le_mul_of_nonneg_right (coeff_mono hst) (temp_nonneg _ _ _ (List.mem_of_getElem? ha))

/-- The error at a magnitude: the linear interpolation of the errors of the bins, an exception outside of the bins. -/
theorem interp_scale (c : ℝ) : ∀ (l : List (ℝ × ℝ)) (x : ℝ), MoSum.interp (l.map (fun p => (p.1, c * p.2))) x = c * MoSum.interp l x
  | [], x => by simp [MoSum.interp]
  | [(a, p)], x => by simp [MoSum.interp]
  | (a, p) :: (b, q) :: l, x => by
    have ih := interp_scale c ((b, q) :: l) x
    rw [List.map_cons] at ih
    rw [List.map_cons, List.map_cons]
    unfold MoSum.interp
    dsimp only at ih ⊢
    split_ifs
    · rfl
    · ring
    · exact ih

theorem crowdErrAt_spec (mags lumf : List ℝ) (s m : ℝ) : crowdErrAt mags lumf s m = interp1d (mags.tail.zip (crowdErr mags lumf s)) m := by
  have hz : mags.tail.zip (crowdErr mags lumf s) = (mags.tail.zip (temp mags lumf)).map (fun p => (p.1, coeff s * p.2)) := by
    unfold crowdErr
    rw [List.zip_map_right]
    rfl
  rw [hz]
  unfold crowdErrAt
  generalize mags.tail.zip (temp mags lumf) = l
  cases l with
  | nil => rfl
  | cons p l =>
    have hl : ((p :: l).map (fun p => (p.1, coeff s * p.2))) = (p.1, coeff s * p.2) :: l.map (fun p => (p.1, coeff s * p.2)) := rfl
    have hlast : (((p.1, coeff s * p.2) :: l.map (fun p => (p.1, coeff s * p.2))).getLast (by simp)).1 = ((p :: l).getLast (by simp)).1 := by
      have := List.getLast_map (f := fun p : ℝ × ℝ => (p.1, coeff s * p.2)) (l := p :: l) (by simp)
      rw [show ((p :: l).getLast (by simp)).1 = (((p :: l).getLast (by simp)).1, coeff s * ((p :: l).getLast (by simp)).2).1 from rfl, ← this]
      rfl
    rw [hl]
    unfold interp1d
    dsimp only at hlast ⊢
    rw [hlast]
    split_ifs with h
    · dsimp only
      rw [← hl, interp_scale]
    · rfl

/-- At a bin the error is that of the bin. -/
theorem crowdErrAt_node (mags lumf : List ℝ) (s m e : ℝ) (k : ℕ) (hs : mags.Pairwise (· < ·)) (hm : mags[k + 1]? = some m)
    (he : (crowdErr mags lumf s)[k]? = some e) : crowdErrAt mags lumf s m = .ok e := by
  rw [crowdErrAt_spec]
  have hmem : (m, e) ∈ mags.tail.zip (crowdErr mags lumf s) := by
    refine List.mem_iff_getElem?.mpr ⟨k, ?_⟩
    rw [List.getElem?_zip_eq_some]
    exact ⟨by rw [List.getElem?_tail]; exact hm, he⟩
  have hp : (mags.tail.zip (crowdErr mags lumf s)).Pairwise (fun a b => a.1 < b.1) := by
    have h1 : List.Sublist ((mags.tail.zip (crowdErr mags lumf s)).map Prod.fst) mags := by
      refine List.Sublist.trans ?_ (List.tail_sublist mags)
      exact zip_fst_sub _ _
    have h2 := hs.sublist h1
    exact List.pairwise_map.mp h2
  generalize mags.tail.zip (crowdErr mags lumf s) = l at hmem hp
  cases l with
  | nil => simp at hmem
  | cons p l =>
    unfold interp1d
    dsimp only
    rw [if_pos]
    · rw [MoSum.interp_node _ hp m e hmem]
    · constructor
      · rcases List.mem_cons.mp hmem with rfl | h
        · exact le_rfl
        · exact (List.rel_of_pairwise_cons hp h).le
      · have hd := List.dropLast_append_getLast (l := p :: l) (by simp)
        generalize (p :: l).getLast (by simp) = z at hd
        rw [← hd] at hp hmem
        rcases List.mem_append.mp hmem with h | h
        · exact ((List.pairwise_append.mp hp).2.2 _ h z (by simp)).le
        · simp only [List.mem_singleton] at h
          rw [← h]

/-! ## C285: limits and numbers of stars -/

theorem findIdx_spec (p : ℝ → Bool) (l : List ℝ) (k : ℕ) (h : l.findIdx? p = some k) : (∃ e, l[k]? = some e ∧ p e = true) ∧ ∀ j e, j < k → l[j]? = some e → p e = false := by
  rw [List.findIdx?_eq_some_iff_getElem] at h
  obtain ⟨hk, h1, h2⟩ := h
  refine ⟨⟨l[k], List.getElem?_eq_getElem hk, h1⟩, fun j e hj he => ?_⟩
  have := h2 j hj
  rw [List.getElem?_eq_getElem (by omega)] at he
  cases he
  simpa using this

theorem mags_lt {mags : List ℝ} (hs : mags.Pairwise (· < ·)) {i j : ℕ} {a b : ℝ} (ha : mags[i]? = some a) (hb : mags[j]? = some b) : (i < j ↔ a < b) := by
  obtain ⟨hi, rfl⟩ := List.getElem?_eq_some_iff.mp ha
  obtain ⟨hj, rfl⟩ := List.getElem?_eq_some_iff.mp hb
  constructor
  · intro h; exact List.pairwise_iff_getElem.mp hs i j hi hj h
  · intro h
    by_contra hc
    rcases Nat.lt_or_eq_of_le (Nat.le_of_not_lt hc) with h' | h'
    · exact absurd (List.pairwise_iff_getElem.mp hs j i hj hi h') (by linarith)
    · subst h'; exact lt_irrefl _ h

theorem max_spec {mags : List ℝ} {m : ℝ} (h : mags.max? = some m) : m ∈ mags ∧ ∀ x ∈ mags, x ≤ m := by
  rw [List.max?_eq_some_iff] at h
  exact h

/-- The limit is safe: the error of each bin up to it is below the limit. -/
theorem crowdMag_safe (limit : ℝ) (mags errs : List ℝ) (hs : mags.Pairwise (· < ·)) (m : ℝ) (h : crowdMag limit mags errs = some m) :
    m ∈ mags ∧ ∀ (j : ℕ) x e, mags[j + 1]? = some x → x ≤ m → errs[j]? = some e → e < limit := by
  unfold crowdMag at h
  cases hf : errs.findIdx? (fun e => @decide (limit ≤ e) (Classical.propDecidable _)) with
  | none =>
    rw [hf] at h
    refine ⟨(max_spec h).1, fun j x e _ _ he => ?_⟩
    have := List.findIdx?_eq_none_iff.mp hf e (List.mem_of_getElem? he)
    simpa using this
  | some k =>
    rw [hf] at h
    refine ⟨List.mem_of_getElem? h, fun j x e hx hxm he => ?_⟩
    have := (findIdx_spec _ _ _ hf).2 j e ?_ he
    · simpa using this
    · dsimp only at h
      have h2 : ¬ k - 1 < j + 1 := fun hlt => by linarith [(mags_lt hs h hx).mp hlt]
      omega

/-- The documented limit: the last bin before the error reaches the limit. -/
def LastClaim : Prop := ∀ (limit s : ℝ) (mags lumf : List ℝ) (i : ℕ) (m e : ℝ), 0 < limit → 0 < s → mags.Pairwise (· < ·) → lumf.Pairwise (· ≤ ·) → mags.length = lumf.length →
  mags[i]? = some m → crowdMag limit mags (crowdErr mags lumf s) = some m → i + 1 < mags.length → (crowdErr mags lumf s)[i]? = some e → limit ≤ e

/-- It is a bin too early unless it is the first: the error of the next bin is below the limit too. -/
theorem crowdMag_early (limit : ℝ) (mags errs : List ℝ) (k : ℕ) (hk : (∃ e, errs[k + 1]? = some e ∧ limit ≤ e) ∧ ∀ j e, j < k + 1 → errs[j]? = some e → e < limit) :
    crowdMag limit mags errs = mags[k]? ∧ ∀ e, errs[k]? = some e → e < limit := by
  refine ⟨?_, fun e he => hk.2 k e (by omega) he⟩
  obtain ⟨⟨e, he, hle⟩, hlt⟩ := hk
  have hf : errs.findIdx? (fun e => @decide (limit ≤ e) (Classical.propDecidable _)) = some (k + 1) := by
    rw [List.findIdx?_eq_some_iff_getElem]
    obtain ⟨h1, h2⟩ := List.getElem?_eq_some_iff.mp he
    refine ⟨h1, by simp [h2, hle], fun j hj => ?_⟩
    have := hlt j errs[j] hj (List.getElem?_eq_getElem (by omega))
    simpa using this
  unfold crowdMag
  rw [hf]
  rfl

theorem demo_errs (c : ℝ) : crowdErr [0, 2.5, 5] [0, 0, 1] c = [coeff c * (1 / 10), coeff c * 1] := by
  have h1 : lum 2.5 = 1 / 10 := by
    unfold lum
    rw [show (-0.4 * 2.5 : ℝ) = -1 by norm_num, rpow_neg_one]
    norm_num
  have h2 : lum 5 = 1 / 100 := by
    unfold lum
    rw [show (-0.4 * 5 : ℝ) = -2 by norm_num, rpow_neg (by norm_num)]
    norm_num
  unfold crowdErr temp
  simp only [Np.diff, List.tail_cons, List.zipWith_cons_cons, List.zipWith_nil_right, List.map_cons, List.map_nil, h1, h2, List.reverse_cons, List.reverse_nil,
    List.nil_append, List.cons_append, MoSum.cumsum, MoSum.cumsumFrom]
  have e : √(10000 : ℝ) = 100 := by rw [show (10000 : ℝ) = 100 ^ 2 by norm_num]; exact Real.sqrt_sq (by norm_num)
  norm_num [e]

theorem coeff_pos {s : ℝ} (h : 0 < s) : 0 < coeff s := by unfold coeff; have := Real.pi_pos; positivity

theorem last_false : ¬ LastClaim := by
  intro h
  have hc := coeff_pos (one_pos)
  have he := demo_errs 1
  have := h (coeff 1 / 2) 1 [0, 2.5, 5] [0, 0, 1] 0 0 (coeff 1 * (1 / 10)) (by linarith) (by norm_num) (by norm_num) (by norm_num) rfl rfl
    ((crowdMag_early _ _ _ 0 (by
      rw [he]
      refine ⟨⟨_, rfl, by linarith⟩, ?_⟩
      intro j e hj hje
      obtain rfl : j = 0 := by omega
      simp at hje
      linarith)).1) (by simp) (by rw [he]; rfl)
  linarith

theorem min_anti (a b : List ℝ) (s t : ℝ) (hs : a.min? = some s) (ht : (a ++ b).min? = some t) : t ≤ s := by
  rw [List.min?_eq_some_iff] at hs ht
  exact ht.2 s (by simp [hs.1])

/-- With better seeing the limit is at least as faint. -/
theorem crowdMag_mono (limit : ℝ) (mags lumf : List ℝ) (s t m n : ℝ) (hs : mags.Pairwise (· < ·)) (hst : s ≤ t)
    (hm : crowdMag limit mags (crowdErr mags lumf t) = some m) (hn : crowdMag limit mags (crowdErr mags lumf s) = some n) : m ≤ n := by
  have hmm := (crowdMag_safe _ _ _ hs _ hm).1
  unfold crowdMag at hn
  cases hf : (crowdErr mags lumf s).findIdx? (fun e => @decide (limit ≤ e) (Classical.propDecidable _)) with
  | none => rw [hf] at hn; exact (max_spec hn).2 m hmm
  | some k =>
    rw [hf] at hn
    dsimp only at hn
    obtain ⟨⟨e, he, hle⟩, -⟩ := findIdx_spec _ _ _ hf
    have hle : limit ≤ e := by simpa using hle
    have hlen : (crowdErr mags lumf s).length = (crowdErr mags lumf t).length := by simp [crowdErr]
    have hk : k < (crowdErr mags lumf t).length := by
      rw [← hlen]; exact (List.getElem?_eq_some_iff.mp he).1
    have he' := List.getElem?_eq_getElem hk
    have hle' : limit ≤ (crowdErr mags lumf t)[k] := le_trans hle (crowdErr_mono mags lumf s t hst k _ _ he he')
    unfold crowdMag at hm
    cases hg : (crowdErr mags lumf t).findIdx? (fun e => @decide (limit ≤ e) (Classical.propDecidable _)) with
    | none =>
      have := List.findIdx?_eq_none_iff.mp hg _ (List.mem_of_getElem? he')
      simp at this
      linarith
    | some k' =>
      rw [hg] at hm
      dsimp only at hm
      have hkk : k' ≤ k := by
        by_contra hc
        have := (findIdx_spec _ _ _ hg).2 k _ (by omega) he'
        simp at this
        linarith
      by_contra hc
      have := (mags_lt hs hn hm).mpr (by linarith)
      omega

/-- The number of stars never goes down with more visits. -/
theorem nstars_mono (ignore : Bool) (limit area : ℝ) (mags lumf : List ℝ) (a b : List (ℝ × ℝ)) (ha : a ≠ []) (harea : 0 ≤ area)
    (hs : mags.Pairwise (· < ·)) (hl : lumf.Pairwise (· ≤ ·)) (x y : ℝ) (hx : nstars ignore limit area mags lumf a = some x)
    (hy : nstars ignore limit area mags lumf (a ++ b) = some y) : x ≤ y := by
  unfold nstars at hx hy
  rw [Option.map_eq_some_iff] at hx hy
  obtain ⟨c, hc, rfl⟩ := hx
  obtain ⟨d, hd, rfl⟩ := hy
  unfold crowdM5 at hc hd
  rw [Option.bind_eq_some_iff] at hc hd
  obtain ⟨s, hs1, hc⟩ := hc
  obtain ⟨t, ht1, hd⟩ := hd
  rw [List.map_append] at ht1
  have hts := min_anti _ _ s t hs1 ht1
  have hcd := crowdMag_mono limit mags lumf t s c d hs hts hc hd
  have hlim : magLimit limit (a.map Prod.snd) ≤ magLimit limit ((a ++ b).map Prod.snd) := by
    unfold magLimit
    rw [List.map_append]
    by_cases hb : b = []
    · subst hb; simp
    · have := RealMetrics.coadd_more (a.map Prod.snd) (b.map Prod.snd) (by simpa using ha) (by simpa using hb)
      linarith
  have hz1 : (mags.zip lumf).Pairwise (fun a b => a.1 < b.1) := by
    have h1 : List.Sublist ((mags.zip lumf).map Prod.fst) mags := zip_fst_sub _ _
    exact List.pairwise_map.mp (hs.sublist h1)
  have hz2 : (mags.zip lumf).Pairwise (fun a b => a.2 ≤ b.2) := by
    have h1 : List.Sublist ((mags.zip lumf).map Prod.snd) lumf := zip_snd_sub _ _
    exact List.pairwise_map.mp (hl.sublist h1)
  refine mul_le_mul_of_nonneg_right (MoSum.interp_mono _ hz1 hz2 _ _ ?_) harea
  cases ignore
  · simp only [Bool.false_eq_true, if_false]
    exact min_le_min hcd hlim
  · simpa using hlim

/-- Error of a star of magnitude `m` at depth `m5` with the constants of the code: 1.09 over the signal to noise, five at the
depth and in proportion to the flux. -/
noncomputable def photErr (m5 m : ℝ) : ℝ := 1.09 / (5 * (10 : ℝ) ^ (0.4 * (m5 - m)))

/-- The error at the limit used, for each threshold and list of depths: it is too large by the square of 1.09. -/
theorem magLimit_spec (limit : ℝ) (m5s : List ℝ) (h : 0 < limit) : photErr (RealMetrics.coadd m5s) (magLimit limit m5s) = 1.09 ^ 2 * limit := by
  have e : (10 : ℝ) ^ (0.4 * (RealMetrics.coadd m5s - magLimit limit m5s)) = 1 / (limit * (1.09 * 5)) := by
    have : 0.4 * (RealMetrics.coadd m5s - magLimit limit m5s) = logb 10 (1 / (limit * (1.09 * 5))) := by
      unfold magLimit; ring
    rw [this]
    exact Real.rpow_logb (by norm_num) (by norm_num) (by positivity)
  unfold photErr
  rw [e]
  field_simp

/-- The comment of the code: the error at the limit is the one asked for. -/
def LimitClaim : Prop := ∀ (limit : ℝ) (m5s : List ℝ), 0 < limit → photErr (RealMetrics.coadd m5s) (magLimit limit m5s) = limit

theorem limit_false : ¬ LimitClaim := by
  intro h
  have h1 := h 1 [25] one_pos
  rw [magLimit_spec 1 [25] one_pos] at h1
  norm_num at h1

/-- Density of stars: within the map it does not fall with the limit; outside it is the bad value. -/
theorem starDensity_mono (bad x y : ℝ) (mags lumf : List ℝ) (hs : mags.Pairwise (· < ·)) (hl : lumf.Pairwise (· ≤ ·)) (p z : ℝ × ℝ)
    (hp : (mags.zip lumf).head? = some p) (hz : (mags.zip lumf).getLast? = some z) (h1 : p.1 ≤ x) (hxy : x ≤ y) (h2 : y ≤ z.1) :
    starDensity bad x mags lumf ≤ starDensity bad y mags lumf := by
  have hz1 : (mags.zip lumf).Pairwise (fun a b => a.1 < b.1) := by
    have h1 : List.Sublist ((mags.zip lumf).map Prod.fst) mags := zip_fst_sub _ _
    exact List.pairwise_map.mp (hs.sublist h1)
  have hz2 : (mags.zip lumf).Pairwise (fun a b => a.2 ≤ b.2) := by
    have h1 : List.Sublist ((mags.zip lumf).map Prod.snd) lumf := zip_snd_sub _ _
    exact List.pairwise_map.mp (hl.sublist h1)
  unfold starDensity
  generalize mags.zip lumf = l at hp hz hz1 hz2
  cases l with
  | nil => simp at hp
  | cons q l =>
    simp only [List.head?_cons, Option.some.injEq] at hp
    subst hp
    rw [List.getLast?_eq_some_getLast (by simp), Option.some.injEq] at hz
    unfold interp1d
    dsimp only
    rw [hz]
    rw [if_pos ⟨h1, by linarith⟩, if_pos ⟨by linarith, h2⟩]
    exact div_le_div_of_nonneg_right (MoSum.interp_mono _ hz1 hz2 _ _ hxy) (by norm_num)

theorem starDensity_outside (bad x : ℝ) (mags lumf : List ℝ) (p z : ℝ × ℝ) (hp : (mags.zip lumf).head? = some p) (hz : (mags.zip lumf).getLast? = some z)
    (h : x < p.1 ∨ z.1 < x) : starDensity bad x mags lumf = bad := by
  unfold starDensity
  generalize mags.zip lumf = l at hp hz
  cases l with
  | nil => simp at hp
  | cons q l =>
    simp only [List.head?_cons, Option.some.injEq] at hp
    subst hp
    rw [List.getLast?_eq_some_getLast (by simp), Option.some.injEq] at hz
    unfold interp1d
    dsimp only
    rw [hz]
    rw [if_neg]
    rintro ⟨h1, h2⟩
    rcases h with h | h <;> linarith

/-- At a magnitude of the map the density of a square degree is that of 3600 times 3600 square seconds. -/
theorem starDensity_node (bad x y : ℝ) (mags lumf : List ℝ) (hs : mags.Pairwise (· < ·)) (h : (x, y) ∈ mags.zip lumf) :
    starDensity bad x mags lumf * (3600 * 3600) = y := by
  have hz1 : (mags.zip lumf).Pairwise (fun a b => a.1 < b.1) := by
    have h1 : List.Sublist ((mags.zip lumf).map Prod.fst) mags := zip_fst_sub _ _
    exact List.pairwise_map.mp (hs.sublist h1)
  unfold starDensity
  generalize mags.zip lumf = l at hz1 h
  cases l with
  | nil => simp at h
  | cons q l =>
    have h1 : q.1 ≤ x := by
      rcases List.mem_cons.1 h with h | h
      · rw [← h]
      · exact ((List.pairwise_cons.1 hz1).1 _ h).le
    have h2 : x ≤ ((q :: l).getLast (by simp)).1 := by
      have hd := List.dropLast_append_getLast (l := q :: l) (by simp)
      rw [← hd] at hz1 h
      rw [List.pairwise_append] at hz1
      rcases List.mem_append.1 h with h | h
      · exact (hz1.2.2 _ h _ (by simp)).le
      · rw [List.mem_singleton] at h
        rw [← h]
    unfold interp1d
    dsimp only
    rw [if_pos ⟨h1, h2⟩]
    dsimp only
    rw [MoSum.interp_node _ hz1 x y h]
    norm_num

example : starDensity (-666) 21 [20, 22] [3600 ^ 2, 3 * 3600 ^ 2] = 2 := by
  unfold starDensity interp1d
  norm_num [MoSum.interp]

end Verif.Crowd
