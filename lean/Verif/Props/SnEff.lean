import Mathlib.Data.List.Induction
import Mathlib.Data.Finset.Card
import Mathlib.Tactic.Linarith
import Mathlib.Tactic.Ring
import Mathlib.Tactic.NormNum
import Mathlib.Tactic.FieldSimp
import Mathlib.Tactic.LinearCombination
import Verif.Model.SnN
import Verif.Lemmas.NumpyMore

/-! Properties of the efficiencies, the redshift limit, the rates and the Fisher matrix of the supernova metric, and of the
metric of lensed supernovae. -/

namespace Verif.SnN

open Verif.Np

/-! ## Epochs -/

/-- The steps upward of a list. -/
def ups : List Int → Nat
  | a :: b :: l => (if a < b then 1 else 0) + ups (b :: l)
  | _ => 0

theorem countP_ups : ∀ s : List Int, (List.range (s.length - 1)).countP (fun i => decide (0 < s.getD (i + 1) 0 - s.getD i 0)) = ups s
  | [] => by simp [ups]
  | [a] => by simp [ups]
  | a :: b :: l => by
    have ih := countP_ups (b :: l)
    rw [ups, ← ih]
    have hl : (a :: b :: l).length - 1 = ((b :: l).length - 1) + 1 := by simp
    rw [hl, List.range_succ_eq_map, List.countP_cons, List.countP_map, Nat.add_comm]
    congr 1
    by_cases h : a < b <;> simp [h]

theorem ups_sorted : ∀ s : List Int, s ≠ [] → s.Pairwise (· ≤ ·) → ups s + 1 = s.toFinset.card
  | [], h, _ => absurd rfl h
  | [a], _, _ => by simp [ups]
  | a :: b :: l, _, hp => by
    rw [List.pairwise_cons] at hp
    have ih := ups_sorted (b :: l) (by simp) hp.2
    rw [ups, List.toFinset_cons]
    have hab := hp.1 b (by simp)
    by_cases h : a < b
    · have hn : a ∉ (b :: l).toFinset := by
        rw [List.mem_toFinset, List.mem_cons]
        rintro (h1 | h1)
        · omega
        · have := (List.pairwise_cons.mp hp.2).1 a h1
          omega
      rw [if_pos h, Finset.card_insert_of_notMem hn, ← ih]; omega
    · have he : a = b := by omega
      have hn : a ∈ (b :: l).toFinset := by rw [he]; simp
      rw [if_neg h, Finset.insert_eq_of_mem hn, ← ih]; omega

/-- **C357** With two points or more, the number of epochs is the number of different nights of the points. -/
theorem epochs_spec (nights : List Int) (h : 2 ≤ nights.length) : epochs nights = nights.toFinset.card := by
  have hp := sort_perm nights
  have hs := sort_sorted nights
  have hl := hp.length_eq
  rw [← List.toFinset_eq_of_perm _ _ hp]
  unfold epochs
  split
  · rename_i h0; rw [h0] at hl; simp at hl; omega
  · rename_i a h0; rw [h0] at hl; simp at hl; omega
  · rename_i s h1 h2
    rw [countP_ups, ups_sorted _ _ hs]
    intro h0
    rw [h0] at hl; simp at hl; omega

/-- **C357** A single point counts as no epoch at all. -/
theorem epochs_one (n : Int) : epochs [n] = 0 := by
  have : sort [n] = [n] := by simp [sort]
  simp [epochs, this]

/-- **C357** No point, no epoch. -/
theorem epochs_none : epochs [] = 0 := by simp [epochs, sort]

/-- **C357** It is false that the number of epochs is always the number of different nights. -/
theorem epochs_false : ¬ ∀ nights : List Int, epochs nights = nights.toFinset.card := by
  intro h
  have := h [5]
  rw [epochs_one] at this
  simp at this

/-- **C357** A cut on two epochs or more is nevertheless right: it is met exactly if the points fall in that many
nights. -/
theorem epochs_cut_partial (m : Nat) (nights : List Int) (hm : 2 ≤ m) : m ≤ epochs nights ↔ m ≤ nights.toFinset.card := by
  by_cases h : 2 ≤ nights.length
  · rw [epochs_spec _ h]
  · have hc : nights.toFinset.card ≤ nights.length := List.toFinset_card_le nights
    match nights, h with
    | [], _ => simp [epochs_none]
    | [a], _ => rw [epochs_one]; simp at hc ⊢; omega
    | a :: b :: l, h => simp at h

example : epochs [3, 1, 3, 2] = 3 := by rw [epochs_spec _ (by simp)]; decide

/-! ## Efficiencies -/

/-- **C358** A supernova counts in the total exactly if one of its points reaches the least signal to noise. -/
theorem t0s_spec (c : Cuts) (lc : List Point) : (t0s c lc).Nodup ∧ ∀ t, t ∈ t0s c lc ↔ ∃ p ∈ lc, p.daymax = t ∧ c.snrMin ≤ p.snr := by
  refine ⟨List.nodup_dedup _, fun t => ?_⟩
  rw [t0s, List.mem_dedup, List.mem_map]
  constructor
  · rintro ⟨p, hp, rfl⟩
    rw [List.mem_filter, decide_eq_true_eq] at hp
    exact ⟨p, hp.1, rfl, hp.2⟩
  · rintro ⟨p, hp, rfl, h⟩
    exact ⟨p, List.mem_filter.mpr ⟨hp, by simpa using h⟩, rfl⟩

/-- **C358** The points of a supernova are those of its day of maximum that reach the least signal to noise. -/
theorem pointsOf_mem (c : Cuts) (lc : List Point) (t : ℝ) (p : Point) :
    p ∈ pointsOf c lc t ↔ p ∈ lc ∧ p.daymax = t ∧ c.snrMin ≤ p.snr := by
  simp only [pointsOf, List.mem_filter, decide_eq_true_eq]
  constructor
  · rintro ⟨⟨h1, h2⟩, h3⟩; exact ⟨h1, h3, h2⟩
  · rintro ⟨h1, h3, h2⟩; exact ⟨⟨h1, h2⟩, h3⟩

/-- **C358** The sampling that a supernova needs, for cuts of two epochs or more: enough points at phases up to −5 and from
20 on, and enough different nights up to and from the maximum. -/
theorem sampled_iff (c : Cuts) (g : List Point) (hb : 2 ≤ c.nBef) (ha : 2 ≤ c.nAft) :
    sampled c g = true ↔ (c.nPhaseMin ≤ (g.filter (fun p => decide (p.phase ≤ -5))).length ∧
      c.nPhaseMax ≤ (g.filter (fun p => decide (20 ≤ p.phase))).length ∧
      c.nBef ≤ ((g.filter (fun p => decide (p.phase ≤ 0))).map Point.night).toFinset.card ∧
      c.nAft ≤ ((g.filter (fun p => decide (0 ≤ p.phase))).map Point.night).toFinset.card) := by
  unfold sampled
  rw [List.countP_eq_length_filter, List.countP_eq_length_filter]
  simp only [Bool.and_eq_true, decide_eq_true_eq]
  rw [epochs_cut_partial _ _ hb, epochs_cut_partial _ _ ha]
  tauto

/-- **C358** The selected supernovae: those well sampled whose variance of the colour is at most `sigma_c²`. -/
theorem efficiencies_sel (c : Cuts) (cov : List Point → ℝ) (lc : List Point) :
    (efficiencies c cov lc).1 = (t0s c lc).length ∧
    (efficiencies c cov lc).2 = ((t0s c lc).filter (fun t =>
      decide (sampled c (pointsOf c lc t) = true ∧ cov (pointsOf c lc t) ≤ c.sigmaC ^ 2))).length := by
  refine ⟨rfl, ?_⟩
  show (t0s c lc).countP _ = _
  rw [List.countP_eq_length_filter]
  congr 2
  funext t
  simp

/-- **C358** The efficiency is a fraction, and its error at most a half over the root of the number. -/
theorem effi_bounds (c : Cuts) (cov : List Point → ℝ) (lc : List Point) :
    0 ≤ (effi (efficiencies c cov lc)).1 ∧ (effi (efficiencies c cov lc)).1 ≤ 1 ∧ 0 ≤ (effi (efficiencies c cov lc)).2 ∧
    (effi (efficiencies c cov lc)).2 ≤ 1 / 2 / Real.sqrt ((efficiencies c cov lc).1 : ℝ) := by
  have hle : (efficiencies c cov lc).2 ≤ (efficiencies c cov lc).1 := List.countP_le_length
  generalize efficiencies c cov lc = n at hle ⊢
  obtain ⟨t, s⟩ := n
  simp only at hle
  unfold effi
  simp only
  split_ifs with h
  · subst h; simp
  · have ht : (0 : ℝ) < t := by exact_mod_cast Nat.pos_of_ne_zero h
    have hs : (s : ℝ) ≤ t := by exact_mod_cast hle
    refine ⟨by positivity, by rw [div_le_one ht]; exact hs, by positivity, ?_⟩
    have hr : 0 < Real.sqrt t := Real.sqrt_pos.mpr ht
    rw [div_le_iff₀ ht]
    have hrt : 1 / 2 / Real.sqrt t * t = Real.sqrt t / 2 := by
      have : Real.sqrt t * Real.sqrt t = t := Real.mul_self_sqrt ht.le
      field_simp
      nlinarith
    rw [hrt, Real.sqrt_le_left (by positivity), div_pow, Real.sq_sqrt ht.le]
    have h2 : (s : ℝ) * (1 - s / t) = s * (t - s) / t := by field_simp
    rw [h2, div_le_iff₀ ht]
    nlinarith [sq_nonneg ((t : ℝ) - 2 * s)]

/-- **C358** Every supernova selected: efficiency one; none selected: zero, and in both cases no error. -/
theorem effi_ends (t : Nat) (h : t ≠ 0) : effi (t, t) = (1, 0) ∧ effi (t, 0) = (0, 0) := by
  have ht : (t : ℝ) ≠ 0 := by exact_mod_cast h
  simp [effi, h, ht]

/-- **C358** A simulated supernova without a point of the least signal to noise changes neither the total nor the selection:
the efficiency is not that over the simulated supernovae. -/
theorem efficiencies_unseen (c : Cuts) (cov : List Point → ℝ) (lc extra : List Point) (h : ∀ p ∈ extra, p.snr < c.snrMin) :
    efficiencies c cov (lc ++ extra) = efficiencies c cov lc := by
  have h0 : extra.filter (fun p => decide (c.snrMin ≤ p.snr)) = [] := by
    rw [List.filter_eq_nil_iff]
    intro p hp
    have := h p hp
    simpa using this
  have h1 : t0s c (lc ++ extra) = t0s c lc := by
    unfold t0s; rw [List.filter_append, h0, List.append_nil]
  have h2 : ∀ t, pointsOf c (lc ++ extra) t = pointsOf c lc t := by
    intro t
    unfold pointsOf; rw [List.filter_append, h0, List.append_nil]
  unfold efficiencies
  simp only [h1, h2]

example : effi (4, 3) = (3 / 4, Real.sqrt (3 * (1 / 4)) / 4) := by
  unfold effi; norm_num

/-! ## The redshift limit -/

theorem cum_length : ∀ (l : List ℝ) (a : ℝ), (cum a l).length = l.length
  | [], _ => rfl
  | x :: l, a => by rw [cum, List.length_cons, cum_length l, List.length_cons]

theorem cum_get : ∀ (l : List ℝ) (a : ℝ) (k : Nat), k < l.length → (cum a l)[k]? = some (a + (l.take (k + 1)).sum)
  | [], _, _, h => absurd h (by simp)
  | x :: l, a, 0, _ => by simp [cum]
  | x :: l, a, k + 1, h => by
    rw [cum, List.getElem?_cons_succ, cum_get l (a + x) k (by simpa using h), List.take_succ_cons, List.sum_cons, add_assoc]

theorem cum_last (l : List ℝ) (h : l ≠ []) : (cum 0 l).getLast? = some l.sum := by
  have hp := List.length_pos_iff.mpr h
  rw [List.getLast?_eq_getElem?, cum_length, cum_get l 0 _ (by omega), zero_add]
  congr 2
  rw [List.take_of_length_le (by omega)]

theorem cum_total (l : List ℝ) : (cum 0 l).getLast?.getD 0 = l.sum := by
  by_cases h : l = []
  · subst h; rfl
  · rw [cum_last l h]; rfl

/-- `np.interp` between the first and the last point: some neighbouring points hold the value. -/
theorem interp_split : ∀ (l : List (ℝ × ℝ)) (x : ℝ), (∀ a, l.head? = some a → a.1 ≤ x) →
    (∃ b, l.getLast? = some b ∧ x < b.1) →
    ∃ k a b, l[k]? = some a ∧ l[k + 1]? = some b ∧ a.1 ≤ x ∧ x < b.1 ∧
      MoSum.interp l x = a.2 + (b.2 - a.2) / (b.1 - a.1) * (x - a.1)
  | [], x, _, ⟨b, hb, _⟩ => by simp at hb
  | [a], x, h1, ⟨b, hb, hx⟩ => by
    simp at hb
    have := h1 a rfl
    rw [hb] at this
    linarith
  | (a, p) :: (b, q) :: l, x, h1, h2 => by
    have ha : a ≤ x := h1 (a, p) rfl
    by_cases hx : x < b
    · refine ⟨0, (a, p), (b, q), rfl, rfl, ha, hx, ?_⟩
      rw [MoSum.interp, if_neg (not_lt.mpr ha), if_pos hx]
    · obtain ⟨k, u, v, hu, hv, h3, h4, h5⟩ := interp_split ((b, q) :: l) x
        (fun u hu => by simp at hu; rw [← hu]; exact not_lt.mp hx)
        (by obtain ⟨w, hw, hxw⟩ := h2; exact ⟨w, by simpa using hw, hxw⟩)
      refine ⟨k + 1, u, v, by simpa using hu, by simpa using hv, h3, h4, ?_⟩
      rw [MoSum.interp, if_neg (not_lt.mpr ha), if_neg hx]
      exact h5

theorem last_filter {p : Nat → Bool} {n k : Nat} (h : ((List.range n).filter p).getLast? = some k) :
    k < n ∧ p k = true ∧ ∀ j, k < j → j < n → p j = false := by
  induction n with
  | zero => simp at h
  | succ n ih =>
    rw [List.range_succ, List.filter_append] at h
    by_cases hp : p n = true
    · have : List.filter p [n] = [n] := by simp [hp]
      rw [this, List.getLast?_append] at h
      simp at h
      subst h
      exact ⟨by omega, hp, fun j h1 h2 => by omega⟩
    · have : List.filter p [n] = [] := by simp [hp]
      rw [this, List.append_nil] at h
      obtain ⟨h1, h2, h3⟩ := ih h
      refine ⟨by omega, h2, fun j hj hjn => ?_⟩
      rcases Nat.lt_succ_iff_lt_or_eq.mp hjn with h4 | h4
      · exact h3 j hj h4
      · subst h4; simpa using hp

theorem pts_get (rows : List (ℝ × ℝ)) (tot : ℝ) (k : Nat) (hk : k < rows.length) :
    (((cum 0 (rows.map Prod.snd)).map (fun x => x / tot)).zip (rows.map Prod.fst))[k]?
      = some ((((rows.take (k + 1)).map Prod.snd).sum) / tot, rows[k].1) := by
  rw [List.getElem?_zip_eq_some]
  constructor
  · rw [List.getElem?_map, cum_get _ _ _ (by simpa using hk), Option.map_some, zero_add, List.map_take]
  · rw [List.getElem?_map, List.getElem?_eq_getElem hk, Option.map_some]

/-- **C359** The redshift limit: if some supernovae are expected and the share of the first redshift does not exceed the
wanted share, there are two neighbouring redshifts between which the share of the supernovae passes the wanted share, and
the limit is the linear interpolation between them. -/
theorem zlim_spec (coeff : ℝ) (rows : List (ℝ × ℝ)) (hc : coeff < 1) (ht : 0 < (rows.map Prod.snd).sum)
    (h0 : ∀ r, rows.head? = some r → r.2 ≤ coeff * (rows.map Prod.snd).sum) :
    ∃ k, ∃ h : k + 1 < rows.length,
      ((rows.take (k + 1)).map Prod.snd).sum ≤ coeff * (rows.map Prod.snd).sum ∧
      coeff * (rows.map Prod.snd).sum < ((rows.take (k + 2)).map Prod.snd).sum ∧
      (zlim coeff rows - rows[k].1) * (rows[k + 1]).2 =
        (rows[k + 1].1 - rows[k].1) * (coeff * (rows.map Prod.snd).sum - ((rows.take (k + 1)).map Prod.snd).sum) := by
  have hne : rows ≠ [] := by rintro rfl; simp at ht
  have hpos := List.length_pos_iff.mpr hne
  have hf : ((rows.take (0 + 1)).map Prod.snd).sum ≤ coeff * (rows.map Prod.snd).sum := by
    obtain ⟨r, rs, rfl⟩ := List.exists_cons_of_ne_nil hne
    simpa using h0 r rfl
  set tot := (rows.map Prod.snd).sum with htot
  set pts := ((cum 0 (rows.map Prod.snd)).map (fun x => x / tot)).zip (rows.map Prod.fst) with hpts
  have hlen : pts.length = rows.length := by
    rw [hpts, List.length_zip, List.length_map, cum_length, List.length_map, List.length_map, Nat.min_self]
  have hget : ∀ k, (hk : k < rows.length) → pts[k]? = some ((((rows.take (k + 1)).map Prod.snd).sum) / tot, rows[k].1) :=
    fun k hk => pts_get rows tot k hk
  have hgd : ∀ k, (hk : k < rows.length) → (pts.getD k (0, 0)).1 = (((rows.take (k + 1)).map Prod.snd).sum) / tot := by
    intro k hk
    rw [List.getD_eq_getElem?_getD, hget k hk]; rfl
  have hfirst : (pts.getD 0 (0, 0)).1 ≤ coeff := by
    rw [hgd 0 hpos]
    rw [div_le_iff₀ ht]
    exact hf
  have hsome : ∃ k, ((List.range pts.length).filter (fun i => decide ((pts.getD i (0, 0)).1 < 1))).getLast? = some k := by
    have : ((List.range pts.length).filter (fun i => decide ((pts.getD i (0, 0)).1 < 1))) ≠ [] := by
      intro h
      rw [List.filter_eq_nil_iff] at h
      have := h 0 (List.mem_range.mpr (by omega))
      simp only [decide_eq_true_eq] at this
      linarith
    exact ⟨_, List.getLast?_eq_some_getLast this⟩
  obtain ⟨K, hK⟩ := hsome
  have hz : zlim coeff rows = interp0 (pts.take (K + 2)) coeff := by
    unfold zlim
    simp only [cum_total]
    rw [if_neg ht.ne', ← htot, ← hpts, hK]
  obtain ⟨hK1, hK2, hK3⟩ := last_filter hK
  rw [hlen] at hK1 hK3
  -- the last share is one
  have hlast : (pts.getD (rows.length - 1) (0, 0)).1 = 1 := by
    rw [hgd _ (by omega)]
    have : rows.length - 1 + 1 = rows.length := by omega
    rw [this, List.take_length, ← htot, div_self ht.ne']
  have hK4 : K + 1 < rows.length := by
    by_contra hcon
    have : K = rows.length - 1 := by omega
    rw [this, hlast] at hK2
    simp at hK2
  have hK5 := hK3 (K + 1) (by omega) hK4
  simp only [decide_eq_false_iff_not, not_lt] at hK5
  have htk : (pts.take (K + 2)).getLast? = pts[K + 1]? := by
    rw [List.getLast?_eq_getElem?, List.length_take, hlen, Nat.min_eq_left (by omega), List.getElem?_take, if_pos (by omega)]
    rfl
  have hhd : (pts.take (K + 2)).head? = pts[0]? := by
    rw [List.head?_eq_getElem?, List.getElem?_take, if_pos (by omega)]
  have h1 : ∀ a, (pts.take (K + 2)).head? = some a → a.1 ≤ coeff := by
    intro a ha
    rw [hhd] at ha
    have : pts.getD 0 (0, 0) = a := by rw [List.getD_eq_getElem?_getD, ha]; rfl
    rw [← this]; exact hfirst
  have h2 : ∃ b, (pts.take (K + 2)).getLast? = some b ∧ coeff < b.1 := by
    refine ⟨_, htk.trans (hget _ hK4), ?_⟩
    rw [hgd _ hK4] at hK5
    show coeff < _ / _
    linarith
  obtain ⟨k, a, b, ha, hb, hax, hxb, hi⟩ := interp_split _ _ h1 h2
  have hkb : k + 1 < K + 2 ∧ k + 1 < rows.length := by
    have := (List.getElem?_eq_some_iff.mp hb).1
    rw [List.length_take, hlen] at this
    omega
  rw [List.getElem?_take, if_pos (by omega), hget k (by omega), Option.some.injEq] at ha
  rw [List.getElem?_take, if_pos (by omega), hget (k + 1) (by omega), Option.some.injEq] at hb
  have hz2 : zlim coeff rows = MoSum.interp (pts.take (K + 2)) coeff := by
    rw [hz]
    unfold interp0
    obtain ⟨b', hb', hxb'⟩ := h2
    rw [hb', hhd, hget 0 hpos]
    simp only
    rw [if_neg]
    rw [not_or]
    refine ⟨not_lt.mpr (h1 _ (hhd.trans (hget 0 hpos))), not_lt.mpr hxb'.le⟩
  rw [← ha] at hax
  rw [← hb] at hxb
  simp only at hax hxb
  rw [div_le_iff₀ ht] at hax
  rw [lt_div_iff₀ ht] at hxb
  refine ⟨k, by omega, hax, hxb, ?_⟩
  rw [hz2, hi, ← ha, ← hb]
  simp only
  have hs : ((rows.take (k + 1 + 1)).map Prod.snd).sum = ((rows.take (k + 1)).map Prod.snd).sum + (rows[k + 1]).2 := by
    rw [List.take_succ_eq_append_getElem (by omega), List.map_append, List.sum_append]; simp
  rw [hs] at hxb ⊢
  set S := ((rows.take (k + 1)).map Prod.snd).sum
  have hn : 0 < (rows[k + 1]).2 := by linarith
  have ht' := ht.ne'
  have hd : (S + (rows[k + 1]).2) / tot - S / tot = (rows[k + 1]).2 / tot := by ring
  rw [hd]
  field_simp
  ring

/-- **C359** So the limit lies between those two redshifts. -/
theorem zlim_between (coeff : ℝ) (rows : List (ℝ × ℝ)) (hc : coeff < 1) (ht : 0 < (rows.map Prod.snd).sum)
    (h0 : ∀ r, rows.head? = some r → r.2 ≤ coeff * (rows.map Prod.snd).sum) (hs : (rows.map Prod.fst).Pairwise (· < ·)) :
    ∃ k, ∃ h : k + 1 < rows.length, rows[k].1 ≤ zlim coeff rows ∧ zlim coeff rows < rows[k + 1].1 := by
  obtain ⟨k, h, h1, h2, h3⟩ := zlim_spec coeff rows hc ht h0
  refine ⟨k, h, ?_⟩
  have hz : rows[k].1 < rows[k + 1].1 := by
    have := List.pairwise_iff_getElem.mp hs k (k + 1) (by simp; omega) (by simpa using h) (by omega)
    simpa using this
  have hsum : ((rows.take (k + 2)).map Prod.snd).sum = ((rows.take (k + 1)).map Prod.snd).sum + (rows[k + 1]).2 := by
    rw [show k + 2 = k + 1 + 1 from rfl, List.take_succ_eq_append_getElem (by omega), List.map_append, List.sum_append]; simp
  rw [hsum] at h2
  have hn : 0 < (rows[k + 1]).2 := by linarith
  constructor
  · by_contra hcon
    rw [not_le] at hcon
    nlinarith [mul_pos_of_neg_of_neg (sub_neg.mpr hcon) (neg_neg_of_pos hn), mul_nonneg (sub_pos.mpr hz).le (sub_nonneg.mpr h1)]
  · by_contra hcon
    rw [not_lt] at hcon
    have : (rows[k + 1].1 - rows[k].1) * (rows[k + 1]).2 ≤ (zlim coeff rows - rows[k].1) * (rows[k + 1]).2 := by
      apply mul_le_mul_of_nonneg_right _ hn.le; linarith
    rw [h3] at this
    have h4 := le_of_mul_le_mul_left this (sub_pos.mpr hz)
    linarith

/-- **C359** No supernova expected: the limit is −1. -/
theorem zlim_zero (coeff : ℝ) (rows : List (ℝ × ℝ)) (h : (rows.map Prod.snd).sum = 0) : zlim coeff rows = -1 := by
  unfold zlim
  simp only [cum_total]
  rw [if_pos h]

/-- **C359** All supernovae at the first redshift: the limit is −1, too. -/
theorem zlim_first_only (coeff z n : ℝ) (hn : 0 < n) : zlim coeff [(z, n)] = -1 := by
  simp [zlim, cum, hn.ne']

example : zlim 0.95 [(0.1, 0), (0.2, 90), (0.3, 10)] = 0.25 := by
  have h : zlim 0.95 [(0.1, 0), (0.2, 90), (0.3, 10)] = 0.2 + (0.3 - 0.2) / (1 - 9 / 10) * (0.95 - 9 / 10) := by
    norm_num [zlim, cum, interp0, MoSum.interp, List.range_succ]
  rw [h]; norm_num

end Verif.SnN
