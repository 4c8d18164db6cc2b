import Mathlib.Data.Rat.Floor
import Mathlib.Data.List.ProdSigma
import Verif.Model.StringCount
import Verif.Props.Gaps
import Verif.Props.Counts

/-! # C98: pairs of visits -/

namespace Verif.Pairs

open Verif.Np Verif.Gaps Verif.Metrics

variable {K : Type*} [Field K] [LinearOrder K] [IsStrictOrderedRing K] [FloorRing K]

/-- The documented meaning: "the number of pairs of visits within the min and max time
range". -/
def pairCount (mMin mMax : K) (times : List K) : Nat :=
  (times.product times).countP (fun p => decide (mMin ≤ p.2 - p.1) && decide (p.2 - p.1 ≤ mMax))

/-- As documented, where no pairs are bad. -/
def CountsPairs : Prop :=
  ∀ (w mMin mMax : ℚ) (times : List ℚ), 0 < w → 2 * w ≤ mMin → mMin + 2 * w ≤ mMax →
    (pairs w mMin mMax times).getD 0 = pairCount mMin mMax times

theorem countsPairs_false : ¬ CountsPairs := by
  intro h
  have := h 1 2 4 [0, 0, 3] (by norm_num) (by norm_num) (by norm_num)
  revert this
  decide +kernel

theorem mem_occupied (w lo hi : K) (times : List K) (i : Nat) :
    i ∈ occupied w lo hi times ↔ ∃ x ∈ times, inBin (arange lo (hi + w) w) i x = true := by
  unfold occupied
  simp only [List.mem_filter, List.mem_range, decide_eq_true_eq]
  generalize arange lo (hi + w) w = edges
  constructor
  · rintro ⟨h1, h2⟩
    rw [List.getD_eq_getElem?_getD, List.getElem?_eq_getElem h1, Option.getD_some] at h2
    simp only [histogram, List.getElem_map, List.getElem_range] at h2
    exact List.countP_pos_iff.mp h2
  · rintro ⟨x, hx, hb⟩
    have hi : i < (histogram edges times).length := by
      unfold inBin at hb
      split at hb
      · rename_i a b ha hb'
        have := (List.getElem?_eq_some_iff.mp hb').1
        simp [histogram]
        omega
      · cases hb
    refine ⟨hi, ?_⟩
    rw [List.getD_eq_getElem?_getD, List.getElem?_eq_getElem hi, Option.getD_some]
    simp only [histogram, List.getElem_map, List.getElem_range]
    exact List.countP_pos_iff.mpr ⟨x, hx, hb⟩

theorem occupied_nodup (w lo hi : K) (times : List K) : (occupied w lo hi times).Nodup :=
  List.nodup_range.filter _

theorem bin_unique {w lo b x : K} {i j : Nat} (hw : 0 < w) (hi : inBin (arange lo b w) i x = true)
    (hj : inBin (arange lo b w) j x = true) : i = j := by
  have key : ∀ i j : Nat, inBin (arange lo b w) i x = true → inBin (arange lo b w) j x = true → ¬ i < j := by
    intro i j hi hj hij
    obtain ⟨_, _, h3⟩ := inBin_arange hw hi
    obtain ⟨h1, _, _⟩ := inBin_arange hw hj
    have hlen : j + 1 < (arange lo b w).length := by
      unfold inBin at hj
      split at hj
      · rename_i a b ha hb'
        exact (List.getElem?_eq_some_iff.mp hb').1
      · cases hj
    have h3 := h3 (by omega)
    have h4 : ((i : K) + 1) ≤ j := by exact_mod_cast hij
    nlinarith
  have h1 := key i j hi hj
  have h2 := key j i hj hi
  omega

/-- The pairs of bins that are counted. -/
def binPairs (nMin nMax : Nat) (bins : List Nat) : List (Nat × Nat) :=
  ((List.range (nMax + 1)).drop nMin).flatMap (fun d =>
    (bins.filter (fun b => decide (d ≤ b) && bins.contains (b - d))).map (fun b => (b - d, b)))

theorem mem_binPairs (nMin nMax : Nat) (bins : List Nat) (p : Nat × Nat) :
    p ∈ binPairs nMin nMax bins ↔ p.1 ∈ bins ∧ p.2 ∈ bins ∧ p.1 ≤ p.2 ∧ nMin ≤ p.2 - p.1 ∧ p.2 - p.1 ≤ nMax := by
  unfold binPairs
  simp only [List.mem_flatMap, List.mem_map, List.mem_filter, Bool.and_eq_true, decide_eq_true_eq, List.contains_iff_mem]
  have hd : ∀ d, d ∈ (List.range (nMax + 1)).drop nMin ↔ nMin ≤ d ∧ d ≤ nMax := by
    intro d
    rw [List.mem_iff_getElem]
    simp only [List.getElem_drop, List.getElem_range, List.length_drop, List.length_range]
    constructor
    · rintro ⟨i, hi, rfl⟩
      omega
    · rintro ⟨h1, h2⟩
      exact ⟨d - nMin, by omega, by omega⟩
  simp only [hd]
  constructor
  · rintro ⟨d, ⟨h1, h2⟩, b, ⟨h3, h4, h5⟩, rfl⟩
    refine ⟨h5, h3, ?_, ?_, ?_⟩ <;> simp only <;> omega
  · rintro ⟨h1, h2, h3, h4, h5⟩
    refine ⟨p.2 - p.1, ⟨h4, h5⟩, p.2, ⟨h2, by omega, ?_⟩, ?_⟩
    · rw [Nat.sub_sub_self h3]
      exact h1
    · rw [Nat.sub_sub_self h3]

theorem binPairs_nodup (nMin nMax : Nat) (bins : List Nat) (h : bins.Nodup) : (binPairs nMin nMax bins).Nodup := by
  unfold binPairs
  rw [List.nodup_flatMap]
  constructor
  · intro d _
    apply List.Nodup.map_on _ (h.filter _)
    intro a _ b _ hab
    exact (Prod.mk.inj hab).2
  · have hn : ((List.range (nMax + 1)).drop nMin).Nodup := List.nodup_range.sublist (List.drop_sublist _ _)
    refine List.Pairwise.imp ?_ hn
    intro d e hde
    simp only [Function.onFun]
    intro p hp hq
    obtain ⟨b, hb, rfl⟩ := List.mem_map.mp hp
    obtain ⟨c, hc, hcb⟩ := List.mem_map.mp hq
    simp only [List.mem_filter, Bool.and_eq_true, decide_eq_true_eq] at hb hc
    simp only [Prod.mk.injEq] at hcb
    have h1 := hb.2.1
    have h2 := hc.2.1
    omega

theorem binPairs_length (nMin nMax : Nat) (bins : List Nat) :
    (binPairs nMin nMax bins).length = (((List.range (nMax + 1)).drop nMin).map
      (fun d => (bins.filter (fun b => decide (d ≤ b) && bins.contains (b - d))).length)).sum := by
  unfold binPairs
  rw [List.length_flatMap]
  simp

/-- The number of bins of a time, rounded. -/
theorem bins_round {w m : K} (hw : 0 < w) (hm : 0 ≤ m) :
    m - w / 2 ≤ ((roundHE (m / w)).toNat : K) * w ∧ ((roundHE (m / w)).toNat : K) * w ≤ m + w / 2 := by
  have h := roundHE_nearest (m / w)
  rw [abs_le] at h
  have hx : 0 ≤ m / w := div_nonneg hm (le_of_lt hw)
  have h0 : 0 ≤ roundHE (m / w) := by
    have h1 : (-1 : K) < roundHE (m / w) := by linarith
    have h2 : (-1 : Int) < roundHE (m / w) := by exact_mod_cast h1
    omega
  have hc : ((roundHE (m / w)).toNat : K) = ((roundHE (m / w) : Int) : K) := by
    have : (((roundHE (m / w)).toNat : Int) : K) = ((roundHE (m / w) : Int) : K) := by rw [Int.toNat_of_nonneg h0]
    exact_mod_cast this
  rw [hc]
  have e : m = m / w * w := by field_simp
  constructor
  · nlinarith
  · nlinarith

/-- Visits of bins that are `d` apart. -/
theorem bins_apart {w lo b t u : K} {i j d : Nat} (hw : 0 < w) (hi : inBin (arange lo b w) i t = true)
    (hj : inBin (arange lo b w) j u = true) (hij : i + d = j) : (d : K) * w - w ≤ u - t ∧ u - t ≤ (d : K) * w + w := by
  obtain ⟨h1, h2, _⟩ := inBin_arange hw hi
  obtain ⟨h4, h5, _⟩ := inBin_arange hw hj
  subst hij
  push_cast at h4 h5
  constructor <;> linarith

/-- The result is at most the number of pairs of different times, if three halves of a
bin are allowed for at both ends. -/
theorem pairs_upper (w mMin mMax : K) (hw : 0 < w) (hm : 0 ≤ mMin) (hmm : 0 ≤ mMax) (times : List K) (n : Nat)
    (h : pairs w mMin mMax times = some n) :
    0 < n ∧ n ≤ pairCount (mMin - 3 / 2 * w) (mMax + 3 / 2 * w) times.dedup := by
  unfold pairs at h
  split at h
  · rename_i lo hi _ _
    simp only at h
    split at h
    · cases h
    · rename_i hne
      rw [Option.some.injEq] at h
      rw [h] at hne
      refine ⟨by omega, ?_⟩
      rw [← binPairs_length] at h
      obtain ⟨r1, _⟩ := bins_round hw hm
      obtain ⟨_, r2⟩ := bins_round hw hmm
      generalize (roundHE (mMin / w)).toNat = nMin at *
      generalize (roundHE (mMax / w)).toNat = nMax at *
      have hex : ∀ i : Nat, ∃ x : K, i ∈ occupied w lo hi times → x ∈ times ∧ inBin (arange lo (hi + w) w) i x = true := by
        intro i
        by_cases hi' : i ∈ occupied w lo hi times
        · obtain ⟨x, hx⟩ := (mem_occupied w lo hi times i).mp hi'
          exact ⟨x, fun _ => hx⟩
        · exact ⟨0, fun h => absurd h hi'⟩
      choose rep hrep using hex
      set L := (binPairs nMin nMax (occupied w lo hi times)).map (fun p => (rep p.1, rep p.2)) with hL
      have hLn : L.Nodup := by
        apply List.Nodup.map_on _ (binPairs_nodup _ _ _ (occupied_nodup w lo hi times))
        intro p hp q hq hpq
        rw [mem_binPairs] at hp hq
        simp only [Prod.mk.injEq] at hpq
        have e1 : p.1 = q.1 := bin_unique hw (hrep _ hp.1).2 (by rw [hpq.1]; exact (hrep _ hq.1).2)
        have e2 : p.2 = q.2 := bin_unique hw (hrep _ hp.2.1).2 (by rw [hpq.2]; exact (hrep _ hq.2.1).2)
        exact Prod.ext e1 e2
      have hsub : L ⊆ (times.dedup.product times.dedup).filter
          (fun p => decide (mMin - 3 / 2 * w ≤ p.2 - p.1) && decide (p.2 - p.1 ≤ mMax + 3 / 2 * w)) := by
        intro q hq
        obtain ⟨p, hp, rfl⟩ := List.mem_map.mp hq
        rw [mem_binPairs] at hp
        obtain ⟨p1, p2, p3, p4, p5⟩ := hp
        obtain ⟨a1, a2⟩ := hrep _ p1
        obtain ⟨b1, b2⟩ := hrep _ p2
        obtain ⟨c1, c2⟩ := bins_apart (d := p.2 - p.1) hw a2 b2 (by omega)
        have k1 : (nMin : K) ≤ ((p.2 - p.1 : Nat) : K) := by exact_mod_cast p4
        have k2 : ((p.2 - p.1 : Nat) : K) ≤ (nMax : K) := by exact_mod_cast p5
        have k3 := mul_le_mul_of_nonneg_right k1 (le_of_lt hw)
        have k4 := mul_le_mul_of_nonneg_right k2 (le_of_lt hw)
        rw [List.mem_filter]
        refine ⟨List.pair_mem_product.mpr ⟨List.mem_dedup.mpr a1, List.mem_dedup.mpr b1⟩, ?_⟩
        simp only [Bool.and_eq_true, decide_eq_true_eq]
        constructor <;> linarith
      have := (hLn.subperm hsub).length_le
      rw [hL, List.length_map, h, ← List.countP_eq_length_filter] at this
      exact this
  · cases h

theorem bins_cover {w lo hi x : K} (hw : 0 < w) (hlo : lo < hi) (h1 : lo ≤ x) (h2 : x ≤ hi) :
    ∃ i, inBin (arange lo (hi + w) w) i x = true := by
  have hq : 0 < (hi - lo) / w := div_pos (by linarith) hw
  have he : (hi + w - lo) / w = (hi - lo) / w + 1 := by field_simp; ring
  obtain ⟨k, hk⟩ : ∃ k, ⌈(hi - lo) / w⌉₊ = k + 1 := ⟨⌈(hi - lo) / w⌉₊ - 1, by have := Nat.ceil_pos.mpr hq; omega⟩
  have hlen : ⌈(hi + w - lo) / w⌉₊ = k + 2 := by
    rw [he, Nat.ceil_add_one (le_of_lt hq), hk]
  have hlast : hi ≤ lo + ((k + 1 : Nat) : K) * w := by
    have := Nat.le_ceil ((hi - lo) / w)
    rw [hk, div_le_iff₀ hw] at this
    linarith
  set E := arange lo (hi + w) w with hE
  have hEl : E.length = k + 2 := by simp [hE, arange, hlen]
  have hsorted : E.Pairwise (· ≤ ·) := by
    rw [hE, arange, List.pairwise_map]
    refine List.Pairwise.imp ?_ List.pairwise_lt_range
    intro a b hab
    have : (a : K) ≤ b := by exact_mod_cast le_of_lt hab
    nlinarith
  have h0 : E[0]? = some lo := by
    rw [hE, arange, List.getElem?_map, hlen, List.getElem?_range (by omega)]
    simp
  have hl : E[k + 1]? = some (lo + ((k + 1 : Nat) : K) * w) := by
    rw [hE, arange, List.getElem?_map, hlen, List.getElem?_range (by omega)]
    simp
  match hm : E, hEl with
  | a :: b :: l, hEl =>
    have hl' : l.length = k := by simpa using hEl
    simp only [List.getElem?_cons_zero, Option.some.injEq] at h0
    have hlst : (b :: l).getLast (by simp) = lo + ((k + 1 : Nat) : K) * w := by
      rw [List.getElem?_cons_succ] at hl
      rw [List.getLast_eq_getElem]
      have : (b :: l).length - 1 = k := by simpa using hl'
      simp only [this]
      exact (List.getElem?_eq_some_iff.mp hl).2
    have hb := bins_of a b l hsorted x
    rw [if_pos ⟨by rw [h0]; exact h1, by rw [hlst]; linarith⟩] at hb
    have hpos : 0 < (List.range (l.length + 1)).countP (fun i => inBin (a :: b :: l) i x) := by omega
    obtain ⟨i, _, hi⟩ := List.countP_pos_iff.mp hpos
    exact ⟨i, hi⟩

/-- The result is not bad if there is a pair well within the time range. -/
theorem pairs_found (w mMin mMax : K) (hw : 0 < w) (hm : 0 ≤ mMin) (hmm : 0 ≤ mMax) (times : List K) (t u : K) (ht : t ∈ times)
    (hu : u ∈ times) (h1 : mMin + 3 / 2 * w ≤ u - t) (h2 : u - t ≤ mMax - 3 / 2 * w) : pairs w mMin mMax times ≠ none := by
  unfold pairs
  cases hlo : times.min? with
  | none =>
    rw [List.min?_eq_none_iff] at hlo
    rw [hlo] at ht
    simp at ht
  | some lo =>
    cases hhi : times.max? with
    | none =>
      rw [List.max?_eq_none_iff] at hhi
      rw [hhi] at ht
      simp at ht
    | some hi =>
      simp only
      rw [List.min?_eq_some_iff] at hlo
      rw [List.max?_eq_some_iff] at hhi
      have l1 := hlo.2 t ht
      have l2 := hhi.2 u hu
      have l3 := hlo.2 u hu
      have l4 := hhi.2 t ht
      obtain ⟨i, hi'⟩ := bins_cover hw (lo := lo) (hi := hi) (by linarith) l1 l4
      obtain ⟨j, hj'⟩ := bins_cover hw (lo := lo) (hi := hi) (by linarith) l3 l2
      rw [← binPairs_length]
      obtain ⟨_, r1⟩ := bins_round hw hm
      obtain ⟨r2, _⟩ := bins_round hw hmm
      generalize (roundHE (mMin / w)).toNat = nMin at *
      generalize (roundHE (mMax / w)).toNat = nMax at *
      have hn0 : (0 : K) ≤ nMin := Nat.cast_nonneg _
      obtain ⟨a1, a2, _⟩ := inBin_arange hw hi'
      obtain ⟨b1, b2, _⟩ := inBin_arange hw hj'
      have q1 : (nMin : K) * w ≤ ((j : K) - i) * w := by linarith
      have q2 : ((j : K) - i) * w ≤ (nMax : K) * w := by linarith
      have q1' : (nMin : K) ≤ (j : K) - i := le_of_mul_le_mul_right q1 hw
      have q2' : (j : K) - i ≤ nMax := le_of_mul_le_mul_right q2 hw
      have e1 : nMin + i ≤ j := by
        have : (nMin : K) + i ≤ j := by linarith
        exact_mod_cast this
      have e2 : j ≤ nMax + i := by
        have : (j : K) ≤ nMax + i := by linarith
        exact_mod_cast this
      have hmem : (i, j) ∈ binPairs nMin nMax (occupied w lo hi times) := by
        rw [mem_binPairs]
        refine ⟨(mem_occupied _ _ _ _ _).mpr ⟨t, ht, hi'⟩, (mem_occupied _ _ _ _ _).mpr ⟨u, hu, hj'⟩, ?_, ?_, ?_⟩ <;>
          simp only <;> omega
      have hpos : 0 < (binPairs nMin nMax (occupied w lo hi times)).length := List.length_pos_of_mem hmem
      rw [if_neg (by omega)]
      simp

/-- What holds of the documented meaning, without exact numbers: a result means a pair
within the range up to three halves of a bin, and a pair within the range by as much
gives a result. -/
theorem pairs_partial (w mMin mMax : K) (hw : 0 < w) (hm : 0 ≤ mMin) (hmm : 0 ≤ mMax) (times : List K) :
    (pairs w mMin mMax times ≠ none → 0 < pairCount (mMin - 3 / 2 * w) (mMax + 3 / 2 * w) times) ∧
    (0 < pairCount (mMin + 3 / 2 * w) (mMax - 3 / 2 * w) times → pairs w mMin mMax times ≠ none) := by
  constructor
  · intro h
    obtain ⟨n, hn⟩ := Option.ne_none_iff_exists'.mp h
    obtain ⟨h1, h2⟩ := pairs_upper w mMin mMax hw hm hmm times n hn
    obtain ⟨p, hp, hb⟩ := List.countP_pos_iff.mp (lt_of_lt_of_le h1 h2)
    refine List.countP_pos_iff.mpr ⟨p, ?_, hb⟩
    obtain ⟨q1, q2⟩ := List.pair_mem_product.mp (show (p.1, p.2) ∈ _ from hp)
    exact List.pair_mem_product.mpr ⟨List.mem_dedup.mp q1, List.mem_dedup.mp q2⟩
  · intro h
    obtain ⟨p, hp, hb⟩ := List.countP_pos_iff.mp h
    obtain ⟨q1, q2⟩ := List.pair_mem_product.mp (show (p.1, p.2) ∈ _ from hp)
    simp only [Bool.and_eq_true, decide_eq_true_eq] at hb
    exact pairs_found w mMin mMax hw hm hmm times p.1 p.2 q1 q2 hb.1 hb.2

example : pairs (K := ℚ) 1 2 4 [0, 5 / 2, 11 / 2] = some 2 := by decide +kernel
example : pairs (K := ℚ) 1 2 4 [0, 10] = none := by decide +kernel

end Verif.Pairs
