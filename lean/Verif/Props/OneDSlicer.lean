import Verif.Lemmas.OneDSlicer
import Mathlib.Tactic.Linarith
import Mathlib.Tactic.FieldSimp
import Mathlib.Tactic.Ring
import Mathlib.Tactic.NormNum
import Mathlib.Data.Rat.Floor
import Mathlib.Data.Fin.VecNotation

/-!
# Properties of `OneDSlicer` (C01, C02, C03)
-/

namespace Verif.Slicers
open Verif.Np

section
variable {K : Type*} [Field K] [LinearOrder K] [IsStrictOrderedRing K] [FloorRing K] {n : Nat}

theorem oneDSetup_ok {a : BinArgs K} {vals : Fin n → K} {nb p st} (h : oneDSetup a vals nb p = .ok st) :
    oneDBins a vals nb = .ok st.bins ∧ st.simIdxs = oneDSimIdxs vals st.bins p := by
  unfold oneDSetup at h
  cases hb : oneDBins a vals nb with
  | error e => simp [hb, bind, Except.bind] at h
  | ok b =>
    simp only [hb, bind, Except.bind, pure, Except.pure, Except.ok.injEq] at h
    subst h
    exact ⟨rfl, rfl⟩

/-- **C01.** Whatever the bins (given or derived), whatever tie order `argsort`
chose: there is one slice per pair of neighbouring edges, and slice `i` holds
each row `j` at most once, and exactly when `bins[i] ≤ vals j < bins[i+1]`. -/
theorem oneD_slice_exact (a : BinArgs K) (vals : Fin n → K) (nb : K → K → Nat)
    (p : List (Fin n)) (hp : IsArgsort vals p) (st : OneDState K n)
    (h : oneDSetup a vals nb p = .ok st) :
    st.simIdxs.length = st.bins.length - 1 ∧
    ∀ (i : Nat) (s : List (Fin n)), st.simIdxs[i]? = some s →
      ∃ lo hi, st.bins[i]? = some lo ∧ st.bins[i + 1]? = some hi ∧ s.Nodup ∧
        ∀ j, j ∈ s ↔ lo ≤ vals j ∧ vals j < hi := by
  obtain ⟨-, hs⟩ := oneDSetup_ok h
  rw [hs]
  exact ⟨oneDSimIdxs_length _ _ _, fun i s => oneDSimIdxs_mem vals st.bins p hp i s⟩

/-- **C02.** With non-decreasing edges `b₀ ≤ … ≤ b_m` (at least two of them),
a row with a value in `[b₀, b_m)` is yielded in exactly one slice, and any
other row in none. -/
theorem oneD_partition (a : BinArgs K) (vals : Fin n → K) (nb : K → K → Nat)
    (p : List (Fin n)) (hp : IsArgsort vals p) (st : OneDState K n)
    (h : oneDSetup a vals nb p = .ok st)
    (hsorted : st.bins.Pairwise (· ≤ ·)) (b₀ bₘ : K)
    (hfirst : st.bins.head? = some b₀) (hlast : st.bins.getLast? = some bₘ) (j : Fin n) :
    (b₀ ≤ vals j ∧ vals j < bₘ → ∃! i : Nat, ∃ s : List (Fin n), st.simIdxs[i]? = some s ∧ j ∈ s) ∧
    (¬ (b₀ ≤ vals j ∧ vals j < bₘ) → ∀ (i : Nat) (s : List (Fin n)), st.simIdxs[i]? = some s → j ∉ s) := by
  obtain ⟨hlen, hex⟩ := oneD_slice_exact a vals nb p hp st h
  have hpos : 0 < st.bins.length := by
    rcases hb : st.bins with _ | ⟨x, xs⟩
    · simp [hb] at hfirst
    · simp
  have hb0 : st.bins[0] = b₀ := by
    have := hfirst; rw [List.head?_eq_getElem?, List.getElem?_eq_getElem hpos] at this
    exact Option.some.inj this
  have hbm : st.bins[st.bins.length - 1] = bₘ := by
    have := hlast; rw [List.getLast?_eq_getElem?, List.getElem?_eq_getElem (by omega)] at this
    exact Option.some.inj this
  constructor
  · rintro ⟨h0, h1⟩
    obtain ⟨i, hi, hl, hr⟩ := exists_bracket st.bins (vals j) (st.bins.length - 1) (by omega)
      (by intro b hb; rw [hfirst] at hb; cases hb; exact h0) (by rw [hbm]; exact h1)
    have hi' : i < st.simIdxs.length := by omega
    refine ⟨i, ⟨st.simIdxs[i], by simp, ?_⟩, ?_⟩
    · obtain ⟨lo, hi2, e1, e2, -, hm⟩ := hex i _ (List.getElem?_eq_getElem hi')
      rw [List.getElem?_eq_getElem (by omega)] at e1 e2
      cases e1; cases e2
      exact (hm j).mpr ⟨hl, hr⟩
    · rintro i' ⟨s, hs, hjs⟩
      obtain ⟨lo, hi2, e1, e2, -, hm⟩ := hex i' s hs
      obtain ⟨hlo, hhi⟩ := (hm j).mp hjs
      have l1 := (List.getElem?_eq_some_iff.mp e2).1
      rw [List.getElem?_eq_getElem (by omega)] at e1 e2
      cases e1; cases e2
      by_contra hne
      rcases Nat.lt_or_ge i' i with hlt | hge
      · have := sorted_get_le hsorted (show i' + 1 ≤ i by omega) (by omega)
        exact absurd (lt_of_lt_of_le hhi this) (not_lt.mpr hl)
      · have := sorted_get_le hsorted (show i + 1 ≤ i' by omega) (by omega)
        exact absurd (lt_of_lt_of_le hr this) (not_lt.mpr hlo)
  · intro hn i s hs hjs
    obtain ⟨lo, hi2, e1, e2, -, hm⟩ := hex i s hs
    obtain ⟨hlo, hhi⟩ := (hm j).mp hjs
    have l1 := (List.getElem?_eq_some_iff.mp e2).1
    rw [List.getElem?_eq_getElem (by omega)] at e1 e2
    cases e1; cases e2
    apply hn
    constructor
    · rw [← hb0]; exact le_trans (sorted_get_le hsorted (Nat.zero_le i) (by omega)) hlo
    · rw [← hbm]; exact lt_of_lt_of_le hhi (sorted_get_le hsorted (by omega) (by omega))

/-- **C02**, counting form: concatenating all slices lists every row with a
value in `[b₀, b_m)` exactly once and nothing else; in particular the slice
sizes add up to the number of such rows. -/
theorem oneD_concat_perm (a : BinArgs K) (vals : Fin n → K) (nb : K → K → Nat)
    (p : List (Fin n)) (hp : IsArgsort vals p) (st : OneDState K n)
    (h : oneDSetup a vals nb p = .ok st)
    (hsorted : st.bins.Pairwise (· ≤ ·)) (b₀ bₘ : K)
    (hfirst : st.bins.head? = some b₀) (hlast : st.bins.getLast? = some bₘ) :
    st.simIdxs.flatten.Perm
      ((List.finRange n).filter (fun j => decide (b₀ ≤ vals j ∧ vals j < bₘ))) := by
  obtain ⟨hlen, hex⟩ := oneD_slice_exact a vals nb p hp st h
  have hpart := oneD_partition a vals nb p hp st h hsorted b₀ bₘ hfirst hlast
  rw [List.perm_ext_iff_of_nodup]
  · intro j
    simp only [List.mem_flatten, List.mem_filter, List.mem_finRange, true_and, decide_eq_true_eq]
    constructor
    · rintro ⟨s, hs, hj⟩
      obtain ⟨i, hi, rfl⟩ := List.getElem_of_mem hs
      by_contra hn
      exact (hpart j).2 hn i _ (List.getElem?_eq_getElem hi) hj
    · intro hv
      obtain ⟨i, ⟨s, hs, hj⟩, -⟩ := (hpart j).1 hv
      exact ⟨s, List.mem_of_getElem? hs, hj⟩
  · rw [List.nodup_flatten]
    constructor
    · intro s hs
      obtain ⟨i, hi, rfl⟩ := List.getElem_of_mem hs
      obtain ⟨_, _, _, _, hnd, _⟩ := hex i _ (List.getElem?_eq_getElem hi)
      exact hnd
    · rw [List.pairwise_iff_getElem]
      intro i k hi hk hik
      rw [List.disjoint_left]
      intro j hji hjk
      by_cases hv : b₀ ≤ vals j ∧ vals j < bₘ
      · obtain ⟨w, -, huniq⟩ := (hpart j).1 hv
        have e1 := huniq i ⟨_, List.getElem?_eq_getElem hi, hji⟩
        have e2 := huniq k ⟨_, List.getElem?_eq_getElem hk, hjk⟩
        omega
      · exact (hpart j).2 hv i _ (List.getElem?_eq_getElem hi) hji
  · exact (List.nodup_finRange n).filter _

/-- The documented contract of the class (`one_d_slicer.py:36-39`): all bins are
half-open except the last, which is closed, so that every value between the
first and the last edge, both included, is in some slice. -/
def LastBinClosed (a : BinArgs K) (vals : Fin n → K) (nb : K → K → Nat) (p : List (Fin n)) : Prop :=
  ∀ st, oneDSetup a vals nb p = .ok st → ∀ b₀ bₘ, st.bins.head? = some b₀ →
    st.bins.getLast? = some bₘ → ∀ j, b₀ ≤ vals j → vals j ≤ bₘ → ∃ s ∈ st.simIdxs, j ∈ s

/-- **C03**, what the code does: with non-decreasing edges a row whose value
equals (or exceeds) the last edge is in no slice at all. -/
theorem oneD_last_edge_dropped (a : BinArgs K) (vals : Fin n → K) (nb : K → K → Nat)
    (p : List (Fin n)) (hp : IsArgsort vals p) (st : OneDState K n)
    (h : oneDSetup a vals nb p = .ok st) (hsorted : st.bins.Pairwise (· ≤ ·)) (bₘ : K)
    (hlast : st.bins.getLast? = some bₘ) (j : Fin n) (hj : bₘ ≤ vals j) :
    ∀ s ∈ st.simIdxs, j ∉ s := by
  intro s hs
  obtain ⟨i, hi, rfl⟩ := List.getElem_of_mem hs
  cases hb : st.bins.head? with
  | none =>
    rw [List.head?_eq_none_iff] at hb
    simp [hb] at hlast
  | some b₀ =>
    exact (oneD_partition a vals nb p hp st h hsorted b₀ bₘ hb hlast j).2
      (fun hv => absurd hv.2 (not_lt.mpr hj)) i _ (List.getElem?_eq_getElem hi)

/-- The part of the documented contract that holds: values strictly below the
last edge are covered. Missing: values equal to the last edge. -/
theorem oneD_last_bin_closed_partial (a : BinArgs K) (vals : Fin n → K) (nb : K → K → Nat)
    (p : List (Fin n)) (hp : IsArgsort vals p) (st : OneDState K n)
    (h : oneDSetup a vals nb p = .ok st) (b₀ bₘ : K)
    (hfirst : st.bins.head? = some b₀) (hlast : st.bins.getLast? = some bₘ) (j : Fin n)
    (h0 : b₀ ≤ vals j) (h1 : vals j < bₘ) : ∃ s ∈ st.simIdxs, j ∈ s := by
  obtain ⟨hlen, hex⟩ := oneD_slice_exact a vals nb p hp st h
  have hpos : 0 < st.bins.length := by
    rcases hb : st.bins with _ | ⟨x, xs⟩
    · simp [hb] at hfirst
    · simp
  have hbm : st.bins[st.bins.length - 1] = bₘ := by
    have := hlast; rw [List.getLast?_eq_getElem?, List.getElem?_eq_getElem (by omega)] at this
    exact Option.some.inj this
  obtain ⟨i, hi, hl, hr⟩ := exists_bracket st.bins (vals j) (st.bins.length - 1) (by omega)
    (by intro b hb; rw [hfirst] at hb; cases hb; exact h0) (by rw [hbm]; exact h1)
  have hi' : i < st.simIdxs.length := by omega
  refine ⟨st.simIdxs[i], List.getElem_mem _, ?_⟩
  obtain ⟨lo, hi2, e1, e2, -, hm⟩ := hex i _ (List.getElem?_eq_getElem hi')
  rw [List.getElem?_eq_getElem (by omega)] at e1 e2
  cases e1; cases e2
  exact (hm j).mpr ⟨hl, hr⟩

theorem arange_exact (lo hi : K) (k : Nat) (hk : 0 < k) (hlt : lo < hi) :
    arange lo (hi + (hi - lo) / (k : K) / 2) ((hi - lo) / (k : K)) =
      (List.range (k + 1)).map (fun (i : Nat) => lo + (i : K) * ((hi - lo) / (k : K))) := by
  have hk' : (0 : K) < k := by exact_mod_cast hk
  have hd : 0 < hi - lo := sub_pos.mpr hlt
  have e : (hi + (hi - lo) / (k : K) / 2 - lo) / ((hi - lo) / (k : K)) = (k : K) + 1 / 2 := by
    field_simp
    ring
  have c : ⌈(k : K) + 1 / 2⌉ = (k : ℤ) + 1 := by
    rw [Int.ceil_eq_iff]
    push_cast
    constructor <;> linarith
  unfold arange
  rw [e, c]
  congr 1

/-- **C03**, in the default use: when the edges are derived from the data (no
bin argument given; data not constant; a positive number of bins) the last edge
is the data maximum, so every visit attaining the maximum is in no slice. -/
theorem oneD_auto_bins_drop_maximum (vals : Fin n → K) (nb : K → K → Nat)
    (p : List (Fin n)) (hp : IsArgsort vals p) (st : OneDState K n)
    (h : oneDSetup {} vals nb p = .ok st) (lo hi : K)
    (hlo : (column vals).min? = some lo) (hhi : (column vals).max? = some hi) (hlt : lo < hi)
    (hnb : 0 < nb lo hi) :
    st.bins.getLast? = some hi ∧ ∀ j, vals j = hi → ∀ s ∈ st.simIdxs, j ∉ s := by
  obtain ⟨hb, -⟩ := oneDSetup_ok h
  have hk' : (0 : K) < nb lo hi := by exact_mod_cast hnb
  have hd : 0 < hi - lo := sub_pos.mpr hlt
  have hsz : 0 < (hi - lo) / (nb lo hi : K) := div_pos hd hk'
  simp only [oneDBins, Option.none_or, hlo, hhi, hlt.ne, if_false, hsz.ne', arange_exact lo hi _ hnb hlt,
    Except.ok.injEq] at hb
  have hlast : st.bins.getLast? = some hi := by
    rw [← hb, List.range_succ, List.map_append]
    simp only [List.map_cons, List.map_nil, List.getLast?_append, List.getLast?_singleton,
      Option.some_or, Option.some.injEq]
    field_simp
    ring
  refine ⟨hlast, fun j hj => oneD_last_edge_dropped {} vals nb p hp st h ?_ hi hlast j hj.ge⟩
  rw [← hb, List.pairwise_map]
  refine (List.pairwise_lt_range).imp (fun {x y} hxy => ?_)
  have : (x : K) ≤ y := by exact_mod_cast hxy.le
  have := mul_le_mul_of_nonneg_right this hsz.le
  linarith

end

/-- **C03**, refutation of the documented contract: with edges `[0,1,2]` and a
visit of value `2` the last bin is not closed. -/
theorem oneD_last_bin_closed_false :
    ¬ ∀ (a : BinArgs ℚ) (vals : Fin 1 → ℚ) (nb : ℚ → ℚ → Nat) (p : List (Fin 1)),
      IsArgsort vals p → LastBinClosed a vals nb p := by
  intro h
  have hp : IsArgsort (fun _ : Fin 1 => (2 : ℚ)) [0] := ⟨List.Perm.refl _, by simp⟩
  obtain ⟨s, hs, hj⟩ := h { bins := some [0, 1, 2] } (fun _ => 2) (fun _ _ => 1) [0] hp
    _ rfl 0 2 rfl rfl 0 (by norm_num) le_rfl
  exact oneD_last_edge_dropped (K := ℚ) { bins := some [0, 1, 2] } (fun _ => 2) (fun _ _ => 1) [0] hp
    _ rfl (by simp) 2 rfl 0 le_rfl s hs hj

/-- Giving `bins` together with another bin argument does not fall back on
`bins` as documented ("bins >> bin_min/bin_max/bin_size") but always fails. -/
theorem oneD_bins_with_other_args_fails {K : Type*} [Field K] [LinearOrder K]
    [IsStrictOrderedRing K] [FloorRing K] {n : Nat} (b : List K) (a : BinArgs K) (vals : Fin n → K)
    (nb : K → K → Nat) (p : List (Fin n)) (hb : a.bins = some b)
    (h : a.binMin ≠ none ∨ a.binMax ≠ none ∨ a.binSize ≠ none) :
    oneDSetup a vals nb p = .error .attributeError := by
  have : (a.binMin.isSome || a.binMax.isSome || a.binSize.isSome) = true := by
    simp only [Bool.or_eq_true, Option.isSome_iff_ne_none]
    tauto
  simp [oneDSetup, oneDBins, hb, this, bind, Except.bind]

/-- Non-vacuity for C01/C02: five rows, three edges, out-of-order data with a
tie, with values below, in and above the bins. -/
example : oneDSetup (K := ℚ) { bins := some [0, 1, 3] } ![2, 0, 5, 0, -1] (fun _ _ => 1)
      (argsort (α := ℚ) ![2, 0, 5, 0, -1]) = .ok ⟨[0, 1, 3], [[1, 3], [0]]⟩ ∧
    IsArgsort (α := ℚ) ![2, 0, 5, 0, -1] (argsort (α := ℚ) ![2, 0, 5, 0, -1]) ∧
    ([0, 1, 3] : List ℚ).Pairwise (· ≤ ·) :=
  ⟨by decide +kernel, argsort_isArgsort _, by decide +kernel⟩

/-- Non-vacuity for C03 (derived edges): data 0, 4, 1 and two bins. -/
example : oneDSetup (K := ℚ) {} ![0, 4, 1] (fun _ _ => 2) (argsort (α := ℚ) ![0, 4, 1])
      = .ok ⟨[0, 2, 4], [[0, 2], []]⟩ ∧
    (column (K := ℚ) ![0, 4, 1]).min? = some 0 ∧ (column (K := ℚ) ![0, 4, 1]).max? = some 4 :=
  ⟨by decide +kernel, by decide +kernel, by decide +kernel⟩

end Verif.Slicers
