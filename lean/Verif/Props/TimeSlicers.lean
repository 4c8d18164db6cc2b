import Verif.Lemmas.TimeSlicers
import Mathlib.Data.Rat.Floor
import Mathlib.Data.Fin.VecNotation
import Mathlib.Tactic.NormNum

/-!
# Properties of the time interval slicers (C06, C07, C08, C09, C43) and of slicer
iteration (C10)
-/

namespace Verif.Slicers
open Verif.Np

section TimeInterval
variable {K : Type*} [Field K] [LinearOrder K] [IsStrictOrderedRing K] [FloorRing K] {n : Nat}

/-- The documented meaning of a slice point `(t, d)`: the visits with
`t ≤ mjd < t + d`. -/
def InWindow (t d v : K) : Prop := t ≤ v ∧ v < t + d

theorem timeSetup_spec {d : K} (hd : 0 < d) {vals : Fin n → K} {st : TimeState K n}
    (h : timeSetup d vals = some st) :
    ∃ start : ℤ, (∀ j, (start : K) ≤ vals j) ∧
      (∀ i (hi : i < st.mjds.length), st.mjds[i] = (start : K) + (i : K) * d) ∧
      ∀ i j, i < st.mjds.length + 1 → (st.sid j = i ↔ 0 < i ∧
        InWindow ((start : K) + ((i - 1 : Nat) : K) * d) d (vals j)) := by
  unfold timeSetup at h
  split at h
  case h_2 => simp at h
  case h_1 lo hi hlo hhi =>
    simp only [Option.some.injEq] at h
    subst h
    have hmin : ∀ j, lo ≤ vals j := by
      intro j
      exact (List.min?_eq_some_iff.mp hlo).2 (vals j) (by simp [column])
    have hst : ∀ j, ((⌊lo⌋ : ℤ) : K) ≤ vals j := fun j => le_trans (Int.floor_le lo) (hmin j)
    refine ⟨⌊lo⌋, hst, fun i hi => arange_get _ _ _ i hi, fun i j hii => ?_⟩
    simp only [arange_length] at hii
    have hpos : ∀ j : Fin n, (0 : ℤ) ≤ ⌈hi⌉ - ⌊lo⌋ := by
      intro j
      have h1 : lo ≤ hi := le_trans (hmin j) ((List.max?_eq_some_iff.mp hhi).2 (vals j) (by simp [column]))
      have h2 := Int.floor_le lo
      have h3 := Int.le_ceil hi
      have : ((⌊lo⌋ : ℤ) : K) ≤ ((⌈hi⌉ : ℤ) : K) := le_trans h2 (le_trans h1 h3)
      have : ⌊lo⌋ ≤ ⌈hi⌉ := by exact_mod_cast this
      omega
    have hlen : ⌈((⌈hi⌉ : ℤ) + d - (⌊lo⌋ : ℤ) : K) / d⌉.toNat =
        ⌈(((⌈hi⌉ : ℤ) : K) - (⌊lo⌋ : ℤ)) / d⌉.toNat + 1 := by
      have e : (((⌈hi⌉ : ℤ) : K) + d - (⌊lo⌋ : ℤ)) / d = (((⌈hi⌉ : ℤ) : K) - (⌊lo⌋ : ℤ)) / d + 1 := by
        field_simp
        ring
      rw [e, Int.ceil_add_one]
      have h0 : (0 : K) ≤ (((⌈hi⌉ : ℤ) : K) - (⌊lo⌋ : ℤ)) / d := by
        apply div_nonneg _ hd.le
        have := hpos j
        have : ((0 : ℤ) : K) ≤ ((⌈hi⌉ - ⌊lo⌋ : ℤ) : K) := by exact_mod_cast this
        push_cast at this
        exact this
      have := Int.ceil_nonneg h0
      omega
    have hmain := digitize_uniform ((⌊lo⌋ : ℤ) : K) d (vals j) hd
      (⌈((⌈hi⌉ : ℤ) + d - (⌊lo⌋ : ℤ) : K) / d⌉.toNat) i (hst j) (by rw [hlen]; exact hii)
    show digitize (vals j) (arange _ _ _) = i ↔ _
    unfold arange
    rw [hmain]
    constructor
    · rintro ⟨h0, h1, h2⟩
      refine ⟨h0, h1, ?_⟩
      have e2 : (i : K) = ((i - 1 : Nat) : K) + 1 := by
        have : i = (i - 1) + 1 := by omega
        conv_lhs => rw [this]
        push_cast; ring
      rw [e2] at h2
      linarith
    · rintro ⟨h0, h1, h2⟩
      refine ⟨h0, h1, ?_⟩
      have e2 : (i : K) = ((i - 1 : Nat) : K) + 1 := by
        have : i = (i - 1) + 1 := by omega
        conv_lhs => rw [this]
        push_cast; ring
      rw [e2]
      linarith

theorem slice_rows (st : TimeState K n) (i : Nat) (x : Idxs n) (t : K) (h : st.slice i = some (x, t)) :
    ∃ hi : i < st.mjds.length, t = st.mjds[i] ∧ ∀ j, j ∈ x.rows ↔ st.sid j = i := by
  unfold TimeState.slice at h
  cases hm : st.mjds[i]? with
  | none => simp [hm] at h
  | some t' =>
    obtain ⟨hi, ht⟩ := List.getElem?_eq_some_iff.mp hm
    simp only [hm, Option.map_some, Option.some.injEq, Prod.mk.injEq] at h
    obtain ⟨hx, rfl⟩ := h
    refine ⟨hi, ht.symm, fun j => ?_⟩
    have hg : j ∈ st.group i ↔ st.sid j = i := by simp [TimeState.group]
    rw [← hg, ← hx]
    cases hgr : st.group i with
    | nil => simp [Idxs.rows]
    | cons a l => simp [Idxs.rows]

/-- **C06**, refutation of the documented meaning, in the strongest form: for
*every* table of visits and every positive interval, no slice ever contains a
visit of its own window `[mjd, mjd + duration)`. -/
theorem timeInterval_slice_never_own_window (d : K) (hd : 0 < d) (vals : Fin n → K)
    (st : TimeState K n) (h : timeSetup d vals = some st) (i : Nat) (x : Idxs n) (t : K)
    (hx : st.slice i = some (x, t)) : ∀ j ∈ x.rows, ¬ InWindow t d (vals j) := by
  obtain ⟨start, -, hm, hg⟩ := timeSetup_spec hd h
  obtain ⟨hi, rfl, hr⟩ := slice_rows st i x t hx
  intro j hj hw
  obtain ⟨h0, h1, h2⟩ := (hg i j (by omega)).mp ((hr j).mp hj)
  rw [hm i hi] at hw
  have e2 : (i : K) = ((i - 1 : Nat) : K) + 1 := by
    have : i = (i - 1) + 1 := by omega
    conv_lhs => rw [this]
    push_cast; ring
  have := hw.1
  rw [e2] at this
  linarith

/-- **C06**, what holds: slice `0` has no visits, slice `i+1` holds exactly the
visits in the window of slice *point* `i` (one window too early), no visit is in
two slices. Missing with respect to the documented claim: the slice number is
shifted by one, and the visits of the last window are in no slice at all. -/
theorem timeInterval_shifted_partial (d : K) (hd : 0 < d) (vals : Fin n → K)
    (st : TimeState K n) (h : timeSetup d vals = some st) :
    (∀ x t, st.slice 0 = some (x, t) → x.rows = []) ∧
    (∀ i x t t', st.mjds[i]? = some t' → st.slice (i + 1) = some (x, t) →
      ∀ j, j ∈ x.rows ↔ InWindow t' d (vals j)) ∧
    (∀ i k x y t u j, st.slice i = some (x, t) → st.slice k = some (y, u) → j ∈ x.rows → j ∈ y.rows → i = k) ∧
    (∀ tl, st.mjds.getLast? = some tl → ∀ j, tl ≤ vals j → ∀ i x t, st.slice i = some (x, t) → j ∉ x.rows) := by
  obtain ⟨start, -, hm, hg⟩ := timeSetup_spec hd h
  refine ⟨?_, ?_, ?_, ?_⟩
  · intro x t hx
    obtain ⟨hi, -, hr⟩ := slice_rows st 0 x t hx
    rw [List.eq_nil_iff_forall_not_mem]
    intro j hj
    have := (hg 0 j (by omega)).mp ((hr j).mp hj)
    omega
  · intro i x t t' ht' hx j
    obtain ⟨hi, -, hr⟩ := slice_rows st (i + 1) x t hx
    obtain ⟨hi', e⟩ := List.getElem?_eq_some_iff.mp ht'
    rw [hr j, hg (i + 1) j (by omega), ← e, hm i hi']
    simp
  · intro i k x y t u j hx hy hjx hjy
    obtain ⟨-, -, hr⟩ := slice_rows st i x t hx
    obtain ⟨-, -, hr'⟩ := slice_rows st k y u hy
    exact ((hr j).mp hjx).symm.trans ((hr' j).mp hjy)
  · intro tl htl j hj i x t hx hjx
    obtain ⟨hi, -, hr⟩ := slice_rows st i x t hx
    obtain ⟨h0, h1, h2⟩ := (hg i j (by omega)).mp ((hr j).mp hjx)
    rw [List.getLast?_eq_getElem?, List.getElem?_eq_getElem (by omega)] at htl
    cases htl
    rw [hm _ (by omega)] at hj
    have : (((i - 1 : Nat) : K)) + 1 ≤ ((st.mjds.length - 1 : Nat) : K) := by
      have : (i - 1) + 1 ≤ st.mjds.length - 1 := by omega
      exact_mod_cast this
    have := mul_le_mul_of_nonneg_right this hd.le
    linarith

/-- **C43**. An interval without visits is not reported as an empty slice: the
index returned has outer length 1, so the bundle runner (which tests
`len(sim_data[idxs]) == 0`) does not mask it. This happens for slice 0 of every
table. -/
theorem timeInterval_empty_not_reported (d : K) (hd : 0 < d) (vals : Fin n → K)
    (st : TimeState K n) (h : timeSetup d vals = some st) :
    (∀ i x t, st.slice i = some (x, t) → x.rows = [] → x.outerLen = 1) ∧
    (∀ i x t, st.slice i = some (x, t) → x.outerLen ≠ 0) ∧
    (0 < st.mjds.length → ∃ x t, st.slice 0 = some (x, t) ∧ x.rows = [] ∧ x.outerLen = 1) := by
  have key : ∀ i x t, st.slice i = some (x, t) →
      x = (match st.group i with | [] => Idxs.nested [[]] | r => Idxs.flat r) := by
    intro i x t hx
    unfold TimeState.slice at hx
    cases hm : st.mjds[i]? with
    | none => simp [hm] at hx
    | some t' =>
      simp only [hm, Option.map_some, Option.some.injEq, Prod.mk.injEq] at hx
      exact hx.1.symm
  refine ⟨?_, ?_, ?_⟩
  · intro i x t hx hr
    have := key i x t hx
    subst this
    cases hg : st.group i with
    | nil => simp [Idxs.outerLen]
    | cons a l => simp [hg, Idxs.rows] at hr
  · intro i x t hx
    have := key i x t hx
    subst this
    cases hg : st.group i with
    | nil => simp [Idxs.outerLen]
    | cons a l => simp [Idxs.outerLen]
  · intro hpos
    obtain ⟨start, -, hm, hgr⟩ := timeSetup_spec hd h
    have hnil : st.group 0 = [] := by
      rw [List.eq_nil_iff_forall_not_mem]
      intro j hj
      have : st.sid j = 0 := by simpa [TimeState.group] using hj
      have := (hgr 0 j (by omega)).mp this
      omega
    refine ⟨.nested [[]], st.mjds[0], ?_, by simp [Idxs.rows], rfl⟩
    simp [TimeState.slice, hnil]

end TimeInterval

/-- Non-vacuity for C06/C43: half-day intervals, visits at 10.25, 10.75, 11.5;
the visit at 10.25 is in the slice advertised as `[10.5, 11)`. -/
example : ∃ st : TimeState ℚ 3, timeSetup (1/2) ![(41/4), (43/4), (23/2)] = some st ∧
    (List.range 5).map st.slice = [some (.nested [[]], 10), some (.flat [0], 21/2), some (.flat [1], 11),
      some (.nested [[]], 23/2), none] := by
  refine ⟨_, rfl, ?_⟩
  decide +kernel

section Block
variable {K : Type*} [Field K] [LinearOrder K] [IsStrictOrderedRing K] {n : Nat}

/-- **C07.** For any visits and any order `p` of them that sorts the start
times: block `i` is a list of rows; concatenating blocks `0 … nslice-1` gives
the time-sorted visits (so every visit is in exactly one block and blocks are
contiguous runs), no block is empty, and the visits at positions `i ≤ k` of the
time order are in the same block exactly when no break lies between them, a
break after position `m` meaning: the notes differ, or the next start is not
before the end plus the tolerance. -/
theorem block_partition (tol : K) (vis : Fin n → BlockVisit K) (p : List (Fin n))
    (hp : IsArgsort (fun j => (vis j).mjd) p) :
    ((List.range (blockNslice tol vis p)).flatMap (blockSlice tol vis p) = p) ∧
    (∀ i, i < blockNslice tol vis p → blockSlice tol vis p i ≠ []) ∧
    (∀ i k (hik : i ≤ k) (hk : k < p.length),
      (∃ b, p[i] ∈ blockSlice tol vis p b ∧ p[k] ∈ blockSlice tol vis p b) ↔
      ∀ m (_ : i ≤ m) (hmk : m < k), (vis p[m]).note = (vis p[m + 1]).note ∧
        (vis p[m + 1]).mjd < (vis p[m]).endMjd + tol) := by
  set l := p.map vis with hl
  have hll : l.length = p.length := by simp [hl]
  have hsl : (blockSids tol l).length = p.length := by rw [blockSids_length, hll]
  -- block numbers are below `nslice`
  have hbound : ∀ s ∈ blockSids tol l, s < (blockSids tol l).dedup.length := by
    intro s hs
    have hcard : (blockSids tol l).dedup.length = (blockSids tol l).toFinset.card := by
      rw [List.card_toFinset]
    rw [hcard]
    obtain ⟨k, hk, rfl⟩ := List.getElem_of_mem hs
    have hsub : Finset.range ((blockSids tol l)[k] + 1) ⊆ (blockSids tol l).toFinset := by
      intro x hx
      rw [List.mem_toFinset]
      exact blockSids_surj tol l k (by rw [hll, ← hsl]; exact hk) x
        (by have := Finset.mem_range.mp hx; omega)
    have := Finset.card_le_card hsub
    rw [Finset.card_range] at this
    omega
  have hmem : ∀ i s, s ∈ blockSlice tol vis p i ↔ ∃ k, ∃ h : k < p.length, p[k] = s ∧
      (blockSids tol l)[k]'(by rw [hsl]; exact h) = i := by
    intro i s
    simp only [blockSlice, blockRows, List.mem_map, List.mem_filter, Prod.exists, decide_eq_true_eq]
    constructor
    · rintro ⟨a, b, ⟨hz, rfl⟩, rfl⟩
      obtain ⟨k, hk, e⟩ := List.getElem_of_mem hz
      rw [List.getElem_zip] at e
      simp only [Prod.mk.injEq] at e
      rw [List.length_zip] at hk
      exact ⟨k, by omega, e.2, e.1⟩
    · rintro ⟨k, hk, rfl, rfl⟩
      refine ⟨_, _, ⟨?_, rfl⟩, rfl⟩
      have hk2 : k < ((blockSids tol l).zip p).length := by rw [List.length_zip, hsl]; omega
      have : ((blockSids tol l).zip p)[k] = ((blockSids tol l)[k]'(by rw [hsl]; exact hk), p[k]) :=
        List.getElem_zip
      rw [← this]
      exact List.getElem_mem _
  refine ⟨?_, ?_, ?_⟩
  · have h1 : ((blockRows tol vis p).map Prod.fst) = blockSids tol l := by
      unfold blockRows
      rw [List.map_fst_zip]
      rw [← hl, hsl]
    have h2 : (blockRows tol vis p).map Prod.snd = p := by
      unfold blockRows
      rw [List.map_snd_zip]
      rw [← hl, hsl]
    have h3 := flatMap_groups (blockRows tol vis p) (by rw [h1]; exact blockSids_pairwise tol l)
      (blockNslice tol vis p) (by
        intro x hx
        apply hbound
        rw [← h1]
        exact List.mem_map_of_mem hx)
    conv_rhs => rw [← h2, ← h3]
    rw [List.map_flatMap]
    rfl
  · intro i hi
    have hmemi : i ∈ blockSids tol l := by
      have hcard : (blockSids tol l).dedup.length = (blockSids tol l).toFinset.card := by
        rw [List.card_toFinset]
      unfold blockNslice at hi
      rw [← hl, hcard] at hi
      -- some block number is at least `i`
      by_contra hni
      have hlt : ∀ s ∈ (blockSids tol l).toFinset, s ∈ Finset.range i := by
        intro s hs
        rw [List.mem_toFinset] at hs
        rw [Finset.mem_range]
        by_contra hge
        obtain ⟨k, hk, rfl⟩ := List.getElem_of_mem hs
        exact hni (blockSids_surj tol l k (by rw [hll, ← hsl]; exact hk) i (by omega))
      have := Finset.card_le_card (show (blockSids tol l).toFinset ⊆ Finset.range i from hlt)
      rw [Finset.card_range] at this
      omega
    obtain ⟨k, hk, e⟩ := List.getElem_of_mem hmemi
    have hk' : k < p.length := by rw [← hsl]; exact hk
    intro hnil
    have := (hmem i p[k]).mpr ⟨k, hk', rfl, e⟩
    rw [hnil] at this
    simp at this
  · intro i k hik hk
    have hsame : (∃ b, p[i] ∈ blockSlice tol vis p b ∧ p[k] ∈ blockSlice tol vis p b) ↔
        (blockSids tol l)[i]'(by rw [hsl]; omega) = (blockSids tol l)[k]'(by rw [hsl]; exact hk) := by
      constructor
      · rintro ⟨b, hb1, hb2⟩
        obtain ⟨i', h1, e1, e2⟩ := (hmem b _).mp hb1
        obtain ⟨k', h2, e3, e4⟩ := (hmem b _).mp hb2
        have := (List.Nodup.getElem_inj_iff hp.nodup).mp e1
        subst this
        have := (List.Nodup.getElem_inj_iff hp.nodup).mp e3
        subst this
        rw [e2, e4]
      · intro e
        exact ⟨_, (hmem _ _).mpr ⟨i, by omega, rfl, rfl⟩, (hmem _ _).mpr ⟨k, hk, rfl, e.symm⟩⟩
    rw [hsame]
    have hstep : ∀ m (hm : m + 1 < p.length), (blockBreak tol (vis p[m]) (vis p[m + 1])) = false ↔
        (vis p[m]).note = (vis p[m + 1]).note ∧ (vis p[m + 1]).mjd < (vis p[m]).endMjd + tol := by
      intro m hm
      simp [blockBreak]
    have hsucc : ∀ m (hm : m + 1 < p.length), (blockSids tol l)[m + 1]'(by rw [hsl]; exact hm) =
        (blockSids tol l)[m]'(by rw [hsl]; omega) +
          (blockBreak tol (vis p[m]) (vis p[m + 1])).toNat := by
      intro m hm
      have := blockSids_succ tol l m (by rw [hll]; exact hm)
      simpa [hl] using this
    clear hsame
    induction k with
    | zero =>
      have : i = 0 := by omega
      subst this
      simp
    | succ k ih =>
      rcases Nat.lt_or_ge i (k + 1) with hlt | hge
      · have ih := ih (by omega) (by omega) hstep hsucc
        have hmono := blockSids_mono tol l i k (by omega) (by rw [hll]; omega)
        rw [hsucc k hk]
        constructor
        · intro he m him hmk
          have h0 : (blockBreak tol (vis p[k]) (vis p[k + 1])).toNat = 0 := by omega
          rcases Nat.lt_or_ge m k with hm | hm
          · exact ih.mp (by omega) m him hm
          · have : m = k := by omega
            subst this
            rw [← hstep m hk]
            simpa using h0
        · intro hall
          have h1 := ih.mpr (fun m him hmk => hall m him (by omega))
          have h2 := (hstep k hk).mpr (hall k (by omega) (by omega))
          rw [h2, h1]
          simp
      · have : i = k + 1 := by omega
        subst this
        simp only [true_iff]
        intro m h1 h2
        omega

end Block

/-- Non-vacuity for C07: out-of-order rows, a note change, then a long gap. -/
example :
    let vis : Fin 5 → BlockVisit ℚ := ![⟨2, 3, "b"⟩, ⟨0, 1, "a"⟩, ⟨1, 2, "a"⟩, ⟨9, 10, "b"⟩, ⟨3, 4, "b"⟩]
    let p : List (Fin 5) := argsort (fun j => (vis j).mjd)
    blockNslice (1/10) vis p = 3 ∧
      (List.range 3).map (blockSlice (1/10) vis p) = [[1, 2], [0, 4], [3]] ∧
      IsArgsort (fun j => (vis j).mjd) p :=
  ⟨by decide +kernel, by decide +kernel, argsort_isArgsort _⟩

section Visit
variable {α β : Type*} [LinearOrder α] {n : Nat}

/-- The claim: the slice point of each slice carries the time and duration of
the visit in the slice. -/
def VisitSlicePointsMatch (mjd : Fin n → α) (dur : Fin n → β) (p : List (Fin n)) : Prop :=
  ∀ i row t d, visitSlice mjd dur p i = some (row, t, d) → t = mjd row ∧ d = dur row

/-- **C08**, refutation: two visits given in reverse time order. -/
theorem visitInterval_mismatch :
    ¬ ∀ (mjd : Fin 2 → ℤ) (dur : Fin 2 → ℤ) (p : List (Fin 2)), IsArgsort mjd p →
      VisitSlicePointsMatch mjd dur p := by
  intro h
  have := h ![5, 3] ![30, 40] (argsort (α := ℤ) ![5, 3]) (argsort_isArgsort _) 0 1 5 30 (by decide +kernel)
  simp at this

/-- **C08**, what holds: for strictly time-sorted input each slice point carries
its own visit's time and duration. Missing: unsorted input (false, see
`visitInterval_mismatch`) and ties in the start time. -/
theorem visitInterval_sorted_partial (mjd : Fin n → α) (dur : Fin n → β) (p : List (Fin n))
    (hp : IsArgsort mjd p) (hmono : StrictMono mjd) : VisitSlicePointsMatch mjd dur p := by
  have hpe : p = List.finRange n := by
    have hs : p.Pairwise (· ≤ ·) := by
      have := hp.sorted
      rw [List.pairwise_map] at this
      exact this.imp (fun {a b} h => hmono.le_iff_le.mp h)
    have hs2 : (List.finRange n).Pairwise (· ≤ ·) := by
      have := List.pairwise_lt_finRange n
      exact this.imp (fun {a b} h => le_of_lt h)
    exact hp.perm.eq_of_pairwise (fun a b _ _ h1 h2 => le_antisymm h1 h2) hs hs2
  subst hpe
  intro i row t d h
  unfold visitSlice at h
  split at h
  case isTrue hi =>
    have e : (List.finRange n)[i]? = some ⟨i, hi⟩ := by
      rw [List.getElem?_eq_getElem (by simpa using hi)]
      simp
    rw [e] at h
    simp only [Option.map_some, Option.some.injEq, Prod.mk.injEq] at h
    obtain ⟨rfl, rfl, rfl⟩ := h
    exact ⟨rfl, rfl⟩
  case isFalse => simp at h

/-- **C09.** Iterating a `VisitIntervalSlicer` over its `n` slices yields every
visit exactly once, in time order. -/
theorem visitInterval_each_once (mjd : Fin n → α) (dur : Fin n → β) (p : List (Fin n))
    (hp : IsArgsort mjd p) :
    ∃ rows : List (Fin n), (List.range n).map (fun i => (visitSlice mjd dur p i).map Prod.fst) =
        rows.map some ∧ rows.Perm (List.finRange n) ∧ (rows.map mjd).Pairwise (· ≤ ·) := by
  refine ⟨p, ?_, hp.perm, hp.sorted⟩
  apply List.ext_getElem
  · simp [hp.length]
  · intro i h1 h2
    have hi : i < n := by simpa using h1
    have hip : i < p.length := by rw [hp.length]; exact hi
    simp [visitSlice, hi]

/-- **C09**, `UniSlicer`: the boolean index selects every row. -/
theorem uni_selects_all (rows : List (Fin n)) (hr : rows = List.finRange n) :
    ((rows.zip (uniIndices n)).filter (fun x => x.2)).map Prod.fst = List.finRange n := by
  subst hr
  unfold uniIndices
  have h : ∀ x ∈ (List.finRange n).zip (List.replicate n true), x.2 = true := by
    intro x hx
    exact List.eq_of_mem_replicate (List.of_mem_zip hx).2
  rw [List.filter_eq_self.mpr h, List.map_fst_zip]
  simp

end Visit

example : IsArgsort (α := ℤ) ![5, 3, 3] (argsort (α := ℤ) ![5, 3, 3]) ∧
    StrictMono (![3, 5] : Fin 2 → ℤ) :=
  ⟨argsort_isArgsort _, by intro a b; revert a b; decide⟩

section Iteration

/-- Specification: the number of `next` calls since the most recent `iter`
(`none` if `iter` was never called). -/
def sinceIter : List IterOp → Option Nat
  | [] => none
  | ops => ops.foldl (fun st op => match op with
      | .iter => some 0
      | .next => st.map (· + 1)) none

/-- **C10.** After any history `h` of `iter`/`next` calls, the next `next` call
returns slice `k` where `k` is the number of `next` calls since the last `iter`,
raises `StopIteration` once `k` has reached the number of slices, and fails if
`iter` was never called. In particular every new iteration starts at slice 0. -/
theorem slicer_iteration (nslice : Nat) (h : List IterOp) :
    (iterRun nslice none (h ++ [.next])).2.getLast? =
      some (match sinceIter h with
        | none => .attributeError
        | some k => if k < nslice then .slice k else .stopIteration) := by
  have key : ∀ (ops : List IterOp) (st : Option Nat) (c : Option Nat),
      st = c.map (min nslice) →
      (iterRun nslice st ops).1 = (ops.foldl (fun st op => match op with
        | IterOp.iter => some 0
        | IterOp.next => st.map (· + 1)) c).map (min nslice) := by
    intro ops
    induction ops with
    | nil => intro st c h; simpa [iterRun] using h
    | cons op ops ih =>
      intro st c hst
      simp only [iterRun, List.foldl_cons]
      apply ih
      cases op with
      | iter => simp [iterStep]
      | next =>
        cases c with
        | none => simp [hst, iterStep]
        | some k =>
          simp only [hst, Option.map_some, iterStep]
          split
          · simp; omega
          · simp; omega
  have happ : ∀ (ops : List IterOp) (st : Option Nat),
      (iterRun nslice st (ops ++ [.next])).2 = (iterRun nslice st ops).2 ++
        (iterStep nslice (iterRun nslice st ops).1 .next).2.toList := by
    intro ops
    induction ops with
    | nil => intro st; simp [iterRun]
    | cons op ops ih => intro st; simp [iterRun, ih]
  have hs : sinceIter h = h.foldl (fun st op => match op with
        | IterOp.iter => some 0
        | IterOp.next => st.map (· + 1)) none := by
    cases h with
    | nil => rfl
    | cons a l => rfl
  rw [happ, key h none none rfl, ← hs]
  cases hc : sinceIter h with
  | none => simp [iterStep]
  | some k =>
    by_cases hk : k < nslice
    · have h1 : min nslice k = k := by omega
      have h2 : ¬ nslice ≤ k := by omega
      simp [iterStep, h1, hk, h2]
    · have h1 : min nslice k = nslice := by omega
      simp [iterStep, h1, hk]

/-- **C10**, whole runs: whatever happened before, an `iter` followed by `k`
`next` calls yields slices `0, 1, …` in order, then `StopIteration` for ever. -/
theorem slicer_iteration_run (nslice : Nat) (pre : List IterOp) (k : Nat) :
    (iterRun nslice none (pre ++ .iter :: List.replicate k .next)).2 =
      (iterRun nslice none pre).2 ++
        (List.range k).map (fun i => if i < nslice then .slice i else .stopIteration) := by
  have happ : ∀ (a b : List IterOp) (st : Option Nat), (iterRun nslice st (a ++ b)).2 =
      (iterRun nslice st a).2 ++ (iterRun nslice (iterRun nslice st a).1 b).2 := by
    intro a
    induction a with
    | nil => intro b st; simp [iterRun]
    | cons op a ih => intro b st; simp [iterRun, ih]
  have hn : ∀ k i, i ≤ nslice → (iterRun nslice (some i) (List.replicate k .next)).2 =
      (List.range' i k).map (fun i => if i < nslice then IterOut.slice i else .stopIteration) := by
    intro k
    induction k with
    | zero => intro i _; simp [iterRun]
    | succ k ih =>
      intro i hi
      rw [List.replicate_succ, List.range'_succ, List.map_cons]
      simp only [iterRun]
      by_cases h : i < nslice
      · have h2 : ¬ nslice ≤ i := by omega
        simp [iterStep, h, h2, ih (i + 1) (by omega)]
      · have h2 : nslice ≤ i := by omega
        have e : i = nslice := by omega
        subst e
        simp only [iterStep, ge_iff_le, le_refl, if_true, lt_irrefl, if_false, Option.toList_some,
          List.cons_append, List.nil_append, ih i (le_refl i)]
        congr 1
        apply List.ext_getElem (by simp)
        intro j h1 h3
        simp only [List.getElem_map, List.getElem_range']
        rw [if_neg (by omega), if_neg (by omega)]
  rw [happ]
  simp only [iterRun, iterStep, Option.toList_none, List.nil_append]
  rw [hn k 0 (Nat.zero_le _), List.range_eq_range']

/-- Example: restarting half-way starts over. -/
example : (iterRun 2 none [.iter, .next, .iter, .next, .next, .next]).2 =
    [.slice 0, .slice 0, .slice 1, .stopIteration] := by decide

end Iteration

end Verif.Slicers
