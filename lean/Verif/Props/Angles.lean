import Mathlib.Tactic.Linarith
import Mathlib.Tactic.Ring
import Mathlib.Tactic.FieldSimp
import Mathlib.Tactic.Push
import Mathlib.Data.List.MinMax
import Mathlib.Data.Rat.Floor
import Verif.Model.SimpleMetrics

/-! # C41, C69: angle metrics -/

namespace Verif.Metrics

variable {K : Type*} [Field K] [LinearOrder K] [FloorRing K] [IsStrictOrderedRing K]

/-- The arc of length `len` starting at `start` contains all the directions. -/
def Arc (t : K) (angles : List K) (start len : K) : Prop :=
  ∀ a ∈ angles, ∃ k : ℤ, start ≤ a + k * t ∧ a + k * t ≤ start + len

/-- The angles lie within less than a turn of each other (for instance all in
[0, 360)). -/
def Window (t : K) (angles : List K) : Prop := ∀ a ∈ angles, ∀ b ∈ angles, a - b < t

theorem fmod_range {t : K} (ht : 0 < t) (x : K) : 0 ≤ fmod x t ∧ fmod x t < t := by
  unfold fmod
  have h1 := Int.floor_le (x / t)
  have h2 := Int.lt_floor_add_one (x / t)
  have e : t * (x / t) = x := by field_simp
  constructor
  · have := mul_le_mul_of_nonneg_left h1 ht.le
    linarith
  · have := mul_lt_mul_of_pos_left h2 ht
    rw [mul_add] at this
    linarith

omit [IsStrictOrderedRing K] in
theorem fmod_eq_add (x t : K) : ∃ k : ℤ, fmod x t = x + k * t := by
  refine ⟨-⌊x / t⌋, ?_⟩
  unfold fmod
  push_cast
  ring

theorem fmod_unique {t : K} (ht : 0 < t) {x y : K} (k : ℤ) (h : y = x + k * t) (h0 : 0 ≤ y) (h1 : y < t) : fmod x t = y := by
  obtain ⟨j, hj⟩ := fmod_eq_add x t
  have hr := fmod_range ht x
  have e : fmod x t - y = ((j - k : ℤ) : K) * t := by rw [hj, h]; push_cast; ring
  have h2 : ((j - k : ℤ) : K) * t < 1 * t := by rw [← e]; linarith
  have h3 : (-1) * t < ((j - k : ℤ) : K) * t := by rw [← e]; linarith
  have h4 : ((j - k : ℤ) : K) < 1 := lt_of_mul_lt_mul_right h2 ht.le
  have h5 : (-1 : K) < ((j - k : ℤ) : K) := lt_of_mul_lt_mul_right h3 ht.le
  have h6 : j - k < 1 := by exact_mod_cast h4
  have h7 : -1 < j - k := by exact_mod_cast h5
  have : j - k = 0 := by omega
  rw [this] at e
  simp at e
  linarith

theorem fmod_self {t : K} (ht : 0 < t) {x : K} (h0 : 0 ≤ x) (h1 : x < t) : fmod x t = x :=
  fmod_unique ht 0 (by simp) h0 h1

theorem fmod_neg {t : K} (ht : 0 < t) {x : K} (h0 : x < 0) (h1 : -t ≤ x) : fmod x t = x + t :=
  fmod_unique ht 1 (by simp) (by linarith) (by linarith)

/-- What the code chooses: an element of the list, from which all angles are within
`t - g`, where `g` is the largest gap; and no arc is shorter than `t - g`. -/
theorem rotate_spec {t : K} (ht : 0 < t) (angles : List K) (hne : angles ≠ []) (hw : Window t angles) :
    ∃ rot g, rotateAngles t angles = .ok (rot, angles.map (fun a => fmod (a - rot) t)) ∧ rot ∈ angles ∧ 0 < g ∧ g ≤ t ∧
      (∀ a ∈ angles, fmod (a - rot) t ≤ t - g) ∧ (∃ a ∈ angles, fmod (a - rot) t = t - g) ∧
      (∀ start len, Arc t angles start len → t - g ≤ len) := by
  set s := angles.insertionSort (· ≤ ·) with hs
  have hperm : s.Perm angles := List.perm_insertionSort _ _
  have hmem : ∀ a, a ∈ s ↔ a ∈ angles := fun a => hperm.mem_iff
  have hlen : s.length = angles.length := hperm.length_eq
  have hpos : 0 < s.length := by rw [hlen]; exact List.length_pos_iff.mpr hne
  have hsort : ∀ i j (hi : i < s.length) (hj : j < s.length), i ≤ j → s[i] ≤ s[j] := by
    intro i j hi hj hij
    rcases Nat.lt_or_eq_of_le hij with h | h
    · exact List.pairwise_iff_getElem.mp (List.pairwise_insertionSort (· ≤ ·) angles) i j hi hj h
    · subst h; exact le_refl _
  set n := s.length with hn
  have hh : s.head? = some s[0] := by rw [List.head?_eq_getElem?]; exact List.getElem?_eq_getElem _
  have hl : s.getLast? = some s[n - 1] := by
    rw [List.getLast?_eq_getElem?]; exact List.getElem?_eq_getElem (by omega)
  have hspan : ∀ i j (hi : i < n) (hj : j < n), s[i] - s[j] < t := fun i j hi hj =>
    hw _ ((hmem _).mp (List.getElem_mem hi)) _ ((hmem _).mp (List.getElem_mem hj))
  set ste := t - s[n - 1] + s[0] with hste
  have hstepos : 0 < ste := by have := hspan (n - 1) 0 (by omega) hpos; rw [hste]; linarith
  have hstele : ste ≤ t := by have := hsort 0 (n - 1) hpos (by omega) (by omega); rw [hste]; linarith
  set d := diffs s ++ [ste] with hd
  have hdn : (diffs s).length = n - 1 := by
    unfold diffs
    rw [List.length_zipWith, List.length_tail]
    omega
  have hdl : d.length = n := by rw [hd, List.length_append, hdn, List.length_singleton]; omega
  have hdiff : ∀ i (hi : i + 1 < n), d[i]? = some (s[i + 1] - s[i]) := by
    intro i hi
    rw [hd, List.getElem?_append_left (by omega)]
    simp only [diffs, List.getElem?_zipWith, List.getElem?_tail, List.getElem?_eq_getElem hi,
      List.getElem?_eq_getElem (by omega : i < s.length)]
  have hdlast : d[n - 1]? = some ste := by
    rw [hd, List.getElem?_append_right (by omega), hdn, Nat.sub_self]
    rfl
  obtain ⟨g, hg⟩ : ∃ g, d.max? = some g := by
    cases hm : d.max? with
    | none => rw [List.max?_eq_none_iff] at hm; rw [hm] at hdl; simp at hdl; omega
    | some g => exact ⟨g, rfl⟩
  have hgm := List.max?_eq_some_iff.mp hg
  have hgge : ∀ (i : Nat) (x : K), d[i]? = some x → x ≤ g := fun i x hx => hgm.2 x (List.mem_of_getElem? hx)
  have hgpos : 0 < g := lt_of_lt_of_le hstepos (hgge _ _ hdlast)
  -- the chosen index
  set fl := (List.range d.length).filter (fun i => decide (d[i]? = d.max?)) with hfl
  have hflne : fl ≠ [] := by
    obtain ⟨i, hi⟩ := List.mem_iff_getElem?.mp hgm.1
    have : i ∈ fl := by
      rw [hfl, List.mem_filter]
      exact ⟨List.mem_range.mpr (List.getElem?_eq_some_iff.mp hi).1, by simp [hi, hg]⟩
    exact List.ne_nil_of_mem this
  obtain ⟨ix, hix⟩ : ∃ ix, fl.getLast? = some ix := by
    cases h : fl.getLast? with
    | none => rw [List.getLast?_eq_none_iff] at h; exact absurd h hflne
    | some ix => exact ⟨ix, rfl⟩
  have hixm : ix ∈ fl := List.mem_of_getLast? hix
  rw [hfl, List.mem_filter] at hixm
  have hix1 : ix < n := by rw [← hdl]; exact List.mem_range.mp hixm.1
  have hix2 : d[ix]? = some g := by have := hixm.2; simp at this; rw [this, hg]
  -- the rotation
  have hgle : g ≤ t := by
    by_cases h : ix + 1 < n
    · have := hdiff ix h
      rw [hix2] at this
      cases this
      exact (hspan _ _ _ _).le
    · have : ix = n - 1 := by omega
      rw [this, hdlast] at hix2
      cases hix2
      exact hstele
  obtain ⟨rot, hrot, hrotm, hb1, hb2⟩ : ∃ rot,
      (if ix = angles.length - 1 then s[0] else (s[ix + 1]?).getD s[0]) = rot ∧ rot ∈ angles ∧
      (∀ a ∈ angles, fmod (a - rot) t ≤ t - g) ∧ (∃ a ∈ angles, fmod (a - rot) t = t - g) := by
    by_cases h : ix = n - 1
    · refine ⟨s[0], by rw [if_pos (by omega)], (hmem _).mp (List.getElem_mem _), ?_, ?_⟩
      · rw [h, hdlast] at hix2
        cases hix2
        intro a ha
        obtain ⟨j, hj, rfl⟩ := List.getElem_of_mem ((hmem a).mpr ha)
        have h1 := hsort 0 j hpos hj (by omega)
        have h2 := hsort j (n - 1) hj (by omega) (by omega)
        rw [fmod_self ht (by linarith) (hspan _ _ _ _)]
        linarith
      · rw [h, hdlast] at hix2
        cases hix2
        refine ⟨s[n - 1], (hmem _).mp (List.getElem_mem _), ?_⟩
        have h1 := hsort 0 (n - 1) hpos (by omega) (by omega)
        rw [fmod_self ht (by linarith) (hspan _ _ _ _)]
        linarith
    · have hi : ix + 1 < n := by omega
      have hgv := hdiff ix hi
      rw [hix2] at hgv
      cases hgv
      refine ⟨s[ix + 1], by rw [if_neg (by omega), List.getElem?_eq_getElem hi]; rfl, (hmem _).mp (List.getElem_mem _), ?_, ?_⟩
      · intro a ha
        obtain ⟨j, hj, rfl⟩ := List.getElem_of_mem ((hmem a).mpr ha)
        by_cases hji : j ≤ ix
        · have h1 := hsort j ix hj (by omega) hji
          have h2 := hspan (ix + 1) j hi hj
          rw [fmod_neg ht (by linarith) (by linarith)]
          linarith
        · have h1 := hsort (ix + 1) j hi hj (by omega)
          have h2 := hspan j ix hj (by omega)
          rw [fmod_self ht (by linarith) (hspan _ _ _ _)]
          linarith
      · refine ⟨s[ix], (hmem _).mp (List.getElem_mem _), ?_⟩
        have h2 := hspan (ix + 1) ix hi (by omega)
        rw [fmod_neg ht (by linarith) (by linarith)]
        ring
  refine ⟨rot, g, ?_, hrotm, hgpos, hgle, hb1, hb2, ?_⟩
  · unfold rotateAngles
    simp only [← hs, hh, hl, ← hste, ← hd, ← hfl, hix, Option.getD_some]
    rw [if_neg (by linarith), hrot]
  · -- no shorter arc
    intro start len harc
    by_contra hlt
    have hlt : len < t - g := not_le.mp hlt
    choose! k hk using harc
    obtain ⟨m, hm⟩ : ∃ m, (angles.map (fun a => a + k a * t)).min? = some m := by
      cases hm : (angles.map (fun a => a + k a * t)).min? with
      | none => rw [List.min?_eq_none_iff] at hm; simp at hm; exact absurd hm hne
      | some m => exact ⟨m, rfl⟩
    have hm' := List.min?_eq_some_iff.mp hm
    obtain ⟨a, ha, ham⟩ := List.mem_map.mp hm'.1
    have hmin : ∀ b ∈ angles, a + k a * t ≤ b + k b * t := by
      intro b hb
      rw [ham]
      exact hm'.2 _ (List.mem_map_of_mem (f := fun a => a + (k a : K) * t) hb)
    have hupper : ∀ b ∈ angles, b + k b * t ≤ a + k a * t + len := by
      intro b hb
      have := (hk b hb).2
      have := (hk a ha).1
      linarith
    -- an element p with p - a ≡ at least t - g
    have hpred : (∃ p ∈ angles, p < a ∧ a - p ≤ g) ∨ (∃ p ∈ angles, a ≤ p ∧ t - g ≤ p - a) := by
      obtain ⟨j, hj, rfl⟩ := List.getElem_of_mem ((hmem a).mpr ha)
      by_cases h0 : s[0] < s[j]
      · left
        have hex : ∃ i, ∃ hi : i < n, s[i] = s[j] := ⟨j, hj, rfl⟩
        obtain ⟨hi, he⟩ := Nat.find_spec hex
        set i := Nat.find hex with hidef
        have hi0 : i ≠ 0 := by
          intro e
          have : s[0] = s[j] := by rw [← he]; congr 1; exact e.symm
          linarith
        have hlt' : i - 1 < n := by omega
        have hne' : s[i - 1] ≠ s[j] := by
          intro e
          have := Nat.find_min hex (m := i - 1) (by omega)
          exact this ⟨hlt', e⟩
        have hle := hsort (i - 1) i hlt' hi (by omega)
        have hgap := hdiff (i - 1) (by omega)
        have hii : i - 1 + 1 = i := by omega
        simp only [hii] at hgap
        have hgap' := hgge _ _ hgap
        refine ⟨s[i - 1], (hmem _).mp (List.getElem_mem _), ?_, ?_⟩
        · rw [← he]
          exact lt_of_le_of_ne hle (by rw [he]; exact hne')
        · rw [← he]; exact hgap'
      · right
        have h1 := hsort j (n - 1) hj (by omega) (by omega)
        have h2 := hgge _ _ hdlast
        refine ⟨s[n - 1], (hmem _).mp (List.getElem_mem _), h1, ?_⟩
        have : s[j] ≤ s[0] := not_lt.mp h0
        rw [hste] at h2
        linarith
    rcases hpred with ⟨p, hp, hpa, hgap⟩ | ⟨p, hp, hpa, hgap⟩
    · have h1 := hmin p hp
      have h2 := hupper p hp
      have h3 : 0 * t < ((k p - k a : ℤ) : K) * t := by push_cast; linarith
      have h4 : (0 : K) < ((k p - k a : ℤ) : K) := lt_of_mul_lt_mul_right h3 ht.le
      have h5 : (1 : ℤ) ≤ k p - k a := by
        have : (0 : ℤ) < k p - k a := by exact_mod_cast h4
        omega
      have h6 : (1 : K) ≤ ((k p - k a : ℤ) : K) := by exact_mod_cast h5
      have h7 := mul_le_mul_of_nonneg_right h6 ht.le
      push_cast at h7
      linarith
    · have h1 := hmin p hp
      have h2 := hupper p hp
      have h0 := hw p hp a ha
      have h3 : (-1) * t < ((k p - k a : ℤ) : K) * t := by push_cast; linarith
      have h4 : (-1 : K) < ((k p - k a : ℤ) : K) := lt_of_mul_lt_mul_right h3 ht.le
      have h5 : (0 : ℤ) ≤ k p - k a := by
        have : (-1 : ℤ) < k p - k a := by exact_mod_cast h4
        omega
      have h6 : (0 : K) ≤ ((k p - k a : ℤ) : K) := by exact_mod_cast h5
      have h7 := mul_le_mul_of_nonneg_right h6 ht.le
      push_cast at h7
      linarith

omit [Field K] [FloorRing K] [IsStrictOrderedRing K] in
theorem max_min_of {l : List K} {a b : K} (ha : a ∈ l) (ha' : ∀ x ∈ l, x ≤ a) (hb : b ∈ l) (hb' : ∀ x ∈ l, b ≤ x) :
    l.max? = some a ∧ l.min? = some b :=
  ⟨List.max?_eq_some_iff.mpr ⟨ha, ha'⟩, List.min?_eq_some_iff.mpr ⟨hb, hb'⟩⟩

/-- **C41.** The full range is the length of the smallest arc that contains all
directions: it is attained, and no arc is shorter; it is less than a turn. -/
theorem full_range_smallest_arc {t : K} (ht : 0 < t) (angles : List K) (hne : angles ≠ []) (hw : Window t angles) :
    ∃ r, fullRangeAngle t angles = .ok r ∧ 0 ≤ r ∧ r < t ∧ (∃ start ∈ angles, Arc t angles start r) ∧
      ∀ start len, Arc t angles start len → r ≤ len := by
  obtain ⟨rot, g, hrot, hrm, hg0, hgt, h1, ⟨a, ha, hae⟩, h3⟩ := rotate_spec ht angles hne hw
  have hmm := max_min_of (l := angles.map (fun a => fmod (a - rot) t)) (a := t - g) (b := 0)
    (by rw [← hae]; exact List.mem_map_of_mem (f := fun a => fmod (a - rot) t) ha)
    (by intro x hx; obtain ⟨b, hb, rfl⟩ := List.mem_map.mp hx; exact h1 b hb)
    (by
      have : (0 : K) = fmod (rot - rot) t := by rw [sub_self, fmod_self ht (le_refl _) ht]
      rw [this]
      exact List.mem_map_of_mem (f := fun a => fmod (a - rot) t) hrm)
    (by intro x hx; obtain ⟨b, hb, rfl⟩ := List.mem_map.mp hx; exact (fmod_range ht _).1)
  refine ⟨t - g, ?_, by linarith, by linarith, ⟨rot, hrm, ?_⟩, h3⟩
  · unfold fullRangeAngle
    simp only [hrot, hmm.1, hmm.2, sub_zero]
  · intro b hb
    obtain ⟨k, hk⟩ := fmod_eq_add (b - rot) t
    have hr := (fmod_range ht (b - rot)).1
    have hu := h1 b hb
    exact ⟨k, by linarith, by linarith⟩

/-- **C41.** Turning all directions by the same angle (and wrapping them in any way that
keeps them within a turn) does not change the full range. -/
theorem full_range_rotation {t : K} (ht : 0 < t) (c : K) (tr : List (K × ℤ)) (hne : tr ≠ [])
    (hw : Window t (tr.map Prod.fst)) (hw' : Window t (tr.map (fun e => e.1 + c + e.2 * t))) :
    fullRangeAngle t (tr.map (fun e => e.1 + c + e.2 * t)) = fullRangeAngle t (tr.map Prod.fst) := by
  obtain ⟨r, hr, -, -, ⟨st, -, harc⟩, hmin⟩ := full_range_smallest_arc ht (tr.map Prod.fst) (by simpa using hne) hw
  obtain ⟨r', hr', -, -, ⟨st', -, harc'⟩, hmin'⟩ :=
    full_range_smallest_arc ht (tr.map (fun e => e.1 + c + e.2 * t)) (by simpa using hne) hw'
  have h1 : r ≤ r' := by
    apply hmin (st' - c) r'
    intro a ha
    obtain ⟨e, he, rfl⟩ := List.mem_map.mp ha
    obtain ⟨k, hk1, hk2⟩ := harc' _ (List.mem_map_of_mem (f := fun e : K × ℤ => e.1 + c + e.2 * t) he)
    refine ⟨k + e.2, ?_, ?_⟩ <;> push_cast <;> linarith
  have h2 : r' ≤ r := by
    apply hmin' (st + c) r
    intro a ha
    obtain ⟨e, he, rfl⟩ := List.mem_map.mp ha
    obtain ⟨k, hk1, hk2⟩ := harc _ (List.mem_map_of_mem (f := Prod.fst) he)
    refine ⟨k - e.2, ?_, ?_⟩ <;> push_cast <;> linarith
  rw [hr, hr', le_antisymm h2 h1]

/-- **C41.** Beyond a turn the metric is not the smallest arc: -10 and 365 degrees are 15
degrees apart. -/
theorem full_range_outside_window : fullRangeAngle (360 : ℚ) [-10, 365] = .ok 345 := by decide +kernel

example : fullRangeAngle (360 : ℚ) [350, 10, 5] = .ok 20 ∧ fullRangeAngle (360 : ℚ) [90, 110, 105] = .ok 20 := by
  decide +kernel

/-! ## C69 -/

/-- The smallest arc is unique: only one of the angles can start it. -/
def UniqueArc (t : K) (angles : List K) : Prop :=
  ∀ r, (∀ start len, Arc t angles start len → r ≤ len) →
    ∀ x ∈ angles, ∀ y ∈ angles, Arc t angles x r → Arc t angles y r → x = y

/-- **C69**, what holds: if the smallest arc is unique, the scatter does not depend on
where zero lies. -/
theorem rms_rotation_partial {t : K} (ht : 0 < t) (c : K) (tr : List (K × ℤ)) (hne : tr ≠ [])
    (hw : Window t (tr.map Prod.fst)) (hw' : Window t (tr.map (fun e => e.1 + c + e.2 * t)))
    (hu : UniqueArc t (tr.map Prod.fst)) :
    rmsAngleSq t (tr.map (fun e => e.1 + c + e.2 * t)) = rmsAngleSq t (tr.map Prod.fst) := by
  obtain ⟨rot, g, hrot, hrm, hg0, hgt, h1, -, h3⟩ := rotate_spec ht (tr.map Prod.fst) (by simpa using hne) hw
  obtain ⟨rot', g', hrot', hrm', hg0', hgt', h1', -, h3'⟩ :=
    rotate_spec ht (tr.map (fun e => e.1 + c + e.2 * t)) (by simpa using hne) hw'
  have hA : Arc t (tr.map Prod.fst) rot (t - g) := by
    intro b hb
    obtain ⟨k, hk⟩ := fmod_eq_add (b - rot) t
    have hr := (fmod_range ht (b - rot)).1
    have hu := h1 b hb
    exact ⟨k, by linarith, by linarith⟩
  have hA' : Arc t (tr.map (fun e => e.1 + c + e.2 * t)) rot' (t - g') := by
    intro b hb
    obtain ⟨k, hk⟩ := fmod_eq_add (b - rot') t
    have hr := (fmod_range ht (b - rot')).1
    have hu := h1' b hb
    exact ⟨k, by linarith, by linarith⟩
  obtain ⟨e, he, hee⟩ := List.mem_map.mp hrm'
  have hback : ∀ len, Arc t (tr.map (fun e => e.1 + c + e.2 * t)) rot' len → Arc t (tr.map Prod.fst) e.1 len := by
    intro len harc a ha
    obtain ⟨f, hf, rfl⟩ := List.mem_map.mp ha
    obtain ⟨k, hk1, hk2⟩ := harc _ (List.mem_map_of_mem (f := fun e : K × ℤ => e.1 + c + e.2 * t) hf)
    rw [← hee] at hk1 hk2
    refine ⟨k + f.2 - e.2, ?_, ?_⟩ <;> push_cast <;> linarith
  have hfwd : ∀ start len, Arc t (tr.map Prod.fst) start len → Arc t (tr.map (fun e => e.1 + c + e.2 * t)) (start + c) len := by
    intro start len harc a ha
    obtain ⟨f, hf, rfl⟩ := List.mem_map.mp ha
    obtain ⟨k, hk1, hk2⟩ := harc _ (List.mem_map_of_mem (f := Prod.fst) hf)
    refine ⟨k - f.2, ?_, ?_⟩ <;> push_cast <;> linarith
  have hgg : t - g = t - g' := le_antisymm (h3 _ _ (hback _ hA')) (h3' _ _ (hfwd _ _ hA))
  have hsame : rot = e.1 := hu (t - g) h3 rot hrm e.1 (List.mem_map_of_mem (f := Prod.fst) he) hA
    (by rw [hgg]; exact hback _ hA')
  unfold rmsAngleSq
  rw [hrot, hrot']
  simp only [List.map_map]
  congr 2
  apply List.map_congr_left
  intro f hf
  simp only [Function.comp]
  obtain ⟨k, hk⟩ := fmod_eq_add (f.1 - rot) t
  have hr := fmod_range ht (f.1 - rot)
  apply fmod_unique ht (k - f.2 + e.2) _ hr.1 hr.2
  rw [hk, ← hee, hsame]
  push_cast
  ring

/-- Full statement of C69, for directions given in degrees. -/
def RmsInvariant : Prop :=
  ∀ (c : ℚ) (angles : List ℚ), (∀ a ∈ angles, 0 ≤ a ∧ a < 360) →
    rmsAngleSq (360 : ℚ) (angles.map (fun a => fmod (a + c) 360)) = rmsAngleSq 360 angles

/-- **C69**, refutation: with two largest gaps of equal size, turning everything by 120
degrees changes the scatter. -/
theorem rms_invariant_false : ¬ RmsInvariant := by
  intro h
  have := h 120 [0, 10, 120, 240] (by decide +kernel)
  revert this
  decide +kernel

/-- Angles with a unique smallest arc. -/
example : UniqueArc (360 : ℚ) [350, 10] := by
  intro r hr x hx y hy h1 h2
  have h20 : r ≤ 20 := hr 350 20 (by
    intro a ha
    rcases (by simpa using ha : a = 350 ∨ a = 10) with rfl | rfl
    · exact ⟨0, by norm_num, by norm_num⟩
    · exact ⟨1, by norm_num, by norm_num⟩)
  have key : ∀ z ∈ ([350, 10] : List ℚ), Arc 360 [350, 10] z r → z = 350 := by
    intro z hz harc
    rcases (by simpa using hz : z = 350 ∨ z = 10) with rfl | rfl
    · rfl
    · exfalso
      obtain ⟨k, hk1, hk2⟩ := harc 350 (by simp)
      have h1 : (-1 : ℚ) < k := by linarith
      have h2 : (k : ℚ) < 0 := by linarith
      have h1 : (-1 : ℤ) < k := by exact_mod_cast h1
      have h2 : k < 0 := by exact_mod_cast h2
      omega
  rw [key x hx h1, key y hy h2]

end Verif.Metrics
