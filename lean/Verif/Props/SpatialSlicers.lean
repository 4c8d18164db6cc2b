import Verif.Model.SpatialSlicers
import Verif.Props.DirectObs
import Verif.Props.BundleGroup
import Mathlib.Tactic.Linarith
import Mathlib.Tactic.Ring
import Mathlib.Tactic.NormNum
import Mathlib.Tactic.Positivity

/-!
# C194-C198: slices of spatial slicers
-/

namespace Verif.Spatial

open Verif.Direct (whereIdx take)

/-! ## C194 -/

/-- Angular separation of two positions in radians, by the cosine rule of spherical trigonometry. -/
noncomputable def sep (ra1 dec1 ra2 dec2 : ℝ) : ℝ :=
  Real.arccos (Real.sin dec1 * Real.sin dec2 + Real.cos dec1 * Real.cos dec2 * Real.cos (ra1 - ra2))

theorem dist3_sq (ra1 dec1 ra2 dec2 : ℝ) :
    dist3 (xyz ra1 dec1) (xyz ra2 dec2) ^ 2 =
      2 - 2 * (Real.sin dec1 * Real.sin dec2 + Real.cos dec1 * Real.cos dec2 * Real.cos (ra1 - ra2)) := by
  unfold dist3 xyz
  rw [Real.sq_sqrt (by positivity), Real.cos_sub]
  have h1 := Real.sin_sq_add_cos_sq ra1
  have h2 := Real.sin_sq_add_cos_sq ra2
  have h3 := Real.sin_sq_add_cos_sq dec1
  have h4 := Real.sin_sq_add_cos_sq dec2
  simp only
  linear_combination (Real.cos dec1 ^ 2) * h1 + (Real.cos dec2 ^ 2) * h2 + h3 + h4

theorem cosSep_range (ra1 dec1 ra2 dec2 : ℝ) :
    -1 ≤ Real.sin dec1 * Real.sin dec2 + Real.cos dec1 * Real.cos dec2 * Real.cos (ra1 - ra2) ∧
    Real.sin dec1 * Real.sin dec2 + Real.cos dec1 * Real.cos dec2 * Real.cos (ra1 - ra2) ≤ 1 := by
  have h3 := Real.sin_sq_add_cos_sq dec1
  have h4 := Real.sin_sq_add_cos_sq dec2
  have hc := Real.sin_sq_add_cos_sq (ra1 - ra2)
  set c := Real.cos (ra1 - ra2)
  set s := Real.sin (ra1 - ra2)
  have hc1 : c ^ 2 ≤ 1 := by nlinarith [sq_nonneg s]
  set a := Real.sin dec1
  set b := Real.sin dec2
  set d := Real.cos dec1
  set e := Real.cos dec2
  constructor
  · nlinarith [sq_nonneg (a + b), sq_nonneg (d + e * c), mul_nonneg (sq_nonneg e) (sub_nonneg.2 hc1)]
  · nlinarith [sq_nonneg (a - b), sq_nonneg (d - e * c), mul_nonneg (sq_nonneg e) (sub_nonneg.2 hc1)]

theorem dist3_nonneg (p q : ℝ × ℝ × ℝ) : 0 ≤ dist3 p q := Real.sqrt_nonneg _

/-- The distance in space is within the radius of the tree exactly if the angle is within the radius. -/
theorem near_iff (ra1 dec1 ra2 dec2 r : ℝ) (h0 : 0 ≤ r) (h1 : r ≤ 180) :
    dist3 (xyz ra1 dec1) (xyz ra2 dec2) ≤ setRad r ↔ sep ra1 dec1 ra2 dec2 ≤ radians r := by
  have e1 := dist3_sq ra1 dec1 ra2 dec2
  have e2 := dist3_sq (radians r) 0 0 0
  simp only [Real.sin_zero, Real.cos_zero, sub_zero, mul_zero, one_mul, zero_add] at e2
  have hr0 : 0 ≤ radians r := by unfold radians; have := Real.pi_pos; positivity
  have hr1 : radians r ≤ Real.pi := by
    unfold radians
    have := Real.pi_pos
    rw [div_le_iff₀ (by norm_num)]
    nlinarith
  have hrange := cosSep_range ra1 dec1 ra2 dec2
  have hs : setRad r ^ 2 = 2 - 2 * Real.cos (radians r) := e2
  have hn1 := dist3_nonneg (xyz ra1 dec1) (xyz ra2 dec2)
  have hn2 : 0 ≤ setRad r := dist3_nonneg _ _
  rw [← sq_le_sq₀ hn1 hn2, e1, hs]
  unfold sep
  constructor
  · intro h
    have h' : Real.cos (radians r) ≤
        Real.sin dec1 * Real.sin dec2 + Real.cos dec1 * Real.cos dec2 * Real.cos (ra1 - ra2) := by linarith
    calc _ ≤ Real.arccos (Real.cos (radians r)) := Real.arccos_le_arccos h'
      _ = radians r := Real.arccos_cos hr0 hr1
  · intro h
    have h' := Real.cos_le_cos_of_nonneg_of_le_pi (Real.arccos_nonneg _) hr1 h
    rw [Real.cos_arccos hrange.1 hrange.2] at h'
    linarith

theorem mem_whereIdx {V : Type} (p : V → Bool) (l : List V) (k : ℕ) :
    k ∈ whereIdx p l ↔ ∃ v, l[k]? = some v ∧ p v = true := by
  unfold whereIdx
  rw [List.mem_filter, List.mem_range]
  constructor
  · rintro ⟨h1, h2⟩
    rw [List.getElem?_eq_getElem h1] at h2
    exact ⟨_, List.getElem?_eq_getElem h1, by simpa using h2⟩
  · rintro ⟨v, h1, h2⟩
    refine ⟨(List.getElem?_eq_some_iff.1 h1).1, ?_⟩
    rw [h1]
    simpa using h2

theorem whereIdx_nodup {V : Type} (p : V → Bool) (l : List V) : (whereIdx p l).Nodup :=
  List.nodup_range.filter _

/-- Indices of indices: the camera leaves those indices whose visit passes. -/
theorem take_cam (cam : Visit → Bool) (data : List Visit) : ∀ (idx : List ℕ), (∀ k ∈ idx, k < data.length) →
    take idx (whereIdx cam (take data idx)) = idx.filter (fun k => (data[k]?).any cam) := by
  intro idx h
  obtain ⟨h1, h2⟩ := Verif.Direct.take_all data idx h
  have key : whereIdx cam (take data idx) = whereIdx (fun k => (data[k]?).any cam) idx := by
    unfold whereIdx
    rw [h1]
    refine List.filter_congr fun j hj => ?_
    rw [List.mem_range] at hj
    have hj' := List.getElem?_eq_getElem hj
    rw [h2 j _ hj', hj']
    rfl
  rw [key]
  exact Verif.Direct.take_where _ idx

/-- C194: a slice has each visit within the radius (and in the camera footprint) once, and no other. -/
theorem slice_spec (order : List ℕ → List ℕ) (ho : ∀ l, (order l).Perm l) (s : Setup) (visits : List Visit)
    (ra dec : ℝ) (h0 : 0 ≤ s.radius) (h1 : s.radius ≤ 180) :
    (sliceIdxs order s visits ra dec).Nodup ∧
    ∀ k, k ∈ sliceIdxs order s visits ra dec ↔ ∃ v, visits[k]? = some v ∧
      (let d := if s.latLonDeg then Visit.mk (radians v.lon) (radians v.lat) (radians v.rot) else v
       sep d.lon d.lat ra dec ≤ radians s.radius ∧ (s.useCamera = true → s.camera ra dec d = true)) := by
  have hball : ∀ k, k ∈ order (ball (visits.map (dataOf s.latLonDeg)) (xyz ra dec) (setRad s.radius)) ↔
      ∃ v, visits[k]? = some v ∧
        sep (dataOf s.latLonDeg v).lon (dataOf s.latLonDeg v).lat ra dec ≤ radians s.radius := by
    intro k
    rw [(ho _).mem_iff]
    unfold ball
    rw [mem_whereIdx]
    simp only [List.getElem?_map, Option.map_eq_some_iff, decide_eq_true_eq]
    constructor
    · rintro ⟨d, ⟨v, h2, rfl⟩, h3⟩
      exact ⟨v, h2, (near_iff _ _ _ _ _ h0 h1).1 h3⟩
    · rintro ⟨v, h2, h3⟩
      exact ⟨_, ⟨v, h2, rfl⟩, (near_iff _ _ _ _ _ h0 h1).2 h3⟩
  have hnd : (order (ball (visits.map (dataOf s.latLonDeg)) (xyz ra dec) (setRad s.radius))).Nodup :=
    (ho _).nodup_iff.2 (whereIdx_nodup _ _)
  have hlt : ∀ k ∈ order (ball (visits.map (dataOf s.latLonDeg)) (xyz ra dec) (setRad s.radius)),
      k < (visits.map (dataOf s.latLonDeg)).length := by
    intro k hk
    rw [(ho _).mem_iff] at hk
    exact Verif.Direct.where_lt _ _ k hk
  unfold sliceIdxs
  simp only
  split
  · rename_i hc
    rw [Bool.and_eq_true] at hc
    rw [take_cam _ _ _ hlt]
    refine ⟨hnd.filter _, fun k => ?_⟩
    rw [List.mem_filter, hball]
    constructor
    · rintro ⟨⟨v, h2, h3⟩, h4⟩
      refine ⟨v, h2, h3, fun _ => ?_⟩
      rw [List.getElem?_map, h2] at h4
      simpa [dataOf] using h4
    · rintro ⟨v, h2, h3, h4⟩
      refine ⟨⟨v, h2, h3⟩, ?_⟩
      rw [List.getElem?_map, h2]
      simpa [dataOf] using h4 hc.1
  · rename_i hc
    refine ⟨hnd, fun k => ?_⟩
    rw [hball]
    constructor
    · rintro ⟨v, h2, h3⟩
      refine ⟨v, h2, h3, fun hcam => ?_⟩
      exfalso
      apply hc
      rw [Bool.and_eq_true, hcam, decide_eq_true_eq]
      exact ⟨rfl, List.length_pos_of_mem ((hball k).2 ⟨v, h2, h3⟩)⟩
    · rintro ⟨v, h2, h3, _⟩
      exact ⟨v, h2, h3⟩

/-- C194: visits in degrees are sliced as the same visits in radians. -/
theorem slice_unit (order : List ℕ → List ℕ) (s : Setup) (visits : List Visit) (ra dec : ℝ) :
    sliceIdxs order { s with latLonDeg := true } visits ra dec =
      sliceIdxs order { s with latLonDeg := false }
        (visits.map fun v => ⟨radians v.lon, radians v.lat, radians v.rot⟩) ra dec := by
  have h : (visits.map fun v => (⟨radians v.lon, radians v.lat, radians v.rot⟩ : Visit)).map (dataOf false) =
      visits.map (dataOf true) := by
    rw [List.map_map]
    rfl
  unfold sliceIdxs
  simp only
  rw [h]

/-- C194: whole turns of the longitude do not matter. -/
theorem slice_turn (order : List ℕ → List ℕ) (s : Setup) (hc : s.useCamera = false) (visits : List Visit)
    (turns : Visit → ℤ) (ra dec : ℝ) :
    sliceIdxs order { s with latLonDeg := true } (visits.map fun v => { v with lon := v.lon + 360 * turns v }) ra dec =
      sliceIdxs order { s with latLonDeg := true } visits ra dec := by
  have h : ball ((visits.map fun v => { v with lon := v.lon + 360 * turns v }).map (dataOf true)) (xyz ra dec)
      (setRad s.radius) = ball (visits.map (dataOf true)) (xyz ra dec) (setRad s.radius) := by
    unfold ball whereIdx
    simp only [List.length_map]
    refine List.filter_congr fun k _ => ?_
    simp only [List.getElem?_map]
    cases visits[k]? with
    | none => rfl
    | some v =>
      simp only [Option.map_some, Option.any_some, dataOf, if_true]
      have e : radians (v.lon + 360 * turns v) = radians v.lon + turns v * (2 * Real.pi) := by
        unfold radians; ring
      unfold xyz
      rw [e, Real.cos_add_int_mul_two_pi, Real.sin_add_int_mul_two_pi]
  unfold sliceIdxs
  simp only [hc, Bool.false_and, Bool.false_eq_true, if_false]
  rw [h]

/-- Two visits, one at the point and one at the other side: only the first one is in the slice. -/
example : sliceIdxs id ⟨true, 10, true, fun _ _ v => decide (v.rot = 0)⟩ [⟨180, 0, 0⟩, ⟨0, 0, 0⟩] 0 0 = [1] := by
  have hsp := slice_spec id (fun l => List.Perm.refl l)
    ⟨true, 10, true, fun _ _ v => decide (v.rot = 0)⟩ [⟨180, 0, 0⟩, ⟨0, 0, 0⟩] 0 0 (by norm_num) (by norm_num)
  have hm : ∀ k, k ∈ sliceIdxs id ⟨true, 10, true, fun _ _ v => decide (v.rot = 0)⟩ [⟨180, 0, 0⟩, ⟨0, 0, 0⟩] 0 0 ↔
      k = 1 := by
    intro k
    rw [hsp.2 k]
    constructor
    · rintro ⟨v, h1, h2, _⟩
      rcases k with _ | _ | k
      · exfalso
        have hv : v = ⟨180, 0, 0⟩ := by simpa using h1.symm
        subst hv
        simp only [if_true] at h2
        unfold sep radians at h2
        have e : 180 * Real.pi / 180 - 0 = Real.pi := by ring
        rw [e] at h2
        simp only [zero_mul, zero_div, Real.sin_zero, Real.cos_zero, Real.cos_pi, mul_zero, one_mul, zero_add,
          Real.arccos_neg_one] at h2
        have := Real.pi_pos
        linarith
      · rfl
      · simp at h1
    · rintro rfl
      refine ⟨⟨0, 0, 0⟩, rfl, ?_⟩
      simp only [if_true]
      unfold sep radians
      have := Real.pi_pos
      constructor
      · norm_num
        positivity
      · intro _
        norm_num
  have hl := hsp.1
  generalize sliceIdxs id ⟨true, 10, true, fun _ _ v => decide (v.rot = 0)⟩ [⟨180, 0, 0⟩, ⟨0, 0, 0⟩] 0 0 = l at hm hl
  match l, hl, hm with
  | [], _, hm => exact absurd ((hm 1).2 rfl) (by simp)
  | [a], _, hm => rw [(hm a).1 (by simp)]
  | a :: b :: t, hl, hm =>
    exfalso
    have ha := (hm a).1 (by simp)
    have hb := (hm b).1 (by simp)
    rw [ha, hb] at hl
    simp at hl

end Verif.Spatial
