import Verif.Props.SpatialSlicers

/-!
# C195-C199: slice points, subsets of pixels and comparison of spatial slicers
-/

namespace Verif.Spatial

open Verif.Direct (whereIdx take)

variable {α : Type}

/-! ## C195 -/

/-- What the author of a map means: a value per slice, or one value for all slices. -/
inductive Info (α : Type) where
  | perSlice (rows : List α)
  | general (v : Val α)

/-- How it is stored. -/
def Info.stored : Info α → Val α
  | .perSlice rows => .array rows
  | .general v => v

/-- What should be seen at slice `i`. -/
def Info.seen (i : ℕ) : Info α → Option (Val α)
  | .perSlice rows => (rows[i]?).map Val.scalar
  | .general v => some v

/-- No general value looks like one per slice: it is a scalar or an array of another length. -/
def Info.fits (n : ℕ) : Info α → Prop
  | .perSlice rows => rows.length = n
  | .general (.scalar _) => True
  | .general (.array rows) => rows.length ≠ n

theorem get_put (d : List (String × Val α)) (k k' : String) (v : Val α) :
    get (put d k v) k' = if k' = k then some v else get d k' := by
  unfold put get
  split
  · rename_i h
    induction d with
    | nil => simp at h
    | cons e d ih =>
      by_cases he : e.1 = k
      · by_cases hk : k' = k
        · subst hk
          simp [he]
        · have hne : ¬ (k = k') := fun h => hk h.symm
          simp only [List.map_cons, he, beq_self_eq_true, if_true, List.find?_cons, hk, if_false, hne]
          rw [show ((k == k') = false) from by simpa using hne]
          clear ih h
          induction d with
          | nil => simp
          | cons f d ih =>
            by_cases hf : f.1 = k
            · simp only [List.map_cons, hf, beq_self_eq_true, if_true, List.find?_cons]
              rw [show ((k == k') = false) from by simpa using hne]
              exact ih
            · simp only [List.map_cons, List.find?_cons]
              rw [show ((f.1 == k) = false) from by simpa using hf]
              simp only [Bool.false_eq_true, if_false]
              by_cases hf' : f.1 = k'
              · simp [hf']
              · rw [show ((f.1 == k') = false) from by simpa using hf']
                exact ih
      · have h' : d.any (fun e => e.1 == k) = true := by
          simpa [he] using h
        have ih' := ih h'
        simp only [List.map_cons, List.find?_cons]
        rw [show ((e.1 == k) = false) from by simpa using he]
        simp only [Bool.false_eq_true, if_false]
        by_cases hk : e.1 = k'
        · have : ¬ k' = k := fun h => he (hk.trans h)
          simp [hk, this]
        · rw [show ((e.1 == k') = false) from by simpa using hk]
          exact ih'
  · rename_i h
    rw [List.find?_append]
    by_cases hk : k' = k
    · subst hk
      have hnone : d.find? (fun e => e.1 == k') = none := by
        rw [List.find?_eq_none]
        intro x hx hx'
        exact h (List.any_eq_true.2 ⟨x, hx, hx'⟩)
      simp [hnone]
    · have hne : (k == k') = false := by simpa using fun h => hk h.symm
      simp [hk, hne]

theorem fillPoint_some (n i : ℕ) : ∀ (points acc : List (String × Val α)),
    (∀ e ∈ points, (pick n i e.2).isSome) → (points.map Prod.fst).Nodup →
    ∃ r, fillPoint n i points acc = some r ∧ ∀ k,
      get r k = match get points k with
        | some v => pick n i v
        | none => get acc k := by
  intro points
  induction points with
  | nil => intro acc _ _; exact ⟨acc, rfl, fun k => rfl⟩
  | cons e points ih =>
    intro acc h hnd
    obtain ⟨k0, v0⟩ := e
    have hp := h (k0, v0) (by simp)
    obtain ⟨w, hw⟩ := Option.isSome_iff_exists.1 hp
    rw [List.map_cons, List.nodup_cons] at hnd
    obtain ⟨r, h1, h2⟩ := ih (put acc k0 w) (fun e he => h e (by simp [he])) hnd.2
    refine ⟨r, ?_, fun k => ?_⟩
    · simp only at hw
      simp only [fillPoint, hw]
      exact h1
    · rw [h2 k, get_put]
      by_cases hk : k = k0
      · subst hk
        have hnone : get points k = none := by
          unfold get
          rw [Option.map_eq_none_iff, List.find?_eq_none]
          intro x hx hx'
          exact hnd.1 (List.mem_map.2 ⟨x, hx, by simpa using hx'⟩)
        rw [hnone]
        simp only [if_true]
        unfold get
        simp only [List.find?_cons, beq_self_eq_true, Option.map_some]
        exact hw.symm
      · have hcons : get ((k0, v0) :: points) k = get points k := by
          unfold get
          rw [List.find?_cons, show ((k0 == k) = false) from by simpa using fun h => hk h.symm]
        rw [hcons, if_neg hk]

theorem pick_stored (n i : ℕ) (hi : i < n) (x : Info α) (h : x.fits n) :
    pick n i x.stored = x.seen i ∧ (x.seen i).isSome := by
  cases x with
  | perSlice rows =>
    have hl : rows.length = n := h
    have hi' : i < rows.length := hl ▸ hi
    simp [pick, Info.stored, Info.seen, keyShape, hl, List.getElem?_eq_getElem hi']
  | general v =>
    cases v with
    | scalar a =>
      have : ¬ (0 = n) := by omega
      simp [pick, Info.stored, Info.seen, keyShape, this]
    | array rows =>
      have hl : rows.length ≠ n := h
      simp [pick, Info.stored, Info.seen, keyShape, hl]

/-- C195: at each slice, each key has the value of that slice, or the common value, if no common value
is an array as long as the slicer. -/
theorem slicePoint_partial (points : List (String × Info α)) (hnd : (points.map Prod.fst).Nodup) (n i : ℕ)
    (hi : i < n) (hfit : ∀ e ∈ points, e.2.fits n) (sid : α) :
    ∃ r, slicePoint (points.map fun e => (e.1, e.2.stored)) n i sid = some r ∧
      (∀ e ∈ points, get r e.1 = e.2.seen i) ∧
      (∀ k, k ∉ points.map Prod.fst → get r k = if k = "sid" then some (.scalar sid) else none) := by
  have hnd' : ((points.map fun e => (e.1, e.2.stored)).map Prod.fst).Nodup := by
    rw [List.map_map]; exact hnd
  obtain ⟨r, h1, h2⟩ := fillPoint_some n i (points.map fun e => (e.1, e.2.stored)) [("sid", .scalar sid)]
    (by
      intro e he
      obtain ⟨x, hx, rfl⟩ := List.mem_map.1 he
      obtain ⟨h3, h4⟩ := pick_stored n i hi x.2 (hfit x hx)
      rw [h3]
      exact h4) hnd'
  have hget : ∀ (l : List (String × Info α)), (l.map Prod.fst).Nodup → ∀ e ∈ l,
      get (l.map fun e => (e.1, e.2.stored)) e.1 = some e.2.stored := by
    intro l
    induction l with
    | nil => intro _ e he; simp at he
    | cons x l ih =>
      intro hnd e he
      rw [List.map_cons, List.nodup_cons] at hnd
      rcases List.mem_cons.1 he with rfl | he
      · simp [get]
      · have hne : ¬ (x.1 = e.1) := fun h => hnd.1 (h ▸ List.mem_map_of_mem he)
        have := ih hnd.2 e he
        unfold get at this ⊢
        rw [List.map_cons, List.find?_cons, show ((x.1 == e.1) = false) from by simpa using hne]
        exact this
  refine ⟨r, h1, fun e he => ?_, fun k hk => ?_⟩
  · rw [h2, hget points hnd e he]
    exact (pick_stored n i hi e.2 (hfit e he)).1
  · rw [h2]
    have hnone : get (points.map fun e => (e.1, e.2.stored)) k = none := by
      unfold get
      rw [Option.map_eq_none_iff, List.find?_eq_none]
      intro x hx hx'
      obtain ⟨y, hy, rfl⟩ := List.mem_map.1 hx
      exact hk (List.mem_map.2 ⟨y, hy, by simpa using hx'⟩)
    rw [hnone]
    by_cases hs : k = "sid"
    · subst hs
      simp [get]
    · have : ¬ ("sid" = k) := fun h => hs h.symm
      simp [get, hs, this]

/-- C195 is false in general: common bins with as many edges as there are points are cut to one edge. -/
theorem slicePoint_false :
    ∃ (points : List (String × Info ℕ)) (n i : ℕ) (r : List (String × Val ℕ)),
      (points.map Prod.fst).Nodup ∧ i < n ∧
      slicePoint (points.map fun e => (e.1, e.2.stored)) n i i = some r ∧
      ∃ e ∈ points, get r e.1 ≠ e.2.seen i :=
  ⟨[("sid", .perSlice [0, 1, 2]), ("starLumFunc", .perSlice [10, 20, 30]), ("starMapBins", .general (.array [15, 16, 17]))],
    3, 1, [("sid", .scalar 1), ("starLumFunc", .scalar 20), ("starMapBins", .scalar 16)],
    by decide, by decide, by decide, ("starMapBins", .general (.array [15, 16, 17])), by simp, by
      simp [get, Info.seen]⟩

/-- With one edge more than there are points the bins are seen whole. -/
example : slicePoint [("sid", .array [0, 1, 2]), ("starLumFunc", .array [10, 20, 30]),
    ("starMapBins", .array [15, 16, 17, 18]), ("nside", .scalar 1)] 3 1 1 =
    some [("sid", .scalar 1), ("starLumFunc", .scalar 20), ("starMapBins", .array [15, 16, 17, 18]),
      ("nside", .scalar 1)] := by
  decide

/-! ## C196 -/

/-- C196: whatever was done before, a loop over the slicer gives the pixels of the subset in order. -/
theorem iter_spec (hpid : List ℕ) (st : Iter) (fuel : ℕ) (hf : hpid.length < fuel) :
    iterAll hpid fuel (iterStart st) = hpid := by
  have key : ∀ (fuel c : ℕ), hpid.length < fuel + c → c ≤ hpid.length →
      iterAll hpid fuel (some c) = hpid.drop c := by
    intro fuel
    induction fuel with
    | zero =>
      intro c h1 h2
      omega
    | succ fuel ih =>
      intro c h1 h2
      by_cases hc : c ≥ hpid.length
      · have : c = hpid.length := by omega
        subst this
        simp [iterAll, iterNext]
      · have hlt : c < hpid.length := by omega
        simp only [iterAll, iterNext, hc, if_false]
        rw [List.getElem?_eq_getElem hlt]
        simp only
        rw [ih (c + 1) (by omega) (by omega)]
        exact List.cons_getElem_drop_succ
  have := key fuel 0 (by omega) (by omega)
  simpa [iterStart] using this

/-- C196: the mask is true exactly outside of the subset. -/
theorem mask_spec (npix : ℕ) (hpid : List ℕ) (i : ℕ) (hi : i < npix) :
    (subsetMask npix hpid).length = npix ∧
    (subsetMask npix hpid)[i]? = some (decide (i ∉ hpid)) := by
  have key : ∀ (hpid : List ℕ) (m : List Bool), i < m.length →
      (hpid.foldl (fun m p => m.set p false) m).length = m.length ∧
      (hpid.foldl (fun m p => m.set p false) m)[i]? = if i ∈ hpid then some false else m[i]? := by
    intro hpid
    induction hpid with
    | nil => intro m _; simp
    | cons p hpid ih =>
      intro m hm
      obtain ⟨h1, h2⟩ := ih (m.set p false) (by simpa using hm)
      refine ⟨by rw [List.foldl_cons, h1, List.length_set], ?_⟩
      rw [List.foldl_cons, h2]
      by_cases h3 : i ∈ hpid
      · simp [h3]
      · rw [if_neg h3, List.getElem?_set]
        by_cases h4 : p = i
        · subst h4
          simp [hm]
        · have : ¬ (i = p) := fun h => h4 h.symm
          simp [h3, h4, this]
  obtain ⟨h1, h2⟩ := key hpid (List.replicate npix true) (by simpa using hi)
  unfold subsetMask
  refine ⟨by simpa using h1, ?_⟩
  rw [h2]
  by_cases h3 : i ∈ hpid
  · simp [h3]
  · simp [h3, hi]

/-- C196: in the subset, the slice is that of the full slicer; outside it has no visits. -/
theorem subset_slice (order : List ℕ → List ℕ) (s : Setup) (visits : List Visit) (pix : ℕ → ℝ × ℝ)
    (hpid : List ℕ) (i : ℕ) :
    subsetIdxs order s visits pix hpid i =
      if i ∈ hpid then sliceIdxs order s visits (pix i).1 (pix i).2 else [] := by
  unfold subsetIdxs
  by_cases h : i ∈ hpid <;> simp [h]

/-- C196: in the subset, the information is that of the full slicer (which has a key `nside`); outside
there is only the number and `nside`. -/
theorem subset_point (points : List (String × Val α)) (hnd : (points.map Prod.fst).Nodup) (n i : ℕ)
    (hpick : ∀ e ∈ points, (pick n i e.2).isSome) (hns : get points "nside" ≠ none)
    (sid nside : α) (hpid : List ℕ) :
    ∃ r r', subsetPoint points n i sid nside hpid = some r ∧ slicePoint points n i sid = some r' ∧
      (i ∈ hpid → ∀ k, get r k = get r' k) ∧
      (i ∉ hpid → r = [("sid", .scalar sid), ("nside", .scalar nside)]) := by
  obtain ⟨r', h1, h2⟩ := fillPoint_some n i points [("sid", .scalar sid)] hpick hnd
  by_cases hi : i ∈ hpid
  · obtain ⟨r, h3, h4⟩ := fillPoint_some n i points [("sid", .scalar sid), ("nside", .scalar nside)] hpick hnd
    refine ⟨r, r', by simp [subsetPoint, hi, h3], h1, fun _ k => ?_, fun h => absurd hi h⟩
    rw [h2, h4]
    cases hk : get points k with
    | some v => rfl
    | none =>
      simp only
      have hne : ¬ ("nside" = k) := fun h => hns (h ▸ hk)
      by_cases hs : "sid" = k
      · subst hs
        simp [get]
      · simp [get, hne, hs]
  · exact ⟨_, r', by simp only [subsetPoint]; rw [if_pos (by simp [hi])], h1, fun h => absurd h hi, fun _ => rfl⟩

open Verif.Bundles in
/-- C196: a metric with one number per slice has in the subset the values and masks of the full slicer,
and is masked everywhere else. -/
theorem subset_values {β P V : Type*} (order : List ℕ → List ℕ) (s : Setup) (visits : List Visit)
    (pix : ℕ → ℝ × ℝ) (npix : ℕ) (hpid : List ℕ) (hnd : hpid.Nodup) (hlt : ∀ p ∈ hpid, p < npix)
    (point : ℕ → P) (metric : β → P → List ℕ → V) (isBad : β → V → Bool) (garbage garbage' : β → ℕ → V) :
    let mask0 : ℕ → Bool := fun p => (initialMask (some (subsetMask npix hpid)) npix 1 p 0).getD false
    let full := runSlices 0 metric isBad garbage (fun _ => false)
      ((List.range npix).map fun p => ⟨p, point p, sliceIdxs order s visits (pix p).1 (pix p).2⟩)
    let sub := runSlices 0 metric isBad garbage' mask0
      ((iterAll hpid (hpid.length + 1) (iterStart none)).map fun p =>
        ⟨p, point p, subsetIdxs order s visits pix hpid p⟩)
    (∀ p ∈ hpid, ∀ b, sub.mask b p = full.mask b p ∧ (full.mask b p = false → sub.data b p = full.data b p)) ∧
    (∀ p, p < npix → p ∉ hpid → ∀ b, sub.mask b p = true) := by
  intro mask0 full sub
  have hm0 : ∀ p, p < npix → mask0 p = decide (p ∉ hpid) := by
    intro p hp
    obtain ⟨h1, h2⟩ := mask_spec npix hpid p hp
    show (initialMask (some (subsetMask npix hpid)) npix 1 p 0).getD false = _
    unfold initialMask
    rw [if_pos ⟨hp, by omega⟩]
    simp only
    rw [h1, mul_one, add_zero, Nat.mod_eq_of_lt hp, h2]
    rfl
  have hiter := iter_spec hpid none (hpid.length + 1) (by omega)
  obtain ⟨f1, f2, _⟩ := run_values_and_masks 0 metric (Or.inl rfl) isBad garbage (fun _ => false)
    ((List.range npix).map fun p => ⟨p, point p, sliceIdxs order s visits (pix p).1 (pix p).2⟩)
    (by rw [List.map_map]; simpa [Function.comp_def] using List.nodup_range)
  obtain ⟨g1, g2, g3⟩ := run_values_and_masks 0 metric (Or.inl rfl) isBad garbage' mask0
    ((iterAll hpid (hpid.length + 1) (iterStart none)).map fun p =>
        ⟨p, point p, subsetIdxs order s visits pix hpid p⟩)
    (by rw [hiter, List.map_map]; simpa [Function.comp_def] using hnd)
  constructor
  · intro p hp b
    have hpn := hlt p hp
    have hfs := List.mem_map_of_mem
      (f := fun p => (⟨p, point p, sliceIdxs order s visits (pix p).1 (pix p).2⟩ : Slice ℕ P)) (List.mem_range.2 hpn)
    have hss := List.mem_map_of_mem
      (f := fun p => (⟨p, point p, subsetIdxs order s visits pix hpid p⟩ : Slice ℕ P))
      (show p ∈ iterAll hpid (hpid.length + 1) (iterStart none) by rw [hiter]; exact hp)
    have heq : subsetIdxs order s visits pix hpid p = sliceIdxs order s visits (pix p).1 (pix p).2 := by
      rw [subset_slice, if_pos hp]
    by_cases he : sliceIdxs order s visits (pix p).1 (pix p).2 = []
    · have e1 := f2 _ hfs he b
      have e2 := g2 _ hss (heq.trans he) b
      simp only at e1 e2
      refine ⟨e2.trans e1.symm, fun h => ?_⟩
      exact absurd (e1.symm.trans h) (by simp)
    · have e1 := f1 _ hfs he b
      have e2 := g1 _ hss (by rw [heq]; exact he) b
      simp only at e1 e2
      rw [heq] at e2
      have hmp : mask0 p = false := by rw [hm0 p hpn]; simpa using hp
      refine ⟨?_, fun _ => e2.1.trans e1.1.symm⟩
      rw [Bool.eq_iff_iff]
      exact e2.2.trans (by rw [hmp]; exact e1.2.symm)
  · intro p hp hnot b
    exact g3 p (by rw [hm0 p hp]; simpa using hnot) b

/-- C196: the subset of a circle has exactly the pixels within the radius, in order. -/
theorem circle_spec (npix : ℕ) (sep : ℕ → ℚ) (radius : ℚ) :
    (circlePixels npix sep radius).Pairwise (· < ·) ∧
    ∀ p, p ∈ circlePixels npix sep radius ↔ p < npix ∧ sep p ≤ radius := by
  refine ⟨List.pairwise_lt_range.filter _, fun p => ?_⟩
  unfold circlePixels
  rw [mem_whereIdx]
  constructor
  · rintro ⟨v, h1, h2⟩
    obtain ⟨h3, rfl⟩ := List.getElem?_eq_some_iff.1 h1
    rw [List.length_range] at h3
    simp only [List.getElem_range, decide_eq_true_eq] at h2
    exact ⟨h3, h2⟩
  · rintro ⟨h1, h2⟩
    exact ⟨p, by simp [h1], by simpa using h2⟩

/-- C196: the wide-fast-deep subset has exactly the pixels with one of the labels. -/
theorem wfd_spec (labels wfd : List String) :
    (wfdPixels labels wfd).Pairwise (· < ·) ∧
    ∀ p, p ∈ wfdPixels labels wfd ↔ ∃ l ∈ wfd, labels[p]? = some l := by
  refine ⟨List.pairwise_lt_range.filter _, fun p => ?_⟩
  unfold wfdPixels
  rw [mem_whereIdx]
  constructor
  · rintro ⟨v, h1, h2⟩
    exact ⟨v, by simpa using h2, h1⟩
  · rintro ⟨l, h1, h2⟩
    exact ⟨l, h2, by simpa using h1⟩

example : iterAll [5, 2, 9] 4 (iterStart (some 7)) = [5, 2, 9] ∧ subsetMask 4 [2, 0] = [false, true, false, true] ∧
    wfdPixels ["", "lowdust", "scp", "virgo"] ["lowdust", "virgo"] = [1, 3] ∧
    circlePixels 4 (fun p => (p : ℚ) * 2 - 3) 1 = [0, 1, 2] := by
  decide +kernel

/-! ## C197 -/

/-- C197: with several numbers per slice, the mask goes through the slices of the slicer for each row of
numbers: entry `(i, j)` has the mask of slice `i * width + j`, counted around. -/
theorem initialMask_spec (m : List Bool) (width i j : ℕ) (hi : i < m.length) (hj : j < width) :
    initialMask (some m) m.length width i j = m[(i * width + j) % m.length]? := by
  simp [initialMask, hi, hj]

/-- C197: the mask of a slice is that of the slicer if there is one number per slice; nothing is masked if the
slicer has no mask. -/
theorem initialMask_partial (m : List Bool) (i : ℕ) (hi : i < m.length) :
    initialMask (some m) m.length 1 i 0 = m[i]? ∧
    ∀ n width i j : ℕ, i < n → j < width → initialMask none n width i j = some false := by
  refine ⟨?_, fun n width i j h1 h2 => by simp [initialMask, h1, h2]⟩
  rw [initialMask_spec m 1 i 0 hi (by omega), mul_one, add_zero, Nat.mod_eq_of_lt hi]

/-- C197 is false for two numbers per slice: a pixel of the subset is masked, and one outside is not. -/
theorem initialMask_false :
    ∃ (npix : ℕ) (hpid : List ℕ) (p q : ℕ), p ∈ hpid ∧ q < npix ∧ q ∉ hpid ∧
      initialMask (some (subsetMask npix hpid)) npix 2 p 1 = some true ∧
      initialMask (some (subsetMask npix hpid)) npix 2 q 0 = some false :=
  ⟨12, [1, 2], 1, 7, by decide⟩

/-! ## C198 -/

/-- C198: single numbers give one slice, at that point. -/
theorem userPoints_one (a d : ℝ) :
    userPoints (.one a) (.one d) = some [(a * Real.pi / 180, d * Real.pi / 180)] ∧
    userPoints (.many [a]) (.one d) = some [(a * Real.pi / 180, d * Real.pi / 180)] := by
  simp [userPoints, Coord.list, radians]

/-- C198: there is an error exactly if the numbers of coordinates differ; otherwise slice `i` is at point
`i`, in radians. -/
theorem userPoints_spec (ra dec : Coord) :
    (userPoints ra dec = none ↔ ra.list.length ≠ dec.list.length) ∧
    ∀ ps, userPoints ra dec = some ps → ps.length = ra.list.length ∧
      ∀ (i : ℕ) (a d : ℝ), ra.list[i]? = some a → dec.list[i]? = some d →
        ps[i]? = some (a * Real.pi / 180, d * Real.pi / 180) := by
  unfold userPoints
  constructor
  · split <;> simp_all
  · intro ps h
    split at h
    · cases h
    · rename_i hl
      push Not at hl
      simp only [Option.some.injEq] at h
      subst h
      refine ⟨by simp [hl], fun i a d h1 h2 => ?_⟩
      rw [List.getElem?_zip_eq_some]
      simp [h1, h2, radians]

/-- Attributes that matter for slices and that no comparison looks at. -/
def sameHidden (a b : Slicer) : Prop :=
  a.latLonDeg = b.latLonDeg ∧ a.cameraRadius = b.cameraRadius ∧ a.cameraFile = b.cameraFile

theorem pyEq_fields (a b : Slicer) (h : pyEq a b = true) :
    a.nslice = b.nslice ∧ a.lonCol = b.lonCol ∧ a.latCol = b.latCol ∧ a.rotCol = b.rotCol ∧ a.radius = b.radius ∧
    a.useCamera = b.useCamera ∧ (a.cls = .user ↔ b.cls = .user) ∧
    (a.cls = .user → get a.points "ra" = get b.points "ra" ∧ get a.points "dec" = get b.points "dec") ∧
    (a.cls ≠ .user → a.nside = b.nside) ∧
    (a.cls ≠ .sdss → b.cls ≠ .sdss → (a.cls = .subset ↔ b.cls = .subset) ∧ (a.cls = .subset → a.hpid = b.hpid)) := by
  unfold pyEq eqMethod at h
  cases ha : a.cls <;> cases hb : b.cls <;>
    simp [ha, hb, isSub, healpixEq, subsetEq, userEq] at h <;>
    simp_all

/-- C199: equal slicers have equal slices, if they agree also in the unit of the visits and in the camera. -/
theorem eq_slices_partial (cam : ℚ → Option String → Camera) (pix : ℕ → ℕ → ℝ × ℝ) (order : List ℕ → List ℕ)
    (a b : Slicer) (ha : a.cls ≠ .sdss) (hb : b.cls ≠ .sdss) (h : pyEq a b = true) (hh : sameHidden a b)
    (table : List (String → ℝ)) (i : ℕ) : a.idxs cam pix order table i = b.idxs cam pix order table i := by
  obtain ⟨h1, h2, h3, h4, h5, h6, h7, h8, h9, h10⟩ := pyEq_fields a b h
  obtain ⟨g1, g2, g3⟩ := hh
  obtain ⟨h11, h12⟩ := h10 ha hb
  have hv : a.visits table = b.visits table := by unfold Slicer.visits; rw [h2, h3, h4]
  have hs : a.setup cam = b.setup cam := by unfold Slicer.setup; rw [g1, g2, g3, h5, h6]
  have hp : a.position pix i = b.position pix i := by
    unfold Slicer.position
    by_cases hu : a.cls = .user
    · have hu' := h7.1 hu
      simp only [hu, hu']
      rw [(h8 hu).1, (h8 hu).2]
    · have hu' : b.cls ≠ .user := fun e => hu (h7.2 e)
      have hn := h9 hu
      cases hca : a.cls <;> cases hcb : b.cls <;> simp_all
  unfold Slicer.idxs
  rw [hp, hv, hs]
  by_cases hsub : a.cls = .subset
  · rw [h12 hsub]
    simp [hsub, h11.1 hsub]
  · have : b.cls ≠ .subset := fun e => hsub (h11.2 e)
    simp [hsub, this]

/-- C199 is false: two slicers, of which one takes the visits to be in radians, are equal, yet one of them
has a visit at a point where the other one has none. -/
theorem eq_slices_false (cam : ℚ → Option String → Camera) (pix : ℕ → ℕ → ℝ × ℝ) (nside p : ℕ) (n : ℕ)
    (hp : pix nside p = (0, 0)) (hn : p < n) :
    let a : Slicer := { cls := .healpix, nside := nside, nslice := n, useCamera := false }
    let b : Slicer := { cls := .healpix, nside := nside, nslice := n, useCamera := false, latLonDeg := false }
    pyEq a b = true ∧ ∃ table : List (String → ℝ),
      a.idxs cam pix id table p ≠ some [] ∧ b.idxs cam pix id table p = some [] := by
  intro a b
  refine ⟨by simp [a, b, pyEq, eqMethod, healpixEq, isSub], [fun c => if c = "fieldRA" then 1 else 0], ?_, ?_⟩
  · have hpos : a.position pix p = some (0, 0) := by simp [a, Slicer.position, hn, hp]
    unfold Slicer.idxs
    rw [hpos]
    simp only [Option.map_some, ne_eq, Option.some.injEq]
    rw [if_neg (by simp [a])]
    intro he
    have hsp := (slice_spec id (fun l => List.Perm.refl l) (a.setup cam)
      (a.visits [fun c => if c = "fieldRA" then 1 else 0]) 0 0 (by norm_num [a, Slicer.setup])
      (by norm_num [a, Slicer.setup])).2 0
    rw [he] at hsp
    refine absurd (hsp.2 ⟨⟨1, 0, 0⟩, by simp [a, Slicer.visits], ?_⟩) (by simp)
    simp only [a, Slicer.setup, if_true]
    refine ⟨?_, fun h => by simp at h⟩
    unfold sep radians
    have hpi := Real.pi_pos
    simp only [zero_mul, zero_div, Real.sin_zero, Real.cos_zero, mul_zero, one_mul, zero_add, sub_zero]
    rw [Real.arccos_cos (by positivity) (by linarith)]
    push_cast
    linarith
  · have hpos : b.position pix p = some (0, 0) := by simp [b, Slicer.position, hn, hp]
    unfold Slicer.idxs
    rw [hpos]
    simp only [Option.map_some, Option.some.injEq]
    rw [if_neg (by simp [b])]
    refine List.eq_nil_iff_forall_not_mem.2 fun k hk => ?_
    have hsp := (slice_spec id (fun l => List.Perm.refl l) (b.setup cam)
      (b.visits [fun c => if c = "fieldRA" then 1 else 0]) 0 0 (by norm_num [b, Slicer.setup])
      (by norm_num [b, Slicer.setup])).2 k
    obtain ⟨v, h1, h2, _⟩ := hsp.1 hk
    rcases k with _ | k
    · have hv : v = ⟨1, 0, 0⟩ := by simpa [b, Slicer.visits] using h1.symm
      subst hv
      simp only [b, Slicer.setup, Bool.false_eq_true, if_false] at h2
      unfold sep radians at h2
      have hpi := Real.pi_le_four
      have hpi3 := Real.two_le_pi
      simp only [Real.sin_zero, Real.cos_zero, mul_zero, one_mul, zero_add, sub_zero] at h2
      rw [Real.arccos_cos (by norm_num) (by linarith)] at h2
      push_cast at h2
      linarith
    · simp [b, Slicer.visits] at h1

/-- C199: a slicer is equal to itself (if no key is twice in its slice points, as in a dictionary). -/
theorem eq_refl (a : Slicer) (hnd : (a.points.map Prod.fst).Nodup) : pyEq a a = true := by
  have hget : ∀ (l : List (String × Val ℚ)), (l.map Prod.fst).Nodup → ∀ e ∈ l, get l e.1 = some e.2 := by
    intro l
    induction l with
    | nil => intro _ e he; simp at he
    | cons x l ih =>
      intro hnd e he
      rw [List.map_cons, List.nodup_cons] at hnd
      rcases List.mem_cons.1 he with rfl | he
      · simp [get]
      · have hne : ¬ (x.1 = e.1) := fun h => hnd.1 (h ▸ List.mem_map_of_mem he)
        have := ih hnd.2 e he
        unfold get at this ⊢
        rw [List.find?_cons, show ((x.1 == e.1) = false) from by simpa using hne]
        exact this
  unfold pyEq eqMethod
  cases ha : a.cls <;> simp [ha, isSub, healpixEq, subsetEq, userEq]
  intro k v hkv
  exact hget _ hnd _ hkv

/-- C199: comparison is symmetric for healpix slicers and for subsets of them. -/
theorem eq_symm_partial (a b : Slicer) (ha : a.cls = .healpix ∨ a.cls = .subset)
    (hb : b.cls = .healpix ∨ b.cls = .subset) : pyEq a b = pyEq b a := by
  unfold pyEq eqMethod
  rcases ha with ha | ha <;> rcases hb with hb | hb <;>
    simp [ha, hb, isSub, healpixEq, subsetEq, eq_comm]

/-- C199: a subset is never equal to a full slicer. -/
theorem eq_subset_full (a b : Slicer) (ha : a.cls = .healpix) (hb : b.cls = .subset) :
    pyEq a b = false ∧ pyEq b a = false := by
  simp [pyEq, eqMethod, ha, hb, isSub, subsetEq]

/-- C199 is false of slicers with points of the user: one that has been set up with a map is equal to one
that has not, but not the other way round. -/
theorem eq_symm_false : ∃ a b : Slicer, a.cls = .user ∧ b.cls = .user ∧ pyEq a b = true ∧ pyEq b a = false :=
  ⟨{ cls := .user, nslice := 1, points := [("ra", .array [1]), ("dec", .array [2]), ("ebv", .array [3])] },
   { cls := .user, nslice := 1, points := [("ra", .array [1]), ("dec", .array [2])] }, by decide +kernel⟩

example : pyEq { cls := .subset, nside := 1, nslice := 12, hpid := [1, 2] }
      { cls := .subset, nside := 1, nslice := 12, hpid := [1, 2], useCache := false } = true ∧
    pyEq { cls := .subset, nside := 1, nslice := 12, hpid := [1, 2] }
      { cls := .subset, nside := 1, nslice := 12, hpid := [2, 1] } = false ∧
    pyEq { cls := .healpix, nside := 1, nslice := 12 } { cls := .healpix, nside := 2, nslice := 48 } = false := by
  decide +kernel

end Verif.Spatial
