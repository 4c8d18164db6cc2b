import Verif.Model.SkyModel
import Mathlib.Tactic.Linarith
import Mathlib.Tactic.FieldSimp
import Mathlib.Tactic.Ring
import Mathlib.Tactic.NormNum
import Mathlib.Analysis.Real.Pi.Bounds
import Mathlib.Data.Rat.Floor

/-!
# Properties of the model of the sky: C276–C279
-/

namespace Verif.SkyM

/-! ## C276: angles -/

theorem two_pi_pos : (0 : ℝ) < 2 * Real.pi := by have := Real.pi_pos; linarith

/-- A wrapped angle is in the range and differs by full turns. -/
theorem wrap_spec (x : ℝ) : 0 ≤ wrap x ∧ wrap x < 2 * Real.pi ∧ ∃ k : ℤ, wrap x = x - k * (2 * Real.pi) := by
  have hp := two_pi_pos
  have h1 := Int.floor_le (x / (2 * Real.pi))
  have h2 := Int.lt_floor_add_one (x / (2 * Real.pi))
  rw [le_div_iff₀ hp] at h1
  rw [div_lt_iff₀ hp] at h2
  unfold wrap
  refine ⟨by linarith, by linarith, ⌊x / (2 * Real.pi)⌋, by ring⟩

/-- ... and is the only such angle. -/
theorem wrap_unique (x y : ℝ) (h0 : 0 ≤ y) (h1 : y < 2 * Real.pi) (k : ℤ) (hk : y = x - k * (2 * Real.pi)) : wrap x = y := by
  obtain ⟨a, b, j, hj⟩ := wrap_spec x
  have hp := two_pi_pos
  have hd : wrap x - y = ((k - j : ℤ) : ℝ) * (2 * Real.pi) := by rw [hj, hk]; push_cast; ring
  have hz : k - j = 0 := by
    have h3 : ((k - j : ℤ) : ℝ) * (2 * Real.pi) < 1 * (2 * Real.pi) := by rw [← hd]; linarith
    have h4 : (-1 : ℝ) * (2 * Real.pi) < ((k - j : ℤ) : ℝ) * (2 * Real.pi) := by rw [← hd]; linarith
    have h5 := lt_of_mul_lt_mul_right h3 hp.le
    have h6 := lt_of_mul_lt_mul_right h4 hp.le
    have h7 : k - j < 1 := by exact_mod_cast h5
    have h8 : -1 < k - j := by exact_mod_cast h6
    omega
  rw [hz] at hd
  simp at hd
  linarith

/-- The azimuth relative to the moon is the angle in `[0, π]` with the same cosine as the difference. -/
theorem relMoon_spec (az moon : ℝ) : 0 ≤ relMoon az moon ∧ relMoon az moon ≤ Real.pi ∧ Real.cos (relMoon az moon) = Real.cos (az - moon) := by
  obtain ⟨a, b, j, hj⟩ := wrap_spec (az - moon)
  have hc : Real.cos (wrap (az - moon)) = Real.cos (az - moon) := by rw [hj]; exact Real.cos_sub_int_mul_two_pi _ _
  unfold relMoon
  split_ifs with h
  · refine ⟨by linarith, by linarith, ?_⟩
    rw [Real.cos_two_pi_sub, hc]
  · exact ⟨a, not_lt.mp h, hc⟩

theorem relMoon_arccos (az moon : ℝ) : relMoon az moon = Real.arccos (Real.cos (az - moon)) := by
  obtain ⟨a, b, c⟩ := relMoon_spec az moon
  rw [← c, Real.arccos_cos a b]

theorem relMoon_symm (az moon : ℝ) : relMoon az moon = relMoon moon az := by
  rw [relMoon_arccos, relMoon_arccos, ← Real.cos_neg, neg_sub]

/-- The altitude of an airmass of at least one has that airmass. -/
theorem airmass_alt (x : ℝ) (hx : 1 ≤ x) : airmassOf (altOf x) = x := by
  unfold airmassOf altOf
  rw [sub_sub_cancel, Real.cos_arccos]
  · simp
  · have : (0 : ℝ) ≤ 1 / x := by positivity
    linarith
  · rw [div_le_one (by linarith)]; exact hx

/-- ... and the altitude of the airmass of an altitude above the horizon is that altitude. -/
theorem alt_airmass (a : ℝ) (h0 : 0 < a) (h1 : a ≤ Real.pi / 2) : altOf (airmassOf a) = a := by
  unfold airmassOf altOf
  rw [one_div_one_div, Real.arccos_cos] <;> linarith [Real.pi_pos]

/-- The same arguments in radians. -/
noncomputable def inRadians (p : Params) : Params :=
  { p with az := p.az * (Real.pi / 180), alt := p.alt.map (· * (Real.pi / 180)), moonAlt := p.moonAlt * (Real.pi / 180), moonAz := p.moonAz * (Real.pi / 180),
           sunAlt := p.sunAlt * (Real.pi / 180), sunAz := p.sunAz * (Real.pi / 180), sunEclipLon := p.sunEclipLon * (Real.pi / 180),
           eclipLon := p.eclipLon * (Real.pi / 180), eclipLat := p.eclipLat * (Real.pi / 180) }

/-- Arguments in degrees give the point of the same arguments in radians. -/
theorem degrees_partial (p : Params) : setParams true p = setParams false (inRadians p) := by
  rcases p with ⟨am, az, alt, mp, ml, mz, sl, sz, se, el, eb, f⟩
  cases alt <;> simp [setParams, inRadians, conv, altRad]

/-- The full claim, including the separation from the moon. -/
def DegreesClaim : Prop := ∀ p : Params, setParams true p = setParams false (inRadians p) ∧ targSep true p = targSep false (inRadians p)

/-- It is false: the azimuth of the moon is not converted for the separation. -/
theorem degrees_false : ¬ DegreesClaim := by
  intro h
  have hpi := Real.pi_pos
  have hpi4 := Real.pi_le_four
  have h3 := (h ⟨1, 1, some 0, 0, 0, 1, 0, 0, 0, 0, 0, 0⟩).2
  simp only [targSep, inRadians, conv, altRad, haversine, Option.map_some, if_true] at h3
  norm_num at h3
  have h4 : Real.sin ((Real.pi / 180 - 1) / 2) < 0 := Real.sin_neg_of_neg_of_neg_pi_lt (by linarith) (by linarith [Real.pi_gt_three])
  rw [Real.sqrt_sq_eq_abs, abs_eq_zero] at h3
  linarith

/-- What the separation in degrees is: that of a moon at the unconverted azimuth. -/
theorem targSep_spec (p : Params) : targSep true p = targSep false { inRadians p with moonAz := p.moonAz } := by
  rcases p with ⟨am, az, alt, mp, ml, mz, sl, sz, se, el, eb, f⟩
  cases alt <;> simp [targSep, inRadians, conv, altRad]

example : wrap (-Real.pi) = Real.pi := by
  refine wrap_unique _ _ Real.pi_pos.le (by linarith [Real.pi_pos]) (-1) ?_
  push_cast; ring

example : relMoon 0 (3 * Real.pi / 2) = Real.pi / 2 := by
  rw [relMoon_arccos]
  have : Real.cos (0 - 3 * Real.pi / 2) = Real.cos (Real.pi / 2) := by
    rw [show (0 - 3 * Real.pi / 2 : ℝ) = Real.pi / 2 - 2 * Real.pi by ring, Real.cos_sub_two_pi]
  rw [this, Real.arccos_cos] <;> linarith [Real.pi_pos]

/-! ## C277: sum of the components -/

section
variable {P K : Type} [Field K] [LinearOrder K] {d : ℕ}

theorem mem_goodPix (am : P → K) (limit : K) (pts : List P) (i : ℕ) :
    i ∈ goodPix am limit pts ↔ ∃ p, pts[i]? = some p ∧ 1 ≤ am p ∧ am p ≤ limit := by
  unfold goodPix
  rw [List.mem_filter, List.mem_range]
  constructor
  · rintro ⟨h, h2⟩
    rw [List.getElem?_eq_getElem h] at h2 ⊢
    simp only [inRange, Bool.and_eq_true, decide_eq_true_eq] at h2
    exact ⟨_, rfl, h2.2, h2.1⟩
  · rintro ⟨p, hp, h1, h2⟩
    have := (List.getElem?_eq_some_iff.mp hp).1
    refine ⟨this, ?_⟩
    rw [hp]
    simp [inRange, h1, h2]

theorem goodPts_get (am : P → K) (limit : K) (pts : List P) (j : ℕ) :
    (goodPts am limit pts)[j]? = ((goodPix am limit pts)[j]?).bind (fun i => pts[i]?) := by
  unfold goodPts
  have hall : ∀ i ∈ goodPix am limit pts, (pts[i]?).isSome := by
    intro i hi
    obtain ⟨p, hp, -⟩ := (mem_goodPix am limit pts i).mp hi
    simp [hp]
  generalize goodPix am limit pts = g at hall
  induction g generalizing j with
  | nil => simp
  | cons i g ih =>
    obtain ⟨p, hp⟩ := Option.isSome_iff_exists.mp (hall i (by simp))
    have := fun j => ih j (fun x hx => hall x (List.mem_cons_of_mem _ hx))
    cases j with
    | zero => simp [hp]
    | succ j => simp [hp, this]

/-- The point of a good index, found among the good points. -/
theorem goodPts_idx (am : P → K) (limit : K) (pts : List P) (i : ℕ) (hi : i ∈ goodPix am limit pts) :
    (goodPts am limit pts)[(goodPix am limit pts).idxOf i]? = pts[i]? := by
  rw [goodPts_get, List.getElem?_eq_getElem (List.idxOf_lt_length_iff.mpr hi)]
  simp

/-- The components that are on, with their functions; `none` if one was not loaded. -/
def onComps (objs : List (String × (P → Fin d → K))) (flags : List (String × Bool)) : Option (List (P → Fin d → K)) :=
  (flags.filter (·.2)).mapM (fun f => objs.lookup f.1)

/-- Whether a component with something positive at some good point is empty at `p`. -/
def emptyAt (gp : List P) (p : P) (f : P → Fin d → K) : Prop := (∃ q ∈ gp, ∃ k, 0 < f q k) ∧ ∑ k, f p k = 0

theorem loop_error (objs : List (String × (P → Fin d → K))) (good : List ℕ) (gp : List P) (flags : List (String × Bool)) (s : Loop K d) (h : onComps objs flags = none) :
    loop objs good gp flags s = .error "KeyError" := by
  induction flags generalizing s with
  | nil => simp [onComps] at h
  | cons f flags ih =>
    obtain ⟨key, on⟩ := f
    unfold loop
    cases on with
    | false =>
      rw [if_neg (by simp)]
      exact ih s (by simpa [onComps] using h)
    | true =>
      rw [if_pos rfl]
      cases hk : objs.lookup key with
      | none => rfl
      | some f =>
        refine ih _ ?_
        unfold onComps at h ⊢
        rw [List.filter_cons_of_pos rfl, List.mapM_cons, hk] at h
        cases hm : List.mapM (fun f : String × Bool => objs.lookup f.1) (flags.filter (·.2)) with
        | none => rfl
        | some l => rw [hm] at h; simp at h

/-- The state of the loop at the end. -/
theorem loop_ok (objs : List (String × (P → Fin d → K))) (good : List ℕ) (gp : List P) (flags : List (String × Bool)) (s : Loop K d)
    (comps : List (P → Fin d → K)) (h : onComps objs flags = some comps) :
    loop objs good gp flags s = .ok (comps.foldl (fun s f => addComp good (gp.map f) s) s) := by
  induction flags generalizing s comps with
  | nil =>
    simp [onComps] at h
    subst h
    rfl
  | cons f flags ih =>
    obtain ⟨key, on⟩ := f
    unfold loop
    cases on with
    | false =>
      rw [if_neg (by simp)]
      exact ih s comps (by simpa [onComps] using h)
    | true =>
      rw [if_pos rfl]
      unfold onComps at h
      rw [List.filter_cons_of_pos rfl, List.mapM_cons] at h
      cases hk : objs.lookup key with
      | none => rw [hk] at h; simp at h
      | some g =>
        rw [hk] at h
        cases hm : List.mapM (fun f : String × Bool => objs.lookup f.1) (flags.filter (·.2)) with
        | none => rw [hm] at h; simp at h
        | some l =>
          rw [hm] at h
          simp at h
          subst h
          rw [List.foldl_cons]
          exact ih _ l hm

theorem fold_length (good : List ℕ) (gp : List P) (comps : List (P → Fin d → K)) (s : Loop K d) :
    (comps.foldl (fun s f => addComp good (gp.map f) s) s).spec.length = s.spec.length := by
  induction comps generalizing s with
  | nil => rfl
  | cons f comps ih => rw [List.foldl_cons, ih]; simp [addComp]

theorem fold_spec (good : List ℕ) (gp : List P) (comps : List (P → Fin d → K)) (s : Loop K d) (i : ℕ) (p : P) (hi : i ∈ good)
    (hp : gp[good.idxOf i]? = some p) :
    (comps.foldl (fun s f => addComp good (gp.map f) s) s).spec[i]? = (s.spec[i]?).map (fun r => r + (comps.map (fun f => f p)).sum) := by
  induction comps generalizing s with
  | nil => simp
  | cons f comps ih =>
    rw [List.foldl_cons, ih]
    simp only [addComp, List.getElem?_mapIdx, hi, if_true, List.getElem?_map, hp, Option.map_some, Option.map_map]
    congr 1
    funext r
    simp [add_assoc]

theorem fold_mask (good : List ℕ) (gp : List P) (comps : List (P → Fin d → K)) (s : Loop K d) (i : ℕ) (hi : i < s.mask.length) (ht : s.mask.getD i true = true ∨ (∃ p, gp[i]? = some p)) :
    ((comps.foldl (fun s f => addComp good (gp.map f) s) s).mask.getD i true = false ↔
      s.mask.getD i true = false ∨ ∃ p, gp[i]? = some p ∧ ∃ f ∈ comps, emptyAt gp p f) := by
  clear ht
  induction comps generalizing s with
  | nil => simp
  | cons f comps ih =>
    rw [List.foldl_cons, ih _ (by unfold addComp; dsimp only; split_ifs <;> simpa using hi)]
    have key : ((addComp good (gp.map f) s).mask.getD i true = false ↔ s.mask.getD i true = false ∨ ∃ p, gp[i]? = some p ∧ emptyAt gp p f) := by
      unfold addComp
      dsimp only
      have hany : ((gp.map f).any (fun r => (List.finRange d).any (fun k => decide (0 < r k))) = true ↔ ∃ q ∈ gp, ∃ k, 0 < f q k) := by
        simp
      split_ifs with h1
      · have h2 := hany.mp h1
        rw [List.getD_eq_getElem?_getD, List.getD_eq_getElem?_getD, List.getElem?_mapIdx, List.getElem?_eq_getElem hi]
        simp only [Option.map_some, Option.getD_some, List.getElem?_map]
        cases hg : gp[i]? with
        | none => simp
        | some p =>
          simp only [Option.map_some, Option.some.injEq, exists_eq_left']
          have h3 : emptyAt gp p f ↔ ((List.finRange d).map (f p)).sum = 0 := by
            unfold emptyAt
            rw [and_iff_right h2, ← List.sum_ofFn, List.ofFn_eq_map]
          rw [h3]
          split_ifs with h4 <;> simp [h4]
      · have h2 : ∀ p, ¬ emptyAt gp p f := fun p he => h1 (hany.mpr he.1)
        simp [h2]
    rw [key]
    constructor
    · rintro ((h | ⟨p, hp, h⟩) | ⟨p, hp, g, hg, h⟩)
      · exact Or.inl h
      · exact Or.inr ⟨p, hp, f, by simp, h⟩
      · exact Or.inr ⟨p, hp, g, by simp [hg], h⟩
    · rintro (h | ⟨p, hp, g, hg, h⟩)
      · exact Or.inl (Or.inl h)
      · rcases List.mem_cons.mp hg with rfl | hg
        · exact Or.inl (Or.inr ⟨p, hp, h⟩)
        · exact Or.inr ⟨p, hp, g, hg, h⟩

end

section
variable {P K : Type} [Field K] [LinearOrder K] {d : ℕ}

/-- What the sky is at each point, for all lists of points, components and limits: not a number out of range; in range the
sum of the components that are on, or zero if the limit is at most `cut` and the good point *with this index among the good
points* has an empty component. -/
theorem sky_spec (am : P → K) (limit cut : K) (flags : List (String × Bool)) (objs : List (String × (P → Fin d → K))) (pts : List P)
    (comps : List (P → Fin d → K)) (h : onComps objs flags = some comps) :
    ∃ out, interpSky am limit cut flags objs pts = .ok out ∧ out.length = pts.length ∧
      ∀ (i : ℕ) p, pts[i]? = some p →
        (¬ (1 ≤ am p ∧ am p ≤ limit) → out[i]? = some none) ∧
        (1 ≤ am p ∧ am p ≤ limit →
          ((limit ≤ cut ∧ ∃ q, (pts.filter (fun q => decide (1 ≤ am q ∧ am q ≤ limit)))[i]? = some q ∧ ∃ f ∈ comps, emptyAt (pts.filter (fun q => decide (1 ≤ am q ∧ am q ≤ limit))) q f) →
            out[i]? = some (some 0)) ∧
          (¬ (limit ≤ cut ∧ ∃ q, (pts.filter (fun q => decide (1 ≤ am q ∧ am q ≤ limit)))[i]? = some q ∧ ∃ f ∈ comps, emptyAt (pts.filter (fun q => decide (1 ≤ am q ∧ am q ≤ limit))) q f) →
            out[i]? = some (some (comps.map (fun f => f p)).sum))) := by
  have hgp : goodPts am limit pts = pts.filter (fun q => decide (1 ≤ am q ∧ am q ≤ limit)) := by
    unfold goodPts goodPix
    induction pts using List.reverseRecOn with
    | nil => rfl
    | append_singleton l a ih =>
      rw [List.length_append, List.length_singleton, List.range_succ, List.filter_append, List.filterMap_append, List.filter_append, ← ih]
      congr 1
      · have e1 : (List.range l.length).filter (fun i => inRange am limit (l ++ [a])[i]?) = (List.range l.length).filter (fun i => inRange am limit l[i]?) := by
          apply List.filter_congr
          intro i hi
          rw [List.getElem?_append_left (List.mem_range.mp hi)]
        rw [e1]
        apply List.filterMap_congr
        intro i hi
        rw [List.getElem?_append_left (List.mem_range.mp (List.mem_of_mem_filter hi))]
      · by_cases hc : 1 ≤ am a ∧ am a ≤ limit
        · simp [inRange, hc.1, hc.2]
        · have : ¬ (am a ≤ limit ∧ 1 ≤ am a) := fun x => hc ⟨x.2, x.1⟩
          simp [inRange, hc, this]
  rw [← hgp]
  unfold interpSky
  dsimp only
  rw [loop_ok _ _ _ _ _ _ h]
  refine ⟨_, rfl, ?_, ?_⟩
  · rw [List.length_mapIdx, fold_length]; simp
  · intro i p hp
    have hlt := (List.getElem?_eq_some_iff.mp hp).1
    have hmem : i ∈ goodPix am limit pts ↔ 1 ≤ am p ∧ am p ≤ limit := by
      rw [mem_goodPix]
      constructor
      · rintro ⟨q, hq, h2⟩; rw [hp] at hq; cases hq; exact h2
      · intro h2; exact ⟨p, hp, h2⟩
    constructor
    · intro hb
      rw [List.getElem?_mapIdx, List.getElem?_eq_getElem (by rw [fold_length]; simpa using hlt)]
      simp [hmem, hb]
    · intro hg
      have hi := hmem.mpr hg
      have hmask := fold_mask (goodPix am limit pts) (goodPts am limit pts) comps ⟨List.replicate pts.length true, List.replicate pts.length 0⟩ i (by simpa using hlt)
        (Or.inl (by simp [List.getD_eq_getElem?_getD, hlt]))
      have h0 : ¬ (List.replicate pts.length true).getD i true = false := by simp [List.getD_eq_getElem?_getD, hlt]
      have hspec := fold_spec (goodPix am limit pts) (goodPts am limit pts) comps ⟨List.replicate pts.length true, List.replicate pts.length 0⟩ i p hi
        (by rw [goodPts_idx am limit pts i hi, hp])
      rw [or_iff_right h0] at hmask
      rw [List.getElem?_mapIdx, hspec]
      simp only [hi, if_true, List.getElem?_replicate, hlt, Option.map_some, zero_add]
      constructor
      · rintro ⟨hz, hq⟩; rw [if_pos ⟨hz, hmask.mpr hq⟩]
      · intro hz; rw [if_neg (fun x => hz ⟨x.1, hmask.mp x.2⟩)]

/-- With the limit above `cut` (2.5 in the code), the sky is the sum of the components that are on at the points in range. -/
theorem sky_sum (am : P → K) (limit cut : K) (flags : List (String × Bool)) (objs : List (String × (P → Fin d → K))) (pts : List P)
    (comps : List (P → Fin d → K)) (h : onComps objs flags = some comps) (hc : cut < limit) :
    interpSky am limit cut flags objs pts = .ok (pts.map (fun p => if 1 ≤ am p ∧ am p ≤ limit then some (comps.map (fun f => f p)).sum else none)) := by
  obtain ⟨out, ho, hl, hs⟩ := sky_spec am limit cut flags objs pts comps h
  rw [ho]
  congr 1
  apply List.ext_getElem?
  intro i
  rw [List.getElem?_map]
  cases hp : pts[i]? with
  | none => rw [Option.map_none, List.getElem?_eq_none_iff, hl]; exact List.getElem?_eq_none_iff.mp hp
  | some p =>
    have := hs i p hp
    simp only [Option.map_some]
    split_ifs with hg
    · exact (this.2 hg).2 (fun x => absurd x.1 (not_le.mpr hc))
    · exact this.1 hg

/-- A component that is switched on but was not on at construction is an exception. -/
theorem turn_on_error (am : P → K) (limit cut : K) (all : List (String × (P → Fin d → K))) (flags flags' : List (String × Bool)) (pts : List P) (key : String)
    (hoff : flags.lookup key ≠ some true) (hon : (key, true) ∈ flags') :
    interpSky am limit cut flags' (loaded all flags) pts = .error "KeyError" := by
  unfold interpSky
  dsimp only
  rw [loop_error]
  have hnone : (loaded all flags).lookup key = none := by
    rw [List.lookup_eq_none_iff]
    intro e he
    unfold loaded at he
    have h2 := (List.mem_filter.mp he).2
    simp only [bne_iff_ne, ne_eq, bne, Bool.not_eq_true', beq_eq_false_iff_ne]
    intro hk
    apply hoff
    rw [hk]
    cases hl : flags.lookup e.1 with
    | none => rw [hl] at h2; simp at h2
    | some b => rw [hl] at h2; simp at h2; rw [h2]
  unfold onComps
  have hm : (key, true) ∈ flags'.filter (·.2) := List.mem_filter.mpr ⟨hon, rfl⟩
  generalize flags'.filter (·.2) = l at hm
  induction l with
  | nil => simp at hm
  | cons f l ih =>
    rw [List.mapM_cons]
    rcases List.mem_cons.mp hm with rfl | hm
    · rw [hnone]; rfl
    · rw [ih hm]
      cases (loaded all flags).lookup f.1 <;> rfl

/-- Switching components off leaves the sum of the rest. -/
theorem turn_off (objs : List (String × (P → Fin d → K))) (flags : List (String × Bool)) (key : String) (comps : List (P → Fin d → K)) (h : onComps objs flags = some comps) :
    ∃ comps', onComps objs (flags.map (fun f => if f.1 = key then (f.1, false) else f)) = some comps' ∧ comps'.Sublist comps ∧
      comps' = ((flags.filter (fun f => f.2 && decide (f.1 ≠ key))).filterMap (fun f => objs.lookup f.1)) := by
  induction flags generalizing comps with
  | nil => exact ⟨[], rfl, by simp, rfl⟩
  | cons f flags ih =>
    obtain ⟨k, on⟩ := f
    cases on with
    | false =>
      obtain ⟨c', h1, h2, h3⟩ := ih comps (by simpa [onComps] using h)
      refine ⟨c', ?_, h2, by simpa using h3⟩
      unfold onComps at h1 ⊢
      by_cases hk : k = key <;> simpa [hk] using h1
    | true =>
      unfold onComps at h
      rw [List.filter_cons_of_pos rfl, List.mapM_cons] at h
      cases hl : objs.lookup k with
      | none => rw [hl] at h; simp at h
      | some g =>
        rw [hl] at h
        cases hm : List.mapM (fun f : String × Bool => objs.lookup f.1) (flags.filter (·.2)) with
        | none => rw [hm] at h; simp at h
        | some l =>
          rw [hm] at h
          simp at h
          subst h
          obtain ⟨c', h1, h2, h3⟩ := ih l hm
          by_cases hk : k = key
          · refine ⟨c', ?_, h2.cons _, ?_⟩
            · unfold onComps at h1 ⊢
              simpa [hk] using h1
            · simpa [hk] using h3
          · refine ⟨g :: c', ?_, h2.cons_cons _, ?_⟩
            · unfold onComps at h1 ⊢
              rw [List.map_cons, if_neg hk, List.filter_cons_of_pos rfl, List.mapM_cons, hl, h1]; rfl
            · rw [List.filter_cons_of_pos (by simpa using hk), List.filterMap_cons, hl, ← h3]

end

/-- The intention of the mask: with a limit of at most 2.5, points where a component is empty have no sky, the others have
their sum. -/
def MaskClaim : Prop := ∀ (pts : List (ℚ × ℚ)) (limit : ℚ) (f : ℚ × ℚ → Fin 1 → ℚ) (out : List (Option (Fin 1 → ℚ))), limit ≤ 5 / 2 →
  interpSky (·.1) limit (5 / 2) [("moon", true)] [("moon", f)] pts = .ok out →
  ∀ (i : ℕ) p, pts[i]? = some p → 1 ≤ p.1 → p.1 ≤ limit → out[i]? = some (some (f p))

/-- It is false: one point out of range shifts the indices, and a point with sky loses it. -/
theorem mask_false : ¬ MaskClaim := by
  intro h
  have h2 := h [(3, 1), (1, 7), (1, 0)] 2 (fun p _ => p.2) _ (by norm_num) rfl 1 (1, 7) rfl (by norm_num) (by norm_num)
  have h3 := congrArg (fun o => o.map (fun r => r.map (fun f => f 0))) h2
  revert h3
  decide +kernel

/-- With all points in range the mask is right: empty points have no sky and the others have the sum. -/
theorem mask_partial {P K : Type} [Field K] [LinearOrder K] {d : ℕ} (am : P → K) (limit cut : K) (flags : List (String × Bool)) (objs : List (String × (P → Fin d → K))) (pts : List P)
    (comps : List (P → Fin d → K)) (h : onComps objs flags = some comps) (hall : ∀ p ∈ pts, 1 ≤ am p ∧ am p ≤ limit) (hc : limit ≤ cut) :
    ∃ out, interpSky am limit cut flags objs pts = .ok out ∧ ∀ (i : ℕ) p, pts[i]? = some p →
      ((∃ f ∈ comps, (∃ q ∈ pts, ∃ k, 0 < f q k) ∧ ∑ k, f p k = 0) → out[i]? = some (some 0)) ∧
      ((¬ ∃ f ∈ comps, (∃ q ∈ pts, ∃ k, 0 < f q k) ∧ ∑ k, f p k = 0) → out[i]? = some (some (comps.map (fun f => f p)).sum)) := by
  obtain ⟨out, ho, -, hs⟩ := sky_spec am limit cut flags objs pts comps h
  refine ⟨out, ho, fun i p hp => ?_⟩
  have hf : pts.filter (fun q => decide (1 ≤ am q ∧ am q ≤ limit)) = pts := List.filter_eq_self.mpr (fun q hq => by simpa using hall q hq)
  have h1 := (hs i p hp).2 (hall p (List.mem_of_getElem? hp))
  rw [hf] at h1
  constructor
  · rintro ⟨f, hf, he⟩
    exact h1.1 ⟨hc, p, hp, f, hf, he⟩
  · intro hn
    refine h1.2 ?_
    rintro ⟨-, q, hq, f, hf, he⟩
    rw [hp] at hq
    cases hq
    exact hn ⟨f, hf, he⟩

example : (interpSky (P := ℚ × ℚ) (d := 1) (·.1) 4 (5 / 2) [("moon", true), ("airglow", false), ("zodiacal", true)]
    [("moon", fun p _ => p.2), ("zodiacal", fun _ _ => 10)] [(5, 1), (1, 7), (2, 0)]).map (fun l => l.map (fun r => r.map (fun f => f 0)))
    = .ok [none, some 17, some 10] := by decide +kernel

/-! ## C278: state and magnitudes -/

/-- After a successful call of either function with some point in range the spectra returned are those of that call. -/
theorem fresh_spec {S : Type} (spec : List S) (bad : List ℕ) (s : State S) (h : bad.length < spec.length) :
    (setRaDec spec bad s).1 = .ok () ∧ returnSpec (setRaDec spec bad s).2 = .ok spec ∧ (setPar spec bad s).1 = .ok () ∧ returnSpec (setPar spec bad s).2 = .ok spec := by
  have : ¬ bad.length = spec.length := by omega
  simp [setRaDec, setPar, returnSpec, this]

/-- ... and the magnitudes those of the points in range after `set_ra_dec_mjd`. -/
theorem mags_partial {S V : Type} (mag : S → V) (spec : List S) (bad : List ℕ) (s : State S) (h : bad.length < spec.length) :
    ∃ out, returnMags mag (setRaDec spec bad s).2 = .ok out ∧ out.length = spec.length ∧
      ∀ (i : ℕ) (x : S), spec[i]? = some x → out[i]? = some (if i ∈ bad then none else some (mag x)) := by
  have : ¬ bad.length = spec.length := by omega
  refine ⟨(List.range spec.length).map (fun i => if i ∈ bad then none else (spec[i]?).map mag), by simp [setRaDec, returnMags, this], by simp, ?_⟩
  intro i x hx
  have hlt := (List.getElem?_eq_some_iff.mp hx).1
  rw [List.getElem?_map, List.getElem?_range hlt]
  simp [hx]

/-- The claims for `set_params`: the spectra returned are those of the last call, and magnitudes can be had. -/
def ParamsSpec : Prop := ∀ (spec : List ℚ) (bad : List ℕ) (s : State ℚ), (setPar spec bad s).1 = .ok () → returnSpec (setPar spec bad s).2 = .ok spec

def ParamsMags : Prop := ∀ (spec : List ℚ) (bad : List ℕ), bad.length < spec.length → ∃ out, returnMags id (setPar spec bad (fresh ℚ)).2 = .ok out

/-- Both are false: with all points out of range the spectra of the call before are returned, with only a warning ... -/
theorem params_spec_false : ¬ ParamsSpec := by
  intro h
  have h2 := h [5, 6] [0, 1] (setRaDec [1, 2, 3] [] (fresh ℚ)).2 rfl
  revert h2
  simp [setPar, setRaDec, returnSpec, fresh]

/-- ... and a new object has no `ra` after `set_params`. -/
theorem params_mags_false : ¬ ParamsMags := by
  intro h
  obtain ⟨out, ho⟩ := h [1] [] (by simp)
  simp [setPar, returnMags, fresh] at ho

/-- What is returned with all points out of range: the spectra of before, in general. -/
theorem stale_spec {S : Type} (old spec : List S) (bad obad : List ℕ) (s : State S) (ho : obad.length < old.length) (h : bad.length = spec.length) :
    (setPar spec bad (setRaDec old obad s).2).1 = .ok () ∧ returnSpec (setPar spec bad (setRaDec old obad s).2).2 = .ok old ∧
    (setRaDec spec bad (setRaDec old obad s).2).1 = .error "ValueError" ∧ returnSpec (setRaDec spec bad (setRaDec old obad s).2).2 = .ok old := by
  have : ¬ obad.length = old.length := by omega
  simp [setRaDec, setPar, returnSpec, this, h]

/-- The magnitude of one component is the magnitude of the template, for every constant. -/
theorem mag_one (c m : ℝ) : toMag c (flux c m) = m := by
  unfold toMag flux
  rw [Real.logb_rpow (by norm_num) (by norm_num)]
  ring

theorem flux_pos (c m : ℝ) : 0 < flux c m := Real.rpow_pos_of_pos (by norm_num) _

theorem flux_const (c c' m : ℝ) : flux c m = (10 : ℝ) ^ (0.4 * (c - c')) * flux c' m := by
  unfold flux
  rw [← Real.rpow_add (by norm_num)]
  congr 1
  ring

theorem sum_pos (c : ℝ) (ms : List ℝ) (h : ms ≠ []) : 0 < (ms.map (flux c)).sum := by
  apply List.sum_pos
  · intro x hx
    obtain ⟨m, -, rfl⟩ := List.mem_map.mp hx
    exact flux_pos c m
  · simpa using h

/-- The magnitude of the sum of components does not depend on the constant. -/
theorem mag_const (c c' : ℝ) (ms : List ℝ) (h : ms ≠ []) : toMag c (ms.map (flux c)).sum = toMag c' (ms.map (flux c')).sum := by
  have h1 : (ms.map (flux c)).sum = (10 : ℝ) ^ (0.4 * (c - c')) * (ms.map (flux c')).sum := by
    rw [← List.sum_map_mul_left]
    congr 1
    exact List.map_congr_left (fun m _ => flux_const c c' m)
  unfold toMag
  rw [h1, Real.logb_mul (by positivity) (sum_pos c' ms h).ne', Real.logb_rpow (by norm_num) (by norm_num)]
  ring

/-- The sky is brighter than each of its components, and each further component makes it brighter. -/
theorem mag_brighter (c m : ℝ) (ms : List ℝ) (h : ms ≠ []) : toMag c ((m :: ms).map (flux c)).sum < toMag c (ms.map (flux c)).sum := by
  unfold toMag
  have h1 := sum_pos c ms h
  have h2 : (ms.map (flux c)).sum < ((m :: ms).map (flux c)).sum := by
    rw [List.map_cons, List.sum_cons]
    linarith [flux_pos c m]
  have := Real.logb_lt_logb (by norm_num : (1 : ℝ) < 10) h1 h2
  linarith

/-- Components all fainter by `x` give a sky fainter by `x`. -/
theorem mag_shift (c x : ℝ) (ms : List ℝ) (h : ms ≠ []) : toMag c ((ms.map (· + x)).map (flux c)).sum = toMag c (ms.map (flux c)).sum + x := by
  have h1 : ((ms.map (· + x)).map (flux c)).sum = (ms.map (flux (c - x))).sum := by
    rw [List.map_map]
    congr 1
    apply List.map_congr_left
    intro m _
    simp only [Function.comp, flux]
    congr 1
    ring
  rw [h1, ← mag_const (c - x) c ms h]
  unfold toMag
  ring

example : toMag 3 (flux 3 22) = 22 := mag_one 3 22

/-! ## C279: selection of times -/

section
variable {K : Type} [Field K] [LinearOrder K] [IsStrictOrderedRing K]

theorem mem_everyThird (mjds : List K) (x : K) : x ∈ everyThird mjds ↔ ∃ i : ℕ, i % 3 = 0 ∧ mjds[i]? = some x := by
  unfold everyThird
  rw [List.mem_filterMap]
  constructor
  · rintro ⟨i, hi, h⟩
    by_cases h3 : i % 3 = 0
    · rw [if_pos h3] at h; exact ⟨i, h3, h⟩
    · rw [if_neg h3] at h; simp at h
  · rintro ⟨i, h3, h⟩
    refine ⟨i, List.mem_range.mpr (List.getElem?_eq_some_iff.mp h).1, ?_⟩
    rw [if_pos h3]; exact h

/-- A map at `t` agrees with the straight line between the maps at `a` and `b`, within `dm`, wherever all three have numbers. -/
def Agrees (mag : K → List (Option K)) (dm a b t : K) : Prop :=
  ∀ (i : ℕ) x y z, (mag t)[i]? = some (some x) → (mag a)[i]? = some (some y) → (mag b)[i]? = some (some z) →
    |x - (y + (z - y) * ((t - a) / (b - a)))| ≤ dm

theorem canInterp_agrees (mag : K → List (Option K)) (dm a b t : K) (h : canInterp mag dm a b t = true) : Agrees mag dm a b t := by
  intro i x y z hx hy hz
  unfold canInterp at h
  rw [List.all_eq_true] at h
  have h1 := h (decide (|x - ((1 - (t - a) / (b - a)) * y + (t - a) / (b - a) * z)| ≤ dm)) (by
    rw [List.mem_iff_getElem?]
    refine ⟨i, ?_⟩
    rw [List.getElem?_zipWith, hx]
    have hzip : ((mag a).zip (mag b))[i]? = some (some y, some z) := List.getElem?_zip_eq_some.mpr ⟨hy, hz⟩
    rw [hzip])
  simp only [id, decide_eq_true_eq] at h1
  convert h1 using 3
  ring

/-- Consecutive elements of a list, newest first. -/
def Adj (l : List K) (a b : K) : Prop := ∃ l1 l2, l = l1 ++ b :: a :: l2

/-- What holds after the first `n` times. -/
structure Inv (mag : K → List (Option K)) (dm tmax : K) (mjds : List K) (n : ℕ) (s : Thin K) : Prop where
  last : s.last5 = (mjds.take n).drop (n - 5)
  head : s.kept.head? = (mjds.take n).getLast?
  desc : s.kept.Pairwise (· > ·)
  sub : ∀ t ∈ s.kept, t ∈ mjds.take n
  third : ∀ (j : ℕ) t, j < n → j % 3 = 0 → mjds[j]? = some t → t ∈ s.kept
  cover : ∀ (j : ℕ) t, j < n → mjds[j]? = some t → t ∈ s.kept ∨ ∃ a b, Adj s.kept a b ∧ a < t ∧ t < b ∧ b - a < tmax ∧ Agrees mag dm a b t

theorem take_succ_get (mjds : List K) (n : ℕ) (m : K) (h : mjds[n]? = some m) : mjds.take (n + 1) = mjds.take n ++ [m] := by
  rw [List.take_add_one, h]; rfl

theorem inv_step (mag : K → List (Option K)) (dm tmax : K) (mjds : List K) (hs : mjds.Pairwise (· < ·)) (n : ℕ) (m : K) (hm : mjds[n]? = some m) (s : Thin K)
    (h : Inv mag dm tmax mjds n s) : Inv mag dm tmax mjds (n + 1) (thinStep mag dm tmax (everyThird mjds) s m) := by
  have hn := (List.getElem?_eq_some_iff.mp hm).1
  have htl : (mjds.take n).length = n := by rw [List.length_take]; omega
  have hlt : ∀ t ∈ mjds.take n, t < m := by
    intro t ht
    obtain ⟨j, hj⟩ := List.mem_iff_getElem?.mp ht
    have hjn : j < n := by have := (List.getElem?_eq_some_iff.mp hj).1; omega
    rw [List.getElem?_take_of_lt hjn] at hj
    obtain ⟨h1, h2⟩ := List.getElem?_eq_some_iff.mp hj
    obtain ⟨h3, h4⟩ := List.getElem?_eq_some_iff.mp hm
    rw [← h2, ← h4]
    exact List.pairwise_iff_getElem.mp hs j n h1 h3 hjn
  have hmono : ∀ (i j : ℕ) x y, mjds[i]? = some x → mjds[j]? = some y → (i < j ↔ x < y) := by
    intro i j x y hx hy
    obtain ⟨h1, rfl⟩ := List.getElem?_eq_some_iff.mp hx
    obtain ⟨h3, rfl⟩ := List.getElem?_eq_some_iff.mp hy
    constructor
    · intro hij; exact List.pairwise_iff_getElem.mp hs i j h1 h3 hij
    · intro hxy
      by_contra hc
      rcases Nat.lt_or_eq_of_le (not_lt.mp hc) with h5 | h5
      · exact absurd (List.pairwise_iff_getElem.mp hs j i h3 h1 h5) (not_lt.mpr hxy.le)
      · subst h5; exact lt_irrefl _ hxy
  have hlast : (s.last5 ++ [m]).drop ((s.last5 ++ [m]).length - 5) = (mjds.take (n + 1)).drop (n + 1 - 5) := by
    rw [take_succ_get mjds n m hm, h.last, List.length_append, List.length_drop, htl, List.length_singleton]
    rcases Nat.lt_or_ge n 5 with h5 | h5
    · have e1 : n - 5 = 0 := by omega
      have e2 : n + 1 - 5 = 0 := by omega
      rw [e1]; simp [e2]
    · rw [show n - (n - 5) + 1 - 5 = 1 by omega, show n + 1 - 5 = (n - 5) + 1 by omega, List.drop_append_of_le_length (by rw [List.length_drop, htl]; omega),
        List.drop_drop, List.drop_append_of_le_length (by rw [htl]; omega)]
  have hhead : (m :: s.kept).head? = (mjds.take (n + 1)).getLast? := by
    rw [take_succ_get mjds n m hm]; simp
  have hdesc : (m :: s.kept).Pairwise (· > ·) := List.pairwise_cons.mpr ⟨fun t ht => hlt t (h.sub t ht), h.desc⟩
  have hsub : ∀ t ∈ m :: s.kept, t ∈ mjds.take (n + 1) := by
    intro t ht
    rw [take_succ_get mjds n m hm]
    rcases List.mem_cons.mp ht with rfl | ht
    · simp
    · exact List.mem_append_left _ (h.sub t ht)
  have hthird : ∀ (j : ℕ) t, j < n + 1 → j % 3 = 0 → mjds[j]? = some t → t ∈ m :: s.kept := by
    intro j t hj h3 ht
    rcases Nat.lt_or_eq_of_le (Nat.lt_succ_iff.mp hj) with h5 | h5
    · exact List.mem_cons_of_mem _ (h.third j t h5 h3 ht)
    · subst h5; rw [hm] at ht; cases ht; simp
  have hcover : ∀ (j : ℕ) t, j < n + 1 → mjds[j]? = some t → t ∈ m :: s.kept ∨ ∃ a b, Adj (m :: s.kept) a b ∧ a < t ∧ t < b ∧ b - a < tmax ∧ Agrees mag dm a b t := by
    intro j t hj ht
    rcases Nat.lt_or_eq_of_le (Nat.lt_succ_iff.mp hj) with h5 | h5
    · rcases h.cover j t h5 ht with h6 | ⟨a, b, ⟨l1, l2, hl⟩, h6⟩
      · exact Or.inl (List.mem_cons_of_mem _ h6)
      · exact Or.inr ⟨a, b, ⟨m :: l1, l2, by rw [hl]; rfl⟩, h6⟩
    · subst h5; rw [hm] at ht; cases ht; simp
  have hkeep : Inv mag dm tmax mjds (n + 1) ⟨m :: s.kept, (s.last5 ++ [m]).drop ((s.last5 ++ [m]).length - 5)⟩ :=
    ⟨hlast, hhead, hdesc, hsub, hthird, hcover⟩
  unfold thinStep
  dsimp only
  rcases hk : s.kept with _ | ⟨c, _ | ⟨a, _ | ⟨x, rest⟩⟩⟩
  · rw [hk] at hkeep; exact hkeep
  · rw [hk] at hkeep; exact hkeep
  · rw [hk] at hkeep; exact hkeep
  · rw [hk] at hkeep hdesc hhead hsub hthird hcover
    dsimp only
    split_ifs with hd
    · obtain ⟨hreq, hgap, hall⟩ := hd
      rw [List.all_eq_true] at hall
      have hac : a < c := by
        have := (List.pairwise_cons.mp (List.pairwise_cons.mp hdesc).2).1 a (by simp)
        exact this
      have hcm : c < m := (List.pairwise_cons.mp hdesc).1 c (by simp)
      -- elements of the kept list strictly between `a` and `m` are `c`
      have hbetween : ∀ t ∈ m :: c :: a :: x :: rest, a < t → t < m → t = c := by
        intro t ht h1 h2
        rcases List.mem_cons.mp ht with rfl | ht
        · exact absurd h2 (lt_irrefl _)
        rcases List.mem_cons.mp ht with rfl | ht
        · rfl
        rcases List.mem_cons.mp ht with rfl | ht
        · exact absurd h1 (lt_irrefl _)
        · have := (List.pairwise_cons.mp (List.pairwise_cons.mp (List.pairwise_cons.mp hdesc).2).2).1 t ht
          exact absurd h1 (not_lt.mpr (le_of_lt this))
      -- times strictly between `a` and `m` are among the last five
      have hin : ∀ (j : ℕ) t, mjds[j]? = some t → a < t → t < m → Agrees mag dm a m t := by
        intro j t ht h1 h2
        have hjn : j < n := (hmono j n t m ht hm).mpr h2
        have hno : ∀ i, j ≤ i → i < n → i % 3 ≠ 0 := by
          intro i hji hin h3
          have hil : i < mjds.length := by omega
          have hi : mjds[i]? = some mjds[i] := List.getElem?_eq_getElem hil
          have h4 : a < mjds[i] := by
            rcases Nat.lt_or_eq_of_le hji with h5 | h5
            · exact lt_trans h1 ((hmono j i t _ ht hi).mp h5)
            · subst h5; rw [hi] at ht; cases ht; exact h1
          have h5 : mjds[i] < m := (hmono i n _ m hi hm).mp hin
          have h6 := hbetween _ (hthird i _ (by omega) h3 hi) h4 h5
          apply hreq
          rw [mem_everyThird]
          exact ⟨i, h3, by rw [hi, h6]⟩
        have hj2 : n ≤ j + 2 := by
          by_contra hc
          have := hno j le_rfl (by omega)
          have := hno (j + 1) (by omega) (by omega)
          have := hno (j + 2) (by omega) (by omega)
          omega
        have hmem : t ∈ (s.last5 ++ [m]).drop ((s.last5 ++ [m]).length - 5) := by
          rw [hlast, List.mem_iff_getElem?]
          refine ⟨j - (n + 1 - 5), ?_⟩
          rw [List.getElem?_drop, show n + 1 - 5 + (j - (n + 1 - 5)) = j by omega, List.getElem?_take_of_lt (by omega), ht]
        have := hall t hmem
        simp only [h1, h2, decide_true, Bool.and_self, Bool.not_true, Bool.false_or] at this
        exact canInterp_agrees mag dm a m t this
      have hnotin : ∀ (j : ℕ) t, mjds[j]? = some t → (t ∈ m :: a :: x :: rest ∨ t = c) → (t ∈ m :: a :: x :: rest ∨ ∃ a' b', Adj (m :: a :: x :: rest) a' b' ∧ a' < t ∧ t < b' ∧ b' - a' < tmax ∧ Agrees mag dm a' b' t) := by
        rintro j t ht (h1 | rfl)
        · exact Or.inl h1
        · exact Or.inr ⟨a, m, ⟨[], x :: rest, rfl⟩, hac, hcm, hgap, hin j t ht hac hcm⟩
      refine ⟨hlast, by simpa using hhead, ?_, ?_, ?_, ?_⟩
      · refine hdesc.sublist ?_
        exact List.Sublist.cons_cons _ (List.sublist_cons_self _ _)
      · intro t ht
        apply hsub
        rcases List.mem_cons.mp ht with rfl | ht
        · simp
        · exact List.mem_cons_of_mem _ (List.mem_cons_of_mem _ ht)
      · intro j t hj h3 ht
        have := hthird j t hj h3 ht
        have hne : t ≠ c := by
          rintro rfl
          exact hreq ((mem_everyThird _ _).mpr ⟨j, h3, ht⟩)
        rcases List.mem_cons.mp this with rfl | this
        · simp
        rcases List.mem_cons.mp this with rfl | this
        · exact absurd rfl hne
        · exact List.mem_cons_of_mem _ this
      · intro j t hj ht
        rcases hcover j t hj ht with h1 | ⟨a', b', ⟨l1, l2, hl⟩, h1⟩
        · apply hnotin j t ht
          rcases List.mem_cons.mp h1 with rfl | h1
          · left; simp
          rcases List.mem_cons.mp h1 with rfl | h1
          · right; rfl
          · left; exact List.mem_cons_of_mem _ h1
        · match l1, hl with
          | [], hl =>
            simp only [List.nil_append, List.cons.injEq] at hl
            obtain ⟨rfl, rfl, hl⟩ := hl
            have h2 : a < t := lt_trans hac h1.1
            exact Or.inr ⟨a, m, ⟨[], x :: rest, rfl⟩, h2, h1.2.1, hgap, hin j t ht h2 h1.2.1⟩
          | [u], hl =>
            simp only [List.cons_append, List.nil_append, List.cons.injEq] at hl
            obtain ⟨rfl, rfl, rfl, hl⟩ := hl
            have h2 : t < m := lt_trans h1.2.1 hcm
            exact Or.inr ⟨a, m, ⟨[], x :: rest, rfl⟩, h1.1, h2, hgap, hin j t ht h1.1 h2⟩
          | u :: v :: l1, hl =>
            simp only [List.cons_append, List.cons.injEq] at hl
            obtain ⟨rfl, rfl, hl⟩ := hl
            exact Or.inr ⟨a', b', ⟨m :: l1, l2, by rw [hl]; rfl⟩, h1⟩
    · exact hkeep

theorem inv_all (mag : K → List (Option K)) (dm tmax : K) (mjds : List K) (hs : mjds.Pairwise (· < ·)) (n : ℕ) (hn : n ≤ mjds.length) :
    Inv mag dm tmax mjds n ((mjds.take n).foldl (thinStep mag dm tmax (everyThird mjds)) ⟨[], []⟩) := by
  induction n with
  | zero => exact ⟨rfl, rfl, List.Pairwise.nil, by simp, by intro j t hj; omega, by intro j t hj; omega⟩
  | succ n ih =>
    have hm : mjds[n]? = some mjds[n] := List.getElem?_eq_getElem (by omega)
    rw [take_succ_get mjds n _ hm, List.foldl_append]
    exact inv_step mag dm tmax mjds hs n _ hm _ (ih (by omega))

/-- The selection, for all increasing times, maps and tolerances: the times kept are increasing, among those given, and contain
the last and every third; each time that is left out lies between two neighbouring times kept that are less than `tmax`
apart, and its map agrees with the interpolation wherever there are numbers. -/
theorem thin_spec (mag : K → List (Option K)) (dm tmax : K) (mjds : List K) (hs : mjds.Pairwise (· < ·)) :
    (thin mag dm tmax mjds).Pairwise (· < ·) ∧ (∀ t ∈ thin mag dm tmax mjds, t ∈ mjds) ∧ (thin mag dm tmax mjds).getLast? = mjds.getLast? ∧
    (∀ (j : ℕ) t, j % 3 = 0 → mjds[j]? = some t → t ∈ thin mag dm tmax mjds) ∧
    ∀ t ∈ mjds, t ∈ thin mag dm tmax mjds ∨ ∃ l1 a b l2, thin mag dm tmax mjds = l1 ++ a :: b :: l2 ∧ a < t ∧ t < b ∧ b - a < tmax ∧ Agrees mag dm a b t := by
  have h := inv_all mag dm tmax mjds hs mjds.length le_rfl
  rw [List.take_length] at h
  unfold thin
  refine ⟨List.pairwise_reverse.mpr h.desc, fun t ht => ?_, ?_, fun j t h3 ht => ?_, fun t ht => ?_⟩
  · have := h.sub t (List.mem_reverse.mp ht)
    rwa [List.take_length] at this
  · rw [List.getLast?_reverse, h.head, List.take_length]
  · exact List.mem_reverse.mpr (h.third j t (List.getElem?_eq_some_iff.mp ht).1 h3 ht)
  · obtain ⟨j, hj⟩ := List.mem_iff_getElem?.mp ht
    rcases h.cover j t (List.getElem?_eq_some_iff.mp hj).1 hj with h1 | ⟨a, b, ⟨l1, l2, hl⟩, h1⟩
    · exact Or.inl (List.mem_reverse.mpr h1)
    · refine Or.inr ⟨l2.reverse, a, b, l1.reverse, ?_, h1⟩
      rw [hl]; simp

/-- ... so that neighbouring times kept are neighbours in the list given or less than `tmax` apart. -/
theorem thin_gap (mag : K → List (Option K)) (dm tmax : K) (mjds : List K) (hs : mjds.Pairwise (· < ·)) (l1 l2 : List K) (a b : K)
    (hl : thin mag dm tmax mjds = l1 ++ a :: b :: l2) : b - a < tmax ∨ ∀ t ∈ mjds, ¬ (a < t ∧ t < b) := by
  obtain ⟨hp, -, -, -, hc⟩ := thin_spec mag dm tmax mjds hs
  by_cases he : ∃ t ∈ mjds, a < t ∧ t < b
  · left
    obtain ⟨t, ht, h1, h2⟩ := he
    -- position of elements relative to `a` and `b`
    have hpos : ∀ u ∈ thin mag dm tmax mjds, u ≤ a ∨ b ≤ u := by
      intro u hu
      rw [hl] at hu hp
      rw [List.pairwise_append] at hp
      rcases List.mem_append.mp hu with hu | hu
      · exact Or.inl (hp.2.2 u hu a (by simp)).le
      · rcases List.mem_cons.mp hu with rfl | hu
        · exact Or.inl le_rfl
        · rcases List.mem_cons.mp hu with rfl | hu
          · exact Or.inr le_rfl
          · exact Or.inr ((List.pairwise_cons.mp (List.pairwise_cons.mp hp.2.1).2).1 u hu).le
    rcases hc t ht with h3 | ⟨m1, a', b', m2, hm, h3, h4, h5, -⟩
    · rcases hpos t h3 with h6 | h6
      · exact absurd h1 (not_lt.mpr h6)
      · exact absurd h2 (not_lt.mpr h6)
    · have hpos' : ∀ u ∈ thin mag dm tmax mjds, u ≤ a' ∨ b' ≤ u := by
        intro u hu
        rw [hm] at hu hp
        rw [List.pairwise_append] at hp
        rcases List.mem_append.mp hu with hu | hu
        · exact Or.inl (hp.2.2 u hu a' (by simp)).le
        · rcases List.mem_cons.mp hu with rfl | hu
          · exact Or.inl le_rfl
          · rcases List.mem_cons.mp hu with rfl | hu
            · exact Or.inr le_rfl
            · exact Or.inr ((List.pairwise_cons.mp (List.pairwise_cons.mp hp.2.1).2).1 u hu).le
      have e1 : a' ≤ a := by
        rcases hpos a' (by rw [hm]; simp) with h6 | h6
        · exact h6
        · exact absurd (lt_trans h3 h2) (not_lt.mpr h6)
      have e2 : a ≤ a' := by
        rcases hpos' a (by rw [hl]; simp) with h6 | h6
        · exact h6
        · exact absurd (lt_trans h1 h4) (not_lt.mpr h6)
      have e3 : b ≤ b' := by
        rcases hpos b' (by rw [hm]; simp) with h6 | h6
        · exact absurd (lt_trans h1 h4) (not_lt.mpr h6)
        · exact h6
      have e4 : b' ≤ b := by
        rcases hpos' b (by rw [hl]; simp) with h6 | h6
        · exact absurd (lt_trans h3 h2) (not_lt.mpr h6)
        · exact h6
      rw [le_antisymm e3 e4, le_antisymm e2 e1]
      exact h5
  · right
    intro t ht hh
    exact he ⟨t, ht, hh⟩

end

/-- The documented rule: a time is left out only if its map can be had from its neighbours, within `dm`, at every pixel that has
a number. -/
def DropRule : Prop := ∀ (mag : ℚ → List (Option ℚ)) (dm tmax : ℚ) (mjds : List ℚ), mjds.Pairwise (· < ·) → ∀ t ∈ mjds, t ∉ thin mag dm tmax mjds →
  ∃ l1 a b l2, thin mag dm tmax mjds = l1 ++ a :: b :: l2 ∧ a < t ∧ t < b ∧ ∀ (i : ℕ) x, (mag t)[i]? = some (some x) →
    ∃ y z, (mag a)[i]? = some (some y) ∧ (mag b)[i]? = some (some z)

/-- It is false: pixels without a number at a neighbour are not compared. -/
theorem nan_false : ¬ DropRule := by
  intro h
  have hout : thin (fun t => if t = 4 then [some 20] else [none]) (1 / 10) 10 ([0, 1, 2, 3, 4, 5] : List ℚ) = [0, 1, 3, 5] := by decide +kernel
  obtain ⟨l1, a, b, l2, hl, h1, h2, h3⟩ := h (fun t => if t = 4 then [some 20] else [none]) (1 / 10) 10 [0, 1, 2, 3, 4, 5] (by decide +kernel) 4 (by decide +kernel) (by rw [hout]; decide +kernel)
  obtain ⟨y, z, hy, -⟩ := h3 0 20 (by simp)
  have ha : a ≠ 4 := by intro ha; rw [ha] at h1; exact lt_irrefl _ h1
  simp [ha] at hy

example : thin (fun t => [some (t * t)]) (1 / 2) 10 ([0, 1, 2, 3, 4, 5, 6] : List ℚ) = [0, 1, 2, 3, 4, 5, 6] := by decide +kernel

example : thin (fun t => [some (2 * t), none]) (1 / 2) 10 ([0, 1, 2, 3, 4, 5, 6] : List ℚ) = [0, 1, 3, 6] := by decide +kernel

/-- The point of the interpolation in terms of the parameters in degrees: the altitude of the moon in degrees, and the longitudes
relative to the sun with the sine and cosine of the difference, positive towards the east. -/
theorem setParams_spec (p : Params) :
    (setParams true p).moonAltitude = p.moonAlt ∧
    (setParams true p).moonSunSep = p.moonPhase * (180 / 100) ∧
    Real.sin (setParams true p).azEclipRelSun = Real.sin ((p.eclipLon - p.sunEclipLon) * (Real.pi / 180)) ∧
    Real.cos (setParams true p).azEclipRelSun = Real.cos ((p.eclipLon - p.sunEclipLon) * (Real.pi / 180)) ∧
    Real.sin (setParams true p).azRelSun = Real.sin ((p.az - p.sunAz) * (Real.pi / 180)) ∧
    Real.cos (setParams true p).azRelSun = Real.cos ((p.az - p.sunAz) * (Real.pi / 180)) ∧
    (setParams true p).sunAlt = p.sunAlt * (Real.pi / 180) ∧
    (setParams true p).altEclip = p.eclipLat * (Real.pi / 180) := by
  have hw : ∀ x, Real.sin (wrap x) = Real.sin x ∧ Real.cos (wrap x) = Real.cos x := by
    intro x
    obtain ⟨-, -, k, hk⟩ := wrap_spec x
    rw [hk]
    exact ⟨Real.sin_sub_int_mul_two_pi x k, Real.cos_sub_int_mul_two_pi x k⟩
  have hp := Real.pi_pos.ne'
  refine ⟨?_, ?_, ?_, ?_, ?_, ?_, ?_, ?_⟩
  · simp only [setParams, conv, if_true]
    field_simp
  · simp only [setParams]
    ring
  · simp only [setParams, conv, if_true]
    rw [(hw _).1]
    congr 1
    ring
  · simp only [setParams, conv, if_true]
    rw [(hw _).2]
    congr 1
    ring
  · simp only [setParams, conv, if_true]
    rw [(hw _).1]
    congr 1
    ring
  · simp only [setParams, conv, if_true]
    rw [(hw _).2]
    congr 1
    ring
  · simp [setParams, conv]
  · simp [setParams, conv]

end Verif.SkyM
