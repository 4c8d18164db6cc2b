import Mathlib.Data.List.Induction
import Mathlib.Data.List.Range
import Mathlib.Algebra.Order.Field.Basic
import Mathlib.Algebra.Field.Rat
import Mathlib.Algebra.Order.Ring.Rat
import Verif.Model.OrbitPlots

/-!
# Properties of the plots of metrics against orbits (C595-C597)
-/

namespace Verif.OrbitPlots

section Cells
variable {K V W : Type*} [LinearOrder K]

/-! ## Specification -/

/-- The value is in the bin: from its edge up to the next one, without an end for the last. -/
def InBin (bins : List K) (i : Nat) (x : K) : Prop :=
  ∃ a, bins[i]? = some a ∧ a ≤ x ∧ ∀ b, bins[i + 1]? = some b → x < b

/-- The object is in the cell. -/
def InCell (xbins ybins xs ys : List K) (iy ix j : Nat) : Prop :=
  (∃ x, xs[j]? = some x ∧ InBin xbins ix x) ∧ ∃ y, ys[j]? = some y ∧ InBin ybins iy y

/-! ## Cells (C595) -/

theorem digitize_iff (bins : List K) (hb : bins.Pairwise (· < ·)) (x : K) (i : Nat) :
    digitize bins x = i + 1 ↔ InBin bins i x := by
  unfold digitize InBin
  induction bins generalizing i with
  | nil => simp
  | cons a l ih =>
    rw [List.pairwise_cons] at hb
    by_cases ha : a ≤ x
    · rw [List.countP_cons_of_pos (by simpa using ha)]
      cases i with
      | zero =>
        simp only [Nat.zero_add, Nat.add_eq_right, List.countP_eq_zero, decide_eq_true_eq, not_le, List.getElem?_cons_zero,
          Option.some.injEq, List.getElem?_cons_succ, exists_eq_left']
        constructor
        · intro h
          refine ⟨ha, fun b hbb => h b (List.mem_of_getElem? hbb)⟩
        · rintro ⟨_, h⟩ b hbb
          cases l with
          | nil => cases hbb
          | cons c l =>
            have hc := h c rfl
            rcases List.mem_cons.mp hbb with rfl | hbb
            · exact hc
            · exact lt_trans hc ((List.pairwise_cons.mp hb.2).1 b hbb)
      | succ i =>
        simp only [List.getElem?_cons_succ, Nat.add_right_cancel_iff]
        exact ih hb.2 i
    · rw [List.countP_cons_of_neg (by simpa using ha)]
      have h0 : l.countP (fun b => decide (b ≤ x)) = 0 := by
        rw [List.countP_eq_zero]
        intro b hbb
        simp only [decide_eq_true_eq, not_le]
        exact lt_trans (not_le.mp ha) (hb.1 b hbb)
      rw [h0]
      constructor
      · intro h
        cases h
      · rintro ⟨c, hc, hcx, _⟩
        exfalso
        rcases List.mem_cons.mp (List.mem_of_getElem? hc) with rfl | h
        · exact ha hcx
        · exact ha (le_trans (le_of_lt (hb.1 c h)) hcx)

/-- A value is in at most one bin, and in one if it is not below the first edge. -/
theorem inBin_unique (bins : List K) (hb : bins.Pairwise (· < ·)) (x : K) (i k : Nat) (hi : InBin bins i x)
    (hk : InBin bins k x) : i = k := by
  rw [← digitize_iff bins hb] at hi hk
  omega

theorem inBin_exists (bins : List K) (hb : bins.Pairwise (· < ·)) (a x : K) (ha : bins[0]? = some a) (hx : a ≤ x) :
    ∃ i < bins.length, InBin bins i x := by
  have hp : 0 < digitize bins x := by
    unfold digitize
    rw [List.countP_pos_iff]
    exact ⟨a, List.mem_of_getElem? ha, by simpa using hx⟩
  have hle : digitize bins x ≤ bins.length := List.countP_le_length
  refine ⟨digitize bins x - 1, by omega, ?_⟩
  rw [← digitize_iff bins hb]
  omega

theorem mem_matchIdx (bins : List K) (hb : bins.Pairwise (· < ·)) (vals : List K) (i j : Nat) :
    j ∈ matchIdx bins vals i ↔ ∃ x, vals[j]? = some x ∧ InBin bins i x := by
  unfold matchIdx
  rw [List.mem_filter, List.mem_range]
  constructor
  · rintro ⟨hj, h⟩
    rw [List.getElem?_eq_getElem hj] at h
    refine ⟨vals[j], List.getElem?_eq_getElem hj, ?_⟩
    rw [← digitize_iff bins hb]
    simp only [decide_eq_true_eq] at h
    omega
  · rintro ⟨x, hx, h⟩
    have hj : j < vals.length := (List.getElem?_eq_some_iff.mp hx).1
    rw [← digitize_iff bins hb] at h
    refine ⟨hj, ?_⟩
    rw [hx]
    simp only [decide_eq_true_eq]
    omega

theorem takeVals_eq (vals : List V) (idxs : List Nat) (h : ∀ j ∈ idxs, j < vals.length) :
    takeVals vals idxs = some (idxs.filterMap (fun j => vals[j]?)) := by
  unfold takeVals
  induction idxs with
  | nil => rfl
  | cons j l ih =>
    have hj := h j (by simp)
    rw [List.mapM_cons, ih (fun k hk => h k (by simp [hk])), List.getElem?_eq_getElem hj,
      List.filterMap_cons_some (List.getElem?_eq_getElem hj)]
    rfl

theorem takeVals_none (vals : List V) (idxs : List Nat) (j : Nat) (hj : j ∈ idxs) (h : vals.length ≤ j) :
    takeVals vals idxs = none := by
  unfold takeVals
  induction idxs with
  | nil => cases hj
  | cons k l ih =>
    rw [List.mapM_cons]
    rcases List.mem_cons.mp hj with rfl | hj
    · rw [List.getElem?_eq_none h]
      rfl
    · rw [ih hj]
      cases vals[k]? <;> rfl

theorem mapM_none {A B : Type*} (f : A → Option B) (l : List A) (a : A) (ha : a ∈ l) (h : f a = none) :
    l.mapM f = none := by
  induction l with
  | nil => cases ha
  | cons b l ih =>
    rw [List.mapM_cons]
    rcases List.mem_cons.mp ha with rfl | ha
    · rw [h]
      rfl
    · rw [ih ha]
      cases f b <;> rfl

theorem mapM_some {A B : Type*} (f : A → Option B) (g : A → B) (l : List A) (h : ∀ a ∈ l, f a = some (g a)) :
    l.mapM f = some (l.map g) := by
  induction l with
  | nil => rfl
  | cons b l ih =>
    rw [List.mapM_cons, h b (by simp), ih (fun a ha => h a (by simp [ha]))]
    rfl

theorem filterMap_get {A B : Type*} (g : A → Option B) (l : List A) (h : ∀ j ∈ l, (g j).isSome) (k : Nat) :
    (l.filterMap g)[k]? = (l[k]?).bind g := by
  induction l generalizing k with
  | nil => simp
  | cons a l ih =>
    obtain ⟨b, hb⟩ := Option.isSome_iff_exists.mp (h a (by simp))
    rw [List.filterMap_cons_some hb]
    cases k with
    | zero => simp [hb]
    | succ k => simpa using ih (fun j hj => h j (by simp [hj])) k

theorem places {A B : Type*} (p : A → Bool) (g : A → Option B) (l : List A) (q : Nat → Bool)
    (hq : ∀ (k : Nat) (x : A), l[k]? = some x → q k = p x) :
    ((List.range l.length).filter q).filterMap (fun k => (l[k]?).bind g) = (l.filter p).filterMap g := by
  induction l using List.reverseRecOn with
  | nil => rfl
  | append_singleton l a ih =>
    rw [List.length_append, List.length_singleton, List.range_succ, List.filter_append, List.filterMap_append,
      List.filter_append, List.filterMap_append]
    have h2 : (l ++ [a])[l.length]? = some a := by simp
    congr 1
    · rw [← ih (fun k x hk => hq k x (by
        rw [List.getElem?_append_left (List.getElem?_eq_some_iff.mp hk).1]
        exact hk))]
      apply List.filterMap_congr
      intro k hk
      rw [List.getElem?_append_left (List.mem_range.mp (List.mem_filter.mp hk).1)]
    · have h3 := hq _ _ h2
      by_cases hp : p a = true
      · rw [List.filter_cons_of_pos (h3.trans hp), List.filter_cons_of_pos hp, List.filter_nil, List.filter_nil,
          List.filterMap_cons, List.filterMap_cons, h2]
        rfl
      · rw [List.filter_cons_of_neg (by rw [h3]; exact hp), List.filter_cons_of_neg hp]
        rfl

open Classical in
/-- For objects with a value each, every cell has what the values of the objects in it give, in their order, and the bad
value if there are none. -/
theorem cells_spec (xbins ybins xs ys : List K) (hx : xbins.Pairwise (· < ·)) (hy : ybins.Pairwise (· < ·))
    (mvals : List V) (hl : ys.length = mvals.length) (reduce : List V → W) (bad : W) :
    cells xbins ybins xs ys mvals reduce bad = some ((List.range ybins.length).map (fun iy =>
      (List.range xbins.length).map (fun ix =>
        let objs := (List.range mvals.length).filter (fun j => decide (InCell xbins ybins xs ys iy ix j))
        if objs = [] then bad else reduce (objs.filterMap (fun j => mvals[j]?))))) := by
  unfold cells
  refine mapM_some _ _ _ (fun iy _ => mapM_some _ _ _ (fun ix _ => ?_))
  unfold cell
  simp only
  have hym : ∀ j ∈ matchIdx ybins ys iy, j < mvals.length := by
    intro j hj
    unfold matchIdx at hj
    have := List.mem_range.mp (List.mem_filter.mp hj).1
    omega
  rw [takeVals_eq _ _ hym, Option.bind_some]
  have hs : ∀ j ∈ matchIdx ybins ys iy, (mvals[j]?).isSome := by
    intro j hj
    rw [List.getElem?_eq_getElem (hym j hj)]
    rfl
  have hlen : ((matchIdx ybins ys iy).filterMap (fun j => mvals[j]?)).length = (matchIdx ybins ys iy).length := by
    rw [List.length_filterMap_eq_countP, List.countP_eq_length]
    exact hs
  rw [takeVals_eq]
  swap
  · intro k hk
    unfold xMatch at hk
    rw [hlen]
    exact List.mem_range.mp (List.mem_filter.mp hk).1
  rw [Option.map_some, Option.some.injEq]
  have hfm : (xMatch xbins xs (matchIdx ybins ys iy) ix).filterMap
      (fun j => ((matchIdx ybins ys iy).filterMap (fun j => mvals[j]?))[j]?)
      = ((matchIdx ybins ys iy).filter (fun j => decide (j ∈ matchIdx xbins xs ix))).filterMap (fun j => mvals[j]?) := by
    unfold xMatch
    rw [← places _ _ (matchIdx ybins ys iy) (fun k => match (matchIdx ybins ys iy)[k]? with
      | some j => decide (j ∈ matchIdx xbins xs ix)
      | none => false) (fun k x hk => by simp [hk])]
    refine List.filterMap_congr (fun k _ => ?_)
    exact filterMap_get _ _ hs k
  have hobj : (matchIdx ybins ys iy).filter (fun j => decide (j ∈ matchIdx xbins xs ix))
      = (List.range mvals.length).filter (fun j => decide (InCell xbins ybins xs ys iy ix j)) := by
    have : matchIdx ybins ys iy = (List.range mvals.length).filter (fun j => decide (j ∈ matchIdx ybins ys iy)) := by
      conv_lhs => unfold matchIdx
      rw [hl]
      apply List.filter_congr
      intro j hj
      have hj' : j < ys.length := by
        have := List.mem_range.mp hj
        omega
      rw [Bool.eq_iff_iff, decide_eq_true_eq]
      constructor
      · intro h
        unfold matchIdx
        exact List.mem_filter.mpr ⟨List.mem_range.mpr hj', h⟩
      · intro h
        unfold matchIdx at h
        exact (List.mem_filter.mp h).2
    rw [this, List.filter_filter]
    apply List.filter_congr
    intro j _
    rw [Bool.eq_iff_iff, Bool.and_eq_true, decide_eq_true_eq, decide_eq_true_eq, decide_eq_true_eq,
      mem_matchIdx _ hx, mem_matchIdx _ hy]
    exact Iff.rfl
  rw [hfm, hobj]
  by_cases he : (List.range mvals.length).filter (fun j => decide (InCell xbins ybins xs ys iy ix j)) = []
  · rw [if_pos he, he]
    simp
  · rw [if_neg he, if_pos]
    rw [List.length_filterMap_eq_countP]
    rw [gt_iff_lt, List.countP_pos_iff]
    obtain ⟨j, hj⟩ := List.exists_mem_of_ne_nil _ he
    refine ⟨j, hj, ?_⟩
    rw [List.getElem?_eq_getElem (List.mem_range.mp (List.mem_filter.mp hj).1)]
    rfl

end Cells

section Own
variable {K V W : Type*} [Field K] [LinearOrder K]

/-- The values that are selected are those of the objects with H in the range. -/
theorem ownVals_length (hs : List K) (hval hwidth : K) (vals : List V) (hl : hs.length = vals.length) :
    (ownVals hs hval hwidth vals).length = hs.countP (fun h => decide (|h - hval| ≤ hwidth / 2)) := by
  have h1 : (ownVals hs hval hwidth vals).length = (ownIdx hs hval hwidth).length := by
    unfold ownVals
    rw [List.length_filterMap_eq_countP, List.countP_eq_length]
    intro j hj
    unfold ownIdx at hj
    have := List.mem_range.mp (List.mem_filter.mp hj).1
    rw [List.getElem?_eq_getElem (by omega)]
    rfl
  rw [h1]
  unfold ownIdx
  have h2 := places (fun h => decide (|h - hval| ≤ hwidth / 2)) some hs
    (fun j => match hs[j]? with | some h => decide (|h - hval| ≤ hwidth / 2) | none => false)
    (fun k x hk => by simp [hk])
  have h3 := congrArg List.length h2
  rw [List.filterMap_some, ← List.countP_eq_length_filter] at h3
  rw [← h3, List.length_filterMap_eq_countP]
  symm
  refine (List.countP_eq_length.mpr ?_).trans ?_
  · intro k hk
    have := List.mem_range.mp (List.mem_filter.mp hk).1
    rw [List.getElem?_eq_getElem this]
    rfl
  · rfl

/-- If all objects are in the range of H, the cells have the values of the objects in them. -/
theorem own_all_partial (xbins ybins xs ys hs : List K) (hval hwidth : K) (vals : List V) (reduce : List V → W)
    (bad : W) (hl : hs.length = vals.length) (h : ∀ x ∈ hs, |x - hval| ≤ hwidth / 2) :
    orbitOwn xbins ybins xs ys hs hval hwidth vals reduce bad = cells xbins ybins xs ys vals reduce bad := by
  have : ownVals hs hval hwidth vals = vals := by
    have hi : ownIdx hs hval hwidth = List.range vals.length := by
      unfold ownIdx
      rw [hl, List.filter_eq_self]
      intro j hj
      have hj' : j < hs.length := by
        have := List.mem_range.mp hj
        omega
      rw [List.getElem?_eq_getElem hj']
      simpa using h _ (List.getElem_mem hj')
    unfold ownVals
    rw [hi]
    clear h hl hi
    induction vals using List.reverseRecOn with
    | nil => rfl
    | append_singleton l a ih =>
      rw [List.length_append, List.length_singleton, List.range_succ, List.filterMap_append]
      congr 1
      · conv_rhs => rw [← ih]
        apply List.filterMap_congr
        intro k hk
        rw [List.getElem?_append_left (List.mem_range.mp hk)]
      · simp
  unfold orbitOwn
  rw [this]

/-- If one object is not in the range of H and all are in the bins, there is an `IndexError`, whatever the values. -/
theorem own_false (xbins ybins xs ys hs : List K) (hval hwidth : K) (vals : List V) (reduce : List V → W)
    (bad : W) (hl : hs.length = vals.length) (hy : ys.length = vals.length) (hb : ybins.Pairwise (· < ·)) (a : K)
    (ha : ybins[0]? = some a) (hya : ∀ y ∈ ys, a ≤ y) (hx : xbins ≠ []) (h : ∃ x ∈ hs, hwidth / 2 < |x - hval|) :
    orbitOwn xbins ybins xs ys hs hval hwidth vals reduce bad = none := by
  obtain ⟨x, hxs, hxw⟩ := h
  have hlt : (ownVals hs hval hwidth vals).length < vals.length := by
    rw [ownVals_length _ _ _ _ hl, ← hl]
    rcases Nat.lt_or_ge (hs.countP (fun h => decide (|h - hval| ≤ hwidth / 2))) hs.length with hc | hc
    · exact hc
    · have := List.countP_eq_length.mp (le_antisymm List.countP_le_length hc) x hxs
      rw [decide_eq_true_eq] at this
      exact absurd this (not_le.mpr hxw)
  have hn : ys.length - 1 < ys.length := by omega
  obtain ⟨iy, hiy, hin⟩ := inBin_exists ybins hb a (ys[ys.length - 1]) ha (hya _ (List.getElem_mem hn))
  unfold orbitOwn cells
  refine mapM_none _ _ iy (List.mem_range.mpr hiy) ?_
  have hpos : 0 < xbins.length := List.length_pos_iff.mpr hx
  refine mapM_none _ _ 0 (List.mem_range.mpr hpos) ?_
  unfold cell
  simp only
  rw [takeVals_none _ _ (ys.length - 1)]
  · rfl
  · rw [mem_matchIdx _ hb]
    exact ⟨_, List.getElem?_eq_getElem hn, hin⟩
  · omega

/-! ## Points (C596) -/

omit [Field K] [LinearOrder K] in
/-- Points are drawn exactly if they are in the foreground, the values are one for each object, and there are none in the
background for objects with an H each; then each orbit has the colour of its value. -/
theorem points_iff (own fore back : Bool) (orbits : List (K × K)) (mvals : List V) (r : List ((K × K) × V)) :
    points own fore back orbits mvals = .ok r ↔
      fore = true ∧ (back = false ∨ own = false) ∧ mvals.length = orbits.length ∧ r = orbits.zip mvals := by
  unfold points
  by_cases h1 : (back && own) = true
  · rw [if_pos h1]
    rw [Bool.and_eq_true] at h1
    simp [h1.1, h1.2]
  · rw [if_neg h1]
    have h1' : back = false ∨ own = false := by
      cases back <;> cases own <;> simp_all
    by_cases h2 : fore = true
    · rw [if_pos h2]
      by_cases h3 : mvals.length = orbits.length
      · rw [if_pos h3]
        simp only [Except.ok.injEq, h2, h1', h3, true_and]
        exact eq_comm
      · rw [if_neg h3]
        simp [h3]
    · rw [if_neg h2]
      simp [h2]

/-- For objects with an H each, of which one is not in the range, there is an error for all options. -/
theorem points_own_false (fore back : Bool) (orbits : List (K × K)) (hs : List K) (hval hwidth : K) (vals : List V)
    (hl : hs.length = vals.length) (ho : orbits.length = vals.length) (h : ∃ x ∈ hs, hwidth / 2 < |x - hval|) :
    ∃ e, points true fore back orbits (ownVals hs hval hwidth vals) = .error e := by
  cases hp : points true fore back orbits (ownVals hs hval hwidth vals) with
  | error e => exact ⟨e, rfl⟩
  | ok r =>
    exfalso
    have := ((points_iff _ _ _ _ _ _).mp hp).2.2.1
    rw [ownVals_length _ _ _ _ hl, ho, ← hl] at this
    obtain ⟨x, hxs, hxw⟩ := h
    have := List.countP_eq_length.mp this x hxs
    rw [decide_eq_true_eq] at this
    exact absurd this (not_le.mpr hxw)

/-- Three objects in three cells; a mean for shared H, and an error if one has an H that is too large. -/
example : cells [0, 1, (2 : ℚ)] [0, 1] [0, 5 / 2, 1 / 2] [0, 0, 3 / 2] [10, 20, 30] List.sum (-666)
      = some [[10, -666, 20], [30, -666, (-666 : ℚ)]]
    ∧ orbitOwn [0, 1, (2 : ℚ)] [0, 1] [0, 5 / 2, 1 / 2] [0, 0, 3 / 2] [20, 25, 20] 20 1 [10, 20, 30] List.sum (-666)
      = (none : Option (List (List ℚ)))
    ∧ points true true false [((0 : ℚ), (0 : ℚ)), (5 / 2, 0)] (ownVals [20, (25 : ℚ)] 20 1 [1, 2]) = .error .valueError := by
  decide +kernel

end Own

section Mark
variable {K : Type*}

/-! ## The line at the mark of H (C597) -/

/-- A line is drawn exactly if the options have the key `Hmark` with a value. -/
theorem mark_iff (user : List (String × Option K)) (h : K) :
    drawnMark user = some h ↔
      ∃ pre post, user = pre ++ ("Hmark", some h) :: post ∧ ∀ e ∈ pre, e.1 ≠ "Hmark" := by
  unfold drawnMark lookupOpt
  induction user with
  | nil => simp
  | cons e l ih =>
    obtain ⟨k, v⟩ := e
    by_cases hk : k = "Hmark"
    · subst hk
      simp only [List.cons_append, decide_true, List.find?_cons_of_pos, Option.map_some, Option.join_some]
      constructor
      · rintro rfl
        exact ⟨[], l, rfl, by simp⟩
      · rintro ⟨pre, post, h1, h2⟩
        cases pre with
        | nil =>
          simp only [List.nil_append, List.cons.injEq, Prod.mk.injEq, true_and] at h1
          exact h1.1
        | cons a pre =>
          simp only [List.cons_append, List.cons.injEq] at h1
          exact absurd (by rw [← h1.1]) (h2 a (by simp))
    · rw [List.cons_append, List.find?_cons_of_neg (by simpa using hk), ih]
      constructor
      · rintro ⟨pre, post, rfl, h2⟩
        refine ⟨(k, v) :: pre, post, rfl, ?_⟩
        intro a ha
        rcases List.mem_cons.mp ha with rfl | ha
        · exact hk
        · exact h2 a ha
      · rintro ⟨pre, post, h1, h2⟩
        cases pre with
        | nil =>
          simp only [List.nil_append, List.cons.injEq, Prod.mk.injEq] at h1
          exact absurd h1.1.1 hk
        | cons a pre =>
          simp only [List.cons_append, List.cons.injEq] at h1
          exact ⟨pre, post, h1.2, fun e he => h2 e (by simp [he])⟩

/-- With the key `h_mark` of the batches no line is drawn, whatever else the options have but `Hmark`. -/
theorem mark_false (user : List (String × Option K)) (h : K) (hu : ∀ e ∈ user, e.1 ≠ "Hmark") :
    drawnMark (("h_mark", some h) :: user) = none := by
  cases hd : drawnMark (("h_mark", some h) :: user) with
  | none => rfl
  | some x =>
    exfalso
    obtain ⟨pre, post, h1, _⟩ := (mark_iff _ _).mp hd
    have hm : (("Hmark", some x) : String × Option K) ∈ ("h_mark", some h) :: user := by
      rw [h1]
      simp
    rcases List.mem_cons.mp hm with e | e
    · simp at e
    · exact hu _ e rfl

/-- The dictionary of the new bundle has the options of the old one apart from the label: a mark is not added. -/
theorem dict_same {A : Type*} (old : List (String × A)) (label : A) (k : String) (v : A) :
    (k, v) ∈ completenessDict old label ↔ (k = "label" ∧ v = label) ∨ (k ≠ "label" ∧ (k, v) ∈ old) := by
  unfold completenessDict setOpt
  rw [List.mem_cons, List.mem_filter, Prod.mk.injEq]
  simp only [decide_eq_true_eq]
  constructor
  · rintro (h | ⟨h1, h2⟩)
    · exact Or.inl h
    · exact Or.inr ⟨h2, h1⟩
  · rintro (h | ⟨h1, h2⟩)
    · exact Or.inl h
    · exact Or.inr ⟨h2, h1⟩

example : drawnMark [("nxbins", none), ("Hmark", some 22)] = some 22
    ∧ drawnMark [("h_mark", some 22)] = none
    ∧ completenessDict [("label", "a"), ("color", "r")] "b" = [("label", "b"), ("color", "r")] := by
  decide

end Mark

end Verif.OrbitPlots
