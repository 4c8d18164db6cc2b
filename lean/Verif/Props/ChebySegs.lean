import Mathlib.Data.List.Basic
import Mathlib.Data.List.MinMax
import Mathlib.Algebra.Order.Field.Basic
import Mathlib.Algebra.Order.Ring.Cast
import Mathlib.Tactic.Linarith
import Mathlib.Tactic.Ring
import Mathlib.Tactic.Push
import Mathlib.Data.Rat.Cast.Order
import Verif.Model.ChebySegs

/-! # C35, C36, C59-C62: Chebyshev segments and their use -/

namespace Verif.Cheby

/-! ## C35 -/

section Values
variable {O K D : Type*} [LinearOrder K]

/-- What a user expects of the result: one label per row; the cell of row `i` at the
`k`-th time is the evaluation, at that time, of a segment of the object named by the
label of the row, whose time range contains the time. -/
def RightObjects (times : List K) (ids : List O) (cols : List (List (Cell O K D))) : Prop :=
  cols.length = times.length ∧
  ∀ (k : Nat) (t : K) (col : List (Cell O K D)), times[k]? = some t → cols[k]? = some col → col.length = ids.length ∧
    ∀ (i : Nat) (o : O) (c : Cell O K D), ids[i]? = some o → col[i]? = some c →
      ∃ s, c = Cell.val s t ∧ s.obj = o ∧ s.ts ≤ t ∧ t ≤ s.te

/-- Segments covering a time, in table order. -/
def covering (tbl : List (Seg O K D)) (t : K) : List (Seg O K D) :=
  tbl.filter (fun s => decide (s.ts ≤ t) && decide (t < s.te))

theorem mem_covering {tbl : List (Seg O K D)} {t : K} {s : Seg O K D} :
    s ∈ covering tbl t ↔ s ∈ tbl ∧ s.ts ≤ t ∧ t < s.te := by
  simp [covering, List.mem_filter]

theorem ephLoop_uniform (tbl : List (Seg O K D)) (ex : Bool) (order : List O) (hne : order ≠ []) (times : List K)
    (h : ∀ t ∈ times, (covering tbl t).map Seg.obj = order) (ids : List O) (hl : ids.length = order.length) :
    ephLoop tbl ex ids times =
      .ok (if times = [] then ids else order, times.map (fun t => (covering tbl t).map (fun s => Cell.val s t))) := by
  induction times generalizing ids with
  | nil => simp [ephLoop]
  | cons t ts ih =>
    have h0 := h t (by simp)
    have hc : covering tbl t ≠ [] := by
      intro e; rw [e] at h0; exact hne h0.symm
    have hlen : (covering tbl t).length = ids.length := by
      rw [hl, ← h0, List.length_map]
    have hp : pick tbl ex t = some (.zero, covering tbl t) := by
      unfold pick
      simp only [covering] at hc ⊢
      rw [if_pos hc]
    have hf : fillCol ids Cell.zero (covering tbl t) t =
        some (order, (covering tbl t).map (fun s => Cell.val s t)) := by
      unfold fillCol
      rw [if_neg (by omega), hlen, List.drop_length, Nat.sub_self, h0]
      simp
    have ih' := ih (fun t' h' => h t' (List.mem_cons_of_mem _ h')) order rfl
    simp only [ephLoop, hp, hf, ih']
    by_cases hts : ts = []
    · simp [hts]
    · simp [hts]

variable [DecidableEq O]

/-- **C35**, what holds: when at every time the covering segments name the same
objects in the same order, one each, as many as were asked for, the call succeeds, and
every value belongs to the object its row is labelled with. -/
theorem ephemerides_right_partial (coeffs : List (Seg O K D)) (objIds order : List O) (times : List K) (ex : Bool)
    (hne : order ≠ []) (ht : times ≠ []) (hlen : objIds.length = order.length)
    (h : ∀ t ∈ times, (covering (coeffs.filter (fun s => decide (s.obj ∈ objIds))) t).map Seg.obj = order) :
    ∃ r, getEphemerides coeffs objIds times ex = .ok r ∧ r.ids = order ∧ RightObjects times r.ids r.cols := by
  refine ⟨⟨order, times.map (fun t => (covering (coeffs.filter (fun s => decide (s.obj ∈ objIds))) t).map
      (fun s => Cell.val s t)), order⟩, ?_, rfl, ?_⟩
  · unfold getEphemerides
    simp only [ephLoop_uniform _ ex order hne times h objIds hlen, ht, if_false]
    simp
  · refine ⟨by simp, ?_⟩
    intro k t col hk hc
    simp only [List.getElem?_map, hk, Option.map_some, Option.some.injEq] at hc
    subst hc
    have hm := h t (List.mem_of_getElem? hk)
    refine ⟨by rw [List.length_map, ← hm, List.length_map], ?_⟩
    intro i o c ho hcell
    rw [← hm, List.getElem?_map] at ho
    rw [List.getElem?_map] at hcell
    cases hs : (covering (coeffs.filter (fun s => decide (s.obj ∈ objIds))) t)[i]? with
    | none => rw [hs] at ho; simp at ho
    | some s =>
      rw [hs] at ho hcell
      simp only [Option.map_some, Option.some.injEq] at ho hcell
      have hin := mem_covering.mp (List.mem_of_getElem? hs)
      exact ⟨s, hcell.symm, ho, hin.2.1, le_of_lt hin.2.2⟩

omit [DecidableEq O] in
/-- **C35.** The condition holds for tables built object after object (as
`calc_segments` does) when every object has exactly one segment covering the time. -/
theorem blocks_covering (order : List O) (block : O → List (Seg O K D)) (t : K)
    (hobj : ∀ o ∈ order, ∀ s ∈ block o, s.obj = o) (hone : ∀ o ∈ order, (covering (block o) t).length = 1) :
    (covering (order.flatMap block) t).map Seg.obj = order := by
  induction order with
  | nil => rfl
  | cons o rest ih =>
    have h1 := hone o (by simp)
    obtain ⟨s, hs⟩ := List.length_eq_one_iff.mp h1
    have hso : s.obj = o := hobj o (by simp) s (mem_covering.mp (by rw [hs]; simp)).1
    have ih' := ih (fun o' h' => hobj o' (List.mem_cons_of_mem _ h')) (fun o' h' => hone o' (List.mem_cons_of_mem _ h'))
    have : covering ((o :: rest).flatMap block) t = covering (block o) t ++ covering (rest.flatMap block) t := by
      simp [covering, List.filter_append]
    rw [this, hs, List.map_append, ih']
    simp [hso]

/-- **C35**, refutation: object 1 has no segment at time 5; its row then holds the
value of object 2, and the row of object 2 a zero, under unchanged labels. -/
theorem ephemerides_wrong_object :
    ∃ (coeffs : List (Seg Nat Int Nat)) (objIds : List Nat) (times : List Int) (r : EphResult Nat Int Nat),
      getEphemerides coeffs objIds times false = .ok r ∧ r.ids = [1, 2] ∧
      r.cols[1]? = some [Cell.val ⟨2, 0, 10, 102⟩ 5, Cell.zero] ∧ ¬ RightObjects times r.ids r.cols := by
  refine ⟨[⟨1, 0, 4, 100⟩, ⟨1, 6, 10, 101⟩, ⟨2, 0, 10, 102⟩], [1, 2], [1, 5, 7],
    ⟨[1, 2], [[.val ⟨1, 0, 4, 100⟩ 1, .val ⟨2, 0, 10, 102⟩ 1], [.val ⟨2, 0, 10, 102⟩ 5, .zero],
      [.val ⟨1, 6, 10, 101⟩ 7, .val ⟨2, 0, 10, 102⟩ 7]], [1, 2]⟩, by rfl, rfl, rfl, ?_⟩
  intro h
  obtain ⟨_, h2⟩ := h.2 1 5 _ rfl rfl
  obtain ⟨s, hs, ho, _⟩ := h2 0 1 _ rfl rfl
  cases hs
  cases ho

omit [DecidableEq O] in
/-- **C35**, in general: if the first covering segment at a time belongs to another
object than the first row, the first row gets that object's value. -/
theorem first_row_shifted (tbl : List (Seg O K D)) (ex : Bool) (o : O) (ids : List O) (t : K) (s : Seg O K D)
    (rest : List (Seg O K D)) (hc : covering tbl t = s :: rest) (hne : s.obj ≠ o)
    (hl : rest.length ≤ ids.length) :
    ∃ ids' col, ephLoop tbl ex (o :: ids) [t] = .ok (ids', [col]) ∧ col[0]? = some (Cell.val s t) ∧
      ids'[0]? = some s.obj ∧ ids'[0]? ≠ some o := by
  have hp : pick tbl ex t = some (.zero, s :: rest) := by
    have h' := hc
    unfold covering at h'
    unfold pick
    simp [h']
  have hf : fillCol (o :: ids) Cell.zero (s :: rest) t =
      some ((s :: rest).map Seg.obj ++ (o :: ids).drop (s :: rest).length,
        (s :: rest).map (fun s => Cell.val s t) ++
          List.replicate ((o :: ids).length - (s :: rest).length) Cell.zero) := by
    unfold fillCol
    rw [if_neg (by simp; omega)]
  refine ⟨s.obj :: (rest.map Seg.obj ++ (o :: ids).drop (rest.length + 1)),
    Cell.val s t :: (rest.map (fun s => Cell.val s t) ++
      List.replicate ((o :: ids).length - (s :: rest).length) Cell.zero), ?_, rfl, rfl, ?_⟩
  · simp only [ephLoop, hp, hf]
    simp
  · simpa using hne

/-- Two objects with two segments each. -/
example : (covering (([1, 2] : List Nat).flatMap
    (fun o => [Seg.mk o (0 : Int) 4 100, Seg.mk o 4 8 101])) 5).map Seg.obj = [1, 2] := by decide

/-! ## C60, C61 -/

/-- **C60.** The comparison of labels with the requested objects can never fail, and
the caller's array holds the labels of the result afterwards. -/
theorem label_check_vacuous (coeffs : List (Seg O K D)) (objIds : List O) (times : List K) (ex : Bool) :
    getEphemerides coeffs objIds times ex ≠ .error .mismatch ∧
    ∀ r, getEphemerides coeffs objIds times ex = .ok r → r.callerIds = r.ids := by
  have hloop : ∀ (tbl : List (Seg O K D)) ids, ephLoop tbl ex ids times ≠ .error .mismatch := by
    intro tbl
    induction times with
    | nil => intro ids; simp [ephLoop]
    | cons t ts ih =>
      intro ids
      unfold ephLoop
      split
      · simp
      · split
        · simp
        · split
          · simp
          · rename_i e he
            intro h
            cases h
            exact ih _ he
  unfold getEphemerides
  simp only
  split
  · rename_i e he
    constructor
    · intro h; cases h; exact hloop _ _ he
    · intro r h; cases h
  · rename_i ids cols he
    have : (ids.all (fun o => decide (o ∈ ids)) && ids.all (fun o => decide (o ∈ ids))) = true := by simp
    rw [if_pos this]
    exact ⟨by simp, fun r h => by cases h; rfl⟩

/-- **C60.** Asking for an object that is not in the table gives no error but a row of
zeros (refutes the documented check). -/
theorem unknown_object_zeros :
    ∃ (coeffs : List (Seg Nat Int Nat)) (objIds : List Nat) (times : List Int) (r : EphResult Nat Int Nat),
      (∃ o ∈ objIds, ∀ s ∈ coeffs, s.obj ≠ o) ∧ getEphemerides coeffs objIds times false = .ok r ∧
      r.cols = [[.val ⟨1, 0, 4, 100⟩ 2, .zero]] :=
  ⟨[⟨1, 0, 4, 100⟩], [1, 3], [2], ⟨[1, 3], [[.val ⟨1, 0, 4, 100⟩ 2, .zero]], [1, 3]⟩,
    ⟨3, by decide, by decide⟩, rfl, rfl⟩

/-- **C60.** The caller's array may end up with different objects in it: object 2
twice, object 1 gone. -/
theorem caller_ids_overwritten :
    ∃ (coeffs : List (Seg Nat Int Nat)) (objIds : List Nat) (times : List Int) (r : EphResult Nat Int Nat),
      getEphemerides coeffs objIds times false = .ok r ∧ objIds = [1, 2] ∧ r.callerIds = [2, 2] :=
  ⟨[⟨1, 0, 4, 100⟩, ⟨2, 0, 10, 102⟩], [1, 2], [1, 5],
    ⟨[2, 2], [[.val ⟨1, 0, 4, 100⟩ 1, .val ⟨2, 0, 10, 102⟩ 1], [.val ⟨2, 0, 10, 102⟩ 5, .zero]], [2, 2]⟩,
    rfl, rfl, rfl⟩

omit [DecidableEq O] in
/-- **C61.** A time in no segment but between the earliest start and the latest end
gives zeros, not NaN, for every object, with or without extrapolation. -/
theorem gap_gives_zeros (tbl : List (Seg O K D)) (ex : Bool) (ids : List O) (t : K) (hc : covering tbl t = [])
    (h1 : ∃ s ∈ tbl, s.ts ≤ t) (h2 : ∃ s ∈ tbl, t < s.te) :
    ephLoop tbl ex ids [t] = .ok (ids, [List.replicate ids.length Cell.zero]) := by
  obtain ⟨s1, hs1, hs1t⟩ := h1
  obtain ⟨s2, hs2, hs2t⟩ := h2
  have hmin : ∃ a, minStart tbl = some a ∧ a ≤ t := by
    unfold minStart
    cases hm : (tbl.map Seg.ts).min? with
    | none => rw [List.min?_eq_none_iff] at hm; simp at hm; rw [hm] at hs1; simp at hs1
    | some a =>
      refine ⟨a, rfl, ?_⟩
      have := (List.min?_eq_some_iff.mp hm).2 s1.ts (List.mem_map_of_mem hs1)
      exact le_trans this hs1t
  have hmax : ∃ b, maxEnd tbl = some b ∧ t < b := by
    unfold maxEnd
    cases hm : (tbl.map Seg.te).max? with
    | none => rw [List.max?_eq_none_iff] at hm; simp at hm; rw [hm] at hs1; simp at hs1
    | some b =>
      refine ⟨b, rfl, ?_⟩
      have := (List.max?_eq_some_iff.mp hm).2 s2.te (List.mem_map_of_mem hs2)
      exact lt_of_lt_of_le hs2t this
  obtain ⟨a, ha, hat⟩ := hmin
  obtain ⟨b, hb, hbt⟩ := hmax
  have hp : pick tbl ex t = some (.zero, []) := by
    have h' := hc
    unfold covering at h'
    unfold pick
    simp only [h', ha, hb]
    rw [if_neg (by simp), if_neg (by rintro (h | h) <;> [exact absurd h (not_lt.mpr hat); exact absurd h (not_lt.mpr hbt.le)]),
      if_neg (ne_of_gt hbt)]
  simp [ephLoop, hp, fillCol]

omit [DecidableEq O] in
/-- **C61.** Outside the overall range, without extrapolation, all values are NaN. -/
theorem outside_gives_nan (tbl : List (Seg O K D)) (ids : List O) (t : K) (hne : tbl ≠ [])
    (h : (∀ s ∈ tbl, t < s.ts) ∨ (∀ s ∈ tbl, s.te < t)) :
    ephLoop tbl false ids [t] = .ok (ids, [List.replicate ids.length Cell.nan]) := by
  have hc : covering tbl t = [] := by
    rw [List.eq_nil_iff_forall_not_mem]
    intro s hs
    obtain ⟨h0, h1, h2⟩ := mem_covering.mp hs
    rcases h with h | h
    · exact absurd h1 (not_le.mpr (h s h0))
    · exact absurd h2 (not_lt.mpr (h s h0).le)
  obtain ⟨a, ha⟩ : ∃ a, minStart tbl = some a := by
    unfold minStart
    cases hm : (tbl.map Seg.ts).min? with
    | none => rw [List.min?_eq_none_iff] at hm; simp at hm; exact absurd hm hne
    | some a => exact ⟨a, rfl⟩
  obtain ⟨b, hb⟩ : ∃ b, maxEnd tbl = some b := by
    unfold maxEnd
    cases hm : (tbl.map Seg.te).max? with
    | none => rw [List.max?_eq_none_iff] at hm; simp at hm; exact absurd hm hne
    | some a => exact ⟨a, rfl⟩
  have hout : t < a ∨ b < t := by
    rcases h with h | h
    · left
      obtain ⟨s, hs, e⟩ := List.mem_map.mp (List.min?_eq_some_iff.mp ha).1
      rw [← e]; exact h s hs
    · right
      obtain ⟨s, hs, e⟩ := List.mem_map.mp (List.max?_eq_some_iff.mp hb).1
      rw [← e]; exact h s hs
  have hp : pick tbl false t = some (.nan, []) := by
    have h' := hc
    unfold covering at h'
    unfold pick
    simp only [h', ha, hb]
    rw [if_neg (by simp), if_pos hout]
    simp
  simp [ephLoop, hp, fillCol]

example : covering [Seg.mk 1 (0 : Int) 4 100, Seg.mk 1 6 10 101] 5 = [] := by decide

omit [DecidableEq O] in
/-- **C35, C61.** The final time belongs to the segments that end there: every row is
labelled and filled from one of them, with or without extrapolation. -/
theorem final_time_values (tbl : List (Seg O K D)) (ex : Bool) (ids : List O) (t : K)
    (hts : ∀ s ∈ tbl, s.ts ≤ s.te) (hte : ∀ s ∈ tbl, s.te ≤ t)
    (hlast : ∃ s ∈ tbl, s.te = t) (hlen : ids.length = (tbl.filter (fun s => decide (s.te = t))).length) :
    ephLoop tbl ex ids [t] = .ok ((tbl.filter (fun s => decide (s.te = t))).map Seg.obj,
      [(tbl.filter (fun s => decide (s.te = t))).map (fun s => Cell.val s t)]) := by
  have hc : covering tbl t = [] := by
    rw [List.eq_nil_iff_forall_not_mem]
    intro s hs
    obtain ⟨h0, h1, h2⟩ := mem_covering.mp hs
    exact absurd h2 (not_lt.mpr (hte s h0))
  obtain ⟨s1, hs1, hs1t⟩ := hlast
  obtain ⟨a, ha, hat⟩ : ∃ a, minStart tbl = some a ∧ a ≤ t := by
    unfold minStart
    cases hm : (tbl.map Seg.ts).min? with
    | none => rw [List.min?_eq_none_iff] at hm; simp at hm; rw [hm] at hs1; simp at hs1
    | some a =>
      refine ⟨a, rfl, ?_⟩
      have := (List.min?_eq_some_iff.mp hm).2 s1.ts (List.mem_map_of_mem hs1)
      exact le_trans this (hs1t ▸ hts s1 hs1)
  have hb : maxEnd tbl = some t := by
    unfold maxEnd
    rw [List.max?_eq_some_iff]
    refine ⟨hs1t ▸ List.mem_map_of_mem hs1, ?_⟩
    intro b hb
    obtain ⟨s, hs, rfl⟩ := List.mem_map.mp hb
    exact hte s hs
  have hp : pick tbl ex t = some (.zero, tbl.filter (fun s => decide (s.te = t))) := by
    have h' := hc
    unfold covering at h'
    unfold pick
    simp only [h', ha, hb]
    rw [if_neg (by simp), if_neg (by rintro (h | h) <;> [exact absurd h (not_lt.mpr hat); exact absurd h (lt_irrefl _)]),
      if_pos trivial]
  simp [ephLoop, hp, fillCol, hlen]

example : ephLoop [Seg.mk 1 (0 : Int) 4 100, Seg.mk 1 4 10 101, Seg.mk 2 0 10 102] false [7, 8] [10] =
    .ok ([1, 2], [[.val (Seg.mk 1 4 10 101) 10, .val (Seg.mk 2 0 10 102) 10]]) := rfl

omit [DecidableEq O] in
/-- **C61.** With extrapolation, a time before all segments uses those that start
first, a time after all segments those that end last. -/
theorem extrapolated_values (tbl : List (Seg O K D)) (ids : List O) (t e : K)
    (hts : ∀ s ∈ tbl, s.ts ≤ s.te) (segs : List (Seg O K D)) (hlen : ids.length = segs.length)
    (h : (t < e ∧ (∀ s ∈ tbl, e ≤ s.ts) ∧ (∃ s ∈ tbl, s.ts = e) ∧ segs = tbl.filter (fun s => decide (s.ts = e))) ∨
      (e < t ∧ (∀ s ∈ tbl, s.te ≤ e) ∧ (∃ s ∈ tbl, s.te = e) ∧ segs = tbl.filter (fun s => decide (s.te = e)))) :
    ephLoop tbl true ids [t] = .ok (segs.map Seg.obj, [segs.map (fun s => Cell.val s t)]) := by
  have hne : tbl ≠ [] := by
    rintro rfl
    rcases h with ⟨_, _, ⟨s, hs, _⟩, _⟩ | ⟨_, _, ⟨s, hs, _⟩, _⟩ <;> simp at hs
  have hc : covering tbl t = [] := by
    rw [List.eq_nil_iff_forall_not_mem]
    intro s hs
    obtain ⟨h0, h1, h2⟩ := mem_covering.mp hs
    rcases h with ⟨h, h', _⟩ | ⟨h, h', _⟩
    · exact absurd h1 (not_le.mpr (lt_of_lt_of_le h (h' s h0)))
    · exact absurd h2 (not_lt.mpr (le_of_lt (lt_of_le_of_lt (h' s h0) h)))
  obtain ⟨a, ha⟩ : ∃ a, minStart tbl = some a := by
    unfold minStart
    cases hm : (tbl.map Seg.ts).min? with
    | none => rw [List.min?_eq_none_iff] at hm; simp at hm; exact absurd hm hne
    | some a => exact ⟨a, rfl⟩
  obtain ⟨b, hb⟩ : ∃ b, maxEnd tbl = some b := by
    unfold maxEnd
    cases hm : (tbl.map Seg.te).max? with
    | none => rw [List.max?_eq_none_iff] at hm; simp at hm; exact absurd hm hne
    | some a => exact ⟨a, rfl⟩
  have ha' := List.min?_eq_some_iff.mp ha
  have hb' := List.max?_eq_some_iff.mp hb
  have hp : pick tbl true t = some (.zero, segs) := by
    have h' := hc
    unfold covering at h'
    unfold pick
    simp only [h', ha, hb]
    rw [if_neg (by simp)]
    rcases h with ⟨h1, h2, ⟨s, hs, hse⟩, h4⟩ | ⟨h1, h2, ⟨s, hs, hse⟩, h4⟩
    · have hae : a = e := by
        apply le_antisymm
        · exact hse ▸ ha'.2 _ (List.mem_map_of_mem hs)
        · obtain ⟨s', hs', e'⟩ := List.mem_map.mp ha'.1
          exact e' ▸ h2 s' hs'
      have hbt : ¬ b < t := by
        have := hb'.2 _ (List.mem_map_of_mem hs)
        have h5 := hts s hs
        exact not_lt.mpr (le_trans (le_of_lt h1) (hse ▸ le_trans h5 this))
      rw [if_pos (Or.inl (hae ▸ h1)), if_pos trivial, if_neg hbt, if_pos (hae ▸ h1), h4, hae]
    · have hbe : b = e := by
        apply le_antisymm
        · obtain ⟨s', hs', e'⟩ := List.mem_map.mp hb'.1
          exact e' ▸ h2 s' hs'
        · exact hse ▸ hb'.2 _ (List.mem_map_of_mem hs)
      rw [if_pos (Or.inr (hbe ▸ h1)), if_pos trivial, if_pos (hbe ▸ h1), h4, hbe]
  simp [ephLoop, hp, fillCol, hlen]

example : ephLoop [Seg.mk 1 (2 : Int) 4 100, Seg.mk 1 4 10 101, Seg.mk 2 2 10 102] true [7, 8] [1] =
    .ok ([1, 2], [[.val (Seg.mk 1 2 4 100) 1, .val (Seg.mk 2 2 10 102) 1]]) := rfl

end Values

/-! ## C36, C62 -/

section Segments

/-- Consecutive ranges from `a` to `b` without gap or overlap. -/
def Tiles : List (Nat × Nat) → Nat → Nat → Prop
  | [], a, b => a = b
  | (s, e) :: l, a, b => s = a ∧ s ≤ e ∧ Tiles l e b

theorem le_lastIndex {L P g j : Nat} (hL : 0 < L) (h : 4 * g * (j * L) + L < 4 * g * P) : j * g ≤ lastIndex L P g := by
  unfold lastIndex
  rw [Nat.le_div_iff_mul_le (by omega)]
  have e1 : 4 * g * (j * L) = 4 * (j * g * L) := by ring
  have e2 : 4 * g * P = 4 * (g * P) := by ring
  have e3 : 2 * g * P = 2 * (g * P) := by ring
  have e4 : j * g * (2 * L) = 2 * (j * g * L) := by ring
  rw [e1, e2] at h
  rw [e3, e4]
  omega

theorem lastIndex_le {L P g j : Nat} (hL : 0 < L) (h : ¬ (4 * g * (j * L) + L < 4 * g * P)) : lastIndex L P g ≤ j * g := by
  unfold lastIndex
  rw [← Nat.lt_succ_iff, Nat.div_lt_iff_lt_mul (by omega)]
  have e1 : 4 * g * (j * L) = 4 * (j * g * L) := by ring
  have e2 : 4 * g * P = 4 * (g * P) := by ring
  have e3 : 2 * g * P = 2 * (g * P) := by ring
  have e4 : (j * g).succ * (2 * L) = 2 * (j * g * L) + 2 * L := by rw [Nat.succ_mul]; ring
  rw [e1, e2] at h
  rw [e3, e4]
  omega

theorem segLoop_tiles {L P g : Nat} (hL : 0 < L) : ∀ fuel j, P ≤ fuel + j →
    Tiles (segLoop L P g (lastIndex L P g) fuel j) (min (j * g) (lastIndex L P g)) (lastIndex L P g) := by
  intro fuel
  induction fuel with
  | zero =>
    intro j hj
    have : lastIndex L P g ≤ j * g := by
      apply lastIndex_le hL
      have hPj : P ≤ j := by omega
      have : P ≤ j * L := le_trans hPj (Nat.le_mul_of_pos_right j hL)
      have := Nat.mul_le_mul_left (4 * g) this
      omega
    simp only [segLoop, Tiles]
    exact min_eq_right this
  | succ fuel ih =>
    intro j hj
    unfold segLoop
    by_cases h : 4 * g * (j * L) + L < 4 * g * P
    · rw [if_pos h]
      have hle := le_lastIndex hL h
      refine ⟨(min_eq_left hle).symm, ?_, ih (j + 1) (by omega)⟩
      exact le_min (Nat.mul_le_mul_right g (by omega)) hle
    · rw [if_neg h]
      simp only [Tiles]
      exact min_eq_right (lastIndex_le hL h)

/-- **C36.** For every span, granularity and positive length, the recorded segments run
from the first to the last grid time without gap or overlap, and the last grid time is
within half a time step of the end of the span. -/
theorem segments_tile (L P g : Nat) (hL : 0 < L) :
    Tiles (calcSegments L P g) 0 (lastIndex L P g) ∧
    2 * (lastIndex L P g * L) < 2 * (g * P) + L ∧ 2 * (g * P) ≤ 2 * (lastIndex L P g * L) + L := by
  refine ⟨?_, ?_, ?_⟩
  · have := segLoop_tiles (P := P) (g := g) hL P 0 (le_refl P)
    simpa [calcSegments] using this
  · unfold lastIndex
    have h := Nat.div_mul_le_self (2 * g * P + L - 1) (2 * L)
    have e : (2 * g * P + L - 1) / (2 * L) * (2 * L) = 2 * ((2 * g * P + L - 1) / (2 * L) * L) := by ring
    have e3 : 2 * g * P = 2 * (g * P) := by ring
    rw [e] at h
    omega
  · unfold lastIndex
    have h := Nat.lt_div_mul_add (a := 2 * g * P + L - 1) (b := 2 * L) (by omega)
    have e : (2 * g * P + L - 1) / (2 * L) * (2 * L) = 2 * ((2 * g * P + L - 1) / (2 * L) * L) := by ring
    have e3 : 2 * g * P = 2 * (g * P) := by ring
    rw [e] at h
    omega

theorem lastIndex_exact (L g n : Nat) (hL : 0 < L) : lastIndex L (n * L) g = n * g := by
  unfold lastIndex
  have : 2 * g * (n * L) + L - 1 = (L - 1) + n * g * (2 * L) := by
    have : 2 * g * (n * L) = n * g * (2 * L) := by ring
    omega
  rw [this, Nat.add_mul_div_right _ _ (by omega), Nat.div_eq_of_lt (by omega)]
  omega

/-- **C36.** When the length divides the span the segments are exactly the `n` ranges
of full length, ending at the end of the span. -/
theorem segments_exact (L g n : Nat) (hL : 0 < L) (hg : 0 < g) :
    calcSegments L (n * L) g = (List.range n).map (fun j => (j * g, (j + 1) * g)) := by
  unfold calcSegments
  rw [lastIndex_exact L g n hL]
  have key : ∀ k fuel j, j + k = n → k ≤ fuel →
      segLoop L (n * L) g (n * g) fuel j = (List.range k).map (fun i => ((j + i) * g, (j + i + 1) * g)) := by
    intro k
    induction k with
    | zero =>
      intro fuel j hj _
      have hjn : j = n := by omega
      subst hjn
      cases fuel with
      | zero => rfl
      | succ fuel => simp [segLoop]
    | succ k ih =>
      intro fuel j hj hf
      cases fuel with
      | zero => omega
      | succ fuel =>
        unfold segLoop
        have hcond : 4 * g * (j * L) + L < 4 * g * (n * L) := by
          have h1 : (j + 1) * L ≤ n * L := Nat.mul_le_mul_right L (by omega)
          have h2 : 4 * g * ((j + 1) * L) ≤ 4 * g * (n * L) := Nat.mul_le_mul_left _ h1
          have h3 : 4 * g * ((j + 1) * L) = 4 * g * (j * L) + 4 * (g * L) := by ring
          have h4 : L ≤ g * L := Nat.le_mul_of_pos_left L hg
          omega
        rw [if_pos hcond, ih fuel (j + 1) (by omega) (by omega), List.range_succ_eq_map, List.map_cons, List.map_map]
        have hmin : min ((j + 1) * g) (n * g) = (j + 1) * g := min_eq_left (Nat.mul_le_mul_right g (by omega))
        rw [hmin]
        congr 1
        apply List.map_congr_left
        intro i _
        simp only [Function.comp, Nat.succ_eq_add_one, Prod.mk.injEq]
        constructor <;> ring
  have := key n (n * L) 0 (by omega) (Nat.le_mul_of_pos_right n hL)
  rw [this]
  apply List.map_congr_left
  intro i _
  simp

/-- Span 30, length 4: seven full segments and a short one. -/
example : calcSegments 4 30 64 = [(0, 64), (64, 128), (128, 192), (192, 256), (256, 320), (320, 384), (384, 448),
    (448, 480)] := by decide

/-- **C62**, what holds: a returned length is positive and leaves a remainder of at most
ten units of the last decimal. -/
theorem round_length_partial (rnd : Nat → Nat → Nat) (P len len' : Nat) (h : roundLength rnd P len = .ok len') :
    0 < len' ∧ P % len' ≤ 10 := by
  unfold roundLength at h
  split at h
  · cases h
  · split at h
    · cases h
    · split at h
      · cases h
      · cases h
        constructor <;> omega

/-- **C62.** Every length of at most eleven units is accepted as it is, whether or not
it divides the span. -/
theorem small_length_accepted (rnd : Nat → Nat → Nat) (P len : Nat) (h0 : 0 < len) (h : len ≤ 11) :
    roundLength rnd P len = .ok len := by
  have hm : P % len < len := Nat.mod_lt _ h0
  have h1 : ¬ (P % len > 10) := by omega
  have h2 : ¬ len = 0 := by omega
  simp [roundLength, roundLoop, h1, h2]

/-- Full statement of C62: the length fits into the span a whole number of times, up to
one unit of the last decimal. -/
def FitsSpan (rnd : Nat → Nat → Nat) : Prop :=
  ∀ P len len', roundLength rnd P len = .ok len' → P % len' ≤ 1

/-- **C62**, refutation: whole days (`n_decimal=0`), 30 days in segments of 4 days. -/
theorem fits_span_false (rnd : Nat → Nat → Nat) : ¬ FitsSpan rnd := by
  intro h
  have := h 30 4 4 (small_length_accepted rnd 30 4 (by decide) (by decide))
  revert this
  decide

example : roundLength (fun P f => (2 * P + f) / (2 * f)) 3000 190 = .ok 176 := by decide

end Segments

/-! ## C59 -/

section Wrap
variable {K : Type*} [Field K] [LinearOrder K] [IsStrictOrderedRing K]

/-- **C59.** Right ascensions of a track that spans less than 90 degrees: all values
come out shifted from the continuous track by one and the same number of full turns.
`track` holds the continuous angles with the turns removed by the wrapping to
[0, 360). -/
theorem unwrap_continuous (track : List (K × ℤ))
    (hw : ∀ e ∈ track, 0 ≤ e.1 - 360 * (e.2 : K) ∧ e.1 - 360 * (e.2 : K) < 360)
    (hs : ∀ e ∈ track, ∀ e' ∈ track, e.1 - e'.1 < 90) :
    ∃ m : ℤ, threeSixtyToNeg (track.map (fun e => e.1 - 360 * (e.2 : K))) = track.map (fun e => e.1 - 360 * (m : K)) := by
  rcases track with _ | ⟨e0, rest⟩
  · exact ⟨0, rfl⟩
  set tr := e0 :: rest with htr
  have he0 : e0 ∈ tr := by simp [htr]
  obtain ⟨lo, hlo⟩ : ∃ lo, (tr.map (fun e => e.1 - 360 * (e.2 : K))).min? = some lo := by
    cases hm : (tr.map (fun e => e.1 - 360 * (e.2 : K))).min? with
    | none => rw [List.min?_eq_none_iff] at hm; simp [htr] at hm
    | some a => exact ⟨a, rfl⟩
  obtain ⟨hi, hhi⟩ : ∃ hi, (tr.map (fun e => e.1 - 360 * (e.2 : K))).max? = some hi := by
    cases hm : (tr.map (fun e => e.1 - 360 * (e.2 : K))).max? with
    | none => rw [List.max?_eq_none_iff] at hm; simp [htr] at hm
    | some a => exact ⟨a, rfl⟩
  have hlo' := List.min?_eq_some_iff.mp hlo
  have hhi' := List.max?_eq_some_iff.mp hhi
  -- turns differ by at most one
  have hk : ∀ e ∈ tr, ∀ e' ∈ tr, e.2 ≤ e'.2 + 1 := by
    intro e he e' he'
    by_contra h
    have h2 : e'.2 + 2 ≤ e.2 := by omega
    have h3 : ((e'.2 : K)) + 2 ≤ (e.2 : K) := by exact_mod_cast h2
    have a1 := hw e he
    have a2 := hw e' he'
    have a3 := hs e he e' he'
    linarith [a1.1, a2.2]
  unfold threeSixtyToNeg
  simp only [hlo, hhi]
  by_cases hall : ∀ e ∈ tr, e.2 = e0.2
  · refine ⟨e0.2, ?_⟩
    rw [if_neg]
    · apply List.map_congr_left
      intro e he
      rw [hall e he]
    · rintro ⟨h1, h2⟩
      obtain ⟨e, he, hee⟩ := List.mem_map.mp hlo'.1
      obtain ⟨e', he', hee'⟩ := List.mem_map.mp hhi'.1
      have := hs e' he' e he
      rw [← hee, hall e he] at h1
      rw [← hee', hall e' he'] at h2
      linarith
  · -- both kinds of turns occur
    obtain ⟨ea, hea, eb, heb, hab⟩ : ∃ ea ∈ tr, ∃ eb ∈ tr, eb.2 = ea.2 + 1 := by
      push Not at hall
      obtain ⟨e, he, hne⟩ := hall
      have h1 := hk e he e0 he0
      have h2 := hk e0 he0 e he
      rcases lt_or_gt_of_ne hne with h | h
      · exact ⟨e, he, e0, he0, by omega⟩
      · exact ⟨e0, he0, e, he, by omega⟩
    have habK : (eb.2 : K) = (ea.2 : K) + 1 := by exact_mod_cast hab
    refine ⟨eb.2, ?_⟩
    have wa := hw ea hea
    have wb := hw eb heb
    have sab := hs eb heb ea hea
    have hbig : 270 < ea.1 - 360 * (ea.2 : K) := by
      have := wb.1
      rw [habK] at this
      linarith
    have hsmall : eb.1 - 360 * (eb.2 : K) < 100 := by
      rw [habK]
      linarith [wa.2]
    rw [if_pos]
    · rw [List.map_map]
      apply List.map_congr_left
      intro e he
      simp only [Function.comp]
      have k1 := hk e he ea hea
      have k2 := hk eb heb e he
      rcases (by omega : e.2 = ea.2 ∨ e.2 = eb.2) with h | h
      · have : 270 < e.1 - 360 * (e.2 : K) := by
          have s2 := hs eb heb e he
          have := wb.1
          rw [habK] at this
          rw [h]
          linarith
        rw [if_pos this, h, habK]
        ring
      · have : ¬ 270 < e.1 - 360 * (e.2 : K) := by
          have s2 := hs e he ea hea
          rw [h, habK]
          have := wa.2
          push Not
          linarith
        rw [if_neg this, h]
    · exact ⟨lt_of_le_of_lt (hlo'.2 _ (List.mem_map_of_mem heb)) hsmall,
        lt_of_lt_of_le hbig (hhi'.2 _ (List.mem_map_of_mem hea))⟩

/-- **C59.** The bound of 90 degrees is sharp: a track from -90 to 0 degrees stays torn
apart. -/
theorem unwrap_sharp : threeSixtyToNeg ([270, 0] : List ℚ) = [270, 0] := by decide +kernel

/-- A track across zero, one turn for the last two values. -/
example : threeSixtyToNeg ([350, 359, 3, 8] : List ℚ) = [-10, -1, 3, 8] := by decide +kernel

end Wrap

end Verif.Cheby


