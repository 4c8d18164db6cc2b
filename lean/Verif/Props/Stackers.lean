import Verif.Model.Stackers
import Mathlib.Data.Rat.Defs
import Mathlib.Algebra.Order.Ring.Rat
import Mathlib.Algebra.Field.Rat
import Mathlib.Data.Fin.VecNotation
import Mathlib.Algebra.BigOperators.Group.List.Basic
import Mathlib.Tactic.Linarith
import Mathlib.Tactic.FieldSimp
import Mathlib.Tactic.Ring
import Mathlib.Tactic.NormNum

/-!
# Properties of stackers (C16, C45, C46, C47, C48, C49, C50)
-/

namespace Verif.Stackers

namespace Table
variable {V : Type*}

theorem get?_append_left (t : Table V) (extra : List (String × List V)) (c : String)
    (h : c ∈ t.names) : (Table.mk t.nrows (t.cols ++ extra)).get? c = t.get? c := by
  unfold get?
  rw [List.find?_append]
  have : (t.cols.find? (fun x => x.1 == c)).isSome := by
    rw [List.find?_isSome]
    obtain ⟨x, hx, rfl⟩ := List.mem_map.mp h
    exact ⟨x, hx, by simp⟩
  obtain ⟨y, hy⟩ := Option.isSome_iff_exists.mp this
  simp [hy]

theorem get?_append_right (t : Table V) (extra : List (String × List V)) (c : String)
    (h : ∀ x ∈ extra, x.1 ≠ c) : (Table.mk t.nrows (t.cols ++ extra)).get? c = t.get? c := by
  unfold get?
  rw [List.find?_append]
  have : extra.find? (fun x => x.1 == c) = none := by
    rw [List.find?_eq_none]
    intro x hx
    simpa using h x hx
  simp [this]

theorem names_set (t : Table V) (c : String) (v : List V) : (t.set c v).names = t.names := by
  unfold names set
  rw [List.map_map]
  apply List.map_congr_left
  intro x _
  simp only [Function.comp_apply]
  split <;> rfl

theorem get?_set_ne (t : Table V) (c c' : String) (v : List V) (h : c' ≠ c) :
    (t.set c v).get? c' = t.get? c' := by
  unfold get? set
  simp only
  induction t.cols with
  | nil => rfl
  | cons x l ih =>
    rw [List.map_cons, List.find?_cons, List.find?_cons]
    by_cases hx : x.1 = c
    · have h1 : (x.1 == c) = true := by simpa using hx
      have h2 : (x.1 == c') = false := by
        rw [beq_eq_false_iff_ne, hx]
        exact fun e => h e.symm
      simp only [h1, if_true, h2]
      exact ih
    · have h1 : (x.1 == c) = false := by simpa using hx
      simp only [h1]
      by_cases hx' : x.1 = c'
      · have h2 : (x.1 == c') = true := by simpa using hx'
        simp [h2]
      · have h2 : (x.1 == c') = false := by simpa using hx'
        simp only [Bool.false_eq_true, if_false, h2]
        exact ih

theorem get?_set_self (t : Table V) (c : String) (v : List V) (h : c ∈ t.names) :
    (t.set c v).get? c = some v := by
  unfold get? set
  obtain ⟨x, hx, rfl⟩ := List.mem_map.mp h
  simp only
  clear h
  generalize t.cols = cs at hx
  induction cs with
  | nil => simp at hx
  | cons y l ih =>
    rw [List.map_cons, List.find?_cons]
    by_cases hy : y.1 = x.1
    · simp [hy]
    · have h1 : (y.1 == x.1) = false := by simpa using hy
      simp only [h1, Bool.false_eq_true, if_false]
      apply ih
      rcases List.mem_cons.mp hx with rfl | hx
      · exact absurd rfl hy
      · exact hx

theorem get?_isSome (t : Table V) (c : String) : (t.get? c).isSome ↔ c ∈ t.names := by
  unfold get? names
  rw [Option.isSome_map, List.find?_isSome]
  simp [List.mem_map]

end Table

section Base
variable {V : Type*}

/-- What a stacker's `_run` is supposed to do: keep the rows and the columns and
write only declared columns; and return the data as it is when told the columns
are present. -/
structure WellBehaved (s : Stacker V) : Prop where
  nrows : ∀ t p, (s.body t p).nrows = t.nrows
  names : ∀ t p, (s.body t p).names = t.names
  frame : ∀ t p c, c ∉ s.colsAdded → (s.body t p).get? c = t.get? c
  skip : ∀ t, s.body t true = t

/-- **C16.** Running a well-behaved stacker on any table: the number of rows is
kept; the columns are the old ones in their order followed by the declared ones
that were missing; every column not declared by the stacker keeps its values; an
empty table is returned unchanged; and without `override` a table that already
has all declared columns (with a first value that is not `None`) is returned
unchanged. -/
theorem stacker_run_frame (s : Stacker V) (hs : WellBehaved s) (fresh : String → List V)
    (isNone : V → Bool) (override : Bool) (t : Table V) :
    (s.run fresh isNone override t).nrows = t.nrows ∧
    (t.nrows ≠ 0 → (s.run fresh isNone override t).names =
      t.names ++ s.colsAdded.filter (fun c => decide (c ∉ t.names))) ∧
    (∀ c ∈ t.names, c ∈ (s.run fresh isNone override t).names) ∧
    (∀ c, c ∉ s.colsAdded → (s.run fresh isNone override t).get? c = t.get? c) ∧
    (t.nrows = 0 → s.run fresh isNone override t = t) ∧
    (override = false → (∀ c ∈ s.colsAdded, ∃ v vs, t.get? c = some (v :: vs) ∧ isNone v = false) →
      s.run fresh isNone override t = t) := by
  have hnames : t.nrows ≠ 0 → (s.run fresh isNone override t).names =
      t.names ++ s.colsAdded.filter (fun c => decide (c ∉ t.names)) := by
    intro h0
    unfold Stacker.run
    rw [if_neg h0, hs.names]
    simp only [addStackerCols, Table.names, List.map_append, List.map_map]
    congr 1
    rw [show (Prod.fst ∘ fun c => (c, fresh c)) = id from rfl, List.map_id]
    apply List.filter_congr
    intro c _
    by_cases hc : c ∈ List.map Prod.fst t.cols
    · simp only [List.contains_iff_mem.mpr hc, hc, not_true, decide_false, Bool.not_true]
    · have : (List.map Prod.fst t.cols).contains c = false := by
        rw [Bool.eq_false_iff]
        exact fun h => hc (List.contains_iff_mem.mp h)
      simp only [this, hc, not_false_iff, decide_true, Bool.not_false]
  refine ⟨?_, hnames, ?_, ?_, ?_, ?_⟩
  · unfold Stacker.run
    split
    · rfl
    · rw [hs.nrows]; rfl
  · intro c hc
    by_cases h0 : t.nrows = 0
    · unfold Stacker.run
      rw [if_pos h0]
      exact hc
    · rw [hnames h0]
      exact List.mem_append_left _ hc
  · intro c hc
    unfold Stacker.run
    split
    · rfl
    · rw [hs.frame _ _ _ hc]
      apply Table.get?_append_right
      intro x hx e
      obtain ⟨y, hy, rfl⟩ := List.mem_map.mp hx
      exact hc (e ▸ (List.mem_filter.mp hy).1)
  · intro h0
    unfold Stacker.run
    rw [if_pos h0]
  · intro ho hp
    unfold Stacker.run
    split
    · rfl
    · have h1 : (addStackerCols fresh isNone s.colsAdded t).2 = true := by
        simp only [addStackerCols, List.all_eq_true]
        intro c hc
        obtain ⟨v, vs, e, hv⟩ := hp c hc
        simp [e, hv]
      have h2 : (addStackerCols fresh isNone s.colsAdded t).1 = t := by
        have : s.colsAdded.filter (fun c => !t.names.contains c) = [] := by
          rw [List.filter_eq_nil_iff]
          intro c hc
          obtain ⟨v, vs, e, -⟩ := hp c hc
          have : c ∈ t.names := by
            rw [← Table.get?_isSome, e]; rfl
          simp [this]
        simp only [addStackerCols, this, List.map_nil, List.append_nil]
      simp only [ho, Bool.false_eq_true, if_false, h1, h2]
      exact hs.skip t

theorem rowStacker_wellBehaved (name : String) (f : Table V → List V) : WellBehaved (rowStacker name f) := by
  refine ⟨?_, ?_, ?_, ?_⟩
  · intro t p
    cases p <;> rfl
  · intro t p
    cases p
    · exact Table.names_set _ _ _
    · rfl
  · intro t p c hc
    cases p
    · exact Table.get?_set_ne _ _ _ _ (by simpa [rowStacker] using hc)
    · rfl
  · intro t; rfl

/-- **C16.** When the column is missing, starts with `None`, or `override` is set, the
stacker computes it from the other columns, whatever the table held before. `hf` says
that the formula does not read the column itself. -/
theorem stacker_recomputes (name : String) (f : Table V → List V)
    (hf : ∀ t t' : Table V, t.nrows = t'.nrows → (∀ c, c ≠ name → t.get? c = t'.get? c) → f t = f t')
    (fresh : String → List V) (isNone : V → Bool) (override : Bool) (t : Table V) (h0 : t.nrows ≠ 0)
    (h : override = true ∨ name ∉ t.names ∨ ∃ v vs, t.get? name = some (v :: vs) ∧ isNone v = true) :
    ((rowStacker name f).run fresh isNone override t).get? name = some (f t) := by
  have hp : (if override then false else (addStackerCols fresh isNone [name] t).2) = false := by
    rcases h with h | h | ⟨v, vs, h, hv⟩
    · simp [h]
    · have : t.get? name = none := by
        have := mt (Table.get?_isSome t name).mp h
        simpa using this
      simp [addStackerCols, this]
    · simp [addStackerCols, h, hv]
  unfold Stacker.run
  rw [if_neg h0]
  show ((rowStacker name f).body (addStackerCols fresh isNone [name] t).1
    (if override then false else (addStackerCols fresh isNone [name] t).2)).get? name = _
  rw [hp]
  show ((addStackerCols fresh isNone [name] t).1.set name (f (addStackerCols fresh isNone [name] t).1)).get? name = _
  have hin : name ∈ (addStackerCols fresh isNone [name] t).1.names := by
    by_cases hn : name ∈ t.names
    · simp only [addStackerCols, Table.names, List.map_append]
      exact List.mem_append_left _ hn
    · simp [addStackerCols, Table.names, List.filter_cons, show ¬ name ∈ t.cols.map Prod.fst from hn]
  rw [Table.get?_set_self _ _ _ hin]
  congr 1
  apply hf
  · rfl
  · intro c hc
    apply Table.get?_append_right
    intro x hx e
    obtain ⟨y, hy, rfl⟩ := List.mem_map.mp hx
    have := (List.mem_filter.mp hy).1
    rw [List.mem_singleton] at this
    exact hc (by rw [← e, ← this])

end Base

section General
variable {K : Type*} [Field K] [LinearOrder K] [IsStrictOrderedRing K]

omit [LinearOrder K] [IsStrictOrderedRing K] in
/-- **C16.** A zenith distance column of the input does not survive `override`. -/
theorem zenith_override (altCol : String) (ha : altCol ≠ "zenithDistance") (fresh : String → List K) (isNone : K → Bool)
    (t : Table K) (h0 : t.nrows ≠ 0) (alt : List K) (halt : t.get? altCol = some alt) :
    ((zenithStacker altCol).run fresh isNone true t).get? "zenithDistance" = some (alt.map (fun a => 90 - a)) := by
  have := stacker_recomputes (V := K) "zenithDistance" (fun t => ((t.get? altCol).getD []).map (fun a => 90 - a))
    (fun t t' _ h => by simp only [h altCol ha]) fresh isNone true t h0 (Or.inl rfl)
  rw [show zenithStacker altCol = rowStacker "zenithDistance" (fun t : Table K => ((t.get? altCol).getD []).map (fun a => 90 - a)) from rfl,
    this, halt]
  rfl

/-- **C16** for the zenith distance and hour angle stackers (no assumption left). -/
theorem zenith_ha_wellBehaved (pi : K) (a b c : String) :
    WellBehaved (zenithStacker (K := K) a) ∧ WellBehaved (haStacker pi b c) :=
  ⟨rowStacker_wellBehaved _ _, rowStacker_wellBehaved _ _⟩

/-- **C45.** For LST and RA in degrees within `[0, 360]` the hour angle is within
`[-12, 12]` hours and equals `(LST - RA)/15` up to a whole day of 24 hours. -/
theorem hourAngle_range (pi : K) (hpi : 0 < pi) (lst ra : K) (hl : 0 ≤ lst ∧ lst ≤ 360)
    (hr : 0 ≤ ra ∧ ra ≤ 360) :
    let h := hourAngle pi (radians pi lst) (radians pi ra)
    h ≤ 12 ∧ -12 ≤ h ∧ ∃ k : ℤ, h = (lst - ra) / 15 + 24 * k := by
  intro h
  have hd : radians pi lst - radians pi ra = (lst - ra) / 180 * pi := by
    unfold radians; ring
  have hne : pi ≠ 0 := ne_of_gt hpi
  have key : ∀ x : K, x * pi * 12 / pi = x * 12 := by
    intro x; field_simp
  have lt1 : ∀ x : K, (x * pi < -pi ↔ x < -1) := by
    intro x
    rw [show -pi = (-1) * pi by ring]
    exact mul_lt_mul_iff_of_pos_right hpi
  have lt2 : ∀ x : K, (x * pi > pi ↔ x > 1) := by
    intro x
    show pi < x * pi ↔ _
    conv_lhs => lhs; rw [← one_mul pi]
    exact mul_lt_mul_iff_of_pos_right hpi
  have hval : h = (if (lst - ra) / 180 < -1 then (lst - ra) / 180 + 2 else
      if (lst - ra) / 180 > 1 then (lst - ra) / 180 - 2 else (lst - ra) / 180) * 12 := by
    show hourAngle _ _ _ = _
    unfold hourAngle
    simp only [hd]
    by_cases h1 : (lst - ra) / 180 < -1
    · rw [if_pos ((lt1 _).mpr h1), if_pos h1]
      have e : (lst - ra) / 180 * pi + 2 * pi = ((lst - ra) / 180 + 2) * pi := by ring
      rw [e, if_neg (by rw [lt2]; linarith), key]
    · simp only [if_neg (mt (lt1 _).mp h1), if_neg h1]
      by_cases h2 : (lst - ra) / 180 > 1
      · rw [if_pos ((lt2 _).mpr h2), if_pos h2]
        have e : (lst - ra) / 180 * pi - 2 * pi = ((lst - ra) / 180 - 2) * pi := by ring
        rw [e, key]
      · rw [if_neg (mt (lt2 _).mp h2), if_neg h2, key]
  have hb1 : -2 ≤ (lst - ra) / 180 := by
    rw [le_div_iff₀ (by norm_num)]; linarith [hl.1, hr.2]
  have hb2 : (lst - ra) / 180 ≤ 2 := by
    rw [div_le_iff₀ (by norm_num)]; linarith [hl.2, hr.1]
  rw [hval]
  by_cases h1 : (lst - ra) / 180 < -1
  · rw [if_pos h1]
    refine ⟨by linarith, by linarith, 1, by push_cast; ring⟩
  · rw [if_neg h1]
    by_cases h2 : (lst - ra) / 180 > 1
    · rw [if_pos h2]
      exact ⟨by linarith, by linarith, -1, by push_cast; ring⟩
    · rw [if_neg h2]
      push Not at h1 h2
      exact ⟨by linarith, by linarith, 0, by push_cast; ring⟩

/-- Examples for C45 (`pi` is any positive number in the formula). -/
example : hourAngle (K := ℚ) 3 (radians 3 10) (radians 3 350) = 4/3 ∧
    hourAngle (K := ℚ) 3 (radians 3 350) (radians 3 10) = -4/3 ∧
    hourAngle (K := ℚ) 3 (radians 3 0) (radians 3 180) = -12 := by decide +kernel

/-- **C46**, refutation: the parallactic angle stacker declares only "PA" but also
adds the column "HA". -/
theorem pa_adds_undeclared_column (pi : K) (fresh : String → List K) (isNone : K → Bool) (pa : K → K → K)
    (l r d : String) (override : Bool) (t : Table K) (h0 : t.nrows ≠ 0) (hPA : "PA" ∉ t.names)
    (_hHA : "HA" ∉ t.names) :
    "HA" ∈ ((paStacker pi fresh isNone pa l r d).run fresh isNone override t).names ∧
    "HA" ∉ (paStacker pi fresh isNone pa l r d).colsAdded := by
  refine ⟨?_, by simp [paStacker]⟩
  have hget : t.get? "PA" = none := by
    rw [← Option.not_isSome_iff_eq_none, Table.get?_isSome]
    exact hPA
  have hpres : (addStackerCols fresh isNone ["PA"] t).2 = false := by
    simp [addStackerCols, hget]
  unfold Stacker.run
  rw [if_neg h0]
  simp only [paStacker, hpres, ite_self, Bool.false_eq_true, if_false]
  rw [Table.names_set]
  set t1 := (addStackerCols fresh isNone ["PA"] t).1 with ht1
  have hn0 : t1.nrows ≠ 0 := h0
  have := (stacker_run_frame (haStacker pi l r) (zenith_ha_wellBehaved pi l l r).2 fresh isNone false t1).2.1 hn0
  rw [this]
  by_cases hm : "HA" ∈ t1.names
  · exact List.mem_append_left _ hm
  · apply List.mem_append_right
    simp [haStacker, rowStacker, hm]

/-- **C46**, refutation: even when asked to recalculate (`override=True`), the
parallactic angle is computed from an "HA" column that happens to be in the
table, whatever the LST and RA columns say. -/
theorem pa_uses_stale_ha (pi : K) (fresh : String → List K) (isNone : K → Bool) (pa : K → K → K)
    (l r d : String) (hd : d ≠ "PA") (t : Table K) (h0 : t.nrows ≠ 0) (v : K) (vs : List K)
    (hHA : t.get? "HA" = some (v :: vs)) (hv : isNone v = false) (dec : List K) (hdec : t.get? d = some dec) :
    ((paStacker pi fresh isNone pa l r d).run fresh isNone true t).get? "PA" =
      some (List.zipWith pa (v :: vs) dec) := by
  unfold Stacker.run
  rw [if_neg h0]
  simp only [paStacker, if_true, Bool.false_eq_true, if_false]
  set t1 := (addStackerCols fresh isNone ["PA"] t).1 with ht1
  have hg : ∀ c, c ≠ "PA" → t1.get? c = t.get? c := by
    intro c hc
    apply Table.get?_append_right
    intro x hx e
    obtain ⟨y, hy, rfl⟩ := List.mem_map.mp hx
    have := (List.mem_filter.mp hy).1
    simp at this
    simp only at e
    exact hc (e ▸ this)
  have hsame : (haStacker pi l r).run fresh isNone false t1 = t1 := by
    apply (stacker_run_frame (haStacker pi l r) (zenith_ha_wellBehaved pi l l r).2 fresh isNone false t1).2.2.2.2.2 rfl
    intro c hc
    simp [haStacker, rowStacker] at hc
    subst hc
    exact ⟨v, vs, by rw [hg _ (by decide), hHA], hv⟩
  rw [hsame, Table.get?_set_self, hg "HA" (by decide), hHA, hg d hd, hdec]
  · rfl
  · have : t1.names = t.names ++ ["PA"].filter (fun c => !t.names.contains c) := by
      simp only [ht1, addStackerCols, Table.names, List.map_append, List.map_map]
      rw [show (Prod.fst ∘ fun c => (c, fresh c)) = id from rfl, List.map_id]
    rw [this]
    by_cases hm : "PA" ∈ t.names
    · exact List.mem_append_left _ hm
    · apply List.mem_append_right
      simp [hm]

/-- Example for C46: HA says 5, LST − RA would give 0. -/
example : ((paStacker (K := ℚ) 3 (fun _ => [0]) (fun _ => false) (fun ha _ => ha) "lst" "ra" "dec").run
    (fun _ => [0]) (fun _ => false) true ⟨1, [("lst", [10]), ("ra", [10]), ("dec", [1]), ("HA", [5])]⟩).get? "PA" =
    some [5] := by decide +kernel

/-- End of a visit in days. -/
def OverheadRow.end_ (x : OverheadRow K) : K := x.mjd + x.visitTime / (24 * 60 * 60)

/-- **C47.** For any list of visits: the first overhead is NaN; the overhead of
visit `i+1` is NaN exactly when the night changes from visit `i` or the gap
exceeds `max_gap` minutes; otherwise it is the time from the end of visit `i` to
the end of visit `i+1` minus the exposure time, in seconds. -/
theorem overhead_spec (maxGap : Option K) (rows : List (OverheadRow K)) :
    (overhead maxGap rows).length = rows.length ∧
    (∀ h : 0 < rows.length, (overhead maxGap rows)[0]? = some none) ∧
    ∀ i (hi : i + 1 < rows.length),
      (overhead maxGap rows)[i + 1]? = some (
        let o := (rows[i + 1].end_ - rows[i].end_) * 86400 - rows[i + 1].expTime
        if rows[i + 1].dayObs ≠ rows[i].dayObs then none
        else if ∃ g, maxGap = some g ∧ o > g * 60 then none
        else some o) := by
  have haux : ∀ (rs : List (OverheadRow K)) (p : OverheadRow K), (overheadAux maxGap p rs).length = rs.length := by
    intro rs
    induction rs with
    | nil => intro p; rfl
    | cons r rs ih => intro p; simp [overheadAux, ih]
  have hget : ∀ (rs : List (OverheadRow K)) (p : OverheadRow K) (i : Nat) (hi : i + 1 < (p :: rs).length),
      (overheadAux maxGap p rs)[i]? = some (
        let o := ((p :: rs)[i + 1].end_ - (p :: rs)[i].end_) * 86400 - (p :: rs)[i + 1].expTime
        if (p :: rs)[i + 1].dayObs ≠ (p :: rs)[i].dayObs then none
        else if ∃ g, maxGap = some g ∧ o > g * 60 then none
        else some o) := by
    intro rs
    induction rs with
    | nil => intro p i hi; simp at hi
    | cons r rs ih =>
      intro p i hi
      cases i with
      | zero =>
        simp only [overheadAux, List.getElem?_cons_zero, List.getElem_cons_zero,
          List.getElem_cons_succ, OverheadRow.end_]
        congr 1
        have e : (r.mjd + r.visitTime / (24 * 60 * 60) - (p.mjd + p.visitTime / (24 * 60 * 60))) * 24 * 60 * 60
            - r.expTime = (r.mjd + r.visitTime / (24 * 60 * 60) - (p.mjd + p.visitTime / (24 * 60 * 60))) * 86400
            - r.expTime := by ring
        rw [e]
        by_cases hd : r.dayObs = p.dayObs
        · simp only [hd, sub_self, ne_eq, not_true, if_false]
          cases maxGap with
          | none => simp
          | some g => simp
        · have : r.dayObs - p.dayObs ≠ 0 := by omega
          simp [hd, this]
      | succ i =>
        exact ih r i (by simpa using hi)
  cases rows with
  | nil => simp [overhead]
  | cons r rs =>
    refine ⟨by simp [overhead, haux], fun _ => rfl, ?_⟩
    intro i hi
    exact hget rs r i hi

/-- **C47**, accounting: over consecutive visits of one night with no gap above
`max_gap` (all overheads defined), overheads plus exposure times add up to the
elapsed time between the ends of the first and the last visit. -/
theorem overhead_accounts (maxGap : Option K) :
    ∀ (rs : List (OverheadRow K)) (p : OverheadRow K) (os : List K),
      overhead maxGap (p :: rs) = none :: os.map some →
      os.sum + (rs.map OverheadRow.expTime).sum =
        (((p :: rs).getLast (by simp)).end_ - p.end_) * 86400 := by
  have key : ∀ (rs : List (OverheadRow K)) (p : OverheadRow K) (os : List K),
      overheadAux maxGap p rs = os.map some →
      os.sum + (rs.map OverheadRow.expTime).sum =
        (((p :: rs).getLast (by simp)).end_ - p.end_) * 86400 := by
    intro rs
    induction rs with
    | nil =>
      intro p os h
      have : os = [] := by
        simpa [overheadAux] using h.symm
      subst this
      simp
    | cons r rs ih =>
      intro p os h
      cases os with
      | nil => simp [overheadAux] at h
      | cons o os =>
        simp only [overheadAux, List.map_cons, List.cons.injEq] at h
        obtain ⟨h1, h2⟩ := h
        have ih' := ih r os h2
        have ho : o = (r.end_ - p.end_) * 86400 - r.expTime := by
          have e : (r.mjd + r.visitTime / (24 * 60 * 60) - (p.mjd + p.visitTime / (24 * 60 * 60))) * 24 * 60 * 60
            - r.expTime = (r.end_ - p.end_) * 86400 - r.expTime := by
              unfold OverheadRow.end_; ring
          rw [e] at h1
          split at h1
          · simp at h1
          · cases maxGap with
            | none => simpa using h1.symm
            | some g =>
              simp only at h1
              split at h1
              · simp at h1
              · simpa using h1.symm
        rw [List.sum_cons, List.map_cons, List.sum_cons,
          show (p :: r :: rs).getLast (by simp) = (r :: rs).getLast (by simp) from List.getLast_cons (by simp)]
        rw [ho]
        linarith
  intro rs p os h
  simp only [overhead, List.cons.injEq, true_and] at h
  exact key rs p os h

/-- Example for C47: three visits in one night, then one the next night. -/
example : overhead (K := ℚ) (some 10) [⟨0, 34, 30, 0⟩, ⟨1/2160, 34, 30, 0⟩, ⟨1/1080, 34, 30, 0⟩, ⟨1, 34, 30, 1⟩] =
    [none, some 10, some 10, none] := by decide +kernel

/-- C48 as promised: the saturation magnitude of a visit is NaN only if its own
sky saturates the detector. -/
def SaturationNaNOnlyOwn {n : Nat} (neg : Fin n → Bool) (sat : Fin n → Option K) : Prop :=
  ∀ r, sat r = none ↔ neg r = true

theorem saturation_invariant {n : Nat} (filt : Fin n → Nat) (mag : Fin n → Option K) (neg : Fin n → Bool)
    (hmag : ∀ r, mag r = none ↔ neg r = true) (fs : List Nat) :
    ∀ (sat : Fin n → Option K) (r : Fin n), (filt r ∈ fs ∨ (neg r = true → sat r = none)) → neg r = true →
      (fs.foldl (saturationPass filt mag neg) sat) r = none := by
  induction fs with
  | nil =>
    intro sat r h hn
    rcases h with h | h
    · simp at h
    · exact h hn
  | cons f fs ih =>
    intro sat r h hn
    rw [List.foldl_cons]
    apply ih _ r _ hn
    by_cases hf : filt r = f
    · right
      intro _
      unfold saturationPass
      simp only [hf, if_true, (hmag r).mpr hn, ite_self]
    · rcases h with h | h
      · left
        rcases List.mem_cons.mp h with h | h
        · exact absurd h hf
        · exact h
      · right
        intro _
        unfold saturationPass
        simp only [hf, if_false, h hn, ite_self]

/-- **C48**, what holds: a visit whose sky saturates always gets NaN, and in a
table with visits of one filter only, no other visit does. Missing: with several
filters other visits are overwritten with NaN (`saturation_wrong_row`). -/
theorem saturation_nan_partial {n : Nat} (filt : Fin n → Nat) (mag : Fin n → Option K) (neg : Fin n → Bool)
    (hmag : ∀ r, mag r = none ↔ neg r = true) (garbage : Fin n → Option K) (fs : List Nat)
    (hfs : ∀ r, filt r ∈ fs) :
    (∀ r, neg r = true → saturation fs filt mag neg garbage r = none) ∧
    ((∀ r r', filt r = filt r') → fs.Nodup → (∀ f ∈ fs, ∃ r, filt r = f) →
      SaturationNaNOnlyOwn neg (saturation fs filt mag neg garbage)) := by
  refine ⟨fun r hn => saturation_invariant filt mag neg hmag fs garbage r (Or.inl (hfs r)) hn, ?_⟩
  intro hone hnd hex r
  have hf : fs = [filt r] := by
    cases fs with
    | nil => exact absurd (hfs r) (by simp)
    | cons f l =>
      obtain ⟨r1, h1⟩ := hex f (by simp)
      have e1 : f = filt r := by rw [← h1]; exact hone r1 r
      cases l with
      | nil => rw [e1]
      | cons g l =>
        obtain ⟨r2, h2⟩ := hex g (by simp)
        have e2 : g = filt r := by rw [← h2]; exact hone r2 r
        rw [e1, e2] at hnd
        simp at hnd
  unfold saturation
  rw [hf, List.foldl_cons, List.foldl_nil]
  unfold saturationPass
  have hall : (List.finRange n).filter (fun x => filt x == filt r) = List.finRange n := by
    rw [List.filter_eq_self]
    intro x _
    simpa using hone x r
  have hg : (List.finRange n)[r.1]? = some r := by
    rw [List.getElem?_eq_getElem (by simp)]
    simp
  simp only [hall, List.mem_filter, List.mem_range, List.length_finRange, r.2, true_and, hg]
  by_cases hn : neg r = true
  · simp [hn]
  · simp only [hn, Bool.false_eq_true, if_false, if_true, iff_false]
    rw [hmag r]
    simpa using hn

/-- **C48**, refutation: visit 1 (filter 1) has a saturated sky, so the NaN is
written to visit 0 (filter 0), whose magnitude was fine. -/
theorem saturation_wrong_row :
    ¬ ∀ (filt : Fin 2 → Nat) (mag : Fin 2 → Option ℚ) (neg : Fin 2 → Bool)
      (_ : ∀ r, mag r = none ↔ neg r = true) (_ : ∀ r, filt r ∈ [0, 1]),
      SaturationNaNOnlyOwn neg (saturation [0, 1] filt mag neg (fun _ => some 0)) := by
  intro h
  have := (h ![0, 1] ![some 17, none] ![false, true] (by decide) (by decide) 0).mp (by decide +kernel)
  simp at this

end General

section NFollow
variable {K : Type*} [LE K] [DecidableLE K] [One K]

/-- The number of telescopes at `(lat, lon)` for which some time step has an
airmass within `[1, limit]`. -/
def followCount (airmass : K → K → K → K) (limit : K) (steps : List K) (telescopes : List (K × K)) : Nat :=
  telescopes.countP (fun o => decide (∃ s ∈ steps, 1 ≤ airmass o.1 o.2 s ∧ airmass o.1 o.2 s ≤ limit))

/-- **C49**, what holds: the stacker counts each telescope at most once, namely
those that can follow up when latitude and longitude are exchanged. Missing: the
exchange itself; the documented count is refuted by `nFollow_swapped`. -/
theorem nFollow_partial (airmass : K → K → K → K) (limit : K) (steps : List K) (telescopes : List (K × K)) :
    nFollow airmass limit steps telescopes =
      followCount (fun lat lon s => airmass lon lat s) limit steps telescopes := by
  have hin : ∀ (o : K × K) (ss : List K) (g : Nat), ss.foldl (fun g step =>
      if airmass o.2 o.1 step ≤ limit ∧ airmass o.2 o.1 step ≥ 1 then 1 else g) g =
      if ∃ s ∈ ss, 1 ≤ airmass o.2 o.1 s ∧ airmass o.2 o.1 s ≤ limit then 1 else g := by
    intro o ss
    induction ss with
    | nil => intro g; simp
    | cons s ss ih =>
      intro g
      rw [List.foldl_cons, ih]
      by_cases h1 : ∃ s ∈ ss, 1 ≤ airmass o.2 o.1 s ∧ airmass o.2 o.1 s ≤ limit
      · have h2 : ∃ x ∈ s :: ss, 1 ≤ airmass o.2 o.1 x ∧ airmass o.2 o.1 x ≤ limit := by
          obtain ⟨x, hx, h⟩ := h1
          exact ⟨x, List.mem_cons_of_mem _ hx, h⟩
        rw [if_pos h1, if_pos h2]
      · rw [if_neg h1]
        by_cases h3 : airmass o.2 o.1 s ≤ limit ∧ airmass o.2 o.1 s ≥ 1
        · rw [if_pos h3, if_pos ⟨s, List.mem_cons_self, h3.2, h3.1⟩]
        · rw [if_neg h3, if_neg]
          rintro ⟨x, hx, h⟩
          rcases List.mem_cons.mp hx with rfl | hx
          · exact h3 ⟨h.2, h.1⟩
          · exact h1 ⟨x, hx, h⟩
  have hout : ∀ (ts : List (K × K)) (acc : Nat), ts.foldl (fun acc o =>
      let gotIt := steps.foldl (fun g step =>
        let a := airmass o.2 o.1 step
        if a ≤ limit ∧ a ≥ 1 then 1 else g) 0
      acc + gotIt) acc = acc + followCount (fun lat lon s => airmass lon lat s) limit steps ts := by
    intro ts
    induction ts with
    | nil => intro acc; simp [followCount]
    | cons o ts ih =>
      intro acc
      rw [List.foldl_cons, ih]
      simp only [hin]
      unfold followCount
      rw [List.countP_cons]
      by_cases h : ∃ s ∈ steps, 1 ≤ airmass o.2 o.1 s ∧ airmass o.2 o.1 s ≤ limit
      · simp [h]; omega
      · simp [h]
  unfold nFollow
  rw [hout]
  omega

end NFollow

/-- **C49**, refutation: an airmass that is good only for sites at latitude 0; the
site at latitude 0, longitude 1 is not counted. -/
theorem nFollow_swapped :
    ¬ ∀ (airmass : ℤ → ℤ → ℤ → ℤ) (limit : ℤ) (steps : List ℤ) (telescopes : List (ℤ × ℤ)),
      nFollow airmass limit steps telescopes = followCount airmass limit steps telescopes := by
  intro h
  have := h (fun lat _ _ => if lat = 0 then 1 else 100) 2 [0] [(0, 1)]
  revert this
  decide

/-- **C50.** The note root is the part before the first comma: it is a prefix of
the note, has no comma, and is followed by a comma or the end. -/
theorem noteRoot_spec (note : List Char) :
    ',' ∉ noteRoot note ∧ (noteRoot note = note ∨ ∃ rest, note = noteRoot note ++ ',' :: rest) := by
  refine ⟨?_, ?_⟩
  · unfold noteRoot
    induction note with
    | nil => simp
    | cons c l ih =>
      by_cases hc : c = ','
      · simp [hc]
      · simp only [List.takeWhile_cons, ne_eq, hc, not_false_eq_true, decide_true, if_true,
          List.mem_cons, not_or]
        exact ⟨fun e => hc e.symm, ih⟩
  · unfold noteRoot
    induction note with
    | nil => left; rfl
    | cons c l ih =>
      by_cases hc : c = ','
      · subst hc
        right
        exact ⟨l, by simp⟩
      · have e : (c :: l).takeWhile (· ≠ ',') = c :: l.takeWhile (· ≠ ',') := by simp [hc]
        rw [e]
        rcases ih with h | ⟨rest, h⟩
        · left; rw [h]
        · right
          exact ⟨rest, by rw [List.cons_append, ← h]⟩

/-- **C50**: the stored root is exact for roots of at most 50 characters, and any
two notes whose roots agree on the first 50 characters become indistinguishable. -/
theorem noteRootStored_spec (note : List Char) :
    ((noteRoot note).length ≤ 50 → noteRootStored note = noteRoot note) ∧
    (∀ note', (noteRoot note).take 50 = (noteRoot note').take 50 → noteRootStored note = noteRootStored note') :=
  ⟨fun h => List.take_of_length_le h, fun _ h => h⟩

example : String.ofList (noteRootStored "pair_33, gr, a".toList) = "pair_33" := by decide +kernel

end Verif.Stackers
