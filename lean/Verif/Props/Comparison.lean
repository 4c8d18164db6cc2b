import Verif.Model.Comparison
import Mathlib.Tactic.Linarith
import Mathlib.Tactic.FieldSimp
import Mathlib.Tactic.Ring
import Mathlib.Tactic.NormNum
import Mathlib.Data.List.Dedup
import Mathlib.Data.List.Induction
import Mathlib.Data.Rat.Floor

/-!
# Comparison of runs: C280–C283
-/

namespace Verif.Cmp

/-! ## C280: normalised tables -/

theorem freshName_prefix (used : List Str) (fuel : ℕ) (s : Str) : ∃ k ≤ fuel, freshName used fuel s = s ++ List.replicate k 'b' ∧
    (∀ j < k, s ++ List.replicate j 'b' ∈ used) ∧ (k < fuel → freshName used fuel s ∉ used) := by
  induction fuel generalizing s with
  | zero => exact ⟨0, le_rfl, by simp [freshName], by simp, by simp⟩
  | succ fuel ih =>
    unfold freshName
    split_ifs with h
    · obtain ⟨k, hk, he, hj, hn⟩ := ih (s ++ ['b'])
      refine ⟨k + 1, by omega, ?_, ?_, fun hl => hn (by omega)⟩
      · rw [he]; simp [List.replicate_succ]
      · intro j hj'
        cases j with
        | zero => simpa using h
        | succ j =>
          have := hj j (by omega)
          simpa [List.replicate_succ] using this
    · exact ⟨0, by omega, by simp, by simp, fun _ => h⟩

/-- The name of the reference is not that of a run, whatever the names of the runs are. -/
theorem freshName_fresh (used : List Str) (s : Str) : freshName used used.length s ∉ used := by
  obtain ⟨k, hk, he, hj, hn⟩ := freshName_prefix used used.length s
  rcases Nat.lt_or_eq_of_le hk with h | h
  · exact hn h
  · intro hin
    have hall : ∀ j ≤ k, s ++ List.replicate j 'b' ∈ used := by
      intro j hjk
      rcases Nat.lt_or_eq_of_le hjk with h1 | h1
      · exact hj j h1
      · subst h1; rw [← he]; exact hin
    have hnd : ((List.range (k + 1)).map (fun j => s ++ List.replicate j 'b')).Nodup := by
      refine List.Nodup.map ?_ List.nodup_range
      intro a b hab
      have := congrArg List.length hab
      simpa using this
    have hsub : ((List.range (k + 1)).map (fun j => s ++ List.replicate j 'b')).Subperm used := by
      refine List.subperm_of_subset hnd ?_
      intro x hx
      obtain ⟨j, hj2, rfl⟩ := List.mem_map.mp hx
      exact hall j (by have := List.mem_range.mp hj2; omega)
    have := hsub.length_le
    simp at this
    omega

section
variable {K : Type} [Field K] [LinearOrder K]

theorem lookup_map_val {A B C : Type} [BEq A] (l : List (A × B)) (g : B → C) (a : A) :
    (l.map (fun r => (r.1, g r.2))).lookup a = (l.lookup a).map g := by
  induction l with
  | nil => rfl
  | cons e l ih =>
    obtain ⟨k, v⟩ := e
    rw [List.map_cons, List.lookup_cons, List.lookup_cons]
    cases a == k <;> simp [ih]

theorem lookup_index {B : Type} (l : List Str) (g : Str → B) (r : Str) (h : r ∈ l) : (l.map (fun r => (r, g r))).lookup r = some (g r) := by
  induction l with
  | nil => simp at h
  | cons a l ih =>
    rw [List.map_cons, List.lookup_cons]
    by_cases hra : r = a
    · subst hra; simp
    · rw [show (r == a) = false by simpa using hra]
      exact ih (by simpa [hra] using h)

theorem lookup_index_none {B : Type} (l : List Str) (g : Str → B) (r : Str) (h : r ∉ l) : (l.map (fun r => (r, g r))).lookup r = none := by
  rw [List.lookup_eq_none_iff]
  intro e he
  obtain ⟨a, ha, rfl⟩ := List.mem_map.mp he
  simp
  rintro rfl
  exact h ha

/-- The value of the reference: that of the run, or the median of those of the runs that have a number. -/
def refVal (f : Frame K) (b : Baseline) (m : Str) : Option K :=
  match b with
  | .one r => first f r m
  | .many rs => Area.median (rs.filterMap (fun r => first f r m))

/-- Runs of the reference. -/
def refRuns : Baseline → List Str
  | .one r => [r]
  | .many rs => rs

theorem reference_ok (f : Frame K) (b : Baseline) (h : ∀ r ∈ refRuns b, r ∈ f.index) :
    reference (f.index.map (fun r => (r, first f r))) b = some (refVal f b) := by
  cases b with
  | one r =>
    unfold reference
    dsimp only
    rw [lookup_index _ _ _ (h r (by simp [refRuns]))]
    rfl
  | many rs =>
    unfold reference
    dsimp only
    rw [if_pos]
    · congr 1
      funext m
      unfold refVal
      congr 1
      apply List.filterMap_congr
      intro r hr
      rw [lookup_index _ _ _ (h r hr)]
      rfl
    · rw [List.all_eq_true]
      intro r hr
      rw [lookup_index _ _ _ (h r hr)]
      rfl

theorem reference_missing (f : Frame K) (b : Baseline) (r : Str) (hr : r ∈ refRuns b) (h : r ∉ f.index) :
    reference (f.index.map (fun r => (r, first f r))) b = none := by
  cases b with
  | one r' =>
    simp [refRuns] at hr
    subst hr
    unfold reference
    exact lookup_index_none _ _ _ h
  | many rs =>
    unfold reference
    dsimp only
    rw [if_neg]
    intro hall
    have := List.all_eq_true.mp hall r hr
    rw [lookup_index_none _ _ _ h] at this
    simp at this

/-- A baseline that is not among the runs is an exception. -/
theorem normalize_missing (b : Baseline) (f : Frame K) (subsets : Option (List (Str × Bool × Bool))) (r : Str) (hr : r ∈ refRuns b) (h : r ∉ f.index) :
    normalize b f subsets = .error "KeyError" := by
  unfold normalize
  dsimp only
  rw [reference_missing f b r hr h]

theorem lookup_append {B : Type} (l : List (Str × B)) (n r : Str) (v : B) : (l ++ [(n, v)]).lookup r = (l.lookup r).or (if r = n then some v else none) := by
  induction l with
  | nil =>
    by_cases h : r = n
    · subst h; simp
    · rw [List.nil_append, List.lookup_cons, show (r == n) = false by simpa using h]; simp [h]
  | cons e l ih =>
    obtain ⟨k, w⟩ := e
    rw [List.cons_append, List.lookup_cons, List.lookup_cons]
    cases r == k <;> simp [ih]

/-- The table in general: rows and columns in the order of the summary, and each value is that of its run and metric and of
the reference, put together. -/
theorem normalize_cells (b : Baseline) (f : Frame K) (subsets : Option (List (Str × Bool × Bool))) (h : ∀ r ∈ refRuns b, r ∈ f.index) :
    normalize b f subsets = .ok (f.index.map (fun r => (usedMetrics f subsets).map (fun m =>
      lift2 (fun x n => 1 + (x - n) / n) (direct (flags subsets m).1 (flags subsets m).2 (refVal f b m) (first f r m))
        (direct (flags subsets m).1 (flags subsets m).2 (refVal f b m) (refVal f b m))))) := by
  have hfresh := freshName_fresh f.index "bbb".toList
  unfold normalize
  dsimp only
  rw [reference_ok f b h]
  dsimp only
  generalize freshName f.index f.index.length "bbb".toList = name at hfresh
  have hset : setRow (f.index.map (fun r => (r, first f r))) name (refVal f b) = f.index.map (fun r => (r, first f r)) ++ [(name, refVal f b)] := by
    unfold setRow
    rw [if_neg]
    simpa using hfresh
  have hname : (f.index.map (fun r => (r, first f r)) ++ [(name, refVal f b)]).lookup name = some (refVal f b) := by
    rw [lookup_append, lookup_index_none _ _ _ hfresh]; simp
  have hrun : ∀ r ∈ f.index, (f.index.map (fun r => (r, first f r)) ++ [(name, refVal f b)]).lookup r = some (first f r) := by
    intro r hr
    rw [lookup_append, lookup_index _ _ _ hr]; rfl
  rw [hset]
  congr 1
  apply List.map_congr_left
  intro r hr
  apply List.map_congr_left
  intro m _
  have hm : ∀ (l : List (Str × Row K)) (g : Row K → Row K) a, (l.map (fun r => (r.1, g r.2))).lookup a = (l.lookup a).map g := fun l g a => lookup_map_val l g a
  let L : List (Str × Row K) := f.index.map (fun r => (r, first f r)) ++ [(name, refVal f b)]
  let D : Row K → Row K := fun w m => direct (flags subsets m).1 (flags subsets m).2 ((L.lookup name).bind (fun row => row m)) (w m)
  let G : Row K → Row K := fun w m => lift2 (fun x n => 1 + (x - n) / n) (w m) (((L.map (fun r => (r.1, D r.2))).lookup name).bind (fun row => row m))
  have hb : (L.map (fun r => (r.1, D r.2))).lookup name = some (D (refVal f b)) := by rw [hm, hname]; rfl
  have hL : L.lookup name = some (refVal f b) := hname
  have hg : ((L.map (fun r => (r.1, D r.2))).map (fun r => (r.1, G r.2))).lookup r = some (G (D (first f r))) := by rw [hm, hm, hrun r hr]; rfl
  show (((L.map (fun r => (r.1, D r.2))).map (fun r => (r.1, G r.2))).lookup r).bind (fun row => row m) = _
  rw [hg]
  show lift2 _ (D (first f r) m) (((L.map (fun r => (r.1, D r.2))).lookup name).bind (fun row => row m)) = _
  rw [hb]
  show lift2 _ (direct _ _ ((L.lookup name).bind (fun row => row m)) _) (direct _ _ ((L.lookup name).bind (fun row => row m)) _) = _
  rw [hL]
  rfl

/-- The documented values: the ratio, the inverse ratio, or the difference in magnitudes with its sign. -/
def ratio (invert mag : Bool) (x n : K) : K :=
  match invert, mag with
  | false, false => x / n
  | true, false => n / x
  | false, true => 1 + (x - n)
  | true, true => 1 + (n - x)

/-- Each value that is a number is the documented one, if nothing is divided by zero. -/
theorem normalize_value (invert mag : Bool) (x n : K) (hn : mag = false → n ≠ 0) (hx : invert = true → mag = false → x ≠ 0) :
    lift2 (fun x n => 1 + (x - n) / n) (direct invert mag (some n) (some x)) (direct invert mag (some n) (some n)) = some (ratio invert mag x n) := by
  cases invert <;> cases mag
  · have := hn rfl
    simp only [direct, lift2, ratio]; congr 1; field_simp; ring
  · simp only [direct, lift2, ratio]; congr 1; simp
  · have h1 := hn rfl
    have h2 := hx rfl rfl
    simp only [direct, lift2, ratio, Option.map_some]; congr 1; field_simp; ring
  · simp only [direct, lift2, ratio]; congr 1; simp

/-- The whole table: position by position. -/
theorem normalize_spec (b : Baseline) (f : Frame K) (subsets : Option (List (Str × Bool × Bool))) (h : ∀ r ∈ refRuns b, r ∈ f.index) :
    ∃ out, normalize b f subsets = .ok out ∧ out.length = f.index.length ∧ ∀ (i : ℕ) r, f.index[i]? = some r → ∃ row, out[i]? = some row ∧
      row.length = (usedMetrics f subsets).length ∧ ∀ (j : ℕ) m x n, (usedMetrics f subsets)[j]? = some m → first f r m = some x → refVal f b m = some n →
        ((flags subsets m).2 = false → n ≠ 0) → ((flags subsets m).1 = true → (flags subsets m).2 = false → x ≠ 0) →
        row[j]? = some (some (ratio (flags subsets m).1 (flags subsets m).2 x n)) := by
  refine ⟨_, normalize_cells b f subsets h, by simp, fun i r hr => ?_⟩
  rw [List.getElem?_map, hr]
  refine ⟨_, rfl, by simp, fun j m x n hm hx hn h1 h2 => ?_⟩
  rw [List.getElem?_map, hm, Option.map_some, hx, hn, normalize_value _ _ _ _ h1 h2]

/-- The baseline itself is one everywhere. -/
theorem normalize_base {K : Type} [Field K] (invert mag : Bool) (n : K) (hn : n ≠ 0) : ratio invert mag n n = 1 := by
  cases invert <;> cases mag <;> simp [ratio, hn]

variable [IsStrictOrderedRing K]

/-- Above one is better: larger, or smaller if inverted, for values above zero. -/
theorem better_partial (invert mag : Bool) (x n : K) (hn : 0 < n) (hx : 0 < x) : 1 < ratio invert mag x n ↔ if invert then x < n else n < x := by
  cases invert <;> cases mag <;> simp only [ratio, Bool.false_eq_true, if_false, if_true]
  · rw [lt_div_iff₀ hn, one_mul]
  · constructor <;> intro h <;> linarith
  · rw [lt_div_iff₀ hx, one_mul]
  · constructor <;> intro h <;> linarith

/-- ... and for baselines below zero it is the reverse. -/
theorem worse_negative (x n : K) (hn : n < 0) : 1 < ratio false false x n ↔ x < n := by
  simp only [ratio]
  rw [lt_div_iff_of_neg hn, one_mul]

end

/-- The documented meaning, for all values. -/
def BetterClaim : Prop := ∀ x n : ℚ, n ≠ 0 → (1 < ratio false false x n ↔ n < x)

theorem better_false : ¬ BetterClaim := by
  intro h
  have := h 1 (-1) (by norm_num)
  revert this
  decide +kernel

/-- `normalize_for_radar` gives the same values with `reverse` for metrics that are inverted magnitudes ... -/
theorem radar_same {K : Type} [Field K] (x n : K) (hn : n ≠ 0) (hx : x ≠ 0) :
    radarVal false false false x n = ratio false false x n ∧ radarVal false true false x n = ratio true false x n ∧
    radarVal false false true x n = ratio false true x n ∧ radarVal true false true x n = ratio true true x n := by
  refine ⟨?_, ?_, ?_, ?_⟩
  · simp only [radarVal, ratio]; simp; field_simp; ring
  · simp only [radarVal, ratio]; simp; field_simp; ring
  · simp [radarVal, ratio]
  · simp only [radarVal, ratio]; simp; ring

/-- ... but to reverse a column that is not in magnitudes changes nothing. -/
theorem radar_reverse {K : Type} [Field K] (invert : Bool) (x n : K) (hx : x ≠ 0) (hn : n ≠ 0) : radarVal true invert false x n = radarVal false invert false x n := by
  cases invert
  · simp only [radarVal, if_true, Bool.false_eq_true, if_false]
    congr 1
    rw [div_eq_div_iff (neg_ne_zero.mpr hn) hn]; ring
  · simp only [radarVal, if_true, Bool.false_eq_true, if_false]
    congr 1
    field_simp
    ring

/-- The intention of `reverse_cols`: a larger value of a reversed column is lower. -/
def ReverseClaim : Prop := ∀ x n : ℚ, 0 < n → n < x → radarVal true false false x n < 1

theorem reverse_false : ¬ ReverseClaim := by
  intro h
  have := h 2 1 (by norm_num) (by norm_num)
  revert this
  decide +kernel

/-- Repeated styles: as many as colours, in turn. -/
theorem grow_spec {A : Type} (l : List A) (n : ℕ) (h : l ≠ []) : (grow l n).length = n ∧ ∀ i < n, (grow l n)[i]? = l[i % l.length]? := by
  have hl : 0 < l.length := List.length_pos_iff.mpr h
  have hflat : ∀ k, (List.replicate k l).flatten.length = k * l.length := by intro k; simp
  have hget : ∀ k i, i < k * l.length → (List.replicate k l).flatten[i]? = l[i % l.length]? := by
    intro k
    induction k with
    | zero => intro i hi; omega
    | succ k ih =>
      intro i hi
      rw [List.replicate_succ, List.flatten_cons]
      by_cases hil : i < l.length
      · rw [List.getElem?_append_left hil, Nat.mod_eq_of_lt hil]
      · rw [List.getElem?_append_right (by omega), ih _ (by rw [Nat.succ_mul] at hi; omega), Nat.mod_eq_sub_mod (by omega : i ≥ l.length)]
  have hn : n ≤ (n + l.length - 1) / l.length * l.length := by
    have := Nat.div_add_mod (n + l.length - 1) l.length
    have := Nat.mod_lt (n + l.length - 1) hl
    rw [Nat.mul_comm]
    omega
  unfold grow
  constructor
  · rw [List.length_take, hflat]; omega
  · intro i hi
    rw [List.getElem?_take_of_lt hi, hget _ _ (by omega)]

example : normalize (.one "a".toList) (⟨["a".toList, "b".toList], ["m".toList, "n".toList], fun i j => some ((i + 1 : ℚ) * (j + 1))⟩ : Frame ℚ)
    (some [("m".toList, true, false), ("n".toList, false, true)]) = .ok [[some 1, some 1], [some (1 / 2), some 3]] := by decide +kernel

/-! ## C281: selection -/

theorem removeMissing_spec (columns req : List Str) : removeMissing columns req = req.filter (fun m => decide (m ∈ columns)) := by
  unfold removeMissing
  have key : ∀ (l pre : List Str), (∀ m ∈ pre, m ∈ columns) →
      l.foldl (fun ms m => if m ∈ columns then ms else ms.erase m) (pre ++ l) = pre ++ l.filter (fun m => decide (m ∈ columns)) := by
    intro l
    induction l with
    | nil => intro pre _; simp
    | cons m l ih =>
      intro pre hpre
      rw [List.foldl_cons]
      by_cases hm : m ∈ columns
      · rw [if_pos hm, show pre ++ m :: l = (pre ++ [m]) ++ l by simp, ih (pre ++ [m]) (by
          intro x hx
          rcases List.mem_append.mp hx with hx | hx
          · exact hpre x hx
          · simp at hx; subst hx; exact hm), List.filter_cons_of_pos (by simpa using hm)]
        simp
      · rw [if_neg hm, List.filter_cons_of_neg (by simpa using hm)]
        have hnot : m ∉ pre := fun h => hm (hpre m h)
        rw [List.erase_append_right _ hnot, List.erase_cons_head]
        exact ih pre hpre
  simpa using key req [] (by simp)

theorem expand_spec (defs : List (Str × List Str)) (names out : List Str) (h : expand defs names = some out) (x : Str) :
    x ∈ out ↔ ∃ f ∈ names, ∃ l, defs.lookup f = some l ∧ x ∈ l := by
  induction names generalizing out with
  | nil => simp [expand] at h; subst h; simp
  | cons f fs ih =>
    unfold expand at h
    cases hf : defs.lookup f with
    | none => rw [hf] at h; simp at h
    | some l =>
      cases hr : expand defs fs with
      | none => rw [hf, hr] at h; simp at h
      | some r =>
        rw [hf, hr] at h
        simp only [Option.some.injEq] at h
        subst h
        rw [List.mem_append, ih r hr]
        constructor
        · rintro (h1 | ⟨g, hg, l', hl', hx⟩)
          · exact ⟨f, by simp, l, hf, h1⟩
          · exact ⟨g, by simp [hg], l', hl', hx⟩
        · rintro ⟨g, hg, l', hl', hx⟩
          rcases List.mem_cons.mp hg with rfl | hg
          · rw [hf] at hl'; cases hl'; exact Or.inl hx
          · exact Or.inr ⟨g, hg, l', hl', hx⟩

/-- A run or metric is asked for by name or by a family. -/
def Asked (names fams : List Str) (defs : List (Str × List Str)) (x : Str) : Prop := x ∈ names ∨ ∃ f ∈ fams, ∃ l, defs.lookup f = some l ∧ x ∈ l

/-- What is selected: rows and columns asked for that are in the summary; in the order of the summary, without repetition,
if that order is asked for; everything if nothing is asked for. -/
theorem select_spec (index columns runs families metrics subsets : List Str) (famDef subDef : List (Str × List Str)) (ro mo : Bool) (rs ms : List Str)
    (h : select index columns runs families metrics subsets famDef subDef ro mo = .ok (rs, ms)) :
    (∀ r ∈ rs, r ∈ index) ∧ (∀ m ∈ ms, m ∈ columns) ∧ (ro = true → rs.Sublist index) ∧ (mo = true → ms.Sublist columns) ∧
    ((∃ r, Asked runs families famDef r) → ∀ r, (r ∈ rs ↔ r ∈ index ∧ Asked runs families famDef r)) ∧ ((¬ ∃ r, Asked runs families famDef r) → rs = index) ∧
    ((∃ m, Asked metrics subsets subDef m) → ∀ m, (m ∈ ms ↔ m ∈ columns ∧ Asked metrics subsets subDef m)) ∧ ((¬ ∃ m, Asked metrics subsets subDef m) → ms = columns) := by
  unfold select at h
  cases hf : expand famDef families with
  | none => rw [hf] at h; simp at h
  | some fr =>
    cases hs : expand subDef subsets with
    | none => rw [hf, hs] at h; simp at h
    | some sm =>
      rw [hf, hs] at h
      dsimp only at h
      have hA : ∀ r, r ∈ runs ++ fr ↔ Asked runs families famDef r := by
        intro r; rw [List.mem_append, expand_spec famDef families fr hf]; rfl
      have hB : ∀ m, m ∈ metrics ++ sm ↔ Asked metrics subsets subDef m := by
        intro m; rw [List.mem_append, expand_spec subDef subsets sm hs]; rfl
      rw [removeMissing_spec] at h
      generalize runs ++ fr = R at h hA
      generalize metrics ++ sm = M at h hB
      have h1 : (if R = [] then index else if ro = true then index.filter (fun r => decide (r ∈ R)) else R).all (fun r => decide (r ∈ index)) = true := by
        by_contra h1
        rw [if_neg h1] at h
        simp at h
      rw [if_pos h1] at h
      simp only [Except.ok.injEq, Prod.mk.injEq] at h
      obtain ⟨rfl, rfl⟩ := h
      have h1' : ∀ r ∈ (if R = [] then index else if ro = true then index.filter (fun r => decide (r ∈ R)) else R), r ∈ index := by
        intro r hr; simpa using List.all_eq_true.mp h1 r hr
      have hexA : (∃ r, Asked runs families famDef r) ↔ R ≠ [] := by
        constructor
        · rintro ⟨r, hr⟩ rfl; simpa using (hA r).mpr hr
        · intro hne; obtain ⟨r, hr⟩ := List.exists_mem_of_ne_nil _ hne; exact ⟨r, (hA r).mp hr⟩
      have hexB : (∃ r, Asked metrics subsets subDef r) ↔ M ≠ [] := by
        constructor
        · rintro ⟨r, hr⟩ rfl; simpa using (hB r).mpr hr
        · intro hne; obtain ⟨r, hr⟩ := List.exists_mem_of_ne_nil _ hne; exact ⟨r, (hB r).mp hr⟩
      refine ⟨h1', ?_, ?_, ?_, ?_, ?_, ?_, ?_⟩
      · intro m hm
        split_ifs at hm
        · exact hm
        · exact (List.mem_filter.mp hm).1
        · simpa using (List.mem_filter.mp hm).2
      · intro hro
        split_ifs
        · exact List.Sublist.refl _
        · exact List.filter_sublist
      · intro hmo
        split_ifs
        · exact List.Sublist.refl _
        · exact List.filter_sublist
      · intro hex r
        rw [hexA] at hex
        rw [← hA]
        constructor
        · intro hr
          refine ⟨h1' r hr, ?_⟩
          rw [if_neg hex] at hr
          split_ifs at hr
          · simpa using (List.mem_filter.mp hr).2
          · exact hr
        · rintro ⟨hi, hr⟩
          rw [if_neg hex]
          split_ifs
          · exact List.mem_filter.mpr ⟨hi, by simpa using hr⟩
          · exact hr
      · intro hex
        rw [hexA, not_not] at hex
        rw [if_pos hex]
      · intro hex m
        rw [hexB] at hex
        rw [← hB, if_neg hex]
        split_ifs
        · simp only [List.mem_filter, decide_eq_true_eq]
          tauto
        · simp only [List.mem_filter, decide_eq_true_eq]
          tauto
      · intro hex
        rw [hexB, not_not] at hex
        rw [if_pos hex]

/-- A run that is asked for but not in the summary is an exception in the order of families, and left out in that of the
summary. -/
theorem select_missing (index columns runs metrics : List Str) (mo : Bool) (r : Str) (hr : r ∈ runs) (hi : r ∉ index) :
    select index columns runs [] metrics [] [] [] false mo = .error "KeyError" ∧
    ∃ ms, select index columns runs [] metrics [] [] [] true mo = .ok (index.filter (fun x => decide (x ∈ runs)), ms) := by
  have hne : runs ≠ [] := List.ne_nil_of_mem hr
  constructor
  · unfold select
    simp only [expand, List.append_nil, hne, if_false, Bool.false_eq_true]
    rw [if_neg]
    intro h
    exact hi (by simpa using List.all_eq_true.mp h r hr)
  · unfold select
    simp only [expand, List.append_nil, hne, if_false, if_true]
    rw [if_pos]
    · exact ⟨_, rfl⟩
    · rw [List.all_eq_true]
      intro x hx
      simpa using (List.mem_filter.mp hx).1

/-- Each run once. -/
def OnceClaim : Prop := ∀ (index columns runs families metrics subsets : List Str) (famDef subDef : List (Str × List Str)) (ro mo : Bool) (rs ms : List Str),
  index.Nodup → select index columns runs families metrics subsets famDef subDef ro mo = .ok (rs, ms) → rs.Nodup

/-- False in the order of families: a run in two families is twice in the table. -/
theorem once_false : ¬ OnceClaim := by
  intro h
  have := h [['a'], ['b']] [['m']] [] [['f'], ['g']] [] [] [(['f'], [['a']]), (['g'], [['a'], ['b']])] [] false false [['a'], ['a'], ['b']] [['m']] (by decide) (by decide)
  revert this
  decide

example : select [['a'], ['b'], ['c']] [['m'], ['n']] [['c']] [['f']] [['n'], ['x']] [] [(['f'], [['a']])] [] true true = .ok ([['a'], ['c']], [['n']]) := by decide

/-! ## C282: runs of families -/

theorem mem_familyRuns (fams : List (Str × List RunRec)) (f : Str) (r : RunRec) : (f, r) ∈ familyRuns fams ↔ ∃ l, (f, l) ∈ fams ∧ r ∈ l := by
  unfold familyRuns
  rw [List.mem_flatMap]
  constructor
  · rintro ⟨⟨g, l⟩, hg, h⟩
    obtain ⟨x, hx, he⟩ := List.mem_map.mp h
    simp only [Prod.mk.injEq] at he
    obtain ⟨rfl, rfl⟩ := he
    exact ⟨l, hg, hx⟩
  · rintro ⟨l, hl, hr⟩
    exact ⟨(f, l), hl, List.mem_map.mpr ⟨r, hr, rfl⟩⟩

/-- Both tables have the same content: a run is in the table by runs with a family exactly if the family has it. -/
theorem getRuns_spec (fams : List (Str × List RunRec)) (f r : Str) :
    (∃ e ∈ getRuns fams, e.1.run = r ∧ f ∈ e.2) ↔ ∃ l, (f, l) ∈ fams ∧ ∃ x ∈ l, x.run = r := by
  unfold getRuns
  constructor
  · rintro ⟨e, he, hr, hf⟩
    obtain ⟨x, hx, rfl⟩ := List.mem_map.mp he
    obtain ⟨⟨g, y⟩, hg, rfl⟩ := List.mem_map.mp hf
    obtain ⟨hg1, hg2⟩ := List.mem_filter.mp hg
    simp only [decide_eq_true_eq] at hg2
    subst hg2
    obtain ⟨l, hl, hyl⟩ := (mem_familyRuns fams g y).mp hg1
    exact ⟨l, hl, y, hyl, hr⟩
  · rintro ⟨l, hl, x, hx, hr⟩
    have hmem := (mem_familyRuns fams f x).mpr ⟨l, hl, hx⟩
    refine ⟨_, List.mem_map.mpr ⟨x, List.mem_dedup.mpr (List.mem_map.mpr ⟨(f, x), hmem, rfl⟩), rfl⟩, hr, ?_⟩
    exact List.mem_map.mpr ⟨(f, x), List.mem_filter.mpr ⟨hmem, by simp⟩, rfl⟩

/-- Each run has one row if all families say the same of it. -/
theorem one_row_partial (fams : List (Str × List RunRec)) (h : ∀ e ∈ familyRuns fams, ∀ e' ∈ familyRuns fams, e.2.run = e'.2.run → e.2 = e'.2) :
    ((getRuns fams).map (fun e => e.1.run)).Nodup := by
  unfold getRuns
  rw [List.map_map]
  refine List.Nodup.map_on ?_ (List.nodup_dedup _)
  intro x hx y hy hxy
  obtain ⟨e, he, rfl⟩ := List.mem_map.mp (List.mem_dedup.mp hx)
  obtain ⟨e', he', rfl⟩ := List.mem_map.mp (List.mem_dedup.mp hy)
  exact h e he e' he' hxy

/-- The documented table: one row for each run, with a description for each family. -/
def OneRow : Prop := ∀ fams : List (Str × List RunRec), ((getRuns fams).map (fun e => e.1.run)).Nodup

/-- False: a run with two descriptions has two rows. -/
theorem one_row_false : ¬ OneRow := by
  intro h
  have := h [(['f'], [⟨['a'], ['x'], ['p'], ['u']⟩]), (['g'], [⟨['a'], ['y'], ['p'], ['u']⟩])]
  revert this
  decide

/-- ... in general: each row has one description, that of all its families. -/
theorem getRuns_row (fams : List (Str × List RunRec)) (e : RunRec × List Str) (he : e ∈ getRuns fams) (f : Str) :
    f ∈ e.2 ↔ ∃ l, (f, l) ∈ fams ∧ e.1 ∈ l := by
  unfold getRuns at he
  obtain ⟨x, hx, rfl⟩ := List.mem_map.mp he
  constructor
  · intro hf
    obtain ⟨⟨g, y⟩, hg, rfl⟩ := List.mem_map.mp hf
    obtain ⟨hg1, hg2⟩ := List.mem_filter.mp hg
    simp only [decide_eq_true_eq] at hg2
    subst hg2
    exact (mem_familyRuns fams g y).mp hg1
  · rintro ⟨l, hl, hxl⟩
    exact List.mem_map.mpr ⟨(f, x), List.mem_filter.mpr ⟨(mem_familyRuns fams f x).mpr ⟨l, hl, hxl⟩, by simp⟩, rfl⟩

example : getRuns [(['f'], [⟨['a'], ['x'], ['p'], ['u']⟩]), (['g'], [⟨['a'], ['x'], ['p'], ['u']⟩, ⟨['b'], ['x'], ['q'], ['v']⟩])] =
    [(⟨['a'], ['x'], ['p'], ['u']⟩, [['f'], ['g']]), (⟨['b'], ['x'], ['q'], ['v']⟩, [['g']])] := by decide

/-! ## C283: gathering of summaries -/

theorem lookup_put {A V : Type} [DecidableEq A] [BEq A] [LawfulBEq A] (d : List (A × V)) (k k' : A) (v : V) : (put d k v).lookup k' = if k' = k then some v else d.lookup k' := by
  unfold put
  rw [List.lookup_cons]
  by_cases h : k' = k
  · subst h; simp
  · rw [show (k' == k) = false by simpa using h, if_neg h]
    dsimp only
    induction d with
    | nil => rfl
    | cons e d ih =>
      obtain ⟨a, w⟩ := e
      by_cases ha : a = k
      · rw [List.filter_cons_of_neg (by simpa using ha), ih, List.lookup_cons, show (k' == a) = false by simp; rw [ha]; exact h]
      · rw [List.filter_cons_of_pos (by simpa using ha), List.lookup_cons, List.lookup_cons, ih]

/-- The value of a run and a name is the last number among the rows with this run and name, in the order of the directories;
there is none if no row has one. -/
theorem combine_spec {K : Type} (dbs : List (List (Stat K))) (r n : Str) :
    ∃ d, combine (dbs.map some) = .ok d ∧
      d.lookup (r, n) = ((dbs.flatten.filter (fun s => decide (s.run = r ∧ statName s = n))).filterMap Stat.value).getLast? := by
  unfold combine
  rw [if_neg (by simp)]
  refine ⟨_, rfl, ?_⟩
  rw [show (dbs.map some).filterMap id = dbs by simp]
  generalize dbs.flatten = rows
  induction rows using List.reverseRecOn with
  | nil => rfl
  | append_singleton rows s ih =>
    rw [List.foldl_append, List.foldl_cons, List.foldl_nil, List.filter_append, List.filterMap_append]
    cases hv : s.value with
    | none =>
      have : ([s].filter (fun s => decide (s.run = r ∧ statName s = n))).filterMap Stat.value = [] := by
        by_cases h : s.run = r ∧ statName s = n <;> simp [h, hv]
      rw [this, List.append_nil]
      exact ih
    | some v =>
      dsimp only
      rw [lookup_put]
      by_cases h : s.run = r ∧ statName s = n
      · rw [if_pos (by rw [h.1, h.2])]
        simp [h, hv]
      · rw [if_neg (by intro he; simp only [Prod.mk.injEq] at he; exact h ⟨he.1.symm, he.2.symm⟩), ih]
        have : ([s].filter (fun s => decide (s.run = r ∧ statName s = n))).filterMap Stat.value = [] := by simp [h]
        rw [this, List.append_nil]

/-- A directory without a database: the code says so in a warning and goes on to an exception. -/
theorem combine_missing {K : Type} (dbs : List (Option (List (Stat K)))) (h : none ∈ dbs) : combine dbs = .error "DatabaseError" := by
  unfold combine
  rw [if_pos]
  exact List.any_eq_true.mpr ⟨none, h, rfl⟩

/-- No two blanks next to each other. -/
def Single (s : Str) : Prop := ∀ i : ℕ, ¬ (s[i]? = some ' ' ∧ s[i + 1]? = some ' ')

/-- A name without three blanks in a row has single blanks in the end. -/
theorem replace2_single (s : Str) (h : ∀ i : ℕ, ¬ (s[i]? = some ' ' ∧ s[i + 1]? = some ' ' ∧ s[i + 2]? = some ' ')) :
    Single (replace2 s) ∧ (s.head? ≠ some ' ' → (replace2 s).head? ≠ some ' ') := by
  fun_induction replace2 s with
  | case1 l ih =>
    have h3 : l.head? ≠ some ' ' := by
      intro h3
      refine h 0 ⟨rfl, rfl, ?_⟩
      cases l with
      | nil => simp at h3
      | cons c l => simpa using h3
    obtain ⟨i1, i2⟩ := ih (fun i hi => h (i + 2) (by simpa using hi))
    refine ⟨?_, by simp⟩
    intro i
    cases i with
    | zero =>
      rintro ⟨-, h5⟩
      refine i2 h3 ?_
      simpa [List.head?_eq_getElem?] using h5
    | succ i => simpa using i1 i
  | case2 c l hne ih =>
    obtain ⟨i1, i2⟩ := ih (fun i hi => h (i + 1) (by simpa using hi))
    refine ⟨?_, by simp⟩
    intro i
    cases i with
    | zero =>
      rintro ⟨h4, h5⟩
      have hc : c = ' ' := by simpa using h4
      have hl : l.head? ≠ some ' ' := by
        intro hl
        cases l with
        | nil => simp at hl
        | cons x l =>
          have : x = ' ' := by simpa using hl
          exact hne l hc (by rw [this])
      refine i2 hl ?_
      simpa [List.head?_eq_getElem?] using h5
    | succ i => simpa using i1 i
  | case3 => exact ⟨by intro i; simp, by simp⟩

/-- Names are right for every metric: single blanks, and different for different metrics. -/
def NameClaim : Prop := ∀ s t : Stat ℚ, Single (statName s) ∧ ((s.summary, s.metric, s.info, s.slicer) ≠ (t.summary, t.metric, t.info, t.slicer) → statName s ≠ statName t)

/-- False: two metrics with the same words, of which the one that comes last is kept. -/
theorem names_false : ¬ NameClaim := by
  intro h
  have := (h ⟨"Mean".toList, "A B".toList, "i".toList, "Heal".toList, [], none⟩ ⟨"Mean".toList, "A".toList, "B i".toList, "Heal".toList, [], none⟩).2 (by decide)
  exact this (by decide)

/-- ... and with two empty parts there are two blanks. -/
theorem blanks_false : ∃ s : Stat ℚ, ¬ Single (statName s) := by
  refine ⟨⟨"Mean".toList, [], [], "Heal".toList, [], none⟩, fun h => h 4 ?_⟩
  decide

example : statName (⟨" Mean".toList, "Nvis ".toList, [], "Heal".toList, [], none⟩ : Stat ℚ) = "Mean Nvis Heal".toList := by decide

example : combine [some [⟨"M".toList, "a".toList, "i".toList, "S".toList, "run".toList, some (1 : ℚ)⟩],
    some [⟨"M".toList, "a".toList, "i".toList, "S".toList, "run".toList, some 2⟩, ⟨"M".toList, "a".toList, "i".toList, "S".toList, "run".toList, none⟩]] =
    .ok [(("run".toList, "M a i S".toList), 2)] := by decide +kernel

end Verif.Cmp
