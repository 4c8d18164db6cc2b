import Mathlib.Data.List.Sort
import Mathlib.Data.List.Nodup
import Mathlib.Algebra.Order.Ring.Rat
import Mathlib.Tactic.Ring
import Mathlib.Tactic.NormNum
import Verif.Model.SharedSlice
import Verif.Props.StringCount

/-!
# Properties of the visits that the bundles of a group share (C589-C592)
-/

namespace Verif.SharedSlice

section Loop
variable {ρ P V : Type*}

/-! ## Specification -/

/-- The value of a metric that is run on its own. -/
def Alone (m : Metric ρ P V) (p : P) (d : List ρ) : V := (m p d).1

/-- No metric that is run after `m` on the same slice has another value than on its own. -/
def Harmless (m : Metric ρ P V) : Prop :=
  ∀ (m' : Metric ρ P V) (p : P) (d : List ρ), d ≠ [] → (runBundles [m, m'] p d).1 = [Alone m p d, Alone m' p d]

/-- The value does not depend on the order of the visits. -/
def OrderFree (m : Metric ρ P V) : Prop := ∀ (p : P) (d e : List ρ), d.Perm e → Alone m p d = Alone m p e

/-- The same for the metrics after `m` whose values do not depend on the order. -/
def HarmlessOrderFree (m : Metric ρ P V) : Prop :=
  ∀ (m' : Metric ρ P V), OrderFree m' → ∀ (p : P) (d : List ρ), d ≠ [] →
    (runBundles [m, m'] p d).1 = [Alone m p d, Alone m' p d]

/-! ## Bundles of a group (C589) -/

/-- The value of each bundle is that of its metric on the rows as all the bundles before it have left them. -/
theorem value_at (ms ms' : List (Metric ρ P V)) (m : Metric ρ P V) (p : P) (d : List ρ) :
    (runBundles (ms ++ m :: ms') p d).1[ms.length]? = some (Alone m p (ms.foldl (fun e m => (m p e).2) d)) := by
  induction ms generalizing d with
  | nil => rfl
  | cons n ms ih => simpa [runBundles] using ih (n p d).2

/-- Each bundle has one value. -/
theorem values_length (ms : List (Metric ρ P V)) (p : P) (d : List ρ) : (runBundles ms p d).1.length = ms.length := by
  induction ms generalizing d with
  | nil => rfl
  | cons n ms ih => simp [runBundles, ih]

/-- Bundles that come later do not matter. -/
theorem later (ms ms' : List (Metric ρ P V)) (p : P) (d : List ρ) :
    (runBundles (ms ++ ms') p d).1.take ms.length = (runBundles ms p d).1 := by
  induction ms generalizing d with
  | nil => rfl
  | cons n ms ih => simp [runBundles, ih]

/-- If the bundles before it leave the rows as they are, a bundle has the value that it has on its own. -/
theorem alone_partial (ms ms' : List (Metric ρ P V)) (m : Metric ρ P V) (p : P) (d : List ρ)
    (h : ∀ n ∈ ms, (n p d).2 = d) : (runBundles (ms ++ m :: ms') p d).1[ms.length]? = some (Alone m p d) := by
  rw [value_at]
  congr 2
  induction ms with
  | nil => rfl
  | cons n ms ih =>
    rw [List.foldl_cons, h n (by simp)]
    exact ih (fun k hk => h k (by simp [hk]))

/-- If the bundles before it only put the rows in another order and its value does not depend on the order, it has the
value that it has on its own. -/
theorem alone_order_partial (ms ms' : List (Metric ρ P V)) (m : Metric ρ P V) (hm : OrderFree m) (p : P) (d : List ρ)
    (h : ∀ n ∈ ms, ∀ e, ((n p e).2).Perm e) :
    (runBundles (ms ++ m :: ms') p d).1[ms.length]? = some (Alone m p d) := by
  rw [value_at]
  congr 1
  apply hm
  induction ms generalizing d with
  | nil => rfl
  | cons n ms ih =>
    rw [List.foldl_cons]
    exact (ih (n p d).2 (fun k hk => h k (by simp [hk]))).trans (h n (by simp) d)

/-- A metric never changes the values of others exactly if it leaves the rows as they are. -/
theorem harmless_iff [Nontrivial V] (m : Metric ρ P V) :
    Harmless m ↔ ∀ (p : P) (d : List ρ), d ≠ [] → (m p d).2 = d := by
  classical
  constructor
  · intro h p d hd
    obtain ⟨a, b, hab⟩ := exists_pair_ne V
    have := h (fun _ e => (if e = d then a else b, e)) p d hd
    simp only [runBundles, Alone, List.cons.injEq, true_and, and_true, if_true] at this
    by_contra hne
    rw [if_neg hne] at this
    exact hab this.symm
  · intro h m' p d hd
    simp [runBundles, Alone, h p d hd]

/-- A metric never changes the values of metrics that do not depend on the order exactly if it only puts the rows in
another order. -/
theorem harmless_order_iff [Nontrivial V] (m : Metric ρ P V) :
    HarmlessOrderFree m ↔ ∀ (p : P) (d : List ρ), d ≠ [] → ((m p d).2).Perm d := by
  classical
  constructor
  · intro h p d hd
    obtain ⟨a, b, hab⟩ := exists_pair_ne V
    have hf : OrderFree (fun _ e => (if e.Perm d then a else b, e) : Metric ρ P V) := by
      intro q e f hef
      have : e.Perm d ↔ f.Perm d := ⟨fun x => hef.symm.trans x, fun x => hef.trans x⟩
      simp only [Alone, this]
    have := h _ hf p d hd
    simp only [runBundles, Alone, List.cons.injEq, true_and, and_true, List.Perm.refl, if_true] at this
    by_contra hne
    rw [if_neg hne] at this
    exact hab this.symm
  · intro h m' hm p d hd
    simp only [runBundles, Alone, List.cons.injEq, true_and, and_true]
    exact hm p _ _ (h p d hd)

/-- A metric that writes, one that reads and one that does not depend on the order. -/
example :
    let w : Metric Nat Unit Nat := fun _ d => (d.sum, d.map (· + 1))
    let r : Metric Nat Unit Nat := reading (fun _ d => d.sum)
    let s : Metric Nat Unit Nat := fun _ d => (d.headD 0, d.reverse)
    (runBundles [r, w, r] () [1, 2, 3]).1 = [6, 6, 9] ∧ (runBundles [s, r, s] () [1, 2, 3]).1 = [1, 6, 3] := by
  decide

/-! ## Slices (C592) -/

/-- The values of a slice do not depend on the slices before or after it: each begins with the rows of the table. -/
theorem slices_alone (ms : List (Metric ρ P V)) (tbl : List ρ) (ss : List (P × List Nat)) (i : Nat) :
    (runSlices ms tbl ss)[i]? = (ss[i]?).bind (fun s => (runSlices ms tbl [s])[0]?) := by
  induction ss generalizing i with
  | nil => simp [runSlices]
  | cons s ss ih =>
    cases i with
    | zero => simp [runSlices]
    | succ i => simpa [runSlices] using ih i

/-- A slice has no values exactly if none of its numbers is that of a row; then no metric is run. -/
theorem slice_none (ms : List (Metric ρ P V)) (tbl : List ρ) (s : P × List Nat) :
    runSlices ms tbl [s] = [none] ↔ ∀ i ∈ s.2, tbl.length ≤ i := by
  simp only [runSlices, sliceStep, takeRows, List.length_eq_zero_iff, List.filterMap_eq_nil_iff]
  by_cases h : ∀ i ∈ s.2, tbl[i]? = none
  · rw [if_pos h]
    simpa using h
  · rw [if_neg h]
    simpa using h

/-- The second slice begins with the rows of the table again. -/
example : runSlices [(fun _ d => (d.sum, d.map (· + 1)) : Metric Nat Unit Nat), reading (fun _ d => d.sum)] [5, 6, 7]
    [((), [0, 1]), ((), [9]), ((), [1, 2])] = [some [11, 13], none, some [13, 15]] := by
  decide

end Loop

section Metrics
variable {α V : Type*}

/-- Metrics that only read or sort. -/
theorem reading_harmless {ρ P : Type*} (f : P → List ρ → V) : Harmless (reading f) := by
  intro m' p d _
  rfl

/-- A metric that sorts by time does not change the values of metrics that do not depend on the order. -/
theorem sorting_harmless {P : Type*} [LinearOrder α] (f : P → List (Visit α) → V) :
    HarmlessOrderFree (sorting f) := by
  intro m' hm p d _
  simp only [runBundles, Alone, sorting, List.cons.injEq, true_and, and_true]
  exact hm p _ _ (List.mergeSort_perm _ _)

/-- Two sortings by time of the same visits agree if no two visits have the same time. -/
theorem sort_eq [LinearOrder α] (d e : List (Visit α)) (hp : d.Perm e) (hd : (e.map Visit.mjd).Nodup) :
    d.mergeSort (fun a b => decide (a.mjd ≤ b.mjd)) = e.mergeSort (fun a b => decide (a.mjd ≤ b.mjd)) := by
  have srt : ∀ l : List (Visit α), (l.mergeSort (fun a b => decide (a.mjd ≤ b.mjd))).Pairwise
      (fun a b => a.mjd ≤ b.mjd) := by
    intro l
    have := List.pairwise_mergeSort (le := fun a b : Visit α => decide (a.mjd ≤ b.mjd))
      (by intro a b c h1 h2; simp only [decide_eq_true_eq] at *; exact le_trans h1 h2)
      (by intro a b; simp only [Bool.or_eq_true, decide_eq_true_eq]; exact le_total _ _) l
    simpa using this
  have hpp : (d.mergeSort (fun a b => decide (a.mjd ≤ b.mjd))).Perm
      (e.mergeSort (fun a b => decide (a.mjd ≤ b.mjd))) :=
    (List.mergeSort_perm _ _).trans (hp.trans (List.mergeSort_perm _ _).symm)
  refine List.Perm.eq_of_pairwise ?_ (srt d) (srt e) hpp
  intro a b ha hb h1 h2
  have hab : a.mjd = b.mjd := le_antisymm h1 h2
  have ha' : a ∈ e := hp.subset ((List.mergeSort_perm _ _).subset ha)
  have hb' : b ∈ e := (List.mergeSort_perm _ _).subset hb
  exact List.inj_on_of_nodup_map hd ha' hb' hab

/-- A metric that sorts by time has the value that it has on its own if the bundles before it only put the visits in
another order and no two visits have the same time. -/
theorem sorting_alone {P : Type*} [LinearOrder α] (ms ms' : List (Metric (Visit α) P V))
    (f : P → List (Visit α) → V) (p : P) (d : List (Visit α)) (hd : (d.map Visit.mjd).Nodup)
    (h : ∀ n ∈ ms, ∀ e, ((n p e).2).Perm e) :
    (runBundles (ms ++ sorting f :: ms') p d).1[ms.length]? = some (Alone (sorting f) p d) := by
  rw [value_at]
  have hp : (ms.foldl (fun e m => (m p e).2) d).Perm d := by
    clear hd
    induction ms generalizing d with
    | nil => rfl
    | cons n ms ih =>
      rw [List.foldl_cons]
      exact (ih (n p d).2 (fun k hk => h k (by simp [hk]))).trans (h n (by simp) d)
  simp only [Alone, sorting]
  rw [sort_eq _ _ hp hd]

/-- Two metrics that sort, and one that counts. -/
example :
    let first : Metric (Visit Int) Unit Int := sorting (fun _ d => ((d.head?).map Visit.m5).getD 0)
    let n : Metric (Visit Int) Unit Int := reading (fun _ d => d.length)
    (runBundles [first, n, first] () [⟨3, "g", 24, []⟩, ⟨1, "r", 25, []⟩]).1 = [25, 2, 25] := by
  simp [runBundles, sorting, reading, List.mergeSort, List.MergeSort.Internal.splitInTwo]

/-! ## Dust (C590) -/

theorem dimBand_length [Ring α] (ax1 : String → α) (ebv : α) (d : List (Visit α)) (new : List α) (f : String)
    (h : new.length = d.length) : (dimBand ax1 ebv d new f).length = d.length := by
  simp [dimBand, h]

theorem dim_fold [Ring α] (ax1 : String → α) (ebv : α) (d : List (Visit α)) (fs : List String) (new : List α)
    (h : new.length = d.length) :
    fs.foldl (dimBand ax1 ebv d) new
      = List.zipWith (fun v n => if v.band ∈ fs then v.m5 - ax1 v.band * ebv else n) d new := by
  induction fs generalizing new with
  | nil =>
    apply List.ext_getElem?
    intro i
    rw [List.foldl_nil, List.getElem?_zipWith]
    rcases Nat.lt_or_ge i d.length with hi | hi
    · rw [List.getElem?_eq_getElem hi, List.getElem?_eq_getElem (by omega)]
      simp
    · rw [List.getElem?_eq_none (by omega : new.length ≤ i), List.getElem?_eq_none hi]
  | cons f fs ih =>
    rw [List.foldl_cons, ih _ (dimBand_length ax1 ebv d new f h)]
    apply List.ext_getElem?
    intro i
    rw [List.getElem?_zipWith, List.getElem?_zipWith, dimBand, List.getElem?_zipWith]
    rcases Nat.lt_or_ge i d.length with hi | hi
    · rw [List.getElem?_eq_getElem hi, List.getElem?_eq_getElem (by omega)]
      simp only [Option.some.injEq, List.mem_cons]
      by_cases h1 : d[i].band ∈ fs
      · simp [h1]
      · by_cases h2 : d[i].band = f
        · simp [h2]
        · simp [h1, h2]
    · rw [List.getElem?_eq_none hi]

/-- The depth of each visit is less by the extinction in its band, and nothing else is changed. -/
theorem addDust_eq [Ring α] (ax1 : String → α) (ebv : α) (d : List (Visit α)) :
    addDust ax1 ebv d = d.map (fun v => { v with m5 := v.m5 - ax1 v.band * ebv }) := by
  simp only [addDust]
  rw [dim_fold _ _ _ _ _ (by simp)]
  apply List.ext_getElem?
  intro i
  rw [List.getElem?_zipWith, List.getElem?_zipWith, List.getElem?_map, List.getElem?_map]
  rcases Nat.lt_or_ge i d.length with hi | hi
  · have hm : d[i].band ∈ (d.map Visit.band).dedup := by
      rw [List.mem_dedup, List.mem_map]
      exact ⟨d[i], List.getElem_mem hi, rfl⟩
    rw [List.getElem?_eq_getElem hi]
    simp [hm]
  · rw [List.getElem?_eq_none hi]
    simp

variable [Ring α] [LinearOrder α]

/-- On its own the metric works on the depths less the extinction, or is bad where there is too much dust. -/
theorem snn_alone (ax1 : String → α) (cut : Option α) (bad : V) (rest : List (Visit α) → V) (ebv : α)
    (d : List (Visit α)) :
    Alone (snn ax1 cut true bad rest) ebv d
      = if ∃ c, cut = some c ∧ c < ebv then bad
        else rest (d.map (fun v => { v with m5 := v.m5 - ax1 v.band * ebv })) := by
  cases cut with
  | none => simp [Alone, snn, addDust_eq]
  | some c =>
    by_cases h : c < ebv
    · simp [Alone, snn, h]
    · simp [Alone, snn, h, addDust_eq]

/-- Where there is too much dust, or without dust, the visits stay as they are. -/
theorem snn_harmless_partial (ax1 : String → α) (cut : Option α) (dust : Bool) (bad : V) (rest : List (Visit α) → V)
    (ebv : α) (d : List (Visit α)) (h : dust = false ∨ ∃ c, cut = some c ∧ c < ebv) :
    (snn ax1 cut dust bad rest ebv d).2 = d := by
  rcases h with rfl | ⟨c, rfl, hc⟩
  · cases cut with
    | none => simp [snn]
    | some c => by_cases hc : c < ebv <;> simp [snn, hc]
  · simp [snn, hc]

/-- After `k` bundles with dust the depths of a slice are less by `k` times the extinction for each metric that
follows, whatever it is. -/
theorem dust_adds (ax1 : String → α) (bad : V) (rests : List (List (Visit α) → V)) (ms' : List (Metric (Visit α) α V))
    (m : Metric (Visit α) α V) (ebv : α) (d : List (Visit α)) :
    (runBundles (rests.map (snn ax1 none true bad) ++ m :: ms') ebv d).1[rests.length]?
      = some (Alone m ebv (d.map (fun v => { v with m5 := v.m5 - rests.length * (ax1 v.band * ebv) }))) := by
  have := value_at (rests.map (snn ax1 none true bad)) ms' m ebv d
  rw [List.length_map] at this
  rw [this]
  congr 2
  clear this
  induction rests generalizing d with
  | nil => simp
  | cons r rs ih =>
    rw [List.map_cons, List.foldl_cons, ih]
    simp only [snn, Bool.false_eq_true, if_false, if_true, addDust_eq, List.map_map]
    apply List.map_congr_left
    intro v _
    simp only [Function.comp, List.length_cons, Nat.cast_add, Nat.cast_one, add_mul, one_mul]
    rw [sub_sub, add_comm]

/-- With dust the metric changes the values of others, of those that do not depend on the order too, as soon as one
band has an extinction for some `ebv` that is not cut. -/
theorem dust_false [Nontrivial V] (ax1 : String → α) (cut : Option α) (bad : V) (rest : List (Visit α) → V)
    (f : String) (ebv : α) (hc : ∀ c, cut = some c → ebv ≤ c) (h : ax1 f * ebv ≠ 0) :
    ¬ HarmlessOrderFree (snn ax1 cut true bad rest) := by
  rw [harmless_order_iff]
  intro hh
  have := hh ebv [⟨0, f, 0, []⟩] (by simp)
  have he : (snn ax1 cut true bad rest ebv [⟨0, f, 0, []⟩]).2 = addDust ax1 ebv [⟨0, f, 0, []⟩] := by
    cases cut with
    | none => simp [snn]
    | some c => simp [snn, not_lt.mpr (hc c rfl)]
  rw [he, addDust_eq] at this
  simp only [List.map_cons, List.map_nil, List.singleton_perm_singleton, Visit.mk.injEq, true_and, and_true, zero_sub,
    neg_eq_zero] at this
  exact h this

/-- Two visits in `g` and `r`, a mean depth that is measured after two bundles with dust: it is less by twice the
extinction. -/
example :
    let ax1 : String → ℚ := fun f => if f = "g" then 3 else 2
    let mean : Metric (Visit ℚ) ℚ ℚ := reading (fun _ d => (d.map Visit.m5).sum / 2)
    let sn := snn ax1 (some (1 / 4)) true (-666) (fun d => (d.map Visit.m5).sum)
    let d : List (Visit ℚ) := [⟨1, "g", 24, []⟩, ⟨2, "r", 25, []⟩]
    Alone mean (1 / 10) d = 49 / 2 ∧ (runBundles [sn, sn, mean] (1 / 10) d).1 = [97 / 2, 48, 24]
      ∧ (runBundles [sn, sn, mean] (1 / 2) d).1 = [-666, -666, 49 / 2] := by
  decide +kernel

/-! ## Strings (C591) -/

omit [Ring α] [LinearOrder α] in
/-- With `clip_end` the metric changes the values of others, of those that do not depend on the order too. -/
theorem clip_false {P : Type*} [Nontrivial V] [Nonempty P] [Nonempty α] (dig : Char → Bool) (hd : dig ',' = false)
    (x : Char) (hx : dig x = true) (rest : List Strings.Str → V) :
    ¬ HarmlessOrderFree (strCount (α := α) (P := P) dig true rest) := by
  rw [harmless_order_iff]
  intro hh
  obtain ⟨p⟩ := ‹Nonempty P›
  obtain ⟨a⟩ := ‹Nonempty α›
  have := hh p [⟨a, "g", a, [',', ' ', x]⟩] (by simp)
  have hc : Strings.clip dig [',', ' ', x] = [] := Strings.clip_number dig hd [] [x] (by simp) (by simpa using hx)
  simp [strCount, hc] at this

/-- Two bundles that count the notes without their number: the second removes a number of the note itself. -/
example :
    let m : Metric (Visit ℚ) Unit (List (Strings.Str × Nat)) := strCount Char.isDigit true Strings.counter
    let d : List (Visit ℚ) := [⟨1, "g", 24, "pair, 33, 1".toList⟩, ⟨2, "r", 25, "pair, 33, 2".toList⟩]
    (runBundles [m, m] () d).1 = [[("pair, 33".toList, 2)], [("pair".toList, 2)]]
      ∧ Alone m () d = [("pair, 33".toList, 2)] := by
  decide +kernel

omit [Ring α] [LinearOrder α] in
/-- After `k` bundles with `clip_end` the strings are those clipped `k` times. -/
theorem clip_adds {P : Type*} (dig : Char → Bool) (rests : List (List Strings.Str → V))
    (ms' : List (Metric (Visit α) P V)) (m : Metric (Visit α) P V) (p : P) (d : List (Visit α)) :
    (runBundles (rests.map (strCount dig true) ++ m :: ms') p d).1[rests.length]?
      = some (Alone m p (d.map (fun v => { v with note := (Strings.clip dig)^[rests.length] v.note }))) := by
  have := value_at (rests.map (strCount (α := α) (P := P) dig true)) ms' m p d
  rw [List.length_map] at this
  rw [this]
  congr 2
  clear this
  induction rests generalizing d with
  | nil => simp
  | cons r rs ih =>
    rw [List.map_cons, List.foldl_cons, ih]
    simp only [strCount, if_true, List.map_map]
    apply List.map_congr_left
    intro v _
    simp [Function.comp]

omit [Ring α] [LinearOrder α] in
/-- The strings stay as they are without `clip_end`, and if none of them ends with a comma, a space and digits. -/
theorem clip_harmless_partial {P : Type*} (dig : Char → Bool) (c : Bool) (rest : List Strings.Str → V) (p : P)
    (d : List (Visit α))
    (h : c = false ∨ ∀ v ∈ d, ¬ ∃ s t, v.note = s ++ ',' :: ' ' :: t ∧ t ≠ [] ∧ ∀ x ∈ t, dig x = true) :
    (strCount dig c rest p d).2 = d := by
  rcases h with rfl | h
  · simp [strCount]
  · cases c with
    | false => simp [strCount]
    | true =>
      simp only [strCount, if_true]
      conv_rhs => rw [← List.map_id d]
      apply List.map_congr_left
      intro v hv
      have := Strings.clip_other dig v.note (fun s t h1 h2 h3 => h v hv ⟨s, t, h1, h2, h3⟩)
      rw [this]
      rfl

end Metrics

end Verif.SharedSlice
