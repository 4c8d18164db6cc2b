import Verif.Model.Maps
import Mathlib.Tactic.Linarith
import Mathlib.Tactic.NormNum

/-!
# Maps

Theorems C257 to C262.
-/

namespace Verif.Maps

open Real

variable {P V : Type}

/-! ## C257 -/

/-- The value that is asked for: that of the pixel, of the nearest pixel, or interpolated. -/
inductive Answer (sky : Sky P V) (m : List V) (a : Args P) : V → Prop
  | pixel (i : ℕ) (v : V) : a.interp = false → a.pixel = some i → m[i]? = some v → Answer sky m a v
  | near (p : P) (v : V) : a.interp = false → a.pixel = none → a.pos = some p → m[sky.near a.nside p]? = some v → Answer sky m a v
  | interp (p : P) : a.interp = true → a.pos = some p → Answer sky m a (sky.interp m p)

theorem index_ok (m : List V) (i : ℕ) (v : V) : index m i = .ok v ↔ m[i]? = some v := by
  unfold index
  cases m[i]? <;> simp

theorem look_ok (sky : Sky P V) (m : List V) (a : Args P) (v : V) : look sky m a.nside a = .ok v ↔ Answer sky m a v := by
  unfold look
  constructor
  · intro h
    cases hi : a.interp with
    | true =>
      rw [hi, if_pos rfl] at h
      cases hp : a.pos with
      | none => rw [hp] at h; simp at h
      | some p =>
        rw [hp] at h
        simp only [Except.ok.injEq] at h
        subst h
        exact .interp p hi hp
    | false =>
      rw [hi, if_neg (by simp)] at h
      cases hx : a.pixel with
      | some i =>
        rw [hx] at h
        exact .pixel i v hi hx ((index_ok m i v).mp h)
      | none =>
        rw [hx] at h
        cases hp : a.pos with
        | none => rw [hp] at h; simp at h
        | some p =>
          rw [hp] at h
          exact .near p v hi hx hp ((index_ok m _ v).mp h)
  · intro h
    cases h with
    | pixel i v hi hx hv => simp [hi, hx, index_ok, hv]
    | near p v hi hx hp hv => simp [hi, hx, hp, index_ok, hv]
    | interp p hi hp => simp [hi, hp]

/-- A sequence of calls. -/
def calls (disk : Option String → ℕ → Option (List V)) (sky : Sky P V) (st : Ebv V) (as : List (Args P)) : Ebv V := as.foldl (fun st a => (ebv disk sky st a).2) st

/-- **C257.** After any calls, the value is the one of the file of the resolution and directory of this call. -/
theorem ebv_spec (disk : Option String → ℕ → Option (List V)) (sky : Sky P V) (st : Ebv V) (as : List (Args P)) (a : Args P) (v : V) :
    (ebv disk sky (calls disk sky st as) a).1 = .ok v ↔ ∃ m, disk a.path a.nside = some m ∧ Answer sky m a v := by
  generalize calls disk sky st as = s
  unfold ebv
  by_cases h0 : (a.pixel.isNone && a.pos.isNone) = true
  · rw [if_pos h0]
    simp only [reduceCtorEq, false_iff, not_exists, not_and]
    intro m _ hA
    cases hA <;> simp_all
  · rw [if_neg h0]
    simp only [hasDustmap, Bool.not_false, Bool.true_or, if_true]
    cases hd : disk a.path a.nside with
    | none => simp
    | some m =>
      simp only [Option.some.injEq, exists_eq_left']
      exact look_ok sky m a v

/-- The map of a healpix slicer has the resolution of the slicer and no interpolation. -/
theorem dust_healpix (disk : Option String → ℕ → Option (List V)) (sky : Sky P V) (st : Ebv V) (mapNside n sid : ℕ) (interp : Bool) (path : Option String) (pos : P) (v : V) :
    (ebv disk sky st (dustArgs mapNside interp path (some n) sid pos)).1 = .ok v ↔ ∃ m, disk path n = some m ∧ m[sid]? = some v := by
  rw [show st = calls disk sky st [] from rfl, ebv_spec]
  unfold dustArgs
  constructor
  · rintro ⟨m, hm, h⟩
    refine ⟨m, hm, ?_⟩
    cases h with
    | pixel i v hi hx hv =>
      simp only [Option.some.injEq] at hx
      rw [hx]
      exact hv
    | near p v hi hx => simp at hx
    | interp p hi hp => simp at hi
  · rintro ⟨m, hm, h⟩
    exact ⟨m, hm, .pixel sid v rfl rfl h⟩

/-- Each call reads a file. -/
theorem ebv_reads (disk : Option String → ℕ → Option (List V)) (sky : Sky P V) (st : Ebv V) (as : List (Args P))
    (h : ∀ a ∈ as, (a.pixel.isSome ∨ a.pos.isSome) ∧ (disk a.path a.nside).isSome) : (calls disk sky st as).reads = st.reads + as.length := by
  unfold calls
  induction as generalizing st with
  | nil => rfl
  | cons a as ih =>
    rw [List.foldl_cons, ih _ (fun b hb => h b (List.mem_cons_of_mem _ hb)), List.length_cons]
    obtain ⟨h1, h2⟩ := h a List.mem_cons_self
    obtain ⟨m, hm⟩ := Option.isSome_iff_exists.mp h2
    have h0 : (a.pixel.isNone && a.pos.isNone) = false := by
      rcases h1 with h1 | h1 <;> obtain ⟨x, hx⟩ := Option.isSome_iff_exists.mp h1 <;> simp [hx]
    have : (ebv disk sky st a).2.reads = st.reads + 1 := by
      unfold ebv
      rw [h0, if_neg (by simp)]
      simp only [hasDustmap, Bool.not_false, Bool.true_or, if_true, hm]
      split <;> rfl
    rw [this]
    omega

/-- What the attributes are for: the file is read once for calls with the same resolution. -/
def ReadOnce : Prop := ∀ (P V : Type) (disk : Option String → ℕ → Option (List V)) (sky : Sky P V) (as : List (Args P)),
  (∀ a ∈ as, ∀ b ∈ as, a.nside = b.nside ∧ a.path = b.path) → (calls disk sky ⟨none, none, 0⟩ as).reads ≤ 1

theorem read_once_false : ¬ ReadOnce := by
  intro h
  have h1 := h Unit ℕ (fun _ _ => some [7]) ⟨fun _ _ => 0, fun _ _ => 0⟩ [⟨64, none, some 0, none, false⟩, ⟨64, none, some 0, none, false⟩]
    (by intro a ha b hb; simp at ha hb; rw [ha, hb]; exact ⟨rfl, rfl⟩)
  rw [ebv_reads _ _ _ _ (by intro a ha; simp at ha; rw [ha]; simp)] at h1
  simp at h1

/-! ## C258 -/

/-- A sequence of calls, each with its own state of the disk. -/
def calls3 (reorder : List V → List V) (dir : String) (sky : Sky P V) (st : Ebv3 V) (as : List ((String → Option (File V)) × Args P)) : Ebv3 V :=
  as.foldl (fun st a => (ebv3 a.1 reorder dir sky st a.2).2) st

def empty3 : Ebv3 V := ⟨none, none, none⟩

/-- The value that is asked for, in a map of resolution `n`. -/
inductive Answer3 (sky : Sky P V) (m : List V) (n : ℕ) (a : Args P) : V → Prop
  | pixel (i : ℕ) (v : V) : a.pixel = some i → m[i]? = some v → Answer3 sky m n a v
  | near (p : P) (v : V) : a.pixel = none → a.interp = false → a.pos = some p → m[sky.near n p]? = some v → Answer3 sky m n a v
  | interp (p : P) : a.pixel = none → a.interp = true → a.pos = some p → Answer3 sky m n a (sky.interp m p)

theorem look3_ok (sky : Sky P V) (m : List V) (n : ℕ) (a : Args P) (v : V) : look3 sky m n a = .ok v ↔ Answer3 sky m n a v := by
  unfold look3
  constructor
  · intro h
    cases hx : a.pixel with
    | some i =>
      rw [hx] at h
      exact .pixel i v hx ((index_ok m i v).mp h)
    | none =>
      rw [hx] at h
      cases hp : a.pos with
      | none => rw [hp] at h; simp at h
      | some p =>
        rw [hp] at h
        cases hi : a.interp with
        | true =>
          simp only [hi, if_true, Except.ok.injEq] at h
          subst h
          exact .interp p hx hi hp
        | false =>
          simp only [hi, Bool.false_eq_true, if_false] at h
          exact .near p v hx hi hp ((index_ok m _ v).mp h)
  · intro h
    cases h with
    | pixel i v hx hv => simp [hx, index_ok, hv]
    | near p v hx hi hp hv => simp [hi, hx, hp, index_ok, hv]
    | interp p hx hi hp => simp [hx, hi, hp]

/-- The file of the arguments: the default of the resolution, or the one given, also by its name in the directory. -/
def Named (disk : String → Option (File V)) (dir : String) (a : Args P) (f : String) : Prop :=
  (a.path = none ∧ ((a.nside = 64 ∧ f = dir ++ "merged_ebv3d_nside64_defaults.fits") ∨ (a.nside = 128 ∧ f = dir ++ "merged_ebv3d_nside128_defaults.fits"))) ∨
  (∃ g, a.path = some g ∧ (((disk g).isSome ∧ f = g) ∨ (disk g = none ∧ (disk (dir ++ g)).isSome ∧ f = dir ++ g)))

theorem mapFile_of_named (disk : String → Option (File V)) (dir : String) (a : Args P) (f : String) (h : Named disk dir a f) : mapFile (fun f => (disk f).isSome) dir a = .ok f := by
  unfold mapFile
  rcases h with ⟨h, ⟨hn, rfl⟩ | ⟨hn, rfl⟩⟩ | ⟨g, h, ⟨hg, rfl⟩ | ⟨hg, hd, rfl⟩⟩
  · simp [h, hn]
  · simp [h, hn]
  · simp [h, hg]
  · simp [h, hg, hd]

/-- **C258.** The first call gives the value of the file that is asked for, in ring order. -/
theorem ebv3_first (disk : String → Option (File V)) (reorder : List V → List V) (dir : String) (sky : Sky P V) (a : Args P) (f : String) (h : File V)
    (ha : a.pixel.isSome ∨ a.pos.isSome) (hf : Named disk dir a f) (hd : disk f = some h) :
    (a.nside ≠ h.nside → a.pixel.isSome → (ebv3 disk reorder dir sky empty3 a).1 = .error "ValueError" ∧ (ebv3 disk reorder dir sky empty3 a).2.rows = none) ∧
    ((a.nside = h.nside ∨ a.pixel = none) → (ebv3 disk reorder dir sky empty3 a).2.rows = some (if h.nested then reorder h.rows else h.rows) ∧
      ∀ v, (ebv3 disk reorder dir sky empty3 a).1 = .ok v ↔ Answer3 sky (if h.nested then reorder h.rows else h.rows) h.nside a v) := by
  have h0 : (a.pixel.isNone && a.pos.isNone) = false := by
    rcases ha with h1 | h1 <;> obtain ⟨x, hx⟩ := Option.isSome_iff_exists.mp h1 <;> simp [hx]
  unfold ebv3
  rw [h0, if_neg (by simp), mapFile_of_named disk dir a f hf]
  simp only [hasMapFile, Bool.not_false, if_true, empty3, hd]
  constructor
  · intro h1 h2
    rw [if_pos ⟨h1, h2⟩]
    exact ⟨rfl, rfl⟩
  · intro h1
    rw [if_neg (by rintro ⟨h2, h3⟩; rcases h1 with h1 | h1; exacts [h2 h1, by simp [h1] at h3])]
    exact ⟨rfl, fun v => look3_ok sky _ _ a v⟩

/-- After a map was read, all calls use it, whatever file and resolution they ask for. -/
theorem ebv3_stale (reorder : List V → List V) (dir : String) (sky : Sky P V) (st : Ebv3 V) (m : List V) (hm : st.rows = some m)
    (as : List ((String → Option (File V)) × Args P)) (disk : String → Option (File V)) (a : Args P) :
    (calls3 reorder dir sky st as).rows = some m ∧
      ((a.pixel.isSome ∨ a.pos.isSome) → ∀ f, Named disk dir a f → ∀ v, (ebv3 disk reorder dir sky (calls3 reorder dir sky st as) a).1 = .ok v ↔ Answer3 sky m a.nside a v) := by
  have step : ∀ (st : Ebv3 V) (disk : String → Option (File V)) (a : Args P), st.rows = some m → (ebv3 disk reorder dir sky st a).2.rows = some m := by
    intro st disk a hm
    unfold ebv3
    split
    · exact hm
    · split
      · exact hm
      · simp only [hasMapFile, Bool.not_false, if_true, hm, ne_eq, not_true_eq_false, if_false]
  have inv : ∀ (as : List ((String → Option (File V)) × Args P)) (st : Ebv3 V), st.rows = some m → (calls3 reorder dir sky st as).rows = some m := by
    intro as
    induction as with
    | nil => exact fun st h => h
    | cons b as ih => exact fun st h => ih _ (step st b.1 b.2 h)
  refine ⟨inv as st hm, ?_⟩
  intro ha f hf v
  have h0 : (a.pixel.isNone && a.pos.isNone) = false := by
    rcases ha with h1 | h1 <;> obtain ⟨x, hx⟩ := Option.isSome_iff_exists.mp h1 <;> simp [hx]
  have hrows := inv as st hm
  generalize calls3 reorder dir sky st as = s at hrows
  unfold ebv3
  rw [h0, if_neg (by simp), mapFile_of_named disk dir a f hf]
  simp only [hasMapFile, Bool.not_false, if_true, hrows, ne_eq, not_true_eq_false, if_false]
  exact look3_ok sky m a.nside a v

/-- The value after calls that all ask for the same file in its resolution, on the same disk. -/
theorem ebv3_partial (disk : String → Option (File V)) (reorder : List V → List V) (dir : String) (sky : Sky P V) (f : String) (h : File V) (hd : disk f = some h)
    (as : List (Args P)) (has : ∀ b ∈ as, (b.pixel.isSome ∨ b.pos.isSome) ∧ Named disk dir b f ∧ b.nside = h.nside)
    (a : Args P) (ha : a.pixel.isSome ∨ a.pos.isSome) (hf : Named disk dir a f) (hn : a.nside = h.nside) (v : V) :
    (ebv3 disk reorder dir sky (calls3 reorder dir sky empty3 (as.map (fun b => (disk, b)))) a).1 = .ok v ↔
      Answer3 sky (if h.nested then reorder h.rows else h.rows) h.nside a v := by
  cases as with
  | nil => exact ((ebv3_first disk reorder dir sky a f h ha hf hd).2 (Or.inl hn)).2 v
  | cons b as =>
    obtain ⟨b1, b2, b3⟩ := has b List.mem_cons_self
    have h1 := ((ebv3_first disk reorder dir sky b f h b1 b2 hd).2 (Or.inl b3)).1
    have h2 := ebv3_stale reorder dir sky _ _ h1 (as.map (fun b => (disk, b))) disk a
    rw [List.map_cons]
    show (ebv3 disk reorder dir sky (calls3 reorder dir sky (ebv3 disk reorder dir sky empty3 b).2 _) a).1 = .ok v ↔ _
    rw [h2.2 ha f hf v, hn]

/-- What a user of the function expects: earlier calls do not matter. -/
def NoHistory : Prop := ∀ (P V : Type) (disk : String → Option (File V)) (reorder : List V → List V) (dir : String) (sky : Sky P V) (as : List (Args P)) (a : Args P),
  (ebv3 disk reorder dir sky (calls3 reorder dir sky empty3 (as.map (fun b => (disk, b)))) a).1 = (ebv3 disk reorder dir sky empty3 a).1

/-- Two files: the second call gives the value of the first file. -/
theorem history_false : ¬ NoHistory := by
  intro h
  have := h Unit ℕ (fun f => if f = "a" then some ⟨64, false, [1]⟩ else if f = "b" then some ⟨64, false, [2]⟩ else none) id "" ⟨fun _ _ => 0, fun _ _ => 0⟩
    [⟨64, some "a", some 0, none, false⟩] ⟨64, some "b", some 0, none, false⟩
  simp [ebv3, calls3, empty3, mapFile, hasMapFile, look3, index] at this

/-- The same call twice, for a file of another resolution: the second has the pixel of the wrong resolution. -/
theorem repeat_false : ¬ ∀ (P V : Type) (disk : String → Option (File V)) (reorder : List V → List V) (dir : String) (sky : Sky P V) (a : Args P),
    (ebv3 disk reorder dir sky (ebv3 disk reorder dir sky empty3 a).2 a).1 = (ebv3 disk reorder dir sky empty3 a).1 := by
  intro h
  have := h Unit ℕ (fun f => if f = "a" then some ⟨2, false, [1, 2]⟩ else none) id "" ⟨fun n _ => n - 1, fun _ _ => 0⟩ ⟨1, some "a", none, some (), false⟩
  simp [ebv3, empty3, mapFile, hasMapFile, look3, index] at this

/-! ## C259 -/

/-- **C259.** The nearest value in the list, and of those the first. -/
theorem nearest_spec (goal : ℝ) (l : List (ℝ × ℝ)) (p : ℝ × ℝ) (h : nearest goal l = some p) :
    ∃ i : ℕ, l[i]? = some p ∧ (∀ q ∈ l, |p.1 - goal| ≤ |q.1 - goal|) ∧ ∀ j q, j < i → l[j]? = some q → |p.1 - goal| < |q.1 - goal| := by
  cases l with
  | nil => simp [nearest] at h
  | cons a l =>
    simp only [nearest, Option.some.injEq] at h
    have key : ∀ (l pre : List (ℝ × ℝ)) (b : ℝ × ℝ) (i : ℕ), pre[i]? = some b → (∀ q ∈ pre, |b.1 - goal| ≤ |q.1 - goal|) →
        (∀ j q, j < i → pre[j]? = some q → |b.1 - goal| < |q.1 - goal|) →
        ∃ i : ℕ, (pre ++ l)[i]? = some (l.foldl (fun b q => if |q.1 - goal| < |b.1 - goal| then q else b) b) ∧
          (∀ q ∈ pre ++ l, |(l.foldl (fun b q => if |q.1 - goal| < |b.1 - goal| then q else b) b).1 - goal| ≤ |q.1 - goal|) ∧
          ∀ j q, j < i → (pre ++ l)[j]? = some q → |(l.foldl (fun b q => if |q.1 - goal| < |b.1 - goal| then q else b) b).1 - goal| < |q.1 - goal| := by
      intro l
      induction l with
      | nil =>
        intro pre b i h1 h2 h3
        rw [List.append_nil]
        exact ⟨i, h1, h2, h3⟩
      | cons c l ih =>
        intro pre b i h1 h2 h3
        rw [List.foldl_cons, show pre ++ c :: l = (pre ++ [c]) ++ l by simp]
        by_cases hc : |c.1 - goal| < |b.1 - goal|
        · rw [if_pos hc]
          apply ih (pre ++ [c]) c pre.length (by simp)
          · intro q hq
            rcases List.mem_append.mp hq with hq | hq
            · exact hc.le.trans (h2 q hq)
            · rw [List.mem_singleton.mp hq]
          · intro j q hj hq
            rw [List.getElem?_append_left hj] at hq
            exact hc.trans_le (h2 q (List.mem_of_getElem? hq))
        · rw [if_neg hc]
          have hi : i < pre.length := by
            by_contra hge
            rw [List.getElem?_eq_none (by omega)] at h1
            cases h1
          apply ih (pre ++ [c]) b i (by rw [List.getElem?_append_left hi]; exact h1)
          · intro q hq
            rcases List.mem_append.mp hq with hq | hq
            · exact h2 q hq
            · rw [List.mem_singleton.mp hq]
              exact not_lt.mp hc
          · intro j q hj hq
            rw [List.getElem?_append_left (by omega)] at hq
            exact h3 j q hj hq
    have := key l [a] a 0 rfl (by simp) (by intro j q hj; omega)
    rw [h] at this
    simpa using this

theorem nearest_isSome (goal : ℝ) (l : List (ℝ × ℝ)) (h : l ≠ []) : ∃ p, nearest goal l = some p := by
  cases l with
  | nil => exact absurd rfl h
  | cons a l => exact ⟨_, rfl⟩

/-- The distance at which distance and a fixed extinction give the change of magnitude. -/
theorem distMod_far (dmag a : ℝ) : distMod ((10 : ℝ) ^ (0.2 * (dmag - a) + 1)) + a = dmag := by
  unfold distMod
  rw [Real.logb_rpow (by norm_num) (by norm_num)]
  ring

/-- The distance is the greater of the nearest in the map and of that with the extinction at the end. -/
theorem distAt_spec (map : Bool) (rx dmag : ℝ) (l : List (ℝ × ℝ)) (d : ℝ) (h : distAt map rx dmag l = some d) :
    ∃ c a, nearest dmag (l.map (fun p => (distMod p.1 + rx * p.2, p.1))) = some c ∧
      (if map then (l.map (fun p => rx * p.2)).getLast? else (l.map (fun p => rx * p.2)).max?) = some a ∧
      d = max ((10 : ℝ) ^ (0.2 * (dmag - a) + 1)) c.2 := by
  unfold distAt at h
  simp only at h
  split at h
  · rename_i c a h1 h2
    simp only [Option.some.injEq] at h
    refine ⟨c, a, h1, h2, ?_⟩
    rw [← h]
    split
    · rename_i hgt
      rw [max_eq_left hgt.le]
    · rename_i hgt
      rw [max_eq_right (not_lt.mp hgt)]
  · cases h

/-- Beyond the end of the map: if all changes in the map are less, the result has the change with the last extinction. -/
theorem distAt_far (rx dmag : ℝ) (l : List (ℝ × ℝ)) (p : ℝ × ℝ) (hrx : 0 ≤ rx) (hpos : ∀ q ∈ l, 0 < q.1 ∧ q.1 ≤ p.1 ∧ q.2 ≤ p.2) (hp : l.getLast? = some p)
    (hd : distMod p.1 + rx * p.2 ≤ dmag) : ∃ d, distAt true rx dmag l = some d ∧ p.1 ≤ d ∧ distMod d + rx * p.2 = dmag := by
  have hne : l ≠ [] := by
    rintro rfl
    simp at hp
  obtain ⟨c, hc⟩ := nearest_isSome dmag (l.map (fun p => (distMod p.1 + rx * p.2, p.1))) (by simpa using hne)
  have hlast : (l.map (fun p => rx * p.2)).getLast? = some (rx * p.2) := by
    rw [List.getLast?_map, hp]
    rfl
  obtain ⟨i, hi, _⟩ := nearest_spec _ _ _ hc
  have hcm := List.mem_of_getElem? hi
  obtain ⟨q, hq, hqc⟩ := List.mem_map.mp hcm
  have hmem : p ∈ l := List.mem_of_getLast? hp
  have hp0 : 0 < p.1 := (hpos p hmem).1
  have hfar : p.1 ≤ (10 : ℝ) ^ (0.2 * (dmag - rx * p.2) + 1) := by
    unfold distMod at hd
    have h1 : logb 10 p.1 ≤ 0.2 * (dmag - rx * p.2) + 1 := by linarith
    exact (Real.logb_le_iff_le_rpow (by norm_num) hp0).mp h1
  have hc2 : c.2 ≤ (10 : ℝ) ^ (0.2 * (dmag - rx * p.2) + 1) := by
    rw [← hqc]
    exact (hpos q hq).2.1.trans hfar
  refine ⟨(10 : ℝ) ^ (0.2 * (dmag - rx * p.2) + 1), ?_, hfar, distMod_far _ _⟩
  unfold distAt
  simp only [if_true, hlast, hc]
  split
  · rfl
  · rename_i hgt
    rw [le_antisymm hc2 (not_lt.mp hgt)]

theorem max_last (l : List ℝ) (x : ℝ) (hl : l.getLast? = some x) (h : ∀ y ∈ l, y ≤ x) : l.max? = some x := by
  rw [List.max?_eq_some_iff]
  exact ⟨List.mem_of_getLast? hl, h⟩

/-- For extinctions that do not decrease the result for one point is that for all. -/
theorem distAt_single_partial (rx dmag : ℝ) (l : List (ℝ × ℝ)) (p : ℝ × ℝ) (hrx : 0 ≤ rx) (hp : l.getLast? = some p) (h : ∀ q ∈ l, q.2 ≤ p.2) :
    distAt false rx dmag l = distAt true rx dmag l := by
  have h1 : (l.map (fun p => rx * p.2)).getLast? = some (rx * p.2) := by
    rw [List.getLast?_map, hp]
    rfl
  have h2 := max_last (l.map (fun p => rx * p.2)) (rx * p.2) h1 (by
    intro y hy
    obtain ⟨q, hq, rfl⟩ := List.mem_map.mp hy
    exact mul_le_mul_of_nonneg_left (h q hq) hrx)
  unfold distAt
  simp only [h1, h2]
  rfl

/-- What the comment in the code says: the same for one slice point and for the map. -/
def SingleAsMap : Prop := ∀ (rx dmag : ℝ) (l : List (ℝ × ℝ)), 0 < rx → (∀ p ∈ l, 0 < p.1 ∧ 0 ≤ p.2) → distAt false rx dmag l = distAt true rx dmag l

theorem single_map_false : ¬ SingleAsMap := by
  intro h
  have h1 := h 1 0 [(1, 10), (1, 0)] one_pos (by norm_num)
  have e1 : distAt true 1 0 [((1 : ℝ), (10 : ℝ)), (1, 0)] = some 10 := by
    norm_num [distAt, nearest, distMod]
  have e2 : distAt false 1 0 [((1 : ℝ), (10 : ℝ)), (1, 0)] = some 1 := by
    have : ¬ ((10 : ℝ) ^ (-1 : ℝ) > 1) := by
      rw [Real.rpow_neg_one]
      norm_num
    norm_num [distAt, nearest, distMod, List.max?] at this ⊢
  rw [e1, e2] at h1
  norm_num at h1

/-! ## C260 -/

theorem remove_none (pat : Str) (t : Str) (n : ℕ) (h : ¬ pat <:+: t) : remove pat n t = t := by
  induction n generalizing t with
  | zero => rfl
  | succ n ih =>
    cases t with
    | nil => rfl
    | cons c t =>
      have h1 : pat.isPrefixOf (c :: t) = false := by
        rw [Bool.eq_false_iff]
        intro hp
        exact h (List.isPrefixOf_iff_prefix.mp hp).isInfix
      simp only [remove, h1, Bool.false_eq_true, if_false]
      rw [ih t (fun hi => h (hi.trans (List.suffix_cons c t).isInfix))]

theorem split_two (s f : Str) (hs : ':' ∉ s) (hf : ':' ∉ f) : (s ++ ':' :: f).splitOn ':' = [s, f] := by
  rw [show s ++ ':' :: f = [':'].intercalate [s, f] by simp [List.intercalate]]
  exact List.splitOn_intercalate ':' (by simp [hs, hf]) (by simp)

/-- **C260.** The key of a filter and a science map gives these back. -/
theorem key_roundtrip (f s : Str) (hs : ':' ∉ s) (hf : ':' ∉ f) (hs' : ¬ prefixStr <:+: s) (hf' : ¬ prefixStr <:+: f) : toComponents (toKey f s) = .ok (f, s) := by
  have hinf : ¬ prefixStr <:+: (s ++ ':' :: f) := by
    intro h
    obtain ⟨a, b, hab⟩ := h
    have hno : ':' ∉ prefixStr := by decide
    rcases List.append_eq_append_iff.mp (show a ++ (prefixStr ++ b) = s ++ ':' :: f by simpa using hab) with ⟨c, h1, h2⟩ | ⟨c, h1, h2⟩
    · rcases List.append_eq_append_iff.mp h2 with ⟨d, h3, h4⟩ | ⟨d, h3, h4⟩
      · exact hs' ⟨a, d, by rw [h1, h3, List.append_assoc]⟩
      · cases d with
        | nil =>
          rw [List.append_nil] at h3
          exact hs' ⟨a, [], by rw [h1, ← h3, List.append_nil]⟩
        | cons x d =>
          rw [List.cons_append, List.cons.injEq] at h4
          apply hno
          rw [h3, ← h4.1]
          simp
    · cases c with
      | nil =>
        rw [List.nil_append] at h2
        apply hno
        cases hp : prefixStr with
        | nil => cases hp
        | cons x t =>
          rw [hp, List.cons_append, List.cons.injEq] at h2
          rw [h2.1]
          exact List.mem_cons_self
      | cons x c =>
        rw [List.cons_append, List.cons.injEq] at h2
        exact hf' ⟨c, b, by rw [h2.2]; simp⟩
  have hpre : (toKey f s) = prefixStr ++ (s ++ ':' :: f) := by simp [toKey]
  have hlen : ∃ n, (toKey f s).length = n + 1 := by
    have h1 : 0 < (toKey f s).length := by
      rw [hpre, List.length_append]
      have : prefixStr.length = 18 := by decide
      omega
    exact ⟨(toKey f s).length - 1, by omega⟩
  obtain ⟨n, hn⟩ := hlen
  have hcons : ∃ c t, toKey f s = c :: t := by
    cases h : toKey f s with
    | nil => rw [h] at hn; cases hn
    | cons c t => exact ⟨c, t, rfl⟩
  obtain ⟨c, t, hct⟩ := hcons
  have hrem : remove prefixStr (toKey f s).length (toKey f s) = s ++ ':' :: f := by
    rw [hn, hct]
    have hp : prefixStr.isPrefixOf (c :: t) = true := by
      rw [List.isPrefixOf_iff_prefix, ← hct, hpre]
      exact List.prefix_append _ _
    simp only [remove, hp, if_true]
    rw [← hct, hpre, List.drop_left]
    exact remove_none _ _ _ hinf
  unfold toComponents
  rw [hrem, split_two s f hs hf]

/-- With a colon in the name of the science map it is an exception. -/
theorem key_colon : toComponents (toKey "u".toList "a:b".toList) = .error "ValueError" := by
  decide

/-! ## C261 -/

theorem readAll_maps (enum : List Str → List Str) (file : Str → Option (Table V)) : ∀ (fs : List Str) (st : Gal V), (readAll enum file fs st).1 = .ok () → st.maps.isSome →
    ∃ ts : List (Table V), fs.map file = ts.map some ∧ (readAll enum file fs st).2.maps = some (st.maps.getD [] ++ fs.zip ts) := by
  intro fs
  induction fs with
  | nil =>
    intro st _ hs
    obtain ⟨ms, hm⟩ := Option.isSome_iff_exists.mp hs
    exact ⟨[], rfl, by simp [readAll, hm]⟩
  | cons f fs ih =>
    intro st h hs
    unfold readAll at h ⊢
    cases hf : file f with
    | none => rw [hf] at h; cases h
    | some t =>
      rw [hf] at h
      obtain ⟨ts, h1, h2⟩ := ih _ h rfl
      refine ⟨t :: ts, by simp [hf, h1], ?_⟩
      simp only
      rw [h2]
      simp

theorem lookup_zip_map (file : Str → Option (Table V)) (f : Str) : ∀ (fs : List Str) (ts : List (Table V)), fs.map file = ts.map some → f ∈ fs → (fs.zip ts).lookup f = file f := by
  intro fs
  induction fs with
  | nil => intro ts _ h; cases h
  | cons g fs ih =>
    intro ts h hf
    cases ts with
    | nil => simp at h
    | cons t ts =>
      simp only [List.map_cons, List.cons.injEq] at h
      rw [List.zip_cons_cons, List.lookup_cons]
      by_cases hg : f = g
      · subst hg
        simp [h.1]
      · have : (f == g) = false := by simpa using hg
        rw [this]
        rcases List.mem_cons.mp hf with hf | hf
        · exact absurd hf hg
        · exact ih ts h.2 hf

theorem valuesOf_spec (sky : Sky P V) (maps : List (Str × Table V)) (a : Args P) : ∀ (ks : List Str) (d : List (Str × V)), valuesOf sky maps a ks = .ok d →
    d.map Prod.fst = ks ∧ ∀ k v, (k, v) ∈ d → valueOf sky maps a k = .ok v := by
  intro ks
  induction ks with
  | nil =>
    intro d h
    simp only [valuesOf, Except.ok.injEq] at h
    subst h
    simp
  | cons k ks ih =>
    intro d h
    unfold valuesOf at h
    cases hv : valueOf sky maps a k with
    | error e => rw [hv] at h; cases h
    | ok v =>
      rw [hv] at h
      cases hd : valuesOf sky maps a ks with
      | error e => rw [hd] at h; cases h
      | ok d' =>
        rw [hd] at h
        simp only [Except.ok.injEq] at h
        subst h
        obtain ⟨h1, h2⟩ := ih d' hd
        refine ⟨by simp [h1], ?_⟩
        intro k' v' hm
        rcases List.mem_cons.mp hm with he | hm
        · rw [Prod.mk.injEq] at he
          rw [he.1, he.2, hv]
        · exact h2 k' v' hm

theorem clean_filters : ∀ f ∈ filters, ':' ∉ f ∧ ¬ prefixStr <:+: f := by
  decide

/-- **C261.** The first call gives, for each filter and science map, the value of the file of the filter in the directory of the call. -/
theorem gal_first (enum : List Str → List Str) (disk : Option String → Bool → Str → Option (Table V)) (sky : Sky P V) (alt : Bool) (a : Args P) (d : List (Str × V))
    (h : (galplane enum disk sky ⟨none, none⟩ false alt a).1 = .ok (.vals d)) :
    a.nside = 64 ∧ (∃ ss : List Str, d.map Prod.fst = filters.flatMap (fun f => ss.map (fun s => "galplane_priority_".toList ++ s ++ ':' :: f))) ∧
      ∀ f ∈ filters, ∀ s v, ':' ∉ s → ¬ "galplane_priority_".toList <:+: s → ("galplane_priority_".toList ++ s ++ ':' :: f, v) ∈ d →
        ∃ t m, disk a.path alt f = some t ∧ t.lookup s = some m ∧ Answer3 sky m a.nside a v := by
  unfold galplane at h
  by_cases h0 : (!false && a.pixel.isNone && a.pos.isNone) = true
  · rw [if_pos h0] at h; cases h
  · rw [if_neg h0] at h
    by_cases h1 : a.nside ≠ 64
    · rw [if_pos h1] at h; cases h
    · rw [if_neg h1] at h
      simp only at h
      have hr := readAll_maps enum (disk a.path alt) filters ⟨some [], none⟩
      revert h hr
      generalize readAll enum (disk a.path alt) filters ⟨some [], none⟩ = r
      intro h hr
      cases hr1 : r.1 with
      | error e => rw [hr1] at h; cases h
      | ok u =>
        rw [hr1] at h
        obtain ⟨ts, h2, h3⟩ := hr (by rw [hr1]) rfl
        simp only [Option.getD_some, List.nil_append] at h3
        cases hs : r.2.science with
        | none => rw [hs] at h; cases h
        | some ss =>
          rw [hs] at h
          simp only [Bool.false_eq_true, if_false, h3, Option.getD_some] at h
          cases hv : valuesOf sky (filters.zip ts) a (filters.flatMap (fun f => ss.map (fun s => toKey f s))) with
          | error e => rw [hv] at h; cases h
          | ok d' =>
            rw [hv] at h
            simp only [Except.ok.injEq, Got.vals.injEq] at h
            subst h
            obtain ⟨hk, hval⟩ := valuesOf_spec sky _ a _ _ hv
            refine ⟨not_not.mp h1, ⟨ss, hk⟩, ?_⟩
            intro f hf s v hc hi hm
            have hv2 := hval _ _ hm
            have hclean : ':' ∉ f ∧ ¬ prefixStr <:+: f := clean_filters f hf
            unfold valueOf at hv2
            have hcomp := key_roundtrip f s hc hclean.1 hi hclean.2
            unfold toKey prefixStr at hcomp
            rw [hcomp] at hv2
            simp only [lookup_zip_map (disk a.path alt) f filters ts h2 hf] at hv2
            cases ht : disk a.path alt f with
            | none => rw [ht] at hv2; cases hv2
            | some t =>
              rw [ht] at hv2
              simp only at hv2
              cases hl : t.lookup s with
              | none => rw [hl] at hv2; cases hv2
              | some m =>
                rw [hl] at hv2
                exact ⟨t, m, rfl, hl, (look3_ok sky m a.nside a v).mp hv2⟩

/-- Once the maps were read nothing is read again. -/
theorem gal_stale (enum : List Str → List Str) (disk disk' : Option String → Bool → Str → Option (Table V)) (sky : Sky P V) (st : Gal V) (ms : List (Str × Table V)) (hst : st.maps = some ms)
    (getKeys alt alt' : Bool) (a : Args P) (path : Option String) :
    galplane enum disk sky st getKeys alt a = galplane enum disk' sky st getKeys alt' { a with path := path } ∧ (galplane enum disk sky st getKeys alt a).2 = st := by
  have hv : ∀ (ms : List (Str × Table V)) (ks : List Str), valuesOf sky ms { a with path := path } ks = valuesOf sky ms a ks := by
    intro ms ks
    induction ks with
    | nil => rfl
    | cons k ks ih =>
      simp only [valuesOf, ih]
      rfl
  unfold galplane
  simp only [hst, hv]
  refine ⟨trivial, ?_⟩
  split
  · rfl
  · split
    · rfl
    · split
      · rfl
      · split
        · rfl
        · split <;> rfl

/-- The maps of the class come from the standard directory: the one given is never used. -/
theorem gal_path (enum : List Str → List Str) (disk : Option String → Bool → Str → Option (Table V)) (sky : Sky P V) (st : Gal V) (path path' : Option String) (nside sid : ℕ) :
    galRun enum disk sky (galInit enum disk sky st).2 path nside sid = galRun enum disk sky (galInit enum disk sky st).2 path' nside sid := by
  have hm : ∃ ms, (galInit enum disk sky st).2.maps = some ms := by
    have hr : ∀ (file : Str → Option (Table V)) (fs : List Str) (s : Gal V), s.maps.isSome → (readAll enum file fs s).2.maps.isSome := by
      intro file fs
      induction fs with
      | nil => exact fun s h => h
      | cons f fs ih =>
        intro s hs
        unfold readAll
        cases file f with
        | none => exact hs
        | some t => exact ih _ rfl
    rw [← Option.isSome_iff_exists]
    unfold galInit galplane
    simp only [Bool.not_true, Bool.false_and, Bool.false_eq_true, if_false, ne_eq, not_true_eq_false, if_true]
    cases hst : st.maps with
    | none =>
      have h1 := hr (disk none false) filters ⟨some [], st.science⟩ rfl
      simp only
      split
      · exact h1
      · split <;> exact h1
    | some ms =>
      simp only
      cases st.science <;> simp [hst]
  obtain ⟨ms, hms⟩ := hm
  exact (gal_stale enum disk disk sky _ ms hms false false false ⟨nside, path, some sid, none, false⟩ path').1

/-- What the class says: the directory given is that of the files. -/
def PathUsed : Prop := ∀ (enum : List Str → List Str) (disk : Option String → Bool → Str → Option (Table ℕ)) (sky : Sky Unit ℕ) (path : String) (f s : Str) (t : Table ℕ) (m : List ℕ) (v : ℕ) (d : List (Str × ℕ)),
  (galRun enum disk sky (galInit enum disk sky ⟨none, none⟩).2 (some path) 64 0).1 = .ok (.vals d) → disk (some path) false f = some t → t.lookup s = some m → m[0]? = some v →
    d.lookup (toKey f s) = some v

theorem path_false : ¬ PathUsed := by
  intro h
  have := h (fun l => l.dedup) (fun p _ _ => if p = none then some [("x".toList, [1])] else some [("x".toList, [2])]) ⟨fun _ _ => 0, fun _ _ => 0⟩ "dir" "u".toList "x".toList
    [("x".toList, [2])] [2] 2 (filters.map (fun f => (toKey f "x".toList, 1))) (by rfl) (by rfl) (by rfl) (by rfl)
  revert this
  decide

/-- After a file was missing all calls are exceptions, even when the files are there. -/
theorem gal_retry_false : ∃ (disk disk' : Option String → Bool → Str → Option (Table ℕ)) (a : Args Unit),
    (∀ p b f, (disk' p b f).isSome) ∧ ∀ sky : Sky Unit ℕ, (galplane List.dedup disk sky ⟨none, none⟩ false false a).1 = .error "FileNotFoundError" ∧
      (galplane List.dedup disk' sky (galplane List.dedup disk sky ⟨none, none⟩ false false a).2 false false a).1 = .error "AttributeError" :=
  ⟨fun _ _ _ => none, fun _ _ _ => some [("x".toList, [1])], ⟨64, none, some 0, none, false⟩, fun _ _ _ => rfl, fun _ => ⟨rfl, rfl⟩⟩

/-! ## C262 -/

theorem uniq_inv (all : List Map) : ∀ acc : List Map, acc.Pairwise (fun m n => m.keys ≠ n.keys) →
    (all.foldl (fun acc m => if acc.any (fun n => Map.eq m n) then acc else acc ++ [m]) acc).Pairwise (fun m n => m.keys ≠ n.keys) ∧
      ∃ add, all.foldl (fun acc m => if acc.any (fun n => Map.eq m n) then acc else acc ++ [m]) acc = acc ++ add ∧ add.Sublist all ∧
        ∀ m ∈ all, ∃ n ∈ acc ++ add, n.keys = m.keys := by
  induction all with
  | nil => exact fun acc h => ⟨h, [], by simp, List.Sublist.refl _, by simp⟩
  | cons m all ih =>
    intro acc h
    rw [List.foldl_cons]
    by_cases hm : acc.any (fun n => Map.eq m n) = true
    · rw [if_pos hm]
      obtain ⟨h1, add, h2, h3, h4⟩ := ih acc h
      refine ⟨h1, add, h2, h3.cons _, ?_⟩
      intro k hk
      rcases List.mem_cons.mp hk with rfl | hk
      · obtain ⟨n, hn, he⟩ := List.any_eq_true.mp hm
        exact ⟨n, List.mem_append_left _ hn, (of_decide_eq_true he).symm⟩
      · exact h4 k hk
    · rw [if_neg hm]
      obtain ⟨h1, add, h2, h3, h4⟩ := ih (acc ++ [m]) (by
        rw [List.pairwise_append]
        refine ⟨h, by simp, ?_⟩
        intro a ha b hb
        rw [List.mem_singleton.mp hb]
        intro he
        exact hm (List.any_eq_true.mpr ⟨a, ha, decide_eq_true he.symm⟩))
      refine ⟨h1, m :: add, by rw [h2]; simp, h3.cons_cons _, ?_⟩
      intro k hk
      rcases List.mem_cons.mp hk with rfl | hk
      · exact ⟨k, by simp, rfl⟩
      · obtain ⟨n, hn, he⟩ := h4 k hk
        exact ⟨n, by simpa using hn, he⟩

/-- **C262.** The maps of a group are some of those of its bundles, with different keys, and all keys are added. -/
theorem uniq_spec (all : List Map) : (uniq all).Sublist all ∧ (uniq all).Pairwise (fun m n => m.keys ≠ n.keys) ∧ ∀ m ∈ all, ∃ n ∈ uniq all, n.keys = m.keys := by
  obtain ⟨h1, add, h2, h3, h4⟩ := uniq_inv all [] List.Pairwise.nil
  rw [List.nil_append] at h2 h4
  unfold uniq
  refine ⟨by rw [h2]; exact h3, h1, ?_⟩
  rw [h2]
  exact h4

/-- If maps with the same keys are the same, all maps are run. -/
theorem all_run_partial (all : List Map) (h : ∀ m ∈ all, ∀ n ∈ all, m.keys = n.keys → m = n) (m : Map) : m ∈ uniq all ↔ m ∈ all := by
  obtain ⟨h1, _, h3⟩ := uniq_spec all
  constructor
  · exact fun hm => h1.subset hm
  · intro hm
    obtain ⟨n, hn, he⟩ := h3 m hm
    rw [← h n (h1.subset hn) m hm he]
    exact hn

/-- What a user relies on: each map of the bundles is run. -/
def AllRun : Prop := ∀ all : List Map, ∀ m ∈ all, m ∈ uniq all

/-- The two maps of stars have the same keys, so that only the first is used; the same holds for two resolutions of dust. -/
theorem all_run_false : ¬ AllRun := by
  intro h
  have := h [⟨"StellarDensityMap", "r", ["starLumFunc_r", "starMapBins_r"]⟩, ⟨"TrilegalDensityMap", "r", ["starLumFunc_r", "starMapBins_r"]⟩]
    ⟨"TrilegalDensityMap", "r", ["starLumFunc_r", "starMapBins_r"]⟩ (by decide)
  revert this
  decide

theorem addNeeds_spec (make : String → Option Map) (hmake : ∀ n m, make n = some m → m.cls = n) : ∀ (needs : List Need) (l : List Map) (names : List String) (out : List Map),
    (∀ n, n ∈ names ↔ ∃ m ∈ l, m.cls = n) → addNeeds make needs l names = .ok out →
      (∃ add, out = l ++ add) ∧ (∀ n, Need.name n ∈ needs → ∃ m ∈ out, m.cls = n) ∧ (∀ m, Need.obj m ∈ needs → ∃ m' ∈ out, m'.keys = m.keys) := by
  intro needs
  induction needs with
  | nil =>
    intro l names out _ h
    simp only [addNeeds, Except.ok.injEq] at h
    exact ⟨⟨[], by simp [h]⟩, by simp, by simp⟩
  | cons need needs ih =>
    intro l names out hn h
    cases need with
    | name n =>
      unfold addNeeds at h
      by_cases hin : n ∈ names
      · rw [if_pos hin] at h
        obtain ⟨⟨add, h1⟩, h2, h3⟩ := ih l names out hn h
        refine ⟨⟨add, h1⟩, ?_, ?_⟩
        · intro k hk
          rcases List.mem_cons.mp hk with he | hk
          · rw [Need.name.injEq] at he
            obtain ⟨m, hm, hc⟩ := (hn n).mp hin
            exact ⟨m, by rw [h1]; exact List.mem_append_left _ hm, by rw [hc, he]⟩
          · exact h2 k hk
        · intro k hk
          rcases List.mem_cons.mp hk with he | hk
          · cases he
          · exact h3 k hk
      · rw [if_neg hin] at h
        cases hmk : make n with
        | none => rw [hmk] at h; cases h
        | some m =>
          rw [hmk] at h
          simp only at h
          obtain ⟨⟨add, h1⟩, h2, h3⟩ := ih (l ++ [m]) (names ++ [n]) out (by
            intro k
            simp only [List.mem_append, List.mem_singleton, hn]
            constructor
            · rintro (⟨x, hx, hc⟩ | rfl)
              · exact ⟨x, Or.inl hx, hc⟩
              · exact ⟨m, Or.inr rfl, hmake _ _ hmk⟩
            · rintro ⟨x, hx | rfl, hc⟩
              · exact Or.inl ⟨x, hx, hc⟩
              · exact Or.inr (by rw [← hc, hmake _ _ hmk])) h
          refine ⟨⟨m :: add, by rw [h1]; simp⟩, ?_, ?_⟩
          · intro k hk
            rcases List.mem_cons.mp hk with he | hk
            · rw [Need.name.injEq] at he
              exact ⟨m, by rw [h1]; simp, by rw [hmake _ _ hmk, he]⟩
            · exact h2 k hk
          · intro k hk
            rcases List.mem_cons.mp hk with he | hk
            · cases he
            · exact h3 k hk
    | obj m =>
      unfold addNeeds at h
      by_cases hin : l.any (fun n => Map.eq m n) = true
      · rw [if_pos hin] at h
        obtain ⟨⟨add, h1⟩, h2, h3⟩ := ih l names out hn h
        refine ⟨⟨add, h1⟩, ?_, ?_⟩
        · intro k hk
          rcases List.mem_cons.mp hk with he | hk
          · cases he
          · exact h2 k hk
        · intro k hk
          rcases List.mem_cons.mp hk with he | hk
          · rw [Need.obj.injEq] at he
            obtain ⟨x, hx, hc⟩ := List.any_eq_true.mp hin
            exact ⟨x, by rw [h1]; exact List.mem_append_left _ hx, by rw [he]; exact (of_decide_eq_true hc).symm⟩
          · exact h3 k hk
      · rw [if_neg hin] at h
        obtain ⟨⟨add, h1⟩, h2, h3⟩ := ih (l ++ [m]) (names ++ [m.cls]) out (by
            intro k
            simp only [List.mem_append, List.mem_singleton, hn]
            constructor
            · rintro (⟨x, hx, hc⟩ | rfl)
              · exact ⟨x, Or.inl hx, hc⟩
              · exact ⟨m, Or.inr rfl, rfl⟩
            · rintro ⟨x, hx | rfl, hc⟩
              · exact Or.inl ⟨x, hx, hc⟩
              · exact Or.inr hc.symm) h
        refine ⟨⟨m :: add, by rw [h1]; simp⟩, ?_, ?_⟩
        · intro k hk
          rcases List.mem_cons.mp hk with he | hk
          · cases he
          · exact h2 k hk
        · intro k hk
          rcases List.mem_cons.mp hk with he | hk
          · rw [Need.obj.injEq] at he
            exact ⟨m, by rw [h1]; simp, by rw [he]⟩
          · exact h3 k hk

/-- A bundle has the maps of its list first, then those that the metric needs and that were not there. -/
theorem bundle_spec (make : String → Option Map) (hmake : ∀ n m, make n = some m → m.cls = n) (ms : List Map) (needs : List Need) (out : List Map) (h : bundleMaps make (.many ms) needs = .ok out) :
    (∃ add, out = ms ++ add) ∧ (∀ n, Need.name n ∈ needs → ∃ m ∈ out, m.cls = n) ∧ (∀ m, Need.obj m ∈ needs → ∃ m' ∈ out, m'.keys = m.keys) :=
  addNeeds_spec make hmake needs ms _ out (by intro n; simp) h

/-- What the bundle says: a single map can be given too. -/
def SingleGiven : Prop := ∀ (make : String → Option Map) (m : Map), ∃ out, bundleMaps make (.single m) [] = .ok out

theorem single_false : ¬ SingleGiven := by
  intro h
  obtain ⟨out, ho⟩ := h (fun _ => none) ⟨"DustMap", "", ["ebv"]⟩
  cases ho

/-! ## Stars -/

/-- The rows of a slicer of the same resolution are those of the pixels nearest to its slice points. -/
theorem stellar_spec (near : P → ℕ) (n : ℕ) (rows : List V) (slicer : Option ℕ) (pos : List P)
    (hs : slicer = some n → pos.map near = List.range rows.length) (hpos : ∀ p ∈ pos, near p < rows.length) :
    ∃ out : List V, stellar near n rows slicer pos = .ok out ∧ out.length = pos.length ∧ ∀ (i : ℕ) (p : P), pos[i]? = some p → out[i]? = rows[near p]? := by
  unfold stellar
  by_cases h : slicer = some n
  · rw [if_pos h]
    have hm := hs h
    have hl : pos.length = rows.length := by
      have := congrArg List.length hm
      simpa using this
    refine ⟨rows, rfl, hl.symm, ?_⟩
    intro i p hp
    have h1 : (pos.map near)[i]? = some (near p) := by rw [List.getElem?_map, hp]; rfl
    rw [hm] at h1
    have hi : i < rows.length := by
      obtain ⟨hi, _⟩ := List.getElem?_eq_some_iff.mp hp
      omega
    rw [List.getElem?_range hi, Option.some.injEq] at h1
    rw [h1]
  · rw [if_neg h]
    clear hs
    induction pos with
    | nil => exact ⟨[], rfl, rfl, by simp⟩
    | cons p pos ih =>
      obtain ⟨out, h1, h2, h3⟩ := ih (fun q hq => hpos q (List.mem_cons_of_mem _ hq))
      have hp := hpos p List.mem_cons_self
      refine ⟨rows[near p] :: out, ?_, by simp [h2], ?_⟩
      · rw [List.foldr_cons, h1]
        simp [index, List.getElem?_eq_getElem hp]
      · intro i q hq
        cases i with
        | zero =>
          simp only [List.getElem?_cons_zero, Option.some.injEq] at hq ⊢
          rw [← hq, List.getElem?_eq_getElem hp]
        | succ i => exact h3 i q (by simpa using hq)

/-! ## Examples -/

example : toComponents (toKey "r".toList "galactic_plane_map".toList) = .ok ("r".toList, "galactic_plane_map".toList) := by decide

example : (ebv (fun _ n => some [n, 10 * n]) (⟨fun _ _ => 1, fun _ _ => 0⟩ : Sky Unit ℕ) ⟨some 3, some [9], 5⟩ ⟨4, none, none, some (), false⟩).1 = .ok 40 := rfl

example : uniq [⟨"DustMap", "64", ["ebv"]⟩, ⟨"DustMap", "128", ["ebv"]⟩, ⟨"GalCoordsMap", "", ["gall", "galb"]⟩] = [⟨"DustMap", "64", ["ebv"]⟩, ⟨"GalCoordsMap", "", ["gall", "galb"]⟩] := by decide

example : nearest 2 [(1, 5), (2.5, 6), (4, 7)] = some (2.5, 6) := by
  norm_num [nearest]

example : bundleMaps (fun n => some ⟨n, "", [n]⟩) (.many [⟨"DustMap", "64", ["ebv"]⟩]) [.name "DustMap", .name "GalCoordsMap"] =
    .ok [⟨"DustMap", "64", ["ebv"]⟩, ⟨"GalCoordsMap", "", ["GalCoordsMap"]⟩] := by rfl

example : stellar (fun p : ℕ => p / 2) 8 [5, 6] none [0, 3] = .ok [5, 6] := rfl

end Verif.Maps
