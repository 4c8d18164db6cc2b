import Verif.Model.SedFiles
import Verif.Props.Bandpass

/-!
# Reading, writing and normalising spectra, and photometric parameters
-/

namespace Verif.SedFiles

open Verif.Sed Verif.MoSum

set_option linter.unusedSectionVars false

/-! ## Caches -/

section cache
variable {B D : Type*} [DecidableEq B]

/-- What a caller expects: the file with `.gz` if there is one, or else the one without. -/
def Contents (files : Name B → Option D) (b : B) (d : D) : Prop :=
  files (b, true) = some d ∨ (files (b, true) = none ∧ files (b, false) = some d)

theorem disk_iff {files : Name B → Option D} {b : B} {d : D} :
    disk files b = some d ↔ Contents files b d := by
  unfold disk Contents
  cases h : files (b, true) with
  | none => simp
  | some e => simp

/-- Everything in the caches is the contents of a file. -/
def Fresh (s : State B D) : Prop :=
  (∀ b g d, s.lsst (b, g) = some d → Contents s.files b d) ∧
    ∀ b g d, s.misc (b, g) = some d → Contents s.files b d

theorem cached_fresh {s : State B D} (h : Fresh s) {b : B} {d : D} (hc : cached s b = some d) :
    Contents s.files b d := by
  unfold cached at hc
  cases h1 : s.lsst (b, true) with
  | some e =>
    rw [h1] at hc
    cases hc
    exact h.1 b true d h1
  | none =>
    rw [h1] at hc
    dsimp only at hc
    cases h2 : s.lsst (b, false) with
    | some e =>
      rw [h2] at hc
      cases hc
      exact h.1 b false d h2
    | none =>
      rw [h2] at hc
      dsimp only at hc
      cases h3 : s.misc (b, false) with
      | some e =>
        rw [h3] at hc
        cases hc
        exact h.2 b false d h3
      | none =>
        rw [h3] at hc
        exact h.2 b true d hc

theorem read_fresh {s : State B D} (h : Fresh s) (n : Name B) (c : Bool) :
    Fresh (readSed s n c).2 ∧ (readSed s n c).2.files = s.files := by
  unfold readSed
  cases h1 : cached s n.1 with
  | some d => exact ⟨h, rfl⟩
  | none =>
    dsimp only
    cases h2 : disk s.files n.1 with
    | none => exact ⟨h, rfl⟩
    | some d =>
      dsimp only
      split_ifs
      · refine ⟨⟨h.1, fun b g e he => ?_⟩, rfl⟩
        dsimp only at he ⊢
        split_ifs at he with hn
        · cases he
          rw [← hn] at h2
          exact disk_iff.mp h2
        · exact h.2 b g e he
      · exact ⟨h, rfl⟩

/-- If caches agree with the files, every read gives the contents of the file, and raises only
if there is none. -/
theorem read_contents {s : State B D} (h : Fresh s) (n : Name B) (c : Bool) :
    (∀ d, (readSed s n c).1 = some d → Contents s.files n.1 d) ∧
      ∀ d, Contents s.files n.1 d → (readSed s n c).1 = some d := by
  have uniq : ∀ d e, Contents s.files n.1 d → Contents s.files n.1 e → d = e := by
    intro d e hd he
    have := (disk_iff.mpr hd).symm.trans (disk_iff.mpr he)
    exact Option.some.inj this
  unfold readSed
  cases h1 : cached s n.1 with
  | some e =>
    have he := cached_fresh h h1
    refine ⟨fun d hd => ?_, fun d hd => ?_⟩
    · cases hd; exact he
    · rw [uniq d e hd he]
  | none =>
    dsimp only
    cases h2 : disk s.files n.1 with
    | none =>
      refine ⟨fun d hd => (by cases hd), fun d hd => ?_⟩
      rw [disk_iff.mpr hd] at h2
      cases h2
    | some e =>
      have he := disk_iff.mp h2
      refine ⟨fun d hd => ?_, fun d hd => ?_⟩
      · cases hd; exact he
      · rw [uniq d e hd he]

/-- While no file is changed, every read in a sequence of reads, by names with or without suffix
and with or without storing in the cache, gives the contents of the file. -/
theorem reads_partial {s : State B D} (h : Fresh s) (ops : List (Name B × Bool)) (n : Name B) (c : Bool)
    (d : D) : (readSed (ops.foldl (fun s o => (readSed s o.1 o.2).2) s) n c).1 = some d ↔
      Contents s.files n.1 d := by
  have key : ∀ (ops : List (Name B × Bool)) (s' : State B D), Fresh s' →
      Fresh (ops.foldl (fun s o => (readSed s o.1 o.2).2) s') ∧
      (ops.foldl (fun s o => (readSed s o.1 o.2).2) s').files = s'.files := by
    intro ops
    induction ops with
    | nil => intro s' h'; exact ⟨h', rfl⟩
    | cons o ops ih =>
      intro s' h'
      obtain ⟨h1, h2⟩ := read_fresh h' o.1 o.2
      obtain ⟨h3, h4⟩ := ih _ h1
      exact ⟨h3, h4.trans h2⟩
  obtain ⟨h1, h2⟩ := key ops s h
  have := read_contents h1 n c
  rw [h2] at this
  exact ⟨this.1 d, this.2 d⟩

/-- The claim that a read gives the present contents fails after a file that was read is changed,
even if the cache is switched off for the second read. -/
theorem reads_false {d d' : D} (hne : d ≠ d') (b : B) (g : Bool) :
    ∃ s : State B D, Fresh s ∧
      let s' := [Op.read (b, g) true, Op.change (b, true) (some d')].foldl step s
      ∀ c, (readSed s' (b, g) c).1 = some d ∧ ¬ Contents s'.files b d := by
  refine ⟨⟨fun n => if n = (b, true) then some d else none, fun _ => none, fun _ => none⟩,
    ⟨fun _ _ _ h => (by cases h), fun _ _ _ h => (by cases h)⟩, fun c => ⟨?_, ?_⟩⟩
  · cases g <;> simp [step, readSed, cached, disk]
  · unfold Contents
    have : ¬ (d' = d) := fun h => hne h.symm
    cases g <;> simp [step, readSed, cached, disk, this]

example : Fresh (⟨fun n => if n = (0, false) then some 7 else none, fun _ => none,
    fun _ => none⟩ : State ℕ ℕ) := ⟨fun _ _ _ h => (by cases h), fun _ _ _ h => (by cases h)⟩

end cache

/-! ## Normalisation -/

section field
variable {K : Type*} [Field K] [LinearOrder K] [IsStrictOrderedRing K] [FloorRing K]

theorem interp_scale (pts : List (K × K)) (k x : K) :
    interp (pts.map fun p => (p.1, p.2 * k)) x = interp pts x * k := by
  induction pts with
  | nil => simp [interp]
  | cons a l ih =>
    obtain ⟨a, p⟩ := a
    cases l with
    | nil => simp [interp]
    | cons b l =>
      obtain ⟨b, q⟩ := b
      simp only [List.map_cons] at ih ⊢
      unfold interp
      split_ifs
      · rfl
      · ring
      · exact ih

/-- With a step and without gap, the normalised spectrum is a multiple of the given one and has
the wanted value at the wavelength. -/
theorem renorm_partial {pts out : List (K × K)} {lambdanorm normvalue step : K}
    (h : renormFlambda pts lambdanorm normvalue 0 (some step) = .ok out) :
    interp out lambdanorm = normvalue ∧ ∃ k, out = pts.map fun p => (p.1, p.2 * k) := by
  unfold renormFlambda at h
  dsimp only at h
  split at h
  · split_ifs at h with h1 h2
    cases h
    refine ⟨?_, _, rfl⟩
    rw [interp_scale]
    unfold gapval at h2 ⊢
    rw [if_pos rfl] at h2 ⊢
    field_simp
  · cases h

/-- With a gap, the mean over the points of the gap has the wanted value. -/
theorem renorm_gap_partial {pts out : List (K × K)} {lambdanorm normvalue gap step : K} (hg : 0 < gap)
    (hs : 0 < step)
    (h : renormFlambda pts lambdanorm normvalue gap (some step) = .ok out) :
    (((List.range ⌈2 * gap / step⌉₊).map fun i : ℕ =>
      interp out (lambdanorm - gap + step * i)).sum) = normvalue * ⌈2 * gap / step⌉₊ := by
  unfold renormFlambda at h
  dsimp only at h
  split at h
  · split_ifs at h with h1 h2
    cases h
    simp only [interp_scale]
    unfold gapval at h2 ⊢
    rw [if_neg hg.ne'] at h2 ⊢
    dsimp only at h2 ⊢
    have e : (lambdanorm + gap - (lambdanorm - gap)) / step = 2 * gap / step := by ring
    have hn : 0 < ⌈2 * gap / step⌉₊ := Nat.ceil_pos.mpr (by positivity)
    have hn' : (0 : K) < ⌈2 * gap / step⌉₊ := by exact_mod_cast hn
    rw [e] at h2 ⊢
    unfold grid at h2 ⊢
    rw [List.map_map, List.length_map, List.length_range] at h2 ⊢
    have e2 : (List.range ⌈2 * gap / step⌉₊).map (interp pts ∘ fun i : ℕ => lambdanorm - gap + step * (i : K)) =
        (List.range ⌈2 * gap / step⌉₊).map fun i : ℕ => interp pts (lambdanorm - gap + step * i) := rfl
    rw [e2] at h2 ⊢
    have hS : ((List.range ⌈2 * gap / step⌉₊).map
        fun i : ℕ => interp pts (lambdanorm - gap + step * i)).sum ≠ 0 := by
      intro hc; rw [hc, zero_div] at h2; exact h2 rfl
    have sum_mul : ∀ (l : List ℕ) (f : ℕ → K) (k : K), (l.map fun i => f i * k).sum = (l.map f).sum * k := by
      intro l f k
      induction l with
      | nil => simp
      | cons a l ih => simp only [List.map_cons, List.sum_cons, ih]; ring
    rw [sum_mul _ (fun i : ℕ => interp pts (lambdanorm - gap + step * i))]
    generalize ((List.range ⌈2 * gap / step⌉₊).map
        fun i : ℕ => interp pts (lambdanorm - gap + step * i)).sum = S at hS
    field_simp
  · cases h

/-- The claim that a spectrum is normalised with the default arguments fails always: an attribute
that does not exist is asked for, also for `normflux="fnu"` and in `multiply_sed`, where the step
is not needed. -/
theorem renorm_false (pts : List (K × K)) (lambdanorm normvalue gap : K) :
    renormFlambda pts lambdanorm normvalue gap none = .attribute ∧
    (∀ f, renormFnu pts f lambdanorm gap none = .attribute) ∧
    ∀ w f g : List K, multiplySame w f g none = .attribute := ⟨rfl, fun _ => rfl, fun _ _ _ => rfl⟩

/-- Normalisation in `fnu` always raises. -/
theorem renormFnu_false (pts : List (K × K)) (f : Option (List (K × K))) (lambdanorm gap : K)
    (step : Option K) (out : List (K × K)) : renormFnu pts f lambdanorm gap step ≠ .ok out := by
  unfold renormFnu
  cases step with
  | none => simp
  | some s =>
    dsimp only
    split
    · split_ifs
      · simp
      · cases f with
        | none => simp
        | some f => dsimp only; split_ifs <;> simp
      · simp
      · simp
    · simp

/-- With a step, spectra on the same grid are multiplied. -/
theorem multiply_partial {w f g : List K} (step : K) (h : f.length = w.length) (h' : g.length = w.length)
    {i : Nat} (hi : i < w.length) :
    ∃ r, multiplySame w f g (some step) = .ok (w, r) ∧ r.length = w.length ∧
      r[i]? = some (f[i] * g[i]) := by
  refine ⟨_, rfl, by simp [h, h'], ?_⟩
  rw [List.getElem?_zipWith, List.getElem?_eq_getElem (by omega), List.getElem?_eq_getElem (by omega)]

example : renormFlambda [((400 : ℚ), (2 : ℚ)), (600, 4)] 500 1 0 (some 1) =
    .ok [(400, 2 / 3), (600, 4 / 3)] := by decide +kernel

/-! ## Writing -/

/-- A written wavelength is off by at most 0.005 nm. -/
theorem written_near (w : K) : |written w - w| ≤ 5 / 1000 := by
  unfold written
  have h1 := Int.floor_le (w * 100 + 1 / 2)
  have h2 := Int.lt_floor_add_one (w * 100 + 1 / 2)
  rw [abs_le]
  constructor
  · rw [le_sub_iff_add_le, le_div_iff₀ (by norm_num)]; linarith
  · rw [sub_le_iff_le_add, div_le_iff₀ (by norm_num)]; linarith

/-- Steps of 0.01 nm or more are kept apart. -/
theorem write_partial {wavelen : List K}
    (h : wavelen.Pairwise fun a b => a + 1 / 100 ≤ b) : (writeSed wavelen).Pairwise (· < ·) := by
  unfold writeSed
  rw [List.pairwise_map]
  refine h.imp fun {a b} hab => ?_
  unfold written
  have : ⌊a * 100 + 1 / 2⌋ < ⌊b * 100 + 1 / 2⌋ := by
    have : ⌊a * 100 + 1 / 2⌋ + 1 ≤ ⌊b * 100 + 1 / 2⌋ := by
      rw [Int.le_floor]
      push_cast
      have := Int.floor_le (a * 100 + 1 / 2)
      linarith
    omega
  have : ((⌊a * 100 + 1 / 2⌋ : ℤ) : K) < ⌊b * 100 + 1 / 2⌋ := by exact_mod_cast this
  exact div_lt_div_of_pos_right this (by norm_num)

/-- The claim that the wavelengths of the file increase fails for smaller steps. -/
theorem write_false {d : K} (h0 : 0 < d) (h : d < 5 / 1000) :
    ∃ w : List K, w.Pairwise (fun a b => a + d ≤ b) ∧ ¬ (writeSed w).Pairwise (· < ·) := by
  refine ⟨[500, 500 + d], by simp, ?_⟩
  unfold writeSed written
  have e1 : ⌊(500 : K) * 100 + 1 / 2⌋ = 50000 := by
    rw [Int.floor_eq_iff]; norm_num
  have e2 : ⌊((500 : K) + d) * 100 + 1 / 2⌋ = 50000 := by
    rw [Int.floor_eq_iff]
    push_cast
    constructor <;> linarith
  simp only [List.map_cons, List.map_nil, e1, e2]
  simp

/-- The claim that a spectrum is written together with `fnu` fails for three or more wavelengths:
the loop raises after two lines. -/
theorem writeFnu_false {n : Nat} (h : 3 ≤ n) : writeLoop n 0 = (2, false) := by
  obtain ⟨m, rfl⟩ := Nat.exists_eq_add_of_le h
  rw [show 3 + m = m + 3 by omega]
  rfl

end field

/-! ## Photometric parameters -/

section params
variable {K : Type*} [Field K]

theorem mem_allFields (f : Field_) : f ∈ allFields := by cases f <;> decide

/-- Bandpasses of the survey. -/
def Survey (b : Option BandName) : Prop := ∀ n, b ≠ some (.other n)

theorem default_some (pi : K) {b : Option BandName} (h : Survey b) (f : Field_) :
    ∃ x, default pi (b.getD .any) f = some x := by
  cases b with
  | none => cases f <;> simp [default, SedFiles.known]
  | some b =>
    cases b with
    | other n => exact absurd rfl (h n)
    | _ => cases f <;> simp [default, SedFiles.known]

/-- For bandpasses of the survey, and for none, every parameter is the one given, or else the
default of the bandpass. -/
theorem construct_spec (pi : K) {b : Option BandName} (h : Survey b) (given : Field_ → Option K) :
    ∃ v, construct pi b given = some v ∧ ∀ f, (∀ x, given f = some x → v f = x) ∧
      (given f = none → default pi (b.getD .any) f = some (v f)) := by
  have hv : ∀ f, ((given f).or (default pi (b.getD .any) f)).isSome := by
    intro f
    obtain ⟨x, hx⟩ := default_some pi h f
    rw [hx]
    cases given f <;> rfl
  refine ⟨fun f => ((given f).or (default pi (b.getD .any) f)).getD 0, ?_, fun f => ⟨?_, ?_⟩⟩
  · unfold construct
    dsimp only
    rw [if_pos]
    rw [List.all_eq_true]
    exact fun f _ => hv f
  · intro x hx
    dsimp only
    rw [hx]; rfl
  · intro hn
    obtain ⟨x, hx⟩ := default_some pi h f
    dsimp only
    rw [hn, hx]; rfl

/-- Without a bandpass the systematic error is that of `r`; it is larger in `u`, `z` and `y`. -/
theorem default_sigma (pi : K) {b : Option BandName} (h : Survey b) {given : Field_ → Option K}
    (hg : given .sigmaSys = none) {v : Field_ → K} (hv : construct pi b given = some v) :
    v .sigmaSys = if b = some .u ∨ b = some .z ∨ b = some .y then 75 / 10000 else 5 / 1000 := by
  obtain ⟨w, hw, hs⟩ := construct_spec pi h given
  rw [hv] at hw
  cases hw
  have := (hs .sigmaSys).2 hg
  cases b with
  | none => simp [default] at this; simp [← this]
  | some c =>
    cases c with
    | other n => exact absurd rfl (h n)
    | _ => simp [default] at this; simp [← this]

/-- Defaults do not depend on the bandpass, apart from the systematic error. -/
theorem default_band (pi : K) {b b' : Option BandName} (h : Survey b) (h' : Survey b') {f : Field_}
    (hf : f ≠ .sigmaSys) : default pi (b.getD .any) f = default pi (b'.getD .any) f := by
  have hk : ∀ c : Option BandName, Survey c → SedFiles.known (c.getD .any) = true := by
    intro c hc
    cases c with
    | none => rfl
    | some c =>
      cases c with
      | other n => exact absurd rfl (hc n)
      | _ => rfl
  have k := hk b h
  have k' := hk b' h'
  generalize b.getD .any = c at k ⊢
  generalize b'.getD .any = c' at k' ⊢
  cases f <;> first | exact absurd rfl hf | (simp only [default, if_pos k, if_pos k'])

/-- A bandpass of another name needs all nine parameters. -/
theorem construct_other (pi : K) (n : Nat) (given : Field_ → Option K) :
    construct pi (some (.other n)) given = none ↔ ∃ f, given f = none := by
  unfold construct
  dsimp only
  have hd : ∀ f, default pi (.other n) f = none := by intro f; cases f <;> rfl
  simp only [Option.getD_some, hd, Option.or_none]
  split_ifs with h
  · rw [List.all_eq_true] at h
    simp only [reduceCtorEq, false_iff, not_exists]
    intro f hf
    have := h f (mem_allFields f)
    rw [hf] at this
    cases this
  · simp only [true_iff]
    by_contra hc
    push Not at hc
    apply h
    rw [List.all_eq_true]
    intro f _
    rw [Option.isSome_iff_ne_none]
    exact hc f

/-- The claim of a comment that the values of `any` are used for an unknown bandpass fails. -/
theorem unknown_false (pi : K) (n : Nat) : construct pi (some (.other n)) (fun _ => none) = none :=
  (construct_other pi n _).mpr ⟨.gain, rfl⟩

end params

end Verif.SedFiles
