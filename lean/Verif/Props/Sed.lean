import Verif.Model.Sed
import Verif.Props.Spectres

/-!
# Fluxes and counts of spectra through bandpasses
-/

namespace Verif.Sed

open Verif.Spectres

variable {K : Type*} [Field K] [LinearOrder K] [IsStrictOrderedRing K]

set_option linter.unusedSectionVars false

/-! ## Specification -/

/-- A spectrum on a grid. -/
def Spec.WF (s : Spec K) : Prop := Grid s.wavelen ∧ s.flux.length = s.wavelen.length

/-- A bandpass on a grid of positive wavelengths, whose `phi` is unset or up to date. -/
structure Band.WF (bp : Band K) : Prop where
  grid : Grid bp.wavelen
  pos : ∀ w ∈ bp.wavelen, 0 < w
  len : bp.sb.length = bp.wavelen.length
  phi : bp.phi = none ∨ bp.phi = sbToPhi bp

/-- The grids are the same or differ enough to be told apart by `_need_resample`. -/
def Apart (target wavelen : List K) : Prop :=
  target = wavelen ∨ needResample target wavelen = true

/-- No cell of the bandpass sticks out of the spectrum. -/
def Covers (s : Spec K) (bp : Band K) : Prop :=
  ∀ j, j < bp.wavelen.length → ¬ Outside bp.wavelen s.wavelen j

/-! ## Lists -/

theorem allSome_some (l : List K) : allSome (l.map some) = some l := by
  induction l with
  | nil => rfl
  | cons a l ih => simp only [List.map_cons, allSome, ih, Option.map_some]

theorem allSome_map (g : K → K) (l : List (Option K)) :
    allSome (l.map (Option.map g)) = (allSome l).map (List.map g) := by
  induction l with
  | nil => rfl
  | cons a l ih =>
    cases a with
    | none => rfl
    | some x =>
      simp only [List.map_cons, Option.map_some, allSome, ih]
      cases allSome l <;> rfl

theorem allSome_length {l : List (Option K)} {r : List K} (h : allSome l = some r) :
    l = r.map some := by
  induction l generalizing r with
  | nil => simp only [allSome, Option.some.injEq] at h; subst h; rfl
  | cons a l ih =>
    cases a with
    | none => cases h
    | some x =>
      simp only [allSome, Option.map_eq_some_iff] at h
      obtain ⟨r', h1, rfl⟩ := h
      rw [ih h1]; rfl

theorem trapz_smul (c : K) : ∀ y x : List K, trapz (y.map (· * c)) x = trapz y x * c
  | [], x => by simp [trapz]
  | [a], x => by simp [trapz]
  | a :: b :: y, [] => by simp [trapz]
  | a :: b :: y, [u] => by simp [trapz]
  | a :: b :: y, u :: v :: x => by
    have ih := trapz_smul c (b :: y) (v :: x)
    simp only [List.map_cons, trapz] at ih ⊢
    rw [ih]; ring

theorem trapz_add : ∀ (y z x : List K), y.length = z.length →
    trapz (List.zipWith (· + ·) y z) x = trapz y x + trapz z x
  | [], [], x, _ => by simp [trapz]
  | [a], [b], x, _ => by simp [trapz]
  | a :: b :: y, c :: d :: z, [], _ => by simp [trapz]
  | a :: b :: y, c :: d :: z, [u], _ => by simp [trapz]
  | a :: b :: y, c :: d :: z, u :: v :: x, h => by
    have ih := trapz_add (b :: y) (d :: z) (v :: x) (by simpa using h)
    simp only [List.zipWith_cons_cons, trapz] at ih ⊢
    rw [ih]; ring
  | [], _ :: _, _, h => by simp at h
  | _ :: _, [], _, h => by simp at h
  | [_], _ :: _ :: _, _, h => by simp at h
  | _ :: _ :: _, [_], _, h => by simp at h

theorem trapz_mono : ∀ (y z x : List K), List.Forall₂ (· ≤ ·) y z → x.Pairwise (· < ·) →
    trapz y x ≤ trapz z x
  | _, _, x, .nil, _ => by simp [trapz]
  | _, _, x, .cons _ .nil, _ => by simp [trapz]
  | _, _, [], .cons _ (.cons _ _), _ => by simp [trapz]
  | _, _, [u], .cons _ (.cons _ _), _ => by simp [trapz]
  | _, _, u :: v :: x, .cons (l₁ := _) h1 (.cons (l₁ := _) h2 h3), hx => by
    have huv : u < v := (List.pairwise_cons.mp hx).1 v (by simp)
    have ih := trapz_mono _ _ (v :: x) (.cons h2 h3) (List.pairwise_cons.mp hx).2
    simp only [trapz]
    have := mul_le_mul_of_nonneg_left (add_le_add h1 h2) (sub_pos.mpr huv).le
    linarith

theorem zipWith_smul_left (c : K) (y z : List K) :
    List.zipWith (· * ·) (y.map (· * c)) z = (List.zipWith (· * ·) y z).map (· * c) := by
  induction y generalizing z with
  | nil => simp
  | cons a y ih => cases z with
    | nil => simp
    | cons b z => simp only [List.map_cons, List.zipWith_cons_cons, ih]; congr 1; ring

theorem zipWith_div_smul (c : K) (y z : List K) :
    List.zipWith (· / ·) (y.map (· * c)) z = (List.zipWith (· / ·) y z).map (· * c) := by
  induction y generalizing z with
  | nil => simp
  | cons a y ih => cases z with
    | nil => simp
    | cons b z => simp only [List.map_cons, List.zipWith_cons_cons, ih]; congr 1; ring

theorem sum_map_mul (c : K) (l : List K) : (l.map (· * c)).sum = l.sum * c := by
  induction l with
  | nil => simp
  | cons a l ih => simp only [List.map_cons, List.sum_cons, ih]; ring

/-! ## Resampling -/

theorem resample_scale {t : List K} {s : Spec K} (ht : Grid t) (hs : s.WF) (c : K) :
    resample t (s.scale c) none = (resample t s none).map (·.scale c) := by
  unfold resample Spec.scale
  dsimp only
  have hm : s.flux.map (· * c) = s.flux.map (c * ·) :=
    List.map_congr_left fun x _ => mul_comm x c
  split_ifs with h
  · rw [hm, spectres_smul hs.1 ht hs.2]
    cases hsp : spectres t s.wavelen s.flux none with
    | none => rfl
    | some out =>
      simp only [Option.map_some]
      rw [allSome_map]
      cases allSome out with
      | none => rfl
      | some r =>
        simp only [Option.map_some]
        rw [List.map_congr_left fun x _ => mul_comm c x]
  · rfl

/-- What `resample` gives: the wavelengths of the bandpass, or those of a spectrum
whose grid need not be resampled, with one flux each. -/
theorem resample_wf {t : List K} {s r : Spec K} (ht : Grid t) (hs : s.WF) {fill : Option K}
    (h : resample t s fill = some r) :
    r.flux.length = r.wavelen.length ∧ r.wavelen.length = t.length ∧ Grid r.wavelen ∧
      (Apart t s.wavelen → r.wavelen = t) := by
  unfold resample at h
  split_ifs at h with hn
  · obtain ⟨out, q1, q2, -⟩ := spectres_spec hs.1 ht hs.2 fill
    rw [q1] at h
    simp only [Option.map_eq_some_iff] at h
    obtain ⟨f, h1, rfl⟩ := h
    have := allSome_length h1
    refine ⟨?_, rfl, ht, fun _ => rfl⟩
    dsimp only
    rw [← q2, this, List.length_map]
  · cases h
    refine ⟨hs.2, ?_, hs.1, ?_⟩
    · by_contra hc
      apply hn
      unfold needResample
      rw [decide_eq_true (Ne.symm hc)]; rfl
    · rintro (h | h)
      · exact h.symm
      · exact absurd h hn

/-- After resampling the wavelengths are those of the target up to `10⁻¹⁰`. -/
theorem resample_grid {t : List K} {s r : Spec K} {fill : Option K}
    (h : resample t s fill = some r) :
    r.wavelen.length = t.length ∧ ∀ x ∈ t.zip r.wavelen, |x.1 - x.2| ≤ 1 / 10 ^ 10 := by
  unfold resample at h
  split_ifs at h with hn
  · cases hsp : spectres t s.wavelen s.flux fill with
    | none => rw [hsp] at h; cases h
    | some out =>
      rw [hsp] at h
      simp only [Option.map_eq_some_iff] at h
      obtain ⟨f, -, rfl⟩ := h
      refine ⟨rfl, fun x hx => ?_⟩
      have : ∀ l : List K, ∀ x ∈ l.zip l, x.1 = x.2 := by
        intro l
        induction l with
        | nil => intro x hx; cases hx
        | cons a l ih =>
          intro x hx
          rcases List.mem_cons.mp hx with rfl | hx
          · rfl
          · exact ih x hx
      rw [this t x hx, sub_self, abs_zero]
      positivity
  · cases h
    simp only [needResample, Bool.or_eq_true, decide_eq_true_eq, not_or, not_not] at hn
    refine ⟨hn.1.symm, fun x hx => ?_⟩
    by_contra hc
    refine hn.2 (List.any_eq_true.mpr ⟨true, ?_, rfl⟩)
    rw [← List.map_uncurry_zip_eq_zipWith]
    exact List.mem_map.mpr ⟨x, hx, by simpa [Function.uncurry] using hc⟩

/-- A spectrum that covers the bandpass is resampled without NaN, and its values stay
within the bounds of the fluxes. -/
theorem resample_covers {bp : Band K} {s : Spec K} (hb : bp.WF) (hs : s.WF) (hc : Covers s bp)
    (fill : Option K) (lo hi : K) (hlo : ∀ x ∈ s.flux, lo ≤ x) (hhi : ∀ x ∈ s.flux, x ≤ hi) :
    ∃ r, resample bp.wavelen s fill = some r ∧ (∀ x ∈ r.flux, lo ≤ x ∧ x ≤ hi) := by
  unfold resample
  split_ifs with hn
  · obtain ⟨out, q1, q2, q3⟩ := spectres_spec hs.1 hb.grid hs.2 fill
    have hb2 := fun j hj => spectres_bounds hs.1 hb.grid hs.2 fill lo hi hlo hhi q1
      (j := j) hj (hc j hj)
    have hall : ∀ o ∈ out, ∃ x, o = some x ∧ lo ≤ x ∧ x ≤ hi := by
      intro o ho
      obtain ⟨j, hj, rfl⟩ := List.getElem_of_mem ho
      obtain ⟨x, hx, h⟩ := hb2 j (by omega)
      rw [List.getElem?_eq_getElem hj] at hx
      exact ⟨x, Option.some.inj hx, h⟩
    have hout : out = (out.map (·.getD 0)).map some := by
      rw [List.map_map]
      conv_lhs => rw [← List.map_id out]
      refine List.map_congr_left fun o ho => ?_
      obtain ⟨x, rfl, -⟩ := hall o ho
      rfl
    rw [q1]
    dsimp only
    rw [hout, allSome_some]
    refine ⟨_, rfl, ?_⟩
    intro x hx
    obtain ⟨o, ho, rfl⟩ := List.mem_map.mp hx
    obtain ⟨x, rfl, h⟩ := hall o ho
    exact h
  · exact ⟨s, rfl, fun x hx => ⟨hlo x hx, hhi x hx⟩⟩

/-! ## Linearity -/

theorem calcAdu_scale {bp : Band K} (hb : bp.WF) (pp : Params K) {s : Spec K} (hs : s.WF)
    (c : K) : calcAdu bp pp (s.scale c) = (calcAdu bp pp s).map (· * c) := by
  unfold calcAdu
  rw [resample_scale hb.grid hs c]
  cases resample bp.wavelen s none with
  | none => rfl
  | some r =>
    simp only [Option.map_some, Spec.scale]
    split_ifs
    · rfl
    · simp only [Option.map_some]
      rw [zipWith_div_smul, zipWith_smul_left, sum_map_mul]
      congr 1; ring

theorem calcFlux_scale {bp : Band K} (hb : bp.WF) {s : Spec K} (hs : s.WF) (c : K) :
    calcFlux bp (s.scale c) none = (calcFlux bp s none).map (· * c) := by
  unfold calcFlux
  rw [resample_scale hb.grid hs c]
  cases resample bp.wavelen s none with
  | none => rfl
  | some r =>
    cases usedPhi bp with
    | none => rfl
    | some phi =>
      simp only [Option.map_some, Spec.scale]
      rw [zipWith_smul_left, trapz_smul]

/-! ## The normalised response -/

theorem usedPhi_eq {bp : Band K} (hb : bp.WF) : usedPhi bp = sbToPhi bp := by
  unfold usedPhi
  rcases hb.phi with h | h
  · rw [h]
  · rw [h]
    cases sbToPhi bp <;> rfl

/-- The integral of `phi` is one. -/
theorem phi_integral {bp : Band K} {phi : List K} (h : sbToPhi bp = some phi) :
    trapz phi bp.wavelen = 1 := by
  unfold sbToPhi at h
  dsimp only at h
  split_ifs at h with h0
  cases h
  have : (fun x : K => x / trapz (List.zipWith (· / ·) bp.sb bp.wavelen) bp.wavelen) =
      fun x => x * (trapz (List.zipWith (· / ·) bp.sb bp.wavelen) bp.wavelen)⁻¹ := by
    funext x; rw [div_eq_mul_inv]
  rw [this, trapz_smul, mul_inv_cancel₀ h0]

theorem phi_length {bp : Band K} (hb : bp.WF) {phi : List K} (h : sbToPhi bp = some phi) :
    phi.length = bp.wavelen.length := by
  unfold sbToPhi at h
  dsimp only at h
  split_ifs at h
  cases h
  rw [List.length_map, List.length_zipWith, hb.len, Nat.min_self]

/-- `phi` is the throughput per photon energy, up to one factor. -/
theorem phi_shape {bp : Band K} {phi : List K} (h : sbToPhi bp = some phi) :
    ∃ c : K, c ≠ 0 ∧ phi = List.zipWith (fun s w => s / w / c) bp.sb bp.wavelen := by
  unfold sbToPhi at h
  dsimp only at h
  split_ifs at h with h0
  cases h
  exact ⟨_, h0, by rw [List.map_zipWith]⟩

theorem zipWith_nonneg {l w : List K} (hl : ∀ s ∈ l, 0 ≤ s) (hw : ∀ x ∈ w, 0 < x) :
    ∀ p ∈ List.zipWith (· / ·) l w, 0 ≤ p := by
  intro p hp
  obtain ⟨k, hk, rfl⟩ := List.getElem_of_mem hp
  rw [List.getElem_zipWith]
  exact div_nonneg (hl _ (List.getElem_mem _)) (hw _ (List.getElem_mem _)).le

theorem forall₂_zero {l : List K} (h : ∀ x ∈ l, 0 ≤ x) :
    List.Forall₂ (· ≤ ·) (l.map (· * 0)) l := by
  induction l with
  | nil => exact .nil
  | cons a l ih =>
    rw [List.map_cons]
    exact .cons (by simpa using h a (by simp)) (ih fun x hx => h x (by simp [hx]))

theorem trapz_nonneg {y x : List K} (h : ∀ a ∈ y, 0 ≤ a) (hx : x.Pairwise (· < ·)) :
    0 ≤ trapz y x := by
  have := trapz_mono _ _ x (forall₂_zero h) hx
  rwa [trapz_smul, mul_zero] at this

/-- With throughputs at least zero, so is `phi`. -/
theorem phi_nonneg {bp : Band K} (hb : bp.WF) (hsb : ∀ s ∈ bp.sb, 0 ≤ s) {phi : List K}
    (h : sbToPhi bp = some phi) : ∀ p ∈ phi, 0 ≤ p := by
  unfold sbToPhi at h
  dsimp only at h
  split_ifs at h with h0
  cases h
  intro p hp
  obtain ⟨q, hq, rfl⟩ := List.mem_map.mp hp
  exact div_nonneg (zipWith_nonneg hsb hb.pos q hq)
    (trapz_nonneg (zipWith_nonneg hsb hb.pos) hb.grid.2)

theorem forall₂_mul {f phi : List K} (hl : f.length = phi.length) (hp : ∀ p ∈ phi, 0 ≤ p)
    {lo hi : K} (hf : ∀ x ∈ f, lo ≤ x ∧ x ≤ hi) :
    List.Forall₂ (· ≤ ·) (phi.map (· * lo)) (List.zipWith (· * ·) f phi) ∧
      List.Forall₂ (· ≤ ·) (List.zipWith (· * ·) f phi) (phi.map (· * hi)) := by
  induction f generalizing phi with
  | nil =>
    have : phi = [] := by cases phi with
      | nil => rfl
      | cons a l => simp at hl
    subst this
    exact ⟨.nil, .nil⟩
  | cons a f ih =>
    cases phi with
    | nil => simp at hl
    | cons b phi =>
      obtain ⟨h1, h2⟩ := ih (phi := phi) (by simpa using hl) (fun p hp' => hp p (by simp [hp']))
        (fun x hx => hf x (by simp [hx]))
      have ha := hf a (by simp)
      have hb := hp b (by simp)
      rw [List.map_cons, List.map_cons, List.zipWith_cons_cons]
      refine ⟨.cons ?_ h1, .cons ?_ h2⟩
      · rw [mul_comm]; exact mul_le_mul_of_nonneg_right ha.1 hb
      · rw [mul_comm b]; exact mul_le_mul_of_nonneg_right ha.2 hb

/-- The flux of a spectrum that covers the bandpass is a weighted mean of its flux
density: it lies between its bounds. -/
theorem calcFlux_bounds {bp : Band K} {s : Spec K} (hb : bp.WF) (hs : s.WF) (hc : Covers s bp)
    (hap : Apart bp.wavelen s.wavelen) (hsb : ∀ x ∈ bp.sb, 0 ≤ x)
    (h0 : sbToPhi bp ≠ none) (fill : Option K) {lo hi : K}
    (hlo : ∀ x ∈ s.flux, lo ≤ x) (hhi : ∀ x ∈ s.flux, x ≤ hi) :
    ∃ x, calcFlux bp s fill = some x ∧ lo ≤ x ∧ x ≤ hi := by
  obtain ⟨r, hr, hrb⟩ := resample_covers hb hs hc fill lo hi hlo hhi
  obtain ⟨h1, h2, h3, h4⟩ := resample_wf hb.grid hs hr
  have h4 := h4 hap
  cases hp : sbToPhi bp with
  | none => exact absurd hp h0
  | some phi =>
    have hl := phi_length hb hp
    have hnn := phi_nonneg hb hsb hp
    obtain ⟨g1, g2⟩ := forall₂_mul (f := r.flux) (phi := phi) (by rw [h1, h2, hl]) hnn hrb
    refine ⟨trapz (List.zipWith (· * ·) r.flux phi) r.wavelen, ?_, ?_, ?_⟩
    · unfold calcFlux
      rw [hr, usedPhi_eq hb, hp]
    · have := trapz_mono _ _ r.wavelen g1 h3.2
      rwa [trapz_smul, h4, phi_integral hp, one_mul, ← h4] at this
    · have := trapz_mono _ _ r.wavelen g2 h3.2
      rwa [trapz_smul, h4, phi_integral hp, one_mul, ← h4] at this

/-- A flat source has its own flux density as flux, whatever the bandpass. -/
theorem calcFlux_const {bp : Band K} {s : Spec K} (hb : bp.WF) (hs : s.WF) (hc : Covers s bp)
    (hap : Apart bp.wavelen s.wavelen) (hsb : ∀ x ∈ bp.sb, 0 ≤ x)
    (h0 : sbToPhi bp ≠ none) (fill : Option K) (c : K) (hf : ∀ x ∈ s.flux, x = c) :
    calcFlux bp s fill = some c := by
  obtain ⟨x, hx, h1, h2⟩ := calcFlux_bounds hb hs hc hap hsb h0 fill (lo := c) (hi := c)
    (fun x hx => (hf x hx).ge) (fun x hx => (hf x hx).le)
  rw [hx, le_antisymm h2 h1]

/-- The flux does not depend on the normalisation of the throughput. -/
theorem calcFlux_throughput (bp : Band K) (hb : bp.WF) (k : K) (hk : k ≠ 0) (s : Spec K)
    (fill : Option K) :
    calcFlux ⟨bp.wavelen, bp.sb.map (· * k), none⟩ s fill = calcFlux bp s fill := by
  unfold calcFlux
  rw [usedPhi_eq hb]
  have : usedPhi (⟨bp.wavelen, bp.sb.map (· * k), none⟩ : Band K) = sbToPhi bp := by
    unfold usedPhi sbToPhi
    dsimp only
    rw [zipWith_div_smul, trapz_smul]
    by_cases h : trapz (List.zipWith (· / ·) bp.sb bp.wavelen) bp.wavelen = 0
    · rw [if_pos h, if_pos (by rw [h, zero_mul])]
    · rw [if_neg h, if_neg (mul_ne_zero h hk), List.map_map]
      congr 1
      refine List.map_congr_left fun x _ => ?_
      simp only [Function.comp]
      field_simp
  rw [this]

/-! ## Conversions -/

/-- Converting to flux per frequency and back changes nothing. -/
theorem toFlambda_toFnu {w f : List K} (h : ∀ x ∈ w, x ≠ 0) (hl : f.length = w.length) :
    toFlambda w (toFnu w f) = f ∧ toFnu w (toFlambda w f) = f := by
  unfold toFlambda toFnu nm2m lightspeed ergsetc2jansky
  induction f generalizing w with
  | nil => simp
  | cons a f ih =>
    cases w with
    | nil => simp at hl
    | cons b w =>
      obtain ⟨h1, h2⟩ := ih (w := w) (fun x hx => h x (by simp [hx])) (by simpa using hl)
      have hb := h b (by simp)
      simp only [List.zipWith_cons_cons] at h1 h2 ⊢
      rw [h1, h2]
      constructor <;> (congr 1; field_simp)

/-- Fluxes of the two kinds: `fnu = flambda * wavelen² / c` in the given units. -/
theorem toFnu_get {w f : List K} {i : Nat} (hw : i < w.length) (hf : i < f.length) :
    (toFnu w f)[i]? = some (f[i] * w[i] ^ 2 * (10 ^ 23 / 10 ^ 9) / 299792458) := by
  unfold toFnu nm2m lightspeed ergsetc2jansky
  rw [List.getElem?_eq_getElem (by rw [List.length_zipWith]; omega), List.getElem_zipWith]
  congr 1
  field_simp

/-! ## Sums and trapezoids -/

/-- Successive wavelengths differ by `d`. -/
def Uniform (d : K) (x : List K) : Prop := x.IsChain (fun a b => b - a = d)

/-- On a uniform grid the trapezoid rule is the sum without half of both end terms. -/
theorem trapz_uniform (d : K) : ∀ (y x : List K) (a b : K), y.length = x.length →
    y.head? = some a → y.getLast? = some b → Uniform d x →
    trapz y x = d * (y.sum - (a + b) / 2)
  | [], x, a, b, _, h, _, _ => by simp at h
  | [y], x, a, b, _, h1, h2, _ => by
    simp only [List.head?_cons, Option.some.injEq, List.getLast?_singleton] at h1 h2
    subst h1 h2
    simp [trapz]
  | y₀ :: y₁ :: y, [], a, b, h, _, _, _ => by simp at h
  | y₀ :: y₁ :: y, [_], a, b, h, _, _, _ => by simp at h
  | y₀ :: y₁ :: y, x₀ :: x₁ :: x, a, b, h, h1, h2, h3 => by
    rw [Uniform, List.isChain_cons_cons] at h3
    rw [List.getLast?_cons_cons] at h2
    have ih := trapz_uniform d (y₁ :: y) (x₁ :: x) y₁ b (by simpa using h) rfl h2 h3.2
    simp only [List.head?_cons, Option.some.injEq] at h1
    subst h1
    simp only [trapz] at ih ⊢
    rw [ih, h3.1]
    simp only [List.sum_cons]
    ring

/-- `many_flux_calc` exceeds the trapezoid rule of `calc_flux` by half of the end terms. -/
theorem manyFlux_eq (d : K) (phi fnu x : List K) (a b : K) (h1 : phi.length = x.length)
    (h2 : fnu.length = x.length) (ha : (List.zipWith (· * ·) fnu phi).head? = some a)
    (hb : (List.zipWith (· * ·) fnu phi).getLast? = some b) (hu : Uniform d x) :
    manyFlux phi fnu d = trapz (List.zipWith (· * ·) fnu phi) x + d * (a + b) / 2 := by
  rw [trapz_uniform d _ x a b (by rw [List.length_zipWith]; omega) ha hb hu]
  unfold manyFlux
  rw [List.zipWith_comm, show (fun b a : K => a * b) = (· * ·) by funext b a; ring]
  ring

/-- The claim that `many_flux_calc` gives the flux of `calc_flux` fails. -/
theorem manyFlux_false :
    ¬ ∀ (bp : Band ℚ) (s : Spec ℚ) (d : ℚ) (phi : List ℚ), bp.WF → s.WF →
      s.wavelen = bp.wavelen → Uniform d bp.wavelen → sbToPhi bp = some phi →
      calcFlux bp s none = some (manyFlux phi s.flux d) := by
  intro h
  have := h ⟨[1, 2, 3], [1, 2, 3], none⟩ ⟨[1, 2, 3], [1, 1, 1]⟩ 1 [1 / 2, 1 / 2, 1 / 2]
    ⟨by unfold Grid; decide +kernel, by decide +kernel, rfl, Or.inl rfl⟩
    ⟨by unfold Grid; decide +kernel, rfl⟩ rfl
    (by
      unfold Uniform
      rw [List.isChain_cons_cons, List.isChain_cons_cons]
      exact ⟨by norm_num, by norm_num, .singleton _⟩)
    (by decide +kernel)
  revert this
  decide +kernel

/-- It holds for throughputs that vanish at both ends. -/
theorem manyFlux_partial {bp : Band K} (hb : bp.WF) {s : Spec K} (hs : s.WF)
    (hw : s.wavelen = bp.wavelen) {d : K} (hu : Uniform d bp.wavelen) {phi : List K}
    (hp : sbToPhi bp = some phi) (h0 : bp.sb.head? = some 0) (h1 : bp.sb.getLast? = some 0) :
    calcFlux bp s none = some (manyFlux phi s.flux d) := by
  have hn : needResample bp.wavelen s.wavelen = false := by
    rw [hw]
    unfold needResample
    rw [decide_eq_false (by simp), Bool.false_or, List.any_eq_false]
    intro x hx
    obtain ⟨k, hk, rfl⟩ := List.getElem_of_mem hx
    rw [List.getElem_zipWith, sub_self, abs_zero]
    simp
  have hlen := hb.grid.1
  have hsb := hb.len
  have hpl := phi_length hb hp
  have hsl := hs.2
  rw [hw] at hsl
  obtain ⟨c, hc, hphi⟩ := phi_shape hp
  have hz : ∀ k, bp.sb[k]? = some 0 → phi.getD k 0 = 0 := by
    intro k hk
    rw [List.getD_eq_getElem?_getD, hphi, List.getElem?_zipWith, hk]
    cases bp.wavelen[k]? <;> simp
  have hzl : (List.zipWith (· * ·) s.flux phi).length = bp.wavelen.length := by
    rw [List.length_zipWith]; omega
  have hend : ∀ k, k < bp.wavelen.length → bp.sb[k]? = some 0 →
      (List.zipWith (· * ·) s.flux phi)[k]? = some 0 := by
    intro k hk hk0
    have := hz k hk0
    rw [List.getD_eq_getElem _ _ (by omega)] at this
    rw [List.getElem?_eq_getElem (by omega), List.getElem_zipWith, this, mul_zero]
  rw [List.head?_eq_getElem?] at h0
  rw [List.getLast?_eq_getElem?, hsb] at h1
  have e0 := hend 0 (by omega) h0
  have e1 := hend (bp.wavelen.length - 1) (by omega) h1
  unfold calcFlux
  rw [resample, if_neg (by rw [hn]; simp), usedPhi_eq hb, hp]
  dsimp only
  rw [hw, manyFlux_eq d phi s.flux bp.wavelen 0 0 hpl hsl
    (by rw [List.head?_eq_getElem?]; exact e0)
    (by rw [List.getLast?_eq_getElem?, hzl]; exact e1) hu]
  simp

/-- Counts per unit of flux: what one unit of `calc_flux` yields in `calc_adu` on a uniform
grid. It depends on bandpass and camera only. -/
def countsPerFlux (bp : Band K) (pp : Params K) : K :=
  trapz (List.zipWith (· / ·) bp.sb bp.wavelen) bp.wavelen *
    (pp.exptime * pp.nexp * pp.effarea / pp.gain) * (1 / 10 ^ 23) * (1 / (6626068 / 10 ^ 33))

/-- The claim that two sources of equal flux through a bandpass give equal counts fails:
counts are summed, fluxes are integrated with the trapezoid rule. -/
theorem counts_false (pp : Params ℚ) (h : 0 < pp.exptime * pp.nexp * pp.effarea / pp.gain) :
    ¬ ∀ (bp : Band ℚ) (s t : Spec ℚ), bp.WF → s.WF → t.WF → s.wavelen = bp.wavelen →
      t.wavelen = bp.wavelen → calcFlux bp s none = calcFlux bp t none →
      calcAdu bp pp s = calcAdu bp pp t := by
  intro hh
  have := hh ⟨[1, 2, 3], [1, 2, 3], none⟩ ⟨[1, 2, 3], [1, 1, 1]⟩ ⟨[1, 2, 3], [2, 0, 2]⟩
    ⟨by unfold Grid; decide +kernel, by decide +kernel, rfl, Or.inl rfl⟩
    ⟨by unfold Grid; decide +kernel, rfl⟩ ⟨by unfold Grid; decide +kernel, rfl⟩ rfl rfl
    (by decide +kernel)
  have h1 : resample [1, 2, 3] (⟨[1, 2, 3], [1, 1, 1]⟩ : Spec ℚ) none =
      some ⟨[1, 2, 3], [1, 1, 1]⟩ := by
    unfold resample; rw [if_neg (by decide +kernel)]
  have h2 : resample [1, 2, 3] (⟨[1, 2, 3], [2, 0, 2]⟩ : Spec ℚ) none =
      some ⟨[1, 2, 3], [2, 0, 2]⟩ := by
    unfold resample; rw [if_neg (by decide +kernel)]
  unfold calcAdu at this
  dsimp only at this
  rw [h1, h2] at this
  simp only [List.zipWith_cons_cons, List.zipWith_nil_right, List.sum_cons, List.sum_nil,
    List.getD_cons_zero, List.getD_cons_succ, List.length_cons, List.length_nil,
    ergsetc2jansky, planck] at this
  generalize pp.exptime * pp.nexp * pp.effarea / pp.gain = P at this h
  norm_num at this
  linarith

/-- On a uniform grid, with throughputs that vanish at both ends, counts are fixed by the
flux: `calc_adu` is `calc_flux` times a factor that is the same for all sources. -/
theorem counts_partial {bp : Band K} (hb : bp.WF) (pp : Params K) {s : Spec K} (hs : s.WF)
    (hap : Apart bp.wavelen s.wavelen) {d : K} (hu : Uniform d bp.wavelen)
    (h0 : bp.sb.head? = some 0) (h1 : bp.sb.getLast? = some 0)
    (hn : trapz (List.zipWith (· / ·) bp.sb bp.wavelen) bp.wavelen ≠ 0) :
    calcAdu bp pp s = (calcFlux bp s none).map (· * countsPerFlux bp pp) := by
  unfold calcAdu calcFlux
  cases hr : resample bp.wavelen s none with
  | none => rfl
  | some r =>
    obtain ⟨g1, g2, g3, g4⟩ := resample_wf hb.grid hs hr
    have g4 := g4 hap
    have hlen := hb.grid.1
    have hsb := hb.len
    have hphi : sbToPhi bp = some ((List.zipWith (· / ·) bp.sb bp.wavelen).map
        (· / trapz (List.zipWith (· / ·) bp.sb bp.wavelen) bp.wavelen)) := by
      unfold sbToPhi
      dsimp only
      rw [if_neg hn]
    rw [usedPhi_eq hb, hphi]
    dsimp only
    rw [if_neg (by omega)]
    simp only [Option.map_some]
    congr 1
    set N := trapz (List.zipWith (· / ·) bp.sb bp.wavelen) bp.wavelen with hN
    set q := List.zipWith (· * ·) (List.zipWith (· / ·) r.flux r.wavelen) bp.sb with hq
    have hql : q.length = bp.wavelen.length := by
      rw [hq, List.length_zipWith, List.length_zipWith]; omega
    have hy : List.zipWith (· * ·) r.flux
        ((List.zipWith (· / ·) bp.sb bp.wavelen).map (· / N)) = q.map (· * N⁻¹) := by
      refine List.ext_getElem (by simp only [List.length_zipWith, List.length_map]; omega) ?_
      intro k hk1 hk2
      simp only [hq, List.getElem_zipWith, List.getElem_map, g4]
      field_simp
    have hstep : r.wavelen.getD 1 0 - r.wavelen.getD 0 0 = d := by
      rw [g4]
      rcases hx : bp.wavelen with _ | ⟨x0, _ | ⟨x1, xs⟩⟩
      · rw [hx] at hlen; simp at hlen
      · rw [hx] at hlen; simp at hlen
      · rw [hx, Uniform, List.isChain_cons_cons] at hu
        simpa using hu.1
    have hend : ∀ k, k < bp.wavelen.length → bp.sb[k]? = some 0 → q[k]? = some 0 := by
      intro k hk hk0
      rw [List.getElem?_eq_getElem (by omega)] at hk0
      have := Option.some.inj hk0
      rw [List.getElem?_eq_getElem (by omega)]
      simp only [hq, List.getElem_zipWith, this, mul_zero]
    rw [List.head?_eq_getElem?] at h0
    rw [List.getLast?_eq_getElem?, hsb] at h1
    have ht := trapz_uniform d q bp.wavelen 0 0 hql
      (by rw [List.head?_eq_getElem?]; exact hend 0 (by omega) h0)
      (by rw [List.getLast?_eq_getElem?, hql]; exact hend _ (by omega) h1) hu
    rw [hy, trapz_smul, g4, ht, ← g4, hstep]
    unfold countsPerFlux ergsetc2jansky planck
    rw [← hN]
    field_simp
    ring

/-- `calc_ergs` of a source on the bandpass's grid, for a uniform grid, is the trapezoid
rule for flux times throughput. -/
theorem calcErgs_partial {bp : Band K} (hb : bp.WF) {s : Spec K} (hs : s.WF)
    (hap : Apart bp.wavelen s.wavelen) {d : K} (hu : Uniform d bp.wavelen) (fill : Option K) :
    calcErgs bp s fill = (resample bp.wavelen s fill).map
      (fun r => trapz (List.zipWith (· * ·) r.flux bp.sb) bp.wavelen) := by
  unfold calcErgs
  cases hr : resample bp.wavelen s fill with
  | none => rfl
  | some r =>
    obtain ⟨g1, g2, g3, g4⟩ := resample_wf hb.grid hs hr
    have g4 := g4 hap
    have hlen := hb.grid.1
    have hsb := hb.len
    dsimp only
    rw [if_neg (by omega)]
    simp only [Option.map_some]
    congr 1
    have hstep : r.wavelen.getD 1 0 - r.wavelen.getD 0 0 = d := by
      rw [g4]
      rcases hx : bp.wavelen with _ | ⟨x0, _ | ⟨x1, xs⟩⟩
      · rw [hx] at hlen; simp at hlen
      · rw [hx] at hlen; simp at hlen
      · rw [hx, Uniform, List.isChain_cons_cons] at hu
        simpa using hu.1
    rw [hstep]
    have key : ∀ (y x : List K), y.length = x.length → Uniform d x →
        (List.zipWith (fun a b => 1 / 2 * (a + b) * d) y.tail y.dropLast).sum = trapz y x := by
      intro y
      induction y with
      | nil => intro x _ _; simp [trapz]
      | cons y0 y ih =>
        intro x hx hux
        cases y with
        | nil => simp [trapz]
        | cons y1 y =>
          match x, hx with
          | x0 :: x1 :: x, hx =>
            rw [Uniform, List.isChain_cons_cons] at hux
            have := ih (x1 :: x) (by simpa using hx) hux.2
            simp only [List.tail_cons] at this
            simp only [List.tail_cons, List.dropLast_cons_cons, List.zipWith_cons_cons,
              List.sum_cons, trapz]
            rw [this, hux.1]
            ring
    exact key _ _ (by rw [List.length_zipWith]; omega) hu

/-- On other grids it is not: the first step is used throughout. -/
theorem calcErgs_false :
    ¬ ∀ (bp : Band ℚ) (s : Spec ℚ), bp.WF → s.WF → s.wavelen = bp.wavelen →
      calcErgs bp s none =
        some (trapz (List.zipWith (· * ·) s.flux bp.sb) bp.wavelen) := by
  intro h
  have := h ⟨[1, 2, 4], [1, 1, 1], none⟩ ⟨[1, 2, 4], [1, 1, 1]⟩
    ⟨by unfold Grid; decide +kernel, by decide +kernel, rfl, Or.inl rfl⟩
    ⟨by unfold Grid; decide +kernel, rfl⟩ rfl
  revert this
  decide +kernel

example : calcFlux ⟨[1, 2, 3, 4, 5], [0, 1, 1, 1, 0], none⟩
    (⟨[0, 1, 2, 3, 4, 5, 6], [1, 2, 3, 4, 5, 6, 7]⟩ : Spec ℚ) none = some (49 / 13) := by
  decide +kernel

end Verif.Sed
