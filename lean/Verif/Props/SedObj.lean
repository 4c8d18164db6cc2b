import Verif.Model.SedObj
import Verif.Props.Sed

/-!
# Fluxes per wavelength and per frequency of a `Sed` never disagree
-/

namespace Verif.Sed

open Verif.Spectres

variable {K : Type*} [Field K] [LinearOrder K] [IsStrictOrderedRing K]

set_option linter.unusedSectionVars false

/-! ## Specification -/

/-- The units of the two kinds of flux: `fnu = flambda * wavelen² / c`, wavelengths in nm,
`fnu` in Jansky. -/
def Agree (w flambda fnu : List K) : Prop :=
  flambda.length = w.length ∧ fnu.length = w.length ∧
    ∀ i, i < w.length →
      fnu.getD i 0 = flambda.getD i 0 * w.getD i 0 ^ 2 * (10 ^ 23 / 10 ^ 9) / 299792458

/-- If both kinds of flux are present, they agree. -/
def InSync (o : Obj K) : Prop :=
  ∀ fnu, o.fnu = some fnu →
    ∃ w flambda, o.wavelen = some w ∧ o.flambda = some flambda ∧ Agree w flambda fnu

/-- Wavelengths passed to methods are positive. -/
def Op.Valid : Op K → Prop
  | .setFlambda w _ => ∀ x ∈ w, 0 < x
  | .setFnu w _ => ∀ x ∈ w, 0 < x
  | .setFlat lo step _ => 0 < lo ∧ 0 ≤ step
  | .resample t _ => ∀ x ∈ t, 0 < x
  | .synchronize t _ => ∀ x ∈ t, 0 < x
  | _ => True

/-! ## The invariant -/

theorem toFnu_length {w f : List K} (h : f.length = w.length) : (toFnu w f).length = w.length := by
  unfold toFnu; rw [List.length_zipWith, h, Nat.min_self]

theorem toFlambda_length {w f : List K} (h : f.length = w.length) :
    (toFlambda w f).length = w.length := by
  unfold toFlambda; rw [List.length_zipWith, h, Nat.min_self]

theorem loop_length (fill : Option K) (oe f ne : List K) :
    ∀ (k j : Nat) (st : State K) (out : List (Option K)),
      loop fill oe f ne k j st = some out → out.length = k := by
  intro k
  induction k with
  | zero => intro j st out h; cases h; rfl
  | succ k ih =>
    intro j st out h
    unfold loop at h
    split at h
    · cases h
    · rw [Option.map_eq_some_iff] at h
      obtain ⟨r, h1, rfl⟩ := h
      rw [List.length_cons, ih _ _ _ h1]

theorem spectres_length {v w f : List K} {fill : Option K} {out : List (Option K)}
    (h : spectres v w f fill = some out) : out.length = v.length := by
  unfold spectres at h
  split at h
  · exact loop_length _ _ _ _ _ _ _ _ h
  · cases h

/-- The reachable states. -/
inductive Ok : Obj K → Prop
  | empty : Ok ⟨none, none, none⟩
  | bare (w : List K) (h : ∀ x ∈ w, 0 < x) : Ok ⟨some w, none, none⟩
  | unset (w f : List K) (h : ∀ x ∈ w, 0 < x) (hl : f.length = w.length) :
      Ok ⟨some w, some f, none⟩
  | set (w f : List K) (h : ∀ x ∈ w, 0 < x) (hl : f.length = w.length) :
      Ok ⟨some w, some f, some (toFnu w f)⟩

theorem Ok.tofnu {o : Obj K} (h : Ok o) : Ok o.tofnu := by
  cases h with
  | empty => exact .empty
  | bare w h => exact .bare w h
  | unset w f h hl => exact .set w f h hl
  | set w f h hl => exact .set w f h hl

theorem Ok.ensureFnu {o : Obj K} (h : Ok o) : Ok o.ensureFnu := by
  unfold Obj.ensureFnu
  split_ifs
  · exact h.tofnu
  · exact h

theorem Ok.unsetFnu {o : Obj K} (h : Ok o) : Ok { o with fnu := none } := by
  cases h with
  | empty => exact .empty
  | bare w h => exact .bare w h
  | unset w f h hl => exact .unset w f h hl
  | set w f h hl => exact .unset w f h hl

theorem ok_toflambda (o : Obj K) {w g : List K} (h : ∀ x ∈ w, 0 < x) (hl : g.length = w.length)
    (hw : o.wavelen = some w) (hg : o.fnu = some g) : Ok o.toflambda := by
  have h1 := (toFlambda_toFnu (w := w) (f := g) (fun x hx => (h x hx).ne') hl).2
  have := Ok.set w (toFlambda w g) h (toFlambda_length hl)
  rw [h1] at this
  unfold Obj.toflambda
  rw [hw, hg]
  exact this

theorem Ok.resample {o : Obj K} (h : Ok o) {t : List K} (ht : ∀ x ∈ t, 0 < x) (fill : K) :
    Ok (o.resample t fill) := by
  have key : ∀ (w f : List K) (g : Option (List K)), Ok ⟨some w, some f, g⟩ →
      Ok (Obj.resample ⟨some w, some f, g⟩ t fill) := by
    intro w f g hok
    unfold Obj.resample
    dsimp only
    split_ifs
    · cases hs : spectres t w f (some fill) with
      | none => exact hok.unsetFnu
      | some out =>
        dsimp only
        cases ha : allSome out with
        | none => exact hok.unsetFnu
        | some r =>
          refine .unset t r ht ?_
          have := spectres_length hs
          rw [allSome_length ha, List.length_map] at this
          exact this
    · exact hok
  cases h with
  | empty => exact .empty
  | bare w h => exact .bare w h
  | unset w f h hl => exact key w f _ (.unset w f h hl)
  | set w f h hl => exact key w f _ (.set w f h hl)

theorem grid_pos {lo step : K} (h : 0 < lo ∧ 0 ≤ step) (n : Nat) : ∀ x ∈ grid lo step n, 0 < x := by
  intro x hx
  obtain ⟨i, -, rfl⟩ := List.mem_map.mp hx
  have := mul_nonneg h.2 (Nat.cast_nonneg (α := K) i)
  linarith [h.1]

theorem Ok.run {o : Obj K} (h : Ok o) (op : Op K) (hv : op.Valid) : Ok (op.run o) := by
  cases op with
  | setFlambda w f =>
    simp only [Op.run]
    split_ifs with hl
    · exact .unset w f hv hl
    · exact .bare w hv
  | setFnu w f =>
    simp only [Op.run]
    split_ifs with hl
    · have h1 := (toFlambda_toFnu (w := w) (f := f) (fun x hx => (hv x hx).ne') hl).2
      have := Ok.set w (toFlambda w f) hv (toFlambda_length hl)
      rw [h1] at this
      exact this
    · exact .bare w hv
  | setFlat lo step n =>
    exact ok_toflambda ⟨some (grid lo step n), o.flambda, some (List.replicate n 3631)⟩
      (grid_pos hv n) (by simp [grid]) rfl rfl
  | clear => exact .empty
  | flambdaToFnu => exact h.tofnu
  | fnuToFlambda =>
    cases h with
    | empty => exact .empty
    | bare w h => exact .bare w h
    | unset w f h hl => exact .unset w f h hl
    | set w f h hl => exact ok_toflambda ⟨some w, some f, some (toFnu w f)⟩ h (toFnu_length hl) rfl rfl
  | resample t fill => exact h.resample hv fill
  | synchronize t fill => exact (h.resample hv fill).tofnu
  | redshift z dimming =>
    have key : ∀ (w f : List K), (∀ x ∈ w, 0 < x) → f.length = w.length →
        ∀ g, Ok (Op.run ⟨some w, some f, g⟩ (.redshift z dimming)) := by
      intro w f hw hl g
      simp only [Op.run]
      refine .unset _ _ ?_ ?_
      · intro x hx
        split_ifs at hx with hz
        · obtain ⟨y, hy, rfl⟩ := List.mem_map.mp hx
          exact div_pos (hw y hy) (by linarith)
        · obtain ⟨y, hy, rfl⟩ := List.mem_map.mp hx
          exact mul_pos (hw y hy) (by linarith)
      · split_ifs <;> simp [hl]
    cases h with
    | empty => exact .empty
    | bare w h => exact .bare w h
    | unset w f h hl => exact key w f h hl _
    | set w f h hl => exact key w f h hl _
  | addDust factors =>
    have key : ∀ (w f : List K), (∀ x ∈ w, 0 < x) → f.length = w.length →
        ∀ g, Ok (Op.run ⟨some w, some f, g⟩ (.addDust factors)) := by
      intro w f hw hl g
      cases factors with
      | none => exact .unset w f hw hl
      | some d =>
        simp only [Op.run]
        split_ifs with hd
        · exact .unset _ _ hw (by rw [List.length_zipWith, hd, Nat.min_self, hl])
        · exact .unset w f hw hl
    cases h with
    | empty => exact .empty
    | bare w h => exact .bare w h
    | unset w f h hl => exact key w f h hl _
    | set w f h hl => exact key w f h hl _
  | multiplyFluxNorm c =>
    simp only [Op.run]
    have key : ∀ (w f : List K), (∀ x ∈ w, 0 < x) → f.length = w.length →
        Ok (Obj.toflambda ⟨some w, some f, some ((toFnu w f).map (· * c))⟩) := by
      intro w f hw hl
      exact ok_toflambda _ hw (by rw [List.length_map, toFnu_length hl]) rfl rfl
    cases h with
    | empty => exact .empty
    | bare w h => exact .bare w h
    | unset w f h hl => exact key w f h hl
    | set w f h hl => exact key w f h hl
  | renormFlambda konst =>
    cases konst with
    | none =>
      cases h with
      | empty => exact .empty
      | bare w h => exact .bare w h
      | unset w f h hl => exact .unset w f h hl
      | set w f h hl => exact .set w f h hl
    | some k =>
      cases h with
      | empty => exact .empty
      | bare w h => exact .bare w h
      | unset w f h hl => exact .set w _ h (by rw [List.length_map, hl])
      | set w f h hl => exact .set w _ h (by rw [List.length_map, hl])
  | renormFnu => exact h.ensureFnu
  | measure => exact h.ensureFnu

theorem ok_runOps (ops : List (Op K)) (hv : ∀ op ∈ ops, op.Valid) : Ok (runOps ops) := by
  unfold runOps
  have : ∀ (ops : List (Op K)) (o : Obj K), (∀ op ∈ ops, op.Valid) → Ok o →
      Ok (ops.foldl Op.run o) := by
    intro ops
    induction ops with
    | nil => intro o _ h; exact h
    | cons op ops ih =>
      intro o hv h
      rw [List.foldl_cons]
      exact ih _ (fun op' h' => hv op' (by simp [h'])) (h.run op (hv op (by simp)))
  exact this ops _ hv .empty

theorem agree_toFnu {w f : List K} (hl : f.length = w.length) : Agree w f (toFnu w f) := by
  refine ⟨hl, toFnu_length hl, fun i hi => ?_⟩
  have := toFnu_get (w := w) (f := f) (i := i) hi (by omega)
  rw [List.getD_eq_getElem?_getD, this, List.getD_eq_getElem _ _ hi,
    List.getD_eq_getElem _ _ (by omega)]
  rfl

/-- After any sequence of method calls, raised exceptions included, the fluxes per
frequency are unset or agree with the fluxes per wavelength. -/
theorem inSync (ops : List (Op K)) (hv : ∀ op ∈ ops, op.Valid) : InSync (runOps ops) := by
  intro fnu h
  cases hok : runOps ops with
  | mk w f g =>
    have := ok_runOps ops hv
    rw [hok] at this h
    cases this with
    | empty => cases h
    | bare w _ => cases h
    | unset w f _ hl => cases h
    | set w f _ hl =>
      cases h
      exact ⟨w, f, rfl, rfl, agree_toFnu hl⟩

/-- What counts, fluxes and magnitudes are calculated from is up to date: after any
sequence of method calls that leaves a spectrum, `fnu` as used by `calc_adu` and `calc_flux`
agrees with the present `flambda`. -/
theorem calc_uses_present (ops : List (Op K)) (hv : ∀ op ∈ ops, op.Valid) {w f : List K}
    (hw : (runOps ops).wavelen = some w) (hf : (runOps ops).flambda = some f) :
    ∃ fnu, (runOps ops).ensureFnu.fnu = some fnu ∧ Agree w f fnu ∧
      (runOps ops).ensureFnu.flambda = some f ∧ (runOps ops).ensureFnu.wavelen = some w := by
  have hok := ok_runOps ops hv
  revert hw hf hok
  generalize runOps ops = o
  intro hw hf hok
  cases hok with
  | empty => cases hw
  | bare w _ => cases hf
  | unset w f h hl =>
    cases hw; cases hf
    exact ⟨_, rfl, agree_toFnu hl, rfl, rfl⟩
  | set w f h hl =>
    cases hw; cases hf
    exact ⟨_, rfl, agree_toFnu hl, rfl, rfl⟩

/-- Without the rule that `fnu` is unset whenever `flambda` changes, they would disagree:
dust changes `flambda` of this spectrum. -/
example : (runOps [.setFnu [1, 2] [4, 8], .addDust (some [1, 1 / 2]), .measure] : Obj ℚ).fnu =
    some [4, 4] := by decide +kernel

example : (runOps [.setFnu [1, 2] [4, 8], .multiplyFluxNorm 3, .measure] : Obj ℚ).fnu =
    some [12, 24] := by decide +kernel

/-! ## Redshift -/

/-- Redshifting by `z` and then by `-z` restores wavelengths and fluxes. -/
theorem redshift_back (w f : List K) (g : Option (List K)) {z : K} (hz : 0 < z) (dim : Bool) :
    (Op.redshift (-z) dim).run ((Op.redshift z dim).run ⟨some w, some f, g⟩) =
      ⟨some w, some f, none⟩ := by
  have h1 : ¬ z < 0 := not_lt.mpr hz.le
  have h2 : -z < 0 := by linarith
  have h3 : (1 + z) ≠ 0 := by linarith
  have h4 : (1 - -z) = 1 + z := by ring
  simp only [Op.run, if_neg h1, if_pos h2, h4, List.map_map]
  have hw : w.map ((· / (1 + z)) ∘ (· * (1 + z))) = w := by
    conv_rhs => rw [← List.map_id w]
    refine List.map_congr_left fun x _ => ?_
    simp only [Function.comp, id]
    field_simp
  cases dim with
  | false => simp only [Bool.false_eq_true, if_false]; rw [hw]
  | true =>
    have hf : f.map ((· * (1 + z)) ∘ (· / (1 + z))) = f := by
      conv_rhs => rw [← List.map_id f]
      refine List.map_congr_left fun x _ => ?_
      simp only [Function.comp, id]
      field_simp
    simp only [if_true, List.map_map]
    rw [hw, hf]

/-- With dimming, redshifting keeps the flux times the wavelength of every point. -/
theorem redshift_energy (w f : List K) (g : Option (List K)) (z : K) (w' f' : List K)
    (h : (Op.redshift z true).run ⟨some w, some f, g⟩ = ⟨some w', some f', none⟩) :
    List.zipWith (· * ·) w' f' = List.zipWith (· * ·) w f := by
  simp only [Op.run, if_true, Obj.mk.injEq, Option.some.injEq, and_true] at h
  obtain ⟨rfl, rfl⟩ := h
  refine List.ext_getElem (by split_ifs <;> simp) fun k h1 h2 => ?_
  split_ifs with hz
  · have : (1 - z) ≠ 0 := by linarith
    simp only [List.getElem_zipWith, List.getElem_map]
    field_simp
  · have : (1 + z) ≠ 0 := by intro h; exact hz (by linarith)
    simp only [List.getElem_zipWith, List.getElem_map]
    field_simp

/-- The claim that wavelengths are stretched by `1 + z` fails for negative redshifts. -/
theorem redshift_false :
    ¬ ∀ (w f : List ℚ) (z : ℚ), -1 < z →
      ((Op.redshift z false).run ⟨some w, some f, none⟩).wavelen =
        some (w.map (· * (1 + z))) := by
  intro h
  have := h [1] [1] (-1 / 2) (by norm_num)
  revert this
  decide +kernel

theorem redshift_partial (w f : List K) (g : Option (List K)) (z : K) (hz : 0 ≤ z) (dim : Bool) :
    ((Op.redshift z dim).run ⟨some w, some f, g⟩).wavelen = some (w.map (· * (1 + z))) := by
  simp only [Op.run, if_neg (not_lt.mpr hz)]

end Verif.Sed
