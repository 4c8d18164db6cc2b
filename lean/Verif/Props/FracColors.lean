import Verif.Model.FracColors

/-!
# Properties of colours of fractions (C612)
-/

namespace Verif.FracColors

theorem has_char (c : Char) (n : List Char) : has [c] n = true ↔ c ∈ n := by
  unfold has
  rw [decide_eq_true_eq]
  constructor
  · rintro ⟨s, t, rfl⟩
    simp
  · intro h
    obtain ⟨s, t, rfl⟩ := List.append_of_mem h
    exact ⟨s, t, by simp⟩

/-- A bundle has no colour of its own exactly if its name has none of the digits and is not that of the inversion. -/
theorem no_color (n : List Char) : setColor n = none ↔
    '6' ∉ n ∧ '5' ∉ n ∧ '4' ∉ n ∧ '2' ∉ n ∧ '1' ∉ n ∧ ¬ "Lightcurve Inversion".toList <:+: n := by
  have hi : has "Lightcurve Inversion".toList n = true ↔ "Lightcurve Inversion".toList <:+: n := by
    unfold has
    rw [decide_eq_true_eq]
  unfold setColor
  simp only [has_char, hi]
  split_ifs <;> simp_all

theorem asteroid_inj : ∀ a ∈ asteroid, ∀ b ∈ asteroid, setColor a = setColor b → a = b := by decide +kernel

theorem asteroid_some : ∀ a ∈ asteroid, (setColor a).isSome = true := by decide +kernel

/-- Any of the fractions of asteroids in one plot have different colours. -/
theorem asteroid_distinct (names : List (List Char)) (hn : names.Nodup) (h : ∀ n ∈ names, n ∈ asteroid) :
    (colors names).Nodup := by
  have hauto : (names.map (fun n => (setColor n).getD .b)).Nodup := by
    refine (List.nodup_map_iff_inj_on hn).mpr ?_
    intro a ha b hb he
    obtain ⟨x, hx⟩ := Option.isSome_iff_exists.mp (asteroid_some a (h a ha))
    obtain ⟨y, hy⟩ := Option.isSome_iff_exists.mp (asteroid_some b (h b hb))
    rw [hx, hy] at he
    exact asteroid_inj a (h a ha) b (h b hb) (by rw [hx, hy]; exact congrArg some he)
  unfold colors
  simp only
  rw [if_neg]
  · exact hauto
  · rintro ⟨h1, h2⟩
    rw [List.dedup_eq_self.mpr hauto, List.length_map] at h2
    omega

/-- A bundle without a colour of its own in a plot with others that are not all blue is blue. -/
theorem default_blue (names : List (List Char)) (i : Nat) (n m : List Char) (hn : names[i]? = some n)
    (h : setColor n = none) (hm : m ∈ names) (c : Color) (hc : setColor m = some c) (hb : c ≠ .b) :
    (colors names)[i]? = some .b := by
  unfold colors
  simp only
  rw [if_neg]
  · simp [hn, h]
  · rintro ⟨_, h2⟩
    obtain ⟨x, hx⟩ := List.length_eq_one_iff.mp h2
    have e1 : (setColor m).getD .b ∈ (names.map (fun n => (setColor n).getD .b)).dedup :=
      List.mem_dedup.mpr (List.mem_map_of_mem hm)
    have e2 : (setColor n).getD .b ∈ (names.map (fun n => (setColor n).getD .b)).dedup :=
      List.mem_dedup.mpr (List.mem_map_of_mem (List.mem_of_getElem? hn))
    rw [hx, List.mem_singleton] at e1 e2
    rw [hc, Option.getD_some] at e1
    rw [h, Option.getD_none] at e2
    exact hb (e1.trans e2.symm)

/-- Different fractions of outer objects in one plot have different colours. -/
def OuterDistinct : Prop := ∀ names : List (List Char), names.Nodup → (∀ n ∈ names, n ∈ outer) → (colors names).Nodup

/-- False: objects with three filters are as blue as those with six. -/
theorem outer_false : ¬ OuterDistinct := by
  intro h
  have := h outer (by decide +kernel) (fun _ h => h)
  revert this
  decide +kernel

/-- The full statement is `OuterDistinct`; missing: the fraction with three filters. -/
theorem outer_partial (names : List (List Char)) (hn : names.Nodup)
    (h : ∀ n ∈ names, n ∈ outer ∧ '3' ∉ n) : (colors names).Nodup := by
  have inj : ∀ a ∈ outer, ∀ b ∈ outer, '3' ∉ a → '3' ∉ b →
      (setColor a).getD .b = (setColor b).getD .b → a = b := by decide +kernel
  have hauto : (names.map (fun n => (setColor n).getD .b)).Nodup :=
    (List.nodup_map_iff_inj_on hn).mpr
      (fun a ha b hb he => inj a (h a ha).1 b (h b hb).1 (h a ha).2 (h b hb).2 he)
  unfold colors
  simp only
  rw [if_neg]
  · exact hauto
  · rintro ⟨h1, h2⟩
    rw [List.dedup_eq_self.mpr hauto, List.length_map] at h2
    omega

/-- The colours of all fractions of outer objects. -/
example : colors outer = [.b, .cyan, .orange, .b, .r, .magenta] := by decide +kernel

end Verif.FracColors
