import Verif.Model.Names

/-! # C37: `name_sanitize` -/

namespace Verif.Names

/-- What a single character becomes. -/
def image (c : Char) : List Char :=
  if c = '>' then ['g', 't'] else if c = '<' then ['l', 't'] else if c = '=' then ['e', 'q']
  else if c ∈ [' ', '.', '/', '\\', ':', ';', '%', '#'] then ['_']
  else if c ∈ [',', '(', ')'] then [] else [c]

/-- Runs of underscores merged into one. -/
def squeeze : List Char → List Char
  | [] => []
  | [c] => [c]
  | c :: d :: r => if c = '_' ∧ d = '_' then squeeze (d :: r) else c :: squeeze (d :: r)

/-- Characters a sanitised name may not contain. -/
def unfriendly : List Char := ['>', '<', '=', ' ', '.', ',', '/', '\\', '(', ')', ':', ';', '%', '#']

theorem subst_append (a b : List Char) : subst (a ++ b) = subst a ++ subst b := by
  simp only [subst, repl, List.flatMap_append]

theorem subst_single (x : Char) : subst [x] = image x := by
  by_cases hm : x ∈ unfriendly
  · simp only [unfriendly, List.mem_cons, List.not_mem_nil, or_false] at hm
    rcases hm with h | h | h | h | h | h | h | h | h | h | h | h | h | h <;> subst h <;> decide
  · simp only [unfriendly, List.mem_cons, List.not_mem_nil, or_false, not_or] at hm
    obtain ⟨a1, a2, a3, a4, a5, a6, a7, a8, a9, a10, a11, a12, a13, a14⟩ := hm
    simp [subst, image, repl, a1, a2, a3, a4, a5, a6, a7, a8, a9, a10, a11, a12, a13, a14]

theorem subst_eq (s : List Char) : subst s = s.flatMap image := by
  induction s with
  | nil => rfl
  | cons c r ih =>
    have : c :: r = [c] ++ r := rfl
    rw [this, subst_append, ih, subst_single, List.flatMap_append]
    simp

theorem squeeze_of_not_double {s : List Char} (h : hasDouble s = false) : squeeze s = s := by
  induction s with
  | nil => rfl
  | cons c r ih =>
    cases r with
    | nil => rfl
    | cons d r =>
      simp only [hasDouble, Bool.or_eq_false_iff, Bool.and_eq_false_iff, beq_eq_false_iff_ne] at h
      unfold squeeze
      rw [if_neg (by rintro ⟨e1, e2⟩; rcases h.1 with h1 | h1 <;> contradiction), ih h.2]

theorem halve_head (s : List Char) : (halve s).head? = s.head? := by
  match s with
  | [] => rfl
  | [c] => rfl
  | c :: d :: r =>
    unfold halve
    split
    · rename_i h; simp [h.1]
    · rfl

theorem squeeze_cons (c : Char) (s : List Char) :
    squeeze (c :: s) = if c = '_' ∧ s.head? = some '_' then squeeze s else c :: squeeze s := by
  cases s with
  | nil => simp [squeeze]
  | cons d r => simp [squeeze]

theorem squeeze_halve : ∀ (n : Nat) (s : List Char), s.length ≤ n → squeeze (halve s) = squeeze s := by
  intro n
  induction n with
  | zero => intro s h; have : s = [] := List.length_eq_zero_iff.mp (by omega); subst this; rfl
  | succ n ih =>
    intro s h
    match s with
    | [] => rfl
    | [c] => rfl
    | c :: d :: r =>
      simp only [List.length_cons] at h
      unfold halve
      by_cases hc : c = '_' ∧ d = '_'
      · obtain ⟨rfl, rfl⟩ := hc
        rw [if_pos ⟨rfl, rfl⟩, squeeze_cons, halve_head, ih r (by omega), squeeze_cons '_' ('_' :: r)]
        simp only [List.head?_cons, and_self, if_true]
        rw [squeeze_cons '_' r]
        simp
      · rw [if_neg hc, squeeze_cons, halve_head, ih (d :: r) (by simp; omega), squeeze_cons c (d :: r)]

theorem halve_length : ∀ (n : Nat) (s : List Char), s.length ≤ n →
    (halve s).length ≤ s.length ∧ (hasDouble s = true → (halve s).length < s.length) := by
  intro n
  induction n with
  | zero =>
    intro s h
    have : s = [] := List.length_eq_zero_iff.mp (by omega)
    subst this
    simp [halve, hasDouble]
  | succ n ih =>
    intro s h
    match s with
    | [] => simp [halve, hasDouble]
    | [c] => simp [halve, hasDouble]
    | c :: d :: r =>
      simp only [List.length_cons] at h
      unfold halve
      by_cases hc : c = '_' ∧ d = '_'
      · rw [if_pos hc]
        have := (ih r (by omega)).1
        simp only [List.length_cons]
        exact ⟨by omega, fun _ => by omega⟩
      · rw [if_neg hc]
        have h1 := ih (d :: r) (by simp; omega)
        simp only [List.length_cons] at h1 ⊢
        refine ⟨by omega, fun hd => ?_⟩
        have : hasDouble (d :: r) = true := by
          simp only [hasDouble, Bool.or_eq_true, Bool.and_eq_true, beq_iff_eq] at hd
          rcases hd with hd | hd
          · exact absurd hd hc
          · exact hd
        have := h1.2 this
        omega

theorem collapse_eq (fuel : Nat) (s : List Char) (h : s.length ≤ fuel) : collapse fuel s = squeeze s := by
  induction fuel generalizing s with
  | zero =>
    have : s = [] := List.length_eq_zero_iff.mp (by omega)
    subst this; rfl
  | succ fuel ih =>
    unfold collapse
    by_cases hd : hasDouble s = true
    · rw [if_pos hd]
      have := (halve_length s.length s (Nat.le_refl _)).2 hd
      rw [ih _ (by omega), squeeze_halve s.length s (Nat.le_refl _)]
    · rw [if_neg hd, squeeze_of_not_double (by simpa using hd)]

/-- **C37.** The loop terminates, and the result is: every character replaced on its
own, then runs of underscores merged. -/
theorem sanitize_eq (s : List Char) : sanitize s = squeeze (s.flatMap image) := by
  simp [sanitize, collapse_eq, subst_eq]

theorem squeeze_mem {s : List Char} {c : Char} (h : c ∈ squeeze s) : c ∈ s := by
  induction s with
  | nil => simp [squeeze] at h
  | cons d r ih =>
    rw [squeeze_cons] at h
    split at h
    · exact List.mem_cons_of_mem _ (ih h)
    · rcases List.mem_cons.mp h with rfl | h
      · simp
      · exact List.mem_cons_of_mem _ (ih h)

theorem squeeze_head (s : List Char) : (squeeze s).head? = s.head? := by
  induction s with
  | nil => rfl
  | cons c r ih =>
    rw [squeeze_cons]
    split
    · rename_i h; rw [ih, h.2, h.1]; rfl
    · rfl

theorem squeeze_no_double (s : List Char) : hasDouble (squeeze s) = false := by
  induction s with
  | nil => rfl
  | cons c r ih =>
    rw [squeeze_cons]
    split
    · exact ih
    · rename_i h
      cases hs : squeeze r with
      | nil => rfl
      | cons d t =>
        have hd : r.head? = some d := by rw [← squeeze_head, hs]; rfl
        rw [hd] at h
        rw [hs] at ih
        simp only [hasDouble, ih, Bool.or_false, Bool.and_eq_false_iff, beq_eq_false_iff_ne]
        by_cases hc : c = '_'
        · right; intro e; exact h ⟨hc, by rw [e]⟩
        · left; exact hc

theorem image_friendly {c d : Char} (h : d ∈ image c) : d ∉ unfriendly := by
  unfold image at h
  split at h
  · rcases (by simpa using h : d = 'g' ∨ d = 't') with rfl | rfl <;> decide
  split at h
  · rcases (by simpa using h : d = 'l' ∨ d = 't') with rfl | rfl <;> decide
  split at h
  · rcases (by simpa using h : d = 'e' ∨ d = 'q') with rfl | rfl <;> decide
  split at h
  · rw [List.mem_singleton.mp h]; decide
  split at h
  · simp at h
  · rename_i h1 h2 h3 h4 h5
    rw [List.mem_singleton.mp h]
    simp only [unfriendly, List.mem_cons, List.not_mem_nil, or_false, not_or] at h4 h5 ⊢
    tauto

theorem image_of_friendly {c : Char} (h : c ∉ unfriendly) : image c = [c] := by
  simp only [unfriendly, List.mem_cons, List.not_mem_nil, or_false, not_or] at h
  obtain ⟨a1, a2, a3, a4, a5, a6, a7, a8, a9, a10, a11, a12, a13, a14⟩ := h
  simp [image, a1, a2, a3, a4, a5, a6, a7, a8, a9, a10, a11, a12, a13, a14]

theorem flatMap_image {s : List Char} (h : ∀ c ∈ s, c ∉ unfriendly) : s.flatMap image = s := by
  induction s with
  | nil => rfl
  | cons c r ih =>
    rw [List.flatMap_cons, image_of_friendly (h c (by simp)), ih (fun c hc => h c (List.mem_cons_of_mem _ hc))]
    rfl

/-- **C37.** A sanitised name has no unfriendly character and no double underscore. -/
theorem sanitize_safe (s : List Char) : (∀ c ∈ sanitize s, c ∉ unfriendly) ∧ ¬ ['_', '_'] <:+: sanitize s := by
  rw [sanitize_eq]
  constructor
  · intro c hc
    obtain ⟨x, _, hx⟩ := List.mem_flatMap.mp (squeeze_mem hc)
    exact image_friendly hx
  · have h := squeeze_no_double (s.flatMap image)
    rintro ⟨a, b, hab⟩
    rw [← hab] at h
    clear hab
    induction a with
    | nil => simp [hasDouble] at h
    | cons c a ih =>
      apply ih
      cases a with
      | nil => simp [hasDouble] at h
      | cons d a =>
        simp only [List.cons_append, hasDouble, Bool.or_eq_false_iff] at h
        exact h.2

/-- **C37.** Names that are already friendly are left alone. -/
theorem sanitize_fixed (s : List Char) (h : ∀ c ∈ s, c ∉ unfriendly) (h2 : hasDouble s = false) : sanitize s = s := by
  rw [sanitize_eq, flatMap_image h, squeeze_of_not_double h2]

/-- **C37.** Sanitising twice changes nothing. -/
theorem sanitize_idem (s : List Char) : sanitize (sanitize s) = sanitize s := by
  apply sanitize_fixed _ (sanitize_safe s).1
  rw [sanitize_eq]
  exact squeeze_no_double _

/-- **C37.** Distinct names may collide: file names built from them then coincide. -/
theorem sanitize_collides : sanitize "seeing > 1.5".toList = sanitize "seeing_gt_1_5".toList := by decide

example : sanitize "Mean (airmass), r / i: 5%#x".toList = "Mean_airmass_r_i_5_x".toList := by decide

end Verif.Names
