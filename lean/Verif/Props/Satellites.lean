import Verif.Model.Satellites
import Verif.Props.Selfcal
import Mathlib.Data.Nat.Digits.Lemmas

/-!
# Satellite constellations

Theorems C252 to C256.
-/

namespace Verif.Sat

open Np

/-! ## C252 -/

theorem zfill_length (w n : ℕ) (h : n < 10 ^ w) : (zfill w n).length = w := by
  have h1 : (Nat.digits 10 n).length ≤ w := (Nat.digits_length_le_iff (by norm_num) n).mpr h
  simp only [zfill, List.length_append, List.length_replicate, List.length_map, List.length_reverse]
  omega

theorem fixed_length (w d a n : ℕ) (ha : 1 ≤ a) (hw : a + 1 + d ≤ w) (h : n < 10 ^ (a + d)) : (fixed w d n).length = w := by
  have h1 : n / 10 ^ d < 10 ^ a := by
    rw [Nat.div_lt_iff_lt_mul (by positivity), ← pow_add]
    exact h
  have h2 : (Nat.digits 10 (n / 10 ^ d)).length ≤ a := (Nat.digits_length_le_iff (by norm_num) _).mpr h1
  have h3 : (zfill 1 (n / 10 ^ d)).length ≤ a := by
    simp only [zfill, List.length_append, List.length_replicate, List.length_map, List.length_reverse]
    omega
  have h4 := zfill_length d (n % 10 ^ d) (Nat.mod_lt _ (by positivity))
  simp only [fixed, List.length_append, List.length_replicate, List.length_cons, List.length_nil]
  omega

/-- The number that is written in a text, without the characters that are not digits. -/
def value (l : List Char) : ℕ := l.foldl (fun a c => if c.isDigit then 10 * a + (c.toNat - 48) else a) 0

theorem value_snoc (l : List Char) (c : Char) (h : c.isDigit = true) : value (l ++ [c]) = 10 * value l + (c.toNat - 48) := by
  simp [value, h]

theorem value_skip (l r : List Char) (h : ∀ c ∈ l, c.isDigit = false ∨ c = '0') : value (l ++ r) = value r := by
  have key : ∀ l : List Char, (∀ c ∈ l, c.isDigit = false ∨ c = '0') → l.foldl (fun a c => if c.isDigit then 10 * a + (c.toNat - 48) else a) 0 = 0 := by
    intro l
    induction l with
    | nil => intro _; rfl
    | cons c l ih =>
      intro h
      rw [List.foldl_cons]
      rcases h c (by simp) with h1 | h1
      · rw [h1]; exact ih (fun x hx => h x (by simp [hx]))
      · subst h1; exact ih (fun x hx => h x (by simp [hx]))
  unfold value
  rw [List.foldl_append, key l h]

theorem digitChar_spec : ∀ d < 10, (Nat.digitChar d).isDigit = true ∧ (Nat.digitChar d).toNat - 48 = d := by decide

theorem zfill_rev (w n : ℕ) : zfill w n = List.replicate (w - (Nat.digits 10 n).length) '0' ++ ((Nat.digits 10 n).map Nat.digitChar).reverse := by
  simp [zfill, List.map_reverse]

theorem digits_digit (n : ℕ) : ∀ c ∈ (Nat.digits 10 n).map Nat.digitChar, c.isDigit = true := by
  intro c hc
  obtain ⟨d, hd, rfl⟩ := List.mem_map.mp hc
  exact (digitChar_spec d (Nat.digits_lt_base (by norm_num) hd)).1

theorem zfill_digits (w n : ℕ) : ∀ c ∈ zfill w n, c.isDigit = true := by
  intro c hc
  rw [zfill_rev] at hc
  rcases List.mem_append.mp hc with h | h
  · rw [(List.mem_replicate.mp h).2]; rfl
  · exact digits_digit n c (List.mem_reverse.mp h)

/-- A number filled up with zeros is read back. -/
theorem zfill_value (w n : ℕ) : value (zfill w n) = n := by
  rw [zfill_rev, value_skip _ _ (fun c hc => Or.inr (List.mem_replicate.mp hc).2)]
  induction n using Nat.strong_induction_on with
  | _ n ih =>
    rcases Nat.eq_zero_or_pos n with rfl | hn
    · rfl
    · rw [Nat.digits_def' (by norm_num) hn, List.map_cons, List.reverse_cons]
      have hd := digitChar_spec (n % 10) (Nat.mod_lt _ (by norm_num))
      rw [value_snoc _ _ hd.1, hd.2, ih (n / 10) (Nat.div_lt_self hn (by norm_num))]
      omega

theorem value_append (l r : List Char) (h : ∀ c ∈ r, c.isDigit = true) : value (l ++ r) = value l * 10 ^ r.length + value r := by
  induction r using List.reverseRecOn with
  | nil => simp [value]
  | append_singleton r c ih =>
    have hc := h c (by simp)
    rw [← List.append_assoc, value_snoc _ _ hc, value_snoc _ _ hc, ih (fun x hx => h x (by simp [hx])), List.length_append, List.length_singleton, pow_succ]
    ring

/-- **C252.** A decimal number is text with blanks, digits, a point and `d` digits, and its digits are the number. -/
theorem fixed_spec (w d n : ℕ) : value (fixed w d n) = n ∧ ∃ k ds fs, fixed w d n = List.replicate k ' ' ++ ds ++ ['.'] ++ fs ∧ ds ≠ [] ∧ (∀ c ∈ ds, c.isDigit = true) ∧
    (∀ c ∈ fs, c.isDigit = true) ∧ fs.length = d ∧ value ds = n / 10 ^ d ∧ value fs = n % 10 ^ d := by
  have hl := zfill_length d (n % 10 ^ d) (Nat.mod_lt _ (by positivity))
  constructor
  · unfold fixed
    dsimp only
    rw [value_skip _ _ (fun c hc => Or.inl (by rw [(List.mem_replicate.mp hc).2]; rfl)), value_append _ _ (zfill_digits _ _), hl, zfill_value]
    have : value (zfill 1 (n / 10 ^ d) ++ ['.']) = n / 10 ^ d := by
      have h2 := zfill_value 1 (n / 10 ^ d)
      unfold value at h2 ⊢
      rw [List.foldl_append, h2]
      rfl
    rw [this, Nat.div_add_mod']
  · refine ⟨w - (zfill 1 (n / 10 ^ d) ++ ['.'] ++ zfill d (n % 10 ^ d)).length, zfill 1 (n / 10 ^ d), zfill d (n % 10 ^ d), ?_, ?_,
      zfill_digits _ _, zfill_digits _ _, hl, zfill_value _ _, zfill_value _ _⟩
    · unfold fixed
      dsimp only
      rw [← List.append_assoc, ← List.append_assoc]
    · intro h
      rw [zfill_rev] at h
      have := congrArg List.length h
      simp only [List.length_append, List.length_replicate, List.length_reverse, List.length_map, List.length_nil] at this
      omega

/-- What a character adds to the checksum of a line: a digit its value, a minus one. -/
def digitOf (c : Char) : ℕ := if c.isDigit then c.toNat - 48 else if c = '-' then 1 else 0

theorem checksum_spec (line : List Char) : checksum line = line.dropLast ++ [Nat.digitChar ((line.dropLast.map digitOf).sum % 10)] := by
  unfold checksum
  simp only
  congr 3
  have key : ∀ (l : List Char) (s : ℕ), l.foldl (fun s c =>
      if c = '-' then (if c.isDigit then s + (c.toNat - 48) else s) + 1 else (if c.isDigit then s + (c.toNat - 48) else s)) s = s + (l.map digitOf).sum := by
    intro l
    induction l with
    | nil => simp
    | cons c l ih =>
      intro s
      rw [List.foldl_cons, ih, List.map_cons, List.sum_cons]
      unfold digitOf
      by_cases h1 : c = '-'
      · subst h1
        rw [if_pos rfl, if_neg (by decide), if_neg (by decide), if_pos rfl]
        omega
      · rw [if_neg h1, if_neg h1]
        by_cases h2 : c.isDigit = true
        · rw [if_pos h2, if_pos h2]
          omega
        · rw [if_neg h2, if_neg h2]
          omega
  rw [key, zero_add]

theorem slice_app (pre f post : List Char) (a b : ℕ) (ha : pre.length = a) (hb : f.length = b) : ((pre ++ (f ++ post)).drop a).take b = f := by
  rw [List.drop_left' ha, List.take_left' hb]

/-- A line of 69 characters that ends with its checksum, with the text of `line` elsewhere. -/
theorem checksum_line (line : List Char) (h : line.length = 69) : (checksum line).length = 69 ∧
    (checksum line)[68]? = some (Nat.digitChar ((((checksum line).take 68).map digitOf).sum % 10)) ∧
    ∀ a b, a + b ≤ 68 → ((checksum line).drop a).take b = (line.drop a).take b := by
  have hd : line.dropLast.length = 68 := by simp [h]
  have ht : line.dropLast = line.take 68 := by rw [List.dropLast_eq_take, h]
  rw [checksum_spec]
  refine ⟨by simp [h], ?_, ?_⟩
  · rw [List.getElem?_append_right (by omega), hd, List.take_left' hd]
    rfl
  · intro a b hab
    rw [List.drop_append_of_le_length (by omega), List.take_append_of_le_length (by rw [List.length_drop]; omega), ht, List.drop_take, List.take_take]
    congr 1
    omega

/-- **C252.** For numbers of five digits the first line has 69 characters, with the number and the epoch in
their columns and the checksum at the end. -/
theorem line1_spec (nr epoch : ℕ) (hn : nr < 10 ^ 5) (he : epoch < 10 ^ 13) :
    (line1 nr epoch).length = 69 ∧ (line1 nr epoch)[68]? = some (Nat.digitChar ((((line1 nr epoch).take 68).map digitOf).sum % 10)) ∧
      ((line1 nr epoch).drop 2).take 5 = zfill 5 nr ∧ ((line1 nr epoch).drop 18).take 14 = fixed 14 8 epoch := by
  have h1 := zfill_length 5 nr hn
  have h2 := fixed_length 14 8 5 epoch (by norm_num) (by norm_num) he
  unfold line1
  set t1 := "1 ".toList with ht1
  set t2 := "U 20001A   ".toList with ht2
  set t3 := "  .00000000  00000-0  50000-4 0    0X".toList with ht3
  have l1 : t1.length = 2 := rfl
  have l2 : t2.length = 11 := rfl
  have l3 : t3.length = 37 := rfl
  obtain ⟨a1, a2, a3⟩ := checksum_line (t1 ++ (zfill 5 nr ++ (t2 ++ (fixed 14 8 epoch ++ t3)))) (by simp only [List.length_append]; omega)
  refine ⟨a1, a2, ?_, ?_⟩
  · rw [a3 2 5 (by norm_num), slice_app t1 _ _ 2 5 l1 h1]
  · rw [a3 18 14 (by norm_num)]
    have e : t1 ++ (zfill 5 nr ++ (t2 ++ (fixed 14 8 epoch ++ t3))) = (t1 ++ (zfill 5 nr ++ t2)) ++ (fixed 14 8 epoch ++ t3) := by simp only [List.append_assoc]
    rw [e, slice_app _ _ _ 18 14 (by simp only [List.length_append]; omega) h2]

/-- The second line holds the number, the inclination, the node, the mean anomaly and the mean motion. -/
theorem line2_spec (nr inc raan ma mm : ℕ) (hn : nr < 10 ^ 5) (hi : inc < 10 ^ 7) (hr : raan < 10 ^ 7) (ha : ma < 10 ^ 7) (hm : mm < 10 ^ 10) :
    (line2 nr inc raan ma mm).length = 69 ∧
      (line2 nr inc raan ma mm)[68]? = some (Nat.digitChar ((((line2 nr inc raan ma mm).take 68).map digitOf).sum % 10)) ∧
      ((line2 nr inc raan ma mm).drop 2).take 5 = zfill 5 nr ∧ ((line2 nr inc raan ma mm).drop 8).take 8 = fixed 8 4 inc ∧
      ((line2 nr inc raan ma mm).drop 17).take 8 = fixed 8 4 raan ∧ ((line2 nr inc raan ma mm).drop 43).take 8 = fixed 8 4 ma ∧
      ((line2 nr inc raan ma mm).drop 52).take 11 = fixed 11 8 mm := by
  have h1 := zfill_length 5 nr hn
  have h2 := fixed_length 8 4 3 inc (by norm_num) (by norm_num) hi
  have h3 := fixed_length 8 4 3 raan (by norm_num) (by norm_num) hr
  have h4 := fixed_length 8 4 3 ma (by norm_num) (by norm_num) ha
  have h5 := fixed_length 11 8 2 mm (by norm_num) (by norm_num) hm
  unfold line2
  set t1 := "2 ".toList with ht1
  set t2 := " ".toList with ht2
  set t3 := " 0001000   0.0000 ".toList with ht3
  set t4 := "    0X".toList with ht4
  have l1 : t1.length = 2 := rfl
  have l2 : t2.length = 1 := rfl
  have l3 : t3.length = 18 := rfl
  have l4 : t4.length = 6 := rfl
  generalize zfill 5 nr = f1 at *
  generalize fixed 8 4 inc = f2 at *
  generalize fixed 8 4 raan = f3 at *
  generalize fixed 8 4 ma = f4 at *
  generalize fixed 11 8 mm = f5 at *
  obtain ⟨a1, a2, a3⟩ := checksum_line (t1 ++ (f1 ++ (t2 ++ (f2 ++ (t2 ++ (f3 ++ (t3 ++ (f4 ++ (t2 ++ (f5 ++ t4)))))))))) (by simp only [List.length_append]; omega)
  refine ⟨a1, a2, ?_, ?_, ?_, ?_, ?_⟩
  · rw [a3 2 5 (by norm_num), slice_app t1 _ _ 2 5 l1 h1]
  · rw [a3 8 8 (by norm_num)]
    have e : t1 ++ (f1 ++ (t2 ++ (f2 ++ (t2 ++ (f3 ++ (t3 ++ (f4 ++ (t2 ++ (f5 ++ t4))))))))) =
        (t1 ++ (f1 ++ t2)) ++ (f2 ++ (t2 ++ (f3 ++ (t3 ++ (f4 ++ (t2 ++ (f5 ++ t4))))))) := by simp only [List.append_assoc]
    rw [e, slice_app _ _ _ 8 8 (by simp only [List.length_append]; omega) h2]
  · rw [a3 17 8 (by norm_num)]
    have e : t1 ++ (f1 ++ (t2 ++ (f2 ++ (t2 ++ (f3 ++ (t3 ++ (f4 ++ (t2 ++ (f5 ++ t4))))))))) =
        (t1 ++ (f1 ++ (t2 ++ (f2 ++ t2)))) ++ (f3 ++ (t3 ++ (f4 ++ (t2 ++ (f5 ++ t4))))) := by simp only [List.append_assoc]
    rw [e, slice_app _ _ _ 17 8 (by simp only [List.length_append]; omega) h3]
  · rw [a3 43 8 (by norm_num)]
    have e : t1 ++ (f1 ++ (t2 ++ (f2 ++ (t2 ++ (f3 ++ (t3 ++ (f4 ++ (t2 ++ (f5 ++ t4))))))))) =
        (t1 ++ (f1 ++ (t2 ++ (f2 ++ (t2 ++ (f3 ++ t3)))))) ++ (f4 ++ (t2 ++ (f5 ++ t4))) := by simp only [List.append_assoc]
    rw [e, slice_app _ _ _ 43 8 (by simp only [List.length_append]; omega) h4]
  · rw [a3 52 11 (by norm_num)]
    have e : t1 ++ (f1 ++ (t2 ++ (f2 ++ (t2 ++ (f3 ++ (t3 ++ (f4 ++ (t2 ++ (f5 ++ t4))))))))) =
        (t1 ++ (f1 ++ (t2 ++ (f2 ++ (t2 ++ (f3 ++ (t3 ++ (f4 ++ t2)))))))) ++ (f5 ++ t4) := by simp only [List.append_assoc]
    rw [e, slice_app _ _ _ 52 11 (by simp only [List.length_append]; omega) h5]

/-! ## C253 -/

theorem turn_length (n : ℕ) : (turn n).length = n := by simp [turn]

theorem places_length (a b : ℕ → ℝ) (off : ℝ) (s : Shell) : (places a b off s).length = s.planes * s.perPlane := by
  unfold places
  by_cases h : s.perPlane = 1
  · rw [if_pos h, h]
    simp
  · rw [if_neg h, List.length_flatMap]
    simp [turn_length]

/-- Each plane has its satellites at equal distances, and the planes have nodes at equal distances. -/
theorem places_grid (a b : ℕ → ℝ) (off : ℝ) (s : Shell) (h : s.perPlane ≠ 1) (p : ℝ × ℝ) :
    p ∈ places a b off s ↔ ∃ i j : ℕ, i < s.planes ∧ j < s.perPlane ∧ p = (360 * (j : ℝ) / s.perPlane + off, 360 * (i : ℝ) / s.planes) := by
  unfold places
  rw [if_neg h]
  simp only [List.mem_flatMap, List.mem_map, turn, List.mem_range]
  constructor
  · rintro ⟨_, ⟨i, hi, rfl⟩, _, ⟨_, ⟨j, hj, rfl⟩, rfl⟩, rfl⟩
    exact ⟨i, j, hi, hj, rfl⟩
  · rintro ⟨i, j, hi, hj, rfl⟩
    exact ⟨_, ⟨i, hi, rfl⟩, _, ⟨_, ⟨j, hj, rfl⟩, rfl⟩, rfl⟩

theorem turn_nodup (n : ℕ) : (turn n).Nodup := by
  unfold turn
  rcases Nat.eq_zero_or_pos n with rfl | hn
  · simp
  · apply List.Nodup.map _ List.nodup_range
    intro i j hij
    have hn' : (n : ℝ) ≠ 0 := by positivity
    simp only at hij
    field_simp at hij
    exact_mod_cast hij

/-- No two satellites of a group of several per plane are at the same place. -/
theorem places_nodup (a b : ℕ → ℝ) (off : ℝ) (s : Shell) (h : s.perPlane ≠ 1) : (places a b off s).Nodup := by
  unfold places
  rw [if_neg h, List.nodup_flatMap]
  constructor
  · intro r _
    rw [List.map_map]
    apply List.Nodup.map _ (turn_nodup _)
    intro x y hxy
    simpa using hxy
  · apply (turn_nodup _).imp
    intro r r' hne
    rw [Function.onFun, List.disjoint_left]
    intro p hp hp'
    obtain ⟨_, _, rfl⟩ := List.mem_map.mp hp
    obtain ⟨_, _, he⟩ := List.mem_map.mp hp'
    exact hne (Prod.mk.injEq .. ▸ he).2.symm

/-- **C253.** The satellites are those of the groups in order, numbered from 8000. -/
theorem create_spec (motion : ℝ → ℝ) (shells : List (Shell × (ℕ → ℝ) × (ℕ → ℝ) × ℝ)) :
    (create motion shells).map (fun s => (s.inc, s.raan, s.ma, s.mm)) =
        shells.flatMap (fun s => (places s.2.1 s.2.2.1 s.2.2.2 s.1).map (fun p => (s.1.inc, p.2, p.1, motion s.1.alt))) ∧
      (create motion shells).map Satellite.nr = (List.range (create motion shells).length).map (8000 + ·) ∧
      (create motion shells).length = (shells.map (fun s => s.1.planes * s.1.perPlane)).sum := by
  let Inv : List Satellite × ℕ → List (ℝ × ℝ × ℝ × ℝ) → Prop := fun acc out =>
    acc.1.map (fun s => (s.inc, s.raan, s.ma, s.mm)) = out ∧ acc.1.map Satellite.nr = (List.range acc.1.length).map (8000 + ·) ∧ acc.2 = 8000 + acc.1.length
  have inner : ∀ (s : Shell) (ps : List (ℝ × ℝ)) (acc : List Satellite × ℕ) (out : List (ℝ × ℝ × ℝ × ℝ)), Inv acc out →
      Inv (ps.foldl (fun acc p => (acc.1 ++ [⟨acc.2, s.inc, p.2, p.1, motion s.alt⟩], acc.2 + 1)) acc) (out ++ ps.map (fun p => (s.inc, p.2, p.1, motion s.alt))) := by
    intro s ps
    induction ps with
    | nil =>
      intro acc out h
      simpa using h
    | cons p ps ih =>
      intro acc out h
      rw [List.foldl_cons]
      have := ih (acc.1 ++ [⟨acc.2, s.inc, p.2, p.1, motion s.alt⟩], acc.2 + 1) (out ++ [(s.inc, p.2, p.1, motion s.alt)]) (by
        obtain ⟨h1, h2, h3⟩ := h
        refine ⟨by simp [h1], ?_, by simp [h3]; omega⟩
        simp only [List.map_append, List.map_cons, List.map_nil, List.length_append, List.length_cons, List.length_nil, h2, h3]
        rw [List.range_succ, List.map_append]
        rfl)
      rw [List.append_assoc] at this
      simpa using this
  have outer : ∀ (ss : List (Shell × (ℕ → ℝ) × (ℕ → ℝ) × ℝ)) (acc : List Satellite × ℕ) (out : List (ℝ × ℝ × ℝ × ℝ)), Inv acc out →
      Inv (ss.foldl (fun acc s => (places s.2.1 s.2.2.1 s.2.2.2 s.1).foldl
        (fun acc p => (acc.1 ++ [⟨acc.2, s.1.inc, p.2, p.1, motion s.1.alt⟩], acc.2 + 1)) acc) acc)
        (out ++ ss.flatMap (fun s => (places s.2.1 s.2.2.1 s.2.2.2 s.1).map (fun p => (s.1.inc, p.2, p.1, motion s.1.alt)))) := by
    intro ss
    induction ss with
    | nil =>
      intro acc out h
      simpa using h
    | cons s ss ih =>
      intro acc out h
      rw [List.foldl_cons, List.flatMap_cons, ← List.append_assoc]
      exact ih _ _ (inner s.1 _ acc out h)
  obtain ⟨h1, h2, _⟩ := outer shells ([], 8000) [] ⟨rfl, rfl, rfl⟩
  have h1' : (create motion shells).map (fun s => (s.inc, s.raan, s.ma, s.mm)) =
      shells.flatMap (fun s => (places s.2.1 s.2.2.1 s.2.2.2 s.1).map (fun p => (s.1.inc, p.2, p.1, motion s.1.alt))) := by
    rw [List.nil_append] at h1
    exact h1
  refine ⟨h1', h2, ?_⟩
  have h3 := congrArg List.length h1'
  rw [List.length_map, List.length_flatMap] at h3
  rw [h3]
  congr 1
  apply List.map_congr_left
  intro s _
  rw [List.length_map, places_length]

/-- The constellations have the numbers of satellites of their descriptions, all with five digits. -/
theorem presets (motion : ℝ → ℝ) (shells : List (Shell × (ℕ → ℝ) × (ℕ → ℝ) × ℝ)) :
    (shells.map (fun s => (s.1.planes, s.1.perPlane)) = starlinkV1 → (create motion shells).length = 4408) ∧
    (shells.map (fun s => (s.1.planes, s.1.perPlane)) = starlinkV2 → (create motion shells).length = 29988) ∧
    (shells.map (fun s => (s.1.planes, s.1.perPlane)) = oneweb → (create motion shells).length = 6372) ∧
    ((create motion shells).length ≤ 29988 → ∀ s ∈ create motion shells, 8000 ≤ s.nr ∧ s.nr < 10 ^ 5) := by
  obtain ⟨_, h2, h3⟩ := create_spec motion shells
  have e : (shells.map (fun s => s.1.planes * s.1.perPlane)).sum = ((shells.map (fun s => (s.1.planes, s.1.perPlane))).map (fun p => p.1 * p.2)).sum := by
    rw [List.map_map]
    rfl
  refine ⟨?_, ?_, ?_, ?_⟩
  · intro h
    rw [h3, e, h]
    rfl
  · intro h
    rw [h3, e, h]
    rfl
  · intro h
    rw [h3, e, h]
    rfl
  · intro hl s hs
    have hm : s.nr ∈ (create motion shells).map Satellite.nr := List.mem_map_of_mem hs
    rw [h2] at hm
    obtain ⟨i, hi, he⟩ := List.mem_map.mp hm
    rw [List.mem_range] at hi
    omega

/-- Kepler's third law; higher satellites are slower. -/
theorem meanMotion_spec (mu r alt : ℝ) (hmu : 0 < mu) (ha : 0 < alt + r) : meanMotion mu r alt ^ 2 * (4 * Real.pi ^ 2 * (alt + r) ^ 3) = mu := by
  unfold meanMotion
  have := Real.pi_pos
  rw [div_pow, one_pow, Real.sq_sqrt (by positivity)]
  field_simp

theorem meanMotion_lt (mu r alt alt' : ℝ) (hmu : 0 < mu) (ha : 0 < alt + r) (h : alt < alt') : meanMotion mu r alt' < meanMotion mu r alt := by
  unfold meanMotion
  have := Real.pi_pos
  apply one_div_lt_one_div_of_lt (Real.sqrt_pos.mpr (by positivity))
  apply Real.sqrt_lt_sqrt (by positivity)
  apply div_lt_div_of_pos_right _ hmu
  have h1 : (alt + r) ^ 3 < (alt' + r) ^ 3 := pow_lt_pow_left₀ (by linarith) ha.le (by norm_num)
  have : 0 < 4 * Real.pi ^ 2 := by positivity
  nlinarith

/-! ## C254 -/

/-- **C254.** The visible satellites are those in the light at or above the limit. -/
theorem visible_spec (limit : ℝ) (ps : List Pos) (i : ℕ) : i ∈ visible limit ps ↔ ∃ p, ps[i]? = some p ∧ p.illum = true ∧ limit ≤ p.alt := by
  classical
  unfold visible
  simp only [List.mem_filter, List.mem_range, List.getElem?_map]
  constructor
  · rintro ⟨hi, h⟩
    refine ⟨ps[i], List.getElem?_eq_getElem hi, ?_⟩
    rw [List.getElem?_eq_getElem hi] at h
    cases hill : ps[i].illum with
    | false => simp [hill] at h
    | true =>
      simp [hill] at h
      exact ⟨rfl, h⟩
  · rintro ⟨p, hp, hill, hl⟩
    obtain ⟨hi, rfl⟩ := List.getElem?_eq_some_iff.mp hp
    refine ⟨hi, ?_⟩
    rw [hp]
    simp [hill, hl]

/-- The map counts these satellites in each pixel. -/
theorem spot_spec (limit : ℝ) (ps : List Pos) (pix : ℕ) [DecidablePred (fun p : Pos => p.illum = true ∧ limit ≤ p.alt ∧ p.pix = pix)] :
    spot limit ps pix = ps.countP (fun p => decide (p.illum = true ∧ limit ≤ p.alt ∧ p.pix = pix)) := by
  classical
  unfold spot
  induction ps with
  | nil => rfl
  | cons p ps ih =>
    simp only at ih ⊢
    rw [List.countP_cons, ← ih]
    by_cases hill : p.illum = true
    · rw [List.filter_cons_of_pos hill]
      by_cases hp : p.pix = pix
      · rw [List.filter_cons_of_pos (by simp [hp]), List.map_cons, List.sum_cons]
        by_cases ha : p.alt < limit
        · rw [if_pos ha, if_neg (by simp [ha])]
          omega
        · rw [if_neg ha, if_pos hill, if_pos (by simp [hill, hp, not_lt.mp ha])]
          omega
      · rw [List.filter_cons_of_neg (by simp [hp]), if_neg (by simp [hp])]
        rfl
    · rw [List.filter_cons_of_neg hill, if_neg (by simp [hill])]
      rfl

/-! ## C255 -/

/-- What the observatory needs: after each change of time the maps are those of the night. -/
def MapsOfNight : Prop := ∀ (M : Type) (indx : ℝ → ℕ) (night : ℕ → ℤ) (mk : ℕ → M), Function.Injective night →
  ∀ (t0 : ℝ) (ts : List ℝ) (t : ℝ), ((ts ++ [t]).foldl (Obsy.set indx night mk) (Obsy.start t0)).maps = some (mk (indx t))

/-- **C255.** This holds if no night has the number -1. -/
theorem maps_partial {M : Type} (indx : ℝ → ℕ) (night : ℕ → ℤ) (mk : ℕ → M) (hinj : Function.Injective night) (h1 : ∀ i, night i ≠ -1) (t0 : ℝ) (ts : List ℝ) (t : ℝ) :
    let o := (ts ++ [t]).foldl (Obsy.set indx night mk) (Obsy.start t0)
    o.mjd = t ∧ o.night = night (indx t) ∧ o.maps = some (mk (indx t)) := by
  have inv : ∀ (ts : List ℝ) (o : Obsy M), (o.night = -1 ∨ ∃ i, o.night = night i ∧ o.maps = some (mk i)) →
      ((ts.foldl (Obsy.set indx night mk) o).night = -1 ∨ ∃ i, (ts.foldl (Obsy.set indx night mk) o).night = night i ∧ (ts.foldl (Obsy.set indx night mk) o).maps = some (mk i)) := by
    intro ts
    induction ts with
    | nil => exact fun o h => h
    | cons t ts ih =>
      intro o h
      rw [List.foldl_cons]
      apply ih
      unfold Obsy.set
      by_cases hn : night (indx t) ≠ o.night
      · rw [if_pos hn]
        exact Or.inr ⟨indx t, rfl, rfl⟩
      · rw [if_neg hn]
        exact h
  intro o
  have ho : o = Obsy.set indx night mk (ts.foldl (Obsy.set indx night mk) (Obsy.start t0)) t := by
    show (ts ++ [t]).foldl _ _ = _
    rw [List.foldl_append]
    rfl
  have hi := inv ts (Obsy.start t0) (Or.inl rfl)
  rw [ho]
  clear ho
  generalize ts.foldl (Obsy.set indx night mk) (Obsy.start t0) = o' at hi ⊢
  unfold Obsy.set
  by_cases hn : night (indx t) ≠ o'.night
  · rw [if_pos hn]
    exact ⟨rfl, rfl, rfl⟩
  · rw [if_neg hn]
    push Not at hn
    refine ⟨rfl, hn.symm, ?_⟩
    rcases hi with hi | ⟨i, h2, h3⟩
    · exact absurd (hn.trans hi) (h1 _)
    · rw [h2] at hn
      rw [hinj hn]
      exact h3

/-- In a first night with the number -1 there are no maps. -/
theorem maps_false : ¬ MapsOfNight := by
  intro h
  have := h Unit (fun _ => 0) (fun i => (i : ℤ) - 1) (fun _ => ()) (by intro a b hab; simp only at hab; omega) 0 [] 0
  simp [Obsy.set, Obsy.start] at this

/-- What the class says of the resolution. -/
def NsideUsed : Prop := ∀ n : ℕ, parentNside (some n) = some n

theorem nside_false : ¬ NsideUsed := by
  intro h
  cases h 32

/-! ## C256 -/

theorem tally_length (n : ℕ) (hits : List (ℕ × ℝ)) : (tally n hits).length = n := by
  classical
  unfold tally
  suffices h : ∀ acc : List (ℝ × ℕ), acc.length = n → (hits.foldl (fun acc h => if h.2 > 0 then acc.mapIdx (fun i a => if i = h.1 then (a.1 + h.2, a.2 + 1) else a) else acc) acc).length = n from h _ (by simp)
  induction hits with
  | nil => exact fun acc h => h
  | cons h hits ih =>
    intro acc ha
    rw [List.foldl_cons]
    apply ih
    split
    · simpa using ha
    · exact ha

open Classical in
theorem tally_spec (n : ℕ) (hits : List (ℕ × ℝ)) (i : ℕ) (hi : i < n) :
    (tally n hits)[i]? = some (Astro.total Prod.snd (hits.filter (fun h => decide (h.1 = i ∧ 0 < h.2))), (hits.filter (fun h => decide (h.1 = i ∧ 0 < h.2))).length) := by
  unfold tally
  have key : ∀ (hits : List (ℕ × ℝ)) (acc : List (ℝ × ℕ)) (a : ℝ) (k : ℕ), acc[i]? = some (a, k) →
      (hits.foldl (fun acc h => if h.2 > 0 then acc.mapIdx (fun i a => if i = h.1 then (a.1 + h.2, a.2 + 1) else a) else acc) acc)[i]? =
        some (a + Astro.total Prod.snd (hits.filter (fun h => decide (h.1 = i ∧ 0 < h.2))), k + (hits.filter (fun h => decide (h.1 = i ∧ 0 < h.2))).length) := by
    intro hits
    induction hits with
    | nil =>
      intro acc a k h
      simpa [Astro.total_nil] using h
    | cons h hits ih =>
      intro acc a k hacc
      rw [List.foldl_cons]
      by_cases hpos : h.2 > 0
      · rw [if_pos hpos]
        by_cases hidx : i = h.1
        · rw [List.filter_cons_of_pos (by simp [hidx, hpos]), Astro.total_cons, List.length_cons]
          rw [ih _ (a + h.2) (k + 1) (by rw [List.getElem?_mapIdx, hacc]; simp [hidx])]
          congr 2
          · ring
          · omega
        · rw [List.filter_cons_of_neg (by simp; intro h'; exact absurd h'.symm hidx)]
          exact ih _ a k (by rw [List.getElem?_mapIdx, hacc]; simp [hidx])
      · rw [if_neg hpos, List.filter_cons_of_neg (by simp; intro _; exact not_lt.mp hpos)]
        exact ih _ a k hacc
  have := key hits (List.replicate n (0, 0)) 0 0 (by simp [hi])
  rw [this]
  simp

open Classical in
/-- **C256.** For each pointing: the number and the length of the streaks of the satellites that are above the
limit and in the light at one of the ends, and near. -/
theorem checkPointings_spec (limit test : ℝ) (length : ℕ → Track → ℝ) (n : ℕ) (sats : List (ℕ → Track)) (i : ℕ) (hi : i < n) :
    let hit := sats.filter (fun s => decide ((limit < (s i).alt1 ∨ limit < (s i).alt2) ∧ ((s i).ill1 = true ∨ (s i).ill2 = true) ∧ (s i).dist < test ∧ 0 < length i (s i)))
    (checkPointings limit test length n sats)[i]? = some (Astro.total (fun s => length i (s i)) hit, hit.length) := by
  intro hit
  unfold checkPointings
  rw [tally_spec n _ i hi]
  have e : (sats.flatMap (fun s => ((List.range n).filter (fun j => close limit test (s j))).map (fun j => (j, length j (s j))))).filter (fun h => decide (h.1 = i ∧ 0 < h.2)) =
      hit.map (fun s => (i, length i (s i))) := by
    show _ = (sats.filter _).map _
    clear hit
    induction sats with
    | nil => rfl
    | cons s sats ih =>
      rw [List.flatMap_cons, List.filter_append, ih, List.filter_map, List.filter_filter]
      have e1 : (List.range n).filter (fun j => ((fun h : ℕ × ℝ => decide (h.1 = i ∧ 0 < h.2)) ∘ (fun j => (j, length j (s j)))) j && close limit test (s j)) =
          if close limit test (s i) = true ∧ 0 < length i (s i) then [i] else [] := by
        have e2 : (List.range n).filter (fun j => ((fun h : ℕ × ℝ => decide (h.1 = i ∧ 0 < h.2)) ∘ (fun j => (j, length j (s j)))) j && close limit test (s j)) =
            ((List.range n).filter (fun j => j == i)).filter (fun j => decide (0 < length j (s j)) && close limit test (s j)) := by
          rw [List.filter_filter]
          apply List.filter_congr
          intro j _
          by_cases hji : j = i <;> simp [hji, Function.comp]
        rw [e2, List.filter_beq, List.count_eq_one_of_mem List.nodup_range (List.mem_range.mpr hi)]
        by_cases hc : close limit test (s i) = true ∧ 0 < length i (s i)
        · rw [if_pos hc]
          simp [hc.1, hc.2]
        · rw [if_neg hc]
          simp only [List.replicate_one]
          rw [List.filter_cons_of_neg]
          · rfl
          · simp only [Bool.and_eq_true, decide_eq_true_eq]
            tauto
      rw [e1]
      have hcl : close limit test (s i) = true ↔ ((limit < (s i).alt1 ∨ limit < (s i).alt2) ∧ ((s i).ill1 = true ∨ (s i).ill2 = true)) ∧ (s i).dist < test := by
        simp [close]
      by_cases hc : close limit test (s i) = true ∧ 0 < length i (s i)
      · rw [if_pos hc, List.filter_cons_of_pos (by
          have := hcl.mp hc.1
          simp only [decide_eq_true_eq]
          tauto)]
        rfl
      · rw [if_neg hc, List.filter_cons_of_neg (by
          simp only [decide_eq_true_eq]
          intro h'
          exact hc ⟨hcl.mpr ⟨⟨h'.1, h'.2.1⟩, h'.2.2.1⟩, h'.2.2.2⟩)]
        rfl
  rw [e, Astro.total_map, List.length_map]

/-- A pointing has no streaks exactly if their length is zero. -/
theorem streaks_zero_iff (limit test : ℝ) (length : ℕ → Track → ℝ) (n : ℕ) (sats : List (ℕ → Track)) (i : ℕ) (hi : i < n) (a : ℝ) (k : ℕ)
    (h : (checkPointings limit test length n sats)[i]? = some (a, k)) : k = 0 ↔ a = 0 := by
  classical
  rw [checkPointings_spec limit test length n sats i hi] at h
  simp only [Option.some.injEq, Prod.mk.injEq] at h
  obtain ⟨h1, h2⟩ := h
  constructor
  · intro hk
    rw [hk, List.length_eq_zero_iff] at h2
    rw [← h1, h2]
    rfl
  · intro ha
    by_contra hk
    rw [ha] at h1
    have hpos := Astro.total_pos (f := fun s : ℕ → Track => length i (s i)) (l := sats.filter (fun s => decide ((limit < (s i).alt1 ∨ limit < (s i).alt2) ∧
      ((s i).ill1 = true ∨ (s i).ill2 = true) ∧ (s i).dist < test ∧ 0 < length i (s i)))) (fun s hs => by
        have := (List.mem_filter.mp hs).2
        simp only [decide_eq_true_eq] at this
        exact this.2.2.2) (by
        intro hnil
        rw [hnil] at h2
        exact hk h2.symm)
    linarith

/-- What a user of short visits expects: the streak has the length of its path. -/
def ShortVisits : Prop := ∀ vt dt length : ℝ, 0 < vt → 0 < dt → streak (samples vt dt) length = .val length

/-- Visits of less than half the step never have streaks. -/
theorem short_zero (vt dt length : ℝ) (hv : 0 < vt) (hd : 0 < dt) (h : vt / dt < 1 / 2) : streak (samples vt dt) length = .val 0 := by
  have hf : ⌊vt / dt⌋ = 0 := by
    rw [Int.floor_eq_iff]
    have : 0 < vt / dt := by positivity
    constructor <;> push_cast <;> linarith
  have : samples vt dt = 0 := by
    unfold samples
    simp only [hf]
    rw [if_pos (by push_cast; linarith)]
  rw [this]
  rfl

theorem short_false : ¬ ShortVisits := by
  intro h
  have h1 := h 1 4 1 one_pos (by norm_num)
  rw [short_zero 1 4 1 one_pos (by norm_num) (by norm_num)] at h1
  norm_num at h1

/-- The basis function is never positive, from the maps of times from now until the forecast. -/
theorem avoid_spec (smooth : List (List ℝ) → List ℝ) (forecast mjd : ℝ) (maps : List (ℝ × List ℝ)) (hs : (maps.map Prod.fst).Pairwise (· ≤ ·)) (hf : 0 ≤ forecast) :
    let used := maps.filter (fun m => decide (mjd ≤ m.1) && decide (m.1 < mjd + forecast))
    avoid smooth forecast mjd (maps.map Prod.fst) (maps.map Prod.snd) = if used = [] then none else some ((smooth (used.map Prod.snd)).map (fun x => -max x 0)) := by
  classical
  intro used
  set lo := searchsortedLeft (maps.map Prod.fst) mjd with hlo
  set hi := searchsortedLeft (maps.map Prod.fst) (mjd + forecast) with hhi
  have hq : maps.take hi = maps.filter (fun m => decide (m.1 < mjd + forecast)) := take_searchsorted Prod.fst maps _ hs
  have hlo' : lo = searchsortedLeft ((maps.take hi).map Prod.fst) mjd := by
    have hs' : ((maps.take hi).map Prod.fst).Pairwise (· ≤ ·) := by
      rw [List.map_take]
      exact hs.sublist (List.take_sublist _ _)
    rw [hlo, searchsortedLeft_eq_countP hs, searchsortedLeft_eq_countP hs', hq, List.countP_map, List.countP_map, List.countP_filter]
    apply List.countP_congr
    intro m _
    simp only [Function.comp, decide_eq_true_eq, Bool.and_eq_true]
    constructor
    · exact fun h => ⟨h, by linarith⟩
    · exact fun h => h.1
  have hslice : pySlice maps lo hi = used := by
    unfold pySlice
    rw [hlo', drop_searchsorted Prod.fst _ _ (by rw [List.map_take]; exact hs.sublist (List.take_sublist _ _)), hq, List.filter_filter]
  have hlen : hi ≤ maps.length := by
    rw [hhi, searchsortedLeft_eq_countP hs]
    exact List.countP_le_length.trans (by simp)
  have hl : used.length = hi - lo := by
    rw [← hslice]
    simp [pySlice, hlen]
  have hmap : pySlice (maps.map Prod.snd) lo hi = used.map Prod.snd := by
    rw [← hslice]
    simp [pySlice, List.map_take, List.map_drop]
  unfold avoid
  simp only
  rw [← hlo, ← hhi, hmap]
  by_cases h : lo < hi
  · rw [if_pos h, if_neg (by intro h0; rw [h0] at hl; simp at hl; omega)]
    congr 1
    apply List.map_congr_left
    intro x _
    by_cases hx : x < 0
    · rw [if_pos hx, max_eq_right hx.le]
      ring
    · rw [if_neg hx, max_eq_left (not_lt.mp hx)]
      ring
  · rw [if_neg h, if_pos (by rw [← List.length_eq_zero_iff]; omega)]

/-! ## Examples -/

example : (line1 8000 2327400000000).length = 69 := (line1_spec 8000 2327400000000 (by norm_num) (by norm_num)).1

example : checksum "12-X".toList = "12-4".toList := by decide

/-- Two shells of two planes each, the second with one satellite a plane: six satellites. -/
example (a b : ℕ → ℝ) : (create (meanMotion 398600 6378) [(⟨550, 53, 2, 2⟩, a, b, 1), (⟨570, 70, 2, 1⟩, a, b, 2)]).map Satellite.nr = [8000, 8001, 8002, 8003, 8004, 8005] := by
  obtain ⟨_, h2, h3⟩ := create_spec (meanMotion 398600 6378) [(⟨550, 53, 2, 2⟩, a, b, 1), (⟨570, 70, 2, 1⟩, a, b, 2)]
  rw [h2, h3]
  rfl

/-- A satellite in the light above the limit, one below and one in the shadow. -/
example : ∀ i, i ∈ visible 20 [⟨30, true, 1⟩, ⟨10, true, 1⟩, ⟨40, false, 1⟩] ↔ i = 0 := by
  intro i
  rw [visible_spec]
  match i with
  | 0 => norm_num
  | 1 => norm_num
  | 2 => norm_num
  | i + 3 => simp

/-- Two nights: the maps are those of the second. -/
example : (([1, 2] : List ℝ).foldl (Obsy.set (fun t => if t < 2 then 0 else 1) (fun i => (i : ℤ)) (fun i => 10 * i)) (Obsy.start 0)).maps = some 10 := by
  simp [Obsy.set, Obsy.start]

/-- Two satellites near the one pointing, one of them dark. -/
example : (checkPointings 20 2 (fun _ t => t.dist) 1 [fun _ => ⟨30, 10, true, false, 1⟩, fun _ => ⟨30, 30, false, false, 1⟩])[0]? = some (1, 1) := by
  classical
  rw [checkPointings_spec _ _ _ _ _ 0 one_pos]
  norm_num [List.filter_cons, Astro.total]

/-- One map now, one after the forecast. -/
example : avoid (fun m => m.headD []) 1 5 [5, 7] [[3, -1], [9, 9]] = some [-3, 0] := by
  have := avoid_spec (fun m => m.headD []) 1 5 [(5, [3, -1]), (7, [9, 9])] (by norm_num) (by norm_num)
  simp only [List.map_cons, List.map_nil] at this
  rw [this]
  norm_num [List.filter_cons]

end Verif.Sat
