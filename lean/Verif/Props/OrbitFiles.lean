import Verif.Props.Orbits
import Mathlib.Data.List.Dedup
import Mathlib.Tactic.Ring

/-!
# Properties of `Orbits`: spectra, files and updates
-/

set_option linter.unusedSectionVars false

namespace Verif.Orbits

open Frame

/-! ## C179: spectra -/

section Sed

variable {K : Type} [Field K] [LinearOrder K] [IsStrictOrderedRing K]

/-- With a chance that is uniform on `[0, 1)`: never `C` below 2, always `C` from 4 on, and between
them with probability `a / 2 - 1`, which is between 0 and 1. -/
theorem sed_chance (c a : K) (h0 : 0 ≤ c) (h1 : c < 1) :
    (a < 2 → sedOf c a = "S.dat") ∧ (4 ≤ a → sedOf c a = "C.dat") ∧
    (2 ≤ a → a ≤ 4 → (0 ≤ a / 2 - 1 ∧ a / 2 - 1 ≤ 1) ∧ (sedOf c a = "C.dat" ↔ c ≤ a / 2 - 1)) := by
  have hh : (1 : K) / 2 * a = a / 2 := by ring
  unfold sedOf
  rw [hh]
  refine ⟨fun h => if_neg (by linarith), fun h => if_pos (by linarith), fun h h' => ⟨⟨by linarith, by linarith⟩, ?_⟩⟩
  split_ifs with hc <;> simp [hc]

/-- Only the two names are given. -/
theorem sed_names (c a : K) : sedOf c a = "C.dat" ∨ sedOf c a = "S.dat" := by
  unfold sedOf; split_ifs <;> simp

/-- With the same chance, `C` is kept when the semi-major axis grows. -/
theorem sed_mono (c a b : K) (hab : a ≤ b) (h : sedOf c a = "C.dat") : sedOf c b = "C.dat" := by
  unfold sedOf at h ⊢
  have : c ≤ 1 / 2 * a - 1 := by
    by_contra hc
    rw [if_neg hc] at h
    simp at h
  exact if_pos (by linarith)

/-- Each object is treated by its own semi-major axis and its own chance. -/
theorem assign_a (S : ℕ → ℕ → K) (N : K → K → K → K) (o : Obj K) (f : Frame K) (seed : Option ℕ)
    (a : List K) (ha : f.col "a" = some a) (hl : a.length = f.n) :
    ∃ l g, assignSed S N o f seed = .ok (l, g) ∧ l.length = f.n ∧ g.2 = (generator o seed).2 + f.n ∧
      ∀ i (hi : i < a.length),
        l[i]? = some (sedOf (S (generator o seed).1 ((generator o seed).2 + i)) a[i]) := by
  have hh : f.has "a" = true := (col_has f "a" (by decide)).1 ⟨a, ha⟩
  have he : assignSed S N o f seed = .ok
      (List.zipWith sedOf ((List.range f.n).map fun k => S (generator o seed).1 ((generator o seed).2 + k)) a,
        ((generator o seed).1, (generator o seed).2 + f.n)) := by
    unfold assignSed
    simp only [hh, if_true, ha, Option.getD_some]
  refine ⟨_, _, he, ?_, rfl, ?_⟩
  · simp [hl]
  · intro i hi
    rw [List.getElem?_zipWith]
    have : i < f.n := hl ▸ hi
    simp [hi, this]

/-- For comets the axis is that of `q` and `e`. -/
theorem assign_q (S : ℕ → ℕ → K) (N : K → K → K → K) (o : Obj K) (f : Frame K) (seed : Option ℕ)
    (q e : List K) (ha : f.has "a" = false) (hq : f.col "q" = some q) (he : f.col "e" = some e)
    (hl : q.length = f.n) (hl' : e.length = f.n) :
    ∃ l g, assignSed S N o f seed = .ok (l, g) ∧ l.length = f.n ∧
      ∀ i (hi : i < q.length) (hi' : i < e.length),
        l[i]? = some (sedOfQ (S (generator o seed).1 ((generator o seed).2 + i)) q[i] e[i]) := by
  have hh : f.has "q" = true := (col_has f "q" (by decide)).1 ⟨q, hq⟩
  have heq : assignSed S N o f seed = .ok
      (List.zipWith (fun c p => sedOfQ c p.1 p.2)
        ((List.range f.n).map fun k => S (generator o seed).1 ((generator o seed).2 + k)) (q.zip e),
        ((generator o seed).1, (generator o seed).2 + f.n)) := by
    unfold assignSed
    simp only [ha, hh, if_true, hq, he, Option.getD_some, Bool.false_eq_true, if_false]
  refine ⟨_, _, heq, ?_, ?_⟩
  · simp [hl, hl']
  · intro i hi hi'
    rw [List.getElem?_zipWith]
    have : i < f.n := hl ▸ hi
    simp [hi, hi', this]

/-- On ellipses the axis is `q / (1 - e)`; parabolas are `C` and hyperbolas are `S`. -/
theorem sedQ_spec (c q e : K) (h0 : 0 ≤ c) (h1 : c < 1) (hq : 0 < q) :
    (e < 1 → ∀ a, a * (1 - e) = q → sedOfQ c q e = sedOf c a) ∧
    (e = 1 → sedOfQ c q e = "C.dat") ∧ (1 < e → sedOfQ c q e = "S.dat") := by
  unfold sedOfQ
  refine ⟨fun h a ha => ?_, fun h => by simp [h, hq], fun h => ?_⟩
  · rw [if_neg (ne_of_lt h), ← ha, mul_div_assoc, div_self (by linarith), mul_one]
  · rw [if_neg (ne_of_gt h)]
    have : q / (1 - e) < 0 := div_neg_of_pos_of_neg hq (by linarith)
    unfold sedOf
    exact if_neg (by linarith)

/-- A new object uses the seed that is given. -/
theorem seed_new (s : ℕ) (f : Option (Frame K)) (m : Option String) :
    generator { orbits := f, fmt := m, rng := none } (some s) = (s, 0) ∧
    generator { orbits := f, fmt := m, rng := none } none = (42, 0) := ⟨rfl, rfl⟩

/-- Once numbers were drawn a seed has no effect. -/
theorem seed_ignored (o : Obj K) (h : o.rng.isSome = true) (s : Option ℕ) (S : ℕ → ℕ → K)
    (N : K → K → K → K) (f : Frame K) : assignSed S N o f s = assignSed S N o f none := by
  obtain ⟨g, hg⟩ := Option.isSome_iff_exists.1 h
  unfold assignSed generator
  rw [hg]
  rfl

/-- So the result is not fixed by the seed. -/
theorem seed_false : ¬ ∀ (S : ℕ → ℕ → ℚ) (N : ℚ → ℚ → ℚ → ℚ) (o p : Obj ℚ) (f : Frame ℚ) (s : ℕ),
    assignSed S N o f (some s) = assignSed S N p f (some s) := by
  intro h
  have := h (fun s _ => if s = 7 then 0 else 1) N0 {} { rng := some (42, 1) }
    { n := 1, num := [("a", [5 / 2])] } 7
  revert this
  decide +kernel

example : sedOf (1 / 4 : ℚ) (5 / 2) = "C.dat" ∧ sedOf (1 / 2 : ℚ) (5 / 2) = "S.dat" := by decide +kernel

end Sed

/-! ## C180: headers -/

/-- A line with a number in its fourth place. -/
def OrbitLine (isNum : String → Bool) (l : List String) : Prop := ∃ v, l[3]? = some v ∧ isNum v = true

theorem scan_cons (isNum : String → Bool) (l : List String) (ls : List (List String))
    (s : ℤ × Option (List String)) :
    (OrbitLine isNum l → scan isNum (l :: ls) s = s) ∧
    (¬ OrbitLine isNum l → scan isNum (l :: ls) s = scan isNum ls (s.1 + 1, some l)) := by
  unfold OrbitLine
  constructor
  · rintro ⟨v, hv, hn⟩
    simp [scan, hv, hn]
  · intro h
    rcases hv : l[3]? with _ | v
    · simp [scan, hv]
    · have hn : isNum v = false := by
        cases hn : isNum v
        · rfl
        · exact absurd ⟨v, hv, hn⟩ h
      simp [scan, hv, hn]

theorem scan_pre (isNum : String → Bool) (pre : List (List String)) (h : ∀ l ∈ pre, ¬ OrbitLine isNum l)
    (ls : List (List String)) (s : ℤ × Option (List String)) :
    scan isNum (pre ++ ls) s = scan isNum ls (s.1 + pre.length, (pre.getLast?).or s.2) := by
  induction pre generalizing s with
  | nil => simp
  | cons l pre ih =>
    rw [List.cons_append, (scan_cons isNum l _ s).2 (h l (by simp)), ih (fun x hx => h x (by simp [hx]))]
    congr 1
    refine Prod.ext ?_ ?_
    · simp; omega
    · rcases hp : pre.getLast? with _ | y
      · have : pre = [] := List.getLast?_eq_none_iff.1 hp
        subst this
        simp
      · simp [List.getLast?_cons, hp]

/-- Without a header the first line is an orbit, and all lines are read. -/
theorem header_none (isNum : String → Bool) (l : List String) (ls : List (List String))
    (h : OrbitLine isNum l) : header isNum (l :: ls) = .des ∧ body isNum (l :: ls) = some (l :: ls) := by
  have h1 : header isNum (l :: ls) = .des := by
    unfold header
    rw [(scan_cons isNum l ls _).1 h]
  refine ⟨h1, ?_⟩
  unfold body
  rw [h1]

/-- The lines before the first orbit are skipped and the last of them has the names, after a comment
key if there is one. -/
theorem header_spec (isNum : String → Bool) (pre : List (List String)) (l : List String)
    (ls : List (List String)) (start : String) (rest : List String)
    (hpre : ∀ x ∈ pre, ¬ OrbitLine isNum x) (hl : OrbitLine isNum l)
    (hlast : pre.getLast? = some (start :: rest)) :
    header isNum (pre ++ l :: ls) = .named pre.length
      (if start = "#" ∨ start = "!!" ∨ start = "##" then rest else start :: rest) ∧
    body isNum (pre ++ l :: ls) = some (l :: ls) := by
  have h1 : header isNum (pre ++ l :: ls) = .named pre.length
      (if start = "#" ∨ start = "!!" ∨ start = "##" then rest else start :: rest) := by
    unfold header
    rw [scan_pre isNum pre hpre, (scan_cons isNum l ls _).1 hl, hlast]
    simp
  refine ⟨h1, ?_⟩
  unfold body
  rw [h1]
  simp

/-- An empty line just before the first orbit is an error. -/
theorem header_empty (isNum : String → Bool) (pre : List (List String)) (l : List String)
    (ls : List (List String)) (hpre : ∀ x ∈ pre, ¬ OrbitLine isNum x) (hl : OrbitLine isNum l)
    (hlast : pre.getLast? = some []) : header isNum (pre ++ l :: ls) = .error := by
  unfold header
  rw [scan_pre isNum pre hpre, (scan_cons isNum l ls _).1 hl, hlast]
  rfl

/-- Lines are split at blanks, whatever the delimiter: if no line has four values in this sense, no
orbits are read. -/
theorem delim_nothing (isNum : String → Bool) (lines : List (List String))
    (h : ∀ l ∈ lines, l.length < 4) (hne : lines ≠ []) :
    body isNum lines = some [] ∨ body isNum lines = none := by
  have hno : ∀ l ∈ lines, ¬ OrbitLine isNum l := by
    rintro l hl ⟨v, hv, _⟩
    rw [List.getElem?_eq_none (by have := h l hl; omega)] at hv
    simp at hv
  have := scan_pre isNum lines hno [] (-1, none)
  rw [List.append_nil] at this
  obtain ⟨x, hx⟩ : ∃ x, lines.getLast? = some x := by
    rcases hx : lines.getLast? with _ | x
    · exact absurd (List.getLast?_eq_none_iff.1 hx) hne
    · exact ⟨x, rfl⟩
  unfold body header
  rw [this, hx]
  rcases x with _ | ⟨s, r⟩
  · right; simp [scan]
  · left
    simp [scan]

/-- A file with commas: no orbit is read, though each line has one. -/
theorem delim_false : ¬ ∀ (isNum : String → Bool) (header : List String) (rows : List (List String)),
    (∀ r ∈ rows, ∃ v, r[3]? = some v ∧ isNum v = true) → rows ≠ [] →
    body isNum ((header :: rows).map fun r => [",".intercalate r]) =
      some (rows.map fun r => [",".intercalate r]) := by
  intro h
  have := h (fun s => s = "0.1") ["id", "FORMAT", "a", "e"] [["1", "KEP", "2.5", "0.1"]] (by decide) (by decide)
  revert this
  decide

example : body (fun s => s = "0.1") [["#", "text"], ["#", "id", "FORMAT", "a", "e"], ["1", "KEP", "2.5", "0.1"]]
    = some [["1", "KEP", "2.5", "0.1"]] := by decide

/-! ## C181: names of columns -/

/-- The standard name of a column: that of the first group with it. -/
def canon (gs : List (String × List String)) (x : String) : String :=
  match gs with
  | [] => x
  | g :: gs => if x ∈ g.2 then g.1 else canon gs x

/-- The groups have nothing in common and each has its own name. -/
def Groups (gs : List (String × List String)) : Prop :=
  (∀ g ∈ gs, g.1 ∈ g.2) ∧ gs.Pairwise fun g h => ∀ x ∈ g.2, x ∉ h.2

theorem groups_alt : Groups altNames := by
  unfold Groups
  decide +kernel

theorem canon_out (gs : List (String × List String)) (x : String) (h : ∀ g ∈ gs, x ∉ g.2) :
    canon gs x = x := by
  induction gs with
  | nil => rfl
  | cons g gs ih =>
    rw [canon, if_neg (h g (by simp))]
    exact ih fun g' hg => h g' (by simp [hg])

theorem replaceFirst_map (x y : String) (l : List String) (hl : l.Nodup) :
    replaceFirst x y l = l.map fun z => if z = x then y else z := by
  induction l with
  | nil => rfl
  | cons z l ih =>
    rw [List.nodup_cons] at hl
    rw [replaceFirst]
    by_cases hz : z = x
    · rw [if_pos hz, List.map_cons, if_pos hz]
      congr 1
      symm
      calc l.map (fun z => if z = x then y else z) = l.map id := by
            refine List.map_congr_left fun w hw => ?_
            rw [if_neg]
            · rfl
            · rintro rfl
              exact hl.1 (hz ▸ hw)
        _ = l := List.map_id l
    · rw [if_neg hz, List.map_cons, if_neg hz, ih hl.2]

/-- One turn. -/
theorem renameOne_spec (cols : List String) (hc : cols.Nodup) (g : String × List String) :
    ((∀ x ∈ cols, ∀ y ∈ cols, x ∈ g.2 → y ∈ g.2 → x = y) →
      renameOne cols g = some (cols.map fun z => if z ∈ g.2 then g.1 else z)) ∧
    ((∃ x ∈ cols, ∃ y ∈ cols, x ∈ g.2 ∧ y ∈ g.2 ∧ x ≠ y) → renameOne cols g = none) := by
  have hmem : ∀ x, x ∈ (g.2.filter fun x => cols.contains x).dedup ↔ x ∈ g.2 ∧ x ∈ cols := by
    intro x
    rw [List.mem_dedup, List.mem_filter]
    simp
  have hnd := List.nodup_dedup (g.2.filter fun x => cols.contains x)
  unfold renameOne
  generalize (g.2.filter fun x => cols.contains x).dedup = d at *
  rcases d with _ | ⟨x, _ | ⟨y, d⟩⟩
  · constructor
    · intro _
      simp only [Option.some.injEq]
      symm
      calc cols.map (fun z => if z ∈ g.2 then g.1 else z) = cols.map id := by
            refine List.map_congr_left fun w hw => ?_
            rw [if_neg]
            · rfl
            · intro h
              simpa using (hmem w).2 ⟨h, hw⟩
        _ = cols := List.map_id cols
    · rintro ⟨x, hx, _, _, hxg, _⟩
      simpa using (hmem x).2 ⟨hxg, hx⟩
  · have hx := (hmem x).1 (by simp)
    constructor
    · intro h
      simp only [Option.some.injEq]
      rw [replaceFirst_map _ _ _ hc]
      refine List.map_congr_left fun w hw => ?_
      by_cases hw' : w ∈ g.2
      · rw [if_pos hw', if_pos (h w hw x hx.2 hw' hx.1)]
      · rw [if_neg hw', if_neg]
        rintro rfl
        exact hw' hx.1
    · rintro ⟨a, ha, b, hb, hag, hbg, hab⟩
      have h1 : a = x := by simpa using (hmem a).2 ⟨hag, ha⟩
      have h2 : b = x := by simpa using (hmem b).2 ⟨hbg, hb⟩
      exact absurd (h1.trans h2.symm) hab
  · constructor
    · intro h
      have h1 := (hmem x).1 (by simp)
      have h2 := (hmem y).1 (by simp)
      have : x = y := h x h1.2 y h2.2 h1.1 h2.1
      simp [this] at hnd
    · intro _; rfl

theorem nodup_one (cols : List String) (hc : cols.Nodup) (g : String × List String) (hg : g.1 ∈ g.2)
    (h : ∀ x ∈ cols, ∀ y ∈ cols, x ∈ g.2 → y ∈ g.2 → x = y) :
    (cols.map fun z => if z ∈ g.2 then g.1 else z).Nodup := by
  refine (List.nodup_map_iff_inj_on hc).2 fun x hx y hy hxy => ?_
  by_cases h1 : x ∈ g.2 <;> by_cases h2 : y ∈ g.2
  · exact h x hx y hy h1 h2
  · rw [if_pos h1, if_neg h2] at hxy
    exact absurd (hxy ▸ hg) h2
  · rw [if_neg h1, if_pos h2] at hxy
    exact absurd (hxy ▸ hg) h1
  · rwa [if_neg h1, if_neg h2] at hxy

theorem renameAll_spec (gs : List (String × List String)) (hgs : Groups gs) (cols : List String)
    (hc : cols.Nodup) :
    ((∀ g ∈ gs, ∀ x ∈ cols, ∀ y ∈ cols, x ∈ g.2 → y ∈ g.2 → x = y) →
      renameAll gs cols = some (cols.map (canon gs))) ∧
    ((∃ g ∈ gs, ∃ x ∈ cols, ∃ y ∈ cols, x ∈ g.2 ∧ y ∈ g.2 ∧ x ≠ y) → renameAll gs cols = none) := by
  induction gs generalizing cols with
  | nil =>
    constructor
    · intro _
      show some cols = some (cols.map id)
      rw [List.map_id]
    · rintro ⟨g, hg, _⟩
      simp at hg
  | cons g gs ih =>
    obtain ⟨hown, hpw⟩ := hgs
    rw [List.pairwise_cons] at hpw
    have hgs' : Groups gs := ⟨fun g' h' => hown g' (by simp [h']), hpw.2⟩
    have hdis : ∀ g' ∈ gs, ∀ z, z ∈ g'.2 → (if z ∈ g.2 then g.1 else z) = z := by
      intro g' hg' z hz
      exact if_neg fun h => hpw.1 g' hg' z h hz
    have hback : ∀ g' ∈ gs, ∀ z, (if z ∈ g.2 then g.1 else z) ∈ g'.2 → z ∈ g'.2 ∧
        (if z ∈ g.2 then g.1 else z) = z := by
      intro g' hg' z hz
      by_cases h : z ∈ g.2
      · rw [if_pos h] at hz
        exact absurd hz (hpw.1 g' hg' g.1 (hown g (by simp)))
      · rw [if_neg h] at hz ⊢
        exact ⟨hz, rfl⟩
    by_cases hone : ∀ x ∈ cols, ∀ y ∈ cols, x ∈ g.2 → y ∈ g.2 → x = y
    · have hr := (renameOne_spec cols hc g).1 hone
      have hih := ih hgs' (cols.map fun z => if z ∈ g.2 then g.1 else z)
        (nodup_one cols hc g (hown g (by simp)) hone)
      have hall : renameAll (g :: gs) cols =
          renameAll gs (cols.map fun z => if z ∈ g.2 then g.1 else z) := by
        rw [renameAll, hr]; rfl
      rw [hall]
      constructor
      · intro h
        rw [hih.1]
        · rw [List.map_map]
          congr 1
          refine List.map_congr_left fun z hz => ?_
          show canon gs (if z ∈ g.2 then g.1 else z) = canon (g :: gs) z
          rw [canon]
          by_cases hz' : z ∈ g.2
          · rw [if_pos hz', if_pos hz']
            exact canon_out gs g.1 fun g' hg' => hpw.1 g' hg' g.1 (hown g (by simp))
          · rw [if_neg hz', if_neg hz']
        · intro g' hg' x hx y hy hxg hyg
          obtain ⟨a, ha, rfl⟩ := List.mem_map.1 hx
          obtain ⟨b, hb, rfl⟩ := List.mem_map.1 hy
          have h1 := hback g' hg' a hxg
          have h2 := hback g' hg' b hyg
          rw [h1.2, h2.2]
          exact h g' (by simp [hg']) a ha b hb h1.1 h2.1
      · rintro ⟨g', hg', x, hx, y, hy, hxg, hyg, hne⟩
        rcases List.mem_cons.1 hg' with rfl | hg'
        · exact absurd (hone x hx y hy hxg hyg) hne
        · refine hih.2 ⟨g', hg', x, ?_, y, ?_, hxg, hyg, hne⟩
          · exact List.mem_map.2 ⟨x, hx, hdis g' hg' x hxg⟩
          · exact List.mem_map.2 ⟨y, hy, hdis g' hg' y hyg⟩
    · constructor
      · intro h
        exact absurd (h g (by simp)) hone
      · intro _
        push Not at hone
        obtain ⟨x, hx, y, hy, hxg, hyg, hne⟩ := hone
        rw [renameAll, (renameOne_spec cols hc g).2 ⟨x, hx, y, hy, hxg, hyg, hne⟩]
        rfl

/-- Every column gets its standard name, wherever it stands; two columns for one quantity are an
error. -/
theorem rename_spec (cols : List String) (hc : cols.Nodup) :
    (rename cols = some (cols.map (canon altNames)) ∨ rename cols = none) ∧
    (rename cols = none ↔ ∃ g ∈ altNames, ∃ x ∈ cols, ∃ y ∈ cols, x ∈ g.2 ∧ y ∈ g.2 ∧ x ≠ y) := by
  have h := renameAll_spec altNames groups_alt cols hc
  unfold rename
  by_cases he : ∃ g ∈ altNames, ∃ x ∈ cols, ∃ y ∈ cols, x ∈ g.2 ∧ y ∈ g.2 ∧ x ≠ y
  · exact ⟨Or.inr (h.2 he), fun _ => he, fun _ => h.2 he⟩
  · have h1 := h.1 (by
      intro g hg x hx y hy hxg hyg
      by_contra hne
      exact he ⟨g, hg, x, hx, y, hy, hxg, hyg, hne⟩)
    refine ⟨Or.inl h1, fun hn => ?_, fun hx => absurd hx he⟩
    rw [h1] at hn
    simp at hn

/-- The headers that are in use, with the quantities they are for. -/
def inUse : List (String × String) :=
  [("objid", "obj_id"), ("!!ObjID", "obj_id"), ("!!OID", "obj_id"), ("!!S3MID", "obj_id"),
    ("OID", "obj_id"), ("full_name", "obj_id"), ("#name", "obj_id"), ("q", "q"), ("a", "a"),
    ("e", "e"), ("ecc", "e"), ("i", "inc"), ("incl", "inc"), ("i(deg)", "inc"), ("node", "Omega"),
    ("om", "Omega"), ("node(deg)", "Omega"), ("BigOmega", "Omega"), ("Omega/node", "Omega"),
    ("longNode", "Omega"), ("omega", "Omega"), ("argperi", "argPeri"), ("omega/argperi", "argPeri"),
    ("w", "argPeri"), ("argperi(deg)", "argPeri"), ("peri", "argPeri"), ("t_p", "tPeri"),
    ("timeperi", "tPeri"), ("t_peri", "tPeri"), ("T_peri", "tPeri"), ("t_0", "epoch"),
    ("Epoch", "epoch"), ("epoch_mjd", "epoch"), ("magH", "H"), ("magHv", "H"), ("Hv", "H"),
    ("H_v", "H"), ("phaseV", "g"), ("phase", "g"), ("gV", "g"), ("phase_g", "g"), ("G", "g"),
    ("meanAnom", "meanAnomaly"), ("M", "meanAnomaly"), ("ma", "meanAnomaly"),
    ("sed", "sed_filename"), ("xDot", "xdot"), ("yDot", "ydot"), ("zDot", "zdot")]

/-- They are all recognised, and standard names stay. -/
theorem rename_inUse : (∀ p ∈ inUse, canon altNames p.1 = p.2) ∧
    (∀ s, Known s → ∀ c ∈ Elements s ++ ["obj_id", "H", "g", "sed_filename", "FORMAT"],
      canon altNames c = c) := by
  refine ⟨by decide +kernel, ?_⟩
  rintro s (rfl | rfl | rfl) <;> decide +kernel

/-- The two headers with the missing comma are not recognised. -/
theorem rename_S3MID : canon altNames "S3MID" = "S3MID" ∧ canon altNames "objid(int)" = "objid(int)" := by
  decide +kernel

/-- So a file with `S3MID` loses its ids. -/
theorem rename_false : ¬ ∀ p ∈ inUse ++ [("S3MID", "obj_id"), ("objid(int)", "obj_id")],
    canon altNames p.1 = p.2 := by
  decide +kernel

example : rename ["!!OID", "FORMAT", "q", "e", "i", "node", "argperi", "t_p", "H", "t_0"] =
    some ["obj_id", "FORMAT", "q", "e", "inc", "Omega", "argPeri", "tPeri", "H", "epoch"] := by
  decide +kernel

/-! ## C182: negative inclinations -/

section End

variable {K : Type} [Field K] [LinearOrder K]

/-- With ids the inclinations have no effect. -/
theorem readEnd_ids (S : ℕ → ℕ → K) (N : K → K → K → K) (o : Obj K) (f : Frame K)
    (h : f.ids.isSome = true) : readEnd S N o f = setOrbits S N o f := by
  unfold readEnd incCheck
  rcases f.col "inc" with _ | inc
  · rfl
  · simp only [h, if_true, ite_self]

/-- Without ids a negative inclination is an error, of another kind than meant. -/
theorem readEnd_no_ids_partial (S : ℕ → ℕ → K) (N : K → K → K → K) (o : Obj K) (f : Frame K)
    (h : f.ids = none) (inc : List K) (hc : f.col "inc" = some inc) :
    ((∃ x ∈ inc, x < 0) → readEnd S N o f = ⟨o, f, some .key⟩) ∧
    ((∀ x ∈ inc, 0 ≤ x) → readEnd S N o f = setOrbits S N o f) := by
  unfold readEnd incCheck
  rw [hc, h]
  constructor
  · rintro ⟨x, hx, hn⟩
    have : inc.any (fun x => decide (x < 0)) = true := List.any_eq_true.2 ⟨x, hx, by simpa using hn⟩
    simp [this]
  · intro hx
    have : inc.any (fun x => decide (x < 0)) = false := by
      rw [List.any_eq_false]
      intro x hm
      simpa using hx x hm
    simp [this]

end End

/-- Orbits with negative inclinations are read. -/
theorem readEnd_false : ¬ ∀ (S : ℕ → ℕ → ℚ) (N : ℚ → ℚ → ℚ → ℚ) (o : Obj ℚ) (f : Frame ℚ), WF f →
    (readEnd S N o f).err = none → ∀ inc, f.col "inc" = some inc → ∀ x ∈ inc, 0 ≤ x := by
  intro h
  have := h S0 N0 {}
    { n := 1, ids := some [3], num := [("a", [5 / 2]), ("e", [0]), ("inc", [-1]), ("Omega", [3]),
      ("argPeri", [5]), ("meanAnomaly", [7]), ("epoch", [59000])] }
    ⟨by decide, by decide +kernel, by decide, by decide +kernel, by decide +kernel, by decide +kernel⟩
    (by decide +kernel) [-1] (by decide +kernel) (-1) (by simp)
  exact absurd this (by norm_num)

/-! ## C183: updates -/

section Update

variable {K : Type} [Field K] [LinearOrder K]

/-- After an update: the ids and spectra are those from before, and all else is that of the new
frame, with the usual values for `H` and `g` if it has none. -/
theorem update_spec_partial (S : ℕ → ℕ → K) (N : K → K → K → K) (o : Obj K) (g new : Frame K) (s : String)
    (h : Loaded o g s) (hw : WF new) (hn : new.n = g.n) (he : (updateOrbits S N o new).err = none) :
    ∃ g', (updateOrbits S N o new).obj.orbits = some g' ∧ g'.ids = g.ids ∧ g'.sed = g.sed ∧
      ∀ c, c ≠ "index" → g'.col c =
        if c = "g" then some ((new.col "g").getD (List.replicate new.n (15 / 100)))
        else if c = "H" then some ((new.col "H").getD (List.replicate new.n 20)) else new.col c := by
  obtain ⟨ids, hids⟩ := Option.isSome_iff_exists.1 h.full.ids
  obtain ⟨sed, hsed⟩ := Option.isSome_iff_exists.1 h.full.sed
  have hil := h.full.wf.ids ids hids
  have hsl := h.full.wf.sed sed hsed
  unfold updateOrbits at he ⊢
  rw [h.orbits] at he ⊢
  simp only at he ⊢
  by_cases hc : (new.ids.isSome || new.sed.isSome) = true
  · rw [if_pos hc] at he
    simp at he
  · rw [if_neg hc] at he ⊢
    simp only [hids, hsed, Option.map_some] at he ⊢
    rw [List.take_of_length_le (by omega), List.take_of_length_le (by omega)] at he ⊢
    have hwj : WF (Frame.mk new.n new.fmt (some ids) (some sed) new.num) :=
      ⟨hw.fmt, by intro l hl; cases hl; exact hil.trans hn.symm,
        by intro l hl; cases hl; exact hsl.trans hn.symm, hw.num, hw.names, hw.plain⟩
    obtain ⟨t, g', _, _, hob, _, _, hid, hsd, hcol⟩ := set_stored S N o _ hwj he
    exact ⟨g', hob, hid, hsd sed rfl, hcol⟩

end Update

/-- `H` is not left in place. -/
theorem update_false : ¬ ∀ (S : ℕ → ℕ → ℚ) (N : ℚ → ℚ → ℚ → ℚ) (o : Obj ℚ) (g new g' : Frame ℚ) (s : String),
    Loaded o g s → WF new → new.n = g.n → (updateOrbits S N o new).err = none →
    (updateOrbits S N o new).obj.orbits = some g' → g'.col "H" = g.col "H" := by
  intro h
  let f0 : Frame ℚ := { kepler false with num := (kepler false).num ++ [("H", [15])] }
  have hf0 : WF f0 := ⟨by decide +kernel, by decide +kernel, by decide +kernel, by decide +kernel,
    by decide +kernel, by decide +kernel⟩
  obtain ⟨g, s, hl⟩ := set_loaded S0 N0 {} f0 hf0 (by decide +kernel)
  obtain ⟨g1, hg1, hH⟩ : ∃ g1, (setOrbits S0 N0 {} f0).obj.orbits = some g1 ∧ g1.n = 1 ∧
    g1.col "H" = some [15] := ⟨_, rfl, by decide +kernel, by decide +kernel⟩
  have hgg : g = g1 := Option.some.inj (hl.orbits.symm.trans hg1)
  subst hgg
  obtain ⟨g2, hg2, hH2⟩ : ∃ g2, (updateOrbits S0 N0 (setOrbits S0 N0 {} f0).obj (kepler false)).obj.orbits =
    some g2 ∧ g2.col "H" = some [20] := ⟨_, rfl, by decide +kernel⟩
  have := h S0 N0 _ g (kepler false) g2 s hl (kepler_wf _) (by rw [hH.1]; rfl) (by decide +kernel) hg2
  rw [hH2, hH.2] at this
  revert this
  decide +kernel

end Verif.Orbits
