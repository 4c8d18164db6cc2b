import Verif.Model.ColorSlope
import Mathlib.Tactic.Linarith
import Mathlib.Tactic.FieldSimp
import Mathlib.Tactic.NormNum
import Mathlib.Data.Rat.Floor

/-!
# Colours and slopes, vendors, uses, cadence: C286–C289
-/

namespace Verif.ColSlope

section
variable {K : Type} [Field K] [LinearOrder K]

/-! ## C286: colour and slope -/

/-- A slope: two visits in one filter at least `slope` apart. -/
def Slope (slope : K) (l : List (String × K)) : Prop := ∃ a ∈ l, ∃ b ∈ l, a.1 = b.1 ∧ slope ≤ b.2 - a.2

/-- A colour: two visits in different filters, at different times, at most `color` apart. -/
def Color (color : K) (l : List (String × K)) : Prop := ∃ a ∈ l, ∃ b ∈ l, a.1 ≠ b.1 ∧ 0 < b.2 - a.2 ∧ b.2 - a.2 ≤ color

theorem mem_timesIn (l : List (String × K)) (f : String) (t : K) : t ∈ timesIn l f ↔ (f, t) ∈ l := by
  unfold timesIn
  simp only [List.mem_map, List.mem_filter, beq_iff_eq]
  constructor
  · rintro ⟨⟨g, s⟩, ⟨h1, h2⟩, h3⟩
    simp only at h2 h3
    rw [← h2, ← h3]; exact h1
  · intro h; exact ⟨(f, t), ⟨h, rfl⟩, rfl⟩

variable [IsStrictOrderedRing K]

theorem check_spec (color slope : K) (l : List (String × K)) :
    (check color slope l = 1 ↔ 3 ≤ l.length ∧ Color color l ∧ Slope slope l) ∧ (check color slope l = 1 ∨ check color slope l = 0) := by
  unfold check
  by_cases h3 : l.length < 3
  · rw [if_pos h3]
    exact ⟨⟨by simp, fun h => absurd h.1 (by omega)⟩, Or.inr rfl⟩
  · rw [if_neg h3]
    dsimp only
    constructor
    · have hc : (((l.map Prod.fst).dedup.any (fun f => (l.map Prod.fst).dedup.any (fun g => f != g && near color (((timesIn l f).flatMap (fun t => (timesIn l g).map (fun s => t - s))).filter (fun d => decide (0 < d)))))) = true) ↔ Color color l := by
        simp only [List.any_eq_true, List.mem_dedup, List.mem_map, Bool.and_eq_true, bne_iff_ne, ne_eq]
        constructor
        · rintro ⟨f, _, g, _, hfg, hm⟩
          unfold near at hm
          cases hd : (((timesIn l f).flatMap (fun t => (timesIn l g).map (fun s => t - s))).filter (fun d => decide (0 < d))).min? with
          | none => rw [hd] at hm; simp at hm
          | some d =>
            rw [hd] at hm
            have hdm := (List.min?_eq_some_iff.mp hd).1
            simp only [List.mem_filter, List.mem_flatMap, List.mem_map, decide_eq_true_eq] at hdm
            obtain ⟨⟨t, ht, s, hs, rfl⟩, hpos⟩ := hdm
            rw [mem_timesIn] at ht hs
            exact ⟨(g, s), hs, (f, t), ht, fun h => hfg h.symm, hpos, by simpa using hm⟩
        · rintro ⟨⟨g, s⟩, hs, ⟨f, t⟩, ht, hfg, hpos, hle⟩
          refine ⟨f, ⟨_, ht, rfl⟩, g, ⟨_, hs, rfl⟩, fun h => hfg h.symm, ?_⟩
          unfold near
          have hmem : t - s ∈ ((timesIn l f).flatMap (fun t => (timesIn l g).map (fun s => t - s))).filter (fun d => decide (0 < d)) := by
            simp only [List.mem_filter, List.mem_flatMap, List.mem_map, decide_eq_true_eq]
            exact ⟨⟨t, (mem_timesIn _ _ _).mpr ht, s, (mem_timesIn _ _ _).mpr hs, rfl⟩, hpos⟩
          cases hd : (((timesIn l f).flatMap (fun t => (timesIn l g).map (fun s => t - s))).filter (fun d => decide (0 < d))).min? with
          | none => rw [List.min?_eq_none_iff] at hd; rw [hd] at hmem; simp at hmem
          | some d =>
            have := (List.min?_eq_some_iff.mp hd).2 _ hmem
            have hle' : t - s ≤ color := hle
            simp only [decide_eq_true_eq]
            exact this.trans hle'
      have hs : (((l.map Prod.fst).dedup.any (fun f => wide slope (timesIn l f))) = true) ↔ Slope slope l := by
        simp only [List.any_eq_true, List.mem_dedup, List.mem_map]
        constructor
        · rintro ⟨f, _, hm⟩
          unfold wide at hm
          cases h1 : (timesIn l f).max? with
          | none => rw [h1] at hm; simp at hm
          | some a =>
            cases h2 : (timesIn l f).min? with
            | none => rw [h1, h2] at hm; simp at hm
            | some b =>
              rw [h1, h2] at hm
              have ha := (List.max?_eq_some_iff.mp h1).1
              have hb := (List.min?_eq_some_iff.mp h2).1
              rw [mem_timesIn] at ha hb
              exact ⟨_, hb, _, ha, rfl, by simpa using hm⟩
        · rintro ⟨⟨f, s⟩, hs, ⟨g, t⟩, ht, hfg, hle⟩
          simp only at hfg hle
          subst hfg
          refine ⟨f, ⟨_, hs, rfl⟩, ?_⟩
          unfold wide
          have hs' := (mem_timesIn _ _ _).mpr hs
          have ht' := (mem_timesIn _ _ _).mpr ht
          cases h1 : (timesIn l f).max? with
          | none => rw [List.max?_eq_none_iff] at h1; rw [h1] at hs'; simp at hs'
          | some a =>
            cases h2 : (timesIn l f).min? with
            | none => rw [List.min?_eq_none_iff] at h2; rw [h2] at hs'; simp at hs'
            | some b =>
              have h3 := (List.max?_eq_some_iff.mp h1).2 _ ht'
              have h4 := (List.min?_eq_some_iff.mp h2).2 _ hs'
              simp only [decide_eq_true_eq]
              linarith
      split_ifs with h
      · rw [Bool.and_eq_true, hc, hs] at h
        exact ⟨fun _ => ⟨by omega, h⟩, fun _ => rfl⟩
      · rw [Bool.and_eq_true, hc, hs] at h
        exact ⟨by simp, fun hh => absurd hh.2 h⟩
    · split_ifs
      · exact Or.inl rfl
      · exact Or.inr rfl

/-- For a positive length the three visits are implied. -/
theorem three_implied (color slope : K) (hs : 0 < slope) (l : List (String × K)) (h : Color color l ∧ Slope slope l) : 3 ≤ l.length := by
  obtain ⟨⟨a, ha, b, hb, hab, _⟩, c, hc, d, hd, hcd, hle⟩ := h
  have hne : c ≠ d := by rintro rfl; rw [sub_self] at hle; linarith
  by_contra hlen
  match l, hlen with
  | [], _ => simp at ha
  | [x], _ => simp at hc hd; exact hne (hc.trans hd.symm)
  | [x, y], _ =>
    simp only [List.mem_cons, List.not_mem_nil, or_false] at ha hb hc hd
    have hxy : x.1 = y.1 := by
      rcases hc with rfl | rfl <;> rcases hd with rfl | rfl
      · exact absurd rfl hne
      · exact hcd
      · exact hcd.symm
      · exact absurd rfl hne
    apply hab
    rcases ha with rfl | rfl <;> rcases hb with rfl | rfl <;> simp [hxy]
  | x :: y :: z :: l, h => simp at h

theorem binned_count {A : Type} (ids : A → ℤ) (stat : List A → ℕ) (P : List A → Prop) (hst : ∀ g, (stat g = 1 ↔ P g) ∧ (stat g = 1 ∨ stat g = 0)) (l : List A) :
    ∃ N : List ℤ, N.Nodup ∧ (∀ i, i ∈ N ↔ i ∈ l.map ids ∧ P (l.filter (fun v => ids v == i))) ∧ binnedSum ids stat l = N.length := by
  classical
  refine ⟨(l.map ids).dedup.filter (fun i => decide (P (l.filter (fun v => ids v == i)))), (List.nodup_dedup _).filter _, ?_, ?_⟩
  · intro i; simp [List.mem_filter]
  · unfold binnedSum
    generalize (l.map ids).dedup = D
    induction D with
    | nil => rfl
    | cons i D ih =>
      rw [List.map_cons, List.sum_cons, ih]
      by_cases h : P (l.filter (fun v => ids v == i))
      · rw [List.filter_cons_of_pos (by simpa using h), ((hst _).1).mpr h, List.length_cons]; omega
      · have h0 : stat (l.filter (fun v => ids v == i)) = 0 := by
          rcases (hst (l.filter (fun v => ids v == i))).2 with h1 | h1
          · exact absurd (((hst _).1).mp h1) h
          · exact h1
        rw [List.filter_cons_of_neg (by simpa using h), h0, Nat.zero_add]

/-- Visits deep enough. -/
def Deep (mag : String → Option K) (v : Obs K) : Prop := ∃ m, mag v.filt = some m ∧ m < v.m5

open Classical in
/-- The visits (filter, time) deep enough that satisfy a condition on the night. -/
noncomputable def visits (mag : String → Option K) (l : List (Obs K)) (p : ℤ → Prop) : List (String × K) :=
  (l.filter (fun v => decide (Deep mag v ∧ p v.night))).filterMap Obs.dflt

theorem deep_ok (mag : String → Option K) (l : List (Obs K)) (h : ∀ v ∈ l, (mag v.filt).isSome) :
    ∃ d, deep mag l = .ok d ∧ d.Sublist l ∧ (∀ v, v ∈ d ↔ v ∈ l ∧ Deep mag v) ∧ ∀ (p : ℤ → Prop) (q : Obs K → Bool), (∀ v, q v = true ↔ p v.night) → view (d.filter q) = visits mag l p := by
  classical
  refine ⟨_, by unfold deep; rw [if_pos (List.all_eq_true.mpr h)], List.filter_sublist, ?_, ?_⟩
  · intro v
    rw [List.mem_filter]
    constructor
    · rintro ⟨h1, h2⟩
      refine ⟨h1, ?_⟩
      cases hm : mag v.filt with
      | none => rw [hm] at h2; simp at h2
      | some m => rw [hm] at h2; exact ⟨m, hm, by simpa using h2⟩
    · rintro ⟨h1, m, hm, h2⟩
      exact ⟨h1, by rw [hm]; simpa using h2⟩
  · intro p q hq
    unfold view visits
    congr 1
    rw [List.filter_filter]
    apply List.filter_congr
    intro v _
    rw [Bool.eq_iff_iff, Bool.and_eq_true, decide_eq_true_iff, hq]
    constructor
    · rintro ⟨h1, h2⟩
      refine ⟨?_, h1⟩
      cases hm : mag v.filt with
      | none => rw [hm] at h2; simp at h2
      | some m => rw [hm] at h2; exact ⟨m, hm, by simpa using h2⟩
    · rintro ⟨⟨m, hm, h2⟩, h1⟩
      exact ⟨h1, by rw [hm]; simpa using h2⟩

theorem length_unique {N M : List ℤ} (hN : N.Nodup) (hM : M.Nodup) (h : ∀ i, i ∈ N ↔ i ∈ M) : N.length = M.length :=
  ((List.perm_ext_iff_of_nodup hN hM).mpr h).length_eq

/-- The result is the number of nights with a colour and a slope among the visits that are deep enough, for data with the
default columns. -/
theorem run_spec (mag : String → Option K) (color slope : K) (l : List (Obs K)) (hm : ∀ v ∈ l, (mag v.filt).isSome) (hd : ∀ v ∈ l, v.dflt.isSome)
    (N : List ℤ) (hN : N.Nodup)
    (hN' : ∀ n, n ∈ N ↔ 3 ≤ (visits mag l (fun k => k = n)).length ∧ Color color (visits mag l (fun k => k = n)) ∧ Slope slope (visits mag l (fun k => k = n))) :
    run mag color slope l = .ok N.length := by
  obtain ⟨d, h1, hsub, hmem, hview⟩ := deep_ok mag l hm
  have hdd : d.any (fun v => v.dflt.isNone) = false := by
    rw [List.any_eq_false]
    intro v hv
    have := hd v (hsub.subset hv)
    cases hx : v.dflt with
    | none => rw [hx] at this; simp at this
    | some _ => simp
  unfold run
  rw [h1]
  dsimp only
  have hv : ∀ n, view (d.filter (fun v => v.night == n)) = visits mag l (fun k => k = n) := fun n => hview _ _ (fun v => by simp)
  by_cases he : d = []
  · rw [if_pos he]
    congr 1
    symm
    rw [List.length_eq_zero_iff, List.eq_nil_iff_forall_not_mem]
    intro n hn
    have := ((hN' n).mp hn).1
    rw [← hv, he] at this
    simp [view] at this
  · rw [if_neg he, hdd]
    simp only [Bool.false_and, Bool.false_eq_true, if_false]
    congr 1
    obtain ⟨M, hM1, hM2, hM3⟩ := binned_count Obs.night (fun g => check color slope (view g)) (fun g => 3 ≤ (view g).length ∧ Color color (view g) ∧ Slope slope (view g))
      (fun g => check_spec color slope (view g)) d
    rw [hM3]
    apply length_unique hM1 hN
    intro n
    rw [hM2, hN', hv]
    constructor
    · exact fun h => h.2
    · intro h
      refine ⟨?_, h⟩
      by_contra hn
      have : view (d.filter (fun v => v.night == n)) = [] := by
        have : d.filter (fun v => v.night == n) = [] := by
          rw [List.filter_eq_nil_iff]
          intro v hv hvn
          exact hn (List.mem_map.mpr ⟨v, hv, by simpa using hvn⟩)
        rw [this]; rfl
      rw [hv] at this
      rw [this] at h
      simp at h

/-- The check always reads the columns with the default names: with other columns the metric raises as soon as a night has
three visits. -/
theorem run_columns (mag : String → Option K) (color slope : K) (l : List (Obs K)) (hm : ∀ v ∈ l, ∃ m, mag v.filt = some m ∧ m < v.m5) (hd : ∀ v ∈ l, v.dflt = none)
    (n : ℤ) (hn : 3 ≤ (l.filter (fun v => v.night == n)).length) : run mag color slope l = .error "ValueError" := by
  have hall : ∀ v ∈ l, (mag v.filt).isSome := fun v hv => by obtain ⟨m, h, _⟩ := hm v hv; simp [h]
  have hdeep : deep mag l = .ok l := by
    unfold deep
    rw [if_pos (List.all_eq_true.mpr hall)]
    congr 1
    rw [List.filter_eq_self]
    intro v hv
    obtain ⟨m, h, h2⟩ := hm v hv
    rw [h]
    simpa using h2
  have hne : l.filter (fun v => v.night == n) ≠ [] := by intro h; rw [h] at hn; simp at hn
  obtain ⟨v, hv⟩ := List.exists_mem_of_ne_nil _ hne
  obtain ⟨hvl, hvn⟩ := List.mem_filter.mp hv
  unfold run
  rw [hdeep]
  dsimp only
  rw [if_neg (List.ne_nil_of_mem hvl), if_pos]
  rw [Bool.and_eq_true]
  constructor
  · exact List.any_eq_true.mpr ⟨v, hvl, by simp [hd v hvl]⟩
  · unfold hasThree
    exact List.any_eq_true.mpr ⟨n, List.mem_map.mpr ⟨v, hvl, by simpa using hvn⟩, by simpa using hn⟩

/-! ## C287: two nights -/

/-- The result over two nights is the number of pairs of nights `n`, `n + 1` whose visits have a colour and a slope. -/
theorem run2_spec (mag : String → Option K) (color slope : K) (l : List (Obs K)) (hm : ∀ v ∈ l, (mag v.filt).isSome) (hd : ∀ v ∈ l, v.dflt.isSome)
    (N : List ℤ) (hN : N.Nodup)
    (hN' : ∀ n, n ∈ N ↔ 3 ≤ (visits mag l (fun k => k = n ∨ k = n + 1)).length ∧ Color color (visits mag l (fun k => k = n ∨ k = n + 1)) ∧
      Slope slope (visits mag l (fun k => k = n ∨ k = n + 1))) :
    run2 mag color slope l = .ok N.length := by
  obtain ⟨d, h1, hsub, hmem, hview⟩ := deep_ok mag l hm
  have hdd : d.any (fun v => v.dflt.isNone) = false := by
    rw [List.any_eq_false]
    intro v hv
    have := hd v (hsub.subset hv)
    cases hx : v.dflt with
    | none => rw [hx] at this; simp at this
    | some _ => simp
  unfold run2
  rw [h1]
  dsimp only
  have hv1 : ∀ k, view (d.filter (fun v => v.night / 2 == k)) = visits mag l (fun j => j = 2 * k ∨ j = 2 * k + 1) :=
    fun k => hview _ _ (fun v => by rw [beq_iff_eq]; omega)
  have hv2 : ∀ k, view (d.filter (fun v => -((-v.night) / 2) == k)) = visits mag l (fun j => j = 2 * k - 1 ∨ j = 2 * k - 1 + 1) :=
    fun k => hview _ _ (fun v => by rw [beq_iff_eq]; omega)
  have hvany : ∀ p : ℤ → Prop, d = [] → visits mag l p = [] := by
    intro p he
    classical
    rw [← hview p (fun v => decide (p v.night)) (fun v => by simp), he]; rfl
  by_cases he : d = []
  · rw [if_pos he]
    congr 1
    symm
    rw [List.length_eq_zero_iff, List.eq_nil_iff_forall_not_mem]
    intro n hn
    have := ((hN' n).mp hn).1
    rw [hvany _ he] at this
    simp at this
  · rw [if_neg he, hdd]
    simp only [Bool.false_and, Bool.false_eq_true, if_false]
    congr 1
    obtain ⟨A, hA1, hA2, hA3⟩ := binned_count (fun v : Obs K => v.night / 2) (fun g => check color slope (view g)) (fun g => 3 ≤ (view g).length ∧ Color color (view g) ∧ Slope slope (view g))
      (fun g => check_spec color slope (view g)) d
    obtain ⟨B, hB1, hB2, hB3⟩ := binned_count (fun v : Obs K => -((-v.night) / 2)) (fun g => check color slope (view g)) (fun g => 3 ≤ (view g).length ∧ Color color (view g) ∧ Slope slope (view g))
      (fun g => check_spec color slope (view g)) d
    have hbin : ∀ (ids : Obs K → ℤ) k, 3 ≤ (view (d.filter (fun v => ids v == k))).length → k ∈ d.map ids := by
      intro ids k h
      by_contra hn
      have : d.filter (fun v => ids v == k) = [] := by
        rw [List.filter_eq_nil_iff]
        intro v hv hvn
        exact hn (List.mem_map.mpr ⟨v, hv, by simpa using hvn⟩)
      rw [this] at h
      simp [view] at h
    have hA : ∀ k, k ∈ A ↔ 2 * k ∈ N := by
      intro k
      rw [hA2, hN', ← hv1]
      exact ⟨fun h => h.2, fun h => ⟨hbin _ _ h.1, h⟩⟩
    have hB : ∀ k, k ∈ B ↔ 2 * k - 1 ∈ N := by
      intro k
      rw [hB2, hN', ← hv2]
      exact ⟨fun h => h.2, fun h => ⟨hbin _ _ h.1, h⟩⟩
    rw [hA3, hB3]
    have hnd : (A.map (fun k => 2 * k) ++ B.map (fun k => 2 * k - 1)).Nodup := by
      rw [List.nodup_append]
      refine ⟨hA1.map (fun a b h => by simpa using h), hB1.map (fun a b h => by simpa using h), ?_⟩
      intro x hx y hy hxy
      obtain ⟨a, _, rfl⟩ := List.mem_map.mp hx
      obtain ⟨b, _, rfl⟩ := List.mem_map.mp hy
      omega
    have := length_unique hnd hN (fun n => by
      rw [List.mem_append, List.mem_map, List.mem_map]
      constructor
      · rintro (⟨a, ha, rfl⟩ | ⟨b, hb, rfl⟩)
        · exact (hA a).mp ha
        · exact (hB b).mp hb
      · intro hn
        rcases Int.even_or_odd' n with ⟨k, hk | hk⟩
        · exact Or.inl ⟨k, (hA k).mpr (by rw [← hk]; exact hn), hk.symm⟩
        · exact Or.inr ⟨k + 1, (hB (k + 1)).mpr (by rw [show 2 * (k + 1) - 1 = n by omega]; exact hn), by omega⟩)
    rw [← this]
    simp

end

/-- One night of visits counts once. -/
def OnceClaim : Prop := ∀ (mag : String → Option ℚ) (color slope : ℚ) (l : List (Obs ℚ)) (n : ℤ) (r : ℕ), (∀ v ∈ l, v.night = n) → run2 mag color slope l = .ok r → r ≤ 1

/-- Visits of a single night: a night with a colour and a slope of its own is in two pairs. -/
def demo : List (Obs ℚ) := [⟨3, 21, "g", some ("g", 0)⟩, ⟨3, 21, "r", some ("r", 1)⟩, ⟨3, 21, "g", some ("g", 4)⟩]

theorem once_false : ¬ OnceClaim := by
  intro h
  have := h (fun _ => some 20) 1 3 demo 3 2 (by decide) (by decide +kernel)
  omega

example : run (fun _ => some (20 : ℚ)) 1 3 demo = .ok 1 := by decide +kernel

example : run2 (fun _ => some (20 : ℚ)) 1 5 [⟨3, 21, "g", some ("g", 0)⟩, ⟨3, 21, "r", some ("r", 1)⟩, ⟨4, 21, "g", some ("g", 6)⟩] = .ok 1 := by decide +kernel

/-! ## C288: vendors and uses -/

theorem mapM_ok {A B : Type} (f : A → Except String B) (l : List A) (r : List B) (h : l.mapM f = .ok r) : ∀ b, b ∈ r ↔ ∃ a ∈ l, f a = .ok b := by
  induction l generalizing r with
  | nil => simp [List.mapM_nil] at h; cases h; simp
  | cons a l ih =>
    rw [List.mapM_cons] at h
    cases hf : f a with
    | error e => rw [hf] at h; cases h
    | ok x =>
      cases hl : l.mapM f with
      | error e => rw [hf, hl] at h; cases h
      | ok xs =>
        rw [hf, hl] at h
        cases h
        intro b
        simp only [List.mem_cons, ih xs hl b, exists_eq_or_imp, hf, Except.ok.injEq]
        tauto

/-- The result is one or two if all chips are from that vendor, and three if there are both. -/
theorem vendor_spec (chips : List (List Char)) (r : ℕ) (h : chipVendor chips = .ok r) (hne : chips ≠ []) :
    (r = 1 ↔ ∀ c ∈ chips, vendor c = .ok 1) ∧ (r = 2 ↔ ∀ c ∈ chips, vendor c = .ok 2) ∧ (r = 3 ↔ (∃ c ∈ chips, vendor c = .ok 1) ∧ ∃ c ∈ chips, vendor c = .ok 2) := by
  unfold chipVendor at h
  cases hv : chips.mapM vendor with
  | error e => rw [hv] at h; cases h
  | ok vs =>
    rw [hv] at h
    dsimp only at h
    have hmem := mapM_ok vendor chips vs hv
    have hval : ∀ c v, vendor c = .ok v → v = 1 ∨ v = 2 := by
      intro c v hc
      unfold vendor at hc
      cases h2 : c[2]? with
      | none => rw [h2] at hc; cases hc
      | some x =>
        rw [h2] at hc
        dsimp only at hc
        split_ifs at hc
        · cases hc; exact Or.inl rfl
        · cases hc; exact Or.inr rfl
    have hex : ∀ c ∈ chips, ∃ v, vendor c = .ok v := by
      clear hmem h hne
      induction chips generalizing vs with
      | nil => simp
      | cons a l ih =>
        rw [List.mapM_cons] at hv
        cases hf : vendor a with
        | error e => rw [hf] at hv; cases hv
        | ok x =>
          cases hl : l.mapM vendor with
          | error e => rw [hf, hl] at hv; cases hv
          | ok xs =>
            intro c hc
            rcases List.mem_cons.mp hc with rfl | hc
            · exact ⟨x, hf⟩
            · exact ih xs hl c hc
    have hvs : ∀ v ∈ vs, v = 1 ∨ v = 2 := fun v hv => by obtain ⟨c, _, hc⟩ := (hmem v).mp hv; exact hval c v hc
    have hall : ∀ v, (∀ w ∈ vs, w = v) ↔ ∀ c ∈ chips, vendor c = .ok v := by
      intro v
      constructor
      · intro hw c hc
        obtain ⟨x, hx⟩ := hex c hc
        rw [hx, hw x ((hmem x).mpr ⟨c, hc, hx⟩)]
      · intro hc w hw
        obtain ⟨c, hcc, hcw⟩ := (hmem w).mp hw
        have := hc c hcc
        rw [hcw] at this
        simpa using this
    rw [← hall, ← hall, ← hmem, ← hmem]
    have hvne : vs ≠ [] := by
      obtain ⟨c, hc⟩ := List.exists_mem_of_ne_nil _ hne
      obtain ⟨v, hv⟩ := hex c hc
      exact List.ne_nil_of_mem ((hmem v).mpr ⟨c, hc, hv⟩)
    obtain ⟨w, hw⟩ := List.exists_mem_of_ne_nil _ hvne
    have hcase : (∃ v, vs.dedup = [v] ∧ r = v) ∨ ((∀ v, vs.dedup ≠ [v]) ∧ r = 3) := by
      match hd : vs.dedup with
      | [v] => rw [hd] at h; cases h; exact Or.inl ⟨_, rfl, rfl⟩
      | [] => rw [hd] at h; cases h; exact Or.inr ⟨by simp, rfl⟩
      | a :: b :: l => rw [hd] at h; cases h; exact Or.inr ⟨by simp, rfl⟩
    rcases hcase with ⟨v, hd, rfl⟩ | ⟨hd, rfl⟩
    · have hvall : ∀ x ∈ vs, x = r := fun x hx => by
        have := List.mem_dedup.mpr hx
        rw [hd] at this; simpa using this
      have hr : r ∈ vs := by rw [← List.mem_dedup, hd]; simp
      have h12 := hvs r hr
      refine ⟨⟨fun h => h ▸ hvall, fun h => h r hr⟩, ⟨fun h => h ▸ hvall, fun h => h r hr⟩, ?_, ?_⟩
      · intro h; omega
      · rintro ⟨ha, hb⟩; have := hvall 1 ha; have := hvall 2 hb; omega
    · have hnot : ∀ v, ¬ ∀ x ∈ vs, x = v := by
        intro v hv
        apply hd v
        have hnd := List.nodup_dedup vs
        have hm : ∀ x, x ∈ vs.dedup ↔ x = v := fun x => by
          rw [List.mem_dedup]
          exact ⟨hv x, fun h => by rw [h, ← hv w hw]; exact hw⟩
        exact List.perm_singleton.mp ((List.perm_ext_iff_of_nodup hnd (List.nodup_singleton v)).mpr (fun x => by rw [hm, List.mem_singleton]))
      refine ⟨⟨by omega, fun h => absurd h (hnot 1)⟩, ⟨by omega, fun h => absurd h (hnot 2)⟩, fun _ => ⟨?_, ?_⟩, fun _ => rfl⟩
      · by_contra h1
        exact hnot 2 (fun x hx => (hvs x hx).resolve_left (fun e => h1 (e ▸ hx)))
      · by_contra h1
        exact hnot 1 (fun x hx => (hvs x hx).resolve_right (fun e => h1 (e ▸ hx)))

/-- Without chips the result is "both". -/
theorem vendor_empty : chipVendor [] = .ok 3 := rfl

example : chipVendor ["R:2,1".toList, "R:4,3".toList] = .ok 1 ∧ chipVendor ["R:2,1".toList, "R:3,3".toList] = .ok 3 := by decide

/-- No use is the start of another, so that at most one fits a note. -/
theorem uses_disjoint : ∀ a ∈ uses, ∀ b ∈ uses, a <+: b → a = b := by
  have : ∀ a ∈ uses, ∀ b ∈ uses, a.isPrefixOf b = true → a = b := by decide
  intro a ha b hb h
  exact this a ha b hb (List.isPrefixOf_iff_prefix.mpr h)

/-- The use of one visit: the only one that its note starts with. -/
theorem use_spec (programs : List (List Char)) (note prog : List Char) (h : programs = [] ∨ prog ∈ programs) :
    (∀ u ∈ uses, u <+: note → use programs note prog = u) ∧ ((∀ u ∈ uses, ¬ u <+: note) → use programs note prog = "other".toList) := by
  have hn : ¬ (programs ≠ [] ∧ prog ∉ programs) := by tauto
  unfold use
  rw [if_neg hn]
  constructor
  · intro u hu hp
    cases hf : uses.find? (fun u => u.isPrefixOf note) with
    | none =>
      have := List.find?_eq_none.mp hf u hu
      exact absurd (List.isPrefixOf_iff_prefix.mpr hp) this
    | some w =>
      have h1 := List.mem_of_find?_eq_some hf
      have h2 : w <+: note := by
        have h3 := List.find?_some (p := fun u : List Char => u.isPrefixOf note) hf
        exact List.isPrefixOf_iff_prefix.mp h3
      dsimp only
      rcases List.prefix_or_prefix_of_prefix h2 hp with h3 | h3
      · exact uses_disjoint w h1 u hu h3
      · exact (uses_disjoint u hu w h1 h3).symm
  · intro hnone
    have : uses.find? (fun u => u.isPrefixOf note) = none := by
      rw [List.find?_eq_none]
      intro u hu hp
      exact hnone u hu (List.isPrefixOf_iff_prefix.mp hp)
    rw [this]

theorem use_not_science (programs : List (List Char)) (note prog : List Char) (h : programs ≠ []) (hp : prog ∉ programs) : use programs note prog = "not science".toList := by
  unfold use
  rw [if_pos ⟨h, hp⟩]

/-- The metric gives the use of the visits of a slice. -/
def UseClaim : Prop := ∀ (programs : List (List Char)) (note prog : List Char), programs = [] ∨ prog ∈ programs →
  useSlice programs (.array [note]) (.array [prog]) = .ok (use programs note prog)

/-- False for every note and program: slices are arrays. -/
theorem use_array (programs notes progs : List (List Char)) (h : programs = [] ∨ ∀ p ∈ progs, p ∈ programs) :
    useSlice programs (.array notes) (.array progs) = .error "AttributeError" ∨ useSlice programs (.array notes) (.array progs) = .error "ValueError" := by
  unfold useSlice
  dsimp only
  rcases h with h | h
  · rw [if_pos h]; exact Or.inl rfl
  · split_ifs with h1 h2 h3
    · exact Or.inl rfl
    · exact Or.inr rfl
    · exact Or.inl rfl
    · exact absurd (List.all_eq_true.mpr (fun p hp => by simpa using h p hp)) h3

theorem use_false : ¬ UseClaim := by
  intro h
  have := h [] [] [] (Or.inl rfl)
  simp [useSlice] at this

example : use [] "pairs, 33min".toList "x".toList = "pairs".toList := by decide

/-! ## C289: cadence for supernovae -/

section
variable {K : Type} [Field K] [LinearOrder K] [IsStrictOrderedRing K]

theorem countP_split (p q r : K → Bool) (h : ∀ t, r t = (p t || q t)) (hd : ∀ t, ¬ (p t = true ∧ q t = true)) (ts : List K) : ts.countP p + ts.countP q = ts.countP r := by
  induction ts with
  | nil => rfl
  | cons t ts ih =>
    simp only [List.countP_cons, h t]
    have := hd t
    cases hp : p t <;> cases hq : q t <;> simp [hp, hq] at this ⊢ <;> omega

/-- The counts add up to the visits up to the last edge. -/
theorem dayCounts_sum [FloorRing K] (ts : List K) (a : ℤ) (n : ℕ) : (dayCounts ts a (n + 1)).sum = ts.countP (fun t => decide ((a : K) ≤ t ∧ t ≤ (a : K) + n + 1)) := by
  have part : ∀ m : ℕ, ((List.range m).map (fun i : ℕ => ts.countP (fun t => decide ((a : K) + i ≤ t) && decide (t < (a : K) + i + 1)))).sum =
      ts.countP (fun t => decide ((a : K) ≤ t ∧ t < (a : K) + m)) := by
    intro m
    induction m with
    | zero =>
      symm
      rw [List.range_zero, List.map_nil, List.sum_nil, List.countP_eq_zero]
      intro t _
      simp
    | succ m ih =>
      rw [List.range_succ, List.map_append, List.sum_append, ih, List.map_cons, List.map_nil, List.sum_singleton]
      have hm : (0 : K) ≤ m := Nat.cast_nonneg m
      apply countP_split
      · intro t
        rw [Bool.eq_iff_iff]
        simp only [Bool.or_eq_true, Bool.and_eq_true, decide_eq_true_eq, Nat.cast_succ]
        constructor
        · rintro ⟨h1, h2⟩
          rcases lt_or_ge t ((a : K) + m) with h | h
          · exact Or.inl ⟨h1, h⟩
          · exact Or.inr ⟨h, by linarith⟩
        · rintro (⟨h1, h2⟩ | ⟨h1, h2⟩)
          · exact ⟨h1, by linarith⟩
          · exact ⟨by linarith, by linarith⟩
      · rintro t ⟨h1, h2⟩
        simp only [Bool.and_eq_true, decide_eq_true_eq] at h1 h2
        linarith [h1.2, h2.1]
  have hn : (0 : K) ≤ n := Nat.cast_nonneg n
  unfold dayCounts
  rw [List.range_succ, List.map_append, List.sum_append, List.map_cons, List.map_nil, List.sum_singleton]
  rw [List.map_congr_left (g := fun i : ℕ => ts.countP (fun t => decide ((a : K) + i ≤ t) && decide (t < (a : K) + i + 1))), part]
  · apply countP_split
    · intro t
      rw [Bool.eq_iff_iff, if_pos rfl]
      simp only [Bool.or_eq_true, Bool.and_eq_true, decide_eq_true_eq]
      constructor
      · rintro ⟨h1, h2⟩
        rcases lt_or_ge t ((a : K) + n) with h | h
        · exact Or.inl ⟨h1, h⟩
        · exact Or.inr ⟨h, h2⟩
      · rintro (⟨h1, h2⟩ | ⟨h1, h2⟩)
        · exact ⟨h1, by linarith⟩
        · exact ⟨by linarith, by linarith⟩
    · rintro t ⟨h1, h2⟩
      simp only [Bool.and_eq_true, decide_eq_true_eq] at h1 h2
      linarith [h1.2, h2.1]
  · intro i hi
    have : i < n := List.mem_range.mp hi
    have hne : ¬ i + 1 = n + 1 := by omega
    simp only [hne, if_false]

variable [FloorRing K]

/-- The cadence: days over visits, for the visits up to the end of the last day but one. -/
theorem cadence_spec (ts : List K) (lo hi : K) (n : ℕ) (hn : ⌈hi⌉ - ⌊lo⌋ = n + 2) (hlo : ∀ t ∈ ts, lo ≤ t)
    (hc : (1 : K) / 100000000 ≤ (ts.countP (fun t => decide (t ≤ (⌈hi⌉ : K) - 1)) : K) / (n + 1)) :
    cadence ts lo hi = (n + 1) / (ts.countP (fun t => decide (t ≤ (⌈hi⌉ : K) - 1)) : K) := by
  have hlen : (dayCounts ts ⌊lo⌋ (n + 1)).length = n + 1 := by simp [dayCounts]
  have hne : dayCounts ts ⌊lo⌋ (n + 1) ≠ [] := by intro h; rw [h] at hlen; simp at hlen
  have hcast : ((⌈hi⌉ : ℤ) : K) - 1 = (⌊lo⌋ : K) + n + 1 := by
    have : (⌈hi⌉ : ℤ) = ⌊lo⌋ + (n + 2) := by omega
    rw [this]; push_cast; ring
  have hsum : (dayCounts ts ⌊lo⌋ (n + 1)).sum = ts.countP (fun t => decide (t ≤ (⌈hi⌉ : K) - 1)) := by
    rw [dayCounts_sum]
    apply List.countP_congr
    intro t ht
    have h1 : (⌊lo⌋ : K) ≤ t := le_trans (Int.floor_le lo) (hlo t ht)
    simp only [decide_eq_true_eq, hcast]
    exact ⟨fun h => h.2, fun h => ⟨h1, h⟩⟩
  unfold cadence
  dsimp only
  rw [hn, show ((n : ℤ) + 2).toNat - 1 = n + 1 by omega, if_neg hne, hlen, hsum, Nat.cast_succ, if_neg (not_lt.mpr hc), one_div_div]

/-- Visits within one day have cadence zero. -/
theorem cadence_day (ts : List K) (lo hi : K) (h : ⌈hi⌉ ≤ ⌊lo⌋ + 1) : cadence ts lo hi = 0 := by
  unfold cadence
  dsimp only
  rw [show (⌈hi⌉ - ⌊lo⌋).toNat - 1 = 0 by omega]
  rfl

/-- The visits of the last day are not counted. -/
theorem cadence_last (ts late : List K) (lo hi : K) (n : ℕ) (hn : ⌈hi⌉ - ⌊lo⌋ = n + 2) (hl : ∀ t ∈ late, (⌈hi⌉ : K) - 1 < t) : cadence (ts ++ late) lo hi = cadence ts lo hi := by
  have hcast : ((⌈hi⌉ : ℤ) : K) - 1 = (⌊lo⌋ : K) + n + 1 := by
    have : (⌈hi⌉ : ℤ) = ⌊lo⌋ + (n + 2) := by omega
    rw [this]; push_cast; ring
  have hlen : ∀ l : List K, (dayCounts l ⌊lo⌋ (n + 1)).length = n + 1 := by intro l; simp [dayCounts]
  have hne : ∀ l : List K, dayCounts l ⌊lo⌋ (n + 1) ≠ [] := by intro l h; have := hlen l; rw [h] at this; simp at this
  have hsum : (dayCounts (ts ++ late) ⌊lo⌋ (n + 1)).sum = (dayCounts ts ⌊lo⌋ (n + 1)).sum := by
    rw [dayCounts_sum, dayCounts_sum, List.countP_append]
    have : late.countP (fun t => decide ((⌊lo⌋ : K) ≤ t ∧ t ≤ (⌊lo⌋ : K) + n + 1)) = 0 := by
      rw [List.countP_eq_zero]
      intro t ht
      have := hl t ht
      rw [hcast] at this
      simp only [decide_eq_true_eq]
      rintro ⟨_, h2⟩
      linarith
    rw [this, Nat.add_zero]
  unfold cadence
  dsimp only
  rw [hn, show ((n : ℤ) + 2).toNat - 1 = n + 1 by omega, if_neg (hne _), if_neg (hne _), hlen, hlen, hsum]

end

/-- The mean cadence: days over visits. -/
def CadenceClaim : Prop := ∀ (ts : List ℚ) (lo hi : ℚ), lo ∈ ts → hi ∈ ts → (∀ t ∈ ts, lo ≤ t ∧ t ≤ hi) → cadence ts lo hi = (⌈hi⌉ - ⌊lo⌋) / ts.length

theorem cadence_false : ¬ CadenceClaim := by
  intro h
  have := h [1 / 2, 3 / 2, 9 / 4, 5 / 2] (1 / 2) (5 / 2) (by decide +kernel) (by decide +kernel) (by decide +kernel)
  revert this
  decide +kernel

example : cadence [1 / 2, 3 / 2, 9 / 4, (5 / 2 : ℚ)] (1 / 2) (5 / 2) = 1 := by decide +kernel

/-- The metric reads only what it declares. -/
def ReadClaim : Prop := ∀ c ∈ read, c ∈ declared

/-- False: three of the columns read are not declared, among them `filter`, which is not a column of the current output. -/
theorem read_false : ¬ ReadClaim ∧ read.filter (fun c => decide (c ∉ declared)) = ["filter", "fieldRA", "fieldDec"] := by
  constructor
  · intro h
    have := h "filter" (by decide)
    revert this
    decide
  · decide

end Verif.ColSlope
