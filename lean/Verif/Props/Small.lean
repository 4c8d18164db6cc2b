import Mathlib.Tactic.NormNum
import Mathlib.Tactic.Linarith
import Mathlib.Tactic.Ring
import Mathlib.Tactic.FieldSimp
import Mathlib.Analysis.SpecialFunctions.Log.Base
import Mathlib.Analysis.SpecialFunctions.Pow.Real
import Verif.Lemmas.Numpy
import Verif.Model.Small
import Verif.Props.Crowding
import Verif.Props.Depth

/-!
# Smaller metrics and tools: properties
-/

namespace Verif.Small

/-! ## C459: nights with filters -/

/-- **C459.** The result is the number of nights on which more than `n` different filters were used. -/
theorem nights_with_n (n : ℕ) (vs : List (ℤ × String)) :
    nightsWithN n vs = ((vs.map Prod.fst).toFinset.filter (fun t => n < ((vs.filter (fun v => decide (v.1 = t))).map Prod.snd).toFinset.card)).card := by
  unfold nightsWithN
  rw [List.countP_eq_length_filter]
  have hn : ((vs.map Prod.fst).dedup.filter (fun t => decide (n < ((vs.filter (fun v => decide (v.1 = t))).map Prod.snd).dedup.length))).Nodup :=
    (List.nodup_dedup _).filter _
  rw [← List.toFinset_card_of_nodup hn]
  congr 1
  ext t
  rw [List.mem_toFinset, List.mem_filter, Finset.mem_filter, List.mem_dedup, List.mem_toFinset, List.card_toFinset, decide_eq_true_eq]

/-- It does not depend on the order of the visits. -/
theorem nights_perm (n : ℕ) (a b : List (ℤ × String)) (h : a.Perm b) : nightsWithN n a = nightsWithN n b := by
  rw [nights_with_n, nights_with_n, List.toFinset_eq_of_perm _ _ (h.map Prod.fst)]
  congr 1
  apply Finset.filter_congr
  intro t _
  rw [List.toFinset_eq_of_perm _ _ ((h.filter _).map Prod.snd)]

/-- A night on which exactly `n` filters were used is not counted, although `n` is documented as the minimum. -/
theorem nights_minimum_false :
    ¬ ∀ (n : ℕ) (vs : List (ℤ × String)),
      nightsWithN n vs = ((vs.map Prod.fst).toFinset.filter (fun t => n ≤ ((vs.filter (fun v => decide (v.1 = t))).map Prod.snd).toFinset.card)).card := by
  intro h
  have := h 3 [(7, "g"), (7, "r"), (7, "i")]
  revert this
  decide +kernel

example : nightsWithN 1 [(7, "g"), (8, "r"), (7, "r"), (7, "g"), (8, "r")] = 1 := by decide +kernel

/-! ## C460: matching -/

section
variable {K : Type*} [LinearOrder K]

private theorem mapM_map_some {α β γ : Type*} (q : α → β) (F : β → Option γ) (g : α → γ) :
    ∀ l : List α, (∀ v ∈ l, F (q v) = some (g v)) → (l.map q).mapM F = some (l.map g)
  | [], _ => rfl
  | v :: l, h => by
    rw [List.map_cons, List.mapM_cons, h v (by simp), mapM_map_some q F g l (fun w hw => h w (by simp [hw]))]
    rfl

private theorem takeWhile_len_le (ss : List K) (v : K) : (ss.takeWhile (fun x => decide (x < v))).length ≤ ss.length :=
  (List.takeWhile_prefix _).length_le

private theorem ge_at (v : K) : ∀ (ss : List K) (x : K), ss[(ss.takeWhile (fun x => decide (x < v))).length]? = some x → v ≤ x
  | [], x, h => by simp at h
  | a :: ss, x, h => by
    by_cases ha : a < v
    · rw [List.takeWhile_cons_of_pos (by simpa using ha)] at h
      exact ge_at v ss x (by simpa using h)
    · rw [List.takeWhile_cons_of_neg (by simpa using ha)] at h
      simp at h
      exact h ▸ not_lt.mp ha

private theorem le_at (v : K) : ∀ (ss : List K), ss.Pairwise (· ≤ ·) → v ∈ ss →
    ∃ x, ss[(ss.takeWhile (fun x => decide (x < v))).length]? = some x ∧ x ≤ v
  | [], _, h => by simp at h
  | a :: ss, hs, h => by
    rw [List.pairwise_cons] at hs
    by_cases ha : a < v
    · rw [List.takeWhile_cons_of_pos (by simpa using ha)]
      have hv : v ∈ ss := by
        rcases List.mem_cons.mp h with e | e
        · exact absurd ha (by rw [e]; exact lt_irrefl _)
        · exact e
      obtain ⟨x, h1, h2⟩ := le_at v ss hs.2 hv
      exact ⟨x, by simpa using h1, h2⟩
    · rw [List.takeWhile_cons_of_neg (by simpa using ha)]
      refine ⟨a, by simp, ?_⟩
      rcases List.mem_cons.mp h with e | e
      · exact e ▸ le_rfl
      · exact hs.1 v e

private theorem all_lt_of_len (v : K) (ss : List K) (h : (ss.takeWhile (fun x => decide (x < v))).length = ss.length) : ∀ x ∈ ss, x < v := by
  intro x hx
  have e : ss.takeWhile (fun x => decide (x < v)) = ss := (List.takeWhile_prefix _).eq_of_length h
  rw [← e] at hx
  have := List.all_takeWhile (p := fun x => decide (x < v)) (l := ss)
  rw [List.all_eq_true] at this
  simpa using this x hx

/-- **C460.** Whatever order ties are sorted in, every index into the second array whose value occurs in the first is found exactly once and in
increasing order, no other is, and the two results index equal values. -/
theorem match_spec (n : ℕ) (f : ℕ → K) (st : List ℕ) (arr2 : List K) (hn : 0 < n) (h2 : arr2 ≠ []) (hp : st.Perm (List.range n))
    (hs : (st.map f).Pairwise (· ≤ ·)) :
    ∃ a b, matchArr n f st arr2 = .ok (a, b) ∧ a.length = b.length ∧ b.Pairwise (· < ·) ∧
      (∀ j, j ∈ b ↔ ∃ i < n, arr2[j]? = some (f i)) ∧
      ∀ (k i j : ℕ), a[k]? = some i → b[k]? = some j → i < n ∧ arr2[j]? = some (f i) := by
  have hlen : st.length = n := by simpa using hp.length_eq
  have hmem : ∀ i, i ∈ st ↔ i < n := fun i => by rw [hp.mem_iff, List.mem_range]
  set ss := st.map f with hss
  have hsl : ss.length = n := by simp [hss, hlen]
  set clip : Bool := arr2.any (fun v => (List.range n).all (fun i => decide (f i < v))) with hclip
  set q : K → ℕ := fun v => if clip = true then (if Np.searchsortedLeft ss v = n then n - 1 else Np.searchsortedLeft ss v) else Np.searchsortedLeft ss v with hq
  have hss' : ∀ v, Np.searchsortedLeft ss v = (ss.takeWhile (fun x => decide (x < v))).length := fun v => rfl
  have hraw : ∀ v, Np.searchsortedLeft ss v ≤ n := fun v => by rw [hss', ← hsl]; exact takeWhile_len_le ss v
  have hqlt : ∀ v ∈ arr2, q v < n := by
    intro v hv
    by_cases e : Np.searchsortedLeft ss v = n
    · have hc : clip = true := by
        rw [hclip, List.any_eq_true]
        refine ⟨v, hv, ?_⟩
        rw [List.all_eq_true]
        intro i hi
        rw [List.mem_range] at hi
        simpa using all_lt_of_len v ss (by rw [← hss', e, hsl]) (f i) (List.mem_map.mpr ⟨i, (hmem i).mpr hi, rfl⟩)
      simp only [hq, hc, if_true, e]
      omega
    · have := hraw v
      simp only [hq, e, if_false, ite_self]
      omega
  set g : K → ℕ := fun v => (st[q v]?).getD 0 with hg
  have hst : ∀ v ∈ arr2, st[q v]? = some (g v) := by
    intro v hv
    have := hqlt v hv
    rw [← hlen] at this
    simp [hg, this]
  have hgn : ∀ v ∈ arr2, g v < n := fun v hv => (hmem _).mp (List.mem_of_getElem? (hst v hv))
  have heq : ∀ v ∈ arr2, (f (g v) = v ↔ ∃ i < n, v = f i) := by
    intro v hv
    constructor
    · intro e; exact ⟨g v, hgn v hv, e.symm⟩
    · rintro ⟨i, hi, e⟩
      have hvm : v ∈ ss := List.mem_map.mpr ⟨i, (hmem i).mpr hi, e.symm⟩
      obtain ⟨x, hx, hxv⟩ := le_at v ss hs hvm
      have hx' := ge_at v ss x hx
      have hxe : x = v := le_antisymm hxv hx'
      have hlt : Np.searchsortedLeft ss v < n := by
        rw [hss', ← hsl]
        exact (List.getElem?_eq_some_iff.mp hx).1
      have hqe : q v = Np.searchsortedLeft ss v := by
        simp only [hq, hlt.ne, if_false, ite_self]
      have : ss[q v]? = some (f (g v)) := by rw [hss, List.getElem?_map, hst v hv]; rfl
      rw [hqe, hss', hx] at this
      exact (Option.some.inj this).symm.trans hxe
  have hzip : (arr2.map g).zip arr2 = arr2.map (fun v => (g v, v)) := by
    rw [List.map_prod_right_eq_zip]
  have hsub : (if clip = true then (arr2.map (fun v => Np.searchsortedLeft ss v)).map (fun p => if p = n then n - 1 else p)
      else arr2.map (fun v => Np.searchsortedLeft ss v)) = arr2.map q := by
    by_cases hc : clip = true
    · rw [if_pos hc, List.map_map]
      apply List.map_congr_left
      intro v _
      simp [hq, hc]
    · rw [if_neg hc]
      apply List.map_congr_left
      intro v _
      simp [hq, hc]
  set found := (((arr2.map g).zip arr2).zipIdx).filter (fun x => decide (f x.1.1 = x.1.2)) with hfound
  have hok : matchArr n f st arr2 = .ok (found.map (fun x => x.1.1), found.map (fun x => x.2)) := by
    unfold matchArr
    rw [if_neg (by rintro (h | h); exacts [by omega, h2 h])]
    simp only [← hss, ← hclip, hsub]
    rw [mapM_map_some q (fun p => st[p]?) g arr2 hst]
  have hfm : ∀ x, x ∈ found ↔ arr2[x.2]? = some x.1.2 ∧ x.1.1 = g x.1.2 ∧ f x.1.1 = x.1.2 := by
    rintro ⟨⟨i, v⟩, j⟩
    rw [hfound, hzip, List.mem_filter, List.mem_zipIdx_iff_getElem?, List.getElem?_map]
    simp only [decide_eq_true_eq]
    constructor
    · rintro ⟨h, e⟩
      cases hj : arr2[j]? with
      | none => rw [hj] at h; simp at h
      | some w =>
        rw [hj] at h
        simp only [Option.map_some, Option.some.injEq, Prod.mk.injEq] at h
        obtain ⟨h, rfl⟩ := h
        exact ⟨rfl, h.symm, e⟩
    · rintro ⟨h, e1, e2⟩
      rw [h]
      exact ⟨by rw [e1]; rfl, e2⟩
  refine ⟨_, _, hok, by simp, ?_, ?_, ?_⟩
  · have hsubl : (found.map (fun x => x.2)).Sublist ((((arr2.map g).zip arr2).zipIdx).map (fun x => x.2)) := (List.filter_sublist).map _
    refine List.Pairwise.sublist hsubl ?_
    have : (((arr2.map g).zip arr2).zipIdx).map (fun x => x.2) = List.range' 0 ((arr2.map g).zip arr2).length := by
      have := List.zipIdx_map_snd 0 ((arr2.map g).zip arr2)
      simpa using this
    rw [this]
    exact List.pairwise_lt_range'
  · intro j
    rw [List.mem_map]
    constructor
    · rintro ⟨x, hx, rfl⟩
      rw [hfm] at hx
      refine ⟨x.1.1, ?_, by rw [hx.1, hx.2.2]⟩
      rw [hx.2.1]
      exact hgn _ (List.mem_of_getElem? hx.1)
    · rintro ⟨i, hi, h⟩
      have hv : f i ∈ arr2 := List.mem_of_getElem? h
      exact ⟨((g (f i), f i), j), (hfm _).mpr ⟨h, rfl, (heq _ hv).mpr ⟨i, hi, rfl⟩⟩, rfl⟩
  · intro k i j hi hj
    rw [List.getElem?_map] at hi hj
    cases hk : found[k]? with
    | none => rw [hk] at hi; simp at hi
    | some x =>
      rw [hk] at hi hj
      simp only [Option.map_some, Option.some.injEq] at hi hj
      have hx := (hfm x).mp (List.mem_of_getElem? hk)
      subst hi hj
      refine ⟨?_, by rw [hx.1, hx.2.2]⟩
      rw [hx.2.1]
      exact hgn _ (List.mem_of_getElem? hx.1)

/-- Without stars, or without a solution, it is an error. -/
theorem match_empty (f : ℕ → K) (st : List ℕ) (arr2 : List K) (n : ℕ) :
    matchArr 0 f st arr2 = .error .value ∧ matchArr n f st [] = .error .value := by
  constructor <;> simp [matchArr]

end

example : matchArr 4 (fun i => ([30, 10, 20, 40] : List ℤ).getD i 0) [1, 2, 0, 3] [20, 99, 10, 5, 30] = .ok ([2, 1, 0], [0, 2, 4]) := by decide +kernel
example : matchArr 3 (fun i => ([30, 10, 20] : List ℤ).getD i 0) [1, 2, 0] [99, 98] = .ok ([], []) := by decide +kernel

/-! ## C461: uniformity -/

section
variable {K : Type*} [Field K] [LinearOrder K] [IsStrictOrderedRing K]

private theorem sort_map_mono (f : K → K) (hf : ∀ x y, x ≤ y → f x ≤ f y) (xs : List K) : Np.sort (xs.map f) = (Np.sort xs).map f := by
  have h1 : ((Np.sort xs).map f).Perm (xs.map f) := (Np.sort_perm xs).map f
  rw [Np.sort_eq_of_perm h1.symm]
  apply Np.sort_eq_self
  rw [List.pairwise_map]
  exact (Np.sort_sorted xs).imp (fun h => hf _ _ h)

private theorem median_shift (c : K) (xs : List K) : Area.median (xs.map (· - c)) = (Area.median xs).map (· - c) := by
  have hs := sort_map_mono (· - c) (fun x y h => by linarith) xs
  unfold Area.median
  simp only [hs, List.length_map, List.getElem?_map]
  cases h1 : (Np.sort xs)[((Np.sort xs).length - 1) / 2]? with
  | none => simp
  | some a =>
    cases h2 : (Np.sort xs)[(Np.sort xs).length / 2]? with
    | none => simp
    | some b =>
      simp only [Option.map_some]
      congr 1
      ring

/-- **C461.** A constant added to all magnitudes of the fit, the zero point that cannot be known, changes no result. -/
theorem uniformity_zero_point (g nsig : K) (npix : ℕ) (high : ℕ → Bool) (stars : List (Star K)) (c : K) :
    uniformity g nsig npix high (stars.map (fun s => { s with fit := s.fit + c })) = uniformity g nsig npix high stars := by
  have h : resid (stars.map (fun s => { s with fit := s.fit + c })) = resid stars := by
    unfold resid
    rw [List.map_map]
    have e : stars.map ((fun s : Star K => s.mag - s.fit) ∘ fun s => { s with fit := s.fit + c }) = (stars.map (fun s => s.mag - s.fit)).map (· - c) := by
      rw [List.map_map]
      apply List.map_congr_left
      intro s _
      simp only [Function.comp]
      ring
    rw [e, median_shift]
    cases Area.median (stars.map (fun s => s.mag - s.fit)) with
    | none => rfl
    | some m =>
      simp only [Option.map_some, List.map_map]
      apply List.map_congr_left
      intro s _
      simp only [Function.comp, Prod.mk.injEq, true_and]
      ring
  unfold uniformity residMap
  rw [h]

private theorem median_affine (c d : K) (hc : 0 < c) (xs : List K) : Area.median (xs.map (fun x => c * x + d)) = (Area.median xs).map (fun x => c * x + d) := by
  have hs := sort_map_mono (fun x => c * x + d) (fun x y h => by nlinarith) xs
  unfold Area.median
  simp only [hs, List.length_map, List.getElem?_map]
  cases h1 : (Np.sort xs)[((Np.sort xs).length - 1) / 2]? with
  | none => simp
  | some a =>
    cases h2 : (Np.sort xs)[(Np.sort xs).length / 2]? with
    | none => simp
    | some b =>
      simp only [Option.map_some]
      congr 1
      ring

/-- The scatter of shifted and scaled values is the scaled scatter. -/
theorem mad_affine (g c d : K) (hc : 0 < c) (xs : List K) : mad g (xs.map (fun x => c * x + d)) = (mad g xs).map (fun x => c * x) := by
  unfold mad
  rw [median_affine c d hc]
  cases Area.median xs with
  | none => rfl
  | some m =>
    simp only [Option.map_some, List.map_map]
    have e : xs.map ((fun x => |x - (c * m + d)|) ∘ fun x => c * x + d) = (xs.map (fun x => |x - m|)).map (fun x => c * x + 0) := by
      rw [List.map_map]
      apply List.map_congr_left
      intro x _
      simp only [Function.comp]
      rw [show c * x + d - (c * m + d) = c * (x - m) by ring, abs_mul, abs_of_pos hc, add_zero]
    rw [e, median_affine c 0 hc]
    cases Area.median (xs.map (fun x => |x - m|)) with
    | none => rfl
    | some y =>
      simp only [Option.map_some, add_zero]
      congr 1
      ring

omit [IsStrictOrderedRing K] in
private theorem median_isSome (xs : List K) : (Area.median xs).isSome = true ↔ xs ≠ [] := by
  unfold Area.median
  have hl := Np.sort_length xs
  constructor
  · rintro h rfl
    revert h
    simp [Np.sort]
  · intro h
    have hp : 0 < xs.length := List.length_pos_iff.mpr h
    have h1 : ((Np.sort xs).length - 1) / 2 < (Np.sort xs).length := by rw [hl]; omega
    have h2 : (Np.sort xs).length / 2 < (Np.sort xs).length := by rw [hl]; omega
    simp [List.getElem?_eq_getElem h1, List.getElem?_eq_getElem h2]

omit [IsStrictOrderedRing K] in
/-- The pixels that count are exactly those with a star, each once. -/
theorem residMap_pixels (npix : ℕ) (stars : List (Star K)) :
    ((residMap npix stars).map Prod.fst).Pairwise (· < ·) ∧
      ∀ p, p ∈ (residMap npix stars).map Prod.fst ↔ p < npix ∧ ∃ s ∈ stars, s.pix = p := by
  have hfst : ∀ l : List ℕ, (l.filterMap (fun p =>
      (Area.median (((resid stars).filter (fun s => decide (s.1 = p))).map Prod.snd)).map (fun m => (p, m)))).map Prod.fst =
      l.filter (fun p => (Area.median (((resid stars).filter (fun s => decide (s.1 = p))).map Prod.snd)).isSome) := by
    intro l
    induction l with
    | nil => rfl
    | cons p l ih =>
      cases h : Area.median (((resid stars).filter (fun s => decide (s.1 = p))).map Prod.snd) with
      | none => simp [h, ih]
      | some m => simp [h, ih]
  have hres : (resid stars).map Prod.fst = stars.map Star.pix := by
    unfold resid
    cases h : Area.median (stars.map (fun s => s.mag - s.fit)) with
    | none =>
      have : ¬ (Area.median (stars.map (fun s => s.mag - s.fit))).isSome = true := by rw [h]; simp
      rw [median_isSome] at this
      have : stars = [] := by simpa using this
      simp [this]
    | some m => simp
  unfold residMap
  rw [hfst]
  constructor
  · exact List.Pairwise.sublist List.filter_sublist List.pairwise_lt_range
  · intro p
    rw [List.mem_filter, List.mem_range, median_isSome]
    apply and_congr_right
    intro _
    rw [ne_eq, List.map_eq_nil_iff, List.filter_eq_nil_iff]
    push Not
    constructor
    · rintro ⟨x, hx, e⟩
      have : x.1 ∈ stars.map Star.pix := by rw [← hres]; exact List.mem_map.mpr ⟨x, hx, rfl⟩
      obtain ⟨s, hs, h⟩ := List.mem_map.mp this
      exact ⟨s, hs, h.trans (by simpa using e)⟩
    · rintro ⟨s, hs, e⟩
      have : s.pix ∈ (resid stars).map Prod.fst := by rw [hres]; exact List.mem_map.mpr ⟨s, hs, rfl⟩
      obtain ⟨x, hx, h⟩ := List.mem_map.mp this
      exact ⟨x, hx, by simpa using h.trans e⟩

omit [IsStrictOrderedRing K] in
/-- The scatters, and the fraction over the whole sky: the fraction of the pixels whose value is more than the limit. -/
theorem uniformity_spec (g nsig : K) (high : ℕ → Bool) (map : List (ℕ × K)) (u : Uniformity K) (h : uniformityOf g nsig high map = some u) :
    ∃ s sh, mad g (map.map Prod.snd) = some s ∧ mad g ((map.filter (fun x => high x.1)).map Prod.snd) = some sh ∧
      u.scatterFull = 1000 * s ∧ u.scatterHigh = 1000 * sh ∧
      u.fracFull = ((map.filter (fun x => decide (nsig * s < |x.2|))).length : K) / map.length ∧
      u.fracHigh = ((map.filter (fun x => high x.1 && decide (nsig * sh < |x.2|))).length : K) / map.length := by
  unfold uniformityOf at h
  simp only at h
  split at h
  · rename_i s sh e1 e2
    simp only [Option.some.injEq] at h
    subst h
    refine ⟨s, sh, e1, e2, by ring, by ring, by rw [List.countP_eq_length_filter], ?_⟩
    simp only
    rw [List.countP_eq_length_filter, List.filter_filter]
    congr 3
    apply List.filter_congr
    intro x _
    exact Bool.and_comm _ _
  · simp at h

/-- The fraction over the whole sky is between zero and one, and the other is not more than the share of the sky at high latitudes. -/
theorem uniformity_fractions (g nsig : K) (high : ℕ → Bool) (map : List (ℕ × K)) (u : Uniformity K) (h : uniformityOf g nsig high map = some u) :
    0 ≤ u.fracFull ∧ u.fracFull ≤ 1 ∧ 0 ≤ u.fracHigh ∧ u.fracHigh ≤ ((map.filter (fun x => high x.1)).length : K) / map.length := by
  obtain ⟨s, sh, e1, _, _, _, h3, h4⟩ := uniformity_spec g nsig high map u h
  have hpos : 0 < map.length := by
    rw [List.length_pos_iff]
    rintro rfl
    simp [mad, Area.median, Np.sort] at e1
  have hp : (0 : K) < map.length := by exact_mod_cast hpos
  refine ⟨by rw [h3]; positivity, ?_, by rw [h4]; positivity, ?_⟩
  · rw [h3, div_le_one hp]
    exact_mod_cast List.length_filter_le _ _
  · rw [h4]
    apply div_le_div_of_nonneg_right _ hp.le
    have : (map.filter (fun x => high x.1 && decide (nsig * sh < |x.2|))).length ≤ (map.filter (fun x => high x.1)).length := by
      rw [← List.countP_eq_length_filter, ← List.countP_eq_length_filter]
      apply List.countP_mono_left
      intro x _ hx
      exact (Bool.and_eq_true _ _ ▸ hx).1
    exact_mod_cast this

end

/-- The fraction at high latitudes is not the fraction of the pixels at high latitudes: it is divided by the number of all pixels. -/
theorem uniformity_high_false :
    ¬ ∀ (g nsig : ℚ) (high : ℕ → Bool) (map : List (ℕ × ℚ)) (u : Uniformity ℚ) (s : ℚ), uniformityOf g nsig high map = some u →
      mad g ((map.filter (fun x => high x.1)).map Prod.snd) = some s →
      u.fracHigh = ((map.filter (fun x => high x.1 && decide (nsig * s < |x.2|))).length : ℚ) / (map.filter (fun x => high x.1)).length := by
  intro h
  have := h 1 4 (fun p => decide (p < 3)) [(0, 0), (1, 1), (2, 9), (3, 0), (4, 1), (5, 2)] ⟨1000, 1000, 1 / 6, 1 / 6⟩ 1 (by decide +kernel) (by decide +kernel)
  revert this
  decide +kernel

/-- The metric asks for columns with other names than those it reads: data with just the columns it asks for cannot be used. -/
theorem uniformity_columns_false : readAll uniformityCols uniformityReads = .error .value ∧
    ∀ cols : List String, readAll cols uniformityReads = .ok () ↔ ∀ c ∈ uniformityReads, c ∈ cols := by
  constructor
  · decide +kernel
  · intro cols
    unfold readAll
    split
    · rename_i h
      rw [List.all_eq_true] at h
      simp only [true_iff]
      intro c hc
      simpa using h c hc
    · rename_i h
      simp only [reduceCtorEq, false_iff]
      intro hc
      apply h
      rw [List.all_eq_true]
      intro c hm
      simpa using hc c hm

example : uniformity (1 : ℚ) 4 10 (fun p => decide (p < 3)) [⟨0, 20, 19⟩, ⟨2, 20, 18⟩, ⟨2, 21, 19⟩, ⟨4, 17, 14⟩, ⟨1, 30, 15⟩] =
    some ⟨1000, 1000, 1 / 4, 1 / 4⟩ := by decide +kernel

/-! ## C462: counts of galaxies without a slicer -/

private theorem pixBand_eq (b : String) : pixBand b = Dwarf.bandCorrection b := by
  unfold pixBand Dwarf.bandCorrection
  simp only
  split_ifs with h1 h2 h3 h4 h5 h6
  · subst h1; norm_num
  · subst h2; norm_num
  · subst h3; norm_num
  · subst h4; norm_num
  · subst h5; norm_num
  · subst h6; norm_num
  · split <;> first | rfl | (exfalso; simp_all)

private theorem foldl_sum (g : String × ℝ × ℝ → ℝ) : ∀ (l : List (String × ℝ × ℝ)) (a : ℝ), l.foldl (fun acc x => acc + g x) a = a + (l.map g).sum
  | [], a => by simp
  | x :: l, a => by simp [foldl_sum g l, add_assoc]

/-- **C462.** For every depth, band, redshift bin, choice of counts, integration and table of power laws, the function gives what the metric gives. -/
theorem pixCounts_eq (laws : List (String × ℝ × ℝ)) (norm : ℝ) (complete : ℝ → ℝ → ℝ) (quad : (ℝ → ℝ) → ℝ) (nside : ℕ) (band bin : String)
    (cfht normalized : Bool) (m5 : ℝ) :
    pixCounts laws norm complete quad nside band bin cfht normalized m5 = extCounts laws norm complete quad nside band bin cfht normalized m5 := by
  unfold pixCounts extCounts Dwarf.galTotal Dwarf.galCount
  simp only [pixBand_eq, foldl_sum, zero_add]
  by_cases h : m5 < 1
  · simp [h]
  · simp only [h, if_false]
    congr 1
    by_cases hb : (if bin ≠ "all" ∧ laws.lookup bin = none then "all" else bin) = "all"
    · by_cases hn : (normalized && !cfht) = true
      · simp [hb, hn]
      · simp [hb, hn]
    · by_cases hn : (normalized && !cfht) = true
      · simp only [hb, hn, if_false, if_true]
      · simp only [hb, hn, if_false, one_mul]
        simp

/-- The counts are not negative, and shallow places have none. -/
theorem pixCounts_nonneg (laws : List (String × ℝ × ℝ)) (norm : ℝ) (complete : ℝ → ℝ → ℝ) (quad : (ℝ → ℝ) → ℝ) (nside : ℕ) (band bin : String)
    (cfht normalized : Bool) (m5 : ℝ) :
    0 ≤ pixCounts laws norm complete quad nside band bin cfht normalized m5 ∧
      (m5 < 1 → pixCounts laws norm complete quad nside band bin cfht normalized m5 = 0) := by
  rw [pixCounts_eq]
  unfold extCounts Dwarf.galTotal
  constructor
  · split
    · exact le_rfl
    · apply mul_nonneg
      · by_cases h : (if (normalized && !cfht) = true then norm else 1) *
            (quad (fun m => (Dwarf.galCount laws cfht bin band (complete m m5) m).2)) < 1
        · rw [if_pos h]
        · rw [if_neg h]
          exact (zero_le_one).trans (not_lt.mp h)
      · positivity
  · intro h
    rw [if_pos h]

example : pixCounts [("a", 0, 2)] 3 (fun _ _ => 1) (fun f => f 0) 1 "i" "a" false true 25 = 300 * (41253 / 12) := by
  have e1 : ("a" = "all") = False := by decide
  have e2 : ([("a", ((0 : ℝ), (2 : ℝ)))] : List (String × ℝ × ℝ)).lookup "a" = some (0, 2) := rfl
  unfold pixCounts
  simp only [ne_eq, e1, not_false_eq_true, e2, reduceCtorEq, and_false, if_false]
  norm_num

/-! ## C463: galaxies in the extragalactic footprint -/

section
open Depth

/-- **C463 (part).** With the default bad value: the number of galaxies from the visits in the band where the place passes the cuts on dust,
coverage and depth, and the bad value elsewhere. -/
theorem depthLimited_partial (ax1 : String → ℝ) (f : String) (extCut depthCut : ℝ) (n : ℕ) (count : List Obs → ℝ) (ebv : ℝ) (vs : List Obs)
    (hd : -666 < depthCut) :
    let good := ebv ≤ extCut ∧ n ≤ (vs.map Obs.band).toFinset.card ∧ (∃ v ∈ vs, v.band = f) ∧
      depthCut ≤ corrected ax1 ebv (vs.filter (fun v => decide (v.band = f)))
    (good → depthLimited ax1 (some (-666)) f extCut depthCut n count ebv vs = some (count (vs.filter (fun v => decide (v.band = f))))) ∧
      (¬ good → depthLimited ax1 (some (-666)) f extCut depthCut n count ebv vs = some (-666)) := by
  intro good
  obtain ⟨h1, h2⟩ := withCuts_spec ax1 (some (-666)) f extCut depthCut n ebv vs hd
  constructor
  · intro hg
    have hne : vs.filter (fun v => decide (v.band = f)) ≠ [] := by
      obtain ⟨v, hv, e⟩ := hg.2.2.1
      exact List.ne_nil_of_mem (List.mem_filter.mpr ⟨hv, by simpa using e⟩)
    unfold depthLimited
    rw [h1 hg, if_neg]
    · exact if_neg hne
    · intro he
      have he' : corrected ax1 ebv (vs.filter (fun v => decide (v.band = f))) = -666 := he
      have := hg.2.2.2
      linarith
  · intro hg
    unfold depthLimited
    rw [h2 hg, if_pos]
    exact rfl

/-- With another bad value, places that fail the cuts are not recognised: they get a number of galaxies, or -666. -/
theorem depthLimited_other (ax1 : String → ℝ) (bad : ℝ) (f : String) (extCut depthCut : ℝ) (n : ℕ) (count : List Obs → ℝ) (ebv : ℝ) (vs : List Obs)
    (hb : bad ≠ -666) (hd : -666 < depthCut)
    (hg : ¬ (ebv ≤ extCut ∧ n ≤ (vs.map Obs.band).toFinset.card ∧ (∃ v ∈ vs, v.band = f) ∧
      depthCut ≤ corrected ax1 ebv (vs.filter (fun v => decide (v.band = f))))) :
    depthLimited ax1 (some bad) f extCut depthCut n count ebv vs =
      if ∃ v ∈ vs, v.band = f then some (count (vs.filter (fun v => decide (v.band = f)))) else some (-666) := by
  unfold depthLimited
  rw [(withCuts_spec ax1 (some (-666)) f extCut depthCut n ebv vs hd).2 hg, if_neg (show ¬ Val.eq (some (-666)) (some bad) from fun he => hb (show bad = -666 from Eq.symm he))]
  by_cases h : ∃ v ∈ vs, v.band = f
  · rw [if_pos h]
    obtain ⟨v, hv, e⟩ := h
    exact if_neg (List.ne_nil_of_mem (List.mem_filter.mpr ⟨hv, by simpa using e⟩))
  · rw [if_neg h]
    apply if_pos
    show vs.filter _ = []
    rw [List.filter_eq_nil_iff]
    intro v hv e
    exact h ⟨v, hv, by simpa using e⟩

/-- So the documentation, the bad value of the metric where the cuts fail, is false. -/
theorem depthLimited_false :
    ¬ ∀ (bad : ℝ) (f : String) (extCut : ℝ) (count : List Obs → ℝ) (ebv : ℝ) (vs : List Obs), extCut < ebv →
      depthLimited (fun _ => 0) (some bad) f extCut 26 6 count ebv vs = some bad := by
  intro h
  have h0 := h 0 "i" 0.2 (fun _ => 5) 1 [] (by norm_num)
  rw [depthLimited_other _ 0 _ _ _ _ _ _ _ (by norm_num) (by norm_num) (by norm_num)] at h0
  norm_num at h0

end

example : depthLimited (fun _ => 0) (some (-666)) "i" 0.2 26 6 (fun _ => 5) 1 [⟨"i", 28, 30, 1⟩] = some (-666) :=
  (depthLimited_partial _ _ _ _ _ _ _ _ (by norm_num)).2 (by norm_num)

/-! ## C464: normalization of spectra -/

/-- **C464.** Where the spectrum covers the wavelength, the factor is positive and the spectrum multiplied by it has the wanted magnitude. -/
theorem fluxNorm_spec (w zp magmatch : ℝ) (sed : List (ℝ × ℝ)) (lo hi : ℝ) (h1 : (sed.map Prod.fst).min? = some lo) (h2 : (sed.map Prod.fst).max? = some hi)
    (hw : lo ≤ w ∧ w ≤ hi) (hf : 0 < MoSum.interp sed w) :
    ∃ c, fluxNorm w zp sed magmatch = .ok c ∧ 0 < c ∧ imsimMag w zp (sed.map (fun p => (p.1, c * p.2))) = magmatch := by
  refine ⟨(10 : ℝ) ^ (-0.4 * (magmatch - imsimMag w zp sed)), ?_, by positivity, ?_⟩
  · unfold fluxNorm
    rw [h1, h2]
    simp only
    rw [if_neg (by rintro (h | h) <;> linarith [hw.1, hw.2])]
  · have hc : (0 : ℝ) < (10 : ℝ) ^ (-0.4 * (magmatch - imsimMag w zp sed)) := by positivity
    unfold imsimMag at hc ⊢
    rw [Crowd.interp_scale, Real.logb_mul hc.ne' hf.ne', Real.logb_rpow (by norm_num) (by norm_num)]
    ring

/-- In terms of flux: the spectrum multiplied by the factor has at the wavelength the flux `10 ^ (-0.4 (m + zp))`, as `-2.5 log₁₀ f - zp = m` asks. -/
theorem fluxNorm_flux (w zp magmatch : ℝ) (sed : List (ℝ × ℝ)) (lo hi : ℝ) (h1 : (sed.map Prod.fst).min? = some lo) (h2 : (sed.map Prod.fst).max? = some hi)
    (hw : lo ≤ w ∧ w ≤ hi) (hf : 0 < MoSum.interp sed w) :
    ∃ c, fluxNorm w zp sed magmatch = .ok c ∧ c * MoSum.interp sed w = (10 : ℝ) ^ (-0.4 * (magmatch + zp)) := by
  refine ⟨(10 : ℝ) ^ (-0.4 * (magmatch - imsimMag w zp sed)), ?_, ?_⟩
  · unfold fluxNorm
    rw [h1, h2]
    simp only
    rw [if_neg (by rintro (h | h) <;> linarith [hw.1, hw.2])]
  · have e : -0.4 * (magmatch - imsimMag w zp sed) = -0.4 * (magmatch + zp) + (- Real.logb 10 (MoSum.interp sed w)) := by
      unfold imsimMag
      ring
    rw [e, Real.rpow_add (by norm_num), Real.rpow_neg (by norm_num), Real.rpow_logb (by norm_num) (by norm_num) hf, mul_assoc,
      inv_mul_cancel₀ hf.ne', mul_one]

/-- The factor is the only one. -/
theorem fluxNorm_unique (w zp magmatch c : ℝ) (sed : List (ℝ × ℝ)) (lo hi : ℝ) (h1 : (sed.map Prod.fst).min? = some lo)
    (h2 : (sed.map Prod.fst).max? = some hi) (hw : lo ≤ w ∧ w ≤ hi) (hf : 0 < MoSum.interp sed w) (hc : 0 < c)
    (hm : imsimMag w zp (sed.map (fun p => (p.1, c * p.2))) = magmatch) : fluxNorm w zp sed magmatch = .ok c := by
  obtain ⟨d, e, hd, h⟩ := fluxNorm_spec w zp magmatch sed lo hi h1 h2 hw hf
  rw [e]
  rw [← hm] at h
  unfold imsimMag at h
  rw [Crowd.interp_scale, Crowd.interp_scale, Real.logb_mul hd.ne' hf.ne', Real.logb_mul hc.ne' hf.ne'] at h
  have : Real.logb 10 d = Real.logb 10 c := by linarith
  rw [Real.logb_injOn_pos (by norm_num) (Set.mem_Ioi.mpr hd) (Set.mem_Ioi.mpr hc) this]

/-- It is an error exactly where the spectrum does not cover the wavelength. -/
theorem fluxNorm_error (w zp magmatch : ℝ) (sed : List (ℝ × ℝ)) (hs : sed ≠ []) :
    fluxNorm w zp sed magmatch = .error .runtime ↔ (∀ p ∈ sed, w < p.1) ∨ (∀ p ∈ sed, p.1 < w) := by
  have hne : sed.map Prod.fst ≠ [] := by simpa using hs
  obtain ⟨lo, h1⟩ := Option.isSome_iff_exists.mp (List.isSome_min?_of_ne_nil hne)
  obtain ⟨hi, h2⟩ := Option.isSome_iff_exists.mp (List.isSome_max?_of_ne_nil hne)
  have l := List.min?_eq_some_iff.mp h1
  have r := List.max?_eq_some_iff.mp h2
  unfold fluxNorm
  rw [h1, h2]
  simp only
  constructor
  · intro h
    split at h
    · rename_i hc
      rcases hc with hc | hc
      · left
        intro p hp
        exact lt_of_lt_of_le hc (l.2 p.1 (List.mem_map.mpr ⟨p, hp, rfl⟩))
      · right
        intro p hp
        exact lt_of_le_of_lt (r.2 p.1 (List.mem_map.mpr ⟨p, hp, rfl⟩)) hc
    · simp at h
  · intro h
    rw [if_pos]
    rcases h with h | h
    · left
      obtain ⟨p, hp, e⟩ := List.mem_map.mp l.1
      exact e ▸ h p hp
    · right
      obtain ⟨p, hp, e⟩ := List.mem_map.mp r.1
      exact e ▸ h p hp

example : fluxNorm 500 0 [(400, 1), (600, 1)] 5 = .ok ((10 : ℝ) ^ (-2 : ℝ)) := by
  norm_num [fluxNorm, imsimMag, MoSum.interp, List.min?, List.max?]

/-! ## C465: names of columns -/

/-- **C465.** A dictionary is found for the six names, and one other spelling, in upper or lower case; anything else is an error. -/
theorem colMap_names (name : Str) :
    (∃ m, colMapDict (some name) = .ok m) ↔ name.map Char.toLower ∈ ["fbs", "consdb", "fbs_sim", "opsimfbs", "opsimv4", "opsimv3", "barebones"].map String.toList := by
  unfold colMapDict tableOf
  simp only [Option.getD_some, List.map_cons, List.map_nil, List.mem_cons, List.not_mem_nil, or_false]
  split_ifs <;> simp_all <;> tauto

theorem colMap_error (name : Option Str) : (∃ m, colMapDict name = .ok m) ∨ colMapDict name = .error .value := by
  unfold colMapDict
  cases tableOf _ <;> simp

theorem colMap_default : colMapDict none = colMapDict (some "fbs".toList) ∧ colMapDict none = colMapDict (some "FBS".toList) := by
  constructor <;> decide +kernel

theorem colMap_case (a b : Str) (h : a.map Char.toLower = b.map Char.toLower) : colMapDict (some a) = colMapDict (some b) := by
  unfold colMapDict
  simp [h]

private theorem getAll_ok (m : List (String × String)) : ∀ ks, (∀ k ∈ ks, (m.lookup k).isSome = true) →
    ∃ vs, getAll m ks = .ok vs ∧ ∀ v, v ∈ vs ↔ ∃ k ∈ ks, m.lookup k = some v
  | [], _ => ⟨[], rfl, by simp⟩
  | k :: ks, h => by
    obtain ⟨v, hv⟩ := Option.isSome_iff_exists.mp (h k (by simp))
    obtain ⟨vs, e, hm⟩ := getAll_ok m ks (fun x hx => h x (by simp [hx]))
    refine ⟨v :: vs, by simp [getAll, hv, e], ?_⟩
    intro x
    rw [List.mem_cons, hm]
    constructor
    · rintro (rfl | ⟨k', hk, e'⟩)
      · exact ⟨k, by simp, hv⟩
      · exact ⟨k', by simp [hk], e'⟩
    · rintro ⟨k', hk, e'⟩
      rcases List.mem_cons.mp hk with rfl | hk
      · left; rw [hv] at e'; exact (Option.some.inj e').symm
      · exact Or.inr ⟨k', hk, e'⟩

private theorem getAll_err (m : List (String × String)) : ∀ ks, (∃ k ∈ ks, m.lookup k = none) → getAll m ks = .error .key
  | [], h => by simp at h
  | k :: ks, h => by
    cases hv : m.lookup k with
    | none => simp [getAll, hv]
    | some v =>
      have : ∃ k ∈ ks, m.lookup k = none := by
        obtain ⟨k', hk, e⟩ := h
        rcases List.mem_cons.mp hk with rfl | hk
        · rw [hv] at e; simp at e
        · exact ⟨k', hk, e⟩
      simp [getAll, hv, getAll_err m ks this]

/-- The keys that `read_observations` needs. -/
def needed : List String := ["mjd", "night", "ra", "dec", "filter", "exptime", "seeingGeom", "fiveSigmaDepth", "seeingEff"]

private theorem lookup_append_other (m : List (String × String)) (k : String) (hk : k ≠ "rotSkyPos") :
    (m ++ [("rotSkyPos", "rotSkyPos")]).lookup k = m.lookup k := by
  induction m with
  | nil => simp [List.lookup, beq_eq_false_iff_ne.mpr hk]
  | cons p m ih =>
    obtain ⟨a, b⟩ := p
    simp only [List.cons_append, List.lookup_cons, ih]

private theorem lookup_append_self (m : List (String × String)) (h : m.lookup "rotSkyPos" = none) :
    (m ++ [("rotSkyPos", "rotSkyPos")]).lookup "rotSkyPos" = some "rotSkyPos" := by
  induction m with
  | nil => simp [List.lookup]
  | cons p m ih =>
    obtain ⟨a, b⟩ := p
    simp only [List.cons_append, List.lookup_cons] at h ⊢
    cases e : ("rotSkyPos" == a) with
    | true => rw [e] at h; simp at h
    | false => rw [e] at h; simp only at h ⊢; exact ih h

/-- With a dictionary that has the keys, the query asks once for each of their columns, the rotation, the further columns of the caller, the solar
elongation and the identifier of the visit, and for nothing else. -/
theorem readObs_cols (m : List (String × String)) (dbcols : Option (List String)) (h : ∀ k ∈ needed, (m.lookup k).isSome = true) :
    ∃ cols, (readObs m dbcols).2 = .ok cols ∧ cols.Nodup ∧
      ∀ c, c ∈ cols ↔ (∃ k ∈ needed, m.lookup k = some c) ∨ c = (m.lookup "rotSkyPos").getD "rotSkyPos" ∨ (∃ l, dbcols = some l ∧ c ∈ l) ∨
        c = "solarElong" ∨ c = "observationId" := by
  set m' := (readObs m dbcols).1 with hm'
  have hother : ∀ k, k ≠ "rotSkyPos" → m'.lookup k = m.lookup k := by
    intro k hk
    simp only [hm', readObs]
    split
    · rfl
    · exact lookup_append_other m k hk
  have hrot : m'.lookup "rotSkyPos" = some ((m.lookup "rotSkyPos").getD "rotSkyPos") := by
    simp only [hm', readObs]
    split
    · rename_i hs
      obtain ⟨v, hv⟩ := Option.isSome_iff_exists.mp hs
      simp [hv]
    · rename_i hs
      have hn := Option.not_isSome_iff_eq_none.mp hs
      rw [lookup_append_self m hn, hn]
      rfl
  have hk1 : ∀ k ∈ ["mjd", "night", "ra", "dec", "filter", "exptime", "seeingGeom", "fiveSigmaDepth"], (m'.lookup k).isSome = true := by
    intro k hk
    rw [hother k (by rintro rfl; revert hk; decide)]
    exact h k (by simp only [needed]; simp only [List.mem_cons] at hk ⊢; tauto)
  have hk2 : ∀ k ∈ ["rotSkyPos", "seeingEff"], (m'.lookup k).isSome = true := by
    intro k hk
    rcases List.mem_cons.mp hk with rfl | hk
    · rw [hrot]; rfl
    · have : k = "seeingEff" := by simpa using hk
      rw [this, hother _ (by decide)]
      exact h _ (by simp [needed])
  obtain ⟨v1, e1, c1⟩ := getAll_ok m' _ hk1
  obtain ⟨v2, e2, c2⟩ := getAll_ok m' _ hk2
  have hres : (readObs m dbcols).2 = .ok ((v1 ++ dbcols.getD []) ++ (v2 ++ ["solarElong", "observationId"])).dedup := by
    have hdef : (readObs m dbcols).2 = match getAll m' ["mjd", "night", "ra", "dec", "filter", "exptime", "seeingGeom", "fiveSigmaDepth"] with
      | .error e => .error e
      | .ok minCols =>
        match getAll m' ["rotSkyPos", "seeingEff"] with
        | .error e => .error e
        | .ok more => .ok ((minCols ++ dbcols.getD []) ++ (more ++ ["solarElong", "observationId"])).dedup := rfl
    rw [hdef, e1]
    simp only
    rw [e2]
  refine ⟨_, hres, List.nodup_dedup _, ?_⟩
  intro c
  rw [List.mem_dedup]
  simp only [List.mem_append, c1, c2]
  have hdb : c ∈ dbcols.getD [] ↔ ∃ l, dbcols = some l ∧ c ∈ l := by cases dbcols <;> simp
  rw [hdb]
  constructor
  · rintro ((⟨k, hk, e⟩ | hd) | (⟨k, hk, e⟩ | hc))
    · left
      refine ⟨k, by simp only [needed]; simp only [List.mem_cons] at hk ⊢; tauto, ?_⟩
      rw [← e, hother k (by rintro rfl; revert hk; decide)]
    · exact Or.inr (Or.inr (Or.inl hd))
    · rcases List.mem_cons.mp hk with rfl | hk
      · rw [hrot] at e
        exact Or.inr (Or.inl (Option.some.inj e).symm)
      · have hk' : k = "seeingEff" := by simpa using hk
        left
        refine ⟨k, by simp [needed, hk'], ?_⟩
        rw [← e, hother k (by rw [hk']; decide)]
    · simp only [List.mem_cons, List.not_mem_nil, or_false] at hc
      exact Or.inr (Or.inr (Or.inr hc))
  · rintro (⟨k, hk, e⟩ | rfl | hd | hc)
    · have hkr : k ≠ "rotSkyPos" := by rintro rfl; revert hk; decide
      by_cases hs : k = "seeingEff"
      · right; left
        exact ⟨k, by simp [hs], by rw [hother k hkr]; exact e⟩
      · left; left
        refine ⟨k, ?_, by rw [hother k hkr]; exact e⟩
        simp only [needed, List.mem_cons] at hk ⊢
        tauto
    · right; left
      exact ⟨"rotSkyPos", by simp, hrot⟩
    · exact Or.inl (Or.inr hd)
    · right; right
      simpa using hc

/-- It can be used with every built in dictionary. -/
theorem readObs_builtin (name : Option Str) (m : List (String × String)) (h : colMapDict name = .ok m) (dbcols : Option (List String)) :
    ∃ cols, (readObs m dbcols).2 = .ok cols := by
  have hk : ∀ k ∈ needed, (m.lookup k).isSome = true := by
    unfold colMapDict at h
    unfold tableOf at h
    split_ifs at h
    all_goals first
      | (have h' := Except.ok.inj h; subst h'; decide +kernel)
      | (simp only [reduceCtorEq] at h)
  obtain ⟨cols, e, _⟩ := readObs_cols m dbcols hk
  exact ⟨cols, e⟩

/-- A dictionary without one of the keys is an error. -/
theorem readObs_missing (m : List (String × String)) (dbcols : Option (List String)) (k : String) (hk : k ∈ needed) (h : m.lookup k = none) :
    (readObs m dbcols).2 = .error .key := by
  set m' := (readObs m dbcols).1 with hm'
  have hkr : k ≠ "rotSkyPos" := by rintro rfl; revert hk; decide
  have hother : m'.lookup k = none := by
    simp only [hm', readObs]
    split
    · exact h
    · rw [lookup_append_other m k hkr]; exact h
  have hdef : (readObs m dbcols).2 = match getAll m' ["mjd", "night", "ra", "dec", "filter", "exptime", "seeingGeom", "fiveSigmaDepth"] with
      | .error e => .error e
      | .ok minCols =>
        match getAll m' ["rotSkyPos", "seeingEff"] with
        | .error e => .error e
        | .ok more => .ok ((minCols ++ dbcols.getD []) ++ (more ++ ["solarElong", "observationId"])).dedup := rfl
  rw [hdef]
  by_cases hs : k = "seeingEff"
  · rw [getAll_err m' ["rotSkyPos", "seeingEff"] ⟨k, by simp [hs], hother⟩]
    by_cases he : ∃ k' ∈ ["mjd", "night", "ra", "dec", "filter", "exptime", "seeingGeom", "fiveSigmaDepth"], m'.lookup k' = none
    · rw [getAll_err m' _ he]
    · push Not at he
      obtain ⟨v, e, _⟩ := getAll_ok m' _ (fun k' hk' => Option.isSome_iff_ne_none.mpr (he k' hk'))
      rw [e]
  · rw [getAll_err m' _ ⟨k, by simp only [needed, List.mem_cons] at hk ⊢; tauto, hother⟩]

/-- The dictionary of the caller gets the rotation if it did not have it, also if the call fails; nothing else is changed. -/
theorem readObs_caller (m : List (String × String)) (dbcols : Option (List String)) :
    ((readObs m dbcols).1 = m ↔ (m.lookup "rotSkyPos").isSome = true) ∧
      (∀ k, k ≠ "rotSkyPos" → (readObs m dbcols).1.lookup k = m.lookup k) ∧
      (readObs m dbcols).1.lookup "rotSkyPos" = some ((m.lookup "rotSkyPos").getD "rotSkyPos") := by
  simp only [readObs]
  by_cases hs : (m.lookup "rotSkyPos").isSome = true
  · rw [if_pos hs]
    obtain ⟨v, hv⟩ := Option.isSome_iff_exists.mp hs
    simp [hv]
  · rw [if_neg hs]
    have hn := Option.not_isSome_iff_eq_none.mp hs
    refine ⟨by simp [hn], fun k hk => lookup_append_other m k hk, ?_⟩
    rw [lookup_append_self m hn, hn]
    rfl

example : (colMapDict (some "OpsimV4".toList)).toOption.bind (fun m => m.lookup "mjd") = some "observationStartMJD" := by decide +kernel
example : (readObs [("ra", "a")] none).2 = .error .key := by decide +kernel

/-! ## C466: numbers of stars -/

/-- **C466 (stated as it is).** `StarCountMetric.run` calls a module: there is no row of data for which it gives a number. -/
theorem starCount_type_error (count : ℝ → ℝ → ℝ) (row : List ℝ) (h : 4 ≤ row.length) : starCount starCounts count row = .error .type := by
  unfold starCount
  rw [List.getElem?_eq_getElem (show 3 < row.length by omega), List.getElem?_eq_getElem (show 2 < row.length by omega)]
  rfl

theorem starCount_never (count : ℝ → ℝ → ℝ) (row : List ℝ) (x : ℝ) : starCount starCounts count row ≠ .ok x := by
  intro h
  by_cases hl : 4 ≤ row.length
  · rw [starCount_type_error count row hl] at h; simp at h
  · unfold starCount at h
    rw [List.getElem?_eq_none (show row.length ≤ 3 by omega)] at h
    simp at h

/-- `StarCountMassMetric.run` gives the count at the position whose right ascension is the third column and whose declination is the fourth,
whatever those columns are. -/
theorem starCountMass_position (count : ℝ → ℝ → ℝ) (a b r d : ℝ) (rest : List ℝ) :
    starCountMass starCounts count (a :: b :: r :: d :: rest) = .ok (count (r * 180 / Real.pi) (d * 180 / Real.pi)) := by
  rfl

/-- So the order of the columns matters: the same visit with its columns exchanged is counted elsewhere. -/
theorem starCountMass_order_false :
    ¬ ∀ (count : ℝ → ℝ → ℝ) (row row' : List ℝ), row.Perm row' → starCountMass starCounts count row = starCountMass starCounts count row' := by
  intro h
  have := h (fun r _ => r) [0, 0, Real.pi, 0] [0, 0, 0, Real.pi] (by
    refine List.Perm.cons _ (List.Perm.cons _ ?_)
    exact List.Perm.swap _ _ _)
  rw [starCountMass_position, starCountMass_position] at this
  have hp := Real.pi_pos
  simp at this

example : starCountMass starCounts (fun r d => r + d) [1, 2, 0, 0, 3] = .ok 0 := by
  rw [starCountMass_position]; norm_num

end Verif.Small
