import Verif.Model.Depth
import Verif.Props.RealMetrics
import Verif.Lemmas.NumpyMore
import Mathlib.Algebra.BigOperators.Group.Finset.Basic
import Mathlib.Algebra.BigOperators.Group.Finset.Piecewise

/-!
# Depth after dust

Theorems C230 to C235.
-/

namespace Verif.Depth

open Real

/-! ## C230 -/

/-- The depth of the visits when each is corrected for the dust in its own band. -/
noncomputable def corrected (ax1 : String → ℝ) (ebv : ℝ) (vs : List Obs) : ℝ :=
  RealMetrics.coadd (vs.map (fun v => v.m5 - ax1 v.band * ebv))

theorem coadd_shift (a : ℝ) (l : List ℝ) (h : l ≠ []) : RealMetrics.coadd (l.map (fun m => m - a)) = RealMetrics.coadd l - a := by
  have h1 : l.map (fun m => m - a) ≠ [] := by simpa using h
  have hw : RealMetrics.weight (l.map (fun m => m - a)) = RealMetrics.weight l * (10 : ℝ) ^ (-(0.8 * a)) := by
    unfold RealMetrics.weight
    rw [List.map_map, ← List.sum_map_mul_right]
    congr 1
    apply List.map_congr_left
    intro m _
    simp only [Function.comp]
    rw [← rpow_add (by norm_num)]
    congr 1
    ring
  have e : (10 : ℝ) ^ (0.8 * RealMetrics.coadd (l.map (fun m => m - a))) = (10 : ℝ) ^ (0.8 * (RealMetrics.coadd l - a)) := by
    rw [RealMetrics.pow_coadd h1, hw, ← RealMetrics.pow_coadd h, ← rpow_add (by norm_num)]
    congr 1
    ring
  have h2 : 0.8 * RealMetrics.coadd (l.map (fun m => m - a)) = 0.8 * (RealMetrics.coadd l - a) := by
    apply le_antisymm
    · exact (rpow_le_rpow_left_iff (by norm_num : (1 : ℝ) < 10)).mp e.le
    · exact (rpow_le_rpow_left_iff (by norm_num : (1 : ℝ) < 10)).mp e.ge
  linarith

/-- What the class says: the depth is corrected for dust. -/
def Corrected : Prop := ∀ (ax1 : String → ℝ) (ebv : ℝ) (vs : List Obs), vs ≠ [] → exgal ax1 none ebv vs = some (corrected ax1 ebv vs)

/-- **C230.** For visits in one band the depth is that of visits that are corrected. Missing from
`Corrected`: visits in more than one band. -/
theorem exgal_partial (ax1 : String → ℝ) (bad : Val) (ebv : ℝ) (f : String) (vs : List Obs) (hne : vs ≠ []) (hf : ∀ v ∈ vs, v.band = f) :
    exgal ax1 bad ebv vs = some (corrected ax1 ebv vs) ∧ corrected ax1 ebv vs = RealMetrics.coadd (vs.map Obs.m5) - ax1 f * ebv := by
  have h1 : corrected ax1 ebv vs = RealMetrics.coadd (vs.map Obs.m5) - ax1 f * ebv := by
    unfold corrected
    rw [← coadd_shift _ _ (by simpa using hne), List.map_map]
    congr 1
    apply List.map_congr_left
    intro v hv
    simp only [Function.comp, hf v hv]
  refine ⟨?_, h1⟩
  rw [h1]
  match vs, hne, hf with
  | v :: vs, _, hf =>
    have hv := hf v (List.mem_cons_self ..)
    rw [← hv]
    rfl

/-- For two bands the result can depend on the order of the visits. -/
theorem exgal_order : ∃ (ax1 : String → ℝ) (ebv : ℝ) (vs vs' : List Obs), vs.Perm vs' ∧ exgal ax1 none ebv vs ≠ exgal ax1 none ebv vs' := by
  refine ⟨fun b => if b = "u" then 4 else 1, 1, [⟨"u", 24, 30, 1⟩, ⟨"r", 24, 30, 1⟩], [⟨"r", 24, 30, 1⟩, ⟨"u", 24, 30, 1⟩], List.Perm.swap _ _ _, ?_⟩
  intro h
  simp [exgal] at h

theorem exgal_false : ¬ Corrected := by
  intro h
  obtain ⟨ax1, ebv, vs, vs', hp, hn⟩ := exgal_order
  have hne : vs ≠ [] := by
    rintro rfl
    have := hp.nil_eq
    subst this
    exact hn rfl
  have hne' : vs' ≠ [] := by
    rintro rfl
    exact hne hp.eq_nil
  apply hn
  rw [h ax1 ebv vs hne, h ax1 ebv vs' hne']
  congr 1
  exact RealMetrics.coadd_perm (hp.map _)

/-- More visits in the band make it deeper; no visits give the bad value. -/
theorem exgal_more (ax1 : String → ℝ) (bad : Val) (ebv : ℝ) (f : String) (vs ws : List Obs) (hv : vs ≠ []) (hw : ws ≠ [])
    (hf : ∀ v ∈ vs, v.band = f) (hf' : ∀ v ∈ ws, v.band = f) :
    exgal ax1 bad ebv [] = bad ∧ ∃ a b, exgal ax1 bad ebv vs = some a ∧ exgal ax1 bad ebv (vs ++ ws) = some b ∧ a < b := by
  refine ⟨rfl, _, _, (exgal_partial ax1 bad ebv f vs hv hf).1, (exgal_partial ax1 bad ebv f (vs ++ ws) (by simp [hv]) ?_).1, ?_⟩
  · intro v h
    rcases List.mem_append.mp h with h | h
    · exact hf v h
    · exact hf' v h
  · unfold corrected
    rw [List.map_append]
    exact RealMetrics.coadd_more _ _ (by simpa using hv) (by simpa using hw)

theorem inBand_band (f : String) (vs : List Obs) : ∀ v ∈ inBand f vs, v.band = f := by
  intro v hv
  exact of_decide_eq_true (List.mem_filter.mp hv).2

theorem inBand_nil (f : String) (vs : List Obs) : inBand f vs = [] ↔ ∀ v ∈ vs, v.band ≠ f := by
  unfold inBand
  rw [List.filter_eq_nil_iff]
  simp

/-- The depth in a band of a list of visits. -/
theorem exgal_inBand (ax1 : String → ℝ) (bad : Val) (ebv : ℝ) (f : String) (vs : List Obs) :
    exgal ax1 bad ebv (inBand f vs) = if inBand f vs = [] then bad else some (corrected ax1 ebv (inBand f vs)) := by
  by_cases h : inBand f vs = []
  · rw [if_pos h, h]
    rfl
  · rw [if_neg h]
    exact (exgal_partial ax1 bad ebv f _ h (inBand_band f vs)).1

/-! ## C231 -/

/-- **C231.** The depth is given exactly in places with little dust, visits in enough filters, visits
in the band and enough depth, and is otherwise bad. -/
theorem withCuts_spec (ax1 : String → ℝ) (bad : Val) (f : String) (extCut depthCut : ℝ) (n : ℕ) (ebv : ℝ) (vs : List Obs) (hd : -666 < depthCut) :
    let good := ebv ≤ extCut ∧ n ≤ (vs.map Obs.band).toFinset.card ∧ (∃ v ∈ vs, v.band = f) ∧
      depthCut ≤ corrected ax1 ebv (vs.filter (fun v => decide (v.band = f)))
    (good → withCuts ax1 bad f extCut depthCut n ebv vs = some (corrected ax1 ebv (vs.filter (fun v => decide (v.band = f))))) ∧
      (¬ good → withCuts ax1 bad f extCut depthCut n ebv vs = bad) := by
  intro good
  have hcard : (vs.map Obs.band).toFinset.card = nFilters vs := List.card_toFinset _
  have hsel : vs.filter (fun v => decide (v.band = f)) = inBand f vs := rfl
  have hex : (∃ v ∈ vs, v.band = f) ↔ inBand f vs ≠ [] := by
    rw [Ne, inBand_nil]
    push Not
    rfl
  unfold withCuts
  constructor
  · rintro ⟨h1, h2, h3, h4⟩
    rw [hcard] at h2
    rw [hsel] at h4
    rw [if_neg (not_lt.mpr h1), if_neg (not_lt.mpr h2)]
    simp only
    rw [exgal_inBand, if_neg (hex.mp h3), if_neg, hsel]
    simp only [Val.lt]
    exact not_lt.mpr h4
  · intro hb
    by_cases h1 : ebv > extCut
    · rw [if_pos h1]
    rw [if_neg h1]
    by_cases h2 : nFilters vs < n
    · rw [if_pos h2]
    rw [if_neg h2]
    simp only
    rw [exgal_inBand]
    by_cases h3 : inBand f vs = []
    · rw [if_pos h3, if_pos]
      simp only [Val.lt]
      exact hd
    · rw [if_neg h3, if_pos]
      simp only [Val.lt]
      by_contra h4
      exact hb ⟨not_lt.mp h1, by rw [hcard]; exact not_lt.mp h2, hex.mpr h3, by rw [hsel]; exact not_lt.mp h4⟩

/-- The number of long visits in all bands, in places with little dust and enough depth in the one
band. -/
theorem nVisits_spec (ax1 : String → ℝ) (bad : Val) (f : String) (ebvLim depthCut minExp : ℝ) (ebv : ℝ) (vs : List Obs) (hd : -666 < depthCut) :
    let good := ebv ≤ ebvLim ∧ (∃ v ∈ vs, v.band = f) ∧ depthCut ≤ corrected ax1 ebv (vs.filter (fun v => decide (v.band = f)))
    (good → nVisits ax1 bad f ebvLim depthCut minExp ebv vs = some (vs.countP (fun v => decide (minExp < v.exp)) : ℝ)) ∧
      (¬ good → nVisits ax1 bad f ebvLim depthCut minExp ebv vs = bad) := by
  intro good
  have hsel : vs.filter (fun v => decide (v.band = f)) = inBand f vs := rfl
  have hex : (∃ v ∈ vs, v.band = f) ↔ inBand f vs ≠ [] := by
    rw [Ne, inBand_nil]
    push Not
    rfl
  unfold nVisits
  constructor
  · rintro ⟨h1, h3, h4⟩
    rw [hsel] at h4
    rw [if_neg (not_lt.mpr h1)]
    simp only
    rw [exgal_inBand, if_neg (hex.mp h3), if_neg, List.countP_eq_length_filter]
    simp only [Val.lt]
    exact not_lt.mpr h4
  · intro hb
    by_cases h1 : ebv > ebvLim
    · rw [if_pos h1]
    rw [if_neg h1]
    simp only
    rw [exgal_inBand]
    by_cases h3 : inBand f vs = []
    · rw [if_pos h3, if_pos]
      simp only [Val.lt]
      exact hd
    · rw [if_neg h3, if_pos]
      simp only [Val.lt]
      by_contra h4
      exact hb ⟨not_lt.mp h1, hex.mpr h3, by rw [hsel]; exact not_lt.mp h4⟩

theorem rizTime_eq (bad : Val) (det minBands : List String) (ebvLim minExp ebv : ℝ) (vs : List Obs) :
    rizTime bad det minBands ebvLim minExp ebv vs = if ebv > ebvLim then bad
      else some (vs.map (fun v => if minExp < v.exp ∧ v.band ∈ det then v.exp else 0)).sum := by
  unfold rizTime
  by_cases h : ebv > ebvLim
  · rw [if_pos h, if_pos h]
  · rw [if_neg h, if_neg h]
    congr 1
    clear h
    induction vs with
    | nil => rfl
    | cons v vs ih =>
      rw [List.map_cons, List.sum_cons, ← ih]
      by_cases hv : minExp < v.exp ∧ v.band ∈ det
      · rw [List.filter_cons_of_pos (by simp [hv.1, hv.2]), if_pos hv, List.map_cons, List.sum_cons]
      · rw [List.filter_cons_of_neg, if_neg hv, zero_add]
        intro h
        rw [Bool.and_eq_true, decide_eq_true_iff, decide_eq_true_iff] at h
        exact hv h

/-- The exposure time in the detection bands of visits that are longer than the limit, in places
with little dust. -/
theorem rizTime_spec (bad : Val) (det minBands : List String) (ebvLim minExp ebv : ℝ) (vs : List Obs) :
    (ebv ≤ ebvLim → rizTime bad det minBands ebvLim minExp ebv vs =
      some (vs.map (fun v => if minExp < v.exp ∧ v.band ∈ det then v.exp else 0)).sum) ∧
      (ebvLim < ebv → rizTime bad det minBands ebvLim minExp ebv vs = bad) := by
  rw [rizTime_eq]
  exact ⟨fun h => if_neg (not_lt.mpr h), fun h => if_pos h⟩

/-- What the class says: areas where not all bands are present are excluded. -/
def MinBands : Prop := ∀ (bad : Val) (det minBands : List String) (ebvLim minExp ebv : ℝ) (vs : List Obs),
  (∃ b ∈ minBands, ∀ v ∈ vs, v.band ≠ b) → rizTime bad det minBands ebvLim minExp ebv vs = bad

/-- They are not: the bands have no effect at all. -/
theorem min_bands_false : ¬ MinBands ∧ ∀ (bad : Val) (det b b' : List String) (ebvLim minExp ebv : ℝ) (vs : List Obs),
    rizTime bad det b ebvLim minExp ebv vs = rizTime bad det b' ebvLim minExp ebv vs := by
  constructor
  · intro h
    have := h none ["r"] ["u"] 1 15 0 [⟨"r", 24, 30, 1⟩] ⟨"u", by simp, by simp⟩
    rw [rizTime_eq] at this
    norm_num at this
    cases this
  · intro bad det b b' ebvLim minExp ebv vs
    rfl

/-- What the class says: the shortest visit that counts. -/
def MinTime : Prop := ∀ (bad : Val) (det minBands : List String) (ebvLim minExp ebv : ℝ) (vs : List Obs), ebv ≤ ebvLim →
  rizTime bad det minBands ebvLim minExp ebv vs = some (vs.map (fun v => if minExp ≤ v.exp ∧ v.band ∈ det then v.exp else 0)).sum

/-- A visit of the shortest time does not count. -/
theorem min_time_false : ¬ MinTime := by
  intro h
  have := h none ["r"] ["u"] 1 15 0 [⟨"r", 24, 15, 1⟩] (by norm_num)
  rw [rizTime_eq] at this
  norm_num at this

/-! ## C232 -/

theorem subMeans_error (means : String → Option ℝ) (bs : List String) (ds : List Val) (i : ℕ) (hi : i ≠ 0) (h : ∃ b ∈ bs, (means b).isSome) :
    subMeans means i bs ds = .error "IndexError" := by
  induction bs generalizing i ds with
  | nil => simp at h
  | cons b bs ih =>
    unfold subMeans
    cases hm : means b with
    | none =>
      simp only
      apply ih _ _ (by omega)
      obtain ⟨c, hc, hs⟩ := h
      rcases List.mem_cons.mp hc with rfl | hc
      · rw [hm] at hs
        cases hs
      · exact ⟨c, hc, hs⟩
    | some m =>
      simp only
      rw [if_neg hi]

theorem subMeans_none (means : String → Option ℝ) (bs : List String) (ds : List Val) (i : ℕ) (h : ∀ b ∈ bs, means b = none) :
    subMeans means i bs ds = .val ds := by
  induction bs generalizing i with
  | nil => rfl
  | cons b bs ih =>
    unfold subMeans
    rw [h b (List.mem_cons_self ..)]
    exact ih _ (fun c hc => h c (List.mem_cons_of_mem _ hc))

/-- The linear combination of the docstring, for bands that all have visits. -/
noncomputable def combination (ax1 : String → ℝ) (bands : List (String × ℝ)) (means : String → ℝ) (ebv : ℝ) (vs : List Obs) : ℝ :=
  (bands.map (fun b => b.2 * (corrected ax1 ebv (inBand b.1 vs) - means b.1))).sum

/-- What the class says, for default means. -/
def Combination : Prop := ∀ (p : Lin) (bands : List (String × ℝ)) (cst ebv : ℝ) (vs : List Obs), p.means = zeroMeans → p.bad = none →
  (∀ f, p.lo f = none ∧ p.hi f = none) → bands ≠ [] → (∀ b ∈ bands, b.1 ∈ lsst ∧ inBand b.1 vs ≠ []) → ebv ≤ p.extCut → p.n ≤ nFilters vs →
  single p bands cst ebv vs = .val (p.post (some (cst + combination p.ax1 bands (fun _ => 0) ebv vs)))

/-- **C232.** With the default means every model with two bands or more ends in an exception, for all
visits that pass the first two cuts. -/
theorem single_index (p : Lin) (bands : List (String × ℝ)) (cst ebv : ℝ) (vs : List Obs) (hm : p.means = zeroMeans) (h2 : 2 ≤ bands.length)
    (hb : ∀ b ∈ bands, b.1 ∈ lsst) (he : ebv ≤ p.extCut) (hn : p.n ≤ nFilters vs) : single p bands cst ebv vs = .error "IndexError" := by
  match bands, h2, hb with
  | b :: c :: rest, _, hb =>
    have hz : ∀ x, x ∈ lsst → zeroMeans x = some 0 := fun x hx => if_pos hx
    have hs : subMeans p.means 0 ((b :: c :: rest).map Prod.fst) ((b :: c :: rest).map (fun b => exgal p.ax1 p.bad ebv (inBand b.1 vs))) = .error "IndexError" := by
      rw [List.map_cons, hm]
      unfold subMeans
      rw [hz _ (hb b (List.mem_cons_self ..))]
      simp only
      rw [if_pos trivial]
      apply subMeans_error _ _ _ _ (by omega)
      refine ⟨c.1, by simp, ?_⟩
      rw [hz _ (hb c (by simp))]
      rfl
    unfold single
    rw [if_neg (not_lt.mpr he), if_neg (not_lt.mpr hn), if_neg (by simp), hs]

theorem single_false : ¬ Combination := by
  intro h
  have h1 := h ⟨fun _ => 0, none, 1, 0, fun _ => none, fun _ => none, zeroMeans, id⟩ [("u", 1), ("g", 1)] 0 0 [⟨"u", 24, 30, 1⟩, ⟨"g", 24, 30, 1⟩]
    rfl rfl (fun _ => ⟨rfl, rfl⟩) (by simp) (by simp [lsst, inBand]) (by norm_num) (by simp)
  rw [single_index _ _ _ _ _ rfl (by simp) (by simp [lsst]) (by norm_num) (by simp)] at h1
  cases h1

theorem dot_some (l : List (String × ℝ)) (x : String × ℝ → ℝ) :
    dot ((l.map Prod.snd).zip (l.map (fun b => some (x b)))) = some (l.map (fun b => b.2 * x b)).sum := by
  induction l with
  | nil => rfl
  | cons b l ih =>
    simp only [List.map_cons, List.zip_cons_cons, List.sum_cons]
    unfold dot
    rw [ih]

theorem dot_none (l : List (ℝ × Val)) (h : ∃ d ∈ l, d.2 = none) : dot l = none := by
  induction l with
  | nil => simp at h
  | cons b l ih =>
    obtain ⟨c, d⟩ := b
    unfold dot
    obtain ⟨e, he, hn⟩ := h
    rcases List.mem_cons.mp he with rfl | he
    · simp only at hn
      subst hn
      rfl
    · rw [ih ⟨e, he, hn⟩]
      cases d <;> rfl

theorem cuts_none (lo hi means : String → Option ℝ) (h : ∀ f, lo f = none ∧ hi f = none) (l : List (String × Val)) : cuts lo hi means l = .val false := by
  induction l with
  | nil => rfl
  | cons b l ih =>
    obtain ⟨f, d⟩ := b
    unfold cuts
    rw [(h f).1, (h f).2]
    exact ih

theorem not_eq_nan (ds : List Val) : ¬ ∃ d ∈ ds, Val.eq d none := by
  rintro ⟨d, _, h⟩
  cases d <;> exact h

/-- Without means and cuts the result is the linear combination, NaN (before the post processing) if a
band is missing. Missing from `Combination`: the default means. -/
theorem single_partial (p : Lin) (bands : List (String × ℝ)) (cst ebv : ℝ) (vs : List Obs) (hm : ∀ f, p.means f = none) (hbad : p.bad = none)
    (hc : ∀ f, p.lo f = none ∧ p.hi f = none) (hne : bands ≠ []) (he : ebv ≤ p.extCut) (hn : p.n ≤ nFilters vs) :
    ((∀ b ∈ bands, inBand b.1 vs ≠ []) → single p bands cst ebv vs = .val (p.post (some (cst + combination p.ax1 bands (fun _ => 0) ebv vs)))) ∧
      ((∃ b ∈ bands, inBand b.1 vs = []) → single p bands cst ebv vs = .val (p.post none)) := by
  have hrun : single p bands cst ebv vs = .val (p.post ((dot ((bands.map Prod.snd).zip (bands.map (fun b => exgal p.ax1 none ebv (inBand b.1 vs))))).map (cst + ·))) := by
    unfold single
    rw [if_neg (not_lt.mpr he), if_neg (not_lt.mpr hn), if_neg hne, subMeans_none _ _ _ _ (fun b _ => hm b)]
    simp only
    rw [hbad, if_neg (not_eq_nan _), cuts_none _ _ _ hc]
  constructor
  · intro h
    have e : bands.map (fun b => exgal p.ax1 none ebv (inBand b.1 vs)) = bands.map (fun b => some (corrected p.ax1 ebv (inBand b.1 vs))) := by
      apply List.map_congr_left
      intro b hb
      rw [exgal_inBand, if_neg (h b hb)]
    rw [hrun, e, dot_some]
    unfold combination
    simp only [Option.map_some, sub_zero]
  · rintro ⟨b, hb, h⟩
    rw [hrun, dot_none]
    · rfl
    · have hz : (bands.map Prod.snd).zip (bands.map (fun b => exgal p.ax1 none ebv (inBand b.1 vs))) = bands.map (fun b => (b.2, exgal p.ax1 none ebv (inBand b.1 vs))) := by
        rw [List.zip_map']
      rw [hz]
      refine ⟨_, List.mem_map_of_mem hb, ?_⟩
      simp only
      rw [exgal_inBand, if_pos h]

/-- For one band with a mean, the cuts apply to the depth and the mean is subtracted. -/
theorem single_one (p : Lin) (f : String) (c m cst ebv : ℝ) (vs : List Obs) (hm : p.means f = some m) (hbad : p.bad = none)
    (he : ebv ≤ p.extCut) (hn : p.n ≤ nFilters vs) (hv : inBand f vs ≠ []) :
    let d := corrected p.ax1 ebv (inBand f vs)
    single p [(f, c)] cst ebv vs =
      if (∃ a, p.lo f = some a ∧ d < a) ∨ (∃ a, p.hi f = some a ∧ a < d) then .val none else .val (p.post (some (cst + c * (d - m)))) := by
  intro d
  have hs : subMeans p.means 0 ([(f, c)].map Prod.fst) ([(f, c)].map (fun b => exgal p.ax1 p.bad ebv (inBand b.1 vs))) = .val [some (d - m)] := by
    simp only [List.map_cons, List.map_nil]
    unfold subMeans
    rw [hm]
    simp only
    rw [if_pos trivial, exgal_inBand, if_neg hv]
    rfl
  have hl : ∀ a : ℝ, Val.lt (some (d - m)) (some (a - m)) ↔ d < a := by
    intro a
    simp only [Val.lt]
    constructor <;> intro h <;> linarith
  have hh : ∀ a : ℝ, Val.lt (some (a - m)) (some (d - m)) ↔ a < d := by
    intro a
    simp only [Val.lt]
    constructor <;> intro h <;> linarith
  have hcut : cuts p.lo p.hi p.means [(f, some (d - m))] = .val (decide ((∃ a, p.lo f = some a ∧ d < a) ∨ (∃ a, p.hi f = some a ∧ a < d))) := by
    unfold cuts
    rw [hm]
    cases hlo : p.lo f with
    | none =>
      cases hhi : p.hi f with
      | none => simp [cuts]
      | some b =>
        simp only [hh]
        by_cases h : b < d
        · simp [h]
        · simp [h, cuts]
    | some a =>
      simp only [hl]
      by_cases h : d < a
      · simp [h]
      · cases hhi : p.hi f with
        | none => simp [h, cuts]
        | some b =>
          simp only [hh]
          by_cases h' : b < d
          · simp [h, h']
          · simp [h, h', cuts]
  unfold single
  rw [if_neg (not_lt.mpr he), if_neg (not_lt.mpr hn), if_neg (by simp), hs]
  simp only
  rw [hbad, if_neg (not_eq_nan _)]
  simp only [List.map_cons, List.map_nil, List.zip_cons_cons, List.zip_nil_right]
  rw [hcut]
  by_cases h : (∃ a, p.lo f = some a ∧ d < a) ∨ (∃ a, p.hi f = some a ∧ a < d)
  · rw [if_pos h, decide_eq_true h]
  · rw [if_neg h, decide_eq_false h]
    simp [dot]

/-- A faint limit without a mean depth ends in an exception, if the band is the first. -/
theorem single_key (p : Lin) (f : String) (c cst ebv a : ℝ) (rest : List (String × ℝ)) (vs : List Obs) (hbad : p.bad = none) (he : ebv ≤ p.extCut)
    (hn : p.n ≤ nFilters vs) (hm : ∀ g, p.means g = none) (hlo : p.lo f = some a) : single p ((f, c) :: rest) cst ebv vs = .error "KeyError" := by
  unfold single
  rw [if_neg (not_lt.mpr he), if_neg (not_lt.mpr hn), if_neg (by simp), subMeans_none _ _ _ _ (fun b _ => hm b)]
  simp only
  rw [hbad, if_neg (not_eq_nan _)]
  simp only [List.map_cons, List.zip_cons_cons]
  unfold cuts
  rw [hlo, hm]

/-- What the class says of the bad value: a band without visits gives it. -/
def MissingIsBad : Prop := ∀ (p : Lin) (f : String) (c cst ebv : ℝ) (vs : List Obs), (∀ x, p.post x = x) → inBand f vs = [] → ∀ r,
  single p [(f, c)] cst ebv vs = .val r → r = p.bad

/-- For a bad value of -666 and a mean depth it does not: the depth is taken to be -666 less the mean. -/
theorem single_bad_false : ¬ MissingIsBad ∧
    single ⟨fun _ => 0, some (-666), 1, 1, fun _ => none, fun _ => none, fun f => if f = "i" then some 26 else none, id⟩ [("i", 1)] 0 0 [⟨"r", 24, 30, 1⟩] =
      .val (some (-692)) := by
  have h1 : single ⟨fun _ => 0, some (-666), 1, 1, fun _ => none, fun _ => none, fun f => if f = "i" then some 26 else none, id⟩ [("i", 1)] 0 0
      [⟨"r", 24, 30, 1⟩] = .val (some (-692)) := by
    unfold single
    rw [if_neg (by norm_num), if_neg (by simp [nFilters]), if_neg (by simp)]
    simp only [List.map_cons, List.map_nil, subMeans]
    have hin : inBand "i" [⟨"r", 24, 30, 1⟩] = [] := by simp [inBand]
    rw [hin]
    simp only [exgal, List.map_cons, List.map_nil, Option.map_some, if_true]
    rw [if_neg (by norm_num [Val.eq]), cuts_none _ _ _ (fun _ => ⟨rfl, rfl⟩)]
    norm_num [dot]
  refine ⟨?_, h1⟩
  intro h
  have := h _ _ _ _ _ _ (fun _ => rfl) (by simp [inBand]) _ h1
  simp at this

/-! ## C233 -/

/-- The depth in a band, if there are visits and it is within the cuts. -/
noncomputable def goodDepth (p : Lin) (ebv : ℝ) (vs : List Obs) (f : String) (x : ℝ) : Prop :=
  (∃ v ∈ vs, v.band = f) ∧ x = corrected p.ax1 ebv (vs.filter (fun v => decide (v.band = f))) ∧
    (∀ a, p.lo f = some a → a ≤ x) ∧ (∀ a, p.hi f = some a → x ≤ a)

theorem cutLow_some (p : Lin) (f : String) (hbad : p.bad = none) (d : Val) (x : ℝ) :
    cutLow p f d = some x ↔ d = some x ∧ ∀ a, p.lo f = some a → a ≤ x := by
  unfold cutLow
  rw [hbad]
  cases hlo : p.lo f with
  | none => simp
  | some a =>
    simp only [Option.some.injEq, forall_eq']
    by_cases h : d.lt (some a)
    · rw [if_pos h]
      constructor
      · intro h1
        cases h1
      · rintro ⟨rfl, h1⟩
        exact absurd h1 (not_le.mpr h)
    · rw [if_neg h]
      constructor
      · rintro rfl
        exact ⟨rfl, not_lt.mp h⟩
      · exact fun h1 => h1.1

theorem cutHigh_some (p : Lin) (f : String) (hbad : p.bad = none) (d : Val) (x : ℝ) :
    cutHigh p f d = some x ↔ d = some x ∧ ∀ a, p.hi f = some a → x ≤ a := by
  unfold cutHigh
  rw [hbad]
  cases hlo : p.hi f with
  | none => simp
  | some a =>
    simp only [Option.some.injEq, forall_eq']
    by_cases h : Val.lt (some a) d
    · rw [if_pos h]
      constructor
      · intro h1
        cases h1
      · rintro ⟨rfl, h1⟩
        exact absurd h1 (not_le.mpr h)
    · rw [if_neg h]
      constructor
      · rintro rfl
        exact ⟨rfl, not_lt.mp h⟩
      · exact fun h1 => h1.1

theorem cutDepth_spec (p : Lin) (ebv : ℝ) (vs : List Obs) (f : String) (hbad : p.bad = none) (x : ℝ) :
    cutDepth p f (exgal p.ax1 p.bad ebv (inBand f vs)) = some x ↔ goodDepth p ebv vs f x := by
  have hex : (∃ v ∈ vs, v.band = f) ↔ inBand f vs ≠ [] := by
    rw [Ne, inBand_nil]
    push Not
    rfl
  have hsel : vs.filter (fun v => decide (v.band = f)) = inBand f vs := rfl
  unfold goodDepth cutDepth
  rw [hex, hsel, cutHigh_some p f hbad, cutLow_some p f hbad, exgal_inBand, hbad]
  by_cases h : inBand f vs = []
  · rw [if_pos h]
    simp [h]
  · rw [if_neg h]
    constructor
    · rintro ⟨⟨h1, h2⟩, h3⟩
      rw [Option.some.injEq] at h1
      exact ⟨h, h1.symm, h2, h3⟩
    · rintro ⟨_, h1, h2, h3⟩
      exact ⟨⟨congrArg some h1.symm, h2⟩, h3⟩

/-- The linear combination of six depths. -/
noncomputable def sixBands (model : String → Option ℝ) (x : String → ℝ) : ℝ :=
  (model "cst").getD 0 + ((model "u").getD 0 * x "u" + (model "g").getD 0 * x "g" + (model "r").getD 0 * x "r" +
    (model "i").getD 0 * x "i" + (model "z").getD 0 * x "z" + (model "y").getD 0 * x "y")

theorem dot_six (c x : String → ℝ) : dot ((lsst.map c).zip (lsst.map (fun f => some (x f)))) =
    some (c "u" * x "u" + c "g" * x "g" + c "r" * x "r" + c "i" * x "i" + c "z" * x "z" + c "y" * x "y") := by
  simp only [lsst, List.map_cons, List.map_nil, List.zip_cons_cons, List.zip_nil_right, dot]
  congr 1
  ring

/-- **C233.** Without means, and with NaN as the bad value, each entry is the linear combination of the
six depths, NaN (before the post processing) if one is missing or cut. -/
theorem nested_spec (p : Lin) (models : List (String → Option ℝ)) (ebv : ℝ) (vs : List Obs) (hbad : p.bad = none) (hm : ∀ f, p.means f = none) :
    (p.extCut < ebv ∨ (vs.map Obs.band).toFinset.card < p.n → nested p models ebv vs = .val (models.map (fun _ => none))) ∧
    (ebv ≤ p.extCut → p.n ≤ (vs.map Obs.band).toFinset.card →
      (∀ x : String → ℝ, (∀ f ∈ lsst, goodDepth p ebv vs f (x f)) → nested p models ebv vs = .val (models.map (fun m => p.post (some (sixBands m x))))) ∧
      ((∃ f ∈ lsst, ∀ x, ¬ goodDepth p ebv vs f x) → nested p models ebv vs = .val (models.map (fun _ => p.post none)))) := by
  have hcard : (vs.map Obs.band).toFinset.card = nFilters vs := List.card_toFinset _
  have hbins : ∀ g : (String → Option ℝ) → Val, (∀ m, nestedBin p m ebv vs = .val (g m)) → bins p ebv vs models = .val (models.map g) := by
    intro g hg
    induction models with
    | nil => rfl
    | cons m ms ih =>
      unfold bins
      rw [hg m, ih]
      rfl
  have hbin : ∀ m, nestedBin p m ebv vs = .val (p.post ((dot ((lsst.map (fun f => (m f).getD 0)).zip
      (lsst.map (fun f => cutDepth p f (exgal p.ax1 p.bad ebv (inBand f vs)))))).map ((m "cst").getD 0 + ·))) := by
    intro m
    unfold nestedBin
    simp only
    rw [subMeans_none _ _ _ _ (fun b _ => hm b)]
  rw [hcard]
  constructor
  · intro h
    unfold nested
    rw [hbad]
    by_cases h1 : ebv > p.extCut
    · rw [if_pos h1]
    · rw [if_neg h1, if_pos (h.resolve_left h1)]
  · intro h1 h2
    have hrun : nested p models ebv vs = bins p ebv vs models := by
      unfold nested
      rw [if_neg (not_lt.mpr h1), if_neg (not_lt.mpr h2)]
    rw [hrun]
    constructor
    · intro x hx
      apply hbins
      intro m
      rw [hbin]
      have e : lsst.map (fun f => cutDepth p f (exgal p.ax1 p.bad ebv (inBand f vs))) = lsst.map (fun f => some (x f)) := by
        apply List.map_congr_left
        intro f hf
        exact (cutDepth_spec p ebv vs f hbad (x f)).mpr (hx f hf)
      rw [e, dot_six]
      rfl
    · rintro ⟨f, hf, hx⟩
      apply hbins
      intro m
      rw [hbin, dot_none]
      · rfl
      · have hz : ((lsst.map (fun f => (m f).getD 0)).zip (lsst.map (fun f => cutDepth p f (exgal p.ax1 p.bad ebv (inBand f vs))))) =
            lsst.map (fun f => ((m f).getD 0, cutDepth p f (exgal p.ax1 p.bad ebv (inBand f vs)))) := by
          simp [lsst]
        rw [hz]
        refine ⟨_, List.mem_map_of_mem hf, ?_⟩
        simp only
        cases hc : cutDepth p f (exgal p.ax1 p.bad ebv (inBand f vs)) with
        | none => rfl
        | some y => exact absurd ((cutDepth_spec p ebv vs f hbad y).mp hc) (hx y)

/-- A mean for a band other than u ends in an exception, for every model. -/
theorem nested_index (p : Lin) (m : String → Option ℝ) (models : List (String → Option ℝ)) (ebv : ℝ) (vs : List Obs) (f : String) (hf : f ∈ ["g", "r", "i", "z", "y"])
    (hm : (p.means f).isSome) (he : ebv ≤ p.extCut) (hn : p.n ≤ (vs.map Obs.band).toFinset.card) :
    nested p (m :: models) ebv vs = .error "IndexError" := by
  have hcard : (vs.map Obs.band).toFinset.card = nFilters vs := List.card_toFinset _
  rw [hcard] at hn
  have hs : ∀ ds, subMeans p.means 0 lsst ds = .error "IndexError" := by
    intro ds
    show subMeans p.means 0 ("u" :: ["g", "r", "i", "z", "y"]) ds = _
    unfold subMeans
    cases p.means "u" with
    | none => exact subMeans_error _ _ _ _ (by omega) ⟨f, hf, hm⟩
    | some m =>
      simp only
      rw [if_pos trivial]
      exact subMeans_error _ _ _ _ (by omega) ⟨f, hf, hm⟩
  unfold nested
  rw [if_neg (not_lt.mpr he), if_neg (not_lt.mpr hn)]
  unfold bins nestedBin
  simp only
  rw [hs]

/-- A mean for u alone is subtracted in all bands. -/
theorem nested_u (p : Lin) (model : String → Option ℝ) (ebv mean : ℝ) (vs : List Obs) (x : String → ℝ) (hbad : p.bad = none)
    (hm : ∀ f, p.means f = if f = "u" then some mean else none) (he : ebv ≤ p.extCut) (hn : p.n ≤ (vs.map Obs.band).toFinset.card)
    (hx : ∀ f ∈ lsst, goodDepth p ebv vs f (x f)) :
    nested p [model] ebv vs = .val [p.post (some (sixBands model (fun f => x f - mean)))] := by
  have hcard : (vs.map Obs.band).toFinset.card = nFilters vs := List.card_toFinset _
  rw [hcard] at hn
  have e : lsst.map (fun f => cutDepth p f (exgal p.ax1 p.bad ebv (inBand f vs))) = lsst.map (fun f => some (x f)) := by
    apply List.map_congr_left
    intro f hf
    exact (cutDepth_spec p ebv vs f hbad (x f)).mpr (hx f hf)
  have hs : subMeans p.means 0 lsst (lsst.map (fun f => some (x f))) = .val (lsst.map (fun f => some (x f - mean))) := by
    have hu : p.means "u" = some mean := by rw [hm]; rfl
    have hl : lsst = "u" :: ["g", "r", "i", "z", "y"] := rfl
    conv_lhs => rw [hl]
    unfold subMeans
    rw [hu]
    simp only
    rw [if_pos trivial, subMeans_none]
    · simp [lsst]
    · intro b hb
      rw [hm, if_neg]
      rintro rfl
      simp at hb
  unfold nested
  rw [if_neg (not_lt.mpr he), if_neg (not_lt.mpr hn)]
  unfold bins nestedBin
  simp only
  rw [e, hs]
  simp only
  rw [dot_six]
  rfl

/-- What the class says of means: each band has its own. -/
def MeansPerBand : Prop := ∀ (p : Lin) (model : String → Option ℝ) (ebv : ℝ) (vs : List Obs) (x mu : String → ℝ), p.bad = none →
  (∀ f, p.means f = none ∧ mu f = 0 ∨ p.means f = some (mu f)) → ebv ≤ p.extCut → p.n ≤ (vs.map Obs.band).toFinset.card →
  (∀ f ∈ lsst, goodDepth p ebv vs f (x f)) → nested p [model] ebv vs = .val [p.post (some (sixBands model (fun f => x f - mu f)))]

/-- One visit in each band. -/
noncomputable def sixVisits : List Obs := lsst.map (fun f => ⟨f, 24, 30, 1⟩)

theorem sixVisits_good (p : Lin) (hlo : ∀ f, p.lo f = none) (hhi : ∀ f, p.hi f = none) : ∀ f ∈ lsst, goodDepth p 0 sixVisits f 24 := by
  intro f hf
  refine ⟨⟨⟨f, 24, 30, 1⟩, List.mem_map_of_mem hf, rfl⟩, ?_, ?_, ?_⟩
  · have e : sixVisits.filter (fun v => decide (v.band = f)) = [⟨f, 24, 30, 1⟩] := by
      simp only [lsst, List.mem_cons, List.not_mem_nil, or_false] at hf
      rcases hf with rfl | rfl | rfl | rfl | rfl | rfl <;> simp [sixVisits, lsst]
    rw [e]
    unfold corrected
    simp [RealMetrics.coadd_single]
  · intro a ha
    rw [hlo] at ha
    cases ha
  · intro a ha
    rw [hhi] at ha
    cases ha

theorem nested_means_false : ¬ MeansPerBand := by
  intro h
  set p : Lin := ⟨fun _ => 0, none, 1, 0, fun _ => none, fun _ => none, fun f => if f = "u" then some 1 else none, id⟩ with hp
  have hx := sixVisits_good p (fun _ => rfl) (fun _ => rfl)
  have h1 := h p (fun f => if f = "g" then some 1 else none) 0 sixVisits (fun _ => 24) (fun f => if f = "u" then 1 else 0) rfl (by
    intro f
    by_cases hf : f = "u"
    · right
      simp [hp, hf]
    · left
      simp [hp, hf]) (by norm_num [hp]) (by simp [hp]) hx
  rw [nested_u p (fun f => if f = "g" then some 1 else none) 0 1 sixVisits (fun _ => 24) rfl (fun _ => rfl) (by norm_num [hp]) (by simp [hp]) hx] at h1
  simp [sixBands, hp] at h1

/-- What the comments of the models say: bands that are missing in a model are ignored. -/
def OtherBandsIgnored : Prop := ∀ (p : Lin) (model : String → Option ℝ) (ebv : ℝ) (vs : List Obs) (x : String → ℝ), p.bad = none → (∀ f, p.means f = none) →
  ebv ≤ p.extCut → p.n ≤ (vs.map Obs.band).toFinset.card → (∀ f ∈ lsst, (model f).isSome → goodDepth p ebv vs f (x f)) →
  nested p [model] ebv vs = .val [p.post (some (sixBands model x))]

/-- They are not: without visits in such a band the result is NaN. -/
theorem nested_ignored_false : ¬ OtherBandsIgnored := by
  intro h
  set p : Lin := ⟨fun _ => 0, none, 1, 1, fun _ => none, fun _ => none, fun _ => none, id⟩ with hp
  have h1 := h p (fun f => if f = "i" then some 1 else none) 0 [⟨"i", 24, 30, 1⟩] (fun _ => 24) rfl (fun _ => rfl) (by norm_num [hp]) (by simp [hp]) (by
    intro f _ hs
    have hf : f = "i" := by
      by_contra h2
      simp [h2] at hs
    subst hf
    refine ⟨⟨_, List.mem_singleton.mpr rfl, rfl⟩, ?_, by simp [hp], by simp [hp]⟩
    simp [corrected, RealMetrics.coadd_single])
  have h2 := ((nested_spec p [fun f => if f = "i" then some 1 else none] 0 [⟨"i", 24, 30, 1⟩] rfl (fun _ => rfl)).2 (by norm_num [hp]) (by simp [hp])).2
    ⟨"y", by simp [lsst], by
      intro x hx
      obtain ⟨v, hv, hb⟩ := hx.1
      rw [List.mem_singleton] at hv
      subst hv
      simp at hb⟩
  rw [h1] at h2
  simp [hp] at h2

/-- The six depths, bad for bands without visits. -/
theorem multiband_spec (ax1 : String → ℝ) (bad : Val) (extCut : ℝ) (n : ℕ) (ebv : ℝ) (vs : List Obs) (i : ℕ) (hi : i < lsst.length) :
    (multiband ax1 bad extCut n ebv vs)[i]? = some (
      if ebv ≤ extCut ∧ n ≤ (vs.map Obs.band).toFinset.card ∧ ∃ v ∈ vs, v.band = lsst[i] then
        some (corrected ax1 ebv (vs.filter (fun v => decide (v.band = lsst[i])))) else bad) := by
  have hcard : (vs.map Obs.band).toFinset.card = nFilters vs := List.card_toFinset _
  rw [hcard]
  unfold multiband
  by_cases h1 : ebv > extCut
  · rw [if_pos h1, if_neg (fun h => absurd h.1 (not_le.mpr h1))]
    simp [hi]
  rw [if_neg h1]
  by_cases h2 : nFilters vs < n
  · rw [if_pos h2, if_neg (fun h => absurd h.2.1 (not_le.mpr h2))]
    simp [hi]
  rw [if_neg h2, List.getElem?_map, List.getElem?_eq_getElem hi, Option.map_some, exgal_inBand]
  congr 1
  have hex : (∃ v ∈ vs, v.band = lsst[i]) ↔ inBand lsst[i] vs ≠ [] := by
    rw [Ne, inBand_nil]
    push Not
    rfl
  by_cases h3 : inBand lsst[i] vs = []
  · rw [if_pos h3, if_neg (fun h => (hex.mp h.2.2) h3)]
  · rw [if_neg h3, if_pos ⟨not_lt.mp h1, not_lt.mp h2, hex.mpr h3⟩]
    rfl

/-! ## C234 -/

/-- What the name of the second entry says: the exposure time in r, i and z. -/
def RizTime : Prop := ∀ (ax1 : String → ℝ) (bad : Val) (f : String) (extCut depthCut : ℝ) (n : ℕ) (ebv : ℝ) (vs : List Obs), ebv ≤ extCut →
  (nestedRiz ax1 bad f extCut depthCut n ebv vs).2 = some (vs.map (fun v => if 15 < v.exp ∧ v.band ∈ ["r", "i", "z"] then v.exp else 0)).sum

/-- **C234.** It is the time in i only, or the bad value -666 in dusty places, also if the metric has
another bad value; the first entry is the depth with cuts. -/
theorem nestedRiz_spec (ax1 : String → ℝ) (bad : Val) (f : String) (extCut depthCut : ℝ) (n : ℕ) (ebv : ℝ) (vs : List Obs) :
    (nestedRiz ax1 bad f extCut depthCut n ebv vs).1 = withCuts ax1 bad f extCut depthCut n ebv vs ∧
      (ebv ≤ extCut → (nestedRiz ax1 bad f extCut depthCut n ebv vs).2 = some (vs.map (fun v => if 15 < v.exp ∧ v.band = "i" then v.exp else 0)).sum) ∧
      (extCut < ebv → (nestedRiz ax1 bad f extCut depthCut n ebv vs).2 = some (-666)) := by
  refine ⟨rfl, ?_, ?_⟩
  · intro h
    unfold nestedRiz
    simp only
    rw [(rizTime_spec _ _ _ _ _ _ _).1 h]
    congr 1
    unfold inBand
    induction vs with
    | nil => rfl
    | cons v vs ih =>
      rw [List.map_cons, List.sum_cons, ← ih]
      by_cases hv : v.band = "i"
      · rw [List.filter_cons_of_pos (by simp [hv]), List.map_cons, List.sum_cons]
        simp [hv]
      · rw [List.filter_cons_of_neg (by simp [hv])]
        simp [hv]
  · intro h
    exact (rizTime_spec (some (-666)) ["r", "i", "z"] ["u", "g", "r", "i", "z", "y"] extCut 15 ebv (inBand "i" vs)).2 h

theorem nestedRiz_false : ¬ RizTime := by
  intro h
  have h1 := h (fun _ => 0) none "i" 1 24 1 0 [⟨"r", 24, 30, 1⟩] (by norm_num)
  rw [(nestedRiz_spec _ _ _ _ _ _ _ _).2.1 (by norm_num)] at h1
  norm_num at h1
  exact absurd h1 (by decide)

/-! ## C235 -/

/-- What the class says: visits in other filters are ignored. -/
def OthersIgnored : Prop := ∀ (ax1 : String → ℝ) (f : String) (aMax m5min area ebv : ℝ) (vs : List Obs), inBand f vs ≠ [] →
  ngal ax1 f aMax m5min area ebv vs = ngal ax1 f aMax m5min area ebv (inBand f vs)

/-- **C235.** For visits in the filter only: no galaxies in dusty or shallow places, and otherwise the
number from the median seeing. -/
theorem ngal_partial (ax1 : String → ℝ) (f : String) (aMax m5min area ebv : ℝ) (vs : List Obs) (hne : vs ≠ []) (hf : ∀ v ∈ vs, v.band = f) :
    ngal ax1 f aMax m5min area ebv vs =
      if ax1 f * ebv ≤ aMax ∧ m5min ≤ RealMetrics.coadd (vs.map Obs.m5) then 57 * (0.75 / Mo.median (vs.map Obs.seeing)) ^ (1.5 : ℝ) * area else 0 := by
  have hin : inBand f vs = vs := by
    unfold inBand
    rw [List.filter_eq_self]
    intro v hv
    exact decide_eq_true (hf v hv)
  have hh : (vs.head?.map Obs.band).getD "" = f := by
    match vs, hne, hf with
    | v :: vs, _, hf => exact hf v (List.mem_cons_self ..)
  unfold ngal
  simp only [hin, hh]
  by_cases h1 : ax1 f * ebv > aMax
  · rw [if_pos h1, if_neg (fun h => absurd h.1 (not_le.mpr h1))]
  · rw [if_neg h1]
    by_cases h2 : RealMetrics.coadd (vs.map Obs.m5) < m5min
    · rw [if_pos (Or.inr h2), if_neg (fun h => absurd h.2 (not_le.mpr h2))]
    · rw [if_neg (by rintro (h | h); exacts [hne h, h2 h]), if_pos ⟨not_lt.mp h1, not_lt.mp h2⟩]

/-- Visits in another filter do count: their seeing, and the dust in the filter of the first. -/
theorem ngal_false : ¬ OthersIgnored ∧
    (∃ (ax1 : String → ℝ) (vs : List Obs), ngal ax1 "i" 0.2 23 1 0.1 (inBand "i" vs) ≠ 0 ∧ ngal ax1 "i" 0.2 23 1 0.1 vs = 0) ∧
    (∃ (vs : List Obs), ngal (fun _ => 0) "i" 0.2 23 1 0.1 (inBand "i" vs) = 57 ∧ ngal (fun _ => 0) "i" 0.2 23 1 0.1 vs = 456) := by
  have hc : RealMetrics.coadd [(24 : ℝ)] = 24 := RealMetrics.coadd_single 24
  have hpart2 : ∃ (ax1 : String → ℝ) (vs : List Obs), inBand "i" vs ≠ [] ∧ ngal ax1 "i" 0.2 23 1 0.1 (inBand "i" vs) ≠ 0 ∧ ngal ax1 "i" 0.2 23 1 0.1 vs = 0 := by
    refine ⟨fun b => if b = "u" then 4 else 1, [⟨"u", 24, 30, 0.75⟩, ⟨"i", 24, 30, 0.75⟩], ?_, ?_, ?_⟩
    · simp [inBand]
    · have hin : inBand "i" [⟨"u", 24, 30, 0.75⟩, ⟨"i", 24, 30, 0.75⟩] = [⟨"i", 24, 30, 0.75⟩] := by simp [inBand]
      rw [hin, ngal_partial _ _ _ _ _ _ _ (by simp) (by simp)]
      simp only [List.map_cons, List.map_nil, hc]
      rw [if_neg (by decide : ¬ ("i" : String) = "u"), if_pos (by norm_num)]
      have : Mo.median [(0.75 : ℝ)] = 0.75 := by
        have hs : Np.sort [(0.75 : ℝ)] = [0.75] := Np.sort_eq_self (by simp)
        simp [Mo.median, hs]
      rw [this]
      norm_num
    · unfold ngal
      simp only [List.head?_cons, Option.map_some, Option.getD_some]
      rw [if_pos (by norm_num)]
  refine ⟨?_, ?_, ?_⟩
  · intro h
    obtain ⟨ax1, vs, h0, h1, h2⟩ := hpart2
    rw [h ax1 "i" 0.2 23 1 0.1 vs h0] at h2
    exact h1 h2
  · obtain ⟨ax1, vs, _, h1, h2⟩ := hpart2
    exact ⟨ax1, vs, h1, h2⟩
  · refine ⟨[⟨"i", 24, 30, 0.75⟩, ⟨"u", 24, 30, 0.1875⟩, ⟨"u", 24, 30, 0.1875⟩], ?_, ?_⟩
    · have hin : inBand "i" [⟨"i", 24, 30, 0.75⟩, ⟨"u", 24, 30, 0.1875⟩, ⟨"u", 24, 30, 0.1875⟩] = [⟨"i", 24, 30, 0.75⟩] := by simp [inBand]
      rw [hin, ngal_partial _ _ _ _ _ _ _ (by simp) (by simp)]
      simp only [List.map_cons, List.map_nil, hc]
      rw [if_pos (by norm_num)]
      have : Mo.median [(0.75 : ℝ)] = 0.75 := by
        have hs : Np.sort [(0.75 : ℝ)] = [0.75] := Np.sort_eq_self (by simp)
        simp [Mo.median, hs]
      rw [this]
      norm_num
    · have hin : inBand "i" [⟨"i", 24, 30, 0.75⟩, ⟨"u", 24, 30, 0.1875⟩, ⟨"u", 24, 30, 0.1875⟩] = [⟨"i", 24, 30, 0.75⟩] := by simp [inBand]
      have hmed : Mo.median [(0.75 : ℝ), 0.1875, 0.1875] = 0.1875 := by
        have hp : [(0.75 : ℝ), 0.1875, 0.1875].Perm [0.1875, 0.1875, 0.75] := by
          exact (List.Perm.swap _ _ _).trans ((List.Perm.swap _ _ _).cons _)
        have hs : Np.sort [(0.75 : ℝ), 0.1875, 0.1875] = [0.1875, 0.1875, 0.75] := by
          rw [Np.sort_eq_of_perm hp]
          exact Np.sort_eq_self (by norm_num)
        simp [Mo.median, hs]
      unfold ngal
      simp only [hin, List.map_cons, List.map_nil, hc, hmed]
      rw [if_neg (by norm_num), if_neg (by norm_num)]
      have h8 : (0.75 / 0.1875 : ℝ) ^ (1.5 : ℝ) = 8 := by
        have : (0.75 / 0.1875 : ℝ) = (2 : ℝ) ^ (2 : ℝ) := by norm_num
        rw [this, ← rpow_mul (by norm_num)]
        norm_num
      rw [h8]
      norm_num

/-- Each visit that is deeper than the star counts the stars of its filter, if more than `ndpmin` such
visits are in the filter. -/
theorem nlc_spec (ndpmin : ℕ) (mag : ℝ) (nstars : String → ℝ) (vs : List Obs) :
    nlc ndpmin mag nstars vs = (vs.map (fun v =>
      if mag < v.m5 ∧ ndpmin < vs.countP (fun u => decide (u.band = v.band ∧ mag < u.m5)) then nstars v.band else 0)).sum := by
  classical
  have hlen : ∀ f, (vs.filter (fun v => decide (v.band = f) && decide (v.m5 > mag))).length = vs.countP (fun u => decide (u.band = f ∧ mag < u.m5)) := by
    intro f
    rw [List.countP_eq_length_filter]
    congr 2
    funext v
    simp
  set g : String → ℝ := fun f => if ndpmin < vs.countP (fun u => decide (u.band = f ∧ mag < u.m5)) then nstars f else 0 with hg
  have hl : nlc ndpmin mag nstars vs = ∑ f ∈ (vs.map Obs.band).toFinset, (vs.countP (fun u => decide (u.band = f ∧ mag < u.m5)) : ℝ) * g f := by
    unfold nlc
    rw [← List.sum_toFinset _ (List.nodup_dedup _), show (List.dedup (vs.map Obs.band)).toFinset = (vs.map Obs.band).toFinset from by ext; simp]
    apply Finset.sum_congr rfl
    intro f _
    simp only [hlen, hg]
    split_ifs <;> simp
  rw [hl]
  have hr : (vs.map (fun v => if mag < v.m5 ∧ ndpmin < vs.countP (fun u => decide (u.band = v.band ∧ mag < u.m5)) then nstars v.band else 0)).sum =
      (((vs.filter (fun v => decide (mag < v.m5))).map Obs.band).map g).sum := by
    have : ∀ l : List Obs, (l.map (fun v => if mag < v.m5 ∧ ndpmin < vs.countP (fun u => decide (u.band = v.band ∧ mag < u.m5)) then nstars v.band else 0)).sum =
        (((l.filter (fun v => decide (mag < v.m5))).map Obs.band).map g).sum := by
      intro l
      induction l with
      | nil => rfl
      | cons v l ih =>
        rw [List.map_cons, List.sum_cons, ih]
        by_cases hv : mag < v.m5
        · rw [List.filter_cons_of_pos (by simp [hv]), List.map_cons, List.map_cons, List.sum_cons]
          simp [hv, hg]
        · rw [List.filter_cons_of_neg (by simp [hv])]
          simp [hv]
    exact this vs
  rw [hr, Finset.sum_list_map_count]
  have hcount : ∀ f, ((vs.filter (fun v => decide (mag < v.m5))).map Obs.band).count f = vs.countP (fun u => decide (u.band = f ∧ mag < u.m5)) := by
    intro f
    rw [List.count, List.countP_map, List.countP_filter]
    congr 1
    funext v
    rw [Bool.eq_iff_iff]
    simp
  symm
  apply Finset.sum_subset_zero_on_sdiff
  · intro f hf
    rw [List.mem_toFinset] at hf ⊢
    obtain ⟨v, hv, rfl⟩ := List.mem_map.mp hf
    exact List.mem_map_of_mem (List.mem_filter.mp hv).1
  · intro f hf
    rw [Finset.mem_sdiff, List.mem_toFinset, List.mem_toFinset] at hf
    rw [← hcount, List.count_eq_zero_of_not_mem hf.2]
    simp
  · intro f _
    rw [hcount, nsmul_eq_mul]

/-- What the class says: the number of points to demand. -/
def Demand : Prop := ∀ (ndpmin : ℕ) (mag : ℝ) (nstars : String → ℝ) (vs : List Obs), nlc ndpmin mag nstars vs = (vs.map (fun v =>
  if mag < v.m5 ∧ ndpmin ≤ vs.countP (fun u => decide (u.band = v.band ∧ mag < u.m5)) then nstars v.band else 0)).sum

/-- One more is needed. -/
theorem nlc_false : ¬ Demand := by
  intro h
  have h1 := h 1 21 (fun _ => 1) [⟨"r", 24, 30, 1⟩]
  rw [nlc_spec] at h1
  norm_num at h1

/-! ## Examples -/

example : withCuts (fun _ => 1) none "i" 0.2 23 1 0.1 [⟨"i", 24, 30, 1⟩] = some 23.9 := by
  have h := (withCuts_spec (fun _ => 1) none "i" 0.2 23 1 0.1 [⟨"i", 24, 30, 1⟩] (by norm_num)).1
  have e : corrected (fun _ => 1) 0.1 [⟨"i", 24, 30, 1⟩] = 23.9 := by
    norm_num [corrected, RealMetrics.coadd_single]
  have hf : ([⟨"i", 24, 30, 1⟩] : List Obs).filter (fun v => decide (v.band = "i")) = [⟨"i", 24, 30, 1⟩] := by simp
  rw [hf, e] at h
  exact h ⟨by norm_num, by simp, by simp, by norm_num⟩

example : nlc 1 21 (fun _ => 5) [⟨"r", 24, 30, 1⟩, ⟨"r", 24, 30, 1⟩, ⟨"g", 24, 30, 1⟩] = 10 := by
  rw [nlc_spec]
  simp [List.countP_cons]
  norm_num

example : rizTime none ["r", "i"] [] 1 15 0 [⟨"r", 24, 30, 1⟩, ⟨"i", 24, 10, 1⟩, ⟨"u", 24, 30, 1⟩] = some 30 := by
  rw [rizTime_eq]
  norm_num
  decide

end Verif.Depth
