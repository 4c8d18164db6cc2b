import Verif.Model.Template
import Verif.Props.RealMetrics
import Verif.Props.Astrometry
import Verif.Props.Bins
import Verif.Props.DirectObs
import Verif.Lemmas.NumpyMore

/-!
# Template and time lag metrics

Theorems C236 to C239.
-/

namespace Verif.Template

open Real

/-! ## C236 -/

theorem whereIdx_cons {V : Type} (p : V → Bool) (a : V) (l : List V) :
    Direct.whereIdx p (a :: l) = (if p a then [0] else []) ++ (Direct.whereIdx p l).map (· + 1) := by
  unfold Direct.whereIdx
  rw [List.length_cons, List.range_succ_eq_map, List.filter_cons, List.filter_map]
  have e : ((fun k => Option.any p (a :: l)[k]?) ∘ Nat.succ) = fun k => Option.any p l[k]? := by
    funext k
    simp
  rw [e]
  by_cases h : p a
  · simp [h]
  · simp [h]

theorem whereIdx_length {V : Type} (p : V → Bool) (l : List V) : (Direct.whereIdx p l).length = l.countP p := by
  induction l with
  | nil => rfl
  | cons a l ih =>
    rw [whereIdx_cons, List.length_append, List.length_map, ih, List.countP_cons]
    by_cases h : p a
    · simp [h, Nat.add_comm]
    · simp [h]

theorem take_shift {V : Type} (a : V) (l : List V) (idx : List ℕ) : Direct.take (a :: l) (idx.map (· + 1)) = Direct.take l idx := by
  unfold Direct.take
  rw [List.filterMap_map]
  congr 1

/-- The `n`-th good element splits a list. -/
theorem split_at {V : Type} (p : V → Bool) (l : List V) (n : ℕ) (hn : n ≠ 0) (h : n ≤ l.countP p) :
    ∃ pre v post, l = pre ++ v :: post ∧ p v = true ∧ pre.countP p = n - 1 ∧ (Direct.whereIdx p l)[n - 1]? = some pre.length ∧
      Direct.take l ((Direct.whereIdx p l).take n) = (pre ++ [v]).filter p := by
  induction l generalizing n with
  | nil =>
    rw [List.countP_nil] at h
    omega
  | cons a l ih =>
    rw [List.countP_cons] at h
    by_cases hp : p a
    · rw [if_pos hp] at h
      obtain ⟨k, rfl⟩ : ∃ k, n = k + 1 := ⟨n - 1, by omega⟩
      by_cases hk : k = 0
      · subst hk
        refine ⟨[], a, l, rfl, hp, rfl, ?_, ?_⟩
        · rw [whereIdx_cons, if_pos hp]
          rfl
        · rw [whereIdx_cons, if_pos hp]
          simp [Direct.take, hp]
      · obtain ⟨pre, v, post, h1, h2, h3, h4, h5⟩ := ih k hk (by omega)
        refine ⟨a :: pre, v, post, by rw [h1]; rfl, h2, ?_, ?_, ?_⟩
        · rw [List.countP_cons, h3, if_pos hp]
          omega
        · rw [whereIdx_cons, if_pos hp]
          have e : k + 1 - 1 = (k - 1) + 1 := by omega
          rw [e, List.singleton_append, List.getElem?_cons_succ, List.getElem?_map, h4]
          rfl
        · rw [whereIdx_cons, if_pos hp, List.singleton_append, List.take_succ_cons, ← List.map_take]
          have e : Direct.take (a :: l) (0 :: ((Direct.whereIdx p l).take k).map (· + 1)) = a :: Direct.take (a :: l) (((Direct.whereIdx p l).take k).map (· + 1)) := by
            simp [Direct.take]
          rw [e, take_shift, h5]
          simp [hp]
    · rw [if_neg hp] at h
      obtain ⟨pre, v, post, h1, h2, h3, h4, h5⟩ := ih n hn (by omega)
      refine ⟨a :: pre, v, post, by rw [h1]; rfl, h2, ?_, ?_, ?_⟩
      · rw [List.countP_cons, h3, if_neg hp]
        rfl
      · rw [whereIdx_cons, if_neg hp, List.nil_append, List.getElem?_map, h4]
        rfl
      · rw [whereIdx_cons, if_neg hp, List.nil_append, ← List.map_take, take_shift, h5]
        simp [hp]

/-- A visit qualifies if it is good by the limit or by the percentile, in seeing and in depth. -/
def Qualifies (best pS bestM pM : ℝ) (vs : List Vis) (v : Vis) : Prop :=
  (v.seeing ≤ best ∨ ∃ q, Bins.pct (pS / 100) (vs.map Vis.seeing) = some q ∧ v.seeing ≤ q) ∧
    (bestM ≤ v.m5 ∨ ∃ q, Bins.pct ((100 - pM) / 100) (vs.map Vis.m5) = some q ∧ q ≤ v.m5)

theorem ok_iff (best pS bestM pM : ℝ) (vs : List Vis) (hne : vs ≠ []) (h0 : 0 ≤ pS) (h1 : pS ≤ 100) (h2 : 0 ≤ pM) (h3 : pM ≤ 100) (v : Vis) :
    ok (benchSeeing best pS vs) (benchM5 bestM pM vs) v = true ↔ Qualifies best pS bestM pM vs v := by
  obtain ⟨_, _, _, q, hq, _⟩ := Bins.pct_spec (vs.map Vis.seeing) (pS / 100) (by simpa using hne) (by positivity) (by linarith)
  obtain ⟨_, _, _, r, hr, _⟩ := Bins.pct_spec (vs.map Vis.m5) ((100 - pM) / 100) (by simpa using hne) (by linarith) (by linarith)
  unfold ok benchSeeing benchM5 Qualifies
  rw [hq, hr, Bool.and_eq_true, decide_eq_true_iff, decide_eq_true_iff]
  simp only [Option.getD_some, le_max_iff, ge_iff_le, min_le_iff, Option.some.injEq, exists_eq_left']

open Classical in
/-- **C236.** A template is made at the `n`-th visit that qualifies, from the first `n` of these; none is made
exactly if fewer qualify. Difference images are the visits of later nights. -/
theorem template_spec (n : ℕ) (best pS bestM pM : ℝ) (vs : List Vis) (hn : n ≠ 0) (h0 : 0 ≤ pS) (h1 : pS ≤ 100) (h2 : 0 ≤ pM) (h3 : pM ≤ 100) :
    (vs.countP (fun v => decide (Qualifies best pS bestM pM vs v)) < n → template n best pS bestM pM vs = none) ∧
    (n ≤ vs.countP (fun v => decide (Qualifies best pS bestM pM vs v)) → ∃ out pre v post, template n best pS bestM pM vs = some out ∧
      vs = pre ++ v :: post ∧ Qualifies best pS bestM pM vs v ∧ pre.countP (fun v => decide (Qualifies best pS bestM pM vs v)) = n - 1 ∧
      out.night = v.night ∧ out.nUntil = (pre ++ [v]).length ∧ out.inputs = (pre ++ [v]).filter (fun v => decide (Qualifies best pS bestM pM vs v)) ∧
      out.inputs.length = n ∧ out.m5 = templateM5 out.inputs ∧ out.seeing = templateSeeing out.inputs ∧
      out.later.map Prod.fst = vs.filter (fun u => decide (v.night < u.night)) ∧ out.nWith = out.later.length ∧
      (∀ e ∈ out.later, e.2.1 = diffM5 out.m5 e.1.m5 ∧ e.2.2 = 10000 * (10 : ℝ) ^ (0.6 * (e.2.1 - 24.7))) ∧ out.alerts = (out.later.map (fun e => e.2.2)).sum ∧
      out.fraction = if out.later = [] then none else some ((out.later.countP (fun e => decide (out.seeing < e.1.seeing)) : ℝ) / out.later.length)) := by
  by_cases hne : vs = []
  · subst hne
    constructor
    · intro h
      unfold template
      rw [if_pos (by rw [List.length_nil]; omega)]
    · intro h
      rw [List.countP_nil] at h
      omega
  set p := ok (benchSeeing best pS vs) (benchM5 bestM pM vs) with hp
  have hpq : (fun v => decide (Qualifies best pS bestM pM vs v)) = p := by
    funext v
    rw [Bool.eq_iff_iff, decide_eq_true_iff, ok_iff best pS bestM pM vs hne h0 h1 h2 h3 v]
  rw [hpq]
  constructor
  · intro h
    unfold template
    by_cases h4 : vs.length < n
    · rw [if_pos h4]
    · rw [if_neg h4]
      simp only
      rw [if_pos (by rw [← hp, whereIdx_length]; exact h)]
  · intro h
    obtain ⟨pre, v, post, e1, e2, e3, e4, e5⟩ := split_at p vs n hn h
    have h4 : ¬ vs.length < n := not_lt.mpr (le_trans h List.countP_le_length)
    have hv : vs[pre.length]? = some v := by
      rw [e1]
      simp
    have hrun : ∃ out, template n best pS bestM pM vs = some out ∧ out = {
            night := v.night
            nUntil := pre.length + 1
            nWith := (vs.filter (fun u => decide (u.night > v.night))).length
            m5 := templateM5 (Direct.take vs ((Direct.whereIdx p vs).take n))
            seeing := templateSeeing (Direct.take vs ((Direct.whereIdx p vs).take n))
            inputs := Direct.take vs ((Direct.whereIdx p vs).take n)
            later := (vs.filter (fun u => decide (u.night > v.night))).map (fun u => (u, diffM5 (templateM5 (Direct.take vs ((Direct.whereIdx p vs).take n))) u.m5, nAlerts (diffM5 (templateM5 (Direct.take vs ((Direct.whereIdx p vs).take n))) u.m5)))
            alerts := ((vs.filter (fun u => decide (u.night > v.night))).map (fun u => nAlerts (diffM5 (templateM5 (Direct.take vs ((Direct.whereIdx p vs).take n))) u.m5))).sum
            fraction := if (vs.filter (fun u => decide (u.night > v.night))).length = 0 then none else
              some (((vs.filter (fun u => decide (u.night > v.night))).countP (fun u => decide (u.seeing > templateSeeing (Direct.take vs ((Direct.whereIdx p vs).take n)))) : ℝ) / ((vs.filter (fun u => decide (u.night > v.night))).length : ℝ)) } := by
      refine ⟨_, ?_, rfl⟩
      unfold template
      rw [if_neg h4]
      simp only
      rw [if_neg (by rw [← hp, whereIdx_length]; omega), ← hp, e4]
      simp only
      rw [hv]
    obtain ⟨out, hrun, rfl⟩ := hrun
    refine ⟨_, pre, v, post, hrun, e1, ?_, e3, rfl, ?_, ?_, ?_, rfl, rfl, ?_, ?_, ?_, ?_, ?_⟩
    · have := hpq ▸ e2
      exact of_decide_eq_true this
    · simp
    · exact e5
    · simp only
      rw [e5, ← List.countP_eq_length_filter, List.countP_append, e3, List.countP_singleton, if_pos e2]
      omega
    · simp only [List.map_map]
      rw [show (Prod.fst ∘ fun u : Vis => (u, diffM5 (templateM5 (Direct.take vs ((Direct.whereIdx p vs).take n))) u.m5,
        nAlerts (diffM5 (templateM5 (Direct.take vs ((Direct.whereIdx p vs).take n))) u.m5))) = id from rfl, List.map_id]
    · simp
    · intro e he
      simp only [List.mem_map] at he
      obtain ⟨u, _, rfl⟩ := he
      refine ⟨rfl, ?_⟩
      simp only [nAlerts]
      norm_num
    · simp only [List.map_map]
      rfl
    · simp only [List.map_eq_nil_iff, List.length_map, List.countP_map, List.length_eq_zero_iff]
      rfl

open Classical in
/-- If nights follow times, the visits up to the template and those with a template are distinct. -/
theorem template_counts (n : ℕ) (best pS bestM pM : ℝ) (vs : List Vis) (hn : n ≠ 0) (h0 : 0 ≤ pS) (h1 : pS ≤ 100) (h2 : 0 ≤ pM) (h3 : pM ≤ 100)
    (hnight : vs.Pairwise (fun a b => a.night ≤ b.night)) (out : Out) (ho : template n best pS bestM pM vs = some out) :
    n ≤ out.nUntil ∧ out.nUntil + out.nWith ≤ vs.length := by
  have hs := template_spec n best pS bestM pM vs hn h0 h1 h2 h3
  by_cases hc : vs.countP (fun v => decide (Qualifies best pS bestM pM vs v)) < n
  · rw [hs.1 hc] at ho
    cases ho
  obtain ⟨out', pre, v, post, e0, e1, e2, e3, _, e5, e6, e7, _, _, e10, e11, _⟩ := hs.2 (not_lt.mp hc)
  rw [ho, Option.some.injEq] at e0
  subst e0
  constructor
  · rw [e5, ← e7, e6]
    exact List.length_filter_le _ _
  · rw [e11, ← List.length_map (f := Prod.fst), e10, e5]
    have hfil : vs.filter (fun u => decide (v.night < u.night)) = post.filter (fun u => decide (v.night < u.night)) := by
      rw [e1, List.filter_append, List.filter_cons_of_neg (by simp)]
      have : pre.filter (fun u => decide (v.night < u.night)) = [] := by
        rw [List.filter_eq_nil_iff]
        intro u hu
        rw [e1, List.pairwise_append] at hnight
        have := hnight.2.2 u hu v (List.mem_cons_self ..)
        simpa using this
      rw [this, List.nil_append]
    rw [hfil]
    have h4 := List.length_filter_le (fun u : Vis => decide (v.night < u.night)) post
    have h5 : vs.length = pre.length + (post.length + 1) := by
      rw [e1, List.length_append, List.length_cons]
    simp only [List.length_append, List.length_cons, List.length_nil]
    omega

/-- A template of fewer images is not made later. -/
theorem template_fewer (n m : ℕ) (best pS bestM pM : ℝ) (vs : List Vis) (hn : n ≠ 0) (hnm : n ≤ m) (h0 : 0 ≤ pS) (h1 : pS ≤ 100) (h2 : 0 ≤ pM) (h3 : pM ≤ 100)
    (out : Out) (ho : template m best pS bestM pM vs = some out) : ∃ out', template n best pS bestM pM vs = some out' ∧ out'.nUntil ≤ out.nUntil := by
  classical
  have hs := template_spec n best pS bestM pM vs hn h0 h1 h2 h3
  have hs' := template_spec m best pS bestM pM vs (by omega) h0 h1 h2 h3
  by_cases hc : vs.countP (fun v => decide (Qualifies best pS bestM pM vs v)) < m
  · rw [hs'.1 hc] at ho
    cases ho
  obtain ⟨out1, pre, v, post, e0, e1, e2, e3, _, e5, _⟩ := hs'.2 (not_lt.mp hc)
  rw [ho, Option.some.injEq] at e0
  subst e0
  obtain ⟨out2, pre', v', post', f0, f1, f2, f3, _, f5, _⟩ := hs.2 (by omega)
  refine ⟨out2, f0, ?_⟩
  rw [e5, f5]
  simp only [List.length_append, List.length_cons, List.length_nil]
  by_contra hlt
  have hlt : pre.length < pre'.length := by omega
  -- the first `pre.length + 1` visits are then among `pre'`
  have ht : pre'.take (pre.length + 1) = pre ++ [v] := by
    have a1 : vs.take (pre.length + 1) = pre ++ [v] := by
      rw [e1, List.take_append]
      simp
    have a2 : vs.take (pre.length + 1) = pre'.take (pre.length + 1) := by
      rw [f1, List.take_append_of_le_length (by omega)]
    rw [← a2, a1]
  have hsub := (List.take_sublist (pre.length + 1) pre').countP_le (p := fun v => decide (Qualifies best pS bestM pM vs v))
  rw [ht, List.countP_append, e3, f3, List.countP_singleton, if_pos (decide_eq_true e2)] at hsub
  omega

/-! ## C237 -/

theorem templateM5_eq (l : List Vis) : templateM5 l = RealMetrics.coadd (l.map Vis.m5) := by
  unfold templateM5 RealMetrics.coadd
  rw [List.map_map]
  rfl

/-- **C237.** The depth of a template is that of its images together: deeper than each, and deeper
with more. -/
theorem templateM5_spec (l : List Vis) (hne : l ≠ []) :
    (10 : ℝ) ^ (0.8 * templateM5 l) = (l.map (fun v => (10 : ℝ) ^ (0.8 * v.m5))).sum ∧ (∀ v ∈ l, v.m5 ≤ templateM5 l) ∧
      ∀ l' : List Vis, l' ≠ [] → templateM5 l < templateM5 (l ++ l') := by
  have h1 : (10 : ℝ) ^ (0.8 * templateM5 l) = (l.map (fun v => (10 : ℝ) ^ (0.8 * v.m5))).sum := by
    rw [templateM5_eq, RealMetrics.pow_coadd (by simpa using hne)]
    unfold RealMetrics.weight
    rw [List.map_map]
    rfl
  refine ⟨h1, ?_, ?_⟩
  · intro v hv
    have h2 : (10 : ℝ) ^ (0.8 * v.m5) ≤ (10 : ℝ) ^ (0.8 * templateM5 l) := by
      rw [h1]
      apply List.single_le_sum
      · intro x hx
        obtain ⟨u, _, rfl⟩ := List.mem_map.mp hx
        positivity
      · exact List.mem_map_of_mem hv
    have := (rpow_le_rpow_left_iff (by norm_num : (1 : ℝ) < 10)).mp h2
    linarith
  · intro l' hl'
    rw [templateM5_eq, templateM5_eq, List.map_append]
    exact RealMetrics.coadd_more _ _ (by simpa using hne) (by simpa using hl')

theorem noise_sq (w m s : ℝ) (hw : 0 < w) : (s / (√(25 * w) / 5 * (10 : ℝ) ^ (-0.4 * m))) ^ 2 = s ^ 2 * (10 : ℝ) ^ (0.8 * m) / w := by
  have h5 : √(25 * w) = 5 * √w := by
    rw [show (25 : ℝ) * w = 5 ^ 2 * w by ring, sqrt_mul (by norm_num), sqrt_sq (by norm_num)]
  have hp : ((10 : ℝ) ^ (-0.4 * m)) ^ 2 = ((10 : ℝ) ^ (0.8 * m))⁻¹ := by
    rw [← rpow_natCast, ← rpow_mul (by norm_num), ← rpow_neg (by norm_num)]
    congr 1
    push_cast
    ring
  rw [div_pow, h5, show 5 * √w / 5 * (10 : ℝ) ^ (-0.4 * m) = √w * (10 : ℝ) ^ (-0.4 * m) by ring, mul_pow, sq_sqrt hw.le, hp]
  have : (10 : ℝ) ^ (0.8 * m) ≠ 0 := by positivity
  field_simp

/-- The square of the seeing is the mean of the squares, weighted by inverse variances. -/
theorem templateSeeing_sq (l : List Vis) (hne : l ≠ []) :
    (templateSeeing l) ^ 2 * (l.map (fun v => (10 : ℝ) ^ (0.8 * v.m5))).sum = (l.map (fun v => v.seeing ^ 2 * (10 : ℝ) ^ (0.8 * v.m5))).sum := by
  set w := (l.map (fun v => (10 : ℝ) ^ (0.8 * v.m5))).sum with hw
  have hwpos : 0 < w := by
    have := RealMetrics.weight_pos (m5s := l.map Vis.m5) (by simpa using hne)
    unfold RealMetrics.weight at this
    rw [List.map_map] at this
    exact this
  have h25 : (l.map (fun v => 25 * (10 : ℝ) ^ (0.8 * v.m5))).sum = 25 * w := List.sum_map_mul_left ..
  have e : (l.map (fun v => (v.seeing / (√(25 * w) / 5 * (10 : ℝ) ^ (-0.4 * v.m5))) ^ 2)).sum = (l.map (fun v => v.seeing ^ 2 * (10 : ℝ) ^ (0.8 * v.m5))).sum / w := by
    rw [div_eq_mul_inv _ w, ← List.sum_map_mul_right]
    congr 1
    apply List.map_congr_left
    intro v _
    rw [noise_sq w v.m5 v.seeing hwpos, div_eq_mul_inv]
  unfold templateSeeing
  simp only
  rw [h25, sq_sqrt, e, div_mul_cancel₀ _ hwpos.ne']
  apply List.sum_nonneg
  intro x hx
  obtain ⟨v, _, rfl⟩ := List.mem_map.mp hx
  positivity

/-- It is between the best and the worst seeing. -/
theorem templateSeeing_bounds (l : List Vis) (hne : l ≠ []) (lo hi : ℝ) (h0 : 0 ≤ lo) (hlo : ∀ v ∈ l, lo ≤ v.seeing) (hhi : ∀ v ∈ l, v.seeing ≤ hi) :
    lo ≤ templateSeeing l ∧ templateSeeing l ≤ hi := by
  set w := (l.map (fun v => (10 : ℝ) ^ (0.8 * v.m5))).sum with hw
  have hwpos : 0 < w := by
    have := RealMetrics.weight_pos (m5s := l.map Vis.m5) (by simpa using hne)
    unfold RealMetrics.weight at this
    rw [List.map_map] at this
    exact this
  have hsq := templateSeeing_sq l hne
  rw [← hw] at hsq
  have hs : 0 ≤ templateSeeing l := sqrt_nonneg _
  have hhi0 : 0 ≤ hi := by
    obtain ⟨v, hv⟩ := List.exists_mem_of_ne_nil l hne
    linarith [hlo v hv, hhi v hv]
  have h1 : lo ^ 2 * w ≤ (templateSeeing l) ^ 2 * w := by
    rw [hsq, hw, ← List.sum_map_mul_left]
    apply List.sum_le_sum
    intro v hv
    have := hlo v hv
    gcongr
  have h2 : (templateSeeing l) ^ 2 * w ≤ hi ^ 2 * w := by
    rw [hsq, hw, ← List.sum_map_mul_left]
    apply List.sum_le_sum
    intro v hv
    have := hhi v hv
    have := hlo v hv
    gcongr
    linarith
  constructor
  · exact le_of_sq_le_sq (le_of_mul_le_mul_right h1 hwpos) hs |> fun h => h
  · exact le_of_sq_le_sq (le_of_mul_le_mul_right h2 hwpos) hhi0 |> fun h => h

/-- The variance of a difference image is the sum of the variances; it is shallower than both. -/
theorem diffM5_spec (t m : ℝ) : (10 : ℝ) ^ (-(0.8 * diffM5 t m)) = (10 : ℝ) ^ (-(0.8 * m)) + (10 : ℝ) ^ (-(0.8 * t)) ∧ diffM5 t m < m ∧ diffM5 t m < t := by
  have h0 : (0 : ℝ) < 1 + (10 : ℝ) ^ (-0.8 * (t - m)) := by positivity
  have h1 : (10 : ℝ) ^ (-(0.8 * diffM5 t m)) = (10 : ℝ) ^ (-(0.8 * m)) + (10 : ℝ) ^ (-(0.8 * t)) := by
    have hl : logb 10 (√(1 + (10 : ℝ) ^ (-0.8 * (t - m)))) = logb 10 (1 + (10 : ℝ) ^ (-0.8 * (t - m))) / 2 := by
      rw [sqrt_eq_rpow, logb_rpow_eq_mul_logb_of_pos h0]
      ring
    unfold diffM5
    rw [hl, show -(0.8 * (m + -2.5 * (logb 10 (1 + (10 : ℝ) ^ (-0.8 * (t - m))) / 2))) = -(0.8 * m) + logb 10 (1 + (10 : ℝ) ^ (-0.8 * (t - m))) by ring,
      rpow_add (by norm_num), rpow_logb (by norm_num) (by norm_num) h0, mul_add, mul_one, ← rpow_add (by norm_num)]
    congr 2
    ring
  refine ⟨h1, ?_, ?_⟩
  · have : (10 : ℝ) ^ (-(0.8 * m)) < (10 : ℝ) ^ (-(0.8 * diffM5 t m)) := by
      rw [h1]
      have : (0 : ℝ) < (10 : ℝ) ^ (-(0.8 * t)) := by positivity
      linarith
    have := (rpow_lt_rpow_left_iff (by norm_num : (1 : ℝ) < 10)).mp this
    linarith
  · have : (10 : ℝ) ^ (-(0.8 * t)) < (10 : ℝ) ^ (-(0.8 * diffM5 t m)) := by
      rw [h1]
      have : (0 : ℝ) < (10 : ℝ) ^ (-(0.8 * m)) := by positivity
      linarith
    have := (rpow_lt_rpow_left_iff (by norm_num : (1 : ℝ) < 10)).mp this
    linarith

/-! ## C238 -/

/-- **C238.** At the zenith and at 500 nm the limits are those that are given; at greater zenith
distance they are looser. -/
theorem limits_spec (thr thrM k lat dec lam : ℝ) (hthr : 0 < thr) (hk : k ≤ 0) (hl : 0 < lam) (hlam : lam ≤ 500) (hz : |dec - lat| < π / 2) :
    let x := airmass lat dec
    1 ≤ x ∧ thr ≤ bestSeeing thr x lam ∧ bestM5 thrM k x thr (bestSeeing thr x lam) ≤ thrM ∧
      (dec = lat → lam = 500 → bestSeeing thr x lam = thr ∧ bestM5 thrM k x thr (bestSeeing thr x lam) = thrM) := by
  intro x
  have hc : 0 < cos |dec - lat| := cos_pos_of_mem_Ioo ⟨by linarith [abs_nonneg (dec - lat), pi_pos], hz⟩
  have hx : 1 ≤ x := by
    show 1 ≤ 1 / cos |dec - lat|
    rw [le_div_iff₀ hc, one_mul]
    exact cos_le_one _
  have h1 : 1 ≤ x ^ (0.6 : ℝ) := one_le_rpow hx (by norm_num)
  have h2 : 1 ≤ (500 / lam) ^ (0.3 : ℝ) := one_le_rpow (by rw [le_div_iff₀ hl]; linarith) (by norm_num)
  have hb : thr ≤ bestSeeing thr x lam := by
    unfold bestSeeing
    have h3 : thr * 1 ≤ thr * x ^ (0.6 : ℝ) := by gcongr
    have h4 : thr * x ^ (0.6 : ℝ) * 1 ≤ thr * x ^ (0.6 : ℝ) * (500 / lam) ^ (0.3 : ℝ) := by gcongr
    linarith
  refine ⟨hx, hb, ?_, ?_⟩
  · unfold bestM5
    have h5 : logb 10 (thr / bestSeeing thr x lam) ≤ 0 := by
      have hbp : 0 < bestSeeing thr x lam := by linarith
      apply logb_nonpos (by norm_num) (by positivity)
      rw [div_le_one (by linarith)]
      exact hb
    have h6 : 0 ≤ k * (1 - x) := mul_nonneg_of_nonpos_of_nonpos hk (by linarith)
    linarith
  · rintro rfl rfl
    have hx1 : x = 1 := by
      show 1 / cos |dec - dec| = 1
      simp
    have hb1 : bestSeeing thr x 500 = thr := by
      unfold bestSeeing
      rw [hx1]
      norm_num
    refine ⟨hb1, ?_⟩
    unfold bestM5
    rw [hb1, hx1, div_self hthr.ne']
    simp

/-- What the class says of the limits: they are scaled to the best seeing in the band. For wavelengths
above 500 nm the seeing is better, and the limits tighter. -/
theorem limits_red (thr x lam : ℝ) (hthr : 0 < thr) (hx : 1 ≤ x) (hlam : 500 < lam) : bestSeeing thr x lam < thr * x ^ (0.6 : ℝ) := by
  unfold bestSeeing
  have h1 : 0 < thr * x ^ (0.6 : ℝ) := by positivity
  have h2 : (500 / lam) ^ (0.3 : ℝ) < 1 := rpow_lt_one (by positivity) (by rw [div_lt_one (by linarith)]; exact hlam) (by norm_num)
  nlinarith

/-- The limit never excludes images that are better than the percentile. -/
theorem percentile_qualifies (best pS bestM pM : ℝ) (vs : List Vis) (v : Vis) (q r : ℝ) (hq : Bins.pct (pS / 100) (vs.map Vis.seeing) = some q)
    (hr : Bins.pct ((100 - pM) / 100) (vs.map Vis.m5) = some r) (h1 : v.seeing ≤ q) (h2 : r ≤ v.m5) : ok (benchSeeing best pS vs) (benchM5 bestM pM vs) v = true := by
  unfold ok benchSeeing benchM5
  rw [hq, hr, Bool.and_eq_true, decide_eq_true_iff, decide_eq_true_iff]
  exact ⟨le_trans h1 (le_max_right _ _), le_trans (min_le_right _ _) h2⟩

/-! ## C239 -/

/-- The times of visits in the six bands, in order. -/
noncomputable def usedTimes (vs : List Agn) : List ℝ := Np.sort ((vs.filter (fun v => decide (v.band ∈ ["u", "g", "r", "i", "z", "y"]))).map Agn.mjd)

theorem agnTimes_eq (g r : ℝ) (vs : List Agn) (hpos : ∀ v ∈ vs, 0 < v.mjd) : agnTimes g r vs = usedTimes vs := by
  unfold agnTimes usedTimes
  congr 1
  induction vs with
  | nil => rfl
  | cons v vs ih =>
    have ih := ih (fun u hu => hpos u (List.mem_cons_of_mem _ hu))
    have hv := hpos v (List.mem_cons_self ..)
    rw [List.map_cons]
    by_cases h : v.band ∈ ["u", "g", "r", "i", "z", "y"]
    · have h' : v.band ∈ ["u", "i", "z", "y", "r", "g"] := by
        simp only [List.mem_cons, List.not_mem_nil, or_false] at h ⊢
        tauto
      have e : cutTime g r v = v.mjd := by
        unfold cutTime
        rw [if_pos h']
      rw [e, List.filter_cons_of_pos (by simpa using hv), ih, List.filter_cons_of_pos (by simpa using h), List.map_cons]
    · have h' : ¬ v.band ∈ ["u", "i", "z", "y", "r", "g"] := by
        simp only [List.mem_cons, List.not_mem_nil, or_false] at h ⊢
        tauto
      have e : cutTime g r v = 0 := by
        unfold cutTime
        rw [if_neg h']
        split_ifs <;> rfl
      rw [e, List.filter_cons_of_neg (by simp), ih, List.filter_cons_of_neg (by simpa using h)]

/-- The documented cut: visits in g and r that are not deep enough are not used. -/
def Cutoff : Prop := ∀ (rint : ℝ → ℤ) (c : Calc) (log : Bool) (lag z thr g r : ℝ) (vs : List Agn),
  agnLag rint c log lag z thr g r vs = agnLag rint c log lag z thr g r
    (vs.filter (fun v => !(decide (v.band = "g" ∧ v.m5 ≤ g) || decide (v.band = "r" ∧ v.m5 ≤ r))))

/-- **C239.** The depths and cutoffs have no effect at all. -/
theorem agn_cutoff (rint : ℝ → ℤ) (c : Calc) (log : Bool) (lag z thr g r g' r' : ℝ) (vs vs' : List Agn)
    (h : vs.map (fun v => (v.mjd, v.band)) = vs'.map (fun v => (v.mjd, v.band))) :
    agnLag rint c log lag z thr g r vs = agnLag rint c log lag z thr g' r' vs' := by
  have hm : vs.map (cutTime g r) = vs'.map (cutTime g' r') := by
    have e : ∀ (a b : ℝ) (l : List Agn), l.map (cutTime a b) = (l.map (fun v => (v.mjd, v.band))).map (fun x => cutTime a b ⟨x.1, x.2, 0⟩) := by
      intro a b l
      rw [List.map_map]
      rfl
    rw [e, e g' r' vs', h]
    rfl
  unfold agnLag agnTimes
  rw [hm]

theorem sort_two (a b : ℝ) (h : a ≤ b) : Np.sort [a, b] = [a, b] := Np.sort_eq_self (by simpa using h)

theorem agn_cutoff_false : ¬ Cutoff := by
  intro h
  have h1 := h (fun _ => 0) .mean false 100 1 2.2 22 21.8 [⟨1, "g", 20⟩, ⟨2, "g", 20⟩]
  have hu : usedTimes [⟨1, "g", 20⟩, ⟨2, "g", 20⟩] = [1, 2] := by
    unfold usedTimes
    simp only [List.mem_cons, List.not_mem_nil, or_false, or_true, true_or, decide_true, List.filter_cons, List.filter_nil, if_true, List.map_cons, List.map_nil]
    simp [sort_two]
  have ht : agnTimes 22 21.8 [⟨1, "g", 20⟩, ⟨2, "g", 20⟩] = [1, 2] := by
    rw [agnTimes_eq _ _ _ (by simp), hu]
  have hf : ([⟨1, "g", 20⟩, ⟨2, "g", 20⟩] : List Agn).filter (fun v => !(decide (v.band = "g" ∧ v.m5 ≤ 22) || decide (v.band = "r" ∧ v.m5 ≤ 21.8))) = [] := by
    rw [List.filter_eq_nil_iff]
    intro v hv
    simp only [List.mem_cons, List.not_mem_nil, or_false] at hv
    rcases hv with rfl | rfl <;> norm_num
  rw [hf] at h1
  unfold agnLag at h1
  rw [ht] at h1
  norm_num [Np.diff, cadence, agnTimes, Np.sort] at h1
  cases h1

/-- The value for the mean: the lag over the mean gap in the rest frame, bad below the threshold. -/
theorem agn_mean (rint : ℝ → ℤ) (lag z thr g r a b : ℝ) (vs : List Agn) (hpos : ∀ v ∈ vs, 0 < v.mjd) (h2 : 2 ≤ (usedTimes vs).length)
    (ha : (usedTimes vs).head? = some a) (hb : (usedTimes vs).getLast? = some b) (hab : a < b) :
    let q := lag * (((usedTimes vs).length : ℝ) - 1) / ((1 + z) * (b - a))
    agnLag rint .mean false lag z thr g r vs = if q < thr then .bad else .val q := by
  intro q
  have hlen : (Np.diff (usedTimes vs)).length = (usedTimes vs).length - 1 := by
    unfold Np.diff
    rw [List.length_zipWith, List.length_tail]
    omega
  have hsum : (Np.diff (usedTimes vs)).sum = b - a := by
    match hl : usedTimes vs, ha, hb with
    | x :: xs, ha, hb =>
      rw [Np.diff_sum x xs]
      rw [List.head?_cons, Option.some.injEq] at ha
      rw [List.getLast?_eq_getLast_of_ne_nil (by simp), Option.some.injEq] at hb
      rw [hb, ha]
  have hcast : (((Np.diff (usedTimes vs)).length : ℕ) : ℝ) = ((usedTimes vs).length : ℝ) - 1 := by
    rw [hlen]
    push_cast [Nat.cast_sub (by omega : 1 ≤ (usedTimes vs).length)]
    ring
  have hpos1 : (0 : ℝ) < ((usedTimes vs).length : ℝ) - 1 := by
    have : (2 : ℝ) ≤ ((usedTimes vs).length : ℝ) := by exact_mod_cast h2
    linarith
  unfold agnLag
  rw [agnTimes_eq g r vs hpos]
  simp only
  rw [if_neg (by rw [hlen]; omega)]
  have hcad : cadence rint .mean (Np.diff (usedTimes vs)) = (b - a) / (((usedTimes vs).length : ℝ) - 1) := by
    unfold cadence
    simp only
    rw [hsum, hcast]
  have hne : (b - a) / (((usedTimes vs).length : ℝ) - 1) ≠ 0 := (div_pos (by linarith) hpos1).ne'
  have hq : lag / ((1 + z) * ((b - a) / (((usedTimes vs).length : ℝ) - 1))) = q := by
    have : b - a ≠ 0 := by linarith
    show _ = lag * (((usedTimes vs).length : ℝ) - 1) / ((1 + z) * (b - a))
    rw [mul_div_assoc', div_div_eq_mul_div]
  rw [hcad, if_neg hne, hq]
  simp

/-- One time or none gives the bad value; simultaneous visits give infinity. -/
theorem agn_few (rint : ℝ → ℤ) (c : Calc) (log : Bool) (lag z thr g r : ℝ) (vs : List Agn) (hpos : ∀ v ∈ vs, 0 < v.mjd) (h : (usedTimes vs).length ≤ 1) :
    agnLag rint c log lag z thr g r vs = .bad := by
  unfold agnLag
  rw [agnTimes_eq g r vs hpos]
  simp only
  rw [if_pos]
  unfold Np.diff
  rw [List.length_zipWith, List.length_tail]
  omega

/-- The logarithm does not change which values are bad, and is otherwise that of the value. -/
theorem agn_log (rint : ℝ → ℤ) (c : Calc) (lag z thr g r : ℝ) (vs : List Agn) (hlag : 0 < lag) (hz : 0 ≤ z) (hthr : 0 < thr)
    (hc : 0 ≤ cadence rint c (Np.diff (agnTimes g r vs))) :
    agnLag rint c true lag z thr g r vs = match agnLag rint c false lag z thr g r vs with
      | .bad => .bad
      | .inf => .inf
      | .val x => .val (Real.log x) := by
  unfold agnLag
  simp only
  by_cases h1 : (Np.diff (agnTimes g r vs)).length = 0
  · rw [if_pos h1, if_pos h1]
  rw [if_neg h1, if_neg h1]
  by_cases h2 : cadence rint c (Np.diff (agnTimes g r vs)) = 0
  · rw [if_pos h2, if_pos h2]
  rw [if_neg h2, if_neg h2]
  have hpos : 0 < cadence rint c (Np.diff (agnTimes g r vs)) := lt_of_le_of_ne hc (Ne.symm h2)
  have hq : 0 < lag / ((1 + z) * cadence rint c (Np.diff (agnTimes g r vs))) := by positivity
  simp only [if_true, Bool.false_eq_true, if_false]
  have hiff : Real.log (lag / ((1 + z) * cadence rint c (Np.diff (agnTimes g r vs)))) < Real.log thr ↔
      lag / ((1 + z) * cadence rint c (Np.diff (agnTimes g r vs))) < thr := Real.log_lt_log_iff hq hthr
  by_cases h3 : lag / ((1 + z) * cadence rint c (Np.diff (agnTimes g r vs))) < thr
  · rw [if_pos h3, if_pos (hiff.mpr h3)]
  · rw [if_neg h3, if_neg (fun h => h3 (hiff.mp h))]

/-- The greatest common divisor is zero, and the value infinite, if all gaps are rounded to zero. -/
theorem agn_gcd_inf (rint : ℝ → ℤ) (log : Bool) (lag z thr g r : ℝ) (vs : List Agn) (hpos : ∀ v ∈ vs, 0 < v.mjd) (h2 : 2 ≤ (usedTimes vs).length)
    (h : ∀ d ∈ Np.diff (usedTimes vs), rint d = 0) : agnLag rint .gcd log lag z thr g r vs = .inf := by
  have hfold : ∀ l : List ℤ, (∀ x ∈ l, x = 0) → l.foldl (fun a b => ((Int.gcd a b : ℕ) : ℤ)) (0 : ℤ) = 0 := by
    intro l
    induction l with
    | nil => intro _; rfl
    | cons x l ih =>
      intro hl
      rw [List.foldl_cons, hl x (List.mem_cons_self ..)]
      exact ih (fun y hy => hl y (List.mem_cons_of_mem _ hy))
  unfold agnLag
  rw [agnTimes_eq g r vs hpos]
  simp only
  rw [if_neg, if_pos]
  · show gcdDays rint (Np.diff (usedTimes vs)) = 0
    unfold gcdDays
    rw [hfold]
    · simp
    · intro x hx
      obtain ⟨d, hd, rfl⟩ := List.mem_map.mp hx
      exact h d hd
  · unfold Np.diff
    rw [List.length_zipWith, List.length_tail]
    omega

/-! ## Examples -/

example : templateM5 [⟨0, 1, 1, 24⟩] = 24 ∧ templateSeeing [⟨0, 1, 0.7, 24⟩, ⟨0, 1, 0.7, 25⟩] = 0.7 := by
  constructor
  · rw [templateM5_eq]
    exact RealMetrics.coadd_single 24
  · obtain ⟨h1, h2⟩ := templateSeeing_bounds [⟨0, 1, 0.7, 24⟩, ⟨0, 1, 0.7, 25⟩] (by simp) 0.7 0.7 (by norm_num) (by simp) (by simp)
    linarith

example : agnLag (fun _ => 0) .mean false 100 1 2.2 22 21.8 [⟨1, "g", 20⟩, ⟨2, "i", 20⟩] = .val 50 := by
  have hu : usedTimes [⟨1, "g", 20⟩, ⟨2, "i", 20⟩] = [1, 2] := by
    unfold usedTimes
    simp [sort_two]
  have h := agn_mean (fun _ => 0) 100 1 2.2 22 21.8 1 2 [⟨1, "g", 20⟩, ⟨2, "i", 20⟩] (by simp) (by rw [hu]; simp) (by rw [hu]; rfl) (by rw [hu]; rfl) (by norm_num)
  rw [hu, show (100 : ℝ) * ((([1, 2] : List ℝ).length : ℝ) - 1) / ((1 + 1) * (2 - 1)) = 50 by norm_num] at h
  simp only at h
  rw [h, if_neg (by norm_num)]

end Verif.Template
