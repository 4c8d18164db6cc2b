import Verif.Model.MoreStackers
import Verif.Props.MoStackers

/-!
# Depth, distance, refraction and label stackers

Model: `Verif.Model.MoreStackers`.
-/

namespace Verif.Stack2

open Real
open Verif.MoStack (radians degrees)

/-! ## Effective exposure times and coadded depths -/

/-- A visit at the fiducial depth has the effective time of the base, and a visit as deep as `t`
seconds in fiducial conditions, where depth grows with `1.25 log t`, has `t`. -/
theorem teff_spec {base t : ℝ} (hb : 0 < base) (ht : 0 < t) (fid e : ℝ) :
    teff base fid false e fid = base ∧
    teff base fid false e (fid + 1.25 * logb 10 (t / base)) = t ∧
    teff base fid true t (fid + 1.25 * logb 10 (t / base)) = 1 := by
  have h : base * (10 : ℝ) ^ (0.8 * (fid + 1.25 * logb 10 (t / base) - fid)) = t := by
    rw [show 0.8 * (fid + 1.25 * logb 10 (t / base) - fid) = logb 10 (t / base) by ring,
      rpow_logb (by norm_num) (by norm_num) (by positivity)]
    field_simp
  refine ⟨?_, ?_, ?_⟩
  · simp [teff]
  · simpa [teff] using h
  · simp only [teff, if_true]; rw [h, div_self ht.ne']

theorem teff_mono {base : ℝ} (hb : 0 < base) (fid e : ℝ) {m m' : ℝ} (h : m < m') :
    teff base fid false e m < teff base fid false e m' := by
  simp only [teff, Bool.false_eq_true, if_false]
  refine mul_lt_mul_of_pos_left ?_ hb
  exact rpow_lt_rpow_of_exponent_lt (by norm_num) (by linarith)

theorem sum_pow_pos {l : List ℝ} (h : l ≠ []) : 0 < (l.map fun m => (10 : ℝ) ^ (0.8 * m)).sum := by
  have : ∀ l : List ℝ, 0 ≤ (l.map fun m => (10 : ℝ) ^ (0.8 * m)).sum := by
    intro l
    refine List.sum_nonneg fun x hx => ?_
    obtain ⟨m, -, rfl⟩ := List.mem_map.mp hx
    positivity
  cases l with
  | nil => exact absurd rfl h
  | cons a l =>
    rw [List.map_cons, List.sum_cons]
    have := this l
    positivity

theorem coadd_pow {l : List ℝ} (h : l ≠ []) :
    (10 : ℝ) ^ (0.8 * m5Coadd l) = (l.map fun m => (10 : ℝ) ^ (0.8 * m)).sum := by
  unfold m5Coadd
  rw [show (0.8 : ℝ) * (1.25 * logb 10 (l.map fun m => (10 : ℝ) ^ (0.8 * m)).sum) =
    logb 10 (l.map fun m => (10 : ℝ) ^ (0.8 * m)).sum by ring,
    rpow_logb (by norm_num) (by norm_num) (sum_pow_pos h)]

theorem eq_of_pow {a b : ℝ} (h : (10 : ℝ) ^ (0.8 * a) = 10 ^ (0.8 * b)) : a = b := by
  have := congrArg (logb 10) h
  rw [logb_rpow (by norm_num) (by norm_num), logb_rpow (by norm_num) (by norm_num)] at this
  linarith

/-- Effective times add up: the effective time of coadded visits is the sum of their effective
times. -/
theorem teff_coadd (base fid e : ℝ) {l : List ℝ} (h : l ≠ []) :
    teff base fid false e (m5Coadd l) = (l.map (teff base fid false e)).sum := by
  have key : ∀ m : ℝ, base * (10 : ℝ) ^ (0.8 * (m - fid)) =
      base * 10 ^ (-0.8 * fid) * 10 ^ (0.8 * m) := by
    intro m
    rw [mul_assoc, ← rpow_add (by norm_num)]; congr 2; ring
  have e1 : teff base fid false e = fun m => base * 10 ^ (-0.8 * fid) * (10 : ℝ) ^ (0.8 * m) := by
    funext m
    simp only [teff, Bool.false_eq_true, if_false]; exact key m
  rw [e1, List.sum_map_mul_left, ← coadd_pow h]

/-- The formula of the documentation: with `sigma = flux_5sigma / 5` the coadded flux limit is
`5 / sqrt(sum(1 / sigma^2))`. -/
theorem m5Coadd_spec {l : List ℝ} (h : l ≠ []) :
    m5Coadd l = -2.5 * logb 10
      (5 * (1 / √((l.map fun m => 1 / ((10 : ℝ) ^ (-0.4 * m) / 5) ^ 2).sum))) := by
  have e : (l.map fun m => 1 / ((10 : ℝ) ^ (-0.4 * m) / 5) ^ 2) =
      l.map fun m => 25 * (10 : ℝ) ^ (0.8 * m) := by
    refine List.map_congr_left fun m _ => ?_
    rw [div_pow, ← rpow_natCast ((10 : ℝ) ^ (-0.4 * m)) 2, ← rpow_mul (by norm_num),
      show -0.4 * m * ((2 : ℕ) : ℝ) = -(0.8 * m) by push_cast; ring, rpow_neg (by norm_num)]
    field_simp
    norm_num
  have hp := sum_pow_pos h
  rw [e, List.sum_map_mul_left]
  unfold m5Coadd
  generalize (l.map fun m => (10 : ℝ) ^ (0.8 * m)).sum = s at hp
  rw [show (25 : ℝ) * s = 5 ^ 2 * s by norm_num, sqrt_mul (by norm_num), sqrt_sq (by norm_num),
    show 5 * (1 / (5 * √s)) = (√s)⁻¹ by field_simp, logb_inv, sqrt_eq_rpow, logb_rpow_eq_mul_logb_of_pos hp]
  ring

/-- Coadding in two steps is the same as coadding at once. -/
theorem m5Coadd_append {l l' : List ℝ} (h : l ≠ []) (h' : l' ≠ []) :
    m5Coadd [m5Coadd l, m5Coadd l'] = m5Coadd (l ++ l') := by
  refine eq_of_pow ?_
  rw [coadd_pow (by simp), coadd_pow (by simp [h])]
  simp [coadd_pow h, coadd_pow h']

theorem m5Coadd_perm {l l' : List ℝ} (h : l.Perm l') : m5Coadd l = m5Coadd l' := by
  unfold m5Coadd
  rw [(h.map _).sum_eq]

/-- `n` equal visits are deeper by `1.25 log n`, and one visit has its own depth. -/
theorem m5Coadd_replicate {n : ℕ} (hn : 0 < n) (m : ℝ) :
    m5Coadd (List.replicate n m) = m + 1.25 * logb 10 n := by
  unfold m5Coadd
  rw [List.map_replicate, List.sum_replicate, nsmul_eq_mul,
    logb_mul (by positivity) (by positivity), logb_rpow (by norm_num) (by norm_num)]
  ring

/-- A coadd is deeper than each of its visits if there are at least two. -/
theorem m5Coadd_deeper {l : List ℝ} {m : ℝ} (h : m ∈ l) :
    m ≤ m5Coadd l ∧ (2 ≤ l.length → m < m5Coadd l) := by
  obtain ⟨a, b, rfl⟩ := List.append_of_mem h
  have hperm : (a ++ m :: b).Perm (m :: (a ++ b)) := List.perm_middle
  rw [m5Coadd_perm hperm, hperm.length_eq]
  have conv : ∀ x y : ℝ, (10 : ℝ) ^ (0.8 * x) ≤ 10 ^ (0.8 * y) → x ≤ y := by
    intro x y h
    have := (rpow_le_rpow_left_iff (by norm_num : (1 : ℝ) < 10)).mp h
    linarith
  have conv' : ∀ x y : ℝ, (10 : ℝ) ^ (0.8 * x) < 10 ^ (0.8 * y) → x < y := by
    intro x y h
    have := (rpow_lt_rpow_left_iff (by norm_num : (1 : ℝ) < 10)).mp h
    linarith
  rcases eq_or_ne (a ++ b) [] with hab | hab
  · rw [hab]
    refine ⟨?_, by simp⟩
    rw [show [m] = List.replicate 1 m from rfl, m5Coadd_replicate one_pos]
    simp
  · have hs := sum_pow_pos hab
    have e := coadd_pow (l := m :: (a ++ b)) (by simp)
    rw [List.map_cons, List.sum_cons] at e
    refine ⟨conv _ _ (by rw [e]; linarith), fun _ => conv' _ _ (by rw [e]; linarith)⟩

example : m5Coadd [24] = 24 := by
  have := m5Coadd_replicate one_pos 24
  simpa using this

example : teff 30 24.52 false 30 24.52 = 30 := (teff_spec (by norm_num) one_pos _ _).1

/-! ## Groups of visits -/

section Coadd

theorem sum_ite {κ R : Type} [DecidableEq κ] [AddCommMonoid R] (k : κ) (x : R) {ks : List κ}
    (hn : ks.Nodup) (h : k ∈ ks) : (ks.map fun j => if k = j then x else 0).sum = x := by
  induction ks with
  | nil => cases h
  | cons j ks ih =>
    rw [List.nodup_cons] at hn
    rw [List.map_cons, List.sum_cons]
    by_cases hj : k = j
    · subst hj
      have : (ks.map fun j => if k = j then x else 0) = ks.map fun _ => (0 : R) := by
        refine List.map_congr_left fun j hj => if_neg ?_
        rintro rfl; exact hn.1 hj
      rw [if_pos rfl, this]; simp
    · rw [if_neg hj, zero_add]
      exact ih hn.2 ((List.mem_cons.mp h).resolve_left hj)

/-- The sums over all groups add up to the sum over all elements. -/
theorem sum_groups {α κ R : Type} [DecidableEq κ] [AddCommMonoid R] (key : α → κ) (f : α → R)
    (l : List α) {ks : List κ} (hn : ks.Nodup) (h : ∀ a ∈ l, key a ∈ ks) :
    (ks.map fun k => ((l.filter fun a => decide (key a = k)).map f).sum).sum = (l.map f).sum := by
  induction l with
  | nil => simp
  | cons a l ih =>
    have e : ∀ k, (((a :: l).filter fun a => decide (key a = k)).map f).sum =
        (if key a = k then f a else 0) + ((l.filter fun a => decide (key a = k)).map f).sum := by
      intro k
      by_cases hk : key a = k <;> simp [hk]
    simp only [e]
    rw [List.sum_map_add, sum_ite _ _ hn (h a (by simp)), ih fun b hb => h b (by simp [hb])]
    simp

variable {K : Type} [Field K] [LinearOrder K]

/-- Position, band and night of a visit. -/
def Visit.key (v : Visit K) : K × K × ℕ := (v.ra, v.dec, v.band)

theorem sum_run (coadd : List K → K) (tol : K) (data : List (Visit K)) :
    ((coaddRun coadd tol data).map (·.numExposures)).sum =
      ((data.map Visit.key).dedup.map fun k =>
        ((data.filter (near tol k)).map (·.numExposures)).sum).sum ∧
    ((coaddRun coadd tol data).map (·.visitTime)).sum =
      ((data.map Visit.key).dedup.map fun k =>
        ((data.filter (near tol k)).map (·.visitTime)).sum).sum ∧
    ((coaddRun coadd tol data).map (·.exposureTime)).sum =
      ((data.map Visit.key).dedup.map fun k =>
        ((data.filter (near tol k)).map (·.exposureTime)).sum).sum := by
  have gen : ∀ f : Visit K → K, ((groups tol data).map fun g => (g.2.map f).sum).sum =
      ((data.map Visit.key).dedup.map fun k => ((data.filter (near tol k)).map f).sum).sum := by
    intro f
    unfold groups
    rw [List.map_flatMap, List.flatMap_def, List.sum_flatten, List.map_map]
    refine congrArg List.sum (List.map_congr_left fun k _ => ?_)
    simp only [Function.comp_def, List.map_map]
    exact sum_groups (fun v : Visit K => v.night) f _ (List.nodup_dedup _) fun a ha =>
      List.mem_dedup.mpr (List.mem_map_of_mem ha)
  refine ⟨?_, ?_, ?_⟩ <;>
  · rw [← gen]; unfold coaddRun; rw [List.map_map]; rfl

/-- Visits in a band are at the same position or at least `tol` apart. -/
def Separated (tol : K) (data : List (Visit K)) : Prop :=
  ∀ v ∈ data, ∀ w ∈ data, v.band = w.band → |v.ra - w.ra| < tol → |v.dec - w.dec| < tol →
    v.ra = w.ra ∧ v.dec = w.dec

theorem near_true (tol : K) (v w : Visit K) : near tol w.key v = true ↔
    |v.ra - w.ra| < tol ∧ |v.dec - w.dec| < tol ∧ v.band = w.band := by
  show (decide (|v.ra - w.ra| < tol) && decide (|v.dec - w.dec| < tol) &&
    decide (v.band = w.band)) = true ↔ _
  simp only [Bool.and_eq_true, decide_eq_true_eq, and_assoc]

theorem near_iff [IsStrictOrderedRing K] {tol : K} (ht : 0 < tol) {data : List (Visit K)}
    (hs : Separated tol data) {v w : Visit K} (hv : v ∈ data) (hw : w ∈ data) :
    near tol w.key v = decide (v.key = w.key) := by
  rw [Bool.eq_iff_iff, near_true, decide_eq_true_eq]
  simp only [Visit.key, Prod.mk.injEq]
  constructor
  · rintro ⟨h1, h2, h3⟩
    obtain ⟨a, b⟩ := hs v hv w hw h3 h1 h2
    exact ⟨a, b, h3⟩
  · rintro ⟨a, b, c⟩
    rw [a, b, sub_self, sub_self, abs_zero]
    exact ⟨ht, ht, c⟩

/-- Exposures and times are preserved in total if positions are separated. -/
theorem coadd_partial [IsStrictOrderedRing K] (coadd : List K → K) {tol : K} (ht : 0 < tol)
    {data : List (Visit K)} (hs : Separated tol data) :
    ((coaddRun coadd tol data).map (·.numExposures)).sum = (data.map (·.numExposures)).sum ∧
    ((coaddRun coadd tol data).map (·.visitTime)).sum = (data.map (·.visitTime)).sum ∧
    ((coaddRun coadd tol data).map (·.exposureTime)).sum = (data.map (·.exposureTime)).sum := by
  obtain ⟨h1, h2, h3⟩ := sum_run coadd tol data
  have gen : ∀ f : Visit K → K, ((data.map Visit.key).dedup.map fun k =>
      ((data.filter (near tol k)).map f).sum).sum = (data.map f).sum := by
    intro f
    rw [← sum_groups Visit.key f data (List.nodup_dedup (data.map Visit.key)) fun a ha =>
      List.mem_dedup.mpr (List.mem_map_of_mem ha)]
    refine congrArg List.sum (List.map_congr_left fun k hk => ?_)
    obtain ⟨w, hw, rfl⟩ := List.mem_map.mp (List.mem_dedup.mp hk)
    congr 2
    exact List.filter_congr fun v hv => near_iff ht hs hv hw
  rw [h1, h2, h3]
  exact ⟨gen _, gen _, gen _⟩

/-- Two visits of a night in a band at different positions closer than the tolerance are both
counted twice. -/
theorem coadd_false (coadd : List K → K) [IsStrictOrderedRing K] {tol : K} (ht : 0 < tol)
    {v w : Visit K} (hb : v.band = w.band) (hne : v.key ≠ w.key)
    (hr : |v.ra - w.ra| < tol) (hd : |v.dec - w.dec| < tol) :
    ((coaddRun coadd tol [v, w]).map (·.numExposures)).sum =
      2 * ([v, w].map (·.numExposures)).sum := by
  rw [(sum_run coadd tol [v, w]).1]
  have e : ([v, w].map Visit.key).dedup = [v.key, w.key] := by
    have : v.key ∉ [w.key] := by simpa using hne
    simp only [List.map_cons, List.map_nil]
    rw [List.dedup_cons_of_notMem this, List.dedup_cons_of_notMem (by simp), List.dedup_nil]
  have nv : ∀ x : Visit K, near tol x.key x = true := fun x =>
    (near_true _ _ _).mpr ⟨by simpa using ht, by simpa using ht, rfl⟩
  have a : near tol v.key w = true :=
    (near_true _ _ _).mpr ⟨by rwa [abs_sub_comm], by rwa [abs_sub_comm], hb.symm⟩
  have b : near tol w.key v = true := (near_true _ _ _).mpr ⟨hr, hd, hb⟩
  rw [e]
  simp [nv, a, b]
  ring

theorem mem_run {coadd : List K → K} {tol : K} {data : List (Visit K)} {o : Visit K} :
    o ∈ coaddRun coadd tol data ↔ ∃ w ∈ data, ∃ v ∈ data, near tol w.key v = true ∧
      o = fill coadd w.band ((data.filter (near tol w.key)).filter
        fun x => decide (x.night = v.night)) := by
  unfold coaddRun groups
  simp only [List.mem_map, List.mem_flatMap, List.mem_dedup]
  constructor
  · rintro ⟨g, ⟨k, ⟨w, hw, rfl⟩, n, ⟨v, hv, rfl⟩, rfl⟩, rfl⟩
    exact ⟨w, hw, v, (List.mem_filter.mp hv).1, (List.mem_filter.mp hv).2, rfl⟩
  · rintro ⟨w, hw, v, hv, hn, rfl⟩
    exact ⟨_, ⟨_, ⟨w, hw, rfl⟩, _, ⟨v, List.mem_filter.mpr ⟨hv, hn⟩, rfl⟩, rfl⟩, rfl⟩

theorem median_const [IsStrictOrderedRing K] {xs : List K} {c : K} (hne : xs ≠ [])
    (h : ∀ x ∈ xs, x = c) : Mo.median xs = c := by
  have hp : (Np.sort xs).Perm xs := List.perm_insertionSort _ _
  have hall : ∀ i < (Np.sort xs).length, (Np.sort xs).getD i 0 = c := by
    intro i hi
    rw [List.getD_eq_getElem?_getD, List.getElem?_eq_getElem hi, Option.getD_some]
    exact h _ (hp.mem_iff.mp (List.getElem_mem hi))
  have hlen : 0 < (Np.sort xs).length := by
    rw [hp.length_eq]; exact List.length_pos_iff.mpr hne
  unfold Mo.median
  dsimp only
  split_ifs
  · exact hall _ (by omega)
  · rw [hall _ (by omega), hall _ (by omega)]; ring

/-- The group of all visits with the position, band and night of `w`. -/
theorem fill_spec [IsStrictOrderedRing K] (coadd : List K → K) {tab : List (Visit K)} {w : Visit K}
    (hw : w ∈ tab) (h : ∀ v ∈ tab, v.key = w.key ∧ v.night = w.night) :
    (fill coadd w.band tab).key = w.key ∧ (fill coadd w.band tab).night = w.night := by
  have hne : tab ≠ [] := List.ne_nil_of_mem hw
  have hk : ∀ v ∈ tab, v.ra = w.ra ∧ v.dec = w.dec := fun v hv => by
    have := (h v hv).1
    simp only [Visit.key, Prod.mk.injEq] at this
    exact ⟨this.1, this.2.1⟩
  constructor
  · simp only [Visit.key, fill, Prod.mk.injEq, and_true]
    refine ⟨median_const (by simpa using hne) ?_, median_const (by simpa using hne) ?_⟩
    · intro x hx; obtain ⟨v, hv, rfl⟩ := List.mem_map.mp hx; exact (hk v hv).1
    · intro x hx; obtain ⟨v, hv, rfl⟩ := List.mem_map.mp hx; exact (hk v hv).2
  · cases tab with
    | nil => exact absurd rfl hne
    | cons v tab => exact (h v (by simp)).2

theorem filter_near [IsStrictOrderedRing K] {tol : K} (ht : 0 < tol)
    {data : List (Visit K)} (hs : Separated tol data) {w : Visit K} (hw : w ∈ data) (n : ℤ) :
    (data.filter (near tol w.key)).filter (fun x => decide (x.night = n)) =
      data.filter fun v => decide (v.key = w.key ∧ v.night = n) := by
  rw [List.filter_filter]
  refine List.filter_congr fun v hv => ?_
  rw [near_iff ht hs hv hw, Bool.decide_and, Bool.and_comm]

/-- For separated positions a row of the result has the position, band and night of one of the
visits, and the coadded depth and the sums of all visits with these, and there is a row for each
visit. -/
theorem rows_partial [IsStrictOrderedRing K] (coadd : List K → K) {tol : K} (ht : 0 < tol)
    {data : List (Visit K)} (hs : Separated tol data) {o : Visit K} :
    o ∈ coaddRun coadd tol data ↔ ∃ w ∈ data, o.key = w.key ∧ o.night = w.night ∧
      let same := data.filter fun v => decide (v.key = w.key ∧ v.night = w.night)
      o.m5 = coadd (same.map (·.m5)) ∧ o.numExposures = (same.map (·.numExposures)).sum ∧
      o.visitTime = (same.map (·.visitTime)).sum ∧
      o.exposureTime = (same.map (·.exposureTime)).sum := by
  have main : o ∈ coaddRun coadd tol data ↔ ∃ w ∈ data,
      o = fill coadd w.band (data.filter fun v => decide (v.key = w.key ∧ v.night = w.night)) := by
    rw [mem_run]
    constructor
    · rintro ⟨w, hw, v, hv, hn, rfl⟩
      rw [near_iff ht hs hv hw, decide_eq_true_eq] at hn
      refine ⟨v, hv, ?_⟩
      rw [filter_near ht hs hw, hn, show v.band = w.band from congrArg (fun k => k.2.2) hn]
    · rintro ⟨w, hw, rfl⟩
      refine ⟨w, hw, w, hw, ?_, ?_⟩
      · rw [near_iff ht hs hw hw]; simp
      · rw [filter_near ht hs hw]
  rw [main]
  refine exists_congr fun w => and_congr_right fun hw => ?_
  obtain ⟨h1, h2⟩ := fill_spec coadd (w := w)
    (tab := data.filter fun v => decide (v.key = w.key ∧ v.night = w.night))
    (by simp [hw]) (fun v hv => by simpa using (List.mem_filter.mp hv).2)
  constructor
  · rintro rfl; exact ⟨h1, h2, rfl, rfl, rfl, rfl⟩
  · rintro ⟨a, b, c, d, e, f⟩
    rw [← h1] at a
    rw [← h2] at b
    have a1 : o.ra = _ := congrArg (fun k => k.1) a
    have a2 : o.dec = _ := congrArg (fun k => k.2.1) a
    have a3 : o.band = _ := congrArg (fun k => k.2.2) a
    cases o
    dsimp only [Visit.key] at a1 a2 a3 b c d e f
    rw [a1, a2, a3, b, c, d, e, f]
    rfl

/-- For separated positions no two rows have the same position, band and night. -/
theorem rows_unique_partial [IsStrictOrderedRing K] (coadd : List K → K) {tol : K} (ht : 0 < tol)
    {data : List (Visit K)} (hs : Separated tol data) :
    ((coaddRun coadd tol data).map fun o => (o.key, o.night)).Nodup := by
  have e : ((coaddRun coadd tol data).map fun o => (o.key, o.night)) =
      (data.map Visit.key).dedup.flatMap fun key =>
        ((data.filter (near tol key)).map (·.night)).dedup.map fun night => (key, night) := by
    unfold coaddRun groups
    rw [List.map_map, List.map_flatMap]
    refine List.flatMap_congr fun k hk => ?_
    obtain ⟨w, hw, rfl⟩ := List.mem_map.mp (List.mem_dedup.mp hk)
    rw [List.map_map]
    refine List.map_congr_left fun n hn => ?_
    obtain ⟨v, hv, rfl⟩ := List.mem_map.mp (List.mem_dedup.mp hn)
    obtain ⟨hv, hvn⟩ := List.mem_filter.mp hv
    change near tol w.key v = true at hvn
    rw [near_iff ht hs hv hw, decide_eq_true_eq] at hvn
    have := fill_spec coadd (w := v)
      (tab := data.filter fun x => decide (x.key = w.key ∧ x.night = v.night))
      (by simp [hv, hvn]) (fun x hx => by rw [hvn]; simpa using (List.mem_filter.mp hx).2)
    show ((fill coadd w.band ((data.filter (near tol w.key)).filter
      fun x => decide (x.night = v.night))).key, (fill coadd w.band
      ((data.filter (near tol w.key)).filter fun x => decide (x.night = v.night))).night) = _
    rw [filter_near ht hs hw, show w.band = v.band from congrArg (fun k => k.2.2) hvn.symm,
      this.1, this.2, hvn, show v.band = w.band from congrArg (fun k => k.2.2) hvn]
    rfl
  rw [e, List.nodup_flatMap]
  refine ⟨fun k _ => (List.nodup_dedup _).map fun a b h => (Prod.mk.inj h).2, ?_⟩
  refine (List.nodup_dedup _).imp fun {a b} hab => ?_
  intro x ha hb
  obtain ⟨n, -, rfl⟩ := List.mem_map.mp ha
  obtain ⟨n', -, h⟩ := List.mem_map.mp hb
  exact hab (Prod.mk.inj h).1.symm

example : ((coaddRun (fun _ => 0) (1 / 100000)
    [⟨10, -20, 2, 1, 24, 2, 34, 30⟩, ⟨10, -20, 2, 1, 24, 2, 34, 30⟩, ⟨10, -20, 2, 2, 24, 1, 34, 30⟩,
      ⟨12, -20, 2, 1, 24, 1, 34, 30⟩] : List (Visit ℚ)).map (·.numExposures)) = [4, 1, 1] := by
  decide +kernel

end Coadd

/-! ## Altitude and azimuth -/

theorem clip1_eq {x : ℝ} (h : -1 ≤ x) (h' : x ≤ 1) : clip1 x = x := by
  unfold clip1
  dsimp only
  rw [if_neg (not_lt.mpr h), if_neg (not_lt.mpr h')]

theorem sinalt_range (dec lat ha : ℝ) :
    -1 ≤ sin dec * sin lat + cos dec * cos lat * cos ha ∧
    sin dec * sin lat + cos dec * cos lat * cos ha ≤ 1 := by
  have h1 := sin_sq_add_cos_sq dec
  have h2 := sin_sq_add_cos_sq lat
  have h3 := sin_sq_add_cos_sq ha
  have key : (sin dec * sin lat + cos dec * cos lat * cos ha) ^ 2 +
      (sin dec * cos lat - cos dec * sin lat * cos ha) ^ 2 + (cos dec * sin ha) ^ 2 = 1 := by
    have e : (sin dec * sin lat + cos dec * cos lat * cos ha) ^ 2 +
      (sin dec * cos lat - cos dec * sin lat * cos ha) ^ 2 + (cos dec * sin ha) ^ 2 =
      (sin lat ^ 2 + cos lat ^ 2) * (sin dec ^ 2 + cos dec ^ 2 * cos ha ^ 2) +
        cos dec ^ 2 * sin ha ^ 2 := by ring
    rw [e, h2]
    have : sin dec ^ 2 + cos dec ^ 2 * cos ha ^ 2 + cos dec ^ 2 * sin ha ^ 2 =
      sin dec ^ 2 + cos dec ^ 2 * (sin ha ^ 2 + cos ha ^ 2) := by ring
    rw [one_mul, this, h3, mul_one, h1]
  refine abs_le.mp ((sq_le_one_iff_abs_le_one _).mp ?_)
  nlinarith [sq_nonneg (sin dec * cos lat - cos dec * sin lat * cos ha),
    sq_nonneg (cos dec * sin ha)]

theorem sin_alt (dec lat ha : ℝ) :
    sin (altAz dec lat ha).1 = sin dec * sin lat + cos dec * cos lat * cos ha := by
  obtain ⟨h, h'⟩ := sinalt_range dec lat ha
  unfold altAz
  dsimp only
  rw [clip1_eq h h', sin_arcsin h h']

/-- The vector of altitude and azimuth, from north over east, is that of declination and hour angle
turned by the latitude. -/
theorem altAz_spec {dec lat ha : ℝ} (hd : 0 ≤ cos dec) (hl : 0 < cos lat) :
    let p := altAz dec lat ha;
    -(π / 2) ≤ p.1 ∧ p.1 ≤ π / 2 ∧ 0 ≤ p.2 ∧ p.2 ≤ 2 * π ∧
    (cos p.1 ≠ 0 → (cos p.1 * cos p.2, cos p.1 * sin p.2, sin p.1) =
      (sin dec * cos lat - cos dec * sin lat * cos ha, -(cos dec * sin ha),
        sin dec * sin lat + cos dec * cos lat * cos ha)) := by
  dsimp only
  have hs := sin_alt dec lat ha
  obtain ⟨r1, r2⟩ := sinalt_range dec lat ha
  have b1 : -(π / 2) ≤ (altAz dec lat ha).1 := neg_pi_div_two_le_arcsin _
  have b2 : (altAz dec lat ha).1 ≤ π / 2 := arcsin_le_pi_div_two _
  have hc0 : 0 ≤ cos (altAz dec lat ha).1 := cos_nonneg_of_neg_pi_div_two_le_of_le b1 b2
  set alt := (altAz dec lat ha).1 with halt
  set c := clip1 ((sin dec - sin alt * sin lat) / (cos alt * cos lat)) with hcdef
  have haz : (altAz dec lat ha).2 = if sin ha > 0 then 2 * π - arccos c else arccos c := rfl
  have a1 := arccos_nonneg c
  have a2 := arccos_le_pi c
  refine ⟨b1, b2, ?_, ?_, fun hne => ?_⟩
  · rw [haz]; split_ifs <;> linarith
  · rw [haz]; split_ifs <;> linarith [pi_pos]
  · have hc : 0 < cos alt := lt_of_le_of_ne hc0 (Ne.symm hne)
    have h1 := sin_sq_add_cos_sq dec
    have h2 := sin_sq_add_cos_sq lat
    have h3 := sin_sq_add_cos_sq ha
    have h4 := sin_sq_add_cos_sq alt
    have hnum : sin dec - sin alt * sin lat =
        cos lat * (sin dec * cos lat - cos dec * sin lat * cos ha) := by
      rw [hs]
      have : sin dec = sin dec * (sin lat ^ 2 + cos lat ^ 2) := by rw [h2, mul_one]
      linear_combination this
    have hcos2 : cos alt ^ 2 = (sin dec * cos lat - cos dec * sin lat * cos ha) ^ 2 +
        (cos dec * sin ha) ^ 2 := by
      have e : cos alt ^ 2 = 1 - sin alt ^ 2 := by linarith
      rw [e, hs]
      have e2 : (sin dec * sin lat + cos dec * cos lat * cos ha) ^ 2 +
        (sin dec * cos lat - cos dec * sin lat * cos ha) ^ 2 + (cos dec * sin ha) ^ 2 =
        (sin lat ^ 2 + cos lat ^ 2) * (sin dec ^ 2 + cos dec ^ 2 * cos ha ^ 2) +
          cos dec ^ 2 * sin ha ^ 2 := by ring
      rw [h2, one_mul] at e2
      have e3 : sin dec ^ 2 + cos dec ^ 2 * cos ha ^ 2 + cos dec ^ 2 * sin ha ^ 2 = 1 := by
        have : cos dec ^ 2 * cos ha ^ 2 + cos dec ^ 2 * sin ha ^ 2 = cos dec ^ 2 := by
          rw [← mul_add, add_comm, h3, mul_one]
        linarith
      linarith
    set n := sin dec * cos lat - cos dec * sin lat * cos ha with hn
    have hq : (sin dec - sin alt * sin lat) / (cos alt * cos lat) = n / cos alt := by
      rw [hnum]; field_simp
    have hle : |n / cos alt| ≤ 1 := by
      rw [abs_div, abs_of_pos hc, div_le_one hc]
      exact abs_le_of_sq_le_sq (by nlinarith [sq_nonneg (cos dec * sin ha)]) hc0
    obtain ⟨q1, q2⟩ := abs_le.mp hle
    have hcc : c = n / cos alt := by rw [hcdef, hq, clip1_eq q1 q2]
    have hcosacc : cos (arccos c) = n / cos alt := by rw [hcc, cos_arccos q1 q2]
    have hsinacc : cos alt * sin (arccos c) = cos dec * |sin ha| := by
      rw [sin_arccos, hcc]
      have : 1 - (n / cos alt) ^ 2 = (cos dec * |sin ha| / cos alt) ^ 2 := by
        rw [div_pow, div_pow, mul_pow, sq_abs, eq_div_iff (by positivity), sub_mul, one_mul,
          div_mul_cancel₀ _ (by positivity), hcos2]
        ring
      rw [this, sqrt_sq (by positivity)]
      field_simp
    refine Prod.ext ?_ (Prod.ext ?_ hs)
    · show cos alt * cos (altAz dec lat ha).2 = n
      rw [haz]
      split_ifs
      · rw [cos_two_pi_sub, hcosacc]; field_simp
      · rw [hcosacc]; field_simp
    · show cos alt * sin (altAz dec lat ha).2 = -(cos dec * sin ha)
      rw [haz]
      split_ifs with h
      · rw [sin_two_pi_sub, mul_neg, hsinacc, abs_of_pos h]
      · rw [hsinacc, abs_of_nonpos (not_lt.mp h)]; ring

/-- `wrap_ra` gives the same angle from 0 to `2 π`, and changes no such angle. -/
theorem wrapRa_spec (ra : ℝ) :
    0 ≤ wrapRa ra ∧ wrapRa ra < 2 * π ∧ (∃ k : ℤ, wrapRa ra = ra + k * (2 * π)) ∧
    (0 ≤ ra → ra < 2 * π → wrapRa ra = ra) := by
  have hp := two_pi_pos
  unfold wrapRa
  have h1 := Int.floor_le (ra / (2 * π))
  have h2 := Int.lt_floor_add_one (ra / (2 * π))
  rw [le_div_iff₀ hp] at h1
  rw [div_lt_iff₀ hp] at h2
  refine ⟨by linarith, by linarith, ⟨-⌊ra / (2 * π)⌋, by push_cast; ring⟩, fun h h' => ?_⟩
  have : ⌊ra / (2 * π)⌋ = 0 := by
    rw [Int.floor_eq_zero_iff]
    exact ⟨by positivity, by rwa [div_lt_one hp]⟩
  rw [this]; simp

/-- Galactic coordinates are in the units of the stacker for radians. -/
theorem galactic_partial (toGal : ℝ → ℝ → ℝ × ℝ) (ra dec : ℝ) :
    galacticUnits false = ["radians", "radians"] ∧ galactic toGal false ra dec = toGal ra dec :=
  ⟨rfl, rfl⟩

/-- The claim that they are in degrees for degrees fails: they are in radians, which is the same
for 0 only. -/
theorem galactic_false (toGal : ℝ → ℝ → ℝ × ℝ) (ra dec : ℝ) :
    galacticUnits true = ["degrees", "degrees"] ∧
    ((galactic toGal true ra dec).1 = degrees (toGal (radians ra) (radians dec)).1 ↔
      (toGal (radians ra) (radians dec)).1 = 0) ∧
    ((galactic toGal true ra dec).2 = degrees (toGal (radians ra) (radians dec)).2 ↔
      (toGal (radians ra) (radians dec)).2 = 0) := by
  have key : ∀ x : ℝ, x = degrees x ↔ x = 0 := by
    intro x
    unfold degrees
    have : (1 : ℝ) < 180 / π := by
      rw [lt_div_iff₀ pi_pos]; have := pi_le_four; linarith
    constructor
    · intro h
      have : x * (180 / π - 1) = 0 := by linarith
      rcases mul_eq_zero.mp this with h | h
      · exact h
      · linarith
    · rintro rfl; simp
  refine ⟨rfl, ?_, ?_⟩
  · exact key _
  · exact key _

/-! ## Depths on the meridian -/

theorem minAirmass_eq (lat dec : ℝ) : minAirmass lat dec = 1 / cos (dec - lat) := by
  unfold minAirmass; rw [cos_abs]

/-- The normalised airmass of a visit above the horizon is at least 1, and 1 on the meridian
only. -/
theorem normAirmass_spec {latDeg dec ha : ℝ} (hd : 0 < cos dec) (hl : 0 < cos (radians latDeg))
    (h : 0 < sin (altAz dec (radians latDeg) ha).1) :
    let x := 1 / sin (altAz dec (radians latDeg) ha).1
    1 ≤ normAirmass false latDeg x dec ∧ (normAirmass false latDeg x dec = 1 ↔ cos ha = 1) := by
  dsimp only
  rw [sin_alt] at h ⊢
  unfold normAirmass
  simp only [Bool.false_eq_true, if_false]
  rw [minAirmass_eq, cos_sub]
  generalize radians latDeg = lat at *
  have hc := cos_le_one ha
  have hdl := mul_pos hd hl
  have hle : sin dec * sin lat + cos dec * cos lat * cos ha ≤
      cos dec * cos lat + sin dec * sin lat := by nlinarith
  have hp : 0 < cos dec * cos lat + sin dec * sin lat := lt_of_lt_of_le h hle
  have e : 1 / (sin dec * sin lat + cos dec * cos lat * cos ha) /
      (1 / (cos dec * cos lat + sin dec * sin lat)) =
      (cos dec * cos lat + sin dec * sin lat) / (sin dec * sin lat + cos dec * cos lat * cos ha) := by
    field_simp
  rw [e]
  refine ⟨by rwa [le_div_iff₀ h, one_mul], ?_⟩
  rw [div_eq_one_iff_eq h.ne']
  constructor
  · intro hh
    have : cos dec * cos lat * (1 - cos ha) = 0 := by linarith
    rcases mul_eq_zero.mp this with h | h
    · exact absurd h hdl.ne'
    · linarith
  · intro hh; rw [hh]; ring

theorem normAirmass_deg (latDeg x dec : ℝ) :
    normAirmass true latDeg x dec = normAirmass false latDeg x (radians dec) := rfl

theorem slopes_neg (b : Fin 6) : skySlopes b < 0 := by
  fin_cases b <;> simp [skySlopes] <;> norm_num

theorem kAtm_pos (b : Fin 6) : 0 < kAtm b := by
  fin_cases b <;> simp [kAtm] <;> norm_num

/-- The optimal depth is at least the depth, and equal at the smallest airmass only. -/
theorem m5Optimal_spec {lat dec airmass : ℝ} (band : Fin 6) (moonAlt sunAlt m5 : ℝ)
    (hx : 0 < minAirmass lat (radians dec)) (h : minAirmass lat (radians dec) ≤ airmass) :
    m5 ≤ m5Optimal lat band dec airmass moonAlt sunAlt m5 ∧
    (m5Optimal lat band dec airmass moonAlt sunAlt m5 = m5 ↔
      airmass = minAirmass lat (radians dec)) := by
  unfold m5Optimal
  dsimp only
  generalize minAirmass lat (radians dec) = x at *
  have hs := slopes_neg band
  have hk := kAtm_pos band
  have ha : 0 < airmass := lt_of_lt_of_le hx h
  have hlog : logb 10 (x / airmass) ≤ 0 :=
    logb_nonpos (by norm_num) (by positivity) (by rwa [div_le_one ha])
  have hsky : ∀ d : ℝ, d = (if moonAlt > 0 ∨ sunAlt > radians (-18) then 0
      else skySlopes band * (airmass - x)) → d ≤ 0 := by
    rintro d rfl
    split_ifs
    · exact le_rfl
    · exact mul_nonpos_of_nonpos_of_nonneg hs.le (by linarith)
  generalize hd : (if moonAlt > 0 ∨ sunAlt > radians (-18) then 0
      else skySlopes band * (airmass - x)) = d
  have hd0 := hsky d hd.symm
  have hk0 : kAtm band * (x - airmass) ≤ 0 :=
    mul_nonpos_of_nonneg_of_nonpos hk.le (by linarith)
  refine ⟨by linarith, fun he => ?_, fun he => ?_⟩
  · have : kAtm band * (x - airmass) = 0 := by linarith
    rcases mul_eq_zero.mp this with h | h <;> linarith
  · subst he
    have : d = 0 := by rw [← hd]; simp
    rw [this, div_self ha.ne']; simp

/-- With the moon up the sky brightness stays the same. -/
theorem m5Optimal_moon (lat : ℝ) (band : Fin 6) (dec airmass sunAlt m5 : ℝ) {moonAlt : ℝ}
    (h : 0 < moonAlt) :
    m5Optimal lat band dec airmass moonAlt sunAlt m5 =
      m5 - 0.15 * logb 10 (minAirmass lat (radians dec) / airmass) -
        kAtm band * (minAirmass lat (radians dec) - airmass) := by
  unfold m5Optimal
  dsimp only
  rw [if_pos (Or.inl h)]; ring

/-- The claim that it stays the same in twilight, with the sun above -18 degrees, fails: the
altitude in degrees is compared with -18 degrees in radians, so for all of twilight with the sun
below -1 degree the sky changes. -/
theorem twilight_false (lat : ℝ) (band : Fin 6) (dec m5 : ℝ) {airmass moonAlt sunAlt : ℝ}
    (hm : moonAlt ≤ 0) (h : sunAlt ≤ -1) (hx : airmass ≠ minAirmass lat (radians dec)) :
    m5Optimal lat band dec airmass moonAlt sunAlt m5 ≠
      m5 - 0.15 * logb 10 (minAirmass lat (radians dec) / airmass) -
        kAtm band * (minAirmass lat (radians dec) - airmass) := by
  unfold m5Optimal
  dsimp only
  have : ¬ (moonAlt > 0 ∨ sunAlt > radians (-18)) := by
    rintro (h' | h')
    · linarith
    · unfold radians at h'
      have := pi_le_four
      linarith
  rw [if_neg this]
  intro e
  have : skySlopes band * (airmass - minAirmass lat (radians dec)) = 0 := by linarith
  rcases mul_eq_zero.mp this with h | h
  · exact absurd h (slopes_neg band).ne
  · exact hx (by linarith)

/-- The claim that the required columns have all that is read fails for the depth. -/
theorem m5Cols_false : "fiveSigmaDepth" ∈ m5ColsRead ∧ "fiveSigmaDepth" ∉ m5ColsReq ∧
    ∀ c ∈ m5ColsRead, c ≠ "fiveSigmaDepth" → c ∈ m5ColsReq := by decide

/-! ## Distances of near earth objects -/

/-- The position is at distance `d` from the earth at `(0, 1)`, and `R` is its distance from the
sun. -/
theorem helioXY_spec (elong d : ℝ) :
    (helioXY elong d).1 ^ 2 + ((helioXY elong d).2 - 1) ^ 2 = d ^ 2 ∧
    (helioXY elong d).1 ^ 2 + (helioXY elong d).2 ^ 2 = helioDist elong d ^ 2 := by
  have e : helioXY elong d = (d * sin elong, 1 - d * cos elong) := by
    unfold helioXY
    split_ifs
    · rw [Prod.mk.injEq]; exact ⟨rfl, by ring⟩
    · rw [sin_pi_sub, cos_pi_sub, Prod.mk.injEq]; exact ⟨rfl, by ring⟩
  have h := sin_sq_add_cos_sq elong
  have hR : helioDist elong d ^ 2 = 1 + d ^ 2 - 2 * d * cos elong := by
    unfold helioDist
    rw [sq_sqrt]
    nlinarith [sq_nonneg (d - cos elong), sq_nonneg (sin elong)]
  rw [e, hR]
  dsimp only
  constructor <;> linear_combination d ^ 2 * h

/-- The cosine of the phase angle is one: it is the scalar product of the directions to the sun and
to the earth, and lies between -1 and 1. -/
theorem cosAlpha_spec {elong d : ℝ} (hd : 0 < d) (hR : 0 < helioDist elong d) :
    let p := helioXY elong d
    cosAlpha elong d = (-p.1 * -p.1 + -p.2 * (1 - p.2)) / (helioDist elong d * d) ∧
    -1 ≤ cosAlpha elong d ∧ cosAlpha elong d ≤ 1 := by
  dsimp only
  obtain ⟨h1, h2⟩ := helioXY_spec elong d
  set x := (helioXY elong d).1
  set y := (helioXY elong d).2
  set r := helioDist elong d
  have e : cosAlpha elong d = (-x * -x + -y * (1 - y)) / (r * d) := by
    unfold cosAlpha
    rw [div_eq_div_iff (by change -2 * d * r ≠ 0; positivity) (by positivity)]
    change (1 - r ^ 2 - d ^ 2) * (r * d) = (-x * -x + -y * (1 - y)) * (-2 * d * r)
    linear_combination (r * d) * h1 + (r * d) * h2
  refine ⟨e, ?_⟩
  rw [e]
  refine abs_le.mp ?_
  rw [abs_div, abs_of_pos (by positivity : 0 < r * d), div_le_one (by positivity)]
  refine abs_le_of_sq_le_sq ?_ (by positivity)
  rw [mul_pow, ← h1, ← h2]
  nlinarith [sq_nonneg x]

theorem maxGeoDist_none {mag : ℝ → ℝ} {v5 : ℝ} {deltas : List ℝ} (h : ∀ d ∈ deltas, mag d ≤ v5) :
    maxGeoDist mag v5 deltas = 0 := by
  have : (deltas.filter fun d => decide (v5 < mag d)) = [] := by
    rw [List.filter_eq_nil_iff]
    intro d hd
    simpa using h d hd
  unfold maxGeoDist
  rw [this]; rfl

theorem maxGeoDist_some {mag : ℝ → ℝ} {v5 : ℝ} {deltas : List ℝ} (h : ∃ d ∈ deltas, v5 < mag d) :
    maxGeoDist mag v5 deltas ∈ deltas ∧ v5 < mag (maxGeoDist mag v5 deltas) ∧
    ∀ d ∈ deltas, v5 < mag d → maxGeoDist mag v5 deltas ≤ d := by
  obtain ⟨d, hd, hv⟩ := h
  unfold maxGeoDist
  cases hm : (deltas.filter fun d => decide (v5 < mag d)).min? with
  | none =>
    rw [List.min?_eq_none_iff, List.filter_eq_nil_iff] at hm
    exact absurd (hm d hd) (by simpa using hv)
  | some m =>
    rw [List.min?_eq_some_iff] at hm
    obtain ⟨hm, hle⟩ := hm
    rw [List.mem_filter, decide_eq_true_eq] at hm
    refine ⟨hm.1, hm.2, fun d hd hv => hle d ?_⟩
    simp [hd, hv]

/-- The distance is the first one that is too faint, and a deeper visit does not have a smaller one
if it has a distance at which objects are too faint. -/
theorem maxGeoDist_partial {mag : ℝ → ℝ} {v5 : ℝ} {deltas : List ℝ}
    (h : ∃ d ∈ deltas, v5 < mag d) :
    (maxGeoDist mag v5 deltas ∈ deltas ∧ v5 < mag (maxGeoDist mag v5 deltas) ∧
      ∀ d ∈ deltas, d < maxGeoDist mag v5 deltas → mag d ≤ v5) ∧
    ∀ v5' ≤ v5, maxGeoDist mag v5' deltas ≤ maxGeoDist mag v5 deltas := by
  obtain ⟨h1, h2, h3⟩ := maxGeoDist_some h
  refine ⟨⟨h1, h2, fun d hd hlt => ?_⟩, fun v5' hv => ?_⟩
  · by_contra hc
    exact absurd (h3 d hd (not_le.mp hc)) (not_le.mpr hlt)
  · have h2' : v5' < mag (maxGeoDist mag v5 deltas) := lt_of_le_of_lt hv h2
    exact (maxGeoDist_some ⟨_, h1, h2'⟩).2.2 _ h1 h2'

/-- The claim that it is the largest distance at which the object is seen fails for deep visits:
if it is seen at all distances, the distance is 0, and so smaller than for shallow visits. -/
theorem maxGeoDist_false (mag : ℝ → ℝ) {deltas : List ℝ} (hne : deltas ≠ [])
    (hpos : ∀ d ∈ deltas, 0 < d) :
    ∃ v5 v5', v5 < v5' ∧ (∀ d ∈ deltas, mag d ≤ v5') ∧
      maxGeoDist mag v5' deltas < maxGeoDist mag v5 deltas := by
  obtain ⟨d, hd⟩ := List.exists_mem_of_ne_nil deltas hne
  have hub : ∃ u, mag d ≤ u ∧ ∀ x ∈ deltas, mag x ≤ u := by
    refine ⟨(deltas.map mag).foldr max (mag d), ?_, ?_⟩
    · induction deltas.map mag with
      | nil => exact le_rfl
      | cons a l ih => exact ih.trans (le_max_right _ _)
    · intro x hx
      have : mag x ∈ deltas.map mag := List.mem_map_of_mem hx
      generalize deltas.map mag = l at this
      induction l with
      | nil => cases this
      | cons a l ih =>
        rcases List.mem_cons.mp this with h | h
        · rw [h]; exact le_max_left _ _
        · exact (ih h).trans (le_max_right _ _)
  obtain ⟨u, hu, hall⟩ := hub
  refine ⟨mag d - 1, u, by linarith, hall, ?_⟩
  rw [maxGeoDist_none hall]
  exact hpos _ (maxGeoDist_some ⟨d, hd, by linarith⟩).1

/-- The side is chosen by the azimuth alone: the azimuth of the sun does not matter. -/
theorem flip_spec {half sunAz : ℝ} (h : sunAz ≠ half) (az : ℝ) : flip half sunAz az ↔ half < az := by
  unfold flip
  rcases lt_or_gt_of_ne h with h | h
  · exact ⟨fun h => h.elim And.right And.right, fun h' => Or.inr ⟨h, h'⟩⟩
  · exact ⟨fun h => h.elim And.right And.right, fun h' => Or.inl ⟨h, h'⟩⟩

/-- For azimuths from 0 to 360 the limit is not 180 but 3.14. -/
theorem halfval_false {azMin : ℝ} (h : 0 ≤ azMin) : halfval azMin < 180 := by
  unfold halfval
  rw [if_neg (by have := pi_pos; intro h'; linarith)]
  have := pi_le_four; linarith

/-! ## Labels -/

section Label

variable {K : Type} [Field K] [LinearOrder K]

/-- A visit is in the area exactly if the mean of the footprint over its healpixels reaches the
threshold. -/
theorem label_spec (threshold : K) {name note : List Char} (excludeDd : Bool) {disc : List K}
    (hname : name.length ≤ 15) (hne : name ≠ "NULL".toList) (hdisc : disc ≠ [])
    (hdd : ¬ ['D', 'D'] <+: note ∨ excludeDd = false) :
    (label threshold name excludeDd note disc = name ↔ threshold ≤ disc.sum / disc.length) ∧
    (label threshold name excludeDd note disc = "NULL".toList ↔
      disc.sum / disc.length < threshold) := by
  have hc : (['D', 'D'].isPrefixOf note && excludeDd) = false := by
    rw [Bool.and_eq_false_iff]
    rcases hdd with h | h
    · left; rw [Bool.eq_false_iff]; simpa using h
    · exact Or.inr h
  unfold label
  dsimp only
  rw [if_neg (by simp [hc])]
  have htake : name.take 15 = name := List.take_of_length_le hname
  by_cases h : threshold ≤ disc.sum / disc.length
  · rw [if_pos ⟨hdisc, h⟩, htake]
    simp only [h, not_lt.mpr h, iff_false]
    exact ⟨trivial, hne⟩
  · rw [if_neg (by tauto)]
    simp only [h, not_le.mp h, iff_true, iff_false]
    exact ⟨fun he => hne he.symm, rfl⟩

/-- With the whole sky as footprint every visit that contains healpixels is in the area. -/
theorem label_full [IsStrictOrderedRing K] {threshold : K} (ht : threshold ≤ 1)
    {name note : List Char} (excludeDd : Bool) {n : ℕ} (hn : 0 < n) (hname : name.length ≤ 15)
    (hdd : ¬ ['D', 'D'] <+: note ∨ excludeDd = false) :
    label threshold name excludeDd note (List.replicate n 1) = name := by
  have hc : (['D', 'D'].isPrefixOf note && excludeDd) = false := by
    rw [Bool.and_eq_false_iff]
    rcases hdd with h | h
    · left; rw [Bool.eq_false_iff]; simpa using h
    · exact Or.inr h
  unfold label
  dsimp only
  rw [if_neg (by simp [hc]), if_pos, List.take_of_length_le hname]
  have : (n : K) ≠ 0 := by exact_mod_cast hn.ne'
  refine ⟨by rw [Ne, List.replicate_eq_nil_iff]; exact hn.ne', ?_⟩
  rw [List.sum_replicate, List.length_replicate, nsmul_eq_mul, mul_one, div_self this]
  exact ht

/-- A visit without healpixels, in a coarse footprint, is never in it. -/
theorem label_empty (threshold : K) (name note : List Char) (excludeDd : Bool)
    (hdd : ¬ ['D', 'D'] <+: note ∨ excludeDd = false) :
    label threshold name excludeDd note [] = "NULL".toList := by
  have hc : (['D', 'D'].isPrefixOf note && excludeDd) = false := by
    rw [Bool.and_eq_false_iff]
    rcases hdd with h | h
    · left; rw [Bool.eq_false_iff]; simpa using h
    · exact Or.inr h
  unfold label
  simp [hc]

theorem dropU_append {name : List Char} (hc : ',' ∉ name) (hu : name.getLast? ≠ some 'u')
    (rest : List Char) : ((dropU (name ++ rest)).takeWhile (· ≠ ',')) =
      name ++ (dropU rest).takeWhile (· ≠ ',') := by
  induction name with
  | nil => rfl
  | cons c name ih =>
    have hcc : c ≠ ',' := fun h => hc (by simp [h])
    have hstep : dropU (c :: (name ++ rest)) = c :: dropU (name ++ rest) := by
      cases name with
      | nil =>
        have : c ≠ 'u' := fun h => hu (by simp [h])
        rw [dropU.eq_def]
        split
        · rename_i h; simp only [List.cons.injEq] at h; exact absurd h.1 this
        · rename_i h; simp only [List.cons.injEq] at h; rw [h.1, h.2]
        · rename_i h; cases h
      | cons d name =>
        have hd : d ≠ ',' := fun h => hc (by simp [h])
        rw [dropU.eq_def]
        split
        · rename_i h; simp only [List.cons_append, List.cons.injEq] at h; exact absurd h.2.1 hd
        · rename_i h; simp only [List.cons.injEq] at h; rw [h.1, h.2]
        · rename_i h; cases h
    rw [List.cons_append, hstep, List.takeWhile_cons, if_pos (by simpa using hcc)]
    rw [ih (fun h => hc (by simp [h])) ?_, List.cons_append]
    intro h
    apply hu
    cases name with
    | nil => cases h
    | cons d name => rw [List.getLast?_cons_cons]; exact h

/-- A visit of a deep drilling field `name`, with a note of the name or of the name and more after
a comma, has the name as label, if it does not end in `u` and has at most 15 characters. -/
theorem dd_partial (threshold : K) (area : List Char) {name rest : List Char} (disc : List K)
    (hdd : ['D', 'D'] <+: name) (hc : ',' ∉ name) (hu : name.getLast? ≠ some 'u')
    (hl : name.length ≤ 15) :
    label threshold area true name disc = name ∧
    label threshold area true (name ++ ',' :: rest) disc = name := by
  have h1 : ddName name = name := by
    have := dropU_append hc hu []
    simpa [ddName, dropU] using this
  have h2 : ddName (name ++ ',' :: rest) = name := by
    have := dropU_append hc hu (',' :: rest)
    unfold ddName
    rw [this]
    simp [dropU]
  have hp : ['D', 'D'] <+: name ++ ',' :: rest := hdd.trans (List.prefix_append _ _)
  unfold label
  dsimp only
  constructor
  · rw [if_pos (by simpa using hdd), h1, List.take_of_length_le hl]
  · rw [if_pos (by simpa using hp), h2, List.take_of_length_le hl]

/-- The claim that labels are unique to the field fails: long names are cut, and a name that ends
in `u` has several labels. -/
theorem dd_false (threshold : K) (area : List Char) (disc : List K) :
    label threshold area true "DD:deep_field_10".toList disc =
      label threshold area true "DD:deep_field_11".toList disc ∧
    label threshold area true "DD:Tau, 1".toList disc = "DD:Ta 1".toList ∧
    label threshold area true "DD:Tau, 2".toList disc = "DD:Ta 2".toList := by
  have key : ∀ note : List Char, ['D', 'D'].isPrefixOf note = true →
      label threshold area true note disc = (ddName note).take 15 := by
    intro note h
    unfold label
    dsimp only
    rw [if_pos (by simpa using h)]
  rw [key _ (by decide), key _ (by decide), key _ (by decide), key _ (by decide)]
  decide +kernel

end Label

example : label (2 / 5) "WFD".toList true "wide".toList [1, 1, 0, (0 : ℚ)] = "WFD".toList := by
  decide +kernel
example : label (2 / 5) "WFD".toList true "wide".toList [1, 0, 0, (0 : ℚ)] = "NULL".toList := by
  decide +kernel

/-! ## Refraction -/

/-- The offsets have the size `mag tan z` along the parallactic angle, which at 45 degrees is
`mag`. -/
theorem dcr_spec (isDeg : Bool) (mag zd pa : ℝ) :
    (dcr isDeg mag zd pa).1 ^ 2 + (dcr isDeg mag zd pa).2 ^ 2 =
      (mag * tan (if isDeg then radians zd else zd)) ^ 2 ∧
    (dcr isDeg mag zd pa).1 * cos (if isDeg then radians pa else pa) =
      (dcr isDeg mag zd pa).2 * sin (if isDeg then radians pa else pa) ∧
    (dcr true mag 45 pa).1 ^ 2 + (dcr true mag 45 pa).2 ^ 2 = mag ^ 2 := by
  have key : ∀ b z p, (dcr b mag z p).1 ^ 2 + (dcr b mag z p).2 ^ 2 =
      (mag * tan (if b then radians z else z)) ^ 2 := by
    intro b z p
    unfold dcr
    dsimp only
    generalize (if b = true then radians p else p) = q
    have := sin_sq_add_cos_sq q
    linear_combination (mag * tan (if b = true then radians z else z)) ^ 2 * this
  refine ⟨key _ _ _, ?_, ?_⟩
  · unfold dcr; dsimp only; ring
  · rw [key, if_pos rfl, show radians 45 = π / 4 by unfold radians; ring, tan_pi_div_four, mul_one]

/-- The moments are those of a spread along the parallactic angle: they add up to the total, their
covariance is that of a line, and at 45 degrees the total is `mag`. -/
theorem dcr2_spec (isDeg : Bool) (mag zd pa : ℝ) :
    (dcr2 isDeg mag zd pa).ra + (dcr2 isDeg mag zd pa).dec = (dcr2 isDeg mag zd pa).var ∧
    (dcr2 isDeg mag zd pa).cov ^ 2 = (dcr2 isDeg mag zd pa).ra * (dcr2 isDeg mag zd pa).dec ∧
    (dcr2 true mag 45 pa).var = mag := by
  refine ⟨?_, ?_, ?_⟩
  · unfold dcr2
    dsimp only
    generalize (if isDeg = true then radians pa else pa) = q
    have := sin_sq_add_cos_sq q
    linear_combination mag * tan (if isDeg = true then radians zd else zd) ^ 2 * this
  · unfold dcr2; dsimp only; ring
  · unfold dcr2
    simp only [if_true]
    rw [show radians 45 = π / 4 by unfold radians; ring, tan_pi_div_four]; ring

/-- The moments of the square of an offset are those of the offset. -/
theorem dcr2_dcr (isDeg : Bool) (mag zd pa : ℝ) :
    (dcr2 isDeg (mag ^ 2) zd pa).ra = (dcr isDeg mag zd pa).1 ^ 2 ∧
    (dcr2 isDeg (mag ^ 2) zd pa).dec = (dcr isDeg mag zd pa).2 ^ 2 ∧
    (dcr2 isDeg (mag ^ 2) zd pa).cov = (dcr isDeg mag zd pa).1 * (dcr isDeg mag zd pa).2 := by
  unfold dcr2 dcr
  refine ⟨?_, ?_, ?_⟩ <;> · dsimp only; ring

/-- A `Dcr2Stacker` uses the given stacker of the parallactic angle, or the default ones. -/
theorem dcr2Init_partial {Z P : Type} (z : Z) (p q : P) :
    dcr2Uses (dcr2Init z p none none) = some (z, p) ∧
    dcr2Uses (dcr2Init z p none (some q)) = some (z, q) := ⟨rfl, rfl⟩

/-- The claim that it uses the given stacker of the zenith distance fails: it raises. -/
theorem dcr2Init_false {Z P : Type} (z y : Z) (p : P) (q : Option P) :
    dcr2Uses (dcr2Init z p (some y) q) = none := by cases q <;> rfl

end Verif.Stack2
