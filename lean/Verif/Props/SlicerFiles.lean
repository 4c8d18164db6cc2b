import Verif.Model.SlicerFiles
import Mathlib.Tactic.NormNum

/-!
# C200, C201: files of metric values and their JSON form
-/

namespace Verif.Files

variable {P V : Type}

/-! ## C200 -/

theorem lookup_cons (e : String × PyVal) (l : Kw) (k : String) :
    lookup (e :: l) k = if e.1 = k then some e.2 else lookup l k := by
  unfold lookup
  rw [List.find?_cons]
  by_cases h : e.1 = k
  · simp [h]
  · rw [show ((e.1 == k) = false) from by simpa using h]
    simp [h]

theorem lookup_none (l : Kw) (k : String) (h : ∀ e ∈ l, e.1 ≠ k) : lookup l k = none := by
  induction l with
  | nil => rfl
  | cons e l ih =>
    rw [lookup_cons, if_neg (h e (by simp))]
    exact ih fun e he => h e (by simp [he])

/-- The value of a parameter: the one given, else the default. -/
theorem bind_lookup (kw : Kw) : ∀ (ps : List (String × Option PyVal)) (r : Kw), (ps.map Prod.fst).Nodup →
    bind ps kw = some r → (∀ p ∈ ps, lookup r p.1 = if (lookup kw p.1).isSome then lookup kw p.1 else p.2) ∧
      ∀ k, k ∉ ps.map Prod.fst → lookup r k = none := by
  intro ps
  induction ps with
  | nil =>
    intro r _ h
    unfold bind at h
    simp only [List.mapM_nil, Option.pure_def, Option.some.injEq] at h
    subst h
    exact ⟨fun p hp => by simp at hp, fun k _ => rfl⟩
  | cons q ps ih =>
    intro r hnd h
    rw [List.map_cons, List.nodup_cons] at hnd
    unfold bind at h
    rw [List.mapM_cons] at h
    simp only [Option.pure_def, Option.bind_eq_bind, Option.bind_eq_some_iff, Option.map_eq_some_iff,
      Option.some.injEq] at h
    obtain ⟨x, ⟨v, hv, rfl⟩, r', hr', rfl⟩ := h
    obtain ⟨h1, h2⟩ := ih r' hnd.2 hr'
    refine ⟨fun p hp => ?_, fun k hk => ?_⟩
    · rw [lookup_cons]
      rcases List.mem_cons.1 hp with rfl | hp
      · simp only [if_true]
        cases hk : lookup kw p.1 with
        | some w => rw [hk] at hv; simpa using hv.symm
        | none => rw [hk] at hv; simpa using hv.symm
      · have hne : ¬ (q.1 = p.1) := fun e => hnd.1 (e ▸ List.mem_map_of_mem hp)
        simp only [hne, if_false]
        exact h1 p hp
    · rw [List.map_cons, List.mem_cons, not_or] at hk
      rw [lookup_cons]
      have : ¬ (q.1 = k) := fun e => hk.1 e.symm
      simp only [this, if_false]
      exact h2 k hk.2

/-- The parameters are complete if each one is given or has a default. -/
theorem bind_isSome (kw : Kw) : ∀ ps : List (String × Option PyVal),
    (∀ p ∈ ps, (lookup kw p.1).isSome ∨ p.2.isSome) → (bind ps kw).isSome := by
  intro ps
  induction ps with
  | nil => intro _; rfl
  | cons q ps ih =>
    intro h
    obtain ⟨r, hr⟩ := Option.isSome_iff_exists.1 (ih fun p hp => h p (by simp [hp]))
    unfold bind at hr ⊢
    rw [List.mapM_cons]
    rcases hk : lookup kw q.1 with _ | w
    · rcases h q (by simp) with hq | hq
      · rw [hk] at hq; simp at hq
      · obtain ⟨d, hd⟩ := Option.isSome_iff_exists.1 hq
        simp [hd, hr]
    · simp [hr]

theorem params_nodup (c : Cls) : ((params c).map Prod.fst).Nodup := by cases c <;> decide +kernel

theorem init_sub (c : Cls) : ∀ k ∈ initKeys c, k ∈ (params c).map Prod.fst := by cases c <;> decide +kernel

theorem init_nodup (c : Cls) : (initKeys c).Nodup := by cases c <;> decide +kernel

theorem required_init (c : Cls) : ∀ p ∈ params c, p.2 = none → p.1 ∈ initKeys c := by
  cases c <;> decide +kernel

/-- What a parameter is stored as. -/
def storedAs (rad : ℚ → ℚ) (c : Cls) (k : String) (v : PyVal) : PyVal :=
  if c = .user ∧ (k = "ra" ∨ k = "dec") then radVal rad v else v

theorem init_lookup (rad : ℚ → ℚ) (c : Cls) (ps : Kw) (k : String) :
    lookup (slicerInit rad c ps []) k =
      if k ∈ initKeys c then (lookup ps k).map (storedAs rad c k) else none := by
  have key : ∀ l : List String, lookup (l.filterMap fun k => (lookup ps k).map fun v =>
      (k, if decide (c = .user) && (k == "ra" || k == "dec") then radVal rad v else v)) k =
      if k ∈ l then (lookup ps k).map (storedAs rad c k) else none := by
    intro l
    induction l with
    | nil => rfl
    | cons x l ih =>
      rw [List.filterMap_cons]
      by_cases hx : x = k
      · subst hx
        cases hl : lookup ps x with
        | none =>
          simp only [Option.map_none, List.mem_cons, true_or, if_true]
          rw [ih, hl]
          simp
        | some v =>
          simp only [Option.map_some, List.mem_cons, true_or, if_true]
          rw [lookup_cons]
          simp [storedAs]
      · have hkx : ¬ (k = x) := fun e => hx e.symm
        cases hl : lookup ps x with
        | none =>
          simp only [Option.map_none, List.mem_cons, hkx, false_or]
          exact ih
        | some v =>
          simp only [Option.map_some, List.mem_cons, hkx, false_or]
          rw [lookup_cons]
          simp only [hx, if_false]
          exact ih
  have := key (initKeys c)
  unfold slicerInit
  simpa using this

theorem init_keys (rad : ℚ → ℚ) (c : Cls) (ps : Kw) : ∀ e ∈ slicerInit rad c ps [], e.1 ∈ initKeys c := by
  intro e he
  unfold slicerInit at he
  simp only [ite_self, List.append_nil, List.mem_filterMap, Option.map_eq_some_iff] at he
  obtain ⟨k, hk, v, _, rfl⟩ := he
  exact hk

/-- A slicer made by its constructor. -/
def Made (ffmpeg : Bool) (s : Slicer P) : Prop := ∃ kw, construct ffmpeg s.cls kw = .ok s.ps

theorem made_lookup (ffmpeg : Bool) (s : Slicer P) (h : Made ffmpeg s) :
    ∀ p ∈ params s.cls, (lookup s.ps p.1).isSome := by
  obtain ⟨kw, h⟩ := h
  unfold construct at h
  split at h
  · cases h
  · split at h
    · cases h
    · rename_i ps hb
      split at h
      · cases h
      · simp only [Res.ok.injEq] at h
        subst h
        have hs : ∀ p ∈ params s.cls, (lookup kw p.1).isSome ∨ p.2.isSome := by
          have : ∀ (l : List (String × Option PyVal)) r, bind l kw = some r → ∀ p ∈ l, (lookup kw p.1).isSome ∨ p.2.isSome := by
            intro l
            induction l with
            | nil => intro r _ p hp; simp at hp
            | cons q l ih =>
              intro r h p hp
              unfold bind at h
              rw [List.mapM_cons] at h
              simp only [Option.pure_def, Option.bind_eq_bind, Option.bind_eq_some_iff, Option.map_eq_some_iff,
                Option.some.injEq] at h
              obtain ⟨x, ⟨v, hv, rfl⟩, r', hr', rfl⟩ := h
              rcases List.mem_cons.1 hp with rfl | hp
              · cases hk : lookup kw p.1 with
                | some w => simp
                | none => rw [hk] at hv; right; simp only at hv; rw [hv]; rfl
              · exact ih r' hr' p hp
          exact this _ _ hb
        intro p hp
        rw [(bind_lookup kw _ _ (params_nodup _) hb).1 p hp]
        rcases hs p hp with h1 | h1
        · simp [h1]
        · cases hk : lookup kw p.1 <;> simp [h1]

theorem construct_init (ffmpeg : Bool) (rad : ℚ → ℚ) (s : Slicer P) (h : Made ffmpeg s) :
    ∃ ps, bind (params s.cls) (slicerInit rad s.cls s.ps []) = some ps ∧
      construct ffmpeg s.cls (slicerInit rad s.cls s.ps []) =
        (if decide (s.cls = .movie) && !ffmpeg && !decide (lookup ps "force_no_ffmpeg" = some (.bool true))
          then .otherError else .ok ps) := by
  have hb : (bind (params s.cls) (slicerInit rad s.cls s.ps [])).isSome := by
    refine bind_isSome _ _ fun p hp => ?_
    by_cases hd : p.2.isSome
    · exact Or.inr hd
    · left
      have hnone : p.2 = none := by simpa using hd
      rw [init_lookup, if_pos (required_init _ p hp hnone)]
      have := made_lookup ffmpeg s h p hp
      simpa using this
  obtain ⟨ps, hps⟩ := Option.isSome_iff_exists.1 hb
  refine ⟨ps, hps, ?_⟩
  unfold construct
  rw [if_neg, hps]
  intro hany
  obtain ⟨e, he, h2⟩ := List.any_eq_true.1 hany
  have := init_sub _ _ (init_keys rad s.cls s.ps e he)
  simp only [Bool.not_eq_true', List.contains_eq_mem, decide_eq_false_iff_not] at h2
  exact h2 this

/-- C200: the metric values, masks, slice points, number of slices and shape that are read are those
that were written. -/
theorem read_values (ffmpeg : Bool) (rad : ℚ → ℚ) (files : Kw) (s : Slicer P) (v : Values V) (r : Values V × Slicer P)
    (h : read ffmpeg (write rad files s v) = some r) :
    r.1 = v ∧ r.2.cls = s.cls ∧ r.2.points = s.points ∧ r.2.nslice = s.nslice ∧ r.2.shape = s.shape := by
  unfold read at h
  simp only at h
  split at h
  · simp only [Option.some.injEq] at h
    subst h
    exact ⟨rfl, rfl, rfl, rfl, rfl⟩
  · cases h

/-- C200: files can be read, except for movies without `ffmpeg`; the parameters in `slicer_init` come back
(the points of the user in radians), all others have their defaults. -/
theorem read_params (ffmpeg : Bool) (rad : ℚ → ℚ) (s : Slicer P) (v : Values V) (h : Made ffmpeg s)
    (hm : s.cls = .movie → ffmpeg = true) :
    ∃ r, read ffmpeg (write rad [] s v) = some r ∧ ∀ p ∈ params s.cls,
      lookup r.2.ps p.1 = if p.1 ∈ initKeys s.cls then (lookup s.ps p.1).map (storedAs rad s.cls p.1) else p.2 := by
  obtain ⟨ps, h1, h2⟩ := construct_init ffmpeg rad s h
  have hno : (decide (s.cls = .movie) && !ffmpeg && !decide (lookup ps "force_no_ffmpeg" = some (.bool true))) = false := by
    by_cases hc : s.cls = .movie
    · simp [hm hc]
    · simp [hc]
  rw [hno] at h2
  simp only [Bool.false_eq_true, if_false] at h2
  refine ⟨_, by unfold read write; simp only [h2]; rfl, fun p hp => ?_⟩
  simp only
  rw [(bind_lookup _ _ _ (params_nodup _) h1).1 p hp, init_lookup]
  by_cases hk : p.1 ∈ initKeys s.cls
  · have := made_lookup ffmpeg s h p hp
    simp [hk, this]
  · simp [hk]

/-- The parameters that say what is sliced and how. -/
def kept : Cls → List String
  | .uni => []
  | .oneD => ["slice_col_name", "slice_col_units", "bins", "bin_min", "bin_max", "bin_size"]
  | .nd => ["slice_col_list", "bins_list"]
  | .movie => ["slice_col_name", "slice_col_units"]
  | .healpix => ["nside", "lon_col", "lat_col", "radius"]
  | .subset => ["nside", "hpid", "lon_col", "lat_col", "radius"]
  | .user => ["lon_col", "lat_col", "radius"]
  | .time | .block | .visit => []
  | .mo => ["h_range"]

/-- C200: columns, bins, pixels and radius come back. -/
theorem read_kept (ffmpeg : Bool) (rad : ℚ → ℚ) (s : Slicer P) (v : Values V) (h : Made ffmpeg s)
    (hm : s.cls = .movie → ffmpeg = true) (k : String) (hk : k ∈ kept s.cls) :
    ∃ r, read ffmpeg (write rad [] s v) = some r ∧ lookup r.2.ps k = lookup s.ps k := by
  obtain ⟨r, h1, h2⟩ := read_params ffmpeg rad s v h hm
  refine ⟨r, h1, ?_⟩
  have hin : ∀ c : Cls, ∀ k ∈ kept c, k ∈ initKeys c ∧ ¬ (c = .user ∧ (k = "ra" ∨ k = "dec")) := by
    intro c
    cases c <;> decide +kernel
  obtain ⟨hi, hu⟩ := hin s.cls k hk
  obtain ⟨p, hp, rfl⟩ := List.mem_map.1 (init_sub _ _ hi)
  rw [h2 p hp, if_pos hi]
  unfold storedAs
  simp only [if_neg hu]
  exact Option.map_id'

/-- C200 is false in general: the slicer that is read need not have the parameters of the one written. A
`HealpixSlicer` without camera comes back with camera and with another bad value. -/
theorem read_params_false (rad : ℚ → ℚ) : ∃ (s : Slicer Unit) (r : Values ℚ × Slicer Unit),
    Made true s ∧ read true (write rad [] s ⟨[1], none⟩) = some r ∧
    lookup s.ps "use_camera" = some (.bool false) ∧ lookup r.2.ps "use_camera" = some (.bool true) ∧
    badval s = some (.num (-666)) ∧ badval r.2 = some .nan := by
  refine ⟨⟨.healpix, [("lon_col", .str "fieldRA"), ("lat_col", .str "fieldDec"), ("lat_lon_deg", .bool true),
     ("verbose", .bool true), ("leafsize", .num 100), ("radius", .num (245 / 100)), ("use_camera", .bool false),
     ("camera_radius", .num (194 / 100)), ("camera_footprint_file", .none), ("rot_sky_pos_col_name", .str "rotSkyPos"),
     ("nside", .num 128), ("use_cache", .bool true), ("badval", .num (-666))], (), 1, [1]⟩,
    ⟨⟨[1], none⟩, ⟨.healpix, [("lon_col", .str "fieldRA"), ("lat_col", .str "fieldDec"), ("lat_lon_deg", .bool true),
     ("verbose", .bool true), ("leafsize", .num 100), ("radius", .num (245 / 100)), ("use_camera", .bool true),
     ("camera_radius", .num (194 / 100)), ("camera_footprint_file", .none), ("rot_sky_pos_col_name", .str "rotSkyPos"),
     ("nside", .num 128), ("use_cache", .bool true), ("badval", .nan)], (), 1, [1]⟩⟩,
    ⟨[("use_camera", .bool false), ("badval", .num (-666))], by rfl⟩, by rfl, by rfl, by rfl, by rfl, by rfl⟩

/-- C200: the fill value of a bundle that is read is the bad value of the slicer written, if that is in
`slicer_init`. -/
theorem read_fill_partial (ffmpeg : Bool) (rad : ℚ → ℚ) (s : Slicer P) (data : List V) (m : List Bool) (fill : PyVal)
    (h : Made ffmpeg s) (hm : s.cls = .movie → ffmpeg = true)
    (hc : s.cls = .nd ∨ "badval" ∈ initKeys s.cls) :
    ∃ r b, readBundle ffmpeg (write rad [] s ⟨data, some (m, fill)⟩) = some r ∧ badval s = some b ∧
      r.1.data = data ∧ r.1.mask = some (m, b) ∧ (s.cls = .nd → b = .num (-666)) := by
  obtain ⟨r, h1, h2⟩ := read_params ffmpeg rad s ⟨data, some (m, fill)⟩ h hm
  obtain ⟨h3, h4, _⟩ := read_values ffmpeg rad [] s ⟨data, some (m, fill)⟩ r h1
  have hb : ∃ b, badval s = some b ∧ badval r.2 = some b := by
    unfold badval
    rw [h4]
    by_cases hn : s.cls = .nd
    · exact ⟨_, by rw [if_pos hn], by rw [if_pos hn]⟩
    · have hk : "badval" ∈ initKeys s.cls := by
        rcases hc with hc | hc
        · exact absurd hc hn
        · exact hc
      obtain ⟨p, hp, hpe⟩ := List.mem_map.1 (init_sub _ _ hk)
      have e := h2 p hp
      have e' := made_lookup ffmpeg s h p hp
      rw [hpe] at e e'
      rw [if_pos hk] at e
      obtain ⟨b, hb⟩ := Option.isSome_iff_exists.1 e'
      refine ⟨b, by rw [if_neg hn, hb], ?_⟩
      rw [if_neg hn, e, hb]
      simp [storedAs]
  obtain ⟨b, hb1, hb2⟩ := hb
  have hr : readBundle ffmpeg (write rad [] s ⟨data, some (m, fill)⟩) = some (⟨data, some (m, b)⟩, r.2) := by
    unfold readBundle
    rw [h1]
    simp [h3, hb2]
  refine ⟨_, b, hr, hb1, rfl, rfl, fun hn => ?_⟩
  unfold badval at hb1
  rw [if_pos hn, Option.some.injEq] at hb1
  exact hb1.symm

/-- C200 is false for a `HealpixSlicer`: the fill value that was written is replaced by another one. -/
theorem read_fill_false (rad : ℚ → ℚ) : ∃ (s : Slicer Unit) (r : Values ℚ × Slicer Unit), Made true s ∧
    badval s = some (.num (-666)) ∧
    readBundle true (write rad [] s ⟨[1], some ([true], .num (-666))⟩) = some r ∧ r.1.mask = some ([true], .nan) := by
  refine ⟨⟨.healpix, [("lon_col", .str "fieldRA"), ("lat_col", .str "fieldDec"), ("lat_lon_deg", .bool true),
     ("verbose", .bool true), ("leafsize", .num 100), ("radius", .num (245 / 100)), ("use_camera", .bool true),
     ("camera_radius", .num (194 / 100)), ("camera_footprint_file", .none), ("rot_sky_pos_col_name", .str "rotSkyPos"),
     ("nside", .num 128), ("use_cache", .bool true), ("badval", .num (-666))], (), 1, [1]⟩,
    ⟨⟨[1], some ([true], .nan)⟩, ⟨.healpix, [("lon_col", .str "fieldRA"), ("lat_col", .str "fieldDec"),
     ("lat_lon_deg", .bool true), ("verbose", .bool true), ("leafsize", .num 100), ("radius", .num (245 / 100)),
     ("use_camera", .bool true), ("camera_radius", .num (194 / 100)), ("camera_footprint_file", .none),
     ("rot_sky_pos_col_name", .str "rotSkyPos"), ("nside", .num 128), ("use_cache", .bool true), ("badval", .nan)],
      (), 1, [1]⟩⟩,
    ⟨[("badval", .num (-666))], by rfl⟩, by rfl, by rfl, rfl⟩

/-- C200: a `MoObjSlicer` that has been set up is read with the defaults, whatever its H values and bad value. -/
theorem read_mo (ffmpeg : Bool) (rad : ℚ → ℚ) (s : Slicer P) (v : Values V) (hs : s.cls = .mo) (o b : PyVal) :
    ∃ r, read ffmpeg (write rad [("orbit_file", o), ("obs_file", b)] s v) = some r ∧
      r.2.ps = [("h_range", .none), ("verbose", .bool true), ("badval", .num 0)] := by
  have h1 : construct ffmpeg .mo (slicerInit rad .mo s.ps [("orbit_file", o), ("obs_file", b)]) = .typeError := by
    unfold construct
    rw [if_pos]
    refine List.any_eq_true.2 ⟨("orbit_file", o), ?_, by simp [params]⟩
    unfold slicerInit
    rw [if_pos rfl]
    exact List.mem_append_right _ (by simp)
  have h2 : construct ffmpeg .mo [] = .ok [("h_range", .none), ("verbose", .bool true), ("badval", .num 0)] := by
    rfl
  unfold read write
  simp only [hs, h1, h2]
  exact ⟨_, rfl, rfl⟩

/-- C200: a file of a movie cannot be read where there is no `ffmpeg`, also if it was made so. -/
theorem read_movie (rad : ℚ → ℚ) (s : Slicer P) (v : Values V) (h : Made false s) (hs : s.cls = .movie) :
    lookup s.ps "force_no_ffmpeg" = some (.bool true) ∧ read false (write rad [] s v) = none := by
  constructor
  · obtain ⟨kw, h⟩ := h
    unfold construct at h
    split at h
    · cases h
    · split at h
      · cases h
      · rename_i ps hb
        split at h
        · cases h
        · rename_i hf
          simp only [Res.ok.injEq] at h
          subst h
          simpa [hs] using hf
  · obtain ⟨ps, h1, h2⟩ := construct_init false rad s h
    have hd : lookup ps "force_no_ffmpeg" = some (.bool false) := by
      have := (bind_lookup _ _ _ (params_nodup _) h1).1 ("force_no_ffmpeg", some (.bool false)) (by rw [hs]; simp [params])
      rw [this, init_lookup]
      have hn : "force_no_ffmpeg" ∉ initKeys s.cls := by rw [hs]; decide
      simp [hn]
    rw [hd] at h2
    have hc : construct false s.cls (slicerInit rad s.cls s.ps []) = .otherError := by
      rw [h2, hs]
      rfl
    unfold read write
    simp only [hc]

/-- A slicer with points of the user. -/
def userEx : Slicer Unit :=
  ⟨.user, [("ra", .nums [60, 120]), ("dec", .nums [0, 30]), ("lon_col", .str "x"), ("lat_col", .str "y"),
    ("radius", .num 1)], (), 2, [2]⟩

example : let r := read true (write (fun q => q / 60) [] userEx (V := ℚ) ⟨[5, 6], some ([false, true], .nan)⟩)
    r.bind (fun r => lookup r.2.ps "ra") = some (.nums [1, 2]) ∧
    r.bind (fun r => lookup r.2.ps "lon_col") = some (.str "x") ∧
    r.map (fun r => r.1.data) = some [5, 6] ∧ r.bind (fun r => r.1.mask) = some ([false, true], .nan) := by
  refine ⟨?_, ?_, ?_, ?_⟩ <;> decide +kernel

/-! ## C201 -/

/-- C201: integers should be accepted, but only floating point numbers are. -/
theorem json_type (t : DType) : refused t = false ↔ t = .float := by cases t <;> decide

theorem json_int_false (deg : ℚ → ℚ) (p : Points) (data : List ℚ) (mask : Option (List Bool)) :
    outputJson deg p .int data mask = some none := rfl

theorem filterMap_length {A B : Type} (f : A → Option B) (l : List A) :
    (l.filterMap f).length = l.countP fun a => (f a).isSome := by
  induction l with
  | nil => rfl
  | cons a l ih =>
    rw [List.filterMap_cons, List.countP_cons]
    cases h : f a <;> simp [ih]

/-- C201: for a spatial slicer there is one row for each value that is not masked, with the position in
degrees. -/
theorem json_sky (deg : ℚ → ℚ) (radec : List (ℚ × ℚ)) (data : List ℚ) (m : List Bool)
    (h1 : data.length = radec.length) (h2 : m.length = radec.length) :
    ∃ rows, outputJson deg (.sky radec) .float data (some m) = some (some rows) ∧
      (∀ row, row ∈ rows ↔ ∃ (i : ℕ) (a d v : ℚ), radec[i]? = some (a, d) ∧ data[i]? = some v ∧ m[i]? = some false ∧
        row = [deg a, deg d, v]) ∧
      rows.length = m.count false ∧
      rows.Sublist ((radec.zip data).map fun e => [deg e.1.1, deg e.1.2, e.2]) := by
  refine ⟨_, rfl, fun row => ?_, ?_, ?_⟩
  · rw [List.mem_filterMap]
    constructor
    · rintro ⟨e, he, hr⟩
      obtain ⟨i, hi⟩ := List.mem_iff_getElem?.1 he
      rw [List.getElem?_zip_eq_some, List.getElem?_zip_eq_some] at hi
      obtain ⟨h3, h4, h5⟩ := hi
      cases hm : e.2.2 with
      | true => simp [hm] at hr
      | false =>
        simp only [hm, Bool.not_false, if_true, Option.some.injEq] at hr
        exact ⟨i, e.1.1, e.1.2, e.2.1, h3, h4, by rw [h5, hm], hr.symm⟩
    · rintro ⟨i, a, d, v, h3, h4, h5, rfl⟩
      refine ⟨((a, d), v, false), ?_, by simp⟩
      refine List.mem_of_getElem? (i := i) ?_
      rw [List.getElem?_zip_eq_some, List.getElem?_zip_eq_some]
      exact ⟨h3, h4, h5⟩
  · rw [filterMap_length]
    have hm : (radec.zip (data.zip m)).map (fun e => e.2.2) = m := by
      have e1 : (radec.zip (data.zip m)).map Prod.snd = data.zip m := List.map_snd_zip (by simp [h1, h2])
      have e2 : (data.zip m).map Prod.snd = m := List.map_snd_zip (by simp [h1, h2])
      calc _ = ((radec.zip (data.zip m)).map Prod.snd).map Prod.snd := by rw [List.map_map]; rfl
        _ = m := by rw [e1, e2]
    rw [List.count_eq_countP]
    conv_rhs => rw [← hm]
    rw [List.countP_map]
    refine List.countP_congr fun e _ => ?_
    rcases e with ⟨e, v, b⟩
    cases b <;> simp
  · clear h1 h2
    induction radec generalizing data m with
    | nil => simp
    | cons r radec ih =>
      cases data with
      | nil => simp
      | cons v data =>
        cases m with
        | nil => simp
        | cons b m =>
          simp only [List.zip_cons_cons, List.filterMap_cons, List.map_cons]
          cases b with
          | true =>
            simp only [Bool.not_true, Bool.false_eq_true, if_false]
            exact (ih data m).cons _
          | false =>
            simp only [Bool.not_false, if_true]
            exact (ih data m).cons_cons _

/-- C201: for bins there is one row for each bin with its left edge, with zero for a masked value, and a last
row with the right edge. -/
theorem json_bins (deg : ℚ → ℚ) (edges data : List ℚ) (m : List Bool) (h0 : data ≠ [])
    (h1 : edges.length = data.length + 1) (h2 : m.length = data.length) :
    ∃ rows, outputJson deg (.bins edges) .float data (some m) = some (some rows) ∧ rows.length = edges.length ∧
      (∀ (i : ℕ) (e v : ℚ) (b : Bool), edges[i]? = some e → data[i]? = some v → m[i]? = some b →
        rows[i]? = some [e, if b then 0 else v]) ∧
      ∀ e, edges[data.length]? = some e → rows[data.length]? = some [e, 0] := by
  have hlast : data.length < edges.length := by omega
  have hd : ¬ (data.length = 0 ∨ edges.length ≤ data.length) := by
    rintro (h | h)
    · exact h0 (List.length_eq_zero_iff.1 h)
    · omega
  have hl : ((edges.zip (data.zip m)).map (fun e => [e.1, if !e.2.2 then e.2.1 else 0])).length = data.length := by
    simp [h1, h2]
  refine ⟨_, by simp only [outputJson, jsonData, refused, if_neg hd, List.getElem?_eq_getElem hlast]; rfl, ?_, ?_, ?_⟩
  · rw [List.length_append, hl, h1]
    rfl
  · intro i e v b h3 h4 h5
    have hi : i < data.length := (List.getElem?_eq_some_iff.1 h4).1
    rw [List.getElem?_append_left (by rw [hl]; exact hi), List.getElem?_map]
    have : (edges.zip (data.zip m))[i]? = some (e, v, b) := by
      rw [List.getElem?_zip_eq_some, List.getElem?_zip_eq_some]
      exact ⟨h3, h4, h5⟩
    rw [this]
    cases b <;> rfl
  · intro e he
    rw [List.getElem?_eq_getElem hlast, Option.some.injEq] at he
    rw [List.getElem?_append_right (by rw [hl]), hl, Nat.sub_self, ← he]
    rfl

/-- C201: plain arrays of a spatial slicer have a row for each value, and the single value of a `UniSlicer` is one row. -/
theorem json_plain (deg : ℚ → ℚ) (radec : List (ℚ × ℚ)) (data : List ℚ) (h1 : data.length = radec.length) (v : ℚ) :
    (∃ rows, outputJson deg (.sky radec) .float data none = some (some rows) ∧ rows.length = data.length ∧
      ∀ (i : ℕ) (a d v : ℚ), radec[i]? = some (a, d) → data[i]? = some v → rows[i]? = some [deg a, deg d, v]) ∧
    outputJson deg .uni .float [v] none = some (some [[v]]) ∧
    outputJson deg .uni .float [v] (some [false]) = some (some [[v]]) := by
  refine ⟨⟨_, rfl, by simp [h1], fun i a d v h2 h3 => ?_⟩, rfl, rfl⟩
  rw [List.getElem?_map, show (radec.zip data)[i]? = some ((a, d), v) from by
    rw [List.getElem?_zip_eq_some]; exact ⟨h2, h3⟩]
  rfl

/-- C201: plain arrays of bins cannot be written. -/
theorem json_plain_bins (deg : ℚ → ℚ) (edges data : List ℚ) :
    outputJson deg (.bins edges) .float data none = none := rfl

/-- C201: there is never a JSON form of a bundle: its call always fails. -/
theorem json_bundle_false (deg : ℚ → ℚ) (p : Points) (t : DType) (data : List ℚ) (mask : Option (List Bool)) :
    bundleJson deg p t data mask = none := by
  unfold bundleJson
  rw [if_neg (by decide)]

example : outputJson (fun r => r * 60) (.sky [(1, 0), (2, 1), (3, 1 / 2)]) .float [7, 8, 9] (some [false, true, false]) =
      some (some [[60, 0, 7], [180, 30, 9]]) ∧
    outputJson (fun r => r * 60) (.bins [0, 1, 2]) .float [7, 8] (some [false, true]) =
      some (some [[0, 7], [1, 0], [2, 0]]) := by
  decide +kernel

end Verif.Files
