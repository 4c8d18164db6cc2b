import Verif.Model.Opsim
import Verif.Props.RealMetrics
import Mathlib.Tactic.Linarith
import Mathlib.Tactic.NormNum
import Mathlib.Data.Rat.Floor

/-!
# Reading of simulations and benchmarks: C294–C296
-/

namespace Verif.Opsim

/-! ## C294: reading -/

/-- A small reader of queries, for the specification: names up to a blank or comma. -/
def word : Str → Str × Str
  | [] => ([], [])
  | c :: s => if c = ' ' ∨ c = ',' ∨ c = ';' then ([], c :: s) else let (w, r) := word s; (c :: w, r)

/-- Names separated by commas, as many as there can be. -/
def words : ℕ → Str → List Str × Str
  | 0, s => ([], s)
  | k + 1, s => match word s with
    | (w, ',' :: ' ' :: r) => let (ws, r') := words k r; (w :: ws, r')
    | (w, r) => ([w], r)

/-- Columns, table and condition of a query. -/
def parse (q : Str) : List Str × Str × Str :=
  let (cols, r) := words q.length (q.drop 7)
  let (table, r) := word (r.drop 6)
  (cols, table, (r.drop 7).dropLast)

/-- Names without blanks, commas and semicolons. -/
def Plain (s : Str) : Prop := ∀ c ∈ s, c ≠ ' ' ∧ c ≠ ',' ∧ c ≠ ';'

theorem word_plain (s r : Str) (c : Char) (hs : Plain s) (hc : c = ' ' ∨ c = ',' ∨ c = ';') : word (s ++ c :: r) = (s, c :: r) := by
  induction s with
  | nil => unfold word; rw [List.nil_append]; simp [hc]
  | cons a s ih =>
    have ha := hs a (by simp)
    rw [List.cons_append]
    unfold word
    rw [if_neg (by simp [ha.1, ha.2.1, ha.2.2]), ih (fun c h => hs c (by simp [h]))]

theorem words_join (cs : List Str) (hne : cs ≠ []) (hc : ∀ c ∈ cs, Plain c) (r : Str) (k : ℕ) (hk : cs.length ≤ k) : words k (joinCols cs ++ ' ' :: r) = (cs, ' ' :: r) := by
  induction cs generalizing k with
  | nil => exact absurd rfl hne
  | cons c cs ih =>
    obtain ⟨k, rfl⟩ : ∃ j, k = j + 1 := ⟨k - 1, by simp at hk; omega⟩
    cases cs with
    | nil =>
      unfold words
      rw [show joinCols [c] = c from rfl, word_plain c r ' ' (hc c (by simp)) (Or.inl rfl)]
      simp
    | cons d cs =>
      unfold words
      rw [show joinCols (c :: d :: cs) = c ++ ',' :: ' ' :: joinCols (d :: cs) from rfl, List.append_assoc,
        show (',' :: ' ' :: joinCols (d :: cs)) ++ ' ' :: r = ',' :: (' ' :: (joinCols (d :: cs) ++ ' ' :: r)) from rfl, word_plain c _ ',' (hc c (by simp)) (Or.inr (Or.inl rfl))]
      simp only
      rw [ih (by simp) (fun e he => hc e (List.mem_cons_of_mem _ he)) k (by simpa using hk)]

theorem length_joinCols (cs : List Str) : cs.length ≤ (joinCols cs).length + 1 := by
  induction cs with
  | nil => simp
  | cons c cs ih =>
    cases cs with
    | nil => simp
    | cons d cs =>
      rw [show joinCols (c :: d :: cs) = c ++ ',' :: ' ' :: joinCols (d :: cs) from rfl, List.length_append]
      simp only [List.length_cons] at ih ⊢
      omega

/-- The query asks for the columns, from the table, under the condition. -/
theorem query_parse (cols : Option (List Str)) (table constraint : Str) (hne : cols ≠ some []) (hc : ∀ cs, cols = some cs → ∀ c ∈ cs, Plain c) (ht : Plain table) :
    parse (mkQuery cols table constraint) = (cols.getD [['*']], table, constraint) := by
  have hcs : ∃ cs, cs ≠ [] ∧ (∀ c ∈ cs, Plain c) ∧ cols.getD [['*']] = cs ∧ colStr cols = joinCols cs := by
    cases cols with
    | none => exact ⟨[['*']], by simp, by intro c h; simp at h; subst h; intro d hd; simp at hd; subst hd; decide, rfl, rfl⟩
    | some cs => exact ⟨cs, by rintro rfl; exact hne rfl, hc cs rfl, rfl, rfl⟩
  obtain ⟨cs, h1, h2, h3, h4⟩ := hcs
  have hlen := length_joinCols cs
  unfold parse mkQuery
  rw [h3, h4]
  have e1 : "SELECT ".toList.length = 7 := by decide
  have e2 : " FROM ".toList = ' ' :: "FROM ".toList := by decide
  have e3 : "FROM ".toList.length = 5 := by decide
  have e4 : " WHERE ".toList = ' ' :: "WHERE ".toList := by decide
  have e5 : "WHERE ".toList.length = 6 := by decide
  rw [e2, e4]
  generalize "SELECT ".toList = S at *
  generalize "FROM ".toList = F at *
  generalize "WHERE ".toList = W at *
  have hd : ∀ X : Str, (S ++ X).drop 7 = X := fun X => by rw [← e1]; simp
  by_cases hcon : 0 < constraint.length
  · rw [if_pos hcon]
    simp only [List.append_assoc, List.cons_append]
    rw [hd]
    rw [words_join cs h1 h2 _ _ (by simp only [List.length_append, List.length_cons]; omega)]
    dsimp only
    rw [List.drop_succ_cons, show (F ++ (table ++ (' ' :: (W ++ (constraint ++ [';']))))).drop 5 = table ++ (' ' :: (W ++ (constraint ++ [';']))) by rw [← e3]; simp]
    rw [word_plain table _ ' ' ht (Or.inl rfl)]
    dsimp only
    rw [List.drop_succ_cons, show (W ++ (constraint ++ [';'])).drop 6 = constraint ++ [';'] by rw [← e5]; simp]
    simp
  · rw [if_neg hcon]
    have hnil : constraint = [] := by simpa using hcon
    subst hnil
    simp only [List.append_assoc, List.cons_append, List.nil_append]
    rw [hd]
    rw [words_join cs h1 h2 _ _ (by simp only [List.length_append, List.length_cons]; omega)]
    dsimp only
    rw [List.drop_succ_cons, show (F ++ (table ++ [';'])).drop 5 = table ++ [';'] by rw [← e3]; simp]
    rw [word_plain table _ ';' ht (Or.inr (Or.inr rfl))]
    rfl

example : mkQuery (some ["night".toList, "band".toList]) "observations".toList "night < 5".toList = "SELECT night, band FROM observations WHERE night < 5;".toList := by decide

/-- A database for the specification: tables of rows, with what a condition and a list of columns mean. -/
structure Sql (T D : Type) where
  rows : Str → List T
  holds : Str → T → Bool
  project : List Str → T → D

/-- It answers a query by its parts. -/
def Sql.exec {T D : Type} (db : Sql T D) (q : Str) : List D :=
  let (cols, table, c) := parse q
  ((db.rows table).filter (fun r => c.isEmpty || db.holds c r)).map (db.project cols)

/-- Reading of a file from a given table: exactly the rows that meet the condition, in the columns, through the stackers in
their order; a warning is raised if there are none. -/
theorem sim_spec {T D : Type} (db : Sql T D) (res scheme : Bool) (tables : List Str) (constraint : Option Str) (cols : Option (List Str)) (stackers : List (List D → List D)) (table : Str)
    (hne : cols ≠ some []) (hc : ∀ cs, cols = some cs → ∀ c ∈ cs, Plain c) (ht : Plain table) :
    let rows := ((db.rows table).filter (fun r => (constraint.getD []).isEmpty || db.holds (constraint.getD []) r)).map (db.project (cols.getD [['*']]))
    getSimData db.exec res (.str true tables scheme) constraint cols stackers (some table) none =
      if rows = [] then .error "UserWarning" else .ok (stackers.foldl (fun d s => s d) rows) := by
  intro rows
  have : db.exec (mkQuery cols table (constraint.getD [])) = rows := by
    unfold Sql.exec
    rw [query_parse cols table _ hne hc ht]
  unfold getSimData theQuery
  dsimp only
  rw [this]

/-- Without a table: the observations of a new file, else the summary of an old one; an exception if there is none. -/
theorem guess_spec (isFile scheme : Bool) (tables : List Str) :
    ("observations".toList ∈ tables → guess (.str isFile tables scheme) = .ok "observations".toList) ∧
    (∀ t, guess (.str isFile tables scheme) = .ok t → t ∈ tables ∧ t ∈ ["observations".toList, "SummaryAllProps".toList, "summary".toList]) ∧
    (guess (.str isFile tables scheme) = .error "ValueError" ↔ ∀ t ∈ ["observations".toList, "SummaryAllProps".toList, "summary".toList], t ∉ tables) := by
  unfold guess
  generalize "observations".toList = A
  generalize "SummaryAllProps".toList = B
  generalize "summary".toList = C
  refine ⟨fun h => by simp only [if_pos h], fun t h => ?_, ?_⟩
  · dsimp only at h
    split_ifs at h with h1 h2 h3 <;> cases h
    · exact ⟨h1, by simp⟩
    · exact ⟨h2, by simp⟩
    · exact ⟨h3, by simp⟩
  · dsimp only
    split_ifs with h1 h2 h3
    · simp [h1]
    · simp [h2]
    · simp [h3]
    · simp [h1, h2, h3]

/-- A full query overrides condition, columns and table. -/
theorem full_overrides {D : Type} (exec : Str → List D) (res : Bool) (con : Con) (c c' : Option Str) (cols cols' : Option (List Str)) (st : List (List D → List D)) (t t' : Option Str) (q : Str) :
    getSimData exec res con c cols st t (some q) = getSimData exec res con c' cols' st t' (some q) := rfl

/-- Strings that are not files but have a scheme are read with `lsst.resources`, as written. -/
def RemoteClaim : Prop := ∀ (exec : Str → List ℕ) (tables : List Str) (q : Str), exec q ≠ [] → getSimData exec true (.str false tables true) none none [] none (some q) = .ok (exec q)

/-- False: they are refused before. -/
theorem remote_false : ¬ RemoteClaim := by
  intro h
  have := h (fun _ => [1]) [] [] (by simp)
  simp [getSimData] at this

theorem remote_error {D : Type} (exec : Str → List D) (res scheme : Bool) (tables : List Str) (c : Option Str) (cols : Option (List Str)) (st : List (List D → List D)) (t q : Option Str) :
    getSimData exec res (.str false tables scheme) c cols st t q = .error "FileNotFoundError" := rfl

/-! ## C295: benchmarks -/

section
variable {K : Type} [Field K] [LinearOrder K] [IsStrictOrderedRing K] [FloorRing K]

/-- Visits are scaled by the length of the run relative to ten years, rounded down. -/
theorem bench_scaled (L : K) (total : ℤ) (l : List (Char × ℤ)) (h : benchmarks L "design" = .ok (total, l) ∨ benchmarks L "stretch" = .ok (total, l)) :
    ∀ (f : Char) (v : ℤ), (f, v) ∈ l → ∃ n, ((f, n) ∈ designVisits ∨ (f, n) ∈ stretchVisits) ∧ (v : K) ≤ n * (L / 10) ∧ (n : K) * (L / 10) < v + 1 := by
  have key : ∀ n : ℕ, (((if L ≠ 10 then ⌊(n : K) * (L / 10)⌋ else (n : ℤ)) : ℤ) : K) ≤ n * (L / 10) ∧ (n : K) * (L / 10) < ((if L ≠ 10 then ⌊(n : K) * (L / 10)⌋ else (n : ℤ)) : ℤ) + 1 := by
    intro n
    split_ifs with h10
    · exact ⟨Int.floor_le _, Int.lt_floor_add_one _⟩
    · rw [not_not.mp h10]
      constructor <;> simp
  intro f v hv
  rcases h with h | h
  · unfold benchmarks at h
    simp only [if_true, Except.ok.injEq, Prod.mk.injEq] at h
    rw [← h.2] at hv
    obtain ⟨⟨g, n⟩, hn, he⟩ := List.mem_map.mp hv
    simp only [Prod.mk.injEq] at he
    obtain ⟨rfl, rfl⟩ := he
    exact ⟨n, Or.inl hn, key n⟩
  · unfold benchmarks at h
    rw [if_neg (by decide), if_pos rfl] at h
    simp only [Except.ok.injEq, Prod.mk.injEq] at h
    rw [← h.2] at hv
    obtain ⟨⟨g, n⟩, hn, he⟩ := List.mem_map.mp hv
    simp only [Prod.mk.injEq] at he
    obtain ⟨rfl, rfl⟩ := he
    exact ⟨n, Or.inr hn, key n⟩

/-- The visits of a filter, of a result. -/
def visitsOf (r : Except String (ℤ × List (Char × ℤ))) (f : Char) : Option ℤ := match r with | .ok (_, l) => l.lookup f | .error _ => none

theorem lookup_map_snd {A B C : Type} [BEq A] (l : List (A × B)) (g : B → C) (a : A) : (l.map (fun e => (e.1, g e.2))).lookup a = (l.lookup a).map g := by
  induction l with
  | nil => rfl
  | cons e l ih =>
    obtain ⟨x, y⟩ := e
    rw [List.map_cons, List.lookup_cons, List.lookup_cons]
    cases a == x
    · exact ih
    · rfl

/-- A longer run has as many visits or more, in each filter and for each benchmark, and stretch as many as design or more for a run of no negative length. -/
theorem bench_mono (L L' : K) (hL : L ≤ L') (b : String) (f : Char) (v v' : ℤ) (h : visitsOf (benchmarks L b) f = some v) (h' : visitsOf (benchmarks L' b) f = some v') : v ≤ v' := by
  have key : ∀ n : ℕ, (if L ≠ 10 then ⌊(n : K) * (L / 10)⌋ else (n : ℤ)) = ⌊(n : K) * (L / 10)⌋ := by
    intro n; split_ifs with h
    · rfl
    · rw [not_not.mp h]; simp
  have key' : ∀ n : ℕ, (if L' ≠ 10 then ⌊(n : K) * (L' / 10)⌋ else (n : ℤ)) = ⌊(n : K) * (L' / 10)⌋ := by
    intro n; split_ifs with h
    · rfl
    · rw [not_not.mp h]; simp
  have mono : ∀ n : ℕ, ⌊(n : K) * (L / 10)⌋ ≤ ⌊(n : K) * (L' / 10)⌋ := fun n => Int.floor_le_floor (by
    apply mul_le_mul_of_nonneg_left _ (Nat.cast_nonneg n)
    exact div_le_div_of_nonneg_right hL (by norm_num))
  unfold benchmarks at h h'
  simp only [key, key'] at h h'
  split_ifs at h h' with h1 h2
  · unfold visitsOf at h h'
    dsimp only at h h'
    rw [lookup_map_snd designVisits (fun n : ℕ => ⌊(n : K) * (L / 10)⌋)] at h
    rw [lookup_map_snd designVisits (fun n : ℕ => ⌊(n : K) * (L' / 10)⌋)] at h'
    obtain ⟨n, hn, rfl⟩ := Option.map_eq_some_iff.mp h
    rw [hn] at h'
    simp only [Option.map_some, Option.some.injEq] at h'
    rw [← h']
    exact mono n
  · unfold visitsOf at h h'
    dsimp only at h h'
    rw [lookup_map_snd stretchVisits (fun n : ℕ => ⌊(n : K) * (L / 10)⌋)] at h
    rw [lookup_map_snd stretchVisits (fun n : ℕ => ⌊(n : K) * (L' / 10)⌋)] at h'
    obtain ⟨n, hn, rfl⟩ := Option.map_eq_some_iff.mp h
    rw [hn] at h'
    simp only [Option.map_some, Option.some.injEq] at h'
    rw [← h']
    exact mono n
  · cases h

end

example : visitsOf (benchmarks (5 / 2 : ℚ) "design") 'u' = some 14 := by decide +kernel

/-- The total number of visits is the sum of those of the filters. -/
def TotalClaim : Prop := ∀ (L : ℚ) (b : String) (t : ℤ) (l : List (Char × ℤ)), benchmarks L b = .ok (t, l) → t = (l.map Prod.snd).sum

/-- False: the total is not scaled with the length of the run ... -/
theorem total_false : ¬ TotalClaim := by
  intro h
  have := h 1 "design" 825 _ rfl
  revert this
  decide +kernel

/-- ... and is another one than the sum for ten years too, for both benchmarks. -/
theorem total_ten : (designVisits.map Prod.snd).sum = 824 ∧ (stretchVisits.map Prod.snd).sum = 1030 ∧
    (∀ (L : ℚ) t l, benchmarks L "design" = .ok (t, l) → t = 825) ∧ ∀ (L : ℚ) t l, benchmarks L "stretch" = .ok (t, l) → t = 1000 := by
  refine ⟨by decide, by decide, ?_, ?_⟩
  · intro L t l h
    unfold benchmarks at h
    simp only [if_true, Except.ok.injEq, Prod.mk.injEq] at h
    exact h.1.symm
  · intro L t l h
    unfold benchmarks at h
    rw [if_neg (by decide), if_pos rfl] at h
    simp only [Except.ok.injEq, Prod.mk.injEq] at h
    exact h.1.symm

/-! ## C296: coadded depth -/

theorem depth_pos (n m : ℝ) (h : 0 < n) : depth n m = m + 1.25 * Real.logb 10 n := by
  unfold depth
  rw [if_pos h, Real.logb_mul (ne_of_gt h) (by positivity), Real.logb_rpow (by norm_num) (by norm_num)]
  ring

/-- The depth is that of the coaddition of as many visits of the single depth, for one visit or more. -/
theorem depth_coadd (n : ℕ) (m : ℝ) (h : n ≠ 0) : depth n m = RealMetrics.coadd (List.replicate n m) := by
  rw [depth_pos _ _ (by exact_mod_cast Nat.pos_of_ne_zero h), RealMetrics.coadd_replicate n m h]

/-- More visits give more depth; a hundred times as many two and a half magnitudes. -/
theorem depth_mono_partial (n n' m : ℝ) (h : 0 < n) (hn : n < n') : depth n m < depth n' m ∧ depth (100 * n) m = depth n m + 2.5 := by
  rw [depth_pos _ _ h, depth_pos _ _ (h.trans hn), depth_pos _ _ (by positivity)]
  have h1 := Real.logb_lt_logb (b := 10) (by norm_num) h hn
  refine ⟨by linarith, ?_⟩
  rw [Real.logb_mul (by norm_num) (ne_of_gt h), show (100 : ℝ) = 10 ^ (2 : ℝ) by norm_num, Real.logb_rpow (by norm_num) (by norm_num)]
  ring

/-- More visits give more depth or as much. -/
def MonoClaim : Prop := ∀ n n' m : ℝ, 0 ≤ n → n ≤ n' → depth n m ≤ depth n' m

/-- False: no visits have the depth of one, more than a tenth of a visit (as from an average). -/
theorem mono_false : ¬ MonoClaim := by
  intro h
  have h1 := h 0 (1 / 10) 24 le_rfl (by norm_num)
  rw [depth_pos (1 / 10) 24 (by norm_num)] at h1
  unfold depth at h1
  rw [if_neg (lt_irrefl _), show (1 / 10 : ℝ) = 10 ^ (-1 : ℝ) by rw [Real.rpow_neg_one]; norm_num, Real.logb_rpow (by norm_num) (by norm_num)] at h1
  norm_num at h1

/-- No visits have the depth of one. -/
theorem depth_none (m : ℝ) : depth 0 m = depth 1 m ∧ depth 0 m = m := by
  rw [depth_pos 1 m one_pos]
  unfold depth
  simp

/-- The result has the filters of the visits with their depths; it is an exception exactly if one of them has no single depth. -/
theorem coadded_spec (nv single : List (Char × ℝ)) :
    (∀ r, coaddedDepth nv single = .ok r → r.map Prod.fst = nv.map Prod.fst ∧ ∀ (i : ℕ) (f : Char) (n : ℝ), nv[i]? = some (f, n) → ∃ m, single.lookup f = some m ∧ r[i]? = some (f, depth n m)) ∧
    (coaddedDepth nv single = .error "ValueError" ↔ ∃ e ∈ nv, single.lookup e.1 = none) := by
  induction nv with
  | nil =>
    refine ⟨fun r h => ?_, ?_⟩
    · cases h; exact ⟨rfl, by simp⟩
    · simp [coaddedDepth]
  | cons e nv ih =>
    obtain ⟨f, n⟩ := e
    obtain ⟨ih1, ih2⟩ := ih
    unfold coaddedDepth
    cases hm : single.lookup f with
    | none => exact ⟨fun r h => (by cases h), ⟨fun _ => ⟨(f, n), by simp, hm⟩, fun _ => rfl⟩⟩
    | some m =>
      dsimp only
      cases hr : coaddedDepth nv single with
      | error e =>
        rw [hr] at ih2
        refine ⟨fun r h => (by cases h), ?_⟩
        simp only [Except.map, List.mem_cons, exists_eq_or_imp, hm]
        rw [ih2]
        simp
      | ok r0 =>
        rw [hr] at ih2
        obtain ⟨a, b⟩ := ih1 r0 hr
        refine ⟨fun r h => ?_, ?_⟩
        · simp only [Except.map, Except.ok.injEq] at h
          subst h
          refine ⟨by simp [a], fun i g k hi => ?_⟩
          cases i with
          | zero => simp at hi; obtain ⟨rfl, rfl⟩ := hi; exact ⟨m, hm, rfl⟩
          | succ i => simpa using b i g k (by simpa using hi)
        · simp only [Except.map, List.mem_cons, exists_eq_or_imp, hm]
          rw [← ih2]
          simp

/-- Filters of both must match, as the message says. -/
def MatchClaim : Prop := ∀ nv single : List (Char × ℝ), (∃ r, coaddedDepth nv single = .ok r) → ∀ e ∈ single, e.1 ∈ nv.map Prod.fst

theorem match_false : ¬ MatchClaim := by
  intro h
  have := h [] [('u', 24)] ⟨[], rfl⟩ ('u', 24) (by simp)
  simp at this

end Verif.Opsim
