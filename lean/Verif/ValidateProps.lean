import Verif.Validate
/-!
Property theorems for C168 (validating a branch against a baseline).
-/
namespace Verif.Validate

/-! ### The suite -/

/-- C168.  `run_test_suite.sh` succeeds exactly if conda, the clone and the installation work, every metallicity and the population
suite end with exit code zero, and there is a result for the *last* metallicity. -/
theorem C168_suite_success (p : Progs) (branch : List Char) (zs : List String) (w : World) :
    (runSuite p branch zs w).1 = 0 ↔ p.conda = true ∧ p.cloned ≠ none ∧ p.installed = true ∧ (∀ z ∈ zs, p.code z = 0) ∧ p.popCode = 0 ∧
      ∃ z, zs.getLast? = some z ∧ ((p.wrote z).or (w.cand (safe branch) z)) ≠ none := by
  unfold runSuite
  simp only
  by_cases hc : p.conda = false
  · simp [hc]
  rw [if_neg hc]
  rw [Bool.not_eq_false] at hc
  by_cases hi : p.cloned = none ∨ p.installed = false
  · rw [if_pos hi]
    simp only [Nat.one_ne_zero, false_iff]
    rintro ⟨_, h1, h2, _⟩
    rcases hi with h | h
    · exact h1 h
    · rw [h2] at h; cases h
  rw [if_neg hi]
  rw [not_or, Bool.not_eq_false] at hi
  generalize hw : ({ candDir := put w.candDir (safe branch) true, cand := w.cand, baseDir := w.baseDir, base := w.base, info := w.info, clone := put w.clone (safe branch) p.cloned } : World) = w1
  have hcand : w1.cand = w.cand := by rw [← hw]
  obtain ⟨_, _, _, _, _, _, s7, s8, s9⟩ := suiteLoop_spec p (safe branch) zs w1
  cases hs : suiteLoop p (safe branch) w1 zs with
  | mk o w2 =>
    rw [hs] at s7 s8 s9
    simp only at s7 s8 s9
    cases o with
    | error e =>
      have : ¬ ∀ z ∈ zs, p.code z = 0 := fun h => by simpa using s7.2 h
      simp [this, s9 e rfl]
    | ok u =>
      have hall : ∀ z ∈ zs, p.code z = 0 := s7.1 rfl
      by_cases hp : p.popCode = 0
      · simp only [hp, ne_eq, not_true_eq_false, if_false, hc, hi.1, hi.2, true_and, not_false_eq_true]
        cases hz : zs.getLast? with
        | none => simp
        | some z =>
          have hzm : z ∈ zs := List.mem_of_getLast? hz
          simp only [s8 hall z hzm, hcand]
          by_cases hn : (p.wrote z).or (w.cand (safe branch) z) = none
          · rw [if_pos hn]
            constructor
            · intro h; cases h
            · rintro ⟨_, z', hz', hn'⟩
              simp only [Option.some.injEq] at hz'
              subst hz'
              exact absurd hn hn'
          · rw [if_neg hn]
            simp only [true_iff]
            exact ⟨hall, z, rfl, hn⟩
      · simp [hp]

/-- C168.  Whatever happens, the suite changes no baseline, no record and no result of another branch. -/
theorem C168_suite_keeps (p : Progs) (branch : List Char) (zs : List String) (w : World) :
    (runSuite p branch zs w).2.base = w.base ∧ (runSuite p branch zs w).2.info = w.info ∧ (runSuite p branch zs w).2.baseDir = w.baseDir ∧
      ∀ c z, c ≠ safe branch ∨ z ∉ zs → (runSuite p branch zs w).2.cand c z = w.cand c z := by
  unfold runSuite
  simp only
  split
  · simp
  split
  · simp
  generalize hw : ({ candDir := put w.candDir (safe branch) true, cand := w.cand, baseDir := w.baseDir, base := w.base, info := w.info, clone := put w.clone (safe branch) p.cloned } : World) = w1
  have h0 : w1.cand = w.cand ∧ w1.base = w.base ∧ w1.info = w.info ∧ w1.baseDir = w.baseDir := by rw [← hw]; simp
  obtain ⟨s1, s2, s3, _, _, s6, _⟩ := suiteLoop_spec p (safe branch) zs w1
  cases hs : suiteLoop p (safe branch) w1 zs with
  | mk o w2 =>
    rw [hs] at s1 s2 s3 s6
    rw [h0.2.1] at s1
    rw [h0.2.2.2] at s2
    rw [h0.2.2.1] at s3
    rw [h0.1] at s6
    cases o with
    | error e => exact ⟨s1, s3, s2, s6⟩
    | ok u =>
      simp only
      split
      · exact ⟨s1, s3, s2, s6⟩
      split
      · exact ⟨s1, s3, s2, s6⟩
      · split <;> exact ⟨s1, s3, s2, s6⟩

/-- What a successful suite leaves: for every metallicity the file it wrote, or else the one that was there before. -/
theorem suite_results (p : Progs) (branch : List Char) (zs : List String) (w : World) (h : (runSuite p branch zs w).1 = 0) :
    (∀ z ∈ zs, (runSuite p branch zs w).2.cand (safe branch) z = (p.wrote z).or (w.cand (safe branch) z)) ∧
      (runSuite p branch zs w).2.clone (safe branch) = p.cloned := by
  obtain ⟨h1, h2, h3, h4, h5, z, hz, hn⟩ := (C168_suite_success p branch zs w).1 h
  unfold runSuite
  simp only [h1, h2, h3, Bool.true_eq_false, if_false, or_self]
  generalize hw : ({ candDir := put w.candDir (safe branch) true, cand := w.cand, baseDir := w.baseDir, base := w.base, info := w.info, clone := put w.clone (safe branch) p.cloned } : World) = w1
  have h0 : w1.cand = w.cand ∧ w1.clone (safe branch) = p.cloned := by rw [← hw]; simp [put]
  obtain ⟨_, _, _, s4, _, _, s7, s8, _⟩ := suiteLoop_spec p (safe branch) zs w1
  have hok := s7.2 h4
  have s8 := s8 h4
  cases hs : suiteLoop p (safe branch) w1 zs with
  | mk o w2 =>
    rw [hs] at hok s8 s4
    simp only at hok s8 s4
    subst hok
    rw [h0.1] at s8
    simp only [h5, ne_eq, not_true_eq_false, if_false, hz, s8 z (List.mem_of_getLast? hz), hn]
    exact ⟨s8, by rw [s4]; exact h0.2⟩

/-- C168 fails.  The first metallicity whose suite fails ends the script: what the counter of failures was to report is never counted, the later
metallicities are not run, and the exit code is that of the suite. -/
theorem C168_first_failure_violated (p : Progs) (branch : List Char) (zs zs' : List String) (z : String) (w : World) (hc : p.conda = true)
    (hg : p.cloned ≠ none) (hi : p.installed = true) (hok : ∀ y ∈ zs, p.code y = 0) (hz : p.code z ≠ 0) :
    (runSuite p branch (zs ++ z :: zs') w).1 = p.code z ∧
      ∀ y ∈ zs', y ∉ zs → y ≠ z → (runSuite p branch (zs ++ z :: zs') w).2.cand (safe branch) y = w.cand (safe branch) y := by
  unfold runSuite
  simp only [hc, hg, hi, Bool.true_eq_false, if_false, or_self]
  generalize hw : ({ candDir := put w.candDir (safe branch) true, cand := w.cand, baseDir := w.baseDir, base := w.base, info := w.info, clone := put w.clone (safe branch) p.cloned } : World) = w1
  have h0 : w1.cand = w.cand := by rw [← hw]
  have key : ∀ (zs : List String) (w1 : World), (∀ y ∈ zs, p.code y = 0) →
      suiteLoop p (safe branch) w1 (zs ++ z :: zs') = (.error (p.code z), (suiteLoop p (safe branch) w1 (zs ++ [z])).2) := by
    intro zs
    induction zs with
    | nil => intro w1 _; simp [suiteLoop, hz]
    | cons y ys ih =>
      intro w1 hys
      simp only [List.cons_append, suiteLoop, hys y (by simp), ne_eq, not_true_eq_false, if_false]
      exact ih _ (fun a ha => hys a (by simp [ha]))
  rw [key zs w1 hok]
  refine ⟨rfl, ?_⟩
  intro y _ hy1 hy2
  obtain ⟨_, _, _, _, _, s6, _⟩ := suiteLoop_spec p (safe branch) (zs ++ [z]) w1
  simp only
  rw [s6 (safe branch) y (Or.inr (by simp [hy1, hy2])), h0]

/-! ### Generating a baseline -/

theorem record_ok (branch : List Char) (sha : String) (promote : Bool) (zs : List String) (w : World) :
    (record branch sha promote zs w).1 = 0 ↔
      (∃ z ∈ zs, w.cand (safe branch) z ≠ none) ∧
      ∀ z ∈ zs, ∀ f, (w.cand (safe branch) z).or (w.base (safe branch) z) = some f → f.missing = some 0 := by
  unfold record
  simp only
  generalize hw : ({ candDir := w.candDir, cand := w.cand, baseDir := put w.baseDir (safe branch) true, base := w.base, info := w.info, clone := w.clone } : World) = w1
  have h0 : w1.cand = w.cand ∧ w1.base = w.base := by rw [← hw]; simp
  obtain ⟨c1, _, _, _, _, _, c7⟩ := copyLoop_spec (safe branch) zs w1
  have hiff : (∀ z ∈ zs, ∀ f, (copyLoop (safe branch) w1 zs).2.base (safe branch) z = some f → f.missing = some 0) ↔
      ∀ z ∈ zs, ∀ f, (w.cand (safe branch) z).or (w.base (safe branch) z) = some f → f.missing = some 0 := by
    refine forall₂_congr fun z hz => ?_
    rw [c7, if_pos ⟨rfl, hz⟩, h0.1, h0.2]
  rw [checkLoop_spec]
  by_cases hk : ∀ z ∈ zs, ∀ f, (copyLoop (safe branch) w1 zs).2.base (safe branch) z = some f → f.missing = some 0
  · rw [if_pos hk]
    simp only [c1, h0.1]
    by_cases hn : zs.countP (fun z => (w.cand (safe branch) z).isSome) = 0
    · rw [if_pos hn]
      rw [List.countP_eq_zero] at hn
      simp only [Nat.one_ne_zero, false_iff, not_and]
      rintro ⟨z, hz, hzn⟩
      exact absurd (hn z hz) (by simpa [Option.isSome_iff_ne_none] using hzn)
    · rw [if_neg hn]
      simp only [true_iff]
      refine ⟨?_, hiff.1 hk⟩
      have := List.countP_pos_iff.1 (Nat.pos_of_ne_zero hn)
      obtain ⟨z, hz, hzs⟩ := this
      exact ⟨z, hz, by simpa [Option.isSome_iff_ne_none] using hzs⟩
  · rw [if_neg hk]
    simp only [Nat.one_ne_zero, false_iff, not_and]
    intro _ h
    exact hk (hiff.2 h)

theorem record_files (branch : List Char) (sha : String) (promote : Bool) (zs : List String) (w : World) :
    (∀ c z, (record branch sha promote zs w).2.base c z =
      if c = safe branch ∧ z ∈ zs then (w.cand c z).or (w.base c z) else w.base c z) ∧
    (record branch sha promote zs w).2.cand = w.cand ∧
    (∀ c, c ≠ safe branch → (record branch sha promote zs w).2.info c = w.info c) ∧
    ((∃ z ∈ zs, ∃ f, (w.cand (safe branch) z).or (w.base (safe branch) z) = some f ∧ f.missing ≠ some 0) →
      (record branch sha promote zs w).1 = 1 ∧ (record branch sha promote zs w).2.info = w.info) ∧
    ((∀ z ∈ zs, ∀ f, (w.cand (safe branch) z).or (w.base (safe branch) z) = some f → f.missing = some 0) →
      ∃ i, (record branch sha promote zs w).2.info (safe branch) = some i ∧ i.branch = branch ∧
        i.commit = (w.clone (safe branch)).getD "unknown" ∧ i.requested = (if sha = "" then "HEAD" else sha) ∧ i.promoted = promote ∧
        i.metallicities = zs ∧ i.files = zs.countP (fun z => (w.cand (safe branch) z).isSome) ∧ i.incomplete = []) := by
  unfold record
  simp only
  generalize hw : ({ candDir := w.candDir, cand := w.cand, baseDir := put w.baseDir (safe branch) true, base := w.base, info := w.info, clone := w.clone } : World) = w1
  have h0 : w1.cand = w.cand ∧ w1.base = w.base ∧ w1.info = w.info ∧ w1.clone = w.clone := by rw [← hw]; simp
  obtain ⟨c1, c2, _, _, c5, c6, c7⟩ := copyLoop_spec (safe branch) zs w1
  have hb : ∀ c z, (copyLoop (safe branch) w1 zs).2.base c z = if c = safe branch ∧ z ∈ zs then (w.cand c z).or (w.base c z) else w.base c z := by
    intro c z
    rw [c7, h0.1, h0.2.1]
    by_cases hc : c = safe branch
    · subst hc; rfl
    · simp [hc]
  have hiff : (∀ z ∈ zs, ∀ f, (copyLoop (safe branch) w1 zs).2.base (safe branch) z = some f → f.missing = some 0) ↔
      ∀ z ∈ zs, ∀ f, (w.cand (safe branch) z).or (w.base (safe branch) z) = some f → f.missing = some 0 := by
    refine forall₂_congr fun z hz => ?_
    rw [hb, if_pos ⟨rfl, hz⟩]
  rw [checkLoop_spec]
  by_cases hk : ∀ z ∈ zs, ∀ f, (copyLoop (safe branch) w1 zs).2.base (safe branch) z = some f → f.missing = some 0
  · rw [if_pos hk]
    have hk' := hiff.1 hk
    have hbad : ¬ ∃ z ∈ zs, ∃ f, (w.cand (safe branch) z).or (w.base (safe branch) z) = some f ∧ f.missing ≠ some 0 := by
      rintro ⟨z, hz, f, hf, hm⟩
      exact hm (hk' z hz f hf)
    simp only
    split <;>
    · refine ⟨hb, by rw [c2, h0.1], fun c hc => by simp only; rw [put_other _ _ _ _ hc, c5, h0.2.2.1], fun h => absurd h hbad, fun _ => ?_⟩
      simp only [put_same]
      exact ⟨_, rfl, rfl, by simp only; rw [c6, h0.2.2.2], rfl, rfl, rfl, by simp only; rw [c1, h0.1], rfl⟩
  · rw [if_neg hk]
    refine ⟨hb, by rw [c2, h0.1], fun c _ => by simp only; rw [c5, h0.2.2.1], fun _ => ⟨rfl, by simp only; rw [c5, h0.2.2.1]⟩, fun h => absurd (hiff.2 h) hk⟩

/-- C168.  When a baseline is generated from scratch with success, every requested metallicity for which the suite wrote a file has that file as
its baseline, with no binary missing; the record names the branch, the commit of the clone and the metallicities; at least one file was
copied. -/
theorem C168_generated_partial (p : Progs) (branch : List Char) (sha : String) (zs : List String) (w : World)
    (h : (generate p branch sha false zs w).1 = 0) :
    (∀ z ∈ zs, ∀ f, p.wrote z = some f → (generate p branch sha false zs w).2.base (safe branch) z = some f ∧ f.missing = some 0) ∧
      (∃ i, (generate p branch sha false zs w).2.info (safe branch) = some i ∧ i.branch = branch ∧ p.cloned = some i.commit ∧
        i.metallicities = zs ∧ 0 < i.files ∧ i.promoted = false) ∧
      ∀ z ∈ zs, p.code z = 0 := by
  unfold generate at h ⊢
  simp only [Bool.false_eq_true, if_false] at h ⊢
  cases hs : runSuite p branch zs w with
  | mk e w1 =>
    rw [hs] at h
    cases e with
    | succ n => simp at h
    | zero =>
      simp only at h ⊢
      have hz : (runSuite p branch zs w).1 = 0 := by rw [hs]
      obtain ⟨r1, r2⟩ := suite_results p branch zs w hz
      rw [hs] at r1 r2
      simp only at r1 r2
      obtain ⟨_, g2, _, g4, _⟩ := (C168_suite_success p branch zs w).1 hz
      obtain ⟨k1, k2⟩ := (record_ok branch sha false zs w1).1 h
      obtain ⟨f1, _, _, _, f5⟩ := record_files branch sha false zs w1
      obtain ⟨i, i1, i2, i3, _, i5, i6, i7, _⟩ := f5 k2
      refine ⟨?_, ⟨i, i1, i2, ?_, i6, ?_, i5⟩, g4⟩
      · intro z hzs f hf
        have hc : w1.cand (safe branch) z = some f := by rw [r1 z hzs, hf]; rfl
        refine ⟨by rw [f1, if_pos ⟨rfl, hzs⟩, hc]; rfl, k2 z hzs f (by rw [hc]; rfl)⟩
      · rw [i3, r2]
        cases hcl : p.cloned with
        | none => exact absurd hcl g2
        | some c => rfl
      · rw [i7]
        obtain ⟨z, hzs, hzn⟩ := k1
        exact List.countP_pos_iff.2 ⟨z, hzs, by simpa [Option.isSome_iff_ne_none] using hzn⟩

/-- C168.  Whatever happens, baselines of other branches (in the form used in paths) and of metallicities that were not asked for stay as they
are. -/
theorem C168_others (p : Progs) (branch : List Char) (sha : String) (promote : Bool) (zs : List String) (w : World) (c : List Char) (z : String)
    (hc : c ≠ safe branch ∨ z ∉ zs) : (generate p branch sha promote zs w).2.base c z = w.base c z := by
  have hrec : ∀ sha promote (w : World), (record branch sha promote zs w).2.base c z = w.base c z := by
    intro sha promote w
    rw [(record_files branch sha promote zs w).1, if_neg]
    rintro ⟨h1, h2⟩
    rcases hc with h | h <;> contradiction
  unfold generate
  cases promote with
  | true =>
    simp only [if_true]
    split
    · rfl
    · exact hrec _ _ _
  | false =>
    simp only [Bool.false_eq_true, if_false]
    have hk := (C168_suite_keeps p branch zs w).1
    split
    · rename_i w1 hs
      rw [hs] at hk
      rw [hrec]; rw [← hk]
    · rename_i e w1 _ hs
      rw [hs] at hk
      rw [← hk]

/-- C168.  A suite that fails changes no baseline and no record. -/
theorem C168_failed_suite (p : Progs) (branch : List Char) (sha : String) (zs : List String) (w : World)
    (h : (runSuite p branch zs w).1 ≠ 0) :
    (generate p branch sha false zs w).1 = (runSuite p branch zs w).1 ∧ (generate p branch sha false zs w).2.base = w.base ∧
      (generate p branch sha false zs w).2.info = w.info := by
  obtain ⟨k1, k2, _⟩ := C168_suite_keeps p branch zs w
  unfold generate
  cases hs : runSuite p branch zs w with
  | mk e w1 =>
    rw [hs] at h k1 k2
    cases e with
    | zero => simp at h
    | succ n => simp only [Bool.false_eq_true, if_false]; exact ⟨trivial, k1, k2⟩

/-- C168 fails.  An incomplete result (or one whose metadata cannot be read) is made the baseline, but instead of the warning and the section
on incomplete baselines the script ends with exit code 1, without a word and with the old record still in place. -/
theorem C168_incomplete_violated (p : Progs) (branch : List Char) (sha : String) (zs : List String) (w : World)
    (hd : w.candDir (safe branch) = true) (z : String) (hz : z ∈ zs) (f : H5) (hf : w.cand (safe branch) z = some f) (hm : f.missing ≠ some 0) :
    (generate p branch sha true zs w).1 = 1 ∧ (generate p branch sha true zs w).2.base (safe branch) z = some f ∧
      (generate p branch sha true zs w).2.info = w.info := by
  have hg : generate p branch sha true zs w = record branch "" true zs w := by simp [generate, hd]
  rw [hg]
  obtain ⟨f1, _, _, f4, _⟩ := record_files branch "" true zs w
  obtain ⟨e1, e2⟩ := f4 ⟨z, hz, f, by rw [hf]; rfl, hm⟩
  exact ⟨e1, by rw [f1, if_pos ⟨rfl, hz⟩, hf]; rfl, e2⟩

/-- C168.  The section on incomplete baselines is never written. -/
theorem C168_never_listed (p : Progs) (branch : List Char) (sha : String) (promote : Bool) (zs : List String) (w : World)
    (h : ∀ i, w.info (safe branch) = some i → i.incomplete = []) (i : Info)
    (hi : (generate p branch sha promote zs w).2.info (safe branch) = some i) : i.incomplete = [] := by
  have hrec : ∀ sha promote (w : World), (∀ i, w.info (safe branch) = some i → i.incomplete = []) →
      ∀ i, (record branch sha promote zs w).2.info (safe branch) = some i → i.incomplete = [] := by
    intro sha promote w h i hi
    obtain ⟨_, _, _, f4, f5⟩ := record_files branch sha promote zs w
    by_cases hk : ∀ z ∈ zs, ∀ f, (w.cand (safe branch) z).or (w.base (safe branch) z) = some f → f.missing = some 0
    · obtain ⟨i', g1, _, _, _, _, _, _, g8⟩ := f5 hk
      rw [g1] at hi
      simp only [Option.some.injEq] at hi
      rw [← hi, g8]
    · push Not at hk
      obtain ⟨z, hz, f, hf, hm⟩ := hk
      rw [(f4 ⟨z, hz, f, hf, hm⟩).2] at hi
      exact h i hi
  unfold generate at hi
  cases promote with
  | true =>
    simp only [if_true] at hi
    split at hi
    · exact h i hi
    · exact hrec _ _ w h i hi
  | false =>
    simp only [Bool.false_eq_true, if_false] at hi
    have hk := (C168_suite_keeps p branch zs w).2.1
    split at hi
    · rename_i w1 hs
      rw [hs] at hk
      exact hrec _ _ w1 (by rw [hk]; exact h) i hi
    · rename_i e w1 _ hs
      rw [hs] at hk
      rw [hk] at hi
      exact h i hi

/-! ### Validating -/

/-- C168.  Without `--skip-evolve` the validation succeeds exactly if there is a baseline for some of the metallicities, the suite of the candidate
succeeds, and for each metallicity with a baseline there is a candidate that compares equal. -/
theorem C168_verdict (p : Progs) (same : H5 → H5 → Bool) (candidate baseline : List Char) (zs : List String) (outputDir : Option Bool) (w : World) :
    (validate p same candidate baseline zs false outputDir w).code = 0 ↔
      w.baseDir (safe baseline) = true ∧ (∃ z ∈ zs, w.base (safe baseline) z ≠ none) ∧ (runSuite p candidate zs w).1 = 0 ∧
        ∀ z ∈ zs, ∀ f, w.base (safe baseline) z = some f →
          ∃ g, (p.wrote z).or (w.cand (safe candidate) z) = some g ∧ same f g = true := by
  unfold validate
  simp only [stepOne, Bool.false_eq_true, if_false]
  by_cases hd : w.baseDir (safe baseline) = false
  · simp [hd]
  rw [if_neg hd]
  rw [Bool.not_eq_false] at hd
  by_cases hn : zs.countP (fun z => (w.base (safe baseline) z).isSome) = 0
  · rw [if_pos hn]
    rw [List.countP_eq_zero] at hn
    simp only [Nat.one_ne_zero, false_iff, hd, true_and, not_and]
    rintro ⟨z, hz, hzn⟩
    exact absurd (hn z hz) (by simpa [Option.isSome_iff_ne_none] using hzn)
  rw [if_neg hn]
  have hex : ∃ z ∈ zs, w.base (safe baseline) z ≠ none := by
    obtain ⟨z, hz, hzs⟩ := List.countP_pos_iff.1 (Nat.pos_of_ne_zero hn)
    exact ⟨z, hz, by simpa [Option.isSome_iff_ne_none] using hzs⟩
  by_cases hr : (runSuite p candidate zs w).1 = 0
  · rw [if_neg (by simpa using hr)]
    have hb := (C168_suite_keeps p candidate zs w).1
    have hc := (suite_results p candidate zs w hr).1
    simp only [hd, hex, hr, true_and]
    rw [show ∀ n : ℕ, ((if 0 < n then 1 else 0) = 0 ↔ n = 0) from fun n => by split <;> omega, List.countP_eq_zero]
    constructor
    · intro h z hz f hf
      have hv := h _ (List.mem_map.2 ⟨z, hz, rfl⟩)
      simp only [verdict, hb, hf, hc z hz] at hv
      cases hg : (p.wrote z).or (w.cand (safe candidate) z) with
      | none => rw [hg] at hv; simp at hv
      | some g =>
        rw [hg] at hv
        refine ⟨g, rfl, ?_⟩
        by_contra hne
        simp [hne] at hv
    · intro h l hl
      obtain ⟨z, hz, rfl⟩ := List.mem_map.1 hl
      simp only [verdict, hb, hc z hz]
      cases hf : w.base (safe baseline) z with
      | none => simp
      | some f =>
        obtain ⟨g, hg, hsame⟩ := h z hz f hf
        rw [hg]
        simp [hsame]
  · rw [if_pos (by simpa using hr)]
    simp [hr]

/-- C168.  The summary has one line per metallicity; passed, failed and skipped ones add up. -/
theorem C168_summary (p : Progs) (same : H5 → H5 → Bool) (candidate baseline : List Char) (zs : List String) (skip : Bool) (outputDir : Option Bool)
    (w : World) (l : List Line) (h : (validate p same candidate baseline zs skip outputDir w).summary = some l) :
    l.length = zs.length ∧ l.countP (· == .pass) + l.countP (fun x => x == .differ || x == .noCandidate) + l.countP (· == .skipped) = zs.length ∧
      ((validate p same candidate baseline zs skip outputDir w).code = 0 ↔ l.countP (fun x => x == .differ || x == .noCandidate) = 0) := by
  have hadd : ∀ l : List Line, l.countP (· == .pass) + l.countP (fun x => x == .differ || x == .noCandidate) + l.countP (· == .skipped) = l.length := by
    intro l
    induction l with
    | nil => rfl
    | cons x l ih => cases x <;> simp at ih ⊢ <;> omega
  unfold validate at h ⊢
  simp only at h ⊢
  generalize stepOne p candidate zs skip outputDir w = r at h ⊢
  split at h
  · simp at h
  split at h
  · simp at h
  split at h
  · simp at h
  · rename_i h1 h2 h3
    rw [if_neg h1, if_neg h2, if_neg h3]
    simp only [Option.some.injEq] at h
    simp only [h]
    have hl : l.length = zs.length := by rw [← h]; simp
    refine ⟨hl, by rw [hadd, hl], ?_⟩
    exact (show ∀ n : ℕ, ((if 0 < n then 1 else 0) = 0 ↔ n = 0) from fun n => by split <;> omega) _

/-- C168 fails.  With `--skip-evolve` the script stops with exit code 1 at a variable it never sets, unless the environment happens to define it:
nothing is compared, whatever results exist. -/
theorem C168_skip_violated (p : Progs) (same : H5 → H5 → Bool) (candidate baseline : List Char) (zs : List String) (w : World) :
    (validate p same candidate baseline zs true none w).code = 1 ∧ (validate p same candidate baseline zs true none w).summary = none ∧
      (validate p same candidate baseline zs true none w).world = w := by
  unfold validate
  simp only [stepOne, if_true]
  split
  · simp
  split <;> simp

/-- C168: with `--skip-evolve` and the variable set to a directory, the stored results of the candidate are compared, and no program is run; set to something else,
nothing is compared. -/
theorem C168_skip_set (p : Progs) (same : H5 → H5 → Bool) (candidate baseline : List Char) (zs : List String) (w : World)
    (hd : w.baseDir (safe baseline) = true) (hz : ∃ z ∈ zs, (w.base (safe baseline) z).isSome) :
    (validate p same candidate baseline zs true (some true) w).summary = some (zs.map (verdict same w (safe baseline) (safe candidate))) ∧
    (validate p same candidate baseline zs true (some true) w).world.cand = w.cand ∧
    (validate p same candidate baseline zs true (some true) w).world.base = w.base ∧
    (validate p same candidate baseline zs true (some false) w).summary = none ∧
    (validate p same candidate baseline zs true (some false) w).code = 1 := by
  have hc : zs.countP (fun z => (w.base (safe baseline) z).isSome) ≠ 0 := by
    obtain ⟨z, hz, hs⟩ := hz
    intro h
    exact List.countP_eq_zero.1 h z hz hs
  unfold validate
  simp only [stepOne, if_true, hd, hc, if_false]
  simp

/-- C168 fails.  If the suite of the candidate fails at any metallicity (or its population tests do), nothing at all is compared. -/
theorem C168_all_or_nothing_violated (p : Progs) (same : H5 → H5 → Bool) (candidate baseline : List Char) (zs : List String) (outputDir : Option Bool)
    (w : World) (h : (runSuite p candidate zs w).1 ≠ 0) : (validate p same candidate baseline zs false outputDir w).summary = none := by
  unfold validate
  simp only [stepOne, Bool.false_eq_true, if_false]
  split
  · rfl
  split
  · rfl
  · rfl

/-! ### Cases -/

def nothing : World := ⟨fun _ => false, fun _ _ => none, fun _ => false, fun _ _ => none, fun _ => none, fun _ => none⟩

def fileA : H5 := ⟨1, "aaa", some 0, some "/data"⟩
def fileB : H5 := ⟨2, "bbb", some 0, some "/data"⟩

/-- Everything works and writes `f`. -/
def works (sha : String) (f : H5) : Progs := ⟨true, some sha, true, fun _ => 0, fun _ => some f, 0⟩

/-- Everything works, but no file is written for the first metallicity. -/
def silent (sha : String) (f : H5) : Progs := ⟨true, some sha, true, fun _ => 0, fun z => if z = "1" then none else some f, 0⟩

/-- The hypotheses of the theorem on generation are met, and a branch validated against its own baseline passes. -/
example : (generate (works "aaa" fileA) (chars! "main") "" false ["1", "0.1"] nothing).1 = 0 ∧
    (validate (works "aaa" fileA) (fun f g => f.data == g.data) (chars! "main") (chars! "main") ["1", "0.1"] false none
      (generate (works "aaa" fileA) (chars! "main") "" false ["1", "0.1"] nothing).2).code = 0 ∧
    (validate (works "bbb" fileB) (fun f g => f.data == g.data) (chars! "new") (chars! "main") ["1", "0.1"] false none
      (generate (works "aaa" fileA) (chars! "main") "" false ["1", "0.1"] nothing).2).code = 1 := by decide +kernel

/-- C168 fails.  A suite that leaves no file for a metallicity other than the last is not noticed: the result of an earlier run (here of another
commit) is copied, or compared, as if it were new. -/
theorem C168_stale_violated :
    ∃ w i, (runSuite (works "aaa" fileA) (chars! "main") ["1", "0.1"] nothing).2 = w ∧
      (generate (silent "bbb" fileB) (chars! "main") "" false ["1", "0.1"] w).1 = 0 ∧
      (generate (silent "bbb" fileB) (chars! "main") "" false ["1", "0.1"] w).2.info (chars! "main") = some i ∧ i.commit = "bbb" ∧
      (generate (silent "bbb" fileB) (chars! "main") "" false ["1", "0.1"] w).2.base (chars! "main") "1" = some fileA ∧ fileA.sha = "aaa" :=
  ⟨_, ⟨chars! "main", "bbb", "HEAD", false, ["1", "0.1"], 2, "/data", []⟩, rfl, by decide +kernel⟩

/-- C168 fails.  After a failed run, promoting the results of the run before records the commit of the failed one. -/
theorem C168_promoted_violated :
    ∃ w i, (runSuite { works "bbb" fileB with code := fun _ => 1, wrote := fun _ => none } (chars! "main") ["1"]
        (runSuite (works "aaa" fileA) (chars! "main") ["1"] nothing).2).2 = w ∧
      (generate (works "bbb" fileB) (chars! "main") "" true ["1"] w).1 = 0 ∧
      (generate (works "bbb" fileB) (chars! "main") "" true ["1"] w).2.info (chars! "main") = some i ∧ i.commit = "bbb" ∧
      (generate (works "bbb" fileB) (chars! "main") "" true ["1"] w).2.base (chars! "main") "1" = some fileA :=
  ⟨_, ⟨chars! "main", "bbb", "HEAD", true, ["1"], 1, "/data", []⟩, rfl, by decide +kernel⟩

/-- C168 fails.  Promoting when there is nothing to copy replaces the record of the baseline before it reports the error. -/
theorem C168_empty_promotion_violated :
    ∃ i, (generate (works "aaa" fileA) (chars! "main") "" true ["2"] (generate (works "aaa" fileA) (chars! "main") "" false ["1"] nothing).2).1 = 1 ∧
      (generate (works "aaa" fileA) (chars! "main") "" true ["2"] (generate (works "aaa" fileA) (chars! "main") "" false ["1"] nothing).2).2.info
        (chars! "main") = some i ∧ i.files = 0 ∧ i.metallicities = ["2"] :=
  ⟨⟨chars! "main", "aaa", "HEAD", true, ["2"], 0, "unknown", []⟩, by decide +kernel⟩

/-- C168 fails.  Branches whose names differ only in `/` and `_` share their results and baselines. -/
theorem C168_names_violated : ∃ a b : List Char, a ≠ b ∧ safe a = safe b :=
  ⟨chars! "fix/a", chars! "fix_a", by decide⟩

/-- C168.  Otherwise they are kept apart. -/
theorem C168_names (a b : List Char) (ha : '/' ∉ a) (hb : '/' ∉ b) (h : safe a = safe b) : a = b := by
  have key : ∀ l : List Char, '/' ∉ l → safe l = l := by
    intro l hl
    unfold safe
    conv_rhs => rw [← List.map_id l]
    refine List.map_congr_left fun c hc => ?_
    rw [if_neg (fun h : c = '/' => hl (h ▸ hc))]
    rfl
  rwa [key a ha, key b hb] at h

end Verif.Validate
