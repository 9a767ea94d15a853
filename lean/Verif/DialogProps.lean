import Verif.Dialog
import Verif.PipelineCsv

/-!
# Questions and logs in the check of a run: properties
-/

namespace Verif.Dialog

open Verif.Jobs (Text cutAt strip starts dec int)

/-! ### The parameter file -/

/-- Without a folder, or with an empty one, there is an error. -/
theorem C131_folder (folder : Option (List Text)) : (∃ l, validFolder folder = .ok l) ↔ ∃ l, folder = some l ∧ l ≠ [] := by
  cases folder with
  | none => simp [validFolder]
  | some l => cases l <;> simp [validFolder]

theorem mem_ini (folder : List Text) (f : Text) : f ∈ (folder.filter isIni).insertionSort le ↔ f ∈ folder ∧ isIni f = true := by
  rw [List.mem_insertionSort, List.mem_filter]

/-- Whatever is answered, the file used is a parameter file of the run; there is an error only without any. -/
theorem C131_ini_some (folder : List Text) (a : Text) (r : List Text) :
    (∀ f, iniFile folder (a :: r) = .ok f → f ∈ folder ∧ isIni f = true) ∧
      ((∃ f ∈ folder, isIni f = true) → ∃ f, iniFile folder (a :: r) = .ok f) ∧
      ((∀ f ∈ folder, isIni f = false) → iniFile folder (a :: r) = .error .file) := by
  have hm := mem_ini folder
  unfold iniFile
  cases hl : (folder.filter isIni).insertionSort le with
  | nil =>
    rw [hl] at hm
    refine ⟨fun f h => (by cases h), ?_, fun _ => rfl⟩
    rintro ⟨f, h1, h2⟩
    exact absurd ((hm f).mpr ⟨h1, h2⟩) List.not_mem_nil
  | cons f l =>
    rw [hl] at hm
    have hf := (hm f).mp List.mem_cons_self
    have hno : (∀ f ∈ folder, isIni f = false) → False := fun h => by
      have := h f hf.1
      rw [hf.2] at this
      cases this
    cases l with
    | nil =>
      refine ⟨?_, fun _ => ⟨f, rfl⟩, fun h => (hno h).elim⟩
      intro g hg
      cases hg
      exact hf
    | cons g l =>
      dsimp only
      cases hi : int a with
      | none =>
        refine ⟨?_, fun _ => ⟨f, rfl⟩, fun h => (hno h).elim⟩
        intro g hg
        cases hg
        exact hf
      | some i =>
        dsimp only
        by_cases h : 0 ≤ i ∧ i < ((f :: g :: l).length : ℤ)
        · rw [if_pos h]
          refine ⟨?_, fun _ => ⟨_, rfl⟩, fun h => (hno h).elim⟩
          intro k hk
          cases hk
          have hlt : i.toNat < (f :: g :: l).length := by omega
          rw [List.getD_eq_getElem?_getD, List.getElem?_eq_getElem hlt]
          exact (hm _).mp (List.getElem_mem hlt)
        · rw [if_neg h]
          refine ⟨?_, fun _ => ⟨f, rfl⟩, fun h => (hno h).elim⟩
          intro k hk
          cases hk
          exact hf

/-- With one parameter file no question is asked; with several the number answered is the place in alphabetical order, and any other answer gives the first. -/
theorem C131_ini_choice (folder : List Text) (l : List Text) (hl : (folder.filter isIni).insertionSort le = l) :
    (∀ f, l = [f] → ∀ answers, iniFile folder answers = .ok f) ∧
      (2 ≤ l.length → iniFile folder [] = .error .eof ∧ ∀ a r, (∀ i : ℕ, int a = some (i : ℤ) → i < l.length → ∃ f, l[i]? = some f ∧ iniFile folder (a :: r) = .ok f) ∧
        (¬Names l a → ∃ f, l[0]? = some f ∧ iniFile folder (a :: r) = .ok f)) := by
  constructor
  · rintro f rfl answers
    unfold iniFile
    rw [hl]
  · intro h2
    match l, h2 with
    | f :: g :: m, _ =>
      refine ⟨by unfold iniFile; rw [hl], ?_⟩
      intro a r
      constructor
      · intro i hi hlt
        refine ⟨(f :: g :: m)[i], List.getElem?_eq_getElem hlt, ?_⟩
        unfold iniFile
        rw [hl]
        dsimp only
        rw [hi]
        dsimp only
        rw [if_pos ⟨Int.natCast_nonneg i, by exact_mod_cast hlt⟩, Int.toNat_natCast, List.getD_eq_getElem?_getD, List.getElem?_eq_getElem hlt]
        rfl
      · intro hn
        refine ⟨f, rfl, ?_⟩
        unfold iniFile
        rw [hl]
        dsimp only
        cases hi : int a with
        | none => rfl
        | some i =>
          dsimp only
          rw [if_neg]
          rintro ⟨h1, h3⟩
          apply hn
          refine ⟨i.toNat, ?_, by omega⟩
          rw [hi]
          congr 1
          omega

theorem sorted_ini (folder : List Text) : ((folder.filter isIni).insertionSort le).Pairwise le := by
  have : Std.Total le := ⟨fun a b => Std.Total.total (r := fun x y : Text => x ≤ y) a b⟩
  have : IsTrans Text le := ⟨fun a b c h1 h2 => List.le_trans (α := Char) h1 h2⟩
  exact List.pairwise_insertionSort _ _

example : iniFile [(chars! "b.ini"), (chars! "run.py"), (chars! "a.ini"), (chars! ".c.ini")] [(chars! " 1 ")] = .ok (chars! "b.ini") ∧
    iniFile [(chars! "b.ini"), (chars! "run.py"), (chars! "a.ini")] [(chars! "-1")] = .ok (chars! "a.ini") ∧
    iniFile [(chars! "b.ini"), (chars! "run.py"), (chars! "a.ini")] [(chars! "b")] = .ok (chars! "a.ini") := ⟨rfl, rfl, rfl⟩

/-! ### The logs -/

theorem digit_ne {c : Char} (h : c.isDigit = true) : c ≠ '_' ∧ c ≠ '.' := by
  constructor <;> (rintro rfl; revert h; decide)

theorem not_mem_dec (n : ℕ) : '_' ∉ dec n ∧ '.' ∉ dec n := by
  constructor
  · intro h; exact (digit_ne (Jobs.digit_of_mem h)).1 rfl
  · intro h; exact (digit_ne (Jobs.digit_of_mem h)).2 rfl

/-- The number of the job is found in the name of a log. -/
theorem jobOf_logName (j i : ℕ) : jobOf (logName j i) = some (j : ℤ) := by
  have h1 : logName j i = (chars! "popsyn") ++ '_' :: (dec j ++ '_' :: (dec i ++ (chars! ".out"))) := by
    unfold logName
    simp
  unfold jobOf
  rw [h1, Jobs.cutAt_append _ _ _ (by decide), Jobs.cutAt_append _ _ _ (not_mem_dec j).1]
  change int ((cutAt '.' (dec j)).headD []) = _
  rw [Jobs.cutAt_none _ _ (not_mem_dec j).2]
  exact Jobs.int_dec j

theorem isLog_logName (j i : ℕ) : isLog (logName j i) = true := by
  unfold isLog
  have h1 : starts (chars! "popsyn_") (logName j i) = true := rfl
  have h2 : (chars! ".out").isSuffixOf (logName j i) = true := by
    rw [List.isSuffixOf_iff_suffix]
    exact ⟨(chars! "popsyn_") ++ dec j ++ '_' :: dec i, rfl⟩
  have h3 : 11 ≤ (logName j i).length := by
    unfold logName
    simp
    omega
  rw [h1, h2, decide_eq_true h3]
  rfl

theorem jobs_ok (fs : List Text) (h : ∀ f ∈ fs, ∃ j i : ℕ, f = logName j i) : ∃ l, jobs fs = .ok l ∧ ∀ z, z ∈ l ↔ ∃ j i : ℕ, logName j i ∈ fs ∧ z = j := by
  induction fs with
  | nil => exact ⟨[], rfl, by simp⟩
  | cons f r ih =>
    obtain ⟨l, hl, hm⟩ := ih fun g hg => h g (List.mem_cons_of_mem _ hg)
    obtain ⟨j, i, rfl⟩ := h f List.mem_cons_self
    refine ⟨(j : ℤ) :: l, by rw [jobs, jobOf_logName, hl], ?_⟩
    intro z
    rw [List.mem_cons, hm]
    constructor
    · rintro (rfl | ⟨a, b, h1, h2⟩)
      · exact ⟨j, i, List.mem_cons_self, rfl⟩
      · exact ⟨a, b, List.mem_cons_of_mem _ h1, h2⟩
    · rintro ⟨a, b, h1, rfl⟩
      rcases List.mem_cons.mp h1 with e | e
      · left
        have := congrArg jobOf e
        rw [jobOf_logName, jobOf_logName] at this
        exact Option.some.inj this
      · exact .inr ⟨a, b, e, rfl⟩

theorem mem_unique (l : List ℤ) (z : ℤ) : z ∈ unique l ↔ z ∈ l := by
  unfold unique
  rw [List.mem_insertionSort, List.mem_dedup]

theorem unique_nodup (l : List ℤ) : (unique l).Nodup := by
  unfold unique
  exact (List.perm_insertionSort _ _).nodup_iff.mpr (List.nodup_dedup l)

theorem unique_sorted (l : List ℤ) : (unique l).Pairwise (· < ·) := by
  have h1 : (unique l).Pairwise (· ≤ ·) := List.pairwise_insertionSort _ _
  have h2 := unique_nodup l
  exact (h1.and h2).imp fun h => lt_of_le_of_ne h.1 h.2

theorem ask_mem (ids : List ℤ) (answers : List Text) (z : ℤ) (h : ask ids answers = .ok z) : z ∈ ids := by
  induction answers with
  | nil => cases h
  | cons a r ih =>
    rw [ask] at h
    cases hi : int a with
    | none => rw [hi] at h; exact ih h
    | some i =>
      rw [hi] at h
      dsimp only at h
      by_cases hc : 0 ≤ i ∧ i < (ids.length : ℤ)
      · rw [if_pos hc] at h
        cases h
        have hlt : i.toNat < ids.length := by omega
        rw [List.getD_eq_getElem?_getD, List.getElem?_eq_getElem hlt]
        exact List.getElem_mem hlt
      · rw [if_neg hc] at h
        exact ih h

theorem ask_first (ids : List ℤ) (pre : List Text) (a : Text) (post : List Text) (hpre : ∀ b ∈ pre, ¬Names ids b) (i : ℕ) (hi : int a = some (i : ℤ))
    (hlt : i < ids.length) : ask ids (pre ++ a :: post) = .ok (ids[i]) := by
  induction pre with
  | nil =>
    rw [List.nil_append, ask, hi]
    dsimp only
    rw [if_pos ⟨Int.natCast_nonneg i, by exact_mod_cast hlt⟩, Int.toNat_natCast, List.getD_eq_getElem?_getD, List.getElem?_eq_getElem hlt]
    rfl
  | cons b pre ih =>
    have hb := hpre b List.mem_cons_self
    rw [List.cons_append, ask]
    have := ih fun c hc => hpre c (List.mem_cons_of_mem _ hc)
    cases hj : int b with
    | none => exact this
    | some j =>
      dsimp only
      rw [if_neg]
      · exact this
      · rintro ⟨h1, h2⟩
        apply hb
        refine ⟨j.toNat, ?_, by omega⟩
        rw [hj]
        congr 1
        omega

/-- The job is one of those that have logs; without logs there is none; for a single job nothing is asked. -/
theorem C131_job_partial (logs : List Text) (js : List ℕ) (h : LogsOf logs js) (answers : List Text) :
    (js = [] → selectJob logs answers = .ok none) ∧ (∀ j, (∀ k, k ∈ js ↔ k = j) → selectJob logs answers = .ok (some (j : ℤ))) ∧
      (∀ r, selectJob logs answers = .ok r → r = none ∧ js = [] ∨ ∃ j ∈ js, r = some (j : ℤ)) ∧ selectJob logs answers ≠ .error .value := by
  have hfs : ∀ f ∈ logs.filter isLog, ∃ j i : ℕ, f = logName j i := by
    intro f hf
    rw [List.mem_filter] at hf
    obtain ⟨j, _, i, e⟩ := h.1 f hf.1 hf.2
    exact ⟨j, i, e⟩
  obtain ⟨l, hl, hm⟩ := jobs_ok _ hfs
  have hmem : ∀ z, z ∈ unique l ↔ ∃ j ∈ js, z = (j : ℤ) := by
    intro z
    rw [mem_unique, hm]
    constructor
    · rintro ⟨j, i, h1, rfl⟩
      rw [List.mem_filter] at h1
      obtain ⟨k, hk, i', e⟩ := h.1 _ h1.1 h1.2
      have := congrArg jobOf e
      rw [jobOf_logName, jobOf_logName] at this
      exact ⟨k, hk, Option.some.inj this⟩
    · rintro ⟨j, hj, rfl⟩
      obtain ⟨i, hi⟩ := h.2 j hj
      exact ⟨j, i, List.mem_filter.mpr ⟨hi, isLog_logName j i⟩, rfl⟩
  by_cases hnil : logs.filter isLog = []
  · have hjs : js = [] := by
      cases js with
      | nil => rfl
      | cons j r =>
        obtain ⟨i, hi⟩ := h.2 j List.mem_cons_self
        have : logName j i ∈ logs.filter isLog := List.mem_filter.mpr ⟨hi, isLog_logName j i⟩
        rw [hnil] at this
        cases this
    have e : selectJob logs answers = .ok none := by unfold selectJob; rw [if_pos hnil]
    rw [e]
    refine ⟨fun _ => rfl, ?_, ?_, by simp⟩
    · intro j hj
      have := (hj j).mpr rfl
      rw [hjs] at this
      cases this
    · intro r hr
      cases hr
      exact .inl ⟨rfl, hjs⟩
  · have e : selectJob logs answers = choose (unique l) answers := by
      unfold selectJob choose
      rw [if_neg hnil, hl]
    have hne : unique l ≠ [] := by
      intro hu
      obtain ⟨f, hf⟩ := List.exists_mem_of_ne_nil _ hnil
      obtain ⟨j, i, rfl⟩ := hfs f hf
      have : (j : ℤ) ∈ unique l := (mem_unique l _).mpr ((hm _).mpr ⟨j, i, hf, rfl⟩)
      rw [hu] at this
      cases this
    rw [e]
    unfold choose
    cases hu : unique l with
    | nil => exact absurd hu hne
    | cons z r =>
      rw [hu] at hmem
      obtain ⟨j0, hj0, e0⟩ := (hmem z).mp List.mem_cons_self
      cases r with
      | nil =>
        refine ⟨?_, ?_, ?_, by simp⟩
        · intro hn; rw [hn] at hj0; cases hj0
        · intro j hj
          have := (hj j0).mp hj0
          rw [e0, this]
        · intro r hr
          cases hr
          exact .inr ⟨j0, hj0, by rw [e0]⟩
      | cons w r =>
        obtain ⟨j1, hj1, e1⟩ := (hmem w).mp (List.mem_cons_of_mem _ List.mem_cons_self)
        dsimp only
        refine ⟨?_, ?_, ?_, ?_⟩
        · intro hn; rw [hn] at hj0; cases hj0
        · intro j hj
          exfalso
          have h0 := (hj j0).mp hj0
          have h1 := (hj j1).mp hj1
          have hnd := unique_nodup l
          rw [hu] at hnd
          apply (List.nodup_cons.mp hnd).1
          rw [e0, h0, ← h1, ← e1]
          exact List.mem_cons_self
        · intro q hq
          cases ha : ask (z :: w :: r) answers with
          | error e => rw [ha] at hq; cases hq
          | ok i =>
            rw [ha] at hq
            cases hq
            obtain ⟨j, hj, e⟩ := (hmem i).mp (ask_mem _ _ _ ha)
            exact .inr ⟨j, hj, by rw [e]⟩
        · intro hq
          cases ha : ask (z :: w :: r) answers with
          | error e =>
            rw [ha] at hq
            have key : ∀ answers e, ask (z :: w :: r) answers = .error e → e = .eof := by
              intro answers
              induction answers with
              | nil => intro e h; cases h; rfl
              | cons a t ih =>
                intro e h
                rw [ask] at h
                cases hi : int a with
                | none => rw [hi] at h; exact ih e h
                | some i =>
                  rw [hi] at h
                  dsimp only at h
                  by_cases hc : 0 ≤ i ∧ i < ((z :: w :: r).length : ℤ)
                  · rw [if_pos hc] at h; cases h
                  · rw [if_neg hc] at h; exact ih e h
            have := key answers e ha
            rw [this] at hq
            cases hq
          | ok i => rw [ha] at hq; cases hq

/-- Among several jobs the first answer that is a place in the list decides, and the list is increasing; answers that are none are asked for again. -/
theorem C131_job_answer (logs : List Text) (l : List ℤ) (hne : logs.filter isLog ≠ []) (hl : jobs (logs.filter isLog) = .ok l) (h2 : 2 ≤ (unique l).length)
    (pre : List Text) (a : Text) (post : List Text) (hpre : ∀ b ∈ pre, ¬Names (unique l) b) (i : ℕ) (hi : int a = some (i : ℤ)) (hlt : i < (unique l).length) :
    selectJob logs (pre ++ a :: post) = .ok (some ((unique l)[i])) ∧ (unique l).Pairwise (· < ·) := by
  refine ⟨?_, unique_sorted l⟩
  have e := ask_first (unique l) pre a post hpre i hi hlt
  unfold selectJob
  rw [if_neg hne, hl]
  dsimp only
  change choose (unique l) (pre ++ a :: post) = _
  have key : ∀ u : List ℤ, 2 ≤ u.length → ∀ as z, ask u as = .ok z → choose u as = .ok (some z) := by
    intro u hu as z hz
    match u, hu with
    | j :: k :: r, _ =>
      unfold choose
      dsimp only
      rw [hz]
  exact key _ h2 _ _ e

example : selectJob [logName 12 0, logName 7 3, (chars! "other"), logName 12 1] [(chars! "5"), (chars! "x"), (chars! "1")] = .ok (some 12) := by decide +kernel

/-- The log of merging is taken for one of a job: with it in the folder, the check ends with an error. -/
theorem C131_merge_violated (logs : List Text) (h : mergeLog ∈ logs) (answers : List Text) : selectJob logs answers = .error .value := by
  have hm : mergeLog ∈ logs.filter isLog := List.mem_filter.mpr ⟨h, by decide +kernel⟩
  have hj : jobOf mergeLog = none := by decide +kernel
  have key : ∀ fs : List Text, mergeLog ∈ fs → jobs fs = .error .value := by
    intro fs
    induction fs with
    | nil => intro h; cases h
    | cons f r ih =>
      intro h
      rw [jobs]
      cases hf : jobOf f with
      | none => rfl
      | some j =>
        dsimp only
        have : mergeLog ∈ r := by
          rcases List.mem_cons.mp h with e | e
          · rw [← e, hj] at hf; cases hf
          · exact e
        rw [ih this]
  unfold selectJob
  rw [if_neg (List.ne_nil_of_mem hm), key _ hm]

/-- The logs of tasks that were repeated are never looked at. -/
theorem C131_rescue_violated (logs logs' : List Text) (h : ∀ f ∈ logs', ∃ j i : ℕ, f = rescueLog j i) (content : Text → Option (List Text)) (answers : List Text)
    (missing : List ℕ) :
    analyze (logs ++ logs') content answers missing = analyze logs content answers missing ∧
      ∀ j i j' i' : ℕ, rescueLog j i ≠ logName j' i' := by
  have hn : ∀ j i : ℕ, isLog (rescueLog j i) = false := by
    intro j i
    rfl
  have e : (logs ++ logs').filter isLog = logs.filter isLog := by
    rw [List.filter_append]
    have : logs'.filter isLog = [] := by
      apply List.filter_eq_nil_iff.mpr
      intro f hf
      obtain ⟨j, i, rfl⟩ := h f hf
      rw [hn]
      simp
    rw [this, List.append_nil]
  constructor
  · unfold analyze selectJob
    rw [e]
  · intro j i j' i' he
    have := isLog_logName j' i'
    rw [← he, hn] at this
    cases this

/-- Every missing task is reported, with its own log of the job. -/
theorem C131_reported (logs : List Text) (content : Text → Option (List Text)) (answers : List Text) (missing : List ℕ) (hm : missing ≠ []) (j : ℕ)
    (h : selectJob logs answers = .ok (some (j : ℤ))) :
    analyze logs content answers missing = .ok (missing.map fun i => (i, reason (content (logName j i)))) := by
  unfold analyze
  rw [if_neg hm, h]
  rfl

/-- Different tasks have different logs, and so have different jobs. -/
theorem C131_log_names (j i j' i' : ℕ) (h : logName j i = logName j' i') : j = j' ∧ i = i' := by
  have hj : j = j' := by
    have := congrArg jobOf h
    rw [jobOf_logName, jobOf_logName] at this
    exact_mod_cast Option.some.inj this
  subst hj
  refine ⟨rfl, ?_⟩
  unfold logName at h
  have h1 := List.append_cancel_right h
  have h2 := List.append_cancel_left h1
  have h3 := (List.cons.inj h2).2
  have := congrArg int h3
  rw [Jobs.int_dec, Jobs.int_dec] at this
  exact_mod_cast Option.some.inj this

/-- A log of three or more lines tells of the time limit exactly if one of its last three lines does. -/
theorem C131_time_partial (l : List Text) (h : 3 ≤ l.length) :
    reason (some l) = .wallTime ↔ ∃ s ∈ lastThree l, Frame.isIn timeLimit (strip s) = true := by
  match l, h with
  | a :: r, h =>
    unfold reason
    dsimp only
    rw [if_pos h]
    by_cases hc : ((lastThree (a :: r)).map strip).any (Frame.isIn timeLimit) = true
    · rw [if_pos hc]
      rw [List.any_eq_true] at hc
      obtain ⟨x, hx, h2⟩ := hc
      obtain ⟨s, hs, rfl⟩ := List.mem_map.mp hx
      exact ⟨fun _ => ⟨s, hs, h2⟩, fun _ => rfl⟩
    · rw [if_neg hc]
      constructor
      · intro h; cases h
      · rintro ⟨s, hs, h2⟩
        exact absurd (List.any_eq_true.mpr ⟨_, List.mem_map.mpr ⟨s, hs, rfl⟩, h2⟩) hc

/-- With two lines, only the first counts: a message in the second is not recognised. -/
theorem C131_time_violated : ∃ a b : Text, Frame.isIn timeLimit b = true ∧ reason (some [a, b]) = .lines [strip a, strip b] :=
  ⟨(chars! "start"), (chars! "slurmstepd: error: JOB 1 CANCELLED DUE TO TIME LIMIT"), by decide +kernel, by decide +kernel⟩

/-- Without a log, or without lines, this is said; else without the message the lines are shown, at most the last three. -/
theorem C131_other_reasons (log : Option (List Text)) :
    (reason log = .notFound ↔ log = none) ∧ (reason log = .empty ↔ log = some []) ∧
      ∀ r, reason log = .lines r → ∃ l, log = some l ∧ l ≠ [] ∧ r = (lastThree l).map strip ∧ (∀ s ∈ l.take 1, l.length < 3 → Frame.isIn timeLimit s = false) := by
  cases log with
  | none => exact ⟨by simp [reason], by simp [reason], fun r h => by cases h⟩
  | some l =>
    cases l with
    | nil => exact ⟨by simp [reason], by simp [reason], fun r h => by cases h⟩
    | cons a l =>
      unfold reason
      dsimp only
      by_cases h3 : 3 ≤ (a :: l).length
      · rw [if_pos h3]
        by_cases hc : ((lastThree (a :: l)).map strip).any (Frame.isIn timeLimit) = true
        · rw [if_pos hc]
          exact ⟨by simp, by simp, fun r h => by cases h⟩
        · rw [if_neg hc]
          refine ⟨by simp, by simp, ?_⟩
          intro r h
          cases h
          exact ⟨a :: l, rfl, by simp, rfl, fun s _ h => absurd h3 (by omega)⟩
      · rw [if_neg h3]
        by_cases hc : Frame.isIn timeLimit a = true
        · rw [if_pos hc]
          exact ⟨by simp, by simp, fun r h => by cases h⟩
        · rw [if_neg hc]
          refine ⟨by simp, by simp, ?_⟩
          intro r h
          cases h
          refine ⟨a :: l, rfl, by simp, ?_, ?_⟩
          · unfold lastThree
            rw [show (a :: l).length - 3 = 0 by omega]
            rfl
          · intro s hs _
            have : s = a := by simpa using hs
            rw [this]
            exact Bool.eq_false_iff.mpr hc

/-! ### Yes or no -/

/-- Only `yes` and `y`, in any case and with blanks around, mean yes. -/
theorem C131_confirm (s : Text) : confirm s = true ↔ lower (strip s) = (chars! "yes") ∨ lower (strip s) = (chars! "y") := by
  unfold confirm
  simp

example : confirm (chars! " Yes ") = true ∧ confirm (chars! "Y") = true ∧ confirm (chars! "yep") = false ∧ confirm [] = false := by decide +kernel

/-- A job counts as submitted exactly if `sbatch` took it. -/
theorem C131_submit (sbatch : Text → Sbatch) (script : Text) : submit sbatch script = true ↔ sbatch script = .done := by
  unfold submit
  cases sbatch script <;> simp

/-- Nothing is submitted, written or started without a yes, and the exit code is 0 only for a run that passed or whose repair was started. -/
theorem C131_consent (run : Text) (o : Jobs.Outcome) (answers : List Text) (d : Done) (h : finish run o answers = .ok d) :
    ((d.merges ≠ [] ∨ d.written = true) → ∃ a r, answers = a :: r ∧ confirm a = true) ∧
      (d.started = true → d.written = true ∧ ∃ a b r, answers = a :: b :: r ∧ confirm a = true ∧ confirm b = true) ∧
      (d.code = 0 ↔ o = .passed ∨ d.started = true) := by
  cases o with
  | passed =>
    cases h
    simp
  | foldersMissing =>
    cases h
    simp
  | mergeAgain mets =>
    cases answers with
    | nil => cases h
    | cons a r =>
      cases h
      by_cases hc : confirm a = true
      · simp [hc]
      · simp [hc]
  | rescued s =>
    cases answers with
    | nil => cases h
    | cons a r =>
      unfold finish at h
      dsimp only at h
      by_cases hc : confirm a = true
      · rw [if_pos hc] at h
        cases r with
        | nil => cases h
        | cons b r =>
          cases h
          by_cases hb : confirm b = true
          · simp [hb, hc]
          · simp [hb, hc]
      · rw [if_neg hc] at h
        cases h
        simp

/-- With yes, the merge jobs of exactly the metallicities without a population are submitted. -/
theorem C131_merges (run : Text) (mets : List Text) (a : Text) (r : List Text) :
    ∃ d, finish run (.mergeAgain mets) (a :: r) = .ok d ∧
      d.merges = if confirm a then mets.map fun m => Jobs.joinPath run (Jobs.mergeName m) else [] := ⟨_, rfl, rfl⟩

/-- The exit code does not tell whether the merge jobs could be submitted or even were, and that of a run without its batch folders is the only one that
tells of a failure. -/
theorem C131_code_violated (run : Text) (mets : List Text) (a : Text) (r : List Text) (d : Done) (h : finish run (.mergeAgain mets) (a :: r) = .ok d) : d.code = 2 := by
  cases h
  rfl

/-- A parameter file is accepted if it is there and its supernova model is known. -/
theorem C131_valid (file : Option Bool) : validIni file = .ok () ↔ file = some true := by
  cases file with
  | none => simp [validIni]
  | some b => cases b <;> simp [validIni]

/-- Only files ending in `.ini` whose name does not begin with a dot are offered. -/
theorem C131_ini_visible (f : Text) : isIni f = true ↔ (∃ s, f = s ++ (chars! ".ini") ∧ s.head? ≠ some '.' ∧ s ≠ []) := by
  unfold isIni
  rw [Bool.and_eq_true, List.isSuffixOf_iff_suffix]
  constructor
  · rintro ⟨⟨s, rfl⟩, h⟩
    refine ⟨s, rfl, ?_, ?_⟩
    · intro e
      cases s with
      | nil => cases e
      | cons c t => cases e; revert h; simp [starts, List.isPrefixOf]
    · rintro rfl
      exact absurd h (by decide)
  · rintro ⟨s, rfl, h1, h2⟩
    refine ⟨⟨s, rfl⟩, ?_⟩
    cases s with
    | nil => exact absurd rfl h2
    | cons c t =>
      have : c ≠ '.' := fun e => h1 (by rw [e]; rfl)
      simp [starts, List.isPrefixOf, Ne.symm this]

/-- C131. A missing ini file and an unknown supernova model are told apart. -/
theorem C131_valid_errors (file : Option Bool) :
    (validIni file = .error .file ↔ file = none) ∧ (validIni file = .error .value ↔ file = some false) := by
  rcases file with _ | _ | _ <;> simp [validIni]

/-- C131. The log of a task that was repeated is named by its job and number like a log, but with another beginning. -/
theorem C131_rescue_name (j i : ℕ) : (chars! "popsyn_") ++ (rescueLog j i).drop 7 = logName j i ∧ (rescueLog j i).take 7 = (chars! "rescue_") := by
  constructor
  · show (chars! "popsyn_") ++ (dec j ++ '_' :: dec i ++ (chars! ".out")) = _
    simp [logName]
  · rfl

end Verif.Dialog
