import Verif.Chars
import Mathlib.Data.List.FinRange
import Mathlib.Data.List.Nodup
import Mathlib.Data.List.Basic
import Mathlib.Logic.Relation
import Mathlib.Tactic.Common

/-!
# Setting up the post-processing pipeline

Model of `bin/posydon-setup-pipeline`: reading the settings of a step
(`get_step_kwargs`), deciding which jobs there are, and writing the script
`run_pipeline.sh` that submits them with their dependencies
(`create_csv_and_slurm_job_files`), and the log directories
(`create_log_dirs`).

Simplifications.  The seven steps `step_1 … step_5, step_F, rerun` are numbered
`0 … 6`.  A value of the ini file for `GRID_TYPES`, `METALLICITIES`, `GRID_SLICES` or
`COMPRESSIONS` is an opaque value when it is a list and `none` when the key is
missing or its value is no list (the code treats both alike, l.251-253).
`CREATE_PLOTS` and `DO_CHECKS` are lists when they are given.  Writing the table
and the job file of a job (`create_csv` and `slurm_job`, see `Verif/PipelineCsv.lean`)
is a parameter which may raise and which returns the files it announces.
Printed text and the permission checks on the script are left out.
-/

namespace Verif.Pipeline

abbrev Name := List Char
abbrev File := List (List Char)

/-- Index into `ACTION_TO_STEP_NUM` (`bin/posydon-setup-pipeline` l.54-62). -/
abbrev Step := Fin 7

/-- The jobs that can be submitted: the steps, their plots and checks
(`SUB_STEPS_TO_EXTENSION`, l.64-67) and the `_cleanup` job of a job. -/
inductive Job where
  | main (k : Step)
  | plots (k : Step)
  | checks (k : Step)
  | clean (j : Job)
deriving DecidableEq

/-- The exceptions that matter here. -/
inductive Err where
  /-- `KeyError`: a section or an attribute is missing. -/
  | key
  /-- `UnboundLocalError`: `step_kwargs` is used before it is assigned. -/
  | unbound
  /-- whatever `create_csv` or `slurm_job` raise. -/
  | job
deriving DecidableEq

/-- One section of the ini file, `[step_k]`.  The four attributes are those of
`ATTRIBUTES_TO_CHECK` (l.124-125). -/
structure Sect (V : Type) where
  attr : Fin 4 → Option V
  plots : Option (List Name)
  checks : Option (List Name)

/-- The ini file: the sections of the steps, the switches of the section
`pipeline setup` (one per step, absent means `False`; `MAKE_PLOTS` and
`MAKE_CHECKS`, absent means `True`) and whether a `GROUP` is given. -/
structure Ini (V : Type) where
  sec : Step → Option (Sect V)
  want : Step → Bool
  makePlots : Bool
  makeChecks : Bool
  group : Bool

/-! ### The sets of plots and checks -/

/-- `PLOTTING_SETS` (l.69-113): the entries that depend on the names of the
supernova models `ms` are appended by the loop l.107-113. -/
def plottingSets (ms : List Name) : List (Name × List Name) :=
  [((chars! "PLOT_AFTER_CREATE"), []),
   ((chars! "PLOT_AFTER_COMBINE"),
     [(chars! "combined_TF12"), (chars! "termination_flag_1"),
      (chars! "termination_flag_2"), (chars! "termination_flag_3"),
      (chars! "termination_flag_4"), (chars! "rl_relative_overflow_1"),
      (chars! "rl_relative_overflow_2"), (chars! "lg_mtransfer_rate")]),
   ((chars! "PLOT_AFTER_EXTRA"),
     ms.flatMap fun m =>
       [(chars! "CO_type"), (chars! "SN_type"), (chars! "mass"), (chars! "spin"),
        (chars! "m_disk_radiated")].map fun q =>
          (chars! "S1_") ++ m ++ (chars! "_") ++ q),
   ((chars! "PLOT_AFTER_TRAINING"),
     ([(chars! "age"), (chars! "star_1_mass"), (chars! "star_2_mass"),
       (chars! "period_days")] ++
      ([(chars! "S1_"), (chars! "S2_")].flatMap fun s =>
        [(chars! "co_core_mass"), (chars! "co_core_radius"), (chars! "he_core_mass"),
         (chars! "he_core_radius"), (chars! "center_h1"), (chars! "center_he4"),
         (chars! "surface_h1"), (chars! "surface_he4"),
         (chars! "surf_avg_omega_div_omega_crit"), (chars! "log_Teff"),
         (chars! "log_L"), (chars! "log_R"), (chars! "spin_parameter"),
         (chars! "lambda_CE_10cent")].map fun q => s ++ q) ++
      (ms.flatMap fun m =>
        [(chars! "mass"), (chars! "spin"), (chars! "m_disk_radiated")].map fun q =>
          (chars! "S1_") ++ m ++ (chars! "_") ++ q)).map
        fun q => (chars! "INTERP_ERROR_") ++ q),
   ((chars! "PLOT_AFTER_PROFILE_TRAINING"), [])]

/-- `CHECKING_SETS` (l.116-122). -/
def checkingSets : List (Name × List Name) :=
  [((chars! "CHECK_AFTER_CREATE"), []),
   ((chars! "CHECK_AFTER_COMBINE"), [(chars! "failure_rate")]),
   ((chars! "CHECK_AFTER_EXTRA"), [(chars! "CO_type"), (chars! "SN_type")]),
   ((chars! "CHECK_AFTER_TRAINING"), []),
   ((chars! "CHECK_AFTER_PROFILE_TRAINING"), [])]

/-- Replacing the names of sets in a list (l.266-272, l.282-288): a set that is
in the list is removed (`list.remove`, the first occurrence only) and its content
is appended. -/
def expand (sets : List (Name × List Name)) (l : List Name) : List Name :=
  sets.foldl (fun l s => if s.1 ∈ l then l.erase s.1 ++ s.2 else l) l

/-! ### The settings of a step -/

/-- The tables of sets a run of the script uses. -/
structure Sets where
  plot : List (Name × List Name)
  check : List (Name × List Name)

/-- The lists of plots and checks of a section after l.265-296: the sets are
expanded; with `MAKE_PLOTS = False` (`MAKE_CHECKS = False`) a given list is
emptied. -/
def tidy {V : Type} (t : Sets) (p : Ini V) (c : Sect V) : Sect V :=
  { c with
    plots := c.plots.map fun l => if p.makePlots then expand t.plot l else []
    checks := c.checks.map fun l => if p.makeChecks then expand t.check l else [] }

/-- The attributes (l.250-263): an attribute that the section lacks is taken from
the section of the last requested step; `KeyError` when that has none either. -/
def fill {V : Type} (prev : Option (Sect V)) (c : Sect V) : Except Err (Sect V) :=
  if ∀ a, ((c.attr a).or (prev.bind fun d => d.attr a)).isSome then
    .ok { c with attr := fun a => (c.attr a).or (prev.bind fun d => d.attr a) }
  else .error .key

/-- `has_substep` for one sub-step (l.300-329). -/
def hasOne : Option (List Name) → Bool
  | some (_ :: _) => true
  | _ => false

/-- `has_substep` with `'ALL'`. -/
def hasSub {V : Type} (c : Sect V) : Bool := hasOne c.plots || hasOne c.checks

/-! ### The script -/

/-- A line of `run_pipeline.sh`: the job and the job it waits for
(`--dependency=afterok:`).  The rest is bookkeeping for the statements: the settings the
job was made with, the files the job may expect (`previously_created_files`) and
the files it announces. -/
structure Line (V : Type) where
  job : Job
  dep : Option Job
  kw : Sect V
  known : List File
  out : List File

/-- The variables of the loop: the sections (which the loop modifies), `last_step`,
`step_kwargs` (`none` as long as it is not assigned), the lines written,
`previously_created_files` and `plot_dirs`.  The list `pipeline_steps` always holds
the jobs of the lines, it is not kept apart. -/
structure St (V : Type) where
  sec : Step → Option (Sect V)
  last : Option Step
  cur : Option (Sect V)
  lines : List (Line V)
  made : List File
  dirs : List File

/-- The jobs with a clean-up job (l.1283-1286). -/
def cleans : Job → Bool
  | .main k => k = 1 ∨ k = 5 ∨ k = 6
  | .plots _ => true
  | .checks _ => true
  | .clean _ => false

/-- The lines written for one job: the job and, when there is one, its clean-up
(l.400-411, l.442-451). -/
def emit {V : Type} (j : Job) (dep : Option Job) (c : Sect V) (known out : List File) :
    List (Line V) :=
  ⟨j, dep, c, known, out⟩ ::
    (if cleans j then [⟨.clean j, some j, c, known, []⟩] else [])

/-- Reading the settings of a step (l.377-382); a missing section raises in
`has_substep` (l.315-316) or in `get_step_kwargs` (l.246-247). -/
def enter {V : Type} (t : Sets) (p : Ini V) (k : Step) (s : St V) :
    Except Err (St V) :=
  match s.sec k with
  | none => .error .key
  | some c =>
    if p.want k || hasSub c then
      match fill (s.last.bind s.sec) c with
      | .error e => .error e
      | .ok c' =>
        .ok { s with sec := fun i => if i = k then some (tidy t p c') else s.sec i
                     cur := some (tidy t p c') }
    else .ok s

/-- Submitting the step itself (l.384-411). -/
def doMain {V : Type} (build : Job → Sect V → List File → Except Err (List File))
    (p : Ini V) (k : Step) (s : St V) : Except Err (St V) :=
  if p.want k then
    match s.cur with
    | none => .error .unbound
    | some c =>
      match build (.main k) c s.made with
      | .error e => .error e
      | .ok fs =>
        .ok { s with lines := s.lines ++ emit (.main k) (s.last.map .main) c s.made fs
                     made := s.made ++ fs
                     last := some k }
  else .ok s

/-- Submitting a sub-step (l.418-451). -/
def doSub {V : Type} (build : Job → Sect V → List File → Except Err (List File))
    (j : Job) (has : Bool) (s : St V) : Except Err (St V) :=
  if has then
    match s.cur with
    | none => .error .unbound
    | some c =>
      match build j c s.made with
      | .error e => .error e
      | .ok fs =>
        .ok { s with lines := s.lines ++ emit j (s.last.map .main) c s.made fs
                     dirs := s.dirs ++ fs }
  else .ok s

/-- One pass of the loop over the steps (l.367-451). -/
def pass {V : Type} (build : Job → Sect V → List File → Except Err (List File))
    (t : Sets) (p : Ini V) (k : Step) (s : St V) : Except Err (St V) :=
  match enter t p k s with
  | .error e => .error e
  | .ok s1 =>
    match doMain build p k s1 with
    | .error e => .error e
    | .ok s2 =>
      match doSub build (.plots k) (hasOne ((s2.sec k).bind (·.plots))) s2 with
      | .error e => .error e
      | .ok s3 => doSub build (.checks k) (hasOne ((s3.sec k).bind (·.checks))) s3

/-- The loop. -/
def loop {V : Type} (build : Job → Sect V → List File → Except Err (List File))
    (t : Sets) (p : Ini V) : List Step → St V → Except Err (St V)
  | [], s => .ok s
  | k :: ks, s =>
    match pass build t p k s with
    | .error e => .error e
    | .ok s' => loop build t p ks s'

/-- The variables before the loop (l.353-366). -/
def start {V : Type} (p : Ini V) : St V := ⟨p.sec, none, none, [], [], []⟩

/-- What the script contains: the lines, and the jobs that the final clean-up job
waits for (`afterany`), if there is one. -/
structure Script (V : Type) where
  lines : List (Line V)
  final : Option (List Job)

/-- `create_csv_and_slurm_job_files` (l.331-491).  The call for the final clean-up
(l.455-457) uses `step_kwargs` in any case. -/
def script {V : Type} (build : Job → Sect V → List File → Except Err (List File))
    (t : Sets) (p : Ini V) : Except Err (Script V) :=
  match loop build t p (List.finRange 7) (start p) with
  | .error e => .error e
  | .ok s =>
    match s.cur with
    | none => .error .unbound
    | some _ => .ok ⟨s.lines, if p.group then some (s.lines.map (·.job)) else none⟩

/-! ### Log directories -/

/-- The directories below `logs`. -/
inductive LogDir where
  | step (k : Step)
  | cleanup
deriving DecidableEq

/-- The directory a job writes its output to (l.619-626, l.1308-1312). -/
def logOf : Job → LogDir
  | .main k => .step k
  | .plots k => .step k
  | .checks k => .step k
  | .clean _ => .cleanup

/-- `create_log_dirs` (l.494-519). -/
def logDirs {V : Type} (p : Ini V) : List LogDir :=
  ((List.finRange 7).filter fun k => p.want k).map .step ++ [.cleanup]

/-! ## Specification -/

/-- The last requested step before `k`. -/
def prior {V : Type} (p : Ini V) (ks : List Step) : Option Step :=
  (ks.filter fun i => p.want i).getLast?

/-- The plots the user asked for in a section, sets resolved. -/
def asked {V : Type} (t : Sets) (p : Ini V) (k : Step) : Bool × Bool :=
  match p.sec k with
  | none => (false, false)
  | some c => (hasOne (tidy t p c).plots, hasOne (tidy t p c).checks)

/-- The jobs a pipeline should have for one step, with what they wait for; `done` are
the steps before it. -/
def block {V : Type} (t : Sets) (p : Ini V) (done : List Step) (k : Step) :
    List (Job × Option Job) :=
  let w (j : Job) (d : Option Job) : List (Job × Option Job) :=
    (j, d) :: (if cleans j then [(.clean j, some j)] else [])
  (if p.want k then w (.main k) ((prior p done).map .main) else []) ++
  (if (asked t p k).1 then w (.plots k) ((prior p (done ++ [k])).map .main) else []) ++
  (if (asked t p k).2 then w (.checks k) ((prior p (done ++ [k])).map .main) else [])

/-- All of them. -/
def blocks {V : Type} (t : Sets) (p : Ini V) : List Step → List Step →
    List (Job × Option Job)
  | _, [] => []
  | done, k :: ks => block t p done k ++ blocks t p (done ++ [k]) ks

/-- The value of an attribute that the user means for step `k`: the one given for the step
itself or the one given for the closest requested step before it. -/
def meant {V : Type} (p : Ini V) (done : List Step) (k : Step) (a : Fin 4) : Option V :=
  (k :: (done.filter fun i => p.want i).reverse).findSome?
    fun i => (p.sec i).bind fun c => c.attr a

/-- A job waits for another one. -/
def Waits {V : Type} (ls : List (Line V)) (a b : Job) : Prop :=
  ∃ l ∈ ls, l.job = a ∧ l.dep = some b

/-- The step a job belongs to. -/
def stepOf : Job → Step
  | .main k => k
  | .plots k => k
  | .checks k => k
  | .clean j => stepOf j

/-! ## Lemmas -/

/-- The pass, taken apart. -/
theorem pass_ok {V : Type} {build : Job → Sect V → List File → Except Err (List File)}
    {t : Sets} {p : Ini V} {k : Step} {s s' : St V} (h : pass build t p k s = .ok s') :
    ∃ s1 s2 s3, enter t p k s = .ok s1 ∧ doMain build p k s1 = .ok s2 ∧
      doSub build (.plots k) (hasOne ((s2.sec k).bind (·.plots))) s2 = .ok s3 ∧
      doSub build (.checks k) (hasOne ((s3.sec k).bind (·.checks))) s3 = .ok s' := by
  unfold pass at h
  cases h1 : enter t p k s with
  | error e => rw [h1] at h; cases h
  | ok s1 =>
    rw [h1] at h; dsimp only at h
    cases h2 : doMain build p k s1 with
    | error e => rw [h2] at h; cases h
    | ok s2 =>
      rw [h2] at h; dsimp only at h
      cases h3 : doSub build (.plots k) (hasOne ((s2.sec k).bind (·.plots))) s2 with
      | error e => rw [h3] at h; cases h
      | ok s3 => rw [h3] at h; exact ⟨s1, s2, s3, rfl, h2, h3, h⟩

theorem enter_ok {V : Type} {t : Sets} {p : Ini V} {k : Step} {s s' : St V}
    (h : enter t p k s = .ok s') :
    ∃ c, s.sec k = some c ∧
      ((p.want k = false ∧ hasSub c = false ∧ s' = s) ∨
       ((p.want k = true ∨ hasSub c = true) ∧ ∃ c', fill (s.last.bind s.sec) c = .ok c' ∧
        s' = { s with sec := fun i => if i = k then some (tidy t p c') else s.sec i
                      cur := some (tidy t p c') })) := by
  unfold enter at h
  cases hc : s.sec k with
  | none => rw [hc] at h; cases h
  | some c =>
    rw [hc] at h; dsimp only at h
    refine ⟨c, rfl, ?_⟩
    by_cases hw : (p.want k || hasSub c) = true
    · rw [if_pos hw] at h
      right
      refine ⟨by simpa using hw, ?_⟩
      cases hf : fill (s.last.bind s.sec) c with
      | error e => rw [hf] at h; cases h
      | ok c' => rw [hf] at h; cases h; exact ⟨c', rfl, rfl⟩
    · rw [if_neg hw] at h
      left
      cases h
      simp only [Bool.or_eq_true, not_or, Bool.not_eq_true] at hw
      exact ⟨hw.1, hw.2, rfl⟩

theorem doMain_ok {V : Type} {build : Job → Sect V → List File → Except Err (List File)}
    {p : Ini V} {k : Step} {s s' : St V} (h : doMain build p k s = .ok s') :
    (p.want k = false ∧ s' = s) ∨
    (p.want k = true ∧ ∃ c fs, s.cur = some c ∧ build (.main k) c s.made = .ok fs ∧
      s' = { s with lines := s.lines ++ emit (.main k) (s.last.map .main) c s.made fs
                    made := s.made ++ fs
                    last := some k }) := by
  unfold doMain at h
  by_cases hw : p.want k = true
  · rw [if_pos hw] at h
    right
    refine ⟨hw, ?_⟩
    cases hc : s.cur with
    | none => rw [hc] at h; cases h
    | some c =>
      rw [hc] at h; dsimp only at h
      cases hb : build (.main k) c s.made with
      | error e => rw [hb] at h; cases h
      | ok fs => rw [hb] at h; cases h; exact ⟨c, fs, rfl, hb, rfl⟩
  · rw [if_neg hw] at h
    cases h
    exact Or.inl ⟨by simpa using hw, rfl⟩

theorem doSub_ok {V : Type} {build : Job → Sect V → List File → Except Err (List File)}
    {j : Job} {has : Bool} {s s' : St V} (h : doSub build j has s = .ok s') :
    (has = false ∧ s' = s) ∨
    (has = true ∧ ∃ c fs, s.cur = some c ∧ build j c s.made = .ok fs ∧
      s' = { s with lines := s.lines ++ emit j (s.last.map .main) c s.made fs
                    dirs := s.dirs ++ fs }) := by
  unfold doSub at h
  by_cases hw : has = true
  · rw [if_pos hw] at h
    right
    refine ⟨hw, ?_⟩
    cases hc : s.cur with
    | none => rw [hc] at h; cases h
    | some c =>
      rw [hc] at h; dsimp only at h
      cases hb : build j c s.made with
      | error e => rw [hb] at h; cases h
      | ok fs => rw [hb] at h; cases h; exact ⟨c, fs, rfl, hb, rfl⟩
  · rw [if_neg hw] at h
    cases h
    exact Or.inl ⟨by simpa using hw, rfl⟩

/-- Induction over the loop with an invariant that knows which steps are done. -/
theorem loop_inv {V : Type} {build : Job → Sect V → List File → Except Err (List File)}
    {t : Sets} {p : Ini V} (I : List Step → St V → Prop)
    (hI : ∀ done k s s', k ∉ done → I done s → pass build t p k s = .ok s' →
      I (done ++ [k]) s') :
    ∀ ks done s s', (done ++ ks).Nodup → I done s → loop build t p ks s = .ok s' →
      I (done ++ ks) s'
  | [], done, s, s', _, h0, h => by
      simp only [loop, Except.ok.injEq] at h
      subst h
      simpa using h0
  | k :: ks, done, s, s', hn, h0, h => by
      unfold loop at h
      cases hp : pass build t p k s with
      | error e => rw [hp] at h; cases h
      | ok s1 =>
        rw [hp] at h
        have hk : k ∉ done := by
          intro hm
          rw [List.nodup_append] at hn
          exact hn.2.2 k hm k (by simp) rfl
        have := loop_inv I hI ks (done ++ [k]) s1 s' (by simpa using hn)
          (hI done k s s1 hk h0 hp) h
        simpa using this

end Verif.Pipeline
