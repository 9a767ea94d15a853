import Verif.Chars
import Mathlib.Data.List.Basic
import Mathlib.Tactic.Common
import Mathlib.Tactic.SplitIfs
/-!
Model of the scripts that validate a branch: `/repo/dev-tools/run_test_suite.sh`, `/repo/dev-tools/generate_baseline.sh` and
`/repo/dev-tools/validate_binaries.sh`.

All three run under `set -euo pipefail`: the first command that fails outside a condition ends the script with its exit code, a
pipeline fails if any of its parts does, and an unset variable is an error.

Simplifications: the programs called (conda, git, pip, the suites, the comparison) are given by what they return and write.
Directories and files are kept per branch name (with `/` replaced) and metallicity; logs and messages are left out.  The metallicities
are the words of the argument.  The comparison itself is C132.
-/
namespace Verif.Validate

/-- A result file of the suite. -/
structure H5 where
  /-- its tables -/
  data : ℕ
  /-- the commit recorded in it -/
  sha : String
  /-- `n_missing` of its metadata; `none` if it cannot be read -/
  missing : Option ℕ
  /-- `path_to_posydon_data`; `none` if it cannot be read -/
  path : Option String
  deriving DecidableEq

/-- `baseline_info.txt`, generate_baseline.sh l.146-158. -/
structure Info where
  branch : List Char
  commit : String
  requested : String
  promoted : Bool
  metallicities : List String
  files : ℕ
  path : String
  /-- the section on incomplete baselines, l.160-161 -/
  incomplete : List (String × ℕ)
  deriving DecidableEq

/-- The files under `script_data`.  The first argument is always the branch as used in paths. -/
structure World where
  candDir : List Char → Bool
  cand : List Char → String → Option H5
  baseDir : List Char → Bool
  base : List Char → String → Option H5
  info : List Char → Option Info
  /-- the commit of the clone, if there is one -/
  clone : List Char → Option String

/-- `${BRANCH//\//_}`. -/
def safe (branch : List Char) : List Char := branch.map fun c => if c = '/' then '_' else c

def put {α : Type} (f : List Char → α) (b : List Char) (v : α) : List Char → α := fun b' => if b' = b then v else f b'

def put2 {α : Type} (f : List Char → String → α) (b : List Char) (z : String) (v : α) : List Char → String → α :=
  fun b' z' => if b' = b ∧ z' = z then v else f b' z'

/-- What the programs called by `run_test_suite.sh` do. -/
structure Progs where
  /-- conda is found, l.56-76 -/
  conda : Bool
  /-- the commit of the clone, if cloning works, l.86-89 -/
  cloned : Option String
  /-- checking out, the environment and the installation work, l.92-110, and the inlist is copied, l.125-128 -/
  installed : Bool
  /-- exit code of the suite per metallicity, and the file it writes (also when it fails later) -/
  code : String → ℕ
  wrote : String → Option H5
  /-- exit code of the population suite -/
  popCode : ℕ

/-- The loop over metallicities, run_test_suite.sh l.130-164: the pipeline `python … | tee` ends the script if the suite fails, so that the
lines counting failures (l.148-159) are only reached with exit code zero. -/
def suiteLoop (p : Progs) (b : List Char) (w : World) : List String → Except ℕ Unit × World
  | [] => (.ok (), w)
  | z :: zs =>
    let w' := match p.wrote z with
      | some f => { w with cand := put2 w.cand b z (some f) }
      | none => w
    if p.code z ≠ 0 then (.error (p.code z), w') else suiteLoop p b w' zs

/-- `run_test_suite.sh`: the exit code and the files.  After the loop the counter is reset (l.168); what is tested for the population suite is
the file of the last metallicity (l.196); without metallicities that variable is unset. -/
def runSuite (p : Progs) (branch : List Char) (zs : List String) (w : World) : ℕ × World :=
  let b := safe branch
  let w := { w with candDir := put w.candDir b true }
  if p.conda = false then (1, w) else
  let w := { w with clone := put w.clone b p.cloned }
  if p.cloned = none ∨ p.installed = false then (1, w) else
  match suiteLoop p b w zs with
  | (.error e, w) => (e, w)
  | (.ok (), w) =>
    if p.popCode ≠ 0 then (p.popCode, w) else
    match zs.getLast? with
    | none => (1, w)
    | some z => if w.cand b z = none then (1, w) else (0, w)

/-- The loop copying files, generate_baseline.sh l.85-96. -/
def copyLoop (b : List Char) (w : World) : List String → ℕ × World
  | [] => (0, w)
  | z :: zs =>
    match w.cand b z with
    | some f =>
      let r := copyLoop b { w with base := put2 w.base b z (some f) } zs
      (r.1 + 1, r.2)
    | none => copyLoop b w zs

/-- The path recorded, l.106-121: that of the first baseline there is. -/
def dataPath (b : List Char) (w : World) (zs : List String) : String :=
  match zs.find? fun z => (w.base b z).isSome with
  | none => "unknown"
  | some z =>
    match w.base b z with
    | some f => f.path.getD "unknown"
    | none => "unknown"

/-- The check for completeness, l.124-144.  The text given to Python contains `f'Z={Z}: …'` in the message on missing binaries and in that of
the `except` block: the shell does not replace `{Z}`, and Python knows no `Z`.  So either message ends Python with a `NameError`, and
the assignment with the exit code 1 ends the script; no message is ever collected. -/
def checkLoop (b : List Char) (w : World) : List String → Except ℕ (List (String × ℕ))
  | [] => .ok []
  | z :: zs =>
    match w.base b z with
    | none => checkLoop b w zs
    | some f =>
      match f.missing with
      | some 0 => checkLoop b w zs
      | _ => .error 1

/-- The part of `generate_baseline.sh` after the suite, l.77-176. -/
def record (branch : List Char) (sha : String) (promote : Bool) (zs : List String) (w : World) : ℕ × World :=
  let b := safe branch
  let w := { w with baseDir := put w.baseDir b true }
  let r := copyLoop b w zs
  let w := r.2
  match checkLoop b w zs with
  | .error e => (e, w)
  | .ok l =>
    let w := { w with info := put w.info b (some ⟨branch, (w.clone b).getD "unknown", if sha = "" then "HEAD" else sha, promote, zs, r.1,
      dataPath b w zs, l⟩) }
    if r.1 = 0 then (1, w) else (0, w)

/-- `generate_baseline.sh`. -/
def generate (p : Progs) (branch : List Char) (sha : String) (promote : Bool) (zs : List String) (w : World) : ℕ × World :=
  if promote then
    if w.candDir (safe branch) = false then (1, w) else record branch "" true zs w
  else
    match runSuite p branch zs w with
    | (0, w) => record branch sha false zs w
    | (e, w) => (e, w)

/-! ### `validate_binaries.sh` -/

inductive Line | pass | differ | noCandidate | skipped
  deriving DecidableEq

/-- The verdict on a metallicity, l.185-222. -/
def verdict (same : H5 → H5 → Bool) (w : World) (bb cb : List Char) (z : String) : Line :=
  match w.base bb z with
  | none => .skipped
  | some f =>
    match w.cand cb z with
    | none => .noCandidate
    | some g => if same f g then .pass else .differ

/-- What the script leaves: exit code, files, and the lines of the summary (`none`: no summary was written). -/
structure Outcome where
  code : ℕ
  world : World
  summary : Option (List Line)

/-- The first step, l.147-162.  `outputDir` is the variable `OUTPUT_DIR` of the environment, which l.151-152 use in place of the
script's `BINARY_OUTPUT_DIR`: `none` if it is unset, otherwise whether it is a directory. -/
def stepOne (p : Progs) (candidate : List Char) (zs : List String) (skip : Bool) (outputDir : Option Bool) (w : World) : ℕ × World :=
  if skip then (match outputDir with | some true => (0, w) | _ => (1, w)) else runSuite p candidate zs w

/-- `validate_binaries.sh` l.126-241 with the options already read. -/
def validate (p : Progs) (same : H5 → H5 → Bool) (candidate baseline : List Char) (zs : List String) (skip : Bool) (outputDir : Option Bool)
    (w : World) : Outcome :=
  let cb := safe candidate
  let bb := safe baseline
  if w.baseDir bb = false then ⟨1, w, none⟩ else
  if zs.countP (fun z => (w.base bb z).isSome) = 0 then ⟨1, w, none⟩ else
  let r := stepOne p candidate zs skip outputDir w
  if r.1 ≠ 0 then ⟨r.1, r.2, none⟩ else
  let lines := zs.map (verdict same r.2 bb cb)
  ⟨if 0 < lines.countP (fun l => l == .differ || l == .noCandidate) then 1 else 0, { r.2 with candDir := put r.2.candDir cb true }, some lines⟩

/-! ### Lemmas -/

theorem put_same {α : Type} (f : List Char → α) (b : List Char) (v : α) : put f b v b = v := by simp [put]

theorem put_other {α : Type} (f : List Char → α) (b c : List Char) (v : α) (h : c ≠ b) : put f b v c = f c := by simp [put, h]

/-- The suites only write candidates: the last file written for a metallicity is kept. -/
theorem suiteLoop_spec (p : Progs) (b : List Char) (zs : List String) (w : World) :
    (suiteLoop p b w zs).2.base = w.base ∧ (suiteLoop p b w zs).2.baseDir = w.baseDir ∧ (suiteLoop p b w zs).2.info = w.info ∧
      (suiteLoop p b w zs).2.clone = w.clone ∧ (suiteLoop p b w zs).2.candDir = w.candDir ∧
      (∀ c z, c ≠ b ∨ z ∉ zs → (suiteLoop p b w zs).2.cand c z = w.cand c z) ∧
      ((suiteLoop p b w zs).1 = .ok () ↔ ∀ z ∈ zs, p.code z = 0) ∧
      ((∀ z ∈ zs, p.code z = 0) → ∀ z ∈ zs, (suiteLoop p b w zs).2.cand b z = (p.wrote z).or (w.cand b z)) ∧
      (∀ e, (suiteLoop p b w zs).1 = .error e → e ≠ 0) := by
  induction zs generalizing w with
  | nil => simp [suiteLoop]
  | cons z zs ih =>
    simp only [suiteLoop]
    generalize hw : (match p.wrote z with
      | some f => { w with cand := put2 w.cand b z (some f) }
      | none => w : World) = w'
    have hbase : w'.base = w.base ∧ w'.baseDir = w.baseDir ∧ w'.info = w.info ∧ w'.clone = w.clone ∧ w'.candDir = w.candDir := by
      rw [← hw]; cases p.wrote z <;> simp
    have hcand : (∀ c y, c ≠ b ∨ y ≠ z → w'.cand c y = w.cand c y) ∧ w'.cand b z = (p.wrote z).or (w.cand b z) := by
      rw [← hw]
      cases p.wrote z with
      | none => simp
      | some f =>
        refine ⟨fun c y hcy => ?_, by simp [put2]⟩
        simp only [put2]
        rw [if_neg]
        rintro ⟨h1, h2⟩
        rcases hcy with h | h <;> contradiction
    by_cases hz : p.code z = 0
    · simp only [hz, ne_eq, not_true_eq_false, if_false]
      obtain ⟨i1, i2, i3, i4, i5, i6, i7, i8, i9⟩ := ih w'
      refine ⟨by rw [i1, hbase.1], by rw [i2, hbase.2.1], by rw [i3, hbase.2.2.1], by rw [i4, hbase.2.2.2.1], by rw [i5, hbase.2.2.2.2], ?_, ?_, ?_, i9⟩
      · intro c y hcy
        rw [i6 c y (by rcases hcy with h | h; exact Or.inl h; exact Or.inr fun hm => h (by simp [hm]))]
        exact hcand.1 c y (by rcases hcy with h | h; exact Or.inl h; exact Or.inr fun hm => h (by simp [hm]))
      · rw [i7]; simp [hz]
      · intro hall y hy
        have hall' : ∀ z ∈ zs, p.code z = 0 := fun z hz' => hall z (by simp [hz'])
        by_cases hyz : y ∈ zs
        · rw [i8 hall' y hyz]
          by_cases h : y = z
          · subst h; rw [hcand.2]; cases p.wrote y <;> simp
          · rw [hcand.1 b y (Or.inr h)]
        · have h : y = z := by simpa [hyz] using hy
          subst h
          rw [i6 b y (Or.inr hyz), hcand.2]
    · simp only [hz, ne_eq, not_false_eq_true, if_true]
      refine ⟨hbase.1, hbase.2.1, hbase.2.2.1, hbase.2.2.2.1, hbase.2.2.2.2, ?_, by simp [hz], ?_, ?_⟩
      · intro c y hcy
        exact hcand.1 c y (by rcases hcy with h | h; exact Or.inl h; exact Or.inr fun hm => h (by simp [hm]))
      · intro hall; exact absurd (hall z (by simp)) hz
      · intro e he
        simp only [Except.error.injEq] at he
        rw [← he]; exact hz

theorem copyLoop_spec (b : List Char) (zs : List String) (w : World) :
    (copyLoop b w zs).1 = zs.countP (fun z => (w.cand b z).isSome) ∧
      (copyLoop b w zs).2.cand = w.cand ∧ (copyLoop b w zs).2.candDir = w.candDir ∧ (copyLoop b w zs).2.baseDir = w.baseDir ∧
      (copyLoop b w zs).2.info = w.info ∧ (copyLoop b w zs).2.clone = w.clone ∧
      (∀ c z, (copyLoop b w zs).2.base c z = if c = b ∧ z ∈ zs then (w.cand b z).or (w.base b z) else w.base c z) := by
  induction zs generalizing w with
  | nil => simp [copyLoop]
  | cons z zs ih =>
    cases hz : w.cand b z with
    | none =>
      obtain ⟨i1, i2, i3, i4, i5, i6, i7⟩ := ih w
      simp only [copyLoop, hz]
      refine ⟨by rw [i1]; simp [hz], i2, i3, i4, i5, i6, ?_⟩
      intro c y
      rw [i7]
      by_cases hc : c = b
      · subst hc
        by_cases hy : y = z
        · subst hy; simp [hz]
        · simp [hy]
      · simp [hc]
    | some f =>
      obtain ⟨i1, i2, i3, i4, i5, i6, i7⟩ := ih { w with base := put2 w.base b z (some f) }
      simp only [copyLoop, hz]
      refine ⟨by rw [i1]; simp [hz], i2, i3, i4, i5, i6, ?_⟩
      intro c y
      rw [i7]
      by_cases hc : c = b
      · subst hc
        by_cases hy : y = z
        · subst hy; simp [hz, put2]
        · simp [hy, put2]
      · simp [hc, put2]

theorem checkLoop_spec (b : List Char) (w : World) (zs : List String) :
    checkLoop b w zs = if ∀ z ∈ zs, ∀ f, w.base b z = some f → f.missing = some 0 then .ok [] else .error 1 := by
  induction zs with
  | nil => simp [checkLoop]
  | cons z zs ih =>
    simp only [checkLoop]
    cases hz : w.base b z with
    | none =>
      simp only [ih, List.forall_mem_cons, hz]
      simp
    | some f =>
      simp only
      split
      · rename_i hm
        simp only [ih, List.forall_mem_cons, hz, Option.some.injEq, forall_eq', hm, true_and]
      · rename_i hm
        rw [if_neg]
        intro h
        exact hm (h z (by simp) f hz)

end Verif.Validate
