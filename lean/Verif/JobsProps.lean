import Verif.Jobs
import Verif.PopProps
import Mathlib.Algebra.Order.Field.Basic
import Mathlib.Data.List.Perm.Subperm
/-!
Property theorems for C97 (a population run on a cluster can be checked and repaired from its files).
-/
namespace Verif.Jobs

/-! ### The job array -/

/-- C97. The number of batches that is read from the script of a job array is the number of jobs it was written for. -/
theorem C97_expected (met num path data : Text) (o : Opts) (n : ℕ) (hn : 0 < n) :
    expected (slurmArray met num n o path data) = .ok (some (n : ℤ)) := by
  obtain ⟨k, rfl⟩ : ∃ k, n = k + 1 := ⟨n - 1, by omega⟩
  unfold slurmArray
  rw [arrayText]
  have hv : value (kArray ++ limited (rangeText k) o.limit) = limited (rangeText k) o.limit :=
    value_key kArray_eq (by decide +kernel) (plain_limited _ (rangeText_chars k))
  show expected (_ :: (kArray ++ limited (rangeText k) o.limit) :: _) = _
  rw [expected, if_neg (by decide +kernel), expected, if_pos (starts_self _ _), hv, noLimit_limited _ (rangeText_percent k),
    if_pos (dash_mem k), span_range]
  rfl

/-- C97. The tasks of the job array have the ranks `0, …, n - 1`, each once, and all have the size `n`. -/
theorem C97_tasks (met num path data : Text) (o : Opts) (n : ℕ) (hn : 0 < n) :
    tasks (slurmArray met num n o path data) = some ((List.range n).map fun (i : ℕ) => ((i : ℤ), (n : ℤ))) := by
  obtain ⟨k, rfl⟩ : ∃ k, n = k + 1 := ⟨n - 1, by omega⟩
  have hl : ∀ p ∈ [kArray, kMin, kCount], ∀ l ∈ [(chars! "#SBATCH --job-name=") ++ met ++ (chars! "_popsyn"),
      (chars! "#SBATCH --output=./") ++ met ++ (chars! "_logs/popsyn_%A_%a.out"), kTime ++ str o.walltime, kMem ++ str o.mem] ++ optional o
      ++ [kPath ++ path, kData ++ data, (chars! "srun python ./run_metallicity.py ") ++ num], starts p l = false := by
    intro p hp l hl
    have hk : p ∈ lineKeys := by
      have : ∀ p ∈ [kArray, kMin, kCount], p ∈ lineKeys := by decide +kernel
      exact this p hp
    have ho : ∀ q ∈ [(chars! "#SBATCH --job-name="), (chars! "#SBATCH --output=./"), kTime, kMem, kPath, kData,
        (chars! "srun python ./run_metallicity.py ")], ∀ w, starts p (q ++ w) = false := by
      intro q hq w
      have hq' : ∀ q ∈ [(chars! "#SBATCH --job-name="), (chars! "#SBATCH --output=./"), kTime, kMem, kPath, kData,
        (chars! "srun python ./run_metallicity.py ")], q ∈ lineKeys ∧ ∀ p ∈ [kArray, kMin, kCount], p ≠ q := by decide +kernel
      exact line_other w hk (hq' q hq).1 ((hq' q hq).2 p hp)
    have hopt : p ≠ kAccount ∧ p ≠ kPartition ∧ p ≠ (chars! "#SBATCH --mail-type=FAIL") ∧ p ≠ kMail ∧ p ≠ kExclude := by
      have : ∀ p ∈ [kArray, kMin, kCount], p ≠ kAccount ∧ p ≠ kPartition ∧ p ≠ (chars! "#SBATCH --mail-type=FAIL") ∧ p ≠ kMail ∧
        p ≠ kExclude := by decide +kernel
      exact this p hp
    rw [List.mem_append, List.mem_append] at hl
    rcases hl with (hl | hl) | hl
    · simp only [List.mem_cons, List.not_mem_nil, or_false] at hl
      rcases hl with rfl | rfl | rfl | rfl
      · rw [List.append_assoc]; exact ho _ (by decide +kernel) _
      · rw [List.append_assoc]; exact ho _ (by decide +kernel) _
      · exact ho _ (by decide +kernel) _
      · exact ho _ (by decide +kernel) _
    · exact optional_lines hk hopt l hl
    · simp only [List.mem_cons, List.not_mem_nil, or_false] at hl
      rcases hl with rfl | rfl | rfl <;> exact ho _ (by decide +kernel) _
  have hs : slurmArray met num ((k + 1 : ℕ) : ℤ) o path data = [(chars! "#!/bin/bash")] ++ (kArray ++ limited (rangeText k) o.limit) ::
      ([(chars! "#SBATCH --job-name=") ++ met ++ (chars! "_popsyn"),
      (chars! "#SBATCH --output=./") ++ met ++ (chars! "_logs/popsyn_%A_%a.out"), kTime ++ str o.walltime, kMem ++ str o.mem] ++ optional o
      ++ [kPath ++ path, kData ++ data, (chars! "srun python ./run_metallicity.py ") ++ num]) := by
    unfold slurmArray; rw [arrayText]; rfl
  have hA := setting_last (key := kArray) (v := limited (rangeText k) o.limit) (a := [(chars! "#!/bin/bash")]) (hl kArray (by decide +kernel))
  have hN : ∀ p ∈ [kMin, kCount], setting p (slurmArray met num ((k + 1 : ℕ) : ℤ) o path data) = none := by
    intro p hp
    refine setting_none fun l hm => ?_
    rw [hs, List.mem_append, List.mem_singleton, List.mem_cons] at hm
    rcases hm with rfl | rfl | hm
    · have : ∀ p ∈ [kMin, kCount], starts p (chars! "#!/bin/bash") = false := by decide +kernel
      exact this p hp
    · have : ∀ p ∈ [kMin, kCount], p ∈ lineKeys ∧ p ≠ kArray := by decide +kernel
      exact line_other _ (this p hp).1 (by decide +kernel) (this p hp).2
    · exact hl p (List.mem_cons_of_mem _ hp) l hm
  rw [← hs] at hA
  unfold tasks
  rw [hA]
  simp only [ids_range]
  refine mapM_some _ _ _ fun i _ => ?_
  unfold rankSize
  rw [hN kMin (by decide +kernel), hN kCount (by decide +kernel)]
  show (match int (dec _), int (dec _) with | some lo, some n => some ((i : ℤ) - lo, n) | _, _ => none) = _
  rw [int_dec, int_dec]
  have hmin : (List.range (k + 1)).min?.getD 0 = 0 := by
    have : (List.range (k + 1)).min? = some 0 := by
      rw [List.min?_eq_some_iff]
      exact ⟨by simp, by simp⟩
    rw [this]; rfl
  rw [hmin, List.length_range]
  simp

/-- C97. A run with a positive number of binaries is set up exactly for job arrays of between one job and one job per binary, and then
no job is left without a binary. -/
theorem C97_setup (binaries jobs : ℤ) (hb : 0 < binaries) :
    (setupJobs binaries jobs = .ok () ↔ 1 ≤ jobs ∧ jobs ≤ binaries) ∧
      ∀ (n : ℕ) (l : List ℕ), setupJobs binaries jobs = .ok () → jobs = n → (l.length : ℤ) = binaries →
        (Verif.Pop.arraySplit l n).length = n ∧ (Verif.Pop.arraySplit l n).flatten = l ∧ ∀ b ∈ Verif.Pop.arraySplit l n, b ≠ [] := by
  have key : setupJobs binaries jobs = .ok () ↔ 1 ≤ jobs ∧ jobs ≤ binaries := by
    unfold setupJobs
    by_cases h0 : jobs = 0
    · rw [if_pos h0]; constructor
      · intro h; cases h
      · omega
    · rw [if_neg h0]
      by_cases hp : 0 < jobs
      · have hq : (0 : ℚ) < jobs := by exact_mod_cast hp
        by_cases hle : jobs ≤ binaries
        · have : ¬ (binaries : ℚ) / jobs < 1 := by
            rw [div_lt_one hq, not_lt]; exact_mod_cast hle
          rw [if_neg this]
          exact ⟨fun _ => ⟨by omega, hle⟩, fun _ => rfl⟩
        · have : (binaries : ℚ) / jobs < 1 := by
            rw [div_lt_one hq]; exact_mod_cast not_le.1 hle
          rw [if_pos this]
          exact ⟨fun h => (by cases h), fun h => absurd h.2 hle⟩
      · have hq : (jobs : ℚ) ≤ 0 := by exact_mod_cast not_lt.1 hp
        have hbq : (0 : ℚ) < binaries := by exact_mod_cast hb
        have : (binaries : ℚ) / jobs < 1 := lt_of_le_of_lt (div_nonpos_of_nonneg_of_nonpos hbq.le hq) one_pos
        rw [if_pos this]
        exact ⟨fun h => (by cases h), fun h => absurd h.1 (by omega)⟩
  refine ⟨key, fun n l h hj hl => ?_⟩
  obtain ⟨h1, h2⟩ := key.1 h
  have hn : 0 < n := by omega
  have hln : n ≤ l.length := by omega
  obtain ⟨a, b, _⟩ := Verif.Pop.C19_blocks l n hn
  refine ⟨a, b, fun x hx he => ?_⟩
  have hlen := Verif.Pop.cut_lengths (Verif.Pop.splitSizes l.length n) l (Verif.Pop.splitSizes_sum l.length n hn)
  have : x.length ∈ Verif.Pop.splitSizes l.length n := by
    rw [← hlen]; exact List.mem_map_of_mem (f := List.length) hx
  have hpos : 0 < l.length / n := Nat.div_pos hln hn
  simp only [Verif.Pop.splitSizes, List.mem_append, List.mem_replicate] at this
  rw [he] at this
  simp only [List.length_nil] at this
  omega

example : setupJobs 100 10 = .ok () ∧ setupJobs 100 101 = .error .value ∧ setupJobs 100 0 = .error .zeroDivision := by decide +kernel

/-! ### Reading the script back -/

theorem readAll_append (f : Read) : ∀ a b : List Text, readAll f (a ++ b) = match readAll f a with
    | .error e => .error e
    | .ok g => readAll g b := by
  intro a
  induction a generalizing f with
  | nil => intro b; rfl
  | cons l a ih =>
    intro b
    rw [List.cons_append, readAll, readAll]
    cases readLine f l with
    | error e => rfl
    | ok g => exact ih g b

theorem readLine_skip (f : Read) {l : Text} (h : ∀ p ∈ [kArray, kTime, kMem, kPartition, kAccount, kMail, kExclude, kPath, kData],
    starts p l = false) : readLine f l = .ok f := by
  unfold readLine
  rw [h kArray (by decide +kernel), h kTime (by decide +kernel), h kMem (by decide +kernel), h kPartition (by decide +kernel),
    h kAccount (by decide +kernel), h kMail (by decide +kernel), h kExclude (by decide +kernel), h kPath (by decide +kernel),
    h kData (by decide +kernel)]
  rfl

theorem readLine_skip' (f : Read) {q : Text} (w : Text) (hq : q ∈ [(chars! "#!/bin/bash"), (chars! "#SBATCH --job-name="),
    (chars! "#SBATCH --output=./"), (chars! "#SBATCH --mail-type=FAIL"), (chars! "srun python ./run_metallicity.py ")]) :
    readLine f (q ++ w) = .ok f := by
  refine readLine_skip f fun p hp => ?_
  have : ∀ p ∈ [kArray, kTime, kMem, kPartition, kAccount, kMail, kExclude, kPath, kData], ∀ q ∈ [(chars! "#!/bin/bash"),
    (chars! "#SBATCH --job-name="), (chars! "#SBATCH --output=./"), (chars! "#SBATCH --mail-type=FAIL"),
    (chars! "srun python ./run_metallicity.py ")], p ∈ lineKeys ∧ q ∈ lineKeys ∧ p ≠ q := by decide +kernel
  obtain ⟨a, b, c⟩ := this p hp q hq
  exact line_other w a b c

/-- The keys that are looked for, in order. -/
def readKeys : List Text := [kArray, kTime, kMem, kPartition, kAccount, kMail, kExclude, kPath, kData]

theorem readKeys_mem : ∀ p ∈ readKeys, p ∈ lineKeys := by decide +kernel

theorem readKeys_ne : readKeys.Nodup := by decide +kernel

theorem not_key (i j : ℕ) (hij : i < j) (hj : j < 9) (w : Text) :
    ¬ starts (readKeys[i]'(Nat.lt_trans hij hj)) (readKeys[j]'hj ++ w) = true := by
  refine ne_of_eq_of_ne (line_other w (readKeys_mem _ (List.getElem_mem _)) (readKeys_mem _ (List.getElem_mem _))
    ((List.pairwise_iff_getElem.1 readKeys_ne) i j _ _ hij)) (by decide)

theorem readLine_time (f : Read) {s : Text} (h : Plain s) : readLine f (kTime ++ s) = .ok { f with o := { f.o with walltime := some s } } := by
  unfold readLine
  rw [if_neg (show ¬ starts kArray (kTime ++ s) = true from not_key 0 1 (by decide) (by decide) s),
    if_pos (starts_self _ _), value_key (k' := (chars! "#SBATCH --time")) (by decide +kernel) (by decide +kernel) h]

theorem readLine_mem (f : Read) {s : Text} (h : Plain s) : readLine f (kMem ++ s) = .ok { f with o := { f.o with mem := some s } } := by
  unfold readLine
  rw [if_neg (show ¬ starts kArray (kMem ++ s) = true from not_key 0 2 (by decide) (by decide) s),
    if_neg (show ¬ starts kTime (kMem ++ s) = true from not_key 1 2 (by decide) (by decide) s),
    if_pos (starts_self _ _), value_key (k' := (chars! "#SBATCH --mem-per-cpu")) (by decide +kernel) (by decide +kernel) h]

theorem readLine_partition (f : Read) {s : Text} (h : Plain s) : readLine f (kPartition ++ s) = .ok { f with o := { f.o with partition := some s } } := by
  unfold readLine
  rw [if_neg (show ¬ starts kArray (kPartition ++ s) = true from not_key 0 3 (by decide) (by decide) s),
    if_neg (show ¬ starts kTime (kPartition ++ s) = true from not_key 1 3 (by decide) (by decide) s),
    if_neg (show ¬ starts kMem (kPartition ++ s) = true from not_key 2 3 (by decide) (by decide) s),
    if_pos (starts_self _ _), value_key (k' := (chars! "#SBATCH --partition")) (by decide +kernel) (by decide +kernel) h]

theorem readLine_account (f : Read) {s : Text} (h : Plain s) : readLine f (kAccount ++ s) = .ok { f with o := { f.o with account := some s } } := by
  unfold readLine
  rw [if_neg (show ¬ starts kArray (kAccount ++ s) = true from not_key 0 4 (by decide) (by decide) s),
    if_neg (show ¬ starts kTime (kAccount ++ s) = true from not_key 1 4 (by decide) (by decide) s),
    if_neg (show ¬ starts kMem (kAccount ++ s) = true from not_key 2 4 (by decide) (by decide) s),
    if_neg (show ¬ starts kPartition (kAccount ++ s) = true from not_key 3 4 (by decide) (by decide) s),
    if_pos (starts_self _ _), value_key (k' := (chars! "#SBATCH --account")) (by decide +kernel) (by decide +kernel) h]

theorem readLine_mail (f : Read) {s : Text} (h : Plain s) : readLine f (kMail ++ s) = .ok { f with o := { f.o with email := some s } } := by
  unfold readLine
  rw [if_neg (show ¬ starts kArray (kMail ++ s) = true from not_key 0 5 (by decide) (by decide) s),
    if_neg (show ¬ starts kTime (kMail ++ s) = true from not_key 1 5 (by decide) (by decide) s),
    if_neg (show ¬ starts kMem (kMail ++ s) = true from not_key 2 5 (by decide) (by decide) s),
    if_neg (show ¬ starts kPartition (kMail ++ s) = true from not_key 3 5 (by decide) (by decide) s),
    if_neg (show ¬ starts kAccount (kMail ++ s) = true from not_key 4 5 (by decide) (by decide) s),
    if_pos (starts_self _ _), value_key (k' := (chars! "#SBATCH --mail-user")) (by decide +kernel) (by decide +kernel) h]

theorem readLine_exclude (f : Read) {s : Text} (h : Plain s) : readLine f (kExclude ++ s) = .ok { f with o := { f.o with exclude := some s } } := by
  unfold readLine
  rw [if_neg (show ¬ starts kArray (kExclude ++ s) = true from not_key 0 6 (by decide) (by decide) s),
    if_neg (show ¬ starts kTime (kExclude ++ s) = true from not_key 1 6 (by decide) (by decide) s),
    if_neg (show ¬ starts kMem (kExclude ++ s) = true from not_key 2 6 (by decide) (by decide) s),
    if_neg (show ¬ starts kPartition (kExclude ++ s) = true from not_key 3 6 (by decide) (by decide) s),
    if_neg (show ¬ starts kAccount (kExclude ++ s) = true from not_key 4 6 (by decide) (by decide) s),
    if_neg (show ¬ starts kMail (kExclude ++ s) = true from not_key 5 6 (by decide) (by decide) s),
    if_pos (starts_self _ _), value_key (k' := (chars! "#SBATCH --exclude")) (by decide +kernel) (by decide +kernel) h]

theorem readLine_path (f : Read) {s : Text} (h : Plain s) : readLine f (kPath ++ s) = .ok { f with path := some s } := by
  unfold readLine
  rw [if_neg (show ¬ starts kArray (kPath ++ s) = true from not_key 0 7 (by decide) (by decide) s),
    if_neg (show ¬ starts kTime (kPath ++ s) = true from not_key 1 7 (by decide) (by decide) s),
    if_neg (show ¬ starts kMem (kPath ++ s) = true from not_key 2 7 (by decide) (by decide) s),
    if_neg (show ¬ starts kPartition (kPath ++ s) = true from not_key 3 7 (by decide) (by decide) s),
    if_neg (show ¬ starts kAccount (kPath ++ s) = true from not_key 4 7 (by decide) (by decide) s),
    if_neg (show ¬ starts kMail (kPath ++ s) = true from not_key 5 7 (by decide) (by decide) s),
    if_neg (show ¬ starts kExclude (kPath ++ s) = true from not_key 6 7 (by decide) (by decide) s),
    if_pos (starts_self _ _), value_key (k' := (chars! "export PATH_TO_POSYDON")) (by decide +kernel) (by decide +kernel) h]

theorem readLine_data (f : Read) {s : Text} (h : Plain s) : readLine f (kData ++ s) = .ok { f with data := some s } := by
  unfold readLine
  rw [if_neg (show ¬ starts kArray (kData ++ s) = true from not_key 0 8 (by decide) (by decide) s),
    if_neg (show ¬ starts kTime (kData ++ s) = true from not_key 1 8 (by decide) (by decide) s),
    if_neg (show ¬ starts kMem (kData ++ s) = true from not_key 2 8 (by decide) (by decide) s),
    if_neg (show ¬ starts kPartition (kData ++ s) = true from not_key 3 8 (by decide) (by decide) s),
    if_neg (show ¬ starts kAccount (kData ++ s) = true from not_key 4 8 (by decide) (by decide) s),
    if_neg (show ¬ starts kMail (kData ++ s) = true from not_key 5 8 (by decide) (by decide) s),
    if_neg (show ¬ starts kExclude (kData ++ s) = true from not_key 6 8 (by decide) (by decide) s),
    if_neg (show ¬ starts kPath (kData ++ s) = true from not_key 7 8 (by decide) (by decide) s),
    if_pos (starts_self _ _), value_key (k' := (chars! "export PATH_TO_POSYDON_DATA")) (by decide +kernel) (by decide +kernel) h]

theorem readLine_array (f : Read) (k : ℕ) (m : Option ℤ) (hm : f.o.limit = none) :
    readLine f (kArray ++ limited (rangeText k) m) = .ok { f with length := some ((k : ℤ) + 1), o := { f.o with limit := m } } := by
  unfold readLine
  rw [if_pos (starts_self _ _)]
  unfold readArray
  rw [value_key kArray_eq (by decide +kernel) (plain_limited _ (rangeText_chars k))]
  simp only [noLimit_limited _ (rangeText_percent k), if_pos (dash_mem k), span_range]
  cases m with
  | none =>
    rw [if_neg (show '%' ∉ limited (rangeText k) none from rangeText_percent k)]
    obtain ⟨len, ⟨a, b, c, d, w, e, l⟩, p, q⟩ := f
    simp only at hm
    subst hm
    rfl
  | some m =>
    rw [if_pos (show '%' ∈ limited (rangeText k) (some m) by simp [limited])]
    have : (cutAt '%' (limited (rangeText k) (some m))).getD 1 [] = decZ m := by
      show (cutAt '%' (rangeText k ++ '%' :: decZ m)).getD 1 [] = _
      rw [cutAt_append _ _ _ (rangeText_percent k), cutAt_none _ _ (by
        intro h
        rcases mem_decZ h with h | h <;> revert h <;> decide)]
      rfl
    rw [this, int_decZ]

theorem readAll_optional (f : Read) (o : Opts) (h : o.Plain) : readAll f (optional o) = .ok { f with o := { f.o with
    account := o.account.or f.o.account, partition := o.partition.or f.o.partition, email := o.email.or f.o.email,
    exclude := o.exclude.or f.o.exclude } } := by
  obtain ⟨h1, h2, h3, h4, -, -⟩ := h
  obtain ⟨a, b, c, d, w, e, l⟩ := o
  unfold optional
  rw [readAll_append, readAll_append, readAll_append]
  have ha : readAll f (optLine kAccount a) = .ok { f with o := { f.o with account := a.or f.o.account } } := by
    cases a with
    | none => rfl
    | some a => simp only [optLine, readAll, readLine_account f (h1 a rfl), Option.some_or]
  have hb : ∀ f, readAll f (optLine kPartition b)
      = .ok { f with o := { f.o with partition := b.or f.o.partition } } := by
    intro f
    cases b with
    | none => rfl
    | some a => simp only [optLine, readAll, readLine_partition f (h2 a rfl), Option.some_or]
  have hc : ∀ f, readAll f (optMail c)
      = .ok { f with o := { f.o with email := c.or f.o.email } } := by
    intro f
    cases c with
    | none => rfl
    | some a =>
      have := readLine_skip' f [] (q := (chars! "#SBATCH --mail-type=FAIL")) (by decide +kernel)
      rw [List.append_nil] at this
      simp only [optMail, readAll, this, readLine_mail f (h3 a rfl), Option.some_or]
  have hd : ∀ f, readAll f (optLine kExclude d)
      = .ok { f with o := { f.o with exclude := d.or f.o.exclude } } := by
    intro f
    cases d with
    | none => rfl
    | some a => simp only [optLine, readAll, readLine_exclude f (h4 a rfl), Option.some_or]
  simp only [ha, hb, hc, hd]

/-- C97. All settings of a job array are recovered from its script, if they contain no equals sign and no white space at the ends. -/
theorem C97_read (met num path data : Text) (o : Opts) (n : ℕ) (hn : 0 < n) (ho : o.Plain) (hp : Plain path) (hd : Plain data) :
    readAll Read.start (slurmArray met num n o path data) = .ok ⟨some (n : ℤ), o, some path, some data⟩ := by
  obtain ⟨k, rfl⟩ : ∃ k, n = k + 1 := ⟨n - 1, by omega⟩
  have hopt := fun f => readAll_optional f o ho
  obtain ⟨-, -, -, -, ⟨w, hw, pw⟩, ⟨e, he, pe⟩⟩ := ho
  obtain ⟨a, b, c, d, w', e', l⟩ := o
  simp only at hw he
  subst hw he
  unfold slurmArray
  rw [arrayText, readAll_append, readAll_append]
  have h1 := fun f => readLine_skip' f [] (q := (chars! "#!/bin/bash")) (by decide +kernel)
  simp only [List.append_nil] at h1
  have h2 := fun f => readLine_skip' f (met ++ (chars! "_popsyn")) (q := (chars! "#SBATCH --job-name=")) (by decide +kernel)
  have h3 := fun f => readLine_skip' f (met ++ (chars! "_logs/popsyn_%A_%a.out")) (q := (chars! "#SBATCH --output=./")) (by decide +kernel)
  have h4 := fun f => readLine_skip' f num (q := (chars! "srun python ./run_metallicity.py ")) (by decide +kernel)
  simp only [← List.append_assoc] at h2 h3
  rw [readAll, h1]
  dsimp only
  rw [readAll, readLine_array _ k l rfl]
  dsimp only
  rw [readAll, h2]
  dsimp only
  rw [readAll, h3]
  dsimp only
  rw [readAll, show str (some w) = w from rfl, readLine_time _ pw]
  dsimp only
  rw [readAll, show str (some e) = e from rfl, readLine_mem _ pe]
  dsimp only
  rw [readAll]
  dsimp only
  rw [hopt]
  dsimp only
  rw [readAll, readLine_path _ hp]
  dsimp only
  rw [readAll, readLine_data _ hd]
  dsimp only
  rw [readAll, h4]
  dsimp only
  rw [readAll]
  simp [Read.start]

/-! ### The rescue script -/

/-- C97. The tasks of a rescue script are exactly the missing ranks, with the size of the original array, so that each gets the block of
binaries that it had in the original run. -/
theorem C97_rescue_tasks (met num : Text) (l : List ℕ) (hl : l ≠ []) (n : ℕ) (o : Opts) (path data : Option Text) :
    tasks (slurmRescue met num l (some (n : ℤ)) o path data) = some (l.map fun (i : ℕ) => ((i : ℤ), (n : ℤ))) := by
  have ha : ∀ x ∈ ([(chars! "#SBATCH --job-name=") ++ met ++ (chars! "_popsyn_rescue"),
      (chars! "#SBATCH --output=./") ++ met ++ (chars! "_logs/rescue_%A_%a.out"), kTime ++ str o.walltime, kMem ++ str o.mem] ++ optional o
      ++ [[], kPath ++ str path, kData ++ str data, [], kCount ++ str ((some (n : ℤ)).map decZ), kMin ++ (chars! "0"), [],
        (chars! "srun python ./run_metallicity.py ") ++ num]), starts kArray x = false := by
    intro x hx
    have ho : ∀ q ∈ [(chars! "#SBATCH --job-name="), (chars! "#SBATCH --output=./"), kTime, kMem, kPath, kData, kCount, kMin,
        (chars! "srun python ./run_metallicity.py ")], ∀ w, starts kArray (q ++ w) = false := by
      intro q hq w
      have hq' : ∀ q ∈ [(chars! "#SBATCH --job-name="), (chars! "#SBATCH --output=./"), kTime, kMem, kPath, kData, kCount, kMin,
        (chars! "srun python ./run_metallicity.py ")], q ∈ lineKeys ∧ kArray ≠ q := by decide +kernel
      exact line_other w (by decide +kernel) (hq' q hq).1 (hq' q hq).2
    rw [List.mem_append, List.mem_append] at hx
    rcases hx with (hx | hx) | hx
    · simp only [List.mem_cons, List.not_mem_nil, or_false] at hx
      rcases hx with rfl | rfl | rfl | rfl
      · rw [List.append_assoc]; exact ho _ (by decide +kernel) _
      · rw [List.append_assoc]; exact ho _ (by decide +kernel) _
      · exact ho _ (by decide +kernel) _
      · exact ho _ (by decide +kernel) _
    · exact optional_lines (by decide +kernel) (by decide +kernel) x hx
    · simp only [List.mem_cons, List.not_mem_nil, or_false] at hx
      rcases hx with rfl | rfl | rfl | rfl | rfl | rfl | rfl | rfl
      · decide +kernel
      · exact ho _ (by decide +kernel) _
      · exact ho _ (by decide +kernel) _
      · decide +kernel
      · exact ho _ (by decide +kernel) _
      · exact ho _ (by decide +kernel) _
      · decide +kernel
      · exact ho _ (by decide +kernel) _
  have hA : setting kArray (slurmRescue met num l (some (n : ℤ)) o path data) = some (limited (join ',' (l.map dec)) o.limit) :=
    setting_last (a := [(chars! "#!/bin/bash")]) ha
  have hC : setting kCount (slurmRescue met num l (some (n : ℤ)) o path data) = some (dec n) := by
    have : slurmRescue met num l (some (n : ℤ)) o path data = ([(chars! "#!/bin/bash"), kArray ++ limited (join ',' (l.map dec)) o.limit,
      (chars! "#SBATCH --job-name=") ++ met ++ (chars! "_popsyn_rescue"),
      (chars! "#SBATCH --output=./") ++ met ++ (chars! "_logs/rescue_%A_%a.out"), kTime ++ str o.walltime, kMem ++ str o.mem] ++ optional o
      ++ [[], kPath ++ str path, kData ++ str data, []]) ++ (kCount ++ dec n) :: [kMin ++ (chars! "0"), [],
        (chars! "srun python ./run_metallicity.py ") ++ num] := by
      unfold slurmRescue
      simp only [List.append_assoc]
      rfl
    rw [this]
    refine setting_last fun x hx => ?_
    simp only [List.mem_cons, List.not_mem_nil, or_false] at hx
    rcases hx with rfl | rfl | rfl
    · decide +kernel
    · decide +kernel
    · exact line_other _ (by decide +kernel) (by decide +kernel) (by decide +kernel)
  have hM : setting kMin (slurmRescue met num l (some (n : ℤ)) o path data) = some (chars! "0") := by
    have : slurmRescue met num l (some (n : ℤ)) o path data = ([(chars! "#!/bin/bash"), kArray ++ limited (join ',' (l.map dec)) o.limit,
      (chars! "#SBATCH --job-name=") ++ met ++ (chars! "_popsyn_rescue"),
      (chars! "#SBATCH --output=./") ++ met ++ (chars! "_logs/rescue_%A_%a.out"), kTime ++ str o.walltime, kMem ++ str o.mem] ++ optional o
      ++ [[], kPath ++ str path, kData ++ str data, [], kCount ++ dec n]) ++ (kMin ++ (chars! "0")) :: [[],
        (chars! "srun python ./run_metallicity.py ") ++ num] := by
      unfold slurmRescue
      simp only [List.append_assoc]
      rfl
    rw [this]
    refine setting_last fun x hx => ?_
    simp only [List.mem_cons, List.not_mem_nil, or_false] at hx
    rcases hx with rfl | rfl
    · decide +kernel
    · exact line_other _ (by decide +kernel) (by decide +kernel) (by decide +kernel)
  unfold tasks
  rw [hA]
  simp only [ids_join l hl]
  refine mapM_some _ _ _ fun i _ => ?_
  unfold rankSize
  rw [hC, hM]
  simp only [Option.getD_some]
  rw [int_dec, show int (chars! "0") = some 0 by decide +kernel]
  simp

example : tasks (slurmRescue (chars! "1e+00") (chars! "1.0") [3, 7] (some 10) ⟨none, none, none, none, none, none, some 2⟩ none none)
    = some [(3, 10), (7, 10)] := by decide +kernel

/-! ### Checking the files -/

/-- A metallicity of a run that was set up with `n` jobs, of which those of the ranks `S` have left their file. -/
def SetUp (m : Met) (n : ℕ) (S : List ℕ) : Prop :=
  0 < n ∧ S.Nodup ∧ (∀ r ∈ S, r < n) ∧
    (∃ o path data, o.Plain ∧ Plain path ∧ Plain data ∧ m.script = some (slurmArray m.met m.num n o path data)) ∧
    ∃ files, m.folder = some files ∧ Holds files S

theorem length_le {n : ℕ} {S : List ℕ} (h : S.Nodup) (hb : ∀ r ∈ S, r < n) : S.length ≤ n := by
  have := (List.subperm_of_subset h (l₂ := List.range n) (fun r hr => List.mem_range.2 (hb r hr))).length_le
  simpa using this

theorem full_of_length {n : ℕ} {S : List ℕ} (h : S.Nodup) (hb : ∀ r ∈ S, r < n) (hl : S.length = n) : ∀ r, r < n → r ∈ S := by
  intro r hr
  have := (List.subperm_of_subset h (l₂ := List.range n) (fun r hr => List.mem_range.2 (hb r hr))).perm_of_length_le (by simp [hl])
  exact this.mem_iff.2 (List.mem_range.2 hr)

/-- C97. The check of one metallicity whose folder holds the files of the ranks `S` and no other batch file: it is complete if and only
if no rank is missing; otherwise exactly the missing ranks are reported. -/
theorem C97_check_batch (m : Met) (n : ℕ) (S : List ℕ) (h : SetUp m n S) :
    checkBatch m = .ok (if absent n S = [] then ⟨.complete, some (n : ℤ), n, none⟩
      else ⟨.incomplete, some (n : ℤ), S.length, some (absent n S)⟩) ∧ ∀ r, r ∈ absent n S ↔ r < n ∧ r ∉ S := by
  obtain ⟨hn, hd, hb, ⟨o, path, data, -, -, -, hs⟩, ⟨files, hf, hh⟩⟩ := h
  have hlen : (batchFiles files).length = S.length := by rw [hh.length_eq, List.length_map]
  refine ⟨?_, fun r => by simp [absent]⟩
  unfold checkBatch expectedOf
  rw [hs]
  simp only [C97_expected _ _ _ _ _ n hn, hf, hlen]
  by_cases hlt : S.length < n
  · have hne : absent n S ≠ [] := by
      intro he
      have hall : ∀ r ∈ List.range n, r ∈ S := by
        intro r hr
        by_contra hc
        have : r ∈ absent n S := by simp [absent, List.mem_range.1 hr, hc]
        rw [he] at this; cases this
      have := (List.subperm_of_subset List.nodup_range hall).length_le
      simp at this
      omega
    have hst : batchState (some (n : ℤ)) S.length = .incomplete := if_pos (by exact_mod_cast hlt)
    rw [if_pos (show ((S.length : ℕ) : ℤ) < (n : ℤ) by exact_mod_cast hlt), missing_eq hh, if_neg hne]
    simp only [hst, if_true]
  · have hle := length_le hd hb
    have heq : S.length = n := by omega
    have he : absent n S = [] := by
      rw [absent, List.filter_eq_nil_iff]
      intro r hr
      simp [full_of_length hd hb heq r (List.mem_range.1 hr)]
    have hst : batchState (some (n : ℤ)) S.length = .complete := by
      rw [heq]
      show (if ((n : ℕ) : ℤ) < (n : ℤ) then State.incomplete else if ((n : ℕ) : ℤ) = (n : ℤ) then State.complete else State.extra) = _
      rw [if_neg (lt_irrefl _), if_pos rfl]
    rw [if_neg (show ¬ ((S.length : ℕ) : ℤ) < (n : ℤ) by exact_mod_cast hlt), if_pos he]
    simp only [hst, if_neg (show State.complete ≠ State.incomplete by decide)]
    rw [heq]

/-! ### The whole command -/

theorem mapE_map {A B : Type} {f : A → Except Err B} {g : A → B} : ∀ {l : List A}, (∀ a ∈ l, f a = .ok (g a)) → mapE f l = .ok (l.map g)
  | [], _ => rfl
  | a :: l, h => by
    rw [mapE, h a (by simp), mapE_map fun b hb => h b (List.mem_cons_of_mem _ hb)]
    rfl

theorem mapE_error {A B : Type} {f : A → Except Err B} : ∀ {l : List A}, (∀ a ∈ l, ∀ e, f a = .error e → e = .value) →
    (∃ a ∈ l, f a = .error .value) → mapE f l = .error .value
  | [], _, h => by obtain ⟨a, ha, _⟩ := h; cases ha
  | a :: l, hv, h => by
    rw [mapE]
    cases hf : f a with
    | error e => rw [hv a (by simp) e hf]
    | ok b =>
      have : ∃ a ∈ l, f a = .error .value := by
        obtain ⟨x, hx, he⟩ := h
        rcases List.mem_cons.1 hx with rfl | hx
        · rw [hf] at he; cases he
        · exact ⟨x, hx, he⟩
      rw [mapE_error (fun x hx => hv x (List.mem_cons_of_mem _ hx)) this]

/-- The metallicities without a merged file. -/
def todo (mets : List Met) : List Met := mets.filter fun m => m.merged.isNone

/-- C97. A finished run, in which each merged file exists and holds the number of binaries of the run, passes; and only such a run passes. -/
theorem C97_passed (a : Args) (mets : List Met) (binaries : ℕ) :
    check a mets binaries = .ok .passed ↔ ∀ m ∈ mets, m.merged = some (some binaries) := by
  have hall : (allMerged mets && countsMatch mets binaries) = true ↔ ∀ m ∈ mets, m.merged = some (some binaries) := by
    rw [Bool.and_eq_true, allMerged, countsMatch, List.all_eq_true, List.all_eq_true]
    constructor
    · intro h m hm; exact by simpa using h.2 m hm
    · intro h; exact ⟨fun m hm => by rw [h m hm]; rfl, fun m hm => by rw [h m hm]; simp⟩
  rw [← hall]
  unfold check
  by_cases hp : (allMerged mets && countsMatch mets binaries) = true
  · rw [if_pos hp]; exact ⟨fun _ => hp, fun _ => rfl⟩
  · rw [if_neg hp]
    refine ⟨fun h => ?_, fun h => absurd h hp⟩
    exfalso
    dsimp only at h
    cases hs : mapE checkBatch (mets.filter fun m => m.merged.isNone) with
    | error e => rw [hs] at h; cases h
    | ok st =>
      rw [hs] at h
      dsimp only at h
      by_cases h1 : st.all (fun s => s.state == .complete) = true
      · rw [if_pos h1] at h; cases h
      · rw [if_neg h1] at h
        by_cases h2 : st.any (fun s => s.state == .folderMissing) = true
        · rw [if_pos h2] at h; cases h
        · rw [if_neg h2] at h
          cases hr : mapE (fun p => rescueScript a p.1 p.2) ((mets.filter fun m => m.merged.isNone).zip st) with
          | error e => rw [hr] at h; cases h
          | ok l => rw [hr] at h; cases h

/-- C97. If all metallicities without a merged file have all their batches, their merge is started again, and nothing else. -/
theorem C97_merge_again (a : Args) (mets : List Met) (binaries : ℕ) (hu : todo mets ≠ []) (n : Met → ℕ) (S : Met → List ℕ)
    (h : ∀ m ∈ todo mets, SetUp m (n m) (S m) ∧ absent (n m) (S m) = []) :
    check a mets binaries = .ok (.mergeAgain ((todo mets).map (·.met))) := by
  have hp : ¬ (allMerged mets && countsMatch mets binaries) = true := by
    intro hp
    rw [Bool.and_eq_true, allMerged, List.all_eq_true] at hp
    obtain ⟨m, hm⟩ := List.exists_mem_of_ne_nil _ hu
    have hm' := List.mem_filter.1 hm
    have := hp.1 m hm'.1
    cases hmm : m.merged with
    | none => rw [hmm] at this; cases this
    | some v => rw [hmm] at hm'; cases hm'.2
  unfold check
  rw [if_neg hp]
  have hs : mapE checkBatch (mets.filter fun m => m.merged.isNone) = .ok ((todo mets).map fun m => ⟨.complete, some ((n m : ℕ) : ℤ), n m, none⟩) := by
    refine mapE_map fun m hm => ?_
    obtain ⟨h1, h2⟩ := h m hm
    rw [(C97_check_batch m _ _ h1).1, if_pos h2]
  dsimp only
  rw [hs]
  dsimp only
  rw [if_pos (by simp)]
  rfl

/-- C97 (partial: all metallicities without a merged file lack a batch). For each of them a script is written whose tasks are exactly the
ranks that left no file, each with the size of the original run; together with the files that are there, these are all ranks. -/
theorem C97_rescued_partial (a : Args) (mets : List Met) (binaries : ℕ) (hu : todo mets ≠ []) (n : Met → ℕ) (S : Met → List ℕ)
    (h : ∀ m ∈ todo mets, SetUp m (n m) (S m) ∧ absent (n m) (S m) ≠ []) :
    ∃ lines : Met → List Text, check a mets binaries = .ok (.rescued ((todo mets).map fun m => ⟨m.met, lines m⟩)) ∧
      ∀ m ∈ todo mets, tasks (lines m) = some ((absent (n m) (S m)).map fun (i : ℕ) => ((i : ℤ), ((n m : ℕ) : ℤ))) ∧
        (S m ++ absent (n m) (S m)).Perm (List.range (n m)) := by
  have hp : ¬ (allMerged mets && countsMatch mets binaries) = true := by
    intro hp
    rw [Bool.and_eq_true, allMerged, List.all_eq_true] at hp
    obtain ⟨m, hm⟩ := List.exists_mem_of_ne_nil _ hu
    have hm' := List.mem_filter.1 hm
    have := hp.1 m hm'.1
    cases hmm : m.merged with
    | none => rw [hmm] at this; cases this
    | some v => rw [hmm] at hm'; cases hm'.2
  let st : Met → Status := fun m => ⟨.incomplete, some ((n m : ℕ) : ℤ), (S m).length, some (absent (n m) (S m))⟩
  have hs : mapE checkBatch (mets.filter fun m => m.merged.isNone) = .ok ((todo mets).map st) := by
    refine mapE_map fun m hm => ?_
    obtain ⟨h1, h2⟩ := h m hm
    rw [(C97_check_batch m _ _ h1).1, if_neg h2]
  have hr : ∀ m ∈ todo mets, ∃ l, rescueScript a m (st m) = .ok ⟨m.met, l⟩ ∧
      tasks l = some ((absent (n m) (S m)).map fun (i : ℕ) => ((i : ℤ), ((n m : ℕ) : ℤ))) := by
    intro m hm
    obtain ⟨⟨hn, -, -, ⟨o, path, data, ho, hp, hd, hsc⟩, -⟩, h2⟩ := h m hm
    unfold rescueScript
    have : (st m).missing = some (absent (n m) (S m)) := rfl
    rw [this]
    obtain ⟨x, xs, hx⟩ := List.exists_cons_of_ne_nil h2
    rw [hx, hsc]
    simp only [Option.getD_some, C97_read _ _ _ _ _ _ hn ho hp hd]
    exact ⟨_, rfl, C97_rescue_tasks _ _ _ (by simp) _ _ _ _⟩
  classical
  refine ⟨fun m => if hm : m ∈ todo mets then (hr m hm).choose else [], ?_, ?_⟩
  · unfold check
    rw [if_neg hp]
    dsimp only
    rw [hs]
    dsimp only
    obtain ⟨m, hm⟩ := List.exists_mem_of_ne_nil _ hu
    rw [if_neg (by
      rw [List.all_eq_true]
      intro hc
      have := hc (st m) (List.mem_map_of_mem hm)
      revert this
      show ¬ ((State.incomplete == State.complete) = true)
      decide), if_neg (by
      rw [List.any_eq_true]
      rintro ⟨s, hs', he⟩
      obtain ⟨m', _, rfl⟩ := List.mem_map.1 hs'
      revert he
      show ¬ ((State.incomplete == State.folderMissing) = true)
      decide)]
    have hz : (mets.filter fun m => m.merged.isNone).zip ((todo mets).map st) = (todo mets).map fun m => (m, st m) := by
      show (todo mets).zip ((todo mets).map st) = _
      generalize todo mets = l
      induction l with
      | nil => rfl
      | cons x l ih => rw [List.map_cons, List.zip_cons_cons, ih]; rfl
    rw [hz]
    have hm2 : ∀ l : List Met, (∀ m ∈ l, m ∈ todo mets) → mapE (fun p : Met × Status => rescueScript a p.1 p.2) (l.map fun m => (m, st m))
        = .ok (l.map fun m => ⟨m.met, if hm : m ∈ todo mets then (hr m hm).choose else []⟩) := by
      intro l
      induction l with
      | nil => intro _; rfl
      | cons x l ih =>
        intro hl
        rw [List.map_cons, mapE]
        have hx := hl x (by simp)
        rw [(hr x hx).choose_spec.1, ih fun y hy => hl y (List.mem_cons_of_mem _ hy)]
        simp [hx]
    rw [hm2 _ fun m hm => hm]
  · intro m hm
    refine ⟨by dsimp only; rw [dif_pos hm]; exact (hr m hm).choose_spec.2, ?_⟩
    obtain ⟨⟨hn, hd, hb, -, -⟩, -⟩ := h m hm
    rw [List.perm_ext_iff_of_nodup]
    · intro r
      rw [List.mem_append, absent, List.mem_filter, List.mem_range]
      by_cases hr : r ∈ S m
      · simp [hr, hb r hr]
      · simp [hr]
    · rw [List.nodup_append]
      refine ⟨hd, List.Nodup.filter _ List.nodup_range, fun x hx y hy he => ?_⟩
      subst he
      have := (List.mem_filter.1 hy).2
      simp [hx] at this
    · exact List.nodup_range

def defaults : Opts := ⟨none, none, none, none, some (chars! "23:00:00"), some (chars! "9G"), none⟩

def noArgs : Args := ⟨⟨none, none, none, none, none, none, none⟩, none, none⟩

/-- A metallicity of a run of `n` jobs, with the files of the folder. -/
def exampleMet (name num : String) (n : ℤ) (files : List Text) : Met :=
  ⟨name.toList, num.toList, none, some (slurmArray name.toList num.toList n defaults (chars! "/p") (chars! "/d")), some files⟩

/-- A run of three jobs of which the second left no file meets the hypotheses. -/
example : SetUp (exampleMet "1e+00" "1.0" 3 [batchFile 2, (chars! "notes.txt"), batchFile 0]) 3 [0, 2] ∧ absent 3 [0, 2] = [1] := by
  refine ⟨⟨by decide, by decide, by decide, ⟨defaults, (chars! "/p"), (chars! "/d"), ?_, ?_, ?_, rfl⟩, ⟨_, rfl, ?_⟩⟩, by decide⟩
  · refine ⟨(by intro s h; cases h), (by intro s h; cases h), (by intro s h; cases h), (by intro s h; cases h), ⟨_, rfl, ?_⟩, ⟨_, rfl, ?_⟩⟩
    · exact ⟨by decide +kernel, by decide +kernel⟩
    · exact ⟨by decide +kernel, by decide +kernel⟩
  · exact ⟨by decide +kernel, by decide +kernel⟩
  · exact ⟨by decide +kernel, by decide +kernel⟩
  · have : batchFiles [batchFile 2, (chars! "notes.txt"), batchFile 0] = [batchFile 2, batchFile 0] := by decide +kernel
    unfold Holds
    rw [this]
    exact List.Perm.swap _ _ _

/-! ### Violations -/

/-- C97 violated: if one metallicity has all batches but no merged file, and another one lacks a batch, no rescue script results: the
command ends in an error (io.py l.506-511 called for the complete one). -/
theorem C97_mixed_violated : ∃ m1 m2 : Met, SetUp m1 2 [0, 1] ∧ SetUp m2 2 [0] ∧ checkBatch m2 = .ok ⟨.incomplete, some 2, 1, some [1]⟩ ∧
    (match check noArgs [m1, m2] 10 with | .error e => e = .value | .ok _ => False) := by
  have hd : defaults.Plain := by
    refine ⟨(by intro s h; cases h), (by intro s h; cases h), (by intro s h; cases h), (by intro s h; cases h), ⟨_, rfl, ?_⟩, ⟨_, rfl, ?_⟩⟩
    · exact ⟨by decide +kernel, by decide +kernel⟩
    · exact ⟨by decide +kernel, by decide +kernel⟩
  have h1 : SetUp (exampleMet "1e+00" "1.0" 2 [batchFile 0, batchFile 1]) 2 [0, 1] := by
    refine ⟨by decide, by decide, by decide, ⟨defaults, _, _, hd, ?_, ?_, rfl⟩, ⟨_, rfl, ?_⟩⟩
    · exact ⟨by decide +kernel, by decide +kernel⟩
    · exact ⟨by decide +kernel, by decide +kernel⟩
    · have : batchFiles [batchFile 0, batchFile 1] = [batchFile 0, batchFile 1] := by decide +kernel
      unfold Holds
      rw [this]
      exact List.Perm.refl _
  have h2 : SetUp (exampleMet "1e-01" "0.1" 2 [batchFile 0]) 2 [0] := by
    refine ⟨by decide, by decide, by decide, ⟨defaults, _, _, hd, ?_, ?_, rfl⟩, ⟨_, rfl, ?_⟩⟩
    · exact ⟨by decide +kernel, by decide +kernel⟩
    · exact ⟨by decide +kernel, by decide +kernel⟩
    · have : batchFiles [batchFile 0] = [batchFile 0] := by decide +kernel
      unfold Holds
      rw [this]
      exact List.Perm.refl _
  have c1 : checkBatch (exampleMet "1e+00" "1.0" 2 [batchFile 0, batchFile 1]) = .ok ⟨.complete, some 2, 2, none⟩ :=
    (C97_check_batch _ _ _ h1).1
  have c2 : checkBatch (exampleMet "1e-01" "0.1" 2 [batchFile 0]) = .ok ⟨.incomplete, some 2, 1, some [1]⟩ :=
    (C97_check_batch _ _ _ h2).1
  refine ⟨_, _, h1, h2, c2, ?_⟩
  have : check noArgs [exampleMet "1e+00" "1.0" 2 [batchFile 0, batchFile 1], exampleMet "1e-01" "0.1" 2 [batchFile 0]] 10 = .error .value := by
    unfold check
    rw [if_neg (by decide +kernel)]
    have hf : ([exampleMet "1e+00" "1.0" 2 [batchFile 0, batchFile 1], exampleMet "1e-01" "0.1" 2 [batchFile 0]].filter fun m => m.merged.isNone)
      = [exampleMet "1e+00" "1.0" 2 [batchFile 0, batchFile 1], exampleMet "1e-01" "0.1" 2 [batchFile 0]] := rfl
    simp only [hf, mapE, c1, c2]
    rfl
  rw [this]

/-- C97 violated: if all merged files are there but one of them lacks binaries, all batches are called complete and nothing is started
again (check.py l.783-788). -/
theorem C97_count_violated (a : Args) (mets : List Met) (binaries : ℕ) (h : ∀ m ∈ mets, m.merged.isSome = true)
    (hw : ∃ m ∈ mets, m.merged ≠ some (some binaries)) : check a mets binaries = .ok (.mergeAgain []) := by
  have hp : ¬ (allMerged mets && countsMatch mets binaries) = true := by
    obtain ⟨m, hm, hne⟩ := hw
    intro hp
    rw [Bool.and_eq_true, countsMatch, List.all_eq_true] at hp
    exact hne (by simpa using hp.2 m hm)
  have hf : (mets.filter fun m => m.merged.isNone) = [] := by
    rw [List.filter_eq_nil_iff]
    intro m hm hc
    have := h m hm
    cases hmm : m.merged with
    | none => rw [hmm] at this; cases this
    | some v => rw [hmm] at hc; cases hc
  unfold check
  rw [if_neg hp]
  simp only [hf]
  rfl

example : check noArgs [⟨(chars! "1e+00"), (chars! "1.0"), some (some 90), none, none⟩] 100 = .ok (.mergeAgain []) :=
  C97_count_violated noArgs _ 100 (by simp) ⟨_, List.mem_singleton_self _, by simp⟩

/-- C97 violated: a batch file of an earlier, longer job array takes the place of a missing one, as only the number of files is
compared. -/
theorem C97_stale_violated : checkBatch (exampleMet "1e+00" "1.0" 3 [batchFile 0, batchFile 2, batchFile 5])
      = .ok ⟨.complete, some 3, 3, none⟩ ∧
    batchFile 1 ∉ [batchFile 0, batchFile 2, batchFile 5] := by
  constructor <;> decide +kernel

/-- C97 violated: a copy of a batch file under another ending makes the check fail. -/
theorem C97_copy_violated : checkBatch (exampleMet "1e+00" "1.0" 3 [batchFile 0, (chars! "evolution.combined.0.h5.bak")]) = .error .value := by
  decide +kernel

/-- C97 violated: a setting that contains an equals sign is cut off. -/
theorem C97_equals_violated : readAll Read.start (slurmArray (chars! "1e+00") (chars! "1.0") 3 defaults (chars! "/data/run=1/posydon") (chars! "/d"))
    = .ok ⟨some 3, defaults, some (chars! "/data/run"), some (chars! "/d")⟩ := by decide +kernel

/-- C97 violated: the number of jobs and the time of the merge that are given to the command have no effect. -/
theorem C97_arguments_violated (a b : Args) (h : a.o = b.o) (mets : List Met) (binaries : ℕ) : check a mets binaries = check b mets binaries := by
  have : rescueScript a = rescueScript b := by
    funext m s
    unfold rescueScript override
    rw [h]
  unfold check
  rw [this]

/-- Location of a relative path: its parts, without empty ones and `.`. -/
def parts (p : Text) : List Text := (cutAt '/' p).filter fun s => s ≠ [] ∧ s ≠ (chars! ".")

/-- C97. If the command is started in the folder of the run, the scripts that are submitted are the rescue script that was written and the
merge script that the set-up wrote. -/
theorem C97_submitted (run met : Text) (h : '_' ∉ met) (h' : '/' ∉ met) : submitted (rescuePaths run met).2 = [rescueName met, mergeName met] := by
  have hs : '/' ∉ rescueName met := by
    intro hc
    rcases List.mem_append.1 hc with hc | hc
    · exact h' hc
    · revert hc; decide +kernel
  have hbase : ∀ p : Text, (cutAt '/' (p ++ '/' :: rescueName met)).getLastD [] = rescueName met := by
    intro p
    induction p with
    | nil => rw [List.nil_append, cutAt, if_pos rfl, cutAt_none _ _ hs]; rfl
    | cons x p ih =>
      rw [List.cons_append, cutAt]
      by_cases hx : x = '/'
      · rw [if_pos hx]
        cases hc : cutAt '/' (p ++ '/' :: rescueName met) with
        | nil => rw [hc] at ih; exact absurd ih (by
            intro h0
            have : (rescueName met) = [] := h0.symm
            have h1 := congrArg List.length this
            simp [rescueName] at h1)
        | cons y ys => rw [hc] at ih; rw [← ih]; rfl
      · rw [if_neg hx]
        cases hc : cutAt '/' (p ++ '/' :: rescueName met) with
        | nil => rw [hc] at ih; exact absurd ih (by
            intro h0
            have : (rescueName met) = [] := h0.symm
            have h1 := congrArg List.length this
            simp [rescueName] at h1)
        | cons y ys =>
          rw [hc] at ih
          cases ys with
          | nil =>
            exfalso
            have hno : ∀ q : Text, ∀ t, cutAt '/' (q ++ '/' :: rescueName met) ≠ [t] := by
              intro q
              induction q with
              | nil => intro t; rw [List.nil_append, cutAt, if_pos rfl, cutAt_none _ _ hs]; simp
              | cons z q ihq =>
                intro t ht
                rw [List.cons_append, cutAt] at ht
                by_cases hz : z = '/'
                · rw [if_pos hz] at ht
                  cases hq : cutAt '/' (q ++ '/' :: rescueName met) with
                  | nil =>
                    have : ∀ s : Text, cutAt '/' s ≠ [] := by
                      intro s
                      induction s with
                      | nil => simp [cutAt]
                      | cons u s _ =>
                        rw [cutAt]
                        split
                        · simp
                        · split <;> simp
                    exact this _ hq
                  | cons v vs => rw [hq] at ht; simp at ht
                · rw [if_neg hz] at ht
                  cases hq : cutAt '/' (q ++ '/' :: rescueName met) with
                  | nil =>
                    have : ∀ s : Text, cutAt '/' s ≠ [] := by
                      intro s
                      induction s with
                      | nil => simp [cutAt]
                      | cons u s _ =>
                        rw [cutAt]
                        split
                        · simp
                        · split <;> simp
                    exact this _ hq
                  | cons v vs =>
                    rw [hq] at ht
                    cases vs with
                    | nil => exact ihq v hq
                    | cons w ws => simp at ht
            exact hno p y hc
          | cons z zs => rw [← ih]; rfl
  have hb : (cutAt '/' (joinPath run (rescueName met))).getLastD [] = rescueName met := by
    unfold joinPath
    split
    · rw [cutAt_none _ _ hs]; rfl
    · split
      next _ hl =>
        obtain ⟨p, rfl⟩ := List.getLast?_eq_some_iff.1 hl
        rw [List.append_assoc]
        exact hbase p
      next => exact hbase run
  show [_, mergeName _] = _
  simp only [rescuePaths]
  rw [hb]
  have : rescueName met = met ++ '_' :: (chars! "Zsun_rescue.slurm") := rfl
  rw [show (cutAt '_' (rescueName met)).headD [] = met by rw [this, cutAt_append _ _ _ h]; rfl]

/-- C97 violated: started elsewhere, the rescue script is written to the present folder and not to that of the run, which is the one
reported. -/
theorem C97_path_violated : ∃ run met, parts (rescuePaths run met).1 ≠ parts (rescuePaths run met).2 :=
  ⟨(chars! "run1"), (chars! "1e+00"), by decide +kernel⟩

theorem C97_path_here : ∀ run ∈ [(chars! ""), (chars! "."), (chars! "./")], ∀ met ∈ [(chars! "2e+00"), (chars! "1e+00"), (chars! "4.5e-01"), (chars! "2e-01"),
    (chars! "1e-01"), (chars! "1e-02"), (chars! "1e-03"), (chars! "1e-04")], parts (rescuePaths run met).1 = parts (rescuePaths run met).2 := by
  decide +kernel

/-! ### Merging -/

theorem mergeKey_batch (r : ℕ) : mergeKey (batchFile r) = some (r : ℤ) := by
  have h1 : (chars! ".h5").isSuffixOf (batchFile r) = true := by
    rw [List.isSuffixOf_iff_suffix]; exact List.suffix_append _ _
  have h2 : (batchFile r).take ((batchFile r).length - 3) = (chars! "evolution") ++ '.' :: ((chars! "combined") ++ '.' :: dec r) := by
    have e : batchFile r = ((chars! "evolution") ++ '.' :: ((chars! "combined") ++ '.' :: dec r)) ++ (chars! ".h5") := rfl
    rw [e]
    refine List.take_left' ?_
    have h3 : (chars! ".h5").length = 3 := by decide +kernel
    generalize (chars! "evolution") ++ '.' :: ((chars! "combined") ++ '.' :: dec r) = t
    rw [List.length_append, h3]
    omega
  unfold mergeKey
  dsimp only
  rw [if_pos h1, h2, cutAt_append _ _ _ (by decide +kernel), cutAt_append _ _ _ (by decide +kernel),
    cutAt_none _ _ (not_mem_dec (by decide) r)]
  exact int_dec r

/-- C97. The merge of a folder that holds exactly the files of all ranks takes each of them once, in the order of the ranks. -/
theorem C97_merge (folder : List Text) (n : ℕ) (h : folder.Perm ((List.range n).map batchFile)) :
    merge folder = .ok ((List.range n).map batchFile) := by
  have hk : ∀ f ∈ folder, ∃ r, f = batchFile r := by
    intro f hf
    obtain ⟨r, _, rfl⟩ := List.mem_map.1 (h.mem_iff.1 hf)
    exact ⟨r, rfl⟩
  unfold merge
  rw [if_pos (by
    rw [List.all_eq_true]
    intro f hf
    obtain ⟨r, rfl⟩ := hk f hf
    rw [mergeKey_batch]; rfl)]
  refine congrArg Except.ok ?_
  have hp := List.mergeSort_perm folder fun f g => decide ((mergeKey f).getD 0 ≤ (mergeKey g).getD 0)
  have hsort := List.pairwise_mergeSort (le := fun f g : Text => decide ((mergeKey f).getD 0 ≤ (mergeKey g).getD 0))
    (by intro a b c hab hbc; simp only [decide_eq_true_eq] at *; exact le_trans hab hbc)
    (by intro a b; simp only [Bool.or_eq_true, decide_eq_true_eq]; exact le_total _ _) folder
  refine List.Perm.eq_of_pairwise (le := fun f g : Text => (mergeKey f).getD 0 ≤ (mergeKey g).getD 0) ?_ (hsort.imp fun hab => by simpa using hab) ?_ (hp.trans h)
  · intro f g hf hg hfg hgf
    obtain ⟨r, rfl⟩ := hk f (hp.mem_iff.1 hf)
    obtain ⟨s, _, rfl⟩ := List.mem_map.1 hg
    rw [mergeKey_batch, mergeKey_batch] at hfg hgf
    have : (r : ℤ) = s := le_antisymm hfg hgf
    rw [show r = s by exact_mod_cast this]
  · rw [List.pairwise_map]
    refine (List.pairwise_lt_range).imp fun {a b} hab => ?_
    rw [mergeKey_batch, mergeKey_batch]
    show (a : ℤ) ≤ b
    exact_mod_cast hab.le

/-- C97 violated: a part of a batch that an interrupted task has left in the folder is merged as well. -/
theorem C97_leftover_violated : ∃ l, merge [batchFile 0, (chars! "500_evolution.batch.1"), batchFile 1] = .ok l ∧
    (chars! "500_evolution.batch.1") ∈ l := by
  unfold merge
  rw [if_pos (by decide +kernel)]
  exact ⟨_, rfl, List.mem_mergeSort.2 (by simp)⟩

/-- An option of the command is used instead of the script's; one that is not given is the script's. -/
theorem C97_override (a : Args) (o : Opts) :
    (∀ v, a.o.account = some v → (override a o).account = some v) ∧ (a.o.account = none → (override a o).account = o.account) ∧
    (∀ v, a.o.partition = some v → (override a o).partition = some v) ∧ (a.o.partition = none → (override a o).partition = o.partition) ∧
    (∀ v, a.o.email = some v → (override a o).email = some v) ∧ (a.o.email = none → (override a o).email = o.email) ∧
    (∀ v, a.o.exclude = some v → (override a o).exclude = some v) ∧ (a.o.exclude = none → (override a o).exclude = o.exclude) ∧
    (∀ v, a.o.walltime = some v → (override a o).walltime = some v) ∧ (a.o.walltime = none → (override a o).walltime = o.walltime) ∧
    (∀ v, a.o.mem = some v → (override a o).mem = some v) ∧ (a.o.mem = none → (override a o).mem = o.mem) ∧
    (∀ v, a.o.limit = some v → (override a o).limit = some v) ∧ (a.o.limit = none → (override a o).limit = o.limit) := by
  refine ⟨?_, ?_, ?_, ?_, ?_, ?_, ?_, ?_, ?_, ?_, ?_, ?_, ?_, ?_⟩ <;> intros <;> simp_all [override]

end Verif.Jobs
