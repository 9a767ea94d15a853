import Verif.Seeds
/-!
Property theorems for C21 (random seeds).
-/
namespace Verif.Seeds

/-- Two tasks belong to the same run: same entropy, list of metallicities. -/
def SameRun (a b : Task) : Prop := a.entropy = b.entropy ∧ a.mets = b.mets

/-- C21, MPI.  Tasks of one run which differ in rank or metallicity have different seeds; equal tasks have equal seeds. -/
theorem C21_mpi (a b : Task) (h : SameRun a b) (ra sa rb sb : ℕ) (ha : a.mode = .mpi ra sa) (hb : b.mode = .mpi rb sb)
    (s s' : Seed) (hs : seedOf a = .ok s) (hs' : seedOf b = .ok s') :
    s = s' ↔ ra = rb ∧ a.met = b.met := by
  obtain ⟨h1, h2⟩ := h
  simp only [seedOf, ha] at hs
  simp only [seedOf, hb] at hs'
  cases he : a.entropy with
  | none => rw [he] at hs; simp at hs
  | some e =>
    rw [he] at hs
    rw [← h1, he] at hs'
    simp only [metShift, spawn] at hs hs'
    by_cases hma : a.met ∈ a.mets
    swap
    · simp [hma] at hs
    by_cases hmb : b.met ∈ b.mets
    swap
    · simp [hmb] at hs'
    simp only [hma, hmb, if_true] at hs hs'
    split at hs
    swap
    · simp at hs
    split at hs'
    swap
    · simp at hs'
    simp only [Except.ok.injEq] at hs hs'
    subst hs hs'
    simp only [Seed.mk.injEq, Nat.add_left_cancel_iff, List.nil_append, List.cons.injEq, and_true]
    rw [← h2] at hmb ⊢
    rw [List.idxOf_inj hma]
    exact ⟨fun h => ⟨h.2, h.1⟩, fun h => ⟨h.2, h.1⟩⟩

/-- C21, job arrays without a given entropy.  Within one job array, tasks differing in rank or metallicity have different seeds. -/
theorem C21_job_partial (a b : Task) (h : SameRun a b) (hn : a.entropy = none) (id ra sa rb sb : ℕ)
    (ha : a.mode = .job id ra sa) (hb : b.mode = .job id rb sb)
    (s s' : Seed) (hs : seedOf a = .ok s) (hs' : seedOf b = .ok s') :
    s = s' ↔ ra = rb ∧ a.met = b.met := by
  obtain ⟨h1, h2⟩ := h
  simp only [seedOf, ha, hn] at hs
  simp only [seedOf, hb, ← h1, hn] at hs'
  simp only [metShift, spawn] at hs hs'
  by_cases hma : a.met ∈ a.mets
  swap
  · simp [hma] at hs
  by_cases hmb : b.met ∈ b.mets
  swap
  · simp [hmb] at hs'
  simp only [hma, hmb, if_true] at hs hs'
  split at hs
  swap
  · simp at hs
  split at hs'
  swap
  · simp at hs'
  simp only [Except.ok.injEq] at hs hs'
  subst hs hs'
  simp only [Seed.mk.injEq, Nat.add_left_cancel_iff, List.nil_append, List.cons.injEq, and_true]
  rw [← h2] at hmb ⊢
  rw [List.idxOf_inj hma]
  exact ⟨fun h => ⟨h.2, h.1⟩, fun h => ⟨h.2, h.1⟩⟩

/-- C21.  A task is refused rather than given a wrong seed: MPI without entropy, unknown metallicity, rank outside the size. -/
theorem C21_refused (t : Task) (rank size : ℕ) (hm : t.mode = .mpi rank size)
    (h : t.entropy = none ∨ t.met ∉ t.mets ∨ size ≤ rank) : ∃ e, seedOf t = .error e := by
  simp only [seedOf, hm]
  cases he : t.entropy with
  | none => exact ⟨_, rfl⟩
  | some e =>
    simp only [metShift]
    by_cases hmem : t.met ∈ t.mets
    · simp only [hmem, if_true, spawn]
      have : ¬ rank < size := by
        rcases h with h | h | h
        · simp [he] at h
        · exact absurd hmem h
        · omega
      exact ⟨.index, by simp [this]⟩
    · exact ⟨.value, by simp [hmem]⟩

/-- C21.  Resetting the generator of a run on its own restores the seed. -/
theorem C21_reset_partial (t : Task) (hm : t.mode = .alone) (s : Seed) (hs : seedOf t = .ok s) : originalSeed s = s := by
  simp only [seedOf, hm, Except.ok.injEq] at hs
  subst hs
  rfl

/-- C21 fails for two job arrays: their job numbers and metallicity positions can add up to the same seed. -/
theorem C21_job_collision_violated :
    ∃ a b : Task, SameRun a b ∧ a.met ≠ b.met ∧ (∃ i j r n, i ≠ j ∧ a.mode = .job i r n ∧ b.mode = .job j r n) ∧
      ∃ s, seedOf a = .ok s ∧ seedOf b = .ok s :=
  ⟨⟨none, [1, 2], 2, .job 100 0 4, 0⟩, ⟨none, [1, 2], 1, .job 101 0 4, 0⟩, ⟨rfl, rfl⟩, by decide +kernel,
    ⟨100, 101, 0, 4, by decide, rfl, rfl⟩, ⟨101, [0]⟩, by decide +kernel, by decide +kernel⟩

/-- C21.  Also with a given entropy the ranks of a job array draw different random numbers; a rank outside the array is refused. -/
theorem C21_job_entropy_ranks (a b : Task) (h : SameRun a b) (e : ℕ) (he : a.entropy = some e) (ia ib ra rb sa sb : ℕ)
    (ha : a.mode = .job ia ra sa) (hb : b.mode = .job ib rb sb) :
    (∀ s s', seedOf a = .ok s → seedOf b = .ok s' → (s = s' ↔ ra = rb)) ∧ (sa ≤ ra → seedOf a = .error .index) := by
  have he' : b.entropy = some e := by rw [← h.1, he]
  refine ⟨fun s s' hs hs' => ?_, fun hle => by simp [seedOf, ha, he, spawn, not_lt.2 hle]⟩
  simp only [seedOf, ha, he, spawn] at hs
  simp only [seedOf, hb, he', spawn] at hs'
  split_ifs at hs hs'
  simp only [Except.ok.injEq] at hs hs'
  subst hs; subst hs'
  simp

/-- C21 fails for job arrays with a given entropy: all metallicities then use the same random numbers. -/
theorem C21_job_entropy_violated (e id rank size : ℕ) (mets : List ℚ) (z z' : ℚ) (os os' : ℕ) :
    seedOf ⟨some e, mets, z, .job id rank size, os⟩ = seedOf ⟨some e, mets, z', .job id rank size, os'⟩ := by
  simp [seedOf]

/-- C21 fails for `reset_rng` in parallel runs: the spawn key is lost, so a reset generator is never what it was at the start, and it is the
same one on all ranks. -/
theorem C21_reset_violated (a b : Task) (h : SameRun a b) (ra rb n : ℕ) (ha : a.mode = .mpi ra n) (hb : b.mode = .mpi rb n)
    (hm : a.met = b.met) (s s' : Seed) (hs : seedOf a = .ok s) (hs' : seedOf b = .ok s') :
    originalSeed s ≠ s ∧ originalSeed s = originalSeed s' := by
  obtain ⟨h1, h2⟩ := h
  simp only [seedOf, ha] at hs
  simp only [seedOf, hb, ← h1] at hs'
  cases he : a.entropy with
  | none => rw [he] at hs; simp at hs
  | some e =>
    rw [he] at hs hs'
    simp only [metShift, ← h2, ← hm, spawn] at hs hs'
    by_cases hma : a.met ∈ a.mets
    swap
    · simp [hma] at hs
    simp only [hma, if_true] at hs hs'
    split at hs
    swap
    · simp at hs
    split at hs'
    swap
    · simp at hs'
    simp only [Except.ok.injEq] at hs hs'
    subst hs hs'
    exact ⟨by simp [originalSeed], rfl⟩

/-- Non-vacuity. -/
example : seedOf ⟨some 7, [1, 1/10], 1/10, .mpi 2 3, 0⟩ = .ok ⟨8, [2]⟩ := by decide +kernel
example : seedOf ⟨none, [1, 1/10], 1/10, .job 40 2 3, 0⟩ = .ok ⟨41, [2]⟩ := by decide +kernel

end Verif.Seeds
