import Verif.Sequence
/-!
Properties of the program that runs sequences of active learning (C166).
-/
namespace Verif.Sequence

open Jobs (Text dec)

variable {K D A C R : Type}

/-! ### Names -/

theorem suffix_free (k k' : Kind) (p q : Text) (h : p ++ k.text = q ++ k'.text) : k = k' ∧ p = q := by
  have e : k = k' := by
    have hr := congrArg List.reverse h
    rw [List.reverse_append, List.reverse_append] at hr
    have ht := congrArg (List.take 14) hr
    revert ht
    cases k <;> cases k' <;> intro ht <;> first | rfl | (exfalso; revert ht; simp [Kind.text])
  subst e
  exact ⟨rfl, List.append_cancel_right h⟩

theorem digits_end (p q s t : Text) (hs : ∀ c ∈ s, c.isDigit = true) (ht : ∀ c ∈ t, c.isDigit = true) (h : p ++ 'i' :: s = q ++ 'i' :: t) : p = q ∧ s = t := by
  rcases List.append_eq_append_iff.mp h with ⟨m, hm, hm'⟩ | ⟨m, hm, hm'⟩
  · cases m with
    | nil =>
      rw [List.append_nil] at hm
      simp only [List.nil_append] at hm'
      injection hm' with _ hm'
      exact ⟨hm.symm, hm'⟩
    | cons c m =>
      rw [List.cons_append] at hm'
      injection hm' with _ hm'
      have := hs 'i' (by rw [hm']; simp)
      exact absurd this (by decide)
  · cases m with
    | nil =>
      rw [List.append_nil] at hm
      simp only [List.nil_append] at hm'
      injection hm' with _ hm'
      exact ⟨hm, hm'.symm⟩
    | cons c m =>
      rw [List.cons_append] at hm'
      injection hm' with _ hm'
      have := ht 'i' (by rw [hm']; simp)
      exact absurd this (by decide)

/-- C166: the names of files differ for different runs, sequences and contents: within a directory, no file of a run can be taken for one of another, whatever text
a run is called by. -/
theorem C166_names (dir id id' : Text) (i i' : ℕ) (k k' : Kind) (h : name dir id i k = name dir id' i' k') : id = id' ∧ i = i' ∧ k = k' := by
  unfold name at h
  obtain ⟨hk, h⟩ := suffix_free k k' _ _ h
  have h' : dir ++ ['/'] ++ id ++ 'i' :: dec i = dir ++ ['/'] ++ id' ++ 'i' :: dec i' := by
    simpa only [List.append_assoc, List.singleton_append] using h
  obtain ⟨h1, h2⟩ := digits_end _ _ _ _ (fun c hc => Jobs.digit_of_mem hc) (fun c hc => Jobs.digit_of_mem hc) h'
  refine ⟨List.append_cancel_left h1, ?_, hk⟩
  have h3 := congrArg Jobs.digitsVal h2
  rw [Jobs.digitsVal_dec, Jobs.digitsVal_dec] at h3
  exact Option.some.inj h3

/-! ### Specification -/

/-- What a sequence that was sampled leaves in one of its files: nothing new if its training data cannot be written; its scores only if all of them were calculated. -/
def Left (w : World K D A C R) (a : Args) (dir : Text) (i : ℕ) (l : List D) (k : Kind) (before : Option (Content D A C R)) : Option (Content D A C R) :=
  if w.writes (name dir a.id i .dfs) = true then
    match k with
    | .dfs => some (.dfs l)
    | .acc => match performance w a.cls a.regr a.res l with
      | .ok r => if w.writes (name dir a.id i .acc) = true then some (.acc r.1) else before
      | .error _ => before
    | .conf => match performance w a.cls a.regr a.res l with
      | .ok r => if w.writes (name dir a.id i .conf) = true then some (.conf r.2.1) else before
      | .error _ => before
    | .diffs => match performance w a.cls a.regr a.res l with
      | .ok r => if w.writes (name dir a.id i .diffs) = true then some (.diffs r.2.2) else before
      | .error _ => before
  else before

theorem name_ne (dir id : Text) {i i' : ℕ} {k k' : Kind} (h : i ≠ i' ∨ k ≠ k') : name dir id i k ≠ name dir id i' k' := fun e => by
  obtain ⟨_, h1, h2⟩ := C166_names dir id id i i' k k' e
  rcases h with h | h
  · exact h h1
  · exact h h2

theorem put_other (w : World K D A C R) (fs : Files D A C R) {n m : Text} (c : Content D A C R) (h : m ≠ n) : put w fs n c m = fs m := by
  unfold put
  split
  · exact if_neg h
  · rfl

theorem put_same (w : World K D A C R) (fs : Files D A C R) (n : Text) (c : Content D A C R) : put w fs n c n = if w.writes n = true then some c else fs n := by
  unfold put
  split
  · exact if_pos rfl
  · rfl

theorem store_own (w : World K D A C R) (a : Args) (dir : Text) (i : ℕ) (l : List D) (fs : Files D A C R) (k : Kind) :
    store w a dir i l fs (name dir a.id i k) = Left w a dir i l k (fs (name dir a.id i k)) := by
  have ne : ∀ {k k' : Kind}, k ≠ k' → name dir a.id i k ≠ name dir a.id i k' := fun h => name_ne dir a.id (Or.inr h)
  unfold store Left
  by_cases h : w.writes (name dir a.id i .dfs) = true
  · rw [if_pos h, if_pos h]
    dsimp only
    cases hp : performance w a.cls a.regr a.res l with
    | error e =>
      dsimp only
      cases k
      · rw [put_same, if_pos h]
      · rw [put_other _ _ _ (ne (by decide))]
      · rw [put_other _ _ _ (ne (by decide))]
      · rw [put_other _ _ _ (ne (by decide))]
    | ok r =>
      obtain ⟨x, y, z⟩ := r
      dsimp only
      cases k
      · rw [put_other _ _ _ (ne (by decide)), put_other _ _ _ (ne (by decide)), put_other _ _ _ (ne (by decide)), put_same, if_pos h]
      · rw [put_other _ _ _ (ne (by decide)), put_other _ _ _ (ne (by decide)), put_same, put_other _ _ _ (ne (by decide))]
      · rw [put_other _ _ _ (ne (by decide)), put_same, put_other _ _ _ (ne (by decide)), put_other _ _ _ (ne (by decide))]
      · rw [put_same, put_other _ _ _ (ne (by decide)), put_other _ _ _ (ne (by decide)), put_other _ _ _ (ne (by decide))]
  · rw [if_neg h, if_neg h]

theorem store_other (w : World K D A C R) (a : Args) (dir : Text) (i : ℕ) (l : List D) (fs : Files D A C R) (m : Text)
    (hm : ∀ k, m ≠ name dir a.id i k) : store w a dir i l fs m = fs m := by
  unfold store
  split
  · dsimp only
    cases performance w a.cls a.regr a.res l with
    | error e => exact put_other _ _ _ (hm _)
    | ok r =>
      obtain ⟨x, y, z⟩ := r
      dsimp only
      rw [put_other _ _ _ (hm _), put_other _ _ _ (hm _), put_other _ _ _ (hm _), put_other _ _ _ (hm _)]
  · rfl

/-- Whether sampling succeeds for a sequence. -/
def samples (w : World K D A C R) (a : Args) (kw : K) (i : ℕ) : Option (List D) :=
  match (w.sample (ask a (w.dim kw)) kw i).2 with
  | .ok l => some l
  | .error _ => none

theorem loop_other (w : World K D A C R) (a : Args) (dir : Text) (kw : K) (todo i : ℕ) (fs : Files D A C R) (m : Text)
    (hm : ∀ j k, i ≤ j → j < i + todo → m ≠ name dir a.id j k) : (loop w a dir kw todo i fs).1 m = fs m := by
  induction todo generalizing i fs with
  | zero => rfl
  | succ todo ih =>
    rw [loop]
    split
    · rfl
    · rw [ih (i + 1) _ fun j k h1 h2 => hm j k (by omega) (by omega), store_other _ _ _ _ _ _ _ fun k => hm i k le_rfl (by omega)]

theorem loop_own (w : World K D A C R) (a : Args) (dir : Text) (kw : K) (todo i : ℕ) (fs : Files D A C R) (j : ℕ) (hj : i ≤ j) (hj' : j < i + todo) (k : Kind) :
    ((∀ n, i ≤ n → n ≤ j → samples w a kw n ≠ none) → ∀ l, samples w a kw j = some l →
      (loop w a dir kw todo i fs).1 (name dir a.id j k) = Left w a dir j l k (fs (name dir a.id j k))) ∧
    ((∃ n, i ≤ n ∧ n ≤ j ∧ samples w a kw n = none) → (loop w a dir kw todo i fs).1 (name dir a.id j k) = fs (name dir a.id j k)) := by
  induction todo generalizing i fs with
  | zero => omega
  | succ todo ih =>
    rw [loop]
    cases hs : (w.sample (ask a (w.dim kw)) kw i).2 with
    | error e =>
      have hn : samples w a kw i = none := by unfold samples; rw [hs]
      exact ⟨fun h => absurd hn (h i le_rfl hj), fun _ => rfl⟩
    | ok l =>
      have hn : samples w a kw i = some l := by unfold samples; rw [hs]
      dsimp only
      by_cases he : i = j
      · subst he
        rw [loop_other _ _ _ _ _ _ _ _ fun j' k' h1 _ => name_ne dir a.id (Or.inl (by omega)), store_own]
        constructor
        · intro _ l' hl'
          rw [hn] at hl'
          cases hl'
          rfl
        · rintro ⟨n, h1, h2, h3⟩
          have : n = i := le_antisymm h2 h1
          rw [this, hn] at h3
          cases h3
      · obtain ⟨i1, i2⟩ := ih (i + 1) (store w a dir i l fs) (by omega) (by omega)
        rw [store_other _ _ _ _ _ _ _ fun k' => name_ne dir a.id (Or.inl (fun e => he e.symm))] at i1 i2
        constructor
        · intro h
          exact i1 fun n h1 h2 => h n (by omega) h2
        · rintro ⟨n, h1, h2, h3⟩
          refine i2 ⟨n, ?_, h2, h3⟩
          rcases Nat.lt_or_ge i n with h | h
          · exact h
          · have : n = i := le_antisymm h h1
            rw [this, hn] at h3
            cases h3

theorem main_loop (w : World K D A C R) (a : Args) (fs : Files D A C R) (ini dir : Text) (kw : K) (h1 : a.ini = some ini) (h2 : a.dir = some dir)
    (h3 : w.isFile ini = true) (h4 : w.isDir dir = true) (h5 : w.parse ini = .ok kw) : main w a fs = loop w a dir kw a.n.toNat 0 fs := by
  unfold main
  rw [h1]
  dsimp only
  rw [if_pos h3, h2]
  dsimp only
  rw [if_pos h4, h5]

/-- C166: after a run, each file of a sequence before the first with a failure has what this sequence gave, the training data of all its iterations and, if all scores
were calculated, its scores. Each sequence is sampled from the settings of the ini file, whatever sequences before made of them. -/
theorem C166_files (w : World K D A C R) (a : Args) (fs : Files D A C R) (ini dir : Text) (kw : K) (h1 : a.ini = some ini) (h2 : a.dir = some dir)
    (h3 : w.isFile ini = true) (h4 : w.isDir dir = true) (h5 : w.parse ini = .ok kw) (j : ℕ) (hj : (j : Int) < a.n)
    (hok : ∀ n ≤ j, samples w a kw n ≠ none) (l : List D) (hl : samples w a kw j = some l) (k : Kind) :
    (main w a fs).1 (name dir a.id j k) = Left w a dir j l k (fs (name dir a.id j k)) := by
  rw [main_loop w a fs ini dir kw h1 h2 h3 h4 h5]
  exact (loop_own w a dir kw a.n.toNat 0 fs j (Nat.zero_le j) (by omega) k).1 (fun n _ hn => hok n hn) l hl

/-- C166: no other file is changed: not those of other runs, of sequences beyond the number asked for, or of a sequence at or after a failure of sampling. -/
theorem C166_unchanged (w : World K D A C R) (a : Args) (fs : Files D A C R) (m : Text)
    (hm : ∀ (dir ini : Text) (kw : K) (j : ℕ) (k : Kind), a.dir = some dir → a.ini = some ini → w.parse ini = .ok kw → (j : Int) < a.n → m = name dir a.id j k →
      ∃ n ≤ j, samples w a kw n = none) : (main w a fs).1 m = fs m := by
  unfold main
  cases h1 : a.ini with
  | none => rfl
  | some ini =>
    dsimp only
    by_cases h3 : w.isFile ini = true
    · rw [if_pos h3]
      cases h2 : a.dir with
      | none => rfl
      | some dir =>
        dsimp only
        by_cases h4 : w.isDir dir = true
        · rw [if_pos h4]
          cases h5 : w.parse ini with
          | error e => rfl
          | ok kw =>
            dsimp only
            by_cases he : ∃ j k, j < a.n.toNat ∧ m = name dir a.id j k
            · obtain ⟨j, k, hj, e⟩ := he
              obtain ⟨n, hn, hn'⟩ := hm dir ini kw j k h2 h1 h5 (by omega) e
              rw [e]
              exact (loop_own w a dir kw a.n.toNat 0 fs j (Nat.zero_le j) (by omega) k).2 ⟨n, Nat.zero_le n, hn, hn'⟩
            · exact loop_other w a dir kw a.n.toNat 0 fs m fun j k _ hj e => he ⟨j, k, by omega, e⟩
        · rw [if_neg h4]
    · rw [if_neg h3]

theorem loop_err (w : World K D A C R) (a : Args) (dir : Text) (kw : K) (todo i : ℕ) (fs : Files D A C R) :
    (loop w a dir kw todo i fs).2 = none ↔ ∀ j, i ≤ j → j < i + todo → samples w a kw j ≠ none := by
  induction todo generalizing i fs with
  | zero => exact ⟨fun _ j h1 h2 => by omega, fun _ => rfl⟩
  | succ todo ih =>
    rw [loop]
    cases hs : (w.sample (ask a (w.dim kw)) kw i).2 with
    | error e =>
      have hn : samples w a kw i = none := by unfold samples; rw [hs]
      exact ⟨fun h => (by cases h), fun h => absurd hn (h i le_rfl (by omega))⟩
    | ok l =>
      have hn : samples w a kw i = some l := by unfold samples; rw [hs]
      dsimp only
      rw [ih]
      constructor
      · intro h j h1 h2
        by_cases he : j = i
        · rw [he, hn]
          exact Option.some_ne_none l
        · exact h j (by omega) (by omega)
      · exact fun h j h1 h2 => h j (by omega) (by omega)

/-- C166: the program ends without an error exactly if ini file and directory are given and exist, the ini file can be read, and sampling succeeds for each sequence;
failures of scores or of writing do not stop it. Zero or less sequences are none. -/
theorem C166_success (w : World K D A C R) (a : Args) (fs : Files D A C R) :
    (main w a fs).2 = none ↔ ∃ ini dir kw, a.ini = some ini ∧ a.dir = some dir ∧ w.isFile ini = true ∧ w.isDir dir = true ∧ w.parse ini = .ok kw ∧
      ∀ j : ℕ, (j : Int) < a.n → samples w a kw j ≠ none := by
  constructor
  · intro h
    unfold main at h
    split at h
    · cases h
    rename_i ini h1
    split at h
    · rename_i h3
      split at h
      · cases h
      rename_i dir h2
      split at h
      · rename_i h4
        split at h
        · cases h
        rename_i kw h5
        exact ⟨ini, dir, kw, h1, h2, h3, h4, h5, fun j hj => (loop_err w a dir kw _ 0 fs).mp h j (Nat.zero_le j) (by omega)⟩
      · cases h
    · cases h
  · rintro ⟨ini, dir, kw, h1, h2, h3, h4, h5, h6⟩
    rw [main_loop w a fs ini dir kw h1 h2 h3 h4 h5, loop_err]
    exact fun j _ hj => h6 j (by omega)

/-- C166: a missing ini file or directory is refused with ValueError before anything is written. -/
theorem C166_refused (w : World K D A C R) (a : Args) (fs : Files D A C R)
    (h : (∀ f, a.ini = some f → w.isFile f = false) ∨ (∀ d, a.dir = some d → w.isDir d = false)) : main w a fs = (fs, some .value) := by
  unfold main
  cases h1 : a.ini with
  | none => rfl
  | some ini =>
    dsimp only
    by_cases h3 : w.isFile ini = true
    · rw [if_pos h3]
      cases h2 : a.dir with
      | none => rfl
      | some dir =>
        dsimp only
        by_cases h4 : w.isDir dir = true
        · exfalso
          rcases h with h | h
          · rw [h ini h1] at h3; cases h3
          · rw [h dir h2] at h4; cases h4
        · rw [if_neg h4]
    · rw [if_neg h3]

theorem performance_ok (w : World K D A C R) (cls regr : Text) (res : Int) (l : List D) :
    (∀ r, performance w cls regr res l = .ok r → r.1.length = l.length ∧ r.2.1.length = l.length ∧ r.2.2.length = l.length ∧
      ∀ (i : ℕ) (d : D), l[i]? = some d → ∃ x y z, w.score cls regr res d = .ok (x, y, z) ∧ r.1[i]? = some x ∧ r.2.1[i]? = some y ∧ r.2.2[i]? = some z) ∧
    ((∃ r, performance w cls regr res l = .ok r) ↔ ∀ d ∈ l, ∃ s, w.score cls regr res d = .ok s) := by
  induction l with
  | nil =>
    refine ⟨fun r h => ?_, fun _ d hd => by simp at hd, fun _ => ⟨_, rfl⟩⟩
    cases h
    exact ⟨rfl, rfl, rfl, fun i d hd => by simp at hd⟩
  | cons d l ih =>
    rw [performance]
    cases hs : w.score cls regr res d with
    | error e =>
      refine ⟨fun r h => (by cases h), fun ⟨r, h⟩ => (by cases h), fun h => ?_⟩
      obtain ⟨s, hs'⟩ := h d (by simp)
      rw [hs] at hs'
      cases hs'
    | ok s =>
      obtain ⟨x, y, z⟩ := s
      dsimp only
      cases hp : performance w cls regr res l with
      | error e =>
        refine ⟨fun r h => (by cases h), fun ⟨r, h⟩ => (by cases h), fun h => ?_⟩
        obtain ⟨r, hr⟩ := ih.2.mpr fun d' hd' => h d' (List.mem_cons_of_mem _ hd')
        rw [hp] at hr
        cases hr
      | ok q =>
        obtain ⟨xs, ys, zs⟩ := q
        obtain ⟨l1, l2, l3, l4⟩ := ih.1 _ hp
        refine ⟨fun r h => ?_, fun _ d' hd' => ?_, fun _ => ⟨_, rfl⟩⟩
        · cases h
          refine ⟨by simpa using l1, by simpa using l2, by simpa using l3, fun i d' hd' => ?_⟩
          cases i with
          | zero =>
            cases hd'
            exact ⟨x, y, z, hs, rfl, rfl, rfl⟩
          | succ i => exact l4 i d' hd'
        · rcases List.mem_cons.mp hd' with rfl | hd'
          · exact ⟨_, hs⟩
          · exact ih.2.mp ⟨_, hp⟩ d' hd'

/-- C166: scores are one for each iteration, in order, each of the training data of its iteration only. -/
theorem C166_scores (w : World K D A C R) (cls regr : Text) (res : Int) (l : List D) (r : List A × List C × List R) (h : performance w cls regr res l = .ok r) :
    r.1.length = l.length ∧ r.2.1.length = l.length ∧ r.2.2.length = l.length ∧
    ∀ (i : ℕ) (d : D), l[i]? = some d → ∃ x y z, w.score cls regr res d = .ok (x, y, z) ∧ r.1[i]? = some x ∧ r.2.1[i]? = some y ∧ r.2.2[i]? = some z :=
  (performance_ok w cls regr res l).1 r h

/-- C166 fails: if the scores of one iteration fail, those of all iterations of the sequence are lost, though its training data are kept. -/
theorem C166_lost_violated (w : World K D A C R) (a : Args) (dir : Text) (i : ℕ) (l : List D) (fs : Files D A C R) (d : D) (hd : d ∈ l) (e : Err)
    (hs : w.score a.cls a.regr a.res d = .error e) (hw : w.writes (name dir a.id i .dfs) = true) :
    store w a dir i l fs (name dir a.id i .dfs) = some (.dfs l) ∧ ∀ k, k ≠ .dfs → store w a dir i l fs (name dir a.id i k) = fs (name dir a.id i k) := by
  have hp : ∃ e, performance w a.cls a.regr a.res l = .error e := by
    cases h : performance w a.cls a.regr a.res l with
    | error e => exact ⟨e, rfl⟩
    | ok r =>
      obtain ⟨s, hs'⟩ := (performance_ok w a.cls a.regr a.res l).2.mp ⟨r, h⟩ d hd
      rw [hs] at hs'
      cases hs'
  obtain ⟨e', hp⟩ := hp
  constructor
  · rw [store_own]
    unfold Left
    rw [if_pos hw]
  · intro k hk
    rw [store_own]
    unfold Left
    rw [if_pos hw]
    cases k
    · exact absurd rfl hk
    · dsimp only; rw [hp]
    · dsimp only; rw [hp]
    · dsimp only; rw [hp]

/-- C166: the percentage by which the points of an iteration grow is used exactly if it is not negative; by default it is not used, and the other values are passed on. -/
theorem C166_asked (a : Args) (dim : ℕ) : (∀ p, (ask a dim).percent = some p ↔ p = a.percent ∧ 0 ≤ a.percent) ∧
    (ask a dim).start = a.start ∧ (ask a dim).final = a.final ∧ (ask a dim).perIter = a.perIter ∧ (ask a dim).dim = dim ∧ (ask a dim).scale = a.scale := by
  refine ⟨fun p => ?_, rfl, rfl, rfl, rfl, rfl⟩
  unfold ask
  dsimp only
  split
  · rename_i h
    exact ⟨fun e => (by cases e), fun e => absurd e.2 (not_le.mpr h)⟩
  · rename_i h
    exact ⟨fun e => ⟨(Option.some.inj e).symm, not_lt.mp h⟩, fun e => by rw [e.1]⟩

/-! ### A case: three sequences, of which the second has no scores and the third fails -/

def world : World ℕ ℕ ℕ ℕ ℕ :=
  { isFile := fun f => decide (f = (chars! "a.ini")), isDir := fun d => decide (d = (chars! "out")), parse := fun _ => .ok 5, dim := fun _ => 3,
    sample := fun q kw i => (0, if i = 2 then .error .other else .ok [q.start.toNat + i, kw, i]), score := fun _ _ _ d => if d = 1 then .error .other else .ok (d, d + 1, d + 2),
    writes := fun _ => true }

def options : Args := { ini := some (chars! "a.ini"), dir := some (chars! "out"), id := (chars! "77"), n := 4 }

/-- The numbers in a file. -/
def numbers : Option (Content ℕ ℕ ℕ ℕ) → Option (List ℕ)
  | some (.dfs l) => some l
  | some (.acc l) => some l
  | some (.conf l) => some l
  | some (.diffs l) => some l
  | none => none

example : (main world options fun _ => none).2 = some .other ∧
    (["out/77i0_dfs_per_iter", "out/77i0_acc_per_iter.npy", "out/77i0_conf_matrix_per_iter.npy", "out/77i0_abs_regr_frac_diffs_per_iter.npy", "out/77i1_dfs_per_iter",
      "out/77i1_acc_per_iter.npy", "out/77i2_dfs_per_iter", "out/77i3_dfs_per_iter"].map fun n => numbers ((main world options fun _ => none).1 n.toList)) =
    [some [27, 5, 0], some [27, 5, 0], some [28, 6, 1], some [29, 7, 2], some [28, 5, 1], none, none, none] := by
  constructor <;> decide +kernel

/-- C166 fails: a failure of sampling in one sequence stops those after it: they leave no files, though they would be sampled without a failure. -/
theorem C166_stopped_violated :
    (∀ (w : World K D A C R) (a : Args) (dir : Text) (kw : K) (fs : Files D A C R) (i j : ℕ), i ≤ j → j < a.n.toNat → samples w a kw i = none → ∀ k,
      (loop w a dir kw a.n.toNat 0 fs).1 (name dir a.id j k) = fs (name dir a.id j k)) ∧
    samples world options 5 2 = none ∧ samples world options 5 3 = some [30, 5, 3] ∧
    ((main world options fun _ => none).1 (name (chars! "out") options.id 3 .dfs)).isNone = true := by
  refine ⟨fun w a dir kw fs i j hij hj hi k => ?_, rfl, rfl, by decide +kernel⟩
  exact (loop_own w a dir kw a.n.toNat 0 fs j (Nat.zero_le j) (by omega) k).2 ⟨i, Nat.zero_le i, hij, hi⟩

/-- C166 fails: names are drawn from 89999 numbers by default and nothing looks for files that exist already, so a run with the same name in the same directory
replaces the training data of another, whatever they were. -/
theorem C166_replaced_violated (w : World K D A C R) (a : Args) (dir : Text) (i : ℕ) (l : List D) (fs : Files D A C R)
    (hw : w.writes (name dir a.id i .dfs) = true) (old : Content D A C R) (_ : fs (name dir a.id i .dfs) = some old) :
    store w a dir i l fs (name dir a.id i .dfs) = some (.dfs l) := by
  rw [store_own]
  unfold Left
  rw [if_pos hw]

end Verif.Sequence
