import Verif.StepHooks

/-! # C118: the columns with names and durations of the steps fit to the history -/

namespace Verif.StepHooks

theorem adjust_short {α : Type} {col : List (Option α)} {n : ℕ} (h : col.length ≤ n) :
    adjust col n = col ++ List.replicate (n - col.length) none := by
  unfold adjust
  by_cases h1 : col.length < n
  · rw [if_pos h1]
  · rw [if_neg h1, if_neg (by omega)]
    simp [show n - col.length = 0 by omega]

theorem adjust_length {α : Type} {col : List (Option α)} {n : ℕ} (h : col.length ≤ n) : (adjust col n).length = n := by
  rw [adjust_short h]
  simp
  omega

/-- The columns are never longer than the history, and after each step with hooks they are as long. -/
theorem C118_lengths (verbose : Bool) (j : ℕ) (s : Step) (b : St) (h : b.names.length ≤ b.rows.length ∧ b.times.length ≤ b.rows.length) :
    ((runStep verbose j s b).names.length ≤ (runStep verbose j s b).rows.length ∧
      (runStep verbose j s b).times.length ≤ (runStep verbose j s b).rows.length) ∧
    (silent verbose s = false → Level (runStep verbose j s b)) := by
  obtain ⟨rows, names, times⟩ := b
  obtain ⟨h1, h2⟩ := h
  simp only at h1 h2
  have key : ∀ b : St, b.names.length ≤ b.rows.length → b.times.length ≤ b.rows.length →
      ((after verbose j s b).names.length ≤ (after verbose j s b).rows.length ∧
      (after verbose j s b).times.length ≤ (after verbose j s b).rows.length) ∧ (silent verbose s = false → Level (after verbose j s b)) := by
    intro b h1 h2
    unfold after
    by_cases hs : (s.redirect && !verbose) = true
    · rw [if_pos hs]
      refine ⟨⟨h1, h2⟩, fun h => ?_⟩
      unfold silent at h
      rw [h] at hs
      cases hs
    · rw [if_neg hs]
      have a1 : (adjust (b.names ++ [some s.name]) (b.rows ++ [j]).length).length = (b.rows ++ [j]).length := adjust_length (by simp; omega)
      have a2 : (adjust (b.times ++ [some s.time]) (b.rows ++ [j]).length).length = (b.rows ++ [j]).length := adjust_length (by simp; omega)
      exact ⟨⟨a1.le, a2.le⟩, fun _ => ⟨a1, a2⟩⟩
  unfold runStep
  apply key
  · unfold own record
    by_cases hm : s.matched = true
    · simp [hm]; omega
    · simp [hm]; omega
  · unfold own record
    by_cases hm : s.matched = true
    · simp [hm]; omega
    · simp [hm]; omega

theorem runSteps_lengths (verbose : Bool) (steps : List Step) (j : ℕ) (b : St)
    (h : b.names.length ≤ b.rows.length ∧ b.times.length ≤ b.rows.length) :
    (runSteps verbose j steps b).names.length ≤ (runSteps verbose j steps b).rows.length ∧
      (runSteps verbose j steps b).times.length ≤ (runSteps verbose j steps b).rows.length := by
  induction steps generalizing j b with
  | nil => exact h
  | cons s r ih => exact ih _ _ (C118_lengths verbose j s b h).1

/-- After an evolution that ends, or fails without an error, all columns are as long as the history, whatever the steps do. -/
theorem C118_finished (verbose : Bool) (rows : List ℕ) (hr : rows ≠ []) (steps : List Step) :
    Level (evolve verbose rows none none steps true) := by
  have h := runSteps_lengths verbose steps 1 (preEvolve rows none none) (by
    have : 0 < rows.length := List.length_pos_iff.2 hr
    simp [preEvolve]; omega)
  unfold evolve postEvolve Level
  simp only [if_true, List.length_append, List.length_replicate]
  omega

theorem step_block (verbose : Bool) (j : ℕ) (s : Step) (b : St) (h : Level b)
    (hs : silent verbose s = true → s.matched = false ∧ s.extra = 0) :
    runStep verbose j s b = ⟨b.rows ++ List.replicate (count verbose s) j, b.names ++ nameBlock verbose s, b.times ++ timeBlock verbose s⟩ := by
  obtain ⟨rows, names, times⟩ := b
  obtain ⟨h1, h2⟩ := h
  simp only at h1 h2
  unfold runStep
  by_cases hq : silent verbose s = true
  · obtain ⟨hm, he⟩ := hs hq
    have hq' := hq
    unfold silent at hq'
    unfold after
    rw [if_pos hq']
    simp [own, record, hm, he, count, nameBlock, timeBlock, hq]
  · have hq' : ¬ (s.redirect && !verbose) = true := by
      intro h
      exact hq h
    unfold after
    rw [if_neg hq']
    unfold own record count nameBlock timeBlock
    simp only [if_neg hq]
    by_cases hm : s.matched = true
    · simp only [hm, if_true]
      rw [adjust_short (by simp; omega), adjust_short (by simp; omega)]
      congr 1
      · simp only [List.append_assoc]
        congr 1
        rw [Nat.add_comm 1 s.extra, ← List.replicate_succ' (n := s.extra)]
        rfl
      · simp only [List.append_assoc, List.length_append, List.length_replicate, List.length_cons, List.length_nil]
        simp
        omega
      · simp only [List.append_assoc, List.length_append, List.length_replicate, List.length_cons, List.length_nil]
        simp
        omega
    · simp only [hm]
      rw [adjust_short (by simp; omega), adjust_short (by simp; omega)]
      congr 1
      · simp only [List.append_assoc]
        congr 1
        simp [← List.replicate_succ']
      · simp only [List.append_assoc, List.length_append, List.length_replicate, List.length_cons, List.length_nil]
        simp
        omega
      · simp only [List.append_assoc, List.length_append, List.length_replicate, List.length_cons, List.length_nil]
        simp
        omega

theorem block_length (verbose : Bool) (s : Step) :
    (nameBlock verbose s).length = count verbose s ∧ (timeBlock verbose s).length = count verbose s := by
  unfold nameBlock timeBlock count
  by_cases hq : silent verbose s = true
  · simp [hq]
  · simp only [if_neg hq]
    by_cases hm : s.matched = true
    · simp [hm]; omega
    · simp [hm]

/-- The columns of an evolution from a binary with columns as long as its history: the blocks of all steps, one after the other. -/
theorem C118_columns (verbose : Bool) (steps : List Step) (j : ℕ) (b : St) (h : Level b)
    (hs : ∀ s ∈ steps, silent verbose s = true → s.matched = false ∧ s.extra = 0) :
    runSteps verbose j steps b = ⟨b.rows ++ rowsOf verbose j steps, b.names ++ steps.flatMap (nameBlock verbose),
      b.times ++ steps.flatMap (timeBlock verbose)⟩ := by
  induction steps generalizing j b with
  | nil => simp [runSteps, rowsOf]
  | cons s r ih =>
    unfold runSteps
    have hb := step_block verbose j s b h (hs s (by simp))
    have hl : Level (runStep verbose j s b) := by
      rw [hb]
      obtain ⟨h1, h2⟩ := h
      obtain ⟨h3, h4⟩ := block_length verbose s
      unfold Level
      simp [h1, h2, h3, h4]
    rw [ih (j + 1) _ hl (fun s hs' => hs s (by simp [hs'])), hb]
    simp [rowsOf]

theorem block_entries (verbose : Bool) (s : Step) (i : ℕ) (hi : i < count verbose s) :
    ((nameBlock verbose s)[i]? = some (some s.name) ∨ (nameBlock verbose s)[i]? = some none) ∧
    ((timeBlock verbose s)[i]? = some (if i = 0 then some s.time else none)) ∧ (i = 0 → (nameBlock verbose s)[i]? = some (some s.name)) := by
  unfold count at hi
  unfold nameBlock timeBlock
  by_cases hq : silent verbose s = true
  · rw [if_pos hq] at hi
    omega
  · rw [if_neg hq] at hi
    simp only [if_neg hq]
    by_cases hm : s.matched = true
    · simp only [hm, if_true] at hi ⊢
      rcases i with _ | _ | i
      · simp
      · simp
      · have h1 : i < s.extra := by omega
        have h2 : i + 1 < s.extra + 1 := by omega
        simp [List.getElem?_replicate, h1, h2]
    · simp only [hm] at hi ⊢
      rcases i with _ | i
      · simp
      · have h1 : i < s.extra := by simp at hi; omega
        simp [List.getElem?_replicate, h1]

theorem rowsOf_length (verbose : Bool) (j : ℕ) (steps : List Step) : (rowsOf verbose j steps).length = (steps.flatMap (nameBlock verbose)).length ∧
    (rowsOf verbose j steps).length = (steps.flatMap (timeBlock verbose)).length := by
  induction steps generalizing j with
  | nil => simp [rowsOf]
  | cons s r ih =>
    obtain ⟨a, b⟩ := ih (j + 1)
    obtain ⟨c, d⟩ := block_length verbose s
    unfold rowsOf
    simp only [List.flatMap_cons, List.length_append, List.length_replicate]
    omega

theorem rows_entries (verbose : Bool) (steps : List Step) (j i k : ℕ) (h : (rowsOf verbose j steps)[i]? = some k) :
    j ≤ k ∧ ∃ s, steps[k - j]? = some s ∧
      ((steps.flatMap (nameBlock verbose))[i]? = some (some s.name) ∨ (steps.flatMap (nameBlock verbose))[i]? = some none) ∧
      (steps.flatMap (timeBlock verbose))[i]? =
        some (if i = 0 ∨ (rowsOf verbose j steps)[i - 1]? ≠ some k then some s.time else none) ∧
      (i = 0 ∨ (rowsOf verbose j steps)[i - 1]? ≠ some k → (steps.flatMap (nameBlock verbose))[i]? = some (some s.name)) := by
  induction steps generalizing j i with
  | nil => simp [rowsOf] at h
  | cons s r ih =>
    obtain ⟨c, d⟩ := block_length verbose s
    unfold rowsOf at h ⊢
    simp only [List.flatMap_cons]
    by_cases hi : i < count verbose s
    · rw [List.getElem?_append_left (by simpa using hi)] at h
      rw [List.getElem?_replicate, if_pos hi] at h
      obtain rfl : k = j := (Option.some.inj h).symm
      obtain ⟨b1, b2, b3⟩ := block_entries verbose s i hi
      rw [List.getElem?_append_left (by omega), List.getElem?_append_left (by omega)]
      have hprev : (i = 0 ∨ (List.replicate (count verbose s) k ++ rowsOf verbose (k + 1) r)[i - 1]? ≠ some k) ↔ i = 0 := by
        constructor
        · rintro (h | h)
          · exact h
          · exfalso
            apply h
            rw [List.getElem?_append_left (by simp; omega), List.getElem?_replicate, if_pos (by omega)]
        · exact Or.inl
      refine ⟨le_refl _, s, by simp, b1, ?_, ?_⟩
      · rw [b2]
        simp only [hprev]
      · intro h
        exact b3 (hprev.1 h)
    · rw [List.getElem?_append_right (by simpa using Nat.le_of_not_lt hi)] at h
      rw [List.length_replicate] at h
      obtain ⟨h1, t, h2, h3, h4, h5⟩ := ih (j + 1) (i - count verbose s) h
      rw [List.getElem?_append_right (by omega), List.getElem?_append_right (by omega), c, d]
      have hprev : (i - count verbose s = 0 ∨ (rowsOf verbose (j + 1) r)[i - count verbose s - 1]? ≠ some k) ↔
          (i = 0 ∨ (List.replicate (count verbose s) j ++ rowsOf verbose (j + 1) r)[i - 1]? ≠ some k) := by
        by_cases h0 : i = 0
        · simp [h0]
        · by_cases he : i = count verbose s
          · have : i - 1 < count verbose s := by omega
            rw [List.getElem?_append_left (by simpa using this), List.getElem?_replicate, if_pos this]
            have hk : j ≠ k := by omega
            simp [he, hk]
          · rw [List.getElem?_append_right (by simp; omega), List.length_replicate]
            have e1 : i - 1 - count verbose s = i - count verbose s - 1 := by omega
            rw [e1]
            have e2 : i - count verbose s ≠ 0 := by omega
            simp [h0, e2]
      refine ⟨by omega, t, ?_, h3, ?_, ?_⟩
      · have : k - j = (k - (j + 1)) + 1 := by omega
        rw [this]
        simpa using h2
      · rw [h4]
        simp only [hprev]
      · intro h
        exact h5 (hprev.2 h)

/-- Row by row, for an evolution from the initial row: the columns are as long as the history; a name in a row is the name of the step that wrote the row, and
the first row of each step has its name; the duration of a step is in its first row, and only there. -/
theorem C118_aligned (verbose : Bool) (steps : List Step) (over : Bool)
    (hs : ∀ s ∈ steps, silent verbose s = true → s.matched = false ∧ s.extra = 0) :
    let b := evolve verbose [0] none none steps over
    Level b ∧ b.rows[0]? = some 0 ∧ b.names[0]? = some (some "initial_cond") ∧ b.times[0]? = some (some 0) ∧
    ∀ i k, 0 < i → b.rows[i]? = some k → ∃ s, 0 < k ∧ steps[k - 1]? = some s ∧
      (b.names[i]? = some (some s.name) ∨ b.names[i]? = some none) ∧
      (b.rows[i - 1]? ≠ some k → b.names[i]? = some (some s.name) ∧ b.times[i]? = some (some s.time)) ∧
      (b.rows[i - 1]? = some k → b.times[i]? = some none) := by
  intro b
  have hl : Level (preEvolve [0] none none) := ⟨rfl, rfl⟩
  have hb : b = ⟨0 :: rowsOf verbose 1 steps, some "initial_cond" :: steps.flatMap (nameBlock verbose),
      some 0 :: steps.flatMap (timeBlock verbose)⟩ := by
    show evolve verbose [0] none none steps over = _
    unfold evolve
    rw [C118_columns verbose steps 1 _ hl hs]
    obtain ⟨e1, e2⟩ := rowsOf_length verbose 1 steps
    unfold postEvolve
    cases over
    · rfl
    · simp only [if_true, preEvolve, Option.getD_none]
      simp [e1, ← e2]
  obtain ⟨e1, e2⟩ := rowsOf_length verbose 1 steps
  rw [hb]
  refine ⟨⟨by simp [e1], by simp [e2]⟩, rfl, rfl, rfl, ?_⟩
  intro i k hi hk
  obtain ⟨i, rfl⟩ : ∃ m, i = m + 1 := ⟨i - 1, by omega⟩
  simp only [List.getElem?_cons_succ] at hk ⊢
  obtain ⟨h1, s, h2, h3, h4, h5⟩ := rows_entries verbose steps 1 i k hk
  have hp : (i = 0 ∨ (rowsOf verbose 1 steps)[i - 1]? ≠ some k) ↔ (0 :: rowsOf verbose 1 steps)[i + 1 - 1]? ≠ some k := by
    rcases i with _ | i
    · simp; omega
    · simp
  rw [hp] at h5
  refine ⟨s, h1, h2, h3, fun h => ⟨h5 h, ?_⟩, fun h => ?_⟩
  · rw [h4, if_pos (hp.2 h)]
  · rw [h4, if_neg (fun h' => (hp.1 h') h)]

/-- Each step that writes rows has its name in the column. -/
theorem C118_all_names (verbose : Bool) (steps : List Step) (over : Bool)
    (hs : ∀ s ∈ steps, silent verbose s = true → s.matched = false ∧ s.extra = 0) (s : Step) (h : s ∈ steps) (hn : silent verbose s = false) :
    some s.name ∈ (evolve verbose [0] none none steps over).names ∧ some s.time ∈ (evolve verbose [0] none none steps over).times := by
  unfold evolve
  rw [C118_columns verbose steps 1 _ ⟨rfl, rfl⟩ hs]
  have h1 : some s.name ∈ steps.flatMap (nameBlock verbose) := List.mem_flatMap.2 ⟨s, h, by simp [nameBlock, hn]⟩
  have h2 : some s.time ∈ steps.flatMap (timeBlock verbose) := List.mem_flatMap.2 ⟨s, h, by simp [timeBlock, hn]⟩
  unfold postEvolve
  cases over <;> simp [h1, h2]

/-- After `restore` the columns are as long as the history, so that the evolution can go on. -/
theorem C118_restore {i : ℕ} {rows : List ℕ} {n : List (Option String)} {t : List (Option ℚ)} (h : Level ⟨rows, n, t⟩) :
    ∃ b, restore i rows (some n) (some t) = .ok b ∧ Level b ∧ b.rows = rows.take (i + 1) := by
  obtain ⟨h1, h2⟩ := h
  simp only at h1 h2
  exact ⟨_, rfl, ⟨by simp [h1], by simp [h2]⟩, rfl⟩

/-- Violated: a binary that did not evolve yet with these hooks can not be restored. -/
theorem C118_restore_violated : ∃ rows : List ℕ, rows.length = 1 ∧ restore 0 rows none none = .error .attribute :=
  ⟨[0], rfl, rfl⟩

/-- Violated: without the hooks for names a match can not be recorded. -/
theorem C118_record_violated (j : ℕ) (s : Step) (rows : List ℕ) (h : s.matched = true) : recordMissing j s rows none = .error .attribute := by
  simp [recordMissing, h]

/-- After an error the columns are too short: by the rows with the failure. -/
theorem C118_failed (verbose : Bool) (steps : List Step) (bad : Step) (f : ℕ)
    (hs : ∀ s ∈ steps, silent verbose s = true → s.matched = false ∧ s.extra = 0) :
    (evolveFail verbose [0] none none steps bad f).rows.length = (evolveFail verbose [0] none none steps bad f).names.length + f + 1 := by
  unfold evolveFail
  rw [C118_columns verbose steps 1 _ ⟨rfl, rfl⟩ hs]
  obtain ⟨e1, e2⟩ := rowsOf_length verbose 1 steps
  unfold record
  by_cases hm : bad.matched = true
  · simp [hm, preEvolve, e1]; omega
  · simp [hm, preEvolve, e1]; omega

/-- Violated: after an error the columns do not have the length of the history. -/
theorem C118_failed_violated (verbose : Bool) (steps : List Step) (bad : Step) (f : ℕ)
    (hs : ∀ s ∈ steps, silent verbose s = true → s.matched = false ∧ s.extra = 0) :
    ¬ Level (evolveFail verbose [0] none none steps bad f) := by
  intro h
  have := C118_failed verbose steps bad f hs
  have := h.1
  omega

/-- Violated: if the evolution starts with a history of several rows but without the columns, the first step has its name in the second row of the old
history, and nothing in its own row. -/
theorem C118_resume_violated (verbose : Bool) (old : List ℕ) (a b : ℕ) (s : Step) (hq : silent verbose s = false) (hm : s.matched = false) :
    (evolve verbose (a :: b :: old) none none [s] false).names[1]? = some (some s.name) ∧
    (evolve verbose (a :: b :: old) none none [s] false).times[1]? = some (some s.time) ∧
    (evolve verbose (a :: b :: old) none none [s] false).rows[1]? = some b ∧
    (evolve verbose (a :: b :: old) none none [s] false).names.getLast? = some none := by
  have hq' : ¬ (s.redirect && !verbose) = true := by
    unfold silent at hq
    simp [hq]
  have h : evolve verbose (a :: b :: old) none none [s] false = ⟨a :: b :: old ++ List.replicate s.extra 1 ++ [1],
      [some "initial_cond", some s.name] ++ List.replicate (old.length + s.extra + 1) none, [some 0, some s.time] ++
      List.replicate (old.length + s.extra + 1) none⟩ := by
    simp only [evolve, postEvolve, runSteps, runStep, after, own, record, preEvolve, hm, Option.getD_none]
    rw [if_neg hq']
    rw [adjust_short (by simp), adjust_short (by simp)]
    simp only [Bool.false_eq_true, if_false]
    congr 1
    · simp
      omega
    · simp
      omega
  rw [h]
  refine ⟨rfl, rfl, rfl, ?_⟩
  show ([some "initial_cond", some s.name] ++ List.replicate (old.length + s.extra + 1) (none : Option String)).getLast? = _
  rw [List.replicate_succ', ← List.append_assoc, List.getLast?_concat]

/-- Violated: if the history became shorter than a column, the column does not get its length. -/
theorem C118_shorter_violated {α : Type} (col : List (Option α)) (n : ℕ) (h0 : 0 < n) (h : n < col.length) : (adjust col n).length ≠ n := by
  unfold adjust
  rw [if_neg (by omega), if_pos h]
  unfold lastK
  by_cases h1 : n - 1 = 0
  · rw [if_pos h1]; omega
  · rw [if_neg h1, List.length_drop]; omega

/-- Violated: after a redirection that is not shown, but recorded a match, the duration of the next step is in the row of the match. -/
theorem C118_silent_violated : ∃ (s t : Step), silent false s = true ∧ s.matched = true ∧ t.time = 7 ∧
    (evolve false [0] none none [s, t] true).rows = [0, 1, 2] ∧ (evolve false [0] none none [s, t] true).times = [some 0, some 7, none] :=
  ⟨⟨"step_detached", 5, true, 0, true⟩, ⟨"step_CE", 7, false, 0, false⟩, rfl, rfl, rfl, by decide +kernel, by decide +kernel⟩

example : evolve false [0] none none [⟨"step_HMS_HMS", 3, false, 2, false⟩, ⟨"step_CO_HeMS", 1, false, 0, true⟩, ⟨"step_detached", 5, true, 0, false⟩,
    ⟨"step_end", 0, false, 0, false⟩] true =
    ⟨[0, 1, 1, 1, 3, 3, 4], [some "initial_cond", some "step_HMS_HMS", none, none, some "step_detached", some "step_detached", some "step_end"],
      [some 0, some 3, none, none, some 5, none, some 0]⟩ := by decide +kernel

/-- Columns that are there already are kept at the start; missing ones begin with the initial conditions. -/
theorem C118_kept (rows : List ℕ) (n : List (Option String)) (t : List (Option ℚ)) :
    preEvolve rows (some n) (some t) = ⟨rows, n, t⟩ ∧ preEvolve rows none none = ⟨rows, [some "initial_cond"], [some 0]⟩ := ⟨rfl, rfl⟩

end Verif.StepHooks
