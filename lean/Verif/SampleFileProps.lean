import Verif.SampleFile
/-!
Property theorems for C23 (initial conditions read from a file).
-/
namespace Verif.SampleFile

theorem slice_getElem {α : Type} (l : List α) (index n j : ℕ) (hj : j < n) : (slice l index n)[j]? = l[index + j]? := by
  unfold slice
  rw [List.getElem?_drop, List.getElem?_take_of_lt (by omega)]

theorem slice_length {α : Type} (l : List α) (index n : ℕ) (h : index + n ≤ l.length) : (slice l index n).length = n := by
  simp only [slice, List.length_drop, List.length_take]; omega

/-- C23.  From a non-empty file and for a positive number of binaries one gets exactly that many rows, and row `j` is row
`(index + j) mod N` of the file. -/
theorem C23_cyclic (rows : List α) (hne : rows ≠ []) (index n : ℕ) (hn : 0 < n) :
    ∃ r, getSamples rows index n = some r ∧ r.length = n ∧ ∀ j < n, r[j]? = rows[(index + j) % rows.length]? := by
  have hc : Cyclic rows rows := ⟨dvd_refl _, fun i hi => by rw [Nat.mod_eq_of_lt hi]⟩
  obtain ⟨l, h1, h2, h3⟩ := grow_cyclic rows (index + n) rows hc hne
  refine ⟨slice l index n, by simp [getSamples, hn, h1], slice_length l index n h3, fun j hj => ?_⟩
  rw [slice_getElem l index n j hj, h2.2 _ (by omega)]

/-- C23.  The kicks belong to the same rows. -/
theorem C23_kicks_match {β : Type} (rows : List α) (kicks : List β) (hlen : kicks.length = rows.length) (hne : rows ≠ [])
    (index n : ℕ) (hn : 0 < n) :
    ∃ r k, getSamples rows index n = some r ∧ getKicks kicks index (some n) = some k ∧ r.length = n ∧ k.length = n ∧
      ∀ j < n, ∃ i < rows.length, r[j]? = rows[i]? ∧ k[j]? = kicks[i]? := by
  obtain ⟨r, h1, h2, h3⟩ := C23_cyclic rows hne index n hn
  have hke : kicks ≠ [] := by
    intro h; rw [h] at hlen; exact hne (List.length_eq_zero_iff.1 hlen.symm)
  obtain ⟨k, g1, g2, g3⟩ := C23_cyclic kicks hke index n hn
  refine ⟨r, k, h1, ?_, h2, g2, fun j hj => ⟨(index + j) % rows.length, ?_, h3 j hj, ?_⟩⟩
  · simpa [getSamples, hn, getKicks] using g1
  · exact Nat.mod_lt _ (List.length_pos_of_ne_nil hne)
  · rw [g3 j hj, hlen]

/-- C23.  Running binary by binary gives the same rows as asking for all of them at once. -/
theorem C23_one_by_one (rows : List α) (hne : rows ≠ []) (n j : ℕ) (hj : j < n) :
    ∃ r x, getSamples rows 0 n = some r ∧ getSamples rows j 1 = some [x] ∧ r[j]? = some x := by
  obtain ⟨r, h1, h2, h3⟩ := C23_cyclic rows hne 0 n (by omega)
  obtain ⟨s, g1, g2, g3⟩ := C23_cyclic rows hne j 1 (by omega)
  obtain ⟨x, rfl⟩ := List.length_eq_one_iff.1 g2
  refine ⟨r, x, h1, g1, ?_⟩
  have e := g3 0 (by omega)
  rw [h3 j hj, Nat.zero_add]
  simpa using e.symm

/-- C23 fails for a file without rows: the loop that repeats the table never ends. -/
theorem C23_empty_file_violated (index n : ℕ) (hn : 0 < n) : getSamples ([] : List α) index n = none := by
  simp [getSamples, hn, grow_empty (index + n) (by omega)]

/-- C23.  If no number is given all rows are returned, for the samples and for the kicks. -/
theorem C23_all_rows (rows : List α) (index : ℕ) : getSamples rows index 0 = some rows ∧ getKicks rows index none = some rows :=
  ⟨rfl, rfl⟩

/-- C23 is inconsistent for zero binaries: all rows, but no kicks. -/
theorem C23_zero_violated : ∃ (rows : List ℕ), (getSamples rows 0 0) = some rows ∧ getKicks rows 0 (some 0) = some [] ∧
    rows ≠ [] :=
  ⟨[1], rfl, by simp [getKicks, grow, slice], by simp⟩

/-- C23.  The column used is one whose name matches an allowed name up to case, and no column matches an allowed name of higher
priority; if no column matches at all, none is used. -/
theorem C23_column (fold : String → String) (available allowed : List String) :
    match inferKey fold available allowed with
    | some key => key ∈ available ∧ ∃ pre k post, allowed = pre ++ k :: post ∧ fold key = fold k ∧
        ∀ k' ∈ pre, ∀ key' ∈ available, fold key' ≠ fold k'
    | none => ∀ k ∈ allowed, ∀ key ∈ available, fold key ≠ fold k := by
  induction allowed with
  | nil => simp [inferKey]
  | cons k ks ih =>
    simp only [inferKey]
    cases hf : available.find? (fun key => fold key == fold k) with
    | some key =>
      have h1 := List.mem_of_find?_eq_some hf
      have h2 := List.find?_some hf
      exact ⟨h1, [], k, ks, rfl, by simpa using h2, by simp⟩
    | none =>
      have h0 : ∀ key ∈ available, fold key ≠ fold k := by
        intro key hk he
        have := List.find?_eq_none.1 hf key hk
        simp [he] at this
      simp only []
      cases hr : inferKey fold available ks with
      | some key =>
        rw [hr] at ih
        obtain ⟨h1, pre, k', post, h2, h3, h4⟩ := ih
        refine ⟨h1, k :: pre, k', post, by simp [h2], h3, ?_⟩
        intro k'' hk''
        rcases List.mem_cons.1 hk'' with rfl | h
        · exact h0
        · exact h4 k'' h
      | none =>
        rw [hr] at ih
        intro k' hk'
        rcases List.mem_cons.1 hk' with rfl | h
        · exact h0
        · exact ih k' h

/-- Non-vacuity. -/
example : getSamples [10, 20, 30] 4 3 = some [20, 30, 10] := by
  obtain ⟨r, h1, h2, h3⟩ := C23_cyclic [10, 20, 30] (by simp) 4 3 (by omega)
  rw [h1]
  match r, h2 with
  | [a, b, c], _ =>
    have e0 := h3 0 (by omega)
    have e1 := h3 1 (by omega)
    have e2 := h3 2 (by omega)
    simp at e0 e1 e2
    simp [e0, e1, e2]

end Verif.SampleFile
