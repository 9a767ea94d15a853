import Verif.VHCount
import Mathlib.Tactic.Ring
import Mathlib.Tactic.FieldSimp
import Mathlib.Algebra.Order.Field.Basic
import Mathlib.Algebra.BigOperators.Ring.List
import Mathlib.Algebra.Order.BigOperators.Group.List

/-!
# C126: counting the evolutions of a population

The pass over the history in pieces finds each binary once and whole, however the file is cut; the table gives for
each different evolution the first binary that has it and the number of binaries that have it.
-/

namespace Verif.VHCount

variable {R H : Type}

/-- However the history is cut into pieces, each binary is counted once with all of its rows. -/
theorem C126_groups (cs : List (List (Row R))) (hr : Rising cs.flatten) (hne : cs.flatten ≠ []) :
    parsed cs = some (groups cs.flatten) := by
  induction cs with
  | nil => simp at hne
  | cons c cs ih =>
    by_cases hc : c = []
    · subst hc
      have hp : piece ([] : List (Row R)) [] = ([], []) := rfl
      have : parsed ([] :: cs) = parsed cs := by
        unfold parsed
        simp [pieces, hp]
      rw [this]
      simpa using ih (by simpa using hr) (by simpa using hne)
    · obtain ⟨l, hl⟩ : ∃ l, c.getLast? = some l := by
        cases hx : c.getLast? with
        | none => exact absurd (List.getLast?_eq_none_iff.mp hx) hc
        | some x => exact ⟨x, rfl⟩
      have hp : piece [] c = (c.filter (fun r => r.1 = l.1), groups (c.filter fun r => r.1 ≠ l.1)) := by
        simp [piece, hl]
      obtain ⟨l', h1, h2, h3⟩ := pieces_spec cs c l (by simpa using hr) hl
      obtain ⟨hs, hle⟩ := rising_split (by simpa using hr) h1
      have hmem : l' ∈ (c ++ cs.flatten).filter (fun r => r.1 = l'.1) :=
        List.mem_filter.mpr ⟨List.mem_of_getLast? h1, by simp⟩
      unfold parsed
      simp only [pieces, hp, h2, h3, List.flatten_cons]
      cases hB : (c ++ cs.flatten).filter (fun r => r.1 = l'.1) with
      | nil => rw [hB] at hmem; simp at hmem
      | cons r rs =>
        dsimp only
        have hall : ∀ x ∈ r :: rs, x.1 = l'.1 := by
          intro x hx
          rw [← hB] at hx
          simpa using (List.mem_filter.mp hx).2
        have hr1 : r.1 = l'.1 := hall r (by simp)
        conv_rhs => rw [hs]
        rw [groups_append, hB, groups_const (r := r) (by simp) (fun x hx => (hall x hx).trans hr1.symm)]
        intro x hx y hy
        rw [hB] at hy
        obtain ⟨hx1, hx2⟩ := List.mem_filter.mp hx
        rw [hall y hy]
        exact lt_of_le_of_ne (hle x hx1) (by simpa using hx2)

/-- The size of the pieces does not matter. -/
theorem C126_any_pieces (cs ds : List (List (Row R))) (h : cs.flatten = ds.flatten) (hr : Rising cs.flatten) (hne : cs.flatten ≠ []) :
    parsed cs = parsed ds := by
  rw [C126_groups cs hr hne, C126_groups ds (h ▸ hr) (h ▸ hne), h]

/-- The groups are those of the binaries: each index of the history once, in order, with its rows in order. -/
theorem C126_each_binary (d : List (Row R)) :
    ((groups d).map (·.1)).Pairwise (· < ·) ∧ (∀ i, i ∈ (groups d).map (·.1) ↔ ∃ r ∈ d, r.1 = i) ∧
    ∀ g ∈ groups d, g.2 = (d.filter fun r => r.1 = g.1).map (·.2) := by
  have hm : (groups d).map (·.1) = labels d := by
    simp only [groups, List.map_map]
    exact List.map_id _
  refine ⟨hm ▸ labels_sorted d, fun i => by rw [hm, mem_labels], ?_⟩
  intro g hg
  obtain ⟨i, _, rfl⟩ := List.mem_map.mp hg
  rfl

/-- A history without rows is an error. -/
theorem C126_no_rows (cs : List (List (Row R))) (h : cs.flatten = []) : parsed cs = none := by
  have : pieces ([] : List (Row R)) cs = ([], []) := by
    induction cs with
    | nil => rfl
    | cons c cs ih =>
      have hc : c = [] := by
        have := h
        simp only [List.flatten_cons, List.append_eq_nil_iff] at this
        exact this.1
      subst hc
      have hp : piece ([] : List (Row R)) [] = ([], []) := rfl
      simp [pieces, hp, ih (by simpa using h)]
  simp [parsed, this]

/-- Rows out of order: a binary whose rows are not together is counted more than once. -/
theorem C126_apart_violated : ∃ cs : List (List (Row ℕ)), parsed cs = some [(1, [7]), (2, [8]), (1, [9])] ∧
    groups cs.flatten = [(1, [7, 9]), (2, [8])] :=
  ⟨[[(1, 7)], [(2, 8)], [(1, 9)]], by decide +kernel, by decide +kernel⟩

variable [DecidableEq H]

/-- The table has one line for each different evolution: the first binary with it and how many have it. -/
theorem C126_table (h : List R → H) (hi : Function.Injective h) (gs : List (Group R)) (s : List R) (i n : ℕ) :
    (h s, i, n) ∈ tally h [] gs ↔
      ∃ r, gs.filter (fun g => h g.2 = h s) = r ∧ (∀ g, g ∈ r ↔ g ∈ gs ∧ g.2 = s) ∧ r.head?.map (·.1) = some i ∧ r.length = n := by
  rw [mem_iff_lookup (tally_nodup h gs [] (by simp)), tally_lookup]
  simp only [List.lookup_nil]
  have hm : ∀ g, g ∈ gs.filter (fun g => h g.2 = h s) ↔ g ∈ gs ∧ g.2 = s := by
    intro g
    rw [List.mem_filter]
    simp [hi.eq_iff]
  constructor
  · intro he
    refine ⟨_, rfl, hm, ?_⟩
    cases hf : gs.filter (fun g => h g.2 = h s) with
    | nil => rw [hf] at he; simp at he
    | cons g r =>
      rw [hf] at he
      simp only [Option.some.injEq, Prod.mk.injEq] at he
      simp [he.1, he.2]
  · rintro ⟨r, hr, _, h1, h2⟩
    rw [hr]
    cases r with
    | nil => simp at h1
    | cons g r =>
      simp only [List.head?_cons, Option.map_some, Option.some.injEq] at h1
      simp at h2
      simp [h1, h2]

/-- No two lines have the same evolution. -/
theorem C126_distinct (h : List R → H) (gs : List (Group R)) : ((tally h [] gs).map (·.1)).Nodup :=
  tally_nodup h gs [] (by simp)

/-- All lines come from a binary. -/
theorem C126_lines (h : List R → H) (gs : List (Group R)) (e : Entry H) (he : e ∈ tally h [] gs) :
    (∃ g ∈ gs, h g.2 = e.1 ∧ g.1 = e.2.1) ∧ e.2.2 = (gs.filter fun g => h g.2 = e.1).length := by
  obtain ⟨k, i, n⟩ := e
  rw [mem_iff_lookup (tally_nodup h gs [] (by simp)), tally_lookup] at he
  simp only [List.lookup_nil] at he
  cases hf : gs.filter (fun g => h g.2 = k) with
  | nil => rw [hf] at he; simp at he
  | cons g r =>
    rw [hf] at he
    simp only [Option.some.injEq, Prod.mk.injEq] at he
    have hg : g ∈ gs.filter (fun g => h g.2 = k) := by rw [hf]; simp
    obtain ⟨h1, h2⟩ := List.mem_filter.mp hg
    exact ⟨⟨g, h1, by simpa using h2, he.1⟩, by simp [he.2]⟩

/-- The numbers add up to the number of binaries. -/
theorem C126_total (h : List R → H) (gs : List (Group R)) : ((tally h [] gs).map (·.2.2)).sum = gs.length := by
  rw [tally_sum]; simp

/-- The indices of the lines differ, if those of the binaries do: so no line replaces another in `count_dict`. -/
theorem C126_indices (h : List R → H) (gs : List (Group R)) (hn : (gs.map (·.1)).Nodup) : ((tally h [] gs).map (·.2.1)).Nodup := by
  have hk := tally_nodup h gs [] (by simp)
  rw [List.Nodup, List.pairwise_map] at hk ⊢
  have hk' := List.Pairwise.and_mem.mp hk
  refine hk'.imp ?_
  rintro a b ⟨ha, hb, hab⟩ he
  obtain ⟨⟨g, hg, h1, h2⟩, _⟩ := C126_lines h gs a ha
  obtain ⟨⟨g', hg', h1', h2'⟩, _⟩ := C126_lines h gs b hb
  have : g = g' := List.inj_on_of_nodup_map hn hg hg' (h2.trans (he.trans h2'.symm))
  exact hab (h1.symm.trans (this ▸ h1'))

theorem find_unique {A : Type} {p : A → Bool} : ∀ {l : List A} {a : A}, a ∈ l → p a = true → (∀ b ∈ l, p b = true → b = a) → l.find? p = some a
  | x :: l, a, ha, hp, hu => by
    by_cases hx : p x = true
    · rw [List.find?_cons_of_pos hx, hu x (by simp) hx]
    · rw [List.find?_cons_of_neg hx]
      rcases List.mem_cons.mp ha with rfl | ha
      · exact absurd hp hx
      · exact find_unique ha hp fun b hb => hu b (List.mem_cons_of_mem _ hb)

/-- `count_dict` gives for the first binary of each evolution the number of binaries with it. -/
theorem C126_count_dict (h : List R → H) (gs : List (Group R)) (hn : (gs.map (·.1)).Nodup) (e : Entry H) (he : e ∈ tally h [] gs) :
    countOf (tally h [] gs) e.2.1 = some (gs.filter fun g => h g.2 = e.1).length := by
  have hk := C126_indices h gs hn
  unfold countOf
  rw [find_unique (a := e) (List.mem_reverse.mpr he) (by simp)]
  · rw [Option.map_some, (C126_lines h gs e he).2]
  · intro b hb hbe
    exact List.inj_on_of_nodup_map hk (List.mem_reverse.mp hb) he (by simpa using hbe)

/-- The frequencies are shares of all binaries in percent; they add up to 100. -/
theorem C126_frequencies (h : List R → H) (gs : List (Group R)) (hne : gs ≠ []) :
    ((frequencies (tally h [] gs)).map (·.2)).sum = 100 ∧
    ∀ f ∈ frequencies (tally h [] gs), ∃ e ∈ tally h [] gs, f.1 = e.2.1 ∧
      f.2 = 100 * ((gs.filter fun g => h g.2 = e.1).length : ℚ) / gs.length := by
  have hpos : (gs.length : ℚ) ≠ 0 := by
    have : gs.length ≠ 0 := by simpa using hne
    exact_mod_cast this
  have hs : ∀ (t : List (Entry H)) (c : ℚ), ((t.map fun e => (e.2.1, 100 * (e.2.2 : ℚ) / c)).map (·.2)).sum = 100 / c * ((t.map (·.2.2)).sum : ℕ) := by
    intro t c
    induction t with
    | nil => simp
    | cons e t ih =>
      simp only [List.map_cons, List.sum_cons, Nat.cast_add]
      rw [ih]
      ring
  constructor
  · unfold frequencies
    dsimp only
    rw [hs, C126_total]
    exact div_mul_cancel₀ _ hpos
  · intro f hf
    unfold frequencies at hf
    obtain ⟨e, he, rfl⟩ := List.mem_map.mp hf
    refine ⟨e, he, rfl, ?_⟩
    dsimp only
    rw [C126_total, (C126_lines h gs e he).2]

theorem insertion_total {t : List (ℕ × ℕ)} : (t.insertionSort fun a b => b.2 ≤ a.2).Pairwise fun a b => b.2 ≤ a.2 := by
  have : Std.Total (fun a b : ℕ × ℕ => b.2 ≤ a.2) := ⟨fun a b => le_total b.2 a.2⟩
  have : IsTrans (ℕ × ℕ) (fun a b : ℕ × ℕ => b.2 ≤ a.2) := ⟨fun a b c h1 h2 => le_trans h2 h1⟩
  exact List.pairwise_insertionSort _ _

/-- The most frequent evolutions: as many as asked for and there are, in falling order, and none left out is more
frequent than one that is given. -/
theorem C126_most (t : List (Entry H)) (k : ℕ) :
    (most t k).length = min k t.length ∧ (most t k).Pairwise (fun a b => b.2 ≤ a.2) ∧
    (∀ p ∈ most t k, ∃ e ∈ t, e.2 = p) ∧
    ∃ rest, (most t k ++ rest).Perm (t.map (·.2)) ∧ ∀ p ∈ most t k, ∀ q ∈ rest, q.2 ≤ p.2 := by
  set s := (t.map (·.2)).insertionSort fun a b => b.2 ≤ a.2 with hs
  have hp : s.Perm (t.map (·.2)) := List.perm_insertionSort _ _
  have hsort : s.Pairwise fun a b => b.2 ≤ a.2 := insertion_total
  have hm : most t k = s.take k := rfl
  refine ⟨?_, ?_, ?_, s.drop k, ?_, ?_⟩
  · rw [hm, List.length_take, hp.length_eq, List.length_map]
  · rw [hm]; exact hsort.sublist (List.take_sublist _ _)
  · intro p hpm
    rw [hm] at hpm
    have := hp.mem_iff.mp (List.mem_of_mem_take hpm)
    obtain ⟨e, he, rfl⟩ := List.mem_map.mp this
    exact ⟨e, he, rfl⟩
  · rw [hm, List.take_append_drop]; exact hp
  · intro p hpm q hq
    rw [hm] at hpm
    have h' := hsort
    rw [← List.take_append_drop k s] at h'
    exact (List.pairwise_append.mp h').2.2 p hpm q hq

/-- Only the hash is compared: two different evolutions with the same hash are counted as one. -/
theorem C126_same_hash_violated (h : List R → H) (s s' : List R) (hh : h s = h s') :
    tally h [] [(1, s), (2, s')] = [(h s, 1, 2)] := by
  simp [tally, add, hh]

/-- Three binaries in pieces of two rows, two of them with the same evolution. -/
example : Rising [[(1, 5), (1, 6)], [(2, 5), (3, 5)], [(3, 6)]].flatten ∧
    parsed [[(1, 5), (1, 6)], [(2, 5), (3, 5)], [(3, 6)]] = some [(1, [5, 6]), (2, [5]), (3, [5, 6])] ∧
    tally id [] [(1, [5, 6]), (2, [5]), (3, [5, 6])] = [([5, 6], 1, 2), ([5], 2, 1)] ∧
    most (tally id [] [(2, [5]), (1, [5, 6]), (3, [5, 6])]) 1 = [(1, 2)] := by
  refine ⟨?_, by decide +kernel, by decide +kernel, by decide +kernel⟩
  simp [Rising]

end Verif.VHCount
