import Verif.EmptyTab

/-!
# C175: tables of grids begin empty
-/

namespace Verif.EmptyTab

/-- The names, their order, the kinds and the number of rows are those of the table given. -/
theorem C175_shape (t : Table) : (emptied t).map (·.1) = t.map (·.1) ∧ (emptied t).map (fun p => kind p.2) = t.map (fun p => kind p.2) ∧
    (emptied t).map (fun p => size p.2) = t.map (fun p => size p.2) := by
  unfold emptied
  refine ⟨?_, ?_, ?_⟩ <;> rw [List.map_map] <;> apply List.map_congr_left <;> rintro ⟨n, c⟩ _ <;> cases c <;> simp [empty, kind, size]

/-- Numbers of 64 bits are all undefined. -/
theorem C175_numbers (t : Table) (n : Txt) (v : List (Option ℚ)) (h : (n, Col.f8 v) ∈ emptied t) : ∀ x ∈ v, x = none := by
  obtain ⟨⟨m, c⟩, _, hp⟩ := List.mem_map.mp h
  cases c with
  | f8 w =>
      simp only [empty, Prod.mk.injEq, Col.f8.injEq] at hp
      rw [← hp.2]; intro x hx
      obtain ⟨_, _, hx⟩ := List.mem_map.mp hx
      exact hx.symm
  | _ => simp [empty] at hp

/-- Texts of fixed length are all the text of an undefined number, as far as it fits. -/
theorem C175_texts (t : Table) (n : Txt) (w : ℕ) (v : List Txt) (h : (n, Col.text w v) ∈ emptied t) :
    ∀ x ∈ v, x <+: (chars! "nan") ∧ x.length = min w 3 := by
  obtain ⟨⟨m, c⟩, _, hp⟩ := List.mem_map.mp h
  cases c with
  | text w' v' =>
      simp only [empty, Prod.mk.injEq, Col.text.injEq] at hp
      obtain ⟨_, hw, hv⟩ := hp
      subst hw
      rw [← hv]; intro x hx
      obtain ⟨_, _, hx⟩ := List.mem_map.mp hx
      subst hx
      exact ⟨List.take_prefix _ _, by simp [nanText]⟩
  | _ => simp [empty] at hp

/-- Of a table whose columns are all of these two kinds nothing is left: two tables of the same shape give the same. -/
theorem C175_nothing_left_partial : ∀ (t u : Table), (∀ p ∈ t, Covered p.2) →
    t.map (fun p => (p.1, kind p.2, size p.2)) = u.map (fun p => (p.1, kind p.2, size p.2)) → emptied t = emptied u
  | [], [], _, _ => rfl
  | [], _ :: _, _, h => by simp at h
  | _ :: _, [], _, h => by simp at h
  | (n, c) :: t, (m, d) :: u, hc, h => by
      simp only [List.map_cons, List.cons.injEq, Prod.mk.injEq] at h
      obtain ⟨⟨hn, hk, hs⟩, h⟩ := h
      have ih := C175_nothing_left_partial t u (fun p hp => hc p (List.mem_cons_of_mem _ hp)) h
      have h0 : Covered c := hc (n, c) List.mem_cons_self
      unfold emptied at ih ⊢
      simp only [List.map_cons]
      rw [ih]
      subst hn
      have : empty c = empty d := by
        cases c <;> cases d <;> simp_all [kind, size, empty, Covered, List.map_const']
      rw [this]

/-- Other columns keep what was in the table given: numbers of 32 bits, integers, and the texts of grids, which are objects. -/
theorem C175_kept (t : Table) (n : Txt) (c : Col) (h : ¬ Covered c) : (n, c) ∈ emptied t ↔ (n, c) ∈ t := by
  have hk : ∀ d : Col, empty d = c ↔ d = c := by
    intro d
    constructor
    · intro hd
      cases d <;> simp only [empty] at hd
      · exact absurd (Or.inl (by rw [← hd]; rfl)) h
      · exact hd
      · exact hd
      · exact absurd (Or.inr ⟨_, by rw [← hd]; rfl⟩) h
      · exact hd
    · intro hd
      subst hd
      cases d with
      | f8 v => exact absurd (Or.inl rfl) h
      | text w v => exact absurd (Or.inr ⟨w, rfl⟩) h
      | _ => rfl
  unfold emptied
  rw [List.mem_map]
  constructor
  · rintro ⟨⟨m, d⟩, hm, he⟩
    simp only [Prod.mk.injEq] at he
    obtain ⟨h1, h2⟩ := he
    rw [hk] at h2
    subst h1; subst h2; exact hm
  · intro hm
    exact ⟨(n, c), hm, by simp only [Prod.mk.injEq, true_and]; exact (hk c).mpr rfl⟩

/-- Emptying twice is emptying once. -/
theorem C175_twice (t : Table) : emptied (emptied t) = emptied t := by
  unfold emptied
  rw [List.map_map]
  apply List.map_congr_left
  rintro ⟨n, c⟩ _
  cases c <;> simp [empty]

/-- The documentation promises undefined numbers and empty texts: texts are not empty, and numbers of 32 bits are not undefined. -/
theorem C175_empty_violated :
    (∃ t v x, (chars! "state", Col.text 8 v) ∈ emptied t ∧ x ∈ v ∧ x ≠ []) ∧ ∃ t v x, (chars! "m", Col.f4 v) ∈ emptied t ∧ some x ∈ v := by
  refine ⟨⟨[((chars! "state"), .text 8 [(chars! "H-rich")])], [(chars! "nan")], (chars! "nan"), by decide +kernel, by decide +kernel, by decide +kernel⟩,
    ⟨[((chars! "m"), .f4 [some 1])], [some 1], 1, by decide +kernel, by decide +kernel⟩⟩

/-- A text column with entries is never empty after the call, unless it cannot hold any character. -/
theorem C175_not_empty (t : Table) (n : Txt) (w : ℕ) (v : List Txt) (h : (n, Col.text w v) ∈ emptied t) (hw : 0 < w) : ∀ x ∈ v, x ≠ [] := by
  intro x hx hn
  have := (C175_texts t n w v h x hx).2
  rw [hn] at this
  simp at this
  omega

/-- Two rows with a mass, a flag and a text. -/
example : emptied [((chars! "mass"), .f8 [some 1, some 2]), ((chars! "flag"), .object [none, some (chars! "max_age")]), ((chars! "state"), .text 2 [(chars! "BH"), (chars! "NS")])] =
    [((chars! "mass"), .f8 [none, none]), ((chars! "flag"), .object [none, some (chars! "max_age")]), ((chars! "state"), .text 2 [(chars! "na"), (chars! "na")])] := by
  decide +kernel

example : Covered (.f8 [some 1]) ∧ Covered (.text 3 []) ∧ ¬ Covered (.object [none]) := by
  refine ⟨Or.inl rfl, Or.inr ⟨3, rfl⟩, ?_⟩
  rintro (h | ⟨w, h⟩) <;> cases h

end Verif.EmptyTab
