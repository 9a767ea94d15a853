import Verif.ConOrder

/-!
# C72: the check of the order of constraints never reports
-/

namespace Verif.ConOrder

/-- For every table that is not empty the check ends with AttributeError before it says anything. -/
theorem C72_order_violated (fmt : Txt → ℕ → Txt) (c : Item) (l : List Item) : check fmt (c :: l) = ([], some .attribute) := by
  cases c <;> simp [check, loop, round]

theorem C72_order_empty (fmt : Txt → ℕ → Txt) : check fmt [] = ([], none) := rfl

theorem loop_dict (fmt : Txt → ℕ → Txt) (typo : Bool) : ∀ (l : List Item) (s : St), Item.dict ∈ l → (loop fmt typo s l).2 = some .attribute := by
  intro l
  induction l with
  | nil => intro s h; cases h
  | cons c l ih =>
      intro s h
      cases c with
      | dict => rfl
      | object n i d =>
          have hl : Item.dict ∈ l := by simpa using h
          unfold loop
          cases typo with
          | true => rfl
          | false => exact ih _ hl

/-- Correcting the name of the method is not enough: a table with a dictionary still ends with AttributeError. -/
theorem C72_order_dict (fmt : Txt → ℕ → Txt) (l : List Item) (h : Item.dict ∈ l) : (mended fmt l).2 = some .attribute := loop_dict fmt false l {} h

theorem loop_said (fmt : Txt → ℕ → Txt) : ∀ (l : List Item) (s : St), ∀ m ∈ s.said, m ∈ (loop fmt false s l).1.said := by
  intro l
  induction l with
  | nil => intro s m h; exact h
  | cons c l ih =>
      intro s m h
      cases c with
      | dict => exact h
      | object n i d =>
          unfold loop
          apply ih
          exact List.mem_append_left _ (List.mem_append_left _ h)

theorem loop_changed (fmt : Txt → ℕ → Txt) : ∀ (pre : List Item) (s : St) (x : Txt), Item.dict ∉ pre →
    (x ∈ s.changed ∨ ∃ n i d k, Item.object n i d ∈ pre ∧ (k = 1 ∨ k = 2) ∧ x = fmt d k) →
    (loop fmt false s pre).2 = none ∧ x ∈ (loop fmt false s pre).1.changed := by
  intro pre
  induction pre with
  | nil =>
      intro s x _ h
      rcases h with h | ⟨_, _, _, _, h, _⟩
      · exact ⟨rfl, h⟩
      · cases h
  | cons c l ih =>
      intro s x hd h
      cases c with
      | dict => exact absurd List.mem_cons_self hd
      | object n i d =>
          unfold loop
          apply ih
          · exact fun hm => hd (List.mem_cons_of_mem _ hm)
          · rcases h with h | ⟨n', i', d', k, hm, hk, rfl⟩
            · exact Or.inl (List.mem_append_left _ h)
            · rcases List.mem_cons.mp hm with he | hm
              · injection he with h1 h2 h3
                subst h3
                left
                apply List.mem_append_right
                rcases hk with rfl | rfl <;> simp
              · exact Or.inr ⟨n', i', d', k, hm, hk, rfl⟩

theorem loop_append (fmt : Txt → ℕ → Txt) : ∀ (a b : List Item) (s : St), (loop fmt false s a).2 = none →
    loop fmt false s (a ++ b) = loop fmt false (loop fmt false s a).1 b := by
  intro a
  induction a with
  | nil => intro b s _; rfl
  | cons c l ih =>
      intro b s h
      cases c with
      | dict => cases h
      | object n i d =>
          exact ih b (round fmt false s (.object n i d)).1 h

/-- With objects and the right method the check would do what it is for: a constraint that reads a column changed by an earlier one is named. -/
theorem C72_order_mended (fmt : Txt → ℕ → Txt) (pre post : List Item) (n : Txt) (i : List Txt) (d : Txt) (hpre : Item.dict ∉ pre)
    (n' : Txt) (i' : List Txt) (d' : Txt) (h : Item.object n' i' d' ∈ pre) (hd : d' ∈ i) :
    ∃ cols, Msg.changed n cols ∈ (mended fmt (pre ++ .object n i d :: post)).1 ∧ fmt d' 1 ∈ cols := by
  have h1 := loop_changed fmt pre {} (fmt d' 1) hpre (Or.inr ⟨n', i', d', 1, h, Or.inl rfl, rfl⟩)
  unfold mended
  simp only
  rw [loop_append fmt pre _ _ h1.1]
  unfold loop
  refine ⟨(loop fmt false {} pre).1.changed.filter (· ∈ i.flatMap fun c => [fmt c 1, fmt c 2]), ?_, ?_⟩
  · apply loop_said
    apply List.mem_append_left
    apply List.mem_append_right
    rw [if_pos]
    · exact List.mem_singleton.mpr rfl
    · apply List.length_pos_of_mem (a := fmt d' 1)
      rw [List.mem_filter]
      exact ⟨h1.2, by simp only [decide_eq_true_eq, List.mem_flatMap]; exact ⟨d', hd, by simp⟩⟩
  · rw [List.mem_filter]
    exact ⟨h1.2, by simp only [decide_eq_true_eq, List.mem_flatMap]; exact ⟨d', hd, by simp⟩⟩

/-- Two constraints, the second reading what the first changed. -/
example : let fmt : Txt → ℕ → Txt := fun c k => c ++ [Char.ofNat (48 + k)]
    mended fmt [.object (chars! "T") [(chars! "L"), (chars! "R")] (chars! "Teff"), .object (chars! "P") [(chars! "Teff")] (chars! "R")] =
      ([.changed (chars! "P") [(chars! "Teff1"), (chars! "Teff2")], .used (chars! "P") [(chars! "R1"), (chars! "R2")]], none) ∧
    check fmt [.object (chars! "T") [(chars! "L")] (chars! "Teff"), .dict] = ([], some .attribute) := by
  decide +kernel

end Verif.ConOrder
