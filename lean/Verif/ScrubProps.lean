import Verif.Scrub
/-!
Property theorems for C13 (`scrub`), C14 (`keep_after_RLO`), C15 (`keep_till_central_abundance_He_C`).
-/
namespace Verif.Scrub
variable {R P : Type}

/-! ### C13 -/

/-- C13.  One output per input; missing tables stay missing, others become a selection of their own rows in the original
order. -/
theorem C13_sublists (ts : List (Option (List (Rec R)))) :
    List.Forall₂ (fun i o => match i, o with
      | none, none => True
      | some l, some l' => l'.Sublist l
      | _, _ => False) ts (scrub ts) := by
  unfold scrub
  rw [List.map_map]
  generalize (common (ts.map (Option.map pass))).getD [] = c
  induction ts with
  | nil => exact .nil
  | cons t ts ih =>
    refine List.Forall₂.cons ?_ ih
    cases t with
    | none => trivial
    | some l => exact List.filter_sublist.trans (pass_sublist l)

/-- C13.  Every output table is strictly increasing in age and in model number. -/
theorem C13_monotone (ts : List (Option (List (Rec R)))) (l : List (Rec R)) (h : some l ∈ scrub ts) :
    l.Pairwise (fun a b => a.model < b.model ∧ a.age < b.age) := by
  unfold scrub at h
  simp only [List.mem_map] at h
  obtain ⟨t, ⟨t0, -, rfl⟩, h⟩ := h
  cases t0 with
  | none => cases h
  | some l0 =>
    simp only [Option.map_some, Option.some.injEq] at h
    subst h
    exact (pass_mono l0).filter _

/-- C13.  All output tables have the same model numbers row by row (so they can be used side by side). -/
theorem C13_aligned (ts : List (Option (List (Rec R)))) (l l' : List (Rec R)) (h : some l ∈ scrub ts)
    (h' : some l' ∈ scrub ts) : l.map Rec.model = l'.map Rec.model := by
  have hm := C13_monotone ts l h
  have hm' := C13_monotone ts l' h'
  have sorted : ∀ k : List (Rec R), k.Pairwise (fun a b => a.model < b.model ∧ a.age < b.age) →
      (k.map Rec.model).Pairwise (· < ·) := by
    intro k hk
    rw [List.pairwise_map]
    exact hk.imp fun h => h.1
  have mem : ∀ k, some k ∈ scrub ts → ∀ m, m ∈ k.map Rec.model ↔
      ∀ l, some l ∈ ts.map (Option.map pass) → m ∈ l.map Rec.model := by
    intro k hk m
    unfold scrub at hk
    simp only [List.mem_map] at hk
    obtain ⟨t, ⟨t0, ht0, rfl⟩, hk⟩ := hk
    cases t0 with
    | none => cases hk
    | some l0 =>
      simp only [Option.map_some, Option.some.injEq] at hk
      subst hk
      have hin : some (pass l0) ∈ ts.map (Option.map pass) := List.mem_map.2 ⟨some l0, ht0, rfl⟩
      rw [← common_spec _ _ hin m]
      constructor
      · intro h
        obtain ⟨r, hr, rfl⟩ := List.mem_map.1 h
        simpa using (List.mem_filter.1 hr).2
      · intro h
        have h2 := (common_spec _ _ hin m).1 h _ hin
        obtain ⟨r, hr, rfl⟩ := List.mem_map.1 h2
        exact List.mem_map.2 ⟨r, List.mem_filter.2 ⟨hr, by simpa using h⟩, rfl⟩
  exact (sorted l hm).eq_of_mem_iff (sorted l' hm') fun {m} => by rw [mem l h m, mem l' h' m]

/-- C13.  Nothing else is lost: within one table, the last row is kept, and a row is removed by the backward pass only if
it is not earlier (in age and model number) than the next kept row; a row kept by the pass is removed only if its model
number is missing from the selection of another table. -/
theorem C13_only_backsteps_removed (l : List (Rec R)) (a b : List (Rec R)) (r : Rec R) (hl : l = a ++ r :: b)
    (hb : b ≠ []) :
    (pass l).getLast? = l.getLast? ∧
    ∃ p k ks, pass b = k :: ks ∧ p.Sublist a ∧
      pass l = p ++ (if r.age < k.age ∧ r.model < k.model then r :: k :: ks else k :: ks) := by
  refine ⟨pass_last l, ?_⟩
  obtain ⟨p, hp, hs⟩ := pass_append a (r :: b)
  have hne := pass_ne_nil b hb
  cases hk : pass b with
  | nil => exact absurd hk hne
  | cons k ks =>
    refine ⟨p, k, ks, rfl, hs, ?_⟩
    rw [hl, hp]
    change p ++ keepRow r (pass b) = _
    rw [hk]
    rfl

theorem C13_only_unshared_removed (ts : List (Option (List (Rec R)))) (l : List (Rec R)) (hl : some l ∈ ts) :
    some ((pass l).filter (fun r => decide (∀ k ∈ ts.filterMap id, r.model ∈ (pass k).map Rec.model))) ∈ scrub ts := by
  unfold scrub
  have hin : some (pass l) ∈ ts.map (Option.map pass) := List.mem_map.2 ⟨some l, hl, rfl⟩
  refine List.mem_map.2 ⟨some (pass l), hin, ?_⟩
  simp only [Option.map_some, Option.some.injEq]
  refine List.filter_congr fun r hr => ?_
  rw [decide_eq_decide, common_spec _ _ hin]
  constructor
  · intro h k hk
    refine h (pass k) (List.mem_map.2 ⟨some k, ?_, rfl⟩)
    simpa using hk
  · intro h k hk
    obtain ⟨t, ht, he⟩ := List.mem_map.1 hk
    cases t with
    | none => cases he
    | some k0 =>
      simp only [Option.map_some, Option.some.injEq] at he
      subst he
      exact h k0 (by simpa using ht)

/-- C13.  Scrubbed tables pass unchanged: scrubbing twice is scrubbing once. -/
theorem C13_idempotent (ts : List (Option (List (Rec R)))) : scrub (scrub ts) = scrub ts := by
  have key : ∀ us : List (Option (List (Rec R))),
      (∀ l, some l ∈ us → Mono l) → (∀ l l', some l ∈ us → some l' ∈ us → l.map Rec.model = l'.map Rec.model) →
      scrub us = us := by
    intro us hm ha
    have h1 : us.map (Option.map pass) = us := by
      conv_rhs => rw [← List.map_id us]
      refine List.map_congr_left fun t ht => ?_
      cases t with
      | none => rfl
      | some l => simp [pass_of_mono l (hm l ht)]
    unfold scrub
    rw [h1]
    dsimp only
    conv_rhs => rw [← List.map_id us]
    refine List.map_congr_left fun t ht => ?_
    cases t with
    | none => rfl
    | some l =>
      simp only [Option.map_some, id, Option.some.injEq]
      rw [List.filter_eq_self]
      intro r hr
      rw [decide_eq_true_iff, common_spec us l ht]
      intro l' hl'
      rw [← ha l l' ht hl']
      exact List.mem_map.2 ⟨r, hr, rfl⟩
  exact key _ (fun l h => C13_monotone ts l h) (fun l l' h h' => C13_aligned ts l l' h h')

example : scrub [some [⟨'a', 1, 0⟩, ⟨'b', 2, 1⟩, ⟨'c', 3, 2⟩, ⟨'d', 2, 3 / 2⟩, ⟨'e', 3, 5 / 2⟩], none,
    some [⟨'x', 1, 0⟩, ⟨'y', 3, 3⟩]]
    = [some [⟨'a', 1, 0⟩, ⟨'e', 3, 5 / 2⟩], none, some [⟨'x', 1, 0⟩, ⟨'y', 3, 3⟩]] := by decide +kernel

/-! ### C14 -/

/-- The condition in words: a star for which overflow data exist fills its Roche lobe, or the rate is at least the
threshold. -/
def Transfers (c : Cols) (r : BRow P) : Prop :=
  (c.rl1 = true ∧ ∃ x, r.rl1 = some x ∧ 0 ≤ x) ∨ (c.rl2 = true ∧ ∃ x, r.rl2 = some x ∧ 0 ≤ x) ∨
    ∃ x, r.rate = some x ∧ -10 ≤ x

theorem meets_iff (c : Cols) (r : BRow P) : meets c r = true ↔ Transfers c r := by
  have hge : ∀ (x : Num) (t : ℚ), ge x t = true ↔ ∃ v, x = some v ∧ t ≤ v := by
    intro x t; cases x <;> simp [ge]
  simp only [meets, Transfers, Bool.or_eq_true, Bool.and_eq_true, hge, or_assoc]

theorem diffs_pos_iff (l : List ℚ) : (∀ d ∈ diffs l, 0 < d) ↔ l.Pairwise (· < ·) := by
  rw [← List.isChain_iff_pairwise]
  induction l with
  | nil => simp [diffs]
  | cons a l ih =>
    cases l with
    | nil => simp [diffs]
    | cons b l =>
      rw [List.isChain_cons_cons, ← ih]
      simp [diffs]

theorem diffs_nonneg (l : List ℚ) (h : l.Pairwise (· ≤ ·)) : ∀ d ∈ diffs l, 0 ≤ d := by
  induction l with
  | nil => simp [diffs]
  | cons a l ih =>
    cases l with
    | nil => simp [diffs]
    | cons b l =>
      intro d hd
      rcases List.mem_cons.1 hd with rfl | hd
      · have := (List.pairwise_cons.1 h).1 b (by simp)
        linarith
      · exact ih (List.pairwise_cons.1 h).2 d hd

theorem minOf_le (l : List ℚ) : ∀ d ∈ l, minOf l ≤ d := by
  induction l with
  | nil => simp
  | cons a l ih =>
    cases l with
    | nil => simp [minOf]
    | cons b l =>
      intro d hd
      rw [minOf]
      · rcases List.mem_cons.1 hd with rfl | hd
        · exact min_le_left _ _
        · exact (min_le_right _ _).trans (ih d hd)
      · simp

theorem minOf_mem (l : List ℚ) (h : l ≠ []) : minOf l ∈ l := by
  induction l with
  | nil => exact absurd rfl h
  | cons a l ih =>
    cases l with
    | nil => simp [minOf]
    | cons b l =>
      rw [minOf]
      · rcases min_choice a (minOf (b :: l)) with h | h
        · rw [h]; simp
        · rw [h]; exact List.mem_cons_of_mem _ (ih (by simp))
      · simp

theorem diffs_ne_nil (l : List ℚ) (h : l.length > 1) : diffs l ≠ [] := by
  match l, h with
  | a :: b :: l, _ => simp [diffs]

/-- C14.  What the function returns: `None` exactly when no row transfers mass; otherwise the tables cut at the first row
that does, with the ages of the rows moved by one common amount. -/
theorem C14_cut_at_first_transfer (sub alt : ℚ → ℚ → ℚ) (c : Cols) (rows : List (BRow P)) (h1 h2 : Option (HTab P))
    (hr : c.rate = true) (hc : c.rl1 = true ∨ c.rl2 = true) :
    (keepAfter sub alt c (some rows) h1 h2 = .ok none ↔ ∀ r ∈ rows, ¬ Transfers c r) ∧
    ∀ out, keepAfter sub alt c (some rows) h1 h2 = .ok (some out) →
      ∃ pre r post a0, rows = pre ++ r :: post ∧ (∀ q ∈ pre, ¬ Transfers c q) ∧ Transfers c r ∧
        out.1 = some ((r :: post).map fun q => { q with age := sub q.age a0 }) ∧
        out.2.1 = h1.map (fun h => shiftStar sub a0 { h with rows := h.rows.drop pre.length }) ∧
        out.2.2 = h2.map (fun h => shiftStar sub a0 { h with rows := h.rows.drop pre.length }) := by
  have hc' : (!c.rl1 && !c.rl2) = false := by rcases hc with h | h <;> simp [h]
  have zip : ∀ (l : List (BRow P)) (a0 : ℚ),
      List.zipWith (fun (r : BRow P) a => { r with age := a }) l ((l.map BRow.age).map fun a => sub a a0)
        = l.map fun q => { q with age := sub q.age a0 } := by
    intro l a0
    induction l with
    | nil => rfl
    | cons q l ih => simp only [List.map_cons, List.zipWith_cons_cons, ih]
  constructor
  · unfold keepAfter
    simp only [hr, hc', Bool.not_true, Bool.false_eq_true, if_false]
    by_cases hf : rows.findIdx (meets c) = rows.length
    · simp only [hf, if_true, true_iff]
      intro r hr hT
      have := List.findIdx_eq_length.1 hf r hr
      rw [(meets_iff c r).2 hT] at this
      cases this
    · simp only [hf, if_false]
      constructor
      · intro h
        exfalso
        split_ifs at h <;> simp at h
      · intro h
        exact absurd (List.findIdx_eq_length.2 fun r hr => by
          rw [Bool.eq_false_iff, ne_eq, meets_iff]; exact h r hr) hf
  · intro out h
    unfold keepAfter at h
    simp only [hr, hc', Bool.not_true, Bool.false_eq_true, if_false] at h
    by_cases hf : rows.findIdx (meets c) = rows.length
    · simp [hf] at h
    · simp only [hf, if_false] at h
      have hlt : rows.findIdx (meets c) < rows.length := lt_of_le_of_ne List.findIdx_le_length hf
      set n := rows.findIdx (meets c) with hn
      have hdrop : rows.drop n = rows[n] :: rows.drop (n + 1) := List.drop_eq_getElem_cons hlt
      have hlen : (rows.take n).length = n := by simp; omega
      have build : ∀ a0 : ℚ, out = (some (List.zipWith (fun r a => { r with age := a }) (rows.drop n)
            (((rows.drop n).map BRow.age).map fun a => sub a a0)),
            (h1.map fun h => shiftStar sub a0 { h with rows := h.rows.drop n }),
            (h2.map fun h => shiftStar sub a0 { h with rows := h.rows.drop n })) →
          ∃ pre r post a0, rows = pre ++ r :: post ∧ (∀ q ∈ pre, ¬ Transfers c q) ∧ Transfers c r ∧
            out.1 = some ((r :: post).map fun q => { q with age := sub q.age a0 }) ∧
            out.2.1 = h1.map (fun h => shiftStar sub a0 { h with rows := h.rows.drop pre.length }) ∧
            out.2.2 = h2.map (fun h => shiftStar sub a0 { h with rows := h.rows.drop pre.length }) := by
        intro a0 ho
        refine ⟨rows.take n, rows[n], rows.drop (n + 1), a0, ?_, ?_, ?_, ?_, ?_, ?_⟩
        · rw [← hdrop, List.take_append_drop]
        · intro q hq hT
          obtain ⟨i, hi, rfl⟩ := List.mem_iff_getElem.1 hq
          have hi' : i < n := by simp at hi; omega
          have := List.not_of_lt_findIdx (p := meets c) (xs := rows) (i := i) (by omega)
          rw [List.getElem_take] at hT
          have h2 := (meets_iff c _).2 hT
          rw [h2] at this
          cases this
        · exact (meets_iff c _).1 (List.findIdx_getElem (p := meets c) (w := hlt))
        · rw [ho, zip, hdrop]
        · rw [ho, hlen]
        · rw [ho, hlen]
      split_ifs at h
      · simp only [Except.ok.injEq, Option.some.injEq] at h
        exact build _ h.symm
      · simp only [Except.ok.injEq, Option.some.injEq] at h
        exact build _ h.symm

/-- C14.  Even with rounded subtraction the ages returned are strictly increasing, if the input ages are (otherwise
an exception is raised). -/
theorem C14_ages_increasing (sub alt : ℚ → ℚ → ℚ) (hmono : ∀ a b c, a ≤ b → sub a c ≤ sub b c) (c : Cols)
    (rows : List (BRow P)) (h1 h2 : Option (HTab P)) (hs : (rows.map BRow.age).Pairwise (· < ·))
    (out : Option (List (BRow P)) × Option (HTab P) × Option (HTab P))
    (h : keepAfter sub alt c (some rows) h1 h2 = .ok (some out)) (l : List (BRow P)) (hl : out.1 = some l) :
    (l.map BRow.age).Pairwise (· < ·) := by
  have zip : ∀ (l : List (BRow P)) (a : List ℚ), l.length = a.length →
      (List.zipWith (fun (r : BRow P) a => { r with age := a }) l a).map BRow.age = a := by
    intro l
    induction l with
    | nil => intro a h; cases a with
      | nil => rfl
      | cons => simp at h
    | cons q l ih => intro a h; cases a with
      | nil => simp at h
      | cons b a => simp only [List.zipWith_cons_cons, List.map_cons, ih a (by simpa using h)]
  unfold keepAfter at h
  dsimp only at h
  split_ifs at h with g1 g2 g3 g4 g5 g6
  · simp at h
  · simp only [Except.ok.injEq, Option.some.injEq] at h
    rw [← h] at hl
    simp only [Option.some.injEq] at hl
    rw [← hl, zip _ _ (by simp)]
    rw [← diffs_pos_iff]
    intro d hd
    by_contra hcon
    exact g6 (List.any_eq_true.2 ⟨d, hd, by simpa using hcon⟩)
  · simp only [Except.ok.injEq, Option.some.injEq] at h
    rw [← h] at hl
    simp only [Option.some.injEq] at hl
    rw [← hl, zip _ _ (by simp)]
    set n := rows.findIdx (meets c)
    have hs' : ((rows.drop n).map BRow.age).Pairwise (· < ·) := by
      rw [List.map_drop]; exact hs.sublist (List.drop_sublist _ _)
    have hle : ∀ a0 : ℚ, (((rows.drop n).map BRow.age).map fun a => sub a a0).Pairwise (· ≤ ·) := by
      intro a0
      rw [List.pairwise_map]
      exact hs'.imp fun h => hmono _ _ _ (le_of_lt h)
    rw [← diffs_pos_iff]
    generalize hA : (((rows.drop n).map BRow.age).map
      fun a => sub a (((rows.drop n).map BRow.age).headD 0)) = A at *
    have hleA : A.Pairwise (· ≤ ·) := hA ▸ hle _
    by_cases hlen : A.length > 1
    · have hne : minOf (diffs A) ≠ 0 := fun h0 => g4 ⟨hlen, h0⟩
      have hmem := minOf_mem _ (diffs_ne_nil A hlen)
      have h0 := diffs_nonneg A hleA _ hmem
      intro d hd
      have := minOf_le _ d hd
      have : 0 < minOf (diffs A) := lt_of_le_of_ne h0 (Ne.symm hne)
      linarith
    · match A, hlen with
      | [], _ => simp [diffs]
      | [a], _ => simp [diffs]
      | a :: b :: l, h => simp at h

/-- C14.  With exact subtraction and strictly increasing ages nothing is raised, and the time zero is the first
transferring row: ages become the time since then, for the stars too. -/
theorem C14_exact (alt : ℚ → ℚ → ℚ) (c : Cols) (hr : c.rate = true) (hc : c.rl1 = true ∨ c.rl2 = true)
    (pre : List (BRow P)) (r : BRow P) (post : List (BRow P)) (h1 h2 : Option (HTab P))
    (hpre : ∀ q ∈ pre, ¬ Transfers c q) (hT : Transfers c r)
    (hs : ((pre ++ r :: post).map BRow.age).Pairwise (· < ·)) :
    keepAfter (fun a b => a - b) alt c (some (pre ++ r :: post)) h1 h2 = .ok (some
      (some ((r :: post).map fun q => { q with age := q.age - r.age }),
       h1.map (fun h => shiftStar (fun a b => a - b) r.age { h with rows := h.rows.drop pre.length }),
       h2.map (fun h => shiftStar (fun a b => a - b) r.age { h with rows := h.rows.drop pre.length }))) := by
  have hc' : (!c.rl1 && !c.rl2) = false := by rcases hc with h | h <;> simp [h]
  have hf : (pre ++ r :: post).findIdx (meets c) = pre.length := by
    rw [List.findIdx_append]
    have h0 : pre.findIdx (meets c) = pre.length := List.findIdx_eq_length.2 fun q hq => by
      rw [Bool.eq_false_iff, ne_eq, meets_iff]; exact hpre q hq
    have h1 : (r :: post).findIdx (meets c) = 0 := by
      rw [List.findIdx_cons, (meets_iff c r).2 hT]; rfl
    simp [h0, h1]
  have zip : ∀ (l : List (BRow P)) (a0 : ℚ),
      List.zipWith (fun (r : BRow P) a => { r with age := a }) l ((l.map BRow.age).map fun a => a - a0)
        = l.map fun q => { q with age := q.age - a0 } := by
    intro l a0
    induction l with
    | nil => rfl
    | cons q l ih => simp only [List.map_cons, List.zipWith_cons_cons, ih]
  have hs' : ((r :: post).map BRow.age).Pairwise (· < ·) := by
    rw [List.map_append] at hs
    exact (List.pairwise_append.1 hs).2.1
  have hpos : ∀ d ∈ diffs (((r :: post).map BRow.age).map fun a => a - r.age), 0 < d := by
    rw [diffs_pos_iff, List.pairwise_map]
    exact hs'.imp fun h => by linarith
  unfold keepAfter
  simp only [hr, hc', Bool.not_true, Bool.false_eq_true, if_false, hf]
  have hne : ¬ pre.length = (pre ++ r :: post).length := by simp
  rw [if_neg hne, List.drop_left]
  have hhead : ((r :: post).map BRow.age).headD 0 = r.age := rfl
  rw [hhead, if_neg, zip]
  rintro ⟨hl, h0⟩
  have := hpos _ (minOf_mem _ (diffs_ne_nil _ hl))
  rw [h0] at this
  exact lt_irrefl _ this

/-- Errors exactly for missing columns (when the ages are strictly increasing and subtraction is exact). -/
theorem C14_missing_columns (sub alt : ℚ → ℚ → ℚ) (c : Cols) (rows : List (BRow P)) (h1 h2 : Option (HTab P)) :
    (c.rate = false → keepAfter sub alt c (some rows) h1 h2 = .error .noRate) ∧
    (c.rate = true → c.rl1 = false → c.rl2 = false → keepAfter sub alt c (some rows) h1 h2 = .error .noOverflow) := by
  constructor
  · intro h; simp [keepAfter, h]
  · intro h h1 h2; simp [keepAfter, h, h1, h2]

set_option synthInstance.maxSize 1000 in
example : keepAfter (fun a b => a - b) (fun a _ => a) ⟨true, true, true⟩
    (some [⟨'a', some (-20), some (-1), some (-1), 5⟩, ⟨'b', some (-20), some 0, none, 7⟩, ⟨'c', none, some (-1), none, 8⟩])
    (some ⟨true, [('x', 5), ('y', 7), ('z', 8)]⟩) none
    = .ok (some (some [⟨'b', some (-20), some 0, none, 0⟩, ⟨'c', none, some (-1), none, 1⟩],
        some ⟨true, [('y', 0), ('z', 1)]⟩, none)) := by decide +kernel

/-! ### C15 -/

/-- The row has central helium and carbon below the limits. -/
def Stopped (y x : ℚ) (r : SRow) : Prop := ∃ a b, r.he4 = some a ∧ r.c12 = some b ∧ a < y ∧ b < x

theorem stopRow_iff (y x : ℚ) (r : SRow) : stopRow y x r = true ↔ Stopped y x r := by
  have hlt : ∀ (v : Num) (t : ℚ), lt v t = true ↔ ∃ a, v = some a ∧ a < t := by
    intro v t; cases v <;> simp [lt]
  simp only [stopRow, Stopped, Bool.and_eq_true, hlt]
  constructor
  · rintro ⟨⟨a, ha, h1⟩, b, hb, h2⟩; exact ⟨a, b, ha, hb, h1, h2⟩
  · rintro ⟨a, b, ha, hb, h1, h2⟩; exact ⟨⟨a, ha, h1⟩, b, hb, h2⟩

/-- The star ends with the stopping criterion fulfilled. -/
def EndsStopped (y x : ℚ) (h : STab) : Prop :=
  h.hasHe = true ∧ h.hasC = true ∧ ∃ r, h.rows.getLast? = some r ∧ Stopped y x r

theorem depleted_iff (y x : ℚ) (h : STab) : depleted y x h = true ↔ EndsStopped y x h := by
  unfold depleted EndsStopped
  cases hl : h.rows.getLast? <;> simp [stopRow_iff, and_assoc]

/-- C15.  Histories of a run in which no star ends depleted are returned unchanged, without a flag; so are incomplete
ones. -/
theorem C15_untouched (y x : ℚ) (b : BTab) (s1 s2 : STab) (h1 : ¬ EndsStopped y x s1) (h2 : ¬ EndsStopped y x s2) :
    keepTill y x (some b) (some s1) (some s2) = .ok (some b, some s1, some s2, .none) := by
  rw [← depleted_iff, Bool.not_eq_true] at h1 h2
  simp [keepTill, h1, h2]

theorem C15_incomplete (y x : ℚ) (b : Option BTab) (s1 s2 : Option STab) (h : b = none ∨ s1 = none ∨ s2 = none) :
    keepTill y x b s1 s2 = .ok (b, s1, s2, .none) := by
  rcases h with rfl | rfl | rfl
  · rfl
  · cases b <;> rfl
  · cases b <;> cases s1 <;> rfl

theorem find_split (l : List SRow) (p : SRow → Bool) (pre : List SRow) (r : SRow) (post : List SRow)
    (hl : l = pre ++ r :: post) (hpre : ∀ q ∈ pre, p q = false) (hr : p r = true) : l.findIdx p = pre.length := by
  subst hl
  rw [List.findIdx_append, List.findIdx_eq_length.2 hpre]
  simp [List.findIdx_cons, hr]

/-- C15 (partial: the first depleted row must not be the last row).  If only star 1 ends depleted, the histories are cut
right after its first depleted row, and the flag says that the primary was stopped. -/
theorem C15_cut_partial (y x : ℚ) (b : BTab) (s1 s2 : STab) (hage : b.hasAge = true ∨ (s1.hasAge = true ∧ s2.hasAge = true))
    (h1 : EndsStopped y x s1) (h2 : ¬ EndsStopped y x s2) (pre : List SRow) (r : SRow) (post : List SRow)
    (hrows : s1.rows = pre ++ r :: post) (hpre : ∀ q ∈ pre, ¬ Stopped y x q) (hr : Stopped y x r)
    (hb : b.rows.length = s1.rows.length) (hpost : post ≠ []) :
    keepTill y x (some b) (some s1) (some s2) =
      .ok (some { b with rows := b.rows.take (pre.length + 1) }, some { s1 with rows := pre ++ [r] },
        some { s2 with rows := s2.rows.take (pre.length + 1) }, .primary) := by
  rw [← depleted_iff] at h1
  rw [← depleted_iff, Bool.not_eq_true] at h2
  have hf := find_split s1.rows (stopRow y x) pre r post hrows
    (fun q hq => by rw [Bool.eq_false_iff, ne_eq, stopRow_iff]; exact hpre q hq) ((stopRow_iff y x r).2 hr)
  have hA : (!(b.hasAge || (s1.hasAge && s2.hasAge))) = false := by
    rcases hage with h | ⟨h, h'⟩ <;> simp [*]
  have hlen : b.rows.length ≥ pre.length + 2 := by
    rw [hb, hrows]
    have : post.length ≠ 0 := by simpa using hpost
    simp; omega
  have htake : s1.rows.take (pre.length + 1) = pre ++ [r] := by
    rw [hrows, List.take_append]; simp
  simp [keepTill, hA, h1, h2, hf, hlen, htake]

/-- C15 (partial, same restriction), star 2. -/
theorem C15_cut_secondary_partial (y x : ℚ) (b : BTab) (s1 s2 : STab)
    (hage : b.hasAge = true ∨ (s1.hasAge = true ∧ s2.hasAge = true))
    (h1 : ¬ EndsStopped y x s1) (h2 : EndsStopped y x s2) (pre : List SRow) (r : SRow) (post : List SRow)
    (hrows : s2.rows = pre ++ r :: post) (hpre : ∀ q ∈ pre, ¬ Stopped y x q) (hr : Stopped y x r)
    (hb : b.rows.length = s2.rows.length) (hpost : post ≠ []) :
    keepTill y x (some b) (some s1) (some s2) =
      .ok (some { b with rows := b.rows.take (pre.length + 1) }, some { s1 with rows := s1.rows.take (pre.length + 1) },
        some { s2 with rows := pre ++ [r] }, .secondary) := by
  rw [← depleted_iff] at h2
  rw [← depleted_iff, Bool.not_eq_true] at h1
  have hf := find_split s2.rows (stopRow y x) pre r post hrows
    (fun q hq => by rw [Bool.eq_false_iff, ne_eq, stopRow_iff]; exact hpre q hq) ((stopRow_iff y x r).2 hr)
  have hA : (!(b.hasAge || (s1.hasAge && s2.hasAge))) = false := by
    rcases hage with h | ⟨h, h'⟩ <;> simp [*]
  have hlen : b.rows.length ≥ pre.length + 2 := by
    rw [hb, hrows]
    have : post.length ≠ 0 := by simpa using hpost
    simp; omega
  have htake : s2.rows.take (pre.length + 1) = pre ++ [r] := by
    rw [hrows, List.take_append]; simp
  simp [keepTill, hA, h1, h2, hf, hlen, htake]

/-- C15 (partial, same restriction).  If both stars end depleted and their histories are aligned in time, the cut is
right after the first depleted row of the star that is depleted first. -/
theorem C15_cut_both_partial (y x : ℚ) (b : BTab) (s1 s2 : STab) (ha1 : s1.hasAge = true) (ha2 : s2.hasAge = true)
    (h1 : EndsStopped y x s1) (h2 : EndsStopped y x s2) (pre1 post1 pre2 post2 : List SRow) (r1 r2 : SRow)
    (hrows1 : s1.rows = pre1 ++ r1 :: post1) (hpre1 : ∀ q ∈ pre1, ¬ Stopped y x q) (hr1 : Stopped y x r1)
    (hrows2 : s2.rows = pre2 ++ r2 :: post2) (hpre2 : ∀ q ∈ pre2, ¬ Stopped y x q) (hr2 : Stopped y x r2)
    (hages : s1.rows.map SRow.age = s2.rows.map SRow.age) (hinc : (s1.rows.map SRow.age).Pairwise (· < ·))
    (hb : b.rows.length ≥ min pre1.length pre2.length + 2) :
    keepTill y x (some b) (some s1) (some s2) =
      (let n := min pre1.length pre2.length + 1
       .ok (some { b with rows := b.rows.take n }, some { s1 with rows := s1.rows.take n },
        some { s2 with rows := s2.rows.take n }, if pre2.length < pre1.length then .secondary else .primary)) := by
  rw [← depleted_iff] at h1 h2
  have hf1 := find_split s1.rows (stopRow y x) pre1 r1 post1 hrows1
    (fun q hq => by rw [Bool.eq_false_iff, ne_eq, stopRow_iff]; exact hpre1 q hq) ((stopRow_iff y x r1).2 hr1)
  have hf2 := find_split s2.rows (stopRow y x) pre2 r2 post2 hrows2
    (fun q hq => by rw [Bool.eq_false_iff, ne_eq, stopRow_iff]; exact hpre2 q hq) ((stopRow_iff y x r2).2 hr2)
  have hg1 : s1.rows[pre1.length]? = some r1 := by rw [hrows1]; simp
  have hg2 : s2.rows[pre2.length]? = some r2 := by rw [hrows2]; simp
  have e1 : (s1.rows.map SRow.age)[pre1.length]? = some r1.age := by rw [List.getElem?_map, hg1]; rfl
  have e2 : (s1.rows.map SRow.age)[pre2.length]? = some r2.age := by rw [hages, List.getElem?_map, hg2]; rfl
  obtain ⟨l1, e1⟩ := List.getElem?_eq_some_iff.1 e1
  obtain ⟨l2, e2⟩ := List.getElem?_eq_some_iff.1 e2
  have hcmp : (r1.age > r2.age) ↔ pre2.length < pre1.length := by
    rw [← e1, ← e2]
    constructor
    · intro h
      by_contra hcon
      rcases Nat.lt_or_eq_of_le (Nat.not_lt.1 hcon) with h' | h'
      · have := List.pairwise_iff_getElem.1 hinc _ _ l1 l2 h'
        linarith
      · simp [h'] at h
    · intro h
      exact List.pairwise_iff_getElem.1 hinc _ _ l2 l1 h
  have hA : (!(b.hasAge || (s1.hasAge && s2.hasAge))) = false := by simp [ha1, ha2]
  by_cases hlt : pre2.length < pre1.length
  · have hm : min pre1.length pre2.length = pre2.length := by omega
    rw [hm] at hb ⊢
    simp [keepTill, hA, h1, h2, hf1, hf2, ha1, ha2, hg1, hg2, hcmp, hlt, hb]
  · have hm : min pre1.length pre2.length = pre1.length := by omega
    rw [hm] at hb ⊢
    simp [keepTill, hA, h1, h2, hf1, hf2, ha1, ha2, hg1, hg2, hcmp, hlt, hb]

def demoB : BTab := ⟨true, [1, 2, 3]⟩
def demoS : STab := ⟨true, true, true, [⟨some 1, some 0, 1⟩, ⟨some 1, some 0, 2⟩, ⟨some 0, some 0, 3⟩]⟩
def demoT : STab := ⟨true, true, true, [⟨some 1, some 0, 1⟩, ⟨some 0, some 0, 2⟩, ⟨some 0, some 0, 3⟩]⟩
def demoU : STab := ⟨true, true, true, [⟨some 1, some 0, 1⟩, ⟨some 1, some 0, 2⟩, ⟨some 1, some 0, 3⟩]⟩

example : keepTill (1 / 100) (1 / 10) (some demoB) (some demoT) (some demoU) =
    .ok (some ⟨true, [1, 2]⟩, some { demoT with rows := [⟨some 1, some 0, 1⟩, ⟨some 0, some 0, 2⟩] },
      some { demoU with rows := [⟨some 1, some 0, 1⟩, ⟨some 1, some 0, 2⟩] }, .primary) := by decide +kernel

/-- C15 is false when the first depleted row is the last row: that row is removed, so the history returned is not
depleted, although the flag says the run was stopped there. -/
theorem C15_depleted_at_end_violated :
    EndsStopped (1 / 100) (1 / 10) demoS ∧
    keepTill (1 / 100) (1 / 10) (some demoB) (some demoS) (some demoU) =
      .ok (some ⟨true, [1, 2]⟩, some { demoS with rows := [⟨some 1, some 0, 1⟩, ⟨some 1, some 0, 2⟩] },
        some { demoU with rows := [⟨some 1, some 0, 1⟩, ⟨some 1, some 0, 2⟩] }, .primary) ∧
    ¬ EndsStopped (1 / 100) (1 / 10) { demoS with rows := [⟨some 1, some 0, 1⟩, ⟨some 1, some 0, 2⟩] } := by
  refine ⟨?_, by decide +kernel, ?_⟩
  · exact ⟨rfl, rfl, _, rfl, 0, 0, rfl, rfl, by norm_num, by norm_num⟩
  · rintro ⟨-, -, r, hr, a, b, ha, -, h, -⟩
    simp at hr
    subst hr
    simp at ha
    subst ha
    norm_num at h

/-- C15 is false for a secondary without age column: although the binary history has ages, the call raises. -/
theorem C15_missing_star_age_violated :
    keepTill (1 / 100) (1 / 10) (some demoB) (some demoT) (some { demoT with hasAge := false }) = .error .missingField := by
  decide +kernel

end Verif.Scrub
