import Verif.ProfBounds
import Verif.ProfTrainProps
import Verif.ProfPredProps
/-!
Properties of the training of composition profiles (C100, continued).
-/
namespace Verif.ProfBounds

open ProfTrain (bounds)
open ProfPred (Name)

/-- The number of boundaries that the prediction of a state reads. -/
def outs (st : Name) : ℕ := if st ∈ burning then 4 else if st ∈ depleted then 3 else 2

theorem bounds_range {p : ℕ → ℚ} {q : ℚ × ℚ} (h : bounds p = some q) : (1 / 200 ≤ q.1 ∧ q.1 ≤ 199 / 200) ∧ (1 / 200 ≤ q.2 ∧ q.2 ≤ 199 / 200) ∧ q.1 ≤ q.2 := by
  obtain ⟨h0, h1, h2, i, j, hi, hj, _⟩ := (ProfTrain.C101_bounds p).2 q.1 q.2 h
  have cast : ∀ {n : ℕ} {b : ℚ}, b = ((n : ℚ) + 1) / 200 → b < 1 → 1 / 200 ≤ b ∧ b ≤ 199 / 200 := by
    intro n b e hb
    have hn : (n : ℚ) + 1 < 200 := by
      rw [e] at hb
      linarith
    have hn' : n + 1 < 200 := by exact_mod_cast hn
    have h3 : (n : ℚ) + 1 ≤ 199 := by exact_mod_cast Nat.lt_succ_iff.mp hn'
    have h4 : (0 : ℚ) ≤ n := Nat.cast_nonneg n
    rw [e]
    constructor <;> linarith
  exact ⟨cast hi (lt_of_le_of_lt h1 h2), cast hj h2, h1⟩

theorem fold_lt (p : ℕ → ℚ) (l : List ℕ) (m : ℕ) (hm : m < 199) (hl : ∀ k ∈ l, k < 199) :
    l.foldl (fun m k => if p (k + 1) - p k > p (m + 1) - p m then k else m) m < 199 := by
  induction l generalizing m with
  | nil => exact hm
  | cons a l ih =>
    rw [List.foldl_cons]
    apply ih _ _ fun k hk => hl k (List.mem_cons_of_mem _ hk)
    split
    · exact hl a (by simp)
    · exact hm

theorem steepest_lt (p : ℕ → ℚ) : steepest p < 199 := fold_lt p _ 0 (by decide) fun k hk => List.mem_range.mp hk

theorem fold_max (p : ℕ → ℚ) (l : List ℕ) (m : ℕ) : ∀ k ∈ m :: l,
    p (k + 1) - p k ≤ p (l.foldl (fun m k => if p (k + 1) - p k > p (m + 1) - p m then k else m) m + 1) -
      p (l.foldl (fun m k => if p (k + 1) - p k > p (m + 1) - p m then k else m) m) := by
  induction l generalizing m with
  | nil => intro k hk; rw [List.mem_singleton.mp hk]; exact le_rfl
  | cons a l ih =>
    intro k hk
    rw [List.foldl_cons]
    by_cases ha : p (a + 1) - p a > p (m + 1) - p m
    · rw [if_pos ha]
      rcases List.mem_cons.mp hk with rfl | hk
      · exact ha.le.trans (ih a a (by simp))
      · exact ih a k hk
    · rw [if_neg ha]
      rcases List.mem_cons.mp hk with rfl | hk
      · exact ih k k (by simp)
      · rcases List.mem_cons.mp hk with rfl | hk
        · exact (not_lt.mp ha).trans (ih m m (by simp))
        · exact ih m k (List.mem_cons_of_mem _ hk)

theorem steepest_max (p : ℕ → ℚ) (k : ℕ) (hk : k < 199) : p (k + 1) - p k ≤ p (steepest p + 1) - p (steepest p) :=
  fold_max p _ 0 k (List.mem_cons_of_mem _ (List.mem_range.mpr hk))

/-- C100: whatever the profiles are, the boundaries a network is trained for are as many as its prediction reads and lie inside the star, where the outputs of networks
lie as well; those of a bevel come in order. -/
theorem C100_targets {I : Type} (st : Name) (b : Star I) (t : List ℚ) (h : target st b = some t) :
    t.length = outs st ∧ (∀ x ∈ t, 1 / 200 ≤ x ∧ x ≤ 199 / 200) ∧
    (st ∉ depleted → ∀ x y, t[0]? = some x → t[1]? = some y → x ≤ y) ∧
    (st ∈ depleted → ∀ x y, t[1]? = some x → t[2]? = some y → x ≤ y) ∧
    (st ∈ burning → ∀ x y, t[2]? = some x → t[3]? = some y → x ≤ y) := by
  have sb : ∀ s ∈ shell, s ∉ burning ∧ s ∉ depleted := by decide
  have bd : ∀ s ∈ burning, s ∉ depleted := by decide
  have db : ∀ s ∈ depleted, s ∉ burning := by decide
  unfold target at h
  by_cases h1 : st ∈ shell
  · rw [if_pos h1] at h
    obtain ⟨q, hq, rfl⟩ := Option.map_eq_some_iff.mp h
    obtain ⟨r1, r2, r3⟩ := bounds_range hq
    refine ⟨by rw [outs, if_neg (sb st h1).1, if_neg (sb st h1).2]; rfl, ?_, ?_, fun hd => absurd hd (sb st h1).2, fun hb => absurd hb (sb st h1).1⟩
    · intro x hx
      simp only [List.mem_cons, List.not_mem_nil, or_false] at hx
      rcases hx with rfl | rfl
      · exact r1
      · exact r2
    · intro _ x y hx hy
      cases hx; cases hy
      exact r3
  rw [if_neg h1] at h
  by_cases h2 : st ∈ burning
  · rw [if_pos h2] at h
    split at h
    · rename_i p q hp hq
      injection h with h
      subst h
      obtain ⟨r1, r2, r3⟩ := bounds_range hp
      obtain ⟨s1, s2, s3⟩ := bounds_range hq
      refine ⟨by rw [outs, if_pos h2]; rfl, ?_, ?_, fun hd => absurd h2 (db st hd), ?_⟩
      · intro x hx
        simp only [List.mem_cons, List.not_mem_nil, or_false] at hx
        rcases hx with rfl | rfl | rfl | rfl
        exacts [r1, r2, s1, s2]
      · intro _ x y hx hy
        cases hx; cases hy
        exact r3
      · intro _ x y hx hy
        cases hx; cases hy
        exact s3
    · cases h
  rw [if_neg h2] at h
  by_cases h3 : st ∈ depleted
  · rw [if_pos h3] at h
    obtain ⟨q, hq, rfl⟩ := Option.map_eq_some_iff.mp h
    obtain ⟨r1, r2, r3⟩ := bounds_range hq
    refine ⟨by rw [outs, if_neg h2, if_pos h3]; rfl, ?_, fun hn => absurd h3 hn, ?_, fun hb => absurd hb h2⟩
    · intro x hx
      simp only [List.mem_cons, List.not_mem_nil, or_false] at hx
      rcases hx with rfl | rfl | rfl
      · have a : ((steepest b.h : ℕ) : ℚ) + 1 ≤ 199 := by exact_mod_cast steepest_lt b.h
        have c : (0 : ℚ) ≤ (steepest b.h : ℕ) := Nat.cast_nonneg _
        constructor <;> linarith
      · exact r1
      · exact r2
    · intro _ x y hx hy
      cases hx; cases hy
      exact r3
  rw [if_neg h3] at h
  obtain ⟨q, hq, rfl⟩ := Option.map_eq_some_iff.mp h
  obtain ⟨r1, r2, r3⟩ := bounds_range hq
  refine ⟨by rw [outs, if_neg h2, if_neg h3]; rfl, ?_, ?_, fun hd => absurd hd h3, fun hb => absurd hb h2⟩
  · intro x hx
    simp only [List.mem_cons, List.not_mem_nil, or_false] at hx
    rcases hx with rfl | rfl
    · exact r1
    · exact r2
  · intro _ x y hx hy
    cases hx; cases hy
    exact r3

/-- A state that training cannot handle: there are training data, but none for validation of boundaries in two arrays, or only flat profiles. -/
def Stuck {I : Type} (train valid : List (Star I)) (s : Name) : Prop :=
  (∃ b ∈ train, b.st = s) ∧ ((s ∈ burning ++ depleted ∧ ∀ b ∈ valid, b.st ≠ s) ∨ ∀ b ∈ train, b.st = s → target s b = none)

theorem filter_nil {I : Type} (l : List (Star I)) (s : Name) : (l.filter fun b => decide (b.st = s)) = [] ↔ ∀ b ∈ l, b.st ≠ s := by
  rw [List.filter_eq_nil_iff]
  simp only [decide_eq_true_eq, ne_eq]

theorem pairs_nil {I : Type} (l : List (Star I)) (s : Name) : pairs s l = [] ↔ ∀ b ∈ l, b.st = s → target s b = none := by
  unfold pairs
  rw [List.filterMap_eq_nil_iff]
  simp only [List.mem_filter, decide_eq_true_eq, Option.map_eq_none_iff, and_imp]

theorem learn_fails {I : Type} (fit : Name → List (I × List ℚ) → I → List ℚ) (train valid : List (Star I)) (l : List Name) :
    (∃ e, learn fit train valid l = .error e) ↔ ∃ s ∈ l, Stuck train valid s := by
  induction l with
  | nil => simp [learn]
  | cons s r ih =>
    rw [learn]
    by_cases h1 : (train.filter fun b => decide (b.st = s)) = []
    · rw [if_pos h1, ih]
      have hs : ¬ Stuck train valid s := fun ⟨⟨b, hb, e⟩, _⟩ => (filter_nil train s).mp h1 b hb e
      simp only [List.mem_cons, exists_eq_or_imp, hs, false_or]
    rw [if_neg h1]
    have ht : ∃ b ∈ train, b.st = s := by
      by_contra hn
      exact h1 ((filter_nil train s).mpr fun b hb e => hn ⟨b, hb, e⟩)
    by_cases h2 : (valid.filter fun b => decide (b.st = s)) = [] ∧ s ∈ burning ++ depleted
    · rw [if_pos h2]
      exact ⟨fun _ => ⟨s, by simp, ht, Or.inl ⟨h2.2, (filter_nil valid s).mp h2.1⟩⟩, fun _ => ⟨_, rfl⟩⟩
    rw [if_neg h2]
    by_cases h3 : pairs s train = []
    · rw [if_pos h3]
      exact ⟨fun _ => ⟨s, by simp, ht, Or.inr ((pairs_nil train s).mp h3)⟩, fun _ => ⟨_, rfl⟩⟩
    rw [if_neg h3]
    have hs : ¬ Stuck train valid s := by
      rintro ⟨_, ⟨a, b⟩ | a⟩
      · exact h2 ⟨(filter_nil valid s).mpr b, a⟩
      · exact h3 ((pairs_nil train s).mpr a)
    simp only [List.mem_cons, exists_eq_or_imp, hs, false_or]
    rw [← ih]
    cases learn fit train valid r with
    | error e => exact ⟨fun _ => ⟨e, rfl⟩, fun _ => ⟨e, rfl⟩⟩
    | ok ms =>
      constructor
      · rintro ⟨e, h⟩
        cases h
      · rintro ⟨e, h⟩
        cases h

/-- C100: training fails exactly if one of the ten states with a network has training data, but only flat profiles, or, for a star that is hydrogen-rich and has burnt
its hydrogen, no validation data. -/
theorem C100_training {I : Type} (fit : Name → List (I × List ℚ) → I → List ℚ) (train valid : List (Star I)) :
    (∃ e, learn fit train valid learnt = .error e) ↔ ∃ s ∈ learnt, Stuck train valid s := learn_fails fit train valid learnt

theorem learn_ok {I : Type} (fit : Name → List (I × List ℚ) → I → List ℚ) (train valid : List (Star I)) (l : List Name) (ms : List (Name × (I → List ℚ)))
    (h : learn fit train valid l = .ok ms) :
    ms = (l.filter fun s => train.any fun b => decide (b.st = s)).map fun s => (s, fit s (pairs s train)) := by
  induction l generalizing ms with
  | nil => cases h; rfl
  | cons s r ih =>
    rw [learn] at h
    by_cases h1 : (train.filter fun b => decide (b.st = s)) = []
    · rw [if_pos h1] at h
      rw [List.filter_cons_of_neg, ih ms h]
      simp only [List.any_eq_true, decide_eq_true_eq, not_exists, not_and]
      exact (filter_nil train s).mp h1
    rw [if_neg h1] at h
    split at h
    · cases h
    split at h
    · cases h
    have ht : (train.any fun b => decide (b.st = s)) = true := by
      by_contra hn
      refine h1 ((filter_nil train s).mpr fun b hb e => hn ?_)
      exact List.any_eq_true.mpr ⟨b, hb, decide_eq_true e⟩
    cases hr : learn fit train valid r with
    | error e => rw [hr] at h; cases h
    | ok m =>
      rw [hr] at h
      injection h with h
      subst h
      rw [List.filter_cons, if_pos ht, List.map_cons, ← ih m hr]

/-- C100: after training, the states with a network are those of the ten that have training data, each has one, and it is trained on exactly the binaries of this
state with a profile that is not flat. -/
theorem C100_learnt {I : Type} (fit : Name → List (I × List ℚ) → I → List ℚ) (train valid : List (Star I)) (ms : List (Name × (I → List ℚ)))
    (h : learn fit train valid learnt = .ok ms) :
    (∀ s, s ∈ ms.map (·.1) ↔ s ∈ learnt ∧ ∃ b ∈ train, b.st = s) ∧ (ms.map (·.1)).Nodup ∧
    ∀ m ∈ ms, ∃ data, m.2 = fit m.1 data ∧ data ≠ [] ∧ ∀ d, d ∈ data ↔ ∃ b ∈ train, b.st = m.1 ∧ ∃ t, target m.1 b = some t ∧ d = (b.x, t) := by
  have hm := learn_ok fit train valid learnt ms h
  have hk : ms.map (·.1) = learnt.filter fun s => train.any fun b => decide (b.st = s) := by
    rw [hm, List.map_map]
    exact List.map_id _
  refine ⟨fun s => ?_, ?_, fun m hmem => ?_⟩
  · rw [hk, List.mem_filter, List.any_eq_true]
    simp only [decide_eq_true_eq]
  · rw [hk]
    exact List.Nodup.filter _ (by decide)
  · rw [hm] at hmem
    obtain ⟨s, hs, rfl⟩ := List.mem_map.mp hmem
    refine ⟨pairs s train, rfl, fun e => ?_, fun d => ?_⟩
    · have hs' := List.mem_filter.mp hs
      obtain ⟨b, hb, hbs⟩ := List.any_eq_true.mp hs'.2
      have := (learn_fails fit train valid learnt).mpr ⟨s, hs'.1, ⟨b, hb, decide_eq_true_eq.mp hbs⟩, Or.inr ((pairs_nil train s).mp e)⟩
      obtain ⟨x, hx⟩ := this
      rw [hx] at h
      cases h
    · unfold pairs
      simp only [List.mem_filterMap, List.mem_filter, decide_eq_true_eq, Option.map_eq_some_iff, and_assoc]
      exact ⟨fun ⟨b, hb, e, t, ht, hd⟩ => ⟨b, hb, e, t, ht, hd.symm⟩, fun ⟨b, hb, e, t, ht, hd⟩ => ⟨b, hb, e, t, ht, hd.symm⟩⟩

theorem flat_states : ∀ st ∈ ProfPred.states, st ∉ learnt → st = (chars! "stripped_He_non_burning") ∨ (ProfPred.contains (chars! "stripped_He_C") st = false ∧
    (st ∈ [(chars! "H-rich_non_burning"), (chars! "None")] ∨ st ∈ [(chars! "WD"), (chars! "NS"), (chars! "BH")])) := by decide

/-- C100: a prediction asks for a network that exists only: for a state without one, because it has no training data or is none of the ten, it does not depend on
what networks give. -/
theorem C100_available {I : Type} (fit : Name → List (I × List ℚ) → I → List ℚ) (train valid : List (Star I)) (ms : List (Name × (I → List ℚ)))
    (h : learn fit train valid learnt = .ok ms) (st : Name) (hst : st ∉ ms.map (·.1)) (e : ProfPred.Ends) (net net' : Name → ℕ → ℚ) :
    ProfPred.predict (fun s => train.any fun b => decide (b.st = s)) net e st = ProfPred.predict (fun s => train.any fun b => decide (b.st = s)) net' e st := by
  unfold ProfPred.predict
  dsimp only
  by_cases h0 : st ∉ ProfPred.states
  · rw [if_pos h0, if_pos h0]
  rw [if_neg h0, if_neg h0]
  by_cases h1 : (train.any fun b => decide (b.st = st)) = false
  · rw [if_pos h1, if_pos h1]
  rw [if_neg h1, if_neg h1]
  have hl : st ∉ learnt := by
    intro hl
    refine hst (((C100_learnt fit train valid ms h).1 st).mpr ⟨hl, ?_⟩)
    rw [Bool.not_eq_false] at h1
    obtain ⟨b, hb, hb'⟩ := List.any_eq_true.mp h1
    exact ⟨b, hb, decide_eq_true_eq.mp hb'⟩
  rcases flat_states st (not_not.mp h0) hl with h2 | ⟨h2, h3⟩
  · rw [if_pos h2, if_pos h2]
  · by_cases h4 : st = (chars! "stripped_He_non_burning")
    · rw [if_pos h4, if_pos h4]
    have h2' : ¬ (ProfPred.contains (chars! "stripped_He_C") st = true) := by rw [h2]; decide
    rw [if_neg h4, if_neg h4, if_neg h2', if_neg h2']
    by_cases h5 : st ∈ [(chars! "H-rich_non_burning"), (chars! "None")]
    · rw [if_pos h5, if_pos h5]
    · have h6 := h3.resolve_left h5
      rw [if_neg h5, if_neg h5, if_pos h6, if_pos h6]

theorem idx_cell (k : ℕ) : ProfPred.idx ((k : ℚ) / 200) = k := by
  unfold ProfPred.idx
  rw [div_mul_cancel₀ _ (by norm_num : (200 : ℚ) ≠ 0), Int.floor_natCast, Int.toNat_natCast]

/-- C100: for a star that has burnt its helium, hydrogen with one step up at any cell is predicted exactly, cell by cell, if the network gives the boundary it was
trained for and the interpolator the values at both ends. -/
theorem C100_step {I : Type} (st : Name) (hst : st ∈ depleted) (b : Star I) (m : ℕ) (hm : 0 < m) (hm' : m < 200) (c s : ℚ) (hcs : c < s)
    (hstep : ∀ k < 200, b.h k = if k < m then c else s) (t : List ℚ) (ht : target st b = some t)
    (train : Name → Bool) (htr : train st = true) (net : Name → ℕ → ℚ) (hnet : ∀ i x, t[i]? = some x → net st i = x)
    (e : ProfPred.Ends) (hc : e.cH = b.h 0) (hs : e.sH = b.h 199) (h : ℕ → ℚ) (he : ProfPred.Prof)
    (hp : ProfPred.predict train net e st = .ok (some h, he)) : ∀ k < 200, h k = b.h k := by
  have hd : ∀ s ∈ depleted, s ∉ shell ∧ s ∉ burning ∧ s ∈ ProfPred.states ∧ s ≠ (chars! "stripped_He_non_burning") ∧
      ProfPred.contains (chars! "stripped_He_C") s = false ∧ s ∉ [(chars! "H-rich_non_burning"), (chars! "None")] ∧
      s ∉ [(chars! "WD"), (chars! "NS"), (chars! "BH")] := by decide
  obtain ⟨d1, d2, d3, d4, d5, d6, d7⟩ := hd st hst
  have hsteep : steepest b.h + 1 = m := by
    have h1 := steepest_max b.h (m - 1) (by omega)
    have h2 := steepest_lt b.h
    rw [Nat.sub_add_cancel hm, hstep m hm', hstep (m - 1) (by omega), if_neg (lt_irrefl m), if_pos (by omega)] at h1
    by_contra hne
    rw [hstep _ (by omega), hstep _ (by omega)] at h1
    by_cases h3 : steepest b.h + 1 < m
    · rw [if_pos h3, if_pos (by omega)] at h1
      linarith
    · rw [if_neg h3, if_neg (by omega)] at h1
      linarith
  have hb0 : net st 0 = (m : ℚ) / 200 := by
    unfold target at ht
    rw [if_neg d1, if_neg d2, if_pos hst] at ht
    obtain ⟨q, _, rfl⟩ := Option.map_eq_some_iff.mp ht
    rw [hnet 0 (((steepest b.h : ℚ) + 1) / 200) rfl, ← hsteep]
    push_cast
    rfl
  unfold ProfPred.predict at hp
  dsimp only at hp
  rw [if_neg (not_not.mpr d3), if_neg (by rw [htr]; decide), if_neg d4, if_neg (by rw [d5]; decide), if_neg d6, if_neg d7, if_pos (show st ∈ [(chars! "H-rich_Core_He_depleted"), (chars! "H-rich_Core_C_depleted")] from hst)] at hp
  intro k hk
  split at hp
  · cases hp
  · injection hp with hp
    injection hp with hp1 hp2
    injection hp1 with hp1
    rw [← hp1, hb0, idx_cell, hstep k hk, hs, hc, hstep 0 (by omega), hstep 199 (by omega), if_pos hm]
    dsimp only
    by_cases hmk : m ≤ k
    · rw [if_pos hmk, if_neg (by omega), if_neg (by omega)]
    · rw [if_neg hmk, if_pos (by omega)]

/-! A case and a failure -/

/-- A star with a step of hydrogen at a cell, with helium below, and carbon in the inner cells. -/
def giant (x m : ℕ) : Star ℕ :=
  ⟨x, fun k => if k < m then 0 else 7 / 10, fun k => if k < 40 then 0 else if k < 50 then (k - 39 : ℚ) * 98 / 1000 else if k < m then 98 / 100 else 28 / 100,
    (chars! "H-rich_Core_He_depleted")⟩

def nets (_ : Name) (data : List (ℕ × List ℚ)) (x : ℕ) : List ℚ :=
  match data.find? fun p => decide (p.1 = x) with
  | some p => p.2
  | none => []

example : (learn nets [giant 1 120, giant 2 90] [giant 3 100] learnt).toOption.map (fun ms => ms.map fun m => (m.1, m.2 1, m.2 2)) =
    some [((chars! "H-rich_Core_He_depleted"), [120 / 200, 40 / 200, 49 / 200], [90 / 200, 40 / 200, 49 / 200])] := by decide +kernel

/-- C100 fails: a state with training data but no validation data, such as a rare one, stops the training for all states. -/
theorem C100_rare_violated {I : Type} (fit : Name → List (I × List ℚ) → I → List ℚ) (train valid : List (Star I)) (s : Name) (hs : s ∈ burning ++ depleted)
    (ht : ∃ b ∈ train, b.st = s) (hv : ∀ b ∈ valid, b.st ≠ s) : ∃ e, learn fit train valid learnt = .error e := by
  have hl : ∀ s ∈ burning ++ depleted, s ∈ learnt := by decide
  exact (C100_training fit train valid).mpr ⟨s, hl s hs, ht, Or.inl ⟨hs, hv⟩⟩

example : (learn nets [giant 1 120, giant 2 90] [] learnt) = .error .index := by rfl

/-- C100 fails: a profile with one step of the sum of hydrogen and helium is trained for two equal boundaries, for which prediction then fails: training and
prediction disagree on the shape. -/
theorem C100_one_step_violated : ∃ (b : Star ℕ) (t : List ℚ) (net : Name → ℕ → ℚ) (e : ProfPred.Ends),
    target (chars! "stripped_He_Core_He_burning") b = some t ∧ (∀ i x, t[i]? = some x → net (chars! "stripped_He_Core_He_burning") i = x) ∧
    e.cHe = b.he 0 ∧ e.sHe = b.he 199 ∧
    ProfPred.predict (fun _ => true) net e (chars! "stripped_He_Core_He_burning") = .error .assertion := by
  refine ⟨⟨1, fun _ => 0, fun k => if k < 100 then 1 / 2 else 9 / 10, (chars! "stripped_He_Core_He_burning")⟩, [1 / 2, 1 / 2], fun _ _ => 1 / 2,
    ⟨0, 0, 1 / 2, 9 / 10⟩, by decide +kernel, ?_, by norm_num, by norm_num, ?_⟩
  · intro i x h
    match i with
    | 0 => cases h; rfl
    | 1 => cases h; rfl
    | n + 2 => simp at h
  · unfold ProfPred.predict
    dsimp only
    rw [if_neg (by decide), if_neg (by decide), if_neg (by decide), if_pos (by decide), ProfPred.bevel, if_pos (by norm_num)]

/-- What the networks of each state are trained for, by name: the edges of hydrogen for stars burning hydrogen; those of hydrogen and of the sum of hydrogen and helium for giants
burning helium or carbon; the steepest rise of hydrogen and the edges of the sum for depleted giants; the edges of helium for all others. -/
theorem C100_which {I : Type} (b : Star I) (t : List ℚ) :
    (∀ st ∈ [(chars! "H-rich_Shell_H_burning"), (chars! "H-rich_Core_H_burning")], target st b = some t ↔ ∃ p, bounds b.h = some p ∧ t = [p.1, p.2]) ∧
    (∀ st ∈ [(chars! "H-rich_Core_He_burning"), (chars! "H-rich_Core_C_burning")], target st b = some t ↔
      ∃ p q, bounds b.h = some p ∧ bounds (fun k => b.h k + b.he k) = some q ∧ t = [p.1, p.2, q.1, q.2]) ∧
    (∀ st ∈ [(chars! "H-rich_Core_He_depleted"), (chars! "H-rich_Core_C_depleted")], target st b = some t ↔
      ∃ q, bounds (fun k => b.h k + b.he k) = some q ∧ t = [((steepest b.h : ℚ) + 1) / 200, q.1, q.2]) ∧
    (∀ st, st ∉ [(chars! "H-rich_Shell_H_burning"), (chars! "H-rich_Core_H_burning"), (chars! "H-rich_Core_He_burning"), (chars! "H-rich_Core_C_burning"),
      (chars! "H-rich_Core_He_depleted"), (chars! "H-rich_Core_C_depleted")] → (target st b = some t ↔ ∃ p, bounds b.he = some p ∧ t = [p.1, p.2])) := by
  have n1 : ∀ st ∈ [(chars! "H-rich_Core_He_burning"), (chars! "H-rich_Core_C_burning")], st ∉ shell ∧ st ∈ burning := by decide
  have n2 : ∀ st ∈ [(chars! "H-rich_Core_He_depleted"), (chars! "H-rich_Core_C_depleted")], st ∉ shell ∧ st ∉ burning ∧ st ∈ depleted := by decide
  have n0 : ∀ st ∈ [(chars! "H-rich_Shell_H_burning"), (chars! "H-rich_Core_H_burning")], st ∈ shell := by decide
  have n3 : ∀ st ∈ shell ++ burning ++ depleted, st ∈ [(chars! "H-rich_Shell_H_burning"), (chars! "H-rich_Core_H_burning"), (chars! "H-rich_Core_He_burning"),
      (chars! "H-rich_Core_C_burning"), (chars! "H-rich_Core_He_depleted"), (chars! "H-rich_Core_C_depleted")] := by decide
  refine ⟨fun st h => ?_, fun st h => ?_, fun st h => ?_, fun st h => ?_⟩
  · unfold target
    rw [if_pos (n0 st h), Option.map_eq_some_iff]
    exact ⟨fun ⟨p, h1, h2⟩ => ⟨p, h1, h2.symm⟩, fun ⟨p, h1, h2⟩ => ⟨p, h1, h2.symm⟩⟩
  · unfold target
    rw [if_neg (n1 st h).1, if_pos (n1 st h).2]
    cases h1 : bounds b.h with
    | none => exact ⟨fun h => (by cases h), fun ⟨p, q, h2, _⟩ => (by cases h2)⟩
    | some p =>
      cases h2 : bounds (fun k => b.h k + b.he k) with
      | none => exact ⟨fun h => (by cases h), fun ⟨p, q, _, h2, _⟩ => (by cases h2)⟩
      | some q => exact ⟨fun h => (by cases h; exact ⟨p, q, rfl, rfl, rfl⟩), fun ⟨p', q', e1, e2, e3⟩ => (by cases e1; cases e2; rw [e3])⟩
  · unfold target
    rw [if_neg (n2 st h).1, if_neg (n2 st h).2.1, if_pos (n2 st h).2.2, Option.map_eq_some_iff]
    exact ⟨fun ⟨p, h1, h2⟩ => ⟨p, h1, h2.symm⟩, fun ⟨p, h1, h2⟩ => ⟨p, h1, h2.symm⟩⟩
  · have m1 : st ∉ shell := fun hm => h (n3 st (List.mem_append_left _ (List.mem_append_left _ hm)))
    have m2 : st ∉ burning := fun hm => h (n3 st (List.mem_append_left _ (List.mem_append_right _ hm)))
    have m3 : st ∉ depleted := fun hm => h (n3 st (List.mem_append_right _ hm))
    unfold target
    rw [if_neg m1, if_neg m2, if_neg m3, Option.map_eq_some_iff]
    exact ⟨fun ⟨p, h1, h2⟩ => ⟨p, h1, h2.symm⟩, fun ⟨p, h1, h2⟩ => ⟨p, h1, h2.symm⟩⟩

end Verif.ProfBounds
