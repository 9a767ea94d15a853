import Verif.Classify
import Mathlib.Algebra.Order.Field.Basic
import Mathlib.Tactic.Positivity
import Mathlib.Algebra.Order.BigOperators.Group.List
import Mathlib.Data.List.Perm.Basic
import Mathlib.Data.List.GetD
import Mathlib.Data.List.Range
import Mathlib.Tactic.Linarith
import Mathlib.Tactic.FieldSimp
import Mathlib.Tactic.Ring
import Mathlib.Tactic.NormNum

/-!
# Classifiers of the active learning: properties (C111)
-/

namespace Verif.Classify

/-! ### Names -/

/-- Every accepted name leads to its algorithm, the keys are accepted as names themselves, and upper and lower case do not
matter. -/
theorem C111_names (a : Algo) :
    (∀ s ∈ names a, key s = some a) ∧ key a.text = some a ∧
    ∀ s t, lower s = lower t → key s = key t := by
  refine ⟨?_, ?_, fun s t h => by unfold key; rw [h]⟩
  · cases a <;> decide +kernel
  · cases a <;> decide +kernel

/-- No name leads to two algorithms. -/
theorem C111_names_distinct (s : Name) (a b : Algo) (ha : s ∈ names a) (hb : s ∈ names b) :
    a = b := by
  have h1 := (C111_names a).1 s ha
  rw [(C111_names b).1 s hb] at h1
  exact (Option.some.inj h1).symm

/-- An unknown name raises a `TypeError` in training, instead of the message that is written for it. -/
theorem C111_unknown_violated {F : Type} (fit : Algo → Option (List ℕ) → Except Err F) (st : St F)
    (s : Name) (h : key s = none) (di : Option (List ℕ)) :
    train fit st (some s) di = (st, .error .type) := by
  simp [train, h]

example : key (chars! "svm") = none := by decide +kernel

/-! ### Probabilities -/

theorem total_some : ∀ l : List ℚ, total (l.map some) = some l.sum
  | [] => rfl
  | x :: r => by
    have := total_some r
    unfold total at *
    rw [List.map_cons, List.foldr_cons, this, List.sum_cons]

theorem normal_some (l : List ℚ) (h : l.sum ≠ 0) :
    normal (l.map some) = (l.map fun p => p / l.sum).map some := by
  unfold normal
  rw [total_some]
  simp only [List.map_map]
  refine List.map_congr_left fun p _ => ?_
  simp [h]

/-- Values of radial basis functions are brought into the range of probabilities, where they are not changed. -/
theorem C111_clip (x : ℚ) : 0 ≤ clip x ∧ clip x ≤ 1 ∧ (0 ≤ x → x ≤ 1 → clip x = x) := by
  unfold clip
  dsimp only
  by_cases h : x > 1
  · rw [if_pos h, if_neg (by norm_num)]
    exact ⟨by norm_num, le_rfl, fun _ h2 => absurd h2 (not_le.mpr h)⟩
  · rw [if_neg h]
    by_cases h2 : x < 0
    · rw [if_pos h2]
      exact ⟨le_rfl, by norm_num, fun h3 => absurd h3 (not_le.mpr h2)⟩
    · rw [if_neg h2]
      exact ⟨not_lt.mp h2, not_lt.mp h, fun _ _ => rfl⟩

theorem le_sum_of_mem : ∀ (l : List ℚ), (∀ x ∈ l, 0 ≤ x) → ∀ x ∈ l, x ≤ l.sum
  | [], _, x, hx => by cases hx
  | y :: r, h, x, hx => by
    have hr : ∀ z ∈ r, 0 ≤ z := fun z hz => h z (List.mem_cons_of_mem _ hz)
    have hs : 0 ≤ r.sum := List.sum_nonneg hr
    rw [List.sum_cons]
    rcases List.mem_cons.mp hx with rfl | hx
    · linarith
    · have := le_sum_of_mem r hr x hx
      have := h y (by simp)
      linarith

theorem sum_div (t : ℚ) : ∀ l : List ℚ, (l.map fun p => p / t).sum = l.sum / t
  | [] => by simp
  | x :: r => by
    rw [List.map_cons, List.sum_cons, List.sum_cons, sum_div t r, add_div]

/-- Where some class has a positive and no class a negative value, the probabilities are between 0 and 1, add up to 1, and are
in the ratio of the values. -/
theorem C111_probabilities_partial (l : List ℚ) (h0 : ∀ x ∈ l, 0 ≤ x) (hs : 0 < l.sum) :
    ∃ q : List ℚ, normal (l.map some) = q.map some ∧ q.sum = 1 ∧ (∀ x ∈ q, 0 ≤ x ∧ x ≤ 1) ∧
      q = l.map fun p => p / l.sum := by
  refine ⟨_, normal_some l hs.ne', ?_, ?_, rfl⟩
  · rw [sum_div, div_self hs.ne']
  · intro x hx
    obtain ⟨p, hp, rfl⟩ := List.mem_map.mp hx
    exact ⟨div_nonneg (h0 p hp) hs.le, (div_le_one hs).mpr (le_sum_of_mem l h0 p hp)⟩

/-- Where all radial basis functions are not positive, there are no probabilities, but the first class is
predicted. -/
theorem C111_zero_violated (l : List ℚ) (hne : l ≠ []) (h : ∀ x ∈ l, x ≤ 0) :
    normal (cleaned .rbf (l.map some)) = l.map (fun _ => none) ∧
    argmax (normal (cleaned .rbf (l.map some))) = 0 := by
  have hc : cleaned .rbf (l.map some) = (l.map fun _ => (0 : ℚ)).map some := by
    unfold cleaned
    rw [List.map_map, List.map_map]
    refine List.map_congr_left fun x hx => ?_
    simp only [Function.comp, Option.map_some, Option.some.injEq]
    unfold clip
    dsimp only
    have hx0 := h x hx
    have h1 : ¬ x > 1 := by linarith
    simp only [if_neg h1]
    by_cases h2 : x < 0
    · rw [if_pos h2]
    · rw [if_neg h2]
      linarith
  have h0 : (l.map fun _ => (0 : ℚ)).sum = 0 := by
    induction l with
    | nil => rfl
    | cons x r _ => simp
  have hn : normal (cleaned .rbf (l.map some)) = l.map (fun _ => none) := by
    rw [hc]
    unfold normal
    rw [total_some, h0]
    simp
  refine ⟨hn, ?_⟩
  rw [hn]
  cases l with
  | nil => exact absurd rfl hne
  | cons x r => simp [argmax]

theorem defined_places (rows : List (List (Option ℚ))) :
    ((defined rows).map (·.2)).Pairwise (· < ·) := by
  have : (rows.zipIdx.map (·.2)).Pairwise (· < ·) := by
    rw [List.zipIdx_map_snd]
    exact List.pairwise_lt_range'
  exact this.sublist (List.filter_sublist.map _)

/-- The points with predictions are those with a value for the first class, in their order; if there is any, each of them gets its own
normalised values. -/
theorem C111_places (a : Algo) (outs : List (List (Option ℚ))) :
    (probs a outs).2.Pairwise (· < ·) ∧
    (∀ i, i ∈ (probs a outs).2 ↔ ∃ row, (outs[i]?) = some row ∧
      ((cleaned a row).head?.getD none).isSome = true) ∧
    ((probs a outs).2 ≠ [] → (probs a outs).1.length = (probs a outs).2.length ∧
      ∀ (k i : ℕ) (row : List (Option ℚ)), (probs a outs).2[k]? = some i → outs[i]? = some row →
        (probs a outs).1[k]? = some (normal (cleaned a row))) := by
  refine ⟨defined_places _, fun i => ?_, fun hne => ?_⟩
  · simp only [probs, defined, List.mem_map, List.mem_filter, Prod.exists,
      List.mem_zipIdx_iff_getElem?, List.getElem?_map, Option.map_eq_some_iff]
    constructor
    · rintro ⟨r, j, ⟨⟨row, h1, h2⟩, h3⟩, rfl⟩
      exact ⟨row, h1, by rw [h2]; exact h3⟩
    · rintro ⟨row, h1, h2⟩
      exact ⟨cleaned a row, i, ⟨⟨row, h1, rfl⟩, h2⟩, rfl⟩
  · have hd : defined (outs.map (cleaned a)) ≠ [] := by
      intro h
      apply hne
      simp [probs, h]
    simp only [probs, if_neg hd]
    refine ⟨by simp, fun k i row hk hr => ?_⟩
    simp only [List.getElem?_map, Option.map_eq_some_iff] at hk ⊢
    obtain ⟨x, hx, rfl⟩ := hk
    refine ⟨x, hx, ?_⟩
    have hm := List.mem_of_getElem? hx
    have hm2 := (List.mem_filter.mp hm).1
    rw [List.mem_zipIdx_iff_getElem?, List.getElem?_map, hr] at hm2
    simp only [Option.map_some, Option.some.injEq] at hm2
    rw [hm2]

/-- If no point has a value, one prediction is made, of the first class, for no point. -/
theorem C111_none_violated (a : Algo) (outs : List (List (Option ℚ)))
    (h : ∀ row ∈ outs, ((cleaned a row).head?.getD none) = none) :
    predictions (probs a outs) = ([0], []) := by
  have hd : defined (outs.map (cleaned a)) = [] := by
    unfold defined
    rw [List.filter_eq_nil_iff]
    rintro ⟨r, i⟩ hm
    rw [List.mem_zipIdx_iff_getElem?, List.getElem?_map, Option.map_eq_some_iff] at hm
    obtain ⟨row, h1, h2⟩ := hm
    have := h row (List.mem_of_getElem? h1)
    rw [h2] at this
    simp [this]
  simp only [predictions, probs, hd]
  decide +kernel

theorem argmaxQ_spec : ∀ (l : List ℚ), l ≠ [] → ∃ m, l[argmaxQ l]? = some m ∧ (∀ x ∈ l, x ≤ m) ∧
    ∀ j x, j < argmaxQ l → l[j]? = some x → x < m
  | [], h => absurd rfl h
  | [x], _ => ⟨x, rfl, by simp, by simp [argmaxQ]⟩
  | x :: y :: r, _ => by
    obtain ⟨m, h1, h2, h3⟩ := argmaxQ_spec (y :: r) (by simp)
    unfold argmaxQ
    by_cases h : ∀ z ∈ y :: r, z ≤ x
    · rw [if_pos h]
      refine ⟨x, rfl, ?_, fun j _ hj => absurd hj (Nat.not_lt_zero j)⟩
      intro z hz
      rcases List.mem_cons.mp hz with rfl | hz
      · exact le_rfl
      · exact h z hz
    · rw [if_neg h]
      have hxm : x < m := by
        push Not at h
        obtain ⟨z, hz, hlt⟩ := h
        exact lt_of_lt_of_le hlt (h2 z hz)
      refine ⟨m, by rw [List.getElem?_cons_succ]; exact h1, ?_, ?_⟩
      · intro z hz
        rcases List.mem_cons.mp hz with rfl | hz
        · exact hxm.le
        · exact h2 z hz
      · intro j z hj hz
        cases j with
        | zero => simp at hz; subst hz; exact hxm
        | succ j => exact h3 j z (by omega) (by simpa using hz)

/-- The predicted class is the first with the largest probability, which is at least one over the number of classes. -/
theorem C111_predicted (l : List ℚ) (hne : l ≠ []) (hs : l.sum = 1) :
    ∃ m, l[argmax (l.map some)]? = some m ∧ (∀ x ∈ l, x ≤ m) ∧
      (∀ j x, j < argmax (l.map some) → l[j]? = some x → x < m) ∧ 1 / (l.length : ℚ) ≤ m := by
  have ha : argmax (l.map some) = argmaxQ l := by
    unfold argmax
    rw [if_neg (by simp)]
    congr 1
    simp [List.filterMap_map]
  obtain ⟨m, h1, h2, h3⟩ := argmaxQ_spec l hne
  rw [ha]
  refine ⟨m, h1, h2, h3, ?_⟩
  have hl : (0 : ℚ) < l.length := by exact_mod_cast List.length_pos_of_ne_nil hne
  rw [div_le_iff₀ hl, ← hs]
  have := List.sum_le_card_nsmul l m h2
  rw [nsmul_eq_mul] at this
  linarith

example : predictions (probs .rbf [[some (1/2), some (3/2)], [none, none], [some (-1), some (1/4)]])
    = ([1, 1], [0, 2]) := by decide +kernel

/-! ### Cross validation -/

theorem pick_spec (num n : ℕ) : ∀ (ds acc : List ℕ), (∀ d ∈ ds, d < n) → (∀ d ∈ acc, d < n) →
    acc.Nodup → acc.length ≤ num →
    (pick num ds acc).Nodup ∧ (∀ d ∈ pick num ds acc, d < n) ∧ (pick num ds acc).length ≤ num
  | [], acc, _, h2, h3, h4 => ⟨h3, h2, h4⟩
  | d :: ds, acc, h1, h2, h3, h4 => by
    unfold pick
    have h1' : ∀ e ∈ ds, e < n := fun e he => h1 e (List.mem_cons_of_mem _ he)
    by_cases hl : acc.length < num
    · rw [if_pos hl]
      by_cases hd : d ∈ acc
      · rw [if_pos hd]
        exact pick_spec num n ds acc h1' h2 h3 h4
      · rw [if_neg hd]
        refine pick_spec num n ds _ h1' ?_ ?_ ?_
        · intro e he
          rcases List.mem_append.mp he with he | he
          · exact h2 e he
          · rw [List.mem_singleton.mp he]
            exact h1 d (by simp)
        · rw [List.nodup_append]
          refine ⟨h3, by simp, ?_⟩
          intro a ha b hb hab
          rw [List.mem_singleton.mp hb] at hab
          exact hd (hab ▸ ha)
        · simp; omega
    · rw [if_neg hl]
      exact ⟨h3, h2, h4⟩

theorem pick_enough (num : ℕ) : ∀ (ds acc : List ℕ), acc.length ≤ num →
    (pick num ds acc).length = num ∨ ∀ d, d ∈ acc ∨ d ∈ ds → d ∈ pick num ds acc
  | [], acc, _ => by right; intro d h; simpa [pick] using h
  | d :: ds, acc, h4 => by
    unfold pick
    by_cases hl : acc.length < num
    · rw [if_pos hl]
      by_cases hd : d ∈ acc
      · rw [if_pos hd]
        rcases pick_enough num ds acc h4 with h | h
        · exact Or.inl h
        · right
          intro e he
          apply h
          rcases he with he | he
          · exact Or.inl he
          · rcases List.mem_cons.mp he with rfl | he
            · exact Or.inl hd
            · exact Or.inr he
      · rw [if_neg hd]
        rcases pick_enough num ds (acc ++ [d]) (by simp; omega) with h | h
        · exact Or.inl h
        · right
          intro e he
          apply h
          rcases he with he | he
          · exact Or.inl (by simp [he])
          · rcases List.mem_cons.mp he with rfl | he
            · exact Or.inl (by simp)
            · exact Or.inr he
    · rw [if_neg hl]
      exact Or.inl (by omega)

/-- The points are divided: the training points are different, in order and not more than asked for, all others are
for tests.  If the draws meet every point there are exactly as many as asked for. -/
theorem C111_split (n num : ℕ) (ds : List ℕ) (h : ∀ d ∈ ds, d < n) :
    (split n num ds).1.Pairwise (· < ·) ∧ (split n num ds).1.length ≤ num ∧
    List.Perm ((split n num ds).1 ++ (split n num ds).2) (List.range n) ∧
    (num ≤ n → (∀ d < n, d ∈ ds) → (split n num ds).1.length = num) := by
  obtain ⟨h1, h2, h3⟩ := pick_spec num n ds [] h (by simp) (by simp) (by simp)
  have hp : List.Perm (split n num ds).1 (pick num ds []) := List.perm_insertionSort _ _
  have hnd : (split n num ds).1.Nodup := hp.nodup_iff.mpr h1
  refine ⟨?_, by rw [hp.length_eq]; exact h3, ?_, ?_⟩
  · have hs : (split n num ds).1.Pairwise (· ≤ ·) := List.pairwise_insertionSort _ _
    exact (hs.and hnd).imp fun hab => lt_of_le_of_ne hab.1 hab.2
  · rw [List.perm_ext_iff_of_nodup _ List.nodup_range]
    · intro i
      have hm : ∀ i ∈ (split n num ds).1, i < n := fun i hi => h2 i (hp.mem_iff.mp hi)
      rw [List.mem_append, List.mem_range]
      constructor
      · rintro (hi | hi)
        · exact hm i hi
        · exact List.mem_range.mp (List.mem_filter.mp hi).1
      · intro hi
        by_cases hc : i ∈ (split n num ds).1
        · exact Or.inl hc
        · exact Or.inr (List.mem_filter.mpr ⟨List.mem_range.mpr hi, decide_eq_true hc⟩)
    · rw [List.nodup_append]
      refine ⟨hnd, List.nodup_range.sublist List.filter_sublist, ?_⟩
      rintro a ha b hb rfl
      have := (List.mem_filter.mp hb).2
      simp only [decide_eq_true_eq] at this
      exact this ha
  · intro hn hall
    rw [hp.length_eq]
    rcases pick_enough num ds [] (by simp) with he | he
    · exact he
    · have : n ≤ (pick num ds []).length := by
        have hsub : List.range n ⊆ pick num ds [] := fun d hd =>
          he d (Or.inr (hall d (List.mem_range.mp hd)))
        have := (List.subperm_of_subset List.nodup_range hsub).length_le
        simpa using this
      omega

example : split 5 3 [4, 1, 4, 0, 2] = ([0, 1, 4], [2, 3]) := by decide

/-- The percentage is between 0 and 100. -/
theorem C111_percent (truth : List ℕ) (p : List ℕ × List ℕ) (q : ℚ) (h : percent truth p = some q) :
    0 ≤ q ∧ q ≤ 100 := by
  unfold percent at h
  dsimp only at h
  by_cases hl : p.2.length = 0
  · rw [if_pos hl] at h; cases h
  · rw [if_neg hl] at h
    cases h
    have hpos : (0 : ℚ) < p.2.length := by exact_mod_cast Nat.pos_of_ne_zero hl
    have hle : (((p.1.zip (p.2.map fun i => truth.getD i 0)).filter
        fun x => x.1 = x.2).length : ℚ) ≤ p.2.length := by
      have h1 := List.length_filter_le (fun x : ℕ × ℕ => decide (x.1 = x.2))
        (p.1.zip (p.2.map fun i => truth.getD i 0))
      have h2 : (p.1.zip (p.2.map fun i => truth.getD i 0)).length ≤ p.2.length := by
        rw [List.length_zip]; simp
      exact_mod_cast h1.trans h2
    constructor
    · exact mul_nonneg (div_nonneg (Nat.cast_nonneg _) hpos.le) (by norm_num)
    · have := (div_le_one hpos).mpr hle
      linarith

theorem train_keeps {F : Type} (fit : Algo → Option (List ℕ) → Except Err F) (st : St F)
    (s : Option Name) (di : Option (List ℕ)) :
    (train fit st s di).1.flag = st.flag ∧
    (st.flag = true → (train fit st s di).1.main = st.main) ∧
    (st.flag = false → (train fit st s di).1.cv = st.cv) := by
  unfold train
  cases hk : s.map key with
  | none => exact ⟨rfl, fun _ => rfl, fun _ => rfl⟩
  | some k =>
    cases k with
    | none => exact ⟨rfl, fun _ => rfl, fun _ => rfl⟩
    | some a =>
      dsimp only
      cases fit a di with
      | error e => exact ⟨rfl, fun _ => rfl, fun _ => rfl⟩
      | ok f =>
        dsimp only
        cases hf : st.flag with
        | true => exact ⟨by simp, fun _ => rfl, fun h => by cases h⟩
        | false => exact ⟨by simp, fun h => (by cases h), fun _ => rfl⟩

theorem trainAll_keeps {F : Type} (fit : Algo → Option (List ℕ) → Except Err F)
    (di : Option (List ℕ)) : ∀ (ss : List (Option Name)) (st : St F),
    (trainAll fit di ss st).1.flag = st.flag ∧
    (st.flag = true → (trainAll fit di ss st).1.main = st.main)
  | [], st => ⟨rfl, fun _ => rfl⟩
  | s :: r, st => by
    obtain ⟨h1, h2, -⟩ := train_keeps fit st s di
    unfold trainAll
    cases ht : train fit st s di with
    | mk st' res =>
      rw [ht] at h1 h2
      cases res with
      | error e => exact ⟨h1, h2⟩
      | ok u =>
        dsimp only
        obtain ⟨h3, h4⟩ := trainAll_keeps fit di r st'
        exact ⟨h3.trans h1, fun h => (h4 (h1.trans h)).trans (h2 h)⟩

/-- A cross validation that ends does not touch the trained classifiers, and they are used again afterwards. -/
theorem C111_cross_validation_partial {F X : Type}
    (fit : Algo → Option (List ℕ) → Except Err F) (eval : F → X → List (Option ℚ)) (st : St F)
    (ss : List Name) (sp : List ℕ × List ℕ) (pts : List X) (truth : List ℕ) (l : List (Option ℚ))
    (h : (crossValidate fit eval st ss sp pts truth).2 = .ok l) :
    (crossValidate fit eval st ss sp pts truth).1.main = st.main ∧
    (crossValidate fit eval st ss sp pts truth).1.flag = false := by
  obtain ⟨h1, h2⟩ := trainAll_keeps fit (some sp.1) (ss.map fun s => (key s).map Algo.text)
    { st with flag := true }
  unfold crossValidate at h ⊢
  dsimp only at h ⊢
  cases ht : trainAll fit (some sp.1) (ss.map fun s => (key s).map Algo.text)
      { st with flag := true } with
  | mk st2 res =>
    rw [ht] at h h1 h2
    cases res with
    | error e => cases h
    | ok u =>
      dsimp only at h ⊢
      cases hj : judge eval st2 truth pts (ss.map fun s => (key s).map Algo.text) with
      | error e => rw [hj] at h; cases h
      | ok m => exact ⟨h2 rfl, rfl⟩

/-- After a cross validation that raised, training no longer changes the classifiers, and predictions are made with those
of the failed cross validation, or fail. -/
theorem C111_cross_validation_violated {F X : Type}
    (fit : Algo → Option (List ℕ) → Except Err F) (eval : F → X → List (Option ℚ)) (st : St F)
    (ss : List Name) (sp : List ℕ × List ℕ) (pts : List X) (truth : List ℕ) (e : Err)
    (h : (crossValidate fit eval st ss sp pts truth).2 = .error e) :
    (∀ names di, (trainAll fit di names (crossValidate fit eval st ss sp pts truth).1).1.main
      = st.main) ∧
    ∀ (s : Name) (a : Algo) (xs : List X), key s = some a →
      (crossValidate fit eval st ss sp pts truth).1.cv a = none →
      ∃ e', returnProbs eval (crossValidate fit eval st ss sp pts truth).1 s xs = .error e' := by
  have hst : (crossValidate fit eval st ss sp pts truth).1.flag = true ∧
      (crossValidate fit eval st ss sp pts truth).1.main = st.main := by
    obtain ⟨h1, h2⟩ := trainAll_keeps fit (some sp.1) (ss.map fun s => (key s).map Algo.text)
      { st with flag := true }
    unfold crossValidate at h ⊢
    dsimp only at h ⊢
    cases ht : trainAll fit (some sp.1) (ss.map fun s => (key s).map Algo.text)
        { st with flag := true } with
    | mk st2 res =>
      rw [ht] at h h1 h2
      cases res with
      | error e => exact ⟨h1, h2 rfl⟩
      | ok u =>
        dsimp only at h ⊢
        cases hj : judge eval st2 truth pts (ss.map fun s => (key s).map Algo.text) with
        | error e => exact ⟨h1, h2 rfl⟩
        | ok m => rw [hj] at h; cases h
  generalize (crossValidate fit eval st ss sp pts truth).1 = st' at hst
  refine ⟨fun names di => ?_, fun s a xs hs hcv => ?_⟩
  · rw [(trainAll_keeps fit di names st').2 hst.1, hst.2]
  · unfold returnProbs
    by_cases hu : ([Algo.linear, .rbf, .gp].all fun a => (st'.main a).isNone && (st'.cv a).isNone)
        = true
    · rw [if_pos hu]
      exact ⟨_, rfl⟩
    · rw [if_neg hu, hs, hst.1]
      simp [hcv]

/-- Such a case: two names, of which the second is unknown. -/
example (F X : Type) (f : F) (eval : F → X → List (Option ℚ)) (st : St F) :
    (crossValidate (fun _ _ => .ok f) eval st [(chars! "rbf"), (chars! "svm")] ([], []) [] []).2
      = .error .attribute := by
  have h1 : key (chars! "rbf") = some .rbf := by decide +kernel
  have h2 : key (chars! "svm") = none := by decide +kernel
  have h3 : key Algo.rbf.text = some .rbf := by decide +kernel
  simp [crossValidate, trainAll, train, h1, h2, h3]

/-- Training outside of cross validations stores the functions for exactly the requested algorithm. -/
theorem C111_train {F : Type} (fit : Algo → Option (List ℕ) → Except Err F) (st : St F)
    (s : Name) (a : Algo) (di : Option (List ℕ)) (f : F) (hk : key s = some a)
    (hf : fit a di = .ok f) (hfl : st.flag = false) :
    (train fit st (some s) di).1.main a = some f ∧
    (∀ b, b ≠ a → (train fit st (some s) di).1.main b = st.main b) ∧
    (train fit st (some s) di).1.cv = st.cv := by
  unfold train
  simp only [Option.map_some, hk, hf, hfl]
  refine ⟨by simp [put], fun b hb => by simp [put, hb], rfl⟩

/-- The repeated cross validation counts the attempts that did not raise, up to the wanted number. -/
theorem cvLoop_eq (want : ℕ) : ∀ (os : List Bool) (good : ℕ), good ≤ want →
    cvLoop want os good = min want (good + os.count true)
  | [], good, h => by simp [cvLoop, h]
  | o :: r, good, h => by
    unfold cvLoop
    by_cases hg : good < want
    · rw [if_pos hg]
      cases o with
      | true =>
        rw [if_pos rfl, cvLoop_eq want r (good + 1) hg]
        simp
        congr 1
        ring
      | false =>
        rw [if_neg (by simp), cvLoop_eq want r good h]
        simp
    · rw [if_neg hg]
      omega

theorem C111_repeats (want : ℕ) (os : List Bool) : cvLoop want os 0 = min want (os.count true) := by
  rw [cvLoop_eq want os 0 (Nat.zero_le _), Nat.zero_add]

/-- If every attempt raises, for example for an unknown name, it goes on forever. -/
theorem C111_repeats_violated (want : ℕ) (hw : 0 < want) (k : ℕ) :
    cvLoop want (List.replicate k false) 0 < want := by
  rw [C111_repeats]
  simp [List.count_replicate, hw]

end Verif.Classify
