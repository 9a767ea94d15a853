import Verif.Assess
import Mathlib.Tactic.Ring
import Mathlib.Tactic.FieldSimp
import Mathlib.Tactic.Positivity
import Mathlib.Tactic.Linarith
import Mathlib.Algebra.Order.AbsoluteValue.Basic

/-!
# C127: assessment of interpolators

Errors, confusion matrices and the data of the plots with which an interpolator is judged.
-/

namespace Verif.Assess

/-! ### Errors -/

/-- The relative error is the distance in units of the true value; the absolute error is the distance. -/
theorem C127_errors (f i : ℚ) : absErr (.fin f) (.fin i) = .fin |f - i| ∧ (f ≠ 0 → relErr (.fin f) (.fin i) = .fin (|f - i| / |f|)) := by
  refine ⟨rfl, fun h => ?_⟩
  simp [relErr, F.sub, F.div, h, F.abs, abs_div]

/-- An error of zero is a value that is met exactly. -/
theorem C127_exact (f i : ℚ) (h : f ≠ 0) : relErr (.fin f) (.fin i) = .fin 0 ↔ i = f := by
  rw [(C127_errors f i).2 h]
  simp only [F.fin.injEq, div_eq_zero_iff, abs_eq_zero, sub_eq_zero, h, or_false]
  exact eq_comm

/-- The relative error does not depend on the unit. -/
theorem C127_units (f i c : ℚ) (h : f ≠ 0) (hc : c ≠ 0) : relErr (.fin (c * f)) (.fin (c * i)) = relErr (.fin f) (.fin i) := by
  rw [(C127_errors f i).2 h, (C127_errors _ _).2 (mul_ne_zero hc h), ← mul_sub, abs_mul, abs_mul,
    mul_div_mul_left _ _ (abs_ne_zero.mpr hc)]

/-- Errors are never negative. -/
theorem C127_positive (f i : F) : (relErr f i = .nan ∨ relErr f i = .inf false ∨ ∃ q, 0 ≤ q ∧ relErr f i = .fin q) ∧
    (absErr f i = .nan ∨ absErr f i = .inf false ∨ ∃ q, 0 ≤ q ∧ absErr f i = .fin q) := by
  have key : ∀ x : F, x.abs = .nan ∨ x.abs = .inf false ∨ ∃ q, 0 ≤ q ∧ x.abs = .fin q := by
    intro x
    cases x with
    | nan => exact .inl rfl
    | inf s => exact .inr (.inl rfl)
    | fin q => exact .inr (.inr ⟨_, abs_nonneg q, rfl⟩)
  exact ⟨key _, key _⟩

/-- A missing value has no error. -/
theorem C127_missing (x : F) : relErr .nan x = .nan ∧ relErr x .nan = .nan ∧ absErr .nan x = .nan ∧ absErr x .nan = .nan := by
  cases x <;> exact ⟨rfl, rfl, rfl, rfl⟩

/-- A true value of zero: any other value has an infinite error, and the exact value has none instead of zero. -/
theorem C127_zero_violated (i : ℚ) : relErr (.fin 0) (.fin i) = if i = 0 then .nan else .inf false := by
  by_cases h : i = 0
  · subst h; decide +kernel
  · simp [relErr, F.sub, F.div, F.abs, h]

/-- Which runs are used. -/
theorem C127_runs (ic : List Name) (k : ℕ) :
    (k ∈ valid ic ↔ ∃ c, ic[k]? = some c ∧ c ≠ (chars! "not_converged") ∧ c ≠ (chars! "initial_MT")) ∧
    (k ∈ cvalid ic ↔ ∃ c, ic[k]? = some c ∧ c ≠ (chars! "not_converged")) := by
  constructor
  · simp only [valid, List.mem_filter, List.mem_range, decide_eq_true_eq]
    constructor
    · rintro ⟨h1, h2, h3⟩
      refine ⟨ic[k], List.getElem?_eq_getElem h1, ?_, ?_⟩
      · rintro h; exact h2 (by rw [List.getElem?_eq_getElem h1, h])
      · rintro h; exact h3 (by rw [List.getElem?_eq_getElem h1, h])
    · rintro ⟨c, h1, h2, h3⟩
      obtain ⟨hk, _⟩ := List.getElem?_eq_some_iff.mp h1
      rw [h1]
      exact ⟨hk, fun h => h2 (Option.some.inj h), fun h => h3 (Option.some.inj h)⟩
  · simp only [cvalid, List.mem_filter, List.mem_range, decide_eq_true_eq]
    constructor
    · rintro ⟨h1, h2⟩
      exact ⟨ic[k], List.getElem?_eq_getElem h1, fun h => h2 (by rw [List.getElem?_eq_getElem h1, h])⟩
    · rintro ⟨c, h1, h2⟩
      obtain ⟨hk, _⟩ := List.getElem?_eq_some_iff.mp h1
      rw [h1]
      exact ⟨hk, fun h => h2 (Option.some.inj h)⟩

/-- The error in a row and a column is that of the run and the quantity. -/
theorem C127_table (e : F → F → F) (f i : List (List F)) (j k : ℕ) (fr ir : List F) (x y : F) (h1 : f[j]? = some fr) (h2 : i[j]? = some ir)
    (h3 : fr[k]? = some x) (h4 : ir[k]? = some y) : ∃ r, (table e f i)[j]? = some r ∧ r[k]? = some (e x y) := by
  refine ⟨List.zipWith e fr ir, ?_, ?_⟩
  · simp [table, List.getElem?_zipWith, h1, h2]
  · simp [List.getElem?_zipWith, h3, h4]

/-! ### Confusion matrices -/

/-- Spec: the share of the runs of a class that are predicted to be of another. -/
def share (runs : List (Name × Name)) (c x : Name) : ℚ :=
  ((runs.filter fun r => r.1 = c ∧ r.2 = x).length : ℚ) / (runs.filter fun r => r.1 = c).length

theorem count_ofClass (runs : List (Name × Name)) (c x : Name) : (ofClass c runs).count x = (runs.filter fun r => r.1 = c ∧ r.2 = x).length := by
  induction runs with
  | nil => rfl
  | cons r l ih =>
    unfold ofClass at ih ⊢
    by_cases h1 : r.1 = c
    · by_cases h2 : r.2 = x
      · rw [List.filter_cons_of_pos (by simpa using h1), List.filter_cons_of_pos (by simp [h1, h2]), List.map_cons, h2, List.count_cons_self, ih]
        rfl
      · rw [List.filter_cons_of_pos (by simpa using h1), List.filter_cons_of_neg (by simp [h2]), List.map_cons, List.count_cons_of_ne h2, ih]
    · rw [List.filter_cons_of_neg (by simpa using h1), List.filter_cons_of_neg (by simp [h1]), ih]

theorem length_ofClass (runs : List (Name × Name)) (c : Name) : (ofClass c runs).length = (runs.filter fun r => r.1 = c).length := by
  simp [ofClass]

/-- The row of a class has the shares of the predictions, in the order of the classes. -/
theorem C127_row (classes : List Name) (hn : classes.Nodup) (c : Name) (runs : List (Name × Name)) (hp : ∀ r ∈ runs, r.2 ∈ classes) :
    row classes c runs = classes.map fun x => (x, share runs c x) := by
  unfold row
  dsimp only
  have h0 := puts_new (fun _ => (0 : ℚ)) classes [] hn (by simp)
  rw [h0, List.nil_append]
  have hfst : ((classes.map fun x => (x, (0 : ℚ))).map (·.1)) = classes := by
    rw [List.map_map]; exact List.map_id _
  rw [puts_old (fun x => ((ofClass c runs).count x : ℚ) / (ofClass c runs).length), List.map_map]
  · refine List.map_congr_left fun x _ => ?_
    simp only [Function.comp, uniques, List.mem_dedup]
    unfold share
    rw [← count_ofClass, ← length_ofClass]
    by_cases hx : x ∈ ofClass c runs
    · simp [hx]
    · simp [hx, List.count_eq_zero_of_not_mem hx]
  · intro x hx
    rw [hfst]
    rw [uniques, List.mem_dedup, ofClass] at hx
    obtain ⟨r, hr, rfl⟩ := List.mem_map.mp hx
    exact hp r (List.mem_filter.mp hr).1
  · rw [hfst]; exact hn

/-- Shares are between 0 and 1, and those of a class with runs add up to 1; a class without runs has only zeros. -/
theorem C127_shares (classes : List Name) (hn : classes.Nodup) (c : Name) (runs : List (Name × Name)) (hp : ∀ r ∈ runs, r.2 ∈ classes) :
    (∀ e ∈ row classes c runs, 0 ≤ e.2 ∧ e.2 ≤ 1) ∧
    ((∃ r ∈ runs, r.1 = c) → ((row classes c runs).map (·.2)).sum = 1) ∧
    ((∀ r ∈ runs, r.1 ≠ c) → ∀ e ∈ row classes c runs, e.2 = 0) := by
  rw [C127_row classes hn c runs hp]
  refine ⟨?_, ?_, ?_⟩
  · intro e he
    obtain ⟨x, _, rfl⟩ := List.mem_map.mp he
    dsimp only [share]
    refine ⟨by positivity, ?_⟩
    refine div_le_one_of_le₀ ?_ (by positivity)
    rw [← count_ofClass, ← length_ofClass]
    exact_mod_cast List.count_le_length
  · rintro ⟨r, hr, hc⟩
    have hpos : ((ofClass c runs).length : ℚ) ≠ 0 := by
      have : (ofClass c runs).length ≠ 0 := by
        rw [Ne, List.length_eq_zero_iff]
        intro h
        have : r.2 ∈ ofClass c runs := List.mem_map.mpr ⟨r, List.mem_filter.mpr ⟨hr, by simpa using hc⟩, rfl⟩
        rw [h] at this
        simp at this
      exact_mod_cast this
    have hs := sum_count classes (ofClass c runs) hn (by
      intro x hx
      obtain ⟨r, hr, rfl⟩ := List.mem_map.mp hx
      exact hp r (List.mem_filter.mp hr).1)
    have : ∀ l : List Name, ((l.map fun x => (x, share runs c x)).map (·.2)).sum = ((l.map fun x => (ofClass c runs).count x).sum : ℕ) / ((ofClass c runs).length : ℚ) := by
      intro l
      induction l with
      | nil => simp
      | cons a l ih =>
        simp only [List.map_cons, List.sum_cons, Nat.cast_add, add_div]
        rw [ih]
        unfold share
        rw [← count_ofClass, ← length_ofClass]
    rw [this, hs, div_self hpos]
  · intro h e he
    obtain ⟨x, _, rfl⟩ := List.mem_map.mp he
    dsimp only [share]
    rw [List.filter_eq_nil_iff.mpr (fun r hr => by simpa using fun hc => absurd hc (h r hr))]
    simp

/-- The matrix has a row for each class in order; what is drawn is a square. -/
theorem C127_matrix (key : Name) (ms : List (Name × Matrix)) (classes : List Name) (hn : classes.Nodup) (hnone : classes ≠ [(chars! "None")])
    (runs : List (Name × Name)) (hp : ∀ r ∈ runs, r.2 ∈ classes) (hk : ms.lookup key = some (matrix classes runs)) :
    drawn key ms = .ok (classes.map fun c => classes.map fun x => share runs c x) := by
  have hm : matrix classes runs = .rows (classes.map fun c => (c, row classes c runs)) := by
    unfold matrix
    rw [if_neg hnone, puts_new (fun c => row classes c runs) classes [] hn (by simp), List.nil_append]
  unfold drawn
  rw [hk, hm]
  dsimp only
  rw [List.map_map]
  congr 1
  refine List.map_congr_left fun c _ => ?_
  simp only [Function.comp]
  rw [C127_row classes hn c runs hp, List.map_map]
  rfl

/-- The diagonal, weighted with the runs of the classes, gives the number of runs with the right prediction. -/
theorem C127_accuracy (classes : List Name) (hn : classes.Nodup) (runs : List (Name × Name)) (hc : ∀ r ∈ runs, r.1 ∈ classes) :
    (classes.map fun c => ((runs.filter fun r => r.1 = c).length : ℚ) * share runs c c).sum = (runs.filter fun r => r.1 = r.2).length := by
  have h1 : ∀ c, ((runs.filter fun r => r.1 = c).length : ℚ) * share runs c c = (((runs.filter fun r => r.1 = r.2).map (·.1)).count c : ℕ) := by
    intro c
    have e1 : ((runs.filter fun r => r.1 = r.2).map (·.1)).count c = (runs.filter fun r => r.1 = c ∧ r.2 = c).length := by
      induction runs with
      | nil => rfl
      | cons r l ih =>
        have ih := ih fun x hx => hc x (List.mem_cons_of_mem _ hx)
        by_cases h : r.1 = r.2
        · by_cases h' : r.1 = c
          · rw [List.filter_cons_of_pos (by simpa using h), List.filter_cons_of_pos (by simp [← h, h']), List.map_cons, h', List.count_cons_self, ih]
            rfl
          · rw [List.filter_cons_of_pos (by simpa using h), List.filter_cons_of_neg (by simp [h']), List.map_cons, List.count_cons_of_ne h', ih]
        · rw [List.filter_cons_of_neg (by simpa using h), List.filter_cons_of_neg (by
            simp only [decide_eq_true_eq, not_and]
            exact fun a b => h (a.trans b.symm)), ih]
    rw [e1]
    unfold share
    by_cases h0 : ((runs.filter fun r => r.1 = c).length : ℚ) = 0
    · have : (runs.filter fun r => r.1 = c ∧ r.2 = c) = [] := by
        have h0' : (runs.filter fun r => r.1 = c) = [] := List.length_eq_zero_iff.mp (by exact_mod_cast h0)
        rw [List.filter_eq_nil_iff] at h0' ⊢
        intro r hr
        have := h0' r hr
        simp only [decide_eq_true_eq] at this ⊢
        exact fun h => this h.1
      rw [h0, this]; simp
    · rw [mul_div_cancel₀ _ h0]
  have h2 : ∀ l : List Name, (l.map fun c => ((runs.filter fun r => r.1 = c).length : ℚ) * share runs c c).sum =
      ((l.map fun c => ((runs.filter fun r => r.1 = r.2).map (·.1)).count c).sum : ℕ) := by
    intro l
    induction l with
    | nil => simp
    | cons a l ih => rw [List.map_cons, List.sum_cons, ih, h1, List.map_cons, List.sum_cons, Nat.cast_add]
  rw [h2, sum_count classes _ hn, List.length_map]
  intro x hx
  obtain ⟨r, hr, rfl⟩ := List.mem_map.mp hx
  exact hc r (List.mem_filter.mp hr).1

/-- A prediction that is not one of the labels makes a row longer than the others. -/
theorem C127_foreign_violated : ∃ (classes : List Name) (runs : List (Name × Name)), classes.Nodup ∧
    (row classes (chars! "a") runs).length = 2 ∧ (row classes (chars! "b") runs).length = 3 :=
  ⟨[(chars! "a"), (chars! "b")], [((chars! "a"), (chars! "a")), ((chars! "b"), (chars! "c"))], by decide +kernel, by decide +kernel, by decide +kernel⟩

/-- A quantity without classes has a matrix that can not be drawn. -/
theorem C127_no_classes_violated (key : Name) (ms : List (Name × Matrix)) (runs : List (Name × Name))
    (h : ms.lookup key = some (matrix [(chars! "None")] runs)) : drawn key ms = .error .attribute := by
  have : matrix [(chars! "None")] runs = .none_ := rfl
  rw [this] at h
  simp [drawn, h]

/-- A key that is not a classifier is an error. -/
theorem C127_unknown (key : Name) (ms : List (Name × Matrix)) (h : ms.lookup key = none) : drawn key ms = .error .key := by
  simp [drawn, h]

/-- The labels are those of the last interpolator that has the classifier. -/
theorem C127_labels (key : Name) (l : Option (List Name)) (is js : List (List (Name × Option (List Name)))) (i : List (Name × Option (List Name)))
    (c : Option (List Name)) (h : i.lookup key = some c) (hj : ∀ j ∈ js, j.lookup key = none) :
    findLabels key l (is ++ i :: js) = some (c.getD [(chars! "None")]) := by
  have hend : ∀ (js : List (List (Name × Option (List Name)))) (l : Option (List Name)), (∀ j ∈ js, j.lookup key = none) → findLabels key l js = l := by
    intro js
    induction js with
    | nil => intro l _; rfl
    | cons j js ih =>
      intro l hj
      rw [findLabels, hj j (by simp)]
      exact ih l fun x hx => hj x (by simp [hx])
  induction is generalizing l with
  | nil =>
    rw [List.nil_append, findLabels, h]
    cases c with
    | none => exact hend js _ hj
    | some x => exact hend js _ hj
  | cons a is ih =>
    rw [List.cons_append, findLabels]
    cases a.lookup key with
    | none => exact ih l
    | some o =>
      cases o with
      | none => exact ih _
      | some x => exact ih _

/-! ### Plots -/

/-- What is left for the plots: rows with some number and without infinity. -/
theorem C127_clean (e : List (List F)) (r : List F) : r ∈ clean e ↔ r ∈ e ∧ (∃ x ∈ r, x ≠ .nan) ∧ ∀ x ∈ r, ∀ s, x ≠ .inf s := by
  unfold clean
  rw [List.mem_filter, List.mem_filter, and_assoc]
  refine and_congr_right fun _ => and_congr ?_ ?_
  · rw [List.any_eq_true]
    refine exists_congr fun x => and_congr_right fun _ => ?_
    cases x <;> simp [F.isNan]
  · rw [Bool.not_eq_true', List.any_eq_false]
    refine forall_congr' fun x => imp_congr_right fun _ => ?_
    cases x <;> simp [F.isInf]

/-- For a single quantity only numbers are left. -/
theorem C127_clean_partial (e : List (List F)) (x : F) (h : [x] ∈ clean e) : ∃ q, x = .fin q := by
  obtain ⟨_, ⟨y, hy, hn⟩, hi⟩ := (C127_clean e [x]).mp h
  obtain rfl : y = x := by simpa using hy
  cases y with
  | fin q => exact ⟨q, rfl⟩
  | inf s => exact absurd rfl (hi _ (by simp) s)
  | nan => exact absurd rfl hn

/-- For several quantities missing values stay in what is plotted. -/
theorem C127_clean_violated : ∃ e : List (List F), [F.fin 1, F.nan] ∈ clean e := ⟨[[.fin 1, .nan]], by decide +kernel⟩

theorem index_ok (k : Name) (l : List Name) (i : ℕ) (h : index k l = .ok i) : l[i]? = some k ∧ ∀ j < i, l[j]? ≠ some k := by
  unfold index at h
  cases hf : l.findIdx? (· = k) with
  | none => rw [hf] at h; cases h
  | some n =>
    rw [hf] at h
    cases h
    obtain ⟨hl, h1, h2⟩ := List.findIdx?_eq_some_iff_getElem.mp hf
    refine ⟨by rw [List.getElem?_eq_getElem hl]; simpa using h1, fun j hj he => ?_⟩
    have hjl : j < l.length := hj.trans hl
    rw [List.getElem?_eq_getElem hjl] at he
    have := h2 j hj
    simp [Option.some.inj he] at this

theorem index_err (k : Name) (l : List Name) (h : k ∉ l) : index k l = .error .value := by
  unfold index
  rw [List.findIdx?_eq_none_iff.mpr (by
    intro x hx
    have : x ≠ k := by rintro rfl; exact h hx
    simpa using this)]

/-- The columns of the keys that are asked for, in their order; a key that is not a quantity is an error. -/
theorem C127_keys (keys out : List Name) :
    (∀ is, indices keys out = .ok is → is.length = keys.length ∧ ∀ (j : ℕ) (k : Name), keys[j]? = some k → ∃ i, is[j]? = some i ∧ out[i]? = some k) ∧
    ((∃ k ∈ keys, k ∉ out) → indices keys out = .error .value) := by
  induction keys with
  | nil =>
    constructor
    · rintro is h; cases h; exact ⟨rfl, by simp⟩
    · rintro ⟨k, hk, _⟩; simp at hk
  | cons k ks ih =>
    constructor
    · intro is h
      unfold indices at h
      cases h1 : index k out with
      | error x => rw [h1] at h; cases h
      | ok i =>
        cases h2 : indices ks out with
        | error x => rw [h1, h2] at h; cases h
        | ok r =>
          rw [h1, h2] at h
          cases h
          obtain ⟨hl, hr⟩ := ih.1 r h2
          refine ⟨by simp [hl], ?_⟩
          intro j x hx
          cases j with
          | zero =>
            obtain rfl : k = x := by simpa using hx
            exact ⟨i, rfl, (index_ok k out i h1).1⟩
          | succ j => exact hr j x (by simpa using hx)
    · rintro ⟨x, hx, hno⟩
      unfold indices
      rcases List.mem_cons.mp hx with rfl | hx
      · rw [index_err x out hno]
      · rw [ih.2 ⟨x, hx, hno⟩]
        cases index k out <;> rfl

/-- The three coloured sets are parts of the whole: the runs of the class. -/
theorem C127_violin (out : List Name) (keys : Option (List Name)) (ic : List Name) (e : List (List F)) (v : Violin) (h : violin out keys ic e = .ok v) :
    ∃ is, indices (keys.getD out) out = .ok is ∧ v.all = clean (columns is e) ∧
    (∀ r, r ∈ v.stable ↔ r ∈ clean (columns is e) ∧ ((chars! "stable_MT"), r) ∈ ic.zip (columns is e)) ∧
    (∀ r, r ∈ v.no ↔ r ∈ clean (columns is e) ∧ ((chars! "no_MT"), r) ∈ ic.zip (columns is e)) ∧
    (∀ r, r ∈ v.unstable ↔ r ∈ clean (columns is e) ∧ ((chars! "unstable_MT"), r) ∈ ic.zip (columns is e)) := by
  unfold violin at h
  cases hi : indices (keys.getD out) out with
  | error x => rw [hi] at h; cases h
  | ok is =>
    rw [hi] at h
    dsimp only at h
    cases h
    have key : ∀ (c : Name) (r : List F), r ∈ clean (rowsOf c ic (columns is e)) ↔ r ∈ clean (columns is e) ∧ (c, r) ∈ ic.zip (columns is e) := by
      intro c r
      rw [C127_clean, C127_clean]
      have hm : r ∈ rowsOf c ic (columns is e) ↔ (c, r) ∈ ic.zip (columns is e) := by
        unfold rowsOf
        rw [List.mem_map]
        constructor
        · rintro ⟨⟨a, b⟩, hp, rfl⟩
          obtain ⟨h1, h2⟩ := List.mem_filter.mp hp
          obtain rfl : a = c := by simpa using h2
          exact h1
        · intro hp
          exact ⟨(c, r), List.mem_filter.mpr ⟨hp, by simp⟩, rfl⟩
      rw [hm]
      constructor
      · rintro ⟨h1, h2⟩
        exact ⟨⟨(List.of_mem_zip h1).2, h2⟩, h1⟩
      · rintro ⟨⟨_, h2⟩, h1⟩
        exact ⟨h1, h2⟩
    exact ⟨is, rfl, rfl, key _, key _, key _⟩

/-- Runs of the class of reverse mass transfer are in none of the three sets. -/
theorem C127_reverse_violated : ∃ (out : List Name) (ic : List Name) (e : List (List F)) (v : Violin), violin out none ic e = .ok v ∧
    v.all = [[.fin 1]] ∧ v.stable = [] ∧ v.no = [] ∧ v.unstable = [] :=
  ⟨[(chars! "x")], [(chars! "stable_reverse_MT")], [[.fin 1]], _, rfl, by decide +kernel, by decide +kernel, by decide +kernel, by decide +kernel⟩

/-- The values over a slice of the grid: the error of each run in the slice that is to be interpolated, a large number
for an infinite error, nothing for other runs. -/
theorem C127_slice (out : List Name) (key var : Name) (lo hi : ℚ) (ini : List Ini) (ic : List Name) (e : List (List F)) (l : List F)
    (h : sliceErrs out key var lo hi ini ic e = .ok l) :
    ∃ k : ℕ, out[k]? = some key ∧ (var = (chars! "mass_ratio") ∨ var = (chars! "star_2_mass")) ∧ l.length = ini.length ∧
    ∀ (j : ℕ) (m : Ini), ini[j]? = some m →
      (∀ x, x = (if var = (chars! "mass_ratio") then m.2 / m.1 else m.2) →
        (¬ (lo ≤ x ∧ x ≤ hi ∧ j ∈ valid ic) → l[j]? = some .nan) ∧
        (lo ≤ x ∧ x ≤ hi ∧ j ∈ valid ic → ∀ (r : List F) (y : F), e[j]? = some r → r[k]? = some y →
          l[j]? = some (if y.isInf then .fin large else y))) := by
  unfold sliceErrs at h
  cases hk : index key out with
  | error x => rw [hk] at h; cases h
  | ok k =>
    rw [hk] at h
    dsimp only at h
    by_cases hv : var ≠ (chars! "mass_ratio") ∧ var ≠ (chars! "star_2_mass")
    · rw [if_pos hv] at h; cases h
    · rw [if_neg hv] at h
      cases h
      refine ⟨k, (index_ok key out k hk).1, ?_, by simp, ?_⟩
      · by_cases h1 : var = (chars! "mass_ratio")
        · exact .inl h1
        · exact .inr (by_contra fun h2 => hv ⟨h1, h2⟩)
      · rintro j m hj x rfl
        obtain ⟨hjl, _⟩ := List.getElem?_eq_some_iff.mp hj
        have hd : ini.getD j (0, 0) = m := by rw [List.getD_eq_getElem?_getD, hj]; rfl
        constructor
        · intro hno
          rw [List.getElem?_map, List.getElem?_range hjl, Option.map_some, hd, if_neg hno]
        · intro hyes r y hr hy
          rw [List.getElem?_map, List.getElem?_range hjl, Option.map_some, hd, if_pos hyes]
          have : (e.getD j []).getD k .nan = y := by
            rw [List.getD_eq_getElem?_getD, List.getD_eq_getElem?_getD, hr, Option.getD_some, hy, Option.getD_some]
          rw [this]
          cases y <;> rfl

/-- Other variables and unknown quantities are refused. -/
theorem C127_slice_refused (out : List Name) (key var : Name) (lo hi : ℚ) (ini : List Ini) (ic : List Name) (e : List (List F))
    (h : key ∉ out ∨ (var ≠ (chars! "mass_ratio") ∧ var ≠ (chars! "star_2_mass"))) : sliceErrs out key var lo hi ini ic e = .error .value := by
  unfold sliceErrs
  by_cases hk : key ∉ out
  · rw [index_err key out hk]
  · have hv := h.resolve_left hk
    cases hx : index key out with
    | error x =>
      unfold index at hx
      cases hf : out.findIdx? (· = key) with
      | none => rw [hf] at hx; cases hx; rfl
      | some n => rw [hf] at hx; cases hx
    | ok k => dsimp only; rw [if_pos hv]

/-- Figures can not be saved with the option for it. -/
theorem C127_save_violated (p : Name) : saved (some p) = .error .attribute := rfl

example : row [(chars! "a"), (chars! "b")] (chars! "a") [((chars! "a"), (chars! "a")), ((chars! "a"), (chars! "b")), ((chars! "b"), (chars! "b")),
    ((chars! "a"), (chars! "a"))] = [((chars! "a"), 2 / 3), ((chars! "b"), 1 / 3)] := by decide +kernel

example : (sliceErrs [(chars! "x"), (chars! "y")] (chars! "y") (chars! "mass_ratio") (1/2) 1 [(10, 6), (10, 1), (10, 8), (10, 10)]
    [(chars! "no_MT"), (chars! "no_MT"), (chars! "initial_MT"), (chars! "stable_MT")]
    [[.nan, .fin 1], [.nan, .fin 2], [.nan, .fin 3], [.nan, .inf false]] |>.toOption) = some [.fin 1, .nan, .nan, .fin large] := by decide +kernel

/-- C127.  Infinite values: a finite value has no error against an infinite one in units of it, an infinite estimate is infinitely wrong, and nothing
can be said of two infinite values. -/
theorem C127_infinite (s : Bool) (q : ℚ) : relErr (.inf s) (.fin q) = .nan ∧ relErr (.fin q) (.inf s) = .inf false ∧ absErr (.inf s) (.fin q) = .inf false ∧
    absErr (.fin q) (.inf s) = .inf false ∧ absErr (.inf s) (.inf s) = .nan ∧ F.div (.fin q) (.inf s) = .fin 0 := by
  refine ⟨rfl, ?_, rfl, rfl, ?_, rfl⟩
  · simp [relErr, F.sub, F.div, F.abs]
  · simp [absErr, F.sub, F.abs]

end Verif.Assess
