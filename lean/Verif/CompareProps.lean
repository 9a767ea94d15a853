import Verif.Compare
import Mathlib.Tactic.Linarith
import Mathlib.Algebra.Order.Group.Unbundled.Abs
import Mathlib.Algebra.Order.Field.Basic

/-!
# Comparing two runs of the test binaries: properties
-/

namespace Verif.Compare

/-! ### Lists -/

theorem mem_sortU (l : List ℕ) (b : ℕ) : b ∈ sortU l ↔ b ∈ l := by
  unfold sortU
  rw [List.mem_insertionSort, List.mem_dedup]

theorem mem_sortN (l : List String) (b : String) : b ∈ sortN l ↔ b ∈ l := by
  unfold sortN
  rw [List.mem_insertionSort, List.mem_dedup]

theorem sortU_nil (l : List ℕ) : sortU l = [] ↔ l = [] := by
  simp only [List.eq_nil_iff_forall_not_mem, mem_sortU]

theorem sortN_nil (l : List String) : sortN l = [] ↔ l = [] := by
  simp only [List.eq_nil_iff_forall_not_mem, mem_sortN]

theorem sorted_eq_iff (l m : List String) : sorted l = sorted m ↔ l.Perm m := by
  unfold sorted
  constructor
  · intro h
    exact (List.perm_insertionSort _ l).symm.trans (h ▸ List.perm_insertionSort _ m)
  · intro h
    exact List.Perm.eq_of_pairwise (le := (· ≤ ·)) (fun a b _ _ h1 h2 => le_antisymm h1 h2) (List.pairwise_insertionSort _ _) (List.pairwise_insertionSort _ _)
      ((List.perm_insertionSort _ l).trans (h.trans (List.perm_insertionSort _ m).symm))

theorem allSome_nil {A B : Type} (f : A → Option (List B)) (l : List A) : allSome f l = some [] ↔ ∀ a ∈ l, f a = some [] := by
  induction l with
  | nil => simp [allSome]
  | cons a r ih =>
    rw [allSome, List.forall_mem_cons, ← ih]
    cases f a with
    | none => simp
    | some x =>
      cases allSome f r with
      | none => simp
      | some y => simp

theorem mem_stepsWhere {A : Type} (p : A → A → Bool) (a b : List A) (s : ℕ) :
    s ∈ stepsWhere p a b ↔ ∃ x y, a[s]? = some x ∧ b[s]? = some y ∧ p x y = true := by
  unfold stepsWhere
  simp only [List.mem_map, List.mem_filter, Prod.exists]
  constructor
  · rintro ⟨x, y, i, ⟨h1, h2⟩, rfl⟩
    have := List.mem_zipIdx_iff_getElem?.1 h1
    dsimp only at this
    rw [List.getElem?_zip_eq_some] at this
    exact ⟨x, y, this.1, this.2, h2⟩
  · rintro ⟨x, y, h1, h2, h3⟩
    refine ⟨x, y, s, ⟨List.mem_zipIdx_iff_getElem?.2 ?_, h3⟩, rfl⟩
    dsimp only
    rw [List.getElem?_zip_eq_some]
    exact ⟨h1, h2⟩

theorem stepsWhere_nil {A : Type} (p : A → A → Bool) (a b : List A) :
    stepsWhere p a b = [] ↔ ∀ (s : ℕ) x y, a[s]? = some x → b[s]? = some y → p x y = false := by
  rw [List.eq_nil_iff_forall_not_mem]
  simp only [mem_stepsWhere, not_exists, not_and, Bool.not_eq_true]

theorem eq_of_steps {A : Type} (a b : List A) (hl : a.length = b.length) (h : ∀ (s : ℕ) x y, a[s]? = some x → b[s]? = some y → x = y) : a = b := by
  apply List.ext_getElem hl
  intro i h1 h2
  exact h i _ _ (List.getElem?_eq_getElem h1) (List.getElem?_eq_getElem h2)

theorem same_steps {A : Type} (a : List A) (s : ℕ) (x y : A) (h : a[s]? = some x) (h' : a[s]? = some y) : x = y := Option.some.inj (h.symm.trans h')

/-! ### One column -/

/-- Numbers compared exactly: nothing is reported exactly if they are the same, NaN being the same as NaN. -/
theorem C132_quant (b : ℕ) (c : String) (x y : List (Option ℚ)) (hl : x.length = y.length) : quant 0 0 b c x y = [] ↔ x = y := by
  unfold quant
  have h00 : (0 : ℚ) = 0 ∧ (0 : ℚ) = 0 := ⟨rfl, rfl⟩
  rw [if_pos h00]
  constructor
  · intro h
    have h1 := (List.append_eq_nil_iff.1 h).1
    have h2 := (List.append_eq_nil_iff.1 h).2
    have e1 : stepsWhere oneNan x y = [] := by
      by_contra hc
      rw [if_neg hc] at h1
      cases h1
    have e2 : stepsWhere differ x y = [] := by
      by_contra hc
      rw [if_neg hc] at h2
      cases h2
    rw [stepsWhere_nil] at e1 e2
    apply eq_of_steps x y hl
    intro s p q hp hq
    have n1 := e1 s p q hp hq
    have n2 := e2 s p q hp hq
    cases p with
    | none => cases q with
      | none => rfl
      | some q => simp [oneNan] at n1
    | some p => cases q with
      | none => simp [oneNan] at n1
      | some q =>
        by_contra hc
        simp [differ] at n2
        exact hc (congrArg some n2)
  · rintro rfl
    have e1 : stepsWhere oneNan x x = [] := by
      rw [stepsWhere_nil]
      intro s p q hp hq
      rw [same_steps x s p q hp hq]
      simp [oneNan]
    have e2 : stepsWhere differ x x = [] := by
      rw [stepsWhere_nil]
      intro s p q hp hq
      rw [same_steps x s p q hp hq]
      simp [differ]
    rw [if_pos e1, if_pos e2]
    rfl

/-- Texts: nothing is reported exactly if they are the same. -/
theorem C132_qual (b : ℕ) (c : String) (x y : List String) (hl : x.length = y.length) : qual b c x y = [] ↔ x = y := by
  unfold qual
  constructor
  · intro h
    have e : stepsWhere (fun s t : String => decide (s ≠ t)) x y = [] := by
      by_contra hc
      rw [if_neg hc] at h
      cases h
    rw [stepsWhere_nil] at e
    apply eq_of_steps x y hl
    intro s p q hp hq
    simpa using e s p q hp hq
  · rintro rfl
    rw [if_pos]
    rw [stepsWhere_nil]
    intro s p q hp hq
    simp [same_steps x s p q hp hq]

theorem worst_spec (f : ℕ → ℚ) (l : List ℕ) (w : ℕ) : worst f l w ∈ w :: l ∧ ∀ s ∈ w :: l, f s ≤ f (worst f l w) := by
  induction l generalizing w with
  | nil => simp [worst]
  | cons s r ih =>
    rw [worst]
    by_cases h : f w < f s
    · rw [if_pos h]
      obtain ⟨h1, h2⟩ := ih s
      refine ⟨List.mem_cons_of_mem _ h1, ?_⟩
      intro t ht
      rcases List.mem_cons.1 ht with rfl | ht
      · exact h.le.trans (h2 s List.mem_cons_self)
      · exact h2 t ht
    · rw [if_neg h]
      obtain ⟨h1, h2⟩ := ih w
      refine ⟨?_, ?_⟩
      · rcases List.mem_cons.1 h1 with e | e
        · rw [e]; exact List.mem_cons_self
        · exact List.mem_cons_of_mem _ (List.mem_cons_of_mem _ e)
      · intro t ht
        rcases List.mem_cons.1 ht with rfl | ht
        · exact h2 _ List.mem_cons_self
        · rcases List.mem_cons.1 ht with rfl | ht
          · exact (not_lt.1 h).trans (h2 w List.mem_cons_self)
          · exact h2 t (List.mem_cons_of_mem _ ht)

theorem worstOf_spec (f : ℕ → ℚ) (l : List ℕ) (h : l ≠ []) : worstOf f l ∈ l ∧ ∀ s ∈ l, f s ≤ f (worstOf f l) := by
  cases l with
  | nil => exact absurd rfl h
  | cons s r => exact worst_spec f r s

/-- What is reported for numbers is true: the steps with one NaN are all of them, the number of steps that differ is theirs, and the step named is one of
those with the largest difference. -/
theorem C132_quant_report (rtol atol : ℚ) (b : ℕ) (c : String) (x y : List (Option ℚ)) (d : Diff) (h : d ∈ quant rtol atol b c x y) :
    (∃ l, d = .nan b c l ∧ l ≠ [] ∧ ∀ s, s ∈ l ↔ ∃ p q, x[s]? = some p ∧ y[s]? = some q ∧ oneNan p q = true) ∨
      (∃ (w : ℕ) (l : List ℕ), (d = .value b c l.length w ∨ d = .close b c w) ∧ w ∈ l ∧ (∀ s ∈ l, gap x y s ≤ gap x y w) ∧
        ∀ s ∈ l, ∃ p q : ℚ, x[s]? = some (some p) ∧ y[s]? = some (some q) ∧ ((∃ n, d = .value b c n w) → p ≠ q)) := by
  have hdiff : ∀ s, s ∈ stepsWhere differ x y → ∃ p q : ℚ, x[s]? = some (some p) ∧ y[s]? = some (some q) ∧ p ≠ q := by
    intro s hs
    obtain ⟨p, q, h1, h2, h3⟩ := (mem_stepsWhere _ _ _ _).1 hs
    cases p with
    | none => simp [differ] at h3
    | some p => cases q with
      | none => simp [differ] at h3
      | some q =>
        refine ⟨p, q, h1, h2, ?_⟩
        simpa [differ] using h3
  unfold quant at h
  rcases List.mem_append.1 h with h | h
  · left
    by_cases hc : stepsWhere oneNan x y = []
    · rw [if_pos hc] at h; cases h
    · rw [if_neg hc] at h
      exact ⟨_, List.mem_singleton.1 h, hc, fun s => mem_stepsWhere _ _ _ _⟩
  · right
    by_cases h0 : rtol = 0 ∧ atol = 0
    · rw [if_pos h0] at h
      by_cases hc : stepsWhere differ x y = []
      · rw [if_pos hc] at h; cases h
      · rw [if_neg hc] at h
        obtain ⟨h1, h2⟩ := worstOf_spec (gap x y) _ hc
        refine ⟨_, _, .inl (List.mem_singleton.1 h), h1, h2, ?_⟩
        intro s hs
        obtain ⟨p, q, e1, e2, e3⟩ := hdiff s hs
        exact ⟨p, q, e1, e2, fun _ => e3⟩
    · rw [if_neg h0] at h
      by_cases hc : (x.zip y).all (fun p => isClose rtol atol p.1 p.2) = true
      · rw [if_pos hc] at h; cases h
      · rw [if_neg hc] at h
        have hne : stepsWhere valid x y ≠ [] := by
          intro hn
          apply hc
          rw [List.all_eq_true]
          rintro ⟨p, q⟩ hp
          obtain ⟨i, hi⟩ := List.mem_iff_getElem?.1 hp
          rw [List.getElem?_zip_eq_some] at hi
          have := (stepsWhere_nil _ _ _).1 hn i p q hi.1 hi.2
          cases p with
          | none => rfl
          | some p => cases q with
            | none => rfl
            | some q => simp [valid] at this
        obtain ⟨h1, h2⟩ := worstOf_spec (gap x y) _ hne
        refine ⟨_, _, .inr (List.mem_singleton.1 h), h1, h2, ?_⟩
        intro s hs
        obtain ⟨p, q, e1, e2, e3⟩ := (mem_stepsWhere _ _ _ _).1 hs
        cases p with
        | none => simp [valid] at e3
        | some p => cases q with
          | none => simp [valid] at e3
          | some q =>
            refine ⟨p, q, e1, e2, ?_⟩
            rintro ⟨n, hn⟩
            rw [List.mem_singleton.1 h] at hn
            cases hn

/-- With tolerances, no difference of values is reported exactly if all are within them, measured by the candidate. -/
theorem C132_close (rtol atol : ℚ) (h0 : ¬(rtol = 0 ∧ atol = 0)) (b : ℕ) (c : String) (x y : List (Option ℚ)) :
    (∀ w, .close b c w ∉ quant rtol atol b c x y) ↔ ∀ (s : ℕ) (p q : ℚ), x[s]? = some (some p) → y[s]? = some (some q) → |p - q| ≤ atol + rtol * |q| := by
  have key : (x.zip y).all (fun p => isClose rtol atol p.1 p.2) = true ↔
      ∀ (s : ℕ) (p q : ℚ), x[s]? = some (some p) → y[s]? = some (some q) → |p - q| ≤ atol + rtol * |q| := by
    rw [List.all_eq_true]
    constructor
    · intro h s p q hp hq
      have hm : (some p, some q) ∈ x.zip y := List.mem_iff_getElem?.2 ⟨s, by rw [List.getElem?_zip_eq_some]; exact ⟨hp, hq⟩⟩
      simpa [isClose] using h _ hm
    · rintro h ⟨p, q⟩ hm
      obtain ⟨i, hi⟩ := List.mem_iff_getElem?.1 hm
      rw [List.getElem?_zip_eq_some] at hi
      cases p with
      | none => rfl
      | some p => cases q with
        | none => rfl
        | some q => simpa [isClose] using h i p q hi.1 hi.2
  rw [← key]
  unfold quant
  rw [if_neg h0]
  constructor
  · intro h
    by_contra hc
    apply h (worstOf (gap x y) (stepsWhere valid x y))
    rw [if_neg hc]
    exact List.mem_append_right _ List.mem_cons_self
  · intro h w hw
    rw [if_pos h, List.append_nil] at hw
    by_cases hc : stepsWhere oneNan x y = []
    · rw [if_pos hc] at hw; cases hw
    · rw [if_neg hc] at hw
      have := List.mem_singleton.1 hw
      cases this

def Col.len : Col → ℕ
  | .num l => l.length
  | .obj l => l.length

theorem floatsOf_length (io : Io) (l : List Cell) (m : List (Option ℚ)) (h : floatsOf io l = some m) : m.length = l.length := by
  induction l generalizing m with
  | nil => cases h; rfl
  | cons c r ih =>
    rw [floatsOf] at h
    cases h1 : floatOf io c with
    | none => rw [h1] at h; cases h
    | some q =>
      cases h2 : floatsOf io r with
      | none => rw [h1, h2] at h; cases h
      | some l' =>
        rw [h1, h2] at h
        cases h
        rw [List.length_cons, List.length_cons, ih _ h2]

theorem floats_length (io : Io) (c : Col) (m : List (Option ℚ)) (h : c.floats io = some m) : m.length = c.len := by
  cases c with
  | num l => cases h; rfl
  | obj l => exact floatsOf_length io l m h

theorem texts_length (io : Io) (c : Col) : (c.texts io).length = c.len := by
  cases c <;> simp [Col.texts, Col.len]

theorem take_all (c : Col) (n : ℕ) (h : c.len ≤ n) : c.take n = c := by
  cases c with
  | num l => exact congrArg Col.num (List.take_of_length_le h)
  | obj l => exact congrArg Col.obj (List.take_of_length_le h)

theorem column_nil (io : Io) (n : ℕ) (b : ℕ) (name : String) (x y : Col) (hx : x.len = n) (hy : y.len = n) :
    column io 0 0 n b name x y = some [] ↔ SameColumn io name x y := by
  unfold column SameColumn
  rw [take_all x n hx.le, take_all y n hy.le]
  by_cases hn : numeric name x = true
  · rw [if_pos hn, if_pos hn]
    cases h1 : x.floats io with
    | none => simp
    | some p =>
      cases h2 : y.floats io with
      | none => simp
      | some q =>
        have hl : p.length = q.length := by rw [floats_length io x p h1, floats_length io y q h2, hx, hy]
        simp only [Option.some.injEq]
        rw [C132_quant b name p q hl]
        constructor
        · rintro rfl; exact ⟨p, rfl, rfl⟩
        · rintro ⟨l, rfl, rfl⟩; rfl
  · rw [if_neg hn, if_neg hn, Option.some.injEq]
    exact C132_qual b name _ _ (by rw [texts_length, texts_length, hx, hy])

/-! ### One binary -/

theorem rowsOf_length {A : Type} (ids : List ℕ) (b : ℕ) (l : List A) (h : l.length = ids.length) : (rowsOf ids b l).length = ids.count b := by
  induction ids generalizing l with
  | nil => simp [rowsOf]
  | cons i r ih =>
    cases l with
    | nil => cases h
    | cons a l =>
      have ih := ih l (by simpa using h)
      unfold rowsOf at ih ⊢
      rw [List.length_map] at ih ⊢
      rw [List.zip_cons_cons, List.count_cons]
      by_cases hi : i = b
      · rw [List.filter_cons_of_pos (by simpa using hi), List.length_cons, ih, if_pos (by simpa using hi)]
      · rw [List.filter_cons_of_neg (by simpa using hi), ih, if_neg (by simpa using hi)]
        rfl

theorem colOf_len (t : Table) (ids : List ℕ) (h : Rect t ids) (b : ℕ) (c : String) (hc : c ∈ t.cols.map (·.1)) : (colOf t ids b c).len = ids.count b := by
  unfold colOf
  have : ∃ x, t.cols.lookup c = some x ∧ (c, x) ∈ t.cols := by
    have gen : ∀ l : List (String × Col), c ∈ l.map (·.1) → ∃ x, l.lookup c = some x ∧ (c, x) ∈ l := by
      intro l
      induction l with
      | nil => intro h; cases h
      | cons p r ih =>
        intro h
        obtain ⟨k, x⟩ := p
        by_cases hk : c = k
        · subst hk
          exact ⟨x, by simp [List.lookup], List.mem_cons_self⟩
        · rw [List.map_cons, List.mem_cons] at h
          obtain ⟨y, h1, h2⟩ := ih (h.resolve_left hk)
          refine ⟨y, ?_, List.mem_cons_of_mem _ h2⟩
          rw [List.lookup_cons, beq_false_of_ne hk]
          exact h1
    exact gen _ hc
  obtain ⟨x, h1, h2⟩ := this
  rw [h1]
  have := h.2 _ h2
  cases x with
  | num l => exact rowsOf_length ids b l this
  | obj l => exact rowsOf_length ids b l this

theorem mem_onlyIn (s t : Table) (c : String) : c ∈ onlyIn s t ↔ c ∈ s.cols.map (·.1) ∧ c ∉ t.cols.map (·.1) := by
  unfold onlyIn
  rw [mem_sortN, List.mem_filter, decide_eq_true_eq]

theorem mem_common (s t : Table) (c : String) : c ∈ common s t ↔ c ∈ s.cols.map (·.1) ∧ c ∈ t.cols.map (·.1) := by
  unfold common
  rw [mem_sortN, List.mem_filter, decide_eq_true_eq]

/-- Nothing is reported for a binary exactly if both tables have as many rows of it, the same columns and the same values. -/
theorem C132_binary (io : Io) (s t : Table) (is js : List ℕ) (hs : Rect s is) (ht : Rect t js) (b : ℕ) :
    binary io 0 0 s t is js b = some [] ↔ SameBinary io s t is js b := by
  have hnames : (onlyIn s t = [] ∧ onlyIn t s = []) ↔ ∀ c, c ∈ s.cols.map (·.1) ↔ c ∈ t.cols.map (·.1) := by
    simp only [List.eq_nil_iff_forall_not_mem, mem_onlyIn]
    constructor
    · rintro ⟨h1, h2⟩ c
      exact ⟨fun h => by by_contra hc; exact h1 c ⟨h, hc⟩, fun h => by by_contra hc; exact h2 c ⟨h, hc⟩⟩
    · intro h
      exact ⟨fun c hc => hc.2 ((h c).1 hc.1), fun c hc => hc.2 ((h c).2 hc.1)⟩
  have hcol : is.count b = js.count b → ∀ c, c ∈ s.cols.map (·.1) → c ∈ t.cols.map (·.1) →
      (column io 0 0 (min (is.count b) (js.count b)) b c (colOf s is b c) (colOf t js b c) = some [] ↔ SameColumn io c (colOf s is b c) (colOf t js b c)) := by
    intro he c h1 h2
    apply column_nil
    · rw [colOf_len s is hs b c h1, he, min_self]
    · rw [colOf_len t js ht b c h2, he, min_self]
  unfold binary
  constructor
  · intro h
    cases ha : allSome (fun c => column io 0 0 (min (is.count b) (js.count b)) b c (colOf s is b c) (colOf t js b c)) (common s t) with
    | none => rw [ha] at h; cases h
    | some l =>
      rw [ha] at h
      simp only [Option.some.injEq, List.append_eq_nil_iff] at h
      obtain ⟨⟨⟨h1, h2⟩, h3⟩, h4⟩ := h
      have e1 : is.count b = js.count b := by
        by_contra hc
        rw [if_pos hc] at h1
        cases h1
      have e2 : onlyIn s t = [] := by
        by_contra hc
        rw [if_neg hc] at h2
        cases h2
      have e3 : onlyIn t s = [] := by
        by_contra hc
        rw [if_neg hc] at h3
        cases h3
      have hn := hnames.1 ⟨e2, e3⟩
      refine ⟨e1, hn, ?_⟩
      intro c hc
      rw [h4, allSome_nil] at ha
      exact (hcol e1 c hc ((hn c).1 hc)).1 (ha c ((mem_common s t c).2 ⟨hc, (hn c).1 hc⟩))
  · rintro ⟨e1, hn, hc⟩
    have ha : allSome (fun c => column io 0 0 (min (is.count b) (js.count b)) b c (colOf s is b c) (colOf t js b c)) (common s t) = some [] := by
      rw [allSome_nil]
      intro c hm
      rw [mem_common] at hm
      exact (hcol e1 c hm.1 hm.2).2 (hc c hm.1)
    obtain ⟨e2, e3⟩ := hnames.2 hn
    rw [ha]
    dsimp only
    rw [if_neg (by simpa using e1), if_pos e2, if_pos e3]
    rfl

/-- Nothing is reported for the tables exactly if every binary of both agrees and every binary of only one of them failed in the other. -/
theorem C132_evolution (io : Io) (s t : Table) (is js : List ℕ) (hs : Rect s is) (ht : Rect t js) (be ce : List ℕ) :
    evolution io 0 0 s t be ce = some [] ↔
      (∀ b ∈ is, b ∈ js → SameBinary io s t is js b) ∧ (∀ b ∈ is, b ∉ js → b ∈ ce) ∧ ∀ b ∈ js, b ∉ is → b ∈ be := by
  have h1 : ∀ e is js : List ℕ, (sortU (is.filter fun b => b ∉ js)).filter (fun b => b ∉ e) = [] ↔ ∀ b ∈ is, b ∉ js → b ∈ e := by
    intro e is js
    rw [List.filter_eq_nil_iff]
    simp only [mem_sortU, List.mem_filter, decide_eq_true_eq, not_not, and_imp]
  have h2 : allSome (binary io 0 0 s t is js) (sortU (is.filter fun b => b ∈ js)) = some [] ↔ ∀ b ∈ is, b ∈ js → SameBinary io s t is js b := by
    rw [allSome_nil]
    simp only [mem_sortU, List.mem_filter, decide_eq_true_eq, and_imp]
    exact forall_congr' fun b => by
      refine forall_congr' fun _ => forall_congr' fun _ => ?_
      exact C132_binary io s t is js hs ht b
  unfold evolution
  rw [hs.1, ht.1]
  dsimp only
  rw [← h1, ← h1, ← h2]
  cases allSome (binary io 0 0 s t is js) (sortU (is.filter fun b => b ∈ js)) with
  | none => simp
  | some l =>
    simp only [Option.some.injEq, List.append_eq_nil_iff, List.map_eq_nil_iff]
    tauto

/-! ### Warnings and errors -/

/-- Nothing is reported for the warnings exactly if there are none in both, or every binary has the same categories and the same messages, as often. -/
theorem C132_warnings (v w : Option (List Warn)) :
    warnings v w = [] ↔ (v = none ∧ w = none) ∨ ∃ l m, v = some l ∧ w = some m ∧ l.length = m.length ∧
      ∀ b, ((l.filter fun r => r.id == b).map (·.category)).Perm ((m.filter fun r => r.id == b).map (·.category)) ∧
        ((l.filter fun r => r.id == b).map (·.message)).Perm ((m.filter fun r => r.id == b).map (·.message)) := by
  have hone : ∀ (l m : List Warn) (b : ℕ), warnOne l m b = [] ↔
      ((l.filter fun r => r.id == b).map (·.category)).Perm ((m.filter fun r => r.id == b).map (·.category)) ∧
        ((l.filter fun r => r.id == b).map (·.message)).Perm ((m.filter fun r => r.id == b).map (·.message)) := by
    intro l m b
    rw [← sorted_eq_iff, ← sorted_eq_iff]
    unfold warnOne
    dsimp only
    by_cases hl : (l.filter fun r => r.id == b).length = (m.filter fun r => r.id == b).length
    · rw [if_neg (by simpa using hl)]
      simp
    · rw [if_pos hl]
      constructor
      · intro h; cases h
      · rintro ⟨h, -⟩
        exfalso
        apply hl
        have := ((sorted_eq_iff _ _).1 h).length_eq
        simpa using this
  cases v with
  | none => cases w <;> simp [warnings]
  | some l =>
    cases w with
    | none => simp [warnings]
    | some m =>
      unfold warnings
      dsimp only
      rw [List.append_eq_nil_iff, List.flatMap_eq_nil_iff]
      simp only [mem_sortU, reduceCtorEq, false_and, false_or, Option.some.injEq]
      constructor
      · rintro ⟨h1, h2⟩
        refine ⟨l, m, rfl, rfl, ?_, ?_⟩
        · by_contra hc
          rw [if_pos hc] at h1
          cases h1
        · intro b
          by_cases hb : b ∈ (l ++ m).map (·.id)
          · exact (hone l m b).1 (h2 b hb)
          · have e : ∀ k : List Warn, (∀ r ∈ k, r.id ≠ b) → (k.filter fun r => r.id == b) = [] := by
              intro k hk
              rw [List.filter_eq_nil_iff]
              intro r hr
              simpa using hk r hr
            have hb' : ∀ r ∈ l ++ m, r.id ≠ b := fun r hr he => hb (he ▸ List.mem_map_of_mem hr)
            rw [e l fun r hr => hb' r (List.mem_append_left _ hr), e m fun r hr => hb' r (List.mem_append_right _ hr)]
            exact ⟨.nil, .nil⟩
      · rintro ⟨l', m', rfl, rfl, h1, h2⟩
        refine ⟨by rw [if_neg (by simpa using h1)], fun b _ => (hone _ _ b).2 (h2 b)⟩

/-- Nothing is reported for the errors exactly if there are none in both, or the same binaries failed and the first error of each is of the same type with the
same message. -/
theorem C132_errors (v w : Option (List Fail)) :
    errors v w = [] ↔ (v = none ∧ w = none) ∨ ∃ l m, v = some l ∧ w = some m ∧
      ∀ b, (firstErr l b).map (fun e => (e.type, e.message)) = (firstErr m b).map (fun e => (e.type, e.message)) := by
  have hfirst : ∀ (l : List Fail) (b : ℕ), (∃ e, firstErr l b = some e) ↔ b ∈ l.map (·.id) := by
    intro l b
    unfold firstErr
    rw [← Option.isSome_iff_exists, List.find?_isSome]
    simp only [beq_iff_eq, List.mem_map]
  have hnone : ∀ (l : List Fail) (b : ℕ), b ∉ l.map (·.id) → firstErr l b = none := by
    intro l b hb
    cases h : firstErr l b with
    | none => rfl
    | some e => exact absurd ((hfirst l b).1 ⟨e, h⟩) hb
  cases v with
  | none => cases w <;> simp [errors]
  | some l =>
    cases w with
    | none => simp [errors]
    | some m =>
      unfold errors
      dsimp only
      simp only [List.append_eq_nil_iff, List.map_eq_nil_iff, sortU_nil, List.filter_eq_nil_iff, List.flatMap_eq_nil_iff, mem_sortU, List.mem_filter,
        decide_eq_true_eq, not_not, and_imp, reduceCtorEq, false_and, false_or, Option.some.injEq]
      constructor
      · rintro ⟨⟨h1, h2⟩, h3⟩
        refine ⟨l, m, rfl, rfl, ?_⟩
        intro b
        by_cases hb : b ∈ l.map (·.id)
        · have hb' := h2 b hb
          obtain ⟨e, he⟩ := (hfirst l b).2 hb
          obtain ⟨e', he'⟩ := (hfirst m b).2 hb'
          have := h3 b hb hb'
          unfold errOne at this
          rw [he, he'] at this ⊢
          simp at this
          simp [this]
        · have hb' : b ∉ m.map (·.id) := fun h => hb (h1 b h)
          rw [hnone l b hb, hnone m b hb']
      · rintro ⟨l', m', rfl, rfl, h⟩
        have hiff : ∀ b, b ∈ l.map (·.id) ↔ b ∈ m.map (·.id) := by
          intro b
          rw [← hfirst, ← hfirst]
          have := h b
          cases h1 : firstErr l b <;> cases h2 : firstErr m b <;> rw [h1, h2] at this <;> simp at this ⊢
        refine ⟨⟨fun b hb => (hiff b).2 hb, fun b hb => (hiff b).1 hb⟩, ?_⟩
        intro b hb _
        have := h b
        unfold errOne
        cases h1 : firstErr l b <;> cases h2 : firstErr m b <;> rw [h1, h2] at this <;> simp at this ⊢
        exact this

/-! ### The command -/

/-- The tolerances: none by default, small ones with `--loose`, and those given in any case. -/
theorem C132_tolerances (loose : Bool) (rtol atol : Option ℚ) :
    tolerances false none none = (0, 0) ∧ tolerances true none none = (1 / 1000000000000, 1 / 1000000000000000) ∧
      (∀ r, rtol = some r → (tolerances loose rtol atol).1 = r) ∧ ∀ a, atol = some a → (tolerances loose rtol atol).2 = a := by
  refine ⟨rfl, ?_, ?_, ?_⟩
  · unfold tolerances
    norm_num
  · rintro r rfl; cases loose <;> rfl
  · rintro a rfl; cases loose <;> rfl

theorem main_zero (io : Io) (loose : Bool) (rtol atol : Option ℚ) (f g : Option File) :
    main io loose rtol atol f g = 0 ↔ ∃ a b, f = some a ∧ g = some b ∧ diffs io (tolerances loose rtol atol).1 (tolerances loose rtol atol).2 a b = some [] := by
  unfold main
  cases f with
  | none => simp
  | some a =>
    cases g with
    | none => simp
    | some b =>
      dsimp only
      cases hd : diffs io (tolerances loose rtol atol).1 (tolerances loose rtol atol).2 a b with
      | none => simp [hd]
      | some l => cases l <;> simp [hd]

/-- The exit code is 2 exactly if a file is not there or the comparison raised, 1 exactly if something is reported, and 0 exactly if nothing is. -/
theorem C132_exit (io : Io) (loose : Bool) (rtol atol : Option ℚ) (f g : File) :
    main io loose rtol atol none (some g) = 2 ∧ main io loose rtol atol (some f) none = 2 ∧
      (main io loose rtol atol (some f) (some g) = 2 ↔ diffs io (tolerances loose rtol atol).1 (tolerances loose rtol atol).2 f g = none) ∧
      (main io loose rtol atol (some f) (some g) = 1 ↔ ∃ l, l ≠ [] ∧ diffs io (tolerances loose rtol atol).1 (tolerances loose rtol atol).2 f g = some l) := by
  refine ⟨rfl, rfl, ?_, ?_⟩
  · unfold main
    dsimp only
    cases hd : diffs io (tolerances loose rtol atol).1 (tolerances loose rtol atol).2 f g with
    | none => simp
    | some l => cases l <;> simp
  · unfold main
    dsimp only
    cases hd : diffs io (tolerances loose rtol atol).1 (tolerances loose rtol atol).2 f g with
    | none => simp
    | some l => cases l <;> simp

theorem keysDiff_nil (s t : List String) : keysDiff s t = [] ↔ ∀ k, k ∉ ignored → (k ∈ s ↔ k ∈ t) := by
  unfold keysDiff
  simp only [List.append_eq_nil_iff, List.map_eq_nil_iff, List.filter_eq_nil_iff, mem_sortN, List.mem_filter, decide_eq_true_eq, not_not, and_imp]
  constructor
  · rintro ⟨h1, h2⟩ k hk
    exact ⟨fun h => by by_contra hc; exact hk (h1 k h hc), fun h => by by_contra hc; exact hk (h2 k h hc)⟩
  · intro h
    exact ⟨fun k h1 h2 => by by_contra hc; exact h2 ((h k hc).1 h1), fun k h1 h2 => by by_contra hc; exact h2 ((h k hc).2 h1)⟩

/-- A run of the suite whose binaries either ended or failed. -/
def Apart (f : File) : Prop := ∀ t ids, f.evol = some t → t.ids = some ids → ∀ b ∈ ids, b ∉ errIds f.err

/-- **Main theorem**: for files in which no binary has both an evolution and an error, the exact comparison ends with 0 exactly if both files have evolutions of the
same binaries, with as many rows, the same columns and the same values, the same warnings, the same first errors of the same binaries, and tables with the same names. -/
theorem C132_identical_partial (io : Io) (f g : File) (s t : Table) (is js : List ℕ) (hf : f.evol = some s) (hg : g.evol = some t) (hs : Rect s is) (ht : Rect t js)
    (af : Apart f) (ag : Apart g) :
    main io false none none (some f) (some g) = 0 ↔
      ((∀ b, b ∈ is ↔ b ∈ js) ∧ ∀ b ∈ is, SameBinary io s t is js b) ∧ warnings f.warn g.warn = [] ∧ errors f.err g.err = [] ∧
        ∀ k, k ∉ ignored → (k ∈ f.keys ↔ k ∈ g.keys) := by
  rw [main_zero]
  have hd : (∃ a b, some f = some a ∧ some g = some b ∧ diffs io (tolerances false none none).1 (tolerances false none none).2 a b = some []) ↔
      diffs io 0 0 f g = some [] := by
    constructor
    · rintro ⟨a, b, h1, h2, h3⟩
      cases h1
      cases h2
      exact h3
    · intro h
      exact ⟨f, g, rfl, rfl, h⟩
  rw [hd]
  unfold diffs evolPart
  rw [hf, hg]
  dsimp only
  have key := C132_evolution io s t is js hs ht (errIds f.err) (errIds g.err)
  have hids : errors f.err g.err = [] → ∀ b, b ∈ errIds f.err ↔ b ∈ errIds g.err := by
    intro he b
    rcases (C132_errors _ _).1 he with ⟨h1, h2⟩ | ⟨l, m, h1, h2, h3⟩
    · rw [h1, h2]
    · rw [h1, h2]
      have hfirst : ∀ (l : List Fail), (∃ e, firstErr l b = some e) ↔ b ∈ l.map (·.id) := by
        intro l
        unfold firstErr
        rw [← Option.isSome_iff_exists, List.find?_isSome]
        simp only [beq_iff_eq, List.mem_map]
      change b ∈ l.map (·.id) ↔ b ∈ m.map (·.id)
      rw [← hfirst, ← hfirst]
      have := h3 b
      cases e1 : firstErr l b <;> cases e2 : firstErr m b <;> rw [e1, e2] at this <;> simp at this ⊢
  constructor
  · intro h
    cases he : evolution io 0 0 s t (errIds f.err) (errIds g.err) with
    | none => rw [he] at h; cases h
    | some l =>
      rw [he] at h
      simp only [Option.some.injEq, List.append_eq_nil_iff] at h
      obtain ⟨⟨⟨h1, h2⟩, h3⟩, h4⟩ := h
      rw [h1] at he
      obtain ⟨k1, k2, k3⟩ := key.1 he
      have hi := hids h3
      have hsub : ∀ b, b ∈ is ↔ b ∈ js := by
        intro b
        constructor
        · intro hb
          by_contra hc
          exact af s is hf hs.1 b hb ((hi b).2 (k2 b hb hc))
        · intro hb
          by_contra hc
          exact ag t js hg ht.1 b hb ((hi b).1 (k3 b hb hc))
      exact ⟨⟨hsub, fun b hb => k1 b hb ((hsub b).1 hb)⟩, h2, h3, (keysDiff_nil _ _).1 h4⟩
  · rintro ⟨⟨h1, h2⟩, h3, h4, h5⟩
    have he : evolution io 0 0 s t (errIds f.err) (errIds g.err) = some [] :=
      key.2 ⟨fun b hb _ => h2 b hb, fun b hb hc => absurd ((h1 b).1 hb) hc, fun b hb hc => absurd ((h1 b).2 hb) hc⟩
    rw [he, h3, h4, (keysDiff_nil _ _).2 h5]
    rfl

theorem floats_of_numeric (io : Io) (name : String) (x : Col) (h : numeric name x = true) : ∃ l, x.floats io = some l := by
  cases x with
  | num l => exact ⟨l, rfl⟩
  | obj l =>
    unfold numeric at h
    by_cases hn : name ∈ qualitative
    · rw [if_pos hn] at h; cases h
    · rw [if_neg hn] at h; cases h

/-- A file compared with itself gives 0 if it has evolutions with the numbers of the binaries. -/
theorem C132_itself (io : Io) (f : File) (s : Table) (is : List ℕ) (hf : f.evol = some s) (hs : Rect s is) :
    main io false none none (some f) (some f) = 0 := by
  rw [main_zero]
  refine ⟨f, f, rfl, rfl, ?_⟩
  change diffs io 0 0 f f = some []
  unfold diffs evolPart
  rw [hf]
  dsimp only
  have he : evolution io 0 0 s s (errIds f.err) (errIds f.err) = some [] := by
    rw [C132_evolution io s s is is hs hs]
    refine ⟨fun b _ _ => ⟨rfl, fun _ => Iff.rfl, fun c _ => ?_⟩, fun b hb hc => absurd hb hc, fun b hb hc => absurd hb hc⟩
    unfold SameColumn
    by_cases hn : numeric c (colOf s is b c) = true
    · rw [if_pos hn]
      obtain ⟨l, hl⟩ := floats_of_numeric io c _ hn
      exact ⟨l, hl, hl⟩
    · rw [if_neg hn]
  have hw : warnings f.warn f.warn = [] := by
    rw [C132_warnings]
    cases hw : f.warn with
    | none => exact .inl ⟨rfl, rfl⟩
    | some l => exact .inr ⟨l, l, rfl, rfl, rfl, fun b => ⟨.refl _, .refl _⟩⟩
  have hr : errors f.err f.err = [] := by
    rw [C132_errors]
    cases hr : f.err with
    | none => exact .inl ⟨rfl, rfl⟩
    | some l => exact .inr ⟨l, l, rfl, rfl, fun b => rfl⟩
  rw [he, hw, hr, (keysDiff_nil _ _).2 fun _ _ => Iff.rfl]
  rfl

/-- Texts that agree are the same cells, if numbers are written in different ways and no text reads `nan` or `None` or like a number. -/
theorem C132_texts_partial (io : Io) (hfmt : Function.Injective io.fmt) (hn : ∀ q, io.fmt q ≠ "nan" ∧ io.fmt q ≠ "None") (c d : Cell)
    (hc : ∀ s, c = .text s → s ≠ "nan" ∧ s ≠ "None" ∧ ∀ q, s ≠ io.fmt q) (hd : ∀ s, d = .text s → s ≠ "nan" ∧ s ≠ "None" ∧ ∀ q, s ≠ io.fmt q)
    (h : cellText io c = cellText io d) : c = d := by
  have hne : "nan" ≠ "None" := by decide
  have key : ∀ q : Option ℚ, numText io q ≠ "None" := by
    intro q
    cases q with
    | none => exact hne
    | some q => exact (hn q).2
  have key2 : ∀ (q : Option ℚ) s, s ≠ "nan" → (∀ q, s ≠ io.fmt q) → numText io q ≠ s := by
    intro q s h1 h2
    cases q with
    | none => exact h1.symm
    | some q => exact (h2 q).symm
  cases c with
  | num p =>
    cases d with
    | num q =>
      cases p with
      | none => cases q with
        | none => rfl
        | some q => exact absurd h.symm (hn q).1
      | some p => cases q with
        | none => exact absurd h (hn p).1
        | some q => rw [hfmt h]
    | text s => exact absurd h (key2 p s (hd s rfl).1 (hd s rfl).2.2)
    | null => exact absurd h (key p)
  | text s =>
    cases d with
    | num q => exact absurd h.symm (key2 q s (hc s rfl).1 (hc s rfl).2.2)
    | text s' => exact congrArg Cell.text h
    | null => exact absurd h (hc s rfl).2.1
  | null =>
    cases d with
    | num q => exact absurd h.symm (key q)
    | text s => exact absurd h.symm (hd s rfl).2.1
    | null => rfl

/-! ### Violations -/

def plain : Io := ⟨fun q => if q = 1 then "1.0" else "2.0", fun _ => none⟩

def oneCol (c : String) (x : Col) (n : ℕ) : Table := ⟨some (List.replicate n 0), [(c, x)]⟩

/-- `None` and the text `None` are not told apart. -/
theorem C132_none_violated :
    main plain false none none (some ⟨some (oneCol "note" (.obj [.null]) 1), none, none, []⟩) (some ⟨some (oneCol "note" (.obj [.text "None"]) 1), none, none, []⟩) = 0 := by
  decide +kernel

/-- The answer depends on which file is the baseline: the type of its column decides how values are compared. -/
theorem C132_symmetry_violated :
    main plain false none none (some ⟨some (oneCol "x" (.num [none]) 1), none, none, []⟩) (some ⟨some (oneCol "x" (.obj [.null]) 1), none, none, []⟩) = 0 ∧
      main plain false none none (some ⟨some (oneCol "x" (.obj [.null]) 1), none, none, []⟩) (some ⟨some (oneCol "x" (.num [none]) 1), none, none, []⟩) = 1 ∧
      main plain false none none (some ⟨some (oneCol "x" (.num [some 1]) 1), none, none, []⟩) (some ⟨some (oneCol "x" (.obj [.text "a"]) 1), none, none, []⟩) = 2 := by
  decide +kernel

/-- A binary that failed in both runs and whose evolution is in one file only is not reported. -/
theorem C132_lost_violated (io : Io) (e : Fail) :
    main io false none none (some ⟨some (oneCol "x" (.num [some 1]) 1), none, some [⟨0, e.type, e.message⟩], []⟩)
      (some ⟨some ⟨some [], [("x", .num [])]⟩, none, some [⟨0, e.type, e.message⟩], []⟩) = 0 := by
  rw [main_zero]
  refine ⟨_, _, rfl, rfl, ?_⟩
  change diffs io 0 0 _ _ = _
  unfold diffs evolPart
  dsimp only
  have h1 : errors (some [⟨0, e.type, e.message⟩]) (some [⟨0, e.type, e.message⟩]) = [] := by
    rw [C132_errors]
    exact .inr ⟨_, _, rfl, rfl, fun b => rfl⟩
  rw [h1]
  rfl

/-- Only the first error of a binary is compared. -/
theorem C132_second_error_violated : errors (some [⟨3, "ValueError", "a"⟩, ⟨3, "KeyError", "b"⟩]) (some [⟨3, "ValueError", "a"⟩]) = [] := by decide +kernel

/-- Warnings are compared without what they belong together with: exchanging the messages of two categories is not reported. -/
theorem C132_pairs_violated : warnings (some [⟨0, "A", "m"⟩, ⟨0, "B", "n"⟩]) (some [⟨0, "A", "n"⟩, ⟨0, "B", "m"⟩]) = [] := by decide +kernel

/-- Two equal files in which no binary ended are reported as different. -/
theorem C132_empty_violated (io : Io) (f : File) (h : f.evol = none) : main io false none none (some f) (some f) = 1 := by
  unfold main diffs evolPart
  dsimp only
  rw [h]
  rfl

/-- With tolerances the candidate is said to match exactly although values differ, and the result depends on which file is the baseline. -/
theorem C132_loose_violated (io : Io) :
    quant (1 / 10) 0 0 "x" [some 10] [some 11] = [] ∧ quant (1 / 10) 0 0 "x" [some (100 / 9)] [some 10] ≠ [] ∧
      quant (1 / 10) 0 0 "x" [some 10] [some (100 / 9)] = [] ∧ main io false (some (1 / 10)) none (some ⟨some (oneCol "x" (.num [some 10]) 1), none, none, []⟩)
        (some ⟨some (oneCol "x" (.num [some 11]) 1), none, none, []⟩) = 0 := by
  refine ⟨by decide +kernel, by decide +kernel, by decide +kernel, ?_⟩
  have h : main io false (some (1 / 10)) none (some ⟨some (oneCol "x" (.num [some 10]) 1), none, none, []⟩)
        (some ⟨some (oneCol "x" (.num [some 11]) 1), none, none, []⟩) =
      main plain false (some (1 / 10)) none (some ⟨some (oneCol "x" (.num [some 10]) 1), none, none, []⟩)
        (some ⟨some (oneCol "x" (.num [some 11]) 1), none, none, []⟩) := rfl
  rw [h]
  decide +kernel

/-! ### The files of the suite -/

theorem mem_evolved (os : List Outcome) (i : ℕ) (b : ℕ) : b ∈ evolvedIds os i ↔ ∃ k n, os[k]? = some (.rows n) ∧ 0 < n ∧ b = i + k := by
  induction os generalizing i with
  | nil => simp [evolvedIds]
  | cons o r ih =>
    have step : (∃ k n, (o :: r)[k]? = some (.rows n) ∧ 0 < n ∧ b = i + k) ↔
        (∃ n, o = .rows n ∧ 0 < n ∧ b = i) ∨ ∃ k n, r[k]? = some (.rows n) ∧ 0 < n ∧ b = i + 1 + k := by
      constructor
      · rintro ⟨k, n, h1, h2, h3⟩
        cases k with
        | zero => exact .inl ⟨n, by simpa using h1, h2, by simpa using h3⟩
        | succ k => exact .inr ⟨k, n, by simpa using h1, h2, by omega⟩
      · rintro (⟨n, h1, h2, h3⟩ | ⟨k, n, h1, h2, h3⟩)
        · exact ⟨0, n, by simp [h1], h2, by simpa using h3⟩
        · exact ⟨k + 1, n, by simpa using h1, h2, by omega⟩
    rw [step]
    cases o with
    | rows m =>
      rw [evolvedIds, List.mem_append, ih, List.mem_replicate]
      constructor
      · rintro (⟨h1, h2⟩ | h)
        · exact .inl ⟨m, rfl, by omega, h2⟩
        · exact .inr h
      · rintro (⟨n, h1, h2, h3⟩ | h)
        · cases h1
          exact .inl ⟨by omega, h3⟩
        · exact .inr h
    | raised t m =>
      rw [evolvedIds, ih]
      constructor
      · exact .inr
      · rintro (⟨n, h1, -⟩ | h)
        · cases h1
        · exact h

theorem mem_failures (os : List Outcome) (i : ℕ) (e : Fail) : e ∈ failures os i ↔ ∃ k, os[k]? = some (.raised e.type e.message) ∧ e.id = i + k := by
  induction os generalizing i with
  | nil => simp [failures]
  | cons o r ih =>
    have step : (∃ k, (o :: r)[k]? = some (.raised e.type e.message) ∧ e.id = i + k) ↔
        (o = .raised e.type e.message ∧ e.id = i) ∨ ∃ k, r[k]? = some (.raised e.type e.message) ∧ e.id = i + 1 + k := by
      constructor
      · rintro ⟨k, h1, h3⟩
        cases k with
        | zero => exact .inl ⟨by simpa using h1, by simpa using h3⟩
        | succ k => exact .inr ⟨k, by simpa using h1, by omega⟩
      · rintro (⟨h1, h3⟩ | ⟨k, h1, h3⟩)
        · exact ⟨0, by simp [h1], by simpa using h3⟩
        · exact ⟨k + 1, by simpa using h1, by omega⟩
    rw [step]
    cases o with
    | rows m =>
      rw [failures, ih]
      constructor
      · exact .inr
      · rintro (⟨h1, -⟩ | h)
        · cases h1
        · exact h
    | raised t m =>
      rw [failures, List.mem_cons, ih]
      constructor
      · rintro (rfl | h)
        · exact .inl ⟨rfl, rfl⟩
        · exact .inr h
      · rintro (⟨h1, h2⟩ | h)
        · left
          cases e
          simp only [Outcome.raised.injEq] at h1
          simp_all
        · exact .inr h

/-- In the files of the suite no binary has both an evolution and an error, each failure is there once, and the binaries not accounted for are exactly those that ended
without a row. -/
theorem C132_suite (os : List Outcome) :
    (∀ b ∈ evolvedIds os 0, b ∉ (failures os 0).map (·.id)) ∧
      (∀ k t m, os[k]? = some (.raised t m) → ∃ e ∈ failures os 0, e = ⟨k, t, m⟩) ∧ (∀ b, b ∈ unaccounted os ↔ os[b]? = some (.rows 0)) := by
  refine ⟨?_, ?_, ?_⟩
  · intro b hb hc
    obtain ⟨k, n, h1, -, h3⟩ := (mem_evolved os 0 b).1 hb
    obtain ⟨e, he, rfl⟩ := List.mem_map.1 hc
    obtain ⟨k', h4, h5⟩ := (mem_failures os 0 e).1 he
    have : k = k' := by omega
    subst this
    rw [h1] at h4
    cases h4
  · intro k t m h
    exact ⟨⟨k, t, m⟩, (mem_failures os 0 _).2 ⟨k, h, (Nat.zero_add k).symm⟩, rfl⟩
  · intro b
    unfold unaccounted
    rw [mem_sortU, List.mem_filter, List.mem_range, decide_eq_true_eq, List.mem_append]
    constructor
    · rintro ⟨h1, h2⟩
      cases ho : os[b]? with
      | none => rw [List.getElem?_eq_none_iff] at ho; omega
      | some o =>
        cases o with
        | raised t m =>
          exact absurd (.inr (List.mem_map.2 ⟨⟨b, t, m⟩, (mem_failures os 0 _).2 ⟨b, ho, (Nat.zero_add b).symm⟩, rfl⟩)) h2
        | rows n =>
          cases n with
          | zero => rfl
          | succ n => exact absurd (.inl ((mem_evolved os 0 b).2 ⟨b, n + 1, ho, by omega, (Nat.zero_add b).symm⟩)) h2
    · intro h
      refine ⟨(List.getElem?_eq_some_iff.1 h).1, ?_⟩
      rintro (hb | hb)
      · obtain ⟨k, n, h1, h2, h3⟩ := (mem_evolved os 0 b).1 hb
        have : k = b := by omega
        subst this
        rw [h] at h1
        cases h1
        omega
      · obtain ⟨e, he, rfl⟩ := List.mem_map.1 hb
        obtain ⟨k, h4, h5⟩ := (mem_failures os 0 e).1 he
        have : k = e.id := by omega
        subst this
        rw [h] at h4
        cases h4

/-! ### The script -/

/-- With a branch, a baseline and metallicities, the options after them are read. -/
theorem C132_options (b m z : String) :
    parseArgs [b, m, z, "--loose", "--atol", "1e-10"] = some ⟨b, m, z, true, none, some "1e-10", false⟩ ∧
      parseArgs [b, m, z, "--rtol", "1e-8", "--skip-evolve"] = some ⟨b, m, z, false, some "1e-8", none, true⟩ ∧
      parseArgs [b, m, z, "--fast"] = none ∧ parseArgs [b, m, z, "--rtol"] = none := ⟨rfl, rfl, rfl, rfl⟩

/-- The calls given in its description: an option that comes earlier is taken for the baseline or the metallicities. -/
theorem C132_options_violated (b m : String) :
    parseArgs [b, "--loose"] = some ⟨b, "--loose", "2 1 0.45 0.2 0.1 0.01 0.001 0.0001", false, none, none, false⟩ ∧
      parseArgs [b, "--skip-evolve"] = some ⟨b, "--skip-evolve", "2 1 0.45 0.2 0.1 0.01 0.001 0.0001", false, none, none, false⟩ ∧
      parseArgs [b, m, "--rtol", "1e-8"] = none := ⟨rfl, rfl, rfl⟩

/-- The script succeeds exactly if no metallicity differs and none lacks a candidate. -/
theorem C132_script (l : List State) : scriptExit l = 0 ↔ ∀ s ∈ l, s = .same ∨ s = .noBaseline := by
  unfold scriptExit
  constructor
  · intro h s hs
    by_contra hc
    rw [if_pos] at h
    · cases h
    · rw [List.countP_pos_iff]
      refine ⟨s, hs, ?_⟩
      cases s <;> simp at hc ⊢
  · intro h
    rw [if_neg]
    rw [List.countP_pos_iff]
    rintro ⟨s, hs, h2⟩
    rcases h s hs with rfl | rfl <;> simp at h2

/-- It also succeeds if nothing was compared. -/
theorem C132_script_violated (n : ℕ) : scriptExit (List.replicate n .noBaseline) = 0 := by
  rw [C132_script]
  intro s hs
  exact .inr (List.eq_of_mem_replicate hs)

example : main plain false none none
    (some ⟨some ⟨some [0, 0, 2], [("state", .obj [.text "detached", .text "RLO1", .text "detached"]), ("x", .num [some 1, none, some 2])]⟩, none, some [⟨1, "E", "m"⟩], []⟩)
    (some ⟨some ⟨some [2, 0, 0], [("x", .num [some 2, some 1, none]), ("state", .obj [.text "detached", .text "detached", .text "RLO1"])]⟩, none, some [⟨1, "E", "m"⟩], []⟩) = 0 ∧
  main plain false none none
    (some ⟨some ⟨some [0, 0, 2], [("state", .obj [.text "detached", .text "RLO1", .text "detached"]), ("x", .num [some 1, none, some 2])]⟩, none, some [⟨1, "E", "m"⟩], []⟩)
    (some ⟨some ⟨some [2, 0, 0], [("x", .num [some 2, none, some 1]), ("state", .obj [.text "detached", .text "RLO1", .text "detached"])]⟩, none, some [⟨1, "E", "m"⟩], []⟩) = 1 := by
  decide +kernel

end Verif.Compare
