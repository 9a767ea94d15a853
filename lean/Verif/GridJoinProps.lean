import Verif.Chars
import Verif.GridJoin
import Verif.TermFlagsProps
import Mathlib.Tactic.Linarith
import Mathlib.Tactic.NormNum
import Mathlib.Data.List.Nodup
/-!
C85: joining grids keeps for each system the last run, whole; directories are told apart by the values in their names.
-/
namespace Verif.GridJoin

open Verif.Frame (Name isIn split splitGo before)
open Verif.TermFlags (Sys Boundary Separated)

/-! ### Splitting -/

/-- One of two texts begins with the other. -/
def compat (a b : Name) : Bool := a.isPrefixOf b || b.isPrefixOf a

/-- `sep` cannot begin inside `lit`, whatever follows. -/
def noPre (sep : Name) : Name → Bool
  | [] => true
  | c :: l => !compat sep (c :: l) && noPre sep l

theorem compat_of_prefix : ∀ (a b s : Name), a.isPrefixOf (b ++ s) = true → compat a b = true
  | [], _, _, _ => by simp [compat]
  | _ :: _, [], _, _ => by simp [compat]
  | x :: a, y :: b, s, h => by
    simp only [List.cons_append, List.isPrefixOf, Bool.and_eq_true] at h
    have := compat_of_prefix a b s h.2
    simp only [compat, List.isPrefixOf, Bool.or_eq_true, Bool.and_eq_true] at this ⊢
    have hxy : (y == x) = true := by
      have := h.1
      rw [beq_iff_eq] at this ⊢
      exact this.symm
    rcases this with t | t
    · exact Or.inl ⟨h.1, t⟩
    · exact Or.inr ⟨hxy, t⟩

theorem walk_lit (sep : Name) : ∀ (lit cur s : Name), noPre sep lit = true → splitGo sep 0 cur (lit ++ s) = splitGo sep 0 (lit.reverse ++ cur) s
  | [], _, _, _ => rfl
  | c :: l, cur, s, h => by
    simp only [noPre, Bool.and_eq_true, Bool.not_eq_true'] at h
    have hp : sep.isPrefixOf (c :: (l ++ s)) = false := by
      cases hh : sep.isPrefixOf (c :: (l ++ s)) with
      | false => rfl
      | true =>
        have := compat_of_prefix sep (c :: l) s (by simpa using hh)
        rw [h.1] at this
        cases this
    rw [List.cons_append, splitGo, hp]
    simp only [Bool.false_eq_true, if_false]
    rw [walk_lit sep l (c :: cur) s h.2]
    simp

theorem walk_val (x : Char) (sep : Name) : ∀ (v cur s : Name), x ∉ v → splitGo (x :: sep) 0 cur (v ++ s) = splitGo (x :: sep) 0 (v.reverse ++ cur) s
  | [], _, _, _ => rfl
  | c :: l, cur, s, h => by
    simp only [List.mem_cons, not_or] at h
    rw [List.cons_append, splitGo, show (x :: sep).isPrefixOf (c :: (l ++ s)) = false by simp [List.isPrefixOf, h.1]]
    simp only [Bool.false_eq_true, if_false]
    rw [walk_val x sep l (c :: cur) s h.2]
    simp

theorem splitGo_drop (sep : Name) : ∀ (t cur s : Name), splitGo sep t.length cur (t ++ s) = splitGo sep 0 cur s
  | [], _, _ => rfl
  | _ :: t, cur, s => by
    simp only [List.length_cons, List.cons_append, splitGo]
    exact splitGo_drop sep t cur s

theorem walk_sep (x : Char) (sep cur s : Name) : splitGo (x :: sep) 0 cur ((x :: sep) ++ s) = cur.reverse :: splitGo (x :: sep) 0 [] s := by
  rw [List.cons_append, splitGo, if_pos (by simp [List.isPrefixOf])]
  simp only [List.length_cons, Nat.add_sub_cancel]
  rw [splitGo_drop]

/-- The first piece of the rest begins with what was read. -/
theorem splitGo_head (sep : Name) : ∀ (s cur : Name) (k : ℕ), ∃ w l, splitGo sep k cur s = (cur.reverse ++ w) :: l ∧ w <+: s.drop k
  | [], cur, k => ⟨[], [], by simp [splitGo], by simp⟩
  | c :: s, cur, k + 1 => by
    obtain ⟨w, l, h1, h2⟩ := splitGo_head sep s cur k
    exact ⟨w, l, by simp only [splitGo]; exact h1, by simpa using h2⟩
  | c :: s, cur, 0 => by
    rw [splitGo]
    by_cases h : sep.isPrefixOf (c :: s) = true
    · rw [if_pos h]
      exact ⟨[], splitGo sep (sep.length - 1) [] s, by simp, by simp⟩
    · rw [if_neg h]
      obtain ⟨w, l, h1, h2⟩ := splitGo_head sep s (c :: cur) 0
      refine ⟨c :: w, l, by rw [h1]; simp, ?_⟩
      simp only [List.drop_zero] at h2 ⊢
      exact List.cons_prefix_cons.2 ⟨rfl, h2⟩

theorem before_val (v rest : Name) (hv : '_' ∉ v) (hr : rest = [] ∨ ∃ r, rest = '_' :: r) : before (chars! "_") (v ++ rest) = v := by
  unfold before split
  rw [show (chars! "_") = ['_'] from rfl, walk_val '_' [] v [] rest hv]
  rcases hr with rfl | ⟨r, rfl⟩
  · simp [splitGo]
  · have := walk_sep '_' [] (v.reverse ++ []) r
    rw [List.cons_append, List.nil_append] at this
    rw [this]
    simp

/-- A value which can be told apart from names: no underscore, no `m` and no `i`. -/
def Num (v : Name) : Prop := ∀ c ∈ v, c ≠ '_' ∧ c ≠ 'm' ∧ c ≠ 'i'

theorem Num.us {v : Name} (h : Num v) : '_' ∉ v := fun hh => (h _ hh).1 rfl
theorem Num.m {v : Name} (h : Num v) : 'm' ∉ v := fun hh => (h _ hh).2.1 rfl
theorem Num.i {v : Name} (h : Num v) : 'i' ∉ v := fun hh => (h _ hh).2.2 rfl

/-- The value after the first occurrence. -/
theorem field_of_walk (x : Char) (name : Name) (s pre v rest : Name) (hs : splitGo (x :: name ++ (chars! "_")) 0 [] s
      = pre :: splitGo (x :: name ++ (chars! "_")) 0 [] (v ++ rest))
    (hv : '_' ∉ v) (hx : x ∉ v) (hr : rest = [] ∨ ∃ r, rest = '_' :: r) : field s (x :: name) = .ok v := by
  unfold field split
  rw [hs]
  simp only [List.getElem?_cons_succ]
  rw [show x :: name ++ (chars! "_") = x :: (name ++ (chars! "_")) from rfl] at *
  rw [walk_val x _ v [] rest hx]
  obtain ⟨w, l, h1, h2⟩ := splitGo_head (x :: (name ++ (chars! "_"))) rest (v.reverse ++ []) 0
  rw [h1]
  simp only [List.getElem?_cons_zero, List.append_nil, List.reverse_reverse]
  rw [before_val v w hv]
  rcases hr with rfl | ⟨r, rfl⟩
  · left
    simpa using h2
  · cases w with
    | nil => exact Or.inl rfl
    | cons c w =>
      right
      simp only [List.drop_zero, List.cons_prefix_cons] at h2
      exact ⟨w, by rw [h2.1]⟩

/-! ### Texts within texts -/

theorem isIn_cons (p : Name) (c : Char) (s : Name) : isIn p (c :: s) = (p.isPrefixOf (c :: s) || isIn p s) := by
  simp [isIn, List.tails]

theorem isIn_lit (p : Name) : ∀ (lit s : Name), noPre p lit = true → isIn p (lit ++ s) = isIn p s
  | [], _, _ => rfl
  | c :: l, s, h => by
    simp only [noPre, Bool.and_eq_true, Bool.not_eq_true'] at h
    rw [List.cons_append, isIn_cons, isIn_lit p l s h.2]
    have hp : p.isPrefixOf (c :: (l ++ s)) = false := by
      cases hh : p.isPrefixOf (c :: (l ++ s)) with
      | false => rfl
      | true =>
        have := compat_of_prefix p (c :: l) s (by simpa using hh)
        rw [h.1] at this
        cases this
    rw [hp, Bool.false_or]

theorem isIn_val (x : Char) (p : Name) : ∀ (v s : Name), x ∉ v → isIn (x :: p) (v ++ s) = isIn (x :: p) s
  | [], _, _ => rfl
  | c :: l, s, h => by
    simp only [List.mem_cons, not_or] at h
    rw [List.cons_append, isIn_cons, isIn_val x p l s h.2, show (x :: p).isPrefixOf (c :: (l ++ s)) = false by simp [List.isPrefixOf, h.1], Bool.false_or]

theorem isIn_here (p s : Name) : isIn p (p ++ s) = true := by
  cases p with
  | nil => cases s <;> simp [isIn, List.tails]
  | cons c p =>
    rw [List.cons_append, isIn_cons]
    have : (c :: p).isPrefixOf (c :: (p ++ s)) = true := by
      rw [← List.cons_append]
      simp [List.isPrefixOf]
    rw [this]
    rfl

theorem isIn_before (p a s : Name) (h : isIn p s = true) : isIn p (a ++ s) = true := by
  induction a with
  | nil => exact h
  | cons c a ih => rw [List.cons_append, isIn_cons, ih, Bool.or_true]

/-! ### Names of directories -/

/-- Names of directories of binaries, with the metallicity and the number of the run. -/
def binaryDir (a b z p k : Name) : Name :=
  (chars! "m1_") ++ (a ++ ((chars! "_m2_") ++ (b ++ ((chars! "_initial_z_") ++ (z ++ ((chars! "_initial_period_in_days_") ++ (p ++ ((chars! "_grid_index_") ++ k))))))))

/-- Names of directories of single stars. -/
def singleDir (a z k : Name) : Name := (chars! "initial_mass_") ++ (a ++ ((chars! "_initial_z_") ++ (z ++ ((chars! "_grid_index_") ++ k))))

theorem fields_ok (d : Name) : ∀ (ns vs : List Name), List.Forall₂ (fun n v => field d n = .ok v) ns vs → fields d ns = .ok vs
  | [], [], _ => rfl
  | n :: ns, v :: vs, h => by
    cases h with
    | cons h1 h2 => simp only [fields, h1, fields_ok d ns vs h2]

/-- **C85** The values in the name of a directory of a binary are found, in the order of masses, period and metallicity. -/
theorem C85_binary_name (a b z p k : Name) (ha : Num a) (hb : Num b) (hz : Num z) (hp : Num p) (hk : Num k) :
    params false (binaryDir a b z p k) = .ok [a, b, p, z] := by
  have h0 : isIn (chars! "initial_mass") (binaryDir a b z p k) = false := by
    unfold binaryDir
    rw [isIn_lit _ _ _ (by decide +kernel), show (chars! "initial_mass") = 'i' :: (chars! "nitial_mass") from rfl, isIn_val _ _ _ _ ha.i,
      isIn_lit _ _ _ (by decide +kernel), isIn_val _ _ _ _ hb.i, isIn_lit _ _ _ (by decide +kernel), isIn_val _ _ _ _ hz.i,
      isIn_lit _ _ _ (by decide +kernel), isIn_val _ _ _ _ hp.i, isIn_lit _ _ _ (by decide +kernel), ← List.append_nil k, isIn_val _ _ _ _ hk.i]
    rfl
  have h1 : isIn (chars! "initial_eccentricity") (binaryDir a b z p k) = false := by
    unfold binaryDir
    rw [isIn_lit _ _ _ (by decide +kernel), show (chars! "initial_eccentricity") = 'i' :: (chars! "nitial_eccentricity") from rfl, isIn_val _ _ _ _ ha.i,
      isIn_lit _ _ _ (by decide +kernel), isIn_val _ _ _ _ hb.i, isIn_lit _ _ _ (by decide +kernel), isIn_val _ _ _ _ hz.i,
      isIn_lit _ _ _ (by decide +kernel), isIn_val _ _ _ _ hp.i, isIn_lit _ _ _ (by decide +kernel), ← List.append_nil k, isIn_val _ _ _ _ hk.i]
    rfl
  have hw : wanted false (binaryDir a b z p k) = [(chars! "m1"), (chars! "m2"), (chars! "initial_period_in_days"), (chars! "initial_z")] := by
    unfold wanted
    rw [h0, h1]
    rfl
  have n1 : isIn (chars! "m1") (binaryDir a b z p k) = true := isIn_here (chars! "m1") ((chars! "_") ++ _)
  have n2 : isIn (chars! "m2") (binaryDir a b z p k) = true :=
    isIn_before _ (chars! "m1_") _ (isIn_before _ a _ (isIn_before _ (chars! "_") _ (isIn_here (chars! "m2") ((chars! "_") ++ _))))
  have n3 : isIn (chars! "initial_z") (binaryDir a b z p k) = true :=
    isIn_before _ (chars! "m1_") _ (isIn_before _ a _ (isIn_before _ (chars! "_m2_") _ (isIn_before _ b _ (isIn_before _ (chars! "_") _
      (isIn_here (chars! "initial_z") ((chars! "_") ++ _))))))
  have n4 : isIn (chars! "initial_period_in_days") (binaryDir a b z p k) = true :=
    isIn_before _ (chars! "m1_") _ (isIn_before _ a _ (isIn_before _ (chars! "_m2_") _ (isIn_before _ b _ (isIn_before _ (chars! "_initial_z_") _
      (isIn_before _ z _ (isIn_before _ (chars! "_") _ (isIn_here (chars! "initial_period_in_days") ((chars! "_") ++ _))))))))
  unfold params
  rw [hw, if_neg]
  · refine fields_ok _ _ _ (.cons ?_ (.cons ?_ (.cons ?_ (.cons ?_ .nil))))
    · refine field_of_walk 'm' (chars! "1") _ [] a ((chars! "_m2_") ++ (b ++ ((chars! "_initial_z_") ++ (z ++ ((chars! "_initial_period_in_days_") ++ (p ++ ((chars! "_grid_index_") ++ k))))))) ?_ ha.us ha.m (Or.inr ⟨_, rfl⟩)
      exact walk_sep 'm' (chars! "1_") [] _
    · refine field_of_walk 'm' (chars! "2") _ ((chars! "m1_") ++ (a ++ (chars! "_"))) b ((chars! "_initial_z_") ++ (z ++ ((chars! "_initial_period_in_days_") ++ (p ++ ((chars! "_grid_index_") ++ k))))) ?_ hb.us hb.m (Or.inr ⟨_, rfl⟩)
      unfold binaryDir
      rw [walk_lit _ _ _ _ (by decide +kernel)]
      show splitGo ('m' :: (chars! "2_")) 0 _ _ = _
      rw [walk_val _ _ _ _ _ ha.m]
      show splitGo ('m' :: (chars! "2_")) 0 _ ((chars! "_") ++ (((chars! "m2_")) ++ _)) = _
      rw [walk_lit _ _ _ _ (by decide +kernel)]
      refine (walk_sep 'm' (chars! "2_") _ _).trans ?_
      simp
    · refine field_of_walk 'i' (chars! "nitial_period_in_days") _ ((chars! "m1_") ++ (a ++ ((chars! "_m2_") ++ (b ++ ((chars! "_initial_z_") ++ (z ++ (chars! "_"))))))) p ((chars! "_grid_index_") ++ k) ?_
        hp.us hp.i (Or.inr ⟨_, rfl⟩)
      unfold binaryDir
      rw [walk_lit _ _ _ _ (by decide +kernel)]
      show splitGo ('i' :: (chars! "nitial_period_in_days_")) 0 _ _ = _
      rw [walk_val _ _ _ _ _ ha.i, walk_lit _ _ _ _ (by decide +kernel), walk_val _ _ _ _ _ hb.i, walk_lit _ _ _ _ (by decide +kernel),
        walk_val _ _ _ _ _ hz.i]
      show splitGo ('i' :: (chars! "nitial_period_in_days_")) 0 _ ((chars! "_") ++ (((chars! "initial_period_in_days_")) ++ _)) = _
      rw [walk_lit _ _ _ _ (by decide +kernel)]
      refine (walk_sep 'i' (chars! "nitial_period_in_days_") _ _).trans ?_
      simp
    · refine field_of_walk 'i' (chars! "nitial_z") _ ((chars! "m1_") ++ (a ++ ((chars! "_m2_") ++ (b ++ (chars! "_"))))) z ((chars! "_initial_period_in_days_") ++ (p ++ ((chars! "_grid_index_") ++ k))) ?_ hz.us hz.i (Or.inr ⟨_, rfl⟩)
      unfold binaryDir
      rw [walk_lit _ _ _ _ (by decide +kernel)]
      show splitGo ('i' :: (chars! "nitial_z_")) 0 _ _ = _
      rw [walk_val _ _ _ _ _ ha.i, walk_lit _ _ _ _ (by decide +kernel), walk_val _ _ _ _ _ hb.i]
      show splitGo ('i' :: (chars! "nitial_z_")) 0 _ ((chars! "_") ++ (((chars! "initial_z_")) ++ _)) = _
      rw [walk_lit _ _ _ _ (by decide +kernel)]
      refine (walk_sep 'i' (chars! "nitial_z_") _ _).trans ?_
      simp
  · rintro ⟨-, n, hn, hf⟩
    simp only [List.mem_cons, List.not_mem_nil, or_false] at hn
    rcases hn with rfl | rfl | rfl | rfl
    · rw [n1] at hf; cases hf
    · rw [n2] at hf; cases hf
    · rw [n4] at hf; cases hf
    · rw [n3] at hf; cases hf

/-- **C85** The values in the name of a directory of a single star are found. -/
theorem C85_single_name (a z k : Name) (ha : Num a) (hz : Num z) (hk : Num k) : params false (singleDir a z k) = .ok [a, z] := by
  have h0 : isIn (chars! "initial_mass") (singleDir a z k) = true := isIn_here (chars! "initial_mass") ((chars! "_") ++ _)
  have hw : wanted false (singleDir a z k) = [(chars! "initial_mass"), (chars! "initial_z")] := by
    unfold wanted
    rw [h0]
    rfl
  unfold params
  rw [hw, if_neg (by rw [h0]; simp)]
  refine fields_ok _ _ _ (.cons ?_ (.cons ?_ .nil))
  · refine field_of_walk 'i' (chars! "nitial_mass") _ [] a ((chars! "_initial_z_") ++ (z ++ ((chars! "_grid_index_") ++ k))) ?_ ha.us ha.i (Or.inr ⟨_, rfl⟩)
    exact walk_sep 'i' (chars! "nitial_mass_") [] _
  · refine field_of_walk 'i' (chars! "nitial_z") _ ((chars! "initial_mass_") ++ (a ++ (chars! "_"))) z ((chars! "_grid_index_") ++ k) ?_ hz.us hz.i (Or.inr ⟨_, rfl⟩)
    unfold singleDir
    rw [walk_lit _ _ _ _ (by decide +kernel)]
    show splitGo ('i' :: (chars! "nitial_z_")) 0 _ _ = _
    rw [walk_val _ _ _ _ _ ha.i]
    show splitGo ('i' :: (chars! "nitial_z_")) 0 _ ((chars! "_") ++ (((chars! "initial_z_")) ++ _)) = _
    rw [walk_lit _ _ _ _ (by decide +kernel)]
    refine (walk_sep 'i' (chars! "nitial_z_") _ _).trans ?_
    simp

theorem isNum (v : Name) (h : (v.all fun c => c != '_' && c != 'm' && c != 'i') = true) : Num v := by
  intro c hc
  rw [List.all_eq_true] at h
  have := h c hc
  simp only [Bool.and_eq_true, bne_iff_ne, ne_eq] at this
  exact ⟨this.1.1, this.1.2, this.2⟩

example : params false (chars! "m1_10.0_m2_5.25_initial_z_1.42e-02_initial_period_in_days_2.5e+00_grid_index_7") =
    .ok [(chars! "10.0"), (chars! "5.25"), (chars! "2.5e+00"), (chars! "1.42e-02")] :=
  C85_binary_name (chars! "10.0") (chars! "5.25") (chars! "1.42e-02") (chars! "2.5e+00") (chars! "7") (isNum _ (by decide +kernel)) (isNum _ (by decide +kernel))
    (isNum _ (by decide +kernel)) (isNum _ (by decide +kernel)) (isNum _ (by decide +kernel))

/-- **C85** The number of the run in the grid does not matter: runs of the same system are recognised in all grids. -/
theorem C85_same_system (a b z p k k' : Name) (ha : Num a) (hb : Num b) (hz : Num z) (hp : Num p) (hk : Num k) (hk' : Num k') :
    params false (binaryDir a b z p k) = params false (binaryDir a b z p k') := by
  rw [C85_binary_name a b z p k ha hb hz hp hk, C85_binary_name a b z p k' ha hb hz hp hk']

/-- **C85** Violated: values are compared as texts, so that the same mass written in two ways is two systems. -/
theorem C85_text_violated : params false (binaryDir (chars! "10.0") (chars! "5") (chars! "1") (chars! "2") (chars! "7")) ≠
    params false (binaryDir (chars! "10.00") (chars! "5") (chars! "1") (chars! "2") (chars! "7")) := by decide +kernel

/-- **C85** Violated: directories of single stars are not checked, a missing name is an index error and not a failed assertion. -/
theorem C85_single_violated : params false (chars! "initial_mass_10.0_grid_index_3") = .error .index ∧
    params false (chars! "m1_10.0_m2_5_grid_index_3") = .error .assertion := by decide +kernel

/-! ### Dictionaries -/

theorem get_put {α : Type} (d : Dict α) (k k' : List Name) (v : α) : (d.put k v).get k' = if k' = k then some v else d.get k' := by
  unfold Dict.put Dict.get
  by_cases h : (d.any fun p => p.1 == k) = true
  · rw [if_pos h]
    induction d with
    | nil => simp at h
    | cons p d ih =>
      by_cases hp : p.1 = k
      · by_cases hk : k' = k
        · subst hk
          simp [hp]
        · have : ¬ k = k' := fun e => hk e.symm
          have hpk : ¬ p.1 = k' := fun e => hk (e.symm.trans hp)
          rw [if_neg hk]
          simp only [List.map_cons, if_pos hp, List.find?_cons, beq_eq_false_iff_ne.2 this, beq_eq_false_iff_ne.2 hpk]
          by_cases ha : (d.any fun p => p.1 == k) = true
          · rw [ih ha, if_neg hk]
          · have : d.map (fun p => if p.1 = k then (k, v) else p) = d := by
              conv_rhs => rw [← List.map_id d]
              refine List.map_congr_left fun q hq => ?_
              have : ¬ q.1 = k := by
                intro e
                exact ha (List.any_eq_true.2 ⟨q, hq, by simp [e]⟩)
              simp [this]
            rw [this]
      · have ha : (d.any fun p => p.1 == k) = true := by simpa [hp] using h
        simp only [List.map_cons, if_neg hp, List.find?_cons]
        by_cases hpk : p.1 = k'
        · have hk : ¬ k' = k := fun e => hp (hpk.trans e)
          simp [hpk, hk]
        · simp only [beq_eq_false_iff_ne.2 hpk]
          exact ih ha
  · rw [if_neg h]
    rw [List.find?_append]
    by_cases hk : k' = k
    · subst hk
      have : d.find? (fun p => p.1 == k') = none := by
        rw [List.find?_eq_none]
        intro x hx hh
        exact h (List.any_eq_true.2 ⟨x, hx, hh⟩)
      simp [this]
    · have : ¬ k = k' := fun e => hk e.symm
      simp [hk, this]

theorem get_del {α : Type} (d : Dict α) (k k' : List Name) : (d.del k).get k' = if k' = k then none else d.get k' := by
  unfold Dict.del Dict.get
  by_cases hk : k' = k
  · subst hk
    have : (d.filter fun p => p.1 != k').find? (fun p => p.1 == k') = none := by
      rw [List.find?_eq_none]
      intro x hx hh
      have := (List.mem_filter.1 hx).2
      simp at hh this
      exact this hh
    simp [this]
  · rw [if_neg hk, List.find?_filter]
    congr 1
    congr 1
    funext p
    by_cases h : p.1 = k'
    · simp [h, hk]
    · simp [h]

theorem keys_put {α : Type} (d : Dict α) (k : List Name) (v : α) (h : (d.map (·.1)).Nodup) : ((d.put k v).map (·.1)).Nodup := by
  unfold Dict.put
  by_cases ha : (d.any fun p => p.1 == k) = true
  · rw [if_pos ha, List.map_map]
    have : ((fun p : List Name × α => p.1) ∘ fun p => if p.1 = k then (k, v) else p) = fun p => p.1 := by
      funext p
      by_cases hp : p.1 = k
      · simp [hp]
      · simp [hp]
    rw [this]
    exact h
  · rw [if_neg ha, List.map_append]
    refine List.nodup_append.2 ⟨h, by simp, ?_⟩
    intro a h1 b h2 hab
    obtain ⟨q, hq, rfl⟩ := List.mem_map.1 h1
    simp only [List.map_cons, List.map_nil, List.mem_singleton] at h2
    exact ha (List.any_eq_true.2 ⟨q, hq, by simp [hab, h2]⟩)

theorem keys_del {α : Type} (d : Dict α) (k : List Name) (h : (d.map (·.1)).Nodup) : ((d.del k).map (·.1)).Nodup :=
  h.sublist (List.filter_sublist.map _)

/-- **C85** Of each system the last run found is taken, unless that one was ignored for lack of an overflow; then the system is left out, even
if it was there before. Each system is taken once. -/
theorem C85_last (os : List Occ) :
    (∀ k, (pick os).get k = match os.reverse.find? (fun o => o.key == k) with
      | none => none
      | some o => if o.ign then none else some o.at_) ∧ ((pick os).map (·.1)).Nodup := by
  have gen : ∀ os : List Occ, (∀ k, (pick os.reverse).get k = match os.find? (fun o => o.key == k) with
      | none => none
      | some o => if o.ign then none else some o.at_) ∧ ((pick os.reverse).map (·.1)).Nodup := by
    intro os
    induction os with
    | nil => exact ⟨fun k => rfl, by simp [pick]⟩
    | cons o os ih =>
      have hstep : pick (o :: os).reverse = if o.ign then (pick os.reverse).del o.key else (pick os.reverse).put o.key o.at_ := by
        unfold pick
        rw [List.reverse_cons, List.foldl_append]
        rfl
      rw [hstep]
      constructor
      · intro k
        rw [List.find?_cons]
        by_cases hk : o.key = k
        · rw [show (o.key == k) = true by simp [hk]]
          dsimp only
          cases hi : o.ign with
          | true => simp only [if_true]; rw [get_del, if_pos hk.symm]
          | false => simp only [Bool.false_eq_true, if_false]; rw [get_put, if_pos hk.symm]
        · rw [show (o.key == k) = false by simp [hk]]
          dsimp only
          have hk' : ¬ k = o.key := fun e => hk e.symm
          rw [← ih.1 k]
          cases hi : o.ign with
          | true => simp only [if_true]; rw [get_del, if_neg hk']
          | false => simp only [Bool.false_eq_true, if_false]; rw [get_put, if_neg hk']
      · cases hi : o.ign with
        | true => exact keys_del _ _ ih.2
        | false => exact keys_put _ _ _ ih.2
  have := gen os.reverse
  rw [List.reverse_reverse] at this
  exact this

/-- **C85** If no system occurs twice, the runs which were not ignored are joined in the order of the grids. -/
theorem C85_order (os : List Occ) (h : (os.map (·.key)).Nodup) : pick os = (os.filter fun o => !o.ign).map fun o => (o.key, o.at_) := by
  have gen : ∀ (os : List Occ) (d : Dict (ℕ × ℕ)), (os.map (·.key)).Nodup → (∀ p ∈ d, p.1 ∉ os.map (·.key)) →
      os.foldl (fun d o => if o.ign then d.del o.key else d.put o.key o.at_) d = d ++ (os.filter fun o => !o.ign).map fun o => (o.key, o.at_) := by
    intro os
    induction os with
    | nil => intro d _ _; simp
    | cons o os ih =>
      intro d hn hd
      rw [List.map_cons, List.nodup_cons] at hn
      have hno : ∀ p ∈ d, p.1 ≠ o.key := fun p hp e => hd p hp (by simp [e])
      rw [List.foldl_cons, List.filter_cons]
      cases hi : o.ign with
      | true =>
        simp only [if_true, Bool.not_true, Bool.false_eq_true, if_false]
        have : d.del o.key = d := by
          unfold Dict.del
          rw [List.filter_eq_self]
          intro p hp
          simpa using hno p hp
        rw [this]
        exact ih d hn.2 fun p hp hm => hd p hp (by simp at hm ⊢; exact Or.inr hm)
      | false =>
        simp only [Bool.false_eq_true, if_false, Bool.not_false, if_true, List.map_cons]
        have : d.put o.key o.at_ = d ++ [(o.key, o.at_)] := by
          unfold Dict.put
          rw [if_neg]
          intro hh
          obtain ⟨p, hp, e⟩ := List.any_eq_true.1 hh
          exact hno p hp (by simpa using e)
        rw [this, ih _ hn.2]
        · simp
        · intro p hp
          rcases List.mem_append.1 hp with hp | hp
          · intro hm
            exact hd p hp (by simp at hm ⊢; exact Or.inr hm)
          · simp only [List.mem_singleton] at hp
            rw [hp]
            exact hn.1
  exact (gen os [] h (by simp)).trans (List.nil_append _)

example : pick [⟨[(chars! "a")], false, (0, 0)⟩, ⟨[(chars! "b")], false, (0, 1)⟩, ⟨[(chars! "a")], false, (1, 0)⟩] =
    [([(chars! "a")], (1, 0)), ([(chars! "b")], (0, 1))] := by decide +kernel

/-- A run ignored in the rerun removes the system. -/
example : pick [⟨[(chars! "a")], false, (0, 0)⟩, ⟨[(chars! "a")], true, (1, 0)⟩] = [] := by decide +kernel

/-! ### Joining -/

/-- What the occurrences are: the runs of all grids in order, each with its system, whether it is ignored, and where it is. -/
theorem occRuns_spec (gi n : ℕ) : ∀ (rs : List Run) (ri : ℕ) (os : List Occ), occRuns gi n rs ri = .ok os →
    ∀ o ∈ os, o.at_.1 = gi ∧ ∃ r, ri ≤ o.at_.2 ∧ rs[o.at_.2 - ri]? = some r ∧ params r.v1 r.dir = .ok o.key ∧ (o.ign = true ↔ r.final.tf1 = "ignored_no_RLO")
  | [], ri, os, h => by
    simp only [occRuns, Except.ok.injEq] at h
    subst h
    simp
  | r :: rs, ri, os, h => by
    unfold occRuns at h
    cases hp : params r.v1 r.dir with
    | error e => rw [hp] at h; simp at h
    | ok k =>
      rw [hp] at h
      dsimp only at h
      by_cases hr : ri < n
      · rw [if_pos hr] at h
        cases ho : occRuns gi n rs (ri + 1) with
        | error e => rw [ho] at h; simp at h
        | ok os' =>
          rw [ho] at h
          simp only [Except.ok.injEq] at h
          subst h
          intro o hm
          rcases List.mem_cons.1 hm with rfl | hm
          · exact ⟨rfl, r, le_refl _, by simp, hp, by simp⟩
          · obtain ⟨h1, r', h2, h3, h4⟩ := occRuns_spec gi n rs (ri + 1) os' ho o hm
            refine ⟨h1, r', by omega, ?_, h4⟩
            rw [show o.at_.2 - ri = (o.at_.2 - (ri + 1)) + 1 by omega, List.getElem?_cons_succ]
            exact h3
      · rw [if_neg hr] at h
        simp at h

theorem occGrids_spec : ∀ (gs : List Grid) (gi : ℕ) (os : List Occ), occGrids gs gi = .ok os →
    ∀ o ∈ os, ∃ g r, gi ≤ o.at_.1 ∧ gs[o.at_.1 - gi]? = some g ∧ g.runs[o.at_.2]? = some r ∧ params r.v1 r.dir = .ok o.key ∧ (o.ign = true ↔ r.final.tf1 = "ignored_no_RLO")
  | [], gi, os, h => by
    simp only [occGrids, Except.ok.injEq] at h
    subst h
    simp
  | g :: gs, gi, os, h => by
    unfold occGrids at h
    cases h1 : occRuns gi (if g.slim = true then 0 else g.runs.length) g.runs 0 with
    | error e => rw [h1] at h; simp at h
    | ok a =>
      rw [h1] at h
      dsimp only at h
      cases h2 : occGrids gs (gi + 1) with
      | error e => rw [h2] at h; simp at h
      | ok b =>
        rw [h2] at h
        simp only [Except.ok.injEq] at h
        subst h
        intro o hm
        rcases List.mem_append.1 hm with hm | hm
        · obtain ⟨e1, r, e2, e3, e4⟩ := occRuns_spec gi _ _ 0 a h1 o hm
          refine ⟨g, r, by omega, by simp [e1], by simpa using e3, e4⟩
        · obtain ⟨g', r, e1, e2, e3⟩ := occGrids_spec gs (gi + 1) b h2 o hm
          refine ⟨g', r, by omega, ?_, e3⟩
          rw [show o.at_.1 - gi = (o.at_.1 - (gi + 1)) + 1 by omega, List.getElem?_cons_succ]
          exact e2

theorem get_of_mem {α : Type} (d : Dict α) (h : (d.map (·.1)).Nodup) (p : List Name × α) (hp : p ∈ d) : d.get p.1 = some p.2 := by
  unfold Dict.get
  induction d with
  | nil => simp at hp
  | cons q d ih =>
    rw [List.map_cons, List.nodup_cons] at h
    rw [List.find?_cons]
    rcases List.mem_cons.1 hp with rfl | hp
    · simp
    · have : ¬ q.1 = p.1 := fun e => h.1 (List.mem_map.2 ⟨p, hp, e.symm⟩)
      rw [show (q.1 == p.1) = false by simp [this]]
      exact ih h.2 hp

theorem pick_mem (os : List Occ) (p : List Name × ℕ × ℕ) (hp : p ∈ pick os) : ∃ o ∈ os, o.key = p.1 ∧ o.at_ = p.2 ∧ o.ign = false := by
  obtain ⟨h1, h2⟩ := C85_last os
  have hg := get_of_mem _ h2 p hp
  rw [h1] at hg
  cases hf : os.reverse.find? (fun o => o.key == p.1) with
  | none => rw [hf] at hg; simp at hg
  | some o =>
    rw [hf] at hg
    dsimp only at hg
    cases hi : o.ign with
    | true => rw [hi] at hg; simp at hg
    | false =>
      rw [hi] at hg
      simp only [Bool.false_eq_true, if_false, Option.some.injEq] at hg
      have hm := List.mem_of_find?_eq_some hf
      have hk := List.find?_some hf
      exact ⟨o, List.mem_reverse.1 hm, by simpa using hk, hg, hi⟩

/-- What a successful joining went through. -/
theorem join_ok {gs : List Grid} {comp : Name} {J : Joined} (h : join gs comp = .ok J) :
    ∃ f os c, agree gs none = .ok (some f) ∧ f.fmt = "hdf5" ∧ occGrids gs 0 = .ok os ∧ compression comp = .ok c ∧
      (∀ d ∈ f.dtF, d.2 = true → joinedAsText d.1 = true) ∧
      J = ⟨((pick os).filterMap fun p => runAt gs p.2).map (·.dir), ((pick os).filterMap fun p => runAt gs p.2).map (·.init),
        ((pick os).filterMap fun p => runAt gs p.2).map (fixed f.fix (boundary gs)), ((pick os).filterMap fun p => runAt gs p.2).map (·.tables), none, c⟩ := by
  unfold join at h
  cases ha : agree gs none with
  | error e => rw [ha] at h; simp at h
  | ok o =>
    cases o with
    | none => rw [ha] at h; simp at h
    | some f =>
      rw [ha] at h
      dsimp only at h
      by_cases hf : f.fmt ≠ "hdf5"
      · rw [if_pos hf] at h; simp at h
      · rw [if_neg hf] at h
        cases ho : occGrids gs 0 with
        | error e => rw [ho] at h; simp at h
        | ok os =>
          rw [ho] at h
          dsimp only at h
          cases hc : compression comp with
          | error e => rw [hc] at h; simp at h
          | ok c =>
            rw [hc] at h
            dsimp only at h
            by_cases ht : (f.dtF.any fun c => c.2 && !joinedAsText c.1) = true
            · rw [if_pos ht] at h; simp at h
            · rw [if_neg ht] at h
              simp only [Except.ok.injEq] at h
              refine ⟨f, os, c, rfl, not_not.1 hf, rfl, rfl, fun d hd hd2 => ?_, h.symm⟩
              by_contra hn
              exact ht (List.any_eq_true.2 ⟨d, hd, by simp [hd2, hn]⟩)

/-- **C85** In the joined grid run `j` has the directory, the initial values, the tables and the final values of one and the same run of one of
the grids; the last ones are unchanged unless the fix of the initial overflow is on. -/
theorem C85_rows {gs : List Grid} {comp : Name} {J : Joined} (h : join gs comp = .ok J) :
    ∃ (f : Grid) (os : List Occ) (rs : List Run), agree gs none = .ok (some f) ∧ occGrids gs 0 = .ok os ∧
      List.Forall₂ (fun (p : List Name × ℕ × ℕ) r => (∃ g, gs[p.2.1]? = some g ∧ g.runs[p.2.2]? = some r) ∧ params r.v1 r.dir = .ok p.1 ∧
        r.final.tf1 ≠ "ignored_no_RLO") (pick os) rs ∧
      J.dirs = rs.map (·.dir) ∧ J.inits = rs.map (·.init) ∧ J.tables = rs.map (·.tables) ∧ J.finals = rs.map (fixed f.fix (boundary gs)) ∧
      (f.fix = false → J.finals = rs.map (·.final)) := by
  obtain ⟨f, os, c, h1, h2, h3, h4, h5, rfl⟩ := join_ok h
  have hall : ∀ l : Dict (ℕ × ℕ), (∀ p ∈ l, p ∈ pick os) → List.Forall₂ (fun (p : List Name × ℕ × ℕ) r => (∃ g, gs[p.2.1]? = some g ∧ g.runs[p.2.2]? = some r) ∧
      params r.v1 r.dir = .ok p.1 ∧ r.final.tf1 ≠ "ignored_no_RLO") l (l.filterMap fun p => runAt gs p.2) := by
    intro l
    induction l with
    | nil => intro _; exact .nil
    | cons p l ih =>
      intro hl
      obtain ⟨o, ho, e1, e2, e3⟩ := pick_mem os p (hl p (by simp))
      obtain ⟨g, r, g0, g1, g2, g3, g4⟩ := occGrids_spec gs 0 os h3 o ho
      have hr : runAt gs p.2 = some r := by
        unfold runAt
        rw [← e2]
        rw [Nat.sub_zero] at g1
        rw [g1]
        exact g2
      rw [List.filterMap_cons, hr]
      refine .cons ⟨⟨g, by rw [← e2]; simpa using g1, by rw [← e2]; exact g2⟩, by rw [← e1]; exact g3, ?_⟩ (ih fun q hq => hl q (by simp [hq]))
      intro hh
      have := g4.2 hh
      rw [e3] at this
      cases this
  refine ⟨f, os, _, h1, h3, hall _ fun _ hp => hp, rfl, rfl, rfl, rfl, fun hf => ?_⟩
  dsimp only
  refine List.map_congr_left fun r _ => ?_
  unfold fixed
  rw [hf]
  simp

/-- **C85** With the fix a run is marked exactly if it is not marked already, did not overflow and its period is below the nearest boundary known;
then flags, class and the flags of the boundary are set, everything else is kept. -/
theorem C85_fix (known : List Sys) (r : Run) :
    (r.final.tf1 = "Terminate because of overflowing initial model" ∨ r.final.tf1 = "forced_initial_RLO" → fixed true known r = r.final) ∧
    (r.final.tf1 ≠ "Terminate because of overflowing initial model" → r.final.tf1 ≠ "forced_initial_RLO" →
      let b := TermFlags.nearest ⟨0, 0, 0, "", ""⟩ r.init.m1 r.init.m2 known
      (b.period ≤ r.init.period → fixed true known r = r.final) ∧
      (r.init.period < b.period → fixed true known r = ⟨"forced_initial_RLO", "forced_initial_RLO", b.flags.1, b.flags.2, "initial_MT", r.final.rest⟩)) := by
  unfold fixed
  refine ⟨?_, fun h1 h2 => ⟨fun hp => ?_, fun hp => ?_⟩⟩
  · rintro (h | h) <;> simp [h]
  · simp only [Bool.true_and, bne_iff_ne, ne_eq, Bool.and_eq_true]
    rw [if_pos ⟨h1, h2⟩, if_neg (not_lt.2 hp)]
  · simp only [Bool.true_and, bne_iff_ne, ne_eq, Bool.and_eq_true]
    rw [if_pos ⟨h1, h2⟩, if_pos hp]

theorem foldl_boundary : ∀ (done todo det : List Sys), Separated (done ++ todo) → Boundary done det → Boundary (done ++ todo) (todo.foldl TermFlags.detectStep det) := by
  intro done todo
  induction todo generalizing done with
  | nil => intro det _ h; simpa using h
  | cons r todo ih =>
    intro det hs h
    have e : done ++ r :: todo = (done ++ [r]) ++ todo := by simp
    rw [e] at hs ⊢
    refine ih (done ++ [r]) _ hs (TermFlags.boundary_step done det r ?_ h)
    intro a ha b hb
    exact hs a (List.mem_append_left _ ha) b (List.mem_append_left _ hb)

/-- The runs of all grids which overflow at the start. -/
def overflowing (gs : List Grid) : List Sys :=
  gs.flatMap fun g => ((g.runs.map fun r => (r.final.tf1, r.init)).filter fun r => r.1 == "Terminate because of overflowing initial model").map Prod.snd

/-- **C85** The boundary used is that of all grids together: one entry for each pair of masses, a run that overflowed in one of the grids, with the
longest period. Missing: masses closer than 1e-5 which are not the same. -/
theorem C85_boundary_partial (gs : List Grid) (h : Separated (overflowing gs)) : Boundary (overflowing gs) (boundary gs) := by
  obtain ⟨D, hD⟩ : ∃ D, D = gs.map fun g => TermFlags.detected (g.runs.map fun r => (r.final.tf1, r.init)) := ⟨_, rfl⟩
  have hone : ∀ g ∈ gs, Boundary (((g.runs.map fun r => (r.final.tf1, r.init)).filter fun r => r.1 == "Terminate because of overflowing initial model").map Prod.snd)
      (TermFlags.detected (g.runs.map fun r => (r.final.tf1, r.init))) := by
    intro g hg
    apply TermFlags.C18_boundary_partial
    intro a ha b hb
    exact h a (List.mem_flatMap.2 ⟨g, hg, ha⟩) b (List.mem_flatMap.2 ⟨g, hg, hb⟩)
  have hsub : ∀ s ∈ D.flatten, s ∈ overflowing gs := by
    intro s hs
    rw [hD] at hs
    obtain ⟨l, hl, hs⟩ := List.mem_flatten.1 hs
    obtain ⟨g, hg, rfl⟩ := List.mem_map.1 hl
    exact List.mem_flatMap.2 ⟨g, hg, (hone g hg).sound s hs⟩
  have hb : Boundary D.flatten (boundary gs) := by
    have := foldl_boundary [] D.flatten [] (fun a ha b hb => h a (hsub a (by simpa using ha)) b (hsub b (by simpa using hb))) ⟨by simp, by simp, by simp⟩
    unfold boundary
    rw [← hD]
    simpa using this
  refine ⟨fun d hd => hsub d (hb.sound d hd), hb.unique, fun r hr => ?_⟩
  obtain ⟨g, hg, hr⟩ := List.mem_flatMap.1 hr
  obtain ⟨d, h1, h2, h3, h4⟩ := (hone g hg).cover r hr
  obtain ⟨e, e1, e2, e3, e4⟩ := hb.cover d (by rw [hD]; exact List.mem_flatten.2 ⟨_, List.mem_map.2 ⟨g, hg, rfl⟩, h1⟩)
  exact ⟨e, e1, e2.trans h2, e3.trans h3, h4.trans e4⟩

/-- **C85** Grids are only joined if all have the settings and the columns of the first one. -/
theorem C85_consistent {gs : List Grid} {comp : Name} {J : Joined} (h : join gs comp = .ok J) :
    ∀ g ∈ gs, ∀ g' ∈ gs, g.props = g'.props ∧ g.fix = g'.fix ∧ g.dtI = g'.dtI ∧ g.dtF = g'.dtF := by
  obtain ⟨f, -, -, h1, -⟩ := join_ok h
  have gen : ∀ (gs : List Grid) (f f' : Grid), agree gs (some f) = .ok (some f') → f' = f ∧
      ∀ g ∈ gs, g.props = f.props ∧ g.fix = f.fix ∧ g.dtI = f.dtI ∧ g.dtF = f.dtF := by
    intro gs
    induction gs with
    | nil =>
      intro f f' h
      simp only [agree, Except.ok.injEq, Option.some.injEq] at h
      exact ⟨h.symm, by simp⟩
    | cons g gs ih =>
      intro f f' h
      unfold agree at h
      by_cases a : f.props ≠ g.props ∨ f.fix ≠ g.fix
      · rw [if_pos a] at h; simp at h
      rw [if_neg a] at h
      by_cases b : f.dtI ≠ g.dtI
      · rw [if_pos b] at h; simp at h
      rw [if_neg b] at h
      by_cases c : f.dtF ≠ g.dtF
      · rw [if_pos c] at h; simp at h
      rw [if_neg c] at h
      obtain ⟨h1, h2⟩ := ih f f' h
      simp only [not_or, not_not] at a b c
      refine ⟨h1, fun q hq => ?_⟩
      rcases List.mem_cons.1 hq with rfl | hq
      · exact ⟨a.1.symm, a.2.symm, b.symm, c.symm⟩
      · exact h2 q hq
  cases gs with
  | nil => intro g hg; simp at hg
  | cons g gs =>
    have hh : agree gs (some g) = .ok (some f) := h1
    obtain ⟨-, h2⟩ := gen gs g f hh
    have hall : ∀ q ∈ g :: gs, q.props = g.props ∧ q.fix = g.fix ∧ q.dtI = g.dtI ∧ q.dtF = g.dtF := by
      intro q hq
      rcases List.mem_cons.1 hq with rfl | hq
      · exact ⟨rfl, rfl, rfl, rfl⟩
      · exact h2 q hq
    intro a ha b hb
    obtain ⟨a1, a2, a3, a4⟩ := hall a ha
    obtain ⟨b1, b2, b3, b4⟩ := hall b hb
    exact ⟨a1.trans b1.symm, a2.trans b2.symm, a3.trans b3.symm, a4.trans b4.symm⟩

/-- **C85** Violated: nothing to join is a type error. -/
theorem C85_empty_violated (comp : Name) : join [] comp = .error .type := rfl

/-- **C85** Violated: the collapse models of the grids are lost, whatever the grids. -/
theorem C85_models_violated {gs : List Grid} {comp : Name} {J : Joined} (h : join gs comp = .ok J) : J.models = none := by
  obtain ⟨f, os, c, h1, h2, h3, h4, h5, rfl⟩ := join_ok h
  rfl

/-- **C85** Violated: a grid with the column of the history of mass transfer, which post-processing adds and which is text when the grid is opened,
cannot be joined; nor one with another type. -/
theorem C85_text_column_violated {gs : List Grid} {f : Grid} (comp : Name) (hf : agree gs none = .ok (some f)) (c : Name)
    (hc : c = (chars! "mt_history") ∨ c = (chars! "S1_CO_type")) (hd : (c, loadedAsText c) ∈ f.dtF) : ∀ J, join gs comp ≠ .ok J := by
  intro J h
  obtain ⟨f', os, c', h1, h2, h3, h4, h5, -⟩ := join_ok h
  rw [hf] at h1
  simp only [Except.ok.injEq, Option.some.injEq] at h1
  subst h1
  have hl : loadedAsText c = true ∧ joinedAsText c = false := by
    rcases hc with rfl | rfl <;> decide +kernel
  have := h5 _ hd hl.1
  rw [hl.2] at this
  cases this

/-- **C85** Columns of flags, classes, states and types of supernovae can be joined. -/
theorem C85_text_columns : ∀ c ∈ [(chars! "termination_flag_1"), (chars! "termination_flag_4"), (chars! "interpolation_class"), (chars! "S1_state"),
    (chars! "S2_state"), (chars! "S1_SN_type")], loadedAsText c = true ∧ joinedAsText c = true := by decide +kernel

/-- **C85** Violated: a slim grid with runs cannot be joined. -/
theorem C85_slim_violated (gs gs' : List Grid) (g : Grid) (comp : Name) (hs : g.slim = true) (hr : g.runs ≠ []) :
    ∀ J, join (gs ++ g :: gs') comp ≠ .ok J := by
  intro J h
  obtain ⟨f, os, c, h1, h2, h3, -⟩ := join_ok h
  have gen : ∀ (l : List Grid) (gi : ℕ) (os : List Occ), occGrids (l ++ g :: gs') gi ≠ .ok os := by
    intro l
    induction l with
    | nil =>
      intro gi os h
      rw [List.nil_append] at h
      unfold occGrids at h
      rw [hs] at h
      obtain ⟨r, rs, hrs⟩ : ∃ r rs, g.runs = r :: rs := List.exists_cons_of_ne_nil hr
      rw [hrs] at h
      simp only [if_true, occRuns] at h
      cases hp : params r.v1 r.dir with
      | error e => rw [hp] at h; simp at h
      | ok k => rw [hp] at h; simp at h
    | cons q l ih =>
      intro gi os h
      rw [List.cons_append] at h
      unfold occGrids at h
      cases h1 : occRuns gi (if q.slim = true then 0 else q.runs.length) q.runs 0 with
      | error e => rw [h1] at h; simp at h
      | ok a =>
        rw [h1] at h
        dsimp only at h
        cases h2 : occGrids (l ++ g :: gs') (gi + 1) with
        | error e => rw [h2] at h; simp at h
        | ok b => exact ih _ _ h2
  exact gen gs 0 os h3

/-! A concrete joining: the second grid reruns one of the two systems of the first. -/

def dirOf (m k : Name) : Name := binaryDir m (chars! "5") (chars! "1") (chars! "2") k
def runOf (m k : Name) (flag : String) (t : ℕ) : Run := ⟨false, dirOf m k, ⟨10, 5, 2, "", ""⟩, ⟨flag, "", "", "", "no_MT", t⟩, [some t, some t, none, none, none]⟩
def gridOf (rs : List Run) : Grid := ⟨[], false, "hdf5", [], [((chars! "termination_flag_1"), true)], rs, false, some 1⟩

example : join [gridOf [runOf (chars! "1") (chars! "0") "min_timestep_limit" 1, runOf (chars! "2") (chars! "1") "max_age" 2],
    gridOf [runOf (chars! "1") (chars! "7") "max_age" 3]] (chars! "gzip9") =
    .ok ⟨[dirOf (chars! "1") (chars! "7"), dirOf (chars! "2") (chars! "1")], [⟨10, 5, 2, "", ""⟩, ⟨10, 5, 2, "", ""⟩],
      [⟨"max_age", "", "", "", "no_MT", 3⟩, ⟨"max_age", "", "", "", "no_MT", 2⟩], [[some 3, some 3, none, none, none], [some 2, some 2, none, none, none]],
      none, .gzip (some 9)⟩ := by
  decide +kernel

/-- **C85** Compression: none, lzf, gzip, or gzip with one digit for the level, in letters of any case; anything else is refused. -/
theorem C85_compression (s : Name) (c : Comp) : compression s = .ok c ↔
    (s.map Char.toLower = [] ∧ c = .plain) ∨ (s.map Char.toLower = (chars! "lzf") ∧ c = .lzf) ∨ (s.map Char.toLower = (chars! "gzip") ∧ c = .gzip none) ∨
      ∃ d : Char, d.isDigit = true ∧ s.map Char.toLower = (chars! "gzip") ++ [d] ∧ c = .gzip (some (d.toNat - '0'.toNat)) := by
  unfold compression
  dsimp only
  generalize s.map Char.toLower = t
  by_cases h1 : t = []
  · subst h1
    simp
    exact eq_comm
  by_cases h2 : t = (chars! "lzf")
  · subst h2
    rw [if_neg (by decide +kernel), if_pos rfl]
    constructor
    · intro h; right; left; exact ⟨rfl, (Except.ok.inj h).symm⟩
    · rintro (⟨h, -⟩ | ⟨-, rfl⟩ | ⟨h, -⟩ | ⟨d, -, h, -⟩)
      · exact absurd h (by decide +kernel)
      · rfl
      · exact absurd h (by decide +kernel)
      · have := congrArg List.length h
        simp at this
  rw [if_neg h1, if_neg h2]
  by_cases h3 : (chars! "gzip").isPrefixOf t = true
  · rw [if_pos h3]
    obtain ⟨r, rfl⟩ := List.isPrefixOf_iff_prefix.1 h3
    have hd : ((chars! "gzip") ++ r).drop 4 = r := by simp
    rw [hd]
    cases r with
    | nil =>
      simp only [List.append_nil]
      constructor
      · intro h; right; right; left; exact ⟨trivial, (Except.ok.inj h).symm⟩
      · rintro (⟨h, -⟩ | ⟨h, -⟩ | ⟨-, rfl⟩ | ⟨d, -, h, -⟩)
        · exact absurd h (by decide +kernel)
        · exact absurd h (by decide +kernel)
        · rfl
        · have := congrArg List.length h
          simp at this
    | cons d r =>
      dsimp only
      by_cases hr : r ≠ []
      · rw [if_pos hr]
        refine ⟨fun h => by simp at h, ?_⟩
        rintro (⟨h, -⟩ | ⟨h, -⟩ | ⟨h, -⟩ | ⟨d', -, h, -⟩)
        · exact absurd h h1
        · exact absurd h h2
        · have := congrArg List.length h
          simp at this
        · have := congrArg List.length h
          simp only [List.length_append, List.length_cons, List.length_nil] at this
          exact absurd (List.length_eq_zero_iff.1 (by omega)) hr
      · rw [if_neg hr]
        rw [not_not] at hr
        subst hr
        unfold digit
        by_cases hdd : d.isDigit = true
        · rw [if_pos hdd]
          constructor
          · intro h; right; right; right; exact ⟨d, hdd, rfl, (Except.ok.inj h).symm⟩
          · rintro (⟨h, -⟩ | ⟨h, -⟩ | ⟨h, -⟩ | ⟨d', -, h, rfl⟩)
            · exact absurd h h1
            · exact absurd h h2
            · have := congrArg List.length h
              simp at this
            · have := List.append_cancel_left h
              simp only [List.cons.injEq, and_true] at this
              rw [this]
        · rw [if_neg hdd]
          refine ⟨fun h => by simp at h, ?_⟩
          rintro (⟨h, -⟩ | ⟨h, -⟩ | ⟨h, -⟩ | ⟨d', hd', h, -⟩)
          · exact absurd h h1
          · exact absurd h h2
          · have := congrArg List.length h
            simp at this
          · have := List.append_cancel_left h
            simp only [List.cons.injEq, and_true] at this
            rw [this] at hdd
            exact absurd hd' hdd
  · rw [if_neg h3]
    refine ⟨fun h => by simp at h, ?_⟩
    rintro (⟨h, -⟩ | ⟨h, -⟩ | ⟨h, -⟩ | ⟨d', -, h, -⟩)
    · exact absurd h h1
    · exact absurd h h2
    · exact absurd (by rw [h]; decide +kernel) h3
    · exact absurd (by rw [h]; exact List.isPrefixOf_iff_prefix.2 ⟨_, rfl⟩) h3

/-! ### Directories of one grid -/

theorem go_spec : ∀ (found : List (Bool × Name)) (d d' : Dict Name), folders.go found d = .ok d' → (d.map (·.1)).Nodup →
    (∀ k, d'.get k = match found.reverse.find? (fun x => decide (params x.1 x.2 = .ok k)) with
      | some x => some x.2
      | none => d.get k) ∧ (d'.map (·.1)).Nodup
  | [], d, d', h, hd => by
    simp only [folders.go, Except.ok.injEq] at h
    subst h
    exact ⟨fun k => rfl, hd⟩
  | (v1, p) :: l, d, d', h, hd => by
    unfold folders.go at h
    cases hp : params v1 p with
    | error e => rw [hp] at h; simp at h
    | ok q =>
      rw [hp] at h
      dsimp only at h
      obtain ⟨h1, h2⟩ := go_spec l (d.put q p) d' h (keys_put _ _ _ hd)
      refine ⟨fun k => ?_, h2⟩
      rw [h1, List.reverse_cons, List.find?_append]
      cases hf : l.reverse.find? (fun x => decide (params x.1 x.2 = .ok k)) with
      | some x => rfl
      | none =>
        simp only [Option.none_or, List.find?_cons, List.find?_nil]
        rw [hp, get_put]
        by_cases hk : k = q
        · subst hk
          simp
        · have : ¬ (Except.ok q : Except Err (List Name)) = .ok k := fun e => hk (Except.ok.inj e).symm
          simp [hk, this]

/-- **C85** Of directories found for the same system the last one is used; no system is read twice; a path without any is refused. -/
theorem C85_folders (found : List (Bool × Name)) :
    (∀ d, folders found = .ok d → d ≠ [] ∧ (d.map (·.1)).Nodup ∧
      ∀ k, d.get k = (found.reverse.find? fun x => decide (params x.1 x.2 = .ok k)).map (·.2)) ∧ (folders [] = .error .value) := by
  refine ⟨fun d h => ?_, rfl⟩
  unfold folders at h
  cases hg : folders.go found [] with
  | error e => rw [hg] at h; simp at h
  | ok d' =>
    rw [hg] at h
    dsimp only at h
    by_cases he : d'.isEmpty = true
    · rw [if_pos he] at h; simp at h
    · rw [if_neg he] at h
      simp only [Except.ok.injEq] at h
      subst h
      obtain ⟨h1, h2⟩ := go_spec found [] d' hg (by simp)
      refine ⟨by simpa using he, h2, fun k => ?_⟩
      rw [h1]
      cases found.reverse.find? (fun x => decide (params x.1 x.2 = .ok k)) <;> rfl

example : folders [(false, dirOf (chars! "1") (chars! "0")), (false, dirOf (chars! "2") (chars! "1")), (false, dirOf (chars! "1") (chars! "7"))] =
    .ok [([(chars! "1"), (chars! "5"), (chars! "2"), (chars! "1")], dirOf (chars! "1") (chars! "7")),
      ([(chars! "2"), (chars! "5"), (chars! "2"), (chars! "1")], dirOf (chars! "2") (chars! "1"))] := by decide +kernel

/-! ### Files of grid points -/

/-- A text that begins and ends with something else than a blank. -/
def Trim (x : Name) : Prop := (∃ c y, x = c :: y ∧ blank c = false) ∧ ∃ y c, x = y ++ [c] ∧ blank c = false

/-- Blanks only. -/
def Blank (b : Name) : Prop := ∀ c ∈ b, blank c = true

theorem strip_trim {b x b' : Name} (hb : Blank b) (hx : Trim x) (hb' : Blank b') : strip (b ++ (x ++ b')) = x := by
  obtain ⟨⟨c, y, h1, h2⟩, ⟨y', c', h3, h4⟩⟩ := hx
  unfold strip
  rw [List.dropWhile_append_of_pos hb]
  have e1 : (x ++ b').dropWhile blank = x ++ b' := by
    rw [h1, List.cons_append, List.dropWhile_cons, h2]
    rfl
  rw [e1, List.reverse_append, List.dropWhile_append_of_pos (fun c hc => hb' c (List.mem_reverse.1 hc))]
  have e2 : x.reverse.dropWhile blank = x.reverse := by
    rw [h3, List.reverse_append]
    simp only [List.reverse_cons, List.reverse_nil, List.nil_append, List.singleton_append, List.dropWhile_cons, h4]
    rfl
  rw [e2, List.reverse_reverse]

theorem split_one (c : Char) (x : Name) (h : c ∉ x) : split [c] x = [x] := by
  unfold split
  have := walk_val c [] x [] [] h
  rw [List.append_nil] at this
  rw [this]
  simp [splitGo]

theorem split_two (c : Char) (x y : Name) (h : c ∉ x) (h' : c ∉ y) : split [c] (x ++ c :: y) = [x, y] := by
  unfold split
  rw [walk_val c [] x [] _ h]
  have := walk_sep c [] (x.reverse ++ []) y
  rw [List.cons_append, List.nil_append] at this
  rw [this]
  have h2 := split_one c y h'
  unfold split at h2
  rw [h2]
  simp

theorem blank_not {c : Char} {b : Name} (hb : Blank b) (h : blank c = false) : c ∉ b := fun hc => by
  rw [hb c hc] at h
  cases h

/-- **C85** A line which assigns a number, with or without a power of ten written by a small `d`; blanks do not matter. -/
theorem C85_line (num : Name → Option ℝ) (b0 b1 b2 b3 n v e : Name) (h0 : Blank b0) (h1 : Blank b1) (h2 : Blank b2) (h3 : Blank b3)
    (hn : Trim n) (hv : Trim v) (he : Trim e) (n1 : '=' ∉ n) (n2 : '=' ∉ v) (n3 : '=' ∉ e) (n4 : 'd' ∉ v) (n5 : 'd' ∉ e) :
    (readLine num (b0 ++ (n ++ b1 ++ '=' :: (b2 ++ v) ++ b3)) = match num v with
      | some x => .ok (some (rename n, x))
      | none => .error .value) ∧
    (readLine num (b0 ++ (n ++ b1 ++ '=' :: (b2 ++ v ++ 'd' :: e) ++ b3)) = match num v, num e with
      | some x, some y => .ok (some (rename n, x * (10 : ℝ) ^ y))
      | _, _ => .error .value) := by
  have heq : ∀ a b : Name, isIn (chars! "=") (a ++ '=' :: b) = true := fun a b => isIn_before _ a _ (isIn_here (chars! "=") b)
  have sn : strip (n ++ b1) = n := by simpa using strip_trim (b := []) (fun c hc => by simp at hc) hn h1
  have sv : strip (b2 ++ v) = v := by simpa using strip_trim (b' := []) h2 hv (fun c hc => by simp at hc)
  have se : strip e = e := by simpa using strip_trim (b := []) (b' := []) (fun c hc => by simp at hc) he (fun c hc => by simp at hc)
  have bn : '=' ∉ n ++ b1 := by
    rw [List.mem_append, not_or]
    exact ⟨n1, blank_not h1 (by decide)⟩
  have bv : '=' ∉ b2 ++ v := by
    rw [List.mem_append, not_or]
    exact ⟨blank_not h2 (by decide), n2⟩
  have dv : 'd' ∉ b2 ++ v := by
    rw [List.mem_append, not_or]
    exact ⟨blank_not h2 (by decide), n4⟩
  obtain ⟨⟨c, y, c1, c2⟩, -⟩ := hn
  constructor
  · unfold readLine
    have e1 : strip (b0 ++ (n ++ b1 ++ '=' :: (b2 ++ v) ++ b3)) = n ++ b1 ++ '=' :: (b2 ++ v) := by
      obtain ⟨-, ⟨y', c', d1, d2⟩⟩ := hv
      refine strip_trim h0 ⟨⟨c, y ++ b1 ++ '=' :: (b2 ++ v), by rw [c1]; simp, c2⟩, ⟨n ++ b1 ++ '=' :: (b2 ++ y'), c', by rw [d1]; simp, d2⟩⟩ h3
    rw [if_neg, e1, show (chars! "=") = ['='] from rfl, split_two '=' _ _ bn bv]
    · dsimp only
      rw [show (chars! "d") = ['d'] from rfl, split_one 'd' _ dv]
      dsimp only
      rw [sn, sv]
      cases num v <;> rfl
    · rw [show b0 ++ (n ++ b1 ++ '=' :: (b2 ++ v) ++ b3) = (b0 ++ (n ++ b1)) ++ '=' :: (b2 ++ v ++ b3) by simp, heq]
      simp
  · unfold readLine
    have e1 : strip (b0 ++ (n ++ b1 ++ '=' :: (b2 ++ v ++ 'd' :: e) ++ b3)) = n ++ b1 ++ '=' :: (b2 ++ v ++ 'd' :: e) := by
      obtain ⟨-, ⟨y', c', d1, d2⟩⟩ := he
      refine strip_trim h0 ⟨⟨c, y ++ b1 ++ '=' :: (b2 ++ v ++ 'd' :: e), by rw [c1]; simp, c2⟩,
        ⟨n ++ b1 ++ '=' :: (b2 ++ v ++ 'd' :: y'), c', by rw [d1]; simp, d2⟩⟩ h3
    have be : '=' ∉ b2 ++ v ++ 'd' :: e := by
      rw [List.mem_append, not_or]
      refine ⟨bv, ?_⟩
      simp [n3]
    rw [if_neg, e1, show (chars! "=") = ['='] from rfl, split_two '=' _ _ bn be]
    · dsimp only
      rw [show (chars! "d") = ['d'] from rfl, split_two 'd' _ _ dv n5]
      dsimp only
      rw [sn, sv, se]
      cases num v <;> cases num e <;> rfl
    · rw [show b0 ++ (n ++ b1 ++ '=' :: (b2 ++ v ++ 'd' :: e) ++ b3) = (b0 ++ (n ++ b1)) ++ '=' :: (b2 ++ v ++ 'd' :: e ++ b3) by simp, heq]
      simp

/-- **C85** Violated: a power of ten with a capital letter, as MESA allows, is refused, since it is not taken apart and `float` refuses it. -/
theorem C85_capital_violated (num : Name → Option ℝ) (h : num (chars! "1.5D1") = none) : readLine num (chars! "  m1=1.5D1") = .error .value := by
  have := (C85_line num (chars! "  ") [] [] [] (chars! "m1") (chars! "1.5D1") (chars! "1") (by unfold Blank; decide) (by simp [Blank]) (by simp [Blank]) (by simp [Blank])
    ⟨⟨_, _, rfl, by decide⟩, ⟨(chars! "m"), '1', rfl, by decide⟩⟩ ⟨⟨_, _, rfl, by decide⟩, ⟨(chars! "1.5D"), '1', rfl, by decide⟩⟩
    ⟨⟨_, _, rfl, by decide⟩, ⟨[], '1', rfl, by decide⟩⟩ (by decide) (by decide) (by decide) (by decide) (by decide)).1
  rw [h] at this
  exact this

theorem split_length (c : Char) : ∀ (s cur : Name), (splitGo [c] 0 cur s).length = s.count c + 1
  | [], cur => by simp [splitGo]
  | x :: s, cur => by
    rw [splitGo]
    by_cases h : c = x
    · subst h
      rw [if_pos (by simp [List.isPrefixOf])]
      simp only [List.length_cons, List.length_nil, Nat.zero_add, Nat.sub_self]
      rw [split_length c s []]
      simp
    · rw [if_neg (by simp [List.isPrefixOf, h]), split_length c s (x :: cur)]
      have : ¬ x = c := fun e => h e.symm
      simp [List.count_cons, this]

theorem count_dropWhile (c : Char) (h : blank c = false) : ∀ s : Name, (s.dropWhile blank).count c = s.count c
  | [] => rfl
  | x :: s => by
    rw [List.dropWhile_cons]
    by_cases hx : blank x = true
    · rw [if_pos hx, count_dropWhile c h s, List.count_cons]
      have : ¬ x = c := fun e => by rw [e, h] at hx; cases hx
      simp [this]
    · rw [if_neg hx]

/-- **C85** Lines with no sign of equality, or with more than one, are skipped, whatever is in them. -/
theorem C85_skip (num : Name → Option ℝ) (l : Name) (h : l.count '=' ≠ 1) : readLine num l = .ok none := by
  unfold readLine
  by_cases hi : isIn (chars! "=") l = false
  · rw [if_pos hi]
  · rw [if_neg hi]
    have hl : (split (chars! "=") (strip l)).length = l.count '=' + 1 := by
      unfold split
      rw [show (chars! "=") = ['='] from rfl, split_length]
      unfold strip
      rw [List.count_reverse, count_dropWhile _ (by decide), List.count_reverse, count_dropWhile _ (by decide)]
    split
    · next a b hs =>
      rw [hs] at hl
      simp at hl
      omega
    · rfl

/-- **C85** The lines are read one by one; the first that cannot be read stops the reading. -/
theorem C85_lines (num : Name → Option ℝ) (ls : List Name) :
    (∀ vs, readLines num ls = .ok vs ↔ ∃ os, List.Forall₂ (fun l o => readLine num l = .ok o) ls os ∧ vs = os.filterMap id) ∧
    (∀ l ∈ ls, ∀ e, readLine num l = .error e → ∃ e', readLines num ls = .error e') := by
  constructor
  · induction ls with
    | nil =>
      intro vs
      simp only [readLines, Except.ok.injEq]
      constructor
      · intro h; exact ⟨[], .nil, by simp [← h]⟩
      · rintro ⟨os, h1, h2⟩
        cases h1
        simp [h2]
    | cons l ls ih =>
      intro vs
      unfold readLines
      cases hl : readLine num l with
      | error e =>
        simp only [reduceCtorEq, false_iff]
        rintro ⟨os, h1, -⟩
        cases h1 with
        | cons a b => rw [hl] at a; cases a
      | ok o =>
        dsimp only
        cases hr : readLines num ls with
        | error e =>
          simp only [reduceCtorEq, false_iff]
          rintro ⟨os, h1, -⟩
          cases h1 with
          | cons a b =>
            have := (ih _).2 ⟨_, b, rfl⟩
            rw [hr] at this
            cases this
        | ok vs' =>
          simp only [Except.ok.injEq]
          constructor
          · intro h
            obtain ⟨os, h1, h2⟩ := (ih vs').1 hr
            refine ⟨o :: os, .cons hl h1, ?_⟩
            rw [← h, h2]
            cases o <;> simp
          · rintro ⟨os, h1, h2⟩
            cases h1 with
            | cons a b =>
              rw [hl] at a
              cases a
              have := (ih _).2 ⟨_, b, rfl⟩
              rw [hr] at this
              cases this
              rw [h2]
              cases o <;> simp
  · induction ls with
    | nil => simp
    | cons l ls ih =>
      intro q hq e he
      unfold readLines
      rcases List.mem_cons.1 hq with rfl | hq
      · rw [he]; exact ⟨e, rfl⟩
      · cases hl : readLine num l with
        | error e' => exact ⟨e', rfl⟩
        | ok o =>
          obtain ⟨e', h'⟩ := ih q hq e he
          rw [h']
          exact ⟨e', rfl⟩

/-- **C85** The last value of a name counts. -/
theorem C85_value (vs : List (Name × ℝ)) (n m : Name) (x : ℝ) : valueOf (vs ++ [(m, x)]) n = if m = n then some x else valueOf vs n := by
  unfold valueOf
  rw [List.reverse_append]
  simp only [List.reverse_cons, List.reverse_nil, List.nil_append, List.singleton_append, List.find?_cons]
  by_cases h : m = n
  · simp [h]
  · rw [show (m == n) = false from beq_eq_false_iff_ne.2 h, if_neg h]

/-- **C85** Masses and periods get the names of the tables, other names are kept. -/
theorem C85_names : rename (chars! "m1") = (chars! "star_1_mass") ∧ rename (chars! "m2") = (chars! "star_2_mass") ∧
    rename (chars! "initial_period_in_days") = (chars! "period_days") ∧
    ∀ n, n ≠ (chars! "m1") → n ≠ (chars! "m2") → n ≠ (chars! "initial_period_in_days") → rename n = n := by
  refine ⟨by decide +kernel, by decide +kernel, by decide +kernel, fun n h1 h2 h3 => ?_⟩
  unfold rename
  rw [if_neg h1, if_neg h2, if_neg h3]

/-! ### Downsampling -/

/-- The entries whose place is marked, in order. -/
theorem mask_spec {β : Type} (l : List β) : ∀ m : List Bool, mask m l = (List.range l.length).filterMap fun i => if m[i]? = some true then l[i]? else none := by
  induction l with
  | nil => intro m; simp [mask]
  | cons x l ih =>
    intro m
    rw [List.length_cons, List.range_succ_eq_map, List.filterMap_cons]
    cases m with
    | nil =>
      simp [mask]
    | cons b m =>
      have hm : mask (b :: m) (x :: l) = (if b then [x] else []) ++ mask m l := by
        cases b <;> simp [mask]
      rw [hm, ih m, List.filterMap_map]
      have : ((fun i => if (b :: m)[i]? = some true then (x :: l)[i]? else none) ∘ Nat.succ) = fun i => if m[i]? = some true then l[i]? else none := by
        funext i
        simp
      rw [this]
      cases b <;> simp

/-- **C85** All the tables of a run are thinned out at the same rows: those marked once for all of them. Tables that are not there stay away. -/
theorem C85_down {β γ : Type} (binary : Bool) (keep : List (List γ) → List Bool) (sel : List β → List γ) (ts ts' : List (Option (List β)))
    (ht : ∃ t ∈ ts, t ≠ none) (h : downHistory true binary keep sel ts = .ok ts') :
    (∀ l l', some l ∈ ts → some l' ∈ ts → l.length = l'.length) ∧
    ∃ m, m = keep ((ts.filterMap id).map sel) ∧ List.Forall₂ (fun t t' => t' = t.map fun l : List β =>
      (List.range l.length).filterMap fun i => if m[i]? = some true then l[i]? else none) ts ts' := by
  unfold downHistory at h
  have hn : ¬ (true = false ∨ ts.all Option.isNone = true) := by
    rintro (h | h)
    · cases h
    · obtain ⟨t, h1, h2⟩ := ht
      have := List.all_eq_true.1 h t h1
      simp at this
      exact h2 this
  rw [if_neg hn] at h
  dsimp only at h
  by_cases h1 : ((ts.filterMap id).any fun t => decide (t.length ≠ ((ts.filterMap id).headD []).length)) = true
  · rw [if_pos h1] at h; simp at h
  rw [if_neg h1] at h
  by_cases h2 : ((ts[if binary = true then 0 else 1]?).join.isNone) = true
  · rw [if_pos h2] at h; simp at h
  rw [if_neg h2] at h
  simp only [Except.ok.injEq] at h
  have hlen : ∀ l, some l ∈ ts → l.length = ((ts.filterMap id).headD []).length := by
    intro l hl
    by_contra hne
    exact h1 (List.any_eq_true.2 ⟨l, List.mem_filterMap.2 ⟨some l, hl, rfl⟩, by simpa using hne⟩)
  refine ⟨fun l l' a b => (hlen l a).trans (hlen l' b).symm, _, rfl, ?_⟩
  rw [← h, List.forall₂_map_right_iff]
  refine List.forall₂_same.2 fun t _ => ?_
  cases t with
  | none => rfl
  | some l =>
    simp only [Option.map_some, Option.some.injEq]
    exact mask_spec l _

/-- **C85** Tables of different lengths are refused; runs without tables are left as they are, as is everything if there is nothing to thin out. -/
theorem C85_down_refused {β γ : Type} (on binary : Bool) (keep : List (List γ) → List Bool) (sel : List β → List γ) (ts : List (Option (List β))) :
    (∀ l l', some l ∈ ts → some l' ∈ ts → l.length ≠ l'.length → downHistory true binary keep sel ts = .error .index) ∧
    ((∀ t ∈ ts, t = none) → downHistory on binary keep sel ts = .ok ts) ∧ downHistory false binary keep sel ts = .ok ts := by
  refine ⟨fun l l' a b hne => ?_, fun hall => ?_, ?_⟩
  · unfold downHistory
    have hn : ¬ (true = false ∨ ts.all Option.isNone = true) := by
      rintro (h | h)
      · cases h
      · have := List.all_eq_true.1 h _ a
        simp at this
    rw [if_neg hn]
    dsimp only
    rw [if_pos]
    by_contra hh
    have hlen : ∀ l, some l ∈ ts → l.length = ((ts.filterMap id).headD []).length := by
      intro l hl
      by_contra hne
      exact hh (List.any_eq_true.2 ⟨l, List.mem_filterMap.2 ⟨some l, hl, rfl⟩, by simpa using hne⟩)
    exact hne ((hlen l a).trans (hlen l' b).symm)
  · unfold downHistory
    rw [if_pos]
    right
    exact List.all_eq_true.2 fun t ht => by rw [hall t ht]; rfl
  · unfold downHistory
    rw [if_pos (Or.inl rfl)]

/-- **C85** A profile is thinned out from the centre outwards: reversed, thinned out, and reversed back. -/
theorem C85_profile {β γ : Type} (keep : List γ → List Bool) (sel : β → γ) (l : List β) (hk : (keep (l.reverse.map sel)).length = l.length) :
    downProfile true keep sel (some l) = some (mask (keep (l.reverse.map sel)) l.reverse).reverse ∧ downProfile true keep sel none = none ∧
      downProfile false keep sel (some l) = some l := by
  refine ⟨?_, rfl, rfl⟩
  unfold downProfile
  simp only [if_true, Option.map_some, Option.some.injEq]
  generalize keep (l.reverse.map sel) = m at hk
  unfold mask
  rw [← List.map_reverse, ← List.filter_reverse]
  congr 2
  rw [List.zip_eq_zipWith, List.zip_eq_zipWith, List.reverse_zipWith (by simp [hk])]
  simp

example : downHistory true true (fun _ => [true, false, true]) id [some [1, 2, 3], none, some [4, 5, 6]] = .ok [some [1, 3], none, some [4, 6]] := by decide +kernel

/-- **C85** What is reported for a grid that does not agree: its columns or the repair, then the types. -/
theorem C85_disagree (f g : Grid) (gs : List Grid) :
    (f.props ≠ g.props ∨ f.fix ≠ g.fix → agree (f :: g :: gs) none = .error .value) ∧
      (f.props = g.props → f.fix = g.fix → f.dtI ≠ g.dtI ∨ f.dtF ≠ g.dtF → agree (f :: g :: gs) none = .error .type) := by
  constructor
  · intro h
    rw [agree, agree, if_pos h]
  · intro h1 h2 h
    rw [agree, agree, if_neg (by simp [h1, h2])]
    by_cases h3 : f.dtI = g.dtI
    · rw [if_neg (by simpa using h3), if_pos (h.resolve_left (by simpa using h3))]
    · rw [if_pos h3]

/-- **C85** Violated: the runs of a slim grid are asked for by number although there are none. -/
theorem C85_slim_index_violated (r : Run) (rs : List Run) (k : List Name) (h : params r.v1 r.dir = .ok k) (g : Grid) (hs : g.slim = true) (hr : g.runs = r :: rs)
    (gs : List Grid) (gi : ℕ) : occGrids (g :: gs) gi = .error .index := by
  rw [occGrids, hs, hr]
  rw [if_pos rfl, occRuns, h]
  rfl

end Verif.GridJoin
