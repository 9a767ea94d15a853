import Verif.TableData
import Mathlib.Data.List.Perm.Basic
import Mathlib.Tactic.Linarith
import Mathlib.Tactic.FieldSimp
import Mathlib.Tactic.Ring
import Mathlib.Tactic.NormNum

/-!
# Tables for the active learning: properties (C110)
-/

namespace Verif.TableData

/-! ### Omitted values -/

theorem omit1_eq (rows : List Row) (v : Cell) (h : (rows.map (·.label)).Nodup) :
    omit1 rows v = rows.filter fun r => !r.has v := by
  unfold omit1
  refine List.filter_congr fun r hr => ?_
  congr 1
  rw [Bool.eq_iff_iff, List.contains_iff_mem, List.mem_map]
  constructor
  · rintro ⟨q, hq, he⟩
    obtain ⟨hq1, hq2⟩ := List.mem_filter.mp hq
    have : q = r := List.inj_on_of_nodup_map h hq1 hr he
    rwa [← this]
  · intro hh
    exact ⟨r, List.mem_filter.mpr ⟨hr, hh⟩, rfl⟩

/-- With different labels, exactly the rows without any of the omitted values are kept, in
their order. -/
theorem C110_omit_partial (vs : List Cell) : ∀ (rows : List Row), (rows.map (·.label)).Nodup →
    omitVals rows vs = rows.filter fun r => vs.all fun v => !r.has v := by
  induction vs with
  | nil => intro rows _; simp [omitVals]
  | cons v vs ih =>
    intro rows h
    show omitVals (omit1 rows v) vs = _
    rw [omit1_eq rows v h, ih _ (h.sublist (List.filter_sublist.map _)), List.filter_filter]
    refine List.filter_congr fun r _ => ?_
    simp [Bool.and_comm]

/-- With repeated labels, which a given table may have, rows without an omitted value are lost. -/
theorem C110_omit_labels_violated :
    omitVals [⟨0, [.num 1]⟩, ⟨0, [.num 2]⟩] [.num 1] = [] := by decide +kernel

/-- Rows with NaN cannot be omitted. -/
theorem C110_omit_nan_violated (rows : List Row) : omitVals rows [.nan] = rows := by
  have hh : ∀ r : Row, r.has .nan = false := by
    intro r
    unfold Row.has
    rw [List.any_eq_false]
    intro c _
    cases c <;> simp [Cell.same]
  simp [omitVals, omit1, hh]

example : omitVals [⟨0, [.num 1, .nan]⟩, ⟨1, [.num 2, .text (chars! "a")]⟩, ⟨2, [.num 3, .num 1]⟩]
    [.num 1] = [⟨1, [.num 2, .text (chars! "a")]⟩] := by decide +kernel

/-! ### Classes -/

theorem mapFrom_text : ∀ (keys : List Name) (i : ℕ) (d : Dict), keys.Nodup →
    (∀ j : ℕ, (mapFrom i (keys.map .text) d).get (.int j) =
      if i ≤ j then (match keys[j - i]? with | some s => some (.text s) | none => d.get (.int j))
      else d.get (.int j)) ∧
    (∀ m s, keys[m]? = some s → (mapFrom i (keys.map .text) d).get (.text s) =
      some (.int ((i + m : ℕ) : ℤ))) ∧
    (∀ s, s ∉ keys → (mapFrom i (keys.map .text) d).get (.text s) = d.get (.text s))
  | [], i, d, _ => by
    refine ⟨fun j => ?_, by simp, fun s _ => rfl⟩
    simp [mapFrom]
  | k :: ks, i, d, h => by
    obtain ⟨hk, hks⟩ := List.nodup_cons.mp h
    obtain ⟨h1, h2, h3⟩ := mapFrom_text ks (i + 1)
      ((Dict.set d (.int i) (.text k)).set (.text k) (.int i)) hks
    simp only [List.map_cons, mapFrom]
    refine ⟨fun j => ?_, fun m s hm => ?_, fun s hs => ?_⟩
    · rw [h1 j]
      by_cases hij : i + 1 ≤ j
      · rw [if_pos hij, if_pos (by omega), show j - i = (j - (i + 1)) + 1 by omega,
          List.getElem?_cons_succ]
        cases ks[j - (i + 1)]? with
        | some s => rfl
        | none =>
          dsimp only
          rw [get_set, if_neg (by simp), get_set, if_neg (by simp; omega)]
      · rw [if_neg hij, get_set, if_neg (by simp), get_set]
        by_cases hji : i = j
        · subst hji
          rw [if_pos rfl, if_pos le_rfl]
          simp
        · rw [if_neg (by simp; omega), if_neg (by omega)]
    · cases m with
      | zero =>
        simp only [List.getElem?_cons_zero, Option.some.injEq] at hm
        subst hm
        rw [h3 k hk, get_set, if_pos rfl]
        simp
      | succ m =>
        rw [h2 m s (by simpa using hm)]
        congr 2
        push_cast
        ring
    · obtain ⟨hs1, hs2⟩ := List.ne_and_not_mem_of_not_mem_cons hs
      rw [h3 s hs2, get_set, if_neg (by simpa using hs1), get_set, if_neg (by simp)]

/-- For classes that are texts the dictionary leads from identifiers to classes and back. -/
theorem C110_mapping_partial (keys : List Name) (h : keys.Nodup) (i : ℕ) (s : Name)
    (hs : keys[i]? = some s) :
    (mapping (keys.map .text)).get (.int i) = some (.text s) ∧
    (mapping (keys.map .text)).get (.text s) = some (.int i) := by
  obtain ⟨h1, h2, -⟩ := mapFrom_text keys 0 [] h
  constructor
  · unfold mapping
    rw [h1 i, if_pos (Nat.zero_le _), Nat.sub_zero, hs]
  · unfold mapping
    rw [h2 i s hs, Nat.zero_add]

/-- The identifiers of the rows are then those of their classes. -/
theorem C110_ids_partial (keys : List Name) (h : keys.Nodup) (col : List Name)
    (hc : ∀ c ∈ col, c ∈ keys) (r : ℕ) (c : Name) (hr : col[r]? = some c) :
    ∃ i, keys[i]? = some c ∧
      (toIds (keys.map .text) (col.map .text))[r]? = some (some (.int (i : ℕ))) := by
  obtain ⟨i, hi⟩ := List.mem_iff_getElem?.mp (hc c (List.mem_of_getElem? hr))
  refine ⟨i, hi, ?_⟩
  unfold toIds
  rw [List.getElem?_map, List.getElem?_map, hr]
  simp only [Option.map_some]
  rw [(C110_mapping_partial keys h i c hi).2]

/-- For classes that are integers identifiers and classes are confused: of the classes 1 and 2 the first gets identifier
2, which does not exist, and identifier 1 stands for class 2 while identifier 2 stands for 1. -/
theorem C110_mapping_violated :
    toIds [.int 1, .int 2] [.int 1, .int 2] = [some (.int 2), some (.int 1)] ∧
    (mapping [.int 1, .int 2]).get (.int 0) = some (.int 1) ∧
    (mapping [.int 1, .int 2]).get (.int 1) = some (.int 2) := by decide +kernel

theorem mem_rowsOf (col : List Key) (c : Key) (i : ℕ) : i ∈ rowsOf col c ↔ col[i]? = some c := by
  simp only [rowsOf, List.mem_map, List.mem_filter, Prod.exists, List.mem_zipIdx_iff_getElem?,
    decide_eq_true_eq]
  constructor
  · rintro ⟨a, b, ⟨h1, rfl⟩, rfl⟩
    exact h1
  · intro h
    exact ⟨c, i, ⟨h, rfl⟩, rfl⟩

theorem rowsOf_nodup (col : List Key) (c : Key) : (rowsOf col c).Nodup := by
  unfold rowsOf
  have : (col.zipIdx.map (·.2)).Nodup := by
    rw [List.zipIdx_map_snd]
    exact List.nodup_range'
  exact this.sublist (List.filter_sublist.map _)

/-- Every row belongs to the tables of exactly one class, that of its own. -/
theorem C110_rows (keys col : List Key) (hn : keys.Nodup) (hc : ∀ c ∈ col, c ∈ keys) :
    (∀ c i, i ∈ rowsOf col c ↔ col[i]? = some c) ∧
    List.Perm (keys.flatMap (rowsOf col)) (List.range col.length) := by
  refine ⟨fun c i => mem_rowsOf col c i, ?_⟩
  rw [List.perm_ext_iff_of_nodup _ List.nodup_range]
  · intro i
    simp only [List.mem_flatMap, mem_rowsOf, List.mem_range]
    constructor
    · rintro ⟨c, -, h⟩
      exact (List.getElem?_eq_some_iff.mp h).1
    · intro h
      exact ⟨col[i], hc _ (List.getElem_mem h), List.getElem?_eq_getElem h⟩
  · rw [List.nodup_flatMap]
    refine ⟨fun c _ => rowsOf_nodup col c, ?_⟩
    refine hn.imp ?_
    intro a b hab i ha hb
    rw [mem_rowsOf] at ha hb
    rw [ha] at hb
    exact hab (Option.some.inj hb)

/-- The binary data of the classes: 1 for the class of the row and 0 for all the others. -/
theorem C110_binary (keys col : List Key) (hn : keys.Nodup) (i j r : ℕ) (c k : Key)
    (hi : keys[i]? = some c) (hr : col[r]? = some c) (hj : keys[j]? = some k) :
    ∃ l, (binary keys col)[j]? = some l ∧ l[r]? = some (if j = i then 1 else 0) := by
  refine ⟨col.map fun c => if c = k then 1 else 0, by simp [binary, hj], ?_⟩
  rw [List.getElem?_map, hr]
  simp only [Option.map_some, Option.some.injEq]
  have : c = k ↔ j = i := by
    constructor
    · rintro rfl
      obtain ⟨h1, h2⟩ := List.getElem?_eq_some_iff.mp hi
      obtain ⟨h3, h4⟩ := List.getElem?_eq_some_iff.mp hj
      exact (List.Nodup.getElem_inj_iff hn).mp (h4.trans h2.symm)
    · rintro rfl
      rw [hi] at hj
      exact Option.some.inj hj
  by_cases h : c = k
  · rw [if_pos h, if_pos (this.mp h)]
  · rw [if_neg h, if_neg fun h2 => h (this.mpr h2)]

/-! ### Outputs for the regression -/

/-- Where a column of a class has either only numbers or none, the columns for the regression are those with numbers. -/
theorem C110_columns_partial (rd : Reader) (cols : List ℕ) (rows : List (List Cell)) (j : ℕ)
    (hne : rows ≠ []) (hu : (∀ r ∈ rows, (r.getD j .nan).floats rd = true) ∨
      ∀ r ∈ rows, (r.getD j .nan).floats rd = false) :
    j ∈ floatCols rd cols rows ↔ j ∈ cols ∧ ∀ r ∈ rows, (r.getD j .nan).floats rd = true := by
  cases rows with
  | nil => exact absurd rfl hne
  | cons r rs =>
    simp only [floatCols, List.mem_filter]
    refine and_congr_right fun _ => ?_
    rcases hu with h | h
    · exact ⟨fun _ => h, fun h2 => h2 r (by simp)⟩
    · refine ⟨fun h2 => ?_, fun h2 => h2 r (by simp)⟩
      rw [h r (by simp)] at h2
      cases h2

/-- Otherwise the first row decides: a NaN there drops all numbers of the column, and texts and NaN in later rows stay. -/
theorem C110_columns_violated (rd : Reader) (q : ℚ) (s : Name) (hs : rd s = none) :
    floatCols rd [0] [[.nan], [.num q], [.num q]] = [] ∧
    floatCols rd [0] [[.num q], [.text s], [.nan]] = [0] ∧
    Cell.floats rd (.text s) = false := by
  simp [floatCols, Cell.floats, hs]

/-! ### Changes -/

theorem firsts_of_nodup : ∀ (l : List ℕ), l.Nodup → firsts l = l
  | [], _ => rfl
  | n :: r, h => by
    obtain ⟨h1, h2⟩ := List.nodup_cons.mp h
    simp only [firsts]
    rw [firsts_of_nodup r h2, List.filter_eq_self.mpr]
    intro a ha
    have : a ≠ n := fun h3 => h1 (h3 ▸ ha)
    simpa using this

theorem filter_prefix (m : ℕ) : ∀ (ns : List ℕ), ns.Pairwise (· < ·) →
    ns.filter (fun n => n + 1 ≤ m) <+: ns
  | [], _ => by simp
  | n :: r, h => by
    obtain ⟨h1, h2⟩ := List.pairwise_cons.mp h
    by_cases hn : n + 1 ≤ m
    · rw [List.filter_cons_of_pos (by simpa using hn)]
      exact (List.prefix_cons_inj n).mpr (filter_prefix m r h2)
    · rw [List.filter_eq_nil_iff.mpr]
      · exact List.nil_prefix
      · intro a ha
        rcases List.mem_cons.mp ha with rfl | ha
        · simpa using hn
        · have := h1 a ha
          simp
          omega

/-- For increasing numbers of neighbours, each column of changes is named for the number it was calculated with, and there is
one for every number smaller than the class. -/
theorem C110_names_partial (m : ℕ) (ns : List ℕ) (h : ns.Pairwise (· < ·)) :
    (∀ p ∈ apcCols m ns, p.1 = p.2 ∧ p.2 ∈ ns ∧ p.2 + 1 ≤ m) ∧
    ∀ n ∈ ns, n + 1 ≤ m → (n, n) ∈ apcCols m ns := by
  have hnd : (ns.filter fun n => n + 1 ≤ m).Nodup :=
    (h.imp (fun h => Nat.ne_of_lt h)).sublist List.filter_sublist
  have hu : used m ns = ns.filter fun n => n + 1 ≤ m := by
    unfold used
    exact firsts_of_nodup _ hnd
  have hp := filter_prefix m ns h
  have key : ∀ (i x : ℕ), (used m ns)[i]? = some x → ns.getD i 0 = x := by
    intro i x hx
    rw [hu] at hx
    obtain ⟨t, ht⟩ := hp
    have hl := (List.getElem?_eq_some_iff.mp hx).1
    have : ns[i]? = some x := by
      rw [← ht, List.getElem?_append_left hl, hx]
    rw [List.getD_eq_getElem?_getD, this]
    rfl
  constructor
  · intro p hp'
    simp only [apcCols, List.mem_map, Prod.exists, List.mem_zipIdx_iff_getElem?] at hp'
    obtain ⟨x, i, hx, rfl⟩ := hp'
    have hm := List.mem_of_getElem? hx
    rw [hu, List.mem_filter] at hm
    exact ⟨key i x hx, hm.1, by simpa using hm.2⟩
  · intro n hn hm
    have hmem : n ∈ used m ns := by
      rw [hu, List.mem_filter]
      exact ⟨hn, by simpa using hm⟩
    obtain ⟨i, hi⟩ := List.mem_iff_getElem?.mp hmem
    simp only [apcCols, List.mem_map, Prod.exists, List.mem_zipIdx_iff_getElem?]
    exact ⟨n, i, hi, by rw [key i n hi]⟩

/-- Otherwise columns are named for other numbers: for a class of 4 and 5 and 2 neighbours the changes over 2 neighbours are
called those over 5. -/
theorem C110_names_violated : apcCols 4 [5, 2] = [(5, 2)] ∧ apcCols 9 [2, 2, 3] = [(2, 2), (2, 3)] := by
  decide

/-- At a positive value the change is the distance of the mean of the neighbours in units of the value. -/
theorem C110_change_partial (undef : Option ℚ) (x : ℚ) (hx : 0 < x) (ys : List ℚ) (hy : ys ≠ []) :
    ∃ c, change undef x ys = some c ∧ 0 ≤ c ∧ c * x = |x - ys.sum / ys.length| := by
  have hs : ∀ l : List ℚ, (l.map fun y => x - y).sum = l.length * x - l.sum := by
    intro l
    induction l with
    | nil => simp
    | cons a l ih =>
      simp only [List.map_cons, List.sum_cons, ih, List.length_cons]
      push_cast
      ring
  have hl : (ys.length : ℚ) ≠ 0 := by
    have : 0 < ys.length := List.length_pos_of_ne_nil hy
    exact_mod_cast this.ne'
  refine ⟨_, by unfold change; rw [if_neg hx.ne'], div_nonneg (abs_nonneg _) hx.le, ?_⟩
  rw [div_mul_cancel₀ _ hx.ne', hs]
  congr 1
  field_simp

/-- At a negative value the change is never positive. -/
theorem C110_negative_violated (undef : Option ℚ) (x : ℚ) (hx : x < 0) (ys : List ℚ) (c : ℚ)
    (h : change undef x ys = some c) : c ≤ 0 := by
  unfold change at h
  rw [if_neg hx.ne] at h
  cases h
  exact div_nonpos_of_nonneg_of_nonpos (abs_nonneg _) hx.le

/-- Neighbours above and below cancel: the change is 0 however far away they are. -/
theorem C110_cancel_violated (undef : Option ℚ) (x y : ℚ) (hx : x ≠ 0) :
    change undef x [x - y, x + y] = some 0 := by
  unfold change
  rw [if_neg hx]
  simp

/-! ### Data for the regression -/

/-- Without a value for undefined changes the points with values are used, each with its own position. -/
theorem C110_clean_partial {X : Type} (xs : List X) (ys : List (Option ℚ))
    (hl : xs.length = ys.length) :
    (clean none xs ys).1.zip (clean none xs ys).2 = (xs.zip ys).filter fun p => p.2.isSome := by
  unfold clean
  by_cases h : ys.any (·.isNone) = true
  · rw [if_pos h]
    exact (List.zip_of_prod rfl rfl).symm
  · rw [if_neg h]
    dsimp only
    rw [List.filter_eq_self.mpr]
    rintro ⟨a, b⟩ hp
    have hb := (List.of_mem_zip hp).2
    cases b with
    | some q => rfl
    | none => exact absurd (List.any_eq_true.mpr ⟨none, hb, rfl⟩) h

/-- With NaN in the data the undefined values are used as if they were values, and outputs that happen to be equal to that
value are not used. -/
theorem C110_clean_violated :
    clean (some 0) [1, 2, 3] [none, some 0, some 7] = ([2, 3], [some 0, some 7]) ∧
    clean (some 0) [1, 2, 3] [some 5, some 0, some 7] = ([1, 3], [some 5, some 7]) := by
  decide +kernel

theorem absMax_spec : ∀ (outs : List Out) (m : Option ℚ), absMax outs = .ok m →
    (∀ apc, .table apc ∈ outs → ∀ x ∈ apc, ∃ M, m = some M ∧ |x| ≤ M) ∧
    (∀ M, m = some M → ∃ apc, .table apc ∈ outs ∧ ∃ x ∈ apc, M = |x|)
  | [], m, h => by
    cases h
    simp
  | .nan :: r, m, h => by cases h
  | .table apc :: r, m, h => by
    unfold absMax at h
    cases hr : absMax r with
    | error e => rw [hr] at h; cases h
    | ok m' =>
      rw [hr] at h
      obtain ⟨i1, i2⟩ := absMax_spec r m' hr
      dsimp only at h
      cases ha : (apc.map fun x => |x|).max? with
      | none =>
        rw [ha] at h
        cases h
        rw [List.max?_eq_none_iff, List.map_eq_nil_iff] at ha
        subst ha
        refine ⟨fun apc' hm x hx => ?_, fun M hM => ?_⟩
        · rcases List.mem_cons.mp hm with hm | hm
          · cases hm; cases hx
          · exact i1 apc' hm x hx
        · obtain ⟨a, h1, h2⟩ := i2 M hM
          exact ⟨a, List.mem_cons_of_mem _ h1, h2⟩
      | some a =>
        have hmax := List.max?_eq_some_iff.mp ha
        obtain ⟨x0, hx0, hxa⟩ := List.mem_map.mp hmax.1
        rw [ha] at h
        cases hm' : m' with
        | none =>
          rw [hm'] at h i1 i2
          cases h
          refine ⟨fun apc' hm x hx => ?_, fun M hM => ?_⟩
          · rcases List.mem_cons.mp hm with hm | hm
            · cases hm
              exact ⟨a, rfl, hmax.2 _ (List.mem_map.mpr ⟨x, hx, rfl⟩)⟩
            · obtain ⟨M, hM, -⟩ := i1 apc' hm x hx
              cases hM
          · cases hM
            exact ⟨apc, by simp, x0, hx0, hxa.symm⟩
        | some b =>
          rw [hm'] at h i1 i2
          cases h
          refine ⟨fun apc' hm x hx => ⟨max a b, rfl, ?_⟩, fun M hM => ?_⟩
          · rcases List.mem_cons.mp hm with hm | hm
            · cases hm
              exact (hmax.2 _ (List.mem_map.mpr ⟨x, hx, rfl⟩)).trans (le_max_left _ _)
            · obtain ⟨M, hM, hle⟩ := i1 apc' hm x hx
              cases hM
              exact hle.trans (le_max_right _ _)
          · cases hM
            rcases max_choice a b with hmx | hmx
            · exact ⟨apc, by simp, x0, hx0, by rw [hmx, hxa]⟩
            · obtain ⟨a', h1, x, h2, h3⟩ := i2 b rfl
              exact ⟨a', List.mem_cons_of_mem _ h1, x, h2, by rw [hmx, h3]⟩

/-- The largest change over all classes bounds every change and is one of them. -/
theorem C110_largest (outs : List Out) (m : Option ℚ) (h : absMax outs = .ok m) :
    (∀ apc, .table apc ∈ outs → ∀ x ∈ apc, ∃ M, m = some M ∧ |x| ≤ M) ∧
    (∀ M, m = some M → ∃ apc, .table apc ∈ outs ∧ ∃ x ∈ apc, M = |x|) := absMax_spec outs m h

/-- One class without numerical outputs, for which the tables hold NaN, makes the regressor fail. -/
theorem C110_regressor_violated (outs : List Out) (h : Out.nan ∈ outs) :
    absMax outs = .error .attribute := by
  induction outs with
  | nil => cases h
  | cons o r ih =>
    cases o with
    | nan => rfl
    | table apc =>
      have : Out.nan ∈ r := by
        rcases List.mem_cons.mp h with h | h
        · cases h
        · exact h
      unfold absMax
      rw [ih this]

/-- Several tables at once are only returned as data frames; as arrays, the default, there is an `AttributeError`. -/
theorem C110_get_data_violated (l : List Name) (h : ∀ s ∈ l, s ∈ dataKeys) :
    getData (.many l) true = .ok l ∧ getData (.many l) false = .error .attribute := by
  unfold getData
  dsimp only
  rw [if_pos h, if_pos h]
  simp

/-- One table is returned for each of the three names, as a frame or as values; every other name is a KeyError. -/
theorem C110_get_data (s : Name) (df : Bool) :
    (s = (chars! "input") ∨ s = (chars! "output") ∨ s = (chars! "full") → getData (.one s) df = .ok [s]) ∧
    (s ≠ (chars! "input") → s ≠ (chars! "output") → s ≠ (chars! "full") → getData (.one s) df = .error .key) := by
  constructor
  · intro h
    refine if_pos (show s ∈ [(chars! "input"), (chars! "output"), (chars! "full")] from ?_)
    simpa using h
  · intro h1 h2 h3
    refine if_neg (show s ∉ [(chars! "input"), (chars! "output"), (chars! "full")] from ?_)
    simpa using ⟨h1, h2, h3⟩

end Verif.TableData
