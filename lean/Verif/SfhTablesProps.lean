import Verif.SfhTables
import Mathlib.Tactic.NormNum
import Mathlib.Tactic.Positivity
/-!
Property theorems for C120 (star formation histories from tables follow the tables).
-/
namespace Verif.SfhTables
open Classical

/-! ### Interpolation -/

theorem curve_through (argsort : List Node → List Node) (hs : Sorts argsort) (xs : List ℝ) (ys : List (Option ℝ)) (hl : xs.length = ys.length)
    (hn : xs.Nodup) (hne : xs ≠ []) (hy : ys.head? ≠ some none) :
    ∃ f, (∀ z, curve argsort xs ys z = .ok (f z)) ∧
      ∀ xs' ys', xs'.length = ys'.length → (xs.zip ys).Perm (xs'.zip ys') → Through xs' ys' f := by
  have hfst : (xs.zip ys).map Prod.fst = xs := List.map_fst_zip (by omega)
  have hp := arrange_perm hs (xs.zip ys)
  have hi := arrange_incr hs (xs.zip ys) (by rw [hfst]; exact hn)
  obtain ⟨x, xt, rfl⟩ := List.exists_cons_of_ne_nil hne
  cases ys with
  | nil => simp at hl
  | cons y yt =>
    cases ha : arrange argsort ((x :: xt).zip (y :: yt)) with
    | nil => rw [ha] at hp; exact absurd hp.symm.eq_nil (by simp)
    | cons p ps =>
      rw [ha] at hp hi
      refine ⟨call p ps, fun z => ?_, fun xs' ys' hl' hp' => call_through hl' hi (hp.trans hp')⟩
      unfold curve
      rw [if_neg (by simpa using hl), ha]
      refine if_pos ⟨?_, call_node hi (n := (x, y)) (hp.mem_iff.2 (by simp))⟩
      simpa using hy

/-- C120. Rates and means are defined if the first value is: they go through the values of the table, are straight between neighbours, and constant
outside. -/
theorem C120_curve (argsort : List Node → List Node) (hs : Sorts argsort) (xs : List ℝ) (ys : List (Option ℝ)) (hl : xs.length = ys.length)
    (hn : xs.Nodup) (hne : xs ≠ []) (hy : ys.head? ≠ some none) :
    ∃ f, (∀ z, curve argsort xs ys z = .ok (f z)) ∧ Through xs ys f := by
  obtain ⟨f, h1, h2⟩ := curve_through argsort hs xs ys hl hn hne hy
  exact ⟨f, h1, h2 xs ys hl (.refl _)⟩

/-- If the first value of the table is missing, there is an error at every redshift. -/
theorem C120_first_missing_violated (argsort : List Node → List Node) (hs : Sorts argsort) (xs : List ℝ) (ys : List (Option ℝ))
    (hl : xs.length = ys.length) (hn : xs.Nodup) (hy : ys.head? = some none) (z : ℝ) : curve argsort xs ys z = .error .assertion := by
  have hp := arrange_perm hs (xs.zip ys)
  cases ys with
  | nil => simp at hy
  | cons y yt =>
    cases xs with
    | nil => simp at hl
    | cons x xt =>
      cases ha : arrange argsort ((x :: xt).zip (y :: yt)) with
      | nil => rw [ha] at hp; exact absurd hp.symm.eq_nil (by simp)
      | cons p ps =>
        unfold curve
        rw [if_neg (by simpa using hl), ha]
        refine if_neg fun h => h.1 ?_
        simpa using hy

/-! ### IllustrisTNG -/

theorem zip_reverse {A B : Type} (a : List A) (b : List B) (h : a.length = b.length) : (a.reverse.zip b.reverse).Perm (a.zip b) := by
  rw [show a.reverse.zip b.reverse = (a.zip b).reverse from (List.reverse_zipWith h).symm]
  exact List.reverse_perm _

/-- The rate of the simulation goes through the values of its file. -/
theorem C120_illustris_rate (argsort : List Node → List Node) (hs : Sorts argsort) (rs sfr zs : List ℝ) (m : List (List ℝ))
    (hl : rs.length = sfr.length) (hn : rs.Nodup) (hne : rs ≠ []) :
    ∃ f, (∀ z, rateIllustris argsort (readIllustris rs sfr zs m) z = .ok (f z)) ∧ Through rs (sfr.map some) f := by
  obtain ⟨f, h1, h2⟩ := curve_through argsort hs rs.reverse (sfr.reverse.map some) (by simp [hl]) (List.nodup_reverse.2 hn) (by simpa using hne)
    (by cases sfr.reverse <;> simp)
  refine ⟨f, h1, h2 _ _ (by simp [hl]) ?_⟩
  rw [List.map_reverse]
  exact zip_reverse _ _ (by simp [hl])

/-- The mean metallicity is the average of the row of the file, if the last row has any mass. -/
theorem C120_illustris_mean (argsort : List Node → List Node) (hs : Sorts argsort) (rs sfr zs : List ℝ) (m : List (List ℝ))
    (hl : rs.length = m.length) (hn : rs.Nodup) (hne : rs ≠ []) (hlast : ∀ row, m.getLast? = some row → row.sum ≠ 0) :
    ∃ f, (∀ z, meanIllustris argsort (readIllustris rs sfr zs m).1 z = .ok (f z)) ∧ Through rs (m.map (average zs)) f := by
  obtain ⟨f, h1, h2⟩ := curve_through argsort hs rs.reverse (m.reverse.map (average zs)) (by simp [hl]) (List.nodup_reverse.2 hn) (by simpa using hne)
    (by
      rw [List.head?_map, List.head?_reverse]
      cases hm : m.getLast? with
      | none => simp
      | some row => simp [average, hlast row hm])
  refine ⟨f, h1, h2 _ _ (by simp [hl]) ?_⟩
  rw [List.map_reverse]
  exact zip_reverse _ _ (by simp [hl])

/-- Without star formation at the lowest redshift of the file there is no mean metallicity at any redshift. -/
theorem C120_illustris_mean_violated (argsort : List Node → List Node) (hs : Sorts argsort) (rs sfr zs : List ℝ) (m : List (List ℝ))
    (hl : rs.length = m.length) (hn : rs.Nodup) (row : List ℝ) (hrow : m.getLast? = some row) (h0 : row.sum = 0) (z : ℝ) :
    meanIllustris argsort (readIllustris rs sfr zs m).1 z = .error .assertion := by
  refine C120_first_missing_violated argsort hs _ _ (by simp [readIllustris, hl]) (List.nodup_reverse.2 hn) ?_ z
  show (List.map (average zs) m.reverse).head? = some none
  rw [List.head?_map, List.head?_reverse, hrow]
  simp [average, h0]

/-- The distribution used at a redshift is the one of the largest redshift of the file that is not above it. -/
theorem C120_illustris_row (rs sfr zs : List ℝ) (m : List (List ℝ)) (hl : rs.length = m.length) (hd : rs.Pairwise (fun a b => b < a)) (z : ℝ)
    (hz : ∃ r ∈ rs, r ≤ z) :
    ∃ (i k : ℕ) (r : ℝ) (row : List ℝ), rowIllustris (readIllustris rs sfr zs m).1 z = .ok i ∧ (readIllustris rs sfr zs m).1.rows[i]? = some row ∧
      rs[k]? = some r ∧ m[k]? = some row ∧ r ≤ z ∧ ∀ r' ∈ rs, r' ≤ z → r' ≤ r := by
  have hinc : rs.reverse.Pairwise (· < ·) := List.pairwise_reverse.2 hd
  obtain ⟨r0, hr0, hr0z⟩ := hz
  obtain ⟨i0, hi0⟩ := List.mem_iff_getElem?.1 (List.mem_reverse.2 hr0)
  have hmem : i0 ∈ notAbove rs.reverse z := (mem_notAbove _ _ _).2 ⟨r0, hi0, hr0z⟩
  cases hlst : (notAbove rs.reverse z).getLast? with
  | none => rw [List.getLast?_eq_none_iff] at hlst; rw [hlst] at hmem; exact absurd hmem (by simp)
  | some i =>
    obtain ⟨r, hr, hrz⟩ := (mem_notAbove _ _ _).1 (List.mem_of_getLast? hlst)
    have hi : i < rs.length := by simpa using (List.getElem?_eq_some_iff.1 hr).1
    have hrow : m.reverse[i]? = some (m.reverse[i]'(by simp; omega)) := List.getElem?_eq_getElem _
    refine ⟨i, rs.length - 1 - i, r, m.reverse[i]'(by simp; omega), ?_, hrow, ?_, ?_, hrz, ?_⟩
    · show (match (notAbove rs.reverse z).getLast? with | none => _ | some i => _) = _
      rw [hlst]
    · rw [← List.getElem?_reverse hi]; exact hr
    · rw [hl, ← List.getElem?_reverse (by omega)]; exact hrow
    · intro r' hr' hz'
      obtain ⟨j, hj⟩ := List.mem_iff_getElem?.1 (List.mem_reverse.2 hr')
      have hji : j ≤ i := by
        have h1 : j ∈ notAbove rs.reverse z := (mem_notAbove _ _ _).2 ⟨r', hj, hz'⟩
        obtain ⟨l, hl'⟩ := List.getLast?_eq_some_iff.1 hlst
        have hs := notAbove_sorted rs.reverse z
        rw [hl'] at hs h1
        rcases List.mem_append.1 h1 with h1 | h1
        · exact ((List.pairwise_append.1 hs).2.2 j h1 i (by simp)).le
        · exact (List.mem_singleton.1 h1).le
      rcases hji.lt_or_eq with h | h
      · obtain ⟨a1, a2⟩ := List.getElem?_eq_some_iff.1 hj
        obtain ⟨b1, b2⟩ := List.getElem?_eq_some_iff.1 hr
        rw [← a2, ← b2]
        exact (List.pairwise_iff_getElem.1 hinc j i a1 b1 h).le
      · subst h
        rw [hj] at hr
        exact (Option.some.inj hr).le

/-- Below all redshifts of the file there is a rate, but looking for the distribution is an error. -/
theorem C120_illustris_low_violated (argsort : List Node → List Node) (hs : Sorts argsort) (rs sfr zs : List ℝ) (m : List (List ℝ))
    (hl : rs.length = sfr.length) (hn : rs.Nodup) (hne : rs ≠ []) (z : ℝ) (hz : ∀ r ∈ rs, z < r) :
    rowIllustris (readIllustris rs sfr zs m).1 z = .error .index ∧
      ∃ v, rateIllustris argsort (readIllustris rs sfr zs m) z = .ok (some v) ∧ v ∈ sfr := by
  constructor
  · have : notAbove rs.reverse z = [] := List.eq_nil_iff_forall_not_mem.2 fun i hi => by
      obtain ⟨r, h1, h2⟩ := (mem_notAbove _ _ _).1 hi
      exact absurd (hz r (List.mem_reverse.1 (List.mem_of_getElem? h1))) (not_lt.2 h2)
    show (match (notAbove rs.reverse z).getLast? with | none => _ | some i => _) = _
    rw [this]
    rfl
  · obtain ⟨f, h1, h2⟩ := C120_illustris_rate argsort hs rs sfr zs m hl hn hne
    cases hm : minOf rs with
    | error e => cases rs with
      | nil => exact absurd rfl hne
      | cons a l => simp [minOf] at hm
    | ok a =>
      obtain ⟨ha, hmin⟩ := minOf_spec rs a hm
      obtain ⟨i, hi⟩ := List.mem_iff_getElem?.1 ha
      have hlt := (List.getElem?_eq_some_iff.1 hi).1
      have hi' : sfr[i]? = some (sfr[i]'(by omega)) := List.getElem?_eq_getElem _
      refine ⟨sfr[i]'(by omega), ?_, List.getElem_mem _⟩
      rw [h1 z, h2.below z i a _ hi (by rw [List.getElem?_map, hi']; rfl) hmin (hz a ha).le]

/-! ### Averages -/

/-- The mean metallicity of a row lies between the metallicities of the table. -/
theorem C120_average (zs ws : List ℝ) (hl : zs.length = ws.length) (hw : ∀ w ∈ ws, 0 ≤ w) (h0 : ws.sum ≠ 0) (lo hi : ℝ)
    (hz : ∀ z ∈ zs, lo ≤ z ∧ z ≤ hi) : ∃ a, average zs ws = some a ∧ lo ≤ a ∧ a ≤ hi := by
  refine ⟨_, by rw [average, if_neg h0], ?_⟩
  have key : ∀ (zs ws : List ℝ), zs.length = ws.length → (∀ w ∈ ws, 0 ≤ w) → (∀ z ∈ zs, lo ≤ z ∧ z ≤ hi) →
      lo * ws.sum ≤ (List.zipWith (· * ·) zs ws).sum ∧ (List.zipWith (· * ·) zs ws).sum ≤ hi * ws.sum ∧ 0 ≤ ws.sum := by
    intro zs
    induction zs with
    | nil =>
      intro ws hl _ _
      obtain rfl : ws = [] := List.length_eq_zero_iff.1 hl.symm
      simp
    | cons z zs ih =>
      intro ws hl hw hz
      cases ws with
      | nil => simp at hl
      | cons w ws =>
        obtain ⟨h1, h2, h3⟩ := ih ws (by simpa using hl) (fun x hx => hw x (List.mem_cons_of_mem _ hx)) fun x hx => hz x (List.mem_cons_of_mem _ hx)
        have hw0 := hw w (by simp)
        obtain ⟨z1, z2⟩ := hz z (by simp)
        simp only [List.zipWith_cons_cons, List.sum_cons, mul_add]
        exact ⟨add_le_add (mul_le_mul_of_nonneg_right z1 hw0) h1, add_le_add (mul_le_mul_of_nonneg_right z2 hw0) h2, add_nonneg hw0 h3⟩
  obtain ⟨h1, h2, h3⟩ := key zs ws hl hw hz
  have hpos : 0 < ws.sum := lt_of_le_of_ne h3 (Ne.symm h0)
  exact ⟨(le_div_iff₀ hpos).2 h1, (div_le_iff₀ hpos).2 h2⟩

theorem sum_map_mul (l : List ℝ) (c : ℝ) : (l.map (· * c)).sum = l.sum * c := by
  induction l with
  | nil => simp
  | cons a l ih => simp [ih, add_mul]

theorem sum_zip_mul (zs ws : List ℝ) (c : ℝ) : (List.zipWith (· * ·) zs (ws.map (· * c))).sum = (List.zipWith (· * ·) zs ws).sum * c := by
  induction zs generalizing ws with
  | nil => simp
  | cons z zs ih =>
    cases ws with
    | nil => simp
    | cons w ws =>
      simp only [List.map_cons, List.zipWith_cons_cons, List.sum_cons, ih, add_mul, mul_assoc]

/-- A common factor of the weights does not change the mean. -/
theorem C120_average_scale (zs ws : List ℝ) (c : ℝ) (hc : c ≠ 0) : average zs (ws.map (· * c)) = average zs ws := by
  unfold average
  rw [sum_map_mul, sum_zip_mul]
  by_cases h : ws.sum = 0
  · rw [if_pos h, if_pos (by rw [h, zero_mul])]
  · rw [if_neg h, if_neg (mul_ne_zero h hc), mul_div_mul_right _ _ hc]

/-! ### Chruslinska et al. -/

theorem dFOH_val : dFOH = 4.4 / 199 := by
  have h1 : fohBins.getD 1 0 = (5.3 : ℝ) + 1 * ((9.7 - 5.3) / 199) := by
    simp [fohBins, List.getD_eq_getElem?_getD]
  have h0 : fohBins.getD 0 0 = (5.3 : ℝ) := by
    simp [fohBins, List.getD_eq_getElem?_getD]
  unfold dFOH
  rw [h1, h0]
  norm_num

theorem dFOH_pos : 0 < dFOH := by rw [dFOH_val]; norm_num

/-- The rate at a redshift of the table is the mass of its row over its time. -/
theorem C120_chruslinska_rate (argsort : List Node → List Node) (hs : Sorts argsort) (sub : Bool) (sc : Option String) (rs dts : List ℝ)
    (m : List (List ℝ)) (t : Table) (h : readChruslinska sub sc rs dts m = .ok t) (hl : rs.length = m.length) (hl' : rs.length = dts.length)
    (hn : rs.Nodup) (hne : rs ≠ []) :
    ∃ f, (∀ z, rateChruslinska argsort t z = .ok (f z)) ∧
      Through rs (List.zipWith (fun row dt => some (row.sum / (1000000 * dt))) m dts) f := by
  have ht : t.rs = rs ∧ t.rows = List.zipWith (fun row dt => row.map fun x => x / (1000000 * dt) / dFOH) m dts := by
    unfold readChruslinska at h
    split_ifs at h
    cases sc with
    | none => cases h
    | some s =>
      dsimp only at h
      cases hz : fohZ s with
      | error e => rw [hz] at h; cases h
      | ok zs => rw [hz] at h; cases h; exact ⟨rfl, rfl⟩
  have hrows : (t.rows.map fun row => some ((row.map (· * dFOH)).sum)) =
      List.zipWith (fun row dt => some (row.sum / (1000000 * dt))) m dts := by
    rw [ht.2, List.map_zipWith]
    congr 1
    funext row dt
    congr 1
    rw [List.map_map]
    have : ((fun x => x * dFOH) ∘ fun x => x / (1000000 * dt) / dFOH) = fun x : ℝ => x * (1000000 * dt)⁻¹ := by
      funext x
      simp only [Function.comp]
      rw [div_mul_cancel₀ _ dFOH_pos.ne', div_eq_mul_inv]
    rw [this, sum_map_mul, div_eq_mul_inv]
  have hh : (List.zipWith (fun (row : List ℝ) (dt : ℝ) => some (row.sum / (1000000 * dt))) m dts).head? ≠ some none := by
    cases m <;> cases dts <;> simp
  obtain ⟨f, h1, h2⟩ := C120_curve argsort hs rs _ (by simp [hl, ← hl']) hn hne hh
  refine ⟨f, fun z => ?_, h2⟩
  unfold rateChruslinska
  rw [ht.1, hrows]
  exact h1 z

/-- The mean metallicity is the average of each row, if the first row has star formation. -/
theorem C120_chruslinska_mean (argsort : List Node → List Node) (hs : Sorts argsort) (t : Table) (hl : t.rs.length = t.rows.length)
    (hn : t.rs.Nodup) (hne : t.rs ≠ []) (hfirst : ∀ row, t.rows.head? = some row → row.sum ≠ 0) :
    ∃ f, (∀ z, meanChruslinska argsort t z = .ok (f z)) ∧ Through t.rs (t.rows.map (average t.zs)) f := by
  have e : (t.rows.map fun row => if row.sum = 0 then none else average t.zs (row.map (· * dFOH))) = t.rows.map (average t.zs) := by
    refine List.map_congr_left fun row _ => ?_
    rw [C120_average_scale _ _ _ dFOH_pos.ne']
    split_ifs with h
    · rw [average, if_pos h]
    · rfl
  obtain ⟨f, h1, h2⟩ := C120_curve argsort hs t.rs (t.rows.map (average t.zs)) (by simp [hl]) hn hne (by
    cases hr : t.rows with
    | nil => simp
    | cons row r => simp [average, hfirst row (by rw [hr]; rfl)])
  refine ⟨f, fun z => ?_, h2⟩
  unfold meanChruslinska
  rw [e]
  exact h1 z

/-- Without star formation in the first row there is no mean metallicity at any redshift. -/
theorem C120_chruslinska_mean_violated (argsort : List Node → List Node) (hs : Sorts argsort) (t : Table) (hl : t.rs.length = t.rows.length)
    (hn : t.rs.Nodup) (row : List ℝ) (hrow : t.rows.head? = some row) (h0 : row.sum = 0) (z : ℝ) :
    meanChruslinska argsort t z = .error .assertion := by
  refine C120_first_missing_violated argsort hs _ _ (by simp [hl]) hn ?_ z
  rw [List.head?_map, hrow]
  simp [h0]

theorem firstRow_decreasing (t : Table) (hd : t.rs.Pairwise (fun a b => b < a)) (z : ℝ) (hz : ∃ r ∈ t.rs, r ≤ z) :
    ∃ i r, firstRow t z = .ok i ∧ t.rs[i]? = some r ∧ r ≤ z ∧ ∀ r' ∈ t.rs, r' ≤ z → r' ≤ r := by
  obtain ⟨r0, hr0, hr0z⟩ := hz
  obtain ⟨i0, hi0⟩ := List.mem_iff_getElem?.1 hr0
  have hmem : i0 ∈ notAbove t.rs z := (mem_notAbove _ _ _).2 ⟨r0, hi0, hr0z⟩
  cases hl : notAbove t.rs z with
  | nil => rw [hl] at hmem; exact absurd hmem (by simp)
  | cons i l =>
    obtain ⟨r, hr, hrz⟩ := (mem_notAbove t.rs z i).1 (by rw [hl]; simp)
    refine ⟨i, r, by rw [firstRow, hl]; rfl, hr, hrz, fun r' hr' hz' => ?_⟩
    obtain ⟨j, hj⟩ := List.mem_iff_getElem?.1 hr'
    have h1 : j ∈ notAbove t.rs z := (mem_notAbove _ _ _).2 ⟨r', hj, hz'⟩
    have hs := notAbove_sorted t.rs z
    rw [hl] at hs h1
    obtain ⟨a1, a2⟩ := List.getElem?_eq_some_iff.1 hj
    obtain ⟨b1, b2⟩ := List.getElem?_eq_some_iff.1 hr
    rcases List.mem_cons.1 h1 with e | h1
    · subst e
      rw [hj] at hr
      exact (Option.some.inj hr).le
    · have hij := (List.pairwise_cons.1 hs).1 j h1
      rw [← a2, ← b2]
      exact (List.pairwise_iff_getElem.1 hd i j b1 a1 hij).le

/-- For a table with falling redshifts the row of each redshift is the one of the largest redshift not above it, and the one of the smallest redshift below the
table. -/
theorem C120_chruslinska_rows_partial (t : Table) (hd : t.rs.Pairwise (fun a b => b < a)) (hne : t.rs ≠ []) (zs : List ℝ) (hz : zs ≠ []) :
    ∃ is, rowsChruslinska t zs = .ok is ∧ is.length = zs.length ∧ ∀ (k i : ℕ) (z : ℝ), zs[k]? = some z → is[k]? = some i →
      ∃ r, t.rs[i]? = some r ∧ ((r ≤ z ∧ ∀ r' ∈ t.rs, r' ≤ z → r' ≤ r) ∨ (z < r ∧ ∀ r' ∈ t.rs, r ≤ r')) := by
  obtain ⟨a, ha⟩ : ∃ a, minOf zs = .ok a := by cases zs with | nil => exact absurd rfl hz | cons x l => exact ⟨_, rfl⟩
  obtain ⟨b, hb⟩ : ∃ b, minOf t.rs = .ok b := by cases h : t.rs with | nil => exact absurd h hne | cons x l => exact ⟨_, rfl⟩
  obtain ⟨ha1, ha2⟩ := minOf_spec _ _ ha
  obtain ⟨hb1, hb2⟩ := minOf_spec _ _ hb
  have hpick : ∀ z, ∃ i r, (if z < b then Except.ok (t.rs.length - 1) else firstRow t z) = .ok i ∧ t.rs[i]? = some r ∧
      ((r ≤ z ∧ ∀ r' ∈ t.rs, r' ≤ z → r' ≤ r) ∨ (z < r ∧ ∀ r' ∈ t.rs, r ≤ r')) := by
    intro z
    by_cases hzb : z < b
    · obtain ⟨j, hj⟩ := List.mem_iff_getElem?.1 hb1
      obtain ⟨j1, j2⟩ := List.getElem?_eq_some_iff.1 hj
      have hlast : j = t.rs.length - 1 := by
        by_contra hc
        have := List.pairwise_iff_getElem.1 hd j (t.rs.length - 1) j1 (by omega) (by omega)
        rw [j2] at this
        exact absurd (hb2 _ (List.getElem_mem (l := t.rs) (n := t.rs.length - 1) (by omega))) (not_le.2 this)
      exact ⟨_, b, if_pos hzb, hlast ▸ hj, Or.inr ⟨hzb, hb2⟩⟩
    · obtain ⟨i, r, h1, h2, h3, h4⟩ := firstRow_decreasing t hd z ⟨b, hb1, not_lt.1 hzb⟩
      exact ⟨i, r, by rw [if_neg hzb]; exact h1, h2, Or.inl ⟨h3, h4⟩⟩
  choose g r hg using hpick
  have hres : rowsChruslinska t zs = .ok (zs.map g) := by
    unfold rowsChruslinska
    rw [ha, hb]
    dsimp only
    split_ifs with hab
    · exact mapE_ok _ g zs fun z _ => (hg z).1
    · refine mapE_ok _ g zs fun z hz => ?_
      have := (hg z).1
      rwa [if_neg (not_lt.2 ((not_lt.1 hab).trans (ha2 z hz)))] at this
  refine ⟨_, hres, by simp, fun k i z hk hi => ?_⟩
  rw [List.getElem?_map, hk] at hi
  cases hi
  exact ⟨r z, (hg z).2⟩

/-- In whatever order the redshifts are, the first row is taken for all redshifts if they are not below the first one: for a table with rising redshifts the
first row is the distribution at every redshift. -/
theorem C120_order_violated (t : Table) (b : ℝ) (l : List ℝ) (ht : t.rs = b :: l) (zs : List ℝ) (hz : zs ≠ [])
    (hb : ∀ z ∈ zs, b ≤ z) : rowsChruslinska t zs = .ok (List.replicate zs.length 0) := by
  obtain ⟨a, ha⟩ : ∃ a, minOf zs = .ok a := by cases zs with | nil => exact absurd rfl hz | cons x l => exact ⟨_, rfl⟩
  obtain ⟨b', hb'⟩ : ∃ b', minOf t.rs = .ok b' := by rw [ht]; exact ⟨_, rfl⟩
  obtain ⟨ha1, -⟩ := minOf_spec _ _ ha
  obtain ⟨-, hb2⟩ := minOf_spec _ _ hb'
  have hle : b' ≤ b := hb2 b (by rw [ht]; simp)
  unfold rowsChruslinska
  rw [ha, hb']
  dsimp only
  rw [if_neg (not_lt.2 (hle.trans (hb a ha1))), mapE_ok (firstRow t) (fun _ => 0) zs, List.map_const']
  intro z hz
  have h0 : (0 : ℕ) ∈ notAbove t.rs z := (mem_notAbove _ _ _).2 ⟨b, by rw [ht]; rfl, hb z hz⟩
  unfold firstRow
  cases hl : notAbove t.rs z with
  | nil => rw [hl] at h0; exact absurd h0 (by simp)
  | cons i r =>
    have hs := notAbove_sorted t.rs z
    rw [hl] at hs h0
    rcases List.mem_cons.1 h0 with e | h0
    · subst e; rfl
    · exact absurd ((List.pairwise_cons.1 hs).1 0 h0) (by simp)

/-- The Sun has its own metallicity, metallicities are positive, rise with the abundance of oxygen, and other scalings are refused. -/
theorem C120_scaling (s : String) :
    (∀ z f, solar s = .ok (z, f) → toZ s f = .ok z) ∧
    (∀ x y a b, toZ s x = .ok a → toZ s y = .ok b → 0 < a ∧ (x < y ↔ a < b)) ∧
    ((∀ x, toZ s x = .error .value) ↔ s ∉ ["Asplund09", "AndersGrevesse89", "GrevesseSauval98", "Villante14"]) := by
  have hpos : ∀ z f, solar s = .ok (z, f) → 0 < z := by
    intro z f h
    unfold solar at h
    split_ifs at h <;> cases h <;> norm_num
  refine ⟨fun z f h => ?_, fun x y a b ha hb => ?_, ?_⟩
  · unfold toZ
    rw [h]
    dsimp only
    rw [add_sub_cancel_right, Real.rpow_logb (by norm_num) (by norm_num) (hpos z f h)]
  · unfold toZ at ha hb
    cases hs : solar s with
    | error e => rw [hs] at ha; cases ha
    | ok p =>
      obtain ⟨z, f⟩ := p
      rw [hs] at ha hb
      cases ha
      cases hb
      refine ⟨Real.rpow_pos_of_pos (by norm_num) _, ?_⟩
      rw [Real.rpow_lt_rpow_left_iff (by norm_num)]
      constructor <;> intro h <;> linarith
  · constructor
    · intro h hs
      have := h 0
      unfold toZ solar at this
      simp only [List.mem_cons, List.not_mem_nil, or_false] at hs
      rcases hs with rfl | rfl | rfl | rfl <;> simp at this
    · intro h x
      simp only [List.mem_cons, List.not_mem_nil, or_false, not_or] at h
      unfold toZ solar
      rw [if_neg h.1, if_neg h.2.1, if_neg h.2.2.1, if_neg h.2.2.2]

theorem logb_lt {z : ℝ} (h0 : 0 < z) (h : z < 1 / 40) : Real.logb 10 z < -3 / 2 := by
  have h2 : 2 * Real.logb 10 z = Real.logb 10 (z ^ 2) := by
    rw [Real.logb_pow]; norm_num
  have h3 : Real.logb 10 (z ^ 2) < Real.logb 10 ((10 : ℝ) ^ (-3 : ℝ)) := by
    apply Real.logb_lt_logb (by norm_num) (by positivity)
    rw [show ((10 : ℝ) ^ (-3 : ℝ)) = 1 / 1000 by rw [show (-3 : ℝ) = ((-3 : ℤ) : ℝ) by norm_num, Real.rpow_intCast]; norm_num]
    nlinarith
  rw [Real.logb_rpow (by norm_num) (by norm_num)] at h3
  linarith

/-- The logarithms of the 200 metallicities of the table rise and are negative: the distribution over bins (C26) applies to every row. -/
theorem C120_metallicities (s : String) (zs : List ℝ) (h : fohZ s = .ok zs) :
    zs.length = 200 ∧ (zs.map (Real.logb 10)).Pairwise (· < ·) ∧ ∀ v ∈ zs.map (Real.logb 10), v < 0 := by
  unfold fohZ at h
  cases hs : solar s with
  | error e => rw [hs] at h; cases h
  | ok p =>
    obtain ⟨z, f⟩ := p
    rw [hs] at h
    cases h
    have hzf : 0 < z ∧ z < 1 / 40 ∧ 8.69 ≤ f := by
      unfold solar at hs
      split_ifs at hs <;> cases hs <;> norm_num
    have hlog := logb_lt hzf.1 hzf.2.1
    have hm : (fohBins.map fun x => (10 : ℝ) ^ (Real.logb 10 z + x - f)).map (Real.logb 10) = fohBins.map fun x => Real.logb 10 z + x - f := by
      rw [List.map_map]
      refine List.map_congr_left fun x _ => ?_
      exact Real.logb_rpow (by norm_num) (by norm_num)
    refine ⟨by simp [fohBins], ?_, ?_⟩
    · rw [hm, List.pairwise_map, fohBins, List.pairwise_map]
      refine List.pairwise_lt_range.imp fun {a b} hab => ?_
      have : (a : ℝ) < b := by exact_mod_cast hab
      linarith
    · rw [hm]
      intro v hv
      obtain ⟨x, hx, rfl⟩ := List.mem_map.1 hv
      unfold fohBins at hx
      obtain ⟨i, hi, rfl⟩ := List.mem_map.1 hx
      have : (i : ℝ) ≤ 199 := by
        have := List.mem_range.1 hi
        exact_mod_cast (by omega : i ≤ 199)
      have h1 := hzf.2.2
      linarith

/-- Every row of a table with masses that are not negative is distributed over the bins, with fractions that are not negative. -/
theorem C120_row_distribution (t : Table) (s : String) (hz : fohZ s = .ok t.zs) (i : ℕ) (row : List ℝ) (hrow : t.rows[i]? = some row)
    (hlen : row.length = 200) (hm : ∀ v ∈ row, 0 ≤ v) (hpos : 0 < row.sum) :
    ∃ x m xs ms, row = m :: ms ∧ t.zs.map (Real.logb 10) = x :: xs ∧ Monotone (Sfh.tableInterp x m xs ms).call ∧
      ∀ zmin zmax norm bins, fractions zmin zmax norm t i bins =
        Sfh.distribute (fun v => (Sfh.tableInterp x m xs ms).call (Real.logb 10 v)) zmin zmax norm bins := by
  obtain ⟨h1, h2, h3⟩ := C120_metallicities s t.zs hz
  cases row with
  | nil => simp at hlen
  | cons m ms =>
    cases hx : t.zs.map (Real.logb 10) with
    | nil => have := congrArg List.length hx; simp [h1] at this
    | cons x xs =>
      rw [hx] at h2 h3
      refine ⟨x, m, xs, ms, rfl, rfl, Sfh.C26_table_monotone x m xs ms h2 h3 hm hpos, fun zmin zmax norm bins => ?_⟩
      unfold fractions
      rw [hx, List.getD_eq_getElem?_getD, hrow]
      dsimp only [Option.getD_some]
      unfold Sfh.tableFractions
      rw [if_neg hpos.ne']

/-! ### Errors and Zavala et al. -/

/-- What is refused when a table is read. -/
theorem C120_refused (sub : Bool) (sc : Option String) (rs dts : List ℝ) (m : List (List ℝ)) :
    ((∃ t, readChruslinska sub sc rs dts m = .ok t) ↔
      sub = true ∧ ∃ s, sc = some s ∧ s ∈ ["Asplund09", "AndersGrevesse89", "GrevesseSauval98", "Villante14"]) ∧
    ∀ e, readChruslinska sub sc rs dts m = .error e → e = .value := by
  have hsol : ∀ s, (∃ p, solar s = .ok p) ∧ s ∈ ["Asplund09", "AndersGrevesse89", "GrevesseSauval98", "Villante14"] ∨
      solar s = .error .value ∧ s ∉ ["Asplund09", "AndersGrevesse89", "GrevesseSauval98", "Villante14"] := by
    intro s
    unfold solar
    by_cases h1 : s = "Asplund09"
    · left; exact ⟨⟨_, if_pos h1⟩, by simp [h1]⟩
    by_cases h2 : s = "AndersGrevesse89"
    · left; exact ⟨⟨_, by rw [if_neg h1, if_pos h2]⟩, by simp [h2]⟩
    by_cases h3 : s = "GrevesseSauval98"
    · left; exact ⟨⟨_, by rw [if_neg h1, if_neg h2, if_pos h3]⟩, by simp [h3]⟩
    by_cases h4 : s = "Villante14"
    · left; exact ⟨⟨_, by rw [if_neg h1, if_neg h2, if_neg h3, if_pos h4]⟩, by simp [h4]⟩
    right
    exact ⟨by rw [if_neg h1, if_neg h2, if_neg h3, if_neg h4], by simp [h1, h2, h3, h4]⟩
  unfold readChruslinska
  cases sub with
  | false => simp
  | true =>
    rw [if_neg (by simp)]
    cases sc with
    | none => simp
    | some s =>
      dsimp only
      unfold fohZ
      rcases hsol s with ⟨⟨p, hp⟩, hmem⟩ | ⟨hp, hmem⟩
      · rw [hp]
        obtain ⟨z, f⟩ := p
        refine ⟨⟨fun _ => ⟨rfl, s, rfl, hmem⟩, fun _ => ⟨_, rfl⟩⟩, ?_⟩
        intro e he
        cases he
      · rw [hp]
        refine ⟨⟨?_, ?_⟩, ?_⟩
        · rintro ⟨t, ht⟩
          cases ht
        · rintro ⟨-, s', hs', hm'⟩
          cases hs'
          exact absurd hm' hmem
        · intro e he
          cases he
          rfl

/-- The rate of Zavala et al. goes through the column of the sub-model; other sub-models are refused. -/
theorem C120_zavala (argsort : List Node → List Node) (hs : Sorts argsort) (rs lo hi : List ℝ) (hl : rs.length = lo.length) (hh : rs.length = hi.length)
    (hn : rs.Nodup) (hne : rs ≠ []) :
    (∃ f, (∀ z, rateZavala argsort rs (some "min") lo hi z = .ok (f z)) ∧ Through rs (lo.map some) f) ∧
    (∃ f, (∀ z, rateZavala argsort rs (some "max") lo hi z = .ok (f z)) ∧ Through rs (hi.map some) f) ∧
    ∀ sub z, sub ≠ some "min" → sub ≠ some "max" → rateZavala argsort rs sub lo hi z = .error .value := by
  refine ⟨?_, ?_, ?_⟩
  · exact C120_curve argsort hs rs (lo.map some) (by simp [hl]) hn hne (by cases lo <;> simp)
  · exact C120_curve argsort hs rs (hi.map some) (by simp [hh]) hn hne (by cases hi <;> simp)
  · intro sub z h1 h2
    cases sub with
    | none => rfl
    | some s =>
      have h1' : s ≠ "min" := fun e => h1 (by rw [e])
      have h2' : s ≠ "max" := fun e => h2 (by rw [e])
      simp [rateZavala, zavala, h1', h2']

/-! ### Examples -/

/-- A table that meets the hypotheses: falling redshifts, and rows for redshifts inside and below the table. -/
example : rowsChruslinska ⟨[2, 1], [1 / 10], [[1], [3]]⟩ [3 / 2, 1 / 2, 5] = .ok [1, 1, 0] := by
  have e1 : notAbove [2, 1] (3 / 2) = [1] := by norm_num [notAbove, List.range_succ, List.filter]
  have e2 : notAbove [2, 1] 5 = [0, 1] := by norm_num [notAbove, List.range_succ, List.filter]
  norm_num [rowsChruslinska, minOf, mapE, firstRow, e1, e2]

example : rowsChruslinska ⟨[1, 2], [1 / 10], [[1], [3]]⟩ [3 / 2, 5] = .ok [0, 0] :=
  C120_order_violated _ 1 [2] rfl _ (by simp) (by norm_num)

example : rowIllustris (readIllustris [2, 1] [5, 7] [1 / 10] [[1], [3]]).1 (1 / 2) = .error .index :=
  (C120_illustris_low_violated (fun l => l.mergeSort (fun a b => decide (a.1 ≤ b.1)))
    (fun l => ⟨List.mergeSort_perm _ _, by
      have := List.pairwise_mergeSort (le := fun a b : Node => decide (a.1 ≤ b.1)) (fun a b c h1 h2 => by
        rw [decide_eq_true_eq] at *; exact h1.trans h2) (fun a b => by rw [Bool.or_eq_true, decide_eq_true_eq, decide_eq_true_eq]; exact le_total _ _) l
      exact this.imp fun h => by simpa using h⟩)
    [2, 1] [5, 7] [1 / 10] [[1], [3]] rfl (by norm_num) (by simp) (1 / 2) (by norm_num)).1

/-- Tables of different lengths are refused. -/
theorem C120_lengths (argsort : List Node → List Node) (xs : List ℝ) (ys : List (Option ℝ)) (h : xs.length ≠ ys.length) (z : ℝ) :
    curve argsort xs ys z = .error .value := by
  unfold curve
  rw [if_pos h]

end Verif.SfhTables
