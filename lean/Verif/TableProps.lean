import Verif.Table
import Mathlib.Data.List.GetD
import Mathlib.Data.List.Dedup
/-!
Property theorems for reading population files by key: C27.
-/
namespace Verif.Table

theorem zip_filter {β : Type} (f : ℕ → Bool) : ∀ (c : List β) (m : List Bool) (j : ℕ), m.length = c.length →
    (∀ p < c.length, m.getD p false = f (j + p)) →
    ((c.zip m).filter fun x => x.2).map Prod.fst = ((c.zipIdx j).filter fun x => f x.2).map Prod.fst := by
  intro c
  induction c with
  | nil => intro m j _ _; rfl
  | cons a c ih =>
    intro m j hl h
    cases m with
    | nil => simp at hl
    | cons b m =>
      have h0 := h 0 (by simp)
      have := ih m (j + 1) (by simpa using hl) (fun p hp => by
        have := h (p + 1) (by simpa using hp)
        rw [List.getD_cons_succ] at this
        rw [this]; congr 1; omega)
      rw [List.getD_cons_zero, Nat.add_zero] at h0
      rw [List.zip_cons_cons, List.zipIdx_cons, List.filter_cons, List.filter_cons]
      simp only [← h0]
      cases b
      · simpa using this
      · simpa using this

theorem slice_getD (m : List Bool) (i cs p : ℕ) (hp : p < cs) : ((m.drop i).take cs).getD p false = m.getD (i + p) false := by
  simp only [List.getD_eq_getElem?_getD, List.getElem?_take, hp, if_true, List.getElem?_drop]

/-- Selecting with a mask by chunks when every slice of the mask is complete: the row at position `j` is judged by the mask
entry at `j / cs + j % cs`. -/
theorem maskLoop_full {β : Type} (cs : ℕ) (hcs : cs ≠ 0) (m : List Bool) : ∀ (t : ℕ) (l : List β) (k : ℕ),
    l.length = t * cs → (t = 0 ∨ k + t - 1 + cs ≤ m.length) →
    maskLoop cs m k (chunks cs l) =
      .ok (((l.zipIdx (k * cs)).filter fun x => m.getD (x.2 / cs + x.2 % cs) false).map Prod.fst) := by
  intro t
  induction t with
  | zero =>
    intro l k hl _
    have h0 : l = [] := List.eq_nil_of_length_eq_zero (by simpa using hl)
    rw [h0, chunks_nil]; rfl
  | succ t ih =>
    intro l k hl hm
    have hm : k + t + cs ≤ m.length := by rcases hm with h | h <;> omega
    have hlen : l.length = cs + t * cs := by rw [hl]; ring
    have hne : l ≠ [] := by rintro rfl; simp at hlen; omega
    rw [chunks_cons cs l hne hcs]
    have hd : (l.drop cs).length = t * cs := by rw [List.length_drop]; omega
    have htk : (l.take cs).length = cs := by rw [List.length_take]; omega
    have hsl : ((m.drop k).take cs).length = cs := by rw [List.length_take, List.length_drop]; omega
    have hrec := ih (l.drop cs) (k + 1) hd (by by_cases h : t = 0 <;> [exact Or.inl h; exact Or.inr (by omega)])
    simp only [maskLoop, maskChunk, hsl, htk, ne_eq, not_true_eq_false, if_false, hrec]
    refine congrArg Except.ok ?_
    rw [zip_filter (fun j => m.getD (j / cs + j % cs) false) (l.take cs) _ (k * cs) (by rw [hsl, htk])]
    · conv_rhs => rw [← List.take_append_drop cs l, List.zipIdx_append, List.filter_append, List.map_append, htk]
      rw [show (k + 1) * cs = k * cs + cs by ring]
    · intro p hp
      rw [htk] at hp
      rw [slice_getD m k cs p hp]
      have h1 : (k * cs + p) / cs = k := by
        rw [Nat.mul_comm, Nat.mul_add_div (Nat.pos_of_ne_zero hcs), Nat.div_eq_of_lt hp, Nat.add_zero]
      have h2 : (k * cs + p) % cs = p := by rw [Nat.mul_comm, Nat.mul_add_mod, Nat.mod_eq_of_lt hp]
      simp only [h1, h2]

/-- Otherwise the last slice is too long and the read fails. -/
theorem maskLoop_error {β : Type} (cs : ℕ) (hcs : 2 ≤ cs) (m : List Bool) (r : ℕ) (hr : 0 < r) (hr' : r < cs) :
    ∀ (t : ℕ) (l : List β) (k : ℕ), l.length = t * cs + r → 0 < k + t → k + t + cs ≤ m.length + (cs - r - 1) →
    maskLoop cs m k (chunks cs l) = .error .value := by
  intro t
  induction t with
  | zero =>
    intro l k hl hk hm
    have hne : l ≠ [] := by rintro rfl; simp at hl; omega
    have h0 : l.length = r := by simpa using hl
    rw [chunks_single cs l hne (by omega)]
    have hsl : ((m.drop k).take cs).length ≠ l.length := by rw [List.length_take, List.length_drop]; omega
    simp only [maskLoop, maskChunk, if_pos hsl]
  | succ t ih =>
    intro l k hl hk hm
    have hlen : l.length = cs + (t * cs + r) := by rw [hl]; ring
    have hne : l ≠ [] := by rintro rfl; simp at hlen; omega
    rw [chunks_cons cs l hne (by omega)]
    have hrec := ih (l.drop cs) (k + 1) (by rw [List.length_drop]; omega) (by omega) (by omega)
    simp only [maskLoop, hrec]
    unfold maskChunk
    split_ifs <;> rfl

theorem pick_congr {β : Type} (l : List β) (p q : ℕ → Bool) (h : ∀ j < l.length, p j = q j) : pick p l = pick q l := by
  unfold pick
  congr 1
  refine List.filter_congr fun x hx => ?_
  have := List.snd_lt_of_mem_zipIdx hx
  exact h _ (by simpa using this)

/-! ### Masks of history tables -/

/-- C27 holds in part: a mask of the right length over the history gives exactly the marked rows in order, if the table
fits in one chunk or is read row by row. -/
theorem C27_history_mask_partial {α : Type} (cols : List String) (rows : List (ℤ × α)) (n cs : ℕ) (m : List Bool)
    (hne : rows ≠ []) (hm : m.length = rows.length) (hcs : rows.length ≤ cs ∨ cs = 1) :
    historyGet cols rows n cs (.mask m) = .ok (cols, pick (fun j => m.getD j false) rows) := by
  have hpos := List.length_pos_of_ne_nil hne
  have hm0 : m ≠ [] := by rintro rfl; simp at hm; omega
  simp only [historyGet]
  rw [if_neg hm0]
  rcases hcs with hcs | rfl
  · have hz := zip_filter (fun j => m.getD j false) rows m 0 hm (fun p _ => by simp)
    have htk : (m.drop 0).take cs = m := by rw [List.drop_zero, List.take_of_length_le (by omega)]
    rw [chunks_single cs rows hne hcs]
    simp only [maskLoop, maskChunk, htk, hm, ne_eq, not_true_eq_false, if_false, hne, List.append_nil]
    rw [hz]; rfl
  · have := maskLoop_full 1 (by omega) m rows.length rows 0 (by ring) (Or.inr (by omega))
    rw [this]
    simp only [hne, if_false]
    simp [pick, Nat.mod_one]

/-- C27: what a history mask selects when the table is a whole number of chunks: the row at position `j` is judged by the
entry `j / cs + j % cs` of the mask. -/
theorem C27_history_mask_rule {α : Type} (cols : List String) (rows : List (ℤ × α)) (n cs t : ℕ) (m : List Bool)
    (hne : rows ≠ []) (hm : m.length = rows.length) (hcs : cs ≠ 0) (ht : rows.length = t * cs) :
    historyGet cols rows n cs (.mask m) = .ok (cols, pick (fun j => m.getD (j / cs + j % cs) false) rows) := by
  have hpos := List.length_pos_of_ne_nil hne
  have hm0 : m ≠ [] := by rintro rfl; simp at hm; omega
  have htp : 0 < t := Nat.pos_of_ne_zero fun h => hne (List.eq_nil_of_length_eq_zero (by rw [ht, h, Nat.zero_mul]))
  have hle : t - 1 + cs ≤ t * cs := by
    obtain ⟨s, rfl⟩ : ∃ s, t = s + 1 := ⟨t - 1, by omega⟩
    have : s ≤ s * cs := Nat.le_mul_of_pos_right s (Nat.pos_of_ne_zero hcs)
    have h2 : (s + 1) * cs = s * cs + cs := by ring
    omega
  simp only [historyGet]
  rw [if_neg hm0, maskLoop_full cs hcs m t rows 0 ht (Or.inr (by omega))]
  simp only [hne, if_false, Nat.zero_mul]
  rfl

/-- C27 is false for history tables longer than one chunk: a mask that marks one row selects other rows.  This is so for every
table that is a whole number (at least two) of chunks of at least two rows. -/
theorem C27_history_mask_violated {α : Type} (cols : List String) (rows : List (ℤ × α)) (n cs t : ℕ) (hcs : 2 ≤ cs) (ht : 2 ≤ t)
    (hl : rows.length = t * cs) (hnd : rows.Nodup) :
    ∃ m : List Bool, m.length = rows.length ∧ ∃ out, historyGet cols rows n cs (.mask m) = .ok out ∧
      (∃ r ∈ out.2, r ∉ pick (fun j => m.getD j false) rows) := by
  have hlen : 2 * cs ≤ rows.length := by rw [hl]; exact Nat.mul_le_mul_right _ ht
  have hne : rows ≠ [] := by rintro rfl; simp at hlen; omega
  refine ⟨(List.range rows.length).map fun j => decide (j = 1), by simp, _,
    C27_history_mask_rule cols rows n cs t _ hne (by simp) (by omega) hl, rows[cs]'(by omega), ?_, ?_⟩
  · unfold pick
    refine List.mem_map.2 ⟨(rows[cs]'(by omega), cs), List.mem_filter.2 ⟨?_, ?_⟩, rfl⟩
    · rw [List.mem_iff_getElem]
      exact ⟨cs, by simp; omega, by simp⟩
    · have h1 : cs / cs = 1 := Nat.div_self (by omega)
      simp only [h1, Nat.mod_self, Nat.add_zero]
      rw [List.getD_eq_getElem _ _ (by simp; omega)]
      simp
  · intro hmem
    obtain ⟨⟨r, j⟩, hx, hr⟩ := List.mem_map.1 hmem
    obtain ⟨hx1, hx2⟩ := List.mem_filter.1 hx
    have hj : j < rows.length := by simpa using List.snd_lt_of_mem_zipIdx hx1
    simp only at hx2
    rw [List.getD_eq_getElem _ _ (by simpa using hj)] at hx2
    have hj1 : j = 1 := by simpa using hx2
    subst hj1
    have hg := List.mem_zipIdx hx1
    simp only at hr
    have : rows[1]'hj = rows[cs]'(by omega) := by
      rw [← hr]; simpa using hg.2.2.symm
    have := (List.Nodup.getElem_inj_iff hnd).1 this
    omega

/-- C27 is false for history tables that are longer than one chunk but not a whole number of chunks: every mask of the right
length is rejected. -/
theorem C27_history_mask_rejected_violated {α : Type} (cols : List String) (rows : List (ℤ × α)) (n cs t r : ℕ) (m : List Bool)
    (hcs : 2 ≤ cs) (ht : 0 < t) (hr : 0 < r) (hr' : r < cs) (hl : rows.length = t * cs + r) (hm : m.length = rows.length) :
    historyGet cols rows n cs (.mask m) = .error .value := by
  have hm0 : m ≠ [] := by rintro rfl; simp at hm; omega
  have h2 : t + r < t * cs + r := by
    have : t * 2 ≤ t * cs := Nat.mul_le_mul_left t hcs
    omega
  simp only [historyGet]
  rw [if_neg hm0, maskLoop_error cs hcs m r hr hr' t rows 0 hl (by omega) (by omega)]

/-- Four rows in chunks of two: marking the second row gives the second and the third. -/
example : historyGet ["time"] [(0, 'a'), (0, 'b'), (1, 'c'), (1, 'd')] 2 2 (.mask [false, true, false, false])
    = .ok (["time"], [(0, 'b'), (1, 'c')]) :=
  C27_history_mask_rule _ _ 2 2 2 _ (by simp) rfl (by simp) rfl

/-! ### Masks of one-line tables -/

/-- C27: for the one-line table a mask of the right length marking at least one row gives exactly the marked rows in order,
whatever the chunk size, provided labels are unique; a mask of another length is an error. -/
theorem C27_oneline_mask {α : Type} (cols : List String) (rows : List (ℤ × α)) (m : List Bool)
    (hnd : (rows.map Prod.fst).Nodup) :
    (m.length = rows.length → (true ∈ m) →
      onelineGet cols rows (.mask m) = .ok (cols, pick (fun j => m.getD j false) rows)) ∧
    (m.length ≠ rows.length → onelineGet cols rows (.mask m) = .error .index) := by
  refine ⟨fun hm ht => ?_, fun hm => by simp [onelineGet, hm]⟩
  have hz := zip_filter (fun j => m.getD j false) (rows.map Prod.fst) m 0 (by simpa using hm) (fun p _ => by simp)
  have key : rows.filter (fun r => decide (r.1 ∈ (((rows.map Prod.fst).zip m).filter fun x => x.2).map Prod.fst))
      = pick (fun j => m.getD j false) rows := by
    rw [hz]
    have hcond : ∀ j (hj : j < rows.length),
        ((rows[j]).1 ∈ (((rows.map Prod.fst).zipIdx 0).filter fun x => m.getD x.2 false).map Prod.fst ↔ m.getD j false = true) := by
      intro j hj
      constructor
      · intro h
        obtain ⟨⟨i, p⟩, hx, hi⟩ := List.mem_map.1 h
        obtain ⟨hx1, hx2⟩ := List.mem_filter.1 hx
        have hg := List.mem_zipIdx hx1
        have hp : p < rows.length := by simpa using hg.2.1
        simp only at hi hx2
        have h1 : (rows.map Prod.fst)[p]'(by simpa using hp) = (rows.map Prod.fst)[j]'(by simpa using hj) := by
          rw [List.getElem_map, List.getElem_map]
          have := hg.2.2
          simp only [Nat.sub_zero, List.getElem_map] at this
          rw [← this, hi]
        have := (List.Nodup.getElem_inj_iff hnd).1 h1
        rw [← this]; exact hx2
      · intro h
        refine List.mem_map.2 ⟨((rows[j]).1, j), List.mem_filter.2 ⟨?_, h⟩, rfl⟩
        rw [List.mem_iff_getElem]
        exact ⟨j, by simpa using hj, by simp⟩
    unfold pick
    have h1 : rows.filter (fun r => decide (r.1 ∈ (((rows.map Prod.fst).zipIdx 0).filter fun x => m.getD x.2 false).map Prod.fst))
        = (((rows.zipIdx).map Prod.fst).filter
          (fun r => decide (r.1 ∈ (((rows.map Prod.fst).zipIdx 0).filter fun x => m.getD x.2 false).map Prod.fst))) := by
      congr 1
      exact (List.zipIdx_map_fst 0 rows).symm
    rw [h1, List.filter_map]
    congr 1
    refine List.filter_congr fun x hx => ?_
    have hg := List.mem_zipIdx (x := x.1) (i := x.2) (k := 0) hx
    have hj : x.2 < rows.length := by simpa using hg.2.1
    have hx1 : x.1 = rows[x.2] := by simpa using hg.2.2
    have := hcond x.2 hj
    rw [← hx1] at this
    simp only [Function.comp]
    rw [Bool.eq_iff_iff, decide_eq_true_iff]
    exact this
  have hne : pick (fun j => m.getD j false) rows ≠ [] := by
    obtain ⟨j, hj, hjt⟩ := List.mem_iff_getElem.1 ht
    have hj' : j < rows.length := by omega
    refine List.ne_nil_of_mem (a := rows[j]) ?_
    refine List.mem_map.2 ⟨(rows[j], j), List.mem_filter.2 ⟨?_, ?_⟩, rfl⟩
    · rw [List.mem_iff_getElem]
      exact ⟨j, by simpa using hj', by simp⟩
    · simp only; rw [List.getD_eq_getElem _ _ hj, hjt]
  unfold onelineGet
  simp only [hm, ne_eq, not_true_eq_false, if_false, selectWhere, key, hne]

/-- C27 fails for one-line tables whose labels repeat (files joined without renumbering): marking one row gives every row with
its label. -/
theorem C27_oneline_mask_repeated_violated :
    ∃ (rows : List (ℤ × Char)) (m : List Bool), m.length = rows.length ∧
      onelineGet ["S1_mass_i"] rows (.mask m) = .ok (["S1_mass_i"], rows) ∧
      pick (fun j => m.getD j false) rows ≠ rows :=
  ⟨[(0, 'a'), (0, 'b')], [true, false], rfl, rfl, by simp [pick]⟩

/-! ### Labels -/

/-- The labels a key names. -/
def Names (n : ℕ) (i : ℤ) : Key → Prop
  | .int k => i = k
  | .ints l => i ∈ l
  | .slice (some a) (some b) => a ≤ i ∧ i < b
  | .slice none (some b) => 0 ≤ i ∧ i < b
  | .slice (some a) none => a ≤ i ∧ i < a + n
  | .slice none none => 0 ≤ i ∧ i < n
  | _ => False

theorem sliceHas_iff (n : ℕ) (a b : Option ℤ) (i : ℤ) : sliceHas n a b i = true ↔ Names n i (.slice a b) := by
  cases a <;> cases b <;> simp [sliceHas, Names]

theorem selectWhere_spec {α : Type} (cols : List String) (rows : List (ℤ × α)) (p : ℤ → Bool) :
    ((∃ r ∈ rows, p r.1 = true) → selectWhere cols rows p = .ok (cols, rows.filter fun r => p r.1)) ∧
    ((∀ r ∈ rows, p r.1 = false) → selectWhere cols rows p = .error .value) := by
  unfold selectWhere
  refine ⟨fun ⟨r, hr, hp⟩ => if_neg ?_, fun h => if_pos ?_⟩
  · exact List.ne_nil_of_mem (List.mem_filter.2 ⟨hr, hp⟩)
  · exact List.filter_eq_nil_iff.2 fun r hr => by simp [h r hr]

/-- C27: a label, a list of labels or a slice of labels gives the rows whose label is named, all of them, in file order and
nothing else, from both tables and whatever the chunk size; if there is no such row the read fails. -/
theorem C27_labels {α : Type} (cols : List String) (rows : List (ℤ × α)) (cs : ℕ) (k : Key)
    (hk : (∃ i, k = .int i) ∨ (∃ l, l ≠ [] ∧ k = .ints l) ∨ ∃ a b, k = .slice a b) (n : ℕ) :
    ∃ p : ℕ → ℤ → Bool, (∀ n i, p n i = true ↔ Names n i k) ∧
      ((∃ r ∈ rows, Names n r.1 k) → historyGet cols rows n cs k = .ok (cols, rows.filter fun r => p n r.1)) ∧
      ((∀ r ∈ rows, ¬ Names n r.1 k) → historyGet cols rows n cs k = .error .value) ∧
      ((∃ r ∈ rows, Names rows.length r.1 k) → onelineGet cols rows k = .ok (cols, rows.filter fun r => p rows.length r.1)) ∧
      ((∀ r ∈ rows, ¬ Names rows.length r.1 k) → onelineGet cols rows k = .error .value) := by
  obtain ⟨p, hp, hh, ho⟩ : ∃ p : ℕ → ℤ → Bool, (∀ n i, p n i = true ↔ Names n i k) ∧
      historyGet cols rows n cs k = selectWhere cols rows (p n) ∧
      onelineGet cols rows k = selectWhere cols rows (p rows.length) := by
    rcases hk with ⟨i, rfl⟩ | ⟨l, hl, rfl⟩ | ⟨a, b, rfl⟩
    · exact ⟨fun _ j => decide (j = i), fun _ _ => by simp [Names], rfl, rfl⟩
    · exact ⟨fun _ j => decide (j ∈ l), fun _ _ => by simp [Names], by simp [historyGet, hl], rfl⟩
    · exact ⟨fun n => sliceHas n a b, fun n i => sliceHas_iff n a b i, rfl, rfl⟩
  refine ⟨p, hp, ?_, ?_, ?_, ?_⟩
  · rintro ⟨r, hr, h⟩
    rw [hh]; exact (selectWhere_spec cols rows (p n)).1 ⟨r, hr, (hp _ _).2 h⟩
  · intro h
    rw [hh]; exact (selectWhere_spec cols rows (p n)).2 fun r hr => by
      rw [Bool.eq_false_iff]; exact fun h' => h r hr ((hp _ _).1 h')
  · rintro ⟨r, hr, h⟩
    rw [ho]; exact (selectWhere_spec cols rows (p _)).1 ⟨r, hr, (hp _ _).2 h⟩
  · intro h
    rw [ho]; exact (selectWhere_spec cols rows (p _)).2 fun r hr => by
      rw [Bool.eq_false_iff]; exact fun h' => h r hr ((hp _ _).1 h')

/-- Slices name labels, not positions, and an open end reaches as many labels as there are systems. -/
example : historyGet ["time"] [(7, 'a'), (7, 'b'), (8, 'c'), (9, 'd')] 3 100 (.slice (some 8) none)
    = .ok (["time"], [(8, 'c'), (9, 'd')]) := rfl

/-- C27: an open-ended slice from the first label on covers every row when the labels are consecutive numbers from 0. -/
theorem C27_full_slice {α : Type} (cols : List String) (rows : List (ℤ × α)) (n cs : ℕ) (hne : rows ≠ [])
    (h : ∀ r ∈ rows, 0 ≤ r.1 ∧ r.1 < n) : historyGet cols rows n cs (.slice none none) = .ok (cols, rows) := by
  obtain ⟨p, hp, h1, -⟩ := C27_labels cols rows cs (.slice none none) (Or.inr (Or.inr ⟨_, _, rfl⟩)) n
  have hall : ∀ r ∈ rows, p n r.1 = true := fun r hr => (hp n r.1).2 (h r hr)
  obtain ⟨r, hr⟩ := List.exists_mem_of_ne_nil rows hne
  rw [h1 ⟨r, hr, h r hr⟩, List.filter_eq_self.2 hall]

/-- C27 fails when labels are not numbered from 0: an open slice misses rows. -/
theorem C27_open_slice_violated :
    historyGet ["time"] [(0, 'a'), (5, 'b')] 2 100 (.slice none none) = .ok (["time"], [(0, 'a')]) := rfl

/-! ### Columns and rejected keys -/

/-- C27: columns are read exactly when all of them exist, giving every row with the columns asked for in that order; any other
key is an error; an empty list or mask of the history gives an empty frame. -/
theorem C27_columns_and_errors {α : Type} (cols : List String) (rows : List (ℤ × α)) (n cs : ℕ) (hne : rows ≠ [])
    (c : String) (l : List String) :
    (historyGet cols rows n cs (.column c) = if c ∈ cols then .ok ([c], rows) else .error .value) ∧
    (historyGet cols rows n cs (.columns l) = if (∀ x ∈ l, x ∈ cols) then .ok (l, rows) else .error .value) ∧
    (onelineGet cols rows (.column c) = historyGet cols rows n cs (.column c)) ∧
    (onelineGet cols rows (.columns l) = historyGet cols rows n cs (.columns l)) ∧
    (∀ k, historyGet cols rows n cs (.floats k) = .error .value ∧ onelineGet cols rows (.floats k) = .error .value) ∧
    historyGet cols rows n cs .other = .error .value ∧ onelineGet cols rows .other = .error .value ∧
    historyGet cols rows n cs (.ints []) = .ok ([], []) ∧ historyGet cols rows n cs (.mask []) = .ok ([], []) ∧
    onelineGet cols rows (.ints []) = .error .value := by
  refine ⟨by simp [historyGet, selectCols, hne], by simp [historyGet, selectCols, hne], rfl, rfl, fun _ => ⟨rfl, rfl⟩, rfl, rfl,
    rfl, rfl, by simp [onelineGet, selectWhere]⟩

/-! ### Lengths -/

theorem sum_count {α : Type} (rows : List (ℤ × α)) : ∀ L : List ℤ, L.Nodup → (∀ r ∈ rows, r.1 ∈ L) →
    (L.map fun i => (rows.filter fun r => decide (r.1 = i)).length).sum = rows.length := by
  induction rows with
  | nil => intro L _ _; simp
  | cons a rows ih =>
    intro L hL h
    have hr := ih L hL fun r hr => h r (List.mem_cons_of_mem _ hr)
    have ha := h a List.mem_cons_self
    have key : ∀ L : List ℤ, L.Nodup → (L.map fun i => ((a :: rows).filter fun r => decide (r.1 = i)).length).sum
        = (L.map fun i => (rows.filter fun r => decide (r.1 = i)).length).sum + if a.1 ∈ L then 1 else 0 := by
      intro L
      induction L with
      | nil => intro _; simp
      | cons i L ih2 =>
        intro hL
        obtain ⟨hi, hL⟩ := List.nodup_cons.1 hL
        rw [List.map_cons, List.sum_cons, List.map_cons, List.sum_cons, ih2 hL]
        by_cases hai : a.1 = i
        · rw [List.filter_cons, if_pos (by simpa using hai)]
          simp only [List.length_cons, hai, hi, if_false, List.mem_cons, true_or, if_true]
          omega
        · rw [List.filter_cons, if_neg (by simpa using hai)]
          simp only [List.mem_cons, hai, false_or]
          omega
    rw [key L hL, hr, if_pos ha]; rfl

/-- C27: the lengths computed for a file give each label once, in increasing order, with the number of rows that label selects;
they add up to the number of rows. -/
theorem C27_lengths {α : Type} (rows : List (ℤ × α)) :
    ((lengthsOf rows).map Prod.fst).Pairwise (· < ·) ∧
    (∀ i n, (i, n) ∈ lengthsOf rows ↔ (∃ r ∈ rows, r.1 = i) ∧ n = (rows.filter fun r => decide (r.1 = i)).length) ∧
    ((lengthsOf rows).map Prod.snd).sum = rows.length := by
  have hperm := List.perm_insertionSort (· ≤ ·) ((rows.map Prod.fst).dedup)
  have hnd : (((rows.map Prod.fst).dedup).insertionSort (· ≤ ·)).Nodup := hperm.nodup_iff.2 (List.nodup_dedup _)
  have hmem : ∀ i, i ∈ ((rows.map Prod.fst).dedup).insertionSort (· ≤ ·) ↔ ∃ r ∈ rows, r.1 = i := by
    intro i; rw [hperm.mem_iff, List.mem_dedup, List.mem_map]
  have hsort := List.pairwise_insertionSort (· ≤ ·) ((rows.map Prod.fst).dedup)
  refine ⟨?_, fun i n => ?_, ?_⟩
  · unfold lengthsOf
    rw [List.map_map]
    have : (Prod.fst ∘ fun i : ℤ => (i, (rows.filter fun r => decide (r.1 = i)).length)) = id := rfl
    rw [this, List.map_id]
    refine (hsort.and hnd).imp fun {a b} h => ?_
    exact lt_of_le_of_ne h.1 h.2
  · unfold lengthsOf
    rw [List.mem_map]
    constructor
    · rintro ⟨j, hj, he⟩
      simp only [Prod.mk.injEq] at he
      obtain ⟨rfl, rfl⟩ := he
      exact ⟨(hmem _).1 hj, rfl⟩
    · rintro ⟨h, rfl⟩
      exact ⟨i, (hmem i).2 h, rfl⟩
  · unfold lengthsOf
    rw [List.map_map]
    exact sum_count rows _ hnd fun r hr => (hmem _).2 ⟨r, hr, rfl⟩

end Verif.Table
