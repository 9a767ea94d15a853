import Verif.Panels
import Mathlib.Data.List.Perm.Subperm
import Mathlib.Data.List.Nodup

/-!
# C138: panels and legends

Each slice gets one panel, each run of a slice is drawn once, and the legend says what the markers mean.
-/

namespace Verif.Panels

/-! ### The arrangement -/

/-- There are enough cells for the panels and the legend, and less than a row too many. -/
theorem C138_layout (n l maxCols : ℕ) (hn : 0 < n) (hm : 0 < maxCols) :
    cols n l maxCols ≤ maxCols ∧ n + l ≤ rows n l maxCols * cols n l maxCols ∧
    rows n l maxCols * cols n l maxCols < n + l + cols n l maxCols := by
  have hc : 0 < cols n l maxCols := by unfold cols; omega
  refine ⟨by unfold cols; omega, ?_, ?_⟩
  · unfold rows
    have := Nat.lt_div_mul_add (a := n + l - 1) hc
    rw [Nat.add_mul, Nat.one_mul]; omega
  · unfold rows
    have := Nat.div_mul_le_self (n + l - 1) (cols n l maxCols)
    rw [Nat.add_mul, Nat.one_mul]; omega

theorem mem_pyRange {a b x : ℕ} : x ∈ pyRange a b ↔ a ≤ x ∧ x < b := by
  simp only [pyRange, List.mem_map, List.mem_range]
  constructor
  · rintro ⟨y, hy, rfl⟩; omega
  · rintro ⟨h1, h2⟩; exact ⟨x - a, by omega, by omega⟩

theorem nodup_pyRange (a b : ℕ) : (pyRange a b).Nodup :=
  List.Nodup.map (fun x y h => by simpa using h) List.nodup_range

theorem length_pyRange (a b : ℕ) : (pyRange a b).length = b - a := by simp [pyRange]

/-- The legend takes each of its cells once. -/
theorem C138_legend_cells (maxCols : ℕ) (hm : 0 < maxCols) (pos : Pos) : (legendCells maxCols pos).Nodup := by
  cases pos with
  | one p => simp [legendCells]
  | span a b =>
    unfold legendCells
    dsimp only
    have h1 := Nat.mod_lt (a - 1) hm
    have h2 := Nat.mod_lt (b - 1) hm
    generalize (a - 1) % maxCols = u at h1
    generalize (b - 1) % maxCols = v at h2
    refine List.nodup_flatMap.2 ⟨fun j _ => ?_, ?_⟩
    · exact (nodup_pyRange _ _).map fun x y h => by simpa using h
    · refine (nodup_pyRange _ _).imp fun {j j'} hjj => ?_
      intro x hx hx'
      obtain ⟨i, hi, rfl⟩ := List.mem_map.1 hx
      obtain ⟨i', hi', e⟩ := List.mem_map.1 hx'
      rw [mem_pyRange] at hi hi'
      rcases lt_or_gt_of_ne hjj with h | h
      · have := Nat.mul_le_mul_right maxCols (show j + 1 ≤ j' from h)
        rw [Nat.add_mul] at this
        omega
      · have := Nat.mul_le_mul_right maxCols (show j' + 1 ≤ j from h)
        rw [Nat.add_mul] at this
        omega

/-- If the legend has a place on the grid of cells, all of its cells belong to the grid. -/
theorem C138_legend_inside (maxCols r : ℕ) (hm : 0 < maxCols) (pos : Pos) (hp : place (r * maxCols) pos = true) :
    ∀ x ∈ legendCells maxCols pos, 1 ≤ x ∧ x ≤ r * maxCols := by
  cases pos with
  | one p => simpa [place, legendCells] using hp
  | span a b =>
    simp only [place, decide_eq_true_eq] at hp
    intro x hx
    unfold legendCells at hx
    dsimp only at hx
    obtain ⟨j, hj, hx⟩ := List.mem_flatMap.1 hx
    obtain ⟨i, hi, rfl⟩ := List.mem_map.1 hx
    rw [mem_pyRange] at hj hi
    have h1 := Nat.mod_lt (a - 1) hm
    have h2 := Nat.mod_lt (b - 1) hm
    have hab : (a - 1) / maxCols ≤ (b - 1) / maxCols := Nat.div_le_div_right (by omega)
    have hb : (b - 1) / maxCols < r := by
      rw [Nat.div_lt_iff_lt_mul hm]; omega
    refine ⟨by omega, ?_⟩
    have hjr : j + 1 ≤ r := by omega
    have := Nat.mul_le_mul_right maxCols hjr
    rw [Nat.add_mul, Nat.one_mul] at this
    omega

/-- The legend at one position takes one cell. -/
theorem C138_legend_single (maxCols p : ℕ) (hp : 0 < p) : legendCells maxCols (.span p p) = [p] := by
  simp only [legendCells, min_self, max_self]
  have e1 : pyRange ((p - 1) / maxCols + 1 - 1) ((p - 1) / maxCols + 1) = [(p - 1) / maxCols] := by simp [pyRange]
  have e2 : pyRange ((p - 1) % maxCols + 1) ((p - 1) % maxCols + 1 + 1) = [(p - 1) % maxCols + 1] := by simp [pyRange]
  rw [e1, e2]
  simp only [List.flatMap_cons, List.flatMap_nil, List.map_cons, List.map_nil, List.append_nil, List.cons.injEq, and_true]
  have := Nat.mod_add_div (p - 1) maxCols
  rw [Nat.mul_comm] at this
  omega

theorem free_length {leg : List ℕ} (m : ℕ) (hd : leg.Nodup) (hi : ∀ x ∈ leg, 1 ≤ x ∧ x ≤ m) :
    ((pyRange 1 (m + 1)).filter (· ∉ leg)).length + leg.length = m := by
  have h1 := List.length_eq_length_filter_add (l := pyRange 1 (m + 1)) (fun x => decide (x ∈ leg))
  have h2 : ((pyRange 1 (m + 1)).filter fun x => decide (x ∈ leg)).length = leg.length := by
    apply List.Perm.length_eq
    rw [List.perm_ext_iff_of_nodup ((nodup_pyRange _ _).filter _) hd]
    intro x
    simp only [List.mem_filter, mem_pyRange, decide_eq_true_eq]
    exact ⟨fun h => h.2, fun h => ⟨by have := hi x h; omega, h⟩⟩
  have h3 : ((pyRange 1 (m + 1)).filter fun x => !decide (x ∈ leg)) = (pyRange 1 (m + 1)).filter (· ∉ leg) := by
    apply List.filter_congr; intro x _; simp
  rw [length_pyRange, h2, h3] at h1
  omega

theorem allSlices_succ (n3 n4 : ℕ) : allSlices n3 (n4 + 1) = allSlices n3 n4 ++ (List.range n3).map fun i => (i, n4) := by
  simp [allSlices, List.range_succ]

theorem shows_all (n3 n4 k : ℕ) (h3 : 0 < n3) (h1 : n3 * n4 ≤ k) (h2 : k ≤ n3 * (n4 + 1)) : shows n3 n4 0 k = allSlices n3 n4 := by
  unfold shows
  obtain ⟨d, rfl⟩ := Nat.exists_eq_add_of_le h1
  rw [List.range_add, List.map_append, List.filter_append]
  have e2 : (List.map (fun x => 0 + x) (List.map (fun x => n3 * n4 + x) (List.range d))).filter (fun x => decide (x / n3 ≠ n4)) = [] := by
    apply List.filter_eq_nil_iff.2
    intro x hx
    simp only [List.map_map, List.mem_map, List.mem_range, Function.comp] at hx
    obtain ⟨y, hy, rfl⟩ := hx
    have hy3 : y < n3 := by rw [Nat.mul_add] at h2; omega
    have : (0 + (n3 * n4 + y)) / n3 = n4 := by
      rw [Nat.zero_add, Nat.mul_add_div h3, Nat.div_eq_of_lt hy3, Nat.add_zero]
    rw [this]; simp
  have e1 : (List.map (fun x => 0 + x) (List.range (n3 * n4))).filter (fun x => decide (x / n3 ≠ n4)) = List.range (n3 * n4) := by
    have : List.map (fun x => 0 + x) (List.range (n3 * n4)) = List.range (n3 * n4) := by simp
    rw [this]
    apply List.filter_eq_self.2
    intro x hx
    have : x / n3 < n4 := by
      rw [Nat.div_lt_iff_lt_mul h3, Nat.mul_comm]; exact List.mem_range.1 hx
    simp only [ne_eq, decide_not, Bool.not_eq_true', decide_eq_false_iff_not]
    omega
  rw [e1, e2, List.append_nil]
  clear e1 e2 h2 h1
  induction n4 with
  | zero => simp [allSlices]
  | succ n ih =>
    rw [allSlices_succ, ← ih, Nat.mul_add, Nat.mul_one, List.range_add, List.map_append, List.map_map]
    congr 1
    apply List.map_congr_left
    intro x hx
    have hx := List.mem_range.1 hx
    simp only [Function.comp, Nat.mul_add_mod, Nat.mod_eq_of_lt hx, Nat.mul_add_div h3, Nat.div_eq_of_lt hx, Nat.add_zero]

/-- The slices are pairs of a slice of the third and one of the fourth quantity, each once. -/
theorem C138_slices (n3 n4 : ℕ) : (allSlices n3 n4).Nodup ∧ ∀ i j, (i, j) ∈ allSlices n3 n4 ↔ i < n3 ∧ j < n4 := by
  constructor
  · refine List.nodup_flatMap.2 ⟨fun j _ => ?_, ?_⟩
    · exact List.nodup_range.map fun x y h => (Prod.mk.inj h).1
    · refine List.nodup_range.imp fun {j j'} hjj x hx hx' => ?_
      obtain ⟨i, _, rfl⟩ := List.mem_map.1 hx
      obtain ⟨i', _, e⟩ := List.mem_map.1 hx'
      exact hjj (Prod.mk.inj e).2.symm
  · intro i j
    simp only [allSlices, List.mem_flatMap, List.mem_range, List.mem_map, Prod.mk.injEq]
    constructor
    · rintro ⟨b, hb, a, ha, rfl, rfl⟩; exact ⟨ha, hb⟩
    · rintro ⟨ha, hb⟩; exact ⟨j, hb, i, ha, rfl, rfl⟩

/-- The number of cells left over. -/
def blank (n3 n4 maxCols : ℕ) (pos : Pos) : ℕ :=
  let l := (legendCells maxCols pos).length
  rows (n3 * n4) l maxCols * cols (n3 * n4) l maxCols - (n3 * n4 + l)

theorem cols_full {n l maxCols : ℕ} (h : maxCols < n + l) : cols n l maxCols = maxCols := by unfold cols; omega

theorem rows_two {n l maxCols : ℕ} (hm : 0 < maxCols) (h : maxCols < n + l) : rows n l maxCols ≠ 1 := by
  unfold rows
  rw [cols_full h]
  have : 0 < (n + l - 1) / maxCols := Nat.div_pos (by omega) hm
  omega

theorem call_walk {n3 n4 maxCols : ℕ} {pos : Pos} (hm : 1 < maxCols) (ht : maxCols < n3 * n4 + (legendCells maxCols pos).length)
    (hp : place (rows (n3 * n4) (legendCells maxCols pos).length maxCols * maxCols) pos = true) :
    call n3 n4 maxCols pos = walk n3 n4 (legendCells maxCols pos)
      (pyRange 1 (rows (n3 * n4) (legendCells maxCols pos).length maxCols * maxCols + 1)) 0 0 := by
  unfold call
  dsimp only
  rw [cols_full ht, if_neg (by rw [hp]; decide), if_neg]
  rintro (h | h)
  · exact rows_two (by omega) ht h
  · omega

/-- If there is more than one row and column, the legend has a place and no more than one round of cells is left over, then every slice
gets exactly one panel, in order. -/
theorem C138_panels_partial (n3 n4 maxCols : ℕ) (pos : Pos) (h3 : 0 < n3) (h4 : 0 < n4) (hm : 1 < maxCols)
    (ht : maxCols < n3 * n4 + (legendCells maxCols pos).length)
    (hp : place (rows (n3 * n4) (legendCells maxCols pos).length maxCols * maxCols) pos = true) (hb : blank n3 n4 maxCols pos ≤ n3) :
    ∃ out, call n3 n4 maxCols pos = .ok out ∧ drawn out = allSlices n3 n4 := by
  rw [call_walk hm ht hp]
  obtain ⟨m, hmm⟩ : ∃ m, m = rows (n3 * n4) (legendCells maxCols pos).length maxCols := ⟨_, rfl⟩
  have hf := free_length (m * maxCols) (C138_legend_cells maxCols (by omega) pos)
    (C138_legend_inside maxCols m (by omega) pos (by rw [hmm]; exact hp))
  have hl := C138_layout (n3 * n4) (legendCells maxCols pos).length maxCols (Nat.mul_pos h3 h4) (by omega)
  rw [cols_full ht, ← hmm] at hl
  unfold blank at hb
  dsimp only at hb
  rw [cols_full ht, ← hmm] at hb
  rw [← hmm]
  obtain ⟨p1, _⟩ := walk_spec (n3 := n3) (n4 := n4) (leg := legendCells maxCols pos) h3 (pyRange 1 (m * maxCols + 1)) 0 0 0 (by omega)
    (by simp) (by simp)
  generalize ((pyRange 1 (m * maxCols + 1)).filter (· ∉ legendCells maxCols pos)).length = k at hf p1
  have hk1 : n3 * n4 ≤ k := by omega
  have hk2 : k ≤ n3 * (n4 + 1) := by rw [Nat.mul_add]; omega
  obtain ⟨out, q1, q2, _⟩ := p1 (.inr (by omega))
  exact ⟨out, q1, by rw [q2, shows_all n3 n4 k h3 hk1 hk2]⟩

/-- That is the case if there are no more columns than slices of the third quantity and one. -/
theorem C138_blank (n3 n4 maxCols : ℕ) (pos : Pos) (h3 : 0 < n3) (h4 : 0 < n4) (hm : 0 < maxCols) (h : maxCols ≤ n3 + 1) :
    blank n3 n4 maxCols pos ≤ n3 := by
  have hl := C138_layout (n3 * n4) (legendCells maxCols pos).length maxCols (Nat.mul_pos h3 h4) hm
  unfold blank
  dsimp only
  omega

/-- With several slices of the fourth quantity and more cells left over the plot fails. -/
theorem C138_blank_violated (n3 n4 maxCols : ℕ) (pos : Pos) (h3 : 0 < n3) (h4 : 1 < n4) (hm : 1 < maxCols)
    (ht : maxCols < n3 * n4 + (legendCells maxCols pos).length)
    (hp : place (rows (n3 * n4) (legendCells maxCols pos).length maxCols * maxCols) pos = true) (hb : n3 < blank n3 n4 maxCols pos) :
    call n3 n4 maxCols pos = .error .index := by
  rw [call_walk hm ht hp]
  obtain ⟨m, hmm⟩ : ∃ m, m = rows (n3 * n4) (legendCells maxCols pos).length maxCols := ⟨_, rfl⟩
  have hf := free_length (m * maxCols) (C138_legend_cells maxCols (by omega) pos)
    (C138_legend_inside maxCols m (by omega) pos (by rw [hmm]; exact hp))
  unfold blank at hb
  dsimp only at hb
  rw [cols_full ht, ← hmm] at hb
  rw [← hmm]
  have p2 := (walk_spec (n3 := n3) (n4 := n4) (leg := legendCells maxCols pos) h3 (pyRange 1 (m * maxCols + 1)) 0 0 0 (by omega)
    (by simp) (by simp)).2
  generalize ((pyRange 1 (m * maxCols + 1)).filter (· ∉ legendCells maxCols pos)).length = k at hf p2
  have hk : n3 * (n4 + 1) < 0 + k := by rw [Nat.mul_add]; clear p2; omega
  exact p2 h4 hk

/-- Three slices of the fourth quantity alone fail with the default arrangement. -/
theorem C138_three_violated : (call 1 3 3 (.span 3 3)).toOption = none ∧ blank 1 3 3 (.span 3 3) = 2 := by decide +kernel

/-- With slices of the third quantity only, a slice may be drawn again where nothing is left to be drawn. -/
theorem C138_repeat_violated : ((call 2 1 4 (.span 1 3)).toOption.map drawn) = some [(0, 0), (1, 0), (0, 2)] := by decide +kernel

/-- Panels that fit into one row cannot be drawn at all. -/
theorem C138_one_row_violated (n3 n4 maxCols : ℕ) (pos : Pos) (h : n3 * n4 + (legendCells maxCols pos).length ≤ maxCols)
    (hn : 0 < n3 * n4) : ∀ out, call n3 n4 maxCols pos ≠ .ok out := by
  intro out hc
  unfold call at hc
  dsimp only at hc
  have hr : rows (n3 * n4) (legendCells maxCols pos).length maxCols = 1 := by
    unfold rows cols
    rw [min_eq_left h, Nat.div_eq_of_lt (by omega)]
  split at hc
  · cases hc
  · rw [if_pos (.inl hr)] at hc; cases hc

/-- Nor can those in one column. -/
theorem C138_one_column_violated (n3 n4 : ℕ) (pos : Pos) (hn : 0 < n3 * n4) : ∀ out, call n3 n4 1 pos ≠ .ok out := by
  intro out hc
  unfold call at hc
  dsimp only at hc
  have hr : cols (n3 * n4) (legendCells 1 pos).length 1 = 1 := by unfold cols; omega
  split at hc
  · cases hc
  · rw [if_pos (.inr hr)] at hc; cases hc

/-- Two slices fail with the default arrangement. -/
theorem C138_two_violated : ∀ out, call 2 1 3 (.span 3 3) ≠ .ok out := C138_one_row_violated 2 1 3 _ (by decide) (by decide)

/-- A legend outside of the cells is an error. -/
theorem C138_outside (n3 n4 maxCols : ℕ) (pos : Pos)
    (h : place (rows (n3 * n4) (legendCells maxCols pos).length maxCols * cols (n3 * n4) (legendCells maxCols pos).length maxCols) pos = false) :
    call n3 n4 maxCols pos = .error .value := by
  unfold call
  dsimp only
  rw [if_pos h]

/-- With the default arrangement and three or more slices of the third quantity all is drawn. -/
theorem C138_default (n3 n4 : ℕ) (h3 : 3 ≤ n3) (h4 : 0 < n4) :
    ∃ out, call n3 n4 3 (.span 3 3) = .ok out ∧ drawn out = allSlices n3 n4 := by
  have hl : (legendCells 3 (.span 3 3)).length = 1 := by decide
  have hn : 3 ≤ n3 * n4 := le_trans h3 (Nat.le_mul_of_pos_right _ h4)
  refine C138_panels_partial n3 n4 3 (.span 3 3) (by omega) h4 (by decide) (by rw [hl]; omega) ?_ (C138_blank _ _ _ _ (by omega) h4 (by decide) (by omega))
  rw [hl]
  have hl2 := C138_layout (n3 * n4) 1 3 (by omega) (by decide)
  rw [cols_full (by omega)] at hl2
  simp only [place, decide_eq_true_eq]
  omega

/-- An example: two by two slices and a legend of two cells. -/
example : ((call 2 2 3 (.span 3 3)).toOption.map drawn) = some [(0, 0), (1, 0), (0, 1), (1, 1)] := by decide +kernel

/-! ### Runs -/

theorem nodup_points (art : Name → Bool) (flags us : List Name) (h : us.Nodup) : (points art flags us).Nodup := by
  unfold points
  refine List.nodup_flatMap.2 ⟨fun u _ => ?_, ?_⟩
  · split
    · exact List.nodup_range.filter _
    · exact List.nodup_nil
  · refine h.imp fun {u v} huv x hx hx' => ?_
    dsimp only at hx hx'
    split at hx
    · split at hx'
      · simp only [List.mem_filter, decide_eq_true_eq] at hx hx'
        exact huv (Option.some.inj (hx.2.symm.trans hx'.2))
      · cases hx'
    · cases hx

/-- The runs that are drawn are those whose flag has an artist, each once. -/
theorem C138_points (art : Name → Bool) (flags us : List Name) (h : Different us flags) :
    (points art flags us).Nodup ∧ ∀ i, i ∈ points art flags us ↔ ∃ f, flags[i]? = some f ∧ art f = true := by
  refine ⟨nodup_points art flags us h.1, fun i => ?_⟩
  unfold points
  rw [List.mem_flatMap]
  constructor
  · rintro ⟨u, _, hi⟩
    split at hi
    next ha => exact ⟨u, by simpa using (List.mem_filter.1 hi).2, ha⟩
    · cases hi
  · rintro ⟨f, hf, ha⟩
    refine ⟨f, (h.2 f).2 (List.mem_of_getElem? hf), ?_⟩
    rw [if_pos ha]
    refine List.mem_filter.2 ⟨?_, by simpa using hf⟩
    exact List.mem_range.2 (List.getElem?_eq_some_iff.1 hf).1

/-- Each run of the slice is drawn exactly once if all flags have artists. -/
theorem C138_points_all (art : Name → Bool) (flags us : List Name) (h : Different us flags) (ha : ∀ f ∈ us, art f = true) :
    (points art flags us).Perm (List.range flags.length) := by
  obtain ⟨h1, h2⟩ := C138_points art flags us h
  rw [List.perm_ext_iff_of_nodup h1 List.nodup_range]
  intro i
  rw [h2, List.mem_range]
  constructor
  · rintro ⟨f, hf, _⟩; exact (List.getElem?_eq_some_iff.1 hf).1
  · intro hi
    refine ⟨flags[i], List.getElem?_eq_getElem hi, ha _ ((h.2 _).2 (List.getElem_mem hi))⟩

/-- A single panel without colours, or in which the drawing does not fail, draws every run. -/
theorem C138_one_all (style : Name → Style) (z : Bool) (fails : Name → Bool) (flags us : List Name) (h : Different us flags)
    (hf : z = false ∨ ∀ f, fails f = false) : (points (artistOne style z fails) flags us).Perm (List.range flags.length) := by
  apply C138_points_all _ _ _ h
  intro f _
  rcases hf with rfl | hf
  · simp [artistOne]
  · simp [artistOne, hf f]

/-- Several panels leave out the runs whose flag has no colour of its own if there are no colours. -/
theorem C138_hidden_violated (style : Name → Style) (flags us : List Name) (h : Different us flags) (i : ℕ) (f : Name) (hi : flags[i]? = some f)
    (hs : (style f).coloured = false) : i ∉ points (artistMany style false) flags us := by
  rw [(C138_points _ _ _ h).2]
  rintro ⟨f', hf', ha⟩
  rw [hi] at hf'
  obtain rfl := Option.some.inj hf'
  simp [artistMany, hs] at ha

/-! ### Legends -/

theorem legend_spec {art : Name → Bool} {text : Name → Name} : ∀ (fs : List Name) (last : Option Name) (acc : List (Name × Name)),
    (∀ f ∈ fs, art f = true) → (acc.map (·.2)).Nodup → ∃ leg, legend art text fs last acc = .ok leg ∧ (leg.map (·.2)).Nodup ∧
      (∀ p ∈ leg, p ∈ acc ∨ (p.1 ∈ fs ∧ p.2 = text p.1)) ∧ (∀ p ∈ acc, p ∈ leg) ∧ ∀ f ∈ fs, text f ∈ leg.map (·.2) := by
  intro fs
  induction fs with
  | nil => intro last acc _ hd; exact ⟨acc, rfl, hd, fun p hp => .inl hp, fun p hp => hp, by simp⟩
  | cons f fs ih =>
    intro last acc ha hd
    have haf := ha f List.mem_cons_self
    have hfs : ∀ f ∈ fs, art f = true := fun g hg => ha g (List.mem_cons_of_mem _ hg)
    unfold legend
    dsimp only
    rw [if_pos haf]
    by_cases ht : text f ∈ acc.map (·.2)
    · rw [if_pos ht]
      obtain ⟨leg, h1, h2, h3, h4, h5⟩ := ih (some f) acc hfs hd
      refine ⟨leg, h1, h2, fun p hp => ?_, h4, fun g hg => ?_⟩
      · rcases h3 p hp with h | h
        · exact .inl h
        · exact .inr ⟨List.mem_cons_of_mem _ h.1, h.2⟩
      · rcases List.mem_cons.1 hg with rfl | hg
        · obtain ⟨p, hp, e⟩ := List.mem_map.1 ht
          exact List.mem_map.2 ⟨p, h4 p hp, e⟩
        · exact h5 g hg
    · rw [if_neg ht]
      dsimp only
      obtain ⟨leg, h1, h2, h3, h4, h5⟩ := ih (some f) (acc ++ [(f, text f)]) hfs (by
        rw [List.map_append, List.nodup_append]
        refine ⟨hd, by simp, ?_⟩
        intro a ha' b hb e
        simp only [List.map_cons, List.map_nil, List.mem_singleton] at hb
        subst hb e
        exact ht ha')
      refine ⟨leg, h1, h2, fun p hp => ?_, fun p hp => h4 p (List.mem_append_left _ hp), fun g hg => ?_⟩
      · rcases h3 p hp with h | h
        · rcases List.mem_append.1 h with h | h
          · exact .inl h
          · simp only [List.mem_singleton] at h
            subst h
            exact .inr ⟨List.mem_cons_self, rfl⟩
        · exact .inr ⟨List.mem_cons_of_mem _ h.1, h.2⟩
      · rcases List.mem_cons.1 hg with rfl | hg
        · exact List.mem_map.2 ⟨(g, text g), h4 _ (List.mem_append_right _ List.mem_cons_self), rfl⟩
        · exact h5 g hg

/-- If all flags have artists, each text of a flag is in the legend once, beside an artist of a flag with that text. -/
theorem C138_legend (art : Name → Bool) (text : Name → Name) (us : List Name) (ha : ∀ f ∈ us, art f = true) :
    ∃ leg, legend art text us none [] = .ok leg ∧ (leg.map (·.2)).Nodup ∧ (∀ p ∈ leg, p.1 ∈ us ∧ text p.1 = p.2) ∧
      ∀ f ∈ us, text f ∈ leg.map (·.2) := by
  obtain ⟨leg, h1, h2, h3, _, h5⟩ := legend_spec (text := text) us none [] ha (by simp)
  refine ⟨leg, h1, h2, fun p hp => ?_, h5⟩
  rcases h3 p hp with h | h
  · cases h
  · exact ⟨h.1, h.2.symm⟩

/-- If the first flag has no artist the plot fails. -/
theorem C138_legend_unbound_violated (art : Name → Bool) (text : Name → Name) (f : Name) (fs : List Name) (h : art f = false) :
    legend art text (f :: fs) none [] = .error .unbound := by
  unfold legend
  simp [h]

/-- If a later one has none, its text stands beside the artist of another flag. -/
theorem C138_legend_violated (art : Name → Bool) (text : Name → Name) (f g : Name) (h1 : art f = true) (h2 : art g = false) (ht : text g ≠ text f) :
    legend art text [f, g] none [] = .ok [(f, text f), (f, text g)] := by
  simp [legend, h1, h2, ht]

/-- Several panels without colours meet this for a flag without a colour of its own, e.g. the classes without errors. -/
example : artistMany (fun f => ⟨decide (f = (chars! "initial_MT")), f⟩) false (chars! "initial_MT") = true ∧
    artistMany (fun f => ⟨decide (f = (chars! "initial_MT")), f⟩) false (chars! "no_MT") = false := by decide

/-- Sorting the legend keeps the artists with their texts. -/
theorem C138_sorted (leg : List (Name × Name)) (sorted : List Name) (hd : (leg.map (·.2)).Nodup) (hp : sorted.Perm (leg.map (·.2))) :
    (sortLegend leg sorted).Perm leg ∧ (sortLegend leg sorted).map (·.2) = sorted := by
  have hf : ∀ p ∈ leg, leg.find? (fun q => q.2 = p.2) = some p := by
    clear hp
    induction leg with
    | nil => intro p hp; cases hp
    | cons q l ih =>
      intro p hp
      rw [List.map_cons, List.nodup_cons] at hd
      rw [List.find?_cons]
      by_cases e : q.2 = p.2
      · simp only [e, decide_true]
        rcases List.mem_cons.1 hp with rfl | hp
        · rfl
        · exact absurd (List.mem_map.2 ⟨p, hp, e.symm⟩) hd.1
      · simp only [e, decide_false]
        rcases List.mem_cons.1 hp with rfl | hp
        · exact absurd rfl e
        · exact ih hd.2 p hp
  have hmap : ∀ l : List (Name × Name), (∀ p ∈ l, p ∈ leg) → sortLegend leg (l.map (·.2)) = l := by
    intro l hl
    induction l with
    | nil => rfl
    | cons p l ih =>
      unfold sortLegend at ih ⊢
      rw [List.map_cons, List.filterMap_cons, hf p (hl p List.mem_cons_self)]
      dsimp only
      rw [ih fun q hq => hl q (List.mem_cons_of_mem _ hq)]
  constructor
  · have := hp.filterMap (fun t => leg.find? fun p => p.2 = t)
    refine this.trans ?_
    have e := hmap leg fun p hp => hp
    unfold sortLegend at e
    rw [e]
  · have hs : ∀ s : List Name, (∀ t ∈ s, t ∈ leg.map (·.2)) → (sortLegend leg s).map (·.2) = s := by
      intro s hs
      induction s with
      | nil => rfl
      | cons t s ih =>
        obtain ⟨p, hp, rfl⟩ := List.mem_map.1 (hs t List.mem_cons_self)
        unfold sortLegend at ih ⊢
        rw [List.filterMap_cons, hf p hp]
        dsimp only
        rw [List.map_cons, ih fun q hq => hs q (List.mem_cons_of_mem _ hq)]
    exact hs sorted fun t ht => hp.subset ht

/-! ### Labels -/

/-- The horizontal axis has a label in the last row and above the legend. -/
theorem C138_x_label (r c : ℕ) (leg : List ℕ) (row col : ℕ) :
    xLabel r c leg row col = true ↔ row + 1 = r ∨ (row + 1) * c + col + 1 ∈ leg := by
  have e : row * c + col + 1 + c = (row + 1) * c + col + 1 := by ring
  simp [xLabel, e]

/-- The vertical axis has a label in the first column and right of the legend. -/
theorem C138_y_label (c : ℕ) (leg : List ℕ) (row col : ℕ) : yLabel c leg row col = true ↔ col = 0 ∨ row * c + col ∈ leg := by
  simp [yLabel]

/-- A panel above a cell that is left empty has no label: with three slices, the second of six cells. -/
theorem C138_label_violated : ∃ out, call 3 1 3 (.span 3 3) = .ok out ∧ out = [.draw 0 0, .draw 1 0, .off, .draw 2 0, .off, .off] ∧
    xLabel 2 3 (legendCells 3 (.span 3 3)) 0 1 = false := by
  refine ⟨_, rfl, rfl, by decide⟩

/-- In several panels a flag is drawn if it has a colour of its own or there are colours of runs. -/
theorem C138_drawn_many (style : Name → Style) (z : Bool) (f : Name) : artistMany style z f = true ↔ (style f).coloured = true ∨ z = true := by
  unfold artistMany
  rw [Bool.or_eq_true]

end Verif.Panels
