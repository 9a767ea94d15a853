import Mathlib.Data.List.Sort
import Mathlib.Data.List.Dedup
import Mathlib.Data.List.Lookmap
import Mathlib.Algebra.Order.Field.Rat
import Mathlib.Algebra.BigOperators.Group.List.Basic
import Mathlib.Tactic.Common

/-!
# Counting evolutions for van den Heuvel diagrams

Model of `posydon/visualization/VH_diagram/ParseDataFrame.py`: the pass over the history of a population in
pieces (`_parse_dataf_groupby_col3_chunk`, l.53-70), the counting of equal evolutions (`_f_lambda`, l.43-50, and
`__init__`, l.35-40), `get_frequencies` (l.72-75) and `get_most_numpy` (l.77-79).

Simplifications.  A row is the index of its binary with the values of the four columns as one value; the index is
a natural number.  The hash of a group is a parameter.  `get_most_numpy` gives a list of pairs instead of an array.
The unused and unfinished `parse_dataf_gb_iter_chunk` (l.81-100) is left out.
-/

namespace Verif.VHCount

/-- A row of the history. -/
abbrev Row (R : Type) := ℕ × R

/-- The rows of one binary. -/
abbrev Group (R : Type) := ℕ × List R

/-- The different indices in rising order. -/
def labels {R : Type} (d : List (Row R)) : List ℕ := (d.map (·.1)).dedup.insertionSort (· ≤ ·)

/-- The values of one binary. -/
def valuesOf {R : Type} (d : List (Row R)) (i : ℕ) : List R := (d.filter fun r => r.1 = i).map (·.2)

/-- `groupby` of the index (l.67). -/
def groups {R : Type} (d : List (Row R)) : List (Group R) := (labels d).map fun i => (i, valuesOf d i)

/-- One piece (l.63-68): the rows of the last binary are put aside, the others are handed on in groups. -/
def piece {R : Type} (rdf c : List (Row R)) : List (Row R) × List (Group R) :=
  let d := rdf ++ c
  match d.getLast? with
  | none => (rdf, [])
  | some l => (d.filter (fun r => r.1 = l.1), groups (d.filter fun r => r.1 ≠ l.1))

/-- All pieces. -/
def pieces {R : Type} : List (Row R) → List (List (Row R)) → List (Row R) × List (Group R)
  | rdf, [] => (rdf, [])
  | rdf, c :: cs =>
    let p := piece rdf c
    let q := pieces p.1 cs
    (q.1, p.2 ++ q.2)

/-- The groups in the order in which they are counted (l.53-70); `none` for the `IndexError` of an empty history. -/
def parsed {R : Type} (cs : List (List (Row R))) : Option (List (Group R)) :=
  let p := pieces [] cs
  match p.1 with
  | [] => none
  | r :: rs => some (p.2 ++ [(r.1, (r :: rs).map (·.2))])

/-- An entry of `counts` and `index_list`: the hash, the first binary and the number (l.43-50). -/
abbrev Entry (H : Type) := H × ℕ × ℕ

/-- `_f_lambda`. -/
def add {H : Type} [DecidableEq H] (k : H) (i : ℕ) : List (Entry H) → List (Entry H)
  | [] => [(k, i, 1)]
  | e :: t => if e.1 = k then (e.1, e.2.1, e.2.2 + 1) :: t else e :: add k i t

/-- The counting of groups. -/
def tally {R H : Type} [DecidableEq H] (h : List R → H) : List (Entry H) → List (Group R) → List (Entry H)
  | t, [] => t
  | t, g :: gs => tally h (add (h g.2) g.1 t) gs

/-- `count_dict` (l.39-40): an index that comes again replaces the earlier number. -/
def countOf {H : Type} (t : List (Entry H)) (i : ℕ) : Option ℕ := ((t.reverse.find? fun e => e.2.1 = i)).map (·.2.2)

/-- `get_frequencies` (l.72-75). -/
def frequencies {H : Type} (t : List (Entry H)) : List (ℕ × ℚ) :=
  let total := (t.map (·.2.2)).sum
  t.map fun e => (e.2.1, 100 * (e.2.2 : ℚ) / total)

/-- `get_most_numpy` (l.77-79) for a table with different indices. -/
def most {H : Type} (t : List (Entry H)) (k : ℕ) : List (ℕ × ℕ) :=
  ((t.map (·.2)).insertionSort fun a b => b.2 ≤ a.2).take k

/-! ### Lemmas -/

/-- The rows come in rising order of the binaries. -/
def Rising {R : Type} (d : List (Row R)) : Prop := d.Pairwise fun a b => a.1 ≤ b.1

variable {R H : Type}

theorem labels_sorted (d : List (Row R)) : (labels d).Pairwise (· < ·) := by
  have h1 := List.pairwise_insertionSort (· ≤ ·) (d.map (·.1)).dedup
  have h2 : (labels d).Nodup := (List.perm_insertionSort _ _).nodup_iff.mpr (List.nodup_dedup _)
  exact (h1.and h2).imp fun h => lt_of_le_of_ne h.1 h.2

theorem mem_labels (d : List (Row R)) (i : ℕ) : i ∈ labels d ↔ ∃ r ∈ d, r.1 = i := by
  rw [labels, (List.perm_insertionSort _ _).mem_iff, List.mem_dedup, List.mem_map]

theorem sorted_ext {a b : List ℕ} (ha : a.Pairwise (· < ·)) (hb : b.Pairwise (· < ·)) (h : ∀ x, x ∈ a ↔ x ∈ b) : a = b := by
  have p : a.Perm b := (List.perm_ext_iff_of_nodup (ha.imp fun h => ne_of_lt h) (hb.imp fun h => ne_of_lt h)).mpr h
  exact p.eq_of_pairwise (fun x y _ _ h1 h2 => absurd h1 (not_lt.mpr h2.le)) ha hb

theorem labels_append {a b : List (Row R)} (h : ∀ x ∈ a, ∀ y ∈ b, x.1 < y.1) : labels (a ++ b) = labels a ++ labels b := by
  refine sorted_ext (labels_sorted _) ?_ ?_
  · rw [List.pairwise_append]
    refine ⟨labels_sorted a, labels_sorted b, ?_⟩
    intro i hi j hj
    obtain ⟨x, hx, rfl⟩ := (mem_labels a i).mp hi
    obtain ⟨y, hy, rfl⟩ := (mem_labels b j).mp hj
    exact h x hx y hy
  · intro i
    simp only [List.mem_append, mem_labels]
    constructor
    · rintro ⟨r, hr | hr, rfl⟩
      · exact .inl ⟨r, hr, rfl⟩
      · exact .inr ⟨r, hr, rfl⟩
    · rintro (⟨r, hr, rfl⟩ | ⟨r, hr, rfl⟩)
      · exact ⟨r, .inl hr, rfl⟩
      · exact ⟨r, .inr hr, rfl⟩

theorem valuesOf_append (a b : List (Row R)) (i : ℕ) : valuesOf (a ++ b) i = valuesOf a i ++ valuesOf b i := by
  simp [valuesOf]

theorem valuesOf_none {a : List (Row R)} {i : ℕ} (h : ∀ x ∈ a, x.1 ≠ i) : valuesOf a i = [] := by
  simp only [valuesOf, List.map_eq_nil_iff, List.filter_eq_nil_iff]
  intro x hx
  simpa using h x hx

theorem groups_append {a b : List (Row R)} (h : ∀ x ∈ a, ∀ y ∈ b, x.1 < y.1) : groups (a ++ b) = groups a ++ groups b := by
  unfold groups
  rw [labels_append h, List.map_append]
  congr 1
  · refine List.map_congr_left fun i hi => ?_
    obtain ⟨x, hx, rfl⟩ := (mem_labels a i).mp hi
    rw [valuesOf_append, valuesOf_none (a := b) fun y hy => (h x hx y hy).ne', List.append_nil]
  · refine List.map_congr_left fun i hi => ?_
    obtain ⟨y, hy, rfl⟩ := (mem_labels b i).mp hi
    rw [valuesOf_append, valuesOf_none (a := a) fun x hx => (h x hx y hy).ne, List.nil_append]

theorem groups_const {a : List (Row R)} {r : Row R} (hr : r ∈ a) (h : ∀ x ∈ a, x.1 = r.1) : groups a = [(r.1, a.map (·.2))] := by
  have hl : labels a = [r.1] := by
    refine sorted_ext (labels_sorted _) (by simp) fun i => ?_
    rw [mem_labels, List.mem_singleton]
    constructor
    · rintro ⟨x, hx, rfl⟩; exact h x hx
    · rintro rfl; exact ⟨r, hr, rfl⟩
  have hf : a.filter (fun x => x.1 = r.1) = a := List.filter_eq_self.mpr fun x hx => by simpa using h x hx
  simp [groups, hl, valuesOf, hf]

/-- Rows in rising order are those before the last binary and those of the last binary. -/
theorem rising_split {d : List (Row R)} (hd : Rising d) {l : Row R} (hl : d.getLast? = some l) :
    d = d.filter (fun r => r.1 ≠ l.1) ++ d.filter (fun r => r.1 = l.1) ∧ ∀ x ∈ d, x.1 ≤ l.1 := by
  induction d with
  | nil => simp at hl
  | cons a d ih =>
    obtain ⟨h1, h2⟩ := List.pairwise_cons.mp hd
    cases d with
    | nil =>
      obtain rfl : a = l := by simpa using hl
      simp
    | cons b d =>
      have hl' : (b :: d).getLast? = some l := by simpa using hl
      obtain ⟨hs, hle⟩ := ih h2 hl'
      have hal : a.1 ≤ l.1 := h1 l (List.mem_of_getLast? hl')
      refine ⟨?_, ?_⟩
      · by_cases hc : a.1 = l.1
        · have hall : ∀ x ∈ a :: b :: d, x.1 = l.1 := by
            intro x hx
            rcases List.mem_cons.mp hx with rfl | hx
            · exact hc
            · exact le_antisymm (hle x hx) (hc ▸ h1 x hx)
          rw [List.filter_eq_nil_iff.mpr (fun x hx => by simpa using hall x hx),
            List.filter_eq_self.mpr (fun x hx => by simpa using hall x hx), List.nil_append]
        · have e1 : (a :: b :: d).filter (fun r => r.1 ≠ l.1) = a :: (b :: d).filter (fun r => r.1 ≠ l.1) :=
            List.filter_cons_of_pos (by simpa using hc)
          have e2 : (a :: b :: d).filter (fun r => r.1 = l.1) = (b :: d).filter (fun r => r.1 = l.1) :=
            List.filter_cons_of_neg (by simpa using hc)
          rw [e1, e2, List.cons_append, ← hs]
      · intro x hx
        rcases List.mem_cons.mp hx with rfl | hx
        · exact hal
        · exact hle x hx

/-- What one piece does, when what went before is in order. -/
theorem piece_spec {P c : List (Row R)} (hP : Rising (P ++ c)) {l : Row R} (hl : P.getLast? = some l) {l' : Row R}
    (hl' : (P ++ c).getLast? = some l') :
    (piece (P.filter fun r => r.1 = l.1) c).1 = (P ++ c).filter (fun r => r.1 = l'.1) ∧
    groups (P.filter fun r => r.1 ≠ l.1) ++ (piece (P.filter fun r => r.1 = l.1) c).2 = groups ((P ++ c).filter fun r => r.1 ≠ l'.1) := by
  have hPr : Rising P := hP.sublist (List.sublist_append_left P c)
  obtain ⟨hs, hle⟩ := rising_split hPr hl
  obtain ⟨hs', hle'⟩ := rising_split hP hl'
  set A := P.filter fun r => r.1 ≠ l.1 with hA
  set B := P.filter fun r => r.1 = l.1 with hB
  have hll : l.1 ≤ l'.1 := hle' l (List.mem_append_left _ (List.mem_of_getLast? hl))
  have hA1 : ∀ x ∈ A, x.1 < l.1 := fun x hx => by
    obtain ⟨h1, h2⟩ := List.mem_filter.mp hx
    exact lt_of_le_of_ne (hle x h1) (by simpa using h2)
  have hPc : P ++ c = A ++ (B ++ c) := by rw [← List.append_assoc, ← hs]
  have hBl : l ∈ B := List.mem_filter.mpr ⟨List.mem_of_getLast? hl, by simp⟩
  have hd : (B ++ c).getLast? = some l' := by
    rw [hPc, List.getLast?_append] at hl'
    cases hx : (B ++ c).getLast? with
    | none =>
      rw [List.getLast?_eq_none_iff] at hx
      rw [(List.append_eq_nil_iff.mp hx).1] at hBl
      simp at hBl
    | some x => rw [hx] at hl'; simpa using hl'
  have hAne : A.filter (fun r => r.1 ≠ l'.1) = A := List.filter_eq_self.mpr fun x hx => by
    have := hA1 x hx
    simp; omega
  have hAeq : A.filter (fun r => r.1 = l'.1) = [] := List.filter_eq_nil_iff.mpr fun x hx => by
    have := hA1 x hx
    simp; omega
  have hge : ∀ y ∈ B ++ c, l.1 ≤ y.1 := by
    intro y hy
    rcases List.mem_append.mp hy with hy | hy
    · obtain ⟨_, h2⟩ := List.mem_filter.mp hy
      have : y.1 = l.1 := by simpa using h2
      exact this.ge
    · exact (List.pairwise_append.mp hP).2.2 l (List.mem_of_getLast? hl) y hy
  unfold piece
  dsimp only
  rw [hd]
  dsimp only
  have e1 : (A ++ (B ++ c)).filter (fun r => r.1 = l'.1) = (B ++ c).filter (fun r => r.1 = l'.1) := by
    rw [List.filter_append, hAeq, List.nil_append]
  have e2 : (A ++ (B ++ c)).filter (fun r => r.1 ≠ l'.1) = A ++ (B ++ c).filter (fun r => r.1 ≠ l'.1) := by
    rw [List.filter_append, hAne]
  rw [hPc, e1, e2]
  refine ⟨rfl, ?_⟩
  rw [groups_append]
  intro x hx y hy
  exact lt_of_lt_of_le (hA1 x hx) (hge y (List.mem_filter.mp hy).1)

theorem pieces_spec : ∀ (cs : List (List (Row R))) (P : List (Row R)) (l : Row R), Rising (P ++ cs.flatten) → P.getLast? = some l →
    ∃ l', (P ++ cs.flatten).getLast? = some l' ∧
    (pieces (P.filter fun r => r.1 = l.1) cs).1 = (P ++ cs.flatten).filter (fun r => r.1 = l'.1) ∧
    groups (P.filter fun r => r.1 ≠ l.1) ++ (pieces (P.filter fun r => r.1 = l.1) cs).2 = groups ((P ++ cs.flatten).filter fun r => r.1 ≠ l'.1)
  | [], P, l, _, hl => ⟨l, by simpa using hl, by simp [pieces], by simp [pieces]⟩
  | c :: cs, P, l, hP, hl => by
    have hPc : P ++ (c :: cs).flatten = (P ++ c) ++ cs.flatten := by simp
    rw [hPc] at hP ⊢
    obtain ⟨l1, hl1⟩ : ∃ l1, (P ++ c).getLast? = some l1 := by
      cases hx : (P ++ c).getLast? with
      | none =>
        rw [List.getLast?_eq_none_iff] at hx
        rw [(List.append_eq_nil_iff.mp hx).1] at hl
        simp at hl
      | some x => exact ⟨x, rfl⟩
    have hs := piece_spec (hP.sublist (List.sublist_append_left _ _)) hl hl1
    obtain ⟨l', h1, h2, h3⟩ := pieces_spec cs (P ++ c) l1 hP hl1
    refine ⟨l', h1, ?_, ?_⟩
    · simp only [pieces]
      rw [hs.1, h2]
    · simp only [pieces]
      rw [hs.1, ← List.append_assoc, hs.2, h3]

variable [DecidableEq H]

theorem add_sum (k : H) (i : ℕ) (t : List (Entry H)) : ((add k i t).map (·.2.2)).sum = (t.map (·.2.2)).sum + 1 := by
  induction t with
  | nil => simp [add]
  | cons e t ih =>
    by_cases h : e.1 = k
    · simp [add, h]; omega
    · simp [add, h, ih]; omega

theorem add_keys (k : H) (i : ℕ) (t : List (Entry H)) (x : H) : x ∈ (add k i t).map (·.1) ↔ x = k ∨ x ∈ t.map (·.1) := by
  induction t with
  | nil => simp [add]
  | cons e t ih =>
    by_cases h : e.1 = k
    · subst h
      simp [add]
    · simp only [add, h, if_false, List.map_cons, List.mem_cons, ih]
      tauto

theorem add_nodup (k : H) (i : ℕ) (t : List (Entry H)) (h : (t.map (·.1)).Nodup) : ((add k i t).map (·.1)).Nodup := by
  induction t with
  | nil => simp [add]
  | cons e t ih =>
    obtain ⟨h1, h2⟩ := List.nodup_cons.mp h
    by_cases hk : e.1 = k
    · simp only [add, hk, if_true, List.map_cons, List.nodup_cons]
      exact ⟨hk ▸ h1, h2⟩
    · simp only [add, hk, if_false, List.map_cons, List.nodup_cons]
      refine ⟨?_, ih h2⟩
      rw [add_keys]
      rintro (h' | h')
      · exact hk h'
      · exact h1 h'

theorem add_lookup (k : H) (i : ℕ) (t : List (Entry H)) (x : H) :
    (add k i t).lookup x = if x = k then some (match t.lookup k with | none => (i, 1) | some (j, n) => (j, n + 1)) else t.lookup x := by
  induction t with
  | nil =>
    by_cases h : x = k
    · simp [add, h]
    · have hb : (x == k) = false := by simpa using h
      simp [add, List.lookup_cons, hb, h]
  | cons e t ih =>
    obtain ⟨a, j, n⟩ := e
    by_cases h : a = k
    · subst h
      by_cases hx : x = a
      · subst hx; simp [add]
      · have hb : (x == a) = false := by simpa using hx
        simp [add, List.lookup_cons, hb, hx]
    · have hb : (k == a) = false := by simpa using fun e : k = a => h e.symm
      simp only [add, h, if_false, List.lookup_cons, hb]
      by_cases hx : x = a
      · subst hx; simp [h]
      · have hb' : (x == a) = false := by simpa using hx
        simp only [hb', ih]

theorem tally_sum (h : List R → H) : ∀ (gs : List (Group R)) (t : List (Entry H)), ((tally h t gs).map (·.2.2)).sum = (t.map (·.2.2)).sum + gs.length
  | [], t => by simp [tally]
  | g :: gs, t => by rw [tally, tally_sum h gs, add_sum]; simp; omega

theorem tally_nodup (h : List R → H) : ∀ (gs : List (Group R)) (t : List (Entry H)), (t.map (·.1)).Nodup → ((tally h t gs).map (·.1)).Nodup
  | [], _, ht => ht
  | _ :: gs, _, ht => tally_nodup h gs _ (add_nodup _ _ _ ht)

/-- The entry of a hash: the first binary with it and the number of binaries with it. -/
theorem tally_lookup (h : List R → H) : ∀ (gs : List (Group R)) (t : List (Entry H)) (x : H),
    (tally h t gs).lookup x = match t.lookup x with
      | some (j, n) => some (j, n + (gs.filter fun g => h g.2 = x).length)
      | none => match gs.filter (fun g => h g.2 = x) with
        | [] => none
        | g :: r => some (g.1, r.length + 1)
  | [], t, x => by
    cases hx : t.lookup x with
    | none => simp [tally, hx]
    | some p => obtain ⟨j, n⟩ := p; simp [tally, hx]
  | g :: gs, t, x => by
    rw [tally, tally_lookup h gs, add_lookup]
    by_cases hg : h g.2 = x
    · subst hg
      rw [if_pos rfl, List.filter_cons_of_pos (by simp)]
      cases hx : t.lookup (h g.2) with
      | none => simp; omega
      | some p => obtain ⟨j, n⟩ := p; simp; omega
    · rw [if_neg (fun e => hg e.symm), List.filter_cons_of_neg (by simpa using hg)]

theorem mem_iff_lookup {t : List (Entry H)} (ht : (t.map (·.1)).Nodup) (k : H) (p : ℕ × ℕ) : (k, p) ∈ t ↔ t.lookup k = some p := by
  induction t with
  | nil => simp
  | cons e t ih =>
    obtain ⟨a, q⟩ := e
    obtain ⟨h1, h2⟩ := List.nodup_cons.mp ht
    by_cases h : k = a
    · subst h
      simp only [List.mem_cons, Prod.mk.injEq, true_and, List.lookup_cons, beq_self_eq_true]
      constructor
      · rintro (rfl | hm)
        · rfl
        · exact absurd (List.mem_map.mpr ⟨_, hm, rfl⟩) h1
      · intro he
        exact .inl (Option.some.inj he).symm
    · have hb : (k == a) = false := by simpa using h
      simp only [List.mem_cons, Prod.mk.injEq, h, false_and, false_or, List.lookup_cons, hb]
      exact ih h2

end Verif.VHCount
