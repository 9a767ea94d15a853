import Verif.Chunk
import Verif.TableProps
/-!
Property theorems for chunked passes over a population: C50.
-/
namespace Verif.Chunk
open Verif.Table

theorem chunks_map {α β : Type} (f : α → β) (n : ℕ) : ∀ (k : ℕ) (l : List α), l.length ≤ k →
    chunks n (l.map f) = (chunks n l).map (List.map f) := by
  intro k
  induction k with
  | zero => intro l hl; rw [List.eq_nil_of_length_eq_zero (Nat.le_zero.1 hl)]; simp [chunks_nil]
  | succ k ih =>
    intro l hl
    by_cases h : l = []
    · subst h; simp [chunks_nil]
    · by_cases hn : n = 0
      · subst hn; simp [chunks_zero]
      · have := List.length_pos_of_ne_nil h
        rw [chunks_cons n l h hn, chunks_cons n _ (by simpa using h) hn, List.map_cons, ← List.map_drop,
          ih _ (by rw [List.length_drop]; omega), List.map_take]

theorem sum_len_flatMap {α β : Type} (g : List (Bin α β)) :
    (g.map fun b => b.hist.length).sum = (g.flatMap fun b => b.hist).length := by
  rw [List.length_flatMap]

theorem batches_spec {α β : Type} (cs : ℕ) (hcs : cs ≠ 0) (hist : List α) (one : List β) : ∀ (k : ℕ) (gs : List (Bin α β)) (i prev : ℕ),
    gs.length ≤ k → hist.drop prev = gs.flatMap (fun b => b.hist) → one.drop i = gs.map (fun b => b.one) →
    batches cs hist one i prev (chunks cs (gs.map fun b => b.hist.length)) =
      (chunks cs gs).map fun g => (g.flatMap fun b => b.hist, g.map fun b => b.one) := by
  intro k
  induction k with
  | zero =>
    intro gs i prev hk _ _
    rw [List.eq_nil_of_length_eq_zero (Nat.le_zero.1 hk)]
    simp [chunks_nil, batches]
  | succ k ih =>
    intro gs i prev hk hh ho
    by_cases h : gs = []
    · subst h; simp [chunks_nil, batches]
    · have hpos := List.length_pos_of_ne_nil h
      have hsplit : gs.flatMap (fun b => b.hist) = (gs.take cs).flatMap (fun b => b.hist) ++ (gs.drop cs).flatMap (fun b => b.hist) := by
        rw [← List.flatMap_append, List.take_append_drop]
      have hsum : ((gs.take cs).map fun b => b.hist.length).sum = ((gs.take cs).flatMap fun b => b.hist).length :=
        sum_len_flatMap _
      rw [chunks_cons cs _ (by simpa using h) hcs, chunks_cons cs gs h hcs, ← List.map_take, ← List.map_drop]
      simp only [batches, List.map_cons]
      rw [hsum, ih (gs.drop cs) (i + cs) (prev + ((gs.take cs).flatMap fun b => b.hist).length)
        (by rw [List.length_drop]; omega)
        (by rw [← List.drop_drop, hh, hsplit, List.drop_left]) (by rw [← List.drop_drop, ho, List.map_drop])]
      rw [hh, ho, hsplit, List.take_left, List.map_take]

/-! ### Passes by position -/

/-- C50: when the history is stored binary after binary in the order of the lengths and of the one-line table, every piece
holds the complete history and the one-line row of the same consecutive binaries, for every chunk size. -/
theorem C50_pieces {α β : Type} (cs : ℕ) (hcs : cs ≠ 0) (gs : List (Bin α β)) :
    pieces cs (gs.map fun b => b.hist.length) (gs.flatMap fun b => b.hist) (gs.map fun b => b.one) =
      (chunks cs gs).map fun g => (g.flatMap fun b => b.hist, g.map fun b => b.one) :=
  batches_spec cs hcs _ _ gs.length gs 0 0 le_rfl rfl rfl

/-- C50: hence every binary is visited exactly once: joining the pieces gives the whole population, and no piece has more
than `cs` binaries. -/
theorem C50_visited_once {α β : Type} (cs : ℕ) (hcs : cs ≠ 0) (gs : List (Bin α β)) :
    ((pieces cs (gs.map fun b => b.hist.length) (gs.flatMap fun b => b.hist) (gs.map fun b => b.one)).map Prod.fst).flatten
      = gs.flatMap (fun b => b.hist) ∧
    ((pieces cs (gs.map fun b => b.hist.length) (gs.flatMap fun b => b.hist) (gs.map fun b => b.one)).map Prod.snd).flatten
      = gs.map (fun b => b.one) := by
  rw [C50_pieces cs hcs gs]
  have hf := chunks_flatten cs hcs gs.length gs le_rfl
  constructor
  · rw [List.map_map]
    have : ∀ L : List (List (Bin α β)), (L.map (Prod.fst ∘ fun g => (g.flatMap fun b => b.hist, g.map fun b => b.one))).flatten
        = L.flatten.flatMap fun b => b.hist := by
      intro L
      induction L with
      | nil => rfl
      | cons a L ih => rw [List.map_cons, List.flatten_cons, ih, List.flatten_cons, List.flatMap_append]; rfl
    rw [this, hf]
  · rw [List.map_map]
    have : ∀ L : List (List (Bin α β)), (L.map (Prod.snd ∘ fun g => (g.flatMap fun b => b.hist, g.map fun b => b.one))).flatten
        = L.flatten.map fun b => b.one := by
      intro L
      induction L with
      | nil => rfl
      | cons a L ih => rw [List.map_cons, List.flatten_cons, ih, List.flatten_cons, List.map_append]; rfl
    rw [this, hf]

theorem transientLoop_ok {α β γ : Type} (f : List α → List β → Out γ) : ∀ (ps : List (List α × List β)) (acc : List γ),
    (∀ p ∈ ps, colsOk (f p.1 p.2).1 = true) → transientLoop f ps acc = (acc ++ ps.flatMap fun p => (f p.1 p.2).2, false) := by
  intro ps
  induction ps with
  | nil => intro acc _; simp [transientLoop]
  | cons p ps ih =>
    intro acc h
    simp only [transientLoop]
    rw [if_pos (h p List.mem_cons_self), ih _ fun q hq => h q (List.mem_cons_of_mem _ hq)]
    simp

/-- C50: for a function that treats binaries one by one the transient population is the same for every chunk size: the rows
of each binary in order; it is `None` exactly when no binary gives a row. -/
theorem C50_transient_chunk_free {α β γ : Type} (cs : ℕ) (hcs : cs ≠ 0) (gs : List (Bin α β)) (f : List α → List β → Out γ)
    (cols : List String) (hcols : colsOk cols = true) (one : Bin α β → List γ)
    (hf : ∀ g : List (Bin α β), f (g.flatMap fun b => b.hist) (g.map fun b => b.one) = (cols, g.flatMap one)) :
    transient cs (gs.map fun b => b.hist.length) (gs.flatMap fun b => b.hist) (gs.map fun b => b.one) none f
      = .ok (if gs.flatMap one = [] then none else some (gs.flatMap one)) := by
  have hp := C50_pieces cs hcs gs
  have hok : ∀ p ∈ pieces cs (gs.map fun b => b.hist.length) (gs.flatMap fun b => b.hist) (gs.map fun b => b.one),
      colsOk (f p.1 p.2).1 = true := by
    rw [hp]; intro p h
    obtain ⟨g, -, rfl⟩ := List.mem_map.1 h
    simp only [hf g, hcols]
  have hrows : (pieces cs (gs.map fun b => b.hist.length) (gs.flatMap fun b => b.hist) (gs.map fun b => b.one)).flatMap
      (fun p => (f p.1 p.2).2) = gs.flatMap one := by
    rw [hp, List.flatMap_map]
    simp only [hf]
    have : ∀ L : List (List (Bin α β)), L.flatMap (fun g => g.flatMap one) = L.flatten.flatMap one := by
      intro L
      induction L with
      | nil => rfl
      | cons a L ih => rw [List.flatMap_cons, ih, List.flatten_cons, List.flatMap_append]
    rw [this, chunks_flatten cs hcs gs.length gs le_rfl]
  simp only [transient, transient.go, transientLoop_ok f _ [] hok, List.nil_append, hrows]
  by_cases h : gs.flatMap one = [] <;> simp [h]

/-- C50: a function whose frame lacks the time or the metallicity column, or has a column twice, is rejected; so is a request
for history columns without the time. -/
theorem C50_transient_errors {α β γ : Type} (cs : ℕ) (hcs : cs ≠ 0) (gs : List (Bin α β)) (hne : gs ≠ []) (f : List α → List β → Out γ)
    (hbad : ∀ h o, "time" ∉ (f h o).1 ∨ "metallicity" ∉ (f h o).1 ∨ ¬ (f h o).1.Nodup) (c : List String) (hc : "time" ∉ c) :
    transient cs (gs.map fun b => b.hist.length) (gs.flatMap fun b => b.hist) (gs.map fun b => b.one) none f = .error .value ∧
    transient cs (gs.map fun b => b.hist.length) (gs.flatMap fun b => b.hist) (gs.map fun b => b.one) (some c) f = .error .value := by
  refine ⟨?_, by simp [transient, hc]⟩
  have hp := C50_pieces cs hcs gs
  rw [chunks_cons cs gs hne hcs, List.map_cons] at hp
  have hb : ∀ h o, colsOk (f h o).1 = false := by
    intro h o
    unfold colsOk
    rcases hbad h o with h | h | h <;> simp [h]
  simp only [transient, transient.go, hp, transientLoop, hb]
  rfl

/-- Three binaries in chunks of two. -/
example : pieces 2 [2, 1, 3] ['a', 'b', 'c', 'd', 'e', 'f'] [10, 20, 30]
    = [(['a', 'b', 'c'], [10, 20]), (['d', 'e', 'f'], [30])] := by
  have := C50_pieces 2 (by simp) [(⟨0, ['a', 'b'], 10⟩ : Bin Char ℕ), ⟨1, ['c'], 20⟩, ⟨2, ['d', 'e', 'f'], 30⟩]
  simpa [chunks] using this

/-! ### Files as they are written -/

theorem sorted_split {α : Type} (i : ℤ) : ∀ rows : Rows α, rows.Pairwise (fun a b => a.1 ≤ b.1) → (∀ r ∈ rows, i ≤ r.1) →
    rows = rows.filter (fun r => decide (r.1 = i)) ++ rows.filter (fun r => !decide (r.1 = i)) := by
  intro rows
  induction rows with
  | nil => intro _ _; rfl
  | cons a rows ih =>
    intro hs hge
    obtain ⟨h1, h2⟩ := List.pairwise_cons.1 hs
    by_cases ha : a.1 = i
    · rw [List.filter_cons, if_pos (by simpa using ha), List.filter_cons, if_neg (by simpa using ha), List.cons_append,
        ← ih h2 fun r hr => hge r (List.mem_cons_of_mem _ hr)]
    · have hlt : i < a.1 := lt_of_le_of_ne (hge a List.mem_cons_self) (Ne.symm ha)
      have hnil : (a :: rows).filter (fun r => decide (r.1 = i)) = [] := by
        rw [List.filter_eq_nil_iff]
        intro r hr
        rcases List.mem_cons.1 hr with rfl | hr
        · simpa using ha
        · have := h1 r hr
          simp only [decide_eq_true_eq]; omega
      have hall : (a :: rows).filter (fun r => !decide (r.1 = i)) = a :: rows := by
        rw [List.filter_eq_self]
        intro r hr
        have := List.filter_eq_nil_iff.1 hnil r hr
        simpa using this
      rw [hnil, hall]; rfl

theorem sorted_groups {α : Type} : ∀ (L : List ℤ) (rows : Rows α), L.Pairwise (· < ·) → rows.Pairwise (fun a b => a.1 ≤ b.1) →
    (∀ r ∈ rows, r.1 ∈ L) → rows = L.flatMap fun i => rows.filter fun r => decide (r.1 = i) := by
  intro L
  induction L with
  | nil =>
    intro rows _ _ h
    cases rows with
    | nil => rfl
    | cons a rows => exact absurd (h a List.mem_cons_self) (by simp)
  | cons i L ih =>
    intro rows hL hs h
    obtain ⟨h1, h2⟩ := List.pairwise_cons.1 hL
    have hge : ∀ r ∈ rows, i ≤ r.1 := by
      intro r hr
      rcases List.mem_cons.1 (h r hr) with h' | h'
      · exact le_of_eq h'.symm
      · exact le_of_lt (h1 _ h')
    have hsp := sorted_split i rows hs hge
    have hrest := ih (rows.filter fun r => !decide (r.1 = i)) h2 (hs.filter _) (by
      intro r hr
      obtain ⟨hr1, hr2⟩ := List.mem_filter.1 hr
      rcases List.mem_cons.1 (h r hr1) with h' | h'
      · simp [h'] at hr2
      · exact h')
    rw [List.flatMap_cons]
    conv_lhs => rw [hsp, hrest]
    congr 1
    refine List.flatMap_congr fun j hj => ?_
    rw [List.filter_filter]
    refine List.filter_congr fun r _ => ?_
    have : i < j := h1 j hj
    by_cases hr : r.1 = j
    · simp [hr, show j ≠ i by omega]
    · simp [hr]

/-- C50: for a file whose history rows are in increasing order of their labels and whose one-line table has the same labels in
increasing order, each piece has the one-line rows of some binaries and exactly the history rows with their labels.
The lengths are those computed when the file is opened. -/
theorem C50_sorted_file {α β : Type} (cs : ℕ) (hcs : cs ≠ 0) (hist : Rows α) (one : Rows β)
    (hs : hist.Pairwise fun a b => a.1 ≤ b.1) (hl : one.map Prod.fst = (lengthsOf hist).map Prod.fst) :
    pieces cs ((lengthsOf hist).map Prod.snd) hist one =
      (chunks cs one).map fun g => (g.flatMap fun o => hist.filter fun r => decide (r.1 = o.1), g) := by
  obtain ⟨hlt, hmem, -⟩ := C27_lengths hist
  have hfl : hist = one.flatMap fun o => hist.filter fun r => decide (r.1 = o.1) := by
    have := sorted_groups (one.map Prod.fst) hist (by rw [hl]; exact hlt) hs (by
      intro r hr
      rw [hl]
      exact List.mem_map.2 ⟨(r.1, _), (hmem _ _).2 ⟨⟨r, hr, rfl⟩, rfl⟩, rfl⟩)
    rw [List.flatMap_map] at this
    exact this
  have hsnd : (lengthsOf hist).map Prod.snd = one.map fun o => (hist.filter fun r => decide (r.1 = o.1)).length := by
    have h1 : (lengthsOf hist).map Prod.snd
        = ((lengthsOf hist).map Prod.fst).map fun i => (hist.filter fun r => decide (r.1 = i)).length := by
      rw [List.map_map]
      refine List.map_congr_left fun x hx => ?_
      exact ((hmem x.1 x.2).1 hx).2
    rw [h1, ← hl, List.map_map]; rfl
  have hP := C50_pieces cs hcs (one.map fun o => (⟨o.1, hist.filter fun r => decide (r.1 = o.1), o⟩ : Bin (ℤ × α) (ℤ × β)))
  rw [List.map_map, List.map_map, List.flatMap_map] at hP
  have e1 : (one.map ((fun b : Bin (ℤ × α) (ℤ × β) => b.hist.length) ∘ fun o => ⟨o.1, hist.filter fun r => decide (r.1 = o.1), o⟩))
      = (lengthsOf hist).map Prod.snd := by rw [hsnd]; rfl
  have e2 : one.map ((fun b : Bin (ℤ × α) (ℤ × β) => b.one) ∘ fun o => ⟨o.1, hist.filter fun r => decide (r.1 = o.1), o⟩) = one := by
    have : ((fun b : Bin (ℤ × α) (ℤ × β) => b.one) ∘ fun o => ⟨o.1, hist.filter fun r => decide (r.1 = o.1), o⟩) = id := rfl
    rw [this, List.map_id]
  rw [e1, e2, ← hfl] at hP
  rw [hP, chunks_map _ cs one.length one le_rfl, List.map_map]
  refine List.map_congr_left fun g _ => ?_
  simp only [Function.comp, List.flatMap_map, List.map_map]
  congr 1
  have : ((fun b : Bin (ℤ × α) (ℤ × β) => b.one) ∘ fun o => ⟨o.1, hist.filter fun r => decide (r.1 = o.1), o⟩) = id := rfl
  exact (congrArg (fun f => g.map f) this).trans (List.map_id g)

/-- C50 is false for files whose tables are not in increasing order of the labels (as when the files of several processes are
joined): the lengths are sorted, the tables are not, and a binary is processed with part of its own and with another
binary's history.  Here binary 1 has rows `a`, `b` and binary 0 has row `c`. -/
theorem C50_unsorted_violated :
    pieces 1 ((lengthsOf [((1 : ℤ), 'a'), (1, 'b'), (0, 'c')]).map Prod.snd) [((1 : ℤ), 'a'), (1, 'b'), (0, 'c')]
        [((1 : ℤ), "one"), (0, "zero")]
      = [([(1, 'a')], [(1, "one")]), ([(1, 'b'), (0, 'c')], [(0, "zero")])] := by
  have h : (lengthsOf [((1 : ℤ), 'a'), (1, 'b'), (0, 'c')]).map Prod.snd = [1, 2] := by
    decide +kernel
  rw [h]
  simp [pieces, chunks, batches]

/-! ### Subsets -/

theorem labels_append {α : Type} (a b : Rows α) : labels (a ++ b) = labels a ∪ labels b := by
  simp [labels, List.toFinset_append]

theorem mem_labels {α : Type} (a : Rows α) (i : ℤ) : i ∈ labels a ↔ ∃ r ∈ a, r.1 = i := by simp [labels]

theorem labels_filter_sub {α : Type} (s : Finset ℤ) (a : Rows α) : labels (a.filter fun r => decide (r.1 ∈ s)) ⊆ s := by
  intro i hi
  obtain ⟨r, hr, rfl⟩ := (mem_labels _ _).1 hi
  simpa using (List.mem_filter.1 hr).2

theorem onelineLoop_spec {α : Type} (cs : ℕ) (hcs : cs ≠ 0) (s : Finset ℤ) (L : Rows α) (hnd : (L.map Prod.fst).Nodup) :
    ∀ (k o : ℕ), L.length ≤ o + k →
    onelineLoop s (chunks cs (L.drop o)) (labels ((L.take o).filter fun r => decide (r.1 ∈ s)))
      = (L.drop o).filter fun r => decide (r.1 ∈ s) := by
  intro k
  induction k with
  | zero => intro o h; rw [List.drop_of_length_le (by omega), chunks_nil]; rfl
  | succ k ih =>
    intro o h
    by_cases hne : L.drop o = []
    · rw [hne, chunks_nil]; rfl
    · rw [chunks_cons cs _ hne hcs]
      have hinc : labels ((L.take o).filter fun r => decide (r.1 ∈ s)) ∪ labels (((L.drop o).take cs).filter fun r => decide (r.1 ∈ s))
          = labels ((L.take (o + cs)).filter fun r => decide (r.1 ∈ s)) := by
        rw [← labels_append, ← List.filter_append, List.take_add]
      simp only [onelineLoop, hinc]
      have hdrop : (L.drop o).drop cs = L.drop (o + cs) := by rw [List.drop_drop]
      split_ifs with hc
      · have hs : labels ((L.take (o + cs)).filter fun r => decide (r.1 ∈ s)) = s :=
          Finset.eq_of_subset_of_card_le (labels_filter_sub s _) (le_of_eq hc.symm)
        conv_rhs => rw [← List.take_append_drop cs (L.drop o), List.filter_append]
        have : ((L.drop o).drop cs).filter (fun r => decide (r.1 ∈ s)) = [] := by
          rw [hdrop, List.filter_eq_nil_iff]
          intro r hr hrs
          simp only [decide_eq_true_eq] at hrs
          rw [← hs] at hrs
          obtain ⟨r', hr', he⟩ := (mem_labels _ _).1 hrs
          have hr'' := (List.mem_filter.1 hr').1
          have hdis : List.Disjoint ((L.take (o + cs)).map Prod.fst) ((L.drop (o + cs)).map Prod.fst) := by
            have : ((L.take (o + cs)).map Prod.fst ++ (L.drop (o + cs)).map Prod.fst).Nodup := by
              rw [← List.map_append, List.take_append_drop]; exact hnd
            exact (List.nodup_append'.1 this).2.2
          exact hdis (List.mem_map.2 ⟨r', hr'', he⟩) (List.mem_map.2 ⟨r, hr, rfl⟩)
        rw [this, List.append_nil]
      · rw [hdrop, ih (o + cs) (by omega)]
        conv_rhs => rw [← List.take_append_drop cs (L.drop o), List.filter_append, hdrop]

theorem historyLoop_stop {α : Type} (cs : ℕ) (hcs : cs ≠ 0) (s : Finset ℤ) (l : Rows α) (h : ∀ r ∈ l.drop cs, r.1 ∉ s) :
    historyLoop s (chunks cs l) s true = l.filter fun r => decide (r.1 ∈ s) := by
  by_cases hne : l = []
  · subst hne; rw [chunks_nil]; rfl
  · rw [chunks_cons cs l hne hcs]
    have hu : s ∪ labels ((l.take cs).filter fun r => decide (r.1 ∈ s)) = s :=
      Finset.union_eq_left.2 (labels_filter_sub s _)
    simp only [historyLoop, hu, if_true]
    conv_rhs => rw [← List.take_append_drop cs l, List.filter_append]
    have : (l.drop cs).filter (fun r => decide (r.1 ∈ s)) = [] := by
      rw [List.filter_eq_nil_iff]; intro r hr; simpa using h r hr
    rw [this, List.append_nil]

theorem historyLoop_spec {α : Type} (cs : ℕ) (hcs : cs ≠ 0) (s : Finset ℤ) (L : Rows α) (hnear : Near cs L) :
    ∀ (k o : ℕ), L.length ≤ o + k →
    historyLoop s (chunks cs (L.drop o)) (labels ((L.take o).filter fun r => decide (r.1 ∈ s))) false
      = (L.drop o).filter fun r => decide (r.1 ∈ s) := by
  intro k
  induction k with
  | zero => intro o h; rw [List.drop_of_length_le (by omega), chunks_nil]; rfl
  | succ k ih =>
    intro o h
    by_cases hne : L.drop o = []
    · rw [hne, chunks_nil]; rfl
    · rw [chunks_cons cs _ hne hcs]
      have hinc : labels ((L.take o).filter fun r => decide (r.1 ∈ s)) ∪ labels (((L.drop o).take cs).filter fun r => decide (r.1 ∈ s))
          = labels ((L.take (o + cs)).filter fun r => decide (r.1 ∈ s)) := by
        rw [← labels_append, ← List.filter_append, List.take_add]
      have hdrop : (L.drop o).drop cs = L.drop (o + cs) := by rw [List.drop_drop]
      simp only [historyLoop, hinc]
      have hcat : (L.drop o).filter (fun r => decide (r.1 ∈ s)) = ((L.drop o).take cs).filter (fun r => decide (r.1 ∈ s)) ++
          (L.drop (o + cs)).filter (fun r => decide (r.1 ∈ s)) := by
        conv_lhs => rw [← List.take_append_drop cs (L.drop o), List.filter_append, hdrop]
      rw [hcat, hdrop]
      split_ifs with hc hst
      · exact absurd hst (by simp)
      · have hs : labels ((L.take (o + cs)).filter fun r => decide (r.1 ∈ s)) = s :=
          Finset.eq_of_subset_of_card_le (labels_filter_sub s _) (le_of_eq hc.symm)
        rw [hs, historyLoop_stop cs hcs s]
        intro r hr hrs
        rw [← hs] at hrs
        obtain ⟨r', hr', he⟩ := (mem_labels _ _).1 hrs
        obtain ⟨p, hp, hpe⟩ := List.mem_iff_getElem.1 (List.mem_filter.1 hr').1
        rw [List.drop_drop] at hr
        obtain ⟨q, hq, hqe⟩ := List.mem_iff_getElem.1 hr
        rw [List.getElem_take] at hpe
        rw [List.getElem_drop] at hqe
        rw [List.length_take] at hp
        rw [List.length_drop] at hq
        have := hnear p (o + cs + cs + q) (by omega) (by omega) (by omega) (by rw [hpe, hqe, he])
        omega
      · rw [ih (o + cs) (by omega)]

theorem findLoop_all {α : Type} (p : ℤ × α → Bool) (keep : ℕ → Finset ℤ → Finset ℤ) : ∀ (cs : List (Rows α)) (s : Finset ℤ),
    findLoop (List.filter p) keep none cs s = s ∪ labels (cs.flatten.filter p) := by
  intro cs
  induction cs with
  | nil => intro s; simp [findLoop, labels]
  | cons c cs ih =>
    intro s
    simp only [findLoop]
    rw [ih, List.flatten_cons, List.filter_append, labels_append, Finset.union_assoc]

/-- Keeping `n` elements of a set. -/
def Keeps (keep : ℕ → Finset ℤ → Finset ℤ) : Prop := ∀ n s, keep n s ⊆ s ∧ (keep n s).card = min n s.card

theorem findLoop_some {α : Type} (p : ℤ × α → Bool) (keep : ℕ → Finset ℤ → Finset ℤ) (hk : Keeps keep) (n : ℕ) :
    ∀ (cs : List (Rows α)) (s : Finset ℤ), s.card ≤ n →
    findLoop (List.filter p) keep (some n) cs s ⊆ s ∪ labels (cs.flatten.filter p) ∧
    (findLoop (List.filter p) keep (some n) cs s).card = min n (s ∪ labels (cs.flatten.filter p)).card := by
  intro cs
  induction cs with
  | nil => intro s h; simp [findLoop, labels, h]
  | cons c cs ih =>
    intro s h
    simp only [findLoop]
    have he : s ∪ labels ((c :: cs).flatten.filter p) = (s ∪ labels (c.filter p)) ∪ labels (cs.flatten.filter p) := by
      rw [List.flatten_cons, List.filter_append, labels_append, Finset.union_assoc]
    have hsub : s ∪ labels (c.filter p) ⊆ (s ∪ labels (c.filter p)) ∪ labels (cs.flatten.filter p) := Finset.subset_union_left
    rw [he]
    split_ifs with hc
    · obtain ⟨h1, h2⟩ := hk n (s ∪ labels (c.filter p))
      refine ⟨h1.trans hsub, ?_⟩
      have := Finset.card_le_card hsub
      rw [h2]; omega
    · exact ih _ (by omega)

/-- C50: the subsets contain exactly the rows of the selected binaries, in file order, from both tables, provided labels of
the one-line table are unique and the history rows of a binary are at most one chunk apart. -/
theorem C50_subsets_partial {α β : Type} (cs : ℕ) (hcs : cs ≠ 0) (keep : ℕ → Finset ℤ → Finset ℤ) (findN : Option ℕ)
    (hist : Rows α) (one : Rows β) (hnd : (one.map Prod.fst).Nodup) (hnear : Near cs hist) (sel : Selector α β) (hsel : sel ≠ .both) :
    (sel = .none → subsets cs keep findN hist one sel = .ok (one, hist)) ∧
    (sel ≠ .none → ∃ s : Finset ℤ, subsets cs keep findN hist one sel =
      .ok (one.filter fun r => decide (r.1 ∈ s), hist.filter fun r => decide (r.1 ∈ s))) := by
  have hone : ∀ s, onelineLoop s (chunks cs one) ∅ = one.filter fun r => decide (r.1 ∈ s) := fun s => by
    have := onelineLoop_spec cs hcs s one hnd one.length 0 (by omega)
    simpa [labels] using this
  have hhist : ∀ s, historyLoop s (chunks cs hist) ∅ false = hist.filter fun r => decide (r.1 ∈ s) := fun s => by
    have := historyLoop_spec cs hcs s hist hnear hist.length 0 (by omega)
    simpa [labels] using this
  cases sel with
  | both => exact absurd rfl hsel
  | none =>
    refine ⟨fun _ => ?_, fun h => absurd rfl h⟩
    simp only [subsets]
    rw [chunks_flatten cs hcs _ one le_rfl, chunks_flatten cs hcs _ hist le_rfl]
  | oneline f =>
    refine ⟨fun h => (by cases h), fun _ => ⟨findLoop f keep findN (chunks cs one) ∅, ?_⟩⟩
    simp only [subsets]
    rw [hone, hhist]
  | history f =>
    refine ⟨fun h => (by cases h), fun _ => ⟨findLoop f keep findN (chunks cs hist) ∅, ?_⟩⟩
    simp only [subsets]
    rw [hone, hhist]

/-- C50: which binaries are selected by a criterion on rows: those with a row meeting it; if only `n` are wanted, `n` of them (all
if there are fewer). -/
theorem C50_subsets_selected_partial {α β : Type} (cs : ℕ) (hcs : cs ≠ 0) (keep : ℕ → Finset ℤ → Finset ℤ) (hk : Keeps keep)
    (hist : Rows α) (one : Rows β) (hnd : (one.map Prod.fst).Nodup) (hnear : Near cs hist) (p : ℤ × α → Bool) :
    subsets cs keep none hist one (.history (List.filter p)) =
      .ok (one.filter fun r => decide (∃ h ∈ hist, h.1 = r.1 ∧ p h = true),
        hist.filter fun r => decide (∃ h ∈ hist, h.1 = r.1 ∧ p h = true)) ∧
    ∀ n, ∃ s : Finset ℤ, (∀ i ∈ s, ∃ h ∈ hist, h.1 = i ∧ p h = true) ∧ s.card = min n (labels (hist.filter p)).card ∧
      subsets cs keep (some n) hist one (.history (List.filter p)) =
        .ok (one.filter fun r => decide (r.1 ∈ s), hist.filter fun r => decide (r.1 ∈ s)) := by
  have hone : ∀ s, onelineLoop s (chunks cs one) ∅ = one.filter fun r => decide (r.1 ∈ s) := fun s => by
    have := onelineLoop_spec cs hcs s one hnd one.length 0 (by omega)
    simpa [labels] using this
  have hhist : ∀ s, historyLoop s (chunks cs hist) ∅ false = hist.filter fun r => decide (r.1 ∈ s) := fun s => by
    have := historyLoop_spec cs hcs s hist hnear hist.length 0 (by omega)
    simpa [labels] using this
  have hmem : ∀ i, i ∈ labels (hist.filter p) ↔ ∃ h ∈ hist, h.1 = i ∧ p h = true := by
    intro i; rw [mem_labels]
    constructor
    · rintro ⟨r, hr, rfl⟩; exact ⟨r, (List.mem_filter.1 hr).1, rfl, (List.mem_filter.1 hr).2⟩
    · rintro ⟨r, hr, h1, h2⟩; exact ⟨r, List.mem_filter.2 ⟨hr, h2⟩, h1⟩
  constructor
  · simp only [subsets]
    rw [hone, hhist, findLoop_all, chunks_flatten cs hcs _ hist le_rfl, Finset.empty_union]
    simp only [hmem]
  · intro n
    obtain ⟨h1, h2⟩ := findLoop_some p keep hk n (chunks cs hist) ∅ (by simp)
    rw [chunks_flatten cs hcs _ hist le_rfl, Finset.empty_union] at h1 h2
    refine ⟨_, fun i hi => (hmem i).1 (h1 hi), h2, ?_⟩
    simp only [subsets]
    rw [hone, hhist]

/-- C50: the chunk size chosen is between 1000 and 100000, so the condition on the history is met when no binary has rows more
than 1000 apart. -/
theorem C50_chunk_size {α : Type} (n : Option ℕ) (hist : Rows α) (h : Near 1000 hist) :
    1000 ≤ chunkSize n ∧ chunkSize n ≤ 100000 ∧ Near (chunkSize n) hist := by
  have h1 : 1000 ≤ chunkSize n := by cases n <;> simp [chunkSize]
  refine ⟨h1, by cases n <;> simp [chunkSize], fun p q hp hq hpq he => ?_⟩
  exact (h p q hp hq hpq he).trans h1

/-- C50 is false for longer histories: rows beyond the chunk after the one in which the last selected binary was found are
lost (here with chunks of one row). -/
theorem C50_long_history_violated :
    subsets 1 (fun _ s => s) none [((0 : ℤ), 'a'), (0, 'b'), (0, 'c')] [((0 : ℤ), 'x')] (.oneline fun r => r)
      = .ok ([(0, 'x')], [(0, 'a'), (0, 'b')]) := by
  have h1 : chunks 1 [((0 : ℤ), 'a'), (0, 'b'), (0, 'c')] = [[(0, 'a')], [(0, 'b')], [(0, 'c')]] := by simp [chunks]
  have h2 : chunks 1 [((0 : ℤ), 'x')] = [[(0, 'x')]] := by simp [chunks]
  simp only [subsets, h1, h2]
  decide +kernel

theorem C50_both_selectors {α β : Type} (cs : ℕ) (keep : ℕ → Finset ℤ → Finset ℤ) (n : Option ℕ) (hist : Rows α) (one : Rows β) :
    subsets cs keep n hist one .both = .error () := rfl

/-- C50: column patterns keep the columns containing one of them, in order. -/
theorem C50_columns (inStr : String → String → Bool) (cols : List String) (ps : List String) :
    filterColumns inStr cols none = cols ∧ (filterColumns inStr cols (some ps)).Sublist cols ∧
    ∀ c, c ∈ filterColumns inStr cols (some ps) ↔ c ∈ cols ∧ ∃ p ∈ ps, inStr p c = true := by
  refine ⟨rfl, List.filter_sublist, fun c => ?_⟩
  simp [filterColumns, List.any_eq_true]

/-- The hypotheses are met by a population of two binaries with rows in order. -/
example : Near 1 [((0 : ℤ), 'a'), (0, 'b'), (1, 'c')] := by
  intro p q hp hq hpq he
  simp only [List.length_cons, List.length_nil] at hp hq
  have h1 : p = 0 ∨ p = 1 ∨ p = 2 := by omega
  have h2 : q = 0 ∨ q = 1 ∨ q = 2 := by omega
  rcases h1 with rfl | rfl | rfl <;> rcases h2 with rfl | rfl | rfl <;> simp_all

end Verif.Chunk
