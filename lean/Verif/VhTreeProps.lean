import Verif.VhTree
import Verif.VhDiagramProps
import Mathlib.Algebra.BigOperators.Group.List.Lemmas
/-!
Property theorems for C160 (trees of evolutions of several binaries).
-/
namespace Verif.VhTree
open Verif.VhDiagram

/-- Different pictures are different files. -/
def Distinct (cols : List Col) : Prop := ∀ c ∈ cols, ∀ p ∈ c.pics, ∀ d ∈ cols, ∀ q ∈ d.pics, key p = key q → p = q

theorem place_mem {k : ℕ} {cs : List Col} {i : Item} (h : i ∈ place k cs) : k ≤ i.pos ∧ ∃ c ∈ cs, i.w = c.w ∧ i.rest = c.pics := by
  induction cs generalizing k with
  | nil => cases h
  | cons c cs ih =>
    rw [place] at h
    rcases List.mem_cons.1 h with rfl | h
    · exact ⟨le_refl _, c, by simp, rfl, rfl⟩
    · obtain ⟨h1, d, hd, h2⟩ := ih h
      exact ⟨by omega, d, List.mem_cons_of_mem _ hd, h2⟩

theorem mem_place {cs : List Col} {c : Col} (h : c ∈ cs) (k : ℕ) : ∃ i ∈ place k cs, i.w = c.w ∧ i.rest = c.pics := by
  induction cs generalizing k with
  | nil => cases h
  | cons d cs ih =>
    rw [place]
    rcases List.mem_cons.1 h with rfl | h
    · exact ⟨⟨k, c.w, c.pics⟩, by simp, rfl, rfl⟩
    · obtain ⟨i, hi, e⟩ := ih h (k + 1)
      exact ⟨i, List.mem_cons_of_mem _ hi, e⟩

theorem place_pos (k : ℕ) (cs : List Col) : (place k cs).Pairwise fun a b => a.pos < b.pos := by
  induction cs generalizing k with
  | nil => exact List.Pairwise.nil
  | cons c cs ih =>
    rw [place]
    refine List.Pairwise.cons (fun i hi => ?_) (ih (k + 1))
    have := (place_mem hi).1
    show k < i.pos
    omega

theorem place_keys (k : ℕ) {cs : List Col} (h : cs.Pairwise fun a b => keysLe (a.pics.map key) (b.pics.map key) = true) :
    (place k cs).Pairwise fun a b => keysLe (a.rest.map key) (b.rest.map key) = true := by
  induction cs generalizing k with
  | nil => exact List.Pairwise.nil
  | cons c cs ih =>
    rw [place]
    refine List.Pairwise.cons (fun i hi => ?_) (ih (k + 1) h.of_cons)
    obtain ⟨_, d, hd, _, e⟩ := place_mem hi
    rw [e]
    exact List.rel_of_pairwise_cons h hd

theorem place_filter (k : ℕ) (cs : List Col) (P : List Pic → Bool) :
    ((place k cs).filter fun i => P i.rest).map (·.w) = (cs.filter fun c => P c.pics).map (·.w) := by
  induction cs generalizing k with
  | nil => rfl
  | cons c cs ih =>
    rw [place, List.filter_cons, List.filter_cons]
    by_cases h : P c.pics = true
    · simp only [h, if_true, List.map_cons, ih]
    · rw [if_neg h, if_neg h, ih]

theorem sorted_perm (cols : List Col) : (sorted cols).Perm cols := List.mergeSort_perm _ _

theorem sorted_keys (cols : List Col) : (sorted cols).Pairwise fun a b => keysLe (a.pics.map key) (b.pics.map key) = true := by
  apply List.pairwise_mergeSort
  · intro a b c h1 h2
    exact keysLe_order.trans _ _ _ h1 h2
  · intro a b
    rw [Bool.or_eq_true]
    exact keysLe_order.total _ _

theorem place_ready {cols : List Col} (h : Distinct cols) : Ready (place 0 (sorted cols)) := by
  refine ⟨place_pos _ _, place_keys _ (sorted_keys cols), ?_⟩
  intro i hi p hp j hj q hq
  obtain ⟨_, c, hc, _, e⟩ := place_mem hi
  obtain ⟨_, d, hd, _, e'⟩ := place_mem hj
  rw [e] at hp
  rw [e'] at hq
  exact h c ((sorted_perm cols).subset hc) p hp d ((sorted_perm cols).subset hd) q hq

/-- C160, order: the table has every binary once, sorted by the pictures of its evolution, so that binaries that begin alike stand together. -/
theorem C160_sorted (cols : List Col) :
    (sorted cols).Perm cols ∧ ((sorted cols).map (·.index)).Perm (cols.map (·.index)) ∧
      (sorted cols).Pairwise fun a b => keysLe (a.pics.map key) (b.pics.map key) = true :=
  ⟨sorted_perm cols, (sorted_perm cols).map _, sorted_keys cols⟩

/-- C160, columns: the entries are a tree over the sorted table, and each stands in the middle of exactly the columns that share its evolution. -/
theorem C160_tree (cols : List Col) (h : Distinct cols) : IsTree (place 0 (sorted cols)) 0 none (nodes cols) :=
  build_tree _ _ _ _ (le_refl _) (place_ready h) (fun _ => rfl)

/-- C160: there is exactly one entry for every beginning of evolutions that occurs, with its last picture; its frequency is the sum of those of all binaries that begin like this, and its
connection leads to the entry for the evolution before. -/
theorem C160_frequency (cols : List Col) (h : Distinct cols) :
    ∃ qn : List (List Pic × Node), qn.map Prod.snd = nodes cols ∧ (qn.map Prod.fst).Nodup ∧
      (∀ q, q ∈ qn.map Prod.fst ↔ q ≠ [] ∧ ∃ c ∈ cols, q <+: c.pics) ∧
      ∀ x ∈ qn, x.2.line + 1 = x.1.length ∧ x.1.getLast? = some x.2.pic ∧
        x.2.w = ((cols.filter fun c => decide (x.1 <+: c.pics)).map (·.w)).sum ∧
        (x.1.length = 1 → from_ x.2 = none) ∧ ∀ y ∈ qn, ∀ c, y.1 = x.1 ++ [c] → from_ y.2 = some x.2.col ∧ y.2.line = x.2.line + 1 := by
  obtain ⟨qn, h1, h2, h3, h4⟩ := C160_tree cols h
  have hlen : ∀ x ∈ qn, x.2.line + 1 = x.1.length := fun x hx => by
    have := (h4 x hx).1.line
    omega
  refine ⟨qn, h1, h2, ?_, ?_⟩
  · intro q
    rw [h3 q]
    refine and_congr_right fun _ => ⟨?_, ?_⟩
    · rintro ⟨i, hi, hpre⟩
      obtain ⟨_, c, hc, _, e⟩ := place_mem hi
      exact ⟨c, (sorted_perm cols).subset hc, e ▸ hpre⟩
    · rintro ⟨c, hc, hpre⟩
      obtain ⟨i, hi, _, e⟩ := mem_place ((sorted_perm cols).symm.subset hc) 0
      exact ⟨i, hi, e ▸ hpre⟩
  · intro x hx
    obtain ⟨k1, k2, k3⟩ := h4 x hx
    refine ⟨hlen x hx, k1.pic, ?_, k2, fun y hy c hc => ⟨k3 y hy c hc, ?_⟩⟩
    · rw [k1.w, place_filter 0 (sorted cols) (fun l => decide (x.1 <+: l))]
      exact (((sorted_perm cols).filter _).map _).sum_eq
    · have e1 := hlen x hx
      have e2 := hlen y hy
      rw [hc, List.length_append, List.length_singleton] at e2
      omega

theorem sum_ite_take (qs : List (List Pic)) (m : ℕ) (hn : qs.Nodup) (hl : ∀ q ∈ qs, q.length = m) (l : List Pic) (w : ℚ) :
    (qs.map fun q => if q <+: l then w else 0).sum = if l.take m ∈ qs then w else 0 := by
  induction qs with
  | nil => simp
  | cons q qs ih =>
    obtain ⟨h1, h2⟩ := List.nodup_cons.1 hn
    rw [List.map_cons, List.sum_cons, ih h2 (fun x hx => hl x (List.mem_cons_of_mem _ hx))]
    have hq := hl q (by simp)
    by_cases hp : q <+: l
    · have e : l.take m = q := by
        rw [← hq]
        exact (List.prefix_iff_eq_take.1 hp).symm
      rw [if_pos hp, e, if_neg h1, if_pos (by simp), add_zero]
    · rw [if_neg hp, zero_add]
      have e : l.take m ≠ q := by
        intro he
        exact hp (he ▸ List.take_prefix _ _)
      by_cases hm : l.take m ∈ qs
      · rw [if_pos hm, if_pos (List.mem_cons_of_mem _ hm)]
      · rw [if_neg hm, if_neg (by simp [e, hm])]

theorem sum_filter_ite (cols : List Col) (P : Col → Prop) [DecidablePred P] :
    ((cols.filter fun c => decide (P c)).map (·.w)).sum = (cols.map fun c => if P c then c.w else 0).sum := by
  induction cols with
  | nil => rfl
  | cons c cols ih =>
    by_cases h : P c
    · simp [List.filter_cons, h, ih]
    · simp [List.filter_cons, h, ih]

/-- Sums over different beginnings of one length count every binary once. -/
theorem sum_paths (cols : List Col) (qs : List (List Pic)) (m : ℕ) (hn : qs.Nodup) (hl : ∀ q ∈ qs, q.length = m) :
    (qs.map fun q => ((cols.filter fun c => decide (q <+: c.pics)).map (·.w)).sum).sum =
      ((cols.filter fun c => decide (c.pics.take m ∈ qs)).map (·.w)).sum := by
  simp only [sum_filter_ite]
  induction cols with
  | nil => simp
  | cons c cols ih =>
    simp only [List.map_cons, List.sum_cons]
    rw [List.sum_map_add, ih, sum_ite_take qs m hn hl]

/-- C160: on every line the frequencies add up to that of all binaries that reach the line; on the first line to that of all binaries. -/
theorem C160_level (cols : List Col) (h : Distinct cols) (line : ℕ) :
    (((nodes cols).filter fun n => decide (n.line = line)).map (·.w)).sum = ((cols.filter fun c => decide (line < c.pics.length)).map (·.w)).sum := by
  obtain ⟨qn, h1, h2, h3, h4⟩ := C160_frequency cols h
  set qn' := qn.filter fun x => decide (x.2.line = line) with hq'
  have e1 : ((nodes cols).filter fun n => decide (n.line = line)).map (·.w) =
      (qn'.map Prod.fst).map fun q => ((cols.filter fun c => decide (q <+: c.pics)).map (·.w)).sum := by
    rw [← h1, List.filter_map, List.map_map, List.map_map]
    apply List.map_congr_left
    intro x hx
    exact (h4 x (List.mem_filter.1 hx).1).2.2.1
  have hn' : (qn'.map Prod.fst).Nodup := h2.sublist (List.filter_sublist.map _)
  have hl' : ∀ q ∈ qn'.map Prod.fst, q.length = line + 1 := by
    intro q hq
    obtain ⟨x, hx, rfl⟩ := List.mem_map.1 hq
    obtain ⟨hx1, hx2⟩ := List.mem_filter.1 hx
    have := (h4 x hx1).1
    simp only [decide_eq_true_eq] at hx2
    omega
  rw [e1, sum_paths cols _ (line + 1) hn' hl']
  congr 2
  apply List.filter_congr
  intro c hc
  rw [decide_eq_decide]
  constructor
  · intro hm
    have := hl' _ hm
    rw [List.length_take] at this
    omega
  · intro hlt
    obtain ⟨x, hx, hx1⟩ := List.mem_map.1 ((h3 (c.pics.take (line + 1))).2 ⟨by
      intro he
      have := congrArg List.length he
      rw [List.length_take, List.length_nil] at this
      omega, c, hc, List.take_prefix _ _⟩)
    refine List.mem_map.2 ⟨x, List.mem_filter.2 ⟨hx, ?_⟩, hx1⟩
    have := (h4 x hx).1
    rw [hx1, List.length_take] at this
    simp only [decide_eq_true_eq]
    omega

/-- C160: below an entry its frequency is divided: the entries connected to it and the binaries that end there add up to it. -/
theorem C160_divided (cols : List Col) (h : Distinct cols) :
    ∃ qn : List (List Pic × Node), qn.map Prod.snd = nodes cols ∧ ∀ x ∈ qn,
      x.2.w = ((qn.filter fun y => decide (y.1.dropLast = x.1 ∧ y.1 ≠ [])).map fun y => y.2.w).sum + ((cols.filter fun c => decide (c.pics = x.1)).map (·.w)).sum := by
  obtain ⟨qn, h1, h2, h3, h4⟩ := C160_frequency cols h
  refine ⟨qn, h1, fun x hx => ?_⟩
  set qn' := qn.filter fun y => decide (y.1.dropLast = x.1 ∧ y.1 ≠ []) with hq'
  have hxn : x.1 ≠ [] := ((h3 x.1).1 (List.mem_map_of_mem hx)).1
  have e1 : (qn'.map fun y => y.2.w) = (qn'.map Prod.fst).map fun q => ((cols.filter fun c => decide (q <+: c.pics)).map (·.w)).sum := by
    rw [List.map_map]
    apply List.map_congr_left
    intro y hy
    exact (h4 y (List.mem_filter.1 hy).1).2.2.1
  have hn' : (qn'.map Prod.fst).Nodup := h2.sublist (List.filter_sublist.map _)
  have hl' : ∀ q ∈ qn'.map Prod.fst, q.length = x.1.length + 1 := by
    intro q hq
    obtain ⟨y, hy, rfl⟩ := List.mem_map.1 hq
    obtain ⟨_, hy2⟩ := List.mem_filter.1 hy
    simp only [decide_eq_true_eq] at hy2
    rw [← hy2.1, List.length_dropLast]
    have := List.length_pos_of_ne_nil hy2.2
    omega
  rw [e1, sum_paths cols _ _ hn' hl', (h4 x hx).2.2.1, sum_filter_ite, sum_filter_ite, sum_filter_ite, ← List.sum_map_add]
  congr 1
  apply List.map_congr_left
  intro c hc
  have hmem : c.pics.take (x.1.length + 1) ∈ qn'.map Prod.fst ↔ x.1 <+: c.pics ∧ c.pics ≠ x.1 := by
    constructor
    · intro hm
      have hlen := hl' _ hm
      rw [List.length_take] at hlen
      obtain ⟨y, hy, he⟩ := List.mem_map.1 hm
      obtain ⟨_, hy2⟩ := List.mem_filter.1 hy
      simp only [decide_eq_true_eq] at hy2
      refine ⟨?_, ?_⟩
      · rw [← hy2.1, he]
        exact (List.dropLast_prefix _).trans (List.take_prefix _ _)
      · intro hc'
        rw [hc'] at hlen
        omega
    · rintro ⟨hp, hne⟩
      have hlt : x.1.length < c.pics.length := by
        rcases Nat.lt_or_ge x.1.length c.pics.length with h | h
        · exact h
        · exact absurd (hp.eq_of_length_le h).symm hne
      have htn : c.pics.take (x.1.length + 1) ≠ [] := by
        intro he
        have := congrArg List.length he
        rw [List.length_take, List.length_nil] at this
        omega
      obtain ⟨y, hy, he⟩ := List.mem_map.1 ((h3 _).2 ⟨htn, c, hc, List.take_prefix (x.1.length + 1) c.pics⟩)
      refine List.mem_map.2 ⟨y, List.mem_filter.2 ⟨hy, ?_⟩, he⟩
      simp only [decide_eq_true_eq]
      rw [he]
      refine ⟨?_, htn⟩
      rw [List.dropLast_eq_take, List.length_take, List.take_take, show min (min (x.1.length + 1) c.pics.length - 1) (x.1.length + 1) = x.1.length by omega]
      exact (List.prefix_iff_eq_take.1 hp).symm
  by_cases hp : x.1 <+: c.pics
  · by_cases he : c.pics = x.1
    · rw [if_pos hp, if_pos he, if_neg (by rw [hmem]; exact fun h => h.2 he), zero_add]
    · rw [if_pos hp, if_neg he, if_pos (hmem.2 ⟨hp, he⟩), add_zero]
  · rw [if_neg hp, if_neg (by rw [hmem]; exact fun h => hp h.1), if_neg (fun he => hp (by rw [he])), add_zero]

/-! ### Drawing -/

theorem tree_some {r : List Item} {line k : ℕ} {ns : List Node} (h : IsTree r line (some k) ns) : ∀ n ∈ ns, from_ n ≠ none := by
  obtain ⟨qn, h1, h2, h3, h4⟩ := h
  intro n hn
  rw [← h1] at hn
  obtain ⟨x, hx, rfl⟩ := List.mem_map.1 hn
  obtain ⟨hne, i, hi, hpre⟩ := (h3 x.1).1 (List.mem_map_of_mem hx)
  by_cases hl : x.1.length = 1
  · rw [(h4 x hx).2.1 hl]
    simp
  · have hpos := List.length_pos_of_ne_nil hne
    have hd : x.1.dropLast ≠ [] := by
      intro he
      have := congrArg List.length he
      rw [List.length_dropLast, List.length_nil] at this
      omega
    obtain ⟨y, hy, he⟩ := List.mem_map.1 ((h3 x.1.dropLast).2 ⟨hd, i, hi, (List.dropLast_prefix _).trans hpre⟩)
    rw [(h4 y hy).2.2 x hx (x.1.getLast hne) (by rw [he]; exact (List.dropLast_append_getLast hne).symm)]
    simp

theorem edges_some {ns : List Node} (h : ∀ n ∈ ns, from_ n ≠ none) : ∀ p ∈ edges ns, p ≠ none := by
  intro p hp
  obtain ⟨n, hn, e⟩ := List.mem_filterMap.1 hp
  have := h n hn
  unfold from_ at this
  cases hl : n.link with
  | none => rw [hl] at e; cases e
  | vertical => rw [hl] at e; cases e
  | edge q =>
    rw [hl] at e this
    injection e with e
    rw [← e]
    exact this

theorem edges_alone (i : Item) : edges (alone 0 none i) = [] := by
  unfold edges
  rw [List.filterMap_eq_nil_iff]
  intro n hn
  obtain ⟨k, hk, rfl⟩ := List.mem_mapIdx.1 hn
  by_cases h : 0 < k
  · simp [h]
  · simp [h]

theorem any_none_drop (m : ℕ) (E : List (Option ℕ)) (h : ∀ p ∈ E, p ≠ none) :
    ((List.replicate m none ++ E).drop 1).any (fun p => p.isNone) = true ↔ 2 ≤ m := by
  have hE : ∀ F : List (Option ℕ), (∀ p ∈ F, p ∈ E) → F.any (fun p => p.isNone) = false := by
    intro F hF
    rw [List.any_eq_false]
    intro p hp
    have := h p (hF p hp)
    cases p with
    | none => exact absurd rfl this
    | some k => simp
  match m with
  | 0 =>
    rw [List.replicate_zero, List.nil_append, hE _ (fun p hp => List.mem_of_mem_drop hp)]
    simp
  | 1 =>
    have : (List.replicate 1 (none : Option ℕ) ++ E).drop 1 = E := rfl
    rw [this, hE E (fun p hp => hp)]
    simp
  | m + 2 =>
    have : (List.replicate (m + 2) (none : Option ℕ) ++ E).drop 1 = none :: (List.replicate m none ++ E) := rfl
    rw [this, List.any_cons]
    simp

theorem edges_tops (gs : List (List Item)) : edges (gs.map (node 0 none)) = List.replicate gs.length none := by
  induction gs with
  | nil => rfl
  | cons g gs ih =>
    rw [List.map_cons, List.length_cons, List.replicate_succ, ← ih]
    rfl

/-- C160 is violated by binaries that begin with different pictures, for instance a binary and a star born single: then no tree is drawn at all. Otherwise it is. -/
theorem C160_paint_violated (cols : List Col) (h : Distinct cols) (hne : ∀ c ∈ cols, c.pics ≠ []) :
    paint (nodes cols) = .error .type ↔ ∃ c ∈ cols, ∃ d ∈ cols, c.pics.head? ≠ d.pics.head? := by
  have hr := place_ready h
  have hne' : ∀ i ∈ place 0 (sorted cols), i.rest ≠ [] := by
    intro i hi
    obtain ⟨_, c, hc, _, e⟩ := place_mem hi
    rw [e]
    exact hne c ((sorted_perm cols).subset hc)
  have hcols : (∃ c ∈ cols, ∃ d ∈ cols, c.pics.head? ≠ d.pics.head?) ↔
      ∃ i ∈ place 0 (sorted cols), ∃ j ∈ place 0 (sorted cols), i.rest.head? ≠ j.rest.head? := by
    constructor
    · rintro ⟨c, hc, d, hd, hcd⟩
      obtain ⟨i, hi, _, e⟩ := mem_place ((sorted_perm cols).symm.subset hc) 0
      obtain ⟨j, hj, _, e'⟩ := mem_place ((sorted_perm cols).symm.subset hd) 0
      exact ⟨i, hi, j, hj, by rw [e, e']; exact hcd⟩
    · rintro ⟨i, hi, j, hj, hij⟩
      obtain ⟨_, c, hc, _, e⟩ := place_mem hi
      obtain ⟨_, d, hd, _, e'⟩ := place_mem hj
      exact ⟨c, (sorted_perm cols).subset hc, d, (sorted_perm cols).subset hd, by rw [← e, ← e']; exact hij⟩
  rw [hcols]
  unfold nodes
  dsimp only
  generalize place 0 (sorted cols) = r at hr hne'
  have hpaint : ∀ ns, paint ns = .error .type ↔ ((edges ns).drop 1).any (fun p => p.isNone) = true := by
    intro ns
    unfold paint
    by_cases hc : ((edges ns).drop 1).any (fun p => p.isNone) = true
    · simp [hc]
    · simp [hc]
  rw [hpaint]
  match r, hr, hne' with
  | [], _, _ => simp [build_nil, edges]
  | [i], _, _ =>
    have hs : build (size [i]) [i] 0 none = alone 0 none i := by
      have : size [i] = (i.rest.length) + 1 := by simp [size]
      rw [this]
      rfl
    rw [hs, edges_alone]
    simp
  | a :: b :: r, hr, hne' =>
    obtain ⟨n, hn⟩ : ∃ n, size (a :: b :: r) = n + 1 := by
      refine ⟨size (a :: b :: r) - 1, ?_⟩
      simp only [size, List.map_cons, List.sum_cons]
      omega
    have hall : (a :: b :: r).all (fun i => decide (i.rest ≠ [])) = true := by
      rw [List.all_eq_true]
      intro i hi
      simpa using hne' i hi
    rw [hn, build, if_pos hall]
    · obtain ⟨qs, k1, k2, k3⟩ := groups hr hne'
      have hE : edges (((a :: b :: r).splitBy joined).map (node 0 none) ++
          ((a :: b :: r).splitBy joined).flatMap fun g => build n (below g) (0 + 1) (some (mid (first g) (last g)))) =
          List.replicate qs.length none ++ edges (((a :: b :: r).splitBy joined).flatMap fun g => build n (below g) (0 + 1) (some (mid (first g) (last g)))) := by
        unfold edges
        rw [List.filterMap_append, k2.length_eq]
        congr 1
        exact edges_tops _
      rw [hE, any_none_drop]
      · constructor
        · intro h2
          match qs, k1, k3, h2 with
          | p :: q :: qs', k1, k3, _ =>
            obtain ⟨i, hi, e⟩ := (k3 p).1 (by simp)
            obtain ⟨j, hj, e'⟩ := (k3 q).1 (by simp)
            refine ⟨i, hi, j, hj, ?_⟩
            rw [e, e']
            intro he
            have := (List.nodup_cons.1 k1).1
            rw [Option.some.inj he] at this
            simp at this
        · rintro ⟨i, hi, j, hj, hij⟩
          cases ei : i.rest with
          | nil => exact absurd ei (hne' i hi)
          | cons p ps =>
            cases ej : j.rest with
            | nil => exact absurd ej (hne' j hj)
            | cons q ps' =>
              have hp : p ∈ qs := (k3 p).2 ⟨i, hi, by rw [ei]; rfl⟩
              have hq : q ∈ qs := (k3 q).2 ⟨j, hj, by rw [ej]; rfl⟩
              have hpq : p ≠ q := by
                rintro rfl
                rw [ei, ej] at hij
                exact hij rfl
              match qs, hp, hq with
              | [x], hp, hq =>
                simp only [List.mem_singleton] at hp hq
                exact absurd (hp.trans hq.symm) hpq
              | _ :: _ :: _, _, _ => simp
      · apply edges_some
        intro m hm
        obtain ⟨g, hg, hm⟩ := List.mem_flatMap.1 hm
        obtain ⟨p, G⟩ := forall2_right k2 g hg
        refine tree_some (r := below g) (line := 0 + 1) (k := mid (first g) (last g)) (build_tree n (below g) (0 + 1) _ ?_ (ready_below hr G) (fun h => by omega)) m hm
        have h1 := size_below (g := g) (fun i hi => hne' i (G.sub.subset hi))
        have h2 := List.length_pos_of_ne_nil G.ne
        have h3 := size_sublist G.sub
        omega
    · intro h; cases h
    · intro i h; cases h

/-! ### Names -/

/-- A picture whose file names have their only dot in the ending, or a text without a dot. -/
def Clean : Pic → Prop
  | .draw (.event f) => ∃ x, '.' ∉ x ∧ f = x ++ png
  | .draw (.stars l r) => (∃ x, '.' ∉ x ∧ l = x ++ png) ∧ ∃ y, '.' ∉ y ∧ r = y ++ png
  | .text t => '.' ∉ t

theorem dot_split {x x' s s' : Text} (hx : '.' ∉ x) (hx' : '.' ∉ x') (h : x ++ '.' :: s = x' ++ '.' :: s') : x = x' ∧ s = s' := by
  induction x generalizing x' with
  | nil =>
    cases x' with
    | nil => exact ⟨rfl, (List.cons.inj h).2⟩
    | cons c x' =>
      have := (List.cons.inj h).1
      exact absurd (by rw [this]; simp) hx'
  | cons c x ih =>
    cases x' with
    | nil =>
      have := (List.cons.inj h).1
      exact absurd (by rw [this]; simp) hx
    | cons c' x' =>
      obtain ⟨e1, e2⟩ := List.cons.inj h
      obtain ⟨k1, k2⟩ := ih (fun hm => hx (List.mem_cons_of_mem _ hm)) (fun hm => hx' (List.mem_cons_of_mem _ hm)) e2
      exact ⟨by rw [e1, k1], k2⟩

theorem png_split {x x' s s' : Text} (hx : '.' ∉ x) (hx' : '.' ∉ x') (h : x ++ png ++ s = x' ++ png ++ s') : x = x' ∧ s = s' := by
  have h' : x ++ '.' :: ('p' :: 'n' :: 'g' :: s) = x' ++ '.' :: ('p' :: 'n' :: 'g' :: s') := by
    simpa [png] using h
  obtain ⟨e1, e2⟩ := dot_split hx hx' h'
  exact ⟨e1, by simpa using e2⟩

/-- C160: clean pictures are told apart by the texts they are sorted by. -/
theorem C160_keys (p q : Pic) (hp : Clean p) (hq : Clean q) (h : key p = key q) : p = q := by
  have nodot : ∀ x y t : Text, '.' ∉ t → x ++ png ++ y ≠ t := by
    intro x y t ht he
    apply ht
    rw [← he]
    simp [png]
  rcases p with (f | ⟨l, r⟩) | t <;> rcases q with (f' | ⟨l', r'⟩) | t' <;> simp only [Clean, key] at hp hq h
  · rw [h]
  · obtain ⟨x, hx, rfl⟩ := hp
    obtain ⟨⟨y, hy, rfl⟩, z, hz, rfl⟩ := hq
    have h' : x ++ png ++ [] = y ++ png ++ (z ++ png) := by simpa using h
    have := (png_split hx hy h').2
    simp [png] at this
  · obtain ⟨x, hx, rfl⟩ := hp
    exact absurd (by simpa using h) (nodot x [] t' hq)
  · obtain ⟨x, hx, rfl⟩ := hq
    obtain ⟨⟨y, hy, rfl⟩, z, hz, rfl⟩ := hp
    have h' : x ++ png ++ [] = y ++ png ++ (z ++ png) := by simpa using h.symm
    have := (png_split hx hy h').2
    simp [png] at this
  · obtain ⟨⟨y, hy, rfl⟩, z, hz, rfl⟩ := hp
    obtain ⟨⟨y', hy', rfl⟩, z', hz', rfl⟩ := hq
    obtain ⟨e1, e2⟩ := png_split hy hy' h
    obtain ⟨e3, _⟩ := png_split (s := []) (s' := []) hz hz' (by simpa using e2)
    rw [e1, e3]
  · obtain ⟨⟨y, hy, rfl⟩, z, hz, rfl⟩ := hp
    exact absurd h (nodot y _ t' hq)
  · obtain ⟨x, hx, rfl⟩ := hq
    exact absurd (by simpa using h.symm) (nodot x [] t hp)
  · obtain ⟨⟨y, hy, rfl⟩, z, hz, rfl⟩ := hq
    exact absurd h.symm (nodot y _ t hp)
  · rw [h]

/-- A row whose names have no dot, as all names of states and events. -/
def CleanRow (r : Row) : Prop := '.' ∉ r.s1 ∧ '.' ∉ r.s2 ∧ '.' ∉ label r

theorem starFile_clean (s : Text) (h : '.' ∉ s) : ∃ x, '.' ∉ x ∧ ∀ suffix, starFile s suffix = x ++ suffix := by
  unfold starFile
  by_cases hc : s.count '_' < 2
  · exact ⟨s, h, fun suffix => by rw [if_pos hc]⟩
  · refine ⟨s.takeWhile (· ≠ '_') ++ ['_'], ?_, fun suffix => by rw [if_neg hc]; simp⟩
    intro hm
    rcases List.mem_append.1 hm with hm | hm
    · exact h ((List.takeWhile_prefix _).subset hm)
    · simp at hm

theorem eventFile_clean (l e r : Text) (hl : '.' ∉ l) (he : '.' ∉ e) (hr : '.' ∉ r) : ∃ x, '.' ∉ x ∧ eventFile l e r png = x ++ png := by
  obtain ⟨x, hx, ex⟩ := starFile_clean l hl
  obtain ⟨y, hy, ey⟩ := starFile_clean r hr
  unfold eventFile
  rw [ex, ey]
  refine ⟨(if (x ++ []).getLast? = some '_' then x ++ [] else x ++ [] ++ ['_']) ++ e ++ '_' :: (y ++ []), ?_, rfl⟩
  intro hm
  simp only [List.append_nil] at hm
  split_ifs at hm
  · simp [hx, hy, he] at hm
  · simp [hx, hy, he] at hm

/-- C160: the columns of histories with such names, as `_diagram_presentation_h` makes them, have distinct pictures and at least one line: all theorems above apply. -/
theorem C160_histories (exist : Text → Bool) (cols : List Col)
    (h : ∀ c ∈ cols, ∃ rows, (∀ r ∈ rows, CleanRow r) ∧ column exist c.index c.w rows = .ok c) : Distinct cols ∧ ∀ c ∈ cols, c.pics ≠ [] := by
  have key : ∀ c ∈ cols, (∀ p ∈ c.pics, Clean p) ∧ c.pics ≠ [] := by
    intro c hc
    obtain ⟨rows, hrows, hcol⟩ := h c hc
    unfold column at hcol
    cases hd : diagram rows with
    | error e => rw [hd] at hcol; cases hcol
    | ok out =>
      obtain ⟨ls, t⟩ := out
      rw [hd] at hcol
      injection hcol with hcol
      have hpics : c.pics = ls.map (fun l => Pic.draw (picture exist l.1)) ++ (t.map Pic.text).toList := by rw [← hcol]
      obtain ⟨e1, e2⟩ := (C159_diagram rows).2 _ hd
      dsimp only at e1 e2
      refine ⟨?_, ?_⟩
      · intro p hp
        rw [hpics] at hp
        rcases List.mem_append.1 hp with hp | hp
        · obtain ⟨l, hl, rfl⟩ := List.mem_map.1 hp
          have hl1 : l.1 ∈ simplified rows := by rw [← e1]; exact List.mem_map_of_mem hl
          obtain ⟨hb, ha⟩ := (C159_rows_shown rows).2.1 l.1 hl1
          have cb := hrows _ hb
          have clean_ev : ∃ x, '.' ∉ x ∧ lineFile l.1 = x ++ png := eventFile_clean _ _ _ cb.1 cb.2.2 cb.2.1
          unfold picture
          split_ifs
          · exact clean_ev
          · exact clean_ev
          · have hs : '.' ∉ ((l.1.after.map (·.s1)).getD l.1.before.s1) ∧ '.' ∉ ((l.1.after.map (·.s2)).getD l.1.before.s2) := by
              cases hla : l.1.after with
              | none => exact ⟨cb.1, cb.2.1⟩
              | some r =>
                have := hrows r (ha r hla)
                exact ⟨this.1, this.2.1⟩
            obtain ⟨x, hx, ex⟩ := starFile_clean _ hs.1
            obtain ⟨y, hy, ey⟩ := starFile_clean _ hs.2
            exact ⟨⟨x, hx, ex png⟩, y, hy, ey png⟩
        · cases ht : t with
          | none => rw [ht] at hp; simp at hp
          | some t' =>
            rw [ht] at hp
            simp only [Option.map_some, Option.toList_some, List.mem_singleton] at hp
            subst hp
            rcases ((e2 t').1 ht).1 with rfl | rfl
            · show '.' ∉ _
              decide
            · show '.' ∉ _
              decide
      · rw [hpics]
        intro hnil
        have hl0 : ls = [] := by
          cases ls with
          | nil => rfl
          | cons a as => simp at hnil
        have hs : simplified rows = [] := by rw [← e1, hl0]; rfl
        unfold diagram at hd
        rw [hs] at hd
        cases hd
  refine ⟨?_, fun c hc => (key c hc).2⟩
  intro c hc p hp d hd q hq hk
  exact C160_keys p q ((key c hc).1 p hp) ((key d hd).1 q hq) hk

/-! ### A case -/

def exHH : Pic := .draw (.stars (chars! "H-rich_.png") (chars! "H-rich_.png"))
def exRL : Pic := .draw (.event (chars! "H-rich_oRLO1_H-rich_.png"))
def exBH : Pic := .draw (.stars (chars! "BH.png") (chars! "H-rich_.png"))
def exMS : Pic := .draw (.stars (chars! "H-rich_.png") (chars! "massless_remnant.png"))

/-- Four binaries: one stays as it is, one becomes a black hole with companion, two have mass transfer, and one of these merges. -/
def exCols : List Col := [⟨8, 10, [exHH]⟩, ⟨9, 30, [exHH, exBH]⟩, ⟨10, 20, [exHH, exRL, exBH]⟩, ⟨7, 40, [exHH, exRL, .text (chars! "merged")]⟩]

theorem exCols_sorted : sorted exCols = exCols := by
  unfold sorted
  exact List.mergeSort_of_pairwise (by decide +kernel)

/-- The tree of the example (line, column, columns covered, frequency, column the connection comes from). -/
example : nodes exCols =
    [⟨0, 1, 0, 3, exHH, 100, .edge none⟩, ⟨1, 1, 1, 1, exBH, 30, .edge (some 1)⟩, ⟨1, 2, 2, 3, exRL, 60, .edge (some 1)⟩,
     ⟨2, 2, 2, 2, exBH, 20, .edge (some 2)⟩, ⟨2, 3, 3, 3, .text (chars! "merged"), 40, .edge (some 2)⟩] := by
  unfold nodes
  rw [exCols_sorted]
  decide +kernel

theorem exCols_distinct : Distinct exCols := by
  unfold Distinct
  decide +kernel

/-- The example meets the hypotheses of the theorems, and can be drawn. -/
example : (∀ c ∈ exCols, c.pics ≠ []) ∧ paint (nodes exCols) = .ok () := by
  refine ⟨by decide +kernel, ?_⟩
  unfold nodes
  rw [exCols_sorted]
  rfl

/-- With a star born single as well, the tree cannot be drawn. -/
example : paint (nodes (⟨11, 5, [exMS]⟩ :: exCols)) = .error .type := by
  refine (C160_paint_violated _ ?_ (by decide +kernel)).2 ⟨⟨11, 5, [exMS]⟩, by simp, ⟨8, 10, [exHH]⟩, by simp [exCols], by decide +kernel⟩
  unfold Distinct
  decide +kernel

end Verif.VhTree
