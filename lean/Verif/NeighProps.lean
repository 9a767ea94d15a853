import Verif.Neigh
import Mathlib.Analysis.SpecialFunctions.ExpDeriv
import Mathlib.Topology.Order.IntermediateValue
import Mathlib.Data.List.Perm.Lattice

/-!
# Neighbours, test points and made-up data of the active learning: properties
-/

namespace Verif.Neigh

noncomputable section
open Classical

/-! ### Neighbours -/

theorem avgDist_ok (m : ℕ) (d : Dist) (search : Search) (n : ℕ) (r) (h : avgDist m d search n = .ok r) :
    n + 1 ≤ m ∧ r.length = m ∧ ∀ i < m, r[i]? = some (mean ((slice1 m (search (n + 1) i)).map (d i)), slice1 m (search (n + 1) i)) := by
  unfold avgDist at h
  by_cases h0 : m = 0
  · rw [if_pos h0] at h; cases h
  by_cases h1 : m < n + 1
  · rw [if_neg h0, if_pos h1] at h; cases h
  rw [if_neg h0, if_neg h1] at h
  cases h
  refine ⟨by omega, by simp, ?_⟩
  intro i hi
  simp [hi]

theorem slice1_eq (m n i : ℕ) (d : Dist) (search : Search) (hs : Nearest m d search) (hn : n + 1 ≤ m) (hi : i < m) :
    ∃ a r, search (n + 1) i = a :: r ∧ slice1 m (search (n + 1) i) = r ∧ r.length = n := by
  have hl := hs.length (n + 1) i hi hn
  cases hr : search (n + 1) i with
  | nil => rw [hr] at hl; cases hl
  | cons a r =>
    rw [hr] at hl
    refine ⟨a, r, rfl, ?_, by simpa using hl⟩
    unfold slice1
    rw [List.take_of_length_le (by rw [hl]; exact hn)]
    rfl

/-- Too many neighbours for the number of points are refused, and everything else is answered, with one entry for each point. -/
theorem C130_refused (m : ℕ) (d : Dist) (search : Search) (n : ℕ) :
    (m ≤ n → avgDist m d search n = .error .value) ∧ (n < m → ∃ r, avgDist m d search n = .ok r ∧ r.length = m) := by
  unfold avgDist
  constructor
  · intro h
    by_cases h0 : m = 0
    · rw [if_pos h0]
    · rw [if_neg h0, if_pos (by omega)]
  · intro h
    rw [if_neg (by omega), if_neg (by omega)]
    exact ⟨_, rfl, by simp⟩

/-- For different points, the neighbours of a point are other points, as many as asked for, each once, and no other point is nearer. -/
theorem C130_neighbours_partial (m : ℕ) (d : Dist) (search : Search) (hd : IsDist d) (hs : Nearest m d search) (hdiff : ∀ i j, i ≠ j → 0 < d i j) (n : ℕ) (r)
    (h : avgDist m d search n = .ok r) (i : ℕ) (hi : i < m) (v) (hv : r[i]? = some v) :
    v.2.length = n ∧ v.2.Nodup ∧ (∀ j ∈ v.2, j < m ∧ j ≠ i) ∧ ∀ j < m, j ≠ i → j ∉ v.2 → ∀ a ∈ v.2, d i a ≤ d i j := by
  obtain ⟨hn, _, hr⟩ := avgDist_ok m d search n r h
  rw [hr i hi] at hv
  obtain rfl := (Option.some.inj hv).symm
  obtain ⟨a, l, h1, h2, h3⟩ := slice1_eq m n i d search hs hn hi
  have hnod := hs.nodup (n + 1) i hi hn
  have hin := hs.inside (n + 1) i hi hn
  have hsort := hs.sorted (n + 1) i hi hn
  have hnear := hs.nearest (n + 1) i hi hn
  rw [h1] at hnod hin hsort hnear
  have ha : a = i := by
    by_contra hne
    have hpos := hdiff i a (fun e => hne e.symm)
    by_cases hmem : i ∈ a :: l
    · rcases List.mem_cons.mp hmem with e | e
      · exact hne e.symm
      · have := List.rel_of_pairwise_cons hsort e
        rw [hd.self] at this
        linarith
    · have := hnear i hi hmem a List.mem_cons_self
      rw [hd.self] at this
      linarith
  subst ha
  dsimp only
  rw [h2]
  refine ⟨h3, (List.nodup_cons.mp hnod).2, ?_, ?_⟩
  · intro j hj
    refine ⟨hin j (List.mem_cons_of_mem _ hj), ?_⟩
    rintro rfl
    exact (List.nodup_cons.mp hnod).1 hj
  · intro j hj hne hout b hb
    exact hnear j hj (by simp [hne, hout]) b (List.mem_cons_of_mem _ hb)

theorem sort_prefix (m : ℕ) (f : ℕ → ℝ) (l : List ℕ) (hn : l.Nodup) (hin : ∀ j ∈ l, j < m) (hsort : l.Pairwise fun a b => f a ≤ f b)
    (hnear : ∀ j < m, j ∉ l → ∀ a ∈ l, f a ≤ f j) :
    (((List.range m).map f).insertionSort (· ≤ ·)).take l.length = l.map f := by
  have hp : (l ++ (List.range m).filter fun j => decide (j ∉ l)).Perm (List.range m) := by
    rw [List.perm_ext_iff_of_nodup]
    · intro j
      simp only [List.mem_append, List.mem_filter, List.mem_range, decide_eq_true_eq]
      constructor
      · rintro (h | h)
        · exact hin j h
        · exact h.1
      · intro h
        by_cases hj : j ∈ l
        · exact .inl hj
        · exact .inr ⟨h, hj⟩
    · rw [List.nodup_append]
      refine ⟨hn, List.nodup_range.filter _, ?_⟩
      intro a ha b hb e
      subst e
      simp only [List.mem_filter, decide_eq_true_eq] at hb
      exact hb.2 ha
    · exact List.nodup_range
  have e : ((List.range m).map f).insertionSort (· ≤ ·) =
      l.map f ++ (((List.range m).filter fun j => decide (j ∉ l)).map f).insertionSort (· ≤ ·) := by
    refine List.Perm.eq_of_pairwise (le := (· ≤ ·)) (fun a b _ _ h1 h2 => le_antisymm h1 h2) (List.pairwise_insertionSort _ _) ?_ ?_
    · rw [List.pairwise_append]
      refine ⟨List.pairwise_map.mpr hsort, List.pairwise_insertionSort _ _, ?_⟩
      intro a ha b hb
      rw [List.mem_insertionSort] at hb
      obtain ⟨x, hx, rfl⟩ := List.mem_map.mp ha
      obtain ⟨y, hy, rfl⟩ := List.mem_map.mp hb
      simp only [List.mem_filter, List.mem_range, decide_eq_true_eq] at hy
      exact hnear y hy.1 hy.2 x hx
    · refine (List.perm_insertionSort _ _).trans ?_
      refine (hp.symm.map f).trans ?_
      rw [List.map_append]
      exact List.Perm.append_left _ (List.perm_insertionSort _ _).symm
  rw [e, List.take_append_of_le_length (by simp), List.take_of_length_le (by simp)]

theorem sort_others (m : ℕ) (d : Dist) (hd : IsDist d) (i : ℕ) (hi : i < m) :
    ((List.range m).map (d i)).insertionSort (· ≤ ·) = 0 :: others m d i := by
  refine List.Perm.eq_of_pairwise (le := (· ≤ ·)) (fun a b _ _ h1 h2 => le_antisymm h1 h2) (List.pairwise_insertionSort _ _) ?_ ?_
  · refine List.pairwise_cons.mpr ⟨?_, List.pairwise_insertionSort _ _⟩
    intro b hb
    unfold others at hb
    rw [List.mem_insertionSort] at hb
    obtain ⟨j, _, rfl⟩ := List.mem_map.mp hb
    exact hd.nonneg i j
  · refine (List.perm_insertionSort _ _).trans ?_
    have hp : (List.range m).Perm (i :: (List.range m).filter fun j => decide (j ≠ i)) := by
      rw [List.perm_ext_iff_of_nodup List.nodup_range]
      · intro j
        simp only [List.mem_cons, List.mem_filter, List.mem_range, decide_eq_true_eq]
        by_cases hj : j = i
        · subst hj; simp [hi]
        · simp [hj]
      · refine List.nodup_cons.mpr ⟨?_, List.nodup_range.filter _⟩
        simp
    refine (hp.map (d i)).trans ?_
    rw [List.map_cons, hd.self]
    exact List.Perm.cons _ (List.perm_insertionSort _ _).symm

/-- The average distance of a point is the mean of the smallest distances to the other points, even if points coincide. -/
theorem C130_average (m : ℕ) (d : Dist) (search : Search) (hd : IsDist d) (hs : Nearest m d search) (n : ℕ) (r) (h : avgDist m d search n = .ok r) (i : ℕ)
    (hi : i < m) (v) (hv : r[i]? = some v) : v.1 = if n = 0 then none else some (((others m d i).take n).sum / n) := by
  obtain ⟨hn, _, hr⟩ := avgDist_ok m d search n r h
  rw [hr i hi] at hv
  obtain rfl := (Option.some.inj hv).symm
  obtain ⟨a, l, h1, h2, h3⟩ := slice1_eq m n i d search hs hn hi
  have key := sort_prefix m (d i) (search (n + 1) i) (hs.nodup _ i hi hn) (hs.inside _ i hi hn) (hs.sorted _ i hi hn) (hs.nearest _ i hi hn)
  rw [sort_others m d hd i hi, hs.length _ i hi hn, h1, List.take_succ_cons, List.map_cons] at key
  have hl : (others m d i).take n = l.map (d i) := (List.cons.inj key).2
  dsimp only
  rw [h2, hl]
  unfold mean
  by_cases h0 : n = 0
  · rw [if_pos h0, if_pos]
    apply List.eq_nil_of_length_eq_zero
    rw [List.length_map, h3, h0]
  · rw [if_neg h0, if_neg, List.length_map, h3]
    intro he
    apply h0
    rw [← h3, ← List.length_map (f := d i), he]
    rfl

/-- Three points of which the first two coincide. -/
def coincide : Dist := fun i j => if i = j then 0 else if i = 2 ∨ j = 2 then 1 else 0

/-- A search among them that gives the other of the two first. -/
def otherFirst : Search := fun k i => (if i = 0 then [1, 0, 2] else if i = 1 then [0, 1, 2] else [2, 0, 1]).take k

theorem otherFirst_nearest : Nearest 3 coincide otherFirst where
  length := by
    intro k i hi hk
    unfold otherFirst
    rw [List.length_take]
    split
    · simp; omega
    · split <;> (simp; omega)
  nodup := by
    intro k i hi hk
    apply List.Nodup.sublist (List.take_sublist _ _)
    split
    · decide
    · split <;> decide
  inside := by
    intro k i hi hk j hj
    have := List.mem_of_mem_take hj
    split at this
    · simp at this; omega
    · split at this <;> (simp at this; omega)
  sorted := by
    intro k i hi hk
    apply List.Pairwise.sublist (List.take_sublist _ _)
    have : i = 0 ∨ i = 1 ∨ i = 2 := by omega
    rcases this with rfl | rfl | rfl <;> simp [coincide]
  nearest := by
    intro k i hi hk j hj hout a ha
    have h1 : i = 0 ∨ i = 1 ∨ i = 2 := by omega
    have h2 : j = 0 ∨ j = 1 ∨ j = 2 := by omega
    have h3 : k = 0 ∨ k = 1 ∨ k = 2 ∨ k = 3 := by omega
    rcases h1 with rfl | rfl | rfl <;> rcases h2 with rfl | rfl | rfl <;> rcases h3 with rfl | rfl | rfl | rfl <;>
      simp [otherFirst] at hout ha <;> (try rcases ha with rfl | rfl) <;> (try subst ha) <;> simp [coincide]

/-- If two points coincide, a point can be its own neighbour. -/
theorem C130_self_violated :
    IsDist coincide ∧ Nearest 3 coincide otherFirst ∧ ∃ r v, avgDist 3 coincide otherFirst 1 = .ok r ∧ r[0]? = some v ∧ v.2 = [0] := by
  refine ⟨⟨by simp [coincide], ?_⟩, otherFirst_nearest, ?_⟩
  · intro i j
    unfold coincide
    split
    · exact le_rfl
    · split <;> norm_num
  · obtain ⟨r, hr, _⟩ := (C130_refused 3 coincide otherFirst 1).2 (by norm_num)
    obtain ⟨_, _, h⟩ := avgDist_ok _ _ _ _ r hr
    exact ⟨r, _, hr, h 0 (by norm_num), rfl⟩

/-- The points 0, 1, …, m - 1 on a line: they are all different. -/
example : ∃ d : Dist, IsDist d ∧ (∀ i j, i ≠ j → 0 < d i j) ∧ others 4 d 1 = [1, 1, 2] := by
  refine ⟨fun i j => |(i : ℝ) - j|, ⟨by simp, fun i j => abs_nonneg _⟩, ?_, ?_⟩
  · intro i j h
    apply abs_pos.mpr
    intro e
    apply h
    have : (i : ℝ) = j := by linarith
    exact_mod_cast this
  · have e : (((List.range 4).filter fun j => decide (j ≠ 1)).map fun j : ℕ => |((1 : ℕ) : ℝ) - j|) = [1, 1, 2] := by
      have : ((List.range 4).filter fun j => decide (j ≠ 1)) = [0, 2, 3] := by
        simp [List.range_succ, List.filter]
      rw [this]
      norm_num
    unfold others
    rw [e]
    apply List.Pairwise.insertionSort_eq
    norm_num

theorem put_lookup {B : Type} (k j : ℕ) (v : B) (l : List (ℕ × B)) : (put k v l).lookup j = if j = k then some v else l.lookup j := by
  induction l with
  | nil =>
    by_cases h : j = k
    · subst h; simp [put]
    · have : (j == k) = false := by simpa using h
      simp [put, List.lookup, this, h]
  | cons p r ih =>
    obtain ⟨a, w⟩ := p
    unfold put
    by_cases ha : a = k
    · subst ha
      rw [if_pos rfl]
      by_cases h : j = a
      · subst h; simp
      · have : (j == a) = false := by simpa using h
        simp [List.lookup, this, h]
    · rw [if_neg ha]
      by_cases h : j = a
      · subst h
        simp [ha]
      · have : (j == a) = false := by simpa using h
        simp only [List.lookup, this]
        exact ih

theorem neighbours_spec (p : Points) (ns : List ℕ) (acc r) (h : neighbours p ns acc = .ok r) (n : ℕ) :
    (n ∈ ns → ∃ v, avgDist p.m p.d p.search n = .ok v ∧ r.lookup n = some v) ∧ (n ∉ ns → r.lookup n = acc.lookup n) := by
  induction ns generalizing acc with
  | nil =>
    cases h
    exact ⟨fun h => absurd h List.not_mem_nil, fun _ => rfl⟩
  | cons k l ih =>
    rw [neighbours] at h
    cases hv : avgDist p.m p.d p.search k with
    | error e => rw [hv] at h; cases h
    | ok v =>
      rw [hv] at h
      have := ih _ h
      constructor
      · intro hm
        by_cases hl : n ∈ l
        · exact this.1 hl
        · have hk : n = k := by simpa [hl] using hm
          subst hk
          refine ⟨v, hv, ?_⟩
          rw [this.2 hl, put_lookup, if_pos rfl]
      · intro hm
        rw [List.mem_cons, not_or] at hm
        rw [this.2 hm.2, put_lookup, if_neg hm.1]

/-- Without a class the neighbours are those of the data given, for every number asked for and for no other. -/
theorem C130_find_partial (outputs : Name → Option (Option Points)) (p : Points) (g : Given) (hg : g = .table p ∨ g = .list p ∨ g = .array p) (ns : List ℕ) (r)
    (h : findNeighbours outputs g none ns = .ok r) (n : ℕ) :
    (n ∈ ns → ∃ v, avgDist p.m p.d p.search n = .ok v ∧ r.lookup n = some v) ∧ (n ∉ ns → r.lookup n = none) := by
  have e : neighbours p ns [] = .ok r := by
    rcases hg with rfl | rfl | rfl <;> exact h
  exact neighbours_spec p ns [] r e n

/-- It fails exactly if one of the numbers is too large. -/
theorem C130_find_refused (outputs : Name → Option (Option Points)) (p : Points) (g : Given) (hg : g = .table p ∨ g = .list p ∨ g = .array p) (ns : List ℕ) :
    (∃ r, findNeighbours outputs g none ns = .ok r) ↔ ∀ n ∈ ns, n < p.m := by
  have e : findNeighbours outputs g none ns = neighbours p ns [] := by
    rcases hg with rfl | rfl | rfl <;> rfl
  rw [e]
  clear e hg
  generalize ([] : List (ℕ × List (Option ℝ × List ℕ))) = acc
  induction ns generalizing acc with
  | nil => exact ⟨fun _ n hn => absurd hn List.not_mem_nil, fun _ => ⟨acc, rfl⟩⟩
  | cons k l ih =>
    rw [neighbours]
    by_cases hk : k < p.m
    · obtain ⟨v, hv, _⟩ := (C130_refused p.m p.d p.search k).2 hk
      rw [hv]
      dsimp only
      refine (ih _).trans ?_
      simp [hk]
    · rw [(C130_refused p.m p.d p.search k).1 (by omega)]
      constructor
      · rintro ⟨r, hr⟩; cases hr
      · intro h; exact absurd (h k List.mem_cons_self) hk

/-- With a class, the data given do not matter at all: neighbours are searched among the outputs of the class, and a class without outputs is an error. -/
theorem C130_class_violated (outputs : Name → Option (Option Points)) (g g' : Given) (c : Name) (ns : List ℕ) :
    findNeighbours outputs g (some c) ns = findNeighbours outputs g' (some c) ns ∧
      (outputs c = some none → findNeighbours outputs g (some c) ns = .error .value) ∧
      ∀ p, outputs c = some (some p) → findNeighbours outputs g (some c) ns = findNeighbours outputs (.table p) none ns := by
  refine ⟨rfl, ?_, ?_⟩
  · intro h; unfold findNeighbours; dsimp only; rw [h]
  · intro p h; unfold findNeighbours; dsimp only; rw [h]

/-! ### Stored data -/

/-- An attribute is found by its name, or by its name without underscores. -/
theorem C130_attribute {V : Type} (attrs : Name → Option V) (name : Name) :
    (∀ v, attrs name = some v → returnData attrs name = some v) ∧ (attrs name = none → returnData attrs name = attrs ('_' :: name ++ ['_'])) := by
  unfold returnData
  constructor
  · intro v h; rw [h]
  · intro h; rw [h]

theorem entries_spec (keys : List Name) (l : List Name) (r) (h : entries keys l = .ok r) : List.Forall₂ (fun s a => entry keys s = .ok a) l r := by
  induction l generalizing r with
  | nil => cases h; exact .nil
  | cons s l ih =>
    rw [entries] at h
    cases ha : entry keys s with
    | error e => rw [ha] at h; cases h
    | ok a =>
      rw [ha] at h
      dsimp only at h
      cases hl : entries keys l with
      | error e => rw [hl] at h; cases h
      | ok b =>
        rw [hl] at h
        cases h
        exact .cons ha (ih b hl)

/-- Tables are found by their names in any case, one by one or in a list in its order; unknown names are an error. -/
theorem C130_named (keys : List Name) (hf : (chars! "full") ∉ keys) :
    (∀ s, lower s ∈ keys → getNamed keys (.str s) = .ok [[lower s]]) ∧ (∀ s, lower s = (chars! "full") → getNamed keys (.str s) = .ok [keys]) ∧
      (∀ s, lower s ∉ keys → lower s ≠ (chars! "full") → getNamed keys (.str s) = .error .key) ∧
      (∀ l, (∀ s ∈ l, lower s ∈ keys) → getNamed keys (.list l) = .ok (l.map fun s => [lower s])) ∧
      ∀ l, (∃ s ∈ l, lower s ∉ keys ∧ lower s ≠ (chars! "full")) → getNamed keys (.list l) = .error .key := by
  have e1 : ∀ s, lower s ∈ keys → entry keys s = .ok [lower s] := by
    intro s hs
    unfold entry
    rw [if_neg (fun e : lower s = (chars! "full") => hf (e ▸ hs)), if_pos hs]
  have e3 : ∀ s, lower s ∉ keys → lower s ≠ (chars! "full") → entry keys s = .error .key := by
    intro s h1 h2
    unfold entry
    rw [if_neg h2, if_neg h1]
  refine ⟨?_, ?_, ?_, ?_, ?_⟩
  · intro s hs
    unfold getNamed
    dsimp only
    rw [e1 s hs]
  · intro s hs
    unfold getNamed entry
    dsimp only
    rw [if_pos hs]
  · intro s h1 h2
    unfold getNamed
    dsimp only
    rw [e3 s h1 h2]
  · intro l hl
    change entries keys l = _
    induction l with
    | nil => rfl
    | cons s l ih =>
      rw [entries, e1 s (hl s List.mem_cons_self), ih fun t ht => hl t (List.mem_cons_of_mem _ ht)]
      rfl
  · intro l hl
    change entries keys l = _
    induction l with
    | nil => obtain ⟨s, hs, _⟩ := hl; cases hs
    | cons s l ih =>
      rw [entries]
      by_cases hs : lower s ∉ keys ∧ lower s ≠ (chars! "full")
      · rw [e3 s hs.1 hs.2]
      · have hl' : ∃ s ∈ l, lower s ∉ keys ∧ lower s ≠ (chars! "full") := by
          obtain ⟨t, ht, h1⟩ := hl
          rcases List.mem_cons.mp ht with rfl | ht
          · exact absurd h1 hs
          · exact ⟨t, ht, h1⟩
        rw [ih hl']
        by_cases h2 : lower s = (chars! "full")
        · unfold entry; rw [if_pos h2]
        · have h1 : lower s ∈ keys := by
            by_contra h1
            exact hs ⟨h1, h2⟩
          rw [e1 s h1]

theorem full_not_key : (chars! "full") ∉ classKeys ∧ (chars! "full") ∉ regrKeys := by decide +kernel

example : lower (chars! "Binary_Data") ∈ classKeys ∧ lower (chars! "FULL") = (chars! "full") ∧ lower (chars! "outputs") ∉ regrKeys := by decide +kernel

/-! ### Test points -/

theorem foldl_max (l : List ℝ) (a : ℝ) : a ≤ l.foldl max a ∧ (∀ x ∈ l, x ≤ l.foldl max a) ∧ (l.foldl max a = a ∨ l.foldl max a ∈ l) := by
  induction l generalizing a with
  | nil => exact ⟨le_rfl, fun x hx => absurd hx List.not_mem_nil, .inl rfl⟩
  | cons b l ih =>
    obtain ⟨h1, h2, h3⟩ := ih (max a b)
    rw [List.foldl_cons]
    refine ⟨(le_max_left _ _).trans h1, ?_, ?_⟩
    · intro x hx
      rcases List.mem_cons.mp hx with rfl | hx
      · exact (le_max_right _ _).trans h1
      · exact h2 x hx
    · rcases h3 with h3 | h3
      · rcases max_choice a b with h | h
        · left; rw [h3, h]
        · right; rw [h3, h]; exact List.mem_cons_self
      · right; exact List.mem_cons_of_mem _ h3

theorem foldl_min (l : List ℝ) (a : ℝ) : l.foldl min a ≤ a ∧ (∀ x ∈ l, l.foldl min a ≤ x) ∧ (l.foldl min a = a ∨ l.foldl min a ∈ l) := by
  induction l generalizing a with
  | nil => exact ⟨le_rfl, fun x hx => absurd hx List.not_mem_nil, .inl rfl⟩
  | cons b l ih =>
    obtain ⟨h1, h2, h3⟩ := ih (min a b)
    rw [List.foldl_cons]
    refine ⟨h1.trans (min_le_left _ _), ?_, ?_⟩
    · intro x hx
      rcases List.mem_cons.mp hx with rfl | hx
      · exact h1.trans (min_le_right _ _)
      · exact h2 x hx
    · rcases h3 with h3 | h3
      · rcases min_choice a b with h | h
        · left; rw [h3, h]
        · right; rw [h3, h]; exact List.mem_cons_self
      · right; exact List.mem_cons_of_mem _ h3

theorem range_data (other : ℕ → Option (ℝ × ℝ)) (p : List ℝ) (ps : List (List ℝ)) (i : ℕ) (h : other i = none) :
    ∃ a b, range other (p :: ps) i = some (a, b) ∧ (∃ q ∈ p :: ps, q.getD i 0 = a) ∧ (∃ q ∈ p :: ps, q.getD i 0 = b) ∧
      ∀ q ∈ p :: ps, a ≤ q.getD i 0 ∧ q.getD i 0 ≤ b := by
  unfold range
  rw [h]
  dsimp only [List.map_cons, minOf, maxOf]
  obtain ⟨a1, a2, a3⟩ := foldl_min (ps.map fun p => p.getD i 0) (p.getD i 0)
  obtain ⟨b1, b2, b3⟩ := foldl_max (ps.map fun p => p.getD i 0) (p.getD i 0)
  refine ⟨_, _, rfl, ?_, ?_, ?_⟩
  · rcases a3 with e | e
    · exact ⟨p, List.mem_cons_self, e.symm⟩
    · obtain ⟨q, hq, e⟩ := List.mem_map.mp e
      exact ⟨q, List.mem_cons_of_mem _ hq, e⟩
  · rcases b3 with e | e
    · exact ⟨p, List.mem_cons_self, e.symm⟩
    · obtain ⟨q, hq, e⟩ := List.mem_map.mp e
      exact ⟨q, List.mem_cons_of_mem _ hq, e⟩
  · intro q hq
    rcases List.mem_cons.mp hq with rfl | hq
    · exact ⟨a1, b1⟩
    · exact ⟨a2 _ (List.mem_map.mpr ⟨q, hq, rfl⟩), b2 _ (List.mem_map.mpr ⟨q, hq, rfl⟩)⟩

/-- There are as many test points as asked for, with as many coordinates as the data have; a coordinate is between those of two points of the data, or in
the range given for its axis. -/
theorem C130_inputs (other : ℕ → Option (ℝ × ℝ)) (data : List (List ℝ)) (n : ℕ) (u : ℕ → ℕ → ℝ) (hu : ∀ i k, 0 ≤ u i k ∧ u i k ≤ 1) (r)
    (h : testInputs other data n u = .ok r) :
    r.length = n ∧ ∀ t ∈ r, t.length = (data.headD []).length ∧ ∀ i x, t[i]? = some x →
      (other i = none → ∃ p ∈ data, ∃ q ∈ data, p.getD i 0 ≤ x ∧ x ≤ q.getD i 0) ∧
      ∀ a b, other i = some (a, b) → (a ≤ b → a ≤ x ∧ x ≤ b) ∧ (b ≤ a → b ≤ x ∧ x ≤ a) := by
  cases data with
  | nil => cases h
  | cons p ps =>
    unfold testInputs at h
    dsimp only at h
    by_cases hp : p = []
    · rw [if_pos hp] at h; cases h
    rw [if_neg hp] at h
    cases h
    refine ⟨by simp, ?_⟩
    intro t ht
    obtain ⟨k, _, rfl⟩ := List.mem_map.mp ht
    refine ⟨by simp, ?_⟩
    intro i x hx
    have hi : i < p.length := by
      by_contra hi
      rw [List.getElem?_eq_none (by simpa using hi)] at hx
      cases hx
    have e : x = draw ((range other (p :: ps) i).getD (0, 0)) (u i k) := by
      rw [List.getElem?_map, List.getElem?_range hi] at hx
      exact (Option.some.inj hx).symm
    obtain ⟨u0, u1⟩ := hu i k
    constructor
    · intro ho
      obtain ⟨a, b, hr, ⟨q1, h1, e1⟩, ⟨q2, h2, e2⟩, hall⟩ := range_data other p ps i ho
      have hab : a ≤ b := by
        have := hall q1 h1
        rw [e1] at this
        exact this.2
      rw [hr] at e
      simp only [Option.getD_some, draw] at e
      refine ⟨q1, h1, q2, h2, ?_, ?_⟩
      · rw [e1, e]; nlinarith
      · rw [e2, e]; nlinarith
    · intro a b ho
      have hr : range other (p :: ps) i = some (a, b) := by unfold range; rw [ho]
      rw [hr] at e
      simp only [Option.getD_some, draw] at e
      constructor
      · intro hab; constructor <;> (rw [e]; nlinarith)
      · intro hab; constructor <;> (rw [e]; nlinarith)

/-- Every point of the box of the data can be drawn. -/
theorem C130_box (data : List (List ℝ)) (p : List ℝ) (ps) (hdata : data = p :: ps) (hp : p ≠ []) (t : List ℝ) (ht : t.length = p.length)
    (hbox : ∀ i < p.length, ∃ a ∈ data, ∃ b ∈ data, a.getD i 0 ≤ t.getD i 0 ∧ t.getD i 0 ≤ b.getD i 0) :
    ∃ u : ℕ → ℕ → ℝ, (∀ i k, 0 ≤ u i k ∧ u i k ≤ 1) ∧ testInputs (fun _ => none) data 1 u = .ok [t] := by
  subst hdata
  have key : ∀ i, ∃ w : ℝ, 0 ≤ w ∧ w ≤ 1 ∧ (i < p.length → draw ((range (fun _ => none) (p :: ps) i).getD (0, 0)) w = t.getD i 0) := by
    intro i
    by_cases hi : i < p.length
    · obtain ⟨a, b, hr, _, _, hall⟩ := range_data (fun _ => none) p ps i rfl
      obtain ⟨q1, h1, q2, h2, h3, h4⟩ := hbox i hi
      have ha := (hall q1 h1).1.trans h3
      have hb := h4.trans (hall q2 h2).2
      rw [hr]
      simp only [Option.getD_some, draw]
      by_cases hab : a = b
      · exact ⟨0, le_rfl, zero_le_one, fun _ => by subst hab; linarith⟩
      · have hlt : a < b := lt_of_le_of_ne (ha.trans hb) hab
        have hpos : 0 < b - a := by linarith
        refine ⟨(t.getD i 0 - a) / (b - a), div_nonneg (by linarith) hpos.le, (div_le_one hpos).mpr (by linarith), fun _ => ?_⟩
        rw [mul_div_cancel₀ _ hpos.ne']
        ring
    · exact ⟨0, le_rfl, zero_le_one, fun h => absurd h hi⟩
  choose w h0 h1 h2 using key
  refine ⟨fun i _ => w i, fun i _ => ⟨h0 i, h1 i⟩, ?_⟩
  unfold testInputs
  dsimp only
  rw [if_neg hp]
  have : ((List.range p.length).map fun i => draw ((range (fun _ => none) (p :: ps) i).getD (0, 0)) (w i)) = t := by
    apply List.ext_getElem
    · simp [ht]
    · intro i hi1 hi2
      have hi : i < p.length := by simpa using hi1
      rw [List.getElem_map, List.getElem_range, h2 i hi, List.getD_eq_getElem?_getD, List.getElem?_eq_getElem hi2]
      rfl
  simp [List.range_succ, this]

/-! ### Made-up data -/

theorem toInt_small (x : ℝ) (h1 : -1 < x) (h2 : x < 1) : toInt x = 0 := by
  unfold toInt
  split
  · rename_i h
    exact Int.floor_eq_zero_iff.mpr ⟨h, h2⟩
  · rename_i h
    rw [Int.ceil_eq_iff]
    push Not at h
    constructor
    · simpa using h1
    · simpa using h.le

theorem toInt_int (n : ℤ) : toInt n = n := by
  unfold toInt
  split
  · exact Int.floor_intCast n
  · exact Int.ceil_intCast n

/-- Every point gets one of four classes: `A` for low values, `C` for high ones, `D` for others beyond the curve, and else `B`; the other columns are the point and
the value. -/
theorem C130_plane (x y : ℝ) :
    output2D x y = .ok (x, y, if regr x y < -(28 / 100) then 'A' else if 4 / 10 < regr x y then 'C' else if curve x y then 'D' else 'B', regr x y) := by
  have key : nameOf (toInt (clsCurve x y)) =
      .ok (if regr x y < -(28 / 100) then 'A' else if 4 / 10 < regr x y then 'C' else if curve x y then 'D' else 'B') := by
    unfold clsCurve
    dsimp only
    generalize regr x y = v
    by_cases hA : v < -(28 / 100)
    · rw [if_pos hA, if_pos hA]
      have : toInt (-1 : ℝ) = -1 := by
        have := toInt_int (-1)
        push_cast at this
        exact this
      rw [this]
      rfl
    rw [if_neg hA, if_neg hA]
    push Not at hA
    by_cases hC : 4 / 10 < v
    · rw [if_pos hC, if_pos hC]
      have : ¬(((1 : ℝ) < 4 / 10) = (-(28 / 100) < (1 : ℝ))) := by norm_num
      rw [if_neg this]
      have : toInt (1 : ℝ) = 1 := by
        have := toInt_int 1
        push_cast at this
        exact this
      rw [this]
      rfl
    rw [if_neg hC, if_neg hC]
    push Not at hC
    by_cases hD : curve x y
    · rw [if_pos hD, if_pos hD]
      have : ¬(((2 : ℝ) < 4 / 10) = (-(28 / 100) < (2 : ℝ))) := by norm_num
      rw [if_neg this]
      have : toInt (2 : ℝ) = 2 := by
        have := toInt_int 2
        push_cast at this
        exact this
      rw [this]
      rfl
    rw [if_neg hD, if_neg hD]
    have : toInt (if (v < 4 / 10) = (-(28 / 100) < v) then 0 else v) = 0 := by
      split
      · exact toInt_small 0 (by norm_num) (by norm_num)
      · exact toInt_small v (by linarith) (by linarith)
    rw [this]
    rfl
  unfold output2D
  rw [key]

theorem tanh_zero : tanh 0 = 0 := by
  unfold tanh
  simp

theorem tanh_neg (x : ℝ) : tanh (-x) = -tanh x := by
  unfold tanh
  rw [neg_neg, add_comm, ← neg_div, neg_sub]

/-- Bounds of `tanh` from those of the exponential function. -/
theorem tanh_gt (x c : ℝ) (h : (1 + c) < (1 - c) * (Real.exp x * Real.exp x)) : c < tanh x := by
  unfold tanh
  have h1 := Real.exp_pos x
  have h2 := Real.exp_pos (-x)
  have h3 : Real.exp x * Real.exp (-x) = 1 := by rw [← Real.exp_add, add_neg_cancel, Real.exp_zero]
  rw [lt_div_iff₀ (by linarith)]
  have := mul_lt_mul_of_pos_right h h2
  have e : (1 - c) * (Real.exp x * Real.exp x) * Real.exp (-x) = (1 - c) * Real.exp x := by
    rw [mul_assoc, mul_assoc, h3, mul_one]
  rw [e] at this
  linarith

theorem tanh_lt_one (x : ℝ) : tanh x < 1 := by
  unfold tanh
  have h1 := Real.exp_pos x
  have h2 := Real.exp_pos (-x)
  rw [div_lt_one (by linarith)]
  linarith

theorem exp_one_sq : 7.3 < Real.exp 1 * Real.exp 1 := by
  have := Real.exp_one_gt_d9
  nlinarith

theorem exp_two_sq : 50 < Real.exp 2 * Real.exp 2 := by
  have h : Real.exp 2 = Real.exp 1 * Real.exp 1 := by rw [← Real.exp_add]; norm_num
  have := exp_one_sq
  rw [h]
  nlinarith

theorem sqrt_two_lt : Real.sqrt 2 < 1.415 := by
  rw [Real.sqrt_lt' (by norm_num)]
  norm_num

theorem regr_high : 4 / 10 < regr 1 (-1) := by
  have h := tanh_gt 2 (926 / 1000) (by have := exp_two_sq; linarith)
  have e : regr 1 (-1) = tanh 2 / (Real.sqrt 2 + 9 / 10) := by
    unfold regr
    norm_num
  have hs := sqrt_two_lt
  have hp := Real.sqrt_nonneg 2
  rw [e, lt_div_iff₀ (by linarith)]
  linarith

theorem regr_origin : regr 0 0 = 0 := by
  unfold regr
  norm_num [tanh_zero]

/-- All four classes are there. -/
theorem C130_plane_classes : ∀ c ∈ ['A', 'B', 'C', 'D'], ∃ x y, ∃ v, output2D x y = .ok (x, y, c, v) := by
  have low : regr (-1) 0 < -(28 / 100) := by
    have e : regr (-1) 0 = -tanh 1 / (1 + 9 / 10) := by
      unfold regr
      rw [← tanh_neg]
      norm_num
    have h := tanh_gt 1 (7 / 10) (by have := exp_one_sq; linarith)
    rw [e, div_lt_iff₀ (by norm_num)]
    linarith
  have mid : regr 0 3 ≤ 4 / 10 ∧ 0 < regr 0 3 := by
    have e : regr 0 3 = tanh 9 / (3 + 9 / 10) := by
      unfold regr
      have : Real.sqrt ((0 / 1) ^ 2 + (3 / 1) ^ 2) = 3 := by
        rw [show ((0 : ℝ) / 1) ^ 2 + (3 / 1) ^ 2 = 3 ^ 2 by norm_num, Real.sqrt_sq (by norm_num)]
      rw [this]
      norm_num
    have h := tanh_lt_one 9
    have h0 := tanh_gt 9 0 (by
      have : 1 < Real.exp 9 := Real.one_lt_exp_iff.mpr (by norm_num)
      nlinarith)
    rw [e]
    constructor
    · rw [div_le_iff₀ (by norm_num)]; linarith
    · exact div_pos h0 (by norm_num)
  intro c hc
  simp only [List.mem_cons, List.not_mem_nil, or_false] at hc
  rcases hc with rfl | rfl | rfl | rfl
  · exact ⟨-1, 0, regr (-1) 0, by rw [C130_plane, if_pos low]⟩
  · refine ⟨0, 0, regr 0 0, ?_⟩
    rw [C130_plane, regr_origin, if_neg (by norm_num), if_neg (by norm_num), if_neg (by unfold curve; norm_num)]
  · refine ⟨1, -1, regr 1 (-1), ?_⟩
    rw [C130_plane, if_neg (by have := regr_high; linarith), if_pos regr_high]
  · refine ⟨0, 3, regr 0 3, ?_⟩
    rw [C130_plane, if_neg (by have := mid.2; linarith), if_neg (by have := mid.1; linarith), if_pos (by unfold curve; norm_num)]

theorem tanh_continuous : Continuous tanh := by
  unfold tanh
  apply Continuous.div
  · exact Real.continuous_exp.sub (Real.continuous_exp.comp continuous_neg)
  · exact Real.continuous_exp.add (Real.continuous_exp.comp continuous_neg)
  · intro x
    have := Real.exp_pos x
    have := Real.exp_pos (-x)
    linarith

/-- The raw classes are not always among those four numbers: on the line where the value is just the limit the value itself is given. -/
theorem C130_raw_violated : ∃ x y, clsCurve x y = 4 / 10 := by
  have hc : Continuous fun t : ℝ => regr t (-t) := by
    unfold regr
    apply Continuous.div
    · exact tanh_continuous.comp (by fun_prop)
    · fun_prop
    · intro t
      have := Real.sqrt_nonneg ((t / 1) ^ 2 + (-t / 1) ^ 2)
      linarith
  have h0 : regr 0 (-0) = 0 := by rw [neg_zero]; exact regr_origin
  have hmem : (4 / 10 : ℝ) ∈ Set.Icc (regr 0 (-0)) (regr 1 (-1)) := by
    rw [h0]
    exact ⟨by norm_num, regr_high.le⟩
  obtain ⟨t, ht, e⟩ := intermediate_value_Icc (zero_le_one : (0 : ℝ) ≤ 1) hc.continuousOn hmem
  refine ⟨t, -t, ?_⟩
  dsimp only at e
  have hcurve : ¬curve t (-t) := by
    unfold curve
    have h1 := ht.1
    have h2 := ht.2
    have : t ^ 3 ≤ t := by nlinarith [mul_nonneg h1 h1]
    linarith
  unfold clsCurve
  dsimp only
  rw [e, if_neg (by norm_num), if_neg hcurve, if_neg (by norm_num), if_neg (by norm_num)]

/-- The classes in space, by their priority. -/
theorem C130_space (x y z : ℝ) :
    cls3D x y z = if func5 x y z ≤ 3 / 10 then 2 else if 18 / 10 < func4 x y z then 4 else if 25 / 10 < func2 x y z then (if 1 < func1 x y z then 1 else 8)
      else if -(5 / 10) < func3 x y z then 3 else 6 := by
  unfold cls3D setIf
  dsimp only
  by_cases h5 : func5 x y z ≤ 3 / 10
  · rw [if_pos h5, if_pos (not_lt.mpr h5)]
  rw [if_neg h5, if_neg (fun h => h (not_le.mp h5))]
  by_cases h4 : 18 / 10 < func4 x y z
  · rw [if_pos h4, if_pos h4]
  rw [if_neg h4, if_neg h4]
  by_cases h2 : 25 / 10 < func2 x y z
  · by_cases h1 : 1 < func1 x y z
    · simp only [h1, h2, and_self, if_true]
    · simp only [h1, h2, false_and, if_true, if_false]
  · simp only [h2, and_false, if_false]

example : cls3D (1 / 2) (1 / 2) (17 / 20) = 2 ∧ cls3D (-1) 1 1 ≠ 6 := by
  constructor
  · rw [C130_space, if_pos (by unfold func5; norm_num)]
  · rw [C130_space]
    have h5 : ¬func5 (-1) 1 1 ≤ 3 / 10 := by unfold func5; norm_num
    have h4 : ¬18 / 10 < func4 (-1) 1 1 := by unfold func4; norm_num
    have h2 : 25 / 10 < func2 (-1) 1 1 := by unfold func2; norm_num
    rw [if_neg h5, if_neg h4, if_pos h2]
    split <;> norm_num

/-- C130: the regions of the classes in space. Class 2 is the inside of an ellipsoid with half axes 0.6, 0.2, 0.3 times √0.34, class 4 lies below the plane, and classes 1 and 8 are separated by the ellipsoid around (-1, 1, 0) with half axes 1.2, 2, 0.8 times √2. -/
theorem C130_regions (x y z : ℝ) :
    (cls3D x y z = 2 ↔ (x - 1 / 2) ^ 2 / (36 / 100) + (y - 1 / 2) ^ 2 / (4 / 100) + (z - 17 / 20) ^ 2 / (9 / 100) ≤ 34 / 100) ∧
    (cls3D x y z = 4 → z < 0) ∧
    (cls3D x y z = 1 → 2 < (x + 1) ^ 2 / (144 / 100) + (y - 1) ^ 2 / 4 + z ^ 2 / (64 / 100)) ∧
    (cls3D x y z = 8 → (x + 1) ^ 2 / (144 / 100) + (y - 1) ^ 2 / 4 + z ^ 2 / (64 / 100) ≤ 2) ∧
    (cls3D x y z = 3 → -(1 / 2) < Real.sin (x - 1 / 4) + y * z) ∧ (cls3D x y z = 6 → Real.sin (x - 1 / 4) + y * z ≤ -(1 / 2)) ∧
    (cls3D x y z = 3 ∨ cls3D x y z = 6 → (1 - x) ^ 2 + 3 * (y - x ^ 2) ^ 2 + |z| * (x - z) ^ 2 ≤ 5 / 2) := by
  have e5 : func5 x y z ≤ 3 / 10 ↔ (x - 1 / 2) ^ 2 / (36 / 100) + (y - 1 / 2) ^ 2 / (4 / 100) + (z - 17 / 20) ^ 2 / (9 / 100) ≤ 34 / 100 := by
    have : func5 x y z = (x - 1 / 2) ^ 2 / (36 / 100) + (y - 1 / 2) ^ 2 / (4 / 100) + (z - 17 / 20) ^ 2 / (9 / 100) - 4 / 100 := by
      unfold func5; ring
    rw [this]
    constructor <;> intro h <;> linarith
  have e1 : func1 x y z = (x + 1) ^ 2 / (144 / 100) + (y - 1) ^ 2 / 4 + z ^ 2 / (64 / 100) - 1 := by
    unfold func1; ring
  rw [C130_space]
  by_cases h5 : func5 x y z ≤ 3 / 10
  · rw [if_pos h5]
    refine ⟨⟨fun _ => e5.1 h5, fun _ => rfl⟩, ?_, ?_, ?_, ?_, ?_, ?_⟩ <;> norm_num
  rw [if_neg h5]
  have h5' := fun h => h5 (e5.2 h)
  by_cases h4 : 18 / 10 < func4 x y z
  · rw [if_pos h4]
    have hz : z < 0 := by
      by_contra hz
      rw [func4, if_neg hz] at h4
      norm_num at h4
    refine ⟨⟨fun h => absurd h (by norm_num), fun h => absurd h h5'⟩, fun _ => hz, ?_, ?_, ?_, ?_, ?_⟩ <;> norm_num
  rw [if_neg h4]
  by_cases h2 : 25 / 10 < func2 x y z
  · rw [if_pos h2]
    by_cases h1 : 1 < func1 x y z
    · rw [if_pos h1]
      refine ⟨⟨fun h => absurd h (by norm_num), fun h => absurd h h5'⟩, ?_, fun _ => by linarith, ?_, ?_, ?_, ?_⟩ <;> norm_num
    · rw [if_neg h1]
      refine ⟨⟨fun h => absurd h (by norm_num), fun h => absurd h h5'⟩, ?_, ?_, fun _ => by linarith, ?_, ?_, ?_⟩ <;> norm_num
  rw [if_neg h2]
  have h2' : (1 - x) ^ 2 + 3 * (y - x ^ 2) ^ 2 + |z| * (x - z) ^ 2 ≤ 5 / 2 := by
    unfold func2 at h2; linarith
  by_cases h3 : -(5 / 10) < func3 x y z
  · rw [if_pos h3]
    refine ⟨⟨fun h => absurd h (by norm_num), fun h => absurd h h5'⟩, ?_, ?_, ?_, fun _ => by unfold func3 at h3; linarith, ?_, fun _ => h2'⟩ <;> norm_num
  · rw [if_neg h3]
    refine ⟨⟨fun h => absurd h (by norm_num), fun h => absurd h h5'⟩, ?_, ?_, ?_, ?_, fun _ => by unfold func3 at h3; linarith, fun _ => h2'⟩ <;> norm_num

/-- C130: the names of the tables in the documentation of `get_class_data` and `get_regr_data` are all understood, `full` stands for them in this order, and no other name is. -/
theorem C130_documented (s : Name) :
    (getNamed classKeys (.str s)).toOption =
      (if lower s = (chars! "full") then some [["class_col", "unique_class_keys", "class_col_to_ids", "class_id_mapping", "binary_data"].map String.toList]
       else if lower s ∈ ["class_col", "unique_class_keys", "class_col_to_ids", "class_id_mapping", "binary_data"].map String.toList then some [[lower s]] else none) ∧
    (getNamed regrKeys (.str s)).toOption =
      (if lower s = (chars! "full") then some [["input", "raw_output", "output"].map String.toList]
       else if lower s ∈ ["input", "raw_output", "output"].map String.toList then some [[lower s]] else none) := by
  have hc : ["class_col", "unique_class_keys", "class_col_to_ids", "class_id_mapping", "binary_data"].map String.toList = classKeys := by decide +kernel
  have hr : ["input", "raw_output", "output"].map String.toList = regrKeys := by decide +kernel
  rw [hc, hr]
  have key : ∀ keys, (getNamed keys (.str s)).toOption = if lower s = (chars! "full") then some [keys] else if lower s ∈ keys then some [[lower s]] else none := by
    intro keys
    unfold getNamed entry
    dsimp only
    by_cases h1 : lower s = (chars! "full")
    · rw [if_pos h1, if_pos h1]; rfl
    rw [if_neg h1, if_neg h1]
    by_cases h2 : lower s ∈ keys
    · rw [if_pos h2, if_pos h2]; rfl
    · rw [if_neg h2, if_neg h2]; rfl
  exact ⟨key _, key _⟩

end

end Verif.Neigh
