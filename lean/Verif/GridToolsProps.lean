import Verif.GridTools
import Mathlib.Tactic.Ring
import Mathlib.Data.List.Perm.Subperm

/-!
# C113: tools for grids
-/

namespace Verif.GridTools

open Verif.Frame (Name isIn)

/-! ### Columns -/

/-- A column of the final values is found there. -/
theorem C113_final (final : List Name) (models : List (Name × List Name)) (k : Name) (h : k ∈ final) :
    column final models k = .ok (.final k) := if_pos h

/-- The column of a model: with models of names of the same length, `Sx_<model>_<quantity>` is the column `Sx_<quantity>` of the
data set of that model, whatever the order of the models. -/
theorem C113_model (final : List Name) (models : List (Name × List Name)) (n : ℕ) (hlen : ∀ m ∈ models, m.1.length = n)
    (hnd : (models.map (·.1)).Nodup) (m : Name) (cs : List Name) (hm : (m, cs) ∈ models) (pre q : Name) (hp : pre.length = 3)
    (hf : pre ++ m ++ '_' :: q ∉ final) :
    column final models (pre ++ m ++ '_' :: q) = if pre ++ q ∈ cs then .ok (.model m (pre ++ q)) else .error .key := by
  unfold column
  rw [if_neg hf]
  clear hf
  have hd : (pre ++ m ++ '_' :: q).drop 3 = m ++ '_' :: q := by
    rw [List.append_assoc, ← hp, List.drop_left]
  have ht : (pre ++ m ++ '_' :: q).take 3 = pre := by
    rw [List.append_assoc, ← hp, List.take_left]
  have hone : ∀ m' : Name, m'.length = n →
      (((pre ++ m ++ '_' :: q).drop 3).take (m'.length + 1) = m' ++ ['_'] ↔ m' = m) := by
    intro m' hm'
    rw [hd]
    have h1 : m.length = n := hlen _ hm
    have h2 : (m ++ '_' :: q).take (m'.length + 1) = m ++ ['_'] := by
      rw [hm', ← h1, show m ++ '_' :: q = (m ++ ['_']) ++ q by simp]
      rw [List.take_left' (by simp)]
    rw [h2]
    constructor
    · intro h
      exact (List.append_inj_left' h rfl).symm
    · rintro rfl; rfl
  induction models with
  | nil => simp at hm
  | cons x ms ih =>
    obtain ⟨m', cs'⟩ := x
    unfold inModels
    have hl' : m'.length = n := hlen _ List.mem_cons_self
    rw [List.map_cons, List.nodup_cons] at hnd
    by_cases he : m' = m
    · subst he
      have hcs : cs' = cs := by
        rcases List.mem_cons.1 hm with h | h
        · exact (Prod.mk.inj h).2.symm
        · exact absurd (List.mem_map.2 ⟨_, h, rfl⟩) hnd.1
      subst hcs
      rw [if_pos ((hone m' hl').2 rfl), ht]
      have h3 : (pre ++ m' ++ '_' :: q).drop (3 + (m'.length + 1)) = q := by
        rw [show pre ++ m' ++ '_' :: q = (pre ++ m' ++ ['_']) ++ q by simp]
        rw [List.drop_left' (by simp [hp])]
      rw [h3]
    · rw [if_neg (fun h => he ((hone m' hl').1 h))]
      refine ih (fun x hx => hlen x (List.mem_cons_of_mem _ hx)) hnd.2 ?_
      rcases List.mem_cons.1 hm with h | h
      · exact absurd (Prod.mk.inj h).1.symm he
      · exact h

/-- The pre-defined models have names of the same length and without repetition, so that the theorem above holds for them. -/
theorem C113_predefined : (∀ r ∈ SNModels.models, r.1.length = 14) ∧ (SNModels.models.map (·.1)).Nodup := by
  constructor <;> decide +kernel

/-- Models with names of different lengths are mixed up: the column of a model is looked for in the data set of another one, of which the
name is the beginning. -/
theorem C113_model_violated :
    column [] [((chars! "SN_MODEL"), [(chars! "S1_mass")]), ((chars! "SN_MODEL_b"), [(chars! "S1_mass")])] (chars! "S1_SN_MODEL_b_mass") =
      .error .key := by decide +kernel

/-- No column is invented: what is returned exists. -/
theorem C113_exists (final : List Name) (models : List (Name × List Name)) (k : Name) :
    (∀ c, column final models k = .ok (.final c) → c = k ∧ c ∈ final) ∧
    ∀ m c, column final models k = .ok (.model m c) → k ∉ final ∧ ∃ cs, (m, cs) ∈ models ∧ c ∈ cs ∧
      k = k.take 3 ++ (m ++ '_' :: k.drop (3 + (m.length + 1))) ∧ c = k.take 3 ++ k.drop (3 + (m.length + 1)) := by
  have aux : ∀ (ms : List (Name × List Name)) (p : Place), inModels k ms = .ok p → ∃ m c, p = .model m c ∧ ∃ cs, (m, cs) ∈ ms ∧ c ∈ cs ∧
      k = k.take 3 ++ (m ++ '_' :: k.drop (3 + (m.length + 1))) ∧ c = k.take 3 ++ k.drop (3 + (m.length + 1)) := by
    intro ms p
    induction ms with
    | nil => intro h; simp [inModels] at h
    | cons x ms ih =>
      obtain ⟨m, cs⟩ := x
      unfold inModels
      by_cases h1 : (k.drop 3).take (m.length + 1) = m ++ ['_']
      · rw [if_pos h1]
        intro h
        by_cases h2 : k.take 3 ++ k.drop (3 + (m.length + 1)) ∈ cs
        · rw [if_pos h2] at h
          refine ⟨m, _, (Except.ok.inj h).symm, cs, List.mem_cons_self, h2, ?_, rfl⟩
          have h3 : m ++ '_' :: k.drop (3 + (m.length + 1)) = k.drop 3 := by
            rw [show m ++ '_' :: k.drop (3 + (m.length + 1)) = (m ++ ['_']) ++ k.drop (3 + (m.length + 1)) by simp, ← h1,
              ← List.drop_drop, List.take_append_drop]
          rw [h3, List.take_append_drop]
        · rw [if_neg h2] at h; exact absurd h (by simp)
      · rw [if_neg h1]
        intro h
        obtain ⟨m', c, hp, cs', hm, r⟩ := ih h
        exact ⟨m', c, hp, cs', List.mem_cons_of_mem _ hm, r⟩
  unfold column
  by_cases hf : k ∈ final
  · rw [if_pos hf]
    refine ⟨fun c h => ?_, fun m c h => ?_⟩
    · have := Place.final.inj (Except.ok.inj h); subst this; exact ⟨rfl, hf⟩
    · exact absurd (Except.ok.inj h) (by simp)
  · rw [if_neg hf]
    refine ⟨fun c h => ?_, fun m c h => ?_⟩
    · obtain ⟨m, c', hp, _⟩ := aux _ _ h
      exact absurd hp (by simp)
    · obtain ⟨m', c', hp, r⟩ := aux _ _ h
      obtain ⟨rfl, rfl⟩ := Place.model.inj hp
      exact ⟨hf, r⟩

example : column [(chars! "S1_mass")] [((chars! "SN_MODEL_v2_01"), [(chars! "S1_mass"), (chars! "S2_mass")])]
    (chars! "S2_SN_MODEL_v2_01_mass") = .ok (.model (chars! "SN_MODEL_v2_01") (chars! "S2_mass")) := by decide +kernel

/-! ### Joined lists -/

/-- The first list comes first and unchanged; then the elements of the second one that are not in the first, in their order. -/
theorem C113_join {A : Type} [DecidableEq A] (a b : List A) :
    (∀ x, x ∈ joinLists a b ↔ x ∈ a ∨ x ∈ b) ∧ a <+: joinLists a b ∧
      ((joinLists a b).drop a.length).Sublist b ∧ (∀ x ∈ (joinLists a b).drop a.length, x ∉ a) ∧
      ∀ x ∉ a, (joinLists a b).count x = b.count x := by
  unfold joinLists
  refine ⟨?_, List.prefix_append _ _, ?_, ?_, ?_⟩
  · intro x
    rw [List.mem_append, List.mem_filter]
    by_cases h : x ∈ a <;> simp [h]
  · rw [List.drop_left]; exact List.filter_sublist
  · rw [List.drop_left]
    intro x hx
    simpa using (List.mem_filter.1 hx).2
  · intro x hx
    rw [List.count_append, List.count_eq_zero_of_not_mem hx, Nat.zero_add, List.count_filter (by simpa using hx)]

/-- Without repetitions in the two lists there is none in the joint list. -/
theorem C113_join_once {A : Type} [DecidableEq A] (a b : List A) (ha : a.Nodup) (hb : b.Nodup) : (joinLists a b).Nodup := by
  unfold joinLists
  refine List.Nodup.append ha (hb.filter _) ?_
  intro x hx hy
  have h2 := (List.mem_filter.1 hy).2
  simp at h2
  exact h2 hx

/-- A column given twice in the second list is twice in the joint one. -/
theorem C113_join_violated : ¬ (joinLists [1] [2, 2]).Nodup := by decide

/-! ### Cores -/

/-- A value is at least another one, if there are both. -/
def AtLeast : Option ℚ → Option ℚ → Prop
  | some x, some y => y ≤ x
  | _, _ => True

/-- All entries of two columns of a history. -/
def ColsOk (h : Hist) (he co : Name) : Prop :=
  ∀ x y, h he = some x → h co = some y → ∀ i (_ : i < x.length) (_ : i < y.length), AtLeast x[i] y[i]

theorem pair_ok (h : Hist) (he co : Name) (hne : co ≠ he) : ColsOk (fixPair he co h) he co := by
  intro x y hx hy i hi hj
  unfold fixPair at hx hy
  rw [if_pos rfl] at hx
  rw [if_neg hne] at hy
  rw [hy] at hx
  cases hh : h he with
  | none => rw [hh] at hx; simp at hx
  | some z =>
    rw [hh] at hx
    have hx2 : List.zipWith npMax z y = x := by simpa using hx
    subst hx2
    rw [List.getElem_zipWith]
    cases z[i]'(by simp at hi; omega) <;> cases y[i] <;> simp [npMax, AtLeast]

/-- After the repair the core of helium is not smaller and not lighter than the one of carbon and oxygen; other columns and histories without
these columns are unchanged, and to repair twice is to repair once. -/
theorem C113_core (h : Hist) :
    ∃ g, fixHe (some h) = some g ∧ ColsOk g (chars! "he_core_mass") (chars! "co_core_mass") ∧
      ColsOk g (chars! "he_core_radius") (chars! "co_core_radius") ∧
      (∀ c, c ≠ (chars! "he_core_mass") → c ≠ (chars! "he_core_radius") → g c = h c) ∧
      (h (chars! "co_core_mass") = none → g (chars! "he_core_mass") = h (chars! "he_core_mass")) ∧
      (h (chars! "he_core_mass") = none → g (chars! "he_core_mass") = none) := by
  refine ⟨_, rfl, ?_, ?_, ?_, ?_, ?_⟩
  · have h1 := pair_ok h (chars! "he_core_mass") (chars! "co_core_mass") (by decide)
    intro x y hx hy
    refine h1 x y ?_ ?_
    · unfold fixPair at hx ⊢
      rw [if_neg (by decide)] at hx
      exact hx
    · unfold fixPair at hy ⊢
      rw [if_neg (by decide)] at hy
      exact hy
  · exact pair_ok _ _ _ (by decide)
  · intro c h1 h2
    unfold fixPair
    rw [if_neg h2, if_neg h1]
  · intro h1
    unfold fixPair
    rw [if_neg (by decide), if_pos rfl, h1]
    cases h (chars! "he_core_mass") <;> rfl
  · intro h1
    unfold fixPair
    rw [if_neg (by decide), if_pos rfl, h1]

/-- Values that are in order already are kept: the larger value is one of the two. -/
theorem C113_core_value (h : Hist) (x y : List (Option ℚ)) (hx : h (chars! "he_core_mass") = some x)
    (hy : h (chars! "co_core_mass") = some y) (hl : x.length = y.length) :
    ∃ g z, fixHe (some h) = some g ∧ g (chars! "he_core_mass") = some z ∧ z.length = x.length ∧
      (∀ (i : ℕ) a b, x[i]? = some (some a) → y[i]? = some (some b) → z[i]? = some (some (if b ≤ a then a else b))) ∧
      ∀ i : ℕ, i < x.length → (x[i]? = some none ∨ y[i]? = some none) → z[i]? = some none := by
  refine ⟨_, List.zipWith npMax x y, rfl, ?_, by simp [hl], ?_, ?_⟩
  · unfold fixPair
    rw [if_neg (by decide), if_pos rfl, hx, hy]
  · intro i a b ha hb
    rw [List.getElem?_zipWith, ha, hb]
    show some (some (max a b)) = _
    rcases le_total b a with h1 | h1
    · rw [max_eq_left h1, if_pos h1]
    · rw [max_eq_right h1]
      by_cases h2 : b ≤ a
      · rw [if_pos h2, le_antisymm h1 h2]
      · rw [if_neg h2]
  · intro i hi h1
    have hi2 : i < y.length := hl ▸ hi
    rw [List.getElem?_zipWith]
    rcases h1 with h1 | h1
    · rw [h1, List.getElem?_eq_getElem hi2]; rfl
    · rw [h1, List.getElem?_eq_getElem hi]
      show some (npMax x[i] none) = _
      cases x[i] <;> rfl

/-- Repairing twice is repairing once. -/
theorem C113_core_twice (h : Hist) : fixHe (fixHe (some h)) = fixHe (some h) := by
  have hz : ∀ a b : Option ℚ, npMax (npMax a b) b = npMax a b := by
    intro a b; cases a <;> cases b <;> simp [npMax]
  have hzz : ∀ x y : List (Option ℚ), List.zipWith npMax (List.zipWith npMax x y) y = List.zipWith npMax x y := by
    intro x
    induction x with
    | nil => intro y; rfl
    | cons a x ih => intro y; cases y with
      | nil => rfl
      | cons b y => simp [hz, ih]
  unfold fixHe
  refine congrArg some (funext fun c => ?_)
  by_cases h1 : c = (chars! "he_core_radius")
  · subst h1
    unfold fixPair
    simp only [if_neg (show (chars! "co_core_radius") ≠ (chars! "he_core_radius") by decide),
      if_neg (show (chars! "co_core_radius") ≠ (chars! "he_core_mass") by decide),
      if_neg (show (chars! "he_core_radius") ≠ (chars! "he_core_mass") by decide)]
    cases h (chars! "he_core_radius") <;> cases h (chars! "co_core_radius") <;> simp [hzz]
  · by_cases h2 : c = (chars! "he_core_mass")
    · subst h2
      unfold fixPair
      simp only [if_neg (show (chars! "co_core_mass") ≠ (chars! "he_core_radius") by decide),
        if_neg (show (chars! "co_core_mass") ≠ (chars! "he_core_mass") by decide),
        if_neg (show (chars! "he_core_mass") ≠ (chars! "he_core_radius") by decide)]
      cases h (chars! "he_core_mass") <;> cases h (chars! "co_core_mass") <;> simp [hzz]
    · unfold fixPair
      simp only [if_neg h1, if_neg h2]

/-! ### Fields -/

/-- A new field leaves the others as they are; an array without fields, and a field that exists, are refused. -/
theorem C113_field {V : Type} (junk : Name → ℕ → V) (a : Arr V) (new : List Name) :
    (∀ b, addField junk a new = .ok b → b.names = a.names ++ new ∧ b.rows = a.rows ∧ b.names.Nodup ∧ ∀ c ∈ a.names, ∀ i, b.at_ c i = a.at_ c i) ∧
      ((∃ b, addField junk a new = .ok b) ↔ a.names ≠ [] ∧ (a.names ++ new).Nodup) := by
  unfold addField
  by_cases h1 : a.names = []
  · rw [if_pos h1]; simp [h1]
  · rw [if_neg h1]
    by_cases h2 : (a.names ++ new).Nodup
    · rw [if_pos h2]
      refine ⟨fun b hb => ?_, by simp [h1, h2]⟩
      have := Except.ok.inj hb
      subst this
      exact ⟨rfl, rfl, h2, fun c hc i => if_pos hc⟩
    · rw [if_neg h2]; simp [h2]

/-! ### Edges of cells -/

/-- Equal distances. -/
def Uniform (a d : ℚ) (n : ℕ) : List ℚ := (List.range n).map fun (i : ℕ) => a + i * d

theorem uniform_succ (a d : ℚ) (n : ℕ) : Uniform a d (n + 1) = a :: Uniform (a + d) d n := by
  unfold Uniform
  rw [List.range_succ_eq_map, List.map_cons, List.map_map]
  simp only [Nat.cast_zero, zero_mul, add_zero, List.cons.injEq, true_and]
  refine List.map_congr_left fun i _ => ?_
  simp only [Function.comp, Nat.cast_succ]
  ring

/-- With equal distances the edges are half a distance around the centres, one more than centres. -/
theorem C113_edges (a d : ℚ) (n : ℕ) (h : 2 ≤ n) :
    edges (Uniform a d n) = .ok ((List.range (n + 1)).map fun (i : ℕ) => a + (i - 1 / 2) * d) := by
  obtain ⟨k, rfl⟩ : ∃ k, n = k + 2 := ⟨n - 2, by omega⟩
  have hl : (Uniform (a + d) d (k + 1)).getLastD (a + d) = a + (k + 1) * d := by
    unfold Uniform
    rw [List.range_succ, List.map_append, List.map_cons, List.map_nil, List.getLastD_concat]
    ring
  have hu : Uniform a d (k + 2) = a :: (a + d) :: Uniform (a + d + d) d k := by
    rw [uniform_succ, uniform_succ]
  rw [hu]
  show Except.ok ((a :: (a + d) :: Uniform (a + d + d) d k).map (· - (a + d - a) / 2) ++
    [((a + d) :: Uniform (a + d + d) d k).getLastD (a + d) + (a + d - a) / 2]) = _
  rw [show (a + d) :: Uniform (a + d + d) d k = Uniform (a + d) d (k + 1) from (uniform_succ _ _ _).symm, hl,
    show a :: Uniform (a + d) d (k + 1) = Uniform a d (k + 2) from (uniform_succ _ _ _).symm]
  congr 1
  rw [List.range_succ, List.map_append]
  congr 1
  · unfold Uniform
    rw [List.map_map]
    refine List.map_congr_left fun i _ => ?_
    simp only [Function.comp]
    ring
  · simp only [List.map_cons, List.map_nil]
    push_cast
    congr 1
    ring

/-- Hence each centre is in the middle of its cell. -/
theorem C113_centres (a d : ℚ) (n : ℕ) (h : 2 ≤ n) (e : List ℚ) (he : edges (Uniform a d n) = .ok e) (i : ℕ) (hi : i < n) :
    (e.getD i 0 + e.getD (i + 1) 0) / 2 = (Uniform a d n).getD i 0 := by
  rw [C113_edges a d n h] at he
  have := Except.ok.inj he
  subst this
  unfold Uniform
  simp only [List.getD_eq_getElem?_getD, List.getElem?_map, List.getElem?_range (show i < n + 1 by omega),
    List.getElem?_range (show i + 1 < n + 1 by omega), List.getElem?_range hi, Option.map_some, Option.getD_some]
  push_cast
  ring

/-- With other distances a centre may be outside of its cell. -/
theorem C113_edges_violated : edges [0, 1, 6/5] = .ok [-1/2, 1/2, 7/10, 17/10] ∧ ¬ ((1/2 : ℚ) ≤ 1 ∧ (1 : ℚ) ≤ 7/10) := by
  constructor
  · decide +kernel
  · decide +kernel

/-- A grid with one value in a direction has no edges. -/
theorem C113_one_value_violated (x : ℚ) (y : List ℚ) : cellEdges [x] y = .error .index := rfl

/-- The mesh has the edges of `x` in every row and those of `y` in every column. -/
theorem C113_mesh (x y : List ℚ) (q p : List (List ℚ)) (h : cellEdges x y = .ok (q, p)) :
    ∃ ex ey, edges x = .ok ex ∧ edges y = .ok ey ∧ ex.length = x.length + 1 ∧ ey.length = y.length + 1 ∧ q = List.replicate ey.length ex ∧
      p = ey.map fun v => List.replicate ex.length v := by
  have hl : ∀ z e, edges z = .ok e → e.length = z.length + 1 := by
    intro z e hz
    match z, hz with
    | a :: b :: r, hz =>
      have := Except.ok.inj hz
      subst this
      simp
  unfold cellEdges at h
  cases hx : edges x with
  | error e => rw [hx] at h; simp at h
  | ok ex =>
    cases hy : edges y with
    | error e => rw [hx, hy] at h; simp at h
    | ok ey =>
      rw [hx, hy] at h
      have h2 := Prod.mk.inj (Except.ok.inj h)
      refine ⟨ex, ey, rfl, rfl, hl _ _ hx, hl _ _ hy, ?_, ?_⟩
      · rw [← h2.1, List.map_const']
      · rw [← h2.2]
        refine List.map_congr_left fun v _ => ?_
        rw [List.map_const']

/-! ### Nearest values and proposed points -/

/-- The nearest value is one of the values, and none is nearer; of several nearest ones it is the first. -/
theorem C113_nearest (v : ℚ) (l : List ℚ) (h : l ≠ []) :
    ∃ i a, nearestIdx v l = .ok i ∧ l[i]? = some a ∧ nearest v l = .ok a ∧ (∀ b ∈ l, |v - a| ≤ |v - b|) ∧
      ∀ j b, j < i → l[j]? = some b → |v - a| < |v - b| := by
  obtain ⟨i, hi, hlt, hmin, hfirst⟩ := nearestIdx_spec v l h
  have hg : ∀ j (hj : j < l.length), l.getD j 0 = l[j] := fun j hj => by
    rw [List.getD_eq_getElem?_getD, List.getElem?_eq_getElem hj]; rfl
  refine ⟨i, l[i], hi, List.getElem?_eq_getElem hlt, ?_, ?_, ?_⟩
  · unfold nearest; rw [hi]; simp only [hg i hlt]
  · intro b hb
    obtain ⟨j, hj, rfl⟩ := List.mem_iff_getElem.1 hb
    have := hmin j hj
    rwa [hg i hlt, hg j hj] at this
  · intro j b hj hb
    have hj2 : j < l.length := by omega
    have := hfirst j hj
    rw [List.getElem?_eq_getElem hj2] at hb
    rw [hg i hlt, hg j hj2, Option.some.inj hb] at this
    exact this

/-- No values have no nearest one. -/
theorem C113_nearest_empty (v : ℚ) : nearest v [] = .error .value := rfl

theorem mapNearest_spec (g : List ℚ) (hg : g ≠ []) (l : List ℚ) :
    ∃ r, mapNearest g l = .ok r ∧ r.length = l.length ∧ ∀ (i : ℕ) v, l[i]? = some v → ∃ a, r[i]? = some a ∧ nearest v g = .ok a := by
  induction l with
  | nil => exact ⟨[], rfl, rfl, by simp⟩
  | cons v l ih =>
    obtain ⟨r, hr, hlen, hall⟩ := ih
    obtain ⟨_, a, _, _, ha, _⟩ := C113_nearest v g hg
    refine ⟨a :: r, by unfold mapNearest; rw [ha, hr], by simp [hlen], ?_⟩
    intro i w hw
    cases i with
    | zero => simp at hw; subst hw; exact ⟨a, rfl, ha⟩
    | succ i => simp at hw; simpa using hall i w hw

/-- The mapped points are those of the cells of the proposed points: each cell once, in order, and nothing else. -/
theorem C113_points (px gx py gy : List ℚ) (hx : gx ≠ []) (hy : gy ≠ []) (hl : px.length = py.length) :
    ∃ r, finalPoints px gx py gy = .ok r ∧ r.Nodup ∧ r.Pairwise before ∧ r.length ≤ px.length ∧
      ∀ q, q ∈ r ↔ ∃ (i : ℕ) (x y : ℚ), px[i]? = some x ∧ py[i]? = some y ∧ nearest x gx = .ok q.1 ∧ nearest y gy = .ok q.2 := by
  obtain ⟨x, hxe, hxl, hxa⟩ := mapNearest_spec gx hx px
  obtain ⟨y, hye, hyl, hya⟩ := mapNearest_spec gy hy py
  have hnd : (unique (x.zip y)).Nodup := by
    refine (unique_sorted _).imp ?_
    intro a b h hab
    subst hab
    exact before_irrefl a h
  refine ⟨unique (x.zip y), ?_, hnd, unique_sorted _, ?_, ?_⟩
  · unfold finalPoints
    rw [hxe, hye]
    show (if x.length = y.length then _ else _) = _
    rw [if_pos (by omega)]
  · have h1 : (unique (x.zip y)).length ≤ (x.zip y).length :=
      (List.subperm_of_subset hnd fun a ha => (mem_unique a _).1 ha).length_le
    rw [List.length_zip] at h1
    omega
  · intro q
    rw [mem_unique, List.mem_iff_getElem?]
    constructor
    · rintro ⟨i, hi⟩
      obtain ⟨h1, h2⟩ := List.getElem?_zip_eq_some.1 hi
      have hi1 : i < px.length := by
        have := (List.getElem?_eq_some_iff.1 h1).1; omega
      have hi2 : i < py.length := by omega
      obtain ⟨a, ha, ha2⟩ := hxa i px[i] (List.getElem?_eq_getElem hi1)
      obtain ⟨b, hb, hb2⟩ := hya i py[i] (List.getElem?_eq_getElem hi2)
      rw [h1] at ha
      rw [h2] at hb
      refine ⟨i, px[i], py[i], List.getElem?_eq_getElem hi1, List.getElem?_eq_getElem hi2, ?_, ?_⟩
      · rw [ha2, Option.some.inj ha]
      · rw [hb2, Option.some.inj hb]
    · rintro ⟨i, u, v, hu, hv, h1, h2⟩
      obtain ⟨a, ha, ha2⟩ := hxa i u hu
      obtain ⟨b, hb, hb2⟩ := hya i v hv
      refine ⟨i, ?_⟩
      rw [List.getElem?_zip_eq_some]
      rw [h1] at ha2
      rw [h2] at hb2
      exact ⟨by rw [ha, ← Except.ok.inj ha2], by rw [hb, ← Except.ok.inj hb2]⟩

example : finalPoints [1/10, 9/10, 11/10] [0, 1] [3, 3, 29/10] [2, 3] = .ok [(0, 3), (1, 3)] := by decide +kernel

/-! ### Results of runs -/

/-- The story of a run with a history of the binary. -/
def story (T : ℚ → ℚ → ℚ → ℚ) (o : Name) (l : List BRow) : Story where
  zams := isIn mOverflow o
  contact := isIn mContact o
  ce := isIn mCE o
  coreMerge := isIn mMerge o || isIn mMerge2 o
  carbon := isIn mDepleted o
  transfer := (l.filterMap (·.rate)).isEmpty || (l.filterMap (·.rate)).any fun x => decide (-10 ≤ x)
  wide := match l.getLast? with
    | none => false
    | some r => decide (13800 < T r.m1 r.m2 r.p)

theorem quiet_iff (l : List BRow) :
    (!quiet (maxRate l)) = ((l.filterMap (·.rate)).isEmpty || (l.filterMap (·.rate)).any fun x => decide (-10 ≤ x)) := by
  unfold maxRate
  generalize l.filterMap (·.rate) = r
  cases h : r.max? with
  | none =>
    rw [List.max?_eq_none_iff] at h
    subst h; rfl
  | some m =>
    have h2 := List.max?_eq_some_iff.1 h
    have hne : r ≠ [] := by rintro rfl; simp at h
    unfold quiet
    by_cases hm : m < -10
    · have h3 : (r.any fun x => decide (-10 ≤ x)) = false := by
        rw [List.any_eq_false]
        intro x hx
        have := h2.2 x hx
        simp only [decide_eq_true_eq, not_le]
        exact lt_of_le_of_lt this hm
      simp only [hm, h3]
      simpa using hne
    · have h3 : (r.any fun x => decide (-10 ≤ x)) = true := by
        rw [List.any_eq_true]
        exact ⟨m, h2.1, by simpa using not_lt.1 hm⟩
      rw [h3]
      simp [hm]

theorem starVals_keys (k : Bool) (s : Option (List SRow)) (v : List (Col × Val)) (h : starVals k s = .ok v) :
    ∀ c ∈ v.map (·.1), ∃ q, c = .star k q := by
  cases s with
  | none =>
    have := Except.ok.inj h
    subst this; simp
  | some l =>
    simp only [starVals] at h
    cases hl : lastRow l with
    | error e => rw [hl] at h; simp at h
    | ok r =>
      rw [hl] at h
      have := Except.ok.inj h
      subst this
      intro c hc
      rw [List.map_map] at hc
      obtain ⟨q, _, rfl⟩ := List.mem_map.1 hc
      exact ⟨q, rfl⟩

theorem starVals_ok (k : Bool) (s : Option (List SRow)) (h : s ≠ some []) : ∃ v, starVals k s = .ok v := by
  cases s with
  | none => exact ⟨_, rfl⟩
  | some l =>
    have hl : l ≠ [] := fun h2 => h (by rw [h2])
    simp only [starVals, lastRow, List.getLast?_eq_some_getLast hl]
    exact ⟨_, rfl⟩

/-- With a history of the binary (of two rows or more) the result of a run is the name of its story, for all outputs, histories of stars and
requested columns; the flag tells whether there was a common envelope, unless the stars filled their Roche lobes from the beginning. -/
theorem C113_result (T : ℚ → ℚ → ℚ → ℚ) (o : Name) (ho : o ≠ []) (l : List BRow) (hl : 2 ≤ l.length) (s1 s2 : Option (List SRow))
    (h1 : ∀ l, s1 = some l → 2 ≤ l.length) (h2 : ∀ l, s2 = some l → 2 ≤ l.length) (cols : List Col) :
    ∃ t, convert T (some o) (some l) s1 s2 cols = .ok t ∧ cell t .result = some (.res (story T o l).name) ∧
      ((story T o l).zams = false → cell t .ceFlag = some (.flag (story T o l).ce)) ∧
      ((story T o l).zams = true → .ceFlag ∈ cols → cell t .ceFlag = some .dash) := by
  have hr : ∀ {R : Type} (l : List R), 2 ≤ l.length → readHist (some l) = .ok (some l) := by
    intro R l hl
    match l, hl with
    | a :: b :: r, _ => rfl
  have hr' : ∀ s : Option (List SRow), (∀ l, s = some l → 2 ≤ l.length) → readHist s = .ok s := by
    intro s hs
    cases s with
    | none => rfl
    | some l => exact hr l (hs l rfl)
  have hcv : convert T (some o) (some l) s1 s2 cols =
      match values T o (some l) s1 s2 with
      | .error e => .error e
      | .ok v => .ok (fillDash cols v) := by
    unfold convert
    cases o with
    | nil => exact absurd rfl ho
    | cons c o =>
      simp only [hr l hl, hr' s1 h1, hr' s2 h2]
      rfl
  have hlne : l ≠ [] := by rintro rfl; simp at hl
  have hs1 : s1 ≠ some [] := by intro h; have := h1 _ h; simp at this
  have hs2 : s2 ≠ some [] := by intro h; have := h2 _ h; simp at this
  obtain ⟨v1, hv1⟩ := starVals_ok false s1 hs1
  obtain ⟨v2, hv2⟩ := starVals_ok true s2 hs2
  have hk1 := starVals_keys _ _ _ hv1
  have hk2 := starVals_keys _ _ _ hv2
  have hlast : lastRow l = .ok (l.getLast hlne) := by
    unfold lastRow; rw [List.getLast?_eq_some_getLast hlne]
  have htr : (story T o l).transfer = !quiet (maxRate l) := (quiet_iff l).symm
  have hw : (story T o l).wide = decide (138 / 10 < T (l.getLast hlne).m1 (l.getLast hlne).m2 (l.getLast hlne).p / 1000) := by
    unfold story
    rw [List.getLast?_eq_some_getLast hlne]
    show decide _ = decide _
    refine decide_eq_decide.2 ?_
    constructor <;> intro h <;> linarith
  -- the values
  have key : ∃ v, values T o (some l) s1 s2 = .ok v ∧ Col.result ∈ v.map (·.1) ∧ v.lookup .result = some (.res (story T o l).name) ∧
      ((story T o l).zams = false → Col.ceFlag ∈ v.map (·.1) ∧ v.lookup .ceFlag = some (.flag (story T o l).ce)) ∧
      ((story T o l).zams = true → Col.ceFlag ∉ v.map (·.1)) := by
    unfold values
    have e1 : (story T o l).zams = isIn mOverflow o := rfl
    have e2 : (story T o l).ce = isIn mCE o := rfl
    have e3 : (story T o l).contact = isIn mContact o := rfl
    have e4 : (story T o l).coreMerge = (isIn mMerge o || isIn mMerge2 o) := rfl
    have e5 : (story T o l).carbon = isIn mDepleted o := rfl
    unfold Story.name
    rw [e1, e2, e3, e4, e5, htr, hw]
    cases isIn mOverflow o
    · cases hce : isIn mCE o <;> cases isIn mContact o <;> cases isIn mMerge o <;> cases isIn mMerge2 o <;> cases isIn mDepleted o <;>
        first
        | exact ⟨_, rfl, by simp, rfl, fun _ => ⟨by simp, rfl⟩, by simp⟩
        | (unfold depleted
           rw [hv1, hv2]
           simp only [hlast, Bool.false_eq_true, if_false, if_true, Bool.and_false, Bool.false_and, Bool.or_false, Bool.and_true,
             Bool.not_false, Bool.not_true]
           refine ⟨_, rfl, by simp, ?_, ?_, by simp⟩
           · have n1 : Col.result ∉ v1.map (·.1) := fun h => by obtain ⟨q, hq⟩ := hk1 _ h; exact absurd hq (by simp)
             have n2 : Col.result ∉ v2.map (·.1) := fun h => by obtain ⟨q, hq⟩ := hk2 _ h; exact absurd hq (by simp)
             rw [List.lookup_cons, show (Col.result == Col.ceFlag) = false from rfl, List.append_assoc]
             simp only []
             rw [lookup_append_not _ _ _ n1, lookup_append_not _ _ _ n2]
             cases quiet (maxRate l) <;> simp [List.lookup] <;> rfl
           · intro _
             exact ⟨by simp, by simp [List.lookup]⟩)
    · exact ⟨_, rfl, by simp, rfl, by simp, by simp⟩
  obtain ⟨v, hv, hm, hres, hf, hz⟩ := key
  refine ⟨fillDash cols v, by rw [hcv, hv], ?_, ?_, ?_⟩
  · unfold cell; rw [fill_lookup _ _ _ hm, hres]
  · intro h
    obtain ⟨h3, h4⟩ := hf h
    unfold cell; rw [fill_lookup _ _ _ h3, h4]
  · intro h hc
    exact fill_dash _ _ _ (hz h) hc

/-- The requested columns are all in the table. -/
theorem C113_columns (T : ℚ → ℚ → ℚ → ℚ) (o : Option Name) (b : Option (List BRow)) (s1 s2 : Option (List SRow)) (cols : List Col)
    (t : List (Col × Val)) (h : convert T o b s1 s2 cols = .ok t) : ∀ c ∈ cols, c ∈ t.map (·.1) := by
  intro c hc
  unfold convert at h
  match o, h with
  | some (x :: o), h =>
    simp only at h
    cases hb : readHist b with
    | error e => rw [hb] at h; simp at h
    | ok b' =>
      cases h1 : readHist s1 with
      | error e => rw [hb, h1] at h; simp at h
      | ok s1' =>
        cases h2 : readHist s2 with
        | error e => rw [hb, h1, h2] at h; simp at h
        | ok s2' =>
          cases hv : values T (x :: o) b' s1' s2' with
          | error e => rw [hb, h1, h2] at h; simp [hv] at h
          | ok v =>
            rw [hb, h1, h2] at h
            simp only [hv] at h
            rw [← Except.ok.inj h]
            exact (mem_fill cols v c).2 (.inr hc)

/-- Final masses, period and time of the merger are those of the last row, whenever the run depleted carbon without an earlier end. -/
theorem C113_last_row (T : ℚ → ℚ → ℚ → ℚ) (o : Name) (l : List BRow) (s1 s2 : Option (List SRow)) (v : List (Col × Val)) (r : BRow)
    (hl : l.getLast? = some r) (h : values T o (some l) s1 s2 = .ok v) (hc : .m1 ∈ v.map (·.1)) :
    v.lookup .m1 = some (.num r.m1) ∧ v.lookup .m2 = some (.num r.m2) ∧ v.lookup .porb = some (.num r.p) ∧
      v.lookup .tmerge = some (.num (T r.m1 r.m2 r.p / 1000)) := by
  unfold values at h
  have bad : ∀ w : List (Col × Val), (Except.ok w : Except Err _) = .ok v → Col.m1 ∉ w.map (·.1) → False := by
    intro w hw hn
    rw [Except.ok.inj hw] at hn
    exact hn hc
  by_cases c1 : isIn mOverflow o
  · rw [if_pos c1] at h; exact (bad _ h (by simp)).elim
  rw [if_neg c1] at h
  simp only at h
  by_cases c2 : (isIn mContact o && !isIn mCE o) = true
  · rw [if_pos c2] at h; exact (bad _ h (by simp)).elim
  rw [if_neg c2] at h
  by_cases c3 : (isIn mCE o && (isIn mMerge o || isIn mMerge2 o || isIn mContact o)) = true
  · rw [if_pos c3] at h; exact (bad _ h (by simp)).elim
  rw [if_neg c3] at h
  by_cases c4 : isIn mDepleted o
  · rw [if_pos c4] at h
    unfold depleted at h
    cases hv1 : starVals false s1 with
    | error e => rw [hv1] at h; simp at h
    | ok v1 =>
      cases hv2 : starVals true s2 with
      | error e => rw [hv1, hv2] at h; simp at h
      | ok v2 =>
        rw [hv1, hv2] at h
        have hlr : lastRow l = .ok r := by unfold lastRow; rw [hl]
        simp only [hlr] at h
        have h2 := Except.ok.inj h
        have nn : ∀ c, (∀ k q, c ≠ Col.star k q) → c ∉ v1.map (·.1) ∧ c ∉ v2.map (·.1) := fun c hcs =>
          ⟨fun h => by obtain ⟨q, hq⟩ := starVals_keys _ _ _ hv1 _ h; exact hcs _ _ hq,
           fun h => by obtain ⟨q, hq⟩ := starVals_keys _ _ _ hv2 _ h; exact hcs _ _ hq⟩
        have look : ∀ c, c ≠ .ceFlag → (∀ k q, c ≠ Col.star k q) → ∀ w, v = (Col.ceFlag, Val.flag (isIn mCE o)) :: (v1 ++ v2 ++ w) → v.lookup c = w.lookup c := by
          intro c hc1 hc2 w hw
          rw [hw, List.lookup_cons, show (c == Col.ceFlag) = false by simpa using hc1, List.append_assoc]
          simp only []
          rw [lookup_append_not _ _ _ (nn c hc2).1, lookup_append_not _ _ _ (nn c hc2).2]
        refine ⟨?_, ?_, ?_, ?_⟩
        · rw [look _ (by simp) (by simp) _ h2.symm]; rfl
        · rw [look _ (by simp) (by simp) _ h2.symm]; rfl
        · rw [look _ (by simp) (by simp) _ h2.symm]; rfl
        · rw [look _ (by simp) (by simp) _ h2.symm]; rfl
  · rw [if_neg c4] at h; exact (bad _ h (by simp)).elim

/-- Without a history of the binary every run that depleted carbon had "no interaction", also one with a common envelope. -/
theorem C113_no_history_violated (T : ℚ → ℚ → ℚ → ℚ) :
    convert T (some ((chars! "TURNING ON CE ") ++ mDepleted)) none none none [.result] =
      .ok [(.ceFlag, .flag true), (.result, .res .noInteraction)] := by
  have h1 : isIn mOverflow ((chars! "TURNING ON CE ") ++ mDepleted) = false := by decide +kernel
  have h2 : isIn mCE ((chars! "TURNING ON CE ") ++ mDepleted) = true := by decide +kernel
  have h3 : isIn mContact ((chars! "TURNING ON CE ") ++ mDepleted) = false := by decide +kernel
  have h4 : isIn mMerge ((chars! "TURNING ON CE ") ++ mDepleted) = false := by decide +kernel
  have h5 : isIn mMerge2 ((chars! "TURNING ON CE ") ++ mDepleted) = false := by decide +kernel
  have h6 : isIn mDepleted ((chars! "TURNING ON CE ") ++ mDepleted) = true := by decide +kernel
  have hv : values T ((chars! "TURNING ON CE ") ++ mDepleted) none none none =
      .ok [(.ceFlag, .flag true), (.result, .res .noInteraction)] := by
    unfold values
    rw [h1, h2, h3, h4, h5, h6]
    have hq : quiet (some (-99)) = true := by decide +kernel
    simp [depleted, starVals, hq]
  unfold convert
  show (match values T ((chars! "TURNING ON CE ") ++ mDepleted) none none none with
    | .error e => .error e
    | .ok v => .ok (fillDash [.result] v) : Except Err (List (Col × Val))) = _
  rw [hv]
  rfl

/-- More columns than requested are returned. -/
theorem C113_more_columns_violated (T : ℚ → ℚ → ℚ → ℚ) :
    ∃ t, convert T (some ['x']) none none none [.result] = .ok t ∧ Col.ceFlag ∈ t.map (·.1) := by
  refine ⟨[(.ceFlag, .flag false), (.result, .res .error)], ?_, by simp⟩
  rfl

/-- A history with a single row makes every conversion fail, also of runs of which the result does not depend on it. -/
theorem C113_one_row_violated (T : ℚ → ℚ → ℚ → ℚ) (o : Name) (ho : o ≠ []) (r : BRow) (s1 s2 : Option (List SRow)) (cols : List Col) :
    convert T (some o) (some [r]) s1 s2 cols = .error .type := by
  cases o with
  | nil => exact absurd rfl ho
  | cons c o => rfl

/-- A missing or an empty output is refused. -/
theorem C113_no_output (T : ℚ → ℚ → ℚ → ℚ) (b : Option (List BRow)) (s1 s2 : Option (List SRow)) (cols : List Col) :
    convert T none b s1 s2 cols = .error .value ∧ convert T (some []) b s1 s2 cols = .error .value := ⟨rfl, rfl⟩

/-- A binary that transfers mass and merges late. -/
example : (story (fun _ _ _ => 20000) mDepleted [⟨10, 5, 3, some (-12)⟩, ⟨8, 6, 4, some (-4)⟩]).name = .wide := by decide +kernel

/-- The values of a star are those of the last row of its history, also for a run without the history of the binary. -/
theorem C113_star_values (T : ℚ → ℚ → ℚ → ℚ) (ce : Bool) (b : Option (List BRow)) (s1 s2 : Option (List SRow)) (v : List (Col × Val))
    (h : depleted T ce b s1 s2 = .ok v) (q : Fin 4) :
    (∀ l r, s1 = some l → l.getLast? = some r → (Col.star false q, Val.num (r q)) ∈ v) ∧
    ∀ l r, s2 = some l → l.getLast? = some r → (Col.star true q, Val.num (r q)) ∈ v := by
  have key : ∀ (k : Bool) (s : Option (List SRow)) (w : List (Col × Val)), starVals k s = .ok w → ∀ l r, s = some l → l.getLast? = some r →
      (Col.star k q, Val.num (r q)) ∈ w := by
    intro k s w hw l r hs hl
    subst hs
    simp only [starVals, lastRow, hl] at hw
    cases hw
    exact List.mem_map.mpr ⟨q, List.mem_finRange q, rfl⟩
  unfold depleted at h
  cases h1 : starVals false s1 with
  | error e => rw [h1] at h; cases h
  | ok v1 =>
    cases h2 : starVals true s2 with
    | error e => rw [h1, h2] at h; cases h
    | ok v2 =>
      rw [h1, h2] at h
      have hsub : ∀ x ∈ v1 ++ v2, x ∈ v := by
        intro x hx
        cases b with
        | none =>
          dsimp only at h
          cases h
          exact List.mem_append_left _ hx
        | some l =>
          dsimp only at h
          cases hb : lastRow l with
          | error e => rw [hb] at h; cases h
          | ok r =>
            rw [hb] at h
            dsimp only at h
            cases h
            exact List.mem_append_left _ hx
      exact ⟨fun l r hs hl => hsub _ (List.mem_append_left _ (key false s1 v1 h1 l r hs hl)),
        fun l r hs hl => hsub _ (List.mem_append_right _ (key true s2 v2 h2 l r hs hl))⟩

/-- The default columns are all the columns there are, each once, so the default table has a cell for everything that may be found. -/
theorem C113_default_columns : defaultCols.Nodup ∧ [Col.result, .ceFlag, .m1, .m2, .porb, .tmerge] ⊆ defaultCols ∧
    (∀ k q, Col.star k q ∈ defaultCols) ∧ defaultCols.length = 14 :=
  ⟨by decide, by decide, by decide, rfl⟩

end Verif.GridTools
