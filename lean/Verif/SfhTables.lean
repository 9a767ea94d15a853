import Verif.SfhProps
import Mathlib.Data.Real.Basic
import Mathlib.Data.List.MinMax
/-!
# Star formation histories from tables

Model of `posydon/popsyn/star_formation_history.py`: `IllustrisTNG` (l.575-688), `Chruslinska21` (l.702-913) and `Zavala21` (l.963-1009): reading of the tables,
rates, mean metallicities, and the choice of the row for a redshift.  The distribution of a row over bins is modelled in `Sfh`.

Simplifications.  Floats are real numbers, NaN is `none`.  The contents of files are parameters; all tables have as many rows as redshifts and as many columns as
metallicities.  `np.argsort` is a parameter.  `np.interp` is written out as documented: a tabulated abscissa gives its own value, a gap next to a NaN gives NaN.
Warnings are left out.
-/
namespace Verif.SfhTables
open Classical
open Verif.Sfh (tableFractions)

inductive Err where
  | value
  | index
  | assertion
deriving DecidableEq

/-! ### Interpolation with missing values -/

abbrev Node := ℝ × Option ℝ

/-- The straight line between two nodes; NaN if one of them is. -/
noncomputable def line (p q : Node) (x : ℝ) : Option ℝ :=
  match p.2, q.2 with
  | some a, some b => some (a + (b - a) / (q.1 - p.1) * (x - p.1))
  | _, _ => none

/-- `np.interp` inside the range. -/
noncomputable def seg : List Node → ℝ → Option ℝ
  | [], _ => none
  | [p], _ => p.2
  | p :: q :: r, x => if q.1 ≤ x then seg (q :: r) x else if x = p.1 then p.2 else line p q x

/-- `np.interp` without fill values. -/
noncomputable def call (p : Node) (ps : List Node) (x : ℝ) : Option ℝ :=
  if x < p.1 then p.2
  else if ((p :: ps).getLast (by simp)).1 < x then ((p :: ps).getLast (by simp)).2
  else seg (p :: ps) x

/-- The order of the nodes, interpolators.py l.52-61. -/
noncomputable def arrange (argsort : List Node → List Node) (l : List Node) : List Node :=
  if l.Pairwise (fun a b => a.1 < b.1) then l else if l.Pairwise (fun a b => b.1 < a.1) then l.reverse else argsort l

/-- `interp1d(x, y)(z)`, interpolators.py l.46-105, with the assertion at the end of the initialisation, which fails for a NaN. -/
noncomputable def curve (argsort : List Node → List Node) (xs : List ℝ) (ys : List (Option ℝ)) (z : ℝ) : Except Err (Option ℝ) :=
  if xs.length ≠ ys.length then .error .value
  else match xs, ys, arrange argsort (xs.zip ys) with
    | x :: _, y :: _, p :: ps => if y ≠ none ∧ call p ps x = y then .ok (call p ps z) else .error .assertion
    | _, _, _ => .error .index

/-! ### Rows -/

/-- `np.average(Z, weights=w)`, and NaN for no weights (l.642-645, l.810-813). -/
noncomputable def average (zs ws : List ℝ) : Option ℝ :=
  if ws.sum = 0 then none else some ((List.zipWith (· * ·) zs ws).sum / ws.sum)

/-- `np.where(redshifts <= z)[0]`. -/
noncomputable def notAbove (rs : List ℝ) (z : ℝ) : List ℕ := (List.range rs.length).filter fun i => decide (rs.getD i 0 ≤ z)

/-- A table after reading. -/
structure Table where
  rs : List ℝ
  zs : List ℝ
  rows : List (List ℝ)

/-- The file of IllustrisTNG, l.591-597: redshifts, rates and masses are reversed. -/
def readIllustris (rs sfr zs : List ℝ) (m : List (List ℝ)) : Table × List ℝ := (⟨rs.reverse, zs, m.reverse⟩, sfr.reverse)

/-- The rate, l.624-625. -/
noncomputable def rateIllustris (argsort : List Node → List Node) (t : Table × List ℝ) (z : ℝ) : Except Err (Option ℝ) :=
  curve argsort t.1.rs (t.2.map some) z

/-- The mean metallicity, l.640-647. -/
noncomputable def meanIllustris (argsort : List Node → List Node) (t : Table) (z : ℝ) : Except Err (Option ℝ) :=
  curve argsort t.rs (t.rows.map (average t.zs)) z

/-- The row for a redshift, l.670. -/
noncomputable def rowIllustris (t : Table) (z : ℝ) : Except Err ℕ :=
  match (notAbove t.rs z).getLast? with
  | none => .error .index
  | some i => .ok i

/-- The fractions of one row in bins, l.671-686 and l.850-862; an empty table has no mass. -/
noncomputable def fractions (zmin zmax : Option ℝ) (normalise : Bool) (t : Table) (i : ℕ) (bins : List ℝ) : Except Sfh.Err (Option (List ℝ)) :=
  match t.zs.map (Real.logb 10), t.rows.getD i [] with
  | x :: xs, m :: ms => tableFractions zmin zmax normalise x m xs ms bins
  | _, _ => .ok (some (List.replicate (bins.length - 1) 0))

/-! ### Chruslinska et al. -/

/-- The scaling with the Sun, l.774-791: metallicity and abundance of oxygen of the Sun. -/
noncomputable def solar (s : String) : Except Err (ℝ × ℝ) :=
  if s = "Asplund09" then .ok (0.0134, 8.69)
  else if s = "AndersGrevesse89" then .ok (0.017, 8.83)
  else if s = "GrevesseSauval98" then .ok (0.0201, 8.93)
  else if s = "Villante14" then .ok (0.019, 8.85)
  else .error .value

/-- `_FOH_to_Z`, l.760-793. -/
noncomputable def toZ (s : String) (foh : ℝ) : Except Err ℝ :=
  match solar s with
  | .error e => .error e
  | .ok (z, f) => .ok ((10 : ℝ) ^ (Real.logb 10 z + foh - f))

/-- `np.linspace(5.3, 9.7, 200)`, l.746-748. -/
noncomputable def fohBins : List ℝ := (List.range 200).map fun (i : ℕ) => (5.3 : ℝ) + i * ((9.7 - 5.3) / 199)

/-- The difference of the first two, l.749. -/
noncomputable def dFOH : ℝ := fohBins.getD 1 0 - fohBins.getD 0 0

/-- The metallicities of the table. -/
noncomputable def fohZ (s : String) : Except Err (List ℝ) :=
  match solar s with
  | .error e => .error e
  | .ok (z, f) => .ok (fohBins.map fun x => (10 : ℝ) ^ (Real.logb 10 z + x - f))

/-- `_load_chruslinska_data`, l.734-758; the checks of l.727-730 come first: whether the sub-model and the scaling are given. -/
noncomputable def readChruslinska (subModel : Bool) (scaling : Option String) (rs dts : List ℝ) (m : List (List ℝ)) : Except Err Table :=
  if subModel = false then .error .value
  else match scaling with
    | none => .error .value
    | some s =>
      match fohZ s with
      | .error e => .error e
      | .ok zs => .ok ⟨rs, zs, List.zipWith (fun row dt => row.map fun x => x / (1000000 * dt) / dFOH) m dts⟩

/-- The rate, l.912-913. -/
noncomputable def rateChruslinska (argsort : List Node → List Node) (t : Table) (z : ℝ) : Except Err (Option ℝ) :=
  curve argsort t.rs (t.rows.map fun row => some ((row.map (· * dFOH)).sum)) z

/-- The mean metallicity, l.808-816: no weights are found before the multiplication with the width. -/
noncomputable def meanChruslinska (argsort : List Node → List Node) (t : Table) (z : ℝ) : Except Err (Option ℝ) :=
  curve argsort t.rs (t.rows.map fun row => if row.sum = 0 then none else average t.zs (row.map (· * dFOH))) z

/-- `np.min`. -/
noncomputable def minOf : List ℝ → Except Err ℝ
  | [] => .error .value
  | a :: l => .ok (l.foldl min a)

/-- The first row with a redshift not above, l.845 and l.848. -/
noncomputable def firstRow (t : Table) (z : ℝ) : Except Err ℕ :=
  match (notAbove t.rs z).head? with
  | none => .error .index
  | some i => .ok i

def mapE {A B : Type} (f : A → Except Err B) : List A → Except Err (List B)
  | [] => .ok []
  | a :: l =>
    match f a with
    | .error e => .error e
    | .ok b =>
      match mapE f l with
      | .error e => .error e
      | .ok r => .ok (b :: r)

/-- The rows for redshifts, l.839-848; index `-1` is the last row. -/
noncomputable def rowsChruslinska (t : Table) (zs : List ℝ) : Except Err (List ℕ) :=
  match minOf zs with
  | .error e => .error e
  | .ok a =>
    match minOf t.rs with
    | .error e => .error e
    | .ok b =>
      if a < b then mapE (fun z => if z < b then .ok (t.rs.length - 1) else firstRow t z) zs
      else mapE (firstRow t) zs

/-! ### Zavala et al. -/

/-- `__init__` and `_load_zavala_data`, l.980-1004: the column of the sub-model (`none` if it is not given). -/
def zavala (sub : Option String) (lo hi : List ℝ) : Except Err (List ℝ) :=
  match sub with
  | none => .error .value
  | some s => if s = "min" then .ok lo else if s = "max" then .ok hi else .error .value

/-- The rate, l.1007-1009. -/
noncomputable def rateZavala (argsort : List Node → List Node) (rs : List ℝ) (sub : Option String) (lo hi : List ℝ) (z : ℝ) : Except Err (Option ℝ) :=
  match zavala sub lo hi with
  | .error e => .error e
  | .ok l => curve argsort rs (l.map some) z

/-! ### Specification -/

/-- A function that sorts nodes by their abscissae. -/
def Sorts (argsort : List Node → List Node) : Prop := ∀ l, (argsort l).Perm l ∧ (argsort l).Pairwise (fun a b => a.1 ≤ b.1)

/-- What a curve through the points `(x, y)` gives at `z`: the value of a point, a value between neighbours, or the value of the nearest end. -/
structure Through (xs : List ℝ) (ys : List (Option ℝ)) (f : ℝ → Option ℝ) : Prop where
  at_points : ∀ (i : ℕ) x y, xs[i]? = some x → ys[i]? = some y → f x = y
  below : ∀ z (i : ℕ) x y, xs[i]? = some x → ys[i]? = some y → (∀ x' ∈ xs, x ≤ x') → z ≤ x → f z = y
  above : ∀ z (i : ℕ) x y, xs[i]? = some x → ys[i]? = some y → (∀ x' ∈ xs, x' ≤ x) → x ≤ z → f z = y
  between : ∀ z (i j : ℕ) x x' y y', xs[i]? = some x → xs[j]? = some x' → ys[i]? = some (some y) → ys[j]? = some (some y') → x < z → z < x' →
    (∀ x'' ∈ xs, x'' ≤ x ∨ x' ≤ x'') → f z = some (y + (y' - y) * ((z - x) / (x' - x)))
  gap : ∀ z (i j : ℕ) x x', xs[i]? = some x → xs[j]? = some x' → (ys[i]? = some none ∨ ys[j]? = some none) → x < z → z < x' →
    (∀ x'' ∈ xs, x'' ≤ x ∨ x' ≤ x'') → f z = none

/-! ### Helper lemmas -/

theorem arrange_perm {argsort : List Node → List Node} (hs : Sorts argsort) (l : List Node) : (arrange argsort l).Perm l := by
  unfold arrange
  split_ifs
  · exact .refl _
  · exact List.reverse_perm _
  · exact (hs l).1

theorem arrange_incr {argsort : List Node → List Node} (hs : Sorts argsort) (l : List Node) (hn : (l.map Prod.fst).Nodup) :
    (arrange argsort l).Pairwise (fun a b => a.1 < b.1) := by
  unfold arrange
  split_ifs with h1 h2
  · exact h1
  · exact List.pairwise_reverse.2 h2
  · have hp := hs l
    have hn' : ((argsort l).map Prod.fst).Nodup := (hp.1.map _).nodup_iff.2 hn
    have := List.pairwise_map.1 hn'
    exact (hp.2.and this).imp fun h => lt_of_le_of_ne h.1 h.2

/-- Left of the next node the segment of a node is used. -/
theorem seg_spec : ∀ (l : List Node), l.Pairwise (fun a b => a.1 < b.1) → ∀ z,
    (∀ p ∈ l, seg l p.1 = p.2) ∧
    (∀ p ∈ l, ∀ q ∈ l, p.1 < z → z < q.1 → (∀ n ∈ l, n.1 ≤ p.1 ∨ q.1 ≤ n.1) → seg l z = line p q z)
  | [], _, z => ⟨by simp, by simp⟩
  | [p], _, z => by
    refine ⟨by simp [seg], ?_⟩
    intro a ha b hb h1 h2 _
    rw [List.mem_singleton] at ha hb
    subst ha hb
    exact absurd (h1.trans h2) (lt_irrefl _)
  | p :: q :: r, h, z => by
    obtain ⟨hp, hr⟩ := List.pairwise_cons.1 h
    have hpq : p.1 < q.1 := hp q (by simp)
    obtain ⟨i1, i2⟩ := seg_spec (q :: r) hr z
    have hq : ∀ n ∈ q :: r, q.1 ≤ n.1 := by
      intro n hn
      rcases List.mem_cons.1 hn with rfl | hn
      · exact le_rfl
      · exact ((List.pairwise_cons.1 hr).1 n hn).le
    constructor
    · intro n hn
      rcases List.mem_cons.1 hn with rfl | hn
      · rw [seg, if_neg (not_le.2 hpq), if_pos rfl]
      · rw [seg, if_pos (hq n hn)]
        exact (seg_spec (q :: r) hr n.1).1 n hn
    · intro a ha b hb h1 h2 h3
      rcases List.mem_cons.1 ha with rfl | ha
      · have hb' : b ∈ q :: r := by
          rcases List.mem_cons.1 hb with rfl | hb
          · exact absurd (h1.trans h2) (lt_irrefl _)
          · exact hb
        have hbq : b = q := by
          rcases h3 q (by simp) with e | e
          · exact absurd hpq (not_lt.2 e)
          · rcases List.mem_cons.1 hb' with rfl | hb''
            · rfl
            · exact absurd ((List.pairwise_cons.1 hr).1 b hb'') (not_lt.2 e)
        subst hbq
        rw [seg, if_neg (not_le.2 h2), if_neg h1.ne']
      · have hqz : q.1 ≤ z := (hq a ha).trans h1.le
        rw [seg, if_pos hqz]
        have hb' : b ∈ q :: r := by
          rcases List.mem_cons.1 hb with rfl | hb
          · exact absurd (hpq.trans_le (hqz.trans h2.le)) (lt_irrefl _)
          · exact hb
        exact i2 a ha b hb' h1 h2 fun n hn => h3 n (List.mem_cons_of_mem _ hn)

theorem le_last {l : List Node} (h : l.Pairwise (fun a b => a.1 < b.1)) (hne : l ≠ []) {n : Node} (hn : n ∈ l) : n.1 ≤ (l.getLast hne).1 := by
  induction l with
  | nil => exact absurd rfl hne
  | cons p r ih =>
    cases r with
    | nil => rw [List.mem_singleton] at hn; subst hn; simp
    | cons q r =>
      rw [List.getLast_cons (by simp)]
      rcases List.mem_cons.1 hn with rfl | hn
      · exact ((List.pairwise_cons.1 h).1 _ (List.getLast_mem _)).le
      · exact ih (List.pairwise_cons.1 h).2 (by simp) hn

theorem first_le {p : Node} {ps : List Node} (h : (p :: ps).Pairwise (fun a b => a.1 < b.1)) {n : Node} (hn : n ∈ p :: ps) : p.1 ≤ n.1 := by
  rcases List.mem_cons.1 hn with rfl | hn
  · exact le_rfl
  · exact ((List.pairwise_cons.1 h).1 n hn).le

theorem same_node {l : List Node} (h : l.Pairwise (fun a b => a.1 < b.1)) {a b : Node} (ha : a ∈ l) (hb : b ∈ l) (e : a.1 = b.1) : a = b := by
  induction l with
  | nil => exact absurd ha (by simp)
  | cons p r ih =>
    obtain ⟨h1, h2⟩ := List.pairwise_cons.1 h
    rcases List.mem_cons.1 ha with ea | ha'
    · rcases List.mem_cons.1 hb with eb | hb'
      · rw [ea, eb]
      · exact absurd (ea ▸ e) (h1 b hb').ne
    · rcases List.mem_cons.1 hb with eb | hb'
      · exact absurd (eb ▸ e) (h1 a ha').ne'
      · exact ih h2 ha' hb'

theorem call_node {p : Node} {ps : List Node} (h : (p :: ps).Pairwise (fun a b => a.1 < b.1)) {n : Node} (hn : n ∈ p :: ps) : call p ps n.1 = n.2 := by
  unfold call
  rw [if_neg (not_lt.2 (first_le h hn)), if_neg (not_lt.2 (le_last h (by simp) hn))]
  exact (seg_spec _ h n.1).1 n hn

theorem zip_mem_iff (xs : List ℝ) (ys : List (Option ℝ)) (n : Node) :
    n ∈ xs.zip ys ↔ ∃ i : ℕ, xs[i]? = some n.1 ∧ ys[i]? = some n.2 := by
  rw [List.mem_iff_getElem?]
  constructor
  · rintro ⟨i, hi⟩
    rw [List.getElem?_zip_eq_some] at hi
    exact ⟨i, hi⟩
  · rintro ⟨i, hi⟩
    exact ⟨i, by rw [List.getElem?_zip_eq_some]; exact hi⟩

theorem call_through {xs : List ℝ} {ys : List (Option ℝ)} (hl : xs.length = ys.length) {p : Node} {ps : List Node}
    (hi : (p :: ps).Pairwise (fun a b => a.1 < b.1)) (hp : (p :: ps).Perm (xs.zip ys)) : Through xs ys (call p ps) := by
  have hmem : ∀ n : Node, n ∈ p :: ps ↔ ∃ i : ℕ, xs[i]? = some n.1 ∧ ys[i]? = some n.2 := fun n => by
    rw [hp.mem_iff, zip_mem_iff]
  have hx : ∀ n ∈ p :: ps, n.1 ∈ xs := fun n hn => by
    obtain ⟨i, h1, -⟩ := (hmem n).1 hn
    exact List.mem_of_getElem? h1
  refine ⟨?_, ?_, ?_, ?_, ?_⟩
  · intro i x y h1 h2
    exact call_node hi ((hmem (x, y)).2 ⟨i, h1, h2⟩)
  · intro z i x y h1 h2 h3 hz
    have hn : (x, y) ∈ p :: ps := (hmem (x, y)).2 ⟨i, h1, h2⟩
    have e : p = (x, y) := same_node hi (by simp) hn (le_antisymm (first_le hi hn) (h3 _ (hx p (by simp))))
    rcases hz.lt_or_eq with h | h
    · unfold call
      rw [if_pos (by rw [e]; exact h), e]
    · rw [h]
      exact call_node hi hn
  · intro z i x y h1 h2 h3 hz
    have hn : (x, y) ∈ p :: ps := (hmem (x, y)).2 ⟨i, h1, h2⟩
    have e : (p :: ps).getLast (by simp) = (x, y) :=
      same_node hi (List.getLast_mem _) hn (le_antisymm (h3 _ (hx _ (List.getLast_mem _))) (le_last hi _ hn))
    rcases hz.lt_or_eq with h | h
    · unfold call
      rw [if_neg (not_lt.2 ((first_le hi hn).trans h.le)), if_pos (by rw [e]; exact h), e]
    · rw [← h]
      exact call_node hi hn
  · intro z i j x x' y y' h1 h2 h3 h4 hz hz' hg
    have ha : (x, some y) ∈ p :: ps := (hmem _).2 ⟨i, h1, h3⟩
    have hb : (x', some y') ∈ p :: ps := (hmem _).2 ⟨j, h2, h4⟩
    have : call p ps z = line (x, some y) (x', some y') z := by
      unfold call
      rw [if_neg (not_lt.2 ((first_le hi ha).trans hz.le)), if_neg (not_lt.2 (hz'.le.trans (le_last hi _ hb)))]
      exact (seg_spec _ hi z).2 _ ha _ hb hz hz' fun n hn => hg _ (hx n hn)
    rw [this, line]
    simp only
    congr 2
    rw [div_mul_eq_mul_div, mul_div_assoc]
  · intro z i j x x' h1 h2 h3 hz hz' hg
    have hlen : ∀ (k : ℕ) (v : ℝ), xs[k]? = some v → ∃ w, ys[k]? = some w := by
      intro k v hk
      have := (List.getElem?_eq_some_iff.1 hk).1
      exact ⟨ys[k]'(hl ▸ this), List.getElem?_eq_getElem _⟩
    obtain ⟨y, hy⟩ := hlen i x h1
    obtain ⟨y', hy'⟩ := hlen j x' h2
    have ha : (x, y) ∈ p :: ps := (hmem _).2 ⟨i, h1, hy⟩
    have hb : (x', y') ∈ p :: ps := (hmem _).2 ⟨j, h2, hy'⟩
    have : call p ps z = line (x, y) (x', y') z := by
      unfold call
      rw [if_neg (not_lt.2 ((first_le hi ha).trans hz.le)), if_neg (not_lt.2 (hz'.le.trans (le_last hi _ hb)))]
      exact (seg_spec _ hi z).2 _ ha _ hb hz hz' fun n hn => hg _ (hx n hn)
    rw [this, line]
    rcases h3 with h3 | h3
    · rw [hy] at h3; cases h3; rfl
    · rw [hy'] at h3; cases h3; cases y <;> rfl

theorem mem_notAbove (rs : List ℝ) (z : ℝ) (i : ℕ) : i ∈ notAbove rs z ↔ ∃ r, rs[i]? = some r ∧ r ≤ z := by
  unfold notAbove
  rw [List.mem_filter, List.mem_range, decide_eq_true_eq]
  constructor
  · rintro ⟨h1, h2⟩
    exact ⟨rs[i], List.getElem?_eq_getElem h1, by rwa [List.getD_eq_getElem _ _ h1] at h2⟩
  · rintro ⟨r, h1, h2⟩
    obtain ⟨h, e⟩ := List.getElem?_eq_some_iff.1 h1
    exact ⟨h, by rw [List.getD_eq_getElem _ _ h, e]; exact h2⟩

theorem notAbove_sorted (rs : List ℝ) (z : ℝ) : (notAbove rs z).Pairwise (· < ·) := List.pairwise_lt_range.filter _

theorem minOf_spec : ∀ (l : List ℝ) (a : ℝ), minOf l = .ok a → a ∈ l ∧ ∀ x ∈ l, a ≤ x
  | [], a, h => by simp [minOf] at h
  | x :: l, a, h => by
    rw [minOf] at h
    cases h
    induction l generalizing x with
    | nil => simp
    | cons y l ih =>
      obtain ⟨h1, h2⟩ := ih (min x y)
      rw [List.foldl_cons]
      constructor
      · rcases List.mem_cons.1 h1 with e | e
        · rw [e]
          rcases min_choice x y with e' | e' <;> rw [e'] <;> simp
        · exact List.mem_cons_of_mem _ (List.mem_cons_of_mem _ e)
      · intro w hw
        have h0 := h2 (min x y) (by simp)
        rcases List.mem_cons.1 hw with rfl | hw
        · exact h0.trans (min_le_left _ _)
        · rcases List.mem_cons.1 hw with rfl | hw
          · exact h0.trans (min_le_right _ _)
          · exact h2 w (List.mem_cons_of_mem _ hw)

theorem mapE_ok {A B : Type} (f : A → Except Err B) (g : A → B) : ∀ l : List A, (∀ a ∈ l, f a = .ok (g a)) → mapE f l = .ok (l.map g)
  | [], _ => rfl
  | a :: l, h => by
    rw [mapE, h a (by simp), mapE_ok f g l fun b hb => h b (List.mem_cons_of_mem _ hb)]
    rfl

end Verif.SfhTables
