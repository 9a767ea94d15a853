import Verif.Chars
import Verif.Frame
import Mathlib.Analysis.SpecialFunctions.Log.Base
import Mathlib.Analysis.SpecialFunctions.Sqrt
import Mathlib.Data.List.Sort
import Mathlib.Tactic.Linarith
import Mathlib.Tactic.Ring
import Mathlib.Tactic.FieldSimp

/-!
# Inputs and outputs of the initial-final interpolators

Model of `posydon/interpolation/IF_interpolation.py`: which quantities of a grid are interpolated, are classes or are left out (`BaseIFInterpolator.__init__`
l.460-508), whether mass ratios are used (`_interpIn_q`, l.879-902), the scaling of the inputs (`_bestInScaling`, l.904-938), which classifiers are trained
(`train_classifier`, l.742-773), the reports of missing values (`analize_nans`, `analize_nones`, l.1831-1867, with the labels of `_setValid`, l.630-652), the errors
that `assess_models` reports (l.1769-1810), and the neighbourhood of a slice (`is_in_ball`, l.2051-2059).

Simplifications.  Floats are rational or real numbers, NaN is `none`.  Percentiles are a parameter.  Training itself is in C83.
-/

namespace Verif.InScale

abbrev Name := List Char

inductive Err where
  | value
  | index
deriving DecidableEq

/-! ### Quantities -/

/-- A column: its name, whether its first entry is a text, and whether its entries are present. -/
structure Column where
  name : Name
  text : Bool
  given : List Bool
deriving DecidableEq

/-- `'_type' in k or '_state' in k or '_class' in k`. -/
def isClassName (k : Name) : Bool :=
  Frame.isIn (chars! "_type") k || Frame.isIn (chars! "_state") k || Frame.isIn (chars! "_class") k

/-- `k.split('_', 1)`, `none` if there is no underscore. -/
def cut : Name → Option (Name × Name)
  | [] => none
  | a :: l => if a = '_' then some ([], l) else (cut l).map fun p => (a :: p.1, p.2)

/-- `f"{prefix}_{model_name}_{field_name}"`. -/
def fullKey (model k : Name) : Except Err Name :=
  match cut k with
  | none => .error .value
  | some (p, f) => .ok (p ++ '_' :: model ++ '_' :: f)

/-- The full names of the columns `cs` of a model that pass the test `q`, in order: the name is split before the test. -/
def fullKeys (q : Column → Bool) (model : Name) : List Column → Except Err (List Name)
  | [] => .ok []
  | c :: cs =>
    match fullKey model c.name with
    | .error e => .error e
    | .ok k =>
      match fullKeys q model cs with
      | .error e => .error e
      | .ok r => .ok (if q c then k :: r else r)

/-- The loops over the supernova models. -/
def snKeys (p q : Column → Bool) : List (Name × List Column) → Except Err (List Name)
  | [] => .ok []
  | (m, cs) :: ms =>
    match fullKeys q m (cs.filter p) with
    | .error e => .error e
    | .ok a =>
      match snKeys p q ms with
      | .error e => .error e
      | .ok b => .ok (a ++ b)

structure Keys where
  out : List Name
  nan : List Name
  cls : List Name
deriving DecidableEq

/-- l.462-506 (no names given); a grid without runs has no first entry. -/
def keys (runs : ℕ) (final : List Column) (sn : List (Name × List Column)) : Except Err Keys :=
  if runs = 0 ∧ final ≠ [] then .error .index
  else
    let out := (final.filter fun c => decide (c.name ≠ (chars! "model_number")) && (!c.text && c.given.any id)).map Column.name
    let nan := (final.filter fun c => !c.text && c.given.all not).map Column.name
    let cls := (final.filter fun c => c.text).map Column.name
    match snKeys (fun c => !isClassName c.name) (fun c => c.given.any id) sn with
    | .error e => .error e
    | .ok o =>
      match snKeys (fun c => !isClassName c.name) (fun c => c.given.all not) sn with
      | .error e => .error e
      | .ok n =>
        match snKeys (fun c => isClassName c.name) (fun _ => true) sn with
        | .error e => .error e
        | .ok k => .ok ⟨out ++ o, nan ++ n, cls ++ k⟩

/-- `train_classifier`, l.753-759: a classifier is trained for a key that is not `None` in all tracks that are used; `none`: it stays `None`. -/
def classifier (method : Name) (tracks : List (ℤ × Name)) : Except Err (Option (List Name)) :=
  if (tracks.filter fun t => decide (t.1 ≥ 0)).any (fun t => decide (t.2 ≠ (chars! "None"))) then
    if method = (chars! "kNN") ∨ method = (chars! "1NN") then .ok (some ((tracks.filter fun t => decide (t.1 ≥ 0)).map (·.2)))
    else .error .value
  else .ok none

/-! ### Mass ratios -/

def minQ : List ℚ → Option ℚ
  | [] => none
  | a :: l => some (l.foldl min a)

def maxQ : List ℚ → Option ℚ
  | [] => none
  | a :: l => some (l.foldl max a)

/-- The runs with both masses, l.896-897. -/
def both : List (Option ℚ × Option ℚ) → List (ℚ × ℚ)
  | [] => []
  | (some a, some b) :: l => (a, b) :: both l
  | _ :: l => both l

/-- `x / y > 2` of floats. -/
def ratioBig (x y : ℚ) : Bool := if y = 0 then decide (0 < x) else decide (2 < x / y)

/-- `_interpIn_q`, l.893-902. -/
def interpInQ (runs : List (Option ℚ × Option ℚ)) : Except Err Bool :=
  match maxQ ((both runs).map (·.1)), minQ ((both runs).map (·.1)) with
  | some mx, some mn =>
    match minQ (((both runs).filter fun r => decide (95 / 100 * mx < r.1)).map (·.2)),
      minQ (((both runs).filter fun r => decide (r.1 < 105 / 100 * mn)).map (·.2)) with
    | some hi, some lo => .ok (ratioBig hi lo)
    | _, _ => .error .value
  | _, _ => .error .value

/-! ### Reports -/

/-- The label of a class, l.644-645: its position among the valid classes, which are in alphabetical order (`np.unique`). -/
def labelOf (classes : List Name) (c : Name) : ℕ :=
  match classes.findIdx? (· == c) with
  | some i => i + 1
  | none => 0

/-- The four numbers that are reported for a quantity, l.1836-1840 and l.1856-1860: of initial mass transfer, no, stable and unstable mass transfer. -/
def report (tracks : List (ℤ × Bool)) : List ℕ :=
  [0, 1, 2, 3].map fun v => (tracks.filter fun t => decide (t.1 = v) && t.2).length

/-- A row of the table of errors, l.1792-1810, for a quantity `ind`: `errs` has the errors of a model (a row for each run), `gt` and `pred` the classes.  The
numbers are percentiles of lists of errors: the first three of the runs of a class that was predicted.  For the fourth, the entry of the model's number in the
array of right predictions is used as an index: `errs[True, ind]` is the row `ind`, `errs[False, ind]` has no entry. -/
def errorsOf (errs : List (List ℚ)) (gt pred : List Name) (c : Name) (ind : ℕ) : List ℚ :=
  (((errs.zip (gt.zip pred)).filter fun t => decide (t.2.1 = c) && decide (t.2.2 = c)).map fun t => t.1.getD ind 0)

def right (gt pred : List Name) : List Bool :=
  (gt.zip pred).map fun t => decide (t.1 ≠ (chars! "initial_MT")) == decide (t.2 ≠ (chars! "initial_MT"))

def totalOf (errs : List (List ℚ)) (gt pred : List Name) (model ind : ℕ) : Except Err (List ℚ) :=
  match (right gt pred)[model]? with
  | none => .error .index
  | some b =>
    match errs[ind]? with
    | none => .error .index
    | some row => .ok (if b then row else [])

/-! ### Scaling of the inputs -/

noncomputable section
open Classical

def mean (l : List ℝ) : ℝ := l.sum / l.length

def sorted (l : List ℝ) : List ℝ := l.insertionSort (· ≤ ·)

/-- `np.median`. -/
def median (l : List ℝ) : ℝ :=
  if l.length % 2 = 1 then (sorted l).getD (l.length / 2) 0
  else ((sorted l).getD (l.length / 2 - 1) 0 + (sorted l).getD (l.length / 2) 0) / 2

/-- `np.std`. -/
def std (l : List ℝ) : ℝ := Real.sqrt (mean (l.map fun x => (x - mean l) ^ 2))

/-- `np.abs(np.mean(x) - np.median(x)) / np.std(x)`. -/
def skew (l : List ℝ) : ℝ := |mean l - median l| / std l

def values : List (Option ℝ) → Option (List ℝ)
  | [] => some []
  | none :: _ => none
  | some x :: l => (values l).map (x :: ·)

/-- Whether `min_max` is chosen (otherwise `log_min_max`), l.914-921.  With a missing entry, or one without logarithm, the comparison is one with NaN and false; for
equal entries both sides are `0 / 0`. -/
def linear (l : List (Option ℝ)) : Bool :=
  match values l with
  | none => false
  | some x => decide (∀ v ∈ x, 0 < v) && decide (skew x < skew (x.map (Real.logb 10)))

/-- `in_scale_one()`, l.910-923: a choice for each column. -/
def allScaling (n : ℕ) (rows : List (List (Option ℝ))) : List Bool := (List.range n).map fun i => linear (rows.map fun r => r.getD i none)

/-- `in_scale_one(c)`: without the number of the column, the whole rows of the class are taken. -/
def classScaling (n : ℕ) (rows : List (List (Option ℝ) × Name)) (c : Name) : List Bool :=
  (List.range n).map fun _ => linear ((rows.filter fun r => decide (r.2 = c)).map (·.1)).flatten

/-- `is_in_ball`, for one value and the first two entries of the axis. -/
def inBall (log : Bool) (x x0 u0 u1 : ℝ) : Prop :=
  if log then
    Real.logb 10 x0 - (Real.logb 10 u1 - Real.logb 10 u0) / 2 < Real.logb 10 x ∧
      Real.logb 10 x < Real.logb 10 x0 + (Real.logb 10 u1 - Real.logb 10 u0) / 2
  else x - (u1 - u0) / 2 < x ∧ x < x + (u1 - u0) / 2

end

/-! ### Helper lemmas -/

theorem foldl_min (l : List ℚ) (a : ℚ) : (l.foldl min a ≤ a ∧ ∀ x ∈ l, l.foldl min a ≤ x) ∧ (l.foldl min a = a ∨ l.foldl min a ∈ l) := by
  induction l generalizing a with
  | nil => simp
  | cons b l ih =>
    obtain ⟨⟨h1, h2⟩, h3⟩ := ih (min a b)
    refine ⟨⟨h1.trans (min_le_left _ _), ?_⟩, ?_⟩
    · intro x hx
      rcases List.mem_cons.mp hx with rfl | hx
      · exact h1.trans (min_le_right _ _)
      · exact h2 x hx
    · rcases h3 with h3 | h3
      · rcases min_choice a b with hm | hm
        · left; rw [List.foldl_cons, h3, hm]
        · right; rw [List.foldl_cons, h3, hm]; simp
      · right; exact List.mem_cons_of_mem _ h3

theorem foldl_max (l : List ℚ) (a : ℚ) : (a ≤ l.foldl max a ∧ ∀ x ∈ l, x ≤ l.foldl max a) ∧ (l.foldl max a = a ∨ l.foldl max a ∈ l) := by
  induction l generalizing a with
  | nil => simp
  | cons b l ih =>
    obtain ⟨⟨h1, h2⟩, h3⟩ := ih (max a b)
    refine ⟨⟨(le_max_left _ _).trans h1, ?_⟩, ?_⟩
    · intro x hx
      rcases List.mem_cons.mp hx with rfl | hx
      · exact (le_max_right _ _).trans h1
      · exact h2 x hx
    · rcases h3 with h3 | h3
      · rcases max_choice a b with hm | hm
        · left; rw [List.foldl_cons, h3, hm]
        · right; rw [List.foldl_cons, h3, hm]; simp
      · right; exact List.mem_cons_of_mem _ h3

theorem minQ_iff (l : List ℚ) (m : ℚ) : minQ l = some m ↔ m ∈ l ∧ ∀ x ∈ l, m ≤ x := by
  cases l with
  | nil => simp [minQ]
  | cons a l =>
    obtain ⟨⟨h1, h2⟩, h3⟩ := foldl_min l a
    have hmem : l.foldl min a ∈ a :: l := by
      rcases h3 with h3 | h3
      · rw [h3]; simp
      · exact List.mem_cons_of_mem _ h3
    have hle : ∀ x ∈ a :: l, l.foldl min a ≤ x := by
      intro x hx
      rcases List.mem_cons.mp hx with rfl | hx
      · exact h1
      · exact h2 x hx
    unfold minQ
    constructor
    · intro h
      obtain rfl := Option.some.inj h
      exact ⟨hmem, hle⟩
    · rintro ⟨h, h'⟩
      exact congrArg some (le_antisymm (hle m h) (h' _ hmem))

theorem maxQ_iff (l : List ℚ) (m : ℚ) : maxQ l = some m ↔ m ∈ l ∧ ∀ x ∈ l, x ≤ m := by
  cases l with
  | nil => simp [maxQ]
  | cons a l =>
    obtain ⟨⟨h1, h2⟩, h3⟩ := foldl_max l a
    have hmem : l.foldl max a ∈ a :: l := by
      rcases h3 with h3 | h3
      · rw [h3]; simp
      · exact List.mem_cons_of_mem _ h3
    have hle : ∀ x ∈ a :: l, x ≤ l.foldl max a := by
      intro x hx
      rcases List.mem_cons.mp hx with rfl | hx
      · exact h1
      · exact h2 x hx
    unfold maxQ
    constructor
    · intro h
      obtain rfl := Option.some.inj h
      exact ⟨hmem, hle⟩
    · rintro ⟨h, h'⟩
      exact congrArg some (le_antisymm (h' _ hmem) (hle m h))

theorem minQ_none (l : List ℚ) : minQ l = none ↔ l = [] := by cases l <;> simp [minQ]
theorem maxQ_none (l : List ℚ) : maxQ l = none ↔ l = [] := by cases l <;> simp [maxQ]

theorem mem_both (runs : List (Option ℚ × Option ℚ)) (a b : ℚ) : (a, b) ∈ both runs ↔ (some a, some b) ∈ runs := by
  induction runs with
  | nil => simp [both]
  | cons r l ih =>
    obtain ⟨x, y⟩ := r
    cases x <;> cases y <;> simp [both, ih]

end Verif.InScale
