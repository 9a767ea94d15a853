import Verif.Chars
import Mathlib.Data.Real.Basic
import Mathlib.Data.List.Sort
import Mathlib.Analysis.Complex.ExponentialBounds
import Mathlib.Analysis.SpecialFunctions.Sqrt
import Mathlib.Analysis.SpecialFunctions.Trigonometric.Basic
import Mathlib.Tactic.Linarith
import Mathlib.Tactic.Ring
import Mathlib.Tactic.NormNum

/-!
# Neighbours, test points and made-up data of the active learning

Model of `posydon/active_learning/psy_cris/data.py`: `calc_avg_dist` (l.21-55), `find_n_neighbors` (l.509-565), `_return_data_` (l.643-657), `get_class_data`
(l.659-717), `get_regr_data` (l.719-751); of `get_rnd_test_inputs` in `classify.py` (l.745-793) and `regress.py` (l.971-1023); and of the functions in
`synthetic_data/synth_data_2D.py` (l.23-37, l.81-82, l.113-148) and `synth_data_3D.py` (l.11-117).

Simplifications.  Floats are real numbers.  Points are given by their number and their distances.  The search for neighbours of scikit-learn is a parameter that
returns nearest points by distance, with any choice among points of the same distance.  Random numbers are parameters between 0 and 1.  Arrays of points are lists.
-/

namespace Verif.Neigh

abbrev Name := List Char

inductive Err where
  | key
  | value
  | type
  | index
deriving DecidableEq

noncomputable section
open Classical

/-! ### Neighbours -/

/-- The distances among `m` points: `d i j`. -/
abbrev Dist := ℕ → ℕ → ℝ

/-- A search: for a number of neighbours and a point the neighbours in their order. -/
abbrev Search := ℕ → ℕ → List ℕ

/-- `np.mean`; NaN for no values. -/
def mean (l : List ℝ) : Option ℝ := if l = [] then none else some (l.sum / l.length)

/-- `a[1:len(a)]` of the transposed results, l.52-53. -/
def slice1 (m : ℕ) (l : List ℕ) : List ℕ := (l.take m).drop 1

/-- `calc_avg_dist` (l.21-55): for each point the mean distance and the neighbours.  The search refuses more neighbours than points, and no points. -/
def avgDist (m : ℕ) (d : Dist) (search : Search) (n : ℕ) : Except Err (List (Option ℝ × List ℕ)) :=
  if m = 0 then .error .value
  else if m < n + 1 then .error .value
  else .ok ((List.range m).map fun i => (mean ((slice1 m (search (n + 1) i)).map (d i)), slice1 m (search (n + 1) i)))

/-- Points: their number, their distances and a search among them. -/
structure Points where
  m : ℕ
  d : Dist
  search : Search

/-- What `find_n_neighbors` can be given. -/
inductive Given where
  | table (p : Points)
  | list (p : Points)
  | array (p : Points)
  | other

/-- One entry of a dictionary is set: in its place, or at the end. -/
def put {B : Type} (k : ℕ) (v : B) : List (ℕ × B) → List (ℕ × B)
  | [] => [(k, v)]
  | (j, w) :: r => if j = k then (j, v) :: r else (j, w) :: put k v r

/-- The loop of l.557-561. -/
def neighbours (p : Points) : List ℕ → List (ℕ × List (Option ℝ × List ℕ)) → Except Err (List (ℕ × List (Option ℝ × List ℕ)))
  | [], acc => .ok acc
  | n :: r, acc =>
    match avgDist p.m p.d p.search n with
    | .error e => .error e
    | .ok v => neighbours p r (put n v acc)

/-- `find_n_neighbors` (l.542-565), with averages; `outputs` are the outputs by classes: no entry, not a table (NaN), or points. -/
def findNeighbours (outputs : Name → Option (Option Points)) (given : Given) (cls : Option Name) (ns : List ℕ) :
    Except Err (List (ℕ × List (Option ℝ × List ℕ))) :=
  match cls with
  | none =>
    match given with
    | .other => .error .value
    | .table p | .list p | .array p => neighbours p ns []
  | some c =>
    match outputs c with
    | none => .error .key
    | some none => .error .value
    | some (some p) => neighbours p ns []

/-! ### Stored data -/

/-- `_return_data_` (l.643-657): an attribute, or the one with underscores around. -/
def returnData {V : Type} (attrs : Name → Option V) (name : Name) : Option V :=
  match attrs name with
  | some v => some v
  | none => attrs ('_' :: name ++ ['_'])

/-- What is asked for; names are in any case. -/
inductive What where
  | str (s : Name)
  | list (l : List Name)
  | other

/-- `str.lower` for ASCII. -/
def lower (s : Name) : Name := s.map Char.toLower

/-- The names of l.689-709, without `full`. -/
def classKeys : List Name :=
  [(chars! "class_col"), (chars! "unique_class_keys"), (chars! "class_col_to_ids"), (chars! "class_id_mapping"), (chars! "binary_data")]

/-- The names of l.736-743, without `full`. -/
def regrKeys : List Name := [(chars! "input"), (chars! "raw_output"), (chars! "output")]

/-- What one name stands for: a single table, or all. -/
def entry (keys : List Name) (s : Name) : Except Err (List Name) :=
  if lower s = (chars! "full") then .ok keys else if lower s ∈ keys then .ok [lower s] else .error .key

/-- The names in a list. -/
def entries (keys : List Name) : List Name → Except Err (List (List Name))
  | [] => .ok []
  | s :: r =>
    match entry keys s with
    | .error e => .error e
    | .ok a =>
      match entries keys r with
      | .error e => .error e
      | .ok l => .ok (a :: l)

/-- `get_class_data` and `get_regr_data`: the tables that are returned, in groups for a list. -/
def getNamed (keys : List Name) : What → Except Err (List (List Name))
  | .str s =>
    match entry keys s with
    | .error e => .error e
    | .ok a => .ok [a]
  | .list l => entries keys l
  | .other => .error .value

/-! ### Test points -/

/-- Python's `max` and `min` of a column. -/
def maxOf : List ℝ → Option ℝ
  | [] => none
  | a :: l => some (l.foldl max a)

def minOf : List ℝ → Option ℝ
  | [] => none
  | a :: l => some (l.foldl min a)

/-- The range of an axis, l.779-782. -/
def range (other : ℕ → Option (ℝ × ℝ)) (data : List (List ℝ)) (i : ℕ) : Option (ℝ × ℝ) :=
  match other i with
  | some r => some r
  | none =>
    match minOf (data.map fun p => p.getD i 0), maxOf (data.map fun p => p.getD i 0) with
    | some a, some b => some (a, b)
    | _, _ => none

/-- One coordinate: `np.random.uniform(low, high)` from a number between 0 and 1. -/
def draw (r : ℝ × ℝ) (u : ℝ) : ℝ := r.1 + (r.2 - r.1) * u

/-- `get_rnd_test_inputs`: `n` points; `u i k` is the `k`-th number drawn for axis `i`.  Without data there is an `IndexError`, without axes nothing to join. -/
def testInputs (other : ℕ → Option (ℝ × ℝ)) (data : List (List ℝ)) (n : ℕ) (u : ℕ → ℕ → ℝ) : Except Err (List (List ℝ)) :=
  match data with
  | [] => .error .index
  | p :: _ =>
    if p = [] then .error .value
    else .ok ((List.range n).map fun k => (List.range p.length).map fun i => draw ((range other data i).getD (0, 0)) (u i k))

/-! ### Made-up data in two dimensions -/

/-- `np.tanh` -/
def tanh (x : ℝ) : ℝ := (Real.exp x - Real.exp (-x)) / (Real.exp x + Real.exp (-x))

/-- `regr_func`, l.34-37. -/
def regr (x y : ℝ) : ℝ := tanh (x ^ 3 + y ^ 2) / (Real.sqrt ((x / 1) ^ 2 + (y / 1) ^ 2) + 9 / 10)

/-- `curve_bool`, l.25. -/
def curve (x y : ℝ) : Prop := -1 < y - (-(1 / 10)) * x ^ 3 - 1

/-- `cls_curve`, l.23-32. -/
def clsCurve (x y : ℝ) : ℝ :=
  let vals := regr x y
  let line := if curve x y then 2 else vals
  let cls1 := if 4 / 10 < vals then 1 else line
  let cls2 := if (cls1 < 4 / 10) = (-(28 / 100) < cls1) then 0 else cls1
  if vals < -(28 / 100) then -1 else cls2

/-- `astype(int)`: towards zero. -/
def toInt (x : ℝ) : ℤ := if 0 ≤ x then ⌊x⌋ else ⌈x⌉

/-- The names, l.81. -/
def nameOf : ℤ → Except Err Char
  | -1 => .ok 'A'
  | 0 => .ok 'B'
  | 1 => .ok 'C'
  | 2 => .ok 'D'
  | _ => .error .key

/-- A row of `get_output_2D`, l.137-148. -/
def output2D (x y : ℝ) : Except Err (ℝ × ℝ × Char × ℝ) :=
  match nameOf (toInt (clsCurve x y)) with
  | .error e => .error e
  | .ok c => .ok (x, y, c, regr x y)

/-! ### Made-up data in three dimensions -/

def func1 (x y z : ℝ) : ℝ := ((x + 1) / (12 / 10)) ^ 2 + ((y - 1) / 2) ^ 2 + (z / (8 / 10)) ^ 2 - 1 ^ 2

def func2 (x y z : ℝ) : ℝ := (1 - x) ^ 2 + 3 * (y - x ^ 2) ^ 2 + |z| * (x - z) ^ 2

def func3 (x y z : ℝ) : ℝ := Real.sin (x - 1 / 4) + y * z

def func4 (x y z : ℝ) : ℝ := if z < 0 then |x ^ 3 - y ^ 3| * Real.exp (-z) else 0

def func5 (x y z : ℝ) : ℝ := ((x - 5 / 10) / (6 / 10)) ^ 2 + ((y - 5 / 10) / (2 / 10)) ^ 2 + ((z - 85 / 100) / (3 / 10)) ^ 2 - (2 / 10) ^ 2

/-- `base_class[mask] = v` for one point. -/
def setIf (p : Prop) (v base : ℕ) : ℕ := if p then v else base

/-- `analytic_classification_3D` with its default splits, l.33-63. -/
def cls3D (x y z : ℝ) : ℕ :=
  let base := if -(5 / 10) < func3 x y z then 3 else 6
  let base := setIf (25 / 10 < func2 x y z) 8 base
  let base := setIf (1 < func1 x y z ∧ 25 / 10 < func2 x y z) 1 base
  let base := setIf (18 / 10 < func4 x y z) 4 base
  setIf (¬3 / 10 < func5 x y z) 2 base

/-! ### Specification -/

/-- A search that returns the nearest of `m` points. -/
structure Nearest (m : ℕ) (d : Dist) (search : Search) : Prop where
  length : ∀ k i, i < m → k ≤ m → (search k i).length = k
  nodup : ∀ k i, i < m → k ≤ m → (search k i).Nodup
  inside : ∀ k i, i < m → k ≤ m → ∀ j ∈ search k i, j < m
  sorted : ∀ k i, i < m → k ≤ m → (search k i).Pairwise fun a b => d i a ≤ d i b
  nearest : ∀ k i, i < m → k ≤ m → ∀ j < m, j ∉ search k i → ∀ a ∈ search k i, d i a ≤ d i j

/-- Distances: zero to the point itself and never negative. -/
structure IsDist (d : Dist) : Prop where
  self : ∀ i, d i i = 0
  nonneg : ∀ i j, 0 ≤ d i j

/-- The distances to the other points, from the smallest. -/
def others (m : ℕ) (d : Dist) (i : ℕ) : List ℝ := (((List.range m).filter fun j => decide (j ≠ i)).map (d i)).insertionSort (· ≤ ·)

end

end Verif.Neigh
