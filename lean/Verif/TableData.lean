import Verif.Chars
import Mathlib.Algebra.Order.Field.Rat
import Mathlib.Data.List.Basic
import Mathlib.Data.List.Nodup
import Mathlib.Data.List.GetD
import Mathlib.Tactic.Common

/-!
# Tables for the active learning

Model of `posydon/active_learning/psy_cris/data.py`: `TableData.__init__` (l.242-497), `calc_avg_p_change`
(l.58-107), `get_data` (l.567-608), `get_binary_mapping_per_class` (l.610-641); and of
`posydon/active_learning/psy_cris/regress.py`: `Regressor.__init__` (l.63-86) and
`_get_cleaned_regression_data_` (l.218-263).

Simplifications.  Tables are lists of rows, each with an index label and its cells in the order of
the columns.  Floats are rationals, with NaN separately.  The classes are given as the sorted list of their different names
(`np.unique`).  Names of tables are in lower case.  The nearest neighbours are a parameter.  Reading of files, printed
information, colours and plots are left out.
-/

namespace Verif.TableData

abbrev Name := List Char

inductive Err where
  | key
  | attribute
  | value
deriving DecidableEq

/-! ### Rows and omitted values -/

/-- A cell: a number, NaN or a text. -/
inductive Cell where
  | num (q : ℚ)
  | nan
  | text (s : Name)
deriving DecidableEq

/-- Equality of cells in numpy: NaN is not equal to itself. -/
def Cell.same : Cell → Cell → Bool
  | .num p, .num q => p = q
  | .text s, .text t => s = t
  | _, _ => false

structure Row where
  label : ℕ
  cells : List Cell
deriving DecidableEq

/-- Whether a row contains a value. -/
def Row.has (r : Row) (v : Cell) : Bool := r.cells.any fun c => c.same v

/-- One omitted value (l.245-249): the labels of the rows that contain it are dropped. -/
def omit1 (rows : List Row) (v : Cell) : List Row :=
  let labels := (rows.filter fun r => r.has v).map (·.label)
  rows.filter fun r => !labels.contains r.label

/-- All omitted values in turn (l.242-249). -/
def omitVals (rows : List Row) (vs : List Cell) : List Row := vs.foldl omit1 rows

/-! ### Classes -/

/-- A class or an identifier of a class: dictionaries do not tell them apart. -/
inductive Key where
  | int (i : ℤ)
  | text (s : Name)
deriving DecidableEq

/-- A dictionary. -/
abbrev Dict := List (Key × Key)

def Dict.set : Dict → Key → Key → Dict
  | [], k, v => [(k, v)]
  | (a, b) :: d, k, v => if a = k then (a, v) :: d else (a, b) :: Dict.set d k v

def Dict.get (d : Dict) (k : Key) : Option Key := d.lookup k

/-- The dictionary between identifiers and classes (l.327-331) from identifier `i` on. -/
def mapFrom : ℕ → List Key → Dict → Dict
  | _, [], d => d
  | i, k :: ks, d => mapFrom (i + 1) ks ((Dict.set d (.int i) k).set k (.int i))

/-- `_class_id_mapping_`. -/
def mapping (keys : List Key) : Dict := mapFrom 0 keys []

/-- `_class_col_to_ids_` (l.337-339). -/
def toIds (keys col : List Key) : List (Option Key) := col.map (mapping keys).get

/-- The rows of a class, as numbers of rows (l.356-357). -/
def rowsOf (col : List Key) (c : Key) : List ℕ :=
  (col.zipIdx.filter fun x => x.1 = c).map (·.2)

/-- `get_binary_mapping_per_class` (l.633-641). -/
def binary (keys col : List Key) : List (List ℕ) :=
  keys.map fun k => col.map fun c => if c = k then 1 else 0

/-! ### Outputs for the regression -/

/-- A text as a number, for texts that are one (`float`); a parameter of the model. -/
abbrev Reader := Name → Option ℚ

/-- Whether a cell converts to a float that is not NaN (l.392-401). -/
def Cell.floats (rd : Reader) : Cell → Bool
  | .num _ => true
  | .nan => false
  | .text s => (rd s).isSome

/-- The columns for the regression of a class (l.388-401): decided by its first row. -/
def floatCols (rd : Reader) (cols : List ℕ) (rows : List (List Cell)) : List ℕ :=
  match rows with
  | [] => []
  | r :: _ => cols.filter fun j => (r.getD j .nan).floats rd

/-! ### Neighbours and changes -/

/-- The first occurrences, as the keys of an ordered dictionary. -/
def firsts : List ℕ → List ℕ
  | [] => []
  | n :: r => n :: (firsts r).filter (· ≠ n)

/-- The numbers of neighbours that are used for a class with `m` members (l.446-459): those larger than the class are
skipped, and repeated ones are the same entry. -/
def used (m : ℕ) (ns : List ℕ) : List ℕ := firsts (ns.filter fun n => n + 1 ≤ m)

/-- The columns of changes with their names: `(k, n)` is a column named for `k` neighbours with the changes over `n`
neighbours (l.487-492); names are taken from the requested numbers by position. -/
def apcCols (m : ℕ) (ns : List ℕ) : List (ℕ × ℕ) :=
  (used m ns).zipIdx.map fun x => (ns.getD x.2 0, x.1)

/-- `calc_avg_p_change` (l.88-103) for a point with value `x` and neighbours `ys`: the absolute mean difference over the
value; the given value (or NaN) at 0. -/
def change (undef : Option ℚ) (x : ℚ) (ys : List ℚ) : Option ℚ :=
  if x = 0 then undef
  else some (|(ys.map fun y => x - y).sum / ys.length| / x)

/-! ### Data for the regression -/

/-- `_get_cleaned_regression_data_` (l.246-263). -/
def clean {X : Type} (undef : Option ℚ) (xs : List X) (ys : List (Option ℚ)) :
    List X × List (Option ℚ) :=
  let z := xs.zip ys
  if ys.any (·.isNone) then
    ((z.filter fun p => p.2.isSome).map (·.1), (z.filter fun p => p.2.isSome).map (·.2))
  else match undef with
    | none => (xs, ys)
    | some u =>
      if ys.contains (some u) then
        ((z.filter fun p => p.2 ≠ some u).map (·.1), (z.filter fun p => p.2 ≠ some u).map (·.2))
      else (xs, ys)

/-- The outputs of a class for the regression: a table with changes, or `np.nan` (l.415-420). -/
inductive Out where
  | table (apc : List ℚ)
  | nan

/-- `Regressor.__init__` (l.70-82): the largest absolute change over all classes; NaN has no columns. -/
def absMax : List Out → Except Err (Option ℚ)
  | [] => .ok none
  | .nan :: _ => .error .attribute
  | .table apc :: r =>
    match absMax r with
    | .error e => .error e
    | .ok m =>
      match (apc.map fun x => |x|).max?, m with
      | none, m => .ok m
      | some a, none => .ok (some a)
      | some a, some b => .ok (some (max a b))

/-- What `get_data` is asked for (l.593-608). -/
inductive What where
  | one (s : Name)
  | many (l : List Name)

/-- The keys of `get_data`. -/
def dataKeys : List Name := [(chars! "input"), (chars! "output"), (chars! "full")]

/-- `get_data`: the names of the tables returned; a tuple has no attribute `values`. -/
def getData (w : What) (df : Bool) : Except Err (List Name) :=
  match w with
  | .one s => if s ∈ dataKeys then .ok [s] else .error .key
  | .many l =>
    if ∀ s ∈ l, s ∈ dataKeys then (if df then .ok l else .error .attribute) else .error .key

/-! ### Helper lemmas -/

theorem get_set (d : Dict) (k k' v : Key) :
    (Dict.set d k v).get k' = if k' = k then some v else d.get k' := by
  induction d with
  | nil =>
    unfold Dict.set Dict.get
    by_cases h : k' = k
    · subst h; simp
    · simp [List.lookup, h, show (k' == k) = false by simpa using h]
  | cons p d ih =>
    obtain ⟨a, b⟩ := p
    unfold Dict.set
    by_cases ha : a = k
    · rw [if_pos ha]
      subst ha
      by_cases h : k' = a
      · subst h; simp [Dict.get]
      · simp [Dict.get, List.lookup, h, show (k' == a) = false by simpa using h]
    · rw [if_neg ha]
      unfold Dict.get at ih ⊢
      by_cases h : k' = a
      · subst h
        rw [if_neg ha]
        simp [List.lookup]
      · simp only [List.lookup, show (k' == a) = false by simpa using h]
        exact ih

end Verif.TableData
