import Mathlib.Data.List.Basic
import Mathlib.Data.List.Nodup
import Mathlib.Data.List.Dedup
import Mathlib.Data.List.Sort
import Mathlib.Tactic.Common
import Mathlib.Tactic.Ring
/-!
Model of reading a population file by key: `/repo/posydon/popsyn/synthetic_population.py`, `DFInterface.select` (l.260-289),
`History.__init__` (l.375-399), `History.__getitem__` (l.401-502), `Oneline.__getitem__` (l.649-726).

Simplifications: a table is a list of rows, each a label (the index of the binary) and its contents; the contents of a row
restricted to some columns are represented by the row together with the list of columns.  Keys that are rejected or
accepted together by the code are one constructor.  `select` reads the file in chunks and joins the chunks that are not
empty; `pd.concat` of no chunk at all is a `ValueError`.
-/
namespace Verif.Table

inductive Err | value | index | key
  deriving DecidableEq, Repr

/-- What `store.select(..., chunksize=n)` iterates over: consecutive pieces of `n` rows, the last one shorter. -/
def chunks {α : Type} (n : ℕ) (l : List α) : List (List α) :=
  if h : l = [] ∨ n = 0 then [] else l.take n :: chunks n (l.drop n)
termination_by l.length
decreasing_by
  push Not at h
  have := List.length_pos_of_ne_nil h.1
  simp only [List.length_drop]
  omega

/-- The keys told apart by `__getitem__`. -/
inductive Key
  | slice (start stop : Option ℤ)
  | int (k : ℤ)
  | ints (l : List ℤ)
  | mask (m : List Bool)
  | column (c : String)
  | columns (l : List String)
  | floats (n : ℕ)
  | other

/-- A data frame: the columns it has and its rows. -/
abbrev Frame (α : Type) := List String × List (ℤ × α)

/-- `select(where=...)`, l.282-289: all rows meeting the condition in file order; `pd.concat([])` raises if there are none. -/
def selectWhere {α : Type} (cols : List String) (rows : List (ℤ × α)) (p : ℤ → Bool) : Except Err (Frame α) :=
  let out := rows.filter fun r => p r.1
  if out = [] then .error .value else .ok (cols, out)

/-- `select(columns=...)`. -/
def selectCols {α : Type} (cols : List String) (rows : List (ℤ × α)) : Except Err (Frame α) :=
  if rows = [] then .error .value else .ok (cols, rows)

/-- `list(range(pre, pre + chunk))` of the slice branch, l.441-451, l.686-696. -/
def sliceHas (n : ℕ) (start stop : Option ℤ) (i : ℤ) : Bool :=
  let pre := start.getD 0
  let chunk := match stop with
    | none => (n : ℤ)
    | some s => s - pre
  decide (pre ≤ i ∧ i < pre + chunk)

/-- `chunk[mask]` for a Boolean array: wrong length is a `ValueError`, otherwise the rows marked. -/
def maskChunk {β : Type} (c : List β) (m : List Bool) : Except Err (List β) :=
  if m.length ≠ c.length then .error .value else .ok (((c.zip m).filter fun x => x.2).map Prod.fst)

/-- The loop l.479-483: the `i`-th chunk is indexed with `key[i : i + chunksize]`. -/
def maskLoop {β : Type} (cs : ℕ) (m : List Bool) : ℕ → List (List β) → Except Err (List β)
  | _, [] => .ok []
  | i, c :: rest =>
    match maskChunk c ((m.drop i).take cs) with
    | .error e => .error e
    | .ok out =>
      match maskLoop cs m (i + 1) rest with
      | .error e => .error e
      | .ok o => .ok (out ++ o)

/-- `History.__getitem__`; `n` is the number of systems, `cs` the chunk size. -/
def historyGet {α : Type} (cols : List String) (rows : List (ℤ × α)) (n cs : ℕ) : Key → Except Err (Frame α)
  | .slice a b => selectWhere cols rows (sliceHas n a b)
  | .int k => selectWhere cols rows (fun i => decide (i = k))
  | .ints l => if l = [] then .ok ([], []) else selectWhere cols rows (fun i => decide (i ∈ l))
  | .mask m => if m = [] then .ok ([], []) else
      match maskLoop cs m 0 (chunks cs rows) with
      | .error e => .error e
      | .ok out => if rows = [] then .error .value else .ok (cols, out)
  | .column c => if c ∈ cols then selectCols [c] rows else .error .value
  | .columns l => if l.all (· ∈ cols) then selectCols l rows else .error .value
  | .floats _ => .error .value
  | .other => .error .value

/-- `Oneline.__getitem__`; `self.indices` are the labels of the rows in file order, l.644; indexing them with a mask of
another length raises `IndexError`. -/
def onelineGet {α : Type} (cols : List String) (rows : List (ℤ × α)) : Key → Except Err (Frame α)
  | .slice a b => selectWhere cols rows (sliceHas rows.length a b)
  | .int k => selectWhere cols rows (fun i => decide (i = k))
  | .ints l => selectWhere cols rows (fun i => decide (i ∈ l))
  | .floats _ => .error .value
  | .mask m =>
    if m.length ≠ rows.length then .error .index
    else
      let ids := (((rows.map Prod.fst).zip m).filter fun x => x.2).map Prod.fst
      selectWhere cols rows (fun i => decide (i ∈ ids))
  | .column c => if c ∈ cols then selectCols [c] rows else .error .value
  | .columns l => if l.all (· ∈ cols) then selectCols l rows else .error .value
  | .other => .error .value

/-- The lengths computed when the file has none, l.382-392: `groupby(...).count()`, i.e. the labels in increasing order, each
with the number of its rows. -/
def lengthsOf {α : Type} (rows : List (ℤ × α)) : List (ℤ × ℕ) :=
  ((rows.map Prod.fst).dedup.insertionSort (· ≤ ·)).map fun i => (i, (rows.filter fun r => r.1 = i).length)

/-! ### Specification -/

/-- The rows at the marked positions. -/
def pick {β : Type} (p : ℕ → Bool) (l : List β) : List β := ((l.zipIdx).filter fun x => p x.2).map Prod.fst

/-! ### Lemmas -/

theorem chunks_nil {α : Type} (n : ℕ) : chunks n ([] : List α) = [] := by rw [chunks]; simp

theorem chunks_zero {α : Type} (l : List α) : chunks 0 l = [] := by rw [chunks]; simp

theorem chunks_cons {α : Type} (n : ℕ) (l : List α) (hl : l ≠ []) (hn : n ≠ 0) :
    chunks n l = l.take n :: chunks n (l.drop n) := by
  rw [chunks, dif_neg (by push Not; exact ⟨hl, hn⟩)]

theorem chunks_flatten {α : Type} (n : ℕ) (hn : n ≠ 0) : ∀ (k : ℕ) (l : List α), l.length ≤ k → (chunks n l).flatten = l := by
  intro k
  induction k with
  | zero => intro l hl; rw [List.eq_nil_of_length_eq_zero (Nat.le_zero.1 hl), chunks_nil]; rfl
  | succ k ih =>
    intro l hl
    by_cases h : l = []
    · rw [h, chunks_nil]; rfl
    · have := List.length_pos_of_ne_nil h
      rw [chunks_cons n l h hn, List.flatten_cons, ih _ (by rw [List.length_drop]; omega), List.take_append_drop]

theorem chunks_single {α : Type} (n : ℕ) (l : List α) (h : l ≠ []) (hn : l.length ≤ n) : chunks n l = [l] := by
  have := List.length_pos_of_ne_nil h
  rw [chunks_cons n l h (by omega), List.take_of_length_le hn, List.drop_of_length_le hn, chunks_nil]

end Verif.Table
