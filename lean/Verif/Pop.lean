import Mathlib.Data.List.Basic
import Mathlib.Data.List.Nodup
import Mathlib.Tactic.Common
import Mathlib.Tactic.SplitIfs
/-!
Model of the population run: `/repo/posydon/popsyn/binarypopulation.py`, `BinaryPopulation.evolve` (l.239-292),
`BinaryPopulation._safe_evolve` (l.294-489), `BinaryPopulation.combine_saved_files` (l.526-612) and `PopulationManager`
(l.651-981).

Simplifications: a binary is an element of a type `B` (object identity, which is what `list.remove` compares) with an index;
a history or one-line table of a binary is represented by the binary it describes.  Whether writing out a binary
as a table raises is given by a function; so is whether a temporary file can be read and its tables appended.  Evolution itself
(l.360-394) is a black box that always returns: all exceptions are caught there.
-/
namespace Verif.Pop

/-! ### `np.array_split` -/

/-- Section sizes of `np.array_split(l, k)`: `len % k` sections of size `len // k + 1`, the others of size `len // k`. -/
def splitSizes (n k : ℕ) : List ℕ := List.replicate (n % k) (n / k + 1) ++ List.replicate (k - n % k) (n / k)

def cut {α : Type} : List ℕ → List α → List (List α)
  | [], _ => []
  | s :: ss, l => l.take s :: cut ss (l.drop s)

/-- `np.array_split(l, k)`, l.282. -/
def arraySplit {α : Type} (l : List α) (k : ℕ) : List (List α) := cut (splitSizes l.length k) l

/-! ### Population manager -/

/-- Elements of `self.indices`: an index, or (after appending a list of binaries) a list of indices. -/
inductive IdxEntry
  | one (i : ℕ)
  | many (l : List ℕ)
  deriving DecidableEq

structure Mgr (B : Type) where
  binaries : List B
  indices : List IdxEntry
  hist : List B
  oneline : List B

def Mgr.empty {B : Type} : Mgr B := ⟨[], [], [], []⟩

inductive Err | value | attribute | index | io
  deriving DecidableEq, Repr

section
variable {B : Type} [DecidableEq B] (idx : B → ℕ)

/-- `append` of one binary, l.681-683. -/
def Mgr.append (m : Mgr B) (b : B) : Mgr B :=
  { m with indices := m.indices ++ [.one (idx b)], binaries := m.binaries ++ [b] }

/-- `append` of a list, l.678-680: `indices.append`, not `extend`. -/
def Mgr.appendList (m : Mgr B) (bs : List B) : Mgr B :=
  { m with indices := m.indices ++ [.many (bs.map idx)], binaries := m.binaries ++ bs }

/-- `remove` of one binary, l.694-696; `list.remove` raises `ValueError` if the element is not there. -/
def Mgr.remove (m : Mgr B) (b : B) : Mgr B × Option Err :=
  if b ∈ m.binaries then
    let m' := { m with binaries := m.binaries.erase b }
    if .one (idx b) ∈ m'.indices then ({ m' with indices := m'.indices.erase (.one (idx b)) }, none)
    else (m', some .value)
  else (m, some .value)

/-- `remove` of a list, l.689-692. -/
def Mgr.removeList (m : Mgr B) : List B → Mgr B × Option Err
  | [] => (m, none)
  | b :: bs =>
    match m.remove idx b with
    | (m', none) => m'.removeList bs
    | (m', some e) => (m', some e)

/-- `clear_dfs`, l.701-704. -/
def Mgr.clear (m : Mgr B) : Mgr B := { m with hist := [], oneline := [] }

/-- Which of the two table conversions of a binary raises an exception. -/
inductive Conv | ok | history | oneline
  deriving DecidableEq

/-- `breakdown_to_df`, l.706-725: any exception, also of `remove`, is swallowed. -/
def Mgr.breakdown (m : Mgr B) (conv : B → Conv) (b : B) : Mgr B :=
  match conv b with
  | .history => m
  | .oneline => { m with hist := m.hist ++ [b] }
  | .ok => ({ m with hist := m.hist ++ [b], oneline := m.oneline ++ [b] }.remove idx b).1

/-- `to_df`, l.727-748 (no selection); `none` is Python's `None`. -/
def Mgr.toDf (m : Mgr B) : Option (List B) :=
  if m.binaries.length = 0 ∧ m.hist.length = 0 then none
  else if m.binaries.length > 0 then some m.binaries else some m.hist

/-- `to_oneline_df`, l.750-769. -/
def Mgr.toOneline (m : Mgr B) : Option (List B) :=
  if m.binaries.length = 0 ∧ m.oneline.length = 0 then none
  else if m.binaries.length > 0 then some m.binaries else some m.oneline

/-- A table file: binaries whose histories and one-line rows it holds. -/
structure Tables (B : Type) where
  hist : List B
  oneline : List B
  deriving DecidableEq

/-- `save`, l.862-964: taking the columns of `None` is an `AttributeError`. -/
def Mgr.save (m : Mgr B) : Except Err (Tables B) :=
  match m.toDf, m.toOneline with
  | some h, some o => .ok ⟨h, o⟩
  | _, _ => .error .attribute

/-! ### The evolution loop -/

structure Cfg (B : Type) where
  breakdown : Bool
  optimize : Bool
  /-- the requested dump rate -/
  rate : ℕ
  /-- `ram_per_cpu` and whether the memory is exhausted after binary `j` -/
  ram : Option (ℕ → Bool)
  conv : B → Conv

/-- Names of temporary files: `{j}_evolution.batch`, `leftover_evolution.batch`. -/
inductive Name
  | batch (j : ℕ)
  | leftover
  deriving DecidableEq

structure St (B : Type) where
  mgr : Mgr B
  files : List (Name × Tables B)

/-- l.403-404 and l.425-427; l.322 makes the rate at least one. -/
def dumpNow (c : Cfg B) (j : ℕ) : Bool :=
  c.optimize && match c.ram with
    | none => j % (max c.rate 1) == 0 && j != 0
    | some full => full j

/-- Writing a batch and forgetting its binaries, l.414-421, 436-442, 457-463. -/
def dump (c : Cfg B) (s : St B) (n : Name) : Except Err (St B) :=
  match s.mgr.save with
  | .error e => .error e
  | .ok t =>
    let files := s.files ++ [(n, t)]
    if c.breakdown then .ok ⟨s.mgr.clear, files⟩
    else
      match s.mgr.removeList idx s.mgr.binaries with
      | (m, none) => .ok ⟨m, files⟩
      | (_, some e) => .error e

/-- One turn of the loop, l.346-442. -/
def turn (c : Cfg B) (s : St B) (j : ℕ) (b : B) : Except Err (St B) :=
  let m := s.mgr.append idx b
  let m := if c.breakdown then m.breakdown idx c.conv b else m
  if dumpNow c j then dump idx c ⟨m, s.files⟩ (.batch j) else .ok ⟨m, s.files⟩

def loop (c : Cfg B) (s : St B) (j : ℕ) : List B → Except Err (St B)
  | [] => .ok s
  | b :: bs =>
    match turn idx c s j b with
    | .ok s' => loop c s' (j + 1) bs
    | .error e => .error e

/-- The loop and the left-over batch, l.344-463. -/
def evolveBlock (c : Cfg B) (bs : List B) : Except Err (St B) :=
  match loop idx c ⟨Mgr.empty, []⟩ 0 bs with
  | .error e => .error e
  | .ok s =>
    if (s.mgr.binaries.length ≠ 0 ∨ s.mgr.hist.length ≠ 0) ∧ c.optimize = true then dump idx c s .leftover
    else .ok s

end

/-! ### Combining the temporary files -/

/-- What happens when a temporary file is processed in the `try` block, l.563-590. -/
inductive Fault
  | none
  | readHistory
  | appendHistory
  | readOneline
  | appendOneline
  deriving DecidableEq

/-- `try … except` for one file, l.563-590. -/
def combineOne {B : Type} (store : Tables B) (f : Tables B × Fault) : Tables B :=
  match f.2 with
  | .none => ⟨store.hist ++ f.1.hist, store.oneline ++ f.1.oneline⟩
  | .readHistory | .appendHistory => store
  | .readOneline | .appendOneline => { store with hist := store.hist ++ f.1.hist }

/-- Result of combining: the new file (if one was written) and the temporary files left. -/
structure Combined (B : Type) where
  store : Option (Tables B)
  left : List (Tables B × Fault)
  err : Option Err

/-- `combine_saved_files`, l.526-612: the first file is read outside the `try` (l.538-539); all files are removed at the end. -/
def combine {B : Type} (files : List (Tables B × Fault)) : Combined B :=
  match files with
  | [] => ⟨none, [], some .index⟩
  | f :: _ =>
    if f.2 = .readHistory ∨ f.2 = .readOneline then ⟨none, files, some .io⟩
    else ⟨some (files.foldl combineOne ⟨[], []⟩), [], none⟩

/-! ### Lemmas -/

theorem cut_flatten {α : Type} (ss : List ℕ) (l : List α) (h : ss.sum = l.length) : (cut ss l).flatten = l := by
  induction ss generalizing l with
  | nil => simp at h; simp [cut, List.length_eq_zero_iff.1 h.symm]
  | cons s ss ih =>
    simp only [List.sum_cons] at h
    simp only [cut, List.flatten_cons]
    rw [ih (l.drop s) (by rw [List.length_drop]; omega), List.take_append_drop]

theorem cut_lengths {α : Type} (ss : List ℕ) (l : List α) (h : ss.sum = l.length) : (cut ss l).map List.length = ss := by
  induction ss generalizing l with
  | nil => rfl
  | cons s ss ih =>
    simp only [List.sum_cons] at h
    simp only [cut, List.map_cons, List.length_take]
    rw [ih (l.drop s) (by rw [List.length_drop]; omega)]
    congr 1; omega

theorem splitSizes_sum (n k : ℕ) (hk : 0 < k) : (splitSizes n k).sum = n := by
  unfold splitSizes
  simp only [List.sum_append, List.sum_replicate_nat]
  have h1 := Nat.mod_lt n hk
  have h2 := Nat.div_add_mod n k
  obtain ⟨c, hc⟩ : ∃ c, k = n % k + c := ⟨k - n % k, by omega⟩
  have h3 : k - n % k = c := by omega
  rw [h3]
  have h4 : k * (n / k) = (n % k) * (n / k) + c * (n / k) := by rw [← Nat.add_mul, ← hc]
  rw [Nat.mul_add, Nat.mul_one]
  omega

theorem splitSizes_length (n k : ℕ) (hk : 0 < k) : (splitSizes n k).length = k := by
  have := Nat.mod_lt n hk
  simp only [splitSizes, List.length_append, List.length_replicate]
  omega

section
variable {B : Type} [DecidableEq B] (idx : B → ℕ)

/-- A manager to which binaries have been appended one by one. -/
def Mgr.Clean (m : Mgr B) : Prop := m.indices = m.binaries.map (fun b => .one (idx b))

theorem erase_map_one (l : List B) (b : B) (hb : b ∈ l) :
    ((l.map (fun b => IdxEntry.one (idx b))).erase (.one (idx b))).Perm
      ((l.erase b).map (fun b => IdxEntry.one (idx b))) := by
  have h1 : (l.map (fun b => IdxEntry.one (idx b))).Perm
      ((b :: l.erase b).map (fun b => IdxEntry.one (idx b))) := (List.perm_cons_erase hb).map _
  have h2 := h1.erase (.one (idx b))
  simpa using h2

/-- Removing everything from a clean manager succeeds and empties it. -/
theorem removeList_all (m : Mgr B) (h : m.Clean idx) :
    m.removeList idx m.binaries = ({ m with binaries := [], indices := [] }, none) := by
  obtain ⟨bs, is, hh, oo⟩ := m
  simp only [Mgr.Clean] at h
  subst h
  simp only
  induction bs with
  | nil => rfl
  | cons b bs ih =>
    simp only [Mgr.removeList, Mgr.remove, List.mem_cons, true_or, if_true, List.map_cons, List.erase_cons_head]
    exact ih

end

end Verif.Pop
