import Verif.Pop
import Mathlib.Data.List.Perm.Basic
/-!
Model of evolving the *same* population object several times: `/repo/posydon/popsyn/binarypopulation.py`,
`BinaryPopulation.evolve` (l.239-292) and `_safe_evolve` (l.294-489), started from whatever the manager still holds, and of the
validation script `/repo/dev-tools/script_data/src/popsynth_suite.py`: `test_binpop_evolve` (l.18-57), `compare_io_to_ram`
(l.59-86), `check_test` (l.109-127) and the first three tests of `test_popruns` (l.129-157), which do just that.

Simplifications: those of `Verif/Pop.lean`.  All temporary files can be read when they are combined (the other cases are C20).
Reading the file back gives the tables that were written.  A history is the list of its rows.
-/
namespace Verif.PopAgain
open Verif.Pop

/-- What a call of `evolve` leaves: the manager, and the tables of `evolution.combined.h5` if the call wrote that file. -/
structure Run (B : Type) where
  mgr : Mgr B
  out : Option (Tables B)

section
variable {B : Type} [DecidableEq B] (idx : B → ℕ)

/-- The loop and the left-over batch (l.344-463) for a manager that holds something already. -/
def evolveFrom (c : Cfg B) (m : Mgr B) (bs : List B) : Except Err (St B) :=
  match loop idx c ⟨m, []⟩ 0 bs with
  | .error e => .error e
  | .ok s =>
    if (s.mgr.binaries.length ≠ 0 ∨ s.mgr.hist.length ≠ 0) ∧ c.optimize = true then dump idx c s .leftover
    else .ok s

/-- `_safe_evolve` with the writing of the combined file, l.465-489. -/
def evolve (c : Cfg B) (m : Mgr B) (bs : List B) : Except Err (Run B) :=
  match evolveFrom idx c m bs with
  | .error e => .error e
  | .ok s =>
    if c.optimize then
      match combine (s.files.map fun f => (f.2, Fault.none)) with
      | ⟨some t, _, none⟩ => .ok ⟨s.mgr, some t⟩
      | ⟨_, _, some e⟩ => .error e
      | ⟨none, _, none⟩ => .ok ⟨s.mgr, none⟩
    else if c.breakdown then
      match s.mgr.save with
      | .ok t => .ok ⟨s.mgr, some t⟩
      | .error e => .error e
    else .ok ⟨s.mgr, none⟩

/-- Several calls one after the other; the outputs of the calls in order.  (The file is overwritten by each call, mode `w`.) -/
def calls (m : Mgr B) : List (Cfg B × List B) → Except Err (Mgr B × List (Option (Tables B)))
  | [] => .ok (m, [])
  | (c, bs) :: l =>
    match evolve idx c m bs with
    | .error e => .error e
    | .ok r =>
      match calls r.mgr l with
      | .error e => .error e
      | .ok (m', outs) => .ok (m', r.out :: outs)

/-! ### The validation script -/

variable {R : Type} [DecidableEq R]

/-- Rows of a table with index `i` (`df.loc[i]`, `history[i]`): those of every binary with that index. -/
def rowsAt (rows : B → List R) (l : List B) (i : ℕ) : List R := (l.filter fun b => idx b = i).flatMap rows

/-- `compare_io_to_ram`, l.65-86: the first index at which the tables differ, `none` if "binaries from I/O match those in RAM".  (The
`break` of l.82 only ends the loop after all comparisons that can be made.) -/
def compareIO (rows : B → List R) (n : ℕ) (ram io : List B) : Option ℕ :=
  (List.range n).find? fun i => rowsAt idx rows ram i ≠ rowsAt idx rows io i

/-- The settings of the three tests, l.142, l.148, l.154. -/
def cfg1 (conv : B → Conv) (rate : ℕ) : Cfg B := ⟨false, false, rate, none, conv⟩
def cfg2 (conv : B → Conv) (rate : ℕ) : Cfg B := ⟨true, false, rate, none, conv⟩
def cfg3 (conv : B → Conv) (rate : ℕ) : Cfg B := ⟨false, true, rate, none, conv⟩

/-- What the three tests report. -/
structure Report where
  /-- l.119: the number of binaries in memory is right -/
  count : Bool
  /-- l.151 -/
  second : Option ℕ
  /-- l.157 -/
  third : Option ℕ
  deriving DecidableEq

/-- The first three tests of `test_popruns`, l.135-157.  `pop_in_ram` is `pop` itself (l.57, l.144): what the comparisons take from
memory is what the population holds after the *latest* run.  `p1`, `p2`, `p3` are the binaries the three runs generate. -/
def suite (rows : B → List R) (conv : B → Conv) (rate n : ℕ) (p1 p2 p3 : List B) : Except Err Report :=
  match evolve idx (cfg1 conv rate) Mgr.empty p1 with
  | .error e => .error e
  | .ok r1 =>
    match evolve idx (cfg2 conv rate) r1.mgr p2 with
    | .error e => .error e
    | .ok r2 =>
      match evolve idx (cfg3 conv rate) r2.mgr p3 with
      | .error e => .error e
      | .ok r3 =>
        match r2.mgr.toDf, r2.out, r3.mgr.toDf, r3.out with
        | some ram2, some io2, some ram3, some io3 =>
          .ok ⟨decide (n = r1.mgr.binaries.length), compareIO idx rows n ram2 io2.hist, compareIO idx rows n ram3 io3.hist⟩
        | _, _, _, _ => .error .attribute

/-! ### Lemmas -/

/-- The entries of `indices` are those of the binaries in memory, in any order. -/
def Sound (m : Mgr B) : Prop := m.indices.Perm (m.binaries.map fun b => IdxEntry.one (idx b))

theorem removeList_sound (m : Mgr B) (h : Sound idx m) :
    m.removeList idx m.binaries = ({ m with binaries := [], indices := [] }, none) := by
  obtain ⟨bs, is, hh, oo⟩ := m
  simp only [Sound] at h
  simp only
  induction bs generalizing is with
  | nil =>
    have : is = [] := by simpa using h
    subst this; rfl
  | cons b bs ih =>
    have hmem : IdxEntry.one (idx b) ∈ is := h.symm.subset (by simp)
    have he : (is.erase (IdxEntry.one (idx b))).Perm (bs.map fun b => IdxEntry.one (idx b)) := by
      have := h.erase (IdxEntry.one (idx b))
      simpa using this
    simp only [Mgr.removeList, Mgr.remove, List.mem_cons, true_or, if_true, List.erase_cons_head, hmem]
    exact ih _ he

theorem foldl_combine (files : List (Tables B)) (t : Tables B) :
    (files.map fun f => (f, Fault.none)).foldl combineOne t =
      ⟨t.hist ++ (files.map (·.hist)).flatten, t.oneline ++ (files.map (·.oneline)).flatten⟩ := by
  induction files generalizing t with
  | nil => simp
  | cons f fs ih => simp [combineOne, ih]

theorem combine_good (files : List (Name × Tables B)) (h : files ≠ []) :
    combine (files.map fun f => (f.2, Fault.none)) =
      ⟨some ⟨(files.map (·.2.hist)).flatten, (files.map (·.2.oneline)).flatten⟩, [], none⟩ := by
  cases files with
  | nil => exact absurd rfl h
  | cons f fs =>
    have hf := foldl_combine ((f :: fs).map (·.2)) ⟨[], []⟩
    simp only [List.map_map, Function.comp_def, List.nil_append] at hf
    simp only [List.map_cons] at hf ⊢
    simp only [combine, reduceCtorEq, or_self, if_false]
    rw [hf]

end

end Verif.PopAgain
