import Mathlib.Algebra.BigOperators.Group.List.Basic
import Mathlib.Algebra.Order.Field.Rat
import Mathlib.Tactic.NormNum
import Mathlib.Tactic.Common
import Mathlib.Tactic.Ring
import Mathlib.Tactic.SplitIfs
/-!
Model of the book-keeping of the simulated mass in `/repo/posydon/popsyn/binarypopulation.py`, l.555-584 and 601-606
(`BinaryPopulation.combine_saved_files`) and l.924-937 (`PopulationManager.save`), which are the same computation.

Simplifications: of a history row only index, "is the state `initially_single_star`" and the two masses are kept
(`none` is NaN); numbers are rational.
-/
namespace Verif.PopMass

structure Row where
  index : ℕ
  single : Bool
  m1 : Option ℚ
  m2 : Option ℚ

/-- `history[~history.index.duplicated(keep="first")]`, l.571, given the indices already seen. -/
def firsts (seen : List ℕ) : List Row → List Row
  | [] => []
  | r :: rs => if r.index ∈ seen then firsts seen rs else r :: firsts (r.index :: seen) rs

/-- `np.nansum` over the listed columns, l.576-577. -/
def nan0 (x : Option ℚ) : ℚ := x.getD 0

structure Masses where
  total : ℚ
  single : ℚ
  binaries : ℚ
  systems : ℕ

/-- One file, l.564-584: its history rows and the number of its one-line rows are added. -/
def addFile (a : Masses) (hist : List Row) (nOneline : ℕ) : Masses :=
  let f := firsts [] hist
  let singles := f.filter (·.single)
  let bins := f.filter (fun r => !r.single)
  let b := a.binaries + (bins.map fun r => nan0 r.m1 + nan0 r.m2).sum
  let s := a.single + (singles.map fun r => nan0 r.m1).sum
  ⟨s + b, s, b, a.systems + nOneline⟩

/-- All files, l.555-584. -/
def addFiles (files : List (List Row × ℕ)) : Masses := files.foldl (fun a f => addFile a f.1 f.2) ⟨0, 0, 0, 0⟩

end Verif.PopMass
