import Verif.PopMass
import Verif.Pop
/-!
Model of the `try … except` around the book-keeping of the simulated mass, in `/repo/posydon/popsyn/binarypopulation.py`, `PopulationManager.save` (l.895-962) and
`BinaryPopulation.combine_saved_files` (l.538-612).  The masses of one table are `PopMass.addFile`, the faults of a file are `Pop.Fault`.

Simplifications: tables are the rows used for the mass and the number of one-line rows; a missing key `oneline` of a file is `none`; which of the columns
`state`, `S1_mass`, `S2_mass` the histories have is one flag (`KeyError` otherwise).
-/
namespace Verif.MassFault

open Verif.PopMass

/-- A written file: rows of the history, number of rows of the one-line table (`none`: the table is missing), recorded masses. -/
structure Stored where
  hist : List Row
  oneline : Option ℕ
  mass : Masses

def zero : Masses := ⟨0, 0, 0, 0⟩

/-- `PopulationManager.save`: the history is stored before the `try`; without the needed columns the rest is skipped and the error only printed. -/
def save (hasCols : Bool) (hist : List Row) (n : ℕ) : Stored :=
  if hasCols then ⟨hist, some n, addFile zero hist n⟩ else ⟨hist, none, zero⟩

/-- State of `combine_saved_files` while files are added. -/
structure Acc where
  hist : List Row
  oneline : Option ℕ
  mass : Masses

/-- One file, l.560-590: what is done before the fault stays done. -/
def addOne (hasCols : Bool) (a : Acc) (f : Stored × Pop.Fault) : Acc :=
  match f.2 with
  | .readHistory | .appendHistory => a
  | .readOneline => { a with hist := a.hist ++ f.1.hist }
  | .appendOneline =>
    match f.1.oneline with
    | none => { a with hist := a.hist ++ f.1.hist }
    | some n => if hasCols then ⟨a.hist ++ f.1.hist, a.oneline, addFile a.mass f.1.hist n⟩ else { a with hist := a.hist ++ f.1.hist }
  | .none =>
    match f.1.oneline with
    | none => { a with hist := a.hist ++ f.1.hist }
    | some n =>
      if hasCols then ⟨a.hist ++ f.1.hist, some (a.oneline.getD 0 + n), addFile a.mass f.1.hist n⟩ else { a with hist := a.hist ++ f.1.hist }

/-- `combine_saved_files`: l.538-539 read both tables of the first file outside the `try`; at the end the files are removed, whatever became of them. -/
def combine (hasCols : Bool) (files : List (Stored × Pop.Fault)) : Except Unit Acc :=
  match files with
  | [] => .error ()
  | f :: _ =>
    if f.2 = .readHistory ∨ f.2 = .readOneline ∨ f.1.oneline = none then .error ()
    else .ok (files.foldl (addOne hasCols) ⟨[], none, zero⟩)

end Verif.MassFault
