import Verif.ProfTrain
import Verif.ProfPred
/-!
Model of the training of composition profiles, `/repo/posydon/interpolation/profile_interpolation.py` `Composition.__init__` (l.576-590) and
`Composition.learn_bounds` (l.592-715).

Simplifications: the training of a network is a parameter that takes the pairs of inputs and boundaries, and a network is what it gives for an input. A fit to no data
at all raises ValueError in keras. The values of losses are left out. Of the validation data only those of a state are of interest, as a state with none has an
array of boundaries with one dimension, which cannot be indexed by two (l.665-666) or filled up with a column (l.678); whether keras accepts validation data that are
all flat is left open.
-/
namespace Verif.ProfBounds

open ProfTrain (bounds)
open ProfPred (Name)

inductive Err | index | value
  deriving DecidableEq

/-- A binary: initial values, profiles of hydrogen and helium, state of the star. -/
structure Star (I : Type) where
  x : I
  h : ℕ → ℚ
  he : ℕ → ℚ
  st : Name

/-- States with a network, l.621-630. -/
def learnt : List Name :=
  [(chars! "stripped_He_Core_He_burning"), (chars! "stripped_He_Core_C_burning"), (chars! "stripped_He_Core_He_depleted"), (chars! "stripped_He_Core_C_depleted"),
   (chars! "H-rich_Core_He_depleted"), (chars! "H-rich_Core_C_depleted"), (chars! "H-rich_Shell_H_burning"), (chars! "H-rich_Core_H_burning"),
   (chars! "H-rich_Core_He_burning"), (chars! "H-rich_Core_C_burning")]

/-- `np.argmax` of the increases, the first if there are several, l.673. -/
def steepest (p : ℕ → ℚ) : ℕ := (List.range 199).foldl (fun m k => if p (k + 1) - p k > p (m + 1) - p m then k else m) 0

def shell : List Name := [(chars! "H-rich_Shell_H_burning"), (chars! "H-rich_Core_H_burning")]
def burning : List Name := [(chars! "H-rich_Core_He_burning"), (chars! "H-rich_Core_C_burning")]
def depleted : List Name := [(chars! "H-rich_Core_He_depleted"), (chars! "H-rich_Core_C_depleted")]

/-- The boundaries a network is trained for, `none` for a flat profile, l.653-692. -/
def target {I : Type} (st : Name) (b : Star I) : Option (List ℚ) :=
  if st ∈ shell then (bounds b.h).map fun p => [p.1, p.2]
  else if st ∈ burning then
    match bounds b.h, bounds fun k => b.h k + b.he k with
    | some p, some q => some [p.1, p.2, q.1, q.2]
    | _, _ => none
  else if st ∈ depleted then (bounds fun k => b.h k + b.he k).map fun q => [((steepest b.h : ℚ) + 1) / 200, q.1, q.2]
  else (bounds b.he).map fun p => [p.1, p.2]

/-- The pairs the network of a state is trained on. -/
def pairs {I : Type} (st : Name) (l : List (Star I)) : List (I × List ℚ) :=
  (l.filter fun b => decide (b.st = st)).filterMap fun b => (target st b).map fun t => (b.x, t)

/-- The loop over states. -/
def learn {I : Type} (fit : Name → List (I × List ℚ) → I → List ℚ) (train valid : List (Star I)) : List Name → Except Err (List (Name × (I → List ℚ)))
  | [] => .ok []
  | s :: r =>
    if (train.filter fun b => decide (b.st = s)) = [] then learn fit train valid r
    else if (valid.filter fun b => decide (b.st = s)) = [] ∧ s ∈ burning ++ depleted then .error .index
    else if pairs s train = [] then .error .value
    else
      match learn fit train valid r with
      | .error e => .error e
      | .ok ms => .ok ((s, fit s (pairs s train)) :: ms)

end Verif.ProfBounds
