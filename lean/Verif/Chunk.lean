import Verif.Table
import Mathlib.Data.Finset.Basic
import Mathlib.Data.Finset.Card
/-!
Model of chunked passes over a population file: `/repo/posydon/popsyn/synthetic_population.py`,
`Population.create_transient_population` (l.1595-1736) and the loop of `calculate_formation_channels` (l.1474-1503), which cuts
the tables in the same way; `/repo/posydon/popsyn/analysis.py`, `_decide_chunksize` (l.33-37), `_filter_columns` (l.40-71),
`get_subsets` (l.74-192).

Simplifications: the user's function is a parameter; a written table is the list of its rows (appending an empty frame writes
nothing, as pandas does); the restriction to columns is left out except for the checks; Python's set of selected indices is a
`Finset`, and which of them `set(list(s)[:n])` keeps is a parameter.
-/
namespace Verif.Chunk
open Verif.Table

/-! ### Passes by position -/

/-- The pieces handed to the user's function, l.1679-1725: `i` counts binaries, `prev` history rows; the lengths come in pieces
of `cs`.  A piece of the history is `[prev, prev + sum of the lengths)`, one of the one-line table `[i, i + cs)`. -/
def batches {α β : Type} (cs : ℕ) (hist : List α) (one : List β) : ℕ → ℕ → List (List ℕ) → List (List α × List β)
  | _, _, [] => []
  | i, prev, c :: rest =>
    ((hist.drop prev).take c.sum, (one.drop i).take cs) :: batches cs hist one (i + cs) (prev + c.sum) rest

/-- All pieces for a file with the given lengths. -/
def pieces {α β : Type} (cs : ℕ) (lens : List ℕ) (hist : List α) (one : List β) : List (List α × List β) :=
  batches cs hist one 0 0 (chunks cs lens)

/-- A frame returned by the user's function: its columns and rows. -/
abbrev Out (γ : Type) := List String × List γ

/-- The checks l.1704-1710. -/
def colsOk (c : List String) : Bool := decide ("time" ∈ c) && decide ("metallicity" ∈ c) && decide c.Nodup

/-- The loop with the checks: what has been written and whether it raised. -/
def transientLoop {α β γ : Type} (f : List α → List β → Out γ) : List (List α × List β) → List γ → List γ × Bool
  | [], acc => (acc, false)
  | (h, o) :: rest, acc =>
    let r := f h o
    if colsOk r.1 then transientLoop f rest (acc ++ r.2) else (acc, true)

inductive TErr | value
  deriving DecidableEq

/-- `create_transient_population`: the request must include the time column if columns are given (l.1648-1650); then the loop;
`None` if nothing was written (l.1728-1731). -/
def transient {α β γ : Type} (cs : ℕ) (lens : List ℕ) (hist : List α) (one : List β) (histCols : Option (List String))
    (f : List α → List β → Out γ) : Except TErr (Option (List γ)) :=
  match histCols with
  | some c => if "time" ∈ c then go else .error .value
  | none => go
where
  go : Except TErr (Option (List γ)) :=
    match transientLoop f (pieces cs lens hist one) [] with
    | (_, true) => .error .value
    | (rows, false) => if rows = [] then .ok none else .ok (some rows)

/-! ### Passes that stop early -/

/-- `_decide_chunksize`, l.33-37. -/
def chunkSize : Option ℕ → ℕ
  | none => 100000
  | some n => min 100000 (max 1000 (n / 10))

/-- `_filter_columns`, l.56-71; `inStr` is the substring test. -/
def filterColumns (inStr : String → String → Bool) (cols : List String) : Option (List String) → List String
  | none => cols
  | some ps => cols.filter fun c => ps.any fun p => inStr p c

/-- Rows of a table, by label. -/
abbrev Rows (α : Type) := List (ℤ × α)

def labels {α : Type} (r : Rows α) : Finset ℤ := (r.map Prod.fst).toFinset

/-- The selection loop l.147-158.  `sel` gives the rows of a chunk that the selector marks, `keep n s` is
`set(list(s)[:n])`. -/
def findLoop {α : Type} (sel : Rows α → Rows α) (keep : ℕ → Finset ℤ → Finset ℤ) (findN : Option ℕ) :
    List (Rows α) → Finset ℤ → Finset ℤ
  | [], s => s
  | c :: rest, s =>
    let s' := s ∪ labels (sel c)
    match findN with
    | some n => if n ≤ s'.card then keep n s' else findLoop sel keep findN rest s'
    | none => findLoop sel keep findN rest s'

/-- The one-line loop l.162-173 with a selector. -/
def onelineLoop {α : Type} (s : Finset ℤ) : List (Rows α) → Finset ℤ → Rows α
  | [], _ => []
  | c :: rest, inc =>
    let c' := c.filter fun r => decide (r.1 ∈ s)
    let inc' := inc ∪ labels c'
    if inc'.card = s.card then c' else c' ++ onelineLoop s rest inc'

/-- The history loop l.176-190 with a selector: it reads one more chunk after the one in which all were found. -/
def historyLoop {α : Type} (s : Finset ℤ) : List (Rows α) → Finset ℤ → Bool → Rows α
  | [], _, _ => []
  | c :: rest, inc, stop =>
    let c' := c.filter fun r => decide (r.1 ∈ s)
    let inc' := inc ∪ labels c'
    if inc'.card = s.card then
      if stop then c' else c' ++ historyLoop s rest inc' true
    else c' ++ historyLoop s rest inc' stop

/-- Which table the selector looks at. -/
inductive Selector (α β : Type)
  | none
  | oneline (sel : Rows β → Rows β)
  | history (sel : Rows α → Rows α)
  | both

/-- `get_subsets`: one-line and history rows.  The two selectors together are rejected (l.116-117). -/
def subsets {α β : Type} (cs : ℕ) (keep : ℕ → Finset ℤ → Finset ℤ) (findN : Option ℕ) (hist : Rows α) (one : Rows β) :
    Selector α β → Except Unit (Rows β × Rows α)
  | .both => .error ()
  | .none => .ok ((chunks cs one).flatten, (chunks cs hist).flatten)
  | .oneline sel =>
    let s := findLoop sel keep findN (chunks cs one) ∅
    .ok (onelineLoop s (chunks cs one) ∅, historyLoop s (chunks cs hist) ∅ false)
  | .history sel =>
    let s := findLoop sel keep findN (chunks cs hist) ∅
    .ok (onelineLoop s (chunks cs one) ∅, historyLoop s (chunks cs hist) ∅ false)

/-! ### Specification -/

/-- A binary of a population: its label, its history rows and its one-line row. -/
structure Bin (α β : Type) where
  label : ℤ
  hist : List α
  one : β

/-- Rows of one binary are never more than `d` rows apart. -/
def Near {α : Type} (d : ℕ) (hist : Rows α) : Prop :=
  ∀ (p q : ℕ) (hp : p < hist.length) (hq : q < hist.length), p ≤ q → (hist[p]).1 = (hist[q]).1 → q - p ≤ d

end Verif.Chunk
