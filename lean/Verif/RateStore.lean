import Verif.Chars
import Mathlib.Algebra.Order.Field.Rat
import Mathlib.Data.List.Basic
import Mathlib.Data.List.Infix
/-!
Model of the results stored in a population file: `/repo/posydon/popsyn/synthetic_population.py`,
`Population.create_transient_population` (l.1640-1736), `TransientPopulation.__init__` (l.1801-1807), `calculate_model_weights`
(l.1973-1987), `model_weights` (l.2007-2034), `calculate_cosmic_weights` (l.2091-2213), `_write_MODEL_data` (l.2333-2353),
`Rates.__init__` (l.2447-2468), `_read_MODEL_data` (l.2470-2488), `calculate_intrinsic_rate_density` (l.2570-2622),
`calculate_observable_population` (l.2624-2695), `observable_population` (l.2697-2732), `observable_population_names` (l.2734-2749),
`intrinsic_rate_density` (l.2751-2769).

Simplifications: a file is a function from paths to tables, a path is the list of its parts (names have no slash); tables are abstract, what
is calculated from them is a parameter (the calculations themselves are modelled in `Rates`). As in pandas, removing or putting a table
also removes everything below its path.
-/
namespace Verif.RateStore

abbrev Name := List Char
abbrev Path := List Name

inductive Err
  | value | key
  deriving DecidableEq

abbrev File (V : Type) := Path → Option V

/-- `del store[p]` or `store.remove(p)` -/
def rm {V : Type} (f : File V) (p : Path) : File V := fun q => if p <+: q then none else f q

/-- `store.put(p, v)` -/
def put {V : Type} (f : File V) (p : Path) (v : V) : File V := fun q => if q = p then some v else rm f p q

def tPath (t : Name) : Path := [(chars! "transients"), t]
def wPath (t i : Name) : Path := tPath t ++ [(chars! "weights"), i]
def rPath (t s x : Name) : Path := tPath t ++ [(chars! "rates"), s, x]
def oPath (t o : Name) : Path := rPath t (chars! "observable") o

def paramsSuffix : Name := (chars! "_population_parameters")

/-- `create_transient_population`: the old table, if there is one, goes with all that is below it; no selected system leaves none. -/
def create {V : Type} (f : File V) (t : Name) (pop : Option V) : File V :=
  let f := if (f (tPath t)).isSome then rm f (tPath t) else f
  match pop with
  | none => f
  | some v => put f (tPath t) v

/-- l.1973-1985 -/
def modelWeights {V : Type} (f : File V) (t i : Name) (w params : V) : File V :=
  let f := if (f (wPath t i)).isSome then
      let f := rm f (wPath t i)
      if (f (wPath t (i ++ paramsSuffix))).isSome then rm f (wPath t (i ++ paramsSuffix)) else f
    else f
  put (put f (wPath t i) w) (wPath t (i ++ paramsSuffix)) params

/-- l.2024-2029: the identifiers that `model_weights()` finds, as a condition on a name. -/
def listed {V : Type} (f : File V) (t i : Name) : Prop := (f (wPath t i)).isSome = true ∧ ¬ paramsSuffix <:+ i

/-- The calculations: weights, event redshifts and births from the transients, the model weights and the star formation model; the rate
density from weights, redshifts and model. -/
structure Calc (V : Type) where
  weights : V → V → V → V
  events : V → V → V
  births : V → V
  density : V → V → V → V

def modelN : Name := (chars! "MODEL")
def weightsN : Name := (chars! "weights")
def eventsN : Name := (chars! "z_events")
def birthN : Name := (chars! "birth")
def densityN : Name := (chars! "intrinsic_rate_density")

/-- l.2099-2109 -/
def clear {V : Type} (f : File V) (t s : Name) : File V :=
  if (f (rPath t s modelN)).isSome then
    rm (rm (rm (rm f (rPath t s modelN)) (rPath t s weightsN)) (rPath t s eventsN)) (rPath t s birthN)
  else f

/-- `calculate_cosmic_weights`, for a population with at least one event. `write` is the table of the model, if it can be written. -/
def cosmic {V : Type} (C : Calc V) (f : File V) (t s i : Name) (write : Except Err V) : Except Err Unit × File V :=
  match f (tPath t), f (wPath t i) with
  | some pop, some w =>
    if paramsSuffix <:+ i then (.error .value, f)
    else
      let f := clear f t s
      match write with
      | .error e => (.error e, f)
      | .ok m =>
        let f := put f (rPath t s modelN) m
        let f := put f (rPath t s birthN) (C.births m)
        let f := put f (rPath t s weightsN) (C.weights pop w m)
        (.ok (), put f (rPath t s eventsN) (C.events pop m))
  | none, _ => (.error .key, f)
  | _, none => (.error .value, f)

/-- `Rates.__init__` -/
def openRates {V : Type} (f : File V) (t s : Name) : Except Err V :=
  if (f (tPath t)).isNone then .error .value
  else match f (rPath t s modelN) with
    | none => .error .value
    | some m => .ok m

/-- `calculate_intrinsic_rate_density` of rates that are open with the model `m` -/
def density {V : Type} (C : Calc V) (f : File V) (t s : Name) (m : V) : Except Err V × File V :=
  match f (rPath t s eventsN), f (rPath t s weightsN) with
  | some z, some w => (.ok (C.density w z m), put f (rPath t s densityN) (C.density w z m))
  | _, _ => (.error .key, f)

/-- `intrinsic_rate_density` -/
def readDensity {V : Type} (f : File V) (t s : Name) : Except Err V :=
  match f (rPath t s densityN) with
  | none => .error .value
  | some d => .ok d

/-- `calculate_observable_population`: `g` of the transients, the event redshifts and the weights -/
def observable {V : Type} (f : File V) (t s o : Name) (g : V → V → V → V) : Except Err Unit × File V :=
  let f := if (f (oPath t o)).isSome then rm f (oPath t o) else f
  match f (tPath t), f (rPath t s weightsN), f (rPath t s eventsN) with
  | some pop, some w, some z => (.ok (), put f (oPath t o) (g pop z w))
  | _, _, _ => (.error .key, f)

/-- `observable_population` -/
def readObservable {V : Type} (f : File V) (t o : Name) : Except Err V :=
  match f (oPath t o) with
  | none => .error .value
  | some v => .ok v

/-! ### The metallicity width of a model -/

inductive DlogZ
  | none | float (q : ℚ) | int (q : ℤ) | list (l : List ℚ)
  deriving DecidableEq

/-- `_write_MODEL_data`: the entries of the column `dlogZ`, one per row. A whole number that is not a float cannot be written: the table
has no row to go by. -/
def writeDlogZ : DlogZ → Except Err (List (Option ℚ))
  | .none => .ok [Option.none]
  | .float q => .ok [some q]
  | .int _ => .error .value
  | .list l => .ok (l.map some)

def minL : List ℚ → ℚ → ℚ := fun l a => l.foldl min a
def maxL : List ℚ → ℚ → ℚ := fun l a => l.foldl max a

/-- `_read_MODEL_data` -/
def readDlogZ : List (Option ℚ) → Except Err DlogZ
  | [] => .error .key
  | [Option.none] => .ok .none
  | [some q] => .ok (.float q)
  | a :: l => .ok (.list [minL (l.filterMap id) (a.getD 0), maxL (l.filterMap id) (a.getD 0)])

end Verif.RateStore
