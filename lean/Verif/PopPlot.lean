import Mathlib.Algebra.Order.Field.Rat
import Mathlib.Algebra.BigOperators.Group.List.Basic
import Mathlib.Data.List.GetD
import Mathlib.Tactic.Linarith
import Mathlib.Tactic.Ring
import Mathlib.Tactic.FieldSimp
import Mathlib.Tactic.Common

/-!
# Histograms of populations

Model of `TransientPopulation.plot_delay_time_distribution` (`/repo/posydon/popsyn/synthetic_population.py` l.2274-2315),
`Rates.plot_hist_properties` (l.2802-2852), and of `plot_rate_density` (l.67-85), `plot_merger_efficiency` (l.87-108) and
`plot_hist_properties` (l.111-175) of `/repo/posydon/visualization/plot_pop.py`, with `numpy.histogram`.

Simplifications.  Floats are rational numbers.  `numpy.histogram` puts a value into the bin whose edges surround it, the last bin with
its upper edge.  A row of the population is its metallicity, its time and its weight; a table has one weight per row.  The tolerance of
`numpy.isclose` is a relation that is a parameter.  A plot is the list of what is drawn.
-/

namespace Verif.PopPlot

inductive Err where
  | value | index | bins
deriving DecidableEq

/-! ### `numpy.histogram` -/

/-- The weight in one bin. -/
def bar (a b : ℚ) (last : Bool) (xs : List (ℚ × ℚ)) : ℚ :=
  ((xs.filter fun x => decide (a ≤ x.1) && (decide (x.1 < b) || (last && decide (x.1 = b)))).map (·.2)).sum

/-- The bars between the edges; the last bin includes its upper edge. -/
def bars : List ℚ → List (ℚ × ℚ) → List ℚ
  | a :: b :: es, xs => bar a b es.isEmpty xs :: bars (b :: es) xs
  | _, _ => []

/-- `numpy.linspace(lo, hi, n + 1)`. -/
def edges (lo hi : ℚ) (n : ℕ) : List ℚ := (List.range (n + 1)).map fun i : ℕ => lo + i * ((hi - lo) / n)

/-- The range of the data: `(0, 1)` without data, widened if all are equal. -/
def rangeOf (xs : List (ℚ × ℚ)) : ℚ × ℚ :=
  match xs with
  | [] => (0, 1)
  | x :: l =>
    let lo := (l.map (·.1)).foldl min x.1
    let hi := (l.map (·.1)).foldl max x.1
    if lo = hi then (lo - 1/2, hi + 1/2) else (lo, hi)

/-- `numpy.histogram(x, bins=n, weights=w)` -/
def histogram (n : ℕ) (xs : List (ℚ × ℚ)) : Except Err (List ℚ × List ℚ) :=
  if n = 0 then .error .bins
  else
    let r := rangeOf xs
    .ok (bars (edges r.1 r.2 n) xs, edges r.1 r.2 n)

/-- `numpy.diff` -/
def diff : List ℚ → List ℚ
  | a :: b :: es => (b - a) :: diff (b :: es)
  | _ => []

/-! ### Delay times -/

structure Row where
  met : ℚ
  time : ℚ
  weight : ℚ

/-- What is drawn: left edges and heights. -/
def delay (close : ℚ → ℚ → Bool) (known : Bool) (solar : List ℚ) (rows : List Row) (met : Option ℚ) (n : ℕ) : Except Err (List ℚ × List ℚ) :=
  if known then
    match met with
    | none => match histogram n (rows.map fun r => (r.time * 1000000, r.weight)) with
      | .error e => .error e
      | .ok (h, e) => .ok (List.zipWith (· / ·) h (diff e), e)
    | some z =>
      if solar.any (close z ·) then
        match histogram n ((rows.filter fun r => decide (r.met = z)).map fun r => (r.time * 1000000, r.weight)) with
        | .error e => .error e
        | .ok (h, e) => .ok (List.zipWith (· / ·) h (diff e), e)
      else .error .value
  else .error .value

/-! ### Histograms of properties -/

/-- A row: value, intrinsic and observable weight, channel. -/
structure PRow where
  value : ℚ
  intrinsic : ℚ
  observable : ℚ
  channel : ℕ

/-- Weights divided by their sum, plot_pop.py l.129-131. -/
def normalised (norm : Bool) (xs : List (ℚ × ℚ)) : List (ℚ × ℚ) :=
  if norm then xs.map fun x => (x.1, x.2 / (xs.map (·.2)).sum) else xs

/-- The rows of a channel, synthetic_population.py l.2840-2842. -/
def ofChannel (channel : Option ℕ) (rows : List PRow) : List PRow :=
  match channel with
  | none => rows
  | some c => rows.filter fun r => decide (r.channel = c)

/-- `Rates.plot_hist_properties`: the bars of the intrinsic and of the observable population. -/
def hist (valid : Bool) (intrinsic : Bool) (observable : Option Bool) (channel : Option ℕ) (norm : Bool) (n : ℕ) (rows : List PRow) :
    Except Err (Option (List ℚ × List ℚ) × Option (List ℚ × List ℚ)) :=
  if !valid then .error .value
  else if observable = some false then .error .value
  else
    let rows' := ofChannel channel rows
    if channel.isSome ∧ rows'.length = 0 then .error .value
    else if intrinsic = false ∧ observable = none then .error .value
    else
      let a : Except Err (Option (List ℚ × List ℚ)) :=
        if intrinsic then (histogram n (normalised norm (rows'.map fun r => (r.value, r.intrinsic)))).map some else .ok none
      let b : Except Err (Option (List ℚ × List ℚ)) :=
        if observable.isSome then (histogram n (normalised norm (rows'.map fun r => (r.value, r.observable)))).map some else .ok none
      match a with
      | .error e => .error e
      | .ok a => match b with
        | .error e => .error e
        | .ok b => .ok (a, b)

/-! ### Colours of channels -/

/-- The list of colours: those with even number of the map of twenty, then those with odd number, plot_pop.py l.34. -/
def colourList : List ℕ := (List.range 20).filter (fun i => i % 2 = 0) ++ (List.range 20).filter (fun i => i % 2 = 1)

/-- The curves of channels with their colours; a colour that does not exist is an error. -/
def curves {C : Type} : ℕ → List C → Except Err (List (C × ℕ))
  | _, [] => .ok []
  | i, c :: cs => match colourList[i]? with
    | none => .error .index
    | some k => match curves (i + 1) cs with
      | .error e => .error e
      | .ok l => .ok ((c, k) :: l)

/-- `plot_merger_efficiency`: the number of channels is checked. -/
def efficiency {C : Type} (chs : List C) : Except Err (List (C × ℕ)) := if 20 < chs.length then .error .value else curves 0 chs

/-- `plot_rate_density`: it is not. -/
def density {C : Type} (chs : List C) : Except Err (List (C × ℕ)) := curves 0 chs

/-! ### Specification -/

def total (xs : List (ℚ × ℚ)) : ℚ := (xs.map (·.2)).sum

/-- Edges strictly increase. -/
def Increasing : List ℚ → Prop
  | a :: b :: es => a < b ∧ Increasing (b :: es)
  | _ => True

/-- The area under the drawn steps. -/
def area (h e : List ℚ) : ℚ := (List.zipWith (· * ·) h (diff e)).sum

end Verif.PopPlot
