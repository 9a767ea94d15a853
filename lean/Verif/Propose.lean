import Verif.Sampler
import Mathlib.Analysis.SpecialFunctions.Log.Base
import Mathlib.Analysis.SpecialFunctions.Trigonometric.Basic
import Mathlib.Algebra.BigOperators.Fin
import Mathlib.Algebra.Order.BigOperators.Group.List
import Mathlib.Tactic.Positivity

/-!
# The sampler of new grid points: targets and proposals

Model of `posydon/active_learning/psy_cris/sample.py`: `TD_classification` with
`get_TD_classification_data` (l.85-170), `normalize_step_history` and
`undo_normalize_step_history` (l.558-584), `do_simple_density_logic` (l.586-687),
`do_density_logic` (l.689-838) and `get_proposed_points` (l.840-990).

Simplifications.  Floats are reals, points vectors of `d` reals.  A uniform number between 0
and `h` is `h` times a number of `[0, 1)`, which is a parameter.  Variance multipliers of the simple
version are one number.  The mean distance of points is a parameter.
Printing, plots and the shuffling are left out.
-/

namespace Verif.Propose

open Verif.Sampler (Pos)

noncomputable section

open Classical

inductive Err where
  | index
  | value
  | attribute
  | singular
deriving DecidableEq

/-! ### The target of the classification -/

/-- `get_TD_classification_data` (l.111-135): the highest probability for each position, from the
highest normalised probabilities of the classifier, `none` where they are NaN; one NaN replaces all of
them. -/
def maxProbs (ps : List (Option ℝ)) : List ℝ :=
  if ps.any (·.isNone) then ps.map fun _ => 1 / 10 ^ 16
  else ps.map fun p => match p with
    | some x => if x = 1 then 1 - 1 / 10 ^ 16 else x
    | none => 1 / 10 ^ 16

/-- `TD_classification` (l.137-170) with `K` classes. -/
def target (K : ℕ) (β : ℝ) (ps : List (Option ℝ)) : List ℝ :=
  (maxProbs ps).map fun p => ((1 - p) * 1 / (1 - 1 / (K : ℝ))) ^ β

/-! ### Normalisation -/

variable {d : ℕ}

/-- `normalize_step_history` (l.564-569) for one step. -/
def norm (lo hi x : Pos d) : Pos d := fun j => (x j - lo j) / (hi j - lo j)

/-- `undo_normalize_step_history` (l.578-584) for one step of an array. -/
def undo (lo hi y : Pos d) : Pos d := fun j => y j * (hi j - lo j) + lo j

/-! ### The simple density logic -/

/-- The squared length. -/
def sq (z : Pos d) : ℝ := ∑ i, z i ^ 2

/-- The highest value of the normal distribution with variance `σ` in every direction (l.656-657). -/
def peak (d : ℕ) (σ : ℝ) : ℝ := 1 / Real.sqrt ((2 * Real.pi) ^ d * σ ^ d)

/-- The density of that distribution (l.654-655, 669). -/
def pdf (σ : ℝ) (z : Pos d) : ℝ := peak d σ * Real.exp (-(sq z) / (2 * σ))

/-- Whether a step is accepted next to the points `acc` (l.668-680); `u j` are the random numbers. -/
def keeps (σ : ℝ) (together : Bool) (acc : List (Pos d)) (x : Pos d) (u : ℕ → ℝ) : Prop :=
  if together then (acc.map fun a => pdf σ (x - a)).sum < peak d σ * u 0
  else ∀ j, ∀ h : j < acc.length, pdf σ (x - acc[j]) < peak d σ * u j

/-- The loop over the steps (l.662-683); the random numbers of step `k` are `u k`.  The result are
the newly accepted and the rejected points; `acc` are the points accepted so far, which are never
none (l.644). -/
def walk (σ : ℝ) (together : Bool) : (ℕ → ℕ → ℝ) → List (Pos d) → List (Pos d) →
    List (Pos d) × List (Pos d)
  | _, _, [] => ([], [])
  | u, acc, x :: r =>
    if keeps σ together acc x (u 0) then
      let q := walk σ together (fun k => u (k + 1)) (acc ++ [x]) r
      (x :: q.1, q.2)
    else
      let q := walk σ together (fun k => u (k + 1)) acc r
      (q.1, x :: q.2)

/-- The variance (l.649). -/
def sigma (d N : ℕ) (κ varMult : ℝ) : ℝ := κ * (1/2) * (N : ℝ) ^ (-1 / (d : ℝ)) * varMult

/-- `do_simple_density_logic` (l.586-687): without the training data the dimension is that of
the first of no points; a variance of 0 makes the covariance singular. -/
def simple (train : List (Pos d)) (withTrain together : Bool) (u : ℕ → ℕ → ℝ) (N : ℕ) (κ varMult : ℝ)
    (steps : List (Pos d)) : Except Err (List (Pos d) × List (Pos d)) :=
  let orig := if withTrain then train else []
  if orig = [] then .error .index
  else if sigma d N κ varMult = 0 then .error .singular
  else .ok (walk (sigma d N κ varMult) together u orig steps)

/-! ### The density logic -/

/-- The bound of the random numbers (l.776-783): the dimension in it is the number of
covariance matrices, 1. -/
def peak1 (d : ℕ) (σ : ℝ) : ℝ := 1 / Real.sqrt ((2 * Real.pi) ^ 1 * σ ^ d)

/-- Whether a step is accepted (l.771-806): the number of accepted points is compared with the number of
densities below the random number, or with the truth value for their sum. -/
def keeps2 (σ : ℝ) (together : Bool) (acc : List (Pos d)) (x : Pos d) (u : ℝ) : Prop :=
  acc = [] ∨
  if together then
    acc.length = if (acc.map fun a => pdf σ (x - a)).sum < peak1 d σ * u then 1 else 0
  else acc.length = acc.countP fun a => pdf σ (x - a) < peak1 d σ * u

/-- The loop (l.768-822). -/
def walk2 (σ : ℝ) (together : Bool) : (ℕ → ℝ) → List (Pos d) → List (Pos d) →
    List (Pos d) × List (Pos d)
  | _, _, [] => ([], [])
  | u, acc, x :: r =>
    if keeps2 σ together acc x (u 0) then
      let q := walk2 σ together (fun k => u (k + 1)) (acc ++ [x]) r
      (x :: q.1, q.2)
    else
      let q := walk2 σ together (fun k => u (k + 1)) acc r
      (q.1, x :: q.2)

/-- A variance multiplier: its number of array dimensions and its values. -/
structure VarMult where
  ndim : ℕ
  vals : List ℝ

/-- `do_density_logic` (l.689-838) with variance multipliers 1.  The first 5 % of the steps are skipped; points accepted
before are read and then dropped (l.750-757); with `norm_steps` the list of accepted points has no attribute
`T` in the end (l.831, 579). -/
def density (lo hi : Pos d) (normSteps together : Bool) (varMult : Option VarMult)
    (pre : Option (List (Pos d))) (u : ℕ → ℝ) (N : ℕ) (κ : ℝ) (steps : List (Pos d)) :
    Except Err (List (Pos d) × List (Pos d)) :=
  let st := if normSteps then steps.map (norm lo hi) else steps
  if (match varMult with | some v => v.ndim ≠ d | none => False) then .error .value
  else
    let _accepted := match pre with | some l => l | none => []
    let accepted : List (Pos d) := []
    let r := walk2 (sigma d N κ 1) together u accepted (st.drop (st.length * 5 / 100))
    if normSteps then .error .attribute else .ok r

/-! ### The search for the number of points -/

/-- A sample with the right number of points, its mean distance and its scale (l.936-940). -/
structure Good (P : Type) where
  pts : List P
  dist : ℝ
  kappa : ℝ

/-- The next scale (l.960-969). -/
def nextKappa (N it n : ℕ) (κ : ℝ) : ℝ :=
  let diff : ℝ := |(n : ℝ) - N|
  let f : ℝ := (1/100) / max 1 (Real.logb 10 it)
  if N < n then κ * (1 + f * diff)
  else if n < N then (if 1 - f * diff < 0 then κ * (1/10) else κ * (1 - f * diff))
  else κ

/-- The loop (l.920-971) with `fuel` = `max_iters - iters` iterations left; `run it κ` is the sample of
iteration `it`. -/
def search {P : Type} (run : ℕ → ℝ → Except Err (List P)) (avg : List P → ℝ) (N rep : ℕ) :
    ℕ → ℕ → ℝ → List (Good P) → Except Err (List (Good P))
  | 0, _, _, good => .ok good
  | fuel + 1, it, κ, good =>
    match run it κ with
    | .error e => .error e
    | .ok acc =>
      if acc.length = 0 then search run avg N rep fuel (it + 1) (κ * (1/2)) good
      else if acc.length = N then
        if rep ≤ (good ++ [(⟨acc, avg acc, κ⟩ : Good P)]).length then .ok (good ++ [⟨acc, avg acc, κ⟩])
        else search run avg N rep fuel (it + 1) κ (good ++ [⟨acc, avg acc, κ⟩])
      else search run avg N rep fuel (it + 1) (nextKappa N it acc.length κ) good

/-- The first of the samples with the largest mean distance (l.980-982). -/
def best {P : Type} : List (Good P) → Option (Good P)
  | [] => none
  | g :: r => match best r with
    | none => some g
    | some h => if g.dist < h.dist then some h else some g

/-- `get_proposed_points` (l.840-990). -/
def proposed {P : Type} (run : ℕ → ℝ → Except Err (List P)) (avg : List P → ℝ) (N rep maxIters : ℕ)
    (κ : ℝ) : Except Err (List P × ℝ) :=
  match search run avg N rep (maxIters - 1) 1 κ [] with
  | .error e => .error e
  | .ok good => match best good with
    | none => .error .value
    | some g => .ok (g.pts, g.kappa)

end

end Verif.Propose
