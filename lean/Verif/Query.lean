import Mathlib.Algebra.Order.Field.Rat
import Mathlib.Algebra.BigOperators.Group.List.Basic
import Mathlib.Data.Rat.Floor
import Mathlib.Data.List.Basic
import Mathlib.Data.List.Sort
import Mathlib.Data.Nat.Find
import Mathlib.Tactic.Common

/-!
# Queries and dynamic sampling of the active learning

Model of `posydon/active_learning/psy_cris/utils.py`: `get_new_query_points` (l.74-188), `do_small_class_proposal`
(l.198-270), `do_dynamic_sampling` (l.273-407), `check_dist` (l.461-490), `get_regular_grid_df` (l.493-572, the number of
points), `get_prediction_diffs` (l.739-766, the places of the predictions), `calc_regression_accuracy` (l.851-878) and
`get_confusion_matrix` (l.881-913).

Simplifications.  Floats are rationals.  Random samples, classifiers, distances and new proposals are parameters; the
analytic outputs at new points are part of the points.  Printing and plots are left out.
-/

namespace Verif.Query

inductive Err where
  | index
  | zeroDivision
  | type
deriving DecidableEq

/-! ### Small classes -/

/-- How many points each small class gets (l.260-264). -/
def allot (n k : ℕ) : List ℕ := (List.range k).map fun i => n / k + if i < n % k then 1 else 0

/-- The proposed points (l.266-270), from the samples around the single point of each small class; `none` without small
classes. -/
def smallProposal {P : Type} (n : ℕ) (samples : List (List P)) : Option (List P) :=
  if samples = [] then none
  else some (((allot n samples.length).zip samples).flatMap fun x => x.2.take x.1)

/-- The length scale in one axis (l.252): the absolute value of the mean position of the neighbours. -/
def lengthScale (closest : List ℚ) : ℚ := |closest.sum / closest.length|

/-- Points inside of the range of the data in all axes (l.119-128). -/
def inside (lo hi p : List ℚ) : Bool := (p.zip (lo.zip hi)).all fun x => x.1 < x.2.2 && x.1 > x.2.1

/-- The predictions that come back for points: none for those without a value. -/
def preds {P C : Type} (cls : P → Option C) (ps : List P) : List C := ps.filterMap cls

/-- `get_new_query_points` in the case with small classes (l.118-135): points and their predicted classes. -/
def smallQuery {C : Type} (cls : List ℚ → Option C) (lo hi : List ℚ) (n : ℕ)
    (samples : List (List (List ℚ))) : Option (List (List ℚ) × List C) :=
  (smallProposal (n * 1000) samples).map fun ps =>
    let q := ps.filter (inside lo hi)
    (q.take n, (preds cls q).take n)

/-- The target distribution in the options of the sampler: a name, or after a call the method itself. -/
inductive Target where
  | name (s : ℕ)
  | method (s : ℕ)
deriving DecidableEq

/-- The name is looked up, and the method is written back into the given options (l.147-149). -/
def resolve : Target → Except Err Target
  | .name s => .ok (.method s)
  | .method _ => .error .type

/-! ### Dynamic sampling -/

/-- New points per iteration: a number, a number of points as fraction of the data, or a list. -/
inductive Per where
  | fixed (n : ℕ)
  | fraction (q : ℚ)
  | list (l : List ℕ)

/-- The number of points to ask for (l.327-337). -/
def size (per : Per) (total sampled loops len : ℕ) : Except Err ℕ :=
  match per with
  | .fixed n => if n = 0 then .error .zeroDivision
      else .ok (if total - sampled < n then total - sampled else n)
  | .fraction q =>
      let n := (⌊(len : ℚ) * q⌋).toNat
      if n = 0 then .error .zeroDivision
      else .ok (if total - sampled < n then total - sampled else n)
  | .list l => .ok ((l[loops]?).getD (total - sampled))

/-- `check_dist` (l.487-490) -/
def far {P : Type} (dist : P → P → ℚ) (thr : ℚ) (old : List P) (p : P) : Bool :=
  old.all fun o => dist p o ≥ thr

/-- The loop variables: all data, the data in the options for the next query, the number of new points and of iterations. -/
structure St (P : Type) where
  data : List P
  given : List P
  sampled : ℕ
  loops : ℕ

/-- One iteration (l.325-395).  New points are proposed from the data in the options; these are then set to the data
before the new points are added (l.353 and l.378-381). -/
def step {P : Type} (propose : ℕ → List P → ℕ → List P) (dist : P → P → ℚ) (thr : ℚ) (per : Per)
    (total : ℕ) (st : St P) : Except Err (St P) :=
  match size per total st.sampled st.loops st.data.length with
  | .error e => .error e
  | .ok n =>
    let good := (propose st.loops st.given n).filter (far dist thr st.data)
    .ok ⟨st.data ++ good, st.data, st.sampled + good.length, st.loops + 1⟩

/-- At most `fuel` iterations, as long as points are missing. -/
def run {P : Type} (propose : ℕ → List P → ℕ → List P) (dist : P → P → ℚ) (thr : ℚ) (per : Per)
    (total : ℕ) : ℕ → St P → Except Err (St P)
  | 0, st => .ok st
  | fuel + 1, st =>
    if st.sampled < total then
      match step propose dist thr per total st with
      | .error e => .error e
      | .ok st' => run propose dist thr per total fuel st'
    else .ok st

/-- The beginning (l.312-323). -/
def start {P : Type} (data : List P) : St P := ⟨data, data, 0, 0⟩

/-- The rounded root of the number of points (l.528): `(2k - 1)/2 ≤ N ^ (1 / d)`. -/
def roundRoot (d n : ℕ) : ℕ := Nat.findGreatest (fun k => (2 * k - 1) ^ d ≤ 2 ^ d * n) n

/-- The number of points of the regular grid. -/
def gridSize (d n : ℕ) : ℕ := roundRoot d n ^ d

/-! ### Performance -/

/-- The predictions at all `n` points (l.748-766): those made at their places, `none` elsewhere. -/
def place {C : Type} (n : ℕ) (wh : List ℕ) (cs : List C) : List (Option C) :=
  (List.range n).map fun i => ((wh.zip cs).find? fun x => x.1 = i).map (·.2)

/-- With `verbose` the predictions are replaced by those for the points without a value (l.754-761); these are `again`. -/
def diffPreds {C : Type} (verbose : Bool) (n : ℕ) (wh : List ℕ) (cs : List C) (again : List ℕ × List C) :
    List (Option C) :=
  if cs.length = n then cs.map some
  else
    let r := if verbose then again else (wh, cs)
    (place n r.1 r.2).zipIdx.map fun x => if x.2 ∈ wh then x.1 else none

/-- `calc_regression_accuracy` (l.867-876) for one limit. -/
def accuracy (diffs : Option (List ℚ)) (limit : ℚ) : Except Err ℚ :=
  match diffs with
  | none => .ok 1000000000
  | some l =>
    match (l.insertionSort (· ≤ ·))[(⌊limit * l.length⌋).toNat]? with
    | none => .error .index
    | some v => .ok v

/-- A row of `get_confusion_matrix` (l.903-909): for the points of class `c` the fractions predicted to be in each class;
`none` is NaN. -/
def confusionRow {C : Type} [DecidableEq C] (pts : List (Option C × C)) (classes : List C) (c : C) :
    List (Option ℚ) :=
  let loc := pts.filter fun p => p.2 = c
  classes.map fun i =>
    if loc.length = 0 then none
    else some ((loc.filter fun p => p.1 = some i).length / loc.length)

end Verif.Query
