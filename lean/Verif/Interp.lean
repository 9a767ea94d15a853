import Mathlib.Data.Real.Basic
import Mathlib.Data.List.Sort
import Mathlib.Algebra.Order.Field.Basic
import Mathlib.Tactic.Common
import Mathlib.Tactic.Linarith
import Mathlib.Tactic.Ring
import Mathlib.Tactic.FieldSimp
/-!
Model of `posydon/utils/interpolators.py`: the linear interpolator `interp1d` (lines 16-121) and the container `SingleStarInterpolator`
(lines 124-232).

Simplifications: floating point numbers are real numbers; `np.interp` (its documented behaviour on increasing abscissae) is written out;
`np.argsort` is a parameter, any function which sorts the nodes; the polynomial interpolation of scipy (`PchipInterpolator` and its derivative) is
a parameter, one function of time per column; an argument array is a list.
-/
namespace Verif.Interp
open Classical

/-- The exceptions: `ValueError` of numpy, `NotImplementedError`, `AssertionError`, `IndexError`. -/
inductive Err
  | value | notImplemented | assertion | index
deriving DecidableEq, Repr

/-- A node of the interpolation: abscissa and ordinate. -/
abbrev Node := ℝ × ℝ

/-- `np.interp` inside the range, for a nonempty increasing list of nodes and `x` not below the first one. -/
noncomputable def seg : List Node → ℝ → ℝ
  | [], _ => 0
  | [p], _ => p.2
  | p :: q :: r, x => if q.1 ≤ x then seg (q :: r) x else p.2 + (q.2 - p.2) / (q.1 - p.1) * (x - p.1)

/-- `np.interp(x, xp, fp, left, right)` for a nonempty list of nodes `p :: ps`. -/
noncomputable def npInterp (p : Node) (ps : List Node) (left right : Option ℝ) (x : ℝ) : ℝ :=
  if x < p.1 then left.getD p.2
  else if x > ((p :: ps).getLast (by simp)).1 then right.getD ((p :: ps).getLast (by simp)).2
  else seg (p :: ps) x

/-- The keyword `fill_value` (lines 66-79). -/
inductive Fill
  | absent | extrapolate | one (v : ℝ) | two (a b : ℝ) | other

/-- An `interp1d` object after construction; the list of nodes is not empty. -/
structure Interp1d where
  node : Node
  nodes : List Node
  below : Option ℝ
  above : Option ℝ
  extrapolate : Bool

/-- Strictly increasing abscissae, `np.all(np.diff(x) > 0)`. -/
def Incr : List Node → Prop := List.Pairwise (fun a b => a.1 < b.1)

/-- `interp1d.__call__` (lines 87-121). -/
noncomputable def Interp1d.call (o : Interp1d) (x : ℝ) : ℝ :=
  let y := npInterp o.node o.nodes o.below o.above x
  match o.extrapolate, o.nodes with
  | true, q :: r =>
    let p := o.node
    let l := (q :: r).getLast (by simp)
    let k := ((p :: q :: r).dropLast).getLast (by simp)
    if x < p.1 then p.2 + (q.2 - p.2) / (q.1 - p.1) * (x - p.1)
    else if x > l.1 then l.2 + (l.2 - k.2) / (l.1 - k.1) * (x - l.1)
    else y
  | _, _ => y

/-- The order of the nodes after lines 49-61. -/
noncomputable def arrange (argsort : List Node → List Node) (l : List Node) : List Node :=
  if Incr l then l else if List.Pairwise (fun a b => b.1 < a.1) l then l.reverse else argsort l

/-- The fill values (lines 63-83): `none` if the keyword is not understood. -/
def fills (f : Fill) (left right : Option ℝ) : Option (Option ℝ × Option ℝ × Bool) :=
  let r : Option (Option ℝ × Option ℝ × Bool) := match f with
    | .absent => some (none, none, false)
    | .extrapolate => some (none, none, true)
    | .one v => some (some v, some v, false)
    | .two a b => some (some a, some b, false)
    | .other => none
  r.map fun (b, a, e) => (left <|> b, right <|> a, e)

/-- `interp1d.__init__` (lines 18-85). -/
noncomputable def init (argsort : List Node → List Node) (linear : Bool) (xs ys : List ℝ) (f : Fill) (left right : Option ℝ) : Except Err Interp1d :=
  if !linear then .error .notImplemented
  else if xs.length ≠ ys.length then .error .value
  else match fills f left right with
    | none => .error .notImplemented
    | some (b, a, e) =>
      match xs, ys, arrange argsort (xs.zip ys) with
      | x :: _, y :: _, p :: ps =>
        let o : Interp1d := ⟨p, ps, b, a, e⟩
        if o.call x = y then .ok o else .error .assertion
      | _, _, _ => .error .index

/-! ### The container for tracks -/

/-- A column of a track: key, data, flags. -/
structure Column (D : Type) where
  key : String
  data : D
  positive : Bool
  derivative : Bool

/-- The argument of a call: one time, or an array of times. -/
inductive Arg
  | scalar (t : ℝ) | array (ts : List ℝ)

/-- The value for one key: one number, or an array. -/
inductive Out
  | scalar (v : ℝ) | array (vs : List ℝ)

/-- The order in which the groups are stored: (positive, derivative) (lines 157-158). -/
def groups : List (Bool × Bool) := [(true, true), (true, false), (false, true), (false, false)]

/-- Line 160: the columns of one group, in their order. -/
def inGroup {D : Type} (cols : List (Column D)) (g : Bool × Bool) : List (Column D) :=
  cols.filter fun c => c.positive == g.1 && c.derivative == g.2

/-- One value: the polynomial of the column (or its derivative) at `t - offset`, clipped at zero for positive columns (lines 214-222). -/
noncomputable def valueAt {D : Type} (poly deriv : D → ℝ → ℝ) (offset : ℝ) (c : Column D) (t : ℝ) : ℝ :=
  let v := (if c.derivative then deriv else poly) c.data (t - offset)
  if c.positive then max v 0 else v

/-- Lines 225-230: the shape of the results; arrays with one element become numbers, empty arrays have no first row. -/
noncomputable def shaped (f : ℝ → ℝ) : Arg → Except Err Out
  | .scalar t => .ok (.scalar (f t))
  | .array [] => .error .index
  | .array [t] => .ok (.scalar (f t))
  | .array ts => .ok (.array (ts.map f))

/-- Adding to the dictionary of results, in order; later keys overwrite. -/
def insertAll (kvs : List (String × Out)) (r : String → Option Out) : String → Option Out :=
  kvs.foldl (fun r kv k => if k = kv.1 then some kv.2 else r k) r

/-- `SingleStarInterpolator.__call__` (lines 196-232) of the object made from the columns. -/
noncomputable def starCall {D : Type} (poly deriv : D → ℝ → ℝ) (offset : ℝ) (cols : List (Column D)) (a : Arg) : Except Err (String → Option Out) :=
  (groups.flatMap (inGroup cols)).foldlM (fun r c => (shaped (valueAt poly deriv offset c) a).map fun o => insertAll [(c.key, o)] r) fun _ => none

/-- `keys` (lines 190-193). -/
def starKeys {D : Type} (cols : List (Column D)) : List String := (groups.flatMap (inGroup cols)).map (·.key)

/-- The keywords `positives` and `derivatives` (lines 149-152 and 160-163): a missing list means `False` everywhere; a list shorter than the data makes
the mask too short, an `IndexError`. -/
def columns {D : Type} (data : List D) (keys : List String) (positives derivatives : Option (List Bool)) : Except Err (List (Column D)) :=
  let p := positives.getD (data.map fun _ => false)
  let d := derivatives.getD (data.map fun _ => false)
  if p.length < data.length ∨ d.length < data.length ∨ keys.length ≠ data.length then .error .index
  else .ok ((data.zip (keys.zip (p.zip d))).map fun (x, k, a, b) => ⟨k, x, a, b⟩)

/-! ### Lemmas -/

theorem seg_mem {ps : List Node} (h : Incr ps) {n : Node} (hn : n ∈ ps) : seg ps n.1 = n.2 := by
  induction ps with
  | nil => simp at hn
  | cons p r ih =>
    cases r with
    | nil => simp at hn; subst hn; rfl
    | cons q r =>
      have hh := List.pairwise_cons.1 h
      rcases List.mem_cons.1 hn with rfl | hm
      · simp only [seg]
        rw [if_neg (not_le.2 (hh.1 q (by simp)))]; ring
      · simp only [seg]
        have hq : q.1 ≤ n.1 := by
          rcases List.mem_cons.1 hm with rfl | hm'
          · exact le_rfl
          · exact ((List.pairwise_cons.1 hh.2).1 n hm').le
        rw [if_pos hq]
        exact ih hh.2 hm

theorem seg_between {l r : List Node} {p q : Node} (h : Incr (l ++ p :: q :: r)) {x : ℝ} (h1 : p.1 ≤ x) (h2 : x < q.1) :
    seg (l ++ p :: q :: r) x = p.2 + (q.2 - p.2) / (q.1 - p.1) * (x - p.1) := by
  induction l with
  | nil => simp only [List.nil_append, seg]; rw [if_neg (not_le.2 h2)]
  | cons a l ih =>
    have hh := List.pairwise_cons.1 h
    cases l with
    | nil =>
      simp only [List.cons_append, List.nil_append, seg]
      rw [if_pos h1, if_neg (not_le.2 h2)]
    | cons b l =>
      have hb : b.1 ≤ x := ((List.pairwise_cons.1 hh.2).1 p (by simp)).le.trans h1
      have := ih hh.2
      simp only [List.cons_append] at this ⊢
      rw [seg, if_pos hb]
      exact this

/-- The value between two nodes lies between their ordinates. -/
theorem line_between {p q : Node} (hpq : p.1 < q.1) {x : ℝ} (h1 : p.1 ≤ x) (h2 : x ≤ q.1) :
    min p.2 q.2 ≤ p.2 + (q.2 - p.2) / (q.1 - p.1) * (x - p.1) ∧ p.2 + (q.2 - p.2) / (q.1 - p.1) * (x - p.1) ≤ max p.2 q.2 := by
  have hd : 0 < q.1 - p.1 := by linarith
  have e : p.2 + (q.2 - p.2) / (q.1 - p.1) * (x - p.1) = p.2 + (q.2 - p.2) * ((x - p.1) / (q.1 - p.1)) := by
    field_simp
  rw [e]
  have t0 : 0 ≤ (x - p.1) / (q.1 - p.1) := div_nonneg (by linarith) hd.le
  have t1 : (x - p.1) / (q.1 - p.1) ≤ 1 := by rw [div_le_one hd]; linarith
  set t := (x - p.1) / (q.1 - p.1)
  rcases le_total p.2 q.2 with h | h
  · rw [min_eq_left h, max_eq_right h]; constructor <;> nlinarith
  · rw [min_eq_right h, max_eq_left h]; constructor <;> nlinarith

/-- Two increasing lists with the same nodes are equal. -/
theorem incr_unique {a b : List Node} (ha : Incr a) (hb : Incr b) (h : a.Perm b) : a = b := by
  refine List.Perm.eq_of_pairwise (le := fun a b : Node => a.1 < b.1) ?_ ha hb h
  intro x y _ _ h1 h2
  exact absurd (h1.trans h2) (lt_irrefl _)

end Verif.Interp
