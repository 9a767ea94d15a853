import Verif.InterpProps
import Mathlib.Analysis.SpecialFunctions.Pow.Real
import Mathlib.Analysis.SpecialFunctions.Log.Base
import Mathlib.Algebra.BigOperators.Intervals
import Mathlib.Algebra.BigOperators.Field
import Mathlib.Data.List.GetD
/-!
Model of `posydon/popsyn/star_formation_history.py`: checks of the limits (lines 58-83), `SFHBase._distribute_cdf` (lines 163-222), `SFHBase.__call__`
(lines 225-241), the analytic models (`MadauBase`, lines 243-376, and its subclasses), the tabulated distributions (lines 649-688 and 818-863),
`get_SFH_model` (lines 1011-1039) and `get_formation_times` (lines 1063-1122).

Simplifications: floating point numbers are real numbers; an array of fixed length is a function of its index together with its length, assignments to
elements and slices are case distinctions on the index; a division by zero (`nan`) is `none`; `scipy.stats.norm.cdf` is a parameter; random draws
are parameters; file contents are parameters.
-/
namespace Verif.Sfh
open Classical
open Verif.Interp (Interp1d Node Incr)

/-- `ValueError` and `IndexError`. -/
inductive Err
  | value | index
deriving DecidableEq, Repr

/-- Lines 70-83: the limits are between 0 and 1 and in order. -/
noncomputable def checkLimits (zmin zmax : Option ℝ) : Except Err Unit :=
  let bad (z : Option ℝ) : Prop := match z with | some v => v > 1 ∨ v < 0 | none => False
  if bad zmax then .error .value
  else if bad zmin then .error .value
  else match zmin, zmax with
    | some a, some b => if a ≥ b then .error .value else .ok ()
    | _, _ => .ok ()

/-- Element `i` of the array of bin edges. -/
def edge (bins : List ℝ) (i : ℕ) : ℝ := bins.getD i 0

/-- `np.searchsorted(bins, z)` for sorted bins: the number of edges below `z`. -/
noncomputable def cnt (bins : List ℝ) (z : ℝ) : ℕ := bins.countP (· < z)

/-- Lines 189-199: the upper limit.  The result is the changed array and `last_bin_index`. -/
noncomputable def upper (cdf : ℝ → ℝ) (bins : List ℝ) (zmax : Option ℝ) (f : ℕ → ℝ) : Except Err ((ℕ → ℝ) × ℤ) :=
  let n := bins.length - 1
  match zmax with
  | none => .ok (f, (n : ℤ) - 1)
  | some z =>
    if n = 0 then .error .index
    else if z ≥ edge bins n then .ok (fun i => if i = n - 1 then cdf z - cdf (edge bins (n - 1)) else f i, (n : ℤ) - 1)
    else
      let last : ℤ := (cnt bins z : ℤ) - 1
      if last < 0 then .ok (fun _ => 0, last)   -- element -1 is set, then the slice [0:] is cleared
      else .ok (fun i => if (i : ℤ) = last then cdf z - cdf (edge bins last.toNat) else if (i : ℤ) > last then 0 else f i, last)

/-- Lines 201-210: the lower limit.  The result is the changed array and `first_bin_index`. -/
noncomputable def lower (cdf : ℝ → ℝ) (bins : List ℝ) (zmin : Option ℝ) (f : ℕ → ℝ) : Except Err ((ℕ → ℝ) × ℤ) :=
  let n := bins.length - 1
  match zmin with
  | none => .ok (f, 0)
  | some z =>
    if n = 0 then .error .index
    else if z ≤ edge bins 0 then .ok (fun i => if i = 0 then cdf (edge bins 1) - cdf z else f i, 0)
    else
      let first := cnt bins z - 1
      if first + 1 > n then .error .index
      else .ok (fun i => if i < first then 0 else if i = first then cdf (edge bins (first + 1)) - cdf z else f i, first)

/-- Lines 213-217: both limits in the same bin. -/
noncomputable def same (cdf : ℝ → ℝ) (zmin zmax : Option ℝ) (first last : ℤ) (f : ℕ → ℝ) : ℕ → ℝ :=
  match zmin, zmax with
  | some a, some b => if first = last then fun i => if (i : ℤ) = first then cdf b - cdf a else 0 else f
  | _, _ => f

/-- The array before normalisation (lines 179-217). -/
noncomputable def fractions (cdf : ℝ → ℝ) (zmin zmax : Option ℝ) (bins : List ℝ) : Except Err (ℕ → ℝ) :=
  if ¬ bins.Pairwise (· < ·) then .error .value
  else
    match upper cdf bins zmax (fun i => cdf (edge bins (i + 1)) - cdf (edge bins i)) with
    | .error e => .error e
    | .ok (f1, last) =>
      match lower cdf bins zmin f1 with
      | .error e => .error e
      | .ok (f2, first) => .ok (same cdf zmin zmax first last f2)

/-- `_distribute_cdf` (lines 163-222); `none` stands for an array of `nan`. -/
noncomputable def distribute (cdf : ℝ → ℝ) (zmin zmax : Option ℝ) (normalise : Bool) (bins : List ℝ) : Except Err (Option (List ℝ)) :=
  match fractions cdf zmin zmax bins with
  | .error e => .error e
  | .ok f =>
    let n := bins.length - 1
    let l := (List.range n).map f
    if normalise then
      let s := l.sum
      if s = 0 then .ok none else .ok (some (l.map (· / s)))
    else .ok (some l)

/-- `SFHBase.__call__` (lines 225-241) at one redshift: the rate times the fractions. -/
noncomputable def sfrPerBin (csfrd : ℝ) (fr : List ℝ) : List ℝ := fr.map (csfrd * ·)

/-! ### The analytic models -/

/-- The parameters of the rate (lines 426-431, 467-472, 513-518, 945-950). -/
structure Rate where
  a : ℝ
  b : ℝ
  c : ℝ
  d : ℝ

noncomputable def madauDickinson14 : Rate := ⟨0.015, 2.7, 2.9, 5.6⟩
noncomputable def madauFragos17 : Rate := ⟨0.01, 2.6, 3.2, 6.2⟩
noncomputable def neijssel19 : Rate := ⟨0.01, 2.77, 2.9, 4.7⟩
noncomputable def fujimoto24 : Rate := ⟨0.010, 2.8, 3.3, 6.6⟩

/-- `MadauBase.CSFRD` (lines 287-304). -/
noncomputable def csfrd (p : Rate) (z : ℝ) : ℝ := p.a * (1 + z) ^ p.b / (1 + ((1 + z) / p.c) ^ p.d)

/-- The argument `sigma` (lines 306-329): a name, a number or something else. -/
inductive Sigma
  | bavera20 | neijssel19 | name | num (x : ℝ) | other

/-- `std_log_metallicity_dist` (lines 306-329). -/
noncomputable def sigmaOf : Sigma → Except Err ℝ
  | .bavera20 => .ok 0.5
  | .neijssel19 => .ok 0.39
  | .name => .error .value
  | .num x => .ok x
  | .other => .error .value

/-- The mean metallicities: lines 346 and 536; `zsun` is the constant `Zsun`. -/
noncomputable def meanMadau (zsun z : ℝ) : ℝ := (10 : ℝ) ^ (0.153 - 0.074 * z ^ (1.34 : ℝ)) * zsun
noncomputable def meanNeijssel (z : ℝ) : ℝ := 0.035 * (10 : ℝ) ^ (-0.23 * z)

/-- The centre of the log-normal distribution: line 367 and line 559. -/
noncomputable def muMadau (mean sigma : ℝ) : ℝ := Real.logb 10 mean - sigma ^ 2 * Real.log 10 / 2
noncomputable def muNeijssel (mean sigma : ℝ) : ℝ := Real.log mean - sigma ^ 2 / 2

/-- Lines 373 and 563: the cumulative distribution, `lg` the logarithm in use; at metallicity 0 the logarithm is `-inf` and the value 0. -/
noncomputable def lognormCdf (Φ : ℝ → ℝ) (lg : ℝ → ℝ) (mu sigma x : ℝ) : ℝ := if x ≤ 0 then 0 else Φ ((lg x - mu) / sigma)

/-! ### The tabulated models -/

/-- `np.cumsum`, starting from `s`. -/
def cumsum : ℝ → List ℝ → List ℝ
  | _, [] => []
  | s, m :: ms => (s + m) :: cumsum (s + m) ms

/-- Lines 680-684 and 857-860: the nodes of the cumulative distribution, `xs` the decimal logarithms of the tabulated metallicities. -/
noncomputable def tableNodes (xs ms : List ℝ) : List Node := (xs.zip ((cumsum 0 ms).map (· / ms.sum))) ++ [(0, 1)]

/-- The distribution of a table with at least one entry. -/
noncomputable def tableInterp (x m : ℝ) (xs ms : List ℝ) : Interp1d :=
  ⟨(x, (0 + m) / (m :: ms).sum), (xs.zip ((cumsum (0 + m) ms).map (· / (m :: ms).sum))) ++ [(0, 1)], none, none, false⟩

/-- Lines 673-686: a redshift without star formation gets zeros, any other the distribution of its table. -/
noncomputable def tableFractions (zmin zmax : Option ℝ) (normalise : Bool) (x m : ℝ) (xs ms : List ℝ) (bins : List ℝ) :
    Except Err (Option (List ℝ)) :=
  if (m :: ms).sum = 0 then .ok (some (List.replicate (bins.length - 1) 0))
  else distribute (fun v => (tableInterp x m xs ms).call (Real.logb 10 v)) zmin zmax normalise bins

/-! ### Choice of the model -/

/-- The classes. -/
inductive Model
  | madauFragos17 | madauDickinson14 | fujimoto24 | neijssel19 | illustris | chruslinska21 | zavala21
deriving DecidableEq, Repr

/-- `get_SFH_model` (lines 1011-1039). -/
def getModel (s : String) : Except Err Model :=
  if s = "Madau+Fragos17" then .ok .madauFragos17
  else if s = "Madau+Dickinson14" then .ok .madauDickinson14
  else if s = "Fujimoto+24" then .ok .fujimoto24
  else if s = "Neijssel+19" then .ok .neijssel19
  else if s = "IllustrisTNG" then .ok .illustris
  else if s = "Chruslinska+21" then .ok .chruslinska21
  else if s = "Zavala+21" then .ok .zavala21
  else .error .value

/-! ### Formation times -/

/-- The star formation scenarios (lines 30-37). -/
inductive Scenario
  | burst | constant | customLinear | customLog10 | histLinear | histLog10 | unknown
deriving DecidableEq, Repr

/-- `get_formation_times` (lines 1063-1122).  `uniform` are the draws between the limits, `sample k` the ages returned by a sampler asked for `k` values.
The histogram sampler is called without a size, so it is asked for one value (line 1113). -/
noncomputable def formationTimes (n : ℕ) (s : Scenario) (burst lo hi : ℝ) (uniform : ℕ → List ℝ) (sample : ℕ → List ℝ) : Except Err (List ℝ) :=
  match s with
  | .burst => .ok (List.replicate n burst)
  | .constant => .ok ((uniform n).map fun u => lo + (hi - lo) * u)
  | .customLinear => .ok ((sample n).map (hi - ·))
  | .customLog10 => .ok ((sample n).map fun a => hi - (10 : ℝ) ^ a)
  | .histLinear => .ok ((sample 1).map (hi - ·))
  | .histLog10 => .ok ((sample 1).map fun a => hi - (10 : ℝ) ^ a)
  | .unknown => .error .value

/-! ### Specification: clipped bin edges -/

/-- The edges the bins effectively have: the outermost edges move to the limits, the inner ones are clipped to the limits. -/
noncomputable def clipped (bins : List ℝ) (zmin zmax : Option ℝ) (i : ℕ) : ℝ :=
  if i = 0 then zmin.getD (edge bins 0)
  else if i = bins.length - 1 then zmax.getD (edge bins i)
  else
    let x := match zmax with | some b => min (edge bins i) b | none => edge bins i
    match zmin with | some a => max x a | none => x

/-! ### Lemmas -/

theorem edge_lt {bins : List ℝ} (h : bins.Pairwise (· < ·)) {i j : ℕ} (hij : i < j) (hj : j < bins.length) : edge bins i < edge bins j := by
  unfold edge
  rw [List.getD_eq_getElem _ _ (hij.trans hj), List.getD_eq_getElem _ _ hj]
  exact (List.pairwise_iff_getElem.1 h) i j (hij.trans hj) hj hij

theorem edge_le {bins : List ℝ} (h : bins.Pairwise (· < ·)) {i j : ℕ} (hij : i ≤ j) (hj : j < bins.length) : edge bins i ≤ edge bins j := by
  rcases hij.lt_or_eq with h' | rfl
  · exact (edge_lt h h' hj).le
  · exact le_rfl

/-- `searchsorted` splits the edges. -/
theorem cnt_spec {bins : List ℝ} (h : bins.Pairwise (· < ·)) (z : ℝ) {i : ℕ} (hi : i < bins.length) : edge bins i < z ↔ i < cnt bins z := by
  induction bins generalizing i with
  | nil => simp at hi
  | cons b bs ih =>
    have hh := List.pairwise_cons.1 h
    have hc : cnt (b :: bs) z = cnt bs z + if b < z then 1 else 0 := by
      unfold cnt; rw [List.countP_cons]; simp
    by_cases hb : b < z
    · rw [hc, if_pos hb]
      cases i with
      | zero => simp [edge, hb]
      | succ i =>
        have := ih hh.2 (i := i) (by simpa using hi)
        simp only [edge, List.getD_cons_succ] at this ⊢
        rw [this]; omega
    · have h0 : cnt bs z = 0 := by
        unfold cnt
        rw [List.countP_eq_zero]
        intro c hc'
        have := hh.1 c hc'
        simp only [decide_eq_true_eq, not_lt]
        linarith [not_lt.1 hb]
      rw [hc, if_neg hb, h0]
      refine iff_of_false ?_ (by omega)
      have := edge_le h (Nat.zero_le i) hi
      simp only [edge, List.getD_cons_zero] at this
      intro hlt
      exact hb (lt_of_le_of_lt this hlt)

theorem cnt_le (bins : List ℝ) (z : ℝ) : cnt bins z ≤ bins.length := List.countP_le_length

end Verif.Sfh
