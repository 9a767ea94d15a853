import Verif.Orbit
import Verif.StarState
import Mathlib.Algebra.BigOperators.Group.List.Basic
/-!
Model of the functions of `/repo/posydon/utils/common_functions.py` which look at the profile of a star: `calculate_core_boundary`
(l.2028-2123), `linear_interpolation_between_two_cells` (l.2239-2291), `calculate_lambda_from_profile` (l.2294-2440),
`get_mass_radius_dm_from_profile` (l.2442-2504), `get_internal_energy_from_profile` (l.2507-2603), `calculate_binding_energy`
(l.2729-2797), `calculate_Mejected_for_integrated_binding_energy` (l.2799-2860), `get_i_He_depl` (l.1752-1784).

Simplifications: floats are real numbers; a profile is the list of its cells, from the surface inwards; warnings are dropped.
-/
namespace Verif.Profile
open Verif.Orbit (cgrav Msun Rsun)
open Verif.FlowChart (Star starHRich starHeRich)

noncomputable section
open Classical

/-- One cell: enclosed mass, radius, mass of the cell, specific internal energy (after `get_internal_energy_from_profile`), mass fractions. -/
structure Cell where
  mass : ℝ
  radius : ℝ
  dm : ℝ
  u : ℝ
  X : ℝ
  Y : ℝ
  Z : ℝ

inductive Err
  | value | index
  deriving DecidableEq

/-! ### Cell masses, l.2494-2500 -/

/-- `np.concatenate((-1 * np.diff(m), [m[-1]]))`; `none` is the `IndexError` for an empty profile. -/
def cellMasses : List ℝ → Option (List ℝ)
  | [] => none
  | [m] => some [m]
  | m :: m' :: l => (cellMasses (m' :: l)).map fun r => (m - m') :: r

/-! ### Internal energy -/

/-- The options for lambda which the function knows; `other` is any other string. -/
inductive Opt
  | grav | gravInt | gravIntRec | other
  deriving DecidableEq

/-- One cell of the columns used: `energy`, and the energies released by forming molecules and by recombination (l.2606-2726). -/
structure ECell where
  energy : ℝ
  h2 : ℝ
  recomb : ℝ

/-- `not np.any(x > -tolerance)`. -/
def noneAbove (tol : ℝ) (l : List ℝ) : Prop := ¬ ∃ x ∈ l, x > -tol

/-- `get_internal_energy_from_profile`, l.2542-2603; `hasEnergy`: there is an `energy` column.  The checks of the two recombination energies
(l.2635, 2690) are included. -/
def internalEnergy (opt : Opt) (hasEnergy : Bool) (tol : ℝ) (cells : List ECell) : Except Err (List ℝ) :=
  if opt = .grav then .ok (cells.map fun _ => 0)
  else if !hasEnergy then .ok (cells.map fun _ => 0)
  else match opt with
    | .gravInt =>
      if noneAbove tol (cells.map (·.energy)) then .error .value
      else if noneAbove tol (cells.map (·.h2)) then .error .value
      else
        let r := cells.map fun c => c.energy - c.h2
        if noneAbove tol r then .error .value else .ok r
    | .gravIntRec =>
      if noneAbove tol (cells.map (·.energy)) then .error .value
      else if noneAbove tol (cells.map (·.h2)) then .error .value
      else if noneAbove tol (cells.map (·.recomb)) then .error .value
      else
        let r := cells.map fun c => c.energy - c.recomb - c.h2
        if noneAbove tol r then .error .value else .ok r
    | _ => .error .value

/-! ### Core boundary -/

/-- First index whose cell satisfies `p`, or the length (as `List.findIdx`). -/
def first (p : Cell → Prop) (cells : List Cell) : ℕ := cells.findIdx (fun c => decide (p c))

/-- The core condition, l.2068-2104; `none`: the columns do not suffice (l.2092-2097). -/
def coreCond (s : Star) (hasX : Bool) (co : Bool) (f : ℝ) : Option (Cell → Prop) :=
  if s ∈ starHRich ∧ hasX then
    if !co then some fun c => c.X ≤ f ∧ c.Y + c.Z ≥ 0.1
    else some fun c => c.X + c.Y ≤ f ∧ c.Z ≥ 0.1
  else if s ∈ starHeRich ∧ hasX then some fun c => c.X + c.Y ≤ f ∧ c.Z ≥ 0.1
  else none

/-- `calculate_core_boundary`, l.2066-2123; `hasX`: the three columns of mass fractions are there. -/
def coreBoundary (s : Star) (hasX : Bool) (mc : Option ℝ) (f : Option ℝ) (co : Bool) (cells : List Cell) : Except Err ℤ :=
  match f with
  | some f =>
    match coreCond s hasX co f with
    | none => .ok (-1)
    | some p => if ¬ ∃ c ∈ cells, p c then .ok (-1) else .ok (first p cells)
  | none =>
    match mc with
    | some mc =>
      -- `np.argmin(donor_mass >= mc1_i)`: first False, 0 if all are True
      if cells = [] then .error .value
      else if ∀ c ∈ cells, c.mass ≥ mc then .ok 0 else .ok (first (fun c => ¬ c.mass ≥ mc) cells)
    | none => .error .value

/-! ### Interpolation between two cells -/

/-- `linear_interpolation_between_two_cells`, l.2242-2291; the inner `none` is a division by zero (the result is not finite).
`top`, `bot` are `none` if they are not given. -/
def interpCells (ys xs : List ℝ) (x : ℝ) (top bot : Option ℤ) : Except Err (Option ℝ) :=
  let top0 : ℤ := match top, bot with
    | some t, _ => t
    | none, some b => b + 1
    | none, none => if ∃ v ∈ xs, v ≥ x then (xs.findIdx (fun v => decide (v ≥ x)) : ℤ) else 0
  let bot0 : ℤ := bot.getD (top0 - 1)
  let top1 : ℤ := if top0 ≥ ys.length then (ys.length : ℤ) - 1 else top0
  if top1 ≥ xs.length then
    match ys[top1.toNat]? with
    | some y => .ok (some y)
    | none => .error .index
  else
    let bot1 : ℤ := if bot0 < 0 then 0 else bot0
    if top1 = bot1 ∨ bot1 > top1 then
      match ys[top1.toNat]? with
      | some y => .ok (some y)
      | none => .error .index
    else
      match xs[top1.toNat]?, xs[bot1.toNat]?, ys[top1.toNat]?, ys[bot1.toNat]? with
      | some xt, some xb, some yt, some yb =>
        if xt = xb then .ok none
        else .ok (some ((yt - yb) / (xt - xb) * x - (yt * xb - yb * xt) / (xt - xb)))
      | _, _, _, _ => .error .index

/-! ### Binding energy -/

/-- l.2775-2777. -/
def gravCell (c : Cell) : ℝ := -cgrav * c.mass * Msun * c.dm * Msun / (c.radius * Rsun)

/-- l.2780. -/
def intCell (c : Cell) : ℝ := c.u * c.dm * Msun

/-- The loop l.2774-2780 over the first cells. -/
def sums (cells : List Cell) (gu : ℝ × ℝ) : ℝ × ℝ := cells.foldl (fun gu c => (gu.1 + gravCell c, gu.2 + intCell c)) gu

/-- `calculate_binding_energy`, l.2763-2797, with the default tolerance 0.001. -/
def bindingEnergy (cells : List Cell) (ind : ℤ) (f : ℝ) : Except Err ℝ :=
  if ind > cells.length then .error .index
  else
    let gu := sums (cells.take ind.toNat) (0, 0)
    if gu.1 > 0 ∧ ¬ gu.1 < 0.001 then .error .value else .ok (gu.1 + f * gu.2)

/-! ### Lambda -/

structure Lam where
  /-- `none`: NaN -/
  lam : Option ℝ
  mc : ℝ
  rc : ℝ

/-- `-G m1 (m1 - mc) / (Ebind r1)`, l.2431-2432. -/
def lamOf (m1 mc e r1 : ℝ) : ℝ := -cgrav * m1 * Msun * (m1 - mc) * Msun / (e * r1 * Rsun)

/-- Which column is interpolated, l.2392-2402: `none` is the `ValueError`. -/
def elemOf (s : Star) (co : Bool) : Option (Cell → ℝ) :=
  if s ∈ [Star.hCoreH, .hCoreHe, .hShellH, .hCoreHeDep, .hShellHe, .hCoreC, .hCoreCDep, .hNon] then
    some (if !co then Cell.X else Cell.Y)
  else if s ∈ [Star.sCoreHe, .sCoreHeDep, .sCoreCDep, .sNon] then some Cell.Y
  else none

/-- The last check, l.2438-2439. -/
def checkLam (tol : ℝ) (l : Lam) : Except Err (Option Lam) :=
  match l.lam with
  | some x => if ¬ x > -tol then .error .value else .ok (some l)
  | none => .ok (some l)

/-- `calculate_lambda_from_profile`, l.2363-2440, given the internal energies and the index of the boundary (as passed in or found).  The inner
`none` stands for a division by zero, after which values are not finite (this includes a vanishing binding energy). -/
def lambdaFromProfile (s : Star) (co : Bool) (f alphaTh tol : ℝ) (ind : ℤ) (cells : List Cell) : Except Err (Option Lam) :=
  match cells with
  | [] => .error .index
  | c0 :: _ =>
    let m1 := c0.mass
    let r1 := c0.radius
    if ind = 0 then .ok (some ⟨none, m1, r1⟩)
    else if ind = -1 then
      match bindingEnergy cells cells.length alphaTh with
      | .error e => .error e
      | .ok e => if e * r1 * Rsun = 0 then .ok none else checkLam tol ⟨some (lamOf m1 0 e r1), 0, 0⟩
    else
      match elemOf s co with
      | none => .error .value
      | some el =>
        match interpCells (cells.map (·.mass)) (cells.map el) f (some ind) (some (ind - 1)),
          interpCells (cells.map (·.radius)) (cells.map el) f (some ind) (some (ind - 1)) with
        | .ok (some mc), .ok (some rc) =>
          match bindingEnergy cells ind alphaTh, bindingEnergy cells (ind - 1) alphaTh with
          | .ok eTop, .ok eBot =>
            match cells[ind.toNat]?, cells[ind.toNat - 1]? with
            | some ct, some cb =>
              if el ct = el cb then .ok none
              else
                let w := (f - el cb) / (el ct - el cb)
                let e := eBot + w * (eTop - eBot)
                if e * r1 * Rsun = 0 then .ok none else checkLam tol ⟨some (lamOf m1 mc e r1), mc, rc⟩
            | _, _ => .error .index
          | .error x, _ => .error x
          | _, .error x => .error x
        | .error x, _ => .error x
        | _, .error x => .error x
        | _, _ => .ok none

/-! ### Partial ejection -/

/-- The loop l.2838-2849: number of cells integrated. -/
def ejectLoop (thr f : ℝ) : List Cell → ℝ × ℝ → ℕ → ℕ
  | [], _, i => i
  | c :: cs, gu, i =>
    if |gu.1 + f * gu.2| < thr then ejectLoop thr f cs (gu.1 + gravCell c, gu.2 + intCell c) (i + 1) else i

/-- `donor[i-1]` with Python's meaning of the index -1. -/
def pyPred (cells : List Cell) (i : ℕ) : Option Cell := if i = 0 then cells.getLast? else cells[i - 1]?

/-- `calculate_Mejected_for_integrated_binding_energy`, l.2833-2860. -/
def ejectedMass (cells : List Cell) (thr mc rc f : ℝ) : Except Err ℝ :=
  match pyPred cells (ejectLoop thr f cells (0, 0) 0), cells.head? with
  | some c, some c0 => .ok (c0.mass - if c.mass < mc ∨ c.radius < rc then mc else c.mass)
  | _, _ => .error .index

/-! ### Helium depletion -/

/-- `get_i_He_depl`, l.1765-1784, for a table with all columns; `Core_He_depleted` in the name of the state is the burning stage. -/
def heDepletion (rnd : ℚ → ℚ) (rel : ℚ) (rows : List Verif.StarState.Inputs) : ℤ :=
  let p := fun i => match Verif.StarState.inferNormal rnd rel i with
    | .normal _ .coreHeDep => true
    | _ => false
  if rows.any p then (rows.findIdx p : ℤ) else -1

/-! ### Specification -/

/-- Binding energy of the outermost `k` cells. -/
def energyTo (f : ℝ) (cells : List Cell) (k : ℕ) : ℝ := ((cells.take k).map fun c => gravCell c + f * intCell c).sum

/-- Masses and radii decrease inwards. -/
def Inward (cells : List Cell) : Prop := cells.Pairwise fun a b => b.mass ≤ a.mass ∧ b.radius ≤ a.radius

/-! ### Lemmas -/

theorem sums_eq (cells : List Cell) : ∀ gu, sums cells gu = (gu.1 + (cells.map gravCell).sum, gu.2 + (cells.map intCell).sum) := by
  induction cells with
  | nil => intro gu; simp [sums]
  | cons c cs ih =>
    intro gu
    have : sums (c :: cs) gu = sums cs (gu.1 + gravCell c, gu.2 + intCell c) := rfl
    rw [this, ih]
    simp only [List.map_cons, List.sum_cons, Prod.mk.injEq]
    constructor <;> ring

theorem sums_energy (f : ℝ) (cells : List Cell) :
    (cells.map gravCell).sum + f * (cells.map intCell).sum = (cells.map fun c => gravCell c + f * intCell c).sum := by
  induction cells with
  | nil => simp
  | cons c cs ih =>
    simp only [List.map_cons, List.sum_cons]
    rw [← ih]; ring

/-- What the loop returns. -/
theorem ejectLoop_spec (thr f : ℝ) (cells : List Cell) : ∀ (gu : ℝ × ℝ) (i : ℕ),
    i ≤ ejectLoop thr f cells gu i ∧ ejectLoop thr f cells gu i ≤ i + cells.length ∧
    (∀ k, i + k < ejectLoop thr f cells gu i → |gu.1 + f * gu.2 + energyTo f cells k| < thr) ∧
    (ejectLoop thr f cells gu i < i + cells.length →
      thr ≤ |gu.1 + f * gu.2 + energyTo f cells (ejectLoop thr f cells gu i - i)|) := by
  induction cells with
  | nil => intro gu i; refine ⟨le_rfl, le_rfl, fun k h => ?_, fun h => ?_⟩ <;> simp [ejectLoop] at h
  | cons c cs ih =>
    intro gu i
    by_cases h : |gu.1 + f * gu.2| < thr
    · have hl : ejectLoop thr f (c :: cs) gu i = ejectLoop thr f cs (gu.1 + gravCell c, gu.2 + intCell c) (i + 1) := by
        simp only [ejectLoop]; rw [if_pos h]
      obtain ⟨h1, h2, h3, h4⟩ := ih (gu.1 + gravCell c, gu.2 + intCell c) (i + 1)
      rw [hl]
      have hs : ∀ k, gu.1 + f * gu.2 + energyTo f (c :: cs) (k + 1) =
          (gu.1 + gravCell c) + f * (gu.2 + intCell c) + energyTo f cs k := by
        intro k; simp only [energyTo, List.take_succ_cons, List.map_cons, List.sum_cons]; ring
      refine ⟨by omega, by simp only [List.length_cons]; omega, fun k hk => ?_, fun hlt => ?_⟩
      · cases k with
        | zero => simpa [energyTo] using h
        | succ k => rw [hs]; exact h3 k (by omega)
      · have h4' := h4 (by simp only [List.length_cons] at hlt; omega)
        obtain ⟨n, hn⟩ : ∃ n, ejectLoop thr f cs (gu.1 + gravCell c, gu.2 + intCell c) (i + 1) = i + 1 + n := ⟨_, (Nat.add_sub_cancel' h1).symm⟩
        rw [hn] at h4' ⊢
        have e1 : i + 1 + n - i = n + 1 := by omega
        have e2 : i + 1 + n - (i + 1) = n := by omega
        rw [e2] at h4'
        rw [e1, hs]
        exact h4'
    · have hl : ejectLoop thr f (c :: cs) gu i = i := by simp only [ejectLoop]; rw [if_neg h]
      rw [hl]
      refine ⟨le_rfl, by omega, fun k hk => by omega, fun _ => ?_⟩
      simpa [energyTo] using not_lt.1 h

theorem gravCell_neg {c : Cell} (hm : 0 ≤ c.mass) (hd : 0 ≤ c.dm) (hr : 0 < c.radius) : gravCell c ≤ 0 := by
  unfold gravCell cgrav Msun Rsun
  have : 0 < c.radius * 6.9598e10 := by positivity
  rw [div_le_iff₀ this]
  have := mul_nonneg hm hd
  nlinarith

end
end Verif.Profile
