import Mathlib.Analysis.Calculus.Deriv.MeanValue
import Mathlib.Analysis.Calculus.Deriv.Inverse
import Mathlib.Analysis.SpecialFunctions.Log.Deriv
import Mathlib.Analysis.SpecialFunctions.ExpDeriv
import Mathlib.Analysis.SpecialFunctions.Pow.Continuity
import Mathlib.Order.Hom.Set
import Mathlib.Topology.Order.MonotoneContinuity
import Verif.GW
/-!
Model of the step of two compact objects, `/repo/posydon/binary_evol/DT/double_CO.py`: the dense output (l.35-119), `__call__`
(l.137-151), `solve_ODEs` (l.153-265) and the right-hand side (l.268-348); of the parts of the detached step it inherits that decide its
outcome (`step_detached.py` l.299-338), and of `CO_radius` and `Schwarzschild_Radius` (`common_functions.py` l.1302-1337, 1367-1388).

Simplifications: real numbers; the integrator is exact (`IsSol`: a solution of the differential equation that the right-hand side
defines, `Runs`: the terminal event stops it where the elapsed time first reaches the limit), but it may also raise or report a failure;
`brentq` returns the exact root; the test for Roche-lobe overflow at the start of the inherited step never applies, because two compact
objects have no radius there (`track_match.py` l.1572-1575). The spins are constant (l.348) and are left out.
-/
namespace Verif.DoubleCO
open Real Set Verif.Orbit Verif.GW

noncomputable section
open Classical

/-! ### Right-hand side -/

/-- `_g`, l.305-311. -/
def gE (x : ℝ) : ℝ := 1 + (73 / 24) * x + (37 / 96) * x * x

/-- `_f`, l.314-320. -/
def fE (x : ℝ) : ℝ := 1 + (121 / 304) * x

/-- First component of `rhs`, l.333-344 (derivative of the logarithm of the eccentricity). -/
def dl (l : ℝ) : ℝ :=
  let e := exp l
  let e2 := e * e
  if e2 ≥ 1 then 0 else -(19 / 12) * (1 - e2) * fE e2 / gE e2

/-- Second component of `rhs`, l.333-345 (derivative of the scaled time). -/
def dtau (s l : ℝ) : ℝ :=
  let e := exp l
  let e2 := e * e
  if e2 ≥ 1 then 0 else exp (-4 * s) * (1 - e2) ^ (3.5 : ℝ) / gE e2

/-! ### Set-up -/

inductive Kind
  | bh | ns | wd | other
  deriving DecidableEq

inductive Err
  | value       -- no time left, or a star that is no compact object
  | numerical   -- the integrator raised, l.218-223; the binary is set to failed
  deriving DecidableEq

/-- `CO_radius`, l.1318-1337, with `Schwarzschild_Radius`, l.1381-1388. -/
def coRadius (m : ℝ) (k : Kind) : Except Err ℝ :=
  if m ≤ 0 then .error .value
  else match k with
    | .bh => .ok (2 * cgrav * m * Msun / (clight ^ 2 * Rsun))
    | .ns => .ok (12.5e5 / Rsun)
    | .wd => .ok (2.9e8 * m ^ (-(1 : ℝ) / 3) / Rsun)
    | .other => .error .value

/-- The binary at the start of the step. -/
structure In where
  time : ℝ
  maxTime : ℝ      -- max_simulation_time
  sep : ℝ
  ecc : ℝ
  m1 : ℝ
  m2 : ℝ
  k1 : Kind
  k2 : Kind

/-- Units of length, l.168. -/
def toKm (r : ℝ) : ℝ := r * Rsun / 1e5

/-- l.179-181. -/
def tScale (i : In) : ℝ :=
  (5 / 64) * clight ^ 5 * (toKm i.sep * 1e5) ^ 4
    / (cgrav ^ 3 * (i.m1 * Msun + i.m2 * Msun) * (i.m1 * Msun) * (i.m2 * Msun)) / secyer

/-- l.190. -/
def alphaContact (i : In) (r1 r2 : ℝ) : ℝ := (toKm r1 + toKm r2) / toKm i.sep

/-- l.195. -/
def sContact (i : In) (r1 r2 : ℝ) : ℝ := -Real.log (alphaContact i r1 r2)

/-- l.193. -/
def tauMax (i : In) : ℝ := (i.maxTime - i.time) / tScale i

/-- `numpy.finfo(float).tiny`. -/
def tiny : ℝ := 2⁻¹ ^ 1022

/-- l.206-207. -/
def l0 (i : In) : ℝ := if i.ecc > 0 then Real.log i.ecc else Real.log tiny

/-! ### Integration -/

/-- Exact solution of the differential equation on `[lo, hi]`, started at 0. -/
structure IsSol (l tau : ℝ → ℝ) (start lo hi : ℝ) : Prop where
  lo0 : lo ≤ 0
  hi0 : 0 ≤ hi
  l_start : l 0 = start
  tau_start : tau 0 = 0
  l_cont : ContinuousOn l (Icc lo hi)
  tau_cont : ContinuousOn tau (Icc lo hi)
  l_deriv : ∀ s ∈ Ioo lo hi, HasDerivAt l (dl (l s)) s
  tau_deriv : ∀ s ∈ Ioo lo hi, HasDerivAt tau (dtau s (l s)) s

/-- What `solve_ivp` may report: it raised, it failed (status -1), it reached the end of the interval (status 0), or the event stopped it
(status 1). -/
inductive Res
  | raised
  | failed
  | finished
  | event (s : ℝ)

/-- The event of l.198-200 (terminal, upward) along a solution that starts at 0 and ends at `S`. -/
def Runs (tau : ℝ → ℝ) (S tmax : ℝ) : Res → Prop
  | .raised => True
  | .failed => True
  | .finished => ∀ s ∈ Ioc 0 S, tau s < tmax
  | .event s => s ∈ Ioc 0 S ∧ tau s = tmax

/-- The binary's event and state after the step; the event is kept when nothing is done. -/
inductive BState
  | kept
  | contact
  | detached
  deriving DecidableEq

inductive Ev
  | kept
  | coContact
  | maxtime
  deriving DecidableEq

structure Out where
  b : BState
  e : Ev
  time : ℝ
  sep : ℝ
  ecc : ℝ
  period : Option ℝ    -- none: not touched

/-- The step: `solve_ODEs` l.163-265, the inherited `__call__` l.311-342 with the values at the last time (`update_after_evo`, period
from Kepler's law), then l.140-151. -/
def step (i : In) (l tau : ℝ → ℝ) (r : Res) : Except Err Out :=
  if ¬ (i.maxTime - i.time > 0) then .error .value
  else match coRadius i.m1 i.k1 with
    | .error x => .error x
    | .ok r1 => match coRadius i.m2 i.k2 with
      | .error x => .error x
      | .ok r2 =>
        match r with
        | .raised => .error .numerical
        | .failed => .ok { b := .kept, e := .kept, time := i.time, sep := i.sep, ecc := i.ecc, period := none }
        | .finished =>
          let s := sContact i r1 r2
          let a := exp (-s) * i.sep
          .ok { b := .contact, e := .coContact, time := tau s * tScale i + i.time, sep := a, ecc := 0,
                period := some (periodFromSep a i.m2 i.m1) }
        | .event s =>
          let a := exp (-s) * i.sep
          .ok { b := .detached, e := .maxtime, time := i.maxTime, sep := a, ecc := exp (l s),
                period := some (periodFromSep a i.m2 i.m1) }

/-- `_SBrentqDenseOutput.__call__`, l.66-115, for one time: separation and eccentricity. The root of l.104-109 is any root in the
interval. -/
def Dense (i : In) (l tau : ℝ → ℝ) (sEnd eps t : ℝ) : Except Err (ℝ × ℝ) → Prop := fun out =>
  let target := (t - i.time) / tScale i
  let fa := tau 0 - target
  let fb := tau sEnd - target
  let at_ := fun s => (exp (-s) * i.sep, exp (l s))
  if |fa| ≤ eps then out = .ok (at_ 0)
  else if |fb| ≤ eps then out = .ok (at_ sEnd)
  else if fa * fb > 0 then out = .error .value
  else ∃ s ∈ uIcc 0 sEnd, tau s = target ∧ out = .ok (at_ s)

/-! ### Lemmas on the right-hand side -/

theorem gE_pos {x : ℝ} (h : 0 ≤ x) : 0 < gE x := by unfold gE; positivity
theorem fE_pos {x : ℝ} (h : 0 ≤ x) : 0 < fE x := by unfold fE; positivity

theorem dl_nonpos (l : ℝ) : dl l ≤ 0 := by
  unfold dl
  dsimp only
  by_cases h : exp l * exp l ≥ 1
  · rw [if_pos h]
  · rw [if_neg h]
    push Not at h
    have h0 : 0 ≤ exp l * exp l := by positivity
    have := div_nonneg (mul_nonneg (mul_nonneg (show (0 : ℝ) ≤ 19 / 12 by norm_num) (sub_nonneg.2 h.le)) (fE_pos h0).le) (gE_pos h0).le
    rw [neg_mul, neg_mul, neg_div]
    linarith

theorem dtau_nonneg (s l : ℝ) : 0 ≤ dtau s l := by
  unfold dtau
  dsimp only
  by_cases h : exp l * exp l ≥ 1
  · rw [if_pos h]
  · rw [if_neg h]
    push Not at h
    exact div_nonneg (mul_nonneg (exp_pos _).le (rpow_nonneg (by linarith) _)) (gE_pos (by positivity)).le

theorem sq_exp_lt {l : ℝ} (h : l < 0) : exp l * exp l < 1 := by
  have := Real.exp_lt_one_iff.2 h
  nlinarith [exp_pos l]

theorem dl_eq {l : ℝ} (h : l < 0) : dl l = -(19 / 12) * (1 - exp l * exp l) * fE (exp l * exp l) / gE (exp l * exp l) := by
  unfold dl
  exact if_neg (not_le.2 (sq_exp_lt h))

theorem dtau_eq {s l : ℝ} (h : l < 0) : dtau s l = exp (-4 * s) * (1 - exp l * exp l) ^ (3.5 : ℝ) / gE (exp l * exp l) := by
  unfold dtau
  exact if_neg (not_le.2 (sq_exp_lt h))

theorem dtau_pos {s l : ℝ} (h : l < 0) : 0 < dtau s l := by
  rw [dtau_eq h]
  have := sq_exp_lt h
  exact div_pos (mul_pos (exp_pos _) (rpow_pos_of_pos (by linarith) _)) (gE_pos (by positivity))

theorem dl_neg {l : ℝ} (h : l < 0) : dl l < 0 := by
  rw [dl_eq h]
  have h1 := sq_exp_lt h
  have h0 : 0 ≤ exp l * exp l := by positivity
  have := div_pos (mul_pos (mul_pos (show (0 : ℝ) < 19 / 12 by norm_num) (sub_pos.2 h1)) (fE_pos h0)) (gE_pos h0)
  rw [neg_mul, neg_mul, neg_div]
  linarith

/-! ### Lemmas on solutions -/

namespace IsSol
variable {l tau : ℝ → ℝ} {start lo hi : ℝ}

theorem l_anti (h : IsSol l tau start lo hi) : AntitoneOn l (Icc lo hi) := by
  refine antitoneOn_of_deriv_nonpos (convex_Icc _ _) h.l_cont ?_ ?_
  · intro x hx
    rw [interior_Icc] at hx
    exact (h.l_deriv x hx).differentiableAt.differentiableWithinAt
  · intro x hx
    rw [interior_Icc] at hx
    rw [(h.l_deriv x hx).deriv]
    exact dl_nonpos _

theorem tau_mono (h : IsSol l tau start lo hi) : MonotoneOn tau (Icc lo hi) := by
  refine monotoneOn_of_deriv_nonneg (convex_Icc _ _) h.tau_cont ?_ ?_
  · intro x hx
    rw [interior_Icc] at hx
    exact (h.tau_deriv x hx).differentiableAt.differentiableWithinAt
  · intro x hx
    rw [interior_Icc] at hx
    rw [(h.tau_deriv x hx).deriv]
    exact dtau_nonneg _ _

theorem zero_mem (h : IsSol l tau start lo hi) : (0 : ℝ) ∈ Icc lo hi := ⟨h.lo0, h.hi0⟩

/-- The part of a solution on a smaller interval. -/
theorem sub (h : IsSol l tau start lo hi) {lo' hi' : ℝ} (h1 : lo ≤ lo') (h2 : lo' ≤ 0) (h3 : 0 ≤ hi') (h4 : hi' ≤ hi) :
    IsSol l tau start lo' hi' where
  lo0 := h2
  hi0 := h3
  l_start := h.l_start
  tau_start := h.tau_start
  l_cont := h.l_cont.mono (Icc_subset_Icc h1 h4)
  tau_cont := h.tau_cont.mono (Icc_subset_Icc h1 h4)
  l_deriv := fun s hs => h.l_deriv s ⟨lt_of_le_of_lt h1 hs.1, lt_of_lt_of_le hs.2 h4⟩
  tau_deriv := fun s hs => h.tau_deriv s ⟨lt_of_le_of_lt h1 hs.1, lt_of_lt_of_le hs.2 h4⟩

theorem neg (h : IsSol l tau start lo hi) (h0 : start < 0) {s : ℝ} (hs : s ∈ Icc 0 hi) : l s < 0 := by
  have := h.l_anti h.zero_mem ⟨h.lo0.trans hs.1, hs.2⟩ hs.1
  rw [h.l_start] at this
  linarith

theorem strictAnti (h : IsSol l tau start lo hi) (hneg : ∀ s ∈ Icc lo hi, l s < 0) : StrictAntiOn l (Icc lo hi) := by
  refine strictAntiOn_of_deriv_neg (convex_Icc _ _) h.l_cont ?_
  intro x hx
  rw [interior_Icc] at hx
  rw [(h.l_deriv x hx).deriv]
  exact dl_neg (hneg x ⟨hx.1.le, hx.2.le⟩)

theorem strictMono (h : IsSol l tau start lo hi) (hneg : ∀ s ∈ Icc lo hi, l s < 0) : StrictMonoOn tau (Icc lo hi) := by
  refine strictMonoOn_of_deriv_pos (convex_Icc _ _) h.tau_cont ?_
  intro x hx
  rw [interior_Icc] at hx
  rw [(h.tau_deriv x hx).deriv]
  exact dtau_pos (hneg x ⟨hx.1.le, hx.2.le⟩)

end IsSol

/-- A function with derivative zero inside an interval is constant. -/
theorem const_of_deriv {f : ℝ → ℝ} {a b : ℝ} (hc : ContinuousOn f (Icc a b)) (hd : ∀ x ∈ Ioo a b, HasDerivAt f 0 x) {x : ℝ}
    (hx : x ∈ Icc a b) : f x = f a := by
  rcases eq_or_lt_of_le hx.1 with e | e
  · rw [← e]
  · obtain ⟨c, _, hc'⟩ := exists_hasDerivAt_eq_slope f (fun _ => 0) e (hc.mono (Icc_subset_Icc_right hx.2))
      (fun y hy => hd y ⟨hy.1, lt_of_lt_of_le hy.2 hx.2⟩)
    have : (x - a) ≠ 0 := by linarith
    rw [eq_div_iff this] at hc'
    linarith

/-- Logarithm of the conserved quantity without the separation. -/
def hfun (l : ℝ) : ℝ := Real.log (1 - exp l * exp l) - (12 / 19) * l - (870 / 2299) * Real.log (fE (exp l * exp l))

theorem hfun_deriv {l : ℝ} (h : l < 0) :
    HasDerivAt hfun (-(12 / 19) * gE (exp l * exp l) / ((1 - exp l * exp l) * fE (exp l * exp l))) l := by
  have h1 := sq_exp_lt h
  have hx : HasDerivAt (fun l : ℝ => exp l * exp l) (2 * (exp l * exp l)) l := by
    have := (Real.hasDerivAt_exp l).mul (Real.hasDerivAt_exp l)
    exact HasDerivAt.congr_deriv (f' := exp l * exp l + exp l * exp l) this (by ring)
  have hx0 : 0 ≤ exp l * exp l := by positivity
  have ha : HasDerivAt (fun l : ℝ => Real.log (1 - exp l * exp l)) (-(2 * (exp l * exp l)) / (1 - exp l * exp l)) l :=
    (hx.const_sub 1).log (by linarith)
  have hb : HasDerivAt (fun l : ℝ => Real.log (fE (exp l * exp l))) ((121 / 304 * (2 * (exp l * exp l))) / fE (exp l * exp l)) l := by
    have h2 : HasDerivAt (fun l : ℝ => fE (exp l * exp l)) (121 / 304 * (2 * (exp l * exp l))) l := by
      unfold fE
      exact (hx.const_mul (121 / 304 : ℝ)).const_add 1
    exact h2.log (fE_pos hx0).ne'
  have := (ha.sub ((hasDerivAt_id l).const_mul (12 / 19 : ℝ))).sub (hb.const_mul (870 / 2299 : ℝ))
  refine HasDerivAt.congr_deriv this ?_
  have hf := (fE_pos hx0).ne'
  have h1' : 1 - exp l * exp l ≠ 0 := by linarith
  generalize exp l * exp l = x at *
  field_simp
  unfold gE fE
  ring

theorem dl_mul {l : ℝ} (h : l < 0) :
    -(12 / 19) * gE (exp l * exp l) / ((1 - exp l * exp l) * fE (exp l * exp l)) * dl l = 1 := by
  rw [dl_eq h]
  have h1 := sq_exp_lt h
  have hx0 : 0 ≤ exp l * exp l := by positivity
  have hf := (fE_pos hx0).ne'
  have hg := (gE_pos hx0).ne'
  have h1' : 1 - exp l * exp l ≠ 0 := by linarith
  generalize exp l * exp l = x at *
  field_simp

theorem hfun_anti : StrictAntiOn hfun (Iio 0) := by
  refine strictAntiOn_of_deriv_neg (convex_Iio 0) (fun l hl => (hfun_deriv hl).continuousAt.continuousWithinAt) ?_
  intro l hl
  rw [interior_Iio] at hl
  rw [(hfun_deriv hl).deriv]
  have h1 := sq_exp_lt hl
  have hx0 : 0 ≤ exp l * exp l := by positivity
  have := div_pos (mul_pos (show (0 : ℝ) < 12 / 19 by norm_num) (gE_pos hx0)) (mul_pos (sub_pos.2 h1) (fE_pos hx0))
  rw [neg_mul, neg_div]
  linarith

/-- The conserved quantity: along a solution the function above grows as the logarithm of the separation falls. -/
theorem conserved {l tau : ℝ → ℝ} {start hi : ℝ} (h : IsSol l tau start 0 hi) (h0 : start < 0) {s : ℝ} (hs : s ∈ Icc 0 hi) :
    hfun (l s) = hfun start + s := by
  have hneg : ∀ s ∈ Icc 0 hi, l s < 0 := fun s hs => h.neg h0 hs
  have hc : ContinuousOn (fun s => hfun (l s) - s) (Icc 0 hi) := by
    refine ContinuousOn.sub ?_ continuousOn_id
    intro x hx
    exact (hfun_deriv (hneg x hx)).continuousAt.comp_continuousWithinAt (h.l_cont x hx)
  have hd : ∀ x ∈ Ioo 0 hi, HasDerivAt (fun s => hfun (l s) - s) 0 x := by
    intro x hx
    have hx' := hneg x ⟨hx.1.le, hx.2.le⟩
    have := ((hfun_deriv hx').comp x (h.l_deriv x hx)).sub (hasDerivAt_id x)
    rw [dl_mul hx', sub_self] at this
    exact this
  have := const_of_deriv hc hd hs
  simp only [h.l_start, sub_zero] at this
  linarith

/-! ### Existence of solutions -/

theorem log_fE_bounds {x : ℝ} (h0 : 0 ≤ x) (h1 : x ≤ 1) : 0 ≤ Real.log (fE x) ∧ Real.log (fE x) ≤ 1 := by
  constructor
  · exact Real.log_nonneg (by unfold fE; linarith)
  · have := Real.log_le_sub_one_of_pos (fE_pos h0)
    unfold fE at *
    linarith

theorem hfun_low (y : ℝ) : ∃ l < 0, y ≤ hfun l := by
  refine ⟨min (-1) (-(19 / 12) * (y + 3)), lt_of_le_of_lt (min_le_left _ _) (by norm_num), ?_⟩
  set l := min (-1) (-(19 / 12) * (y + 3)) with hl
  have hl1 : l ≤ -1 := min_le_left _ _
  have hl2 : l ≤ -(19 / 12) * (y + 3) := min_le_right _ _
  have hl0 : l < 0 := by linarith
  have h1 := sq_exp_lt hl0
  have he : exp l ≤ 1 / 2 := by
    have h2 : exp l ≤ exp (-1) := exp_le_exp.2 hl1
    have h3 : exp (-1) ≤ 1 / 2 := by
      rw [exp_neg, ← one_div]
      have := Real.add_one_le_exp (1 : ℝ)
      exact one_div_le_one_div_of_le (by norm_num) (by linarith)
    linarith
  have hx : exp l * exp l ≤ 1 / 4 := by nlinarith [exp_pos l]
  have hlog : -1 ≤ Real.log (1 - exp l * exp l) := by
    rw [Real.le_log_iff_exp_le (by linarith), exp_neg]
    have := Real.add_one_le_exp (1 : ℝ)
    have h4 : (exp 1)⁻¹ ≤ 2⁻¹ := inv_anti₀ (by norm_num) (by linarith)
    linarith
  have hf := (log_fE_bounds (x := exp l * exp l) (by positivity) h1.le)
  unfold hfun
  nlinarith

theorem hfun_high (y : ℝ) : ∃ l < 0, hfun l ≤ y := by
  set d := min (1 / 2) (exp (y - 1)) with hd
  have hd0 : 0 < d := lt_min (by norm_num) (exp_pos _)
  have hd1 : d ≤ 1 / 2 := min_le_left _ _
  have hd2 : d ≤ exp (y - 1) := min_le_right _ _
  have hl : (1 / 2) * Real.log (1 - d) < 0 := by
    have := Real.log_neg (show 0 < 1 - d by linarith) (by linarith)
    linarith
  refine ⟨(1 / 2) * Real.log (1 - d), hl, ?_⟩
  have hx : exp ((1 / 2) * Real.log (1 - d)) * exp ((1 / 2) * Real.log (1 - d)) = 1 - d := by
    rw [← exp_add, ← add_mul, show (1 / 2 + 1 / 2 : ℝ) = 1 by norm_num, one_mul, exp_log (by linarith)]
  unfold hfun
  rw [hx]
  have h1 : Real.log (1 - (1 - d)) ≤ y - 1 := by
    rw [show 1 - (1 - d) = d by ring]
    rw [Real.log_le_iff_le_exp hd0]
    exact hd2
  have h2 : -1 ≤ Real.log (1 - d) := by
    rw [Real.le_log_iff_exp_le (by linarith), exp_neg]
    have := Real.add_one_le_exp (1 : ℝ)
    have h4 : (exp 1)⁻¹ ≤ 2⁻¹ := inv_anti₀ (by norm_num) (by linarith)
    linarith
  have h3 := (log_fE_bounds (x := 1 - d) (by linarith) (by linarith)).1
  linarith

/-- The change of variable that makes the function above a bijection of the real line. -/
def H (u : ℝ) : ℝ := hfun (-exp u)

theorem H_mono : StrictMono H := by
  intro u v huv
  apply hfun_anti
  · simp only [mem_Iio, neg_lt_zero]; exact exp_pos _
  · simp only [mem_Iio, neg_lt_zero]; exact exp_pos _
  · exact neg_lt_neg (exp_lt_exp.2 huv)

theorem H_deriv (u : ℝ) : HasDerivAt H
    (-(12 / 19) * gE (exp (-exp u) * exp (-exp u)) / ((1 - exp (-exp u) * exp (-exp u)) * fE (exp (-exp u) * exp (-exp u))) * -exp u) u := by
  have h : -exp u < 0 := neg_lt_zero.2 (exp_pos _)
  exact (hfun_deriv h).comp u (Real.hasDerivAt_exp u).neg

theorem H_surj : Function.Surjective H := by
  intro y
  obtain ⟨a, ha, hya⟩ := hfun_low y
  obtain ⟨b, hb, hyb⟩ := hfun_high y
  have hHa : H (Real.log (-a)) = hfun a := by unfold H; rw [exp_log (by linarith), neg_neg]
  have hHb : H (Real.log (-b)) = hfun b := by unfold H; rw [exp_log (by linarith), neg_neg]
  have hcont : Continuous H := continuous_iff_continuousAt.2 fun u => (H_deriv u).continuousAt
  have := mem_range_of_exists_le_of_exists_ge hcont ⟨Real.log (-b), hHb ▸ hyb⟩ ⟨Real.log (-a), hHa ▸ hya⟩
  exact this

/-- The solution. -/
def lSol (start s : ℝ) : ℝ := -exp ((H_mono.orderIsoOfSurjective H H_surj).symm (hfun start + s))

theorem lSol_neg (start s : ℝ) : lSol start s < 0 := neg_lt_zero.2 (exp_pos _)

theorem lSol_spec (start s : ℝ) : hfun (lSol start s) = hfun start + s :=
  (H_mono.orderIsoOfSurjective H H_surj).apply_symm_apply (hfun start + s)

theorem lSol_zero {start : ℝ} (h : start < 0) : lSol start 0 = start := by
  apply hfun_anti.injOn (lSol_neg _ _) h
  rw [lSol_spec, add_zero]

theorem lSol_deriv (start s : ℝ) : HasDerivAt (lSol start) (dl (lSol start s)) s := by
  set J := (H_mono.orderIsoOfSurjective H H_surj) with hJ
  have hcont : Continuous J.symm := J.symm.continuous
  have hne : lSol start s < 0 := lSol_neg _ _
  have hinv : HasDerivAt J.symm (-(12 / 19) * gE (exp (lSol start s) * exp (lSol start s)) /
      ((1 - exp (lSol start s) * exp (lSol start s)) * fE (exp (lSol start s) * exp (lSol start s))) * lSol start s)⁻¹ (hfun start + s) := by
    refine HasDerivAt.of_local_left_inverse (f := H) hcont.continuousAt ?_ ?_ ?_
    · exact H_deriv _
    · have := dl_mul hne
      refine mul_ne_zero ?_ hne.ne
      intro h0
      rw [h0, zero_mul] at this
      norm_num at this
    · exact Filter.Eventually.of_forall fun y => J.apply_symm_apply y
  have h2 : HasDerivAt (fun s : ℝ => hfun start + s) 1 s := (hasDerivAt_id s).const_add _
  have h3 := ((hinv.comp s h2).exp).neg
  have h4 : HasDerivAt (lSol start) _ s := h3
  refine HasDerivAt.congr_deriv h4 ?_
  have hd := dl_mul hne
  have hL : lSol start s = -exp (J.symm (hfun start + s)) := rfl
  simp only [Function.comp]
  rw [mul_one, ← neg_mul, ← hL, mul_inv]
  generalize -(12 / 19) * gE (exp (lSol start s) * exp (lSol start s)) /
      ((1 - exp (lSol start s) * exp (lSol start s)) * fE (exp (lSol start s) * exp (lSol start s))) = Q at *
  have hQ : Q ≠ 0 := by
    intro h0
    rw [h0, zero_mul] at hd
    norm_num at hd
  have hn := hne.ne
  field_simp
  linarith

theorem exists_sol {start : ℝ} (h : start < 0) (lo hi : ℝ) (hlo : lo ≤ 0) (hhi : 0 ≤ hi) :
    ∃ l tau, IsSol l tau start lo hi := by
  have hlc : Continuous (lSol start) := continuous_iff_continuousAt.2 fun s => (lSol_deriv start s).continuousAt
  have hdc : Continuous (fun s => dtau s (lSol start s)) := by
    have : (fun s => dtau s (lSol start s)) = fun s => exp (-4 * s) * (1 - exp (lSol start s) * exp (lSol start s)) ^ (3.5 : ℝ)
        / gE (exp (lSol start s) * exp (lSol start s)) := by
      funext s
      exact dtau_eq (lSol_neg _ _)
    rw [this]
    refine Continuous.div ?_ ?_ ?_
    · refine Continuous.mul (by fun_prop) ?_
      refine Continuous.rpow_const (by fun_prop) ?_
      intro s
      right
      norm_num
    · unfold gE
      fun_prop
    · intro s
      exact (gE_pos (by positivity)).ne'
  refine ⟨lSol start, fun s => ∫ x in (0 : ℝ)..s, dtau x (lSol start x), ⟨hlo, hhi, lSol_zero h, ?_, hlc.continuousOn, ?_, ?_, ?_⟩⟩
  · simp
  · exact (continuous_iff_continuousAt.2 fun s => (intervalIntegral.integral_hasDerivAt_right (hdc.intervalIntegrable _ _)
      (hdc.stronglyMeasurableAtFilter _ _) hdc.continuousAt).continuousAt).continuousOn
  · intro s _
    exact lSol_deriv start s
  · intro s _
    exact intervalIntegral.integral_hasDerivAt_right (hdc.intervalIntegrable _ _)
      (hdc.stronglyMeasurableAtFilter _ _) hdc.continuousAt

end
end Verif.DoubleCO
