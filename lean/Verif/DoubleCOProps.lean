import Verif.DoubleCO
import Verif.GWProps
/-!
C73: the inspiral of two compact objects. The specification is the merger time of `GW.inspiral` (`inspiral_timescale_from_separation`),
which the step does not use.
-/
namespace Verif.DoubleCO
open Real Set MeasureTheory Verif.Orbit Verif.GW

noncomputable section
open Classical

theorem secyer_pos : 0 < secyer := by unfold secyer; norm_num
theorem tiny_pos : 0 < tiny := by unfold tiny; positivity
theorem tiny_lt : tiny < 1 := by
  unfold tiny
  exact pow_lt_one₀ (by norm_num) (by norm_num) (by norm_num)

/-- The eccentricity from which the integration starts. -/
def e0 (i : In) : ℝ := if i.ecc > 0 then i.ecc else tiny

theorem l0_eq (i : In) : l0 i = Real.log (e0 i) := by unfold l0 e0; split_ifs <;> rfl

theorem e0_pos (i : In) : 0 < e0 i := by
  unfold e0
  split_ifs with h
  · exact h
  · exact tiny_pos

theorem exp_l0 (i : In) : exp (l0 i) = e0 i := by rw [l0_eq, exp_log (e0_pos i)]

theorem e0_lt {i : In} (h : i.ecc < 1) : e0 i < 1 := by
  unfold e0
  split_ifs
  · exact h
  · exact tiny_lt

theorem l0_neg {i : In} (h : i.ecc < 1) : l0 i < 0 := by
  rw [l0_eq]
  exact Real.log_neg (e0_pos i) (e0_lt h)

/-- Inputs the property ranges over: a bound orbit of two bodies with mass. -/
structure Valid (i : In) : Prop where
  m1 : 0 < i.m1
  m2 : 0 < i.m2
  sep : 0 < i.sep
  ecc0 : 0 ≤ i.ecc
  ecc1 : i.ecc < 1

theorem e0_of_pos {i : In} (h : 0 < i.ecc) : e0 i = i.ecc := if_pos h

theorem tScale_eq (i : In) : tScale i = (i.sep * Rsun) ^ 4 / beta (i.m1 * Msun) (i.m2 * Msun) / secyer := by
  have h : toKm i.sep * 1e5 = i.sep * Rsun := by unfold toKm; field_simp
  unfold tScale beta
  rw [h]
  have hc : (clight : ℝ) ≠ 0 := by unfold clight; norm_num
  by_cases hz : cgrav ^ 3 * (i.m1 * Msun + i.m2 * Msun) * (i.m1 * Msun) * (i.m2 * Msun) = 0
  · have hz' : (64 / 5) * cgrav ^ 3 * (i.m1 * Msun) * (i.m2 * Msun) * (i.m1 * Msun + i.m2 * Msun) = 0 := by linear_combination (64 / 5) * hz
    rw [hz, hz']
    simp
  · have hz' : (64 / 5) * cgrav ^ 3 * (i.m1 * Msun) * (i.m2 * Msun) * (i.m1 * Msun + i.m2 * Msun) ≠ 0 := by
      intro h0
      apply hz
      linear_combination (5 / 64) * h0
    congr 1
    rw [div_eq_div_iff hz (div_ne_zero hz' (pow_ne_zero _ hc))]
    field_simp

theorem tScale_pos {i : In} (h : Valid i) : 0 < tScale i := by
  rw [tScale_eq]
  have := beta_pos (mul_pos h.m1 Msun_pos) (mul_pos h.m2 Msun_pos)
  have := secyer_pos
  have := mul_pos h.sep Rsun_pos
  positivity

theorem c0_eq {a l : ℝ} (hl : l < 0) : c0 a (exp l) = a * exp (hfun l) := by
  have h1 := sq_exp_lt hl
  have hf := fE_pos (show 0 ≤ exp l * exp l by positivity)
  unfold c0 hfun
  rw [show exp l ^ 2 = exp l * exp l by ring]
  change a * (1 - exp l * exp l) * _ * (fE (exp l * exp l)) ^ _ = _
  have hA : 1 - exp l * exp l = exp (Real.log (1 - exp l * exp l)) := (exp_log (by linarith)).symm
  set A := Real.log (1 - exp l * exp l) with hAdef
  rw [hA, ← Real.exp_mul, Real.rpow_def_of_pos hf, mul_assoc, mul_assoc, ← exp_add, ← exp_add]
  congr 2
  ring

/-- Rate of change of the merger time, for unit separation. -/
theorem rate {l : ℝ} (hl : l < 0) :
    (12 / 19) * exp (4 * hfun l) * (integrand (exp l) * (exp l * dl l)) = -((1 - exp l * exp l) ^ (3.5 : ℝ) / gE (exp l * exp l)) := by
  have h1 := sq_exp_lt hl
  have hx : 0 ≤ exp l * exp l := by positivity
  have hf := fE_pos hx
  have hg := (gE_pos hx).ne'
  have h1' : 0 < 1 - exp l * exp l := by linarith
  rw [dl_eq hl]
  unfold integrand hfun
  rw [show exp l ^ 2 = exp l * exp l by ring]
  change _ * (exp l ^ ((29 : ℝ) / 19) * (fE (exp l * exp l)) ^ _ / _ * _) = _
  rw [← Real.exp_mul l, Real.rpow_def_of_pos hf, Real.rpow_def_of_pos h1', Real.rpow_def_of_pos h1']
  have hA : (1 - exp l * exp l) = exp (Real.log (1 - exp l * exp l)) := (exp_log h1').symm
  have hF : fE (exp l * exp l) = exp (Real.log (fE (exp l * exp l))) := (exp_log hf).symm
  set A := Real.log (1 - exp l * exp l) with hAdef
  set F := Real.log (fE (exp l * exp l)) with hFdef
  have key : exp (4 * (A - 12 / 19 * l - 870 / 2299 * F)) * (exp (l * (29 / 19)) * exp (F * (1181 / 2299)) * exp (-(A * (3 / 2))) * exp l)
      * exp A * exp F = exp (A * 3.5) := by
    rw [← exp_add, ← exp_add, ← exp_add, ← exp_add, ← exp_add, ← exp_add]
    congr 1
    ring
  rw [← key, hA, hF, exp_neg]
  generalize gE (exp l * exp l) = G at hg
  field_simp

theorem integrand_cont {x : ℝ} (h0 : 0 < x) (h1 : x < 1) : ContinuousAt integrand x := by
  unfold integrand
  have hx : x ^ 2 < 1 := by nlinarith
  refine ContinuousAt.div ?_ ?_ ?_
  · refine ContinuousAt.mul ?_ ?_
    · exact Real.continuousAt_rpow_const _ _ (Or.inl h0.ne')
    · refine ContinuousAt.rpow_const (by fun_prop) (Or.inl ?_)
      positivity
  · refine ContinuousAt.rpow_const (by fun_prop) (Or.inl ?_)
    linarith
  · exact (Real.rpow_pos_of_pos (by linarith) _).ne'

theorem integrand_int {e : ℝ} (h0 : 0 ≤ e) (h1 : e < 1) : IntervalIntegrable integrand volume 0 e := by
  have hc : ContinuousOn integrand (uIcc 0 e) := by
    rw [uIcc_of_le h0]
    unfold integrand
    refine ContinuousOn.div ?_ ?_ ?_
    · refine ContinuousOn.mul ?_ ?_
      · exact ContinuousOn.rpow_const continuousOn_id (fun x _ => Or.inr (by norm_num))
      · refine ContinuousOn.rpow_const (by fun_prop) (fun x _ => Or.inl ?_)
        positivity
    · exact ContinuousOn.rpow_const (by fun_prop) (fun x _ => Or.inr (by norm_num))
    · intro x hx
      have : x ^ 2 < 1 := by nlinarith [hx.1, hx.2]
      exact (Real.rpow_pos_of_pos (by linarith) _).ne'
  exact hc.intervalIntegrable

theorem integral_deriv {e : ℝ} (h0 : 0 < e) (h1 : e < 1) : HasDerivAt (fun u => ∫ x in (0 : ℝ)..u, integrand x) (integrand e) e := by
  refine intervalIntegral.integral_hasDerivAt_right (integrand_int h0.le h1) ?_ (integrand_cont h0 h1)
  have hm : Measurable integrand := by
    unfold integrand
    measurability
  exact hm.stronglyMeasurable.stronglyMeasurableAtFilter

/-- Elapsed time in units of the code, and the merger time of the two orbits. -/
theorem elapsed_cgs {l tau : ℝ → ℝ} {start S a b1 b2 : ℝ} (h : IsSol l tau start 0 S) (h0 : start < 0) {s : ℝ} (hs : s ∈ Icc 0 S) :
    tau s * (a ^ 4 / beta b1 b2) = tMerger b1 b2 a (exp start) - tMerger b1 b2 (a * exp (-s)) (exp (l s)) := by
  have hT : ∀ x ∈ Icc 0 S, tMerger b1 b2 (a * exp (-x)) (exp (l x)) =
      (12 / 19) * ((a * exp (hfun start)) ^ 4 / beta b1 b2) * ∫ y in (0 : ℝ)..exp (l x), integrand y := by
    intro x hx
    unfold tMerger
    rw [if_neg (exp_pos _).ne', c0_eq (h.neg h0 hx), conserved h h0 hx, mul_assoc a, ← exp_add]
    rw [show -x + (hfun start + x) = hfun start by ring]
  have hc : ContinuousOn (fun x => tau x * (a ^ 4 / beta b1 b2) +
      (12 / 19) * ((a * exp (hfun start)) ^ 4 / beta b1 b2) * ∫ y in (0 : ℝ)..exp (l x), integrand y) (Icc 0 S) := by
    refine ContinuousOn.add (h.tau_cont.mul continuousOn_const) (ContinuousOn.mul continuousOn_const ?_)
    intro x hx
    have hneg := h.neg h0 hx
    have := (integral_deriv (exp_pos (l x)) (Real.exp_lt_one_iff.2 hneg)).continuousAt
    exact ContinuousAt.comp_continuousWithinAt (f := fun x => exp (l x)) (g := fun u => ∫ y in (0 : ℝ)..u, integrand y) this
      (Real.continuous_exp.continuousAt.comp_continuousWithinAt (h.l_cont x hx))
  have hd : ∀ x ∈ Ioo 0 S, HasDerivAt (fun x => tau x * (a ^ 4 / beta b1 b2) +
      (12 / 19) * ((a * exp (hfun start)) ^ 4 / beta b1 b2) * ∫ y in (0 : ℝ)..exp (l x), integrand y) 0 x := by
    intro x hx
    have hx' : x ∈ Icc 0 S := ⟨hx.1.le, hx.2.le⟩
    have hneg := h.neg h0 hx'
    have h1 := integral_deriv (exp_pos (l x)) (Real.exp_lt_one_iff.2 hneg)
    have h2 := HasDerivAt.comp (h₂ := fun u => ∫ y in (0 : ℝ)..u, integrand y) x h1 (h.l_deriv x hx).exp
    have h3 := ((h.tau_deriv x hx).mul_const (a ^ 4 / beta b1 b2)).add
      (h2.const_mul ((12 / 19) * ((a * exp (hfun start)) ^ 4 / beta b1 b2)))
    refine HasDerivAt.congr_deriv h3 ?_
    have hr := rate hneg
    have hcons := conserved h h0 hx'
    have e1 : exp (hfun start) ^ 4 = exp (4 * hfun (l x)) * exp (-4 * x) := by
      rw [hcons, ← exp_add, ← Real.exp_nat_mul]
      congr 1
      push_cast
      ring
    rw [dtau_eq hneg, mul_pow, e1]
    have : (12 / 19 : ℝ) * (a ^ 4 * (exp (4 * hfun (l x)) * exp (-4 * x)) / beta b1 b2) * (integrand (exp (l x)) * (exp (l x) * dl (l x)))
        = (a ^ 4 / beta b1 b2) * exp (-4 * x) * ((12 / 19) * exp (4 * hfun (l x)) * (integrand (exp (l x)) * (exp (l x) * dl (l x)))) := by
      ring
    rw [this, hr]
    ring
  have := const_of_deriv hc hd hs
  have hS : 0 ≤ S := h.hi0
  have h00 : (0 : ℝ) ∈ Icc 0 S := ⟨le_refl _, hS⟩
  have e2 := hT 0 h00
  rw [neg_zero, exp_zero, mul_one, h.l_start] at e2
  simp only [h.l_start, h.tau_start] at this
  rw [hT s hs, e2]
  linarith

/-- C73: the time the step lets pass while the orbit shrinks from its first to a later size is the difference of the merger times that
`inspiral_timescale_from_separation` gives for the two orbits. -/
theorem C73_elapsed (i : In) (l tau : ℝ → ℝ) (S s : ℝ) (hv : Valid i) (he : 0 < i.ecc) (h : IsSol l tau (l0 i) 0 S) (hs : s ∈ Icc 0 S) :
    ∃ T0 T1, inspiral i.m1 i.m2 i.sep i.ecc = .ok T0 ∧ inspiral i.m1 i.m2 (exp (-s) * i.sep) (exp (l s)) = .ok T1 ∧
      tau s * tScale i = (T0 - T1) * 1e6 := by
  have hneg := h.neg (l0_neg hv.ecc1) hs
  refine ⟨_, _, inspiral_ok hv.m1 hv.m2 hv.sep hv.ecc0 hv.ecc1,
    inspiral_ok hv.m1 hv.m2 (mul_pos (exp_pos _) hv.sep) (exp_pos _).le (Real.exp_lt_one_iff.2 hneg), ?_⟩
  have := elapsed_cgs (a := i.sep * Rsun) (b1 := i.m1 * Msun) (b2 := i.m2 * Msun) h (l0_neg hv.ecc1) hs
  rw [exp_l0, e0_of_pos he] at this
  rw [tScale_eq, show exp (-s) * i.sep * Rsun = i.sep * Rsun * exp (-s) by ring]
  have hsy := secyer_pos.ne'
  rw [← mul_div_assoc, this]
  field_simp

/-- C73: while the orbit shrinks, the eccentricity falls and stays between zero and its first value, and the time grows. -/
theorem C73_orbit (i : In) (l tau : ℝ → ℝ) (S s s' : ℝ) (hv : Valid i) (h : IsSol l tau (l0 i) 0 S) (hs : 0 ≤ s) (hss : s < s')
    (hs' : s' ≤ S) :
    exp (-s') * i.sep < exp (-s) * i.sep ∧ 0 < exp (l s') ∧ exp (l s') < exp (l s) ∧ exp (l s) ≤ e0 i ∧
      tau s * tScale i + i.time < tau s' * tScale i + i.time := by
  have hneg : ∀ x ∈ Icc 0 S, l x < 0 := fun x hx => h.neg (l0_neg hv.ecc1) hx
  have m1 : s ∈ Icc 0 S := ⟨hs, by linarith⟩
  have m2 : s' ∈ Icc 0 S := ⟨by linarith, hs'⟩
  refine ⟨?_, exp_pos _, ?_, ?_, ?_⟩
  · exact mul_lt_mul_of_pos_right (exp_lt_exp.2 (by linarith)) hv.sep
  · exact exp_lt_exp.2 (h.strictAnti hneg m1 m2 hss)
  · rw [← exp_l0, ← h.l_start]
    exact exp_le_exp.2 (h.l_anti h.zero_mem m1 hs)
  · have := mul_lt_mul_of_pos_right (h.strictMono hneg m1 m2 hss) (tScale_pos hv)
    linarith

/-! ### The outcome -/

theorem toKm_pos {r : ℝ} (h : 0 < r) : 0 < toKm r := by
  unfold toKm
  have := Rsun_pos
  positivity

theorem coRadius_pos {m r : ℝ} {k : Kind} (h : coRadius m k = .ok r) : 0 < r := by
  unfold coRadius at h
  by_cases hm : m ≤ 0
  · rw [if_pos hm] at h; exact absurd h (by simp)
  · rw [if_neg hm] at h
    push Not at hm
    have h1 := Rsun_pos
    have h2 := Msun_pos
    have h3 : 0 < cgrav := by unfold cgrav; norm_num
    have h4 : 0 < clight := by unfold clight; norm_num
    have h5 : 0 < m ^ (-(1 : ℝ) / 3) := Real.rpow_pos_of_pos hm _
    cases k <;> simp only [Except.ok.injEq, reduceCtorEq] at h <;> rw [← h] <;> positivity

/-- At contact the separation is the sum of the radii. -/
theorem contact_sep (i : In) {r1 r2 : ℝ} (ha : 0 < i.sep) (h1 : 0 < r1) (h2 : 0 < r2) : exp (-sContact i r1 r2) * i.sep = r1 + r2 := by
  have ha' := toKm_pos ha
  have hal : 0 < alphaContact i r1 r2 := div_pos (add_pos (toKm_pos h1) (toKm_pos h2)) ha'
  unfold sContact
  rw [neg_neg, exp_log hal]
  unfold alphaContact toKm
  have := Rsun_pos
  field_simp

theorem sContact_nonneg (i : In) {r1 r2 : ℝ} (ha : 0 < i.sep) (h1 : 0 < r1) (h2 : 0 < r2) (h : r1 + r2 ≤ i.sep) : 0 ≤ sContact i r1 r2 := by
  by_contra hc
  push Not at hc
  have := contact_sep i ha h1 h2
  have h3 : 1 < exp (-sContact i r1 r2) := Real.one_lt_exp_iff.2 (by linarith)
  nlinarith

theorem step_of_radii {i : In} {r1 r2 : ℝ} (hr1 : coRadius i.m1 i.k1 = .ok r1) (hr2 : coRadius i.m2 i.k2 = .ok r2) (ht : i.time < i.maxTime)
    (l tau : ℝ → ℝ) :
    step i l tau .finished = .ok { b := .contact, e := .coContact, time := tau (sContact i r1 r2) * tScale i + i.time, sep := exp (-sContact i r1 r2) * i.sep, ecc := 0, period := some (periodFromSep (exp (-sContact i r1 r2) * i.sep) i.m2 i.m1) } ∧
    ∀ s, step i l tau (.event s) = .ok { b := .detached, e := .maxtime, time := i.maxTime, sep := exp (-s) * i.sep, ecc := exp (l s), period := some (periodFromSep (exp (-s) * i.sep) i.m2 i.m1) } := by
  have h : ¬ ¬ (i.maxTime - i.time > 0) := by push Not; linarith
  constructor
  · unfold step
    rw [if_neg h, hr1]
    dsimp only
    rw [hr2]
  · intro s
    unfold step
    rw [if_neg h, hr1]
    dsimp only
    rw [hr2]

/-- C73: a binary reported as merging is in contact: its separation is the sum of the two radii, its orbit is circular and follows Kepler's
law, and its time lies between the start and the end of the simulation. -/
theorem C73_contact (i : In) (l tau : ℝ → ℝ) (r1 r2 : ℝ) (o : Out) (hv : Valid i) (hr1 : coRadius i.m1 i.k1 = .ok r1)
    (hr2 : coRadius i.m2 i.k2 = .ok r2) (ht : i.time < i.maxTime) (hr : r1 + r2 ≤ i.sep)
    (h : IsSol l tau (l0 i) 0 (sContact i r1 r2)) (hrun : Runs tau (sContact i r1 r2) (tauMax i) .finished)
    (ho : step i l tau .finished = .ok o) :
    o.b = .contact ∧ o.e = .coContact ∧ o.sep = r1 + r2 ∧ o.ecc = 0 ∧ o.period = some (periodFromSep (r1 + r2) i.m1 i.m2) ∧
      i.time ≤ o.time ∧ o.time < i.maxTime := by
  have hp1 := coRadius_pos hr1
  have hp2 := coRadius_pos hr2
  rw [(step_of_radii hr1 hr2 ht l tau).1] at ho
  obtain rfl := Except.ok.inj ho
  have hS := sContact_nonneg i hv.sep hp1 hp2 hr
  have hts := tScale_pos hv
  refine ⟨rfl, rfl, contact_sep i hv.sep hp1 hp2, rfl, ?_, ?_, ?_⟩
  · dsimp only
    rw [contact_sep i hv.sep hp1 hp2]
    unfold periodFromSep
    rw [add_comm i.m2]
  · dsimp only
    have : tau 0 ≤ tau (sContact i r1 r2) := h.tau_mono h.zero_mem ⟨hS, le_refl _⟩ hS
    rw [h.tau_start] at this
    have := mul_nonneg this hts.le
    linarith
  · dsimp only
    rcases eq_or_lt_of_le hS with e | e
    · rw [← e, h.tau_start]
      linarith
    · have := hrun _ ⟨e, le_refl _⟩
      unfold tauMax at this
      rw [lt_div_iff₀ hts] at this
      linarith

/-- C73: a binary that is not reported as merging ends exactly at the end of the simulation; its orbit has shrunk, but the objects do not
overlap, its eccentricity has fallen, and the time that passed is the difference of the merger times of the first and the last orbit. -/
theorem C73_maxtime (i : In) (l tau : ℝ → ℝ) (r1 r2 s : ℝ) (o : Out) (hv : Valid i) (he : 0 < i.ecc) (hr1 : coRadius i.m1 i.k1 = .ok r1)
    (hr2 : coRadius i.m2 i.k2 = .ok r2) (ht : i.time < i.maxTime)
    (h : IsSol l tau (l0 i) 0 (sContact i r1 r2)) (hrun : Runs tau (sContact i r1 r2) (tauMax i) (.event s))
    (ho : step i l tau (.event s) = .ok o) :
    o.b = .detached ∧ o.e = .maxtime ∧ o.time = i.maxTime ∧ r1 + r2 ≤ o.sep ∧ o.sep < i.sep ∧ 0 < o.ecc ∧ o.ecc < i.ecc ∧
      o.period = some (periodFromSep o.sep i.m1 i.m2) ∧
      ∃ T0 T1, inspiral i.m1 i.m2 i.sep i.ecc = .ok T0 ∧ inspiral i.m1 i.m2 o.sep o.ecc = .ok T1 ∧ i.maxTime - i.time = (T0 - T1) * 1e6 := by
  have hp1 := coRadius_pos hr1
  have hp2 := coRadius_pos hr2
  rw [(step_of_radii hr1 hr2 ht l tau).2 s] at ho
  obtain rfl := Except.ok.inj ho
  obtain ⟨hmem, hev⟩ := hrun
  have hts := tScale_pos hv
  have horb := C73_orbit i l tau _ 0 s hv h (le_refl _) hmem.1 hmem.2
  refine ⟨rfl, rfl, rfl, ?_, ?_, exp_pos _, ?_, ?_, ?_⟩
  · dsimp only
    rw [← contact_sep i hv.sep hp1 hp2]
    exact mul_le_mul_of_nonneg_right (exp_le_exp.2 (by linarith [hmem.2])) hv.sep.le
  · have := horb.1
    rw [neg_zero, exp_zero, one_mul] at this
    exact this
  · have := horb.2.2.1
    rw [h.l_start, exp_l0, e0_of_pos he] at this
    exact this
  · dsimp only
    unfold periodFromSep
    rw [add_comm i.m2]
  · obtain ⟨T0, T1, e1, e2, e3⟩ := C73_elapsed i l tau _ s hv he h ⟨hmem.1.le, hmem.2⟩
    refine ⟨T0, T1, e1, e2, ?_⟩
    rw [← e3, hev]
    unfold tauMax
    field_simp

/-- C73: whether the binary merges is decided by the merger time alone: it is reported as merging if and only if the time left is longer
than the difference of the merger times of the first orbit and of the orbit at contact. -/
theorem C73_decides (i : In) (l tau : ℝ → ℝ) (r1 r2 : ℝ) (r : Res) (hv : Valid i) (he : 0 < i.ecc)
    (hr1 : coRadius i.m1 i.k1 = .ok r1) (hr2 : coRadius i.m2 i.k2 = .ok r2) (hr : r1 + r2 < i.sep)
    (h : IsSol l tau (l0 i) 0 (sContact i r1 r2)) (hrun : Runs tau (sContact i r1 r2) (tauMax i) r) (hn1 : r ≠ .raised) (hn2 : r ≠ .failed) :
    ∃ T0 Tc, inspiral i.m1 i.m2 i.sep i.ecc = .ok T0 ∧
      inspiral i.m1 i.m2 (r1 + r2) (exp (l (sContact i r1 r2))) = .ok Tc ∧
      (r = .finished ↔ (T0 - Tc) * 1e6 < i.maxTime - i.time) := by
  have hp1 := coRadius_pos hr1
  have hp2 := coRadius_pos hr2
  have hts := tScale_pos hv
  have hS0 := sContact_nonneg i hv.sep hp1 hp2 hr.le
  have hS : 0 < sContact i r1 r2 := by
    rcases eq_or_lt_of_le hS0 with e | e
    · have := contact_sep i hv.sep hp1 hp2
      rw [← e, neg_zero, exp_zero, one_mul] at this
      linarith
    · exact e
  obtain ⟨T0, T1, e1, e2, e3⟩ := C73_elapsed i l tau _ _ hv he h ⟨hS0, le_refl _⟩
  rw [contact_sep i hv.sep hp1 hp2] at e2
  refine ⟨T0, T1, e1, e2, ?_⟩
  rw [← e3]
  cases r with
  | raised => exact absurd rfl hn1
  | failed => exact absurd rfl hn2
  | finished =>
    refine iff_of_true rfl ?_
    have := hrun _ ⟨hS, le_refl _⟩
    unfold tauMax at this
    rwa [lt_div_iff₀ hts] at this
  | event s =>
    obtain ⟨hmem, hev⟩ := hrun
    refine iff_of_false (by simp) ?_
    have := h.tau_mono ⟨hmem.1.le, hmem.2⟩ ⟨hS0, le_refl _⟩ hmem.2
    rw [hev] at this
    unfold tauMax at this
    rw [div_le_iff₀ hts] at this
    linarith

/-- C73: a binary whose merger time is not longer than the time left is reported as merging. -/
theorem C73_merges_in_time (i : In) (l tau : ℝ → ℝ) (r1 r2 T0 : ℝ) (r : Res) (hv : Valid i) (he : 0 < i.ecc)
    (hr1 : coRadius i.m1 i.k1 = .ok r1) (hr2 : coRadius i.m2 i.k2 = .ok r2) (hr : r1 + r2 < i.sep)
    (h : IsSol l tau (l0 i) 0 (sContact i r1 r2)) (hrun : Runs tau (sContact i r1 r2) (tauMax i) r) (hn1 : r ≠ .raised) (hn2 : r ≠ .failed)
    (hT : inspiral i.m1 i.m2 i.sep i.ecc = .ok T0) (hle : T0 * 1e6 ≤ i.maxTime - i.time) : r = .finished := by
  obtain ⟨T0', Tc, e1, e2, e3⟩ := C73_decides i l tau r1 r2 r hv he hr1 hr2 hr h hrun hn1 hn2
  rw [hT] at e1
  obtain rfl := Except.ok.inj e1
  rw [e3]
  have hp1 := coRadius_pos hr1
  have hp2 := coRadius_pos hr2
  have hS0 := sContact_nonneg i hv.sep hp1 hp2 hr.le
  have hneg := h.neg (l0_neg hv.ecc1) ⟨hS0, le_refl _⟩
  obtain ⟨t, ht, htp⟩ := C57_positive i.m1 i.m2 (r1 + r2) (exp (l (sContact i r1 r2))) hv.m1 hv.m2 (by linarith) (exp_pos _).le
    (Real.exp_lt_one_iff.2 hneg)
  rw [e2] at ht
  obtain rfl := Except.ok.inj ht
  linarith

/-- C73: for every bound binary of two compact objects that do not touch, the integration has exactly one outcome, contact or the end of the
simulation. -/
theorem C73_outcome_exists (i : In) (r1 r2 : ℝ) (hv : Valid i) (hr1 : coRadius i.m1 i.k1 = .ok r1)
    (hr2 : coRadius i.m2 i.k2 = .ok r2) (ht : i.time < i.maxTime) (hr : r1 + r2 ≤ i.sep) :
    ∃ l tau r, IsSol l tau (l0 i) 0 (sContact i r1 r2) ∧ Runs tau (sContact i r1 r2) (tauMax i) r ∧ r ≠ .raised ∧ r ≠ .failed := by
  have hS := sContact_nonneg i hv.sep (coRadius_pos hr1) (coRadius_pos hr2) hr
  obtain ⟨l, tau, h⟩ := exists_sol (l0_neg hv.ecc1) 0 (sContact i r1 r2) (le_refl _) hS
  by_cases hc : ∀ s ∈ Ioc 0 (sContact i r1 r2), tau s < tauMax i
  · exact ⟨l, tau, .finished, h, hc, by simp, by simp⟩
  · push Not at hc
    obtain ⟨s, hs, hle⟩ := hc
    have hpos : 0 < tauMax i := div_pos (by linarith) (tScale_pos hv)
    have hcont : ContinuousOn tau (Icc 0 s) := h.tau_cont.mono (Icc_subset_Icc_right hs.2)
    have hmem : tauMax i ∈ Icc (tau 0) (tau s) := ⟨by rw [h.tau_start]; exact hpos.le, hle⟩
    obtain ⟨s', hs', he⟩ := intermediate_value_Icc hs.1.le hcont hmem
    refine ⟨l, tau, .event s', h, ⟨⟨?_, hs'.2.trans hs.2⟩, he⟩, by simp, by simp⟩
    rcases eq_or_lt_of_le hs'.1 with e | e
    · rw [← e, h.tau_start] at he
      linarith
    · exact e

/-- Two solutions agree. -/
theorem sol_unique {l tau l' tau' : ℝ → ℝ} {start S : ℝ} (h : IsSol l tau start 0 S) (h' : IsSol l' tau' start 0 S) (h0 : start < 0) {s : ℝ}
    (hs : s ∈ Icc 0 S) : l s = l' s ∧ tau s = tau' s := by
  have hl : ∀ x ∈ Icc 0 S, l x = l' x := by
    intro x hx
    apply hfun_anti.injOn (h.neg h0 hx) (h'.neg h0 hx)
    rw [conserved h h0 hx, conserved h' h0 hx]
  refine ⟨hl s hs, ?_⟩
  have hc : ContinuousOn (fun x => tau x - tau' x) (Icc 0 S) := h.tau_cont.sub h'.tau_cont
  have := const_of_deriv hc (fun x hx => by
    have := (h.tau_deriv x hx).sub (h'.tau_deriv x hx)
    rw [hl x ⟨hx.1.le, hx.2.le⟩, sub_self] at this
    exact this) hs
  rw [h.tau_start, h'.tau_start] at this
  linarith

/-- C73: the outcome is determined by the binary. -/
theorem C73_outcome_unique (i : In) (l tau l' tau' : ℝ → ℝ) (r1 r2 : ℝ) (r r' : Res) (hv : Valid i) (hr1 : coRadius i.m1 i.k1 = .ok r1)
    (hr2 : coRadius i.m2 i.k2 = .ok r2) (ht : i.time < i.maxTime)
    (h : IsSol l tau (l0 i) 0 (sContact i r1 r2)) (hrun : Runs tau (sContact i r1 r2) (tauMax i) r)
    (h' : IsSol l' tau' (l0 i) 0 (sContact i r1 r2)) (hrun' : Runs tau' (sContact i r1 r2) (tauMax i) r')
    (hn1 : r ≠ .raised) (hn2 : r ≠ .failed) (hn1' : r' ≠ .raised) (hn2' : r' ≠ .failed) : step i l tau r = step i l' tau' r' := by
  have hu : ∀ s ∈ Icc 0 (sContact i r1 r2), l s = l' s ∧ tau s = tau' s := fun s hs => sol_unique h h' (l0_neg hv.ecc1) hs
  have hS := h.hi0
  have hneg : ∀ x ∈ Icc 0 (sContact i r1 r2), l x < 0 := fun x hx => h.neg (l0_neg hv.ecc1) hx
  cases r with
  | raised => exact absurd rfl hn1
  | failed => exact absurd rfl hn2
  | finished =>
    cases r' with
    | raised => exact absurd rfl hn1'
    | failed => exact absurd rfl hn2'
    | finished =>
      rw [(step_of_radii hr1 hr2 ht l tau).1, (step_of_radii hr1 hr2 ht l' tau').1, (hu _ ⟨hS, le_refl _⟩).2]
    | event s =>
      obtain ⟨hm, hev⟩ := hrun'
      have := hrun s hm
      rw [(hu s ⟨hm.1.le, hm.2⟩).2, hev] at this
      exact absurd this (lt_irrefl _)
  | event s =>
    obtain ⟨hm, hev⟩ := hrun
    cases r' with
    | raised => exact absurd rfl hn1'
    | failed => exact absurd rfl hn2'
    | finished =>
      have := hrun' s hm
      rw [← (hu s ⟨hm.1.le, hm.2⟩).2, hev] at this
      exact absurd this (lt_irrefl _)
    | event s' =>
      obtain ⟨hm', hev'⟩ := hrun'
      have hss : s = s' := by
        apply (h.strictMono hneg).injOn ⟨hm.1.le, hm.2⟩ ⟨hm'.1.le, hm'.2⟩
        rw [hev, (hu s' ⟨hm'.1.le, hm'.2⟩).2, hev']
      subst hss
      rw [(step_of_radii hr1 hr2 ht l tau).2, (step_of_radii hr1 hr2 ht l' tau').2, (hu s ⟨hm.1.le, hm.2⟩).1]

/-- C73: the step fails with an error exactly when no time is left, when one of the bodies is no compact object with mass, or when the
integrator raises. -/
theorem C73_errors (i : In) (l tau : ℝ → ℝ) (r : Res) :
    (∃ x, step i l tau r = .error x) ↔ i.maxTime ≤ i.time ∨ i.m1 ≤ 0 ∨ i.m2 ≤ 0 ∨ i.k1 = .other ∨ i.k2 = .other ∨ r = .raised := by
  have hc : ∀ m k, (∃ x, coRadius m k = .ok x) ∨ coRadius m k = .error .value := by
    intro m k
    unfold coRadius
    by_cases hm : m ≤ 0
    · rw [if_pos hm]; exact Or.inr rfl
    · rw [if_neg hm]; cases k <;> simp
  have hce : ∀ m k, coRadius m k = .error .value ↔ m ≤ 0 ∨ k = .other := by
    intro m k
    unfold coRadius
    by_cases hm : m ≤ 0
    · simp [hm]
    · rw [if_neg hm]; cases k <;> simp [hm]
  by_cases ht : ¬ (i.maxTime - i.time > 0)
  · have : i.maxTime ≤ i.time := by push Not at ht; linarith
    unfold step
    rw [if_pos ht]
    simp [this]
  · have ht' : ¬ (i.maxTime ≤ i.time) := by push Not at ht ⊢; linarith
    unfold step
    rw [if_neg ht]
    rcases hc i.m1 i.k1 with ⟨r1, h1⟩ | h1
    · have n1 : ¬ (i.m1 ≤ 0 ∨ i.k1 = .other) := fun h => by rw [(hce _ _).2 h] at h1; exact absurd h1 (by simp)
      push Not at n1
      rcases hc i.m2 i.k2 with ⟨r2, h2⟩ | h2
      · have n2 : ¬ (i.m2 ≤ 0 ∨ i.k2 = .other) := fun h => by rw [(hce _ _).2 h] at h2; exact absurd h2 (by simp)
        push Not at n2
        rw [h1]; dsimp only; rw [h2]
        cases r <;> simp [ht', n1.2, n2.2, not_le.2 n1.1, not_le.2 n2.1]
      · rw [h1]; dsimp only; rw [h2]
        have := (hce _ _).1 h2
        simp only [Except.error.injEq, exists_eq', true_iff]
        tauto
    · rw [h1]
      have := (hce _ _).1 h1
      simp only [Except.error.injEq, exists_eq', true_iff]
      tauto

/-- The same binary with its two bodies exchanged. -/
def In.mirror (i : In) : In := { i with m1 := i.m2, m2 := i.m1, k1 := i.k2, k2 := i.k1 }

/-- C73: it does not matter which of the two bodies is called the first. -/
theorem C73_mirror (i : In) (l tau : ℝ → ℝ) (r : Res) : step i.mirror l tau r = step i l tau r ∧ tauMax i.mirror = tauMax i ∧
    l0 i.mirror = l0 i ∧ ∀ r1 r2, sContact i.mirror r2 r1 = sContact i r1 r2 := by
  have hts : tScale i.mirror = tScale i := by
    unfold tScale In.mirror
    dsimp only
    congr 2
    ring
  have hs : ∀ r1 r2, sContact i.mirror r2 r1 = sContact i r1 r2 := by
    intro r1 r2
    unfold sContact alphaContact In.mirror
    dsimp only
    rw [add_comm]
  refine ⟨?_, ?_, rfl, hs⟩
  · have hcv : ∀ m k x, coRadius m k = .error x → x = .value := by
      intro m k x h
      unfold coRadius at h
      by_cases hm : m ≤ 0
      · rw [if_pos hm] at h; exact (Except.error.inj h).symm
      · rw [if_neg hm] at h; cases k <;> simp at h; exact h.symm
    have hper : ∀ a, periodFromSep a i.m1 i.m2 = periodFromSep a i.m2 i.m1 := by
      intro a
      unfold periodFromSep
      rw [add_comm]
    unfold step
    rw [hts]
    by_cases ht : ¬ (i.maxTime - i.time > 0)
    · have ht' : ¬ (i.mirror.maxTime - i.mirror.time > 0) := ht
      rw [if_pos ht, if_pos ht']
    · have ht' : ¬ ¬ (i.mirror.maxTime - i.mirror.time > 0) := ht
      rw [if_neg ht, if_neg ht']
      simp only [In.mirror] at hs ⊢
      cases h1 : coRadius i.m1 i.k1 with
      | error x =>
        cases h2 : coRadius i.m2 i.k2 with
        | error y => dsimp only; rw [hcv _ _ _ h1, hcv _ _ _ h2]
        | ok r2 => rfl
      | ok r1 =>
        cases h2 : coRadius i.m2 i.k2 with
        | error y => rfl
        | ok r2 =>
          dsimp only
          cases r <;> dsimp only <;> simp only [hs, hper]
  · unfold tauMax
    rw [hts]
    rfl

/-! ### Circular orbits -/

theorem tau_circular {l tau : ℝ → ℝ} {start S : ℝ} (h : IsSol l tau start 0 S) (h0 : start < 0) {s : ℝ} (hs : s ∈ Icc 0 S) :
    (1 - exp start * exp start) ^ (3.5 : ℝ) / gE (exp start * exp start) * ((1 - exp (-4 * s)) / 4) ≤ tau s ∧
      tau s ≤ (1 - exp (-4 * s)) / 4 := by
  set k := (1 - exp start * exp start) ^ (3.5 : ℝ) / gE (exp start * exp start) with hk
  have hE : ∀ x, HasDerivAt (fun x : ℝ => (1 - exp (-4 * x)) / 4) (exp (-4 * x)) x := by
    intro x
    have := ((((hasDerivAt_id x).const_mul (-4 : ℝ)).exp).const_sub 1).div_const 4
    refine HasDerivAt.congr_deriv this ?_
    simp only [id]
    ring
  have hEc : Continuous (fun x : ℝ => (1 - exp (-4 * x)) / 4) := continuous_iff_continuousAt.2 fun x => (hE x).continuousAt
  have hb : ∀ x ∈ Ioo 0 S, k * exp (-4 * x) ≤ dtau x (l x) ∧ dtau x (l x) ≤ exp (-4 * x) := by
    intro x hx
    have hx' : x ∈ Icc 0 S := ⟨hx.1.le, hx.2.le⟩
    have hneg := h.neg h0 hx'
    rw [dtau_eq hneg]
    have hle : exp (l x) ≤ exp start := by
      rw [← h.l_start]
      exact exp_le_exp.2 (h.l_anti h.zero_mem hx' hx.1.le)
    have h1 := sq_exp_lt hneg
    have h1s := sq_exp_lt h0
    have hle2 : exp (l x) * exp (l x) ≤ exp start * exp start := by nlinarith [exp_pos (l x)]
    have hx0 : 0 ≤ exp (l x) * exp (l x) := by positivity
    have hg := gE_pos hx0
    have hg1 : 1 ≤ gE (exp (l x) * exp (l x)) := by unfold gE; nlinarith
    have hgs : gE (exp (l x) * exp (l x)) ≤ gE (exp start * exp start) := by unfold gE; nlinarith
    have hp := exp_pos (-4 * x)
    have hnum : (1 - exp (l x) * exp (l x)) ^ (3.5 : ℝ) ≤ 1 := Real.rpow_le_one (by linarith) (by linarith) (by norm_num)
    have hnum0 : 0 ≤ (1 - exp (l x) * exp (l x)) ^ (3.5 : ℝ) := Real.rpow_nonneg (by linarith) _
    constructor
    · rw [mul_div_assoc, mul_comm k]
      refine mul_le_mul_of_nonneg_left ?_ hp.le
      rw [hk]
      exact div_le_div₀ hnum0 (Real.rpow_le_rpow (by linarith) (by linarith) (by norm_num)) hg hgs
    · rw [mul_div_assoc]
      have : (1 - exp (l x) * exp (l x)) ^ (3.5 : ℝ) / gE (exp (l x) * exp (l x)) ≤ 1 := by
        rw [div_le_one hg]
        linarith
      nlinarith
  constructor
  · have hm : MonotoneOn (fun x => tau x - k * ((1 - exp (-4 * x)) / 4)) (Icc 0 S) := by
      refine monotoneOn_of_deriv_nonneg (convex_Icc _ _) (h.tau_cont.sub (continuousOn_const.mul hEc.continuousOn)) ?_ ?_
      · intro x hx
        rw [interior_Icc] at hx
        exact ((h.tau_deriv x hx).sub ((hE x).const_mul k)).differentiableAt.differentiableWithinAt
      · intro x hx
        rw [interior_Icc] at hx
        have := ((h.tau_deriv x hx).sub ((hE x).const_mul k)).deriv
        change deriv (fun x => tau x - k * ((1 - exp (-4 * x)) / 4)) x = _ at this
        rw [this]
        linarith [(hb x hx).1]
    have := hm h.zero_mem hs hs.1
    simp only [h.tau_start, mul_zero, exp_zero, sub_self, zero_div] at this
    linarith
  · have hm : MonotoneOn (fun x => (1 - exp (-4 * x)) / 4 - tau x) (Icc 0 S) := by
      refine monotoneOn_of_deriv_nonneg (convex_Icc _ _) (hEc.continuousOn.sub h.tau_cont) ?_ ?_
      · intro x hx
        rw [interior_Icc] at hx
        exact ((hE x).sub (h.tau_deriv x hx)).differentiableAt.differentiableWithinAt
      · intro x hx
        rw [interior_Icc] at hx
        have := ((hE x).sub (h.tau_deriv x hx)).deriv
        change deriv (fun x => (1 - exp (-4 * x)) / 4 - tau x) x = _ at this
        rw [this]
        linarith [(hb x hx).2]
    have := hm h.zero_mem hs hs.1
    simp only [h.tau_start, mul_zero, exp_zero, sub_self, zero_div] at this
    linarith

/-- C73: for an orbit of eccentricity zero, which the code replaces by the smallest positive number, the time that passes is the difference
of the merger times of the circular orbits, up to a relative error below 4 * 10^-600. -/
theorem C73_circular (i : In) (l tau : ℝ → ℝ) (S s T0 T1 : ℝ) (hv : Valid i) (he : i.ecc = 0) (h : IsSol l tau (l0 i) 0 S) (hs : s ∈ Icc 0 S)
    (h0 : inspiral i.m1 i.m2 i.sep 0 = .ok T0) (h1 : inspiral i.m1 i.m2 (exp (-s) * i.sep) 0 = .ok T1) :
    (1 - tiny * tiny) ^ (3.5 : ℝ) / gE (tiny * tiny) * ((T0 - T1) * 1e6) ≤ tau s * tScale i ∧ tau s * tScale i ≤ (T0 - T1) * 1e6 := by
  have hb := tau_circular h (l0_neg hv.ecc1) hs
  have het : exp (l0 i) = tiny := by rw [exp_l0]; unfold e0; rw [he]; simp
  rw [het] at hb
  have hts := tScale_pos hv
  rw [inspiral_ok hv.m1 hv.m2 hv.sep (le_refl _) (by norm_num)] at h0
  rw [inspiral_ok hv.m1 hv.m2 (mul_pos (exp_pos _) hv.sep) (le_refl _) (by norm_num)] at h1
  have e0 := Except.ok.inj h0
  have e1 := Except.ok.inj h1
  have key : (T0 - T1) * 1e6 = (1 - exp (-4 * s)) / 4 * tScale i := by
    rw [← e0, ← e1, tScale_eq]
    unfold tMerger
    rw [if_pos rfl, if_pos rfl]
    have : exp (-4 * s) = exp (-s) ^ 4 := by
      rw [← Real.exp_nat_mul]
      congr 1
      push_cast
      ring
    rw [this]
    have := secyer_pos.ne'
    have := (beta_pos (mul_pos hv.m1 Msun_pos) (mul_pos hv.m2 Msun_pos)).ne'
    field_simp
  rw [key]
  constructor
  · have := mul_le_mul_of_nonneg_right hb.1 hts.le
    linarith
  · exact mul_le_mul_of_nonneg_right hb.2 hts.le

/-- The relative error of the previous theorem. -/
theorem tiny_error : 1 - 8 * (tiny * tiny) ≤ (1 - tiny * tiny) ^ (3.5 : ℝ) / gE (tiny * tiny) := by
  set x := tiny * tiny with hx
  have h0 : 0 < x := mul_pos tiny_pos tiny_pos
  have h1 : x ≤ 1 / 4 := by
    have : tiny ≤ 1 / 2 := by
      unfold tiny
      calc (2⁻¹ : ℝ) ^ 1022 ≤ 2⁻¹ ^ 1 := pow_le_pow_of_le_one (by norm_num) (by norm_num) (by norm_num)
        _ = 1 / 2 := by norm_num
    nlinarith [tiny_pos]
  have hg := gE_pos h0.le
  rw [le_div_iff₀ hg]
  have hp : (1 - x) ^ (4 : ℝ) ≤ (1 - x) ^ (3.5 : ℝ) := Real.rpow_le_rpow_of_exponent_ge (by linarith) (by linarith) (by norm_num)
  have h4 : (1 - x) ^ (4 : ℝ) = (1 - x) ^ 4 := by
    rw [show (4 : ℝ) = ((4 : ℕ) : ℝ) by norm_num, Real.rpow_natCast]
  rw [h4] at hp
  have h5 : 1 - 4 * x ≤ (1 - x) ^ 4 := by nlinarith [mul_nonneg h0.le h0.le, mul_nonneg (mul_nonneg h0.le h0.le) h0.le, sq_nonneg (x * (1 - x)), sq_nonneg x]
  have h6 : (1 - 8 * x) * gE x ≤ 1 - 4 * x := by
    unfold gE
    nlinarith [mul_nonneg h0.le h0.le, mul_nonneg (mul_nonneg h0.le h0.le) h0.le]
  linarith

/-! ### Recorded rows -/

/-- C73: the rows recorded between the first and the last time exist and are on the orbit: they are the only point of the solution with
their time, so they do not depend on how the root is found. -/
theorem C73_rows (i : In) (l tau : ℝ → ℝ) (S t : ℝ) (hv : Valid i) (h : IsSol l tau (l0 i) 0 S) (h1 : i.time ≤ t)
    (h2 : t ≤ tau S * tScale i + i.time) :
    ∃ s ∈ Icc 0 S, tau s * tScale i + i.time = t ∧ ∀ out, Dense i l tau S 0 t out ↔ out = .ok (exp (-s) * i.sep, exp (l s)) := by
  have hts := tScale_pos hv
  have hS := h.hi0
  have hneg : ∀ x ∈ Icc 0 S, l x < 0 := fun x hx => h.neg (l0_neg hv.ecc1) hx
  set g := (t - i.time) / tScale i with hg
  have hg0 : tau 0 ≤ g := by rw [h.tau_start, hg]; exact div_nonneg (by linarith) hts.le
  have hg1 : g ≤ tau S := by rw [hg, div_le_iff₀ hts]; linarith
  obtain ⟨s, hs, hse⟩ := intermediate_value_Icc hS h.tau_cont ⟨hg0, hg1⟩
  have hinj := (h.strictMono hneg).injOn
  refine ⟨s, hs, ?_, ?_⟩
  · rw [hse, hg]
    field_simp
    ring
  · intro out
    unfold Dense
    dsimp only
    rw [← hg]
    by_cases ha : |tau 0 - g| ≤ 0
    · rw [if_pos ha]
      have : tau 0 = g := by
        have := abs_eq_zero.1 (le_antisymm ha (abs_nonneg _))
        linarith
      have : s = 0 := hinj hs ⟨le_refl _, hS⟩ (by rw [hse, this])
      rw [this]
    · rw [if_neg ha]
      by_cases hb : |tau S - g| ≤ 0
      · rw [if_pos hb]
        have : tau S = g := by
          have := abs_eq_zero.1 (le_antisymm hb (abs_nonneg _))
          linarith
        have : s = S := hinj hs ⟨hS, le_refl _⟩ (by rw [hse, this])
        rw [this]
      · rw [if_neg hb]
        have hc : ¬ ((tau 0 - g) * (tau S - g) > 0) := by
          push Not
          exact mul_nonpos_of_nonpos_of_nonneg (by linarith) (by linarith)
        rw [if_neg hc]
        constructor
        · rintro ⟨s', hs', he, ho⟩
          rw [uIcc_of_le hS] at hs'
          have : s' = s := hinj hs' hs (by rw [he, hse])
          rw [ho, this]
        · intro ho
          exact ⟨s, by rw [uIcc_of_le hS]; exact hs, hse, ho⟩

/-- C73: a time outside the integrated interval is an error, not an extrapolation. -/
theorem C73_rows_outside (i : In) (l tau : ℝ → ℝ) (S t : ℝ) (hv : Valid i) (h : IsSol l tau (l0 i) 0 S)
    (ht : t < i.time ∨ tau S * tScale i + i.time < t) (out : Except Err (ℝ × ℝ)) : Dense i l tau S 0 t out ↔ out = .error .value := by
  have hts := tScale_pos hv
  have hS := h.hi0
  have hmono : tau 0 ≤ tau S := h.tau_mono h.zero_mem ⟨hS, le_refl _⟩ hS
  set g := (t - i.time) / tScale i with hg
  have hcase : g < tau 0 ∨ tau S < g := by
    rcases ht with h1 | h1
    · left
      rw [h.tau_start, hg]
      exact div_neg_of_neg_of_pos (by linarith) hts
    · right
      rw [hg, lt_div_iff₀ hts]
      linarith
  unfold Dense
  dsimp only
  rw [← hg]
  have ha : ¬ (|tau 0 - g| ≤ 0) := by
    intro hc
    have := abs_eq_zero.1 (le_antisymm hc (abs_nonneg _))
    rcases hcase with h1 | h1 <;> linarith
  have hb : ¬ (|tau S - g| ≤ 0) := by
    intro hc
    have := abs_eq_zero.1 (le_antisymm hc (abs_nonneg _))
    rcases hcase with h1 | h1 <;> linarith
  have hc : (tau 0 - g) * (tau S - g) > 0 := by
    rcases hcase with h1 | h1
    · exact mul_pos (by linarith) (by linarith)
    · exact mul_pos_of_neg_of_neg (by linarith) (by linarith)
  rw [if_neg ha, if_neg hb, if_pos hc]

/-! ### Disagreements -/

/-- C73, not true of the code: a failed integration does not mark the binary as failed. When the integrator reports failure (status -1) the
step returns normally and leaves the binary as it was, with its state, event and time, so that the same step is chosen again
(the inherited `solve_ODEs` raises `NumericalError` and sets the binary to failed). -/
theorem C73_failure_ignored_violated (i : In) (l tau : ℝ → ℝ) (r1 r2 : ℝ) (hr1 : coRadius i.m1 i.k1 = .ok r1)
    (hr2 : coRadius i.m2 i.k2 = .ok r2) (ht : i.time < i.maxTime) :
    step i l tau .failed = .ok { b := .kept, e := .kept, time := i.time, sep := i.sep, ecc := i.ecc, period := none } := by
  have h : ¬ ¬ (i.maxTime - i.time > 0) := by push Not; linarith
  unfold step
  rw [if_neg h, hr1]
  dsimp only
  rw [hr2]

/-- C73, not true of the code: time never runs backwards. When the two bodies already overlap at the start of the step (the separation is
below the sum of the radii), the integration interval is reversed: the step reports contact at a time before the current one, with a
separation larger than the current one. -/
theorem C73_time_backwards_violated (i : In) (l tau : ℝ → ℝ) (r1 r2 : ℝ) (o : Out) (hv : Valid i) (hr1 : coRadius i.m1 i.k1 = .ok r1)
    (hr2 : coRadius i.m2 i.k2 = .ok r2) (ht : i.time < i.maxTime) (hr : i.sep < r1 + r2)
    (h : IsSol l tau (l0 i) (sContact i r1 r2) 0) (ho : step i l tau .finished = .ok o) :
    Runs tau (sContact i r1 r2) (tauMax i) .finished ∧ o.b = .contact ∧ o.time < i.time ∧ i.sep < o.sep := by
  have hp1 := coRadius_pos hr1
  have hp2 := coRadius_pos hr2
  have hcs := contact_sep i hv.sep hp1 hp2
  rw [(step_of_radii hr1 hr2 ht l tau).1] at ho
  obtain rfl := Except.ok.inj ho
  have hS : sContact i r1 r2 < 0 := by
    by_contra hc
    push Not at hc
    have : exp (-sContact i r1 r2) ≤ 1 := Real.exp_le_one_iff.2 (by linarith)
    nlinarith [hv.sep]
  have hts := tScale_pos hv
  refine ⟨?_, rfl, ?_, ?_⟩
  · intro s hs
    linarith [hs.1, hs.2]
  · dsimp only
    -- near the start the orbit is still bound
    have hc : ContinuousWithinAt l (Icc (sContact i r1 r2) 0) 0 := h.l_cont 0 h.zero_mem
    have hl0 := l0_neg hv.ecc1
    have hev : ∀ᶠ x in nhdsWithin 0 (Icc (sContact i r1 r2) 0), l x < 0 := by
      have := hc.eventually_lt_const (u := 0) (by rw [h.l_start]; exact hl0)
      exact this
    rw [eventually_nhdsWithin_iff, Metric.eventually_nhds_iff] at hev
    obtain ⟨d, hd, hev⟩ := hev
    set lo := max (sContact i r1 r2) (-(d / 2)) with hlo
    have hlo1 : sContact i r1 r2 ≤ lo := le_max_left _ _
    have hlo0 : lo < 0 := max_lt hS (by linarith)
    have hlod : -(d / 2) ≤ lo := le_max_right _ _
    have h' := h.sub hlo1 hlo0.le (le_refl 0) (le_refl 0)
    have hneg : ∀ x ∈ Icc lo 0, l x < 0 := by
      intro x hx
      refine hev ?_ ⟨hlo1.trans hx.1, hx.2⟩
      rw [Real.dist_eq, sub_zero, abs_of_nonpos hx.2]
      linarith [hx.1]
    have h1 := h'.strictMono hneg ⟨le_refl _, hlo0.le⟩ ⟨hlo0.le, le_refl _⟩ hlo0
    have h2 := h.tau_mono ⟨le_refl _, hS.le⟩ ⟨hlo1, hlo0.le⟩ hlo1
    rw [h.tau_start] at h1
    have : tau (sContact i r1 r2) * tScale i < 0 := mul_neg_of_neg_of_pos (by linarith) hts
    linarith
  · dsimp only
    rw [hcs]
    exact hr

/-! ### Examples -/

/-- Two neutron stars of 1.4 solar masses in an eccentric orbit of two solar radii. -/
def ex : In := { time := 1e7, maxTime := 13.8e9, sep := 2, ecc := 1 / 2, m1 := 1.4, m2 := 1.4, k1 := .ns, k2 := .ns }

theorem ex_valid : Valid ex := ⟨by norm_num [ex], by norm_num [ex], by norm_num [ex], by norm_num [ex], by norm_num [ex]⟩

theorem ex_radius : coRadius ex.m1 ex.k1 = .ok (12.5e5 / Rsun) ∧ coRadius ex.m2 ex.k2 = .ok (12.5e5 / Rsun) := by
  constructor <;> · unfold coRadius ex; norm_num

/-- The hypotheses of the theorems above hold for it: there is a solution and an outcome. -/
example : ∃ l tau r, IsSol l tau (l0 ex) 0 (sContact ex (12.5e5 / Rsun) (12.5e5 / Rsun)) ∧
    Runs tau (sContact ex (12.5e5 / Rsun) (12.5e5 / Rsun)) (tauMax ex) r ∧ r ≠ .raised ∧ r ≠ .failed :=
  C73_outcome_exists ex _ _ ex_valid ex_radius.1 ex_radius.2 (by norm_num [ex]) (by norm_num [ex, Rsun])

/-- Two white dwarfs of one solar mass, a hundredth of a solar radius apart by half: they overlap, and a solution exists. -/
def exTouch : In := { ex with sep := 1 / 1000, m1 := 1, m2 := 1, k1 := .wd, k2 := .wd }

example : ∃ l tau, IsSol l tau (l0 exTouch) (sContact exTouch (2.9e8 / Rsun) (2.9e8 / Rsun)) 0 ∧
    coRadius exTouch.m1 exTouch.k1 = .ok (2.9e8 / Rsun) ∧ exTouch.sep < 2.9e8 / Rsun + 2.9e8 / Rsun := by
  have hr : exTouch.sep < 2.9e8 / Rsun + 2.9e8 / Rsun := by norm_num [exTouch, ex, Rsun]
  have hs : 0 < exTouch.sep := by norm_num [exTouch, ex]
  have hp : (0 : ℝ) < 2.9e8 / Rsun := by norm_num [Rsun]
  have hS : sContact exTouch (2.9e8 / Rsun) (2.9e8 / Rsun) ≤ 0 := by
    by_contra hc
    push Not at hc
    have h1 := contact_sep exTouch hs hp hp
    have : exp (-sContact exTouch (2.9e8 / Rsun) (2.9e8 / Rsun)) ≤ 1 := Real.exp_le_one_iff.2 (by linarith)
    nlinarith
  obtain ⟨l, tau, h⟩ := exists_sol (start := l0 exTouch) (l0_neg (by norm_num [exTouch, ex])) _ 0 hS (le_refl _)
  refine ⟨l, tau, h, ?_, hr⟩
  unfold coRadius exTouch ex
  norm_num

end
end Verif.DoubleCO
