import Verif.CE
import Verif.FlowChartProps
/-!
C36: the common-envelope step.
-/
namespace Verif.CE
open Verif.FlowChart (BState Ev starPostMS starPostHeMS starCO starHRich starHeRich)
open Verif.Orbit (cgrav Msun Rsun)

noncomputable section
open Classical

theorem cgrav_pos : 0 < cgrav := by unfold cgrav; norm_num
theorem Msun_pos : 0 < Msun := by unfold Msun; norm_num
theorem Rsun_pos : 0 < Rsun := by unfold Rsun; norm_num

/-! ### Energy balance -/

theorem eorb_newton (m1 m2 a : ℝ) : eorb m1 m2 a = newton m1 m2 a := by
  unfold eorb newton
  by_cases ha : a = 0
  · simp [ha]
  · field_simp
    ring

theorem newton_neg {m1 m2 a : ℝ} (h1 : 0 < m1) (h2 : 0 < m2) (ha : 0 < a) : newton m1 m2 a < 0 := by
  unfold newton
  have := cgrav_pos
  have := Msun_pos
  rw [neg_div]
  have : 0 < cgrav * (m1 * Msun) * (m2 * Msun) / (2 * a) := by positivity
  linarith

theorem bind_nonpos {lam : Option ℝ} {m mc r : ℝ} (hl : ∀ l, lam = some l → 0 < l) (hm : 0 < m) (hmc : mc ≤ m) (hr : 0 < r) : bind lam m mc r ≤ 0 := by
  unfold bind
  cases lam with
  | none => exact le_refl _
  | some l =>
    have hl := hl l rfl
    have h1 := cgrav_pos
    have h2 := Msun_pos
    have h3 := Rsun_pos
    have h4 : 0 ≤ m - mc := by linarith
    have h5 : 0 ≤ cgrav / l * (m * Msun * (m - mc) * Msun) / (r * Rsun) := by positivity
    simp only
    have : -cgrav / l * (m * Msun * (m - mc) * Msun) / (r * Rsun) = -(cgrav / l * (m * Msun * (m - mc) * Msun) / (r * Rsun)) := by ring
    linarith

theorem bind_unbind (l m mc r : ℝ) : bind (some l) m mc r = -unbind l m mc r := by
  unfold bind unbind
  simp only
  rw [div_mul_eq_mul_div, div_div]
  ring

/-- What a user expects of the inputs of an energy balance: positive masses and radii, cores not heavier than the stars. -/
structure Physical (cfg : Cfg) (b : Binary) (donor comp : Star) (l1 l2 : Lam) (double : Bool) : Prop where
  alpha : 0 < cfg.alpha
  per : 0 < b.per
  m1 : 0 < donor.mass
  m2 : 0 < comp.mass
  mc1 : 0 < l1.mc
  mc2 : 0 < l2.mc
  le1 : l1.mc ≤ donor.mass
  le2 : l2.mc ≤ comp.mass
  r1 : 0 < donor.R
  r2 : double = true → 0 < comp.R
  lam1 : ∀ l, l1.lam = some l → 0 < l
  lam2 : ∀ l, l2.lam = some l → 0 < l

theorem ebind_nonpos {cfg : Cfg} {b : Binary} {donor comp : Star} {l1 l2 : Lam} {double : Bool} (h : Physical cfg b donor comp l1 l2 double) :
    ebind donor comp l1 l2 double ≤ 0 := by
  unfold ebind
  have := bind_nonpos h.lam1 h.m1 h.le1 h.r1
  by_cases hd : double = true
  · rw [if_pos hd]
    have := bind_nonpos h.lam2 h.m2 h.le2 (h.r2 hd)
    linarith
  · rw [if_neg hd]
    linarith

theorem sepBefore_pos {cfg : Cfg} {b : Binary} {donor comp : Star} {l1 l2 : Lam} {double : Bool} (h : Physical cfg b donor comp l1 l2 double) :
    0 < sepBefore b.per donor.mass comp.mass := by
  have := h.m1
  have := h.m2
  exact mul_pos Rsun_pos (Orbit.sepFromPeriod_pos h.per (by linarith))

/-- The orbit after the fast phase is the one dictated by the energy balance: the orbital energy lost, times the efficiency, is the energy
needed to unbind the envelopes (the companion's only in a double common envelope, and none where the parameter is NaN). -/
theorem C36_energy_balance (cfg : Cfg) (b : Binary) (donor comp : Star) (l1 l2 : Lam) (double : Bool) (h : Physical cfg b donor comp l1 l2 double) :
    cfg.alpha * (newton donor.mass comp.mass (sepBefore b.per donor.mass comp.mass) - newton l1.mc l2.mc (sepAfter cfg b donor comp l1 l2 double)) =
      (match l1.lam with | some l => unbind l donor.mass l1.mc donor.R | none => 0) +
      (if double then (match l2.lam with | some l => unbind l comp.mass l2.mc comp.R | none => 0) else 0) := by
  have hs := sepBefore_pos h
  have he := newton_neg h.m1 h.m2 hs
  have hb := ebind_nonpos h
  have ha := h.alpha
  have hden : newton donor.mass comp.mass (sepBefore b.per donor.mass comp.mass) + ebind donor comp l1 l2 double / cfg.alpha < 0 := by
    have : ebind donor comp l1 l2 double / cfg.alpha ≤ 0 := div_nonpos_of_nonpos_of_nonneg hb ha.le
    linarith
  have hpost : newton l1.mc l2.mc (sepAfter cfg b donor comp l1 l2 double) =
      newton donor.mass comp.mass (sepBefore b.per donor.mass comp.mass) + ebind donor comp l1 l2 double / cfg.alpha := by
    unfold sepAfter sepPost
    rw [eorb_newton]
    generalize newton donor.mass comp.mass (sepBefore b.per donor.mass comp.mass) + ebind donor comp l1 l2 double / cfg.alpha = x at hden ⊢
    unfold newton
    have hx : x ≠ 0 := hden.ne
    have h1 := cgrav_pos.ne'
    have h2 := Msun_pos.ne'
    have h3 := h.mc1.ne'
    have h4 := h.mc2.ne'
    field_simp
    norm_num
  rw [hpost]
  have e1 : cfg.alpha * (newton donor.mass comp.mass (sepBefore b.per donor.mass comp.mass) -
      (newton donor.mass comp.mass (sepBefore b.per donor.mass comp.mass) + ebind donor comp l1 l2 double / cfg.alpha)) = -ebind donor comp l1 l2 double := by
    field_simp
    ring
  rw [e1]
  unfold ebind
  cases h1 : l1.lam with
  | none =>
    cases double with
    | false => simp [bind]
    | true =>
      cases h2 : l2.lam with
      | none => simp [bind]
      | some l => simp [bind_unbind]; simp [bind]
  | some k =>
    cases double with
    | false => simp [bind_unbind]
    | true =>
      cases h2 : l2.lam with
      | none => simp [bind_unbind]; simp [bind]
      | some l => simp [bind_unbind]; ring

/-- The fast phase shrinks the orbit, strictly if a core is lighter than its star, and leaves a positive separation; so the check for
negative separations never fires. -/
theorem C36_orbit_shrinks (cfg : Cfg) (b : Binary) (donor comp : Star) (l1 l2 : Lam) (double : Bool) (h : Physical cfg b donor comp l1 l2 double) :
    0 < sepAfter cfg b donor comp l1 l2 double ∧
    sepAfter cfg b donor comp l1 l2 double ≤ l1.mc * l2.mc / (donor.mass * comp.mass) * sepBefore b.per donor.mass comp.mass ∧
    sepAfter cfg b donor comp l1 l2 double ≤ sepBefore b.per donor.mass comp.mass ∧
    (l1.mc < donor.mass → sepAfter cfg b donor comp l1 l2 double < sepBefore b.per donor.mass comp.mass) := by
  have hs := sepBefore_pos h
  have he := newton_neg h.m1 h.m2 hs
  have hb := ebind_nonpos h
  have ha := h.alpha
  have hm1 := h.m1
  have hm2 := h.m2
  have hc1 := h.mc1
  have hc2 := h.mc2
  have hG := cgrav_pos
  have hM := Msun_pos
  have hba : ebind donor comp l1 l2 double / cfg.alpha ≤ 0 := div_nonpos_of_nonpos_of_nonneg hb ha.le
  have key : sepAfter cfg b donor comp l1 l2 double =
      0.5 * cgrav * l1.mc * Msun * l2.mc * Msun /
        (-newton donor.mass comp.mass (sepBefore b.per donor.mass comp.mass) - ebind donor comp l1 l2 double / cfg.alpha) := by
    unfold sepAfter sepPost
    rw [eorb_newton, ← neg_div_neg_eq]
    congr 1 <;> ring
  have hpos : 0 < sepAfter cfg b donor comp l1 l2 double := by
    rw [key]
    apply div_pos
    · positivity
    · linarith
  have hle : sepAfter cfg b donor comp l1 l2 double ≤ l1.mc * l2.mc / (donor.mass * comp.mass) * sepBefore b.per donor.mass comp.mass := by
    rw [key]
    have e : l1.mc * l2.mc / (donor.mass * comp.mass) * sepBefore b.per donor.mass comp.mass =
        0.5 * cgrav * l1.mc * Msun * l2.mc * Msun / (-newton donor.mass comp.mass (sepBefore b.per donor.mass comp.mass)) := by
      unfold newton
      have := hs.ne'
      have := hm1.ne'
      have := hm2.ne'
      have := hG.ne'
      have := hM.ne'
      field_simp
      norm_num
    rw [e]
    apply div_le_div_of_nonneg_left
    · positivity
    · linarith
    · linarith
  have hq : l1.mc * l2.mc / (donor.mass * comp.mass) ≤ 1 := by
    rw [div_le_one (by positivity)]
    exact mul_le_mul h.le1 h.le2 hc2.le hm1.le
  refine ⟨hpos, hle, ?_, ?_⟩
  · calc _ ≤ _ := hle
      _ ≤ 1 * sepBefore b.per donor.mass comp.mass := mul_le_mul_of_nonneg_right hq hs.le
      _ = _ := one_mul _
  · intro hlt
    have hq' : l1.mc * l2.mc / (donor.mass * comp.mass) < 1 := by
      rw [div_lt_one (by positivity)]
      exact mul_lt_mul hlt h.le2 hc2 hm1.le
    calc _ ≤ _ := hle
      _ < 1 * sepBefore b.per donor.mass comp.mass := mul_lt_mul_of_pos_right hq' hs
      _ = _ := one_mul _

/-! ### Cores -/

theorem postCores_le {donor comp : Star} {mc1 mc2 rc2 : ℝ} {ty1 ty2 : CoreType} {double : Bool} {c : Cores}
    (h : postCores donor mc1 ty1 comp mc2 rc2 ty2 double = .ok c) : c.m1 ≤ mc1 ∧ c.m2 ≤ mc2 := by
  unfold postCores at h
  cases hv : coreValues donor ty1 with
  | error e => rw [hv] at h; simp at h
  | ok v =>
    rw [hv] at h
    obtain rfl := Except.ok.inj h
    refine ⟨min_le_right _ _, ?_⟩
    cases double with
    | false => simp
    | true =>
      cases ty2 <;> simp [compCore]

theorem windloss_le {cfg : Cfg} {donor comp : Star} {mc1 mc2 rc2 a : ℝ} {ty1 ty2 : CoreType} {double : Bool} {p : Phase}
    (h : windloss cfg donor mc1 ty1 comp mc2 rc2 ty2 double a = .ok p) : p.c.m1 ≤ mc1 ∧ p.c.m2 ≤ mc2 := by
  unfold windloss at h
  cases hc : postCores donor mc1 ty1 comp mc2 rc2 ty2 double with
  | error e => rw [hc] at h; simp at h
  | ok c =>
    rw [hc] at h
    simp only at h
    by_cases hr : Orbit.checkRLO mc1 c.r1 mc2 c.r2 a cfg.tol = true
    · rw [if_pos hr] at h
      obtain rfl := Except.ok.inj h
      exact ⟨le_refl _, le_refl _⟩
    · rw [if_neg hr] at h
      cases hp : windPeriod (Orbit.periodFromSep a mc1 mc2) mc1 c.m1 mc2 c.m2 double with
      | error e => rw [hp] at h; simp at h
      | ok q =>
        rw [hp] at h
        obtain rfl := Except.ok.inj h
        exact postCores_le hc

/-- Neither core grows in any of the options. -/
theorem C36_cores_never_grow (cfg : Cfg) (donor comp : Star) (l1 l2 : Lam) (rc2 : ℝ) (double : Bool) (a : ℝ) (p : Phase)
    (h : phase cfg donor comp l1 l2 rc2 double a = .ok p) : p.c.m1 ≤ l1.mc ∧ p.c.m2 ≤ l2.mc := by
  unfold phase at h
  cases ha : cfg.after with
  | onePhase =>
    rw [ha] at h
    obtain rfl := Except.ok.inj h
    exact ⟨le_refl _, le_refl _⟩
  | stableMT =>
    rw [ha] at h
    simp only [stableMT] at h
    cases double with
    | true => exact windloss_le h
    | false =>
      simp only [Bool.false_eq_true, if_false] at h
      cases hc : postCores donor l1.mc l1.ty comp l2.mc rc2 l2.ty false with
      | error e => rw [hc] at h; simp at h
      | ok c =>
        rw [hc] at h
        simp only at h
        by_cases hr : Orbit.checkRLO l1.mc c.r1 l2.mc c.r2 a cfg.tol = true
        · rw [if_pos hr] at h
          obtain rfl := Except.ok.inj h
          exact ⟨le_refl _, le_refl _⟩
        · rw [if_neg hr] at h
          cases hp : liftOrbit (Orbit.periodMT (Orbit.periodFromSep a l1.mc l2.mc) l1.mc c.m1 l2.mc 0 1) with
          | error e => rw [hp] at h; simp at h
          | ok q =>
            rw [hp] at h
            obtain rfl := Except.ok.inj h
            exact postCores_le hc
  | windloss =>
    rw [ha] at h
    exact windloss_le h
  | invalid => rw [ha] at h; simp at h

/-- In a double common envelope with one of the two-phase options the companion is given the donor's core radius, whatever its own is;
this radius also enters the check for a merger. -/
theorem C36_companion_radius_violated (cfg : Cfg) (donor comp : Star) (l1 l2 : Lam) (rc2 a : ℝ) (p : Phase)
    (h : phase cfg donor comp l1 l2 rc2 true a = .ok p) (ha : cfg.after = .stableMT ∨ cfg.after = .windloss) :
    (l2.ty = .he → p.c.r2 = donor.heR.getD 0) ∧ (l2.ty = .co → p.c.r2 = donor.coR.getD 0) := by
  have hw : windloss cfg donor l1.mc l1.ty comp l2.mc rc2 l2.ty true a = .ok p := by
    unfold phase at h
    rcases ha with ha | ha <;> rw [ha] at h <;> exact h
  unfold windloss at hw
  cases hc : postCores donor l1.mc l1.ty comp l2.mc rc2 l2.ty true with
  | error e => rw [hc] at hw; simp at hw
  | ok c =>
    rw [hc] at hw
    simp only at hw
    have hr2 : p.c.r2 = c.r2 := by
      by_cases hr : Orbit.checkRLO l1.mc c.r1 l2.mc c.r2 a cfg.tol = true
      · rw [if_pos hr] at hw
        obtain rfl := Except.ok.inj hw
        rfl
      · rw [if_neg hr] at hw
        cases hp : windPeriod (Orbit.periodFromSep a l1.mc l2.mc) l1.mc c.m1 l2.mc c.m2 true with
        | error e => rw [hp] at hw; simp at hw
        | ok q =>
          rw [hp] at hw
          obtain rfl := Except.ok.inj hw
          rfl
    have hc2 : c.r2 = (compCore donor comp l2.mc l2.ty).2 := by
      unfold postCores at hc
      cases hv : coreValues donor l1.ty with
      | error e => rw [hv] at hc; simp at hc
      | ok v =>
        rw [hv] at hc
        obtain rfl := Except.ok.inj hc
        rfl
    rw [hr2, hc2]
    constructor <;> intro ht <;> rw [ht] <;> rfl

/-- The donor is given its own core radius in every option: the one used for the energy balance, or that of its helium or
carbon-oxygen core. -/
theorem C36_donor_radius (cfg : Cfg) (donor comp : Star) (l1 l2 : Lam) (rc2 : ℝ) (double : Bool) (a : ℝ) (p : Phase)
    (h : phase cfg donor comp l1 l2 rc2 double a = .ok p) :
    (cfg.after = .onePhase → p.c.r1 = l1.rc) ∧ (cfg.after ≠ .onePhase → l1.ty = .he → p.c.r1 = donor.heR.getD 0) ∧
      (cfg.after ≠ .onePhase → l1.ty = .co → p.c.r1 = donor.coR.getD 0) ∧ (double = false → p.c.r2 = rc2 ∧ p.c.m2 = l2.mc) := by
  have hpc : ∀ c, postCores donor l1.mc l1.ty comp l2.mc rc2 l2.ty double = .ok c →
      (l1.ty = .he → c.r1 = donor.heR.getD 0) ∧ (l1.ty = .co → c.r1 = donor.coR.getD 0) ∧ (double = false → c.r2 = rc2 ∧ c.m2 = l2.mc) := by
    intro c hc
    unfold postCores at hc
    cases ht : l1.ty with
    | notGiant => rw [ht] at hc; simp [coreValues] at hc
    | he =>
      rw [ht] at hc
      obtain rfl := Except.ok.inj hc
      exact ⟨fun _ => rfl, fun hx => by simp at hx, fun hd => by subst hd; exact ⟨rfl, rfl⟩⟩
    | co =>
      rw [ht] at hc
      obtain rfl := Except.ok.inj hc
      exact ⟨fun hx => by simp at hx, fun _ => rfl, fun hd => by subst hd; exact ⟨rfl, rfl⟩⟩
  have hwind : windloss cfg donor l1.mc l1.ty comp l2.mc rc2 l2.ty double a = .ok p →
      (l1.ty = .he → p.c.r1 = donor.heR.getD 0) ∧ (l1.ty = .co → p.c.r1 = donor.coR.getD 0) ∧ (double = false → p.c.r2 = rc2 ∧ p.c.m2 = l2.mc) := by
    intro hw
    unfold windloss at hw
    cases hc : postCores donor l1.mc l1.ty comp l2.mc rc2 l2.ty double with
    | error e => rw [hc] at hw; simp at hw
    | ok c =>
      rw [hc] at hw
      simp only at hw
      by_cases hr : Orbit.checkRLO l1.mc c.r1 l2.mc c.r2 a cfg.tol = true
      · rw [if_pos hr] at hw
        obtain rfl := Except.ok.inj hw
        obtain ⟨x, y, z⟩ := hpc c hc
        exact ⟨x, y, fun hd => ⟨(z hd).1, rfl⟩⟩
      · rw [if_neg hr] at hw
        cases hp : windPeriod (Orbit.periodFromSep a l1.mc l2.mc) l1.mc c.m1 l2.mc c.m2 double with
        | error e => rw [hp] at hw; simp at hw
        | ok q =>
          rw [hp] at hw
          obtain rfl := Except.ok.inj hw
          exact hpc c hc
  unfold phase at h
  cases ha : cfg.after with
  | onePhase =>
    rw [ha] at h
    obtain rfl := Except.ok.inj h
    exact ⟨fun _ => rfl, fun hx => absurd rfl hx, fun hx => absurd rfl hx, fun _ => ⟨rfl, rfl⟩⟩
  | stableMT =>
    rw [ha] at h
    simp only [stableMT] at h
    cases double with
    | true =>
      obtain ⟨x, y, z⟩ := hwind h
      exact ⟨fun hx => by simp at hx, fun _ => x, fun _ => y, z⟩
    | false =>
      simp only [Bool.false_eq_true, if_false] at h
      cases hc : postCores donor l1.mc l1.ty comp l2.mc rc2 l2.ty false with
      | error e => rw [hc] at h; simp at h
      | ok c =>
        rw [hc] at h
        simp only at h
        obtain ⟨x, y, z⟩ := hpc c hc
        by_cases hr : Orbit.checkRLO l1.mc c.r1 l2.mc c.r2 a cfg.tol = true
        · rw [if_pos hr] at h
          obtain rfl := Except.ok.inj h
          exact ⟨fun hx => by simp at hx, fun _ => x, fun _ => y, fun hd => ⟨(z hd).1, rfl⟩⟩
        · rw [if_neg hr] at h
          cases hp : liftOrbit (Orbit.periodMT (Orbit.periodFromSep a l1.mc l2.mc) l1.mc c.m1 l2.mc 0 1) with
          | error e => rw [hp] at h; simp at h
          | ok q =>
            rw [hp] at h
            obtain rfl := Except.ok.inj h
            exact ⟨fun hx => by simp at hx, fun _ => x, fun _ => y, z⟩
  | windloss =>
    rw [ha] at h
    obtain ⟨x, y, z⟩ := hwind h
    exact ⟨fun hx => by simp at hx, fun _ => x, fun _ => y, z⟩
  | invalid => rw [ha] at h; simp at h

/-- Losing the remaining layers of one core in a wind widens the orbit as a fast isotropic wind does: `P (M1 + M2)^2` is conserved. -/
theorem C36_wind_period (p mc1i mc1f mc2 : ℝ) (hm : 0 < mc1f) (hle : mc1f ≤ mc1i) (h2 : 0 < mc2) :
    ∃ q, windPeriod p mc1i mc1f mc2 mc2 false = .ok q ∧ q * (mc1f + mc2) ^ 2 = p * (mc1i + mc2) ^ 2 := by
  have h1 : 0 < mc1i := by linarith
  refine ⟨p * ((mc1i + mc2) / (mc1f + mc2)) ^ 2, ?_, ?_⟩
  · unfold windPeriod Orbit.periodMT Orbit.maccFinal
    rw [if_neg (by linarith)]
    simp only
    rw [if_neg (by norm_num), if_pos (by norm_num)]
    simp [h2.ne']
  · have : mc1f + mc2 ≠ 0 := by linarith
    field_simp

/-! ### Outcome -/

/-- The donor's label in the events. -/
def mergingEv (one : Bool) : Ev := if one then .oMerging1 else .oMerging2
def collapseEv (one : Bool) : Ev := if one then .CC1 else .CC2

/-- What a common envelope leaves: a merged binary with the donor's merger event, or a circular detached orbit without event, except that
a donor that entered with exhausted helium core as a stripped star collapses. -/
def Outcome (one : Bool) (donor : Star) (b' : Binary) : Prop :=
  (b'.state = .merged ∧ b'.event = mergingEv one) ∨
  (b'.state = .detached ∧ b'.ecc = 0 ∧ b'.event = if donor.state = .sCoreHeDep then collapseEv one else .none)

theorem assemble_fields (one : Bool) (b : Binary) (d c : Star) :
    (assemble one b d c).state = b.state ∧ (assemble one b d c).event = b.event ∧ (assemble one b d c).sep = b.sep ∧
    (assemble one b d c).per = b.per ∧ (assemble one b d c).ecc = b.ecc ∧ (assemble one b d c).rest = b.rest ∧
    (if one then (assemble one b d c).star1 else (assemble one b d c).star2) = d ∧
    (if one then (assemble one b d c).star2 else (assemble one b d c).star1) = c := by
  cases one <;> simp [assemble]

theorem resolve_outcome {cfg : Cfg} {one : Bool} {b b' : Binary} {donor comp : Star} {l1 l2 : Lam} {rc2 : ℝ} {double : Bool} {p : Phase}
    (hm : mergeEvent b.event = mergingEv one) (h : resolve cfg one b donor comp l1 l2 rc2 double p = .ok b') : Outcome one donor b' := by
  have hmerge : ∀ e1 e2, Outcome one donor (merge one b donor comp l1.ty l2.ty e1 e2) := by
    intro e1 e2
    left
    unfold merge
    obtain ⟨x, y, -⟩ := assemble_fields one { b with state := .merged, event := mergeEvent b.event } (reduce l1.ty donor.mass e1 donor) (reduce l2.ty comp.mass e2 comp)
    exact ⟨x, y.trans hm⟩
  unfold resolve at h
  by_cases hp : p.merger = true
  · rw [if_pos hp] at h
    by_cases hl : cfg.massLoss = true
    · rw [if_pos hl] at h
      cases hx : massLost cfg donor comp l1 l2.mc rc2 (sepBefore b.per donor.mass comp.mass) double with
      | error e => rw [hx] at h; simp at h
      | ok v =>
        rw [hx] at h
        obtain rfl := Except.ok.inj h
        exact hmerge _ _
    · rw [if_neg hl] at h
      obtain rfl := Except.ok.inj h
      exact hmerge _ _
  · rw [if_neg hp] at h
    obtain rfl := Except.ok.inj h
    right
    unfold ejection
    simp only
    obtain ⟨x, y, -, -, z, -⟩ := assemble_fields one
      { b with sep := p.sep, per := p.per, ecc := 0, state := .detached, event := if donor.state = .sCoreHeDep then (if one then Ev.CC1 else Ev.CC2) else Ev.none, rest := wipe keptBinary b.rest }
      (stripped cfg l1.ty p.c.m1 p.c.r1 donor) (if double then stripped cfg l2.ty p.c.m2 p.c.r2 comp else comp)
    exact ⟨x, z, y⟩

theorem run_outcome {cfg : Cfg} {one double : Bool} {b b' : Binary} {donor comp : Star} (hm : mergeEvent b.event = mergingEv one)
    (h : run cfg one double b donor comp = .ok b') : Outcome one donor b' := by
  unfold run at h
  by_cases h1 : mergesAtOnce cfg donor = true
  · rw [if_pos h1] at h
    obtain rfl := Except.ok.inj h
    exact Or.inl ⟨rfl, rfl⟩
  rw [if_neg h1] at h
  by_cases h2 : cfg.alphaLambda = true
  · rw [if_pos h2] at h
    cases hl1 : lambdaCE cfg donor with
    | error e => rw [hl1] at h; simp at h
    | ok l1 =>
      rw [hl1] at h
      simp only at h
      cases hl2 : compLam cfg comp double with
      | error e => rw [hl2] at h; simp at h
      | ok l2 =>
        rw [hl2] at h
        simp only [simpleAlpha] at h
        by_cases hs : sepAfter cfg b donor comp l1 l2 double < -cfg.tol
        · rw [if_pos hs] at h; simp at h
        rw [if_neg hs] at h
        cases hc : companion cfg comp l1 l2 double (sepAfter cfg b donor comp l1 l2 double / Rsun) with
        | error e => rw [hc] at h; simp at h
        | ok v =>
          rw [hc] at h
          simp only at h
          cases hp : phase cfg donor v.1 l1 l2 v.2 double (sepAfter cfg b donor comp l1 l2 double / Rsun) with
          | error e => rw [hp] at h; simp at h
          | ok p =>
            rw [hp] at h
            exact resolve_outcome hm h
  · rw [if_neg h2] at h; simp at h

/-- Every common envelope that does not raise ends in one of the two outcomes, with the donor named by the event. -/
theorem C36_outcome (cfg : Cfg) (b b' : Binary) (h : step cfg b = .ok b') :
    ((b.event = .oCE1 ∨ b.event = .oDoubleCE1) ∧ Outcome true b.star1 b') ∨ ((b.event = .oCE2 ∨ b.event = .oDoubleCE2) ∧ Outcome false b.star2 b') := by
  unfold step at h
  cases he : b.event with
  | oCE1 => rw [he] at h; exact Or.inl ⟨Or.inl rfl, run_outcome (by rw [he]; rfl) h⟩
  | oDoubleCE1 => rw [he] at h; exact Or.inl ⟨Or.inr rfl, run_outcome (by rw [he]; rfl) h⟩
  | oCE2 => rw [he] at h; exact Or.inr ⟨Or.inl rfl, run_outcome (by rw [he]; rfl) h⟩
  | oDoubleCE2 => rw [he] at h; exact Or.inr ⟨Or.inr rfl, run_outcome (by rw [he]; rfl) h⟩
  | _ => rw [he] at h; simp at h

/-- Any other event is an error. -/
theorem C36_wrong_event (cfg : Cfg) (b : Binary) (h1 : b.event ≠ .oCE1) (h2 : b.event ≠ .oDoubleCE1) (h3 : b.event ≠ .oCE2)
    (h4 : b.event ≠ .oDoubleCE2) : step cfg b = .error .value := by
  unfold step
  cases he : b.event <;> simp_all

/-- A merger in the default flow chart is followed by the merger step. -/
theorem C36_merger_next (one : Bool) (s1 s2 : FlowChart.Star) (h : FlowChart.isDead s1 s2 = false) :
    FlowChart.defaultChart ⟨s1, s2, .merged, mergingEv one⟩ = some .merged := by
  rw [FlowChart.C01_routing]
  cases one <;> simp [FlowChart.routeSpec, h, mergingEv]

/-- Ejection: the orbit is the one of the last phase, the donor is reduced to its core, and in a single common envelope the companion
is left as it was. -/
theorem C36_ejection (cfg : Cfg) (one : Bool) (b b' : Binary) (donor comp : Star) (l1 l2 : Lam) (rc2 : ℝ) (double : Bool) (p : Phase)
    (hp : p.merger = false) (h : resolve cfg one b donor comp l1 l2 rc2 double p = .ok b') :
    b'.sep = p.sep ∧ b'.per = p.per ∧ (if one then b'.star1 else b'.star2) = stripped cfg l1.ty p.c.m1 p.c.r1 donor ∧
    (stripped cfg l1.ty p.c.m1 p.c.r1 donor).mass = p.c.m1 ∧ (stripped cfg l1.ty p.c.m1 p.c.r1 donor).radius = some p.c.r1 ∧
    (double = false → (if one then b'.star2 else b'.star1) = comp) ∧
    (double = true → (if one then b'.star2 else b'.star1).mass = p.c.m2 ∧ (if one then b'.star2 else b'.star1).radius = some p.c.r2) := by
  have hst : ∀ ty m r s, (stripped cfg ty m r s).mass = m ∧ (stripped cfg ty m r s).radius = some r := by
    intro ty m r s
    cases ty <;> simp [stripped, strip]
  unfold resolve at h
  rw [if_neg (by simp [hp])] at h
  obtain rfl := Except.ok.inj h
  unfold ejection
  simp only
  obtain ⟨-, -, x, y, -, -, z, w⟩ := assemble_fields one
      { b with sep := p.sep, per := p.per, ecc := 0, state := .detached, event := if donor.state = .sCoreHeDep then (if one then Ev.CC1 else Ev.CC2) else Ev.none, rest := wipe keptBinary b.rest }
      (stripped cfg l1.ty p.c.m1 p.c.r1 donor) (if double then stripped cfg l2.ty p.c.m2 p.c.r2 comp else comp)
  refine ⟨x, y, z, (hst _ _ _ _).1, (hst _ _ _ _).2, ?_, ?_⟩
  · intro hd
    rw [w, if_neg (by simp [hd])]
  · intro hd
    rw [w, if_pos hd]
    exact hst _ _ _ _

/-- A merger without partial ejection keeps the masses of both stars. -/
theorem C36_merger_masses (cfg : Cfg) (one : Bool) (b b' : Binary) (donor comp : Star) (l1 l2 : Lam) (rc2 : ℝ) (double : Bool) (p : Phase)
    (hp : p.merger = true) (hl : cfg.massLoss = false) (h : resolve cfg one b donor comp l1 l2 rc2 double p = .ok b') :
    (if one then b'.star1 else b'.star2).mass = donor.mass ∧ (if one then b'.star2 else b'.star1).mass = comp.mass ∧
      (if one then b'.star1 else b'.star2).state = donor.state ∧ (if one then b'.star2 else b'.star1).state = comp.state := by
  have hr : ∀ ty s, (reduce ty s.mass 0 s).mass = s.mass ∧ (reduce ty s.mass 0 s).state = s.state := by
    intro ty s
    cases ty <;> simp [reduce]
  unfold resolve at h
  rw [if_pos hp, if_neg (by simp [hl])] at h
  obtain rfl := Except.ok.inj h
  unfold merge
  obtain ⟨-, -, -, -, -, -, z, w⟩ := assemble_fields one { b with state := .merged, event := mergeEvent b.event } (reduce l1.ty donor.mass 0 donor) (reduce l2.ty comp.mass 0 comp)
  rw [z, w]
  exact ⟨(hr _ _).1, (hr _ _).1, (hr _ _).2, (hr _ _).2⟩

/-! ### Mass ejected in a merger -/

/-- The option `mass_loss_during_CEE_merged` cannot be used with a single common envelope whose donor has a profile: the merger always
stops with an UnboundLocalError. -/
theorem C36_partial_ejection_raises_violated (cfg : Cfg) (one : Bool) (b : Binary) (donor comp : Star) (l1 l2 : Lam) (rc2 : ℝ) (p : Phase)
    (hp : p.merger = true) (hl : cfg.massLoss = true) (hprof : donor.hasProfile = true) :
    resolve cfg one b donor comp l1 l2 rc2 false p = .error .unbound := by
  unfold resolve massLost
  simp [hp, hl, hprof]

/-- In a double common envelope the ejected masses can be negative: an envelope lighter than 0.01 is "reduced" to that remainder. -/
theorem C36_ejected_negative_violated : clampEj 1 0.005 < 0 := by
  unfold clampEj
  norm_num

/-- Otherwise they are between zero and the envelope. -/
theorem C36_ejected_bounds_partial (cfg : Cfg) (donor comp : Star) (l1 : Lam) (mc2 rc2 sepi : ℝ) (double : Bool) (e1 e2 : ℝ)
    (hej : ∀ s x m r, 0 ≤ cfg.ejected s x m r) (h1 : 0.01 ≤ donor.mass - l1.mc) (h2 : double = true → 0.01 ≤ comp.mass - mc2)
    (h2' : mc2 ≤ comp.mass)
    (h : massLost cfg donor comp l1 mc2 rc2 sepi double = .ok (e1, e2)) :
    0 ≤ e1 ∧ e1 ≤ donor.mass - l1.mc ∧ 0 ≤ e2 ∧ e2 ≤ comp.mass - mc2 := by
  have hcl : ∀ ej env : ℝ, 0 ≤ ej → 0.01 ≤ env → 0 ≤ clampEj ej env ∧ clampEj ej env ≤ env := by
    intro ej env ha hb
    unfold clampEj
    split_ifs <;> constructor <;> linarith
  unfold massLost at h
  by_cases c1 : double = false ∧ donor.hasProfile = false
  · rw [if_pos c1] at h
    simp at h
    obtain ⟨rfl, rfl⟩ := h
    refine ⟨le_refl _, by linarith, le_refl _, by linarith⟩
  rw [if_neg c1] at h
  by_cases c2 : double = true ∧ (donor.hasProfile = false ∨ comp.hasProfile = false)
  · rw [if_pos c2] at h
    simp at h
    obtain ⟨rfl, rfl⟩ := h
    refine ⟨le_refl _, by linarith, le_refl _, by linarith⟩
  rw [if_neg c2] at h
  simp only at h
  by_cases c3 : double = false
  · rw [if_pos c3] at h; simp at h
  rw [if_neg c3] at h
  by_cases c4 : donor.mass - l1.mc + (comp.mass - mc2) = 0
  · rw [if_pos c4] at h; simp at h
  rw [if_neg c4] at h
  have h2 := h2 (by simpa using c3)
  have e := Except.ok.inj h
  rw [Prod.mk.injEq] at e
  obtain ⟨rfl, rfl⟩ := e
  obtain ⟨a1, a2⟩ := hcl _ _ (hej donor _ l1.mc l1.rc) h1
  obtain ⟨a3, a4⟩ := hcl _ _ (hej comp _ mc2 rc2) h2
  exact ⟨a1, a2, a3, a4⟩

/-! ### Donors the step does not know -/

/-- Four kinds of stars are sent to the step by the flow chart but are not recognised as donors: the step raises. -/
theorem C36_unknown_donor_violated (cfg : Cfg) (one double : Bool) (b : Binary) (donor comp : Star)
    (h : donor.state = .aCoreH ∨ donor.state = .aShellH ∨ donor.state = .hShellHe ∨ donor.state = .hCoreC) :
    run cfg one double b donor comp = .error .value ∧
      ∀ s, FlowChart.defaultChart ⟨donor.state, s, .RLO1, .oCE1⟩ = some .CE := by
  constructor
  · have hm : mergesAtOnce cfg donor = false := by
      unfold mergesAtOnce
      rcases h with h | h | h | h <;> rw [h] <;> cases cfg.pessimistic <;> rfl
    have hl : lambdaCE cfg donor = .error .value := by
      unfold lambdaCE coreType
      rcases h with h | h | h | h <;> rw [h] <;> rfl
    unfold run
    rw [if_neg (by simp [hm]), hl]
    split_ifs <;> rfl
  · intro s
    rw [FlowChart.C01_routing]
    rcases h with h | h | h | h <;> rw [h] <;> cases s <;> decide

/-- Every other star that still evolves is recognised, if the core definitions of the configuration are among the tabulated ones. -/
theorem C36_known_donor_partial (cfg : Cfg) (s : Star) (hH : cfg.coreH = 0.01 ∨ cfg.coreH = 0.1 ∨ cfg.coreH = 0.3) (hHe : cfg.coreHe = 0.1)
    (hn : FlowChart.isNormal s.state = true) (h1 : s.state ≠ .aCoreH) (h2 : s.state ≠ .aShellH) (h3 : s.state ≠ .hShellHe) (h4 : s.state ≠ .hCoreC) :
    ∃ l, (cfg.lamOpt = .default ∨ cfg.lamOpt = .grid) → lambdaCE cfg s = .ok l ∧ l.ty ≠ .notGiant ∧
      (l.ty = .he ↔ starPostMS.contains s.state = true) := by
  have hmem : starPostMS.contains s.state = true ∨ (starPostMS.contains s.state = false ∧ starPostHeMS.contains s.state = true) := by
    revert hn h1 h2 h3 h4
    cases s.state <;> decide
  rcases hmem with hm | ⟨hm, hm'⟩
  · have hc : coreType cfg s = .ok (.he, cfg.coreH) := by
      unfold coreType
      rw [if_pos hm, if_pos hH]
    have hg : ∃ f, gridFrac cfg.coreH .he = .ok f := by
      unfold gridFrac
      rcases hH with e | e | e <;> rw [e]
      · exact ⟨.h1, if_pos rfl⟩
      · exact ⟨.h10, by simp only; rw [if_neg (by norm_num)]; simp⟩
      · exact ⟨.h30, by simp only; rw [if_neg (by norm_num), if_neg (by norm_num)]; simp⟩
    obtain ⟨f, hf⟩ := hg
    refine ⟨if cfg.lamOpt = .default then ⟨some cfg.lambdaDefault, s.heM, s.heR.getD 0, .he⟩ else ⟨s.lam f, s.mcore f, s.rcore f, .he⟩, fun hl => ?_⟩
    unfold lambdaCE
    rw [hc]
    simp only [lamValues]
    rcases hl with hl | hl
    · rw [if_pos hl, if_pos hl]
      exact ⟨rfl, by simp, ⟨fun _ => hm, fun _ => rfl⟩⟩
    · rw [if_neg (by simp [hl]), if_pos hl, if_neg (by simp [hl]), hf]
      exact ⟨rfl, by simp, ⟨fun _ => hm, fun _ => rfl⟩⟩
  · have hc : coreType cfg s = .ok (.co, cfg.coreHe) := by
      unfold coreType
      rw [if_neg (by rw [hm]; simp), if_pos hm', if_neg (by simp [hHe])]
    have hf : gridFrac cfg.coreHe .co = .ok .he10 := by
      simp only [gridFrac]
      rw [if_pos hHe]
    refine ⟨if cfg.lamOpt = .default then ⟨some cfg.lambdaDefault, s.coM, s.coR.getD 0, .co⟩ else ⟨s.lam .he10, s.mcore .he10, s.rcore .he10, .co⟩, fun hl => ?_⟩
    unfold lambdaCE
    rw [hc]
    simp only [lamValues]
    rcases hl with hl | hl
    · rw [if_pos hl, if_pos hl]
      exact ⟨rfl, by simp, ⟨fun hx => by simp at hx, fun hx => by rw [hm] at hx; simp at hx⟩⟩
    · rw [if_neg (by simp [hl]), if_pos hl, if_neg (by simp [hl]), hf]
      exact ⟨rfl, by simp, ⟨fun hx => by simp at hx, fun hx => by rw [hm] at hx; simp at hx⟩⟩

/-! ### Exchange of the stars -/

theorem mirror_assemble (one : Bool) (b : Binary) (d c : Star) : (assemble one b d c).mirror = assemble (!one) b.mirror d c := by
  cases one <;> rfl

theorem resolve_mirror (cfg : Cfg) (one : Bool) (b : Binary) (donor comp : Star) (l1 l2 : Lam) (rc2 : ℝ) (double : Bool) (p : Phase) :
    resolve cfg (!one) b.mirror donor comp l1 l2 rc2 double p = mirrorR (resolve cfg one b donor comp l1 l2 rc2 double p) := by
  have hmerge : ∀ e1 e2, merge (!one) b.mirror donor comp l1.ty l2.ty e1 e2 = (merge one b donor comp l1.ty l2.ty e1 e2).mirror := by
    intro e1 e2
    unfold merge
    rw [mirror_assemble]
    congr 1
    simp only [Binary.mirror]
    cases b.event <;> rfl
  have hej : ejection cfg (!one) b.mirror donor comp l1.ty l2.ty double p = (ejection cfg one b donor comp l1.ty l2.ty double p).mirror := by
    unfold ejection
    simp only
    rw [mirror_assemble]
    congr 1
    simp only [Binary.mirror]
    by_cases hs : donor.state = .sCoreHeDep
    · rw [if_pos hs, if_pos hs]
      cases one <;> rfl
    · rw [if_neg hs, if_neg hs]
      rfl
  unfold resolve
  have hper : b.mirror.per = b.per := rfl
  rw [hper, hej]
  by_cases hp : p.merger = true
  · rw [if_pos hp, if_pos hp]
    by_cases hl : cfg.massLoss = true
    · rw [if_pos hl, if_pos hl]
      cases massLost cfg donor comp l1 l2.mc rc2 (sepBefore b.per donor.mass comp.mass) double with
      | error e => rfl
      | ok v => simp only [hmerge]; rfl
    · rw [if_neg hl, if_neg hl, hmerge]
      rfl
  · rw [if_neg hp, if_neg hp]
    rfl

theorem run_mirror (cfg : Cfg) (one double : Bool) (b : Binary) (donor comp : Star) :
    run cfg (!one) double b.mirror donor comp = mirrorR (run cfg one double b donor comp) := by
  unfold run
  by_cases h1 : mergesAtOnce cfg donor = true
  · rw [if_pos h1, if_pos h1]
    cases one <;> rfl
  rw [if_neg h1, if_neg h1]
  by_cases h2 : cfg.alphaLambda = true
  · rw [if_pos h2, if_pos h2]
    cases lambdaCE cfg donor with
    | error e => rfl
    | ok l1 =>
      simp only
      cases compLam cfg comp double with
      | error e => rfl
      | ok l2 =>
        simp only [simpleAlpha]
        have hs : sepAfter cfg b.mirror donor comp l1 l2 double = sepAfter cfg b donor comp l1 l2 double := rfl
        rw [hs]
        by_cases h3 : sepAfter cfg b donor comp l1 l2 double < -cfg.tol
        · rw [if_pos h3, if_pos h3]; rfl
        rw [if_neg h3, if_neg h3]
        cases companion cfg comp l1 l2 double (sepAfter cfg b donor comp l1 l2 double / Rsun) with
        | error e => rfl
        | ok v =>
          simp only
          cases phase cfg donor v.1 l1 l2 v.2 double (sepAfter cfg b donor comp l1 l2 double / Rsun) with
          | error e => rfl
          | ok p => exact resolve_mirror cfg one b donor v.1 l1 l2 v.2 double p
  · rw [if_neg h2, if_neg h2]; rfl

/-- Exchanging the two stars exchanges the labels of the outcome and changes nothing else, errors included. -/
theorem C36_mirror (cfg : Cfg) (b : Binary) : step cfg b.mirror = mirrorR (step cfg b) := by
  unfold step
  cases he : b.event with
  | oCE1 =>
    have : b.mirror.event = .oCE2 := by simp [Binary.mirror, he, FlowChart.Ev.mirror]
    rw [this]
    exact run_mirror cfg true false b b.star1 b.star2
  | oDoubleCE1 =>
    have : b.mirror.event = .oDoubleCE2 := by simp [Binary.mirror, he, FlowChart.Ev.mirror]
    rw [this]
    exact run_mirror cfg true true b b.star1 b.star2
  | oCE2 =>
    have : b.mirror.event = .oCE1 := by simp [Binary.mirror, he, FlowChart.Ev.mirror]
    rw [this]
    exact run_mirror cfg false false b b.star2 b.star1
  | oDoubleCE2 =>
    have : b.mirror.event = .oDoubleCE1 := by simp [Binary.mirror, he, FlowChart.Ev.mirror]
    rw [this]
    exact run_mirror cfg false true b b.star2 b.star1
  | _ =>
    have : b.mirror.event = b.event.mirror := rfl
    rw [this, he]
    rfl

/-! ### No other errors -/

theorem periodMT_ok_wind {p m1 m1' m2 : ℝ} (h : m1' ≤ m1) : ∃ q, Orbit.periodMT p m1 m1' m2 1 0 = .ok q := by
  unfold Orbit.periodMT
  rw [if_neg (by linarith)]
  simp only
  rw [if_neg (by norm_num), if_pos (by norm_num)]
  exact ⟨_, rfl⟩

theorem periodMT_ok_MT {p m1 m1' m2 : ℝ} (h : m1' ≤ m1) : ∃ q, Orbit.periodMT p m1 m1' m2 0 1 = .ok q := by
  unfold Orbit.periodMT
  rw [if_neg (by linarith)]
  simp only
  rw [if_neg (by norm_num), if_neg (by norm_num)]
  exact ⟨_, rfl⟩

theorem postCores_ok {donor comp : Star} {mc1 mc2 rc2 : ℝ} {ty1 ty2 : CoreType} {double : Bool} (h : ty1 ≠ .notGiant) :
    ∃ c, postCores donor mc1 ty1 comp mc2 rc2 ty2 double = .ok c := by
  unfold postCores
  cases ty1 with
  | he => exact ⟨_, rfl⟩
  | co => exact ⟨_, rfl⟩
  | notGiant => exact absurd rfl h

theorem windloss_ok {cfg : Cfg} {donor comp : Star} {mc1 mc2 rc2 a : ℝ} {ty1 ty2 : CoreType} {double : Bool} (h : ty1 ≠ .notGiant) :
    ∃ p, windloss cfg donor mc1 ty1 comp mc2 rc2 ty2 double a = .ok p := by
  unfold windloss
  obtain ⟨c, hc⟩ := @postCores_ok donor comp mc1 mc2 rc2 ty1 ty2 double h
  obtain ⟨hc1, hc2⟩ := postCores_le hc
  rw [hc]
  simp only
  by_cases hr : Orbit.checkRLO mc1 c.r1 mc2 c.r2 a cfg.tol = true
  · rw [if_pos hr]; exact ⟨_, rfl⟩
  rw [if_neg hr]
  obtain ⟨q, hq⟩ := @periodMT_ok_wind (Orbit.periodFromSep a mc1 mc2) mc1 c.m1 mc2 hc1
  obtain ⟨q', hq'⟩ := @periodMT_ok_wind q mc2 c.m2 c.m1 hc2
  have hw : ∃ x, windPeriod (Orbit.periodFromSep a mc1 mc2) mc1 c.m1 mc2 c.m2 double = .ok x := by
    unfold windPeriod
    rw [hq]
    simp only
    cases double with
    | true => rw [hq']; exact ⟨_, rfl⟩
    | false => exact ⟨_, rfl⟩
  obtain ⟨x, hx⟩ := hw
  rw [hx]
  exact ⟨_, rfl⟩

theorem phase_ok {cfg : Cfg} {donor comp : Star} {l1 l2 : Lam} {rc2 a : ℝ} {double : Bool} (h : l1.ty ≠ .notGiant) (ha : cfg.after ≠ .invalid) :
    ∃ p, phase cfg donor comp l1 l2 rc2 double a = .ok p := by
  unfold phase
  cases hc : cfg.after with
  | onePhase => exact ⟨_, rfl⟩
  | windloss => exact windloss_ok h
  | invalid => exact absurd hc ha
  | stableMT =>
    simp only [stableMT]
    cases double with
    | true => exact windloss_ok h
    | false =>
      simp only [Bool.false_eq_true, if_false]
      obtain ⟨c, hc⟩ := @postCores_ok donor comp l1.mc l2.mc rc2 l1.ty l2.ty false h
      rw [hc]
      simp only
      by_cases hr : Orbit.checkRLO l1.mc c.r1 l2.mc c.r2 a cfg.tol = true
      · rw [if_pos hr]; exact ⟨_, rfl⟩
      rw [if_neg hr]
      obtain ⟨q, hq⟩ := @periodMT_ok_MT (Orbit.periodFromSep a l1.mc l2.mc) l1.mc c.m1 l2.mc (postCores_le hc).1
      rw [hq]
      exact ⟨_, rfl⟩

/-- For a recognised donor with a compact companion, a valid option and physical inputs, the step always produces a result (without the
option to eject mass in mergers). -/
theorem C36_total_partial (cfg : Cfg) (one : Bool) (b : Binary) (donor comp : Star) (l1 : Lam)
    (h : Physical cfg b donor comp l1 ⟨none, comp.mass, comp.R, .notGiant⟩ false) (hl : lambdaCE cfg donor = .ok l1) (ht : l1.ty ≠ .notGiant)
    (hco : starCO.contains comp.state = true) (hp : cfg.alphaLambda = true) (ha : cfg.after ≠ .invalid) (hm : cfg.massLoss = false) (htol : 0 ≤ cfg.tol) :
    ∃ b', run cfg one false b donor comp = .ok b' := by
  unfold run
  by_cases h1 : mergesAtOnce cfg donor = true
  · rw [if_pos h1]; exact ⟨_, rfl⟩
  rw [if_neg h1, if_pos hp, hl]
  simp only [compLam, Bool.false_eq_true, if_false, simpleAlpha]
  have hs := (C36_orbit_shrinks cfg b donor comp l1 _ false h).1
  rw [if_neg (by linarith)]
  have hc : companion cfg comp l1 ⟨none, comp.mass, comp.R, .notGiant⟩ false (sepAfter cfg b donor comp l1 ⟨none, comp.mass, comp.R, .notGiant⟩ false / Rsun) =
      .ok (comp, comp.R) := by
    unfold companion
    rw [if_neg (by rw [hco]; simp)]
  rw [hc]
  simp only
  obtain ⟨p, hph⟩ := @phase_ok cfg donor comp l1 ⟨none, comp.mass, comp.R, .notGiant⟩ comp.R
    (sepAfter cfg b donor comp l1 ⟨none, comp.mass, comp.R, .notGiant⟩ false / Rsun) false ht ha
  rw [hph]
  simp only [resolve]
  by_cases hmg : p.merger = true
  · rw [if_pos hmg, if_neg (by simp [hm])]; exact ⟨_, rfl⟩
  · rw [if_neg hmg]; exact ⟨_, rfl⟩

/-! ### A concrete case -/

/-- A giant of 20 with a core of 8 and a black hole of 10. -/
def exDonor : Star :=
  { state := .hCoreHe, mass := 20, radius := some 1000, heM := 7, heR := some 1, coM := 0, coR := none, surfH := 0.7, surfHe := 0.28, logLH := 1,
    logLHe := 1, metallicity := some 1, hasProfile := false, lam := fun _ => some 0.5, mcore := fun _ => 8, rcore := fun _ => 2, co := false,
    rest := fun _ => none }
def exComp : Star :=
  { state := .BH, mass := 10, radius := some 0.00004, heM := 0, heR := none, coM := 0, coR := none, surfH := 0, surfHe := 0, logLH := 0,
    logLHe := 0, metallicity := none, hasProfile := false, lam := fun _ => none, mcore := fun _ => 0, rcore := fun _ => 0, co := true,
    rest := fun _ => none }
def exCfg : Cfg :=
  { alphaLambda := true, alpha := 1, lambdaDefault := 0.5, lamOpt := .grid, pessimistic := false, coreH := 0.3, coreHe := 0.1, tol := 0.001,
    after := .stableMT, massLoss := false, profileLambda := fun _ _ => .error .other, ejected := fun _ _ _ _ => 0, matched := fun _ => .ok none,
    classify := fun _ => .sCoreHe }
def exBinary : Binary :=
  { star1 := exDonor, star2 := exComp, state := .RLO1, event := .oCE1, sep := 2000, per := 1000, ecc := 0.1, rest := fun _ => none }

example : ∃ b', step exCfg exBinary = .ok b' ∧ Outcome true exDonor b' := by
  have hl : lambdaCE exCfg exDonor = .ok ⟨some 0.5, 8, 2, .he⟩ := by
    have hs : starPostMS.contains exDonor.state = true := by
      show starPostMS.contains FlowChart.Star.hCoreHe = true
      decide
    unfold lambdaCE coreType
    rw [if_pos hs, if_pos (by norm_num [exCfg])]
    simp only [lamValues]
    rw [if_neg (by simp [exCfg]), if_pos (by simp [exCfg])]
    simp only [gridFrac]
    rw [if_neg (by norm_num [exCfg]), if_neg (by norm_num [exCfg]), if_pos (by simp [exCfg])]
    rfl
  have hph : Physical exCfg exBinary exDonor exComp ⟨some 0.5, 8, 2, .he⟩ ⟨none, exComp.mass, exComp.R, .notGiant⟩ false :=
    { alpha := by norm_num [exCfg]
      per := by norm_num [exBinary]
      m1 := by norm_num [exDonor]
      m2 := by norm_num [exComp]
      mc1 := by norm_num
      mc2 := by norm_num [exComp]
      le1 := by norm_num [exDonor]
      le2 := le_refl _
      r1 := by norm_num [Star.R, exDonor]
      r2 := fun h => by simp at h
      lam1 := fun l h => by simp at h; rw [← h]; norm_num
      lam2 := fun l h => by simp at h }
  obtain ⟨b', hb⟩ := C36_total_partial exCfg true exBinary exDonor exComp _ hph hl (by simp)
    (by show starCO.contains FlowChart.Star.BH = true; decide) rfl (by simp [exCfg]) rfl (by norm_num [exCfg])
  refine ⟨b', hb, ?_⟩
  rcases C36_outcome exCfg exBinary b' hb with ⟨-, h⟩ | ⟨h, -⟩
  · exact h
  · rcases h with h | h <;> simp [exBinary] at h

end

/-! ### Mergers without a look at the energies, and the energy for a partial ejection -/

/-- Donors on the main sequence (of hydrogen or helium) merge at once, and with the pessimistic option also those in the Hertzsprung gap. -/
theorem C36_merge_at_once (cfg : Cfg) (one double : Bool) (b : Binary) (donor comp : Star)
    (h : donor.state = .hCoreH ∨ donor.state = .sCoreHe ∨ donor.state = .aCoreHe ∨ (cfg.pessimistic = true ∧ donor.state = .hShellH)) :
    run cfg one double b donor comp = .ok { b with state := .merged, event := if one then .oMerging1 else .oMerging2 } := by
  have hm : mergesAtOnce cfg donor = true := by
    unfold mergesAtOnce
    rcases h with h | h | h | ⟨hp, h⟩
    · rw [h]; rfl
    · rw [h]; rfl
    · rw [h]; rfl
    · rw [h, hp]; rfl
  unfold run
  rw [if_pos hm]

/-- In a double common envelope that merges, the energy for the ejection is the part of the orbital energy released until the cores touch that is used with the
efficiency; it is shared in proportion to the envelopes. -/
theorem C36_ejection_energy (cfg : Cfg) (donor comp : Star) (l1 : Lam) (mc2 rc2 sepi : ℝ) (h1 : donor.hasProfile = true) (h2 : comp.hasProfile = true)
    (he : donor.mass - l1.mc + (comp.mass - mc2) ≠ 0) :
    ∃ x1 x2 : ℝ, x1 + x2 = cfg.alpha * (newton donor.mass comp.mass sepi - newton l1.mc mc2 (sepMerger l1.mc l1.rc mc2 rc2)) ∧
      x1 * (comp.mass - mc2) = x2 * (donor.mass - l1.mc) ∧
      massLost cfg donor comp l1 mc2 rc2 sepi true =
        .ok (clampEj (cfg.ejected donor x1 l1.mc l1.rc) (donor.mass - l1.mc), clampEj (cfg.ejected comp x2 mc2 rc2) (comp.mass - mc2)) := by
  have hn : ∀ a b c, eorb a b c = newton a b c := by
    intro a b c
    unfold eorb newton
    by_cases hc : c = 0
    · rw [hc]; simp
    · field_simp
      ring
  refine ⟨cfg.alpha * (eorb donor.mass comp.mass sepi - eorb l1.mc mc2 (sepMerger l1.mc l1.rc mc2 rc2)) * ((donor.mass - l1.mc) / (donor.mass - l1.mc + (comp.mass - mc2))),
    cfg.alpha * (eorb donor.mass comp.mass sepi - eorb l1.mc mc2 (sepMerger l1.mc l1.rc mc2 rc2)) * (1 - (donor.mass - l1.mc) / (donor.mass - l1.mc + (comp.mass - mc2))), ?_, ?_, ?_⟩
  · rw [hn, hn]; ring
  · generalize cfg.alpha * (eorb donor.mass comp.mass sepi - eorb l1.mc mc2 (sepMerger l1.mc l1.rc mc2 rc2)) = E
    field_simp
    ring
  · unfold massLost
    rw [if_neg (by simp), if_neg (by simp [h1, h2])]
    dsimp only
    rw [if_neg (by simp), if_neg he]

end Verif.CE
