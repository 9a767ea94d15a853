import Verif.Kepler
import Mathlib.Tactic.Linarith
import Mathlib.Tactic.FieldSimp
/-!
C146: the period, the separation and the masses that a bound binary is left with agree with Kepler's third law.
-/
namespace Verif.Kepler
open Verif.Orbit (sepFromPeriod periodFromSep cgrav Msun Rsun cpi day2sec kepler sepFromPeriod_cube kepler_pos)

theorem law_iff {t P a M : ℝ} : Law t P a M ↔ |kepler * M * P ^ 2 - a ^ 3| ≤ t * a ^ 3 := by
  have hk : (0 : ℝ) < 4 * cpi ^ 2 * Rsun ^ 3 := by unfold cpi Rsun; positivity
  have e1 : cgrav * (M * Msun) * (P * 86400) ^ 2 - 4 * cpi ^ 2 * (a * Rsun) ^ 3 = (4 * cpi ^ 2 * Rsun ^ 3) * (kepler * M * P ^ 2 - a ^ 3) := by
    unfold kepler cgrav Msun day2sec cpi Rsun
    ring
  have e2 : t * (4 * cpi ^ 2 * (a * Rsun) ^ 3) = (4 * cpi ^ 2 * Rsun ^ 3) * (t * a ^ 3) := by ring
  unfold Law
  rw [e1, e2, abs_mul, abs_of_pos hk]
  exact mul_le_mul_iff_right₀ hk

/-- What one of the two functions gives obeys the law: exactly in one direction, -/
theorem C146_separation (P m1 m2 : ℝ) (hm : 0 ≤ m1 + m2) : Law 0 P (sepFromPeriod P m1 m2) (m1 + m2) := by
  rw [law_iff, sepFromPeriod_cube _ _ _ hm]
  simp

theorem law_period {a m1 m2 : ℝ} (ha : 0 ≤ a) (hm : 0 < m1 + m2) :
    kepler * (m1 + m2) * periodFromSep a m1 m2 ^ 2 = Orbit.roundTrip ^ 2 * a ^ 3 := by
  have hau : (0 : ℝ) < Orbit.aursun := by unfold Orbit.aursun; norm_num
  have hk := kepler_pos
  unfold periodFromSep Orbit.roundTrip
  rw [mul_pow, mul_pow, Real.sq_sqrt (by positivity), Real.sq_sqrt (by positivity)]
  field_simp

/-- to four parts in ten thousand in the other. -/
theorem C146_period (a m1 m2 : ℝ) (ha : 0 ≤ a) (hm : 0 < m1 + m2) : Law tol (periodFromSep a m1 m2) a (m1 + m2) := by
  rw [law_iff, law_period ha hm]
  obtain ⟨h1, h2⟩ := Orbit.C37_inverse_violated
  have ha3 : 0 ≤ a ^ 3 := by positivity
  have e : Orbit.roundTrip ^ 2 * a ^ 3 - a ^ 3 = (Orbit.roundTrip ^ 2 - 1) * a ^ 3 := by ring
  have p1 : 0 ≤ Orbit.roundTrip ^ 2 - 1 := by nlinarith
  have p2 : Orbit.roundTrip ^ 2 - 1 ≤ 0.0005 := by nlinarith
  rw [e, abs_of_nonneg (mul_nonneg p1 ha3)]
  exact mul_le_mul_of_nonneg_right p2 ha3

/-- The law is not exact after a period was computed: it is off by more than two parts in ten thousand. -/
theorem C146_exact_violated (a m1 m2 : ℝ) (ha : 0 < a) (hm : 0 < m1 + m2) : ¬ Law 0.0002 (periodFromSep a m1 m2) a (m1 + m2) := by
  rw [law_iff, law_period ha.le hm]
  obtain ⟨h1, h2⟩ := Orbit.C37_inverse_violated
  have ha3 : 0 < a ^ 3 := by positivity
  have e : Orbit.roundTrip ^ 2 * a ^ 3 - a ^ 3 = (Orbit.roundTrip ^ 2 - 1) * a ^ 3 := by ring
  have p1 : 0.0002 < Orbit.roundTrip ^ 2 - 1 := by nlinarith
  rw [e, abs_of_nonneg (mul_nonneg (by linarith) ha3.le)]
  exact not_le.2 (mul_lt_mul_of_pos_right p1 ha3)

/-- Period and separation are linked by one of the two functions. -/
def Linked (P a m1 m2 : ℝ) : Prop := P = periodFromSep a m1 m2 ∨ a = sepFromPeriod P m1 m2

theorem Linked.law {P a m1 m2 : ℝ} (h : Linked P a m1 m2) (ha : 0 ≤ a) (hm : 0 < m1 + m2) : Law tol P a (m1 + m2) := by
  rcases h with rfl | rfl
  · exact C146_period a m1 m2 ha hm
  · have := C146_separation P m1 m2 hm.le
    rw [law_iff] at this ⊢
    refine this.trans ?_
    rw [zero_mul]
    exact mul_nonneg (by unfold tol; norm_num) (by positivity)

theorem linked_comm {P a m1 m2 : ℝ} (h : Linked P a m1 m2) : Linked P a m2 m1 := by
  rcases h with h | h
  · left; rw [h]; unfold periodFromSep; rw [add_comm]
  · right; rw [h]; unfold sepFromPeriod; rw [add_comm]

/-! ### Construction -/

/-- A binary built from its masses and one of period and separation has both, and they agree. -/
theorem C146_created (m1 m2 : ℝ) (x : ℝ) :
    (∃ a, created (some m1) (some m2) none (some x) = (some a, some x) ∧ Linked x a m1 m2) ∧
    (∃ P, created (some m1) (some m2) (some x) none = (some x, some P) ∧ Linked P x m1 m2) :=
  ⟨⟨_, rfl, .inr rfl⟩, ⟨_, rfl, .inl rfl⟩⟩

/-- If both are given they are believed, whatever the masses. -/
theorem C146_created_violated : ∃ a P, created (some 10) (some 10) (some 1) (some 1000) = (some a, some P) ∧ ¬ Law 0.5 P a (10 + 10) := by
  refine ⟨1, 1000, rfl, ?_⟩
  rw [law_iff]
  have hk : (1 : ℝ) < kepler * (10 + 10) * 1000 ^ 2 - 1 ^ 3 := by
    unfold kepler cgrav Msun day2sec cpi Rsun
    norm_num
  rw [abs_of_pos (by linarith)]
  linarith

/-- Without both masses nothing is computed. -/
theorem C146_created_no_mass (m sep per : Option ℝ) : created none m sep per = (sep, per) ∧ created m none sep per = (sep, per) := by
  cases m <;> exact ⟨rfl, rfl⟩

/-! ### The common envelope -/

theorem phase_linked {cfg : CE.Cfg} {donor comp : CE.Star} {l1 l2 : CE.Lam} {rc2 a : ℝ} {double : Bool} {p : CE.Phase}
    (h : CE.phase cfg donor comp l1 l2 rc2 double a = .ok p) :
    Linked p.per p.sep p.c.m1 p.c.m2 ∧ (double = false → p.c.m2 = l2.mc) := by
  have hpc : ∀ c, CE.postCores donor l1.mc l1.ty comp l2.mc rc2 l2.ty double = .ok c → double = false → c.m2 = l2.mc := by
    intro c hc hd
    unfold CE.postCores at hc
    cases hv : CE.coreValues donor l1.ty with
    | error e => rw [hv] at hc; cases hc
    | ok v =>
      rw [hv, hd] at hc
      cases hc
      rfl
  have hw : CE.windloss cfg donor l1.mc l1.ty comp l2.mc rc2 l2.ty double a = .ok p →
      Linked p.per p.sep p.c.m1 p.c.m2 ∧ (double = false → p.c.m2 = l2.mc) := by
    intro h
    unfold CE.windloss at h
    cases hc : CE.postCores donor l1.mc l1.ty comp l2.mc rc2 l2.ty double with
    | error e => rw [hc] at h; cases h
    | ok c =>
      rw [hc] at h
      dsimp only at h
      split at h
      · cases h; exact ⟨.inl rfl, fun _ => rfl⟩
      · split at h
        · cases h
        · cases h; exact ⟨.inr rfl, hpc c hc⟩
  unfold CE.phase at h
  split at h
  · cases h; exact ⟨.inl rfl, fun _ => rfl⟩
  · unfold CE.stableMT at h
    split at h
    · exact hw h
    · cases hc : CE.postCores donor l1.mc l1.ty comp l2.mc rc2 l2.ty double with
      | error e => rw [hc] at h; cases h
      | ok c =>
        rw [hc] at h
        dsimp only at h
        split at h
        · cases h; exact ⟨.inl rfl, fun _ => rfl⟩
        · split at h
          · cases h
          · cases h; exact ⟨.inr rfl, hpc c hc⟩
  · exact hw h
  · cases h

theorem run_linked {cfg : CE.Cfg} {one double : Bool} {b b' : CE.Binary} {donor comp : CE.Star}
    (h : CE.run cfg one double b donor comp = .ok b') (hs : b'.state = .detached) :
    Linked b'.per b'.sep b'.star1.mass b'.star2.mass := by
  unfold CE.run at h
  by_cases h1 : CE.mergesAtOnce cfg donor = true
  · rw [if_pos h1] at h
    cases h
    cases hs
  rw [if_neg h1] at h
  by_cases h2 : cfg.alphaLambda = true
  swap
  · rw [if_neg h2] at h; cases h
  rw [if_pos h2] at h
  cases hl1 : CE.lambdaCE cfg donor with
  | error e => rw [hl1] at h; cases h
  | ok l1 =>
  cases hl2 : CE.compLam cfg comp double with
  | error e => rw [hl1, hl2] at h; cases h
  | ok l2 =>
  rw [hl1, hl2] at h
  dsimp only at h
  unfold CE.simpleAlpha at h
  dsimp only at h
  split at h
  · cases h
  cases hc : CE.companion cfg comp l1 l2 double (CE.sepAfter cfg b donor comp l1 l2 double / Rsun) with
  | error e =>
    rw [show CE.companion cfg comp l1 l2 double (CE.sepAfter cfg b donor comp l1 l2 double / Orbit.Rsun) = _ from hc] at h
    cases h
  | ok q =>
  obtain ⟨comp', rc2⟩ := q
  rw [show CE.companion cfg comp l1 l2 double (CE.sepAfter cfg b donor comp l1 l2 double / Orbit.Rsun) = _ from hc] at h
  dsimp only at h
  have hcm : comp'.mass = comp.mass := by
    unfold CE.companion at hc
    split at hc
    · split at hc
      · cases hc; rfl
      · cases hc
    · cases hc; rfl
  have hl2m : double = false → l2.mc = comp.mass := by
    intro hd
    unfold CE.compLam at hl2
    rw [if_neg (by simp [hd])] at hl2
    cases hl2
    rfl
  cases hp : CE.phase cfg donor comp' l1 l2 rc2 double (CE.sepAfter cfg b donor comp l1 l2 double / Rsun) with
  | error e =>
    rw [show CE.phase cfg donor comp' l1 l2 rc2 double (CE.sepAfter cfg b donor comp l1 l2 double / Orbit.Rsun) = _ from hp] at h
    cases h
  | ok p =>
  rw [show CE.phase cfg donor comp' l1 l2 rc2 double (CE.sepAfter cfg b donor comp l1 l2 double / Orbit.Rsun) = _ from hp] at h
  dsimp only at h
  obtain ⟨hk, hm2⟩ := phase_linked hp
  cases hmg : p.merger with
  | true =>
    exfalso
    unfold CE.resolve at h
    rw [if_pos hmg] at h
    have hst : ∀ e1 e2, (CE.merge one b donor comp' l1.ty l2.ty e1 e2).state = .merged := by
      intro e1 e2
      unfold CE.merge
      exact (CE.assemble_fields ..).1
    split at h
    · split at h
      · cases h
      · cases h; rw [hst] at hs; cases hs
    · cases h; rw [hst] at hs; cases hs
  | false =>
    obtain ⟨ha, hb, hd, hdm, -, hcs, hcd⟩ := CE.C36_ejection cfg one b b' donor comp' l1 l2 rc2 double p hmg h
    have e1 : (if one then b'.star1 else b'.star2).mass = p.c.m1 := by rw [hd, hdm]
    have e2 : (if one then b'.star2 else b'.star1).mass = p.c.m2 := by
      cases double with
      | false => rw [hcs rfl, hcm, hm2 rfl, hl2m rfl]
      | true => exact (hcd rfl).1
    rw [ha, hb]
    cases one with
    | true =>
      simp only [if_true] at e1 e2
      rw [e1, e2]
      exact hk
    | false =>
      simp only [Bool.false_eq_true, if_false] at e1 e2
      rw [e1, e2]
      exact linked_comm hk

/-- A binary that survives a common envelope, with any of the options and in a single or a double one: the new orbit belongs to the masses
that are left. -/
theorem C146_common_envelope (cfg : CE.Cfg) (b b' : CE.Binary) (h : CE.step cfg b = .ok b') (hs : b'.state = .detached) :
    Linked b'.per b'.sep b'.star1.mass b'.star2.mass := by
  unfold CE.step at h
  split at h
  · exact run_linked h hs
  · exact run_linked h hs
  · exact run_linked h hs
  · exact run_linked h hs
  · cases h

/-! ### The supernova -/

/-- Both entries of the orbit are numbers and linked, or neither is a number. -/
def Pair (b : SNStep.Binary) : Prop :=
  (∃ a, b.attr "separation" = .num a ∧ b.attr "orbital_period" = .num (periodFromSep a b.s1.mass b.s2.mass)) ∨
  (b.attr "separation" = .nan ∧ b.attr "orbital_period" = .nan)

theorem lift_pair {f g : ℝ → ℝ} {v s p : SNStep.Val} (h1 : SNStep.lift f v = .ok s) (h2 : SNStep.lift g s = .ok p) :
    (∃ a, s = .num a ∧ p = .num (g a)) ∨ (s = .nan ∧ p = .nan) := by
  cases v with
  | num x => cases h1; cases h2; exact .inl ⟨_, rfl, rfl⟩
  | nan => cases h1; cases h2; exact .inr ⟨rfl, rfl⟩
  | none => cases h1
  | str x => cases h1
  | vec x y z => cases h1

theorem pair_noOrbit {b : SNStep.Binary} : Pair (SNStep.noOrbit b) := by
  right
  simp [SNStep.noOrbit, SNStep.Binary.set]

theorem pair_firstSN {b : SNStep.Binary} (h : Pair b) (x : Bool) : Pair { b with firstSN := x } := h

theorem pair_afterWD {b b' : SNStep.Binary} {x y : SNStep.Star} (h : SNStep.afterWD b x y = .ok b') : Pair b' := by
  unfold SNStep.afterWD at h
  split at h
  · cases h
  rename_i s hs
  split at h
  · cases h
  rename_i p hp
  cases h
  rcases lift_pair hs hp with ⟨a, rfl, rfl⟩ | ⟨rfl, rfl⟩
  · exact .inl ⟨a, by simp [SNStep.Binary.set, SNStep.Binary.wipe], by simp [SNStep.Binary.set, SNStep.Binary.wipe]⟩
  · exact .inr ⟨by simp [SNStep.Binary.set, SNStep.Binary.wipe], by simp [SNStep.Binary.set, SNStep.Binary.wipe]⟩

theorem pair_afterKick {c : SNStep.Cfg} {b b' : SNStep.Binary} {p : SNStep.Pre} (h : SNStep.afterKick c b p = .ok b') : Pair b' := by
  unfold SNStep.afterKick at h
  split at h
  · cases h; exact pair_firstSN pair_noOrbit _
  split at h
  · cases h; exact pair_noOrbit
  split at h
  · dsimp only at h
    split at h
    · split at h
      · cases h
      · cases h
        exact .inl ⟨(c.orbit p).sep, by simp [SNStep.Binary.set], by simp [SNStep.Binary.set]⟩
    · cases h; exact pair_noOrbit
  · cases h

theorem pair_orbitalKick {c : SNStep.Cfg} {b b' : SNStep.Binary} (h : SNStep.orbitalKick c b = .ok b') : Pair b' := by
  unfold SNStep.orbitalKick at h
  split at h
  · split at h
    · exact pair_afterWD h
    · split at h
      · cases h
      · exact pair_afterKick h
  · split at h
    · exact pair_afterWD h
    · split at h
      · cases h
      · exact pair_afterKick h
  · cases h

theorem pair_noKick {b b' : SNStep.Binary} (h : SNStep.noKick b = .ok b') : Pair b' := by
  unfold SNStep.noKick at h
  split at h
  · cases h
  rename_i s hs
  split at h
  · cases h
  rename_i p hp
  cases h
  rcases lift_pair hs hp with ⟨a, rfl, rfl⟩ | ⟨rfl, rfl⟩
  · exact .inl ⟨a, by simp [SNStep.Binary.set], by simp [SNStep.Binary.set]⟩
  · exact .inr ⟨by simp [SNStep.Binary.set], by simp [SNStep.Binary.set]⟩

/-- After a supernova, with or without a kick, for a white dwarf, a remnant or none: the recorded period belongs to the recorded separation
and to the masses after the collapse, or neither is a number. -/
theorem C146_supernova (c : SNStep.Cfg) (b b' : SNStep.Binary) (h : SNStep.step c b = .ok b') :
    (∃ a, b'.attr "separation" = .num a ∧ b'.attr "orbital_period" = .num (periodFromSep a b'.s1.mass b'.s2.mass)) ∨
    (b'.attr "separation" = .nan ∧ b'.attr "orbital_period" = .nan) := by
  obtain ⟨bc, bo, -, h2, -, h3⟩ := SNStep.step_cases h
  obtain ⟨e1, e2, -, e4, -⟩ := SNStep.closing_cases h3
  have hp : Pair bo := by
    split at h2
    · exact pair_orbitalKick h2
    · exact pair_noKick h2
  rw [e1, e2, e4 _ (by decide), e4 _ (by decide)]
  exact hp

/-! ### Detached evolution -/

theorem star_eq (x : DetEnd) : x.starSec = x.mSec ∧ x.starPri = x.mPri := by
  unfold DetEnd.starSec DetEnd.starPri DetEnd.mSec DetEnd.mPri trackMass
  constructor <;> split <;> rfl

theorem input_kepler (x : DetEnd) (i : DetachedEvent.In) : (x.input i).Kepler := by
  show x.per = periodFromSep x.sep x.starSec x.starPri
  rw [(star_eq x).1, (star_eq x).2]
  rfl

/-- Whatever ends the detached evolution - Roche-lobe overflow with its instant circularisation, the end of a star's life or of the
simulation - the recorded orbit belongs to the masses recorded with the stars, compact objects included. -/
theorem C146_detached (x : DetEnd) (i : DetachedEvent.In) (o : DetachedEvent.Out) (hs : i.startRLO = false) (hx : 0 < x.sep)
    (hm : 0 < x.starSec + x.starPri) (h0 : 0 ≤ i.eEnd) (h1 : i.eEnd < 1) (h : DetachedEvent.call (x.input i) = .ok o) :
    o.per = periodFromSep o.sep x.starSec x.starPri := by
  have hk := input_kepler x i
  have hkept : (x.input i).per = periodFromSep (x.input i).sep x.starSec x.starPri := hk
  by_cases hco : (x.priCO && x.secCO) = true
  · unfold DetachedEvent.call DetachedEvent.finish at h
    rw [if_neg (by show ¬ i.startRLO = true; simp [hs])] at h
    split at h
    · cases h
    split at h
    · cases h
    rw [if_pos (by exact hco)] at h
    cases h
    exact hkept
  by_cases hr : (i.rloSec || i.rloPri) = true
  · exact (DetachedEvent.C67_rlo_kepler (x.input i) o h hs (by exact Bool.eq_false_iff.2 hco) hr hk hx hm h0 h1).1
  unfold DetachedEvent.call DetachedEvent.finish at h
  rw [if_neg (by show ¬ i.startRLO = true; simp [hs])] at h
  split at h
  · cases h
  split at h
  · cases h
  rw [if_neg (by exact hco), if_neg (by exact hr)] at h
  split at h
  · unfold DetachedEvent.afterSecEnd at h
    dsimp only at h
    split at h
    · split at h
      · cases h
      · cases h; exact hkept
    · cases h; exact hkept
  · split at h
    · cases h; exact hkept
    · cases h; exact hkept

/-! ### Two compact objects -/

/-- Two compact objects that spiral in, to contact or to the end of the simulation. -/
theorem C146_compact (i : DoubleCO.In) (l tau : ℝ → ℝ) (r : DoubleCO.Res) (o : DoubleCO.Out) (P : ℝ) (h : DoubleCO.step i l tau r = .ok o)
    (hP : o.period = some P) : P = periodFromSep o.sep i.m1 i.m2 := by
  have hc : ∀ a, periodFromSep a i.m2 i.m1 = periodFromSep a i.m1 i.m2 := by
    intro a
    unfold periodFromSep
    rw [add_comm]
  unfold DoubleCO.step at h
  split at h
  · cases h
  split at h
  · cases h
  split at h
  · cases h
  split at h
  · cases h
  · cases h; cases hP
  · cases h; cases hP; exact hc _
  · cases h; cases hP; exact hc _

/-- An integration that failed leaves separation and period as they were. -/
theorem C146_compact_failed (i : DoubleCO.In) (l tau : ℝ → ℝ) (o : DoubleCO.Out) (h : DoubleCO.step i l tau .failed = .ok o) :
    o.sep = i.sep ∧ o.period = none := by
  unfold DoubleCO.step at h
  split at h
  · cases h
  split at h
  · cases h
  split at h
  · cases h
  cases h
  exact ⟨rfl, rfl⟩

/-! ### All of them -/

/-- Every orbit that one of these steps leaves behind obeys Kepler's third law with the masses left behind, to five parts in ten
thousand. -/
theorem C146_law (P a m1 m2 : ℝ) (h : Written P a m1 m2) (ha : 0 ≤ a) (hm : 0 < m1 + m2) : Law tol P a (m1 + m2) := by
  refine Linked.law ?_ ha hm
  cases h with
  | created _ _ _ _ sep per hmiss h =>
    rcases hmiss with rfl | rfl
    · cases per with
      | none => cases h
      | some p => cases h; exact .inr rfl
    · cases sep with
      | none => cases h
      | some x => cases h; exact .inl rfl
  | ce cfg b b' h hs => exact C146_common_envelope cfg b b' h hs
  | sn c b b' _ _ h hP ha =>
    rcases C146_supernova c b b' h with ⟨a', e1, e2⟩ | ⟨e1, e2⟩
    · rw [ha] at e1
      rw [hP] at e2
      cases e1
      cases e2
      exact .inl rfl
    · rw [ha] at e1; cases e1
  | detached x i o hs hx hm' h0 h1 h =>
    have := C146_detached x i o hs hx hm' h0 h1 h
    by_cases hsec : i.secIsOne = true
    · simp only [hsec, if_true]; exact .inl this
    · simp only [hsec]; exact linked_comm (.inl this)
  | compact i l tau r o _ h hP => exact .inl (C146_compact i l tau r o P h hP)

/-! ### Interpolated orbits -/

/-- Orbits interpolated in the logarithm between points of one total mass keep the law, with any number of points. -/
theorem C146_interpolated_partial {ι : Type} (s : Finset ι) (w P a : ι → ℝ) (c M : ℝ) (hw : ∑ i ∈ s, w i = 1) (hc : 0 < c) (hM : 0 < M)
    (hP : ∀ i ∈ s, 0 < P i) (h : ∀ i ∈ s, a i ^ 3 = c * M * P i ^ 2) :
    logMix s w a ^ 3 = c * M * logMix s w P ^ 2 := by
  have hcm : 0 < c * M := mul_pos hc hM
  have h10 : (0 : ℝ) < Real.log 10 := Real.log_pos (by norm_num)
  have hlog : ∀ i ∈ s, 3 * Orbit.lg (a i) = Orbit.lg (c * M) + 2 * Orbit.lg (P i) := by
    intro i hi
    have := congrArg Real.log (h i hi)
    rw [Real.log_pow, Real.log_mul hcm.ne' (pow_pos (hP i hi) 2).ne', Real.log_pow] at this
    unfold Orbit.lg
    field_simp
    push_cast at this
    linarith
  have hsum : 3 * ∑ i ∈ s, w i * Orbit.lg (a i) = Orbit.lg (c * M) + 2 * ∑ i ∈ s, w i * Orbit.lg (P i) := by
    rw [Finset.mul_sum, Finset.mul_sum]
    calc ∑ i ∈ s, 3 * (w i * Orbit.lg (a i)) = ∑ i ∈ s, (w i * Orbit.lg (c * M) + 2 * (w i * Orbit.lg (P i))) := by
          refine Finset.sum_congr rfl fun i hi => ?_
          have := hlog i hi
          linear_combination w i * this
      _ = (∑ i ∈ s, w i) * Orbit.lg (c * M) + ∑ i ∈ s, 2 * (w i * Orbit.lg (P i)) := by rw [Finset.sum_add_distrib, Finset.sum_mul]
      _ = _ := by rw [hw, one_mul]
  have hl : (10 : ℝ) ^ Orbit.lg (c * M) = c * M := by
    unfold Orbit.lg
    rw [← Real.exp_log (show (0 : ℝ) < 10 by norm_num), ← Real.exp_mul, Real.log_exp]
    rw [mul_div_cancel₀ _ h10.ne', Real.exp_log hcm]
  unfold logMix
  rw [← Real.rpow_natCast, ← Real.rpow_natCast, ← Real.rpow_mul (by norm_num), ← Real.rpow_mul (by norm_num)]
  push_cast
  rw [mul_comm _ (3 : ℝ), hsum, Real.rpow_add (by norm_num), hl, mul_comm _ (2 : ℝ)]

/-- Interpolated in the values themselves they do not: halfway between two orbits that obey the law exactly it is off by a quarter. -/
theorem C146_interpolated_violated (c M : ℝ) (hc : 0 < c) (hM : 0 < M) :
    ∃ a P : Bool → ℝ, (∀ i, 0 < a i ∧ 0 < P i ∧ a i ^ 3 = c * M * P i ^ 2) ∧
      1.25 * mix Finset.univ (fun _ => 1 / 2) a ^ 3 ≤ c * M * mix Finset.univ (fun _ => 1 / 2) P ^ 2 := by
  have hcm : 0 < c * M := mul_pos hc hM
  have hs := Real.sq_sqrt hcm.le
  have hs0 := Real.sqrt_pos.2 hcm
  refine ⟨fun b => if b then 1 else 4, fun b => if b then 1 / Real.sqrt (c * M) else 8 / Real.sqrt (c * M), fun i => ?_, ?_⟩
  · cases i
    · refine ⟨by norm_num, by simp only [Bool.false_eq_true, if_false]; positivity, ?_⟩
      simp only [Bool.false_eq_true, if_false]
      rw [div_pow, hs]
      field_simp
      norm_num
    · refine ⟨by norm_num, by simp only [if_true]; positivity, ?_⟩
      simp only [if_true]
      rw [div_pow, hs]
      field_simp
  · simp only [mix, Fintype.sum_bool, if_true, Bool.false_eq_true, if_false]
    have e : c * M * (1 / 2 * (1 / Real.sqrt (c * M)) + 1 / 2 * (8 / Real.sqrt (c * M))) ^ 2 = (9 / 2) ^ 2 := by
      rw [show 1 / 2 * (1 / Real.sqrt (c * M)) + 1 / 2 * (8 / Real.sqrt (c * M)) = 9 / 2 / Real.sqrt (c * M) by ring, div_pow, hs]
      field_simp
    rw [e]
    norm_num

/-- Nor do they in the logarithm when the masses differ: halfway between the binaries of 16 and 1 and of 1 and 16 solar masses on one orbit
the interpolated masses are 4 and 4, less than half of what the orbit needs. -/
theorem C146_interpolated_masses_violated :
    logMix Finset.univ (fun _ : Bool => 1 / 2) (fun b => if b then 16 else 1) = 4 ∧
    logMix Finset.univ (fun _ : Bool => 1 / 2) (fun b => if b then 1 else 16) = 4 ∧
    ∀ x : ℝ, 0 < x → logMix Finset.univ (fun _ : Bool => 1 / 2) (fun _ => x) = x := by
  have h10 : (0 : ℝ) < Real.log 10 := Real.log_pos (by norm_num)
  have hl : ∀ x : ℝ, 0 < x → (10 : ℝ) ^ Orbit.lg x = x := by
    intro x hx
    unfold Orbit.lg
    rw [Real.rpow_def_of_pos (by norm_num), mul_div_cancel₀ _ h10.ne', Real.exp_log hx]
  have h1 : Orbit.lg 1 = 0 := by unfold Orbit.lg; simp
  have h16 : Orbit.lg 16 = 2 * Orbit.lg 4 := by
    unfold Orbit.lg
    rw [show (16 : ℝ) = 4 ^ 2 by norm_num, Real.log_pow]
    push_cast
    ring
  refine ⟨?_, ?_, fun x hx => ?_⟩
  · simp only [logMix, Fintype.sum_bool, if_true, Bool.false_eq_true, if_false, h1, h16]
    rw [show 1 / 2 * (2 * Orbit.lg 4) + 1 / 2 * 0 = Orbit.lg 4 by ring, hl 4 (by norm_num)]
  · simp only [logMix, Fintype.sum_bool, if_true, Bool.false_eq_true, if_false, h1, h16]
    rw [show 1 / 2 * 0 + 1 / 2 * (2 * Orbit.lg 4) = Orbit.lg 4 by ring, hl 4 (by norm_num)]
  · simp only [logMix, Fintype.sum_bool]
    rw [show 1 / 2 * Orbit.lg x + 1 / 2 * Orbit.lg x = Orbit.lg x by ring, hl x hx]

/-! ### Cases -/

/-- A star with a compact companion that reaches the end of its life: the hypotheses of `C146_detached` can be met. -/
example : ∃ (x : DetEnd) (i : DetachedEvent.In), 0 < x.sep ∧ 0 < x.starSec + x.starPri ∧ x.priCO = true ∧ x.trackPri ≠ x.starPri ∧
    ∃ o, DetachedEvent.call (x.input i) = .ok o ∧ i.startRLO = false :=
  ⟨⟨100, false, true, 20, 10, 19, 3⟩,
   { s1 := .hCoreH, s2 := .BH, b := .detached, e := .none, secIsOne := true, priCO := true, secCO := false, startRLO := false,
     timeLeft := true, failed := false, rloSec := false, rloPri := false, endSec := true, endPri := false, sep := 0, per := 0, ecc := 0,
     eEnd := 0, mSec := 0, mPri := 0, mSecEnd := 19, mPriEnd := 10, sameTime := false, sameAM := true, hasRLOStep := true, late := false },
   by norm_num, by norm_num [DetEnd.starSec, DetEnd.starPri, DetEnd.mSec, trackMass], rfl,
   by norm_num [DetEnd.starPri], _, rfl, rfl⟩

end Verif.Kepler
