import Verif.DetachedEvent
import Verif.FlowChartProps
/-!
C67: what the detached step reports when its integration ends.
-/
namespace Verif.DetachedEvent
open Verif.FlowChart

noncomputable section
open Classical

/-- Scaling the separation by `f` and the period by `f^1.5` keeps Kepler's third law. -/
theorem periodFromSep_scale {a f m1 m2 : ℝ} (ha : 0 < a) (hf : 0 < f) (hm : 0 < m1 + m2) :
    Orbit.periodFromSep (a * f) m1 m2 = Orbit.periodFromSep a m1 m2 * f ^ ((3 : ℝ) / 2) := by
  unfold Orbit.periodFromSep
  have hs : f ^ ((3 : ℝ) / 2) = Real.sqrt (f ^ 3) := by
    rw [Real.sqrt_eq_rpow, ← Real.rpow_natCast, ← Real.rpow_mul hf.le]
    norm_num
  have e : (a * f / Orbit.aursun) ^ 3 / (m1 + m2) = (a / Orbit.aursun) ^ 3 / (m1 + m2) * f ^ 3 := by ring
  rw [hs, e, Real.sqrt_mul, mul_assoc]
  have : 0 < Orbit.aursun := by unfold Orbit.aursun; norm_num
  positivity

theorem periodFromSep_pos {a m1 m2 : ℝ} (ha : 0 < a) (hm : 0 < m1 + m2) : 0 < Orbit.periodFromSep a m1 m2 := by
  unfold Orbit.periodFromSep
  have : 0 < Orbit.aursun := by unfold Orbit.aursun; norm_num
  have : 0 < Orbit.dayyer := by unfold Orbit.dayyer; norm_num
  positivity

theorem shrink_pos (i : In) (h0 : 0 ≤ i.eEnd) (h1 : i.eEnd < 1) : 0 < shrink i := by
  unfold shrink
  split_ifs
  · nlinarith
  · linarith

/-- The recorded period and separation obey Kepler's law before the step adjusts them, as `update_after_evo` makes them (l.622-627). -/
def In.Kepler (i : In) : Prop := i.per = Orbit.periodFromSep i.sep i.mSec i.mPri

/-- The consistency check of the new orbit never stops a binary: on exact arithmetic the difference it measures is zero. -/
theorem C67_assertion_holds (i : In) (hk : i.Kepler) (hs : 0 < i.sep) (hm : 0 < i.mSec + i.mPri) (h0 : 0 ≤ i.eEnd) (h1 : i.eEnd < 1) :
    absDiff i = 0 ∧ call i ≠ .error .assertion := by
  have hf := shrink_pos i h0 h1
  have ha : absDiff i = 0 := by
    unfold absDiff
    rw [periodFromSep_scale hs hf hm, hk]
    simp
  refine ⟨ha, ?_⟩
  unfold call finish afterRLO afterSecEnd
  rw [ha]
  intro h
  have h01 : ¬ ¬ ((0 : ℝ) < 0.01) := by norm_num
  rw [if_neg h01] at h
  simp only at h
  split_ifs at h <;> simp_all

/-- The state and event that start a mass transfer name the star whose Roche lobe was filled; the star called secondary comes first. -/
theorem C67_rlo_star (i : In) (o : Out) (h : call i = .ok o) (hs : i.startRLO = false) (hco : (i.priCO && i.secCO) = false)
    (hr : (i.rloSec || i.rloPri) = true) :
    stateStar o.b = some (if i.rloSec then i.secNo else i.priNo) ∧ eventStar o.e = stateStar o.b ∧ o.ecc = 0 ∧
      o.sep = i.sep * shrink i ∧ o.per = i.per * shrink i ^ ((3 : ℝ) / 2) := by
  unfold call at h
  rw [if_neg (by simp [hs])] at h
  by_cases ht : (!i.timeLeft) = true
  · rw [if_pos ht] at h; simp at h
  rw [if_neg ht] at h
  by_cases hf : i.failed = true
  · rw [if_pos hf] at h; simp at h
  rw [if_neg hf] at h
  unfold finish at h
  rw [if_neg (by simp [hco]), if_pos hr] at h
  unfold afterRLO at h
  split_ifs at h
  obtain rfl := Except.ok.inj h
  refine ⟨?_, ?_, rfl, rfl, rfl⟩
  · simp only [rloNames, In.secNo, In.priNo]
    cases i.rloSec <;> cases i.secIsOne <;> rfl
  · simp only [rloNames]
    cases i.rloSec <;> cases i.secIsOne <;> rfl

/-- The names of state and event go together. -/
theorem C67_names (i : In) (o : Out) (h : call i = .ok o) (hs : i.startRLO = false) (hco : (i.priCO && i.secCO) = false)
    (hr : (i.rloSec || i.rloPri) = true) : (o.b = .RLO1 ∧ o.e = .oRLO1) ∨ (o.b = .RLO2 ∧ o.e = .oRLO2) := by
  unfold call at h
  rw [if_neg (by simp [hs])] at h
  by_cases ht : (!i.timeLeft) = true
  · rw [if_pos ht] at h; simp at h
  rw [if_neg ht] at h
  by_cases hf : i.failed = true
  · rw [if_pos hf] at h; simp at h
  rw [if_neg hf] at h
  unfold finish at h
  rw [if_neg (by simp [hco]), if_pos hr] at h
  unfold afterRLO at h
  split_ifs at h
  obtain rfl := Except.ok.inj h
  simp only [rloNames]
  by_cases hx : i.secIsOne = true <;> by_cases hy : i.rloSec = true <;> simp [hx, hy]

/-- The new circular orbit has the angular momentum of the old one (option `RLO_orbit_at_orbit_with_same_am`), or its periastron
distance, when the recorded eccentricity is the one at the end of the integration. -/
theorem C67_rlo_orbit (i : In) (o : Out) (h : call i = .ok o) (hs : i.startRLO = false) (hco : (i.priCO && i.secCO) = false)
    (hr : (i.rloSec || i.rloPri) = true) (he : i.ecc = i.eEnd) :
    (i.sameAM = true → angMom o.sep o.ecc = angMom i.sep i.ecc) ∧ (i.sameAM = false → periastron o.sep o.ecc = periastron i.sep i.ecc) := by
  obtain ⟨-, -, h3, h4, -⟩ := C67_rlo_star i o h hs hco hr
  rw [h3, h4, he]
  constructor
  · intro ha
    unfold angMom shrink
    rw [if_pos ha]
    norm_num
  · intro ha
    unfold periastron shrink
    rw [if_neg (by simp [ha])]
    ring

/-- The new orbit obeys Kepler's law. -/
theorem C67_rlo_kepler (i : In) (o : Out) (h : call i = .ok o) (hst : i.startRLO = false) (hco : (i.priCO && i.secCO) = false)
    (hr : (i.rloSec || i.rloPri) = true) (hk : i.Kepler) (hs : 0 < i.sep) (hm : 0 < i.mSec + i.mPri) (h0 : 0 ≤ i.eEnd) (h1 : i.eEnd < 1) :
    o.per = Orbit.periodFromSep o.sep i.mSec i.mPri ∧ 0 < o.sep ∧ o.sep ≤ i.sep := by
  obtain ⟨-, -, -, h4, h5⟩ := C67_rlo_star i o h hst hco hr
  have hf := shrink_pos i h0 h1
  have hf1 : shrink i ≤ 1 := by
    unfold shrink
    split_ifs
    · nlinarith
    · linarith
  rw [h4, h5, periodFromSep_scale hs hf hm, hk]
  refine ⟨rfl, mul_pos hs hf, ?_⟩
  calc i.sep * shrink i ≤ i.sep * 1 := mul_le_mul_of_nonneg_left hf1 hs.le
    _ = i.sep := mul_one _

/-- Without an overflow, the event names the star whose track ended first; its final values, and only its, are read unless both end at
the same time. The orbit and the state are those of the integration. -/
theorem C67_collapse_star (i : In) (o : Out) (h : call i = .ok o) (hs : i.startRLO = false) (hco : (i.priCO && i.secCO) = false)
    (hr : (i.rloSec || i.rloPri) = false) :
    o.b = i.b ∧ o.sep = i.sep ∧ o.per = i.per ∧ o.ecc = i.ecc ∧
    (i.endSec = true → eventStar o.e = some i.secNo ∧ o.finalSec = true ∧ (o.finalPri = true → i.sameTime = true ∧ i.mPriEnd = i.mSecEnd)) ∧
    (i.endSec = false → i.endPri = true → eventStar o.e = some i.priNo ∧ o.finalPri = true ∧ o.finalSec = false) ∧
    (i.endSec = false → i.endPri = false → o.e = (if i.late then .MaxTimeExceeded else .maxtime) ∧ o.finalPri = false ∧ o.finalSec = false) := by
  unfold call at h
  rw [if_neg (by simp [hs])] at h
  by_cases ht : (!i.timeLeft) = true
  · rw [if_pos ht] at h; simp at h
  rw [if_neg ht] at h
  by_cases hf : i.failed = true
  · rw [if_pos hf] at h; simp at h
  rw [if_neg hf] at h
  unfold finish at h
  rw [if_neg (by simp [hco]), if_neg (by simp [hr])] at h
  by_cases h1 : i.endSec = true
  · rw [if_pos h1] at h
    unfold afterSecEnd at h
    simp only at h
    by_cases hp : (!i.priCO && starCC.contains i.priState) = true
    · rw [if_pos hp] at h
      by_cases hm : i.mPriEnd ≠ i.mSecEnd
      · rw [if_pos hm] at h; simp at h
      · rw [if_neg hm] at h
        obtain rfl := Except.ok.inj h
        refine ⟨rfl, rfl, rfl, rfl, fun _ => ⟨?_, rfl, fun hx => ⟨hx, by simpa using hm⟩⟩, fun hx => by simp [h1] at hx, fun hx => by simp [h1] at hx⟩
        simp only [In.secNo]
        cases i.secIsOne <;> rfl
    · rw [if_neg hp] at h
      obtain rfl := Except.ok.inj h
      refine ⟨rfl, rfl, rfl, rfl, fun _ => ⟨?_, rfl, fun hx => by simp [kept] at hx⟩, fun hx => by simp [h1] at hx, fun hx => by simp [h1] at hx⟩
      simp only [In.secNo]
      cases i.secIsOne <;> rfl
  · rw [if_neg h1] at h
    by_cases h2 : i.endPri = true
    · rw [if_pos h2] at h
      obtain rfl := Except.ok.inj h
      refine ⟨rfl, rfl, rfl, rfl, fun hx => absurd hx h1, fun _ _ => ⟨?_, rfl, rfl⟩, fun _ hx => by simp [h2] at hx⟩
      simp only [In.priNo]
      cases i.secIsOne <;> rfl
    · rw [if_neg h2] at h
      obtain rfl := Except.ok.inj h
      exact ⟨rfl, rfl, rfl, rfl, fun hx => absurd hx h1, fun _ hx => absurd hx h2, fun _ _ => ⟨rfl, rfl, rfl⟩⟩

theorem mirror_mirror (i : In) : i.mirror.mirror = i := by
  cases i with
  | mk s1 s2 b e => simp only [In.mirror, Bool.not_not]; cases b <;> cases e <;> rfl

/-- Exchanging the labels of the two stars exchanges the labels in the outcome and changes nothing else. -/
theorem C67_mirror (i : In) : call i.mirror = mirrorR (call i) := by
  have hshrink : shrink i.mirror = shrink i := rfl
  have habs : absDiff i.mirror = absDiff i := rfl
  have hpri : i.mirror.priState = i.priState := by
    simp only [In.priState, In.mirror]
    by_cases hx : i.secIsOne = true <;> simp [hx]
  have hkept : kept i.mirror = (kept i).mirror := rfl
  have hnames : rloNames i.mirror = ((rloNames i).1.mirror, (rloNames i).2.mirror) := by
    simp only [rloNames, In.mirror]
    by_cases hx : i.secIsOne = true <;> by_cases hy : i.rloSec = true <;> simp [hx, hy, BState.mirror, Ev.mirror]
  have hrlo : afterRLO i.mirror = mirrorR (afterRLO i) := by
    unfold afterRLO
    rw [habs, hnames, hshrink]
    have e1 : ((starHeRichEv.contains i.mirror.s1 && starHRichEv.contains i.mirror.s2) ||
        (starHRichEv.contains i.mirror.s1 && starHeRichEv.contains i.mirror.s2)) =
        ((starHeRichEv.contains i.s1 && starHRichEv.contains i.s2) || (starHRichEv.contains i.s1 && starHeRichEv.contains i.s2)) := by
      simp only [In.mirror]
      rw [Bool.or_comm, Bool.and_comm, Bool.and_comm (starHeRichEv.contains i.s2)]
    have e2 : (starHRichEv.contains i.mirror.s1 && starHRichEv.contains i.mirror.s2) =
        (starHRichEv.contains i.s1 && starHRichEv.contains i.s2) := by
      simp only [In.mirror]
      rw [Bool.and_comm]
    rw [e1, e2]
    have e3 : i.mirror.hasRLOStep = i.hasRLOStep := rfl
    rw [e3]
    by_cases c1 : ¬ (absDiff i < 0.01)
    · rw [if_pos c1, if_pos c1]; rfl
    rw [if_neg c1, if_neg c1]
    by_cases c2 : (!i.hasRLOStep && ((starHeRichEv.contains i.s1 && starHRichEv.contains i.s2) || (starHRichEv.contains i.s1 && starHeRichEv.contains i.s2))) = true
    · rw [if_pos c2, if_pos c2]; rfl
    rw [if_neg c2, if_neg c2]
    by_cases c3 : (!i.hasRLOStep && (starHRichEv.contains i.s1 && starHRichEv.contains i.s2)) = true
    · rw [if_pos c3, if_pos c3]; rfl
    rw [if_neg c3, if_neg c3]
    rfl
  have hsec : afterSecEnd i.mirror = mirrorR (afterSecEnd i) := by
    unfold afterSecEnd
    rw [hpri, hkept]
    have e1 : i.mirror.priCO = i.priCO := rfl
    have e2 : i.mirror.mPriEnd = i.mPriEnd := rfl
    have e3 : i.mirror.mSecEnd = i.mSecEnd := rfl
    have e4 : i.mirror.sameTime = i.sameTime := rfl
    have e5 : i.mirror.secIsOne = !i.secIsOne := rfl
    simp only [e1, e2, e3, e4, e5]
    by_cases c1 : (!i.priCO && starCC.contains i.priState) = true
    · rw [if_pos c1, if_pos c1]
      by_cases c2 : i.mPriEnd ≠ i.mSecEnd
      · rw [if_pos c2, if_pos c2]; rfl
      · rw [if_neg c2, if_neg c2]
        simp only [mirrorR, Out.mirror]
        cases i.secIsOne <;> rfl
    · rw [if_neg c1, if_neg c1]
      simp only [mirrorR, Out.mirror]
      cases i.secIsOne <;> rfl
  have hfin : finish i.mirror = mirrorR (finish i) := by
    unfold finish
    rw [hrlo, hsec, hkept]
    have e1 : (i.mirror.priCO && i.mirror.secCO) = (i.priCO && i.secCO) := rfl
    have e2 : (i.mirror.rloSec || i.mirror.rloPri) = (i.rloSec || i.rloPri) := rfl
    have e3 : i.mirror.endSec = i.endSec := rfl
    have e4 : i.mirror.endPri = i.endPri := rfl
    have e5 : i.mirror.late = i.late := rfl
    have e6 : i.mirror.secIsOne = !i.secIsOne := rfl
    rw [e1, e2, e3, e4, e5, e6]
    by_cases c1 : (i.priCO && i.secCO) = true
    · rw [if_pos c1, if_pos c1]; rfl
    rw [if_neg c1, if_neg c1]
    by_cases c2 : (i.rloSec || i.rloPri) = true
    · rw [if_pos c2, if_pos c2]
    rw [if_neg c2, if_neg c2]
    by_cases c3 : i.endSec = true
    · rw [if_pos c3, if_pos c3]
    rw [if_neg c3, if_neg c3]
    by_cases c4 : i.endPri = true
    · rw [if_pos c4, if_pos c4]
      simp only [mirrorR, Out.mirror]
      cases i.secIsOne <;> rfl
    rw [if_neg c4, if_neg c4]
    simp only [mirrorR, Out.mirror]
    cases i.late <;> rfl
  unfold call
  rw [hfin, hkept]
  have e1 : i.mirror.startRLO = i.startRLO := rfl
  have e2 : i.mirror.timeLeft = i.timeLeft := rfl
  have e3 : i.mirror.failed = i.failed := rfl
  rw [e1, e2, e3]
  split_ifs <;> rfl

/-- Two stars whose tracks are both over, with different masses, stop the binary with an exception; the times at which the two tracks
end do not matter, although the message is about stars that end together. -/
theorem C67_both_ready_violated (i : In) (hs : i.startRLO = false) (ht : i.timeLeft = true) (hf : i.failed = false) (hp : i.priCO = false)
    (hr : (i.rloSec || i.rloPri) = false) (h1 : i.endSec = true) (hc : starCC.contains i.priState = true) (hm : i.mPriEnd ≠ i.mSecEnd) :
    call i = .error .posydon := by
  unfold call finish afterSecEnd
  simp [hs, ht, hf, hp, hr, h1, hm]
  simpa using hc

/-- Two compact objects leave the step with the state and event they had: nothing is reported. -/
theorem C67_two_compact_objects (i : In) (hs : i.startRLO = false) (ht : i.timeLeft = true) (hf : i.failed = false) (hp : i.priCO = true)
    (hc : i.secCO = true) : call i = .ok (kept i) := by
  unfold call finish
  simp [hs, ht, hf, hp, hc]

/-- The entry checks: overflow at birth is reported before anything else, no time left is an error, and so is a failed integration. -/
theorem C67_entry (i : In) :
    (i.startRLO = true → call i = .ok { kept i with b := .initialRLOF }) ∧
    (i.startRLO = false → i.timeLeft = false → call i = .error .value) ∧
    (i.startRLO = false → i.timeLeft = true → i.failed = true → call i = .error .numerical) := by
  refine ⟨fun h => ?_, fun h h2 => ?_, fun h h2 h3 => ?_⟩ <;> unfold call <;> simp_all

/-! The step that follows. -/

/-- A detached pair of stars (at least one not a compact object, no massless remnant) that ends without overflow and without a star
collapsing from a state it cannot collapse from always has a next step in the default flow chart: the supernova, or the end. -/
theorem C67_next_after_no_overflow (i : In) (o : Out) (h : call i = .ok o) (hs : i.startRLO = false) (hco : (i.priCO && i.secCO) = false)
    (hr : (i.rloSec || i.rloPri) = false) (hb : i.b ≠ .initialRLOF)
    (h1 : eventStar o.e = some 1 → canCollapse i.s1 = true) (h2 : eventStar o.e = some 2 → canCollapse i.s2 = true) :
    defaultChart ⟨i.s1, i.s2, o.b, o.e⟩ = if eventStar o.e = none then some .endStep else some .SN := by
  obtain ⟨hb', -, -, -, hc1, hc2, hc3⟩ := C67_collapse_star i o h hs hco hr
  have hcc : (o.e = .CC1 ∧ eventStar o.e = some 1) ∨ (o.e = .CC2 ∧ eventStar o.e = some 2) ∨ ((o.e = .maxtime ∨ o.e = .MaxTimeExceeded) ∧ eventStar o.e = none) := by
    have key : ∀ e : Ev, ∀ n, eventStar e = some n → (e = .CC1 ∨ e = .oRLO1) ∧ n = 1 ∨ (e = .CC2 ∨ e = .oRLO2) ∧ n = 2 := by
      intro e n
      cases e <;> simp [eventStar] <;> omega
    unfold call at h
    rw [if_neg (by simp [hs])] at h
    by_cases ht : (!i.timeLeft) = true
    · rw [if_pos ht] at h; simp at h
    rw [if_neg ht] at h
    by_cases hf : i.failed = true
    · rw [if_pos hf] at h; simp at h
    rw [if_neg hf] at h
    unfold finish at h
    rw [if_neg (by simp [hco]), if_neg (by simp [hr])] at h
    by_cases h1 : i.endSec = true
    · rw [if_pos h1] at h
      unfold afterSecEnd at h
      simp only at h
      split_ifs at h <;> obtain rfl := Except.ok.inj h <;> simp [eventStar]
    · rw [if_neg h1] at h
      by_cases h2 : i.endPri = true
      · rw [if_pos h2] at h
        obtain rfl := Except.ok.inj h
        cases hx : i.secIsOne <;> simp [eventStar]
      · rw [if_neg h2] at h
        obtain rfl := Except.ok.inj h
        cases hx : i.late <;> simp [eventStar]
  rcases hcc with ⟨he, hn⟩ | ⟨he, hn⟩ | ⟨he, hn⟩
  · rw [hn, if_neg (by simp), hb', he]
    exact C01_collapse_goes_to_SN i.s1 i.s2 i.b .CC1 hb (Or.inl ⟨rfl, h1 hn⟩)
  · rw [hn, if_neg (by simp), hb', he]
    exact C01_collapse_goes_to_SN i.s1 i.s2 i.b .CC2 hb (Or.inr ⟨rfl, h2 hn⟩)
  · rw [hn, if_pos rfl]
    rcases he with he | he <;> rw [he] <;> exact C01_terminal_events_end _ _ _ _ (by simp)

/-- An overflow of a star that still evolves onto a compact object is followed by the grid step for that kind of star, and one of two
helium-rich stars by the merger. -/
theorem C67_next_after_overflow_partial (i : In) (o : Out) (h : call i = .ok o) (hs : i.startRLO = false) (hco : (i.priCO && i.secCO) = false)
    (hr : (i.rloSec || i.rloPri) = true) (donor comp : Star)
    (hd : (stateStar o.b = some 1 ∧ donor = i.s1 ∧ comp = i.s2) ∨ (stateStar o.b = some 2 ∧ donor = i.s2 ∧ comp = i.s1)) :
    (isNormal donor = true → isCO comp = true → isCDepleted donor = false → donor ≠ .aCoreHe →
      defaultChart ⟨i.s1, i.s2, o.b, o.e⟩ = some (if isHeRich donor then .CO_HeMS_RLO else .CO_HMS_RLO)) ∧
    (isHeRich donor = true → isHeRich comp = true → defaultChart ⟨i.s1, i.s2, o.b, o.e⟩ = some .merged) := by
  obtain ⟨h1, h2, -⟩ := C67_rlo_star i o h hs hco hr
  have hbe : (o.b = .RLO1 ∧ o.e = .oRLO1 ∧ donor = i.s1 ∧ comp = i.s2) ∨ (o.b = .RLO2 ∧ o.e = .oRLO2 ∧ donor = i.s2 ∧ comp = i.s1) := by
    have hn := C67_names i o h hs hco hr
    rcases hd with ⟨hd, ha, hb⟩ | ⟨hd, ha, hb⟩ <;> rcases hn with ⟨hn1, hn2⟩ | ⟨hn1, hn2⟩ <;> rw [hn1] at hd <;> simp [stateStar] at hd <;>
      simp [hn1, hn2, ha, hb]
  rcases hbe with ⟨hb, he, rfl, rfl⟩ | ⟨hb, he, rfl, rfl⟩ <;> rw [hb, he, C01_routing] <;> constructor
  · cases i.s1 <;> cases i.s2 <;> decide
  · cases i.s1 <;> cases i.s2 <;> decide
  · cases i.s1 <;> cases i.s2 <;> decide
  · cases i.s1 <;> cases i.s2 <;> decide

/-- A concrete detached binary: a carbon-exhausted star with a hydrogen envelope fills its Roche lobe next to a black hole. -/
def exIn : In :=
  { s1 := .hCoreCDep, s2 := .BH, b := .detached, e := .none, secIsOne := true, priCO := true, secCO := false, startRLO := false,
    timeLeft := true, failed := false, rloSec := true, rloPri := false, endSec := false, endPri := false, sep := 100,
    per := Orbit.periodFromSep 100 20 10, ecc := 0.5, eEnd := 0.5, mSec := 20, mPri := 10, mSecEnd := 20, mPriEnd := 10, sameTime := false,
    sameAM := true, hasRLOStep := false, late := false }

/-- The step can end in a state that the default flow chart does not know: a carbon-exhausted star that fills its Roche lobe. The next
call of `run_step` then fails. -/
theorem C67_dead_end_violated : ∃ o, call exIn = .ok o ∧ o.b = .RLO1 ∧ o.e = .oRLO1 ∧ o.ecc = 0 ∧ o.sep = 75 ∧
    defaultChart ⟨exIn.s1, exIn.s2, o.b, o.e⟩ = none := by
  have ha := (C67_assertion_holds exIn rfl (by norm_num [exIn]) (by norm_num [exIn]) (by norm_num [exIn]) (by norm_num [exIn])).1
  have hc : call exIn = .ok { b := .RLO1, e := .oRLO1, sep := exIn.sep * shrink exIn, per := exIn.per * shrink exIn ^ ((3 : ℝ) / 2), ecc := 0, finalSec := false, finalPri := false } := by
    have e1 : call exIn = afterRLO exIn := by
      unfold call finish
      simp [exIn]
    have e2 : rloNames exIn = (.RLO1, .oRLO1) := by simp [rloNames, exIn]
    have e3 : (starHeRichEv.contains exIn.s1 && starHRichEv.contains exIn.s2 || starHRichEv.contains exIn.s1 && starHeRichEv.contains exIn.s2) = false := by
      simp only [exIn]; decide
    have e4 : (starHRichEv.contains exIn.s1 && starHRichEv.contains exIn.s2) = false := by simp only [exIn]; decide
    rw [e1]
    unfold afterRLO
    rw [ha, e2, e3, e4]
    norm_num
  refine ⟨_, hc, rfl, rfl, rfl, ?_, ?_⟩
  · simp only [shrink, exIn]
    norm_num
  · rw [C01_routing]
    decide

example : exIn.mirror.s2 = .hCoreCDep ∧ exIn.Kepler ∧ 0 ≤ exIn.eEnd ∧ exIn.eEnd < 1 := ⟨rfl, rfl, by norm_num [exIn], by norm_num [exIn]⟩

end
end Verif.DetachedEvent
