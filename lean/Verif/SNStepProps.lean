import Verif.SNStepLemmas
import Mathlib.Tactic.Linarith
/-! C34: the supernova step. -/
namespace Verif.SNStep
open Verif.Orbit (lg sepWind periodFromSep)

/-! A concrete step and binary, used to show that the hypotheses below can be met and as witnesses. -/

noncomputable def exCfg : Cfg :=
  { useInterp := false, useProfiles := false, useCoreMasses := true, allowSpinNone := false, kick := true, modelKnown := true,
    engine := false, maxNS := 5 / 2, maxNu := 1 / 2, typeOf := fun _ => .ok "CCSN",
    rem := fun s => .ok ⟨"CCSN", some s.mass, .num 1, "BH"⟩, bh := fun _ m _ d => ⟨m - d, .num 0, .num 0, .num 0⟩,
    ejecta := fun _ _ => (.nan, .nan), genECSN := fun _ => .ok 20, genNS := fun _ => .ok 265, genBH := fun _ => .ok 0,
    genNone := fun _ => .ok 0, uPhi := 1, uCos := 0, uAnomaly := 2,
    orbit := fun p => ⟨true, p.Mhe + p.Mcomp, 1 / 10, 1, 2, 3, 1 / 5, 1⟩, combine := fun _ t _ _ => .ok (.num t),
    classify := fun s => s.state }

noncomputable def exStar : Star :=
  { state := "stripped_He_Core_C_depleted", mass := 10, attr := fun k => if k = "metallicity" then .num 1 else .num 0,
    lastState := "stripped_He_Core_C_depleted", lastMass := 10, lastZ := .num 1, interp := none, snType := "", fFb := .none,
    diskAcc := .none, diskRad := .none, hEj := .none, heEj := .none, kickV := none, kickPhi := none, kickTheta := none,
    kickAnomaly := none, tilt1 := .none, tilt2 := .none }

noncomputable def exBinary : Binary :=
  { s1 := { exStar with state := "H-rich_Core_H_burning", lastState := "H-rich_Core_H_burning", mass := 20, lastMass := 20 },
    s2 := exStar, state := "detached", event := .CC2, attr := fun k => if k = "separation" then .num 100 else .num 0,
    lastTime := .num 1000000, lastEcc := .num 0, firstSN := false, nu1 := none, nu2 := none }

theorem exGrav : SN.mGrav 10 (1 / 2) = 19 / 2 := by
  unfold SN.mGrav
  have h : Real.sqrt (1 + 0.3 * 10) = 2 := by
    rw [show (1 + 0.3 * 10 : ℝ) = 2 ^ 2 by norm_num]; exact Real.sqrt_sq (by norm_num)
  simp only [h]; norm_num

/-- The star that collapses, and its companion. -/
def Binary.star (b : Binary) : Event → Star
  | .CC2 => b.s2
  | _ => b.s1
def Binary.mate (b : Binary) : Event → Star
  | .CC2 => b.s1
  | _ => b.s2

/-- A step that succeeds collapses the star named by the event. -/
theorem step_collapse {c : Cfg} {b b' : Binary} (h : step c b = .ok b') :
    (b.event = .CC1 ∨ b.event = .CC2) ∧ ∃ s, collapse c (b.star b.event) = .ok s ∧
      Same (updateState c s) (b'.star b.event) ∧ Same (updateState c (resetOther (b.mate b.event))) (b'.mate b.event) := by
  obtain ⟨bc, bo, h1, -, ho, hc⟩ := step_cases h
  obtain ⟨e1, e2, -⟩ := closing_cases hc
  unfold collapsed at h1
  cases he : b.event with
  | none => rw [he] at h1; cases h1
  | other s => rw [he] at h1; cases h1
  | CC1 =>
    rw [he] at h1
    refine ⟨.inl rfl, ?_⟩
    simp only at h1
    split at h1
    · cases h1
    · rename_i s hs
      cases h1
      refine ⟨s, hs, ?_, ?_⟩
      · simp only [Binary.star, e1]; exact ho.same1
      · simp only [Binary.mate, e2]; exact ho.same2
  | CC2 =>
    rw [he] at h1
    refine ⟨.inr rfl, ?_⟩
    simp only at h1
    split at h1
    · cases h1
    · rename_i s hs
      cases h1
      refine ⟨s, hs, ?_, ?_⟩
      · simp only [Binary.star, e2]; exact ho.same2
      · simp only [Binary.mate, e1]; exact ho.same1

/-! ### both stars alike -/

/-- C34.  With kicks, exchanging the stars before the step and after it is the same: the collapse of star 2 is the mirror image
of the collapse of star 1, including every error.  The hypothesis that both stars carry the same tilt from the first supernova
holds throughout every evolution (`C34_same_tilt`). -/
theorem C34_mirror_partial (c : Cfg) (b : Binary) (hk : c.kick = true) (h : b.s1.tilt1 = b.s2.tilt1) :
    step c b.mirror = mirrorR (step c b) := by
  unfold step
  rw [collapsed_mirror, hk]
  cases hb : collapsed c b with
  | error e => rfl
  | ok b' =>
    have hf := collapsed_frame hb
    simp only [mirrorR, if_true]
    rw [orbitalKick_mirror c b' (by rw [hf.1.tilt1, hf.2.1.tilt1, h])]
    cases ho : orbitalKick c b' with
    | error e => rfl
    | ok b2 =>
      simp only [mirrorR]
      exact closing_mirror b2 (outcome_orbitalKick ho).event

example : exCfg.kick = true ∧ exBinary.s1.tilt1 = exBinary.s2.tilt1 := ⟨rfl, rfl⟩

/-- C34.  The two stars always carry the same tilt from the first supernova: every step keeps them equal. -/
theorem C34_same_tilt (c : Cfg) (b b' : Binary) (h : step c b = .ok b') (ht : b.s1.tilt1 = b.s2.tilt1) :
    b'.s1.tilt1 = b'.s2.tilt1 := by
  obtain ⟨bc, bo, h1, -, ho, hc⟩ := step_cases h
  obtain ⟨e1, e2, -⟩ := closing_cases hc
  have hf := collapsed_frame h1
  rw [e1, e2]
  exact ho.tilt (by rw [hf.1.tilt1, hf.2.1.tilt1, ht])

/-- C34 is false without kicks: the separation after the collapse of star 2 is computed from the masses of star 1, so a star 1 of
unchanged mass leaves the separation as it was, however much mass star 2 has lost. -/
theorem C34_no_kick_separation_violated (c : Cfg) (b b' : Binary) (a : ℝ) (hk : c.kick = false) (h : step c b = .ok b')
    (he : b.event = .CC2) (hm : b.s1.lastMass = b.s1.mass) (ha : b.attr "separation" = .num a) (ha0 : 0 < a)
    (hs : 0 < b.s1.mass + b'.s2.mass) : b'.attr "separation" = .num a := by
  obtain ⟨bc, bo, h1, h2, ho, hc⟩ := step_cases h
  obtain ⟨e1, e2, -, e4, -⟩ := closing_cases hc
  obtain ⟨f1, -, -, -, f5, -⟩ := collapsed_frame h1
  rw [e4 _ (by decide)]
  rw [hk] at h2
  simp only [Bool.false_eq_true, if_false, noKick, f5, ha] at h2
  have m1 : bc.s1.mass = b.s1.mass := by
    unfold collapsed at h1
    rw [he] at h1
    simp only at h1
    split at h1
    · cases h1
    · cases h1
      exact update_mass c _
  have m2 : bc.s2.mass = b'.s2.mass := by rw [e2, ho.same2.mass]
  have : sepWind bc.s1.mass bc.s1.lastMass bc.s2.mass a = a := by
    rw [m1, m2, f1.lastMass, hm, Orbit.sepWind_eq hs hs ha0, div_self hs.ne', mul_one]
  simp only [lift, this, Except.ok.injEq] at h2
  rw [← h2]
  simp [Binary.set]

/-- C34.  Without kicks the separation after the collapse of star 1 is the one of an orbit that widens as mass is lost. -/
theorem C34_no_kick_separation_partial (c : Cfg) (b b' : Binary) (a : ℝ) (hk : c.kick = false) (h : step c b = .ok b')
    (he : b.event = .CC1) (ha : b.attr "separation" = .num a) (ha0 : 0 < a)
    (hl : 0 < b.s1.lastMass + b.s2.mass) (hs : 0 < b'.s1.mass + b.s2.mass) :
    b'.attr "separation" = .num (a * ((b.s1.lastMass + b.s2.mass) / (b'.s1.mass + b.s2.mass))) := by
  obtain ⟨bc, bo, h1, h2, ho, hc⟩ := step_cases h
  obtain ⟨e1, e2, -, e4, -⟩ := closing_cases hc
  obtain ⟨f1, -, -, -, f5, -⟩ := collapsed_frame h1
  rw [e4 _ (by decide)]
  rw [hk] at h2
  simp only [Bool.false_eq_true, if_false, noKick, f5, ha] at h2
  have m1 : bc.s1.mass = b'.s1.mass := by rw [e1, ho.same1.mass]
  have m2 : bc.s2.mass = b.s2.mass := by
    unfold collapsed at h1
    rw [he] at h1
    simp only at h1
    split at h1
    · cases h1
    · cases h1
      exact update_mass c _
  have : sepWind bc.s1.mass bc.s1.lastMass bc.s2.mass a = a * ((b.s1.lastMass + b.s2.mass) / (b'.s1.mass + b.s2.mass)) := by
    rw [m1, m2, f1.lastMass, Orbit.sepWind_eq hs hl ha0]
  simp only [lift, this, Except.ok.injEq] at h2
  rw [← h2]
  simp [Binary.set]

/-- C34 is false without kicks: also a binary that is already disrupted, or of which one star has vanished in the collapse, is
`detached` afterwards. -/
theorem C34_no_kick_state_violated (c : Cfg) (b b' : Binary) (hk : c.kick = false) (h : step c b = .ok b') :
    b'.state = "detached" := by
  obtain ⟨bc, bo, h1, h2, ho, hc⟩ := step_cases h
  rw [(closing_cases hc).2.2.1]
  rw [hk] at h2
  simp only [Bool.false_eq_true, if_false, noKick] at h2
  split at h2
  · cases h2
  · split at h2
    · cases h2
    · cases h2; rfl

/-! ### the remnant -/

/-- The remnant given by the collapse is of one of the four kinds, and of positive mass unless nothing is left. -/
theorem collapse_kind {c : Cfg} {s s' : Star} (h : collapse c s = .ok s') :
    (s'.state = "massless_remnant" ∧ s'.mass = 0) ∨ (s'.state ∈ statesCO ∧ 0 < s'.mass) := by
  have hrad : ∀ x y : Star, setRadius x = .ok y → y.state = x.state ∧ y.mass = x.mass ∧ x.state ∈ statesCO ∧ 0 < x.mass ∧
      ∃ r, coRadius x.mass x.state = .ok r ∧ y.attr "log_R" = .num (lg r) := by
    intro x y hxy
    unfold setRadius at hxy
    split at hxy
    · cases hxy
    · rename_i r hr
      cases hxy
      refine ⟨rfl, rfl, ?_, ?_, r, hr, by simp [Star.set]⟩
      · unfold coRadius at hr
        by_cases h0 : x.mass ≤ 0
        · rw [if_pos h0] at hr; cases hr
        by_cases h1 : x.state = "BH"
        · simp [statesCO, h1]
        by_cases h2 : x.state = "NS"
        · simp [statesCO, h2]
        by_cases h3 : x.state = "WD"
        · simp [statesCO, h3]
        rw [if_neg h0, if_neg h1, if_neg h2, if_neg h3] at hr; cases hr
      · unfold coRadius at hr
        by_contra h0
        rw [if_pos (not_lt.1 h0)] at hr; cases hr
  have hwd : ∀ x y : Star, wipeWD x = .ok y → y.state = x.state ∧ y.mass = x.mass := by
    intro x y hxy
    unfold wipeWD at hxy
    split at hxy
    · cases hxy
    · cases hxy; exact ⟨rfl, rfl⟩
  obtain ⟨-, ⟨ty, p, h⟩ | ⟨-, q, m, ty, -, -, -, -, h⟩⟩ := collapse_cases h
  · obtain ⟨r, -, ⟨-, s2, h1, h2⟩ | ⟨-, -, rfl⟩ | ⟨-, m, s2, -, h1, -⟩⟩ := collapseCore_cases h
    · right
      obtain ⟨a1, a2, a3, a4, -⟩ := hrad _ _ h1
      obtain ⟨b1, b2⟩ := hwd _ _ h2
      rw [b1, b2, a1, a2]; exact ⟨a3, a4⟩
    · left; exact ⟨rfl, rfl⟩
    · right
      unfold finish at h1
      split at h1
      · cases h1
      · rename_i s3 h3
        cases h1
        obtain ⟨a1, a2, a3, a4, -⟩ := hrad _ _ h3
        simp only [Star.wipe]
        rw [a1, a2]; exact ⟨a3, a4⟩
  · unfold fromModel at h
    simp only at h
    split at h
    · cases h
    · split at h
      · cases h; left; exact ⟨rfl, rfl⟩
      · right
        obtain ⟨a1, a2, a3, a4, -⟩ := hrad _ _ h
        rw [a1, a2]; exact ⟨a3, a4⟩

theorem update_kind (c : Cfg) (s : Star) (h : (s.state = "massless_remnant" ∧ s.mass = 0) ∨ (s.state ∈ statesCO ∧ 0 < s.mass)) :
    ((updateState c s).state = "massless_remnant" ∧ (updateState c s).mass = 0) ∨ ((updateState c s).state ∈ statesCO ∧ 0 < (updateState c s).mass) := by
  unfold updateState
  by_cases h0 : s.state = "massless_remnant"
  · rw [if_pos h0]
    refine .inl ⟨h0, ?_⟩
    rcases h with h | h
    · exact h.2
    · rw [h0] at h; revert h; simp [statesCO]
  · rw [if_neg h0]
    obtain ⟨h1, h2⟩ := h.resolve_left fun hh => h0 hh.1
    rw [if_pos h1]
    right
    refine ⟨?_, h2⟩
    simp only
    split
    · simp [statesCO]
    · unfold coState
      rw [if_neg (not_le.2 h2)]
      split
      · simp [statesCO]
      · split <;> simp [statesCO]

/-- C34.  The spin of a black hole computed from the angular momentum of the star is between zero and one. -/
theorem C34_spin (s : Star) (m a : ℝ) (hm : 0 < m) (h : spinFromJ s m = .ok (.num a)) : 0 ≤ a ∧ a ≤ 1 := by
  unfold spinFromJ at h
  split at h
  · rename_i j hj
    simp only [Except.ok.injEq, Val.num.injEq] at h
    have hpos : 0 ≤ (10 : ℝ) ^ j * GW.clight / (Orbit.cgrav * (m * Orbit.Msun) ^ 2) := by
      apply div_nonneg
      · exact mul_nonneg (Real.rpow_nonneg (by norm_num) _) (by norm_num [GW.clight])
      · exact mul_nonneg (by norm_num [Orbit.cgrav]) (by positivity)
    split_ifs at h with h1
    · subst h; exact ⟨zero_le_one, le_refl _⟩
    · subst h; exact ⟨hpos, not_lt.1 h1⟩
  · cases h
  · cases h

/-- C34.  After the step the star that collapsed is a white dwarf, a neutron star or a black hole of positive mass, or a massless
remnant of mass zero. -/
theorem C34_remnant_kind (c : Cfg) (b b' : Binary) (h : step c b = .ok b') :
    ((b'.star b.event).state = "massless_remnant" ∧ (b'.star b.event).mass = 0) ∨
      ((b'.star b.event).state ∈ ["BH", "NS", "WD"] ∧ 0 < (b'.star b.event).mass) := by
  obtain ⟨-, s, hs, h1, -⟩ := step_collapse h
  rw [h1.state, h1.mass]
  exact update_kind c s (collapse_kind hs)

/-- C34.  A star collapses only once: after the step the event is empty or the collapse of the other star, which then has
exhausted its carbon. -/
theorem C34_collapses_once (c : Cfg) (b b' : Binary) (h : step c b = .ok b') :
    b'.event = .none ∨ (b'.event = b.event.mirror ∧ (b'.mate b.event).state ∈ statesCDep) := by
  have hk := C34_remnant_kind c b b' h
  have hno : (b'.star b.event).state ∉ statesCDep := by
    intro hd
    rcases hk with ⟨hk, -⟩ | ⟨hk, -⟩
    · rw [hk] at hd; revert hd; decide
    · revert hd
      simp only [List.mem_cons, List.not_mem_nil, or_false] at hk
      rcases hk with hk | hk | hk <;> rw [hk] <;> decide
  obtain ⟨bc, bo, h1, h2, ho, hc⟩ := step_cases h
  obtain ⟨e1, e2, -, -, -, e6⟩ := closing_cases hc
  obtain ⟨he, -⟩ := step_collapse h
  rcases e6 with e6 | ⟨e6, e7⟩ | ⟨e6, e7⟩
  · left; rw [e6]; exact ho.event
  · rw [← e2] at e7
    rcases he with he | he
    · right; rw [he]; exact ⟨e6, e7⟩
    · rw [he] at hno; exact absurd e7 hno
  · rw [← e1] at e7
    rcases he with he | he
    · rw [he] at hno; exact absurd e7 hno
    · right; rw [he]; exact ⟨e6, e7⟩

/-- C34.  The companion keeps its mass and all its properties but the two mass-loss rates, which are reset. -/
theorem C34_companion (c : Cfg) (b b' : Binary) (h : step c b = .ok b') :
    (b'.mate b.event).mass = (b.mate b.event).mass ∧
    (∀ k, k ≠ "lg_mdot" → k ≠ "lg_system_mdot" → (b'.mate b.event).attr k = (b.mate b.event).attr k) ∧
    (b'.mate b.event).attr "lg_mdot" = .none ∧ (b'.mate b.event).attr "lg_system_mdot" = .none := by
  obtain ⟨-, s, hs, -, h1⟩ := step_collapse h
  rw [h1.mass, h1.attr, update_mass, update_attr]
  refine ⟨rfl, ?_, ?_, ?_⟩
  · intro k h1 h2; simp [resetOther, Star.set, h1, h2]
  · simp [resetOther, Star.set]
  · simp [resetOther, Star.set]

/-! ### radius and metallicity of the remnant -/

theorem radius_ok {x y : Star} (h : setRadius x = .ok y) :
    ∃ r, coRadius x.mass x.state = .ok r ∧ y = x.set "log_R" (.num (lg r)) := by
  unfold setRadius at h
  split at h
  · cases h
  · rename_i r hr; cases h; exact ⟨r, hr, rfl⟩

/-- C34.  A neutron star or black hole left by the collapse of the core has the radius of its kind and mass and keeps the last
recorded metallicity; everything else but mass, spin and the mass of the C/O core is forgotten. -/
theorem C34_radius_partial (c : Cfg) (b b' : Binary) (h : step c b = .ok b') (hi : c.useInterp = false)
    (hw : (b'.star b.event).snType ≠ "WD") (hm : (b'.star b.event).state ≠ "massless_remnant") :
    (∃ ty r, (ty = "NS" ∨ ty = "BH") ∧ coRadius (b'.star b.event).mass ty = .ok r ∧ 0 < (b'.star b.event).mass ∧
      (b'.star b.event).attr "log_R" = .num (lg r)) ∧
    (b'.star b.event).attr "metallicity" = (b.star b.event).lastZ ∧
    ∀ k ∈ starProps, k ∉ ["state", "mass", "spin", "log_R", "metallicity", "co_core_mass"] →
      (b'.star b.event).attr k = .none := by
  have hpos := C34_remnant_kind c b b' h
  obtain ⟨-, s, hs, h1, -⟩ := step_collapse h
  rw [h1.snType, update_snType] at hw
  have hm' : s.state ≠ "massless_remnant" := by
    intro h0; apply hm; rw [h1.state]; unfold updateState; rw [if_pos h0]; exact h0
  have hpos := (hpos.resolve_left fun hh => hm hh.1).2
  rw [h1.mass, update_mass] at hpos ⊢
  rw [h1.attr, update_attr]
  obtain ⟨-, ⟨ty, p, h⟩ | ⟨hc, -⟩⟩ := collapse_cases hs
  swap
  · rw [hi] at hc; cases hc
  have hp : ∀ (s : Star) (r : Rem), (prepared c s r).snType = r.snType := by
    intro s r; unfold prepared; split <;> rfl
  obtain ⟨r, -, ⟨h0, s2, h1, h2⟩ | ⟨-, -, rfl⟩ | ⟨h0, m, s2, -, h1, h2⟩⟩ := collapseCore_cases h
  · exfalso
    apply hw
    obtain ⟨x, -, rfl⟩ := radius_ok h1
    unfold wipeWD at h2
    split at h2
    · cases h2
    · cases h2; simp only [Star.set, Star.wipe, hp]; exact h0
  · exact absurd rfl hm'
  · have hst : s2.state = "NS" ∨ s2.state = "BH" := by
      rcases h2 with h2 | h2 | rfl
      · unfold byProfile at h2
        simp only at h2
        split at h2
        · cases h2; right; rfl
        · split at h2
          · cases h2; left; rfl
          · cases h2
      · unfold byCores at h2
        simp only at h2
        split at h2
        · split at h2
          · cases h2
          · cases h2; right; rfl
        · cases h2; left; rfl
      · simp only [bySpinNone, Star.set]; split <;> simp
    have hz : s2.lastZ = (b.star b.event).lastZ := by
      have e := frame_collapse hs
      have f := frame_finish h1
      rw [← f.lastZ, e.lastZ]
    unfold finish at h1
    split at h1
    · cases h1
    · rename_i s3 h3
      obtain ⟨x, hx, rfl⟩ := radius_ok h3
      cases h1
      refine ⟨⟨s2.state, x, hst, hx, hpos, ?_⟩, ?_, ?_⟩
      · simp [Star.wipe, Star.set]
      · simp [Star.wipe, Star.set, hz]
      · intro k hk hn
        have : k ∉ ["state", "mass", "spin", "log_R", "metallicity", "m_disk_accreted", "m_disk_radiated", "co_core_mass"] := by
          simp only [List.mem_cons, List.not_mem_nil, or_false, not_or] at hn ⊢
          refine ⟨hn.1, hn.2.1, hn.2.2.1, hn.2.2.2.1, hn.2.2.2.2.1, ?_, ?_, hn.2.2.2.2.2⟩ <;>
            (rintro rfl; revert hk; decide)
        simp only [Star.wipe]
        rw [if_pos ⟨hk, this⟩]

/-- C34 is false for white dwarfs: the radius is computed, and forgotten together with the metallicity in the loop that follows. -/
theorem C34_white_dwarf_radius_violated (c : Cfg) (b b' : Binary) (h : step c b = .ok b') (hi : c.useInterp = false)
    (hw : (b'.star b.event).snType = "WD") (hm : (b'.star b.event).state ≠ "massless_remnant") :
    (b'.star b.event).attr "log_R" = .none ∧ (b'.star b.event).attr "metallicity" = .none ∧
    (b'.star b.event).attr "he_core_mass" = .num (b'.star b.event).mass ∧
    (b'.star b.event).attr "center_c12" = (b.star b.event).attr "center_c12" := by
  obtain ⟨-, s, hs, h1, -⟩ := step_collapse h
  rw [h1.snType, update_snType] at hw
  rw [h1.mass, update_mass, h1.attr, update_attr]
  have hm' : s.state ≠ "massless_remnant" := by
    intro h0; apply hm; rw [h1.state]; unfold updateState; rw [if_pos h0]; exact h0
  obtain ⟨-, ⟨ty, p, h⟩ | ⟨hc, -⟩⟩ := collapse_cases hs
  swap
  · rw [hi] at hc; cases hc
  have hp : ∀ (s : Star) (r : Rem), (prepared c s r).snType = r.snType ∧ (prepared c s r).attr = s.attr := by
    intro s r; unfold prepared; split <;> exact ⟨rfl, rfl⟩
  obtain ⟨r, -, ⟨h0, s2, h1, h2⟩ | ⟨h0, -, rfl⟩ | ⟨h0, m, s2, -, h1, h2⟩⟩ := collapseCore_cases h
  · obtain ⟨x, -, rfl⟩ := radius_ok h1
    unfold wipeWD at h2
    split at h2
    · cases h2
    · cases h2
      refine ⟨?_, ?_, ?_, ?_⟩
      · simp [Star.wipe, Star.set, starProps]
      · simp [Star.wipe, Star.set, starProps]
      · simp [Star.wipe, Star.set]
      · simp [Star.wipe, Star.set, starProps, (hp _ _).2, enter]
  · exact absurd rfl hm'
  · exfalso
    apply h0
    have ht : s2.snType = r.snType := by
      rw [← (hp { enter (b.star b.event) with interp := p } r).1]
      rcases h2 with h2 | h2 | rfl
      · unfold byProfile at h2
        simp only at h2
        split at h2
        · cases h2; rfl
        · split at h2
          · cases h2; rfl
          · cases h2
      · unfold byCores at h2
        simp only at h2
        split at h2
        · split at h2
          · cases h2
          · cases h2; rfl
        · cases h2; rfl
      · rfl
    rw [← ht]
    unfold finish at h1
    split at h1
    · cases h1
    · rename_i s3 h3
      obtain ⟨x, hx, rfl⟩ := radius_ok h3
      cases h1
      exact hw

/-- C34.  With the interpolated model the radius is kept for every kind of remnant, but the metallicity is lost. -/
theorem C34_interpolated (s s' : Star) (p : Interp) (m : ℝ) (h : fromModel s p m = .ok s') (hp : p.snType ≠ "PISN") :
    s'.mass = m ∧ s'.state = p.state ∧ s'.attr "spin" = p.spin ∧ s'.attr "metallicity" = .none ∧
      ∃ r, coRadius m p.state = .ok r ∧ s'.attr "log_R" = .num (lg r) := by
  unfold fromModel at h
  simp only at h
  by_cases hw : p.state = "WD"
  · simp only [Star.set, hw, if_true] at h
    split at h
    · cases h
    · rename_i s2 h2
      unfold wipeWD at h2
      split at h2
      · cases h2
      · cases h2
        simp only [Star.set, Star.wipe, if_neg hp] at h
        obtain ⟨r, hr, rfl⟩ := radius_ok h
        simp only at hr
        refine ⟨rfl, hw.symm, ?_, ?_, r, ?_, ?_⟩
        · simp [Star.set, starProps]
        · simp [Star.set, starProps]
        · rw [hw]; exact hr
        · simp [Star.set]
  · simp only [Star.set, hw, if_false, Star.wipe, if_neg hp] at h
    obtain ⟨r, hr, rfl⟩ := radius_ok h
    refine ⟨rfl, rfl, ?_, ?_, r, hr, ?_⟩
    · simp [Star.set, starProps]
    · simp [Star.set, starProps]
    · simp [Star.set]

/-- C34.  The type of supernova read off the cores is never a pair-instability one (`C48_type`), so an interpolated model with a
pulsational or full pair-instability supernova is never used: the step falls back on the profile or the cores. -/
theorem C34_interpolated_pair_instability (ty pty state : String) (m : Option ℝ) (h : useModel ty pty state m = true)
    (ht : ty = "WD" ∨ ty = "ECSN" ∨ ty = "CCSN") : pty = ty ∧ ty ≠ "ECSN" ∧ pty ≠ "PISN" ∧ pty ≠ "PPISN" ∧ m.isSome ∧
      (state = "WD" → pty = "WD") ∧ (state = "NS" → pty = "CCSN") ∧ (state = "BH" → pty = "CCSN") := by
  unfold useModel at h
  by_cases h1 : ty = "ECSN"
  · rw [if_pos h1] at h; cases h
  rw [if_neg h1] at h
  by_cases h2 : ty ≠ pty
  · rw [if_pos h2] at h; cases h
  rw [if_neg h2] at h
  by_cases h3 : (!(SN.coMatch pty state)) = true
  · rw [if_pos h3] at h; cases h
  rw [if_neg h3] at h
  have h2 : pty = ty := by rw [not_not] at h2; exact h2.symm
  subst h2
  have h3 : SN.coMatch pty state = true := by simpa using h3
  refine ⟨rfl, h1, ?_, ?_, h, ?_, ?_, ?_⟩
  · rintro rfl; simp at ht
  · rintro rfl; simp at ht
  · rintro rfl
    by_contra hc
    simp [SN.coMatch, hc] at h3
  · rintro rfl
    rcases ht with rfl | rfl | rfl
    · simp [SN.coMatch] at h3
    · exact absurd rfl h1
    · rfl
  · rintro rfl
    rcases ht with rfl | rfl | rfl
    · simp [SN.coMatch] at h3
    · exact absurd rfl h1
    · rfl

example : useModel "CCSN" "CCSN" "BH" (some 10) = true ∧ useModel "CCSN" "PPISN" "BH" (some 40) = false := by
  constructor <;> simp [useModel, SN.coMatch]

/-! ### the state of the remnant -/

/-- C34.  The kind of remnant chosen by the collapse is the one the binary has after the step if its mass lies in the range used
by the classification of stars: neutron stars between 1.1 and 2.5, black holes above. -/
theorem C34_state_kept_partial (c : Cfg) (b b' : Binary) (s : Star) (h : step c b = .ok b')
    (hs : collapse c (b.star b.event) = .ok s) (hl : (b.star b.event).lastState ≠ "WD")
    (hn : s.state = "NS" → 11 / 10 ≤ s.mass ∧ s.mass ≤ 5 / 2) (hb : s.state = "BH" → 5 / 2 < s.mass) :
    (b'.star b.event).state = s.state := by
  obtain ⟨-, s', hs', h1, -⟩ := step_collapse h
  rw [hs] at hs'
  cases hs'
  rw [h1.state]
  have hl' : s.lastState ≠ "WD" := by rw [(frame_collapse hs).lastState]; exact hl
  unfold updateState
  rcases collapse_kind hs with ⟨h0, -⟩ | ⟨h0, -⟩
  · rw [if_pos h0]
  · simp only [statesCO, List.mem_cons, List.not_mem_nil, or_false] at h0
    rcases h0 with h0 | h0 | h0
    · have := hb h0
      rw [if_neg (by rw [h0]; decide), if_pos (by rw [h0]; decide)]
      simp only [hl', h0, coState]
      rw [if_neg (by simp), if_neg (by linarith), if_neg (by linarith), if_neg (by linarith)]
    · have := hn h0
      rw [if_neg (by rw [h0]; decide), if_pos (by rw [h0]; decide)]
      simp only [hl', h0, coState]
      rw [if_neg (by simp), if_neg (by linarith), if_neg (by linarith), if_pos (by linarith)]
    · rw [if_neg (by rw [h0]; decide), if_pos (by rw [h0]; decide)]
      simp [h0]

/-- C34 is false in full: the option `max_NS_mass` of the supernova step has no effect on the state after the step, which is
decided by the mass alone, with the fixed limits 1.1 and 2.5. -/
theorem C34_state_overwritten_violated (c : Cfg) (b b' : Binary) (s : Star) (h : step c b = .ok b')
    (hs : collapse c (b.star b.event) = .ok s) (hl : (b.star b.event).lastState ≠ "WD") (hn : s.state = "NS" ∨ s.state = "BH") :
    (s.mass < 11 / 10 → (b'.star b.event).state = "WD") ∧
    (11 / 10 ≤ s.mass → s.mass ≤ 5 / 2 → (b'.star b.event).state = "NS") ∧
    (5 / 2 < s.mass → (b'.star b.event).state = "BH") := by
  obtain ⟨-, s', hs', h1, -⟩ := step_collapse h
  rw [hs] at hs'
  cases hs'
  rw [h1.state]
  have hl' : s.lastState ≠ "WD" := by rw [(frame_collapse hs).lastState]; exact hl
  have hpos : 0 < s.mass := by
    rcases collapse_kind hs with ⟨h0, -⟩ | ⟨-, h0⟩
    · rcases hn with hn | hn <;> rw [hn] at h0 <;> exact absurd h0 (by decide)
    · exact h0
  have key : (updateState c s).state = coState s.mass := by
    unfold updateState
    rcases hn with h0 | h0
    · rw [if_neg (by rw [h0]; decide), if_pos (by rw [h0]; decide)]
      simp [hl', h0]
    · rw [if_neg (by rw [h0]; decide), if_pos (by rw [h0]; decide)]
      simp [hl', h0]
  rw [key]
  unfold coState
  rw [if_neg (not_le.2 hpos)]
  refine ⟨fun h => by rw [if_pos h], fun h1 h2 => by rw [if_neg (by linarith), if_pos h2],
    fun h => by rw [if_neg (by linarith), if_neg (by linarith)]⟩

/-- C34.  A binary with a settings file that lets neutron stars grow to 2 solar masses only: the collapse leaves a black hole of
2.2 solar masses, which the step turns into a neutron star. -/
example : coState 2.2 = "NS" ∧ SN.stateByMass 2 2.2 = .BH := by
  constructor
  · unfold coState; norm_num
  · unfold SN.stateByMass; norm_num

/-! ### the orbit -/

/-- The step with kicks of a star that does not become a white dwarf: the collapse `bc`, the star `s` with its kick, the binary
`bk` with this star, and what `afterKick` makes of it. -/
theorem step_kicked {c : Cfg} {b b' : Binary} (hk : c.kick = true) (h : step c b = .ok b')
    (hw : (b'.star b.event).snType ≠ "WD") :
    ∃ bc s v f t a bk p bo, collapsed c b = .ok bc ∧ kicked c (bc.star b.event) = .ok (s, v, f, t, a) ∧
      bk.star b.event = s ∧ bk.state = b.state ∧ bk.lastTime = b.lastTime ∧ afterKick c bk p = .ok bo ∧ closing bo = .ok b' ∧
      Frame (b.star b.event) (bc.star b.event) := by
  obtain ⟨bc, bo, h1, h2, ho, hc⟩ := step_cases h
  obtain ⟨e1, e2, -⟩ := closing_cases hc
  obtain ⟨he, -⟩ := step_collapse h
  obtain ⟨f1, f2, f3, f4, f5, f6, f7, -⟩ := collapsed_frame h1
  rw [hk] at h2
  simp only [if_true, orbitalKick, f4] at h2
  rcases he with he | he
  · rw [he] at h2 hw ⊢
    simp only [Binary.star, e1, ho.same1.snType] at hw
    simp only [if_neg hw] at h2
    split at h2
    · cases h2
    · rename_i s v f t a hkk
      exact ⟨bc, s, v, f, t, a, { bc with s1 := s }, _, bo, h1, hkk, rfl, f3, f7, by rw [← he, ← f4] at h2; exact h2, hc, f1⟩
  · rw [he] at h2 hw ⊢
    simp only [Binary.star, e2, ho.same2.snType] at hw
    simp only [if_neg hw] at h2
    split at h2
    · cases h2
    · rename_i s v f t a hkk
      exact ⟨bc, s, v, f, t, a, { bc with s2 := s }, _, bo, h1, hkk, rfl, f3, f7, by rw [← he, ← f4] at h2; exact h2, hc, f2⟩

/-- C34.  The kick: a velocity or angle given beforehand is used as it is, the others are drawn and recorded with the star. -/
theorem C34_kick_recorded (c : Cfg) (b b' : Binary) (hk : c.kick = true) (h : step c b = .ok b')
    (hw : (b'.star b.event).snType ≠ "WD") :
    (∃ v, (b'.star b.event).kickV = some v ∧ ∀ x, (b.star b.event).kickV = some x → v = x) ∧
    (b'.star b.event).kickPhi = some ((b.star b.event).kickPhi.getD c.uPhi) ∧
    (b'.star b.event).kickTheta = some ((b.star b.event).kickTheta.getD (Real.arccos c.uCos)) ∧
    (b'.star b.event).kickAnomaly = some ((b.star b.event).kickAnomaly.getD c.uAnomaly) ∧ b'.firstSN = true := by
  obtain ⟨bc, s, v, f, t, a, bk, p, bo, h1, h2, h3, -, -, h4, h5, hf⟩ := step_kicked hk h hw
  obtain ⟨e1, e2, -, -, e5, -⟩ := closing_cases h5
  obtain ⟨k1, k2⟩ := kicked_kicks h2
  have k3 : (b'.star b.event).kicks = s.kicks := by
    rw [← h3]
    have := afterKick_kicks h4
    unfold Binary.star
    split
    · rw [e2, this.2]
    · rw [e1, this.1]
  rw [k1] at k3
  simp only [Star.kicks, Prod.mk.injEq] at k3
  obtain ⟨a1, a2, a3, a4⟩ := k3
  rw [hf.kickPhi] at a2
  rw [hf.kickTheta] at a3
  rw [hf.kickAnomaly] at a4
  rw [hf.kickV] at k2
  exact ⟨⟨v, a1, k2⟩, a2, a3, a4, by rw [e5, (outcome_afterKick h4).2]⟩

/-- C34.  A binary that was already disrupted, merged or single keeps its state; it has no orbit, unless a white dwarf forms. -/
theorem C34_alone (c : Cfg) (b b' : Binary) (hk : c.kick = true) (h : step c b = .ok b') (ha : alone b.state = true) :
    b'.state = b.state ∧ ((b'.star b.event).snType ≠ "WD" → b'.attr "separation" = .nan ∧ b'.attr "eccentricity" = .nan ∧
      b'.attr "orbital_period" = .nan ∧ b'.attr "time" = b.lastTime) := by
  constructor
  · obtain ⟨bc, bo, h1, h2, ho, hc⟩ := step_cases h
    obtain ⟨-, -, e3, -⟩ := closing_cases hc
    obtain ⟨-, -, f3, f4, -⟩ := collapsed_frame h1
    rw [e3]
    rw [hk] at h2
    simp only [if_true] at h2
    have hWD : ∀ x y, afterWD bc x y = .ok bo → bo.state = b.state := by
      intro x y h
      unfold afterWD at h
      split at h
      · cases h
      · split at h
        · cases h
        · cases h
          simp only [Binary.set, Binary.wipe, f3, ha, if_true]
    have hK : ∀ b2 p, afterKick c b2 p = .ok bo → b2.state = b.state → bo.state = b.state := by
      intro b2 p h hb
      unfold afterKick at h
      rw [hb, ha] at h
      cases h
      exact hb
    unfold orbitalKick at h2
    split at h2
    · split at h2
      · exact hWD _ _ h2
      · split at h2
        · cases h2
        · exact hK _ _ h2 f3
    · split at h2
      · exact hWD _ _ h2
      · split at h2
        · cases h2
        · exact hK _ _ h2 f3
    · cases h2
  · intro hw
    obtain ⟨bc, s, v, f, t, a, bk, p, bo, h1, h2, h3, h4, h5, h6, h7, hf⟩ := step_kicked hk h hw
    obtain ⟨-, -, -, e4, -⟩ := closing_cases h7
    rw [e4 _ (by decide), e4 _ (by decide), e4 _ (by decide), e4 _ (by decide)]
    unfold afterKick at h6
    rw [h4, ha] at h6
    cases h6
    obtain ⟨-, -, -, -, g1, g2, g3, g4⟩ := noOrbit_eq (bk.wipe ["nearest_neighbour_distance", "state"])
    exact ⟨g1, g2, g3, g4.trans h5⟩

/-- C34.  In a binary, a star that leaves no remnant disrupts it: the state is `disrupted`, there is no orbit and the time to merge
is undefined. -/
theorem C34_no_remnant (c : Cfg) (b b' : Binary) (hk : c.kick = true) (h : step c b = .ok b') (ha : alone b.state = false)
    (hw : (b'.star b.event).snType ≠ "WD") (hm : (b'.star b.event).state = "massless_remnant") :
    b'.state = "disrupted" ∧ b'.attr "separation" = .nan ∧ b'.attr "eccentricity" = .nan ∧ b'.attr "orbital_period" = .nan ∧
      b'.attr "inspiral_time" = .nan ∧ b'.attr "time" = b.lastTime ∧ b'.event = .none := by
  obtain ⟨bc, s, v, f, t, a, bk, p, bo, h1, h2, h3, h4, h5, h6, h7, hf⟩ := step_kicked hk h hw
  obtain ⟨e1, e2, e3, e4, -⟩ := closing_cases h7
  rw [e4 _ (by decide), e4 "eccentricity" (by decide), e4 "orbital_period" (by decide), e4 "time" (by decide), e3]
  have hb : bk.s1.state = "massless_remnant" ∨ bk.s2.state = "massless_remnant" := by
    have := (outcome_afterKick h6).1
    have g1 := this.same1.state
    have g2 := this.same2.state
    revert hm
    unfold Binary.star
    split
    · rw [e2, g2]; exact .inr
    · rw [e1, g1]; exact .inl
  have hbo : bo = noOrbit { tiltsNan bk with state := "disrupted" } := by
    unfold afterKick at h6
    rw [h4, ha] at h6
    simp only [Bool.false_eq_true, if_false, if_pos hb, Except.ok.injEq] at h6
    exact h6.symm
  obtain ⟨-, -, g0, g9, g1, g2, g3, g4⟩ := noOrbit_eq { tiltsNan bk with state := "disrupted" }
  have hst : bo.state = "disrupted" := by rw [hbo]; exact g0
  have hcl : b' = bo.set "inspiral_time" .nan := by
    unfold closing at h7
    rw [if_pos (.inl hst)] at h7
    cases h7; rfl
  rw [hst, hcl]
  refine ⟨rfl, by rw [hbo]; exact g1, by rw [hbo]; exact g2, by rw [hbo]; exact g3, by simp [Binary.set], ?_, ?_⟩
  · rw [hbo, g4]
    rw [← h5]
    exact (same_tiltsNan bk).2.2.2.2.2
  · rw [hbo]; exact g9

/-- C34.  The first supernova of a binary that survives the kick: the new orbit, the period that belongs to it, the time of the
last record, and the tilt of the orbit recorded with both stars. -/
theorem C34_first_supernova_survived (c : Cfg) (b : Binary) (p : Pre) (a e : ℝ) (ha : alone b.state = false)
    (h1 : b.s1.state ≠ "massless_remnant") (h2 : b.s2.state ≠ "massless_remnant") (hs : p.sep = .num a) (he : p.ecc = .num e)
    (ho : (c.orbit p).survives = true) (hf : b.firstSN = false) :
    ∃ b', afterKick c b p = .ok b' ∧ b'.state = "detached" ∧ b'.event = .none ∧
      b'.attr "separation" = .num (c.orbit p).sep ∧ b'.attr "eccentricity" = .num (c.orbit p).ecc ∧
      b'.attr "orbital_period" = .num (periodFromSep (c.orbit p).sep b.s1.mass b.s2.mass) ∧ b'.attr "time" = b.lastTime ∧
      b'.attr "V_sys" = .vec (c.orbit p).vx (c.orbit p).vy (c.orbit p).vz ∧
      b'.s1 = { b.s1 with tilt1 := .num (c.orbit p).tilt } ∧ b'.s2 = { b.s2 with tilt1 := .num (c.orbit p).tilt } ∧
      b'.nu1 = some (.num (c.orbit p).nu) ∧ b'.firstSN = true := by
  unfold afterKick
  rw [ha, if_neg (by simp), if_neg (by rintro (h | h); exacts [h1 h, h2 h]), hs, he]
  simp only [ho, if_true, tilts, Binary.wipe, hf, Bool.not_false]
  refine ⟨_, rfl, rfl, rfl, ?_, ?_, ?_, ?_, ?_, rfl, rfl, rfl, rfl⟩ <;> simp [Binary.set]

/-! ### errors -/

/-- C34.  The step fails for any other event, for a star that cannot collapse, and where neither a profile nor the cores may be
used. -/
theorem C34_errors (c : Cfg) (b : Binary) :
    ((∀ s, b.event = .other s → step c b = .error .value) ∧ (b.event = .none → step c b = .error .value)) ∧
    (b.event = .CC1 ∨ b.event = .CC2 → (b.star b.event).state ∉ statesCC → step c b = .error .model) ∧
    (∀ r m, b.event = .CC1 ∨ b.event = .CC2 → (b.star b.event).state ∈ statesCC → c.useInterp = false →
      c.rem (enter (b.star b.event)) = .ok r → r.snType ≠ "WD" → r.m = some m →
      (c.useProfiles = false ∨ ∀ p, (b.star b.event).attr "profile" ≠ .str p) → c.useCoreMasses = false →
      c.allowSpinNone = false → step c b = .error .model) := by
  have key : ∀ e, b.event = .CC1 ∨ b.event = .CC2 → collapse c (b.star b.event) = .error e → step c b = .error e := by
    intro e he hc
    unfold step collapsed
    rcases he with he | he <;> rw [he] at hc ⊢ <;> simp only [Binary.star] at hc <;> simp only [hc]
  refine ⟨⟨fun s hs => ?_, fun hs => ?_⟩, fun he hs => ?_, fun r m he hs hi hr hw hm hp hc ha => ?_⟩
  · unfold step collapsed; rw [hs]
  · unfold step collapsed; rw [hs]
  · exact key _ he (by unfold collapse; rw [if_neg hs])
  · refine key _ he ?_
    unfold collapse
    rw [if_pos hs, hi]
    simp only [Bool.false_eq_true, if_false]
    unfold collapseCore
    rw [hr]
    simp only [if_neg hw, hm, hc, ha, Bool.false_eq_true, false_or, if_false]
    rw [if_neg, if_neg (by decide)]
    rintro ⟨h1, p, h2⟩
    rcases hp with hp | hp
    · rw [hp] at h1; cases h1
    · exact hp p h2

/-! ### the concrete case -/

theorem exCollapse : ∃ s, collapse exCfg exStar = .ok s ∧ s.mass = 19 / 2 ∧ s.state = "BH" ∧ s.snType = "CCSN" ∧
    s.lastState = "stripped_He_Core_C_depleted" ∧ s.lastMass = 10 ∧ s.tilt1 = .none ∧ s.kickV = none := by
  have hj : ∀ s : Star, s.attr = exStar.attr → ∃ a, spinFromJ s (19 / 2) = .ok a := by
    intro s hs
    have : s.attr "log_total_angular_momentum" = .num 0 := by rw [hs]; simp [exStar]
    unfold spinFromJ
    rw [this]
    exact ⟨_, rfl⟩
  have hr : ∃ r, coRadius (19 / 2) "BH" = .ok r := ⟨_, by unfold coRadius; rw [if_neg (by norm_num), if_pos rfl]⟩
  obtain ⟨r, hr⟩ := hr
  unfold collapse
  rw [if_pos (by simp [exStar, statesCC])]
  have hi : exCfg.useInterp = false := rfl
  rw [hi]
  simp only [Bool.false_eq_true, if_false]
  unfold collapseCore
  have h1 : exCfg.rem (enter exStar) = .ok ⟨"CCSN", some 10, .num 1, "BH"⟩ := rfl
  rw [h1]
  have h2 : exCfg.engine = false := rfl
  have h3 : exCfg.useProfiles = false := rfl
  have h4 : exCfg.useCoreMasses = true := rfl
  have h5 : exCfg.maxNu = 1 / 2 := rfl
  have h6 : exCfg.maxNS = 5 / 2 := rfl
  simp only [h2, h3, h4, h5, exGrav, Bool.false_eq_true, if_false, false_and, true_or, if_true]
  rw [if_neg (by decide)]
  simp only [byCores, h6]
  rw [if_pos (by norm_num)]
  have hj' := hj { enter exStar with snType := "CCSN", fFb := .num 1, mass := 19 / 2, diskAcc := .num 0, diskRad := .num 0, hEj := .nan, heEj := .nan } rfl
  obtain ⟨a, ha⟩ := hj'
  simp only [ha]
  simp only [finish, setRadius, Star.set, hr]
  exact ⟨_, rfl, rfl, rfl, rfl, rfl, rfl, rfl, rfl⟩

/-- A step that succeeds: the helium star of 10 solar masses becomes a black hole of 9.5 solar masses without a kick in speed, the
kick direction is drawn, and the binary is detached. -/
example : ∃ b', step exCfg exBinary = .ok b' ∧ b'.s2.state = "BH" ∧ b'.s2.mass = 19 / 2 ∧ b'.s2.snType = "CCSN" ∧
    b'.state = "detached" ∧ b'.s2.kickV = some 0 ∧ b'.attr "separation" = .num 30 := by
  obtain ⟨s, hs, m, st, ty, ls, lm, t1, kv⟩ := exCollapse
  have hu : updateState exCfg s = s := by
    unfold updateState
    rw [if_neg (by rw [st]; decide), if_pos (by rw [st]; decide)]
    have : (if s.lastState = "WD" ∨ s.state = "WD" then "WD" else coState s.mass) = s.state := by
      rw [ls, st, m, if_neg (by decide)]; unfold coState; norm_num
    rw [this]
  have hy : updateState exCfg (resetOther exBinary.s1) = resetOther exBinary.s1 := by
    unfold updateState
    rw [if_neg (by simp [resetOther, exBinary, Star.set]), if_neg (by simp [resetOther, exBinary, Star.set, statesCO])]
    rfl
  have hkk : kickSpeed exCfg s = .ok 0 := by
    unfold kickSpeed
    rw [kv, ty, st]
    simp [exCfg]
  obtain ⟨s', f, th, a, hkd, lm'⟩ : ∃ s' f th a, kicked exCfg s = .ok (s', 0, f, th, a) ∧ s'.lastMass = 10 := by
    unfold kicked
    rw [if_pos (by rw [ls]; decide), hkk]
    exact ⟨_, _, _, _, rfl, lm⟩
  obtain ⟨sm, -, kv', -⟩ := same_kicked hkd
  have hcol : collapsed exCfg exBinary = .ok { exBinary with s1 := resetOther exBinary.s1, s2 := s } := by
    unfold collapsed
    have he : exBinary.event = .CC2 := rfl
    have h2 : exBinary.s2 = exStar := rfl
    rw [he, h2]
    simp only [hs, hu, hy]
    rw [← he]
  obtain ⟨b', hb, g1, g2, g3, g4, g5, g6, g7, g8, g9, -⟩ := C34_first_supernova_survived exCfg
    { exBinary with s1 := resetOther exBinary.s1, s2 := s' }
    ⟨s'.lastMass, (resetOther exBinary.s1).mass, s'.mass, .num 100, .num 0, 0, f, th, a⟩ 100 0
    (show alone "detached" = false by decide) (by simp [resetOther, exBinary, Star.set])
    (by rw [show _ = s'.state from rfl, sm.state, st]; decide) rfl rfl rfl rfl
  have hcl : closing b' = .ok b' := by
    unfold closing
    rw [g1, g8, g9]
    simp [sm.state, st, statesCO, statesCDep, resetOther, exBinary, Star.set]
  refine ⟨b', ?_, ?_, ?_, ?_, g1, ?_, ?_⟩
  · unfold step
    rw [hcol]
    have hk : exCfg.kick = true := rfl
    have hev : exBinary.event = .CC2 := rfl
    have hsep : exBinary.attr "separation" = .num 100 := by simp [exBinary]
    have hecc : exBinary.attr "eccentricity" = .num 0 := by simp [exBinary]
    simp only [hev] at hb
    simp only [hk, if_true, orbitalKick, ty, hev, hsep, hecc]
    rw [if_neg (by decide)]
    simp only [hkd, hb]
    exact hcl
  · rw [g9]; exact sm.state.trans st
  · rw [g9]; exact sm.mass.trans m
  · rw [g9]; exact sm.snType.trans ty
  · rw [g9]; exact kv'
  · rw [g3]
    simp only [exCfg, lm', resetOther, Star.set, exBinary]
    norm_num

/-- C34: a speed given beforehand is used as it is; otherwise an electron-capture supernova draws from its own distribution, and any other from that of the remnant it
leaves, a neutron star, a black hole or none; nothing else draws a kick. -/
theorem C34_kick_source (c : Cfg) (s : Star) :
    (∀ v, s.kickV = some v → kickSpeed c s = .ok v) ∧
    (s.kickV = none →
      (s.snType = "ECSN" → kickSpeed c s = c.genECSN s) ∧
      (s.snType ∈ ["CCSN", "PPISN", "PISN"] →
        (s.state = "NS" → kickSpeed c s = c.genNS s) ∧ (s.state = "BH" → kickSpeed c s = c.genBH s) ∧
        (s.state = "massless_remnant" → kickSpeed c s = c.genNone s) ∧
        (s.state ∉ ["NS", "BH", "massless_remnant"] → kickSpeed c s = .error .value)) ∧
      (s.snType ∉ ["ECSN", "CCSN", "PPISN", "PISN", "WD"] → kickSpeed c s = .error .value)) := by
  unfold kickSpeed
  refine ⟨fun v h => by rw [h], fun h => ?_⟩
  rw [h]
  dsimp only
  refine ⟨fun h1 => if_pos h1, fun h1 => ?_, fun h1 => ?_⟩
  · have h2 : s.snType = "CCSN" ∨ s.snType = "PPISN" ∨ s.snType = "PISN" := by simpa using h1
    have h3 : s.snType ≠ "ECSN" := by rcases h2 with e | e | e <;> rw [e] <;> decide
    rw [if_neg h3, if_pos h2]
    refine ⟨fun e => if_pos e, fun e => ?_, fun e => ?_, fun e => ?_⟩
    · rw [if_neg (by rw [e]; decide), if_pos e]
    · rw [if_neg (by rw [e]; decide), if_neg (by rw [e]; decide), if_pos e]
    · simp only [List.mem_cons, List.not_mem_nil, or_false, not_or] at e
      rw [if_neg e.1, if_neg e.2.1, if_neg e.2.2]
  · simp only [List.mem_cons, List.not_mem_nil, or_false, not_or] at h1
    rw [if_neg h1.1, if_neg (by rintro (e | e | e); exacts [h1.2.1 e, h1.2.2.1 e, h1.2.2.2.1 e])]

end Verif.SNStep
