import Verif.SN
import Mathlib.Tactic.FieldSimp
import Mathlib.Tactic.Positivity
/-!
Properties C48 (type of a core collapse) and C32 (remnant masses and fallback fractions).
-/
namespace Verif.SN

/-! ### C48 -/

theorem checkType_real (e : Ecsn) (he : e ≠ .other) (mc mhe ms : ℝ) :
    checkType e (some mc) (some mhe) ms =
      if typeSpec e mc mhe = .WD then (wdMass (some mc) (some mhe) ms).map (fun m => (some (m, 1), .WD))
      else .ok (none, typeSpec e mc mhe) := by
  cases e with
  | other => exact absurd rfl he
  | tauris15 =>
    simp only [checkType, typeSpec, deciding, lower, upper, ltN, gtN]
    by_cases h1 : mc < 1.37
    · simp [h1]; cases wdMass (some mc) (some mhe) ms <;> rfl
    · by_cases h2 : mc ≤ 1.43
      · have h3 : ¬ 1.43 < mc := not_lt.mpr h2
        simp [h1, h2, h3]
      · have h3 : 1.43 < mc := not_le.mp h2
        simp [h1, h2, h3]
  | podsiadlowski04 =>
    simp only [checkType, typeSpec, deciding, lower, upper, ltN, gtN]
    by_cases h1 : mhe < 1.4
    · simp [h1]; cases wdMass (some mc) (some mhe) ms <;> rfl
    · by_cases h2 : mhe ≤ 2.5
      · have h3 : ¬ 2.5 < mhe := not_lt.mpr h2
        simp [h1, h2, h3]
      · have h3 : 2.5 < mhe := not_le.mp h2
        simp [h1, h2, h3]
  | none =>
    simp only [checkType, typeSpec, deciding, lower, upper, ltN, gtN]
    by_cases h1 : mc < 1.37
    · simp [h1]; cases wdMass (some mc) (some mhe) ms <;> rfl
    · simp [h1]

/-- C48: for every option and all masses the type is the one of the documented intervals, whenever there is a result. -/
theorem C48_type (e : Ecsn) (he : e ≠ .other) (mc mhe ms : ℝ) (w : Option (Option ℝ × ℝ)) (ty : SNType)
    (h : checkType e (some mc) (some mhe) ms = .ok (w, ty)) : ty = typeSpec e mc mhe := by
  rw [checkType_real e he] at h
  by_cases hw : typeSpec e mc mhe = .WD
  · rw [if_pos hw] at h
    cases hm : wdMass (some mc) (some mhe) ms with
    | error x => rw [hm] at h; simp [Except.map] at h
    | ok m => rw [hm] at h; simp [Except.map] at h; rw [hw, h.2]
  · rw [if_neg hw] at h
    simp at h; exact h.2.symm

/-- C48: there is no result exactly for a would-be white dwarf without a core that weighs at least half a solar mass; the error is a `ModelError`. -/
theorem C48_defined (e : Ecsn) (he : e ≠ .other) (mc mhe ms : ℝ) (x : Err) :
    checkType e (some mc) (some mhe) ms = .error x ↔
      x = .model ∧ typeSpec e mc mhe = .WD ∧ mc ≤ 0 ∧ mhe ≤ 0 ∧ 0.5 ≤ ms := by
  rw [checkType_real e he]
  by_cases hw : typeSpec e mc mhe = .WD
  · rw [if_pos hw]
    unfold wdMass
    simp only [gtN]
    by_cases h1 : 0 < mc
    · simp [h1, Except.map, not_le.mpr h1]
    · by_cases h2 : 0 < mhe
      · simp [h1, h2, Except.map, not_le.mpr h2]
      · by_cases h3 : ms < 0.5
        · simp [h1, h2, h3, Except.map, not_le.mpr h3]
        · simp [h1, h2, h3, Except.map, hw, not_lt.mp h1, not_lt.mp h2, not_lt.mp h3]
          exact eq_comm
  · rw [if_neg hw]; simp [hw]

example : checkType .tauris15 (some 0) (some 0) 3 = .error .model :=
  (C48_defined .tauris15 (by decide) 0 0 3 .model).mpr ⟨rfl, by simp [typeSpec, deciding, lower]; norm_num, by norm_num⟩

/-- C48: the mass of a white dwarf is the carbon-oxygen core, else the helium core, else the star; it falls back completely. -/
theorem C48_white_dwarf (e : Ecsn) (he : e ≠ .other) (mc mhe ms : ℝ) (m : Option ℝ) (f : ℝ) (ty : SNType)
    (h : checkType e (some mc) (some mhe) ms = .ok (some (m, f), ty)) :
    ty = .WD ∧ f = 1 ∧ m = some (if 0 < mc then mc else if 0 < mhe then mhe else ms) := by
  rw [checkType_real e he] at h
  by_cases hw : typeSpec e mc mhe = .WD
  · rw [if_pos hw] at h
    unfold wdMass at h
    simp only [gtN] at h
    by_cases h1 : 0 < mc
    · simp [h1, Except.map] at h ⊢; exact ⟨h.2.symm, h.1.2.symm, h.1.1.symm⟩
    · by_cases h2 : 0 < mhe
      · simp [h1, h2, Except.map] at h ⊢; exact ⟨h.2.symm, h.1.2.symm, h.1.1.symm⟩
      · by_cases h3 : ms < 0.5
        · simp [h1, h2, h3, Except.map] at h ⊢; exact ⟨h.2.symm, h.1.2.symm, h.1.1.symm⟩
        · simp [h1, h2, h3, Except.map] at h
  · rw [if_neg hw] at h; simp at h

/-- order of the types by core mass -/
def rank : SNType → ℕ
  | .WD => 0 | .ECSN => 1 | .CCSN => 2 | .PPISN => 3 | .PISN => 4

/-- C48: a heavier core never gives a lighter type. -/
theorem C48_monotone (e : Ecsn) (mc mhe mc' mhe' : ℝ) (h : deciding e mc mhe ≤ deciding e mc' mhe') :
    rank (typeSpec e mc mhe) ≤ rank (typeSpec e mc' mhe') := by
  unfold typeSpec
  by_cases h1 : deciding e mc mhe < lower e
  · rw [if_pos h1]; exact Nat.zero_le _
  · rw [if_neg h1, if_neg (fun hh => h1 (lt_of_le_of_lt h hh))]
    cases upper e with
    | none => exact le_refl _
    | some u =>
      dsimp only
      by_cases h2 : deciding e mc' mhe' ≤ u
      · rw [if_pos h2, if_pos (h.trans h2)]
      · rw [if_neg h2]; by_cases h3 : deciding e mc mhe ≤ u <;> simp [h3, rank]

/-- C48: an unknown option is refused for all masses. -/
theorem C48_unknown_option (mc mhe : Option ℝ) (ms : ℝ) : checkType .other mc mhe ms = .error .value := rfl

/-- C48: an undefined core mass is refused by both electron-capture options. -/
theorem C48_undefined_core (mhe : Option ℝ) (ms : ℝ) (mc : Option ℝ) :
    checkType .tauris15 none mhe ms = .error .value ∧ checkType .podsiadlowski04 mc none ms = .error .value := by
  constructor <;> simp [checkType, ltN, gtN]

/-- C48 fails: without an electron-capture option an undefined core mass counts as core collapse. -/
theorem C48_undefined_core_violated (mhe : Option ℝ) (ms : ℝ) : checkType .none none mhe ms = .ok (none, .CCSN) := by
  simp [checkType, ltN]

/-- The documented pairs of supernova type and remnant. -/
def pairs : List (String × String) :=
  [("WD", "WD"), ("ECSN", "NS"), ("CCSN", "NS"), ("CCSN", "BH"), ("PPISN", "BH"), ("PISN", "massless_remnant"), ("PISN", "PISN")]

/-- C48: for remnants the check accepts exactly the documented pairs, whatever the type. -/
theorem C48_match (ty st : String) (h : st ∈ ["WD", "NS", "BH", "massless_remnant", "PISN"]) :
    coMatch ty st = true ↔ (ty, st) ∈ pairs := by
  simp only [List.mem_cons, List.not_mem_nil, or_false] at h
  rcases h with h | h | h | h | h <;> subst h <;> simp [coMatch, pairs]

/-- C48 fails: any other state, for instance that of a star which did not collapse, is accepted with every type. -/
theorem C48_match_violated (ty st : String) (h : st ∉ ["WD", "NS", "BH", "massless_remnant", "PISN"]) : coMatch ty st = true := by
  simp only [List.mem_cons, List.not_mem_nil, or_false, not_or] at h
  simp [coMatch, h]

/-- C48: the explosion criterion: agreeing indicators decide, otherwise the product `mu4 M4` and the line decide. -/
theorem C48_explosion (Xi sc p mu4 k1 k2 : ℝ) :
    (Xi > 0.544 ∨ sc > 1.169 → 0.314 ≤ Xi → 0.988 ≤ sc → explodes Xi sc p mu4 k1 k2 = false) ∧
    (Xi < 0.314 ∨ sc < 0.988 → Xi ≤ 0.544 → sc ≤ 1.169 → explodes Xi sc p mu4 k1 k2 = true) ∧
    (0.314 ≤ Xi → Xi ≤ 0.544 → 0.988 ≤ sc → sc ≤ 1.169 →
      (explodes Xi sc p mu4 k1 k2 = true ↔ p < 0.247 ∨ (p ≤ 0.421 ∧ k1 + k2 * p ≤ mu4))) := by
  refine ⟨fun h h1 h2 => ?_, fun h h1 h2 => ?_, fun h1 h2 h3 h4 => ?_⟩
  · have hn : ¬(Xi < 0.314 ∨ sc < 0.988) := fun hh => hh.elim (fun x => absurd x (not_lt.mpr h1)) (fun x => absurd x (not_lt.mpr h2))
    unfold explodes
    rw [if_neg (fun hh => hh.elim (fun x => hn x.2) (fun x => x.1 h)), if_neg hn]
  · have hn : ¬(Xi > 0.544 ∨ sc > 1.169) := fun hh => hh.elim (fun x => absurd x (not_lt.mpr h1)) (fun x => absurd x (not_lt.mpr h2))
    unfold explodes
    rw [if_neg (fun hh => hh.elim (fun x => hn x.1) (fun x => x.2 h)), if_pos h]
  · have hn : ¬(Xi < 0.314 ∨ sc < 0.988) := fun hh => hh.elim (fun x => absurd x (not_lt.mpr h1)) (fun x => absurd x (not_lt.mpr h3))
    have hm : ¬(Xi > 0.544 ∨ sc > 1.169) := fun hh => hh.elim (fun x => absurd x (not_lt.mpr h2)) (fun x => absurd x (not_lt.mpr h4))
    unfold explodes
    rw [if_pos (Or.inr ⟨hm, hn⟩)]
    by_cases a1 : p > 0.421
    · rw [if_pos a1]
      constructor
      · simp
      · rintro (h | h)
        · norm_num at a1 h; linarith
        · exact absurd a1 (not_lt.mpr h.1)
    · rw [if_neg a1]
      by_cases a2 : p < 0.247
      · simp [a2]
      · rw [if_neg a2]
        by_cases a3 : k1 + k2 * p - mu4 > 0
        · rw [if_pos a3]
          constructor
          · simp
          · rintro (h | h)
            · exact absurd h a2
            · linarith [h.2]
        · rw [if_neg a3]
          exact ⟨fun _ => Or.inr ⟨not_lt.mp a1, by linarith [not_lt.mp a3]⟩, fun _ => rfl⟩

/-! ### C32 -/

/-- collapsing mass: the star, or its helium core -/
def collapsing (consH : Bool) (s : Cores) : ℝ := if consH then s.ms else s.mhe

theorem quot_ok (x y : ℝ) (h : 0 < y) : quot x y = .ok (x / y) := by unfold quot; rw [if_neg h.ne']

/-- bounds of a remnant -/
def Good (mcoll : ℝ) (r : Raw) : Prop := r.m ≤ mcoll ∧ 0 ≤ r.f ∧ r.f ≤ 1 ∧ 0 < r.m

theorem linear_fallback (a mc D : ℝ) (ha : 0 ≤ a) (h11 : mc ≤ 11) (hm : a * (11 - mc) ≤ 1) (hD : 0 < D) (p : ℝ) (hp : 0 < p) :
    p + (a * mc + (-11 * a + 1)) * D ≤ p + D ∧ 0 ≤ a * mc + (-11 * a + 1) ∧ a * mc + (-11 * a + 1) ≤ 1 ∧
      0 < p + (a * mc + (-11 * a + 1)) * D := by
  have e : a * mc + (-11 * a + 1) = 1 - a * (11 - mc) := by ring
  have h1 : 0 ≤ a * (11 - mc) := mul_nonneg ha (by linarith)
  rw [e]
  refine ⟨?_, by linarith, by linarith, ?_⟩
  · nlinarith
  · have : 0 ≤ (1 - a * (11 - mc)) * D := mul_nonneg (by linarith) hD.le
    linarith

theorem rapid_good (e : Ecsn) (mc mcoll : ℝ) (hm : 1.37 ≤ mc ∨ 2.5 ≤ mcoll) (hc : 0 < mc) (h : mc ≤ mcoll) :
    ∃ r, rapid e .CCSN mc mcoll = .ok r ∧ Good mcoll r := by
  have hD : 0.27 ≤ mcoll - 1.1 := by rcases hm with hm | hm <;> (norm_num at hm ⊢; linarith)
  have hD0 : 0 < mcoll - 1.1 := lt_of_lt_of_le (by norm_num) hD
  unfold rapid
  rw [if_neg (by decide)]
  by_cases h1 : mc < 2.5
  · rw [if_pos h1, quot_ok _ _ hD0]
    refine ⟨_, rfl, ?_, by positivity, ?_, by norm_num⟩
    · dsimp only; norm_num at hD ⊢; linarith
    · dsimp only; rw [div_le_one hD0]; norm_num at hD ⊢; linarith
  · rw [if_neg h1]
    by_cases h2 : mc < 6
    · rw [if_pos ⟨not_lt.mp h1, h2⟩, quot_ok _ _ hD0]
      have h1' := not_lt.mp h1
      refine ⟨_, rfl, ?_, ?_, ?_, ?_⟩
      · dsimp only; norm_num at h1' hD ⊢; linarith
      · dsimp only; apply div_nonneg _ hD0.le; norm_num at h1' ⊢; linarith
      · dsimp only; rw [div_le_one hD0]; norm_num at h1' hD ⊢; linarith
      · dsimp only; norm_num at h1' ⊢; linarith
    · rw [if_neg (fun hh => h2 hh.2)]
      by_cases h3 : mc < 7
      · rw [if_pos ⟨not_lt.mp h2, h3⟩]
        refine ⟨_, rfl, ?_, by norm_num, by norm_num, ?_⟩
        · dsimp only; linarith
        · dsimp only; linarith [not_lt.mp h2]
      · rw [if_neg (fun hh => h3 hh.2)]
        have h3' := not_lt.mp h3
        by_cases h4 : mc < 11
        · rw [if_pos ⟨h3', h4⟩, quot_ok _ _ hD0]
          have hq : 1.275 / (mcoll - 1.1) ≤ 0.25 := by
            rw [div_le_iff₀ hD0]; norm_num; linarith
          have hq0 : 0 < 1.275 / (mcoll - 1.1) := by positivity
          have := linear_fallback (0.25 - 1.275 / (mcoll - 1.1)) mc (mcoll - 1.1) (by linarith) h4.le
            (by generalize 1.275 / (mcoll - 1.1) = q at hq0 hq; norm_num at hq ⊢; nlinarith) hD0 1.1 (by norm_num)
          refine ⟨_, rfl, ?_, this.2.1, this.2.2.1, this.2.2.2⟩
          have h5 := this.1
          dsimp only; linarith
        · rw [if_neg (fun hh => h4 hh.2), if_pos (not_lt.mp h4)]
          refine ⟨_, rfl, ?_, by norm_num, by norm_num, ?_⟩
          · dsimp only; linarith
          · dsimp only; linarith [not_lt.mp h4]

theorem delayed_good (e : Ecsn) (mc mcoll : ℝ) (hm : 1.4 ≤ mcoll) (hc : 0 < mc) (h : mc ≤ mcoll) (hne : mc ≠ 11) :
    ∃ r, delayed e .CCSN mc mcoll = .ok r ∧ Good mcoll r := by
  have hm' : (1.4 : ℝ) ≤ mcoll := hm
  norm_num at hm'
  unfold delayed
  rw [if_neg (by decide)]
  by_cases h1 : mc < 2.5
  · have hp : delayedProto mc = 1.2 := by unfold delayedProto; rw [if_pos (by norm_num at h1 ⊢; linarith)]
    have hD0 : 0 < mcoll - 1.2 := by norm_num; linarith
    rw [if_pos h1, hp, quot_ok _ _ hD0]
    refine ⟨_, rfl, ?_, by positivity, ?_, by norm_num⟩
    · dsimp only; norm_num; linarith
    · dsimp only; rw [div_le_one hD0]; norm_num; linarith
  · rw [if_neg h1]
    have h1' := not_lt.mp h1
    by_cases h2 : mc < 3.5
    · have hp : delayedProto mc = 1.2 := by unfold delayedProto; rw [if_pos h2]
      have hD0 : 0 < mcoll - 1.2 := by norm_num; linarith
      rw [if_pos ⟨h1', h2⟩, hp, quot_ok _ _ hD0]
      refine ⟨_, rfl, ?_, ?_, ?_, ?_⟩
      · dsimp only; norm_num at h1' ⊢; linarith
      · dsimp only; apply div_nonneg _ hD0.le; norm_num at h1' ⊢; linarith
      · dsimp only; rw [div_le_one hD0]; norm_num at h1' ⊢; linarith
      · dsimp only; norm_num at h1' ⊢; linarith
    · rw [if_neg (fun hh => h2 hh.2)]
      have h2' := not_lt.mp h2
      by_cases h3 : mc < 11
      · have hp : 1.3 ≤ delayedProto mc ∧ delayedProto mc ≤ 1.4 := by
          unfold delayedProto
          rw [if_neg h2]
          by_cases h5 : mc < 6
          · rw [if_pos h5]; norm_num
          · rw [if_neg h5, if_pos h3]; norm_num
        have hD : 2.1 ≤ mcoll - delayedProto mc := by
          have := hp.2; norm_num at this h2' ⊢; linarith
        have hD0 : 0 < mcoll - delayedProto mc := lt_of_lt_of_le (by norm_num) hD
        rw [if_pos ⟨h2', h3⟩, quot_ok _ _ hD0]
        have hq : 0.093 / (mcoll - delayedProto mc) ≤ 0.133 := by
          rw [div_le_iff₀ hD0]; norm_num at hD ⊢; linarith
        have hq0 : 0 < 0.093 / (mcoll - delayedProto mc) := by positivity
        have := linear_fallback (0.133 - 0.093 / (mcoll - delayedProto mc)) mc (mcoll - delayedProto mc) (by linarith) h3.le
          (by generalize 0.093 / (mcoll - delayedProto mc) = q at hq0 hq; norm_num at hq h2' ⊢; nlinarith) hD0 (delayedProto mc) (lt_of_lt_of_le (by norm_num) hp.1)
        refine ⟨_, rfl, ?_, this.2.1, this.2.2.1, this.2.2.2⟩
        have h5 := this.1
        dsimp only; linarith
      · rw [if_neg (fun hh => h3 hh.2), if_pos (lt_of_le_of_ne (not_lt.mp h3) (Ne.symm hne))]
        refine ⟨_, rfl, ?_, by norm_num, by norm_num, ?_⟩
        · dsimp only; linarith
        · dsimp only; linarith

/-- The engine looks up masses not above the collapsing mass: the remnant mass `M4` of Patton+20 and Maltsev+25, the tables of Sukhbold+16. -/
def LookOk (mech : Mech) (k : Look) (mcoll : ℝ) (mhe : ℝ) : Prop :=
  match mech with
  | .patton _ => 0 < k.M4 ∧ k.M4 ≤ mcoll
  | .maltsev _ => 0 < k.M4 ∧ k.M4 ≤ mcoll
  | .sukhbold => 0 < extrapNS mhe k.ns ∧ extrapNS mhe k.ns ≤ mcoll ∧ 0 < extrapBH mcoll k.bh ∧ extrapBH mcoll k.bh ≤ mcoll
  | _ => True

theorem ccsn_good (mech : Mech) (e : Ecsn) (k : Look) (consH : Bool) (mc mhe ms : ℝ) (hm : 1.4 ≤ mhe ∨ (1.37 ≤ mc ∧ mech ≠ .delayed ∧ mech ≠ .couch))
    (hc : 0 < mc) (h1 : mc ≤ mhe) (h2 : mhe ≤ ms) (hr : mech = .rapid → 1.37 ≤ mc ∨ 2.5 ≤ mhe)
    (hk : LookOk mech k (if consH then ms else mhe) mhe) (hne : mech = .delayed → mc ≠ 11) (hd : mech ≠ .directHeCore) (r : Raw)
    (hres : mechanism mech e k consH .CCSN mc mhe ms (if consH then ms else mhe) = .ok r) :
    Good (if consH then ms else mhe) r := by
  have hcoll : mhe ≤ (if consH then ms else mhe) := by cases consH <;> simp [h2]
  have h0 : (1.37 : ℝ) ≤ mhe := by
    rcases hm with hm | hm
    · exact le_trans (by norm_num) hm
    · exact hm.1.trans h1
  have hpos : 0 < (if consH then ms else mhe) := lt_of_lt_of_le (by norm_num) (h0.trans hcoll)
  generalize hX : (if consH then ms else mhe) = X at *
  cases mech with
  | rapid =>
    obtain ⟨r', hr', hg⟩ := rapid_good e mc X ((hr rfl).imp id (fun h => h.trans hcoll)) hc (h1.trans hcoll)
    simp only [mechanism] at hres; rw [hr'] at hres; cases hres; exact hg
  | delayed =>
    rcases hm with hm | hm
    · obtain ⟨r', hr', hg⟩ := delayed_good e mc X (hm.trans hcoll) hc (h1.trans hcoll) (hne rfl)
      simp only [mechanism] at hres; rw [hr'] at hres; cases hres; exact hg
    · exact absurd rfl hm.2.1
  | direct =>
    simp only [mechanism] at hres; cases hres
    exact ⟨le_refl _, by norm_num, by norm_num, hpos⟩
  | directHeCore => exact absurd rfl hd
  | sukhbold =>
    simp only [mechanism, engine, if_neg (show ¬ SNType.CCSN = SNType.ECSN by decide)] at hres
    obtain ⟨k1, k2, k3, k4⟩ := hk
    unfold sukhbold at hres
    by_cases c1 : k.cls mhe = 13
    · rw [if_pos c1] at hres; cases hres
      exact ⟨k2, by norm_num, by norm_num, k1⟩
    · rw [if_neg c1] at hres
      by_cases c2 : k.cls mhe = 14
      · rw [if_pos c2] at hres; cases hres
        have : (if consH then extrapBH ms k.bh else extrapBH mhe k.bh) = extrapBH X k.bh := by
          rw [← hX]; cases consH <;> rfl
        exact ⟨by dsimp only; rw [this]; exact k4, by norm_num, by norm_num, by dsimp only; rw [this]; exact k3⟩
      · rw [if_neg c2] at hres; cases hres
  | couch =>
    simp only [mechanism, engine, if_neg (show ¬ SNType.CCSN = SNType.ECSN by decide)] at hres
    unfold couch at hres
    by_cases c1 : k.cls mhe = 13
    · rw [if_pos c1] at hres; cases hres
      rcases hm with hm | hm
      · exact ⟨hm.trans hcoll, by norm_num, by norm_num, by norm_num⟩
      · exact absurd rfl hm.2.2
    · rw [if_neg c1] at hres
      by_cases c2 : k.cls mhe = 14
      · rw [if_pos c2] at hres; cases hres
        exact ⟨by dsimp only; rw [hX], by norm_num, by norm_num, by dsimp only; rw [hX]; exact hpos⟩
      · rw [if_neg c2] at hres; cases hres
  | patton n =>
    simp only [mechanism, engine, if_neg (show ¬ SNType.CCSN = SNType.ECSN by decide)] at hres
    have h125 : (1.25 : ℝ) ≤ X := le_trans (by norm_num) (h0.trans hcoll)
    simp only [patton] at hres
    cases hK : ertlK n with
    | none => rw [hK] at hres; cases hres
    | some q =>
      rw [hK] at hres
      dsimp only at hres
      by_cases c1 : k.coHe ≤ 2.5
      · rw [if_pos c1] at hres; cases hres
        exact ⟨h125, by norm_num, by norm_num, by norm_num⟩
      · rw [if_neg c1] at hres
        by_cases c2 : k.coHe ≥ 10
        · rw [if_pos c2] at hres; cases hres
          exact ⟨by dsimp only; rw [hX], by norm_num, by norm_num, by dsimp only; rw [hX]; exact hpos⟩
        · rw [if_neg c2] at hres
          by_cases c3 : q.1 * (k.mu4 * k.M4) + q.2 < k.mu4
          · rw [if_pos c3] at hres; cases hres
            exact ⟨by dsimp only; rw [hX], by norm_num, by norm_num, by dsimp only; rw [hX]; exact hpos⟩
          · rw [if_neg c3] at hres; cases hres
            exact ⟨hk.2, by norm_num, by norm_num, hk.1⟩
  | maltsev n =>
    simp only [mechanism, engine, if_neg (show ¬ SNType.CCSN = SNType.ECSN by decide)] at hres
    have h125 : (1.25 : ℝ) ≤ X := le_trans (by norm_num) (h0.trans hcoll)
    unfold maltsev at hres
    by_cases c0 : n = "M16"
    · rw [if_pos c0] at hres
      by_cases c1 : k.coHe ≤ 2.5
      · rw [if_pos c1] at hres; cases hres
        exact ⟨h125, by norm_num, by norm_num, by norm_num⟩
      · rw [if_neg c1] at hres
        by_cases c2 : k.coHe ≥ 10
        · rw [if_pos c2] at hres; cases hres
          exact ⟨by dsimp only; rw [hX], by norm_num, by norm_num, by dsimp only; rw [hX]; exact hpos⟩
        · rw [if_neg c2] at hres
          by_cases c3 : explodes k.Xi k.sc (k.mu4 * k.M4) k.mu4 0.005 0.420 = true
          · rw [if_pos c3] at hres
            by_cases c4 : leavesNS k.Xi k.coHe k.M4 (k.mu4 * k.M4) k.rand = true
            · rw [if_pos c4] at hres; cases hres
              exact ⟨hk.2, by norm_num, by norm_num, hk.1⟩
            · rw [if_neg c4] at hres; cases hres
              exact ⟨by dsimp only; rw [hX], by norm_num, by norm_num, by dsimp only; rw [hX]; exact hpos⟩
          · rw [if_neg c3] at hres; cases hres
            exact ⟨by dsimp only; rw [hX], by norm_num, by norm_num, by dsimp only; rw [hX]; exact hpos⟩
    · rw [if_neg c0] at hres; cases hres

/-- Combinations of options for which the bounds hold: with one of the two electron-capture options every mechanism that is implemented; without one
all but the delayed mechanism and Couch+20. -/
def Supported (mech : Mech) (e : Ecsn) : Prop :=
  mech ≠ .directHeCore ∧ (e = .tauris15 ∨ e = .podsiadlowski04 ∨ (e = .none ∧ mech ≠ .delayed ∧ mech ≠ .couch))

theorem type_bounds (e : Ecsn) (mc mhe : ℝ) (h1 : mc ≤ mhe) (he : e = .tauris15 ∨ e = .podsiadlowski04 ∨ e = .none)
    (hw : typeSpec e mc mhe ≠ .WD) :
    (typeSpec e mc mhe = .ECSN ∧ 1.37 ≤ mhe ∧ ecsnProto e mc ≤ mhe) ∨
    (typeSpec e mc mhe = .CCSN ∧ (1.37 ≤ mc ∨ 2.5 ≤ mhe) ∧ (e ≠ .none → 1.4 ≤ mhe) ∧ (e = .none → 1.37 ≤ mc)) := by
  rcases he with rfl | rfl | rfl
  · by_cases a : mc < 1.37
    · exact absurd (by simp [typeSpec, deciding, lower, a]) hw
    · by_cases b : mc ≤ 1.43
      · exact Or.inl ⟨by simp [typeSpec, deciding, lower, upper, a, b], (not_lt.mp a).trans h1, by simpa [ecsnProto] using h1⟩
      · refine Or.inr ⟨by simp [typeSpec, deciding, lower, upper, a, b], Or.inl (not_lt.mp a), fun _ => ?_, by simp⟩
        exact le_trans (by norm_num) ((not_le.mp b).le.trans h1)
  · by_cases a : mhe < 1.4
    · exact absurd (by simp [typeSpec, deciding, lower, a]) hw
    · by_cases b : mhe ≤ 2.5
      · refine Or.inl ⟨by simp [typeSpec, deciding, lower, upper, a, b], le_trans (by norm_num) (not_lt.mp a), ?_⟩
        simp only [ecsnProto, if_true]
        exact le_trans (by norm_num) (not_lt.mp a)
      · exact Or.inr ⟨by simp [typeSpec, deciding, lower, upper, a, b], Or.inr (not_le.mp b).le, fun _ => not_lt.mp a, by simp⟩
  · by_cases a : mc < 1.37
    · exact absurd (by simp [typeSpec, deciding, lower, a]) hw
    · exact Or.inr ⟨by simp [typeSpec, deciding, lower, upper, a], Or.inl (not_lt.mp a), by simp, fun _ => not_lt.mp a⟩

theorem ecsn_result (mech : Mech) (e : Ecsn) (k : Look) (consH : Bool) (mc mhe ms mcoll : ℝ) (r : Raw)
    (hres : mechanism mech e k consH .ECSN mc mhe ms mcoll = .ok r) :
    (r.m = ecsnProto e mc ∧ r.f = 0) ∨ (mech = .direct ∧ r.m = mcoll ∧ r.f = 1) := by
  cases mech <;> simp [mechanism, rapid, delayed, engine] at hres
  case direct => subst hres; exact Or.inr ⟨rfl, rfl, rfl⟩
  all_goals subst hres; exact Or.inl ⟨rfl, rfl⟩

/-- what the prescription gives before the cap, for a star that is not a white dwarf -/
theorem raw_bounds (mech : Mech) (e : Ecsn) (k : Look) (consH : Bool) (mc mhe ms : ℝ) (hs : Supported mech e) (hc : 0 < mc) (h1 : mc ≤ mhe)
    (h2 : mhe ≤ ms) (hw : typeSpec e mc mhe ≠ .WD) (hne : mech = .delayed → mc ≠ 11)
    (hk : LookOk mech k (if consH then ms else mhe) mhe) (r : Raw)
    (hres : mechanism mech e k consH (typeSpec e mc mhe) mc mhe ms (if consH then ms else mhe) = .ok r) :
    Good (if consH then ms else mhe) r := by
  have hcoll : mhe ≤ (if consH then ms else mhe) := by cases consH <;> simp [h2]
  rcases type_bounds e mc mhe h1 (by rcases hs.2 with h | h | h; exacts [Or.inl h, Or.inr (Or.inl h), Or.inr (Or.inr h.1)]) hw with
    ⟨ht, hb, hp⟩ | ⟨ht, hb, hb2, hb3⟩
  · rw [ht] at hres
    have hpos : 0 < mhe := lt_of_lt_of_le (by norm_num) hb
    rcases ecsn_result _ _ _ _ _ _ _ _ _ hres with ⟨a, b⟩ | ⟨_, a, b⟩
    · refine ⟨a ▸ hp.trans hcoll, by rw [b], by rw [b]; norm_num, ?_⟩
      rw [a]; unfold ecsnProto
      by_cases hE : e = .podsiadlowski04
      · rw [if_pos hE]; norm_num
      · rw [if_neg hE]; exact hc
    · exact ⟨a.le, by rw [b]; norm_num, by rw [b], by rw [a]; exact hpos.trans_le hcoll⟩
  · rw [ht] at hres
    refine ccsn_good mech e k consH mc mhe ms ?_ hc h1 h2 (fun _ => hb) hk hne hs.1 r hres
    rcases hs.2 with h | h | h
    · exact Or.inl (hb2 (by simp [h]))
    · exact Or.inl (hb2 (by simp [h]))
    · exact Or.inr ⟨hb3 h.1, h.2⟩

theorem rembar_eq (mech : Mech) (e : Ecsn) (he : e ≠ .other) (k : Look) (consH : Bool) (ms mc mhe : ℝ) (cap : Option (Option ℝ)) (hc : 0 < mc) :
    rembar mech e k consH (some ⟨ms, some mc, mhe⟩) cap =
      if typeSpec e mc mhe = .WD then .ok ⟨some mc, 1, some .WD, .WD⟩
      else match mechanism mech e k consH (typeSpec e mc mhe) mc mhe ms (if consH then ms else mhe) with
        | .error x => .error x
        | .ok r => .ok (capped cap r (typeSpec e mc mhe)) := by
  simp only [rembar, checkType_real e he]
  by_cases hw : typeSpec e mc mhe = .WD
  · simp [hw, wdMass, gtN, hc, Except.map]
  · simp only [hw, if_false]
    cases mechanism mech e k consH (typeSpec e mc mhe) mc mhe ms (if consH then ms else mhe) <;> rfl

/-- C32 in part: for a star with sensible core masses the baryonic remnant mass is positive and at most the collapsing mass, and the fallback fraction
lies between 0 and 1. Missing: combinations of options outside `Supported`, looked-up masses above the collapsing mass, a core of exactly 11 solar masses
in the delayed mechanism; for these see the theorems below. A cap by pair instability is assumed positive. -/
theorem C32_remnant_partial (mech : Mech) (e : Ecsn) (k : Look) (consH : Bool) (s : Cores) (cap : Option (Option ℝ)) (hs : Supported mech e)
    (hp : Physical s) (hne : mech = .delayed → s.mc ≠ some 11) (hk : LookOk mech k (collapsing consH s) s.mhe) (hcap : ∀ p, cap = some (some p) → 0 < p)
    (r : Rem) (hr : rembar mech e k consH (some s) cap = .ok r) :
    (∀ m, r.m = some m → 0 < m ∧ m ≤ collapsing consH s) ∧ 0 ≤ r.f ∧ r.f ≤ 1 := by
  obtain ⟨ms, mc', mhe⟩ := s
  obtain ⟨mc, e1, hc, h1, h2⟩ := hp
  dsimp only at e1 h1 h2 hne hk
  subst e1
  have he : e ≠ .other := by rcases hs.2 with h | h | h <;> simp [h]
  rw [rembar_eq mech e he k consH ms mc mhe cap hc] at hr
  simp only [collapsing] at hk ⊢
  have hcoll : mc ≤ (if consH then ms else mhe) := by cases consH <;> simp <;> linarith
  by_cases hw : typeSpec e mc mhe = .WD
  · rw [if_pos hw] at hr; cases hr
    exact ⟨fun m hm => by cases hm; exact ⟨hc, hcoll⟩, by norm_num, by norm_num⟩
  · rw [if_neg hw] at hr
    cases hM : mechanism mech e k consH (typeSpec e mc mhe) mc mhe ms (if consH then ms else mhe) with
    | error x => rw [hM] at hr; cases hr
    | ok w =>
      rw [hM] at hr
      obtain ⟨g1, g2, g3, g4⟩ := raw_bounds mech e k consH mc mhe ms hs hc h1 h2 hw (fun h h' => hne h (by rw [h'])) hk w hM
      cases hr
      unfold capped
      rcases cap with _ | _ | p
      · exact ⟨fun m hm => by cases hm; exact ⟨g4, g1⟩, g2, g3⟩
      · exact ⟨fun m hm => by simp at hm, g2, g3⟩
      · dsimp only
        by_cases hpm : w.m > p
        · rw [if_pos hpm]
          exact ⟨fun m hm => by cases hm; exact ⟨hcap p rfl, (le_of_lt hpm).trans g1⟩, g2, g3⟩
        · rw [if_neg hpm]
          exact ⟨fun m hm => by cases hm; exact ⟨g4, g1⟩, g2, g3⟩

/-- a look-up that never matters -/
noncomputable def look0 : Look := ⟨fun _ => 13, ⟨0, 0, id⟩, ⟨0, 0, id⟩, 5, 1.5, 0.1, 0.3, 1, 0.5⟩

theorem physical_ten : Physical ⟨20, some 8, 10⟩ := ⟨8, rfl, by norm_num, by norm_num, by norm_num⟩

example : ∃ r, rembar .rapid .tauris15 look0 false (some ⟨20, some 8, 10⟩) none = .ok r ∧ r.f = 1 - (0.25 - 1.275 / 8.9) * 3 := by
  have ht : typeSpec .tauris15 8 10 = .CCSN := by simp [typeSpec, deciding, lower, upper]; norm_num
  rw [rembar_eq _ _ (by decide) _ _ _ _ _ _ (by norm_num), ht, if_neg (by decide)]
  refine ⟨⟨some (1.1 + ((0.25 - 1.275 / (10 - 1.1)) * 8 + (-11 * (0.25 - 1.275 / (10 - 1.1)) + 1)) * (10 - 1.1)),
    (0.25 - 1.275 / (10 - 1.1)) * 8 + (-11 * (0.25 - 1.275 / (10 - 1.1)) + 1), none, .CCSN⟩, ?_, ?_⟩
  · simp only [mechanism, rapid, if_neg (show ¬ SNType.CCSN = SNType.ECSN by decide), Bool.false_eq_true, if_false]
    rw [if_neg (by norm_num), if_neg (by norm_num), if_neg (by norm_num), if_pos (by norm_num), quot_ok _ _ (by norm_num)]
    rfl
  · norm_num

/-- C32: with the rapid or delayed mechanism a result exists for all sensible core masses, except a core of exactly 11 solar masses in the delayed one. -/
theorem C32_defined (mech : Mech) (e : Ecsn) (k : Look) (consH : Bool) (s : Cores) (cap : Option (Option ℝ)) (hs : Supported mech e)
    (hm : mech = .rapid ∨ mech = .delayed ∨ mech = .direct) (hp : Physical s) (hne : mech = .delayed → s.mc ≠ some 11) :
    ∃ r, rembar mech e k consH (some s) cap = .ok r := by
  obtain ⟨ms, mc', mhe⟩ := s
  obtain ⟨mc, e1, hc, h1, h2⟩ := hp
  dsimp only at e1 h1 h2 hne
  subst e1
  have he : e ≠ .other := by rcases hs.2 with h | h | h <;> simp [h]
  rw [rembar_eq mech e he k consH ms mc mhe cap hc]
  by_cases hw : typeSpec e mc mhe = .WD
  · rw [if_pos hw]; exact ⟨_, rfl⟩
  · rw [if_neg hw]
    have hcoll : mhe ≤ (if consH then ms else mhe) := by cases consH <;> simp [h2]
    suffices ∃ w, mechanism mech e k consH (typeSpec e mc mhe) mc mhe ms (if consH then ms else mhe) = .ok w by
      obtain ⟨w, hw'⟩ := this; rw [hw']; exact ⟨_, rfl⟩
    rcases type_bounds e mc mhe h1 (by rcases hs.2 with h | h | h; exacts [Or.inl h, Or.inr (Or.inl h), Or.inr (Or.inr h.1)]) hw with
      ⟨ht, hb, hp⟩ | ⟨ht, hb, hb2, hb3⟩
    · rw [ht]; rcases hm with rfl | rfl | rfl <;> simp [mechanism, rapid, delayed]
    · rw [ht]
      rcases hm with rfl | rfl | rfl
      · obtain ⟨w, h, _⟩ := rapid_good e mc _ (hb.imp id (fun h => h.trans hcoll)) hc (h1.trans hcoll)
        exact ⟨w, h⟩
      · have : 1.4 ≤ mhe := by
          rcases hs.2 with h | h | h
          · exact hb2 (by simp [h])
          · exact hb2 (by simp [h])
          · exact absurd rfl h.2.1
        obtain ⟨w, h, _⟩ := delayed_good e mc _ (this.trans hcoll) hc (h1.trans hcoll) (fun h => hne rfl (by rw [h]))
        exact ⟨w, h⟩
      · exact ⟨_, rfl⟩

/-- C32 fails: the delayed mechanism has no branch for a core of exactly 11 solar masses, whatever the star. -/
theorem C32_eleven_violated (e : Ecsn) (he : e = .tauris15 ∨ e = .none) (k : Look) (consH : Bool) (ms mhe : ℝ) (cap : Option (Option ℝ)) :
    rembar .delayed e k consH (some ⟨ms, some 11, mhe⟩) cap = .error .unbound := by
  have ht : typeSpec e 11 mhe = .CCSN := by
    rcases he with rfl | rfl <;> simp [typeSpec, deciding, lower, upper] <;> norm_num
  rw [rembar_eq _ _ (by rcases he with rfl | rfl <;> decide) _ _ _ _ _ _ (by norm_num), ht, if_neg (by decide)]
  simp only [mechanism, delayed]
  rw [if_neg (by decide), if_neg (by norm_num), if_neg (by norm_num), if_neg (by norm_num), if_neg (by norm_num)]

/-- C32 fails: the mechanism `direct_he_core`, accepted when the step is created, gives no remnant other than a white dwarf. -/
theorem C32_he_core_option_violated (e : Ecsn) (he : e ≠ .other) (k : Look) (consH : Bool) (ms mc mhe : ℝ) (cap : Option (Option ℝ)) (hc : 0 < mc)
    (hw : typeSpec e mc mhe ≠ .WD) : rembar .directHeCore e k consH (some ⟨ms, some mc, mhe⟩) cap = .error .value := by
  rw [rembar_eq _ _ he _ _ _ _ _ _ hc, if_neg hw]; rfl

/-- C32 fails: without electron capture the delayed mechanism gives a stripped core of 1.38 solar masses a fallback fraction above 1 and a remnant heavier
than the whole star. -/
theorem C32_delayed_violated (k : Look) : ∃ r, rembar .delayed .none k true (some ⟨1.38, some 1.38, 1.38⟩) none = .ok r ∧
    Physical ⟨1.38, some 1.38, 1.38⟩ ∧ 1 < r.f ∧ ∃ m, r.m = some m ∧ 1.38 < m := by
  have ht : typeSpec .none 1.38 1.38 = .CCSN := by simp [typeSpec, deciding, lower, upper]; norm_num
  rw [rembar_eq _ _ (by decide) _ _ _ _ _ _ (by norm_num), ht, if_neg (by decide)]
  have hp : delayedProto 1.38 = 1.2 := by unfold delayedProto; rw [if_pos (by norm_num)]
  refine ⟨⟨some (1.2 + 0.2), 0.2 / (1.38 - 1.2), none, .CCSN⟩, ?_, ⟨1.38, rfl, by norm_num⟩, by norm_num, _, rfl, by norm_num⟩
  simp only [mechanism, delayed, hp, if_true]
  rw [if_neg (by decide), if_pos (by norm_num), quot_ok _ _ (by norm_num)]
  rfl

/-- C32 fails: below its table Sukhbold+16 gives every black hole the mass of the first table entry, more than the helium core that collapses. -/
theorem C32_sukhbold_violated : ∃ (k : Look) (r : Rem), (∀ v, k.bh.lo ≤ v → k.bh.f v ≤ v) ∧ Physical ⟨12, some 7, 9.9⟩ ∧
    rembar .sukhbold .tauris15 k false (some ⟨12, some 7, 9.9⟩) none = .ok r ∧ ∃ m, r.m = some m ∧ 9.9 < m := by
  refine ⟨⟨fun _ => 14, ⟨0, 0, id⟩, ⟨10, 20, id⟩, 5, 1.5, 0.1, 0.3, 1, 0.5⟩, ⟨some 10, 1, some .BH, .CCSN⟩, fun v _ => le_refl _,
    ⟨7, rfl, by norm_num⟩, ?_, 10, rfl, by norm_num⟩
  have ht : typeSpec .tauris15 7 9.9 = .CCSN := by simp [typeSpec, deciding, lower, upper]; norm_num
  rw [rembar_eq _ _ (by decide) _ _ _ _ _ _ (by norm_num), ht, if_neg (by decide)]
  simp only [mechanism, engine, sukhbold, extrapBH, capped, if_neg (show ¬ SNType.CCSN = SNType.ECSN by decide)]
  norm_num

/-- C32: a star without a defined carbon-oxygen core, or that never could collapse, is refused. -/
theorem C32_no_core (mech : Mech) (e : Ecsn) (k : Look) (consH : Bool) (ms mhe : ℝ) (cap : Option (Option ℝ)) :
    rembar mech e k consH (some ⟨ms, none, mhe⟩) cap = .error .value ∧ rembar mech e k consH none cap = .error .value := ⟨rfl, rfl⟩

/-- C32: pair instability only lowers the mass: the result is the smaller of both, of type `PPISN` exactly if the cap is smaller; without a defined cap
nothing is left and the type is `PISN`. -/
theorem C32_cap (mech : Mech) (e : Ecsn) (k : Look) (consH : Bool) (s : Option Cores) (r : Rem) (hr : rembar mech e k consH s none = .ok r)
    (hw : r.ty ≠ .WD) (p : ℝ) :
    ∃ m, r.m = some m ∧
      rembar mech e k consH s (some (some p)) = .ok ⟨some (min m p), r.f, r.st, if p < m then .PPISN else r.ty⟩ ∧
      rembar mech e k consH s (some none) = .ok ⟨none, r.f, r.st, .PISN⟩ := by
  cases s with
  | none => cases hr
  | some s =>
    obtain ⟨ms, mc, mhe⟩ := s
    cases mc with
    | none => cases hr
    | some mc =>
      simp only [rembar] at hr ⊢
      cases hC : checkType e (some mc) (some mhe) ms with
      | error x => rw [hC] at hr; cases hr
      | ok c =>
        obtain ⟨w, ty⟩ := c
        rw [hC] at hr
        cases w with
        | some w =>
          dsimp only at hr; cases hr
          exfalso
          have hx : e ≠ .other := fun h => by rw [h] at hC; cases hC
          exact hw (C48_white_dwarf e hx mc mhe ms w.1 w.2 ty hC).1
        | none =>
          dsimp only at hr ⊢
          cases hM : mechanism mech e k consH ty mc mhe ms (if consH then ms else mhe) with
          | error x => rw [hM] at hr; cases hr
          | ok w =>
            rw [hM] at hr; cases hr
            refine ⟨w.m, rfl, ?_, rfl⟩
            simp only [capped]
            by_cases hp : p < w.m
            · rw [if_pos hp, if_pos hp, min_eq_right hp.le]
            · rw [if_neg hp, if_neg hp, min_eq_left (not_lt.mp hp)]

/-- the polynomial of Marchant+19 stays between 12 and 45 solar masses on its interval (Bernstein form on three pieces) -/
theorem marchantFit_bounds (x : ℝ) (h1 : 31.99 ≤ x) (h2 : x ≤ 61.10) : 12 ≤ marchantFit x ∧ marchantFit x ≤ 45 := by
  rcases le_total x 40 with h3 | h3
  · let s := 40 - x
    let t := x - (3199 / 100)
    have hs : 0 ≤ s := by simp only [s]; norm_num at *; linarith
    have ht : 0 ≤ t := by simp only [t]; norm_num at *; linarith
    constructor
    · suffices 0 ≤ marchantFit x - 12 by linarith
      have e : marchantFit x - 12 =
          (395322131692879673263374957725753 / 338914480021561379852802000000000000000) * s ^ 8 * t ^ 0 + (449142029352405875893274436293 / 42364310002695172481600250000000000) * s ^ 7 * t ^ 1 + (1550424963563508899179287253 / 42364310002695172481600250000000) * s ^ 6 * t ^ 2 + (1566982771160944728178693 / 21182155001347586240800125000) * s ^ 5 * t ^ 3 + (409492541555974151602 / 4236431000269517248160025) * s ^ 4 * t ^ 4 + (13851166009656091184 / 169457240010780689926401) * s ^ 3 * t ^ 5 + (7286410118111152000 / 169457240010780689926401) * s ^ 2 * t ^ 6 + (2168604763232000000 / 169457240010780689926401) * s ^ 1 * t ^ 7 + (279719824000000000 / 169457240010780689926401) * s ^ 0 * t ^ 8 := by
        simp only [s, t, marchantFit]; ring
      rw [e]; positivity
    · suffices 0 ≤ 45 - marchantFit x by linarith
      have e : 45 - marchantFit x =
          (264677868307120326736625042274247 / 338914480021561379852802000000000000000) * s ^ 8 * t ^ 0 + (210857970647594124106725563707 / 42364310002695172481600250000000000) * s ^ 7 * t ^ 1 + (759575036436491100820712747 / 42364310002695172481600250000000) * s ^ 6 * t ^ 2 + (743017228839055271821307 / 21182155001347586240800125000) * s ^ 5 * t ^ 3 + (168007458444025848398 / 4236431000269517248160025) * s ^ 4 * t ^ 4 + (4628833990343908816 / 169457240010780689926401) * s ^ 3 * t ^ 5 + (1953589881888848000 / 169457240010780689926401) * s ^ 2 * t ^ 6 + (471395236768000000 / 169457240010780689926401) * s ^ 1 * t ^ 7 + (50280176000000000 / 169457240010780689926401) * s ^ 0 * t ^ 8 := by
        simp only [s, t, marchantFit]; ring
      rw [e]; positivity
  rcases le_total x 50 with h4 | h4
  · let s := 50 - x
    let t := x - 40
    have hs : 0 ≤ s := by simp only [s]; norm_num at *; linarith
    have ht : 0 ≤ t := by simp only [t]; norm_num at *; linarith
    constructor
    · suffices 0 ≤ marchantFit x - 12 by linarith
      have e : marchantFit x - 12 =
          (17482489 / 62500000000000) * s ^ 8 * t ^ 0 + (14525581 / 6250000000000) * s ^ 7 * t ^ 1 + (20850949 / 2500000000000) * s ^ 6 * t ^ 2 + (8441469 / 500000000000) * s ^ 5 * t ^ 3 + (426259 / 20000000000) * s ^ 4 * t ^ 4 + (3487547 / 200000000000) * s ^ 3 * t ^ 5 + (3574851 / 400000000000) * s ^ 2 * t ^ 6 + (1036059 / 400000000000) * s ^ 1 * t ^ 7 + (1034809 / 3200000000000) * s ^ 0 * t ^ 8 := by
        simp only [s, t, marchantFit]; ring
      rw [e]; positivity
    · suffices 0 ≤ 45 - marchantFit x by linarith
      have e : 45 - marchantFit x =
          (3142511 / 62500000000000) * s ^ 8 * t ^ 0 + (1974419 / 6250000000000) * s ^ 7 * t ^ 1 + (2249051 / 2500000000000) * s ^ 6 * t ^ 2 + (798531 / 500000000000) * s ^ 5 * t ^ 3 + (35741 / 20000000000) * s ^ 4 * t ^ 4 + (208453 / 200000000000) * s ^ 3 * t ^ 5 + (121149 / 400000000000) * s ^ 2 * t ^ 6 + (19941 / 400000000000) * s ^ 1 * t ^ 7 + (21191 / 3200000000000) * s ^ 0 * t ^ 8 := by
        simp only [s, t, marchantFit]; ring
      rw [e]; positivity
  · let s := (611 / 10) - x
    let t := x - 50
    have hs : 0 ≤ s := by simp only [s]; norm_num at *; linarith
    have ht : 0 ≤ t := by simp only [t]; norm_num at *; linarith
    constructor
    · suffices 0 ≤ marchantFit x - 12 by linarith
      have e : marchantFit x - 12 =
          (3233778125 / 23045377697175681) * s ^ 8 * t ^ 0 + (25835537500 / 23045377697175681) * s ^ 7 * t ^ 1 + (354345345095 / 92181510788702724) * s ^ 6 * t ^ 2 + (843552906602 / 115226888485878405) * s ^ 5 * t ^ 3 + (624331659855031 / 73745208630962179200) * s ^ 4 * t ^ 4 + (145052119404525157 / 23045377697175681000000) * s ^ 3 * t ^ 5 + (146336356227229112107 / 46090755394351362000000000) * s ^ 2 * t ^ 6 + (1341334188573057782569 / 1440336106073480062500000000) * s ^ 1 * t ^ 7 + (29043241803564492401593 / 46090755394351362000000000000000) * s ^ 0 * t ^ 8 := by
        simp only [s, t, marchantFit]; ring
      rw [e]; positivity
    · suffices 0 ≤ 45 - marchantFit x by linarith
      have e : 45 - marchantFit x =
          (66221875 / 23045377697175681) * s ^ 8 * t ^ 0 + (564462500 / 23045377697175681) * s ^ 7 * t ^ 1 + (15254654905 / 92181510788702724) * s ^ 6 * t ^ 2 + (80447093398 / 115226888485878405) * s ^ 5 * t ^ 3 + (114868340144969 / 73745208630962179200) * s ^ 4 * t ^ 4 + (39747880595474843 / 23045377697175681000000) * s ^ 3 * t ^ 5 + (38463643772770887893 / 46090755394351362000000000) * s ^ 2 * t ^ 6 + (308665811426942217431 / 1440336106073480062500000000) * s ^ 1 * t ^ 7 + (6570956758196435507598407 / 46090755394351362000000000000000) * s ^ 0 * t ^ 8 := by
        simp only [s, t, marchantFit]; ring
      rw [e]; positivity

/-- C32: the masses of neutron stars are never extrapolated: whatever the core mass, the result is a value of the table; those of black holes are a value of
the table or, above it, the whole core. -/
theorem C32_table (v : ℝ) (t : Table) (ht : t.lo ≤ t.hi) :
    (∃ x, t.lo ≤ x ∧ x ≤ t.hi ∧ extrapNS v t = t.f x) ∧ (v ≤ t.hi → extrapBH v t = extrapNS v t) ∧ (t.hi < v → extrapBH v t = v) := by
  unfold extrapNS extrapBH
  by_cases h : v ≥ t.lo ∧ v ≤ t.hi
  · rw [if_pos h, if_pos h]
    exact ⟨⟨v, h.1, h.2, rfl⟩, fun _ => rfl, fun hh => absurd h.2 (not_le.2 hh)⟩
  · rw [if_neg h, if_neg h]
    by_cases h2 : v < t.lo
    · rw [if_pos h2, if_pos h2]
      exact ⟨⟨t.lo, le_refl _, ht, rfl⟩, fun _ => rfl, fun hh => absurd (h2.trans_le ht) (not_lt.2 hh.le)⟩
    · rw [if_neg h2, if_neg h2]
      exact ⟨⟨t.hi, ht, le_refl _, rfl⟩, fun hh => absurd ⟨not_lt.1 h2, hh⟩ h, fun _ => rfl⟩

/-- C32: the engines of Patton and Maltsev: a light core explodes into a neutron star of 1.25 without fallback, a heavy one collapses completely into a
black hole, and in general a neutron star has no fallback while a black hole has the mass of what collapses and a fallback of at least 0.99. -/
theorem C32_engines (n : String) (k : Look) (consH : Bool) (ms mhe m f : ℝ) (st : CO)
    (h : patton n k consH ms mhe = .ok (m, f, st) ∨ maltsev n k consH ms mhe = .ok (m, f, st)) :
    (k.coHe ≤ 2.5 → m = 1.25 ∧ f = 0 ∧ st = .NS) ∧ (10 ≤ k.coHe → m = (if consH then ms else mhe) ∧ f = 1 ∧ st = .BH) ∧
      ((st = .NS ∧ f = 0) ∨ (st = .BH ∧ 0.99 ≤ f ∧ f ≤ 1 ∧ m = if consH then ms else mhe)) := by
  have h10 : k.coHe ≤ 2.5 → ¬ (10 ≤ k.coHe) := fun a b => by norm_num at a; linarith
  rcases h with h | h
  · unfold patton at h
    split at h
    · cases h
    · by_cases a : k.coHe ≤ 2.5
      · rw [if_pos a] at h; cases h
        exact ⟨fun _ => ⟨rfl, rfl, rfl⟩, fun b => absurd b (h10 a), .inl ⟨rfl, rfl⟩⟩
      rw [if_neg a] at h
      by_cases b : k.coHe ≥ 10
      · rw [if_pos b] at h; cases h
        exact ⟨fun c => absurd c a, fun _ => ⟨rfl, rfl, rfl⟩, .inr ⟨rfl, by norm_num, le_refl _, rfl⟩⟩
      rw [if_neg b] at h
      refine ⟨fun c => absurd c a, fun c => absurd c b, ?_⟩
      split_ifs at h <;> cases h
      · exact .inr ⟨rfl, by norm_num, le_refl _, by simp [*]⟩
      · exact .inr ⟨rfl, by norm_num, le_refl _, by simp [*]⟩
      · exact .inl ⟨rfl, rfl⟩
  · unfold maltsev at h
    split_ifs at h with hn a b c d
    all_goals try cases h
    all_goals first
      | exact ⟨fun _ => ⟨rfl, rfl, rfl⟩, fun b => absurd b (h10 a), .inl ⟨rfl, rfl⟩⟩
      | exact ⟨fun c => absurd c a, fun _ => ⟨by simp [*], rfl, rfl⟩, .inr ⟨rfl, by norm_num, le_refl _, by simp [*]⟩⟩
      | exact ⟨fun c => absurd c a, fun c => absurd c b, .inl ⟨rfl, rfl⟩⟩
      | exact ⟨fun c => absurd c a, fun c => absurd c b, .inr ⟨rfl, by norm_num, by norm_num, by simp [*]⟩⟩

/-- C32: when pair instability destroys a star: in Marchant+19 exactly for helium cores between 61.10 and 124.12; a number as the prescription never does,
and without prescription there is no cap. -/
theorem C32_disruption (mech : Mech) (e : Ecsn) (k : Look) (consH consHPPI : Bool) (Z Zs ms mc mhe x : ℝ) :
    (pisn mech e k consH consHPPI Z Zs .marchant19 ms mc mhe = .ok (some none) ↔ 61.10 < mhe ∧ mhe < 124.12) ∧
      pisn mech e k consH consHPPI Z Zs .none ms mc mhe = .ok none ∧
      pisn mech e k consH consHPPI Z Zs (.number x) ms mc mhe ≠ .ok (some none) ∧
      (x < mhe → pisn mech e k consH consHPPI Z Zs (.number x) ms mc mhe = .ok (some (some x))) := by
  refine ⟨?_, rfl, ?_, fun h => ?_⟩
  · simp only [pisn]
    by_cases a : mhe ≥ 31.99 ∧ mhe ≤ 61.10
    · rw [if_pos a]
      constructor
      · intro h; simp at h
      · rintro ⟨h, -⟩; exact absurd a.2 (not_le.2 h)
    · rw [if_neg a]
      by_cases b : mhe > 61.10 ∧ mhe < 124.12
      · rw [if_pos b]; exact ⟨fun _ => b, fun _ => rfl⟩
      · rw [if_neg b]
        constructor
        · intro h; simp at h
        · exact fun h => absurd h b
  · simp only [pisn]
    split_ifs <;> simp
  · simp only [pisn]
    rw [if_pos h]

/-- C32: every pair-instability prescription gives no cap, total disruption, or a positive mass: in Marchant+19 pulses leave between 12 and 45 solar
masses, in Hendriks+23 at least 10. (A number given as the prescription has to be positive.) -/
theorem C32_pair_instability (mech : Mech) (e : Ecsn) (k : Look) (consH consHPPI : Bool) (Z Zs : ℝ) (p : Pisn) (ms mc mhe : ℝ) (h1 : 0 < mhe)
    (h2 : mhe ≤ ms) (hp : ∀ x, p = .number x → 0 < x) (c : ℝ) (h : pisn mech e k consH consHPPI Z Zs p ms mc mhe = .ok (some (some c))) : 0 < c := by
  have hcoll : 0 < (if consH then ms else mhe) := by cases consH <;> simp <;> linarith
  cases p with
  | none => simp [pisn] at h
  | other => simp [pisn] at h
  | number x =>
    simp only [pisn] at h
    by_cases a : mhe > x
    · rw [if_pos a] at h; simp at h; exact h ▸ hp x rfl
    · rw [if_neg a] at h
      by_cases b : 0 < mhe ∧ mhe ≤ x
      · rw [if_pos b] at h; simp at h
      · rw [if_neg b] at h; simp at h
  | marchant19 =>
    simp only [pisn] at h
    by_cases a : mhe ≥ 31.99 ∧ mhe ≤ 61.10
    · rw [if_pos a] at h; simp at h
      linarith [(marchantFit_bounds mhe a.1 a.2).1]
    · rw [if_neg a] at h
      by_cases b : mhe > 61.10 ∧ mhe < 124.12
      · rw [if_pos b] at h; simp at h
      · rw [if_neg b] at h
        have : (if consH then ms else mhe) = c := by
          injection h with h; injection h with h; injection h with h
        exact this ▸ hcoll
  | hendriks23 shift extra =>
    simp only [pisn] at h
    by_cases a : pulseLoss (shift.getD 0) (extra.getD 0) Z Zs mc ≤ 0
    · rw [if_pos a] at h
      have : (if consH then ms else mhe) = c := by
        injection h with h; injection h with h; injection h with h
      exact this ▸ hcoll
    · rw [if_neg a] at h
      generalize (if consHPPI then ms - pulseLoss (shift.getD 0) (extra.getD 0) Z Zs mc else mhe - pulseLoss (shift.getD 0) (extra.getD 0) Z Zs mc) = m at h
      by_cases b : m < 0
      · rw [if_pos b] at h; simp at h
      · rw [if_neg b] at h
        generalize rembar mech e k consH (some ⟨m, some (if mc > m then m else mc), if mhe > m then m else mhe⟩) (some (some m)) = q at h
        cases q with
        | error x => simp at h
        | ok r =>
          obtain ⟨rm, rf, rs, rt⟩ := r
          cases rm with
          | none => simp at h
          | some w =>
            dsimp only at h
            by_cases d : w < 10
            · rw [if_pos d] at h; simp at h
            · rw [if_neg d] at h
              simp at h; linarith [not_lt.mp d]

/-- C32: with pair instability switched on, what remains of a star is positive and at most the collapsing mass. -/
theorem C32_after_pair_instability_partial (mech : Mech) (e : Ecsn) (k : Look) (consH consHPPI : Bool) (Z Zs : ℝ) (p : Pisn) (ms mc mhe : ℝ)
    (hs : Supported mech e) (hph : Physical ⟨ms, some mc, mhe⟩) (hne : mech = .delayed → mc ≠ 11)
    (hk : LookOk mech k (collapsing consH ⟨ms, some mc, mhe⟩) mhe) (hp : ∀ x, p = .number x → 0 < x) (cap : Option (Option ℝ))
    (hc : pisn mech e k consH consHPPI Z Zs p ms mc mhe = .ok cap) (r : Rem) (hr : rembar mech e k consH (some ⟨ms, some mc, mhe⟩) cap = .ok r) :
    (∀ m, r.m = some m → 0 < m ∧ m ≤ if consH then ms else mhe) ∧ 0 ≤ r.f ∧ r.f ≤ 1 := by
  obtain ⟨mc', e1, a, b, c⟩ := hph
  cases e1
  refine C32_remnant_partial mech e k consH _ cap hs ⟨mc, rfl, a, b, c⟩ (fun h h' => hne h (by simpa using h')) hk ?_ r hr
  rintro q rfl
  exact C32_pair_instability mech e k consH consHPPI Z Zs p ms mc mhe (lt_of_lt_of_le a b) c hp q hc

/-- C32: gravitational mass: it is the larger of the binding-energy formula and the mass less the limit, hence between 0 and the baryonic mass, loses at
most the limit, and grows with the baryonic mass. -/
theorem C32_gravitational_mass (m L : ℝ) (hm : 0 ≤ m) (hL : 0 ≤ L) :
    mGrav m L = max ((20 / 3) * (Real.sqrt (1 + 0.3 * m) - 1)) (m - L) ∧ 0 ≤ mGrav m L ∧ mGrav m L ≤ m ∧ m - mGrav m L ≤ L := by
  have hs1 : 1 ≤ Real.sqrt (1 + 0.3 * m) := by
    rw [show (1 : ℝ) = Real.sqrt 1 by simp]
    exact Real.sqrt_le_sqrt (by simp; norm_num; linarith)
  have hs2 : Real.sqrt (1 + 0.3 * m) ≤ 1 + 0.15 * m := by
    rw [Real.sqrt_le_left (by norm_num; linarith)]
    norm_num; nlinarith
  have h1 : 0 ≤ (20 / 3) * (Real.sqrt (1 + 0.3 * m) - 1) := by nlinarith
  have h2 : (20 / 3) * (Real.sqrt (1 + 0.3 * m) - 1) ≤ m := by norm_num at hs2 ⊢; nlinarith
  have e1 : mGrav m L = max ((20 / 3) * (Real.sqrt (1 + 0.3 * m) - 1)) (m - L) := by
    simp only [mGrav]
    by_cases h : m - (20 / 3) * (Real.sqrt (1 + 0.3 * m) - 1) > L
    · rw [if_pos h, max_eq_right (by linarith)]
    · rw [if_neg h, max_eq_left (by linarith [not_lt.mp h])]
  refine ⟨e1, ?_, ?_, ?_⟩
  · rw [e1]; exact h1.trans (le_max_left _ _)
  · rw [e1]; exact max_le h2 (by linarith)
  · rw [e1]; linarith [le_max_right ((20 / 3) * (Real.sqrt (1 + 0.3 * m) - 1)) (m - L)]

/-- C32: a heavier baryonic remnant has at least the same gravitational mass; so a black hole limit splits remnants into lighter neutron stars and heavier
black holes. -/
theorem C32_gravitational_monotone (m m' L mNS : ℝ) (hm : 0 ≤ m) (hL : 0 ≤ L) (h : m ≤ m') :
    mGrav m L ≤ mGrav m' L ∧ (stateByMass mNS (mGrav m L) = .BH → stateByMass mNS (mGrav m' L) = .BH) := by
  have h1 : mGrav m L ≤ mGrav m' L := by
    rw [(C32_gravitational_mass m L hm hL).1, (C32_gravitational_mass m' L (hm.trans h) hL).1]
    apply max_le_max
    · have := Real.sqrt_le_sqrt (show 1 + 0.3 * m ≤ 1 + 0.3 * m' by norm_num; linarith)
      nlinarith
    · linarith
  refine ⟨h1, fun hb => ?_⟩
  unfold stateByMass at hb ⊢
  by_cases hg : mGrav m L ≥ mNS
  · rw [if_pos (hg.trans h1)]
  · rw [if_neg hg] at hb; cases hb

/-- C32: without a limit given (taken as 0) no mass is lost to neutrinos. -/
theorem C32_no_limit (m : ℝ) (hm : 0 ≤ m) : mGrav m 0 = m := by
  have h := C32_gravitational_mass m 0 hm (le_refl _)
  linarith [h.2.2.1, h.2.2.2]

example : mGrav 40 0.5 = 39.5 ∧ (0 : ℝ) ≤ 40 := by
  refine ⟨?_, by norm_num⟩
  rw [(C32_gravitational_mass 40 0.5 (by norm_num) (by norm_num)).1]
  have : Real.sqrt (1 + 0.3 * 40) ≤ 4 := by rw [Real.sqrt_le_left (by norm_num)]; norm_num
  rw [max_eq_right (by norm_num at this ⊢; linarith)]; norm_num

/-! ### C32: mass lost in pulses -/

/-- logarithm of base ten of the metallicity used -/
theorem log_floor (Z : ℝ) : -6 ≤ Real.log ((if Z < 1e-4 then 1e-4 else Z) * 0.0142) / Real.log 10 := by
  have h10 : 0 < Real.log 10 := Real.log_pos (by norm_num)
  rw [le_div_iff₀ h10]
  have h : (1e-6 : ℝ) ≤ (if Z < 1e-4 then 1e-4 else Z) * 0.0142 := by
    split_ifs with hz
    · norm_num
    · push Not at hz; norm_num at hz ⊢; linarith
  have h1 := Real.log_le_log (by norm_num) h
  have h2 : Real.log (1e-6 : ℝ) = -6 * Real.log 10 := by
    have : (1e-6 : ℝ) = (10 ^ 6 : ℝ)⁻¹ := by norm_num
    rw [this, Real.log_inv, Real.log_pow]; push_cast; ring
  linarith

/-- Inside the range of pulses mass is lost whatever the metallicity, unless the additional loss asked for is negative. -/
theorem C32_pulse_positive (shift extra Z mc : ℝ) (he : 0 ≤ extra) (h1 : 38 + shift ≤ mc) (h2 : mc ≤ 114 + shift) :
    0 < pulseLoss shift extra Z 0.0142 mc := by
  unfold pulseLoss
  rw [if_pos ⟨h1, h2⟩]
  dsimp only
  have hl := log_floor Z
  generalize Real.log ((if Z < 1e-4 then 1e-4 else Z) * 0.0142) / Real.log 10 = L at hl
  obtain ⟨x, hx⟩ : ∃ x, x = mc - shift - 34.8 := ⟨_, rfl⟩
  rw [← hx]
  have hx3 : 3.2 ≤ x := by rw [hx]; norm_num at *; linarith
  have hk : (0.0018 : ℝ) ≤ 0.0006 * L + 0.0054 := by norm_num at *; linarith
  have hx2 : 0 < x ^ 2 := by positivity
  have h3 : (0.0018 : ℝ) * x ^ 3 ≤ (0.0006 * L + 0.0054) * x ^ 3 := mul_le_mul_of_nonneg_right hk (by positivity)
  have h4 : x ^ 3 = x ^ 2 * x := by ring
  have h5 : x ^ 2 * 3.2 ≤ x ^ 2 * x := mul_le_mul_of_nonneg_left hx3 hx2.le
  norm_num at *
  nlinarith

/-- Outside that range nothing is lost, not even the additional loss. -/
theorem C32_pulse_outside (shift extra Z Zs mc : ℝ) (h : mc < 38 + shift ∨ 114 + shift < mc) : pulseLoss shift extra Z Zs mc = 0 := by
  unfold pulseLoss
  rw [if_neg]
  rintro ⟨a, b⟩
  rcases h with h | h <;> linarith

/-- The shift moves the range and the law together. -/
theorem C32_pulse_shift (shift extra Z Zs mc : ℝ) : pulseLoss shift extra Z Zs (mc + shift) = pulseLoss 0 extra Z Zs mc := by
  unfold pulseLoss
  have e : mc + shift - shift - 34.8 = mc - 0 - 34.8 := by ring
  rw [e]
  by_cases h : mc ≥ 38 + 0 ∧ mc ≤ 114 + 0
  · rw [if_pos h, if_pos ⟨by linarith [h.1], by linarith [h.2]⟩]
  · rw [if_neg h, if_neg (fun g => h ⟨by linarith [g.1], by linarith [g.2]⟩)]

/-- Stars with more metals lose at least as much. -/
theorem C32_pulse_metals (shift extra Z Z' mc : ℝ) (hZ : Z ≤ Z') : pulseLoss shift extra Z 0.0142 mc ≤ pulseLoss shift extra Z' 0.0142 mc := by
  unfold pulseLoss
  by_cases h : mc ≥ 38 + shift ∧ mc ≤ 114 + shift
  · rw [if_pos h, if_pos h]
    dsimp only
    have hf : (1e-4 : ℝ) ≤ (if Z < 1e-4 then 1e-4 else Z) := by
      split_ifs with a
      · exact le_refl _
      · push Not at a; exact a
    have hm : (if Z < 1e-4 then 1e-4 else Z) ≤ (if Z' < 1e-4 then 1e-4 else Z' : ℝ) := by
      split_ifs with a b
      · exact le_refl _
      · push Not at b; exact b
      · push Not at a; linarith
      · exact hZ
    have h10 : 0 < Real.log 10 := Real.log_pos (by norm_num)
    have hp : (0 : ℝ) < (if Z < 1e-4 then 1e-4 else Z) * 0.0142 := mul_pos (lt_of_lt_of_le (by norm_num) hf) (by norm_num)
    have hlog := div_le_div_of_nonneg_right (Real.log_le_log hp (mul_le_mul_of_nonneg_right hm (by norm_num : (0 : ℝ) ≤ 0.0142))) h10.le
    have hx : 0 ≤ (mc - shift - 34.8) ^ 3 := by
      have h1 := h.1
      have : 0 ≤ mc - shift - 34.8 := by norm_num; linarith
      positivity
    have := mul_le_mul_of_nonneg_right (add_le_add_left (mul_le_mul_of_nonneg_left hlog (by norm_num : (0 : ℝ) ≤ 0.0006)) 0.0054) hx
    linarith
  · rw [if_neg h, if_neg h]

/-- Stars with heavier cores lose more, inside the range. -/
theorem C32_pulse_core (shift extra Z mc mc' : ℝ) (h1 : 38 + shift ≤ mc) (h : mc < mc') (h2 : mc' ≤ 114 + shift) :
    pulseLoss shift extra Z 0.0142 mc < pulseLoss shift extra Z 0.0142 mc' := by
  unfold pulseLoss
  rw [if_pos (show mc ≥ 38 + shift ∧ mc ≤ 114 + shift from ⟨h1, by linarith⟩),
    if_pos (show mc' ≥ 38 + shift ∧ mc' ≤ 114 + shift from ⟨by linarith, h2⟩)]
  dsimp only
  have hl := log_floor Z
  generalize Real.log ((if Z < 1e-4 then 1e-4 else Z) * 0.0142) / Real.log 10 = L at hl
  obtain ⟨x, hx⟩ : ∃ x, x = mc - shift - 34.8 := ⟨_, rfl⟩
  obtain ⟨y, hy⟩ : ∃ y, y = mc' - shift - 34.8 := ⟨_, rfl⟩
  rw [← hx, ← hy]
  have hx3 : 3.2 ≤ x := by rw [hx]; norm_num at *; linarith
  have hxy : x < y := by rw [hx, hy]; linarith
  have hk : (0.0018 : ℝ) ≤ 0.0006 * L + 0.0054 := by norm_num at *; linarith
  generalize (0.0006 * L + 0.0054 : ℝ) = k at hk
  have hs : 0 < y ^ 2 + x * y + x ^ 2 := by norm_num at hx3; nlinarith
  have h3 := mul_le_mul_of_nonneg_right hk hs.le
  have h4 : 0 < k * (y ^ 2 + x * y + x ^ 2) - 0.0013 * (y + x) := by
    norm_num at *
    nlinarith [mul_le_mul_of_nonneg_right hx3 (by linarith : 0 ≤ x), mul_le_mul_of_nonneg_right hx3 (by linarith : 0 ≤ y)]
  have h5 := mul_pos (sub_pos.mpr hxy) h4
  have h6 : (y - x) * (k * (y ^ 2 + x * y + x ^ 2) - 0.0013 * (y + x)) = (k * y ^ 3 - 0.0013 * y ^ 2) - (k * x ^ 3 - 0.0013 * x ^ 2) := by ring
  rw [h6] at h5
  linarith

/-- Below a ten-thousandth the metallicity no longer matters … -/
theorem C32_pulse_floor_partial (shift extra Z Zs mc : ℝ) (hZ : Z ≤ 1e-4) : pulseLoss shift extra Z Zs mc = pulseLoss shift extra 1e-4 Zs mc := by
  unfold pulseLoss
  rw [if_neg (lt_irrefl (1e-4 : ℝ))]
  have : (if Z < 1e-4 then 1e-4 else Z : ℝ) = 1e-4 := by
    split_ifs with a
    · rfl
    · push Not at a; exact le_antisymm hZ a
  rw [this]

/-- … but that limit, meant as the lowest mass fraction of metals among the published models, is applied to the metallicity in units of that of
the Sun: stars with less metals than all those models still lose less and less. -/
theorem C32_pulse_floor_violated : ∃ Z Z' mc : ℝ, Z * 0.0142 < 1e-4 ∧ Z' * 0.0142 < 1e-4 ∧ pulseLoss 0 0 Z 0.0142 mc ≠ pulseLoss 0 0 Z' 0.0142 mc := by
  refine ⟨1e-4, 1e-3, 40, by norm_num, by norm_num, ?_⟩
  unfold pulseLoss
  have hr : (40 : ℝ) ≥ 38 + 0 ∧ (40 : ℝ) ≤ 114 + 0 := by norm_num
  rw [if_pos hr, if_pos hr]
  dsimp only
  rw [if_neg (lt_irrefl (1e-4 : ℝ)), if_neg (show ¬ (1e-3 : ℝ) < 1e-4 by norm_num)]
  have h10 : 0 < Real.log 10 := Real.log_pos (by norm_num)
  have h := Real.log_lt_log (by norm_num : (0 : ℝ) < 1e-4 * 0.0142) (by norm_num : (1e-4 * 0.0142 : ℝ) < 1e-3 * 0.0142)
  have h' := div_lt_div_of_pos_right h h10
  intro he
  norm_num at he h'
  linarith

/-- A core of forty solar masses at the metallicity of the Sun. -/
example : 0 < pulseLoss 0 0 1 0.0142 40 := C32_pulse_positive 0 0 1 40 (le_refl _) (by norm_num) (by norm_num)

/-- C32: an explosion of Maltsev et al. leaves a neutron star for a small compactness, one below the line or a large ratio of masses, each for itself; otherwise it
leaves a black hole with a probability of 0.15, for a draw up to this value. -/
theorem C32_fallback (Xi mco M4 p r : ℝ) :
    (Xi ≤ 0.04 → leavesNS Xi mco M4 p r = true) ∧ (Xi < 1.75 * p - 0.044 → Xi ≤ 0.4 → leavesNS Xi mco M4 p r = true) ∧
    (M4 / mco > 0.6 → leavesNS Xi mco M4 p r = true) ∧
    (leavesNS Xi mco M4 p r = false ↔ 0.04 < Xi ∧ (1.75 * p - 0.044 ≤ Xi ∨ 0.4 < Xi) ∧ M4 / mco ≤ 0.6 ∧ r ≤ 0.15) := by
  unfold leavesNS
  have e : 1.75 * p + -0.044 = 1.75 * p - 0.044 := by ring
  rw [e]
  refine ⟨fun h => if_pos (Or.inl h), fun h h' => if_pos (Or.inr (Or.inl ⟨h, h'⟩)), fun h => if_pos (Or.inr (Or.inr h)), ?_⟩
  by_cases hc : Xi ≤ 0.04 ∨ (Xi < 1.75 * p - 0.044 ∧ Xi ≤ 0.4) ∨ M4 / mco > 0.6
  · rw [if_pos hc]
    refine ⟨fun h => (by cases h), fun ⟨h1, h2, h3, _⟩ => ?_⟩
    exfalso
    rcases hc with h | ⟨h, h'⟩ | h
    · exact absurd h (not_le.mpr h1)
    · rcases h2 with h2 | h2
      · exact absurd h (not_lt.mpr h2)
      · exact absurd h' (not_le.mpr h2)
    · exact absurd h (not_lt.mpr h3)
  · rw [if_neg hc]
    obtain ⟨h1, h23⟩ := not_or.mp hc
    obtain ⟨h2, h3⟩ := not_or.mp h23
    have h2' : 1.75 * p - 0.044 ≤ Xi ∨ 0.4 < Xi := by
      by_cases hx : Xi < 1.75 * p - 0.044
      · exact Or.inr (not_le.mp fun hy => h2 ⟨hx, hy⟩)
      · exact Or.inl (not_lt.mp hx)
    by_cases hr : r ≤ 0.15
    · rw [if_pos hr]
      exact ⟨fun _ => ⟨not_le.mp h1, h2', not_lt.mp h3, hr⟩, fun _ => rfl⟩
    · rw [if_neg hr]
      exact ⟨fun h => (by cases h), fun h => absurd h.2.2.2 hr⟩

end Verif.SN
