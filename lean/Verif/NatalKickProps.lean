import Verif.NatalKick
import Mathlib.Tactic.Linarith
import Mathlib.Tactic.Positivity
import Mathlib.Tactic.FieldSimp
import Mathlib.Tactic.Ring
/-!
C81: natal kicks have a speed that is not negative, are reduced as the options say, and can be reproduced.
-/
namespace Verif.NatalKick

open Real

/-- A neutron star and a black hole without recorded kicks. -/
noncomputable def ns : Star := ⟨.NS, .CCSN, 1.4, 0.2, 5, 3, none, none, none, .unset⟩
noncomputable def bh : Star := ⟨.BH, .CCSN, 10, 1, 12, 6, none, none, none, .unset⟩
def std : Draw := ⟨fun x => x, fun _ y => y, 0, 0, 0⟩

/-! ### The speed -/

theorem norm_nonneg (o : Opt) (s : Star) (hs : s.Ok) (n : ℝ) (h : normalisation o s = .ok n) : 0 ≤ n := by
  have := hs.mass
  have := hs.f1
  unfold normalisation at h
  split at h <;> simp only [Except.ok.injEq, reduceCtorEq] at h <;> subst h
  · linarith
  · split <;> positivity
  · split <;> linarith
  · norm_num
  · norm_num

theorem velocity_nonneg (o : Opt) (d : Draw) (s : Star) (hs : s.Ok) (hd : d.Ok) (sigma mean : Option ℝ) (v : ℝ)
    (h : velocity o d s sigma mean = .ok v) (hl : o.presc = .linear → 100 * s.mass ≤ 115 * s.lastCO) : 0 ≤ v := by
  have hm := hs.mass
  unfold velocity at h
  cases hp : o.presc <;> simp only [hp, Except.ok.injEq, reduceCtorEq] at h <;> subst h
  · exact hd.maxwell _
  · exact hd.lognorm _ _
  · positivity
  · have := hl hp
    have e : 115 * ((s.lastCO - s.mass) / s.mass) + 15 = (115 * s.lastCO - 100 * s.mass) / s.mass := by
      field_simp
      ring
    rw [e]
    apply div_nonneg _ hm.le
    linarith

theorem generate_cases (o : Opt) (d : Draw) (s : Star) (sigma mean : Option ℝ) (v : ℝ) (h : generate o d s sigma mean = .ok v) :
    (sigma = none ∧ v = 0) ∨ ∃ x n w, sigma = some x ∧ normalisation o s = .ok n ∧ velocity o d s sigma mean = .ok w ∧ v = n * w := by
  cases sigma with
  | none => left; simp only [generate, Except.ok.injEq] at h; exact ⟨rfl, h.symm⟩
  | some x =>
    right
    simp only [generate] at h
    cases hn : normalisation o s with
    | error e => rw [hn] at h; simp at h
    | ok n =>
      rw [hn] at h
      dsimp only at h
      cases hv : velocity o d s (some x) mean with
      | error e => rw [hv] at h; simp at h
      | ok w =>
        rw [hv] at h
        simp only [Except.ok.injEq] at h
        exact ⟨x, n, w, rfl, rfl, rfl, h.symm⟩

/-- **C81 (partial)**: the speed is not negative; with the linear prescription, if the remnant is not heavier than 1.15 times
the core. -/
theorem C81_speed_partial (o : Opt) (d : Draw) (s : Star) (hs : s.Ok) (hd : d.Ok) (sigma mean : Option ℝ) (v : ℝ)
    (h : generate o d s sigma mean = .ok v) (hl : o.presc = .linear → 100 * s.mass ≤ 115 * s.lastCO) : 0 ≤ v := by
  rcases generate_cases o d s sigma mean v h with ⟨-, rfl⟩ | ⟨x, n, w, -, hn, hw, rfl⟩
  · exact le_rfl
  · exact mul_nonneg (norm_nonneg o s hs n hn) (velocity_nonneg o d s hs hd _ _ w hw hl)

/-- **C81 (violated)**: the linear prescription gives a negative speed where the remnant swallows more than the core, as a black
hole of 10 solar masses formed around a core of 6 does. -/
theorem C81_speed_violated : ∃ (o : Opt) (s : Star), s.Ok ∧ ∀ d, ∃ v, drawn o d true s = .ok v ∧ v < 0 := by
  refine ⟨{ defaults with norm := .one, presc := .linear }, bh, ⟨by norm_num [bh], by norm_num [bh], by norm_num [bh]⟩, fun d => ⟨_, rfl, ?_⟩⟩
  norm_num [bh]

/-- **C81**: the options only reduce the speed that is drawn: the kick is between zero and the unreduced speed, for black holes
of at least 1.4 solar masses where the mass reduces it. -/
theorem C81_reduced (o : Opt) (d : Draw) (s : Star) (hs : s.Ok) (hd : d.Ok) (sigma : ℝ) (mean : Option ℝ) (v w : ℝ)
    (h : generate o d s (some sigma) mean = .ok v) (hw : velocity o d s (some sigma) mean = .ok w) (hw0 : 0 ≤ w)
    (hm : o.norm = .overMass → s.st = .BH → 1.4 ≤ s.mass) : 0 ≤ v ∧ v ≤ w := by
  rcases generate_cases o d s _ mean v h with ⟨h0, -⟩ | ⟨x, n, w', -, hn, hw', rfl⟩
  · simp at h0
  · rw [hw] at hw'
    simp only [Except.ok.injEq] at hw'
    subst hw'
    have hn0 := norm_nonneg o s hs n hn
    have hn1 : n ≤ 1 := by
      have := hs.f0
      unfold normalisation at hn
      cases hp : o.norm <;> simp only [hp, Except.ok.injEq, reduceCtorEq] at hn <;> subst hn
      · linarith
      · split
        · next hb => rw [div_le_one hs.mass]; exact hm hp hb
        · exact le_rfl
      · split <;> linarith
      · exact le_rfl
      · norm_num
    exact ⟨mul_nonneg hn0 hw0, by nlinarith⟩

/-- **C81**: what each option gives. Complete fallback takes the whole kick away where the kick is reduced by the fallback; black
holes keep it where only neutron stars are reduced; a black hole gets the kick a neutron star of 1.4 solar masses would get
with the same momentum; `zero` gives none and `one` all. -/
theorem C81_options (o : Opt) (d : Draw) (s : Star) (hm : 0 < s.mass) (sigma : ℝ) (mean : Option ℝ) (w : ℝ)
    (hw : velocity o d s (some sigma) mean = .ok w) :
    (o.norm = .fallback → generate o d s (some sigma) mean = .ok ((1 - s.fFb) * w)) ∧
    (o.norm = .fallback → s.fFb = 1 → generate o d s (some sigma) mean = .ok 0) ∧
    (o.norm = .nsFallback → s.st = .BH → generate o d s (some sigma) mean = .ok w) ∧
    (o.norm = .nsFallback → s.st ≠ .BH → generate o d s (some sigma) mean = .ok ((1 - s.fFb) * w)) ∧
    (o.norm = .overMass → s.st = .BH → ∃ v, generate o d s (some sigma) mean = .ok v ∧ s.mass * v = 1.4 * w) ∧
    (o.norm = .overMass → s.st ≠ .BH → generate o d s (some sigma) mean = .ok w) ∧
    (o.norm = .one → generate o d s (some sigma) mean = .ok w) ∧
    (o.norm = .zero → generate o d s (some sigma) mean = .ok 0) := by
  have key : ∀ n, normalisation o s = .ok n → generate o d s (some sigma) mean = .ok (n * w) := by
    intro n hn
    simp only [generate]
    rw [hn]
    dsimp only
    rw [hw]
  refine ⟨fun h => ?_, fun h hf => ?_, fun h hb => ?_, fun h hb => ?_, fun h hb => ?_, fun h hb => ?_, fun h => ?_, fun h => ?_⟩
  · exact key _ (by unfold normalisation; rw [h])
  · rw [key (1 - s.fFb) (by unfold normalisation; rw [h]), hf]; simp
  · rw [key 1 (by unfold normalisation; rw [h]; simp [hb]), one_mul]
  · exact key _ (by unfold normalisation; rw [h]; simp [hb])
  · refine ⟨_, key (1.4 / s.mass) (by unfold normalisation; rw [h]; simp [hb]), ?_⟩
    field_simp
  · rw [key 1 (by unfold normalisation; rw [h]; simp [hb]), one_mul]
  · rw [key 1 (by unfold normalisation; rw [h]), one_mul]
  · rw [key 0 (by unfold normalisation; rw [h]), zero_mul]

/-- **C81**: the speeds before reduction: the draw with the given dispersion (and mean), or the two formulas of the masses. The
baryonic mass of the remnant is the one whose gravitational mass is that of the remnant. -/
theorem C81_velocity (o : Opt) (d : Draw) (s : Star) (sigma : ℝ) (mean : Option ℝ) :
    (o.presc = .maxwellian → velocity o d s (some sigma) mean = .ok (d.maxwell sigma)) ∧
    (o.presc = .logNormal → velocity o d s (some sigma) mean = .ok (d.lognorm sigma (mean.getD (exp 5.60)))) ∧
    (o.presc = .asymEj → velocity o d s (some sigma) mean = .ok (31.65 * |s.lastMass - baryonic s.mass| / s.mass)) ∧
    (o.presc = .linear → velocity o d s (some sigma) mean = .ok (115 * (s.lastCO - s.mass) / s.mass + 15)) ∧
    (0 ≤ s.mass → 20 / 3 * (√(1 + 0.3 * baryonic s.mass) - 1) = s.mass ∧ s.mass ≤ baryonic s.mass) := by
  refine ⟨fun h => ?_, fun h => ?_, fun h => ?_, fun h => ?_, fun h => ⟨?_, ?_⟩⟩
  · unfold velocity; rw [h]; rfl
  · unfold velocity; rw [h]; rfl
  · unfold velocity
    rw [h]
    dsimp only
    congr 1
    have e : ((0.1 * 0.1 * 1 : ℝ)) ^ (1 / 2 : ℝ) = 0.1 := by
      rw [← Real.sqrt_eq_rpow, Real.sqrt_eq_iff_mul_self_eq (by norm_num) (by norm_num)]
      norm_num
    rw [e, inv_div]
    ring
  · unfold velocity
    rw [h]
    dsimp only
    congr 1
    ring
  · have : √(1 + 0.3 * baryonic s.mass) = 3 * s.mass / 20 + 1 := by
      rw [Real.sqrt_eq_iff_mul_self_eq]
      · unfold baryonic; ring
      · unfold baryonic; ring_nf; positivity
      · positivity
    rw [this]
    ring
  · unfold baryonic
    rw [le_div_iff₀ (by norm_num)]
    nlinarith [sq_nonneg s.mass]

example : generate { defaults with norm := .fallback } std ns (some 265) none = .ok (0.8 * 265) := by
  rw [(C81_options _ std ns (by norm_num [ns]) 265 none 265 rfl).1 rfl]
  norm_num [ns]

/-- **C81**: names of options that are not known are errors, wherever a dispersion is given; the normalisation is looked at
first. -/
theorem C81_unknown (o : Opt) (d : Draw) (s : Star) (sigma : ℝ) (mean : Option ℝ) :
    (o.norm = .other → generate o d s (some sigma) mean = .error .normalisation) ∧
    (o.norm ∈ [.fallback, .overMass, .nsFallback, .one, .zero] → o.presc = .other → generate o d s (some sigma) mean = .error .prescription) ∧
    (o.norm ∈ [.fallback, .overMass, .nsFallback, .one, .zero] → o.presc ≠ .other → ∃ v, generate o d s (some sigma) mean = .ok v) := by
  refine ⟨fun h => ?_, fun h hp => ?_, fun h hp => ?_⟩
  · simp [generate, normalisation, h]
  · simp only [List.mem_cons, List.not_mem_nil, or_false] at h
    rcases h with h | h | h | h | h <;> simp [generate, normalisation, velocity, h, hp]
  · simp only [List.mem_cons, List.not_mem_nil, or_false] at h
    cases hq : o.presc
    · rcases h with h | h | h | h | h <;> simp [generate, normalisation, velocity, h, hq]
    · rcases h with h | h | h | h | h <;> simp [generate, normalisation, velocity, h, hq]
    · rcases h with h | h | h | h | h <;> simp [generate, normalisation, velocity, h, hq]
    · rcases h with h | h | h | h | h <;> simp [generate, normalisation, velocity, h, hq]
    · exact absurd hq hp

/-- **C81 (violated)**: where no dispersion is given there is no kick and no name is looked at: neither a prescription that needs
no dispersion is applied nor a wrong name reported. -/
theorem C81_dispersion_violated (o : Opt) (d : Draw) (s : Star) (mean : Option ℝ) :
    generate o d s none mean = .ok 0 ∧
    (o.presc = .asymEj → s.lastMass ≠ baryonic s.mass → 0 < s.mass → ∃ v, velocity o d s none mean = .ok v ∧ v ≠ 0) := by
  refine ⟨rfl, fun h hm hp => ?_⟩
  have e := (C81_velocity o d s 0 mean).2.2.1 h
  have : velocity o d s none mean = velocity o d s (some 0) mean := by unfold velocity; rw [h]
  rw [this, e]
  refine ⟨_, rfl, ?_⟩
  have h1 : |s.lastMass - baryonic s.mass| ≠ 0 := abs_ne_zero.2 (sub_ne_zero.2 hm)
  have : s.mass ≠ 0 := hp.ne'
  have h3 : (31.65 : ℝ) ≠ 0 := by norm_num
  exact div_ne_zero (mul_ne_zero h3 h1) this

/-- **C81**: names of normalisations that became prescriptions are still understood, with normalisation one; nothing else is
changed. -/
theorem C81_renamed (o : Opt) :
    (o.norm = .asymEj → (init (some o)).presc = .asymEj ∧ (init (some o)).norm = .one) ∧
    (o.norm = .linear → (init (some o)).presc = .linear ∧ (init (some o)).norm = .one) ∧
    (o.norm ≠ .asymEj → o.norm ≠ .linear → init (some o) = { o with rng := true }) ∧ (init (some o)).rng = true ∧
    (init (some o)).sigmaNS = o.sigmaNS ∧ (init (some o)).sigmaBH = o.sigmaBH ∧ (init (some o)).sigmaEC = o.sigmaEC := by
  refine ⟨fun h => ?_, fun h => ?_, fun h h' => ?_, ?_, ?_, ?_, ?_⟩
  · simp [init, rename, h]
  · simp [init, rename, h]
  · cases hn : o.norm <;> simp_all [init, rename]
  all_goals cases hn : o.norm <;> simp [init, rename, hn]

/-! ### The choice -/

/-- **C81**: which dispersion applies: that of electron captures, of neutron stars or of black holes; pair instability that
leaves nothing gives no kick; a collapse that leaves something else, and an unknown type, are errors. Both stars are treated
alike, except for white dwarfs, which never get here (they return before). -/
theorem C81_type (o : Opt) (d : Draw) (b : Bool) (s : Star) :
    (s.sn = .ECSN → drawn o d b s = generate o d s o.sigmaEC o.meanEC) ∧
    (s.sn ∈ [.CCSN, .PPISN, .PISN] → s.st = .NS → drawn o d b s = generate o d s o.sigmaNS o.meanNS) ∧
    (s.sn ∈ [.CCSN, .PPISN, .PISN] → s.st = .BH → drawn o d b s = generate o d s o.sigmaBH o.meanBH) ∧
    (s.sn ∈ [.CCSN, .PPISN, .PISN] → s.st = .massless → drawn o d b s = .ok 0) ∧
    (s.sn ∈ [.CCSN, .PPISN, .PISN] → s.st = .other → drawn o d b s = .error .state) ∧
    (s.sn = .other → drawn o d b s = .error .snType) ∧
    (s.sn ≠ .WD → drawn o d true s = drawn o d false s) ∧
    (s.sn = .WD → drawn o d true s = .ok 0 ∧ drawn o d false s = .error .snType) := by
  refine ⟨fun h => ?_, fun h h' => ?_, fun h h' => ?_, fun h h' => ?_, fun h h' => ?_, fun h => ?_, fun h => ?_, fun h => by simp [drawn, h]⟩
  · simp [drawn, h]
  · simp only [List.mem_cons, List.not_mem_nil, or_false] at h
    rcases h with h | h | h <;> simp [drawn, h, h']
  · simp only [List.mem_cons, List.not_mem_nil, or_false] at h
    rcases h with h | h | h <;> simp [drawn, h, h']
  · simp only [List.mem_cons, List.not_mem_nil, or_false] at h
    rcases h with h | h | h <;> simp [drawn, h, h', generate]
  · simp only [List.mem_cons, List.not_mem_nil, or_false] at h
    rcases h with h | h | h <;> simp [drawn, h, h']
  · simp [drawn, h]
  · cases hs : s.sn <;> simp_all [drawn]

theorem chooseV_ok {o : Opt} {d : Draw} {b : Bool} {s s' : Star} {v : ℝ} (h : chooseV o d b s = .ok (v, s')) :
    s' = { s with vel := some v } ∧ (∀ x, s.vel = some x → v = x) ∧ (s.vel = none → drawn o d b s = .ok v) := by
  unfold chooseV at h
  cases hv : s.vel with
  | some x =>
    simp only [hv, Except.ok.injEq, Prod.mk.injEq] at h
    obtain ⟨rfl, rfl⟩ := h
    refine ⟨?_, fun y hy => by simpa using hy, fun hn => by simp at hn⟩
    rw [← hv]
  | none =>
    simp only [hv] at h
    cases hd : drawn o d b s with
    | error e => rw [hd] at h; simp at h
    | ok w =>
      rw [hd] at h
      simp only [Except.ok.injEq, Prod.mk.injEq] at h
      obtain ⟨rfl, rfl⟩ := h
      exact ⟨rfl, by simp, fun _ => rfl⟩

theorem choosePhi_ok {o : Opt} {d : Draw} {s s' : Star} {v : ℝ} (h : choosePhi o d s = .ok (v, s')) :
    s' = { s with phi := some v } ∧ (∀ x, s.phi = some x → v = x) ∧ (s.phi = none → v = 2 * π * d.u1) := by
  unfold choosePhi at h
  cases hv : s.phi with
  | some x =>
    simp only [hv, Except.ok.injEq, Prod.mk.injEq] at h
    obtain ⟨rfl, rfl⟩ := h
    refine ⟨?_, fun y hy => by simpa using hy, fun hn => by simp at hn⟩
    rw [← hv]
  | none =>
    simp only [hv] at h
    cases hr : o.rng
    · simp [uniform, hr] at h
    · simp only [uniform, hr, if_true, Except.ok.injEq, Prod.mk.injEq] at h
      obtain ⟨rfl, rfl⟩ := h
      exact ⟨rfl, by simp, fun _ => by ring⟩

theorem choosePolar_ok {o : Opt} {d : Draw} {s s' : Star} {v : ℝ} (h : choosePolar o d s = .ok (v, s')) :
    (∃ p, s' = { s with polar := some p } ∧ (0 ≤ d.u2 → d.u2 ≤ 1 → cos p = v)) ∧ (∀ x, s.polar = some x → v = cos x) ∧
      (s.polar = none → v = 2 * d.u2 - 1) := by
  unfold choosePolar at h
  cases hv : s.polar with
  | some x =>
    simp only [hv, Except.ok.injEq, Prod.mk.injEq] at h
    obtain ⟨rfl, rfl⟩ := h
    refine ⟨⟨x, ?_, fun _ _ => rfl⟩, fun y hy => by simp only [Option.some.injEq] at hy; rw [hy], fun hn => by simp at hn⟩
    rw [← hv]
  | none =>
    simp only [hv] at h
    cases hr : o.rng
    · simp [uniform, hr] at h
    · simp only [uniform, hr, if_true, Except.ok.injEq, Prod.mk.injEq] at h
      obtain ⟨rfl, rfl⟩ := h
      exact ⟨⟨_, rfl, fun h0 h1 => Real.cos_arccos (by linarith) (by linarith)⟩, by simp, fun _ => by ring⟩

theorem chooseAnomaly_ok {o : Opt} {d : Draw} {s s' : Star} {v : ℝ} (h : chooseAnomaly o d s = .ok (v, s')) :
    s' = { s with anomaly := .num v } ∧ (∀ x, s.anomaly = .num x → v = x) ∧ (s.anomaly = .unset → v = 2 * π * d.u3) := by
  unfold chooseAnomaly at h
  cases hv : s.anomaly with
  | num x =>
    simp only [hv, Except.ok.injEq, Prod.mk.injEq] at h
    obtain ⟨rfl, rfl⟩ := h
    refine ⟨?_, fun y hy => by simpa using hy, fun hn => by simp at hn⟩
    rw [← hv]
  | other => simp [hv] at h
  | unset =>
    simp only [hv] at h
    cases hr : o.rng
    · simp [uniform, hr] at h
    · simp only [uniform, hr, if_true, Except.ok.injEq, Prod.mk.injEq] at h
      obtain ⟨rfl, rfl⟩ := h
      exact ⟨rfl, by simp, fun _ => by ring⟩

theorem choose_ok {o : Opt} {d : Draw} {b : Bool} {s s' : Star} {k : Kick} (h : choose o d b s = .ok (k, s')) :
    ∃ p, s' = { s with vel := some k.v, phi := some k.phi, polar := some p, anomaly := .num k.anomaly } ∧
      (0 ≤ d.u2 → d.u2 ≤ 1 → cos p = k.cosTheta) ∧
      (∀ x, s.vel = some x → k.v = x) ∧ (s.vel = none → drawn o d b s = .ok k.v) ∧
      (∀ x, s.phi = some x → k.phi = x) ∧ (s.phi = none → k.phi = 2 * π * d.u1) ∧
      (∀ x, s.polar = some x → k.cosTheta = cos x) ∧ (s.polar = none → k.cosTheta = 2 * d.u2 - 1) ∧
      (∀ x, s.anomaly = .num x → k.anomaly = x) ∧ (s.anomaly = .unset → k.anomaly = 2 * π * d.u3) := by
  unfold choose at h
  cases h1 : chooseV o d b s with
  | error e => rw [h1] at h; simp at h
  | ok x1 =>
    obtain ⟨v, s1⟩ := x1
    rw [h1] at h
    dsimp only at h
    obtain ⟨e1, a1, a2⟩ := chooseV_ok h1
    cases h2 : choosePhi o d s1 with
    | error e => rw [h2] at h; simp at h
    | ok x2 =>
      obtain ⟨ph, s2⟩ := x2
      rw [h2] at h
      dsimp only at h
      obtain ⟨e2, b1, b2⟩ := choosePhi_ok h2
      cases h3 : choosePolar o d s2 with
      | error e => rw [h3] at h; simp at h
      | ok x3 =>
        obtain ⟨ct, s3⟩ := x3
        rw [h3] at h
        dsimp only at h
        obtain ⟨⟨p, e3, c0⟩, c1, c2⟩ := choosePolar_ok h3
        cases h4 : chooseAnomaly o d s3 with
        | error e => rw [h4] at h; simp at h
        | ok x4 =>
          obtain ⟨an, s4⟩ := x4
          rw [h4] at h
          simp only [Except.ok.injEq, Prod.mk.injEq] at h
          obtain ⟨rfl, rfl⟩ := h
          obtain ⟨e4, d1, d2⟩ := chooseAnomaly_ok h4
          subst e1 e2 e3
          exact ⟨p, e4, c0, a1, a2, b1, b2, c1, c2, d1, d2⟩

/-- **C81**: what a star comes with is used; the rest is drawn: the azimuth and the mean anomaly between 0 and 2π, and the
cosine of the polar angle, so that all directions are equally likely, between -1 and 1. Everything that was used is recorded,
and nothing else of the star is changed. -/
theorem C81_given (o : Opt) (d : Draw) (b : Bool) (s s' : Star) (k : Kick) (hd : d.Ok) (h : choose o d b s = .ok (k, s')) :
    (∀ x, s.vel = some x → k.v = x) ∧ (s.vel = none → drawn o d b s = .ok k.v) ∧
    (∀ x, s.phi = some x → k.phi = x) ∧ (s.phi = none → k.phi = 2 * π * d.u1 ∧ 0 ≤ k.phi ∧ k.phi < 2 * π) ∧
    (∀ x, s.polar = some x → k.cosTheta = cos x) ∧ (s.polar = none → k.cosTheta = 2 * d.u2 - 1) ∧
    -1 ≤ k.cosTheta ∧ k.cosTheta ≤ 1 ∧
    (∀ x, s.anomaly = .num x → k.anomaly = x) ∧ (s.anomaly = .unset → k.anomaly = 2 * π * d.u3 ∧ 0 ≤ k.anomaly ∧ k.anomaly < 2 * π) ∧
    ∃ p, s' = { s with vel := some k.v, phi := some k.phi, polar := some p, anomaly := .num k.anomaly } ∧ cos p = k.cosTheta := by
  obtain ⟨p, e, c0, a1, a2, b1, b2, c1, c2, d1, d2⟩ := choose_ok h
  have hc := c0 hd.u2.1 hd.u2.2.le
  have hpi := Real.pi_pos
  refine ⟨a1, a2, b1, fun hp => ⟨b2 hp, ?_, ?_⟩, c1, c2, ?_, ?_, d1, fun hp => ⟨d2 hp, ?_, ?_⟩, p, e, hc⟩
  · rw [b2 hp]; have := hd.u1.1; positivity
  · rw [b2 hp]; nlinarith [hd.u1.2]
  · rw [← hc]; exact neg_one_le_cos p
  · rw [← hc]; exact cos_le_one p
  · rw [d2 hp]; have := hd.u3.1; positivity
  · rw [d2 hp]; nlinarith [hd.u3.2]

/-- **C81**: a kick can be reproduced: a star with a recorded kick gets the same kick again, whatever is drawn and whatever the
options are, and without a generator of random numbers. -/
theorem C81_reproducible (o o' : Opt) (d d' : Draw) (b b' : Bool) (s s' : Star) (k : Kick) (hd : d.Ok)
    (h : choose o d b s = .ok (k, s')) : choose o' d' b' s' = .ok (k, s') := by
  obtain ⟨p, e, c0, -⟩ := choose_ok h
  have hc := c0 hd.u2.1 hd.u2.2.le
  subst e
  simp [choose, chooseV, choosePhi, choosePolar, chooseAnomaly, hc]

example : ∃ k s', choose (init (some defaults)) std true ns = .ok (k, s') ∧ k.v = 265 ∧ k.cosTheta = -1 := by
  simp [choose, chooseV, choosePhi, choosePolar, chooseAnomaly, init, rename, defaults, ns, drawn, generate, normalisation, velocity, std, uniform]

/-- **C81**: with any parameter given, a kick is always found for a star that collapses by a known type to a known remnant, if
the names of the options are known and a mean anomaly that is given is a number. -/
theorem C81_total (o : Opt) (d : Draw) (b : Bool) (s : Star) (hn : o.norm ≠ .other) (hp : o.presc ≠ .other)
    (hs : s.sn ∈ [.ECSN, .CCSN, .PPISN, .PISN]) (hst : s.st ≠ .other) (ha : s.anomaly ≠ .other) :
    ∃ k s', choose (init (some o)) d b s = .ok (k, s') := by
  have hr := (C81_renamed o).2.2.2.1
  have hp' : (init (some o)).presc ≠ .other := by
    cases h : o.norm <;> simp_all [init, rename]
  have hn' : (init (some o)).norm ∈ [.fallback, .overMass, .nsFallback, .one, .zero] := by
    cases h : o.norm <;> simp_all [init, rename]
  generalize init (some o) = q at *
  have hg : ∀ sg mn, ∃ v, generate q d s sg mn = .ok v := by
    intro sg mn
    cases sg with
    | none => exact ⟨0, rfl⟩
    | some x => exact (C81_unknown q d s x mn).2.2 hn' hp'
  have hdr : ∃ v, drawn q d b s = .ok v := by
    simp only [List.mem_cons, List.not_mem_nil, or_false] at hs
    rcases hs with h | h | h | h
    · rw [(C81_type q d b s).1 h]; exact hg _ _
    all_goals
      cases hx : s.st
      · rw [(C81_type q d b s).2.1 (by simp [h]) hx]; exact hg _ _
      · rw [(C81_type q d b s).2.2.1 (by simp [h]) hx]; exact hg _ _
      · rw [(C81_type q d b s).2.2.2.1 (by simp [h]) hx]; exact ⟨0, rfl⟩
      · exact absurd hx hst
  obtain ⟨v, hv⟩ := hdr
  have hu : ∀ u x y, uniform q u x y = .ok (x + (y - x) * u) := fun u x y => by simp [uniform, hr]
  cases h1 : s.vel <;> cases h2 : s.phi <;> cases h3 : s.polar <;> cases h4 : s.anomaly <;>
    first
      | exact absurd h4 ha
      | simp [choose, chooseV, choosePhi, choosePolar, chooseAnomaly, h1, h2, h3, h4, hv, hu]

/-- **C81**: without parameters the dispersions are 265 km/s for the collapse to neutron stars and black holes and 20 km/s for electron
captures, Maxwellian, and reduced for black holes in the ratio of the mass to 1.4. -/
theorem C81_defaults (d : Draw) (b : Bool) (s : Star) :
    (s.sn = .ECSN → s.st = .NS → drawn (init none) d b s = .ok (d.maxwell 20)) ∧
    (s.sn = .CCSN → s.st = .NS → drawn (init none) d b s = .ok (d.maxwell 265)) ∧
    (s.sn = .CCSN → s.st = .BH → drawn (init none) d b s = .ok (1.4 / s.mass * d.maxwell 265)) := by
  refine ⟨fun h h' => ?_, fun h h' => ?_, fun h h' => ?_⟩ <;>
    simp [drawn, h, h', init, rename, defaults, generate, normalisation, velocity]

/-- **C81 (violated)**: without any parameter the step has no generator of random numbers, and a kick cannot be chosen. -/
theorem C81_generator_violated (d : Draw) : choose (init none) d true ns = .error .noGenerator := by
  simp [choose, chooseV, choosePhi, init, rename, defaults, ns, drawn, generate, normalisation, velocity, uniform]

/-- **C81**: a mean anomaly that is not a number is an error. -/
theorem C81_anomaly (o : Opt) (d : Draw) (b : Bool) (s : Star) (h : s.anomaly = .other) : ∀ k, choose o d b s ≠ .ok k := by
  rintro ⟨k, s'⟩ hk
  unfold choose at hk
  cases h1 : chooseV o d b s with
  | error e => rw [h1] at hk; simp at hk
  | ok x1 =>
    obtain ⟨v, s1⟩ := x1
    rw [h1] at hk
    dsimp only at hk
    cases h2 : choosePhi o d s1 with
    | error e => rw [h2] at hk; simp at hk
    | ok x2 =>
      obtain ⟨ph, s2⟩ := x2
      rw [h2] at hk
      dsimp only at hk
      cases h3 : choosePolar o d s2 with
      | error e => rw [h3] at hk; simp at hk
      | ok x3 =>
        obtain ⟨ct, s3⟩ := x3
        rw [h3] at hk
        dsimp only at hk
        obtain ⟨e1, -⟩ := chooseV_ok h1
        obtain ⟨e2, -⟩ := choosePhi_ok h2
        obtain ⟨⟨p, e3, -⟩, -⟩ := choosePolar_ok h3
        subst e1 e2 e3
        simp [chooseAnomaly, h] at hk

end Verif.NatalKick
