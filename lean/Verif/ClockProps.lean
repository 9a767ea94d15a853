import Verif.Clock
import Mathlib.Tactic.Linarith
/-!
C147: no step runs backwards in time or creates mass, over a whole evolution.
-/
namespace Verif.Clock

/-! ### The common envelope -/

theorem run_mass {cfg : CE.Cfg} {one double : Bool} {b b' : CE.Binary} {donor comp : CE.Star} (hd1 : CoreOk cfg donor)
    (hd2 : CoreOk cfg comp) (hl : cfg.massLoss = false) (hb : b = CE.assemble one b donor comp) (h : CE.run cfg one double b donor comp = .ok b') :
    (if one then b'.star1 else b'.star2).mass ≤ donor.mass ∧ (if one then b'.star2 else b'.star1).mass ≤ comp.mass ∧
      b'.rest "time" = b.rest "time" := by
  have hasm := CE.assemble_fields one b donor comp
  rw [← hb] at hasm
  obtain ⟨-, -, -, -, -, -, hdon, hcomp⟩ := hasm
  unfold CE.run at h
  by_cases h1 : CE.mergesAtOnce cfg donor = true
  · rw [if_pos h1] at h
    cases h
    dsimp only
    rw [hdon, hcomp]
    exact ⟨le_refl _, le_refl _, rfl⟩
  rw [if_neg h1] at h
  by_cases h2 : cfg.alphaLambda = true
  swap
  · rw [if_neg h2] at h; cases h
  rw [if_pos h2] at h
  cases hl1 : CE.lambdaCE cfg donor with
  | error e => rw [hl1] at h; cases h
  | ok l1 =>
  cases hl2 : CE.compLam cfg comp double with
  | error e => rw [hl1, hl2] at h; cases h
  | ok l2 =>
  rw [hl1, hl2] at h
  dsimp only at h
  unfold CE.simpleAlpha at h
  dsimp only at h
  split at h
  · cases h
  generalize CE.sepAfter cfg b donor comp l1 l2 double / Orbit.Rsun = a at h
  cases hc : CE.companion cfg comp l1 l2 double a with
  | error e => rw [hc] at h; cases h
  | ok q =>
  obtain ⟨comp', rc2⟩ := q
  rw [hc] at h
  dsimp only at h
  have hcm : comp'.mass = comp.mass := by
    unfold CE.companion at hc
    split at hc
    · split at hc
      · cases hc; rfl
      · cases hc
    · cases hc; rfl
  have hl2m : l2.mc ≤ comp.mass := by
    unfold CE.compLam at hl2
    split at hl2
    · exact hd2 _ hl2
    · cases hl2; exact le_refl _
  cases hp : CE.phase cfg donor comp' l1 l2 rc2 double a with
  | error e => rw [hp] at h; cases h
  | ok p =>
  rw [hp] at h
  dsimp only at h
  obtain ⟨g1, g2⟩ := CE.C36_cores_never_grow cfg donor comp' l1 l2 rc2 double a p hp
  cases hmg : p.merger with
  | true =>
    obtain ⟨e1, e2, -⟩ := CE.C36_merger_masses cfg one b b' donor comp' l1 l2 rc2 double p hmg hl h
    refine ⟨e1.le, (e2.trans hcm).le, ?_⟩
    unfold CE.resolve at h
    rw [if_pos hmg, if_neg (by simp [hl])] at h
    cases h
    unfold CE.merge
    rw [(CE.assemble_fields ..).2.2.2.2.2.1]
  | false =>
    obtain ⟨-, -, hd', hdm, -, hcs, hcd⟩ := CE.C36_ejection cfg one b b' donor comp' l1 l2 rc2 double p hmg h
    refine ⟨by rw [hd', hdm]; exact g1.trans (hd1 _ hl1), ?_, ?_⟩
    · cases double with
      | false => rw [hcs rfl, hcm]
      | true => rw [(hcd rfl).1]; exact g2.trans hl2m
    · unfold CE.resolve at h
      rw [if_neg (by simp [hmg])] at h
      cases h
      unfold CE.ejection
      dsimp only
      rw [(CE.assemble_fields ..).2.2.2.2.2.1]
      simp [CE.wipe, CE.keptBinary]

/-- A common envelope takes no time and makes neither star heavier, whether the binary survives or merges. -/
theorem C147_common_envelope (cfg : CE.Cfg) (b b' : CE.Binary) (h : CE.step cfg b = .ok b') (hd1 : CoreOk cfg b.star1)
    (hd2 : CoreOk cfg b.star2) (hl : cfg.massLoss = false) :
    b'.star1.mass ≤ b.star1.mass ∧ b'.star2.mass ≤ b.star2.mass ∧ b'.rest "time" = b.rest "time" := by
  have a1 : b = CE.assemble true b b.star1 b.star2 := rfl
  have a2 : b = CE.assemble false b b.star2 b.star1 := rfl
  unfold CE.step at h
  split at h
  · have := run_mass hd1 hd2 hl a1 h; simpa using this
  · have := run_mass hd1 hd2 hl a1 h; simpa using this
  · have := run_mass hd2 hd1 hl a2 h
    simp only [Bool.false_eq_true, if_false] at this
    exact ⟨this.2.1, this.1, this.2.2⟩
  · have := run_mass hd2 hd1 hl a2 h
    simp only [Bool.false_eq_true, if_false] at this
    exact ⟨this.2.1, this.1, this.2.2⟩
  · cases h

/-- With the option that ejects part of the envelopes in a merger, a star whose envelope is lighter than 0.01 and would be ejected entirely gains
mass: 0.01 minus its envelope. -/
theorem C147_partial_ejection_violated (cfg : CE.Cfg) (b : CE.Binary) (donor comp : CE.Star) (l1 l2 : CE.Lam) (rc2 : ℝ) (p : CE.Phase)
    (hp : p.merger = true) (hl : cfg.massLoss = true) (h1 : donor.hasProfile = true) (h2 : comp.hasProfile = true)
    (he : donor.mass - l1.mc < 0.01) (h0 : donor.mass - l1.mc + (comp.mass - l2.mc) ≠ 0)
    (hej : ∀ x, donor.mass - l1.mc < cfg.ejected donor x l1.mc l1.rc) :
    ∃ b', CE.resolve cfg true b donor comp l1 l2 rc2 true p = .ok b' ∧ b'.star1.mass = l1.mc + 0.01 ∧ donor.mass < b'.star1.mass := by
  unfold CE.resolve CE.massLost
  rw [if_pos hp, if_pos hl, if_neg (by simp), if_neg (by simp [h1, h2])]
  dsimp only
  rw [if_neg (by simp), if_neg h0]
  refine ⟨_, rfl, ?_⟩
  have hc : ∀ x, CE.clampEj (cfg.ejected donor x l1.mc l1.rc) (donor.mass - l1.mc) = donor.mass - l1.mc - 0.01 := by
    intro x
    unfold CE.clampEj
    rw [if_pos (hej x)]
  unfold CE.merge
  have hz := (CE.assemble_fields true { b with state := .merged, event := CE.mergeEvent b.event } (CE.reduce l1.ty donor.mass
    (donor.mass - l1.mc - 0.01) donor) (CE.reduce l2.ty comp.mass (CE.clampEj (cfg.ejected comp (cfg.alpha * (CE.eorb donor.mass comp.mass (CE.sepBefore b.per donor.mass comp.mass) -
      CE.eorb l1.mc l2.mc (CE.sepMerger l1.mc l1.rc l2.mc rc2)) * (1 - (donor.mass - l1.mc) / (donor.mass - l1.mc + (comp.mass - l2.mc)))) l2.mc rc2) (comp.mass - l2.mc)) comp)).2.2.2.2.2.2.1
  simp only [if_true] at hz
  rw [hc, hz]
  have hr : (CE.reduce l1.ty donor.mass (donor.mass - l1.mc - 0.01) donor).mass = donor.mass - (donor.mass - l1.mc - 0.01) := by
    cases hk : l1.ty with
    | notGiant => simp [CE.reduce]
    | he => simp [CE.reduce]
    | co => simp [CE.reduce]
  rw [hr]
  constructor
  · ring
  · linarith

/-- A star of 20 with a core of 19.995 and a companion of 10 with a core of 4. -/
example : ∃ b', CE.resolve { CE.exCfg with massLoss := true, ejected := fun _ _ _ _ => 1 } true CE.exBinary
    { CE.exDonor with hasProfile := true } { CE.exDonor with mass := 10, hasProfile := true } ⟨some 0.5, 19.995, 2, .he⟩ ⟨some 0.5, 4, 1, .he⟩ 1 true
    ⟨⟨19.995, 2, 4, 1⟩, 0, 0, true⟩ = .ok b' ∧ b'.star1.mass = 19.995 + 0.01 ∧ 20 < b'.star1.mass :=
  C147_partial_ejection_violated _ _ _ _ _ _ _ _ rfl rfl rfl rfl (by norm_num [CE.exDonor]) (by norm_num [CE.exDonor])
    (by intro x; norm_num [CE.exDonor])

/-! ### The supernova -/

theorem radius_mass {s s' : SNStep.Star} (h : SNStep.setRadius s = .ok s') : s'.mass = s.mass := by
  unfold SNStep.setRadius at h
  split at h
  · cases h
  · cases h; rfl

theorem wipeWD_mass {s s' : SNStep.Star} (h : SNStep.wipeWD s = .ok s') : s'.mass = s.mass := by
  unfold SNStep.wipeWD at h
  split at h
  · cases h
  · cases h; rfl

theorem finish_mass {s s' : SNStep.Star} (h : SNStep.finish s = .ok s') : s'.mass = s.mass := by
  unfold SNStep.finish at h
  split at h
  · cases h
  · rename_i s2 h2
    cases h
    have := radius_mass h2
    exact this

theorem core_mass {c : SNStep.Cfg} {s s' : SNStep.Star} {ty : String} (hd : Remnants c) (h0 : 0 ≤ s.mass)
    (h : SNStep.collapseCore c s ty = .ok s') : s'.mass ≤ s.mass := by
  obtain ⟨r, hr, hk⟩ := SNStep.collapseCore_cases h
  rcases hk with ⟨-, s2, h1, h2⟩ | ⟨-, -, rfl⟩ | ⟨-, m, s2, hm, h1, h2⟩
  · rw [wipeWD_mass h2, radius_mass h1]
    show r.m.getD 0 ≤ s.mass
    cases hm : r.m with
    | none => exact h0
    | some m => exact (hd.rem s r m h0 hr hm).2
  · exact h0
  · obtain ⟨m0, m1⟩ := hd.rem s r m h0 hr hm
    have hg := (SN.C32_gravitational_mass m c.maxNu m0 hd.nu).2.2.1
    rw [finish_mass h1]
    refine le_trans ?_ m1
    rcases h2 with h2 | h2 | rfl
    · unfold SNStep.byProfile at h2
      dsimp only at h2
      split at h2
      · cases h2
        refine hd.bh _ _ _ _ ?_
        split
        · exact hd.nu
        · linarith
      · split at h2
        · cases h2; exact hg
        · cases h2
    · unfold SNStep.byCores at h2
      dsimp only at h2
      split at h2
      · split at h2
        · cases h2
        · cases h2; exact hg
      · cases h2; exact hg
    · exact hg

theorem collapse_mass {c : SNStep.Cfg} {s s' : SNStep.Star} (hd : Remnants c) (h0 : 0 ≤ s.mass) (hq : ModelOk s)
    (h : SNStep.collapse c s = .ok s') : s'.mass ≤ s.mass := by
  obtain ⟨-, ⟨ty, p, h⟩ | ⟨-, q, m, ty, hs, -, hm, -, h⟩⟩ := SNStep.collapse_cases h
  · exact core_mass (s := { SNStep.enter s with interp := p }) hd h0 h
  · by_cases hp : (if q.snType = "ECSN" then ty else q.snType) = "PISN"
    · unfold SNStep.fromModel at h
      dsimp only at h
      have key : ∀ x : Except SNStep.Err SNStep.Star, (∀ y, x = .ok y → y.snType = "PISN") →
          (match x with | .error e => .error e | .ok s2 => if s2.snType = "PISN" then .ok (SNStep.toMassless s2) else SNStep.setRadius s2) = Except.ok s' →
          s'.mass = 0 := by
        intro x hx hy
        cases x with
        | error e => cases hy
        | ok y =>
          dsimp only at hy
          rw [if_pos (hx y rfl)] at hy
          cases hy
          rfl
      have : s'.mass = 0 := by
        refine key _ ?_ h
        generalize (if q.snType = "ECSN" then ty else q.snType) = pt at hp
        subst hp
        intro y hy
        by_cases hw : q.state = "WD"
        · simp only [SNStep.Star.set, hw, if_true] at hy
          unfold SNStep.wipeWD at hy
          split at hy
          · cases hy
          · cases hy; rfl
        · simp only [SNStep.Star.set, hw, if_false] at hy
          cases hy
          rfl
      rw [this]
      exact h0
    · rw [(SNStep.C34_interpolated _ s' _ m h hp).1]
      exact hq q m hs hm

/-- The time a supernova is recorded with is that of the last record, or it is not touched. -/
theorem sn_time {c : SNStep.Cfg} {b b' : SNStep.Binary} (h : SNStep.step c b = .ok b') :
    b'.attr "time" = b.lastTime ∨ b'.attr "time" = b.attr "time" := by
  obtain ⟨bc, bo, h1, h2, -, h3⟩ := SNStep.step_cases h
  obtain ⟨-, -, -, e4, -⟩ := SNStep.closing_cases h3
  rw [e4 _ (by decide)]
  have hbc : bc.attr = b.attr ∧ bc.lastTime = b.lastTime := by
    unfold SNStep.collapsed at h1
    split at h1
    · split at h1
      · cases h1
      · cases h1; exact ⟨rfl, rfl⟩
    · split at h1
      · cases h1
      · cases h1; exact ⟨rfl, rfl⟩
    · cases h1
  have hK : ∀ (x : SNStep.Binary) p, x.lastTime = b.lastTime → SNStep.afterKick c x p = .ok bo → bo.attr "time" = b.lastTime := by
    intro x p hx hk
    unfold SNStep.afterKick at hk
    split at hk
    · cases hk
      exact (SNStep.noOrbit_eq _).2.2.2.2.2.2.2.trans hx
    split at hk
    · cases hk
      rw [(SNStep.noOrbit_eq _).2.2.2.2.2.2.2]
      exact (SNStep.same_tiltsNan x).2.2.2.2.2.trans hx
    split at hk
    · dsimp only at hk
      split at hk
      · split at hk
        · cases hk
        · rename_i y hy
          cases hk
          have := (SNStep.same_tilts hy).2.2.2.2.2
          simp only [SNStep.Binary.set]
          exact (if_neg (by decide)).trans ((if_neg (by decide)).trans ((if_pos trivial).trans (this.trans hx)))
      · cases hk
        rw [(SNStep.noOrbit_eq _).2.2.2.2.2.2.2]
        exact (SNStep.same_tiltsNan _).2.2.2.2.2.trans hx
    · cases hk
  have hW : ∀ x y, SNStep.afterWD bc x y = .ok bo → bo.attr "time" = b.lastTime := by
    intro x y hw
    unfold SNStep.afterWD at hw
    split at hw
    · cases hw
    split at hw
    · cases hw
    cases hw
    rw [← hbc.2]
    simp [SNStep.Binary.set, SNStep.Binary.wipe]
  split at h2
  · left
    unfold SNStep.orbitalKick at h2
    split at h2
    · split at h2
      · exact hW _ _ h2
      · split at h2
        · cases h2
        · exact hK _ _ (by exact hbc.2) h2
    · split at h2
      · exact hW _ _ h2
      · split at h2
        · cases h2
        · exact hK _ _ (by exact hbc.2) h2
    · cases h2
  · right
    unfold SNStep.noKick at h2
    split at h2
    · cases h2
    split at h2
    · cases h2
    cases h2
    rw [← hbc.1]
    simp [SNStep.Binary.set]

/-- A supernova takes no time and makes neither star heavier. -/
theorem C147_supernova_partial (c : SNStep.Cfg) (b b' : SNStep.Binary) (h : SNStep.step c b = .ok b') (hd : Remnants c)
    (hm1 : ModelOk b.s1) (hm2 : ModelOk b.s2) (h1 : 0 ≤ b.s1.mass) (h2 : 0 ≤ b.s2.mass) (hl : b.lastTime = b.attr "time") :
    b'.s1.mass ≤ b.s1.mass ∧ b'.s2.mass ≤ b.s2.mass ∧ b'.attr "time" = b.attr "time" := by
  have ht : b'.attr "time" = b.attr "time" := by
    rcases sn_time h with e | e
    · exact e.trans hl
    · exact e
  obtain ⟨he, s, hs, hsame, -⟩ := SNStep.step_collapse h
  have hc := (SNStep.C34_companion c b b' h).1
  have hx : (b'.star b.event).mass = s.mass := hsame.mass.trans (SNStep.update_mass c s)
  rcases he with he | he <;> rw [he] at hs hc hx
  · exact ⟨by have := collapse_mass hd h1 hm1 hs; exact hx.le.trans this, hc.le, ht⟩
  · exact ⟨hc.le, by have := collapse_mass hd h2 hm2 hs; exact hx.le.trans this, ht⟩

/-- A star of 10 solar masses with a stored model of 100. -/
noncomputable def heavyStar : SNStep.Star :=
  { SNStep.exStar with interp := some ⟨"CCSN", "BH", some 100, .num 0, .num 1, .num 0, .num 0, .nan, .nan⟩ }

noncomputable def heavyCfg : SNStep.Cfg := { SNStep.exCfg with useInterp := true }

/-- Nothing compares the interpolated remnant with the star: ten solar masses can leave a black hole of a hundred. -/
theorem C147_model_violated :
    ∃ s', SNStep.collapse heavyCfg heavyStar = .ok s' ∧ heavyStar.mass = 10 ∧ s'.mass = 100 := by
  obtain ⟨r, hr⟩ : ∃ r, SNStep.coRadius 100 "BH" = .ok r := ⟨_, by unfold SNStep.coRadius; rw [if_neg (by norm_num), if_pos rfl]⟩
  have hu : SNStep.useModel "CCSN" "CCSN" "BH" (some 100) = true := by
    unfold SNStep.useModel
    rw [if_neg (by decide), if_neg (by decide), if_neg (by decide)]
    rfl
  unfold SNStep.collapse
  rw [if_pos (by simp [heavyStar, SNStep.exStar, SNStep.statesCC]), if_pos (by rfl), if_neg (by simp [heavyCfg, SNStep.exCfg])]
  have hi : heavyStar.interp = some ⟨"CCSN", "BH", some 100, .num 0, .num 1, .num 0, .num 0, .nan, .nan⟩ := rfl
  have ht : heavyCfg.typeOf (SNStep.enter heavyStar) = .ok "CCSN" := rfl
  rw [hi]
  simp only [ht, SNStep.tryModel]
  rw [if_neg (by decide)]
  simp only [hu, SNStep.fromModel, SNStep.Star.set, SNStep.Star.wipe]
  rw [if_neg (by decide)]
  simp only [SNStep.setRadius, hr]
  rw [if_neg (by decide)]
  exact ⟨_, rfl, rfl, rfl⟩

/-! ### Detached evolution, compact objects, mergers -/

/-- Detached evolution ends later than it began, for all choices of the recorded times. -/
theorem C147_detached (dt : Option ℚ) (n : Option ℤ) (t0 T : ℚ) (ts : List ℚ) (hT : t0 < T) (h : Detached.outTimes dt n t0 T = .ok ts) :
    (∀ x ∈ ts, t0 < x) ∧ ts.Pairwise (· < ·) := by
  have hnum : (∀ d, dt = some d → d ≤ 0) → (∀ x ∈ ts, t0 < x) ∧ ts.Pairwise (· < ·) := by
    intro hd
    by_cases hn : ∀ m, n = some m → m ≤ 0
    · obtain ⟨e, g⟩ := Detached.C47_default dt n t0 T hT hd hn
      rw [e] at h
      cases h
      exact ⟨by intro x hx; rw [List.mem_singleton] at hx; rw [hx]; exact hT, List.pairwise_singleton _ _⟩
    · push Not at hn
      obtain ⟨m, rfl, hm⟩ := hn
      have e : Detached.outTimes dt (some m) t0 T = Detached.outTimes none (some m) t0 T := by
        cases dt with
        | none => rfl
        | some d =>
          simp only [Detached.outTimes]
          rw [if_neg (not_lt.2 (hd d rfl))]
      rw [e] at h
      have := ((Detached.C47_number_of_steps m t0 T hm hT).2 ts h).1
      exact ⟨this.2.1, this.1⟩
  cases dt with
  | none => exact hnum (by intro d hd; cases hd)
  | some d =>
    by_cases hd : 0 < d
    · have := Detached.C47_dt_partial d n t0 T hd hT ts h
      exact ⟨this.2.1, this.1⟩
    · exact hnum (by intro d' hd'; cases hd'; exact not_lt.1 hd)

theorem star_le (e : Kepler.DetEnd) (h1 : e.trackSec ≤ e.ownSec) (h2 : e.trackPri ≤ e.ownPri) : e.starSec ≤ e.ownSec ∧ e.starPri ≤ e.ownPri := by
  unfold Kepler.DetEnd.starSec Kepler.DetEnd.starPri Kepler.DetEnd.mSec Kepler.DetEnd.mPri Kepler.trackMass
  constructor <;> split <;> first | exact le_refl _ | assumption

/-- The inspiral of two compact objects which do not overlap does not end before it begins, however the integration ends. -/
theorem C147_compact_partial (i : DoubleCO.In) (l tau : ℝ → ℝ) (r1 r2 : ℝ) (r : DoubleCO.Res) (o : DoubleCO.Out) (hv : DoubleCO.Valid i)
    (hr1 : DoubleCO.coRadius i.m1 i.k1 = .ok r1) (hr2 : DoubleCO.coRadius i.m2 i.k2 = .ok r2) (hr : r1 + r2 ≤ i.sep)
    (hs : DoubleCO.IsSol l tau (DoubleCO.l0 i) 0 (DoubleCO.sContact i r1 r2)) (h : DoubleCO.step i l tau r = .ok o) : i.time ≤ o.time := by
  have hp1 := DoubleCO.coRadius_pos hr1
  have hp2 := DoubleCO.coRadius_pos hr2
  unfold DoubleCO.step at h
  split at h
  · cases h
  rename_i ht
  rw [hr1, hr2] at h
  dsimp only at h
  cases r with
  | raised => cases h
  | failed => cases h; exact le_refl _
  | finished =>
    cases h
    dsimp only
    have hS := DoubleCO.sContact_nonneg i hv.sep hp1 hp2 hr
    have hts := DoubleCO.tScale_pos hv
    have := hs.tau_mono hs.zero_mem ⟨hS, le_refl _⟩ hS
    rw [hs.tau_start] at this
    have := mul_nonneg this hts.le
    linarith
  | event s =>
    cases h
    dsimp only
    push Not at ht
    linarith

/-- For two objects that overlap at the start the step goes back in time. -/
theorem C147_overlap_violated : ∃ (i : DoubleCO.In) (l tau : ℝ → ℝ) (o : DoubleCO.Out), DoubleCO.Valid i ∧
    DoubleCO.step i l tau .finished = .ok o ∧ o.time < i.time := by
  have hr1 : DoubleCO.coRadius DoubleCO.exTouch.m1 DoubleCO.exTouch.k1 = .ok (2.9e8 / Orbit.Rsun) := by
    unfold DoubleCO.coRadius DoubleCO.exTouch DoubleCO.ex; norm_num
  have hr2 : DoubleCO.coRadius DoubleCO.exTouch.m2 DoubleCO.exTouch.k2 = .ok (2.9e8 / Orbit.Rsun) := hr1
  have hr : DoubleCO.exTouch.sep < 2.9e8 / Orbit.Rsun + 2.9e8 / Orbit.Rsun := by norm_num [DoubleCO.exTouch, DoubleCO.ex, Orbit.Rsun]
  have hs : 0 < DoubleCO.exTouch.sep := by norm_num [DoubleCO.exTouch, DoubleCO.ex]
  have hp : (0 : ℝ) < 2.9e8 / Orbit.Rsun := by norm_num [Orbit.Rsun]
  have hv : DoubleCO.Valid DoubleCO.exTouch := by constructor <;> norm_num [DoubleCO.exTouch, DoubleCO.ex]
  have hS : DoubleCO.sContact DoubleCO.exTouch (2.9e8 / Orbit.Rsun) (2.9e8 / Orbit.Rsun) ≤ 0 := by
    by_contra hc
    push Not at hc
    have h1 := DoubleCO.contact_sep DoubleCO.exTouch hs hp hp
    have : Real.exp (-DoubleCO.sContact DoubleCO.exTouch (2.9e8 / Orbit.Rsun) (2.9e8 / Orbit.Rsun)) ≤ 1 := Real.exp_le_one_iff.2 (by linarith)
    nlinarith
  obtain ⟨l, tau, h⟩ := DoubleCO.exists_sol (start := DoubleCO.l0 DoubleCO.exTouch)
    (DoubleCO.l0_neg (by norm_num [DoubleCO.exTouch, DoubleCO.ex])) _ 0 hS (le_refl _)
  have ht : DoubleCO.exTouch.time < DoubleCO.exTouch.maxTime := by norm_num [DoubleCO.exTouch, DoubleCO.ex]
  have ho := (DoubleCO.step_of_radii hr1 hr2 ht l tau).1
  exact ⟨_, l, tau, _, hv, ho, (DoubleCO.C73_time_backwards_violated _ l tau _ _ _ hv hr1 hr2 ht hr h ho).2.2.1⟩

theorem merge_mass {cfg : Merged.Cfg} {base comp m r : Merged.Star} {x y u w : ℚ} (h : Merged.merge cfg base comp = .ok (m, r))
    (hl : 0 ≤ cfg.loss) (hx0 : 0 ≤ x) (hy0 : 0 ≤ y) (hx : MassIs base x) (hy : MassIs comp y) (hu : MassIs m u) (hw : MassIs r w) :
    u + w ≤ x + y := by
  cases hb : Merged.branch base.state comp.state with
  | none =>
    unfold Merged.merge at h
    rw [hb] at h
    cases h
  | some b =>
    by_cases hn : b = .nsbh
    · subst hn
      unfold Merged.merge at h
      rw [hb] at h
      cases h
      unfold MassIs at *
      have e1 : (Merged.massless base).get "mass" = .num 0 := rfl
      rw [e1] at hu
      rw [hy] at hw
      cases hu
      cases hw
      linarith
    · obtain ⟨e1, -, e2⟩ := Merged.C35_mass cfg base comp m r b x y hb hn hx hy h
      unfold MassIs at *
      rw [e1] at hu
      rw [e2] at hw
      cases hu
      cases hw
      split
      · nlinarith
      · linarith

/-- A merger does not create mass. -/
theorem C147_merger (cfg : Merged.Cfg) (b b' : Merged.Binary) (x y x' y' : ℚ) (h : Merged.call cfg b = .ok b') (hl : 0 ≤ cfg.loss)
    (hx0 : 0 ≤ x) (hy0 : 0 ≤ y) (hx : MassIs b.star1 x) (hy : MassIs b.star2 y) (hx' : MassIs b'.star1 x') (hy' : MassIs b'.star2 y') :
    x' + y' ≤ x + y := by
  have one : ∀ b0 : Merged.Binary, b0.star1 = b.star1 → b0.star2 = b.star2 → Merged.mergeOne cfg b0 = .ok b' → x' + y' ≤ x + y := by
    intro b0 e1 e2 h
    unfold Merged.mergeOne at h
    rw [e1, e2] at h
    split at h
    · cases h
    · rename_i v hv
      cases h
      exact merge_mass hv hl hx0 hy0 hx hy hx' hy'
  have two : ∀ b0 : Merged.Binary, b0.star1 = b.star1 → b0.star2 = b.star2 → Merged.mergeTwo cfg b0 = .ok b' → x' + y' ≤ x + y := by
    intro b0 e1 e2 h
    unfold Merged.mergeTwo at h
    rw [e1, e2] at h
    split at h
    · cases h
    · rename_i v hv
      cases h
      have := merge_mass hv hl hy0 hx0 hy hx hy' hx'
      linarith
  unfold Merged.call at h
  split at h
  · split at h
    · exact one _ rfl rfl h
    · split at h
      · exact two _ rfl rfl h
      · cases h
  · split at h
    · split at h
      · exact one _ (by rfl) (by rfl) h
      · split at h
        · exact two _ (by rfl) (by rfl) h
        · cases h
    · cases h

/-! ### All steps -/

/-- No step runs backwards in time or creates mass. -/
theorem C147_step {p q : ℝ × ℝ} (h : Step p q) : p.1 ≤ q.1 ∧ q.2 ≤ p.2 := by
  cases h with
  | ce cfg b b' t t' h hd1 hd2 hl ht ht' =>
    obtain ⟨h1, h2, h3⟩ := C147_common_envelope cfg b b' h hd1 hd2 hl
    rw [ht, ht'] at h3
    cases h3
    exact ⟨le_refl _, add_le_add h1 h2⟩
  | sn c b b' t t' h hd hm1 hm2 h1 h2 ht hl ht' =>
    obtain ⟨g1, g2, g3⟩ := C147_supernova_partial c b b' h hd hm1 hm2 h1 h2 (hl.trans ht.symm)
    rw [ht, ht'] at g3
    cases g3
    exact ⟨le_refl _, add_le_add g1 g2⟩
  | detached dt n t0 T x ts hT h hx e h1 h2 =>
    have := (C147_detached dt n t0 T ts hT h).1 x (List.mem_of_getLast? hx)
    refine ⟨?_, add_le_add (star_le e h1 h2).1 (star_le e h1 h2).2⟩
    show (t0 : ℝ) ≤ (x : ℝ)
    exact_mod_cast this.le
  | compact i l tau r1 r2 r o hv hr1 hr2 hr hs h => exact ⟨C147_compact_partial i l tau r1 r2 r o hv hr1 hr2 hr hs h, le_refl _⟩
  | merged cfg b b' t x y x' y' h hl hx0 hy0 hx hy hx' hy' =>
    refine ⟨le_refl _, ?_⟩
    have := C147_merger cfg b b' x y x' y' h hl hx0 hy0 hx hy hx' hy'
    show (x' : ℝ) + y' ≤ (x : ℝ) + y
    exact_mod_cast this
  | grid t age M M' ha hM => exact ⟨by show t ≤ t + age; linarith, hM⟩

/-- Over a whole evolution, with any number of steps in any order, time does not run backwards and the total mass does not grow. -/
theorem C147_evolution {p q : ℝ × ℝ} (h : Relation.ReflTransGen Step p q) : p.1 ≤ q.1 ∧ q.2 ≤ p.2 := by
  induction h with
  | refl => exact ⟨le_refl _, le_refl _⟩
  | tail _ hs ih =>
    have := C147_step hs
    exact ⟨ih.1.trans this.1, this.2.trans ih.2⟩

/-- A binary of 30 solar masses evolves on a grid, then detached for a hundred years, and ends in a common envelope with a donor on the main
sequence. -/
example : ∃ t M, Relation.ReflTransGen Step (0, 31) (t, M) ∧ t = 150 ∧ M = 28 := by
  let d : CE.Star := { CE.exDonor with state := .hCoreH, mass := 18 }
  let b : CE.Binary := { CE.exBinary with star1 := d, rest := fun _ => some 150 }
  have hr : CE.step CE.exCfg b = .ok { b with state := .merged, event := .oMerging1 } := by
    unfold CE.step
    exact CE.C36_merge_at_once _ true _ _ _ _ (Or.inl rfl)
  have h1 : CoreOk CE.exCfg d := by
    intro l hl
    unfold CE.lambdaCE CE.lamValues at hl
    split at hl
    · rw [if_neg (by simp [CE.exCfg]), if_pos (by simp [CE.exCfg])] at hl
      split at hl
      · cases hl
        show (8 : ℝ) ≤ 18
        norm_num
      · cases hl
    · cases hl
  have h2 : CoreOk CE.exCfg CE.exComp := by
    intro l hl
    unfold CE.lambdaCE CE.coreType at hl
    rw [if_neg (show ¬ FlowChart.starPostMS.contains CE.exComp.state = true from (by decide : ¬ FlowChart.starPostMS.contains FlowChart.Star.BH = true)),
      if_neg (show ¬ FlowChart.starPostHeMS.contains CE.exComp.state = true from (by decide : ¬ FlowChart.starPostHeMS.contains FlowChart.Star.BH = true))] at hl
    cases hl
  refine ⟨150, 28, ?_, rfl, rfl⟩
  have s1 : Step (0, 31) (50, 30) := by
    have := Step.grid 0 50 31 30 (by norm_num) (by norm_num)
    rwa [zero_add] at this
  have s2 : Step (50, 30) (150, 28) := by
    have hd := Detached.C47_default none none 50 150 (by norm_num) (by simp) (by simp)
    have := Step.detached none none 50 150 150 [150] (by norm_num) hd.1 rfl ⟨100, false, true, 20, 10, 18, 10⟩ (by norm_num) (by norm_num)
    norm_num [Kepler.DetEnd.starSec, Kepler.DetEnd.starPri, Kepler.DetEnd.mSec, Kepler.DetEnd.mPri, Kepler.trackMass] at this
    exact this
  have s3 : Step (150, 28) (150, 28) := by
    have := Step.ce CE.exCfg b _ 150 150 hr h1 h2 rfl rfl rfl
    norm_num [b, d, CE.exBinary, CE.exComp] at this
    exact this
  exact ((Relation.ReflTransGen.single s1).tail s2).tail s3

/-- The giant of the concrete common envelope of `C36` has a core of 8 in 20. -/
example : CoreOk CE.exCfg CE.exDonor := by
  intro l hl
  unfold CE.lambdaCE CE.lamValues at hl
  split at hl
  · rw [if_neg (by simp [CE.exCfg]), if_pos (by simp [CE.exCfg])] at hl
    split at hl
    · cases hl
      show (8 : ℝ) ≤ 20
      norm_num
    · cases hl
  · cases hl

/-- The remnants of the concrete supernova of `C34` are as assumed. -/
example : Remnants SNStep.exCfg ∧ ModelOk SNStep.exBinary.s1 ∧ ModelOk SNStep.exBinary.s2 ∧ 0 ≤ SNStep.exBinary.s1.mass ∧ 0 ≤ SNStep.exBinary.s2.mass := by
  refine ⟨⟨?_, ?_, by norm_num [SNStep.exCfg]⟩, ?_, ?_, by norm_num [SNStep.exBinary], by norm_num [SNStep.exBinary, SNStep.exStar]⟩
  · intro s r m h0 hr hm
    cases hr
    cases hm
    exact ⟨h0, le_refl _⟩
  · intro s m a d hd
    show m - d ≤ m
    linarith
  · intro q m hq
    cases hq
  · intro q m hq
    cases hq

end Verif.Clock
