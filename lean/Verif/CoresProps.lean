import Verif.Cores
import Verif.KindsProps
import Mathlib.Tactic.Linarith
import Mathlib.Tactic.NormNum
/-!
Property theorems for the core masses through an evolution: C153.
-/
namespace Verif.Cores
open FlowChart

/-! ### The common envelope -/

/-- Stripping to a core keeps cores nested if the core found is not lighter than the carbon-oxygen core. -/
theorem stripped_nested (cfg : CE.Cfg) (ty : CE.CoreType) (m r : ℝ) (s : CE.Star) (hs : Nested (ofCE s)) (ht : ty ≠ .notGiant) (h0 : 0 ≤ m)
    (hc : ty = .he → s.coM ≤ m) : Nested (ofCE (CE.stripped cfg ty m r s)) := by
  obtain ⟨-, -, c0⟩ := hs s.heM rfl
  obtain ⟨c0, -⟩ := c0 s.coM rfl
  have hm : ofCE (CE.stripped cfg ty m r s) = ofCE (CE.strip cfg ty m r s) := by
    unfold CE.stripped
    dsimp only
    rw [if_neg ht]
    rfl
  rw [hm]
  intro h hh
  cases ty with
  | he =>
    cases hh
    exact ⟨h0, le_refl _, fun c hc' => by cases hc'; exact ⟨c0, hc rfl⟩⟩
  | co =>
    cases hh
    exact ⟨h0, le_refl _, fun c hc' => by cases hc'; exact ⟨h0, le_refl _⟩⟩
  | notGiant => exact absurd rfl ht

theorem reduce_nested (ty : CE.CoreType) (s : CE.Star) (hs : Nested (ofCE s)) : Nested (ofCE (CE.reduce ty s.mass 0 s)) := by
  obtain ⟨h0, h1, h2⟩ := hs s.heM rfl
  obtain ⟨c0, c1⟩ := h2 s.coM rfl
  have e : s.mass - 0 = s.mass := sub_zero _
  unfold CE.reduce
  dsimp only
  rw [e]
  split_ifs
  · intro h hh
    cases hh
    exact ⟨h0.trans h1, le_refl _, fun c hc => by cases hc; exact ⟨c0, c1.trans h1⟩⟩
  · exact hs

/-- The core masses after the envelope is lost are not below the carbon-oxygen cores. -/
theorem postCores_ge {donor comp : CE.Star} {mc1 mc2 rc2 : ℝ} {ty1 ty2 : CE.CoreType} {double : Bool} {c : CE.Cores}
    (hd : Nested (ofCE donor)) (hc : double = true → Nested (ofCE comp)) (ht : double = true → ty2 ≠ .notGiant) (h1 : donor.coM ≤ mc1)
    (h2 : double = true → comp.coM ≤ mc2) (h : CE.postCores donor mc1 ty1 comp mc2 rc2 ty2 double = .ok c) :
    donor.coM ≤ c.m1 ∧ (double = true → comp.coM ≤ c.m2) := by
  unfold CE.postCores at h
  cases hv : CE.coreValues donor ty1 with
  | error e => rw [hv] at h; cases h
  | ok v =>
    rw [hv] at h
    obtain ⟨m, r⟩ := v
    obtain rfl := Except.ok.inj h
    obtain ⟨-, -, k⟩ := hd donor.heM rfl
    have k := (k donor.coM rfl).2
    constructor
    · refine le_min ?_ h1
      unfold CE.coreValues at hv
      cases ty1 with
      | he => cases hv; exact k
      | co => cases hv; exact le_refl _
      | notGiant => cases hv
    · intro hb
      dsimp only
      rw [if_pos hb]
      obtain ⟨-, -, k'⟩ := hc hb comp.heM rfl
      have k' := (k' comp.coM rfl).2
      unfold CE.compCore
      cases ty2 with
      | he => exact le_min k' (h2 hb)
      | co => exact le_min (le_refl _) (h2 hb)
      | notGiant => exact absurd rfl (ht hb)

theorem windloss_ge {cfg : CE.Cfg} {donor comp : CE.Star} {mc1 mc2 rc2 a : ℝ} {ty1 ty2 : CE.CoreType} {double : Bool} {p : CE.Phase}
    (hd : Nested (ofCE donor)) (hc : double = true → Nested (ofCE comp)) (ht : double = true → ty2 ≠ .notGiant) (h1 : donor.coM ≤ mc1)
    (h2 : double = true → comp.coM ≤ mc2) (h : CE.windloss cfg donor mc1 ty1 comp mc2 rc2 ty2 double a = .ok p) :
    donor.coM ≤ p.c.m1 ∧ (double = true → comp.coM ≤ p.c.m2) := by
  unfold CE.windloss at h
  cases hp : CE.postCores donor mc1 ty1 comp mc2 rc2 ty2 double with
  | error e => rw [hp] at h; cases h
  | ok c =>
    rw [hp] at h
    dsimp only at h
    split at h
    · cases h; exact ⟨h1, h2⟩
    · split at h
      · cases h
      · cases h; exact postCores_ge hd hc ht h1 h2 hp

theorem phase_ge {cfg : CE.Cfg} {donor comp : CE.Star} {l1 l2 : CE.Lam} {rc2 a : ℝ} {double : Bool} {p : CE.Phase}
    (hd : Nested (ofCE donor)) (hc : double = true → Nested (ofCE comp)) (ht : double = true → l2.ty ≠ .notGiant) (h1 : donor.coM ≤ l1.mc)
    (h2 : double = true → comp.coM ≤ l2.mc) (h : CE.phase cfg donor comp l1 l2 rc2 double a = .ok p) :
    donor.coM ≤ p.c.m1 ∧ (double = true → comp.coM ≤ p.c.m2) := by
  unfold CE.phase at h
  cases ha : cfg.after with
  | onePhase => rw [ha] at h; cases h; exact ⟨h1, h2⟩
  | windloss => rw [ha] at h; exact windloss_ge hd hc ht h1 h2 h
  | invalid => rw [ha] at h; cases h
  | stableMT =>
    rw [ha] at h
    dsimp only at h
    unfold CE.stableMT at h
    split at h
    · exact windloss_ge hd hc ht h1 h2 h
    · cases hp : CE.postCores donor l1.mc l1.ty comp l2.mc rc2 l2.ty double with
      | error e => rw [hp] at h; cases h
      | ok c =>
        rw [hp] at h
        dsimp only at h
        split at h
        · cases h; exact ⟨h1, h2⟩
        · split at h
          · cases h
          · cases h; exact postCores_ge hd hc ht h1 h2 hp

/-- The parameters found for a giant are those of a giant. -/
theorem lambda_giant {c : CE.Cfg} {s : CE.Star} {l : CE.Lam} (h : CE.lambdaCE c s = .ok l) : l.ty ≠ .notGiant := by
  unfold CE.lambdaCE at h
  cases hc : CE.coreType c s with
  | error e => rw [hc] at h; cases h
  | ok v =>
    rw [hc] at h
    obtain ⟨ty, frac⟩ := v
    have ht : ty ≠ .notGiant := by
      unfold CE.coreType at hc
      split at hc
      · split at hc
        · cases hc; simp
        · cases hc
      · split at hc
        · split at hc
          · cases hc
          · cases hc; simp
        · cases hc
    dsimp only at h
    have key : l.ty = ty := by
      unfold CE.lamValues at h
      split at h
      · split at h
        · cases h; rfl
        · cases h
      · split at h
        · split at h
          · cases h; rfl
          · cases h
        · split at h
          · split at h
            · cases h; rfl
            · cases h
          · split at h
            · cases h
            · split at h
              · cases h; rfl
              · cases h
    rw [key]
    exact ht

/-- What happens to a star: nested cores stay nested, and what is not a normal star keeps its mass. -/
def Keeps (s s' : CE.Star) : Prop :=
  (isNormal s.state = true → Nested (ofCE s) → Nested (ofCE s')) ∧ (isNormal s.state ≠ true → s'.mass = s.mass)

theorem run_cores {c : CE.Cfg} (hl : c.massLoss = false) {one double : Bool} {b b' : CE.Binary} {donor comp : CE.Star}
    (hb : donor = (if one then b.star1 else b.star2) ∧ comp = (if one then b.star2 else b.star1))
    (d1 : CoreData c donor) (d2 : CoreData c comp) (n1 : isNormal donor.state = true → Nested (ofCE donor)) (n2 : isNormal comp.state = true → Nested (ofCE comp))
    (h : CE.run c one double b donor comp = .ok b') : Keeps b.star1 b'.star1 ∧ Keeps b.star2 b'.star2 := by
  have fin : ∀ d' c' : CE.Star, ∀ b0 : CE.Binary, Keeps donor d' → Keeps comp c' →
      Keeps b.star1 (CE.assemble one b0 d' c').star1 ∧ Keeps b.star2 (CE.assemble one b0 d' c').star2 := by
    intro d' c' b0 h1 h2
    rw [hb.1] at h1
    rw [hb.2] at h2
    unfold CE.assemble
    cases one
    · exact ⟨h2, h1⟩
    · exact ⟨h1, h2⟩
  unfold CE.run at h
  split at h
  · obtain rfl := Except.ok.inj h
    exact ⟨⟨fun _ => id, fun _ => rfl⟩, ⟨fun _ => id, fun _ => rfl⟩⟩
  · split at h
    · cases h1 : CE.lambdaCE c donor with
      | error e => rw [h1] at h; cases h
      | ok l1 =>
        rw [h1] at h
        dsimp only at h
        cases h2 : CE.compLam c comp double with
        | error e => rw [h2] at h; cases h
        | ok l2 =>
          rw [h2] at h
          dsimp only at h
          have hd := Life.lambda_normal h1
          unfold CE.simpleAlpha at h
          dsimp only at h
          split at h
          · cases h
          · cases h3 : CE.companion c comp l1 l2 double (CE.sepAfter c b donor comp l1 l2 double / Orbit.Rsun) with
            | error e => rw [h3] at h; cases h
            | ok v =>
              obtain ⟨comp', rc2⟩ := v
              rw [h3] at h
              dsimp only at h
              have hcs : ofCE comp' = ofCE comp ∧ comp'.mass = comp.mass ∧ comp'.state = comp.state ∧ comp'.coM = comp.coM := by
                unfold CE.companion at h3
                split at h3
                · split at h3
                  · have := (Prod.mk.inj (Except.ok.inj h3)).1
                    rw [← this]
                    exact ⟨rfl, rfl, rfl, rfl⟩
                  · cases h3
                · have := (Prod.mk.inj (Except.ok.inj h3)).1
                  rw [← this]
                  exact ⟨rfl, rfl, rfl, rfl⟩
              cases h4 : CE.phase c donor comp' l1 l2 rc2 double (CE.sepAfter c b donor comp l1 l2 double / Orbit.Rsun) with
              | error e => rw [h4] at h; cases h
              | ok p =>
                rw [h4] at h
                dsimp only at h
                have hdouble : double = true → CE.lambdaCE c comp = .ok l2 := by
                  intro hd2
                  unfold CE.compLam at h2
                  rw [if_pos hd2] at h2
                  exact h2
                unfold CE.resolve at h
                split at h
                · rw [if_neg (by rw [hl]; simp)] at h
                  obtain rfl := Except.ok.inj h
                  unfold CE.merge
                  refine fin _ _ _ ⟨fun _ hn => reduce_nested _ _ hn, fun e => absurd hd e⟩ ⟨fun _ hn => ?_, fun _ => ?_⟩
                  · exact reduce_nested _ _ (by rw [hcs.1]; exact hn)
                  · rw [← hcs.2.1]
                    unfold CE.reduce
                    dsimp only
                    split_ifs <;> simp
                · obtain rfl := Except.ok.inj h
                  unfold CE.ejection
                  dsimp only
                  have hn2 : double = true → Nested (ofCE comp') := fun hd2 => by
                    rw [hcs.1]
                    exact n2 (Life.lambda_normal (hdouble hd2))
                  have hn1 := n1 hd
                  obtain ⟨g1, g2⟩ := phase_ge hn1 hn2 (fun hd2 => lambda_giant (hdouble hd2)) (d1 _ h1)
                      (fun hd2 => by rw [hcs.2.2.2]; exact d2 _ (hdouble hd2)) h4
                  have c0 := ((hn1 donor.heM rfl).2.2 donor.coM rfl).1
                  refine fin _ _ _ ⟨fun _ _ => stripped_nested _ _ _ _ _ hn1 (lambda_giant h1) (c0.trans g1) fun _ => g1, fun e => absurd hd e⟩ ?_
                  cases double with
                  | false => exact ⟨fun _ hn => by rw [if_neg (by simp), hcs.1]; exact hn, fun _ => hcs.2.1⟩
                  | true =>
                    have hn := Life.lambda_normal (hdouble rfl)
                    have c0 := ((hn2 rfl comp'.heM rfl).2.2 comp'.coM rfl).1
                    rw [if_pos rfl]
                    exact ⟨fun _ _ => stripped_nested _ _ _ _ _ (hn2 rfl) (lambda_giant (hdouble rfl)) (c0.trans (g2 rfl)) fun _ => g2 rfl,
                      fun e => absurd hn e⟩
    · cases h

/-- A common envelope without partial ejection: nested cores stay nested, whether the envelope is ejected or the stars merge. -/
theorem C153_common_envelope (cfg : CE.Cfg) (b b' : CE.Binary) (x y : Body) (h : CE.step cfg b = .ok b') (hl : cfg.massLoss = false)
    (d1 : CoreData cfg b.star1) (d2 : CoreData cfg b.star2) (hx : View b.star1 x) (hy : View b.star2 y) (h1 : Nested x) (h2 : Nested y) :
    Nested (after b.star1 b'.star1 x) ∧ Nested (after b.star2 b'.star2 y) := by
  have n1 : isNormal b.star1.state = true → Nested (ofCE b.star1) := fun e => by rw [← hx.2 e]; exact h1
  have n2 : isNormal b.star2.state = true → Nested (ofCE b.star2) := fun e => by rw [← hy.2 e]; exact h2
  have key : Keeps b.star1 b'.star1 ∧ Keeps b.star2 b'.star2 := by
    unfold CE.step at h
    split at h
    · exact run_cores (one := true) hl ⟨rfl, rfl⟩ d1 d2 n1 n2 h
    · exact run_cores (one := true) hl ⟨rfl, rfl⟩ d1 d2 n1 n2 h
    · exact run_cores (one := false) hl ⟨rfl, rfl⟩ d2 d1 n2 n1 h
    · exact run_cores (one := false) hl ⟨rfl, rfl⟩ d2 d1 n2 n1 h
    · cases h
  have fin : ∀ (s s' : CE.Star) (z : Body), View s z → Nested z → Keeps s s' → Nested (after s s' z) := by
    intro s s' z hz hn hk
    unfold after
    split
    · rename_i e
      exact hk.1 e (by rw [← hz.2 e]; exact hn)
    · rename_i e
      rw [hk.2 e, ← hz.1]
      exact hn
  exact ⟨fin _ _ _ hx h1 key.1, fin _ _ _ hy h2 key.2⟩

/-- With the default envelope parameter the core is one of the star, so that the hypothesis on it holds; with the tabulated ones it is one on the
tables. -/
theorem C153_core_data (cfg : CE.Cfg) (s : CE.Star) (hn : Nested (ofCE s)) (h : cfg.lamOpt = .default ∨ (cfg.lamOpt = .grid ∧ ∀ f, s.coM ≤ s.mcore f)) :
    CoreData cfg s := by
  intro l hl
  have k := ((hn s.heM rfl).2.2 s.coM rfl).2
  unfold CE.lambdaCE at hl
  split at hl
  · rename_i ty frac _
    unfold CE.lamValues at hl
    rcases h with h | ⟨h, hf⟩
    · rw [if_pos h] at hl
      unfold CE.coreValues at hl
      cases ty with
      | he => cases hl; exact k
      | co => cases hl; exact le_refl _
      | notGiant => cases hl
    · rw [if_neg (by rw [h]; decide), if_pos h] at hl
      split at hl
      · cases hl; exact hf _
      · cases hl
  · cases hl

/-- After an ejection the donor is its own core: it has the mass of its helium core, and a donor without hydrogen that of its carbon-oxygen core too. -/
theorem C153_bare (cfg : CE.Cfg) (ty : CE.CoreType) (m r : ℝ) (s : CE.Star) (ht : ty ≠ .notGiant) :
    (CE.stripped cfg ty m r s).heM = (CE.stripped cfg ty m r s).mass ∧
      (ty = .co → (CE.stripped cfg ty m r s).coM = (CE.stripped cfg ty m r s).mass) ∧ (ty = .he → (CE.stripped cfg ty m r s).coM = s.coM) := by
  cases ty with
  | he => exact ⟨rfl, (fun e => by cases e), fun _ => rfl⟩
  | co => exact ⟨rfl, fun _ => rfl, fun e => by cases e⟩
  | notGiant => exact absurd rfl ht

/-- With partial ejection the mass of a merging giant can fall below that of its helium core, which is not updated. -/
theorem C153_partial_ejection_violated (s : CE.Star) (ej : ℝ) (he : s.mass - s.heM < ej) : ¬ Nested (ofCE (CE.reduce .he s.mass ej s)) := by
  intro h
  obtain ⟨-, h1, -⟩ := h s.heM (by unfold CE.reduce; rfl)
  have : s.heM ≤ s.mass - ej := h1
  linarith

/-! ### The supernova -/

theorem number_num (x : ℝ) : number (.num x) = some x := rfl

/-- A white dwarf is all core. -/
theorem wipeWD_cores {s s' : SNStep.Star} (h : SNStep.wipeWD s = .ok s') : s'.mass = s.mass ∧ s'.state = s.state ∧ (ofSN s').he = some s.mass ∧
    ((ofSN s').co = some s.mass ∨ (ofSN s').co = some 0) := by
  unfold SNStep.wipeWD at h
  split at h
  · cases h
  · rename_i d hd
    cases h
    refine ⟨rfl, rfl, ?_, ?_⟩
    · simp [ofSN, SNStep.Star.set, number]
    · cases d <;> simp [ofSN, SNStep.Star.set, number]

theorem setRadius_cores {s s' : SNStep.Star} (h : SNStep.setRadius s = .ok s') : ofSN s' = ofSN s ∧ s'.state = s.state ∧ 0 < s.mass := by
  unfold SNStep.setRadius at h
  cases hc : SNStep.coRadius s.mass s.state with
  | error e => rw [hc] at h; cases h
  | ok r =>
    rw [hc] at h
    cases h
    refine ⟨?_, rfl, ?_⟩
    · unfold ofSN SNStep.Star.set
      dsimp only
      rw [if_neg (by decide), if_neg (by decide)]
    · unfold SNStep.coRadius at hc
      by_contra hm
      rw [if_pos (not_lt.1 hm)] at hc
      cases hc

/-- What a collapse leaves: a white dwarf that is all helium core, or something without helium core. -/
def Left (x : Body) : Prop := x.he = none ∨ (0 ≤ x.mass ∧ x.he = some x.mass ∧ (x.co = some x.mass ∨ x.co = some 0))

theorem left_nested {x : Body} (h : Left x) : Nested x := by
  intro a ha
  rcases h with h | ⟨h0, h1, h2⟩
  · rw [h] at ha; cases ha
  · rw [h1] at ha
    cases ha
    refine ⟨h0, le_refl _, fun c hc => ?_⟩
    rcases h2 with h2 | h2 <;> rw [h2] at hc <;> cases hc
    · exact ⟨h0, le_refl _⟩
    · exact ⟨le_refl _, h0⟩

theorem finish_cores {s s' : SNStep.Star} (h : SNStep.finish s = .ok s') : (ofSN s').he = none ∧ (ofSN s').co = (ofSN s).co ∧ s'.mass = s.mass ∧
    s'.state = s.state := by
  unfold SNStep.finish at h
  cases hr : SNStep.setRadius (s.set "metallicity" s.lastZ) with
  | error e => rw [hr] at h; cases h
  | ok t =>
    rw [hr] at h
    cases h
    obtain ⟨e, e', -⟩ := setRadius_cores hr
    have e1 : t.mass = s.mass := congrArg Body.mass e
    refine ⟨?_, ?_, e1, e'⟩
    · unfold ofSN SNStep.Star.wipe
      dsimp only
      rw [if_pos (by decide)]
      rfl
    · unfold ofSN SNStep.Star.wipe
      dsimp only
      rw [if_neg (by decide)]
      have := congrArg Body.co e
      exact this.trans (by unfold ofSN SNStep.Star.set; dsimp only; rw [if_neg (by decide)])

theorem massless_cores (s : SNStep.Star) : (ofSN (SNStep.toMassless s)).he = none ∧ (ofSN (SNStep.toMassless s)).co = none := by
  constructor
  · unfold ofSN SNStep.toMassless
    dsimp only
    rw [if_pos (by decide)]
    rfl
  · unfold ofSN SNStep.toMassless
    dsimp only
    rw [if_pos (by decide)]
    rfl

/-- A collapse leaves a white dwarf that is all helium core, or a remnant without a helium core. -/
theorem C153_collapse (c : SNStep.Cfg) (s s' : SNStep.Star) (hm : ModelMass s) (h : SNStep.collapse c s = .ok s') : Left (ofSN s') := by
  obtain ⟨-, ⟨ty, p, h⟩ | ⟨-, q, m, ty, hs, -, hq, -, h⟩⟩ := SNStep.collapse_cases h
  · obtain ⟨r, -, ⟨-, s2, h2, h3⟩ | ⟨-, -, rfl⟩ | ⟨-, m, s2, -, h3, -⟩⟩ := SNStep.collapseCore_cases h
    · obtain ⟨e, -, e0⟩ := setRadius_cores h2
      obtain ⟨a1, -, a2, a3⟩ := wipeWD_cores h3
      have e1 : s2.mass = _ := congrArg Body.mass e
      have e0' : 0 < s2.mass := by rw [e1]; exact e0
      exact .inr ⟨by show 0 ≤ s'.mass; rw [a1]; exact e0'.le, by rw [a2]; show _ = some s'.mass; rw [a1],
        by show _ = some s'.mass ∨ _; rw [a1]; exact a3⟩
    · exact .inl (massless_cores _).1
    · exact .inl (finish_cores h3).1
  · have h0 := hm q m hs hq
    generalize (if q.snType = "ECSN" then ty else q.snType) = pt at h
    unfold SNStep.fromModel at h
    dsimp only at h
    split at h
    · cases h
    · rename_i s2 h2
      split at h
      · cases h; exact .inl (massless_cores _).1
      · obtain ⟨e, -, -⟩ := setRadius_cores h
        rw [e]
        split at h2
        · obtain ⟨a1, -, a2, a3⟩ := wipeWD_cores h2
          exact .inr ⟨by show 0 ≤ s2.mass; rw [a1]; exact h0, by rw [a2]; show _ = some s2.mass; rw [a1],
            by show _ = some s2.mass ∨ _; rw [a1]; exact a3⟩
        · cases h2
          left
          unfold ofSN SNStep.Star.wipe
          dsimp only
          rw [if_pos (by decide)]
          rfl

theorem same_body {s s' : SNStep.Star} (h : SNStep.Same s s') : ofSN s' = ofSN s := by
  unfold ofSN
  rw [h.mass, h.attr]

theorem update_body (c : SNStep.Cfg) (s : SNStep.Star) : ofSN (SNStep.updateState c s) = ofSN s := by
  unfold ofSN
  rw [SNStep.update_mass, SNStep.update_attr]

theorem reset_body (s : SNStep.Star) : ofSN (SNStep.resetOther s) = ofSN s := by
  unfold ofSN SNStep.resetOther SNStep.Star.set
  simp

/-- A supernova step: the remnant as above, the other star keeps its mass and core masses. -/
theorem C153_supernova (c : SNStep.Cfg) (b b' : SNStep.Binary) (hm : ModelMass (b.star b.event)) (h : SNStep.step c b = .ok b') :
    Left (ofSN (b'.star b.event)) ∧ ofSN (b'.mate b.event) = ofSN (b.mate b.event) := by
  obtain ⟨-, s, hs, h1, h2⟩ := SNStep.step_collapse h
  rw [same_body h1, same_body h2, update_body, update_body, reset_body]
  exact ⟨C153_collapse c _ s hm hs, rfl⟩

/-- A neutron star or black hole not taken from an interpolated model keeps the carbon-oxygen core of the star it was, whatever its own mass. -/
theorem C153_remnant_core (c : SNStep.Cfg) (s s' : SNStep.Star) (ty : String) (h : SNStep.collapseCore c s ty = .ok s')
    (hk : s'.state = "NS" ∨ s'.state = "BH") : (ofSN s').he = none ∧ (ofSN s').co = (ofSN s).co := by
  have keep : ∀ (t : SNStep.Star) (v : SNStep.Val), (ofSN (t.set "spin" v)).co = (ofSN t).co := by
    intro t v
    unfold ofSN SNStep.Star.set
    dsimp only
    rw [if_neg (by decide)]
  obtain ⟨r, -, ⟨-, s2, h2, h3⟩ | ⟨-, -, rfl⟩ | ⟨-, m, s2, -, h3, h4⟩⟩ := SNStep.collapseCore_cases h
  · exfalso
    have e := (wipeWD_cores h3).2.1.trans (setRadius_cores h2).2.1
    rcases hk with hk | hk <;> rw [e] at hk <;> exact absurd hk (by simp [SNStep.Star.set])
  · rcases hk with hk | hk <;> exact absurd hk (by simp [SNStep.toMassless])
  · have hp : (ofSN (SNStep.prepared c s r)).co = (ofSN s).co := by
      unfold SNStep.prepared
      split <;> rfl
    obtain ⟨f1, f2, -, -⟩ := finish_cores h3
    refine ⟨f1, f2.trans ?_⟩
    rw [← hp]
    rcases h4 with h4 | h4 | rfl
    · unfold SNStep.byProfile at h4
      dsimp only at h4
      generalize (if m - SN.mGrav m c.maxNu > c.maxNu then c.maxNu else m - SN.mGrav m c.maxNu) = dm at h4
      split at h4
      · cases h4
        simp [ofSN, SNStep.Star.set]
      · split at h4
        · cases h4
          simp [ofSN, SNStep.Star.set]
        · cases h4
    · unfold SNStep.byCores at h4
      dsimp only at h4
      split at h4
      · split at h4
        · cases h4
        · cases h4
          exact keep _ _
      · cases h4
        exact keep _ _
    · exact keep _ _

/-- A helium star of ten solar masses with a carbon-oxygen core of 9.8. -/
noncomputable def heavy : SNStep.Star :=
  { SNStep.exStar with attr := fun k => if k = "he_core_mass" then .num 10 else if k = "co_core_mass" then .num (98 / 10) else SNStep.exStar.attr k }

theorem heavy_nested : Nested (ofSN heavy) := by
  have e : ofSN heavy = ⟨10, some 10, some (98 / 10)⟩ := by
    simp [ofSN, heavy, number, SNStep.exStar]
  rw [e]
  intro h hh
  cases hh
  exact ⟨by norm_num, le_refl _, fun c hc => by cases hc; norm_num⟩

theorem heavy_collapse : ∃ s, SNStep.collapse SNStep.exCfg heavy = .ok s ∧ s.mass = 19 / 2 ∧ s.state = "BH" := by
  have hj : ∀ s : SNStep.Star, s.attr = heavy.attr → ∃ a, SNStep.spinFromJ s (19 / 2) = .ok a := by
    intro s hs
    have : s.attr "log_total_angular_momentum" = .num 0 := by rw [hs]; simp [heavy, SNStep.exStar]
    unfold SNStep.spinFromJ
    rw [this]
    exact ⟨_, rfl⟩
  have hr : ∃ r, SNStep.coRadius (19 / 2) "BH" = .ok r := ⟨_, by unfold SNStep.coRadius; rw [if_neg (by norm_num), if_pos rfl]⟩
  obtain ⟨r, hr⟩ := hr
  unfold SNStep.collapse
  rw [if_pos (by simp [heavy, SNStep.exStar, SNStep.statesCC])]
  have hi : SNStep.exCfg.useInterp = false := rfl
  rw [hi]
  simp only [Bool.false_eq_true, if_false]
  unfold SNStep.collapseCore
  have h1 : SNStep.exCfg.rem (SNStep.enter heavy) = .ok ⟨"CCSN", some 10, .num 1, "BH"⟩ := rfl
  rw [h1]
  have h2 : SNStep.exCfg.engine = false := rfl
  have h3 : SNStep.exCfg.useProfiles = false := rfl
  have h4 : SNStep.exCfg.useCoreMasses = true := rfl
  have h5 : SNStep.exCfg.maxNu = 1 / 2 := rfl
  have h6 : SNStep.exCfg.maxNS = 5 / 2 := rfl
  simp only [h2, h3, h4, h5, SNStep.exGrav, Bool.false_eq_true, if_false, false_and, true_or, if_true]
  rw [if_neg (by decide)]
  simp only [SNStep.byCores, h6]
  rw [if_pos (by norm_num)]
  obtain ⟨a, ha⟩ := hj { SNStep.enter heavy with snType := "CCSN", fFb := .num 1, mass := 19 / 2, diskAcc := .num 0, diskRad := .num 0, hEj := .nan,
                                                 heEj := .nan } rfl
  simp only [ha]
  simp only [SNStep.finish, SNStep.setRadius, SNStep.Star.set, hr]
  exact ⟨_, rfl, rfl, rfl⟩

/-- So a black hole can have a carbon-oxygen core heavier than itself, although the star before had nested cores. -/
theorem C153_remnant_core_violated : ∃ (c : SNStep.Cfg) (s s' : SNStep.Star) (x : ℝ), Nested (ofSN s) ∧ SNStep.collapse c s = .ok s' ∧
    s'.state = "BH" ∧ (ofSN s').co = some x ∧ s'.mass < x := by
  obtain ⟨s, hs, hm, hk⟩ := heavy_collapse
  refine ⟨_, heavy, s, 98 / 10, heavy_nested, hs, hk, ?_, by rw [hm]; norm_num⟩
  obtain ⟨-, ⟨ty, p, h⟩ | ⟨hi, -⟩⟩ := SNStep.collapse_cases hs
  · rw [(C153_remnant_core _ _ _ _ h (.inr hk)).2]
    simp [ofSN, heavy, number, SNStep.enter]
  · exact absurd hi (by decide)

/-! ### The merger -/

theorem nestedQ {m h c : ℚ} (h0 : 0 ≤ c) (h1 : c ≤ h) (h2 : h ≤ m) : Nested ⟨(m : ℝ), some (h : ℝ), some (c : ℝ)⟩ := by
  intro a ha
  cases ha
  refine ⟨?_, ?_, fun d hd => ?_⟩
  · exact_mod_cast h0.trans h1
  · dsimp only
    exact_mod_cast h2
  · cases hd
    exact ⟨by exact_mod_cast h0, by exact_mod_cast h1⟩

theorem ofQ {m h c : ℚ} (hn : Nested ⟨(m : ℝ), some (h : ℝ), some (c : ℝ)⟩) : 0 ≤ c ∧ c ≤ h ∧ h ≤ m := by
  obtain ⟨-, h1, h2⟩ := hn _ rfl
  obtain ⟨h3, h4⟩ := h2 _ rfl
  dsimp only at h1
  exact ⟨by exact_mod_cast h3, by exact_mod_cast h4, by exact_mod_cast h1⟩

theorem view_merged {s : Merged.Star} {m h c : ℚ} (h1 : s.get "he_core_mass" = .num h) (h2 : s.get "co_core_mass" = .num c) :
    ofMerged s m = ⟨(m : ℝ), some (h : ℝ), some (c : ℝ)⟩ := by
  unfold ofMerged
  rw [h1, h2]
  rfl

theorem massless_merged (s : Merged.Star) (m : ℚ) : Nested (ofMerged (Merged.massless s) m) := by
  intro h hh
  have e : (Merged.massless s).get "he_core_mass" = .nan := by
    unfold Merged.massless
    dsimp only
    rw [if_neg (by decide), if_pos (by decide)]
  unfold ofMerged at hh
  rw [e] at hh
  cases hh

/-- Only the second star of a merger can be a neutron star or black hole, and then it is the only one left. -/
theorem branch_normal {s1 s2 : Option FlowChart.Star} {b : Merged.Branch} (h : Merged.branch s1 s2 = some b) (hn : b ≠ .nsbh) :
    (s1 ≠ some .NS ∧ s1 ≠ some .BH) ∧ (s2 ≠ some .NS ∧ s2 ≠ some .BH) := by
  cases s1 with
  | none =>
    exfalso
    revert h
    cases s2 with
    | none => cases b <;> decide
    | some y => cases y <;> cases b <;> decide
  | some x =>
    cases s2 with
    | none =>
      exfalso
      revert h
      cases x <;> cases b <;> decide
    | some y =>
      have key : ∀ x ∈ FlowChart.Star.all, ∀ y ∈ FlowChart.Star.all, (x = .NS ∨ x = .BH ∨ y = .NS ∨ y = .BH) →
          Merged.branch (some x) (some y) = none ∨ Merged.branch (some x) (some y) = some .nsbh := by decide +kernel
      have no : ¬ (x = .NS ∨ x = .BH ∨ y = .NS ∨ y = .BH) := fun e => by
        rcases key x (Merged.mem_all _) y (Merged.mem_all _) e with k | k <;> rw [k] at h
        · cases h
        · exact hn (Option.some.inj h).symm
      refine ⟨⟨fun e => ?_, fun e => ?_⟩, fun e => ?_, fun e => ?_⟩ <;> cases e <;> simp at no

theorem branch_young {s1 s2 : Option FlowChart.Star} (h : Merged.branch s1 s2 = some .hmsHms) : s1 = some .hCoreH := by
  cases s1 with
  | none => cases s2 <;> simp [Merged.branch] at h
  | some x =>
    cases s2 with
    | none => simp [Merged.branch] at h
    | some y => rw [((Merged.C35_branch_table x y).1.1 h).1]

/-- The product of a merger has nested cores if the two stars have. -/
theorem C153_product (cfg : Merged.Cfg) (base comp : Merged.Star) (v : Merged.Star × Merged.Star) (m1 h1 c1 m2 h2 c2 p q : ℚ)
    (h : Merged.merge cfg base comp = .ok v) (hl : cfg.loss ≤ 1) (r1 : Recorded base m1 h1 c1) (r2 : Recorded comp m2 h2 c2)
    (n1 : Nested (ofMerged base m1)) (n2 : Nested (ofMerged comp m2)) (hp : v.1.get "mass" = .num p) (hq : v.2.get "mass" = .num q) :
    Nested (ofMerged v.1 p) ∧ Nested (ofMerged v.2 q) := by
  cases hb : Merged.branch base.state comp.state with
  | none =>
    unfold Merged.merge at h
    rw [hb] at h
    cases h
  | some b =>
    by_cases hn : b = .nsbh
    · subst hn
      unfold Merged.merge at h
      rw [hb] at h
      cases h
      refine ⟨massless_merged _ _, ?_⟩
      have : q = m2 := by
        have := hq.symm.trans r2.mass
        exact Merged.Val.num.inj this
      rw [this]
      exact n2
    · obtain ⟨⟨a1, a2⟩, a3, a4⟩ := branch_normal hb hn
      obtain ⟨e1, e2⟩ := r1.cores a1 a2
      obtain ⟨e3, e4⟩ := r2.cores a3 a4
      rw [view_merged e1 e2] at n1
      rw [view_merged e3 e4] at n2
      obtain ⟨x1, x2, x3⟩ := ofQ n1
      obtain ⟨y1, y2, y3⟩ := ofQ n2
      have k1 := (Merged.C35_mass cfg base comp v.1 v.2 b m1 m2 hb hn r1.mass r2.mass h).1
      have k2 := Merged.C35_core_masses cfg base comp v.1 v.2 b "he_core_mass" h1 h2 m2 (by decide) (by decide) hb hn e1 e3 r2.mass h
      have k3 := Merged.C35_core_masses cfg base comp v.1 v.2 b "co_core_mass" c1 c2 m2 (by decide) (by decide) hb hn e2 e4 r2.mass h
      have e0 : v.2 = Merged.massless (Merged.other b base comp) := (Merged.merge_ok (m := v.1) (r := v.2) hb hn h).choose_spec.2.2
      refine ⟨?_, by rw [e0]; exact massless_merged _ _⟩
      rw [k1] at hp
      have hp := Merged.Val.num.inj hp
      rw [view_merged k2 k3]
      by_cases hh : b = .hmsHms
      · subst hh
        have hy := branch_young hb
        have z := r1.young hy
        rw [if_pos rfl] at hp
        have hm : 0 ≤ p := by
          rw [← hp]
          exact mul_nonneg (by linarith) (by linarith)
        exact nestedQ x1 x2 (by linarith)
      · rw [if_neg hh] at hp
        cases b <;> first
          | exact absurd rfl hh
          | exact absurd rfl hn
          | exact nestedQ (by linarith) (by linarith) (by linarith)

/-- A merger step: nested cores stay nested. -/
theorem C153_merger (cfg : Merged.Cfg) (b b' : Merged.Binary) (m1 h1 c1 m2 h2 c2 m1' m2' : ℚ) (h : Merged.call cfg b = .ok b') (hq : cfg.loss ≤ 1)
    (d1 : Recorded b.star1 m1 h1 c1) (d2 : Recorded b.star2 m2 h2 c2) (hm1 : b'.star1.get "mass" = .num m1') (hm2 : b'.star2.get "mass" = .num m2')
    (n1 : Nested (ofMerged b.star1 m1)) (n2 : Nested (ofMerged b.star2 m2)) :
    Nested (ofMerged b'.star1 m1') ∧ Nested (ofMerged b'.star2 m2') := by
  have one : ∀ b0 : Merged.Binary, b0.star1 = b.star1 → b0.star2 = b.star2 → Merged.mergeOne cfg b0 = .ok b' →
      Nested (ofMerged b'.star1 m1') ∧ Nested (ofMerged b'.star2 m2') := by
    intro b0 e1 e2 h
    unfold Merged.mergeOne at h
    rw [e1, e2] at h
    split at h
    · cases h
    · rename_i v hv
      cases h
      exact C153_product cfg _ _ v _ _ _ _ _ _ _ _ hv hq d1 d2 n1 n2 hm1 hm2
  have two : ∀ b0 : Merged.Binary, b0.star1 = b.star1 → b0.star2 = b.star2 → Merged.mergeTwo cfg b0 = .ok b' →
      Nested (ofMerged b'.star1 m1') ∧ Nested (ofMerged b'.star2 m2') := by
    intro b0 e1 e2 h
    unfold Merged.mergeTwo at h
    rw [e1, e2] at h
    split at h
    · cases h
    · rename_i v hv
      cases h
      exact (C153_product cfg _ _ v _ _ _ _ _ _ _ _ hv hq d2 d1 n2 n1 hm2 hm1).symm
  unfold Merged.call at h
  split at h
  · split at h
    · exact one _ rfl rfl h
    · split at h
      · exact two _ rfl rfl h
      · cases h
  · split at h
    · split at h
      · exact one _ (by rfl) (by rfl) h
      · split at h
        · exact two _ (by rfl) (by rfl) h
        · cases h
    · cases h

/-! ### All steps -/

theorem quiet_nested {x y : Body} (h : Quiet x y) (hx : Nested x) : Nested y := by
  cases h with
  | track _ h => exact h
  | compact m h =>
    intro a ha
    obtain ⟨h0, h1, h2⟩ := hx a ha
    exact ⟨h0, h1.trans h, h2⟩

theorem C153_step {p q : Body × Body} (h : Step p q) (h1 : Nested p.1) (h2 : Nested p.2) : Nested q.1 ∧ Nested q.2 := by
  cases h with
  | ce cfg b b' x y h hl d1 d2 hx hy => exact C153_common_envelope cfg b b' x y h hl d1 d2 hx hy h1 h2
  | sn c b b' h m1 m2 =>
    obtain ⟨he, -⟩ := SNStep.step_collapse h
    rcases he with he | he
    · obtain ⟨a1, a2⟩ := C153_supernova c b b' (by rw [he]; exact m1) h
      rw [he] at a1 a2
      exact ⟨left_nested a1, (by have : ofSN b'.s2 = ofSN b.s2 := a2; show Nested (ofSN b'.s2); rw [this]; exact h2)⟩
    · obtain ⟨a1, a2⟩ := C153_supernova c b b' (by rw [he]; exact m2) h
      rw [he] at a1 a2
      exact ⟨(by have : ofSN b'.s1 = ofSN b.s1 := a2; show Nested (ofSN b'.s1); rw [this]; exact h1), left_nested a1⟩
  | merged cfg b b' m1 k1 c1 m2 k2 c2 m1' m2' h hq d1 d2 hm1 hm2 => exact C153_merger cfg b b' _ _ _ _ _ _ _ _ h hq d1 d2 hm1 hm2 h1 h2
  | quiet x y x' y' q1 q2 => exact ⟨quiet_nested q1 h1, quiet_nested q2 h2⟩

/-- Through a whole evolution, with any number of steps in any order, cores that are nested at the start are nested at the end. -/
theorem C153_evolution_partial {p q : Body × Body} (h : Relation.ReflTransGen Step p q) (h1 : Nested p.1) (h2 : Nested p.2) :
    Nested q.1 ∧ Nested q.2 := by
  induction h with
  | refl => exact ⟨h1, h2⟩
  | tail _ hs ih => exact C153_step hs ih.1 ih.2

/-- A giant of 15 solar masses with cores of 5 and 2 next to a white dwarf of 0.8, all core, that gains 0.1 by accretion, while the giant loses
its envelope on a track: the cores are nested before and after. -/
example : ∃ q, Relation.ReflTransGen Step (⟨15, some 5, some 2⟩, ⟨0.8, some 0.8, some 0.8⟩) q ∧ q.1 = ⟨5, some 5, some 2⟩ ∧
    q.2 = ⟨0.9, some 0.8, some 0.8⟩ ∧ Nested ⟨15, some 5, some 2⟩ ∧ Nested ⟨0.8, some 0.8, some 0.8⟩ ∧ ¬ Nested ⟨5, some 6, some 2⟩ := by
  have n : ∀ m h c : ℝ, 0 ≤ c → c ≤ h → h ≤ m → Nested ⟨m, some h, some c⟩ := by
    intro m h c h0 h1 h2 a ha
    cases ha
    exact ⟨h0.trans h1, h2, fun d hd => by cases hd; exact ⟨h0, h1⟩⟩
  refine ⟨_, .single (.quiet _ _ _ _ (.track _ ⟨5, some 5, some 2⟩ (n _ _ _ (by norm_num) (by norm_num) (by norm_num)))
    (.compact _ 0.9 (by norm_num))), rfl, rfl, n _ _ _ (by norm_num) (by norm_num) (by norm_num), n _ _ _ (by norm_num) (by norm_num) (by norm_num), ?_⟩
  intro h
  obtain ⟨-, h, -⟩ := h 6 rfl
  norm_num at h

/-- Whenever both core masses are known at the end, they lie between zero and the mass in the right order. -/
theorem C153_known_partial {p q : Body × Body} (h : Relation.ReflTransGen Step p q) (h1 : Nested p.1) (h2 : Nested p.2) (a c : ℝ)
    (ha : q.1.he = some a) (hc : q.1.co = some c) : 0 ≤ c ∧ c ≤ a ∧ a ≤ q.1.mass := by
  obtain ⟨-, k2, k3⟩ := (C153_evolution_partial h h1 h2).1 a ha
  exact ⟨(k3 c hc).1, (k3 c hc).2, k2⟩

end Verif.Cores
