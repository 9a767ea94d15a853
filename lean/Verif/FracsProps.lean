import Verif.Fracs
import Verif.CoresProps
import Mathlib.Tactic.Linarith
import Mathlib.Tactic.NormNum
import Mathlib.Tactic.Positivity
import Mathlib.Tactic.Ring
/-!
Property theorems for the abundances through an evolution: C155.
-/
namespace Verif.Fracs
open FlowChart

/-! ### The common envelope -/

/-- The core found for a giant: with hydrogen the fraction that bounds it is one of three, without it is a tenth of helium. -/
theorem lambda_fractions {c : CE.Cfg} {s : CE.Star} {l : CE.Lam} (h : CE.lambdaCE c s = .ok l) :
    (l.ty = .he ∧ 0 ≤ c.coreH ∧ c.coreH ≤ 0.3) ∨ (l.ty = .co ∧ c.coreHe = 0.1) := by
  unfold CE.lambdaCE at h
  cases hc : CE.coreType c s with
  | error e => rw [hc] at h; cases h
  | ok v =>
    rw [hc] at h
    obtain ⟨ty, frac⟩ := v
    have ht : (ty = .he ∧ 0 ≤ c.coreH ∧ c.coreH ≤ 0.3) ∨ (ty = .co ∧ c.coreHe = 0.1) := by
      unfold CE.coreType at hc
      split at hc
      · split at hc
        · rename_i hf
          cases hc
          left
          refine ⟨rfl, ?_⟩
          rcases hf with e | e | e <;> rw [e] <;> norm_num
        · cases hc
      · split at hc
        · split at hc
          · cases hc
          · rename_i hf
            cases hc
            exact .inr ⟨rfl, not_not.1 hf⟩
        · cases hc
    dsimp only at h
    have key : l.ty = ty := by
      unfold CE.lamValues at h
      split at h
      · split at h
        · cases h; rfl
        · cases h
      · split at h
        · split at h
          · cases h; rfl
          · cases h
        · split at h
          · split at h
            · cases h; rfl
            · cases h
          · split at h
            · cases h
            · split at h
              · cases h; rfl
              · cases h
    rw [key]
    exact ht

theorem wipe_fine {f : String → Option ℝ} (k : String) (x : ℝ) (h : CE.wipe CE.keptStar f k = some x) : f k = some x := by
  unfold CE.wipe at h
  split at h
  · exact h
  · cases h

theorem stripped_fine (cfg : CE.Cfg) (ty : CE.CoreType) (m r : ℝ) (s : CE.Star) (hs : Fine (ofCE s)) (hz : Metals s)
    (ht : (ty = .he ∧ 0 ≤ cfg.coreH ∧ cfg.coreH ≤ 0.3) ∨ (ty = .co ∧ cfg.coreHe = 0.1)) : Fine (ofCE (CE.stripped cfg ty m r s)) := by
  have hrest : ∀ k ∈ names, k ≠ "surface_h1" → k ≠ "surface_he4" → ∀ x, CE.wipe CE.keptStar s.rest k = some x → 0 ≤ x ∧ x ≤ 1 := by
    intro k hk h1 h2 x hx
    refine hs k hk x ?_
    unfold ofCE
    rw [if_neg h1, if_neg h2]
    exact wipe_fine k x hx
  intro k hk x hx
  unfold ofCE at hx
  rcases ht with ⟨rfl, f0, f1⟩ | ⟨rfl, f⟩
  · have hb : 0 ≤ (if cfg.after = .onePhase then cfg.coreH else 0.01) ∧ (if cfg.after = .onePhase then cfg.coreH else 0.01) ≤ (0.3 : ℝ) := by
      split
      · exact ⟨f0, f1⟩
      · norm_num
    by_cases h1 : k = "surface_h1"
    · rw [if_pos h1] at hx
      cases hx
      exact ⟨hb.1, hb.2.trans (by norm_num)⟩
    · rw [if_neg h1] at hx
      by_cases h2 : k = "surface_he4"
      · rw [if_pos h2] at hx
        cases hx
        show 0 ≤ 1 - (if cfg.after = .onePhase then cfg.coreH else 0.01) - (match s.metallicity with | none => 1 | some z => z) * 0.0142 ∧
          1 - (if cfg.after = .onePhase then cfg.coreH else 0.01) - (match s.metallicity with | none => 1 | some z => z) * 0.0142 ≤ 1
        generalize (if cfg.after = .onePhase then cfg.coreH else 0.01) = h at hb
        cases hm : s.metallicity with
        | none => dsimp only; constructor <;> linarith
        | some z =>
          obtain ⟨z0, z1⟩ := hz z hm
          dsimp only
          constructor <;> linarith
      · rw [if_neg h2] at hx
        exact hrest k hk h1 h2 x hx
  · by_cases h1 : k = "surface_h1"
    · rw [if_pos h1] at hx
      cases hx
      exact ⟨le_refl _, zero_le_one⟩
    · rw [if_neg h1] at hx
      by_cases h2 : k = "surface_he4"
      · rw [if_pos h2] at hx
        cases hx
        show 0 ≤ (if cfg.after = .onePhase then cfg.coreHe else 0.1) ∧ (if cfg.after = .onePhase then cfg.coreHe else 0.1) ≤ (1 : ℝ)
        rw [f]
        split <;> norm_num
      · rw [if_neg h2] at hx
        exact hrest k hk h1 h2 x hx

theorem reduce_ofCE (ty : CE.CoreType) (m ej : ℝ) (s : CE.Star) : ofCE (CE.reduce ty m ej s) = ofCE s := by
  cases ty <;> rfl

/-- What happens to a star: mass fractions stay mass fractions. -/
def Keeps (s s' : CE.Star) : Prop := isNormal s.state = true → Fine (ofCE s) → Fine (ofCE s')

theorem run_fine {c : CE.Cfg} {one double : Bool} {b b' : CE.Binary} {donor comp : CE.Star}
    (hb : donor = (if one then b.star1 else b.star2) ∧ comp = (if one then b.star2 else b.star1)) (z1 : Metals donor) (z2 : Metals comp)
    (h : CE.run c one double b donor comp = .ok b') : Keeps b.star1 b'.star1 ∧ Keeps b.star2 b'.star2 := by
  have fin : ∀ d' c' : CE.Star, ∀ b0 : CE.Binary, Keeps donor d' → Keeps comp c' →
      Keeps b.star1 (CE.assemble one b0 d' c').star1 ∧ Keeps b.star2 (CE.assemble one b0 d' c').star2 := by
    intro d' c' b0 h1 h2
    rw [hb.1] at h1
    rw [hb.2] at h2
    unfold CE.assemble
    cases one
    · exact ⟨h2, h1⟩
    · exact ⟨h1, h2⟩
  unfold CE.run at h
  split at h
  · obtain rfl := Except.ok.inj h
    exact ⟨fun _ => id, fun _ => id⟩
  · split at h
    · cases h1 : CE.lambdaCE c donor with
      | error e => rw [h1] at h; cases h
      | ok l1 =>
        rw [h1] at h
        dsimp only at h
        cases h2 : CE.compLam c comp double with
        | error e => rw [h2] at h; cases h
        | ok l2 =>
          rw [h2] at h
          dsimp only at h
          unfold CE.simpleAlpha at h
          dsimp only at h
          split at h
          · cases h
          · cases h3 : CE.companion c comp l1 l2 double (CE.sepAfter c b donor comp l1 l2 double / Orbit.Rsun) with
            | error e => rw [h3] at h; cases h
            | ok v =>
              obtain ⟨comp', rc2⟩ := v
              rw [h3] at h
              dsimp only at h
              have hcs : ofCE comp' = ofCE comp ∧ comp'.metallicity = comp.metallicity := by
                unfold CE.companion at h3
                split at h3
                · split at h3
                  · have := (Prod.mk.inj (Except.ok.inj h3)).1
                    rw [← this]
                    exact ⟨rfl, rfl⟩
                  · cases h3
                · have := (Prod.mk.inj (Except.ok.inj h3)).1
                  rw [← this]
                  exact ⟨rfl, rfl⟩
              have hr1 : ∀ e : ℝ, Keeps donor (CE.reduce l1.ty donor.mass e donor) := fun e _ hn => by rw [reduce_ofCE]; exact hn
              have hr2 : ∀ e : ℝ, Keeps comp (CE.reduce l2.ty comp'.mass e comp') := fun e _ hn => by rw [reduce_ofCE, hcs.1]; exact hn
              cases h4 : CE.phase c donor comp' l1 l2 rc2 double (CE.sepAfter c b donor comp l1 l2 double / Orbit.Rsun) with
              | error e => rw [h4] at h; cases h
              | ok p =>
                rw [h4] at h
                dsimp only at h
                unfold CE.resolve at h
                split at h
                · split at h
                  · split at h
                    · cases h
                    · obtain rfl := Except.ok.inj h
                      exact fin _ _ _ (hr1 _) (hr2 _)
                  · obtain rfl := Except.ok.inj h
                    exact fin _ _ _ (hr1 _) (hr2 _)
                · obtain rfl := Except.ok.inj h
                  refine fin _ _ _ (fun _ hn => stripped_fine _ _ _ _ _ hn z1 (lambda_fractions h1)) ?_
                  cases double with
                  | false => exact fun _ hn => by rw [if_neg (by simp), hcs.1]; exact hn
                  | true =>
                    unfold CE.compLam at h2
                    rw [if_pos rfl] at h2
                    rw [if_pos rfl]
                    exact fun _ hn => stripped_fine _ _ _ _ _ (by rw [hcs.1]; exact hn) (fun z hz => z2 z (hcs.2 ▸ hz)) (lambda_fractions h2)
    · cases h

/-- A common envelope, whatever its outcome: mass fractions stay mass fractions. -/
theorem C155_common_envelope (cfg : CE.Cfg) (b b' : CE.Binary) (x y : Seen) (h : CE.step cfg b = .ok b') (z1 : Metals b.star1) (z2 : Metals b.star2)
    (hx : View b.star1 x) (hy : View b.star2 y) (h1 : Fine x) (h2 : Fine y) : Fine (after b.star1 b'.star1 x) ∧ Fine (after b.star2 b'.star2 y) := by
  have key : Keeps b.star1 b'.star1 ∧ Keeps b.star2 b'.star2 := by
    unfold CE.step at h
    split at h
    · exact run_fine (one := true) ⟨rfl, rfl⟩ z1 z2 h
    · exact run_fine (one := true) ⟨rfl, rfl⟩ z1 z2 h
    · exact run_fine (one := false) ⟨rfl, rfl⟩ z2 z1 h
    · exact run_fine (one := false) ⟨rfl, rfl⟩ z2 z1 h
    · cases h
  have fin : ∀ (s s' : CE.Star) (z : Seen), View s z → Fine z → Keeps s s' → Fine (after s s' z) := by
    intro s s' z hz hn hk
    unfold after
    split
    · rename_i e
      exact hk e (by rw [← hz e]; exact hn)
    · exact hn
  exact ⟨fin _ _ _ hx h1 key.1, fin _ _ _ hy h2 key.2⟩

/-- After the ejection the surface of a giant with hydrogen is made of hydrogen, helium and the metals of the star, which add up to one; the metals of
a star of unknown metallicity are solar. -/
theorem C155_surface (cfg : CE.Cfg) (m r : ℝ) (s : CE.Star) :
    (CE.stripped cfg .he m r s).surfH + (CE.stripped cfg .he m r s).surfHe + s.metallicity.getD 1 * 0.0142 = 1 := by
  show (if cfg.after = .onePhase then cfg.coreH else 0.01) +
    (1 - (if cfg.after = .onePhase then cfg.coreH else 0.01) - (match s.metallicity with | none => 1 | some z => z) * 0.0142) + _ = _
  cases s.metallicity with
  | none => simp only [Option.getD_none]; ring
  | some z => simp only [Option.getD_some]; ring

/-- What the ejection leaves of the other abundances: those of the centre, and no others of the surface. -/
theorem C155_stripped (cfg : CE.Cfg) (ty : CE.CoreType) (m r : ℝ) (s : CE.Star) (ht : ty ≠ .notGiant) (k : String) :
    (k ∈ ["center_h1", "center_he4", "center_c12", "center_n14", "center_o16", "avg_c_in_c_core"] → ofCE (CE.stripped cfg ty m r s) k = ofCE s k) ∧
      (k ∈ ["surface_c12", "surface_n14", "surface_o16"] → ofCE (CE.stripped cfg ty m r s) k = none) := by
  have hr : (CE.stripped cfg ty m r s).rest = CE.wipe CE.keptStar s.rest := by
    cases ty with
    | he => rfl
    | co => rfl
    | notGiant => exact absurd rfl ht
  constructor
  · intro hk
    have : k ≠ "surface_h1" ∧ k ≠ "surface_he4" ∧ k ∈ CE.keptStar := by revert k; decide
    unfold ofCE
    rw [if_neg this.1, if_neg this.2.1, if_neg this.1, if_neg this.2.1, hr]
    unfold CE.wipe
    rw [if_pos this.2.2]
  · intro hk
    have : k ≠ "surface_h1" ∧ k ≠ "surface_he4" ∧ k ∉ CE.keptStar := by revert k; decide
    unfold ofCE
    rw [if_neg this.1, if_neg this.2.1, hr]
    unfold CE.wipe
    rw [if_neg this.2.2]

/-! ### The supernova -/

theorem setRadius_fine {s s' : SNStep.Star} (h : SNStep.setRadius s = .ok s') (k : String) (hk : k ∈ names) : ofSN s' k = ofSN s k := by
  unfold SNStep.setRadius at h
  split at h
  · cases h
  · cases h
    have : k ≠ "log_R" := by revert k; decide
    unfold ofSN SNStep.Star.set
    dsimp only
    rw [if_neg this]

theorem wiped (s : SNStep.Star) (keep : List String) (k : String) (hk : k ∈ names) (hn : k ∉ keep) : (s.wipe keep).attr k = .none := by
  have : k ∈ SNStep.starProps := by clear hn; revert k; decide
  unfold SNStep.Star.wipe
  dsimp only
  rw [if_pos ⟨this, hn⟩]

/-- What a collapse leaves of the abundances: for a white dwarf those of the centre, otherwise none. -/
def Left (f g : Seen) : Prop := ∀ k ∈ names, g k = f k ∨ g k = none

theorem left_fine {f g : Seen} (h : Left f g) (hf : Fine f) : Fine g := by
  intro k hk x hx
  rcases h k hk with e | e
  · exact hf k hk x (e.symm.trans hx)
  · exact absurd (e.symm.trans hx) (by simp)

theorem wipeWD_left {s s' : SNStep.Star} (h : SNStep.wipeWD s = .ok s') : Left (ofSN s) (ofSN s') := by
  intro k hk
  unfold SNStep.wipeWD at h
  split at h
  · cases h
  · cases h
    have h1 : k ≠ "he_core_mass" ∧ k ≠ "co_core_mass" := by revert k; decide
    unfold ofSN SNStep.Star.set SNStep.Star.wipe
    dsimp only
    rw [if_neg h1.2, if_neg h1.1]
    split
    · exact .inr rfl
    · exact .inl rfl

theorem massless_left (s : SNStep.Star) (f : Seen) : Left f (ofSN (SNStep.toMassless s)) := by
  intro k hk
  right
  have : k ∈ SNStep.starProps := by revert k; decide
  unfold ofSN SNStep.toMassless
  dsimp only
  rw [if_pos this]
  rfl

/-- A collapse forgets abundances or leaves them as they are. -/
theorem C155_collapse (c : SNStep.Cfg) (s s' : SNStep.Star) (h : SNStep.collapse c s = .ok s') : Left (ofSN s) (ofSN s') := by
  have spin : ∀ k ∈ names, k ≠ "spin" := by decide
  obtain ⟨-, ⟨ty, p, h⟩ | ⟨-, q, m, ty, -, -, -, -, h⟩⟩ := SNStep.collapse_cases h
  · obtain ⟨r, -, ⟨-, s2, h2, h3⟩ | ⟨-, -, rfl⟩ | ⟨-, m, s2, -, h3, h4⟩⟩ := SNStep.collapseCore_cases h
    · intro k hk
      rcases wipeWD_left h3 k hk with e | e
      · left
        rw [e, setRadius_fine h2 k hk]
        have : (SNStep.prepared c { SNStep.enter s with interp := p } r).attr = s.attr := by
          unfold SNStep.prepared
          split <;> rfl
        unfold ofSN SNStep.Star.set
        dsimp only
        rw [if_neg (spin k hk), this]
      · exact .inr e
    · exact massless_left _ _
    · intro k hk
      right
      unfold SNStep.finish at h3
      cases hr : SNStep.setRadius (s2.set "metallicity" s2.lastZ) with
      | error e => rw [hr] at h3; cases h3
      | ok t =>
        rw [hr] at h3
        cases h3
        unfold ofSN
        rw [wiped _ _ k hk (by revert k; decide)]
        rfl
  · generalize (if q.snType = "ECSN" then ty else q.snType) = pt at h
    unfold SNStep.fromModel at h
    dsimp only at h
    split at h
    · cases h
    · rename_i s2 h2
      split at h
      · cases h; exact massless_left _ _
      · intro k hk
        rw [setRadius_fine h k hk]
        split at h2
        · rcases wipeWD_left h2 k hk with e | e
          · left
            rw [e]
            unfold ofSN SNStep.Star.set
            dsimp only
            rw [if_neg (spin k hk)]
            rfl
          · exact .inr e
        · cases h2
          right
          unfold ofSN
          rw [wiped _ _ k hk (by revert k; decide)]
          rfl

/-- A supernova step: mass fractions stay mass fractions, and those of the other star do not change. -/
theorem C155_supernova (c : SNStep.Cfg) (b b' : SNStep.Binary) (h : SNStep.step c b = .ok b') :
    Left (ofSN (b.star b.event)) (ofSN (b'.star b.event)) ∧ ∀ k ∈ names, ofSN (b'.mate b.event) k = ofSN (b.mate b.event) k := by
  obtain ⟨-, s, hs, h1, h2⟩ := SNStep.step_collapse h
  have key : ∀ {x y : SNStep.Star}, SNStep.Same (SNStep.updateState c x) y → ofSN y = ofSN x := by
    intro x y hxy
    unfold ofSN
    rw [hxy.attr, SNStep.update_attr]
  rw [key h1, key h2]
  refine ⟨C155_collapse c _ s hs, fun k hk => ?_⟩
  have : k ≠ "lg_mdot" ∧ k ≠ "lg_system_mdot" := by revert k; decide
  unfold ofSN SNStep.resetOther SNStep.Star.set
  dsimp only
  rw [if_neg this.2, if_neg this.1]

/-! ### The merger -/

def FracV (v : Merged.Val) : Prop := ∀ x, v = .num x → 0 ≤ x ∧ x ≤ 1

def FineM (s : Merged.Star) : Prop := ∀ k ∈ names, FracV (s.get k)

theorem fineM_iff (s : Merged.Star) : FineM s ↔ Fine (ofMerged s) := by
  constructor
  · intro h k hk x hx
    unfold ofMerged at hx
    cases hv : s.get k with
    | none => rw [hv] at hx; cases hx
    | nan => rw [hv] at hx; cases hx
    | num y =>
      rw [hv] at hx
      cases hx
      obtain ⟨a, b⟩ := h k hk y hv
      exact ⟨by exact_mod_cast a, by exact_mod_cast b⟩
  · intro h k hk y hy
    obtain ⟨a, b⟩ := h k hk (y : ℝ) (by unfold ofMerged; rw [hy]; rfl)
    exact ⟨by exact_mod_cast a, by exact_mod_cast b⟩

/-- A weight that is not negative if it is a number. -/
def Weighs (s : Merged.Star) (w : Merged.Weight) : Prop := ∀ x, Merged.weight s w = .ok (.num x) → 0 ≤ x

/-- A mean of two fractions is a fraction. -/
theorem avg_frac {s1 s2 : Merged.Star} {n : String} {w1 w2 : Merged.Weight} {v : Merged.Val} (h : Merged.avg s1 s2 n w1 w2 = .ok v)
    (f1 : FracV (s1.get n)) (f2 : FracV (s2.get n)) (h1 : Weighs s1 w1) (h2 : Weighs s2 w2) : FracV v := by
  intro x hx
  subst hx
  unfold Merged.avg at h
  cases e1 : Merged.weight s1 w1 with
  | error e => rw [e1] at h; cases h
  | ok a =>
    rw [e1] at h
    dsimp only at h
    cases e2 : Merged.weight s2 w2 with
    | error e => rw [e2] at h; cases h
    | ok b =>
      rw [e2] at h
      have h := Except.ok.inj h
      cases g1 : s1.get n with
      | none => rw [g1] at h; simp [Merged.mean] at h
      | nan => rw [g1] at h; simp [Merged.mean] at h
      | num p =>
        cases g2 : s2.get n with
        | none => rw [g1, g2] at h; simp [Merged.mean] at h
        | nan => rw [g1, g2] at h; simp [Merged.mean] at h
        | num q =>
          cases a with
          | none => rw [g1, g2] at h; simp [Merged.mean] at h
          | nan => rw [g1, g2] at h; simp [Merged.mean] at h
          | num m1 =>
            cases b with
            | none => rw [g1, g2] at h; simp [Merged.mean] at h
            | nan => rw [g1, g2] at h; simp [Merged.mean] at h
            | num m2 =>
              rw [g1, g2] at h
              have k1 := h1 m1 e1
              have k2 := h2 m2 e2
              obtain ⟨p0, p1⟩ := f1 p g1
              obtain ⟨q0, q1⟩ := f2 q g2
              by_cases hm : m1 + m2 = 0
              · simp [Merged.mean, hm] at h
              · have hp : 0 < m1 + m2 := lt_of_le_of_ne (by linarith) (Ne.symm hm)
                have := Merged.mean_between (Merged.mean_ok (a1 := p) (a2 := q) hm) k1 k2 hp
                rw [h] at this
                obtain ⟨y, hy, l, u⟩ := this
                cases hy
                exact ⟨(le_min p0 q0).trans l, u.trans (max_le p1 q1)⟩

/-- A star with nested cores, none of whose masses are missing. -/
structure Numbers (s : Merged.Star) (m h c : ℚ) : Prop where
  mass : s.get "mass" = .num m
  heM : s.get "he_core_mass" = .num h
  coM : s.get "co_core_mass" = .num c
  co : 0 ≤ c
  he : c ≤ h
  all : h ≤ m

theorem weighs {s : Merged.Star} {m h c : ℚ} (n : Numbers s m h c) :
    Weighs s .mass ∧ Weighs s .hEnv ∧ Weighs s .heEnv ∧ Weighs s (.key "he_core_mass") ∧ Weighs s (.key "co_core_mass") := by
  obtain ⟨e1, e2, e3, x1, x2, x3⟩ := n
  refine ⟨?_, ?_, ?_, ?_, ?_⟩ <;> intro x hx <;> simp only [Merged.weight, e1, e2, e3, Merged.sub, Except.ok.injEq, Merged.Val.num.injEq] at hx <;> linarith

theorem center_names {k : String} (hk : k ∈ Merged.centers) : k ∈ names := by revert k; decide
theorem surface_names {k : String} (hk : k ∈ Merged.surfaces) : k ∈ names := by revert k; decide
theorem names_cases {k : String} (hk : k ∈ names) : k ∈ Merged.centers ∨ k ∈ Merged.surfaces := by revert k; decide

/-- The centre of a product of two cores is made of fractions. -/
theorem core_frac {base comp c : Merged.Star} {m1 h1 c1 m2 h2 c2 : ℚ} (n1 : Numbers base m1 h1 c1) (n2 : Numbers comp m2 h2 c2) (f1 : FineM base)
    (f2 : FineM comp) (hc : Merged.CoreOf base comp c) : ∀ k ∈ Merged.centers, FracV (c.get k) := by
  intro k hk
  obtain ⟨-, -, -, w1, v1⟩ := weighs n1
  obtain ⟨-, -, -, w2, v2⟩ := weighs n2
  have a1 := f1 k (center_names hk)
  have a2 := f2 k (center_names hk)
  rcases eq_or_lt_of_le n1.co with z1 | z1 <;> rcases eq_or_lt_of_le n2.co with z2 | z2
  · exact avg_frac (hc.none (by rw [n1.coM, ← z1]) (by rw [n2.coM, ← z2]) k hk) a1 a2 w1 w2
  · rw [hc.second c2 (by rw [n1.coM, ← z1]) n2.coM z2 k hk]; exact a2
  · rw [hc.first c1 n1.coM z1 (by rw [n2.coM, ← z2]) k hk]; exact a1
  · exact avg_frac (hc.both c1 c2 n1.coM z1 n2.coM z2 k hk) a1 a2 v1 v2

theorem erased_no {k : String} (hk : k ∈ names) : k ∉ Merged.erasedList := by revert k; decide
theorem surface_no {k : String} (hk : k ∈ Merged.surfaces) : k ∉ Merged.massKeys ∧ k ∉ Merged.centers ∧ k ≠ "center_gamma" := by revert k; decide
theorem center_no {k : String} (hk : k ∈ Merged.centers) : k ≠ "mass" ∧ k ∉ Merged.surfaces := by revert k; decide

theorem hms_frac {cfg : Merged.Cfg} {base comp p : Merged.Star} {m1 h1 c1 m2 h2 c2 : ℚ} (n1 : Numbers base m1 h1 c1) (n2 : Numbers comp m2 h2 c2)
    (f1 : FineM base) (f2 : FineM comp) (hp : Merged.prodHmsHms cfg base comp = .ok p) : FineM p := by
  intro k hk
  by_cases ha : k = "avg_c_in_c_core"
  · subst ha
    unfold Merged.prodHmsHms at hp
    obtain ⟨a, -, h⟩ := Merged.bindE_ok hp
    split at h
    · cases h
    · cases h
      intro x hx
      unfold Merged.applyNan at hx
      dsimp only at hx
      rw [if_pos (by decide)] at hx
      cases hx
  · have : k ∈ Merged.centers5 ++ Merged.surfaces := by revert k; decide
    exact avg_frac ((Merged.hmsHms_spec hp).2.1 k this) (f1 k hk) (f2 k hk) (weighs n1).1 (weighs n2).1

theorem postHms_frac {cfg : Merged.Cfg} {base comp p : Merged.Star} {m1 h1 c1 m2 h2 c2 : ℚ} (n1 : Numbers base m1 h1 c1) (n2 : Numbers comp m2 h2 c2)
    (f1 : FineM base) (f2 : FineM comp) (hp : Merged.prodPostHms cfg base comp = .ok p) : FineM p := by
  intro k hk
  rcases names_cases hk with hc | hs
  · rw [(Merged.postHms_spec hp).2.2 k (center_no hc).1 (center_no hc).2, if_neg (erased_no hk)]
    exact f1 k hk
  · exact avg_frac ((Merged.postHms_spec hp).2.1 k hs) (f1 k hk) (f2 k hk) (weighs n1).2.1 (weighs n2).1

theorem postPost_frac {cfg : Merged.Cfg} {base comp p : Merged.Star} {m1 h1 c1 m2 h2 c2 : ℚ} (n1 : Numbers base m1 h1 c1) (n2 : Numbers comp m2 h2 c2)
    (f1 : FineM base) (f2 : FineM comp) (hp : Merged.prodPostPost cfg base comp = .ok p) : FineM p := by
  obtain ⟨-, h2, ⟨c, hc, h3⟩, -⟩ := Merged.postPost_spec hp
  intro k hk
  rcases names_cases hk with h | hs
  · rw [h3 k h]; exact core_frac n1 n2 f1 f2 hc k h
  · exact avg_frac (h2 k hs) (f1 k hk) (f2 k hk) (weighs n1).2.1 (weighs n2).2.1

theorem postHeMS_frac {cfg : Merged.Cfg} {base comp p : Merged.Star} {m1 h1 c1 m2 h2 c2 : ℚ} (n1 : Numbers base m1 h1 c1) (n2 : Numbers comp m2 h2 c2)
    (f1 : FineM base) (f2 : FineM comp) (hp : Merged.prodPostHeMS cfg base comp = .ok p) : FineM p := by
  obtain ⟨c, hc, hs⟩ := Merged.bindE_ok hp
  obtain ⟨-, o, z, nz⟩ := Merged.cores2B_spec hc
  obtain ⟨-, s2, s3⟩ := Merged.sums_after o hs
  intro k hk
  rcases names_cases hk with h | h
  · rw [s2 k h]
    by_cases e : base.get "co_core_mass" = .num 0 ∧ comp.get "co_core_mass" = .num 0
    · exact avg_frac (z e.1 e.2 k h) (f1 k hk) (f2 k hk) (weighs n1).2.2.2.1 (weighs n2).2.2.2.1
    · rw [nz e]; exact f1 k hk
  · rw [s3 k (surface_no h).1 (surface_no h).2.1 (surface_no h).2.2, if_neg (erased_no hk)]
    exact f1 k hk

theorem postPostHe_frac {cfg : Merged.Cfg} {base comp p : Merged.Star} {m1 h1 c1 m2 h2 c2 : ℚ} (n1 : Numbers base m1 h1 c1) (n2 : Numbers comp m2 h2 c2)
    (f1 : FineM base) (f2 : FineM comp) (hp : Merged.prodPostPostHe cfg base comp = .ok p) : FineM p := by
  obtain ⟨c, hc, hs⟩ := Merged.bindE_ok hp
  have hc := Merged.cores4B_spec hc
  obtain ⟨-, s2, s3⟩ := Merged.sums_after hc.other hs
  intro k hk
  rcases names_cases hk with h | h
  · rw [s2 k h]; exact core_frac n1 n2 f1 f2 hc k h
  · rw [s3 k (surface_no h).1 (surface_no h).2.1 (surface_no h).2.2, if_neg (erased_no hk)]
    exact f1 k hk

theorem heHe_frac {cfg : Merged.Cfg} {base comp p : Merged.Star} {m1 h1 c1 m2 h2 c2 : ℚ} (n1 : Numbers base m1 h1 c1) (n2 : Numbers comp m2 h2 c2)
    (f1 : FineM base) (f2 : FineM comp) (hp : Merged.prodHeHe cfg base comp = .ok p) : FineM p := by
  obtain ⟨-, ⟨t, t1, t2, t3⟩, ⟨c, hc, h3⟩, -⟩ := Merged.heHe_spec hp
  intro k hk
  rcases names_cases hk with h | hs
  · rw [h3 k h]; exact core_frac n1 n2 f1 f2 hc k h
  · refine avg_frac (t3 k hs) (by rw [t2 k hs]; exact f1 k hk) (f2 k hk) ?_ (weighs n2).2.2.1
    have a1 := t1 "he_core_mass" (by decide)
    have a2 := t1 "co_core_mass" (by decide)
    rw [n1.heM, n2.heM] at a1
    rw [n1.coM, n2.coM] at a2
    have a1 := Except.ok.inj a1
    have a2 := Except.ok.inj a2
    intro x hx
    simp only [Merged.weight, ← a1, ← a2, Merged.sub, Except.ok.injEq, Merged.Val.num.injEq] at hx
    have := n1.he
    have := n2.he
    linarith

theorem wd_frac {cfg : Merged.Cfg} {base comp p : Merged.Star} {m1 h1 c1 m2 h2 c2 : ℚ} (n1 : Numbers base m1 h1 c1) (n2 : Numbers comp m2 h2 c2)
    (f1 : FineM base) (f2 : FineM comp) (hp : Merged.prodWD cfg base comp = .ok p) : FineM p := by
  obtain ⟨-, z, nz, o⟩ := Merged.wd_spec hp
  have hk2 : comp.get "co_core_mass" ≠ .none := by rw [n2.coM]; simp
  intro k hk
  rcases names_cases hk with h | h
  · rcases eq_or_lt_of_le n1.co with z1 | z1
    · rw [z hk2 (by rw [n1.coM, ← z1]) k h]; exact f2 k hk
    · exact avg_frac (nz c1 hk2 n1.coM z1 k h) (f1 k hk) (f2 k hk) (weighs n1).2.2.2.2 (weighs n2).2.2.2.2
  · rw [o k (surface_no h).1 (surface_no h).2.1 (surface_no h).2.2, if_neg (erased_no hk)]
    exact f1 k hk

theorem product_frac {cfg : Merged.Cfg} {base comp p : Merged.Star} {b : Merged.Branch} {m1 h1 c1 m2 h2 c2 : ℚ} (hn : b ≠ .nsbh)
    (n1 : Numbers base m1 h1 c1) (n2 : Numbers comp m2 h2 c2) (f1 : FineM base) (f2 : FineM comp) (hp : Merged.product cfg base comp b = .ok p) :
    FineM p := by
  cases b with
  | hmsHms => exact hms_frac n1 n2 f1 f2 hp
  | postHms => exact postHms_frac n1 n2 f1 f2 hp
  | hmsPost =>
    simp only [Merged.product, Merged.hmsPost_eq] at hp
    exact postHms_frac n2 n1 f2 f1 hp
  | postPost => exact postPost_frac n1 n2 f1 f2 hp
  | postHeMS => exact postHeMS_frac n1 n2 f1 f2 hp
  | heMSPost =>
    simp only [Merged.product, Merged.heMSPost_eq] at hp
    exact postHeMS_frac n2 n1 f2 f1 hp
  | postPostHe => exact postPostHe_frac n1 n2 f1 f2 hp
  | postHePost =>
    simp only [Merged.product, Merged.postHePost_eq] at hp
    exact postPostHe_frac n2 n1 f2 f1 hp
  | heHe => exact heHe_frac n1 n2 f1 f2 hp
  | wd => exact wd_frac n1 n2 f1 f2 hp
  | nsbh => exact absurd rfl hn

theorem massless_frac (s : Merged.Star) : FineM (Merged.massless s) := by
  intro k hk x hx
  have h1 : k ≠ "mass" := by clear hx; revert k; decide
  have h2 : Merged.starProps.contains k = true := by clear hx; revert k; decide
  unfold Merged.massless at hx
  dsimp only at hx
  rw [if_neg h1, if_pos h2] at hx
  cases hx

/-- The product of a merger of two stars with nested cores, whose abundances are fractions, has abundances that are fractions. -/
theorem C155_product (cfg : Merged.Cfg) (base comp : Merged.Star) (v : Merged.Star × Merged.Star) (m1 h1 c1 m2 h2 c2 : ℚ)
    (h : Merged.merge cfg base comp = .ok v) (r1 : Solid base m1 h1 c1) (r2 : Solid comp m2 h2 c2) (n1 : Fine (ofMerged base))
    (n2 : Fine (ofMerged comp)) : Fine (ofMerged v.1) ∧ Fine (ofMerged v.2) := by
  rw [← fineM_iff] at n1 n2 ⊢
  rw [← fineM_iff]
  cases hb : Merged.branch base.state comp.state with
  | none =>
    unfold Merged.merge at h
    rw [hb] at h
    cases h
  | some b =>
    by_cases hn : b = .nsbh
    · subst hn
      unfold Merged.merge at h
      rw [hb] at h
      cases h
      exact ⟨massless_frac _, n2⟩
    · obtain ⟨⟨a1, a2⟩, a3, a4⟩ := Cores.branch_normal hb hn
      obtain ⟨e1, e2⟩ := r1.cores a1 a2
      obtain ⟨e3, e4⟩ := r2.cores a3 a4
      obtain ⟨p, hp, k1, k2⟩ := Merged.merge_ok (m := v.1) (r := v.2) hb hn h
      have key := product_frac hn ⟨r1.mass, e1, e2, r1.co, r1.he, r1.all⟩ ⟨r2.mass, e3, e4, r2.co, r2.he, r2.all⟩ n1 n2 hp
      rw [k1, k2]
      refine ⟨fun k hk => ?_, massless_frac _⟩
      rw [Merged.get_set_ne (by revert k; decide)]
      exact key k hk

/-- A giant of 10 solar masses with a core of 3 and a main sequence star of 5 merge: the abundances of both are fractions, and so are those of the
product. -/
example : ∃ v, Merged.merge Merged.exCfg Merged.exGiant Merged.exDwarf = .ok v ∧ Fine (ofMerged v.1) ∧ Fine (ofMerged v.2) := by
  have hb : Merged.branch Merged.exGiant.state Merged.exDwarf.state = some .postHms := by decide +kernel
  obtain ⟨v, h⟩ := Merged.C35_total Merged.exCfg Merged.exGiant Merged.exDwarf .postHms hb Merged.exGiant_numeric Merged.exDwarf_numeric
    (by unfold Merged.HasCentre; decide +kernel) (by unfold Merged.HasCentre; decide +kernel)
  have fine : ∀ s : Merged.Star, (∀ k ∈ names, s.get k = .nan ∨ s.get k = .num 0 ∨ s.get k = .num (1 / 2) ∨ s.get k = .num (7 / 10)) →
      Fine (ofMerged s) := by
    intro s hs
    rw [← fineM_iff]
    intro k hk x hx
    rcases hs k hk with e | e | e | e <;> rw [e] at hx <;> cases hx <;> norm_num
  refine ⟨v, h, C155_product _ _ _ v 10 3 0 5 0 0 h ⟨by decide +kernel, fun _ _ => ⟨by decide +kernel, by decide +kernel⟩, by norm_num, by norm_num, by norm_num⟩
    ⟨by decide +kernel, fun _ _ => ⟨by decide +kernel, by decide +kernel⟩, by norm_num, by norm_num, by norm_num⟩
    (fine _ (by decide +kernel)) (fine _ (by decide +kernel))⟩

/-- With a core heavier than its star the mixed surface is not made of fractions: an envelope of minus one solar mass with 0.7 of hydrogen and two
with 0.1 give minus a half. -/
theorem C155_heavy_core_violated : ∃ (a b : Merged.Star), FracV (a.get "surface_h1") ∧ FracV (b.get "surface_h1") ∧
    ∃ v, Merged.avg a b "surface_h1" .hEnv .mass = .ok v ∧ ¬ FracV v := by
  refine ⟨⟨some .hShellH, fun k => if k = "mass" then .num 5 else if k = "he_core_mass" then .num 6 else .num (7 / 10)⟩,
    ⟨some .hCoreH, fun k => if k = "mass" then .num 2 else .num (1 / 10)⟩, ?_, ?_, .num (-1 / 2), ?_, ?_⟩
  · intro x hx
    simp at hx
    rw [← hx]; norm_num
  · intro x hx
    simp at hx
    rw [← hx]; norm_num
  · simp [Merged.avg, Merged.weight, Merged.sub, Merged.mean]
    norm_num
  · intro h
    have := (h _ rfl).1
    norm_num at this

/-- A merger step: mass fractions stay mass fractions. -/
theorem C155_merger (cfg : Merged.Cfg) (b b' : Merged.Binary) (m1 h1 c1 m2 h2 c2 : ℚ) (h : Merged.call cfg b = .ok b') (d1 : Solid b.star1 m1 h1 c1)
    (d2 : Solid b.star2 m2 h2 c2) (n1 : Fine (ofMerged b.star1)) (n2 : Fine (ofMerged b.star2)) :
    Fine (ofMerged b'.star1) ∧ Fine (ofMerged b'.star2) := by
  have one : ∀ b0 : Merged.Binary, b0.star1 = b.star1 → b0.star2 = b.star2 → Merged.mergeOne cfg b0 = .ok b' →
      Fine (ofMerged b'.star1) ∧ Fine (ofMerged b'.star2) := by
    intro b0 e1 e2 h
    unfold Merged.mergeOne at h
    rw [e1, e2] at h
    split at h
    · cases h
    · rename_i v hv
      cases h
      exact C155_product cfg _ _ _ _ _ _ _ _ _ hv d1 d2 n1 n2
  have two : ∀ b0 : Merged.Binary, b0.star1 = b.star1 → b0.star2 = b.star2 → Merged.mergeTwo cfg b0 = .ok b' →
      Fine (ofMerged b'.star1) ∧ Fine (ofMerged b'.star2) := by
    intro b0 e1 e2 h
    unfold Merged.mergeTwo at h
    rw [e1, e2] at h
    split at h
    · cases h
    · rename_i v hv
      cases h
      exact (C155_product cfg _ _ _ _ _ _ _ _ _ hv d2 d1 n2 n1).symm
  unfold Merged.call at h
  split at h
  · split at h
    · exact one _ rfl rfl h
    · split at h
      · exact two _ rfl rfl h
      · cases h
  · split at h
    · split at h
      · exact one _ (by rfl) (by rfl) h
      · split at h
        · exact two _ (by rfl) (by rfl) h
        · cases h
    · cases h

/-! ### All steps -/

theorem quiet_fine {x y : Seen} (h : Quiet x y) (hx : Fine x) : Fine y := by
  cases h with
  | track _ h => exact h
  | same => exact hx

theorem C155_step {p q : Seen × Seen} (h : Step p q) (h1 : Fine p.1) (h2 : Fine p.2) : Fine q.1 ∧ Fine q.2 := by
  cases h with
  | ce cfg b b' x y h z1 z2 hx hy => exact C155_common_envelope cfg b b' x y h z1 z2 hx hy h1 h2
  | sn c b b' h =>
    obtain ⟨he, -⟩ := SNStep.step_collapse h
    obtain ⟨a1, a2⟩ := C155_supernova c b b' h
    have same : ∀ {f g : Seen}, (∀ k ∈ names, g k = f k) → Fine f → Fine g := fun e hf => left_fine (fun k hk => .inl (e k hk)) hf
    rcases he with he | he
    · rw [he] at a1 a2
      exact ⟨left_fine a1 h1, same a2 h2⟩
    · rw [he] at a1 a2
      exact ⟨same a2 h1, left_fine a1 h2⟩
  | merged cfg b b' m1 k1 c1 m2 k2 c2 h s1 s2 => exact C155_merger cfg b b' _ _ _ _ _ _ h s1 s2 h1 h2
  | quiet x y x' y' q1 q2 => exact ⟨quiet_fine q1 h1, quiet_fine q2 h2⟩

/-- Through a whole evolution, with any number of steps in any order, known abundances that are fractions at the start are fractions at the end. -/
theorem C155_evolution {p q : Seen × Seen} (h : Relation.ReflTransGen Step p q) (h1 : Fine p.1) (h2 : Fine p.2) : Fine q.1 ∧ Fine q.2 := by
  induction h with
  | refl => exact ⟨h1, h2⟩
  | tail _ hs ih => exact C155_step hs ih.1 ih.2

/-- A young star with 0.7 of hydrogen at the centre, next to a compact object without abundances, has 0.1 left after a track. -/
example : ∃ q, Relation.ReflTransGen Step (fun k => if k = "center_h1" then some 0.7 else none, fun _ => none) q ∧ q.1 "center_h1" = some 0.1 ∧
    Fine q.1 ∧ ¬ Fine (fun _ => some (-1)) := by
  have f : Fine (fun k => if k = "center_h1" then some 0.1 else none) := by
    intro k _ x hx
    dsimp only at hx
    split at hx
    · cases hx; norm_num
    · cases hx
  refine ⟨_, .single (.quiet _ _ (fun k => if k = "center_h1" then some 0.1 else none) (fun _ => none) (.track _ _ f) (.same _)), rfl, f, ?_⟩
  intro h
  have := (h "center_h1" (by decide) (-1) rfl).1
  norm_num at this

end Verif.Fracs
