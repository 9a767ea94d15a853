import Verif.SNStep
/-! Lemmas about the supernova step: how its parts commute with exchanging the stars. -/
namespace Verif.SNStep
open Verif.Orbit (lg sepWind periodFromSep)

theorem GW_beta_comm (a b : ℝ) : GW.beta a b = GW.beta b a := by unfold GW.beta; ring

theorem GW_inspiral_comm (a b x e : ℝ) : GW.inspiral a b x e = GW.inspiral b a x e := by
  unfold GW.inspiral
  simp only [GW.tMerger, GW_beta_comm (b * _)]
  by_cases h1 : a * Orbit.Msun ≤ 0 <;> by_cases h2 : b * Orbit.Msun ≤ 0 <;> simp [h1, h2]

theorem inspiralV_comm (a b : ℝ) (x e : Val) : inspiralV a b x e = inspiralV b a x e := by
  unfold inspiralV
  cases x <;> cases e <;> simp only [GW_inspiral_comm a b, or_comm (a := a ≤ 0)]

theorem period_comm (x a b : ℝ) : periodFromSep x a b = periodFromSep x b a := by
  unfold periodFromSep; rw [add_comm]

theorem mirror_mirrorKey (k : String) : mirrorKey (mirrorKey k) = k := by
  by_cases h1 : k = "rl_relative_overflow_1"
  · subst h1; decide
  by_cases h2 : k = "rl_relative_overflow_2"
  · subst h2; decide
  by_cases h3 : k = "t_sync_rad_1"
  · subst h3; decide
  by_cases h4 : k = "t_sync_rad_2"
  · subst h4; decide
  by_cases h5 : k = "t_sync_conv_1"
  · subst h5; decide
  by_cases h6 : k = "t_sync_conv_2"
  · subst h6; decide
  have h : mirrorKey k = k := by
    rw [mirrorKey, if_neg h1, if_neg h2, if_neg h3, if_neg h4, if_neg h5, if_neg h6]
  rw [h, h]

theorem set_mirror (b : Binary) (k : String) (v : Val) (h : mirrorKey k = k) : (b.set k v).mirror = b.mirror.set k v := by
  simp only [Binary.set, Binary.mirror, Binary.mk.injEq, true_and, and_true]
  funext x
  by_cases hx : x = k
  · subst hx; simp [h]
  · have : mirrorKey x ≠ k := fun h' => hx (by rw [← mirror_mirrorKey x, h', h])
    simp [hx, this]

theorem mem_mirrorKey (x : String) : mirrorKey x ∈ binProps ↔ x ∈ binProps := by
  unfold mirrorKey; split_ifs with h1 h2 h3 h4 h5 h6 <;> simp_all [binProps]

theorem wipe_mirror (b : Binary) (keep : List String) (h : ∀ x, mirrorKey x ∈ keep ↔ x ∈ keep) :
    (b.wipe keep).mirror = b.mirror.wipe keep := by
  simp only [Binary.wipe, Binary.mirror, Binary.mk.injEq, true_and, and_true]
  funext x
  simp only [h x, mem_mirrorKey x]

theorem keep_mirror (l : List String) (hl : ∀ k ∈ l, mirrorKey k = k) (x : String) : mirrorKey x ∈ l ↔ x ∈ l := by
  constructor
  · intro h
    have := hl _ h
    rw [mirror_mirrorKey] at this
    rwa [← this] at h
  · intro h; rw [hl _ h]; exact h

theorem attr_mirror (b : Binary) (k : String) (h : mirrorKey k = k) : b.mirror.attr k = b.attr k := by
  simp [Binary.mirror, h]

theorem mirror_mirror (b : Binary) : b.mirror.mirror = b := by
  rcases b with ⟨s1, s2, st, ev, attr, lt, le, f, n1, n2⟩
  simp only [Binary.mirror, mirror_mirrorKey]
  cases ev <;> rfl

theorem noOrbit_mirror (b : Binary) : (noOrbit b).mirror = noOrbit b.mirror := by
  simp only [noOrbit]
  rw [set_mirror _ _ _ (by decide), set_mirror _ _ _ (by decide), set_mirror _ _ _ (by decide), set_mirror _ _ _ (by decide),
    set_mirror _ _ _ (by decide), set_mirror _ _ _ (by decide)]
  rfl

theorem tiltsNan_mirror (b : Binary) : (tiltsNan b).mirror = tiltsNan b.mirror := by
  unfold tiltsNan
  cases h : b.firstSN <;> simp [Binary.mirror, h]

theorem tilts_mirror (c : Cfg) (b : Binary) (t n : ℝ) (h : b.s1.tilt1 = b.s2.tilt1) :
    tilts c b.mirror t n = mirrorR (tilts c b t n) := by
  unfold tilts
  cases hf : b.firstSN
  · simp [Binary.mirror, hf, mirrorR]
  · cases hn : b.nu1 with
    | none => simp [Binary.mirror, hf, hn, mirrorR]
    | some n1 =>
      have e1 : b.mirror.firstSN = true := hf
      have e2 : b.mirror.nu1 = some n1 := hn
      cases he : b.event with
      | none => simp [Binary.mirror, he, hf, hn, Event.mirror, mirrorR]
      | other s => simp [Binary.mirror, he, hf, hn, Event.mirror, mirrorR]
      | CC1 =>
        simp only [Binary.mirror, he, hf, hn, Event.mirror]
        rw [← h]
        cases c.combine b.s1.tilt1 t n1 n <;> simp [mirrorR, Binary.mirror, Event.mirror]
      | CC2 =>
        simp only [Binary.mirror, he, hf, hn, Event.mirror]
        rw [← h]
        cases c.combine b.s1.tilt1 t n1 n <;> simp [mirrorR, Binary.mirror, Event.mirror]

theorem afterWD_mirror (b : Binary) (x y : Star) : afterWD b.mirror x y = mirrorR (afterWD b x y) := by
  unfold afterWD
  rw [attr_mirror b _ (by decide)]
  cases h1 : lift (sepWind x.mass x.lastMass y.mass) (b.attr "separation") with
  | error e => rfl
  | ok sep =>
    have : (fun a => periodFromSep a b.mirror.s1.mass b.mirror.s2.mass) = fun a => periodFromSep a b.s1.mass b.s2.mass :=
      funext fun a => period_comm a _ _
    simp only [this]
    cases h2 : lift (fun a => periodFromSep a b.s1.mass b.s2.mass) sep with
    | error e => rfl
    | ok per =>
      simp only [mirrorR, Except.ok.injEq]
      rw [set_mirror _ _ _ (by decide), set_mirror _ _ _ (by decide), set_mirror _ _ _ (by decide), set_mirror _ _ _ (by decide),
        ← wipe_mirror _ _ (keep_mirror _ (by decide)),
        ← set_mirror (b.wipe ["V_sys", "nearest_neighbour_distance", "state"]) "separation" sep (by decide)]
      rfl

theorem afterKick_mirror (c : Cfg) (b : Binary) (p : Pre) (h : b.s1.tilt1 = b.s2.tilt1) :
    afterKick c b.mirror p = mirrorR (afterKick c b p) := by
  unfold afterKick
  have hs : b.mirror.state = b.state := rfl
  rw [hs]
  cases ha : alone b.state
  · simp only [Bool.false_eq_true, if_false]
    have hm : (b.mirror.s1.state = "massless_remnant" ∨ b.mirror.s2.state = "massless_remnant") ↔
        (b.s1.state = "massless_remnant" ∨ b.s2.state = "massless_remnant") := or_comm
    by_cases h0 : b.s1.state = "massless_remnant" ∨ b.s2.state = "massless_remnant"
    · rw [if_pos h0, if_pos (hm.2 h0)]
      simp only [mirrorR, noOrbit_mirror]
      rw [← tiltsNan_mirror]; rfl
    · rw [if_neg h0, if_neg (fun h' => h0 (hm.1 h'))]
      cases p.sep <;> cases p.ecc <;> try rfl
      simp only
      rw [← wipe_mirror _ _ (keep_mirror _ (by decide))]
      cases (c.orbit p).survives
      · simp only [Bool.false_eq_true, if_false, mirrorR, noOrbit_mirror]
        rw [← tiltsNan_mirror]; rfl
      · simp only [if_true]
        rw [tilts_mirror c (b.wipe ["nearest_neighbour_distance", "event"]) _ _ h]
        cases tilts c (b.wipe ["nearest_neighbour_distance", "event"]) (c.orbit p).tilt (c.orbit p).nu with
        | error e => rfl
        | ok b' =>
          simp only [mirrorR, Except.ok.injEq]
          rw [set_mirror _ _ _ (by decide), set_mirror _ _ _ (by decide), set_mirror _ _ _ (by decide), set_mirror _ _ _ (by decide),
            set_mirror _ _ _ (by decide), set_mirror _ _ _ (by decide)]
          simp only [Binary.set, Binary.mirror, period_comm _ b'.s2.mass, Event.mirror]
  · simp only [if_true, mirrorR, Except.ok.injEq]
    rw [← wipe_mirror _ _ (keep_mirror _ (by decide)), ← noOrbit_mirror]
    rfl

theorem orbitalKick_mirror (c : Cfg) (b : Binary) (h : b.s1.tilt1 = b.s2.tilt1) :
    orbitalKick c b.mirror = mirrorR (orbitalKick c b) := by
  have hk : ∀ (s s' : Star) v f t a, kicked c s = .ok (s', v, f, t, a) → s'.tilt1 = s.tilt1 := by
    intro s s' v f t a hk
    unfold kicked at hk
    split at hk
    · split at hk
      · cases hk
      · simp only [Except.ok.injEq, Prod.mk.injEq] at hk
        rw [← hk.1]
    · cases hk
  unfold orbitalKick
  cases he : b.event with
  | none => simp [Binary.mirror, he, Event.mirror, mirrorR]
  | other s => simp [Binary.mirror, he, Event.mirror, mirrorR]
  | CC1 =>
    have e1 : b.mirror.event = .CC2 := by simp [Binary.mirror, he, Event.mirror]
    have e2 : b.mirror.s2 = b.s1 := rfl
    have e3 : b.mirror.s1 = b.s2 := rfl
    rw [e1, e2, e3]
    simp only
    by_cases hw : b.s1.snType = "WD"
    · rw [if_pos hw, if_pos hw]; exact afterWD_mirror b _ _
    · rw [if_neg hw, if_neg hw]
      cases hkk : kicked c b.s1 with
      | error e => rfl
      | ok r =>
        obtain ⟨s, v, phi, t, a⟩ := r
        simp only
        rw [attr_mirror b _ (by decide), attr_mirror b _ (by decide)]
        have key := afterKick_mirror c { b with s1 := s }
          ⟨s.lastMass, b.s2.mass, s.mass, b.attr "separation", b.attr "eccentricity", v, phi, t, a⟩ ((hk _ _ _ _ _ _ hkk).trans h)
        simp only [Binary.mirror, he, Event.mirror] at key ⊢
        exact key
  | CC2 =>
    have e1 : b.mirror.event = .CC1 := by simp [Binary.mirror, he, Event.mirror]
    have e2 : b.mirror.s2 = b.s1 := rfl
    have e3 : b.mirror.s1 = b.s2 := rfl
    rw [e1, e2, e3]
    simp only
    by_cases hw : b.s2.snType = "WD"
    · rw [if_pos hw, if_pos hw]; exact afterWD_mirror b _ _
    · rw [if_neg hw, if_neg hw]
      cases hkk : kicked c b.s2 with
      | error e => rfl
      | ok r =>
        obtain ⟨s, v, phi, t, a⟩ := r
        simp only
        rw [attr_mirror b _ (by decide), attr_mirror b _ (by decide)]
        have key := afterKick_mirror c { b with s2 := s }
          ⟨s.lastMass, b.s1.mass, s.mass, b.attr "separation", b.attr "eccentricity", v, phi, t, a⟩ (h.trans (hk _ _ _ _ _ _ hkk).symm)
        simp only [Binary.mirror, he, Event.mirror] at key ⊢
        exact key

theorem closing_mirror (b : Binary) (h : b.event = .none) : closing b.mirror = mirrorR (closing b) := by
  unfold closing
  have e0 : b.mirror.state = b.state := rfl
  have e2 : b.mirror.s2 = b.s1 := rfl
  have e3 : b.mirror.s1 = b.s2 := rfl
  rw [e0, e2, e3, attr_mirror b _ (by decide), attr_mirror b _ (by decide), inspiralV_comm b.s2.mass]
  by_cases h1 : b.state = "disrupted" ∨ b.s1.state = "massless_remnant" ∨ b.s2.state = "massless_remnant"
  · have h1' : b.state = "disrupted" ∨ b.s2.state = "massless_remnant" ∨ b.s1.state = "massless_remnant" := by tauto
    rw [if_pos h1, if_pos h1']
    simp only [mirrorR, Except.ok.injEq, set_mirror _ "inspiral_time" _ (by decide)]
  · have h1' : ¬ (b.state = "disrupted" ∨ b.s2.state = "massless_remnant" ∨ b.s1.state = "massless_remnant") := by tauto
    rw [if_neg h1, if_neg h1']
    by_cases h2 : b.s1.state ∈ statesCO ∧ b.s2.state ∈ statesCO
    · rw [if_pos h2, if_pos h2.symm]
      cases inspiralV b.s1.mass b.s2.mass (b.attr "separation") (b.attr "eccentricity") with
      | error e => rfl
      | ok t => simp only [mirrorR, Except.ok.injEq, set_mirror _ "inspiral_time" _ (by decide)]
    · rw [if_neg h2, if_neg (fun h' => h2 h'.symm)]
      by_cases h3 : b.s1.state ∈ statesCO ∧ b.s2.state ∈ statesCDep
      · have h4 : ¬ (b.s2.state ∈ statesCO ∧ b.s1.state ∈ statesCDep) := fun h' => h2 ⟨h3.1, h'.1⟩
        rw [if_pos h3, if_neg h4, if_pos h3.symm]
        rfl
      · rw [if_neg h3]
        by_cases h4 : b.s1.state ∈ statesCDep ∧ b.s2.state ∈ statesCO
        · rw [if_pos h4, if_pos h4.symm]; rfl
        · rw [if_neg h4, if_neg (fun h' => h4 h'.symm), if_neg (fun h' => h3 h'.symm)]; rfl

theorem collapsed_mirror (c : Cfg) (b : Binary) : collapsed c b.mirror = mirrorR (collapsed c b) := by
  unfold collapsed
  cases he : b.event with
  | none => simp [Binary.mirror, he, Event.mirror, mirrorR]
  | other s => simp [Binary.mirror, he, Event.mirror, mirrorR]
  | CC1 =>
    have e1 : b.mirror.event = .CC2 := by simp [Binary.mirror, he, Event.mirror]
    have e2 : b.mirror.s2 = b.s1 := rfl
    rw [e1, e2]
    cases collapse c b.s1 <;> rfl
  | CC2 =>
    have e1 : b.mirror.event = .CC1 := by simp [Binary.mirror, he, Event.mirror]
    have e2 : b.mirror.s1 = b.s2 := rfl
    rw [e1, e2]
    cases collapse c b.s2 <;> rfl

/-! ### what the collapse leaves alone -/

/-- The histories, the kick and the tilts of a star are the same. -/
structure Frame (s s' : Star) : Prop where
  tilt1 : s'.tilt1 = s.tilt1
  tilt2 : s'.tilt2 = s.tilt2
  lastState : s'.lastState = s.lastState
  lastMass : s'.lastMass = s.lastMass
  lastZ : s'.lastZ = s.lastZ
  kickV : s'.kickV = s.kickV
  kickPhi : s'.kickPhi = s.kickPhi
  kickTheta : s'.kickTheta = s.kickTheta
  kickAnomaly : s'.kickAnomaly = s.kickAnomaly

theorem Frame.trans {a b c : Star} (h : Frame a b) (h' : Frame b c) : Frame a c := by
  constructor
  · rw [h'.tilt1, h.tilt1]
  · rw [h'.tilt2, h.tilt2]
  · rw [h'.lastState, h.lastState]
  · rw [h'.lastMass, h.lastMass]
  · rw [h'.lastZ, h.lastZ]
  · rw [h'.kickV, h.kickV]
  · rw [h'.kickPhi, h.kickPhi]
  · rw [h'.kickTheta, h.kickTheta]
  · rw [h'.kickAnomaly, h.kickAnomaly]

theorem frame_set (s : Star) (k : String) (v : Val) : Frame s (s.set k v) := ⟨rfl, rfl, rfl, rfl, rfl, rfl, rfl, rfl, rfl⟩
theorem frame_wipe (s : Star) (k : List String) : Frame s (s.wipe k) := ⟨rfl, rfl, rfl, rfl, rfl, rfl, rfl, rfl, rfl⟩
theorem frame_massless (s : Star) : Frame s (toMassless s) := ⟨rfl, rfl, rfl, rfl, rfl, rfl, rfl, rfl, rfl⟩

theorem frame_radius {s s' : Star} (h : setRadius s = .ok s') : Frame s s' := by
  unfold setRadius at h
  split at h
  · cases h
  · cases h; exact frame_set _ _ _

theorem frame_wipeWD {s s' : Star} (h : wipeWD s = .ok s') : Frame s s' := by
  unfold wipeWD at h
  split at h
  · cases h
  · cases h; exact ⟨rfl, rfl, rfl, rfl, rfl, rfl, rfl, rfl, rfl⟩

theorem frame_fromModel {s s' : Star} {p : Interp} {m : ℝ} (h : fromModel s p m = .ok s') : Frame s s' := by
  unfold fromModel at h
  simp only at h
  split at h
  · cases h
  · rename_i s2 h2
    have h2' : Frame s s2 := by
      split at h2
      · have := frame_wipeWD h2
        exact ⟨this.1, this.2, this.3, this.4, this.5, this.6, this.7, this.8, this.9⟩
      · cases h2; exact ⟨rfl, rfl, rfl, rfl, rfl, rfl, rfl, rfl, rfl⟩
    split at h
    · cases h; exact h2'.trans (frame_massless _)
    · exact h2'.trans (frame_radius h)

theorem frame_finish {s s' : Star} (h : finish s = .ok s') : Frame s s' := by
  unfold finish at h
  split at h
  · cases h
  · rename_i s2 h2
    cases h
    have := frame_radius h2
    exact ⟨this.1, this.2, this.3, this.4, this.5, this.6, this.7, this.8, this.9⟩

theorem frame_byProfile {c : Cfg} {s s' : Star} {m g : ℝ} (h : byProfile c s m g = .ok s') : Frame s s' := by
  unfold byProfile at h
  simp only at h
  split at h
  · cases h; exact ⟨rfl, rfl, rfl, rfl, rfl, rfl, rfl, rfl, rfl⟩
  · split at h
    · cases h; exact ⟨rfl, rfl, rfl, rfl, rfl, rfl, rfl, rfl, rfl⟩
    · cases h

theorem frame_byCores {c : Cfg} {s s' : Star} {g : ℝ} (h : byCores c s g = .ok s') : Frame s s' := by
  unfold byCores at h
  simp only at h
  split at h
  · split at h
    · cases h
    · cases h; exact ⟨rfl, rfl, rfl, rfl, rfl, rfl, rfl, rfl, rfl⟩
  · cases h; exact ⟨rfl, rfl, rfl, rfl, rfl, rfl, rfl, rfl, rfl⟩

/-- The star handed over to the collapse of the core, l.687-697 and 825-832. -/
noncomputable def prepared (c : Cfg) (s : Star) (r : Rem) : Star :=
  if c.engine then { s with snType := r.snType, fFb := r.f, state := r.state } else { s with snType := r.snType, fFb := r.f }

theorem frame_prepared (c : Cfg) (s : Star) (r : Rem) : Frame s (prepared c s r) := by
  unfold prepared; split <;> exact ⟨rfl, rfl, rfl, rfl, rfl, rfl, rfl, rfl, rfl⟩

/-- The outcomes of `collapseCore`: a white dwarf, no remnant, or a neutron star or black hole. -/
theorem collapseCore_cases {c : Cfg} {s s' : Star} {ty : String} (h : collapseCore c s ty = .ok s') :
    ∃ r, c.rem s = .ok r ∧
      ((r.snType = "WD" ∧ ∃ s2, setRadius ({ prepared c s r with mass := r.m.getD 0, state := "WD" }.set "spin" (.num 0)) = .ok s2 ∧
          wipeWD s2 = .ok s') ∨
       (r.snType ≠ "WD" ∧ r.m = none ∧ s' = toMassless (prepared c s r)) ∨
       (r.snType ≠ "WD" ∧ ∃ m s2, r.m = some m ∧ finish s2 = .ok s' ∧
          (byProfile c (prepared c s r) m (SN.mGrav m c.maxNu) = .ok s2 ∨ byCores c (prepared c s r) (SN.mGrav m c.maxNu) = .ok s2 ∨
            s2 = bySpinNone c (prepared c s r) (SN.mGrav m c.maxNu)))) := by
  unfold collapseCore at h
  cases hr : c.rem s with
  | error e => rw [hr] at h; cases h
  | ok r =>
    rw [hr] at h
    refine ⟨r, rfl, ?_⟩
    have hp : (if c.engine = true then { s with snType := r.snType, fFb := r.f, state := r.state }
        else { s with snType := r.snType, fFb := r.f }) = prepared c s r := rfl
    simp only [hp] at h
    by_cases hw : r.snType = "WD"
    · rw [if_pos hw] at h
      left
      refine ⟨hw, ?_⟩
      split at h
      · cases h
      · rename_i s2 h2; exact ⟨s2, h2, h⟩
    · rw [if_neg hw] at h
      right
      cases hm : r.m with
      | none =>
        rw [hm] at h
        left
        cases h
        exact ⟨hw, rfl, rfl⟩
      | some m =>
        rw [hm] at h
        right
        refine ⟨hw, m, ?_⟩
        simp only at h
        split at h
        · cases h
        · rename_i s2 h2
          refine ⟨s2, rfl, h, ?_⟩
          split at h2
          · exact .inl h2
          · split at h2
            · exact .inr (.inl h2)
            · split at h2
              · cases h2; exact .inr (.inr rfl)
              · cases h2

theorem frame_collapseCore {c : Cfg} {s s' : Star} {ty : String} (h : collapseCore c s ty = .ok s') : Frame s s' := by
  obtain ⟨r, -, h⟩ := collapseCore_cases h
  refine (frame_prepared c s r).trans ?_
  rcases h with ⟨-, s2, h1, h2⟩ | ⟨-, -, rfl⟩ | ⟨-, m, s2, -, h1, h2⟩
  · have := (frame_radius h1).trans (frame_wipeWD h2)
    exact ⟨this.1, this.2, this.3, this.4, this.5, this.6, this.7, this.8, this.9⟩
  · exact frame_massless _
  · refine Frame.trans ?_ (frame_finish h1)
    rcases h2 with h2 | h2 | rfl
    · exact frame_byProfile h2
    · exact frame_byCores h2
    · exact ⟨rfl, rfl, rfl, rfl, rfl, rfl, rfl, rfl, rfl⟩

/-- `collapse` ends in the collapse of the core or takes the values of the interpolated model. -/
theorem collapse_cases {c : Cfg} {s s' : Star} (h : collapse c s = .ok s') :
    s.state ∈ statesCC ∧
    ((∃ ty p, collapseCore c { enter s with interp := p } ty = .ok s') ∨
     (c.useInterp = true ∧ ∃ q m ty, s.interp = some q ∧ c.typeOf (enter s) = .ok ty ∧ q.mass = some m ∧
        useModel ty (if q.snType = "ECSN" then ty else q.snType) q.state q.mass = true ∧
        fromModel { enter s with interp := some { q with snType := if q.snType = "ECSN" then ty else q.snType } }
          { q with snType := if q.snType = "ECSN" then ty else q.snType } m = .ok s')) := by
  unfold collapse at h
  by_cases hs : s.state ∈ statesCC
  swap
  · rw [if_neg hs] at h; cases h
  rw [if_pos hs] at h
  refine ⟨hs, ?_⟩
  by_cases hi : c.useInterp = true
  swap
  · rw [if_neg hi] at h; exact .inl ⟨"", s.interp, h⟩
  rw [if_pos hi] at h
  by_cases hk : (!c.modelKnown) = true
  · rw [if_pos hk] at h; cases h
  rw [if_neg hk] at h
  cases hq : s.interp with
  | none =>
    rw [hq] at h
    exact .inl ⟨"", s.interp, h⟩
  | some q =>
    rw [hq] at h
    simp only at h
    cases hty : c.typeOf (enter s) with
    | error e => rw [hty] at h; cases h
    | ok ty =>
      rw [hty] at h
      simp only [tryModel] at h
      cases hm : q.mass with
      | none =>
        rw [hm] at h
        left
        refine ⟨ty, some { q with snType := if q.snType = "ECSN" then ty else q.snType }, ?_⟩
        rw [hm]
        revert h
        cases useModel ty (if q.snType = "ECSN" then ty else q.snType) q.state none <;> exact id
      | some m =>
        rw [hm] at h
        cases hu : useModel ty (if q.snType = "ECSN" then ty else q.snType) q.state (some m) with
        | true =>
          rw [hu] at h
          right
          refine ⟨hi, q, m, ty, rfl, rfl, hm, ?_, ?_⟩
          · rw [hm]; exact hu
          · rw [hm]; exact h
        | false =>
          rw [hu] at h
          left
          refine ⟨ty, some { q with snType := if q.snType = "ECSN" then ty else q.snType }, ?_⟩
          rw [hm]; exact h

theorem frame_collapse {c : Cfg} {s s' : Star} (h : collapse c s = .ok s') : Frame s s' := by
  obtain ⟨-, ⟨ty, p, h⟩ | ⟨-, q, m, ty, -, -, -, -, h⟩⟩ := collapse_cases h
  · have := frame_collapseCore h
    exact ⟨this.1, this.2, this.3, this.4, this.5, this.6, this.7, this.8, this.9⟩
  · have := frame_fromModel h
    exact ⟨this.1, this.2, this.3, this.4, this.5, this.6, this.7, this.8, this.9⟩

theorem frame_update (c : Cfg) (s : Star) : Frame s (updateState c s) := by
  unfold updateState
  split
  · exact ⟨rfl, rfl, rfl, rfl, rfl, rfl, rfl, rfl, rfl⟩
  · split <;> exact ⟨rfl, rfl, rfl, rfl, rfl, rfl, rfl, rfl, rfl⟩

theorem update_mass (c : Cfg) (s : Star) : (updateState c s).mass = s.mass := by
  unfold updateState
  split
  · rfl
  · split <;> rfl

theorem update_attr (c : Cfg) (s : Star) : (updateState c s).attr = s.attr := by
  unfold updateState
  split
  · rfl
  · split <;> rfl

theorem update_snType (c : Cfg) (s : Star) : (updateState c s).snType = s.snType := by
  unfold updateState
  split
  · rfl
  · split <;> rfl

theorem frame_reset (s : Star) : Frame s (resetOther s) := ⟨rfl, rfl, rfl, rfl, rfl, rfl, rfl, rfl, rfl⟩

/-- What the collapse and the update of the states do to the two stars. -/
theorem collapsed_frame {c : Cfg} {b b' : Binary} (h : collapsed c b = .ok b') :
    Frame b.s1 b'.s1 ∧ Frame b.s2 b'.s2 ∧ b'.state = b.state ∧ b'.event = b.event ∧ b'.attr = b.attr ∧ b'.firstSN = b.firstSN ∧
      b'.lastTime = b.lastTime ∧ b'.lastEcc = b.lastEcc ∧ b'.nu1 = b.nu1 := by
  unfold collapsed at h
  split at h
  · split at h
    · cases h
    · rename_i s hs
      cases h
      exact ⟨(frame_collapse hs).trans (frame_update c s), (frame_reset _).trans (frame_update c _), rfl, rfl, rfl, rfl, rfl, rfl, rfl⟩
  · split at h
    · cases h
    · rename_i s hs
      cases h
      exact ⟨(frame_reset _).trans (frame_update c _), (frame_collapse hs).trans (frame_update c s), rfl, rfl, rfl, rfl, rfl, rfl, rfl⟩
  · cases h

/-! ### what the kick leaves alone -/

/-- State, mass, properties and type of supernova of a star are the same. -/
structure Same (s s' : Star) : Prop where
  state : s'.state = s.state
  mass : s'.mass = s.mass
  attr : s'.attr = s.attr
  snType : s'.snType = s.snType

theorem Same.rfl' (s : Star) : Same s s := ⟨rfl, rfl, rfl, rfl⟩
theorem Same.trans {a b c : Star} (h : Same a b) (h' : Same b c) : Same a c :=
  ⟨h'.1.trans h.1, h'.2.trans h.2, h'.3.trans h.3, h'.4.trans h.4⟩

theorem same_kicked {c : Cfg} {s s' : Star} {v f t a : ℝ} (h : kicked c s = .ok (s', v, f, t, a)) :
    Same s s' ∧ s'.tilt1 = s.tilt1 ∧ s'.kickV = some v ∧ s'.kickPhi = some f ∧ s'.kickAnomaly = some a ∧
      (∀ x, s.kickV = some x → v = x) ∧ (∀ x, s.kickPhi = some x → f = x) ∧ (∀ x, s.kickAnomaly = some x → a = x) ∧
      (∀ x, s.kickTheta = some x → s'.kickTheta = some x ∧ t = Real.cos x) ∧
      (s.kickTheta = none → s'.kickTheta = some (Real.arccos c.uCos) ∧ t = c.uCos) ∧ s.lastState ∈ statesCC := by
  unfold kicked at h
  split at h
  · rename_i hl
    split at h
    · cases h
    · rename_i w hw
      simp only [Except.ok.injEq, Prod.mk.injEq] at h
      obtain ⟨rfl, rfl, rfl, rfl, rfl⟩ := h
      refine ⟨⟨rfl, rfl, rfl, rfl⟩, rfl, rfl, rfl, rfl, ?_, ?_, ?_, ?_, ?_, hl⟩
      · intro x hx; rw [kickSpeed, hx] at hw; cases hw; rfl
      · intro x hx; rw [hx]; rfl
      · intro x hx; rw [hx]; rfl
      · intro x hx; simp [hx]
      · intro hx; simp [hx]
  · cases h

theorem same_tiltsNan (b : Binary) : Same b.s1 (tiltsNan b).s1 ∧ Same b.s2 (tiltsNan b).s2 ∧ (tiltsNan b).firstSN = true ∧
    (b.s1.tilt1 = b.s2.tilt1 → (tiltsNan b).s1.tilt1 = (tiltsNan b).s2.tilt1) ∧ (tiltsNan b).attr = b.attr ∧
    (tiltsNan b).lastTime = b.lastTime := by
  unfold tiltsNan
  cases h : b.firstSN
  · exact ⟨⟨rfl, rfl, rfl, rfl⟩, ⟨rfl, rfl, rfl, rfl⟩, rfl, fun _ => rfl, rfl, rfl⟩
  · exact ⟨⟨rfl, rfl, rfl, rfl⟩, ⟨rfl, rfl, rfl, rfl⟩, rfl, fun h => h, rfl, rfl⟩

theorem same_tilts {c : Cfg} {b b' : Binary} {t n : ℝ} (h : tilts c b t n = .ok b') :
    Same b.s1 b'.s1 ∧ Same b.s2 b'.s2 ∧ b'.firstSN = true ∧ (b.s1.tilt1 = b.s2.tilt1 → b'.s1.tilt1 = b'.s2.tilt1) ∧
      b'.attr = b.attr ∧ b'.lastTime = b.lastTime := by
  unfold tilts at h
  cases hf : b.firstSN
  · simp only [hf, Bool.not_false, if_true, Except.ok.injEq] at h
    subst h
    exact ⟨⟨rfl, rfl, rfl, rfl⟩, ⟨rfl, rfl, rfl, rfl⟩, rfl, fun _ => rfl, rfl, rfl⟩
  · simp only [hf, Bool.not_true, Bool.false_eq_true, if_false] at h
    split at h
    · cases h
    · split at h
      · split at h
        · cases h
        · cases h; exact ⟨⟨rfl, rfl, rfl, rfl⟩, ⟨rfl, rfl, rfl, rfl⟩, rfl, fun h => h, rfl, rfl⟩
      · split at h
        · cases h
        · cases h; exact ⟨⟨rfl, rfl, rfl, rfl⟩, ⟨rfl, rfl, rfl, rfl⟩, rfl, fun h => h, rfl, rfl⟩
      · cases h

theorem noOrbit_eq (b : Binary) : (noOrbit b).s1 = b.s1 ∧ (noOrbit b).s2 = b.s2 ∧ (noOrbit b).state = b.state ∧
    (noOrbit b).event = .none ∧ (noOrbit b).attr "separation" = .nan ∧ (noOrbit b).attr "eccentricity" = .nan ∧
    (noOrbit b).attr "orbital_period" = .nan ∧ (noOrbit b).attr "time" = b.lastTime := by
  refine ⟨rfl, rfl, rfl, rfl, ?_, ?_, ?_, ?_⟩ <;> simp [noOrbit, Binary.set]

/-- What the orbital part of the step may do to the binary `b`. -/
structure Outcome (b b' : Binary) : Prop where
  same1 : Same b.s1 b'.s1
  same2 : Same b.s2 b'.s2
  event : b'.event = .none
  tilt : b.s1.tilt1 = b.s2.tilt1 → b'.s1.tilt1 = b'.s2.tilt1

theorem outcome_noOrbit {b b' : Binary} (h1 : Same b.s1 b'.s1) (h2 : Same b.s2 b'.s2)
    (h3 : b.s1.tilt1 = b.s2.tilt1 → b'.s1.tilt1 = b'.s2.tilt1) : Outcome b (noOrbit b') := by
  obtain ⟨e1, e2, -, e4, -⟩ := noOrbit_eq b'
  constructor
  · rw [e1]; exact h1
  · rw [e2]; exact h2
  · exact e4
  · rw [e1, e2]; exact h3

theorem outcome_afterWD {b b' : Binary} {x y : Star} (h : afterWD b x y = .ok b') : Outcome b b' := by
  unfold afterWD at h
  split at h
  · cases h
  · split at h
    · cases h
    · cases h; exact ⟨Same.rfl' _, Same.rfl' _, rfl, id⟩

theorem outcome_afterKick {c : Cfg} {b b' : Binary} {p : Pre} (h : afterKick c b p = .ok b') : Outcome b b' ∧ b'.firstSN = true := by
  unfold afterKick at h
  split at h
  · cases h
    have := @outcome_noOrbit b (b.wipe ["nearest_neighbour_distance", "state"]) (Same.rfl' _) (Same.rfl' _) id
    exact ⟨⟨this.same1, this.same2, this.event, this.tilt⟩, rfl⟩
  · split at h
    · cases h
      have := same_tiltsNan b
      exact ⟨outcome_noOrbit this.1 this.2.1 this.2.2.2.1, this.2.2.1⟩
    · split at h
      · simp only at h
        split at h
        · split at h
          · cases h
          · rename_i b2 h2
            cases h
            have := same_tilts h2
            exact ⟨⟨this.1, this.2.1, rfl, this.2.2.2.1⟩, this.2.2.1⟩
        · cases h
          have := same_tiltsNan (b.wipe ["nearest_neighbour_distance", "event"])
          exact ⟨outcome_noOrbit this.1 this.2.1 this.2.2.2.1, this.2.2.1⟩
      · cases h

theorem outcome_orbitalKick {c : Cfg} {b b' : Binary} (h : orbitalKick c b = .ok b') : Outcome b b' := by
  unfold orbitalKick at h
  split at h
  · split at h
    · exact outcome_afterWD h
    · split at h
      · cases h
      · rename_i s v f t a hk
        have h1 := same_kicked hk
        have h2 := (outcome_afterKick h).1
        exact ⟨h1.1.trans h2.same1, h2.same2, h2.event, fun h => h2.tilt (h1.2.1.trans h)⟩
  · split at h
    · exact outcome_afterWD h
    · split at h
      · cases h
      · rename_i s v f t a hk
        have h1 := same_kicked hk
        have h2 := (outcome_afterKick h).1
        exact ⟨h2.same1, h1.1.trans h2.same2, h2.event, fun h => h2.tilt (h.trans h1.2.1.symm)⟩
  · cases h

theorem outcome_noKick {b b' : Binary} (h : noKick b = .ok b') : Outcome b b' := by
  unfold noKick at h
  split at h
  · cases h
  · split at h
    · cases h
    · cases h; exact ⟨Same.rfl' _, Same.rfl' _, rfl, id⟩

theorem closing_cases {b b' : Binary} (h : closing b = .ok b') :
    b'.s1 = b.s1 ∧ b'.s2 = b.s2 ∧ b'.state = b.state ∧ (∀ k, k ≠ "inspiral_time" → b'.attr k = b.attr k) ∧
    b'.firstSN = b.firstSN ∧
    (b'.event = b.event ∨ (b'.event = .CC2 ∧ b.s2.state ∈ statesCDep) ∨ (b'.event = .CC1 ∧ b.s1.state ∈ statesCDep)) := by
  unfold closing at h
  split at h
  · cases h; exact ⟨rfl, rfl, rfl, fun k hk => by simp [Binary.set, hk], rfl, .inl rfl⟩
  · split at h
    · split at h
      · cases h
      · cases h; exact ⟨rfl, rfl, rfl, fun k hk => by simp [Binary.set, hk], rfl, .inl rfl⟩
    · split at h
      · rename_i h'; cases h; exact ⟨rfl, rfl, rfl, fun _ _ => rfl, rfl, .inr (.inl ⟨rfl, h'.2⟩)⟩
      · split at h
        · rename_i h'; cases h; exact ⟨rfl, rfl, rfl, fun _ _ => rfl, rfl, .inr (.inr ⟨rfl, h'.1⟩)⟩
        · cases h; exact ⟨rfl, rfl, rfl, fun _ _ => rfl, rfl, .inl rfl⟩

/-- A step that succeeds: the collapse `bc`, the orbit `bo` and the closing part. -/
theorem step_cases {c : Cfg} {b b' : Binary} (h : step c b = .ok b') :
    ∃ bc bo, collapsed c b = .ok bc ∧ (if c.kick then orbitalKick c bc else noKick bc) = .ok bo ∧ Outcome bc bo ∧
      closing bo = .ok b' := by
  unfold step at h
  split at h
  · cases h
  · rename_i bc h1
    split at h
    · cases h
    · rename_i bo h2
      refine ⟨bc, bo, h1, h2, ?_, h⟩
      split at h2
      · exact outcome_orbitalKick h2
      · exact outcome_noKick h2

/-- The recorded kick of a star. -/
def Star.kicks (s : Star) : Option ℝ × Option ℝ × Option ℝ × Option ℝ := (s.kickV, s.kickPhi, s.kickTheta, s.kickAnomaly)

theorem afterKick_kicks {c : Cfg} {b b' : Binary} {p : Pre} (h : afterKick c b p = .ok b') :
    b'.s1.kicks = b.s1.kicks ∧ b'.s2.kicks = b.s2.kicks := by
  have hn : ∀ b : Binary, (tiltsNan b).s1.kicks = b.s1.kicks ∧ (tiltsNan b).s2.kicks = b.s2.kicks := by
    intro b; unfold tiltsNan; split <;> exact ⟨rfl, rfl⟩
  have ho : ∀ b : Binary, (noOrbit b).s1.kicks = b.s1.kicks ∧ (noOrbit b).s2.kicks = b.s2.kicks := by
    intro b; rw [(noOrbit_eq b).1, (noOrbit_eq b).2.1]; exact ⟨rfl, rfl⟩
  unfold afterKick at h
  split at h
  · cases h; exact ho (b.wipe ["nearest_neighbour_distance", "state"])
  · split at h
    · cases h
      have h1 := ho { tiltsNan b with state := "disrupted" }
      have h2 := hn b
      exact ⟨h1.1.trans h2.1, h1.2.trans h2.2⟩
    · split at h
      · simp only at h
        split at h
        · split at h
          · cases h
          · rename_i b2 h2
            cases h
            simp only [Binary.set]
            unfold tilts at h2
            split at h2
            · cases h2; exact ⟨rfl, rfl⟩
            · split at h2
              · cases h2
              · split at h2
                · split at h2
                  · cases h2
                  · cases h2; exact ⟨rfl, rfl⟩
                · split at h2
                  · cases h2
                  · cases h2; exact ⟨rfl, rfl⟩
                · cases h2
        · cases h
          have h1 := ho { tiltsNan (b.wipe ["nearest_neighbour_distance", "event"]) with state := "disrupted" }
          have h2 := hn (b.wipe ["nearest_neighbour_distance", "event"])
          exact ⟨h1.1.trans h2.1, h1.2.trans h2.2⟩
      · cases h

theorem kicked_kicks {c : Cfg} {s s' : Star} {v f t a : ℝ} (h : kicked c s = .ok (s', v, f, t, a)) :
    s'.kicks = (some v, some (s.kickPhi.getD c.uPhi), some (s.kickTheta.getD (Real.arccos c.uCos)),
      some (s.kickAnomaly.getD c.uAnomaly)) ∧ ∀ x, s.kickV = some x → v = x := by
  have hv := (same_kicked h).2.2.2.2.2.1
  refine ⟨?_, hv⟩
  unfold kicked at h
  split at h
  · split at h
    · cases h
    · simp only [Except.ok.injEq, Prod.mk.injEq] at h
      obtain ⟨rfl, rfl, rfl, rfl, rfl⟩ := h
      simp only [Star.kicks, Prod.mk.injEq, true_and, and_true, Option.some.injEq]
      cases s.kickTheta <;> rfl
  · cases h

end Verif.SNStep
