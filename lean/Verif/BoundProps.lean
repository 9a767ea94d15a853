import Verif.Bound
/-!
C151: through a whole evolution the orbit is an ellipse or there is none.
-/
namespace Verif.Bound
open Verif.Orbit (sepFromPeriod periodFromSep)

noncomputable section
open Classical

theorem periodFromSep_pos {a m1 m2 : ℝ} (ha : 0 < a) (hm : 0 < m1 + m2) : 0 < periodFromSep a m1 m2 := by
  unfold periodFromSep
  have hd : (0 : ℝ) < Orbit.dayyer := by unfold Orbit.dayyer; norm_num
  have hu : (0 : ℝ) < Orbit.aursun := by unfold Orbit.aursun; norm_num
  positivity

/-! ### Common envelopes -/

theorem phase_pos {cfg : CE.Cfg} {b : CE.Binary} {donor comp comp' : CE.Star} {l1 l2 : CE.Lam} {rc2 a : ℝ} {double : Bool} {p : CE.Phase}
    (he : Envelopes cfg b donor comp double) (h1 : CE.lambdaCE cfg donor = .ok l1) (h2 : CE.compLam cfg comp double = .ok l2)
    (hc : comp'.heM = comp.heM ∧ comp'.coM = comp.coM ∧ comp'.mass = comp.mass) (ha : 0 < a)
    (h : CE.phase cfg donor comp' l1 l2 rc2 double a = .ok p) : 0 < p.sep := by
  have ph := he.phys l1 l2 h1 h2
  have hcores : ∀ c, CE.postCores donor l1.mc l1.ty comp' l2.mc rc2 l2.ty double = .ok c →
      0 < c.m1 ∧ c.m1 ≤ l1.mc ∧ 0 < c.m2 ∧ c.m2 ≤ l2.mc := by
    intro c hpc
    unfold CE.postCores at hpc
    cases hv : CE.coreValues donor l1.ty with
    | error e => rw [hv] at hpc; cases hpc
    | ok v =>
      rw [hv] at hpc
      cases hpc
      have hv1 : 0 < v.1 := by
        unfold CE.coreValues at hv
        cases ht : l1.ty with
        | he => rw [ht] at hv; cases hv; exact he.he1
        | co => rw [ht] at hv; cases hv; exact he.co1 l1 h1 ht
        | notGiant => rw [ht] at hv; cases hv
      refine ⟨lt_min hv1 ph.mc1, min_le_right _ _, ?_, ?_⟩
      · cases double with
        | false => exact ph.mc2
        | true =>
          rw [if_pos rfl]
          unfold CE.compCore
          cases ht : l2.ty with
          | he => exact lt_min (by rw [hc.1]; exact he.he2 rfl) ph.mc2
          | co =>
            refine lt_min ?_ ph.mc2
            rw [hc.2.1]
            exact he.co2 l2 (by unfold CE.compLam at h2; rw [if_pos rfl] at h2; exact h2) ht rfl
          | notGiant => exact lt_min (by rw [hc.2.2]; exact ph.m2) ph.mc2
      · cases double with
        | false => exact le_refl _
        | true =>
          rw [if_pos rfl]
          unfold CE.compCore
          cases l2.ty <;> exact min_le_right _ _
  have hP : 0 < periodFromSep a l1.mc l2.mc := periodFromSep_pos ha (add_pos ph.mc1 ph.mc2)
  have hclose : ∀ c P, 0 < c.m1 → 0 < c.m2 → 0 < P → 0 < (CE.closeOrbit cfg c P).sep := by
    intro c P g1 g2 g3
    exact Orbit.sepFromPeriod_pos g3 (add_pos g1 g2)
  have hw : CE.windloss cfg donor l1.mc l1.ty comp' l2.mc rc2 l2.ty double a = .ok p → 0 < p.sep := by
    intro h
    unfold CE.windloss at h
    cases hpc : CE.postCores donor l1.mc l1.ty comp' l2.mc rc2 l2.ty double with
    | error e => rw [hpc] at h; cases h
    | ok c =>
      rw [hpc] at h
      dsimp only at h
      obtain ⟨g1, g2, g3, g4⟩ := hcores c hpc
      split at h
      · cases h; exact ha
      · split at h
        · cases h
        · rename_i P hwp
          cases h
          refine hclose c P g1 g3 ?_
          unfold CE.windPeriod at hwp
          obtain ⟨Q, hQ, hQp⟩ := Orbit.C39_positive _ l1.mc c.m1 l2.mc 1 0 hP g1 g2 ph.mc2 ⟨by norm_num, by norm_num, by norm_num, by norm_num⟩
          rw [hQ] at hwp
          dsimp only at hwp
          split at hwp
          · obtain ⟨R, hR, hRp⟩ := Orbit.C39_positive Q l2.mc c.m2 c.m1 1 0 hQp g3 g4 g1 ⟨by norm_num, by norm_num, by norm_num, by norm_num⟩
            rw [hR] at hwp
            cases hwp
            exact hRp
          · cases hwp
            exact hQp
  unfold CE.phase at h
  split at h
  · cases h; exact ha
  · unfold CE.stableMT at h
    split at h
    · exact hw h
    · cases hpc : CE.postCores donor l1.mc l1.ty comp' l2.mc rc2 l2.ty double with
      | error e => rw [hpc] at h; cases h
      | ok c =>
        rw [hpc] at h
        dsimp only at h
        obtain ⟨g1, g2, g3, g4⟩ := hcores c hpc
        split at h
        · cases h; exact ha
        · obtain ⟨Q, hQ, hQp⟩ := Orbit.C39_positive _ l1.mc c.m1 l2.mc 0 1 hP g1 g2 ph.mc2 ⟨by norm_num, by norm_num, by norm_num, by norm_num⟩
          rw [hQ] at h
          cases h
          exact hclose c Q g1 g3 hQp
  · exact hw h
  · cases h

theorem run_fine {cfg : CE.Cfg} {one double : Bool} {b b' : CE.Binary} {donor comp : CE.Star} (he : Envelopes cfg b donor comp double)
    (h : CE.run cfg one double b donor comp = .ok b') : (b'.sep = b.sep ∧ b'.ecc = b.ecc ∧ b'.state = .merged) ∨ (0 < b'.sep ∧ b'.ecc = 0 ∧ b'.state = .detached) := by
  unfold CE.run at h
  by_cases h1 : CE.mergesAtOnce cfg donor = true
  · rw [if_pos h1] at h
    cases h
    exact .inl ⟨rfl, rfl, rfl⟩
  rw [if_neg h1] at h
  by_cases h2 : cfg.alphaLambda = true
  swap
  · rw [if_neg h2] at h; cases h
  rw [if_pos h2] at h
  cases hl1 : CE.lambdaCE cfg donor with
  | error e => rw [hl1] at h; cases h
  | ok l1 =>
  cases hl2 : CE.compLam cfg comp double with
  | error e => rw [hl1, hl2] at h; cases h
  | ok l2 =>
  rw [hl1, hl2] at h
  dsimp only at h
  have hs := (CE.C36_orbit_shrinks cfg b donor comp l1 l2 double (he.phys l1 l2 hl1 hl2)).1
  have ha : 0 < CE.sepAfter cfg b donor comp l1 l2 double / Orbit.Rsun := div_pos hs (by unfold Orbit.Rsun; norm_num)
  unfold CE.simpleAlpha at h
  dsimp only at h
  split at h
  · cases h
  cases hc : CE.companion cfg comp l1 l2 double (CE.sepAfter cfg b donor comp l1 l2 double / Orbit.Rsun) with
  | error e => rw [hc] at h; cases h
  | ok q =>
  obtain ⟨comp', rc2⟩ := q
  rw [hc] at h
  dsimp only at h
  have hcm : comp'.heM = comp.heM ∧ comp'.coM = comp.coM ∧ comp'.mass = comp.mass := by
    unfold CE.companion at hc
    split at hc
    · split at hc
      · cases hc; exact ⟨rfl, rfl, rfl⟩
      · cases hc
    · cases hc; exact ⟨rfl, rfl, rfl⟩
  cases hp : CE.phase cfg donor comp' l1 l2 rc2 double (CE.sepAfter cfg b donor comp l1 l2 double / Orbit.Rsun) with
  | error e => rw [hp] at h; cases h
  | ok p =>
  rw [hp] at h
  dsimp only at h
  have hpos := phase_pos he hl1 hl2 hcm ha hp
  unfold CE.resolve at h
  split at h
  · have hm : ∀ e1 e2, (CE.merge one b donor comp' l1.ty l2.ty e1 e2).sep = b.sep ∧ (CE.merge one b donor comp' l1.ty l2.ty e1 e2).ecc = b.ecc ∧
        (CE.merge one b donor comp' l1.ty l2.ty e1 e2).state = .merged := by
      intro e1 e2
      unfold CE.merge
      exact ⟨(CE.assemble_fields ..).2.2.1, (CE.assemble_fields ..).2.2.2.2.1, (CE.assemble_fields ..).1⟩
    split at h
    · split at h
      · cases h
      · cases h; exact .inl (hm _ _)
    · cases h; exact .inl (hm _ _)
  · cases h
    unfold CE.ejection
    dsimp only
    rw [(CE.assemble_fields ..).2.2.1, (CE.assemble_fields ..).2.2.2.2.1, (CE.assemble_fields ..).1]
    exact .inr ⟨hpos, rfl, rfl⟩

/-- A common envelope leaves a circular orbit of positive separation, or a merger with the orbit as it was. -/
theorem C151_common_envelope (cfg : CE.Cfg) (b b' : CE.Binary) (h : CE.step cfg b = .ok b')
    (hr : ∀ one double, roles b.event = some (one, double) →
      Envelopes cfg b (if one then b.star1 else b.star2) (if one then b.star2 else b.star1) double) :
    (b'.sep = b.sep ∧ b'.ecc = b.ecc ∧ b'.state = .merged) ∨ (0 < b'.sep ∧ b'.ecc = 0 ∧ b'.state = .detached) := by
  unfold CE.step at h
  split at h
  · rename_i hev; exact run_fine (hr true false (by rw [hev]; rfl)) h
  · rename_i hev; exact run_fine (hr true true (by rw [hev]; rfl)) h
  · rename_i hev; exact run_fine (hr false false (by rw [hev]; rfl)) h
  · rename_i hev; exact run_fine (hr false true (by rw [hev]; rfl)) h
  · cases h

/-! ### Supernovae -/

/-- What is known of the orbit of a binary. -/
def FineB (b : SNStep.Binary) : Prop := Fine (num (b.attr "separation"), num (b.attr "eccentricity"))

theorem fine_noOrbit (b : SNStep.Binary) : FineB (SNStep.noOrbit b) := by
  have h : FineB (SNStep.noOrbit b) ↔ Fine (none, none) := by
    unfold FineB
    simp [SNStep.noOrbit, SNStep.Binary.set, num]
  exact h.2 .nothing

theorem fine_wind {x y z : ℝ} {v w s : SNStep.Val} (h : SNStep.lift (Orbit.sepWind x y z) v = .ok s) (hf : Fine (num v, num w)) : Fine (num s, num w) := by
  cases v with
  | num a =>
    cases h
    cases w with
    | num e =>
      cases hf with
      | ellipse _ _ ha h0 h1 => exact .ellipse _ _ (by unfold Orbit.sepWind; positivity) h0 h1
    | nan => cases hf
    | none => cases hf
    | str _ => cases hf
    | vec _ _ _ => cases hf
  | nan => cases h; exact hf
  | none => cases h
  | str _ => cases h
  | vec _ _ _ => cases h

theorem fine_afterWD {b b' : SNStep.Binary} {x y : SNStep.Star} (hl : b.lastEcc = b.attr "eccentricity") (hf : FineB b)
    (h : SNStep.afterWD b x y = .ok b') : FineB b' := by
  unfold SNStep.afterWD at h
  split at h
  · cases h
  rename_i s hs
  split at h
  · cases h
  cases h
  have := fine_wind hs hf
  unfold FineB
  simpa [SNStep.Binary.set, SNStep.Binary.wipe, hl] using this

theorem fine_noKick {b b' : SNStep.Binary} (hf : FineB b) (h : SNStep.noKick b = .ok b') : FineB b' := by
  unfold SNStep.noKick at h
  split at h
  · cases h
  rename_i s hs
  split at h
  · cases h
  cases h
  have := fine_wind hs hf
  unfold FineB
  simpa [SNStep.Binary.set] using this

theorem fine_afterKick {c : SNStep.Cfg} {rd : ℝ → ℝ} {b b' : SNStep.Binary} {p : SNStep.Pre} (hr : Kick.Rounds rd) (hc : Follows rd c)
    (hp : Fine (num p.sep, num p.ecc)) (hhe : 0 < p.Mhe) (hv : 0 ≤ p.V) (hcos : p.cosθ ^ 2 ≤ 1)
    (hm : b.s1.state ≠ "massless_remnant" → b.s2.state ≠ "massless_remnant" → 0 < p.Mcomp ∧ 0 < p.Mco)
    (h : SNStep.afterKick c b p = .ok b') : FineB b' := by
  unfold SNStep.afterKick at h
  split at h
  · cases h; exact fine_noOrbit (b.wipe ["nearest_neighbour_distance", "state"])
  split at h
  · cases h; exact fine_noOrbit _
  rename_i hml
  rw [not_or] at hml
  obtain ⟨m2, m3⟩ := hm hml.1 hml.2
  split at h
  · rename_i a e hps hpe
    rw [hps, hpe] at hp
    dsimp only at h
    split at h
    · rename_i hsv
      obtain ⟨E, o, ho, h1, h2⟩ := hc p a e hps hpe hsv
      cases hp with
      | ellipse _ _ ha h0 h1' =>
        obtain ⟨g1, g2, g3, -⟩ := Kick.C33_orbit hr ⟨hhe, m2, m3, ha, h0, h1', hv, hcos⟩ o ho
        split at h
        · cases h
        · cases h
          have : Fine (some (c.orbit p).sep, some (c.orbit p).ecc) := by
            rw [← h1, ← h2]
            exact .ellipse _ _ g1 g2 g3
          unfold FineB
          simpa [SNStep.Binary.set, num] using this
    · cases h; exact fine_noOrbit _
  · cases h

theorem kicked_ok {c : SNStep.Cfg} {s s' : SNStep.Star} {v f t a : ℝ} (hk : Kicks c) (hs : ∀ v, s.kickV = some v → 0 ≤ v)
    (h : SNStep.kicked c s = .ok (s', v, f, t, a)) : 0 ≤ v ∧ t ^ 2 ≤ 1 ∧ s'.lastMass = s.lastMass ∧ s'.mass = s.mass ∧ s'.state = s.state := by
  unfold SNStep.kicked at h
  split at h
  · split at h
    · cases h
    · rename_i v' hv'
      cases h
      refine ⟨?_, ?_, rfl, rfl, rfl⟩
      · unfold SNStep.kickSpeed at hv'
        split at hv'
        · rename_i w hw; cases hv'; exact hs _ hw
        · split at hv'
          · exact hk.ecsn _ _ hv'
          · split at hv'
            · split at hv'
              · exact hk.ns _ _ hv'
              · split at hv'
                · exact hk.bh _ _ hv'
                · split at hv'
                  · exact hk.none _ _ hv'
                  · cases hv'
            · cases hv'
      · split
        · exact Real.cos_sq_le_one _
        · exact hk.cos
  · cases h

/-- A supernova, with or without a kick, leaves an ellipse or no orbit. -/
theorem C151_supernova (c : SNStep.Cfg) (rd : ℝ → ℝ) (b b' : SNStep.Binary) (h : SNStep.step c b = .ok b') (hr : Kick.Rounds rd) (hf : Follows rd c)
    (hk : Kicks c) (h1 : Collapsing b.s1) (h2 : Collapsing b.s2) (hl : b.lastEcc = b.attr "eccentricity")
    (m1 : b'.s1.state ≠ "massless_remnant" → 0 < b'.s1.mass) (m2 : b'.s2.state ≠ "massless_remnant" → 0 < b'.s2.mass)
    (ho : Fine (num (b.attr "separation"), num (b.attr "eccentricity"))) :
    Fine (num (b'.attr "separation"), num (b'.attr "eccentricity")) := by
  obtain ⟨bc, bo, g1, g2, g3, g4⟩ := SNStep.step_cases h
  obtain ⟨e1, e2, -, e4, -⟩ := SNStep.closing_cases g4
  obtain ⟨f1, f2, f3, f4, f5, f6, f7, f8, f9⟩ := SNStep.collapsed_frame g1
  rw [e4 _ (by decide), e4 _ (by decide)]
  have hfb : FineB bc := by unfold FineB; rw [f5]; exact ho
  have hlb : bc.lastEcc = bc.attr "eccentricity" := by rw [f8, f5]; exact hl
  show FineB bo
  rw [e1, g3.same1.state, g3.same1.mass] at m1
  rw [e2, g3.same2.state, g3.same2.mass] at m2
  split at g2
  swap
  · exact fine_noKick hfb g2
  unfold SNStep.orbitalKick at g2
  split at g2
  · split at g2
    · exact fine_afterWD hlb hfb g2
    · split at g2
      · cases g2
      · rename_i s v f t a hkk
        obtain ⟨k1, k2, k3, k4, k5⟩ := kicked_ok hk (fun v hv => h1.kick v (by rw [← f1.kickV]; exact hv)) hkk
        refine fine_afterKick hr hf (by exact hfb) ?_ (by exact k1) (by exact k2) ?_ g2
        · show 0 < s.lastMass
          rw [k3, f1.lastMass]; exact h1.last
        · intro q1 q2
          exact ⟨m2 q2, by show 0 < s.mass; rw [k4]; exact m1 (by rw [← k5]; exact q1)⟩
  · split at g2
    · exact fine_afterWD hlb hfb g2
    · split at g2
      · cases g2
      · rename_i s v f t a hkk
        obtain ⟨k1, k2, k3, k4, k5⟩ := kicked_ok hk (fun v hv => h2.kick v (by rw [← f2.kickV]; exact hv)) hkk
        refine fine_afterKick hr hf (by exact hfb) ?_ (by exact k1) (by exact k2) ?_ g2
        · show 0 < s.lastMass
          rw [k3, f2.lastMass]; exact h2.last
        · intro q1 q2
          exact ⟨m1 q1, by show 0 < s.mass; rw [k4]; exact m2 (by rw [← k5]; exact q2)⟩
  · cases g2

/-! ### Detached evolution -/

/-- At the end of detached evolution the orbit is the last one of the solution, or the circular one at the onset of overflow. -/
theorem C151_detached (i : DetachedEvent.In) (o : DetachedEvent.Out) (h : DetachedEvent.call i = .ok o) (hs : 0 < i.sep) (e0 : 0 ≤ i.eEnd) (e1 : i.eEnd < 1) :
    (o.sep = i.sep ∧ o.ecc = i.ecc) ∨ (0 < o.sep ∧ o.sep ≤ i.sep ∧ o.ecc = 0) := by
  unfold DetachedEvent.call at h
  split at h
  · cases h; exact .inl ⟨rfl, rfl⟩
  split at h
  · cases h
  split at h
  · cases h
  unfold DetachedEvent.finish at h
  split at h
  · cases h; exact .inl ⟨rfl, rfl⟩
  split at h
  · unfold DetachedEvent.afterRLO at h
    split at h
    · cases h
    split at h
    · cases h
    split at h
    · cases h
    cases h
    have hsh : 0 < DetachedEvent.shrink i ∧ DetachedEvent.shrink i ≤ 1 := by
      unfold DetachedEvent.shrink
      split
      · constructor <;> nlinarith
      · constructor <;> linarith
    exact .inr ⟨mul_pos hs hsh.1, by nlinarith, rfl⟩
  split at h
  · unfold DetachedEvent.afterSecEnd at h
    dsimp only at h
    split at h
    · split at h
      · cases h
      · cases h; exact .inl ⟨rfl, rfl⟩
    · cases h; exact .inl ⟨rfl, rfl⟩
  split at h
  · cases h; exact .inl ⟨rfl, rfl⟩
  · cases h; exact .inl ⟨rfl, rfl⟩

/-! ### Two compact objects -/

/-- Two compact objects end on an ellipse that is not wider than the one they came with. -/
theorem C151_compact (i : DoubleCO.In) (l tau : ℝ → ℝ) (r1 r2 : ℝ) (r : DoubleCO.Res) (o : DoubleCO.Out) (hv : DoubleCO.Valid i)
    (hr1 : DoubleCO.coRadius i.m1 i.k1 = .ok r1) (hr2 : DoubleCO.coRadius i.m2 i.k2 = .ok r2)
    (hs : DoubleCO.IsSol l tau (DoubleCO.l0 i) 0 (DoubleCO.sContact i r1 r2))
    (hr : DoubleCO.Runs tau (DoubleCO.sContact i r1 r2) (DoubleCO.tauMax i) r)
    (h : DoubleCO.step i l tau r = .ok o) : 0 < o.sep ∧ o.sep ≤ i.sep ∧ 0 ≤ o.ecc ∧ o.ecc < 1 := by
  have hle : ∀ s : ℝ, 0 ≤ s → 0 < Real.exp (-s) * i.sep ∧ Real.exp (-s) * i.sep ≤ i.sep := by
    intro s hs
    refine ⟨mul_pos (Real.exp_pos _) hv.sep, ?_⟩
    have : Real.exp (-s) ≤ 1 := Real.exp_le_one_iff.2 (by linarith)
    nlinarith [hv.sep]
  unfold DoubleCO.step at h
  rw [hr1, hr2] at h
  split at h
  · cases h
  dsimp only at h
  split at h
  · cases h
  · cases h; exact ⟨hv.sep, le_refl _, hv.ecc0, hv.ecc1⟩
  · cases h
    obtain ⟨g1, g2⟩ := hle _ hs.hi0
    exact ⟨g1, g2, le_refl _, one_pos⟩
  · rename_i s
    cases h
    obtain ⟨⟨hs0, hs1⟩, -⟩ := hr
    obtain ⟨g1, g2⟩ := hle s hs0.le
    refine ⟨g1, g2, (Real.exp_pos _).le, ?_⟩
    have := hs.neg (DoubleCO.l0_neg hv.ecc1) (s := s) ⟨hs0.le, hs1⟩
    show Real.exp (l s) < 1
    rw [← Real.exp_zero]
    exact Real.exp_lt_exp.2 this

/-! ### A whole evolution -/

/-- Each step turns an ellipse, or no orbit, into an ellipse or no orbit. -/
theorem C151_step (o o' : Orb) (h : Step o o') (hf : Fine o) : Fine o' := by
  cases h with
  | ce cfg b b' h hr =>
    rcases C151_common_envelope cfg b b' h hr with ⟨h1, h2, -⟩ | ⟨h1, h2, -⟩
    · rw [h1, h2]; exact hf
    · exact .ellipse _ _ h1 h2.ge (by rw [h2]; exact one_pos)
  | sn c rd b b' h hr hc hk h1 h2 hl m1 m2 => exact C151_supernova c rd b b' h hr hc hk h1 h2 hl m1 m2 hf
  | detached i o a e h hs h0 h1 e0 e1 =>
    rcases C151_detached i o h hs e0 e1 with ⟨g1, g2⟩ | ⟨g1, -, g2⟩
    · rw [g1, g2]; exact .ellipse _ _ hs h0 h1
    · exact .ellipse _ _ g1 g2.ge (by rw [g2]; exact one_pos)
  | compact i l tau r1 r2 r o h1 h2 hr1 hr2 hs hr h =>
    cases hf with
    | ellipse _ _ ha h0 h1' =>
      obtain ⟨g1, -, g3, g4⟩ := C151_compact i l tau r1 r2 r o ⟨h1, h2, ha, h0, h1'⟩ hr1 hr2 hs hr h
      exact .ellipse _ _ g1 g3 g4
  | isolated D x y h =>
    obtain ⟨-, -, h2, h3, -⟩ := Isolated.C79_no_orbit D x y h
    rw [h2, h3]
    exact .nothing
  | merged cfg b b' o h => exact hf
  | grid a a' e h =>
    cases hf with
    | ellipse _ _ ha h0 h1 => exact .ellipse _ _ h h0 h1

/-- Through any number of steps in any order, the orbit is an ellipse or there is none: the separation is positive, the eccentricity at least zero
and less than one, and they are there or missing together. -/
theorem C151_evolution (o o' : Orb) (h : Steps o o') (hf : Fine o) : Fine o' := by
  induction h with
  | done o => exact hf
  | next h t ih => exact ih (C151_step _ _ h hf)

/-- Without the parts of the orbit: what a user reads off. -/
theorem C151_values (o : Orb) (a e : Option ℝ) (h : Steps o (a, e)) (hf : Fine o) :
    (∀ x, a = some x → 0 < x) ∧ (∀ x, e = some x → 0 ≤ x ∧ x < 1) ∧ (a = none ↔ e = none) ∧ ∀ x y, a = some x → e = some y → 0 < x * (1 - y) := by
  have := C151_evolution _ _ h hf
  cases this with
  | ellipse x y ha h0 h1 =>
    refine ⟨fun _ hx => by cases hx; exact ha, fun _ hx => by cases hx; exact ⟨h0, h1⟩, by simp, ?_⟩
    intro _ _ hx hy
    cases hx
    cases hy
    exact mul_pos ha (by linarith)
  | nothing => exact ⟨fun _ hx => (by cases hx), fun _ hx => (by cases hx), by simp, fun _ _ hx => (by cases hx)⟩

/-! ### Cases -/

/-- The orbit after a kick computed as in `Verif.Kick`, from any eccentric anomaly. -/
def kickOrbit (rd : ℝ → ℝ) (E : SNStep.Pre → ℝ) (p : SNStep.Pre) : SNStep.Post :=
  match p.sep, p.ecc with
  | .num a, .num e =>
    match Kick.post rd ⟨p.Mhe, p.Mcomp, p.Mco, a, e, E p, p.V, p.cosθ, p.phi⟩ with
    | some o => ⟨true, o.sep, o.ecc, o.vsys.x, o.vsys.y, o.vsys.z, o.tilt, 0⟩
    | none => ⟨false, 0, 0, 0, 0, 0, 0, 0⟩
  | _, _ => ⟨false, 0, 0, 0, 0, 0, 0, 0⟩

/-- That orbit is one the theorems speak about. -/
theorem C151_kick_orbit (rd : ℝ → ℝ) (E : SNStep.Pre → ℝ) (c : SNStep.Cfg) : Follows rd { c with orbit := kickOrbit rd E } := by
  intro p a e ha he hs
  change (kickOrbit rd E p).survives = true at hs
  show ∃ (E' : ℝ) (o : Kick.Out), _ ∧ o.sep = (kickOrbit rd E p).sep ∧ o.ecc = (kickOrbit rd E p).ecc
  unfold kickOrbit at hs ⊢
  rw [ha, he] at hs ⊢
  dsimp only at hs ⊢
  cases hp : Kick.post rd ⟨p.Mhe, p.Mcomp, p.Mco, a, e, E p, p.V, p.cosθ, p.phi⟩ with
  | none => rw [hp] at hs; cases hs
  | some o => exact ⟨E p, o, hp, rfl, rfl⟩

/-- A binary evolves in a grid, then detached until a star ends its life; the companion is a black hole, the orbit eccentric. -/
example : ∃ o, Steps (some 50, some (1 / 10)) o ∧ o = (some 100, some (2 / 10)) := by
  refine ⟨_, ?_, rfl⟩
  refine .next (.grid 50 80 (1 / 10) (by norm_num)) (.next (.detached
    { s1 := .hCoreH, s2 := .BH, b := .detached, e := .none, secIsOne := true, priCO := true, secCO := false, startRLO := false,
      timeLeft := true, failed := false, rloSec := false, rloPri := false, endSec := true, endPri := false, sep := 100, per := 0, ecc := 2 / 10,
      eEnd := 2 / 10, mSec := 0, mPri := 0, mSecEnd := 19, mPriEnd := 10, sameTime := false, sameAM := true, hasRLOStep := true, late := false }
    _ 80 (1 / 10) rfl (by norm_num) (by norm_num) (by norm_num) (by norm_num) (by norm_num)) (.done _))

end
end Verif.Bound
