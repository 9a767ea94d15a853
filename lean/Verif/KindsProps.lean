import Verif.Kinds
import Mathlib.Tactic.Linarith
/-!
C149: the kind of a compact object agrees with its mass through a whole evolution.
-/
namespace Verif.Kinds
open FlowChart

theorem agrees_plain {s : String} {m : ℝ} (h : Plain s) : Agrees (s, m) :=
  ⟨fun e => absurd e h.1, fun e => absurd e h.2.1, fun e => absurd e h.2.2.1, fun e => absurd e h.2.2.2⟩

theorem coState_agrees (m : ℝ) : Agrees (SNStep.coState m, m) := by
  unfold SNStep.coState Agrees
  by_cases h0 : m ≤ 0
  · rw [if_pos h0]; simp [h0]
  rw [if_neg h0]
  by_cases h1 : m < 11 / 10
  · rw [if_pos h1]; simp [not_le.1 h0]
  rw [if_neg h1]
  by_cases h2 : m ≤ 5 / 2
  · rw [if_pos h2]; simp [h2, not_lt.1 h1]
  · rw [if_neg h2]; simp [not_le.1 h2]

theorem check_agrees {last state : String} {m : ℝ} (h : 0 < m) : Agrees (checkCO last state (some m), m) := by
  unfold checkCO
  split
  · unfold Agrees
    simp [h]
  · exact coState_agrees m

theorem name_plain {s : FlowChart.Star} (h : isNormal s = true) : Plain s.name := by
  revert h
  cases s <;> unfold Plain <;> decide

/-! ### The supernova -/

theorem update_agrees (c : SNStep.Cfg) (hc : ∀ s, Plain (c.classify s)) (s : SNStep.Star)
    (h : (s.state = "massless_remnant" → s.mass ≤ 0) ∧ (s.state ∈ SNStep.statesCO → 0 < s.mass)) : Agrees (ofSN (SNStep.updateState c s)) := by
  unfold SNStep.updateState ofSN
  by_cases h0 : s.state = "massless_remnant"
  · rw [if_pos h0]
    unfold Agrees
    simp only [h0]
    exact ⟨fun e => absurd e (by decide), fun e => absurd e (by decide), fun e => absurd e (by decide), fun _ => h.1 h0⟩
  rw [if_neg h0]
  by_cases h1 : s.state ∈ SNStep.statesCO
  · rw [if_pos h1]
    exact check_agrees (last := s.lastState) (state := s.state) (h.2 h1)
  · rw [if_neg h1]
    exact agrees_plain (hc _)

theorem agrees_pos {s : Seen} (h : Agrees s) (hs : s.1 ∈ SNStep.statesCO) : 0 < s.2 := by
  simp only [SNStep.statesCO, List.mem_cons, List.not_mem_nil, or_false] at hs
  rcases hs with e | e | e
  · linarith [h.2.1 e]
  · linarith [(h.1 e).1]
  · exact h.2.2.1 e

/-- `update_star_states` makes kind and mass agree for every compact object with a positive mass, whatever kind it had. -/
theorem C149_update (c : SNStep.Cfg) (hc : ∀ s, Plain (c.classify s)) (s : SNStep.Star) (h : s.state ∈ SNStep.statesCO) (hm : 0 < s.mass) :
    Agrees (ofSN (SNStep.updateState c s)) := by
  refine update_agrees c hc s ⟨fun e => ?_, fun _ => hm⟩
  rw [e] at h
  exact absurd h (by decide)

/-- After a supernova the kind of the remnant agrees with its mass, with no hypothesis on the star before, and that of the other star still does. -/
theorem C149_supernova (c : SNStep.Cfg) (b b' : SNStep.Binary) (hc : ∀ s, Plain (c.classify s)) (h : SNStep.step c b = .ok b') :
    Agrees (ofSN (b'.star b.event)) ∧ (Agrees (ofSN (b.mate b.event)) → Agrees (ofSN (b'.mate b.event))) := by
  obtain ⟨-, s, hs, h1, h2⟩ := SNStep.step_collapse h
  have key : ∀ {x y : SNStep.Star}, SNStep.Same x y → ofSN y = ofSN x := by
    intro x y hxy
    unfold ofSN
    rw [hxy.state, hxy.mass]
  rw [key h1, key h2]
  constructor
  · refine update_agrees c hc s ⟨?_, ?_⟩
    · intro e
      rcases SNStep.collapse_kind hs with h | h
      · exact le_of_eq h.2
      · rw [e] at h; exact absurd h.1 (by decide)
    · intro e
      rcases SNStep.collapse_kind hs with h | h
      · rw [h.1] at e; exact absurd e (by decide)
      · exact h.2
  · intro ha
    have ha' : Agrees (ofSN (SNStep.resetOther (b.mate b.event))) := ha
    exact update_agrees c hc _ ⟨ha'.2.2.2, agrees_pos ha'⟩

/-- The collapse itself calls 2.5 solar masses a black hole; if that is what it leaves, the same step then calls it a neutron star. -/
theorem C149_limit (c : SNStep.Cfg) (b b' : SNStep.Binary) (s : SNStep.Star) (h : SNStep.step c b = .ok b')
    (hs : SNStep.collapse c (b.star b.event) = .ok s) (hl : (b.star b.event).lastState ≠ "WD") (hk : s.state = "BH") (hm : s.mass = 5 / 2) :
    (b'.star b.event).state = "NS" ∧ SN.stateByMass (5 / 2) s.mass = .BH := by
  refine ⟨(SNStep.C34_state_overwritten_violated c b b' s h hs hl (.inr hk)).2.1 (by rw [hm]; norm_num) (by rw [hm]), ?_⟩
  rw [hm]
  unfold SN.stateByMass
  norm_num

/-! ### Grid steps -/

/-- After a grid step, other than one interpolated with the class `initial_MT`, kind and mass of a compact object agree, whatever they were before. -/
theorem C149_grid (r : Read) (last : String) (s s' : CO) (m : ℝ) (hr : r ≠ .interp "initial_MT") (h : gridCO r last s m = .ok s') :
    Agrees (s'.state, s'.mass) ∧ s'.mass = m := by
  unfold gridCO at h
  cases hx : SNStep.coRadius m (byMass (some m)) with
  | error e => rw [hx] at h; cases h
  | ok x =>
    rw [hx] at h
    cases h
    dsimp only
    rw [if_neg hr]
    refine ⟨check_agrees ?_, rfl⟩
    by_contra hm
    unfold SNStep.coRadius at hx
    rw [if_pos (not_lt.1 hm)] at hx
    cases hx

/-- The radius is that of the kind, unless the object is a white dwarf of at least 1.1 solar masses or the class is `initial_MT`. -/
theorem C149_radius_partial (r : Read) (last : String) (s s' : CO) (m : ℝ) (hr : r ≠ .interp "initial_MT") (h : gridCO r last s m = .ok s')
    (hw : s'.state = "WD" → m < 11 / 10) : ∃ x, SNStep.coRadius s'.mass s'.state = .ok x ∧ s'.logR = Orbit.lg x := by
  unfold gridCO at h
  cases hx : SNStep.coRadius m (byMass (some m)) with
  | error e => rw [hx] at h; cases h
  | ok x =>
    have hm : 0 < m := by
      by_contra hm
      unfold SNStep.coRadius at hx
      rw [if_pos (not_lt.1 hm)] at hx
      cases hx
    rw [hx] at h
    cases h
    dsimp only at hw ⊢
    rw [if_neg hr] at hw ⊢
    refine ⟨x, ?_, rfl⟩
    unfold checkCO at hw ⊢
    by_cases hd : last = "WD" ∨ s.state = "WD"
    · rw [if_pos hd] at hw ⊢
      have h1 := hw rfl
      have : byMass (some m) = "WD" := by
        show SNStep.coState _ = _
        unfold SNStep.coState
        rw [if_neg (not_le.2 hm), if_pos h1]
      rw [← this]
      exact hx
    · rw [if_neg hd]
      exact hx

/-- A white dwarf of 1.2 solar masses leaves a grid step as a white dwarf with the radius of a neutron star. -/
theorem C149_radius_violated (last : String) (s : CO) (hs : s.state = "WD") (r : Read) : ∃ s', gridCO r last s 1.2 = .ok s' ∧ s'.state = "WD" ∧
    s'.logR = Orbit.lg (12.5e5 / Orbit.Rsun) ∧ SNStep.coRadius 1.2 "WD" = .ok (2.9e8 * (1.2 : ℝ) ^ (-(1 : ℝ) / 3) / Orbit.Rsun) := by
  have e1 : byMass (some (1.2 : ℝ)) = "NS" := by
    show SNStep.coState _ = _
    unfold SNStep.coState
    rw [if_neg (by norm_num), if_neg (by norm_num), if_pos (by norm_num)]
  have e2 : SNStep.coRadius 1.2 (byMass (some 1.2)) = .ok (12.5e5 / Orbit.Rsun) := by
    rw [e1]
    unfold SNStep.coRadius
    rw [if_neg (by norm_num), if_neg (by decide), if_pos rfl]
  refine ⟨_, by unfold gridCO; rw [e2], ?_, rfl, ?_⟩
  · dsimp only
    split
    · exact hs
    · unfold checkCO; rw [if_pos (.inr hs)]
  · unfold SNStep.coRadius
    rw [if_neg (by norm_num), if_neg (by decide), if_neg (by decide), if_pos rfl]

/-- A white dwarf that accretes to any mass stays a white dwarf: the limit of 1.46 is not kept by a grid step. -/
theorem C149_dwarf_violated : ∃ (s s' : CO), Agrees (s.state, s.mass) ∧ DwarfOk (s.state, s.mass) ∧ gridCO .track "WD" s 3 = .ok s' ∧
    s'.state = "WD" ∧ ¬ DwarfOk (s'.state, s'.mass) ∧ byMass (some s'.mass) = "BH" := by
  have e1 : byMass (some (3 : ℝ)) = "BH" := by
    show SNStep.coState _ = _
    unfold SNStep.coState
    rw [if_neg (by norm_num), if_neg (by norm_num), if_neg (by norm_num)]
  have e2 : SNStep.coRadius 3 (byMass (some 3)) = .ok (SNStep.schwarzschild 3) := by
    rw [e1]
    unfold SNStep.coRadius
    rw [if_neg (by norm_num), if_pos rfl]
  refine ⟨⟨"WD", 1, 0⟩, _, ?_, ?_, by unfold gridCO; rw [e2], ?_, ?_, e1⟩
  · unfold Agrees; simp
  · intro _; norm_num
  · simp [checkCO]
  · unfold DwarfOk
    simp [checkCO]
    norm_num

/-- With the class `initial_MT` the state is kept although the mass is that of the grid: a neutron star of 2.4 solar masses that the grid says has
2.6 stays a neutron star, with the radius of a black hole. -/
theorem C149_initial_MT_violated : ∃ (s s' : CO), Agrees (s.state, s.mass) ∧ gridCO (.interp "initial_MT") "NS" s 2.6 = .ok s' ∧
    s'.state = "NS" ∧ s'.mass = 2.6 ∧ ¬ Agrees (s'.state, s'.mass) ∧ s'.logR = Orbit.lg (SNStep.schwarzschild 2.6) := by
  have e1 : byMass (some (2.6 : ℝ)) = "BH" := by
    show SNStep.coState _ = _
    unfold SNStep.coState
    rw [if_neg (by norm_num), if_neg (by norm_num), if_neg (by norm_num)]
  have e2 : SNStep.coRadius 2.6 (byMass (some 2.6)) = .ok (SNStep.schwarzschild 2.6) := by
    rw [e1]
    unfold SNStep.coRadius
    rw [if_neg (by norm_num), if_pos rfl]
  refine ⟨⟨"NS", 2.4, 0⟩, _, ?_, by unfold gridCO; rw [e2], ?_, rfl, ?_, rfl⟩
  · unfold Agrees; simp; norm_num
  · dsimp only; rw [if_pos rfl]
  · dsimp only
    rw [if_pos rfl]
    unfold Agrees
    simp
    norm_num

/-! ### New compact objects -/

/-- A compact object is created with the kind its mass and abundances give, and this agrees with the mass. -/
theorem C149_create (state : String) (rich : Bool) (m : ℝ) (s : CO) (h : create state rich m = .ok s) :
    Agrees (s.state, s.mass) ∧ DwarfOk (s.state, s.mass) ∧ s.mass = m ∧ (s.state = "WD" ∨ s.state = "NS" ∨ s.state = "BH") := by
  unfold create at h
  cases hx : SNStep.coRadius m state with
  | error e => rw [hx] at h; cases h
  | ok x =>
    have hm : 0 < m := by
      by_contra hm
      unfold SNStep.coRadius at hx
      rw [if_pos (not_lt.1 hm)] at hx
      cases hx
    rw [hx] at h
    cases h
    dsimp only
    unfold inferRich Agrees DwarfOk
    dsimp only
    rw [if_neg (not_le.2 hm)]
    by_cases h1 : (rich = true ∨ m < 11 / 10) ∧ m ≤ 1.46
    · rw [if_pos h1]; simp [hm, h1.2]
    rw [if_neg h1]
    by_cases h2 : m ≤ 5 / 2
    · rw [if_pos h2]
      have : 11 / 10 ≤ m := by
        by_contra h3
        exact h1 ⟨.inr (not_le.1 h3), by linarith [not_le.1 h3, (by norm_num : (11 / 10 : ℝ) ≤ 1.46)]⟩
      simp [h2, this]
    · rw [if_neg h2]; simp [not_le.1 h2]

/-- The radius of a new object is that of the kind it was given, not of the one it gets: a "BH" of 2 solar masses is a neutron star with the
radius of a black hole. -/
theorem C149_create_radius_violated : ∃ s, create "BH" false 2 = .ok s ∧ s.state = "NS" ∧ s.logR = Orbit.lg (SNStep.schwarzschild 2) := by
  have e : SNStep.coRadius 2 "BH" = .ok (SNStep.schwarzschild 2) := by
    unfold SNStep.coRadius
    rw [if_neg (by norm_num), if_pos rfl]
  refine ⟨_, by unfold create; rw [e], ?_, rfl⟩
  dsimp only
  unfold inferRich
  dsimp only
  rw [if_neg (by norm_num), if_neg (by norm_num), if_pos (by norm_num)]

/-! ### The common envelope -/

/-- A star after a common envelope: not a compact object before and after, or with the same kind, mass and other properties as before. -/
def Kept (s s' : CE.Star) : Prop :=
  (isNormal s.state = true ∧ isNormal s'.state = true) ∨ (s'.state = s.state ∧ s'.mass = s.mass ∧ s'.rest = s.rest)

theorem run_kept {c : CE.Cfg} (hc : ∀ s, isNormal (c.classify s) = true) (hl : c.massLoss = false) {one double : Bool} {b b' : CE.Binary}
    {donor comp : CE.Star} (hb : donor = (if one then b.star1 else b.star2) ∧ comp = (if one then b.star2 else b.star1))
    (h : CE.run c one double b donor comp = .ok b') : Kept b.star1 b'.star1 ∧ Kept b.star2 b'.star2 := by
  have fin : ∀ d' c' : CE.Star, ∀ b0 : CE.Binary, Kept donor d' → Kept comp c' →
      Kept b.star1 (CE.assemble one b0 d' c').star1 ∧ Kept b.star2 (CE.assemble one b0 d' c').star2 := by
    intro d' c' b0 h1 h2
    rw [hb.1] at h1
    rw [hb.2] at h2
    unfold CE.assemble
    cases one
    · exact ⟨h2, h1⟩
    · exact ⟨h1, h2⟩
  have strip : ∀ (ty : CE.CoreType) (m r : ℝ) (s : CE.Star), isNormal s.state = true →
      isNormal (CE.stripped c ty m r s).state = true := by
    intro ty m r s hs
    exact Life.rank_normal.1 ((Life.stripped_rank hc _ _ _ _ hs).trans (Life.rank_normal.2 hs))
  unfold CE.run at h
  split at h
  · obtain rfl := Except.ok.inj h
    exact ⟨.inr ⟨rfl, rfl, rfl⟩, .inr ⟨rfl, rfl, rfl⟩⟩
  · split at h
    · cases h1 : CE.lambdaCE c donor with
      | error e => rw [h1] at h; cases h
      | ok l1 =>
        rw [h1] at h
        dsimp only at h
        cases h2 : CE.compLam c comp double with
        | error e => rw [h2] at h; cases h
        | ok l2 =>
          rw [h2] at h
          dsimp only at h
          have hd := Life.lambda_normal h1
          unfold CE.simpleAlpha at h
          dsimp only at h
          split at h
          · cases h
          · cases h3 : CE.companion c comp l1 l2 double (CE.sepAfter c b donor comp l1 l2 double / Orbit.Rsun) with
            | error e => rw [h3] at h; cases h
            | ok v =>
              obtain ⟨comp', rc2⟩ := v
              rw [h3] at h
              dsimp only at h
              have hcs : comp'.state = comp.state ∧ comp'.mass = comp.mass ∧ comp'.rest = comp.rest := by
                unfold CE.companion at h3
                split at h3
                · split at h3
                  · have := (Prod.mk.inj (Except.ok.inj h3)).1
                    rw [← this]
                    exact ⟨rfl, rfl, rfl⟩
                  · cases h3
                · have := (Prod.mk.inj (Except.ok.inj h3)).1
                  rw [← this]
                  exact ⟨rfl, rfl, rfl⟩
              cases h4 : CE.phase c donor comp' l1 l2 rc2 double (CE.sepAfter c b donor comp l1 l2 double / Orbit.Rsun) with
              | error e => rw [h4] at h; cases h
              | ok p =>
                rw [h4] at h
                dsimp only at h
                unfold CE.resolve at h
                split at h
                · rw [if_neg (by rw [hl]; simp)] at h
                  obtain rfl := Except.ok.inj h
                  unfold CE.merge
                  refine fin _ _ _ (.inl ⟨hd, by rw [Life.reduce_state]; exact hd⟩) (.inr ⟨by rw [Life.reduce_state, hcs.1], ?_⟩)
                  rw [← hcs.2.1, ← hcs.2.2]
                  unfold CE.reduce
                  dsimp only
                  split_ifs <;> simp
                · obtain rfl := Except.ok.inj h
                  unfold CE.ejection
                  dsimp only
                  refine fin _ _ _ (.inl ⟨hd, strip _ _ _ _ hd⟩) ?_
                  cases double with
                  | false => exact .inr hcs
                  | true =>
                    have hn : isNormal comp.state = true := by
                      unfold CE.compLam at h2
                      rw [if_pos rfl] at h2
                      exact Life.lambda_normal h2
                    rw [if_pos rfl]
                    exact .inl ⟨hn, strip _ _ _ _ (by rw [hcs.1]; exact hn)⟩
    · cases h

/-- A common envelope leaves a compact object as it is: kind, mass and other properties. -/
theorem C149_common_envelope (cfg : CE.Cfg) (b b' : CE.Binary) (h : CE.step cfg b = .ok b') (hc : ∀ s, isNormal (cfg.classify s) = true)
    (hl : cfg.massLoss = false) : Kept b.star1 b'.star1 ∧ Kept b.star2 b'.star2 := by
  unfold CE.step at h
  split at h
  · exact run_kept hc hl ⟨rfl, rfl⟩ h
  · exact run_kept hc hl ⟨rfl, rfl⟩ h
  · exact run_kept hc hl ⟨rfl, rfl⟩ h
  · exact run_kept hc hl ⟨rfl, rfl⟩ h
  · cases h

theorem kept_agrees {s s' : CE.Star} (h : Kept s s') (ha : Agrees (ofCE s)) : Agrees (ofCE s') := by
  rcases h with h | ⟨h1, h2, -⟩
  · exact agrees_plain (name_plain h.2)
  · unfold ofCE
    rw [h1, h2]
    exact ha

/-! ### The merger -/

theorem ofState_normal (rnd : ℚ → ℚ) (rel : ℚ) (i : StarState.Inputs) (s : FlowChart.Star)
    (h : Merged.ofState (StarState.inferNormal rnd rel i) = some s) : isNormal s = true := by
  unfold StarState.inferNormal at h
  cases hsf : i.surfaceH with
  | none => rw [hsf] at h; simp [Merged.ofState] at h
  | some sf =>
    rw [hsf] at h
    dsimp only at h
    generalize (if sf > 1 / 100 then StarState.Rich.Hrich
      else if StarState.lt (some (rnd sf)) (i.centerH.map rnd) = true then StarState.Rich.accreted else StarState.Rich.stripped) = rich at h
    generalize (if (!(StarState.gt i.centerH (1 / 100) || StarState.gt i.centerHe (1 / 100))) = true then
      if (!StarState.gt i.centerC (1 / 100)) = true then StarState.Burning.coreCDep else StarState.Burning.coreHeDep
      else if StarState.gt i.centerH (1 / 100) = true then
        if StarState.burns rel i.logLH i.logLnuc = true then StarState.Burning.coreH else StarState.Burning.nonBurning
      else if StarState.burns rel i.logLHe i.logLnuc = true then StarState.Burning.coreHe
        else if StarState.burns rel i.logLH i.logLnuc = true then StarState.Burning.shellH else StarState.Burning.nonBurning) = burning at h
    revert h
    cases rich <;> cases burning <;> simp [Merged.ofState] <;> rintro rfl <;> decide

theorem settle_state {cfg : Merged.Cfg} {q p : Merged.Star} {s : FlowChart.Star} (h : Merged.settle cfg q = .ok p) (hs : p.state = some s) :
    isNormal s = true := by
  unfold Merged.settle at h
  cases hc : Merged.classify cfg (Merged.applyNan [] q) with
  | error e => rw [hc] at h; cases h
  | ok st =>
    rw [hc] at h
    obtain rfl := Except.ok.inj h
    dsimp only at hs
    subst hs
    unfold Merged.classify at hc
    split at hc
    · cases hc
    · exact ofState_normal _ _ _ _ (Except.ok.inj hc)

/-- The product of a merger is not a compact object. -/
theorem product_state {cfg : Merged.Cfg} {base comp p : Merged.Star} {b : Merged.Branch} {s : FlowChart.Star}
    (hb : Merged.branch base.state comp.state = some b) (hn : b ≠ .nsbh) (hp : Merged.product cfg base comp b = .ok p) (hs : p.state = some s) :
    isNormal s = true := by
  have t : ∀ (x : Except Merged.Err Merged.Star) (f : Merged.Star → Except Merged.Err Merged.Star), Merged.bindE x f = .ok p → ∃ q, f q = .ok p := by
    intro x f hx
    obtain ⟨q, -, hq⟩ := Merged.bindE_ok hx
    exact ⟨q, hq⟩
  by_cases hh : b = .hmsHms
  · subst hh
    rw [(Merged.hmsHms_spec hp).2.2.1] at hs
    rw [hs] at hb
    have : s = .hCoreH := by
      revert hb
      cases hcs : comp.state with
      | none => cases s <;> decide
      | some c => cases s <;> cases c <;> decide
    rw [this]
    rfl
  have key : ∃ q, Merged.settle cfg q = .ok p := by
    cases b with
    | hmsHms => exact absurd rfl hh
    | nsbh => exact absurd rfl hn
    | postHms => obtain ⟨q, hq⟩ := t _ _ hp; exact t _ _ hq
    | hmsPost => obtain ⟨q, hq⟩ := t _ _ hp; exact t _ _ hq
    | postPost => obtain ⟨q, hq⟩ := t _ _ hp; obtain ⟨q, hq⟩ := t _ _ hq; exact t _ _ hq
    | postHeMS => obtain ⟨q, hq⟩ := t _ _ hp; exact t _ _ hq
    | heMSPost => obtain ⟨q, hq⟩ := t _ _ hp; exact t _ _ hq
    | postPostHe => obtain ⟨q, hq⟩ := t _ _ hp; exact t _ _ hq
    | postHePost => obtain ⟨q, hq⟩ := t _ _ hp; exact t _ _ hq
    | heHe => obtain ⟨q, hq⟩ := t _ _ hp; obtain ⟨q, hq⟩ := t _ _ hq; exact t _ _ hq
    | wd => obtain ⟨q, hq⟩ := t _ _ hp; exact t _ _ hq
  obtain ⟨q, hq⟩ := key
  exact settle_state hq hs

theorem merge_agrees {cfg : Merged.Cfg} {base comp : Merged.Star} {v : Merged.Star × Merged.Star} {y x' y' : Seen}
    (h : Merged.merge cfg base comp = .ok v) (hy : IsSeen comp y) (hx' : IsSeen v.1 x') (hy' : IsSeen v.2 y') (ha : Agrees y) :
    Agrees x' ∧ Agrees y' := by
  have hml : ∀ (s : Merged.Star) (z : Seen), IsSeen (Merged.massless s) z → Agrees z := by
    rintro s z ⟨q, hq, rfl⟩
    have e : (Merged.massless s).get "mass" = .num 0 := rfl
    rw [e] at hq
    cases hq
    show Agrees ("massless_remnant", _)
    unfold Agrees
    simp
  cases hb : Merged.branch base.state comp.state with
  | none =>
    unfold Merged.merge at h
    rw [hb] at h
    cases h
  | some b =>
    by_cases hn : b = .nsbh
    · subst hn
      unfold Merged.merge at h
      rw [hb] at h
      cases h
      refine ⟨hml _ _ hx', ?_⟩
      obtain ⟨q, hq, rfl⟩ := hy
      obtain ⟨q', hq', rfl⟩ := hy'
      dsimp only at hq'
      rw [hq] at hq'
      cases hq'
      exact ha
    · obtain ⟨p, hp, e1, e2⟩ := Merged.merge_ok (m := v.1) (r := v.2) hb hn h
      rw [e2] at hy'
      refine ⟨?_, hml _ _ hy'⟩
      obtain ⟨q, hq, rfl⟩ := hx'
      have es : v.1.state = p.state := by rw [e1]; rfl
      cases hps : p.state with
      | none =>
        rw [es, hps]
        exact agrees_plain (by unfold Plain stateName; decide)
      | some s =>
        rw [es, hps]
        exact agrees_plain (name_plain (product_state hb hn hp hps))

/-- After a merger the kinds agree with the masses: a neutron star or black hole keeps both, a white dwarf is absorbed. -/
theorem C149_merger (cfg : Merged.Cfg) (b b' : Merged.Binary) (x y x' y' : Seen) (h : Merged.call cfg b = .ok b') (hx : IsSeen b.star1 x)
    (hy : IsSeen b.star2 y) (hx' : IsSeen b'.star1 x') (hy' : IsSeen b'.star2 y') (h1 : Agrees x) (h2 : Agrees y) : Agrees x' ∧ Agrees y' := by
  have one : ∀ b0 : Merged.Binary, b0.star1 = b.star1 → b0.star2 = b.star2 → Merged.mergeOne cfg b0 = .ok b' → Agrees x' ∧ Agrees y' := by
    intro b0 e1 e2 h
    unfold Merged.mergeOne at h
    rw [e1, e2] at h
    split at h
    · cases h
    · rename_i v hv
      cases h
      exact merge_agrees hv hy hx' hy' h2
  have two : ∀ b0 : Merged.Binary, b0.star1 = b.star1 → b0.star2 = b.star2 → Merged.mergeTwo cfg b0 = .ok b' → Agrees x' ∧ Agrees y' := by
    intro b0 e1 e2 h
    unfold Merged.mergeTwo at h
    rw [e1, e2] at h
    split at h
    · cases h
    · rename_i v hv
      cases h
      exact (merge_agrees hv hx hy' hx' h1).symm
  unfold Merged.call at h
  split at h
  · split at h
    · exact one _ rfl rfl h
    · split at h
      · exact two _ rfl rfl h
      · cases h
  · split at h
    · split at h
      · exact one _ (by rfl) (by rfl) h
      · split at h
        · exact two _ (by rfl) (by rfl) h
        · cases h
    · cases h

/-! ### All steps -/

theorem grid_agrees {x x' : Seen} (h : GridStar x x') : Agrees x' := by
  cases h with
  | plain s s' m m' h h' => exact agrees_plain h'
  | compact r last s s' m hr h => exact (C149_grid r last s s' m hr h).1

theorem det_agrees {x x' : Seen} (h : DetStar x x') (ha : Agrees x) : Agrees x' := by
  cases h with
  | plain s s' m m' h h' => exact agrees_plain h'
  | same s => exact ha

/-- Every step keeps the kinds of both stars in agreement with their masses. -/
theorem C149_step {p q : Seen × Seen} (h : Step p q) (h1 : Agrees p.1) (h2 : Agrees p.2) : Agrees q.1 ∧ Agrees q.2 := by
  cases h with
  | ce cfg b b' h hc hl =>
    obtain ⟨k1, k2⟩ := C149_common_envelope cfg b b' h hc hl
    exact ⟨kept_agrees k1 h1, kept_agrees k2 h2⟩
  | sn c b b' h hc =>
    obtain ⟨k1, k2⟩ := C149_supernova c b b' hc h
    obtain ⟨he, -⟩ := SNStep.step_collapse h
    rcases he with he | he
    · rw [he] at k1 k2
      exact ⟨k1, k2 h2⟩
    · rw [he] at k1 k2
      exact ⟨k2 h1, k1⟩
  | merged cfg b b' x y x' y' h hx hy hx' hy' => exact C149_merger cfg b b' x y x' y' h hx hy hx' hy' h1 h2
  | grid x y x' y' g1 g2 => exact ⟨grid_agrees g1, grid_agrees g2⟩
  | detached x y x' y' g1 g2 => exact ⟨det_agrees g1 h1, det_agrees g2 h2⟩
  | compact x y => exact ⟨h1, h2⟩
  | update c s1 s2 hc => exact ⟨update_agrees c hc s1 ⟨h1.2.2.2, agrees_pos h1⟩, update_agrees c hc s2 ⟨h2.2.2.2, agrees_pos h2⟩⟩

/-- Through a whole evolution, with any number of steps in any order: if the kinds agree with the masses at the start they do at the end. -/
theorem C149_evolution_partial {p q : Seen × Seen} (h : Relation.ReflTransGen Step p q) (h1 : Agrees p.1) (h2 : Agrees p.2) :
    Agrees q.1 ∧ Agrees q.2 := by
  induction h with
  | refl => exact ⟨h1, h2⟩
  | tail _ hs ih => exact C149_step hs ih.1 ih.2

/-- Two stars that are not compact objects at the start. -/
theorem C149_from_stars_partial {p q : Seen × Seen} (h : Relation.ReflTransGen Step p q) (h1 : Plain p.1.1) (h2 : Plain p.2.1) :
    Agrees q.1 ∧ Agrees q.2 :=
  C149_evolution_partial h (agrees_plain h1) (agrees_plain h2)

/-- A neutron star of 2.4 solar masses accretes on a grid to 2.6, becoming a black hole, and stays one while its companion evolves. -/
example : ∃ q, Relation.ReflTransGen Step (("NS", 2.4), ("H-rich_Core_H_burning", 5)) q ∧ q.1 = ("BH", (2.6 : ℝ)) ∧
    q.2 = ("H-rich_Core_He_burning", (4.5 : ℝ)) ∧ Agrees (("NS", (2.4 : ℝ))) ∧ ¬ Agrees (("NS", (2.6 : ℝ))) := by
  have e1 : byMass (some (2.6 : ℝ)) = "BH" := by
    show SNStep.coState _ = _
    unfold SNStep.coState
    rw [if_neg (by norm_num), if_neg (by norm_num), if_neg (by norm_num)]
  have e2 : SNStep.coRadius 2.6 (byMass (some 2.6)) = .ok (SNStep.schwarzschild 2.6) := by
    rw [e1]
    unfold SNStep.coRadius
    rw [if_neg (by norm_num), if_pos rfl]
  have g : gridCO .track "NS" ⟨"NS", 2.4, 0⟩ 2.6 = .ok ⟨"BH", 2.6, Orbit.lg (SNStep.schwarzschild 2.6)⟩ := by
    unfold gridCO
    rw [e2]
    dsimp only
    rw [if_neg (by decide)]
    unfold checkCO
    rw [if_neg (by decide), e1]
  refine ⟨(("BH", 2.6), ("H-rich_Core_He_burning", 4.5)), ?_, rfl, rfl, ?_, ?_⟩
  · refine Relation.ReflTransGen.tail (b := (("BH", 2.6), ("H-rich_Core_H_burning", 4.8))) (Relation.ReflTransGen.single ?_) ?_
    · exact .grid _ _ _ _ (.compact .track "NS" ⟨"NS", 2.4, 0⟩ _ 2.6 (by decide) g) (.plain _ _ _ _ (by unfold Plain; decide) (by unfold Plain; decide))
    · exact .detached _ _ _ _ (.same _) (.plain _ _ _ _ (by unfold Plain; decide) (by unfold Plain; decide))
  · unfold Agrees; simp; norm_num
  · unfold Agrees; simp; norm_num

end Verif.Kinds
