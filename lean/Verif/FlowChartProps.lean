import Verif.FlowChartTable
/-!
Property theorems for the flow chart: C01 (routing), C02 (symmetry), C03 (user changes).
-/
namespace Verif.FlowChart

/-! ### C01 -/

/-- C01.  The default chart is exactly the documented priority list of routing rules. -/
theorem C01_routing (k : Key) : defaultChart k = routeSpec k := defaultChart_eq_routeSpec k

/-- C01.  Every step is only ever handed binaries it can treat, and no total state declared
"undefined" has an entry. -/
theorem C01_step_receives_what_it_needs (k : Key) (st : Step) (h : defaultChart k = some st) :
    stepNeeds k st = true ∧ undefinedStates k = false := by
  have := of_allKeys needs_check k
  rw [show runLoops defaultLoops (fun _ => none) k = some st from h] at this
  simpa using this

/-- C01.  The evolution is ended for every binary that ran out of time or whose compact objects
touched, whatever the stars are. -/
theorem C01_terminal_events_end (s1 s2 : Star) (b : BState) (e : Ev)
    (he : e = .maxtime ∨ e = .MaxTimeExceeded ∨ e = .COcontact) :
    defaultChart ⟨s1, s2, b, e⟩ = some .endStep := by
  rw [C01_routing]
  rcases he with rfl | rfl | rfl <;> simp [routeSpec]

/-- C01.  A pair with a massless remnant and nothing left to evolve is ended in every state. -/
theorem C01_dead_pairs_end (s1 s2 : Star) (b : BState) (e : Ev)
    (h1 : s1 = .massless ∨ s1 ∈ [Star.BH, .NS, .WD]) (h2 : s2 = .massless ∨ s2 ∈ [Star.BH, .NS, .WD])
    (h : s1 = .massless ∨ s2 = .massless) :
    defaultChart ⟨s1, s2, b, e⟩ = some .endStep := by
  have hd : isDead s1 s2 = true := by
    have c : ∀ s : Star, s = .massless ∨ s ∈ [Star.BH, .NS, .WD] →
        (s == .massless || isCO s) = true := by
      intro s hs
      rcases hs with rfl | hs
      · rfl
      · simp only [List.mem_cons, List.not_mem_nil, or_false] at hs
        rcases hs with rfl | rfl | rfl <;> rfl
    rw [isDead, c s1 h1, c s2 h2]
    rcases h with rfl | rfl <;> simp
  rw [C01_routing]
  simp [routeSpec, hd]

/-- C01.  A star flagged for core collapse, in a state from which a star can collapse, is sent to the
supernova step; the only exception is a binary that already filled its Roche lobe at birth. -/
theorem C01_collapse_goes_to_SN (s1 s2 : Star) (b : BState) (e : Ev) (hb : b ≠ .initialRLOF)
    (h : (e = .CC1 ∧ canCollapse s1 = true) ∨ (e = .CC2 ∧ canCollapse s2 = true)) :
    defaultChart ⟨s1, s2, b, e⟩ = some .SN := by
  rw [C01_routing]
  rcases h with ⟨rfl, h⟩ | ⟨rfl, h⟩
  · have h1 : isCO s1 = false := by revert h; cases s1 <;> decide
    have h2 : (s1 == .massless) = false := by revert h; cases s1 <;> decide
    cases b <;> simp_all [routeSpec, isDead]
  · have h1 : isCO s2 = false := by revert h; cases s2 <;> decide
    have h2 : (s2 == .massless) = false := by revert h; cases s2 <;> decide
    cases b <;> simp_all [routeSpec, isDead]

/-- C01.  Detached binaries without an event always continue, unless one star is a massless remnant
next to a star, or a carbon-exhausted stripped star / helium-burning accretor orbits a compact
object. -/
theorem C01_detached_none_total (s1 s2 : Star) (h1 : s1 ≠ .massless) (h2 : s2 ≠ .massless)
    (hs1 : isCO s2 = true → s1 ≠ .sCoreCDep) (hs2 : isCO s1 = true → s2 ≠ .sCoreCDep) :
    ∃ st, defaultChart ⟨s1, s2, .detached, .none⟩ = some st := by
  rw [C01_routing]
  revert h1 h2 hs1 hs2
  cases s1 <;> cases s2 <;> simp [routeSpec, isDead, isCO, isNormal, coDetached, isHeRich, isHRich, isCDepleted]

example : defaultChart ⟨.hCoreH, .hCoreH, .detached, .ZAMS⟩ = some .HMS_HMS := by
  rw [C01_routing]; rfl
example : defaultChart ⟨.BH, .sCoreHe, .detached, .none⟩ = some .CO_HeMS := by rw [C01_routing]; rfl
/-- The hypotheses of `C01_collapse_goes_to_SN` and `C01_detached_none_total` are met. -/
example : canCollapse .sCoreCDep = true ∧ BState.RLO2 ≠ .initialRLOF := by decide
/-- The excluded case of `C01_detached_none_total` really has no successor. -/
example : defaultChart ⟨.BH, .sCoreCDep, .detached, .none⟩ = none := by rw [C01_routing]; rfl

/-! ### C02 -/

/-- C02.  Apart from contact binaries of a star and a compact object or massless remnant, relabelling
the two stars does not change the step. -/
theorem C02_mirror_partial (k : Key)
    (h : k.b = .contact → isNormal k.s1 = isNormal k.s2) :
    defaultChart k.mirror = defaultChart k := by
  have hc := of_allMirror mirror_check k
  simp only [Bool.or_eq_true, beq_iff_eq, Bool.and_eq_true, bne_iff_ne, ne_eq] at hc
  rcases hc with hc | ⟨hb, hn⟩
  · exact hc.symm
  · exact absurd (h hb) hn

/-- C02 is false in full: a contact binary entering a common envelope is routed only if star 2 is the
non-compact star. -/
theorem C02_mirror_violated :
    defaultChart ⟨.NS, .hShellH, .contact, .oCE2⟩ = some .CE ∧
    defaultChart (Key.mirror ⟨.NS, .hShellH, .contact, .oCE2⟩) = none := by
  rw [C01_routing, C01_routing]; exact ⟨rfl, rfl⟩

/-- Exactly which keys break the symmetry. -/
theorem C02_asymmetric_keys (k : Key) (h : defaultChart k.mirror ≠ defaultChart k) :
    k.b = .contact ∧ k.e ∈ [Ev.oCE1, .oCE2, .oDoubleCE1, .oDoubleCE2] ∧ isNormal k.s1 ≠ isNormal k.s2 := by
  have hb : k.b = .contact ∧ isNormal k.s1 ≠ isNormal k.s2 := by
    refine Decidable.byContradiction fun hc => h (C02_mirror_partial k fun hb => ?_)
    exact Decidable.byContradiction fun hn => hc ⟨hb, hn⟩
  refine ⟨hb.1, ?_, hb.2⟩
  obtain ⟨s1, s2, b, e⟩ := k
  obtain ⟨rfl, hn⟩ := hb
  have hd : isDead s2 s1 = isDead s1 s2 := by cases s1 <;> cases s2 <;> rfl
  rw [C01_routing, C01_routing] at h
  cases e <;> simp [Key.mirror, BState.mirror, Ev.mirror, routeSpec, hd] at h ⊢ <;> exact h rfl

example : Key.mirror ⟨.NS, .hShellH, .RLO2, .oRLO2⟩ = ⟨.hShellH, .NS, .RLO1, .oRLO1⟩ ∧
    defaultChart ⟨.hShellH, .NS, .RLO1, .oRLO1⟩ = some .CO_HMS_RLO := by
  rw [C01_routing]; exact ⟨rfl, rfl⟩

/-! ### C03 -/

/-- C03.  A change for a key that exists is honoured; all other existing keys keep their step; no key
appears or disappears. -/
theorem C03_changes_partial (base : Option Chart) (ch : Chart) (k : Key) :
    let old := base.getD defaultChart
    let new := flowChart base (some ch)
    (∀ st, ch k = some st → old k ≠ none → new k = some st) ∧
    (ch k = none → new k = old k) ∧ (new k = none ↔ old k = none) := by
  simp only [flowChart]
  cases hc : ch k <;> cases ho : base.getD defaultChart k <;> simp

theorem C03_no_change (base : Chart) : flowChart (some base) none = base ∧
    flowChart none none = defaultChart := ⟨rfl, rfl⟩

/-- C03 is false in full: a change for a key that is missing from the chart (here the stripped
carbon-exhausted star next to a black hole, which has no default successor) is dropped. -/
theorem C03_new_keys_violated :
    let k : Key := ⟨.BH, .sCoreCDep, .detached, .none⟩
    let ch : Chart := fun k' => if k' = k then some .endStep else none
    ch k = some .endStep ∧ flowChart none (some ch) k = none := by
  have h : defaultChart ⟨.BH, .sCoreCDep, .detached, .none⟩ = none := by rw [C01_routing]; rfl
  simp [flowChart, h]

/-- C03.  The eccentric chart differs from the chart it was derived from only at birth of detached
binaries and at Roche-lobe overflow between two evolving stars. -/
theorem C03_eccentric_chart (base change : Option Chart) (k : Key) :
    let c := flowChart base change
    let n := initialEccentricityFlowChart base change
    n k = c k ∨
    (k.b = .detached ∧ k.e = .ZAMS ∧ c k ≠ none ∧ n k = some .detached) ∨
    (isNormal k.s1 = true ∧ isNormal k.s2 = true ∧ n k = some .HMS_HMS_RLO ∧
      ((k.b = .RLO1 ∧ k.e = .oRLO1) ∨ (k.b = .RLO2 ∧ k.e = .oRLO2))) := by
  have hnorm : ∀ s : Star, (starHRichEv ++ starHeRichEv).contains s = true → isNormal s = true := by
    intro s; cases s <;> decide
  obtain ⟨s1, s2, b, e⟩ := k
  simp only [initialEccentricityFlowChart, runLoops, List.foldl]
  by_cases h2 : (wr (starHRichEv ++ starHeRichEv) (starHRichEv ++ starHeRichEv) .RLO2 .oRLO2
      .HMS_HMS_RLO).writes ⟨s1, s2, b, e⟩ = true
  · have h := h2
    simp only [wr, Loop.writes, Bool.and_eq_true] at h
    obtain ⟨⟨⟨he, hb⟩, h1⟩, h3⟩ := h
    simp at he hb
    refine .inr (.inr ⟨hnorm _ h1, hnorm _ h3, ?_, .inr ⟨hb, he⟩⟩)
    rw [if_pos h2]; rfl
  · by_cases h1 : (wr (starHRichEv ++ starHeRichEv) (starHRichEv ++ starHeRichEv) .RLO1 .oRLO1
      .HMS_HMS_RLO).writes ⟨s1, s2, b, e⟩ = true
    · have h := h1
      simp only [wr, Loop.writes, Bool.and_eq_true] at h
      obtain ⟨⟨⟨he, hb⟩, h4⟩, h3⟩ := h
      simp at he hb
      refine .inr (.inr ⟨hnorm _ h4, hnorm _ h3, ?_, .inl ⟨hb, he⟩⟩)
      rw [if_neg h2, if_pos h1]; rfl
    · simp only [if_neg h2, if_neg h1]
      cases hc : flowChart base change ⟨s1, s2, b, e⟩ with
      | none => simp
      | some st =>
        by_cases h : e = .ZAMS ∧ b = .detached
        · obtain ⟨rfl, rfl⟩ := h; simp
        · left; simp only [beq_iff_eq, Bool.and_eq_true]; rw [if_neg h]

/-- C03.  The two edits of the eccentric chart really happen: every pair that a mesa grid can treat is
sent to `step_HMS_HMS_RLO`, every birth key to the detached step. -/
theorem C03_eccentric_edits (base change : Option Chart) :
    (∀ s1 s2, flowChart base change ⟨s1, s2, .detached, .ZAMS⟩ ≠ none →
      initialEccentricityFlowChart base change ⟨s1, s2, .detached, .ZAMS⟩ = some .detached) ∧
    (∀ s1 s2, isNormal s1 = true → isNormal s2 = true → isCDepleted s1 = false → isCDepleted s2 = false →
      initialEccentricityFlowChart base change ⟨s1, s2, .RLO1, .oRLO1⟩ = some .HMS_HMS_RLO ∧
      initialEccentricityFlowChart base change ⟨s1, s2, .RLO2, .oRLO2⟩ = some .HMS_HMS_RLO) := by
  constructor
  · intro s1 s2 h
    cases hc : flowChart base change ⟨s1, s2, .detached, .ZAMS⟩ with
    | none => exact absurd hc h
    | some st => simp [initialEccentricityFlowChart, runLoops, wr, Loop.writes, hc]
  · have hm : ∀ s : Star, isNormal s = true → isCDepleted s = false →
        (starHRichEv ++ starHeRichEv).contains s = true := by
      intro s; cases s <;> decide
    intro s1 s2 h1 h2 c1 c2
    have m1 := hm s1 h1 c1
    have m2 := hm s2 h2 c2
    simp only [initialEccentricityFlowChart, runLoops, List.foldl, wr, Loop.writes, m1, m2]
    simp

example : initialEccentricityFlowChart none none ⟨.hCoreH, .hShellH, .RLO2, .oRLO2⟩ =
    some .HMS_HMS_RLO := ((C03_eccentric_edits none none).2 _ _ rfl rfl rfl rfl).2

/-- C01.  A compact object beside a star burning hydrogen in its core whose core is to collapse: these states, bound or not, have no entry. -/
theorem C01_undefined (s : Star) (hs : s = .BH ∨ s = .NS ∨ s = .WD) (b : BState) (hb : b = .disrupted ∨ b = .detached) :
    undefinedStates ⟨s, .hCoreH, b, .CC2⟩ = true ∧ defaultChart ⟨s, .hCoreH, b, .CC2⟩ = none := by
  have h : undefinedStates ⟨s, .hCoreH, b, .CC2⟩ = true := by
    rcases hs with rfl | rfl | rfl <;> rcases hb with rfl | rfl <;> rfl
  refine ⟨h, ?_⟩
  cases hd : defaultChart ⟨s, .hCoreH, b, .CC2⟩ with
  | none => rfl
  | some st =>
    have := (C01_step_receives_what_it_needs _ st hd).2
    rw [h] at this
    cases this

end Verif.FlowChart
