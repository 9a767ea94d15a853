import Verif.Relabel
/-!
C148: exchanging the labels of the two stars exchanges them in the whole evolution and changes nothing else.
-/
namespace Verif.Relabel
open Verif.Evolve Verif.Py

theorem swapIn_other (l : List (String × String)) (s : String) (h : ∀ p ∈ l, s ≠ p.1 ∧ s ≠ p.2) : swapIn l s = s := by
  induction l with
  | nil => rfl
  | cons p l ih =>
    obtain ⟨x, y⟩ := p
    have := h (x, y) (by simp)
    rw [swapIn, if_neg this.1, if_neg this.2]
    exact ih fun q hq => h q (List.mem_cons_of_mem _ hq)

def names : List String := pairs.flatMap fun p => [p.1, p.2]

theorem swap_or (s : String) : s ∈ names ∨ swapText s = s := by
  by_cases h : s ∈ names
  · exact Or.inl h
  · right
    apply swapIn_other
    intro p hp
    constructor
    · rintro rfl
      exact h (List.mem_flatMap.2 ⟨p, hp, by simp⟩)
    · rintro rfl
      exact h (List.mem_flatMap.2 ⟨p, hp, by simp⟩)

/-- Exchanging twice gives the name back. -/
theorem swap_twice (s : String) : swapText (swapText s) = s := by
  rcases swap_or s with h | h
  · revert s; decide +kernel
  · rw [h, h]

theorem swap_inj {s t : String} (h : swapText s = swapText t) : s = t := by rw [← swap_twice s, h, swap_twice]

theorem swap_columns (s : String) : swapText s ∈ binaryProperties ↔ s ∈ binaryProperties := by
  rcases swap_or s with h | h
  · revert s; decide +kernel
  · rw [h]

theorem swap_redirect (s : String) : strIn "redirect" (swapText s) = strIn "redirect" s := by
  rcases swap_or s with h | h
  · revert s; decide +kernel
  · rw [h]

variable {mt : Val → Val}

theorem attr_event (b : Binary) : (mirror mt b).attr "event" = swapVal mt "event" (b.attr "event") := rfl
theorem attr_state (b : Binary) : (mirror mt b).attr "state" = swapVal mt "state" (b.attr "state") := rfl

theorem swapVal_str (c : String) (h : c = "state" ∨ c = "event") (s : String) : swapVal mt c (.str s) = .str (swapText s) := by
  rcases h with rfl | rfl <;> simp [swapVal]

theorem redirect_mirror (b : Binary) : isRedirect ((mirror mt b).attr "event") = isRedirect (b.attr "event") := by
  rw [attr_event]
  cases h : b.attr "event" with
  | str s => rw [swapVal_str _ (Or.inr rfl)]; exact swap_redirect s
  | none => simp [swapVal, isRedirect]
  | num q => simp [swapVal, isRedirect]
  | obj n => simp [swapVal, isRedirect]

/-- Exchanging twice gives the binary back. -/
theorem C148_twice (hmt : ∀ v, mt (mt v) = v) (b : Binary) : mirror mt (mirror mt b) = b := by
  have hv : ∀ c v, swapVal mt c (swapVal mt (swapText c) v) = v := by
    intro c v
    by_cases h1 : c = "mass_transfer_case"
    · subst h1
      have : swapText "mass_transfer_case" = "mass_transfer_case" := by decide +kernel
      rw [this]; simp [swapVal, hmt]
    by_cases h2 : c = "state"
    · subst h2
      have : swapText "state" = "state" := by decide +kernel
      rw [this]
      cases v <;> simp [swapVal, swap_twice]
    by_cases h3 : c = "event"
    · subst h3
      have : swapText "event" = "event" := by decide +kernel
      rw [this]
      cases v <;> simp [swapVal, swap_twice]
    have g1 : swapText c ≠ "mass_transfer_case" := fun h => h1 (by rw [← swap_twice c, h]; decide +kernel)
    have g2 : swapText c ≠ "state" := fun h => h2 (by rw [← swap_twice c, h]; decide +kernel)
    have g3 : swapText c ≠ "event" := fun h => h3 (by rw [← swap_twice c, h]; decide +kernel)
    simp [swapVal, h1, h2, h3, g1, g2, g3]
  unfold mirror
  cases b with
  | mk a h s1 s2 v =>
    simp only [swap_twice, hv, List.map_map, Binary.mk.injEq, true_and, and_true]
    funext c
    have : swapVal mt c ∘ swapVal mt (swapText c) = id := by funext v; exact hv c v
    rw [this, List.map_id]

theorem cols_mirror (b : Binary) : appendCols (mirror mt b).attr binaryProperties (mirror mt b).hist =
    fun c => (appendCols b.attr binaryProperties b.hist (swapText c)).map (swapVal mt c) := by
  funext c
  by_cases h : c ∈ binaryProperties
  · rw [appendCols_mem _ _ binaryProperties_nodup _ _ h, appendCols_mem _ _ binaryProperties_nodup _ _ ((swap_columns c).2 h)]
    simp [mirror]
  · rw [appendCols_notMem _ _ _ _ h, appendCols_notMem _ _ _ _ (fun h' => h ((swap_columns c).1 h'))]
    rfl

/-- Recording the exchanged binary is exchanging the record. -/
theorem C148_record (b : Binary) : (mirror mt b).append = mirror mt b.append := by
  unfold Binary.append
  rw [redirect_mirror]
  by_cases h : (!b.verbose && isRedirect (b.attr "event")) = true
  · rw [if_pos (show (!(mirror mt b).verbose && isRedirect (b.attr "event")) = true from h), if_pos h]
  · rw [if_neg (show ¬ (!(mirror mt b).verbose && isRedirect (b.attr "event")) = true from h), if_neg h, cols_mirror]
    rfl

theorem andThen_mirror (r : Res) (f : Binary → Res) (hf : ∀ b, f (mirror mt b) = mirrorR mt (f b)) :
    (mirrorR mt r).andThen f = mirrorR mt (r.andThen f) := by
  obtain ⟨b, e⟩ := r
  cases e with
  | none => exact hf b
  | some e => rfl

/-- One step, with its hooks and its record. -/
theorem C148_step (P : Props) (b : Binary) (hn : Neutral mt P) (h : SymAt mt P b) : runStep P (mirror mt b) = mirrorR mt (runStep P b) := by
  unfold runStep
  rw [h.undef, h.flow]
  by_cases hu : P.undefined b.total = true
  · rw [if_pos hu, if_pos hu]; rfl
  rw [if_neg hu, if_neg hu]
  cases hf : P.flow b.total with
  | none => rfl
  | some n =>
    dsimp only
    cases hs : P.step n with
    | none => rfl
    | some st =>
      dsimp only
      rw [h.step n st hf hs]
      apply andThen_mirror
      intro c
      rw [C148_record]
      unfold postStep
      rw [redirect_mirror]
      by_cases hr : (!c.append.verbose && isRedirect (c.append.attr "event")) = true
      · rw [if_pos (show (!(mirror mt c.append).verbose && isRedirect (c.append.attr "event")) = true from hr), if_pos hr]; rfl
      · rw [if_neg (show ¬ (!(mirror mt c.append).verbose && isRedirect (c.append.attr "event")) = true from hr), if_neg hr]
        exact hn.hooks n _

theorem beq_swap (c : String) (hc : c = "state" ∨ c = "event") (v : Val) (s : String) (hs : swapText s = s) :
    (swapVal mt c v == .str s) = (v == .str s) := by
  cases v with
  | str t =>
    rw [swapVal_str _ hc]
    by_cases h : t = s
    · subst h; rw [hs]
    · have : swapText t ≠ s := fun h' => h (swap_inj (h'.trans hs.symm))
      have e1 : (Val.str (swapText t) == Val.str s) = false := by simp [this]
      have e2 : (Val.str t == Val.str s) = false := by simp [h]
      rw [e1, e2]
  | none => rcases hc with rfl | rfl <;> simp [swapVal]
  | num q => rcases hc with rfl | rfl <;> simp [swapVal]
  | obj n => rcases hc with rfl | rfl <;> simp [swapVal]

theorem contains_swap (c : String) (hc : c = "state" ∨ c = "event") (l : List Val) (hl : ∀ s, Val.str (swapText s) ∈ l ↔ Val.str s ∈ l) (v : Val) :
    l.contains (swapVal mt c v) = l.contains v := by
  cases v with
  | str t =>
    rw [swapVal_str _ hc]
    have := hl t
    by_cases h : Val.str t ∈ l
    · rw [List.contains_iff_mem.2 h, List.contains_iff_mem.2 (this.2 h)]
    · have h2 : Val.str (swapText t) ∉ l := fun h' => h (this.1 h')
      have e1 : l.contains (Val.str t) = false := by
        cases hc : l.contains (Val.str t) with
        | false => rfl
        | true => exact absurd (List.contains_iff_mem.1 hc) h
      have e2 : l.contains (Val.str (swapText t)) = false := by
        cases hc : l.contains (Val.str (swapText t)) with
        | false => rfl
        | true => exact absurd (List.contains_iff_mem.1 hc) h2
      rw [e1, e2]
  | none => rcases hc with rfl | rfl <;> simp [swapVal]
  | num q => rcases hc with rfl | rfl <;> simp [swapVal]
  | obj n => rcases hc with rfl | rfl <;> simp [swapVal]

theorem terminal_mirror (P : Props) (hn : Neutral mt P) (b : Binary) : terminal P (mirror mt b) = terminal P b := by
  unfold terminal
  rw [attr_event, attr_state, beq_swap _ (Or.inr rfl) _ _ (by decide +kernel), beq_swap _ (Or.inr rfl) _ _ (by decide +kernel),
    contains_swap _ (Or.inr rfl) _ hn.events, contains_swap _ (Or.inl rfl) _ hn.states]

/-- The labels do not matter at any binary the evolution passes through. -/
def SymAlong (mt : Val → Val) (P : Props) (b : Binary) : Prop :=
  ∀ bs, Trace P b bs → terminal P (lastOf b bs) = false → SymAt mt P (lastOf b bs)

def mirrorOutcome (mt : Val → Val) : Outcome → Outcome
  | .finished b n => .finished (mirror mt b) n
  | .failed b n e => .failed (mirror mt b) n e
  | .limit b n => .limit (mirror mt b) n

theorem loop_mirror (P : Props) (hn : Neutral mt P) (fuel n : Nat) (b : Binary) (h : SymAlong mt P b) :
    loop P fuel n (mirror mt b) = (loop P fuel n b).map (mirrorOutcome mt) := by
  induction fuel generalizing n b with
  | zero => rfl
  | succ fuel ih =>
    unfold loop
    rw [terminal_mirror P hn]
    by_cases ht : terminal P b = true
    · rw [if_pos ht, if_pos ht]; rfl
    · rw [if_neg ht, if_neg ht]
      have ht' : terminal P b = false := by simpa using ht
      rw [C148_step P b hn (h [] (.nil b) ht')]
      cases hr : runStep P b with
      | mk b' e =>
        cases e with
        | some e => rfl
        | none =>
          simp only [mirrorR]
          by_cases ho : over P.maxSteps (n + 1) = true
          · rw [if_pos ho, if_pos ho]; rfl
          · rw [if_neg ho, if_neg ho]
            exact ih _ _ fun bs hb => h (b' :: bs) (.cons ht' hr hb)

/-- The whole evolution of the exchanged binary is the exchanged evolution: the same number of steps, the same end or the same error, and
exchanged stars, orbits and histories, if the labels do not matter to the steps and the chart at the binaries it passes through. -/
theorem C148_evolution (P : Props) (hn : Neutral mt P) (fuel : Nat) (b : Binary) (h : ∀ b', P.preEvolve b = (b', none) → SymAlong mt P b') :
    evolve P fuel (mirror mt b) = (evolve P fuel b).map (mirrorResult mt) := by
  unfold evolve
  rw [hn.pre]
  cases hp : P.preEvolve b with
  | mk b' e =>
    cases e with
    | some e => rfl
    | none =>
      simp only [mirrorR]
      rw [hn.old]
      cases ho : P.tooOld b' with
      | some e => rfl
      | none =>
        dsimp only
        rw [loop_mirror P hn fuel 0 b' (h b' hp)]
        cases hl : loop P fuel 0 b' with
        | none => rfl
        | some o =>
          cases o with
          | failed c n e => rfl
          | limit c n => rfl
          | finished c n =>
            simp only [Option.map_some, mirrorOutcome]
            rw [hn.post]
            cases hq : P.postEvolve c with
            | mk c' e => cases e <;> rfl

/-! ### The default chart -/

theorem total_mirror (b : Binary) (k : FlowChart.Key) (h : b.total = totalOf k) : (mirror mt b).total = totalOf k.mirror := by
  obtain ⟨s1, s2, bs, e⟩ := k
  unfold Binary.total totalOf at h
  simp only [Prod.mk.injEq] at h
  obtain ⟨h1, h2, h3, h4⟩ := h
  unfold Binary.total totalOf
  rw [attr_event, attr_state, h3, h4, swapVal_str _ (Or.inl rfl)]
  simp only [FlowChart.Key.mirror, Prod.mk.injEq]
  refine ⟨h2, h1, ?_, ?_⟩
  · have : swapText (MTCase.bstateName bs) = MTCase.bstateName bs.mirror := by revert bs; intro bs _; cases bs <;> decide +kernel
    rw [this]
  · have hs : ∀ e, (match Life.evName e with | some s => some (swapText s) | none => none) = Life.evName (FlowChart.Ev.mirror e) := by
      intro e; cases e <;> decide +kernel
    have := hs e
    cases he : Life.evName e with
    | none =>
      rw [he] at this
      rw [← this]
      simp [swapVal]
    | some s =>
      rw [he] at this
      rw [← this]
      dsimp only
      rw [swapVal_str _ (Or.inr rfl)]

/-- With the default chart the labels matter only for a contact binary of which one star is compact or gone. -/
theorem C148_chart_partial (nm : FlowChart.Step → String) (P : Props) (hf : Follows nm P) (b : Binary) (k : FlowChart.Key) (h : b.total = totalOf k)
    (hk : k.b = .contact → FlowChart.isNormal k.s1 = FlowChart.isNormal k.s2) : P.flow (mirror mt b).total = P.flow b.total := by
  rw [total_mirror b k h, h, hf, hf, FlowChart.C02_mirror_partial k hk]

/-- For a contact binary that enters a common envelope next to a compact object they do matter: one labelling goes on, the other has no next step. -/
theorem C148_chart_violated (nm : FlowChart.Step → String) (P : Props) (hf : Follows nm P) (b : Binary)
    (h : b.total = totalOf ⟨.NS, .hShellH, .contact, .oCE2⟩) (hu : ∀ t, P.undefined t = false) (hs : (P.step (nm .CE)).isSome) :
    runStep P (mirror mt b) = (mirror mt b, some .undefinedNext) ∧ P.flow b.total = some (nm .CE) := by
  have hv := FlowChart.C02_mirror_violated
  constructor
  · unfold runStep
    rw [if_neg (by simp [hu]), total_mirror b _ h, hf, hv.2]
    rfl
  · rw [h, hf, hv.1]; rfl

/-! ### A concrete case -/

theorem ex_neutral (m : Option Nat) : Neutral mt (exProps true m) where
  pre := fun _ => rfl
  post := fun _ => rfl
  hooks := fun _ _ => rfl
  old := fun _ => rfl
  events := fun _ => by simp [exProps]
  states := fun _ => by simp [exProps]

theorem ex_sym (m : Option Nat) (b : Binary) : SymAt mt (exProps true m) b where
  undef := rfl
  flow := rfl
  step := by
    intro n st hn hs
    cases hs
    simp only [exProps, Res.andThen, mirrorR, if_true, Prod.mk.injEq, and_true]
    unfold mirror
    simp only [Binary.mk.injEq, true_and, and_true]
    funext c
    by_cases hc : c = "event"
    · subst hc
      have e1 : swapText "event" = "event" := by decide +kernel
      have e2 : swapText "END" = "END" := by decide +kernel
      rw [set_same, e1, set_same, swapVal_str _ (Or.inr rfl), e2]
    · have : swapText c ≠ "event" := fun h => hc (by rw [← swap_twice c, h]; decide +kernel)
      rw [set_other _ _ _ _ hc, set_other _ _ _ _ this]

/-- A binary whose first star fills its Roche lobe, and the same with the second: one step, the same end, exchanged records. -/
example (mt : Val → Val) : (exBinary (.str "oRLO1")).hist "event" = [.str "oRLO1"] ∧
    (mirror mt (exBinary (.str "oRLO1"))).hist "event" = [.str "oRLO2"] ∧
    ∃ b, evolve (exProps true none) 5 (exBinary (.str "oRLO1")) = some (.ok b 1) ∧
      evolve (exProps true none) 5 (mirror mt (exBinary (.str "oRLO1"))) = some (.ok (mirror mt b) 1) := by
  have h2 : (mirror mt (exBinary (.str "oRLO1"))).hist "event" = [.str "oRLO2"] := by
    have e1 : swapText "event" = "event" := by decide +kernel
    have e2 : swapText "oRLO1" = "oRLO2" := by decide +kernel
    show ((exBinary (.str "oRLO1")).hist (swapText "event")).map (swapVal mt "event") = _
    rw [e1]
    show [swapVal mt "event" (.str "oRLO1")] = _
    rw [swapVal_str _ (Or.inr rfl), e2]
  have h1 : ∃ b, evolve (exProps true none) 5 (exBinary (.str "oRLO1")) = some (.ok b 1) := ⟨_, rfl⟩
  obtain ⟨b, hb⟩ := h1
  refine ⟨rfl, h2, b, hb, ?_⟩
  rw [C148_evolution _ (ex_neutral none) 5 _ (fun b' _ bs _ _ => ex_sym none _), hb]
  rfl

end Verif.Relabel
