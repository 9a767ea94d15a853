import Verif.StarState
/-!
Property theorems for the star classification: C09.
-/
namespace Verif.StarState
open Verif.FlowChart (Star)

/-- C09.  The envelope and burning conditions single out exactly the state returned for a normal star: the
conditions of the returned state hold, and those of every other state fail. -/
theorem C09_conditions (rnd : ℚ → ℚ) (rel : ℚ) (i : Inputs) (s : ℚ) (hs : i.surfaceH = some s) (r : Rich) (b : Burning) :
    infer rnd rel false i = .normal r b ↔ IsRich rnd s i.centerH r ∧ IsBurning rel i b := by
  have hrich : (if s > 1 / 100 then Rich.Hrich
      else if lt (some (rnd s)) (i.centerH.map rnd) then .accreted else .stripped) = r ↔ IsRich rnd s i.centerH r := by
    by_cases h : s > 1 / 100
    · rw [if_pos h]
      cases r
      · exact ⟨fun _ => h, fun _ => rfl⟩
      · exact ⟨fun h => (by cases h), fun h' => absurd h (not_lt.2 h'.1)⟩
      · exact ⟨fun h => (by cases h), fun h' => absurd h (not_lt.2 h'.1)⟩
    · rw [if_neg h]
      cases hc : i.centerH with
      | none =>
        cases r <;> simp [lt, IsRich] <;> simpa using h
      | some c =>
        by_cases hl : rnd s < rnd c
        · cases r <;> simp [lt, hl, IsRich] <;> simpa using h
        · cases r <;> simp [lt, hl, IsRich, not_lt.1 hl] <;> simpa using h
  have hburn : (if !(gt i.centerH (1 / 100) || gt i.centerHe (1 / 100)) then
        (if !gt i.centerC (1 / 100) then Burning.coreCDep else .coreHeDep)
      else if gt i.centerH (1 / 100) then (if burns rel i.logLH i.logLnuc then .coreH else .nonBurning)
      else (if burns rel i.logLHe i.logLnuc then .coreHe else if burns rel i.logLH i.logLnuc then .shellH
        else .nonBurning)) = b ↔ IsBurning rel i b := by
    have e1 := gt_iff i.centerH (1 / 100)
    have e2 := gt_iff i.centerHe (1 / 100)
    have e3 := gt_iff i.centerC (1 / 100)
    have e4 := burns_iff rel i.logLH i.logLnuc
    have e5 := burns_iff rel i.logLHe i.logLnuc
    cases b <;> simp only [IsBurning, ← e1, ← e2, ← e3, ← e4, ← e5] <;>
      cases gt i.centerH (1 / 100) <;> cases gt i.centerHe (1 / 100) <;> cases gt i.centerC (1 / 100) <;>
      cases burns rel i.logLH i.logLnuc <;> cases burns rel i.logLHe i.logLnuc <;> simp
  simp only [infer, inferNormal, hs]
  rw [← hrich, ← hburn]
  simp

/-- C09.  A star with known surface hydrogen always gets exactly one envelope and one burning label. -/
theorem C09_exactly_one (rnd : ℚ → ℚ) (rel : ℚ) (i : Inputs) (s : ℚ) (hs : i.surfaceH = some s) :
    ∃ r b, (IsRich rnd s i.centerH r ∧ IsBurning rel i b) ∧
      ∀ r' b', IsRich rnd s i.centerH r' ∧ IsBurning rel i b' → r' = r ∧ b' = b := by
  have h := C09_conditions rnd rel i s hs
  have : ∃ r b, infer rnd rel false i = .normal r b := by simp [infer, inferNormal, hs]
  obtain ⟨r, b, hrb⟩ := this
  refine ⟨r, b, (h r b).1 hrb, fun r' b' h' => ?_⟩
  have := ((h r' b').2 h').symm.trans hrb
  cases this; exact ⟨rfl, rfl⟩

/-- C09.  A compact object that was a white dwarf stays one whatever its mass and composition; the remembered state
plays no role for stars that are not compact. -/
theorem C09_white_dwarf_stays (rnd : ℚ → ℚ) (rel : ℚ) (i : Inputs) (w : Bool) :
    checkState rnd rel true true i = .WD ∧ checkState rnd rel false w i = infer rnd rel false i := ⟨rfl, rfl⟩

/-- C09.  Compact objects are told apart by mass alone once the composition is unknown: massless (also for a
missing mass), white dwarf below 1.1, neutron star up to 2.5, black hole above. -/
theorem C09_compact_by_mass (rnd : ℚ → ℚ) (rel : ℚ) (i : Inputs) :
    (checkState rnd rel true false i = .massless ↔ i.mass = none ∨ ∃ m, i.mass = some m ∧ m ≤ 0) ∧
    (checkState rnd rel true false i = .WD ↔ ∃ m, i.mass = some m ∧ 0 < m ∧ m < 11 / 10) ∧
    (checkState rnd rel true false i = .NS ↔ ∃ m, i.mass = some m ∧ 11 / 10 ≤ m ∧ m ≤ 5 / 2) ∧
    (checkState rnd rel true false i = .BH ↔ ∃ m, i.mass = some m ∧ 5 / 2 < m) := by
  simp only [checkState, inferCO, gt]
  cases hm : i.mass with
  | none => simp
  | some m =>
    simp only [if_true, Option.some.injEq, exists_eq_left', reduceCtorEq, false_or]
    rcases le_or_gt m 0 with h0 | h0
    · simp only [h0, if_true]
      refine ⟨?_, ?_, ?_, ?_⟩ <;> simp <;> intros <;> linarith
    · rcases lt_or_ge m (11 / 10) with h1 | h1
      · have e1 : m ≤ 146 / 100 := by linarith
        simp only [not_le.2 h0, h1, e1, if_false]
        refine ⟨?_, ?_, ?_, ?_⟩ <;> simp <;> try linarith
        intros; linarith
      · rcases le_or_gt m (5 / 2) with h2 | h2
        · simp only [not_le.2 h0, not_lt.2 h1, h2, if_false]
          refine ⟨?_, ?_, ?_, ?_⟩ <;> simp <;> try linarith
        · simp only [not_le.2 h0, not_lt.2 h1, not_le.2 h2, if_false]
          refine ⟨?_, ?_, ?_, ?_⟩ <;> simp <;> try linarith

/-- C09.  With composition known, a remnant is a white dwarf exactly when its mass is at most 1.46 and it is light
or has a non-degenerate composition; a mass above 1.46 is never a white dwarf. -/
theorem C09_compact_with_composition (i : Inputs) (m : ℚ) (hm : i.mass = some m) (h0 : 0 < m) :
    (inferCO i = .WD ↔ m ≤ 146 / 100 ∧
      (m < 11 / 10 ∨ Above 0 i.surfaceH ∨ Above 0 i.centerH ∨ Above 0 i.centerHe ∨ Above 0 i.centerC)) ∧
    (inferCO i = .BH ↔ 5 / 2 < m) ∧ inferCO i ∈ [State.WD, .NS, .BH] := by
  simp only [← gt_iff]
  simp only [inferCO, hm, if_neg (not_le.2 h0)]
  rcases le_or_gt m (146 / 100) with h1 | h1
  · have h2 : m ≤ 5 / 2 := by linarith
    cases gt i.surfaceH 0 <;> cases gt i.centerH 0 <;> cases gt i.centerHe 0 <;> cases gt i.centerC 0 <;>
      by_cases h3 : m < 11 / 10 <;> simp [h1, h2, h3]
  · have h3 : ¬ m < 11 / 10 := by linarith
    rcases le_or_gt m (5 / 2) with h2 | h2 <;> simp [not_le.2 h1, h2, not_le.2, not_lt.2]

/-- C09 (partial).  The returned name is one of the flow chart's star states, except for five names. -/
theorem C09_known_to_flow_chart_partial (rnd : ℚ → ℚ) (rel : ℚ) (co : Bool) (i : Inputs)
    (h : infer rnd rel co i ∉ unlisted) : ∃ s : Star, s.name = (infer rnd rel co i).name := by
  have key : ∀ st : State, st ∉ unlisted → ∃ s : Star, s.name = st.name := by
    intro st hst
    rcases st with _ | _ | _ | _ | _ | ⟨r, b⟩
    · exact absurd (by simp [unlisted]) hst
    · exact ⟨.massless, by decide⟩
    · exact ⟨.WD, by decide⟩
    · exact ⟨.NS, by decide⟩
    · exact ⟨.BH, by decide⟩
    · cases r <;> cases b
      · exact ⟨.hCoreH, by decide⟩
      · exact ⟨.hCoreHe, by decide⟩
      · exact ⟨.hShellH, by decide⟩
      · exact ⟨.hNon, by decide⟩
      · exact ⟨.hCoreHeDep, by decide⟩
      · exact ⟨.hCoreCDep, by decide⟩
      · exact ⟨.aCoreH, by decide⟩
      · exact ⟨.aCoreHe, by decide⟩
      · exact ⟨.aShellH, by decide⟩
      · exact ⟨.aNon, by decide⟩
      · exact absurd (by simp [unlisted]) hst
      · exact absurd (by simp [unlisted]) hst
      · exact absurd (by simp [unlisted]) hst
      · exact ⟨.sCoreHe, by decide⟩
      · exact absurd (by simp [unlisted]) hst
      · exact ⟨.sNon, by decide⟩
      · exact ⟨.sCoreHeDep, by decide⟩
      · exact ⟨.sCoreCDep, by decide⟩
  exact key _ h

/-- The five names are really absent from the flow chart. -/
theorem C09_unlisted_names_absent (st : State) (h : st ∈ unlisted) (s : Star) : s.name ≠ st.name := by
  simp only [unlisted, List.mem_cons, List.not_mem_nil, or_false] at h
  rcases h with rfl | rfl | rfl | rfl | rfl <;> cases s <;> decide

/-- C09 is false in full: a stripped star with a hydrogen shell source, and an accretor with an exhausted core, are
classified with names no step table knows (with the rounding function taken as the identity). -/
theorem C09_known_to_flow_chart_violated :
    ∃ i j : Inputs, infer id (-3 / 2) false i = .normal .stripped .shellH ∧
      infer id (-3 / 2) false j = .normal .accreted .coreHeDep ∧
      ∀ s : Star, s.name ≠ (infer id (-3 / 2) false i).name ∧ s.name ≠ (infer id (-3 / 2) false j).name := by
  refine ⟨⟨some 5, some (1 / 100), some (1 / 1000), some (9 / 10), some (1 / 1000), some 3, some (-20), some 3⟩,
    ⟨some 5, some (1 / 1000), some (2 / 1000), some (1 / 1000), some (3 / 10), some 3, some (-20), some 3⟩, ?_⟩
  have h1 : infer id (-3 / 2) false ⟨some 5, some (1 / 100), some (1 / 1000), some (9 / 10), some (1 / 1000), some 3, some (-20), some 3⟩ = .normal .stripped .shellH := by
    decide +kernel
  have h2 : infer id (-3 / 2) false ⟨some 5, some (1 / 1000), some (2 / 1000), some (1 / 1000), some (3 / 10), some 3, some (-20), some 3⟩ = .normal .accreted .coreHeDep := by
    decide +kernel
  refine ⟨h1, h2, fun s => ?_⟩
  rw [h1, h2]
  exact ⟨C09_unlisted_names_absent _ (by simp [unlisted]) s, C09_unlisted_names_absent _ (by simp [unlisted]) s⟩

/-- A main-sequence star meets the hypotheses of the theorems above. -/
example : infer id (-3 / 2) false ⟨some 5, some (7 / 10), some (6 / 10), some (4 / 10), some (1 / 1000), some 3, some (-20), some 3⟩
    = .normal .Hrich .coreH ∧ State.normal .Hrich .coreH ∉ unlisted := by
  decide +kernel

end Verif.StarState
