import Verif.Mesa
import Verif.FlowChartProps
import Verif.FlipProps
/-!
Property theorems for the dispatch of the grid steps: C68.
-/
namespace Verif.Mesa
open FlowChart

/-- The mass tests and the box test as booleans. -/
theorem expected_eq (g : Box) (M C : ℚ) (p ecc : Option ℚ) (f : Bool) (r : Ev) :
    expected g M C p ecc f r =
      if within g.pmin p g.pmax then
        if within g.m1min (some M) g.m1max && within g.m2min (some C) g.m2max then
          if circular ecc then .run f else .next (some .detached) r
        else .gridError
      else .next (some .detached) r := by
  cases p with
  | none => simp [expected, within]
  | some P =>
    simp only [expected]
    by_cases h1 : g.pmin ≤ P ∧ P ≤ g.pmax
    · rw [if_pos h1, if_pos ((within_some _ _ _).2 h1)]
      by_cases h2 : g.m1min ≤ M ∧ M ≤ g.m1max ∧ g.m2min ≤ C ∧ C ≤ g.m2max
      · have hb : (within g.m1min (some M) g.m1max && within g.m2min (some C) g.m2max) = true := by
          rw [Bool.and_eq_true, within_some, within_some]; exact ⟨⟨h2.1, h2.2.1⟩, h2.2.2⟩
        rw [if_pos h2, if_pos hb]
        by_cases h3 : ecc = some 0
        · rw [if_pos h3, if_pos ((circular_iff _).2 h3)]
        · rw [if_neg h3, if_neg (fun h => h3 ((circular_iff _).1 h))]
      · rw [if_neg h2, if_neg (by
          rw [Bool.and_eq_true, within_some, within_some]; exact fun h => h2 ⟨h.1.1, h.1.2, h.2⟩)]
    · rw [if_neg h1, if_neg (fun h => h1 ((within_some _ _ _).1 h))]

/-- C68.  Compact object and hydrogen-rich donor: the donor is the star the event names, its companion is the compact
object, and the decision is the expected one whichever star is called first. -/
theorem C68_co_hms (g : Box) (v : View) :
    (v.e = .oRLO1 → compact v.s2 = true → v.s1 ∈ rloStates →
      coHms g v = if v.s1 = .hCoreCDep then .next none .CC1
        else expected g v.m1 v.m2 v.p v.ecc false .rCOHMSRLO) ∧
    (v.e = .oRLO2 → compact v.s1 = true → v.s2 ∈ rloStates →
      coHms g v = if v.s2 = .hCoreCDep then .next none .CC2
        else expected g v.m2 v.m1 v.p v.ecc true .rCOHMSRLO) := by
  constructor
  · intro he hc hs
    have ho : orient rloStates .hCoreCDep .oRLO1 .oRLO2 v =
        if v.s1 == .hCoreCDep then .inl (.next none .CC1) else .inr false := by
      simp [orient, hc, hs, he]
    by_cases hd : v.s1 = .hCoreCDep
    · simp [coHms, ho, hd]
    · rw [if_neg hd, expected_eq]
      simp only [coHms, ho, beq_eq_false_iff_ne.2 hd, inside, outside_eq]
      cases within g.pmin v.p g.pmax <;> cases within g.m1min (some v.m1) g.m1max <;>
        cases within g.m2min (some v.m2) g.m2max <;> cases circular v.ecc <;> rfl
  · intro he hc hs
    have ho : orient rloStates .hCoreCDep .oRLO1 .oRLO2 v =
        if v.s2 == .hCoreCDep then .inl (.next none .CC2) else .inr true := by
      simp [orient, hc, hs, he]
    by_cases hd : v.s2 = .hCoreCDep
    · simp [coHms, ho, hd]
    · rw [if_neg hd, expected_eq]
      simp only [coHms, ho, beq_eq_false_iff_ne.2 hd, inside, outside_eq]
      cases within g.pmin v.p g.pmax <;> cases within g.m1min (some v.m2) g.m1max <;>
        cases within g.m2min (some v.m1) g.m2max <;> cases circular v.ecc <;> rfl

/-- C68.  The same for a helium donor, as long as no mass exceeds the largest mass the grid has for the *other* star.
Missing for the full claim: see `C68_co_he_rlo_violated`. -/
theorem C68_co_he_rlo_partial (g : Box) (v : View) :
    (v.e = .oRLO1 → compact v.s2 = true → v.s1 ∈ heStates → v.m1 ≤ g.m2max → v.m2 ≤ g.m1max →
      coHeRlo g v = if v.s1 = .sCoreCDep then .next none .CC1
        else expected g v.m1 v.m2 v.p v.ecc false .rCOHeMSRLO) ∧
    (v.e = .oRLO2 → compact v.s1 = true → v.s2 ∈ heStates →
      within g.pmin v.p g.pmax = true ∨ (v.m1 ≤ g.m2max ∧ v.m2 ≤ g.m1max) →
      coHeRlo g v = if v.s2 = .sCoreCDep then .next none .CC2
        else expected g v.m2 v.m1 v.p v.ecc true .rCOHeMSRLO) := by
  constructor
  · intro he hc hs h1 h2
    have ho : orient heStates .sCoreCDep .oRLO1 .oRLO2 v =
        if v.s1 == .sCoreCDep then .inl (.next none .CC1) else .inr false := by
      simp [orient, hc, hs, he]
    by_cases hd : v.s1 = .sCoreCDep
    · simp [coHeRlo, ho, hd]
    · rw [if_neg hd, expected_eq]
      simp only [coHeRlo, ho, beq_eq_false_iff_ne.2 hd, inside, outside_eq, decide_eq_false (not_lt.2 h1),
        decide_eq_false (not_lt.2 h2)]
      cases within g.pmin v.p g.pmax <;> cases within g.m1min (some v.m1) g.m1max <;>
        cases within g.m2min (some v.m2) g.m2max <;> cases circular v.ecc <;> rfl
  · intro he hc hs h
    have ho : orient heStates .sCoreCDep .oRLO1 .oRLO2 v =
        if v.s2 == .sCoreCDep then .inl (.next none .CC2) else .inr true := by
      simp [orient, hc, hs, he]
    by_cases hd : v.s2 = .sCoreCDep
    · simp [coHeRlo, ho, hd]
    · rw [if_neg hd, expected_eq]
      simp only [coHeRlo, ho, beq_eq_false_iff_ne.2 hd, inside]
      rcases h with h | ⟨h1, h2⟩
      · simp only [h]
        simp only [within]
        by_cases a : g.m1min ≤ v.m2 <;> by_cases b : v.m2 ≤ g.m1max <;> by_cases c : g.m2min ≤ v.m1 <;>
          by_cases d : v.m1 ≤ g.m2max <;> cases circular v.ecc <;>
          simp [a, b, c, d, not_lt.2, lt_of_not_ge]
      · have w1 : within g.m1min (some v.m2) g.m1max = decide (g.m1min ≤ v.m2) := by simp [within, h2]
        have w2 : within g.m2min (some v.m1) g.m2max = decide (g.m2min ≤ v.m1) := by simp [within, h1]
        simp only [decide_eq_false (not_lt.2 h1), decide_eq_false (not_lt.2 h2), w1, w2]
        cases hpin : within g.pmin v.p g.pmax <;> by_cases a : g.m1min ≤ v.m2 <;> by_cases c : g.m2min ≤ v.m1 <;>
          cases circular v.ecc <;> simp [a, c, not_lt.2, lt_of_not_ge]

/-- C68 is false for helium donors in full: a helium star of 40 next to a compact object of 10, in an orbit wider than
the grid, is marked as failed with "the period is inside the grid" instead of being sent to the detached step, because
the parentheses around the disjunction are missing.  The mirror image of the same binary is sent on. -/
theorem C68_co_he_rlo_violated :
    ∃ (g : Box) (v : View), v.e = .oRLO1 ∧ v.s1 = .sCoreHe ∧ v.s2 = .BH ∧ v.p = some 2000 ∧ g.pmax = 1000 ∧
      v.m1 = 40 ∧ g.m1max = 80 ∧ g.m2max = 35 ∧
      expected g v.m1 v.m2 v.p v.ecc false .rCOHeMSRLO = .next (some .detached) .rCOHeMSRLO ∧
      coHeRlo g v = .gridError ∧ coHeRlo g v.mirror = .next (some .detached) .rCOHeMSRLO :=
  ⟨⟨1 / 2, 80, 1, 35, 1 / 50, 1000, 0, 1, 0⟩, ⟨.sCoreHe, .BH, .oRLO1, 40, 10, some 2000, some 0⟩,
    rfl, rfl, rfl, rfl, rfl, rfl, rfl, rfl, by decide +kernel, by decide +kernel, by decide +kernel⟩

/-- C68.  Detached helium star with a compact companion, when the helium star is called first: exact.  When it is
called second, the decision is right only for binaries inside the grid, for periods outside the grid and for masses
that lie on the same side of both mass ranges.  Missing for the full claim: see `C68_co_he_violated`. -/
theorem C68_co_he_partial (g : Box) (v : View) :
    (v.e = .none → compact v.s2 = true → v.s1 ∈ heStates →
      coHe g v = if v.s1 = .sCoreCDep then .next none .CC1
        else expected g v.m1 v.m2 v.p v.ecc false .rCOHeMS) ∧
    (v.e = .none → compact v.s1 = true → v.s2 ∈ heStates →
      (within g.pmin v.p g.pmax = false ∨ inside g true v = true ∨
        (within g.m1min (some v.m1) g.m1max && within g.m2min (some v.m2) g.m2max) =
          (within g.m1min (some v.m2) g.m1max && within g.m2min (some v.m1) g.m2max)) →
      coHe g v = if v.s2 = .sCoreCDep then .next none .CC2
        else expected g v.m2 v.m1 v.p v.ecc true .rCOHeMS) := by
  have hne : ∀ s : Star, s ∈ heStates → compact s = false := by decide
  constructor
  · intro he hc hs
    have ho : orient heStates .sCoreCDep .none .none v =
        if v.s1 == .sCoreCDep then .inl (.next none .CC1) else .inr false := by
      simp [orient, hc, hs, he]
    by_cases hd : v.s1 = .sCoreCDep
    · simp [coHe, ho, hd]
    · rw [if_neg hd, expected_eq]
      simp only [coHe, ho, beq_eq_false_iff_ne.2 hd, inside, outside_eq]
      cases within g.pmin v.p g.pmax <;> cases within g.m1min (some v.m1) g.m1max <;>
        cases within g.m2min (some v.m2) g.m2max <;> cases circular v.ecc <;> rfl
  · intro he hc hs h
    have ho : orient heStates .sCoreCDep .none .none v =
        if v.s2 == .sCoreCDep then .inl (.next none .CC2) else .inr true := by
      simp [orient, hc, hs, he, hne _ hs]
    by_cases hd : v.s2 = .sCoreCDep
    · simp [coHe, ho, hd]
    · rw [if_neg hd, expected_eq]
      simp only [coHe, ho, beq_eq_false_iff_ne.2 hd, inside, outside_eq] at h ⊢
      generalize within g.m1min (some v.m1) g.m1max = a at *
      generalize within g.m2min (some v.m2) g.m2max = b at *
      generalize within g.m1min (some v.m2) g.m1max = c at *
      generalize within g.m2min (some v.m1) g.m2max = d at *
      generalize within g.pmin v.p g.pmax = pin at *
      generalize circular v.ecc = k at *
      revert a b c d pin k
      decide

/-- C68 is false for detached helium stars in full: the mass tests ignore that the stars are exchanged.  An eccentric
binary whose masses and period lie inside the grid is marked as failed if the neutron star (1.4, below the lightest
helium star) is called first, and sent to the detached step if it is called second; and a helium star heavier than the
grid is accepted silently if it is called second. -/
theorem C68_co_he_violated :
    (∃ (g : Box) (v : View), v.e = .none ∧ v.s1 = .NS ∧ v.s2 = .sCoreHe ∧ v.ecc = some (1 / 2) ∧
      coHe g v.mirror = .next (some .detached) .rCOHeMS ∧ coHe g v = .gridError) ∧
    (∃ (g : Box) (v : View), v.e = .none ∧ v.s1 = .BH ∧ v.s2 = .sCoreHe ∧ g.m1max < v.m2 ∧
      within g.pmin v.p g.pmax = true ∧
      coHe g v.mirror = .gridError ∧ coHe g v = .next (some .detached) .rCOHeMS) :=
  ⟨⟨⟨2, 80, 1, 35, 1 / 50, 1000, 0, 1, 0⟩, ⟨.NS, .sCoreHe, .none, 7 / 5, 10, some 10, some (1 / 2)⟩,
      rfl, rfl, rfl, rfl, by decide +kernel, by decide +kernel⟩,
    ⟨⟨2, 20, 1, 35, 1 / 50, 1000, 0, 1, 0⟩, ⟨.BH, .sCoreHe, .none, 10, 30, some 10, some 0⟩,
      rfl, rfl, rfl, by decide +kernel, by decide +kernel, by decide +kernel, by decide +kernel⟩⟩

/-- C68.  A grid with a compact object is used only for circular binaries inside its limits, with the donor as the
grid's first star; in all three steps. -/
theorem C68_run_inside (g : Box) (v : View) (f : Bool)
    (h : coHms g v = .run f ∨ coHeRlo g v = .run f ∨ coHe g v = .run f) :
    ∃ P, v.p = some P ∧ v.ecc = some 0 ∧ g.pmin ≤ P ∧ P ≤ g.pmax ∧
      compact (if f then v.s1 else v.s2) = true ∧ compact (if f then v.s2 else v.s1) = false ∧
      g.m1min ≤ (if f then v.m2 else v.m1) ∧ (if f then v.m2 else v.m1) ≤ g.m1max ∧
      g.m2min ≤ (if f then v.m1 else v.m2) ∧ (if f then v.m1 else v.m2) ≤ g.m2max := by
  have hi : inside g f v = true ∧ ∃ l d e1 e2, (∀ s ∈ l, compact s = false) ∧ orient l d e1 e2 v = .inr f := by
    have hl1 : ∀ s ∈ rloStates, compact s = false := by decide
    have hl2 : ∀ s ∈ heStates, compact s = false := by decide
    rcases h with h | h | h
    · cases ho : orient rloStates .hCoreCDep .oRLO1 .oRLO2 v with
      | inl o =>
        simp only [coHms, ho] at h
        subst h
        simp only [orient] at ho
        split_ifs at ho <;> simp at ho
      | inr fl =>
        simp only [coHms, ho] at h
        by_cases hin : inside g fl v = true
        · rw [if_pos hin] at h
          cases h
          exact ⟨hin, _, _, _, _, hl1, ho⟩
        · rw [if_neg hin] at h
          split_ifs at h <;> simp at h
    · cases ho : orient heStates .sCoreCDep .oRLO1 .oRLO2 v with
      | inl o =>
        simp only [coHeRlo, ho] at h
        subst h
        simp only [orient] at ho
        split_ifs at ho <;> simp at ho
      | inr fl =>
        simp only [coHeRlo, ho] at h
        by_cases hin : inside g fl v = true
        · rw [if_pos hin] at h
          cases h
          exact ⟨hin, _, _, _, _, hl2, ho⟩
        · rw [if_neg hin] at h
          split_ifs at h <;> simp at h
    · cases ho : orient heStates .sCoreCDep .none .none v with
      | inl o =>
        simp only [coHe, ho] at h
        subst h
        simp only [orient] at ho
        split_ifs at ho <;> simp at ho
      | inr fl =>
        simp only [coHe, ho] at h
        by_cases hin : inside g fl v = true
        · rw [if_pos hin] at h
          cases h
          exact ⟨hin, _, _, _, _, hl2, ho⟩
        · rw [if_neg hin] at h
          split_ifs at h <;> simp at h
  obtain ⟨hin, l, d, e1, e2, hl, ho⟩ := hi
  have hcomp : compact (if f then v.s1 else v.s2) = true ∧ compact (if f then v.s2 else v.s1) = false := by
    simp only [orient] at ho
    by_cases h1 : (compact v.s2 && l.contains v.s1 && v.e == e1) = true
    · rw [if_pos h1] at ho
      simp only [Bool.and_eq_true, List.contains_iff_mem] at h1
      split_ifs at ho with hx
      cases ho
      exact ⟨h1.1.1, hl _ h1.1.2⟩
    · rw [if_neg h1] at ho
      by_cases h2 : (compact v.s1 && l.contains v.s2 && v.e == e2) = true
      · rw [if_pos h2] at ho
        simp only [Bool.and_eq_true, List.contains_iff_mem] at h2
        split_ifs at ho with hx
        cases ho
        exact ⟨h2.1.1, hl _ h2.1.2⟩
      · rw [if_neg h2] at ho
        simp at ho
  cases hp : v.p with
  | none => simp [inside, hp, within] at hin
  | some P =>
    cases f with
    | false =>
      simp only [inside, hp, Bool.not_false, Bool.true_and, Bool.false_and, Bool.or_false, Bool.and_eq_true,
        within_some, circular_iff] at hin
      exact ⟨P, rfl, hin.2, hin.1.2.1, hin.1.2.2, hcomp.1, hcomp.2, hin.1.1.1.1, hin.1.1.1.2, hin.1.1.2.1, hin.1.1.2.2⟩
    | true =>
      simp only [inside, hp, Bool.not_true, Bool.true_and, Bool.false_and, Bool.false_or, Bool.and_eq_true,
        within_some, circular_iff] at hin
      exact ⟨P, rfl, hin.2, hin.1.2.1, hin.1.2.2, hcomp.1, hcomp.2, hin.1.1.1.1, hin.1.1.1.2, hin.1.1.2.1, hin.1.1.2.2⟩

/-! ### Two main-sequence stars -/

/-- C68.  Two stars at the zero-age main sequence with a period that is a number are never refused as a wrong flow:
they are run, sent to the detached step exactly for periods outside the grid, or refused because of a mass. -/
theorem C68_zams_total (g : Box) (v : View) (P : ℚ) (h1 : v.s1 = .hCoreH) (h2 : v.s2 = .hCoreH) (he : v.e = .ZAMS)
    (hp : v.p = some P) :
    (¬ (g.pmin ≤ P ∧ P ≤ g.pmax) → msms g v = .next none .rZAMS) ∧
    ((g.pmin ≤ P ∧ P ≤ g.pmax) → msms g v = .run false ∨ msms g v = .run true ∨ msms g v = .gridError) := by
  have hz : (v.s1 == .hCoreH && v.s2 == .hCoreH && v.e == .ZAMS) = true := by simp [h1, h2, he]
  constructor
  · intro h
    have hw : within g.pmin v.p g.pmax = false := by
      rw [hp]; exact Bool.eq_false_iff.2 (fun h' => h ((within_some _ _ _).1 h'))
    simp only [msms, hz, hw, Bool.and_false, Bool.true_and]
    by_cases ha : g.pmax < P
    · simp [above, hp, ha]
    · have : P < g.pmin := by
        by_contra hc
        exact h ⟨not_lt.1 hc, not_lt.1 ha⟩
      simp [above, below, hp, ha, this]
  · intro h
    have hw : within g.pmin v.p g.pmax = true := by rw [hp]; exact (within_some _ _ _).2 h
    have ha : above v.p g.pmax = false := by simp [above, hp, h.2]
    have hb : below v.p g.pmin = false := by simp [below, hp, h.1]
    simp only [msms, hz, hw, ha, hb, Bool.and_true, Bool.true_and, Bool.and_false, outside_eq]
    have hq : (decide (v.m2 / v.m1 < max g.qmin ((1 / 2) / v.m1)) || decide (g.qmax < v.m2 / v.m1)) =
        !within (max g.qmin ((1 / 2) / v.m1)) (some (v.m2 / v.m1)) g.qmax := by
      rw [← outside_eq]; rfl
    rw [hq]
    cases within g.m1min (some v.m1) g.m1max <;>
      cases within (max g.qmin ((1 / 2) / v.m1)) (some (v.m2 / v.m1)) g.qmax <;>
      cases within g.m1min (some v.m2) g.m1max <;>
      cases within (max g.qmin ((1 / 2) / v.m1)) (some (1 / (v.m2 / v.m1))) g.qmax <;> simp

/-- C68.  If the grid of two main-sequence stars is used, the star the grid calls first lies in its mass range, is at
least as massive as the other one (the grid has mass ratios up to one), the ratio is not below the grid's smallest, and
both stars have at least half a solar mass. -/
theorem C68_zams_run_inside (g : Box) (v : View) (f : Bool) (hq : g.qmax = 1) (hm1 : 0 < v.m1) (hm2 : 0 < v.m2)
    (h : msms g v = .run f) :
    ∃ P, v.p = some P ∧ g.pmin ≤ P ∧ P ≤ g.pmax ∧ v.s1 = .hCoreH ∧ v.s2 = .hCoreH ∧ v.e = .ZAMS ∧
      g.m1min ≤ (if f then v.m2 else v.m1) ∧ (if f then v.m2 else v.m1) ≤ g.m1max ∧
      (if f then v.m1 else v.m2) ≤ (if f then v.m2 else v.m1) ∧
      g.qmin * (if f then v.m2 else v.m1) ≤ (if f then v.m1 else v.m2) ∧
      1 / 2 ≤ v.m1 ∧ 1 / 2 ≤ v.m2 := by
  simp only [msms] at h
  split_ifs at h with c1 c2
  · cases h
    simp only [Bool.and_eq_true, beq_iff_eq] at c1
    obtain ⟨⟨⟨⟨⟨hs1, hs2⟩, he⟩, ha⟩, hb⟩, hc⟩ := c1
    cases hp : v.p with
    | none => rw [hp] at hc; simp [within] at hc
    | some P =>
      rw [hp, within_some] at hc
      rw [within_some] at ha hb
      rw [hq] at hb
      obtain ⟨hb1, hb2⟩ := hb
      rw [max_le_iff] at hb1
      obtain ⟨hb1, hb3⟩ := hb1
      have e1 : v.m2 ≤ v.m1 := by rwa [div_le_one hm1] at hb2
      have e2 : g.qmin * v.m1 ≤ v.m2 := by rwa [le_div_iff₀ hm1] at hb1
      have e3 : 1 / 2 ≤ v.m2 := by rwa [div_le_div_iff_of_pos_right hm1] at hb3
      exact ⟨P, rfl, hc.1, hc.2, hs1, hs2, he, ha.1, ha.2, e1, e2, le_trans e3 e1, e3⟩
  · cases h
    simp only [Bool.and_eq_true, beq_iff_eq] at c2
    obtain ⟨⟨⟨⟨⟨hs1, hs2⟩, he⟩, ha⟩, hb⟩, hc⟩ := c2
    cases hp : v.p with
    | none => rw [hp] at hc; simp [within] at hc
    | some P =>
      rw [hp, within_some] at hc
      rw [within_some] at ha hb
      rw [hq, one_div_div] at hb
      obtain ⟨hb1, hb2⟩ := hb
      rw [max_le_iff] at hb1
      obtain ⟨hb1, hb3⟩ := hb1
      have e1 : v.m1 ≤ v.m2 := by rwa [div_le_one hm2] at hb2
      have e2 : g.qmin * v.m2 ≤ v.m1 := by rwa [le_div_iff₀ hm2] at hb1
      have e3 : 1 / 2 ≤ v.m1 := by
        have := le_trans hb3 hb2
        rw [div_le_one hm1] at this
        exact this
      exact ⟨P, rfl, hc.1, hc.2, hs1, hs2, he, ha.1, ha.2, e1, e2, e3, le_trans e3 e1⟩

/-- C68.  Exchanging the labels of two main-sequence stars changes only which label the grid uses, if both stars are
massive enough that the smallest mass ratio of the grid is the binding limit (with the grid's 0.05: both at least ten
solar masses), or the period is outside the grid.  Missing: see `C68_zams_mirror_violated`. -/
theorem C68_zams_mirror_partial (g : Box) (v : View) (hq : g.qmax = 1) (hm1 : 0 < v.m1) (hm2 : 0 < v.m2)
    (hne : v.m1 ≠ v.m2) (he : v.e = .ZAMS) (hs1 : v.s1 = .hCoreH) (hs2 : v.s2 = .hCoreH)
    (hx : 1 / 2 ≤ g.qmin * v.m1) (hy : 1 / 2 ≤ g.qmin * v.m2) (f : Bool) :
    msms g v = .run f ↔ msms g v.mirror = .run (!f) := by
  have k1 : max g.qmin ((1 / 2) / v.m1) = g.qmin := by
    rw [max_eq_left]; rwa [div_le_iff₀ hm1]
  have k2 : max g.qmin ((1 / 2) / v.m2) = g.qmin := by
    rw [max_eq_left]; rwa [div_le_iff₀ hm2]
  have hz : (v.s1 == .hCoreH && v.s2 == .hCoreH && v.e == .ZAMS) = true := by simp [hs1, hs2, he]
  have hz' : (v.s2 == .hCoreH && v.s1 == .hCoreH && v.e.mirror == .ZAMS) = true := by
    simp [hs1, hs2, he, Ev.mirror]
  simp only [msms, View.mirror, k1, k2, hz, hz', one_div_div, hq]
  -- at most one of the two ratios is at most one
  have hex : ¬ (within g.qmin (some (v.m2 / v.m1)) 1 = true ∧ within g.qmin (some (v.m1 / v.m2)) 1 = true) := by
    rw [within_some, within_some, div_le_one hm1, div_le_one hm2]
    rintro ⟨⟨_, a⟩, ⟨_, b⟩⟩
    exact hne (le_antisymm b a)
  have o1 : (decide (v.m2 / v.m1 < g.qmin) || decide (1 < v.m2 / v.m1)) = !within g.qmin (some (v.m2 / v.m1)) 1 := by
    rw [← outside_eq]; rfl
  have o2 : (decide (v.m1 / v.m2 < g.qmin) || decide (1 < v.m1 / v.m2)) = !within g.qmin (some (v.m1 / v.m2)) 1 := by
    rw [← outside_eq]; rfl
  have u1 : (v.s1 == Star.hCoreCDep) = false := by rw [hs1]; rfl
  have u2 : (v.s2 == Star.hCoreCDep) = false := by rw [hs2]; rfl
  simp only [o1, o2, outside_eq, u1, u2]
  clear hz hz' o1 o2 u1 u2 k1 k2
  generalize within g.qmin (some (v.m2 / v.m1)) 1 = x at *
  generalize within g.qmin (some (v.m1 / v.m2)) 1 = y at *
  generalize within g.m1min (some v.m1) g.m1max = c at *
  generalize within g.m1min (some v.m2) g.m1max = d at *
  generalize within g.pmin v.p g.pmax = pin at *
  generalize above v.p g.pmax = pa at *
  generalize below v.p g.pmin = pb at *
  revert x y c d pin pa pb f
  decide

/-- C68 is false for main-sequence binaries in full: the limit of half a solar mass for the less massive star uses the
mass of the less massive star twice when the labels are exchanged.  A 5 + 100 binary fails, the same binary written
100 + 5 runs. -/
theorem C68_zams_mirror_violated :
    ∃ (g : Box) (v : View), v.s1 = .hCoreH ∧ v.s2 = .hCoreH ∧ v.e = .ZAMS ∧ v.m1 = 5 ∧ v.m2 = 100 ∧
      g.qmin = 1 / 20 ∧ g.qmax = 1 ∧ msms g v.mirror = .run false ∧ msms g v = .gridError :=
  ⟨⟨1 / 2, 300, 1 / 2, 300, 1 / 10, 6000, 1 / 20, 1, 1 / 2⟩, ⟨.hCoreH, .hCoreH, .ZAMS, 5, 100, some 10, some 0⟩,
    rfl, rfl, rfl, rfl, rfl, rfl, rfl, by decide +kernel, by decide +kernel⟩

/-- C68 is false for main-sequence binaries in a second way: unlike in the other steps the eccentricity is not looked
at; whatever it is, the grid of circular binaries is used. -/
theorem C68_zams_eccentricity_violated (g : Box) (v : View) (e : Option ℚ) : msms g { v with ecc := e } = msms g v := rfl

/-! ### Two evolved stars in Roche-lobe overflow -/

/-- C68 is false for two stars without compact object: the labels are never exchanged, so a donor that is called second
must still be the less massive star; the mirror image of a binary that runs is marked as failed. -/
theorem C68_hms_rlo_mirror_violated :
    ∃ (g : Box) (v : View), v.s1 = .hShellH ∧ v.s2 = .hCoreH ∧ v.e = .oRLO1 ∧ v.m1 = 20 ∧ v.m2 = 10 ∧
      hmsRlo g v = .run false ∧ hmsRlo g v.mirror = .gridError :=
  ⟨⟨1, 300, 1 / 2, 300, 1 / 10, 6000, 1 / 20, 1, 1 / 2⟩, ⟨.hShellH, .hCoreH, .oRLO1, 20, 10, some 10, some 0⟩,
    rfl, rfl, rfl, rfl, rfl, by decide +kernel, by decide +kernel⟩

/-- Consequence: whatever the grid, the result for a donor called second has nothing to do with the donor: replacing the
event by the one of the other star gives the same decision (unless a star has exhausted its carbon). -/
theorem C68_hms_rlo_donor_ignored (g : Box) (v : View) (h1 : v.s1 ≠ .hCoreCDep) (h2 : v.s2 ≠ .hCoreCDep) :
    hmsRlo g { v with e := .oRLO1 } = hmsRlo g { v with e := .oRLO2 } := by
  have a1 : (v.s1 == Star.hCoreCDep) = false := beq_eq_false_iff_ne.2 h1
  have a2 : (v.s2 == Star.hCoreCDep) = false := beq_eq_false_iff_ne.2 h2
  simp only [hmsRlo, a1, a2]
  cases rloStates.contains v.s1 <;> cases rloStates.contains v.s2 <;> rfl

/-- C68 is false here in a third way: binaries outside the grid get an event that is not among the events of the flow
chart, so that no chart has a key for them. -/
theorem C68_hms_rlo_redirect_violated (g : Box) (v : View) (P : ℚ) (hp : v.p = some P) (hP : g.pmax < P)
    (h1 : v.s1 ∈ rloStates) (h2 : v.s2 ∈ rloStates) (d1 : v.s1 ≠ .hCoreCDep) (he : v.e = .oRLO1) :
    hmsRlo g v = .unknown (some .detached) "redirect_from_HMS_HMS_RLO" := by
  have hw : within g.pmin v.p g.pmax = false := by
    rw [hp]; exact Bool.eq_false_iff.2 (fun h' => absurd ((within_some _ _ _).1 h').2 (not_le.2 hP))
  simp [hmsRlo, h1, h2, he, d1, hw]

/-! ### The steps and the flow chart fit together -/

/-- Star states which the chart sends to the grid of compact objects and hydrogen-rich stars and which that step does
not accept. -/
def refused : List Star := [.hShellHe, .aShellH]

/-- What the chart knows about the binaries it sends to each grid step. -/
def routedOk (s1 s2 : Star) (b : BState) (e : Ev) : Step → Bool
  | .HMS_HMS => (s1 == .hCoreH && s2 == .hCoreH && e == .ZAMS) && routeSpec ⟨s1, s2, b, .rZAMS⟩ == some .detached
  | .CO_HMS_RLO => (refused.contains s1 || refused.contains s2 ||
        ((compact s2 && rloStates.contains s1 && e == .oRLO1) || (compact s1 && rloStates.contains s2 && e == .oRLO2))) &&
      (routeSpec ⟨s1, s2, .detached, .rCOHMSRLO⟩ == some .detached && s1 != .hCoreCDep && s2 != .hCoreCDep)
  | .CO_HeMS_RLO => ((compact s2 && heStates.contains s1 && e == .oRLO1) ||
        (compact s1 && heStates.contains s2 && e == .oRLO2)) &&
      (routeSpec ⟨s1, s2, .detached, .rCOHeMSRLO⟩ == some .detached && s1 != .sCoreCDep && s2 != .sCoreCDep)
  | .CO_HeMS => ((compact s2 && heStates.contains s1 && e == .none) ||
        (compact s1 && heStates.contains s2 && e == .none)) &&
      (routeSpec ⟨s1, s2, .detached, .rCOHeMS⟩ == some .detached && s1 != .sCoreCDep && s2 != .sCoreCDep)
  | .HMS_HMS_RLO => false
  | _ => true

/-- Checked over the whole (finite) table of keys. -/
theorem routed_check : (Ev.all.all fun e => BState.all.all fun b => Star.all.all fun s1 => Star.all.all fun s2 =>
    match routeSpec ⟨s1, s2, b, e⟩ with
    | some st => routedOk s1 s2 b e st
    | none => true) = true := by decide +kernel

theorem routed (s1 s2 : Star) (b : BState) (e : Ev) (st : Step) (h : routeSpec ⟨s1, s2, b, e⟩ = some st) :
    routedOk s1 s2 b e st = true := by
  have h1 := List.all_eq_true.1 routed_check e (Ev.mem_all e)
  have h2 := List.all_eq_true.1 h1 b (BState.mem_all b)
  have h3 := List.all_eq_true.1 h2 s1 (Star.mem_all s1)
  have h4 := List.all_eq_true.1 h3 s2 (Star.mem_all s2)
  rw [h] at h4
  exact h4

theorem orient_ok (v : View) (l : List Star) (d : Star) (e1 e2 : Ev)
    (h : ((compact v.s2 && l.contains v.s1 && v.e == e1) || (compact v.s1 && l.contains v.s2 && v.e == e2)) = true) :
    orient l d e1 e2 v ≠ .inl .flowError := by
  simp only [orient]
  generalize (compact v.s2 && l.contains v.s1 && v.e == e1) = x at *
  generalize (compact v.s1 && l.contains v.s2 && v.e == e2) = y at *
  cases x <;> cases y <;> cases (v.s1 == d) <;> cases (v.s2 == d) <;> simp at h ⊢

theorem orient_next (v : View) (l : List Star) (d : Star) (e1 e2 : Ev) (o : Out) (h1 : v.s1 ≠ d) (h2 : v.s2 ≠ d)
    (h : orient l d e1 e2 v = .inl o) : o = .flowError := by
  simp only [orient, beq_eq_false_iff_ne.2 h1, beq_eq_false_iff_ne.2 h2] at h
  generalize (compact v.s2 && l.contains v.s1 && v.e == e1) = x at *
  generalize (compact v.s1 && l.contains v.s2 && v.e == e2) = y at *
  cases x <;> cases y <;> simp at h ⊢
  exact h.symm

/-- The decisions after the orientation: accepted binaries do not end with a flow error, and are handed on only with the
redirection of the step. -/
theorem coHms_ends (g : Box) (v : View) :
    (orient rloStates .hCoreCDep .oRLO1 .oRLO2 v ≠ .inl .flowError → coHms g v ≠ .flowError) ∧
    (v.s1 ≠ .hCoreCDep → v.s2 ≠ .hCoreCDep → ∀ nb ne, coHms g v = .next nb ne →
      nb = some .detached ∧ ne = .rCOHMSRLO) := by
  simp only [coHms]
  cases h : orient rloStates .hCoreCDep .oRLO1 .oRLO2 v with
  | inl o =>
    refine ⟨fun ho hc => ho (by simp only at hc; rw [hc]), fun h1 h2 nb ne hn => ?_⟩
    have := orient_next v _ _ _ _ _ h1 h2 h
    simp only at hn
    rw [this] at hn
    cases hn
  | inr f =>
    simp only
    constructor
    · intro _; split_ifs <;> simp
    · intro _ _ nb ne hn
      split_ifs at hn <;> cases hn
      exact ⟨rfl, rfl⟩

theorem coHeRlo_ends (g : Box) (v : View) :
    (orient heStates .sCoreCDep .oRLO1 .oRLO2 v ≠ .inl .flowError → coHeRlo g v ≠ .flowError) ∧
    (v.s1 ≠ .sCoreCDep → v.s2 ≠ .sCoreCDep → ∀ nb ne, coHeRlo g v = .next nb ne →
      nb = some .detached ∧ ne = .rCOHeMSRLO) := by
  simp only [coHeRlo]
  cases h : orient heStates .sCoreCDep .oRLO1 .oRLO2 v with
  | inl o =>
    refine ⟨fun ho hc => ho (by simp only at hc; rw [hc]), fun h1 h2 nb ne hn => ?_⟩
    have := orient_next v _ _ _ _ _ h1 h2 h
    simp only at hn
    rw [this] at hn
    cases hn
  | inr f =>
    simp only
    constructor
    · intro _; split_ifs <;> simp
    · intro _ _ nb ne hn
      split_ifs at hn <;> cases hn
      exact ⟨rfl, rfl⟩

theorem coHe_ends (g : Box) (v : View) :
    (orient heStates .sCoreCDep .none .none v ≠ .inl .flowError → coHe g v ≠ .flowError) ∧
    (v.s1 ≠ .sCoreCDep → v.s2 ≠ .sCoreCDep → ∀ nb ne, coHe g v = .next nb ne →
      nb = some .detached ∧ ne = .rCOHeMS) := by
  simp only [coHe]
  cases h : orient heStates .sCoreCDep .none .none v with
  | inl o =>
    refine ⟨fun ho hc => ho (by simp only at hc; rw [hc]), fun h1 h2 nb ne hn => ?_⟩
    have := orient_next v _ _ _ _ _ h1 h2 h
    simp only at hn
    rw [this] at hn
    cases hn
  | inr f =>
    simp only
    constructor
    · intro _; split_ifs <;> simp
    · intro _ _ nb ne hn
      split_ifs at hn <;> cases hn
      exact ⟨rfl, rfl⟩

/-- C68.  A binary which the default flow chart sends to a grid step is accepted by that step (it never ends with a
flow error), except for donors with a helium-burning shell or accreted envelope with hydrogen-burning shell in the
grid with compact objects.  Main-sequence binaries must have a period that is a number. -/
theorem C68_chart_accepts_partial (g : Box) (k : Key) (st : Step) (D : View → Out) (v : View)
    (hk : defaultChart k = some st) (hD : stepOf g st = some D)
    (hv : v.s1 = k.s1 ∧ v.s2 = k.s2 ∧ v.e = k.e) (hp : v.p ≠ none)
    (hr : k.s1 ∉ refused ∧ k.s2 ∉ refused) : D v ≠ .flowError := by
  rw [C01_routing] at hk
  obtain ⟨s1, s2, b, e⟩ := k
  obtain ⟨rfl, rfl, rfl⟩ := hv
  have hf := routed _ _ _ _ _ hk
  cases st <;> simp only [stepOf, reduceCtorEq, Option.some.injEq] at hD <;> subst hD
  case HMS_HMS =>
    obtain ⟨P, hP'⟩ := Option.ne_none_iff_exists'.1 hp
    simp only [routedOk, Bool.and_eq_true, beq_iff_eq] at hf
    have h := C68_zams_total g v P hf.1.1.1 hf.1.1.2 hf.1.2 hP'
    by_cases hP : g.pmin ≤ P ∧ P ≤ g.pmax
    · rcases h.2 hP with h | h | h <;> rw [h] <;> simp
    · rw [h.1 hP]; simp
  case CO_HMS_RLO =>
    have hrr : refused.contains v.s1 = false ∧ refused.contains v.s2 = false := by
      simpa [List.contains_iff_mem] using hr
    simp only [routedOk, hrr.1, hrr.2, Bool.false_or] at hf
    rw [Bool.and_eq_true] at hf
    exact (coHms_ends g v).1 (orient_ok v _ _ _ _ hf.1)
  case CO_HeMS_RLO =>
    simp only [routedOk] at hf
    rw [Bool.and_eq_true] at hf
    exact (coHeRlo_ends g v).1 (orient_ok v _ _ _ _ hf.1)
  case CO_HeMS =>
    simp only [routedOk] at hf
    rw [Bool.and_eq_true] at hf
    exact (coHe_ends g v).1 (orient_ok v _ _ _ _ hf.1)
  case HMS_HMS_RLO => simp [routedOk] at hf

/-- C68 is false for the refused states: the chart sends a hydrogen-rich star with a helium-burning shell and an
accretor with a hydrogen-burning shell to a step which always ends with a flow error. -/
theorem C68_chart_accepts_violated (g : Box) (v : View) (s : Star) (hs : s ∈ refused) (h1 : v.s1 = s) (h2 : v.s2 = .BH)
    (he : v.e = .oRLO1) :
    defaultChart ⟨v.s1, v.s2, .RLO1, v.e⟩ = some .CO_HMS_RLO ∧ coHms g v = .flowError := by
  simp only [refused, List.mem_cons, List.not_mem_nil, or_false] at hs
  rw [C01_routing, h1, h2, he]
  rcases hs with rfl | rfl
  · exact ⟨rfl, by simp only [coHms, orient, h1, h2, he]; rfl⟩
  · exact ⟨rfl, by simp only [coHms, orient, h1, h2, he]; rfl⟩

/-- C68 is false for the chart for eccentric binaries: it sends two overflowing stars to the grid of two stars even if
one of them has lost its hydrogen, and that step ends with a flow error. -/
theorem C68_eccentric_chart_violated (g : Box) (v : View) (h1 : v.s1 = .sCoreHe) (h2 : v.s2 = .hCoreH)
    (he : v.e = .oRLO1) :
    initialEccentricityFlowChart none none ⟨v.s1, v.s2, .RLO1, v.e⟩ = some .HMS_HMS_RLO ∧
      hmsRlo g v = .flowError := by
  rw [h1, h2, he]
  refine ⟨by decide +kernel, ?_⟩
  have hc : rloStates.contains v.s1 = false := by rw [h1]; decide
  simp only [hmsRlo, hc, Bool.and_false, Bool.false_and]
  rfl

/-- C68.  When a step with a compact object or of main-sequence stars hands the binary on with a new event, the default
flow chart knows what to do with it: the binary goes to the detached step. -/
theorem C68_handed_on (g : Box) (k : Key) (st : Step) (D : View → Out) (v : View) (nb : Option BState) (ne : Ev)
    (hk : defaultChart k = some st) (hD : stepOf g st = some D)
    (hv : v.s1 = k.s1 ∧ v.s2 = k.s2 ∧ v.e = k.e) (ho : D v = .next nb ne) :
    defaultChart ⟨k.s1, k.s2, nb.getD k.b, ne⟩ = some .detached := by
  rw [C01_routing] at hk ⊢
  obtain ⟨s1, s2, b, e⟩ := k
  obtain ⟨rfl, rfl, rfl⟩ := hv
  have hf := routed _ _ _ _ _ hk
  cases st <;> simp only [stepOf, reduceCtorEq, Option.some.injEq] at hD <;> subst hD
  case HMS_HMS =>
    simp only [routedOk, Bool.and_eq_true, beq_iff_eq] at hf
    have : nb = none ∧ ne = .rZAMS := by
      have n1 : (v.s1 == Star.hCoreCDep) = false := by rw [hf.1.1.1]; rfl
      have n2 : (v.s2 == Star.hCoreCDep) = false := by rw [hf.1.1.2]; rfl
      simp only [msms, n1, n2, Bool.false_eq_true, if_false] at ho
      split_ifs at ho <;> cases ho <;> exact ⟨rfl, rfl⟩
    obtain ⟨rfl, rfl⟩ := this
    exact hf.2
  case CO_HMS_RLO =>
    simp only [routedOk] at hf
    rw [Bool.and_eq_true] at hf
    have hf2 := hf.2
    simp only [Bool.and_eq_true, beq_iff_eq, bne_iff_ne] at hf2
    obtain ⟨rfl, rfl⟩ := (coHms_ends g v).2 hf2.1.2 hf2.2 _ _ ho
    exact hf2.1.1
  case CO_HeMS_RLO =>
    simp only [routedOk] at hf
    rw [Bool.and_eq_true] at hf
    have hf2 := hf.2
    simp only [Bool.and_eq_true, beq_iff_eq, bne_iff_ne] at hf2
    obtain ⟨rfl, rfl⟩ := (coHeRlo_ends g v).2 hf2.1.2 hf2.2 _ _ ho
    exact hf2.1.1
  case CO_HeMS =>
    simp only [routedOk] at hf
    rw [Bool.and_eq_true] at hf
    have hf2 := hf.2
    simp only [Bool.and_eq_true, beq_iff_eq, bne_iff_ne] at hf2
    obtain ⟨rfl, rfl⟩ := (coHe_ends g v).2 hf2.1.2 hf2.2 _ _ ho
    exact hf2.1.1
  case HMS_HMS_RLO => simp [routedOk] at hf

/-- C68.  A star with exhausted carbon is handed to the supernova step by every step that looks for it: the event names
that star and the default flow chart sends the binary to the supernova step. -/
theorem C68_exhausted (g : Box) (v : View) (b : BState) (hb : b = .RLO1 ∨ b = .RLO2 ∨ b = .detached) :
    (v.s1 = .hCoreCDep → v.e = .oRLO1 → compact v.s2 = true →
      coHms g v = .next none .CC1 ∧ defaultChart ⟨v.s1, v.s2, b, .CC1⟩ = some .SN) ∧
    (v.s2 = .hCoreCDep → v.e = .oRLO2 → compact v.s1 = true →
      coHms g v = .next none .CC2 ∧ defaultChart ⟨v.s1, v.s2, b, .CC2⟩ = some .SN) ∧
    (v.s1 = .sCoreCDep → compact v.s2 = true →
      (v.e = .oRLO1 → coHeRlo g v = .next none .CC1) ∧ (v.e = .none → coHe g v = .next none .CC1) ∧
      defaultChart ⟨v.s1, v.s2, b, .CC1⟩ = some .SN) ∧
    (v.s2 = .sCoreCDep → compact v.s1 = true →
      (v.e = .oRLO2 → coHeRlo g v = .next none .CC2) ∧ (v.e = .none → coHe g v = .next none .CC2) ∧
      defaultChart ⟨v.s1, v.s2, b, .CC2⟩ = some .SN) := by
  have r1 : ∀ s : Star, s = .hCoreCDep ∨ s = .sCoreCDep → ∀ t, compact t = true → ∀ b',
      (b' = BState.RLO1 ∨ b' = .RLO2 ∨ b' = .detached) →
      routeSpec ⟨s, t, b', .CC1⟩ = some .SN ∧ routeSpec ⟨t, s, b', .CC2⟩ = some .SN := by
    intro s hs t ht b' hb'
    rcases hs with rfl | rfl <;> rcases hb' with rfl | rfl | rfl <;> revert ht <;> cases t <;> decide
  have nc : ∀ s : Star, s = .hCoreCDep ∨ s = .sCoreCDep → compact s = false := by
    intro s hs; rcases hs with rfl | rfl <;> decide
  refine ⟨fun h1 he hc => ⟨?_, ?_⟩, fun h2 he hc => ⟨?_, ?_⟩, fun h1 hc => ⟨fun he => ?_, fun he => ?_, ?_⟩,
    fun h2 hc => ⟨fun he => ?_, fun he => ?_, ?_⟩⟩
  · rw [(C68_co_hms g v).1 he hc (by rw [h1]; decide), if_pos h1]
  · rw [C01_routing]; exact (r1 _ (Or.inl h1) _ hc _ hb).1
  · rw [(C68_co_hms g v).2 he hc (by rw [h2]; decide), if_pos h2]
  · rw [C01_routing]; exact (r1 _ (Or.inl h2) _ hc _ hb).2
  · have : orient heStates .sCoreCDep .oRLO1 .oRLO2 v = .inl (.next none .CC1) := by
      simp only [orient, h1, he, hc]; rfl
    simp only [coHeRlo, this]
  · rw [(C68_co_he_partial g v).1 he hc (by rw [h1]; decide), if_pos h1]
  · rw [C01_routing]; exact (r1 _ (Or.inr h1) _ hc _ hb).1
  · have : orient heStates .sCoreCDep .oRLO1 .oRLO2 v = .inl (.next none .CC2) := by
      simp only [orient, h2, he, hc]; rfl
    simp only [coHeRlo, this]
  · have : orient heStates .sCoreCDep .none .none v = .inl (.next none .CC2) := by
      have : compact v.s2 = false := nc _ (Or.inr h2)
      simp only [orient, this, h2, he, hc]; rfl
    simp only [coHe, this]
  · rw [C01_routing]; exact (r1 _ (Or.inr h2) _ hc _ hb).2

/-! ### The frame -/

/-- C68.  Running the grid for a binary whose stars are exchanged first and afterwards exchanged back is the mirror
image of running it for the mirrored binary: the labels of the stars make no difference, whatever the grid does. -/
theorem C68_frame_mirror {S X : Type} (g : Grid S X) (ht : ∀ b, g.time (Flip.flip b) = g.time b) (b : Flip.Binary S X) :
    gridCall g true b = Flip.flip (gridCall g false (Flip.flip b)) := by
  have hst : ∀ c : Flip.Binary S X, ({ Flip.flip c with state := "initial_RLOF" } : Flip.Binary S X) =
      Flip.flip { c with state := "initial_RLOF" } := by
    intro c; simp [Flip.flip, Flip.flipState]
  have hev : ∀ (c : Flip.Binary S X) (s : String), Flip.flipEvent (some s) = some s →
      ({ Flip.flip c with event := some s } : Flip.Binary S X) = Flip.flip { c with event := some s } := by
    intro c s hs; simp [Flip.flip, hs]
  cases hf : g.finalTime (Flip.flip b) with
  | none =>
    have e1 : gridCall g true b = { Flip.flip (Flip.flip b) with state := "initial_RLOF" } := by
      simp only [gridCall, if_true, hf]
    have e2 : gridCall g false (Flip.flip b) = { Flip.flip b with state := "initial_RLOF" } := by
      simp only [gridCall, Bool.false_eq_true, if_false, hf]
    rw [e1, e2]
    exact hst (Flip.flip b)
  | some t =>
    simp only [gridCall, Bool.false_eq_true, if_false, if_true, hf, ht]
    generalize (if g.time b + t > g.tmax then g.limited (Flip.flip b) else g.regular (Flip.flip b)) = c
    by_cases h1 : g.time c > g.tmax
    · simp only [if_pos h1]; exact hev c _ (by decide)
    · simp only [if_neg h1]
      by_cases h2 : g.time c = g.tmax
      · simp only [if_pos h2]; exact hev c _ (by decide)
      · simp only [if_neg h2]

/-- C68.  After a grid run the event says that the time is up exactly when the time limit is reached or exceeded, and a
binary without track is left alone except for its state. -/
theorem C68_frame_events {S X : Type} (g : Grid S X) (he : ∀ (b : Flip.Binary S X) e, g.time { b with event := e } = g.time b)
    (f : Bool) (b : Flip.Binary S X) :
    (g.finalTime (if f then Flip.flip b else b) = none → gridCall g f b = { b with state := "initial_RLOF" }) ∧
    (g.finalTime (if f then Flip.flip b else b) ≠ none →
      (g.tmax < g.time (gridCall g f b) → (gridCall g f b).event = some "MaxTime_exceeded") ∧
      (g.time (gridCall g f b) = g.tmax → (gridCall g f b).event = some "maxtime") ∧
      (g.time (gridCall g f b) < g.tmax →
        gridCall g f b = (let c := if f then Flip.flip b else b
          let d := if g.time c + (g.finalTime c).getD 0 > g.tmax then g.limited c else g.regular c
          if f then Flip.flip d else d))) := by
  constructor
  · intro h
    simp only [gridCall, h]
    cases f <;> simp [Flip.C08_involution]
  · intro h
    obtain ⟨t, ht⟩ := Option.ne_none_iff_exists'.1 h
    simp only [gridCall, ht, Option.getD_some]
    generalize (if f = true then Flip.flip (if g.time (if f = true then Flip.flip b else b) + t > g.tmax
      then g.limited (if f = true then Flip.flip b else b) else g.regular (if f = true then Flip.flip b else b))
      else (if g.time (if f = true then Flip.flip b else b) + t > g.tmax
      then g.limited (if f = true then Flip.flip b else b) else g.regular (if f = true then Flip.flip b else b))) = c
    by_cases h1 : g.time c > g.tmax
    · rw [if_pos h1, he]
      exact ⟨fun _ => rfl, fun h => absurd h (ne_of_gt h1), fun h => absurd h (not_lt.2 (le_of_lt h1))⟩
    · rw [if_neg h1]
      by_cases h2 : g.time c = g.tmax
      · rw [if_pos h2, he]
        exact ⟨fun h => absurd h h1, fun _ => rfl, fun h => absurd h (not_lt.2 (le_of_eq h2.symm))⟩
      · rw [if_neg h2]
        exact ⟨fun h => absurd h h1, fun h => absurd h h2, fun _ => rfl⟩

/-- A concrete case: a black hole with a hydrogen-shell-burning donor called second, inside the grid. -/
example : coHms ⟨1 / 2, 120, 1, 35, 1 / 10, 3000, 0, 1, 0⟩ ⟨.BH, .hShellH, .oRLO2, 10, 25, some 50, some 0⟩ = .run true ∧
    coHms ⟨1 / 2, 120, 1, 35, 1 / 10, 3000, 0, 1, 0⟩ ⟨.BH, .hShellH, .oRLO2, 10, 25, some 50, some (1 / 5)⟩ =
      .next (some .detached) .rCOHMSRLO := by decide +kernel

example : msms ⟨1 / 2, 300, 1 / 2, 300, 1 / 10, 6000, 1 / 20, 1, 1 / 2⟩ ⟨.hCoreH, .hCoreH, .ZAMS, 12, 30, some 10, some 0⟩ =
    .run true := by decide +kernel

/-- C68, what is decided for two overflowing stars neither of which has exhausted its carbon: the star called first has to lie in the range of
primaries and the mass ratio, period and eccentricity in those of the grid; within the periods of the grid any mass or ratio outside is marked as
failed; the rest is sent away. -/
theorem C68_hms_rlo_outcome (g : Box) (v : View) (h1 : v.s1 ∈ rloStates) (h2 : v.s2 ∈ rloStates) (d1 : v.s1 ≠ .hCoreCDep) (d2 : v.s2 ≠ .hCoreCDep)
    (he : v.e = .oRLO1 ∨ v.e = .oRLO2) :
    (within g.pmin v.p g.pmax = false → hmsRlo g v = .unknown (some .detached) "redirect_from_HMS_HMS_RLO") ∧
    (within g.pmin v.p g.pmax = true →
      ((v.m1 < g.m1min ∨ g.m1max < v.m1 ∨ v.m2 / v.m1 < max g.qmin (g.mmin / v.m1) ∨ g.qmax < v.m2 / v.m1) → hmsRlo g v = .gridError) ∧
      (g.m1min ≤ v.m1 → v.m1 ≤ g.m1max → max g.qmin (g.mmin / v.m1) ≤ v.m2 / v.m1 → v.m2 / v.m1 ≤ g.qmax →
        (v.ecc = some 0 → hmsRlo g v = .run false) ∧
        (v.ecc ≠ some 0 → (v.m2 < g.m2min ∨ g.m2max < v.m2 → hmsRlo g v = .gridError) ∧
          (g.m2min ≤ v.m2 → v.m2 ≤ g.m2max → hmsRlo g v = .unknown (some .detached) "redirect_from_HMS_HMS_RLO")))) := by
  have c1 : rloStates.contains v.s1 = true := by simpa using h1
  have c2 : rloStates.contains v.s2 = true := by simpa using h2
  have a1 : (v.s1 == Star.hCoreCDep) = false := beq_eq_false_iff_ne.2 d1
  have a2 : (v.s2 == Star.hCoreCDep) = false := beq_eq_false_iff_ne.2 d2
  have key : hmsRlo g v = if (within g.m1min (some v.m1) g.m1max && within (max g.qmin (g.mmin / v.m1)) (some (v.m2 / v.m1)) g.qmax &&
        within g.pmin v.p g.pmax && circular v.ecc) = true then .run false
      else if (within g.pmin v.p g.pmax && outside g.m1min v.m1 g.m1max) = true then .gridError
      else if (within g.pmin v.p g.pmax && outside g.m2min v.m2 g.m2max) = true then .gridError
      else if (within g.pmin v.p g.pmax && (decide (v.m2 / v.m1 < max g.qmin (g.mmin / v.m1)) || decide (g.qmax < v.m2 / v.m1))) = true then .gridError
      else .unknown (some .detached) "redirect_from_HMS_HMS_RLO" := by
    unfold hmsRlo
    rcases he with he | he <;>
      simp only [c1, c2, he, a1, a2, Bool.and_self, Bool.true_and, beq_self_eq_true, if_true, Bool.not_false, Bool.false_and, Bool.or_false,
        Bool.false_eq_true, if_false, show (Ev.oRLO2 == Ev.oRLO1) = false from rfl]
  rw [key]
  refine ⟨fun hp => ?_, fun hp => ⟨fun ho => ?_, fun b1 b2 b3 b4 => ⟨fun hz => ?_, fun hz => ⟨fun ho => ?_, fun b5 b6 => ?_⟩⟩⟩⟩
  · simp [hp]
  · have hin : (within g.m1min (some v.m1) g.m1max && within (max g.qmin (g.mmin / v.m1)) (some (v.m2 / v.m1)) g.qmax &&
        within g.pmin v.p g.pmax && circular v.ecc) = false := by
      rw [Bool.eq_false_iff]
      intro hc
      simp only [Bool.and_eq_true, within_some] at hc
      obtain ⟨⟨⟨⟨x1, x2⟩, x3, x4⟩, _⟩, _⟩ := hc
      rcases ho with ho | ho | ho | ho
      · exact absurd x1 (not_le.2 ho)
      · exact absurd x2 (not_le.2 ho)
      · exact absurd x3 (not_le.2 ho)
      · exact absurd x4 (not_le.2 ho)
    rw [if_neg (by rw [hin]; decide)]
    by_cases y1 : (within g.pmin v.p g.pmax && outside g.m1min v.m1 g.m1max) = true
    · rw [if_pos y1]
    · rw [if_neg y1]
      by_cases y2 : (within g.pmin v.p g.pmax && outside g.m2min v.m2 g.m2max) = true
      · rw [if_pos y2]
      · rw [if_neg y2, if_pos]
        rw [hp, Bool.true_and, Bool.or_eq_true, decide_eq_true_eq, decide_eq_true_eq]
        simp only [hp, Bool.true_and, outside, Bool.or_eq_true, decide_eq_true_eq, not_or] at y1
        rcases ho with ho | ho | ho | ho
        · exact absurd ho y1.1
        · exact absurd ho y1.2
        · exact Or.inl ho
        · exact Or.inr ho
  · rw [if_pos]
    simp only [Bool.and_eq_true, within_some]
    exact ⟨⟨⟨⟨b1, b2⟩, b3, b4⟩, hp⟩, by simp [circular, hz]⟩
  · have hc : circular v.ecc = false := by simp [circular, hz]
    have y1 : outside g.m1min v.m1 g.m1max = false := by simp [outside, b1, b2]
    have y2 : outside g.m2min v.m2 g.m2max = true := by simpa [outside] using ho
    simp [hc, hp, y1, y2]
  · have hc : circular v.ecc = false := by simp [circular, hz]
    have y1 : outside g.m1min v.m1 g.m1max = false := by simp [outside, b1, b2]
    have y2 : outside g.m2min v.m2 g.m2max = false := by simp [outside, b5, b6]
    have y3 : (decide (v.m2 / v.m1 < max g.qmin (g.mmin / v.m1)) || decide (g.qmax < v.m2 / v.m1)) = false := by
      rw [Bool.or_eq_false_iff]
      exact ⟨decide_eq_false (not_lt.2 b3), decide_eq_false (not_lt.2 b4)⟩
    simp only [hc, hp, y1, y2, y3, Bool.and_false, Bool.false_eq_true, if_false]

end Verif.Mesa
