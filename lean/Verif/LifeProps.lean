import Verif.Life
/-!
Properties of whole evolutions.
-/
namespace Verif.Life

open Verif.FlowChart
open Verif.MTCase (bstateName)

/-! ### Ranks -/

theorem rank_le (s : Star) : rank s ≤ 2 := by cases s <;> decide

theorem rank_normal {s : Star} : rank s = 2 ↔ isNormal s = true := by cases s <;> decide

theorem rank_zero {s : Star} : rank s = 0 ↔ s = .massless := by cases s <;> decide

theorem rank_compact {s : Star} : rank s = 1 ↔ isCO s = true := by cases s <;> decide

theorem normals_le {k k' : Key} (h1 : rank k'.s1 ≤ rank k.s1) (h2 : rank k'.s2 ≤ rank k.s2) : normals k' ≤ normals k := by
  have key : ∀ {s s' : Star}, rank s' ≤ rank s → (if isNormal s' then 1 else 0 : ℕ) ≤ if isNormal s then 1 else 0 := by
    intro s s' h
    by_cases hn : isNormal s = true
    · rw [if_pos hn]; split_ifs <;> omega
    · have : ¬ isNormal s' = true := fun h' => hn (rank_normal.1 (le_antisymm (rank_le s) ((rank_normal.2 h') ▸ h)))
      rw [if_neg hn, if_neg this]
  exact Nat.add_le_add (key h1) (key h2)

theorem present_le {k k' : Key} (h1 : rank k'.s1 ≤ rank k.s1) (h2 : rank k'.s2 ≤ rank k.s2) : present k' ≤ present k := by
  have key : ∀ {s s' : Star}, rank s' ≤ rank s → (if s' = .massless then 0 else 1 : ℕ) ≤ if s = .massless then 0 else 1 := by
    intro s s' h
    by_cases hn : s = .massless
    · have : s' = .massless := rank_zero.1 (Nat.le_zero.1 (by rw [rank_zero.2 hn] at h; exact h))
      rw [if_pos hn, if_pos this]
    · rw [if_neg hn]; split_ifs <;> omega
  exact Nat.add_le_add (key h1) (key h2)

/-! ### Names -/

theorem star_name_inj {s t : Star} (h : s.name = t.name) : s = t := by
  revert h
  cases s <;> cases t <;> decide

theorem bstate_inj {a b : BState} (h : bstateName a = bstateName b) : a = b := by
  revert h
  cases a <;> cases b <;> decide

/-! ### Grid steps -/

theorem turn_ranks (flip : Bool) {k m : Key} (h1 : rank m.s1 = rank (turn flip k).s1) (h2 : rank m.s2 = rank (turn flip k).s2) :
    rank (turn flip m).s1 = rank k.s1 ∧ rank (turn flip m).s2 = rank k.s2 := by
  cases flip
  · exact ⟨h1, h2⟩
  · exact ⟨h2, h1⟩

theorem grid_ranks {D : Mesa.View → Mesa.Out} {k k' : Key} (h : Grid D k k') : rank k'.s1 = rank k.s1 ∧ rank k'.s2 = rank k.s2 := by
  obtain ⟨v, -, -, -, ⟨nb, ne, -, rfl⟩ | ⟨flip, -, ht⟩⟩ := h
  · exact ⟨rfl, rfl⟩
  · rcases ht with rfl | ⟨cls, x, m, h1, h2, -, -, -, -, h⟩
    · exact ⟨rfl, rfl⟩
    · have := turn_ranks flip h1 h2
      rcases h with rfl | rfl | rfl <;> exact this

/-! ### Detached steps -/

theorem detach_ranks {a : Bool} {k k' : Key} (h : Detach a k k') : rank k'.s1 = rank k.s1 ∧ rank k'.s2 = rank k.s2 := by
  obtain ⟨i, o, -, -, -, h1, h2, -, -, rfl⟩ := h
  exact ⟨h1, h2⟩

/-- Alone: the state of the binary is kept, and with a star in it the event is the collapse of a star or the end of the time. -/
theorem detach_alone {k k' : Key} (h : Detach true k k') : k'.b = k.b ∧
    (isNormal k.s1 = true ∨ isNormal k.s2 = true → k'.e = .CC1 ∨ k'.e = .CC2 ∨ k'.e = .maxtime ∨ k'.e = .MaxTimeExceeded) ∧
    (k'.e = k.e ∨ k'.e = .CC1 ∨ k'.e = .CC2 ∨ k'.e = .maxtime ∨ k'.e = .MaxTimeExceeded) := by
  obtain ⟨i, o, hc, hb, he, -, -, hco, ha, rfl⟩ := h
  obtain ⟨a1, a2, a3⟩ := ha rfl
  unfold DetachedEvent.call at hc
  rw [a1] at hc
  simp only [Bool.false_eq_true, if_false] at hc
  split at hc
  · cases hc
  · split at hc
    · cases hc
    · unfold DetachedEvent.finish at hc
      rw [a2, a3, hco] at hc
      by_cases hn : (!isNormal k.s1 && !isNormal k.s2) = true
      · rw [if_pos hn] at hc
        obtain rfl := Except.ok.inj hc
        refine ⟨hb, fun h => ?_, .inl he⟩
        simp only [Bool.and_eq_true, Bool.not_eq_true'] at hn
        rcases h with h | h
        · rw [hn.1] at h; cases h
        · rw [hn.2] at h; cases h
      · rw [if_neg hn] at hc
        simp only [Bool.or_self, Bool.false_eq_true, if_false] at hc
        have key : o.b = i.b ∧ (o.e = .CC1 ∨ o.e = .CC2 ∨ o.e = .maxtime ∨ o.e = .MaxTimeExceeded) := by
          split at hc
          · unfold DetachedEvent.afterSecEnd at hc
            dsimp only at hc
            have e : (if i.secIsOne = true then Ev.CC1 else Ev.CC2) = .CC1 ∨ (if i.secIsOne = true then Ev.CC1 else Ev.CC2) = .CC2 := by
              cases i.secIsOne <;> simp
            have fin : (if i.secIsOne = true then Ev.CC1 else Ev.CC2) = .CC1 ∨ (if i.secIsOne = true then Ev.CC1 else Ev.CC2) = .CC2 ∨
                (if i.secIsOne = true then Ev.CC1 else Ev.CC2) = .maxtime ∨ (if i.secIsOne = true then Ev.CC1 else Ev.CC2) = .MaxTimeExceeded := by
              rcases e with e | e
              · exact .inl e
              · exact .inr (.inl e)
            split at hc
            · split at hc
              · cases hc
              · obtain rfl := Except.ok.inj hc
                exact ⟨rfl, fin⟩
            · obtain rfl := Except.ok.inj hc
              exact ⟨rfl, fin⟩
          · split at hc
            · obtain rfl := Except.ok.inj hc
              refine ⟨rfl, ?_⟩
              dsimp only
              cases i.secIsOne <;> simp
            · obtain rfl := Except.ok.inj hc
              refine ⟨rfl, ?_⟩
              dsimp only
              cases i.late <;> simp
        exact ⟨key.1.trans hb, fun _ => key.2, .inr key.2⟩

/-! ### The common envelope -/

theorem lambda_normal {c : CE.Cfg} {s : CE.Star} {l : CE.Lam} (h : CE.lambdaCE c s = .ok l) : isNormal s.state = true := by
  unfold CE.lambdaCE at h
  cases hc : CE.coreType c s with
  | error e => rw [hc] at h; cases h
  | ok v =>
    unfold CE.coreType at hc
    by_cases h1 : starPostMS.contains s.state = true
    · revert h1
      cases s.state <;> decide
    · rw [if_neg h1] at hc
      by_cases h2 : starPostHeMS.contains s.state = true
      · revert h2
        cases s.state <;> decide
      · rw [if_neg h2] at hc
        cases hc

theorem stripped_rank {c : CE.Cfg} (hc : ∀ s, isNormal (c.classify s) = true) (ty : CE.CoreType) (m r : ℝ) (s : CE.Star) (hn : isNormal s.state = true) :
    rank (CE.stripped c ty m r s).state = rank s.state := by
  unfold CE.stripped
  dsimp only
  by_cases ht : ty = .notGiant
  · rw [if_pos ht]
    subst ht
    rfl
  · rw [if_neg ht]
    dsimp only
    rw [rank_normal.2 (hc _), rank_normal.2 hn]

theorem reduce_state (ty : CE.CoreType) (m ej : ℝ) (s : CE.Star) : (CE.reduce ty m ej s).state = s.state := by
  unfold CE.reduce
  dsimp only
  split_ifs <;> rfl

theorem run_ranks {c : CE.Cfg} (hc : ∀ s, isNormal (c.classify s) = true) {one double : Bool} {b b' : CE.Binary} {donor comp : CE.Star}
    (hb : donor = (if one then b.star1 else b.star2) ∧ comp = (if one then b.star2 else b.star1)) (h : CE.run c one double b donor comp = .ok b') :
    rank b'.star1.state = rank b.star1.state ∧ rank b'.star2.state = rank b.star2.state := by
  have fin : ∀ d' c' : CE.Star, ∀ b0 : CE.Binary, rank d'.state = rank donor.state → rank c'.state = rank comp.state →
      rank (CE.assemble one b0 d' c').star1.state = rank b.star1.state ∧ rank (CE.assemble one b0 d' c').star2.state = rank b.star2.state := by
    intro d' c' b0 h1 h2
    rw [hb.1] at h1
    rw [hb.2] at h2
    unfold CE.assemble
    cases one
    · exact ⟨h2, h1⟩
    · exact ⟨h1, h2⟩
  unfold CE.run at h
  split at h
  · obtain rfl := Except.ok.inj h
    exact ⟨rfl, rfl⟩
  · split at h
    · cases h1 : CE.lambdaCE c donor with
      | error e => rw [h1] at h; cases h
      | ok l1 =>
        rw [h1] at h
        dsimp only at h
        cases h2 : CE.compLam c comp double with
        | error e => rw [h2] at h; cases h
        | ok l2 =>
          rw [h2] at h
          dsimp only at h
          have hd := lambda_normal h1
          have hcm : double = true → isNormal comp.state = true := by
            intro hdb
            unfold CE.compLam at h2
            rw [if_pos hdb] at h2
            exact lambda_normal h2
          unfold CE.simpleAlpha at h
          dsimp only at h
          split at h
          · cases h
          · cases h3 : CE.companion c comp l1 l2 double (CE.sepAfter c b donor comp l1 l2 double / Orbit.Rsun) with
            | error e => rw [h3] at h; cases h
            | ok v =>
              obtain ⟨comp', rc2⟩ := v
              rw [h3] at h
              dsimp only at h
              have hcs : comp'.state = comp.state := by
                unfold CE.companion at h3
                split at h3
                · split at h3
                  · have := (Prod.mk.inj (Except.ok.inj h3)).1
                    rw [← this]
                  · cases h3
                · have := (Prod.mk.inj (Except.ok.inj h3)).1
                  rw [← this]
              cases h4 : CE.phase c donor comp' l1 l2 rc2 double (CE.sepAfter c b donor comp l1 l2 double / Orbit.Rsun) with
              | error e => rw [h4] at h; cases h
              | ok p =>
                rw [h4] at h
                dsimp only at h
                unfold CE.resolve at h
                have hm : ∀ e1 e2 : ℝ, rank (CE.merge one b donor comp' l1.ty l2.ty e1 e2).star1.state = rank b.star1.state ∧
                    rank (CE.merge one b donor comp' l1.ty l2.ty e1 e2).star2.state = rank b.star2.state := by
                  intro e1 e2
                  unfold CE.merge
                  exact fin _ _ _ (by rw [reduce_state]) (by rw [reduce_state, hcs])
                split at h
                · split at h
                  · split at h
                    · cases h
                    · obtain rfl := Except.ok.inj h
                      exact hm _ _
                  · obtain rfl := Except.ok.inj h
                    exact hm _ _
                · obtain rfl := Except.ok.inj h
                  unfold CE.ejection
                  dsimp only
                  refine fin _ _ _ (stripped_rank hc _ _ _ _ hd) ?_
                  cases double with
                  | false => exact congrArg rank hcs
                  | true =>
                    rw [if_pos rfl, stripped_rank hc _ _ _ _ (by rw [hcs]; exact hcm rfl), hcs]
    · cases h

theorem envelope_ranks {k k' : Key} (h : Envelope k k') : rank k'.s1 = rank k.s1 ∧ rank k'.s2 = rank k.s2 := by
  obtain ⟨c, b, b', hs, hc, rfl, rfl⟩ := h
  unfold CE.step at hs
  split at hs
  · exact run_ranks hc ⟨rfl, rfl⟩ hs
  · exact run_ranks hc ⟨rfl, rfl⟩ hs
  · exact run_ranks hc ⟨rfl, rfl⟩ hs
  · exact run_ranks hc ⟨rfl, rfl⟩ hs
  · cases hs

/-! ### The merger -/

theorem merge_ranks {c : Merged.Cfg} {x y : Merged.Star} {v : Merged.Star × Merged.Star} (h : Merged.merge c x y = .ok v) {a b a' b' : Star}
    (hx : x.state = some a) (hy : y.state = some b) (ha : v.1.state = some a') (hb : v.2.state = some b') (hd : isDead a b = false) :
    rank a' ≤ rank a ∧ rank b' ≤ rank b ∧ a ≠ .massless ∧ b ≠ .massless ∧ (a' = .massless ∨ b' = .massless) := by
  have hbr : Merged.branch x.state y.state ≠ none := by
    intro e
    unfold Merged.merge at h
    rw [e] at h
    cases h
  rw [hx, hy] at hbr
  have tab : isNormal a = true ∧ b ≠ .massless := by
    revert hbr hd
    cases a <;> cases b <;> decide
  have ra : rank a = 2 := rank_normal.2 tab.1
  have ra0 : a ≠ .massless := by
    intro e
    rw [e] at ra
    revert ra
    decide
  cases hbb : Merged.branch x.state y.state with
  | none => rw [hx, hy] at hbb; exact absurd hbb hbr
  | some br =>
    by_cases hn : br = .nsbh
    · subst hn
      unfold Merged.merge at h
      rw [hbb] at h
      obtain rfl := Except.ok.inj h
      have e1 : a' = .massless := (Option.some.inj ha).symm
      have e2 : b' = b := by rw [hy] at hb; exact (Option.some.inj hb).symm
      refine ⟨by rw [ra]; exact rank_le _, by rw [e2], ra0, tab.2, .inl e1⟩
    · obtain ⟨p, -, -, hr⟩ := Merged.merge_ok (m := v.1) (r := v.2) hbb hn h
      rw [hr] at hb
      have e2 : b' = .massless := (Option.some.inj hb).symm
      refine ⟨by rw [ra]; exact rank_le _, by rw [e2, rank_zero.2 rfl]; exact Nat.zero_le _, ra0, tab.2, .inr e2⟩

theorem merger_facts {k k' : Key} (h : Merger k k') (hd : isDead k.s1 k.s2 = false) :
    rank k'.s1 ≤ rank k.s1 ∧ rank k'.s2 ≤ rank k.s2 ∧ present k = 2 ∧ present k' ≤ 1 ∧ k'.b = .merged := by
  obtain ⟨c, b, b', m, hc, h1, h2, hb, he, n1, n2, nb, ne, hdet⟩ := h
  obtain ⟨r1, r2⟩ := detach_ranks hdet
  have hbm : k'.b = .merged := by
    rw [(detach_alone hdet).1, ← nb, (Merged.C35_step_result c b b' hc).1]
  have key : (rank m.s1 ≤ rank k.s1 ∧ rank m.s2 ≤ rank k.s2 ∧ k.s1 ≠ .massless ∧ k.s2 ≠ .massless ∧ (m.s1 = .massless ∨ m.s2 = .massless)) := by
    have ho : ∀ x : Merged.Binary, x.star1 = b.star1 → x.star2 = b.star2 → Merged.mergeOne c x = .ok b' →
        rank m.s1 ≤ rank k.s1 ∧ rank m.s2 ≤ rank k.s2 ∧ k.s1 ≠ .massless ∧ k.s2 ≠ .massless ∧ (m.s1 = .massless ∨ m.s2 = .massless) := by
      intro x x1 x2 hx
      unfold Merged.mergeOne at hx
      cases hv : Merged.merge c x.star1 x.star2 with
      | error e => rw [hv] at hx; cases hx
      | ok v =>
        rw [hv] at hx
        obtain rfl := Except.ok.inj hx
        exact merge_ranks hv (by rw [x1]; exact h1) (by rw [x2]; exact h2) n1 n2 hd
    have ht : ∀ x : Merged.Binary, x.star1 = b.star1 → x.star2 = b.star2 → Merged.mergeTwo c x = .ok b' →
        rank m.s1 ≤ rank k.s1 ∧ rank m.s2 ≤ rank k.s2 ∧ k.s1 ≠ .massless ∧ k.s2 ≠ .massless ∧ (m.s1 = .massless ∨ m.s2 = .massless) := by
      intro x x1 x2 hx
      unfold Merged.mergeTwo at hx
      cases hv : Merged.merge c x.star2 x.star1 with
      | error e => rw [hv] at hx; cases hx
      | ok v =>
        rw [hv] at hx
        obtain rfl := Except.ok.inj hx
        have hd' : isDead k.s2 k.s1 = false := by
          revert hd
          generalize k.s1 = p
          generalize k.s2 = q
          cases p <;> cases q <;> decide
        obtain ⟨a1, a2, a3, a4, a5⟩ := merge_ranks hv (by rw [x2]; exact h2) (by rw [x1]; exact h1) n2 n1 hd'
        exact ⟨a2, a1, a4, a3, a5.symm⟩
    unfold Merged.call at hc
    split at hc
    · split at hc
      · exact ho b rfl rfl hc
      · split at hc
        · exact ht b rfl rfl hc
        · cases hc
    · split at hc
      · split at hc
        · exact ho { b with state := .merged } rfl rfl hc
        · split at hc
          · exact ht { b with state := .merged } rfl rfl hc
          · cases hc
      · cases hc
  obtain ⟨k1, k2, k3, k4, k5⟩ := key
  refine ⟨r1 ▸ k1, r2 ▸ k2, ?_, ?_, hbm⟩
  · unfold present
    rw [if_neg k3, if_neg k4]
  · unfold present
    rcases k5 with e | e
    · have : k'.s1 = .massless := rank_zero.1 (r1.trans (rank_zero.2 e))
      rw [if_pos this]
      split_ifs <;> omega
    · have : k'.s2 = .massless := rank_zero.1 (r2.trans (rank_zero.2 e))
      rw [if_pos this]
      split_ifs <;> omega

/-! ### The supernova -/

theorem name_cc {s : Star} (h : s.name ∈ SNStep.statesCC) : isNormal s = true := by
  revert h
  cases s <;> decide

theorem name_co {s : Star} : s.name ∈ SNStep.statesCO ↔ isCO s = true := by cases s <;> decide

theorem name_massless {s : Star} : s.name = "massless_remnant" ↔ s = .massless := by cases s <;> decide

theorem name_cdep {s : Star} (h : s.name ∈ SNStep.statesCDep) : canCollapse s = true := by
  revert h
  cases s <;> decide

/-- The star that collapses. -/
theorem collapsing_rank {c : SNStep.Cfg} {b b' : SNStep.Binary} (h : SNStep.step c b = .ok b') {s t : Star}
    (hs : (b.star b.event).state = s.name) (ht : (b'.star b.event).state = t.name) : isNormal s = true ∧ rank t ≤ 1 := by
  obtain ⟨-, x, hx, -, -⟩ := SNStep.step_collapse h
  have hcc : (b.star b.event).state ∈ SNStep.statesCC := by
    unfold SNStep.collapse at hx
    by_contra hn
    rw [if_neg hn] at hx
    cases hx
  rw [hs] at hcc
  refine ⟨name_cc hcc, ?_⟩
  have hk := SNStep.C34_remnant_kind c b b' h
  rw [ht] at hk
  rcases hk with ⟨hk, -⟩ | ⟨hk, -⟩
  · rw [rank_zero.2 (name_massless.1 hk)]; exact Nat.zero_le _
  · exact (rank_compact.2 (name_co.1 hk)).le

/-- Its companion. -/
theorem companion_rank {c : SNStep.Cfg} (hc : ∀ s, ∃ x, isNormal x = true ∧ c.classify s = x.name) {b b' : SNStep.Binary} (h : SNStep.step c b = .ok b')
    (hm : (b.mate b.event).state ∈ SNStep.statesCO → 0 < (b.mate b.event).mass) {s t : Star}
    (hs : (b.mate b.event).state = s.name) (ht : (b'.mate b.event).state = t.name) : rank t = rank s := by
  obtain ⟨-, x, -, -, hsame⟩ := SNStep.step_collapse h
  rw [hsame.state] at ht
  unfold SNStep.updateState at ht
  have e0 : (SNStep.resetOther (b.mate b.event)).state = s.name := hs
  by_cases h0 : s.name = "massless_remnant"
  · rw [if_pos (by rw [e0]; exact h0)] at ht
    rw [star_name_inj (e0.symm.trans ht)]
  · rw [if_neg (by rw [e0]; exact h0)] at ht
    by_cases h1 : s.name ∈ SNStep.statesCO
    · rw [if_pos (by rw [e0]; exact h1)] at ht
      rw [rank_compact.2 (name_co.1 h1)]
      refine rank_compact.2 (name_co.1 ?_)
      rw [← ht]
      have hp : 0 < (SNStep.resetOther (b.mate b.event)).mass := hm (by rw [hs]; exact h1)
      dsimp only
      split
      · decide
      · unfold SNStep.coState
        rw [if_neg (not_le.2 hp)]
        split_ifs <;> decide
    · rw [if_neg (by rw [e0]; exact h1)] at ht
      obtain ⟨y, hy, hy'⟩ := hc (SNStep.resetOther (b.mate b.event))
      have : y = t := star_name_inj (hy'.symm.trans ht)
      rw [rank_normal.2 (this ▸ hy)]
      symm
      apply rank_normal.2
      unfold isNormal
      rw [Bool.and_eq_true]
      constructor
      · cases hco : isCO s with
        | false => rfl
        | true => exact absurd (name_co.2 hco) h1
      · exact bne_iff_ne.2 fun e => h0 (name_massless.2 e)

/-- What a supernova does: the star of the event was a star and is one no longer, the other star stays what it is, and the next event is none or
the collapse of the other star. -/
theorem sn_facts {kick : Bool} {k k' : Key} (h : Supernova kick k k') :
    (k.e = .CC1 ∧ isNormal k.s1 = true ∧ rank k'.s1 ≤ 1 ∧ rank k'.s2 = rank k.s2 ∧ (k'.e = .none ∨ (k'.e = .CC2 ∧ canCollapse k'.s2 = true))) ∨
    (k.e = .CC2 ∧ isNormal k.s2 = true ∧ rank k'.s2 ≤ 1 ∧ rank k'.s1 = rank k.s1 ∧ (k'.e = .none ∨ (k'.e = .CC1 ∧ canCollapse k'.s1 = true))) := by
  obtain ⟨c, b, b', -, hst, hc, hm, h1, h2, -, he, h1', h2', -, he'⟩ := h
  have hev := (SNStep.step_collapse hst).1
  have ho := SNStep.C34_collapses_once c b b' hst
  rcases hev with hv | hv
  · left
    have e1 : k.e = .CC1 := by rw [hv] at he; exact (Option.some.inj he).symm
    have a := collapsing_rank hst (s := k.s1) (t := k'.s1) (by rw [hv]; exact h1) (by rw [hv]; exact h1')
    have bq := companion_rank hc hst hm (s := k.s2) (t := k'.s2) (by rw [hv]; exact h2) (by rw [hv]; exact h2')
    refine ⟨e1, a.1, a.2, bq, ?_⟩
    rcases ho with ho | ⟨ho, hd⟩
    · rw [ho] at he'; exact .inl (Option.some.inj he').symm
    · rw [ho, hv] at he'
      refine .inr ⟨(Option.some.inj he').symm, name_cdep ?_⟩
      rw [hv] at hd
      rw [← h2']
      exact hd
  · right
    have e1 : k.e = .CC2 := by rw [hv] at he; exact (Option.some.inj he).symm
    have a := collapsing_rank hst (s := k.s2) (t := k'.s2) (by rw [hv]; exact h2) (by rw [hv]; exact h2')
    have bq := companion_rank hc hst hm (s := k.s1) (t := k'.s1) (by rw [hv]; exact h1) (by rw [hv]; exact h1')
    refine ⟨e1, a.1, a.2, bq, ?_⟩
    rcases ho with ho | ⟨ho, hd⟩
    · rw [ho] at he'; exact .inl (Option.some.inj he').symm
    · rw [ho, hv] at he'
      refine .inr ⟨(Option.some.inj he').symm, name_cdep ?_⟩
      rw [hv] at hd
      rw [← h1']
      exact hd

/-- Nothing is left of a star only if it does not become a white dwarf. -/
theorem gone_type {c : SNStep.Cfg} {s s' : SNStep.Star} (h : SNStep.collapse c s = .ok s') (hs : s'.state = "massless_remnant") : s'.snType ≠ "WD" := by
  have hrad : ∀ x y : SNStep.Star, SNStep.setRadius x = .ok y → y.state = x.state ∧ x.state ≠ "massless_remnant" := by
    intro x y hxy
    unfold SNStep.setRadius at hxy
    cases hr : SNStep.coRadius x.mass x.state with
    | error e => rw [hr] at hxy; cases hxy
    | ok r =>
      rw [hr] at hxy
      obtain rfl := Except.ok.inj hxy
      refine ⟨rfl, fun e => ?_⟩
      rw [e] at hr
      unfold SNStep.coRadius at hr
      split at hr
      · cases hr
      · rw [if_neg (by decide), if_neg (by decide), if_neg (by decide)] at hr
        cases hr
  have hwd : ∀ x y : SNStep.Star, SNStep.wipeWD x = .ok y → y.state = x.state := by
    intro x y hxy
    unfold SNStep.wipeWD at hxy
    split at hxy
    · cases hxy
    · cases hxy; rfl
  obtain ⟨-, ⟨ty, p, h⟩ | ⟨-, q, m, ty, -, -, -, -, h⟩⟩ := SNStep.collapse_cases h
  · obtain ⟨r, -, ⟨-, s2, h1, h2⟩ | ⟨hn, -, rfl⟩ | ⟨-, m, s2, -, h1, -⟩⟩ := SNStep.collapseCore_cases h
    · obtain ⟨a1, a2⟩ := hrad _ _ h1
      rw [hwd _ _ h2, a1] at hs
      exact absurd hs a2
    · intro e
      apply hn
      rw [← e]
      unfold SNStep.toMassless SNStep.prepared
      cases c.engine <;> rfl
    · unfold SNStep.finish at h1
      split at h1
      · cases h1
      · rename_i s3 h3
        cases h1
        obtain ⟨a1, a2⟩ := hrad _ _ h3
        exact absurd (a1.symm.trans hs) a2
  · unfold SNStep.fromModel at h
    simp only at h
    split at h
    · cases h
    · split at h
      · rename_i hp
        cases h
        intro e
        have : ("PISN" : String) = "WD" := hp.symm.trans e
        revert this
        decide
      · obtain ⟨a1, a2⟩ := hrad _ _ h
        rw [a1] at hs
        exact absurd hs a2

theorem alone_name (b : BState) : SNStep.alone (bstateName b) = true ↔ Alone b := by
  unfold Alone
  cases b <;> decide

/-- With kicks: stars without a companion stay so, and a pair is left whole or disrupted, the latter if nothing is left of the star. -/
theorem sn_state {k k' : Key} (h : Supernova true k k') :
    (Alone k.b → k'.b = k.b) ∧ (¬ Alone k.b → k'.b = .disrupted ∨ (k'.b = .detached ∧ (k.s1 ≠ .massless → k'.s1 ≠ .massless) ∧ (k.s2 ≠ .massless → k'.s2 ≠ .massless))) := by
  have hf := sn_facts h
  obtain ⟨c, b, b', hk, hst, hc, hm, h1, h2, hb, he, h1', h2', hb', he'⟩ := h
  refine ⟨fun ha => ?_, fun ha => ?_⟩
  · have := (SNStep.C34_alone c b b' hk hst (by rw [hb]; exact (alone_name _).2 ha)).1
    rw [hb, hb'] at this
    exact bstate_inj this
  · have ha' : SNStep.alone b.state = false := by
      rw [hb]
      cases h : SNStep.alone (bstateName k.b) with
      | false => rfl
      | true => exact absurd ((alone_name _).1 h) ha
    have hmate : ∀ {s t : Star}, rank t = rank s → s ≠ .massless → t ≠ .massless := fun hr hs e => hs (rank_zero.1 (hr ▸ rank_zero.2 e))
    by_cases hmass : (b'.star b.event).state = "massless_remnant"
    · left
      have hty : (b'.star b.event).snType ≠ "WD" := by
        obtain ⟨-, x, hx, hsame, -⟩ := SNStep.step_collapse hst
        rw [hsame.snType]
        rw [hsame.state] at hmass
        have hx0 : x.state = "massless_remnant" := by
          rcases SNStep.collapse_kind hx with hh | hh
          · exact hh.1
          · exfalso
            have := SNStep.update_kind c x (.inr hh)
            unfold SNStep.updateState at hmass
            by_cases h0 : x.state = "massless_remnant"
            · rw [h0] at hh; exact absurd hh.1 (by decide)
            · rw [if_neg h0, if_pos hh.1] at hmass
              dsimp only at hmass
              unfold SNStep.coState at hmass
              rw [if_neg (not_le.2 hh.2)] at hmass
              revert hmass
              split_ifs <;> decide
        have := gone_type hx hx0
        unfold SNStep.updateState
        rw [if_pos hx0]
        exact this
      have := (SNStep.C34_no_remnant c b b' hk hst ha' hty hmass).1
      rw [hb'] at this
      revert this
      cases k'.b <;> decide
    · have hst' : b'.state = "detached" ∨ b'.state = "disrupted" := by
        obtain ⟨bc, bo, q1, q2, ho, hcl⟩ := SNStep.step_cases hst
        obtain ⟨-, -, e3, -⟩ := SNStep.closing_cases hcl
        obtain ⟨-, -, f3, f4, -⟩ := SNStep.collapsed_frame q1
        rw [e3]
        rw [hk] at q2
        simp only [if_true] at q2
        have hWD : ∀ x y, SNStep.afterWD bc x y = .ok bo → bo.state = "detached" ∨ bo.state = "disrupted" := by
          intro x y h
          unfold SNStep.afterWD at h
          split at h
          · cases h
          · split at h
            · cases h
            · cases h
              simp only [SNStep.Binary.set, SNStep.Binary.wipe, f3, ha']
              exact .inl rfl
        have hK : ∀ b2 p, SNStep.afterKick c b2 p = .ok bo → b2.state = b.state → bo.state = "detached" ∨ bo.state = "disrupted" := by
          intro b2 p h hb
          unfold SNStep.afterKick at h
          rw [hb, ha'] at h
          simp only [Bool.false_eq_true, if_false] at h
          split at h
          · cases h
            exact .inr rfl
          · split at h
            · split at h
              · split at h
                · cases h
                · cases h
                  exact .inl rfl
              · cases h
                exact .inr rfl
            · cases h
        unfold SNStep.orbitalKick at q2
        split at q2
        · split at q2
          · exact hWD _ _ q2
          · split at q2
            · cases q2
            · exact hK _ _ q2 f3
        · split at q2
          · exact hWD _ _ q2
          · split at q2
            · cases q2
            · exact hK _ _ q2 f3
        · cases q2
      rcases hst' with hd | hd
      · right
        refine ⟨?_, ?_⟩
        · rw [hb'] at hd
          revert hd
          cases k'.b <;> decide
        · rcases (SNStep.step_collapse hst).1 with hv | hv
          · rw [hv] at hmass
            have n1 : k'.s1 ≠ .massless := fun e => hmass (by rw [show (b'.star .CC1) = b'.s1 from rfl, h1']; exact name_massless.2 e)
            have e1 : k.e = .CC1 := by rw [hv] at he; exact (Option.some.inj he).symm
            rcases hf with hf | hf
            · exact ⟨fun _ => n1, hmate hf.2.2.2.1⟩
            · rw [e1] at hf; exact absurd hf.1 (by decide)
          · rw [hv] at hmass
            have n1 : k'.s2 ≠ .massless := fun e => hmass (by rw [show (b'.star .CC2) = b'.s2 from rfl, h2']; exact name_massless.2 e)
            have e1 : k.e = .CC2 := by rw [hv] at he; exact (Option.some.inj he).symm
            rcases hf with hf | hf
            · rw [e1] at hf; exact absurd hf.1 (by decide)
            · exact ⟨hmate hf.2.2.2.1, fun _ => n1⟩
      · left
        rw [hb'] at hd
        revert hd
        cases k'.b <;> decide

/-! ### The chart -/

theorem live {k : Key} {st : Step} (h : defaultChart k = some st) (hs : st ≠ .endStep) : isDead k.s1 k.s2 = false := by
  rw [defaultChart_eq_routeSpec] at h
  unfold routeSpec at h
  cases hd : isDead k.s1 k.s2 with
  | false => rfl
  | true => rw [hd] at h; exact absurd (Option.some.inj h).symm hs

theorem dead_end {k : Key} (h : isDead k.s1 k.s2 = true) : defaultChart k = some .endStep := by
  rw [defaultChart_eq_routeSpec]
  unfold routeSpec
  rw [if_pos h]

/-- Steps of stars without a companion. -/
theorem alone_steps {k : Key} {st : Step} (h : defaultChart k = some st) (hs : st ≠ .endStep) (hb : Alone k.b) :
    (st = .SN ∧ (k.e = .CC1 ∨ k.e = .CC2)) ∨ (st = .disrupted ∧ k.b = .disrupted ∧ ¬ (isCO k.s1 = true ∧ isCO k.s2 = true)) ∨
      (st = .initiallySingle ∧ k.b = .single ∧ k.e = .ZAMS) ∨ (st = .merged ∧ k.b = .merged ∧ (k.e = .oMerging1 ∨ k.e = .oMerging2)) := by
  have hd := live h hs
  rw [defaultChart_eq_routeSpec] at h
  obtain ⟨s1, s2, b, e⟩ := k
  unfold routeSpec at h
  dsimp only at h hd hb ⊢
  rw [hd, if_neg (by decide)] at h
  have hco : (isCO s1 && isCO s2) = false → ¬ (isCO s1 = true ∧ isCO s2 = true) := by
    rintro h ⟨h1, h2⟩
    rw [h1, h2] at h
    cases h
  rcases hb with rfl | rfl | rfl <;> cases e <;> dsimp only at h <;> (repeat' split at h) <;> simp_all

theorem pair_steps {k : Key} {st : Step} (h : defaultChart k = some st) (hb : ¬ Alone k.b) : st ≠ .disrupted ∧ st ≠ .initiallySingle ∧
    (st = .merged → (k.b = .RLO1 ∨ k.b = .RLO2)) ∧ (st = .detached → k.b = .detached) ∧ (st = .dco → k.b = .detached ∧ k.e = .none) ∧
    (st = .HMS_HMS → k.b = .detached ∧ k.e = .ZAMS) := by
  rw [defaultChart_eq_routeSpec] at h
  obtain ⟨s1, s2, b, e⟩ := k
  unfold routeSpec coRLO coDetached at h
  dsimp only at h hb ⊢
  cases b
  case single => exact (hb (.inl rfl)).elim
  case merged => exact (hb (.inr (.inl rfl))).elim
  case disrupted => exact (hb (.inr (.inr rfl))).elim
  all_goals (clear hb; cases e <;> dsimp only at h <;> (repeat' split at h) <;> first | (cases h; done) | (obtain rfl := Option.some.inj h; simp))

/-! ### One step -/

theorem take_ranks {kick : Bool} {st : Step} {k k' : Key} (hc : defaultChart k = some st) (h : Take kick st k k') :
    rank k'.s1 ≤ rank k.s1 ∧ rank k'.s2 ≤ rank k.s2 := by
  have le : rank k'.s1 = rank k.s1 ∧ rank k'.s2 = rank k.s2 → rank k'.s1 ≤ rank k.s1 ∧ rank k'.s2 ≤ rank k.s2 := fun h => ⟨h.1.le, h.2.le⟩
  have grid : (∃ g D, Mesa.stepOf g st = some D ∧ Grid D k k') → rank k'.s1 ≤ rank k.s1 ∧ rank k'.s2 ≤ rank k.s2 := by
    rintro ⟨g, D, -, h⟩
    exact le (grid_ranks h)
  cases st
  case detached => exact le (detach_ranks h)
  case disrupted => exact le (detach_ranks h.2)
  case initiallySingle => exact le (detach_ranks h.2)
  case CE => exact le (envelope_ranks h)
  case merged =>
    obtain ⟨h1, h2, -⟩ := merger_facts h (live hc (by decide))
    exact ⟨h1, h2⟩
  case SN =>
    rcases sn_facts h with ⟨-, h1, h2, h3, -⟩ | ⟨-, h1, h2, h3, -⟩
    · exact ⟨by rw [rank_normal.2 h1]; omega, h3.le⟩
    · exact ⟨h3.le, by rw [rank_normal.2 h1]; omega⟩
  case dco =>
    obtain ⟨i, l, tau, r, o, -, rfl⟩ := h
    exact ⟨le_refl _, le_refl _⟩
  case endStep => exact h.elim
  all_goals exact grid h

theorem normals_eq (k : Key) : normals k = (if rank k.s1 = 2 then 1 else 0) + if rank k.s2 = 2 then 1 else 0 := by
  unfold normals
  congr 1
  · by_cases h : isNormal k.s1 = true
    · rw [if_pos h, if_pos (rank_normal.2 h)]
    · rw [if_neg h, if_neg fun e => h (rank_normal.1 e)]
  · by_cases h : isNormal k.s2 = true
    · rw [if_pos h, if_pos (rank_normal.2 h)]
    · rw [if_neg h, if_neg fun e => h (rank_normal.1 e)]

theorem sn_normals {kick : Bool} {k k' : Key} (h : Supernova kick k k') : normals k' + 1 = normals k := by
  rw [normals_eq, normals_eq]
  rcases sn_facts h with ⟨-, h1, h2, h3, -⟩ | ⟨-, h1, h2, h3, -⟩
  · rw [rank_normal.2 h1, h3, if_pos rfl, if_neg (by omega)]
    omega
  · rw [rank_normal.2 h1, h3, if_pos rfl, if_neg (show ¬ rank k'.s2 = 2 by omega)]

/-! ### Whole evolutions -/

/-- C135.  What is left of a star never grows back: along any evolution a compact object stays compact or vanishes, and nothing comes from
nothing. -/
theorem C135_ranks {kick : Bool} {k k' : Key} {l : List Step} (h : Path kick k l k') : rank k'.s1 ≤ rank k.s1 ∧ rank k'.s2 ≤ rank k.s2 := by
  induction h with
  | nil k => exact ⟨le_refl _, le_refl _⟩
  | cons hc ht _ ih =>
    obtain ⟨h1, h2⟩ := take_ranks hc ht
    exact ⟨ih.1.trans h1, ih.2.trans h2⟩

/-- C135.  A compact object is never a star again, and a star that is gone stays so. -/
theorem C135_compact {kick : Bool} {k k' : Key} {l : List Step} (h : Path kick k l k') :
    (isCO k.s1 = true → isCO k'.s1 = true ∨ k'.s1 = .massless) ∧ (isCO k.s2 = true → isCO k'.s2 = true ∨ k'.s2 = .massless) ∧
      (k.s1 = .massless → k'.s1 = .massless) ∧ (k.s2 = .massless → k'.s2 = .massless) := by
  obtain ⟨h1, h2⟩ := C135_ranks h
  have key : ∀ {s s' : Star}, rank s' ≤ rank s → isCO s = true → isCO s' = true ∨ s' = .massless := by
    intro s s' hr hs
    rw [rank_compact.2 hs] at hr
    rcases Nat.le_one_iff_eq_zero_or_eq_one.1 hr with e | e
    · exact .inr (rank_zero.1 e)
    · exact .inl (rank_compact.1 e)
  have gone : ∀ {s s' : Star}, rank s' ≤ rank s → s = .massless → s' = .massless := by
    intro s s' hr hs
    rw [rank_zero.2 hs] at hr
    exact rank_zero.1 (Nat.le_zero.1 hr)
  exact ⟨key h1, key h2, gone h1, gone h2⟩

/-- C135.  Each supernova uses up a star: the stars at the start are at least those at the end and the supernovae together. -/
theorem C135_collapses {kick : Bool} {k k' : Key} {l : List Step} (h : Path kick k l k') : normals k' + l.count .SN ≤ normals k := by
  induction h with
  | nil k => simp
  | @cons k m k' st l hc ht _ ih =>
    by_cases hs : st = .SN
    · subst hs
      have := sn_normals ht
      rw [List.count_cons_self]
      omega
    · rw [List.count_cons_of_ne (by exact hs)]
      obtain ⟨h1, h2⟩ := take_ranks hc ht
      exact ih.trans (normals_le h1 h2)

/-- C135.  No evolution has more than two supernovae. -/
theorem C135_two {kick : Bool} {k k' : Key} {l : List Step} (h : Path kick k l k') : l.count .SN ≤ 2 := by
  have := C135_collapses h
  have h2 : normals k ≤ 2 := by
    unfold normals
    split_ifs <;> omega
  omega

/-- C135.  No evolution has more than one merger, and none if a star is gone from the start. -/
theorem C135_mergers {kick : Bool} {k k' : Key} {l : List Step} (h : Path kick k l k') : l.count .merged ≤ 1 ∧ (present k ≤ 1 → l.count .merged = 0) := by
  induction h with
  | nil k => simp
  | @cons k m k' st l hc ht _ ih =>
    by_cases hs : st = .merged
    · subst hs
      obtain ⟨-, -, h3, h4, -⟩ := merger_facts ht (live hc (by decide))
      rw [List.count_cons_self, ih.2 h4]
      exact ⟨le_refl _, fun h => by omega⟩
    · rw [List.count_cons_of_ne (by exact hs)]
      obtain ⟨h1, h2⟩ := take_ranks hc ht
      exact ⟨ih.1, fun h => ih.2 ((present_le h1 h2).trans h)⟩

theorem alone_take {st : Step} {k k' : Key} (hc : defaultChart k = some st) (h : Take true st k k') (ha : Alone k.b) : k'.b = k.b := by
  have hs : st ≠ .endStep := by
    rintro rfl
    exact h.elim
  rcases alone_steps hc hs ha with ⟨rfl, -⟩ | ⟨rfl, -⟩ | ⟨rfl, -⟩ | ⟨rfl, hb, -⟩
  · exact (sn_state h).1 ha
  · exact (detach_alone h.2).1
  · exact (detach_alone h.2).1
  · rw [(merger_facts h (live hc hs)).2.2.2.2, hb]

/-- C135.  With kicks, stars without a companion stay without one: the state never changes again, and only the steps of such stars and supernovae
follow. -/
theorem C135_alone_partial {k k' : Key} {l : List Step} (h : Path true k l k') (ha : Alone k.b) :
    k'.b = k.b ∧ ∀ st ∈ l, st = .SN ∨ st = .disrupted ∨ st = .initiallySingle ∨ st = .merged := by
  revert ha
  induction h with
  | nil k => exact fun _ => ⟨rfl, fun st h => nomatch h⟩
  | @cons k m k' st l hc ht _ ih =>
    intro ha
    have hb := alone_take hc ht ha
    obtain ⟨i1, i2⟩ := ih (hb ▸ ha)
    refine ⟨i1.trans hb, fun s hs => ?_⟩
    rcases List.mem_cons.1 hs with rfl | hs
    · have hne : s ≠ .endStep := by
        rintro rfl
        exact ht.elim
      rcases alone_steps hc hne ha with ⟨h, -⟩ | ⟨h, -⟩ | ⟨h, -⟩ | ⟨h, -⟩
      · exact .inl h
      · exact .inr (.inl h)
      · exact .inr (.inr (.inl h))
      · exact .inr (.inr (.inr h))
    · exact i2 s hs

/-- C135.  With kicks switched off the claim fails: after a supernova the two stars count as a pair, whatever they were before. -/
theorem C135_alone_violated {k k' : Key} (h : Take false .SN k k') : k'.b = .detached := by
  obtain ⟨c, b, b', hk, hst, -, -, -, -, -, -, -, -, hb', -⟩ := h
  have := SNStep.C34_no_kick_state_violated c b b' hk hst
  rw [hb'] at this
  revert this
  cases k'.b <;> decide

/-- C135.  Two compact objects: the evolution ends with the next step, unless the integration failed, which leaves the binary as it was. -/
theorem C135_dco {kick : Bool} {k k' : Key} (hc : defaultChart k = some .dco) (h : Take kick .dco k k') : k' = k ∨ defaultChart k' = some .endStep := by
  have hpair : ¬ Alone k.b := by
    intro ha
    rcases alone_steps hc (by decide) ha with ⟨h, -⟩ | ⟨h, -⟩ | ⟨h, -⟩ | ⟨h, -⟩ <;> cases h
  obtain ⟨hb, he⟩ := (pair_steps hc hpair).2.2.2.2.1 rfl
  obtain ⟨i, lf, tau, r, o, hs, rfl⟩ := h
  have term : ∀ b e, e = .COcontact ∨ e = .maxtime → defaultChart ⟨k.s1, k.s2, b, e⟩ = some .endStep := by
    intro b e hh
    rw [defaultChart_eq_routeSpec]
    unfold routeSpec
    split
    · rfl
    · rcases hh with rfl | rfl <;> rfl
  unfold DoubleCO.step at hs
  split at hs
  · cases hs
  · split at hs
    · cases hs
    · split at hs
      · cases hs
      · cases r with
        | raised => cases hs
        | failed =>
          obtain rfl := Except.ok.inj hs
          exact .inl rfl
        | finished =>
          obtain rfl := Except.ok.inj hs
          exact .inr (term _ _ (.inl rfl))
        | event s =>
          obtain rfl := Except.ok.inj hs
          exact .inr (term _ _ (.inr rfl))

/-! ### State and event after a step -/

theorem usual_mirror {k : Key} (h : Usual k.b k.e) : Usual k.mirror.b k.mirror.e := by
  obtain ⟨s1, s2, b, e⟩ := k
  change Usual b.mirror e.mirror
  rcases h with rfl | rfl | rfl | rfl | rfl | rfl | h
  · exact .inr (.inl rfl)
  · exact .inl rfl
  · exact .inr (.inr (.inl rfl))
  · exact .inr (.inr (.inr (.inl rfl)))
  · exact .inr (.inr (.inr (.inr (.inl rfl))))
  · exact .inr (.inr (.inr (.inr (.inr (.inl rfl)))))
  · refine .inr (.inr (.inr (.inr (.inr (.inr ?_)))))
    have : usual.all (fun p => (p.1.mirror, p.2.mirror) ∈ usual) = true := by decide
    exact of_decide_eq_true (List.all_eq_true.1 this _ h)

theorem event_inj {a b : Ev} (h : evName a = evName b) : a = b := by
  revert h
  cases a <;> cases b <;> decide

/-- The last model of a track. -/
theorem track_usual {cls : MTCase.Cls} {x : MTCase.BinIn} {b : BState} {e : Ev} (hb : (MTCase.stateEvent cls x).1 = some (bstateName b))
    (he : (MTCase.stateEvent cls x).2.1 = evName e) : Usual b e ∧ b ≠ .single ∧ b ≠ .merged ∧ b ≠ .disrupted := by
  have pick : ∀ {b0 : BState} {e0 : Ev}, some (bstateName b0) = some (bstateName b) → evName e0 = evName e → Usual b0 e0 →
      b0 ≠ .single ∧ b0 ≠ .merged ∧ b0 ≠ .disrupted → Usual b e ∧ b ≠ .single ∧ b ≠ .merged ∧ b ≠ .disrupted := by
    intro b0 e0 h1 h2 h3 h4
    obtain rfl := bstate_inj (Option.some.inj h1)
    obtain rfl := event_inj h2
    exact ⟨h3, h4⟩
  have mem : ∀ (b0 : BState) (e0 : Ev), (b0, e0) ∈ usual → Usual b0 e0 := fun _ _ h => .inr (.inr (.inr (.inr (.inr (.inr h)))))
  have cc : ∀ (b0 : BState), (b0, Ev.none) ∈ usual → b0 ≠ .single ∧ b0 ≠ .merged ∧ b0 ≠ .disrupted → some (bstateName b0) = some (bstateName b) →
      (if MTCase.exhausted x.state1 x.gamma1 then some "CC1" else if MTCase.exhausted x.state2 x.gamma2 then some "CC2" else none) = evName e →
      Usual b e ∧ b ≠ .single ∧ b ≠ .merged ∧ b ≠ .disrupted := by
    intro b0 hm hn h1 h2
    split at h2
    · exact pick h1 (e0 := .CC1) h2 (.inl rfl) hn
    · split at h2
      · exact pick h1 (e0 := .CC2) h2 (.inr (.inl rfl)) hn
      · exact pick h1 (e0 := .none) h2 (mem b0 .none hm) hn
  have und : some "undefined" = some (bstateName b) → False := by
    intro h
    have := Option.some.inj h
    revert this
    cases b <;> decide
  have both : ∀ (p : Prop) [Decidable p] (t t' : List Char),
      (if p then (some "contact", some (if MTCase.soloCompanion x.state2 then "oCE1" else "oDoubleCE1"), t)
        else (some "contact", some (if MTCase.soloCompanion x.state1 then "oCE2" else "oDoubleCE2"), t') : Option String × Option String × List Char).1 =
          some (bstateName b) →
      (if p then (some "contact", some (if MTCase.soloCompanion x.state2 then "oCE1" else "oDoubleCE1"), t)
        else (some "contact", some (if MTCase.soloCompanion x.state1 then "oCE2" else "oDoubleCE2"), t') : Option String × Option String × List Char).2.1 =
          evName e → Usual b e ∧ b ≠ .single ∧ b ≠ .merged ∧ b ≠ .disrupted := by
    intro p _ t t' hb he
    by_cases hp : p
    · rw [if_pos hp] at hb he
      cases hs : MTCase.soloCompanion x.state2
      · rw [hs] at he
        exact pick (b0 := .contact) (e0 := .oDoubleCE1) hb he (mem .contact .oDoubleCE1 (by decide)) (by decide)
      · rw [hs] at he
        exact pick (b0 := .contact) (e0 := .oCE1) hb he (mem .contact .oCE1 (by decide)) (by decide)
    · rw [if_neg hp] at hb he
      cases hs : MTCase.soloCompanion x.state1
      · rw [hs] at he
        exact pick (b0 := .contact) (e0 := .oDoubleCE2) hb he (mem .contact .oDoubleCE2 (by decide)) (by decide)
      · rw [hs] at he
        exact pick (b0 := .contact) (e0 := .oCE2) hb he (mem .contact .oCE2 (by decide)) (by decide)
  unfold MTCase.stateEvent at hb he
  cases cls with
  | notConverged => cases hb
  | initialMT => exact pick (b0 := .initialRLOF) (e0 := .none) hb he (.inr (.inr (.inr (.inr (.inr (.inl rfl)))))) (by decide)
  | unstable =>
    dsimp only at hb he
    split at hb
    · rename_i h1
      rw [if_pos h1, if_pos rfl] at he
      rw [if_pos rfl] at hb
      exact both _ _ _ hb he
    · rename_i h1
      rw [if_neg h1] at he
      split at hb
      · rename_i h2
        rw [if_pos h2] at he
        exact cc .detached (by decide) (by decide) hb he
      · rename_i h2
        rw [if_neg h2] at he
        split at hb
        · rename_i h3
          rw [if_pos h3, if_pos rfl] at he
          rw [if_pos rfl] at hb
          exact pick (b0 := .RLO1) (e0 := .oCE1) hb he (mem .RLO1 .oCE1 (by decide)) (by decide)
        · rename_i h3
          rw [if_neg h3] at he
          split at hb
          · rename_i h4
            rw [if_pos h4, if_pos rfl] at he
            rw [if_pos rfl] at hb
            exact pick (b0 := .RLO2) (e0 := .oCE2) hb he (mem .RLO2 .oCE2 (by decide)) (by decide)
          · exact (und hb).elim
  | other =>
    dsimp only at hb he
    split at hb
    · rename_i h1
      rw [if_pos h1, if_neg (by decide)] at he
      rw [if_neg (by decide)] at hb
      exact cc .contact (by decide) (by decide) hb he
    · rename_i h1
      rw [if_neg h1] at he
      split at hb
      · rename_i h2
        rw [if_pos h2] at he
        exact cc .detached (by decide) (by decide) hb he
      · rename_i h2
        rw [if_neg h2] at he
        split at hb
        · rename_i h3
          rw [if_pos h3, if_neg (by decide)] at he
          rw [if_neg (by decide)] at hb
          exact cc .RLO1 (by decide) (by decide) hb he
        · rename_i h3
          rw [if_neg h3] at he
          split at hb
          · rename_i h4
            rw [if_pos h4, if_neg (by decide)] at he
            rw [if_neg (by decide)] at hb
            exact cc .RLO2 (by decide) (by decide) hb he
          · exact (und hb).elim

theorem mirror_b (b : BState) : (b ≠ .single ∧ b ≠ .merged ∧ b ≠ .disrupted) → b.mirror ≠ .single ∧ b.mirror ≠ .merged ∧ b.mirror ≠ .disrupted := by
  cases b <;> decide

/-- After a grid step: handed on to the detached step, or the last model of the track. -/
theorem grid_result {g : Mesa.Box} {st : Step} {D : Mesa.View → Mesa.Out} {k k' : Key} (hc : defaultChart k = some st) (hD : Mesa.stepOf g st = some D)
    (h : Grid D k k') : defaultChart k' = some .detached ∨ (Usual k'.b k'.e ∧ k'.b ≠ .single ∧ k'.b ≠ .merged ∧ k'.b ≠ .disrupted) := by
  obtain ⟨v, h1, h2, h3, ⟨nb, ne, ho, rfl⟩ | ⟨flip, -, ht⟩⟩ := h
  · exact .inl (Mesa.C68_handed_on g k st D v nb ne hc hD ⟨h1, h2, h3⟩ ho)
  · right
    rcases ht with rfl | ⟨cls, x, m, -, -, -, -, hb, he, hk⟩
    · exact ⟨.inr (.inr (.inr (.inr (.inr (.inl rfl))))), by dsimp only; decide⟩
    · obtain ⟨hu, hn⟩ := track_usual hb he
      have ht : Usual (turn flip m).b (turn flip m).e ∧ (turn flip m).b ≠ .single ∧ (turn flip m).b ≠ .merged ∧ (turn flip m).b ≠ .disrupted := by
        cases flip
        · exact ⟨hu, hn⟩
        · exact ⟨usual_mirror hu, mirror_b _ hn⟩
      rcases hk with rfl | rfl | rfl
      · exact ht
      · exact ⟨.inr (.inr (.inl rfl)), ht.2⟩
      · exact ⟨.inr (.inr (.inr (.inl rfl))), ht.2⟩

/-- After the detached step of a pair in which there is a star. -/
theorem detach_result {k k' : Key} (h : Detach false k k') (hb : k.b = .detached) (hn : isNormal k.s1 = true ∨ isNormal k.s2 = true) :
    Usual k'.b k'.e ∧ k'.b ≠ .single ∧ k'.b ≠ .merged ∧ k'.b ≠ .disrupted := by
  obtain ⟨i, o, hc, hib, -, -, -, hco, -, rfl⟩ := h
  rw [hb] at hib
  have hco' : (i.priCO && i.secCO) = false := by
    rw [hco]
    rcases hn with hn | hn <;> rw [hn] <;> simp
  change Usual o.b o.e ∧ o.b ≠ .single ∧ o.b ≠ .merged ∧ o.b ≠ .disrupted
  unfold DetachedEvent.call at hc
  split at hc
  · obtain rfl := Except.ok.inj hc
    exact ⟨.inr (.inr (.inr (.inr (.inr (.inl rfl))))), by dsimp only; decide⟩
  · split at hc
    · cases hc
    · split at hc
      · cases hc
      · unfold DetachedEvent.finish at hc
        rw [hco', if_neg (by decide)] at hc
        split at hc
        · unfold DetachedEvent.afterRLO at hc
          split at hc
          · cases hc
          · split at hc
            · cases hc
            · split at hc
              · cases hc
              · obtain rfl := Except.ok.inj hc
                dsimp only
                unfold DetachedEvent.rloNames
                split_ifs <;> exact ⟨.inr (.inr (.inr (.inr (.inr (.inr (by decide)))))), by decide⟩
        · have fin : ∀ {e : Ev}, e = .CC1 ∨ e = .CC2 ∨ e = .maxtime ∨ e = .MaxTimeExceeded → Usual i.b e ∧ i.b ≠ .single ∧ i.b ≠ .merged ∧ i.b ≠ .disrupted := by
            intro e he
            rw [hib]
            refine ⟨?_, by decide⟩
            rcases he with h | h | h | h
            · exact .inl h
            · exact .inr (.inl h)
            · exact .inr (.inr (.inl h))
            · exact .inr (.inr (.inr (.inl h)))
          split at hc
          · unfold DetachedEvent.afterSecEnd at hc
            dsimp only at hc
            have e : (if i.secIsOne = true then Ev.CC1 else Ev.CC2) = .CC1 ∨ (if i.secIsOne = true then Ev.CC1 else Ev.CC2) = .CC2 ∨
                (if i.secIsOne = true then Ev.CC1 else Ev.CC2) = .maxtime ∨ (if i.secIsOne = true then Ev.CC1 else Ev.CC2) = .MaxTimeExceeded := by
              cases i.secIsOne <;> simp
            split at hc
            · split at hc
              · cases hc
              · obtain rfl := Except.ok.inj hc
                exact fin e
            · obtain rfl := Except.ok.inj hc
              exact fin e
          · split at hc
            · obtain rfl := Except.ok.inj hc
              refine fin ?_
              cases i.secIsOne <;> simp
            · obtain rfl := Except.ok.inj hc
              refine fin ?_
              cases i.late <;> simp

/-- After a common envelope. -/
theorem envelope_result {k k' : Key} (h : Envelope k k') :
    (k'.b = .merged ∧ (k'.e = .oMerging1 ∨ k'.e = .oMerging2)) ∨ (k'.b = .detached ∧ (k'.e = .none ∨ k'.e = .CC1 ∨ k'.e = .CC2)) := by
  obtain ⟨c, b, b', hs, -, -, rfl⟩ := h
  dsimp only
  have key : ∀ one double donor comp, (b.event = .oCE1 ∨ b.event = .oDoubleCE1 ∨ b.event = .oCE2 ∨ b.event = .oDoubleCE2) →
      CE.run c one double b donor comp = .ok b' →
      (b'.state = .merged ∧ (b'.event = .oMerging1 ∨ b'.event = .oMerging2)) ∨ (b'.state = .detached ∧ (b'.event = .none ∨ b'.event = .CC1 ∨ b'.event = .CC2)) := by
    intro one double donor comp hev h
    have hme : CE.mergeEvent b.event = .oMerging1 ∨ CE.mergeEvent b.event = .oMerging2 := by
      rcases hev with e | e | e | e <;> rw [e] <;> decide
    have hm : ∀ (cp : CE.Star) (t1 t2 : CE.CoreType) (e1 e2 : ℝ), (CE.merge one b donor cp t1 t2 e1 e2).state = .merged ∧
        ((CE.merge one b donor cp t1 t2 e1 e2).event = .oMerging1 ∨ (CE.merge one b donor cp t1 t2 e1 e2).event = .oMerging2) := by
      intro cp t1 t2 e1 e2
      unfold CE.merge CE.assemble
      cases one <;> exact ⟨rfl, hme⟩
    unfold CE.run at h
    split at h
    · obtain rfl := Except.ok.inj h
      left
      cases one
      · exact ⟨rfl, .inr rfl⟩
      · exact ⟨rfl, .inl rfl⟩
    · split at h
      · split at h
        · cases h
        · split at h
          · cases h
          · unfold CE.simpleAlpha at h
            dsimp only at h
            split at h
            · cases h
            · split at h
              · cases h
              · split at h
                · cases h
                · unfold CE.resolve at h
                  split at h
                  · split at h
                    · split at h
                      · cases h
                      · obtain rfl := Except.ok.inj h
                        exact .inl (hm _ _ _ _ _)
                    · obtain rfl := Except.ok.inj h
                      exact .inl (hm _ _ _ _ _)
                  · obtain rfl := Except.ok.inj h
                    right
                    unfold CE.ejection CE.assemble
                    dsimp only
                    cases one <;> split_ifs <;> simp
      · cases h
  unfold CE.step at hs
  split at hs
  · rename_i e; exact key _ _ _ _ (.inl e) hs
  · rename_i e; exact key _ _ _ _ (.inr (.inl e)) hs
  · rename_i e; exact key _ _ _ _ (.inr (.inr (.inl e))) hs
  · rename_i e; exact key _ _ _ _ (.inr (.inr (.inr e))) hs
  · cases hs

/-! ### What comes next -/

theorem dead_of_ranks {s1 s2 : Star} (h1 : rank s1 ≤ 1) (h2 : rank s2 ≤ 1) (h : s1 = .massless ∨ s2 = .massless) : isDead s1 s2 = true := by
  revert h1 h2 h
  cases s1 <;> cases s2 <;> decide

theorem not_alone_of_step {k : Key} {st : Step} (h : defaultChart k = some st) (h1 : st ≠ .endStep) (h2 : st ≠ .SN) (h3 : st ≠ .disrupted)
    (h4 : st ≠ .initiallySingle) (h5 : st ≠ .merged) : ¬ Alone k.b := by
  intro ha
  rcases alone_steps h h1 ha with ⟨e, -⟩ | ⟨e, -⟩ | ⟨e, -⟩ | ⟨e, -⟩
  · exact h2 e
  · exact h3 e
  · exact h4 e
  · exact h5 e

/-- A pair has two stars, and keeps them in a step that keeps the ranks. -/
theorem kept_pair {k k' : Key} (hs : Sound k) (ha : ¬ Alone k.b) (h1 : rank k'.s1 = rank k.s1) (h2 : rank k'.s2 = rank k.s2) :
    k'.s1 ≠ .massless ∧ k'.s2 ≠ .massless := by
  constructor
  · exact fun e => ha (hs.gone (.inl (rank_zero.1 (h1 ▸ rank_zero.2 e))))
  · exact fun e => ha (hs.gone (.inr (rank_zero.1 (h2 ▸ rank_zero.2 e))))

theorem sound_pair {k : Key} (h : k.s1 ≠ .massless ∧ k.s2 ≠ .massless) (hb : k.b ≠ .single ∧ (k.b = .merged → k.e = .oMerging1 ∨ k.e = .oMerging2)) : Sound k := by
  refine ⟨fun e => ?_, fun e => ?_⟩
  · rcases e with e | e
    · exact absurd e h.1
    · exact absurd e h.2
  · rcases e with e | ⟨e, e1, e2⟩
    · exact absurd e hb.1
    · rcases hb.2 e with e' | e'
      · exact absurd e' e1
      · exact absurd e' e2

theorem present_one {k : Key} (h : present k ≤ 1) : k.s1 = .massless ∨ k.s2 = .massless := by
  unfold present at h
  by_contra hn
  rw [if_neg fun e => hn (.inl e), if_neg fun e => hn (.inr e)] at h
  omega

theorem not_co_of_live {k : Key} (hd : isDead k.s1 k.s2 = false) (hc : ¬ (isCO k.s1 = true ∧ isCO k.s2 = true)) : isNormal k.s1 = true ∨ isNormal k.s2 = true := by
  revert hd hc
  generalize k.s1 = a
  generalize k.s2 = b
  cases a <;> cases b <;> decide

/-- The result of a step on a sound binary: it is sound, and it is handed on to the detached step, or has state and event of the list and two
stars if it is a detached pair, or nothing is left to evolve. -/
theorem result {st : Step} {k k' : Key} (hc : defaultChart k = some st) (h : Take true st k k') (hs : Sound k) :
    Sound k' ∧ (defaultChart k' = some .detached ∨ defaultChart k' = some .endStep ∨
      (Usual k'.b k'.e ∧ (k'.b = .detached → k'.s1 ≠ .massless ∧ k'.s2 ≠ .massless))) := by
  have evs : ∀ {e : Ev} (b : BState), e = .CC1 ∨ e = .CC2 ∨ e = .maxtime ∨ e = .MaxTimeExceeded → Usual b e := by
    intro e b he
    rcases he with h | h | h | h
    · exact .inl h
    · exact .inr (.inl h)
    · exact .inr (.inr (.inl h))
    · exact .inr (.inr (.inr (.inl h)))
  have mem : ∀ (b0 : BState) (e0 : Ev), (b0, e0) ∈ usual → Usual b0 e0 := fun _ _ h => .inr (.inr (.inr (.inr (.inr (.inr h)))))
  have grid : ¬ Alone k.b → (∃ g D, Mesa.stepOf g st = some D ∧ Grid D k k') → Sound k' ∧ (defaultChart k' = some .detached ∨ defaultChart k' = some .endStep ∨
      (Usual k'.b k'.e ∧ (k'.b = .detached → k'.s1 ≠ .massless ∧ k'.s2 ≠ .massless))) := by
    rintro ha ⟨g, D, hD, h⟩
    obtain ⟨r1, r2⟩ := grid_ranks h
    have hp := kept_pair hs ha r1 r2
    rcases grid_result hc hD h with hr | ⟨hr, n1, n2, n3⟩
    · have hna := not_alone_of_step hr (by decide) (by decide) (by decide) (by decide) (by decide)
      have hb := (pair_steps hr hna).2.2.2.1 rfl
      exact ⟨sound_pair hp ⟨by rw [hb]; decide, fun e => by rw [hb] at e; cases e⟩, .inl hr⟩
    · exact ⟨sound_pair hp ⟨n1, fun e => absurd e n2⟩, .inr (.inr ⟨hr, fun _ => hp⟩)⟩
  cases st
  case detached =>
    have ha := not_alone_of_step hc (by decide) (by decide) (by decide) (by decide) (by decide)
    have hb := (pair_steps hc ha).2.2.2.1 rfl
    have hn : isNormal k.s1 = true ∨ isNormal k.s2 = true := by
      refine not_co_of_live (live hc (by decide)) fun hh => ?_
      have hc' := hc
      rw [defaultChart_eq_routeSpec] at hc'
      unfold routeSpec at hc'
      rw [live hc (by decide), if_neg (by decide), hb] at hc'
      obtain ⟨c1, c2⟩ := hh
      have z1 : isHRich k.s1 = false ∧ isHeRich k.s1 = false ∧ (k.s1 == .hCoreH) = false := by
        revert c1
        cases k.s1 <;> decide
      have z2 : isHRich k.s2 = false ∧ isHeRich k.s2 = false := by
        revert c2
        cases k.s2 <;> decide
      revert hc'
      cases k.e <;> dsimp only <;> (try simp only [c1, c2, z1.1, z1.2.1, z1.2.2, z2.1, z2.2, Bool.and_self, Bool.false_and, Bool.and_false, Bool.or_self,
        Bool.false_eq_true, if_false, if_true, reduceCtorEq, Option.some.injEq, IsEmpty.forall_iff]) <;> (try split_ifs) <;>
        first | (intro hx; cases hx; done) | simp
    obtain ⟨r1, r2⟩ := detach_ranks h
    have hp := kept_pair hs ha r1 r2
    obtain ⟨hr, n1, n2, -⟩ := detach_result h hb hn
    exact ⟨sound_pair hp ⟨n1, fun e => absurd e n2⟩, .inr (.inr ⟨hr, fun _ => hp⟩)⟩
  case disrupted =>
    have hl := live hc (by decide)
    rcases alone_steps hc (by decide) h.1 with ⟨e, -⟩ | ⟨-, hb, hco⟩ | ⟨e, -⟩ | ⟨e, -⟩
    · cases e
    · obtain ⟨d1, d2, -⟩ := detach_alone h.2
      rw [hb] at d1
      refine ⟨⟨fun _ => .inr (.inr d1), fun e => ?_⟩, .inr (.inr ⟨evs _ (d2 (not_co_of_live hl hco)), fun e => ?_⟩)⟩
      · rw [d1] at e
        rcases e with e | ⟨e, -⟩ <;> cases e
      · rw [d1] at e
        cases e
    · cases e
    · cases e
  case initiallySingle =>
    have hl := live hc (by decide)
    have hpr : present k ≤ 1 := hs.one (.inl h.1)
    have hco : ¬ (isCO k.s1 = true ∧ isCO k.s2 = true) := by
      rintro ⟨c1, c2⟩
      rcases present_one hpr with e | e
      · rw [e] at c1; cases c1
      · rw [e] at c2; cases c2
    obtain ⟨d1, d2, -⟩ := detach_alone h.2
    obtain ⟨r1, r2⟩ := detach_ranks h.2
    rw [h.1] at d1
    refine ⟨⟨fun _ => .inl d1, fun _ => (present_le r1.le r2.le).trans hpr⟩, .inr (.inr ⟨evs _ (d2 (not_co_of_live hl hco)), fun e => ?_⟩)⟩
    rw [d1] at e
    cases e
  case CE =>
    have ha := not_alone_of_step hc (by decide) (by decide) (by decide) (by decide) (by decide)
    obtain ⟨r1, r2⟩ := envelope_ranks h
    have hp := kept_pair hs ha r1 r2
    rcases envelope_result h with ⟨hb, he⟩ | ⟨hb, he⟩
    · refine ⟨sound_pair hp ⟨by rw [hb]; decide, fun _ => he⟩, .inr (.inr ⟨?_, fun _ => hp⟩)⟩
      rw [hb]
      rcases he with he | he <;> rw [he] <;> exact mem _ _ (by decide)
    · refine ⟨sound_pair hp ⟨by rw [hb]; decide, fun e => by rw [hb] at e; cases e⟩, .inr (.inr ⟨?_, fun _ => hp⟩)⟩
      rw [hb]
      rcases he with he | he | he <;> rw [he]
      · exact mem _ _ (by decide)
      · exact .inl rfl
      · exact .inr (.inl rfl)
  case merged =>
    obtain ⟨-, -, -, hp, hb⟩ := merger_facts h (live hc (by decide))
    refine ⟨⟨fun _ => .inr (.inl hb), fun _ => hp⟩, ?_⟩
    obtain ⟨c, b, b', m, -, -, -, -, -, -, -, -, -, hdet⟩ := h
    obtain ⟨-, d2, -⟩ := detach_alone hdet
    obtain ⟨r1, r2⟩ := detach_ranks hdet
    by_cases hn : isNormal m.s1 = true ∨ isNormal m.s2 = true
    · exact .inr (.inr ⟨evs _ (d2 hn), fun e => by rw [hb] at e; cases e⟩)
    · refine .inr (.inl (dead_end (dead_of_ranks ?_ ?_ (present_one hp))))
      · rw [r1]
        have : ¬ rank m.s1 = 2 := fun e => hn (.inl (rank_normal.1 e))
        have := rank_le m.s1
        omega
      · rw [r2]
        have : ¬ rank m.s2 = 2 := fun e => hn (.inr (rank_normal.1 e))
        have := rank_le m.s2
        omega
  case SN =>
    obtain ⟨q1, q2⟩ := sn_state h
    have hf := sn_facts h
    obtain ⟨t1, t2⟩ := take_ranks hc h
    by_cases ha : Alone k.b
    · have hb := q1 ha
      have hcc : k.e = .CC1 ∨ k.e = .CC2 := by
        rcases hf with hf | hf
        · exact .inl hf.1
        · exact .inr hf.1
      have hone : (k.b = .single ∨ k.b = .merged) → present k ≤ 1 := by
        intro e
        apply hs.one
        rcases e with e | e
        · exact .inl e
        · refine .inr ⟨e, ?_, ?_⟩ <;> rcases hcc with h | h <;> rw [h] <;> decide
      refine ⟨⟨fun _ => hb ▸ ha, fun e => ?_⟩, ?_⟩
      · refine (present_le t1 t2).trans (hone ?_)
        rw [← hb]
        rcases e with e | ⟨e, -⟩
        · exact .inl e
        · exact .inr e
      · rcases ha with e | e | e
        · have := hone (.inl e)
          refine .inr (.inl (dead_end ?_))
          have hm := present_one ((present_le t1 t2).trans this)
          have hm0 := present_one this
          rcases hf with ⟨-, n, r, s, -⟩ | ⟨-, n, r, s, -⟩
          · refine dead_of_ranks r ?_ hm
            rcases hm0 with z | z
            · rw [z] at n; cases n
            · rw [s, z]; decide
          · refine dead_of_ranks ?_ r hm
            rcases hm0 with z | z
            · rw [s, z]; decide
            · rw [z] at n; cases n
        · have := hone (.inr e)
          refine .inr (.inl (dead_end ?_))
          have hm := present_one ((present_le t1 t2).trans this)
          have hm0 := present_one this
          rcases hf with ⟨-, n, r, s, -⟩ | ⟨-, n, r, s, -⟩
          · refine dead_of_ranks r ?_ hm
            rcases hm0 with z | z
            · rw [z] at n; cases n
            · rw [s, z]; decide
          · refine dead_of_ranks ?_ r hm
            rcases hm0 with z | z
            · rw [s, z]; decide
            · rw [z] at n; cases n
        · rw [e] at hb
          refine .inr (.inr ⟨?_, fun e' => by rw [hb] at e'; cases e'⟩)
          rw [hb]
          rcases hf with ⟨-, -, -, -, he | ⟨he, -⟩⟩ | ⟨-, -, -, -, he | ⟨he, -⟩⟩ <;> rw [he]
          · exact mem _ _ (by decide)
          · exact .inr (.inl rfl)
          · exact mem _ _ (by decide)
          · exact .inl rfl
    · have hus : ∀ b : BState, b = .disrupted ∨ b = .detached → Usual b k'.e := by
        intro b hb
        rcases hf with ⟨-, -, -, -, he | ⟨he, -⟩⟩ | ⟨-, -, -, -, he | ⟨he, -⟩⟩ <;> rw [he] <;> rcases hb with rfl | rfl <;>
          first | exact mem _ _ (by decide) | exact .inl rfl | exact .inr (.inl rfl)
      rcases q2 ha with hb | ⟨hb, k1, k2⟩
      · refine ⟨⟨fun _ => .inr (.inr hb), fun e => ?_⟩, .inr (.inr ⟨hus _ (.inl hb), fun e => by rw [hb] at e; cases e⟩)⟩
        rw [hb] at e
        rcases e with e | ⟨e, -⟩ <;> cases e
      · have hp : k'.s1 ≠ .massless ∧ k'.s2 ≠ .massless := ⟨k1 fun e => ha (hs.gone (.inl e)), k2 fun e => ha (hs.gone (.inr e))⟩
        exact ⟨sound_pair hp ⟨by rw [hb]; decide, fun e => by rw [hb] at e; cases e⟩, .inr (.inr ⟨hus _ (.inr hb), fun _ => hp⟩)⟩
  case dco =>
    have ha := not_alone_of_step hc (by decide) (by decide) (by decide) (by decide) (by decide)
    obtain ⟨hb, he⟩ := (pair_steps hc ha).2.2.2.2.1 rfl
    obtain ⟨i, l, tau, r, o, -, rfl⟩ := h
    have hp : k.s1 ≠ .massless ∧ k.s2 ≠ .massless := ⟨fun e => ha (hs.gone (.inl e)), fun e => ha (hs.gone (.inr e))⟩
    have hu : Usual (dcoKey k o).b (dcoKey k o).e ∧ (dcoKey k o).b ≠ .single ∧ (dcoKey k o).b ≠ .merged := by
      unfold dcoKey
      dsimp only
      rw [hb, he]
      cases o.b <;> cases o.e <;> dsimp only <;>
        first
          | exact ⟨mem _ _ (by decide), by decide⟩
          | exact ⟨.inr (.inr (.inl rfl)), by decide⟩
          | exact ⟨.inr (.inr (.inr (.inr (.inl rfl)))), by decide⟩
    exact ⟨sound_pair (k := dcoKey k o) hp ⟨hu.2.1, fun e => absurd e hu.2.2⟩, .inr (.inr ⟨hu.1, fun _ => hp⟩)⟩
  case endStep => exact h.elim
  all_goals exact grid (not_alone_of_step hc (by decide) (by decide) (by decide) (by decide) (by decide)) h

theorem path_sound {k k' : Key} {l : List Step} (h : Path true k l k') (hs : Sound k) : Sound k' := by
  induction h with
  | nil k => exact hs
  | cons hc ht _ ih => exact ih (result hc ht hs).1

set_option maxRecDepth 20000 in
theorem usual_check : usual.all (fun p => Star.all.all fun a => Star.all.all fun b =>
    (routeSpec ⟨a, b, p.1, p.2⟩).isSome || decide (Stuck ⟨a, b, p.1, p.2⟩) || (p.1 == .detached && (a == .massless || b == .massless))) = true := by
  decide +kernel

theorem usual_none {k : Key} (h : Usual k.b k.e) (hp : k.b = .detached → k.s1 ≠ .massless ∧ k.s2 ≠ .massless) (hn : routeSpec k = none) : Stuck k := by
  obtain ⟨s1, s2, b, e⟩ := k
  have cc : (e = .CC1 ∨ e = .CC2) → Stuck ⟨s1, s2, b, e⟩ := by
    intro he
    unfold routeSpec at hn
    split at hn
    · cases hn
    · rcases he with rfl | rfl
      · cases hcc : canCollapse s1 with
        | false => exact .inl ⟨rfl, hcc⟩
        | true =>
          exfalso
          cases b <;> dsimp only at hn <;> first | (cases hn; done) | (rw [hcc] at hn; first | (cases hn; done) | (split at hn <;> cases hn))
      · cases hcc : canCollapse s2 with
        | false => exact .inr (.inl ⟨rfl, hcc⟩)
        | true =>
          exfalso
          cases b <;> dsimp only at hn <;> first | (cases hn; done) | (rw [hcc] at hn; first | (cases hn; done) | (split at hn <;> cases hn))
  have term : (e = .maxtime ∨ e = .MaxTimeExceeded ∨ e = .COcontact ∨ b = .initialRLOF) → Stuck ⟨s1, s2, b, e⟩ := by
    intro he
    exfalso
    unfold routeSpec at hn
    split at hn
    · cases hn
    · rcases he with rfl | rfl | rfl | rfl
      · cases hn
      · cases hn
      · cases hn
      · cases e <;> cases hn
  rcases h with h | h | h | h | h | h | h
  · exact cc (.inl h)
  · exact cc (.inr h)
  · exact term (.inl h)
  · exact term (.inr (.inl h))
  · exact term (.inr (.inr (.inl h)))
  · exact term (.inr (.inr (.inr h)))
  · have h1 := List.all_eq_true.1 usual_check (b, e) h
    have h2 := List.all_eq_true.1 h1 s1 (Star.mem_all s1)
    have h3 := List.all_eq_true.1 h2 s2 (Star.mem_all s2)
    rw [Bool.or_eq_true, Bool.or_eq_true] at h3
    rcases h3 with (h3 | h3) | h3
    · rw [hn] at h3; cases h3
    · exact of_decide_eq_true h3
    · rw [Bool.and_eq_true, Bool.or_eq_true, beq_iff_eq, beq_iff_eq, beq_iff_eq] at h3
      obtain ⟨p1, p2⟩ := hp h3.1
      rcases h3.2 with e | e
      · exact absurd e p1
      · exact absurd e p2

/-- C135.  With kicks, and started from a sound binary, an evolution can only be left without a next step for one of the reasons listed. -/
theorem C135_next_partial {k m k' : Key} {l : List Step} {st : Step} (h : Path true k l m) (hs : Sound k) (hc : defaultChart m = some st) (ht : Take true st m k')
    (hn : defaultChart k' = none) : Stuck k' := by
  obtain ⟨-, hr | hr | ⟨hu, hp⟩⟩ := result hc ht (path_sound h hs)
  · rw [hr] at hn; cases hn
  · rw [hr] at hn; cases hn
  · exact usual_none hu hp (by rw [← defaultChart_eq_routeSpec]; exact hn)

/-- C135.  The steps that start an evolution are taken at its start only. -/
theorem C135_first {k k' : Key} {l : List Step} (h : Path true k l k') (hs : Sound k) (hl : l ≠ []) : defaultChart k' ≠ some .HMS_HMS ∧
    defaultChart k' ≠ some .initiallySingle := by
  have key : ∀ {m m' : Key} {st : Step}, Sound m → defaultChart m = some st → Take true st m m' → defaultChart m' ≠ some .HMS_HMS ∧ defaultChart m' ≠ some .initiallySingle := by
    intro m m' st hs hc ht
    obtain ⟨-, hr | hr | ⟨hu, -⟩⟩ := result hc ht hs
    · rw [hr]; exact ⟨by decide, by decide⟩
    · rw [hr]; exact ⟨by decide, by decide⟩
    · have hz : m'.e = .ZAMS → m'.b = .initialRLOF := by
        intro hz
        rcases hu with h | h | h | h | h | h | h
        · rw [hz] at h; cases h
        · rw [hz] at h; cases h
        · rw [hz] at h; cases h
        · rw [hz] at h; cases h
        · rw [hz] at h; cases h
        · exact h
        · rw [hz] at h
          revert h
          cases m'.b <;> decide
      constructor
      · intro hm
        have ha := not_alone_of_step hm (by decide) (by decide) (by decide) (by decide) (by decide)
        obtain ⟨e1, e2⟩ := (pair_steps hm ha).2.2.2.2.2 rfl
        rw [hz e2] at e1
        cases e1
      · intro hm
        by_cases ha : Alone m'.b
        · rcases alone_steps hm (by decide) ha with ⟨e, -⟩ | ⟨e, -⟩ | ⟨-, e1, e2⟩ | ⟨e, -⟩
          · cases e
          · cases e
          · rw [hz e2] at e1; cases e1
          · cases e
        · exact absurd rfl (pair_steps hm ha).2.1
  revert hl hs
  induction h with
  | nil k => exact fun _ h => absurd rfl h
  | @cons k m k' st l hc ht hp ih =>
    intro hs _
    have hm := (result hc ht hs).1
    by_cases hl : l = []
    · subst hl
      cases hp
      exact key hs hc ht
    · exact ih hm hl

/-- C135.  Every binary on the way is sound: what is gone belongs to stars without a companion. -/
theorem C135_sound {k k' : Key} {l : List Step} (h : Path true k l k') (hs : Sound k) : (k'.s1 = .massless ∨ k'.s2 = .massless → Alone k'.b) ∧
    (k'.b = .single ∨ (k'.b = .merged ∧ k'.e ≠ .oMerging1 ∧ k'.e ≠ .oMerging2) → present k' ≤ 1) :=
  ⟨(path_sound h hs).gone, (path_sound h hs).one⟩

/-! ### A concrete case -/

/-- Two stars on the main sequence transfer mass in an unstable way, the common envelope merges them at once, and the product lives until it collapses. -/
theorem exPath : Path true ⟨.hCoreH, .hCoreH, .detached, .ZAMS⟩ [.HMS_HMS, .CE, .merged] ⟨.hCoreCDep, .massless, .merged, .CC1⟩ := by
  have c1 : defaultChart ⟨.hCoreH, .hCoreH, .detached, .ZAMS⟩ = some .HMS_HMS := by rw [defaultChart_eq_routeSpec]; rfl
  have c2 : defaultChart ⟨.hCoreH, .hCoreH, .RLO1, .oCE1⟩ = some .CE := by rw [defaultChart_eq_routeSpec]; rfl
  have c3 : defaultChart ⟨.hCoreH, .hCoreH, .merged, .oMerging1⟩ = some .merged := by rw [defaultChart_eq_routeSpec]; rfl
  have t1 : Take true .HMS_HMS ⟨.hCoreH, .hCoreH, .detached, .ZAMS⟩ ⟨.hCoreH, .hCoreH, .RLO1, .oCE1⟩ := by
    refine ⟨⟨1 / 2, 300, 1 / 2, 300, 1 / 10, 6000, 1 / 20, 1, 1 / 2⟩, _, rfl, ⟨.hCoreH, .hCoreH, .ZAMS, 30, 12, some 10, some 0⟩, rfl, rfl, rfl, .inr
      ⟨false, by decide +kernel, .inr ⟨.unstable,
        ⟨some (some (-3)), some (some 1), some (some (-1)), "H-rich_Core_H_burning", "H-rich_Core_H_burning", none, none⟩,
        ⟨.hCoreH, .hCoreH, .RLO1, .oCE1⟩, rfl, rfl, rfl, rfl, by decide +kernel, by decide +kernel, .inl rfl⟩⟩⟩
  have t2 : Take true .CE ⟨.hCoreH, .hCoreH, .RLO1, .oCE1⟩ ⟨.hCoreH, .hCoreH, .merged, .oMerging1⟩ := by
    refine ⟨CE.exCfg, { CE.exBinary with star1 := { CE.exDonor with state := .hCoreH }, star2 := { CE.exComp with state := .hCoreH } }, _, rfl, fun _ => rfl,
      rfl, rfl⟩
  have t3 : Take true .merged ⟨.hCoreH, .hCoreH, .merged, .oMerging1⟩ ⟨.hCoreCDep, .massless, .merged, .CC1⟩ := by
    obtain ⟨⟨a, b⟩, hm⟩ := Merged.C35_total Merged.exCfg Merged.exDwarf Merged.exDwarf .hmsHms (by decide +kernel) Merged.exDwarf_numeric Merged.exDwarf_numeric
      (by unfold Merged.HasCentre; decide +kernel) (by unfold Merged.HasCentre; decide +kernel)
    have hs : (Merged.merge Merged.exCfg Merged.exDwarf Merged.exDwarf).toOption.map (fun v => (v.1.state, v.2.state)) = some (some .hCoreH, some .massless) := by
      decide +kernel
    rw [hm] at hs
    obtain ⟨e1, e2⟩ := Prod.mk.inj (Option.some.inj hs)
    refine ⟨Merged.exCfg, ⟨Merged.exDwarf, Merged.exDwarf, .merged, .oMerging1⟩, ⟨a, b, .merged, .oMerging1⟩, ⟨.hCoreH, .massless, .merged, .oMerging1⟩, ?_, rfl, rfl, rfl,
      rfl, e1, e2, rfl, rfl, ?_⟩
    · unfold Merged.call Merged.mergeOne
      rw [if_pos rfl, if_pos rfl]
      dsimp only
      rw [hm]
    · exact ⟨⟨.hCoreCDep, .massless, .merged, .oMerging1, true, true, false, false, true, false, false, false, true, false, 1, 1, 0, 0, 1, 1, 1, 1, true, false, false,
        false⟩, _, rfl, rfl, rfl, rfl, rfl, rfl, fun _ => ⟨rfl, rfl, rfl⟩, rfl⟩
  exact .cons c1 t1 (.cons c2 t2 (.cons c3 t3 (.nil _)))

/-- The hypotheses above can be met, and the next step is a supernova. -/
example : Sound ⟨.hCoreH, .hCoreH, .detached, .ZAMS⟩ ∧ defaultChart ⟨.hCoreCDep, .massless, .merged, .CC1⟩ = some .SN ∧
    normals ⟨.hCoreH, .hCoreH, .detached, .ZAMS⟩ = 2 ∧ normals ⟨.hCoreCDep, .massless, .merged, .CC1⟩ = 1 := by
  refine ⟨⟨by unfold Alone; decide, by decide⟩, ?_, rfl, rfl⟩
  rw [defaultChart_eq_routeSpec]
  rfl

/-- A star fills its Roche lobe next to a star that is not compact, and the default chart has no step for it. -/
example : defaultChart ⟨.hShellH, .hCoreH, .RLO1, .oRLO1⟩ = none ∧ Stuck ⟨.hShellH, .hCoreH, .RLO1, .oRLO1⟩ := by
  refine ⟨?_, by decide⟩
  rw [defaultChart_eq_routeSpec]
  rfl

/-- The step with kicks switched off. -/
noncomputable def exOff : SNStep.Cfg := { SNStep.exCfg with kick := false, classify := fun _ => Star.hCoreH.name }

/-- The product of a merger that collapses while kicks are switched off: it counts as a pair, for which the chart has no step if something remains. -/
example : ∃ k', Take false .SN ⟨.massless, .sCoreCDep, .merged, .CC2⟩ k' ∧ k'.b = .detached ∧ k'.s2 = .BH := by
  obtain ⟨s, hs, m, st, -, ls, -⟩ := SNStep.exCollapse
  have hu : (SNStep.updateState exOff s).state = "BH" := by
    unfold SNStep.updateState
    rw [if_neg (by rw [st]; decide), if_pos (by rw [st]; decide)]
    dsimp only
    rw [ls, st, m, if_neg (by decide)]
    unfold SNStep.coState
    norm_num
  let x : SNStep.Star := { SNStep.exStar with state := "massless_remnant" }
  let b : SNStep.Binary := { SNStep.exBinary with s1 := x, state := "merged" }
  have hx : SNStep.updateState exOff (SNStep.resetOther x) = SNStep.resetOther x := by
    unfold SNStep.updateState
    rw [if_pos (show (SNStep.resetOther x).state = "massless_remnant" from rfl)]
  have hcol : SNStep.collapsed exOff b = .ok { b with s1 := SNStep.resetOther x, s2 := SNStep.updateState exOff s } := by
    unfold SNStep.collapsed
    have h2 : SNStep.collapse exOff b.s2 = .ok s := hs
    have he : b.event = .CC2 := rfl
    rw [he]
    dsimp only
    rw [h2]
    dsimp only
    rw [show b.s1 = x from rfl, hx]
  have hsep : b.attr "separation" = .num 100 := by simp [b, SNStep.exBinary]
  obtain ⟨b', hb', e1, e2, e3, e4⟩ : ∃ b', SNStep.step exOff b = .ok b' ∧ b'.s1.state = "massless_remnant" ∧ b'.s2.state = "BH" ∧
      b'.state = "detached" ∧ b'.event = .none := by
    unfold SNStep.step
    rw [hcol]
    have hk : exOff.kick = false := rfl
    simp only [hk, Bool.false_eq_true, if_false, SNStep.noKick, hsep, SNStep.lift, SNStep.closing, SNStep.Binary.set]
    rw [if_pos (.inr (.inl rfl))]
    exact ⟨_, rfl, rfl, hu, rfl, rfl⟩
  refine ⟨⟨.massless, .BH, .detached, .none⟩, ⟨exOff, b, b', rfl, hb', ?_, ?_, rfl, rfl, rfl, rfl, e1, e2, e3, by rw [e4]; rfl⟩, rfl, rfl⟩
  · exact fun _ => ⟨.hCoreH, rfl, rfl⟩
  · intro h
    exact absurd h (by decide)

end Verif.Life
