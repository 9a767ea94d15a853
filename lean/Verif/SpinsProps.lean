import Verif.Spins
import Verif.KindsProps
import Verif.GWProps
/-!
C150: the spin of a compact object lies between zero and one and does not decrease, through a whole evolution.
-/
namespace Verif.Spins
open FlowChart

theorem Ages.rfl {v : SNStep.Val} : Ages v v := fun b hb => ⟨b, hb, le_refl _⟩
theorem Ages.trans {u v w : SNStep.Val} (h1 : Ages u v) (h2 : Ages v w) : Ages u w := by
  intro b hb
  obtain ⟨a, ha, hab⟩ := h2 b hb
  obtain ⟨a', ha', h⟩ := h1 a ha
  exact ⟨a', ha', h.trans hab⟩

theorem Holds.rfl {x : Seen} : Holds x x := ⟨fun h => .inr ⟨h, Ages.rfl⟩, id⟩
theorem Holds.trans {x y z : Seen} (h1 : Holds x y) (h2 : Holds y z) : Holds x z := by
  refine ⟨fun h => ?_, fun h => h2.2 (h1.2 h)⟩
  rcases h1.1 h with h | ⟨h, ha⟩
  · exact .inl (h2.2 h)
  · rcases h2.1 h with h' | ⟨h', hb⟩
    · exact .inl h'
    · exact .inr ⟨h', ha.trans hb⟩

theorem kind_plain {s : String} (h : Kinds.Plain s) : kindOf s = .star := by
  unfold kindOf
  rw [if_neg (by simp only [SNStep.statesCO, List.mem_cons, List.not_mem_nil, or_false]; rintro (e | e | e); exacts [h.2.1 e, h.1 e, h.2.2.1 e]),
    if_neg h.2.2.2]

theorem fine_star {x : Seen} (h : x.1 = .star) : Fine x := fun e => by rw [h] at e; cases e
theorem holds_star {x y : Seen} (h : x.1 = .star) : Holds x y :=
  ⟨fun e => (by rw [h] at e; cases e), fun e => (by rw [h] at e; cases e)⟩

theorem range_zero : InRange (.num 0) := by
  rintro a h
  cases h
  exact ⟨le_refl _, zero_le_one⟩
theorem range_none : InRange .none := by rintro a ⟨⟩
theorem range_nan : InRange .nan := by rintro a ⟨⟩

/-! ### Accretion -/

/-- Accretion by the tracks of a grid: the new spin is unknown, or between the old one and one; an unknown spin stays unknown. -/
theorem C150_accretion (v : SNStep.Val) (before after : ℝ) (h : InRange v) : InRange (accrete v before after) ∧ Ages v (accrete v before after) := by
  unfold accrete
  cases v with
  | none => exact ⟨range_none, fun b hb => by cases hb⟩
  | str s => exact ⟨range_none, fun b hb => by cases hb⟩
  | vec x y z => exact ⟨range_none, fun b hb => by cases hb⟩
  | nan =>
    dsimp only
    split
    · exact ⟨range_none, fun b hb => by cases hb⟩
    · exact ⟨range_nan, fun b hb => by cases hb⟩
  | num s =>
    dsimp only
    obtain ⟨h0, h1⟩ := h s rfl
    by_cases hb : before ≤ 0 ∨ after ≤ 0 ∨ s < 0
    · rw [(GW.C58_invalid s before after).2.2.2.1 hb]
      exact ⟨range_none, fun b hb => by cases hb⟩
    · push Not at hb
      by_cases hle : before ≤ after
      · obtain ⟨s', e, h2, h3⟩ := GW.C58_range s before after h0 h1 hb.1 hle
        rw [e]
        refine ⟨?_, ?_⟩
        · rintro a h
          cases h
          exact ⟨h0.trans h2, h3⟩
        · rintro b h
          cases h
          exact ⟨s, _root_.rfl, h2⟩
      · rw [(GW.C58_invalid s before after).2.2.2.2 h0 h1 hb.2.1 (not_le.1 hle)]
        exact ⟨range_nan, fun b hb => by cases hb⟩

/-- A compact object whose interpolated mass is below the one it had loses its spin for good: all later spins are unknown. -/
theorem C150_spin_lost_violated (s before after : ℝ) (h0 : 0 ≤ s) (h1 : s ≤ 1) (ha : 0 < after) (h : after < before) (b' a' : ℝ) (hb : 0 < b')
    (ha' : 0 < a') : accrete (.num s) before after = .nan ∧ accrete (accrete (.num s) before after) b' a' = .nan := by
  have e : accrete (.num s) before after = .nan := by
    unfold accrete
    dsimp only
    rw [(GW.C58_invalid s before after).2.2.2.2 h0 h1 ha h]
    rfl
  refine ⟨e, ?_⟩
  rw [e]
  unfold accrete
  dsimp only
  rw [if_neg (by push Not; exact ⟨hb, ha'⟩)]

/-- A black hole of 10 solar masses with half the maximal spin, to which the interpolator gives 9.99. -/
example : accrete (.num (1 / 2)) 10 9.99 = .nan := (C150_spin_lost_violated (1 / 2) 10 9.99 (by norm_num) (by norm_num) (by norm_num) (by norm_num)
  10 11 (by norm_num) (by norm_num)).1

/-! ### The supernova -/

theorem radius_spin {x y : SNStep.Star} (h : SNStep.setRadius x = .ok y) : y.attr "spin" = x.attr "spin" := by
  obtain ⟨r, -, rfl⟩ := SNStep.radius_ok h
  simp [SNStep.Star.set]

theorem radius_pos {x y : SNStep.Star} (h : SNStep.setRadius x = .ok y) : 0 < x.mass := by
  obtain ⟨r, hr, -⟩ := SNStep.radius_ok h
  by_contra h0
  unfold SNStep.coRadius at hr
  rw [if_pos (not_lt.1 h0)] at hr
  cases hr

theorem wipeWD_spin {x y : SNStep.Star} (h : SNStep.wipeWD x = .ok y) : y.attr "spin" = x.attr "spin" := by
  unfold SNStep.wipeWD at h
  split at h
  · cases h
  · cases h
    simp [SNStep.Star.set, SNStep.Star.wipe]

theorem finish_spin {x y : SNStep.Star} (h : SNStep.finish x = .ok y) : y.attr "spin" = x.attr "spin" ∧ 0 < x.mass := by
  unfold SNStep.finish at h
  split at h
  · cases h
  · rename_i z hz
    cases h
    refine ⟨?_, by have := radius_pos hz; exact this⟩
    have := radius_spin hz
    simp only [SNStep.Star.wipe]
    rw [if_neg (by decide), this]
    simp [SNStep.Star.set]

theorem massless_spin (s : SNStep.Star) : (SNStep.toMassless s).attr "spin" = .nan := by
  unfold SNStep.toMassless
  dsimp only
  rw [if_pos (by decide)]

theorem core_spin {c : SNStep.Cfg} {s s' : SNStep.Star} {ty : String} (hd : ∀ x m a d, InRange (c.bh x m a d).spin)
    (h : SNStep.collapseCore c s ty = .ok s') : InRange (s'.attr "spin") := by
  obtain ⟨r, hr, hk⟩ := SNStep.collapseCore_cases h
  rcases hk with ⟨-, s2, h1, h2⟩ | ⟨-, -, rfl⟩ | ⟨-, m, s2, hm, h1, h2⟩
  · rw [wipeWD_spin h2, radius_spin h1]
    simp only [SNStep.Star.set, if_true]
    exact range_zero
  · rw [massless_spin]
    exact range_nan
  · obtain ⟨e, hp⟩ := finish_spin h1
    rw [e]
    rcases h2 with h2 | h2 | rfl
    · unfold SNStep.byProfile at h2
      dsimp only at h2
      split at h2
      · cases h2
        simp only [SNStep.Star.set, if_true]
        exact hd _ _ _ _
      · split at h2
        · cases h2
          simp only [SNStep.Star.set, if_true]
          exact range_zero
        · cases h2
    · unfold SNStep.byCores at h2
      dsimp only at h2
      split at h2
      · split at h2
        · cases h2
        · rename_i a ha
          cases h2
          simp only [SNStep.Star.set, if_true]
          rintro x rfl
          exact SNStep.C34_spin _ _ x hp ha
      · cases h2
        simp only [SNStep.Star.set, if_true]
        exact range_zero
    · unfold SNStep.bySpinNone
      simp only [SNStep.Star.set, if_true]
      exact range_none

/-- Whatever collapses, the remnant has an unknown spin or one between zero and one. -/
theorem C150_collapse (c : SNStep.Cfg) (s s' : SNStep.Star) (hd : SpinData c s) (h : SNStep.collapse c s = .ok s') : InRange (s'.attr "spin") := by
  obtain ⟨-, ⟨ty, p, h⟩ | ⟨-, q, m, ty, hs, -, hm, -, h⟩⟩ := SNStep.collapse_cases h
  · exact core_spin hd.bh h
  · have hq := hd.model q hs
    generalize (if q.snType = "ECSN" then ty else q.snType) = pt at h
    unfold SNStep.fromModel at h
    dsimp only at h
    split at h
    · cases h
    · rename_i s2 h2
      have e2 : s2.attr "spin" = q.spin := by
        split at h2
        · rw [wipeWD_spin h2]
          simp [SNStep.Star.set]
        · cases h2
          simp [SNStep.Star.set, SNStep.Star.wipe]
      split at h
      · cases h
        rw [massless_spin]
        exact range_nan
      · rw [radius_spin h, e2]
        exact hq

theorem update_spin (c : SNStep.Cfg) (s : SNStep.Star) : (SNStep.updateState c s).attr "spin" = s.attr "spin" := by rw [SNStep.update_attr]

theorem update_holds (c : SNStep.Cfg) (hc : ∀ s, Kinds.Plain (c.classify s)) (s : SNStep.Star) :
    Holds (ofSN s) (ofSN (SNStep.updateState c s)) ∧ (Fine (ofSN s) → Fine (ofSN (SNStep.updateState c s))) := by
  have e : (ofSN (SNStep.updateState c s)).2 = (ofSN s).2 := update_spin c s
  unfold SNStep.updateState at e ⊢
  by_cases h0 : s.state = "massless_remnant"
  · rw [if_pos h0]
    exact ⟨Holds.rfl, id⟩
  rw [if_neg h0] at e ⊢
  by_cases h1 : s.state ∈ SNStep.statesCO
  · rw [if_pos h1] at e ⊢
    have k : (ofSN s).1 = .compact := by
      unfold ofSN kindOf
      rw [if_pos h1]
    refine ⟨⟨fun _ => ?_, fun h => by rw [k] at h; cases h⟩, fun hf _ => ?_⟩
    · have : kindOf (if s.lastState = "WD" ∨ s.state = "WD" then "WD" else SNStep.coState s.mass) = .compact ∨
          kindOf (if s.lastState = "WD" ∨ s.state = "WD" then "WD" else SNStep.coState s.mass) = .gone := by
        split
        · left; rfl
        · unfold SNStep.coState
          split
          · right; rfl
          · left
            split
            · rfl
            · split <;> rfl
      rcases this with h | h
      · right
        refine ⟨h, ?_⟩
        rw [e]
        exact Ages.rfl
      · exact .inl h
    · rw [e]
      exact hf k
  · rw [if_neg h1]
    have k : (ofSN s).1 = .star := by
      unfold ofSN kindOf
      rw [if_neg h1, if_neg h0]
    exact ⟨holds_star k, fun _ => fine_star (kind_plain (hc _))⟩

theorem same_seen {x y : SNStep.Star} (h : SNStep.Same x y) : ofSN y = ofSN x := by
  unfold ofSN
  rw [h.state, h.attr]

theorem cc_star {s : String} (h : s ∈ SNStep.statesCC) : kindOf s = .star := by
  revert s
  decide

/-- A supernova: the remnant has an unknown spin or one between zero and one, the spin of the other star does not change. -/
theorem C150_supernova (c : SNStep.Cfg) (b b' : SNStep.Binary) (hc : ∀ s, Kinds.Plain (c.classify s)) (hd : SpinData c (b.star b.event))
    (h : SNStep.step c b = .ok b') :
    Fine (ofSN (b'.star b.event)) ∧ Holds (ofSN (b.star b.event)) (ofSN (b'.star b.event)) ∧
    (b'.mate b.event).attr "spin" = (b.mate b.event).attr "spin" ∧ Holds (ofSN (b.mate b.event)) (ofSN (b'.mate b.event)) ∧
    (Fine (ofSN (b.mate b.event)) → Fine (ofSN (b'.mate b.event))) := by
  obtain ⟨-, s, hs, h1, h2⟩ := SNStep.step_collapse h
  have hr : ofSN (SNStep.resetOther (b.mate b.event)) = ofSN (b.mate b.event) := by
    unfold ofSN SNStep.resetOther
    simp [SNStep.Star.set]
  have hu := update_holds c hc (SNStep.resetOther (b.mate b.event))
  rw [hr] at hu
  have hcs := SNStep.collapse_cases hs
  refine ⟨?_, holds_star (cc_star hcs.1), ?_, ?_, ?_⟩
  · rw [same_seen h1]
    exact (update_holds c hc s).2 fun _ => C150_collapse c _ s hd hs
  · exact (SNStep.C34_companion c b b' h).2.1 "spin" (by decide) (by decide)
  · rw [same_seen h2]
    exact hu.1
  · rw [same_seen h2]
    exact hu.2

/-! ### The common envelope -/

theorem kept_holds {s s' : CE.Star} (h : Kinds.Kept s s') : Holds (ofCE s) (ofCE s') ∧ (Fine (ofCE s) → Fine (ofCE s')) := by
  rcases h with ⟨h1, h2⟩ | ⟨h1, -, h2⟩
  · exact ⟨holds_star (kind_plain (Kinds.name_plain h1)), fun _ => fine_star (kind_plain (Kinds.name_plain h2))⟩
  · have : ofCE s' = ofCE s := by
      unfold ofCE
      rw [h1, h2]
    rw [this]
    exact ⟨Holds.rfl, id⟩

/-! ### The merger -/

theorem massless_gone (s : Merged.Star) : (ofMerged (Merged.massless s)).1 = .gone := rfl

theorem merge_spins {cfg : Merged.Cfg} {base comp : Merged.Star} {v : Merged.Star × Merged.Star} (h : Merged.merge cfg base comp = .ok v)
    (hb0 : base.state ≠ some .massless) (hc0 : comp.state ≠ some .massless) :
    (Holds (ofMerged base) (ofMerged v.1) ∧ Fine (ofMerged v.1)) ∧
      (Holds (ofMerged comp) (ofMerged v.2) ∧ (Fine (ofMerged comp) → Fine (ofMerged v.2))) := by
  have fg : ∀ x : Seen, x.1 = .gone → Fine x := fun x hx e => by rw [hx] at e; cases e
  have hg : ∀ x y : Seen, x.1 ≠ .gone → y.1 = .gone → Holds x y := fun x y hx hy => ⟨fun _ => .inl hy, fun e => absurd e hx⟩
  have hbase : (ofMerged base).1 = .star := by
    cases hbb : Merged.branch base.state comp.state with
    | none => unfold Merged.merge at h; rw [hbb] at h; cases h
    | some b =>
      unfold ofMerged
      cases hs : base.state with
      | none => rfl
      | some a =>
        rw [hs] at hbb hb0
        cases hcs : comp.state with
        | none =>
          rw [hcs] at hbb
          revert hbb
          cases a <;> intro hbb <;> first | rfl | exact absurd hbb (by cases b <;> decide)
        | some d =>
          rw [hcs] at hbb
          revert hbb hb0
          cases a <;> intro hb0 hbb <;> first
            | rfl
            | exact absurd rfl hb0
            | exact absurd hbb (by cases d <;> cases b <;> decide)
  have hcomp : (ofMerged comp).1 ≠ .gone := by
    show kindOf (Kinds.stateName comp.state) ≠ .gone
    revert hc0
    cases comp.state with
    | none => intro _; decide
    | some a => cases a <;> first | (intro e; exact absurd rfl e) | (intro _; decide)
  cases hb : Merged.branch base.state comp.state with
  | none =>
    unfold Merged.merge at h
    rw [hb] at h
    cases h
  | some b =>
    by_cases hn : b = .nsbh
    · subst hn
      unfold Merged.merge at h
      rw [hb] at h
      cases h
      exact ⟨⟨hg _ _ (by rw [hbase]; decide) (massless_gone _), fg _ (massless_gone _)⟩, Holds.rfl, id⟩
    · obtain ⟨p, hp, e1, e2⟩ := Merged.merge_ok (m := v.1) (r := v.2) hb hn h
      have hgone : (ofMerged v.2).1 = .gone := by rw [e2]; rfl
      refine ⟨⟨holds_star hbase, ?_⟩, hg _ _ hcomp hgone, fun _ => fg _ hgone⟩
      refine fine_star ?_
      have es : v.1.state = p.state := by rw [e1]; rfl
      unfold ofMerged
      rw [es]
      cases hps : p.state with
      | none => rfl
      | some s => exact kind_plain (Kinds.name_plain (Kinds.product_state hb hn hp hps))

/-- A merger: a neutron star or black hole keeps its spin, everything else that was compact is gone. -/
theorem C150_merger (cfg : Merged.Cfg) (b b' : Merged.Binary) (h : Merged.call cfg b = .ok b') (h1 : b.star1.state ≠ some .massless)
    (h2 : b.star2.state ≠ some .massless) :
    (Holds (ofMerged b.star1) (ofMerged b'.star1) ∧ (Fine (ofMerged b.star1) → Fine (ofMerged b'.star1))) ∧
      (Holds (ofMerged b.star2) (ofMerged b'.star2) ∧ (Fine (ofMerged b.star2) → Fine (ofMerged b'.star2))) := by
  have one : ∀ b0 : Merged.Binary, b0.star1 = b.star1 → b0.star2 = b.star2 → Merged.mergeOne cfg b0 = .ok b' →
      (Holds (ofMerged b.star1) (ofMerged b'.star1) ∧ (Fine (ofMerged b.star1) → Fine (ofMerged b'.star1))) ∧
      (Holds (ofMerged b.star2) (ofMerged b'.star2) ∧ (Fine (ofMerged b.star2) → Fine (ofMerged b'.star2))) := by
    intro b0 e1 e2 h
    unfold Merged.mergeOne at h
    rw [e1, e2] at h
    split at h
    · cases h
    · rename_i v hv
      cases h
      obtain ⟨a, c⟩ := merge_spins hv h1 h2
      exact ⟨⟨a.1, fun _ => a.2⟩, c⟩
  have two : ∀ b0 : Merged.Binary, b0.star1 = b.star1 → b0.star2 = b.star2 → Merged.mergeTwo cfg b0 = .ok b' →
      (Holds (ofMerged b.star1) (ofMerged b'.star1) ∧ (Fine (ofMerged b.star1) → Fine (ofMerged b'.star1))) ∧
      (Holds (ofMerged b.star2) (ofMerged b'.star2) ∧ (Fine (ofMerged b.star2) → Fine (ofMerged b'.star2))) := by
    intro b0 e1 e2 h
    unfold Merged.mergeTwo at h
    rw [e1, e2] at h
    split at h
    · cases h
    · rename_i v hv
      cases h
      obtain ⟨a, c⟩ := merge_spins hv h2 h1
      exact ⟨c, a.1, fun _ => a.2⟩
  unfold Merged.call at h
  split at h
  · split at h
    · exact one _ rfl rfl h
    · split at h
      · exact two _ rfl rfl h
      · cases h
  · split at h
    · split at h
      · exact one _ (by rfl) (by rfl) h
      · split at h
        · exact two _ (by rfl) (by rfl) h
        · cases h
    · cases h

/-! ### All steps -/

theorem quiet_holds {x y : Seen} (h : Quiet x y) (hf : Fine x) : Fine y ∧ Holds x y := by
  cases h with
  | star v w => exact ⟨fine_star _root_.rfl, holds_star _root_.rfl⟩
  | grid v before after =>
    obtain ⟨h1, h2⟩ := C150_accretion v before after (hf _root_.rfl)
    exact ⟨fun _ => h1, fun _ => .inr ⟨_root_.rfl, h2⟩, fun e => by cases e⟩
  | same => exact ⟨hf, Holds.rfl⟩

theorem C150_step {p q : Seen × Seen} (h : Step p q) (h1 : Fine p.1) (h2 : Fine p.2) : Fine q.1 ∧ Fine q.2 ∧ Holds p.1 q.1 ∧ Holds p.2 q.2 := by
  cases h with
  | ce cfg b b' h hc hl =>
    obtain ⟨k1, k2⟩ := Kinds.C149_common_envelope cfg b b' h hc hl
    exact ⟨(kept_holds k1).2 h1, (kept_holds k2).2 h2, (kept_holds k1).1, (kept_holds k2).1⟩
  | sn c b b' h hc d1 d2 =>
    obtain ⟨he, -⟩ := SNStep.step_collapse h
    rcases he with he | he
    · obtain ⟨a1, a2, -, a4, a5⟩ := C150_supernova c b b' hc (by rw [he]; exact d1) h
      rw [he] at a1 a2 a4 a5
      exact ⟨a1, a5 h2, a2, a4⟩
    · obtain ⟨a1, a2, -, a4, a5⟩ := C150_supernova c b b' hc (by rw [he]; exact d2) h
      rw [he] at a1 a2 a4 a5
      exact ⟨a5 h1, a1, a4, a2⟩
  | merged cfg b b' h m1 m2 =>
    obtain ⟨a, c⟩ := C150_merger cfg b b' h m1 m2
    exact ⟨a.2 h1, c.2 h2, a.1, c.1⟩
  | quiet x y x' y' q1 q2 =>
    exact ⟨(quiet_holds q1 h1).1, (quiet_holds q2 h2).1, (quiet_holds q1 h1).2, (quiet_holds q2 h2).2⟩
  | update c s1 s2 hc =>
    exact ⟨(update_holds c hc s1).2 h1, (update_holds c hc s2).2 h2, (update_holds c hc s1).1, (update_holds c hc s2).1⟩

/-- Through a whole evolution, with any number of steps in any order, a compact object has an unknown spin or one between zero and one; it stays a
compact object with a spin that does not decrease, or is gone for good. -/
theorem C150_evolution {p q : Seen × Seen} (h : Relation.ReflTransGen Step p q) (h1 : Fine p.1) (h2 : Fine p.2) :
    Fine q.1 ∧ Fine q.2 ∧ Holds p.1 q.1 ∧ Holds p.2 q.2 := by
  induction h with
  | refl => exact ⟨h1, h2, Holds.rfl, Holds.rfl⟩
  | tail _ hs ih =>
    obtain ⟨a1, a2, a3, a4⟩ := ih
    obtain ⟨b1, b2, b3, b4⟩ := C150_step hs a1 a2
    exact ⟨b1, b2, a3.trans b3, a4.trans b4⟩

/-- A spin that is known at the end of an evolution that started with a compact object: it was known at the start, has not decreased and is at
most one. -/
theorem C150_known {p q : Seen × Seen} (h : Relation.ReflTransGen Step p q) (h1 : Fine p.1) (h2 : Fine p.2) (hk : p.1.1 = .compact) (b : ℝ)
    (hg : q.1.1 ≠ .gone) (hb : q.1.2 = .num b) : ∃ a, p.1.2 = .num a ∧ 0 ≤ a ∧ a ≤ b ∧ b ≤ 1 := by
  obtain ⟨f, -, g, -⟩ := C150_evolution h h1 h2
  rcases g.1 hk with hq | ⟨hq, ha⟩
  · exact absurd hq hg
  · obtain ⟨a, ha, hab⟩ := ha b hb
    exact ⟨a, ha, (h1 hk a ha).1, hab, (f hq b hb).2⟩

/-- A black hole without spin that doubles and then triples its mass by accretion spins at the maximum. -/
example : ∃ q, Relation.ReflTransGen Step ((.compact, .num 0), (.star, .none)) q ∧ q.1 = (.compact, .num 1) := by
  have e : accrete (.num 0) 10 30 = .num 1 := by
    unfold accrete GW.spinAfter
    have hz : GW.risco 0 = 6 := by
      unfold GW.risco GW.z2 GW.z1
      norm_num
      rw [show (9 : ℝ) = 3 ^ 2 by norm_num, Real.sqrt_sq (by norm_num)]
      norm_num
    dsimp only
    rw [if_neg (by norm_num), hz]
    have h3 : Real.sqrt 6 < 3 := by
      rw [Real.sqrt_lt' (by norm_num)]
      norm_num
    rw [if_neg (by rintro ⟨-, h⟩; norm_num at h; linarith), if_pos (by norm_num; linarith)]
    rfl
  refine ⟨((.compact, .num 1), (.star, .none)), .single ?_, _root_.rfl⟩
  have := Quiet.grid (.num 0) 10 30
  rw [e] at this
  exact .quiet _ _ _ _ this (.star _ _)

end Verif.Spins
