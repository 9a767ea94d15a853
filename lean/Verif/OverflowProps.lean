import Verif.Overflow
import Verif.OrbitProps
import Mathlib.Topology.Order.IntermediateValue
import Mathlib.Topology.Algebra.Order.Field
/-! C163: how the detached step finds Roche-lobe overflow. -/
namespace Verif.Overflow

open Verif.Orbit Classical

theorem lobes (s : Snap) (h : Physical s) : lobeSec s = some (s.sep * (1 - s.ecc) * eggleton (s.mSec / s.mPri)) ∧
    lobePri s = some (s.sep * (1 - s.ecc) * eggleton (s.mPri / s.mSec)) ∧
    0 < s.sep * (1 - s.ecc) * eggleton (s.mSec / s.mPri) ∧ 0 < s.sep * (1 - s.ecc) * eggleton (s.mPri / s.mSec) := by
  obtain ⟨h1, h2, h3, h4⟩ := h
  have hp : 0 < (1 - s.ecc) * s.sep := mul_pos (by linarith) h3
  obtain ⟨r, hr, r0, -⟩ := C38_range s.mSec s.mPri _ h2 h1 hp
  obtain ⟨q, hq, q0, -⟩ := C38_range s.mPri s.mSec _ h1 h2 hp
  have e1 : rocheLobe s.mSec s.mPri ((1 - s.ecc) * s.sep) = some ((1 - s.ecc) * s.sep * eggleton (s.mSec / s.mPri)) := by
    unfold rocheLobe validSep validMass
    rw [if_neg (not_lt.2 hp.le), if_neg (not_le.2 h1), if_neg (not_le.2 h2)]
  have e2 : rocheLobe s.mPri s.mSec ((1 - s.ecc) * s.sep) = some ((1 - s.ecc) * s.sep * eggleton (s.mPri / s.mSec)) := by
    unfold rocheLobe validSep validMass
    rw [if_neg (not_lt.2 hp.le), if_neg (not_le.2 h1), if_neg (not_le.2 h2)]
  rw [e1] at hr
  rw [e2] at hq
  injection hr with hr
  injection hq with hq
  rw [mul_comm s.sep]
  exact ⟨e1, e2, hr ▸ r0, hq ▸ q0⟩

theorem nonneg1 (s : Snap) (h : Physical s) : nonneg (rlo1 s) ↔ ¬ Within 0.95 s.rSec s.mSec s.mPri (s.sep * (1 - s.ecc)) := by
  obtain ⟨h1, -, -, -⟩ := lobes s h
  simp [nonneg, rlo1, h1, Within]

theorem nonneg2 (s : Snap) (h : Physical s) : nonneg (rlo2 s) ↔ ¬ Within 0.95 s.rPri s.mPri s.mSec (s.sep * (1 - s.ecc)) := by
  obtain ⟨-, h1, -, -⟩ := lobes s h
  simp [nonneg, rlo2, h1, Within]

theorem nonpos_of (s : Snap) (h : Physical s) (hi : Inside s) : nonpos (rlo1 s) ∧ nonpos (rlo2 s) := by
  obtain ⟨h1, h2, -, -⟩ := lobes s h
  constructor
  · exact ⟨_, by rw [rlo1, h1]; rfl, by have := hi.1; unfold Within at this; linarith⟩
  · exact ⟨_, by rw [rlo2, h2]; rfl, by have := hi.2; unfold Within at this; linarith⟩

/-- C163. At the start a binary is refused exactly if a star is not inside 95% of its Roche lobe at periastron, unless both are compact objects. -/
theorem C163_start (onlyCO : Bool) (s : Snap) (h : Physical s) : refused onlyCO s ↔ ¬ Inside s ∧ onlyCO = false := by
  unfold refused Inside
  rw [nonneg1 s h, nonneg2 s h, not_and_or]

/-- C163. The recorded relative overflow is that of the star itself, whichever star is called the secondary, and is at least -0.05 exactly if the search
finds the star overflowing. -/
theorem C163_recorded (s : Snap) (h : Physical s) :
    recorded true true s = some (s.rSec / (s.sep * (1 - s.ecc) * eggleton (s.mSec / s.mPri)) - 1) ∧
    recorded false false s = recorded true true s ∧ recorded false true s = recorded true false s ∧
    recorded true false s = some (s.rPri / (s.sep * (1 - s.ecc) * eggleton (s.mPri / s.mSec)) - 1) ∧
    (∀ x, recorded true true s = some x → (-0.05 ≤ x ↔ nonneg (rlo1 s))) ∧ (∀ x, recorded true false s = some x → (-0.05 ≤ x ↔ nonneg (rlo2 s))) := by
  obtain ⟨h1, h2, p1, p2⟩ := lobes s h
  have e1 : recorded true true s = some (s.rSec / (s.sep * (1 - s.ecc) * eggleton (s.mSec / s.mPri)) - 1) := by
    simp only [recorded, if_true, rel1, h1, Option.map_some]
    rw [sub_div, div_self p1.ne']
  have e2 : recorded true false s = some (s.rPri / (s.sep * (1 - s.ecc) * eggleton (s.mPri / s.mSec)) - 1) := by
    simp only [recorded, Bool.false_eq_true, if_false, if_true, rel2, h2, Option.map_some]
    rw [sub_div, div_self p2.ne']
  refine ⟨e1, rfl, rfl, e2, ?_, ?_⟩
  · intro x hx
    rw [e1] at hx
    injection hx with hx
    rw [nonneg1 s h, Within, not_lt, ← hx, ← le_div_iff₀ p1]
    constructor <;> intro <;> norm_num at * <;> linarith
  · intro x hx
    rw [e2] at hx
    injection hx with hx
    rw [nonneg2 s h, Within, not_lt, ← hx, ← le_div_iff₀ p2]
    constructor <;> intro <;> norm_num at * <;> linarith

theorem active_none (s s' : Snap) (h : Physical s) (h' : Physical s') (hi : Inside s) : active s s' = ⟨false, false⟩ ↔ Inside s' := by
  obtain ⟨n1, n2⟩ := nonpos_of s h hi
  unfold active Inside
  simp only [Active.mk.injEq, decide_eq_false_iff_not, n1, n2, true_and]
  rw [nonneg1 s' h', nonneg2 s' h', not_not, not_not]

/-- C163. A binary that was not refused and whose integration ends without overflow: both stars are inside 95% of their lobes at all integration steps. -/
theorem C163_quiet (s : Snap) (steps : List Snap) (hs : ∀ x ∈ s :: steps, Physical x) (h0 : ¬ refused false s) (h : run s steps = none) :
    ∀ x ∈ s :: steps, Inside x := by
  have hi : Inside s := by
    rw [C163_start false s (hs s List.mem_cons_self)] at h0
    by_contra hc
    exact h0 ⟨hc, rfl⟩
  clear h0
  induction steps generalizing s with
  | nil => intro x hx; rw [List.mem_singleton] at hx; exact hx ▸ hi
  | cons s' rest ih =>
    rw [run] at h
    by_cases ha : active s s' = ⟨false, false⟩
    · rw [if_pos ha, Option.map_eq_none_iff] at h
      have hi' := (active_none s s' (hs s List.mem_cons_self) (hs s' (by simp)) hi).1 ha
      intro x hx
      rcases List.mem_cons.1 hx with rfl | hx
      · exact hi
      · exact ih s' (fun y hy => hs y (List.mem_cons_of_mem _ hy)) h hi' x hx
    · rw [if_neg ha] at h
      exact absurd h (by simp)

/-- C163. Stars inside their lobes never touch: their radii together are less than 95% of the smallest distance. -/
theorem C163_no_collision (s : Snap) (h : Physical s) (hi : Inside s) : s.rPri + s.rSec < 0.95 * (s.sep * (1 - s.ecc)) := by
  obtain ⟨h1, h2, -, -⟩ := lobes s h
  have hp : 0 < (1 - s.ecc) * s.sep := mul_pos (by linarith [h.2.2.2]) h.2.2.1
  have := C38_disjoint s.mSec s.mPri _ _ _ h.2.1 h.1 hp h1 h2
  have a := hi.1
  have b := hi.2
  unfold Within at a b
  nlinarith

/-- C163. A binary that was not refused and is found to overflow after `k` integration steps: before, both stars are inside 95% of their lobes at all steps;
after the next step the stars named, and only these, are not. -/
theorem C163_found (s : Snap) (steps : List Snap) (k : ℕ) (a : Active) (hs : ∀ x ∈ s :: steps, Physical x) (h0 : ¬ refused false s)
    (h : run s steps = some (k, a)) :
    ∃ x y, (s :: steps)[k]? = some x ∧ steps[k]? = some y ∧ (∀ z ∈ (s :: steps).take (k + 1), Inside z) ∧
      (a.sec = true ↔ ¬ Within 0.95 y.rSec y.mSec y.mPri (y.sep * (1 - y.ecc))) ∧
      (a.pri = true ↔ ¬ Within 0.95 y.rPri y.mPri y.mSec (y.sep * (1 - y.ecc))) ∧ (a.sec = true ∨ a.pri = true) := by
  have hi : Inside s := by
    rw [C163_start false s (hs s List.mem_cons_self)] at h0
    by_contra hc
    exact h0 ⟨hc, rfl⟩
  clear h0
  induction steps generalizing s k with
  | nil => exact absurd h (by simp [run])
  | cons s' rest ih =>
    have p := hs s List.mem_cons_self
    have p' := hs s' (by simp)
    rw [run] at h
    by_cases ha : active s s' = ⟨false, false⟩
    · rw [if_pos ha, Option.map_eq_some_iff] at h
      obtain ⟨⟨k', a'⟩, h1, h2⟩ := h
      injection h2 with h2 h3
      subst h2 h3
      have hi' := (active_none s s' p p' hi).1 ha
      obtain ⟨x, y, e1, e2, e3, e4⟩ := ih s' k' (fun y hy => hs y (List.mem_cons_of_mem _ hy)) h1 hi'
      refine ⟨x, y, by simpa using e1, by simpa using e2, ?_, e4⟩
      intro z hz
      rw [List.take_succ_cons] at hz
      rcases List.mem_cons.1 hz with rfl | hz
      · exact hi
      · exact e3 z hz
    · rw [if_neg ha] at h
      injection h with h
      injection h with h1 h2
      subst h1 h2
      obtain ⟨n1, n2⟩ := nonpos_of s p hi
      refine ⟨s, s', rfl, rfl, ?_, ?_, ?_, ?_⟩
      · intro z hz
        simp at hz
        exact hz ▸ hi
      · simp only [active, decide_eq_true_eq, n1, true_and]
        exact nonneg1 s' p'
      · simp only [active, decide_eq_true_eq, n2, true_and]
        exact nonneg2 s' p'
      · rcases hA : active s s' with ⟨_ | _, _ | _⟩
        · exact absurd hA ha
        all_goals simp

/-- C163. In the integration step with overflow there is a time at which the star has exactly 95% of its lobe, the recorded relative overflow is -0.05 then:
mass transfer begins inside the lobe. -/
theorem C163_crossing (path : ℝ → Snap) (t t' : ℝ) (htt : t ≤ t') (hp : ∀ u ∈ Set.Icc t t', Physical (path u))
    (hc : ContinuousOn (fun u => (path u).rSec / ((path u).sep * (1 - (path u).ecc) * eggleton ((path u).mSec / (path u).mPri))) (Set.Icc t t'))
    (ha : (active (path t) (path t')).sec = true) :
    ∃ u ∈ Set.Icc t t', rlo1 (path u) = some 0 ∧ recorded true true (path u) = some (-0.05) := by
  simp only [active, decide_eq_true_eq] at ha
  obtain ⟨⟨r, hr, hr0⟩, hn⟩ := ha
  have pl := hp t (Set.left_mem_Icc.2 htt)
  have pr := hp t' (Set.right_mem_Icc.2 htt)
  obtain ⟨l1, -, l3, -⟩ := lobes _ pl
  obtain ⟨-, -, r3, -⟩ := lobes _ pr
  rw [rlo1, l1, Option.map_some] at hr
  injection hr with hr
  rw [nonneg1 _ pr, Within, not_lt] at hn
  have hmem : (0.95 : ℝ) ∈ Set.Icc ((path t).rSec / ((path t).sep * (1 - (path t).ecc) * eggleton ((path t).mSec / (path t).mPri)))
      ((path t').rSec / ((path t').sep * (1 - (path t').ecc) * eggleton ((path t').mSec / (path t').mPri))) := by
    constructor
    · rw [div_le_iff₀ l3]; linarith
    · rw [le_div_iff₀ r3]; exact hn
  obtain ⟨u, hu, hv⟩ := intermediate_value_Icc htt hc hmem
  have pu := hp u hu
  obtain ⟨u1, -, u3, -⟩ := lobes _ pu
  dsimp only at hv
  refine ⟨u, hu, ?_, ?_⟩
  · rw [rlo1, u1, Option.map_some]
    rw [div_eq_iff u3.ne'] at hv
    rw [hv, sub_self]
  · rw [(C163_recorded _ pu).1, hv]
    norm_num

/-- C163. The names of the stars do not matter. -/
theorem C163_mirror (onlyCO : Bool) (s : Snap) (steps : List Snap) :
    rlo1 s.mirror = rlo2 s ∧ rlo2 s.mirror = rlo1 s ∧ (refused onlyCO s.mirror ↔ refused onlyCO s) ∧
      run s.mirror (steps.map Snap.mirror) = (run s steps).map fun r => (r.1, ⟨r.2.pri, r.2.sec⟩) := by
  have m1 : ∀ x : Snap, rlo1 x.mirror = rlo2 x := fun _ => rfl
  have m2 : ∀ x : Snap, rlo2 x.mirror = rlo1 x := fun _ => rfl
  refine ⟨m1 s, m2 s, by unfold refused; rw [m1, m2, or_comm], ?_⟩
  induction steps generalizing s with
  | nil => rfl
  | cons s' rest ih =>
    have ha : active s.mirror s'.mirror = ⟨(active s s').pri, (active s s').sec⟩ := by
      unfold active
      simp only [m1, m2]
    rw [List.map_cons, run, run, ih s', ha]
    rcases hA : active s s' with ⟨_ | _, _ | _⟩ <;> simp [Function.comp_def]

/-- C163. The more eccentric the orbit, the earlier a star overflows: a binary refused stays refused at a larger eccentricity. -/
theorem C163_eccentric (onlyCO : Bool) (s : Snap) (e : ℝ) (h : Physical s) (he : s.ecc ≤ e) (he1 : e < 1) (hr : refused onlyCO s) :
    refused onlyCO { s with ecc := e } := by
  have h' : Physical { s with ecc := e } := ⟨h.1, h.2.1, h.2.2.1, he1⟩
  rw [C163_start _ _ h] at hr
  rw [C163_start _ _ h']
  refine ⟨fun hi => hr.1 ?_, hr.2⟩
  obtain ⟨-, -, p1, p2⟩ := lobes s h
  have hd : 0 < s.sep * (1 - s.ecc) := mul_pos h.2.2.1 (by linarith [h.2.2.2])
  have q1 : 0 < eggleton (s.mSec / s.mPri) := pos_of_mul_pos_right (by linarith : 0 < s.sep * (1 - s.ecc) * _) hd.le
  have q2 : 0 < eggleton (s.mPri / s.mSec) := pos_of_mul_pos_right (by linarith : 0 < s.sep * (1 - s.ecc) * _) hd.le
  have hle : s.sep * (1 - e) ≤ s.sep * (1 - s.ecc) := mul_le_mul_of_nonneg_left (by linarith) h.2.2.1.le
  obtain ⟨i1, i2⟩ := hi
  unfold Within at i1 i2
  dsimp only at i1 i2
  exact ⟨lt_of_lt_of_le i1 (by have := mul_le_mul_of_nonneg_right hle q1.le; linarith),
    lt_of_lt_of_le i2 (by have := mul_le_mul_of_nonneg_right hle q2.le; linarith)⟩

/-! ### What is not found -/

/-- C163. Overflow that begins and ends within one integration step is not found: of any binary inside its lobes there is a continuous expansion and
contraction of a star, beyond any factor of its lobe, that the search misses. -/
theorem C163_missed_violated (s : Snap) (h : Physical s) (hi : Inside s) (factor : ℝ) :
    ∃ path : ℝ → Snap, Continuous (fun t => (path t).rSec) ∧ path 0 = s ∧ run (path 0) [path 1] = none ∧ (∀ t, Physical (path t)) ∧
      ∃ t ∈ Set.Ioo (0 : ℝ) 1, factor * (s.sep * (1 - s.ecc) * eggleton (s.mSec / s.mPri)) < (path t).rSec := by
  set L := s.sep * (1 - s.ecc) * eggleton (s.mSec / s.mPri) with hL
  refine ⟨fun t => { s with rSec := s.rSec + 4 * (|factor * L - s.rSec| + 1) * (t * (1 - t)) }, by fun_prop, by simp, ?_, fun t => h, 1 / 2, by norm_num, ?_⟩
  · have hz : active s s = ⟨false, false⟩ := (active_none s s h h hi).2 hi
    simp [run, hz]
  · have := le_abs_self (factor * L - s.rSec)
    norm_num
    linarith

/-- C163. A star beyond its lobe from the start, which is let through for two compact objects, is never found as long as it stays there. -/
theorem C163_above_violated (s : Snap) (steps : List Snap) (h : ∀ x ∈ s :: steps, ∃ a b, rlo1 x = some a ∧ rlo2 x = some b ∧ 0 < a ∧ 0 < b) :
    ¬ refused true s ∧ run s steps = none := by
  refine ⟨fun hr => by simpa using hr.2, ?_⟩
  induction steps generalizing s with
  | nil => rfl
  | cons s' rest ih =>
    obtain ⟨a, b, ha, hb, a0, b0⟩ := h s List.mem_cons_self
    have hz : active s s' = ⟨false, false⟩ := by
      simp only [active, nonpos, ha, hb, Option.some.injEq, exists_eq_left', Active.mk.injEq, decide_eq_false_iff_not, not_and]
      exact ⟨fun hc => absurd hc (not_le.2 a0), fun hc => absurd hc (not_le.2 b0)⟩
    rw [run, if_pos hz, ih s' (fun x hx => h x (List.mem_cons_of_mem _ hx))]
    rfl

/-- C163. An orbit without a separation of its own (negative periastron) or a star without mass: nothing is refused and nothing is found, whatever the radii. -/
theorem C163_nan_violated (onlyCO : Bool) (s : Snap) (steps : List Snap)
    (h : ∀ x ∈ s :: steps, (1 - x.ecc) * x.sep < 0 ∨ x.mPri ≤ 0 ∨ x.mSec ≤ 0) : ¬ refused onlyCO s ∧ run s steps = none := by
  have hn : ∀ x ∈ s :: steps, rlo1 x = none ∧ rlo2 x = none := by
    intro x hx
    have := h x hx
    have e1 : lobeSec x = none := (C38_invalid _ _ _).2 (by tauto)
    have e2 : lobePri x = none := (C38_invalid _ _ _).2 (by tauto)
    simp [rlo1, rlo2, e1, e2]
  constructor
  · obtain ⟨e1, e2⟩ := hn s List.mem_cons_self
    simp [refused, nonneg, e1, e2]
  · clear h
    induction steps generalizing s with
    | nil => rfl
    | cons s' rest ih =>
      obtain ⟨e1, e2⟩ := hn s List.mem_cons_self
      have hz : active s s' = ⟨false, false⟩ := by simp [active, nonpos, e1, e2]
      rw [run, if_pos hz, ih s' (fun x hx => hn x (List.mem_cons_of_mem _ hx))]
      rfl

/-! ### A case -/

/-- Stars of equal masses. -/
noncomputable def exS (r : ℝ) : Snap := ⟨1, 1, r, r, 100, 0⟩

theorem exPhys (r : ℝ) : Physical (exS r) := by unfold Physical exS; norm_num

/-- A small binary is let through, and found when its stars have grown. -/
example : ∃ a, ¬ refused false (exS 0) ∧ run (exS 0) [exS 0, exS 100] = some (1, a) ∧ a = ⟨true, true⟩ := by
  have i0 : Inside (exS 0) := by
    obtain ⟨-, -, p1, p2⟩ := lobes _ (exPhys 0)
    unfold Inside Within
    constructor
    · show (0 : ℝ) < _; linarith
    · show (0 : ℝ) < _; linarith
  have i1 : ¬ Inside (exS 100) := by
    intro hc
    have := C163_no_collision _ (exPhys 100) hc
    unfold exS at this
    norm_num at this
  have z0 := (active_none _ _ (exPhys 0) (exPhys 0) i0).2 i0
  have z1 : active (exS 0) (exS 100) = ⟨true, true⟩ := by
    have hna := mt (active_none _ _ (exPhys 0) (exPhys 100) i0).1 i1
    have heq : (active (exS 0) (exS 100)).sec = (active (exS 0) (exS 100)).pri := rfl
    rcases hA : active (exS 0) (exS 100) with ⟨_ | _, _ | _⟩
    · exact absurd hA hna
    · rw [hA] at heq; exact absurd heq (by decide)
    · rw [hA] at heq; exact absurd heq (by decide)
    · rfl
  refine ⟨_, fun hr => ((C163_start false _ (exPhys 0)).1 hr).1 i0, ?_, rfl⟩
  rw [run, if_pos z0, run, if_neg (by rw [z1]; decide), z1]
  rfl

end Verif.Overflow
