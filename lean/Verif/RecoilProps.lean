import Verif.Recoil
/-! C161: the motion of a binary and the tilts of its orbit through a whole evolution. -/
namespace Verif.Recoil

open Verif.SNStep

/-! ### Steps other than supernovae -/

theorem detachedV_eq {n : ℕ} {m r : Motion} (h : detachedV n m = some r) : r.v = m.v ∧ ∃ k, r.hist = m.hist ++ List.replicate k m.v := by
  unfold detachedV at h
  split at h
  · cases h
  · cases h
    refine ⟨rfl, if n > 1 then n else 0, ?_⟩
    split <;> simp

theorem getLast_append_replicate {α : Type} {l : List α} {v : α} (h : l.getLast? = some v) (k : ℕ) : (l ++ List.replicate k v).getLast? = some v := by
  cases k with
  | zero => simpa using h
  | succ k => simp [List.getLast?_append, List.getLast?_replicate]

/-- C161. A step other than a supernova keeps the velocity and records only it. -/
theorem C161_other (a : Act) (m r : Motion) (hl : m.hist.getLast? = some m.v) (h : run a m = some r) :
    r.v = m.v ∧ ∃ k, r.hist = m.hist ++ List.replicate k m.v := by
  cases a with
  | grid save rows =>
    simp only [run, hl, Option.some.injEq] at h
    subst h
    refine ⟨rfl, (if save then 1 else 0) + rows, ?_⟩
    cases save <;> simp [List.replicate_add]
  | pass =>
    cases h
    exact ⟨rfl, 0, by simp⟩
  | detached n => exact detachedV_eq h
  | compact n =>
    simp only [run] at h
    cases hd : detachedV n m with
    | none => simp [hd] at h
    | some q =>
      obtain ⟨h1, k, h2⟩ := detachedV_eq hd
      have : q.hist.getLast? = some m.v := by rw [h2]; exact getLast_append_replicate hl k
      simp only [hd, this, Option.some.injEq] at h
      subst h
      exact ⟨rfl, k, h2⟩
  | envelope =>
    cases h
    exact ⟨rfl, 0, by simp⟩

/-- C161. These steps do not fail for the velocity, as long as the detached step has a time. -/
theorem C161_other_runs (a : Act) (m : Motion) (hl : m.hist.getLast? = some m.v) (h1 : a ≠ .detached 0) (h2 : a ≠ .compact 0) : ∃ r, run a m = some r := by
  cases a with
  | grid save rows => simp [run, hl]
  | pass => exact ⟨m, rfl⟩
  | envelope => exact ⟨m, rfl⟩
  | detached n =>
    have hn : n ≠ 0 := fun h => h1 (by rw [h])
    simp [run, detachedV, hn]
  | compact n =>
    have hn : n ≠ 0 := fun h => h2 (by rw [h])
    cases hd : detachedV n m with
    | none => simp [detachedV, hn] at hd
    | some q =>
      obtain ⟨-, k, h⟩ := detachedV_eq hd
      have : q.hist.getLast? = some m.v := by rw [h]; exact getLast_append_replicate hl k
      simp [run, hd, this]

theorem append_last {skip : Bool} {m : Motion} (hl : m.hist.getLast? = some m.v) : (append skip m).hist.getLast? = some (append skip m).v := by
  cases skip
  · simp [append]
  · simpa [append] using hl

theorem step_last {kick : Bool} {n : ℕ} {x y : Tale} (h : Step kick n x y) (hl : x.motion.hist.getLast? = some x.motion.v) :
    y.motion.hist.getLast? = some y.motion.v := by
  cases h with
  | other a skip x m state h hs =>
    obtain ⟨h1, k, h2⟩ := C161_other a _ _ hl h
    exact append_last (by rw [h2, h1]; exact getLast_append_replicate hl k)
  | supernova c b b' hist hk h => simp [append]

/-! ### The history of the velocity -/

theorem pieces_snoc (l : List (Val × ℕ)) (v : Val) (k : ℕ) : pieces (l ++ [(v, k)]) = pieces l ++ List.replicate k v := by simp [pieces]

/-- The history is made of constant pieces, the last with the velocity of now. -/
def Pieced (x : Tale) (n : ℕ) : Prop := ∃ l k, l.length ≤ n ∧ k ≠ 0 ∧ x.motion.hist = pieces (l ++ [(x.motion.v, k)])

theorem Pieced.last {x : Tale} {n : ℕ} (h : Pieced x n) : x.motion.hist.getLast? = some x.motion.v := by
  obtain ⟨l, k, -, hk, h⟩ := h
  rw [h, pieces_snoc]
  obtain ⟨k, rfl⟩ := Nat.exists_eq_succ_of_ne_zero hk
  simp [List.getLast?_append, List.getLast?_replicate]

theorem Pieced.step {kick : Bool} {m n : ℕ} {x y : Tale} (hx : Pieced x n) (h : Step kick m x y) : Pieced y (m + n) := by
  have hl := hx.last
  obtain ⟨l, k, h1, h2, h3⟩ := hx
  cases h with
  | other a skip x m state h hs =>
    obtain ⟨e1, j, e2⟩ := C161_other a _ _ hl h
    refine ⟨l, k + j + (if skip then 0 else 1), by omega, by omega, ?_⟩
    cases skip
    · simp only [append, Bool.false_eq_true, if_false, e1, e2, h3, pieces_snoc, List.append_assoc, List.replicate_add]
      rfl
    · simp only [append, if_true, e1, e2, h3, pieces_snoc, List.append_assoc, ← List.replicate_add, Nat.add_zero]
  | supernova c b b' hist hk h =>
    refine ⟨l ++ [(b.attr "V_sys", k)], 1, by simp; omega, by omega, ?_⟩
    rw [pieces_snoc]
    simp only [append, view, Bool.false_eq_true, if_false] at h3 ⊢
    rw [h3]
    rfl

theorem Pieced.steps {kick : Bool} {m n : ℕ} {x y : Tale} (hx : Pieced x n) (h : Steps kick m x y) : Pieced y (m + n) := by
  induction h generalizing n with
  | done x => simpa using hx
  | next h t ih =>
    have := ih (hx.step h)
    rw [show ∀ a b c : ℕ, a + b + c = b + (a + c) by intros; omega]
    exact this

theorem pieced_new {x : Tale} (h : x.motion.hist = [x.motion.v]) : Pieced x 0 := ⟨[], 1, by simp, by omega, by rw [h]; simp [pieces]⟩

/-- C161. Through a whole evolution the recorded velocities are pieces of one value each, at most one more than there are supernovae, and the last piece is
the velocity of now. -/
theorem C161_history {kick : Bool} {n : ℕ} {x y : Tale} (hx : x.motion.hist = [x.motion.v]) (h : Steps kick n x y) :
    ∃ l k, l.length ≤ n ∧ k ≠ 0 ∧ y.motion.hist = pieces (l ++ [(y.motion.v, k)]) := by
  have := (pieced_new hx).steps h
  simpa [Pieced] using this

/-- C161. Without a supernova nothing changes: one velocity in all rows, the same tilts, anomaly and kicks. -/
theorem C161_quiet {kick : Bool} {x y : Tale} (hl : x.motion.hist.getLast? = some x.motion.v) (h : Steps kick 0 x y) :
    (∃ k, y.motion = ⟨x.motion.v, x.motion.hist ++ List.replicate k x.motion.v⟩) ∧ y.firstSN = x.firstSN ∧ y.nu1 = x.nu1 ∧
      (y.tilt11, y.tilt12, y.tilt21, y.tilt22) = (x.tilt11, x.tilt12, x.tilt21, x.tilt22) ∧ y.kicks1 = x.kicks1 ∧ y.kicks2 = x.kicks2 := by
  generalize hn : 0 = n at h
  induction h with
  | done x => exact ⟨⟨0, by simp⟩, rfl, rfl, rfl, rfl, rfl⟩
  | next h t ih =>
    rename_i x y z
    have hl' := step_last h hl
    obtain ⟨⟨k, i1⟩, i2, i3, i4, i5, i6⟩ := ih hl' (by omega)
    cases h with
    | supernova => omega
    | other a skip x m state h hs =>
      obtain ⟨e1, j, e2⟩ := C161_other a _ _ hl h
      refine ⟨⟨j + (if skip then 0 else 1) + k, ?_⟩, i2, i3, i4, i5, i6⟩
      rw [i1]
      cases skip
      · simp only [append, Bool.false_eq_true, if_false, e1, e2, List.replicate_add, List.append_assoc, Motion.mk.injEq, true_and]
        rfl
      · simp only [append, if_true, e1, e2, List.replicate_add, List.append_assoc, Motion.mk.injEq, true_and]
        rfl

/-! ### The supernova -/

/-- What the orbital part leaves of velocity, state, tilts and anomaly. -/
inductive After (c : Cfg) (b : Binary) (p : Pre) (b' : Binary) : Prop
  | alone (ha : SNStep.alone b.state = true) (hv : b'.attr "V_sys" = .vec 0 0 0) (hs : b'.state = b.state) (hn : b'.nu1 = b.nu1)
      (t1 : b'.s1 = b.s1) (t2 : b'.s2 = b.s2)
  | lost (ha : SNStep.alone b.state = false) (hv : b'.attr "V_sys" = .vec 0 0 0) (hs : b'.state = "disrupted") (hn : b'.nu1 = b.nu1)
      (hw : b.s1.state = "massless_remnant" ∨ b.s2.state = "massless_remnant" ∨ (c.orbit p).survives = false)
      (h1 : b.firstSN = true → b'.s1.tilt1 = b.s1.tilt1 ∧ b'.s2.tilt1 = b.s2.tilt1)
      (h2 : b.firstSN = false → b'.s1.tilt1 = .nan ∧ b'.s2.tilt1 = .nan ∧ b'.s1.tilt2 = b.s1.tilt2 ∧ b'.s2.tilt2 = b.s2.tilt2)
  | bound (ha : SNStep.alone b.state = false) (hv : b'.attr "V_sys" = .vec (c.orbit p).vx (c.orbit p).vy (c.orbit p).vz) (hs : b'.state = "detached")
      (hw : b.s1.state ≠ "massless_remnant" ∧ b.s2.state ≠ "massless_remnant" ∧ (c.orbit p).survives = true)
      (h1 : b.firstSN = true → b'.s1.tilt1 = b.s1.tilt1 ∧ b'.s2.tilt1 = b.s2.tilt1 ∧ b'.nu1 = b.nu1 ∧ b.nu1 ≠ none)
      (h2 : b.firstSN = false → b'.s1.tilt1 = .num (c.orbit p).tilt ∧ b'.s2.tilt1 = .num (c.orbit p).tilt ∧ b'.nu1 = some (.num (c.orbit p).nu) ∧
        b'.s1.tilt2 = b.s1.tilt2 ∧ b'.s2.tilt2 = b.s2.tilt2)

theorem noOrbit_v (b : Binary) : (noOrbit b).attr "V_sys" = .vec 0 0 0 := by simp [noOrbit, Binary.set]

theorem lost_of {c : Cfg} {b b2 : Binary} {p : Pre} (ha : SNStep.alone b.state = false)
    (hw : b.s1.state = "massless_remnant" ∨ b.s2.state = "massless_remnant" ∨ (c.orbit p).survives = false)
    (e1 : b2.s1 = b.s1) (e2 : b2.s2 = b.s2) (e3 : b2.firstSN = b.firstSN) (e4 : b2.nu1 = b.nu1) :
    After c b p (noOrbit { tiltsNan b2 with state := "disrupted" }) := by
  refine .lost ha (noOrbit_v _) rfl ?_ hw ?_ ?_
  · rw [← e4]; simp only [noOrbit, Binary.set, tiltsNan]; split <;> rfl
  · intro h; rw [← e3] at h
    simp [noOrbit, Binary.set, tiltsNan, h, e1, e2]
  · intro h; rw [← e3] at h
    simp [noOrbit, Binary.set, tiltsNan, h, e1, e2]

theorem tilts_of {c : Cfg} {b b' : Binary} {t n : ℝ} (h : tilts c b t n = .ok b') :
    (b.firstSN = true → b'.s1.tilt1 = b.s1.tilt1 ∧ b'.s2.tilt1 = b.s2.tilt1 ∧ b'.nu1 = b.nu1 ∧ b.nu1 ≠ none) ∧
    (b.firstSN = false → b'.s1.tilt1 = .num t ∧ b'.s2.tilt1 = .num t ∧ b'.nu1 = some (.num n) ∧ b'.s1.tilt2 = b.s1.tilt2 ∧ b'.s2.tilt2 = b.s2.tilt2) := by
  unfold tilts at h
  cases hf : b.firstSN
  · simp only [hf, Bool.not_false, if_true] at h
    cases h
    exact ⟨fun h => (by cases h), fun _ => ⟨rfl, rfl, rfl, rfl, rfl⟩⟩
  · simp only [hf, Bool.not_true, Bool.false_eq_true, if_false] at h
    refine ⟨fun _ => ?_, fun h => (by cases h)⟩
    cases hn : b.nu1 with
    | none => rw [hn] at h; cases h
    | some n =>
      rw [hn] at h
      simp only at h
      split at h
      · split at h
        · cases h
        · cases h; exact ⟨rfl, rfl, (by first | rfl | exact hn), by simp⟩
      · split at h
        · cases h
        · cases h; exact ⟨rfl, rfl, (by first | rfl | exact hn), by simp⟩
      · cases h

theorem after_of {c : Cfg} {b b' : Binary} {p : Pre} (h : afterKick c b p = .ok b') : After c b p b' := by
  unfold afterKick at h
  cases ha : SNStep.alone b.state
  · rw [ha, if_neg (by simp)] at h
    split at h
    · rename_i hm
      cases h
      exact lost_of ha (hm.elim .inl fun h => .inr (.inl h)) rfl rfl rfl rfl
    · rename_i hm
      have hm1 : b.s1.state ≠ "massless_remnant" := fun e => hm (.inl e)
      have hm2 : b.s2.state ≠ "massless_remnant" := fun e => hm (.inr e)
      split at h
      · dsimp only at h
        split at h
        · rename_i ho
          split at h
          · cases h
          · rename_i b2 h2
            cases h
            have ht := tilts_of h2
            exact .bound ha (by simp [Binary.set]) rfl ⟨hm1, hm2, ho⟩ ht.1 ht.2
        · rename_i ho
          cases h
          exact lost_of ha (.inr (.inr (by simpa using ho))) rfl rfl rfl rfl
      · cases h
  · rw [ha, if_pos rfl] at h
    cases h
    have hv := noOrbit_v (b.wipe ["nearest_neighbour_distance", "state"])
    exact .alone ha hv (by simp only [noOrbit, Binary.set, Binary.wipe]) (by simp only [noOrbit, Binary.set, Binary.wipe])
      (by simp only [noOrbit, Binary.set, Binary.wipe]) (by simp only [noOrbit, Binary.set, Binary.wipe])

theorem closing_nu1 {b b' : Binary} (h : closing b = .ok b') : b'.nu1 = b.nu1 := by
  unfold closing at h
  split at h
  · cases h; rfl
  · split at h
    · split at h
      · cases h
      · cases h; rfl
    · split at h
      · cases h; rfl
      · split at h
        · cases h; rfl
        · cases h; rfl

theorem After.closing {c : Cfg} {b bo b' : Binary} {p : Pre} (h : After c b p bo) (hc : closing bo = .ok b') : After c b p b' := by
  obtain ⟨e1, e2, e3, e4, -⟩ := closing_cases hc
  have e5 := closing_nu1 hc
  have ev := e4 "V_sys" (by decide)
  cases h with
  | alone ha hv hs hn t1 t2 => exact .alone ha (ev.trans hv) (e3.trans hs) (e5.trans hn) (e1.trans t1) (e2.trans t2)
  | lost ha hv hs hn hw h1 h2 => exact .lost ha (ev.trans hv) (e3.trans hs) (e5.trans hn) hw (by rw [e1, e2]; exact h1) (by rw [e1, e2]; exact h2)
  | bound ha hv hs hw h1 h2 => exact .bound ha (ev.trans hv) (e3.trans hs) hw (by rw [e1, e2, e5]; exact h1) (by rw [e1, e2, e5]; exact h2)

theorem kicked_tilt2 {c : Cfg} {s s' : Star} {v f t a : ℝ} (h : kicked c s = .ok (s', v, f, t, a)) : s'.tilt2 = s.tilt2 := by
  unfold kicked at h
  split at h
  · split at h
    · cases h
    · simp only [Except.ok.injEq, Prod.mk.injEq] at h
      obtain ⟨rfl, -⟩ := h
      rfl
  · cases h

/-- The parts of a binary that the collapse does not change, and which the kick of one star does not change before the orbit is computed. -/
structure Like (b bk : Binary) : Prop where
  state : bk.state = b.state
  first : bk.firstSN = b.firstSN
  nu1 : bk.nu1 = b.nu1
  t11 : bk.s1.tilt1 = b.s1.tilt1
  t12 : bk.s2.tilt1 = b.s2.tilt1
  t21 : bk.s1.tilt2 = b.s1.tilt2
  t22 : bk.s2.tilt2 = b.s2.tilt2

/-- The orbit `p` given to the kick: the orbit of before, the masses before and after the collapse, and the kick that is recorded with the star. -/
structure Meets (b b' : Binary) (p : Pre) : Prop where
  sep : p.sep = b.attr "separation"
  ecc : p.ecc = b.attr "eccentricity"
  before : p.Mhe = (b.star b.event).lastMass
  after : p.Mco = (b'.star b.event).mass
  mate : p.Mcomp = (b'.mate b.event).mass
  speed : (b'.star b.event).kickV = some p.V
  phi : (b'.star b.event).kickPhi = some p.phi
  anomaly : (b'.star b.event).kickAnomaly = some p.anomaly

/-- Kicks that are known are kept. -/
def Keeps (k k' : Option ℝ × Option ℝ × Option ℝ × Option ℝ) : Prop :=
  (∀ x, k.1 = some x → k'.1 = some x) ∧ (∀ x, k.2.1 = some x → k'.2.1 = some x) ∧ (∀ x, k.2.2.1 = some x → k'.2.2.1 = some x) ∧
    (∀ x, k.2.2.2 = some x → k'.2.2.2 = some x)

theorem Keeps.refl (k : Option ℝ × Option ℝ × Option ℝ × Option ℝ) : Keeps k k := ⟨fun _ h => h, fun _ h => h, fun _ h => h, fun _ h => h⟩

theorem Keeps.of_eq {k k' : Option ℝ × Option ℝ × Option ℝ × Option ℝ} (h : k' = k) : Keeps k k' := h ▸ Keeps.refl k

theorem Keeps.trans {k k' k'' : Option ℝ × Option ℝ × Option ℝ × Option ℝ} (h : Keeps k k') (h' : Keeps k' k'') : Keeps k k'' :=
  ⟨fun x e => h'.1 x (h.1 x e), fun x e => h'.2.1 x (h.2.1 x e), fun x e => h'.2.2.1 x (h.2.2.1 x e), fun x e => h'.2.2.2 x (h.2.2.2 x e)⟩

theorem frame_kicks {s s' : Star} (h : Frame s s') : s'.kicks = s.kicks := by
  simp only [Star.kicks, h.kickV, h.kickPhi, h.kickTheta, h.kickAnomaly]

theorem kicked_keeps {c : Cfg} {s s' : Star} {v f t a : ℝ} (h : kicked c s = .ok (s', v, f, t, a)) : Keeps s.kicks s'.kicks := by
  obtain ⟨h1, h2⟩ := kicked_kicks h
  rw [h1]
  exact ⟨fun x e => congrArg some (h2 x e), fun x e => (by simp only [Star.kicks] at e; rw [e]; rfl),
    fun x e => (by simp only [Star.kicks] at e; rw [e]; rfl), fun x e => (by simp only [Star.kicks] at e; rw [e]; rfl)⟩

theorem kicked_last {c : Cfg} {s s' : Star} {v f t a : ℝ} (h : kicked c s = .ok (s', v, f, t, a)) : s'.lastMass = s.lastMass := by
  unfold kicked at h
  split at h
  · split at h
    · cases h
    · simp only [Except.ok.injEq, Prod.mk.injEq] at h
      obtain ⟨rfl, -⟩ := h
      rfl
  · cases h

theorem kicks_parts {s s' : Star} (h : s'.kicks = s.kicks) : s'.kickV = s.kickV ∧ s'.kickPhi = s.kickPhi ∧ s'.kickAnomaly = s.kickAnomaly := by
  simp only [Star.kicks, Prod.mk.injEq] at h
  exact ⟨h.1, h.2.1, h.2.2.2⟩

theorem afterWD_of {b b' : Binary} {x y : Star} (h : afterWD b x y = .ok b') :
    b'.attr "V_sys" = b.attr "V_sys" ∧ b'.firstSN = b.firstSN ∧ b'.nu1 = b.nu1 ∧ b'.s1 = b.s1 ∧ b'.s2 = b.s2 ∧
      b'.state = if SNStep.alone b.state then b.state else "detached" := by
  unfold afterWD at h
  split at h
  · cases h
  · split at h
    · cases h
    · cases h
      refine ⟨?_, rfl, rfl, rfl, rfl, rfl⟩
      simp [Binary.set, Binary.wipe]

theorem noKick_of {b b' : Binary} (h : noKick b = .ok b') :
    b'.attr "V_sys" = b.attr "V_sys" ∧ b'.firstSN = b.firstSN ∧ b'.nu1 = b.nu1 ∧ b'.s1 = b.s1 ∧ b'.s2 = b.s2 := by
  unfold noKick at h
  split at h
  · cases h
  · split at h
    · cases h
    · cases h
      refine ⟨?_, rfl, rfl, rfl, rfl⟩
      simp [Binary.set]

/-- What the whole step leaves: of a white dwarf or without kicks the velocity, tilts and kicks are those of before; otherwise see `After`. -/
theorem step_after {c : Cfg} {b b' : Binary} (h : step c b = .ok b') :
    (∃ bk p, c.kick = true ∧ (b'.star b.event).snType ≠ "WD" ∧ After c bk p b' ∧ b'.firstSN = true ∧ Like b bk ∧ Meets b b' p ∧
      Keeps b.s1.kicks b'.s1.kicks ∧ Keeps b.s2.kicks b'.s2.kicks) ∨
    ((c.kick = false ∨ (b'.star b.event).snType = "WD") ∧ b'.attr "V_sys" = b.attr "V_sys" ∧ b'.firstSN = b.firstSN ∧ b'.nu1 = b.nu1 ∧
      b'.s1.tilt1 = b.s1.tilt1 ∧ b'.s2.tilt1 = b.s2.tilt1 ∧ b'.s1.tilt2 = b.s1.tilt2 ∧ b'.s2.tilt2 = b.s2.tilt2 ∧ b'.s1.kicks = b.s1.kicks ∧
      b'.s2.kicks = b.s2.kicks ∧ (c.kick = true → SNStep.alone b.state = true → b'.state = b.state)) := by
  obtain ⟨bc, bo, h1, h2, ho, hc⟩ := step_cases h
  obtain ⟨e1, e2, e3, e4, e5, -⟩ := closing_cases hc
  have e6 := closing_nu1 hc
  have ev := e4 "V_sys" (by decide)
  obtain ⟨f1, f2, f3, f4, f5, f6, -, -, f9⟩ := collapsed_frame h1
  have quiet : ∀ w : bo.attr "V_sys" = bc.attr "V_sys" ∧ bo.firstSN = bc.firstSN ∧ bo.nu1 = bc.nu1 ∧ bo.s1 = bc.s1 ∧ bo.s2 = bc.s2,
      b'.attr "V_sys" = b.attr "V_sys" ∧ b'.firstSN = b.firstSN ∧ b'.nu1 = b.nu1 ∧
      b'.s1.tilt1 = b.s1.tilt1 ∧ b'.s2.tilt1 = b.s2.tilt1 ∧ b'.s1.tilt2 = b.s1.tilt2 ∧ b'.s2.tilt2 = b.s2.tilt2 ∧ b'.s1.kicks = b.s1.kicks ∧
      b'.s2.kicks = b.s2.kicks := by
    rintro ⟨w1, w2, w3, w4, w5⟩
    rw [ev, e5, e6, e1, e2, w1, w2, w3, w4, w5, f5]
    exact ⟨rfl, f6, f9, f1.tilt1, f2.tilt1, f1.tilt2, f2.tilt2, frame_kicks f1, frame_kicks f2⟩
  cases hk : c.kick
  · rw [hk] at h2
    simp only [Bool.false_eq_true, if_false] at h2
    obtain ⟨q1, q2, q3, q4, q5, q6, q7, q8, q9⟩ := quiet (noKick_of h2)
    exact .inr ⟨.inl rfl, q1, q2, q3, q4, q5, q6, q7, q8, q9, fun h => (by cases h)⟩
  · rw [hk] at h2
    simp only [if_true] at h2
    unfold orbitalKick at h2
    split at h2
    · rename_i he
      have he' : b.event = .CC1 := f4.symm.trans he
      have hs : b'.star b.event = b'.s1 := by rw [he']; rfl
      split at h2
      · rename_i hw
        obtain ⟨w1, w2, w3, w4, w5, w6⟩ := afterWD_of h2
        obtain ⟨q1, q2, q3, q4, q5, q6, q7, q8, q9⟩ := quiet ⟨w1, w2, w3, w4, w5⟩
        refine .inr ⟨.inr (by rw [hs, e1, w4]; exact hw), q1, q2, q3, q4, q5, q6, q7, q8, q9, fun _ ha => ?_⟩
        rw [e3, w6, f3, ha, if_pos rfl]
      · rename_i hw
        split at h2
        · cases h2
        · rename_i s v f t a hkd
          have sk := same_kicked hkd
          have hA := (after_of h2).closing hc
          have kk := afterKick_kicks h2
          refine .inl ⟨_, _, rfl, ?_, hA, e5.trans (outcome_afterKick h2).2, ⟨f3, f6, f9, sk.2.1.trans f1.tilt1, f2.tilt1, (kicked_tilt2 hkd).trans f1.tilt2, f2.tilt2⟩,
            ⟨congrFun f5 _, congrFun f5 _, ?_, ?_, ?_, ?_, ?_, ?_⟩, ?_, ?_⟩
          rotate_left
          · rw [he']; exact (kicked_last hkd).trans f1.lastMass
          · rw [hs, e1, (outcome_afterKick h2).1.same1.mass]
          · rw [he']; show bc.s2.mass = b'.s2.mass; rw [e2, (outcome_afterKick h2).1.same2.mass]
          · rw [hs, e1, (kicks_parts kk.1).1]; exact sk.2.2.1
          · rw [hs, e1, (kicks_parts kk.1).2.1]; exact sk.2.2.2.1
          · rw [hs, e1, (kicks_parts kk.1).2.2]; exact sk.2.2.2.2.1
          rotate_left 2
          · rw [hs, e1, (outcome_afterKick h2).1.same1.snType, sk.1.snType]; exact hw
          · rw [e1, kk.1, ← frame_kicks f1]; exact kicked_keeps hkd
          · rw [e2, kk.2, ← frame_kicks f2]; exact Keeps.refl _
    · rename_i he
      have he' : b.event = .CC2 := f4.symm.trans he
      have hs : b'.star b.event = b'.s2 := by rw [he']; rfl
      split at h2
      · rename_i hw
        obtain ⟨w1, w2, w3, w4, w5, w6⟩ := afterWD_of h2
        obtain ⟨q1, q2, q3, q4, q5, q6, q7, q8, q9⟩ := quiet ⟨w1, w2, w3, w4, w5⟩
        refine .inr ⟨.inr (by rw [hs, e2, w5]; exact hw), q1, q2, q3, q4, q5, q6, q7, q8, q9, fun _ ha => ?_⟩
        rw [e3, w6, f3, ha, if_pos rfl]
      · rename_i hw
        split at h2
        · cases h2
        · rename_i s v f t a hkd
          have sk := same_kicked hkd
          have hA := (after_of h2).closing hc
          have kk := afterKick_kicks h2
          refine .inl ⟨_, _, rfl, ?_, hA, e5.trans (outcome_afterKick h2).2, ⟨f3, f6, f9, f1.tilt1, sk.2.1.trans f2.tilt1, f1.tilt2, (kicked_tilt2 hkd).trans f2.tilt2⟩,
            ⟨congrFun f5 _, congrFun f5 _, ?_, ?_, ?_, ?_, ?_, ?_⟩, ?_, ?_⟩
          rotate_left
          · rw [he']; exact (kicked_last hkd).trans f2.lastMass
          · rw [hs, e2, (outcome_afterKick h2).1.same2.mass]
          · rw [he']; show bc.s1.mass = b'.s1.mass; rw [e1, (outcome_afterKick h2).1.same1.mass]
          · rw [hs, e2, (kicks_parts kk.2).1]; exact sk.2.2.1
          · rw [hs, e2, (kicks_parts kk.2).2.1]; exact sk.2.2.2.1
          · rw [hs, e2, (kicks_parts kk.2).2.2]; exact sk.2.2.2.2.1
          rotate_left 2
          · rw [hs, e2, (outcome_afterKick h2).1.same2.snType, sk.1.snType]; exact hw
          · rw [e1, kk.1, ← frame_kicks f1]; exact Keeps.refl _
          · rw [e2, kk.2, ← frame_kicks f2]; exact kicked_keeps hkd
    · cases h2

/-! ### The velocity after a supernova -/

/-- C161. The velocity after a supernova: the one of before if a white dwarf forms or kicks are switched off; zero for a star without a companion and for a
binary that is lost; otherwise the recoil of this supernova, computed from the orbit and masses of the binary and the recorded kick. -/
theorem C161_velocity (c : Cfg) (b b' : Binary) (h : step c b = .ok b') :
    ((c.kick = false ∨ (b'.star b.event).snType = "WD") ∧ b'.attr "V_sys" = b.attr "V_sys") ∨
    (c.kick = true ∧ (b'.star b.event).snType ≠ "WD" ∧ (b'.attr "V_sys" = .vec 0 0 0 ∧ SNStep.alone b'.state = true ∨
      SNStep.alone b.state = false ∧ b'.state = "detached" ∧ ∃ p, Meets b b' p ∧ (c.orbit p).survives = true ∧
        b'.attr "V_sys" = .vec (c.orbit p).vx (c.orbit p).vy (c.orbit p).vz)) := by
  rcases step_after h with ⟨bk, p, hk, hw, hA, -, hl, hp, -⟩ | ⟨hq, hv, -⟩
  · refine .inr ⟨hk, hw, ?_⟩
    cases hA with
    | alone ha hv hs hn t1 t2 => exact .inl ⟨hv, by rw [hs]; exact ha⟩
    | lost ha hv hs hn hw h1 h2 => exact .inl ⟨hv, by rw [hs]; decide⟩
    | bound ha hv hs hw h1 h2 => exact .inr ⟨hl.state ▸ ha, hs, p, hp, hw.2.2, hv⟩
  · exact .inl ⟨hq, hv⟩

/-- C161. A star without a companion gets a kick but no velocity. -/
theorem C161_alone_violated (c : Cfg) (b b' : Binary) (h : step c b = .ok b') (hk : c.kick = true) (hw : (b'.star b.event).snType ≠ "WD")
    (ha : SNStep.alone b.state = true) : b'.attr "V_sys" = .vec 0 0 0 ∧ ∃ v, (b'.star b.event).kickV = some v ∧
      ∀ x, (b.star b.event).kickV = some x → v = x := by
  refine ⟨?_, (C34_kick_recorded c b b' hk h hw).1⟩
  rcases C161_velocity c b b' h with ⟨h1 | h1, -⟩ | ⟨-, -, ⟨h1, -⟩ | ⟨h1, -⟩⟩
  · rw [hk] at h1; cases h1
  · exact absurd h1 hw
  · exact h1
  · rw [ha] at h1; cases h1

/-- C161. Velocities of two supernovae do not add up: if the binary moves already, the velocity after the next supernova is not the sum of its velocity and
the recoil, for every new recoil. -/
theorem C161_sum_violated (c : Cfg) (b b' : Binary) (h : step c b = .ok b') (hk : c.kick = true) (hw : (b'.star b.event).snType ≠ "WD")
    (x y z : ℝ) (hv : b.attr "V_sys" = .vec x y z) (h0 : (x, y, z) ≠ (0, 0, 0)) (hb : b'.state = "detached") :
    ∃ p, Meets b b' p ∧ (c.orbit p).survives = true ∧
      plus (b.attr "V_sys") (.vec (c.orbit p).vx (c.orbit p).vy (c.orbit p).vz) ≠ some (b'.attr "V_sys") := by
  rcases C161_velocity c b b' h with ⟨h1 | h1, -⟩ | ⟨-, -, ⟨-, h1⟩ | ⟨-, -, p, hm, hp, h1⟩⟩
  · rw [hk] at h1; cases h1
  · exact absurd h1 hw
  · rw [hb] at h1; exact absurd h1 (by decide)
  · refine ⟨p, hm, hp, fun e => h0 ?_⟩
    rw [hv, h1] at e
    simp only [plus, Option.some.injEq, Val.vec.injEq, add_eq_right] at e
    rw [e.1, e.2.1, e.2.2]

/-! ### Tilts, anomaly and kicks -/

/-- Once there was a supernova in a binary that is still bound, its tilt and anomaly are known. -/
def Known (x : Tale) : Prop :=
  x.firstSN = true → SNStep.alone x.state = true ∨ ((∃ n, x.nu1 = some (.num n)) ∧ ∃ t, x.tilt11 = .num t ∧ x.tilt12 = .num t)

theorem known_step {n : ℕ} {x y : Tale} (hx : Known x) (h : Step true n x y) : Known y := by
  cases h with
  | other a skip x m state h hs =>
    intro hf
    rcases hx hf with h | h
    · exact .inl (hs h)
    · exact .inr h
  | supernova c b b' hist hk h =>
    intro hf
    have hf' : b'.firstSN = true := hf
    show SNStep.alone b'.state = true ∨ ((∃ n, b'.nu1 = some (.num n)) ∧ ∃ t, b'.s1.tilt1 = .num t ∧ b'.s2.tilt1 = .num t)
    have hx' : b.firstSN = true → SNStep.alone b.state = true ∨ ((∃ n, b.nu1 = some (.num n)) ∧ ∃ t, b.s1.tilt1 = .num t ∧ b.s2.tilt1 = .num t) := hx
    rcases step_after h with ⟨bk, p, -, hw, hA, -, hl, -⟩ | ⟨-, -, q2, q3, q4, q5, -, -, -, -, q⟩
    · cases hA with
      | alone ha hv hs hn t1 t2 => exact .inl (by rw [hs]; exact ha)
      | lost ha hv hs hn hw h1 h2 => exact .inl (by rw [hs]; decide)
      | bound ha hv hs hw h1 h2 =>
        cases hb : bk.firstSN
        · obtain ⟨r1, r2, r3, -⟩ := h2 hb
          exact .inr ⟨⟨_, r3⟩, _, r1, r2⟩
        · obtain ⟨r1, r2, r3, -⟩ := h1 hb
          rcases hx' (hl.first ▸ hb) with w | w
          · rw [← hl.state, ha] at w; cases w
          · rw [r1, r2, r3, hl.nu1, hl.t11, hl.t12]
            exact .inr w
    · rw [q2] at hf'
      rcases hx' hf' with w | w
      · exact .inl (by rw [q hk w]; exact w)
      · rw [q3, q4, q5]; exact .inr w

theorem known_steps {n : ℕ} {x y : Tale} (hx : Known x) (h : Steps true n x y) : Known y := by
  induction h with
  | done x => exact hx
  | next h t ih => exact ih (known_step hx h)

/-- C161. In every evolution of a new binary with kicks: after a first supernova, a binary that is not single, merged or disrupted knows the anomaly and the
tilt of that supernova, the same tilt for both stars, so that the second supernova can combine them. -/
theorem C161_known {n : ℕ} {x y : Tale} (hx : New x) (h : Steps true n x y) (hf : y.firstSN = true) (ha : SNStep.alone y.state = false) :
    (∃ ν, y.nu1 = some (.num ν)) ∧ ∃ t, y.tilt11 = .num t ∧ y.tilt12 = .num t := by
  have h0 : Known x := fun h => (by rw [hx.first] at h; cases h)
  rcases known_steps h0 h hf with h | h
  · rw [ha] at h; cases h
  · exact h

/-- C161. The second supernova is not stopped by a missing anomaly. -/
theorem C161_combined (c : Cfg) (b : Binary) (t n : ℝ) (he : b.event = .CC1 ∨ b.event = .CC2) (hc : ∀ a t ν n, ∃ r, c.combine (.num a) t (.num ν) n = .ok r)
    (hk : b.firstSN = true → (∃ ν, b.nu1 = some (.num ν)) ∧ ∃ t, b.s1.tilt1 = .num t ∧ b.s2.tilt1 = .num t) : ∃ b', tilts c b t n = .ok b' := by
  unfold tilts
  cases hf : b.firstSN
  · exact ⟨_, rfl⟩
  · obtain ⟨⟨ν, h1⟩, a, h2, h3⟩ := hk hf
    obtain ⟨r, hr⟩ := hc a t ν n
    rw [h1, h2]
    rcases he with he | he <;> rw [he] <;> simp [hr]

theorem first_step {kick : Bool} {n : ℕ} {x y : Tale} (h : Step kick n x y) (hf : x.firstSN = true) :
    y.firstSN = true ∧ y.tilt11 = x.tilt11 ∧ y.tilt12 = x.tilt12 := by
  cases h with
  | other a skip x m state h hs => exact ⟨hf, rfl, rfl⟩
  | supernova c b b' hist hk h =>
    have hf' : b.firstSN = true := hf
    show b'.firstSN = true ∧ b'.s1.tilt1 = b.s1.tilt1 ∧ b'.s2.tilt1 = b.s2.tilt1
    rcases step_after h with ⟨bk, p, -, hw, hA, hfirst, hl, -⟩ | ⟨-, -, q2, q3, q4, q5, -⟩
    · refine ⟨hfirst, ?_⟩
      rw [← hl.t11, ← hl.t12]
      cases hA with
      | alone ha hv hs hn t1 t2 => rw [t1, t2]; exact ⟨rfl, rfl⟩
      | lost ha hv hs hn hw h1 h2 => exact h1 (hl.first.trans hf')
      | bound ha hv hs hw h1 h2 => exact ⟨(h1 (hl.first.trans hf')).1, (h1 (hl.first.trans hf')).2.1⟩
    · exact ⟨q2.trans hf', q4, q5⟩

/-- C161. The tilts of the first supernova never change after it. -/
theorem C161_first_tilt {kick : Bool} {n : ℕ} {x y : Tale} (h : Steps kick n x y) (hf : x.firstSN = true) :
    y.firstSN = true ∧ y.tilt11 = x.tilt11 ∧ y.tilt12 = x.tilt12 := by
  induction h with
  | done x => exact ⟨hf, rfl, rfl⟩
  | next h t ih =>
    obtain ⟨h1, h2, h3⟩ := first_step h hf
    obtain ⟨i1, i2, i3⟩ := ih h1
    exact ⟨i1, i2.trans h2, i3.trans h3⟩

theorem second_step {kick : Bool} {n : ℕ} {x y : Tale} (h : Step kick n x y) (hf : x.firstSN = false) :
    y.tilt21 = x.tilt21 ∧ y.tilt22 = x.tilt22 := by
  cases h with
  | other a skip x m state h hs => exact ⟨rfl, rfl⟩
  | supernova c b b' hist hk h =>
    have hf' : b.firstSN = false := hf
    show b'.s1.tilt2 = b.s1.tilt2 ∧ b'.s2.tilt2 = b.s2.tilt2
    rcases step_after h with ⟨bk, p, -, hw, hA, hfirst, hl, -⟩ | ⟨-, -, q2, q3, q4, q5, q6, q7, -⟩
    · rw [← hl.t21, ← hl.t22]
      cases hA with
      | alone ha hv hs hn t1 t2 => rw [t1, t2]; exact ⟨rfl, rfl⟩
      | lost ha hv hs hn hw h1 h2 => exact (h2 (hl.first.trans hf')).2.2
      | bound ha hv hs hw h1 h2 => exact (h2 (hl.first.trans hf')).2.2.2
    · exact ⟨q6, q7⟩

/-- C161. A tilt of the second supernova is recorded only by a supernova that is not the first. -/
theorem C161_second_tilt {kick : Bool} {n : ℕ} {x y : Tale} (h : Steps kick n x y) (hf : y.firstSN = false) :
    y.tilt21 = x.tilt21 ∧ y.tilt22 = x.tilt22 ∧ x.firstSN = false := by
  induction h with
  | done x => exact ⟨rfl, rfl, hf⟩
  | next h t ih =>
    rename_i x y z
    obtain ⟨i1, i2, i3⟩ := ih hf
    have hx : x.firstSN = false := by
      cases hx : x.firstSN
      · rfl
      · rw [(first_step h hx).1] at i3; cases i3
    obtain ⟨h1, h2⟩ := second_step h hx
    exact ⟨i1.trans h1, i2.trans h2, hx⟩

/-- C161. A kick that was given or drawn is never changed. -/
theorem C161_kicks {kick : Bool} {n : ℕ} {x y : Tale} (h : Steps kick n x y) : Keeps x.kicks1 y.kicks1 ∧ Keeps x.kicks2 y.kicks2 := by
  induction h with
  | done x => exact ⟨.refl _, .refl _⟩
  | next h t ih =>
    rename_i x y z
    have : Keeps x.kicks1 y.kicks1 ∧ Keeps x.kicks2 y.kicks2 := by
      cases h with
      | other a skip x m state h hs => exact ⟨.refl _, .refl _⟩
      | supernova c b b' hist hk h =>
        rcases step_after h with ⟨bk, p, -, hw, hA, hfirst, hl, -, k1, k2⟩ | ⟨-, -, q2, q3, q4, q5, q6, q7, k1, k2, -⟩
        · exact ⟨k1, k2⟩
        · exact ⟨.of_eq k1, .of_eq k2⟩
    exact ⟨this.1.trans ih.1, this.2.trans ih.2⟩

/-! ### Concrete cases -/

/-- A binary that moves with 5 km/s, with a black hole of 8 solar masses, whose second star is to collapse; `first`: after a first supernova. -/
noncomputable def exB (state : String) (first : Bool) : Binary :=
  { exBinary with
    s1 := { exStar with state := "BH", lastState := "BH", mass := 8, lastMass := 8, tilt1 := .num (1 / 5) }
    s2 := { exStar with tilt1 := .num (1 / 5) }
    state := state
    attr := fun k => if k = "separation" then .num 100 else if k = "V_sys" then .vec 5 0 0 else .num 0
    firstSN := first
    nu1 := some (.num 1) }

/-- The collapse of the star of `exB`. -/
theorem exCollapse' : ∃ s, collapse exCfg { exStar with tilt1 := .num (1 / 5) } = .ok s ∧ s.mass = 19 / 2 ∧ s.state = "BH" ∧ s.snType = "CCSN" ∧
    s.lastState = "stripped_He_Core_C_depleted" ∧ s.lastMass = 10 ∧ s.kickV = none := by
  have hj : ∀ s : Star, s.attr = exStar.attr → ∃ a, spinFromJ s (19 / 2) = .ok a := by
    intro s hs
    have : s.attr "log_total_angular_momentum" = .num 0 := by rw [hs]; simp [exStar]
    unfold spinFromJ
    rw [this]
    exact ⟨_, rfl⟩
  have hr : ∃ r, coRadius (19 / 2) "BH" = .ok r := ⟨_, by unfold coRadius; rw [if_neg (by norm_num), if_pos rfl]⟩
  obtain ⟨r, hr⟩ := hr
  unfold collapse
  rw [if_pos (by simp [exStar, statesCC])]
  have hi : exCfg.useInterp = false := rfl
  rw [hi]
  simp only [Bool.false_eq_true, if_false]
  unfold collapseCore
  have h1 : exCfg.rem (enter { exStar with tilt1 := .num (1 / 5) }) = .ok ⟨"CCSN", some 10, .num 1, "BH"⟩ := rfl
  rw [h1]
  have h2 : exCfg.engine = false := rfl
  have h3 : exCfg.useProfiles = false := rfl
  have h4 : exCfg.useCoreMasses = true := rfl
  have h5 : exCfg.maxNu = 1 / 2 := rfl
  have h6 : exCfg.maxNS = 5 / 2 := rfl
  simp only [h2, h3, h4, h5, exGrav, Bool.false_eq_true, if_false, false_and, true_or, if_true]
  rw [if_neg (by decide)]
  simp only [byCores, h6]
  rw [if_pos (by norm_num)]
  have hj' := hj { enter { exStar with tilt1 := .num (1 / 5) } with snType := "CCSN", fFb := .num 1, mass := 19 / 2, diskAcc := .num 0, diskRad := .num 0, hEj := .nan, heEj := .nan } rfl
  obtain ⟨a, ha⟩ := hj'
  simp only [ha]
  simp only [finish, setRadius, Star.set, hr]
  exact ⟨_, rfl, rfl, rfl, rfl, rfl, rfl, rfl⟩

theorem exStep (state : String) (first : Bool) : ∃ b', step exCfg (exB state first) = .ok b' ∧ (b'.star .CC2).snType = "CCSN" ∧
    (SNStep.alone state = false → b'.state = "detached") := by
  obtain ⟨s, hs, m, st, ty, ls, lm, kv⟩ := exCollapse'
  have hu : updateState exCfg s = s := by
    unfold updateState
    rw [if_neg (by rw [st]; decide), if_pos (by rw [st]; decide)]
    have : (if s.lastState = "WD" ∨ s.state = "WD" then "WD" else coState s.mass) = s.state := by
      rw [ls, st, m, if_neg (by decide)]; unfold coState; norm_num
    rw [this]
  have hy : updateState exCfg (resetOther (exB state first).s1) = resetOther (exB state first).s1 := by
    unfold updateState
    rw [if_neg (by simp [resetOther, exB, Star.set]), if_pos (by simp [resetOther, exB, Star.set, statesCO])]
    simp only [resetOther, exB, Star.set, coState]
    norm_num
    intro h; exact absurd h (by decide)
  have hkk : kickSpeed exCfg s = .ok 0 := by
    unfold kickSpeed
    rw [kv, ty, st]
    simp [exCfg]
  obtain ⟨s', f, th, a, hkd, lm'⟩ : ∃ s' f th a, kicked exCfg s = .ok (s', 0, f, th, a) ∧ s'.lastMass = 10 := by
    unfold kicked
    rw [if_pos (by rw [ls]; decide), hkk]
    exact ⟨_, _, _, _, rfl, lm⟩
  obtain ⟨sm, -, kv', -⟩ := same_kicked hkd
  have hcol : collapsed exCfg (exB state first) = .ok { exB state first with s1 := resetOther (exB state first).s1, s2 := s } := by
    unfold collapsed
    have he : (exB state first).event = .CC2 := rfl
    have h2 : (exB state first).s2 = { exStar with tilt1 := .num (1 / 5) } := rfl
    rw [he, h2]
    simp only [hs, hu, hy]
    rw [← he]
  obtain ⟨bo, hb, ho, hse⟩ : ∃ bo, afterKick exCfg { exB state first with s1 := resetOther (exB state first).s1, s2 := s' }
      ⟨s'.lastMass, (resetOther (exB state first).s1).mass, s'.mass, .num 100, .num 0, 0, f, th, a⟩ = .ok bo ∧ (SNStep.alone state = false → bo.state = "detached") ∧
      ((∃ x, bo.attr "separation" = .num x ∧ 0 < x) ∧ bo.attr "eccentricity" = .num (1 / 10) ∨ bo.attr "separation" = .nan ∧ bo.attr "eccentricity" = .nan) := by
    unfold afterKick
    have h0 : ({ exB state first with s1 := resetOther (exB state first).s1, s2 := s' } : Binary).state = state := rfl
    rw [h0]
    cases ha : SNStep.alone state
    · rw [if_neg (by simp), if_neg (by simp [resetOther, exB, Star.set, sm.state, st])]
      dsimp only
      rw [if_pos (show (exCfg.orbit _).survives = true from rfl)]
      cases first
      · simp only [tilts, Binary.wipe, exB, exBinary, exCfg, Bool.not_false, if_true]
        refine ⟨_, rfl, fun _ => rfl, .inl ⟨⟨_, rfl, ?_⟩, rfl⟩⟩
        rw [lm']
        show (0 : ℝ) < 10 + 8
        norm_num
      · simp only [tilts, Binary.wipe, exB, exBinary, exCfg, Bool.not_true, Bool.false_eq_true, if_false]
        refine ⟨_, rfl, fun _ => rfl, .inl ⟨⟨_, rfl, ?_⟩, rfl⟩⟩
        rw [lm']
        show (0 : ℝ) < 10 + 8
        norm_num
    · obtain ⟨-, -, -, -, g1, g2, -⟩ := noOrbit_eq (({ exB state first with s1 := resetOther (exB state first).s1, s2 := s' } : Binary).wipe ["nearest_neighbour_distance", "state"])
      exact ⟨_, rfl, fun h => (by cases h), .inr ⟨g1, g2⟩⟩
  obtain ⟨hO, -⟩ := outcome_afterKick hb
  have b1 : bo.s1.state = "BH" := hO.same1.state
  have b2 : bo.s2.state = "BH" := hO.same2.state.trans (sm.state.trans st)
  have b3 : bo.s2.mass = 19 / 2 := hO.same2.mass.trans (sm.mass.trans m)
  have b4 : bo.s1.mass = 8 := hO.same1.mass
  have hcl : ∃ b', closing bo = .ok b' := by
    unfold closing
    split
    · exact ⟨_, rfl⟩
    · rw [if_pos (by rw [b1, b2]; decide), b3, b4]
      rcases hse with ⟨⟨x, hx, hx0⟩, hy⟩ | ⟨hx, hy⟩
      · rw [hx, hy]
        have hM : 0 < Orbit.Msun := Kick.Msun_pos
        have : ∃ t, GW.inspiral 8 (19 / 2) x (1 / 10) = .ok t := by
          unfold GW.inspiral
          rw [if_neg (by nlinarith), if_neg (by nlinarith), if_neg (not_le.2 (mul_pos hx0 Kick.Rsun_pos)), if_neg (by norm_num), if_neg (by norm_num)]
          exact ⟨_, rfl⟩
        obtain ⟨t, ht⟩ := this
        simp only [inspiralV, ht]
        exact ⟨_, rfl⟩
      · rw [hx, hy]
        simp only [inspiralV]
        rw [if_neg (by norm_num)]
        exact ⟨_, rfl⟩
  obtain ⟨b', hb'⟩ := hcl
  obtain ⟨c1, c2, c3, -⟩ := closing_cases hb'
  refine ⟨b', ?_, ?_, ?_⟩
  · unfold step
    rw [hcol]
    have hk : exCfg.kick = true := rfl
    have hev : (exB state first).event = .CC2 := rfl
    have hsep : (exB state first).attr "separation" = .num 100 := by simp [exB]
    have hecc : (exB state first).attr "eccentricity" = .num 0 := by simp [exB]
    simp only [hev] at hb
    simp only [hk, if_true, orbitalKick, ty, hev, hsep, hecc]
    rw [if_neg (by decide)]
    simp only [hkd, hb]
    exact hb'
  · show b'.s2.snType = _
    rw [c2]; exact hO.same2.snType.trans (sm.snType.trans ty)
  · intro h; rw [c3]; exact ho h

/-- The hypotheses of `C161_sum_violated` are met. -/
example : ∃ b', step exCfg (exB "detached" true) = .ok b' ∧ (b'.star (exB "detached" true).event).snType ≠ "WD" ∧
    (exB "detached" true).attr "V_sys" = .vec 5 0 0 ∧ ((5 : ℝ), (0 : ℝ), (0 : ℝ)) ≠ (0, 0, 0) ∧ b'.state = "detached" := by
  obtain ⟨b', h, ht, hs⟩ := exStep "detached" true
  refine ⟨b', h, ?_, ?_, ?_, hs (by decide)⟩
  · rw [show (exB "detached" true).event = .CC2 from rfl, ht]; decide
  · simp [exB]
  · simp

/-- The hypotheses of `C161_alone_violated` are met: the product of a merger that moves with 5 km/s stands still after its supernova. -/
example : ∃ b', step exCfg (exB "merged" true) = .ok b' ∧ (exB "merged" true).attr "V_sys" = .vec 5 0 0 ∧ b'.attr "V_sys" = .vec 0 0 0 := by
  obtain ⟨b', h, ht, -⟩ := exStep "merged" true
  refine ⟨b', h, by simp [exB], (C161_alone_violated exCfg _ b' h rfl ?_ (show SNStep.alone "merged" = true by decide)).1⟩
  rw [show (exB "merged" true).event = .CC2 from rfl, ht]; decide

/-- A new binary: three rows of a track, two times of the detached step, then a supernova that it survives. -/
example : ∃ x y, New x ∧ Steps true 1 x y ∧ y.firstSN = true ∧ SNStep.alone y.state = false ∧
    ∃ w, y.motion.hist = [.vec 5 0 0, .vec 5 0 0, .vec 5 0 0, .vec 5 0 0, .vec 5 0 0, .vec 5 0 0, .vec 5 0 0, .vec 5 0 0, w] := by
  obtain ⟨b', h, ht, hs⟩ := exStep "detached" false
  have hv : (exB "detached" false).attr "V_sys" = .vec 5 0 0 := by simp [exB]
  have hf : b'.firstSN = true := by
    refine (C34_kick_recorded exCfg _ b' rfl h ?_).2.2.2.2
    rw [show (exB "detached" false).event = .CC2 from rfl, ht]; decide
  let x := view (exB "detached" false) [(exB "detached" false).attr "V_sys"]
  refine ⟨x, _, ⟨rfl, rfl⟩, .next (m := 0) (n := 1) (.other (.grid false 3) false x _ "detached" rfl (fun h => h))
    (.next (m := 0) (n := 1) (.other (.detached 2) false _ _ "detached" rfl (fun h => h))
      (.next (m := 1) (n := 0) (.supernova exCfg (exB "detached" false) b' _ rfl h) (.done _))), hf, ?_, ?_⟩
  · show SNStep.alone b'.state = false
    rw [hs (by decide)]; decide
  · refine ⟨b'.attr "V_sys", ?_⟩
    simp only [x, view, append, hv]
    rfl

end Verif.Recoil
