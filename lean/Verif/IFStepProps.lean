import Verif.IFStep
/-!
C92: what a binary is given by the interpolation between initial and final values of a grid.
-/
namespace Verif.IFStep
variable {V : Type}

/-- The binary when it is classified: the new values, the class of the interpolation, and the states of the stars unless mass transfer was there
from the start. -/
def seen (C : Classify V) (co1 co2 : Bool) (b : Bin V) (a : String → V) (s1 s2 : Star V) (ic mt : String) : Bin V :=
  let b : Bin V := { b with attr := a, s1 := s1, s2 := s2, cls := some (ic, mt) }
  if ic ≠ "initial_MT" then
    { b with s1 := { s1 with attr := setv s1.attr "state" (C.star s1 co1) }, s2 := { s2 with attr := setv s2.attr "state" (C.star s2 co2) } }
  else b

/-- The binary with state, event and case. -/
def named (P : Ops V) (C : Classify V) (b : Bin V) (ic : String) : Bin V :=
  { b with attr := setv (setv (setv b.attr "state" (P.text (C.binary b ic).1)) "event" (P.text (C.binary b ic).2.1)) "mass_transfer_case" (P.text (C.binary b ic).2.2) }

theorem interpolate_ok {P : Ops V} {C : Classify V} {co1 co2 : Bool} {classes : Col → Option String} {fv : Col → Option V} {b b' : Bin V}
    (h : interpolate P C co1 co2 classes fv b = .ok b') :
    ∃ a s1 s2 ic mt, loop (valB P b.hist fv) Evolve.binaryProperties b.attr = .ok a ∧ star P co1 false fv b.s1 = .ok s1 ∧ star P co2 true fv b.s2 = .ok s2 ∧
      classes (.bin "interpolation_class") = some ic ∧ classes (.bin "mt_history") = some mt ∧
      ((C.binary (seen C co1 co2 b a s1 s2 ic mt) ic).1 = "initial_RLOF" ∧ b' = named P C (seen C co1 co2 b a s1 s2 ic mt) ic ∨
        (C.binary (seen C co1 co2 b a s1 s2 ic mt) ic).1 ≠ "initial_RLOF" ∧
          finish P C co1 co2 classes fv ic (named P C (seen C co1 co2 b a s1 s2 ic mt) ic) = .ok b') := by
  unfold interpolate at h
  cases ha : loop (valB P b.hist fv) Evolve.binaryProperties b.attr with
  | error e => rw [ha] at h; simp at h
  | ok a =>
    rw [ha] at h; dsimp only at h
    cases h1 : star P co1 false fv b.s1 with
    | error e => rw [h1] at h; simp at h
    | ok s1 =>
      rw [h1] at h; dsimp only at h
      cases h2 : star P co2 true fv b.s2 with
      | error e => rw [h2] at h; simp at h
      | ok s2 =>
        rw [h2] at h; dsimp only at h
        cases hi : classes (.bin "interpolation_class") with
        | none => rw [hi] at h; simp at h
        | some ic =>
          cases hm : classes (.bin "mt_history") with
          | none => rw [hi, hm] at h; simp at h
          | some mt =>
            rw [hi, hm] at h; dsimp only at h
            change (if (C.binary (seen C co1 co2 b a s1 s2 ic mt) ic).1 = "initial_RLOF" then Except.ok (named P C (seen C co1 co2 b a s1 s2 ic mt) ic)
              else finish P C co1 co2 classes fv ic (named P C (seen C co1 co2 b a s1 s2 ic mt) ic)) = .ok b' at h
            refine ⟨a, s1, s2, ic, mt, rfl, rfl, rfl, rfl, rfl, ?_⟩
            by_cases hs : (C.binary (seen C co1 co2 b a s1 s2 ic mt) ic).1 = "initial_RLOF"
            · left
              refine ⟨hs, ?_⟩
              have := h
              rw [if_pos hs] at this
              exact (Except.ok.inj this).symm
            · right
              refine ⟨hs, ?_⟩
              rw [if_neg hs] at h
              exact h

theorem finish_ok {P : Ops V} {C : Classify V} {co1 co2 : Bool} {classes : Col → Option String} {fv : Col → Option V} {ic : String} {b b' : Bin V}
    (h : finish P C co1 co2 classes fv ic b = .ok b') :
    ∃ c, accreted C co1 co2 fv b = .ok c ∧ b'.attr = c.attr ∧ b'.hist = c.hist ∧ b'.cls = c.cls ∧
      (if co1 then .ok c.s1.attr else loop (postVal P false (decide (ic = "unstable_MT")) fv) post c.s1.attr) = .ok b'.s1.attr ∧
      (if co2 then .ok c.s2.attr else loop (postVal P true (decide (ic = "unstable_MT")) fv) post c.s2.attr) = .ok b'.s2.attr ∧
      (ic = "unstable_MT" → b'.s1.sn = c.s1.sn ∧ b'.s2.sn = c.s2.sn) ∧
      (ic ≠ "unstable_MT" → snAll P co1 false classes fv Single.models c.s1.sn = .ok b'.s1.sn ∧ snAll P co2 true classes fv Single.models c.s2.sn = .ok b'.s2.sn) := by
  unfold finish at h
  cases hc : accreted C co1 co2 fv b with
  | error e => rw [hc] at h; simp at h
  | ok c =>
    rw [hc] at h; dsimp only at h
    refine ⟨c, rfl, ?_⟩
    cases h1 : (if co1 then .ok c.s1.attr else loop (postVal P false (decide (ic = "unstable_MT")) fv) post c.s1.attr : Except Err (String → V)) with
    | error e => rw [h1] at h; simp at h
    | ok a1 =>
      rw [h1] at h
      cases h2 : (if co2 then .ok c.s2.attr else loop (postVal P true (decide (ic = "unstable_MT")) fv) post c.s2.attr : Except Err (String → V)) with
      | error e => rw [h2] at h; simp at h
      | ok a2 =>
        rw [h2] at h; dsimp only at h
        by_cases hu : ic = "unstable_MT"
        · rw [if_pos (by simpa using hu)] at h
          have h := Except.ok.inj h
          subst h
          exact ⟨rfl, rfl, rfl, rfl, rfl, fun _ => ⟨rfl, rfl⟩, fun hn => absurd hu hn⟩
        · rw [if_neg (by simpa using hu)] at h
          cases n1 : snAll P co1 false classes fv Single.models c.s1.sn with
          | error e => rw [n1] at h; simp at h
          | ok m1 =>
            cases n2 : snAll P co2 true classes fv Single.models c.s2.sn with
            | error e => rw [n1, n2] at h; simp at h
            | ok m2 =>
              rw [n1, n2] at h
              have h := Except.ok.inj h
              subst h
              exact ⟨rfl, rfl, rfl, rfl, rfl, fun hn => absurd hn hu, fun _ => ⟨rfl, rfl⟩⟩

theorem accreted_ok {C : Classify V} {co1 co2 : Bool} {fv : Col → Option V} {b c : Bin V} (h : accreted C co1 co2 fv b = .ok c) :
    c.attr = b.attr ∧ c.hist = b.hist ∧ c.cls = b.cls ∧ c.s1.sn = b.s1.sn ∧ c.s2.sn = b.s2.sn ∧
      (∀ x, x ≠ "lg_mdot" → c.s1.attr x = b.s1.attr x ∧ c.s2.attr x = b.s2.attr x) ∧ (co1 = false → c.s1 = b.s1) ∧ (co2 = false → c.s2 = b.s2) ∧
      (co1 = true → ∃ v, fv (.rate "lg_mstar_dot" false) = some v ∧ c.s1.attr "lg_mdot" = C.accrete b v) ∧
      (co2 = true → ∃ v, fv (.rate "lg_mstar_dot" true) = some v ∧ c.s2.attr "lg_mdot" = C.accrete b v) := by
  unfold accreted need at h
  cases co1 <;> cases co2 <;> simp only [Bool.and_self, Bool.and_false, Bool.and_true, Bool.false_eq_true, if_false, if_true] at h
  · have h := Except.ok.inj h; subst h; simp
  · cases hv : fv (.rate "lg_mstar_dot" true) with
    | none => rw [hv] at h; simp [Except.map] at h
    | some v =>
      rw [hv] at h
      have h := Except.ok.inj h
      subst h
      refine ⟨rfl, rfl, rfl, rfl, rfl, fun x hx => ⟨rfl, by simp [setv, hx]⟩, fun _ => rfl, fun hh => by simp at hh, fun hh => by simp at hh, fun _ => ⟨v, rfl, by simp [setv]⟩⟩
  · cases hv : fv (.rate "lg_mstar_dot" false) with
    | none => rw [hv] at h; simp [Except.map] at h
    | some v =>
      rw [hv] at h
      have h := Except.ok.inj h
      subst h
      refine ⟨rfl, rfl, rfl, rfl, rfl, fun x hx => ⟨by simp [setv, hx], rfl⟩, fun hh => by simp at hh, fun _ => rfl, fun _ => ⟨v, rfl, by simp [setv]⟩, fun hh => by simp at hh⟩
  · simp at h

theorem star_ok {P : Ops V} {co k : Bool} {fv : Col → Option V} {s s' : Star V} (h : star P co k fv s = .ok s') :
    s'.sn = s.sn ∧ (∀ key, key ∉ Evolve.starProperties → s'.attr key = s.attr key) ∧
      ∀ key ∈ Evolve.starProperties, (if co then wantC k key else wantS k key).eval P [] (s.attr "mass") fv (s.attr key) = some (s'.attr key) := by
  unfold star at h
  cases hl : loop (if co then valC P k (s.attr "mass") fv else valS P k fv) Evolve.starProperties s.attr with
  | error e => rw [hl] at h; simp [Except.map] at h
  | ok a =>
    rw [hl] at h
    have h := Except.ok.inj h
    subst h
    obtain ⟨l1, l2⟩ := loop_ok nodupS hl
    refine ⟨rfl, l1, fun key hk => ?_⟩
    obtain ⟨o, ho, hg⟩ := l2 key hk
    dsimp only
    rw [hg]
    cases co with
    | true => exact (valC_eval P k [] (s.attr "mass") fv hk (s.attr key)).1 o ho
    | false => exact (valS_eval P k [] (s.attr "mass") fv hk (s.attr key)).1 o ho

theorem post_fresh : ∀ key ∈ post, key ∉ Evolve.starProperties := by decide +kernel

theorem post_ok {P : Ops V} {co k : Bool} {un : Bool} {fv : Col → Option V} {a a' : String → V}
    (h : (if co then .ok a else loop (postVal P k un fv) post a : Except Err (String → V)) = .ok a') :
    (∀ key, key ∉ post → a' key = a key) ∧ (co = true → a' = a) ∧
      (co = false → ∀ key ∈ post, (if un ∧ (key = "avg_c_in_c_core_at_He_depletion" ∨ key = "co_core_mass_at_He_depletion") then some P.none else fv (.star k key)) = some (a' key)) := by
  cases co with
  | true => have h := Except.ok.inj h; subst h; simp
  | false =>
    simp only [Bool.false_eq_true, if_false] at h
    obtain ⟨l1, l2⟩ := loop_ok nodupPost h
    refine ⟨l1, fun hh => by simp at hh, fun _ key hk => ?_⟩
    obtain ⟨o, ho, hg⟩ := l2 key hk
    rw [hg]
    unfold postVal at ho
    by_cases hc : un ∧ (key = "avg_c_in_c_core_at_He_depletion" ∨ key = "co_core_mass_at_He_depletion")
    · rw [if_pos hc] at ho ⊢
      rw [← Except.ok.inj ho]; rfl
    · rw [if_neg hc] at ho ⊢
      unfold need at ho
      cases hf : fv (.star k key) with
      | none => rw [hf] at ho; simp [Except.map] at ho
      | some v => rw [hf] at ho; rw [← Except.ok.inj ho]; rfl

theorem seen_attr (C : Classify V) (co1 co2 : Bool) (b : Bin V) (a : String → V) (s1 s2 : Star V) (ic mt : String) :
    (seen C co1 co2 b a s1 s2 ic mt).attr = a ∧ (seen C co1 co2 b a s1 s2 ic mt).s1.sn = s1.sn ∧ (seen C co1 co2 b a s1 s2 ic mt).s2.sn = s2.sn ∧
      (∀ x, x ≠ "state" → (seen C co1 co2 b a s1 s2 ic mt).s1.attr x = s1.attr x ∧ (seen C co1 co2 b a s1 s2 ic mt).s2.attr x = s2.attr x) ∧
      (seen C co1 co2 b a s1 s2 ic mt).cls = some (ic, mt) ∧ (seen C co1 co2 b a s1 s2 ic mt).hist = b.hist ∧
      (seen C co1 co2 b a s1 s2 ic mt).s1.attr "state" = (if ic = "initial_MT" then s1.attr "state" else C.star s1 co1) ∧
      (seen C co1 co2 b a s1 s2 ic mt).s2.attr "state" = if ic = "initial_MT" then s2.attr "state" else C.star s2 co2 := by
  unfold seen
  by_cases h : ic = "initial_MT"
  · simp [h]
  · rw [if_pos h]
    refine ⟨rfl, rfl, rfl, fun x hx => ⟨if_neg hx, if_neg hx⟩, rfl, rfl, ?_, ?_⟩ <;> simp [setv, h]

/-- The stars at the end of the step: besides the state, the post-processed values and the accretion onto a compact object, the values of the loops. -/
theorem end_stars {P : Ops V} {C : Classify V} {co1 co2 : Bool} {classes : Col → Option String} {fv : Col → Option V} {b b' : Bin V}
    (h : interpolate P C co1 co2 classes fv b = .ok b') {s1 s2 : Star V} (h1 : star P co1 false fv b.s1 = .ok s1) (h2 : star P co2 true fv b.s2 = .ok s2)
    {key : String} (hk : key ∉ post) (hs : key ≠ "state") :
    ((co1 = true → key ≠ "lg_mdot") → b'.s1.attr key = s1.attr key) ∧ ((co2 = true → key ≠ "lg_mdot") → b'.s2.attr key = s2.attr key) := by
  obtain ⟨a, t1, t2, ic, mt, _, h1', h2', _, _, hh⟩ := interpolate_ok h
  rw [h1] at h1'; rw [h2] at h2'
  have e1 := Except.ok.inj h1'; have e2 := Except.ok.inj h2'
  subst e1; subst e2
  obtain ⟨-, -, -, sx, -⟩ := seen_attr C co1 co2 b a s1 s2 ic mt
  rcases hh with ⟨_, hb⟩ | ⟨_, hf⟩
  · subst hb
    exact ⟨fun _ => (sx key hs).1, fun _ => (sx key hs).2⟩
  · obtain ⟨c, hc, _, _, _, p1, p2, _⟩ := finish_ok hf
    obtain ⟨_, _, _, _, _, ax, a1, a2, _⟩ := accreted_ok hc
    constructor
    · intro hl
      rw [(post_ok p1).1 key hk, ← (sx key hs).1]
      cases co1 with
      | false => rw [a1 rfl]; rfl
      | true => exact (ax key (hl rfl)).1
    · intro hl
      rw [(post_ok p2).1 key hk, ← (sx key hs).2]
      cases co2 with
      | false => rw [a2 rfl]; rfl
      | true => exact (ax key (hl rfl)).2

/-! ### Properties -/

/-- The binary: every property is given the value of the specification; the time advances by the age of the track, and state, event and case are those of
the classification of the binary with its new values. -/
theorem C92_binary_values {P : Ops V} {C : Classify V} {co1 co2 : Bool} {classes : Col → Option String} {fv : Col → Option V} {b b' : Bin V}
    (h : interpolate P C co1 co2 classes fv b = .ok b') :
    (∀ key ∈ Evolve.binaryProperties, key ≠ "state" → key ≠ "event" → key ≠ "mass_transfer_case" →
      (wantB key).eval P (b.hist key) P.none fv (b.attr key) = some (b'.attr key)) ∧
    (∀ key, key ∉ Evolve.binaryProperties → b'.attr key = b.attr key) ∧ b'.hist = b.hist ∧
    ∃ c ic mt, classes (.bin "interpolation_class") = some ic ∧ classes (.bin "mt_history") = some mt ∧ b'.cls = some (ic, mt) ∧
      b'.attr "state" = P.text (C.binary c ic).1 ∧ b'.attr "event" = P.text (C.binary c ic).2.1 ∧ b'.attr "mass_transfer_case" = P.text (C.binary c ic).2.2 ∧
      (∀ key, key ≠ "state" → key ≠ "event" → key ≠ "mass_transfer_case" → c.attr key = b'.attr key) ∧
      c.s1.attr "state" = b'.s1.attr "state" ∧ c.s2.attr "state" = b'.s2.attr "state" := by
  obtain ⟨a, s1, s2, ic, mt, ha, h1, h2, hi, hm, hh⟩ := interpolate_ok h
  obtain ⟨l1, l2⟩ := loop_ok nodupB ha
  obtain ⟨sa, -, -, -, sc, sh, -⟩ := seen_attr C co1 co2 b a s1 s2 ic mt
  have hend : b'.attr = (named P C (seen C co1 co2 b a s1 s2 ic mt) ic).attr ∧ b'.hist = b.hist ∧ b'.cls = some (ic, mt) ∧
      b'.s1.attr "state" = (seen C co1 co2 b a s1 s2 ic mt).s1.attr "state" ∧ b'.s2.attr "state" = (seen C co1 co2 b a s1 s2 ic mt).s2.attr "state" := by
    rcases hh with ⟨_, hb⟩ | ⟨_, hf⟩
    · subst hb; exact ⟨rfl, sh, sc, rfl, rfl⟩
    · obtain ⟨c, hc, f1, f2, f3, p1, p2, _⟩ := finish_ok hf
      obtain ⟨a1, a2, a3, _, _, ax, _⟩ := accreted_ok hc
      have hp : "state" ∉ post := by decide +kernel
      refine ⟨by rw [f1, a1], by rw [f2, a2]; exact sh, by rw [f3, a3]; exact sc, ?_, ?_⟩
      · rw [(post_ok p1).1 _ hp, (ax "state" (by decide)).1]; rfl
      · rw [(post_ok p2).1 _ hp, (ax "state" (by decide)).2]; rfl
  obtain ⟨e1, e2, e3, e4, e5⟩ := hend
  have hother : ∀ key, key ≠ "state" → key ≠ "event" → key ≠ "mass_transfer_case" → b'.attr key = a key := by
    intro key k1 k2 k3
    rw [e1]; simp only [named, setv, if_neg k1, if_neg k2, if_neg k3]; rw [sa]
  have hin : "state" ∈ Evolve.binaryProperties ∧ "event" ∈ Evolve.binaryProperties ∧ "mass_transfer_case" ∈ Evolve.binaryProperties := by decide +kernel
  refine ⟨fun key hk k1 k2 k3 => ?_, fun key hk => ?_, e2, seen C co1 co2 b a s1 s2 ic mt, ic, mt, hi, hm, e3, ?_, ?_, ?_, fun key k1 k2 k3 => ?_, e4.symm, e5.symm⟩
  · rw [hother key k1 k2 k3]
    obtain ⟨o, ho, hg⟩ := l2 key hk
    rw [hg]
    exact (valB_eval P b.hist P.none fv hk (b.attr key)).1 o ho
  · rw [hother key (fun e => hk (e ▸ hin.1)) (fun e => hk (e ▸ hin.2.1)) (fun e => hk (e ▸ hin.2.2)), l1 key hk]
  · rw [e1]; simp [named, setv]
  · rw [e1]; simp [named, setv]
  · rw [e1]; simp [named, setv]
  · rw [sa, hother key k1 k2 k3]

/-- A star which is not a compact object: every property but the state is given the value of the specification, for both stars. -/
theorem C92_star_values {P : Ops V} {C : Classify V} {co1 co2 : Bool} {classes : Col → Option String} {fv : Col → Option V} {b b' : Bin V}
    (h : interpolate P C co1 co2 classes fv b = .ok b') {key : String} (hk : key ∈ Evolve.starProperties) (hs : key ≠ "state") :
    (co1 = false → (wantS false key).eval P [] P.none fv (b.s1.attr key) = some (b'.s1.attr key)) ∧
      (co2 = false → (wantS true key).eval P [] P.none fv (b.s2.attr key) = some (b'.s2.attr key)) := by
  obtain ⟨a, s1, s2, ic, mt, ha, h1, h2, hi, hm, hh⟩ := interpolate_ok h
  have hp : key ∉ post := fun hm => post_fresh key hm hk
  obtain ⟨g1, g2⟩ := end_stars h h1 h2 hp hs
  have hx : ∀ (k : Bool) (x : V) (cur : V), (wantS k key).eval P [] x fv cur = (wantS k key).eval P [] P.none fv cur := by
    intro k x cur
    cases hw : wantS k key with
    | accretedSpin c => exfalso; revert hw; unfold wantS; split_ifs <;> simp
    | _ => rfl
  constructor
  · intro hc
    subst hc
    rw [g1 (by simp)]
    have := (star_ok h1).2.2 key hk
    simp only [Bool.false_eq_true, if_false] at this
    rwa [hx] at this
  · intro hc
    subst hc
    rw [g2 (by simp)]
    have := (star_ok h2).2.2 key hk
    simp only [Bool.false_eq_true, if_false] at this
    rwa [hx] at this

/-- A compact object: mass, rates, spin and radius follow from the track and the mass before the step; every other property is unchanged. -/
theorem C92_compact_values {P : Ops V} {C : Classify V} {co1 co2 : Bool} {classes : Col → Option String} {fv : Col → Option V} {b b' : Bin V}
    (h : interpolate P C co1 co2 classes fv b = .ok b') {key : String} (hk : key ∈ Evolve.starProperties) (hs : key ≠ "state") (hl : key ≠ "lg_mdot") :
    (co1 = true → (wantC false key).eval P [] (b.s1.attr "mass") fv (b.s1.attr key) = some (b'.s1.attr key)) ∧
      (co2 = true → (wantC true key).eval P [] (b.s2.attr "mass") fv (b.s2.attr key) = some (b'.s2.attr key)) := by
  obtain ⟨a, s1, s2, ic, mt, ha, h1, h2, hi, hm, hh⟩ := interpolate_ok h
  have hp : key ∉ post := fun hm => post_fresh key hm hk
  obtain ⟨g1, g2⟩ := end_stars h h1 h2 hp hs
  constructor
  · intro hc
    subst hc
    rw [g1 fun _ => hl]
    exact (star_ok h1).2.2 key hk
  · intro hc
    subst hc
    rw [g2 fun _ => hl]
    exact (star_ok h2).2.2 key hk

/-- Before the rate is corrected a compact object has the rate of the track; afterwards the rate is the result of the accretion from this rate, unless the
binary is in contact from the start. -/
theorem C92_compact_rate {P : Ops V} {C : Classify V} {co2 : Bool} {classes : Col → Option String} {fv : Col → Option V} {b b' : Bin V}
    (h : interpolate P C true co2 classes fv b = .ok b') (ht : Function.Injective P.text) :
    ∃ v, fv (.rate "lg_mstar_dot" false) = some v ∧
      ((b'.attr "state" = P.text "initial_RLOF" → b'.s1.attr "lg_mdot" = v) ∧
        (b'.attr "state" ≠ P.text "initial_RLOF" → ∃ c, b'.s1.attr "lg_mdot" = C.accrete c v)) := by
  obtain ⟨a, s1, s2, ic, mt, ha, h1, h2, hi, hm, hh⟩ := interpolate_ok h
  have hv := (star_ok h1).2.2 "lg_mdot" (by decide +kernel)
  have hw : wantC false "lg_mdot" = .take (.rate "lg_mstar_dot" false) := by decide +kernel
  simp only [if_true, hw, Want.eval] at hv
  refine ⟨_, hv, ?_⟩
  obtain ⟨-, -, -, sx, -⟩ := seen_attr C true co2 b a s1 s2 ic mt
  rcases hh with ⟨hs, hb⟩ | ⟨hs, hf⟩
  · have hst : b'.attr "state" = P.text "initial_RLOF" := by subst hb; simp [named, setv, hs]
    refine ⟨fun _ => ?_, fun hn => absurd hst hn⟩
    subst hb
    exact (sx "lg_mdot" (by decide)).1
  · obtain ⟨c, hc, f1, _, _, p1, _⟩ := finish_ok hf
    obtain ⟨a1, _, _, _, _, _, _, _, ac, _⟩ := accreted_ok hc
    have hst : b'.attr "state" ≠ P.text "initial_RLOF" := by
      rw [f1, a1]
      simp only [named, setv]
      intro e
      exact hs (ht (by simpa using e))
    refine ⟨fun e => absurd e hst, fun _ => ?_⟩
    obtain ⟨v, hv', hacc⟩ := ac rfl
    rw [hv] at hv'
    have := Option.some.inj hv'
    subst this
    refine ⟨named P C (seen C true co2 b a s1 s2 ic mt) ic, ?_⟩
    rw [(post_ok p1).1 _ (by decide +kernel)]
    exact hacc

/-- The state of a star is the inferred one, except that it is left alone if mass transfer was there from the start. -/
theorem C92_star_states {P : Ops V} {C : Classify V} {co1 co2 : Bool} {classes : Col → Option String} {fv : Col → Option V} {b b' : Bin V}
    (h : interpolate P C co1 co2 classes fv b = .ok b') :
    (classes (.bin "interpolation_class") = some "initial_MT" → b'.s1.attr "state" = b.s1.attr "state" ∧ b'.s2.attr "state" = b.s2.attr "state") ∧
      (classes (.bin "interpolation_class") ≠ some "initial_MT" → ∃ s1 s2, star P co1 false fv b.s1 = .ok s1 ∧ star P co2 true fv b.s2 = .ok s2 ∧
        b'.s1.attr "state" = C.star s1 co1 ∧ b'.s2.attr "state" = C.star s2 co2) := by
  obtain ⟨a, s1, s2, ic, mt, ha, h1, h2, hi, hm, hh⟩ := interpolate_ok h
  obtain ⟨-, -, -, -, -, -, x1, x2⟩ := seen_attr C co1 co2 b a s1 s2 ic mt
  have hend : b'.s1.attr "state" = (seen C co1 co2 b a s1 s2 ic mt).s1.attr "state" ∧ b'.s2.attr "state" = (seen C co1 co2 b a s1 s2 ic mt).s2.attr "state" := by
    rcases hh with ⟨_, hb⟩ | ⟨_, hf⟩
    · subst hb; exact ⟨rfl, rfl⟩
    · obtain ⟨c, hc, f1, f2, f3, p1, p2, _⟩ := finish_ok hf
      obtain ⟨a1, a2, a3, _, _, ax, _⟩ := accreted_ok hc
      have hp : "state" ∉ post := by decide +kernel
      constructor
      · rw [(post_ok p1).1 _ hp, (ax "state" (by decide)).1]; rfl
      · rw [(post_ok p2).1 _ hp, (ax "state" (by decide)).2]; rfl
  rw [hi, hend.1, hend.2, x1, x2]
  have hin : "state" ∈ Evolve.starProperties := by decide +kernel
  have hkeep : ∀ (co k : Bool) (s s' : Star V), star P co k fv s = .ok s' → s'.attr "state" = s.attr "state" := by
    intro co k s s' hs
    have := (star_ok hs).2.2 "state" hin
    have hw : (if co then wantC k "state" else wantS k "state") = .keep := by
      clear hs this
      revert co k; decide +kernel
    rw [hw] at this
    exact (Option.some.inj this).symm
  constructor
  · intro e
    rw [if_pos (Option.some.inj e), if_pos (Option.some.inj e)]
    exact ⟨hkeep _ _ _ _ h1, hkeep _ _ _ _ h2⟩
  · intro e
    have e : ic ≠ "initial_MT" := fun x => e (by rw [x])
    rw [if_neg e, if_neg e]
    exact ⟨s1, s2, h1, h2, rfl, rfl⟩

/-- A star is given its own columns only: the first star those of the first star, the second star those of the second. -/
theorem C92_own_star {P : Ops V} {C : Classify V} {co1 co2 : Bool} {classes classes' : Col → Option String} {fv fv' : Col → Option V} {b b₁ b₂ : Bin V}
    (h₁ : interpolate P C co1 co2 classes fv b = .ok b₁) (h₂ : interpolate P C co1 co2 classes' fv' b = .ok b₂)
    {key : String} (hk : key ∈ Evolve.starProperties) (hs : key ≠ "state") (hl : key ≠ "lg_mdot") :
    ((∀ c : Col, c.of = some false → fv c = fv' c) → b₁.s1.attr key = b₂.s1.attr key) ∧
      ((∀ c : Col, c.of = some true → fv c = fv' c) → b₁.s2.attr key = b₂.s2.attr key) := by
  have hS : ∀ (k : Bool) (x cur : V), (∀ c : Col, c.of = some k → fv c = fv' c) → (wantS k key).eval P [] x fv cur = (wantS k key).eval P [] x fv' cur := by
    intro k x cur hh
    unfold wantS
    split_ifs <;> simp only [Want.eval] <;> exact hh _ rfl
  have hC : ∀ (k : Bool) (x cur : V), (∀ c : Col, c.of = some k → fv c = fv' c) → (wantC k key).eval P [] x fv cur = (wantC k key).eval P [] x fv' cur := by
    intro k x cur hh
    unfold wantC
    split_ifs <;> simp only [Want.eval] <;> rw [hh _ rfl]
  constructor
  · intro hh
    cases co1 with
    | false => exact Option.some.inj (by rw [← (C92_star_values h₁ hk hs).1 rfl, ← (C92_star_values h₂ hk hs).1 rfl]; exact hS _ _ _ hh)
    | true => exact Option.some.inj (by rw [← (C92_compact_values h₁ hk hs hl).1 rfl, ← (C92_compact_values h₂ hk hs hl).1 rfl]; exact hC _ _ _ hh)
  · intro hh
    cases co2 with
    | false => exact Option.some.inj (by rw [← (C92_star_values h₁ hk hs).2 rfl, ← (C92_star_values h₂ hk hs).2 rfl]; exact hS _ _ _ hh)
    | true => exact Option.some.inj (by rw [← (C92_compact_values h₁ hk hs hl).2 rfl, ← (C92_compact_values h₂ hk hs hl).2 rfl]; exact hC _ _ _ hh)

/-- A column of the specification which is missing, for the binary or a star, ends the step in an exception: no property is skipped silently. -/
theorem C92_needed {P : Ops V} {C : Classify V} {co1 co2 : Bool} {classes : Col → Option String} {fv : Col → Option V} (b : Bin V) {c : Col} (hc : fv c = none)
    (hn : (∃ key ∈ Evolve.binaryProperties, (wantB key).col = some c) ∨ (∃ key ∈ Evolve.starProperties, (if co1 then wantC false key else wantS false key).col = some c) ∨
      ∃ key ∈ Evolve.starProperties, (if co2 then wantC true key else wantS true key).col = some c) :
    ∃ e, interpolate P C co1 co2 classes fv b = .error e := by
  cases h : interpolate P C co1 co2 classes fv b with
  | error e => exact ⟨e, rfl⟩
  | ok b' =>
    exfalso
    obtain ⟨a, s1, s2, ic, mt, ha, h1, h2, hi, hm, hh⟩ := interpolate_ok h
    have hcol : ∀ (w : Want) (l : List V) (x cur : V), w.col = some c → w.eval P l x fv cur = none := by
      intro w l x cur hw
      cases w <;> simp only [Want.col, reduceCtorEq, Option.some.injEq] at hw <;> simp [Want.eval, hw, hc]
    rcases hn with ⟨key, hk, hw⟩ | ⟨key, hk, hw⟩ | ⟨key, hk, hw⟩
    · obtain ⟨o, ho, hg⟩ := (loop_ok nodupB ha).2 key hk
      have := (valB_eval P b.hist P.none fv hk (b.attr key)).1 o ho
      rw [hcol _ _ _ _ hw] at this; simp at this
    · have := (star_ok h1).2.2 key hk
      rw [hcol _ _ _ _ hw] at this; simp at this
    · have := (star_ok h2).2.2 key hk
      rw [hcol _ _ _ _ hw] at this; simp at this

/-- A binary in contact from the start keeps its supernova models, and every attribute of its stars which is not a star property. -/
theorem C92_initial {P : Ops V} {C : Classify V} {co1 co2 : Bool} {classes : Col → Option String} {fv : Col → Option V} {b b' : Bin V}
    (h : interpolate P C co1 co2 classes fv b = .ok b') (ht : Function.Injective P.text) (hs : b'.attr "state" = P.text "initial_RLOF") :
    b'.s1.sn = b.s1.sn ∧ b'.s2.sn = b.s2.sn ∧
      ∀ key, key ∉ Evolve.starProperties → b'.s1.attr key = b.s1.attr key ∧ b'.s2.attr key = b.s2.attr key := by
  obtain ⟨a, s1, s2, ic, mt, ha, h1, h2, hi, hm, hh⟩ := interpolate_ok h
  obtain ⟨-, x1, x2, sx, -⟩ := seen_attr C co1 co2 b a s1 s2 ic mt
  obtain ⟨n1, o1, -⟩ := star_ok h1
  obtain ⟨n2, o2, -⟩ := star_ok h2
  rcases hh with ⟨_, hb⟩ | ⟨hn, hf⟩
  · subst hb
    refine ⟨x1.trans n1, x2.trans n2, fun key hk => ?_⟩
    have hne : key ≠ "state" := fun e => hk (e ▸ (by decide +kernel : "state" ∈ Evolve.starProperties))
    exact ⟨(sx key hne).1.trans (o1 key hk), (sx key hne).2.trans (o2 key hk)⟩
  · exfalso
    obtain ⟨c, hc, f1, _⟩ := finish_ok hf
    rw [f1, (accreted_ok hc).1] at hs
    simp only [named, setv] at hs
    exact hn (ht (by simpa using hs))

/-- The post-processed values of the stars: taken from the columns of the star, blank for the two of the end of helium burning after unstable mass
transfer, and unchanged for compact objects. -/
theorem C92_post_values {P : Ops V} {C : Classify V} {co1 co2 : Bool} {classes : Col → Option String} {fv : Col → Option V} {b b' : Bin V}
    (h : interpolate P C co1 co2 classes fv b = .ok b') (hs : b'.attr "state" ≠ P.text "initial_RLOF") {key : String} (hk : key ∈ post) :
    (co1 = true → b'.s1.attr key = b.s1.attr key) ∧ (co2 = true → b'.s2.attr key = b.s2.attr key) ∧
      (co1 = false → (if classes (.bin "interpolation_class") = some "unstable_MT" ∧ (key = "avg_c_in_c_core_at_He_depletion" ∨ key = "co_core_mass_at_He_depletion")
        then some P.none else fv (.star false key)) = some (b'.s1.attr key)) ∧
      (co2 = false → (if classes (.bin "interpolation_class") = some "unstable_MT" ∧ (key = "avg_c_in_c_core_at_He_depletion" ∨ key = "co_core_mass_at_He_depletion")
        then some P.none else fv (.star true key)) = some (b'.s2.attr key)) := by
  obtain ⟨a, s1, s2, ic, mt, ha, h1, h2, hi, hm, hh⟩ := interpolate_ok h
  obtain ⟨-, x1, x2, sx, -⟩ := seen_attr C co1 co2 b a s1 s2 ic mt
  have hk' := post_fresh key hk
  have o1 := (star_ok h1).2.1 key hk'
  have o2 := (star_ok h2).2.1 key hk'
  have hne : key ≠ "state" := fun e => hk' (e ▸ (by decide +kernel : "state" ∈ Evolve.starProperties))
  have hnl : key ≠ "lg_mdot" := fun e => hk' (e ▸ (by decide +kernel : "lg_mdot" ∈ Evolve.starProperties))
  rcases hh with ⟨hi', hb⟩ | ⟨hn, hf⟩
  · exfalso; apply hs; subst hb; simp [named, setv, hi']
  · obtain ⟨c, hc, _, _, _, p1, p2, _⟩ := finish_ok hf
    obtain ⟨_, _, _, _, _, ax, _⟩ := accreted_ok hc
    rw [hi]
    refine ⟨fun e => ?_, fun e => ?_, fun e => ?_, fun e => ?_⟩
    · rw [(post_ok p1).2.1 e, (ax key hnl).1, ← o1]; exact (sx key hne).1
    · rw [(post_ok p2).2.1 e, (ax key hnl).2, ← o2]; exact (sx key hne).2
    · have := (post_ok p1).2.2 e key hk
      simpa only [decide_eq_true_eq, Option.some.injEq] using this
    · have := (post_ok p2).2.2 e key hk
      simpa only [decide_eq_true_eq, Option.some.injEq] using this

theorem snNumbers_spec (k : Bool) (model : String) (fv : Col → Option V) (xs : List String) :
    (∀ l, snNumbers k model fv xs = some l → l.map (·.1) = xs ∧ ∀ p ∈ l, fv (.sn k model p.1) = some p.2) ∧
      (snNumbers k model fv xs = none ↔ ∃ x ∈ xs, fv (.sn k model x) = none) := by
  induction xs with
  | nil => simp [snNumbers]
  | cons x xs ih =>
    cases hv : fv (.sn k model x) with
    | none => simp [snNumbers, hv]
    | some v =>
      cases hr : snNumbers k model fv xs with
      | none =>
        have := ih.2.1 hr
        simp only [snNumbers, hv, hr, reduceCtorEq, false_implies, implies_true, true_and, List.mem_cons, exists_eq_or_imp, true_iff, false_or]
        exact this
      | some l =>
        obtain ⟨i1, i2⟩ := ih.1 l hr
        have hnone : ¬ ∃ x ∈ xs, fv (.sn k model x) = none := fun hh => by have := ih.2.2 hh; rw [hr] at this; simp at this
        simp only [snNumbers, hv, hr, Option.some.injEq, reduceCtorEq, List.mem_cons, exists_eq_or_imp, false_iff, false_or]
        refine ⟨?_, hnone⟩
        rintro _ rfl
        simp only [List.map_cons, i1, List.mem_cons, forall_eq_or_imp, hv, true_and]
        exact i2

theorem snAll_ok {P : Ops V} {co k : Bool} {classes : Col → Option String} {fv : Col → Option V} : ∀ {ms : List String} {f g : String → Option (List (String × V))},
    ms.Nodup → snAll P co k classes fv ms f = .ok g → (∀ m ∈ ms, snModel P co k m classes fv = .ok (g m)) ∧ ∀ m, m ∉ ms → g m = f m := by
  intro ms
  induction ms with
  | nil => intro f g _ h; have h := Except.ok.inj h; subst h; simp
  | cons a ms ih =>
    intro f g hn h
    obtain ⟨ha, hn⟩ := List.nodup_cons.1 hn
    simp only [snAll] at h
    cases hv : snModel P co k a classes fv with
    | error e => rw [hv] at h; simp at h
    | ok v =>
      rw [hv] at h
      obtain ⟨i1, i2⟩ := ih hn h
      refine ⟨fun m hm => ?_, fun m hm => ?_⟩
      · rcases List.mem_cons.1 hm with rfl | hm
        · rw [i2 _ ha, if_pos rfl, hv]
        · exact i1 m hm
      · have hne : m ≠ a := fun e => hm (e ▸ List.mem_cons_self)
        rw [i2 m fun hh => hm (List.mem_cons_of_mem _ hh), if_neg hne]

theorem nodupModels : Single.models.Nodup := by decide +kernel

/-- What a supernova model of a star may be after the step. -/
def SnSpec (P : Ops V) (co k : Bool) (classes : Col → Option String) (fv : Col → Option V) (m : String) (r : Option (List (String × V))) : Prop :=
  (co = true → r = none) ∧
  (co = false → ∃ st, classes (.sn k m "CO_type") = some st ∧
    (st = "None" → r = none) ∧
    (st ≠ "None" → ∃ ty, classes (.sn k m "SN_type") = some ty ∧
      ((∃ x ∈ snNums, fv (.sn k m x) = none) → r = none) ∧
      ((∀ x ∈ snNums, fv (.sn k m x) ≠ none) → ∃ l, r = some (("state", P.text st) :: ("SN_type", P.text ty) :: l) ∧ l.map (·.1) = snNums ∧
        ∀ p ∈ l, fv (.sn k m p.1) = some p.2)))

theorem snModel_spec {P : Ops V} {co k : Bool} {classes : Col → Option String} {fv : Col → Option V} {m : String} {r : Option (List (String × V))}
    (h : snModel P co k m classes fv = .ok r) : SnSpec P co k classes fv m r := by
  unfold snModel at h
  constructor
  · intro e; subst e; exact (Except.ok.inj h).symm
  · intro e
    subst e
    simp only [Bool.false_eq_true, if_false] at h
    cases hst : classes (.sn k m "CO_type") with
    | none => rw [hst] at h; simp at h
    | some st =>
      rw [hst] at h; dsimp only at h
      refine ⟨st, rfl, ?_, ?_⟩
      · intro e; rw [if_pos e] at h; exact (Except.ok.inj h).symm
      · intro e
        rw [if_neg e] at h
        cases hty : classes (.sn k m "SN_type") with
        | none => rw [hty] at h; simp at h
        | some ty =>
          rw [hty] at h
          have h := Except.ok.inj h
          obtain ⟨s1, s2⟩ := snNumbers_spec k m fv snNums
          refine ⟨ty, rfl, ?_, ?_⟩
          · intro hx
            rw [s2.2 hx] at h
            exact h.symm
          · intro hx
            cases hl : snNumbers k m fv snNums with
            | none =>
              obtain ⟨x, hx', hh⟩ := s2.1 hl
              exact absurd hh (hx x hx')
            | some l =>
              rw [hl] at h
              exact ⟨l, h.symm, s1 l hl⟩

/-- The supernova models, after a step which does not end in unstable mass transfer: each of the models of each star is either missing or complete, with the
state and type of the classification and the nine interpolated numbers. -/
theorem C92_sn_models {P : Ops V} {C : Classify V} {co1 co2 : Bool} {classes : Col → Option String} {fv : Col → Option V} {b b' : Bin V}
    (h : interpolate P C co1 co2 classes fv b = .ok b') (hs : b'.attr "state" ≠ P.text "initial_RLOF")
    (hu : classes (.bin "interpolation_class") ≠ some "unstable_MT") {m : String} (hm : m ∈ Single.models) :
    SnSpec P co1 false classes fv m (b'.s1.sn m) ∧ SnSpec P co2 true classes fv m (b'.s2.sn m) := by
  obtain ⟨a, s1, s2, ic, mt, ha, h1, h2, hi, hmt, hh⟩ := interpolate_ok h
  rcases hh with ⟨hi', hb⟩ | ⟨hn, hf⟩
  · exfalso; apply hs; subst hb; simp [named, setv, hi']
  · obtain ⟨c, hc, _, _, _, _, _, _, hsn⟩ := finish_ok hf
    obtain ⟨q1, q2⟩ := hsn fun e => hu (by rw [hi, e])
    exact ⟨snModel_spec ((snAll_ok nodupModels q1).1 m hm), snModel_spec ((snAll_ok nodupModels q2).1 m hm)⟩

/-- After unstable mass transfer the supernova models of both stars are those they had before. -/
theorem C92_unstable {P : Ops V} {C : Classify V} {co1 co2 : Bool} {classes : Col → Option String} {fv : Col → Option V} {b b' : Bin V}
    (h : interpolate P C co1 co2 classes fv b = .ok b') (hu : classes (.bin "interpolation_class") = some "unstable_MT") :
    b'.s1.sn = b.s1.sn ∧ b'.s2.sn = b.s2.sn := by
  obtain ⟨a, s1, s2, ic, mt, ha, h1, h2, hi, hmt, hh⟩ := interpolate_ok h
  obtain ⟨-, x1, x2, -⟩ := seen_attr C co1 co2 b a s1 s2 ic mt
  obtain ⟨n1, -⟩ := star_ok h1
  obtain ⟨n2, -⟩ := star_ok h2
  rcases hh with ⟨_, hb⟩ | ⟨_, hf⟩
  · subst hb; exact ⟨x1.trans n1, x2.trans n2⟩
  · obtain ⟨c, hc, _, _, _, _, _, hsn, _⟩ := finish_ok hf
    obtain ⟨q1, q2⟩ := hsn (by rw [hi] at hu; exact Option.some.inj hu)
    obtain ⟨_, _, _, y1, y2, _⟩ := accreted_ok hc
    exact ⟨by rw [q1, y1]; exact x1.trans n1, by rw [q2, y2]; exact x2.trans n2⟩

/-- Two compact objects: the step fails, as no donor is found, unless the binary is in contact from the start. -/
theorem C92_two_compact {P : Ops V} {C : Classify V} {classes : Col → Option String} {fv : Col → Option V} {b b' : Bin V}
    (h : interpolate P C true true classes fv b = .ok b') : b'.attr "state" = P.text "initial_RLOF" := by
  obtain ⟨a, s1, s2, ic, mt, ha, h1, h2, hi, hmt, hh⟩ := interpolate_ok h
  rcases hh with ⟨hi', hb⟩ | ⟨hn, hf⟩
  · subst hb; simp [named, setv, hi']
  · obtain ⟨c, hc, _⟩ := finish_ok hf
    simp [accreted] at hc

theorem snAll_total {P : Ops V} {co k : Bool} {classes : Col → Option String} {fv : Col → Option V} : ∀ {ms : List String} {f : String → Option (List (String × V))},
    (∀ c, classes c ≠ none) → ∃ g, snAll P co k classes fv ms f = .ok g := by
  intro ms
  induction ms with
  | nil => intro f _; exact ⟨f, rfl⟩
  | cons a ms ih =>
    intro f hc
    obtain ⟨v, hv⟩ : ∃ v, snModel P co k a classes fv = .ok v := by
      unfold snModel
      cases co with
      | true => exact ⟨_, rfl⟩
      | false =>
        simp only [Bool.false_eq_true, if_false]
        cases h1 : classes (.sn k a "CO_type") with
        | none => exact absurd h1 (hc _)
        | some st =>
          cases h2 : classes (.sn k a "SN_type") with
          | none => exact absurd h2 (hc _)
          | some ty =>
            by_cases hs : st = "None"
            · exact ⟨none, by simp [hs]⟩
            · exact ⟨_, if_neg hs⟩
    simp only [snAll, hv]
    exact ih hc

/-- With all columns, histories of the eccentricity and the velocity, and at most one compact object, the step does not fail. -/
theorem C92_total (P : Ops V) (C : Classify V) {co1 co2 : Bool} {classes : Col → Option String} {fv : Col → Option V} (b : Bin V)
    (hco : ¬ (co1 = true ∧ co2 = true)) (hcl : ∀ c, classes c ≠ none) (hfv : ∀ c, fv c ≠ none) (he : b.hist "eccentricity" ≠ []) (hv : b.hist "V_sys" ≠ []) :
    ∃ b', interpolate P C co1 co2 classes fv b = .ok b' := by
  have hev : ∀ (w : Want) (l : List V) (x cur : V), (w = .last → l ≠ []) → w.eval P l x fv cur ≠ none := by
    intro w l x cur hl
    cases w <;> simp only [Want.eval, ne_eq, Option.map_eq_none_iff, reduceCtorEq, not_false_eq_true, List.getLast?_eq_none_iff] <;> first | exact hfv _ | exact hl rfl
  have hA : ∃ a, loop (valB P b.hist fv) Evolve.binaryProperties b.attr = .ok a := by
    refine loop_total nodupB fun key hk => ?_
    cases h : valB P b.hist fv key (b.attr key) with
    | ok o => exact ⟨o, rfl⟩
    | error e =>
      refine absurd ((valB_eval P b.hist P.none fv hk (b.attr key)).2 e h) (hev _ _ _ _ fun hw => ?_)
      by_cases h3 : key = "eccentricity"
      · rw [h3]; exact he
      by_cases h4 : key = "V_sys"
      · rw [h4]; exact hv
      exfalso
      revert hw
      unfold wantB
      rw [if_neg (c := key = "eccentricity" ∨ key = "V_sys") (by tauto)]
      split_ifs <;> simp
  have hSt : ∀ (co k : Bool) (s : Star V), ∃ s', star P co k fv s = .ok s' := by
    intro co k s
    have hg : ∃ g, loop (if co then valC P k (s.attr "mass") fv else valS P k fv) Evolve.starProperties s.attr = .ok g := by
      refine loop_total nodupS fun key hk => ?_
      cases co with
      | true =>
        simp only [if_true]
        cases h : valC P k (s.attr "mass") fv key (s.attr key) with
        | ok o => exact ⟨o, rfl⟩
        | error e =>
          refine absurd ((valC_eval P k [] (s.attr "mass") fv hk (s.attr key)).2 e h) (hev _ _ _ _ fun hw => ?_)
          exfalso; revert hw; unfold wantC; split_ifs <;> simp
      | false =>
        simp only [Bool.false_eq_true, if_false]
        cases h : valS P k fv key (s.attr key) with
        | ok o => exact ⟨o, rfl⟩
        | error e =>
          refine absurd ((valS_eval P k [] P.none fv hk (s.attr key)).2 e h) (hev _ _ _ _ fun hw => ?_)
          exfalso; revert hw; unfold wantS; split_ifs <;> simp
    obtain ⟨g, hg⟩ := hg
    exact ⟨_, by unfold star; rw [hg]; rfl⟩
  obtain ⟨a, ha⟩ := hA
  obtain ⟨s1, h1⟩ := hSt co1 false b.s1
  obtain ⟨s2, h2⟩ := hSt co2 true b.s2
  cases hi : classes (.bin "interpolation_class") with
  | none => exact absurd hi (hcl _)
  | some ic =>
    cases hm : classes (.bin "mt_history") with
    | none => exact absurd hm (hcl _)
    | some mt =>
      have hfin : ∀ c : Bin V, ∃ b', finish P C co1 co2 classes fv ic c = .ok b' := by
        intro c
        have hacc : ∃ d, accreted C co1 co2 fv c = .ok d := by
          unfold accreted need
          cases k1 : fv (.rate "lg_mstar_dot" false) with
          | none => exact absurd k1 (hfv _)
          | some v1 =>
            cases k2 : fv (.rate "lg_mstar_dot" true) with
            | none => exact absurd k2 (hfv _)
            | some v2 =>
              cases co1 <;> cases co2
              · exact ⟨_, rfl⟩
              · exact ⟨_, rfl⟩
              · exact ⟨_, rfl⟩
              · exact absurd ⟨rfl, rfl⟩ hco
        obtain ⟨d, hd⟩ := hacc
        have hp : ∀ (co k un : Bool) (f : String → V), ∃ g, (if co then .ok f else loop (postVal P k un fv) post f : Except Err (String → V)) = .ok g := by
          intro co k un f
          cases co with
          | true => exact ⟨f, rfl⟩
          | false =>
            simp only [Bool.false_eq_true, if_false]
            refine loop_total nodupPost fun key _ => ?_
            unfold postVal need
            cases k1 : fv (.star k key) with
            | none => exact absurd k1 (hfv _)
            | some v1 =>
              split_ifs
              · exact ⟨_, rfl⟩
              · exact ⟨_, rfl⟩
        obtain ⟨a1, p1⟩ := hp co1 false (decide (ic = "unstable_MT")) d.s1.attr
        obtain ⟨a2, p2⟩ := hp co2 true (decide (ic = "unstable_MT")) d.s2.attr
        obtain ⟨n1, q1⟩ := snAll_total (P := P) (co := co1) (k := false) (fv := fv) (ms := Single.models) (f := d.s1.sn) hcl
        obtain ⟨n2, q2⟩ := snAll_total (P := P) (co := co2) (k := true) (fv := fv) (ms := Single.models) (f := d.s2.sn) hcl
        unfold finish
        rw [hd]
        dsimp only
        rw [p1, p2]
        dsimp only
        by_cases hu : ic = "unstable_MT"
        · exact ⟨_, if_pos (by simpa using hu)⟩
        · rw [if_neg (by simpa using hu), q1, q2]
          exact ⟨_, rfl⟩
      unfold interpolate
      rw [ha, h1, h2, hi, hm]
      dsimp only
      change ∃ b', (if (C.binary (seen C co1 co2 b a s1 s2 ic mt) ic).1 = "initial_RLOF" then Except.ok (named P C (seen C co1 co2 b a s1 s2 ic mt) ic)
        else finish P C co1 co2 classes fv ic (named P C (seen C co1 co2 b a s1 s2 ic mt) ic)) = .ok b'
      by_cases hs : (C.binary (seen C co1 co2 b a s1 s2 ic mt) ic).1 = "initial_RLOF"
      · exact ⟨_, if_pos hs⟩
      · rw [if_neg hs]; exact hfin _

/-! ### A concrete binary -/

/-- Values which are terms, to see where a value comes from. -/
inductive Tm
  | none | nan3 | text (s : String) | old (s : String) | col (c : Col) | add (a b : Tm) | spin (a b c : Tm) | logR (a : Tm) | acc (a : Tm)
  deriving DecidableEq

def tmOps : Ops Tm := ⟨.none, .nan3, .text, .add, .spin, .logR⟩
def tmClassify (st : String) : Classify Tm := ⟨fun _ co => .text (if co then "BH" else "star"), fun _ _ => (st, "e", "c"), fun _ v => .acc v⟩
def tmStar : Star Tm := ⟨.old, fun _ => some [("state", .old "NS")]⟩
def tmBin : Bin Tm := ⟨.old, fun k => [.old k], tmStar, tmStar, none⟩
def tmClass (ic : String) (c : Col) : Option String := some (if c = .bin "interpolation_class" then ic else "x")

/-- A star and a black hole: what the first star, the black hole and the binary are given. -/
theorem C92_case : ∃ b', interpolate tmOps (tmClassify "detached") false true (tmClass "no_MT") (fun c => some (.col c)) tmBin = .ok b' ∧
    b'.attr "time" = .add (.old "time") (.col (.bin "age")) ∧ b'.attr "orbital_period" = .col (.bin "period_days") ∧
    b'.s1.attr "spin" = .col (.star false "spin_parameter") ∧ b'.s2.attr "spin" = .spin (.old "spin") (.old "mass") (.col (.mass true)) ∧
    b'.s2.attr "he_core_mass" = .old "he_core_mass" := by
  obtain ⟨b', hb⟩ := C92_total tmOps (tmClassify "detached") (co1 := false) (co2 := true) (classes := tmClass "no_MT") (fv := fun c => some (Tm.col c)) tmBin
    (by simp) (by simp [tmClass]) (by simp) (by simp [tmBin]) (by simp [tmBin])
  have hbv := (C92_binary_values hb).1
  refine ⟨b', hb, ?_, ?_, ?_, ?_, ?_⟩
  · exact (Option.some.inj (hbv "time" (by decide +kernel) (by decide) (by decide) (by decide))).symm
  · exact (Option.some.inj (hbv "orbital_period" (by decide +kernel) (by decide) (by decide) (by decide))).symm
  · exact (Option.some.inj ((C92_star_values hb (key := "spin") (by decide +kernel) (by decide)).1 rfl)).symm
  · exact (Option.some.inj ((C92_compact_values hb (key := "spin") (by decide +kernel) (by decide) (by decide)).2 rfl)).symm
  · exact (Option.some.inj ((C92_compact_values hb (key := "he_core_mass") (by decide +kernel) (by decide) (by decide)).2 rfl)).symm

/-- After unstable mass transfer a star keeps the supernova models it had before the step, although its core has changed. -/
theorem C92_unstable_violated : ∃ b', interpolate tmOps (tmClassify "RLO1") false false (tmClass "unstable_MT") (fun c => some (.col c)) tmBin = .ok b' ∧
    b'.s1.attr "co_core_mass" ≠ tmBin.s1.attr "co_core_mass" ∧ ∀ m, b'.s1.sn m = some [("state", .old "NS")] := by
  obtain ⟨b', hb⟩ := C92_total tmOps (tmClassify "RLO1") (co1 := false) (co2 := false) (classes := tmClass "unstable_MT") (fv := fun c => some (Tm.col c)) tmBin
    (by simp) (by simp [tmClass]) (by simp) (by simp [tmBin]) (by simp [tmBin])
  refine ⟨b', hb, ?_, fun m => ?_⟩
  · have := (Option.some.inj ((C92_star_values hb (key := "co_core_mass") (by decide +kernel) (by decide)).1 rfl)).symm
    rw [this]; exact Tm.noConfusion
  · rw [(C92_unstable hb rfl).1]; rfl

/-- A classification that is missing for a star that is not compact is an error of the key. -/
theorem C92_sn_missing (P : Ops V) (k : Bool) (m : String) (classes : Col → Option String) (fv : Col → Option V) :
    (classes (.sn k m "CO_type") = none → snModel P false k m classes fv = .error .key) ∧
    (∀ st, classes (.sn k m "CO_type") = some st → st ≠ "None" → classes (.sn k m "SN_type") = none → snModel P false k m classes fv = .error .key) := by
  constructor
  · intro h
    unfold snModel
    rw [h]
    rfl
  · intro st h hn hs
    unfold snModel
    rw [h, if_neg (by decide)]
    dsimp only
    rw [if_neg hn, hs]

end Verif.IFStep
