import Verif.Evolve
/-!
Property theorems for the evolution driver: C04 (termination), C06 (histories), C07 (restore).
-/
namespace Verif.Evolve
open Verif.Py

/-! ### A concrete setting used by the examples -/

/-- A fresh binary with one row of history. -/
def exStar : Star := ⟨fun _ => .none, fun _ => [.none]⟩
def exBinary (ev : Val) : Binary :=
  ⟨fun c => if c = "event" then ev else .none, fun c => [if c = "event" then ev else .none], exStar, exStar, false⟩

/-- Properties with one step that does nothing (`NullStep`), or ends the evolution when `fin`. -/
def exProps (fin : Bool) (m : Option Nat) : Props where
  flow := fun _ => some "step_x"
  undefined := fun _ => false
  step := fun _ => some fun b =>
    ({ b with attr := if fin then set b.attr "event" (.str "END") else b.attr }, none)
  preEvolve := fun b => (b, none)
  postEvolve := fun b => (b, none)
  preStep := fun _ b => (b, none)
  postStepHooks := fun _ b => (b, none)
  tooOld := fun _ => none
  endEvents := []
  endStates := []
  maxSteps := m

/-! ### C04 -/

theorem loop_spec (P : Props) (m : Nat) (hm : P.maxSteps = some m) (fuel n : Nat) (b : Binary)
    (hn : n ≤ m) (hf : m + 1 < fuel + n) :
    ∃ o, loop P fuel n b = some o ∧
      (∀ b' k, o = .finished b' k ↔ ∃ bs, Trace P b bs ∧ k = n + bs.length ∧ k ≤ m ∧ b' = lastOf b bs ∧
        terminal P b' = true) ∧
      (∀ b' k, o = .limit b' k ↔ ∃ bs, Trace P b bs ∧ k = n + bs.length ∧ k = m + 1 ∧ b' = lastOf b bs) ∧
      (∀ b' k e, o = .failed b' k e ↔ ∃ bs, Trace P b bs ∧ k = n + bs.length ∧ k ≤ m ∧
        terminal P (lastOf b bs) = false ∧ runStep P (lastOf b bs) = (b', some e)) := by
  induction fuel generalizing n b with
  | zero => omega
  | succ fuel ih =>
    rw [loop]
    have tnil : ∀ {bs}, terminal P b = true → Trace P b bs → bs = [] := by
      intro bs ht h
      cases h with
      | nil => rfl
      | cons h _ _ => rw [ht] at h; cases h
    by_cases ht : terminal P b = true
    · rw [if_pos ht]
      refine ⟨_, rfl, fun b' k => ⟨fun h => ?_, fun ⟨bs, h, hk, _, hb, _⟩ => ?_⟩, fun b' k => ⟨fun h => ?_,
        fun ⟨bs, h, hk, hk', hb⟩ => ?_⟩, fun b' k e => ⟨fun h => ?_, fun ⟨bs, h, hk, _, hb, _⟩ => ?_⟩⟩
      · cases h; exact ⟨[], .nil _, by simp, hn, rfl, ht⟩
      · have := tnil ht h; subst this; subst hb; simp at hk; subst hk; rfl
      · cases h
      · have := tnil ht h; subst this; simp at hk; omega
      · cases h
      · have := tnil ht h; subst this; simp only [lastOf] at hb; rw [ht] at hb; cases hb
    · rw [if_neg ht]
      have ht' : terminal P b = false := by simpa using ht
      rcases hr : runStep P b with ⟨b1, e1⟩
      cases e1 with
      | some e1 =>
        have tnil' : ∀ {bs}, Trace P b bs → bs = [] := by
          intro bs h
          cases h with
          | nil => rfl
          | cons _ h _ => rw [hr] at h; cases h
        refine ⟨_, rfl, fun b' k => ⟨fun h => ?_, fun ⟨bs, h, hk, _, hb, hb'⟩ => ?_⟩, fun b' k => ⟨fun h => ?_,
          fun ⟨bs, h, hk, hk', hb⟩ => ?_⟩, fun b' k e => ⟨fun h => ?_, fun ⟨bs, h, hk, _, _, hb⟩ => ?_⟩⟩
        · cases h
        · have := tnil' h; subst this; simp only [lastOf] at hb; subst hb; exact absurd hb' ht
        · cases h
        · have := tnil' h; subst this; simp at hk; omega
        · cases h; exact ⟨[], .nil _, by simp, hn, ht', hr⟩
        · have := tnil' h; subst this; simp only [lastOf] at hb; rw [hr] at hb; cases hb; simp at hk; subst hk; rfl
      | none =>
        have tcons : ∀ {bs}, Trace P b bs → bs = [] ∨ ∃ bs', bs = b1 :: bs' ∧ Trace P b1 bs' := by
          intro bs h
          cases h with
          | nil => exact .inl rfl
          | cons _ h h' => rw [hr] at h; cases h; exact .inr ⟨_, rfl, h'⟩
        have hlast : ∀ bs, lastOf b (b1 :: bs) = lastOf b1 bs := fun _ => rfl
        by_cases ho : over P.maxSteps (n + 1) = true
        · have hnm : n = m := by simp [over, hm] at ho; omega
          subst hnm
          simp only [ho, if_true]
          refine ⟨_, rfl, fun b' k => ⟨fun h => ?_, fun ⟨bs, h, hk, hk2, hb, hb'⟩ => ?_⟩, fun b' k => ⟨fun h => ?_,
            fun ⟨bs, h, hk, hk', hb⟩ => ?_⟩, fun b' k e => ⟨fun h => ?_, fun ⟨bs, h, hk, hk2, hb2, hb⟩ => ?_⟩⟩
          · cases h
          · rcases tcons h with rfl | ⟨bs', rfl, _⟩
            · simp only [lastOf] at hb; subst hb; exact absurd hb' ht
            · simp at hk; omega
          · cases h; exact ⟨[b1], .cons ht' hr (.nil _), by simp, rfl, by simp [lastOf]⟩
          · rcases tcons h with rfl | ⟨bs', rfl, _⟩
            · simp at hk; omega
            · have : bs' = [] := by
                have : bs'.length = 0 := by simp at hk; omega
                exact List.length_eq_zero_iff.1 this
              subst this; subst hk'; subst hb; simp [lastOf]
          · cases h
          · rcases tcons h with rfl | ⟨bs', rfl, _⟩
            · simp only [lastOf] at hb; rw [hr] at hb; cases hb
            · simp at hk; omega
        · have hnm : n + 1 ≤ m := by simp [over, hm] at ho; omega
          simp only [ho]
          obtain ⟨o, h1, h2, h3, h4⟩ := ih (n + 1) b1 hnm (by omega)
          refine ⟨o, h1, fun b' k => ?_, fun b' k => ?_, fun b' k e => ?_⟩
          · rw [h2]
            constructor
            · rintro ⟨bs, h, hk, hk2, hb, hb'⟩
              exact ⟨b1 :: bs, .cons ht' hr h, by simp; omega, hk2, by rw [hlast]; exact hb, hb'⟩
            · rintro ⟨bs, h, hk, hk2, hb, hb'⟩
              rcases tcons h with rfl | ⟨bs', rfl, h'⟩
              · simp only [lastOf] at hb; subst hb; exact absurd hb' ht
              · rw [hlast] at hb
                exact ⟨bs', h', by simp at hk; omega, hk2, hb, hb'⟩
          · rw [h3]
            constructor
            · rintro ⟨bs, h, hk, hk2, hb⟩
              exact ⟨b1 :: bs, .cons ht' hr h, by simp; omega, hk2, by rw [hlast]; exact hb⟩
            · rintro ⟨bs, h, hk, hk2, hb⟩
              rcases tcons h with rfl | ⟨bs', rfl, h'⟩
              · simp at hk; omega
              · rw [hlast] at hb
                exact ⟨bs', h', by simp at hk; omega, hk2, hb⟩
          · rw [h4]
            constructor
            · rintro ⟨bs, h, hk, hk2, hb, hb'⟩
              exact ⟨b1 :: bs, .cons ht' hr h, by simp; omega, hk2, by rw [hlast]; exact hb, by rw [hlast]; exact hb'⟩
            · rintro ⟨bs, h, hk, hk2, hb, hb'⟩
              rcases tcons h with rfl | ⟨bs', rfl, h'⟩
              · simp only [lastOf] at hb'; rw [hr] at hb'; cases hb'
              · rw [hlast] at hb hb'
                exact ⟨bs', h', by simp at hk; omega, hk2, hb, hb'⟩

/-- C04.  With a step limit `m`, `evolve` always comes to an end, whatever the steps and hooks do: `m + 2`
passes through the loop head decide the outcome and longer observation does not change it. -/
theorem C04_terminates (P : Props) (m : Nat) (hm : P.maxSteps = some m) (b : Binary) :
    ∃ r, ∀ extra, evolve P (m + 2 + extra) b = some r := by
  have huniq : ∀ b' extra, loop P (m + 2 + extra) 0 b' = loop P (m + 2) 0 b' := by
    intro b' extra
    obtain ⟨o, h, hf, hl, hx⟩ := loop_spec P m hm (m + 2) 0 b' (by omega) (by omega)
    obtain ⟨o', h', hf', hl', hx'⟩ := loop_spec P m hm (m + 2 + extra) 0 b' (by omega) (by omega)
    rw [h, h']
    cases o with
    | finished c n => rw [(hf' c n).2 ((hf c n).1 rfl)]
    | failed c n e => rw [(hx' c n e).2 ((hx c n e).1 rfl)]
    | limit c n => rw [(hl' c n).2 ((hl c n).1 rfl)]
  have hdef : ∃ r, evolve P (m + 2) b = some r := by
    unfold evolve
    rcases P.preEvolve b with ⟨b1, e | e⟩
    · dsimp only
      cases P.tooOld b1 with
      | some e => exact ⟨_, rfl⟩
      | none =>
        obtain ⟨o, h, -⟩ := loop_spec P m hm (m + 2) 0 b1 (by omega) (by omega)
        dsimp only
        rw [h]
        cases o with
        | finished c n =>
          dsimp only
          rcases P.postEvolve c with ⟨c', e | e⟩
          · exact ⟨_, rfl⟩
          · exact ⟨_, rfl⟩
        | failed c n e => exact ⟨_, rfl⟩
        | limit c n => exact ⟨_, rfl⟩
    · exact ⟨_, rfl⟩
  obtain ⟨r, hr⟩ := hdef
  refine ⟨r, fun extra => ?_⟩
  rw [← hr]
  unfold evolve
  simp only [huniq]

/-- C04.  Which of the outcomes of the loop occurs, in terms of the steps that were run: it returns normally
after `n ≤ m` error-free steps exactly when the binary is then finished for the first time; it raises the
step-limit error exactly when `m + 1` steps ran without error from unfinished binaries; it passes on a step's
exception otherwise. -/
theorem C04_outcome (P : Props) (m : Nat) (hm : P.maxSteps = some m) (b : Binary) :
    ∃ o, loop P (m + 2) 0 b = some o ∧
    (∀ b' n, o = .finished b' n ↔
      ∃ bs, Trace P b bs ∧ n = bs.length ∧ n ≤ m ∧ b' = lastOf b bs ∧ terminal P b' = true) ∧
    (∀ b' n, o = .limit b' n ↔ ∃ bs, Trace P b bs ∧ n = bs.length ∧ n = m + 1 ∧ b' = lastOf b bs) ∧
    (∀ b' n e, o = .failed b' n e ↔ ∃ bs, Trace P b bs ∧ n = bs.length ∧ n ≤ m ∧
      terminal P (lastOf b bs) = false ∧ runStep P (lastOf b bs) = (b', some e)) := by
  obtain ⟨o, h, h1, h2, h3⟩ := loop_spec P m hm (m + 2) 0 b (by omega) (by omega)
  simp only [Nat.zero_add] at h1 h2 h3
  exact ⟨o, h, h1, h2, h3⟩

/-- Specification of the end of an evolution: the events END and FAILED, one of the configured end events, or one of the end states. -/
def AtEnd (P : Props) (b : Binary) : Prop :=
  b.attr "event" = .str "END" ∨ b.attr "event" = .str "FAILED" ∨ b.attr "event" ∈ P.endEvents ∨ b.attr "state" ∈ P.endStates

theorem terminal_iff (P : Props) (b : Binary) : terminal P b = true ↔ AtEnd P b := by
  unfold terminal AtEnd; simp [or_assoc]

/-- C04.  The evolution stops at the first binary that has an end event or an end state, and only there: no step is run on such a binary, a
normal return leaves one, and a binary that starts there is returned at once. -/
theorem C04_stops_at_end (P : Props) (m : Nat) (hm : P.maxSteps = some m) (b : Binary) :
    ∃ o, loop P (m + 2) 0 b = some o ∧
    (∀ b' n, o = .finished b' n → AtEnd P b' ∧ ∃ bs, Trace P b bs ∧ n = bs.length ∧ b' = lastOf b bs) ∧
    (∀ bs c, Trace P b (bs ++ [c]) → ¬ AtEnd P (lastOf b bs)) ∧ (AtEnd P b → o = .finished b 0) := by
  obtain ⟨o, h, h1, -, -⟩ := C04_outcome P m hm b
  have hall : ∀ (bs : List Binary) (b c : Binary), Trace P b (bs ++ [c]) → ¬ AtEnd P (lastOf b bs) := by
    intro bs
    induction bs with
    | nil =>
      intro b c ht he
      cases ht with
      | cons hf _ _ => rw [(terminal_iff P b).2 he] at hf; exact absurd hf (by decide)
    | cons d ds ih =>
      intro b c ht
      cases ht with
      | cons hf hr ht => exact ih d c ht
  refine ⟨o, h, fun b' n ho => ?_, fun bs c ht => hall bs b c ht, fun he => ?_⟩
  · obtain ⟨bs, t, hn, -, hb, hterm⟩ := (h1 b' n).1 ho
    exact ⟨(terminal_iff P b').1 hterm, bs, t, hn, hb⟩
  · refine (h1 b 0).2 ⟨[], .nil b, rfl, Nat.zero_le _, rfl, (terminal_iff P b).2 he⟩

/-- C04.  At most `m + 1` steps are run, in every outcome. -/
theorem C04_step_bound (P : Props) (m : Nat) (hm : P.maxSteps = some m) (b : Binary) (r : Result)
    (h : evolve P (m + 2) b = some r) :
    match r with
    | .ok b' n => n ≤ m ∧ (∃ c, terminal P c = true ∧ P.postEvolve c = (b', none))
    | .stepError _ n _ => n ≤ m
    | .limitError _ n => n = m + 1
    | .postEvolveError _ n _ => n ≤ m
    | .preEvolveError _ _ => True
    | .bornTooLate _ _ => True := by
  unfold evolve at h
  rcases hp : P.preEvolve b with ⟨b1, e | e⟩ <;> rw [hp] at h <;> dsimp only at h
  · cases ho : P.tooOld b1 with
    | some e => rw [ho] at h; cases h; trivial
    | none =>
      rw [ho] at h
      obtain ⟨o, h0, h1, h2, h3⟩ := C04_outcome P m hm b1
      dsimp only at h
      rw [h0] at h
      cases o with
      | finished c n =>
        obtain ⟨bs, _, hl, hle, hb, ht⟩ := (h1 c n).1 rfl
        dsimp only at h
        rcases hq : P.postEvolve c with ⟨c', e | e⟩ <;> rw [hq] at h <;> cases h
        · exact ⟨hle, c, ht, hq⟩
        · exact hle
      | failed c n e => cases h; obtain ⟨bs, _, hl, hle, _⟩ := (h3 c n e).1 rfl; exact hle
      | limit c n => cases h; obtain ⟨bs, _, hl, hle, _⟩ := (h2 c n).1 rfl; exact hle
  · cases h; trivial

/-- C04.  Without a limit there are step sets on which `evolve` never ends (here: a step that does nothing),
so the limit is what guarantees termination. -/
theorem C04_limit_needed : ∀ fuel, evolve (exProps false none) fuel (exBinary .none) = none := by
  have key : ∀ fuel n b, b.attr "event" = .none → loop (exProps false none) fuel n b = none := by
    intro fuel
    induction fuel with
    | zero => intros; rfl
    | succ f ih =>
      intro n b hb
      have ht : terminal (exProps false none) b = false := by simp [terminal, hb, exProps]
      have hr : runStep (exProps false none) b = (b.append, none) := by
        simp [runStep, exProps, Res.andThen, postStep]
      rw [loop, if_neg (by simp [ht]), hr]
      simp only [over, exProps]
      apply ih
      unfold Binary.append
      split <;> exact hb
  intro fuel
  simp only [evolve, exProps]
  have := key fuel 0 (exBinary .none) rfl
  simp only [exProps] at this
  rw [this]

/-- A run that ends normally and one that hits the limit. -/
example : ∃ b, evolve (exProps true (some 5)) 7 (exBinary .none) = some (.ok b 1) := ⟨_, rfl⟩
example : ∃ b, evolve (exProps false (some 5)) 7 (exBinary .none) = some (.limitError b 6) := ⟨_, rfl⟩

/-! ### C06 -/

/-- Steps and hooks that do not touch the histories themselves; hooks do not change the recorded attributes
either (they only keep books in columns of their own). -/
structure Tame (P : Props) : Prop where
  step : ∀ name st b, P.step name = some st → (st b).1.hist = b.hist ∧ (st b).1.s1.hist = b.s1.hist ∧
    (st b).1.s2.hist = b.s2.hist ∧ (st b).1.verbose = b.verbose
  pre : ∀ name b, (P.preStep name b).1 = b
  post : ∀ name b, (P.postStepHooks name b).1 = b

/-- Is the binary recorded after a step that left it as `b`? -/
def recorded (b : Binary) : Bool := b.verbose || !isRedirect (b.attr "event")

theorem append_attr (b : Binary) : b.append.attr = b.attr ∧ b.append.s1.attr = b.s1.attr ∧
    b.append.s2.attr = b.s2.attr ∧ b.append.verbose = b.verbose := by
  unfold Binary.append; split <;> simp [Star.append]

theorem append_hist (b : Binary) (c : String) (hc : c ∈ binaryProperties) :
    b.append.hist c = b.hist c ++ (if recorded b then [b.attr c] else []) := by
  unfold Binary.append recorded
  cases b.verbose <;> cases isRedirect (b.attr "event") <;>
    simp [appendCols_mem _ _ binaryProperties_nodup _ _ hc]

theorem append_hist_stars (b : Binary) (c : String) (hc : c ∈ starProperties) :
    b.append.s1.hist c = b.s1.hist c ++ (if recorded b then [b.s1.attr c] else []) ∧
    b.append.s2.hist c = b.s2.hist c ++ (if recorded b then [b.s2.attr c] else []) := by
  unfold Binary.append recorded
  cases b.verbose <;> cases isRedirect (b.attr "event") <;>
    simp [Star.append, appendCols_mem _ _ starProperties_nodup _ _ hc]

theorem runStep_tame {P : Props} (hP : Tame P) {b b' : Binary} (h : runStep P b = (b', none)) :
    ∃ c : Binary, b' = c.append ∧ c.hist = b.hist ∧ c.s1.hist = b.s1.hist ∧ c.s2.hist = b.s2.hist ∧
      c.verbose = b.verbose := by
  unfold runStep at h
  split at h
  · cases h
  · split at h
    · cases h
    · split at h
      · cases h
      · rename_i name _ _ st hst
        have hpre := hP.pre name b
        rcases hp : P.preStep name b with ⟨b0, e0⟩
        rw [hp] at hpre h
        dsimp only at hpre; subst hpre
        cases e0 with
        | some e => simp [Res.andThen] at h
        | none =>
          simp only [Res.andThen] at h
          rcases hs : st b0 with ⟨b1, e1⟩
          rw [hs] at h
          have hst' := hP.step name st b0 hst
          rw [hs] at hst'
          cases e1 with
          | some e => simp at h
          | none =>
            refine ⟨b1, ?_, hst'⟩
            dsimp only at h
            unfold postStep at h
            split at h
            · exact (congrArg Prod.fst h).symm
            · have hpo := hP.post name b1.append
              rw [h] at hpo; exact hpo

/-- C06.  Along every run, each history column of the binary and of the stars is the old column followed by
one entry per recorded step, holding the value the attribute had after that step; without verbose histories
the steps whose event contains `redirect` are exactly the ones left out. -/
theorem C06_rows {P : Props} (hP : Tame P) (b : Binary) (bs : List Binary) (h : Trace P b bs) :
    (∀ c ∈ binaryProperties, (lastOf b bs).hist c = b.hist c ++ (bs.filter recorded).map (·.attr c)) ∧
    (∀ c ∈ starProperties, (lastOf b bs).s1.hist c = b.s1.hist c ++ (bs.filter recorded).map (·.s1.attr c)) ∧
    (∀ c ∈ starProperties, (lastOf b bs).s2.hist c = b.s2.hist c ++ (bs.filter recorded).map (·.s2.attr c)) ∧
    (lastOf b bs).verbose = b.verbose := by
  induction h with
  | nil b => simp [lastOf]
  | @cons b b' bs ht hr h ih =>
    obtain ⟨c0, rfl, h1, h2, h3, h4⟩ := runStep_tame hP hr
    have hlast : lastOf b (c0.append :: bs) = lastOf c0.append bs := rfl
    rw [hlast]
    obtain ⟨i1, i2, i3, i4⟩ := ih
    have ha := append_attr c0
    have hrec : recorded c0.append = recorded c0 := by unfold recorded; rw [ha.1, ha.2.2.2]
    refine ⟨fun c hc => ?_, fun c hc => ?_, fun c hc => ?_, ?_⟩
    · rw [i1 c hc, append_hist _ _ hc, h1, List.filter_cons, hrec]
      cases recorded c0 <;> simp [ha.1]
    · rw [i2 c hc, (append_hist_stars _ _ hc).1, h2, List.filter_cons, hrec]
      cases recorded c0 <;> simp [ha.2.1]
    · rw [i3 c hc, (append_hist_stars _ _ hc).2, h3, List.filter_cons, hrec]
      cases recorded c0 <;> simp [ha.2.2.1]
    · rw [i4, ha.2.2.2, h4]

/-- C06.  Consequently the columns stay aligned, with one more row per recorded step. -/
theorem C06_aligned {P : Props} (hP : Tame P) (b : Binary) (bs : List Binary) (h : Trace P b bs) (n : Nat)
    (hb : Aligned n b) : Aligned (n + (bs.filter recorded).length) (lastOf b bs) := by
  obtain ⟨h1, h2, h3, -⟩ := C06_rows hP b bs h
  refine ⟨fun c hc => ?_, fun c hc => ?_, fun c hc => ?_⟩
  · rw [h1 c hc, List.length_append, hb.1 c hc, List.length_map]
  · rw [h2 c hc, List.length_append, hb.2.1 c hc, List.length_map]
  · rw [h3 c hc, List.length_append, hb.2.2 c hc, List.length_map]

/-- A step or hook keeps columns aligned (it may add the same number of rows everywhere), also when it
raises. -/
def KeepsAligned (f : Binary → Res) : Prop := ∀ n b, Aligned n b → ∃ n', Aligned n' (f b).1

theorem append_aligned (n : Nat) (b : Binary) (h : Aligned n b) : ∃ n', Aligned n' b.append := by
  refine ⟨n + (if recorded b then 1 else 0), fun c hc => ?_, fun c hc => ?_, fun c hc => ?_⟩
  · rw [append_hist _ _ hc, List.length_append, h.1 c hc]; split <;> rfl
  · rw [(append_hist_stars _ _ hc).1, List.length_append, h.2.1 c hc]; split <;> rfl
  · rw [(append_hist_stars _ _ hc).2, List.length_append, h.2.2 c hc]; split <;> rfl

theorem andThen_aligned {f g : Binary → Res} (hf : KeepsAligned f) (hg : KeepsAligned g) :
    KeepsAligned fun b => (f b).andThen g := by
  intro n b h
  obtain ⟨n1, h1⟩ := hf n b h
  rcases hr : f b with ⟨b1, e⟩
  rw [hr] at h1
  dsimp only
  rw [hr]
  cases e with
  | some e => exact ⟨n1, h1⟩
  | none => exact hg n1 b1 h1

theorem runStep_aligned {P : Props} (hs : ∀ name st, P.step name = some st → KeepsAligned st)
    (hpre : ∀ name, KeepsAligned (P.preStep name)) (hpost : ∀ name, KeepsAligned (P.postStepHooks name)) :
    KeepsAligned (runStep P) := by
  intro n b hb
  unfold runStep
  split
  · exact ⟨n, hb⟩
  · split
    · exact ⟨n, hb⟩
    · split
      · exact ⟨n, hb⟩
      · rename_i name _ _ st hst
        refine andThen_aligned (andThen_aligned (hpre name) (hs name st hst)) ?_ n b hb
        intro n1 b1 h1
        obtain ⟨n2, h2⟩ := append_aligned n1 b1 h1
        unfold postStep
        dsimp only
        split
        · exact ⟨n2, h2⟩
        · exact hpost name n2 _ h2

/-- C06.  If every step and hook keeps the columns aligned (steps may write several rows of their own, and may
raise), then the binary is aligned however `evolve` ends: normally, at the limit, or with an exception. -/
theorem C06_aligned_always {P : Props} (hs : ∀ name st, P.step name = some st → KeepsAligned st)
    (hpre : ∀ name, KeepsAligned (P.preStep name)) (hpost : ∀ name, KeepsAligned (P.postStepHooks name))
    (hpe : KeepsAligned P.preEvolve) (hpoe : KeepsAligned P.postEvolve)
    (fuel n : Nat) (b : Binary) (hb : Aligned n b) (r : Result) (h : evolve P fuel b = some r) :
    ∃ n', Aligned n' (match r with
      | .ok b _ | .preEvolveError b _ | .bornTooLate b _ | .stepError b _ _ | .limitError b _
      | .postEvolveError b _ _ => b) := by
  have hrun := runStep_aligned hs hpre hpost
  have hloop : ∀ fuel k b n o, Aligned n b → loop P fuel k b = some o →
      ∃ n', Aligned n' (match o with | .finished b _ | .failed b _ _ | .limit b _ => b) := by
    intro fuel
    induction fuel with
    | zero => intro k b n o _ h; cases h
    | succ f ih =>
      intro k b n o hb h
      rw [loop] at h
      split at h
      · cases h; exact ⟨n, hb⟩
      · obtain ⟨n1, h1⟩ := hrun n b hb
        rcases hr : runStep P b with ⟨b1, e⟩
        rw [hr] at h1 h
        cases e with
        | some e => cases h; exact ⟨n1, h1⟩
        | none =>
          dsimp only at h
          split at h
          · cases h; exact ⟨n1, h1⟩
          · exact ih _ _ _ _ h1 h
  unfold evolve at h
  obtain ⟨n1, h1⟩ := hpe n b hb
  rcases hp : P.preEvolve b with ⟨b1, e | e⟩ <;> rw [hp] at h h1 <;> dsimp only at h
  · cases ho : P.tooOld b1 with
    | some e => rw [ho] at h; cases h; exact ⟨n1, h1⟩
    | none =>
      rw [ho] at h
      dsimp only at h
      cases hl : loop P fuel 0 b1 with
      | none => rw [hl] at h; cases h
      | some o =>
        rw [hl] at h
        obtain ⟨n2, h2⟩ := hloop fuel 0 b1 n1 o h1 hl
        cases o with
        | finished c k =>
          obtain ⟨n3, h3⟩ := hpoe n2 c h2
          dsimp only at h
          rcases hq : P.postEvolve c with ⟨c', e | e⟩ <;> rw [hq] at h h3 <;> cases h <;> exact ⟨n3, h3⟩
        | failed c k e => cases h; exact ⟨n2, h2⟩
        | limit c k => cases h; exact ⟨n2, h2⟩
  · cases h; exact ⟨n1, h1⟩

/-- The example properties are tame, the example binary is aligned, and one step gives a second row. -/
example (m) : Tame (exProps true m) :=
  ⟨fun _ _ _ h => by cases h; exact ⟨rfl, rfl, rfl, rfl⟩, fun _ _ => rfl, fun _ _ => rfl⟩
example : Aligned 1 (exBinary .none) := ⟨fun _ _ => rfl, fun _ _ => rfl, fun _ _ => rfl⟩
example : (runStep (exProps true none) (exBinary .none)).1.hist "event" = [.none, .str "END"] := rfl
/-- A redirected step is not recorded. -/
example : (Binary.append (exBinary (.str "redirect_from_ZAMS"))).hist "event" = [.str "redirect_from_ZAMS"] := by
  decide +kernel

/-! ### C07 -/

/-- The binary is as it was at row `i`: values from row `i`, histories are rows `0..i`. -/
def IsAtRow (i : Nat) (old new : Binary) : Prop :=
  (∀ c ∈ binaryProperties, (old.hist c)[i]? = some (new.attr c) ∧ new.hist c = (old.hist c).take (i + 1)) ∧
  (∀ c ∈ starProperties, (old.s1.hist c)[i]? = some (new.s1.attr c) ∧ new.s1.hist c = (old.s1.hist c).take (i + 1)) ∧
  (∀ c ∈ starProperties, (old.s2.hist c)[i]? = some (new.s2.attr c) ∧ new.s2.hist c = (old.s2.hist c).take (i + 1))

theorem hookCols_other (cols : List String) (i : Int) (h : String → List Val) (c : String) (hc : c ∉ cols) :
    cols.foldl (fun h c => set h c (sliceTo (h c) (i + 1))) h c = h c := by
  induction cols generalizing h with
  | nil => rfl
  | cons d ds ih =>
    simp only [List.mem_cons, not_or] at hc
    rw [List.foldl_cons, ih _ hc.2, set_other _ _ _ _ hc.1]

theorem restore_spec (cols : List String) (hcols : ∀ c ∈ cols, c ∉ binaryProperties)
    (i : Int) (r : Nat) (b : Binary) (n : Nat) (hb : Aligned n b) (hr : r < n)
    (hidx : ∀ l : List Val, l.length = n → index l i = l[r]?) :
    ∃ new, b.restore cols i = (new, none) ∧
      (∀ c ∈ binaryProperties, (b.hist c)[r]? = some (new.attr c) ∧ new.hist c = sliceTo (b.hist c) (i + 1)) ∧
      (∀ c ∈ starProperties, (b.s1.hist c)[r]? = some (new.s1.attr c) ∧ new.s1.hist c = sliceTo (b.s1.hist c) (i + 1)) ∧
      (∀ c ∈ starProperties, (b.s2.hist c)[r]? = some (new.s2.attr c) ∧ new.s2.hist c = sliceTo (b.s2.hist c) (i + 1)) ∧
      (∀ c, c ∉ binaryProperties → new.attr c = b.attr c) := by
  have get : ∀ l : List Val, l.length = n → ∃ v, index l i = some v ∧ l[r]? = some v := by
    intro l hl
    have : r < l.length := by omega
    exact ⟨l[r], by rw [hidx l hl]; simp [this], by simp [this]⟩
  have val : ∀ (h : String → List Val) (cs : List String), (∀ c ∈ cs, (h c).length = n) →
      ∃ v : String → Val, ∀ c ∈ cs, index (h c) i = some (v c) ∧ (h c)[r]? = some (v c) := by
    intro h cs hcs
    refine ⟨fun c => ((h c)[r]?).getD .none, fun c hc => ?_⟩
    obtain ⟨v, h1, h2⟩ := get (h c) (hcs c hc)
    simp [h1, h2]
  obtain ⟨vb, hvb⟩ := val b.hist _ hb.1
  obtain ⟨v1, hv1⟩ := val b.s1.hist _ hb.2.1
  obtain ⟨v2, hv2⟩ := val b.s2.hist _ hb.2.2
  have rb := restoreCols_ok i _ binaryProperties_nodup b.attr b.hist vb fun c hc => (hvb c hc).1
  have r1 := restoreCols_ok i _ starProperties_nodup b.s1.attr b.s1.hist v1 fun c hc => (hv1 c hc).1
  have r2 := restoreCols_ok i _ starProperties_nodup b.s2.attr b.s2.hist v2 fun c hc => (hv2 c hc).1
  unfold Binary.restore Star.restore
  rcases eb : restoreCols i binaryProperties (b.attr, b.hist) with ⟨⟨ab, hb'⟩, xb⟩
  rcases e1 : restoreCols i starProperties (b.s1.attr, b.s1.hist) with ⟨⟨a1, h1⟩, x1⟩
  rcases e2 : restoreCols i starProperties (b.s2.attr, b.s2.hist) with ⟨⟨a2, h2⟩, x2⟩
  have other := fun c => restoreCols_notMem i binaryProperties b.attr b.hist c
  rw [eb] at rb other; rw [e1] at r1; rw [e2] at r2
  obtain ⟨xb0, rb⟩ := rb
  obtain ⟨x10, r1⟩ := r1
  obtain ⟨x20, r2⟩ := r2
  dsimp only at xb0 x10 x20 rb r1 r2
  subst xb0; subst x10; subst x20
  refine ⟨_, rfl, fun c hc => ?_, fun c hc => ?_, fun c hc => ?_, fun c hc => (other c hc).1⟩
  · dsimp only
    rw [hookCols_other cols i hb' c (fun hm => hcols c hm hc), (rb c hc).1]
    exact ⟨(hvb c hc).2, (rb c hc).2⟩
  · dsimp only
    rw [(r1 c hc).1]; exact ⟨(hv1 c hc).2, (r1 c hc).2⟩
  · dsimp only
    rw [(r2 c hc).1]; exact ⟨(hv2 c hc).2, (r2 c hc).2⟩

/-- C07.  Restoring at a row counted from the start brings the binary back to that row. -/
theorem C07_restore_row (cols : List String) (hcols : ∀ c ∈ cols, c ∉ binaryProperties) (b : Binary) (n i : Nat)
    (hb : Aligned n b) (hi : i < n) :
    ∃ new, b.restore cols i = (new, none) ∧ IsAtRow i b new ∧ Aligned (i + 1) new := by
  obtain ⟨new, h, h1, h2, h3, -⟩ := restore_spec cols hcols i i b n hb hi (fun l _ => index_nonneg l i)
  have e : ∀ l : List Val, sliceTo l ((i : Int) + 1) = l.take (i + 1) := fun l => sliceTo_nonneg l (i + 1)
  refine ⟨new, h, ⟨fun c hc => ?_, fun c hc => ?_, fun c hc => ?_⟩, fun c hc => ?_, fun c hc => ?_, fun c hc => ?_⟩
  · rw [← e]; exact h1 c hc
  · rw [← e]; exact h2 c hc
  · rw [← e]; exact h3 c hc
  · rw [(h1 c hc).2, e, List.length_take, hb.1 c hc]; omega
  · rw [(h2 c hc).2, e, List.length_take, hb.2.1 c hc]; omega
  · rw [(h3 c hc).2, e, List.length_take, hb.2.2 c hc]; omega

/-- C07.  Restoring at a row counted from the end works from the last but one row on.  The last row is missing
(see `C07_restore_last_violated`). -/
theorem C07_restore_negative_partial (cols : List String) (hcols : ∀ c ∈ cols, c ∉ binaryProperties) (b : Binary)
    (n k : Nat) (hb : Aligned n b) (hk : 2 ≤ k) (hkn : k ≤ n) :
    ∃ new, b.restore cols (-(k : Int)) = (new, none) ∧ IsAtRow (n - k) b new ∧ Aligned (n - k + 1) new := by
  obtain ⟨new, h, h1, h2, h3, -⟩ := restore_spec cols hcols (-(k : Int)) (n - k) b n hb (by omega)
    (fun l hl => by rw [index_neg l k (by omega) (by omega), hl])
  have e : ∀ l : List Val, l.length = n → sliceTo l (-(k : Int) + 1) = l.take (n - k + 1) := by
    intro l hl
    have := sliceTo_neg l (k - 1) (by omega) (by omega)
    rw [show (-(k : Int) + 1) = -((k - 1 : Nat) : Int) by omega, this]
    congr 1; omega
  refine ⟨new, h, ⟨fun c hc => ?_, fun c hc => ?_, fun c hc => ?_⟩, fun c hc => ?_, fun c hc => ?_, fun c hc => ?_⟩
  · rw [← e _ (hb.1 c hc)]; exact h1 c hc
  · rw [← e _ (hb.2.1 c hc)]; exact h2 c hc
  · rw [← e _ (hb.2.2 c hc)]; exact h3 c hc
  · rw [(h1 c hc).2, e _ (hb.1 c hc), List.length_take, hb.1 c hc]; omega
  · rw [(h2 c hc).2, e _ (hb.2.1 c hc), List.length_take, hb.2.1 c hc]; omega
  · rw [(h3 c hc).2, e _ (hb.2.2 c hc), List.length_take, hb.2.2 c hc]; omega

/-- C07 is false for the index of the last row: the values are right but every history is emptied. -/
theorem C07_restore_last_violated (cols : List String) (hcols : ∀ c ∈ cols, c ∉ binaryProperties) (b : Binary)
    (n : Nat) (hb : Aligned n b) (hn : 0 < n) :
    ∃ new, b.restore cols (-1) = (new, none) ∧
      (∀ c ∈ binaryProperties, (b.hist c)[n - 1]? = some (new.attr c)) ∧ Aligned 0 new ∧ ¬ IsAtRow (n - 1) b new := by
  obtain ⟨new, h, h1, h2, h3, -⟩ := restore_spec cols hcols (-1) (n - 1) b n hb (by omega)
    (fun l hl => by rw [show (-1 : Int) = -((1 : Nat) : Int) from rfl, index_neg l 1 (by omega) (by omega), hl])
  have e : ∀ l : List Val, sliceTo l (-1 + 1) = [] := by intro l; simp [sliceTo]
  refine ⟨new, h, fun c hc => (h1 c hc).1, ⟨fun c hc => ?_, fun c hc => ?_, fun c hc => ?_⟩, fun hrow => ?_⟩
  · rw [(h1 c hc).2, e]; rfl
  · rw [(h2 c hc).2, e]; rfl
  · rw [(h3 c hc).2, e]; rfl
  · have hm : "state" ∈ binaryProperties := by decide +kernel
    have := (hrow.1 "state" hm).2
    rw [(h1 _ hm).2, e] at this
    have hlen := congrArg List.length this
    rw [List.length_take, hb.1 _ hm] at hlen
    simp at hlen; omega

/-- C07.  An invalid row raises `IndexError` and leaves the binary as it was. -/
theorem C07_restore_invalid (cols : List String) (b : Binary) (n : Nat) (i : Int) (hb : Aligned n b)
    (hi : (n : Int) ≤ i ∨ i < -(n : Int)) : b.restore cols i = (b, some .index) := by
  have hm : "state" ∈ binaryProperties := by decide +kernel
  have hidx : index (b.hist "state") i = none := by
    have hl := hb.1 _ hm
    unfold index
    rcases hi with hi | hi
    · rw [if_pos (by omega)]; apply List.getElem?_eq_none; omega
    · rw [if_neg (by omega), if_neg (by omega)]
  unfold Binary.restore
  have : restoreCols i binaryProperties (b.attr, b.hist) = ((b.attr, b.hist), some .index) := by
    rw [binaryProperties]; exact restoreCols_fail i _ _ _ _ hidx
  rw [this]

/-- C07.  Attributes that have no history (supernova bookkeeping, interpolation classes, …) keep their current
value: a restored binary is not in general the binary of row `i` in those attributes. -/
theorem C07_restore_untracked_kept (cols : List String) (hcols : ∀ c ∈ cols, c ∉ binaryProperties) (b : Binary)
    (n i : Nat) (hb : Aligned n b) (hi : i < n) (c : String) (hc : c ∉ binaryProperties) :
    (b.restore cols i).1.attr c = b.attr c ∧ (b.restore cols i).2 = none := by
  obtain ⟨new, h, -, -, -, h4⟩ := restore_spec cols hcols i i b n hb hi (fun l _ => index_nonneg l i)
  rw [h]; exact ⟨h4 c hc, rfl⟩

/-- C07.  Restoring undoes any number of steps: after a run of steps that themselves leave histories alone,
restoring to the last row before the run gives back the recorded attributes and histories. -/
theorem C07_restore_undoes_run {P : Props} (hP : Tame P) (cols : List String)
    (hcols : ∀ c ∈ cols, c ∉ binaryProperties) (b : Binary) (bs : List Binary) (h : Trace P b bs) (n : Nat)
    (hb : Aligned (n + 1) b) (hcur : ∀ c ∈ binaryProperties, (b.hist c)[n]? = some (b.attr c)) :
    ∃ new, (lastOf b bs).restore cols n = (new, none) ∧
      (∀ c ∈ binaryProperties, new.attr c = b.attr c ∧ new.hist c = b.hist c) ∧
      (∀ c ∈ starProperties, new.s1.hist c = b.s1.hist c ∧ new.s2.hist c = b.s2.hist c) := by
  obtain ⟨r1, r2, r3, -⟩ := C06_rows hP b bs h
  obtain ⟨new, hn, ⟨a1, a2, a3⟩, -⟩ := C07_restore_row cols hcols _ _ n (C06_aligned hP b bs h _ hb) (by omega)
  refine ⟨new, hn, fun c hc => ?_, fun c hc => ?_⟩
  · have hl := hb.1 c hc
    have := a1 c hc
    rw [r1 c hc, List.getElem?_append_left (by omega), hcur c hc] at this
    refine ⟨(Option.some.inj this.1).symm, ?_⟩
    rw [this.2, List.take_append_of_le_length (by omega), List.take_of_length_le (by omega)]
  · have hl1 := hb.2.1 c hc
    have hl2 := hb.2.2 c hc
    have t1 := (a2 c hc).2
    have t2 := (a3 c hc).2
    rw [r2 c hc, List.take_append_of_le_length (by omega), List.take_of_length_le (by omega)] at t1
    rw [r3 c hc, List.take_append_of_le_length (by omega), List.take_of_length_le (by omega)] at t2
    exact ⟨t1, t2⟩

/-- The hypotheses are met by the fresh example binary followed by one step. -/
example : ∃ bs, Trace (exProps true none) (exBinary .none) bs ∧ bs.length = 1 ∧
    ∀ c ∈ binaryProperties, ((exBinary .none).hist c)[0]? = some ((exBinary .none).attr c) :=
  ⟨[_], .cons rfl rfl (.nil _), rfl, fun _ _ => rfl⟩

/-- C06: a step is left out of the history only if its event names a redirection and nothing was asked for in detail. -/
theorem C06_left_out (b : Binary) : recorded b = false ↔ b.verbose = false ∧ ∃ e, b.attr "event" = .str e ∧ strIn "redirect" e = true := by
  unfold recorded isRedirect
  cases b.verbose <;> cases b.attr "event" <;> simp

end Verif.Evolve
