import Verif.Charts
/-!
Properties of evolutions with other flow charts than the default one (C136).
-/
namespace Verif.Charts

open Verif.FlowChart
open Verif.Life

/-! ### Any chart -/

theorem step_ranks {c : Chart} (hr : Rests c) {kick : Bool} {st : Step} {k k' : Key} (hc : c k = some st) (h : Take kick st k k') :
    rank k'.s1 ≤ rank k.s1 ∧ rank k'.s2 ≤ rank k.s2 := by
  have le : rank k'.s1 = rank k.s1 ∧ rank k'.s2 = rank k.s2 → rank k'.s1 ≤ rank k.s1 ∧ rank k'.s2 ≤ rank k.s2 := fun h => ⟨h.1.le, h.2.le⟩
  have grid : (∃ g D, Mesa.stepOf g st = some D ∧ Grid D k k') → rank k'.s1 ≤ rank k.s1 ∧ rank k'.s2 ≤ rank k.s2 := by
    rintro ⟨g, D, -, h⟩
    exact le (grid_ranks h)
  cases st
  case detached => exact le (detach_ranks h)
  case disrupted => exact le (detach_ranks h.2)
  case initiallySingle => exact le (detach_ranks h.2)
  case CE => exact le (envelope_ranks h)
  case merged =>
    obtain ⟨h1, h2, -⟩ := merger_facts h (by
      cases hd : isDead k.s1 k.s2 with
      | false => rfl
      | true => exact absurd hc (hr k hd))
    exact ⟨h1, h2⟩
  case SN =>
    rcases sn_facts h with ⟨-, h1, h2, h3, -⟩ | ⟨-, h1, h2, h3, -⟩
    · exact ⟨by rw [rank_normal.2 h1]; omega, h3.le⟩
    · exact ⟨h3.le, by rw [rank_normal.2 h1]; omega⟩
  case dco =>
    obtain ⟨i, l, tau, r, o, -, rfl⟩ := h
    exact ⟨le_refl _, le_refl _⟩
  case endStep => exact h.elim
  all_goals exact grid h

/-- C136.  Whatever the chart: what is left of a star never grows back. -/
theorem C136_ranks {c : Chart} (hr : Rests c) {kick : Bool} {k k' : Key} {l : List Step} (h : Route c kick k l k') :
    rank k'.s1 ≤ rank k.s1 ∧ rank k'.s2 ≤ rank k.s2 := by
  induction h with
  | nil k => exact ⟨le_refl _, le_refl _⟩
  | cons hc ht _ ih =>
    obtain ⟨h1, h2⟩ := step_ranks hr hc ht
    exact ⟨ih.1.trans h1, ih.2.trans h2⟩

/-- C136.  Whatever the chart: every collapse uses up a star, so there are at most two. -/
theorem C136_collapses {c : Chart} (hr : Rests c) {kick : Bool} {k k' : Key} {l : List Step} (h : Route c kick k l k') :
    normals k' + l.count .SN ≤ normals k ∧ l.count .SN ≤ 2 := by
  have key : normals k' + l.count .SN ≤ normals k := by
    induction h with
    | nil k => simp
    | @cons k m k' st l hc ht _ ih =>
      by_cases hs : st = .SN
      · subst hs
        have := sn_normals ht
        rw [List.count_cons_self]
        omega
      · rw [List.count_cons_of_ne (by exact hs)]
        obtain ⟨h1, h2⟩ := step_ranks hr hc ht
        exact ih.trans (normals_le h1 h2)
  have h2 : normals k ≤ 2 := by
    unfold normals
    split_ifs <;> omega
  exact ⟨key, by omega⟩

/-- C136.  Whatever the chart: at most one merger, and none if a star is gone from the start. -/
theorem C136_mergers {c : Chart} (hr : Rests c) {kick : Bool} {k k' : Key} {l : List Step} (h : Route c kick k l k') :
    l.count .merged ≤ 1 ∧ (present k ≤ 1 → l.count .merged = 0) := by
  induction h with
  | nil k => simp
  | @cons k m k' st l hc ht _ ih =>
    by_cases hs : st = .merged
    · subst hs
      obtain ⟨-, -, h3, h4, -⟩ := merger_facts ht (by
        cases hd : isDead k.s1 k.s2 with
        | false => rfl
        | true => exact absurd hc (hr k hd))
      rw [List.count_cons_self, ih.2 h4]
      exact ⟨le_refl _, fun h => by omega⟩
    · rw [List.count_cons_of_ne (by exact hs)]
      obtain ⟨h1, h2⟩ := step_ranks hr hc ht
      exact ⟨ih.1, fun h => ih.2 ((present_le h1 h2).trans h)⟩

theorem default_rests : Rests defaultChart := by
  intro k hd h
  rw [dead_end hd] at h
  cases h

/-- C136.  Charts of a user: changes that merge nothing with nothing keep these facts. -/
theorem C136_change_rests (base change : Option Chart) (hb : ∀ c, base = some c → Rests c) (hc : ∀ c, change = some c → Rests c) :
    Rests (flowChart base change) := by
  have hbase : Rests (base.getD defaultChart) := by
    cases base with
    | none => exact default_rests
    | some c => exact hb c rfl
  intro k hd h
  unfold flowChart at h
  cases change with
  | none => exact hbase k hd h
  | some ch =>
    dsimp only at h
    cases h1 : ch k with
    | none =>
      rw [h1] at h
      exact hbase k hd (by simpa using h)
    | some s1 =>
      cases h2 : base.getD defaultChart k with
      | none => rw [h1, h2] at h; cases h
      | some s2 =>
        rw [h1, h2] at h
        exact hc ch rfl k hd (h1.trans h)

/-- C136.  The default chart is the case of `Verif.Life`. -/
theorem C136_default {kick : Bool} {k k' : Key} {l : List Step} : Route defaultChart kick k l k' ↔ Path kick k l k' := by
  constructor
  · intro h
    induction h with
    | nil k => exact .nil k
    | cons hc ht _ ih => exact .cons hc ht ih
  · intro h
    induction h with
    | nil k => exact .nil k
    | cons hc ht _ ih => exact .cons hc ht ih

/-! ### The example of a chart of one's own -/

theorem overflow_name (b : BState) : Frame.isIn (chars! "RLO") (stateChars b) = true ↔ Overflow b := by
  cases b <;> decide

theorem normal_list (s : Star) : starNormal.contains s = isNormal s := by cases s <;> decide

/-- C136.  The chart of the example, entry by entry: overflow goes to the end where the chart had an entry or overflow begins between two
stars, the birth of a binary to the detached step, and nothing else changes. -/
theorem C136_entries (base change : Option Chart) (k : Key) :
    modified base change k =
      if Begins k then some .endStep
      else if Overflow k.b then (if flowChart base change k = none then none else some .endStep)
      else if k.e = .ZAMS ∧ k.b = .detached then (if flowChart base change k = none then none else some .detached)
      else flowChart base change k := by
  have hw : ∀ b e, (wr starNormal starNormal b e .endStep).writes k = true ↔ k.e = e ∧ k.b = b ∧ isNormal k.s1 = true ∧ isNormal k.s2 = true := by
    intro b e
    simp only [wr, Loop.writes, normal_list, Bool.and_eq_true, List.contains_iff_mem, List.mem_singleton]
    tauto
  have he : ∀ v, edit k v = if Overflow k.b then .endStep else if k.e = .ZAMS ∧ k.b = .detached then .detached else v := by
    intro v
    unfold edit
    dsimp only
    by_cases ho : Overflow k.b
    · rw [if_pos ho, if_pos ((overflow_name _).2 ho)]
    · rw [if_neg ho, if_neg fun h => ho ((overflow_name _).1 h)]
      by_cases hz : k.e = .ZAMS ∧ k.b = .detached
      · rw [if_pos hz, if_pos (by rw [hz.1, hz.2]; decide)]
      · rw [if_neg hz, if_neg]
        intro h
        simp only [Bool.and_eq_true, beq_iff_eq, List.contains_iff_mem, List.mem_singleton] at h
        exact hz h
  unfold modified runLoops
  simp only [List.foldl]
  by_cases hb : Begins k
  · rw [if_pos hb]
    obtain ⟨n1, n2, ⟨b1, e1⟩ | ⟨b2, e2⟩⟩ := hb
    · by_cases h2 : (wr starNormal starNormal .RLO2 .oRLO2 .endStep).writes k = true
      · rw [if_pos h2]; rfl
      · rw [if_neg h2, if_neg h2, if_pos ((hw _ _).2 ⟨e1, b1, n1, n2⟩)]; rfl
    · rw [if_pos ((hw _ _).2 ⟨e2, b2, n1, n2⟩)]; rfl
  · have h1 : ¬ (wr starNormal starNormal .RLO1 .oRLO1 .endStep).writes k = true := by
      intro h
      obtain ⟨e, b, n1, n2⟩ := (hw _ _).1 h
      exact hb ⟨n1, n2, .inl ⟨b, e⟩⟩
    have h2 : ¬ (wr starNormal starNormal .RLO2 .oRLO2 .endStep).writes k = true := by
      intro h
      obtain ⟨e, b, n1, n2⟩ := (hw _ _).1 h
      exact hb ⟨n1, n2, .inr ⟨b, e⟩⟩
    rw [if_neg h2, if_neg h2, if_neg h1, if_neg h1, if_neg hb]
    cases hf : flowChart base change k with
    | none => simp
    | some v =>
      rw [Option.map_some, he]
      by_cases ho : Overflow k.b
      · rw [if_pos ho, if_pos ho, if_neg (by simp)]
      · rw [if_neg ho, if_neg ho]
        by_cases hz : k.e = .ZAMS ∧ k.b = .detached
        · rw [if_pos hz, if_pos hz, if_neg (by simp)]
        · rw [if_neg hz, if_neg hz]

/-- The key as Python sees it. -/
def rawKey (n1 n2 : List Char) (b : BState) (e : Option (List Char)) : List (Option (List Char)) := [some n1, some n2, some (stateChars b), e]

/-- C136.  The two tests on keys of any length: no entry with a state is lost, shorter keys are left alone, and a key without a state is an error. -/
theorem C136_raw (v : Step) : (∀ (n1 n2 : List Char) (k : Key) (e : Option (List Char)), (e = some zamsChars ↔ k.e = .ZAMS) →
      editRaw (rawKey n1 n2 k.b e) v = some (edit k v)) ∧ (∀ key, key.length ≤ 2 → editRaw key v = some v) ∧
    (∀ a b rest, editRaw (a :: b :: none :: rest) v = none) := by
  refine ⟨fun n1 n2 k e he => ?_, fun key hk => ?_, fun a b rest => ?_⟩
  · unfold editRaw rawKey edit
    dsimp only
    have hd : (some (stateChars k.b) = some (stateChars .detached)) ↔ k.b = .detached := by
      cases k.b <;> decide
    have hc : (e = some zamsChars ∧ some (stateChars k.b) = some (stateChars .detached)) ↔ (k.e == .ZAMS && [BState.detached].contains k.b) = true := by
      rw [he, hd, Bool.and_eq_true, beq_iff_eq, List.contains_iff_mem, List.mem_singleton]
    by_cases h : e = some zamsChars ∧ some (stateChars k.b) = some (stateChars .detached)
    · rw [if_pos h, if_pos (hc.1 h)]
    · rw [if_neg h, if_neg fun h' => h (hc.2 h')]
  · match key, hk with
    | [], _ => rfl
    | [_], _ => rfl
    | [_, _], _ => rfl
  · cases rest <;> rfl

/-- C136.  The names of the states, and that no two states share one. -/
theorem C136_names : [BState.single, .detached, .RLO1, .RLO2, .contact, .disrupted, .merged, .initialRLOF].map (fun b => String.ofList (stateChars b)) =
      ["initially_single_star", "detached", "RLO1", "RLO2", "contact", "disrupted", "merged", "initial_RLOF"] ∧
    ∀ a b : BState, stateChars a = stateChars b → a = b := by
  refine ⟨by decide +kernel, fun a b => ?_⟩
  cases a <;> cases b <;> decide

/-- C136.  Keys with names of any kind: overflow in the name of the state goes to the end, whatever follows; the detached state at birth goes to the
detached step; all else stays. -/
theorem C136_raw_names (a b : Option (List Char)) (s : List Char) (rest : List (Option (List Char))) (v : Step) :
    (Frame.isIn (chars! "RLO") s = true → editRaw (a :: b :: some s :: rest) v = some .endStep) ∧
    (s = (chars! "detached") → rest.head? = some (some (chars! "ZAMS")) → editRaw (a :: b :: some s :: rest) v = some .detached) ∧
    (Frame.isIn (chars! "RLO") s = false → (s ≠ (chars! "detached") ∨ rest.head? ≠ some (some (chars! "ZAMS"))) →
      editRaw (a :: b :: some s :: rest) v = some v) := by
  refine ⟨fun h => ?_, fun h h' => ?_, fun h h' => ?_⟩
  · cases rest with
    | nil => simp [editRaw, h]
    | cons e rest => simp [editRaw, h]
  · cases rest with
    | nil => simp at h'
    | cons e rest =>
      simp only [List.head?_cons, Option.some.injEq] at h'
      subst h h'
      rfl
  · cases rest with
    | nil => simp [editRaw, h]
    | cons e rest =>
      have hn : ¬(e = some zamsChars ∧ some s = some (stateChars .detached)) := by
        rintro ⟨h1, h2⟩
        rcases h' with h' | h'
        · exact h' (Option.some.inj h2)
        · exact h' (by rw [List.head?_cons, h1]; rfl)
      unfold editRaw
      dsimp only
      rw [if_neg hn, h]
      rfl

theorem flow_none (k : Key) : flowChart none none k = defaultChart k := rfl

/-- C136.  The charts of this package merge nothing with nothing, so the facts above hold for evolutions with them. -/
theorem C136_rests : Rests defaultChart ∧ Rests (modified none none) ∧ Rests (initialEccentricityFlowChart none none) := by
  refine ⟨default_rests, fun k hd h => ?_, fun k hd h => ?_⟩
  · rw [C136_entries, flow_none, dead_end hd] at h
    split_ifs at h <;> simp_all
  · rcases C03_eccentric_chart none none k with e | ⟨-, -, -, e⟩ | ⟨-, -, e, -⟩
    · rw [e, flow_none, dead_end hd] at h
      cases h
    · rw [e] at h; cases h
    · rw [e] at h; cases h

/-- C136.  What has nothing left to evolve is at the end in the default chart, but not in the other two: they look at the event of birth only. -/
theorem C136_dead_violated : defaultChart ⟨.BH, .massless, .detached, .ZAMS⟩ = some .endStep ∧
    modified none none ⟨.BH, .massless, .detached, .ZAMS⟩ = some .detached ∧
    initialEccentricityFlowChart none none ⟨.BH, .massless, .detached, .ZAMS⟩ = some .detached := by
  have h : defaultChart ⟨.BH, .massless, .detached, .ZAMS⟩ = some .endStep := dead_end (by decide)
  refine ⟨h, ?_, (C03_eccentric_edits none none).1 _ _ ?_⟩
  · rw [C136_entries, flow_none, h, if_neg (by decide), if_neg (by decide), if_pos (by decide), if_neg (by decide)]
  · rw [flow_none, h]; decide

/-- C136.  With the chart of the example the grids of two stars and of mass transfer are never used, a common envelope only follows on contact,
and only the products of mergers merge. -/
theorem C136_never {k : Key} {st : Step} (h : modified none none k = some st) :
    st ≠ .HMS_HMS ∧ st ≠ .HMS_HMS_RLO ∧ st ≠ .CO_HMS_RLO ∧ st ≠ .CO_HeMS_RLO ∧ (st = .CE → k.b = .contact) ∧ (st = .merged → k.b = .merged) := by
  rw [C136_entries, flow_none] at h
  have kept : ∀ {s}, defaultChart k = some s → ¬ Overflow k.b → ¬ (k.e = .ZAMS ∧ k.b = .detached) →
      s ≠ .HMS_HMS ∧ s ≠ .HMS_HMS_RLO ∧ s ≠ .CO_HMS_RLO ∧ s ≠ .CO_HeMS_RLO ∧ (s = .CE → k.b = .contact) ∧ (s = .merged → k.b = .merged) := by
    intro s hs ho hz
    have hn := C01_step_receives_what_it_needs k s hs
    have n1 : k.b ≠ .RLO1 := fun e => ho (.inl e)
    have n2 : k.b ≠ .RLO2 := fun e => ho (.inr (.inl e))
    have c1 : (k.b == .RLO1) = false := by simpa using n1
    have c2 : (k.b == .RLO2) = false := by simpa using n2
    refine ⟨?_, ?_, ?_, ?_, ?_, ?_⟩ <;> (try rintro rfl) <;> (try intro hx) <;> (try subst hx) <;>
      simp only [stepNeeds, c1, c2, Bool.false_and, Bool.false_or, Bool.or_false, Bool.and_false, Bool.false_eq_true, Bool.and_eq_true, beq_iff_eq] at hn <;> tauto
  by_cases hb : Begins k
  · rw [if_pos hb] at h
    obtain rfl := Option.some.inj h
    simp
  · rw [if_neg hb] at h
    by_cases ho : Overflow k.b
    · rw [if_pos ho] at h
      split_ifs at h
      obtain rfl := Option.some.inj h
      simp
    · rw [if_neg ho] at h
      by_cases hz : k.e = .ZAMS ∧ k.b = .detached
      · rw [if_pos hz] at h
        split_ifs at h
        obtain rfl := Option.some.inj h
        simp
      · rw [if_neg hz] at h
        exact kept h ho hz

/-- C136.  With the chart of the example no binary is evolved beyond the beginning of overflow. -/
theorem C136_stops (base change : Option Chart) {kick : Bool} {k k' : Key} {l : List Step} (h : Route (modified base change) kick k l k') (ho : Overflow k.b) :
    l = [] ∧ k' = k := by
  cases h with
  | nil => exact ⟨rfl, rfl⟩
  | @cons _ m _ st l hc ht hp =>
    rw [C136_entries] at hc
    have : st = .endStep := by
      split_ifs at hc <;> exact (Option.some.inj hc).symm
    subst this
    exact ht.elim

/-- C136.  Overflow between two stars that begins goes to the end with any base; with a compact companion it does if the chart had an entry. -/
theorem C136_end_partial (base change : Option Chart) (k : Key) (ho : Overflow k.b) (h : Begins k ∨ flowChart base change k ≠ none) :
    modified base change k = some .endStep := by
  rw [C136_entries]
  by_cases hb : Begins k
  · rw [if_pos hb]
  · rw [if_neg hb, if_pos ho, if_neg (h.resolve_left hb)]

/-- C136.  Not all overflow goes to the end: next to a compact object a star at the end of its life that begins to overflow has no entry, nor has
overflow that goes on at the end of a track. -/
theorem C136_end_violated : modified none none ⟨.hCoreCDep, .BH, .RLO1, .oRLO1⟩ = none ∧ modified none none ⟨.hCoreH, .hCoreH, .RLO1, .none⟩ = none := by
  have h1 : defaultChart ⟨.hCoreCDep, .BH, .RLO1, .oRLO1⟩ = none := by rw [defaultChart_eq_routeSpec]; rfl
  have h2 : defaultChart ⟨.hCoreH, .hCoreH, .RLO1, .none⟩ = none := by rw [defaultChart_eq_routeSpec]; rfl
  constructor
  · rw [C136_entries, flow_none, h1, if_neg (by decide), if_pos (by decide), if_pos rfl]
  · rw [C136_entries, flow_none, h2, if_neg (by decide), if_pos (by decide), if_pos rfl]

/-- C136.  The new entries of the example do not help unless a step for overflow between two stars is loaded, which its chart never uses: without it
overflow between two hydrogen-rich stars that still evolve is an error of the detached step. -/
theorem C136_entry_unused_violated (i : DetachedEvent.In) (hr : i.hasRLOStep = false) (hs : i.startRLO = false) (h1 : isHRich i.s1 = true) (h2 : isHRich i.s2 = true)
    (c1 : isCDepleted i.s1 = false) (c2 : isCDepleted i.s2 = false) (hp : i.priCO = false) (hrlo : i.rloSec = true ∨ i.rloPri = true) :
    ∀ o, DetachedEvent.call i ≠ .ok o := by
  intro o h
  have m : ∀ s : Star, isHRich s = true → isCDepleted s = false → starHRichEv.contains s = true := by
    intro s
    cases s <;> decide
  have hor : (i.rloSec || i.rloPri) = true := by
    rcases hrlo with h | h <;> rw [h] <;> simp
  unfold DetachedEvent.call at h
  rw [hs, if_neg (by decide)] at h
  split at h
  · cases h
  · split at h
    · cases h
    · unfold DetachedEvent.finish at h
      rw [hp, Bool.false_and, if_neg (by decide), if_pos hor] at h
      unfold DetachedEvent.afterRLO at h
      split at h
      · cases h
      · split at h
        · cases h
        · rw [hr, m _ h1 c1, m _ h2 c2, if_pos (by decide)] at h
          cases h

/-- A step with the chart of the example is one with the default chart, or the first step of a binary from the main sequence. -/
theorem modified_step {k : Key} {st : Step} (h : modified none none k = some st) (hs : st ≠ .endStep) :
    defaultChart k = some st ∨ (k.e = .ZAMS ∧ k.b = .detached ∧ st = .detached ∧ defaultChart k ≠ none) := by
  rw [C136_entries, flow_none] at h
  split_ifs at h with h1 h2 h3 h4 h5
  · exact absurd (Option.some.inj h).symm hs
  · exact absurd (Option.some.inj h).symm hs
  · exact .inr ⟨h4.1, h4.2, (Option.some.inj h).symm, h5⟩
  · exact .inl h

/-- The detached step of two stars at birth. -/
theorem birth_result {k k' : Key} (hk : k.b = .detached) (hn : isNormal k.s1 = true ∧ isNormal k.s2 = true) (h : Detach false k k') :
    Sound k' ∧ Usual k'.b k'.e ∧ (k'.b = .detached → k'.s1 ≠ .massless ∧ k'.s2 ≠ .massless) ∧ ¬ Alone k'.b := by
  obtain ⟨hr, n1, n2, n3⟩ := detach_result h hk (.inl hn.1)
  obtain ⟨r1, r2⟩ := detach_ranks h
  have hp : k'.s1 ≠ .massless ∧ k'.s2 ≠ .massless := by
    constructor
    · intro e
      rw [e, rank_normal.2 hn.1] at r1
      cases r1
    · intro e
      rw [e, rank_normal.2 hn.2] at r2
      cases r2
  refine ⟨sound_pair hp ⟨n1, fun e => absurd e n2⟩, hr, fun _ => hp, ?_⟩
  rintro (e | e | e)
  · exact n1 e
  · exact n2 e
  · exact n3 e

/-- No binary is at birth after a step. -/
theorem not_birth {k : Key} (hu : Usual k.b k.e) : ¬ (k.e = .ZAMS ∧ k.b = .detached) := by
  rintro ⟨h1, h2⟩
  rw [h1, h2] at hu
  rcases hu with h | h | h | h | h | h | h <;> revert h <;> decide

/-- A sound binary at birth that the default chart knows is one of two stars on the main sequence. -/
theorem birth_stars {k : Key} (hs : Sound k) (he : k.e = .ZAMS) (hb : k.b = .detached) (hc : defaultChart k ≠ none) : k.s1 = .hCoreH ∧ k.s2 = .hCoreH := by
  rw [defaultChart_eq_routeSpec] at hc
  unfold routeSpec at hc
  by_cases hd : isDead k.s1 k.s2 = true
  · exfalso
    have hm : k.s1 = .massless ∨ k.s2 = .massless := by
      revert hd
      generalize k.s1 = a
      generalize k.s2 = b
      cases a <;> cases b <;> decide
    rcases hs.gone hm with e | e | e <;> rw [hb] at e <;> cases e
  · rw [if_neg hd, he, hb] at hc
    dsimp only at hc
    by_cases h : (k.s1 == .hCoreH && k.s2 == .hCoreH) = true
    · simpa using h
    · rw [if_neg h] at hc
      exact absurd rfl hc

/-- After a step of the default chart a sound binary is not at birth. -/
theorem result_not_birth {st : Step} {k k' : Key} (hc : defaultChart k = some st) (h : Take true st k k') (hs : Sound k) :
    ¬ (k'.e = .ZAMS ∧ k'.b = .detached ∧ defaultChart k' ≠ none) := by
  obtain ⟨hsm, hr⟩ := result hc h hs
  rintro ⟨e1, e2, e3⟩
  obtain ⟨s1, s2⟩ := birth_stars hsm e1 e2 e3
  have hk : k' = ⟨.hCoreH, .hCoreH, .detached, .ZAMS⟩ := by
    rw [← s1, ← e1, ← e2]
    cases k'
    simp_all
  rcases hr with hr | hr | ⟨hu, -⟩
  · rw [hk, defaultChart_eq_routeSpec] at hr
    revert hr
    decide
  · rw [hk, defaultChart_eq_routeSpec] at hr
    revert hr
    decide
  · exact not_birth hu ⟨e1, e2⟩

theorem later_default {k k' : Key} {l : List Step} (h : Route (modified none none) true k l k') (hs : Sound k)
    (hz : ¬ (k.e = .ZAMS ∧ k.b = .detached ∧ defaultChart k ≠ none)) : Path true k l k' := by
  induction h with
  | nil k => exact .nil k
  | @cons k m k' st l hc ht hp ih =>
    have hne : st ≠ .endStep := by
      rintro rfl
      exact ht
    rcases modified_step hc hne with hd | ⟨e1, e2, -, e3⟩
    · exact .cons hd ht (ih (result hd ht hs).1 (result_not_birth hd ht hs))
    · exact absurd ⟨e1, e2, e3⟩ hz

/-- C136.  An evolution with the chart of the example is one with the default chart, except that a binary born on the main sequence begins with the
detached step. -/
theorem C136_example {k k' : Key} {l : List Step} (h : Route (modified none none) true k l k') (hs : Sound k) :
    Path true k l k' ∨
      (k = ⟨.hCoreH, .hCoreH, .detached, .ZAMS⟩ ∧ ∃ (m : Key) (l' : List Step), l = .detached :: l' ∧ Detach false k m ∧ Path true m l' k') := by
  by_cases hz : k.e = .ZAMS ∧ k.b = .detached ∧ defaultChart k ≠ none
  · obtain ⟨e1, e2, e3⟩ := hz
    obtain ⟨s1, s2⟩ := birth_stars hs e1 e2 e3
    have hk : k = ⟨.hCoreH, .hCoreH, .detached, .ZAMS⟩ := by
      cases k
      simp_all
    cases h with
    | nil => exact .inl (.nil k)
    | @cons _ m _ st l hc ht hp =>
      have : st = .detached := by
        rw [C136_entries, if_neg (by rw [hk]; decide), if_neg (by rw [hk]; decide), if_pos ⟨e1, e2⟩, flow_none, if_neg e3] at hc
        exact (Option.some.inj hc).symm
      subst this
      obtain ⟨hsm, hu, -, -⟩ := birth_result e2 (by rw [s1, s2]; decide) ht
      exact .inr ⟨hk, m, l, rfl, ht, later_default hp hsm fun hh => not_birth hu ⟨hh.1, hh.2.1⟩⟩
  · exact .inl (later_default h hs hz)

/-- C136.  No evolution with the chart of the example uses a grid of two stars or of mass transfer. -/
theorem C136_steps {kick : Bool} {k k' : Key} {l : List Step} (h : Route (modified none none) kick k l k') :
    ∀ st ∈ l, st ≠ .HMS_HMS ∧ st ≠ .HMS_HMS_RLO ∧ st ≠ .CO_HMS_RLO ∧ st ≠ .CO_HeMS_RLO := by
  induction h with
  | nil k => exact fun st h => nomatch h
  | cons hc _ _ ih =>
    intro s hs
    rcases List.mem_cons.1 hs with rfl | hs
    · obtain ⟨h1, h2, h3, h4, -⟩ := C136_never hc
      exact ⟨h1, h2, h3, h4⟩
    · exact ih s hs

/-! ### Binaries that are born eccentric -/

theorem eccentric_step {k : Key} {st : Step} (h : initialEccentricityFlowChart none none k = some st) :
    defaultChart k = some st ∨ (k.e = .ZAMS ∧ k.b = .detached ∧ st = .detached ∧ defaultChart k ≠ none) ∨ (st = .HMS_HMS_RLO ∧ Begins k) := by
  rcases C03_eccentric_chart none none k with e | ⟨e1, e2, e3, e⟩ | ⟨n1, n2, e, hb⟩
  · exact .inl (e.symm.trans h)
  · rw [e] at h
    exact .inr (.inl ⟨e2, e1, (Option.some.inj h).symm, e3⟩)
  · rw [e] at h
    exact .inr (.inr ⟨(Option.some.inj h).symm, n1, n2, hb⟩)

/-- A hand-over is one to a collapse. -/
structure Collapses (o : Mesa.Out) : Prop where
  of : ∀ nb ne, o = .next nb ne → nb = none ∧ (ne = .CC1 ∨ ne = .CC2)

theorem Collapses.ite {p : Prop} [Decidable p] {a b : Mesa.Out} (ha : Collapses a) (hb : Collapses b) : Collapses (if p then a else b) := by
  split
  · exact ha
  · exact hb

/-- The dispatch of overflow between two stars hands on to a collapse only. -/
theorem rlo_next {g : Mesa.Box} {v : Mesa.View} {nb : Option BState} {ne : Ev} (h : Mesa.hmsRlo g v = .next nb ne) : nb = none ∧ (ne = .CC1 ∨ ne = .CC2) := by
  have c1 : Collapses (.next none .CC1) := ⟨fun nb ne h => by cases h; simp⟩
  have c2 : Collapses (.next none .CC2) := ⟨fun nb ne h => by cases h; simp⟩
  have r : ∀ f, Collapses (.run f) := fun f => ⟨fun nb ne h => by cases h⟩
  have ge : Collapses .gridError := ⟨fun nb ne h => by cases h⟩
  have fe : Collapses .flowError := ⟨fun nb ne h => by cases h⟩
  have un : ∀ b n, Collapses (.unknown b n) := fun b n => ⟨fun nb ne h => by cases h⟩
  have key : Collapses (Mesa.hmsRlo g v) := by
    unfold Mesa.hmsRlo
    exact .ite (.ite c1 (.ite (r _) (.ite ge (.ite ge (.ite ge (.ite ge (.ite ge (.ite ge (un _ _)))))))))
      (.ite (.ite c2 (.ite (r _) (.ite ge (.ite ge (.ite ge (.ite ge (.ite ge (.ite ge (un _ _))))))))) fe)
  exact key.of nb ne h

/-- The result of a step of the eccentric chart. -/
theorem eccentric_result {st : Step} {k k' : Key} (hc : initialEccentricityFlowChart none none k = some st) (h : Take true st k k') (hs : Sound k) :
    Sound k' ∧ (defaultChart k' = some .detached ∨ defaultChart k' = some .endStep ∨
      (Usual k'.b k'.e ∧ (k'.b = .detached → k'.s1 ≠ .massless ∧ k'.s2 ≠ .massless))) := by
  rcases eccentric_step hc with hd | ⟨e1, e2, rfl, e3⟩ | ⟨rfl, n1, n2, hb⟩
  · exact result hd h hs
  · obtain ⟨s1, s2⟩ := birth_stars hs e1 e2 e3
    obtain ⟨q1, q2, q3, -⟩ := birth_result e2 (by rw [s1, s2]; decide) h
    exact ⟨q1, .inr (.inr ⟨q2, q3⟩)⟩
  · obtain ⟨g, D, hD, hg⟩ := h
    obtain rfl := (Option.some.inj hD).symm
    obtain ⟨r1, r2⟩ := grid_ranks hg
    have hp : k'.s1 ≠ .massless ∧ k'.s2 ≠ .massless := by
      constructor
      · intro e
        rw [e, rank_normal.2 n1] at r1
        cases r1
      · intro e
        rw [e, rank_normal.2 n2] at r2
        cases r2
    have key : Usual k'.b k'.e ∧ k'.b ≠ .single ∧ k'.b ≠ .merged := by
      obtain ⟨v, h1, h2, h3, ⟨nb, ne, ho, rfl⟩ | ⟨flip, -, ht⟩⟩ := hg
      · obtain ⟨rfl, he⟩ := rlo_next ho
        refine ⟨?_, ?_⟩
        · rcases he with rfl | rfl
          · exact .inl rfl
          · exact .inr (.inl rfl)
        · dsimp only [Option.getD]
          rcases hb with ⟨hb, -⟩ | ⟨hb, -⟩ <;> rw [hb] <;> decide
      · rcases ht with rfl | ⟨cls, x, m, -, -, -, -, hb, he, hk⟩
        · exact ⟨.inr (.inr (.inr (.inr (.inr (.inl rfl))))), by dsimp only; decide⟩
        · obtain ⟨hu, hn⟩ := track_usual hb he
          have ht : Usual (turn flip m).b (turn flip m).e ∧ (turn flip m).b ≠ .single ∧ (turn flip m).b ≠ .merged := by
            cases flip
            · exact ⟨hu, hn.1, hn.2.1⟩
            · exact ⟨usual_mirror hu, (mirror_b _ hn).1, (mirror_b _ hn).2.1⟩
          rcases hk with rfl | rfl | rfl
          · exact ht
          · exact ⟨.inr (.inr (.inl rfl)), ht.2⟩
          · exact ⟨.inr (.inr (.inr (.inl rfl))), ht.2⟩
    exact ⟨sound_pair hp ⟨key.2.1, fun e => absurd e key.2.2⟩, .inr (.inr ⟨key.1, fun _ => hp⟩)⟩

theorem eccentric_sound {k k' : Key} {l : List Step} (h : Route (initialEccentricityFlowChart none none) true k l k') (hs : Sound k) : Sound k' := by
  induction h with
  | nil k => exact hs
  | cons hc ht _ ih => exact ih (eccentric_result hc ht hs).1

/-- C136.  Born eccentric: an evolution has no next step for one of the reasons of the default chart only, and none of these is overflow
that begins between two stars before the end of their lives. -/
theorem C136_eccentric_next {k m k' : Key} {l : List Step} {st : Step} (h : Route (initialEccentricityFlowChart none none) true k l m) (hs : Sound k)
    (hc : initialEccentricityFlowChart none none m = some st) (ht : Take true st m k') (hn : initialEccentricityFlowChart none none k' = none) :
    Stuck k' ∧ (Begins k' → isCDepleted k'.s1 = true ∨ isCDepleted k'.s2 = true) := by
  have hd : defaultChart k' = none := by
    rcases C03_eccentric_chart none none k' with e | ⟨-, -, -, e⟩ | ⟨-, -, e, -⟩
    · exact e.symm.trans hn
    · rw [e] at hn; cases hn
    · rw [e] at hn; cases hn
  constructor
  · obtain ⟨-, hr | hr | ⟨hu, hp⟩⟩ := eccentric_result hc ht (eccentric_sound h hs)
    · rw [hr] at hd; cases hd
    · rw [hr] at hd; cases hd
    · exact usual_none hu hp (by rw [← defaultChart_eq_routeSpec]; exact hd)
  · rintro ⟨n1, n2, hb⟩
    by_contra hx
    have c1 : isCDepleted k'.s1 = false := by
      cases h : isCDepleted k'.s1 with
      | false => rfl
      | true => exact absurd (.inl h) hx
    have c2 : isCDepleted k'.s2 = false := by
      cases h : isCDepleted k'.s2 with
      | false => rfl
      | true => exact absurd (.inr h) hx
    obtain ⟨q1, q2⟩ := (C03_eccentric_edits none none).2 k'.s1 k'.s2 n1 n2 c1 c2
    rcases hb with ⟨b, e⟩ | ⟨b, e⟩
    · rw [← b, ← e] at q1
      exact absurd (q1.symm.trans hn) (by simp)
    · rw [← b, ← e] at q2
      exact absurd (q2.symm.trans hn) (by simp)

/-- C136.  Born eccentric: the grid of two stars from birth is never used. -/
theorem C136_eccentric_steps {k k' : Key} {l : List Step} (h : Route (initialEccentricityFlowChart none none) true k l k') : ∀ st ∈ l, st ≠ .HMS_HMS := by
  induction h with
  | nil k => exact fun st h => nomatch h
  | @cons k m k' st l hc _ _ ih =>
    intro s hs
    rcases List.mem_cons.1 hs with rfl | hs
    · rintro rfl
      rcases eccentric_step hc with hd | ⟨-, -, e, -⟩ | ⟨e, -⟩
      · have hn := C01_step_receives_what_it_needs k _ hd
        simp only [stepNeeds, Bool.and_eq_true, beq_iff_eq] at hn
        obtain ⟨⟨⟨-, hb⟩, he⟩, -⟩ := hn
        have hk : k = ⟨k.s1, k.s2, .detached, .ZAMS⟩ := by rw [← hb, ← he]
        have := (C03_eccentric_edits none none).1 k.s1 k.s2 (by rw [← hk, flow_none, hd]; simp)
        rw [← hk] at this
        exact absurd (this.symm.trans hc) (by simp)
      · cases e
      · cases e
    · exact ih s hs

/-! ### Concrete cases -/

theorem exBirth : modified none none ⟨.hCoreH, .hCoreH, .detached, .ZAMS⟩ = some .detached := by
  have hd : defaultChart ⟨.hCoreH, .hCoreH, .detached, .ZAMS⟩ = some .HMS_HMS := by rw [defaultChart_eq_routeSpec]; rfl
  rw [C136_entries, flow_none, hd, if_neg (by decide), if_neg (by decide), if_pos (by decide), if_neg (by decide)]

/-- With the chart of the example two stars live apart until the first one is to collapse. -/
theorem exRoute : Route (modified none none) true ⟨.hCoreH, .hCoreH, .detached, .ZAMS⟩ [.detached] ⟨.hCoreCDep, .hCoreHe, .detached, .CC1⟩ := by
  refine .cons exBirth ?_ (.nil _)
  exact ⟨⟨.hCoreCDep, .hCoreHe, .detached, .ZAMS, true, false, false, false, true, false, false, false, true, false, 1, 1, 0, 0, 1, 1, 1, 1, true, false, false,
        false⟩, _, rfl, rfl, rfl, rfl, rfl, rfl, (fun h => nomatch h), rfl⟩

example : modified none none ⟨.hCoreH, .hShellH, .RLO2, .oRLO2⟩ = some .endStep :=
  C136_end_partial none none _ (by decide) (.inl (by decide))

example : editRaw [some (chars! "A"), some (chars! "B"), some (chars! "RLO1"), none] .CO_HMS_RLO = some .endStep := by decide

example : Sound ⟨.hCoreH, .hCoreH, .detached, .ZAMS⟩ := sound_pair ⟨by decide, by decide⟩ ⟨by decide, by decide⟩

end Verif.Charts
