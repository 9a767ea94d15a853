import Verif.Matchers
/-!
C98: the track matchers shared by the steps of a simulation.
-/
namespace Verif.Matchers

section
variable {S : Type} [DecidableEq S]

theorem empty_inv (f : Files) : Inv f (State.empty : State S) :=
  ⟨List.nodup_nil, fun _ _ h => by (cases h), fun _ _ h => by (cases h), fun _ _ _ h => by (cases h)⟩

theorem runLoads_inv (f : Files) : ∀ (ls : List (Load S)) (s : State S), Inv f s → Inv f (runLoads f s ls)
  | [], _, h => h
  | l :: ls, s, h => by
    rw [runLoads]
    refine runLoads_inv f ls _ ?_
    exact (checkMatcher_spec f s h _ l.name l.dict (metallicity_fits l.met l.dict) _ _ rfl).1

/-- After any number of loads of any steps at any metallicities, whether they fail or not, a matcher holds the two grids of its own
metallicity, and they are those kept for that metallicity; its attributes are its settings. -/
theorem C98_grids (f : Files) (ls : List (Load S)) (z : ℚ) (n : S) (m : Matcher)
    (h : ((z, n), m) ∈ (runLoads f State.empty ls).matchers) :
    m.attr = m.kw ∧ m.kw .met = .num z ∧ ∃ g g', m.kw .gridH = .grid g ∧ m.kw .gridHe = .grid g' ∧ g.he = false ∧ g'.he = true ∧
      g.met = z ∧ g'.met = z ∧ (runLoads f State.empty ls).gridH z = some g ∧ (runLoads f State.empty ls).gridHe z = some g' := by
  have hi := runLoads_inv f ls State.empty (empty_inv f)
  obtain ⟨_, o2, o3, g, g', o4, o5, o6, o7⟩ := hi.own z n m h
  exact ⟨o2, o3, g, g', o6, o7, (hi.gridH z g o4).1, (hi.gridHe z g' o5).1, (hi.gridH z g o4).2.1, (hi.gridHe z g' o5).2.1, o4, o5⟩

/-- Steps at the same metallicity share the grids: they are opened once. -/
theorem C98_shared (f : Files) (ls : List (Load S)) (z : ℚ) (n n' : S) (m m' : Matcher)
    (h : ((z, n), m) ∈ (runLoads f State.empty ls).matchers) (h' : ((z, n'), m') ∈ (runLoads f State.empty ls).matchers) :
    m.kw .gridH = m'.kw .gridH ∧ m.kw .gridHe = m'.kw .gridHe := by
  obtain ⟨_, _, g, g', a1, a2, _, _, _, _, a3, a4⟩ := C98_grids f ls z n m h
  obtain ⟨_, _, k, k', b1, b2, _, _, _, _, b3, b4⟩ := C98_grids f ls z n' m' h'
  rw [a1, a2, b1, b2, Option.some.inj (a3.symm.trans b3), Option.some.inj (a4.symm.trans b4)]
  exact ⟨rfl, rfl⟩

theorem one_step (f : Files) (s : State S) (hi : Inv f s) (ho : One s) (l : Load S) : One (checkStep f s l.met l.name l.dict).1 := by
  obtain ⟨_, ⟨m, _, _, _, hm, _⟩ | ⟨e, _, _, hm, _⟩⟩ :=
    checkMatcher_spec f s hi _ l.name l.dict (metallicity_fits l.met l.dict) _ _ rfl
  · intro z z' n m1 m2 h1 h2
    rcases (hm z n m1).1 h1 with ⟨a, b⟩ | a <;> rcases (hm z' n m2).1 h2 with ⟨c, d⟩ | c
    · exact ho z z' n m1 m2 a c
    · exact absurd (congrArg (fun e => e.1.2) c) b
    · exact absurd (congrArg (fun e => e.1.2) a) d
    · have a' := congrArg (fun e => e.1.1) a
      have c' := congrArg (fun e => e.1.1) c
      dsimp only at a' c'
      rw [a', c']
  · intro z z' n m1 m2 h1 h2
    have hm' : (checkStep f s l.met l.name l.dict).1.matchers = s.matchers := hm
    rw [hm'] at h1 h2
    exact ho z z' n m1 m2 h1 h2

/-- A step never has two matchers, at however many metallicities it was loaded. -/
theorem C98_one (f : Files) (ls : List (Load S)) : One (runLoads f (State.empty : State S) ls) := by
  have key : ∀ (ls : List (Load S)) (s : State S), Inv f s → One s → One (runLoads f s ls) := by
    intro ls
    induction ls with
    | nil => intro s _ h; exact h
    | cons l ls ih =>
      intro s hi ho
      exact ih _ (checkMatcher_spec f s hi _ l.name l.dict (metallicity_fits l.met l.dict) _ _ rfl).1 (one_step f s hi ho l)
  exact key ls _ (empty_inv f) fun _ _ _ _ _ h => by (cases h)

theorem tight_step (f : Files) (hf : ∀ z, f.openH z = true → f.openHe z = true) (s : State S) (hi : Inv f s) (ht : Tight s) (l : Load S) :
    Tight (checkStep f s l.met l.name l.dict).1 := by
  obtain ⟨_, ⟨m, _, _, _, _, _, _, _, _, h⟩ | ⟨e, _, _, hm, ⟨h, _⟩ | ⟨h, _⟩ | ⟨h1, h2, h3⟩⟩⟩ :=
    checkMatcher_spec f s hi _ l.name l.dict (metallicity_fits l.met l.dict) _ _ rfl
  · exact h ht
  · have h' : (checkStep f s l.met l.name l.dict).1 = s := h
    rw [h']; exact ht
  · have h' : (checkStep f s l.met l.name l.dict).1 = s := h
    rw [h']; exact ht
  · exfalso
    cases hg : s.gridH (metallicity l.met l.dict) with
    | none => rw [hf _ (h3 hg)] at h2; cases h2
    | some g =>
      obtain ⟨n, m, hm⟩ := ht _ (.inl (by rw [hg]; rfl))
      obtain ⟨_, _, _, _, _, _, o, _⟩ := hi.own _ n m hm
      rw [h1] at o
      cases o

/-- If a metallicity with a readable grid of hydrogen-rich stars also has a readable one of stripped stars, only grids in use are
kept. -/
theorem C98_tight_partial (f : Files) (hf : ∀ z, f.openH z = true → f.openHe z = true) (ls : List (Load S)) :
    Tight (runLoads f (State.empty : State S) ls) := by
  have key : ∀ (ls : List (Load S)) (s : State S), Inv f s → Tight s → Tight (runLoads f s ls) := by
    intro ls
    induction ls with
    | nil => intro s _ h; exact h
    | cons l ls ih =>
      intro s hi ho
      exact ih _ (checkMatcher_spec f s hi _ l.name l.dict (metallicity_fits l.met l.dict) _ _ rfl).1 (tight_step f hf s hi ho l)
  exact key ls _ (empty_inv f) fun z h => by
    rcases h with h | h <;> cases h

/-- A load succeeds if the metallicity is supported and both files can be read; no other exception can arise, whatever was loaded
before. If the step has a matcher at this metallicity already, it always succeeds. -/
theorem C98_loads (f : Files) (ls : List (Load S)) (l : Load S)
    (h : (f.valid (metallicity l.met l.dict) = true ∧ f.openH (metallicity l.met l.dict) = true ∧ f.openHe (metallicity l.met l.dict) = true) ∨
      ∃ m, ((metallicity l.met l.dict, l.name), m) ∈ (runLoads f State.empty ls).matchers) :
    ∃ m, (checkStep f (runLoads f State.empty ls) l.met l.name l.dict).2.2 = .ok m ∧
      ((metallicity l.met l.dict, l.name), m) ∈ (checkStep f (runLoads f State.empty ls) l.met l.name l.dict).1.matchers := by
  have hi := runLoads_inv f ls State.empty (empty_inv f)
  obtain ⟨_, ⟨m, h1, h2, _⟩ | ⟨e, _, h1, _, h2⟩⟩ :=
    checkMatcher_spec f _ hi _ l.name l.dict (metallicity_fits l.met l.dict) _ _ rfl
  · exact ⟨m, h1, h2⟩
  · exfalso
    rcases h with ⟨a, b, c⟩ | ⟨m, hm⟩
    · rcases h2 with ⟨_, h2⟩ | ⟨_, _, h2⟩ | ⟨_, h2, _⟩
      · rw [a] at h2; cases h2
      · rw [b] at h2; cases h2
      · rw [c] at h2; cases h2
    · exact get_none h1 _ hm rfl

/-- A failed load leaves all matchers as they were. -/
theorem C98_failed (f : Files) (ls : List (Load S)) (l : Load S) (e : Err)
    (h : (checkStep f (runLoads f State.empty ls) l.met l.name l.dict).2.2 = .error e) :
    (checkStep f (runLoads f State.empty ls) l.met l.name l.dict).1.matchers = (runLoads f State.empty ls).matchers := by
  have hi := runLoads_inv f ls State.empty (empty_inv f)
  obtain ⟨_, ⟨m, h1, _⟩ | ⟨e, _, _, h1, _⟩⟩ :=
    checkMatcher_spec f _ hi _ l.name l.dict (metallicity_fits l.met l.dict) _ _ rfl
  · have h1' : (checkStep f (runLoads f State.empty ls) l.met l.name l.dict).2.2 = .ok m := h1
    rw [h1'] at h
    cases h
  · exact h1

/-- Loading a step leaves the matchers of the other steps as they are. -/
theorem C98_others (f : Files) (ls : List (Load S)) (l : Load S) (z : ℚ) (n : S) (hn : n ≠ l.name) (m : Matcher) :
    ((z, n), m) ∈ (checkStep f (runLoads f State.empty ls) l.met l.name l.dict).1.matchers ↔
      ((z, n), m) ∈ (runLoads f State.empty ls).matchers := by
  have hi := runLoads_inv f ls State.empty (empty_inv f)
  obtain ⟨_, ⟨m', _, _, _, h1, _⟩ | ⟨e, _, _, h1, _⟩⟩ :=
    checkMatcher_spec f _ hi _ l.name l.dict (metallicity_fits l.met l.dict) _ _ rfl
  · refine (h1 z n m).trans ⟨fun h => ?_, fun h => .inl ⟨h, hn⟩⟩
    rcases h with h | h
    · exact h.1
    · exact absurd (congrArg (fun e => e.1.2) h) hn
  · have h1' : (checkStep f (runLoads f State.empty ls) l.met l.name l.dict).1.matchers = (runLoads f State.empty ls).matchers := h1
    rw [h1']

/-- What a load gives for a setting, in full: the grids are those of the metallicity; a setting in the dictionary is used; one that is
not is the default for a new matcher, and the value from before for a matcher that exists. -/
theorem C98_settings (f : Files) (ls : List (Load S)) (l : Load S) (m : Matcher)
    (h : (checkStep f (runLoads f State.empty ls) l.met l.name l.dict).2.2 = .ok m) (k : Key) (hk : k ≠ .gridH) (hk' : k ≠ .gridHe) (hm : k ≠ .met) :
    (∀ v, l.dict.set k = some v → m.kw k = v) ∧
      (l.dict.set k = none → (runLoads f State.empty ls).get (metallicity l.met l.dict, l.name) = none → m.kw k = default k) ∧
      (l.dict.set k = none → ∀ m', (runLoads f State.empty ls).get (metallicity l.met l.dict, l.name) = some m' → m.kw k = m'.kw k) := by
  have hi := runLoads_inv f ls State.empty (empty_inv f)
  obtain ⟨_, ⟨m', h1, _, h2, _⟩ | ⟨e, h1, _⟩⟩ :=
    checkMatcher_spec f _ hi _ l.name l.dict (metallicity_fits l.met l.dict) _ _ rfl
  · have h1' : (checkStep f (runLoads f State.empty ls) l.met l.name l.dict).2.2 = .ok m' := h1
    rw [h] at h1'
    cases h1'
    have h3 := h2 k hk hk'
    have hgiven : l.dict.given k = l.dict.set k := by rw [Dict.given, if_neg hm]
    rw [h3]
    refine ⟨fun v hv => ?_, fun hn hg => ?_, fun hn m' hg => ?_⟩
    · cases hg : (runLoads f State.empty ls).get (metallicity l.met l.dict, l.name) with
      | none =>
        show matcherKw _ _ k = v
        rw [matcherKw, if_neg hm, hv]; rfl
      | some m' =>
        show (l.dict.given k).getD _ = v
        rw [hgiven, hv]; rfl
    · rw [hg]
      show matcherKw _ _ k = _
      rw [matcherKw, if_neg hm, hn]; rfl
    · rw [hg]
      show (l.dict.given k).getD _ = _
      rw [hgiven, hn]; rfl
  · have h1' : (checkStep f (runLoads f State.empty ls) l.met l.name l.dict).2.2 = .error e := h1
    rw [h] at h1'
    cases h1'

/-- The settings of the first load of a step at a metallicity are those of the dictionary and the defaults. -/
theorem C98_first_partial (f : Files) (ls : List (Load S)) (l : Load S) (m : Matcher)
    (h : (checkStep f (runLoads f State.empty ls) l.met l.name l.dict).2.2 = .ok m)
    (hn : ∀ m', ((metallicity l.met l.dict, l.name), m') ∉ (runLoads f State.empty ls).matchers) (k : Key) (hk : k ≠ .gridH) (hk' : k ≠ .gridHe)
    (hm : k ≠ .met) : m.kw k = (l.dict.set k).getD (default k) := by
  obtain ⟨h1, h2, _⟩ := C98_settings f ls l m h k hk hk' hm
  cases hs : l.dict.set k with
  | some v => exact h1 v hs
  | none =>
    refine h2 hs ?_
    cases hg : (runLoads f State.empty ls).get (metallicity l.met l.dict, l.name) with
    | none => rfl
    | some m' => exact absurd (get_mem hg) (hn m')

end

/-! ### Concrete cases -/

/-- All files can be read for metallicities 1 and 1/10. -/
def allFiles : Files := ⟨fun z => decide (z = 1 ∨ z = 1 / 10), fun _ => true, fun _ => true⟩

/-- A dictionary with one setting. -/
def one (k : Key) (v : Val) : Dict := ⟨none, fun k' => if k' = k then some v else none⟩

def noSet : Dict := ⟨none, fun _ => none⟩

/-- The setting of the matcher returned. -/
def settingOf (r : Except Err Matcher) (k : Key) : Option Val :=
  match r with
  | .ok m => some (m.kw k)
  | .error _ => none

-- two steps are loaded at 1, then the first at 1/10: the grids at 1 are still in use; then the second: they are removed
example : let s := runLoads allFiles State.empty [⟨some 1, 0, noSet⟩, ⟨some 1, 1, noSet⟩, ⟨some (1 / 10), 0, noSet⟩]
    (s.matchers.map (·.1) = [((1 : ℚ), (1 : ℕ)), (1 / 10, 0)] ∧ s.gridH 1 = some ⟨false, 1, 0⟩ ∧ s.gridHe 1 = some ⟨true, 1, 1⟩) ∧
    s.gridH (1 / 10) = some ⟨false, 1 / 10, 2⟩ := by decide +kernel
example : let s := runLoads allFiles State.empty [⟨some 1, 0, noSet⟩, ⟨some 1, 1, noSet⟩, ⟨some (1 / 10), 0, noSet⟩, ⟨some (1 / 10), 1, noSet⟩]
    s.matchers.map (·.1) = [((1 / 10 : ℚ), (0 : ℕ)), (1 / 10, 1)] ∧ s.gridH 1 = none ∧ s.gridHe 1 = none ∧ s.next = 4 := by decide +kernel
example : settingOf (checkStep allFiles (runLoads allFiles State.empty [⟨some 1, (0 : ℕ), one .hms (.other 7)⟩]) (some 1) 0 (one .tol (.num 3))).2.2 .tol =
    some (.num 3) := by decide +kernel
example : (checkStep allFiles (State.empty : State ℕ) (some (1 / 3)) 0 noSet).2.2 matches .error .value := by decide +kernel

/-- The same request, loading a step with its default settings, gives a matcher with the default tolerance in a new simulation, and one
with an earlier tolerance if the step was loaded before with that tolerance: a setting that is no longer given is not reset. -/
theorem C98_kept_violated :
    settingOf (checkStep allFiles (State.empty : State ℕ) (some 1) 0 noSet).2.2 .tol = some (default .tol) ∧
      settingOf (checkStep allFiles (runLoads allFiles (State.empty : State ℕ) [⟨some 1, 0, one .tol (.num 5)⟩]) (some 1) 0 noSet).2.2 .tol =
        some (.num 5) := by decide +kernel

/-- The dictionary of the step is changed: all settings of the matcher are removed from it. -/
theorem C98_removed {S : Type} [DecidableEq S] (f : Files) (s : State S) (m : Option ℚ) (name : S) (d : Dict) (k : Key) :
    (checkStep f s m name d).2.1.set k = none := rfl

/-- So two simulations made from the same dictionary differ: the first has the tolerance of the dictionary, the second the default. -/
theorem C98_second_violated :
    settingOf (checkStep allFiles (State.empty : State ℕ) (some 1) 0 (one .tol (.num 5))).2.2 .tol = some (.num 5) ∧
      settingOf (checkStep allFiles (State.empty : State ℕ) (some 1) 0 (checkStep allFiles (State.empty : State ℕ) (some 1) 0 (one .tol (.num 5))).2.1).2.2
        .tol = some (default .tol) := by decide +kernel

/-- A grid given as a setting, which the matcher takes as a setting, is never used. -/
theorem C98_grid_violated :
    settingOf (checkStep allFiles (State.empty : State ℕ) (some 1) 0 (one .gridH (.grid ⟨false, 1, 99⟩))).2.2 .gridH = some (.grid ⟨false, 1, 0⟩) := by
  decide +kernel

/-- If the grid of stripped stars cannot be read, the other grid stays open although no matcher uses it, and no later load removes it. -/
theorem C98_leak_violated :
    let f : Files := ⟨fun _ => true, fun _ => true, fun z => decide (z = 1)⟩
    let s := runLoads f (State.empty : State ℕ) [⟨some 2, 0, noSet⟩, ⟨some 1, 0, noSet⟩, ⟨some 1, 0, noSet⟩]
    ¬ Tight s := by
  intro f s h
  obtain ⟨n, m, hm⟩ := h 2 (.inl (by decide +kernel))
  have h1 : s.matchers.map (·.1) = [((1 : ℚ), (0 : ℕ))] := by decide +kernel
  have h2 : ((2 : ℚ), n) ∈ s.matchers.map (·.1) := List.mem_map.2 ⟨_, hm, rfl⟩
  rw [h1] at h2
  simp at h2

/-- The settings that need new training are the grids, the paths, the metallicity and the lists of quantities to match: all but the
method, the tolerances and what is only written down. -/
theorem C98_triggers (k : Key) :
    k ∈ triggers ↔ k ≠ .method ∧ k ≠ .tol ∧ k ≠ .tolHard ∧ k ≠ .record ∧ k ≠ .verbose := by
  cases k <;> decide

/-- The default tolerances, and that the one for a match which is given up is the larger. -/
theorem C98_default_tolerances : default .tol = .num (1 / 100) ∧ default .tolHard = .num (1 / 10) ∧ default .record = .bool false ∧
    default .verbose = .bool false ∧ default .hms = .none ∧ default .gridH = .none := ⟨rfl, rfl, rfl, rfl, rfl, rfl⟩

/-- Which failure is reported: a metallicity without grids is refused as such, a grid that cannot be opened as a failure of reading. -/
theorem C98_failures {S : Type} [DecidableEq S] (f : Files) (s : State S) (z : ℚ) (name : S) (kw : Kw) (e : Err) (h : (create f s z name kw).2 = .error e) :
    (f.valid z = false ∧ e = .value) ∨ (f.valid z = true ∧ (f.openH z = false ∨ f.openHe z = false) ∧ e = .io) := by
  unfold create at h
  by_cases hv : f.valid z = true
  · rw [if_pos hv] at h
    refine Or.inr ⟨hv, ?_⟩
    cases h1 : openGridH f s z with
    | mk s1 r1 =>
      rw [h1] at h
      cases r1 with
      | error x =>
        dsimp only at h
        cases h
        unfold openGridH at h1
        cases hg : s.gridH z with
        | some g => rw [hg] at h1; cases h1
        | none =>
          rw [hg] at h1
          dsimp only at h1
          by_cases ho : f.openH z = true
          · rw [if_pos ho] at h1; cases h1
          · rw [if_neg ho] at h1; cases h1; exact ⟨Or.inl (by simpa using ho), rfl⟩
      | ok g =>
        dsimp only at h
        cases h2 : openGridHe f s1 z with
        | mk s2 r2 =>
          rw [h2] at h
          cases r2 with
          | ok g' => dsimp only at h; cases h
          | error x =>
            dsimp only at h
            cases h
            unfold openGridHe at h2
            cases hg : s1.gridHe z with
            | some g => rw [hg] at h2; cases h2
            | none =>
              rw [hg] at h2
              dsimp only at h2
              by_cases ho : f.openHe z = true
              · rw [if_pos ho] at h2; cases h2
              · rw [if_neg ho] at h2; cases h2; exact ⟨Or.inr (by simpa using ho), rfl⟩
  · rw [if_neg hv] at h
    cases h
    exact Or.inl ⟨by simpa using hv, rfl⟩

end Verif.Matchers
