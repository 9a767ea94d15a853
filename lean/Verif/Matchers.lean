import Mathlib.Algebra.Order.Field.Rat
import Mathlib.Data.List.Basic
import Mathlib.Tactic.Common
/-!
Model of the track matchers that the steps of a simulation share, `/repo/posydon/binary_evol/simulationproperties.py` `check_step`
(l.519-555), `_check_track_matcher` (l.627-674), `create_track_matcher` (l.706-719), with `TrackMatcher.separate_kwargs` and the
assignment of the settings in `TrackMatcher.__init__` (`/repo/posydon/binary_evol/track_match.py` l.255-307, 408-422), for steps
whose class takes a metallicity and a track matcher (the detached, disrupted, merged, initially single and common-envelope steps).

Simplifications: settings of a step that are not passed on to the matcher are left out. Grids are objects that are identified by
a number given when their file is opened. The order of the entries of a dictionary is not modelled. What a new matcher computes from
its settings (lists that were not given, scalers) is a function of the settings and left out.
-/
namespace Verif.Matchers

/-- Names of the settings, track_match.py l.255-267. -/
inductive Key
  | gridH | gridHe | path | met | method | tol | tolHard | hms | heStar | postMS | postHeMS | record | verbose
  deriving DecidableEq

def Key.all : List Key :=
  [.gridH, .gridHe, .path, .met, .method, .tol, .tolHard, .hms, .heStar, .postMS, .postHeMS, .record, .verbose]

/-- `TRAINING_TRIGGERS`, l.273-275. -/
def triggers : List Key := [.gridH, .gridHe, .path, .met, .hms, .heStar, .postMS, .postHeMS]

/-- A grid: whether it is one of stripped stars, its metallicity, and the number it got when it was opened. -/
structure Grid where
  he : Bool
  met : ℚ
  id : ℕ
  deriving DecidableEq

inductive Val
  | none
  | num (q : ℚ)
  | bool (b : Bool)
  | grid (g : Grid)
  | other (n : ℕ)
  deriving DecidableEq

/-- `DEFAULT_KWARGS`, l.255-267; `other 0` is the path of the data, `other 1` the method `minimize`. -/
def default : Key → Val
  | .path => .other 0
  | .method => .other 1
  | .tol => .num (1 / 100)
  | .tolHard => .num (1 / 10)
  | .record => .bool false
  | .verbose => .bool false
  | _ => .none

abbrev Kw := Key → Val

/-- A matcher: the settings it was made with (`self.kwargs`) and the attributes of the same names. -/
structure Matcher where
  kw : Kw
  attr : Kw

inductive Err
  | value | io | key
  deriving DecidableEq

/-- The dictionary of a step: its metallicity, and the settings of the matcher. -/
structure Dict where
  met : Option ℚ
  set : Key → Option Val

section
variable {S : Type} [DecidableEq S]

/-- `track_matchers`, `grids_Hrich`, `grids_strippedHe`, and the number of grids opened so far. -/
structure State (S : Type) where
  matchers : List ((ℚ × S) × Matcher)
  gridH : ℚ → Option Grid
  gridHe : ℚ → Option Grid
  next : ℕ

def State.empty : State S := ⟨[], fun _ => none, fun _ => none, 0⟩

/-- Which metallicities are supported, and for which of them the two files can be opened. -/
structure Files where
  valid : ℚ → Bool
  openH : ℚ → Bool
  openHe : ℚ → Bool

def State.get (s : State S) (k : ℚ × S) : Option Matcher := (s.matchers.find? fun e => e.1 = k).map (·.2)

def put (l : List ((ℚ × S) × Matcher)) (k : ℚ × S) (m : Matcher) : List ((ℚ × S) × Matcher) := l.filter (fun e => e.1 ≠ k) ++ [(k, m)]

/-- l.709-711 -/
def openGridH (f : Files) (s : State S) (z : ℚ) : State S × Except Err Grid :=
  match s.gridH z with
  | some g => (s, .ok g)
  | none => if f.openH z = true then ({ s with gridH := Function.update s.gridH z (some ⟨false, z, s.next⟩), next := s.next + 1 }, .ok ⟨false, z, s.next⟩)
    else (s, .error .io)

/-- l.712-714 -/
def openGridHe (f : Files) (s : State S) (z : ℚ) : State S × Except Err Grid :=
  match s.gridHe z with
  | some g => (s, .ok g)
  | none => if f.openHe z = true then ({ s with gridHe := Function.update s.gridHe z (some ⟨true, z, s.next⟩), next := s.next + 1 }, .ok ⟨true, z, s.next⟩)
    else (s, .error .io)

/-- l.717-719 -/
def withGrids (kw : Kw) (g g' : Grid) : Kw := fun k => if k = .gridH then .grid g else if k = .gridHe then .grid g' else kw k

/-- `create_track_matcher`, l.706-719. -/
def create (f : Files) (s : State S) (z : ℚ) (name : S) (kw : Kw) : State S × Except Err Unit :=
  if f.valid z = true then
    match openGridH f s z with
    | (s1, .error e) => (s1, .error e)
    | (s1, .ok g) =>
      match openGridHe f s1 z with
      | (s2, .error e) => (s2, .error e)
      | (s2, .ok g') =>
        ({ s2 with matchers := put s2.matchers (z, name) ⟨withGrids kw g g', withGrids kw g g'⟩ }, .ok ())
  else (s, .error .value)

/-- The settings in the dictionary of a step. -/
def Dict.given (d : Dict) (k : Key) : Option Val := if k = .met then d.met.map .num else d.set k

/-- `separate_kwargs`, track_match.py l.411-414, after the metallicity was set (l.533): the settings of the matcher. -/
def matcherKw (d : Dict) (z : ℚ) : Kw := fun k => if k = .met then .num z else (d.set k).getD (default k)

/-- l.416-422: the settings are removed from the dictionary of the step. -/
def Dict.rest (z : ℚ) : Dict := ⟨some z, fun _ => none⟩

/-- l.640-648: the matcher and whether it has to be made anew. -/
def update (orig : Key → Option Val) (kw : Kw) : List Key → Matcher × Bool → Matcher × Bool
  | [], r => r
  | k :: ks, r =>
    update orig kw ks (match orig k with
      | none => r
      | some v => if r.1.kw k ≠ v then
          (⟨Function.update r.1.kw k (kw k), Function.update r.1.attr k (kw k)⟩, r.2 || decide (k ∈ triggers))
        else r)

/-- l.653-665 -/
def cleanUp (z : ℚ) (name : S) : List (ℚ × S) → State S → State S × Except Err Unit
  | [], s => (s, .ok ())
  | mk :: ks, s =>
    if mk.1 ≠ z ∧ mk.2 = name then
      let ms := s.matchers.filter fun e => e.1 ≠ mk
      if ms.any (fun e => decide (e.1.1 = mk.1)) = true then cleanUp z name ks { s with matchers := ms }
      else if (s.gridH mk.1).isNone = true then ({ s with matchers := ms }, .error .key)
      else if (s.gridHe mk.1).isNone = true then
        ({ s with matchers := ms, gridH := Function.update s.gridH mk.1 none }, .error .key)
      else cleanUp z name ks { s with matchers := ms, gridH := Function.update s.gridH mk.1 none, gridHe := Function.update s.gridHe mk.1 none }
    else cleanUp z name ks s

/-- l.631-651 -/
def refresh (f : Files) (s : State S) (z : ℚ) (name : S) (d : Dict) : State S × Except Err Unit :=
  match s.get (z, name) with
  | none => create f s z name (matcherKw d z)
  | some m =>
    let r := update d.given (matcherKw d z) Key.all (m, false)
    let s1 := { s with matchers := put s.matchers (z, name) r.1 }
    if r.2 = true then create f s1 z name r.1.kw else (s1, .ok ())

/-- `_check_track_matcher`, l.627-674. -/
def checkMatcher (f : Files) (s : State S) (z : ℚ) (name : S) (d : Dict) : State S × Except Err Matcher :=
  match refresh f s z name d with
  | (s1, .error e) => (s1, .error e)
  | (s1, .ok ()) =>
    match cleanUp z name (s1.matchers.map (·.1)) s1 with
    | (s2, .error e) => (s2, .error e)
    | (s2, .ok ()) =>
      match s2.get (z, name) with
      | none => (s2, .error .key)
      | some m => (s2, .ok m)

/-- The metallicity of a step, l.527-533. -/
def metallicity (m : Option ℚ) (d : Dict) : ℚ := (d.met.or m).getD 1

/-- `check_step`, l.519-550: the new state, the dictionary afterwards (it is changed in place), and the matcher. -/
def checkStep (f : Files) (s : State S) (m : Option ℚ) (name : S) (d : Dict) : State S × Dict × Except Err Matcher :=
  let z := metallicity m d
  let r := checkMatcher f s z name d
  (r.1, Dict.rest z, r.2)

/-- Loading of one step. -/
structure Load (S : Type) where
  met : Option ℚ
  name : S
  dict : Dict

/-- The state after several loads; an exception leaves the state as it is at that moment. -/
def runLoads (f : Files) : State S → List (Load S) → State S
  | s, [] => s
  | s, l :: ls => runLoads f (checkStep f s l.met l.name l.dict).1 ls

/-! ### Specification -/

/-- What holds for the matchers and grids between two loads. -/
structure Inv (f : Files) (s : State S) : Prop where
  /-- there is one matcher for a metallicity and a step -/
  keys : (s.matchers.map (·.1)).Nodup
  /-- the grids are those of the metallicity -/
  gridH : ∀ z g, s.gridH z = some g → g.he = false ∧ g.met = z ∧ g.id < s.next
  gridHe : ∀ z g, s.gridHe z = some g → g.he = true ∧ g.met = z ∧ g.id < s.next
  /-- a matcher has the grids that are kept for its metallicity -/
  own : ∀ z n m, ((z, n), m) ∈ s.matchers → f.valid z = true ∧ m.attr = m.kw ∧ m.kw .met = .num z ∧
    ∃ g g', s.gridH z = some g ∧ s.gridHe z = some g' ∧ m.kw .gridH = .grid g ∧ m.kw .gridHe = .grid g'

/-- Each step has one matcher. -/
def One (s : State S) : Prop := ∀ z z' n m m', ((z, n), m) ∈ s.matchers → ((z', n), m') ∈ s.matchers → z = z'

/-- Only grids in use are kept. -/
def Tight (s : State S) : Prop :=
  ∀ z, ((s.gridH z).isSome = true ∨ (s.gridHe z).isSome = true) → ∃ n m, ((z, n), m) ∈ s.matchers

/-! ### Lemmas -/

theorem mem_put {l : List ((ℚ × S) × Matcher)} {k : ℚ × S} {m : Matcher} {e : (ℚ × S) × Matcher} :
    e ∈ put l k m ↔ (e ∈ l ∧ e.1 ≠ k) ∨ e = (k, m) := by
  simp [put]

theorem put_keys {l : List ((ℚ × S) × Matcher)} {k : ℚ × S} {m : Matcher} (h : (l.map (·.1)).Nodup) : ((put l k m).map (·.1)).Nodup := by
  rw [put, List.map_append, List.nodup_append]
  refine ⟨?_, by simp, ?_⟩
  · exact h.sublist (List.Sublist.map _ List.filter_sublist)
  · intro a ha b hb he
    simp only [List.map_cons, List.map_nil, List.mem_singleton] at hb
    subst he hb
    obtain ⟨e, he, rfl⟩ := List.mem_map.1 ha
    have := (List.mem_filter.1 he).2
    simp at this

theorem get_mem {s : State S} {k : ℚ × S} {m : Matcher} (h : s.get k = some m) : (k, m) ∈ s.matchers := by
  unfold State.get at h
  obtain ⟨e, he, rfl⟩ := Option.map_eq_some_iff.1 h
  have h1 := List.mem_of_find?_eq_some he
  have h2 := List.find?_some he
  simp only [decide_eq_true_eq] at h2
  rw [← h2]
  exact h1

theorem get_none {s : State S} {k : ℚ × S} (h : s.get k = none) : ∀ e ∈ s.matchers, e.1 ≠ k := by
  unfold State.get at h
  rw [Option.map_eq_none_iff, List.find?_eq_none] at h
  intro e he hk
  exact h e he (by simpa using hk)

theorem mem_unique {l : List ((ℚ × S) × Matcher)} (h : (l.map (·.1)).Nodup) {k : ℚ × S} {m m' : Matcher} (h1 : (k, m) ∈ l) (h2 : (k, m') ∈ l) :
    m = m' := by
  induction l with
  | nil => cases h1
  | cons e l ih =>
    rw [List.map_cons, List.nodup_cons] at h
    rcases List.mem_cons.1 h1 with rfl | h1'
    · rcases List.mem_cons.1 h2 with h2 | h2
      · exact (congrArg Prod.snd h2).symm
      · exact absurd (List.mem_map.2 ⟨_, h2, rfl⟩) h.1
    · rcases List.mem_cons.1 h2 with rfl | h2
      · exact absurd (List.mem_map.2 ⟨(k, m), h1', rfl⟩ : k ∈ l.map (·.1)) h.1
      · exact ih h.2 h1' h2

theorem mem_get {s : State S} (h : (s.matchers.map (·.1)).Nodup) {k : ℚ × S} {m : Matcher} (hm : (k, m) ∈ s.matchers) : s.get k = some m := by
  cases hg : s.get k with
  | none => exact absurd rfl (get_none hg _ hm)
  | some m' => rw [mem_unique h hm (get_mem hg)]

/-- Closed form of the update: the settings that are given are taken over. -/
theorem update_kw (orig : Key → Option Val) (kw : Kw) (ho : ∀ k v, orig k = some v → kw k = v) :
    ∀ (ks : List Key) (r : Matcher × Bool) (k : Key),
      (update orig kw ks r).1.kw k = (if k ∈ ks then (orig k).getD (r.1.kw k) else r.1.kw k) ∧
      (r.1.attr = r.1.kw → (update orig kw ks r).1.attr = (update orig kw ks r).1.kw)
  | [], r, k => by simp [update]
  | k0 :: ks, r, k => by
    rw [update]
    cases h0 : orig k0 with
    | none =>
      dsimp only
      obtain ⟨h1, h2⟩ := update_kw orig kw ho ks r k
      refine ⟨?_, h2⟩
      rw [h1]
      by_cases hk : k = k0
      · subst hk; simp [h0]
      · simp [hk]
    | some v =>
      dsimp only
      by_cases hne : r.1.kw k0 ≠ v
      · rw [if_pos hne]
        obtain ⟨h1, h2⟩ := update_kw orig kw ho ks (⟨Function.update r.1.kw k0 (kw k0), Function.update r.1.attr k0 (kw k0)⟩,
          r.2 || decide (k0 ∈ triggers)) k
        refine ⟨?_, fun he => h2 (by dsimp only; rw [he])⟩
        rw [h1]
        by_cases hk : k = k0
        · subst hk; simp [h0, ho k v h0]
        · simp [hk]
      · rw [if_neg hne]
        push Not at hne
        obtain ⟨h1, h2⟩ := update_kw orig kw ho ks r k
        refine ⟨?_, h2⟩
        rw [h1]
        by_cases hk : k = k0
        · subst hk; simp [h0, hne]
        · simp [hk]

/-- The matcher is made anew exactly if one of the settings that it depends on changes. -/
theorem update_retrain (orig : Key → Option Val) (kw : Kw) : ∀ (ks : List Key) (r : Matcher × Bool), ks.Nodup →
    ((update orig kw ks r).2 = true ↔ r.2 = true ∨ ∃ k ∈ ks, k ∈ triggers ∧ ∃ v, orig k = some v ∧ r.1.kw k ≠ v)
  | [], r, _ => by simp [update]
  | k0 :: ks, r, hn => by
    rw [List.nodup_cons] at hn
    rw [update]
    cases h0 : orig k0 with
    | none =>
      dsimp only
      rw [update_retrain orig kw ks r hn.2]
      simp [h0]
    | some v =>
      dsimp only
      by_cases hne : r.1.kw k0 ≠ v
      · rw [if_pos hne, update_retrain orig kw ks _ hn.2]
        have hrest : (∃ k ∈ ks, k ∈ triggers ∧ ∃ v, orig k = some v ∧ Function.update r.1.kw k0 (kw k0) k ≠ v) ↔
            ∃ k ∈ ks, k ∈ triggers ∧ ∃ v, orig k = some v ∧ r.1.kw k ≠ v := by
          refine exists_congr fun k => and_congr_right fun hk => ?_
          have : k ≠ k0 := fun h => hn.1 (h ▸ hk)
          rw [Function.update_of_ne this]
        dsimp only
        rw [hrest, Bool.or_eq_true, decide_eq_true_eq, or_assoc]
        refine or_congr_right ?_
        rw [List.exists_mem_cons_iff]
        exact or_congr_left ⟨fun h => ⟨h, v, h0, hne⟩, fun h => h.1⟩
      · rw [if_neg hne, update_retrain orig kw ks r hn.2]
        refine or_congr_right ?_
        rw [List.exists_mem_cons_iff]
        refine ⟨.inr, fun h => h.resolve_left ?_⟩
        rintro ⟨_, w, hw, hc⟩
        rw [h0] at hw
        cases hw
        exact hne hc

theorem given_matcherKw (d : Dict) {z : ℚ} (hz : ∀ q, d.met = some q → q = z) (k : Key) (v : Val) (h : d.given k = some v) :
    matcherKw d z k = v := by
  unfold Dict.given at h
  unfold matcherKw
  by_cases hk : k = .met
  · rw [if_pos hk] at h ⊢
    cases hm : d.met with
    | none => rw [hm] at h; cases h
    | some q => rw [hm] at h; rw [← hz q hm]; exact Option.some.inj h
  · rw [if_neg hk] at h ⊢; rw [h]; rfl

omit [DecidableEq S] in
theorem openGridH_spec (f : Files) (s : State S) (z : ℚ) : ∀ s' r, openGridH f s z = (s', r) →
    s'.matchers = s.matchers ∧ s'.gridHe = s.gridHe ∧ s.next ≤ s'.next ∧ (∀ y, y ≠ z → s'.gridH y = s.gridH y) ∧
      (∀ g, s.gridH z = some g → s' = s ∧ r = .ok g) ∧
      (∀ g, r = .ok g → s'.gridH z = some g ∧ (s.gridH z = some g ∨
        (f.openH z = true ∧ s.gridH z = none ∧ g = ⟨false, z, s.next⟩ ∧ s.next < s'.next))) ∧
      (∀ e, r = .error e → s' = s ∧ f.openH z = false) := by
  intro s' r h
  unfold openGridH at h
  cases hg : s.gridH z with
  | some g =>
    rw [hg] at h
    cases h
    exact ⟨rfl, rfl, le_refl _, fun _ _ => rfl, fun g' hg' => ⟨rfl, by rw [Option.some.inj hg']⟩, fun g' hg' => by (cases hg'; exact ⟨hg, .inl rfl⟩),
      fun e he => by cases he⟩
  | none =>
    rw [hg] at h
    dsimp only at h
    by_cases ho : f.openH z = true
    · rw [if_pos ho] at h
      cases h
      exact ⟨rfl, rfl, Nat.le_succ _, fun y hy => by simp [hy], fun g' hg' => by (cases hg'), fun g' hg' => by (cases hg'; simp [ho]), fun e he => by cases he⟩
    · rw [if_neg ho] at h
      cases h
      exact ⟨rfl, rfl, le_refl _, fun _ _ => rfl, fun g' hg' => by (cases hg'), fun g' hg' => by (cases hg'), fun e he => ⟨rfl, by simpa using ho⟩⟩

omit [DecidableEq S] in
theorem openGridHe_spec (f : Files) (s : State S) (z : ℚ) : ∀ s' r, openGridHe f s z = (s', r) →
    s'.matchers = s.matchers ∧ s'.gridH = s.gridH ∧ s.next ≤ s'.next ∧ (∀ y, y ≠ z → s'.gridHe y = s.gridHe y) ∧
      (∀ g, s.gridHe z = some g → s' = s ∧ r = .ok g) ∧
      (∀ g, r = .ok g → s'.gridHe z = some g ∧ (s.gridHe z = some g ∨
        (f.openHe z = true ∧ s.gridHe z = none ∧ g = ⟨true, z, s.next⟩ ∧ s.next < s'.next))) ∧
      (∀ e, r = .error e → s' = s ∧ f.openHe z = false) := by
  intro s' r h
  unfold openGridHe at h
  cases hg : s.gridHe z with
  | some g =>
    rw [hg] at h
    cases h
    exact ⟨rfl, rfl, le_refl _, fun _ _ => rfl, fun g' hg' => ⟨rfl, by rw [Option.some.inj hg']⟩, fun g' hg' => by (cases hg'; exact ⟨hg, .inl rfl⟩),
      fun e he => by cases he⟩
  | none =>
    rw [hg] at h
    dsimp only at h
    by_cases ho : f.openHe z = true
    · rw [if_pos ho] at h
      cases h
      exact ⟨rfl, rfl, Nat.le_succ _, fun y hy => by simp [hy], fun g' hg' => by (cases hg'), fun g' hg' => by (cases hg'; simp [ho]), fun e he => by cases he⟩
    · rw [if_neg ho] at h
      cases h
      exact ⟨rfl, rfl, le_refl _, fun _ _ => rfl, fun g' hg' => by (cases hg'), fun g' hg' => by (cases hg'), fun e he => ⟨rfl, by simpa using ho⟩⟩

/-- The grids of a state are in order. -/
def GridsOk (s : State S) : Prop :=
  (∀ z g, s.gridH z = some g → g.he = false ∧ g.met = z ∧ g.id < s.next) ∧ ∀ z g, s.gridHe z = some g → g.he = true ∧ g.met = z ∧ g.id < s.next

omit [DecidableEq S] in
theorem openGridH_ok (f : Files) (s : State S) (z : ℚ) (hs : GridsOk s) (s' : State S) (r : Except Err Grid) (h : openGridH f s z = (s', r)) : GridsOk s' := by
  obtain ⟨a1, a2, a3, a4, a5, a6, a7⟩ := openGridH_spec f s z s' r h
  refine ⟨fun y g hg => ?_, fun y g hg => ?_⟩
  · by_cases hy : y = z
    · subst hy
      cases r with
      | error e => rw [(a7 e rfl).1] at hg ⊢; exact hs.1 y g hg
      | ok g0 =>
        obtain ⟨h1, h2⟩ := a6 g0 rfl
        rw [h1] at hg
        cases hg
        rcases h2 with h2 | ⟨_, _, rfl, h3⟩
        · obtain ⟨b1, b2, b3⟩ := hs.1 y _ h2
          exact ⟨b1, b2, by omega⟩
        · exact ⟨rfl, rfl, h3⟩
    · rw [a4 y hy] at hg
      obtain ⟨b1, b2, b3⟩ := hs.1 y g hg
      exact ⟨b1, b2, by omega⟩
  · rw [a2] at hg
    obtain ⟨b1, b2, b3⟩ := hs.2 y g hg
    exact ⟨b1, b2, by omega⟩

omit [DecidableEq S] in
theorem openGridHe_ok (f : Files) (s : State S) (z : ℚ) (hs : GridsOk s) (s' : State S) (r : Except Err Grid) (h : openGridHe f s z = (s', r)) : GridsOk s' := by
  obtain ⟨a1, a2, a3, a4, a5, a6, a7⟩ := openGridHe_spec f s z s' r h
  refine ⟨fun y g hg => ?_, fun y g hg => ?_⟩
  · rw [a2] at hg
    obtain ⟨b1, b2, b3⟩ := hs.1 y g hg
    exact ⟨b1, b2, by omega⟩
  · by_cases hy : y = z
    · subst hy
      cases r with
      | error e => rw [(a7 e rfl).1] at hg ⊢; exact hs.2 y g hg
      | ok g0 =>
        obtain ⟨h1, h2⟩ := a6 g0 rfl
        rw [h1] at hg
        cases hg
        rcases h2 with h2 | ⟨_, _, rfl, h3⟩
        · obtain ⟨b1, b2, b3⟩ := hs.2 y _ h2
          exact ⟨b1, b2, by omega⟩
        · exact ⟨rfl, rfl, h3⟩
    · rw [a4 y hy] at hg
      obtain ⟨b1, b2, b3⟩ := hs.2 y g hg
      exact ⟨b1, b2, by omega⟩

/-- What making a matcher does: it opens the grids of the metallicity unless they are open, and puts the matcher in its place. -/
theorem create_spec (f : Files) (s : State S) (z : ℚ) (name : S) (kw : Kw) (s' : State S) (r : Except Err Unit)
    (h : create f s z name kw = (s', r)) :
    (GridsOk s → GridsOk s') ∧ (∀ y, y ≠ z → s'.gridH y = s.gridH y ∧ s'.gridHe y = s.gridHe y) ∧
      (∀ g, s.gridH z = some g → s'.gridH z = some g) ∧ (∀ g, s.gridHe z = some g → s'.gridHe z = some g) ∧
      ((∃ g g', r = .ok () ∧ f.valid z = true ∧ s'.gridH z = some g ∧ s'.gridHe z = some g' ∧
          s'.matchers = put s.matchers (z, name) ⟨withGrids kw g g', withGrids kw g g'⟩) ∨
        (∃ e, r = .error e ∧ s'.matchers = s.matchers ∧
          ((s' = s ∧ f.valid z = false) ∨ (s' = s ∧ s.gridH z = none ∧ f.openH z = false) ∨
            (s.gridHe z = none ∧ f.openHe z = false ∧ (s.gridH z = none → f.openH z = true))))) := by
  unfold create at h
  by_cases hv : f.valid z = true
  · rw [if_pos hv] at h
    cases h1 : openGridH f s z with
    | mk s1 r1 =>
      obtain ⟨a1, a2, a3, a4, a5, a6, a7⟩ := openGridH_spec f s z s1 r1 h1
      have okH := fun hs => openGridH_ok f s z hs s1 r1 h1
      rw [h1] at h
      cases r1 with
      | error e =>
        cases h
        obtain ⟨rfl, ho⟩ := a7 e rfl
        refine ⟨fun h => h, fun _ _ => ⟨rfl, rfl⟩, fun _ h => h, fun _ h => h, .inr ⟨e, rfl, rfl, .inr (.inl ⟨rfl, ?_, ho⟩)⟩⟩
        cases hg : s'.gridH z with
        | none => rfl
        | some g => cases (a5 g hg).2
      | ok g =>
        dsimp only at h
        cases h2 : openGridHe f s1 z with
        | mk s2 r2 =>
          obtain ⟨b1, b2, b3, b4, b5, b6, b7⟩ := openGridHe_spec f s1 z s2 r2 h2
          have okHe := fun hs => openGridHe_ok f s1 z hs s2 r2 h2
          rw [h2] at h
          have keepH : ∀ g0, s.gridH z = some g0 → s2.gridH z = some g0 := by
            intro g0 hg0
            rw [b2, (a5 g0 hg0).1, hg0]
          have keepHe : ∀ g0, s.gridHe z = some g0 → s2.gridHe z = some g0 := by
            intro g0 hg0
            rw [← a2] at hg0
            rw [(b5 g0 hg0).1, hg0]
          have other : ∀ y, y ≠ z → s2.gridH y = s.gridH y ∧ s2.gridHe y = s.gridHe y := by
            intro y hy
            exact ⟨by rw [b2, a4 y hy], by rw [b4 y hy, a2]⟩
          cases r2 with
          | error e =>
            cases h
            refine ⟨fun hs => okHe (okH hs), other, keepH, keepHe, .inr ⟨e, rfl, by rw [b1, a1], .inr (.inr ⟨?_, (b7 e rfl).2, ?_⟩)⟩⟩
            · cases hg : s.gridHe z with
              | none => rfl
              | some g => rw [← a2] at hg; cases (b5 g hg).2
            · intro hn
              rcases (a6 g rfl).2 with h3 | h3
              · rw [h3] at hn; cases hn
              · exact h3.1
          | ok g' =>
            cases h
            exact ⟨fun hs => okHe (okH hs), other, keepH, keepHe, .inl ⟨g, g', rfl, hv, by dsimp only; rw [b2]; exact (a6 g rfl).1, (b6 g' rfl).1, by
              dsimp only; rw [b1, a1]⟩⟩
  · rw [if_neg hv] at h
    cases h
    exact ⟨fun h => h, fun _ _ => ⟨rfl, rfl⟩, fun _ h => h, fun _ h => h, .inr ⟨.value, rfl, rfl, .inl ⟨rfl, by simpa using hv⟩⟩⟩

/-- The setting of a matcher after a load: the one given, else that of the matcher that is used again, else the default. -/
def setting (old : Option Matcher) (d : Dict) (z : ℚ) (k : Key) : Val :=
  match old with
  | none => matcherKw d z k
  | some m => (d.given k).getD (m.kw k)

/-- The given metallicity is that of the load. -/
def Fits (d : Dict) (z : ℚ) : Prop := ∀ q, d.met = some q → q = z

theorem put_put (l : List ((ℚ × S) × Matcher)) (k : ℚ × S) (m m' : Matcher) : put (put l k m) k m' = put l k m' := by
  simp [put, List.filter_append]

/-- What the first part of a load does. -/
theorem refresh_spec (f : Files) (s : State S) (hi : Inv f s) (z : ℚ) (name : S) (d : Dict) (hd : Fits d z) (s' : State S) (r : Except Err Unit)
    (h : refresh f s z name d = (s', r)) :
    GridsOk s' ∧ (∀ y, y ≠ z → s'.gridH y = s.gridH y ∧ s'.gridHe y = s.gridHe y) ∧
      (∀ g, s.gridH z = some g → s'.gridH z = some g) ∧ (∀ g, s.gridHe z = some g → s'.gridHe z = some g) ∧
      ((∃ m g g', r = .ok () ∧ f.valid z = true ∧ s'.gridH z = some g ∧ s'.gridHe z = some g' ∧ s'.matchers = put s.matchers (z, name) m ∧
          m.attr = m.kw ∧ m.kw .gridH = .grid g ∧ m.kw .gridHe = .grid g' ∧
          ∀ k, k ≠ .gridH → k ≠ .gridHe → m.kw k = setting (s.get (z, name)) d z k) ∨
        (∃ e, r = .error e ∧ s.get (z, name) = none ∧ s'.matchers = s.matchers ∧
          ((s' = s ∧ f.valid z = false) ∨ (s' = s ∧ s.gridH z = none ∧ f.openH z = false) ∨
            (s.gridHe z = none ∧ f.openHe z = false ∧ (s.gridH z = none → f.openH z = true))))) := by
  have hg0 : GridsOk s := ⟨hi.gridH, hi.gridHe⟩
  have hall : ∀ k, k ∈ Key.all := by intro k; cases k <;> decide
  unfold refresh at h
  cases hget : s.get (z, name) with
  | none =>
    rw [hget] at h
    dsimp only at h
    obtain ⟨c1, c2, c3, c4, c5⟩ := create_spec f s z name _ s' r h
    refine ⟨c1 hg0, c2, c3, c4, ?_⟩
    rcases c5 with ⟨g, g', h1, h2, h3, h4, h5⟩ | ⟨e, h1, h2, h3⟩
    · refine .inl ⟨_, g, g', h1, h2, h3, h4, h5, rfl, rfl, rfl, fun k hk hk' => ?_⟩
      show withGrids _ g g' k = _
      rw [withGrids, if_neg hk, if_neg hk']
      rfl
    · exact .inr ⟨e, h1, rfl, h2, h3⟩
  | some m =>
    rw [hget] at h
    dsimp only at h
    obtain ⟨o1, o2, o3, g, g', o4, o5, o6, o7⟩ := hi.own z name m (get_mem hget)
    have hu := update_kw d.given (matcherKw d z) (given_matcherKw d hd) Key.all (m, false)
    have hr := update_retrain d.given (matcherKw d z) Key.all (m, false) (by decide)
    cases hup : update d.given (matcherKw d z) Key.all (m, false) with
    | mk m1 b =>
      rw [hup] at h hu hr
      dsimp only at h hu hr
      have hkw : ∀ k, m1.kw k = (d.given k).getD (m.kw k) := fun k => by rw [(hu k).1, if_pos (hall k)]
      cases b with
      | true =>
        rw [if_pos rfl] at h
        obtain ⟨c1, c2, c3, c4, c5⟩ := create_spec f _ z name _ s' r h
        refine ⟨c1 hg0, c2, c3, c4, ?_⟩
        rcases c5 with ⟨g1, g1', h1, h2, h3, h4, h5⟩ | ⟨e, h1, h2, h3⟩
        · refine .inl ⟨_, g1, g1', h1, h2, h3, h4, h5.trans (put_put _ _ _ _), rfl, rfl, rfl, fun k hk hk' => ?_⟩
          show withGrids _ g1 g1' k = _
          rw [withGrids, if_neg hk, if_neg hk', hkw k]
          rfl
        · exfalso
          rcases h3 with ⟨_, h3⟩ | ⟨_, h3, _⟩ | ⟨h3, _⟩
          · rw [o1] at h3; cases h3
          · exact absurd (h3.symm.trans o4) (by simp)
          · exact absurd (h3.symm.trans o5) (by simp)
      | false =>
        rw [if_neg (by simp)] at h
        cases h
        have same : ∀ k, k ∈ triggers → m1.kw k = m.kw k := by
          intro k hk
          rw [hkw k]
          cases hv : d.given k with
          | none => rfl
          | some v =>
            by_contra hne
            have : (false = true) := hr.2 (.inr ⟨k, hall k, hk, v, hv, fun h => hne h.symm⟩)
            cases this
        refine ⟨hg0, fun _ _ => ⟨rfl, rfl⟩, fun _ h => h, fun _ h => h, .inl ⟨m1, g, g', rfl, o1, o4, o5, rfl, (hu .met).2 o2, ?_, ?_, fun k _ _ => hkw k⟩⟩
        · rw [same _ (by decide), o6]
        · rw [same _ (by decide), o7]

/-- The settings used are those of the metallicity. -/
theorem setting_met {old : Option Matcher} {d : Dict} {z : ℚ} (hd : Fits d z) (ho : ∀ m, old = some m → m.kw .met = .num z) :
    setting old d z .met = .num z := by
  cases old with
  | none => rfl
  | some m =>
    show (d.met.map Val.num).getD _ = _
    cases hm : d.met with
    | none => exact ho m rfl
    | some q => rw [hd q hm]; rfl

theorem refresh_inv (f : Files) (s : State S) (hi : Inv f s) (z : ℚ) (name : S) (d : Dict) (hd : Fits d z) (s' : State S) (r : Except Err Unit)
    (h : refresh f s z name d = (s', r)) : Inv f s' := by
  obtain ⟨c1, c2, c3, c4, c5⟩ := refresh_spec f s hi z name d hd s' r h
  have keep : ∀ y n m, ((y, n), m) ∈ s.matchers → f.valid y = true ∧ m.attr = m.kw ∧ m.kw .met = .num y ∧
      ∃ g g', s'.gridH y = some g ∧ s'.gridHe y = some g' ∧ m.kw .gridH = .grid g ∧ m.kw .gridHe = .grid g' := by
    intro y n m hm
    obtain ⟨o1, o2, o3, g, g', o4, o5, o6, o7⟩ := hi.own y n m hm
    by_cases hy : y = z
    · subst hy
      exact ⟨o1, o2, o3, g, g', c3 g o4, c4 g' o5, o6, o7⟩
    · exact ⟨o1, o2, o3, g, g', by rw [(c2 y hy).1, o4], by rw [(c2 y hy).2, o5], o6, o7⟩
  rcases c5 with ⟨m, g, g', h1, h2, h3, h4, h5, h6, h7, h8, h9⟩ | ⟨e, h1, h2, h3, h4⟩
  · refine ⟨by rw [h5]; exact put_keys hi.keys, c1.1, c1.2, fun y n m' hm' => ?_⟩
    rw [h5] at hm'
    rcases mem_put.1 hm' with ⟨hm, _⟩ | hm
    · exact keep y n m' hm
    · cases hm
      refine ⟨h2, h6, ?_, g, g', h3, h4, h7, h8⟩
      rw [h9 .met (by decide) (by decide)]
      exact setting_met hd fun m0 hm0 => (hi.own z name m0 (get_mem hm0)).2.2.1
  · exact ⟨by rw [h3]; exact hi.keys, c1.1, c1.2, fun y n m hm => keep y n m (by rw [← h3]; exact hm)⟩

/-- A matcher that is removed when a step is loaded. -/
def Old (z : ℚ) (name : S) (k : ℚ × S) : Prop := k.1 ≠ z ∧ k.2 = name

instance (z : ℚ) (name : S) (k : ℚ × S) : Decidable (Old z name k) := inferInstanceAs (Decidable (_ ∧ _))

/-- What the second part of a load does. -/
theorem cleanUp_spec (f : Files) (z : ℚ) (name : S) : ∀ (ks : List (ℚ × S)) (s : State S), Inv f s → ks.Nodup →
    (∀ k ∈ ks, k ∈ s.matchers.map (·.1)) →
    ∃ s', cleanUp z name ks s = (s', .ok ()) ∧ Inv f s' ∧ s'.next = s.next ∧
      s'.matchers = s.matchers.filter (fun e => ¬ (e.1 ∈ ks ∧ Old z name e.1)) ∧
      s'.gridH z = s.gridH z ∧ s'.gridHe z = s.gridHe z ∧
      (∀ y g, s'.gridH y = some g → s.gridH y = some g) ∧ (∀ y g, s'.gridHe y = some g → s.gridHe y = some g) ∧
      (Tight s → Tight s')
  | [], s, hi, _, _ => ⟨s, rfl, hi, rfl, by simp, rfl, rfl, fun _ _ h => h, fun _ _ h => h, fun h => h⟩
  | mk :: ks, s, hi, hn, hk => by
    rw [List.nodup_cons] at hn
    rw [cleanUp]
    by_cases ho : mk.1 ≠ z ∧ mk.2 = name
    · rw [if_pos ho]
      dsimp only
      have hfil : ∀ t : List ((ℚ × S) × Matcher), t = s.matchers.filter (fun e => e.1 ≠ mk) →
          t.filter (fun e => ¬ (e.1 ∈ ks ∧ Old z name e.1)) = s.matchers.filter (fun e => ¬ (e.1 ∈ mk :: ks ∧ Old z name e.1)) := by
        rintro t rfl
        rw [List.filter_filter]
        refine List.filter_congr fun e _ => ?_
        by_cases he : e.1 = mk
        · have : Old z name mk := ho
          simp [he, this]
        · simp [he]
      have hks : ∀ k ∈ ks, k ∈ (s.matchers.filter (fun e => e.1 ≠ mk)).map (·.1) := by
        intro k hkk
        obtain ⟨e, he, rfl⟩ := List.mem_map.1 (hk k (List.mem_cons_of_mem _ hkk))
        exact List.mem_map.2 ⟨e, List.mem_filter.2 ⟨he, by simpa using fun h : e.1 = mk => hn.1 (h ▸ hkk)⟩, rfl⟩
      have hnd : ((s.matchers.filter (fun e => e.1 ≠ mk)).map (·.1)).Nodup := hi.keys.sublist (List.Sublist.map _ List.filter_sublist)
      by_cases hany : (s.matchers.filter fun e => e.1 ≠ mk).any (fun e => decide (e.1.1 = mk.1)) = true
      · rw [if_pos hany]
        obtain ⟨s', i1, i2, i3, i4, i5, i6, i7, i8, i9⟩ := cleanUp_spec f z name ks { s with matchers := s.matchers.filter fun e => e.1 ≠ mk }
          ⟨hnd, hi.gridH, hi.gridHe, fun y n m hm => hi.own y n m (List.mem_filter.1 hm).1⟩ hn.2 hks
        refine ⟨s', i1, i2, i3, i4.trans (hfil _ rfl), i5, i6, i7, i8, fun ht => i9 ?_⟩
        intro y hy
        obtain ⟨n, m, hm⟩ := ht y hy
        by_cases hmk : (y, n) = mk
        · obtain ⟨e, he, hee⟩ := List.any_eq_true.1 hany
          rw [decide_eq_true_eq] at hee
          refine ⟨e.1.2, e.2, ?_⟩
          have : y = e.1.1 := by rw [hee, ← hmk]
          rw [this]
          exact he
        · exact ⟨n, m, List.mem_filter.2 ⟨hm, by simpa using hmk⟩⟩
      · rw [if_neg hany]
        obtain ⟨e, he, hee⟩ := List.mem_map.1 (hk mk (List.mem_cons_self ..))
        obtain ⟨_, _, _, g, g', o4, o5, _, _⟩ := hi.own mk.1 mk.2 e.2 (by
          have : ((mk.1, mk.2), e.2) = e := by rw [← hee]
          rw [this]; exact he)
        have hnone : ∀ y n m, ((y, n), m) ∈ s.matchers.filter (fun e => e.1 ≠ mk) → y ≠ mk.1 := by
          intro y n m hm hy
          exact hany (List.any_eq_true.2 ⟨_, hm, by simpa using hy⟩)
        rw [if_neg (by rw [o4]; simp), if_neg (by rw [o5]; simp)]
        obtain ⟨s', i1, i2, i3, i4, i5, i6, i7, i8, i9⟩ := cleanUp_spec f z name ks
          { s with
            matchers := s.matchers.filter fun e => e.1 ≠ mk
            gridH := Function.update s.gridH mk.1 none
            gridHe := Function.update s.gridHe mk.1 none }
          ⟨hnd, fun y g hg => by
            by_cases hy : y = mk.1
            · subst hy; simp at hg
            · dsimp only at hg; rw [Function.update_of_ne hy] at hg; exact hi.gridH y g hg, fun y g hg => by
            by_cases hy : y = mk.1
            · subst hy; simp at hg
            · dsimp only at hg; rw [Function.update_of_ne hy] at hg; exact hi.gridHe y g hg, fun y n m hm => by
            have hy := hnone y n m hm
            dsimp only
            rw [Function.update_of_ne hy, Function.update_of_ne hy]
            exact hi.own y n m (List.mem_filter.1 hm).1⟩ hn.2 hks
        refine ⟨s', i1, i2, i3, i4.trans (hfil _ rfl), ?_, ?_, fun y g hg => ?_, fun y g hg => ?_, fun ht => i9 ?_⟩
        · rw [i5]; dsimp only; rw [Function.update_of_ne ho.1.symm]
        · rw [i6]; dsimp only; rw [Function.update_of_ne ho.1.symm]
        · have := i7 y g hg
          dsimp only at this
          by_cases hy : y = mk.1
          · subst hy; simp at this
          · rwa [Function.update_of_ne hy] at this
        · have := i8 y g hg
          dsimp only at this
          by_cases hy : y = mk.1
          · subst hy; simp at this
          · rwa [Function.update_of_ne hy] at this
        · intro y hy
          dsimp only at hy ⊢
          by_cases hym : y = mk.1
          · subst hym; simp at hy
          · rw [Function.update_of_ne hym, Function.update_of_ne hym] at hy
            obtain ⟨n, m, hm⟩ := ht y hy
            exact ⟨n, m, List.mem_filter.2 ⟨hm, by simpa using fun h : (y, n) = mk => hym (by rw [← h])⟩⟩
    · rw [if_neg ho]
      obtain ⟨s', i1, i2, i3, i4, i5⟩ := cleanUp_spec f z name ks s hi hn.2 (fun k h => hk k (List.mem_cons_of_mem _ h))
      refine ⟨s', i1, i2, i3, i4.trans (List.filter_congr fun e _ => ?_), i5⟩
      by_cases he : e.1 = mk
      · have : ¬ Old z name mk := ho
        simp [he, this]
      · simp [he]

/-- A load of a step as a whole. -/
theorem checkMatcher_spec (f : Files) (s : State S) (hi : Inv f s) (z : ℚ) (name : S) (d : Dict) (hd : Fits d z) (s' : State S)
    (r : Except Err Matcher) (h : checkMatcher f s z name d = (s', r)) :
    Inv f s' ∧
      ((∃ m, r = .ok m ∧ ((z, name), m) ∈ s'.matchers ∧
          (∀ k, k ≠ .gridH → k ≠ .gridHe → m.kw k = setting (s.get (z, name)) d z k) ∧
          (∀ y n m', ((y, n), m') ∈ s'.matchers ↔ (((y, n), m') ∈ s.matchers ∧ n ≠ name) ∨ ((y, n), m') = ((z, name), m)) ∧
          (∀ y g, s'.gridH y = some g → y ≠ z → s.gridH y = some g) ∧ (∀ y g, s'.gridHe y = some g → y ≠ z → s.gridHe y = some g) ∧
          (∀ g, s.gridH z = some g → s'.gridH z = some g) ∧ (∀ g, s.gridHe z = some g → s'.gridHe z = some g) ∧
          (Tight s → Tight s')) ∨
        (∃ e, r = .error e ∧ s.get (z, name) = none ∧ s'.matchers = s.matchers ∧
          ((s' = s ∧ f.valid z = false) ∨ (s' = s ∧ s.gridH z = none ∧ f.openH z = false) ∨
            (s.gridHe z = none ∧ f.openHe z = false ∧ (s.gridH z = none → f.openH z = true))))) := by
  unfold checkMatcher at h
  cases hr : refresh f s z name d with
  | mk s1 r1 =>
    rw [hr] at h
    have i1 := refresh_inv f s hi z name d hd s1 r1 hr
    obtain ⟨c1, c2, c3, c4, c5⟩ := refresh_spec f s hi z name d hd s1 r1 hr
    rcases c5 with ⟨m, g, g', h1, h2, h3, h4, h5, h6, h7, h8, h9⟩ | ⟨e, h1, h2, h3, h4⟩
    · subst h1
      dsimp only at h
      obtain ⟨s2, k1, k2, k3, k4, k5, k6, k7, k8, k9⟩ := cleanUp_spec f z name (s1.matchers.map (·.1)) s1 i1 i1.keys (fun _ h => h)
      rw [k1] at h
      dsimp only at h
      have hin : ((z, name), m) ∈ s2.matchers := by
        rw [k4, List.mem_filter]
        refine ⟨by rw [h5]; exact mem_put.2 (.inr rfl), ?_⟩
        simp [Old]
      rw [mem_get k2.keys hin] at h
      cases h
      refine ⟨k2, .inl ⟨m, rfl, hin, h9, ?_, ?_, ?_, ?_, ?_, ?_⟩⟩
      · intro y n m'
        rw [k4, List.mem_filter, decide_eq_true_eq, h5, mem_put]
        constructor
        · rintro ⟨⟨hm, hne⟩ | hm, ho⟩
          · refine .inl ⟨hm, fun hn => ho ⟨List.mem_map.2 ⟨((y, n), m'), mem_put.2 (.inl ⟨hm, hne⟩), rfl⟩, ?_, hn⟩⟩
            intro hy
            exact hne (Prod.ext hy hn)
          · exact .inr hm
        · rintro (⟨hm, hn⟩ | hm)
          · exact ⟨.inl ⟨hm, fun h => hn (congrArg Prod.snd h)⟩, fun h => hn h.2.2⟩
          · refine ⟨.inr hm, fun h => h.2.1 ?_⟩
            rw [hm]
      · intro y g hg hy
        rw [← (c2 y hy).1]
        exact k7 y g hg
      · intro y g hg hy
        rw [← (c2 y hy).2]
        exact k8 y g hg
      · intro g hg
        rw [k5]
        exact c3 g hg
      · intro g hg
        rw [k6]
        exact c4 g hg
      · intro ht
        refine k9 fun y hy => ?_
        by_cases hyz : y = z
        · exact ⟨name, m, by rw [hyz, h5]; exact mem_put.2 (.inr rfl)⟩
        · rw [(c2 y hyz).1, (c2 y hyz).2] at hy
          obtain ⟨n, m', hm'⟩ := ht y hy
          exact ⟨n, m', by rw [h5]; exact mem_put.2 (.inl ⟨hm', fun h => hyz (congrArg Prod.fst h)⟩)⟩
    · subst h1
      cases h
      exact ⟨i1, .inr ⟨e, rfl, h2, h3, h4⟩⟩

theorem metallicity_fits (m : Option ℚ) (d : Dict) : Fits d (metallicity m d) := by
  intro q hq
  rw [metallicity, hq]
  rfl

end

end Verif.Matchers
