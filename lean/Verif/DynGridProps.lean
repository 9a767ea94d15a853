import Verif.DynGrid
import Mathlib.Tactic.Ring
/-!
Properties of grids which are run with several processes.
-/
namespace Verif.DynGrid

open Verif.Frame (Name)

variable {G P R : Type}

/-! ### Who has which point -/

theorem fromChild_append (c : ℕ) (a b : List (ℕ × P × R)) : fromChild c (a ++ b) = fromChild c a ++ fromChild c b := by
  simp [fromChild]

theorem fromChild_none {c : ℕ} {a : List (ℕ × P × R)} (h : ∀ m ∈ a, m.1 ≠ c) : fromChild c a = [] := by
  simp only [fromChild, List.map_eq_nil_iff, List.filter_eq_nil_iff, decide_eq_true_eq]
  exact h

theorem fromChild_same (c : ℕ) (p : P) (r : R) : fromChild c [(c, p, r)] = [p] := by simp [fromChild]

theorem fromChild_other {c d : ℕ} (h : c ≠ d) (p : P) (r : R) : fromChild d [(c, p, r)] = [] := by simp [fromChild, h]

theorem toChild_append (c : ℕ) (a b : List (ℕ × P)) : toChild c (a ++ b) = toChild c a ++ toChild c b := by simp [toChild]

theorem toChild_same (c : ℕ) (p : P) : toChild c [(c, p)] = [p] := by simp [toChild]

theorem toChild_other {c d : ℕ} (h : c ≠ d) (p : P) : toChild d [(c, p)] = [] := by simp [toChild, h]

/-- What a step does to the points of child `d`. -/
theorem owed_take {s : Config G P R} {c : ℕ} {p : P} {rest : List P} (hk : s.kids c = .waiting) (hb : s.boxes c = p :: rest) (d : ℕ) :
    owed { s with kids := Function.update s.kids c (.running p), boxes := Function.update s.boxes c rest } d = owed s d := by
  by_cases h : d = c
  · subst h
    simp [owed, hk, hb, onChild]
  · simp [owed, Function.update_of_ne h]

theorem owed_finish {s : Config G P R} {c : ℕ} {p : P} (r : R) (hk : s.kids c = .running p) (d : ℕ) :
    owed { s with kids := Function.update s.kids c .waiting, inbox := s.inbox ++ [(c, p, r)] } d = owed s d := by
  by_cases h : d = c
  · subst h
    simp [owed, hk, onChild, fromChild_append, fromChild_same]
  · simp [owed, Function.update_of_ne h, fromChild_append, fromChild_other (Ne.symm h)]

theorem owed_die {s : Config G P R} {c : ℕ} {p : P} (hk : s.kids c = .running p) (d : ℕ) :
    owed { s with kids := Function.update s.kids c (.dead p) } d = owed s d := by
  by_cases h : d = c
  · subst h
    simp [owed, hk, onChild]
  · simp [owed, Function.update_of_ne h]

theorem owed_send (s : Config G P R) (c : ℕ) (p : P) (r : Root G P) (d : ℕ) :
    owed (send s c p r) d = owed s d ++ toChild d [(c, p)] := by
  by_cases h : d = c
  · subst h
    simp [owed, send, toChild_same]
  · simp [owed, send, Function.update_of_ne h, toChild_other (Ne.symm h)]

theorem owed_receive {s : Config G P R} {pre post : List (ℕ × P × R)} {c : ℕ} {p : P} {r : R} (hi : s.inbox = pre ++ (c, p, r) :: post)
    (hp : ∀ m ∈ pre, m.1 ≠ c) (ro : Root G P) (f : Option G) (l : List (ℕ × P × R)) (d : ℕ) :
    owed s d = fromChild d [(c, p, r)] ++ owed { s with root := ro, inbox := pre ++ post, file := f, recorded := l } d := by
  have e : pre ++ (c, p, r) :: post = pre ++ ([(c, p, r)] ++ post) := rfl
  by_cases h : d = c
  · subst h
    simp only [owed, hi, e, fromChild_append, fromChild_none hp, List.nil_append, List.append_assoc]
  · simp only [owed, hi, e, fromChild_append, fromChild_other (Ne.symm h), List.nil_append]

/-- What holds at any time. -/
structure Flow (E : Env G P R) (s : Config G P R) : Prop where
  points : ∀ c, toChild c s.sent = fromChild c s.recorded ++ owed s c
  results : ∀ m ∈ s.recorded ++ s.inbox, E.runs m.2.1 m.2.2

theorem Flow.of_same {E : Env G P R} {s t : Config G P R} (h : Flow E s) (h1 : t.sent = s.sent) (h2 : t.recorded = s.recorded)
    (h3 : ∀ c, owed t c = owed s c) (h4 : ∀ m ∈ t.inbox, m ∈ s.inbox ∨ E.runs m.2.1 m.2.2) : Flow E t := by
  refine ⟨fun c => by rw [h1, h2, h3, h.points], fun m hm => ?_⟩
  rcases List.mem_append.1 hm with hm | hm
  · exact h.results m (List.mem_append_left _ (h2 ▸ hm))
  · rcases h4 m hm with h5 | h5
    · exact h.results m (List.mem_append_right _ h5)
    · exact h5

theorem Flow.receive {E : Env G P R} {s : Config G P R} (h : Flow E s) {pre post : List (ℕ × P × R)} {c : ℕ} {p : P} {r : R}
    (hi : s.inbox = pre ++ (c, p, r) :: post) (hp : ∀ m ∈ pre, m.1 ≠ c) (ro : Root G P) (f : Option G) :
    Flow E { s with root := ro, inbox := pre ++ post, file := f, recorded := s.recorded ++ [(c, p, r)] } := by
  refine ⟨fun d => ?_, fun m hm => h.results m ?_⟩
  · rw [h.points d, owed_receive hi hp ro f (s.recorded ++ [(c, p, r)]) d]
    simp only [fromChild_append, List.append_assoc]
  · simp only [List.mem_append, List.mem_singleton, hi, List.mem_cons] at hm ⊢
    tauto

theorem Flow.send {E : Env G P R} {s : Config G P R} (h : Flow E s) (c : ℕ) (p : P) (ro : Root G P) : Flow E (send s c p ro) := by
  refine ⟨fun d => ?_, h.results⟩
  rw [owed_send]
  show toChild d (s.sent ++ [(c, p)]) = fromChild d s.recorded ++ _
  rw [toChild_append, h.points d, List.append_assoc]

theorem flow_step {E : Env G P R} {s t : Config G P R} (h : Flow E s) (hs : Step E s t) : Flow E t := by
  cases hs with
  | propose _ _ => exact h.of_same rfl rfl (fun _ => rfl) fun m hm => .inl hm
  | proposeFails _ _ => exact h.of_same rfl rfl (fun _ => rfl) fun m hm => .inl hm
  | sendFirst _ _ _ => exact h.send _ _ _
  | sendFirstFails _ _ _ => exact h.of_same rfl rfl (fun _ => rfl) fun m hm => .inl hm
  | enter _ _ => exact h.of_same rfl rfl (fun _ => rfl) fun m hm => .inl hm
  | take _ _ hk hb => exact h.of_same rfl rfl (owed_take hk hb) fun m hm => .inl hm
  | finish hk _ hr =>
    refine h.of_same rfl rfl (owed_finish _ hk) fun m hm => ?_
    rcases List.mem_append.1 hm with hm | hm
    · exact .inl hm
    · rw [List.mem_singleton.1 hm]; exact .inr hr
  | die hk _ => exact h.of_same rfl rfl (owed_die hk) fun m hm => .inl hm
  | round _ _ hi hp _ _ => exact (h.receive hi hp _ _).send _ _ _
  | putFails _ _ _ _ _ => exact h.of_same rfl rfl (fun _ => rfl) fun m hm => .inl hm
  | roundFails _ _ hi hp _ _ => exact h.receive hi hp _ _
  | leave _ _ => exact h.of_same rfl rfl (fun _ => rfl) fun m hm => .inl hm

theorem flow {E : Env G P R} {g : G} {f : Option G} {s : Config G P R} (h : Reach E g f s) : Flow E s := by
  induction h with
  | init => exact ⟨fun c => by simp [init, owed, toChild, fromChild, onChild], by simp [init]⟩
  | step _ hs ih => exact flow_step ih hs

/-- In every order in which the processes make their steps: the points sent to a child are, in this order, those whose results are in the
grid, those whose results wait for the root, the one the child is working on and those which wait for the child, so no point is run twice
and no result gets lost under way; and each result belongs to the point it was made for. -/
theorem C133_flow {E : Env G P R} {g : G} {f : Option G} {s : Config G P R} (h : Reach E g f s) (c : ℕ) :
    toChild c s.sent = fromChild c s.recorded ++ fromChild c s.inbox ++ onChild (s.kids c) ++ s.boxes c ∧
    ∀ m ∈ s.recorded, E.runs m.2.1 m.2.2 := by
  refine ⟨?_, fun m hm => (flow h).results m (List.mem_append_left _ hm)⟩
  rw [(flow h).points c]
  simp only [owed, List.append_assoc]

/-! ### What the root does -/

/-- What holds for the place the root is at. -/
def At (E : Env G P R) (g0 : G) (f0 : Option G) (s : Config G P R) : Prop :=
  match s.root with
  | .start g => g = g0 ∧ s.sent = [] ∧ s.recorded = [] ∧ s.file = f0 ∧ ∀ c, (owed s c).length = 0
  | .first c ps g => g = g0 ∧ E.next g0 E.size = some ps ∧ 1 ≤ c ∧ c ≤ max 1 E.size ∧ s.sent.map (·.1) = List.range' 1 (c - 1) ∧
      s.sent.map (·.2) = ps.take (c - 1) ∧ s.recorded = [] ∧ s.file = f0 ∧ ∀ d, (owed s d).length = if 1 ≤ d ∧ d < c then 1 else 0
  | .loop n g => n ≤ E.niter ∧ s.recorded.length = n ∧ grown E g0 (s.recorded.map (·.2.2)) = some g ∧
      s.file = (if n = 0 then f0 else some g) ∧ s.sent.length = E.size - 1 + n ∧ ∀ d, (owed s d).length = if 1 ≤ d ∧ d < E.size then 1 else 0
  | .done g => s.recorded.length = E.niter ∧ grown E g0 (s.recorded.map (·.2.2)) = some g ∧
      s.file = (if E.niter = 0 then f0 else some g) ∧ s.sent.length = E.size - 1 + E.niter ∧
      ∀ d, (owed s d).length = if 1 ≤ d ∧ d < E.size then 1 else 0
  | .failed => s.recorded.length ≤ E.niter ∧ (∃ g, grown E g0 (s.recorded.map (·.2.2)) = some g ∧
      s.file = if s.recorded = [] then f0 else some g) ∧ ∀ d, (owed s d).length ≤ 1

theorem At.of_same {E : Env G P R} {g0 : G} {f0 : Option G} {s t : Config G P R} (h : At E g0 f0 s) (h0 : t.root = s.root) (h1 : t.sent = s.sent)
    (h2 : t.recorded = s.recorded) (h3 : t.file = s.file) (h4 : ∀ c, owed t c = owed s c) : At E g0 f0 t := by
  unfold At at h ⊢
  rw [h0, h1, h2, h3]
  simp only [h4]
  exact h

theorem grown_append (E : Env G P R) (g : G) (rs : List R) (r : R) : grown E g (rs ++ [r]) = (grown E g rs).bind fun g => E.put g r := by
  simp [grown]

theorem at_step {E : Env G P R} {g0 : G} {f0 : Option G} {s t : Config G P R} (h : At E g0 f0 s) (hs : Step E s t) : At E g0 f0 t := by
  cases hs with
  | @propose g ps hr hn =>
    unfold At at h ⊢
    rw [hr] at h
    obtain ⟨rfl, h1, h2, h3, h4⟩ := h
    refine ⟨rfl, hn, le_refl _, le_max_left _ _, by simp [h1], by simp [h1], h2, h3, fun d => ?_⟩
    have e : ¬ (1 ≤ d ∧ d < 1) := by omega
    rw [if_neg e]
    exact h4 d
  | proposeFails hr hn =>
    unfold At at h ⊢
    rw [hr] at h
    obtain ⟨rfl, h1, h2, h3, h4⟩ := h
    refine ⟨by simp [h2], ⟨_, by rw [h2]; rfl, by simp [h2, h3]⟩, fun d => ?_⟩
    exact (h4 d).le.trans (Nat.zero_le 1)
  | @sendFirst c ps g p hr hc hp =>
    unfold At at h ⊢
    rw [hr] at h
    obtain ⟨rfl, h1, h2, h3, h4, h5, h6, h7, h8⟩ := h
    have hl : c - 1 < ps.length := (List.getElem?_eq_some_iff.1 hp).1
    refine ⟨rfl, h1, by omega, ?_, ?_, ?_, h6, h7, fun d => ?_⟩
    · have := le_max_right 1 E.size
      omega
    · show (s.sent ++ [(c, p)]).map (·.1) = _
      obtain ⟨k, rfl⟩ : ∃ k, c = k + 1 := ⟨c - 1, by omega⟩
      rw [List.map_append, h4]
      simp only [Nat.add_sub_cancel, List.map_cons, List.map_nil, List.range'_concat]
      simp [Nat.add_comm]
    · show (s.sent ++ [(c, p)]).map (·.2) = _
      obtain ⟨k, rfl⟩ : ∃ k, c = k + 1 := ⟨c - 1, by omega⟩
      rw [List.map_append, h5]
      simp only [Nat.add_sub_cancel, List.map_cons, List.map_nil] at hp hl ⊢
      rw [List.take_add_one, hp]
      rfl
    · rw [owed_send, List.length_append, h8 d]
      by_cases hd : d = c
      · subst hd
        rw [toChild_same, if_neg (by omega), if_pos ⟨h2, by omega⟩]
        rfl
      · rw [toChild_other (Ne.symm hd)]
        by_cases hlt : 1 ≤ d ∧ d < c
        · rw [if_pos hlt, if_pos ⟨hlt.1, by omega⟩]
          rfl
        · rw [if_neg hlt, if_neg (by omega)]
          rfl
  | sendFirstFails hr hc hp =>
    unfold At at h ⊢
    rw [hr] at h
    obtain ⟨rfl, h1, h2, h3, h4, h5, h6, h7, h8⟩ := h
    refine ⟨by simp [h6], ⟨_, by rw [h6]; rfl, by simp [h6, h7]⟩, fun d => ?_⟩
    refine (h8 d).le.trans ?_
    split_ifs <;> omega
  | @enter c ps g hr hc =>
    unfold At at h ⊢
    rw [hr] at h
    obtain ⟨rfl, h1, h2, h3, h4, h5, h6, h7, h8⟩ := h
    have hl : s.sent.length = c - 1 := by
      have := congrArg List.length h4
      simpa using this
    have hm : c - 1 = E.size - 1 := by omega
    refine ⟨Nat.zero_le _, by simp [h6], by rw [h6]; rfl, by simp [h7], ?_, fun d => ?_⟩
    · show s.sent.length = _
      omega
    · refine (h8 d).trans ?_
      by_cases hlt : 1 ≤ d ∧ d < c
      · rw [if_pos hlt, if_pos (by omega)]
      · rw [if_neg hlt, if_neg (by omega)]
  | take _ _ hk hb => exact h.of_same rfl rfl rfl rfl (owed_take hk hb)
  | finish hk _ _ => exact h.of_same rfl rfl rfl rfl (owed_finish _ hk)
  | die hk _ => exact h.of_same rfl rfl rfl rfl (owed_die hk)
  | @round n g pre c p r post g' q qs hr hn hi hp hg hq =>
    unfold At at h ⊢
    rw [hr] at h
    obtain ⟨h1, h2, h3, h4, h5, h6⟩ := h
    refine ⟨hn, ?_, ?_, ?_, ?_, fun d => ?_⟩
    · show (s.recorded ++ [(c, p, r)]).length = _
      rw [List.length_append, h2]
      rfl
    · show grown E g0 ((s.recorded ++ [(c, p, r)]).map _) = _
      rw [List.map_append]
      refine (grown_append E g0 _ r).trans ?_
      rw [h3]
      exact hg
    · rw [if_neg (Nat.succ_ne_zero n)]
      rfl
    · show (s.sent ++ [(c, q)]).length = _
      rw [List.length_append, h5]
      simp only [List.length_cons, List.length_nil]
      omega
    · have e := h6 d
      rw [owed_receive hi hp s.root (some g') (s.recorded ++ [(c, p, r)]) d] at e
      have e2 := owed_send { s with inbox := pre ++ post, file := some g', recorded := s.recorded ++ [(c, p, r)] } c q (Root.loop (n + 1) g') d
      refine (congrArg List.length e2).trans ?_
      rw [List.length_append]
      by_cases hd : d = c
      · subst hd
        rw [fromChild_same, List.length_append] at e
        rw [toChild_same]
        rw [← e, Nat.add_comm]
        rfl
      · rw [fromChild_other (Ne.symm hd), List.nil_append] at e
        rw [toChild_other (Ne.symm hd)]
        exact e
  | putFails hr hn hi hp hg =>
    unfold At at h ⊢
    rw [hr] at h
    obtain ⟨h1, h2, h3, h4, h5, h6⟩ := h
    refine ⟨h2.le.trans h1, ⟨_, h3, ?_⟩, fun d => ?_⟩
    · show s.file = if s.recorded = [] then f0 else _
      rw [h4, ← h2]
      simp only [List.length_eq_zero_iff]
    · refine (h6 d).le.trans ?_
      split_ifs <;> omega
  | @roundFails n g pre c p r post g' hr hn hi hp hg hq =>
    unfold At at h ⊢
    rw [hr] at h
    obtain ⟨h1, h2, h3, h4, h5, h6⟩ := h
    refine ⟨?_, ⟨g', ?_, ?_⟩, fun d => ?_⟩
    · show (s.recorded ++ [(c, p, r)]).length ≤ _
      rw [List.length_append, h2]
      exact hn
    · show grown E g0 ((s.recorded ++ [(c, p, r)]).map _) = _
      rw [List.map_append]
      refine (grown_append E g0 _ r).trans ?_
      rw [h3]
      exact hg
    · show some g' = if s.recorded ++ [(c, p, r)] = [] then f0 else some g'
      rw [if_neg (by simp)]
    · have e := h6 d
      rw [owed_receive hi hp Root.failed (some g') (s.recorded ++ [(c, p, r)]) d, List.length_append] at e
      have : (if 1 ≤ d ∧ d < E.size then 1 else 0) ≤ 1 := by split_ifs <;> omega
      exact (Nat.le_add_left _ _).trans (e.le.trans this)
  | @leave n g hr hn =>
    unfold At at h ⊢
    rw [hr] at h
    obtain ⟨h1, h2, h3, h4, h5, h6⟩ := h
    have hm : n = E.niter := by omega
    subst hm
    exact ⟨h2, h3, h4, h5, h6⟩

theorem atAll {E : Env G P R} {g : G} {f : Option G} {s : Config G P R} (h : Reach E g f s) : At E g f s := by
  induction h with
  | init => exact ⟨rfl, rfl, rfl, rfl, fun c => rfl⟩
  | step _ hs ih => exact at_step ih hs

/-- After `n` rounds, in any order of the steps: the grid is the first one with `n` results, in the order they came, the file holds exactly
this grid, and each child has exactly one point whose result is not in the grid yet. -/
theorem C133_rounds {E : Env G P R} {g0 g : G} {f : Option G} {s : Config G P R} (h : Reach E g0 f s) {n : ℕ} (hr : s.root = .loop n g) :
    n ≤ E.niter ∧ s.recorded.length = n ∧ grown E g0 (s.recorded.map (·.2.2)) = some g ∧ (0 < n → s.file = some g) ∧
    s.sent.length = E.size - 1 + n ∧ ∀ c, 1 ≤ c → c < E.size → (owed s c).length = 1 := by
  have := atAll h
  unfold At at this
  rw [hr] at this
  obtain ⟨h1, h2, h3, h4, h5, h6⟩ := this
  refine ⟨h1, h2, h3, fun hn => ?_, h5, fun c hc hlt => ?_⟩
  · rw [h4, if_neg (by omega)]
  · rw [h6 c, if_pos ⟨hc, hlt⟩]

/-- When the root has finished, the grid has exactly `Niter` new results. -/
theorem C133_finished {E : Env G P R} {g0 g : G} {f : Option G} {s : Config G P R} (h : Reach E g0 f s) (hr : s.root = .done g) :
    s.recorded.length = E.niter ∧ grown E g0 (s.recorded.map (·.2.2)) = some g ∧ (0 < E.niter → s.file = some g) := by
  have := atAll h
  unfold At at this
  rw [hr] at this
  obtain ⟨h2, h3, h4, h5, h6⟩ := this
  refine ⟨h2, h3, fun hn => ?_⟩
  rw [h4, if_neg (by omega)]

/-- Then each child still has a point: the results of as many runs as there are children never get into the grid. -/
theorem C133_lost_violated {E : Env G P R} {g0 g : G} {f : Option G} {s : Config G P R} (h : Reach E g0 f s) (hr : s.root = .done g) :
    s.sent.length = s.recorded.length + (E.size - 1) ∧ ∀ c, 1 ≤ c → c < E.size → (owed s c).length = 1 := by
  have := atAll h
  unfold At at this
  rw [hr] at this
  obtain ⟨h2, h3, h4, h5, h6⟩ := this
  refine ⟨by omega, fun c hc hlt => ?_⟩
  rw [h6 c, if_pos ⟨hc, hlt⟩]

/-- Whenever the root raises, the file holds the grid with all results so far. -/
theorem C133_failed_file {E : Env G P R} {g0 : G} {f : Option G} {s : Config G P R} (h : Reach E g0 f s) (hr : s.root = .failed) :
    ∃ g, grown E g0 (s.recorded.map (·.2.2)) = some g ∧ (s.recorded ≠ [] → s.file = some g) ∧ (s.recorded = [] → s.file = f) := by
  have := atAll h
  unfold At at this
  rw [hr] at this
  obtain ⟨-, ⟨g, h1, h2⟩, -⟩ := this
  refine ⟨g, h1, fun hn => ?_, fun hn => ?_⟩
  · rw [h2, if_neg hn]
  · rw [h2, if_pos hn]

/-! ### The first points -/

/-- The first children get the first of the proposed points, one each in their order; ever after the loop begins. -/
theorem C133_first {E : Env G P R} {g0 g : G} {f : Option G} {s : Config G P R} (h : Reach E g0 f s) {c : ℕ} {ps : List P} (hr : s.root = .first c ps g) :
    E.next g0 E.size = some ps ∧ s.sent.map (·.1) = List.range' 1 (c - 1) ∧ s.sent.map (·.2) = ps.take (c - 1) ∧ c - 1 ≤ E.size - 1 := by
  have := atAll h
  unfold At at this
  rw [hr] at this
  obtain ⟨h0, h1, h2, h3, h4, h5, h6, h7, h8⟩ := this
  exact ⟨h1, h4, h5, by omega⟩

/-- As many points as there are processes are proposed, the root runs none: the last of them is given to nobody. -/
theorem C133_unused_violated {E : Env G P R} {g0 g : G} {f : Option G} {s : Config G P R} (h : Reach E g0 f s) {ps : List P} {c : ℕ} (hr : s.root = .first c ps g)
    (hc : ¬ c < E.size) (hl : ps.length = E.size) (hs : 1 ≤ E.size) : s.sent.map (·.2) = ps.dropLast ∧ s.sent.length + 1 = ps.length := by
  have := atAll h
  unfold At at this
  rw [hr] at this
  obtain ⟨h0, h1, h2, h3, h4, h5, h6, h7, h8⟩ := this
  have e : c - 1 = ps.length - 1 := by
    have := max_eq_right hs
    omega
  have h9 : s.sent.map (·.2) = ps.dropLast := by rw [h5, e, List.dropLast_eq_take]
  refine ⟨h9, ?_⟩
  have := congrArg List.length h9
  rw [List.length_map, List.length_dropLast] at this
  omega

/-! ### The end -/

theorem sum_update {n c : ℕ} (hc : c < n) (f : ℕ → ℕ) (v : ℕ) :
    ∑ d ∈ Finset.range n, f d + v = ∑ d ∈ Finset.range n, Function.update f c v d + f c := by
  rw [Finset.sum_update_of_mem (Finset.mem_range.2 hc), ← Finset.add_sum_erase _ f (Finset.mem_range.2 hc), Finset.sdiff_singleton_eq_erase]
  omega

theorem childWork_same {s t : Config G P R} {c : ℕ} (h1 : t.boxes c = s.boxes c) (h2 : t.kids c = s.kids c) : childWork t c = childWork s c := by
  unfold childWork
  rw [h1, h2]

/-- The sum when only child `c` has changed. -/
theorem sum_childWork {E : Env G P R} {s t : Config G P R} {c : ℕ} (hc : c < E.size) (h1 : ∀ d, d ≠ c → t.boxes d = s.boxes d)
    (h2 : ∀ d, d ≠ c → t.kids d = s.kids d) :
    ∑ d ∈ Finset.range E.size, childWork s d + childWork t c = ∑ d ∈ Finset.range E.size, childWork t d + childWork s c := by
  have e : childWork t = Function.update (childWork s) c (childWork t c) := by
    funext d
    by_cases h : d = c
    · subst h; simp
    · rw [Function.update_of_ne h, childWork_same (h1 d h) (h2 d h)]
  have := sum_update hc (childWork s) (childWork t c)
  rw [← e] at this
  exact this

theorem step_child_bound {E : Env G P R} {g0 : G} {f : Option G} {s : Config G P R} (h : Reach E g0 f s) {c : ℕ} (ho : owed s c ≠ []) :
    1 ≤ c ∧ c < E.size := by
  have key : ∀ d ∈ s.sent, 1 ≤ d.1 ∧ d.1 < E.size := by
    clear ho
    induction h with
    | init => intro d hd; cases hd
    | @step s t hr hs ih =>
      cases hs with
      | @sendFirst c ps g p h1 h2 h3 =>
        intro d hd
        rcases List.mem_append.1 hd with hd | hd
        · exact ih d hd
        · rw [List.mem_singleton.1 hd]
          have := atAll hr
          unfold At at this
          rw [h1] at this
          exact ⟨this.2.2.1, h2⟩
      | @round n g pre c p r post g' q qs h1 h2 hi hp hg hq =>
        intro d hd
        rcases List.mem_append.1 hd with hd | hd
        · exact ih d hd
        · rw [List.mem_singleton.1 hd]
          have h3 := (flow hr).points c
          have h4 : p ∈ toChild c s.sent := by
            rw [h3]
            refine List.mem_append_right _ ?_
            rw [owed_receive hi hp s.root s.file s.recorded c, fromChild_same]
            simp
          simp only [toChild, List.mem_map, List.mem_filter, decide_eq_true_eq] at h4
          obtain ⟨a, ⟨ha, hac⟩, -⟩ := h4
          have := ih a ha
          rw [hac] at this
          exact this
      | propose _ _ => exact ih
      | proposeFails _ _ => exact ih
      | sendFirstFails _ _ _ => exact ih
      | enter _ _ => exact ih
      | take _ _ _ _ => exact ih
      | finish _ _ _ => exact ih
      | die _ _ => exact ih
      | putFails _ _ _ _ _ => exact ih
      | roundFails _ _ _ _ _ _ => exact ih
      | leave _ _ => exact ih
  obtain ⟨p, hp⟩ := List.exists_mem_of_ne_nil _ ho
  have h4 : p ∈ toChild c s.sent := by
    rw [(flow h).points c]
    exact List.mem_append_right _ hp
  simp only [toChild, List.mem_map, List.mem_filter, decide_eq_true_eq] at h4
  obtain ⟨a, ⟨ha, hac⟩, -⟩ := h4
  have := key a ha
  rw [hac] at this
  exact this

theorem work_step {E : Env G P R} {g0 : G} {f : Option G} {s t : Config G P R} (h : Reach E g0 f s) (hs : Step E s t) : work E t < work E s := by
  have hat := atAll h
  unfold work
  cases hs with
  | propose hr hn =>
    have e : ∀ (x : Root G P) d, childWork { s with root := x } d = childWork s d := fun _ _ => rfl
    rw [hr]
    simp only [rootWork, e]
    omega
  | proposeFails hr hn =>
    rw [hr]
    have e : ∀ (x : Root G P) d, childWork { s with root := x } d = childWork s d := fun _ _ => rfl
    simp only [rootWork, e]
    omega
  | @sendFirst c ps g p hr hc hp =>
    have e := sum_childWork (E := E) (s := s) (t := send s c p (.first (c + 1) ps g)) hc (fun d hd => by simp [send, Function.update_of_ne hd]) (fun d hd => rfl)
    have e2 : childWork (send s c p (.first (c + 1) ps g)) c = childWork s c + 2 := by
      simp only [childWork, send, Function.update_self, List.length_append, List.length_cons, List.length_nil]
      omega
    rw [hr]
    simp only [rootWork]
    have e3 : (send s c p (.first (c + 1) ps g)).root = .first (c + 1) ps g := rfl
    rw [e3]
    simp only [rootWork]
    omega
  | sendFirstFails hr hc hp =>
    rw [hr]
    have e : ∀ (x : Root G P) d, childWork { s with root := x } d = childWork s d := fun _ _ => rfl
    simp only [rootWork, e]
    omega
  | enter hr hc =>
    rw [hr]
    have e : ∀ (x : Root G P) d, childWork { s with root := x } d = childWork s d := fun _ _ => rfl
    simp only [rootWork, e]
    omega
  | @take c p rest h1 hc hk hb =>
    have e := sum_childWork (E := E) (s := s)
      (t := { s with kids := Function.update s.kids c (.running p), boxes := Function.update s.boxes c rest }) hc
      (fun d hd => by simp [Function.update_of_ne hd]) (fun d hd => by simp [Function.update_of_ne hd])
    have e2 : childWork { s with kids := Function.update s.kids c (.running p), boxes := Function.update s.boxes c rest } c + 1 = childWork s c := by
      simp only [childWork, Function.update_self, hk, hb, List.length_cons]
      omega
    simp only [] at e ⊢
    omega
  | @finish c p r hk _ _ =>
    have hc : c < E.size := (step_child_bound h (c := c) (by simp [owed, hk, onChild])).2
    have e := sum_childWork (E := E) (s := s)
      (t := { s with kids := Function.update s.kids c .waiting, inbox := s.inbox ++ [(c, p, r)] }) hc
      (fun d hd => rfl) (fun d hd => by simp [Function.update_of_ne hd])
    have e2 : childWork { s with kids := Function.update s.kids c .waiting, inbox := s.inbox ++ [(c, p, r)] } c + 1 = childWork s c := by
      simp only [childWork, Function.update_self, hk]
    simp only [] at e ⊢
    omega
  | @die c p hk _ =>
    have hc : c < E.size := (step_child_bound h (c := c) (by simp [owed, hk, onChild])).2
    have e := sum_childWork (E := E) (s := s) (t := { s with kids := Function.update s.kids c (.dead p) }) hc
      (fun d hd => rfl) (fun d hd => by simp [Function.update_of_ne hd])
    have e2 : childWork { s with kids := Function.update s.kids c (.dead p) } c + 1 = childWork s c := by
      simp only [childWork, Function.update_self, hk]
    simp only [] at e ⊢
    omega
  | @round n g pre c p r post g' q qs hr hn hi hp hg hq =>
    have hc : c < E.size := (step_child_bound h (c := c) (by
      rw [owed_receive hi hp s.root s.file s.recorded c, fromChild_same]; simp)).2
    have e := sum_childWork (E := E) (s := s)
      (t := send { s with inbox := pre ++ post, file := some g', recorded := s.recorded ++ [(c, p, r)] } c q (.loop (n + 1) g')) hc
      (fun d hd => by simp [send, Function.update_of_ne hd]) (fun d hd => rfl)
    have e2 : childWork (send { s with inbox := pre ++ post, file := some g', recorded := s.recorded ++ [(c, p, r)] } c q (.loop (n + 1) g')) c = childWork s c + 2 := by
      simp only [childWork, send, Function.update_self, List.length_append, List.length_cons, List.length_nil]
      omega
    have e4 : rootWork E s.root = 4 * (E.niter - n) + 1 := by rw [hr]; rfl
    have e5 : rootWork E (send { s with inbox := pre ++ post, file := some g', recorded := s.recorded ++ [(c, p, r)] } c q (.loop (n + 1) g')).root =
      4 * (E.niter - (n + 1)) + 1 := rfl
    show rootWork E (send { s with inbox := pre ++ post, file := some g', recorded := s.recorded ++ [(c, p, r)] } c q (.loop (n + 1) g')).root +
      ∑ d ∈ Finset.range E.size, childWork (send { s with inbox := pre ++ post, file := some g', recorded := s.recorded ++ [(c, p, r)] } c q (.loop (n + 1) g')) d < _
    omega
  | putFails hr hn hi hp hg =>
    rw [hr]
    have e : ∀ (x : Root G P) d, childWork { s with root := x } d = childWork s d := fun _ _ => rfl
    simp only [rootWork, e]
    omega
  | @roundFails n g pre c p r post g' hr hn hi hp hg hq =>
    rw [hr]
    have e : ∀ d, childWork { s with root := Root.failed, inbox := pre ++ post, file := some g', recorded := s.recorded ++ [(c, p, r)] } d = childWork s d := fun d => rfl
    simp only [rootWork, e]
    omega
  | leave hr hn =>
    rw [hr]
    have e : ∀ (x : Root G P) d, childWork { s with root := x } d = childWork s d := fun _ _ => rfl
    simp only [rootWork, e]
    omega

theorem Steps.reach {E : Env G P R} {g0 : G} {f : Option G} {n : ℕ} {t : Config G P R} (h : Steps E n (init g0 f) t) : Reach E g0 f t := by
  generalize hs : init g0 f = s at h
  induction h with
  | nil => exact hs ▸ .init
  | cons _ hst ih => exact .step (ih hs) hst

/-- Whatever the order of the steps, after a bounded number of them no process can go on. -/
theorem C133_bounded {E : Env G P R} {g0 : G} {f : Option G} {n : ℕ} {t : Config G P R} (h : Steps E n (init g0 f) t) :
    n ≤ 4 * (E.size + E.niter) + 3 := by
  have key : n + work E t ≤ work E (init g0 f : Config G P R) := by
    generalize hs : init g0 f = s at h
    induction h with
    | nil => omega
    | cons h1 h2 ih =>
      have := ih hs
      subst hs
      have := work_step h1.reach h2
      omega
  have e : work E (init g0 f : Config G P R) = 4 * (E.size + E.niter) + 3 := by
    unfold work init rootWork childWork
    simp
  omega

/-- The first message of each child that has one can be taken. -/
theorem first_of {c : ℕ} : ∀ {l : List (ℕ × P × R)}, fromChild c l ≠ [] → ∃ pre p r post, l = pre ++ (c, p, r) :: post ∧ ∀ m ∈ pre, m.1 ≠ c
  | [], h => absurd rfl h
  | (d, p, r) :: l, h => by
    by_cases hd : d = c
    · subst hd
      exact ⟨[], p, r, l, rfl, fun m hm => by cases hm⟩
    · have h2 : fromChild c l ≠ [] := by
        intro e
        refine h ?_
        have : fromChild c ([(d, p, r)] ++ l) = [] := by rw [fromChild_append, fromChild_other hd, e]; rfl
        exact this
      obtain ⟨pre, p', r', post, e, hpre⟩ := first_of h2
      refine ⟨(d, p, r) :: pre, p', r', post, by rw [e]; rfl, fun m hm => ?_⟩
      rcases List.mem_cons.1 hm with rfl | hm
      · exact hd
      · exact hpre m hm

/-- With a child at least and points that have their parameters, the processes never wait for each other as long as the root has not
finished: some process can make a step. -/
theorem C133_progress {E : Env G P R} {g0 : G} {f : Option G} {s : Config G P R} (h : Reach E g0 f s) (hsize : 2 ≤ E.size)
    (hok : ∀ p, E.ok p = true) (hrun : ∀ p, ∃ r, E.runs p r) (hr : s.root ≠ .failed) (hd : ∀ g, s.root ≠ .done g) : ∃ t, Step E s t := by
  have hat := atAll h
  unfold At at hat
  cases hroot : s.root with
  | start g =>
    cases hn : E.next g E.size with
    | none => exact ⟨_, .proposeFails hroot hn⟩
    | some ps => exact ⟨_, .propose hroot hn⟩
  | first c ps g =>
    by_cases hc : c < E.size
    · cases hp : ps[c - 1]? with
      | none => exact ⟨_, .sendFirstFails hroot hc hp⟩
      | some p => exact ⟨_, .sendFirst hroot hc hp⟩
    · exact ⟨_, .enter hroot hc⟩
  | loop n g =>
    by_cases hn : n < E.niter
    · rw [hroot] at hat
      obtain ⟨h1, h2, h3, h4, h5, h6⟩ := hat
      have ho := h6 1
      rw [if_pos ⟨le_refl 1, by omega⟩] at ho
      by_cases hi : fromChild 1 s.inbox = []
      · cases hk : s.kids 1 with
        | waiting =>
          cases hb : s.boxes 1 with
          | nil => simp [owed, hi, hk, hb, onChild] at ho
          | cons p rest => exact ⟨_, .take (le_refl 1) (by omega) hk hb⟩
        | running p =>
          obtain ⟨r, hr⟩ := hrun p
          exact ⟨_, .finish hk (hok p) hr⟩
        | dead p =>
          exfalso
          have hdead : ∀ c p, s.kids c ≠ .dead p := by
            clear ho hk hi hroot hr hd h1 h2 h3 h4 h5 h6
            induction h with
            | init => intro c p; exact fun e => by cases e
            | @step s t _ hs ih =>
              cases hs with
              | @take c' p' rest _ _ _ _ =>
                intro c p
                by_cases e : c = c'
                · subst e; simp
                · simp only [Function.update_of_ne e]; exact ih c p
              | @finish c' p' r _ _ _ =>
                intro c p
                by_cases e : c = c'
                · subst e; simp
                · simp only [Function.update_of_ne e]; exact ih c p
              | @die c' p' _ hf => rw [hok] at hf; cases hf
              | propose _ _ => exact ih
              | proposeFails _ _ => exact ih
              | sendFirst _ _ _ => exact ih
              | sendFirstFails _ _ _ => exact ih
              | enter _ _ => exact ih
              | round _ _ _ _ _ _ => exact ih
              | putFails _ _ _ _ _ => exact ih
              | roundFails _ _ _ _ _ _ => exact ih
              | leave _ _ => exact ih
          exact hdead 1 p hk
      · obtain ⟨pre, p, r, post, e, hpre⟩ := first_of hi
        cases hg : E.put g r with
        | none => exact ⟨_, .putFails hroot hn e hpre hg⟩
        | some g' =>
          cases hq : E.next g' 1 with
          | none => exact ⟨_, .roundFails hroot hn e hpre hg (.inl hq)⟩
          | some l =>
            cases l with
            | nil => exact ⟨_, .roundFails hroot hn e hpre hg (.inr hq)⟩
            | cons q qs => exact ⟨_, .round hroot hn e hpre hg hq⟩
    · exact ⟨_, .leave hroot hn⟩
  | done g => exact absurd hroot (hd g)
  | failed => exact absurd hroot hr

/-- If points are always found and results can always be added, the root never raises. -/
theorem never_fails {E : Env G P R} {g0 : G} {f : Option G} {s : Config G P R} (h : Reach E g0 f s)
    (hnext : ∀ g n, ∃ ps, E.next g n = some ps ∧ n ≤ ps.length) (hput : ∀ g r, ∃ g', E.put g r = some g') : s.root ≠ .failed := by
  induction h with
  | init => exact fun e => by cases e
  | @step s t hr hs ih =>
    cases hs with
    | @proposeFails g h1 h2 =>
      obtain ⟨ps, h3, -⟩ := hnext g E.size
      rw [h2] at h3
      cases h3
    | @sendFirstFails c ps g h1 h2 h3 =>
      have h4 := (C133_first hr h1).1
      obtain ⟨ps', h5, h6⟩ := hnext g0 E.size
      rw [h4] at h5
      obtain rfl := Option.some.inj h5
      have := List.getElem?_eq_none_iff.1 h3
      omega
    | @putFails n g pre c p r post h1 h2 h3 h4 h5 =>
      obtain ⟨g', h6⟩ := hput g r
      rw [h5] at h6
      cases h6
    | @roundFails n g pre c p r post g' h1 h2 h3 h4 h5 h6 =>
      obtain ⟨ps, h7, h8⟩ := hnext g' 1
      rcases h6 with h6 | h6
      · rw [h6] at h7; cases h7
      · rw [h6] at h7
        obtain rfl := Option.some.inj h7
        simp at h8
    | propose _ _ => exact fun e => by cases e
    | sendFirst _ _ _ => exact fun e => by cases e
    | enter _ _ => exact fun e => by cases e
    | take _ _ _ _ => exact ih
    | finish _ _ _ => exact ih
    | die _ _ => exact ih
    | round _ _ _ _ _ _ => exact fun e => by cases e
    | leave _ _ => exact fun e => by cases e

/-- Then every execution that cannot go on has all results that were asked for in the grid and in the file. -/
theorem C133_complete {E : Env G P R} {g0 : G} {f : Option G} {s : Config G P R} (h : Reach E g0 f s) (hsize : 2 ≤ E.size)
    (hok : ∀ p, E.ok p = true) (hrun : ∀ p, ∃ r, E.runs p r)
    (hnext : ∀ g n, ∃ ps, E.next g n = some ps ∧ n ≤ ps.length) (hput : ∀ g r, ∃ g', E.put g r = some g') (hstuck : Stuck E s) :
    ∃ g, s.root = .done g ∧ s.recorded.length = E.niter ∧ grown E g0 (s.recorded.map (·.2.2)) = some g ∧ (0 < E.niter → s.file = some g) := by
  by_cases hd : ∃ g, s.root = .done g
  · obtain ⟨g, hg⟩ := hd
    obtain ⟨h1, h2, h3⟩ := C133_finished h hg
    exact ⟨g, hg, h1, h2, h3⟩
  · exfalso
    obtain ⟨t, ht⟩ := C133_progress h hsize hok hrun (never_fails h hnext hput) fun g e => hd ⟨g, e⟩
    exact hstuck t ht

/-- But the children do not end: when nothing can go on each of them waits for a point, and the root, if it has finished, has left a result
of each unread. -/
theorem C133_never_ends_violated {E : Env G P R} {g0 : G} {f : Option G} {s : Config G P R} (h : Reach E g0 f s)
    (hok : ∀ p, E.ok p = true) (hrun : ∀ p, ∃ r, E.runs p r) (hstuck : Stuck E s) {c : ℕ} (h1 : 1 ≤ c) (hc : c < E.size) :
    (∀ p, s.kids c ≠ .running p) ∧ (s.kids c = .waiting → s.boxes c = []) ∧
    ∀ g, s.root = .done g → s.kids c = .waiting → ∃ p, fromChild c s.inbox = [p] := by
  have ha : ∀ p, s.kids c ≠ .running p := fun p hk => by
    obtain ⟨r, hr⟩ := hrun p
    exact hstuck _ (.finish hk (hok p) hr)
  have hb : s.kids c = .waiting → s.boxes c = [] := fun hk => by
    cases hb : s.boxes c with
    | nil => rfl
    | cons p rest => exact absurd (Step.take h1 hc hk hb) (hstuck _)
  refine ⟨ha, hb, fun g hr hk => ?_⟩
  have := (C133_lost_violated h hr).2 c h1 hc
  simp only [owed, hk, hb hk, onChild, List.append_nil] at this
  exact List.length_eq_one_iff.1 this

/-- A child that misses a parameter raises, its point is never done. -/
theorem C133_dead_violated {E : Env G P R} {s t : Config G P R} {c : ℕ} {p : P} (hk : s.kids c = .dead p) (hs : Step E s t) : t.kids c = .dead p := by
  have other : ∀ {c' : ℕ} {x : Child P}, (s.kids c' = .dead p → False) → Function.update s.kids c' x c = .dead p := fun {c'} {x} hn => by
    by_cases e : c = c'
    · subst e; exact absurd hk hn
    · rw [Function.update_of_ne e]; exact hk
  cases hs with
  | take _ _ hw _ => exact other fun e => by rw [hw] at e; cases e
  | finish hw _ _ => exact other fun e => by rw [hw] at e; cases e
  | die hw _ => exact other fun e => by rw [hw] at e; cases e
  | propose _ _ => exact hk
  | proposeFails _ _ => exact hk
  | sendFirst _ _ _ => exact hk
  | sendFirstFails _ _ _ => exact hk
  | enter _ _ => exact hk
  | round _ _ _ _ _ _ => exact hk
  | putFails _ _ _ _ _ => exact hk
  | roundFails _ _ _ _ _ _ => exact hk
  | leave _ _ => exact hk

/-- With one process the root waits for results that nobody makes. -/
theorem C133_alone_violated (E : Env G P R) (g0 : G) (f : Option G) (hsize : E.size = 1) (hn : 0 < E.niter) {ps : List P}
    (hp : E.next g0 1 = some ps) : ∃ s, Reach E g0 f s ∧ Stuck E s ∧ s.root = .loop 0 g0 := by
  have r1 : Reach E g0 f { init g0 f with root := .first 1 ps g0 } := .step .init (.propose rfl (by rw [hsize]; exact hp))
  have r2 : Reach E g0 f { init g0 f with root := .loop 0 g0 } := .step r1 (.enter (s := { init g0 f with root := .first 1 ps g0 }) rfl (by omega))
  refine ⟨_, r2, fun t ht => ?_, rfl⟩
  cases ht with
  | propose h1 _ => cases h1
  | proposeFails h1 _ => cases h1
  | sendFirst h1 _ _ => cases h1
  | sendFirstFails h1 _ _ => cases h1
  | enter h1 _ => cases h1
  | take h1 h2 _ _ => omega
  | finish h1 _ _ => cases h1
  | die h1 _ => cases h1
  | round _ _ h1 _ _ _ => simp [init] at h1
  | putFails _ _ h1 _ _ => simp [init] at h1
  | roundFails _ _ h1 _ _ _ => simp [init] at h1
  | leave h1 h2 =>
    have := Root.loop.inj h1
    omega

/-! ### Results cannot be added -/

theorem grown_none {E : Env G P R} {g : G} {r : R} (h : E.put g r = none) (rs : List R) : grown E g (r :: rs) = none := by
  have : ∀ rs : List R, rs.foldl (fun o r => o.bind fun g => E.put g r) (none : Option G) = none := by
    intro rs
    induction rs with
    | nil => rfl
    | cons r rs ih => exact ih
  unfold grown
  rw [List.foldl_cons]
  show rs.foldl _ (E.put g r) = none
  rw [h]
  exact this rs

/-- If no result can be added to the grid, none ever is, and the root does not finish. -/
theorem nothing_added {E : Env G P R} {g0 : G} {f : Option G} {s : Config G P R} (h : Reach E g0 f s)
    (hput : ∀ p r, E.runs p r → E.put g0 r = none) : s.recorded = [] ∧ s.file = f ∧ (0 < E.niter → ∀ g, s.root ≠ .done g) := by
  have hat := atAll h
  have hfl := (flow h).results
  have hrec : (∃ g, grown E g0 (s.recorded.map (·.2.2)) = some g) → s.recorded = [] := by
    rintro ⟨g, hg⟩
    cases hl : s.recorded with
    | nil => rfl
    | cons m l =>
      rw [hl, List.map_cons, grown_none (hput m.2.1 m.2.2 (hfl m (by simp [hl])))] at hg
      cases hg
  unfold At at hat
  cases hr : s.root with
  | start g => rw [hr] at hat; exact ⟨hat.2.2.1, hat.2.2.2.1, fun _ g e => by cases e⟩
  | first c ps g => rw [hr] at hat; exact ⟨hat.2.2.2.2.2.2.1, hat.2.2.2.2.2.2.2.1, fun _ g e => by cases e⟩
  | loop n g =>
    rw [hr] at hat
    have e := hrec ⟨g, hat.2.2.1⟩
    have h0 : n = 0 := by rw [← hat.2.1, e]; rfl
    exact ⟨e, by rw [hat.2.2.2.1, if_pos h0], fun _ g e => by cases e⟩
  | done g =>
    rw [hr] at hat
    have e := hrec ⟨g, hat.2.1⟩
    have h0 : E.niter = 0 := by rw [← hat.1, e]; rfl
    exact ⟨e, by rw [hat.2.2.1, if_pos h0], fun hn => absurd hn (by omega)⟩
  | failed =>
    rw [hr] at hat
    obtain ⟨-, ⟨g, h1, h2⟩, -⟩ := hat
    have e := hrec ⟨g, h1⟩
    exact ⟨e, by rw [h2, if_pos e], fun _ g e => by cases e⟩

/-- The reader does not know the format which the script asks for: the result of every run is an empty table. -/
theorem C133_extract_violated (made : Option Tab) : extract scriptFmt made = ⟨[], []⟩ := by
  have : readsGrid scriptFmt = false := by decide +kernel
  unfold extract
  rw [this]
  rfl

/-- With the format of the grids the results would be those which are read. -/
theorem C133_extract_format (t : Tab) : extract (chars! "posydon") (some t) = t ∧ extract (chars! "posydon") none = ⟨[], []⟩ := by
  have : readsGrid (chars! "posydon") = true := by decide +kernel
  unfold extract
  rw [this]
  exact ⟨rfl, rfl⟩

theorem resultCols_empty : resultCols ⟨[], []⟩ = ⟨[], []⟩ := by
  unfold resultCols
  simp

/-- So in every dynamic grid which starts from a table with columns nothing is ever added: the root never finishes, `grid_results.csv` is not
written. -/
theorem C133_dynamic_violated {P : Type} {E : Env Tab P Tab} {append : Bool} (hput : E.put = putTab append)
    (hruns : ∀ p r, E.runs p r → ∃ made, r = extract scriptFmt made) {g0 : Tab} (hg : g0.cols ≠ []) {f : Option Tab}
    {s : Config Tab P Tab} (h : Reach E g0 f s) : s.recorded = [] ∧ s.file = f ∧ (0 < E.niter → ∀ g, s.root ≠ .done g) := by
  refine nothing_added h fun p r hr => ?_
  obtain ⟨made, rfl⟩ := hruns p r hr
  rw [C133_extract_violated, hput]
  unfold putTab
  rw [resultCols_empty]
  refine if_neg fun hall => ?_
  obtain ⟨c, hc⟩ := List.exists_mem_of_ne_nil _ hg
  exact absurd (hall c hc) (by simp)

/-- Even with results that can be read: tables have no `append` for the versions of pandas which the project asks for. -/
theorem C133_append_violated {P : Type} {E : Env Tab P Tab} (hput : E.put = putTab false) {g0 : Tab} {f : Option Tab}
    {s : Config Tab P Tab} (h : Reach E g0 f s) : s.recorded = [] ∧ s.file = f ∧ (0 < E.niter → ∀ g, s.root ≠ .done g) := by
  refine nothing_added h fun p r _ => ?_
  rw [hput]
  unfold putTab
  simp

/-- With `append` the result is a new row of the grid as soon as it has the columns of the grid; mass ratio and period are added to it. -/
theorem C133_append {g t : Tab} (hq : s2 ∈ t.cols) (h1 : s1 ∈ t.cols) (hp : pDays ∈ t.cols) (hc : ∀ c ∈ g.cols, c ∈ t.cols ∨ c = q_ ∨ c = logP)
    (hrow : ∀ d ∈ t.rows, ∃ a b P, d s1 = some a ∧ d s2 = some b ∧ d pDays = some P) :
    ∃ g', putTab true g t = some g' ∧ g'.cols = g.cols ∧ ∃ rs : List Rec, g'.rows = g.rows ++ rs ∧ rs.length = t.rows.length ∧
    ∀ (i : ℕ) (d : Rec), t.rows[i]? = some d → ∃ d' : Rec, rs[i]? = some d' ∧ (∀ n, n ≠ q_ → n ≠ logP → d' n = d n) ∧
      ∃ a b P, d s1 = some a ∧ d s2 = some b ∧ d pDays = some P ∧ d' q_ = some (b / a) ∧ d' logP = some (Real.logb 10 P) := by
  have n1 : pDays ≠ q_ := by decide +kernel
  have n2 : q_ ≠ logP := by decide +kernel
  have e : resultCols t = ⟨t.cols ++ [q_] ++ [logP], (t.rows.map fun d => match d s2, d s1 with | some a, some b => put1 d q_ (a / b) | _, _ => d).map
      fun d => match d pDays with | some v => put1 d logP (Real.logb 10 v) | none => d⟩ := by
    have hqs : s2 ∈ t.cols ∧ s1 ∈ t.cols := ⟨hq, h1⟩
    unfold resultCols
    simp only [if_pos hqs]
    exact if_pos (List.mem_append_left _ hp)
  unfold putTab
  rw [e]
  refine ⟨_, if_pos fun c hcm => ?_, rfl, _, rfl, by simp, fun i d hd => ?_⟩
  · rcases hc c hcm with h | h | h
    · exact List.mem_append_left _ (List.mem_append_left _ h)
    · exact List.mem_append_left _ (List.mem_append_right _ (by simp [h]))
    · exact List.mem_append_right _ (by simp [h])
  · obtain ⟨a, b, P, ha, hb, hP⟩ := hrow d (List.mem_of_getElem? hd)
    refine ⟨_, by rw [List.getElem?_map, List.getElem?_map, hd]; rfl, fun n hn1 hn2 => ?_, a, b, P, ha, hb, hP, ?_, ?_⟩
    · simp only [ha, hb, put1, if_neg n1, hP, if_neg hn1, if_neg hn2]
    · simp only [ha, hb, put1, if_neg n1, hP, if_neg n2, if_true]
    · simp only [ha, hb, put1, if_neg n1, hP, if_true]

/-- A run without result stops the grid: the exception says that versions differ. -/
theorem C133_no_result_violated (append : Bool) {g : Tab} (hg : g.cols ≠ []) : putTab append g ⟨[], []⟩ = none := by
  unfold putTab
  rw [resultCols_empty]
  refine if_neg fun hall => ?_
  obtain ⟨c, hc⟩ := List.exists_mem_of_ne_nil _ hg
  exact absurd (hall c hc) (by simp)

/-- Fixed grids: `grid_results.csv` is never written. -/
theorem C133_fixed_violated (f : Option Csv) (made : Option Tab) : writeFixed f (extract scriptFmt made) = f := by
  rw [C133_extract_violated]
  rfl

/-- Values are added in the order of the columns of their own table, whatever the names in the file are. -/
theorem C133_columns_violated : ∃ (f : Csv) (t : Tab) (g : Csv), writeFixed (some f) t = some g ∧ f.head = [m1, m2] ∧ t.cols = [m2, m1] ∧
    g.head = [m1, m2] ∧ g.lines = [[some 7, some 30]] ∧ ∃ d, t.rows = [d] ∧ d m1 = some 30 ∧ d m2 = some 7 := by
  have n1 : m1 ≠ m2 := by decide +kernel
  refine ⟨⟨[m1, m2], []⟩, ⟨[m2, m1], [put1 (put1 (fun _ => none) m1 30) m2 7]⟩, _, rfl, rfl, rfl, rfl, ?_, _, rfl, ?_, ?_⟩
  · simp [put1, n1]
  · simp [put1, n1]
  · simp [put1]

/-- With the columns of the file the values stand below their names. -/
theorem C133_columns {f : Csv} {t : Tab} (h : t.cols = f.head) (hr : t.rows ≠ []) (hc : t.cols ≠ []) :
    writeFixed (some f) t = some ⟨f.head, f.lines ++ t.rows.map fun d => f.head.map d⟩ ∧
    writeFixed none t = some ⟨t.cols, t.rows.map fun d => t.cols.map d⟩ := by
  unfold writeFixed
  have e : (t.rows.isEmpty || t.cols.isEmpty) = false := by
    cases hrows : t.rows with
    | nil => exact absurd hrows hr
    | cons a l => cases hcols : t.cols with
      | nil => exact absurd hcols hc
      | cons b m => rfl
  rw [e]
  simp [h]

/-! ### Names of the parameters -/

theorem names_apart : [pDays, pIn, logP, s1, s2, m1, m2, q_].Nodup := by decide +kernel

theorem apart : pDays ≠ pIn ∧ logP ≠ pIn ∧ s1 ≠ pIn ∧ s2 ≠ pIn ∧ q_ ≠ pIn ∧ s1 ≠ m1 ∧ s2 ≠ m1 ∧ q_ ≠ m1 ∧ q_ ≠ m2 ∧ s1 ≠ m2 ∧ s2 ≠ m2 ∧
    m1 ≠ m2 ∧ m1 ≠ pIn ∧ m2 ≠ pIn ∧ m2 ≠ m1 := by decide +kernel

theorem apart2 : pIn ≠ m1 ∧ pIn ≠ m2 ∧ pIn ≠ q_ ∧ pIn ≠ logP ∧ s1 ≠ q_ ∧ s1 ≠ logP ∧ s2 ≠ q_ ∧ s2 ≠ logP ∧ pDays ≠ q_ ∧ pDays ≠ logP ∧
    m1 ≠ q_ ∧ m2 ≠ q_ ∧ m1 ≠ logP ∧ m2 ≠ logP ∧ q_ ≠ logP ∧ logP ≠ q_ ∧ logP ≠ m1 ∧ logP ≠ m2 ∧ pDays ≠ m1 ∧ pDays ≠ m2 := by decide +kernel

/-- Which values the parameters of MESA get, and that all other columns stay. -/
theorem C133_convert (d : Rec) :
    convert d pIn = (match d logP with | some v => some ((10 : ℝ) ^ v) | none => match d pDays with | some v => some v | none => d pIn) ∧
    convert d m1 = (match d s1 with | some v => some v | none => d m1) ∧
    convert d m2 = (match d q_, d s1 with | some a, some b => some (a * b) | _, _ => match d s2 with | some v => some v | none => d m2) ∧
    ∀ n, n ≠ pIn → n ≠ m1 → n ≠ m2 → convert d n = d n := by
  obtain ⟨a1, a2, a3, a4, a5, a6, a7, a8, a9, a10, a11, a12, a13, a14, a15⟩ := apart
  obtain ⟨b1, b2, b3, b4, b5, b6, b7, b8, b9, b10, b11, b12, b13, b14, b15, b16, b17, b18, b19, b20⟩ := apart2
  have key : convert d = fun n =>
      if n = m2 then (match d q_, d s1 with | some a, some b => some (a * b) | _, _ => match d s2 with | some v => some v | none => d m2)
      else if n = m1 then (match d s1 with | some v => some v | none => d m1)
      else if n = pIn then (match d logP with | some v => some ((10 : ℝ) ^ v) | none => match d pDays with | some v => some v | none => d pIn)
      else d n := by
    funext n
    unfold convert
    cases h1 : d pDays <;> cases h2 : d logP <;> cases h3 : d s1 <;> cases h4 : d s2 <;> cases h5 : d q_ <;>
      simp only [put1, h1, h2, h3, h4, h5, if_neg a2, if_neg a3, if_neg a4, if_neg a5, if_neg a6, if_neg a7, if_neg a8, if_neg a9, if_neg a10,
        if_neg a11] <;> (by_cases e1 : n = m2 <;> by_cases e2 : n = m1 <;> by_cases e3 : n = pIn <;> simp_all)
  rw [key]
  refine ⟨?_, ?_, ?_, fun n h1 h2 h3 => ?_⟩
  · simp only [if_neg b1, if_neg b2, if_true]
  · simp only [if_neg a12, if_true]
  · simp only [if_true]
  · simp only [if_neg h1, if_neg h2, if_neg h3]

/-- Masses and period of the sampled columns are those which are run. -/
theorem C133_masses {d : Rec} {a b P : ℝ} (h1 : d s1 = some a) (h2 : d s2 = some b) (h3 : d pDays = some P) (hq : d q_ = none) (hl : d logP = none) :
    convert d m1 = some a ∧ convert d m2 = some b ∧ convert d pIn = some P := by
  obtain ⟨c1, c2, c3, -⟩ := C133_convert d
  rw [c1, c2, c3, h1, h2, h3, hq, hl]
  exact ⟨rfl, rfl, rfl⟩

/-- Mass ratio and logarithm win over mass and period, also if they contradict. -/
theorem C133_ratio_wins {d : Rec} {a q l : ℝ} (h1 : d s1 = some a) (hq : d q_ = some q) (hl : d logP = some l) :
    convert d m1 = some a ∧ convert d m2 = some (q * a) ∧ convert d pIn = some ((10 : ℝ) ^ l) := by
  obtain ⟨c1, c2, c3, -⟩ := C133_convert d
  rw [c1, c2, c3, h1, hq, hl]
  exact ⟨rfl, rfl, rfl⟩

theorem extend_at {d : Rec} {a b P : ℝ} (h1 : d s1 = some a) (h2 : d s2 = some b) (h3 : d pDays = some P) :
    extend d s1 = some a ∧ extend d q_ = some (b / a) ∧ extend d logP = some (Real.logb 10 P) := by
  obtain ⟨b1, b2, b3, b4, b5, b6, b7, b8, b9, b10, b11, b12, b13, b14, b15, b16, b17, b18, b19, b20⟩ := apart2
  unfold extend
  cases h4 : d m1 <;> cases h5 : d m2 <;> cases h6 : d pIn <;>
    simp [put1, h1, h2, h3, h6, b3, b5, b6, b7, b8, b9, b10, b15]

/-- The columns which are added to the grid fit those which are run: a point with first mass, mass ratio and logarithm of the period as in a
row of the grid is run with the masses and the period of this row. -/
theorem C133_round_trip {d : Rec} {a b P : ℝ} (h1 : d s1 = some a) (h2 : d s2 = some b) (h3 : d pDays = some P) (ha : a ≠ 0) (hP : 0 < P)
    {e : Rec} (e1 : e s1 = extend d s1) (e2 : e q_ = extend d q_) (e3 : e logP = extend d logP) :
    convert e m1 = some a ∧ convert e m2 = some b ∧ convert e pIn = some P := by
  obtain ⟨x1, x2, x3⟩ := extend_at h1 h2 h3
  rw [x1] at e1; rw [x2] at e2; rw [x3] at e3
  obtain ⟨y1, y2, y3⟩ := C133_ratio_wins e1 e2 e3
  refine ⟨y1, ?_, ?_⟩
  · rw [y2, div_mul_cancel₀ b ha]
  · rw [y3, Real.rpow_logb (by norm_num) (by norm_num) hP]

/-- Sampling in the names of MESA with a mass ratio: there is no second mass, the child raises. -/
theorem C133_second_mass_violated {d : Rec} (h1 : d s1 = none) (h2 : d s2 = none) (hm : d m2 = none) {names : List Name} (hn : m2 ∈ names) :
    lookups names (convert d) = none := by
  have h : convert d m2 = none := by
    obtain ⟨-, -, c3, -⟩ := C133_convert d
    rw [c3, h1, h2, hm]
    cases d q_ <;> rfl
  unfold lookups
  induction names with
  | nil => cases hn
  | cons k ks ih =>
    rw [List.mapM_cons]
    rcases List.mem_cons.1 hn with rfl | hn
    · rw [h]; rfl
    · have := ih hn
      rw [this]
      cases convert d k <;> rfl

/-- A child that finds its parameters runs with the values of the point, in the order of the names. -/
theorem C133_lookups {d : Rec} {names : List Name} (h : ∀ k ∈ names, ∃ v, d k = some v) : ∃ l, lookups names d = some l ∧ l.map (·.1) = names ∧
    ∀ k v, (k, v) ∈ l → d k = some v := by
  induction names with
  | nil => exact ⟨[], rfl, rfl, fun k v hkv => by cases hkv⟩
  | cons n ns ih =>
    obtain ⟨l, h1, h2, h3⟩ := ih fun k hk => h k (List.mem_cons_of_mem _ hk)
    obtain ⟨v, hv⟩ := h n List.mem_cons_self
    unfold lookups at h1 ⊢
    refine ⟨(n, v) :: l, ?_, by rw [List.map_cons, h2], fun k w hkw => ?_⟩
    · rw [List.mapM_cons, h1, hv]; rfl
    · rcases List.mem_cons.1 hkw with e | e
      · obtain ⟨rfl, rfl⟩ := Prod.mk.inj e; exact hv
      · exact h3 k w e

/-! ### Arguments -/

/-- An argument which is described as optional is not. -/
theorem C133_optional_violated (exe : Option Name) : formationFlag exe none = .error .type := rfl

/-- A star is formed first exactly if an executable is given and `None` is not among the inlists. -/
theorem C133_formation (exe : Option Name) (l : List Name) : ∃ b, formationFlag exe (some l) = .ok b ∧ (b = true ↔ exe ≠ none ∧ (chars! "None") ∉ l) := by
  unfold formationFlag
  by_cases h : (chars! "None") ∈ l
  · exact ⟨false, if_pos h, by simp [h]⟩
  · refine ⟨exe.isSome, if_neg h, ?_⟩
    rw [Option.isSome_iff_ne_none]
    simp [h]

/-- What a process does. -/
theorem C133_action (size rank : ℕ) : action true none size 0 = .ok .root ∧ (rank ≠ 0 → action true none size rank = .ok .child) ∧
    (∀ i, action false (some i) size rank = .ok (.point i)) ∧ (∀ i, 1 < size → action true (some i) size rank = .error .value) := by
  refine ⟨by simp [action], fun h => by simp [action, h], fun i => by simp [action], fun i h => by simp [action, h]⟩

/-- A fixed grid without an index: nothing is run, and no error. -/
theorem C133_nothing_violated (size rank : ℕ) : action false none size rank = .ok .nothing := by simp [action]

/-- Any name with `.csv` in it is read as a table, also the name of a grid file. -/
theorem C133_kind_violated : gridKind (chars! "/data/grid.csv_2024/grid.h5") = .ok .csv ∧ gridKind (chars! "/data/grid.h5") = .ok .h5 ∧
    gridKind (chars! "/data/grid.txt") = .error .value := by
  refine ⟨?_, ?_, ?_⟩ <;> rfl

/-! ### Directories -/

/-- A run with formation steps first: all steps see the directory, and at the end everything is in the final directory. -/
theorem C133_directories {C : Type} (fs : List (C → C)) (f : C → C) (w : C) (old : Option C) :
    runAll false (fs.map (fun f => (true, f)) ++ [(false, f)]) ⟨some w, old⟩ = .ok ⟨none, some (f (fs.foldl (fun x f => f x) w))⟩ ∧
    runAll true (fs.map (fun f => (true, f)) ++ [(false, f)]) ⟨some w, some w⟩ =
      .ok ⟨some (f (fs.foldl (fun x f => f x) w)), some (f (fs.foldl (fun x f => f x) w))⟩ := by
  induction fs generalizing w old with
  | nil => exact ⟨rfl, rfl⟩
  | cons g gs ih => exact ⟨(ih (g w) (some (g w))).1, (ih (g w) old).2⟩

/-- A step which does not keep the directory must be the last. -/
theorem C133_keep {C : Type} (f g : C → C) (keep : Bool) (rest : List (Bool × (C → C))) (w : C) (old : Option C) :
    runAll false ((false, f) :: (keep, g) :: rest) ⟨some w, old⟩ = .error .missing := rfl

/-- The results are copied before the job is ended if the run starts early enough. -/
theorem C133_copy {now : ℕ} {jobEnd before : ℤ} (hb : 0 < before) (h : (now : ℤ) + before < jobEnd) :
    (now : ℤ) < copyTime now jobEnd before ∧ copyTime now jobEnd before < jobEnd := by
  unfold copyTime
  rw [if_pos (by omega)]
  omega

/-- While stars are formed the end of the job is not known: nothing is copied if the job is ended within a year. -/
theorem C133_copy_violated {now : ℕ} {jobEnd : ℤ} (h : jobEnd ≤ now + 60 * 60 * 24 * 364) : jobEnd < copyTime now (assumedEnd now) 300 := by
  unfold copyTime assumedEnd
  rw [if_pos (by omega)]
  omega

/-- Late starts: the copy is made after the end. -/
theorem C133_late_violated : ∃ (now : ℕ) (jobEnd : ℤ), (now : ℤ) < jobEnd ∧ jobEnd < copyTime now jobEnd 300 := ⟨1000, 1030, by omega, by decide⟩

/-! ### Examples -/

/-- Points and results are numbers: results are put into a list. -/
def exEnv : Env (List ℕ) ℕ ℕ := ⟨3, 2, fun g n => some ((List.range n).map fun i => g.length * 10 + i), fun _ => true, fun p r => r = p + 100,
  fun g r => some (g ++ [r])⟩

example : (∀ p, exEnv.ok p = true) ∧ (∀ p, ∃ r, exEnv.runs p r) ∧ 2 ≤ exEnv.size ∧
    (∀ g n, ∃ ps, exEnv.next g n = some ps ∧ n ≤ ps.length) ∧ ∀ g r, ∃ g', exEnv.put g r = some g' :=
  ⟨fun _ => rfl, fun _ => ⟨_, rfl⟩, by decide, fun g n => ⟨_, rfl, by simp⟩, fun g r => ⟨_, rfl⟩⟩

/-- Child 2 is the faster one: its first result and its second one are recorded, that of child 1 is lost. -/
example : ∃ s, Reach exEnv [] none s ∧ s.root = .done [101, 110] ∧ s.recorded.map (·.1) = [2, 2] ∧ s.kids 1 = .running 0 := by
  have h : Reach exEnv [] none _ := .step (.step (.step (.step (.step (.step (.step (.step (.step (.step (.step (.step .init
      (.propose rfl rfl)) (.sendFirst rfl (by decide) rfl)) (.sendFirst rfl (by decide) rfl)) (.enter rfl (by decide)))
      (.take (c := 1) (by decide) (by decide) rfl rfl))
      (.take (c := 2) (by decide) (by decide) rfl rfl)) (.finish (c := 2) rfl rfl rfl))
      (.round rfl (by decide) (pre := []) rfl (fun m hm => by cases hm) rfl rfl))
      (.take (c := 2) (by decide) (by decide) rfl rfl)) (.finish (c := 2) rfl rfl rfl))
      (.round rfl (by decide) (pre := []) rfl (fun m hm => by cases hm) rfl rfl)) (.leave rfl (by decide))
  exact ⟨_, h, rfl, rfl, rfl⟩

/-- C133: the columns that are read are those of sampled points, and those that are written are those of MESA runs. -/
theorem C133_names : [pDays, logP, s1, s2, q_] =
      [(chars! "initial_period_days"), (chars! "log_p"), (chars! "initial_star_1_mass"), (chars! "initial_star_2_mass"), (chars! "q")] ∧
    [m1, m2, pIn] = [(chars! "m1"), (chars! "m2"), (chars! "initial_period_in_days")] := by
  decide +kernel

end Verif.DynGrid
