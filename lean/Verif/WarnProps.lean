import Verif.Warn
/-!
Property theorems for C12.
-/
namespace Verif.Warn

variable {W K : Type} [DecidableEq K]

/-- The registry in use. -/
def St.reg (s : St W K) : Reg K := s.own.getD s.glob

/-- Put `r` into the registry in use. -/
def St.withReg (s : St W K) (r : Reg K) : St W K :=
  match s.own with
  | none => { s with glob := r }
  | some _ => { s with own := some r }

theorem filterSt_eq (env : Env W K) (late : Bool) (w : W) (s : St W K) :
    filterSt env late w s = ((filter env late w s.reg).1, s.withReg (filter env late w s.reg).2) := by
  unfold filterSt St.reg St.withReg
  cases s.own <;> rfl

theorem warnAll_aux (env : Env W K) (s : St W K) (hset : s.catch' = false ∨ s.filterFirst = true) (pre ws : List W)
    (reg0 : Reg K) (hr : s.reg = counts env reg0 pre) :
    warnAll env ws s =
      (let t := s.withReg (counts env reg0 (pre ++ ws))
       let sel := selected env reg0 pre ws
       if s.catch' then (if s.record then { t with cache := s.cache ++ sel } else t)
       else { t with shown := s.shown ++ sel }) := by
  induction ws generalizing s pre with
  | nil =>
    have : s.withReg (counts env reg0 (pre ++ [])) = s := by
      rw [List.append_nil, ← hr]
      rcases s with ⟨c, r, f, ca, o, g, sh⟩
      cases o <;> rfl
    simp only [warnAll, List.foldl_nil, selected, List.append_nil] at this ⊢
    rw [this]
    rcases s with ⟨c, r, f, ca, o, g, sh⟩
    cases c <;> cases r <;> rfl
  | cons w ws ih =>
    have step : warnAll env (w :: ws) s = warnAll env ws (warn env w s) := rfl
    rw [step]
    have hf := filter_spec env reg0 pre w
    rw [← hr] at hf
    have hw : warn env w s =
        (let t := s.withReg (counts env reg0 (pre ++ [w]))
         let p := passes env reg0 pre w
         if s.catch' then (if s.record && p then { t with cache := s.cache ++ [w] } else t)
         else if p then { t with shown := s.shown ++ [w] } else t) := by
      unfold warn issue
      rw [filterSt_eq, hf]
      rcases s with ⟨c, r, f, ca, o, g, sh⟩
      have hff : c = true → f = true := by
        intro hc; rcases hset with h | h
        · simp [hc] at h
        · exact h
      cases c
      · cases o <;> cases passes env reg0 pre w <;> rfl
      · cases hff rfl
        cases o <;> cases r <;> cases passes env reg0 pre w <;> rfl
    have hreg : (warn env w s).reg = counts env reg0 (pre ++ [w]) := by
      rw [hw]
      rcases s with ⟨c, r, f, ca, o, g, sh⟩
      cases o <;> cases c <;> cases r <;> cases passes env reg0 pre w <;> rfl
    have hset' : (warn env w s).catch' = false ∨ (warn env w s).filterFirst = true := by
      rw [hw]
      rcases s with ⟨c, r, f, ca, o, g, sh⟩
      cases o <;> cases c <;> cases r <;> cases passes env reg0 pre w <;> exact hset
    rw [ih _ hset' (pre ++ [w]) hreg, hw]
    simp only [selected, List.append_assoc, List.singleton_append]
    rcases s with ⟨c, r, f, ca, o, g, sh⟩
    cases o <;> cases c <;> cases r <;> cases hp : passes env reg0 pre w <;>
      simp [St.withReg]

/-- C12.  Outside any catching context: the warnings shown are exactly those that pass the filters, in order (a
repetition of an already counted location is shown only with action `always`), and the registry counts every one that
is not ignored. -/
theorem C12_shown_and_counted (env : Env W K) (s : St W K) (hc : s.catch' = false) (ho : s.own = none) (ws : List W) :
    (warnAll env ws s).shown = s.shown ++ selected env s.glob [] ws ∧
    (warnAll env ws s).glob = counts env s.glob ws ∧ (warnAll env ws s).cache = s.cache := by
  have hr : s.reg = counts env s.glob [] := by funext k; simp [St.reg, ho, counts]
  have := warnAll_aux env s (.inl hc) [] ws s.glob hr
  rw [this]
  simp [hc, St.withReg, ho]

/-- C12.  A catching context that records and filters first loses nothing, whatever happens in its body (also when the
body raises): after it, exactly the same warnings are shown and counted as if there had been no context. -/
theorem C12_context_transparent (env : Env W K) (s : St W K) (hc : s.catch' = false) (ho : s.own = none)
    (hca : s.cache = []) (ws : List W) :
    let t := exit env (warnAll env ws (enter env true true true none s))
    t.shown = (warnAll env ws s).shown ∧ t.glob = (warnAll env ws s).glob ∧ t.cache = [] ∧ t.catch' = false := by
  have he : enter env true true true none s = { s with catch' := true, record := true, filterFirst := true, own := none } := by
    simp [enter, flush]
  have h1 := C12_shown_and_counted env s hc ho ws
  have hr : (enter env true true true none s).reg = counts env s.glob [] := by
    rw [he]; funext k; simp [St.reg, counts]
  have h2 := warnAll_aux env (enter env true true true none s) (.inr (by rw [he])) [] ws s.glob hr
  dsimp only
  rw [h2, h1.1, h1.2.1, he]
  simp only [St.withReg, if_true, List.nil_append, hca, exit, flush, true_and]
  by_cases hs : selected env s.glob [] ws = []
  · simp [hs]
  · simp [hs]

/-- C12.  With a registry of its own, the context leaves the global counts alone. -/
theorem C12_own_registry (env : Env W K) (s : St W K) (hca : s.cache = []) (r : Bool) (ws : List W) :
    let t := exit env (warnAll env ws (enter env true r true (some fun _ => 0) s))
    t.glob = s.glob ∧ t.shown = s.shown ++ (if r then selected env (fun _ => 0) [] ws else []) ∧ t.cache = [] := by
  have he : enter env true r true (some fun _ => 0) s =
      { s with catch' := true, record := r, filterFirst := true, own := some fun _ => 0 } := by
    simp [enter, flush]
  have hr : (enter env true r true (some fun _ => 0) s).reg = counts env (fun _ => 0) [] := by
    rw [he]; funext k; simp [St.reg, counts]
  have h2 := warnAll_aux env (enter env true r true (some fun _ => 0) s) (.inr (by rw [he])) [] ws _ hr
  dsimp only
  rw [h2, he]
  cases r
  · simp [St.withReg, hca, exit, flush]
  · simp only [St.withReg, if_true, List.nil_append, hca, exit, flush, true_and]
    by_cases hs : selected env (fun _ => 0) [] ws = []
    · simp [hs]
    · simp [hs]

/-- C12.  A context that catches without recording shows nothing of its body, but counts it. -/
theorem C12_discarding_context (env : Env W K) (s : St W K) (hca : s.cache = []) (ws : List W) :
    let t := exit env (warnAll env ws (enter env true false true none s))
    t.shown = s.shown ∧ t.glob = counts env s.glob ws := by
  have he : enter env true false true none s =
      { s with catch' := true, record := false, filterFirst := true, own := none } := by
    simp [enter, flush]
  have hr : (enter env true false true none s).reg = counts env s.glob [] := by
    rw [he]; funext k; simp [St.reg, counts]
  have h2 := warnAll_aux env (enter env true false true none s) (.inr (by rw [he])) [] ws _ hr
  dsimp only
  rw [h2, he]
  simp [St.withReg, hca, exit, flush]

/-! A concrete environment: warnings are (location, text), action `default` everywhere. -/
def demoEnv : Env (ℕ × ℕ) ℕ := ⟨fun _ w => w.1, fun _ _ => .default⟩
def demoSt : St (ℕ × ℕ) ℕ := ⟨false, true, true, [], none, fun _ => 0, []⟩

example : (exit demoEnv (warnAll demoEnv [(1, 1), (2, 2), (1, 3)] (enter demoEnv true true true none demoSt))).shown
    = [(1, 1), (2, 2)] := by decide
example : (warnAll demoEnv [(1, 1), (2, 2), (1, 3)] demoSt).glob 1 = 2 := by decide

/-- C12 is false for nested contexts: leaving the inner context switches the outer one off; its recorded warnings are
shown at once, although the outer context is still active, and later warnings in it are no longer caught. -/
theorem C12_nested_violated :
    let s1 := warn demoEnv (1, 1) (enter demoEnv true true true none demoSt)
    let s2 := exit demoEnv (enter demoEnv true true true none s1)
    let s3 := warn demoEnv (2, 2) s2
    s1.shown = [] ∧ s2.shown = [(1, 1)] ∧ s2.catch' = false ∧ s3.shown = [(1, 1), (2, 2)] ∧ s3.cache = [] := by
  decide

/-- C12 is false for contexts with an own registry that filter late: the recorded warnings are counted in the global
registry when the context is left, the own registry stays empty. -/
theorem C12_own_registry_late_violated :
    (exit demoEnv (warn demoEnv (1, 1) (enter demoEnv true true false (some fun _ => 0) demoSt))).glob 1 = 1 := by
  decide

end Verif.Warn
