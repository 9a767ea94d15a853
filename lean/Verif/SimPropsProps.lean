import Verif.SimProps
/-!
Property theorems: C05 (configured limit), C28 (hooks of ini files), C46 (metallicity of loaded steps).
-/
namespace Verif.SimProps
open Verif.Py

/-! ### C05 -/

/-- C05 (positive part).  A keyword whose name does not contain `step` becomes the attribute of that name:
end events, end states and the maximum time are honoured. -/
theorem C05_other_keywords_honoured (hooks kwargs : Kwargs) (hn : (kwargs.map (·.1)).Nodup) (k : String) (v : Val)
    (hk : (k, v) ∈ kwargs) (hs : strIn "step" k = false) : init hooks kwargs k = some v :=
  setKwargs_mem kwargs hn _ k v hk hs

/-- C05 is false: the limit is 100 whatever `max_n_steps_per_binary` is passed as keyword (it could only be set
through the `extra_hooks` list). -/
theorem C05_step_limit_violated (hooks kwargs : Kwargs) (hh : "max_n_steps_per_binary" ∉ hooks.map (·.1)) :
    init hooks kwargs "max_n_steps_per_binary" = some (.int 100) := by
  have hstep : strIn "step" "max_n_steps_per_binary" = true := by decide +kernel
  unfold init
  rw [setKwargs_notMem _ _ _ (fun _ _ => hstep), default_same]
  rw [default_other _ _ _ _ (by decide), default_other _ _ _ _ (by decide), default_other _ _ _ _ (by decide),
    hooks_notMem _ _ _ hh]
  rfl

/-- Concrete instance: asking for 20 steps gives 100, while `max_simulation_time` is honoured. -/
example : init [] [("max_n_steps_per_binary", .int 20), ("max_simulation_time", .float 5)] "max_n_steps_per_binary"
      = some (.int 100) ∧
    init [] [("max_n_steps_per_binary", .int 20), ("max_simulation_time", .float 5)] "max_simulation_time"
      = some (.float 5) :=
  ⟨C05_step_limit_violated _ _ (by simp),
   C05_other_keywords_honoured _ _ (by decide) _ _ (by simp) (by decide +kernel)⟩

/-- C05.  What is not given keeps its documented default. -/
theorem C05_defaults (hooks kwargs : Kwargs) (k : String) (hk : k ∉ kwargs.map (·.1)) (hh : k ∉ hooks.map (·.1)) :
    init hooks kwargs k =
      if k = "max_simulation_time" then some (.float 13800000000)
      else if k = "end_events" then some .list else if k = "end_states" then some .list
      else if k = "max_n_steps_per_binary" then some (.int 100) else none := by
  unfold init
  rw [setKwargs_notMem _ _ _ (fun v hv => absurd (List.mem_map_of_mem (f := (·.1)) hv) hk)]
  have h0 := hooks_notMem hooks (fun _ => none) k hh
  by_cases h1 : k = "max_simulation_time"
  · subst h1
    rw [default_other _ _ _ _ (by decide), default_other _ _ _ _ (by decide), default_other _ _ _ _ (by decide),
      default_same, h0]; rfl
  · by_cases h2 : k = "end_events"
    · subst h2
      rw [default_other _ _ _ _ (by decide), default_other _ _ _ _ (by decide), default_same,
        default_other _ _ _ _ (by decide), h0]; rfl
    · by_cases h3 : k = "end_states"
      · subst h3
        rw [default_other _ _ _ _ (by decide), default_same, default_other _ _ _ _ (by decide),
          default_other _ _ _ _ (by decide), h0]; rfl
      · by_cases h4 : k = "max_n_steps_per_binary"
        · subst h4
          rw [default_same, default_other _ _ _ _ (by decide), default_other _ _ _ _ (by decide),
            default_other _ _ _ _ (by decide), h0]; rfl
        · rw [default_other _ _ _ _ h4, default_other _ _ _ _ h3, default_other _ _ _ _ h2,
            default_other _ _ _ _ h1, h0]
          simp [h1, h2, h3, h4]

/-! ### C46 -/

/-- C46 (partial).  If no step fixes a metallicity of its own, the first `load_steps(Z)` gives every step `Z`
(solar if none was asked for).  Missing: steps with their own metallicity, and reloading. -/
theorem C46_first_load_partial (m : Option Rat) (ss : List StepCfg) (h : ∀ s ∈ ss, s.met = none) :
    (loadSteps m ss).1 = ss.map (wanted m) := by
  induction ss with
  | nil => rfl
  | cons s ss ih =>
    have hs := h s (by simp)
    have hg : s.get m = m := by simp [StepCfg.get, hs]
    simp only [loadSteps, List.map_cons]
    rw [hg, ih (fun t ht => h t (by simp [ht]))]
    congr 1
    simp only [checkStep, wanted, hs]
    split <;> simp [hg]

/-- C46 (partial).  If every step that takes a metallicity has its own (given as a number), each step gets its own. -/
theorem C46_own_metallicity_partial (m : Option Rat) (ss : List StepCfg)
    (h : ∀ s ∈ ss, ∃ z, s.met = some (some z)) : (loadSteps m ss).1 = ss.map (wanted m) := by
  induction ss generalizing m with
  | nil => rfl
  | cons s ss ih =>
    obtain ⟨z, hz⟩ := h s (by simp)
    simp only [loadSteps, List.map_cons]
    rw [ih _ (fun t ht => h t (by simp [ht]))]
    congr 1
    · simp only [checkStep, wanted, hz]
      split <;> simp [StepCfg.get, hz]
    · apply List.map_congr_left
      intro t ht
      obtain ⟨y, hy⟩ := h t (by simp [ht])
      simp [wanted, hy]

/-- C46: a single step gets its own metallicity if it has one, the given one otherwise, and solar if both are missing. -/
theorem C46_check_step (m : Option Rat) (s : StepCfg) : (checkStep m s).1 = wanted m s := by
  unfold checkStep wanted StepCfg.get
  split
  · congr 1
    rcases s.met with _ | _ | z <;> rfl
  · rfl

/-- C46 is false when steps mix: a step's own metallicity leaks to all later steps without one. -/
theorem C46_leak_violated :
    let a : StepCfg := ⟨"step_HMS_HMS", true, some (some (1 / 10))⟩
    let b : StepCfg := ⟨"step_detached", true, none⟩
    (loadSteps (some 1) [a, b]).1 = [some (1 / 10), some (1 / 10)] ∧
    [a, b].map (wanted (some 1)) = [some (1 / 10), some 1] := by
  decide +kernel

/-- C46 is false on reload: after a first `load_steps(Z)`, every later call uses `Z` again, whatever metallicity is
asked for. -/
theorem C46_reload_violated (z : Rat) (m' : Option Rat) (ss : List StepCfg) (h : ∀ s ∈ ss, s.met = none) :
    (loadSteps m' (loadSteps (some z) ss).2).1 = ss.map (wanted (some z)) := by
  have hsnd : (loadSteps (some z) ss).2 = ss.map fun s => { s with met := if s.usesMet then some (some z) else none } := by
    induction ss with
    | nil => rfl
    | cons s ss ih =>
      have hs := h s (by simp)
      have hg : s.get (some z) = some z := by simp [StepCfg.get, hs]
      simp only [loadSteps, List.map_cons]
      rw [hg, ih (fun t ht => h t (by simp [ht]))]
      congr 1
      obtain ⟨n, u, q⟩ := s
      dsimp only at hs; subst hs
      cases u <;> simp [checkStep, StepCfg.get]
  rw [hsnd]
  induction ss generalizing m' with
  | nil => rfl
  | cons s ss ih =>
    have hs := h s (by simp)
    have ih' := fun m => ih m (fun t ht => h t (by simp [ht])) (by
      have := hsnd
      simp only [loadSteps, List.map_cons, StepCfg.get, hs, Option.getD_none] at this
      exact (List.cons.inj this).2)
    simp only [List.map_cons, loadSteps]
    rw [ih']
    congr 1
    obtain ⟨n, u, q⟩ := s
    dsimp only at hs; subst hs
    cases u <;> simp [checkStep, StepCfg.get, wanted]

example : (loadSteps (some (1 / 10)) (loadSteps (some 1) [⟨"step_SN", false, none⟩, ⟨"step_detached", true, none⟩]).2).1
    = [none, some 1] := by
  rw [C46_reload_violated 1 _ _ (by simp)]; rfl

/-! ### C28 -/

/-- C28 (partial).  If the hooks are numbered `1..n` (each with an `import` key) and the section has more than `n`
keys, all hooks are loaded in order.  Missing: sections with no optional keys, see `C28_hooks_violated`. -/
theorem C28_hooks_partial {C K : Type} (s : HookSection C K) (d : K) (n : Nat) (c : Nat → C)
    (hnum : ∀ h, (∃ k ∈ s.names, k.num = h) ↔ 1 ≤ h ∧ h ≤ n) (himp : ∀ h, 1 ≤ h → h ≤ n → s.imp h = some (c h))
    (hlen : n < s.names.length) :
    loadHooks s d = some ((List.range n).map fun i => (c (i + 1), (s.kw (i + 1)).getD d)) := by
  have hany : ∀ h, s.names.any (fun k => k.num == h) = true ↔ 1 ≤ h ∧ h ≤ n := by
    intro h; rw [← hnum]; simp
  have hsplit : List.range (s.names.length - 1) =
      List.range n ++ (List.range (s.names.length - 1 - n)).map (n + ·) := by
    rw [← List.range_add]; congr 1; omega
  unfold loadHooks
  rw [hsplit, List.map_append, hookLoop_append]
  rw [hookLoop_all s d c]
  · rw [hookLoop_none]
    · simp
    · intro x hx
      simp only [List.map_map, List.mem_map, List.mem_range, Function.comp] at hx
      obtain ⟨i, hi, rfl⟩ := hx
      rw [← Bool.not_eq_true, hany]; omega
  · intro x hx
    simp only [List.mem_map, List.mem_range] at hx
    obtain ⟨i, hi, rfl⟩ := hx
    rw [hany]; omega
  · intro x hx
    simp only [List.mem_map, List.mem_range] at hx
    obtain ⟨i, hi, rfl⟩ := hx
    exact himp _ (by omega) (by omega)

/-- C28 is false when no hook has an optional key: with `n` hooks given by `import_1 … import_n` only, the last hook
is silently skipped (for `n = 1`: no hook at all). -/
theorem C28_hooks_violated {C K : Type} (n : Nat) (c : Nat → C) (kw : Nat → Option K) (d : K) :
    let s : HookSection C K := ⟨(List.range (n + 1)).map fun i => ⟨"import", i + 1⟩, fun h => some (c h), kw⟩
    loadHooks s d = some ((List.range n).map fun i => (c (i + 1), (kw (i + 1)).getD d)) := by
  intro s
  unfold loadHooks
  have : s.names.length - 1 = n := by simp [s]
  rw [this, hookLoop_all s d c]
  · simp [s]
  · intro x hx
    simp only [List.mem_map, List.mem_range] at hx
    obtain ⟨i, hi, rfl⟩ := hx
    simp only [s, List.any_map, List.any_eq_true, List.mem_range, Function.comp, beq_iff_eq]
    exact ⟨i, by omega, rfl⟩
  · intro x _; rfl

/-- C28.  A numbered key group without `import_h` inside the range is an error, not a silent skip. -/
theorem C28_missing_import {C K : Type} (s : HookSection C K) (d : K) (h : Nat) (h1 : 1 ≤ h)
    (h2 : h < s.names.length) (hk : ∃ k ∈ s.names, k.num = h) (hi : s.imp h = none) : loadHooks s d = none := by
  unfold loadHooks
  have hmem : h ∈ (List.range (s.names.length - 1)).map (· + 1) := by
    simp only [List.mem_map, List.mem_range]; exact ⟨h - 1, by omega, by omega⟩
  generalize (List.range (s.names.length - 1)).map (· + 1) = l at hmem
  induction l with
  | nil => simp at hmem
  | cons x xs ih =>
    rw [hookLoop]
    rcases List.mem_cons.1 hmem with rfl | hm
    · have : s.names.any (fun k => k.num == h) = true := by simpa using hk
      rw [if_pos this, hi]
    · rw [ih hm]
      split
      · cases s.imp x <;> rfl
      · rfl

/-- A section with two hooks and one `kwargs` key meets the hypotheses of `C28_hooks_partial`. -/
example : loadHooks (C := String) (K := Nat)
    ⟨[⟨"import", 1⟩, ⟨"kwargs", 1⟩, ⟨"import", 2⟩], fun h => if h = 1 then some "A" else some "B",
     fun h => if h = 1 then some 7 else none⟩ 0 = some [("A", 7), ("B", 0)] := by decide +kernel

open Classical in
/-- C28.  What is loaded from any section: the hooks whose number occurs in a key and is smaller than the number of keys, in order, and nothing
else; an error exactly if one of these has no `import` key. -/
theorem C28_exact {C K : Type} (s : HookSection C K) (d : K) :
    loadHooks s d = if ∀ h, 1 ≤ h → h < s.names.length → (∃ k ∈ s.names, k.num = h) → s.imp h ≠ none then
      some (((List.range (s.names.length - 1)).map (· + 1)).filterMap fun h =>
        if s.names.any (fun k => k.num == h) then (s.imp h).map fun c => (c, (s.kw h).getD d) else none) else none := by
  have hmem : ∀ h, h ∈ (List.range (s.names.length - 1)).map (· + 1) ↔ 1 ≤ h ∧ h < s.names.length := by
    intro h
    simp only [List.mem_map, List.mem_range]
    constructor
    · rintro ⟨i, hi, rfl⟩; omega
    · rintro ⟨h1, h2⟩; exact ⟨h - 1, by omega, by omega⟩
  have hiff : (∀ h, 1 ≤ h → h < s.names.length → (∃ k ∈ s.names, k.num = h) → s.imp h ≠ none) ↔
      ∀ h ∈ (List.range (s.names.length - 1)).map (· + 1), s.names.any (fun k => k.num == h) = true → s.imp h ≠ none := by
    refine forall_congr' fun h => ?_
    rw [hmem]
    constructor
    · intro hh hx ha
      exact hh hx.1 hx.2 (by simpa using ha)
    · intro hh h1 h2 ha
      exact hh ⟨h1, h2⟩ (by simpa using ha)
  unfold loadHooks
  simp only [hiff]
  generalize (List.range (s.names.length - 1)).map (· + 1) = l
  induction l with
  | nil => simp [hookLoop]
  | cons x xs ih =>
    rw [hookLoop, ih]
    by_cases ha : s.names.any (fun k => k.num == x) = true
    · rw [if_pos ha]
      cases hi : s.imp x with
      | none =>
        rw [if_neg (show ¬ ∀ h ∈ x :: xs, s.names.any (fun k => k.num == h) = true → s.imp h ≠ none from
          fun h => h x (by simp) ha hi)]
      | some c =>
        by_cases hr : ∀ h ∈ xs, s.names.any (fun k => k.num == h) = true → s.imp h ≠ none
        · have hr' : ∀ h ∈ x :: xs, s.names.any (fun k => k.num == h) = true → s.imp h ≠ none := by
            intro h hh
            rcases List.mem_cons.1 hh with rfl | hh
            · intro _; rw [hi]; simp
            · exact hr h hh
          rw [if_pos hr, if_pos hr', List.filterMap_cons, if_pos ha, hi]
          rfl
        · rw [if_neg hr, if_neg]
          · rfl
          · intro h; exact hr fun y hy => h y (by simp [hy])
    · rw [if_neg ha]
      by_cases hr : ∀ h ∈ xs, s.names.any (fun k => k.num == h) = true → s.imp h ≠ none
      · rw [if_pos hr, if_pos]
        · rw [List.filterMap_cons, if_neg ha]
        · intro h hh
          rcases List.mem_cons.1 hh with rfl | hh
          · intro h'; exact absurd h' ha
          · exact hr h hh
      · rw [if_neg hr, if_neg]
        intro h; exact hr fun y hy => h y (by simp [hy])

/-- C28 fails for numbers beyond the number of keys: such a hook is left out without a message. -/
theorem C28_gap_violated {C K : Type} (a b : C) (h : Nat) (hh : 2 ≤ h) (d : K) :
    loadHooks (C := C) (K := K) ⟨[⟨"import", 1⟩, ⟨"import", h⟩], fun n => if n = 1 then some a else some b, fun _ => none⟩ d = some [(a, d)] := by
  have h1 : ¬ h = 1 := by omega
  simp [loadHooks, hookLoop]

end Verif.SimProps
