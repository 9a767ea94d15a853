import Verif.Py
/-!
Model of the configuration side of `/repo/posydon/binary_evol/simulationproperties.py` (constructor, loading of
steps) and of the hook section of ini files in `/repo/posydon/popsyn/io.py`.
-/
namespace Verif.SimProps
open Verif.Py

/-- Attribute values of a `SimulationProperties` object, as far as they matter here. -/
inductive Val
  | int (n : Int) | float (q : Rat) | list | other (n : Nat)
  deriving DecidableEq, Repr

/-- Attributes of the object; `none`: `hasattr` is false. -/
abbrev Attrs := String → Option Val

/-- Keyword arguments, in order (keys distinct, as in Python). -/
abbrev Kwargs := List (String × Val)

/-- `setattr(self, k, v)`. -/
def setA (a : Attrs) (k : String) (v : Val) : Attrs := set a k (some v)

/-- l.185-194: `if not hasattr(self, k): self.k = v`. -/
def default (a : Attrs) (k : String) (v : Val) : Attrs := if (a k).isSome then a else setA a k v

/-- l.198-202: `for key, val in self.kwargs.items(): if "step" not in key: setattr(self, key, val)`. -/
def setKwargs : Kwargs → Attrs → Attrs
  | [], a => a
  | (k, v) :: ks, a => setKwargs ks (if strIn "step" k then a else setA a k v)

/-- `SimulationProperties.__init__`, l.50-202, restricted to attributes that are not steps: `hooks` are the
`(name, callable)` entries of `extra_hooks` (l.175-177), `kwargs` the keyword arguments.  Class attributes and
methods of the object (`default_grid_paths`, …) are left out. -/
def init (hooks kwargs : Kwargs) : Attrs :=
  let a0 : Attrs := hooks.foldl (fun a kv => setA a kv.1 kv.2) (fun _ => none)
  let a1 := default a0 "max_simulation_time" (.float 13800000000)
  let a2 := default a1 "end_events" .list
  let a3 := default a2 "end_states" .list
  let a4 := default a3 "max_n_steps_per_binary" (.int 100)
  setKwargs kwargs a4

/-! Loading of steps -/

/-- An entry `(class, kwargs)` of `self.kwargs`: whether `"metallicity"` is in the class's `DEFAULT_KWARGS`, and
the entry `metallicity` of the keyword dictionary (absent, Python `None`, or a number). -/
structure StepCfg where
  name : String
  usesMet : Bool
  met : Option (Option Rat)
  deriving DecidableEq, Repr

/-- `dict.get('metallicity', default)`. -/
def StepCfg.get (s : StepCfg) (d : Option Rat) : Option Rat := s.met.getD d

/-- Metallicity part of `check_step`, l.519-533: returns the metallicity given to the step constructor (`none` if
the class takes none) and the dictionary as mutated. -/
def checkStep (m : Option Rat) (s : StepCfg) : Option Rat × StepCfg :=
  if s.usesMet then
    let z := (s.get m).getD 1
    (some z, { s with met := some (some z) })
  else (none, s)

/-- `load_steps`, l.354-378: the running variable `metallicity` is overwritten by each step's own entry. -/
def loadSteps : Option Rat → List StepCfg → List (Option Rat) × List StepCfg
  | _, [] => ([], [])
  | m, s :: ss =>
    let m' := s.get m
    let r := checkStep m' s
    let rs := loadSteps m' ss
    (r.1 :: rs.1, r.2 :: rs.2)

/-! Hooks from an ini file -/

/-- A key of the `[extra_hooks]` section, split at its last underscore: `stem_number`. -/
structure HookKey where
  stem : String
  num : Nat
  deriving DecidableEq, Repr

/-- Hooks section: its keys without those containing `extra`, and the values of the `import_h`/`kwargs_h` keys. -/
structure HookSection (C K : Type) where
  names : List HookKey
  imp : Nat → Option C
  kw : Nat → Option K

/-- The loop l.477-493 over `range(1, len(names))`; `none` is `KeyError` (no `import_h`). -/
def hookLoop {C K : Type} (s : HookSection C K) (d : K) : List Nat → Option (List (C × K))
  | [] => some []
  | h :: hs =>
    if s.names.any (fun k => k.num == h) then
      match s.imp h with
      | none => none
      | some c => (hookLoop s d hs).map fun r => (c, (s.kw h).getD d) :: r
    else hookLoop s d hs

/-- `simprop_kwargs_from_ini`, section `extra_hooks`, l.470-495. -/
def loadHooks {C K : Type} (s : HookSection C K) (d : K) : Option (List (C × K)) :=
  hookLoop s d ((List.range (s.names.length - 1)).map (· + 1))

/-! ### Specification and helper lemmas -/

/-- Lookup in a keyword dictionary. -/
def kwGet (kw : Kwargs) (k : String) : Option Val := (kw.find? (fun kv => kv.1 == k)).map (·.2)

/-- What the user asked for: the step's own metallicity, else the one given to `load_steps`, else solar. -/
def wanted (m : Option Rat) (s : StepCfg) : Option Rat :=
  if s.usesMet then some (match s.met with
    | some (some z) => z
    | some none => 1
    | none => m.getD 1) else none

theorem setKwargs_notMem (kw : Kwargs) (a : Attrs) (k : String) (h : ∀ v, (k, v) ∈ kw → strIn "step" k = true) :
    setKwargs kw a k = a k := by
  induction kw generalizing a with
  | nil => rfl
  | cons kv ks ih =>
    obtain ⟨k', v'⟩ := kv
    rw [setKwargs, ih _ (fun v hv => h v (by simp [hv]))]
    split
    · rfl
    · rename_i hs
      have : k ≠ k' := by
        rintro rfl
        exact hs (h v' (by simp))
      rw [setA, set_other _ _ _ _ this]

theorem setKwargs_mem (kw : Kwargs) (hn : (kw.map (·.1)).Nodup) (a : Attrs) (k : String) (v : Val)
    (hm : (k, v) ∈ kw) (hs : strIn "step" k = false) : setKwargs kw a k = some v := by
  induction kw generalizing a with
  | nil => simp at hm
  | cons kv ks ih =>
    obtain ⟨k', v'⟩ := kv
    rw [List.map_cons, List.nodup_cons] at hn
    rw [setKwargs]
    rcases List.mem_cons.1 hm with h | h
    · cases h
      rw [setKwargs_notMem]
      · simp [hs, setA]
      · intro w hw
        exact absurd (List.mem_map_of_mem (f := (·.1)) hw) hn.1
    · exact ih hn.2 _ h

theorem default_other (a : Attrs) (k v k') (h : k' ≠ k) : default a k v k' = a k' := by
  unfold default; split
  · rfl
  · rw [setA, set_other _ _ _ _ h]

theorem default_same (a : Attrs) (k v) : default a k v k = some ((a k).getD v) := by
  unfold default
  cases h : a k <;> simp [h, setA]

theorem hooks_notMem (hooks : Kwargs) (a : Attrs) (k : String) (h : k ∉ hooks.map (·.1)) :
    hooks.foldl (fun a kv => setA a kv.1 kv.2) a k = a k := by
  induction hooks generalizing a with
  | nil => rfl
  | cons kv ks ih =>
    simp only [List.map_cons, List.mem_cons, not_or] at h
    rw [List.foldl_cons, ih _ h.2, setA, set_other _ _ _ _ h.1]

theorem hookLoop_none {C K : Type} (s : HookSection C K) (d : K) (l : List Nat)
    (h : ∀ x ∈ l, s.names.any (fun k => k.num == x) = false) : hookLoop s d l = some [] := by
  induction l with
  | nil => rfl
  | cons x xs ih =>
    rw [hookLoop, if_neg (by simp [h x (by simp)])]
    exact ih fun y hy => h y (by simp [hy])

theorem hookLoop_append {C K : Type} (s : HookSection C K) (d : K) (l l' : List Nat) :
    hookLoop s d (l ++ l') = (hookLoop s d l).bind fun r => (hookLoop s d l').map fun r' => r ++ r' := by
  induction l with
  | nil => simp [hookLoop]
  | cons x xs ih =>
    simp only [List.cons_append, hookLoop]
    split
    · cases s.imp x with
      | none => rfl
      | some c =>
        simp only [ih]
        cases hookLoop s d xs <;> cases hookLoop s d l' <;> simp
    · exact ih

theorem hookLoop_all {C K : Type} (s : HookSection C K) (d : K) (c : Nat → C) (l : List Nat)
    (h : ∀ x ∈ l, s.names.any (fun k => k.num == x) = true) (hc : ∀ x ∈ l, s.imp x = some (c x)) :
    hookLoop s d l = some (l.map fun x => (c x, (s.kw x).getD d)) := by
  induction l with
  | nil => rfl
  | cons x xs ih =>
    rw [hookLoop, if_pos (h x (by simp)), hc x (by simp), ih (fun y hy => h y (by simp [hy]))
      (fun y hy => hc y (by simp [hy]))]
    rfl

end Verif.SimProps
