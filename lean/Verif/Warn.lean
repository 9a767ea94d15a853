import Mathlib.Data.List.Basic
import Mathlib.Tactic.Common
/-!
Model of the warning registry and catcher of `/repo/posydon/utils/posydonwarning.py`
(`_apply_POSYDON_filter` l.193-284, `_issue_warn` l.286-300, `_Caught_POSYDON_Warnings` l.303-486,
`Catch_POSYDON_Warnings` l.492-559, `Pwarn` l.562-592).

Simplifications: a warning is an element of an arbitrary type `W`; its registry key and the action of Python's filter list
are given by functions (`Env`) of the warning and of whether it is looked at immediately or when the context is left
(the stack frame, hence the key, may differ).  A registry maps keys to counts, 0 meaning "no entry".  Arguments have the
types the code asks for (the `TypeError`s are not modelled).  "Shown" means handed to Python's `warnings.warn`.
-/
namespace Verif.Warn

variable {W K : Type} [DecidableEq K]

/-- Actions of Python's warning filters. -/
inductive Action | ignore | error | always | default | module' | once
  deriving DecidableEq, Repr

/-- Registry key and filter action of a warning; the flag says whether it is handled late (after having been cached). -/
structure Env (W K : Type) where
  key : Bool → W → K
  act : Bool → W → Action

abbrev Reg (K : Type) := K → ℕ

/-- Actions for which the registry counts, l.276. -/
def counted : Action → Bool
  | .always | .default | .module' | .once => true
  | _ => false

/-- Actions for which repetitions are suppressed, l.280. -/
def onlyOnce : Action → Bool
  | .default | .module' | .once => true
  | _ => false

/-- `_apply_POSYDON_filter`, l.264-284: whether the warning passes, and the new registry. -/
def filter (env : Env W K) (late : Bool) (w : W) (reg : Reg K) : Bool × Reg K :=
  let k := env.key late w
  let a := env.act late w
  if a = .ignore then (false, reg)
  else if counted a then
    if reg k ≠ 0 then
      let reg' := fun k' => if k' = k then reg k + 1 else reg k'
      if onlyOnce a then (false, reg') else (true, reg')
    else (true, fun k' => if k' = k then 1 else reg k')
  else (true, reg)

/-- State of the singleton `_CAUGHT_POSYDON_WARNINGS` (l.321-330, 489), the global registry (l.177) and what was shown.
`own = none` means that the global registry is in use. -/
structure St (W K : Type) where
  catch' : Bool
  record : Bool
  filterFirst : Bool
  cache : List W
  own : Option (Reg K)
  glob : Reg K
  shown : List W

/-- Apply the filter with the registry in use. -/
def filterSt (env : Env W K) (late : Bool) (w : W) (s : St W K) : Bool × St W K :=
  match s.own with
  | none => let r := filter env late w s.glob; (r.1, { s with glob := r.2 })
  | some o => let r := filter env late w o; (r.1, { s with own := some r.2 })

/-- `_issue_warn`, l.286-300. -/
def issue (env : Env W K) (late : Bool) (w : W) (s : St W K) : St W K :=
  let r := filterSt env late w s
  if r.1 then { r.2 with shown := r.2.shown ++ [w] } else r.2

/-- `__call__(new_warning=w)`, l.425-439; reached from `Pwarn`, l.583-588. -/
def warn (env : Env W K) (w : W) (s : St W K) : St W K :=
  if s.catch' then
    if s.filterFirst then
      let r := filterSt env false w s
      if s.record && r.1 then { r.2 with cache := r.2.cache ++ [w] } else r.2
    else if s.record then { s with cache := s.cache ++ [w] } else s
  else issue env false w s

/-- Re-issue of the cached warnings, l.412-424. -/
def flush (env : Env W K) (s : St W K) : St W K :=
  if s.catch' = false ∧ s.cache ≠ [] then
    let s' := if s.filterFirst then { s with shown := s.shown ++ s.cache }
      else s.cache.foldl (fun s w => issue env true w s) s
    { s' with cache := [] }
  else s

/-- `Catch_POSYDON_Warnings.__enter__`, l.532-544: settings are changed (l.391-411), then l.412-424. -/
def enter (env : Env W K) (c r f : Bool) (own : Option (Reg K)) (s : St W K) : St W K :=
  flush env { s with catch' := c, record := r, filterFirst := f, own := own }

/-- `Catch_POSYDON_Warnings.__exit__`, l.546-559 (also run when the body raises; the exception is passed on). -/
def exit (env : Env W K) (s : St W K) : St W K :=
  flush env { s with catch' := false, own := none }

def warnAll (env : Env W K) (ws : List W) (s : St W K) : St W K := ws.foldl (fun s w => warn env w s) s

/-! ### Specification -/

/-- Whether a warning passes, given the initial registry and the warnings issued before. -/
def passes (env : Env W K) (reg : Reg K) (pre : List W) (w : W) : Bool :=
  match env.act false w with
  | .ignore => false
  | .error | .always => true
  | _ => reg (env.key false w) = 0 ∧ ∀ p ∈ pre, env.key false p = env.key false w → counted (env.act false p) = false

/-- The warnings that pass, in order. -/
def selected (env : Env W K) (reg : Reg K) (pre : List W) : List W → List W
  | [] => []
  | w :: ws => (if passes env reg pre w then [w] else []) ++ selected env reg (pre ++ [w]) ws

/-- The registry after the warnings: one more for each counted warning with the key. -/
def counts (env : Env W K) (reg : Reg K) (ws : List W) : Reg K := fun k =>
  reg k + (ws.filter (fun w => env.key false w = k ∧ counted (env.act false w) = true)).length

/-! ### Lemmas -/

theorem counts_append (env : Env W K) (reg : Reg K) (ws : List W) (w : W) :
    counts env reg (ws ++ [w]) = counts env (counts env reg ws) [w] := by
  funext k; simp [counts, List.filter_append, Nat.add_assoc]

theorem counts_zero (env : Env W K) (reg : Reg K) (pre : List W) (k : K) :
    counts env reg pre k = 0 ↔ reg k = 0 ∧ ∀ p ∈ pre, env.key false p = k → counted (env.act false p) = false := by
  unfold counts
  rw [Nat.add_eq_zero_iff, List.length_eq_zero_iff, List.filter_eq_nil_iff]
  simp

/-- One application of the filter. -/
theorem filter_spec (env : Env W K) (reg : Reg K) (pre : List W) (w : W) :
    filter env false w (counts env reg pre) = (passes env reg pre w, counts env reg (pre ++ [w])) := by
  rw [counts_append]
  have hz := counts_zero env reg pre (env.key false w)
  set R := counts env reg pre with hR
  have h1 : counts env R [w] = fun k' => if k' = env.key false w then R k' + (if counted (env.act false w) then 1 else 0) else R k' := by
    funext k
    by_cases hk : k = env.key false w
    · subst hk; by_cases hc : counted (env.act false w) = true <;> simp [counts, hc]
    · have : ¬ env.key false w = k := fun h => hk h.symm
      simp [counts, hk, this]
  have hp : passes env reg pre w = match env.act false w with
      | .ignore => false
      | .error | .always => true
      | _ => decide (R (env.key false w) = 0) := by
    unfold passes
    cases env.act false w <;> simp only [hz]
  rw [h1, hp]
  have hif : ∀ n, (fun k' => if k' = env.key false w then R k' + n else R k') =
      fun k' => if k' = env.key false w then R (env.key false w) + n else R k' := by
    intro n; funext k; split
    · rename_i h; rw [h]
    · rfl
  have hself : (fun k' => if k' = env.key false w then R (env.key false w) else R k') = R := by
    funext k; split
    · rename_i h; rw [h]
    · rfl
  rw [hif]
  clear_value R
  clear hz hp h1 hif
  unfold filter
  cases ha : env.act false w <;> by_cases h0 : R (env.key false w) = 0 <;>
    simp only [counted, onlyOnce, h0, if_true, if_false, ne_eq, not_true, not_false_iff, Nat.add_zero,
      Nat.zero_add, reduceCtorEq, decide_true, decide_false, Bool.false_eq_true] <;>
    first | rfl | (rw [← h0, hself]) | (rw [hself])

end Verif.Warn
