import Mathlib.Data.List.Basic
import Mathlib.Tactic.Common
/-!
Model of `/repo/posydon/utils/ignorereason.py` (whole file): the reason why a MESA run is left out of a grid.
-/
namespace Verif.IgnoreReason

/-- `IGNORE_REASONS_PRIORITY`, l.10-24. -/
def priority : List String :=
  ["ignored_no_history1", "ignored_no_binary_history", "corrupted_history1", "corrupted_binary_history",
   "corrupted_history2", "ignored_scrubbed_history", "ignored_no_final_profile", "ignored_no_RLO"]

/-- The instance dictionary: attributes `reason` and `order`. -/
structure IR where
  reason : Option String
  order : Option ℕ
  deriving DecidableEq, Repr

/-- `__init__`, l.30-32: both assignments go through `__setattr__`; the first one resets both entries. -/
def fresh : IR := ⟨none, none⟩

/-- Errors `__setattr__` can raise.  `badOrder` would be the `TypeError` of comparing with a missing order. -/
inductive Err | notRecognised | badOrder
  deriving DecidableEq, Repr

/-- `__setattr__`, l.38-61: assignment of `value` (`none` is Python's `None`) to attribute `name`. -/
def setattr (o : IR) (name : String) (value : Option String) : Except Err IR :=
  if name ≠ "reason" then .ok o
  else match value with
    | none => .ok ⟨none, none⟩
    | some v =>
      if v ∉ priority then .error .notRecognised
      else
        let newOrder := priority.idxOf v
        match o.reason, o.order with
        | none, _ => .ok ⟨some v, some newOrder⟩
        | some _, none => .error .badOrder
        | some _, some old => if newOrder < old then .ok ⟨some v, some newOrder⟩ else .ok o

/-- `__bool__`, l.34-36. -/
def toBool (o : IR) : Bool := o.reason.isSome

/-- A sequence of assignments where the caller handles the exceptions (the object is unchanged by a raising one). -/
def run (o : IR) : List (String × Option String) → IR
  | [] => o
  | (n, v) :: rest => match setattr o n v with
    | .ok o' => run o' rest
    | .error _ => run o rest

/-! ### Specification -/

/-- The reasons reported since the last reset. -/
def sinceReset : List (String × Option String) → List String
  | [] => []
  | (n, v) :: rest =>
    if rest.any (fun p => p.1 == "reason" && p.2 == none) then sinceReset rest
    else if n = "reason" then v.toList ++ sinceReset rest else sinceReset rest

/-- The most important of the reported reasons. -/
def best (l : List String) : Option String := priority.find? (fun p => p ∈ l)

/-! ### Lemmas -/

/-- The object says: `best` of `l`, with its place. -/
def Holds (o : IR) (l : List String) : Prop :=
  o.reason = best l ∧ o.order = (best l).map (fun r => priority.idxOf r)

theorem find_idx_le (P : List String) (l : List String) (b : String) (h : P.find? (fun p => p ∈ l) = some b) (v : String)
    (hv : v ∈ P) (hl : v ∈ l) : P.idxOf b ≤ P.idxOf v := by
  induction P with
  | nil => cases hv
  | cons p P ih =>
    rw [List.find?_cons] at h
    split at h
    · cases h; simp
    · rename_i hp
      have hpv : p ≠ v := by rintro rfl; simp [hl] at hp
      have hpb : p ≠ b := by
        rintro rfl
        have := List.find?_some h
        simp at this hp
        exact hp this
      rw [List.idxOf_cons_ne _ hpb, List.idxOf_cons_ne _ hpv]
      have := ih h (by rcases List.mem_cons.1 hv with h | h; exact absurd h.symm hpv; exact h)
      omega

theorem idxOf_inj (P : List String) (a b : String) (ha : a ∈ P) (h : P.idxOf a = P.idxOf b) : a = b :=
  (List.idxOf_inj ha).1 h

theorem best_mem (l : List String) (b : String) (h : best l = some b) : b ∈ priority ∧ b ∈ l := by
  refine ⟨List.mem_of_find?_eq_some h, ?_⟩
  have := List.find?_some h
  simpa using this

theorem best_none (l : List String) : best l = none ↔ ∀ r ∈ l, r ∉ priority := by
  unfold best
  rw [List.find?_eq_none]
  constructor
  · intro h r hr hp; exact h r hp (by simpa using hr)
  · intro h r hr hp; exact h r (by simpa using hp) hr

/-- A reason that is reported and has no better competitor is the best one. -/
theorem best_eq (l : List String) (b : String) (hp : b ∈ priority) (hl : b ∈ l)
    (hmin : ∀ v ∈ priority, v ∈ l → priority.idxOf b ≤ priority.idxOf v) : best l = some b := by
  cases h : best l with
  | none => exact absurd hp ((best_none l).1 h b hl)
  | some c =>
    have hc := best_mem l c h
    have h1 := find_idx_le priority l c h b hp hl
    have h2 := hmin c hc.1 hc.2
    rw [idxOf_inj priority c b hc.1 (by omega)]

/-- One valid report. -/
theorem setattr_holds (o : IR) (l : List String) (h : Holds o l) (v : String) (hv : v ∈ priority) :
    ∃ o', setattr o "reason" (some v) = .ok o' ∧ Holds o' (l ++ [v]) := by
  obtain ⟨h1, h2⟩ := h
  have hm : v ∈ l ++ [v] := by simp
  cases hb : best l with
  | none =>
    rw [hb] at h1 h2
    have e : best (l ++ [v]) = some v := by
      refine best_eq _ _ hv hm fun w hw hwl => ?_
      rcases List.mem_append.1 hwl with hwl | hwl
      · exact absurd hw ((best_none l).1 hb w hwl)
      · exact Nat.le_of_eq (by rw [List.mem_singleton.1 hwl])
    refine ⟨⟨some v, some (priority.idxOf v)⟩, ?_, ?_⟩
    · simp [setattr, hv, h1]
    · exact ⟨by rw [e], by rw [e]; rfl⟩
  | some b =>
    rw [hb] at h1 h2
    have hbm := best_mem l b hb
    by_cases hlt : priority.idxOf v < priority.idxOf b
    · have e : best (l ++ [v]) = some v := by
        refine best_eq _ _ hv hm fun w hw hwl => ?_
        rcases List.mem_append.1 hwl with hwl | hwl
        · have := find_idx_le priority l b hb w hw hwl; omega
        · exact Nat.le_of_eq (by rw [List.mem_singleton.1 hwl])
      refine ⟨⟨some v, some (priority.idxOf v)⟩, ?_, ?_⟩
      · simp [setattr, hv, h1, h2, hlt]
      · exact ⟨by rw [e], by rw [e]; rfl⟩
    · have e : best (l ++ [v]) = some b := by
        refine best_eq _ _ hbm.1 (by simp [hbm.2]) fun w hw hwl => ?_
        rcases List.mem_append.1 hwl with hwl | hwl
        · exact find_idx_le priority l b hb w hw hwl
        · rw [List.mem_singleton.1 hwl]; omega
      refine ⟨o, ?_, ?_⟩
      · simp [setattr, hv, h1, h2, hlt]
      · exact ⟨by rw [e, h1], by rw [e, h2]⟩

/-- An unknown report changes neither the object nor what is best. -/
theorem best_append_unknown (l : List String) (v : String) (hv : v ∉ priority) : best (l ++ [v]) = best l := by
  unfold best
  have : ∀ P : List String, v ∉ P → P.find? (fun p => decide (p ∈ l ++ [v])) = P.find? (fun p => decide (p ∈ l)) := by
    intro P
    induction P with
    | nil => simp
    | cons p P ih =>
      intro h
      simp only [List.mem_cons, not_or] at h
      have : (p ∈ l ++ [v]) ↔ p ∈ l := by simp [Ne.symm h.1]
      rw [List.find?_cons, List.find?_cons, ih h.2]
      simp only [this]
  exact this _ hv

end Verif.IgnoreReason
