import Mathlib.Data.Rat.Floor
import Mathlib.Algebra.Order.Floor.Ring
import Mathlib.Data.List.Sort
import Mathlib.Tactic.Linarith
import Mathlib.Tactic.FieldSimp
import Mathlib.Tactic.Ring
import Mathlib.Tactic.Positivity
import Mathlib.Tactic.Common
/-!
Model of the bookkeeping of the detached step, `/repo/posydon/binary_evol/DT/step_detached.py`:
`get_time_after_evo` (l.528-567, the times at which the solution is recorded), the part of `update_after_evo` (l.629-730) and of
`update_co_stars` (l.757-776) that writes attributes and histories, the loops of `__call__` that re-classify the recorded rows
(l.346-362), and the row appended afterwards by `BinaryStar.run_step` (`/repo/posydon/binary_evol/binarystar.py` l.282-286, 300-314).

Simplifications: floats are rationals; the integrator, the tracks and `check_state_of_star` are parameters (the values computed for one
key at the output times are a list, the classification of a star is a function of a row); `np.arange` has exactly
`ceil((stop - start)/step)` elements `start + i*step`, as in numpy but without rounding.
-/
namespace Verif.Detached

inductive Err
  | index    -- IndexError: t[-1] of an empty array
  | length   -- ValueError: np.arange with step 0
  deriving DecidableEq, Repr

/-- `np.arange(a, b, d)` for `d ≠ 0`. -/
def arange (a b d : ℚ) : List ℚ := (List.range ⌈(b - a) / d⌉.toNat).map fun i : Nat => a + (i : ℚ) * d

/-- l.554-556 and l.560-562: the grid of step `d`, without its first point, closed by the final time if it stops before it. -/
def grid (t0 T d : ℚ) : Except Err (List ℚ) :=
  if d = 0 then .error .length
  else
    let t := (arange t0 (T + d / 2) d).tail
    match t.getLast? with
    | none => .error .index
    | some l => if l < T then .ok (t ++ [T]) else .ok t

/-- `get_time_after_evo`, l.553-567; `t0` is the binary's time, `T` the last time of the integration. -/
def outTimes (dt : Option ℚ) (nSteps : Option ℤ) (t0 T : ℚ) : Except Err (List ℚ) :=
  match dt with
  | some d => if d > 0 then grid t0 T d else byNumber
  | none => byNumber
where
  /-- l.557-564. -/
  byNumber : Except Err (List ℚ) :=
    match nSteps with
    | some n => if n > 0 then grid t0 T ((T - t0) / n) else .ok [T]
    | none => .ok [T]

/-! ### Attributes and histories -/

variable {V : Type}

/-- A star or a binary: the current value and the history of each property. -/
structure Obj (V : Type) where
  cur : String → V
  hist : String → List V

def upd {α : Type} (f : String → α) (k : String) (v : α) : String → α := fun k' => if k' = k then v else f k'

/-- l.721-730 and l.771-776, one key: the last value becomes the current one, the values are appended to the history if there are
several of them. `col` has at least one element. -/
def recordKey (o : Obj V) (k : String) (col : List V) : Obj V :=
  { cur := match col.getLast? with
      | some v => upd o.cur k v
      | none => o.cur
    hist := if col.length > 1 then upd o.hist k (o.hist k ++ col) else o.hist }

/-- The loop over the keys, l.638-730. -/
def record (keys : List String) (cols : String → List V) (o : Obj V) : Obj V :=
  keys.foldl (fun o k => recordKey o k (cols k)) o

/-- Python `l[-j]`, for `1 ≤ j ≤ len(l)`. -/
def back (l : List V) (j : Nat) : Option V := if j = 0 then none else if j ≤ l.length then l[l.length - j]? else none

/-- Row `-j` of the histories. -/
def rowBack (o : Obj V) (j : Nat) : String → Option V := fun k => back (o.hist k) j

/-- `state_history[-j] = check_state_of_star(star, i=-j)`. -/
def relabelAt (classify : (String → Option V) → V) (o : Obj V) (j : Nat) : Obj V :=
  { o with hist := upd o.hist "state" ((o.hist "state").set ((o.hist "state").length - j) (classify (rowBack o j))) }

/-- l.347-349 and l.360-362 with `n = len(t)`: the current state, then `for timestep in range(-len(t[:-1]), 0)`. -/
def relabel (classify : (String → Option V) → V) (n : Nat) (o : Obj V) : Obj V :=
  ((List.range (n - 1)).map (fun i => n - 1 - i)).foldl (relabelAt classify)
    { o with cur := upd o.cur "state" (classify fun k => some (o.cur k)) }

/-- l.357-358 for an accreting compact object: the current rate and the slice
`lg_mdot_history[len(lg_mdot_history) - len(t) + 1:] = log10(mdot[:-1])`. -/
def accretion (rates : List V) (o : Obj V) : Obj V :=
  let h := o.hist "lg_mdot"
  { cur := match rates.getLast? with
      | some v => upd o.cur "lg_mdot" v
      | none => o.cur
    hist := upd o.hist "lg_mdot" (h.take (h.length + 1 - rates.length) ++ rates.dropLast) }

/-- `append_state` of binarystar.py l.300-314 and singlestar.py: one more row with the current values. -/
def appendState (keys : List String) (o : Obj V) : Obj V :=
  { o with hist := fun k => if k ∈ keys then o.hist k ++ [o.cur k] else o.hist k }

/-- A star that is not a compact object through the step: recording, classification, and the row of `run_step`. -/
def starStep (keys : List String) (classify : (String → Option V) → V) (n : Nat) (cols : String → List V) (o : Obj V) : Obj V :=
  appendState keys (relabel classify n (record keys cols o))

/-! ### Lemmas -/

theorem upd_same {α : Type} (f : String → α) (k v) : upd f k v k = v := by simp [upd]
theorem upd_other {α : Type} (f : String → α) (k v k') (h : k' ≠ k) : upd f k v k' = f k' := by simp [upd, h]

theorem arange_length (a b d : ℚ) : (arange a b d).length = ⌈(b - a) / d⌉.toNat := by simp [arange]

theorem tail_range_map {α : Type} (f : Nat → α) (n : Nat) : ((List.range n).map f).tail = (List.range (n - 1)).map fun i => f (i + 1) := by
  cases n with
  | zero => rfl
  | succ n => simp [List.range_succ_eq_map, Function.comp_def]

/-- Number of grid points after the first. -/
def count (t0 T d : ℚ) : Nat := ⌈(T - t0) / d + 1 / 2⌉.toNat - 1

theorem grid_points {t0 T d : ℚ} (hd : d ≠ 0) :
    (arange t0 (T + d / 2) d).tail = (List.range (count t0 T d)).map fun i : Nat => t0 + ((i : ℚ) + 1) * d := by
  have h : (T + d / 2 - t0) / d = (T - t0) / d + 1 / 2 := by field_simp; ring
  unfold arange
  rw [tail_range_map, h]
  simp [count]

theorem count_lt {t0 T d : ℚ} (hd : 0 < d) (hT : t0 < T) : t0 + (count t0 T d : ℚ) * d < T + d / 2 := by
  have hx : 0 < (T - t0) / d := div_pos (by linarith) hd
  have h1 : 0 < ⌈(T - t0) / d + 1 / 2⌉ := Int.ceil_pos.mpr (by linarith)
  have hc : ((count t0 T d : Nat) : ℤ) = ⌈(T - t0) / d + 1 / 2⌉ - 1 := by
    unfold count; omega
  have hc' : ((count t0 T d : Nat) : ℚ) = (⌈(T - t0) / d + 1 / 2⌉ : ℚ) - 1 := by exact_mod_cast hc
  have h2 := Int.ceil_lt_add_one ((T - t0) / d + 1 / 2)
  have h3 : (count t0 T d : ℚ) < (T - t0) / d + 1 / 2 := by rw [hc']; linarith
  have h4 := mul_lt_mul_of_pos_right h3 hd
  have h5 : ((T - t0) / d + 1 / 2) * d = T - t0 + d / 2 := by field_simp
  linarith

theorem le_count {t0 T d : ℚ} (hd : 0 < d) (hT : t0 < T) : T - d / 2 ≤ t0 + (count t0 T d : ℚ) * d := by
  have hx : 0 < (T - t0) / d := div_pos (by linarith) hd
  have h1 : 0 < ⌈(T - t0) / d + 1 / 2⌉ := Int.ceil_pos.mpr (by linarith)
  have hc : ((count t0 T d : Nat) : ℤ) = ⌈(T - t0) / d + 1 / 2⌉ - 1 := by
    unfold count; omega
  have hc' : ((count t0 T d : Nat) : ℚ) = (⌈(T - t0) / d + 1 / 2⌉ : ℚ) - 1 := by exact_mod_cast hc
  have h2 := Int.le_ceil ((T - t0) / d + 1 / 2)
  have h3 : (T - t0) / d - 1 / 2 ≤ (count t0 T d : ℚ) := by rw [hc']; linarith
  have h4 := mul_le_mul_of_nonneg_right h3 hd.le
  have h5 : ((T - t0) / d - 1 / 2) * d = T - t0 - d / 2 := by field_simp
  linarith

theorem count_pos_iff {t0 T d : ℚ} (hd : 0 < d) (hT : t0 < T) : 0 < count t0 T d ↔ d < 2 * (T - t0) := by
  have e : 0 < count t0 T d ↔ 1 < ⌈(T - t0) / d + 1 / 2⌉ := by unfold count; omega
  rw [e, Int.lt_ceil]
  have : ((1 : ℤ) : ℚ) < (T - t0) / d + 1 / 2 ↔ 1 / 2 < (T - t0) / d := by
    constructor <;> intro h <;> push_cast at * <;> linarith
  rw [this, lt_div_iff₀ hd]
  constructor <;> intro h <;> linarith

/-- The grid in closed form. -/
theorem grid_eq {t0 T d : ℚ} (hd : 0 < d) :
    grid t0 T d = if count t0 T d = 0 then .error .index
      else if t0 + (count t0 T d : ℚ) * d < T then .ok ((List.range (count t0 T d)).map (fun i : Nat => t0 + ((i : ℚ) + 1) * d) ++ [T])
      else .ok ((List.range (count t0 T d)).map fun i : Nat => t0 + ((i : ℚ) + 1) * d) := by
  unfold grid
  rw [if_neg hd.ne', grid_points hd.ne']
  cases hc : count t0 T d with
  | zero => simp
  | succ c =>
    have hl : ((List.range (c + 1)).map fun i : Nat => t0 + ((i : ℚ) + 1) * d).getLast? = some (t0 + (((c + 1 : Nat) : ℚ)) * d) := by
      simp [List.range_succ]
    simp only [hl]
    rw [if_neg (Nat.succ_ne_zero c)]

theorem points_sorted {t0 d : ℚ} (hd : 0 < d) (c : Nat) : ((List.range c).map fun i : Nat => t0 + ((i : ℚ) + 1) * d).Pairwise (· < ·) := by
  rw [List.pairwise_map]
  refine List.Pairwise.imp ?_ List.pairwise_lt_range
  intro a b hab
  have : (a : ℚ) < b := by exact_mod_cast hab
  have := mul_lt_mul_of_pos_right this hd
  linarith

theorem points_mem {t0 d : ℚ} (hd : 0 < d) {c : Nat} {x : ℚ} (hx : x ∈ (List.range c).map fun i : Nat => t0 + ((i : ℚ) + 1) * d) :
    t0 < x ∧ x ≤ t0 + (c : ℚ) * d := by
  simp only [List.mem_map, List.mem_range] at hx
  obtain ⟨i, hi, rfl⟩ := hx
  have h1 : ((i : ℚ) + 1) ≤ c := by exact_mod_cast hi
  have h0 : (0 : ℚ) < (i : ℚ) + 1 := by positivity
  have := mul_le_mul_of_nonneg_right h1 hd.le
  have := mul_pos h0 hd
  constructor <;> linarith

theorem record_hist_not (keys : List String) (cols : String → List V) (o : Obj V) (k : String) (h : k ∉ keys) :
    (record keys cols o).hist k = o.hist k ∧ (record keys cols o).cur k = o.cur k := by
  induction keys generalizing o with
  | nil => exact ⟨rfl, rfl⟩
  | cons a keys ih =>
    have ha : k ≠ a := fun e => h (by simp [e])
    have ht : k ∉ keys := fun e => h (by simp [e])
    have hu : record (a :: keys) cols o = record keys cols (recordKey o a (cols a)) := rfl
    rw [hu]
    obtain ⟨h1, h2⟩ := ih (recordKey o a (cols a)) ht
    refine ⟨h1.trans ?_, h2.trans ?_⟩
    · simp only [recordKey]
      split_ifs
      · exact upd_other _ _ _ _ ha
      · rfl
    · simp only [recordKey]
      cases (cols a).getLast? with
      | none => rfl
      | some v => exact upd_other _ _ _ _ ha

theorem record_key (keys : List String) (hn : keys.Nodup) (cols : String → List V) (o : Obj V) (k : String) (h : k ∈ keys) :
    (record keys cols o).hist k = (if (cols k).length > 1 then o.hist k ++ cols k else o.hist k) ∧
      (record keys cols o).cur k = ((cols k).getLast?.getD (o.cur k)) := by
  induction keys generalizing o with
  | nil => simp at h
  | cons a keys ih =>
    have hu : record (a :: keys) cols o = record keys cols (recordKey o a (cols a)) := rfl
    rw [hu]
    rw [List.nodup_cons] at hn
    by_cases hk : k = a
    · subst hk
      obtain ⟨h1, h2⟩ := record_hist_not keys cols (recordKey o k (cols k)) k hn.1
      refine ⟨h1.trans ?_, h2.trans ?_⟩
      · simp only [recordKey]
        split_ifs
        · exact upd_same _ _ _
        · rfl
      · simp only [recordKey]
        cases (cols k).getLast? with
        | none => rfl
        | some v => exact upd_same _ _ _
    · have hk' : k ∈ keys := by simpa [hk] using h
      obtain ⟨h1, h2⟩ := ih hn.2 (recordKey o a (cols a)) hk'
      have e1 : (recordKey o a (cols a)).hist k = o.hist k := by
        simp only [recordKey]
        split_ifs
        · exact upd_other _ _ _ _ hk
        · rfl
      have e2 : (recordKey o a (cols a)).cur k = o.cur k := by
        simp only [recordKey]
        cases (cols a).getLast? with
        | none => rfl
        | some v => exact upd_other _ _ _ _ hk
      rw [e1] at h1
      rw [e2] at h2
      exact ⟨h1, h2⟩

/-- The classification does not look at the recorded state (`check_state_of_star` with `star_CO=False`, common_functions.py
l.1085-1112). -/
def IgnoresState (classify : (String → Option V) → V) : Prop :=
  ∀ r r' : String → Option V, (∀ k, k ≠ "state" → r k = r' k) → classify r = classify r'

theorem relabelAt_hist (classify : (String → Option V) → V) (o : Obj V) (j : Nat) (k : String) (h : k ≠ "state") :
    (relabelAt classify o j).hist k = o.hist k := upd_other _ _ _ _ h

theorem relabelAll (classify : (String → Option V) → V) (hc : IgnoresState classify) (js : List Nat) (o : Obj V) :
    (∀ k, k ≠ "state" → (js.foldl (relabelAt classify) o).hist k = o.hist k) ∧
    (js.foldl (relabelAt classify) o).cur = o.cur ∧
    ((js.foldl (relabelAt classify) o).hist "state").length = (o.hist "state").length ∧
    ((∀ j ∈ js, 1 ≤ j ∧ j ≤ (o.hist "state").length) → ∀ j, 1 ≤ j → j ≤ (o.hist "state").length →
      ((js.foldl (relabelAt classify) o).hist "state")[(o.hist "state").length - j]? =
        if j ∈ js then some (classify (rowBack o j)) else (o.hist "state")[(o.hist "state").length - j]?) := by
  induction js generalizing o with
  | nil => exact ⟨fun _ _ => rfl, rfl, rfl, fun _ j _ _ => by simp⟩
  | cons a js ih =>
    obtain ⟨h1, h2, h3, h4⟩ := ih (relabelAt classify o a)
    have hl : ((relabelAt classify o a).hist "state").length = (o.hist "state").length := by
      simp [relabelAt, upd_same]
    have hrow : ∀ j, classify (rowBack (relabelAt classify o a) j) = classify (rowBack o j) := by
      intro j
      apply hc
      intro k hk
      simp only [rowBack, relabelAt_hist classify o a k hk]
    refine ⟨fun k hk => (h1 k hk).trans (relabelAt_hist classify o a k hk), h2, h3.trans hl, ?_⟩
    intro hj j hj1 hj2
    have h5 := h4 (fun i hi => by rw [hl]; exact hj i (by simp [hi])) j hj1 (by rw [hl]; exact hj2)
    rw [hl] at h5
    rw [List.foldl_cons, h5, hrow]
    obtain ⟨ha1, ha2⟩ := hj a (by simp)
    by_cases hm : j ∈ js
    · rw [if_pos hm, if_pos (by simp [hm])]
    · rw [if_neg hm]
      have hs : (relabelAt classify o a).hist "state" =
          (o.hist "state").set ((o.hist "state").length - a) (classify (rowBack o a)) := by
        simp only [relabelAt]
        exact upd_same _ _ _
      rw [hs, List.getElem?_set]
      by_cases hja : j = a
      · subst hja
        rw [if_pos rfl, if_pos (by omega), if_pos (by simp)]
      · rw [if_neg (by omega), if_neg (by simp [hm, hja])]

theorem relabel_range (n : Nat) (j : Nat) : j ∈ (List.range (n - 1)).map (fun i => n - 1 - i) ↔ 1 ≤ j ∧ j ≤ n - 1 := by
  simp only [List.mem_map, List.mem_range]
  constructor
  · rintro ⟨i, hi, rfl⟩
    omega
  · rintro ⟨h1, h2⟩
    exact ⟨n - 1 - j, by omega, by omega⟩

end Verif.Detached
