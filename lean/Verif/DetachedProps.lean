import Verif.Detached
/-!
C47: the times at which a detached evolution is recorded. C66: the histories written for them.
-/
namespace Verif.Detached

/-! ### C47 -/

/-- What a user expects of the output times: strictly increasing, all after the start, the last one the end of the integration. -/
def GoodTimes (t0 T : ℚ) (t : List ℚ) : Prop := t.Pairwise (· < ·) ∧ (∀ x ∈ t, t0 < x) ∧ t.getLast? = some T

/-- For a positive `dt` the recorded times can run past the end of the integration: with `dt = 1` and an evolution from 0 to 8/5 the
last recorded time is 2, where the solution is extrapolated. -/
theorem C47_past_the_end_violated : outTimes (some 1) none 0 (8 / 5) = .ok [1, 2] ∧
    ¬ ∀ dt n t0 T t, t0 < T → outTimes dt n t0 T = .ok t → GoodTimes t0 T t := by
  have h : outTimes (some 1) none 0 (8 / 5) = .ok [1, 2] := by decide +kernel
  refine ⟨h, fun hall => ?_⟩
  have := (hall _ _ _ _ _ (by norm_num) h).2.2
  norm_num at this

/-- A `dt` of at least twice the duration of the evolution raises IndexError, whatever the times; a smaller one never does. -/
theorem C47_large_dt_raises_violated (d : ℚ) (n : Option ℤ) (t0 T : ℚ) (hd : 0 < d) (hT : t0 < T) :
    (∃ e, outTimes (some d) n t0 T = .error e) ↔ 2 * (T - t0) ≤ d := by
  have e : outTimes (some d) n t0 T = grid t0 T d := by simp only [outTimes]; rw [if_pos hd]
  rw [e, grid_eq hd]
  have hp := count_pos_iff hd hT
  by_cases hc : count t0 T d = 0
  · rw [if_pos hc]
    constructor
    · intro _
      by_contra h
      have := hp.mpr (by linarith)
      omega
    · intro _
      exact ⟨_, rfl⟩
  · rw [if_neg hc]
    have : d < 2 * (T - t0) := hp.mp (by omega)
    constructor
    · rintro ⟨e, he⟩
      split_ifs at he
    · intro h
      linarith

/-- The first kind of exception is the only one for a positive `dt`. -/
theorem C47_large_dt_error (d : ℚ) (n : Option ℤ) (t0 T : ℚ) (hd : 0 < d) (hT : t0 < T) (h : 2 * (T - t0) ≤ d) :
    outTimes (some d) n t0 T = .error .index := by
  have e : outTimes (some d) n t0 T = grid t0 T d := by simp only [outTimes]; rw [if_pos hd]
  have hp := count_pos_iff hd hT
  rw [e, grid_eq hd, if_pos]
  by_contra hc
  have := hp.mp (by omega)
  linarith

/-- With a positive `dt` that does not raise: the times are strictly increasing and after the start, all but the last are before the
end of the integration, and the last is at the end or less than half a step after it. -/
theorem C47_dt_partial (d : ℚ) (n : Option ℤ) (t0 T : ℚ) (hd : 0 < d) (hT : t0 < T) (t : List ℚ) (h : outTimes (some d) n t0 T = .ok t) :
    t.Pairwise (· < ·) ∧ (∀ x ∈ t, t0 < x) ∧ (∀ x ∈ t.dropLast, x < T) ∧
      ∃ l, t.getLast? = some l ∧ T ≤ l ∧ l < T + d / 2 := by
  have e : outTimes (some d) n t0 T = grid t0 T d := by simp only [outTimes]; rw [if_pos hd]
  rw [e, grid_eq hd] at h
  have hlt := count_lt hd hT
  by_cases hc : count t0 T d = 0
  · rw [if_pos hc] at h; simp at h
  rw [if_neg hc] at h
  by_cases hl : t0 + (count t0 T d : ℚ) * d < T
  · rw [if_pos hl] at h
    obtain rfl := Except.ok.inj h
    refine ⟨?_, ?_, ?_, T, by simp, le_refl _, by linarith⟩
    · rw [List.pairwise_append]
      refine ⟨points_sorted hd _, List.pairwise_singleton _ _, ?_⟩
      intro a ha b hb
      rw [List.mem_singleton] at hb
      subst hb
      have := (points_mem hd ha).2
      linarith
    · intro x hx
      rw [List.mem_append] at hx
      rcases hx with hx | hx
      · exact (points_mem hd hx).1
      · rw [List.mem_singleton] at hx; linarith
    · intro x hx
      rw [List.dropLast_concat] at hx
      have := (points_mem hd hx).2
      linarith
  · rw [if_neg hl] at h
    obtain rfl := Except.ok.inj h
    obtain ⟨c, hcc⟩ := Nat.exists_eq_succ_of_ne_zero hc
    refine ⟨points_sorted hd _, fun x hx => (points_mem hd hx).1, ?_, t0 + (count t0 T d : ℚ) * d, ?_, by linarith, hlt⟩
    · intro x hx
      rw [hcc] at hx hlt
      have hx' : x ∈ (List.range c).map fun i : Nat => t0 + ((i : ℚ) + 1) * d := by
        rw [Nat.succ_eq_add_one, List.range_succ] at hx
        simpa using hx
      have := (points_mem hd hx').2
      push_cast at hlt
      linarith
    · rw [hcc]
      simp [List.range_succ]

/-- When exactly the last recorded time is the end of the integration: if and only if the last grid point is not after it. -/
theorem C47_dt_exact (d : ℚ) (n : Option ℤ) (t0 T : ℚ) (hd : 0 < d) (hT : t0 < T) (t : List ℚ) (h : outTimes (some d) n t0 T = .ok t) :
    GoodTimes t0 T t ↔ ∃ k : ℕ, t0 + k * d ≤ T ∧ T < t0 + k * d + d ∧ (t0 + k * d = T ∨ T ≤ t0 + k * d + d / 2) := by
  have hp := C47_dt_partial d n t0 T hd hT t h
  obtain ⟨h1, h2, h3, l, hl, hl1, hl2⟩ := hp
  have e : outTimes (some d) n t0 T = grid t0 T d := by simp only [outTimes]; rw [if_pos hd]
  rw [e, grid_eq hd] at h
  have hlt := count_lt hd hT
  have hge := le_count hd hT
  have hc : count t0 T d ≠ 0 := by
    intro hc
    rw [if_pos hc] at h; simp at h
  rw [if_neg hc] at h
  obtain ⟨c, hcc⟩ := Nat.exists_eq_succ_of_ne_zero hc
  constructor
  · intro hg
    refine ⟨count t0 T d, ?_, by linarith, by right; linarith⟩
    by_contra hgt
    rw [if_neg (by linarith)] at h
    obtain rfl := Except.ok.inj h
    have := hg.2.2
    rw [hcc] at this hgt
    simp [List.range_succ] at this
    push_cast at hgt
    linarith
  · rintro ⟨k, hk1, hk2, hk3⟩
    refine ⟨h1, h2, ?_⟩
    by_cases hlT : t0 + (count t0 T d : ℚ) * d < T
    · rw [if_pos hlT] at h
      obtain rfl := Except.ok.inj h
      simp
    · rw [if_neg hlT] at h
      obtain rfl := Except.ok.inj h
      push Not at hlT
      have hck : count t0 T d = k := by
        have a1 : (count t0 T d : ℚ) * d < (k : ℚ) * d + d := by
          rcases hk3 with hk3 | hk3 <;> linarith
        have a1' : (count t0 T d : ℚ) < (k : ℚ) + 1 := by
          by_contra hh
          push Not at hh
          have := mul_le_mul_of_nonneg_right hh hd.le
          linarith
        have a2 : (k : ℚ) ≤ (count t0 T d : ℚ) := by
          by_contra hh
          push Not at hh
          have := mul_lt_mul_of_pos_right hh hd
          linarith
        have b1 : count t0 T d < k + 1 := by exact_mod_cast a1'
        have b2 : k ≤ count t0 T d := by exact_mod_cast a2
        omega
      have hTe : t0 + (count t0 T d : ℚ) * d = T := by rw [hck] at hlT ⊢; linarith
      rw [hcc] at hTe ⊢
      push_cast at hTe
      simp [List.range_succ]
      linarith

/-- Consecutive recorded times are never more than `dt` apart. -/
theorem C47_dt_spacing (d : ℚ) (n : Option ℤ) (t0 T : ℚ) (hd : 0 < d) (hT : t0 < T) (t : List ℚ) (h : outTimes (some d) n t0 T = .ok t)
    (i : ℕ) (hi : i + 1 < t.length) : t[i] = t0 + (i + 1) * d ∧ t[i + 1] - t[i] ≤ d := by
  have e : outTimes (some d) n t0 T = grid t0 T d := by simp only [outTimes]; rw [if_pos hd]
  rw [e, grid_eq hd] at h
  have hge := le_count hd hT
  have hc : count t0 T d ≠ 0 := by
    intro hc
    rw [if_pos hc] at h; simp at h
  rw [if_neg hc] at h
  by_cases hl : t0 + (count t0 T d : ℚ) * d < T
  · rw [if_pos hl] at h
    obtain rfl := Except.ok.inj h
    simp at hi
    have e1 : ((List.range (count t0 T d)).map (fun i : Nat => t0 + ((i : ℚ) + 1) * d) ++ [T])[i]'(by simp; omega) = t0 + ((i : ℚ) + 1) * d := by
      rw [List.getElem_append_left (by simpa using hi)]
      simp
    refine ⟨e1, ?_⟩
    rw [e1]
    by_cases hi2 : i + 1 < count t0 T d
    · rw [List.getElem_append_left (by simpa using hi2)]
      simp
      linarith
    · have hie : count t0 T d = i + 1 := by omega
      rw [List.getElem_append_right (by simp; omega)]
      rw [hie] at hge
      push_cast at hge
      simp
      linarith
  · rw [if_neg hl] at h
    obtain rfl := Except.ok.inj h
    constructor
    · simp
    · simp
      linarith

/-- With a number of steps instead of a `dt`: exactly that many equally spaced times, the last one the end of the integration. -/
theorem C47_number_of_steps (n : ℤ) (t0 T : ℚ) (hn : 0 < n) (hT : t0 < T) :
    outTimes none (some n) t0 T = .ok ((List.range n.toNat).map fun i : Nat => t0 + ((i : ℚ) + 1) * ((T - t0) / n)) ∧
      ∀ t, outTimes none (some n) t0 T = .ok t → GoodTimes t0 T t ∧ t.length = n.toNat := by
  have hnq : (0 : ℚ) < n := by exact_mod_cast hn
  have hd : 0 < (T - t0) / n := div_pos (by linarith) hnq
  have hne : T - t0 ≠ 0 := by linarith
  have hcount : count t0 T ((T - t0) / n) = n.toNat := by
    unfold count
    have : (T - t0) / ((T - t0) / n) = n := by field_simp
    rw [this]
    have : ⌈(n : ℚ) + 1 / 2⌉ = n + 1 := by
      rw [Int.ceil_intCast_add]
      have : ⌈(1 / 2 : ℚ)⌉ = 1 := by norm_num
      rw [this]
    rw [this]
    omega
  have hcast : ((n.toNat : Nat) : ℚ) = n := by
    have : ((n.toNat : Nat) : ℤ) = n := Int.toNat_of_nonneg hn.le
    exact_mod_cast this
  have hend : t0 + ((n.toNat : Nat) : ℚ) * ((T - t0) / n) = T := by rw [hcast]; field_simp; ring
  have e : outTimes none (some n) t0 T = .ok ((List.range n.toNat).map fun i : Nat => t0 + ((i : ℚ) + 1) * ((T - t0) / n)) := by
    simp only [outTimes, outTimes.byNumber]
    rw [if_pos hn, grid_eq hd, hcount, if_neg (by omega), if_neg (by rw [hend]; exact lt_irrefl _)]
  refine ⟨e, fun t ht => ?_⟩
  rw [e] at ht
  obtain rfl := Except.ok.inj ht
  refine ⟨⟨points_sorted hd _, fun x hx => (points_mem hd hx).1, ?_⟩, by simp⟩
  obtain ⟨m, hm⟩ := Nat.exists_eq_succ_of_ne_zero (n := n.toNat) (by omega)
  rw [hm] at hend ⊢
  push_cast at hend
  simp only [Nat.succ_eq_add_one, List.range_succ]
  simp
  exact hend

/-- With neither (or with non-positive values), the only time is the end of the integration. -/
theorem C47_default (dt : Option ℚ) (n : Option ℤ) (t0 T : ℚ) (hT : t0 < T) (hd : ∀ d, dt = some d → d ≤ 0) (hn : ∀ m, n = some m → m ≤ 0) :
    outTimes dt n t0 T = .ok [T] ∧ GoodTimes t0 T [T] := by
  constructor
  · have hb : outTimes.byNumber n t0 T = .ok [T] := by
      unfold outTimes.byNumber
      cases n with
      | none => rfl
      | some m => exact if_neg (by have := hn m rfl; omega)
    unfold outTimes
    cases dt with
    | none => exact hb
    | some d =>
      have := hd d rfl
      simp only
      rw [if_neg (by linarith)]
      exact hb
  · exact ⟨List.pairwise_singleton _ _, fun x hx => by rw [List.mem_singleton] at hx; linarith, rfl⟩

/-- A positive `dt` takes precedence over the number of steps. -/
theorem C47_dt_first (d : ℚ) (n n' : Option ℤ) (t0 T : ℚ) (hd : 0 < d) : outTimes (some d) n t0 T = outTimes (some d) n' t0 T := by
  simp only [outTimes]
  rw [if_pos hd, if_pos hd]

example : outTimes (some (3 / 10)) none 0 1 = .ok [3 / 10, 6 / 10, 9 / 10, 1] := by decide +kernel
example : outTimes (some (3 / 10)) (some 2) 0 (11 / 10) = .ok [3 / 10, 6 / 10, 9 / 10, 12 / 10] := by decide +kernel
example : outTimes none (some 4) 1 3 = .ok [3 / 2, 2, 5 / 2, 3] := by decide +kernel
example : outTimes (some 4) none 1 3 = .error .index := by decide +kernel

/-! ### C66 -/

variable {V : Type}

/-- Every property's history grows by the same number of rows: one for a single output time, one more than the number of output times
otherwise. So the columns stay aligned. -/
theorem C66_aligned (keys : List String) (hk : keys.Nodup) (classify : (String → Option V) → V)
    (hc : IgnoresState classify) (n : Nat) (hn : 0 < n) (cols : String → List V) (hcols : ∀ k ∈ keys, (cols k).length = n) (o : Obj V) (k : String)
    (hkk : k ∈ keys) :
    ((starStep keys classify n cols o).hist k).length = (o.hist k).length + if n = 1 then 1 else n + 1 := by
  unfold starStep appendState
  simp only [if_pos hkk, List.length_append, List.length_singleton]
  have hr := (record_key keys hk cols o k hkk).1
  have hrl : ((record keys cols o).hist k).length = (o.hist k).length + if n = 1 then 0 else n := by
    rw [hr, hcols k hkk]
    by_cases h1 : n = 1
    · subst h1; simp
    · rw [if_pos (by omega), if_neg h1, List.length_append, hcols k hkk]
  obtain ⟨a1, -, a3, -⟩ := relabelAll classify hc ((List.range (n - 1)).map (fun i => n - 1 - i))
    { record keys cols o with cur := upd (record keys cols o).cur "state" (classify fun k => some ((record keys cols o).cur k)) }
  have hl : ((relabel classify n (record keys cols o)).hist k).length = ((record keys cols o).hist k).length := by
    unfold relabel
    by_cases hst : k = "state"
    · subst hst; exact a3
    · rw [a1 k hst]
  rw [hl, hrl]
  split_ifs <;> omega

/-- A property other than the state, for several output times: its history receives the values at the output times followed by the last
of them again. -/
theorem C66_rows (keys : List String) (hk : keys.Nodup) (classify : (String → Option V) → V)
    (hc : IgnoresState classify) (n : Nat) (hn : 1 < n) (cols : String → List V) (hcols : ∀ k ∈ keys, (cols k).length = n) (o : Obj V) (k : String)
    (hkk : k ∈ keys) (hst : k ≠ "state") (l : V) (hl : (cols k).getLast? = some l) :
    (starStep keys classify n cols o).hist k = o.hist k ++ cols k ++ [l] ∧ (starStep keys classify n cols o).cur k = l := by
  obtain ⟨hr, hcur⟩ := record_key keys hk cols o k hkk
  rw [hl, Option.getD_some] at hcur
  obtain ⟨a1, a2, -, -⟩ := relabelAll classify hc ((List.range (n - 1)).map (fun i => n - 1 - i))
    { record keys cols o with cur := upd (record keys cols o).cur "state" (classify fun k => some ((record keys cols o).cur k)) }
  have e1 : (relabel classify n (record keys cols o)).hist k = o.hist k ++ cols k := by
    unfold relabel
    rw [a1 k hst]
    simp only
    rw [hr, if_pos (by rw [hcols k hkk]; exact hn)]
  have e2 : (relabel classify n (record keys cols o)).cur k = l := by
    unfold relabel
    rw [a2]
    simp only
    rw [upd_other _ _ _ _ hst, hcur]
  unfold starStep appendState
  simp only [if_pos hkk]
  rw [e1, e2]
  exact ⟨rfl, rfl⟩

/-- For a single output time only the row of `run_step` is added. -/
theorem C66_single_row (keys : List String) (hk : keys.Nodup) (classify : (String → Option V) → V)
    (cols : String → List V) (o : Obj V) (k : String)
    (hkk : k ∈ keys) (hst : k ≠ "state") (l : V) (hl : cols k = [l]) :
    (starStep keys classify 1 cols o).hist k = o.hist k ++ [l] := by
  obtain ⟨hr, hcur⟩ := record_key keys hk cols o k hkk
  rw [hl] at hr hcur
  unfold starStep appendState relabel
  simp only [if_pos hkk]
  simp at hr hcur
  simp [hr, upd_other _ _ _ _ hst, hcur]

/-- So the recorded times are not strictly increasing as soon as more than one output time is asked for: the last two rows have the
same time. -/
theorem C66_repeated_time_violated (keys : List String) (hk : keys.Nodup) (classify : (String → Option ℚ) → ℚ)
    (hc : IgnoresState classify) (n : Nat) (hn : 1 < n) (cols : String → List ℚ) (hcols : ∀ k ∈ keys, (cols k).length = n) (o : Obj ℚ)
    (hkk : "time" ∈ keys) : ¬ ((starStep keys classify n cols o).hist "time").Pairwise (· < ·) := by
  intro hp
  have hne : cols "time" ≠ [] := by
    intro h
    have := hcols _ hkk
    rw [h] at this
    simp at this
    omega
  rw [(C66_rows keys hk classify hc n hn cols hcols o "time" hkk (by decide) _ (List.getLast?_eq_getLast_of_ne_nil hne)).1,
    List.pairwise_append] at hp
  exact lt_irrefl _ (hp.2.2 ((cols "time").getLast hne) (by simp [List.getLast_mem hne]) _ (by simp))

/-- The state column for several output times `0 … n-1`: rows `1 … n-1` carry the classification of the values recorded in that row. -/
theorem C66_state_rows_partial (keys : List String) (hk : keys.Nodup) (hs : "state" ∈ keys) (classify : (String → Option V) → V)
    (hc : IgnoresState classify) (n : Nat) (hn : 1 < n) (cols : String → List V) (hcols : ∀ k ∈ keys, (cols k).length = n) (o : Obj V)
    (i : Nat) (hi1 : 1 ≤ i) (hi : i < n) :
    ((starStep keys classify n cols o).hist "state")[(o.hist "state").length + i]? =
      some (classify (rowBack (record keys cols o) (n - i))) ∧ ∀ k ∈ keys, rowBack (record keys cols o) (n - i) k = (cols k)[i]? := by
  have hlen : ∀ k ∈ keys, (record keys cols o).hist k = o.hist k ++ cols k := by
    intro k hkk
    rw [(record_key keys hk cols o k hkk).1, if_pos (by rw [hcols k hkk]; exact hn)]
  obtain ⟨-, -, a3, a4⟩ := relabelAll classify hc ((List.range (n - 1)).map (fun i => n - 1 - i))
    { record keys cols o with cur := upd (record keys cols o).cur "state" (classify fun k => some ((record keys cols o).cur k)) }
  simp only at a3 a4
  have hL : ((record keys cols o).hist "state").length = (o.hist "state").length + n := by
    rw [hlen _ hs, List.length_append, hcols _ hs]
  constructor
  · have h1 := a4 (fun j hj => by rw [relabel_range] at hj; omega) (n - i) (by omega) (by omega)
    rw [if_pos ((relabel_range n (n - i)).mpr (by omega)), hL] at h1
    have hidx : (o.hist "state").length + n - (n - i) = (o.hist "state").length + i := by omega
    rw [hidx] at h1
    unfold starStep appendState
    simp only [if_pos hs]
    rw [List.getElem?_append_left]
    · exact h1
    · show _ < (((relabel classify n (record keys cols o)).hist "state")).length
      unfold relabel
      rw [a3, hL]
      omega
  · intro k hkk
    unfold rowBack back
    rw [if_neg (by omega), hlen k hkk, List.length_append, hcols k hkk, if_pos (by omega),
      List.getElem?_append_right (by omega)]
    congr 1
    omega

/-- Row `0`, the first output time, keeps the state the star had before the step, whatever its values are. -/
theorem C66_first_state_stale_violated (keys : List String) (hk : keys.Nodup) (hs : "state" ∈ keys) (classify : (String → Option V) → V)
    (hc : IgnoresState classify) (n : Nat) (hn : 1 < n) (cols : String → List V) (hcols : ∀ k ∈ keys, (cols k).length = n) (o : Obj V)
    (hold : cols "state" = List.replicate n (o.cur "state")) :
    ((starStep keys classify n cols o).hist "state")[(o.hist "state").length]? = some (o.cur "state") := by
  have hlen : ∀ k ∈ keys, (record keys cols o).hist k = o.hist k ++ cols k := by
    intro k hkk
    rw [(record_key keys hk cols o k hkk).1, if_pos (by rw [hcols k hkk]; exact hn)]
  obtain ⟨-, -, a3, a4⟩ := relabelAll classify hc ((List.range (n - 1)).map (fun i => n - 1 - i))
    { record keys cols o with cur := upd (record keys cols o).cur "state" (classify fun k => some ((record keys cols o).cur k)) }
  simp only at a3 a4
  have hL : ((record keys cols o).hist "state").length = (o.hist "state").length + n := by
    rw [hlen _ hs, List.length_append, hcols _ hs]
  have h1 := a4 (fun j hj => by rw [relabel_range] at hj; omega) n (by omega) (by omega)
  rw [if_neg (by rw [relabel_range]; omega), hL] at h1
  have hidx : (o.hist "state").length + n - n = (o.hist "state").length := by omega
  rw [hidx, hlen _ hs, List.getElem?_append_right (le_refl _), Nat.sub_self, hold] at h1
  unfold starStep appendState
  simp only [if_pos hs]
  rw [List.getElem?_append_left]
  · refine Eq.trans h1 ?_
    rw [List.getElem?_replicate, if_pos (by omega)]
  · show _ < (((relabel classify n (record keys cols o)).hist "state")).length
    unfold relabel
    rw [a3, hL]
    omega

/-- The accretion rates of a compact object are recorded one row late: row `i + 1` receives the rate of output time `i`, row `0` keeps
what was there. -/
theorem C66_accretion_late_violated (rates old col : List V) (o : Obj V) (h : o.hist "lg_mdot" = old ++ col) (hl : col.length = rates.length)
    (hn : 1 < rates.length) (i : Nat) (hi : i + 1 < rates.length) :
    ((accretion rates o).hist "lg_mdot").length = (o.hist "lg_mdot").length ∧
      ((accretion rates o).hist "lg_mdot")[old.length + (i + 1)]? = rates[i]? ∧
      ((accretion rates o).hist "lg_mdot")[old.length]? = col[0]? := by
  have e : (accretion rates o).hist "lg_mdot" = (old ++ col).take (old.length + 1) ++ rates.dropLast := by
    simp only [accretion]
    rw [upd_same, h, List.length_append, hl]
    congr 2
    omega
  rw [e, h]
  have ht : ((old ++ col).take (old.length + 1)).length = old.length + 1 := by
    rw [List.length_take, List.length_append]
    omega
  refine ⟨?_, ?_, ?_⟩
  · rw [List.length_append, ht, List.length_dropLast, List.length_append]
    omega
  · rw [List.getElem?_append_right (by omega), ht, List.getElem?_dropLast, if_pos (by omega)]
    congr 1
    omega
  · rw [List.getElem?_append_left (by omega), List.getElem?_take, if_pos (by omega), List.getElem?_append_right (le_refl _), Nat.sub_self]

/-- A star with three output times, classified by its mass: the recorded states are stale, new, new, new. -/
def exObj : Obj ℚ := { cur := fun k => if k = "mass" then 10 else 0, hist := fun k => if k = "mass" then [10] else [0] }

example :
    let s := starStep ["time", "mass", "state"] (fun r => if r "mass" = some 10 then 0 else 1) 3
      (fun k => if k = "time" then [1, 2, 3] else if k = "mass" then [9, 8, 7] else [0, 0, 0]) exObj
    s.hist "time" = [0, 1, 2, 3, 3] ∧ s.hist "mass" = [10, 9, 8, 7, 7] ∧ s.hist "state" = [0, 0, 1, 1, 1] := by
  decide +kernel

end Verif.Detached
