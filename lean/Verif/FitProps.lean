import Verif.Fit
/-!
C75: the track a star is matched to is an acceptable one, the best found, and its rows increase in age.
-/
namespace Verif.Fit
open Verif.FlowChart Verif.Match

/-! ### The attempts -/

/-- The four attempts, made on the grid the star was given. -/
def results (min : Minimise) (tol : ℚ) (s : St) (h : Bool) : List (Except Err Res) :=
  sequence.map fun p => attempt min tol s h p.1 p.2

/-- An acceptable solution. -/
def Good (tol : ℚ) (r : Res) : Prop := r.sol.success = true ∧ |r.sol.fn| ≤ tol

/-- The loop over given results. -/
def loopR : List (Except Err Res) → Sol → Bool → Except Err (Sol × Bool)
  | [], best, h => .ok (best, h)
  | .error e :: _, _, _ => .error e
  | .ok r :: rest, best, h =>
    let better := decide (|r.sol.fn| < |best.fn|) && r.sol.success
    let h' := if better then r.grid else h
    let best' := if better then r.sol else best
    if better && r.ok then .ok (best', h') else loopR rest best' h'

theorem attempt_grid {min : Minimise} {tol : ℚ} {s : St} {h : Bool} {t : MType} {m : Method} {r : Res}
    (hr : attempt min tol s h t m = .ok r) (ht : t ≠ .evolvedAlt) : r.grid = h := by
  unfold attempt at hr
  cases ha : attrs t s h with
  | error e => rw [ha] at hr; cases hr
  | ok x =>
    rw [ha] at hr
    cases x with
    | none => dsimp only at hr; cases hr; rfl
    | some x =>
      obtain ⟨l, g⟩ := x
      dsimp only at hr
      have hg : g = h := by
        unfold attrs at ha
        cases t with
        | default =>
          dsimp only at ha
          by_cases h1 : s.isOf forHMS
          · rw [if_pos h1] at ha; cases ha; rfl
          rw [if_neg h1] at ha
          by_cases h2 : s.isOf forPostMS
          · rw [if_pos h2] at ha; cases ha; rfl
          rw [if_neg h2] at ha
          by_cases h3 : s.isOf forHestar
          · rw [if_pos h3] at ha; cases ha; rfl
          rw [if_neg h3] at ha
          by_cases h4 : s.isOf forPostHeMS
          · rw [if_pos h4] at ha; cases ha; rfl
          rw [if_neg h4] at ha; cases ha
        | alt =>
          dsimp only at ha
          by_cases h1 : s.isOf forHMS
          · rw [if_pos h1] at ha; cases ha; rfl
          rw [if_neg h1] at ha
          by_cases h2 : s.isOf forPostMS
          · rw [if_pos h2] at ha; cases ha; rfl
          rw [if_neg h2] at ha
          by_cases h3 : s.isOf forHestar
          · rw [if_pos h3] at ha; cases ha; rfl
          rw [if_neg h3] at ha
          by_cases h4 : s.isOf forPostHeMS
          · rw [if_pos h4] at ha; cases ha; rfl
          rw [if_neg h4] at ha; cases ha
        | evolvedAlt => exact absurd rfl ht
      cases hm : min l g m with
      | none => rw [hm] at hr; cases hr
      | some raw => rw [hm] at hr; cases hr; exact hg

/-- The flag changes only in the last attempt, so all attempts start from the star's own grid. -/
theorem loop_eq (min : Minimise) (tol : ℚ) (s : St) (h : Bool) : ∀ (l : List (MType × Method)) (best : Sol),
    (∀ p ∈ l.dropLast, p.1 ≠ .evolvedAlt) → loop min tol s l best h = loopR (l.map fun p => attempt min tol s h p.1 p.2) best h
  | [], best, _ => rfl
  | (t, m) :: rest, best, hl => by
    simp only [loop, List.map_cons]
    cases ha : attempt min tol s h t m with
    | error e => rfl
    | ok r =>
      simp only [loopR]
      by_cases hb : ((decide (|r.sol.fn| < |best.fn|) && r.sol.success) && r.ok) = true
      · rw [if_pos hb, if_pos hb]
      · rw [if_neg hb, if_neg hb]
        cases rest with
        | nil => rfl
        | cons q rest =>
          have hg : r.grid = h := attempt_grid ha (hl (t, m) (by simp [List.dropLast]))
          have e : (if (decide (|r.sol.fn| < |best.fn|) && r.sol.success) = true then r.grid else h) = h := by
            rw [hg]; exact ite_self _
          rw [e]
          exact loop_eq min tol s h (q :: rest) _ (fun p hp => hl p (by
            rw [List.dropLast_cons_of_ne_nil (by simp)]; exact List.mem_cons_of_mem _ hp))

theorem search_eq (min : Minimise) (tol hard : ℚ) (s : St) (h : Bool) :
    search min tol hard s h = (match loopR (results min tol s h) failedSol h with | .error e => .error e | .ok r => .ok (final hard r)) := by
  unfold search
  rw [loop_eq min tol s h sequence failedSol (by decide)]
  rfl

theorem big_pos : (0 : ℚ) < big := by unfold big; positivity

theorem attempt_ok {min : Minimise} {tol : ℚ} {s : St} {h : Bool} {t : MType} {m : Method} {r : Res}
    (hr : attempt min tol s h t m = .ok r) : r.ok = true ↔ Good tol r := by
  unfold attempt at hr
  cases ha : attrs t s h with
  | error e => rw [ha] at hr; cases hr
  | ok x =>
    rw [ha] at hr
    cases x with
    | none => dsimp only at hr; cases hr; simp [Good, failedSol]
    | some x =>
      obtain ⟨l, g⟩ := x
      dsimp only at hr
      cases hm : min l g m with
      | none => rw [hm] at hr; cases hr
      | some raw =>
        rw [hm] at hr; cases hr
        simp only [Good, Bool.and_eq_true, Bool.not_eq_true', decide_eq_false_iff_not, not_lt, gt_iff_lt]
        exact and_comm

theorem results_ok {min : Minimise} {tol : ℚ} {s : St} {h : Bool} {r : Res} (hr : .ok r ∈ results min tol s h) :
    r.ok = true ↔ Good tol r := by
  obtain ⟨p, -, hp⟩ := List.mem_map.1 hr
  exact attempt_ok hp

/-- One acceptable result ends the loop. -/
theorem loopR_good {tol : ℚ} {r : Res} (post : List (Except Err Res)) (hr : Good tol r) (hk : r.ok = true) :
    ∀ (pre : List (Except Err Res)) (best : Sol) (h : Bool), (∀ p ∈ pre, ∃ q, p = .ok q ∧ ¬ Good tol q ∧ q.ok = false) →
      tol < |best.fn| → loopR (pre ++ .ok r :: post) best h = .ok (r.sol, r.grid)
  | [], best, h, _, hb => by
    have : (decide (|r.sol.fn| < |best.fn|) && r.sol.success) = true := by
      simp [hr.1, lt_of_le_of_lt hr.2 hb]
    simp only [List.nil_append, loopR, this, hk, Bool.and_self, if_true]
  | p :: pre, best, h, hp, hb => by
    obtain ⟨q, rfl, hq, hqk⟩ := hp p List.mem_cons_self
    simp only [List.cons_append, loopR, hqk, Bool.and_false, Bool.false_eq_true, if_false]
    refine loopR_good post hr hk pre _ _ (fun p hp' => hp p (List.mem_cons_of_mem _ hp')) ?_
    by_cases hc : (decide (|q.sol.fn| < |best.fn|) && q.sol.success) = true
    · rw [if_pos hc]
      simp only [Bool.and_eq_true, decide_eq_true_eq] at hc
      by_contra hn
      exact hq ⟨hc.2, not_lt.1 hn⟩
    · rw [if_neg hc]; exact hb

theorem loopR_error {tol : ℚ} {e : Err} (post : List (Except Err Res)) :
    ∀ (pre : List (Except Err Res)) (best : Sol) (h : Bool), (∀ p ∈ pre, ∃ q, p = .ok q ∧ ¬ Good tol q ∧ q.ok = false) →
      loopR (pre ++ .error e :: post) best h = .error e
  | [], best, h, _ => rfl
  | p :: pre, best, h, hp => by
    obtain ⟨q, rfl, hq, hqk⟩ := hp p List.mem_cons_self
    simp only [List.cons_append, loopR, hqk, Bool.and_false, Bool.false_eq_true, if_false]
    exact loopR_error post pre _ _ (fun p hp' => hp p (List.mem_cons_of_mem _ hp'))

/-- Without an acceptable result the best successful one is returned. -/
theorem loopR_best : ∀ (rs : List Res) (best : Sol) (h : Bool), (∀ r ∈ rs, r.ok = false) →
    ∃ b g, loopR (rs.map .ok) best h = .ok (b, g) ∧ ((b = best ∧ g = h) ∨ ∃ r ∈ rs, r.sol.success = true ∧ b = r.sol ∧ g = r.grid) ∧
      |b.fn| ≤ |best.fn| ∧ ∀ r ∈ rs, r.sol.success = true → |b.fn| ≤ |r.sol.fn|
  | [], best, h, _ => ⟨best, h, rfl, Or.inl ⟨rfl, rfl⟩, le_refl _, by simp⟩
  | q :: rs, best, h, hk => by
    have hqk := hk q (by simp)
    have step : loopR ((q :: rs).map .ok) best h =
        loopR (rs.map .ok) (if (decide (|q.sol.fn| < |best.fn|) && q.sol.success) then q.sol else best)
          (if (decide (|q.sol.fn| < |best.fn|) && q.sol.success) then q.grid else h) := by
      simp only [List.map_cons, loopR, hqk, Bool.and_false, Bool.false_eq_true, if_false]
    rw [step]
    by_cases hc : (decide (|q.sol.fn| < |best.fn|) && q.sol.success) = true
    · rw [if_pos hc, if_pos hc]
      simp only [Bool.and_eq_true, decide_eq_true_eq] at hc
      obtain ⟨b, g, h1, h2, h3, h4⟩ := loopR_best rs q.sol q.grid (fun r hr => hk r (List.mem_cons_of_mem _ hr))
      refine ⟨b, g, h1, Or.inr ?_, le_trans h3 (le_of_lt hc.1), fun r hr hs => ?_⟩
      · rcases h2 with ⟨rfl, rfl⟩ | ⟨r, hr, hs⟩
        · exact ⟨q, by simp, hc.2, rfl, rfl⟩
        · exact ⟨r, List.mem_cons_of_mem _ hr, hs⟩
      · rcases List.mem_cons.1 hr with rfl | hr
        · exact h3
        · exact h4 r hr hs
    · rw [if_neg hc, if_neg hc]
      obtain ⟨b, g, h1, h2, h3, h4⟩ := loopR_best rs best h (fun r hr => hk r (List.mem_cons_of_mem _ hr))
      refine ⟨b, g, h1, h2.imp_right fun ⟨r, hr, hs⟩ => ⟨r, List.mem_cons_of_mem _ hr, hs⟩, h3, fun r hr hs => ?_⟩
      rcases List.mem_cons.1 hr with rfl | hr
      · simp only [Bool.and_eq_true, decide_eq_true_eq, not_and] at hc
        by_contra hn
        exact hc (lt_of_lt_of_le (not_le.1 hn) h3) hs
      · exact h4 r hr hs

/-- **C75**: the four attempts are: the default quantities with two methods, the alternative ones, and the other grid; each passes
the optimiser's answer on, an answer that is not a number counting as the largest difference, and leaves out what has no
quantities. -/
theorem C75_attempts (min : Minimise) (tol : ℚ) (s : St) (h : Bool) :
    results min tol s h = [attempt min tol s h .default .TNC, attempt min tol s h .default .powell, attempt min tol s h .alt .TNC,
      attempt min tol s h .evolvedAlt .TNC] ∧
    ∀ t m, (∀ l g raw, attrs t s h = .ok (some (l, g)) → min l g m = some raw →
        ∃ r, attempt min tol s h t m = .ok r ∧ r.sol = ⟨raw.fn.getD (10 ^ 99), raw.success, some raw.x⟩ ∧ r.grid = g) ∧
      (∀ l g, attrs t s h = .ok (some (l, g)) → min l g m = none → attempt min tol s h t m = .error .numerical) ∧
      (∀ e, attrs t s h = .error e → attempt min tol s h t m = .error e) ∧
      (attrs t s h = .ok none → ∃ r, attempt min tol s h t m = .ok r ∧ r.sol.success = false) := by
  refine ⟨rfl, fun t m => ⟨fun l g raw ha hm => ?_, fun l g ha hm => ?_, fun e ha => ?_, fun ha => ?_⟩⟩
  · unfold attempt; rw [ha]; dsimp only; rw [hm]; exact ⟨_, rfl, rfl, rfl⟩
  · unfold attempt; rw [ha]; dsimp only; rw [hm]
  · unfold attempt; rw [ha]
  · unfold attempt; rw [ha]; exact ⟨_, rfl, rfl⟩

/-- **C75**: the attempts stop at the first acceptable one, and its solution and grid are used, whatever the later attempts
would give; it is discarded only if the final tolerance is smaller. -/
theorem C75_first_acceptable (min : Minimise) (tol hard : ℚ) (s : St) (h : Bool) (ht : tol < big) (pre post : List (Except Err Res)) (r : Res)
    (hr : results min tol s h = pre ++ .ok r :: post) (hpre : ∀ p ∈ pre, ∃ q, p = .ok q ∧ ¬ Good tol q) (hg : Good tol r) :
    search min tol hard s h = .ok (if |r.sol.fn| ≤ hard then r.sol.x else none, r.grid) := by
  have hm : ∀ q, .ok q ∈ pre ++ .ok r :: post → (q.ok = true ↔ Good tol q) := fun q hq => results_ok (hr ▸ hq)
  rw [search_eq, hr, loopR_good post hg ((hm r (by simp)).2 hg) pre failedSol h (fun p hp => by
    obtain ⟨q, rfl, hq⟩ := hpre p hp
    refine ⟨q, rfl, hq, ?_⟩
    have := (hm q (by simp [hp])).not.2 hq
    simpa using this) (by simpa [failedSol, abs_of_pos big_pos] using ht)]
  simp only [final, hg.1, Bool.not_true, Bool.or_false, decide_eq_true_eq, gt_iff_lt]
  by_cases hh : |r.sol.fn| ≤ hard
  · rw [if_pos hh, if_neg (not_lt.2 hh)]
  · rw [if_neg hh, if_pos (not_le.1 hh)]

/-- **C75**: if no attempt is acceptable, the successful solution with the smallest difference is used, with its own grid,
provided it is within the final tolerance; otherwise there is no match. -/
theorem C75_none_acceptable (min : Minimise) (tol hard : ℚ) (s : St) (h : Bool) (hh : hard < big) (rs : List Res)
    (hr : results min tol s h = rs.map .ok) (hg : ∀ r ∈ rs, ¬ Good tol r) :
    ∃ x g, search min tol hard s h = .ok (x, g) ∧
      (x = none → ∀ r ∈ rs, r.sol.success = true → r.sol.x ≠ none → hard < |r.sol.fn|) ∧
      (∀ y, x = some y → ∃ r ∈ rs, r.sol.success = true ∧ r.sol.x = some y ∧ r.grid = g ∧ |r.sol.fn| ≤ hard ∧
        ∀ r' ∈ rs, r'.sol.success = true → |r.sol.fn| ≤ |r'.sol.fn|) := by
  have hk : ∀ r ∈ rs, r.ok = false := fun r hm => by
    have : r.ok = true ↔ Good tol r := results_ok (min := min) (s := s) (h := h) (by rw [hr]; exact List.mem_map_of_mem hm)
    have := this.not.2 (hg r hm)
    simpa using this
  obtain ⟨b, g, h1, h2, h3, h4⟩ := loopR_best rs failedSol h hk
  refine ⟨(final hard (b, g)).1, (final hard (b, g)).2, ?_, ?_, ?_⟩
  · rw [search_eq, hr, h1]
  · intro hx r hm hs hrx
    by_contra hn
    have hle : |b.fn| ≤ hard := le_trans (h4 r hm hs) (not_lt.1 hn)
    rcases h2 with ⟨rfl, -⟩ | ⟨r', hr', hs', rfl, -⟩
    · simp only [failedSol] at hle
      rw [abs_of_pos big_pos] at hle
      linarith
    · simp only [final, hs', Bool.not_true, Bool.or_false, decide_eq_true_eq, gt_iff_lt, not_lt.2 hle, if_false] at hx
      -- the solution of an attempt that succeeded is not the dummy
      have hmem : (.ok r' : Except Err Res) ∈ results min tol s h := by rw [hr]; exact List.mem_map_of_mem hr'
      obtain ⟨p, -, hp⟩ := List.mem_map.1 hmem
      unfold attempt at hp
      cases ha : attrs p.1 s h with
      | error e => rw [ha] at hp; cases hp
      | ok z =>
        rw [ha] at hp
        cases z with
        | none => dsimp only at hp; cases hp; simp [failedSol] at hs'
        | some z =>
          obtain ⟨l, g'⟩ := z
          dsimp only at hp
          cases hmin : min l g' p.2 with
          | none => rw [hmin] at hp; cases hp
          | some raw => rw [hmin] at hp; cases hp; simp at hx
  · intro y hy
    unfold final at hy
    by_cases hc : (decide (|b.fn| > hard) || !b.success) = true
    · simp only [hc, if_true] at hy; cases hy
    · simp only [hc, Bool.false_eq_true, if_false] at hy
      simp only [Bool.or_eq_true, decide_eq_true_eq, Bool.not_eq_true', not_or, gt_iff_lt, not_lt] at hc
      rcases h2 with ⟨rfl, -⟩ | ⟨r, hr', hs', rfl, hg'⟩
      · exact absurd rfl hc.2
      · exact ⟨r, hr', hs', hy, hg'.symm, hc.1, h4⟩

/-- **C75**: an exception in an attempt before the first acceptable one ends the matching: a `ValueError` for a state that
cannot be matched, a `NumericalError` for anything raised by the optimiser. -/
theorem C75_raises (min : Minimise) (tol hard : ℚ) (s : St) (h : Bool) (pre post : List (Except Err Res)) (e : Err)
    (hr : results min tol s h = pre ++ .error e :: post) (hpre : ∀ p ∈ pre, ∃ q, p = .ok q ∧ ¬ Good tol q) :
    search min tol hard s h = .error e := by
  rw [search_eq, hr, loopR_error (tol := tol) post pre failedSol h (fun p hp => by
    obtain ⟨q, rfl, hq⟩ := hpre p hp
    refine ⟨q, rfl, hq, ?_⟩
    have : q.ok = true ↔ Good tol q := results_ok (min := min) (s := s) (h := h) (by rw [hr]; simp [hp])
    simpa using this.not.2 hq)]

/-- Every list of results falls under one of the three theorems above. -/
theorem C75_cases (tol : ℚ) : ∀ l : List (Except Err Res),
    (∃ pre r post, l = pre ++ .ok r :: post ∧ (∀ p ∈ pre, ∃ q, p = .ok q ∧ ¬ Good tol q) ∧ Good tol r) ∨
    (∃ rs : List Res, l = rs.map .ok ∧ ∀ r ∈ rs, ¬ Good tol r) ∨
    (∃ pre e post, l = pre ++ .error e :: post ∧ ∀ p ∈ pre, ∃ q, p = .ok q ∧ ¬ Good tol q)
  | [] => Or.inr (Or.inl ⟨[], rfl, by simp⟩)
  | .error e :: l => Or.inr (Or.inr ⟨[], e, l, rfl, by simp⟩)
  | .ok r :: l => by
    by_cases hr : Good tol r
    · exact Or.inl ⟨[], r, l, rfl, by simp, hr⟩
    · have ext : ∀ pre : List (Except Err Res), (∀ p ∈ pre, ∃ q, p = .ok q ∧ ¬ Good tol q) →
          ∀ p ∈ .ok r :: pre, ∃ q, p = .ok q ∧ ¬ Good tol q := fun pre hp p hm => by
        rcases List.mem_cons.1 hm with rfl | hm
        · exact ⟨r, rfl, hr⟩
        · exact hp p hm
      rcases C75_cases tol l with ⟨pre, q, post, rfl, hp, hq⟩ | ⟨rs, rfl, hq⟩ | ⟨pre, e, post, rfl, hp⟩
      · exact Or.inl ⟨.ok r :: pre, q, post, rfl, ext pre hp, hq⟩
      · exact Or.inr (Or.inl ⟨r :: rs, rfl, fun q hm => by
          rcases List.mem_cons.1 hm with rfl | hm
          · exact hr
          · exact hq q hm⟩)
      · exact Or.inr (Or.inr ⟨.ok r :: pre, e, post, rfl, ext pre hp⟩)

/-- **C75**: whatever is returned comes from the optimiser: it succeeded on the quantities of one of the four attempts and on
the grid the star is left with, and the difference is a number within the final tolerance. -/
theorem C75_solution (min : Minimise) (tol hard : ℚ) (s : St) (h : Bool) (ht : tol < big) (hh : hard < big) (x : ℚ × ℚ) (g : Bool)
    (hs : search min tol hard s h = .ok (some x, g)) :
    ∃ t m l raw f, (t, m) ∈ sequence ∧ attrs t s h = .ok (some (l, g)) ∧ min l g m = some raw ∧ raw.success = true ∧ raw.x = x ∧
      raw.fn = some f ∧ |f| ≤ hard := by
  have key : ∀ r, .ok r ∈ results min tol s h → r.sol.success = true → r.sol.x = some x → r.grid = g → |r.sol.fn| ≤ hard →
      ∃ t m l raw f, (t, m) ∈ sequence ∧ attrs t s h = .ok (some (l, g)) ∧ min l g m = some raw ∧ raw.success = true ∧ raw.x = x ∧
        raw.fn = some f ∧ |f| ≤ hard := by
    intro r hr h1 h2 h3 h4
    obtain ⟨⟨t, m⟩, hp, hpr⟩ := List.mem_map.1 hr
    unfold attempt at hpr
    cases ha : attrs t s h with
    | error e => simp only [ha] at hpr; cases hpr
    | ok z =>
      simp only [ha] at hpr
      cases z with
      | none => dsimp only at hpr; cases hpr; simp [failedSol] at h1
      | some z =>
        obtain ⟨l, g'⟩ := z
        dsimp only at hpr
        cases hmin : min l g' m with
        | none => rw [hmin] at hpr; cases hpr
        | some raw =>
          rw [hmin] at hpr; cases hpr
          dsimp only at h1 h2 h3 h4
          subst h3
          cases hf : raw.fn with
          | none =>
            rw [hf] at h4
            simp only [Option.getD_none, abs_of_pos big_pos] at h4
            linarith
          | some f =>
            rw [hf] at h4
            exact ⟨t, m, l, raw, f, hp, ha, hmin, h1, Option.some.inj h2, hf, h4⟩
  rcases C75_cases tol (results min tol s h) with ⟨pre, r, post, hl, hp, hg⟩ | ⟨rs, hl, hg⟩ | ⟨pre, e, post, hl, hp⟩
  · rw [C75_first_acceptable min tol hard s h ht pre post r hl hp hg] at hs
    by_cases hc : |r.sol.fn| ≤ hard
    · rw [if_pos hc] at hs
      simp only [Except.ok.injEq, Prod.mk.injEq] at hs
      exact key r (by rw [hl]; simp) hg.1 hs.1 hs.2 hc
    · rw [if_neg hc] at hs; simp at hs
  · obtain ⟨x', g', h1, -, h3⟩ := C75_none_acceptable min tol hard s h hh rs hl hg
    rw [h1] at hs
    simp only [Except.ok.injEq, Prod.mk.injEq] at hs
    obtain ⟨r, hm, q1, q2, q3, q4, -⟩ := h3 x hs.1
    exact key r (by rw [hl]; exact List.mem_map_of_mem hm) q1 q2 (q3.trans hs.2) q4
  · rw [C75_raises min tol hard s h pre post e hl hp] at hs; cases hs

/-- An optimiser that finds a fair solution first, a good one with the alternative quantities. -/
def exMin : Minimise := fun l _ m => match l, m with
  | .HMS, .TNC => some ⟨some (5 / 100), true, (10, 1)⟩
  | .HMS, .powell => some ⟨none, false, (10, 2)⟩
  | .HMSalt, _ => some ⟨some (1 / 1000), true, (10, 3)⟩
  | _, _ => none

set_option maxRecDepth 10000 in
example : search exMin (1 / 100) (1 / 10) (.st .hCoreH) true = .ok (some (10, 3), true) := by decide +kernel
set_option maxRecDepth 10000 in
example : search exMin (1 / 10000) (1 / 10) (.st .hCoreH) true = .ok (some (10, 3), true) := by decide +kernel

/-- **C75** (refuted): "a solution within the final tolerance is not lost".  If the first attempt has one but it is not good
enough to stop, an exception in the second attempt ends the matching with an error. -/
theorem C75_exception_violated (tol hard f : ℚ) (x : ℚ × ℚ) (h1 : tol < f) (h2 : f ≤ hard) (h0 : 0 ≤ f) :
    ∃ min : Minimise, min .HMS true .TNC = some ⟨some f, true, x⟩ ∧ |f| ≤ hard ∧
      search min tol hard (.st .hCoreH) true = .error .numerical := by
  let min : Minimise := fun _ _ m => match m with | .TNC => some ⟨some f, true, x⟩ | .powell => none
  refine ⟨min, rfl, by rwa [abs_of_nonneg h0], ?_⟩
  have ha : attrs .default (.st .hCoreH) true = .ok (some (.HMS, true)) := by decide +kernel
  have hn : ¬ Good tol ⟨⟨f, true, some x⟩, true, !(decide (|f| > tol)) && true⟩ := by
    rintro ⟨-, hg⟩
    simp only [abs_of_nonneg h0] at hg
    linarith
  refine C75_raises min tol hard _ _ [.ok ⟨⟨f, true, some x⟩, true, !(decide (|f| > tol)) && true⟩]
    (([(.alt, .TNC), (.evolvedAlt, .TNC)] : List (MType × Method)).map fun p => attempt min tol (.st .hCoreH) true p.1 p.2) .numerical ?_ ?_
  · simp only [results, sequence, List.map_cons, List.map_nil, List.cons_append, List.nil_append, List.cons.injEq, and_true]
    refine ⟨?_, ?_⟩
    · simp only [attempt, ha, min, Option.getD_some]
    · simp only [attempt, ha, min]
  · intro p hp
    rw [List.mem_singleton] at hp
    exact ⟨_, hp, hn⟩

/-- **C75** (refuted): "a failed match leaves the star on its grid".  When only the other grid gives a solution, beyond the final
tolerance, there is no match but the star's grid has changed. -/
theorem C75_flag_violated : ∃ (min : Minimise) (tol hard : ℚ), tol < hard ∧ hard < big ∧
    search min tol hard (.st .sCoreHe) false = .ok (none, true) := by
  refine ⟨fun _ g _ => some ⟨some 1, g, (10, 1)⟩, 1 / 100, 1 / 10, by norm_num, by unfold big; norm_num, ?_⟩
  decide +kernel

/-- **C75**: with root finding, a match is an answer that converged at an age that is not negative. -/
theorem C75_root (success : Bool) (x y : ℚ × ℚ) : rootAnswer success x = some y ↔ success = true ∧ 0 ≤ x.2 ∧ y = x := by
  unfold rootAnswer
  cases success <;> simp
  exact fun _ => eq_comm

/-- **C75**: every default quantity is among those stored for the starting point. -/
theorem C75_quantities_stored (l : Lst) (q : String × ℚ) (hq : q ∈ defaults l) : q.1 ∈ rootKeys ∧ 0 < q.2 := by
  have : ∀ q ∈ defaults l, q.1 ∈ rootKeys ∧ 0 < q.2 := by cases l <;> decide +kernel
  exact this q hq

/-! ### The starting point -/

/-- The weighted squared distance of a row with known values. -/
def distance (ws : List Want) (vals : String → ℚ) (star : String → ℚ) : ℚ :=
  (ws.map fun w => ((vals w.name - star w.name) / w.fac) ^ 2).sum

theorem dist_known (ws : List Want) (r : Row) (vals star : String → ℚ) (hr : ∀ w ∈ ws, r.2 w.name = some (vals w.name))
    (hs : ∀ w ∈ ws, w.val = some (star w.name)) : dist ws (some r) = .fin (distance ws vals star) := by
  have h0 : ws.any (fun w => w.val.isNone || (r.2 w.name).isNone) = false := by
    rw [List.any_eq_false]
    intro w hw
    simp [hr w hw, hs w hw]
  simp only [dist, h0, Bool.false_eq_true, if_false, D.fin.injEq, distance]
  congr 1
  apply List.map_congr_left
  intro w hw
  simp [hr w hw, hs w hw]

/-- **C75**: if the star's quantities and those of the grid are known, the search starts from the row, of all tracks, nearest to
the star in the normalised quantities: the mass of its track and its age. -/
theorem C75_start (g : List Track) (ws : List Want) (vals : ℚ → ℚ → String → ℚ) (star : String → ℚ) (hne : ws ≠ [])
    (hg : ∀ t ∈ g, ∀ r ∈ t.2, ∀ w ∈ ws, r.2 w.name = some (vals t.1 r.1 w.name)) (hs : ∀ w ∈ ws, w.val = some (star w.name))
    (hex : ∃ t ∈ g, t.2 ≠ []) :
    ∃ t ∈ g, ∃ r ∈ t.2, root0 g ws = some (t.1, some r.1) ∧
      ∀ t' ∈ g, ∀ r' ∈ t'.2, distance ws (vals t.1 r.1) star ≤ distance ws (vals t'.1 r'.1) star := by
  obtain ⟨t0, ht0, hr0⟩ := hex
  obtain ⟨r0, hr0⟩ := List.exists_mem_of_ne_nil _ hr0
  have mem_cells : ∀ t ∈ g, ∀ r ∈ t.2, (t.1, some r) ∈ cells g := fun t ht r hr => by
    unfold cells
    exact List.mem_flatMap.2 ⟨t, ht, List.mem_append_left _ (List.mem_map_of_mem (f := fun r => (t.1, some r)) hr)⟩
  have of_cells : ∀ c ∈ cells g, ∀ r, c.2 = some r → ∃ t ∈ g, r ∈ t.2 ∧ c.1 = t.1 := fun c hc r hr => by
    unfold cells at hc
    obtain ⟨t, ht, hm⟩ := List.mem_flatMap.1 hc
    rcases List.mem_append.1 hm with hm | hm
    · obtain ⟨r', hr', rfl⟩ := List.mem_map.1 hm
      simp only [Option.some.injEq] at hr
      subst hr
      exact ⟨t, ht, hr', rfl⟩
    · rw [List.eq_of_mem_replicate hm] at hr; cases hr
  cases hc : cells g with
  | nil => have := mem_cells t0 ht0 r0 hr0; rw [hc] at this; simp at this
  | cons c cs =>
    set b := argmin (fun c : ℚ × Option Row => dist ws c.2) c cs with hb
    obtain ⟨hb1, hb2⟩ := argmin_spec (fun c : ℚ × Option Row => dist ws c.2) cs c
    rw [← hb] at hb1 hb2
    have hle0 := hb2 (t0.1, some r0) (by rw [← hc]; exact mem_cells t0 ht0 r0 hr0)
    simp only [dist_known ws r0 _ star (hg t0 ht0 r0 hr0) hs] at hle0
    have hpad : dist ws none = .inf := by
      have h1 : ws.any (fun w => w.val.isNone) = false := by
        rw [List.any_eq_false]; intro w hw; simp [hs w hw]
      have h2 : ws.isEmpty = false := by cases ws with | nil => exact absurd rfl hne | cons _ _ => rfl
      simp [dist, h1, h2]
    cases hbr : b.2 with
    | none =>
      rw [hbr, hpad] at hle0
      simp [D.le] at hle0
    | some r =>
      obtain ⟨t, ht, hr, hbt⟩ := of_cells b (by rw [hc]; exact hb1) r hbr
      refine ⟨t, ht, r, hr, ?_, fun t' ht' r' hr' => ?_⟩
      · unfold root0
        rw [hc]
        simp only [← hb, hbt, hbr, Option.map_some]
      · have := hb2 (t'.1, some r') (by rw [← hc]; exact mem_cells t' ht' r' hr')
        rw [hbr, dist_known ws r _ star (hg t ht r hr) hs, dist_known ws r' _ star (hg t' ht' r' hr') hs] at this
        exact this

def exGrid : List Track :=
  [(10, [(0, fun _ => some 10), (1, fun _ => some 9)]), (20, [(0, fun _ => some 20), (1, fun _ => some 15), (2, fun _ => some 12)])]

example : root0 exGrid [⟨"mass", some 14, 20⟩] = some (20, some 1) := by decide +kernel

/-- **C75** (refuted): "the search starts from the nearest row".  One row of the grid with an unknown quantity is always chosen,
however near the others are. -/
theorem C75_start_violated (m a : ℚ) :
    root0 [(m, [(a, fun _ => some m), (a + 1, fun _ => none)])] [⟨"mass", some m, 20⟩] = some (m, some (a + 1)) := by
  have h1 : dist [⟨"mass", some m, 20⟩] (some (a, fun _ => some m)) = .fin 0 := by simp [dist]
  have h2 : dist [⟨"mass", some m, 20⟩] (some (a + 1, fun _ => none)) = .nan := by simp [dist]
  simp [root0, cells, argmin, h1, h2, D.beats]

/-! ### Ages -/

/-- **C75**: the rows used are exactly those whose age is below all later ages, in the original order, the same in every column. -/
theorem C75_rows (age : List ℚ) (cols : List (List ℚ)) (hc : ∀ c ∈ cols, c.length = age.length) :
    clean age cols = (select (later age) age, cols.map (select (later age))) := clean_eq age cols hc

theorem select_later_pairwise : ∀ l : List ℚ, (select (later l) l).Pairwise (· < ·)
  | [] => List.Pairwise.nil
  | a :: r => by
    have ih := select_later_pairwise r
    by_cases h : ∀ x ∈ r, a < x
    · have e : later (a :: r) = true :: later r := by rw [later, decide_eq_true h]
      rw [e]
      simp only [select]
      rw [List.pairwise_cons]
      exact ⟨fun x hx => h x ((select_sublist _ _).subset hx), ih⟩
    · have e : later (a :: r) = false :: later r := by rw [later, decide_eq_false h]
      rw [e]
      exact ih

theorem select_later_last : ∀ (l : List ℚ) (a : ℚ), (select (later (l ++ [a])) (l ++ [a])).getLast? = some a
  | [], a => by simp [later, select]
  | b :: l, a => by
    have ih := select_later_last l a
    by_cases h : ∀ x ∈ l ++ [a], b < x
    · have e : later (b :: l ++ [a]) = true :: later (l ++ [a]) := by
        show decide (∀ x ∈ l ++ [a], b < x) :: later (l ++ [a]) = _
        rw [decide_eq_true h]
      rw [e]
      show (b :: select (later (l ++ [a])) (l ++ [a])).getLast? = some a
      rw [List.getLast?_cons, ih]
      rfl
    · have e : later (b :: l ++ [a]) = false :: later (l ++ [a]) := by
        show decide (∀ x ∈ l ++ [a], b < x) :: later (l ++ [a]) = _
        rw [decide_eq_false h]
      rw [e]
      exact ih

/-- **C75**: the ages handed to the interpolator strictly increase, are ages of the track in the same order, end at the last age
of the track, and are all of them if they already increase. -/
theorem C75_ages (l : List ℚ) (a : ℚ) :
    let out := (clean (l ++ [a]) []).1
    out.Pairwise (· < ·) ∧ out.Sublist (l ++ [a]) ∧ out.getLast? = some a ∧ ((l ++ [a]).Pairwise (· < ·) → out = l ++ [a]) := by
  have e : (clean (l ++ [a]) []).1 = select (later (l ++ [a])) (l ++ [a]) := by rw [clean_eq _ _ (by simp)]
  rw [e]
  exact ⟨select_later_pairwise _, select_sublist _ _, select_later_last l a,
    fun h => select_all _ _ (later_length _) (pairwise_later_true _ h)⟩

example : clean [0, 1, 3, 2, 2, 4] [[10, 11, 12, 13, 14, 15]] = ([0, 1, 2, 4], [[10, 11, 14, 15]]) := by
  rw [clean_eq _ _ (by decide)]; decide +kernel

/-- **C75**: all columns keep the same number of rows as the ages. -/
theorem C75_columns (age : List ℚ) (cols : List (List ℚ)) (hc : ∀ c ∈ cols, c.length = age.length) :
    ∀ c ∈ (clean age cols).2, c.length = (clean age cols).1.length := by
  rw [clean_eq _ _ hc]
  intro c hcm
  obtain ⟨c', hc', rfl⟩ := List.mem_map.1 hcm
  exact select_length_eq _ _ _ (hc c' hc')

theorem ageMax_ge : ∀ (l : List ℚ) (x : ℚ), x ∈ l → x ≤ ageMax l
  | [], x, h => by simp at h
  | [a], x, h => by simp at h; rw [h]; exact le_refl _
  | a :: b :: l, x, h => by
    show x ≤ max a (ageMax (b :: l))
    rcases List.mem_cons.1 h with rfl | h
    · exact le_max_left _ _
    · exact le_trans (ageMax_ge (b :: l) x h) (le_max_right _ _)

theorem ageMax_incr : ∀ (l : List ℚ) (a : ℚ), (l ++ [a]).Pairwise (· < ·) → ageMax (l ++ [a]) = a
  | [], a, _ => rfl
  | b :: l, a, h => by
    rw [List.cons_append, List.pairwise_cons] at h
    have ih := ageMax_incr l a h.2
    have hb : b < a := h.1 a (by simp)
    cases l with
    | nil => simp only [List.cons_append, List.nil_append, ageMax]; exact max_eq_right (le_of_lt hb)
    | cons c l =>
      show max b (ageMax (c :: l ++ [a])) = a
      rw [ih]
      exact max_eq_right (le_of_lt hb)

/-- **C75** (ages that increase): the end of the track used for the star's life is the last age of the interpolator; in general
no age of the interpolator exceeds it. -/
theorem C75_end_partial (maxTime : ℚ) (l : List ℚ) (a : ℚ) (cols : List (List ℚ)) (hc : ∀ c ∈ cols, c.length = (l ++ [a]).length) :
    let out := track maxTime (some (l ++ [a], cols))
    ((l ++ [a]).Pairwise (· < ·) → out.1.1.getLast? = some out.2) ∧ ∀ x ∈ out.1.1, x ≤ out.2 := by
  simp only [track]
  rw [clean_eq _ _ hc]
  refine ⟨fun h => ?_, fun x hx => ?_⟩
  · rw [ageMax_incr l a h]; exact select_later_last l a
  · exact ageMax_ge _ _ ((select_sublist _ _).subset hx)

/-- **C75** (refuted): "the star's life ends where its track ends".  The end is taken before rows are removed: if an earlier age
exceeds the last one, the interpolator stops before the end of the star's life. -/
theorem C75_end_violated (a b maxTime : ℚ) (ha : 0 < a) (hab : a < b) :
    track maxTime (some ([0, b, a], [])) = (([0, a], []), b) := by
  simp only [track]
  rw [clean_eq _ _ (by simp)]
  have e : later [0, b, a] = [true, false, true] := by
    have h1 : ∀ x ∈ ([b, a] : List ℚ), (0 : ℚ) < x := by simp; exact ⟨lt_trans ha hab, ha⟩
    have h2 : ¬ ∀ x ∈ ([a] : List ℚ), b < x := by simp; exact le_of_lt hab
    simp only [later, decide_eq_true h1, decide_eq_false h2, List.not_mem_nil, false_implies, implies_true, decide_true]
  rw [e]
  simp only [select, List.map_nil, ageMax]
  rw [max_eq_left (le_of_lt hab), max_eq_right (le_of_lt (lt_trans ha hab))]

end Verif.Fit
