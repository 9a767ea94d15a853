import Verif.Chars
import Verif.MTCase
import Verif.FlowChartProps
/-!
Property theorems for the mass-transfer bookkeeping: C10, C51 (binary state and event), C52 (flag of a run).
-/
namespace Verif.MTCase
open Verif.Py Verif.StarState

/-! ### C10: case inference -/

/-- The case a donor of a given classification is in once it transfers mass. -/
def caseOf : State → ℕ
  | .normal _ .nonBurning => 8
  | .normal .Hrich .coreH => 1
  | .normal .Hrich .coreHe | .normal .Hrich .shellH => 2
  | .normal .Hrich .coreHeDep | .normal .Hrich .coreCDep => 3
  | .normal .stripped .coreHe => 4
  | .normal .stripped .coreHeDep | .normal .stripped .coreCDep => 5
  | _ => 9

/-- C10.  For the dominating donor, no mass transfer is reported exactly when neither the overflow nor the rate
exceeds its threshold; for the other star exactly when it does not overflow; and never when data are missing. -/
theorem C10_no_transfer_iff (x y : ℚ) (donor : String) :
    (inferCase (some (some x)) (some (some y)) donor true = 0 ↔ x ≤ 0 ∧ y ≤ -10) ∧
    (inferCase (some (some x)) (some (some y)) donor false = 0 ↔ x ≤ 0) ∧
    (∀ rl lg d, rl = none ∨ lg = none → inferCase rl lg donor d = 0) := by
  have aux : ∀ d : Bool, inferCase (some (some x)) (some (some y)) donor d = 0 ↔ x ≤ 0 ∧ (y ≤ -10 ∨ d = false) := by
    intro d
    by_cases hx : x ≤ 0 <;> by_cases hy : y ≤ -10 <;> cases d <;>
      simp [inferCase, leN, hx, hy] <;> split_ifs <;> simp
  refine ⟨by simpa using aux true, by simpa using aux false, ?_⟩
  rintro rl lg d (rfl | rfl)
  · rfl
  · cases rl <;> rfl

/-- C10.  A transferring donor gets the case of its evolutionary state. -/
theorem C10_case_of_donor (rl lg : Num) (d : Bool) (s : State)
    (h : (leN rl 0 && (leN lg (-10) || !d)) = false) : inferCase (some rl) (some lg) s.name d = caseOf s := by
  simp only [inferCase, h]
  rcases s with _ | _ | _ | _ | _ | ⟨r, b⟩
  · decide +kernel
  · decide +kernel
  · decide +kernel
  · decide +kernel
  · decide +kernel
  · cases r <;> cases b <;> decide +kernel

/-- C10 is false for overflow data that are NaN: such a star is reported as transferring mass. -/
theorem C10_nan_overflow_violated : inferCase (some none) (some none) "H-rich_Core_H_burning" true = 1 := by
  decide +kernel

/-! ### C10: sequences -/

/-- C10.  The numeric summary never fails; it starts with the warning code iff some step was undetermined; apart from
that it lists the cases that occurred (no-transfer steps left out) with each run of equal cases given once, in
order, never the same case twice in a row; and it is the no-transfer code if nothing was transferred. -/
theorem C10_numeric (cases : List ℕ) (hne : cases ≠ []) :
    ∃ r, numeric cases = some ((if 9 ∈ cases then [9] else []) ++ r) ∧
      (realCases cases = [] → r = if 0 ∈ cases then [0] else []) ∧
      (realCases cases ≠ [] → Expands (realCases cases) r ∧ List.IsChain (· ≠ ·) r) := by
  have hlen : cases.length ≠ 0 := by simpa using hne
  unfold numeric
  rw [if_neg hlen]
  have hc1 : (if 9 ∈ cases then cases.filter (· ≠ 9) else cases) = cases.filter (· ≠ 9) := by
    split
    · rfl
    · rw [filter_id_of_not_mem _ _ ‹_›]
  have hc2 : (if 0 ∈ cases.filter (· ≠ 9) then (cases.filter (· ≠ 9)).filter (· ≠ 0) else cases.filter (· ≠ 9)) =
      realCases cases := by
    rw [← filter_two]
    split
    · rfl
    · rename_i h
      exact (filter_id_of_not_mem _ 0 h).symm
  have h0 : (0 ∈ cases.filter (· ≠ 9)) ↔ 0 ∈ cases := by simp
  dsimp only
  rw [hc1, hc2]
  by_cases ha : 9 ∈ cases ∧ (cases.filter (· ≠ 9)).length = 0
  · rw [if_pos ha]
    have hnil : cases.filter (· ≠ 9) = [] := List.length_eq_zero_iff.1 ha.2
    have hn0 : 0 ∉ cases := by rw [← h0, hnil]; simp
    refine ⟨[], by simp, fun _ => by simp [hn0], fun h => absurd ?_ h⟩
    rw [← filter_two, hnil]; rfl
  · rw [if_neg ha]
    by_cases hb : 0 ∈ cases.filter (· ≠ 9) ∧ (realCases cases).length = 0
    · rw [if_pos hb]
      have hnil : realCases cases = [] := List.length_eq_zero_iff.1 hb.2
      exact ⟨[0], rfl, fun _ => by simp [h0.1 hb.1], fun h => absurd hnil h⟩
    · rw [if_neg hb]
      cases hr : realCases cases with
      | nil =>
        exfalso
        rw [hr] at hb
        have hn0 : 0 ∉ cases.filter (· ≠ 9) := fun h => hb ⟨h, rfl⟩
        have : cases.filter (· ≠ 9) = [] := by
          rw [← filter_id_of_not_mem _ 0 hn0, filter_two, hr]
        by_cases h9 : 9 ∈ cases
        · exact ha ⟨h9, by rw [this]; rfl⟩
        · rw [filter_id_of_not_mem _ _ h9] at this
          exact hne this
      | cons c cs =>
        exact ⟨c :: dropRep c cs, rfl, fun h => by simp at h, fun _ => expands_dropRep c cs⟩

theorem C10_numeric_empty : numeric [] = some [9] := rfl

/-- No separator inside a label, and labels identify cases. -/
theorem label_no_slash (n : ℕ) (s : List Char) (h : label n = some s) : '/' ∉ s := by
  have hc : ∀ m t, caseStr m = some t → '/' ∉ t := by
    intro m t h
    unfold caseStr at h
    split at h <;> cases h <;> decide
  unfold label at h
  split at h
  · rename_i t ht
    cases h
    simp [hc _ _ ht]
  · split at h
    · cases hc' : caseStr (n - 10) with
      | none => rw [hc'] at h; cases h
      | some t => rw [hc'] at h; cases h; simp [hc _ _ hc']
    · cases h

theorem caseStr_lt (m : ℕ) (t) (h : caseStr m = some t) : m < 10 := by
  unfold caseStr at h
  split at h <;> first | omega | cases h

theorem caseStr_inj (m n : ℕ) (t) (h : caseStr m = some t) (h' : caseStr n = some t) : m = n := by
  have hm := caseStr_lt m t h
  have hn := caseStr_lt n t h'
  have hs : (caseStr m).isSome := by rw [h]; rfl
  rw [← h'] at h
  have key : ∀ a : Fin 10, ∀ b : Fin 10, (caseStr a).isSome → caseStr a = caseStr b → a = b := by decide
  exact congrArg Fin.val (key ⟨m, hm⟩ ⟨n, hn⟩ hs h)

theorem label_inj (m n : ℕ) (s : List Char) (h : label m = some s) (h' : label n = some s) : m = n := by
  unfold label at h h'
  split at h
  · rename_i t ht
    cases h
    split at h'
    · rename_i t' ht'
      have : t' = t := by simpa using h'
      subst this
      exact caseStr_inj _ _ _ ht ht'
    · split at h'
      · cases hc' : caseStr (n - 10) with
        | none => rw [hc'] at h'; cases h'
        | some t' =>
          rw [hc'] at h'
          simp only [Option.map_some, Option.some.injEq] at h'
          have := List.append_inj_right' h' rfl
          simp at this
      · cases h'
  · split at h
    · rename_i hm
      cases hc : caseStr (m - 10) with
      | none => rw [hc] at h; cases h
      | some t =>
        rw [hc] at h
        cases h
        split at h'
        · rename_i t' ht'
          simp only [Option.some.injEq] at h'
          have := List.append_inj_right' h' rfl
          simp at this
        · split at h'
          · rename_i hn
            cases hc' : caseStr (n - 10) with
            | none => rw [hc'] at h'; cases h'
            | some t' =>
              rw [hc'] at h'
              simp only [Option.map_some, Option.some.injEq] at h'
              have : t' = t := List.append_inj_left' h' rfl
              subst this
              have := caseStr_inj _ _ _ hc hc'
              omega
          · cases h'
    · cases h

/-- A case code with a label, other than the two special codes. -/
def Named (n : ℕ) : Prop := n ≠ 9 ∧ n ≠ 0 ∧ ∃ s, label n = some s

theorem renderLoop_true_head (l : List ℕ) (h : ∀ n ∈ l, Named n) :
    renderLoop true l = [] ∧ l = [] ∨ ∃ t, renderLoop true l = '/' :: t := by
  cases l with
  | nil => exact .inl ⟨rfl, rfl⟩
  | cons n ns =>
    obtain ⟨h9, h0, s, hs⟩ := h n (by simp)
    right
    simp [renderLoop, h9, h0, hs]

theorem split_at_slash (a b x y : List Char) (ha : '/' ∉ a) (hb : '/' ∉ b)
    (hx : x = [] ∨ ∃ t, x = '/' :: t) (hy : y = [] ∨ ∃ t, y = '/' :: t) (h : a ++ x = b ++ y) : a = b ∧ x = y := by
  induction a generalizing b with
  | nil =>
    cases b with
    | nil => exact ⟨rfl, h⟩
    | cons c b =>
      simp only [List.nil_append, List.cons_append] at h
      rcases hx with rfl | ⟨t, rfl⟩
      · cases h
      · injection h with h1 h2
        subst h1; simp at hb
  | cons c a ih =>
    cases b with
    | nil =>
      simp only [List.nil_append, List.cons_append] at h
      rcases hy with rfl | ⟨t, rfl⟩
      · cases h
      · injection h with h1 h2
        subst h1; simp at ha
    | cons d b =>
      simp only [List.cons_append] at h
      injection h with h1 h2
      simp only [List.mem_cons, not_or] at ha hb
      have := ih b ha.2 hb.2 h2
      exact ⟨by rw [h1, this.1], this.2⟩

theorem renderLoop_inj (added : Bool) (l l' : List ℕ) (h : ∀ n ∈ l, Named n) (h' : ∀ n ∈ l', Named n)
    (he : renderLoop added l = renderLoop added l') : l = l' := by
  induction l generalizing added l' with
  | nil =>
    cases l' with
    | nil => rfl
    | cons n ns =>
      obtain ⟨h9, h0, s, hs⟩ := h' n (by simp)
      cases added <;> simp [renderLoop, h9, h0, hs] at he
  | cons m ms ih =>
    obtain ⟨h9, h0, s, hs⟩ := h m (by simp)
    cases l' with
    | nil => cases added <;> simp [renderLoop, h9, h0, hs] at he
    | cons n ns =>
      obtain ⟨h9', h0', s', hs'⟩ := h' n (by simp)
      have hm : ∀ k ∈ ms, Named k := fun k hk => h k (by simp [hk])
      have hn : ∀ k ∈ ns, Named k := fun k hk => h' k (by simp [hk])
      have e : s ++ renderLoop true ms = s' ++ renderLoop true ns := by
        cases added <;> simpa [renderLoop, h9, h0, hs, h9', h0', hs'] using he
      obtain ⟨e1, e2⟩ := split_at_slash _ _ _ _ (label_no_slash m s hs) (label_no_slash n s' hs')
        ((renderLoop_true_head ms hm).imp And.left id) ((renderLoop_true_head ns hn).imp And.left id) e
      subst e1
      rw [label_inj m n s hs hs', ih true ns hm hn e2]

/-- C10.  The text keeps all the information: two sequences of known cases with the same text are equal. -/
theorem C10_string_faithful (l l' : List ℕ) (h : ∀ n ∈ l, Named n) (h' : ∀ n ∈ l', Named n) (hne : l ≠ [])
    (hne' : l' ≠ []) (he : render l = render l') : l = l' := by
  have e : renderLoop false l = renderLoop false l' := by
    simpa [render, hne, hne'] using he
  exact renderLoop_inj false l l' h h' e

/-- The known cases of both donors have labels. -/
example : ∀ n ∈ [1, 2, 3, 4, 5, 6, 8, 11, 12, 13, 14, 15, 16, 18], Named n := by
  intro n hn
  simp only [List.mem_cons, List.not_mem_nil, or_false] at hn
  rcases hn with rfl | rfl | rfl | rfl | rfl | rfl | rfl | rfl | rfl | rfl | rfl | rfl | rfl | rfl <;>
    exact ⟨by decide, by decide, _, rfl⟩
example : numeric [0, 1, 1, 0, 1, 11, 9, 1] = some [9, 1, 11, 1] := by decide +kernel
example : render [9, 1, 11, 1] = (chars! "?case_A1/A2/A1") := by decide +kernel

/-! ### C10: shifting of unphysical cases -/

/-- Largest case of the same donor up to and including position `i`, starting from `m`. -/
def runMax (m : ℕ) (l : List ℕ) : ℕ := l.foldl max m

theorem shift_spec (m1 m2 : ℕ) (l : List ℕ) (h : ∀ c ∈ l, c ≤ 19) (i : ℕ) (hi : i < l.length) :
    (shift m1 m2 l)[i]? = some (if l[i] ≤ 9 then runMax m1 ((l.take (i + 1)).filter (· ≤ 9))
      else runMax m2 ((l.take (i + 1)).filter (fun c => !(c ≤ 9 : Bool)))) := by
  induction l generalizing m1 m2 i with
  | nil => simp at hi
  | cons c cs ih =>
    have hcs : ∀ d ∈ cs, d ≤ 19 := fun d hd => h d (by simp [hd])
    have hc := h c (by simp)
    by_cases h9 : c ≤ 9
    · have hm : (if c > m1 then c else m1) = max m1 c := by simp [max_def]; split_ifs <;> omega
      have hm' : (if c < m1 then m1 else c) = max m1 c := by simp [max_def]; split_ifs <;> omega
      cases i with
      | zero => simp [shift, h9, hm', runMax]
      | succ i =>
        have hi' : i < cs.length := by simpa using hi
        simp only [shift, h9, if_true, List.getElem?_cons_succ, List.getElem_cons_succ]
        rw [ih _ _ hcs i hi', hm]
        simp [List.take_succ_cons, h9, runMax]
    · have hm : (if c > m2 then c else m2) = max m2 c := by simp [max_def]; split_ifs <;> omega
      have hm' : (if c < m2 then m2 else c) = max m2 c := by simp [max_def]; split_ifs <;> omega
      cases i with
      | zero => simp [shift, h9, hc, hm', runMax]
      | succ i =>
        have hi' : i < cs.length := by simpa using hi
        simp only [shift, h9, hc, if_false, if_true, List.getElem?_cons_succ, List.getElem_cons_succ]
        rw [ih _ _ hcs i hi', hm]
        simp [List.take_succ_cons, h9, runMax]

/-- C10.  With `shift_cases`, each entry becomes the largest case its donor has had so far; in particular the donor of
an entry never changes, entries never decrease for a donor, and a sequence that is already physical is kept. -/
theorem C10_shift_is_running_maximum (l : List ℕ) (h : ∀ c ∈ l, c ≤ 19) (i : ℕ) (hi : i < l.length) :
    (shift 0 10 l)[i]? = some (if l[i] ≤ 9 then runMax 0 ((l.take (i + 1)).filter (· ≤ 9))
      else runMax 10 ((l.take (i + 1)).filter (fun c => !(c ≤ 9 : Bool)))) :=
  shift_spec 0 10 l h i hi

/-- C10 is false for runs with an undetermined step: shifting turns every later case of that donor into
"undetermined", so transfer episodes that happened disappear from the text (`?` instead of `?case_A1/B1`). -/
theorem C10_shift_loses_cases_violated :
    flag false [9, 1, 2] = some (chars! "?case_A1/B1") ∧ flag true [9, 1, 2] = some (chars! "?") := by
  decide +kernel

/-- C10 is false for steps without transfer: shifting reports an episode that did not happen. -/
theorem C10_shift_invents_case_violated :
    flag false [1, 11, 0] = some (chars! "case_A1/A2") ∧ flag true [1, 11, 0] = some (chars! "case_A1/A2/A1") := by
  decide +kernel

/-! ### C51 -/

/-- A transferring star: its case is one of the known transfer cases. -/
def transfers (f : ℕ) : Prop := f ∈ rloCases

instance (f : ℕ) : Decidable (transfers f) := inferInstanceAs (Decidable (f ∈ rloCases))

/-- The names of the binary states of the flow chart, `BINARY_STATES_ALL`, flow_chart.py l.138-148. -/
def bstateName : FlowChart.BState → String
  | .single => "initially_single_star" | .detached => "detached" | .RLO1 => "RLO1" | .RLO2 => "RLO2"
  | .contact => "contact" | .disrupted => "disrupted" | .merged => "merged" | .initialRLOF => "initial_RLOF"

/-- C51.  The binary state says who transfers mass: both – contact; only star 1/2 – RLO1/RLO2; nobody – detached;
anything else (a donor of undetermined case) – the state `undefined`. -/
theorem C51_state (cls : Cls) (hcls : cls = .unstable ∨ cls = .other) (b : BinIn) :
    (stateEvent cls b).1 = some (
      if transfers (mt1 b) ∧ transfers (mt2 b) then "contact"
      else if mt1 b = 0 ∧ mt2 b = 0 then "detached"
      else if transfers (mt1 b) then "RLO1"
      else if transfers (mt2 b) then "RLO2" else "undefined") := by
  unfold transfers
  rcases hcls with rfl | rfl <;> simp only [stateEvent] <;>
    by_cases h1 : mt1 b ∈ rloCases <;> by_cases h2 : mt2 b ∈ rloCases <;>
    by_cases h3 : mt1 b = 0 ∧ mt2 b = 0 <;> simp [h1, h2, h3] <;> split_ifs <;> rfl

/-- C51.  Without unstable mass transfer the event is the collapse of an exhausted star, star 1 first; it is `None`
exactly when no star is exhausted. -/
theorem C51_event_stable (b : BinIn) :
    (stateEvent .other b).2.1 =
      if exhausted b.state1 b.gamma1 then some "CC1" else if exhausted b.state2 b.gamma2 then some "CC2" else none := by
  simp only [stateEvent]
  split_ifs <;> simp_all

/-- C51.  Unstable mass transfer gives a common-envelope event of the star that transfers mass (of the one with the
larger overflow in contact), doubled if the other star has an envelope of its own. -/
theorem C51_event_unstable (b : BinIn) :
    (transfers (mt1 b) → ¬ transfers (mt2 b) → (stateEvent .unstable b).2.1 = some "oCE1") ∧
    (transfers (mt2 b) → ¬ transfers (mt1 b) → (stateEvent .unstable b).2.1 = some "oCE2") ∧
    (∀ x y : ℚ, transfers (mt1 b) → transfers (mt2 b) → b.rl1 = some (some x) → b.rl2 = some (some y) →
      (stateEvent .unstable b).2.1 = some (
        if y ≤ x then (if soloCompanion b.state2 then "oCE1" else "oDoubleCE1")
        else (if soloCompanion b.state1 then "oCE2" else "oDoubleCE2"))) := by
  unfold transfers
  have hz : (0 : ℕ) ∉ rloCases := by decide
  refine ⟨fun h1 h2 => ?_, fun h2 h1 => ?_, fun x y h1 h2 hx hy => ?_⟩
  · have : mt1 b ≠ 0 := fun h => hz (h ▸ h1)
    simp [stateEvent, h1, h2, this]
  · have : mt2 b ≠ 0 := fun h => hz (h ▸ h2)
    simp [stateEvent, h1, h2, this]
  · by_cases hxy : y ≤ x <;> simp [stateEvent, h1, h2, hx, hy, geN, hxy]

/-- C51.  Grid runs that did not converge or overflowed at birth are reported as such. -/
theorem C51_failed_runs (b : BinIn) :
    (stateEvent .notConverged b).1 = none ∧ (stateEvent .notConverged b).2.1 = none ∧
    (stateEvent .initialMT b).1 = some "initial_RLOF" ∧ (stateEvent .initialMT b).2.1 = none := ⟨rfl, rfl, rfl, rfl⟩

/-- C51 is false for helium-accreting donors: their transfer is "undetermined" and the binary state becomes
`undefined`, which no flow-chart entry has. -/
theorem C51_accretor_donor_violated :
    ∃ b : BinIn, b.state1 = "accreted_He_Core_H_burning" ∧ b.rl1 = some (some 1) ∧ b.lg = some (some (-3)) ∧
      (stateEvent .other b).1 = some "undefined" ∧ ∀ s : FlowChart.BState, bstateName s ≠ "undefined" := by
  refine ⟨⟨some (some (-3)), some (some 1), none, "accreted_He_Core_H_burning", "NS", none, none⟩, rfl, rfl, rfl,
    by decide +kernel, ?_⟩
  intro s; cases s <;> decide

/-- A main-sequence donor onto a star; the case text names the donor. -/
example : stateEvent .other ⟨some (some (-3)), some (some 1), some (some (-1)), "H-rich_Core_H_burning", "H-rich_Core_H_burning", none, none⟩
    = (some "RLO1", none, (chars! "case_A1")) := by decide +kernel
example : stateEvent .unstable ⟨some (some (-3)), some (some (-1)), some (some 1), "H-rich_Core_H_burning", "H-rich_Shell_H_burning", none, none⟩
    = (some "RLO2", some "oCE2", (chars! "case_B2")) := by decide +kernel

/-! ### C52 -/

/-- C52.  In each row at most one star is counted as donor. -/
theorem C52_one_donor_per_row (r : Row) : ¬ (rlof1 r = true ∧ rlof2 r = true) := by
  rintro ⟨h1, h2⟩
  simp only [rlof1, rlof2, Bool.and_eq_true] at h1 h2
  have a := h1.2
  have b := h2.2
  unfold geN at a
  unfold ltN lt at b
  cases hx : r.rel1 <;> cases hy : r.rel2 <;> simp [hx, hy] at a b
  linarith

/-- Some star transfers mass in the row: it overflows, or the rate is above threshold. -/
def Active (r : Row) (x y : ℚ) (z : Num) : Prop := r.rel1 = some x ∧ r.rel2 = some y ∧ r.rate = z

/-- C52.  For complete overflow data, "no_RLOF" is reported exactly when no star ever overflows and the rate never
exceeds its threshold; "contact_during_MS" exactly when both overflow in some row. -/
theorem C52_no_RLOF_iff (start : Bool) (rows : List Row)
    (hd : ∀ r ∈ rows, ∃ x y z, r.rel1 = some x ∧ r.rel2 = some y ∧ r.rate = some z) :
    ((∀ r ∈ rows, ∀ x y z, r.rel1 = some x → r.rel2 = some y → r.rate = some z → x ≤ 0 ∧ y ≤ 0 ∧ z ≤ -10) →
      massTransferFlag start rows = some (chars! "no_RLOF")) ∧
    ((∃ r ∈ rows, ∃ x y, r.rel1 = some x ∧ r.rel2 = some y ∧ 0 < x ∧ 0 < y) →
      massTransferFlag start rows = some (chars! "contact_during_MS")) := by
  constructor
  · intro h
    have hrow : ∀ r ∈ rows, gtN r.rel1 0 = false ∧ gtN r.rel2 0 = false ∧ gtN r.rate (-10) = false := by
      intro r hr
      obtain ⟨x, y, z, hx, hy, hz⟩ := hd r hr
      obtain ⟨a, b, c⟩ := h r hr x y z hx hy hz
      simp [gtN, gt, hx, hy, hz, a, b, c]
    have e1 : rows.any (fun r => gtN r.rel1 0 && gtN r.rel2 0) = false := by
      rw [List.any_eq_false]; intro r hr; simp [hrow r hr]
    have e2 : rows.any rlof1 = false := by
      rw [List.any_eq_false]; intro r hr; simp [rlof1, hrow r hr]
    have e3 : rows.any rlof2 = false := by
      rw [List.any_eq_false]; intro r hr; simp [rlof2, hrow r hr]
    simp [massTransferFlag, e1, e2, e3]
  · rintro ⟨r, hr, x, y, hx, hy, h1, h2⟩
    have : rows.any (fun r => gtN r.rel1 0 && gtN r.rel2 0) = true := by
      rw [List.any_eq_true]; exact ⟨r, hr, by simp [gtN, gt, hx, hy, h1, h2]⟩
    unfold massTransferFlag
    rw [if_pos this]

/-- C52.  A run that transfers mass (without contact) from some row on is never reported as "no_RLOF". -/
theorem C52_transfer_reported (rows : List Row) (r : Row) (hr : r ∈ rows) (x y : ℚ) (z : Num) (h : Active r x y z)
    (ht : 0 < x ∨ 0 < y ∨ ∃ w, z = some w ∧ -10 < w) : rows.any rlof1 = true ∨ rows.any rlof2 = true := by
  obtain ⟨hx, hy, hz⟩ := h
  by_cases hxy : y ≤ x
  · left
    rw [List.any_eq_true]
    refine ⟨r, hr, ?_⟩
    rcases ht with ht | ht | ⟨w, hw, ht⟩
    · simp [rlof1, gtN, gt, geN, hx, hy, hxy, ht]
    · have : 0 < x := by linarith
      simp [rlof1, gtN, gt, geN, hx, hy, hxy, this]
    · simp [rlof1, gtN, gt, geN, hx, hy, hxy, hz, hw, ht]
  · right
    rw [List.any_eq_true]
    refine ⟨r, hr, ?_⟩
    have hlt : x < y := not_le.1 hxy
    rcases ht with ht | ht | ⟨w, hw, ht⟩
    · have : 0 < y := by linarith
      simp [rlof2, gtN, gt, ltN, lt, hx, hy, hlt, this]
    · simp [rlof2, gtN, gt, ltN, lt, hx, hy, hlt, ht]
    · simp [rlof2, gtN, gt, ltN, lt, hx, hy, hlt, hz, hw, ht]

/-- C52.  A run (not started at overflow) whose first row already has a donor is reported as overflowing initially,
unless it goes through contact. -/
theorem C52_initial (rows : List Row) (r : Row) (rs : List Row) (h : rows = r :: rs)
    (hc : rows.any (fun r => gtN r.rel1 0 && gtN r.rel2 0) = false) (hr : rlof1 r = true ∨ rlof2 r = true) :
    massTransferFlag false rows = some (chars! "initial_RLOF") := by
  subst h
  unfold massTransferFlag
  rw [hc]
  rcases hr with hr | hr
  · simp [hr]
  · have h1 : rlof1 r = false := by
      have := C52_one_donor_per_row r
      simp only [hr, and_true, Bool.not_eq_true] at this
      exact this
    simp [hr, h1]

example : massTransferFlag false
    [⟨some (-1), some (-1), some (-20), "H-rich_Core_H_burning", "H-rich_Core_H_burning"⟩,
     ⟨some 1, some (-1), some (-5), "H-rich_Core_H_burning", "H-rich_Core_H_burning"⟩,
     ⟨some (-1), some 1, some (-5), "stripped_He_Core_He_burning", "H-rich_Core_H_burning"⟩]
    = some (chars! "case_A1/A2") := by decide +kernel

end Verif.MTCase
