import Verif.Chars
import Verif.MTCase
import Verif.TermFlags
import Verif.Frame
/-!
Model of `combine_TF12`, `/repo/posydon/visualization/combine_TF.py` l.60-236, and of the texts of the mass-transfer history of a run
(`DEFAULT_MARKERS_COLORS_LEGENDS['combined_TF12']`, `/repo/posydon/visualization/plot_defaults.py` l.472-591, fourth entries; used by
`post_process_grid`, `/repo/posydon/grids/post_processing.py` l.472-475).

Simplifications: texts are lists of characters; one run at a time.
-/
namespace Verif.MTLabel
open Verif.TermFlags (IC)

abbrev Txt := List Char

/-- The array has the type `U25`: longer texts are cut, l.144. -/
def cut (t : Txt) : Txt := t.take 25

/-- `split('/')` -/
def pieces : Txt → List Txt
  | [] => [[]]
  | c :: cs =>
    if c = '/' then [] :: pieces cs
    else match pieces cs with
      | [] => [[c]]
      | h :: t => (c :: h) :: t

/-- `replace('_', ' ')` -/
def spaced (t : Txt) : Txt := t.map fun c => if c = '_' then ' ' else c

/-- The pools of single cases, l.76-114. -/
def pool (t : Txt) : Option Txt :=
  if t = (chars! "case_A1") ∨ t = (chars! "case_A2") then some (chars! "A")
  else if t = (chars! "case_B1") ∨ t = (chars! "case_B2") then some (chars! "B")
  else if t = (chars! "case_C1") ∨ t = (chars! "case_C2") then some (chars! "C")
  else if t = (chars! "case_BA1") ∨ t = (chars! "case_BA2") then some (chars! "BA")
  else if t = (chars! "case_BB1") ∨ t = (chars! "case_BB2") then some (chars! "BB")
  else none

/-- The branches for stable (l.158-193) and unstable (l.194-229) mass transfer. -/
def body (unstable : Bool) (t : Txt) : Txt :=
  let word : Txt := if unstable then (chars! "Unstable") else (chars! "Stable")
  if '1' ∈ t ∧ '2' ∈ t then (if unstable then (chars! "Reverse unstable MT") else (chars! "Reverse stable MT"))
  else if t = (chars! "contact_during_MS") then word ++ (chars! " contact")
  else match pool t with
    | some c => word ++ (chars! " case ") ++ c
    | none =>
      if unstable ∧ t = (chars! "L2_RLOF") then (chars! "Unstable L2 RLOF")
      else if Frame.isIn (chars! "case_nonburning") t then word ++ (chars! " case n")
      else if '/' ∈ t then
        let cs := pieces t
        let first := cut (word ++ ' ' :: (spaced (cs.headD [])).dropLast)
        let last := cs.getLastD []
        cut (first ++ if Frame.isIn (chars! "nonburning") last then ['n'] else last.dropLast)
      else (chars! "unknown")

/-- `combine_TF12`, l.141-236, for one run. -/
def combine (ic : IC) (tf2 : Txt) : Txt :=
  let t := if (chars! "?case").isPrefixOf tf2 then tf2.drop 1 else tf2
  match ic with
  | .initialMT => (chars! "Initial RLOF")
  | .notConverged => (chars! "Not converged")
  | .noMT => (chars! "no_RLOF")
  | .stableReverse => (chars! "Reverse stable MT")
  | .stable => body false t
  | .unstable => body true t
  | .unknown => (chars! "unknown")

/-- plot_defaults.py l.472-591: key and text. -/
def legends : List (String × String) :=
  [("Stable contact", "Stable contact phase"), ("Stable case A", "Last stable RLOF during MS"), ("Stable case B", "Last stable RLOF during postMS"),
   ("Stable case C", "Last stable RLOF during postMS"), ("Stable case BA", "Last stable RLOF during stripped He star"),
   ("Stable case BB", "Last stable RLOF during stripped He star"), ("Stable case AA", "Last stable RLOF during MS"),
   ("Stable case AB", "Last stable RLOF during postMS"), ("Stable case AC", "Last stable RLOF during postMS"),
   ("Stable case An", "Last stable RLOF during postMS"), ("Stable case ABA", "Last stable RLOF during stripped He star"),
   ("Stable case ABB", "Last stable RLOF during stripped He star"), ("Stable case BC", "Last stable RLOF during postMS"),
   ("Stable case Bn", "Last stable RLOF during postMS"), ("Stable case BBA", "Last stable RLOF during stripped He star"),
   ("Stable case BBB", "Last stable RLOF during stripped He star"), ("Stable case Cn", "Last stable RLOF during postMS"),
   ("Stable case CBA", "Last stable RLOF during stripped He star"), ("Stable case CBB", "Last stable RLOF during stripped He star"),
   ("Stable case BABB", "Last stable RLOF during stripped He star"), ("Stable case BAn", "Last stable RLOF during stripped He star"),
   ("Stable case BBn", "Last stable RLOF during stripped He star"), ("Stable case n", "Last stable RLOF while non burning"),
   ("Unstable contact", "Unstable contact phase"), ("Unstable case A", "Unstable RLOF during MS"), ("Unstable case B", "Unstable RLOF during postMS"),
   ("Unstable case C", "Unstable RLOF during postMS"), ("Unstable case BA", "Unstable RLOF during stripped He star"),
   ("Unstable case BB", "Unstable RLOF during stripped He star"), ("Unstable case AB", "Unstable RLOF during postMS"),
   ("Unstable case AC", "Unstable RLOF during postMS"), ("Unstable case An", "Unstable RLOF during postMS"),
   ("Unstable case ABA", "Unstable RLOF during stripped He star"), ("Unstable case ABB", "Unstable RLOF during stripped He star"),
   ("Unstable case BC", "Unstable RLOF during postMS"), ("Unstable case Bn", "Unstable RLOF during postMS"),
   ("Unstable case BBA", "Unstable RLOF during stripped He star"), ("Unstable case BBB", "Unstable RLOF during stripped He star"),
   ("Unstable case Cn", "Unstable RLOF during postMS"), ("Unstable case CBA", "Unstable RLOF during stripped He star"),
   ("Unstable case CBB", "Unstable RLOF during stripped He star"), ("Unstable case BABB", "Unstable RLOF during stripped He star"),
   ("Unstable case BAn", "Unstable RLOF during stripped He star"), ("Unstable case BBn", "Unstable RLOF during stripped He star"),
   ("Unstable case n", "Unstable RLOF while non burning"), ("Unstable L2 RLOF", "Unstable RLOF during stripped He star"),
   ("Initial RLOF", "Initial RLOF"), ("no_RLOF", "no RLOF"), ("Not converged", "Not converged"), ("unknown", "unknown"),
   ("Reverse stable MT", "Stable reverse mass-transfer phase"), ("Reverse unstable MT", "Unstable reverse mass-transfer phase")]

/-- The text of the history, post_processing.py l.473-475: `none` for the `KeyError` which ends the post-processing. -/
def history (ic : IC) (tf2 : Txt) : Option String := (legends.find? fun p => p.1.toList == combine ic tf2).map (·.2)

/-! ### Specification -/

/-- The cases of mass transfer: A, B, C, BA, BB, non-burning; the second star has 10 added. -/
def known : List ℕ := [1, 2, 3, 4, 5, 8]

/-- What is said about stable mass transfer of which the last case is this one. -/
def stablePhase : ℕ → String
  | 1 => "Last stable RLOF during MS"
  | 2 => "Last stable RLOF during postMS"
  | 3 => "Last stable RLOF during postMS"
  | 4 => "Last stable RLOF during stripped He star"
  | 5 => "Last stable RLOF during stripped He star"
  | _ => "Last stable RLOF while non burning"

/-- The same for unstable mass transfer. -/
def unstablePhase : ℕ → String
  | 1 => "Unstable RLOF during MS"
  | 2 => "Unstable RLOF during postMS"
  | 3 => "Unstable RLOF during postMS"
  | 4 => "Unstable RLOF during stripped He star"
  | 5 => "Unstable RLOF during stripped He star"
  | _ => "Unstable RLOF while non burning"

def sublists : List ℕ → List (List ℕ)
  | [] => [[]]
  | a :: l => sublists l ++ (sublists l).map (a :: ·)

/-- The text of a list of cases without repetitions, all of known donors. -/
def text (l : List ℕ) : Txt := MTCase.renderLoop false l

/-! ### The whole table -/

theorem table1 : ∀ l ∈ sublists known, l ≠ [] → ∀ q ∈ [[], ['?']], (history .stable (q ++ text l)).isSome = true ∧ (history .unstable (q ++ text l)).isSome = true ∧
    (l.getLastD 0 ≠ 8 ∨ l = [8] → history .stable (q ++ text l) = some (stablePhase (l.getLastD 0)) ∧ history .unstable (q ++ text l) = some (unstablePhase (l.getLastD 0))) := by
  decide +kernel

theorem table2 : ∀ l ∈ sublists known, l ≠ [] → ∀ q ∈ [[], ['?']], history .stable (q ++ text (l.map (· + 10))) = history .stable (q ++ text l) ∧
    history .unstable (q ++ text (l.map (· + 10))) = history .unstable (q ++ text l) := by decide +kernel

/-! ### Lemmas -/

theorem mem_sublists : ∀ {S l : List ℕ}, S.Pairwise (· < ·) → l.Pairwise (· < ·) → (∀ x ∈ l, x ∈ S) → l ∈ sublists S := by
  intro S
  induction S with
  | nil =>
    intro l _ _ h
    cases l with
    | nil => simp [sublists]
    | cons a l => exact absurd (h a (by simp)) (by simp)
  | cons a S ih =>
    intro l hS hl h
    obtain ⟨ha, hS'⟩ := List.pairwise_cons.1 hS
    simp only [sublists, List.mem_append, List.mem_map]
    by_cases hm : a ∈ l
    · right
      cases l with
      | nil => simp at hm
      | cons x l =>
        obtain ⟨hx, hl⟩ := List.pairwise_cons.1 hl
        have hxa : x = a := by
          rcases List.mem_cons.1 hm with e | hm'
          · exact e.symm
          · have h1 := hx a hm'
            rcases List.mem_cons.1 (h x (by simp)) with e | e
            · exact e
            · have := ha x e; omega
        subst hxa
        refine ⟨l, ih hS' hl fun y hy => ?_, rfl⟩
        rcases List.mem_cons.1 (h y (by simp [hy])) with e | e
        · have := hx y hy; omega
        · exact e
    · left
      refine ih hS' hl fun y hy => ?_
      rcases List.mem_cons.1 (h y hy) with e | e
      · exact absurd (e ▸ hy) hm
      · exact e

theorem dropRep_sublist (p : ℕ) : ∀ l, (MTCase.dropRep p l).Sublist l := by
  intro l
  induction l generalizing p with
  | nil => exact List.Sublist.refl _
  | cons c cs ih =>
    unfold MTCase.dropRep
    split_ifs
    · exact (ih c).cons_cons c
    · exact (ih p).cons c

theorem lt_of_le_chain : ∀ {l : List ℕ}, l.Pairwise (· ≤ ·) → l.IsChain (· ≠ ·) → l.Pairwise (· < ·) := by
  intro l
  induction l with
  | nil => intros; exact List.Pairwise.nil
  | cons a l ih =>
    intro h1 h2
    obtain ⟨ha, h1⟩ := List.pairwise_cons.1 h1
    cases l with
    | nil => simp
    | cons b l =>
      obtain ⟨hab, h2⟩ := List.isChain_cons_cons.1 h2
      have hr := ih h1 h2
      refine List.pairwise_cons.2 ⟨fun x hx => ?_, hr⟩
      have hlt : a < b := lt_of_le_of_ne (ha b (by simp)) hab
      rcases List.mem_cons.1 hx with e | e
      · rw [e]; exact hlt
      · exact hlt.trans ((List.pairwise_cons.1 hr).1 x e)

/-- The cases of a donor. -/
def own (second : Bool) (l : List ℕ) : List ℕ := l.filter fun c => decide (9 < c) == second

/-- After the shift the cases of a donor do not decrease, and they are cases it had or the bound. -/
theorem shift_mono : ∀ (l : List ℕ) (m1 m2 : ℕ), (∀ c ∈ l, c ≤ 19) → m1 ≤ 9 → 10 ≤ m2 → m2 ≤ 19 →
    (∀ e ∈ own false (MTCase.shift m1 m2 l), m1 ≤ e ∧ e ≤ 9 ∧ ((e = m1 ∧ ∃ c ∈ l, c ≤ m1) ∨ e ∈ l)) ∧ (∀ e ∈ own true (MTCase.shift m1 m2 l), m2 ≤ e ∧ e ≤ 19 ∧ ((e = m2 ∧ ∃ c ∈ l, 9 < c ∧ c ≤ m2) ∨ e ∈ l)) ∧
      (own false (MTCase.shift m1 m2 l)).Pairwise (· ≤ ·) ∧ (own true (MTCase.shift m1 m2 l)).Pairwise (· ≤ ·) := by
  intro l
  induction l with
  | nil => intro m1 m2 _ _ _ _; simp [MTCase.shift, own]
  | cons c cs ih =>
    intro m1 m2 hc h1 h2 h2'
    have hcs : ∀ d ∈ cs, d ≤ 19 := fun d hd => hc d (by simp [hd])
    have hc19 := hc c (by simp)
    by_cases h9 : c ≤ 9
    · have e1 : (if c < m1 then m1 else c) = max m1 c := by simp [max_def]; split_ifs <;> omega
      have e2 : (if c > m1 then c else m1) = max m1 c := by simp [max_def]; split_ifs <;> omega
      have hs : MTCase.shift m1 m2 (c :: cs) = max m1 c :: MTCase.shift (max m1 c) m2 cs := by
        simp only [MTCase.shift, h9, if_true, e1, e2]
      have hM : max m1 c ≤ 9 := by omega
      have hMc : max m1 c = m1 ∨ max m1 c = c := by omega
      obtain ⟨i1, i2, i3, i4⟩ := ih (max m1 c) m2 hcs hM h2 h2'
      have o1 : own false (max m1 c :: MTCase.shift (max m1 c) m2 cs) = max m1 c :: own false (MTCase.shift (max m1 c) m2 cs) := by
        simp only [own, List.filter_cons]; rw [if_pos (by simp; omega)]
      have o2 : own true (max m1 c :: MTCase.shift (max m1 c) m2 cs) = own true (MTCase.shift (max m1 c) m2 cs) := by
        simp only [own, List.filter_cons]; rw [if_neg (by simp; omega)]
      rw [hs, o1, o2]
      refine ⟨fun e he => ?_, fun e he => ?_, List.pairwise_cons.2 ⟨fun x hx => (i1 x hx).1, i3⟩, i4⟩
      · rcases List.mem_cons.1 he with rfl | he
        · refine ⟨le_max_left _ _, hM, ?_⟩
          rcases hMc with e | e
          · exact Or.inl ⟨e, c, by simp, by omega⟩
          · right; rw [e]; simp
        · obtain ⟨a, b, d⟩ := i1 e he
          refine ⟨le_trans (le_max_left _ _) a, b, ?_⟩
          rcases d with ⟨d, -⟩ | d
          · rcases hMc with e' | e'
            · exact Or.inl ⟨d.trans e', c, by simp, by omega⟩
            · right; rw [d, e']; simp
          · right; simp [d]
      · obtain ⟨a, b, d⟩ := i2 e he
        refine ⟨a, b, ?_⟩
        rcases d with ⟨d, x, hx, hx'⟩ | d
        · exact Or.inl ⟨d, x, by simp [hx], hx'⟩
        · right; simp [d]
    · have e1 : (if c < m2 then m2 else c) = max m2 c := by simp [max_def]; split_ifs <;> omega
      have e2 : (if c > m2 then c else m2) = max m2 c := by simp [max_def]; split_ifs <;> omega
      have hs : MTCase.shift m1 m2 (c :: cs) = max m2 c :: MTCase.shift m1 (max m2 c) cs := by
        simp only [MTCase.shift, h9, hc19, if_true, if_false, e1, e2]
      have hM : max m2 c ≤ 19 := by omega
      have hM' : 10 ≤ max m2 c := by omega
      have hMc : max m2 c = m2 ∨ max m2 c = c := by omega
      obtain ⟨i1, i2, i3, i4⟩ := ih m1 (max m2 c) hcs h1 hM' hM
      have o1 : own false (max m2 c :: MTCase.shift m1 (max m2 c) cs) = own false (MTCase.shift m1 (max m2 c) cs) := by
        simp only [own, List.filter_cons]; rw [if_neg (by simp; omega)]
      have o2 : own true (max m2 c :: MTCase.shift m1 (max m2 c) cs) = max m2 c :: own true (MTCase.shift m1 (max m2 c) cs) := by
        simp only [own, List.filter_cons]; rw [if_pos (by simp; omega)]
      rw [hs, o1, o2]
      refine ⟨fun e he => ?_, fun e he => ?_, i3, List.pairwise_cons.2 ⟨fun x hx => (i2 x hx).1, i4⟩⟩
      · obtain ⟨a, b, d⟩ := i1 e he
        refine ⟨a, b, ?_⟩
        rcases d with ⟨d, x, hx, hx'⟩ | d
        · exact Or.inl ⟨d, x, by simp [hx], hx'⟩
        · right; simp [d]
      · rcases List.mem_cons.1 he with rfl | he
        · refine ⟨le_max_left _ _, hM, ?_⟩
          rcases hMc with e | e
          · exact Or.inl ⟨e, c, by simp, by omega, by omega⟩
          · right; rw [e]; simp
        · obtain ⟨a, b, d⟩ := i2 e he
          refine ⟨le_trans (le_max_left _ _) a, b, ?_⟩
          rcases d with ⟨d, -⟩ | d
          · rcases hMc with e' | e'
            · exact Or.inl ⟨d.trans e', c, by simp, by omega, by omega⟩
            · right; rw [d, e']; simp
          · right; simp [d]

/-- The cases which a history can have. -/
def Case (c : ℕ) : Prop := c ∈ [1, 2, 3, 4, 5, 8, 9, 11, 12, 13, 14, 15, 18, 19]

instance (c : ℕ) : Decidable (Case c) := inferInstanceAs (Decidable (c ∈ _))

theorem inferCase_mem (rl lg : Option MTCase.Num) (d : String) (b : Bool) : MTCase.inferCase rl lg d b ∈ [0, 1, 2, 3, 4, 5, 8, 9] := by
  unfold MTCase.inferCase
  cases rl with
  | none => simp
  | some rl =>
    cases lg with
    | none => simp
    | some lg => dsimp only; split_ifs <;> simp

theorem inferCase_ne (rl lg : MTCase.Num) (d : String) (h : MTCase.gtN rl 0 = true ∨ MTCase.gtN lg (-10) = true) : MTCase.inferCase (some rl) (some lg) d true ≠ 0 := by
  have hb : (MTCase.leN rl 0 && (MTCase.leN lg (-10) || !true)) = false := by
    rcases h with h | h
    · have : MTCase.leN rl 0 = false := by
        unfold MTCase.gtN StarState.gt at h
        unfold MTCase.leN
        cases rl with
        | none => rfl
        | some v => simp at h ⊢; exact h
      simp [this]
    · have : MTCase.leN lg (-10) = false := by
        unfold MTCase.gtN StarState.gt at h
        unfold MTCase.leN
        cases lg with
        | none => rfl
        | some v => simp at h ⊢; exact h
      simp [this]
  unfold MTCase.inferCase
  dsimp only
  rw [if_neg (by rw [hb]; simp)]
  split_ifs <;> simp

theorem entry_case {r : MTCase.Row} {c : ℕ} (h : MTCase.mtEntry r = some c) : Case c := by
  unfold MTCase.mtEntry at h
  by_cases h2 : MTCase.rlof2 r = true
  · rw [if_pos h2] at h
    have h := Option.some.inj h
    unfold MTCase.rlof2 at h2
    simp only [Bool.and_eq_true, Bool.or_eq_true] at h2
    have hm := inferCase_mem (some r.rel2) (some r.rate) r.state2 true
    have hn := inferCase_ne r.rel2 r.rate r.state2 h2.1
    rw [← h]
    revert hm hn
    generalize MTCase.inferCase (some r.rel2) (some r.rate) r.state2 true = x
    intro hm hn
    simp only [List.mem_cons, List.not_mem_nil, or_false] at hm
    rcases hm with rfl | rfl | rfl | rfl | rfl | rfl | rfl | rfl
    · exact absurd rfl hn
    all_goals decide
  · rw [if_neg h2] at h
    by_cases h1 : MTCase.rlof1 r = true
    · rw [if_pos h1] at h
      have h := Option.some.inj h
      unfold MTCase.rlof1 at h1
      simp only [Bool.and_eq_true, Bool.or_eq_true] at h1
      have hm := inferCase_mem (some r.rel1) (some r.rate) r.state1 true
      have hn := inferCase_ne r.rel1 r.rate r.state1 h1.1
      rw [← h]
      revert hm hn
      generalize MTCase.inferCase (some r.rel1) (some r.rate) r.state1 true = x
      intro hm hn
      simp only [List.mem_cons, List.not_mem_nil, or_false] at hm
      rcases hm with rfl | rfl | rfl | rfl | rfl | rfl | rfl | rfl
      · exact absurd rfl hn
      all_goals decide
    · rw [if_neg h1] at h; simp at h

/-- The shifted cases: those which the donors had, not decreasing. -/
theorem shifted {l : List ℕ} (h : ∀ c ∈ l, Case c) : (∀ e ∈ MTCase.shift 0 10 l, e ∈ l) ∧
    (own false (MTCase.shift 0 10 l)).Pairwise (· ≤ ·) ∧ (own true (MTCase.shift 0 10 l)).Pairwise (· ≤ ·) := by
  have h19 : ∀ c ∈ l, c ≤ 19 ∧ c ≠ 0 ∧ c ≠ 10 := by
    intro c hc
    have := h c hc
    simp only [Case, List.mem_cons, List.not_mem_nil, or_false] at this
    omega
  obtain ⟨i1, i2, i3, i4⟩ := shift_mono l 0 10 (fun c hc => (h19 c hc).1) (by omega) (by omega) (by omega)
  refine ⟨fun e he => ?_, i3, i4⟩
  by_cases h9 : 9 < e
  · have hm : e ∈ own true (MTCase.shift 0 10 l) := List.mem_filter.2 ⟨he, by simp [h9]⟩
    rcases (i2 e hm).2.2 with ⟨-, c, hc, h1, h2⟩ | hh
    · have := h19 c hc; omega
    · exact hh
  · have hm : e ∈ own false (MTCase.shift 0 10 l) := List.mem_filter.2 ⟨he, by simp [h9]⟩
    rcases (i1 e hm).2.2 with ⟨-, c, hc, h1⟩ | hh
    · have := h19 c hc; omega
    · exact hh

/-- The list of cases without repetitions behind a flag. -/
def steps (l : List ℕ) : List ℕ :=
  match l.filter (· ≠ 9) with
  | [] => []
  | c :: cs => c :: MTCase.dropRep c cs

/-- A flag without steps lacking mass transfer: an optional question mark and the steps. -/
theorem flag_text {l : List ℕ} (h0 : 0 ∉ l) (hne : l ≠ []) (h9 : l.filter (· ≠ 9) ≠ []) :
    (MTCase.numeric l).map MTCase.render = some ((if 9 ∈ l then ['?'] else []) ++ text (steps l)) := by
  unfold MTCase.numeric
  rw [if_neg (by simpa using hne)]
  have hz : ∀ m : List ℕ, (∀ x ∈ m, x ∈ l) → 0 ∉ m := fun m hm h => h0 (hm 0 h)
  cases hf : l.filter (· ≠ 9) with
  | nil => exact absurd hf h9
  | cons c cs =>
    by_cases hm : 9 ∈ l
    · simp only [hm, if_true, true_and, hf]
      have hz0 : 0 ∉ c :: cs := hz _ fun x hx => by
        have : x ∈ l.filter (· ≠ 9) := hf ▸ hx
        exact (List.mem_filter.1 this).1
      rw [if_neg (by simp), if_neg (by tauto)]
      simp only [hz0, if_false, Option.map_some, Option.some.injEq]
      unfold steps
      rw [hf]
      simp [MTCase.render, MTCase.renderLoop, text]
    · have hl : l = c :: cs := by rw [← hf]; exact (MTCase.filter_id_of_not_mem l 9 hm).symm
      have h9' : 9 ∉ c :: cs := hl ▸ hm
      have h0' : 0 ∉ c :: cs := hl ▸ h0
      rw [hl]
      simp only [h9', h0', if_false, false_and, Option.map_some, Option.some.injEq]
      unfold steps
      rw [MTCase.filter_id_of_not_mem _ 9 h9']
      simp [MTCase.render, text]

theorem steps_facts (l : List ℕ) : (steps l).Sublist l ∧ (steps l).IsChain (· ≠ ·) ∧ 9 ∉ steps l ∧ (l.filter (· ≠ 9) ≠ [] → steps l ≠ []) ∧
    ∀ x ∈ l, x ≠ 9 → x ∈ steps l := by
  have hx : ∀ (p : ℕ) (m : List ℕ), ∀ x ∈ m, x = p ∨ x ∈ MTCase.dropRep p m := by
    intro p m
    induction m generalizing p with
    | nil => simp
    | cons c cs ih =>
      intro x hx
      unfold MTCase.dropRep
      by_cases hc : c = p
      · subst hc
        rw [if_neg (by simp)]
        rcases List.mem_cons.1 hx with e | e
        · exact Or.inl e
        · exact ih c x e
      · rw [if_pos hc]
        rcases List.mem_cons.1 hx with e | e
        · right; simp [e]
        · rcases ih c x e with e' | e'
          · right; simp [e']
          · right; simp [e']
  unfold steps
  cases hf : l.filter (· ≠ 9) with
  | nil =>
    refine ⟨List.nil_sublist _, by simp, by simp, by simp, fun x hx h9 => ?_⟩
    have : x ∈ l.filter (· ≠ 9) := List.mem_filter.2 ⟨hx, by simpa using h9⟩
    rw [hf] at this; exact this
  | cons c cs =>
    have hs : (c :: MTCase.dropRep c cs).Sublist (c :: cs) := (dropRep_sublist c cs).cons_cons c
    have hsl : (c :: cs).Sublist l := hf ▸ List.filter_sublist
    refine ⟨hs.trans hsl, (MTCase.expands_dropRep c cs).2, fun h => ?_, by simp, fun x hxl h9 => ?_⟩
    · have : 9 ∈ l.filter (· ≠ 9) := hf ▸ hs.subset h
      simp at this
    · have : x ∈ l.filter (· ≠ 9) := List.mem_filter.2 ⟨hxl, by simpa using h9⟩
      rw [hf] at this
      rcases List.mem_cons.1 this with e | e
      · simp [e]
      · rcases hx c cs x e with e' | e'
        · simp [e']
        · simp [e']

end Verif.MTLabel
