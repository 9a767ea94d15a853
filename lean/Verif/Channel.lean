import Verif.Chars
import Mathlib.Data.List.Basic
import Mathlib.Data.List.Infix
import Mathlib.Tactic.Common
/-!
Model of formation channels: `/repo/posydon/popsyn/synthetic_population.py`, `Population.calculate_formation_channels` (l.1407-1545) and
`_write_formation_channels` (l.1547-1570), for one binary.  (How the tables are cut in chunks is modelled in `Chunk.lean`.)

Simplifications: strings are lists of characters; a missing value is `none`.
-/
namespace Verif.Channel

/-- `str.replace(pat, rep)` for a non-empty `pat`: leftmost matches, not overlapping; `k` characters of a match are still to be skipped. -/
def repl (pat rep : List Char) : ℕ → List Char → List Char
  | _, [] => []
  | k + 1, _ :: s => repl pat rep k s
  | 0, c :: s => if pat.isPrefixOf (c :: s) then rep ++ repl pat rep (pat.length - 1) s else c :: repl pat rep 0 s

/-- `"_".join(words)`. -/
def join : List (List Char) → List Char
  | [] => []
  | t :: ts => t ++ ts.flatMap fun w => '_' :: w

inductive Err | key | value
  deriving DecidableEq, Repr

/-- `HMS_HMS_event_dict`, l.1429-1435. -/
def classDict : List (String × String) :=
  [("initial_MT", "initial_MT"), ("stable_MT", "oRLO1"), ("stable_reverse_MT", "oRLO1-reverse"), ("no_MT", "None"),
    ("unstable_MT", "oCE1/oDoubleCE1")]

/-- l.1495-1501: the interpolation class, if there is one, is looked up. -/
def classOf : Option String → Except Err (Option String)
  | none => .ok none
  | some c =>
    match classDict.lookup c with
    | some v => .ok (some v)
    | none => .error .key

/-- `get_events`, l.1446-1457, on the words of the channel: the class is put after the first event. -/
def words (cls : Option String) (evs : List String) : List String :=
  if cls = some "oRLO1" ∨ cls = some "oRLO1-reverse" then
    match evs with
    | [] => []
    | e :: es => e :: cls.getD "" :: es
  else evs

/-- The words that are removed, l.1515-1519, in this order. -/
def removed : List String :=
  ["redirect_from_ZAMS", "redirect_from_CO_HMS_RLO", "redirect_from_CO_HeMS_RLO", "redirect_from_CO_HeMS", "CO_contact"]

/-- `channel_debug`. -/
def debug (cls : Option String) (evs : List String) : List Char := join ((words cls evs).map String.toList)

/-- l.1513-1520. -/
def clean (s : List Char) : List Char := removed.foldl (fun s w => repl ('_' :: w.toList) [] 0 s) s

/-- `get_mt_history`, l.1459-1473. -/
def withMt (mt : Option String) (s : List Char) : List Char :=
  if mt = some "Stable contact phase" then repl (chars! "oRLO1") (chars! "oRLO1-contact") 0 s else s

/-- The stored `channel` of one binary: `mtHistory` is the option, `hasMt` whether the column exists, `evs` the events of the history, missing ones dropped.
A binary without events has no channel. -/
def channel (mtHistory hasMt : Bool) (cls mt : Option String) (evs : List (Option String)) : Except Err (Option (List Char)) :=
  match classOf cls with
  | .error e => .error e
  | .ok c =>
    if mtHistory && !hasMt then .error .value
    else
      let es := evs.filterMap id
      if es = [] then .ok none
      else
        let s := clean (debug c es)
        .ok (some ((if mtHistory then withMt mt s else s).take 100))

/-! ### Specification -/

/-- The events of a simulation (`BINARY_EVENTS_ALL` of `/repo/posydon/binary_evol/flow_chart.py` l.150-173 without `None`, and `END`), and the classes. -/
def alphabet : List String :=
  ["CC1", "CC2", "ZAMS", "oRLO1", "oRLO2", "oCE1", "oCE2", "oDoubleCE1", "oDoubleCE2", "CO_contact", "redirect_from_ZAMS",
    "redirect_from_CO_HMS_RLO", "redirect_from_CO_HeMS", "redirect_from_CO_HeMS_RLO", "MaxTime_exceeded", "maxtime",
    "oMerging1", "oMerging2", "Match1", "Match2", "Match12", "END", "FAILED", "oRLO1-reverse"]

/-- The first event, then the events that are not redirections or contacts. -/
def kept : List String → List String
  | [] => []
  | e :: es => e :: es.filter (· ∉ removed)

/-! ### Lemmas on replacement -/

/-- Neither is a prefix of the other. -/
def Apart (v w : List Char) : Prop := ¬ w <+: v ∧ ¬ v <+: w

instance (v w : List Char) : Decidable (Apart v w) := inferInstanceAs (Decidable (_ ∧ _))

theorem Apart.append {v w : List Char} (h : Apart v w) (r : List Char) : ¬ w <+: v ++ r := by
  intro hp
  rcases List.prefix_or_prefix_of_prefix hp (List.prefix_append v r) with h' | h'
  · exact h.1 h'
  · exact h.2 h'

/-- No occurrence of `_w` can start inside `t`, whatever follows. -/
def NoStart (w : List Char) : List Char → Bool
  | [] => true
  | c :: t => (decide (c ≠ '_') || decide (Apart t w)) && NoStart w t

theorem repl_word (w t r : List Char) (h : NoStart w t = true) : repl ('_' :: w) [] 0 (t ++ r) = t ++ repl ('_' :: w) [] 0 r := by
  induction t with
  | nil => rfl
  | cons c t ih =>
    rw [NoStart, Bool.and_eq_true, Bool.or_eq_true] at h
    rw [List.cons_append, repl, if_neg, ih h.2, List.cons_append]
    intro hp
    rw [List.isPrefixOf_iff_prefix, List.cons_prefix_cons] at hp
    rcases h.1 with h1 | h1
    · exact (by simpa using h1 : c ≠ '_') hp.1.symm
    · exact (by simpa using h1 : Apart t w).append r hp.2

theorem repl_skip (p q u r : List Char) : repl p q u.length (u ++ r) = repl p q 0 r := by
  induction u with
  | nil => rfl
  | cons c u ih => exact ih

/-- No occurrence of `w` other than the word `w` itself can start with `t` when words of `T` follow. -/
def NoMatch (T : List (List Char)) (w t : List Char) : Prop :=
  t = w ∨ Apart t w ∨ ∃ c x, w = t ++ c :: x ∧ (c ≠ '_' ∨ ∀ t' ∈ T, Apart t' x)

theorem NoMatch.not_prefix {T : List (List Char)} {w t : List Char} (h : NoMatch T w t) (hne : t ≠ w) (ts : List (List Char)) (hts : ∀ t ∈ ts, t ∈ T) :
    ¬ w <+: t ++ ts.flatMap fun t => '_' :: t := by
  rcases h with h | h | ⟨c, x, rfl, h⟩
  · exact absurd h hne
  · exact h.append _
  · intro hp
    rw [List.prefix_append_right_inj] at hp
    cases ts with
    | nil => simp at hp
    | cons t' ts =>
      rw [List.flatMap_cons, List.cons_append, List.cons_prefix_cons] at hp
      rcases h with h | h
      · exact h hp.1
      · exact (h t' (hts t' List.mem_cons_self)).append _ hp.2

theorem repl_tail (T : List (List Char)) (w : List Char) (ts : List (List Char)) (hT : ∀ t ∈ ts, t ∈ T) (h : ∀ t ∈ T, NoStart w t = true ∧ NoMatch T w t) :
    repl ('_' :: w) [] 0 (ts.flatMap fun t => '_' :: t) = (ts.filter (· ≠ w)).flatMap fun t => '_' :: t := by
  induction ts with
  | nil => rfl
  | cons t ts ih =>
    have hih := ih fun t ht => hT t (List.mem_cons_of_mem _ ht)
    obtain ⟨h1, h2⟩ := h t (hT t List.mem_cons_self)
    rw [List.flatMap_cons, List.cons_append, repl]
    by_cases ht : t = w
    · subst ht
      rw [if_pos (by rw [List.isPrefixOf_iff_prefix]; exact ⟨_, rfl⟩), List.nil_append]
      rw [show ('_' :: t).length - 1 = t.length by simp, repl_skip, hih, List.filter_cons_of_neg (by simp)]
    · rw [if_neg, repl_word w t _ h1, hih, List.filter_cons_of_pos (by simpa using ht)]
      · rfl
      · intro hp
        rw [List.isPrefixOf_iff_prefix, List.cons_prefix_cons] at hp
        exact h2.not_prefix ht ts (fun t ht => hT t (List.mem_cons_of_mem _ ht)) hp.2

/-- Deleting `_w` from joined words deletes the words `w` after the first. -/
theorem repl_join (T : List (List Char)) (w t : List Char) (ts : List (List Char)) (h0 : NoStart w t = true)
    (hT : ∀ t ∈ ts, t ∈ T) (h : ∀ t ∈ T, NoStart w t = true ∧ NoMatch T w t) :
    repl ('_' :: w) [] 0 (join (t :: ts)) = join (t :: ts.filter (· ≠ w)) := by
  unfold join
  rw [repl_word w t _ h0, repl_tail T w ts hT h]

/-- Joined words can be told apart if no word followed by `_` begins another one. -/
theorem join_injective (T : List (List Char)) (hT : ∀ t ∈ T, ∀ t' ∈ T, ¬ (t ++ ['_']) <+: t') (a b : List (List Char))
    (ha : ∀ t ∈ a, t ∈ T) (hb : ∀ t ∈ b, t ∈ T) (hne : a ≠ []) (hne' : b ≠ []) (h : join a = join b) : a = b := by
  have step : ∀ (t t' : List Char) (ra rb : List (List Char)), t ∈ T → t' ∈ T →
      t ++ (ra.flatMap fun w => '_' :: w) = t' ++ (rb.flatMap fun w => '_' :: w) → t <+: t' → t = t' := by
    intro t t' ra rb ht ht' he hp
    obtain ⟨u, rfl⟩ := hp
    cases u with
    | nil => simp
    | cons c u =>
      exfalso
      rw [List.append_assoc, List.append_cancel_left_eq] at he
      cases ra with
      | nil => simp at he
      | cons w ra =>
        rw [List.flatMap_cons, List.cons_append, List.cons_append] at he
        have hc : '_' = c := (List.cons.inj he).1
        subst hc
        exact hT t ht _ ht' ⟨u, by simp⟩
  induction a generalizing b with
  | nil => exact absurd rfl hne
  | cons t ra ih =>
    cases b with
    | nil => exact absurd rfl hne'
    | cons t' rb =>
      have ht := ha t List.mem_cons_self
      have ht' := hb t' List.mem_cons_self
      unfold join at h
      have htt : t = t' := by
        have hp1 : t <+: t' ++ (rb.flatMap fun w => '_' :: w) := ⟨_, h⟩
        rcases List.prefix_or_prefix_of_prefix hp1 (List.prefix_append t' _) with h' | h'
        · exact step t t' ra rb ht ht' h h'
        · exact (step t' t rb ra ht' ht h.symm h').symm
      subst htt
      rw [List.append_cancel_left_eq] at h
      congr 1
      cases ra with
      | nil =>
        cases rb with
        | nil => rfl
        | cons w rb => simp at h
      | cons w ra =>
        cases rb with
        | nil => simp at h
        | cons w' rb =>
          apply ih (w' :: rb) (fun t ht => ha t (List.mem_cons_of_mem _ ht)) (fun t ht => hb t (List.mem_cons_of_mem _ ht)) (by simp) (by simp)
          rw [List.flatMap_cons, List.flatMap_cons, List.cons_append, List.cons_append] at h
          exact (List.cons.inj h).2

end Verif.Channel
