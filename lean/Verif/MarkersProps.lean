import Verif.Markers
import Verif.GridJoinProps

/-!
# C140: symbols of histories of mass transfer

Every history of mass transfer gets a symbol; marker and colour tell the donors and the first case, the text is the history itself.
-/

namespace Verif.Markers

open Verif.Frame (isIn)
open Verif.GridJoin (isIn_cons isIn_val isIn_here isIn_before)

/-! ### Texts of histories -/

theorem case_chars (c : Case) (x : Char) (h : x = '1' ∨ x = '2' ∨ x = '/' ∨ x = 'c' ∨ x = ' ') : x ∉ c.txt := by
  rcases h with rfl | rfl | rfl | rfl | rfl <;> cases c <;> decide

/-- The texts are those of the history of a run. -/
theorem C140_history (p : Phase) (ps : List Phase) (h : ∀ q ∈ p :: ps, q.second = false → q.case ≠ .undetermined ∧ q.case ≠ .noRLO) :
    MTCase.render ((p :: ps).map Phase.code) = flag false p ps ∧
    MTCase.render (9 :: (p :: ps).map Phase.code) = flag true p ps := by
  have hl : ∀ q : Phase, (q.second = false → q.case ≠ .undetermined ∧ q.case ≠ .noRLO) →
      MTCase.label q.code = some q.txt ∧ q.code ≠ 9 ∧ q.code ≠ 0 := by
    intro q hq
    obtain ⟨c, s⟩ := q
    revert hq
    cases c <;> cases s <;> decide
  have hr : ∀ ps : List Phase, (∀ q ∈ ps, q.second = false → q.case ≠ .undetermined ∧ q.case ≠ .noRLO) →
      MTCase.renderLoop true (ps.map Phase.code) = rest ps := by
    intro ps
    induction ps with
    | nil => intro _; rfl
    | cons q ps ih =>
      intro hq
      obtain ⟨h1, h2, h3⟩ := hl q (hq q List.mem_cons_self)
      rw [List.map_cons, MTCase.renderLoop, if_neg h2, if_neg h3, h1]
      dsimp only
      rw [ih fun r hr => hq r (List.mem_cons_of_mem _ hr)]
      simp [rest]
  obtain ⟨h1, h2, h3⟩ := hl p (h p List.mem_cons_self)
  have hf : MTCase.renderLoop false ((p :: ps).map Phase.code) = flag false p ps := by
    rw [List.map_cons, MTCase.renderLoop, if_neg h2, if_neg h3, h1]
    dsimp only
    rw [hr ps fun r hr => h r (List.mem_cons_of_mem _ hr)]
    simp [flag]
  constructor
  · rw [MTCase.render, if_neg (by simp)]
    exact hf
  · rw [MTCase.render, if_neg (by simp), MTCase.renderLoop, if_pos rfl, hf]
    rfl

theorem rest_mem (x : Char) (hx : x = '1' ∨ x = '2') (ps : List Phase) : x ∈ rest ps ↔ ∃ q ∈ ps, digit q.second = x := by
  induction ps with
  | nil => simp [rest]
  | cons q ps ih =>
    have h1 : x ∉ q.case.txt := case_chars _ _ (by tauto)
    have h2 : x ≠ '/' := by rcases hx with rfl | rfl <;> decide
    simp only [rest, List.mem_cons, List.mem_append, Phase.txt, h1, h2, false_or, List.not_mem_nil, or_false, ih, exists_eq_or_imp]
    constructor <;> rintro (h | h) <;> [exact .inl h.symm; exact .inr h; exact .inl h.symm; exact .inr h]

theorem flag_mem (x : Char) (hx : x = '1' ∨ x = '2') (u : Bool) (p : Phase) (ps : List Phase) :
    x ∈ flag u p ps ↔ ∃ q ∈ p :: ps, digit q.second = x := by
  have h1 : x ∉ p.case.txt := case_chars _ _ (by tauto)
  have h2 : x ∉ (if u then ['?'] else []) := by cases u <;> rcases hx with rfl | rfl <;> decide
  have h3 : x ∉ (chars! "case_") := by rcases hx with rfl | rfl <;> decide
  rw [flag, List.mem_append, List.mem_append, List.mem_append, rest_mem x hx]
  simp only [h2, h3, false_or, Phase.txt, List.mem_append, h1, List.mem_cons, List.not_mem_nil, or_false, exists_eq_or_imp]
  constructor <;> rintro (h | h) <;> [exact .inl h.symm; exact .inr h; exact .inl h.symm; exact .inr h]

theorem last_spec : ∀ (ps : List Phase) (p : Phase) (pre : Txt), (pre ++ (p.txt ++ rest ps)).getLast? = some (digit (lastSecond p ps)) := by
  intro ps
  induction ps with
  | nil => intro p pre; simp [rest, Phase.txt, lastSecond]
  | cons q ps ih =>
    intro p pre
    have := ih q (pre ++ (p.txt ++ ['/']))
    rw [show pre ++ (p.txt ++ rest (q :: ps)) = (pre ++ (p.txt ++ ['/'])) ++ (q.txt ++ rest ps) by simp [rest], this]
    simp [lastSecond]

theorem slash (u : Bool) (p : Phase) (ps : List Phase) : '/' ∈ flag u p ps ↔ ps ≠ [] := by
  have h1 : '/' ∉ p.case.txt := case_chars _ _ (by tauto)
  have h2 : '/' ∉ (if u then ['?'] else []) := by cases u <;> decide
  have h3 : '/' ∉ (chars! "case_") := by decide
  have h4 : '/' ≠ digit p.second := by cases p.second <;> decide
  rw [flag, List.mem_append, List.mem_append, List.mem_append]
  simp only [h2, h3, false_or, Phase.txt, List.mem_append, h1, List.mem_singleton, h4]
  cases ps <;> simp [rest]

/-! ### Markers -/

/-- A circle if only the second star is a donor, a square if only the first is. -/
theorem C140_one_donor (u : Bool) (p : Phase) (ps : List Phase) (b : Bool) (h : ∀ q ∈ p :: ps, q.second = b) :
    marker (flag u p ps) = if b then 'o' else 's' := by
  cases b with
  | true =>
    have h1 : '1' ∉ flag u p ps := by
      rw [flag_mem _ (.inl rfl)]
      rintro ⟨q, hq, hd⟩
      rw [h q hq] at hd
      exact absurd hd (by decide)
    rw [marker, if_pos h1]
    rfl
  | false =>
    have h1 : '1' ∈ flag u p ps := (flag_mem _ (.inl rfl) ..).2 ⟨p, List.mem_cons_self, by rw [h p List.mem_cons_self]; rfl⟩
    have h2 : '2' ∉ flag u p ps := by
      rw [flag_mem _ (.inr rfl)]
      rintro ⟨q, hq, hd⟩
      rw [h q hq] at hd
      exact absurd hd (by decide)
    rw [marker, if_neg (not_not.2 h1), if_pos h2]
    rfl

/-- If both are, a triangle tells which was the last. -/
theorem C140_two_donors (u : Bool) (p : Phase) (ps : List Phase) (h1 : ∃ q ∈ p :: ps, q.second = false) (h2 : ∃ q ∈ p :: ps, q.second = true) :
    marker (flag u p ps) = if lastSecond p ps then '<' else '>' := by
  obtain ⟨q, hq, e⟩ := h1
  obtain ⟨r, hr, e'⟩ := h2
  have m1 : '1' ∈ flag u p ps := (flag_mem _ (.inl rfl) ..).2 ⟨q, hq, by rw [e]; rfl⟩
  have m2 : '2' ∈ flag u p ps := (flag_mem _ (.inr rfl) ..).2 ⟨r, hr, by rw [e']; rfl⟩
  have hl : (flag u p ps).getLast? = some (digit (lastSecond p ps)) := by
    have := last_spec ps p ((if u then ['?'] else []) ++ (chars! "case_"))
    rw [List.append_assoc] at this
    exact this
  rw [marker, if_neg (not_not.2 m1), if_neg (not_not.2 m2), hl]
  cases lastSecond p ps <;> decide

/-- The marker therefore tells whether both stars were donors. -/
theorem C140_marker_iff (u : Bool) (p : Phase) (ps : List Phase) :
    (marker (flag u p ps) = 's' ↔ ∀ q ∈ p :: ps, q.second = false) ∧ (marker (flag u p ps) = 'o' ↔ ∀ q ∈ p :: ps, q.second = true) ∧
    (marker (flag u p ps) = '>' ↔ (∃ q ∈ p :: ps, q.second = true) ∧ lastSecond p ps = false) ∧
    (marker (flag u p ps) = '<' ↔ (∃ q ∈ p :: ps, q.second = false) ∧ lastSecond p ps = true) := by
  have hlast : ∃ q ∈ p :: ps, q.second = lastSecond p ps := ⟨_, List.getLast_mem _, rfl⟩
  by_cases a : ∀ q ∈ p :: ps, q.second = false
  · have hm := C140_one_donor u p ps false a
    rw [hm]
    obtain ⟨q, hq, e⟩ := hlast
    rw [a q hq] at e
    have hp := a p List.mem_cons_self
    refine ⟨⟨fun _ => a, fun _ => rfl⟩, ⟨fun h => absurd h (by decide), fun h => ?_⟩, ⟨fun h => absurd h (by decide), ?_⟩, ⟨fun h => absurd h (by decide), ?_⟩⟩
    · rw [h p List.mem_cons_self] at hp; cases hp
    · rintro ⟨⟨r, hr, e'⟩, _⟩
      rw [a r hr] at e'; cases e'
    · rintro ⟨_, e'⟩
      rw [← e] at e'; cases e'
  · by_cases b : ∀ q ∈ p :: ps, q.second = true
    · have hm := C140_one_donor u p ps true b
      rw [hm]
      obtain ⟨q, hq, e⟩ := hlast
      rw [b q hq] at e
      refine ⟨⟨fun h => absurd h (by decide), fun h => absurd h a⟩, ⟨fun _ => b, fun _ => rfl⟩, ⟨fun h => absurd h (by decide), ?_⟩, ⟨fun h => absurd h (by decide), ?_⟩⟩
      · rintro ⟨_, e'⟩
        rw [← e] at e'; cases e'
      · rintro ⟨⟨r, hr, e'⟩, _⟩
        rw [b r hr] at e'; cases e'
    · have a' : ∃ q ∈ p :: ps, q.second = true := by
        by_contra hc
        exact a fun q hq => by
          cases hs : q.second with
          | false => rfl
          | true => exact absurd ⟨q, hq, hs⟩ hc
      have b' : ∃ q ∈ p :: ps, q.second = false := by
        by_contra hc
        exact b fun q hq => by
          cases hs : q.second with
          | true => rfl
          | false => exact absurd ⟨q, hq, hs⟩ hc
      rw [C140_two_donors u p ps b' a']
      cases lastSecond p ps with
      | true => exact ⟨⟨fun h => absurd h (by decide), fun h => absurd h a⟩, ⟨fun h => absurd h (by decide), fun h => absurd h b⟩,
          ⟨fun h => absurd h (by decide), fun h => by cases h.2⟩, ⟨fun _ => ⟨b', rfl⟩, fun _ => rfl⟩⟩
      | false => exact ⟨⟨fun h => absurd h (by decide), fun h => absurd h a⟩, ⟨fun h => absurd h (by decide), fun h => absurd h b⟩,
          ⟨fun _ => ⟨a', rfl⟩, fun _ => rfl⟩, ⟨fun h => absurd h (by decide), fun h => by cases h.2⟩⟩

/-! ### Colours -/

theorem rest_chars (x : Char) (h : x = 'c' ∨ x = ' ') (ps : List Phase) : x ∉ rest ps := by
  induction ps with
  | nil => simp [rest]
  | cons q ps ih =>
    have h1 : x ∉ q.case.txt := case_chars _ _ (by tauto)
    have h2 : x ≠ '/' := by rcases h with rfl | rfl <;> decide
    have h3 : x ≠ digit q.second := by rcases h with rfl | rfl <;> cases q.second <;> decide
    simp [rest, Phase.txt, h1, h2, h3, ih]

theorem case_in (w : Txt) (u : Bool) (p : Phase) (ps : List Phase) :
    isIn ((chars! "case_") ++ w) (flag u p ps) = w.isPrefixOf (p.txt ++ rest ps) := by
  have hn : ∀ (v : Txt) (s : Txt), 'c' ∉ s → isIn ('c' :: v) s = false := by
    intro v s hs
    have := isIn_val 'c' v s [] hs
    rw [List.append_nil] at this
    rw [this]
    rfl
  have h1 : 'c' ∉ p.txt ++ rest ps := by
    have h1 : 'c' ∉ p.case.txt := case_chars _ _ (by tauto)
    have h3 : 'c' ≠ digit p.second := by cases p.second <;> decide
    simp [Phase.txt, h1, h3, rest_chars 'c' (.inl rfl) ps]
  have h2 : 'c' ∉ (if u then ['?'] else []) := by cases u <;> decide
  rw [flag]
  change isIn ('c' :: ((chars! "ase_") ++ w)) _ = _
  rw [isIn_val 'c' _ _ _ h2]
  change isIn ('c' :: ((chars! "ase_") ++ w)) ('c' :: ((chars! "ase_") ++ (p.txt ++ rest ps))) = _
  rw [isIn_cons, hn _ _ (by simpa using h1), Bool.or_false]
  simp [List.isPrefixOf]

/-- Several phases: the colour tells the first case. -/
theorem C140_first_case (u : Bool) (p : Phase) (ps : List Phase) (h : ps ≠ []) :
    colour (flag u p ps) = match p.case with
      | .A | .BA => (chars! "tab:cyan")
      | .C | .BC => (chars! "tab:orange")
      | .B | .BB => (chars! "tab:pink")
      | _ => (chars! "lightgrey") := by
  have k1 : isIn (chars! "case_A") (flag u p ps) = List.isPrefixOf ['A'] (p.txt ++ rest ps) := case_in ['A'] u p ps
  have k2 : isIn (chars! "case_BA") (flag u p ps) = List.isPrefixOf ['B', 'A'] (p.txt ++ rest ps) := case_in ['B', 'A'] u p ps
  have k3 : isIn (chars! "case_C") (flag u p ps) = List.isPrefixOf ['C'] (p.txt ++ rest ps) := case_in ['C'] u p ps
  have k4 : isIn (chars! "case_BC") (flag u p ps) = List.isPrefixOf ['B', 'C'] (p.txt ++ rest ps) := case_in ['B', 'C'] u p ps
  have k5 : isIn (chars! "case_B") (flag u p ps) = List.isPrefixOf ['B'] (p.txt ++ rest ps) := case_in ['B'] u p ps
  have k6 : isIn (chars! "case_BB") (flag u p ps) = List.isPrefixOf ['B', 'B'] (p.txt ++ rest ps) := case_in ['B', 'B'] u p ps
  rw [colour, if_pos ((slash u p ps).2 h), k1, k2, k3, k4, k5, k6]
  obtain ⟨c, s⟩ := p
  cases c <;> cases s <;> rfl

/-- One phase: the colour tells the case. -/
theorem C140_single_case (u : Bool) (p : Phase) :
    colour (flag u p []) = match p.case with
      | .A => (chars! "tab:blue") | .B => (chars! "tab:green") | .C => (chars! "tab:purple")
      | .BA => (chars! "tab:red") | .BB => (chars! "brown") | .BC => (chars! "tab:gray") | _ => (chars! "black") := by
  obtain ⟨c, s⟩ := p
  cases u <;> cases c <;> cases s <;> decide +kernel

/-! ### Entries -/

/-- A history of mass transfer that is not in the table gets its marker, its colour and its text. -/
theorem C140_entry (u : Bool) (p : Phase) (ps : List Phase) :
    entry (flag u p ps) = ⟨marker (flag u p ps), 2, colour (flag u p ps), MTLabel.spaced (flag u p ps)⟩ := by
  have : isIn (chars! "case_") (flag u p ps) = true := by
    have := case_in [] u p ps
    rw [List.append_nil] at this
    rw [this]
    rfl
  rw [entry, if_pos this]

/-- Anything else is a small black cross. -/
theorem C140_other (f : Txt) (h : isIn (chars! "case_") f = false) : entry f = ⟨'+', 1, (chars! "black"), MTLabel.spaced f⟩ := by
  rw [entry, h]
  rfl

/-- Flags with different texts are different: the text of the legend tells the history, if no space is in the flags. -/
theorem C140_text (f g : Txt) (hf : ' ' ∉ f) (hg : ' ' ∉ g) (h : (entry f).text = (entry g).text) : f = g := by
  have e : ∀ f, (entry f).text = MTLabel.spaced f := by intro f; unfold entry; split <;> rfl
  rw [e, e] at h
  unfold MTLabel.spaced at h
  induction f generalizing g with
  | nil => cases g with
    | nil => rfl
    | cons d g => simp at h
  | cons c f ih =>
    cases g with
    | nil => simp at h
    | cons d g =>
      simp only [List.map_cons, List.cons.injEq] at h
      simp only [List.mem_cons, not_or] at hf hg
      obtain ⟨h1, h2⟩ := h
      rw [ih g hf.2 hg.2 h2]
      congr 1
      split at h1 <;> split at h1
      · next a b => rw [a, b]
      · exact absurd h1 hg.1
      · exact absurd h1.symm hf.1
      · exact h1

/-- Flags of histories have no spaces. -/
theorem C140_no_space (u : Bool) (p : Phase) (ps : List Phase) : ' ' ∉ flag u p ps := by
  have h1 : ' ' ∉ p.case.txt := case_chars _ _ (by tauto)
  have h3 : ' ' ≠ digit p.second := by cases p.second <;> decide
  have h2 : ' ' ∉ (if u then ['?'] else []) := by cases u <;> decide
  have h4 : ' ' ∉ (chars! "case_") := by decide
  rw [flag, List.mem_append, List.mem_append, List.mem_append]
  simp [h2, h4, Phase.txt, h1, h3, rest_chars ' ' (.inr rfl) ps]

/-! ### The dictionary -/

theorem get_append (d : Dict) (k k' : Txt) (e : Entry) : get (d ++ [(k', e)]) k = if k' = k then some e else get d k := by
  unfold get
  rw [List.reverse_append]
  simp only [List.reverse_cons, List.reverse_nil, List.nil_append, List.singleton_append, List.find?_cons]
  by_cases h : k' = k
  · simp [h]
  · simp [h]

/-- After adding, the flag has an entry: the one of the table or the one made. -/
theorem C140_added (d : Dict) (f : Txt) : get (add d f) f = some ((get d f).getD (entry f)) := by
  unfold add
  cases h : get d f with
  | some e => exact h
  | none => dsimp only; rw [get_append, if_pos rfl]; rfl

/-- All other entries stay. -/
theorem C140_kept (d : Dict) (f g : Txt) (h : g ≠ f) : get (add d f) g = get d g := by
  unfold add
  cases get d f with
  | some e => rfl
  | none => dsimp only; rw [get_append, if_neg (Ne.symm h)]

/-- All flags of a grid have an entry after all were added, and it does not depend on the order. -/
theorem C140_all (fs : List Txt) (d : Dict) (g : Txt) : get (fs.foldl add d) g = if g ∈ fs then some ((get d g).getD (entry g)) else get d g := by
  induction fs generalizing d with
  | nil => rfl
  | cons f fs ih =>
    rw [List.foldl_cons, ih]
    by_cases hg : g = f
    · subst hg
      rw [C140_added]
      simp
    · rw [C140_kept d f g hg]
      simp [hg]

/-! ### The table -/

/-- The markers of the table agree with the rule if one star only is a donor, but for one history. -/
theorem C140_table_markers_partial : ∀ k ∈ table.map (·.1), k ≠ (chars! "case_A1/B1/BB1") → isIn (chars! "case_") k = true → ('1' ∉ k ∨ '2' ∉ k) →
    (get table k).map (·.marker) = some (marker k) := by decide +kernel

/-- That history, with the first star as the only donor, is written twice in the table: it has the marker of two donors. -/
theorem C140_table_twice_violated : (get table (chars! "case_A1/B1/BB1")).map (·.marker) = some '>' ∧
    flag false ⟨.A, false⟩ [⟨.B, false⟩, ⟨.BB, false⟩] = (chars! "case_A1/B1/BB1") ∧
    (table.filter fun p => p.1 = (chars! "case_A1/B1/BB1")).map (·.2.marker) = ['s', '>'] := by decide +kernel

/-- With two donors the marker of the table does not tell the last donor. -/
theorem C140_table_last_violated : (get table (chars! "case_A1/A2")).map (·.marker) = some '>' ∧ (get table (chars! "case_A1/A2/A1")).map (·.marker) = some '>' ∧
    (get table (chars! "case_B1/B2")).map (·.marker) = some '<' ∧ (get table (chars! "case_B1/B2/B1")).map (·.marker) = some '<' := by decide +kernel

/-- The texts of the table are the histories but for four. -/
theorem C140_table_text_partial : ∀ k ∈ table.map (·.1), isIn (chars! "case_") k = true →
    k ∉ [(chars! "case_BA2/BB2"), (chars! "case_A1/B1/A2"), (chars! "case_A1/B2"), (chars! "case_B1/C2")] →
    (get table k).map (·.text) = some (MTLabel.spaced k) := by decide +kernel

/-- These four have the texts of other histories. -/
theorem C140_table_text_violated : (get table (chars! "case_BA2/BB2")).map (·.text) = some (chars! "case BA1/BB2") ∧
    (get table (chars! "case_A1/B1/A2")).map (·.text) = (get table (chars! "case_A1/B1/B2")).map (·.text) ∧
    (get table (chars! "case_A1/B2")).map (·.text) = (get table (chars! "case_A1/B1/C1/BB1")).map (·.text) ∧
    (get table (chars! "case_B1/C2")).map (·.text) = (get table (chars! "case_B1/C1")).map (·.text) := by decide +kernel

/-- The colours of the table do not follow the rule: case B alone is purple in the table, which is the colour of case C made by the rule. -/
theorem C140_table_colour_violated : (get table (chars! "case_B1")).map (·.colour) = some (entry (flag true ⟨.C, false⟩ [])).colour := by decide +kernel

/-- Histories not in the table may share the symbol. -/
theorem C140_same_symbol_violated : ∃ p ps qs, flag false p ps ≠ flag false p qs ∧ get table (flag false p ps) = none ∧ get table (flag false p qs) = none ∧
    marker (flag false p ps) = marker (flag false p qs) ∧ colour (flag false p ps) = colour (flag false p qs) :=
  ⟨⟨.A, false⟩, [⟨.BA, false⟩], [⟨.BB, false⟩], by decide +kernel⟩

/-! ### Examples -/

example : flag true ⟨.A, false⟩ [⟨.B, true⟩] = (chars! "?case_A1/B2") ∧
    get (add table (chars! "?case_A1/B2")) (chars! "?case_A1/B2") = some ⟨'<', 2, (chars! "tab:cyan"), (chars! "?case A1/B2")⟩ := by decide +kernel

example : entry (chars! "no_RLOF_x") = ⟨'+', 1, (chars! "black"), (chars! "no RLOF x")⟩ := by decide +kernel

/-- The four classes without a donor have markers and texts of their own, and the text is the class. -/
theorem C140_table_classes : ∀ k ∈ [(chars! "initial_RLOF"), (chars! "no_RLOF"), (chars! "contact_during_MS"), (chars! "L2_RLOF")],
    (get table k).map (·.text) = some (k.map fun c => if c = '_' then ' ' else c) ∧
    ∀ l ∈ [(chars! "initial_RLOF"), (chars! "no_RLOF"), (chars! "contact_during_MS"), (chars! "L2_RLOF")], k ≠ l →
      (get table k).map (·.marker) ≠ (get table l).map (·.marker) := by decide +kernel

end Verif.Markers
