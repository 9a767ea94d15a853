import Verif.Channel
import Verif.VhDiagram
import Mathlib.Algebra.BigOperators.Group.List.Basic
import Mathlib.Tactic.FieldSimp
import Mathlib.Tactic.Positivity
/-!
Property theorems for C159 (Van den Heuvel diagrams of one binary).
-/
namespace Verif.VhDiagram
open Verif.FlowChart

/-- C159, detailed diagrams: the lines are the rows of the history, in order and each once, without those of the event that ends it. -/
theorem C159_detailed (rows : List Row) :
    (detailed rows).Sublist rows ∧ (∀ r, r ∈ detailed rows ↔ r ∈ rows ∧ r.event ≠ some (chars! "END")) ∧
      ∀ r, r.event ≠ some (chars! "END") → (detailed rows).count r = rows.count r := by
  refine ⟨List.filter_sublist, fun r => ?_, fun r hr => ?_⟩
  · simp [detailed]
  · unfold detailed
    exact List.count_filter (by simpa using hr)

/-- C159, simplified diagrams: the lines show all rows that are not skipped, cut into successive groups, by the first and the last row of each group. -/
theorem C159_simplified (rows : List Row) : Tiles joinSimple (rows.filter keepSimple) (simplified rows) := lines_tiles _ _

theorem keepReduced_ok : ∀ rows : List Row, (∀ r ∈ rows, r.event ≠ none) →
    keepReduced rows = .ok (rows.filter fun r => !(decide (r.event = some (chars! "END")) || Frame.isIn (chars! "redirect") (r.event.getD [])))
  | [], _ => rfl
  | r :: rs, h => by
    have ih := keepReduced_ok rs (fun x hx => h x (List.mem_cons_of_mem _ hx))
    cases he : r.event with
    | none => exact absurd he (h r (by simp))
    | some e =>
      unfold keepReduced skipReduced
      rw [he, ih]
      dsimp only
      rw [List.filter_cons, he]
      have e1 : decide (e = (chars! "END")) = decide (some e = some (chars! "END")) := by
        by_cases hc : e = (chars! "END") <;> simp [hc]
      rw [e1]
      simp only [Option.getD_some]
      by_cases hb : (decide (some e = some (chars! "END")) || Frame.isIn (chars! "redirect") e) = true
      · rw [if_pos hb, if_neg (by rw [hb]; decide)]
      · rw [if_neg hb, if_pos (by rw [Bool.not_eq_true] at hb; rw [hb]; rfl)]

theorem keepReduced_error : ∀ rows : List Row, (∃ r ∈ rows, r.event = none) → keepReduced rows = .error .type
  | [], h => by obtain ⟨r, hr, _⟩ := h; cases hr
  | r :: rs, h => by
    cases he : r.event with
    | none => unfold keepReduced skipReduced; rw [he]
    | some e =>
      have h' : ∃ x ∈ rs, x.event = none := by
        obtain ⟨x, hx, hn⟩ := h
        rcases List.mem_cons.1 hx with rfl | hx
        · rw [he] at hn; cases hn
        · exact ⟨x, hx, hn⟩
      unfold keepReduced skipReduced
      rw [he, keepReduced_error rs h']

/-- C159, reduced diagrams of histories in which every row has an event: as for simplified diagrams, with redirections skipped and detached phases kept apart. -/
theorem C159_reduced_partial (rows : List Row) (h : ∀ r ∈ rows, r.event ≠ none) :
    ∃ ls, reduced rows = .ok ls ∧
      Tiles joinReduced (rows.filter fun r => !(decide (r.event = some (chars! "END")) || Frame.isIn (chars! "redirect") (r.event.getD []))) ls := by
  refine ⟨_, ?_, lines_tiles _ _⟩
  unfold reduced
  rw [keepReduced_ok rows h]

/-- C159 is violated by reduced diagrams: a single row without event, as every phase without one is stored, and there is no diagram at all. -/
theorem C159_reduced_violated (rows : List Row) : reduced rows = .error .type ↔ ∃ r ∈ rows, r.event = none := by
  constructor
  · intro h
    by_contra hc
    push Not at hc
    obtain ⟨ls, hl, _⟩ := C159_reduced_partial rows hc
    rw [hl] at h
    cases h
  · intro h
    unfold reduced
    rw [keepReduced_error rows h]

theorem forall2_head {join : Row → Row → Bool} {gs : List (List Row)} {ls : List Line} (h : List.Forall₂ (Shows join) gs ls) :
    ls.head?.map (·.before) = gs.flatten.head? := by
  cases h with
  | nil => rfl
  | cons h _ =>
    obtain ⟨r, rest, e1, e2, _, _⟩ := h
    simp [e1, e2]

theorem forall2_last {join : Row → Row → Bool} {gs : List (List Row)} {ls : List Line} (h : List.Forall₂ (Shows join) gs ls) :
    ls.getLast?.map (fun l => l.after.getD l.before) = gs.flatten.getLast? := by
  induction h with
  | nil => rfl
  | @cons g l gs ls h hs ih =>
    obtain ⟨r, rest, e1, e2, e3, _⟩ := h
    cases hs with
    | nil =>
      simp only [List.getLast?_singleton, Option.map_some, List.flatten_cons, List.flatten_nil, List.append_nil, e1, e3, e2]
      cases rest using List.reverseRecOn with
      | nil => rfl
      | append_singleton init x => simp [List.getLast?_cons]
    | @cons g' l' gs' ls' h' hs' =>
      obtain ⟨r', rest', e1', _⟩ := h'
      have : (g' :: gs').flatten.getLast? ≠ none := by simp [e1']
      obtain ⟨x, hx⟩ := Option.ne_none_iff_exists'.1 this
      have hfl : (g :: g' :: gs').flatten = g ++ (g' :: gs').flatten := rfl
      rw [List.getLast?_cons_cons, ih, hfl, List.getLast?_append, hx]
      rfl

/-- C159: a simplified diagram begins with the first row that is not skipped, and its last line ends with the last one. -/
theorem C159_ends (rows : List Row) :
    (simplified rows).head?.map (·.before) = (rows.filter keepSimple).head? ∧
    (simplified rows).getLast?.map (fun l => l.after.getD l.before) = (rows.filter keepSimple).getLast? := by
  obtain ⟨gs, f1, f2, _⟩ := C159_simplified rows
  rw [← f1]
  exact ⟨forall2_head f2, forall2_last f2⟩

/-- C159: nothing is invented and the rows shown keep their order; there are at most as many lines as rows. -/
theorem C159_rows_shown (rows : List Row) :
    ((simplified rows).map (·.before)).Sublist rows ∧ (∀ l ∈ simplified rows, l.before ∈ rows ∧ ∀ r ∈ l.after, r ∈ rows) ∧
      (simplified rows).length ≤ rows.length := by
  obtain ⟨gs, f1, f2, _⟩ := C159_simplified rows
  have key : ∀ (gs : List (List Row)) (ls : List Line), List.Forall₂ (Shows joinSimple) gs ls →
      (ls.map (·.before)).Sublist gs.flatten ∧ ∀ l ∈ ls, ∀ r ∈ l.after, r ∈ gs.flatten := by
    intro gs ls h
    induction h with
    | nil => exact ⟨List.Sublist.slnil, by simp⟩
    | @cons g l gs ls h _ ih =>
      obtain ⟨r, rest, e1, e2, e3, _⟩ := h
      refine ⟨?_, ?_⟩
      · rw [List.map_cons, List.flatten_cons, e1, e2, List.cons_append]
        exact (ih.1.trans (List.sublist_append_right _ _)).cons_cons r
      · intro l' hl' x hx
        rw [List.flatten_cons]
        rcases List.mem_cons.1 hl' with rfl | hl'
        · rw [e3] at hx
          rw [e1]
          exact List.mem_append_left _ (List.mem_cons_of_mem _ (List.mem_of_getLast? hx))
        · exact List.mem_append_right _ (ih.2 l' hl' x hx)
  obtain ⟨h1, h2⟩ := key gs _ f2
  rw [f1] at h1 h2
  have hs : ((simplified rows).map (·.before)).Sublist rows := h1.trans List.filter_sublist
  refine ⟨hs, fun l hl => ⟨hs.subset (List.mem_map_of_mem hl), fun r hr => ?_⟩, ?_⟩
  · exact (List.mem_filter.1 (h2 l hl r hr)).1
  · have := hs.length_le
    rwa [List.length_map] at this

/-- C159: successive detached phases are one line, and a combined line of other phases covers less than ten thousand years. -/
theorem C159_lines (rows : List Row) :
    (simplified rows).IsChain (fun a b => ¬ (label a.before = (chars! "detached") ∧ label b.before = (chars! "detached"))) ∧
    ∀ l ∈ simplified rows, ∀ r ∈ l.after,
      (label l.before = (chars! "detached") ∧ label r = (chars! "detached")) ∨
      (|l.before.time - r.time| < 10000 ∧ label l.before ≠ (chars! "detached") ∧ label r ≠ (chars! "detached")) := by
  obtain ⟨gs, _, f2, f3⟩ := C159_simplified rows
  refine ⟨f3.imp ?_, ?_⟩
  · rintro a b h ⟨h1, h2⟩
    simp [joinSimple, h1, h2] at h
  · have key : ∀ (gs : List (List Row)) (ls : List Line), List.Forall₂ (Shows joinSimple) gs ls →
        ∀ l ∈ ls, ∀ r ∈ l.after, joinSimple l.before r = true := by
      intro gs ls h
      induction h with
      | nil => simp
      | @cons g l gs ls h _ ih =>
        obtain ⟨r, rest, e1, e2, e3, e4⟩ := h
        intro l' hl' x hx
        rcases List.mem_cons.1 hl' with rfl | hl'
        · rw [e3] at hx
          rw [e2]
          exact e4 x (List.mem_of_getLast? hx)
        · exact ih l' hl' x hx
    intro l hl r hr
    have hj := key gs _ f2 l hl r hr
    simp only [joinSimple, joinReduced, near, Bool.or_eq_true, Bool.and_eq_true, decide_eq_true_eq] at hj
    rcases hj with ⟨⟨h1, h2⟩, h3⟩ | h
    · exact Or.inr ⟨h1, h2, h3⟩
    · exact Or.inl h

/-- A row of the example: both stars hydrogen rich. -/
def exRow (t : ℚ) (ev : Option Text) (st : Text) (sep : Option ℚ) : Row :=
  ⟨t, ev, st, (chars! "H-rich_Core_H_burning"), (chars! "H-rich_Core_H_burning"), sep⟩

/-- A history: birth, detached evolution in two rows, mass transfer, common envelope and merger within a thousand years, end. -/
def exRows : List Row :=
  [exRow 0 (some (chars! "ZAMS")) (chars! "detached") (some 100), exRow 5000000 none (chars! "detached") (some 110),
   exRow 6000000 none (chars! "detached") (some 120), exRow 7000000 (some (chars! "oRLO1")) (chars! "RLO1") (some 90),
   exRow 7000400 (some (chars! "oCE1")) (chars! "RLO1") (some 80), exRow 7000400 none (chars! "merged") none,
   exRow 7000400 (some (chars! "END")) (chars! "merged") none]

/-- The example in its three forms: six lines, no reduced diagram, three lines. -/
example : (detailed exRows).length = 6 ∧ (reduced exRows).toOption = none ∧
    (simplified exRows).map (fun l => (label l.before, l.after.map label)) =
      [((chars! "ZAMS"), none), ((chars! "detached"), some (chars! "detached")), ((chars! "oRLO1"), some (chars! "merged"))] := by
  decide +kernel

/-- C159 is violated by combined lines: of three or more rows those in between are not shown, here a common envelope. -/
theorem C159_lost_violated :
    (∃ r ∈ exRows, label r = (chars! "oCE1")) ∧ ∀ l ∈ simplified exRows, label l.before ≠ (chars! "oCE1") ∧ l.after.map label ≠ some (chars! "oCE1") := by
  decide +kernel

/-- C159 is violated by redirections: they are meant to be skipped, but no event has exactly that name, so all four are shown in simplified diagrams, and would be skipped in reduced ones. -/
theorem C159_redirect_violated : ∀ e : Ev, ∀ t, evText e = some t → ∀ r : Row, r.event = some t →
    keepSimple r = true ∧ (Frame.isIn (chars! "redirect") t = true ↔ e ∈ [Ev.rZAMS, .rCOHMSRLO, .rCOHeMS, .rCOHeMSRLO]) := by
  intro e t ht r hr
  have key : ∀ e ∈ Ev.all, (evText e ≠ some (chars! "END") ∧ evText e ≠ some (chars! "redirect")) ∧
      (Frame.isIn (chars! "redirect") ((evText e).getD []) = true ↔ e ∈ [Ev.rZAMS, .rCOHMSRLO, .rCOHeMS, .rCOHeMSRLO]) := by
    decide +kernel
  obtain ⟨⟨h1, h2⟩, h3⟩ := key e (Ev.mem_all e)
  rw [ht] at h1 h2 h3
  refine ⟨?_, h3⟩
  unfold keepSimple
  rw [hr]
  simp [h1, h2]

/-! ### Pictures -/

/-- C159: the picture of an event is that of the two stars and the event at the beginning of the line; it is shown if it exists, except between detached phases. -/
theorem C159_picture_partial (exist : Text → Bool) (l : Line) :
    (∀ f, picture exist l = .event f → f = eventFile l.before.s1 (label l.before) l.before.s2 png ∧ exist f = true) ∧
    (exist (eventFile l.before.s1 (label l.before) l.before.s2 png) = true → label l.before ≠ (chars! "detached") →
      picture exist l = .event (eventFile l.before.s1 (label l.before) l.before.s2 png)) ∧
    (exist (eventFile l.before.s1 (label l.before) l.before.s2 png) = false →
      picture exist l = .stars (starFile ((l.after.map (·.s1)).getD l.before.s1) png) (starFile ((l.after.map (·.s2)).getD l.before.s2) png)) := by
  refine ⟨fun f hf => ?_, fun h1 h2 => ?_, fun h1 => ?_⟩
  · unfold picture at hf
    by_cases c1 : l.after.map label ≠ some (chars! "detached") ∧ exist (lineFile l) = true
    · rw [if_pos c1] at hf
      injection hf with hf
      exact ⟨hf.symm, by rw [← hf]; exact c1.2⟩
    · rw [if_neg c1] at hf
      by_cases c2 : label l.before ≠ (chars! "detached") ∧ exist (lineFile l) = true
      · rw [if_pos c2] at hf
        injection hf with hf
        exact ⟨hf.symm, by rw [← hf]; exact c2.2⟩
      · rw [if_neg c2] at hf
        cases hf
  · unfold picture
    by_cases c1 : l.after.map label ≠ some (chars! "detached") ∧ exist (lineFile l) = true
    · rw [if_pos c1]; rfl
    · rw [if_neg c1, if_pos ⟨h2, h1⟩]; rfl
  · unfold picture
    have h1' : exist (lineFile l) = false := h1
    rw [if_neg (by simp [h1']), if_neg (by simp [h1'])]

/-- C159 is violated by combined lines also in the pictures: the state after a combination never has its picture, although it exists; here a mass transfer that becomes a common envelope. -/
theorem C159_picture_violated : ∃ l : Line, l ∈ simplified [exRow 0 (some (chars! "oRLO1")) (chars! "RLO1") none, exRow 1 (some (chars! "oCE1")) (chars! "RLO1") none] ∧
    ∃ r, l.after = some r ∧ draws.contains (eventFile r.s1 (label r) r.s2 png) = true ∧
      picture (fun f => draws.contains f) l = .event (chars! "H-rich_oRLO1_H-rich_.png") := by
  refine ⟨⟨exRow 0 (some (chars! "oRLO1")) (chars! "RLO1") none, some (exRow 1 (some (chars! "oCE1")) (chars! "RLO1") none)⟩, by decide +kernel, _, rfl, by decide +kernel, by decide +kernel⟩

/-- C159: the picture of a star with two or more underscores in its state depends only on the part before the first one. -/
theorem C159_star_file (a b c : Text) (suffix : Text) (ha : '_' ∉ a) (hb : '_' ∈ b) (hc : '_' ∈ c) :
    starFile (a ++ '_' :: b) suffix = a ++ '_' :: suffix ∧ starFile (a ++ '_' :: b) suffix = starFile (a ++ '_' :: c) suffix := by
  have key : ∀ b : Text, '_' ∈ b → starFile (a ++ '_' :: b) suffix = a ++ '_' :: suffix := by
    intro b hb
    unfold starFile
    have h1 : 1 ≤ b.count '_' := List.one_le_count_iff.2 hb
    rw [if_neg]
    · congr 1
      rw [List.takeWhile_append_of_pos (by intro x hx; simp; rintro rfl; exact ha hx)]
      simp
    · rw [List.count_append, List.count_cons_self]
      omega
  exact ⟨key b hb, by rw [key b hb, key c hc]⟩

/-- C159: exactly the compact objects, hydrogen-rich stars and stripped stars have pictures; accretors of helium and massless remnants have none. -/
theorem C159_star_pictures (s : Star) : starFile s.name.toList png ∈ draws ↔ s ∉ [Star.massless, .aCoreH, .aShellH, .aNon, .aCoreHe] := by
  have key : ∀ s ∈ Star.all, starFile s.name.toList png ∈ draws ↔ s ∉ [Star.massless, .aCoreH, .aShellH, .aNon, .aCoreHe] := by decide +kernel
  exact key s (Star.mem_all s)

/-- Hydrogen-rich states. -/
def hydrogen (s : Star) : Bool := s ∈ [Star.hCoreH, .hCoreHe, .hShellH, .hCoreHeDep, .hShellHe, .hCoreC, .hCoreCDep, .hNon]

/-- The kinds of stars the pictures distinguish. -/
def kind (s : Star) : Text := starFile s.name.toList []

def kinds : List Text := [(chars! "WD"), (chars! "NS"), (chars! "BH"), (chars! "massless_remnant"), (chars! "H-rich_"), (chars! "accreted_"), (chars! "stripped_")]

/-- C159: an event has a picture exactly for mass transfer and common envelopes started by a hydrogen-rich star with a hydrogen-rich star, a neutron star or a black hole as companion. -/
theorem C159_event_pictures (s1 s2 : Star) (e : Ev) (t : Text) (ht : evText e = some t) :
    eventFile s1.name.toList t s2.name.toList png ∈ draws ↔
      ((e = .oRLO1 ∨ e = .oCE1) ∧ hydrogen s1 = true ∧ (hydrogen s2 = true ∨ s2 = .NS ∨ s2 = .BH)) ∨
      ((e = .oRLO2 ∨ e = .oCE2) ∧ hydrogen s2 = true ∧ (hydrogen s1 = true ∨ s1 = .NS ∨ s1 = .BH)) := by
  have hk : ∀ s ∈ Star.all, kind s ∈ kinds ∧ (kind s = (chars! "H-rich_") ↔ hydrogen s = true) ∧ (kind s = (chars! "NS") ↔ s = .NS) ∧
      (kind s = (chars! "BH") ↔ s = .BH) := by decide +kernel
  have hf : ∀ a ∈ kinds, ∀ b ∈ kinds, ∀ e ∈ Ev.all,
      (((if a.getLast? = some '_' then a else a ++ ['_']) ++ (evText e).getD (chars! "?") ++ '_' :: b ++ png) ∈ draws ↔
        ((e = .oRLO1 ∨ e = .oCE1) ∧ a = (chars! "H-rich_") ∧ (b = (chars! "H-rich_") ∨ b = (chars! "NS") ∨ b = (chars! "BH"))) ∨
        ((e = .oRLO2 ∨ e = .oCE2) ∧ b = (chars! "H-rich_") ∧ (a = (chars! "H-rich_") ∨ a = (chars! "NS") ∨ a = (chars! "BH")))) := by
    decide +kernel
  obtain ⟨k1, a1, a2, a3⟩ := hk s1 (Star.mem_all s1)
  obtain ⟨k2, b1, b2, b3⟩ := hk s2 (Star.mem_all s2)
  have h := hf _ k1 _ k2 e (Ev.mem_all e)
  rw [ht, Option.getD_some, a1, a2, a3, b1, b2, b3] at h
  exact h

/-! ### Distances -/

/-- C159: if the widest orbit of the diagram is wider than one solar radius, all distances are between 0 and 1, they grow with the separation, and the widest orbit has distance 1. -/
theorem C159_distance (rows : List Row) (m : ℚ) (hm : widest (simplified rows) = .ok m) (h1 : 1 < m) (l : Line) (hl : l ∈ simplified rows) :
    (∃ d, distance l m = some d ∧ 0 ≤ d ∧ d ≤ 1) ∧ (shown l = some m → distance l m = some 1) ∧
    ∀ l' v v' d d', shown l = some v → shown l' = some v' → v ≤ v' → distance l m = some d → distance l' m = some d' → d ≤ d' := by
  have hm1 : (1 : ℝ) < (m : ℝ) := by exact_mod_cast h1
  have hlog : 0 < Real.log (m : ℝ) := Real.log_pos hm1
  have hm0 : m ≠ 0 := by linarith
  have hlt : ¬ m < 1 := by linarith
  have val : ∀ (l : Line) v, shown l = some v → distance l m = some (Real.log (((if v < 1 then 1 else v : ℚ)) : ℝ) / Real.log (m : ℝ)) := by
    intro l v hv
    unfold distance
    rw [if_neg hm0, hv]
    dsimp only
    rw [if_neg hlt, if_neg hlog.ne']
  have pos : ∀ v : ℚ, (1 : ℝ) ≤ ((if v < 1 then 1 else v : ℚ) : ℝ) := by
    intro v
    split_ifs with h
    · norm_num
    · exact_mod_cast not_lt.1 h
  refine ⟨?_, ?_, ?_⟩
  · cases hv : shown l with
    | none => exact ⟨0, by unfold distance; rw [if_neg hm0, hv], le_refl _, zero_le_one⟩
    | some v =>
      have hvm : v ≤ m := (shown_le_max l v hv).trans (widest_ge hm l hl)
      refine ⟨_, val l v hv, div_nonneg (Real.log_nonneg (pos v)) hlog.le, ?_⟩
      rw [div_le_one hlog]
      apply Real.log_le_log (by linarith [pos v])
      split_ifs with h
      · norm_num; exact hm1.le
      · exact_mod_cast hvm
  · intro hv
    rw [val l m hv, if_neg hlt, div_self hlog.ne']
  · intro l' v v' d d' hv hv' hvv hd hd'
    rw [val l v hv] at hd
    rw [val l' v' hv'] at hd'
    injection hd with hd
    injection hd' with hd'
    rw [← hd, ← hd']
    apply div_le_div_of_nonneg_right _ hlog.le
    apply Real.log_le_log (by linarith [pos v])
    split_ifs with c1 c2
    · exact le_refl _
    · exact_mod_cast not_lt.1 c2
    · have : v < 1 := by linarith
      exact absurd this c1
    · exact_mod_cast hvv

/-- C159 is violated by orbits of exactly one solar radius: then all distances are undefined. -/
theorem C159_distance_violated : ∃ rows m l, widest (simplified rows) = .ok m ∧ l ∈ simplified rows ∧ distance l m = none := by
  refine ⟨[exRow 0 none (chars! "detached") (some 1)], 1, ⟨exRow 0 none (chars! "detached") (some 1), none⟩, by rfl, by decide +kernel, ?_⟩
  unfold distance
  rw [if_neg (by norm_num)]
  have : shown ⟨exRow 0 none (chars! "detached") (some 1), none⟩ = some 1 := rfl
  rw [this]
  dsimp only
  rw [if_neg (by norm_num : ¬ (1 : ℚ) < 1), if_pos (by norm_num)]

/-- C159: below one solar radius all distances are zero. -/
theorem C159_distance_small (rows : List Row) (m : ℚ) (hm : widest (simplified rows) = .ok m) (h1 : m < 1) (l : Line) (hl : l ∈ simplified rows) :
    distance l m = some 0 := by
  unfold distance
  by_cases hm0 : m = 0
  · rw [if_pos hm0]
  · rw [if_neg hm0]
    cases hv : shown l with
    | none => rfl
    | some v =>
      have hvm : v ≤ m := (shown_le_max l v hv).trans (widest_ge hm l hl)
      dsimp only
      rw [if_pos (by linarith : v < 1), if_pos h1]
      norm_num

/-- C159: the diagram fails exactly for histories without any row to show; otherwise it has all lines of the simplified diagram, and one more line exactly if the last line is a combination
that ends disrupted or merged. -/
theorem C159_diagram (rows : List Row) :
    ((∀ r ∈ rows, keepSimple r = false) ↔ diagram rows = .error .value) ∧
    ∀ out, diagram rows = .ok out → out.1.map (·.1) = simplified rows ∧
      ∀ t, out.2 = some t ↔ (t = (chars! "disrupted") ∨ t = (chars! "merged")) ∧ ∃ l r, (simplified rows).getLast? = some l ∧ l.after = some r ∧ label r = t := by
  have hnil : (∀ r ∈ rows, keepSimple r = false) ↔ simplified rows = [] := by
    unfold simplified
    constructor
    · intro h
      rw [List.filter_eq_nil_iff.2 (by intro r hr; simp [h r hr])]
      rfl
    · intro h r hr
      by_contra hc
      have hmem : r ∈ rows.filter keepSimple := List.mem_filter.2 ⟨hr, by simpa using hc⟩
      cases hf : rows.filter keepSimple with
      | nil => rw [hf] at hmem; cases hmem
      | cons x xs =>
        rw [hf] at h
        obtain ⟨a, t, e⟩ := go_head joinSimple xs ⟨x, none⟩
        have h' : go joinSimple ⟨x, none⟩ xs = [] := h
        rw [e] at h'
        replace h := h'
        cases h
  refine ⟨?_, ?_⟩
  · rw [hnil]
    constructor
    · intro h
      unfold diagram
      rw [h]
      rfl
    · intro h
      cases hs : simplified rows with
      | nil => rfl
      | cons l ls =>
        unfold diagram at h
        rw [hs] at h
        cases h
  · intro out ho
    unfold diagram at ho
    dsimp only at ho
    cases hw : widest (simplified rows) with
    | error e => rw [hw] at ho; cases ho
    | ok m =>
      rw [hw] at ho
      injection ho with ho
      subst ho
      refine ⟨by rw [List.map_map]; exact List.map_id _, fun t => ?_⟩
      dsimp only
      constructor
      · intro h
        split_ifs at h with hc
        rw [h] at hc
        obtain ⟨r, hr, hlab⟩ := Option.map_eq_some_iff.1 h
        obtain ⟨l, hl, hla⟩ := Option.bind_eq_some_iff.1 hr
        refine ⟨?_, l, r, hl, hla, hlab⟩
        rcases hc with hc | hc
        · exact Or.inl (Option.some.inj hc)
        · exact Or.inr (Option.some.inj hc)
      · rintro ⟨ht, l, r, hl, hla, hlab⟩
        rw [hl]
        simp only [Option.bind_some, hla, Option.map_some, hlab]
        rcases ht with ht | ht
        · rw [if_pos (Or.inl (by rw [ht]))]
        · rw [if_pos (Or.inr (by rw [ht]))]

/-- C159 is violated by default frequencies: shown side by side, those of all binaries together are one percent; as a tree they are a hundred. -/
theorem C159_frequency_violated (n : ℕ) (h : 0 < n) : (freqColumns n).sum = 1 ∧ (freqTree n).sum = 100 := by
  have hn : (n : ℚ) ≠ 0 := by exact_mod_cast h.ne'
  unfold freqColumns freqTree
  rw [List.sum_replicate, List.sum_replicate, nsmul_eq_mul, nsmul_eq_mul]
  constructor <;> field_simp

/-- The example is a case of `C159_distance`: its widest orbit, 120 solar radii, is wider than one, and belongs to a combined line of detached phases. -/
example : (widest (simplified exRows)).toOption = some 120 ∧ (1 : ℚ) < 120 ∧
    (simplified exRows).map shown = [some 100, some 120, some 90] := by
  refine ⟨by decide +kernel, by norm_num, by decide +kernel⟩

/-- C159: the events that the pictures are looked up for are those of formation channels and of executions, each with its own name. -/
theorem C159_event_names :
    ((Ev.all.filterMap evText).Nodup ∧ ∀ t, t ∈ Ev.all.filterMap evText ↔ t ∈ (Channel.alphabet.map String.toList).filter (· ∉ ["END", "FAILED", "oRLO1-reverse"].map String.toList)) ∧
    ∀ e e' : Ev, evText e = evText e' → e = e' := by
  refine ⟨⟨by decide +kernel, fun t => ?_⟩, fun e e' => ?_⟩
  · have h1 : ∀ t ∈ Ev.all.filterMap evText, t ∈ (Channel.alphabet.map String.toList).filter (· ∉ ["END", "FAILED", "oRLO1-reverse"].map String.toList) := by decide +kernel
    have h2 : ∀ t ∈ (Channel.alphabet.map String.toList).filter (· ∉ ["END", "FAILED", "oRLO1-reverse"].map String.toList), t ∈ Ev.all.filterMap evText := by decide +kernel
    exact ⟨h1 t, h2 t⟩
  · have key : ∀ e ∈ Ev.all, ∀ e' ∈ Ev.all, evText e = evText e' → e = e' := by decide +kernel
    exact key e (Ev.mem_all e) e' (Ev.mem_all e')

end Verif.VhDiagram
