import Verif.RunLabels
import Verif.MTLabelProps
/-!
Properties of the labels of a MESA run.
-/
namespace Verif.RunLabels

open Verif.Frame (Name)
open Verif.MTCase (Num Row gtN ltN geN inferCase rlof1 rlof2 mtEntry massTransferFlag)
open Verif.StarState (Inputs)
open Verif.TermFlags (Line IC Final)

/-! ### The log -/

/-- The flag is the text of the last line with a termination code that is not about the time step, without blanks at its ends. -/
theorem C134_log (pre post : List Name) (t : Name) (hp : ∀ q ∈ post, ¬ Final (toLine q)) (h : Frame.isIn (chars! "min_timestep_limit") (code1 ++ t) = false) :
    flagOut (some (pre ++ (code1 ++ t) :: post)) = String.ofList (Jobs.strip t) := by
  have hs : Jobs.starts code1 (code1 ++ t) = true := by
    unfold Jobs.starts
    rw [List.isPrefixOf_iff_prefix]
    exact List.prefix_append _ _
  have hc : (toLine (code1 ++ t)).code = some (String.ofList (Jobs.strip t)) := by
    unfold toLine
    simp only [hs, if_true, List.drop_left]
  have := (TermFlags.C53_last_code (pre.map toLine) (post.map toLine) (toLine (code1 ++ t)) (fun q hq => by
    obtain ⟨q', h1, rfl⟩ := List.mem_map.1 hq
    exact hp q' h1)).1 _ hc h
  unfold flagOut
  simpa using this

/-- A line which only mentions a code is none. -/
theorem C134_log_none (ls : List Name) (h : ∀ l ∈ ls, Jobs.starts code1 l = false ∧ Jobs.starts code2 l = false ∧
    Frame.isIn (chars! "Reached TPAGB") l = false) : flagOut (some ls) = "reach cluster timelimit" := by
  have hn : ∀ q ∈ ls.map toLine, q.code = none ∧ q.tpagb = false := by
    intro q hq
    obtain ⟨l, hl, rfl⟩ := List.mem_map.1 hq
    obtain ⟨h1, h2, h3⟩ := h l hl
    unfold toLine
    simp [h1, h2, h3]
  have := TermFlags.C53_no_final_line (ls.map toLine) (fun q hq => by
    obtain ⟨h1, h2⟩ := hn q hq
    rintro (⟨-, -, h3⟩ | ⟨c, h3, -⟩)
    · rw [h2] at h3; cases h3
    · rw [h1] at h3; cases h3)
  have e : (ls.map toLine).filterMap Line.code = [] := List.filterMap_eq_nil_iff.2 fun q hq => (hn q hq).1
  rw [e] at this
  exact this

/-! ### States -/

theorem value_ok {n : ℕ} {h : Hist} (hc : Complete n h) {i : ℕ} (hi : i < n) {v : Name} (hv : v ∈ needed) :
    ∃ l x, h v = some l ∧ l[i]? = some x ∧ value h (some i) v = .ok x := by
  obtain ⟨l, h1, h2⟩ := hc v hv
  have hlt : i < l.length := h2 ▸ hi
  refine ⟨l, l[i], h1, List.getElem?_eq_getElem hlt, ?_⟩
  unfold value item
  rw [h1]
  simp only [List.getElem?_eq_getElem hlt]

theorem firstMissing_none {n : ℕ} {h : Hist} (hc : Complete n h) : firstMissing h = none := by
  unfold firstMissing
  refine List.find?_eq_none.2 fun v hv => ?_
  obtain ⟨l, h1, -⟩ := hc v hv
  simp [h1]

theorem inputs_ok {n : ℕ} {h : Hist} (hc : Complete n h) {i : ℕ} (hi : i < n) : ∃ v, inputs h (some i) = .ok v := by
  have k : ∀ v ∈ needed, ∃ x, value h (some i) v = .ok x := fun v hv => by
    obtain ⟨l, x, -, -, h1⟩ := value_ok hc hi hv
    exact ⟨x, h1⟩
  obtain ⟨x1, h1⟩ := k (chars! "surface_h1") (by simp [needed])
  obtain ⟨x2, h2⟩ := k (chars! "center_h1") (by simp [needed])
  obtain ⟨x3, h3⟩ := k (chars! "center_he4") (by simp [needed])
  obtain ⟨x4, h4⟩ := k (chars! "center_c12") (by simp [needed])
  obtain ⟨x5, h5⟩ := k (chars! "log_LH") (by simp [needed])
  obtain ⟨x6, h6⟩ := k (chars! "log_LHe") (by simp [needed])
  obtain ⟨x7, h7⟩ := k (chars! "log_Lnuc") (by simp [needed])
  exact ⟨⟨none, x1, x2, x3, x4, x5, x6, x7⟩, by unfold inputs; rw [h1, h2, h3, h4, h5, h6, h7]⟩

/-- The states of all models of a complete history are found. -/
theorem stateAt_ok (ph : Phys) {h : Option Hist} {mass : List Num} (hg : Good mass.length h) {i : ℕ} (hi : i < mass.length) :
    ∃ s, stateAt ph h mass (some i) = .ok s := by
  unfold stateAt
  cases h with
  | none =>
    unfold item
    simp only [List.getElem?_eq_getElem hi]
    exact ⟨_, rfl⟩
  | some x =>
    have hc := hg x rfl
    obtain ⟨v, hv⟩ := inputs_ok hc hi
    simp only [firstMissing_none hc, hv]
    exact ⟨_, rfl⟩

/-- The index -1 is the last model. -/
theorem item_last {l : List Num} (h : l ≠ []) : item l none = item l (some (l.length - 1)) := by
  unfold item
  rw [List.getLast?_eq_getElem?]

theorem stateAt_last (ph : Phys) {h : Option Hist} {mass : List Num} (hg : Good mass.length h) (hm : mass ≠ []) :
    stateAt ph h mass none = stateAt ph h mass (some (mass.length - 1)) := by
  unfold stateAt
  cases h with
  | none => simp only [item_last hm]
  | some x =>
    have hc := hg x rfl
    have hpos : 0 < mass.length := List.length_pos_iff.2 hm
    have hv : ∀ v ∈ needed, value x none v = value x (some (mass.length - 1)) v := by
      intro v hv
      obtain ⟨l, h1, h2⟩ := hc v hv
      unfold value
      rw [h1]
      have hl : l ≠ [] := List.length_pos_iff.1 (h2 ▸ hpos)
      simp only [item_last hl, h2]
    have hi : inputs x none = inputs x (some (mass.length - 1)) := by
      unfold inputs
      rw [hv (chars! "surface_h1") (by simp [needed]), hv (chars! "center_h1") (by simp [needed]), hv (chars! "center_he4") (by simp [needed]),
        hv (chars! "center_c12") (by simp [needed]), hv (chars! "log_LH") (by simp [needed]), hv (chars! "log_LHe") (by simp [needed]),
        hv (chars! "log_Lnuc") (by simp [needed])]
    simp only [hi]

/-- A column that is missing is named. -/
theorem C134_missing (ph : Phys) (h : Hist) (mass : List Num) (i : Option ℕ) {v : Name} (hv : v ∈ needed) (hm : h v = none) :
    ∃ w ∈ needed, h w = none ∧ stateAt ph (some h) mass i = .error (.key w) := by
  unfold stateAt
  cases hf : firstMissing h with
  | none =>
    unfold firstMissing at hf
    have := List.find?_eq_none.1 hf v hv
    simp [hm] at this
  | some w =>
    unfold firstMissing at hf
    have h1 := List.mem_of_find?_eq_some hf
    have h2 := List.find?_some hf
    refine ⟨w, h1, by simpa using h2, ?_⟩
    have hf' : firstMissing h = some w := hf
    simp only [hf']

/-! ### Mass transfer -/

theorem over1_row (b : BRow) (s t : String) : rlof1 (b.row s t) = over1 b := rfl
theorem over2_row (b : BRow) (s t : String) : rlof2 (b.row s t) = over2 b := rfl

theorem cases_ok {state : ℕ → Except Err String} {st : ℕ → String} {over : BRow → Bool} {rel : BRow → Num} {shift : ℕ} :
    ∀ {l : List (BRow × ℕ)}, (∀ p ∈ l, over p.1 = true → state p.2 = .ok (st p.2)) →
    cases state over rel shift l = .ok (l.map fun p => if over p.1 then some (inferCase (some (rel p.1)) (some p.1.rate) (st p.2) true + shift) else none)
  | [], _ => rfl
  | (b, i) :: rest, h => by
    have ih := cases_ok (rel := rel) (shift := shift) (l := rest) (over := over) (state := state) (st := st) fun p hp => h p (List.mem_cons_of_mem _ hp)
    unfold cases
    by_cases hb : over b = true
    · have := h (b, i) List.mem_cons_self hb
      simp only [if_pos hb, this, ih, List.map_cons]
    · simp only [if_neg hb, ih, List.map_cons]

theorem entries_rows (st1 st2 : ℕ → String) : ∀ l : List (BRow × ℕ),
    entries (l.map fun p => if over1 p.1 then some (inferCase (some p.1.rel1) (some p.1.rate) (st1 p.2) true + 0) else none)
      (l.map fun p => if over2 p.1 then some (inferCase (some p.1.rel2) (some p.1.rate) (st2 p.2) true + 10) else none) =
    (l.map fun p => p.1.row (st1 p.2) (st2 p.2)).filterMap mtEntry
  | [] => rfl
  | (b, i) :: rest => by
    have ih := entries_rows st1 st2 rest
    simp only [List.map_cons, entries]
    rw [ih]
    by_cases h2 : over2 b = true
    · have : mtEntry (b.row (st1 i) (st2 i)) = some (inferCase (some b.rel2) (some b.rate) (st2 i) true + 10) := by
        unfold mtEntry
        rw [over2_row, if_pos h2]
        rfl
      rw [List.filterMap_cons_some this, if_pos h2]
      rfl
    · by_cases h1 : over1 b = true
      · have : mtEntry (b.row (st1 i) (st2 i)) = some (inferCase (some b.rel1) (some b.rate) (st1 i) true) := by
          unfold mtEntry
          rw [over2_row, if_neg h2, over1_row, if_pos h1]
          rfl
        rw [List.filterMap_cons_some this, if_neg h2, if_pos h1]
        rfl
      · have : mtEntry (b.row (st1 i) (st2 i)) = none := by
          unfold mtEntry
          rw [over2_row, if_neg h2, over1_row, if_neg h1]
        rw [List.filterMap_cons_none this, if_neg h2, if_neg h1]
        rfl

theorem numeric_some (l : List ℕ) : ∃ m, MTCase.numeric l = some m := by
  unfold MTCase.numeric
  by_cases h0 : l.length = 0
  · exact ⟨_, if_pos h0⟩
  rw [if_neg h0]
  dsimp only
  by_cases h9 : 9 ∈ l
  · simp only [h9, if_true, true_and]
    by_cases h1 : (l.filter (· ≠ 9)).length = 0
    · exact ⟨_, if_pos h1⟩
    rw [if_neg h1]
    by_cases hz : 0 ∈ l.filter (· ≠ 9)
    · simp only [hz, if_true, true_and]
      by_cases h2 : ((l.filter (· ≠ 9)).filter (· ≠ 0)).length = 0
      · exact ⟨_, if_pos h2⟩
      rw [if_neg h2]
      cases hl : (l.filter (· ≠ 9)).filter (· ≠ 0) with
      | nil => rw [hl] at h2; exact absurd rfl h2
      | cons c cs => exact ⟨_, rfl⟩
    · simp only [hz, if_false, false_and]
      cases hl : l.filter (· ≠ 9) with
      | nil => rw [hl] at h1; exact absurd rfl h1
      | cons c cs => exact ⟨_, rfl⟩
  · simp only [h9, if_false, false_and]
    by_cases hz : 0 ∈ l
    · simp only [hz, if_true, true_and]
      by_cases h2 : (l.filter (· ≠ 0)).length = 0
      · exact ⟨_, if_pos h2⟩
      rw [if_neg h2]
      cases hl : l.filter (· ≠ 0) with
      | nil => rw [hl] at h2; exact absurd rfl h2
      | cons c cs => exact ⟨_, rfl⟩
    · simp only [hz, if_false, false_and]
      cases hl : l with
      | nil => rw [hl] at h0; exact absurd rfl h0
      | cons c cs => exact ⟨_, rfl⟩

theorem any_row {l : List (BRow × ℕ)} (st1 st2 : ℕ → String) (f : BRow → Bool) (g : Row → Bool) (h : ∀ b s t, g (b.row s t) = f b) :
    (l.map fun p => p.1.row (st1 p.2) (st2 p.2)).any g = (l.map (·.1)).any f := by
  rw [List.any_map, List.any_map]
  congr 1
  funext p
  exact h _ _ _

/-- The rows with the states of the stars at each of them. -/
def labelled (st1 st2 : ℕ → String) (rows : List BRow) : List Row := rows.zipIdx.map fun p => p.1.row (st1 p.2) (st2 p.2)

/-- With complete histories the flag is that of the rows with the states of the stars at the same models, and there always is one. -/
theorem C134_transfer (ph : Phys) (start : Bool) {rows : List BRow} {h1 h2 : Option Hist} (g1 : Good rows.length h1) (g2 : Good rows.length h2) (tf1 : String)
    {st1 st2 : ℕ → String} (e1 : ∀ i, i < rows.length → stateAt ph h1 (rows.map (·.mass1)) (some i) = .ok (st1 i))
    (e2 : ∀ i, i < rows.length → stateAt ph h2 (rows.map (·.mass2)) (some i) = .ok (st2 i)) :
    ∃ t, flag2 ph start rows h1 h2 tf1 = .ok t ∧
      (tf1 ∈ TermFlags.tf1Error → t = (chars! "None")) ∧ (tf1 ∈ TermFlags.tf1Initial → t = (chars! "initial_RLOF")) ∧
      (tf1 ∉ TermFlags.tf1Error → tf1 ∉ TermFlags.tf1Initial → massTransferFlag start (labelled st1 st2 rows) = some t) := by
  have d1 : ∀ t ∈ TermFlags.tf1Initial, t ∉ TermFlags.tf1Error := by simp [TermFlags.tf1Initial, TermFlags.tf1Error]
  unfold flag2
  by_cases a1 : tf1 ∈ TermFlags.tf1Error
  · exact ⟨_, if_pos a1, fun _ => rfl, fun h => absurd a1 (d1 tf1 h), fun h => absurd a1 h⟩
  rw [if_neg a1]
  by_cases a2 : tf1 ∈ TermFlags.tf1Initial
  · exact ⟨_, if_pos a2, fun h => absurd h a1, fun _ => rfl, fun _ h => absurd a2 h⟩
  rw [if_neg a2]
  have hz : rows.zipIdx.map (·.1) = rows := by simp
  have c0 : (labelled st1 st2 rows).any (fun r => gtN r.rel1 0 && gtN r.rel2 0) = rows.any (fun b => gtN b.rel1 0 && gtN b.rel2 0) := by
    unfold labelled
    rw [any_row st1 st2 (fun b => gtN b.rel1 0 && gtN b.rel2 0) _ fun b s t => rfl, hz]
  have c1 : (labelled st1 st2 rows).any rlof1 = rows.any over1 := by
    unfold labelled
    rw [any_row st1 st2 over1 _ fun b s t => rfl, hz]
  have c2 : (labelled st1 st2 rows).any rlof2 = rows.any over2 := by
    unfold labelled
    rw [any_row st1 st2 over2 _ fun b s t => rfl, hz]
  have c3 : (labelled st1 st2 rows).head?.map rlof1 = rows.head?.map over1 := by
    unfold labelled
    cases rows with
    | nil => rfl
    | cons b bs => rfl
  have c4 : (labelled st1 st2 rows).head?.map rlof2 = rows.head?.map over2 := by
    unfold labelled
    cases rows with
    | nil => rfl
    | cons b bs => rfl
  have hidx : ∀ p ∈ rows.zipIdx, p.2 < rows.length := fun p hp => by
    have := List.mem_zipIdx hp
    omega
  have k1 := cases_ok (l := rows.zipIdx) (over := over1) (rel := (·.rel1)) (shift := 0)
    (state := fun i => stateAt ph h1 (rows.map (·.mass1)) (some i)) (st := st1) fun p hp _ => e1 p.2 (hidx p hp)
  have k2 := cases_ok (l := rows.zipIdx) (over := over2) (rel := (·.rel2)) (shift := 10)
    (state := fun i => stateAt ph h2 (rows.map (·.mass2)) (some i)) (st := st2) fun p hp _ => e2 p.2 (hidx p hp)
  unfold massTransferFlag
  rw [c0, c1, c2, c3, c4, k1]
  dsimp only
  by_cases b1 : (rows.any fun b => gtN b.rel1 0 && gtN b.rel2 0) = true
  · rw [if_pos b1, if_pos b1]
    exact ⟨_, rfl, fun h => absurd h a1, fun h => absurd h a2, fun _ _ => rfl⟩
  rw [if_neg b1, if_neg b1]
  by_cases b2 : (!rows.any over1 && !rows.any over2) = true
  · rw [if_pos b2, if_pos b2]
    exact ⟨_, rfl, fun h => absurd h a1, fun h => absurd h a2, fun _ _ => rfl⟩
  rw [if_neg b2, if_neg b2]
  by_cases b3 : (rows.any over1 && !start && (rows.head?.map over1 == some true)) = true
  · rw [if_pos b3, if_pos b3]
    exact ⟨_, rfl, fun h => absurd h a1, fun h => absurd h a2, fun _ _ => rfl⟩
  rw [if_neg b3, if_neg b3]
  by_cases b4 : (rows.any over2 && !start && (rows.head?.map over2 == some true)) = true
  · rw [if_pos b4, if_pos b4]
    exact ⟨_, rfl, fun h => absurd h a1, fun h => absurd h a2, fun _ _ => rfl⟩
  rw [if_neg b4, if_neg b4]
  rw [k2]
  unfold render
  dsimp only
  rw [entries_rows st1 st2 rows.zipIdx]
  obtain ⟨m, hm⟩ := numeric_some (MTCase.shift 0 10 ((rows.zipIdx.map fun p => p.1.row (st1 p.2) (st2 p.2)).filterMap mtEntry))
  have hf : MTCase.flag true ((rows.zipIdx.map fun p => p.1.row (st1 p.2) (st2 p.2)).filterMap mtEntry) = some (MTCase.render m) := by
    unfold MTCase.flag
    rw [if_pos rfl, hm]
    rfl
  rw [hf]
  exact ⟨_, rfl, fun h => absurd h a1, fun h => absurd h a2, fun _ _ => hf⟩

/-! ### All flags -/

/-- States by name, for complete histories. -/
noncomputable def stateName (ph : Phys) (h : Option Hist) (mass : List Num) (i : ℕ) : String :=
  match stateAt ph h mass (some i) with
  | .ok s => s
  | .error _ => ""

theorem stateName_spec (ph : Phys) {h : Option Hist} {mass : List Num} (hg : Good mass.length h) {i : ℕ} (hi : i < mass.length) :
    stateAt ph h mass (some i) = .ok (stateName ph h mass i) := by
  obtain ⟨s, hs⟩ := stateAt_ok ph hg hi
  unfold stateName
  rw [hs]

/-- Every run with complete histories gets four flags: that of the log (or the given one), that of the mass transfer, and the states of
both stars at the last model. -/
theorem C134_flags (ph : Phys) (start : Bool) (new : String) (r : Run) {rows : List BRow} (hr : r.rows = some rows) (hne : rows ≠ [])
    (g1 : Good rows.length r.h1) (g2 : Good rows.length r.h2) : ∃ f, flags ph start new r = .ok f ∧
    f.tf1 = (if new = "" then flagOut r.log else new) ∧
    f.state1 = stateName ph r.h1 (rows.map (·.mass1)) (rows.length - 1) ∧ f.state2 = stateName ph r.h2 (rows.map (·.mass2)) (rows.length - 1) ∧
    (f.tf1 ∈ TermFlags.tf1Error → f.tf2 = (chars! "None")) ∧ (f.tf1 ∈ TermFlags.tf1Initial → f.tf2 = (chars! "initial_RLOF")) ∧
    (f.tf1 ∉ TermFlags.tf1Error → f.tf1 ∉ TermFlags.tf1Initial →
      massTransferFlag start (labelled (stateName ph r.h1 (rows.map (·.mass1))) (stateName ph r.h2 (rows.map (·.mass2))) rows) = some f.tf2) := by
  have l1 : (rows.map (·.mass1)).length = rows.length := by simp
  have l2 : (rows.map (·.mass2)).length = rows.length := by simp
  have hpos : 0 < rows.length := List.length_pos_iff.2 hne
  have n1 : rows.map (·.mass1) ≠ [] := by simpa using hne
  have n2 : rows.map (·.mass2) ≠ [] := by simpa using hne
  have s1 : ∀ i, i < rows.length → stateAt ph r.h1 (rows.map (·.mass1)) (some i) = .ok (stateName ph r.h1 (rows.map (·.mass1)) i) :=
    fun i hi => stateName_spec ph (l1.symm ▸ g1) (l1.symm ▸ hi)
  have s2 : ∀ i, i < rows.length → stateAt ph r.h2 (rows.map (·.mass2)) (some i) = .ok (stateName ph r.h2 (rows.map (·.mass2)) i) :=
    fun i hi => stateName_spec ph (l2.symm ▸ g2) (l2.symm ▸ hi)
  have t1 := stateAt_last ph (l1.symm ▸ g1) n1
  have t2 := stateAt_last ph (l2.symm ▸ g2) n2
  rw [l1, s1 _ (by omega)] at t1
  rw [l2, s2 _ (by omega)] at t2
  obtain ⟨t, ht, u1, u2, u3⟩ := C134_transfer ph start g1 g2 (flag1 new r.log) s1 s2
  unfold flags
  simp only [hr, t1, t2, ht]
  exact ⟨_, rfl, rfl, rfl, rfl, u1, u2, u3⟩

/-- The state of a compact object comes from its last mass alone. -/
theorem C134_compact (ph : Phys) {mass : List Num} {m : Num} (h : mass.getLast? = some m) :
    stateAt ph none mass none = .ok (StarState.inferCO ⟨m, none, none, none, none, none, none, none⟩).name := by
  unfold stateAt item
  simp only [h]

/-- The state of a star comes from the last values of its history. -/
theorem C134_star (ph : Phys) {h : Hist} (mass : List Num) {a b c d e f g : Num} {la lb lc ld le lf lg : List Num}
    (ha : h (chars! "surface_h1") = some (la ++ [a])) (hb : h (chars! "center_h1") = some (lb ++ [b])) (hc : h (chars! "center_he4") = some (lc ++ [c]))
    (hd : h (chars! "center_c12") = some (ld ++ [d])) (he : h (chars! "log_LH") = some (le ++ [e])) (hf : h (chars! "log_LHe") = some (lf ++ [f]))
    (hg : h (chars! "log_Lnuc") = some (lg ++ [g])) :
    stateAt ph (some h) mass none = .ok (StarState.inferNormal ph.rnd ph.rel ⟨none, a, b, c, d, e, f, g⟩).name := by
  have hm : firstMissing h = none := by
    unfold firstMissing
    refine List.find?_eq_none.2 fun v hv => ?_
    simp only [needed, List.mem_cons, List.not_mem_nil, or_false] at hv
    rcases hv with rfl | rfl | rfl | rfl | rfl | rfl | rfl
    · simp [ha]
    · simp [hb]
    · simp [hc]
    · simp [hd]
    · simp [he]
    · simp [hf]
    · simp [hg]
  have hi : inputs h none = .ok ⟨none, a, b, c, d, e, f, g⟩ := by
    unfold inputs value item
    simp [ha, hb, hc, hd, he, hf, hg]
  unfold stateAt
  simp only [hm, hi]

/-! ### The class -/

/-- Runs that did not come to an end: no flag of mass transfer and the class of those which did not converge; runs with overflow at the start
as told by MESA. -/
theorem C134_class_ends (f : Flags) (h1 : f.tf1 ∈ TermFlags.tf1Error → f.tf2 = (chars! "None")) (h2 : f.tf1 ∈ TermFlags.tf1Initial → f.tf2 = (chars! "initial_RLOF")) :
    (f.tf1 ∈ TermFlags.tf1Error → classOf f = .notConverged) ∧ (f.tf1 ∈ TermFlags.tf1Initial → classOf f = .initialMT) := by
  obtain ⟨c1, c2, -⟩ := TermFlags.C17_class f.tf1 f.tf2
  refine ⟨fun h => c2.2 ⟨h, ?_⟩, fun h => c1.2 (.inl h)⟩
  rw [h1 h]
  decide +kernel

/-- No star overflows and no rate is above its threshold: the class is that without mass transfer, whatever regular end the run has. -/
theorem C134_class_none (start : Bool) (f : Flags) {rows : List Row} (h : massTransferFlag start rows = some f.tf2)
    (hd : ∀ r ∈ rows, ∃ x y z, r.rel1 = some x ∧ r.rel2 = some y ∧ r.rate = some z ∧ x ≤ 0 ∧ y ≤ 0 ∧ z ≤ -10)
    (n1 : f.tf1 ∉ TermFlags.tf1Error) (n2 : f.tf1 ∉ TermFlags.tf1Initial) : classOf f = .noMT := by
  have := (MTCase.C52_no_RLOF_iff start rows fun r hr => by
    obtain ⟨x, y, z, h1, h2, h3, -⟩ := hd r hr
    exact ⟨x, y, z, h1, h2, h3⟩).1 fun r hr x y z hx hy hz => by
      obtain ⟨x', y', z', h1, h2, h3, h4, h5, h6⟩ := hd r hr
      rw [h1] at hx; rw [h2] at hy; rw [h3] at hz
      obtain rfl := Option.some.inj hx
      obtain rfl := Option.some.inj hy
      obtain rfl := Option.some.inj hz
      exact ⟨h4, h5, h6⟩
  rw [h] at this
  exact (TermFlags.C17_class f.tf1 f.tf2).2.2.1.2 ⟨n2, n1, Option.some.inj this⟩

/-- A donor in the first row, no contact: the class of overflow at the start unless the runs are to start so. -/
theorem C134_class_initial (f : Flags) {r : Row} {rs : List Row} (h : massTransferFlag false (r :: rs) = some f.tf2)
    (hc : (r :: rs).any (fun r => gtN r.rel1 0 && gtN r.rel2 0) = false) (hr : rlof1 r = true ∨ rlof2 r = true) : classOf f = .initialMT := by
  have := MTCase.C52_initial (r :: rs) r rs rfl hc hr
  rw [h] at this
  exact (TermFlags.C17_class f.tf1 f.tf2).1.2 (.inr (Option.some.inj this))

/-- Shifting keeps donors. -/
theorem shift_one : ∀ (l : List ℕ) (m1 m2 : ℕ), m1 ≤ 9 → (∃ n ∈ l, n ≤ 9) → ∃ n ∈ MTCase.shift m1 m2 l, n ≤ 9
  | [], _, _, _, ⟨n, hn, _⟩ => by cases hn
  | c :: cs, m1, m2, hm, ⟨n, hn, h9⟩ => by
    unfold MTCase.shift
    by_cases hc : c ≤ 9
    · rw [if_pos hc]
      exact ⟨_, List.mem_cons_self, by split_ifs <;> omega⟩
    · rw [if_neg hc]
      have hcs : ∃ n ∈ cs, n ≤ 9 := by
        rcases List.mem_cons.1 hn with rfl | hn
        · exact absurd h9 hc
        · exact ⟨n, hn, h9⟩
      by_cases h19 : c ≤ 19
      · rw [if_pos h19]
        obtain ⟨k, hk, h⟩ := shift_one cs m1 (if c > m2 then c else m2) hm hcs
        exact ⟨k, List.mem_cons_of_mem _ hk, h⟩
      · rw [if_neg h19]
        obtain ⟨k, hk, h⟩ := shift_one cs m1 m2 hm hcs
        exact ⟨k, List.mem_cons_of_mem _ hk, h⟩

theorem shift_two : ∀ (l : List ℕ) (m1 m2 : ℕ), 10 ≤ m2 → (∃ n ∈ l, 10 ≤ n) → ∃ n ∈ MTCase.shift m1 m2 l, 10 ≤ n
  | [], _, _, _, ⟨n, hn, _⟩ => by cases hn
  | c :: cs, m1, m2, hm, ⟨n, hn, h9⟩ => by
    unfold MTCase.shift
    by_cases hc : c ≤ 9
    · rw [if_pos hc]
      have hcs : ∃ n ∈ cs, 10 ≤ n := by
        rcases List.mem_cons.1 hn with rfl | hn
        · omega
        · exact ⟨n, hn, h9⟩
      obtain ⟨k, hk, h⟩ := shift_two cs (if c > m1 then c else m1) m2 hm hcs
      exact ⟨k, List.mem_cons_of_mem _ hk, h⟩
    · rw [if_neg hc]
      by_cases h19 : c ≤ 19
      · rw [if_pos h19]
        exact ⟨_, List.mem_cons_self, by split_ifs <;> omega⟩
      · rw [if_neg h19]
        exact ⟨c, List.mem_cons_self, by omega⟩

theorem case_named {n : ℕ} (h : MTLabel.Case n) : n = 9 ∨ MTCase.Named n := by
  have k : ∀ m ∈ [1, 2, 3, 4, 5, 8, 11, 12, 13, 14, 15, 18, 19], m ≠ 9 ∧ m ≠ 0 ∧ (MTCase.label m).isSome = true := by decide +kernel
  by_cases h9 : n = 9
  · exact .inl h9
  · right
    unfold MTLabel.Case at h
    have : n ∈ [1, 2, 3, 4, 5, 8, 11, 12, 13, 14, 15, 18, 19] := by
      simp only [List.mem_cons, List.not_mem_nil, or_false] at h ⊢
      omega
    obtain ⟨h1, h2, h3⟩ := k n this
    exact ⟨h1, h2, Option.isSome_iff_exists.1 h3⟩

/-- Regular ends, mass transfer not from the start, no contact and no case left undetermined for star 1: the run has mass transfer in both
directions exactly if each star is a donor in some row. -/
theorem C134_class_stable (start : Bool) (f : Flags) {rows : List Row} (h : massTransferFlag start rows = some f.tf2) (h1 : f.tf1 ∈ TermFlags.tf1Stable)
    (hc : rows.any (fun r => gtN r.rel1 0 && gtN r.rel2 0) = false) (hs : start = true ∨ ∀ r rs, rows = r :: rs → rlof1 r = false ∧ rlof2 r = false)
    (h9 : 9 ∉ rows.filterMap mtEntry) (hn : ∃ r ∈ rows, rlof1 r = true ∨ rlof2 r = true) :
    classOf f = if (∃ r ∈ rows, rlof1 r = true) ∧ (∃ r ∈ rows, rlof2 r = true) then .stableReverse else .stable := by
  have hflag : MTCase.flag true (rows.filterMap mtEntry) = some f.tf2 := by
    unfold massTransferFlag at h
    rw [if_neg (by rw [hc]; simp)] at h
    have b2 : ¬ (!rows.any rlof1 && !rows.any rlof2) = true := by
      obtain ⟨r, hr, hr'⟩ := hn
      simp only [Bool.and_eq_true, Bool.not_eq_true', List.any_eq_false, not_and]
      intro e e2
      rcases hr' with h3 | h3
      · exact e r hr h3
      · exact e2 r hr h3
    rw [if_neg b2] at h
    have b3 : (rows.any rlof1 && !start && (rows.head?.map rlof1 == some true)) = false ∧
        (rows.any rlof2 && !start && (rows.head?.map rlof2 == some true)) = false := by
      rcases hs with hs | hs
      · simp [hs]
      · cases rows with
        | nil => simp
        | cons r rs => simp [hs r rs rfl]
    rw [b3.1, b3.2] at h
    simpa using h
  have hcase := MTLabel.entries_case rows
  generalize hes : rows.filterMap mtEntry = es at *
  have hesne : es ≠ [] := by
    obtain ⟨r, hr, hr'⟩ := hn
    have : ∃ c, mtEntry r = some c := by
      unfold mtEntry
      by_cases h2 : rlof2 r = true
      · exact ⟨_, if_pos h2⟩
      · rw [if_neg h2, if_pos (hr'.resolve_right h2)]
        exact ⟨_, rfl⟩
    obtain ⟨c, hcc⟩ := this
    intro e
    have : c ∈ rows.filterMap mtEntry := List.mem_filterMap.2 ⟨r, hr, hcc⟩
    rw [hes, e] at this
    cases this
  obtain ⟨sh1, -, -⟩ := MTLabel.shifted hcase
  have c9 : 9 ∉ MTCase.shift 0 10 es := fun e => h9 (sh1 9 e)
  have c0 : 0 ∉ MTCase.shift 0 10 es := fun e => by
    have := hcase 0 (sh1 0 e)
    revert this
    decide
  have cne : MTCase.shift 0 10 es ≠ [] := by
    cases es with
    | nil => exact absurd rfl hesne
    | cons c cs => unfold MTCase.shift; split_ifs <;> simp
  have cf : (MTCase.shift 0 10 es).filter (· ≠ 9) = MTCase.shift 0 10 es := MTCase.filter_id_of_not_mem _ 9 c9
  have htext := MTLabel.flag_text c0 cne (by rw [cf]; exact cne)
  have ht2 : f.tf2 = MTLabel.text (MTLabel.steps (MTCase.shift 0 10 es)) := by
    unfold MTCase.flag at hflag
    rw [if_pos rfl, htext, if_neg c9] at hflag
    exact (Option.some.inj hflag).symm
  obtain ⟨st1, -, st3, st4, st5⟩ := MTLabel.steps_facts (MTCase.shift 0 10 es)
  have stne := st4 (by rw [cf]; exact cne)
  have hren : f.tf2 = MTCase.render (MTLabel.steps (MTCase.shift 0 10 es)) := by
    rw [ht2]
    unfold MTCase.render MTLabel.text
    rw [if_neg (by simpa using stne)]
  have hmem : ∀ n ∈ MTLabel.steps (MTCase.shift 0 10 es), MTLabel.Case n := fun n hnm => hcase n (sh1 n (st1.subset hnm))
  unfold classOf
  rw [hren]
  have key := TermFlags.C17_reverse_iff_both_donors f.tf1 h1 (MTLabel.steps (MTCase.shift 0 10 es)) (fun n hnm => case_named (hmem n hnm)) (by
    obtain ⟨n, hnm⟩ := List.exists_mem_of_ne_nil _ stne
    exact ⟨n, hnm, fun e => st3 (e ▸ hnm)⟩)
  rw [key]
  have i1 : (∃ n ∈ MTLabel.steps (MTCase.shift 0 10 es), n < 10 ∧ n ≠ 9) ↔ ∃ r ∈ rows, rlof1 r = true := by
    constructor
    · rintro ⟨n, hnm, hlt, -⟩
      have hin : n ∈ rows.filterMap mtEntry := hes ▸ sh1 n (st1.subset hnm)
      obtain ⟨r, hr, he⟩ := List.mem_filterMap.1 hin
      refine ⟨r, hr, ?_⟩
      unfold mtEntry at he
      by_cases h2 : rlof2 r = true
      · rw [if_pos h2] at he
        have := Option.some.inj he
        omega
      · rw [if_neg h2] at he
        by_cases h3 : rlof1 r = true
        · exact h3
        · rw [if_neg h3] at he; cases he
    · rintro ⟨r, hr, h3⟩
      have h2 : ¬ rlof2 r = true := fun h2 => MTCase.C52_one_donor_per_row r ⟨h3, h2⟩
      have he : mtEntry r = some (inferCase (some r.rel1) (some r.rate) r.state1 true) := by
        unfold mtEntry
        rw [if_neg h2, if_pos h3]
      have hin : inferCase (some r.rel1) (some r.rate) r.state1 true ∈ es := hes ▸ List.mem_filterMap.2 ⟨r, hr, he⟩
      have hle : inferCase (some r.rel1) (some r.rate) r.state1 true ≤ 9 := by
        have := MTLabel.inferCase_mem (some r.rel1) (some r.rate) r.state1 true
        revert this
        generalize inferCase (some r.rel1) (some r.rate) r.state1 true = x
        intro this
        simp only [List.mem_cons, List.not_mem_nil, or_false] at this
        omega
      obtain ⟨k, hk, hk9⟩ := shift_one es 0 10 (by omega) ⟨_, hin, hle⟩
      have hk' : k ≠ 9 := fun e => c9 (e ▸ hk)
      exact ⟨k, st5 k hk hk', by omega, hk'⟩
  have i2 : (∃ n ∈ MTLabel.steps (MTCase.shift 0 10 es), 10 ≤ n) ↔ ∃ r ∈ rows, rlof2 r = true := by
    constructor
    · rintro ⟨n, hnm, hle⟩
      have hin : n ∈ rows.filterMap mtEntry := hes ▸ sh1 n (st1.subset hnm)
      obtain ⟨r, hr, he⟩ := List.mem_filterMap.1 hin
      refine ⟨r, hr, ?_⟩
      unfold mtEntry at he
      by_cases h2 : rlof2 r = true
      · exact h2
      · rw [if_neg h2] at he
        by_cases h3 : rlof1 r = true
        · rw [if_pos h3] at he
          have h4 := Option.some.inj he
          have := MTLabel.inferCase_mem (some r.rel1) (some r.rate) r.state1 true
          rw [h4] at this
          simp only [List.mem_cons, List.not_mem_nil, or_false] at this
          omega
        · rw [if_neg h3] at he; cases he
    · rintro ⟨r, hr, h3⟩
      have he : mtEntry r = some (inferCase (some r.rel2) (some r.rate) r.state2 true + 10) := by
        unfold mtEntry
        rw [if_pos h3]
      have hin : inferCase (some r.rel2) (some r.rate) r.state2 true + 10 ∈ es := hes ▸ List.mem_filterMap.2 ⟨r, hr, he⟩
      obtain ⟨k, hk, hk9⟩ := shift_two es 0 10 (by omega) ⟨_, hin, by omega⟩
      exact ⟨k, st5 k hk (by omega), hk9⟩
  simp only [i1, i2]

/-! ### Failures -/

/-- A history that ends before the model cannot tell the state. -/
theorem C134_short (ph : Phys) {h : Hist} (mass : List Num) {i n : ℕ} (hc : Complete n h) (hi : n ≤ i) :
    stateAt ph (some h) mass (some i) = .error .index := by
  have hv : value h (some i) (chars! "surface_h1") = .error .index := by
    obtain ⟨l, h1, h2⟩ := hc (chars! "surface_h1") (by simp [needed])
    unfold value item
    rw [h1]
    simp only [List.getElem?_eq_none (show l.length ≤ i by omega)]
  have hin : inputs h (some i) = .error .index := by
    unfold inputs
    rw [hv]
  unfold stateAt
  simp only [firstMissing_none hc, hin]

theorem cases_err {state : ℕ → Except Err String} {over : BRow → Bool} {rel : BRow → Num} {shift : ℕ} :
    ∀ {l : List (BRow × ℕ)}, (∃ p ∈ l, over p.1 = true ∧ ∃ e, state p.2 = .error e) → ∃ e, cases state over rel shift l = .error e
  | [], ⟨_, h, _⟩ => by cases h
  | (b, i) :: rest, ⟨p, hp, ho, e, he⟩ => by
    unfold cases
    rcases List.mem_cons.1 hp with rfl | hp
    · simp only [if_pos ho, he]
      exact ⟨e, rfl⟩
    · obtain ⟨e', h'⟩ := cases_err (rel := rel) (shift := shift) (l := rest) ⟨p, hp, ho, e, he⟩
      by_cases hb : over b = true
      · simp only [if_pos hb, h']
        cases state i with
        | error e2 => exact ⟨e2, rfl⟩
        | ok s => exact ⟨e', rfl⟩
      · simp only [if_neg hb, h']
        exact ⟨e', rfl⟩

/-- A model in which star 1 overflows after the end of its history: the flags of the run are not found, also when star 2 overflows from the start
and the flag would not need the states. -/
theorem C134_transfer_short (ph : Phys) (start : Bool) {rows : List BRow} {h1 h2 : Option Hist} {tf1 : String} (n1 : tf1 ∉ TermFlags.tf1Error)
    (n2 : tf1 ∉ TermFlags.tf1Initial) (hc : rows.any (fun b => gtN b.rel1 0 && gtN b.rel2 0) = false)
    (hs : start = true ∨ rows.head?.map over1 ≠ some true) {h : Hist} (hh : h1 = some h) {n i : ℕ} (hcomp : Complete n h) (hn : n ≤ i) {b : BRow}
    (hb : rows[i]? = some b) (ho : over1 b = true) : ∃ e, flag2 ph start rows h1 h2 tf1 = .error e := by
  subst hh
  have hany : rows.any over1 = true := List.any_eq_true.2 ⟨b, List.mem_of_getElem? hb, ho⟩
  obtain ⟨e, he⟩ := cases_err (state := fun i => stateAt ph (some h) (rows.map (·.mass1)) (some i)) (over := over1) (rel := (·.rel1)) (shift := 0)
    (l := rows.zipIdx) ⟨(b, i), List.mem_zipIdx_iff_getElem?.2 hb, ho, .index, C134_short ph _ hcomp hn⟩
  unfold flag2
  rw [if_neg n1, if_neg n2, if_neg (by rw [hc]; simp), if_neg (by simp [hany])]
  have hi : ¬ (rows.any over1 && !start && (rows.head?.map over1 == some true)) = true := by
    rcases hs with hs | hs
    · simp [hs]
    · simp only [Bool.and_eq_true, beq_iff_eq, not_and]
      exact fun _ => hs
  rw [if_neg hi, he]
  exact ⟨e, rfl⟩

/-- Without a binary history there are no flags. -/
theorem C134_no_history (ph : Phys) (start : Bool) (new : String) (r : Run) (h : r.rows = none) : flags ph start new r = .error .type := by
  unfold flags
  rw [h]

/-- With an empty binary history neither. -/
theorem C134_no_rows (ph : Phys) (start : Bool) (new : String) (r : Run) (h : r.rows = some []) (h1 : r.h1 = none) :
    flags ph start new r = .error .index := by
  unfold flags
  rw [h, h1]
  rfl

/-- A given flag is used in place of that of the log, and all others follow it: the flags do not depend on the log. -/
theorem C134_given (ph : Phys) (start : Bool) {new : String} (h : new ≠ "") (r : Run) (log : Option (List Name)) :
    flags ph start new { r with log := log } = flags ph start new r := by
  unfold flags flag1
  rw [if_neg h, if_neg h]

/-- Single stars: the flag of the log and the state at the last model. -/
theorem C134_single (ph : Phys) (log : Option (List Name)) {h : Hist} {m : List Num} (hm : h (chars! "star_mass") = some m) (hne : m ≠ [])
    (hc : Complete m.length h) : single ph log (some h) = .ok (flagOut log, stateName ph (some h) m (m.length - 1)) := by
  have hg : Good m.length (some h) := fun x hx => Option.some.inj hx ▸ hc
  have hpos : 0 < m.length := List.length_pos_iff.2 hne
  unfold single
  dsimp only
  rw [hm]
  dsimp only
  rw [stateAt_last ph hg hne, stateName_spec ph hg (show m.length - 1 < m.length by omega)]

/-- Without its history or without its masses no flags of a single star. -/
theorem C134_single_error (ph : Phys) (log : Option (List Name)) : single ph log none = .error .type ∧
    ∀ h : Hist, h (chars! "star_mass") = none → single ph log (some h) = .error (.key (chars! "star_mass")) := by
  refine ⟨rfl, fun h hm => ?_⟩
  unfold single
  dsimp only
  rw [hm]

/-! ### The last states of a binary -/

theorem lastStates_ok {A B : Type} (f : A → B) (l : List A) : ∀ n, n ≤ l.length → lastStates f l n = .ok ((l.drop (l.length - n)).map f)
  | 0, _ => by simp [lastStates]
  | n + 1, h => by
    have hlt : l.length - (n + 1) < l.length := by omega
    have e : fromEnd l (n + 1) = some l[l.length - (n + 1)] := by
      unfold fromEnd
      rw [if_pos ⟨h, by omega⟩, List.getElem?_eq_getElem hlt]
    unfold lastStates
    rw [e]
    dsimp only
    rw [lastStates_ok f l n (by omega)]
    dsimp only
    rw [List.drop_eq_getElem_cons hlt, List.map_cons, show l.length - (n + 1) + 1 = l.length - n by omega]

/-- The states of the last `n` rows, oldest first, whatever the rule for one row; all rows if `n` is their number. -/
theorem C134_array {A B : Type} (f : A → B) (l : List A) (n : ℕ) :
    (n ≤ l.length → lastStates f l n = .ok ((l.drop (l.length - n)).map f)) ∧ (l.length < n → lastStates f l n = .error .index) ∧
    lastStates f l l.length = .ok (l.map f) := by
  refine ⟨lastStates_ok f l n, fun h => ?_, by simpa using lastStates_ok f l l.length (le_refl _)⟩
  cases n with
  | zero => omega
  | succ n =>
    have e : fromEnd l (n + 1) = none := by
      unfold fromEnd
      rw [if_neg (by omega)]
    unfold lastStates
    rw [e]

/-! ### Cases -/

/-- A star that burns hydrogen in all of two models. -/
def exHist : Hist := fun n => if n ∈ needed then some [some (7 / 10), some (3 / 10)] else none

theorem exHist_complete : Complete 2 exHist := fun v hv => ⟨[some (7 / 10), some (3 / 10)], if_pos hv, rfl⟩

/-- A detached model, then overflow of star 1 with a compact companion. -/
def exRows : List BRow := [⟨some (-1), some (-1), some (-20), some 10, some 5⟩, ⟨some (1 / 10), some (-1), some (-4), some 9, some 5⟩]

/-- Its flags exist and the class is that of stable transfer, by the theorems. -/
example (ph : Phys) : ∃ f, flags ph false "" ⟨some [chars! "termination code: Primary has depleted central carbon"], some exRows, some exHist, none⟩ = .ok f ∧
    f.tf1 = "Primary has depleted central carbon" := by
  obtain ⟨f, h1, h2, -⟩ := C134_flags ph false ""
    ⟨some [chars! "termination code: Primary has depleted central carbon"], some exRows, some exHist, none⟩ (rows := exRows) rfl (by simp [exRows])
    (fun x hx => Option.some.inj hx ▸ exHist_complete) (fun x hx => by cases hx)
  refine ⟨f, h1, h2.trans ?_⟩
  rw [if_pos rfl]
  have := C134_log [] [] (chars! "Primary has depleted central carbon") (fun q hq => by cases hq) (by decide +kernel)
  rw [show code1 ++ (chars! "Primary has depleted central carbon") = (chars! "termination code: Primary has depleted central carbon") from rfl] at this
  rw [List.nil_append] at this
  rw [this]
  decide +kernel

/-- The hypotheses on the rows of `C134_class_stable` are met by these, with the state of a star on the main sequence. -/
example : let rows := labelled (fun _ => "H-rich_Core_H_burning") (fun _ => "NS") exRows
    rows.any (fun r => gtN r.rel1 0 && gtN r.rel2 0) = false ∧ (∀ r rs, rows = r :: rs → rlof1 r = false ∧ rlof2 r = false) ∧
    9 ∉ rows.filterMap mtEntry ∧ (∃ r ∈ rows, rlof1 r = true ∨ rlof2 r = true) ∧ rows.filterMap mtEntry = [1] := by
  refine ⟨by decide +kernel, fun r rs h => ?_, by decide +kernel, by decide +kernel, by decide +kernel⟩
  have : r = ⟨some (-1), some (-1), some (-20), "H-rich_Core_H_burning", "NS"⟩ := by
    have := congrArg List.head? h
    exact (Option.some.inj this).symm
  subst this
  decide +kernel

/-- A model of star 1 whose state is not known hides that it is a donor later: both stars are donors, one with a known state, and the class is
that of transfer in one direction. -/
theorem C134_undetermined_violated : ∃ rows : List Row, (∃ r ∈ rows, rlof1 r = true ∧ mtEntry r = some 1) ∧ (∃ r ∈ rows, rlof2 r = true) ∧
    (∀ r rs, rows = r :: rs → rlof1 r = false ∧ rlof2 r = false) ∧
    ∃ t, massTransferFlag false rows = some t ∧ TermFlags.inferClass "Primary has depleted central carbon" t = .stable := by
  refine ⟨[⟨some (-1), some (-1), some (-20), "H-rich_Core_H_burning", "H-rich_Core_H_burning"⟩,
    ⟨some (1 / 10), some (-1), some (-4), "undetermined_evolutionary_state", "H-rich_Core_H_burning"⟩,
    ⟨some (1 / 10), some (-1), some (-4), "H-rich_Core_H_burning", "H-rich_Core_H_burning"⟩,
    ⟨some (-1), some (1 / 10), some (-4), "H-rich_Core_H_burning", "H-rich_Core_H_burning"⟩], by decide +kernel, by decide +kernel, fun r rs h => ?_, ?_⟩
  · obtain rfl := (Option.some.inj (congrArg List.head? h)).symm
    decide +kernel
  · exact ⟨(chars! "?case_A2"), by decide +kernel, by decide +kernel⟩

end Verif.RunLabels
