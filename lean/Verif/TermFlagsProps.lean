import Verif.Chars
import Verif.TermFlags
import Verif.MTCaseProps
/-!
Property theorems for C17 (interpolation class), C18 (boundary of initial overflow), C53 (termination code of a log).
-/
namespace Verif.TermFlags
open Verif.MTCase

/-! ### C17 -/

/-- C17.  The class as a function of the two flags; the four vocabularies of flag 1 exclude each other, so the order of
the tests only matters between the two flags. -/
theorem C17_class (tf1 : String) (tf2 : List Char) :
    (inferClass tf1 tf2 = .initialMT ↔ tf1 ∈ tf1Initial ∨ tf2 = (chars! "initial_RLOF")) ∧
    (inferClass tf1 tf2 = .notConverged ↔ tf1 ∈ tf1Error ∧ tf2 ≠ (chars! "initial_RLOF")) ∧
    (inferClass tf1 tf2 = .noMT ↔ tf1 ∉ tf1Initial ∧ tf1 ∉ tf1Error ∧ tf2 = (chars! "no_RLOF")) ∧
    (inferClass tf1 tf2 = .stable ∨ inferClass tf1 tf2 = .stableReverse ↔
      tf1 ∈ tf1Stable ∧ tf2 ≠ (chars! "initial_RLOF") ∧ tf2 ≠ (chars! "no_RLOF")) ∧
    (inferClass tf1 tf2 = .unstable ↔
      tf1 ∈ tf1Unstable ∧ tf2 ≠ (chars! "initial_RLOF") ∧ tf2 ≠ (chars! "no_RLOF")) := by
  have d1 : ∀ t ∈ tf1Initial, t ∉ tf1Error ∧ t ∉ tf1Stable ∧ t ∉ tf1Unstable := by
    simp [tf1Initial, tf1Error, tf1Stable, tf1Unstable]
  have d2 : ∀ t ∈ tf1Error, t ∉ tf1Initial ∧ t ∉ tf1Stable ∧ t ∉ tf1Unstable := by
    simp [tf1Initial, tf1Error, tf1Stable, tf1Unstable]
  have d3 : ∀ t ∈ tf1Stable, t ∉ tf1Initial ∧ t ∉ tf1Error ∧ t ∉ tf1Unstable := by
    simp [tf1Initial, tf1Error, tf1Stable, tf1Unstable]
  have d4 : ∀ t ∈ tf1Unstable, t ∉ tf1Initial ∧ t ∉ tf1Error ∧ t ∉ tf1Stable := by
    simp [tf1Initial, tf1Error, tf1Stable, tf1Unstable]
  have hne : (chars! "initial_RLOF") ≠ (chars! "no_RLOF") := by decide +kernel
  have e1 := d1 tf1
  have e2 := d2 tf1
  have e3 := d3 tf1
  have e4 := d4 tf1
  clear d1 d2 d3 d4
  unfold inferClass
  generalize (chars! "initial_RLOF") = A at *
  generalize (chars! "no_RLOF") = B at *
  by_cases hA : tf2 = A
  · have : tf2 ≠ B := fun h => hne (hA ▸ h)
    simp [hA, hne]
  · by_cases h1 : tf1 ∈ tf1Initial
    · simp [h1, e1 h1]
    · by_cases h2 : tf1 ∈ tf1Error
      · simp [hA, h1, h2, e2 h2]
      · by_cases hB : tf2 = B
        · simp [hA, h1, h2, hB, Ne.symm hne]
        · by_cases h3 : tf1 ∈ tf1Stable
          · by_cases hr : caseWord <:+: tf2 ∧ '1' ∈ tf2 ∧ '2' ∈ tf2
            · simp [hA, h1, h2, hB, h3, hr, e3 h3]
            · simp [hA, h1, h2, hB, h3, hr, e3 h3]
          · by_cases h4 : tf1 ∈ tf1Unstable
            · simp [hA, h1, h2, hB, h3, h4]
            · simp [hA, h1, h2, hB, h3, h4]

/-- Digits in a label tell the donor. -/
theorem label_digit (n : ℕ) (s : List Char) (h : label n = some s) :
    ('1' ∈ s ↔ n < 10) ∧ ('2' ∈ s ↔ 10 ≤ n) := by
  have hc : ∀ m t, caseStr m = some t → '1' ∉ t ∧ '2' ∉ t := by
    intro m t h
    unfold caseStr at h
    split at h <;> cases h <;> decide
  unfold label at h
  split at h
  · rename_i t ht
    cases h
    have := caseStr_lt _ _ ht
    simp [hc _ _ ht, this, Nat.not_le.2 this]
  · split at h
    · rename_i hn
      cases hc' : caseStr (n - 10) with
      | none => rw [hc'] at h; cases h
      | some t => rw [hc'] at h; cases h; simp [hc _ _ hc', hn, Nat.not_lt.2 hn]
    · cases h

theorem renderLoop_digit (added : Bool) (l : List ℕ) (h : ∀ n ∈ l, n = 9 ∨ Named n) :
    ('1' ∈ renderLoop added l ↔ ∃ n ∈ l, n < 10 ∧ n ≠ 9) ∧ ('2' ∈ renderLoop added l ↔ ∃ n ∈ l, 10 ≤ n) := by
  induction l generalizing added with
  | nil => simp [renderLoop]
  | cons m l ih =>
    have hl : ∀ n ∈ l, n = 9 ∨ Named n := fun n hn => h n (by simp [hn])
    rcases h m (by simp) with rfl | ⟨h9, h0, s, hs⟩
    · simp [renderLoop, ih added hl]
    · obtain ⟨a, b⟩ := label_digit m s hs
      obtain ⟨i1, i2⟩ := ih true hl
      have pre : '1' ∉ (if added then ['/'] else ['c', 'a', 's', 'e', '_']) ∧
          '2' ∉ (if added then ['/'] else ['c', 'a', 's', 'e', '_']) := by cases added <;> decide
      simp only [renderLoop, h9, h0, hs, if_false, List.mem_append, pre.1, pre.2, false_or, a, b, i1, i2]
      constructor
      · simp [h9]
      · simp

theorem renderLoop_case (l : List ℕ) (h : ∀ n ∈ l, n = 9 ∨ Named n) (hl : ∃ n ∈ l, n ≠ 9) :
    caseWord <:+: renderLoop false l := by
  induction l with
  | nil => simp at hl
  | cons m l ih =>
    have hl' : ∀ n ∈ l, n = 9 ∨ Named n := fun n hn => h n (by simp [hn])
    rcases h m (by simp) with rfl | ⟨h9, h0, s, hs⟩
    · have : ∃ n ∈ l, n ≠ 9 := by
        obtain ⟨n, hn, h9⟩ := hl
        rcases List.mem_cons.1 hn with rfl | hn
        · exact absurd rfl h9
        · exact ⟨n, hn, h9⟩
      obtain ⟨p, q, e⟩ := ih hl' this
      exact ⟨'?' :: p, q, by simp [renderLoop, ← e]⟩
    · exact ⟨[], '_' :: (s ++ renderLoop true l), by simp [renderLoop, h9, h0, hs, caseWord]⟩

/-- C17.  For a run that ended regularly, with the text of a sequence of mass-transfer cases as second flag, the class is
"reverse" exactly when both stars have been donors. -/
theorem C17_reverse_iff_both_donors (tf1 : String) (h1 : tf1 ∈ tf1Stable) (l : List ℕ)
    (h : ∀ n ∈ l, n = 9 ∨ Named n) (hl : ∃ n ∈ l, n ≠ 9) :
    inferClass tf1 (render l) = if (∃ n ∈ l, n < 10 ∧ n ≠ 9) ∧ (∃ n ∈ l, 10 ≤ n) then .stableReverse else .stable := by
  have hne : l.length ≠ 0 := by
    obtain ⟨n, hn, -⟩ := hl
    intro h0
    rw [List.length_eq_zero_iff.1 h0] at hn
    cases hn
  have hr : render l = renderLoop false l := by simp [render, hne]
  obtain ⟨d1, d2⟩ := renderLoop_digit false l h
  have hc := renderLoop_case l h hl
  have n1 : ¬ caseWord <:+: (chars! "initial_RLOF") := by decide +kernel
  have n2 : ¬ caseWord <:+: (chars! "no_RLOF") := by decide +kernel
  have hA : renderLoop false l ≠ (chars! "initial_RLOF") := fun e => by rw [e] at hc; exact n1 hc
  have hB : renderLoop false l ≠ (chars! "no_RLOF") := fun e => by rw [e] at hc; exact n2 hc
  have d3 : ∀ t ∈ tf1Stable, t ∉ tf1Initial ∧ t ∉ tf1Error := by
    simp [tf1Initial, tf1Error, tf1Stable]
  have e3 := d3 tf1 h1
  unfold inferClass
  rw [hr]
  have hI : ¬ (tf1 ∈ tf1Initial ∨ renderLoop false l = (chars! "initial_RLOF")) := fun h => h.elim e3.1 hA
  rw [if_neg hI, if_neg e3.2, if_neg hB, if_pos h1]
  have hiff : (caseWord <:+: renderLoop false l ∧ '1' ∈ renderLoop false l ∧ '2' ∈ renderLoop false l) ↔
      (∃ n ∈ l, n < 10 ∧ n ≠ 9) ∧ (∃ n ∈ l, 10 ≤ n) := by
    rw [d1, d2]; exact and_iff_right hc
  by_cases hb : (∃ n ∈ l, n < 10 ∧ n ≠ 9) ∧ (∃ n ∈ l, 10 ≤ n)
  · rw [if_pos (hiff.2 hb), if_pos hb]
  · rw [if_neg (fun h => hb (hiff.1 h)), if_neg hb]

example : inferClass "max_age" (render [9, 1, 2, 12]) = .stableReverse := by
  rw [C17_reverse_iff_both_donors "max_age" (by simp [tf1Stable]) _ (by
    intro n hn
    simp only [List.mem_cons, List.not_mem_nil, or_false] at hn
    rcases hn with rfl | rfl | rfl | rfl
    · exact .inl rfl
    all_goals exact .inr ⟨by decide, by decide, _, rfl⟩) ⟨1, by simp, by decide⟩]
  simp

/-- C17 is false for asymptotic-giant-branch runs: `Reached TPAGB`, which the log reader returns as a regular end, is in
none of the vocabularies, so a run with mass transfer is classified as unknown. -/
theorem C17_tpagb_violated :
    flagFromOutput (some [⟨none, true, true⟩]) = "Reached TPAGB" ∧
    inferClass "Reached TPAGB" (render [2]) = .unknown := by
  refine ⟨rfl, ?_⟩
  have h1 : render [2] ≠ (chars! "initial_RLOF") := by decide +kernel
  have h2 : render [2] ≠ (chars! "no_RLOF") := by decide +kernel
  have i1 : "Reached TPAGB" ∉ tf1Initial := by simp [tf1Initial]
  have i2 : "Reached TPAGB" ∉ tf1Error := by simp [tf1Error]
  have i3 : "Reached TPAGB" ∉ tf1Stable := by simp [tf1Stable]
  have i4 : "Reached TPAGB" ∉ tf1Unstable := by simp [tf1Unstable]
  unfold inferClass
  have hI : ¬ ("Reached TPAGB" ∈ tf1Initial ∨ render [2] = (chars! "initial_RLOF")) := fun h => h.elim i1 h1
  rw [if_neg hI, if_neg i2, if_neg h2, if_neg i3, if_neg i4]

/-! ### C53 -/

/-- Lines that end the search. -/
def Final (l : Line) : Prop := (l.code = none ∧ l.minStep = true ∧ l.tpagb = true) ∨ (∃ c, l.code = some c ∧ l.minStep = false)

theorem scan_append (tc : String) (a b : List Line) (h : ∀ l ∈ a, ¬ Final l) :
    scan tc (a ++ b) = scan (((a.filterMap Line.code).getLast?).getD tc) b := by
  induction a generalizing tc with
  | nil => rfl
  | cons l a ih =>
    have ha : ∀ l ∈ a, ¬ Final l := fun l hl => h l (by simp [hl])
    have hl := h l (by simp)
    cases hc : l.code with
    | none =>
      have : (l.minStep && l.tpagb) = false := by
        by_contra hcon
        simp only [Bool.not_eq_false, Bool.and_eq_true] at hcon
        exact hl (.inl ⟨hc, hcon⟩)
      simp only [List.cons_append, scan, hc, this, Bool.false_eq_true, if_false]
      rw [ih tc ha, List.filterMap_cons_none hc]
    | some c =>
      have : l.minStep = true := by
        by_contra hcon
        exact hl (.inr ⟨c, hc, by simpa using hcon⟩)
      simp only [List.cons_append, scan, hc, this, if_true]
      rw [ih c ha, List.filterMap_cons_some hc]
      cases a.filterMap Line.code with
      | nil => rfl
      | cons x xs => rw [List.getLast?_cons_cons]; rfl

/-- C53.  The termination code reported is that of the last line that states one for another reason than a too small time
step (or "Reached TPAGB" if the last such line says so); if there is none, the first small-time-step code; if there is no
code at all, the cluster time limit. -/
theorem C53_last_code (pre post : List Line) (l : Line) (hpost : ∀ q ∈ post, ¬ Final q) :
    (∀ c, l.code = some c → l.minStep = false → flagFromOutput (some (pre ++ l :: post)) = c) ∧
    (l.code = none → l.minStep = true → l.tpagb = true →
      flagFromOutput (some (pre ++ l :: post)) = "Reached TPAGB") := by
  have hrev : (pre ++ l :: post).reverse = post.reverse ++ (l :: pre.reverse) := by simp
  have hf : ∀ q ∈ post.reverse, ¬ Final q := fun q hq => hpost q (by simpa using hq)
  constructor
  · intro c hc hm
    simp only [flagFromOutput]
    rw [hrev, scan_append _ _ _ hf]
    simp [scan, hc, hm]
  · intro hc hm ht
    simp only [flagFromOutput]
    rw [hrev, scan_append _ _ _ hf]
    simp [scan, hc, hm, ht]

theorem C53_no_final_line (lines : List Line) (h : ∀ q ∈ lines, ¬ Final q) :
    flagFromOutput (some lines) = match (lines.filterMap Line.code).head? with
      | some c => if c.length > 0 then c else "reach cluster timelimit"
      | none => "reach cluster timelimit" := by
  have hf : ∀ q ∈ lines.reverse, ¬ Final q := fun q hq => h q (by simpa using hq)
  have := scan_append "" lines.reverse [] hf
  simp only [flagFromOutput]
  rw [List.append_nil] at this
  rw [this, List.filterMap_reverse, List.getLast?_reverse]
  cases (lines.filterMap Line.code).head? <;> simp [scan]

theorem C53_no_log : flagFromOutput none = "reach cluster timelimit" := rfl

example : flagFromOutput (some [⟨none, false, false⟩, ⟨some "max_age", false, false⟩,
    ⟨some "min_timestep_limit", true, false⟩]) = "max_age" := by decide

/-! ### C18 -/

/-- Initial masses on the grid: two runs have either the same masses or clearly different ones. -/
def Separated (rs : List Sys) : Prop :=
  ∀ a ∈ rs, ∀ b ∈ rs, near a b = true → a.m1 = b.m1 ∧ a.m2 = b.m2

/-- What the list of detected systems should be for the overflowing runs `rs`. -/
structure Boundary (rs det : List Sys) : Prop where
  /-- every entry is one of the runs -/
  sound : ∀ d ∈ det, d ∈ rs
  /-- one entry per mass pair -/
  unique : det.Pairwise (fun a b => ¬ (a.m1 = b.m1 ∧ a.m2 = b.m2))
  /-- every run is covered by an entry with the same masses and at least its period -/
  cover : ∀ r ∈ rs, ∃ d ∈ det, d.m1 = r.m1 ∧ d.m2 = r.m2 ∧ r.period ≤ d.period

theorem boundary_step (rs det : List Sys) (r : Sys) (hs : Separated (rs ++ [r])) (h : Boundary rs det) :
    Boundary (rs ++ [r]) (detectStep det r) := by
  have hnear : ∀ d ∈ det, near d r = true → d.m1 = r.m1 ∧ d.m2 = r.m2 := fun d hd hn =>
    hs d (by simp [h.sound d hd]) r (by simp) hn
  have hnear' : ∀ d : Sys, d.m1 = r.m1 ∧ d.m2 = r.m2 → near d r = true := by
    rintro d ⟨h1, h2⟩; simp [near, h1, h2]
  have hmass : ∀ d ∈ det, (if near d r then (if d.period < r.period then r else d) else d).m1 = d.m1 ∧
      (if near d r then (if d.period < r.period then r else d) else d).m2 = d.m2 := by
    intro d hd
    by_cases h1 : near d r = true
    · by_cases h2 : d.period < r.period
      · simp [h1, h2, hnear d hd h1]
      · simp [h1, h2]
    · simp [h1]
  have hper : ∀ d : Sys, d.period ≤ (if near d r then (if d.period < r.period then r else d) else d).period := by
    intro d
    split
    · split
      · rename_i h; exact le_of_lt h
      · exact le_refl _
    · exact le_refl _
  have humap : (det.map (fun d => if near d r then (if d.period < r.period then r else d) else d)).Pairwise
      (fun a b => ¬ (a.m1 = b.m1 ∧ a.m2 = b.m2)) := by
    rw [List.pairwise_map]
    refine h.unique.imp_of_mem ?_
    intro a b ha hb hab
    rw [(hmass a ha).1, (hmass a ha).2, (hmass b hb).1, (hmass b hb).2]
    exact hab
  have hcovmap : ∀ q ∈ rs, ∃ d ∈ det.map (fun d => if near d r then (if d.period < r.period then r else d) else d),
      d.m1 = q.m1 ∧ d.m2 = q.m2 ∧ q.period ≤ d.period := by
    intro q hq
    obtain ⟨d, hd, h1, h2, h3⟩ := h.cover q hq
    exact ⟨_, List.mem_map.2 ⟨d, hd, rfl⟩, by rw [(hmass d hd).1, h1], by rw [(hmass d hd).2, h2], h3.trans (hper d)⟩
  by_cases hany : det.any (fun d => near d r) = true
  · have he : detectStep det r = det.map (fun d => if near d r then (if d.period < r.period then r else d) else d) := by
      simp only [detectStep, hany, if_true]
    refine ⟨fun d hd => ?_, by rw [he]; exact humap, ?_⟩
    · rcases detectStep_append_or det r d hd with h1 | h1
      · simp [h.sound d h1]
      · simp [h1]
    · rw [he]
      intro q hq
      rcases List.mem_append.1 hq with hq | hq
      · exact hcovmap q hq
      · have : q = r := by simpa using hq
        subst this
        obtain ⟨d, hd, hn⟩ := List.any_eq_true.1 hany
        obtain ⟨m1, m2⟩ := hnear d hd hn
        refine ⟨_, List.mem_map.2 ⟨d, hd, rfl⟩, by rw [(hmass d hd).1, m1], by rw [(hmass d hd).2, m2], ?_⟩
        rw [if_pos hn]
        split
        · exact le_refl _
        · rename_i h; exact not_lt.1 h
  · have hno : ∀ d ∈ det, near d r = false := by
      simpa using hany
    have hmap : det.map (fun d => if near d r then (if d.period < r.period then r else d) else d) = det := by
      conv_rhs => rw [← List.map_id det]
      refine List.map_congr_left fun d hd => by simp [hno d hd]
    have he : detectStep det r = det ++ [r] := by
      simp only [detectStep, hany, if_false, hmap, Bool.false_eq_true]
    rw [he]
    refine ⟨fun d hd => ?_, ?_, ?_⟩
    · rcases List.mem_append.1 hd with h1 | h1
      · simp [h.sound d h1]
      · simp [List.mem_singleton.1 h1]
    · rw [List.pairwise_append]
      refine ⟨h.unique, by simp, fun a ha b hb => ?_⟩
      have : b = r := by simpa using hb
      subst this
      intro hm
      have := hnear' a hm
      rw [hno a ha] at this
      cases this
    · intro q hq
      rcases List.mem_append.1 hq with hq | hq
      · obtain ⟨d, hd, h'⟩ := h.cover q hq
        exact ⟨d, by simp [hd], h'⟩
      · have : q = r := by simpa using hq
        exact ⟨r, by simp, by simp [this]⟩

/-- C18 (partial: for grids whose masses are equal or differ by at least 1e-5).  The detected boundary has exactly one
entry per mass pair with an initially overflowing run, and it is the run with the longest period. -/
theorem C18_boundary_partial (runs : List (String × Sys))
    (hs : Separated ((runs.filter (fun r => r.1 == "Terminate because of overflowing initial model")).map Prod.snd)) :
    Boundary ((runs.filter (fun r => r.1 == "Terminate because of overflowing initial model")).map Prod.snd)
      (detected runs) := by
  unfold detected
  generalize (runs.filter (fun r => r.1 == "Terminate because of overflowing initial model")).map Prod.snd = rs at *
  have key : ∀ (done todo det : List Sys), Separated (done ++ todo) → Boundary done det →
      Boundary (done ++ todo) (todo.foldl detectStep det) := by
    intro done todo
    induction todo generalizing done with
    | nil => intro det _ h; simpa using h
    | cons r todo ih =>
      intro det hs h
      have e : done ++ r :: todo = (done ++ [r]) ++ todo := by simp
      rw [e] at hs ⊢
      refine ih (done ++ [r]) _ hs (boundary_step done det r ?_ h)
      intro a ha b hb
      exact hs a (List.mem_append_left _ ha) b (List.mem_append_left _ hb)
  simpa using key [] rs [] (by simpa using hs) ⟨by simp, by simp, by simp⟩

/-- Demonstration grid: two mass pairs. -/
example : detected [("Terminate because of overflowing initial model", ⟨10, 5, 1, "a", "b"⟩),
    ("max_age", ⟨10, 5, 9, "", ""⟩), ("Terminate because of overflowing initial model", ⟨10, 6, 1, "c", "d"⟩),
    ("Terminate because of overflowing initial model", ⟨10, 5, 2, "e", "f"⟩)]
    = [⟨10, 5, 2, "e", "f"⟩, ⟨10, 6, 1, "c", "d"⟩] := by decide +kernel

def ovf : String := "Terminate because of overflowing initial model"

/-- C18 is false for masses closer than the tolerance: entries drift away (the first run is not covered by any entry
within the tolerance), and one run can take two entries (the same masses listed twice). -/
theorem C18_drift_violated :
    let rs := [(ovf, ⟨0, 1, 1, "", ""⟩), (ovf, ⟨9 / 1000000, 1, 2, "", ""⟩), (ovf, ⟨18 / 1000000, 1, 3, "", ""⟩)]
    ∀ d ∈ detected rs, near d ⟨0, 1, 1, "", ""⟩ = false := by
  decide +kernel

theorem C18_duplicate_violated :
    detected [(ovf, ⟨0, 1, 1, "", ""⟩), (ovf, ⟨15 / 1000000, 1, 2, "", ""⟩), (ovf, ⟨8 / 1000000, 1, 3, "", ""⟩)]
      = [⟨8 / 1000000, 1, 3, "", ""⟩, ⟨8 / 1000000, 1, 3, "", ""⟩] := by
  decide +kernel

/-- C18.  The look-up returns the closest known system if at least 20 are known, and the default otherwise. -/
theorem C18_nearest (dflt : Sys) (m1 m2 : ℚ) (known : List Sys) :
    (known.length < 20 → nearest dflt m1 m2 known = dflt) ∧
    (20 ≤ known.length → (∀ s ∈ known, dist2 m1 m2 s < 10 ^ 99) →
      nearest dflt m1 m2 known ∈ known ∧ ∀ s ∈ known, dist2 m1 m2 (nearest dflt m1 m2 known) ≤ dist2 m1 m2 s) := by
  have key : ∀ (l : List Sys) (acc : ℚ × Sys),
      let r := l.foldl (fun (acc : ℚ × Sys) s => let d2 := dist2 m1 m2 s; if d2 < acc.1 then (d2, s) else acc) acc
      (r = acc ∧ ∀ s ∈ l, acc.1 ≤ dist2 m1 m2 s) ∨
      (r.2 ∈ l ∧ r.1 = dist2 m1 m2 r.2 ∧ r.1 < acc.1 ∧ ∀ s ∈ l, r.1 ≤ dist2 m1 m2 s) := by
    intro l
    induction l with
    | nil => intro acc; left; simp
    | cons a l ih =>
      intro acc
      simp only [List.foldl_cons]
      by_cases hd : dist2 m1 m2 a < acc.1
      · simp only [hd, if_true]
        right
        rcases ih (dist2 m1 m2 a, a) with ⟨h1, h2⟩ | ⟨h1, h2, h3, h4⟩
        · simp only at h1 h2
          rw [h1]
          refine ⟨by simp, rfl, hd, fun s hs => ?_⟩
          rcases List.mem_cons.1 hs with rfl | hs
          · exact le_refl _
          · exact h2 s hs
        · refine ⟨List.mem_cons_of_mem _ h1, h2, lt_trans h3 hd, fun s hs => ?_⟩
          rcases List.mem_cons.1 hs with rfl | hs
          · exact le_of_lt h3
          · exact h4 s hs
      · simp only [hd, if_false]
        rcases ih acc with ⟨h1, h2⟩ | ⟨h1, h2, h3, h4⟩
        · left
          refine ⟨h1, fun s hs => ?_⟩
          rcases List.mem_cons.1 hs with rfl | hs
          · exact not_lt.1 hd
          · exact h2 s hs
        · right
          refine ⟨List.mem_cons_of_mem _ h1, h2, h3, fun s hs => ?_⟩
          rcases List.mem_cons.1 hs with rfl | hs
          · exact (le_of_lt h3).trans (not_lt.1 hd)
          · exact h4 s hs
  constructor
  · intro h; simp [nearest, h]
  · intro h hfar
    have hn : nearest dflt m1 m2 known = _ := if_neg (by omega : ¬ known.length < 20)
    have hk := key known (10 ^ 99, dflt)
    rw [hn]
    rcases hk with ⟨-, h2⟩ | ⟨h1, h2, -, h4⟩
    · cases known with
      | nil => simp at h
      | cons a l =>
        exact absurd (hfar a (by simp)) (not_lt.2 (h2 a (by simp)))
    · exact ⟨h1, fun s hs => by rw [← h2]; exact h4 s hs⟩

/-- C17.  A run is classed unknown exactly if its first flag is in none of the lists and its second says neither that it overflowed at the start
nor that it never did; the reverse class is given exactly to stable flags whose second flag names cases of both donors. -/
theorem C17_unknown (tf1 : String) (tf2 : List Char) :
    (inferClass tf1 tf2 = .unknown ↔ tf1 ∉ tf1Initial ++ tf1Error ++ tf1Stable ++ tf1Unstable ∧ tf2 ≠ (chars! "initial_RLOF") ∧
      tf2 ≠ (chars! "no_RLOF")) ∧
    (inferClass tf1 tf2 = .stableReverse ↔ tf1 ∈ tf1Stable ∧ tf2 ≠ (chars! "initial_RLOF") ∧ tf2 ≠ (chars! "no_RLOF") ∧
      caseWord <:+: tf2 ∧ '1' ∈ tf2 ∧ '2' ∈ tf2) := by
  have d3 : ∀ t ∈ tf1Stable, t ∉ tf1Initial ∧ t ∉ tf1Error ∧ t ∉ tf1Unstable := by
    simp [tf1Initial, tf1Error, tf1Stable, tf1Unstable]
  have e3 := d3 tf1
  clear d3
  simp only [List.mem_append, not_or]
  unfold inferClass
  generalize (chars! "initial_RLOF") = A at *
  generalize (chars! "no_RLOF") = B at *
  by_cases hA : tf2 = A
  · simp [hA]
  · by_cases h1 : tf1 ∈ tf1Initial
    · have h3 : tf1 ∉ tf1Stable := fun h => (e3 h).1 h1
      simp [h1, h3]
    · by_cases h2 : tf1 ∈ tf1Error
      · have h3 : tf1 ∉ tf1Stable := fun h => (e3 h).2.1 h2
        simp [hA, h1, h2, h3]
      · by_cases hB : tf2 = B
        · subst hB
          simp [hA, h1, h2]
        · by_cases h3 : tf1 ∈ tf1Stable
          · by_cases hr : caseWord <:+: tf2 ∧ '1' ∈ tf2 ∧ '2' ∈ tf2
            · simp [hA, h1, h2, hB, h3, hr]
            · simp [hA, h1, h2, hB, h3, hr]
          · by_cases h4 : tf1 ∈ tf1Unstable
            · simp [hA, h1, h2, hB, h3, h4]
            · simp [hA, h1, h2, hB, h3, h4]

end Verif.TermFlags
