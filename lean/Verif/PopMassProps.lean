import Verif.PopMass
/-!
Property theorems for C54 (the simulated mass of a population).
-/
namespace Verif.PopMass

/-- A simulated system: its first history row and the later ones. -/
structure Sys where
  first : Row
  later : List Row
  same : ∀ r ∈ later, r.index = first.index

def Sys.rows (s : Sys) : List Row := s.first :: s.later

/-- Specification: a star of unknown mass adds nothing. -/
def starMass : Option ℚ → ℚ
  | some m => m
  | none => 0

/-- Specification: mass at birth.  A single star has one star; a companion entry, if any, does not count. -/
def Sys.birthMass (s : Sys) : ℚ := if s.first.single then starMass s.first.m1 else starMass s.first.m1 + starMass s.first.m2

theorem nan0_eq (x : Option ℚ) : nan0 x = starMass x := by cases x <;> rfl

theorem firsts_skip (seen : List ℕ) (l rest : List Row) (h : ∀ r ∈ l, r.index ∈ seen) :
    firsts seen (l ++ rest) = firsts seen rest := by
  induction l with
  | nil => rfl
  | cons r l ih =>
    simp only [List.cons_append, firsts]
    rw [if_pos (h r (by simp)), ih (fun r' hr' => h r' (by simp [hr']))]

theorem firsts_systems (ss : List Sys) (seen : List ℕ) (hn : (ss.map (·.first.index)).Nodup)
    (hs : ∀ s ∈ ss, s.first.index ∉ seen) :
    firsts seen (ss.map Sys.rows).flatten = ss.map (·.first) := by
  induction ss generalizing seen with
  | nil => rfl
  | cons s ss ih =>
    simp only [List.map_cons, List.nodup_cons] at hn
    simp only [List.map_cons, List.flatten_cons, Sys.rows, List.cons_append, firsts]
    rw [if_neg (hs s (by simp)), firsts_skip _ _ _ (fun r hr => by simp [s.same r hr])]
    congr 1
    apply ih _ hn.2
    intro t ht
    simp only [List.mem_cons, not_or]
    exact ⟨fun e => hn.1 (List.mem_map.2 ⟨t, ht, e⟩), hs t (by simp [ht])⟩

theorem sum_split (ss : List Sys) :
    (((ss.map (·.first)).filter (·.single)).map fun r => starMass r.m1).sum +
      (((ss.map (·.first)).filter (fun r => !r.single)).map fun r => starMass r.m1 + starMass r.m2).sum =
      (ss.map Sys.birthMass).sum := by
  induction ss with
  | nil => simp
  | cons s ss ih =>
    simp only [List.map_cons, List.filter_cons, List.sum_cons, Sys.birthMass]
    rw [← ih]
    cases s.first.single
    · simp; ring
    · simp; ring

theorem addFile_spec (a : Masses) (ss : List Sys) (hn : (ss.map (·.first.index)).Nodup) (ha : a.total = a.single + a.binaries) :
    let b := addFile a (ss.map Sys.rows).flatten ss.length
    b.total = a.total + (ss.map Sys.birthMass).sum ∧ b.systems = a.systems + ss.length ∧ b.total = b.single + b.binaries ∧
    b.single = a.single + ((ss.filter (·.first.single)).map Sys.birthMass).sum := by
  simp only [addFile, nan0_eq]
  rw [firsts_systems ss [] hn (by simp)]
  refine ⟨?_, trivial, trivial, ?_⟩
  · rw [← sum_split, ha]; ring
  · congr 1
    clear hn
    induction ss with
    | nil => simp
    | cons s ss ih =>
      simp only [List.map_cons, List.filter_cons]
      cases hs : s.first.single
      · simpa using ih
      · simp [ih, Sys.birthMass, hs]

/-- C54.  However the systems of a population are spread over files, the recorded simulated mass is the sum of the masses at birth, the
mass in single stars the part of the systems born single, and the number of systems is their number. -/
theorem C54_simulated_mass (files : List (List Sys)) (hn : ∀ f ∈ files, (f.map (·.first.index)).Nodup) :
    let r := addFiles (files.map fun f => ((f.map Sys.rows).flatten, f.length))
    r.total = (files.flatten.map Sys.birthMass).sum ∧ r.systems = files.flatten.length ∧
    r.single = ((files.flatten.filter (·.first.single)).map Sys.birthMass).sum ∧ r.total = r.single + r.binaries := by
  have key : ∀ (fs : List (List Sys)) (a : Masses), (∀ f ∈ fs, (f.map (·.first.index)).Nodup) →
      a.total = a.single + a.binaries →
      let r := (fs.map fun f => ((f.map Sys.rows).flatten, f.length)).foldl (fun a f => addFile a f.1 f.2) a
      r.total = a.total + (fs.flatten.map Sys.birthMass).sum ∧ r.systems = a.systems + fs.flatten.length ∧
      r.single = a.single + ((fs.flatten.filter (·.first.single)).map Sys.birthMass).sum ∧
      r.total = r.single + r.binaries := by
    intro fs
    induction fs with
    | nil => intro a _ ha; simp [ha]
    | cons f fs ih =>
      intro a hn ha
      obtain ⟨e1, e2, e3, e4⟩ := addFile_spec a f (hn f (by simp)) ha
      obtain ⟨i1, i2, i3, i4⟩ := ih (addFile a (f.map Sys.rows).flatten f.length) (fun g hg => hn g (by simp [hg])) e3
      simp only [List.map_cons, List.foldl_cons, List.flatten_cons, List.map_append, List.sum_append, List.length_append,
        List.filter_append]
      refine ⟨?_, ?_, ?_, i4⟩
      · rw [i1, e1]; ring
      · rw [i2, e2]; omega
      · rw [i3, e4]; ring
  have := key files ⟨0, 0, 0, 0⟩ hn (by norm_num)
  simpa [addFiles] using this

/-- C54 fails if one file holds two systems with the same index: the second one's mass is not counted although the system is. -/
theorem C54_same_index_violated :
    ∃ ss : List Sys, let r := addFiles [((ss.map Sys.rows).flatten, ss.length)]
      r.systems = 2 ∧ r.total ≠ (ss.map Sys.birthMass).sum :=
  ⟨[⟨⟨0, false, some 3, some 1⟩, [], by simp⟩, ⟨⟨0, false, some 5, some 1⟩, [], by simp⟩], by
    norm_num [addFiles, addFile, firsts, Sys.rows, Sys.birthMass, nan0, starMass]⟩

/-- Non-vacuity: a binary with two rows and a single star, in two files. -/
example : let r := addFiles [([⟨0, false, some 10, some 4⟩, ⟨0, false, some 8, some 5⟩], 1), ([⟨1, true, some 7, none⟩], 1)]
    r.total = 21 ∧ r.single = 7 ∧ r.systems = 2 := by
  norm_num [addFiles, addFile, firsts, nan0]

end Verif.PopMass
