import Verif.MassFault
import Verif.PopMassProps
import Mathlib.Algebra.BigOperators.Group.List.Lemmas
import Mathlib.Algebra.Order.BigOperators.Group.List
/-!
C54: the simulated mass, in any order and any distribution of the systems, and when files or columns are missing.
-/
namespace Verif.PopMass

/-- Files spread in any other way, in any order: the records are the same. -/
theorem C54_distribution (files files' : List (List Sys)) (hp : files.flatten.Perm files'.flatten)
    (hn : ∀ f ∈ files, (f.map (·.first.index)).Nodup) (hn' : ∀ f ∈ files', (f.map (·.first.index)).Nodup) :
    addFiles (files.map fun f => ((f.map Sys.rows).flatten, f.length)) = addFiles (files'.map fun f => ((f.map Sys.rows).flatten, f.length)) := by
  obtain ⟨a1, a2, a3, a4⟩ := C54_simulated_mass files hn
  obtain ⟨b1, b2, b3, b4⟩ := C54_simulated_mass files' hn'
  have h1 := (hp.map Sys.birthMass).sum_eq
  have h2 := hp.length_eq
  have h3 := ((hp.filter (·.first.single)).map Sys.birthMass).sum_eq
  generalize addFiles (files.map fun f => ((f.map Sys.rows).flatten, f.length)) = r at *
  generalize addFiles (files'.map fun f => ((f.map Sys.rows).flatten, f.length)) = r' at *
  obtain ⟨t, s, b, n⟩ := r
  obtain ⟨t', s', b', n'⟩ := r'
  dsimp only at *
  have ht : t = t' := by rw [a1, b1, h1]
  have hs : s = s' := by rw [a3, b3, h3]
  have hn : n = n' := by rw [a2, b2, h2]
  have hb : b = b' := by
    have : s + b = s + b' := by rw [← a4, ht, b4, hs]
    exact add_left_cancel this
  rw [ht, hs, hb, hn]

/-- Systems of positive mass: the records are not negative and grow with every system. -/
theorem C54_positive (files : List (List Sys)) (hn : ∀ f ∈ files, (f.map (·.first.index)).Nodup)
    (hm : ∀ f ∈ files, ∀ s ∈ f, 0 ≤ starMass s.first.m1 ∧ 0 ≤ starMass s.first.m2) :
    let r := addFiles (files.map fun f => ((f.map Sys.rows).flatten, f.length))
    0 ≤ r.single ∧ r.single ≤ r.total := by
  have h0 : ∀ s ∈ files.flatten, 0 ≤ s.birthMass := by
    intro s hs
    obtain ⟨f, hf, hs⟩ := List.mem_flatten.mp hs
    obtain ⟨h1, h2⟩ := hm f hf s hs
    unfold Sys.birthMass
    split
    · exact h1
    · exact add_nonneg h1 h2
  obtain ⟨a1, _, a3, _⟩ := C54_simulated_mass files hn
  refine ⟨?_, ?_⟩
  · rw [a3]
    apply List.sum_nonneg
    intro x hx
    obtain ⟨s, hs, rfl⟩ := List.mem_map.mp hx
    exact h0 s (List.mem_filter.mp hs).1
  · rw [a1, a3]
    generalize files.flatten = l at h0
    induction l with
    | nil => simp
    | cons s l ih =>
      have hi := ih (fun t ht => h0 t (by simp [ht]))
      have hs := h0 s (by simp)
      simp only [List.filter_cons, List.map_cons, List.sum_cons]
      split
      · simpa using hi
      · exact hi.trans (le_add_of_nonneg_left hs)

/-- A companion without a mass (NaN) does not count: the binary contributes its primary. -/
theorem C54_no_companion (s : Sys) (h : s.first.m2 = none) : s.birthMass = starMass s.first.m1 := by
  unfold Sys.birthMass
  split <;> simp [h, starMass]

end Verif.PopMass

namespace Verif.MassFault

open Verif.PopMass

/-- The file of a batch of systems with all columns. -/
def batch (ss : List Sys) : Stored := save true (ss.map Sys.rows).flatten ss.length

theorem fold_ok (l : List (List Sys)) : ∀ a : Acc,
    (l.map fun ss => (batch ss, Pop.Fault.none)).foldl (addOne true) a =
      ⟨a.hist ++ (l.map fun ss => (ss.map Sys.rows).flatten).flatten,
        if l = [] then a.oneline else some (a.oneline.getD 0 + (l.map List.length).sum),
        (l.map fun ss => ((ss.map Sys.rows).flatten, ss.length)).foldl (fun m f => addFile m f.1 f.2) a.mass⟩ := by
  induction l with
  | nil => intro a; simp
  | cons ss l ih =>
    intro a
    simp only [List.map_cons, List.foldl_cons]
    rw [ih]
    simp only [addOne, batch, save, if_true, List.flatten_cons, List.append_assoc, List.sum_cons, Option.getD_some, reduceCtorEq, if_false,
      Acc.mk.injEq, true_and, and_true]
    split
    · subst_vars; simp
    · congr 1; omega

/-- All files readable: the combined file has the rows of all files in their order, and its records are those of the systems in it. -/
theorem C54_combined (l : List (List Sys)) (hl : l ≠ []) (hn : ∀ f ∈ l, (f.map (·.first.index)).Nodup) :
    ∃ a, combine true (l.map fun ss => (batch ss, Pop.Fault.none)) = .ok a ∧
      a.hist = (l.map fun ss => (ss.map Sys.rows).flatten).flatten ∧ a.oneline = some l.flatten.length ∧
      a.mass.systems = l.flatten.length ∧ a.mass.total = (l.flatten.map Sys.birthMass).sum := by
  obtain ⟨ss, l', rfl⟩ := List.exists_cons_of_ne_nil hl
  obtain ⟨h1, h2, _, _⟩ := C54_simulated_mass (ss :: l') hn
  have hc : combine true ((ss :: l').map fun ss => (batch ss, Pop.Fault.none)) =
      .ok (((ss :: l').map fun ss => (batch ss, Pop.Fault.none)).foldl (addOne true) ⟨[], none, zero⟩) := by
    simp only [combine, List.map_cons]
    rw [if_neg (by simp [batch, save])]
  refine ⟨_, hc, ?_⟩
  rw [fold_ok]
  refine ⟨by simp, ?_, ?_, ?_⟩
  · simp only [reduceCtorEq, if_false, Option.getD_none, Nat.zero_add]
    rw [List.length_flatten]
  · exact h2
  · exact h1

/-- A file whose one-line table cannot be written: its systems are counted in the records although the file does not hold them. -/
theorem C54_append_violated (ss : List Sys) (hss : ss ≠ []) (h : List Row) (m : Masses) (k : ℕ) :
    let a := addOne true ⟨h, some k, m⟩ (batch ss, .appendOneline)
    a.oneline = some k ∧ a.mass.systems = m.systems + ss.length ∧ a.mass.systems ≠ m.systems := by
  refine ⟨rfl, rfl, ?_⟩
  have : 0 < ss.length := List.length_pos_of_ne_nil hss
  show m.systems + ss.length ≠ m.systems
  omega

/-- A file whose one-line table cannot be read: its history is in the combined file, its mass is not in the records. -/
theorem C54_read_violated (ss : List Sys) (h : List Row) (m : Masses) (k : ℕ) :
    addOne true ⟨h, some k, m⟩ (batch ss, .readOneline) = ⟨h ++ (ss.map Sys.rows).flatten, some k, m⟩ := rfl

/-- Histories without one of the columns `state`, `S1_mass`, `S2_mass`: the error is only printed, the one-line table is not stored and the recorded mass is 0. -/
theorem C54_columns_violated (hist : List Row) (n : ℕ) :
    (save false hist n).oneline = none ∧ (save false hist n).mass.total = 0 ∧ (save false hist n).mass.systems = 0 := ⟨rfl, rfl, rfl⟩

/-- Combining such files then fails. -/
theorem C54_columns_combine (f : List Row × ℕ) (fs : List (List Row × ℕ)) :
    combine false ((f :: fs).map fun f => (save false f.1 f.2, Pop.Fault.none)) = .error () := by
  simp [combine, save]

/-- A case of `C54_combined`: a binary and a single star in two files. -/
example : ∃ l : List (List Sys), l ≠ [] ∧ (∀ f ∈ l, (f.map (·.first.index)).Nodup) ∧ (l.flatten.map Sys.birthMass).sum = 21 :=
  ⟨[[⟨⟨0, false, some 10, some 4⟩, [⟨0, false, some 8, some 5⟩], by simp⟩], [⟨⟨1, true, some 7, none⟩, [], by simp⟩]], by simp, by simp,
    by norm_num [Sys.birthMass, starMass]⟩

/-- A later file whose history cannot be read or appended contributes nothing at all: the result is that of the other files. -/
theorem C54_unreadable (c : Bool) (f : Stored × Pop.Fault) (l r : List (Stored × Pop.Fault)) (x : Stored) (e : Pop.Fault)
    (he : e = .readHistory ∨ e = .appendHistory) : combine c (f :: (l ++ (x, e) :: r)) = combine c (f :: (l ++ r)) := by
  have h : ∀ a, addOne c a (x, e) = a := by
    intro a
    rcases he with rfl | rfl <;> rfl
  unfold combine
  simp only [List.foldl_cons, List.foldl_append, h]

end Verif.MassFault
