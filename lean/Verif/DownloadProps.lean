import Verif.Download
import Mathlib.Tactic.SplitIfs
/-!
Property theorems for C44 (verification of downloaded data).
-/
namespace Verif.Download

/-! ### Specification -/

/-- An archive is genuine if it is what the server sends for a published entry and the entry's checksum, if it has one, is
that of the archive. -/
def Genuine (w : World) (a : Archive) : Prop :=
  ∃ n e u, w.collection.lookup n = some e ∧ e.url = some u ∧ a = w.server u ∧ (e.md5 = none ∨ e.md5 = some a.md5)

/-- No file operation fails while a data set is checked. -/
def CheckWorks (w : World) : Prop := ∀ n, (w.faults n).read = false ∧ (w.faults n).remove = false

/-! ### Lemmas -/

theorem extract_spec (d : Disk) (f : Faults) (u : ℕ) :
    (extract d f u).1.extracted = d.extracted ∧ (extract d f u).2 = some .io ∨
    ∃ b, d.files u = some b ∧ b.opens = true ∧ f.extract = false ∧
      extract d f u = ({ d.put u none with extracted := d.extracted ++ [b] }, none) := by
  unfold extract
  cases h : d.files u with
  | none => left; simp
  | some b =>
    by_cases hb : (!b.opens || f.extract) = true
    · left; simp [hb]
    · right
      refine ⟨b, rfl, ?_, ?_, ?_⟩
      · cases h2 : b.opens <;> simp_all
      · cases h2 : f.extract <;> simp_all
      · simp only [hb, Bool.false_eq_true, if_false]

/-- One download extracts nothing and raises an exception, or it extracts the archive the server sent. -/
theorem downloadOne_spec (w : World) (c : Bool) (d : Disk) (n : String) :
    ((downloadOne w c d n).1.extracted = d.extracted ∧ (downloadOne w c d n).2 ≠ none) ∨
    ∃ e u, w.collection.lookup n = some e ∧ e.url = some u ∧
      (downloadOne w c d n).1.extracted = d.extracted ++ [w.server u] ∧ (downloadOne w c d n).2 = none ∧
      (downloadOne w c d n).1.files u = none ∧
      (c = true → (w.faults n).read = false → (w.faults n).remove = false →
        e.md5 = none ∨ e.md5 = some (w.server u).md5) := by
  unfold downloadOne
  cases hl : w.collection.lookup n with
  | none => left; simp
  | some e =>
    simp only []
    cases hu : e.url with
    | none => left; simp
    | some u =>
      simp only []
      by_cases h1 : d.isDir = true
      swap
      · left; simp [h1]
      by_cases h2 : (d.files u).isSome = true
      · left; simp [h1, h2]
      by_cases h3 : (w.faults n).retrieve = true
      · left; simp [h1, h2, h3]
      simp only [h1, h2, h3, Bool.not_true, Bool.false_eq_true, if_false]
      generalize hd2 : (if (if e.md5.isNone = true then false else c) = true then
        md5Block (d.put u (some (w.server u))) (w.faults n) u (w.server u) (e.md5.getD 0)
        else d.put u (some (w.server u))) = d2
      have hext : d2.extracted = d.extracted := by
        rw [← hd2]; unfold md5Block
        split_ifs <;> rfl
      rcases extract_spec d2 (w.faults n) u with ⟨ha, hb⟩ | ⟨b, hb, _, _, he⟩
      · left; rw [ha, hb, hext]; simp
      · right
        have hfile : b = w.server u ∧ (c = true → (w.faults n).read = false → (w.faults n).remove = false →
            e.md5 = none ∨ e.md5 = some (w.server u).md5) := by
          rw [← hd2] at hb
          cases hm : e.md5 with
          | none =>
            simp only [hm, Option.isNone_none, if_true, Bool.false_eq_true, if_false, Disk.put] at hb
            exact ⟨by simpa using hb.symm, fun _ _ _ => Or.inl rfl⟩
          | some sum =>
            simp only [hm, Option.isNone_some, Bool.false_eq_true, if_false, Option.getD_some] at hb
            by_cases hc : c = true
            · simp only [hc, if_true, md5Block] at hb
              by_cases hr : (w.faults n).read = true
              · simp only [hr, if_true, Disk.put] at hb
                exact ⟨by simpa using hb.symm, fun _ h => by simp [hr] at h⟩
              · simp only [hr, Bool.false_eq_true, if_false] at hb
                by_cases hs : sum = (w.server u).md5
                · simp only [hs, if_true, Disk.put] at hb
                  exact ⟨by simpa using hb.symm, fun _ _ _ => Or.inr (by rw [hs])⟩
                · simp only [hs, if_false] at hb
                  by_cases hv : (w.faults n).remove = true
                  · simp only [hv, if_true, Disk.put] at hb
                    exact ⟨by simpa using hb.symm, fun _ _ h => by simp [hv] at h⟩
                  · simp [hv, Disk.put] at hb
            · simp only [hc, Bool.false_eq_true, if_false, Disk.put] at hb
              exact ⟨by simpa using hb.symm, fun h => absurd h hc⟩
        refine ⟨e, u, rfl, hu, ?_, ?_, ?_, hfile.2⟩
        · rw [he, hext, hfile.1]
        · rw [he]
        · rw [he]; simp [Disk.put]

theorem downloadAll_spec (w : World) (d : Disk) (ns : List String) (hw : CheckWorks w) :
    ∃ l, (downloadAll w true d ns).1.extracted = d.extracted ++ l ∧ ∀ a ∈ l, Genuine w a := by
  induction ns generalizing d with
  | nil => exact ⟨[], by simp [downloadAll]⟩
  | cons n ns ih =>
    unfold downloadAll
    rcases downloadOne_spec w true d n with ⟨h1, h2⟩ | ⟨e, u, hl, hu, h1, h2, _, hg⟩
    · cases hx : downloadOne w true d n with
      | mk d' o =>
        rw [hx] at h1 h2
        cases o with
        | none => exact absurd rfl h2
        | some e => exact ⟨[], by simpa using h1⟩
    · cases hx : downloadOne w true d n with
      | mk d' o =>
        rw [hx] at h1 h2
        simp only [] at h2
        subst h2
        obtain ⟨l, hl', hall⟩ := ih d'
        refine ⟨w.server u :: l, ?_, ?_⟩
        · simp only [hl']; rw [h1]; simp
        · intro a ha
          rcases List.mem_cons.1 ha with rfl | ha
          · exact ⟨n, e, u, hl, hu, rfl, hg rfl (hw n).1 (hw n).2⟩
          · exact hall a ha

/-! ### C44 -/

/-- C44.  With checking on and as long as the files can be read and removed, everything that gets extracted is genuine,
whichever other operations fail and however many data sets are asked for. -/
theorem C44_only_genuine_partial (w : World) (d : Disk) (name : String) (hw : CheckWorks w) :
    ∃ l, (dataDownload w true d name).1.extracted = d.extracted ++ l ∧ ∀ a ∈ l, Genuine w a := by
  unfold dataDownload
  split
  · exact downloadAll_spec w d _ hw
  · split
    · rcases downloadOne_spec w true d name with ⟨h1, _⟩ | ⟨e, u, hl, hu, h1, _, _, hg⟩
      · exact ⟨[], by simpa using h1⟩
      · exact ⟨[w.server u], h1, by
          intro a ha
          rw [List.mem_singleton] at ha
          subst ha
          exact ⟨name, e, u, hl, hu, rfl, hg rfl (hw name).1 (hw name).2⟩⟩
    · exact ⟨[], by simp⟩

/-- C44.  A data set whose archive does not have the published checksum is not extracted, and the caller gets an exception (not
the `ValueError` of the check, which is swallowed, but the one for the missing file). -/
theorem C44_mismatch_reported (w : World) (d : Disk) (name : String) (e : Entry) (u s : ℕ)
    (hl : w.collection.lookup name = some e) (hu : e.url = some u) (hm : e.md5 = some s)
    (hs : s ≠ (w.server u).md5) (hr : (w.faults name).read = false) (hv : (w.faults name).remove = false) :
    (downloadOne w true d name).1.extracted = d.extracted ∧ (downloadOne w true d name).2 ≠ none ∧
      (downloadOne w true d name).2 ≠ some .value := by
  have h1 : (downloadOne w true d name).1.extracted = d.extracted ∧ (downloadOne w true d name).2 ≠ none := by
    rcases downloadOne_spec w true d name with h | ⟨e', u', hl', hu', _, _, _, hg⟩
    · exact h
    · rw [hl] at hl'; cases hl'
      rw [hu] at hu'; cases hu'
      have := hg rfl hr hv
      rw [hm] at this
      simp [hs] at this
  refine ⟨h1.1, h1.2, ?_⟩
  unfold downloadOne
  simp only [hl, hu, hm]
  split
  · simp
  · split
    · simp
    · split
      · simp
      · simp [md5Block, hr, hs, hv, extract, Disk.put]

/-- C44.  A success means that the archive has been extracted and the downloaded file removed. -/
theorem C44_success (w : World) (c : Bool) (d : Disk) (name : String) (h : (downloadOne w c d name).2 = none) :
    ∃ e u, w.collection.lookup name = some e ∧ e.url = some u ∧
      (downloadOne w c d name).1.extracted = d.extracted ++ [w.server u] ∧
      (downloadOne w c d name).1.files u = none := by
  rcases downloadOne_spec w c d name with h' | ⟨e, u, hl, hu, h1, _, h2, _⟩
  · exact absurd h h'.2
  · exact ⟨e, u, hl, hu, h1, h2⟩

/-- C44.  A genuine archive does get extracted, and the archive file is removed: checking on or off, if the directory is there, the
file is not and no operation fails. -/
theorem C44_genuine_extracted (w : World) (c : Bool) (d : Disk) (name : String) (e : Entry) (u : ℕ)
    (hl : w.collection.lookup name = some e) (hu : e.url = some u) (hd : d.isDir = true) (hf : d.files u = none)
    (hm : e.md5 = none ∨ e.md5 = some (w.server u).md5) (ho : (w.server u).opens = true)
    (hw : (w.faults name).retrieve = false ∧ (w.faults name).extract = false) :
    (downloadOne w c d name).2 = none ∧ (downloadOne w c d name).1.extracted = d.extracted ++ [w.server u] ∧
      (downloadOne w c d name).1.files u = none := by
  rcases hm with hm | hm <;> cases c <;> by_cases hr : (w.faults name).read = true <;>
    simp [downloadOne, hl, hu, hd, hf, hm, hw.1, hw.2, ho, md5Block, extract, Disk.put, hr]

/-- C44 fails in general: if the corrupted file cannot be removed (or cannot be read for the check), the exception is swallowed,
the archive with the wrong checksum is extracted and the call ends normally. -/
theorem C44_swallowed_violated :
    ∃ (w : World) (d : Disk) (n : String), (dataDownload w true d n).2 = none ∧
      ∃ a ∈ (dataDownload w true d n).1.extracted, ¬ Genuine w a := by
  refine ⟨⟨[("A", ⟨some 0, some 1⟩)], [], fun _ => ⟨2, true⟩, fun _ => ⟨false, false, true, false⟩⟩,
    ⟨true, fun _ => none, []⟩, "A", rfl, ⟨2, true⟩, by simp [dataDownload, downloadOne, md5Block, extract, Disk.put,
      List.lookup], ?_⟩
  rintro ⟨n, e, u, hl, hu, ha, hm⟩
  simp only [List.lookup] at hl
  split at hl
  · cases hl; simp at hm
  · simp at hl

/-- Non-vacuity: a published set with two archives, the second of which is corrupted; only the first is extracted. -/
example :
    let w : World := ⟨[("A", ⟨some 0, some 10⟩), ("B", ⟨some 1, some 12⟩)], [("all", ["A", "B"])],
      fun u => ⟨10 + u, true⟩, fun _ => ⟨false, false, false, false⟩⟩
    CheckWorks w ∧
    (dataDownload w true ⟨true, fun _ => none, []⟩ "all").1.extracted = [⟨10, true⟩] ∧
      (dataDownload w true ⟨true, fun _ => none, []⟩ "all").2 = some .io :=
  ⟨fun _ => ⟨rfl, rfl⟩, rfl, rfl⟩

end Verif.Download
