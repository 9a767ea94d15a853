import Verif.Pop
/-!
Property theorems for C19 (every binary of a population exactly once), C20 (combining temporary files), C22 (manager).
-/
namespace Verif.Pop

variable {B : Type} [DecidableEq B] (idx : B → ℕ)

/-! ### C19: blocks of the ranks -/

/-- C19.  The blocks given to the ranks are, in order, all of the indices; there is one per rank and their sizes differ by at most
one. -/
theorem C19_blocks {α : Type} (l : List α) (size : ℕ) (hs : 0 < size) :
    (arraySplit l size).length = size ∧ (arraySplit l size).flatten = l ∧
      ∀ x ∈ arraySplit l size, ∀ y ∈ arraySplit l size, x.length ≤ y.length + 1 := by
  have hsum := splitSizes_sum l.length size hs
  have hlen := cut_lengths (splitSizes l.length size) l hsum
  refine ⟨?_, cut_flatten _ _ hsum, ?_⟩
  · have : (arraySplit l size).length = ((arraySplit l size).map List.length).length := by simp
    rw [this]; unfold arraySplit; rw [hlen, splitSizes_length _ _ hs]
  · have hm : ∀ x ∈ arraySplit l size, x.length = l.length / size ∨ x.length = l.length / size + 1 := by
      intro x hx
      have : x.length ∈ splitSizes l.length size := by
        rw [← hlen]; exact List.mem_map_of_mem (f := List.length) hx
      simp only [splitSizes, List.mem_append, List.mem_replicate] at this
      omega
    intro x hx y hy
    have := hm x hx
    have := hm y hy
    omega

example : arraySplit (List.range 7) 3 = [[0, 1, 2], [3, 4], [5, 6]] := by decide

/-! ### C19: batches of one rank -/

/-- What is still in memory. -/
def St.pending (c : Cfg B) (s : St B) : List B := if c.breakdown then s.mgr.hist else s.mgr.binaries

/-- Everything a run has produced so far is either in a file or in memory, in order, once. -/
structure Inv (c : Cfg B) (s : St B) (done : List B) : Prop where
  hist : (s.files.map (·.2.hist)).flatten ++ s.pending c = done
  oneline : (s.files.map (·.2.oneline)).flatten ++ s.pending c = done
  clean : s.mgr.Clean idx
  other : if c.breakdown then s.mgr.binaries = [] ∧ s.mgr.oneline = s.mgr.hist else s.mgr.hist = [] ∧ s.mgr.oneline = []

theorem dump_inv (c : Cfg B) (s : St B) (done : List B) (n : Name) (h : Inv idx c s done) (hp : s.pending c ≠ []) :
    ∃ s', dump idx c s n = .ok s' ∧ Inv idx c s' done ∧ s'.pending c = [] ∧
      s'.files = s.files ++ [(n, ⟨s.pending c, s.pending c⟩)] := by
  obtain ⟨h1, h2, h3, h4⟩ := h
  by_cases hb : c.breakdown = true
  · simp only [hb, if_true] at h4
    have hpe : s.pending c = s.mgr.hist := by simp [St.pending, hb]
    rw [hpe] at h1 h2 hp ⊢
    have hsave : s.mgr.save = .ok ⟨s.mgr.hist, s.mgr.hist⟩ := by
      have hl : s.mgr.hist.length ≠ 0 := by simpa using hp
      simp [Mgr.save, Mgr.toDf, Mgr.toOneline, h4.1, h4.2, hp]
    refine ⟨⟨s.mgr.clear, s.files ++ [(n, ⟨s.mgr.hist, s.mgr.hist⟩)]⟩, ?_, ?_, ?_, rfl⟩
    · simp [dump, hsave, hb]
    · constructor
      · simpa [St.pending, hb, Mgr.clear] using h1
      · simpa [St.pending, hb, Mgr.clear] using h2
      · simpa [Mgr.Clean, Mgr.clear] using h3
      · simp [hb, Mgr.clear, h4.1]
    · simp [St.pending, hb, Mgr.clear]
  · simp only [hb, Bool.false_eq_true, if_false] at h4
    have hpe : s.pending c = s.mgr.binaries := by simp [St.pending, hb]
    rw [hpe] at h1 h2 hp ⊢
    have hsave : s.mgr.save = .ok ⟨s.mgr.binaries, s.mgr.binaries⟩ := by
      have hl : 0 < s.mgr.binaries.length := List.length_pos_of_ne_nil hp
      simp [Mgr.save, Mgr.toDf, Mgr.toOneline, hp, hl]
    refine ⟨⟨{ s.mgr with binaries := [], indices := [] }, s.files ++ [(n, ⟨s.mgr.binaries, s.mgr.binaries⟩)]⟩,
      ?_, ?_, ?_, rfl⟩
    · simp [dump, hsave, hb, removeList_all idx s.mgr h3]
    · constructor
      · simpa [St.pending, hb] using h1
      · simpa [St.pending, hb] using h2
      · simp [Mgr.Clean]
      · simp [hb, h4.1, h4.2]
    · simp [St.pending, hb]

/-- The binary just evolved is what is added to memory. -/
theorem add_inv (c : Cfg B) (s : St B) (done : List B) (b : B) (h : Inv idx c s done)
    (hconv : c.breakdown = true → c.conv b = .ok) :
    let m := s.mgr.append idx b
    let m := if c.breakdown then m.breakdown idx c.conv b else m
    Inv idx c ⟨m, s.files⟩ (done ++ [b]) ∧ St.pending c ⟨m, s.files⟩ ≠ [] := by
  obtain ⟨h1, h2, h3, h4⟩ := h
  by_cases hb : c.breakdown = true
  · simp only [hb, if_true] at h4 ⊢
    have hi : s.mgr.indices = [] := by rw [h3, h4.1]; rfl
    have hm : (s.mgr.append idx b).breakdown idx c.conv b =
        ⟨[], [], s.mgr.hist ++ [b], s.mgr.oneline ++ [b]⟩ := by
      simp [Mgr.breakdown, hconv hb, Mgr.remove, Mgr.append, h4.1, hi]
    rw [hm]
    refine ⟨⟨?_, ?_, ?_, ?_⟩, ?_⟩
    · simp only [St.pending, hb, if_true] at h1 ⊢; rw [← h1]; simp
    · simp only [St.pending, hb, if_true] at h2 ⊢; rw [← h2]; simp
    · simp [Mgr.Clean]
    · simp [hb, h4.2]
    · simp [St.pending, hb]
  · simp only [hb, Bool.false_eq_true, if_false] at h4 ⊢
    refine ⟨⟨?_, ?_, ?_, ?_⟩, ?_⟩
    · simp only [St.pending, hb, Bool.false_eq_true, if_false, Mgr.append] at h1 ⊢; rw [← h1]; simp
    · simp only [St.pending, hb, Bool.false_eq_true, if_false, Mgr.append] at h2 ⊢; rw [← h2]; simp
    · simp only [Mgr.Clean, Mgr.append] at h3 ⊢; simp [h3]
    · simp [hb, Mgr.append, h4.1, h4.2]
    · simp [St.pending, hb, Mgr.append]

/-- Names used so far belong to earlier turns, and no file is empty. -/
structure Names (s : St B) (j : ℕ) : Prop where
  nodup : (s.files.map Prod.fst).Nodup
  earlier : ∀ f ∈ s.files, ∃ i < j, f.1 = .batch i
  full : ∀ f ∈ s.files, f.2.hist ≠ [] ∧ f.2.hist = f.2.oneline

theorem loop_inv (c : Cfg B) (bs : List B) (s : St B) (j : ℕ) (done : List B) (h : Inv idx c s done) (hn : Names s j)
    (hconv : ∀ b ∈ bs, c.breakdown = true → c.conv b = .ok) :
    ∃ s', loop idx c s j bs = .ok s' ∧ Inv idx c s' (done ++ bs) ∧ Names s' (j + bs.length) ∧
      (c.optimize = false → s'.files = s.files) := by
  induction bs generalizing s j done with
  | nil => exact ⟨s, rfl, by simpa using h, by simpa using hn, fun _ => rfl⟩
  | cons b bs ih =>
    have ha := add_inv idx c s done b h (hconv b (by simp))
    simp only [loop, turn]
    simp only at ha
    generalize (if c.breakdown = true then (s.mgr.append idx b).breakdown idx c.conv b else s.mgr.append idx b) = m at ha ⊢
    have hlen : j + (b :: bs).length = j + 1 + bs.length := by simp; omega
    have happ : done ++ b :: bs = done ++ [b] ++ bs := by simp
    rw [hlen, happ]
    have hconv' : ∀ b ∈ bs, c.breakdown = true → c.conv b = .ok := fun b' hb' => hconv b' (by simp [hb'])
    by_cases hd : dumpNow c j = true
    · obtain ⟨s', he, hi, _, hf⟩ := dump_inv idx c ⟨m, s.files⟩ _ (.batch j) ha.1 ha.2
      simp only [hd, if_true, he]
      have hn' : Names s' (j + 1) := by
        simp only at hf
        refine ⟨?_, ?_, ?_⟩
        · rw [hf, List.map_append, List.nodup_append]
          refine ⟨hn.nodup, by simp, ?_⟩
          intro x hx y hy
          simp only [List.map_cons, List.map_nil, List.mem_singleton] at hy
          subst hy
          obtain ⟨f, hf', rfl⟩ := List.mem_map.1 hx
          obtain ⟨i, hi', he'⟩ := hn.earlier f hf'
          rw [he']
          simp only [ne_eq, Name.batch.injEq]
          omega
        · intro f hf'
          rw [hf, List.mem_append, List.mem_singleton] at hf'
          rcases hf' with hf' | rfl
          · obtain ⟨i, hi', he'⟩ := hn.earlier f hf'
            exact ⟨i, by omega, he'⟩
          · exact ⟨j, by omega, rfl⟩
        · intro f hf'
          rw [hf, List.mem_append, List.mem_singleton] at hf'
          rcases hf' with hf' | rfl
          · exact hn.full f hf'
          · exact ⟨ha.2, rfl⟩
      obtain ⟨s'', h1, h2, h3, h4⟩ := ih s' (j + 1) _ hi hn' hconv'
      refine ⟨s'', h1, h2, h3, fun ho => ?_⟩
      simp [dumpNow, ho] at hd
    · simp only [hd, Bool.false_eq_true, if_false]
      have hn' : Names (⟨m, s.files⟩ : St B) (j + 1) :=
        ⟨hn.nodup, fun f hf => let ⟨i, hi, he⟩ := hn.earlier f hf; ⟨i, by omega, he⟩, hn.full⟩
      exact ih ⟨m, s.files⟩ (j + 1) _ ha.1 hn' hconv'

/-- C19.  With memory optimisation on (and no failing table conversion), the batches written by a rank together hold every binary
of its block exactly once and in order, both in the histories and in the one-line tables; no batch is empty, no batch file overwrites
another one, and nothing stays in memory.  This holds for every dump rate (also zero) and every memory pattern. -/
theorem C19_batches (c : Cfg B) (bs : List B) (ho : c.optimize = true)
    (hconv : ∀ b ∈ bs, c.breakdown = true → c.conv b = .ok) :
    ∃ s, evolveBlock idx c bs = .ok s ∧ (s.files.map (·.2.hist)).flatten = bs ∧
      (s.files.map (·.2.oneline)).flatten = bs ∧ (s.files.map Prod.fst).Nodup ∧ (∀ f ∈ s.files, f.2.hist ≠ []) ∧
      s.mgr.binaries = [] ∧ s.mgr.indices = [] ∧ s.mgr.hist = [] ∧ s.mgr.oneline = [] := by
  have h0 : Inv idx c ⟨Mgr.empty, []⟩ [] :=
    ⟨by simp [St.pending, Mgr.empty], by simp [St.pending, Mgr.empty], rfl, by simp [Mgr.empty]⟩
  have hn0 : Names (⟨Mgr.empty, []⟩ : St B) 0 := ⟨by simp, by simp, by simp⟩
  obtain ⟨s, hl, hi, hn, _⟩ := loop_inv idx c bs _ 0 _ h0 hn0 hconv
  rw [List.nil_append] at hi
  have hfinal : ∀ s : St B, Inv idx c s bs → s.pending c = [] → (s.files.map (·.2.hist)).flatten = bs ∧
      (s.files.map (·.2.oneline)).flatten = bs ∧ s.mgr.binaries = [] ∧ s.mgr.indices = [] ∧ s.mgr.hist = [] ∧
      s.mgr.oneline = [] := by
    intro s hi hp
    have h1 := hi.hist
    have h2 := hi.oneline
    have h3 := hi.clean
    have h4 := hi.other
    rw [hp, List.append_nil] at h1 h2
    simp only [St.pending] at hp
    by_cases hb : c.breakdown = true
    · simp only [hb, if_true] at h4 hp
      exact ⟨h1, h2, h4.1, by rw [h3, h4.1]; rfl, hp, by rw [h4.2, hp]⟩
    · simp only [hb, Bool.false_eq_true, if_false] at h4 hp
      exact ⟨h1, h2, hp, by rw [h3, hp]; rfl, h4.1, h4.2⟩
  have hpiff : (s.mgr.binaries.length ≠ 0 ∨ s.mgr.hist.length ≠ 0) ↔ s.pending c ≠ [] := by
    have h4 := hi.other
    simp only [St.pending]
    by_cases hb : c.breakdown = true
    · simp only [hb, if_true] at h4 ⊢
      simp [h4.1]
    · simp only [hb, Bool.false_eq_true, if_false] at h4 ⊢
      simp [h4.1]
  unfold evolveBlock
  rw [hl]
  simp only [ho, and_true]
  by_cases hp : s.pending c = []
  · rw [if_neg (by rw [hpiff]; simpa using hp)]
    obtain ⟨a1, a2, a3⟩ := hfinal s hi hp
    exact ⟨s, rfl, a1, a2, hn.nodup, fun f hf => (hn.full f hf).1, a3⟩
  · rw [if_pos (hpiff.2 hp)]
    obtain ⟨s', he, hi', hp', hf⟩ := dump_inv idx c s _ .leftover hi hp
    obtain ⟨a1, a2, a3⟩ := hfinal s' hi' hp'
    refine ⟨s', he, a1, a2, ?_, ?_, a3⟩
    · rw [hf, List.map_append, List.nodup_append]
      refine ⟨hn.nodup, by simp, ?_⟩
      intro x hx y hy
      simp only [List.map_cons, List.map_nil, List.mem_singleton] at hy
      subst hy
      obtain ⟨f, hf', rfl⟩ := List.mem_map.1 hx
      obtain ⟨i, hi', he'⟩ := hn.earlier f hf'
      rw [he']; simp
    · intro f hf'
      rw [hf, List.mem_append, List.mem_singleton] at hf'
      rcases hf' with hf' | rfl
      · exact (hn.full f hf').1
      · exact hp

/-- C19.  Without memory optimisation nothing is written by the loop and everything is kept, in order, once. -/
theorem C19_in_memory (c : Cfg B) (bs : List B) (ho : c.optimize = false)
    (hconv : ∀ b ∈ bs, c.breakdown = true → c.conv b = .ok) :
    ∃ s, evolveBlock idx c bs = .ok s ∧ s.files = [] ∧
      (c.breakdown = false → s.mgr.binaries = bs) ∧
      (c.breakdown = true → s.mgr.hist = bs ∧ s.mgr.oneline = bs ∧ s.mgr.binaries = []) := by
  have h0 : Inv idx c ⟨Mgr.empty, []⟩ [] :=
    ⟨by simp [St.pending, Mgr.empty], by simp [St.pending, Mgr.empty], rfl, by simp [Mgr.empty]⟩
  have hn0 : Names (⟨Mgr.empty, []⟩ : St B) 0 := ⟨by simp, by simp, by simp⟩
  obtain ⟨s, hl, hi, hn, hf⟩ := loop_inv idx c bs _ 0 _ h0 hn0 hconv
  have hf := hf ho
  refine ⟨s, by simp [evolveBlock, hl, ho], hf, ?_, ?_⟩
  · intro hb
    have h1 := hi.hist
    simpa [hf, St.pending, hb] using h1
  · intro hb
    have h1 := hi.hist
    have h4 := hi.other
    simp only [hb, if_true] at h4
    simp only [hf, St.pending, hb, if_true, List.map_nil, List.flatten_nil, List.nil_append] at h1
    exact ⟨h1, by rw [h4.2, h1], h4.1⟩

/-- C19.  All ranks together: the batches of the ranks, in order of rank, hold the binaries of the population exactly once. -/
theorem C19_all_ranks (c : Cfg B) (pop : List B) (size : ℕ) (hs : 0 < size) (ho : c.optimize = true)
    (hconv : ∀ b ∈ pop, c.breakdown = true → c.conv b = .ok) :
    ∃ out : List (St B), (arraySplit pop size).map (evolveBlock idx c) = out.map .ok ∧
      (out.map fun s => (s.files.map (·.2.hist)).flatten).flatten = pop ∧
      (out.map fun s => (s.files.map (·.2.oneline)).flatten).flatten = pop := by
  have hfl := (C19_blocks pop size hs).2.1
  generalize arraySplit pop size = blocks at hfl
  subst hfl
  induction blocks with
  | nil => exact ⟨[], rfl, rfl, rfl⟩
  | cons b bs ih =>
    obtain ⟨out, h1, h2, h3⟩ := ih (fun x hx => hconv x (by simp only [List.flatten_cons, List.mem_append]; exact Or.inr hx))
    obtain ⟨s, g1, g2, g3, _⟩ := C19_batches idx c b ho
      (fun x hx => hconv x (by simp only [List.flatten_cons, List.mem_append]; exact Or.inl hx))
    exact ⟨s :: out, by simp [h1, g1], by simp [h2, g2], by simp [h3, g3]⟩

/-- Non-vacuity: seven binaries, a batch every three. -/
example : (evolveBlock (B := ℕ) id ⟨true, true, 3, none, fun _ => .ok⟩ (List.range 7)).toOption.map
      (fun s => s.files.map fun f => (f.1, f.2.hist)) =
    some [(.batch 3, [0, 1, 2, 3]), (.batch 6, [4, 5, 6])] := by decide

example : (evolveBlock (B := ℕ) id ⟨false, true, 0, some fun j => j == 1, fun _ => .ok⟩ (List.range 4)).toOption.map
      (fun s => s.files.map fun f => (f.1, f.2.hist)) =
    some [(.batch 1, [0, 1]), (.leftover, [2, 3])] := by decide

/-- C19 fails if one table conversion fails: the binary concerned stays in memory, every later batch consists of it alone, and
all the other binaries, though evolved and converted, are dropped. -/
theorem C19_failed_conversion_violated :
    ∃ (c : Cfg ℕ) (bs : List ℕ) (s : St ℕ), c.optimize = true ∧ evolveBlock id c bs = .ok s ∧
      (∃ b ∈ bs, c.conv b = .ok ∧ (∀ f ∈ s.files, b ∉ f.2.hist ∧ b ∉ f.2.oneline) ∧
        b ∉ s.mgr.binaries ∧ b ∉ s.mgr.hist) :=
  ⟨⟨true, true, 2, none, fun b => if b = 0 then .oneline else .ok⟩, [0, 1, 2, 3],
    ⟨⟨[0], [.one 0], [], []⟩, [(.batch 2, ⟨[0], [0]⟩), (.leftover, ⟨[0], [0]⟩)]⟩, rfl, rfl,
    1, by decide, by decide, by decide, by decide, by decide⟩

/-! ### C20 -/

theorem foldl_combineOne (files : List (Tables B × Fault)) (s : Tables B) (h : ∀ f ∈ files, f.2 = .none) :
    files.foldl combineOne s = ⟨s.hist ++ (files.map (·.1.hist)).flatten, s.oneline ++ (files.map (·.1.oneline)).flatten⟩ := by
  induction files generalizing s with
  | nil => simp
  | cons f fs ih =>
    rw [List.foldl_cons, ih _ (fun g hg => h g (by simp [hg]))]
    simp [combineOne, h f (by simp)]

/-- C20.  Without failing files the result is the concatenation, in the order given, and all temporary files are gone. -/
theorem C20_concatenation_partial (files : List (Tables B × Fault)) (hne : files ≠ []) (h : ∀ f ∈ files, f.2 = .none) :
    combine files = ⟨some ⟨(files.map (·.1.hist)).flatten, (files.map (·.1.oneline)).flatten⟩, [], none⟩ := by
  cases files with
  | nil => exact absurd rfl hne
  | cons f fs =>
    have hf := h f (by simp)
    simp only [combine, hf]
    rw [foldl_combineOne _ _ h]
    simp

/-- C20.  The store never contains anything that was not in the files, and it contains the files without fault. -/
theorem C20_no_invention (files : List (Tables B × Fault)) (t : Tables B) (h : (combine files).store = some t) :
    (∀ b ∈ t.hist, ∃ f ∈ files, b ∈ f.1.hist) ∧ (∀ b ∈ t.oneline, ∃ f ∈ files, b ∈ f.1.oneline) ∧
      ∀ f ∈ files, f.2 = .none → (∀ b ∈ f.1.hist, b ∈ t.hist) ∧ ∀ b ∈ f.1.oneline, b ∈ t.oneline := by
  have key : ∀ (fs : List (Tables B × Fault)) (s : Tables B),
      (∀ b ∈ (fs.foldl combineOne s).hist, b ∈ s.hist ∨ ∃ f ∈ fs, b ∈ f.1.hist) ∧
      (∀ b ∈ (fs.foldl combineOne s).oneline, b ∈ s.oneline ∨ ∃ f ∈ fs, b ∈ f.1.oneline) ∧
      (∀ b ∈ s.hist, b ∈ (fs.foldl combineOne s).hist) ∧ (∀ b ∈ s.oneline, b ∈ (fs.foldl combineOne s).oneline) ∧
      ∀ f ∈ fs, f.2 = .none → (∀ b ∈ f.1.hist, b ∈ (fs.foldl combineOne s).hist) ∧
        ∀ b ∈ f.1.oneline, b ∈ (fs.foldl combineOne s).oneline := by
    intro fs
    induction fs with
    | nil => intro s; simp
    | cons f fs ih =>
      intro s
      obtain ⟨i1, i2, i3, i4, i5⟩ := ih (combineOne s f)
      simp only [List.foldl_cons]
      have e1 : ∀ b ∈ (combineOne s f).hist, b ∈ s.hist ∨ b ∈ f.1.hist := by
        intro b hb; unfold combineOne at hb; cases hf : f.2 <;> simp_all
      have e2 : ∀ b ∈ (combineOne s f).oneline, b ∈ s.oneline ∨ b ∈ f.1.oneline := by
        intro b hb; unfold combineOne at hb; cases hf : f.2 <;> simp_all
      have e3 : ∀ b ∈ s.hist, b ∈ (combineOne s f).hist := by
        intro b hb; unfold combineOne; cases hf : f.2 <;> simp_all
      have e4 : ∀ b ∈ s.oneline, b ∈ (combineOne s f).oneline := by
        intro b hb; unfold combineOne; cases hf : f.2 <;> simp_all
      refine ⟨?_, ?_, fun b hb => i3 b (e3 b hb), fun b hb => i4 b (e4 b hb), ?_⟩
      · intro b hb
        rcases i1 b hb with h | ⟨g, hg, h⟩
        · rcases e1 b h with h | h
          · exact Or.inl h
          · exact Or.inr ⟨f, by simp, h⟩
        · exact Or.inr ⟨g, by simp [hg], h⟩
      · intro b hb
        rcases i2 b hb with h | ⟨g, hg, h⟩
        · rcases e2 b h with h | h
          · exact Or.inl h
          · exact Or.inr ⟨f, by simp, h⟩
        · exact Or.inr ⟨g, by simp [hg], h⟩
      · intro g hg hn
        rcases List.mem_cons.1 hg with rfl | hg
        · constructor
          · intro b hb; apply i3; simp [combineOne, hn, hb]
          · intro b hb; apply i4; simp [combineOne, hn, hb]
        · exact i5 g hg hn
  cases files with
  | nil => simp [combine] at h
  | cons f fs =>
    simp only [combine] at h
    split at h
    · simp at h
    · simp only [Option.some.injEq] at h
      subst h
      obtain ⟨k1, k2, _, _, k5⟩ := key (f :: fs) ⟨[], []⟩
      exact ⟨fun b hb => by simpa using k1 b hb, fun b hb => by simpa using k2 b hb, k5⟩

/-- C20.  If the first file cannot be read, nothing is written and nothing is deleted. -/
theorem C20_first_unreadable (f : Tables B × Fault) (fs : List (Tables B × Fault))
    (h : f.2 = .readHistory ∨ f.2 = .readOneline) : combine (f :: fs) = ⟨none, f :: fs, some .io⟩ := by
  simp [combine, h]

/-- C20 fails for later files: a file that could not be read (or only half of which could be appended) is deleted all the same. -/
theorem C20_deleted_unread_violated :
    ∃ files : List (Tables ℕ × Fault), ∃ t, combine files = ⟨some t, [], none⟩ ∧
      (∃ f ∈ files, ∃ b ∈ f.1.hist, b ∉ t.hist) ∧ (∃ b ∈ t.hist, b ∉ t.oneline) :=
  ⟨[(⟨[0], [0]⟩, .none), (⟨[1], [1]⟩, .readHistory), (⟨[2], [2]⟩, .appendOneline)], ⟨[0, 2], [0]⟩, rfl,
    ⟨_, by simp; right; left; rfl, 1, by simp, by simp⟩, 2, by simp, by simp⟩

/-- C20/C19.  A rank without binaries (more ranks than binaries) has no file to combine: `IndexError`. -/
theorem C20_empty_block_violated :
    ∃ (c : Cfg ℕ) (size : ℕ) (pop block : List ℕ) (s : St ℕ), pop ≠ [] ∧ block ∈ arraySplit pop size ∧
      evolveBlock id c block = .ok s ∧ (combine (s.files.map fun f => (f.2, Fault.none))).err = some .index :=
  ⟨⟨true, true, 5, none, fun _ => .ok⟩, 2, [0], [], ⟨Mgr.empty, []⟩, by simp, by decide, rfl, rfl⟩

/-- C19 and C20 together: what a rank with at least one binary leaves behind is one file with its binaries, in order. -/
theorem C20_rank_file (c : Cfg B) (bs : List B) (ho : c.optimize = true) (hne : bs ≠ [])
    (hconv : ∀ b ∈ bs, c.breakdown = true → c.conv b = .ok) :
    ∃ s, evolveBlock idx c bs = .ok s ∧
      combine (s.files.map fun f => (f.2, Fault.none)) = ⟨some ⟨bs, bs⟩, [], none⟩ := by
  obtain ⟨s, h1, h2, h3, _⟩ := C19_batches idx c bs ho hconv
  refine ⟨s, h1, ?_⟩
  have hf : s.files.map (fun f => (f.2, Fault.none)) ≠ [] := by
    intro h
    rw [List.map_eq_nil_iff] at h
    rw [h] at h2
    exact hne (by simpa using h2.symm)
  have hok : ∀ f ∈ s.files.map (fun f => (f.2, Fault.none)), f.2 = Fault.none := by
    intro f hf'
    obtain ⟨g, _, rfl⟩ := List.mem_map.1 hf'
    rfl
  rw [C20_concatenation_partial _ hf hok]
  simp only [List.map_map, Function.comp_def]
  rw [h2, h3]

/-! ### C22 -/

inductive Op (B : Type)
  | append (b : B)
  | remove (b : B)
  | breakdown (b : B)

/-- A session on the manager; exceptions are caught by the caller. -/
def mrun (conv : B → Conv) (m : Mgr B) : List (Op B) → Mgr B
  | [] => m
  | .append b :: os => mrun conv (m.append idx b) os
  | .remove b :: os => mrun conv (m.remove idx b).1 os
  | .breakdown b :: os => mrun conv (m.breakdown idx conv b) os

/-- Specification: the binaries kept by the caller's book-keeping – in memory or as tables. -/
def book (mem tab : List B) : List (Op B) → List B × List B
  | [] => (mem, tab)
  | .append b :: os => book (mem ++ [b]) tab os
  | .remove b :: os => book (mem.erase b) tab os
  | .breakdown b :: os => book (mem.erase b) (tab ++ [b]) os

theorem remove_perm (m : Mgr B) (b : B) (h : m.indices.Perm (m.binaries.map fun b => .one (idx b))) :
    (m.remove idx b).1.binaries = m.binaries.erase b ∧ (m.remove idx b).1.hist = m.hist ∧
    (m.remove idx b).1.oneline = m.oneline ∧
    (m.remove idx b).1.indices.Perm ((m.remove idx b).1.binaries.map fun b => .one (idx b)) ∧
    ((m.remove idx b).2 = none ↔ b ∈ m.binaries) := by
  unfold Mgr.remove
  by_cases hb : b ∈ m.binaries
  · have hi : IdxEntry.one (idx b) ∈ m.indices := h.mem_iff.2 (List.mem_map.2 ⟨b, hb, rfl⟩)
    simp only [hb, if_true, hi]
    exact ⟨trivial, trivial, trivial, (h.erase _).trans (erase_map_one idx _ _ hb), by simp⟩
  · simp only [hb, if_false]
    exact ⟨(List.erase_of_not_mem hb).symm, trivial, trivial, h, by simp⟩

/-- C22.  As long as binaries are appended one by one and conversion to tables does not fail, the manager holds exactly the binaries of
the book-keeping, in order; and the indices it lists are those of the binaries in memory. -/
theorem C22_book_partial (conv : B → Conv) (hconv : ∀ b, conv b = .ok) (ops : List (Op B)) (m : Mgr B)
    (h : m.indices.Perm (m.binaries.map fun b => .one (idx b))) (ho : m.oneline = m.hist) :
    let m' := mrun idx conv m ops
    (m'.binaries, m'.hist) = book m.binaries m.hist ops ∧ m'.oneline = m'.hist ∧
      m'.indices.Perm (m'.binaries.map fun b => .one (idx b)) := by
  induction ops generalizing m with
  | nil => exact ⟨rfl, ho, h⟩
  | cons o ops ih =>
    cases o with
    | append b =>
      simp only [mrun, book]
      exact ih (m.append idx b) (by simpa [Mgr.append] using h.append_right _) (by simpa [Mgr.append] using ho)
    | remove b =>
      simp only [mrun, book]
      obtain ⟨r1, r2, r3, r4, _⟩ := remove_perm idx m b h
      have := ih (m.remove idx b).1 r4 (by rw [r2, r3, ho])
      rwa [r1, r2] at this
    | breakdown b =>
      simp only [mrun, book, Mgr.breakdown, hconv b]
      obtain ⟨r1, r2, r3, r4, _⟩ := remove_perm idx { m with hist := m.hist ++ [b], oneline := m.oneline ++ [b] } b h
      have := ih _ r4 (by rw [r2, r3]; simp [ho])
      rwa [r1, r2] at this

/-- C22.  `to_df` and `to_oneline_df` describe every binary, exactly once, if all of them are in memory or all of them are tables. -/
theorem C22_to_df_partial (m : Mgr B) (ho : m.oneline = m.hist) (h : m.binaries = [] ∨ m.hist = [])
    (hne : m.binaries ++ m.hist ≠ []) :
    m.toDf = some (m.binaries ++ m.hist) ∧ m.toOneline = some (m.binaries ++ m.hist) := by
  unfold Mgr.toDf Mgr.toOneline
  rw [ho]
  rcases h with h | h
  · rw [h] at hne ⊢
    simp only [List.nil_append] at hne ⊢
    simp [hne]
  · rw [h] at hne ⊢
    simp only [List.append_nil] at hne ⊢
    have hl : 0 < m.binaries.length := List.length_pos_of_ne_nil hne
    simp [hne, hl]

/-- C22 fails for a manager holding both kinds: the tables of the binaries already broken down are left out. -/
theorem C22_mixed_violated :
    ∃ (conv : ℕ → Conv) (ops : List (Op ℕ)), (∀ b, conv b = .ok) ∧
      let m := mrun id conv Mgr.empty ops
      ∃ b ∈ m.hist, ∃ t, m.toDf = some t ∧ b ∉ t :=
  ⟨fun _ => .ok, [.append 0, .append 1, .breakdown 0], fun _ => rfl, 0, by decide, [1], by decide, by decide⟩

/-- C22 fails for lists: a binary appended as part of a list cannot be removed without an exception. -/
theorem C22_append_list_violated :
    ∃ (bs : List ℕ) (b : ℕ), b ∈ ((Mgr.empty : Mgr ℕ).appendList id bs).binaries ∧
      (((Mgr.empty : Mgr ℕ).appendList id bs).remove id b).2 = some .value :=
  ⟨[4], 4, by decide, by decide⟩

/-- C22.  Conversions that fail half-way leave a history table without a one-line row, with the binary still in memory. -/
theorem C22_half_conversion_violated :
    ∃ (conv : ℕ → Conv) (b : ℕ), let m := mrun id conv Mgr.empty [.append b, .breakdown b]
      b ∈ m.hist ∧ b ∈ m.binaries ∧ b ∉ m.oneline :=
  ⟨fun _ => .oneline, 3, by decide⟩

/-- Non-vacuity. -/
example : book ([] : List ℕ) [] [.append 3, .append 5, .breakdown 3, .append 3, .remove 5] = ([3], [3]) := rfl

example : (mrun id (fun _ : ℕ => .ok) Mgr.empty [.append 3, .append 5, .breakdown 3, .append 3, .remove 5]).indices
    = [.one 3] := by decide

end Verif.Pop
