import Verif.PopAgain
import Verif.PopProps
/-!
Property theorems for C167 (evolving the same population object again).
-/
namespace Verif.PopAgain
open Verif.Pop

variable {B : Type} [DecidableEq B] (idx : B → ℕ)

/-- The first run of a population is the run C19 is about. -/
theorem C167_first (c : Cfg B) (bs : List B) : evolveFrom idx c Mgr.empty bs = evolveBlock idx c bs := rfl

/-! ### Runs without breakdown -/

structure Kept (old h o : List B) (s : St B) (done : List B) : Prop where
  hist : (s.files.map (·.2.hist)).flatten ++ s.mgr.binaries = old ++ done
  oneline : (s.files.map (·.2.oneline)).flatten ++ s.mgr.binaries = old ++ done
  sound : Sound idx s.mgr
  tables : s.mgr.hist = h ∧ s.mgr.oneline = o

theorem append_sound (m : Mgr B) (b : B) (h : Sound idx m) : Sound idx (m.append idx b) := by
  unfold Sound Mgr.append at *
  simp only [List.map_append, List.map_cons, List.map_nil]
  exact h.append_right _

theorem dump_kept (c : Cfg B) (hb : c.breakdown = false) (old h o done : List B) (s : St B) (n : Name)
    (hk : Kept idx old h o s done) (hp : s.mgr.binaries ≠ []) :
    ∃ s', dump idx c s n = .ok s' ∧ Kept idx old h o s' done ∧ s'.mgr.binaries = [] ∧ s'.files ≠ [] := by
  obtain ⟨h1, h2, h3, h4⟩ := hk
  have hsave : s.mgr.save = .ok ⟨s.mgr.binaries, s.mgr.binaries⟩ := by
    have hl : 0 < s.mgr.binaries.length := List.length_pos_of_ne_nil hp
    simp [Mgr.save, Mgr.toDf, Mgr.toOneline, hp, hl]
  refine ⟨⟨{ s.mgr with binaries := [], indices := [] }, s.files ++ [(n, ⟨s.mgr.binaries, s.mgr.binaries⟩)]⟩, ?_, ?_, rfl, ?_⟩
  · simp [dump, hsave, hb, removeList_sound idx s.mgr h3]
  · exact ⟨by simpa using h1, by simpa using h2, by simp [Sound], h4⟩
  · simp

theorem loop_kept (c : Cfg B) (hb : c.breakdown = false) (old h o : List B) (bs : List B) (s : St B) (j : ℕ) (done : List B)
    (hk : Kept idx old h o s done) :
    ∃ s', loop idx c s j bs = .ok s' ∧ Kept idx old h o s' (done ++ bs) ∧ (c.optimize = false → s'.files = s.files) ∧
      (bs ≠ [] → (s'.mgr.binaries = [] ↔ dumpNow c (j + bs.length - 1) = true)) ∧
      (s.files ≠ [] ∨ (bs ≠ [] ∧ s'.mgr.binaries = []) → s'.files ≠ []) := by
  induction bs generalizing s j done with
  | nil => exact ⟨s, rfl, by simpa using hk, fun _ => rfl, fun h => absurd rfl h, by simp⟩
  | cons b bs ih =>
    have ha : Kept idx old h o ⟨s.mgr.append idx b, s.files⟩ (done ++ [b]) := by
      obtain ⟨h1, h2, h3, h4⟩ := hk
      refine ⟨?_, ?_, append_sound idx _ _ h3, h4⟩
      · simp only [Mgr.append, ← List.append_assoc, h1]
      · simp only [Mgr.append, ← List.append_assoc, h2]
    have hne : (s.mgr.append idx b).binaries ≠ [] := by simp [Mgr.append]
    have happ : done ++ b :: bs = done ++ [b] ++ bs := by simp
    have hlen : j + (b :: bs).length - 1 = if bs = [] then j else j + 1 + bs.length - 1 := by
      cases bs with
      | nil => simp
      | cons => simp; omega
    simp only [loop, turn, hb, Bool.false_eq_true, if_false]
    rw [happ, hlen]
    by_cases hd : dumpNow c j = true
    · obtain ⟨s', he, hk', he', hf'⟩ := dump_kept idx c hb old h o _ ⟨s.mgr.append idx b, s.files⟩ (.batch j) ha hne
      simp only [hd, if_true, he]
      obtain ⟨s'', g1, g2, g3, g4, g5⟩ := ih s' (j + 1) _ hk'
      refine ⟨s'', g1, g2, fun ho => by simp [dumpNow, ho] at hd, fun _ => ?_, fun _ => g5 (Or.inl hf')⟩
      by_cases hbs : bs = []
      · subst hbs
        simp only [loop, Except.ok.injEq] at g1
        subst g1
        simp [he', hd]
      · rw [if_neg hbs]; exact g4 hbs
    · simp only [hd, Bool.false_eq_true, if_false]
      obtain ⟨s'', g1, g2, g3, g4, g5⟩ := ih ⟨s.mgr.append idx b, s.files⟩ (j + 1) _ ha
      refine ⟨s'', g1, g2, g3, fun _ => ?_, ?_⟩
      · by_cases hbs : bs = []
        · subst hbs
          simp only [loop, Except.ok.injEq] at g1
          subst g1
          simp [hd, Mgr.append]
        · rw [if_neg hbs]; exact g4 hbs
      · rintro (hs | ⟨_, hs⟩)
        · exact g5 (Or.inl hs)
        · by_cases hbs : bs = []
          · subst hbs
            simp only [loop, Except.ok.injEq] at g1
            subst g1
            simp [Mgr.append] at hs
          · exact g5 (Or.inr ⟨hbs, hs⟩)

/-- C167.  A run that keeps everything in memory adds its binaries, in order, after those already there, and writes no file: after
`k` such runs `to_df` lists the binaries of all of them. -/
theorem C167_memory (c : Cfg B) (m : Mgr B) (bs : List B) (ho : c.optimize = false) (hb : c.breakdown = false)
    (hs : Sound idx m) :
    ∃ r, evolve idx c m bs = .ok r ∧ r.out = none ∧ r.mgr.binaries = m.binaries ++ bs ∧ r.mgr.hist = m.hist ∧
      r.mgr.oneline = m.oneline ∧ Sound idx r.mgr := by
  obtain ⟨s, h1, h2, h3, _, _⟩ := loop_kept idx c hb m.binaries m.hist m.oneline bs ⟨m, []⟩ 0 []
    ⟨by simp, by simp, hs, rfl, rfl⟩
  have hf := h3 ho
  refine ⟨⟨s.mgr, none⟩, by simp [evolve, evolveFrom, h1, ho, hb], rfl, ?_, h2.tables.1, h2.tables.2, h2.sound⟩
  simpa [hf] using h2.hist

/-- C167.  A memory-optimised run without breakdown writes, before its own binaries, all those an earlier run left in memory; and
when its last binary is just being dumped, also the tables of an earlier run with breakdown, after them. -/
theorem C167_mixed (c : Cfg B) (m : Mgr B) (bs : List B) (ho : c.optimize = true) (hb : c.breakdown = false)
    (hs : Sound idx m) (hbs : bs ≠ []) (ht : m.oneline = m.hist) :
    ∃ r t, evolve idx c m bs = .ok r ∧ r.out = some t ∧ r.mgr.binaries = [] ∧ r.mgr.hist = m.hist ∧ r.mgr.oneline = m.hist ∧
      Sound idx r.mgr ∧ t.oneline = t.hist ∧
      t.hist = m.binaries ++ bs ++ (if dumpNow c (bs.length - 1) then m.hist else []) := by
  obtain ⟨s, h1, h2, _, h4, h5⟩ := loop_kept idx c hb m.binaries m.hist m.oneline bs ⟨m, []⟩ 0 []
    ⟨by simp, by simp, hs, rfl, rfl⟩
  have h4 := h4 hbs
  rw [Nat.zero_add] at h4
  simp only [List.nil_append] at h2
  by_cases hd : dumpNow c (bs.length - 1) = true
  · have he := h4.2 hd
    have hf := h5 (Or.inr ⟨hbs, he⟩)
    have k1 := h2.hist
    have k2 := h2.oneline
    rw [he, List.append_nil] at k1 k2
    by_cases hh : m.hist = []
    · have hev : evolveFrom idx c m bs = .ok s := by
        simp [evolveFrom, h1, he, h2.tables.1, hh]
      refine ⟨⟨s.mgr, some ⟨_, _⟩⟩, _, by simp only [evolve, hev, ho, if_true, combine_good s.files hf]; rfl, rfl, he,
        h2.tables.1, by rw [h2.tables.2, ht], h2.sound, ?_, ?_⟩
      · simp only; rw [k1, k2]
      · simp only; rw [k1, hh]; simp
    · have hsave : s.mgr.save = .ok ⟨m.hist, m.hist⟩ := by
        simp [Mgr.save, Mgr.toDf, Mgr.toOneline, he, h2.tables.1, h2.tables.2, ht, hh]
      have hev : evolveFrom idx c m bs = .ok ⟨{ s.mgr with binaries := [], indices := [] },
          s.files ++ [(.leftover, ⟨m.hist, m.hist⟩)]⟩ := by
        have hl : m.hist.length ≠ 0 := by simpa using hh
        simp [evolveFrom, h1, h2.tables.1, hh, ho, dump, hsave, hb, removeList_sound idx s.mgr h2.sound]
      refine ⟨⟨{ s.mgr with binaries := [], indices := [] }, some ⟨_, _⟩⟩, ⟨_, _⟩, by
        simp only [evolve, hev, ho, if_true, combine_good (s.files ++ [(.leftover, ⟨m.hist, m.hist⟩)]) (by simp)]; rfl, rfl,
        rfl, h2.tables.1, ?_, ?_, ?_, ?_⟩
      · simp only; rw [h2.tables.2, ht]
      · simp [Sound]
      · simp [k1, k2]
      · simp [k1, hd]
  · have he : s.mgr.binaries ≠ [] := fun h => hd (h4.1 h)
    obtain ⟨s', g1, g2, g3, g4⟩ := dump_kept idx c hb _ _ _ _ s .leftover h2 he
    have k1 := g2.hist
    have k2 := g2.oneline
    rw [g3, List.append_nil] at k1 k2
    have hev : evolveFrom idx c m bs = .ok s' := by
      simp [evolveFrom, h1, he, ho, g1]
    refine ⟨⟨s'.mgr, some ⟨_, _⟩⟩, _, by simp only [evolve, hev, ho, if_true, combine_good s'.files g4]; rfl, rfl, g3,
      g2.tables.1, by rw [g2.tables.2, ht], g2.sound, ?_, ?_⟩
    · simp only; rw [k1, k2]
    · simp [k1, hd]

/-! ### Runs with breakdown while binaries of an earlier run are in memory -/

structure Shadow (old : List B) (s : St B) : Prop where
  binaries : s.mgr.binaries = old
  sound : Sound idx s.mgr
  same : s.mgr.oneline = s.mgr.hist
  files : ∀ f ∈ s.files, f.2 = ⟨old, old⟩

theorem add_shadow (c : Cfg B) (old : List B) (s : St B) (b : B) (h : Shadow idx old s) (hnew : b ∉ old) (hc : c.conv b = .ok) :
    Shadow idx old ⟨(s.mgr.append idx b).breakdown idx c.conv b, s.files⟩ ∧
      ((s.mgr.append idx b).breakdown idx c.conv b).hist = s.mgr.hist ++ [b] := by
  obtain ⟨h1, h2, h3, h4⟩ := h
  have hs := append_sound idx s.mgr b h2
  have hmem : IdxEntry.one (idx b) ∈ s.mgr.indices ++ [IdxEntry.one (idx b)] := by simp
  have he : (old ++ [b]).erase b = old := by
    rw [List.erase_append_right _ hnew]; simp
  have hm : (s.mgr.append idx b).breakdown idx c.conv b = ⟨old, (s.mgr.indices ++ [IdxEntry.one (idx b)]).erase (.one (idx b)),
      s.mgr.hist ++ [b], s.mgr.oneline ++ [b]⟩ := by
    simp only [Mgr.breakdown, hc, Mgr.remove, Mgr.append, h1, he]
    simp
  rw [hm]
  refine ⟨⟨rfl, ?_, by simp only; rw [h3], h4⟩, rfl⟩
  unfold Sound at hs ⊢
  simp only [Mgr.append, h1, List.map_append, List.map_cons, List.map_nil] at hs ⊢
  have := hs.erase (IdxEntry.one (idx b))
  refine this.trans ?_
  have hp : (List.map (fun b => IdxEntry.one (idx b)) old ++ [IdxEntry.one (idx b)]).Perm
      (IdxEntry.one (idx b) :: List.map (fun b => IdxEntry.one (idx b)) old) := List.perm_append_singleton _ _
  exact (hp.erase _).trans (by simp)

theorem dump_shadow (c : Cfg B) (hb : c.breakdown = true) (old : List B) (hold : old ≠ []) (s : St B) (n : Name)
    (h : Shadow idx old s) :
    dump idx c s n = .ok ⟨s.mgr.clear, s.files ++ [(n, ⟨old, old⟩)]⟩ ∧
      Shadow idx old ⟨s.mgr.clear, s.files ++ [(n, ⟨old, old⟩)]⟩ := by
  obtain ⟨h1, h2, h3, h4⟩ := h
  have hsave : s.mgr.save = .ok ⟨old, old⟩ := by
    have hl : 0 < old.length := List.length_pos_of_ne_nil hold
    simp [Mgr.save, Mgr.toDf, Mgr.toOneline, h1, hold, hl]
  refine ⟨by simp [dump, hsave, hb], h1, h2, rfl, ?_⟩
  intro f hf
  rw [List.mem_append, List.mem_singleton] at hf
  rcases hf with hf | rfl
  · exact h4 f hf
  · rfl

theorem loop_shadow (c : Cfg B) (hb : c.breakdown = true) (old : List B) (hold : old ≠ []) (bs : List B) (s : St B) (j : ℕ)
    (h : Shadow idx old s) (hnew : ∀ b ∈ bs, b ∉ old) (hc : ∀ b ∈ bs, c.conv b = .ok) :
    ∃ s', loop idx c s j bs = .ok s' ∧ Shadow idx old s' ∧
      (c.optimize = false → s'.files = s.files ∧ s'.mgr.hist = s.mgr.hist ++ bs) := by
  induction bs generalizing s j with
  | nil => exact ⟨s, rfl, h, fun _ => ⟨rfl, by simp⟩⟩
  | cons b bs ih =>
    have ha := add_shadow idx c old s b h (hnew b (by simp)) (hc b (by simp))
    simp only [loop, turn, hb, if_true]
    by_cases hd : dumpNow c j = true
    · have hdm := dump_shadow idx c hb old hold _ (.batch j) ha.1
      simp only [hd, if_true, hdm.1]
      obtain ⟨s', g1, g2, _⟩ := ih _ (j + 1) hdm.2 (fun b hb => hnew b (by simp [hb])) (fun b hb => hc b (by simp [hb]))
      exact ⟨s', g1, g2, fun ho => by simp [dumpNow, ho] at hd⟩
    · simp only [hd, Bool.false_eq_true, if_false]
      obtain ⟨s', g1, g2, g3⟩ := ih _ (j + 1) ha.1 (fun b hb => hnew b (by simp [hb])) (fun b hb => hc b (by simp [hb]))
      refine ⟨s', g1, g2, fun ho => ⟨(g3 ho).1, ?_⟩⟩
      rw [(g3 ho).2]
      simp only [ha.2]; simp

/-- C167 fails.  A run with breakdown, on a population that holds binaries of an earlier run, saves the earlier binaries and none of
its own: those stay behind as tables that `to_df` does not show either. -/
theorem C167_shadowed_violated (c : Cfg B) (m : Mgr B) (bs : List B) (ho : c.optimize = false) (hb : c.breakdown = true)
    (hs : Sound idx m) (ht : m.oneline = m.hist) (hold : m.binaries ≠ []) (hnew : ∀ b ∈ bs, b ∉ m.binaries)
    (hc : ∀ b ∈ bs, c.conv b = .ok) :
    ∃ r, evolve idx c m bs = .ok r ∧ r.out = some ⟨m.binaries, m.binaries⟩ ∧ r.mgr.toDf = some m.binaries ∧
      r.mgr.binaries = m.binaries ∧ r.mgr.hist = m.hist ++ bs ∧ r.mgr.oneline = m.hist ++ bs ∧ Sound idx r.mgr := by
  obtain ⟨s, h1, h2, h3⟩ := loop_shadow idx c hb m.binaries hold bs ⟨m, []⟩ 0 ⟨rfl, hs, ht, by simp⟩ hnew hc
  have hl : 0 < m.binaries.length := List.length_pos_of_ne_nil hold
  have hdf : s.mgr.toDf = some m.binaries := by simp [Mgr.toDf, h2.binaries, hold, hl]
  have hsave : s.mgr.save = .ok ⟨m.binaries, m.binaries⟩ := by
    simp [Mgr.save, hdf, Mgr.toOneline, h2.binaries, hold, hl]
  exact ⟨⟨s.mgr, some ⟨m.binaries, m.binaries⟩⟩, by simp [evolve, evolveFrom, h1, ho, hb, hsave], rfl, hdf, h2.binaries, (h3 ho).2,
    by rw [h2.same, (h3 ho).2], h2.sound⟩

/-- C167 fails.  With breakdown and memory optimisation together every batch of such a run holds the earlier binaries again, and the
binaries of the run are nowhere: neither in a file nor in memory. -/
theorem C167_lost_violated (c : Cfg B) (m : Mgr B) (bs : List B) (ho : c.optimize = true) (hb : c.breakdown = true)
    (hs : Sound idx m) (ht : m.oneline = m.hist) (hold : m.binaries ≠ []) (hnew : ∀ b ∈ bs, b ∉ m.binaries)
    (hc : ∀ b ∈ bs, c.conv b = .ok) :
    ∃ r t, evolve idx c m bs = .ok r ∧ r.out = some t ∧ (∃ k, 0 < k ∧ t.hist = (List.replicate k m.binaries).flatten ∧
        t.oneline = (List.replicate k m.binaries).flatten) ∧
      r.mgr.binaries = m.binaries ∧ r.mgr.hist = [] ∧ r.mgr.oneline = [] ∧ ∀ b ∈ bs, b ∉ t.hist ∧ b ∉ t.oneline := by
  obtain ⟨s, h1, h2, _⟩ := loop_shadow idx c hb m.binaries hold bs ⟨m, []⟩ 0 ⟨rfl, hs, ht, by simp⟩ hnew hc
  have hd := dump_shadow idx c hb m.binaries hold s .leftover h2
  generalize hfd : s.files ++ [(Name.leftover, (⟨m.binaries, m.binaries⟩ : Tables B))] = files at hd
  have hne : files ≠ [] := by rw [← hfd]; simp
  have hev : evolveFrom idx c m bs = .ok ⟨s.mgr.clear, files⟩ := by
    simp [evolveFrom, h1, h2.binaries, hold, ho, hd.1]
  have hh : files.map (·.2.hist) = List.replicate files.length m.binaries := by
    rw [List.eq_replicate_iff]
    refine ⟨by simp, ?_⟩
    intro x hx
    obtain ⟨f, hf, rfl⟩ := List.mem_map.1 hx
    rw [hd.2.files f hf]
  have hl : files.map (·.2.oneline) = List.replicate files.length m.binaries := by
    rw [List.eq_replicate_iff]
    refine ⟨by simp, ?_⟩
    intro x hx
    obtain ⟨f, hf, rfl⟩ := List.mem_map.1 hx
    rw [hd.2.files f hf]
  have hnone : ∀ b ∈ bs, b ∉ (List.replicate files.length m.binaries).flatten := by
    intro b hb' hmem
    obtain ⟨l, hl', hbl⟩ := List.mem_flatten.1 hmem
    rw [List.eq_of_mem_replicate hl'] at hbl
    exact hnew b hb' hbl
  refine ⟨⟨s.mgr.clear, some ⟨_, _⟩⟩, ⟨_, _⟩, by simp only [evolve, hev, ho, if_true, combine_good files hne]; rfl, rfl,
    ⟨files.length, List.length_pos_of_ne_nil hne, by rw [hh], by rw [hl]⟩, h2.binaries, rfl, rfl, ?_⟩
  intro b hb'
  simp only [hh, hl]
  exact ⟨hnone b hb', hnone b hb'⟩

/-! ### Runs with breakdown or memory optimisation when nothing is in memory -/

/-- C167.  If no binary is in memory, a run with breakdown saves the tables of the earlier runs with breakdown (which were never
cleared), followed by its own. -/
theorem C167_tables (c : Cfg B) (m : Mgr B) (bs : List B) (ho : c.optimize = false) (hb : c.breakdown = true)
    (hm : m.binaries = []) (hi : m.indices = []) (ht : m.oneline = m.hist) (hbs : bs ≠ []) (hc : ∀ b ∈ bs, c.conv b = .ok) :
    ∃ r, evolve idx c m bs = .ok r ∧ r.out = some ⟨m.hist ++ bs, m.hist ++ bs⟩ ∧ r.mgr = ⟨[], [], m.hist ++ bs, m.hist ++ bs⟩ := by
  obtain ⟨s, h1, h2, _, h4⟩ := loop_inv idx c bs ⟨m, []⟩ 0 m.hist
    ⟨by simp [St.pending, hb], by simp [St.pending, hb], by simp [Mgr.Clean, hm, hi], by simp [hb, hm, ht]⟩
    ⟨by simp, by simp, by simp⟩ (fun b h _ => hc b h)
  have hf := h4 ho
  have k1 := h2.hist
  have k3 := h2.clean
  have k4 := h2.other
  simp only [hb, if_true] at k4
  simp only [hf, St.pending, hb, if_true, List.map_nil, List.flatten_nil, List.nil_append] at k1
  have hmgr : s.mgr = ⟨[], [], m.hist ++ bs, m.hist ++ bs⟩ := by
    cases hs : s.mgr with
    | mk a b c d =>
      simp only [hs, Mgr.Clean] at k1 k3 k4
      rw [k4.1] at k3
      simp only [List.map_nil] at k3
      rw [k4.1, k3, k4.2, k1]
  have hsave : s.mgr.save = .ok ⟨m.hist ++ bs, m.hist ++ bs⟩ := by
    simp [hmgr, Mgr.save, Mgr.toDf, Mgr.toOneline, hbs]
  exact ⟨⟨s.mgr, some _⟩, by simp [evolve, evolveFrom, h1, ho, hb, hsave], rfl, hmgr⟩

/-- C167.  A memory-optimised run started with an empty manager writes exactly its own binaries, once and in order, and leaves the
manager empty again. -/
theorem C167_optimised (c : Cfg B) (bs : List B) (ho : c.optimize = true) (hbs : bs ≠ [])
    (hc : ∀ b ∈ bs, c.breakdown = true → c.conv b = .ok) :
    evolve idx c Mgr.empty bs = .ok ⟨Mgr.empty, some ⟨bs, bs⟩⟩ := by
  obtain ⟨s, h1, h2, h3, _, _, h6, h7, h8, h9⟩ := C19_batches idx c bs ho hc
  have hne : s.files ≠ [] := by
    intro h
    rw [h] at h2
    exact hbs h2.symm
  have hmgr : s.mgr = Mgr.empty := by
    cases hs : s.mgr with
    | mk a b c d =>
      simp only [hs] at h6 h7 h8 h9
      rw [h6, h7, h8, h9]; rfl
  have hev : evolveFrom idx c Mgr.empty bs = .ok s := by rw [C167_first]; exact h1
  simp only [evolve, hev, ho, if_true, combine_good s.files hne, h2, h3, hmgr]

/-- C167.  Any number of memory-optimised runs of the same population: each writes exactly its own binaries. -/
theorem C167_repeated (l : List (Cfg B × List B))
    (hl : ∀ p ∈ l, p.1.optimize = true ∧ p.2 ≠ [] ∧ ∀ b ∈ p.2, p.1.breakdown = true → p.1.conv b = .ok) :
    calls idx Mgr.empty l = .ok (Mgr.empty, l.map fun p => some ⟨p.2, p.2⟩) := by
  induction l with
  | nil => rfl
  | cons p l ih =>
    obtain ⟨c, bs⟩ := p
    obtain ⟨h1, h2, h3⟩ := hl (c, bs) (by simp)
    simp only [calls, C167_optimised idx c bs h1 h2 h3, ih (fun p hp => hl p (by simp [hp])), List.map_cons]

/-- C167.  Any number of runs with breakdown only: the file of each run holds the binaries of all the runs so far. -/
theorem C167_repeated_tables (l : List (Cfg B × List B)) (h : List B)
    (hl : ∀ p ∈ l, p.1.optimize = false ∧ p.1.breakdown = true ∧ p.2 ≠ [] ∧ ∀ b ∈ p.2, p.1.conv b = .ok) :
    ∃ m outs, calls idx ⟨[], [], h, h⟩ l = .ok (m, outs) ∧ m.toDf = (if h = [] ∧ l = [] then none else
        some (h ++ (l.map (·.2)).flatten)) ∧ outs.length = l.length ∧
      ∀ k < l.length, outs[k]? = some (some ⟨h ++ ((l.take (k + 1)).map (·.2)).flatten, h ++ ((l.take (k + 1)).map (·.2)).flatten⟩) := by
  induction l generalizing h with
  | nil =>
    refine ⟨⟨[], [], h, h⟩, [], rfl, ?_, rfl, fun k hk => absurd hk (by simp)⟩
    by_cases hh : h = [] <;> simp [Mgr.toDf, hh]
  | cons p l ih =>
    obtain ⟨c, bs⟩ := p
    obtain ⟨h1, h2, h3, h4⟩ := hl (c, bs) (by simp)
    obtain ⟨r, e1, e2, e3⟩ := C167_tables idx c ⟨[], [], h, h⟩ bs h1 h2 rfl rfl rfl h3 h4
    obtain ⟨m, outs, g1, g2, g3, g4⟩ := ih (h ++ bs) (fun p hp => hl p (by simp [hp]))
    refine ⟨m, r.out :: outs, ?_, ?_, by simp [g3], ?_⟩
    · simp only [calls, e1, e3, g1]
    · rw [g2]; simp only at h3; simp [h3]
    · intro k hk
      cases k with
      | zero => simp [e2]
      | succ k =>
        have := g4 k (by simpa using hk)
        simpa [List.append_assoc] using this

/-! ### The validation script -/

section
variable {R : Type} [DecidableEq R]

omit [DecidableEq B] in
theorem compareIO_self (rows : B → List R) (n : ℕ) (l : List B) : compareIO idx rows n l l = none := by
  simp [compareIO]

/-- The tests of the script are three runs of one population; what they compare. -/
theorem suite_eq (rows : B → List R) (conv : B → Conv) (rate n : ℕ) (p1 p2 p3 : List B) (h1 : p1 ≠ []) (h2 : p2 ≠ []) (h3 : p3 ≠ [])
    (hnew : ∀ b ∈ p2, b ∉ p1) (hc : ∀ b ∈ p2, conv b = .ok) :
    suite idx rows conv rate n p1 p2 p3 = .ok ⟨decide (n = p1.length), none,
      compareIO idx rows n p2 (p1 ++ p3 ++ if dumpNow (cfg3 conv rate) (p3.length - 1) then p2 else [])⟩ := by
  obtain ⟨r1, a1, _, a3, a4, a5, a6⟩ := C167_memory idx (cfg1 conv rate) Mgr.empty p1 rfl rfl (by simp [Sound, Mgr.empty])
  simp only [Mgr.empty, List.nil_append] at a3 a4 a5
  obtain ⟨r2, b1, b2, b3, b4, b5, b6, b7⟩ := C167_shadowed_violated idx (cfg2 conv rate) r1.mgr p2 rfl rfl a6
    (by rw [a4, a5]) (by rw [a3]; exact h1) (by rw [a3]; exact hnew) hc
  rw [a3] at b2 b3 b4
  rw [a4, List.nil_append] at b5 b6
  obtain ⟨r3, t, d1, d2, d3, d4, d5, _, _, d6⟩ := C167_mixed idx (cfg3 conv rate) r2.mgr p3 rfl rfl b7 h3 (by rw [b5, b6])
  rw [b5] at d4 d5
  have hdf : r3.mgr.toDf = some p2 := by simp [Mgr.toDf, d3, d4, h2]
  rw [b4, b5] at d6
  simp only [suite, Mgr.empty] at a1 ⊢
  simp only [a1, b1, d1, b3, b2, hdf, d2, d6, a3, compareIO_self]

/-- C167.  The second test of the validation script passes whatever the second run has produced: both sides are the first run. -/
theorem C167_second_check_violated (rows : B → List R) (conv : B → Conv) (rate n : ℕ) (p1 p2 p3 : List B) (h1 : p1 ≠ [])
    (h2 : p2 ≠ []) (h3 : p3 ≠ []) (hnew : ∀ b ∈ p2, b ∉ p1) (hc : ∀ b ∈ p2, conv b = .ok) :
    ∃ rep, suite idx rows conv rate n p1 p2 p3 = .ok rep ∧ rep.second = none ∧ (rep.count = true ↔ n = p1.length) :=
  ⟨_, suite_eq idx rows conv rate n p1 p2 p3 h1 h2 h3 hnew hc, rfl, by simp⟩

/-- C167.  The third test compares the second run with the first and third together: it passes only if every history of the second
run is that of the first run followed by that of the third. -/
theorem C167_third_check (rows : B → List R) (conv : B → Conv) (rate n : ℕ) (p1 p2 p3 : List B) (h1 : p1 ≠ []) (h2 : p2 ≠ [])
    (h3 : p3 ≠ []) (hnew : ∀ b ∈ p2, b ∉ p1) (hc : ∀ b ∈ p2, conv b = .ok) :
    ∃ rep, suite idx rows conv rate n p1 p2 p3 = .ok rep ∧
      (rep.third = none ↔ ∀ i < n, rowsAt idx rows p2 i = rowsAt idx rows p1 i ++ rowsAt idx rows p3 i ++
        if dumpNow (cfg3 conv rate) (p3.length - 1) then rowsAt idx rows p2 i else []) := by
  refine ⟨_, suite_eq idx rows conv rate n p1 p2 p3 h1 h2 h3 hnew hc, ?_⟩
  simp only [compareIO, List.find?_eq_none, List.mem_range, ne_eq, decide_not, Bool.not_eq_true', decide_eq_false_iff_not, not_not]
  refine forall_congr' fun i => imp_congr_right fun _ => ?_
  have : rowsAt idx rows (p1 ++ p3 ++ if dumpNow (cfg3 conv rate) (p3.length - 1) then p2 else []) i =
      rowsAt idx rows p1 i ++ rowsAt idx rows p3 i ++
        if dumpNow (cfg3 conv rate) (p3.length - 1) then rowsAt idx rows p2 i else [] := by
    split <;> simp [rowsAt, List.filter_append, List.flatMap_append]
  rw [this]

/-- C167.  In particular it reports a difference when three equal populations (the same numbers of rows, at least one) are run. -/
theorem C167_third_check_violated (rows : B → List R) (conv : B → Conv) (rate n : ℕ) (p1 p2 p3 : List B) (h1 : p1 ≠ []) (h2 : p2 ≠ [])
    (h3 : p3 ≠ []) (hnew : ∀ b ∈ p2, b ∉ p1) (hc : ∀ b ∈ p2, conv b = .ok)
    (hsame : ∀ i < n, rowsAt idx rows p1 i = rowsAt idx rows p2 i ∧ rowsAt idx rows p3 i = rowsAt idx rows p2 i)
    (hn : ∃ i < n, rowsAt idx rows p2 i ≠ []) :
    ∃ rep i, suite idx rows conv rate n p1 p2 p3 = .ok rep ∧ rep.third = some i := by
  obtain ⟨rep, hr, hi⟩ := C167_third_check idx rows conv rate n p1 p2 p3 h1 h2 h3 hnew hc
  cases ht : rep.third with
  | some i => exact ⟨rep, i, hr, ht⟩
  | none =>
    exfalso
    obtain ⟨i, hlt, hne⟩ := hn
    have := hi.1 ht i hlt
    rw [(hsame i hlt).1, (hsame i hlt).2] at this
    have hl := congrArg List.length this
    have hp := List.length_pos_of_ne_nil hne
    split at hl <;> simp only [List.length_append, List.length_nil] at hl <;> omega

end

/-! ### Cases -/

/-- Binaries are pairs (run, index). -/
abbrev Bin := ℕ × ℕ
def pop (k n : ℕ) : List Bin := (List.range n).map fun i => (k, i)

/-- The hypotheses of the theorems on the script are met by three runs of three binaries: the second test passes, the third does not. -/
example : suite (fun b : Bin => b.2) (fun b => [b.2, b.2 + 1]) (fun _ => .ok) 1 3 (pop 1 3) (pop 2 3) (pop 3 3) =
    .ok ⟨true, none, some 0⟩ := by
  rw [suite_eq (fun b : Bin => b.2) (fun b => [b.2, b.2 + 1]) (fun _ => .ok) 1 3 (pop 1 3) (pop 2 3) (pop 3 3)
    (by decide) (by decide) (by decide) (by decide) (fun _ _ => rfl)]
  rfl

/-- A population of three in memory, then a run with breakdown and memory optimisation: the second population is lost. -/
example : ((evolve (fun b : Bin => b.2) ⟨true, true, 2, none, fun _ => .ok⟩ ⟨pop 1 2, [.one 0, .one 1], [], []⟩ (pop 2 4)).toOption.map
    fun r => r.out) = some (some ⟨pop 1 2 ++ pop 1 2, pop 1 2 ++ pop 1 2⟩) := by decide +kernel

example : ((evolve (fun b : Bin => b.2) ⟨false, true, 2, none, fun _ => .ok⟩ ⟨pop 1 2, [.one 0, .one 1], [], []⟩ (pop 2 4)).toOption.map
    fun r => r.out) = some (some ⟨pop 1 2 ++ pop 2 4, pop 1 2 ++ pop 2 4⟩) := by decide +kernel

end Verif.PopAgain
