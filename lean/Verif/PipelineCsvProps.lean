import Verif.PipelineCsv
import Mathlib.Data.List.GetD

/-!
# C106: the tables of the post-processing pipeline
-/

namespace Verif.Pipeline

/-! ### The passes of the loops -/

theorem mem_cells {S : Type} {k : K} {sl : List (List S)} {c : Cell S} :
    c ∈ cells k sl ↔ c.l < k.types.length ∧ c.type = k.types.getD c.l [] ∧
      c.met ∈ k.mets.getD c.l [] ∧ (sl.getD c.l [])[c.i]? = some c.slice ∧
      c.comp ∈ k.comps.getD c.l [] := by
  simp only [cells, List.mem_flatMap, List.mem_range, List.mem_map, Prod.exists]
  constructor
  · rintro ⟨l, hl, z, hz, s, i, hs, d, hd, rfl⟩
    refine ⟨hl, rfl, hz, ?_, hd⟩
    have := List.mem_zipIdx_iff_getElem?.1 hs
    exact this
  · rintro ⟨hl, ht, hz, hs, hd⟩
    refine ⟨c.l, hl, c.met, hz, c.slice, c.i, List.mem_zipIdx_iff_getElem?.2 hs, c.comp, hd, ?_⟩
    rw [← ht]

/-- **One pass for each combination** of grid type, metallicity, slice and compression. -/
theorem C106_passes {S : Type} (k : K) (sl : List (List S)) :
    (cells k sl).length = ((List.range k.types.length).map fun l =>
      (k.mets.getD l []).length * ((sl.getD l []).length * (k.comps.getD l []).length)).sum := by
  unfold cells
  rw [List.length_flatMap]
  congr 1
  apply List.map_congr_left
  intro l _
  rw [List.length_flatMap]
  have : ∀ z : Name, ((sl.getD l []).zipIdx.flatMap fun s =>
      (k.comps.getD l []).map fun c => (⟨l, k.types.getD l [], z, s.2, s.1, c⟩ : Cell S)).length =
      (sl.getD l []).length * (k.comps.getD l []).length := by
    intro z
    rw [List.length_flatMap]
    simp
  simp only [this]
  simp

theorem cells_nodup {S : Type} (k : K) (sl : List (List S))
    (hz : ∀ l, (k.mets.getD l []).Nodup) (hc : ∀ l, (k.comps.getD l []).Nodup) :
    (cells k sl).Nodup := by
  unfold cells
  rw [List.nodup_flatMap]
  constructor
  · intro l _
    rw [List.nodup_flatMap]
    constructor
    · intro z _
      rw [List.nodup_flatMap]
      constructor
      · rintro ⟨s, i⟩ _
        exact (hc l).map (fun a b h => by simpa using h)
      · have : (sl.getD l []).zipIdx.Pairwise (fun a b => a.2 ≠ b.2) := by
          have h1 : ((sl.getD l []).zipIdx.map (·.2)).Nodup := by
            rw [List.zipIdx_map_snd]
            exact List.nodup_range'
          rw [List.Nodup, List.pairwise_map] at h1
          exact h1
        refine this.imp ?_
        intro a b hab x h1 h2
        obtain ⟨u, _, rfl⟩ := List.mem_map.1 h1
        obtain ⟨v, _, hv⟩ := List.mem_map.1 h2
        simp at hv
        exact hab hv.1.symm
    · refine List.Pairwise.imp ?_ (hz l)
      intro a b hab x h1 h2
      obtain ⟨u, _, hu⟩ := List.mem_flatMap.1 h1
      obtain ⟨v, _, hv⟩ := List.mem_flatMap.1 h2
      obtain ⟨u', _, rfl⟩ := List.mem_map.1 hu
      obtain ⟨v', _, hv⟩ := List.mem_map.1 hv
      simp at hv
      exact hab hv.1.symm
  · refine List.Pairwise.imp ?_ (List.nodup_range (n := k.types.length))
    intro a b hab x h1 h2
    obtain ⟨u, _, hu⟩ := List.mem_flatMap.1 h1
    obtain ⟨v, _, hv⟩ := List.mem_flatMap.1 h2
    obtain ⟨u', _, hu⟩ := List.mem_flatMap.1 hu
    obtain ⟨v', _, hv⟩ := List.mem_flatMap.1 hv
    obtain ⟨u'', _, rfl⟩ := List.mem_map.1 hu
    obtain ⟨v'', _, hv⟩ := List.mem_map.1 hv
    simp at hv
    exact hab hv.1.symm

/-! ### Which rows there are -/

/-- **Lists of different lengths are refused.** -/
theorem C106_lengths (drop : Bool) (there : File → Bool) (k : K) (j : Job) (known : List File)
    (h : k.mets.length ≠ k.types.length ∨ k.comps.length ≠ k.types.length ∨
      (j ≠ .main 1 ∧ k.slices.length ≠ k.types.length) ∨
      (j = .main 1 ∧ (k.parts.length ≠ k.types.length ∨ k.combined.length ≠ k.types.length)) ∨
      (j = .main 2 ∧ k.orig.length ≠ k.types.length) ∨
      (controlled j = true ∧ k.control.length ≠ k.types.length)) :
    createCsv drop there k j known = .error .job := by
  unfold createCsv
  rw [if_neg]
  unfold fits
  dsimp only
  rw [Bool.and_eq_true, Bool.and_eq_true]
  rintro ⟨⟨h1, h2⟩, -⟩
  simp only [Bool.and_eq_true, decide_eq_true_eq] at h1
  rcases h with h | h | ⟨hj, h⟩ | ⟨hj, h⟩ | ⟨hj, h⟩ | ⟨hj, h⟩
  · exact h h1.1.1.symm
  · exact h h1.1.2.symm
  · rw [if_neg hj] at h1; exact h h1.2.symm
  · subst hj
    rw [if_pos rfl] at h1 h2
    rcases h with h | h
    · exact h h1.2.symm
    · exact h (by simpa using h2 : k.types.length = k.combined.length).symm
  · subst hj
    rw [if_neg (by decide), if_pos rfl] at h2
    exact h (by simpa using h2 : k.types.length = k.orig.length).symm
  · have n1 : j ≠ .main 1 := by rintro rfl; simp [controlled, stepOf] at hj
    have n2 : j ≠ .main 2 := by rintro rfl; simp [controlled, stepOf] at hj
    rw [if_neg n1, if_neg n2, if_pos hj] at h2
    exact h (by simpa using h2 : k.types.length = k.control.length).symm

/-- The grid of a pass. -/
def gridOf (k : K) (c : Cell Name) : File :=
  [k.root, c.type, k.version, c.met, c.comp, c.slice ++ (chars! ".h5")]

/-- **The rows of the steps**: which grid each row is about and what is made from it. -/
theorem C106_rows (k : K) (r : Row) :
    (r ∈ rows k (.main 0) ↔ ∃ c ∈ cells k k.slices,
      r = ⟨[k.root, c.type, k.version, c.met, c.slice], none, gridOf k c⟩) ∧
    (r ∈ rows k (.main 3) ↔ ∃ c ∈ cells k k.slices, ∃ m ∈ k.methods,
      r = ⟨gridOf k c, none, pkl k c (chars! "IF_") m⟩) ∧
    (k.profs ≠ [] → (r ∈ rows k (.main 4) ↔ ∃ c ∈ cells k k.slices, ∃ m ∈ k.methods,
      r = ⟨gridOf k c, some (pkl k c (chars! "IF_") m), pkl k c (chars! "profile_") m⟩)) ∧
    (r ∈ rows k (.main 6) ↔ ∃ c ∈ cells k k.slices,
      r = ⟨gridOf k c, none, [k.root, c.type, k.version, c.met,
        (chars! "rerun_") ++ k.rerunType ++ (chars! "_") ++ c.slice]⟩) := by
  refine ⟨?_, ?_, ?_, ?_⟩
  · simp only [rows, List.mem_flatMap, rowsAt, List.mem_singleton]
    rfl
  · simp only [rows, List.mem_flatMap, rowsAt, List.mem_map]
    constructor
    · rintro ⟨c, hc, m, hm, rfl⟩; exact ⟨c, hc, m, hm, rfl⟩
    · rintro ⟨c, hc, m, hm, rfl⟩; exact ⟨c, hc, m, hm, rfl⟩
  · intro hp
    simp only [rows, List.mem_flatMap, rowsAt, if_neg hp, List.mem_map]
    constructor
    · rintro ⟨c, hc, m, hm, rfl⟩; exact ⟨c, hc, m, hm, rfl⟩
    · rintro ⟨c, hc, m, hm, rfl⟩; exact ⟨c, hc, m, hm, rfl⟩
  · simp only [rows, List.mem_flatMap, rowsAt, List.mem_singleton]
    rfl

/-- Without profiles to train there are no rows, and setting up the job fails. -/
theorem C106_no_profiles (k : K) (h : k.profs = []) : rows k (.main 4) = [] ∧
    tasks (.byRow (rows k (.main 4))) = .error .job := by
  have : rows k (.main 4) = [] := by
    simp [rows, rowsAt, h]
  exact ⟨this, by rw [this]; rfl⟩

/-! ### Missing files -/

/-- **Exactly the rows whose files will be there are kept.** -/
theorem C106_keep (there : File → Bool) (known : List File) (j : Job) (rs : List Row) (r : Row) :
    r ∈ keep true there known j rs ↔
      r ∈ rs ∧ ∀ f ∈ tested j r, there f = true ∨ f ∈ known := by
  simp [keep, List.mem_filter, List.all_eq_true]

/-- Nothing is dropped unless it is asked for; what is kept stays in order. -/
theorem C106_keep_order (drop : Bool) (there : File → Bool) (known : List File) (j : Job)
    (rs : List Row) : keep false there known j rs = rs ∧
      (keep drop there known j rs).Sublist rs := by
  refine ⟨rfl, ?_⟩
  cases drop
  · exact List.Sublist.refl _
  · exact List.filter_sublist

/-- The files joined in step 2 are those of the slices that will be there; grids of which no slice will
be there are left out. -/
theorem C106_columns (there : File → Bool) (known : List File) (cs : List (File × List File))
    (x : File × List File) :
    x ∈ keepCols true there known cs ↔ x.2 ≠ [] ∧ ∃ c ∈ cs, x.1 = c.1 ∧
      x.2 = c.2.filter fun f => there f || known.contains f := by
  unfold keepCols
  rw [if_pos rfl, List.mem_filter, List.mem_map]
  constructor
  · rintro ⟨⟨c, hc, rfl⟩, h⟩
    exact ⟨by simpa using h, c, hc, rfl, rfl⟩
  · rintro ⟨h, c, hc, h1, h2⟩
    refine ⟨⟨c, hc, ?_⟩, by simpa using h⟩
    rw [← h2, ← h1]

/-- **The files expected do get made**: what step 1 announces are the grids that steps 2 to 5 read, for all
slices, and what step 4 announces are the interpolators that step 5 reads. -/
theorem C106_chain (k : K) (there : File → Bool) :
    (∀ c ∈ cells k k.slices, gridOf k c ∈ (rows k (.main 0)).map (·.out)) ∧
    (∀ col ∈ cols k, ∀ f ∈ col.2, (∀ (l i : ℕ) (s : List Name), (k.parts.getD l [])[i]? = some s → ∀ x ∈ s,
      x ∈ k.slices.getD l []) → f ∈ (rows k (.main 0)).map (·.out)) ∧
    (∀ r ∈ rows k (.main 4), ∀ f, r.also = some f → f ∈ (rows k (.main 3)).map (·.out)) ∧
    (∀ known r, r ∈ rows k (.main 4) → there r.grid = true →
      (∀ f ∈ (rows k (.main 3)).map (·.out), f ∈ known) →
      r ∈ keep true there known (.main 4) (rows k (.main 4))) := by
  have h3 : ∀ r ∈ rows k (.main 4), ∀ f, r.also = some f → f ∈ (rows k (.main 3)).map (·.out) := by
    intro r hr f hf
    by_cases hp : k.profs = []
    · rw [(C106_no_profiles k hp).1] at hr; cases hr
    · obtain ⟨c, hc, m, hm, rfl⟩ := ((C106_rows k r).2.2.1 hp).1 hr
      cases hf
      exact List.mem_map.2 ⟨⟨gridOf k c, none, pkl k c (chars! "IF_") m⟩,
        (C106_rows k _).2.1.2 ⟨c, hc, m, hm, rfl⟩, rfl⟩
  have h1 : ∀ c ∈ cells k k.slices, gridOf k c ∈ (rows k (.main 0)).map (·.out) := by
    intro c hc
    exact List.mem_map.2 ⟨_, (C106_rows k _).1.2 ⟨c, hc, rfl⟩, rfl⟩
  refine ⟨h1, ?_, h3, ?_⟩
  · intro col hcol f hf hp
    obtain ⟨c, hc, rfl⟩ := List.mem_map.1 hcol
    obtain ⟨s, hs, rfl⟩ := List.mem_map.1 hf
    obtain ⟨m1, m2, m3, m4, m5⟩ := mem_cells.1 hc
    obtain ⟨i, hi⟩ := List.getElem?_of_mem (hp c.l c.i c.slice m4 s hs)
    exact h1 ⟨c.l, c.type, c.met, i, s, c.comp⟩ (mem_cells.2 ⟨m1, m2, m3, hi, m5⟩)
  · intro known r hr hg hk
    rw [C106_keep]
    refine ⟨hr, ?_⟩
    intro f hf
    rcases List.mem_cons.1 hf with rfl | hf
    · exact Or.inl hg
    · right
      exact hk f (h3 r hr f (by simpa using hf))

/-! ### The tasks -/

/-- **Each row is dealt with by exactly one task**: the indices of the job array are those of the rows, and the
task with an index picks the row with that index; a table without rows is refused. -/
theorem C106_tasks (rs : List Row) :
    (rs = [] → tasks (.byRow rs) = .error .job) ∧
    (rs ≠ [] → ∃ is, tasks (.byRow rs) = .ok is ∧ is.map (pick rs) = rs.map .ok) ∧
    ∀ i, rs.length ≤ i → pick rs i = .error .key := by
  refine ⟨?_, ?_, ?_⟩
  · rintro rfl; rfl
  · intro h
    refine ⟨List.range rs.length, ?_, ?_⟩
    · show (if rs.length = 0 then _ else _) = _
      rw [if_neg (by simpa using h)]
    · apply List.ext_getElem
      · simp
      · intro n h1 h2
        simp only [List.length_map, List.length_range] at h1
        simp [pick, h1]
  · intro i hi
    unfold pick
    rw [List.getElem?_eq_none hi]

/-- **The table of a job is given to the function for it**, and to no other. -/
theorem C106_dispatch (s : Step) :
    called (jobName (.main s)) =
      [([Fn.create, .combine, .extra, .train, .trainProfile, .export, .rerun] : List Fn).getD
        s.val .create] ∧
    called (jobName (.plots s)) = [.plot] ∧ called (jobName (.checks s)) = [.check] := by
  revert s
  decide +kernel

/-! ### Files written -/

theorem getD_inj {l : List Name} (h : l.Nodup) {a b : ℕ} (ha : a < l.length) (hb : b < l.length)
    (he : l.getD a [] = l.getD b []) : a = b := by
  rw [List.getD_eq_getElem _ _ ha, List.getD_eq_getElem _ _ hb] at he
  exact (List.Nodup.getElem_inj_iff h).1 he

/-- A condition on the settings: nothing is named twice. -/
structure Distinct (k : K) : Prop where
  types : k.types.Nodup
  mets : ∀ l, (k.mets.getD l []).Nodup
  slices : ∀ l, (k.slices.getD l []).Nodup
  comps : ∀ l, (k.comps.getD l []).Nodup

/-- Two passes with the same type, metallicity, slice and compression are the same. -/
theorem cell_eq {k : K} (d : Distinct k) {a b : Cell Name} (ha : a ∈ cells k k.slices)
    (hb : b ∈ cells k k.slices) (h1 : a.type = b.type) (h2 : a.met = b.met)
    (h3 : a.slice = b.slice) (h4 : a.comp = b.comp) : a = b := by
  obtain ⟨p1, p2, p3, p4, p5⟩ := mem_cells.1 ha
  obtain ⟨q1, q2, q3, q4, q5⟩ := mem_cells.1 hb
  have hl : a.l = b.l := getD_inj d.types p1 q1 (by rw [← p2, ← q2, h1])
  have hi : a.i = b.i := by
    rw [← hl, ← h3] at q4
    exact (List.getElem?_inj (List.getElem?_eq_some_iff.1 p4).1 (d.slices a.l)).1
      (p4.trans q4.symm)
  cases a; cases b
  simp_all

/-- **Creating grid slices and adding quantities never write the same file twice**, when the settings name nothing
twice. -/
theorem C106_distinct_partial (k : K) (d : Distinct k) :
    ((rows k (.main 0)).map (·.out)).Nodup ∧ ((rows k (.main 2)).map (·.out)).Nodup := by
  have hn := cells_nodup k k.slices d.mets d.comps
  constructor
  · have : (rows k (.main 0)).map (·.out) = (cells k k.slices).map (gridOf k) := by
      simp only [rows, List.map_flatMap]
      show (cells k k.slices).flatMap (fun c => [gridOf k c]) = _
      rw [← List.map_eq_flatMap]
    rw [this]
    refine hn.map_on ?_
    intro a ha b hb h
    simp only [gridOf, List.cons.injEq, true_and, and_true] at h
    exact cell_eq d ha hb h.1 h.2.1 (List.append_cancel_right h.2.2.2) h.2.2.1
  · have : (rows k (.main 2)).map (·.out) = (cells k k.slices).map
        (fun c => base k c ++ [c.comp, c.slice ++ (chars! "_processed.h5")]) := by
      simp only [rows, List.map_flatMap]
      show (cells k k.slices).flatMap (fun c => [_]) = _
      rw [← List.map_eq_flatMap]
    rw [this]
    refine hn.map_on ?_
    intro a ha b hb h
    simp only [base, List.cons_append, List.nil_append, List.cons.injEq, true_and, and_true] at h
    exact cell_eq d ha hb h.1 h.2.1 (List.append_cancel_right h.2.2.2) h.2.2.1

/-- The interpolators of two slices, or of two compressions that both have or both lack `RLO`. -/
theorem same_pkl (k : K) (a b : Cell Name) (h1 : a.type = b.type) (h2 : a.met = b.met)
    (h3 : rlo a.comp = rlo b.comp) (kind m : Name) : pkl k a kind m = pkl k b kind m := by
  simp only [pkl, base, h1, h2, h3]

/-- **Training writes the interpolators of all slices to one file**: for any two slices of a grid type,
and any two compressions that both have or both lack `RLO`, the tasks of the array write the same
file, from different grids. -/
theorem C106_train_violated (k : K) (a b : Cell Name) (ha : a ∈ cells k k.slices)
    (hb : b ∈ cells k k.slices) (h1 : a.type = b.type) (h2 : a.met = b.met)
    (h3 : rlo a.comp = rlo b.comp) (hab : a.slice ≠ b.slice ∨ a.comp ≠ b.comp) (m : Name)
    (hm : m ∈ k.methods) :
    ∃ r ∈ rows k (.main 3), ∃ s ∈ rows k (.main 3), r.grid ≠ s.grid ∧ r.out = s.out := by
  refine ⟨_, (C106_rows k _).2.1.2 ⟨a, ha, m, hm, rfl⟩, _,
    (C106_rows k _).2.1.2 ⟨b, hb, m, hm, rfl⟩, ?_, same_pkl k a b h1 h2 h3 _ m⟩
  intro h
  simp only [gridOf, List.cons.injEq, true_and, and_true] at h
  rcases hab with hab | hab
  · exact hab (List.append_cancel_right h.2.2.2)
  · exact hab h.2.2.1

/-- **The data set and a rerun do not tell slices or compressions apart either**: two slices are exported to one file, two
compressions are rerun in one directory. -/
theorem C106_export_violated (k : K) (a b : Cell Name) (ha : a ∈ cells k k.slices)
    (hb : b ∈ cells k k.slices) (h1 : a.type = b.type) (h2 : a.met = b.met) :
    (rlo a.comp = rlo b.comp → ∃ r ∈ rows k (.main 5), ∃ s ∈ rows k (.main 5),
      r.grid = gridOf k a ∧ s.grid = gridOf k b ∧ r.out = s.out) ∧
    (a.slice = b.slice → ∃ r ∈ rows k (.main 6), ∃ s ∈ rows k (.main 6),
      r.grid = gridOf k a ∧ s.grid = gridOf k b ∧ r.out = s.out) := by
  constructor
  · intro h3
    let row (c : Cell Name) : Row :=
      ⟨gridOf k c, none, [k.path, (chars! "POSYDON_data"), exportDir c] ++ [h5 c.met]⟩
    have hr : ∀ c ∈ cells k k.slices, row c ∈ rows k (.main 5) := fun c hc =>
      List.mem_flatMap.2 ⟨c, hc, List.mem_cons_self⟩
    refine ⟨row a, hr a ha, row b, hr b hb, rfl, rfl, ?_⟩
    simp only [row, exportDir, h1, h2, h3]
  · intro h3
    refine ⟨_, (C106_rows k _).2.2.2.2 ⟨a, ha, rfl⟩, _, (C106_rows k _).2.2.2.2 ⟨b, hb, rfl⟩,
      rfl, rfl, ?_⟩
    simp only [h1, h2, h3]

/-- **The plots of different interpolation methods go to the same place.** -/
theorem C106_plots_violated (k : K) (s : Step) (c : Cell Name) (hc : c ∈ cells k k.slices)
    (hg : subGrid k s c ≠ []) (hp : plotted k c = true) (m m' : Name) (hm : m ∈ k.methods)
    (hm' : m' ∈ k.methods) :
    ∃ r ∈ rows k (.plots s), ∃ r' ∈ rows k (.plots s),
      r.also = plotInterp k s c m ∧ r'.also = plotInterp k s c m' ∧ r.out = r'.out := by
  have hms : methodsOf k s = k.methods := by
    unfold methodsOf
    rw [if_neg]
    rintro ⟨_, _, h⟩
    rw [h] at hm; cases hm
  let row (m : Name) : Row := ⟨base k c ++ [c.comp, h5 (subGrid k s c)], plotInterp k s c m,
    base k c ++ [(chars! "plots"), (rlo c.comp).drop 1 ++ (rlo c.comp).take 1 ++ subGrid k s c]⟩
  have hr : ∀ m ∈ k.methods, row m ∈ rows k (.plots s) := by
    intro m hm
    refine List.mem_flatMap.2 ⟨c, hc, ?_⟩
    show row m ∈ (if subGrid k s c = [] ∨ plotted k c = false then [] else
      (methodsOf k s).map row)
    rw [if_neg (by simp [hg, hp]), hms]
    exact List.mem_map_of_mem hm
  exact ⟨row m, hr m hm, row m', hr m' hm', rfl, rfl, rfl⟩

/-- The plots of step 4 get the interpolators trained in step 4, those of step 5 get the profile
interpolators trained in step 5. -/
theorem C106_plot_interpolator (k : K) (c : Cell Name) (m : Name) (hm : m ≠ []) :
    plotInterp k 3 c m = some (pkl k c (chars! "IF_") m) ∧
    plotInterp k 4 c m = some (pkl k c (chars! "profile_") m) := by
  constructor
  · unfold plotInterp; rw [if_neg hm, if_pos rfl]
  · unfold plotInterp; rw [if_neg hm, if_neg (by decide), if_pos rfl]

/-- **The checks get them the other way round**: those after training the interpolators get the
profile interpolators, those after training the profile interpolators get the others. -/
theorem C106_checks_violated (k : K) (c : Cell Name) (m : Name) (hm : m ≠ []) :
    checkInterp k 3 c m = some (pkl k c (chars! "profile_") m) ∧
    checkInterp k 4 c m = some (pkl k c (chars! "IF_") m) := by
  constructor
  · unfold checkInterp; rw [if_neg hm, if_neg (by decide), if_pos (by decide)]
  · unfold checkInterp; rw [if_neg hm, if_pos (by decide)]

/-- **So all checks of trained interpolators are dropped** when missing files are dropped and no profile interpolators
are there, and the set-up fails for want of rows. -/
theorem C106_checks_dropped_violated (k : K) (there : File → Bool) (known : List File)
    (hm : ∀ m ∈ k.methods, m ≠ [])
    (hp : ∀ c ∈ cells k k.slices, ∀ m ∈ k.methods,
      there (pkl k c (chars! "profile_") m) = false ∧ pkl k c (chars! "profile_") m ∉ known) :
    tasks (.byRow (keep true there known (.checks 3) (rows k (.checks 3)))) = .error .job := by
  have : keep true there known (.checks 3) (rows k (.checks 3)) = [] := by
    rw [List.eq_nil_iff_forall_not_mem]
    intro r hr
    obtain ⟨hr, ht⟩ := (C106_keep _ _ _ _ _).1 hr
    obtain ⟨c, hc, hr⟩ := List.mem_flatMap.1 hr
    have hr' : r ∈ (if subGrid k 3 c = [] then [] else (methodsOf k 3).map fun m =>
      (⟨base k c ++ [c.comp, h5 (subGrid k 3 c)], checkInterp k 3 c m, []⟩ : Row)) := hr
    split_ifs at hr' with h
    · cases hr'
    · obtain ⟨m, hmm, rfl⟩ := List.mem_map.1 hr'
      have hmm' : m ∈ k.methods := by
        unfold methodsOf at hmm
        rwa [if_neg (fun h => h.1 rfl)] at hmm
      have hx := ht (pkl k c (chars! "profile_") m) (by
        show _ ∈ _ :: (if (3 : Step) = 3 ∨ (3 : Step) = 4 then (checkInterp k 3 c m).toList else [])
        rw [if_pos (Or.inl rfl), (C106_checks_violated k c m (hm m hmm')).1]
        simp)
      rcases hx with hx | hx
      · rw [(hp c hc m hmm').1] at hx; cases hx
      · exact (hp c hc m hmm').2 hx
  rw [this]
  rfl

/-! ### A concrete case -/

namespace Demo

def k : K where
  root := (chars! "g")
  version := (chars! "v2")
  path := (chars! "p")
  types := [(chars! "HMS-HMS"), (chars! "CO-HMS_RLO")]
  mets := [[(chars! "1e+00_Zsun"), (chars! "1e-01_Zsun")], [(chars! "1e+00_Zsun")]]
  slices := [[(chars! "a"), (chars! "b")], [(chars! "c")]]
  parts := [[[(chars! "a"), (chars! "b")]], [[(chars! "c")]]]
  comps := [[(chars! "LITE"), (chars! "ORIGINAL")], [(chars! "LITE_RLO")]]
  orig := [[(chars! "ORIGINAL")], [(chars! "ORIGINAL")]]
  combined := [[(chars! "ab")], [(chars! "c_all")]]
  control := [[(chars! "x"), (chars! "y")], [(chars! "z")]]
  methods := [(chars! "linear"), (chars! "1NN")]
  profs := [(chars! "radius")]
  rerunType := (chars! "PISN")

example : (cells k k.slices).length = 9 ∧ (rows k (.main 0)).length = 9 ∧
    (rows k (.main 3)).length = 18 ∧ (cols k).length = 5 := by decide +kernel

example : fits k (.main 0) = true ∧ fits k (.main 1) = true ∧ fits k (.main 2) = true ∧
    fits k (.main 3) = true ∧ fits k (.main 4) = true ∧ fits k (.checks 3) = true := by
  decide +kernel

example : (rows k (.main 2)).getLast? = some
    ⟨[(chars! "g"), (chars! "CO-HMS_RLO"), (chars! "v2"), (chars! "1e+00_Zsun"), (chars! "LITE_RLO"),
      (chars! "c.h5")],
     some [(chars! "g"), (chars! "CO-HMS_RLO"), (chars! "v2"), (chars! "1e+00_Zsun"),
      (chars! "ORIGINAL_RLO"), (chars! "c.h5")],
     [(chars! "g"), (chars! "CO-HMS_RLO"), (chars! "v2"), (chars! "1e+00_Zsun"), (chars! "LITE_RLO"),
      (chars! "c_processed.h5")]⟩ := by decide +kernel

example : Distinct k where
  types := by decide
  mets := by
    intro l
    by_cases h : l < 2
    · have : ∀ l < 2, (k.mets.getD l []).Nodup := by decide
      exact this l h
    · rw [List.getD_eq_default _ _ (by simp [k]; omega)]; exact List.nodup_nil
  slices := by
    intro l
    by_cases h : l < 2
    · have : ∀ l < 2, (k.slices.getD l []).Nodup := by decide
      exact this l h
    · rw [List.getD_eq_default _ _ (by simp [k]; omega)]; exact List.nodup_nil
  comps := by
    intro l
    by_cases h : l < 2
    · have : ∀ l < 2, (k.comps.getD l []).Nodup := by decide
      exact this l h
    · rw [List.getD_eq_default _ _ (by simp [k]; omega)]; exact List.nodup_nil

/-- The four tasks for one metallicity that write the same interpolator. -/
example : ((rows k (.main 3)).map (·.out)).count
    [(chars! "g"), (chars! "HMS-HMS"), (chars! "v2"), (chars! "1e+00_Zsun"),
      (chars! "interpolation_objects"), (chars! "IF_linear.pkl")] = 4 := by decide +kernel

end Demo

theorem isIn_infix (p s : Name) : Verif.Frame.isIn p s = true ↔ p <:+: s := by
  unfold Verif.Frame.isIn
  rw [List.any_eq_true]
  constructor
  · rintro ⟨t, ht, hp⟩
    exact (List.isPrefixOf_iff_prefix.1 hp).isInfix.trans ((List.mem_tails _ _).1 ht).isInfix
  · rintro ⟨a, b, rfl⟩
    exact ⟨p ++ b, (List.mem_tails _ _).2 ⟨a, by simp⟩, List.isPrefixOf_iff_prefix.2 ⟨b, rfl⟩⟩

/-- The interpolators of a compression with RLO and of one without are in different files. -/
theorem C106_rlo_files (k : K) (c c' : Cell Name) (kind m : Name) (h : (chars! "RLO") <:+: c.comp)
    (h' : ¬ (chars! "RLO") <:+: c'.comp) : pkl k c kind m ≠ pkl k c' kind m := by
  intro e
  have e1 := congrArg List.getLast? e
  simp only [pkl, rlo, List.getLast?_append, List.getLast?_cons_cons, List.getLast?_singleton] at e1
  rw [if_pos ((isIn_infix _ _).2 h), if_neg (fun x => h' ((isIn_infix _ _).1 x))] at e1
  simp at e1

/-- The files of a cell that are put into the data set are different from each other, and each interpolator is a file of its own. -/
theorem C106_export_files (k : K) (c : Cell Name) :
    ((rowsAt k (.main 5) c).map Row.out).Nodup ∧ ((rowsAt k (.main 5) c).map Row.grid).length = 3 := by
  refine ⟨?_, rfl⟩
  simp [rowsAt]

/-- The plots and checks of the step that combines grids are about the combined grid. -/
theorem C106_combined (k : K) (c : Cell Name) (j : Job) (hj : j = .plots 1 ∨ j = .checks 1) (L : List Name) (g : Name)
    (hL : k.combined[c.l]? = some L) (hg : L[c.i]? = some g) (r : Row) (h : r ∈ rowsAt k j c) :
    r.grid = base k c ++ [c.comp, g ++ (chars! ".h5")] := by
  have e : subGrid k 1 c = g := by
    unfold subGrid
    simp [List.getD_eq_getElem?_getD, hL, hg]
  rcases hj with rfl | rfl
  · simp only [rowsAt, e] at h
    split_ifs at h
    · exact absurd h (by simp)
    · obtain ⟨m, -, rfl⟩ := List.mem_map.1 h
      rfl
  · simp only [rowsAt, e] at h
    split_ifs at h
    · exact absurd h (by simp)
    · obtain ⟨m, -, rfl⟩ := List.mem_map.1 h
      rfl

end Verif.Pipeline
