import Verif.Compress

/-!
C116: compressing the files of a grid keeps all data.
-/

namespace Verif.Compress

open Verif.Frame (isIn)

/-! ### Specification -/

/-- Specification: the files of a run without the core dumps, with the data files compressed. -/
def doneFiles (z : File → ℕ) (fs : List File) : List File :=
  (fs.filter fun f => !isCore f.name).map fun f =>
    if isData f.name then { name := f.name ++ (chars! ".gz"), link := false, size := z f, data := f.data } else f

/-- Specification: folders of runs with those files; other folders as they are. -/
def done (z : File → ℕ) (d : Dir) : Dir :=
  if isIn marker d.path then { d with files := doneFiles z d.files } else d

/-- A tree of folders: no path and no name twice. -/
def WellFormed (t : Tree) : Prop := (t.map (·.path)).Nodup ∧ ∀ d ∈ t, (d.files.map (·.name)).Nodup

/-- All data files can be compressed: no links, no compressed file next to them, no characters for the shell in their paths. -/
def Plain (t : Tree) : Prop :=
  ∀ d ∈ t, isIn marker d.path = true → ∀ f ∈ d.files, isData f.name = true →
    f.link = false ∧ shellSafe (d.path ++ ['/'] ++ f.name) = true ∧ f.name ++ (chars! ".gz") ∉ d.files.map (·.name)

/-! ### Compressing -/

/-- Core dumps are removed, data files are compressed, and nothing else is touched. -/
theorem C116_result_partial (z : File → ℕ) (t : Tree) (hw : WellFormed t) (hp : Plain t) : compress z t = t.map (done z) := by
  unfold compress
  simp only [getSize]
  rw [loop_eq _ _ _ (listed_paths _ _ hw.1), loop_eq _ _ _ (listed_paths _ _ hw.1), List.map_map]
  apply List.map_congr_left
  intro d hd
  simp only [Function.comp]
  rw [listed_lookup isCore t hw.1 d hd]
  by_cases hr : inRun d
  · have hsp : done z d = { d with files := doneFiles z d.files } := by
      unfold done
      rw [if_pos (show isIn marker d.path = true from hr)]
    rw [hsp]
    -- the files after removing
    have h1 : actOn (fun _ => removeAll) d (if (inRun d && (d.files.any fun f => isCore f.name)) = true then
          some ((d.files.filter fun f => isCore f.name).map (·.name)) else none) = { d with files := d.files.filter fun f => !isCore f.name } := by
      rw [hr, Bool.true_and]
      by_cases ha : (d.files.any fun f => isCore f.name) = true
      · rw [if_pos ha]
        show ({ d with files := removeAll _ d.files } : Dir) = _
        congr 1
        rw [removeAll_eq]
        apply List.filter_congr
        intro f hf
        congr 1
        rw [Bool.eq_iff_iff, List.contains_iff_mem, List.mem_map]
        constructor
        · rintro ⟨g, hg, he⟩
          rw [← he]; exact (List.mem_filter.1 hg).2
        · intro hc
          exact ⟨f, List.mem_filter.2 ⟨hf, hc⟩, rfl⟩
      · rw [if_neg ha]
        have : d.files.filter (fun f => !isCore f.name) = d.files := by
          rw [List.filter_eq_self]
          intro f hf
          have : (d.files.any fun f => isCore f.name) = false := by simpa using ha
          rw [List.any_eq_false] at this
          simpa using this f hf
        show d = { d with files := d.files.filter fun f => !isCore f.name }
        rw [this]
    rw [h1]
    show actOn _ _ ((listed isData t).lookup d.path) = _
    rw [listed_lookup isData t hw.1 d hd, hr, Bool.true_and]
    by_cases ha : (d.files.any fun f => isData f.name) = true
    · rw [if_pos ha]
      show ({ d with files := zipAll z d.path _ (d.files.filter fun f => !isCore f.name) } : Dir) = _
      congr 1
      rw [zipAll_eq]
      · unfold doneFiles
        apply List.map_congr_left
        intro f hf
        have : f.name ∈ (d.files.filter fun f => isData f.name).map (·.name) ↔ isData f.name = true := by
          rw [List.mem_map]
          constructor
          · rintro ⟨g, hg, he⟩
            rw [← he]; exact (List.mem_filter.1 hg).2
          · intro h
            exact ⟨f, List.mem_filter.2 ⟨(List.mem_filter.1 hf).1, h⟩, rfl⟩
        by_cases h : isData f.name = true
        · rw [if_pos (this.2 h), if_pos h]; rfl
        · rw [if_neg (fun x => h (this.1 x)), if_neg h]
      · exact ((List.filter_sublist (l := d.files) (p := fun f => isData f.name)).map (·.name)).nodup (hw.2 d hd)
      · intro a ha hg
        rw [List.mem_map] at ha hg
        obtain ⟨f, hf, rfl⟩ := ha
        obtain ⟨g, hg, he⟩ := hg
        have h1 := (gz_done (List.mem_filter.1 hf).2).1
        rw [← he, (List.mem_filter.1 hg).2] at h1
        cases h1
      · intro n hn
        rw [List.mem_map] at hn
        obtain ⟨f, hf, rfl⟩ := hn
        obtain ⟨p1, p2, p3⟩ := hp d hd hr f (List.mem_filter.1 hf).1 (List.mem_filter.1 hf).2
        refine ⟨p2, ?_, ?_⟩
        · intro h
          rw [List.mem_map] at h
          obtain ⟨g, hg, he⟩ := h
          exact p3 (List.mem_map.2 ⟨g, (List.mem_filter.1 hg).1, he⟩)
        · intro g hg he
          have : g = f := List.inj_on_of_nodup_map (hw.2 d hd) (List.mem_filter.1 hg).1 (List.mem_filter.1 hf).1 he
          rw [this]; exact p1
    · rw [if_neg ha]
      have : doneFiles z d.files = d.files.filter fun f => !isCore f.name := by
        unfold doneFiles
        rw [List.map_congr_left (g := id)]
        · simp
        · intro f hf
          have h : (d.files.any fun f => isData f.name) = false := by simpa using ha
          rw [List.any_eq_false] at h
          rw [if_neg (h f (List.mem_filter.1 hf).1)]; rfl
      show ({ d with files := _ } : Dir) = _
      rw [this]
  · have hr' : inRun d = false := by simpa using hr
    have : done z d = d := by
      unfold done
      rw [if_neg (show ¬ isIn marker d.path = true from hr)]
    rw [this, hr', Bool.false_and]
    show actOn _ d ((listed isData t).lookup d.path) = _
    rw [listed_lookup isData t hw.1 d hd, hr', Bool.false_and]
    rfl

/-- Afterwards nothing is left to do, and the contents of all data files are still there. -/
theorem C116_complete_partial (z : File → ℕ) (t : Tree) (hw : WellFormed t) (hp : Plain t) :
    (getSize (compress z t)).remove = [] ∧ (getSize (compress z t)).compress = [] ∧
    (getSize (compress z t)).runs = (getSize t).runs ∧
    ∀ d ∈ t, ∀ f ∈ d.files, (isIn marker d.path = true → isCore f.name = false) →
      ∃ d' ∈ compress z t, d'.path = d.path ∧ ∃ g ∈ d'.files, g.data = f.data ∧ (g = f ∨ g.name = f.name ++ (chars! ".gz")) := by
  rw [C116_result_partial z t hw hp]
  have hpath : ∀ d, (done z d).path = d.path := by
    intro d; unfold done; split <;> rfl
  have hemp : ∀ p : Name → Bool, (∀ d ∈ t, inRun d = true → ∀ g ∈ (done z d).files, p g.name = false) → listed p (t.map (done z)) = [] := by
    intro p h
    unfold listed
    rw [List.filterMap_eq_nil_iff]
    intro d' hd'
    rw [List.mem_filter, List.mem_map] at hd'
    obtain ⟨⟨d, hd, rfl⟩, hr⟩ := hd'
    have hr : inRun d = true := by
      unfold inRun at hr ⊢
      rw [← hpath d]; exact hr
    have : ((done z d).files.filter fun f => p f.name) = [] := by
      rw [List.filter_eq_nil_iff]
      intro g hg
      simp [h d hd hr g hg]
    simp only [this]
    rfl
  have hfiles : ∀ d, inRun d = true → ∀ g ∈ (done z d).files, isCore g.name = false ∧ isData g.name = false := by
    intro d hr g hg
    unfold done at hg
    rw [if_pos (show isIn marker d.path = true from hr)] at hg
    simp only [doneFiles, List.mem_map] at hg
    obtain ⟨f, hf, rfl⟩ := hg
    by_cases hd : isData f.name = true
    · rw [if_pos hd]
      exact ⟨(gz_done hd).2, (gz_done hd).1⟩
    · rw [if_neg hd]
      have := (List.mem_filter.1 hf).2
      exact ⟨by simpa using this, by simpa using hd⟩
  refine ⟨hemp _ fun d _ hr g hg => (hfiles d hr g hg).1, hemp _ fun d _ hr g hg => (hfiles d hr g hg).2, ?_, ?_⟩
  · show ((t.map (done z)).filter _).length = (t.filter _).length
    rw [List.filter_map, List.length_map]
    congr 1
    apply List.filter_congr
    intro d _
    simp only [Function.comp, inRun, hpath]
  · intro d hd f hf hc
    refine ⟨done z d, List.mem_map.2 ⟨d, hd, rfl⟩, hpath d, ?_⟩
    by_cases hr : isIn marker d.path = true
    · unfold done
      rw [if_pos hr]
      refine ⟨_, List.mem_map.2 ⟨f, List.mem_filter.2 ⟨hf, by simp [hc hr]⟩, rfl⟩, ?_⟩
      by_cases hd : isData f.name = true
      · rw [if_pos hd]; exact ⟨rfl, Or.inr rfl⟩
      · rw [if_neg hd]; exact ⟨rfl, Or.inl rfl⟩
    · unfold done
      rw [if_neg hr]
      exact ⟨f, hf, rfl, Or.inl rfl⟩

/-- A grid with one run that has a history, a core dump and a file of another kind. -/
def sample : Tree :=
  [⟨(chars! "g"), [⟨(chars! "grid.txt"), false, 5, 9⟩]⟩,
   ⟨(chars! "g/m1_grid_index_0"), [⟨(chars! "binary_history.data"), false, 100, 1⟩, ⟨(chars! "core.123"), false, 1000, 2⟩,
      ⟨(chars! "inlist"), false, 10, 3⟩]⟩,
   ⟨(chars! "g/m1_grid_index_0/LOGS1"), [⟨(chars! "history.data"), false, 50, 4⟩]⟩]

example : WellFormed sample ∧ Plain sample := by
  unfold WellFormed Plain
  refine ⟨by decide, ?_⟩
  have : ∀ d ∈ sample, ∀ f ∈ d.files, isIn marker d.path = true → isData f.name = true →
    f.link = false ∧ shellSafe (d.path ++ ['/'] ++ f.name) = true ∧ f.name ++ (chars! ".gz") ∉ d.files.map (·.name) := by
    decide
  exact fun d hd hr f hf => this d hd f hf hr

example : getSize sample = ⟨1165, [((chars! "g/m1_grid_index_0"), [(chars! "core.123")])],
    [((chars! "g/m1_grid_index_0"), [(chars! "binary_history.data")]), ((chars! "g/m1_grid_index_0/LOGS1"), [(chars! "history.data")])],
    1, 1, 2⟩ := by decide +kernel

/-- Data files with the name `core` are removed: their contents are lost. -/
theorem C116_core_violated (z : File → ℕ) : ∃ t : Tree, WellFormed t ∧ Plain t ∧
    (∃ d ∈ t, ∃ f ∈ d.files, (splitext f.name).2 = (chars! ".data") ∧ f.data = 7) ∧ ∀ d ∈ compress z t, d.files = [] := by
  refine ⟨[⟨(chars! "_grid_index_0"), [⟨(chars! "core.data"), false, 1, 7⟩]⟩], ⟨by decide, by decide⟩, ?_, ?_, ?_⟩
  · intro d hd hr f hf
    rw [List.mem_singleton] at hd
    subst hd
    rw [List.mem_singleton] at hf
    subst hf
    decide
  · exact ⟨_, List.mem_singleton.2 rfl, _, List.mem_singleton.2 rfl, by decide, rfl⟩
  · have : compress z [⟨(chars! "_grid_index_0"), [⟨(chars! "core.data"), false, 1, 7⟩]⟩] = [⟨(chars! "_grid_index_0"), []⟩] := by rfl
    rw [this]
    simp

/-- A blank in the path, or a compressed file that is already there, leaves files uncompressed; then a warning tells so. -/
theorem C116_left_violated (z : File → ℕ) :
    (∃ t, WellFormed t ∧ compress z t = t ∧ (getSize t).compress ≠ [] ∧ compressDir z (some (some t)) = .ok (t, false, true) ∧
      ∃ d ∈ t, ' ' ∈ d.path) ∧
    (∃ t, WellFormed t ∧ compress z t = t ∧ (getSize t).compress ≠ [] ∧ compressDir z (some (some t)) = .ok (t, false, true) ∧
      ∀ d ∈ t, ∀ f ∈ d.files, shellSafe (d.path ++ ['/'] ++ f.name) = true) := by
  refine ⟨⟨[⟨(chars! "my grid/_grid_index_0"), [⟨(chars! "a.data"), false, 1, 7⟩]⟩], ⟨by decide, by decide⟩, rfl, by decide, rfl, ?_⟩,
    ⟨[⟨(chars! "_grid_index_0"), [⟨(chars! "a.data"), false, 1, 7⟩, ⟨(chars! "a.data.gz"), false, 1, 8⟩]⟩], ⟨by decide, by decide⟩,
      rfl, by decide, rfl, by decide⟩⟩
  exact ⟨_, List.mem_singleton.2 rfl, by decide⟩

/-- Folders without a run keep their files, unless the marker of runs is in the path to the grid. -/
theorem C116_outside (z : File → ℕ) (t : Tree) (hn : (t.map (·.path)).Nodup) (d : Dir) (hd : d ∈ t)
    (hr : isIn marker d.path = false) : d ∈ compress z t := by
  unfold compress
  simp only [getSize]
  rw [loop_eq _ _ _ (listed_paths _ _ hn), loop_eq _ _ _ (listed_paths _ _ hn), List.map_map]
  refine List.mem_map.2 ⟨d, hd, ?_⟩
  simp only [Function.comp]
  rw [listed_lookup isCore t hn d hd, show inRun d = false from hr, Bool.false_and]
  show actOn _ d ((listed isData t).lookup d.path) = _
  rw [listed_lookup isData t hn d hd, show inRun d = false from hr, Bool.false_and]
  rfl

/-- With the marker in the path to the grid the files of the grid itself are compressed, too. -/
theorem C116_marker_violated (z : File → ℕ) : ∃ t : Tree, WellFormed t ∧ (getSize t).runs = 0 ∧
    compress z t = [⟨(chars! "/x_grid_index_0/grid"), [⟨(chars! "grid.txt.gz"), false, z ⟨(chars! "grid.txt"), false, 5, 9⟩, 9⟩]⟩] ∧
    t = [⟨(chars! "/x_grid_index_0/grid"), [⟨(chars! "grid.txt"), false, 5, 9⟩]⟩] :=
  ⟨[⟨(chars! "/x_grid_index_0/grid"), [⟨(chars! "grid.txt"), false, 5, 9⟩]⟩], ⟨by decide, by decide⟩, by decide, rfl, rfl⟩

/-- What is counted: the files in the two lists, and the sizes of all files that are not links. -/
theorem C116_counts (t : Tree) :
    (getSize t).nRemove = ((getSize t).remove.flatMap (·.2)).length ∧
    (getSize t).nCompress = ((getSize t).compress.flatMap (·.2)).length ∧
    (getSize t).total = ((t.flatMap (·.files)).filter fun f => !f.link).foldr (fun f s => f.size + s) 0 := by
  refine ⟨by rw [List.length_flatMap]; rfl, by rw [List.length_flatMap]; rfl, ?_⟩
  show (t.map fun d => ((d.files.filter fun f => !f.link).map (·.size)).sum).sum = _
  have hsum : ∀ l : List File, l.foldr (fun f s => f.size + s) 0 = (l.map (·.size)).sum := by
    intro l
    induction l with
    | nil => rfl
    | cons a l ih => simp [ih]
  rw [hsum]
  induction t with
  | nil => rfl
  | cons d t ih => simp [ih]

/-- A folder that is not given or does not exist is an error. -/
theorem C116_errors (z : File → ℕ) (t : Tree) :
    compressDir z none = .error .name ∧ compressDir z (some none) = .error .notADirectory ∧
    compressDir z (some (some t)) = .ok (compress z t, !(getSize (compress z t)).remove.isEmpty, !(getSize (compress z t)).compress.isEmpty) :=
  ⟨rfl, rfl, rfl⟩

/-! ### Text of a size -/

/-- The text of a size has the smallest unit in which the quantity is below the threshold; from the second unit on it is not
below the threshold divided by the base. -/
theorem C116_textsize (q : ℚ) (base : ℕ) (thr : ℚ) (hb : base = 1000 ∨ base = 1024) (h0 : 0 < thr) (h1 : thr ≤ base) :
    (∃ i, i ≤ 8 ∧ textsize q base thr = .ok ⟨decide (q < 0), |q| / (base : ℚ) ^ i, some i⟩ ∧ |q| / (base : ℚ) ^ i < thr ∧
      ∀ j, j < i → thr ≤ |q| / (base : ℚ) ^ j ∧ thr / base ≤ |q| / (base : ℚ) ^ i) ∨
    (textsize q base thr = .ok ⟨decide (q < 0), |q|, none⟩ ∧ (base : ℚ) ^ 8 * thr ≤ |q|) := by
  have hpos : (0 : ℚ) < base := by rcases hb with rfl | rfl <;> norm_num
  have e : textsize q base thr = .ok ⟨decide (q < 0), (unitFrom base thr |q| 0 9).1, (unitFrom base thr |q| 0 9).2⟩ := by
    unfold textsize
    rw [if_neg (by rcases hb with rfl | rfl <;> simp), if_neg (not_le.2 h0), if_neg (not_lt.2 h1)]
  rw [e]
  rcases unitFrom_spec base thr |q| 0 9 with ⟨i, _, h2, h3, h4, h5⟩ | ⟨h2, h3⟩
  · left
    refine ⟨i, by omega, by rw [h3], ?_, ?_⟩
    · rw [div_lt_iff₀ (by positivity)]; linarith
    · intro j hj
      constructor
      · rw [le_div_iff₀ (by positivity)]
        have := h5 j (Nat.zero_le _) hj
        linarith
      · obtain ⟨k, rfl⟩ : ∃ k, i = k + 1 := ⟨i - 1, by omega⟩
        have := h5 k (Nat.zero_le _) (by omega)
        rw [div_le_div_iff₀ hpos (by positivity), pow_succ]
        nlinarith
  · right
    exact ⟨by rw [h2], h3 8 (by omega) (by omega)⟩

example : textsize (3 * 1024 ^ 2) 1024 1000 = .ok ⟨false, 3, some 2⟩ ∧ textsize (-500) 1024 1000 = .ok ⟨true, 500, some 0⟩ := by
  decide +kernel

/-- Other bases and thresholds are errors. -/
theorem C116_textsize_errors (q : ℚ) (base : ℕ) (thr : ℚ) (h : ¬(base = 1000 ∨ base = 1024) ∨ thr ≤ 0 ∨ (base : ℚ) < thr) :
    textsize q base thr = .error .value := by
  unfold textsize
  by_cases h1 : base ∉ [1000, 1024]
  · rw [if_pos h1]
  · rw [if_neg h1]
    by_cases h2 : thr ≤ 0
    · rw [if_pos h2]
    · rw [if_neg h2]
      have h1' : base = 1000 ∨ base = 1024 := by simpa [or_iff_not_imp_left] using h1
      rcases h with h | h | h
      · exact absurd h1' h
      · exact absurd h h2
      · rw [if_pos h]

/-! ### A folder for tests -/

/-- The random choice: so many different tracks. -/
def Picks (pick : ℕ → ℕ → List ℕ) : Prop :=
  ∀ n k, k ≤ n → (pick n k).length = k ∧ (pick n k).Nodup ∧ ∀ i ∈ pick n k, i < n

theorem filterMap_get {l : List ℕ} {items : List Name} (h : ∀ i ∈ l, i < items.length) :
    (l.filterMap (items[·]?)).length = l.length := by
  induction l with
  | nil => rfl
  | cons a l ih =>
    rw [List.filterMap_cons, List.getElem?_eq_getElem (h a (by simp))]
    simp [ih fun i hi => h i (by simp [hi])]

/-- The test has the folders with runs, each with the integer part of the requested fraction of its tracks. -/
theorem C116_test (pick : ℕ → ℕ → List ℕ) (hp : Picks pick) (dsr : ℚ) (subs : List Sub) (ex : List Name) (out : List (Name × List Name))
    (h : setUp pick dsr subs ex = .ok out) :
    out.map (·.1) = (subs.filter fun s => s.isDir && s.items.any fun x => isIn marker x).map (·.name) ∧
    ∀ o ∈ out, ∃ s ∈ subs, s.name = o.1 ∧ (∀ x ∈ o.2, x ∈ s.items) ∧ (o.2.length : ℤ) = sampleSize s.items.length dsr := by
  induction subs generalizing ex out with
  | nil => cases h; simp
  | cons s r ih =>
    unfold setUp at h
    by_cases hr : (s.isDir && s.items.any fun x => isIn marker x) = true
    · rw [if_pos hr] at h
      by_cases he : s.name ∈ ex
      · rw [if_pos he] at h; cases h
      · rw [if_neg he] at h
        by_cases hk : sampleSize s.items.length dsr < 0 ∨ (s.items.length : ℤ) < sampleSize s.items.length dsr
        · rw [if_pos hk] at h; cases h
        · rw [if_neg hk] at h
          push Not at hk
          cases hs : setUp pick dsr r (s.name :: ex) with
          | error e => rw [hs] at h; cases h
          | ok l =>
            rw [hs] at h
            cases h
            obtain ⟨i1, i2⟩ := ih _ _ hs
            obtain ⟨k, hk'⟩ := Int.eq_ofNat_of_zero_le hk.1
            have hkn : k ≤ s.items.length := by have := hk.2; rw [hk'] at this; exact_mod_cast this
            obtain ⟨p1, p2, p3⟩ := hp s.items.length k hkn
            constructor
            · simp only [List.filter_cons, hr, if_true, List.map_cons, i1]
            · intro o ho
              rcases List.mem_cons.1 ho with rfl | ho
              · refine ⟨s, by simp, rfl, ?_, ?_⟩
                · intro x hx
                  rw [List.mem_filterMap] at hx
                  obtain ⟨i, _, hi⟩ := hx
                  exact List.mem_of_getElem? hi
                · rw [hk', Int.toNat_natCast, filterMap_get p3, p1]
              · obtain ⟨s', h1, h2⟩ := i2 o ho
                exact ⟨s', by simp [h1], h2⟩
    · rw [if_neg hr] at h
      obtain ⟨i1, i2⟩ := ih _ _ h
      constructor
      · simp only [List.filter_cons, hr]; exact i1
      · intro o ho
        obtain ⟨s', h1, h2⟩ := i2 o ho
        exact ⟨s', by simp [h1], h2⟩

example : Picks (fun n k => if k ≤ n then List.range k else []) := by
  intro n k h
  simp only [if_pos h]
  exact ⟨List.length_range, List.nodup_range, fun i hi => lt_of_lt_of_le (List.mem_range.1 hi) h⟩

/-- Small grids give empty tests: with the default fraction of a hundredth, up to 99 tracks are none. -/
theorem C116_test_violated (n : ℕ) (h : n < 100) : sampleSize n (1 / 100) = 0 := by
  unfold sampleSize
  rw [if_pos (by positivity), Int.floor_eq_zero_iff]
  constructor
  · show (0 : ℚ) ≤ _
    positivity
  · show (n : ℚ) * (1 / 100) < 1
    have : (n : ℚ) < 100 := by exact_mod_cast h
    linarith

end Verif.Compress
