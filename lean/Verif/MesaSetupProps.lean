import Verif.MesaSetup

/-! # C119: setting up the steps with grids -/

namespace Verif.MesaSetup

/-- The names of the metallicities (specification). -/
def zNames : List (ℚ × Name) :=
  [(2, (chars! "2e+00")), (1, (chars! "1e+00")), (45 / 100, (chars! "4.5e-01")), (2 / 10, (chars! "2e-01")), (1 / 10, (chars! "1e-01")),
   (1 / 100, (chars! "1e-02")), (1 / 1000, (chars! "1e-03")), (1 / 10000, (chars! "1e-04"))]

/-- Exactly the eight metallicities of the grids are accepted, with their names. -/
theorem C119_metallicity (z : Option ℚ) (s : Name) : zText z = .ok s ↔ ∃ q, z = some q ∧ (q, s) ∈ zNames := by
  have htab : validZ.map (fun z => (z, Channel.repl (chars! ".0") [] 0 (GridPoint.fmtE 1 z))) = zNames := by decide +kernel
  cases z with
  | none => simp [zText]
  | some q =>
    rw [zText]
    constructor
    · intro h
      by_cases hq : q ∈ validZ
      · rw [if_pos hq] at h
        refine ⟨q, rfl, ?_⟩
        rw [← htab, List.mem_map]
        exact ⟨q, hq, by rw [Except.ok.inj h]⟩
      · rw [if_neg hq] at h
        cases h
    · rintro ⟨q', he, hm⟩
      cases he
      rw [← htab, List.mem_map] at hm
      obtain ⟨q', hq, he⟩ := hm
      obtain ⟨rfl, hs⟩ := Prod.mk.inj he
      rw [if_pos hq, hs]

/-- Different metallicities have different names. -/
theorem C119_metallicity_inj {a b : Option ℚ} {s : Name} (ha : zText a = .ok s) (hb : zText b = .ok s) : a = b := by
  rw [C119_metallicity] at ha hb
  obtain ⟨p, rfl, hp⟩ := ha
  obtain ⟨q, rfl, hq⟩ := hb
  have key : ∀ x ∈ zNames, ∀ y ∈ zNames, x.2 = y.2 → x = y := by decide +kernel
  have := key _ hp _ hq rfl
  rw [(Prod.mk.inj this).1]

/-! ### Boundaries -/

/-- The initial values of the runs with finite initial and final value (specification). -/
def Usable (c : Column) (x : ℚ) : Prop := ∃ (i : ℕ) (y : ℚ), c.initial[i]? = some (some x) ∧ c.final[i]? = some (some y)

theorem mem_usable (c : Column) (x : ℚ) : x ∈ usable c ↔ Usable c x := by
  unfold usable Usable
  rw [List.mem_filterMap]
  constructor
  · rintro ⟨⟨a, b⟩, hm, h⟩
    obtain ⟨i, hi⟩ := List.mem_iff_getElem?.1 hm
    rw [List.getElem?_zip_eq_some] at hi
    cases a with
    | none => cases h
    | some a =>
      cases b with
      | none => cases h
      | some b =>
        cases h
        exact ⟨i, b, hi.1, hi.2⟩
  · rintro ⟨i, y, h1, h2⟩
    exact ⟨(some x, some y), List.mem_iff_getElem?.2 ⟨i, List.getElem?_zip_eq_some.2 ⟨h1, h2⟩⟩, rfl⟩

theorem minMax_ok (c : Column) (a b : ℚ) : minMax c = .ok (a, b) ↔ IsLeast {x | Usable c x} a ∧ IsGreatest {x | Usable c x} b := by
  have hs : {x | Usable c x} = {x | x ∈ usable c} := by
    ext x
    exact (mem_usable c x).symm
  rw [hs]
  unfold minMax
  cases hu : usable c with
  | nil =>
    simp only [minQ, maxQ]
    constructor
    · intro h; cases h
    · rintro ⟨⟨h, _⟩, _⟩; simp at h
  | cons x l =>
    simp only [minQ, maxQ]
    have h1 := foldl_min l x
    have h2 := foldl_max l x
    constructor
    · intro h
      obtain ⟨e1, e2⟩ := Prod.mk.inj (Except.ok.inj h)
      rw [← e1, ← e2]
      exact ⟨h1, h2⟩
    · rintro ⟨h3, h4⟩
      rw [h1.unique h3, h2.unique h4]

theorem minMax_isOk (c : Column) : (∃ r, minMax c = .ok r) ↔ ∃ x, Usable c x := by
  constructor
  · rintro ⟨⟨a, b⟩, h⟩
    exact ⟨a, ((minMax_ok c a b).1 h).1.1⟩
  · rintro ⟨x, hx⟩
    rw [← mem_usable] at hx
    unfold minMax
    cases hu : usable c with
    | nil => rw [hu] at hx; cases hx
    | cons y l => exact ⟨_, rfl⟩

/-- The boundaries are the smallest and the largest initial values of runs with finite values, and there are such runs. -/
theorem C119_bounds (g : Grid) (b : Bounds) : boundaries (some g) = .ok b ↔
    (IsLeast {x | Usable g.m1 x} b.m1.1 ∧ IsGreatest {x | Usable g.m1 x} b.m1.2) ∧
    (IsLeast {x | Usable g.m2 x} b.m2.1 ∧ IsGreatest {x | Usable g.m2 x} b.m2.2) ∧
    (IsLeast {x | Usable g.p x} b.p.1 ∧ IsGreatest {x | Usable g.p x} b.p.2) := by
  obtain ⟨⟨a1, a2⟩, ⟨b1, b2⟩, c1, c2⟩ := b
  simp only [← minMax_ok]
  rw [boundaries]
  cases h1 : minMax g.m1 with
  | error e => simp
  | ok a =>
    cases h2 : minMax g.m2 with
    | error e => simp
    | ok b =>
      cases h3 : minMax g.p with
      | error e => simp
      | ok c => simp

theorem boundaries_isOk (g : Option Grid) : (∃ b, boundaries g = .ok b) ↔
    ∃ g', g = some g' ∧ (∃ x, Usable g'.m1 x) ∧ (∃ x, Usable g'.m2 x) ∧ ∃ x, Usable g'.p x := by
  cases g with
  | none => simp [boundaries]
  | some g =>
    simp only [Option.some.injEq, exists_eq_left', ← minMax_isOk]
    rw [boundaries]
    cases h1 : minMax g.m1 with
    | error e => simp
    | ok a =>
      cases h2 : minMax g.m2 with
      | error e => simp
      | ok b =>
        cases h3 : minMax g.p with
        | error e => simp
        | ok c => simp

/-- All runs with finite values are inside the boundaries. -/
theorem C119_inside {g : Grid} {b : Bounds} (h : boundaries (some g) = .ok b) (x : ℚ) :
    (Usable g.m1 x → b.m1.1 ≤ x ∧ x ≤ b.m1.2) ∧ (Usable g.m2 x → b.m2.1 ≤ x ∧ x ≤ b.m2.2) ∧ (Usable g.p x → b.p.1 ≤ x ∧ x ≤ b.p.2) := by
  obtain ⟨⟨h1, h2⟩, ⟨h3, h4⟩, h5, h6⟩ := (C119_bounds g b).1 h
  exact ⟨fun hx => ⟨h1.2 hx, h2.2 hx⟩, fun hx => ⟨h3.2 hx, h4.2 hx⟩, fun hx => ⟨h5.2 hx, h6.2 hx⟩⟩

/-! ### Setting up -/

/-- A step is set up if and only if the options are known, tracks are only interpolated with the nearest neighbour, the metallicity is one of the grids, a path is
given, the grid is needed and there, the interpolators are there if they are needed, and there are runs with finite values. -/
theorem C119_accepts (fs : Files) (c : Config) : (∃ r, init fs c = .ok r) ↔
    c.unknown = [] ∧ (c.track = true → c.method = (chars! "nearest_neighbour")) ∧
    ∃ z path g, zText c.metallicity = .ok z ∧ c.gridPath = some path ∧
      (c.stop = (chars! "stop_at_max_time") ∨ c.method = (chars! "nearest_neighbour")) ∧
      fs.grid (join path (z ++ (chars! "_Zsun.h5"))) = some g ∧
      (c.method ∈ supported → fs.interp (interpName c path (Channel.repl (chars! "_%d") [] 0 (join path (z ++ (chars! "_Zsun.h5"))))) = true) ∧
      (∃ x, Usable g.m1 x) ∧ (∃ x, Usable g.m2 x) ∧ ∃ x, Usable g.p x := by
  unfold init
  by_cases h1 : c.unknown = []
  · rw [if_neg (by simpa using h1)]
    by_cases h2 : c.track = true ∧ c.method ≠ nearest
    · rw [if_pos h2]
      constructor
      · rintro ⟨r, h⟩; cases h
      · rintro ⟨-, ht, -⟩
        exact absurd (ht h2.1) h2.2
    · rw [if_neg h2]
      have h2' : c.track = true → c.method = (chars! "nearest_neighbour") := fun ht => by
        by_contra hm
        exact h2 ⟨ht, hm⟩
      cases hz : zText c.metallicity with
      | error e => simp
      | ok z =>
        cases hp : c.gridPath with
        | none => simp
        | some path =>
          dsimp only
          generalize hgn : join path (z ++ (chars! "_Zsun.h5")) = gn
          have hR : (c.unknown = [] ∧ (c.track = true → c.method = (chars! "nearest_neighbour")) ∧
              ∃ z' path' g, Except.ok z = (Except.ok z' : Except Err Name) ∧ some path = some path' ∧
                (c.stop = (chars! "stop_at_max_time") ∨ c.method = (chars! "nearest_neighbour")) ∧
                fs.grid (join path' (z' ++ (chars! "_Zsun.h5"))) = some g ∧
                (c.method ∈ supported → fs.interp (interpName c path' (Channel.repl (chars! "_%d") [] 0 (join path' (z' ++ (chars! "_Zsun.h5"))))) = true) ∧
                (∃ x, Usable g.m1 x) ∧ (∃ x, Usable g.m2 x) ∧ ∃ x, Usable g.p x) ↔
              ∃ g, (c.stop = (chars! "stop_at_max_time") ∨ c.method = (chars! "nearest_neighbour")) ∧ fs.grid gn = some g ∧
                (c.method ∈ supported → fs.interp (interpName c path (Channel.repl (chars! "_%d") [] 0 gn)) = true) ∧
                (∃ x, Usable g.m1 x) ∧ (∃ x, Usable g.m2 x) ∧ ∃ x, Usable g.p x := by
            constructor
            · rintro ⟨-, -, z', path', g, hz', hp', h⟩
              cases hz'
              cases hp'
              rw [hgn] at h
              exact ⟨g, h⟩
            · rintro ⟨g, h⟩
              rw [← hgn] at h
              exact ⟨h1, h2', z, path, g, rfl, rfl, h⟩
          rw [hR]
          unfold loadGrid
          by_cases hl : c.stop = (chars! "stop_at_max_time") ∨ c.method = nearest
          · rw [if_pos hl]
            cases hg : fs.grid gn with
            | none => simp
            | some g =>
              dsimp only
              unfold loadInterp
              by_cases hm : c.method ∈ supported
              · rw [if_pos hm]
                by_cases hi : fs.interp (interpName c path (Channel.repl (chars! "_%d") [] 0 gn)) = true
                · rw [if_pos hi]
                  dsimp only
                  have hb := boundaries_isOk (some g)
                  cases hbb : boundaries (some g) with
                  | error e =>
                    rw [hbb] at hb
                    constructor
                    · rintro ⟨r, h⟩; cases h
                    · rintro ⟨g', -, hg', -, hu⟩
                      cases hg'
                      obtain ⟨b, hb'⟩ := hb.2 ⟨g, rfl, hu⟩
                      cases hb'
                  | ok b =>
                    obtain ⟨g', hg', hu⟩ := hb.1 ⟨b, hbb⟩
                    cases hg'
                    exact ⟨fun _ => ⟨g, hl, rfl, fun _ => hi, hu⟩, fun _ => ⟨_, rfl⟩⟩
                · rw [if_neg hi]
                  constructor
                  · rintro ⟨r, h⟩; cases h
                  · rintro ⟨g', -, -, hi', -⟩
                    exact absurd (hi' hm) hi
              · rw [if_neg hm]
                dsimp only
                have hb := boundaries_isOk (some g)
                cases hbb : boundaries (some g) with
                | error e =>
                  rw [hbb] at hb
                  constructor
                  · rintro ⟨r, h⟩; cases h
                  · rintro ⟨g', -, hg', -, hu⟩
                    cases hg'
                    obtain ⟨b, hb'⟩ := hb.2 ⟨g, rfl, hu⟩
                    cases hb'
                | ok b =>
                  obtain ⟨g', hg', hu⟩ := hb.1 ⟨b, hbb⟩
                  cases hg'
                  exact ⟨fun _ => ⟨g, hl, rfl, fun h => absurd h hm, hu⟩, fun _ => ⟨_, rfl⟩⟩
          · rw [if_neg hl]
            dsimp only
            constructor
            · rintro ⟨r, h⟩
              cases hi : loadInterp fs c path (Channel.repl (chars! "_%d") [] 0 gn) with
              | error e => rw [hi] at h; cases h
              | ok i => rw [hi] at h; cases h
            · rintro ⟨g', hl', -⟩
              exact absurd hl' hl
  · rw [if_pos h1]
    constructor
    · rintro ⟨r, h⟩; cases h
    · rintro ⟨h, -⟩
      exact absurd h h1

/-- What a step that is set up has loaded. -/
theorem C119_loaded {fs : Files} {c : Config} {r : Ready} (h : init fs c = .ok r) : ∃ z path g,
    zText c.metallicity = .ok z ∧ c.gridPath = some path ∧ r.gridFile = join path (z ++ (chars! "_Zsun.h5")) ∧ fs.grid r.gridFile = some g ∧
    r.gridLoaded = true ∧ boundaries (some g) = .ok r.bounds ∧ r.method = c.method ∧
    (c.method ∈ supported → r.interpFile = some (interpName c path (Channel.repl (chars! "_%d") [] 0 r.gridFile))) ∧
    (c.method ∉ supported → r.interpFile = none) := by
  obtain ⟨h1, h2, z, path, g, hz, hp, hl, hg, hi, hu⟩ := (C119_accepts fs c).1 ⟨r, h⟩
  unfold init at h
  rw [if_neg (by simpa using h1), if_neg (fun ht => ht.2 (h2 ht.1)), hz, hp] at h
  dsimp only at h
  change c.stop = (chars! "stop_at_max_time") ∨ c.method = nearest at hl
  unfold loadGrid at h
  rw [if_pos hl, hg] at h
  dsimp only at h
  unfold loadInterp at h
  refine ⟨z, path, g, hz, hp, ?_⟩
  cases hb : boundaries (some g) with
  | error e =>
    rw [hb] at h
    by_cases hm : c.method ∈ supported
    · rw [if_pos hm, if_pos (hi hm)] at h
      cases h
    · rw [if_neg hm] at h
      cases h
  | ok b =>
    rw [hb] at h
    by_cases hm : c.method ∈ supported
    · rw [if_pos hm, if_pos (hi hm)] at h
      cases h
      exact ⟨rfl, hg, rfl, rfl, rfl, fun _ => rfl, fun h => absurd hm h⟩
    · rw [if_neg hm] at h
      cases h
      exact ⟨rfl, hg, rfl, rfl, rfl, fun h => absurd h hm, fun _ => rfl⟩

/-- The file of the interpolators, if nothing else is said and the path has no per cent sign: in the folder of the method, with the name of the metallicity. -/
theorem C119_interp_file_partial {fs : Files} {c : Config} {r : Ready} (h : init fs c = .ok r) (hm : c.method ∈ supported)
    (h1 : c.interpPath = none) (h2 : c.interpFile = none) {path z : Name} (hp : c.gridPath = some path) (hz : zText c.metallicity = .ok z)
    (hpc : '%' ∉ path) :
    r.interpFile = some (join (join path ((chars! "interpolators/") ++ c.method)) (z ++ (chars! "_Zsun.pkl"))) := by
  obtain ⟨z', path', g, hz', hp', hf, -, -, -, -, hi, -⟩ := C119_loaded h
  rw [hz] at hz'
  rw [hp] at hp'
  cases hz'
  cases hp'
  rw [hi hm, hf]
  have hzt : ∀ x ∈ zNames, '%' ∉ x.2 ++ (chars! "_Zsun.h5") ∧ '/' ∉ x.2 ++ (chars! "_Zsun.h5") ∧
      Channel.repl (chars! "h5") (chars! "pkl") 0 (x.2 ++ (chars! "_Zsun.h5")) = x.2 ++ (chars! "_Zsun.pkl") := by decide +kernel
  obtain ⟨q, -, hq⟩ := (C119_metallicity _ _).1 hz
  obtain ⟨a1, a2, a3⟩ := hzt _ hq
  simp only at a1 a2 a3
  have hno : '%' ∉ join path (z ++ (chars! "_Zsun.h5")) := by
    unfold join
    split_ifs
    · exact a1
    · rw [List.mem_append]; exact fun h => h.elim hpc a1
    · rw [List.mem_append, List.mem_cons]
      rintro (h | h | h)
      · exact hpc h
      · cases h
      · exact a1 h
  rw [repl_none _ _ _ '%' (by decide) hno]
  unfold interpName
  rw [h1, h2]
  simp only [Option.getD_none]
  rw [basename_file _ _ a2, a3]

/-- A file name for the interpolators is looked up in their folder; an absolute one is taken as it is. -/
theorem C119_interp_given (c : Config) (path gn f : Name) (h : c.interpFile = some f) :
    interpName c path gn = join (c.interpPath.getD (join path ((chars! "interpolators/") ++ c.method))) f ∧
    (f.head? = some '/' → interpName c path gn = f) := by
  refine ⟨by simp [interpName, h], fun hh => ?_⟩
  simp [interpName, h, join, hh]

/-- Violated: a supported method can not be used without the stop at the maximum time: whatever the files are, there is an error. -/
theorem C119_stop_violated (fs : Files) (c : Config) (hm : c.method ∈ supported) (hs : c.stop ≠ (chars! "stop_at_max_time")) :
    ∃ e, init fs c = .error e := by
  cases h : init fs c with
  | error e => exact ⟨e, rfl⟩
  | ok r =>
    exfalso
    obtain ⟨-, -, z, path, g, -, -, hl, -⟩ := (C119_accepts fs c).1 ⟨r, h⟩
    rcases hl with hl | hl
    · exact hs hl
    · rw [hl] at hm
      revert hm
      decide

def exGrid : Grid := ⟨⟨[some 5, none, some 9], [some 4, some 3, some 8]⟩, ⟨[some 1, some 2, some 3], [some 1, some 2, some 3]⟩, ⟨[some 10, some 7, some 3], [some 10, none, some 3]⟩⟩
def exFiles : Files := ⟨fun n => if n = (chars! "data/1e+00_Zsun.h5") then some exGrid else none,
  fun n => n = (chars! "data/interpolators/linear_kNN/1e+00_Zsun.pkl")⟩

example : ∃ r, init exFiles { metallicity := some 1, gridPath := some (chars! "data"), method := (chars! "linear_kNN") } = .ok r ∧
    r.bounds.m1 = (5, 9) ∧ r.bounds.p = (3, 10) ∧ r.interpFile = some (chars! "data/interpolators/linear_kNN/1e+00_Zsun.pkl") := by
  obtain ⟨r, hr⟩ : ∃ r, init exFiles { metallicity := some 1, gridPath := some (chars! "data"), method := (chars! "linear_kNN") } = .ok r :=
    (C119_accepts _ _).2 ⟨rfl, by decide, (chars! "1e+00"), (chars! "data"), exGrid, by decide +kernel, rfl, by decide, by rfl, fun _ => by decide +kernel,
      ⟨5, 0, 4, rfl, rfl⟩, ⟨1, 0, 1, rfl, rfl⟩, ⟨10, 0, 10, rfl, rfl⟩⟩
  refine ⟨r, hr, ?_⟩
  obtain ⟨z, path, g, hz, hp, hf, hg, -, hb, -, hi, -⟩ := C119_loaded hr
  cases hp
  have hz' : zText (some 1) = .ok (chars! "1e+00") := by decide +kernel
  rw [hz'] at hz
  cases hz
  have : exFiles.grid (join (chars! "data") ((chars! "1e+00") ++ (chars! "_Zsun.h5"))) = some exGrid := rfl
  rw [hf, this] at hg
  cases hg
  have e1 : minMax exGrid.m1 = .ok (5, 9) := by rfl
  have e2 : minMax exGrid.m2 = .ok (1, 3) := by rfl
  have e3 : minMax exGrid.p = .ok (3, 10) := by rfl
  have hb' : boundaries (some exGrid) = .ok ⟨(5, 9), (1, 3), (3, 10)⟩ := by simp [boundaries, e1, e2, e3]
  rw [hb'] at hb
  rw [← Except.ok.inj hb]
  refine ⟨rfl, rfl, ?_⟩
  rw [hi (by decide), hf]
  decide +kernel

/-- Violated: an unknown method of interpolation is accepted when the step is set up, and only fails when a binary evolves. -/
theorem C119_method_violated : ∃ (fs : Files) (c : Config) (r : Ready), c.method = (chars! "linear") ∧ init fs c = .ok r ∧
    ∀ a, finalTime r a = .error .value := by
  obtain ⟨r, hr⟩ : ∃ r, init exFiles { metallicity := some 1, gridPath := some (chars! "data"), method := (chars! "linear") } = .ok r :=
    (C119_accepts _ _).2 ⟨rfl, by decide, (chars! "1e+00"), (chars! "data"), exGrid, by decide +kernel, rfl, by decide, by rfl,
      fun h => absurd h (by decide), ⟨5, 0, 4, rfl, rfl⟩, ⟨1, 0, 1, rfl, rfl⟩, ⟨10, 0, 10, rfl, rfl⟩⟩
  refine ⟨exFiles, _, r, rfl, hr, fun a => ?_⟩
  obtain ⟨-, -, -, -, -, -, -, -, -, hm, -⟩ := C119_loaded hr
  unfold finalTime
  rw [hm, if_neg (by decide), if_neg (by decide)]

/-- The time at the end of the step: the last one of the nearest run, or the interpolated one; none if the nearest run has no history. -/
theorem C119_time (r : Ready) (a : Answers) :
    (r.method = (chars! "nearest_neighbour") → (a.nearestTimes = none → finalTime r a = .ok none) ∧
      ∀ l t, a.nearestTimes = some (l ++ [t]) → finalTime r a = .ok t) ∧
    (r.method ∈ supported → finalTime r a = .ok a.interpTime) ∧
    (r.method ≠ (chars! "nearest_neighbour") → r.method ∉ supported → finalTime r a = .error .value) := by
  unfold finalTime
  change (r.method = nearest → _) ∧ _ ∧ (r.method ≠ nearest → _)
  refine ⟨fun h => ?_, fun h => ?_, fun h h' => ?_⟩
  · rw [if_pos h]
    refine ⟨fun hn => by rw [hn], fun l t hl => ?_⟩
    rw [hl]
    simp
  · rw [if_neg, if_pos h]
    intro hn
    rw [hn] at h
    revert h
    decide
  · rw [if_neg h, if_neg h']

/-! ### Supernova models -/

/-- The values of a model: nothing without a row or a type of compact object; else eleven values of the star that is asked for. -/
theorem C119_sn_values (r : List (Name × Name)) (i : ℕ) :
    snValues none i = .ok none ∧
    ((r.lookup (starPrefix i ++ (chars! "CO_type")) = none ∨ r.lookup (starPrefix i ++ (chars! "CO_type")) = some (chars! "None")) →
      snValues (some r) i = .ok none) ∧
    ∀ d, snValues (some r) i = .ok (some d) → d.map (·.1) = snNames.map (·.1) ∧
      ∀ p ∈ snNames, ∃ v, (p.1, v) ∈ d ∧ r.lookup (starPrefix i ++ p.2) = some v := by
  refine ⟨rfl, ?_, ?_⟩
  · intro h
    unfold snValues
    dsimp only
    rw [if_pos]
    rcases h with h | h <;> rw [h] <;> rfl
  · intro d h
    unfold snValues at h
    dsimp only at h
    split_ifs at h with h1 h2
    · cases h
    · have h := Option.some.inj (Except.ok.inj h)
      subst h
      refine ⟨by simp [Function.comp_def], ?_⟩
      intro p hp
      rw [List.all_eq_true] at h2
      have := h2 p hp
      rw [Option.isSome_iff_exists] at this
      obtain ⟨v, hv⟩ := this
      exact ⟨v, List.mem_map.2 ⟨p, hp, by rw [hv]; rfl⟩, hv⟩

/-- The values of the first star do not depend on those of the second: names of the two stars are different. -/
theorem C119_sn_stars : ∀ p ∈ snNames, ∀ q ∈ snNames, starPrefix 1 ++ p.2 ≠ starPrefix 2 ++ q.2 := by decide +kernel

example : snValues (some [((chars! "S1_CO_type"), (chars! "BH")), ((chars! "S2_CO_type"), (chars! "None"))]) 2 = .ok none ∧
    snValues (some [((chars! "S1_CO_type"), (chars! "BH")), ((chars! "S2_CO_type"), (chars! "None"))]) 1 = .error .key := by decide +kernel

/-- Each value of a model is that of the same name; only the state is called type of the compact object. -/
theorem C119_sn_names : ∀ p ∈ snNames, p.2 = if p.1 = (chars! "state") then (chars! "CO_type") else p.1 := by decide +kernel

/-- Failures: a nearest run with an empty history has no time at the end; a step without a directory of grids fails once its settings and metallicity
are accepted. -/
theorem C119_time_empty (r : Ready) (a : Answers) (hm : r.method = (chars! "nearest_neighbour")) (h : a.nearestTimes = some []) :
    finalTime r a = .error .key := by
  unfold finalTime
  rw [if_pos (show r.method = nearest from hm), h]
  rfl

theorem C119_no_directory (fs : Files) (c : Config) (z : Name) (hu : c.unknown = []) (ht : c.track = false ∨ c.method = (chars! "nearest_neighbour"))
    (hz : zText c.metallicity = .ok z) (hp : c.gridPath = none) : init fs c = .error .type := by
  unfold init
  rw [if_neg (by rw [hu]; exact fun h => h rfl), if_neg, hz]
  · dsimp only
    rw [hp]
  · rintro ⟨h1, h2⟩
    rcases ht with ht | ht
    · rw [ht] at h1; cases h1
    · exact h2 ht

example (fs : Files) : init fs { metallicity := some 1 } = .error .type :=
  C119_no_directory fs _ (chars! "1e+00") rfl (Or.inl rfl) ((C119_metallicity _ _).2 ⟨1, rfl, by decide +kernel⟩) rfl

end Verif.MesaSetup
