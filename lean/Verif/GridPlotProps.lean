import Verif.GridPlot
import Mathlib.Tactic.NormNum
import Verif.GridJoinProps

/-!
# C137: what a plot of a grid shows

A plot shows the runs of the slice that was asked for and no others, each with its own values, its own flag and its own colour.
-/

namespace Verif.GridPlot

/-! ### Axes and flags -/

/-- The values along the axes and the flags are those of the runs in the slice, in their order. -/
theorem C137_shown {lg : ℚ → Option ℚ} {p : Plot} {ini fin : List Name} {g : Grid} {k : ZKind} {flag : Name} {fl : Run → Name}
    {b3 b4 : ℚ × ℚ} {st st' : St} {s : Shown} (h : update lg p ini fin g g k flag fl b3 b4 st = .ok (s, st')) :
    s.x = (g.runs.filter (inSlice p b3 b4)).map (fun r => scaled lg p.xlog (iniVal r p.x)) ∧
    s.y = (g.runs.filter (inSlice p b3 b4)).map (fun r => scaled lg p.ylog (iniVal r p.y)) ∧
    s.flag = (g.runs.filter (inSlice p b3 b4)).map fl := by
  obtain ⟨_, x, xt, y, yt, z, m, a, b, h1, h2, _, h4, h5, h6, _, _, _, h10, _⟩ := update_ok h
  have ax : ∀ n log v t, axis lg p.rlo ini g g n log = .ok (v, t) → v = g.runs.map fun r => scaled lg log (iniVal r n) := by
    intro n log v t hv
    unfold axis at hv
    split at hv
    · split at hv
      · cases ht : MesaStop.mapE (track lg log n) g.runs with
        | error e => rw [ht] at hv; cases hv
        | ok t' => rw [ht] at hv; cases hv; rfl
      · cases hv; rfl
    · cases hv
  rw [ax _ _ _ _ h1, maskIf_map h4] at h5
  rw [ax _ _ _ _ h2, maskIf_map h4] at h6
  rw [maskIf_map h4] at h10
  exact ⟨(Except.ok.inj h5).symm, (Except.ok.inj h6).symm, (Except.ok.inj h10).symm⟩

/-- A run is in the slice if its values lie between the ends, which both belong to it. -/
theorem C137_slice (p : Plot) (b3 b4 : ℚ × ℚ) (r : Run) : inSlice p b3 b4 r = true ↔ InSlice p b3 b4 r := inSlice_iff p b3 b4 r

/-- The mass ratio that can be plotted is the one of the run. -/
theorem C137_mass_ratio (r : Run) (m1 m2 : ℚ) (h1 : r.init (chars! "star_1_mass") = some m1) (h2 : r.init (chars! "star_2_mass") = some m2)
    (hm : m1 ≠ 0) : iniVal r (chars! "mass_ratio") = some (m2 / m1) := by
  unfold iniVal
  rw [if_pos rfl, h1, h2]
  simp [ratio, hm]

/-- The metallicity is in units of the solar one. -/
theorem C137_metallicity (r : Run) (z : ℚ) (h : r.init (chars! "Z") = some z) : iniVal r (chars! "Z_Zsun") = some (z / (142/10000)) := by
  unfold iniVal
  rw [if_neg (by decide), if_pos rfl, h]
  simp [ratio, zsun]

/-- A run without mass of the first star has no mass ratio to plot. -/
theorem C137_no_mass_ratio (r : Run) (h : r.init (chars! "star_1_mass") = some 0 ∨ r.init (chars! "star_1_mass") = none) :
    iniVal r (chars! "mass_ratio") = none := by
  have e : iniVal r (chars! "mass_ratio") = ratio (r.init (chars! "star_2_mass")) (r.init (chars! "star_1_mass")) := by
    unfold iniVal
    rw [if_pos rfl]
  rw [e]
  cases r.init (chars! "star_2_mass") <;> rcases h with h | h <;> rw [h] <;> simp [ratio]

/-- Other initial values are as they are in the grid. -/
theorem C137_initial (r : Run) (n : Name) (h1 : n ≠ (chars! "mass_ratio")) (h2 : n ≠ (chars! "Z_Zsun")) : iniVal r n = r.init n := by
  unfold iniVal
  rw [if_neg h1, if_neg h2]

/-- A plot of a grid needs the two masses and the metallicity, whatever is plotted. -/
theorem C137_needs {p : Plot} {g : Grid} {z : ZArg} {flag : Name} {r : Ready} (h : ready p g z flag = .ok r) :
    (chars! "star_1_mass") ∈ g.ini ∧ (chars! "star_2_mass") ∈ g.ini ∧ (chars! "Z") ∈ g.ini ∧
    r.ini = g.ini ++ [(chars! "mass_ratio"), (chars! "Z_Zsun")] := by
  unfold ready at h
  cases hi : iniNames g with
  | error e => rw [hi] at h; cases h
  | ok ini =>
    rw [hi] at h; dsimp only at h
    cases hf : finNames g flag with
    | error e => rw [hf] at h; cases h
    | ok fin =>
      rw [hf] at h; dsimp only at h
      split at h
      · cases h
      split at h
      · cases h
      split at h
      · cases h
      split at h
      · cases h
      cases h
      unfold iniNames at hi
      split at hi
      next hn => cases hi; exact ⟨hn.2.1, hn.1, hn.2.2, rfl⟩
      · cases hi

/-- Without one of them the plot fails. -/
theorem C137_needs_error (p : Plot) (g : Grid) (z : ZArg) (flag : Name)
    (h : ¬((chars! "star_2_mass") ∈ g.ini ∧ (chars! "star_1_mass") ∈ g.ini ∧ (chars! "Z") ∈ g.ini)) : ready p g z flag = .error .noField := by
  unfold ready iniNames
  rw [if_neg h]

/-- The quantity along the horizontal axis must be known. -/
theorem C137_bad_x (p : Plot) (g : Grid) (z : ZArg) (flag : Name) (ini fin : List Name) (hi : iniNames g = .ok ini)
    (hf : finNames g flag = .ok fin) (hx : axisOk p.rlo ini (firstNames (·.bh) g.runs) p.x = false) :
    ready p g z flag = .error .badX := by
  unfold ready
  rw [hi, hf]
  dsimp only
  rw [if_pos hx]

/-- And the one along the vertical axis. -/
theorem C137_bad_y (p : Plot) (g : Grid) (z : ZArg) (flag : Name) (ini fin : List Name) (hi : iniNames g = .ok ini)
    (hf : finNames g flag = .ok fin) (hx : axisOk p.rlo ini (firstNames (·.bh) g.runs) p.x = true)
    (hy : axisOk p.rlo ini (firstNames (·.bh) g.runs) p.y = false) : ready p g z flag = .error .badY := by
  unfold ready
  rw [hi, hf]
  dsimp only
  rw [if_neg (by rw [hx]; decide), if_pos hy]

/-- At the onset of overflow the quantity along an axis has to be both a column of the histories and an initial value. -/
theorem C137_both {lg : ℚ → Option ℚ} {p : Plot} {g : Grid} {z : ZArg} {flag f : Name} {r : Ready} {fl : Run → Name}
    {b3 b4 : ℚ × ℚ} {st st' : St} {s : Shown} (hr : p.rlo = true) (h : ready p g z flag = .ok r)
    (hu : update lg p r.ini r.fin g g r.kind f fl b3 b4 st = .ok (s, st')) :
    p.x ∈ firstNames (·.bh) g.runs ∧ p.x ∈ r.ini ∧ p.y ∈ firstNames (·.bh) g.runs ∧ p.y ∈ r.ini := by
  obtain ⟨_, x, xt, y, yt, _, _, _, _, h1, h2, _⟩ := update_ok hu
  have ax : ∀ n log v, axis lg p.rlo r.ini g g n log = .ok v → n ∈ r.ini := by
    intro n log v hv
    unfold axis at hv
    split at hv
    next hn => exact hn
    · cases hv
  have hb : p.x ∈ firstNames (·.bh) g.runs ∧ p.y ∈ firstNames (·.bh) g.runs := by
    unfold ready at h
    cases hi : iniNames g with
    | error e => rw [hi] at h; cases h
    | ok ini =>
      rw [hi] at h; dsimp only at h
      cases hf : finNames g flag with
      | error e => rw [hf] at h; cases h
      | ok fin =>
        rw [hf] at h; dsimp only at h
        split at h
        · cases h
        next hx =>
        split at h
        · cases h
        next hy =>
        simp only [axisOk, hr, if_true, decide_eq_false_iff_not, not_not] at hx hy
        exact ⟨hx, hy⟩
  exact ⟨hb.1, ax _ _ _ h1, hb.2, ax _ _ _ h2⟩

/-! ### The onset of overflow -/

theorem findIdx_spec {A : Type} (q : A → Bool) (l : List A) (i : ℕ) :
    l.findIdx? q = some i ↔ ∃ a, l[i]? = some a ∧ q a = true ∧ ∀ j b, j < i → l[j]? = some b → q b = false := by
  rw [List.findIdx?_eq_some_iff_getElem]
  constructor
  · rintro ⟨hi, hq, hj⟩
    refine ⟨l[i], List.getElem?_eq_getElem hi, hq, fun j b hji hb => ?_⟩
    obtain ⟨hj', rfl⟩ := List.getElem?_eq_some_iff.1 hb
    simpa using hj j hji
  · rintro ⟨a, ha, hq, hj⟩
    obtain ⟨hi, rfl⟩ := List.getElem?_eq_some_iff.1 ha
    refine ⟨hi, hq, fun j hji => ?_⟩
    have := hj j l[j] hji (List.getElem?_eq_getElem _)
    simp [this]

/-- The index found is the first row in which star 1 overflows and mass is transferred. -/
theorem C137_onset (h : Hist) (h1 : (chars! "rl_relative_overflow_1") ∈ h.names) (h2 : (chars! "lg_mtransfer_rate") ∈ h.names) (i : ℕ) :
    onset h = .ok (some i) ↔ IsOnset h i := by
  unfold onset IsOnset
  rw [if_pos ⟨h1, h2⟩, ← findIdx_spec]
  exact ⟨fun e => Except.ok.inj e, fun e => by rw [e]⟩

/-- In such a row star 1 fills its Roche lobe to at least 95% and the rate is at least 10^-12 solar masses in a year. -/
theorem C137_overflows (r : Row) : overflows r = true ↔
    (∃ v, r (chars! "rl_relative_overflow_1") = some v ∧ -5/100 ≤ v) ∧ ∃ v, r (chars! "lg_mtransfer_rate") = some v ∧ -12 ≤ v := by
  unfold overflows atLeast
  cases r (chars! "rl_relative_overflow_1") <;> cases r (chars! "lg_mtransfer_rate") <;> simp

/-- Otherwise there is no such row. -/
theorem C137_no_onset (h : Hist) (h1 : (chars! "rl_relative_overflow_1") ∈ h.names) (h2 : (chars! "lg_mtransfer_rate") ∈ h.names) :
    onset h = .ok none ↔ ∀ r ∈ h.rows, overflows r = false := by
  unfold onset
  rw [if_pos ⟨h1, h2⟩]
  constructor
  · intro e; exact List.findIdx?_eq_none_iff.1 (Except.ok.inj e)
  · intro e; rw [List.findIdx?_eq_none_iff.2 e]

/-- Star 2 may overflow and transfer mass without an onset being found. -/
theorem C137_star2_violated : ¬∀ (h : Hist) (r : Row), r ∈ h.rows → (chars! "rl_relative_overflow_1") ∈ h.names → (chars! "lg_mtransfer_rate") ∈ h.names →
    (∃ v, r (chars! "rl_relative_overflow_2") = some v ∧ 0 ≤ v) → (∃ v, r (chars! "lg_mtransfer_rate") = some v ∧ -12 ≤ v) →
    ∃ i, onset h = .ok (some i) := by
  intro h
  let r : Row := fun n => if n = (chars! "rl_relative_overflow_2") then some (1/10) else if n = (chars! "lg_mtransfer_rate") then some (-6)
    else some (-1/2)
  obtain ⟨i, hi⟩ := h ⟨[(chars! "rl_relative_overflow_1"), (chars! "lg_mtransfer_rate"), (chars! "rl_relative_overflow_2")], [r]⟩ r
    (by simp) (by simp) (by simp) ⟨1/10, by rfl, by norm_num⟩ ⟨-6, by rfl, by norm_num⟩
  rw [C137_onset _ (by simp) (by simp)] at hi
  obtain ⟨r', hr, ho, _⟩ := hi
  have : r' = r := by
    have := List.mem_of_getElem? hr
    simpa using this
  subst this
  rw [C137_overflows] at ho
  obtain ⟨⟨v, hv, hv'⟩, _⟩ := ho
  have : v = -1/2 := (Option.some.inj hv).symm
  subst this
  norm_num at hv'

/-- The track of a run is drawn from the first row to the onset, included. -/
theorem C137_track {lg : ℚ → Option ℚ} {log : Bool} {n : Name} {r : Run} {t : List (Option ℚ)} (h : track lg log n r = .ok (some t)) :
    ∃ b i, r.bh = some b ∧ IsOnset b i ∧ n ∈ b.names ∧ t = (b.rows.take (i + 1)).map fun q => scaled lg log (q n) := by
  unfold track at h
  cases hb : r.bh with
  | none => rw [hb] at h; cases h
  | some b =>
    rw [hb] at h; dsimp only at h
    cases hc : b.col n with
    | error e => rw [hc] at h; cases h
    | ok c =>
      rw [hc] at h; dsimp only at h
      cases ho : onset b with
      | error e => rw [ho] at h; cases h
      | ok o =>
        rw [ho] at h
        cases o with
        | none => cases h
        | some i =>
          dsimp only at h
          have hn : (chars! "rl_relative_overflow_1") ∈ b.names ∧ (chars! "lg_mtransfer_rate") ∈ b.names := by
            unfold onset at ho
            split at ho
            next hn => exact hn
            · cases ho
          unfold Hist.col at hc
          split at hc
          next hm =>
            cases hc
            cases h
            refine ⟨b, i, rfl, (C137_onset b hn.1 hn.2 i).1 ho, hm, ?_⟩
            rw [← List.map_take, List.map_map]; rfl
          · cases hc

/-- A run without a track has no binary history or never overflows. -/
theorem C137_no_track {lg : ℚ → Option ℚ} {log : Bool} {n : Name} {r : Run} (h : track lg log n r = .ok none) :
    r.bh = none ∨ ∃ b, r.bh = some b ∧ ∀ q ∈ b.rows, overflows q = false := by
  unfold track at h
  cases hb : r.bh with
  | none => exact .inl rfl
  | some b =>
    rw [hb] at h; dsimp only at h
    right
    refine ⟨b, rfl, ?_⟩
    cases hc : b.col n with
    | error e => rw [hc] at h; cases h
    | ok c =>
      rw [hc] at h; dsimp only at h
      cases ho : onset b with
      | error e => rw [ho] at h; cases h
      | ok o =>
        rw [ho] at h
        cases o with
        | some i => cases h
        | none =>
          have hn : (chars! "rl_relative_overflow_1") ∈ b.names ∧ (chars! "lg_mtransfer_rate") ∈ b.names := by
            unfold onset at ho
            split at ho
            next hn => exact hn
            · cases ho
          exact (C137_no_onset b hn.1 hn.2).1 ho

/-- The tracks shown are those of the runs in the slice. -/
theorem C137_tracks {lg : ℚ → Option ℚ} {p : Plot} {ini fin : List Name} {g : Grid} {k : ZKind} {flag : Name} {fl : Run → Name}
    {b3 b4 : ℚ × ℚ} {st st' : St} {s : Shown} (hr : p.rlo = true) (h : update lg p ini fin g g k flag fl b3 b4 st = .ok (s, st')) :
    List.Forall₂ (fun r t => track lg p.xlog p.x r = .ok t) (g.runs.filter (inSlice p b3 b4)) s.xt ∧
    List.Forall₂ (fun r t => track lg p.ylog p.y r = .ok t) (g.runs.filter (inSlice p b3 b4)) s.yt := by
  obtain ⟨_, x, xt, y, yt, z, m, a, b, h1, h2, _, h4, _, _, _, h8, h9, _⟩ := update_ok h
  have ax : ∀ n log v t, axis lg p.rlo ini g g n log = .ok (v, t) → List.Forall₂ (fun r t => track lg log n r = .ok t) g.runs t := by
    intro n log v t hv
    unfold axis at hv
    split at hv
    · cases ht : MesaStop.mapE (track lg log n) g.runs with
      | error e => rw [ht] at hv; cases hv
      | ok t' => rw [ht] at hv; cases hv; exact mapE_rel ht
    · cases hv
  rw [hr, if_pos rfl] at h8 h9
  obtain ⟨l1, e1, f1⟩ := maskIf_rel h4 (ax _ _ _ _ h1)
  obtain ⟨l2, e2, f2⟩ := maskIf_rel h4 (ax _ _ _ _ h2)
  rw [e1] at h8; rw [e2] at h9
  rw [← Except.ok.inj h8, ← Except.ok.inj h9]
  exact ⟨f1, f2⟩

/-! ### Colours -/

/-- The colour of a run that is meant. -/
def Colour (lg : ℚ → Option ℚ) (p : Plot) (k : ZKind) (r : Run) (c : Option ℚ) : Prop :=
  match k with
  | .final n => c = scaled lg p.zlog (r.num n)
  | .star n => ∃ v, (if p.rlo then onsetVal n (starHist p.star2 r) r.bh else lastVal n (starHist p.star2 r)) = .ok v ∧ c = scaled lg p.zlog v
  | .binary n => ∃ v, (if p.rlo then onsetVal n r.bh r.bh else lastVal n r.bh) = .ok v ∧ c = scaled lg p.zlog v
  | _ => False

theorem map_rel {A B C : Type} {R : A → B → Prop} {l : List A} {m : List B} (h : List.Forall₂ R l m) (f : B → C) :
    List.Forall₂ (fun a c => ∃ b, R a b ∧ c = f b) l (m.map f) := by
  induction h with
  | nil => exact .nil
  | cons hab _ ih => exact .cons ⟨_, hab, rfl⟩ ih

/-- The colours that come from the grid are those of the runs in the slice. -/
theorem C137_colours {lg : ℚ → Option ℚ} {p : Plot} {ini fin : List Name} {g : Grid} {k : ZKind} {flag : Name} {fl : Run → Name}
    {b3 b4 : ℚ × ℚ} {st st' : St} {s : Shown} (h : update lg p ini fin g g k flag fl b3 b4 st = .ok (s, st'))
    (hk : (∃ n ∈ g.fin, k = .final n) ∨ (∃ n, k = .star n) ∨ ∃ n, k = .binary n) :
    ∃ z, s.z = some z ∧ List.Forall₂ (Colour lg p k) (g.runs.filter (inSlice p b3 b4)) z := by
  obtain ⟨_, x, xt, y, yt, z, m, a, b, _, _, h3, h4, _, _, h7, _⟩ := update_ok h
  have hz : ∃ l, z = some l ∧ List.Forall₂ (Colour lg p k) g.runs l := by
    rcases hk with ⟨n, hn, rfl⟩ | ⟨n, rfl⟩ | ⟨n, rfl⟩
    · simp only [colours, zVals, column, if_pos hn, Except.map] at h3
      cases h3
      refine ⟨_, rfl, ?_⟩
      rw [List.map_map]
      generalize g.runs = l
      induction l with
      | nil => exact .nil
      | cons r l ih => exact .cons rfl ih
    · simp only [colours, zVals] at h3
      cases hm : MesaStop.mapE (fun r => if p.rlo then onsetVal n (starHist p.star2 r) r.bh else lastVal n (starHist p.star2 r)) g.runs with
      | error e => rw [hm] at h3; cases h3
      | ok l => rw [hm] at h3; cases h3; exact ⟨_, rfl, map_rel (mapE_rel hm) _⟩
    · simp only [colours, zVals] at h3
      cases hm : MesaStop.mapE (fun r => if p.rlo then onsetVal n r.bh r.bh else lastVal n r.bh) g.runs with
      | error e => rw [hm] at h3; cases h3
      | ok l => rw [hm] at h3; cases h3; exact ⟨_, rfl, map_rel (mapE_rel hm) _⟩
  obtain ⟨l, rfl, hl⟩ := hz
  obtain ⟨l', e, f⟩ := maskIf_rel h4 hl
  simp only [maskZ, e, Except.map] at h7
  exact ⟨l', (Except.ok.inj h7).symm, f⟩

/-- The last value of a history. -/
theorem C137_last (n : Name) (h : Hist) (q : Row) (hn : n ∈ h.names) (hq : h.rows.getLast? = some q) : lastVal n (some h) = .ok (q n) := by
  simp [lastVal, Hist.col, hn, List.getLast?_map, hq]

/-- The value at the onset, if the row of the history belongs to the row of the binary history. -/
theorem C137_onset_value (n : Name) (h b : Hist) (i : ℕ) (q : Row) (hn : n ∈ h.names) (h1 : (chars! "rl_relative_overflow_1") ∈ b.names)
    (h2 : (chars! "lg_mtransfer_rate") ∈ b.names) (hi : IsOnset b i) (hq : h.rows[i]? = some q) : onsetVal n (some h) (some b) = .ok (q n) := by
  have ho := (C137_onset b h1 h2 i).2 hi
  simp [onsetVal, Hist.col, hn, ho, hq]

/-- A run without the history has no colour; with the history of the star but not the one of the binary, the plot at the onset fails. -/
theorem C137_no_history (n : Name) (b : Option Hist) (h : Hist) (hn : n ∈ h.names) :
    lastVal n none = .ok none ∧ onsetVal n none b = .ok none ∧ onsetVal n (some h) none = .error .type := by
  refine ⟨rfl, rfl, ?_⟩
  simp [onsetVal, Hist.col, hn]

/-- Colours given as an array, one for each run: each run has its own, for the first panel. -/
theorem C137_array {lg : ℚ → Option ℚ} {p : Plot} {ini fin : List Name} {g : Grid} {l : List (Option ℚ)} {flag : Name} {fl : Run → Name}
    {b3 b4 : ℚ × ℚ} {zmin zmax : Option ℚ} {st' : St} {s : Shown}
    (h : update lg p ini fin g g (.array l) flag fl b3 b4 (start (.array l) zmin zmax) = .ok (s, st')) (c : Run → Option ℚ) (hl : l = g.runs.map c) :
    s.z = some ((g.runs.filter (inSlice p b3 b4)).map c) := by
  obtain ⟨_, x, xt, y, yt, z, m, a, b, _, _, h3, h4, _, _, h7, _⟩ := update_ok h
  simp only [colours, start] at h3
  cases h3
  subst hl
  simp only [maskZ, maskIf_map h4, Except.map] at h7
  exact (Except.ok.inj h7).symm

/-- An array of another length than the grid is refused as soon as the grid is cut. -/
theorem C137_array_length {lg : ℚ → Option ℚ} {p : Plot} {ini fin : List Name} {g : Grid} {l : List (Option ℚ)} {flag : Name} {fl : Run → Name}
    {b3 b4 : ℚ × ℚ} {st : St} (hs : st.z = some l) (h3 : p.grid3 = true) (hl : l.length ≠ g.runs.length) (l0 : List (Option ℚ)) :
    ∀ r, update lg p ini fin g g (.array l0) flag fl b3 b4 st ≠ .ok r := by
  rintro ⟨s, st'⟩ h
  obtain ⟨_, x, xt, y, yt, z, m, a, b, _, _, hz, h4, _, _, h7, _⟩ := update_ok h
  simp only [colours, hs] at hz
  cases hz
  have hm : m = some (g.runs.map (inSlice p b3 b4)) := by
    unfold cut at h4
    rcases hc : p.grid4 with _ | _
    · rw [if_neg (by rw [hc]; simp), if_pos ⟨hc, h3⟩] at h4
      split at h4
      · cases h4
        congr 1
        apply List.map_congr_left
        intro r _
        simp [inSlice, hc, h3]
      · cases h4
    · rw [if_pos ⟨hc, h3⟩] at h4
      split at h4
      · cases h4
        congr 1
        apply List.map_congr_left
        intro r _
        simp [inSlice, hc, h3, Bool.and_comm]
      · cases h4
  subst hm
  simp only [maskZ, maskIf, mask, List.length_map] at h7
  rw [if_neg (fun e => hl e.symm)] at h7
  cases h7

/-- After a panel that left out a run the next one always fails: the array has been cut. -/
theorem C137_array_violated {lg : ℚ → Option ℚ} {p : Plot} {ini fin : List Name} {g : Grid} {l : List (Option ℚ)} {flag flag' : Name}
    {fl fl' : Run → Name} {b3 b4 b3' b4' : ℚ × ℚ} {zmin zmax : Option ℚ} {st' : St} {s : Shown}
    (h : update lg p ini fin g g (.array l) flag fl b3 b4 (start (.array l) zmin zmax) = .ok (s, st')) (c : Run → Option ℚ) (hl : l = g.runs.map c)
    (h3 : p.grid3 = true) (hr : ∃ r ∈ g.runs, ¬InSlice p b3 b4 r) :
    ∀ r, update lg p ini fin g g (.array l) flag' fl' b3' b4' st' ≠ .ok r := by
  have hz := C137_array h c hl
  obtain ⟨_, _, _, _, _, _, _, _, _, _, _, _, _, _, _, _, _, _, _, _, rfl⟩ := update_ok h
  intro r hu
  have hlen : ((g.runs.filter (inSlice p b3 b4)).map c).length ≠ g.runs.length := by
    rw [List.length_map]
    intro e
    obtain ⟨r, hm, hn⟩ := hr
    have := List.length_filter_eq_length_iff.1 e r hm
    exact hn ((inSlice_iff ..).1 this)
  exact C137_array_length hz h3 hlen _ _ hu

/-! ### Relative changes -/

/-- Relative changes are computed for the plot but looked up in the grid, which has no such column: no plot of them succeeds. -/
theorem C137_relative_violated {lg : ℚ → Option ℚ} {p : Plot} {ini fin : List Name} {src g : Grid} {n flag : Name} {fl : Run → Name}
    {b3 b4 : ℚ × ℚ} {st : St} (hf : n ∉ g.fin) (hs : g.sn n = none) : ∀ r, update lg p ini fin src g (.relative n) flag fl b3 b4 st ≠ .ok r := by
  rintro ⟨s, st'⟩ h
  obtain ⟨_, x, xt, y, yt, z, m, a, b, _, _, h3, _⟩ := update_ok h
  simp only [colours, zVals, column, if_neg hf, hs, Except.map] at h3
  cases h3

/-- They are only chosen if the grid has no such column. -/
theorem C137_relative_chosen {rlo star2 : Bool} {g : Grid} {ini fin h1 h2 bh : List Name} {z : ZArg} {n : Name}
    (h : choose rlo star2 g ini fin h1 h2 bh z = .ok (.relative n)) : z = .name n ∧ rlo = false ∧ n ∉ fin ∧ Frame.isIn (chars! "relative_change") n = true := by
  cases z with
  | none => cases h
  | array l => simp only [choose] at h; split at h <;> cases h
  | name m =>
    have hh : ∀ k, chooseHist star2 h1 h2 bh m = .ok k → k ≠ .relative n := by
      intro k hk
      unfold chooseHist at hk
      split at hk
      · cases hk; simp
      split at hk
      · cases hk; simp
      split at hk
      · cases hk; simp
      · cases hk
    simp only [choose] at h
    cases rlo with
    | true => exact absurd rfl (hh _ h)
    | false =>
      rw [if_neg (by decide)] at h
      split at h
      · cases h
      next hf =>
      split at h
      next hi =>
        split at h
        · cases h
        · cases h; exact ⟨rfl, rfl, hf, hi⟩
      · exact absurd rfl (hh _ h)

/-- The columns of the grid stay columns of the plot. -/
theorem finNames_sub {g : Grid} {flag : Name} {fin : List Name} (h : finNames g flag = .ok fin) : ∀ n ∈ g.fin, n ∈ fin := by
  intro n hn
  unfold finNames at h
  split at h
  · split at h
    · cases h; exact List.mem_append_left _ hn
    · cases h
  · split at h
    · split at h
      · cases h; exact hn
      · cases h
    · cases h; exact hn

/-! ### Slices in four dimensions -/

/-- A slice along a fourth quantity is not cut unless one along the third is asked for too. -/
theorem C137_four_violated {lg : ℚ → Option ℚ} {p : Plot} {ini fin : List Name} {g : Grid} {k : ZKind} {flag : Name} {fl : Run → Name}
    {b3 b4 : ℚ × ℚ} {st st' : St} {s : Shown} (h3 : p.grid3 = false) (h : update lg p ini fin g g k flag fl b3 b4 st = .ok (s, st')) :
    s.x.length = g.runs.length := by
  rw [(C137_shown h).1, List.length_map, List.filter_eq_self.2]
  intro r _
  simp [inSlice, h3]

/-! ### Limits -/

theorem foldl_min (l : List ℚ) (a : ℚ) : l.foldl min a ≤ a ∧ (∀ x ∈ l, l.foldl min a ≤ x) ∧ (l.foldl min a = a ∨ l.foldl min a ∈ l) := by
  induction l generalizing a with
  | nil => simp
  | cons b l ih =>
    obtain ⟨h1, h2, h3⟩ := ih (min a b)
    rw [List.foldl_cons]
    refine ⟨h1.trans (min_le_left _ _), fun x hx => ?_, ?_⟩
    · rcases List.mem_cons.1 hx with rfl | hx
      · exact h1.trans (min_le_right _ _)
      · exact h2 x hx
    · rcases h3 with h3 | h3
      · rcases min_choice a b with e | e
        · left; rw [h3, e]
        · right; rw [h3, e]; exact List.mem_cons_self
      · right; exact List.mem_cons_of_mem _ h3

theorem foldl_max (l : List ℚ) (a : ℚ) : a ≤ l.foldl max a ∧ (∀ x ∈ l, x ≤ l.foldl max a) ∧ (l.foldl max a = a ∨ l.foldl max a ∈ l) := by
  induction l generalizing a with
  | nil => simp
  | cons b l ih =>
    obtain ⟨h1, h2, h3⟩ := ih (max a b)
    rw [List.foldl_cons]
    refine ⟨(le_max_left _ _).trans h1, fun x hx => ?_, ?_⟩
    · rcases List.mem_cons.1 hx with rfl | hx
      · exact (le_max_right _ _).trans h1
      · exact h2 x hx
    · rcases h3 with h3 | h3
      · rcases max_choice a b with e | e
        · left; rw [h3, e]
        · right; rw [h3, e]; exact List.mem_cons_self
      · right; exact List.mem_cons_of_mem _ h3

/-- Without limits given, those of the first panel are the least and the greatest of the colours shown in it. -/
theorem C137_limits {lg : ℚ → Option ℚ} {p : Plot} {ini fin : List Name} {src g : Grid} {k : ZKind} {flag : Name} {fl : Run → Name}
    {b3 b4 : ℚ × ℚ} {st st' : St} {s : Shown} {z : List (Option ℚ)} (h : update lg p ini fin src g k flag fl b3 b4 st = .ok (s, st'))
    (h1 : st.zmin = none) (h2 : st.zmax = none) (hz : s.z = some z) :
    ∃ a b, st'.zmin = some a ∧ st'.zmax = some b ∧ some a ∈ z ∧ some b ∈ z ∧ ∀ c, some c ∈ z → a ≤ c ∧ c ≤ b := by
  obtain ⟨_, _, _, _, _, _, _, a, b, _, _, _, _, _, _, _, _, _, _, hl, rfl⟩ := update_ok h
  rw [hz] at hl
  have hm : ∀ c, some c ∈ z ↔ c ∈ z.filterMap id := by intro c; simp
  simp only [limits, limit, h1, h2] at hl
  cases hv : z.filterMap id with
  | nil => rw [hv] at hl; cases hl
  | cons v vs =>
    rw [hv] at hl
    dsimp only at hl
    cases hl
    refine ⟨_, _, rfl, rfl, ?_, ?_, fun c hc => ?_⟩
    · rw [hm, hv]
      rcases (foldl_min vs v).2.2 with e | e
      · rw [e]; exact List.mem_cons_self
      · exact List.mem_cons_of_mem _ e
    · rw [hm, hv]
      rcases (foldl_max vs v).2.2 with e | e
      · rw [e]; exact List.mem_cons_self
      · exact List.mem_cons_of_mem _ e
    · rw [hm, hv] at hc
      rcases List.mem_cons.1 hc with rfl | hc
      · exact ⟨(foldl_min vs c).1, (foldl_max vs c).1⟩
      · exact ⟨(foldl_min vs v).2.1 c hc, (foldl_max vs v).2.1 c hc⟩

/-- Limits that are known stay: those given by the user, and those of the first panel. -/
theorem C137_limits_kept {lg : ℚ → Option ℚ} {p : Plot} {ini fin : List Name} {src g : Grid} {k : ZKind} {flag : Name} {fl : Run → Name}
    {b3 b4 : ℚ × ℚ} {st st' : St} {s : Shown} {a b : ℚ} (h : update lg p ini fin src g k flag fl b3 b4 st = .ok (s, st'))
    (h1 : st.zmin = some a) (h2 : st.zmax = some b) : st'.zmin = some a ∧ st'.zmax = some b := by
  obtain ⟨_, _, _, _, _, _, _, a', b', _, _, _, _, _, _, _, _, _, _, hl, rfl⟩ := update_ok h
  cases hz : s.z with
  | none => rw [hz] at hl; simp only [limits] at hl; cases hl; exact ⟨h1, h2⟩
  | some z =>
    rw [hz] at hl
    simp only [limits, limit, h1, h2] at hl
    cases hl
    exact ⟨rfl, rfl⟩

/-- If no colour of the slice is known the plot fails. -/
theorem C137_no_colour {lg : ℚ → Option ℚ} {p : Plot} {ini fin : List Name} {src g : Grid} {k : ZKind} {flag : Name} {fl : Run → Name}
    {b3 b4 : ℚ × ℚ} {st st' : St} {s : Shown} (h : update lg p ini fin src g k flag fl b3 b4 st = .ok (s, st')) (h1 : st.zmin = none) :
    s.z = none ∨ ∃ z c, s.z = some z ∧ some c ∈ z := by
  obtain ⟨_, _, _, _, _, _, _, a', b', _, _, _, _, _, _, _, _, _, _, hl, rfl⟩ := update_ok h
  cases hz : s.z with
  | none => exact .inl rfl
  | some z =>
    right
    rw [hz] at hl
    simp only [limits, limit, h1] at hl
    cases hv : z.filterMap id with
    | nil => rw [hv] at hl; cases hl
    | cons v vs =>
      refine ⟨z, v, rfl, ?_⟩
      have : v ∈ z.filterMap id := by rw [hv]; exact List.mem_cons_self
      simpa using this

/-! ### Flags -/

/-- Setting up a plot of the second flag removes the marks of doubt from the grid itself. -/
theorem C137_changes (g : Grid) (r : Run) (h : r ∈ (gridAfter g (chars! "termination_flag_2")).runs) : '?' ∉ r.txt (chars! "termination_flag_2") := by
  unfold gridAfter at h
  rw [if_pos rfl] at h
  obtain ⟨q, _, rfl⟩ := List.mem_map.1 h
  simp [clean]

/-- For other flags the grid stays as it is. -/
theorem C137_unchanged_partial (g : Grid) (flag : Name) (h : flag ≠ (chars! "termination_flag_2")) : gridAfter g flag = g := by
  unfold gridAfter
  rw [if_neg h]

/-- A plot may change the grid. -/
theorem C137_unchanged_violated : ¬∀ (g : Grid) (flag : Name), gridAfter g flag = g := by
  intro h
  let r : Run := { init := fun _ => none, num := fun _ => none, txt := fun _ => (chars! "?case_A1") }
  have e := h { ini := [], fin := [], runs := [r] } (chars! "termination_flag_2")
  have e2 := congrArg (fun g : Grid => g.runs.map fun r => r.txt (chars! "termination_flag_2")) e
  exact absurd e2 (by decide)

/-- The flag shown is the one of the run, apart from marks of doubt in the second. -/
theorem C137_flag (combine : Name → Name → Name) (r : Run) (flag : Name) (h1 : flag ≠ (chars! "combined_TF12")) (h2 : flag ≠ (chars! "debug"))
    (h3 : flag ≠ (chars! "interpolation_class_errors")) (h4 : '?' ∉ r.txt flag) : flagVal combine r flag = r.txt flag := by
  unfold flagVal
  rw [if_neg h1, if_neg h2, if_neg h3]
  split
  · unfold clean
    apply List.filter_eq_self.2
    intro c hc
    simp only [ne_eq, decide_not, Bool.not_eq_true', decide_eq_false_iff_not]
    rintro rfl
    exact h4 hc
  · rfl

/-- A flag that is a column of a supernova model is accepted, but cannot be plotted: it is looked up in the final values only. -/
theorem C137_model_flag_violated {lg : ℚ → Option ℚ} {p : Plot} {g : Grid} {z : ZArg} {flag : Name} {r : Ready} {fl : Run → Name}
    {b3 b4 : ℚ × ℚ} {st : St} (hf : flag ∉ g.fin) (hm : madeFrom flag = none) (h : ready p g z flag = .ok r) :
    update lg p r.ini r.fin g g r.kind flag fl b3 b4 st = .error .noField := by
  have hfin : r.fin = g.fin := by
    unfold ready at h
    cases hi : iniNames g with
    | error e => rw [hi] at h; cases h
    | ok ini =>
      rw [hi] at h; dsimp only at h
      cases hf' : finNames g flag with
      | error e => rw [hf'] at h; cases h
      | ok fin =>
        rw [hf'] at h; dsimp only at h
        split at h
        · cases h
        split at h
        · cases h
        split at h
        · cases h
        split at h
        · cases h
        cases h
        unfold finNames at hf'
        rw [hm] at hf'
        dsimp only at hf'
        split at hf'
        · cases hf'
        · cases hf'; rfl
  unfold update
  rw [hfin, if_neg hf]

/-- Columns of the supernova models are not accepted for the colours either, unless a history has a column of that name. -/
theorem C137_model_colour_violated (star2 : Bool) (g : Grid) (ini fin h1 h2 bh : List Name) (n : Name) (hf : n ∉ fin)
    (hr : Frame.isIn (chars! "relative_change") n = false) (hn1 : n ∉ h1) (hn2 : n ∉ h2) (hb : n ∉ bh) :
    choose false star2 g ini fin h1 h2 bh (.name n) = .error .badZ := by
  simp [choose, hf, hr, chooseHist, hn1, hn2, hb]

/-! ### The second grid -/

/-- A second grid is drawn with the colours of the first: without a slice they are those of all its runs. -/
theorem C137_second_violated {lg : ℚ → Option ℚ} {p : Plot} {ini fin : List Name} {src g : Grid} {n flag : Name} {fl : Run → Name}
    {b3 b4 : ℚ × ℚ} {st st' : St} {s : Shown} (hn : n ∈ g.fin) (h3 : p.grid3 = false)
    (h : update lg p ini fin src g (.final n) flag fl b3 b4 st = .ok (s, st')) :
    s.z = some (g.runs.map fun r => scaled lg p.zlog (r.num n)) ∧ s.x.length = src.runs.length := by
  obtain ⟨_, x, xt, y, yt, z, m, a, b, h1, _, hz, h4, h5, _, h7, _⟩ := update_ok h
  have hm : m = none := by
    unfold cut at h4
    rw [if_neg (by rw [h3]; simp), if_neg (by rw [h3]; simp)] at h4
    cases h4; rfl
  subst hm
  simp only [colours, zVals, column, if_pos hn, Except.map] at hz
  cases hz
  simp only [maskZ, maskIf, Except.map] at h7 h5
  refine ⟨by rw [← Except.ok.inj h7, List.map_map]; rfl, ?_⟩
  rw [← Except.ok.inj h5]
  unfold axis at h1
  split at h1
  · split at h1
    · cases ht : MesaStop.mapE (track lg p.xlog p.x) g.runs with
      | error e => rw [ht] at h1; cases h1
      | ok t' => rw [ht] at h1; cases h1; simp
    · cases h1; simp
  · cases h1

/-- A second grid cannot be drawn for the flags that are made for the plot. -/
theorem C137_second_flag_violated (lg : ℚ → Option ℚ) (p : Plot) (ini : List Name) (src g : Grid) (k : ZKind) (flag : Name) (fl : Run → Name)
    (b3 b4 : ℚ × ℚ) (st : St) (hf : flag ∉ src.fin) : update lg p ini src.fin src g k flag fl b3 b4 st = .error .noField := by
  unfold update
  rw [if_neg hf]

/-! ### Choices -/

/-- A final value wins over a history, a history of the chosen star over the one of the binary. -/
theorem C137_choice (star2 : Bool) (g : Grid) (ini fin h1 h2 bh : List Name) (n : Name) :
    (n ∈ fin → choose false star2 g ini fin h1 h2 bh (.name n) = .ok (.final n)) ∧
    (n ∉ fin → Frame.isIn (chars! "relative_change") n = false → n ∈ (if star2 then h2 else h1) →
      choose false star2 g ini fin h1 h2 bh (.name n) = .ok (.star n)) ∧
    (n ∉ fin → Frame.isIn (chars! "relative_change") n = false → n ∉ (if star2 then h2 else h1) → n ∈ bh →
      choose false star2 g ini fin h1 h2 bh (.name n) = .ok (.binary n)) ∧
    (n ∈ (if star2 then h2 else h1) → choose true star2 g ini fin h1 h2 bh (.name n) = .ok (.star n)) ∧
    (n ∉ (if star2 then h2 else h1) → n ∈ bh → choose true star2 g ini fin h1 h2 bh (.name n) = .ok (.binary n)) ∧
    (n ∉ (if star2 then h2 else h1) → n ∉ bh → choose true star2 g ini fin h1 h2 bh (.name n) = .error .badZ) := by
  cases star2 <;> refine ⟨?_, ?_, ?_, ?_, ?_, ?_⟩ <;> intros <;> simp_all [choose, chooseHist]

/-- At the onset an array of colours is refused. -/
theorem C137_array_onset (star2 : Bool) (g : Grid) (ini fin h1 h2 bh : List Name) (l : List (Option ℚ)) :
    choose true star2 g ini fin h1 h2 bh (.array l) = .error .badZ ∧ choose false star2 g ini fin h1 h2 bh (.array l) = .ok (.array l) := ⟨rfl, rfl⟩

/-- The names are those of the first run that has the history (and any columns). -/
theorem C137_names (f : Run → Option Hist) (a b : List Run) (r : Run) (h : Hist) (ha : ∀ q ∈ a, f q = none ∨ ∃ k, f q = some k ∧ k.names = [])
    (hr : f r = some h)
    (hn : h.names ≠ []) : firstNames f (a ++ r :: b) = h.names := by
  induction a with
  | nil => simp [firstNames, hr, hn]
  | cons q a ih =>
    rw [List.cons_append, firstNames]
    have ih := ih fun q' hq' => ha q' (List.mem_cons_of_mem _ hq')
    rcases ha q List.mem_cons_self with hq | ⟨k, hq, hk⟩
    · rw [hq]; exact ih
    · rw [hq]; dsimp only; rw [if_pos hk]; exact ih

/-! ### When a plot succeeds -/

/-- A plot without histories succeeds if the columns are known, the slice is not empty of colours. -/
theorem C137_works (lg : ℚ → Option ℚ) (p : Plot) (ini fin : List Name) (g : Grid) (n flag : Name) (fl : Run → Name) (b3 b4 : ℚ × ℚ) (st : St)
    (hr : p.rlo = false) (hx : p.x ∈ ini) (hy : p.y ∈ ini) (hf : flag ∈ fin) (hn : n ∈ g.fin) (h3 : p.grid3 = true → p.var3 ∈ ini)
    (h4 : p.grid4 = true → p.var4 ∈ ini)
    (hc : ∃ r ∈ g.runs, InSlice p b3 b4 r ∧ ∃ c, scaled lg p.zlog (r.num n) = some c) :
    ∃ r, update lg p ini fin g g (.final n) flag fl b3 b4 st = .ok r := by
  have hcut : ∃ m, cut p ini g b3 b4 = .ok m := by
    unfold cut
    split
    next h => rw [if_pos ⟨h4 h.1, h3 h.2⟩]; exact ⟨_, rfl⟩
    · split
      next h => rw [if_pos (h3 h.2)]; exact ⟨_, rfl⟩
      · exact ⟨_, rfl⟩
  obtain ⟨m, hm⟩ := hcut
  have ax : ∀ q log, q ∈ ini → axis lg p.rlo ini g g q log = .ok (g.runs.map fun r => scaled lg log (iniVal r q), []) := by
    intro q log hq
    unfold axis
    rw [if_pos hq, hr, if_neg (by decide)]
  have hz : colours lg p g (.final n) st = .ok (some (g.runs.map fun r => scaled lg p.zlog (r.num n))) := by
    simp only [colours, zVals, column, if_pos hn, Except.map, List.map_map]; rfl
  have hl : ∃ ab, limits st (some ((g.runs.filter (inSlice p b3 b4)).map fun r => scaled lg p.zlog (r.num n))) = .ok ab := by
    obtain ⟨r, hrm, hrs, c, hc⟩ := hc
    have hmem : c ∈ ((g.runs.filter (inSlice p b3 b4)).map fun r => scaled lg p.zlog (r.num n)).filterMap id := by
      simp only [List.mem_filterMap, List.mem_map, List.mem_filter, id]
      exact ⟨_, ⟨r, ⟨hrm, (inSlice_iff ..).2 hrs⟩, rfl⟩, hc⟩
    generalize ((g.runs.filter (inSlice p b3 b4)).map fun r => scaled lg p.zlog (r.num n)) = z at hmem
    cases hv : z.filterMap id with
    | nil => rw [hv] at hmem; cases hmem
    | cons v vs =>
      have h1 : ∃ a, limit min st.zmin z = .ok a := by
        unfold limit
        cases st.zmin with
        | some a => exact ⟨a, rfl⟩
        | none => rw [hv]; exact ⟨_, rfl⟩
      have h2 : ∃ a, limit max st.zmax z = .ok a := by
        unfold limit
        cases st.zmax with
        | some a => exact ⟨a, rfl⟩
        | none => rw [hv]; exact ⟨_, rfl⟩
      obtain ⟨a, h1⟩ := h1
      obtain ⟨b, h2⟩ := h2
      exact ⟨(some a, some b), by simp only [limits, h1, h2]⟩
  obtain ⟨⟨a, b⟩, hl⟩ := hl
  unfold update
  rw [if_pos hf, ax _ _ hx, ax _ _ hy, hz, hm]
  dsimp only
  rw [maskIf_map hm, maskIf_map hm, maskIf_map hm]
  dsimp only [maskZ]
  rw [maskIf_map hm]
  dsimp only [Except.map]
  rw [hr, if_neg (by decide)]
  dsimp only
  rw [hl]
  exact ⟨_, rfl⟩

/-! ### Several panels -/

/-- Each of several panels shows the runs of its own slice and its own flag; the limits of all are those of the first. -/
theorem C137_all {lg : ℚ → Option ℚ} {p : Plot} {ini fin : List Name} {g : Grid} {k : ZKind} {fl : Name → Run → Name}
    {l : List (Name × (ℚ × ℚ) × (ℚ × ℚ))} {st : St} {res : List (Shown × St)}
    (h : panels (fun f b3 b4 st => update lg p ini fin g g k f (fl f) b3 b4 st) l st = .ok res) :
    List.Forall₂ (fun q sh => sh.1.x = (g.runs.filter (inSlice p q.2.1 q.2.2)).map (fun r => scaled lg p.xlog (iniVal r p.x)) ∧
      sh.1.y = (g.runs.filter (inSlice p q.2.1 q.2.2)).map (fun r => scaled lg p.ylog (iniVal r p.y)) ∧
      sh.1.flag = (g.runs.filter (inSlice p q.2.1 q.2.2)).map (fl q.1)) l res ∧
    ∀ a b, st.zmin = some a → st.zmax = some b → ∀ sh ∈ res, sh.2.zmin = some a ∧ sh.2.zmax = some b := by
  induction l generalizing st res with
  | nil => cases h; exact ⟨.nil, fun _ _ _ _ sh hsh => by cases hsh⟩
  | cons q l ih =>
    obtain ⟨f, b3, b4⟩ := q
    unfold panels at h
    cases hu : update lg p ini fin g g k f (fl f) b3 b4 st with
    | error e => rw [hu] at h; cases h
    | ok v =>
      obtain ⟨s, st'⟩ := v
      rw [hu] at h
      dsimp only at h
      cases hp : panels (fun f b3 b4 st => update lg p ini fin g g k f (fl f) b3 b4 st) l st' with
      | error e => rw [hp] at h; cases h
      | ok rest =>
        rw [hp] at h
        cases h
        obtain ⟨i1, i2⟩ := ih hp
        refine ⟨.cons (C137_shown hu) i1, fun a b ha hb sh hsh => ?_⟩
        obtain ⟨k1, k2⟩ := C137_limits_kept hu ha hb
        rcases List.mem_cons.1 hsh with rfl | hsh
        · exact ⟨k1, k2⟩
        · exact i2 a b k1 k2 sh hsh

/-! ### An example -/

/-- A run with three initial values. -/
def exRun (m1 m2 p : ℚ) (c : Option ℚ) (f : Name) : Run :=
  { init := fun n => if n = (chars! "star_1_mass") then some m1 else if n = (chars! "star_2_mass") then some m2
      else if n = (chars! "period_days") then some p else some (142/10000)
    num := fun _ => c, txt := fun _ => f }

def exGrid : Grid :=
  { ini := [(chars! "star_1_mass"), (chars! "star_2_mass"), (chars! "period_days"), (chars! "Z")]
    fin := [(chars! "star_1_mass"), (chars! "termination_flag_1")]
    runs := [exRun 10 5 1 (some 3) (chars! "a"), exRun 20 4 1 (some 7) (chars! "b"), exRun 8 4 10 none (chars! "a")] }

/-- A slice along the mass ratio. -/
def exPlot : Plot := { x := (chars! "star_1_mass"), y := (chars! "period_days"), grid3 := true, var3 := (chars! "mass_ratio") }

def exIni : List Name := exGrid.ini ++ [(chars! "mass_ratio"), (chars! "Z_Zsun")]

/-- The set-up succeeds. -/
example : (match ready exPlot exGrid (.name (chars! "star_1_mass")) (chars! "termination_flag_1") with
    | .ok r => decide (r.ini = exIni ∧ r.kind = .final (chars! "star_1_mass") ∧ r.flag = some (chars! "termination_flag_1"))
    | .error _ => false) = true := by decide +kernel

/-- The second run is not in the slice around one half; the third has no colour. -/
example : (update (fun _ => none) exPlot exIni exGrid.fin exGrid exGrid (.final (chars! "star_1_mass")) (chars! "termination_flag_1")
    (·.txt (chars! "termination_flag_1")) (4/10, 6/10) (0, 0) {}).toOption =
    some (⟨[some 10, some 8], [some 1, some 10], some [some 3, none], [], [], [(chars! "a"), (chars! "a")]⟩, ⟨some [some 3, none], some 3, some 3⟩) := by
  decide +kernel

/-- The limits of the first panel are kept for the second, which shows a colour outside of them. -/
theorem C137_limits_violated : ¬∀ (g : Grid) (p : Plot) (ini fin : List Name) (n flag : Name) (fl : Run → Name) (b3 b4 b3' b4' : ℚ × ℚ)
    (s1 s2 : Shown) (st1 st2 : St),
    update (fun _ => none) p ini fin g g (.final n) flag fl b3 b4 {} = .ok (s1, st1) →
    update (fun _ => none) p ini fin g g (.final n) flag fl b3' b4' st1 = .ok (s2, st2) →
    ∀ z c b, s2.z = some z → some c ∈ z → st2.zmax = some b → c ≤ b := by
  intro h
  have e1 : (update (fun _ => none) exPlot exIni exGrid.fin exGrid exGrid (.final (chars! "star_1_mass")) (chars! "termination_flag_1")
      (·.txt (chars! "termination_flag_1")) (4/10, 6/10) (0, 0) {}).toOption =
      some (⟨[some 10, some 8], [some 1, some 10], some [some 3, none], [], [], [(chars! "a"), (chars! "a")]⟩, ⟨some [some 3, none], some 3, some 3⟩) := by
    decide +kernel
  have e2 : (update (fun _ => none) exPlot exIni exGrid.fin exGrid exGrid (.final (chars! "star_1_mass")) (chars! "termination_flag_1")
      (·.txt (chars! "termination_flag_1")) (1/10, 3/10) (0, 0) ⟨some [some 3, none], some 3, some 3⟩).toOption =
      some (⟨[some 20], [some 1], some [some 7], [], [], [(chars! "b")]⟩, ⟨some [some 7], some 3, some 3⟩) := by
    decide +kernel
  have toOk : ∀ {A : Type} {x : Except Err A} {a : A}, x.toOption = some a → x = .ok a := by
    intro A x a hx
    cases x with
    | error e => cases hx
    | ok b => cases hx; rfl
  have := h exGrid exPlot exIni exGrid.fin (chars! "star_1_mass") (chars! "termination_flag_1") (·.txt (chars! "termination_flag_1"))
    (4/10, 6/10) (0, 0) (1/10, 3/10) (0, 0) _ _ _ _ (toOk e1) (toOk e2) [some 7] 7 3 rfl (by simp) rfl
  norm_num at this

/-- A relative change is accepted for the example, so that the result on relative changes is not empty. -/
example : (match ready { exPlot with grid3 := false } exGrid (.name (chars! "relative_change_star_1_mass")) (chars! "termination_flag_1") with
    | .ok r => decide (r.kind = .relative (chars! "relative_change_star_1_mass"))
    | .error _ => false) = true ∧ (chars! "relative_change_star_1_mass") ∉ exGrid.fin := by decide +kernel

/-- Colours as an array, of which the second panel fails. -/
example : ∃ s st', update (fun _ => none) exPlot exIni exGrid.fin exGrid exGrid (.array [some 1, some 2, some 3]) (chars! "termination_flag_1")
    (·.txt (chars! "termination_flag_1")) (4/10, 6/10) (0, 0) (start (.array [some 1, some 2, some 3]) none none) = .ok (s, st') ∧
    s.z = some [some 1, some 3] := by
  refine ⟨⟨[some 10, some 8], [some 1, some 10], some [some 1, some 3], [], [], [(chars! "a"), (chars! "a")]⟩, ⟨some [some 1, some 3], some 1, some 3⟩, ?_, rfl⟩
  have e : (update (fun _ => none) exPlot exIni exGrid.fin exGrid exGrid (.array [some 1, some 2, some 3]) (chars! "termination_flag_1")
    (·.txt (chars! "termination_flag_1")) (4/10, 6/10) (0, 0) (start (.array [some 1, some 2, some 3]) none none)).toOption =
    some (⟨[some 10, some 8], [some 1, some 10], some [some 1, some 3], [], [], [(chars! "a"), (chars! "a")]⟩, ⟨some [some 1, some 3], some 1, some 3⟩) := by
    decide +kernel
  cases hx : update (fun _ => none) exPlot exIni exGrid.fin exGrid exGrid (.array [some 1, some 2, some 3]) (chars! "termination_flag_1")
    (·.txt (chars! "termination_flag_1")) (4/10, 6/10) (0, 0) (start (.array [some 1, some 2, some 3]) none none) with
  | error e' => rw [hx] at e; cases e
  | ok v => rw [hx] at e; cases e; rfl

/-- A history with an onset in its second row. -/
def exHist : Hist :=
  ⟨[(chars! "period_days"), (chars! "rl_relative_overflow_1"), (chars! "lg_mtransfer_rate")],
   [fun n => if n = (chars! "period_days") then some 5 else some (-99),
    fun n => if n = (chars! "period_days") then some 4 else some (-1/100),
    fun n => if n = (chars! "period_days") then some 3 else some (1/10)]⟩

example : (track (fun _ => none) false (chars! "period_days") { exRun 10 5 1 none [] with bh := some exHist }).toOption = some (some [some 5, some 4]) := by
  decide +kernel

/-! ### Flags and columns -/

/-- The second flag is shown without marks of doubt, every other flag of the grid as it is. -/
theorem C137_flag_value (combine : Name → Name → Name) (r : Run) (flag : Name) (h : madeFrom flag = none) :
    flagVal combine r flag = if flag = (chars! "termination_flag_2") then (r.txt flag).filter (· ≠ '?') else r.txt flag := by
  unfold madeFrom at h
  unfold flagVal
  by_cases h1 : flag = (chars! "combined_TF12")
  · rw [if_pos h1] at h; cases h
  · rw [if_neg h1] at h ⊢
    by_cases h2 : flag = (chars! "debug")
    · rw [if_pos h2] at h; cases h
    · rw [if_neg h2] at h ⊢
      by_cases h3 : flag = (chars! "interpolation_class_errors")
      · rw [if_pos h3] at h; cases h
      · rw [if_neg h3]; rfl

/-- A flag that is made for the plot needs the columns it is made from. -/
theorem C137_flag_needs (p : Plot) (g : Grid) (z : ZArg) (flag n : Name) (ini need : List Name) (hi : iniNames g = .ok ini)
    (hm : madeFrom flag = some need) (hn : n ∈ need) (hg : n ∉ g.fin) : ready p g z flag = .error .noField := by
  have : finNames g flag = .error .noField := by
    unfold finNames
    rw [hm]
    dsimp only
    rw [if_neg fun h => hg (h n hn)]
  unfold ready
  rw [hi, this]

/-- So does the second flag. -/
theorem C137_second_flag_needs (p : Plot) (g : Grid) (z : ZArg) (ini : List Name) (hi : iniNames g = .ok ini)
    (hg : (chars! "termination_flag_2") ∉ g.fin) : ready p g z (chars! "termination_flag_2") = .error .noField := by
  have : finNames g (chars! "termination_flag_2") = .error .noField := by
    unfold finNames
    rw [show madeFrom (chars! "termination_flag_2") = none by decide]
    dsimp only
    rw [if_pos rfl, if_neg hg]
  unfold ready
  rw [hi, this]

/-- Without one of the two columns of overflow there is no onset and no value at the onset. -/
theorem C137_onset_needs (n : Name) (h b : Hist) (hn : n ∈ h.names)
    (hb : ¬((chars! "rl_relative_overflow_1") ∈ b.names ∧ (chars! "lg_mtransfer_rate") ∈ b.names)) :
    onset b = .error .noField ∧ onsetVal n (some h) (some b) = .error .noField := by
  have : onset b = .error .noField := by
    unfold onset
    rw [if_neg hb]
  refine ⟨this, ?_⟩
  simp [onsetVal, Hist.col, hn, this]

theorem split_free (sep : Name) : ∀ (s cur : Name), Frame.isIn sep s = false → Frame.splitGo sep 0 cur s = [cur.reverse ++ s]
  | [], cur, _ => by simp [Frame.splitGo]
  | c :: s, cur, h => by
    unfold Frame.isIn at h
    rw [List.tails_cons, List.any_cons, Bool.or_eq_false_iff] at h
    unfold Frame.splitGo
    rw [if_neg (by rw [h.1]; simp), split_free sep s (c :: cur) h.2]
    simp

/-- The quantity whose relative change is plotted is named after the prefix. -/
theorem C137_relative_key (n : Name) (h : Frame.isIn (chars! "relative_change_") n = false) :
    relKey ((chars! "relative_change_") ++ n) = .ok n := by
  have : Frame.split (chars! "relative_change_") ((chars! "relative_change_") ++ n) = [[], n] := by
    have e := GridJoin.splitGo_drop (chars! "relative_change_") (chars! "elative_change_") [] n
    unfold Frame.split
    show Frame.splitGo _ 0 [] ('r' :: ((chars! "elative_change_") ++ n)) = _
    unfold Frame.splitGo
    rw [if_pos (by simp [List.isPrefixOf])]
    have e' : ((chars! "relative_change_").length - 1) = (chars! "elative_change_").length := by decide
    rw [e', e, split_free _ _ _ h]
    simp
  unfold relKey
  rw [this]
  rfl

/-- Another name has no such quantity. -/
theorem C137_no_relative_key (n : Name) (h : Frame.isIn (chars! "relative_change_") n = false) : relKey n = .error .index := by
  unfold relKey Frame.split
  rw [split_free _ _ _ h]
  rfl

example : relKey (chars! "relative_change_star_1_mass") = .ok (chars! "star_1_mass") := C137_relative_key _ (by decide)

end Verif.GridPlot
