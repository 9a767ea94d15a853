import Verif.OpenPop
import Verif.TableProps
/-!
Property theorems for C121 (opening a population file).
-/
namespace Verif.OpenPop

variable {H C V : Type}

/-- What an opened population consists of. -/
theorem open_ok {nameOk : Bool} {file : Option (File H C V)} {z : Option ℚ} {iniFile : Option (Params V)} {P : Pop C V} {file' : Option (File H C V)}
    (h : openPop nameOk file z iniFile = (.ok P, file')) :
    ∃ f rows one lens f1 ini f2 m f3, nameOk = true ∧ file = some f ∧ f.history = some rows ∧ openHistory f rows = (lens, f1) ∧ f1.oneline = some one ∧
      openIni f1 iniFile = .ok (ini, f2) ∧ openMass f2 one z iniFile.isSome = .ok (m, f3) ∧ file' = some f3 ∧
      P = ⟨lens, lens.map Prod.fst, one.length, f1.channels, ini, m, m.map (·.met), m.map fun r => r.met * Zsun⟩ := by
  unfold openPop at h
  cases nameOk with
  | false => simp at h
  | true =>
    rw [if_neg (by simp)] at h
    cases file with
    | none => simp at h
    | some f =>
      dsimp only at h
      cases hh : f.history with
      | none => rw [hh] at h; simp at h
      | some rows =>
        rw [hh] at h
        dsimp only at h
        cases ho : openHistory f rows with
        | mk lens f1 =>
          rw [ho] at h
          dsimp only at h
          cases hone : f1.oneline with
          | none => rw [hone] at h; simp at h
          | some one =>
            rw [hone] at h
            dsimp only at h
            cases hi : openIni f1 iniFile with
            | error e => rw [hi] at h; simp at h
            | ok p =>
              obtain ⟨ini, f2⟩ := p
              rw [hi] at h
              dsimp only at h
              cases hm : openMass f2 one z iniFile.isSome with
              | error e => rw [hm] at h; simp at h
              | ok q =>
                obtain ⟨m, f3⟩ := q
                rw [hm] at h
                dsimp only at h
                simp only [Prod.mk.injEq, Except.ok.injEq] at h
                exact ⟨f, rows, one, lens, f1, ini, f2, m, f3, rfl, rfl, hh, ho, hone, hi, hm, h.2.symm, h.1.symm⟩

/-- The four tables that are not touched by looking at the history. -/
theorem openHistory_rest {f f1 : File H C V} {rows : List (ℤ × H)} {lens : List (ℤ × ℕ)} (h : openHistory f rows = (lens, f1)) :
    f1.history = f.history ∧ f1.oneline = f.oneline ∧ f1.channels = f.channels ∧ f1.ini = f.ini ∧ f1.mass = f.mass ∧ f1.lengths = some lens ∧
      lens = f.lengths.getD (Table.lengthsOf rows) := by
  unfold openHistory at h
  cases hl : f.lengths with
  | none =>
    rw [hl] at h
    cases h
    exact ⟨rfl, rfl, rfl, rfl, rfl, rfl, rfl⟩
  | some l =>
    rw [hl] at h
    cases h
    exact ⟨rfl, rfl, rfl, rfl, rfl, hl, rfl⟩

/-- **C121** When a population file can be opened: the name contains `.h5`, the file is there with a history and a one-line table, the parameters are in the file or given,
and either the masses are in the file and no metallicity is given, or a metallicity and parameters are given and there are systems. -/
theorem C121_opens (nameOk : Bool) (file : Option (File H C V)) (z : Option ℚ) (iniFile : Option (Params V)) :
    (∃ P file', openPop nameOk file z iniFile = (.ok P, file')) ↔
      nameOk = true ∧ ∃ f one, file = some f ∧ f.history ≠ none ∧ f.oneline = some one ∧ (iniFile ≠ none ∨ f.ini ≠ none) ∧
        ((z = none ∧ f.mass ≠ none) ∨ (z ≠ none ∧ iniFile ≠ none ∧ one ≠ [])) := by
  constructor
  · rintro ⟨P, file', h⟩
    obtain ⟨f, rows, one, lens, f1, ini, f2, m, f3, h1, h2, h3, h4, h5, h6, h7, h8, h9⟩ := open_ok h
    obtain ⟨r1, r2, r3, r4, r5, r6, -⟩ := openHistory_rest h4
    refine ⟨h1, f, one, h2, by rw [h3]; simp, r2 ▸ h5, ?_, ?_⟩
    · unfold openIni at h6
      cases iniFile with
      | some p => exact Or.inl (by simp)
      | none =>
        dsimp only at h6
        cases hi : f1.ini with
        | none => rw [hi] at h6; cases h6
        | some p => exact Or.inr (by rw [← r4, hi]; simp)
    · unfold openMass at h7
      cases z with
      | none =>
        dsimp only at h7
        cases hm : f2.mass with
        | none => rw [hm] at h7; cases h7
        | some m' =>
          refine Or.inl ⟨rfl, ?_⟩
          have : f2.mass = f1.mass := by
            unfold openIni at h6
            cases iniFile with
            | some p => cases h6; rfl
            | none =>
              dsimp only at h6
              cases hi : f1.ini with
              | none => rw [hi] at h6; cases h6
              | some p => rw [hi] at h6; cases h6; rfl
          rw [← r5, ← this, hm]
          simp
      | some z =>
        dsimp only at h7
        cases iniFile with
        | none => simp at h7
        | some p =>
          refine Or.inr ⟨by simp, by simp, ?_⟩
          rintro rfl
          simp [newMass] at h7
  · rintro ⟨rfl, f, one, rfl, hh, ho, hi, hm⟩
    obtain ⟨rows, hrows⟩ := Option.ne_none_iff_exists'.1 hh
    cases hop : openHistory f rows with
    | mk lens f1 =>
      obtain ⟨r1, r2, r3, r4, r5, r6, -⟩ := openHistory_rest hop
      have hini : ∃ ini f2, openIni f1 iniFile = .ok (ini, f2) ∧ f2.mass = f.mass := by
        unfold openIni
        cases iniFile with
        | some p => exact ⟨_, _, rfl, r5⟩
        | none =>
          obtain ⟨p, hp⟩ := Option.ne_none_iff_exists'.1 (hi.resolve_left (by simp))
          dsimp only
          rw [r4, hp]
          exact ⟨_, _, rfl, r5⟩
      obtain ⟨ini, f2, hini, hf2⟩ := hini
      have hmass : ∃ m f3, openMass f2 one z iniFile.isSome = .ok (m, f3) := by
        unfold openMass
        rcases hm with ⟨rfl, hm⟩ | ⟨hz, hp, hone⟩
        · obtain ⟨m, hm⟩ := Option.ne_none_iff_exists'.1 hm
          dsimp only
          rw [hf2, hm]
          exact ⟨_, _, rfl⟩
        · obtain ⟨z, rfl⟩ := Option.ne_none_iff_exists'.1 hz
          obtain ⟨p, rfl⟩ := Option.ne_none_iff_exists'.1 hp
          dsimp only
          rw [if_pos Option.isSome_some, newMass, if_neg hone]
          exact ⟨_, _, rfl⟩
      obtain ⟨m, f3, hmass⟩ := hmass
      unfold openPop
      rw [if_neg (by simp)]
      dsimp only
      rw [hrows]
      dsimp only
      rw [hop]
      dsimp only
      rw [r2, ho]
      dsimp only
      rw [hini]
      dsimp only
      rw [hmass]
      exact ⟨_, _, rfl⟩

/-- **C121** The lengths are those of the file, or if it has none, the number of rows of each system of the history: the labels rise, and all rows are counted. -/
theorem C121_lengths {nameOk : Bool} {f : File H C V} {z : Option ℚ} {iniFile : Option (Params V)} {P : Pop C V} {file' : Option (File H C V)}
    (h : openPop nameOk (some f) z iniFile = (.ok P, file')) :
    P.indices = P.lengths.map Prod.fst ∧ (∀ l, f.lengths = some l → P.lengths = l) ∧
    ∀ rows, f.history = some rows → f.lengths = none →
      P.indices.Pairwise (· < ·) ∧ (P.lengths.map Prod.snd).sum = rows.length ∧
      ∀ i n, (i, n) ∈ P.lengths ↔ (∃ r ∈ rows, r.1 = i) ∧ n = (rows.filter fun r => decide (r.1 = i)).length := by
  obtain ⟨f', rows, one, lens, f1, ini, f2, m, f3, h1, h2, h3, h4, h5, h6, h7, h8, rfl⟩ := open_ok h
  cases h2
  obtain ⟨-, -, -, -, -, -, hl⟩ := openHistory_rest h4
  refine ⟨rfl, fun l hf => by rw [hf] at hl; exact hl, fun rows' hr hf => ?_⟩
  rw [h3] at hr
  cases hr
  rw [hf] at hl
  obtain ⟨t1, t2, t3⟩ := Table.C27_lengths rows
  dsimp only
  rw [hl]
  exact ⟨t1, t3, t2⟩

/-- **C121** Parameters: those of the list are kept as they are given or as they are in the file, all others are dropped. -/
theorem C121_parameters {nameOk : Bool} {f : File H C V} {z : Option ℚ} {iniFile : Option (Params V)} {P : Pop C V} {file' : Option (File H C V)}
    (h : openPop nameOk (some f) z iniFile = (.ok P, file')) (k : String) :
    P.ini.lookup k = if k ∈ saved then (iniFile.or f.ini).bind (·.lookup k) else none := by
  obtain ⟨f', rows, one, lens, f1, ini, f2, m, f3, h1, h2, h3, h4, h5, h6, h7, h8, rfl⟩ := open_ok h
  cases h2
  obtain ⟨-, -, -, r4, -, -, -⟩ := openHistory_rest h4
  dsimp only
  unfold openIni at h6
  cases iniFile with
  | some p =>
    cases h6
    rw [keep_keep, keep_lookup]
    rfl
  | none =>
    dsimp only at h6
    cases hi : f1.ini with
    | none => rw [hi] at h6; cases h6
    | some p =>
      rw [hi] at h6
      cases h6
      rw [keep_lookup, ← r4, hi]
      rfl

theorem sum_split (l : List One) : ((l.filter fun r => r.single).map fun r => PopMass.nan0 r.m1).sum +
    ((l.filter fun r => !r.single).map fun r => PopMass.nan0 r.m1 + PopMass.nan0 r.m2).sum = (l.map counted).sum := by
  induction l with
  | nil => simp
  | cons r l ih =>
    simp only [List.map_cons, List.sum_cons, ← ih]
    cases hr : r.single with
    | true =>
      rw [List.filter_cons_of_pos (by simpa using hr), List.filter_cons_of_neg (by simp [hr])]
      simp [counted, hr, PopMass.nan0, add_assoc]
    | false =>
      rw [List.filter_cons_of_neg (by simp [hr]), List.filter_cons_of_pos (by simp [hr])]
      simp only [List.map_cons, List.sum_cons, counted, hr, PopMass.nan0]
      simp
      ring

/-- **C121** Masses: with a metallicity there is one row for it with the mass of all systems, divided into single stars and binaries, and the number of systems; otherwise
they are those of the file. The metallicities are those of the masses, also in absolute units. -/
theorem C121_masses {nameOk : Bool} {f : File H C V} {z : Option ℚ} {iniFile : Option (Params V)} {P : Pop C V} {file' : Option (File H C V)}
    (h : openPop nameOk (some f) z iniFile = (.ok P, file')) :
    P.solar = P.mass.map (·.met) ∧ P.mets = P.solar.map (· * (142 / 10000)) ∧ (z = none → f.mass = some P.mass) ∧
    ∀ z' one, z = some z' → f.oneline = some one → P.systems = one.length ∧
      ∃ r, P.mass = [r] ∧ r.met = z' ∧ r.total = (one.map counted).sum ∧ r.singles = ((one.filter (·.single)).map counted).sum ∧
        r.binaries = ((one.filter (!·.single)).map counted).sum ∧ r.total = r.singles + r.binaries ∧ r.systems = one.length := by
  obtain ⟨f', rows, one, lens, f1, ini, f2, m, f3, h1, h2, h3, h4, h5, h6, h7, h8, rfl⟩ := open_ok h
  cases h2
  obtain ⟨-, r2, -, -, r5, -, -⟩ := openHistory_rest h4
  have hf2 : f2.mass = f.mass := by
    rw [← r5]
    unfold openIni at h6
    cases iniFile with
    | some p => cases h6; rfl
    | none =>
      dsimp only at h6
      cases hi : f1.ini with
      | none => rw [hi] at h6; cases h6
      | some p => rw [hi] at h6; cases h6; rfl
  refine ⟨rfl, ?_, ?_, ?_⟩
  · dsimp only
    rw [List.map_map]
    rfl
  · rintro rfl
    unfold openMass at h7
    dsimp only at h7
    cases hm : f2.mass with
    | none => rw [hm] at h7; cases h7
    | some m' =>
      rw [hm] at h7
      cases h7
      rw [← hf2, hm]
  · rintro z' one' rfl ho
    rw [r2, ho] at h5
    cases h5
    refine ⟨rfl, ?_⟩
    unfold openMass at h7
    dsimp only at h7
    split_ifs at h7 with hp
    unfold newMass at h7
    split_ifs at h7 with hne
    · dsimp only at h7
      cases h7
      have e1 : ∀ l : List One, ((l.filter fun r => r.single).map fun r => PopMass.nan0 r.m1) = (l.filter (·.single)).map counted := by
        intro l
        refine List.map_congr_left fun r hr => ?_
        have := (List.mem_filter.1 hr).2
        simp only [counted, this, PopMass.nan0]
        simp
      have e2 : ∀ l : List One, ((l.filter fun r => !r.single).map fun r => PopMass.nan0 r.m1 + PopMass.nan0 r.m2) = (l.filter (!·.single)).map counted := by
        intro l
        refine List.map_congr_left fun r hr => ?_
        have := (List.mem_filter.1 hr).2
        simp only [counted, show r.single = false by simpa using this, PopMass.nan0]
        simp
      exact ⟨_, rfl, rfl, sum_split one, by rw [e1], by rw [e2], rfl, rfl⟩

/-- **C121** Opening changes nothing of the history, the one-line table and the channels. -/
theorem C121_tables_kept (nameOk : Bool) (f : File H C V) (z : Option ℚ) (iniFile : Option (Params V)) :
    ∃ f', (openPop nameOk (some f) z iniFile).2 = some f' ∧ f'.history = f.history ∧ f'.oneline = f.oneline ∧ formationChannels f' = formationChannels f ∧
      (∀ l, f.lengths = some l → f'.lengths = some l) ∧ (iniFile = none → f'.ini = f.ini) ∧ (z = none ∨ iniFile = none → f'.mass = f.mass) := by
  unfold openPop
  cases nameOk with
  | false => exact ⟨f, rfl, rfl, rfl, rfl, fun _ h => h, fun _ => rfl, fun _ => rfl⟩
  | true =>
    rw [if_neg (by simp)]
    dsimp only
    cases hh : f.history with
    | none => exact ⟨f, rfl, hh, rfl, rfl, fun _ h => h, fun _ => rfl, fun _ => rfl⟩
    | some rows =>
      dsimp only
      cases ho : openHistory f rows with
      | mk lens f1 =>
        obtain ⟨r1, r2, r3, r4, r5, r6, r7⟩ := openHistory_rest ho
        have hl : ∀ l, f.lengths = some l → f1.lengths = some l := fun l h => by rw [r6, r7, h]; rfl
        dsimp only
        rw [← hh]
        cases hone : f1.oneline with
        | none => exact ⟨f1, rfl, r1, r2, r3, hl, fun _ => r4, fun _ => r5⟩
        | some one =>
          dsimp only
          cases hi : openIni f1 iniFile with
          | error e => exact ⟨f1, rfl, r1, r2, r3, hl, fun _ => r4, fun _ => r5⟩
          | ok p =>
            obtain ⟨ini, f2⟩ := p
            have h2 : f2.history = f.history ∧ f2.oneline = f.oneline ∧ f2.channels = f.channels ∧ (∀ l, f.lengths = some l → f2.lengths = some l) ∧
                (iniFile = none → f2.ini = f.ini) ∧ f2.mass = f.mass := by
              unfold openIni at hi
              cases iniFile with
              | some q =>
                cases hi
                exact ⟨r1, r2, r3, hl, fun h => absurd h (by simp), r5⟩
              | none =>
                dsimp only at hi
                cases hf : f1.ini with
                | none => rw [hf] at hi; cases hi
                | some q =>
                  rw [hf] at hi
                  cases hi
                  exact ⟨r1, r2, r3, hl, fun _ => r4, r5⟩
            obtain ⟨s1, s2, s3, s4, s5, s6⟩ := h2
            dsimp only
            cases hm : openMass f2 one z iniFile.isSome with
            | error e => exact ⟨f2, rfl, s1, s2, s3, s4, s5, fun _ => s6⟩
            | ok q =>
              obtain ⟨m, f3⟩ := q
              dsimp only
              unfold openMass at hm
              cases z with
              | none =>
                dsimp only at hm
                cases hf : f2.mass with
                | none => rw [hf] at hm; cases hm
                | some m' =>
                  rw [hf] at hm
                  cases hm
                  exact ⟨f2, rfl, s1, s2, s3, s4, s5, fun _ => s6⟩
              | some z =>
                dsimp only at hm
                cases iniFile with
                | none => simp at hm
                | some p =>
                  rw [if_pos Option.isSome_some] at hm
                  cases hn : newMass z one with
                  | error e => rw [hn] at hm; cases hm
                  | ok m' =>
                    rw [hn] at hm
                    cases hm
                    exact ⟨_, rfl, s1, s2, s3, s4, s5, fun h => by rcases h with h | h <;> cases h⟩

/-- **C121** A file that was opened once opens again, with nothing given, as the same population, and is not changed any more. -/
theorem C121_reopen {nameOk : Bool} {file : Option (File H C V)} {z : Option ℚ} {iniFile : Option (Params V)} {P : Pop C V} {file' : Option (File H C V)}
    (h : openPop nameOk file z iniFile = (.ok P, file')) : openPop nameOk file' none none = (.ok P, file') := by
  obtain ⟨f, rows, one, lens, f1, ini, f2, m, f3, h1, h2, h3, h4, h5, h6, h7, h8, rfl⟩ := open_ok h
  obtain ⟨r1, r2, r3, r4, r5, r6, r7⟩ := openHistory_rest h4
  have g2 : f2.history = f1.history ∧ f2.oneline = f1.oneline ∧ f2.channels = f1.channels ∧ f2.lengths = f1.lengths ∧ ∃ p, f2.ini = some p ∧ keep p = ini := by
    unfold openIni at h6
    cases iniFile with
    | some q => cases h6; exact ⟨rfl, rfl, rfl, rfl, _, rfl, rfl⟩
    | none =>
      dsimp only at h6
      cases hf : f1.ini with
      | none => rw [hf] at h6; cases h6
      | some q => rw [hf] at h6; cases h6; exact ⟨rfl, rfl, rfl, rfl, _, hf, rfl⟩
  obtain ⟨s1, s2, s3, s4, p, s5, s6⟩ := g2
  have g3 : f3.history = f2.history ∧ f3.oneline = f2.oneline ∧ f3.channels = f2.channels ∧ f3.lengths = f2.lengths ∧ f3.ini = f2.ini ∧ f3.mass = some m := by
    unfold openMass at h7
    cases z with
    | none =>
      dsimp only at h7
      cases hf : f2.mass with
      | none => rw [hf] at h7; cases h7
      | some m' => rw [hf] at h7; cases h7; exact ⟨rfl, rfl, rfl, rfl, rfl, hf⟩
    | some z =>
      dsimp only at h7
      split_ifs at h7 with hp
      cases hn : newMass z one with
      | error e => rw [hn] at h7; cases h7
      | ok m' => rw [hn] at h7; cases h7; exact ⟨rfl, rfl, rfl, rfl, rfl, rfl⟩
  obtain ⟨t1, t2, t3, t4, t5, t6⟩ := g3
  have hop : openHistory f3 rows = (lens, f3) := by
    unfold openHistory
    rw [t4, s4, r6]
  rw [h8, h1]
  unfold openPop
  rw [if_neg (by simp)]
  dsimp only
  rw [t1, s1, r1, h3]
  dsimp only
  rw [hop]
  dsimp only
  rw [t2, s2, h5]
  dsimp only
  have hin : openIni f3 none = .ok (ini, f3) := by
    unfold openIni
    dsimp only
    rw [t5, s5, ← s6]
  rw [hin]
  dsimp only
  have hma : openMass f3 one none (none : Option (Params V)).isSome = .ok (m, f3) := by
    unfold openMass
    dsimp only
    rw [t6]
  rw [hma]
  dsimp only
  rw [t3, s3]

/-- **C121** The metadata of an opened file are those of the population. -/
theorem C121_metadata {nameOk : Bool} {file : Option (File H C V)} {z : Option ℚ} {iniFile : Option (Params V)} {P : Pop C V} {f' : File H C V}
    (h : openPop nameOk file z iniFile = (.ok P, some f')) : loadMetadata nameOk f' = .ok (P.ini, P.mass) := by
  have h' := C121_reopen h
  obtain ⟨f, rows, one, lens, f1, ini, f2, m, f3, h1, h2, h3, h4, h5, h6, h7, h8, rfl⟩ := open_ok h'
  cases h2
  obtain ⟨-, -, -, r4, r5, -, -⟩ := openHistory_rest h4
  unfold openIni at h6
  dsimp only at h6
  cases hi : f1.ini with
  | none => rw [hi] at h6; cases h6
  | some p =>
    rw [hi] at h6
    cases h6
    unfold openMass at h7
    dsimp only at h7
    cases hm : f1.mass with
    | none => rw [hm] at h7; cases h7
    | some m' =>
      rw [hm] at h7
      cases h7
      unfold loadMetadata
      rw [if_neg (by simp [h1]), ← r4, hi]
      dsimp only
      rw [← r5, hm]

/-- A file with two systems. -/
def two : File String String ℕ :=
  ⟨some [(0, "a"), (0, "b"), (3, "c")], none, some [⟨0, false, some 10, some 4⟩, ⟨3, true, some 7, some 1⟩], some "ch", some [("metallicity", 1), ("other", 5)], none⟩

/-- **C121 (violated)** A population that can not be opened may still be changed: without masses in the file the parameters given replace those of the file before the
error. -/
theorem C121_failed_open_violated : ∃ (f : File String String ℕ) (p : Params ℕ) (f' : File String String ℕ),
    openPop true (some f) none (some p) = (.error .value, some f') ∧ f.ini = some [("metallicity", 1), ("other", 5)] ∧ f'.ini = some [("metallicity", 2)] :=
  ⟨two, [("metallicity", 2)], _, rfl, rfl, rfl⟩

/-- **C121 (violated)** A complete file can not be opened if a metallicity is given without parameters, and the message says that there are no masses. -/
theorem C121_metallicity_violated (f : File H C V) (z : ℚ) : (openPop true (some f) (some z) none).1 = .error .value := by
  cases h : (openPop true (some f) (some z) none).1 with
  | ok P =>
    obtain ⟨-, f', one, -, -, -, -, hm⟩ := (C121_opens true (some f) (some z) none).1 ⟨P, _, Prod.ext h rfl⟩
    rcases hm with ⟨h1, -⟩ | ⟨-, h2, -⟩
    · cases h1
    · exact absurd rfl h2
  | error e =>
    unfold openPop at h
    rw [if_neg (by simp)] at h
    dsimp only at h
    cases hh : f.history with
    | none => rw [hh] at h; exact h.symm
    | some rows =>
      rw [hh] at h
      dsimp only at h
      cases ho : openHistory f rows with
      | mk lens f1 =>
        rw [ho] at h
        dsimp only at h
        cases hone : f1.oneline with
        | none => rw [hone] at h; exact h.symm
        | some one =>
          rw [hone] at h
          dsimp only at h
          unfold openIni at h
          dsimp only at h
          cases hi : f1.ini with
          | none => rw [hi] at h; exact h.symm
          | some p =>
            rw [hi] at h
            exact h.symm

/-- **C121 (violated)** The tables need not belong together: the number of systems is that of the one-line table, the labels are those of the history or of the lengths in
the file, and nothing is checked. -/
theorem C121_consistent_violated : ∃ (f : File String String ℕ) (P : Pop String ℕ), openPop true (some f) none none = (.ok P, some f) ∧ P.systems = 1 ∧ P.indices = [0, 5] ∧
    f.history = some [(0, "a"), (1, "b")] :=
  ⟨⟨some [(0, "a"), (1, "b")], some [(0, 1), (5, 7)], some [⟨9, false, none, none⟩], none, some [], some []⟩, _, rfl, rfl, rfl, rfl⟩

/-- The mass of all systems is put to the metallicity that is given, and masses of other metallicities in the file are lost. -/
theorem C121_overwrites (f : File H C V) (z : ℚ) (p : Params V) (P : Pop C V) (f' : Option (File H C V)) (h : openPop true (some f) (some z) (some p) = (.ok P, f')) :
    ∃ g r, f' = some g ∧ g.mass = some [r] ∧ r.met = z := by
  have h' := C121_reopen h
  obtain ⟨g, rows, one, lens, f1, ini, f2, m, f3, h1, h2, h3, h4, h5, h6, h7, h8, rfl⟩ := open_ok h'
  subst h2
  obtain ⟨hm, -⟩ := (C121_masses h').2.2
  obtain ⟨f0, rows0, one0, lens0, f10, ini0, f20, m0, f30, -, g2, -, g4, g5, -⟩ := open_ok h
  cases g2
  obtain ⟨-, r2, -⟩ := openHistory_rest g4
  obtain ⟨-, r, e1, e2, -⟩ := (C121_masses h).2.2.2 z one0 rfl (r2 ▸ g5)
  refine ⟨g, r, rfl, ?_, e2⟩
  rw [hm rfl]
  exact congrArg some e1

/-! ### Examples -/

example : (openPop true (some two) (some (1 / 10)) (some [("metallicity", 2), ("seed", 3)])).1.toOption.map (fun P => (P.lengths, P.indices, P.systems)) =
    some ([(0, 2), (3, 1)], [0, 3], 2) := by decide +kernel

example : (openPop true (some two) (some (1 / 10)) (some [("metallicity", 2), ("seed", 3)])).1.toOption.map (fun P => (P.ini, P.mass)) =
    some ([("metallicity", 2)], [⟨1 / 10, 21, 7, 14, 2⟩]) := by decide +kernel

example : (openPop true (some two) none none).1 = .error .value := rfl

end Verif.OpenPop
