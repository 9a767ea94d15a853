import Verif.Sampling
/-!
Property theorems for C24 (independent sampling).
-/
namespace Verif.Sampling

/-- The uniform draws are in `[0, 1)` and primaries are positive (C25 shows that they are in their interval). -/
def DrawsOk (ds : List Draw) : Prop := ∀ d ∈ ds, 0 < d.m1 ∧ 0 ≤ d.uq ∧ d.uq < 1

/-- C24 for the flat mass-ratio scheme, every parameter set and every draw: whenever sampling succeeds there is one row per draw, primaries are never
undefined, single stars have neither companion nor orbit, and every companion mass is inside the limits. (The scheme `q=1` is below.) -/
theorem C24_flat_partial (orb : String) (smin smax : ℚ) (k : Fraction) (ds : List Draw) (rows : List Row) (hd : DrawsOk ds)
    (h : generate orb "flat_mass_ratio" smin smax k ds = .ok rows) :
    rows.length = ds.length ∧
      ∀ i (hi : i < ds.length) (hi' : i < rows.length), ∃ f, fraction k ds[i].m1 = .ok f ∧ RowOk smin smax f ds[i] rows[i] := by
  unfold generate secondaries at h
  simp only [ne_eq, not_true_eq_false, false_and, if_false, if_true] at h
  by_cases hn : ds = []
  · rw [if_pos hn] at h; cases h
  rw [if_neg hn] at h
  by_cases ha : ds.any (fun d => decide (d.m1 < smin)) = true
  · rw [if_pos ha] at h; cases h
  rw [if_neg ha] at h
  cases hm : ds.mapM (flatM2 smin smax) with
  | error e => rw [hm] at h; cases h
  | ok m2 =>
    rw [hm] at h
    simp only at h
    split_ifs at h
    cases hf : ds.mapM (fun d => fraction k d.m1) with
    | error e => rw [hf] at h; cases h
    | ok fs =>
      rw [hf] at h
      simp only [Except.ok.injEq] at h
      subst h
      rw [mapM_ok_iff] at hm hf
      clear ha hn
      induction ds generalizing m2 fs with
      | nil =>
        cases fs <;> cases m2 <;> simp_all [List.zipWith3]
      | cons d ds ih =>
        cases m2 with
        | nil => cases hm
        | cons m m2 =>
          cases fs with
          | nil => cases hf
          | cons f fs =>
            rw [List.map_cons, List.map_cons] at hm hf
            injection hm with hm1 hm2
            injection hf with hf1 hf2
            obtain ⟨hlen, hall⟩ := ih (fun x hx => hd x (List.mem_cons_of_mem _ hx)) m2 hm2 fs hf2
            refine ⟨by simp [List.zipWith3, hlen], ?_⟩
            intro i hi hi'
            cases i with
            | zero =>
              refine ⟨f, hf1, ?_⟩
              obtain ⟨hp, hu0, hu1⟩ := hd d List.mem_cons_self
              have hb := flatM2_ok hp hu0 hu1 hm1
              simp only [List.zipWith3, List.getElem_cons_zero, RowOk, mark]
              by_cases hs : d.us > f
              · rw [if_pos hs, if_pos hs]; exact ⟨rfl, rfl, rfl, rfl⟩
              · rw [if_neg hs, if_neg hs]; exact ⟨rfl, rfl, rfl, m, rfl, hb⟩
            | succ i =>
              simp only [List.zipWith3, List.getElem_cons_succ]
              exact hall i (by simpa using hi) (by simpa [List.zipWith3] using hi')

/-- C24: the flat scheme succeeds exactly for a non-empty set of primaries all above `secondary_mass_min`, with `secondary_mass_min < secondary_mass_max`
and `0 < secondary_mass_max`; everything else is reported as a ValueError. -/
theorem C24_flat_accepts (orb : String) (smin smax : ℚ) (k : Fraction) (ds : List Draw) (hd : DrawsOk ds)
    (ho : orb = "separation" ∨ orb = "period") (hk : k ≠ .other) :
    (∃ rows, generate orb "flat_mass_ratio" smin smax k ds = .ok rows) ↔
      ds ≠ [] ∧ smin < smax ∧ 0 < smax ∧ ∀ d ∈ ds, smin < d.m1 := by
  have hfrac : ∃ fs, ds.mapM (fun d => fraction k d.m1) = .ok fs := by
    cases k with
    | other => exact absurd rfl hk
    | const f => exact ⟨ds.map (fun _ => f), by rw [mapM_ok_iff]; simp [fraction]⟩
    | moe => exact ⟨ds.map (fun d => moeFraction d.m1), by rw [mapM_ok_iff]; simp [fraction]⟩
  obtain ⟨fs, hfs⟩ := hfrac
  have horb : ¬ (orb ≠ "separation" ∧ orb ≠ "period") := by tauto
  have hmap : (∃ l, ds.mapM (flatM2 smin smax) = .ok l) ↔ ∀ d ∈ ds, smin < d.m1 ∧ smin < smax ∧ 0 < smax := by
    clear hfs
    constructor
    · rintro ⟨l, hl⟩ d hdm
      rw [mapM_ok_iff] at hl
      have : flatM2 smin smax d ∈ l.map Except.ok := by rw [← hl]; exact List.mem_map_of_mem hdm
      obtain ⟨m, -, hm⟩ := List.mem_map.1 this
      exact (flatM2_isOk (hd d hdm).1).1 ⟨m, hm.symm⟩
    · intro hall
      refine ⟨ds.map (fun d => match flatM2 smin smax d with | .ok m => m | .error _ => 0), ?_⟩
      rw [mapM_ok_iff, List.map_map]
      apply List.map_congr_left
      intro d hdm
      obtain ⟨m, hm⟩ := (flatM2_isOk (hd d hdm).1).2 (hall d hdm)
      simp [hm]
  unfold generate secondaries
  simp only [ne_eq, not_true_eq_false, false_and, if_false, if_true]
  by_cases hn : ds = []
  · rw [if_pos hn]; simp [hn]
  rw [if_neg hn]
  by_cases ha : ds.any (fun d => decide (d.m1 < smin)) = true
  · rw [if_pos ha]
    constructor
    · rintro ⟨_, h⟩; cases h
    · rintro ⟨_, _, _, h⟩
      obtain ⟨d, hdm, hlt⟩ := List.any_eq_true.1 ha
      exact absurd (h d hdm) (not_lt.2 (le_of_lt (of_decide_eq_true hlt)))
  rw [if_neg ha]
  obtain ⟨d0, hd0⟩ := List.exists_mem_of_ne_nil ds hn
  cases hm : ds.mapM (flatM2 smin smax) with
  | error e =>
    constructor
    · rintro ⟨_, h⟩; cases h
    · rintro ⟨_, h1, h2, h3⟩
      obtain ⟨l, hl⟩ := hmap.2 (fun d hdm => ⟨h3 d hdm, h1, h2⟩)
      rw [hl] at hm; cases hm
  | ok l =>
    have hall := hmap.1 ⟨l, hm⟩
    simp only
    rw [if_neg horb, hfs]
    exact ⟨fun _ => ⟨hn, (hall d0 hd0).2.1, (hall d0 hd0).2.2, fun d hdm => (hall d hdm).1⟩, fun _ => ⟨_, rfl⟩⟩

/-- C24 fails for `secondary_mass_scheme = 'q=1'`: a system drawn as single loses its primary mass, because both arrays are the same object.
For every set of draws and every fraction. -/
theorem C24_alias_violated (smin smax : ℚ) (f : ℚ) (ds : List Draw) (hn : ds ≠ []) (hm : ∀ d ∈ ds, smin ≤ d.m1) (d : Draw) (hd : d ∈ ds)
    (hs : d.us > f) :
    ∃ rows, generate "separation" "q=1" smin smax (.const f) ds = .ok rows ∧ ∃ r ∈ rows, r.m1 = none := by
  have hany : ¬ (ds.any (fun d => decide (d.m1 < smin)) = true) := by
    intro h
    obtain ⟨x, hx, hlt⟩ := List.any_eq_true.1 h
    exact absurd (of_decide_eq_true hlt) (not_lt.2 (hm x hx))
  have hfs : ds.mapM (fun d => fraction (.const f) d.m1) = .ok (ds.map fun _ => f) := by
    rw [mapM_ok_iff]; simp [fraction]
  have hz : ∀ l : List Draw, List.zipWith3 (fun f d m => mark true f d m) (l.map fun _ => f) l (l.map (·.m1)) =
      l.map (fun d => mark true f d d.m1) := by
    intro l
    induction l with
    | nil => rfl
    | cons a l ih => simp only [List.map_cons, List.zipWith3, ih]
  refine ⟨ds.map (fun d => mark true f d d.m1), ?_, mark true f d d.m1, List.mem_map_of_mem hd, ?_⟩
  · unfold generate secondaries
    rw [if_neg (by decide), if_neg hn, if_neg hany, if_neg (by decide)]
    simp only
    rw [if_neg (by decide), hfs]
    simp only
    rw [hz]
  · simp [mark, hs]

/-- C24 fails for `'q=1'` also in its limits: `secondary_mass_max` is ignored. -/
theorem C24_ignored_limit_violated :
    generate "separation" "q=1" 1 10 (.const 1) [⟨50, 100, 0, 1/2, 1/2⟩] = .ok [⟨some 100, some 0, some 50, some 50⟩] := by
  decide +kernel

/-- The mass-dependent binary fraction is the documented step function: every mass gets exactly one of the five values. -/
theorem C24_fraction (m : ℚ) :
    (16 < m → moeFraction m = 94 / 100) ∧ (9 < m → m ≤ 16 → moeFraction m = 84 / 100) ∧ (5 < m → m ≤ 9 → moeFraction m = 76 / 100) ∧
    (2 < m → m ≤ 5 → moeFraction m = 59 / 100) ∧ (m ≤ 2 → moeFraction m = 40 / 100) := by
  unfold moeFraction
  refine ⟨fun h => ?_, fun h h' => ?_, fun h h' => ?_, fun h h' => ?_, fun h => ?_⟩
  · simp only [gt_iff_lt]
    rw [if_neg (by linarith), if_neg (by rintro ⟨h', _⟩; linarith), if_neg (by rintro ⟨h', _⟩; linarith),
      if_neg (by rintro ⟨h', _⟩; linarith), if_pos h]; norm_num
  · simp only [gt_iff_lt]
    rw [if_neg (by linarith), if_neg (by rintro ⟨h', _⟩; linarith), if_neg (by rintro ⟨h', _⟩; linarith), if_pos ⟨h', h⟩]; norm_num
  · simp only [gt_iff_lt]
    rw [if_neg (by linarith), if_neg (by rintro ⟨h', _⟩; linarith), if_pos ⟨h', h⟩]; norm_num
  · simp only [gt_iff_lt]
    rw [if_neg (by linarith), if_pos ⟨h', h⟩]; norm_num
  · simp only
    rw [if_pos h]; norm_num

/-! ### Concrete cases -/

example : generate "period" "flat_mass_ratio" 1 120 .moe [⟨20, 10, 0, 1/2, 1/2⟩, ⟨4, 30, 1/10, 0, 3/4⟩] =
    .ok [⟨some 10, some 0, some 20, some (21/2)⟩, ⟨none, none, some 4, none⟩] := by decide +kernel
example : generate "period" "flat_mass_ratio" 4 120 .moe [⟨4, 30, 1/10, 0, 3/4⟩] = .error .value := by decide +kernel
example : DrawsOk [⟨20, 10, 0, 1/2, 1/2⟩] := by intro d hd; simp at hd; subst hd; norm_num

end Verif.Sampling
