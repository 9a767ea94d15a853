import Verif.SNModels
/-!
C99: the pre-defined supernova models.
-/
namespace Verif.SNModels

/-- A name is found exactly if it is the name of a model that agrees with the settings on all that decide on the model. -/
theorem C99_lookup (d : Key → Option Val) (n : List Char) :
    getName d = some n ↔ n ∈ models.map (·.1) ∧ Agrees d (getModel n) := by
  constructor
  · intro h
    rcases nameLoop_some d models none n h with h | ⟨r, hr, rfl, ha⟩
    · cases h
    · exact ⟨List.mem_map.2 ⟨r, hr, rfl⟩, by rw [getModel_mem hr]; exact ha⟩
  · rintro ⟨hn, ha⟩
    obtain ⟨r, hr, rfl⟩ := List.mem_map.1 hn
    rw [getModel_mem hr] at ha
    cases h : getName d with
    | none => exact absurd ha ((nameLoop_none d models none h).2 r hr)
    | some n' =>
      rcases nameLoop_some d models none n' h with h' | ⟨r', hr', rfl, ha'⟩
      · cases h'
      · rw [agrees_unique hr hr' ha ha']

/-- No two models agree with the same settings. -/
theorem C99_unique (d : Key → Option Val) (n n' : List Char) (hn : n ∈ models.map (·.1)) (hn' : n' ∈ models.map (·.1))
    (h : Agrees d (getModel n)) (h' : Agrees d (getModel n')) : n = n' :=
  Option.some.inj (((C99_lookup d n).2 ⟨hn, h⟩).symm.trans ((C99_lookup d n').2 ⟨hn', h'⟩))

/-- Each model is found from its own settings. -/
theorem C99_own (n : List Char) (hn : n ∈ models.map (·.1)) : getName (fun k => some (getModel n k)) = some n :=
  (C99_lookup _ n).2 ⟨hn, fun k _ => ⟨_, rfl, rfl⟩⟩

/-- A name that is not one of a model silently stands for the default settings. -/
theorem C99_unknown (n : List Char) (hn : n ∉ models.map (·.1)) : getModel n = default := by
  unfold getModel
  cases h : models.find? fun r => r.1 = n with
  | none => rfl
  | some r =>
    have h1 := List.mem_of_find?_eq_some h
    have h2 := List.find?_some h
    simp only [decide_eq_true_eq] at h2
    exact absurd (List.mem_map.2 ⟨r, h1, h2⟩) hn

/-- The switches on what is used and the treatment of electron-capture supernovae have no influence. -/
theorem C99_ignored (d d' : Key → Option Val)
    (h : ∀ k, k ≠ .ecsn → k ≠ .useInterp → k ≠ .useProfiles → k ≠ .useCore → d k = d' k) : getName d = getName d' := by
  have key : ∀ n, getName d = some n ↔ getName d' = some n := by
    intro n
    rw [C99_lookup, C99_lookup]
    refine and_congr_right fun _ => forall_congr' fun k => imp_congr_right fun hk => ?_
    rw [h k (by rintro rfl; revert hk; decide) (by rintro rfl; revert hk; decide) (by rintro rfl; revert hk; decide)
      (by rintro rfl; revert hk; decide)]
  cases hd : getName d with
  | some n => exact ((key n).1 hd).symm
  | none =>
    cases hd' : getName d' with
    | none => rfl
    | some n => rw [(key n).2 hd'] at hd; cases hd

/-- The rows of the table and the combinations are the same. -/
theorem table_combined :
    (∀ r ∈ models, ∃ e ∈ engines, ∃ p ∈ [(-20 : ℚ), 0], ∃ b ∈ [true, false], ∀ k ∈ deciding, value r.2 k = combined e p b k) ∧
      ∀ e ∈ engines, ∀ p ∈ [(-20 : ℚ), 0], ∀ b ∈ [true, false], ∃ r ∈ models, ∀ k ∈ deciding, value r.2 k = combined e p b k := by
  constructor <;> decide +kernel

/-- There is a model exactly for the seven mechanisms with their engine, both values of the extra mass loss and both of the conservation
of the envelope, all other deciding settings having their defaults. -/
theorem C99_supported (d : Key → Option Val) :
    (∃ n, getName d = some n) ↔ ∃ e ∈ engines, ∃ p : ℚ, (p = -20 ∨ p = 0) ∧ ∃ b, Agrees d (combined e p b) := by
  have congr : ∀ {m m' : Key → Val}, (∀ k ∈ deciding, m k = m' k) → (Agrees d m ↔ Agrees d m') := fun h =>
    forall_congr' fun k => imp_congr_right fun hk => by rw [h k hk]
  constructor
  · rintro ⟨n, hn⟩
    obtain ⟨hm, ha⟩ := (C99_lookup d n).1 hn
    obtain ⟨r, hr, rfl⟩ := List.mem_map.1 hm
    obtain ⟨e, he, p, hp, b, _, h⟩ := table_combined.1 r hr
    rw [getModel_mem hr, congr h] at ha
    exact ⟨e, he, p, by simpa using hp, b, ha⟩
  · rintro ⟨e, he, p, hp, b, ha⟩
    obtain ⟨r, hr, h⟩ := table_combined.2 e he p (by simpa using hp) b (by cases b <;> simp)
    refine ⟨r.1, (C99_lookup d r.1).2 ⟨List.mem_map.2 ⟨r, hr, rfl⟩, ?_⟩⟩
    rw [getModel_mem hr, congr h]
    exact ha

/-- If the interpolated values are switched on and the check of the ini file passes, the step, if it can be made, finds the
model found by the check. -/
theorem C99_accepted (i : Ini) (v : Val) (hv : i.set .useInterp = some v) (hf : v.norm ≠ .num 0) (h : check i = .ok true) (s : Key → Val)
    (hs : init i = .ok s) : ∃ n, getName i.set = some n ∧ (v.truthy = true → run i = .ok (some n)) := by
  have h1 : (getName i.set).isSome = true := by
    unfold check at h
    rw [hv] at h
    dsimp only at h
    rw [if_neg (fun he => hf (Val.eq_iff.1 he))] at h
    exact Except.ok.inj h
  obtain ⟨n, hn⟩ := Option.isSome_iff_exists.1 h1
  refine ⟨n, hn, fun ht => ?_⟩
  obtain ⟨hm, ha⟩ := (C99_lookup _ n).1 hn
  have hs' : s = attrs i := by
    unfold init at hs
    by_cases h1 : i.others.all (fun o => decide (o ∈ otherNames)) = true
    · rw [if_pos h1] at hs
      by_cases h2 : attrs i .mechanism ∈ mechanisms.map Val.text
      · rw [if_pos h2] at hs; exact (Except.ok.inj hs).symm
      · rw [if_neg h2] at hs; cases hs
    · rw [if_neg h1] at hs; cases hs
  have hnu : ∀ r ∈ models, value r.2 .maxNu = .num (1 / 2) := by decide +kernel
  have same : getName (fun k => some (attrs i k)) = some n := by
    refine (C99_lookup _ n).2 ⟨hm, fun k hk => ?_⟩
    obtain ⟨w, hw, hwn⟩ := ha k hk
    refine ⟨_, rfl, ?_⟩
    unfold attrs
    rw [hw]
    dsimp only [Option.getD_some]
    rw [if_neg, hwn]
    rintro ⟨rfl, rfl⟩
    obtain ⟨r, hr, rfl⟩ := List.mem_map.1 hm
    rw [getModel_mem hr, hnu r hr] at hwn
    cases hwn
  have huse : attrs i .useInterp = v := by
    unfold attrs
    rw [hv]
    rfl
  unfold run
  rw [hs]
  dsimp only
  unfold selected
  rw [hs', huse, if_pos ht, same]

/-- If all deciding settings are in the ini file, the check refuses exactly what the step would refuse when the first star collapses. -/
theorem C99_refused_partial (i : Ini) (hall : ∀ k ∈ deciding, (i.set k).isSome = true) (hi : i.set .useInterp = some (.bool true)) (s : Key → Val)
    (hs : init i = .ok s) : check i = .ok true ↔ ∃ n, run i = .ok (some n) := by
  constructor
  · intro h
    obtain ⟨n, _, h2⟩ := C99_accepted i _ hi (by decide) h s hs
    exact ⟨n, h2 rfl⟩
  · rintro ⟨n, hr⟩
    have hs' : s = attrs i := by
      unfold init at hs
      by_cases h1 : i.others.all (fun o => decide (o ∈ otherNames)) = true
      · rw [if_pos h1] at hs
        by_cases h2 : attrs i .mechanism ∈ mechanisms.map Val.text
        · rw [if_pos h2] at hs; exact (Except.ok.inj hs).symm
        · rw [if_neg h2] at hs; cases hs
      · rw [if_neg h1] at hs; cases hs
    have huse : attrs i .useInterp = .bool true := by
      unfold attrs
      rw [hi]
      rfl
    unfold run at hr
    rw [hs] at hr
    dsimp only at hr
    unfold selected at hr
    rw [hs', huse, if_pos (show (Val.bool true).truthy = true from rfl)] at hr
    cases hg : getName (fun k => some (attrs i k)) with
    | none => rw [hg] at hr; cases hr
    | some n' =>
      obtain ⟨hm, ha⟩ := (C99_lookup _ n').1 hg
      have hnu : ∀ r ∈ models, value r.2 .maxNu = .num (1 / 2) := by decide +kernel
      have hn : getName i.set = some n' := by
        refine (C99_lookup _ n').2 ⟨hm, fun k hk => ?_⟩
        obtain ⟨w, hw, hwn⟩ := ha k hk
        obtain ⟨v, hv⟩ := Option.isSome_iff_exists.1 (hall k hk)
        refine ⟨v, hv, ?_⟩
        unfold attrs at hw
        dsimp only at hw
        rw [hv] at hw
        dsimp only [Option.getD_some] at hw
        by_cases hc : k = .maxNu ∧ v = .none
        · rw [if_pos hc] at hw
          obtain ⟨rfl, rfl⟩ := hc
          obtain ⟨r, hr, rfl⟩ := List.mem_map.1 hm
          rw [getModel_mem hr, hnu r hr, ← Option.some.inj hw] at hwn
          exact absurd hwn (by decide +kernel)
        · rw [if_neg hc] at hw
          rw [Option.some.inj hw]
          exact hwn
      unfold check
      rw [hi]
      dsimp only
      rw [if_neg (by decide), hn]
      rfl

/-! ### Concrete cases -/

/-- The section of the supernova step in `posydon/popsyn/population_params_default.ini`. -/
def defaultIni : Ini := ⟨fun k => some (default k), otherNames.filter (fun o => decide (o ≠ (chars! "RNG")))⟩

/-- The default ini file with one setting changed or removed. -/
def changed (k : Key) (v : Option Val) : Ini := ⟨Function.update defaultIni.set k v, defaultIni.others⟩

def isOk {α : Type} (r : Except Err α) (p : α → Bool) : Bool :=
  match r with
  | .ok a => p a
  | .error _ => false

/-- The default ini file is accepted and uses the first model. -/
theorem C99_default : check defaultIni = .ok true ∧ run defaultIni = .ok (some (chars! "SN_MODEL_v2_01")) := by
  constructor <;> decide +kernel

example : run (changed .mechanism (some (.text (chars! "Fryer+12-rapid")))) = .ok (some (chars! "SN_MODEL_v2_05")) := by decide +kernel
-- a number for a truth value
example : run (changed .consEnv (some (.num 1))) = .ok (some (chars! "SN_MODEL_v2_02")) := by decide +kernel
example : check (changed .ppi (some (.num (-10)))) = .ok false ∧ run (changed .ppi (some (.num (-10)))) = .error .value := by
  constructor <;> decide +kernel
example : check (changed .maxNu (some .none)) = .ok false := by decide +kernel
-- the engine decides even if the mechanism has none
example : check (changed .engine (some (.text (chars! "N20")))) = .ok false := by decide +kernel
example : getName (combined ((chars! "Maltsev+25-engine"), (chars! "M16")) 0 true · |> some) = some (chars! "SN_MODEL_v2_28") := by decide +kernel

/-- A setting that is left out of the ini file, and has its default in the step, is taken for a mismatch: the check refuses the file
although the step uses the first model with it. -/
theorem C99_refused_violated : ∀ k ∈ deciding, check (changed k none) = .ok false ∧ run (changed k none) = .ok (some (chars! "SN_MODEL_v2_01")) := by
  decide +kernel

/-- If the switch for interpolated values is left out, the check ends in a `KeyError`, although the step has a default. -/
theorem C99_missing_violated : check (changed .useInterp none) = .error .key ∧
    run (changed .useInterp none) = .ok (some (chars! "SN_MODEL_v2_01")) := by
  constructor <;> decide +kernel

/-- Without interpolated values the check accepts every file, also one with a mechanism or a setting that the step refuses. -/
theorem C99_accepted_violated :
    (∀ i : Ini, i.set .useInterp = some (.bool false) → check i = .ok true) ∧
      run ⟨fun k => if k = .mechanism then some (.text (chars! "Fryer12-rapid")) else if k = .useInterp then some (.bool false) else none, []⟩ = .error .value ∧
      run ⟨fun k => if k = .useInterp then some (.bool false) else none, [(chars! "sigma_kick")]⟩ = .error .value := by
  refine ⟨fun i h => ?_, ?_, ?_⟩
  · unfold check
    rw [h]
    rfl
  · decide +kernel
  · decide +kernel

/-- A setting with a misspelt name passes the check, whatever the other settings, and the step refuses it. -/
theorem C99_unknown_setting_violated :
    check ⟨defaultIni.set, [(chars! "sigma_kick")]⟩ = .ok true ∧ run ⟨defaultIni.set, [(chars! "sigma_kick")]⟩ = .error .value := by
  constructor <;> decide +kernel

/-- The mechanisms without a model cannot be used with interpolated values, but the step can be made with them. -/
theorem C99_mechanisms (m : List Char) (hm : m = (chars! "direct") ∨ m = (chars! "direct_he_core") ∨ m = (chars! "Couch+20-engine")) (i : Ini)
    (hi : i.set .mechanism = some (.text m)) (hu : i.set .useInterp = some (.bool true)) : run i = .error .value ∧ check i = .ok false := by
  have no : ∀ d : Key → Option Val, d .mechanism = some (.text m) → getName d = none := by
    intro d hd
    cases h : getName d with
    | none => rfl
    | some n =>
      exfalso
      obtain ⟨e, he, p, _, b, ha⟩ := (C99_supported d).1 ⟨n, h⟩
      obtain ⟨v, hv, hn⟩ := ha .mechanism (by decide)
      rw [hd] at hv
      cases hv
      have h1 : m = e.1 := by
        have : Val.text m = Val.text e.1 := hn
        exact Val.text.inj this
      have h2 : ∀ e ∈ engines, e.1 ≠ (chars! "direct") ∧ e.1 ≠ (chars! "direct_he_core") ∧ e.1 ≠ (chars! "Couch+20-engine") := by decide +kernel
      rcases hm with hm | hm | hm
      · exact (h2 e he).1 (h1 ▸ hm)
      · exact (h2 e he).2.1 (h1 ▸ hm)
      · exact (h2 e he).2.2 (h1 ▸ hm)
  have a1 : attrs i .mechanism = .text m := by unfold attrs; rw [hi]; rfl
  have a2 : attrs i .useInterp = .bool true := by unfold attrs; rw [hu]; rfl
  constructor
  · unfold run init
    by_cases h1 : i.others.all (fun o => decide (o ∈ otherNames)) = true
    · rw [if_pos h1]
      by_cases h2 : attrs i .mechanism ∈ mechanisms.map Val.text
      · rw [if_pos h2]
        dsimp only
        unfold selected
        rw [a2, if_pos (show (Val.bool true).truthy = true from rfl), no _ (by rw [a1])]
      · rw [if_neg h2]
    · rw [if_neg h1]
  · unfold check
    rw [hu]
    dsimp only
    rw [if_neg (by decide), no _ hi]
    rfl

/-- C99: the step can be made exactly if each setting besides those of the supernova model is one of the eleven documented and the mechanism is one of the eight. -/
theorem C99_settings (i : Ini) : (∃ s, init i = .ok s) ↔
    (∀ o ∈ i.others, o ∈ ["kick", "kick_normalisation", "kick_prescription", "sigma_kick_CCSN_NS", "mean_kick_CCSN_NS", "sigma_kick_CCSN_BH",
      "mean_kick_CCSN_BH", "sigma_kick_ECSN", "mean_kick_ECSN", "RNG", "verbose"].map String.toList) ∧
    ∃ m ∈ ["Fryer+12-rapid", "Fryer+12-delayed", "direct", "direct_he_core", "Sukhbold+16-engine", "Patton&Sukhbold20-engine", "Couch+20-engine",
      "Maltsev+25-engine"].map String.toList, attrs i .mechanism = .text m := by
  have e1 : ["kick", "kick_normalisation", "kick_prescription", "sigma_kick_CCSN_NS", "mean_kick_CCSN_NS", "sigma_kick_CCSN_BH",
      "mean_kick_CCSN_BH", "sigma_kick_ECSN", "mean_kick_ECSN", "RNG", "verbose"].map String.toList = otherNames := by decide +kernel
  have e2 : ["Fryer+12-rapid", "Fryer+12-delayed", "direct", "direct_he_core", "Sukhbold+16-engine", "Patton&Sukhbold20-engine", "Couch+20-engine",
      "Maltsev+25-engine"].map String.toList = mechanisms := by decide +kernel
  rw [e1, e2]
  unfold init
  by_cases h1 : i.others.all (fun o => decide (o ∈ otherNames)) = true
  · rw [if_pos h1]
    have h1' : ∀ o ∈ i.others, o ∈ otherNames := fun o ho => decide_eq_true_eq.mp (List.all_eq_true.mp h1 o ho)
    by_cases h2 : attrs i .mechanism ∈ mechanisms.map Val.text
    · rw [if_pos h2]
      obtain ⟨m, hm, e⟩ := List.mem_map.mp h2
      exact ⟨fun _ => ⟨h1', m, hm, e.symm⟩, fun _ => ⟨_, rfl⟩⟩
    · rw [if_neg h2]
      constructor
      · rintro ⟨s, h⟩
        cases h
      · rintro ⟨_, m, hm, e⟩
        exact absurd (List.mem_map.mpr ⟨m, hm, e.symm⟩) h2
  · rw [if_neg h1]
    constructor
    · rintro ⟨s, h⟩
      cases h
    · rintro ⟨h, _⟩
      exact absurd (List.all_eq_true.mpr fun o ho => decide_eq_true (h o ho)) h1

/-- C99: the names of the settings of a supernova model are the fifteen documented, in this order. -/
theorem C99_setting_names : Key.all.map Key.text = ["mechanism", "engine", "PISN", "PISN_CO_shift", "PPI_extra_mass_loss", "ECSN", "conserve_hydrogen_envelope",
    "conserve_hydrogen_PPI", "max_neutrino_mass_loss", "max_NS_mass", "use_interp_values", "use_profiles", "use_core_masses", "allow_spin_None",
    "approx_at_he_depletion"].map String.toList := by decide +kernel

/-- C99: each pre-defined model computes its remnants from profiles: it takes no interpolated values and no core masses. -/
theorem C99_computed (n : List Char) (hn : n ∈ models.map (·.1)) :
    getModel n .useInterp = .bool false ∧ getModel n .useCore = .bool false ∧ getModel n .useProfiles = .bool true ∧
    getModel n .ecsn = .text "Tauris+15".toList := by
  revert n
  decide +kernel

end Verif.SNModels
