import Verif.StepOptions

/-!
# C128: options of the steps
-/

namespace Verif.StepOptions

/-! ### Making a step -/

/-- The tables have each name once. -/
theorem known_once : ∀ c : Cls, ∀ p ∈ known c, get (known c) p.1 = some p.2 := by
  intro c
  cases c <;> decide +kernel

theorem detached_ok (kw : Kw) (o : Obj) (h : detached kw = .ok o) :
    options detachedDefaults kw = .ok o.attrs ∧ o.evo = evoKeys.map fun k => (k, attr o.attrs k) := by
  unfold detached at h
  cases ho : options detachedDefaults kw with
  | error e => rw [ho] at h; cases h
  | ok a =>
    rw [ho] at h
    dsimp only at h
    split at h
    · split at h
      · cases h; exact ⟨rfl, rfl⟩
      · cases h
    · cases h; exact ⟨rfl, rfl⟩

theorem mesa_ok (E : Env) (c : Cls) (kw : Kw) (o : Obj) (h : mesa E c kw = .ok o) : options mesaDefaults kw = .ok o.attrs := by
  unfold mesa at h
  cases ho : options mesaDefaults kw with
  | error e => rw [ho] at h; cases h
  | ok a =>
    rw [ho] at h
    dsimp only at h
    split at h
    · cases h
    · split at h
      · cases h
      · cases h; rfl

theorem merged_values (kw : Kw) (o : Obj) (h : detached (kw.filter fun p => (get mergedExtra p.1).isNone) = .ok o) (k : Name) :
    get ((mergedExtra.map fun p => (p.1, (get kw p.1).getD p.2)) ++ o.attrs) k = wanted .merged kw k := by
  have h1 := options_get _ _ _ (detached_ok _ _ h).1 k
  have h2 := get_map mergedExtra (fun k v => (get kw k).getD v) k
  rw [get_append, h1]
  have h2' : get (mergedExtra.map fun p => (p.1, (get kw p.1).getD p.2)) k = (get mergedExtra k).map fun v => (get kw k).getD v := h2
  rw [h2']
  unfold wanted known
  dsimp only
  rw [get_append]
  cases hx : get mergedExtra k with
  | some v => rfl
  | none =>
    have h3 := get_filter kw (fun k => (get mergedExtra k).isNone) k (by rw [hx]; rfl)
    have h3' : get (kw.filter fun p => (get mergedExtra p.1).isNone) k = get kw k := h3
    rw [h3']
    rfl

/-- A step has every option as it was given, and the others as by default. -/
theorem C128_values (E : Env) (c : Cls) (hc : c ≠ .sn) (kw : Kw) (o : Obj) (h : construct E c [] kw = .ok o) (k : Name) :
    get o.attrs k = wanted c kw k := by
  cases c with
  | sn => exact absurd rfl hc
  | merged =>
    unfold construct mergedArgs at h
    dsimp only at h
    rw [if_neg (by simp)] at h
    cases hd : detached (kw.filter fun p => (get mergedExtra p.1).isNone) with
    | error e => rw [hd] at h; cases h
    | ok o' =>
      rw [hd] at h
      cases h
      exact merged_values kw o' hd k
  | ce =>
    unfold construct at h
    dsimp only at h
    rw [if_neg (by simp)] at h
    cases ho : options ceDefaults kw with
    | error e => rw [ho] at h; cases h
    | ok a => rw [ho] at h; cases h; exact options_get _ _ _ ho k
  | last | null =>
    unfold construct at h
    dsimp only at h
    rw [if_neg (by simp)] at h
    split at h
    · cases h; rfl
    · cases h
  | hmsHms | coHmsRlo | coHeMS | coHeMSRlo =>
    unfold construct at h
    dsimp only at h
    rw [if_neg (by simp)] at h
    exact options_get _ _ _ (mesa_ok _ _ _ _ h) k
  | detached | disrupted | single | dco =>
    unfold construct at h
    dsimp only at h
    rw [if_neg (by simp)] at h
    exact options_get _ _ _ (detached_ok _ _ h).1 k

example : (construct ⟨fun _ _ => .ok (), fun _ => .ok (), 7⟩ .ce [] [((chars! "common_envelope_efficiency"), .num 3)]).toOption.map
    (fun o => (get o.attrs (chars! "common_envelope_efficiency"), get o.attrs (chars! "CEE_tolerance_err"))) =
    some (some (.num 3), some (.num (1 / 1000))) := by decide +kernel

/-- The processes of the evolution of detached binaries are those of the step, also for two compact objects. -/
theorem C128_evolution (E : Env) (c : Cls) (hc : defaults c = some detachedDefaults) (kw : Kw) (o : Obj) (h : construct E c [] kw = .ok o)
    (k : Name) (hk : k ∈ evoKeys) : get o.evo k = wanted c kw k := by
  have hv := C128_values E c (by rintro rfl; revert hc; decide +kernel) kw o h k
  rw [← hv]
  have key : ∀ (a a' : Kw), (∀ k ∈ evoKeys, (get a' k).isSome ∧ get a k = get a' k) → get (evoKeys.map fun k => (k, attr a k)) k = get a' k := by
    intro a a' hh
    have : ∀ l : List Name, k ∈ l → get (l.map fun k => (k, attr a k)) k = some (attr a k) := by
      intro l
      induction l with
      | nil => intro h; cases h
      | cons x l ih =>
        intro h
        by_cases hx : x = k
        · subst hx; simp [get]
        · have : k ∈ l := by
            rcases List.mem_cons.mp h with h | h
            · exact absurd h.symm hx
            · exact h
          simp [get, hx, ih this]
    rw [this _ hk]
    obtain ⟨h1, h2⟩ := hh k hk
    unfold attr
    rw [h2]
    obtain ⟨v, hv⟩ := Option.isSome_iff_exists.mp h1
    rw [hv]; rfl
  have hex : ∀ k ∈ evoKeys, get mergedExtra k = none := by decide +kernel
  have hin : ∀ k ∈ evoKeys, (get detachedDefaults k).isSome := by decide +kernel
  have hset : ∀ (kw a : Kw), options detachedDefaults kw = .ok a → ∀ k ∈ evoKeys, (get a k).isSome := by
    intro kw a ha k hk
    rw [options_get _ _ _ ha k, Option.isSome_map]
    exact hin k hk
  cases c with
  | sn | ce | last | null | hmsHms | coHmsRlo | coHeMS | coHeMSRlo => exact absurd hc (by decide +kernel)
  | merged =>
    unfold construct mergedArgs at h
    dsimp only at h
    rw [if_neg (by simp)] at h
    cases hd : detached (kw.filter fun p => (get mergedExtra p.1).isNone) with
    | error e => rw [hd] at h; cases h
    | ok o' =>
      rw [hd] at h
      cases h
      obtain ⟨h1, h2⟩ := detached_ok _ _ hd
      dsimp only
      rw [h2]
      apply key
      intro k hk
      have hxk : get (mergedExtra.map fun p => (p.1, (get kw p.1).getD p.2)) k = none := by
        have := get_map mergedExtra (fun k v => (get kw k).getD v) k
        rw [hex k hk] at this
        exact this
      rw [get_append, hxk]
      exact ⟨hset _ _ h1 k hk, rfl⟩
  | detached | disrupted | single | dco =>
    unfold construct at h
    dsimp only at h
    rw [if_neg (by simp)] at h
    obtain ⟨h1, h2⟩ := detached_ok _ _ h
    rw [h2]
    exact key _ _ fun k hk => ⟨hset _ _ h1 k hk, rfl⟩

theorem options_bad (d kw : Kw) (p : Name × Val) (hp : p ∈ kw) (h : get d p.1 = none) : options d kw = .error .value := by
  rw [options_spec, if_neg]
  intro hh
  have := hh p hp
  rw [h] at this
  cases this

/-- An option that the step does not know is refused. -/
theorem C128_refused (E : Env) (c : Cls) (hc : c ≠ .last) (hc' : c ≠ .null) (kw : Kw) (p : Name × Val) (hp : p ∈ kw)
    (h : get (known c) p.1 = none) : construct E c [] kw = .error .value := by
  cases c with
  | last => exact absurd rfl hc
  | null => exact absurd rfl hc'
  | merged =>
    unfold known at h
    dsimp only at h
    rw [get_append] at h
    obtain ⟨h1, h2⟩ := Option.or_eq_none_iff.mp h
    unfold construct mergedArgs detached
    dsimp only
    rw [if_neg (by simp), options_bad _ _ p (List.mem_filter.mpr ⟨hp, by rw [h1]; rfl⟩) h2]
  | ce =>
    have ho : options ceDefaults kw = .error .value := options_bad _ _ p hp h
    unfold construct
    dsimp only
    rw [if_neg (by simp), ho]
  | sn =>
    have ho : options snDefaults kw = .error .value := options_bad _ _ p hp h
    unfold construct sn
    dsimp only
    rw [if_neg (by simp), ho]
  | hmsHms | coHmsRlo | coHeMS | coHeMSRlo =>
    have ho : options mesaDefaults kw = .error .value := options_bad _ _ p hp h
    unfold construct mesa
    dsimp only
    rw [if_neg (by simp), ho]
  | detached | disrupted | single | dco =>
    have ho : options detachedDefaults kw = .error .value := options_bad _ _ p hp h
    unfold construct detached
    dsimp only
    rw [if_neg (by simp), ho]

example (E : Env) : construct E .sn [] [((chars! "verbose"), .bool true), ((chars! "kicks"), .bool false)] = .error .value :=
  C128_refused E .sn (by decide) (by decide) _ ((chars! "kicks"), .bool false) (by simp) (by decide +kernel)

theorem options_same (d kw kw' : Kw) (hd : ∀ p ∈ d, get d p.1 = some p.2) (h1 : ∀ p ∈ kw, (get d p.1).isSome) (h2 : ∀ p ∈ kw', (get d p.1).isSome)
    (h : ∀ k, (get d k).map (fun v => (get kw k).getD v) = (get d k).map (fun v => (get kw' k).getD v)) : options d kw = options d kw' := by
  rw [options_spec, options_spec, if_pos h1, if_pos h2]
  congr 1
  apply List.map_congr_left
  intro p hp
  have := h p.1
  rw [hd p hp] at this
  exact congrArg (Prod.mk p.1) (Option.some.inj this)

/-- Giving an option the value that it has by default, or giving the options in another order, makes no difference. -/
theorem C128_same_partial (E : Env) (c : Cls) (hc : c ≠ .last) (hc' : c ≠ .null) (kw kw' : Kw) (hsn : c = .sn → kw ≠ [] ∧ kw' ≠ [])
    (h1 : ∀ p ∈ kw, (get (known c) p.1).isSome) (h2 : ∀ p ∈ kw', (get (known c) p.1).isSome) (h : ∀ k, wanted c kw k = wanted c kw' k) :
    construct E c [] kw = construct E c [] kw' := by
  have hk := known_once c
  cases c with
  | last => exact absurd rfl hc
  | null => exact absurd rfl hc'
  | merged =>
    have hx : ∀ p ∈ mergedExtra, (get kw p.1).getD p.2 = (get kw' p.1).getD p.2 := by
      intro p hp
      have h3 := h p.1
      have h4 : get (known .merged) p.1 = some p.2 := hk p (List.mem_append_left _ hp)
      unfold wanted at h3
      rw [h4] at h3
      exact Option.some.inj h3
    have hone : ∀ p ∈ detachedDefaults, get detachedDefaults p.1 = some p.2 := known_once .detached
    have hdis : ∀ p ∈ detachedDefaults, get mergedExtra p.1 = none := by decide +kernel
    have ho : options detachedDefaults (kw.filter fun p => (get mergedExtra p.1).isNone) =
        options detachedDefaults (kw'.filter fun p => (get mergedExtra p.1).isNone) := by
      have hs : ∀ kw : Kw, (∀ p ∈ kw, (get (known .merged) p.1).isSome) →
          ∀ p ∈ kw.filter fun p => (get mergedExtra p.1).isNone, (get detachedDefaults p.1).isSome := by
        intro kw hkw p hp
        obtain ⟨hp1, hp2⟩ := List.mem_filter.mp hp
        have := hkw p hp1
        unfold known at this
        dsimp only at this
        rw [get_append, Option.isNone_iff_eq_none.mp hp2] at this
        exact this
      refine options_same _ _ _ hone (hs kw h1) (hs kw' h2) ?_
      intro k
      cases hg : get detachedDefaults k with
      | none => rfl
      | some v =>
        have hn : get mergedExtra k = none := hdis (k, v) (get_mem _ _ _ hg)
        have f1 : get (kw.filter fun p => (get mergedExtra p.1).isNone) k = get kw k :=
          get_filter kw (fun k => (get mergedExtra k).isNone) k (by rw [hn]; rfl)
        have f2 : get (kw'.filter fun p => (get mergedExtra p.1).isNone) k = get kw' k :=
          get_filter kw' (fun k => (get mergedExtra k).isNone) k (by rw [hn]; rfl)
        rw [f1, f2]
        have h3 := h k
        unfold wanted known at h3
        dsimp only at h3
        rw [get_append, hn, hg] at h3
        exact h3
    have hm : (mergedExtra.map fun p => (p.1, (get kw p.1).getD p.2)) = mergedExtra.map fun p => (p.1, (get kw' p.1).getD p.2) :=
      List.map_congr_left fun p hp => congrArg (Prod.mk p.1) (hx p hp)
    unfold construct mergedArgs detached
    dsimp only
    rw [if_neg (by simp), if_neg (by simp), ho, hm]
  | ce =>
    unfold construct
    dsimp only
    rw [if_neg (by simp), if_neg (by simp)]
    have ho : options ceDefaults kw = options ceDefaults kw' := options_same _ _ _ hk h1 h2 h
    rw [ho]
  | sn =>
    unfold construct sn
    dsimp only
    rw [if_neg (by simp), if_neg (by simp)]
    have ho : options snDefaults kw = options snDefaults kw' := options_same _ _ _ hk h1 h2 h
    obtain ⟨e1, e2⟩ := hsn rfl
    have e : kw.isEmpty = kw'.isEmpty := by
      rw [List.isEmpty_eq_false_iff.mpr e1, List.isEmpty_eq_false_iff.mpr e2]
    rw [ho, e]
  | hmsHms | coHmsRlo | coHeMS | coHeMSRlo =>
    unfold construct mesa
    dsimp only
    rw [if_neg (by simp), if_neg (by simp)]
    have ho : options mesaDefaults kw = options mesaDefaults kw' := options_same _ _ _ hk h1 h2 h
    rw [ho]
  | detached | disrupted | single | dco =>
    unfold construct detached
    dsimp only
    rw [if_neg (by simp), if_neg (by simp)]
    have ho : options detachedDefaults kw = options detachedDefaults kw' := options_same _ _ _ hk h1 h2 h
    rw [ho]

/-- Not so for the supernova step: without any option it has no generator of random numbers, with one that changes nothing it has. -/
theorem C128_generator_violated (E : Env) (hE : ∀ a, E.snSetup a = .ok ()) :
    (∀ k, wanted .sn [] k = wanted .sn [((chars! "verbose"), .bool false)] k) ∧
      (∃ o, construct E .sn [] [] = .ok o ∧ get o.attrs (chars! "RNG") = some .none) ∧
      ∃ o, construct E .sn [] [((chars! "verbose"), .bool false)] = .ok o ∧ get o.attrs (chars! "RNG") = some (.rng E.fresh) := by
  refine ⟨?_, ?_, ?_⟩
  · intro k
    unfold wanted
    by_cases hk : (chars! "verbose") = k
    · subst hk; decide +kernel
    · simp only [get, if_neg hk]
  · refine ⟨⟨snDefaults, []⟩, ?_, rfl⟩
    unfold construct sn
    dsimp only
    rw [if_neg (by simp)]
    have h1 : options snDefaults [] = .ok snDefaults := rfl
    have h2 : snNeutrino (snKick (snRng E (!(List.isEmpty ([] : Kw))) snDefaults)) = snDefaults := by
      unfold snRng
      rw [if_neg (by simp)]
      decide +kernel
    rw [h1]
    dsimp only
    rw [h2, hE]
  · refine ⟨⟨put snDefaults (chars! "RNG") (.rng E.fresh), []⟩, ?_, by rw [get_put, if_pos rfl]⟩
    unfold construct sn
    dsimp only
    rw [if_neg (by simp)]
    have h1 : options snDefaults [((chars! "verbose"), .bool false)] = .ok snDefaults := by
      rw [options_spec, if_pos (by decide +kernel)]
      congr 1
    have h2 : snNeutrino (snKick (snRng E (!(List.isEmpty [((chars! "verbose"), Val.bool false)])) snDefaults)) =
        put snDefaults (chars! "RNG") (.rng E.fresh) := by
      unfold snRng
      rw [if_pos ⟨rfl, rfl⟩]
      rfl
    rw [h1]
    dsimp only
    rw [h2, hE]

/-! ### The supernova step -/

/-- The options of the supernova step: all but four are as given or as by default. -/
theorem C128_supernova (E : Env) (kw : Kw) (o : Obj) (h : construct E .sn [] kw = .ok o) :
    (∀ k, k ≠ (chars! "RNG") → k ≠ (chars! "kick_normalisation") → k ≠ (chars! "kick_prescription") → k ≠ (chars! "max_neutrino_mass_loss") →
        get o.attrs k = wanted .sn kw k) ∧
      (get o.attrs (chars! "max_neutrino_mass_loss") =
        (wanted .sn kw (chars! "max_neutrino_mass_loss")).map fun v => if v = .none then .num 0 else v) ∧
      (∀ v, wanted .sn kw (chars! "RNG") = some v → get o.attrs (chars! "RNG") = some (if v = .none ∧ kw ≠ [] then .rng E.fresh else v)) ∧
      (∀ n, wanted .sn kw (chars! "kick_normalisation") = some n →
        if n = .text (chars! "asym_ej") ∨ n = .text (chars! "linear") then
          get o.attrs (chars! "kick_normalisation") = some (.text (chars! "one")) ∧ get o.attrs (chars! "kick_prescription") = some n
        else get o.attrs (chars! "kick_normalisation") = some n ∧
          get o.attrs (chars! "kick_prescription") = wanted .sn kw (chars! "kick_prescription")) := by
  unfold construct sn at h
  dsimp only at h
  rw [if_neg (by simp)] at h
  cases ho : options snDefaults kw with
  | error e => rw [ho] at h; cases h
  | ok a =>
    rw [ho] at h
    dsimp only at h
    cases hs : E.snSetup (snNeutrino (snKick (snRng E (!kw.isEmpty) a))) with
    | error e => rw [hs] at h; cases h
    | ok u =>
      rw [hs] at h
      cases h
      dsimp only
      have hg : ∀ k, get a k = wanted .sn kw k := options_get _ _ _ ho
      have hR : ∀ (b : Bool) (a : Kw) k, k ≠ (chars! "RNG") → get (snRng E b a) k = get a k := by
        intro b a k hk
        unfold snRng
        split
        · rw [get_put, if_neg (Ne.symm hk)]
        · rfl
      have hK : ∀ (a : Kw) k, k ≠ (chars! "kick_normalisation") → k ≠ (chars! "kick_prescription") → get (snKick a) k = get a k := by
        intro a k h1 h2
        unfold snKick
        split
        · rw [get_put, if_neg (Ne.symm h1), get_put, if_neg (Ne.symm h2)]
        · rfl
      have hN : ∀ (a : Kw) k, k ≠ (chars! "max_neutrino_mass_loss") → get (snNeutrino a) k = get a k := by
        intro a k hk
        unfold snNeutrino
        split
        · rw [get_put, if_neg (Ne.symm hk)]
        · rfl
      refine ⟨?_, ?_, ?_, ?_⟩
      · intro k h1 h2 h3 h4
        rw [hN _ k h4, hK _ k h2 h3, hR _ _ k h1, hg]
      · rw [← hg]
        have e : get (snKick (snRng E (!kw.isEmpty) a)) (chars! "max_neutrino_mass_loss") = get a (chars! "max_neutrino_mass_loss") := by
          rw [hK _ _ (by decide) (by decide), hR _ _ _ (by decide)]
        have hsome : (get a (chars! "max_neutrino_mass_loss")).isSome := by
          rw [hg]; unfold wanted; rw [Option.isSome_map]; decide +kernel
        obtain ⟨v, hv⟩ := Option.isSome_iff_exists.mp hsome
        unfold snNeutrino attr
        rw [e, hv]
        dsimp only [Option.getD, Option.map]
        by_cases hvn : v = .none
        · rw [if_pos hvn, if_pos hvn, get_put, if_pos rfl]
        · rw [if_neg hvn, if_neg hvn, e, hv]
      · intro v hv
        rw [hN _ _ (by decide), hK _ _ (by decide) (by decide)]
        rw [← hg] at hv
        unfold snRng attr
        rw [hv]
        dsimp only [Option.getD]
        have hb : (!kw.isEmpty) = true ↔ kw ≠ [] := by cases kw <;> simp
        by_cases hc : v = .none ∧ kw ≠ []
        · rw [if_pos hc, if_pos ⟨hb.mpr hc.2, hc.1⟩, get_put, if_pos rfl]
        · rw [if_neg hc, if_neg (fun hh => hc ⟨hh.2, hb.mp hh.1⟩), hv]
      · intro n hn
        rw [← hg] at hn
        rw [hN _ _ (by decide), hN _ _ (by decide)]
        have e : get (snRng E (!kw.isEmpty) a) (chars! "kick_normalisation") = some n := by rw [hR _ _ _ (by decide), hn]
        have e2 : get (snRng E (!kw.isEmpty) a) (chars! "kick_prescription") = wanted .sn kw (chars! "kick_prescription") := by
          rw [hR _ _ _ (by decide), hg]
        unfold snKick attr
        rw [e]
        dsimp only [Option.getD]
        by_cases hc : n = .text (chars! "asym_ej") ∨ n = .text (chars! "linear")
        · rw [if_pos hc, if_pos hc]
          refine ⟨by rw [get_put, if_pos rfl], ?_⟩
          rw [get_put, if_neg (by decide), get_put, if_pos rfl]
        · rw [if_neg hc, if_neg hc]
          exact ⟨e, e2⟩

example : (construct ⟨fun _ _ => .ok (), fun _ => .ok (), 7⟩ .sn [] [((chars! "kick_normalisation"), .text (chars! "linear")),
      ((chars! "max_neutrino_mass_loss"), .none)]).toOption.map (fun o => (get o.attrs (chars! "kick_normalisation"),
        get o.attrs (chars! "kick_prescription"), get o.attrs (chars! "max_neutrino_mass_loss"), get o.attrs (chars! "RNG"))) =
    some (some (.text (chars! "one")), some (.text (chars! "linear")), some (.num 0), some (.rng 7)) := by decide +kernel

/-! ### Positions, messages -/

/-- Options can only be given by name; the step for mergers takes two by position. -/
theorem C128_positions (E : Env) (c : Cls) (pos : List Val) (kw : Kw) (h : pos.length > if c = .merged then 2 else 0) :
    construct E c pos kw = .error .type := by
  have hne : pos ≠ [] := by rintro rfl; simp at h
  cases c with
  | merged =>
    match pos, h with
    | x :: y :: z :: rest, _ =>
      unfold construct mergedArgs
      dsimp only
      by_cases hk : (get kw (chars! "merger_critical_rot")).isSome ∨ (get kw (chars! "rel_mass_lost_HMS_HMS")).isSome
      · rw [if_pos hk]
      · rw [if_neg hk]
        dsimp only
        rw [if_pos (by simp)]
    | [], h => simp at h
    | [x], h => simp at h
    | [x, y], h => simp at h
  | _ =>
    unfold construct
    dsimp only
    rw [if_pos hne]

/-- The two options of the step for mergers may be given by position: it is as if they were given by name. -/
theorem C128_merged_positions (E : Env) (x y : Val) (kw : Kw) (h1 : get kw (chars! "merger_critical_rot") = none)
    (h2 : get kw (chars! "rel_mass_lost_HMS_HMS") = none) :
    construct E .merged [x, y] kw =
      construct E .merged [] (((chars! "merger_critical_rot"), x) :: ((chars! "rel_mass_lost_HMS_HMS"), y) :: kw) := by
  have hf : (((chars! "merger_critical_rot"), x) :: ((chars! "rel_mass_lost_HMS_HMS"), y) :: kw).filter
      (fun p => (get mergedExtra p.1).isNone) = kw := by
    rw [List.filter_cons_of_neg (by dsimp only; decide), List.filter_cons_of_neg (by dsimp only; decide)]
    apply List.filter_eq_self.mpr
    intro p hp
    have ha : (chars! "merger_critical_rot") ≠ p.1 := by
      intro e
      have : (get kw (chars! "merger_critical_rot")).isSome := (get_isSome _ _).mpr (List.mem_map.mpr ⟨p, hp, e.symm⟩)
      rw [h1] at this; cases this
    have hb : (chars! "rel_mass_lost_HMS_HMS") ≠ p.1 := by
      intro e
      have : (get kw (chars! "rel_mass_lost_HMS_HMS")).isSome := (get_isSome _ _).mpr (List.mem_map.mpr ⟨p, hp, e.symm⟩)
      rw [h2] at this; cases this
    simp only [mergedExtra, get, if_neg ha, if_neg hb, Option.isNone_none]
  unfold construct mergedArgs
  dsimp only
  rw [hf, h1, h2, if_neg (by simp)]
  rfl

/-- With messages, a step for detached binaries can only be made with a track matcher: an option that should only print makes it fail. -/
theorem C128_messages_violated (E : Env) : (∃ o, construct E .detached [] [] = .ok o) ∧
    construct E .detached [] [((chars! "verbose"), .bool true)] = .error .attribute := by
  refine ⟨⟨⟨detachedDefaults, evoKeys.map fun k => (k, attr detachedDefaults k)⟩, rfl⟩, ?_⟩
  unfold construct
  dsimp only
  rw [if_neg (by simp)]
  rfl

/-- Steps that do nothing refuse every option with another error, which loading takes as a reason to make them without options. -/
theorem C128_last_violated (E : Env) (path : Name → Val) (make : ℚ → Name → Kw → Except Err Unit) (name : Name) (hn : name ∉ gridSteps)
    (met : Option ℚ) (rng : ℕ) (kw : Kw) (hkw : kw ≠ []) :
    load E path make .last name met rng kw = .ok ({ attrs := [] }, true) := by
  have hc : checkStep path make .last name met rng kw = .ok kw := by
    unfold checkStep defaults
    dsimp only
    rw [if_neg (by simp [get])]
    dsimp only
    rw [if_neg (by simp [get]), if_neg hn]
    simp [get]
  unfold load
  rw [hc]
  dsimp only
  have h1 : construct E .last [] kw = .error .type := by
    unfold construct
    dsimp only
    rw [if_neg (by simp), if_neg hkw]
  rw [h1]
  rfl

/-- A step can not be loaded with the class that `load_a_step` takes when none is given. -/
theorem C128_null_violated (E : Env) (path : Name → Val) (make : ℚ → Name → Kw → Except Err Unit) (name : Name) (met : Option ℚ) (rng : ℕ)
    (kw : Kw) : load E path make .null name met rng kw = .error .attribute := rfl

/-! ### Loading a step -/

/-- The classes of steps, and whether they take a metallicity, a matcher and a generator. -/
theorem C128_needs (c : Cls) (d : Kw) (h : defaults c = some d) :
    ((get d (chars! "metallicity")).isSome = !decide (c = .sn ∨ c = .last)) ∧
      ((get d (chars! "track_matcher")).isSome = decide (d = detachedDefaults ∨ c = .ce)) ∧
      ((get d (chars! "RNG")).isSome = !decide (c = .ce ∨ c = .last)) := by
  cases c <;> first | (cases h; decide +kernel) | cases h

theorem checkStep_get (path : Name → Val) (make : ℚ → Name → Kw → Except Err Unit) (c : Cls) (name : Name) (met : Option ℚ) (rng : ℕ)
    (kw kw' : Kw) (h : checkStep path make c name met rng kw = .ok kw') :
    ∃ d z, defaults c = some d ∧ ((get d (chars! "metallicity")).isSome → metallicity kw met = .ok z) ∧
      ∀ k, get kw' k =
        if (chars! "RNG") = k ∧ (get d (chars! "RNG")).isSome then some (.rng rng)
        else if (chars! "track_matcher") = k ∧ (get d (chars! "track_matcher")).isSome then some (.matcher z name)
        else if (get d (chars! "track_matcher")).isSome ∧ isTaken k then none
        else if (chars! "grid_path") = k ∧ name ∈ gridSteps then some (path name)
        else if (chars! "metallicity") = k ∧ (get d (chars! "metallicity")).isSome then some (.num z)
        else get kw k := by
  unfold checkStep at h
  cases hd : defaults c with
  | none => rw [hd] at h; cases h
  | some d =>
    rw [hd] at h
    dsimp only at h
    -- the metallicity
    have hm : ∃ z kw1, (if (get d (chars! "metallicity")).isSome then (metallicity kw met).map (fun z => (z, put kw (chars! "metallicity") (.num z)))
        else .ok (met.getD 1, kw)) = Except.ok (ε := Err) (z, kw1) ∧ ((get d (chars! "metallicity")).isSome → metallicity kw met = .ok z) ∧
          ∀ k, get kw1 k = if (chars! "metallicity") = k ∧ (get d (chars! "metallicity")).isSome then some (.num z) else get kw k := by
      by_cases hz : (get d (chars! "metallicity")).isSome
      · rw [if_pos hz] at h ⊢
        cases hmet : metallicity kw met with
        | error e => rw [hmet] at h; cases h
        | ok z =>
          refine ⟨z, _, rfl, fun _ => rfl, fun k => ?_⟩
          rw [get_put]
          simp only [hz, and_true]
      · rw [if_neg hz]
        refine ⟨met.getD 1, kw, rfl, fun h' => absurd h' hz, fun k => ?_⟩
        rw [if_neg (fun h' => hz h'.2)]
    obtain ⟨z, kw1, e1, e2, e3⟩ := hm
    rw [e1] at h
    dsimp only at h
    refine ⟨d, z, rfl, e2, ?_⟩
    generalize hkw2 : (if name ∈ gridSteps then put kw1 (chars! "grid_path") (path name) else kw1) = kw2 at h
    have e4 : ∀ k, get kw2 k = if (chars! "grid_path") = k ∧ name ∈ gridSteps then some (path name) else get kw1 k := by
      intro k
      rw [← hkw2]
      by_cases hg : name ∈ gridSteps
      · rw [if_pos hg, get_put]
        simp only [hg, and_true]
      · rw [if_neg hg, if_neg (fun h' => hg h'.2)]
    have hout : ∀ kw3 k, get (if (get d (chars! "RNG")).isSome then put kw3 (chars! "RNG") (.rng rng) else kw3) k =
        if (chars! "RNG") = k ∧ (get d (chars! "RNG")).isSome then some (.rng rng) else get kw3 k := by
      intro kw3 k
      by_cases hr : (get d (chars! "RNG")).isSome
      · rw [if_pos hr, get_put]
        simp only [hr, and_true]
      · rw [if_neg hr, if_neg (fun h' => hr h'.2)]
    by_cases ht : (get d (chars! "track_matcher")).isSome
    · rw [if_pos ht] at h
      cases hmk : make z name kw2 with
      | error e => rw [hmk] at h; cases h
      | ok u =>
        rw [hmk] at h
        injection h with h
        subst h
        intro k
        dsimp only
        rw [hout, get_put]
        by_cases hR : (chars! "RNG") = k ∧ (get d (chars! "RNG")).isSome
        · rw [if_pos hR, if_pos hR]
        rw [if_neg hR, if_neg hR]
        by_cases hT : (chars! "track_matcher") = k
        · rw [if_pos hT, if_pos ⟨hT, ht⟩]
        rw [if_neg hT, if_neg (fun h' => hT h'.1)]
        by_cases hk : isTaken k
        · rw [if_pos ⟨ht, hk⟩]
          cases hg : get (kw2.filter fun p => !isTaken p.1) k with
          | none => rfl
          | some v =>
            have := (List.mem_filter.mp (get_mem _ _ _ hg)).2
            dsimp only at this
            rw [hk] at this
            cases this
        · rw [if_neg (fun h' => hk h'.2)]
          have : get (kw2.filter fun p => !isTaken p.1) k = get kw2 k := get_filter kw2 (fun k => !isTaken k) k (by simp [hk])
          rw [this, e4, e3]
    · rw [if_neg ht] at h
      injection h with h
      subst h
      intro k
      rw [hout, if_neg (fun h' : _ ∧ _ => ht h'.2), if_neg (fun h' : _ ∧ _ => ht h'.1), e4, e3]

/-- A loaded step has the options of its section, the metallicity, the matcher, the generator and the grid that belong to it. -/
theorem C128_loaded (E : Env) (path : Name → Val) (make : ℚ → Name → Kw → Except Err Unit) (c : Cls) (hc : c ≠ .sn) (name : Name)
    (met : Option ℚ) (rng : ℕ) (kw : Kw) (o : Obj) (h : load E path make c name met rng kw = .ok (o, false)) :
    ∃ d, defaults c = some d ∧
      (∀ k, k ≠ (chars! "metallicity") → k ≠ (chars! "grid_path") → k ≠ (chars! "track_matcher") → k ≠ (chars! "RNG") → isTaken k = false →
        get o.attrs k = wanted c kw k) ∧
      ((get d (chars! "metallicity")).isSome → ∃ z, metallicity kw met = .ok z ∧ get o.attrs (chars! "metallicity") = some (.num z) ∧
        ((get d (chars! "track_matcher")).isSome → get o.attrs (chars! "track_matcher") = some (.matcher z name))) ∧
      ((get d (chars! "RNG")).isSome → get o.attrs (chars! "RNG") = some (.rng rng)) ∧
      ((get d (chars! "grid_path")).isSome → name ∈ gridSteps → get o.attrs (chars! "grid_path") = some (path name)) := by
  unfold load at h
  cases hk : checkStep path make c name met rng kw with
  | error e => rw [hk] at h; cases h
  | ok kw' =>
    rw [hk] at h
    dsimp only at h
    obtain ⟨d, z, hd, hz, hg⟩ := checkStep_get path make c name met rng kw kw' hk
    cases hcon : construct E c [] kw' with
    | error e =>
      rw [hcon] at h
      cases e with
      | value => cases h
      | «attribute» => cases h
      | type =>
        dsimp only at h
        cases h2 : construct E c [] [] with
        | error e => rw [h2] at h; cases h
        | ok o' => rw [h2] at h; cases h
    | ok o' =>
      rw [hcon] at h
      cases h
      have hv := C128_values E c hc kw' o hcon
      have hin : ∀ k, (get d k).isSome → (get (known c) k).isSome := by
        intro k hk
        cases c <;> first | (cases hd; exact hk) | (cases hd; unfold known; dsimp only; rw [get_append]; cases get mergedExtra k <;> simp [hk]) | cases hd
      have hset : ∀ k v, (get d k).isSome → get kw' k = some v → get o.attrs k = some v := by
        intro k v hk hkv
        rw [hv k]
        obtain ⟨w, hw⟩ := Option.isSome_iff_exists.mp (hin k hk)
        unfold wanted
        rw [hw, hkv]
        rfl
      refine ⟨d, hd, ?_, ?_, ?_, ?_⟩
      · intro k h1 h2 h3 h4 h5
        rw [hv k]
        unfold wanted
        rw [hg k, if_neg (fun h' => h4 h'.1.symm), if_neg (fun h' => h3 h'.1.symm), if_neg (by rw [h5]; simp), if_neg (fun h' => h2 h'.1.symm),
          if_neg (fun h' => h1 h'.1.symm)]
      · intro hm
        refine ⟨z, hz hm, hset _ _ hm ?_, fun ht => hset _ _ ht ?_⟩
        · rw [hg, if_neg (by simp), if_neg (by simp), if_neg (by simp [isTaken]), if_neg (by simp), if_pos ⟨rfl, hm⟩]
        · rw [hg, if_neg (by simp), if_pos ⟨rfl, ht⟩]
      · intro hr
        exact hset _ _ hr (by rw [hg, if_pos ⟨rfl, hr⟩])
      · intro hp hn
        refine hset _ _ hp ?_
        rw [hg, if_neg (by simp), if_neg (by simp), if_neg (by simp [isTaken, matcherKeys]), if_pos ⟨rfl, hn⟩]

/-- An option that neither the step nor its matcher knows makes the loading fail. -/
theorem C128_load_refused (E : Env) (path : Name → Val) (make : ℚ → Name → Kw → Except Err Unit) (c : Cls) (hc : c ≠ .last) (hc' : c ≠ .null)
    (name : Name) (met : Option ℚ) (rng : ℕ) (kw : Kw) (p : Name × Val) (hp : p ∈ kw) (h : get (known c) p.1 = none)
    (ht : get (known c) (chars! "track_matcher") = none ∨ isTaken p.1 = false) :
    ∃ e, load E path make c name met rng kw = .error e := by
  unfold load
  cases hk : checkStep path make c name met rng kw with
  | error e => exact ⟨e, rfl⟩
  | ok kw' =>
    dsimp only
    obtain ⟨d, z, hd, hz, hg⟩ := checkStep_get path make c name met rng kw kw' hk
    have hin : (get kw p.1).isSome := (get_isSome _ _).mpr (List.mem_map.mpr ⟨p, hp, rfl⟩)
    have hdk : ∀ k, get (known c) k = none → get d k = none := by
      intro k hk
      cases c <;> first | (cases hd; exact hk) |
        (cases hd; unfold known at hk; dsimp only at hk; rw [get_append] at hk; exact (Option.or_eq_none_iff.mp hk).2) | cases hd
    have hsome : (get kw' p.1).isSome := by
      rw [hg]
      split
      · rfl
      split
      · rfl
      rw [if_neg]
      · split
        · rfl
        split
        · rfl
        exact hin
      · rintro ⟨h1, h2⟩
        rcases ht with ht | ht
        · rw [hdk _ ht] at h1; cases h1
        · rw [ht] at h2; cases h2
    obtain ⟨v, hv⟩ := Option.isSome_iff_exists.mp hsome
    rw [C128_refused E c hc hc' kw' (p.1, v) (get_mem _ _ _ hv) h]
    exact ⟨.value, rfl⟩

example (E : Env) (path : Name → Val) (make : ℚ → Name → Kw → Except Err Unit) :
    ∃ e, load E path make .hmsHms (chars! "step_HMS_HMS") (some 1) 3 [((chars! "matching_method"), .text (chars! "root"))] = .error e :=
  C128_load_refused E path make .hmsHms (by decide) (by decide) _ _ _ _ ((chars! "matching_method"), .text (chars! "root")) (by simp)
    (by decide +kernel) (.inl (by decide +kernel))

/-- A loaded supernova step has the generator it was loaded with. -/
theorem C128_loaded_generator (E : Env) (path : Name → Val) (make : ℚ → Name → Kw → Except Err Unit) (name : Name)
    (met : Option ℚ) (rng : ℕ) (kw : Kw) (o : Obj) (h : load E path make .sn name met rng kw = .ok (o, false)) :
    get o.attrs (chars! "RNG") = some (.rng rng) := by
  unfold load at h
  cases hk : checkStep path make .sn name met rng kw with
  | error e => rw [hk] at h; cases h
  | ok kw' =>
    rw [hk] at h
    dsimp only at h
    obtain ⟨d, z, hd, hz, hg⟩ := checkStep_get path make .sn name met rng kw kw' hk
    cases hd
    cases hcon : construct E .sn [] kw' with
    | error e =>
      rw [hcon] at h
      cases e with
      | value => cases h
      | «attribute» => cases h
      | type =>
        dsimp only at h
        cases h2 : construct E .sn [] [] with
        | error e => rw [h2] at h; cases h
        | ok o' => rw [h2] at h; cases h
    | ok o' =>
      rw [hcon] at h
      cases h
      have hr : get kw' (chars! "RNG") = some (.rng rng) := by rw [hg, if_pos ⟨rfl, by decide +kernel⟩]
      have hw : wanted .sn kw' (chars! "RNG") = some (.rng rng) := by
        unfold wanted
        rw [hr]
        rfl
      have := (C128_supernova E kw' o hcon).2.2.1 _ hw
      rw [this, if_neg (by simp)]

/-! ### The default parameter file -/

theorem construct_ok (E : Env) (c : Cls) (kw : Kw) (h0 : c = .last ∨ c = .null → kw = []) (h : ∀ p ∈ kw, (get (known c) p.1).isSome)
    (hE : ∀ c a, E.mesaSetup c a = .ok ()) (hE' : ∀ a, E.snSetup a = .ok ())
    (ht : ∀ v, get kw (chars! "track_interpolation") = some v → v.truthy = false)
    (hm : (get (known c) (chars! "track_matcher")).isSome → ∃ z n, get kw (chars! "track_matcher") = some (.matcher z n)) :
    ∃ o, construct E c [] kw = .ok o := by
  have hdet : ∀ kw : Kw, (∀ p ∈ kw, (get detachedDefaults p.1).isSome) → (∃ z n, get kw (chars! "track_matcher") = some (.matcher z n)) →
      ∃ o, detached kw = .ok o := by
    intro kw h1 ⟨z, n, h2⟩
    have ho : options detachedDefaults kw = .ok (detachedDefaults.map fun p => (p.1, (get kw p.1).getD p.2)) := by
      rw [options_spec, if_pos h1]
    have h3 : attr (detachedDefaults.map fun p => (p.1, (get kw p.1).getD p.2)) (chars! "track_matcher") = .matcher z n := by
      unfold attr
      rw [options_get _ _ _ ho, h2]
      rfl
    unfold detached
    rw [ho]
    dsimp only
    rw [h3]
    split <;> exact ⟨_, rfl⟩
  have hmesa : ∀ c, (∀ p ∈ kw, (get mesaDefaults p.1).isSome) → ∃ o, mesa E c kw = .ok o := by
    intro c h1
    have ho : options mesaDefaults kw = .ok (mesaDefaults.map fun p => (p.1, (get kw p.1).getD p.2)) := by
      rw [options_spec, if_pos h1]
    have h3 : (attr (mesaDefaults.map fun p => (p.1, (get kw p.1).getD p.2)) (chars! "track_interpolation")).truthy = false := by
      unfold attr
      rw [options_get _ _ _ ho]
      cases hg : get kw (chars! "track_interpolation") with
      | none => rfl
      | some v => exact ht v hg
    unfold mesa
    rw [ho]
    dsimp only
    rw [if_neg (by rw [h3]; simp), hE]
    exact ⟨_, rfl⟩
  cases c with
  | last => rw [h0 (.inl rfl)]; exact ⟨_, rfl⟩
  | null => rw [h0 (.inr rfl)]; exact ⟨_, rfl⟩
  | merged =>
    have h1 : ∀ p ∈ kw.filter fun p => (get mergedExtra p.1).isNone, (get detachedDefaults p.1).isSome := by
      intro p hp
      obtain ⟨hp1, hp2⟩ := List.mem_filter.mp hp
      have := h p hp1
      unfold known at this
      dsimp only at this
      rw [get_append, Option.isNone_iff_eq_none.mp hp2] at this
      exact this
    have h2 : get (kw.filter fun p => (get mergedExtra p.1).isNone) (chars! "track_matcher") = get kw (chars! "track_matcher") :=
      get_filter kw (fun k => (get mergedExtra k).isNone) _ (by decide +kernel)
    obtain ⟨z, n, h3⟩ := hm (by decide +kernel)
    obtain ⟨o, ho⟩ := hdet _ h1 ⟨z, n, h2.trans h3⟩
    unfold construct mergedArgs
    dsimp only
    rw [if_neg (by simp), ho]
    exact ⟨_, rfl⟩
  | ce =>
    have h' : ∀ p ∈ kw, (get ceDefaults p.1).isSome := h
    have ho : options ceDefaults kw = .ok (ceDefaults.map fun p => (p.1, (get kw p.1).getD p.2)) := by
      rw [options_spec, if_pos h']
    unfold construct
    dsimp only
    rw [if_neg (by simp), ho]
    exact ⟨_, rfl⟩
  | sn =>
    have h' : ∀ p ∈ kw, (get snDefaults p.1).isSome := h
    have ho : options snDefaults kw = .ok (snDefaults.map fun p => (p.1, (get kw p.1).getD p.2)) := by
      rw [options_spec, if_pos h']
    unfold construct sn
    dsimp only
    rw [if_neg (by simp), ho]
    dsimp only
    rw [hE']
    exact ⟨_, rfl⟩
  | hmsHms | coHmsRlo | coHeMS | coHeMSRlo =>
    unfold construct
    dsimp only
    rw [if_neg (by simp)]
    exact hmesa _ h
  | detached | disrupted | single | dco =>
    unfold construct
    dsimp only
    rw [if_neg (by simp)]
    exact hdet kw h (hm (by decide +kernel))

/-- What the sections of the default file need of the tables. -/
theorem ini_table : ∀ s ∈ iniSections, (chars! "metallicity") ∉ s.2.2 ∧
    (∀ k ∈ s.2.2, (get (known s.2.1) k).isSome ∨ ((get (known s.2.1) (chars! "track_matcher")).isSome ∧ isTaken k)) ∧
    (s.1 ∈ gridSteps → (get (known s.2.1) (chars! "grid_path")).isSome) ∧ (s.2.1 = .last → s.2.2 = []) ∧
    (defaults s.2.1).isSome ∧ (chars! "track_matcher") ∉ s.2.2 := by decide +kernel

/-- Every option in the default parameter file, whatever its value, is one that its step or the matcher of its step takes. -/
theorem C128_default_file (E : Env) (path : Name → Val) (make : ℚ → Name → Kw → Except Err Unit) (hE : ∀ c a, E.mesaSetup c a = .ok ())
    (hE' : ∀ a, E.snSetup a = .ok ()) (hmk : ∀ z n k, make z n k = .ok ()) (name : Name) (c : Cls) (ks : List Name)
    (hs : (name, c, ks) ∈ iniSections) (met : Option ℚ) (rng : ℕ) (kw : Kw) (hkw : ∀ p ∈ kw, p.1 ∈ ks)
    (ht : ∀ v, get kw (chars! "track_interpolation") = some v → v.truthy = false) :
    ∃ o, load E path make c name met rng kw = .ok (o, false) := by
  obtain ⟨t1, t2, t3, t4, t5, t6⟩ := ini_table _ hs
  dsimp only at t1 t2 t3 t4 t5 t6
  have hno : ∀ k, k ∉ ks → get kw k = none := by
    intro k hk
    cases hg : get kw k with
    | none => rfl
    | some v => exact absurd (hkw _ (get_mem _ _ _ hg)) hk
  have hmet : metallicity kw met = .ok (met.getD 1) := by
    unfold metallicity
    rw [hno _ t1]
  obtain ⟨d, hd⟩ := Option.isSome_iff_exists.mp t5
  have hok : ∃ kw', checkStep path make c name met rng kw = .ok kw' := by
    unfold checkStep
    rw [hd, hmet]
    dsimp only
    by_cases hz : (get d (chars! "metallicity")).isSome
    · rw [if_pos hz]
      dsimp only [Except.map]
      rw [hmk]
      split <;> rename_i h
      · split at h <;> cases h
      · exact ⟨_, rfl⟩
    · rw [if_neg hz]
      dsimp only
      rw [hmk]
      split <;> rename_i h
      · split at h <;> cases h
      · exact ⟨_, rfl⟩
  obtain ⟨kw', hk⟩ := hok
  obtain ⟨d', z, hd', hz, hg⟩ := checkStep_get path make c name met rng kw kw' hk
  rw [hd] at hd'
  cases hd'
  have hdk : ∀ k, (get d k).isSome → (get (known c) k).isSome := by
    intro k hk
    cases c <;> first | (cases hd; exact hk) | (cases hd; unfold known; dsimp only; rw [get_append]; cases get mergedExtra k <;> simp [hk]) | cases hd
  have hkd : (get (known c) (chars! "track_matcher")).isSome → (get d (chars! "track_matcher")).isSome := by
    intro h
    cases c <;> first | (cases hd; exact h) | cases hd
  have hall : ∀ p ∈ kw', (get (known c) p.1).isSome := by
    intro p hp
    have hin : (get kw' p.1).isSome := (get_isSome _ _).mpr (List.mem_map.mpr ⟨p, hp, rfl⟩)
    rw [hg] at hin
    split at hin
    · rename_i h'
      rw [← h'.1]; exact hdk _ h'.2
    split at hin
    · rename_i h'
      rw [← h'.1]; exact hdk _ h'.2
    split at hin
    · cases hin
    rename_i hnt
    split at hin
    · rename_i h'
      rw [← h'.1]; exact t3 h'.2
    split at hin
    · rename_i h'
      rw [← h'.1]; exact hdk _ h'.2
    obtain ⟨v, hv⟩ := Option.isSome_iff_exists.mp hin
    rcases t2 p.1 (hkw (p.1, v) (get_mem _ _ _ hv)) with h' | h'
    · exact h'
    · exact absurd ⟨hkd h'.1, h'.2⟩ hnt
  have hcon : ∃ o, construct E c [] kw' = .ok o := by
    refine construct_ok E c kw' ?_ hall hE hE' ?_ ?_
    · rintro (rfl | rfl)
      · cases hd
        have hks := t4 rfl
        have : ∀ k, get kw' k = none := by
          intro k
          cases hgk : get kw' k with
          | none => rfl
          | some v =>
            have := hall _ (get_mem _ _ _ hgk)
            cases this
        cases kw' with
        | nil => rfl
        | cons p l =>
          have := this p.1
          simp [get] at this
      · cases hd
    · intro v hv
      apply ht v
      rw [hg, if_neg (by simp), if_neg (by simp)] at hv
      split at hv
      · cases hv
      rw [if_neg (by simp), if_neg (by simp)] at hv
      exact hv
    · intro h
      refine ⟨z, name, ?_⟩
      rw [hg, if_neg (by simp), if_pos ⟨rfl, hkd h⟩]
  obtain ⟨o, ho⟩ := hcon
  refine ⟨o, ?_⟩
  unfold load
  rw [hk]
  dsimp only
  rw [ho]

example : ((chars! "step_detached"), Cls.detached, (iniSections.getD 4 ([], .null, [])).2.2) ∈ iniSections ∧
    (chars! "matching_tolerance") ∈ (iniSections.getD 4 ([], .null, [])).2.2 ∧ get (known .detached) (chars! "matching_tolerance") = none := by decide +kernel

/-! ### The published defaults -/

/-- The values that the documentation gives for options that are left out (names of files and generators aside). -/
def published : Cls → List (Name × Val)
  | .hmsHms | .coHmsRlo | .coHeMS | .coHeMSRlo => [
    ((chars! "interpolation_method"), .text (chars! "nearest_neighbour")), ((chars! "save_initial_conditions"), .bool true),
    ((chars! "track_interpolation"), .bool false), ((chars! "stop_method"), .text (chars! "stop_at_max_time")),
    ((chars! "stop_star"), .text (chars! "star_1")), ((chars! "stop_interpolate"), .bool true), ((chars! "verbose"), .bool false)]
  | .detached | .disrupted | .single | .dco => [
    ((chars! "do_wind_loss"), .bool true), ((chars! "do_tides"), .bool true), ((chars! "do_gravitational_radiation"), .bool true),
    ((chars! "do_magnetic_braking"), .bool true), ((chars! "magnetic_braking_mode"), .text (chars! "RVJ83")),
    ((chars! "do_stellar_evolution_and_spin_from_winds"), .bool true), ((chars! "RLO_orbit_at_orbit_with_same_am"), .bool false),
    ((chars! "verbose"), .bool false), ((chars! "dt"), .none), ((chars! "n_o_steps_history"), .none)]
  | .merged => [
    ((chars! "merger_critical_rot"), .num (2 / 5)), ((chars! "rel_mass_lost_HMS_HMS"), .num (1 / 10)),
    ((chars! "do_wind_loss"), .bool true), ((chars! "do_tides"), .bool true), ((chars! "do_magnetic_braking"), .bool true),
    ((chars! "magnetic_braking_mode"), .text (chars! "RVJ83")), ((chars! "do_gravitational_radiation"), .bool true)]
  | .ce => [
    ((chars! "prescription"), .text (chars! "alpha-lambda")), ((chars! "common_envelope_efficiency"), .num 1),
    ((chars! "common_envelope_lambda_default"), .num (1 / 2)),
    ((chars! "common_envelope_option_for_lambda"), .text (chars! "lambda_from_grid_final_values")),
    ((chars! "common_envelope_option_for_HG_star"), .text (chars! "optimistic")), ((chars! "common_envelope_alpha_thermal"), .num 1),
    ((chars! "core_definition_H_fraction"), .num (3 / 10)), ((chars! "core_definition_He_fraction"), .num (1 / 10)),
    ((chars! "CEE_tolerance_err"), .num (1 / 1000)),
    ((chars! "common_envelope_option_after_succ_CEE"), .text (chars! "two_phases_stableMT")),
    ((chars! "mass_loss_during_CEE_merged"), .bool false), ((chars! "verbose"), .bool false)]
  | .sn => [
    ((chars! "kick"), .bool true), ((chars! "kick_normalisation"), .text (chars! "one_over_mass")),
    ((chars! "kick_prescription"), .text (chars! "maxwellian")), ((chars! "sigma_kick_CCSN_NS"), .num 265),
    ((chars! "sigma_kick_CCSN_BH"), .num 265), ((chars! "sigma_kick_ECSN"), .num 20), ((chars! "mean_kick_CCSN_NS"), .none),
    ((chars! "mean_kick_CCSN_BH"), .none), ((chars! "mean_kick_ECSN"), .none), ((chars! "mechanism"), .text (chars! "Fryer+12-delayed")),
    ((chars! "engine"), .text []), ((chars! "PISN"), .text (chars! "Hendriks+23")), ((chars! "PISN_CO_shift"), .num 0),
    ((chars! "PPI_extra_mass_loss"), .num (-20)), ((chars! "ECSN"), .text (chars! "Tauris+15")),
    ((chars! "conserve_hydrogen_envelope"), .bool false), ((chars! "conserve_hydrogen_PPI"), .bool false),
    ((chars! "max_neutrino_mass_loss"), .num (1 / 2)), ((chars! "max_NS_mass"), .num (5 / 2)), ((chars! "use_interp_values"), .bool true),
    ((chars! "use_profiles"), .bool true), ((chars! "use_core_masses"), .bool true), ((chars! "allow_spin_None"), .bool false),
    ((chars! "approx_at_he_depletion"), .bool false), ((chars! "verbose"), .bool false)]
  | .last | .null => []

/-- C128.  A step without options has the published values. -/
theorem C128_published (E : Env) (c : Cls) (o : Obj) (h : construct E c [] [] = .ok o) : ∀ p ∈ published c, get o.attrs p.1 = some p.2 := by
  have mesaCase : ∀ c', mesa E c' [] = .ok o → o.attrs = mesaDefaults := by
    intro c' h
    unfold mesa options at h
    rw [if_pos rfl] at h
    dsimp only at h
    split_ifs at h
    cases hm : E.mesaSetup c' mesaDefaults with
    | error e => rw [hm] at h; cases h
    | ok u => rw [hm] at h; cases h; rfl
  have detCase : ∀ o', detached [] = .ok o' → o'.attrs = detachedDefaults := by
    intro o' h
    have e : detached [] = .ok { attrs := detachedDefaults, evo := evoKeys.map fun k => (k, attr detachedDefaults k) } := by decide +kernel
    rw [e] at h
    cases h
    rfl
  have hm : (published .hmsHms).all (fun p => decide (get mesaDefaults p.1 = some p.2)) = true := by decide +kernel
  have hd : (published .detached).all (fun p => decide (get detachedDefaults p.1 = some p.2)) = true := by decide +kernel
  have hg : (published .merged).all (fun p => decide (get (mergedExtra ++ detachedDefaults) p.1 = some p.2)) = true := by decide +kernel
  have hce : (published .ce).all (fun p => decide (get ceDefaults p.1 = some p.2)) = true := by decide +kernel
  have hs : (published .sn).all (fun p => decide (get snDefaults p.1 = some p.2)) = true := by decide +kernel
  simp only [List.all_eq_true, decide_eq_true_eq] at hm hd hg hce hs
  cases c
  case last => exact fun p hp => nomatch hp
  case null => exact fun p hp => nomatch hp
  case ce =>
    have e : o = { attrs := ceDefaults } := by
      have : construct E .ce [] [] = .ok { attrs := ceDefaults } := rfl
      rw [this] at h
      exact (Except.ok.inj h).symm
    rw [e]
    exact hce
  case sn =>
    have e : o.attrs = snDefaults := by
      change sn E [] = .ok o at h
      unfold sn options at h
      rw [if_pos rfl] at h
      dsimp only at h
      have e2 : snNeutrino (snKick (snRng E (!(List.isEmpty ([] : Kw))) snDefaults)) = snDefaults := by
        have e3 : snRng E (!(List.isEmpty ([] : Kw))) snDefaults = snDefaults := if_neg (fun h => by simp at h)
        rw [e3]
        decide +kernel
      rw [e2] at h
      cases hx : E.snSetup snDefaults with
      | error e => rw [hx] at h; cases h
      | ok u => rw [hx] at h; cases h; rfl
    rw [e]
    exact hs
  case merged =>
    have e : o.attrs = mergedExtra ++ detachedDefaults := by
      unfold construct at h
      dsimp only at h
      have e1 : mergedArgs [] [] = .ok (mergedExtra, [], []) := rfl
      rw [e1] at h
      dsimp only at h
      rw [if_neg (by simp)] at h
      cases hx : detached [] with
      | error e => rw [hx] at h; cases h
      | ok o' =>
        rw [hx] at h
        cases h
        dsimp only
        rw [detCase _ hx]
    rw [e]
    exact hg
  case hmsHms => rw [mesaCase _ h]; exact hm
  case coHmsRlo => rw [mesaCase _ h]; exact hm
  case coHeMS => rw [mesaCase _ h]; exact hm
  case coHeMSRlo => rw [mesaCase _ h]; exact hm
  all_goals (rw [detCase _ h]; exact hd)

/-- C128.  With one value by position the merger step takes the other as it would without. -/
theorem C128_merged_one (x : Val) (kw : Kw) (h : get kw (chars! "merger_critical_rot") = none) :
    mergedArgs [x] kw = (mergedArgs [] kw).map fun r => (put r.1 (chars! "merger_critical_rot") x, r.2) := by
  have e : (get kw (chars! "merger_critical_rot")).isSome = false := by rw [h]; rfl
  simp only [mergedArgs]
  rw [e, if_neg (by decide)]
  simp only [Except.map, mergedExtra, List.map_cons, List.map_nil, put, if_true]

end Verif.StepOptions
