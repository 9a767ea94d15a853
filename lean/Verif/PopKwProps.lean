import Verif.PopKw
/-! Property theorems of C171: the options saved with a population are those its initial values were drawn with. -/
namespace Verif.PopKw

/-! ### Helper lemmas -/

theorem lookup_find (l : List (String × Val)) (n : String) : l.lookup n = (l.find? (fun p => p.1 == n)).map (·.2) := by
  induction l with
  | nil => rfl
  | cons p l ih =>
    rw [List.lookup_cons, List.find?_cons]
    by_cases h : p.1 = n
    · rw [show (n == p.1) = true from beq_iff_eq.2 h.symm, show (p.1 == n) = true from beq_iff_eq.2 h]; rfl
    · rw [show (n == p.1) = false from beq_eq_false_iff_ne.2 (Ne.symm h), show (p.1 == n) = false from beq_eq_false_iff_ne.2 h]; exact ih

theorem merged_expected (u : Kw) (n : String) : merged u n = Expected u n := by
  unfold merged Expected ofList
  rw [lookup_find]
  cases u n <;> rfl

/-- The names that `__init__` writes or removes. -/
def handled : List String := ["metallicity", "comm", "JOB_ID", "RANK", "size", "RNG", "entropy"]

theorem population_inv {rng e : Val} {u k : Kw} (h : population rng e u = .ok k) :
    ∃ z0, chosen (merged u) = .ok z0 ∧ k "metallicity" = some ((merged u "metallicity").getD z0) ∧ (∀ n, n ∉ handled → k n = merged u n) ∧
      k "sampler" = none := by
  unfold population at h
  dsimp only at h
  cases hc : chosen (merged u) with
  | error x => rw [hc] at h; cases h
  | ok z0 =>
    rw [hc] at h
    dsimp only at h
    split at h
    · cases h
    split at h
    · cases h
    split at h
    · cases h
    split at h
    · cases h
    · rename_i _ _ _ hs
      refine ⟨z0, rfl, ?_, ?_, ?_⟩
      · cases h
        unfold taken; split <;> simp [set, del]
      · intro n hn
        cases h
        simp only [handled, List.mem_cons, List.not_mem_nil, or_false, not_or] at hn
        obtain ⟨h1, h2, h3, h4, h5, h6, h7⟩ := hn
        unfold taken; split <;> simp [set, del, h1, h2, h3, h4, h5, h6, h7]
      · cases h
        simpa using hs

theorem default_some : ∀ n ∈ saved, n ≠ "metallicity" → n ≠ "posydon_version" → (ofList defaultList n).isSome = true := by decide +kernel

theorem saved_unhandled : ∀ n ∈ saved, n ≠ "metallicity" → n ∉ handled := by decide +kernel

theorem merged_some (u : Kw) (n : String) (h : (ofList defaultList n).isSome = true) : (merged u n).isSome = true := by
  unfold merged
  cases u n with
  | some v => rfl
  | none => exact h

theorem bind_mem {sig : List (String × Val)} {k : Kw} {n : String} {v : Val} (h : (n, v) ∈ bind sig k) :
    n ∈ sig.map (·.1) ∧ ∀ w, k n = some w → v = w := by
  obtain ⟨p, hp, he⟩ := List.mem_map.1 h
  cases he
  exact ⟨List.mem_map.2 ⟨p, hp, rfl⟩, fun w hw => by rw [hw]; rfl⟩

/-- The names the calls for one binary depend on. -/
def reads : List String :=
  ["index", "primary_masses", "m1", "N_binaries", "binary_fraction_scheme", "binary_fraction_const", "star_formation", "max_simulation_time", "primary_mass_scheme",
   "primary_mass_min", "primary_mass_max", "secondary_mass_scheme", "secondary_mass_min", "secondary_mass_max", "orbital_scheme", "orbital_period_scheme",
   "orbital_period_min", "orbital_period_max", "orbital_separation_scheme", "orbital_separation_min", "orbital_separation_max", "eccentricity_scheme",
   "log_orbital_separation_mean", "log_orbital_separation_sigma", "n_M1", "n_logP", "n_q", "n_e", "burst_time", "min_time", "max_time", "custom_ages_file"]

theorem bind_congr (sig : List (String × Val)) (k k' : Kw) (h : ∀ p ∈ sig, k p.1 = k' p.1) : bind sig k = bind sig k' :=
  List.map_congr_left fun p hp => by rw [h p hp]

theorem draw_congr (g : Option Call) (k k' : Kw) (h : ∀ n ∈ reads, k n = k' n) : draw g k = draw g k' := by
  have hd : ∀ n ∈ reads, n ≠ "orbital_scheme" → del (set k "number_of_binaries" (.num 1)) "orbital_scheme" n = del (set k' "number_of_binaries" (.num 1)) "orbital_scheme" n := by
    intro n hn ho
    unfold del set
    rw [if_neg ho, if_neg ho, h n hn]
  have hs : ∀ sig : List (String × Val), (∀ p ∈ sig, p.1 ∈ reads ∧ p.1 ≠ "orbital_scheme") →
      bind sig (del (set k "number_of_binaries" (.num 1)) "orbital_scheme") = bind sig (del (set k' "number_of_binaries" (.num 1)) "orbital_scheme") :=
    fun sig hp => bind_congr sig _ _ fun p hm => hd p.1 (hp p hm).1 (hp p hm).2
  have ho : (set k "number_of_binaries" (.num 1)) "orbital_scheme" = (set k' "number_of_binaries" (.num 1)) "orbital_scheme" := by
    unfold set
    rw [if_neg (by decide), if_neg (by decide), h _ (by decide +kernel)]
  unfold draw
  dsimp only
  rw [h "index" (by decide +kernel), ho]
  generalize hk : del (set k "number_of_binaries" (.num 1)) "orbital_scheme" = a at hd hs
  generalize hk' : del (set k' "number_of_binaries" (.num 1)) "orbital_scheme" = b at hd hs
  have hsam : ∀ orb, samples g orb a = samples g orb b := by
    intro orb
    unfold samples useMoe
    rw [hs sigPrimary (by decide +kernel), hs sigMoe (by decide +kernel), hs sigMoeCall (by decide +kernel), hs sigSecondary (by decide +kernel),
      hs sigSeparation (by decide +kernel), hs sigPeriod (by decide +kernel), hs sigEccentricity (by decide +kernel), hs sigFraction (by decide +kernel),
      hd "secondary_mass_scheme" (by decide +kernel) (by decide), hd "orbital_period_scheme" (by decide +kernel) (by decide),
      hd "eccentricity_scheme" (by decide +kernel) (by decide), hd "primary_masses" (by decide +kernel) (by decide), hd "m1" (by decide +kernel) (by decide)]
  have ht : times a = times b := by
    unfold times
    rw [hs _ (by decide +kernel), hd "N_binaries" (by decide +kernel) (by decide), hd "max_time" (by decide +kernel) (by decide),
      hd "max_simulation_time" (by decide +kernel) (by decide)]
  rw [hsam, ht]

/-! ### C171 -/

/-- The options of a population are those the user gave, otherwise the documented defaults, for every name except the seven that the constructor handles. -/
theorem C171_options (rng e : Val) (u k : Kw) (h : population rng e u = .ok k) (n : String) (hn : n ∉ handled) : k n = Expected u n := by
  obtain ⟨_, _, _, h3, _⟩ := population_inv h
  rw [h3 n hn, merged_expected]

/-- The metallicity of a population is the one given, otherwise the chosen one of the list. -/
theorem C171_metallicity (rng e : Val) (u k : Kw) (h : population rng e u = .ok k) :
    (∀ z, u "metallicity" = some z → k "metallicity" = some z) ∧
    (u "metallicity" = none → ∃ z, chosen (merged u) = .ok z ∧ k "metallicity" = some z) := by
  obtain ⟨z0, h1, h2, _, _⟩ := population_inv h
  have hd : ofList defaultList "metallicity" = none := by decide +kernel
  constructor
  · intro z hz
    rw [h2]; unfold merged; rw [hz]; rfl
  · intro hz
    refine ⟨z0, h1, ?_⟩
    rw [h2]; unfold merged; rw [hz, hd]; rfl

theorem mapM_row (v : Val) (k : Kw) (l : List String) (h : ∀ n ∈ l, n ≠ "posydon_version" → (k n).isSome = true) :
    ∃ r, (l.mapM fun c => if c = "posydon_version" then some (c, v) else (k c).map fun x => (c, x)) = some r ∧
      r.map (·.1) = l ∧ ∀ n x, (n, x) ∈ r → n ∈ l ∧ (n ≠ "posydon_version" → k n = some x) ∧ (n = "posydon_version" → x = v) := by
  induction l with
  | nil => exact ⟨[], rfl, rfl, fun n x hm => by cases hm⟩
  | cons c l ih =>
    obtain ⟨r, h1, h2, h3⟩ := ih fun n hn => h n (List.mem_cons_of_mem _ hn)
    by_cases hc : c = "posydon_version"
    · refine ⟨(c, v) :: r, ?_, ?_, ?_⟩
      · rw [List.mapM_cons, h1, if_pos hc]; rfl
      · rw [List.map_cons, h2]
      · intro n x hm
        rcases List.mem_cons.1 hm with hm | hm
        · cases hm; exact ⟨List.mem_cons_self, fun hx => absurd hc hx, fun _ => rfl⟩
        · exact ⟨List.mem_cons_of_mem _ (h3 n x hm).1, (h3 n x hm).2⟩
    · have hs := h c List.mem_cons_self hc
      obtain ⟨y, hy⟩ := Option.isSome_iff_exists.1 hs
      refine ⟨(c, y) :: r, ?_, ?_, ?_⟩
      · rw [List.mapM_cons, h1, if_neg hc, hy]; rfl
      · rw [List.map_cons, h2]
      · intro n x hm
        rcases List.mem_cons.1 hm with hm | hm
        · cases hm; exact ⟨List.mem_cons_self, fun _ => hy, fun hx => absurd hx hc⟩
        · exact ⟨List.mem_cons_of_mem _ (h3 n x hm).1, (h3 n x hm).2⟩

theorem saved_some {rng e : Val} {u k : Kw} (h : population rng e u = .ok k) (n : String) (hn : n ∈ saved) (hv : n ≠ "posydon_version") :
    (k n).isSome = true := by
  obtain ⟨z0, _, h2, h3, _⟩ := population_inv h
  by_cases hm : n = "metallicity"
  · rw [hm, h2]; rfl
  · rw [h3 n (saved_unhandled n hn hm)]
    exact merged_some u n (default_some n hn hm hv)

/-- Writing the results never fails for a missing option, whatever the user gave or left out: the row of parameters has each name of the list once, in order, with the
value the population has. -/
theorem C171_row (rng e v : Val) (u k : Kw) (h : population rng e u = .ok k) :
    ∃ r, row v k = some r ∧ r.map (·.1) = saved ∧ (∀ n x, Has r n x → n ≠ "posydon_version" → k n = some x) ∧ Has r "posydon_version" v := by
  obtain ⟨r, h1, h2, h3⟩ := mapM_row v k saved (fun n hn hv => saved_some h n hn hv)
  refine ⟨r, h1, h2, fun n x hm => (h3 n x hm).2.1, ?_⟩
  have hm : "posydon_version" ∈ r.map (·.1) := by rw [h2]; decide +kernel
  obtain ⟨⟨n, x⟩, hp, hn⟩ := List.mem_map.1 hm
  dsimp only at hn
  have := (h3 n x hp).2.2 hn
  rw [this, hn] at hp
  exact hp

/-- A population that was built makes the same calls after `evolve`, whatever options `evolve` was given: they do not reach the samplers. -/
theorem C171_evolve (g : Option Call) (p : Kw → Kw → String → Val) (k o : Kw) : draw g (evolve p k o) = draw g k := by
  refine draw_congr g _ _ fun n hn => ?_
  unfold evolve
  simp only [List.foldl, set]
  have : ∀ n ∈ reads, n ≠ "indices" ∧ n ≠ "tqdm" ∧ n ≠ "breakdown_to_df" ∧ n ≠ "optimize_ram" ∧ n ≠ "from_hdf" ∧ n ≠ "temp_directory" := by decide +kernel
  obtain ⟨h1, h2, h3, h4, h5, h6⟩ := this n hn
  simp [h1, h2, h3, h4, h5, h6]

theorem args_known {g : Option Call} {k : Kw} {l : List Call} {g' : Option Call} (h : draw g k = .ok (l, g')) (hg : ∀ c, g = some c → c.args = bind sigMoe k)
    {n : String} {v : Val} (hm : (n, v) ∈ argsOf l) :
    (n ∈ saved ∧ n ≠ "metallicity" ∧ n ≠ "number_of_binaries" ∧ n ≠ "posydon_version" ∧ ∀ w, k n = some w → v = w) ∨
    (n ∈ unsaved ∧ (n = "max_time" ∨ ∀ w, k n = some w → v = w)) := by
  have hold : ∀ m, m ≠ "orbital_scheme" → m ≠ "number_of_binaries" → del (set k "number_of_binaries" (.num 1)) "orbital_scheme" m = k m := by
    intro m h1 h2
    unfold del set
    rw [if_neg h1, if_neg h2]
  have hsig : ∀ sig : List (String × Val), (∀ m ∈ sig.map (·.1), m ∈ saved ∧ m ≠ "metallicity" ∧ m ≠ "number_of_binaries" ∧ m ≠ "posydon_version" ∧ m ≠ "orbital_scheme"
      ∨ m ∈ unsaved ∧ m ≠ "orbital_scheme" ∧ m ≠ "number_of_binaries") →
      (n, v) ∈ bind sig (del (set k "number_of_binaries" (.num 1)) "orbital_scheme") →
      (n ∈ saved ∧ n ≠ "metallicity" ∧ n ≠ "number_of_binaries" ∧ n ≠ "posydon_version" ∧ ∀ w, k n = some w → v = w) ∨
      (n ∈ unsaved ∧ (n = "max_time" ∨ ∀ w, k n = some w → v = w)) := by
    intro sig hs hb
    obtain ⟨h1, h2⟩ := bind_mem hb
    rcases hs n h1 with ⟨a, b, c, d, f⟩ | ⟨a, b, c⟩
    · left; refine ⟨a, b, c, d, ?_⟩; rw [hold n f c] at h2; exact h2
    · right; refine ⟨a, Or.inr ?_⟩; rw [hold n b c] at h2; exact h2
  unfold draw at h
  dsimp only at h
  split at h
  · cases h
  have horb : (set k "number_of_binaries" (.num 1)) "orbital_scheme" = k "orbital_scheme" := by
    unfold set; rw [if_neg (by decide)]
  rw [horb] at h
  have hmoe : bind sigMoe k = bind sigMoe (del (set k "number_of_binaries" (.num 1)) "orbital_scheme") :=
    bind_congr _ _ _ fun p hp => by
      have : ∀ p ∈ sigMoe, p.1 ≠ "orbital_scheme" ∧ p.1 ≠ "number_of_binaries" := by decide +kernel
      exact (hold p.1 (this p hp).1 (this p hp).2).symm
  rw [hmoe] at hg
  have hecc : del (set k "number_of_binaries" (.num 1)) "orbital_scheme" "eccentricity_scheme" = k "eccentricity_scheme" := hold _ (by decide) (by decide)
  have hmt : del (set k "number_of_binaries" (.num 1)) "orbital_scheme" "max_time" = k "max_time" := hold _ (by decide) (by decide)
  generalize del (set k "number_of_binaries" (.num 1)) "orbital_scheme" = a at h hsig hg hecc hmt
  have hfirst := hsig sigPrimary (by decide +kernel)
  have hmc := hsig sigMoeCall (by decide +kernel)
  have hmo := hsig sigMoe (by decide +kernel)
  have hse := hsig sigSecondary (by decide +kernel)
  have hsp := hsig sigSeparation (by decide +kernel)
  have hpe := hsig sigPeriod (by decide +kernel)
  have hec := hsig sigEccentricity (by decide +kernel)
  have hfr := hsig sigFraction (by decide +kernel)
  have hti := hsig [("star_formation", .text "constant"), ("burst_time", .num 0), ("min_time", .num 0),
    ("custom_ages_file", .nothing), ("max_simulation_time", .num 13800000000)] (by decide +kernel)
  cases hs : samples g ((k "orbital_scheme").getD (.text "separation")) a with
  | error x => rw [hs] at h; cases h
  | ok r =>
    obtain ⟨ls, gs⟩ := r
    rw [hs] at h
    dsimp only at h
    cases ht : times a with
    | error x => rw [ht] at h; cases h
    | ok t =>
      rw [ht] at h
      dsimp only at h
      cases h
      obtain ⟨c, hc, hq⟩ := List.mem_flatMap.1 hm
      clear hm
      rcases List.mem_cons.1 hc with hc | hc
      · subst hc
        rcases List.mem_cons.1 hq with hq | hq
        · cases hq
          left
          exact ⟨by decide +kernel, by decide, by decide, by decide, fun w hw => by rw [hw]; rfl⟩
        · cases hq
      rcases List.mem_append.1 hc with hc | hc
      · unfold samples at hs
        dsimp only at hs
        split at hs
        · cases hs
          rcases List.mem_append.1 hc with hc | hc
          · rcases List.mem_cons.1 hc with hc | hc
            · subst hc; exact hfirst hq
            rcases List.mem_cons.1 hc with hc | hc
            · subst hc
              apply hmo
              cases g with
              | none => exact hq
              | some c => rw [← hg c rfl]; exact hq
            rcases List.mem_cons.1 hc with hc | hc
            · subst hc; exact hmc hq
            · cases hc
          · split at hc
            · rcases List.mem_cons.1 hc with hc | hc
              · subst hc
                rcases List.mem_cons.1 hq with hq | hq
                · cases hq
                  left
                  exact ⟨by decide +kernel, by decide, by decide, by decide, fun w hw => by rw [hecc, hw]; rfl⟩
                · cases hq
              · cases hc
            · cases hc
        split at hs
        · cases hs
        split at hs
        · split at hs
          · cases hs
          cases hs
          simp only [List.mem_cons, List.not_mem_nil, or_false] at hc
          rcases hc with hc | hc | hc | hc | hc <;> subst hc
          exacts [hfirst hq, hse hq, hsp hq, hec hq, hfr hq]
        split at hs
        · split at hs
          · cases hs
          cases hs
          simp only [List.mem_cons, List.not_mem_nil, or_false] at hc
          rcases hc with hc | hc | hc | hc | hc <;> subst hc
          exacts [hfirst hq, hse hq, hpe hq, hec hq, hfr hq]
        · cases hs
      · rcases List.mem_cons.1 hc with hc | hc
        · subst hc
          unfold times at ht
          split at ht
          · cases ht
          cases ht
          rcases List.mem_append.1 hq with hq | hq
          · exact hti hq
          · rcases List.mem_cons.1 hq with hq | hq
            · cases hq
              right
              exact ⟨by decide +kernel, Or.inl rfl⟩
            · cases hq
        · cases hc

/-- Every value a sampler works with is, for an option in the file of results, the value in that file: the own defaults of the samplers, which differ, are never used.
(`hg`: the generator of Moe & Di Stefano, kept from earlier calls, has been made with these options; the next theorem shows the need.) -/
theorem C171_drawn_partial (rng e v : Val) (u k : Kw) (h : population rng e u = .ok k) (g g' : Option Call) (hg : ∀ c, g = some c → c.args = bind sigMoe k)
    (l : List Call) (hd : draw g k = .ok (l, g')) (r : List (String × Val)) (hr : row v k = some r) (n : String) (x : Val) (hx : (n, x) ∈ argsOf l)
    (hn : n ∉ unsaved) : Has r n x ∧ some x = Expected u n := by
  rcases args_known hd hg hx with ⟨h1, h2, h3, h4, h5⟩ | ⟨h1, _⟩
  · have hs := saved_some h n h1 h4
    obtain ⟨y, hy⟩ := Option.isSome_iff_exists.1 hs
    have hxy := h5 y hy
    subst hxy
    obtain ⟨r', e1, e2, e3, _⟩ := C171_row rng e v u k h
    rw [hr] at e1
    cases e1
    have hm : n ∈ r.map (·.1) := by rw [e2]; exact h1
    obtain ⟨⟨m, z⟩, hp, hmn⟩ := List.mem_map.1 hm
    dsimp only at hmn
    subst hmn
    have := e3 m z hp h4
    rw [hy] at this
    cases this
    refine ⟨hp, ?_⟩
    rw [← C171_options rng e u k h m (saved_unhandled m h1 h2), hy]
  · exact absurd h1 hn

/-- The options that reach the samplers are those in the file of results and ten others. -/
theorem C171_names (k : Kw) (g g' : Option Call) (hg : ∀ c, g = some c → c.args = bind sigMoe k) (l : List Call) (hd : draw g k = .ok (l, g'))
    (n : String) (x : Val) (hx : (n, x) ∈ argsOf l) : n ∈ saved ∨ n ∈ unsaved := by
  rcases args_known hd hg hx with ⟨h1, _⟩ | ⟨h1, _⟩
  · exact Or.inl h1
  · exact Or.inr h1

/-- The row of parameters as options. -/
def again (k : Kw) : Kw := fun n => if n ∈ saved then k n else none

/-- A population made from the saved options alone draws with the same arguments, if the user gave none of the ten options that are not saved (nor a name that clashes with
a positional argument). -/
theorem C171_again_partial (rng e rng' e' : Val) (u k : Kw) (h : population rng e u = .ok k)
    (hu : ∀ n ∈ unsaved ++ ["index", "primary_masses", "m1", "N_binaries"], u n = none) :
    ∃ k', population rng' e' (again k) = .ok k' ∧ (∀ g, draw g k' = draw g k) ∧ k' "metallicity" = k "metallicity" := by
  have hm : ∀ n, n ∉ saved → merged (again k) n = ofList defaultList n := by
    intro n hn
    unfold merged again
    rw [if_neg hn]; rfl
  have hms : ∀ n, n ∈ saved → (k n).isSome = true → merged (again k) n = k n := by
    intro n hn hs
    unfold merged again
    rw [if_pos hn]
    obtain ⟨y, hy⟩ := Option.isSome_iff_exists.1 hs
    rw [hy]; rfl
  have hc : chosen (merged (again k)) = .ok (.num 1) := by
    unfold chosen
    rw [hm "metallicities" (by decide +kernel), hm "metallicity_index" (by decide +kernel)]
    rfl
  have hz : merged (again k) "metallicity" = k "metallicity" := hms _ (by decide +kernel) (saved_some h _ (by decide +kernel) (by decide))
  have g1 : given (set (merged (again k)) "metallicity" (((merged (again k)) "metallicity").getD (.num 1))) "comm" = false := by
    unfold given set; rw [if_neg (by decide), hm "comm" (by decide +kernel)]; rfl
  have g2 : given (set (merged (again k)) "metallicity" (((merged (again k)) "metallicity").getD (.num 1))) "JOB_ID" = false := by
    unfold given set; rw [if_neg (by decide), hm "JOB_ID" (by decide +kernel)]; rfl
  have hex : ∃ k', population rng' e' (again k) = .ok k' := by
    cases hp : population rng' e' (again k) with
    | ok k' => exact ⟨k', rfl⟩
    | error x =>
      exfalso
      unfold population at hp
      dsimp only at hp
      rw [hc] at hp
      dsimp only at hp
      rw [g1, g2, if_neg (by simp), if_neg (by simp), if_neg (by simp)] at hp
      have hsm : merged (again k) "sampler" = none := by rw [hm "sampler" (by decide +kernel)]; decide +kernel
      rw [if_neg (by simp [taken, set, del, hsm])] at hp
      cases hp
  obtain ⟨k', hk'⟩ := hex
  obtain ⟨z0, p1, p2, p3, _⟩ := population_inv hk'
  obtain ⟨_, _, _, q3, _⟩ := population_inv h
  refine ⟨k', hk', fun g => draw_congr g _ _ fun n hn => ?_, ?_⟩
  · have hr : ∀ n ∈ reads, (n ∈ saved ∧ n ≠ "metallicity" ∧ n ≠ "posydon_version") ∨
        (n ∈ unsaved ++ ["index", "primary_masses", "m1", "N_binaries"] ∧ n ∉ saved ∧ n ∉ handled ∧ ofList defaultList n = none) := by decide +kernel
    rcases hr n hn with ⟨a, b, c⟩ | ⟨a, b, c, d⟩
    · rw [p3 n (saved_unhandled n a b), hms n a (saved_some h n a c)]
    · rw [p3 n c, q3 n c, hm n b]
      unfold merged
      rw [hu n a]; rfl
  · rw [p2, hz]
    have := saved_some h "metallicity" (by decide +kernel) (by decide)
    obtain ⟨y, hy⟩ := Option.isSome_iff_exists.1 this
    rw [hy]; rfl

/-- The default options `log_orbital_seperation_mean` and `log_orbital_seperation_sigma` are misspelt: whatever a user writes there, no sampler sees it. -/
theorem C171_misspelt_violated (g : Option Call) (k : Kw) (v : Val) :
    (("log_orbital_seperation_mean", Val.nothing) ∈ defaultList ∧ ("log_orbital_seperation_sigma", Val.nothing) ∈ defaultList) ∧
    draw g (set k "log_orbital_seperation_mean" v) = draw g k ∧ draw g (set k "log_orbital_seperation_sigma" v) = draw g k := by
  refine ⟨by decide +kernel, draw_congr g _ _ fun n hn => ?_, draw_congr g _ _ fun n hn => ?_⟩
  · have : ∀ n ∈ reads, n ≠ "log_orbital_seperation_mean" := by decide +kernel
    exact if_neg (this n hn)
  · have : ∀ n ∈ reads, n ≠ "log_orbital_seperation_sigma" := by decide +kernel
    exact if_neg (this n hn)

/-- The options of a population with lognormal separations. -/
def logNormal (mean : ℚ) : Kw :=
  ofList [("orbital_scheme", .text "separation"), ("orbital_separation_scheme", .text "log_normal"), ("log_orbital_separation_mean", .num mean),
    ("log_orbital_separation_sigma", .num 1)]

/-- The saved options do not always tell the distribution: two populations with lognormal separations of different means leave the same row. -/
theorem C171_lognormal_violated :
    ∃ k k' : Kw, population (.obj 0) (.num 7) (logNormal 1) = .ok k ∧ population (.obj 0) (.num 7) (logNormal 3) = .ok k' ∧
      row (.text "v") k = row (.text "v") k' ∧
      (∃ l, draw none k = .ok (l, none) ∧ ("log_orbital_separation_mean", Val.num 1) ∈ argsOf l) ∧
      (∃ l, draw none k' = .ok (l, none) ∧ ("log_orbital_separation_mean", Val.num 3) ∈ argsOf l) := by
  refine ⟨_, _, rfl, rfl, by decide +kernel, ⟨_, rfl, by decide +kernel⟩, ⟨_, rfl, by decide +kernel⟩⟩

/-- The saved options do not tell that the initial values come from a file. -/
theorem C171_file_violated :
    ∃ k k' : Kw, population (.obj 0) (.num 7) (ofList [("read_samples_from_file", .text "s.csv")]) = .ok k ∧ population (.obj 0) (.num 7) (ofList []) = .ok k' ∧
      row (.text "v") k = row (.text "v") k' ∧ file k = some (.text "s.csv") ∧ file k' = none := by
  refine ⟨_, _, rfl, rfl, by decide +kernel, by decide +kernel, by decide +kernel⟩

/-- Joint sampling after Moe & Di Stefano with the given shortest period. -/
def moe (p : ℚ) : Kw := ofList [("orbital_period_scheme", .text "Moe+17-PsandQs"), ("orbital_period_min", .num p)]

/-- The generator of Moe & Di Stefano is made once: a second population of the same program draws with the limits of the first, its file names its own. -/
theorem C171_second_population_violated :
    ∃ (k k' : Kw) (l l' : List Call) (g : Option Call) (r : List (String × Val)),
      population (.obj 0) (.num 7) (moe 1) = .ok k ∧ population (.obj 1) (.num 8) (moe 10) = .ok k' ∧
      draw none k = .ok (l, g) ∧ draw g k' = .ok (l', g) ∧ row (.text "v") k' = some r ∧
      Has r "orbital_period_min" (.num 10) ∧ ("orbital_period_min", Val.num 1) ∈ argsOf l' ∧ ("orbital_period_min", Val.num 10) ∉ argsOf l' := by
  refine ⟨_, _, _, _, _, _, rfl, rfl, rfl, rfl, rfl, ?_, by decide +kernel, by decide +kernel⟩
  unfold Has
  decide +kernel

/-- The samplers called without a population use other values than a population does: the two sets of defaults differ. -/
theorem C171_defaults_violated :
    ∃ (k : Kw) (l l' : List Call), population (.obj 0) (.num 7) (ofList []) = .ok k ∧ draw none k = .ok (l, none) ∧
      samples none (.text "period") (ofList []) = .ok (l', none) ∧
      ("eccentricity_scheme", Val.text "zero") ∈ argsOf l ∧ ("eccentricity_scheme", Val.text "thermal") ∈ argsOf l' ∧
      ("primary_mass_scheme", Val.text "Kroupa2001") ∈ argsOf l ∧ ("primary_mass_scheme", Val.text "Salpeter") ∈ argsOf l' ∧
      ("orbital_period_min", Val.num (3 / 4)) ∈ argsOf l ∧ ("orbital_period_min", Val.num (7 / 20)) ∈ argsOf l' := by
  refine ⟨_, _, _, rfl, rfl, rfl, by decide +kernel, by decide +kernel, by decide +kernel, by decide +kernel, by decide +kernel, by decide +kernel⟩

/-- A metallicity given by itself does not help if the index is outside the list: the list is indexed in any case. -/
theorem C171_index_violated : population (.obj 0) (.num 7) (ofList [("metallicity", .num (1 / 10)), ("metallicity_index", .num 2)]) = .error .index := rfl

/-- Which constructions fail: a metallicity outside the list is refused for parallel runs (unless a job array has an entropy), and both kinds of parallel runs together. -/
theorem C171_refused (rng e z : Val) (u : Kw) (hz : chosen (merged u) = .ok z) :
    ((∃ err, population rng e u = .error err) ↔
      ((given u "comm" = true ∧ given u "JOB_ID" = true) ∨ (given u "comm" = true ∧ given u "entropy" = false) ∨
       ((given u "comm" = true ∨ (given u "JOB_ID" = true ∧ given u "entropy" = false)) ∧ listed (merged u) ((u "metallicity").getD z) = false) ∨
       (u "sampler").isSome = true)) := by
  have hm : ∀ n, ofList defaultList n = none → merged u n = u n := by
    intro n hn; unfold merged; rw [hn]; cases u n <;> rfl
  have hmet : merged u "metallicity" = u "metallicity" := hm _ (by decide +kernel)
  have hgc : ∀ w, given (set (merged u) "metallicity" w) "comm" = given u "comm" := by
    intro w; unfold given set; rw [if_neg (by decide), hm "comm" (by decide +kernel)]
  have hgj : ∀ w, given (set (merged u) "metallicity" w) "JOB_ID" = given u "JOB_ID" := by
    intro w; unfold given set; rw [if_neg (by decide), hm "JOB_ID" (by decide +kernel)]
  have hge : ∀ w, given (set (merged u) "metallicity" w) "entropy" = given u "entropy" := by
    intro w; unfold given set; rw [if_neg (by decide)]; unfold merged
    rw [show ofList defaultList "entropy" = some .nothing by decide +kernel]
    cases u "entropy" <;> rfl
  have hl : ∀ w y, listed (del (del (set (merged u) "metallicity" w) "comm") "JOB_ID") y = listed (merged u) y := by
    intro w y; unfold listed del set
    rw [if_neg (by decide), if_neg (by decide), if_neg (by decide)]
  unfold population
  dsimp only
  rw [hz]
  dsimp only
  rw [hmet, hgc, hgj, hge, hl]
  have hs : ∀ (b : Bool) (k : Kw), k "sampler" = u "sampler" →
      (set (set (taken b k) "RNG" rng) "entropy" e) "sampler" = u "sampler" := by
    intro b k hk
    cases b <;> simp [taken, set, del, hk]
  have hk : del (del (set (merged u) "metallicity" ((u "metallicity").getD z)) "comm") "JOB_ID" "sampler" = u "sampler" := by
    unfold del set
    rw [if_neg (by decide), if_neg (by decide), if_neg (by decide), hm _ (by decide +kernel)]
  rw [hs (given u "JOB_ID") _ hk]
  generalize given u "comm" = a
  generalize given u "JOB_ID" = b
  generalize given u "entropy" = c
  generalize listed (merged u) ((u "metallicity").getD z) = d
  generalize (u "sampler").isSome = f
  cases a <;> cases b <;> cases c <;> cases d <;> cases f <;> simp

/-- And with which error: a ValueError for parallel runs, a TypeError for an option that clashes with the sampler. A metallicity outside the list is refused for parallel runs (unless a job array has an entropy), and both kinds of parallel runs together. -/
theorem C171_refused_kind (rng e z : Val) (u : Kw) (hz : chosen (merged u) = .ok z) :
    (population rng e u = .error .value ↔
      ((given u "comm" = true ∧ given u "JOB_ID" = true) ∨ (given u "comm" = true ∧ given u "entropy" = false) ∨
       ((given u "comm" = true ∨ (given u "JOB_ID" = true ∧ given u "entropy" = false)) ∧ listed (merged u) ((u "metallicity").getD z) = false))) ∧
    (population rng e u = .error .type ↔ (u "sampler").isSome = true ∧
      ¬ ((given u "comm" = true ∧ given u "JOB_ID" = true) ∨ (given u "comm" = true ∧ given u "entropy" = false) ∨
       ((given u "comm" = true ∨ (given u "JOB_ID" = true ∧ given u "entropy" = false)) ∧ listed (merged u) ((u "metallicity").getD z) = false))) := by
  have hm : ∀ n, ofList defaultList n = none → merged u n = u n := by
    intro n hn; unfold merged; rw [hn]; cases u n <;> rfl
  have hmet : merged u "metallicity" = u "metallicity" := hm _ (by decide +kernel)
  have hgc : ∀ w, given (set (merged u) "metallicity" w) "comm" = given u "comm" := by
    intro w; unfold given set; rw [if_neg (by decide), hm "comm" (by decide +kernel)]
  have hgj : ∀ w, given (set (merged u) "metallicity" w) "JOB_ID" = given u "JOB_ID" := by
    intro w; unfold given set; rw [if_neg (by decide), hm "JOB_ID" (by decide +kernel)]
  have hge : ∀ w, given (set (merged u) "metallicity" w) "entropy" = given u "entropy" := by
    intro w; unfold given set; rw [if_neg (by decide)]; unfold merged
    rw [show ofList defaultList "entropy" = some .nothing by decide +kernel]
    cases u "entropy" <;> rfl
  have hl : ∀ w y, listed (del (del (set (merged u) "metallicity" w) "comm") "JOB_ID") y = listed (merged u) y := by
    intro w y; unfold listed del set
    rw [if_neg (by decide), if_neg (by decide), if_neg (by decide)]
  unfold population
  dsimp only
  rw [hz]
  dsimp only
  rw [hmet, hgc, hgj, hge, hl]
  have hs : ∀ (b : Bool) (k : Kw), k "sampler" = u "sampler" →
      (set (set (taken b k) "RNG" rng) "entropy" e) "sampler" = u "sampler" := by
    intro b k hk
    cases b <;> simp [taken, set, del, hk]
  have hk : del (del (set (merged u) "metallicity" ((u "metallicity").getD z)) "comm") "JOB_ID" "sampler" = u "sampler" := by
    unfold del set
    rw [if_neg (by decide), if_neg (by decide), if_neg (by decide), hm _ (by decide +kernel)]
  rw [hs (given u "JOB_ID") _ hk]
  generalize given u "comm" = a
  generalize given u "JOB_ID" = b
  generalize given u "entropy" = c
  generalize listed (merged u) ((u "metallicity").getD z) = d
  generalize (u "sampler").isSome = f
  cases a <;> cases b <;> cases c <;> cases d <;> cases f <;> simp

/-- A population with some options of the user meets the hypotheses above. -/
example : ∃ k l, population (.obj 0) (.num 7) (ofList [("primary_mass_min", .num 20), ("metallicities", .nums [1, 1 / 10]), ("metallicity_index", .num (-1))]) = .ok k ∧
    k "metallicity" = some (.num (1 / 10)) ∧ draw none k = .ok (l, none) ∧ ("primary_mass_min", Val.num 20) ∈ argsOf l ∧ ("primary_mass_max", Val.num 120) ∈ argsOf l := by
  refine ⟨_, _, rfl, by decide +kernel, rfl, by decide +kernel, by decide +kernel⟩

/-- Which metallicity of the list is chosen: element `i`, counted from the end for negative `i`; an index outside the list is an IndexError, one that is no integer or a list
that is none a TypeError. -/
theorem C171_chosen (k : Kw) (l : List ℚ) (hl : k "metallicities" = some (.nums l)) (i : Int) (hi : (k "metallicity_index").getD (.num 0) = .num i) :
    (∀ j : ℕ, i = j → chosen k = (l[j]?).elim (.error .index) fun z => .ok (.num z)) ∧
    (∀ j : ℕ, i = -(j + 1 : ℕ) → chosen k = if j < l.length then (l[l.length - (j + 1)]?).elim (.error .index) fun z => .ok (.num z) else .error .index) := by
  unfold chosen
  rw [hl, hi]
  dsimp only
  rw [Rat.num_intCast, Rat.den_intCast, if_neg (by simp)]
  constructor
  · intro j hj
    subst hj
    rw [if_neg (by omega), if_neg (by omega), Int.toNat_natCast]
    cases l[j]? <;> rfl
  · intro j hj
    subst hj
    have hneg : (-((j + 1 : ℕ) : Int)) < 0 := by omega
    simp only [if_pos hneg]
    by_cases h : j < l.length
    · rw [if_neg (show ¬ (-((j + 1 : ℕ) : Int) + (l.length : Int) < 0) by omega), if_pos h, show (-((j + 1 : ℕ) : Int) + (l.length : Int)).toNat = l.length - (j + 1) by omega]
      cases l[l.length - (j + 1)]? <;> rfl
    · rw [if_pos (show (-((j + 1 : ℕ) : Int) + (l.length : Int) < 0) by omega), if_neg h]

/-- The refusals by type. -/
theorem C171_chosen_type (k : Kw) :
    ((∀ l, k "metallicities" ≠ some (.nums l)) → chosen k = .error .type) ∧
    ((∀ i : Int, (k "metallicity_index").getD (.num 0) ≠ .num i) → chosen k = .error .type) := by
  constructor
  · intro h
    unfold chosen
    split
    · rename_i l i h1 h2
      exact absurd h1 (h l)
    · rfl
  · intro h
    unfold chosen
    split
    · rename_i l i h1 h2
      have hd : i.den ≠ 1 := fun hd => h i.num (by rw [h2, Rat.coe_int_num_of_den_eq_one hd])
      dsimp only
      rw [if_pos hd]
    · rfl

/-- `None` counts as not given. -/
theorem C171_given (k : Kw) (n : String) : given k n = true ↔ ∃ v, k n = some v ∧ v ≠ .nothing := by
  unfold given
  split
  · rename_i h; rw [h]; simp
  · rename_i h; rw [h]; simp
  · rename_i v h1 h2
    rw [h2]
    simp only [Option.some.injEq, true_iff]
    exact ⟨v, rfl, h1⟩

/-- The values of the samplers called directly without options. -/
theorem C171_direct (k : Kw) (hk : ∀ n, k n = none) :
    (∃ l, samples none (.text "period") k = .ok (l, none) ∧ argsOf l =
      [("primary_mass_min", .num 7), ("primary_mass_max", .num 120), ("primary_mass_scheme", .text "Salpeter"), ("secondary_mass_min", .num (7 / 20)),
       ("secondary_mass_max", .num 120), ("secondary_mass_scheme", .text "flat_mass_ratio"), ("orbital_period_min", .num (7 / 20)), ("orbital_period_max", .obj 35),
       ("orbital_period_scheme", .text "Sana+12_period_extended"), ("eccentricity_scheme", .text "thermal"), ("binary_fraction_const", .num 1),
       ("binary_fraction_scheme", .text "const")]) ∧
    (∃ l, samples none (.text "separation") k = .ok (l, none) ∧ argsOf l =
      [("primary_mass_min", .num 7), ("primary_mass_max", .num 120), ("primary_mass_scheme", .text "Salpeter"), ("secondary_mass_min", .num (7 / 20)),
       ("secondary_mass_max", .num 120), ("secondary_mass_scheme", .text "flat_mass_ratio"), ("orbital_separation_min", .num 5),
       ("orbital_separation_max", .num 100000), ("log_orbital_separation_mean", .nothing), ("log_orbital_separation_sigma", .nothing),
       ("orbital_separation_scheme", .text "log_uniform"), ("eccentricity_scheme", .text "thermal"), ("binary_fraction_const", .num 1),
       ("binary_fraction_scheme", .text "const")]) ∧
    bind sigMoe k = [("n_M1", .num 101), ("n_logP", .num 158), ("n_q", .num 91), ("n_e", .num 200), ("orbital_period_min", .num (1412 / 1000)),
      ("orbital_period_max", .num 100000000)] ∧ bind sigMoeCall k = [("primary_mass_min", .num 7), ("primary_mass_max", .num 120)] ∧
    (∃ t, times k = .ok t ∧ t.args = [("star_formation", .text "constant"), ("burst_time", .num 0), ("min_time", .num 0), ("custom_ages_file", .nothing),
      ("max_simulation_time", .num 13800000000), ("max_time", .num 13800000000)]) := by
  have e : k = fun _ => none := funext hk
  subst e
  exact ⟨⟨_, rfl, rfl⟩, ⟨_, rfl, rfl⟩, rfl, rfl, ⟨_, rfl, rfl⟩⟩

/-- The documented values of a population without options of the user. -/
theorem C171_documented (rng e v : Val) :
    ∃ k r, population rng e (fun _ => none) = .ok k ∧ row v k = some r ∧ r =
      [("metallicity", .num 1), ("number_of_binaries", .num 100), ("binary_fraction_scheme", .text "const"), ("binary_fraction_const", .num 1),
       ("star_formation", .text "constant"), ("max_simulation_time", .num 13800000000), ("primary_mass_scheme", .text "Kroupa2001"), ("primary_mass_min", .num 7),
       ("primary_mass_max", .num 120), ("secondary_mass_scheme", .text "flat_mass_ratio"), ("secondary_mass_min", .num (7 / 20)), ("secondary_mass_max", .num 120),
       ("orbital_scheme", .text "period"), ("orbital_period_scheme", .text "Sana+12_period_extended"), ("orbital_period_min", .num (3 / 4)),
       ("orbital_period_max", .num 6000), ("orbital_separation_scheme", .text "log_uniform"), ("orbital_separation_min", .num 5),
       ("orbital_separation_max", .num 100000), ("eccentricity_scheme", .text "zero"), ("posydon_version", v)] := by
  exact ⟨_, _, rfl, rfl, rfl⟩

/-- When the joint distribution of Moe & Di Stefano is used: for the mass ratio, the eccentricity, or the period if periods are drawn. -/
theorem C171_joint (orb : Val) (k : Kw) : useMoe orb k = true ↔
    k "secondary_mass_scheme" = some (.text "Moe+17-PsandQs") ∨ (orb = .text "period" ∧ k "orbital_period_scheme" = some (.text "Moe+17-PsandQs")) ∨
    k "eccentricity_scheme" = some (.text "Moe+17-PsandQs") := by
  have h : ∀ o : Option Val, o.getD (.text "") = .text "Moe+17-PsandQs" ↔ o = some (.text "Moe+17-PsandQs") := by
    intro o
    cases o with
    | none => simp
    | some x => simp
  unfold useMoe
  simp only [Bool.or_eq_true, Bool.and_eq_true, decide_eq_true_eq, h, or_assoc]

/-- Other orbital schemes than period and separation are a ValueError, unless the joint distribution is used; names that clash with a positional argument are a TypeError. -/
theorem C171_scheme (g : Option Call) (orb : Val) (k : Kw) (hm : useMoe orb k = false) :
    (k "primary_masses" = none → orb ≠ .text "period" → orb ≠ .text "separation" → samples g orb k = .error .value) ∧
    (k "primary_masses" ≠ none → samples g orb k = .error .type) ∧
    (k "primary_masses" = none → orb = .text "period" ∨ orb = .text "separation" → k "m1" ≠ none → samples g orb k = .error .type) := by
  unfold samples
  dsimp only
  rw [hm]
  refine ⟨fun h1 h2 h3 => ?_, fun h1 => ?_, fun h1 h2 h3 => ?_⟩
  · rw [if_neg (by decide), h1, if_neg (by decide), if_neg h3, if_neg h2]
  · rw [if_neg (by decide), if_pos (Option.isSome_iff_ne_none.2 h1)]
  · have := Option.isSome_iff_ne_none.2 h3
    rw [if_neg (by decide), h1, if_neg (by decide)]
    rcases h2 with h2 | h2
    · rw [h2, if_neg (by decide), if_pos rfl, if_pos this]
    · rw [h2, if_pos rfl, if_pos this]

end Verif.PopKw
