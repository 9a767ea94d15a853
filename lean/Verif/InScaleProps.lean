import Verif.InScale

/-!
# C129: inputs and outputs of the interpolators
-/

namespace Verif.InScale

/-! ### Quantities -/

theorem mem_keys (final : List Column) (p : Column → Bool) (k : Name) : k ∈ (final.filter p).map Column.name ↔ ∃ c ∈ final, p c = true ∧ c.name = k := by
  simp only [List.mem_map, List.mem_filter, and_assoc]

theorem any_all (l : List Bool) : (l.any id = true ∧ l.all not = false) ∨ (l.any id = false ∧ l.all not = true) := by
  induction l with
  | nil => simp
  | cons b l ih => cases b <;> simp_all

theorem all_not_iff (l : List Bool) : l.all not = !l.any id := by
  rcases any_all l with ⟨h1, h2⟩ | ⟨h1, h2⟩ <;> simp [h1, h2]

/-- Every column of the final values has exactly one use: numbers are interpolated, missing ones stay missing, texts are classes; only the model
number is left out. -/
theorem C129_columns (runs : ℕ) (final : List Column) (hn : (final.map Column.name).Nodup) (K : Keys) (h : keys runs final [] = .ok K) (c : Column)
    (hc : c ∈ final) :
    (c.name ∈ K.cls ↔ c.text = true) ∧ (c.name ∈ K.nan ↔ c.text = false ∧ ∀ g ∈ c.given, g = false) ∧
      (c.name ∈ K.out ↔ c.text = false ∧ (∃ g ∈ c.given, g = true) ∧ c.name ≠ (chars! "model_number")) := by
  have huniq : ∀ c' ∈ final, c'.name = c.name → c' = c := by
    intro c' hc' he
    exact List.inj_on_of_nodup_map hn hc' hc he
  have key : ∀ p : Column → Bool, c.name ∈ (final.filter p).map Column.name ↔ p c = true := by
    intro p
    rw [mem_keys]
    constructor
    · rintro ⟨c', h1, h2, h3⟩
      rw [← huniq c' h1 h3]
      exact h2
    · exact fun hp => ⟨c, hc, hp, rfl⟩
  unfold keys at h
  split at h
  · cases h
  · simp only [snKeys, List.append_nil] at h
    cases h
    dsimp only
    rw [key, key, key]
    refine ⟨Iff.rfl, ?_, ?_⟩
    · simp [List.all_eq_true]
    · simp only [Bool.and_eq_true, decide_eq_true_eq, List.any_eq_true, id, Bool.not_eq_true', exists_eq_right]
      tauto

/-- The parts are disjoint. -/
theorem C129_disjoint (runs : ℕ) (final : List Column) (hn : (final.map Column.name).Nodup) (K : Keys) (h : keys runs final [] = .ok K) (k : Name) :
    ¬(k ∈ K.cls ∧ k ∈ K.nan) ∧ ¬(k ∈ K.cls ∧ k ∈ K.out) ∧ ¬(k ∈ K.nan ∧ k ∈ K.out) := by
  have hin : ∀ k, k ∈ K.cls ∨ k ∈ K.nan ∨ k ∈ K.out → ∃ c ∈ final, c.name = k := by
    intro k hk
    unfold keys at h
    split at h
    · cases h
    · simp only [snKeys, List.append_nil] at h
      cases h
      dsimp only at hk
      rw [mem_keys, mem_keys, mem_keys] at hk
      rcases hk with ⟨c, h1, _, h3⟩ | ⟨c, h1, _, h3⟩ | ⟨c, h1, _, h3⟩ <;> exact ⟨c, h1, h3⟩
  by_cases hex : ∃ c ∈ final, c.name = k
  · obtain ⟨c, hc, rfl⟩ := hex
    obtain ⟨h1, h2, h3⟩ := C129_columns runs final hn K h c hc
    rw [h1, h2, h3]
    refine ⟨?_, ?_, ?_⟩
    · rintro ⟨a, b, _⟩; rw [a] at b; cases b
    · rintro ⟨a, b, _⟩; rw [a] at b; cases b
    · rintro ⟨⟨_, a⟩, _, ⟨g, hg, e⟩, _⟩
      have := a g hg
      rw [e] at this
      cases this
  · have := fun hk => hex (hin k hk)
    tauto

example : keys 2 [⟨(chars! "star_1_mass"), false, [true, true]⟩, ⟨(chars! "S1_state"), true, [true, true]⟩, ⟨(chars! "spin"), false, [false, false]⟩,
    ⟨(chars! "model_number"), false, [true, true]⟩] [((chars! "M1"), [⟨(chars! "S1_mass"), false, [true, false]⟩, ⟨(chars! "S1_CO_type"), true, [true, true]⟩])] =
    .ok ⟨[(chars! "star_1_mass"), (chars! "S1_M1_mass")], [(chars! "spin")], [(chars! "S1_state"), (chars! "S1_M1_CO_type")]⟩ := rfl

theorem cut_spec (k p f : Name) : cut k = some (p, f) ↔ k = p ++ '_' :: f ∧ '_' ∉ p := by
  induction k generalizing p f with
  | nil => simp [cut]
  | cons a l ih =>
    by_cases ha : a = '_'
    · subst ha
      simp only [cut, if_true, Option.some.injEq, Prod.mk.injEq]
      constructor
      · rintro ⟨rfl, rfl⟩; simp
      · rintro ⟨h1, h2⟩
        cases p with
        | nil => simp at h1; exact ⟨rfl, h1⟩
        | cons b p => simp at h1 h2; exact absurd h1.1 h2.1
    · have ha' : ¬'_' = a := fun e => ha e.symm
      simp only [cut, if_neg ha, Option.map_eq_some_iff, Prod.mk.injEq, Prod.exists]
      constructor
      · rintro ⟨p', f', h, rfl, rfl⟩
        obtain ⟨rfl, h2⟩ := (ih p' f').mp h
        exact ⟨rfl, by simp [ha', h2]⟩
      · rintro ⟨h1, h2⟩
        cases p with
        | nil => simp at h1; exact absurd h1.1 ha
        | cons b p =>
          simp at h1 h2
          obtain ⟨rfl, h1⟩ := h1
          exact ⟨p, f, (ih p f).mpr ⟨h1, h2.2⟩, rfl, rfl⟩

theorem append_cancel (p p' : Name) (x y : Name) (hp : '_' ∉ p) (hp' : '_' ∉ p') (h : p ++ '_' :: x = p' ++ '_' :: y) : p = p' ∧ x = y := by
  have h1 := (cut_spec (p ++ '_' :: x) p x).mpr ⟨rfl, hp⟩
  rw [h, (cut_spec (p' ++ '_' :: y) p' y).mpr ⟨rfl, hp'⟩] at h1
  cases h1
  exact ⟨rfl, rfl⟩

/-- The full names of the quantities of a supernova model are different for different quantities. -/
theorem C129_names (model k k' : Name) (n : Name) (h : fullKey model k = .ok n) (h' : fullKey model k' = .ok n) : k = k' := by
  unfold fullKey at h h'
  cases hc : cut k with
  | none => rw [hc] at h; cases h
  | some p =>
    cases hc' : cut k' with
    | none => rw [hc'] at h'; cases h'
    | some p' =>
      rw [hc] at h; rw [hc'] at h'
      obtain ⟨a, b⟩ := p
      obtain ⟨a', b'⟩ := p'
      dsimp only at h h'
      obtain ⟨e1, g1⟩ := (cut_spec k a b).mp hc
      obtain ⟨e2, g2⟩ := (cut_spec k' a' b').mp hc'
      have h1 := Except.ok.inj h
      have h2 := Except.ok.inj h'
      have h3 : a ++ '_' :: (model ++ '_' :: b) = a' ++ '_' :: (model ++ '_' :: b') := by
        simp only [List.append_assoc, List.cons_append] at h1 h2
        exact h1.trans h2.symm
      obtain ⟨rfl, h4⟩ := append_cancel a a' _ _ g1 g2 h3
      have h5 := List.append_cancel_left h4
      rw [e1, e2, (List.cons.inj h5).2]

theorem fullKeys_mem (q : Column → Bool) (model : Name) (cs : List Column) (r : List Name) (h : fullKeys q model cs = .ok r) (n : Name) :
    n ∈ r ↔ ∃ c ∈ cs, q c = true ∧ fullKey model c.name = .ok n := by
  induction cs generalizing r with
  | nil => simp [fullKeys] at h; subst h; simp
  | cons c cs ih =>
    unfold fullKeys at h
    cases hk : fullKey model c.name with
    | error e => rw [hk] at h; cases h
    | ok k =>
      rw [hk] at h
      dsimp only at h
      cases hr : fullKeys q model cs with
      | error e => rw [hr] at h; cases h
      | ok r' =>
        rw [hr] at h
        cases h
        have := ih r' hr
        by_cases hq : q c = true
        · rw [if_pos hq, List.mem_cons, this]
          simp only [List.mem_cons, exists_eq_or_imp, hq, true_and, hk, Except.ok.injEq]
          constructor
          · rintro (rfl | h)
            · exact .inl rfl
            · exact .inr h
          · rintro (rfl | h)
            · exact .inl rfl
            · exact .inr h
        · rw [if_neg hq, this]
          simp only [List.mem_cons, exists_eq_or_imp, hq]
          simp

theorem snKeys_mem (p q : Column → Bool) (ms : List (Name × List Column)) (r : List Name) (h : snKeys p q ms = .ok r) (n : Name) :
    n ∈ r ↔ ∃ m ∈ ms, ∃ c ∈ m.2, p c = true ∧ q c = true ∧ fullKey m.1 c.name = .ok n := by
  induction ms generalizing r with
  | nil => simp [snKeys] at h; subst h; simp
  | cons m ms ih =>
    obtain ⟨m, cs⟩ := m
    unfold snKeys at h
    cases ha : fullKeys q m (cs.filter p) with
    | error e => rw [ha] at h; cases h
    | ok a =>
      rw [ha] at h
      dsimp only at h
      cases hb : snKeys p q ms with
      | error e => rw [hb] at h; cases h
      | ok b =>
        rw [hb] at h
        cases h
        rw [List.mem_append, ih b hb, fullKeys_mem q m _ a ha]
        simp only [List.mem_cons, exists_eq_or_imp, List.mem_filter, and_assoc]

/-- Every quantity of every supernova model has exactly one use: by its name it is a class or a number, and a number is interpolated unless it is always missing. -/
theorem C129_supernova (runs : ℕ) (sn : List (Name × List Column)) (K : Keys) (h : keys runs [] sn = .ok K) (n : Name) :
    (n ∈ K.cls ↔ ∃ m ∈ sn, ∃ c ∈ m.2, isClassName c.name = true ∧ fullKey m.1 c.name = .ok n) ∧
      (n ∈ K.nan ↔ ∃ m ∈ sn, ∃ c ∈ m.2, isClassName c.name = false ∧ (∀ g ∈ c.given, g = false) ∧ fullKey m.1 c.name = .ok n) ∧
      (n ∈ K.out ↔ ∃ m ∈ sn, ∃ c ∈ m.2, isClassName c.name = false ∧ (∃ g ∈ c.given, g = true) ∧ fullKey m.1 c.name = .ok n) := by
  unfold keys at h
  rw [if_neg (by simp)] at h
  dsimp only at h
  cases ho : snKeys (fun c => !isClassName c.name) (fun c => c.given.any id) sn with
  | error e => rw [ho] at h; cases h
  | ok o =>
    rw [ho] at h; dsimp only at h
    cases hn : snKeys (fun c => !isClassName c.name) (fun c => c.given.all not) sn with
    | error e => rw [hn] at h; cases h
    | ok m =>
      rw [hn] at h; dsimp only at h
      cases hk : snKeys (fun c => isClassName c.name) (fun _ => true) sn with
      | error e => rw [hk] at h; cases h
      | ok k =>
        rw [hk] at h
        cases h
        simp only [List.filter_nil, List.map_nil, List.nil_append]
        rw [snKeys_mem _ _ _ _ ho, snKeys_mem _ _ _ _ hn, snKeys_mem _ _ _ _ hk]
        simp only [List.any_eq_true, List.all_eq_true, Bool.not_eq_true', id, true_and]

/-- A classifier is trained for exactly the keys that are not `None` in all tracks that are used. -/
theorem C129_classifier (method : Name) (hm : method = (chars! "kNN") ∨ method = (chars! "1NN")) (tracks : List (ℤ × Name)) :
    (classifier method tracks = .ok none ↔ ∀ t ∈ tracks, 0 ≤ t.1 → t.2 = (chars! "None")) ∧
      ((∃ t ∈ tracks, 0 ≤ t.1 ∧ t.2 ≠ (chars! "None")) →
        classifier method tracks = .ok (some ((tracks.filter fun t => decide (t.1 ≥ 0)).map (·.2)))) := by
  unfold classifier
  by_cases h : (tracks.filter fun t => decide (t.1 ≥ 0)).any (fun t => decide (t.2 ≠ (chars! "None"))) = true
  · rw [if_pos h, if_pos hm]
    refine ⟨?_, fun _ => rfl⟩
    constructor
    · intro h'; cases h'
    · intro h'
      obtain ⟨t, ht, hne⟩ := List.any_eq_true.mp h
      obtain ⟨h1, h2⟩ := List.mem_filter.mp ht
      exact absurd (h' t h1 (by simpa using h2)) (by simpa using hne)
  · rw [if_neg h]
    have hall : ∀ t ∈ tracks, 0 ≤ t.1 → t.2 = (chars! "None") := by
      intro t ht h0
      by_contra hne
      exact h (List.any_eq_true.mpr ⟨t, List.mem_filter.mpr ⟨ht, by simpa using h0⟩, by simpa using hne⟩)
    refine ⟨⟨fun _ => hall, fun _ => rfl⟩, ?_⟩
    rintro ⟨t, ht, h0, hne⟩
    exact absurd (hall t ht h0) hne

/-- A wrong method is refused only if there is something to classify. -/
theorem C129_method (method : Name) (h1 : method ≠ (chars! "kNN")) (h2 : method ≠ (chars! "1NN")) (tracks : List (ℤ × Name)) :
    classifier method tracks = .error .value ↔ ∃ t ∈ tracks, 0 ≤ t.1 ∧ t.2 ≠ (chars! "None") := by
  unfold classifier
  by_cases h : (tracks.filter fun t => decide (t.1 ≥ 0)).any (fun t => decide (t.2 ≠ (chars! "None"))) = true
  · rw [if_pos h, if_neg (by tauto)]
    refine ⟨fun _ => ?_, fun _ => rfl⟩
    obtain ⟨t, ht, hne⟩ := List.any_eq_true.mp h
    obtain ⟨h1, h2⟩ := List.mem_filter.mp ht
    exact ⟨t, h1, by simpa using h2, by simpa using hne⟩
  · rw [if_neg h]
    constructor
    · intro h'; cases h'
    · rintro ⟨t, ht, h0, hne⟩
      exact absurd (List.any_eq_true.mpr ⟨t, List.mem_filter.mpr ⟨ht, by simpa using h0⟩, by simpa using hne⟩) h

/-! ### Mass ratios -/

theorem minQ_ext (l l' : List ℚ) (h : ∀ x, x ∈ l ↔ x ∈ l') : minQ l = minQ l' := by
  cases hm : minQ l with
  | none =>
    rw [minQ_none] at hm
    subst hm
    symm
    rw [minQ_none]
    exact List.eq_nil_iff_forall_not_mem.mpr fun x hx => absurd ((h x).mpr hx) (by simp)
  | some m =>
    symm
    rw [minQ_iff] at hm ⊢
    exact ⟨(h m).mp hm.1, fun x hx => hm.2 x ((h x).mpr hx)⟩

theorem maxQ_ext (l l' : List ℚ) (h : ∀ x, x ∈ l ↔ x ∈ l') : maxQ l = maxQ l' := by
  cases hm : maxQ l with
  | none =>
    rw [maxQ_none] at hm
    subst hm
    symm
    rw [maxQ_none]
    exact List.eq_nil_iff_forall_not_mem.mpr fun x hx => absurd ((h x).mpr hx) (by simp)
  | some m =>
    symm
    rw [maxQ_iff] at hm ⊢
    exact ⟨(h m).mp hm.1, fun x hx => hm.2 x ((h x).mpr hx)⟩

/-- Whether mass ratios are used depends only on which pairs of masses there are: not on the order of the runs, on repetitions, or on runs without a mass. -/
theorem C129_runs (runs runs' : List (Option ℚ × Option ℚ)) (h : ∀ a b : ℚ, (some a, some b) ∈ runs ↔ (some a, some b) ∈ runs') :
    interpInQ runs = interpInQ runs' := by
  have hb : ∀ r : ℚ × ℚ, r ∈ both runs ↔ r ∈ both runs' := by
    rintro ⟨a, b⟩
    rw [mem_both, mem_both, h]
  have h1 : maxQ ((both runs).map (·.1)) = maxQ ((both runs').map (·.1)) := maxQ_ext _ _ fun x => by simp only [List.mem_map, hb]
  have h2 : minQ ((both runs).map (·.1)) = minQ ((both runs').map (·.1)) := minQ_ext _ _ fun x => by simp only [List.mem_map, hb]
  have h3 : ∀ p : ℚ × ℚ → Bool, minQ (((both runs).filter p).map (·.2)) = minQ (((both runs').filter p).map (·.2)) :=
    fun p => minQ_ext _ _ fun x => by simp only [List.mem_map, List.mem_filter, hb]
  unfold interpInQ
  rw [h1, h2]
  cases maxQ ((both runs').map (·.1)) with
  | none => rfl
  | some mx =>
    cases minQ ((both runs').map (·.1)) with
    | none => rfl
    | some mn =>
      dsimp only
      rw [h3, h3]

/-- The result in terms of the smallest secondary masses with the heaviest and with the lightest primaries. -/
theorem interpInQ_of (runs : List (Option ℚ × Option ℚ)) (mx mn hi lo : ℚ)
    (h1 : maxQ ((both runs).map (·.1)) = some mx) (h2 : minQ ((both runs).map (·.1)) = some mn)
    (h3 : minQ (((both runs).filter fun r => decide (95 / 100 * mx < r.1)).map (·.2)) = some hi)
    (h4 : minQ (((both runs).filter fun r => decide (r.1 < 105 / 100 * mn)).map (·.2)) = some lo) : interpInQ runs = .ok (ratioBig hi lo) := by
  unfold interpInQ
  rw [h1, h2]
  dsimp only
  rw [h3, h4]

/-- What there is for positive masses. -/
theorem interpInQ_parts (runs : List (Option ℚ × Option ℚ)) (hne : both runs ≠ []) (hpos : ∀ r ∈ both runs, 0 < r.1 ∧ 0 < r.2) :
    ∃ mx mn hi lo rx rn rhi rlo, interpInQ runs = .ok (ratioBig hi lo) ∧ 0 < mn ∧ 0 < lo ∧
      (rx ∈ both runs ∧ rx.1 = mx ∧ ∀ r ∈ both runs, r.1 ≤ mx) ∧ (rn ∈ both runs ∧ rn.1 = mn ∧ ∀ r ∈ both runs, mn ≤ r.1) ∧
      (rhi ∈ both runs ∧ 95 / 100 * mx < rhi.1 ∧ rhi.2 = hi ∧ ∀ r ∈ both runs, 95 / 100 * mx < r.1 → hi ≤ r.2) ∧
      (rlo ∈ both runs ∧ rlo.1 < 105 / 100 * mn ∧ rlo.2 = lo ∧ ∀ r ∈ both runs, r.1 < 105 / 100 * mn → lo ≤ r.2) := by
  cases hmx : maxQ ((both runs).map (·.1)) with
  | none =>
    rw [maxQ_none, List.map_eq_nil_iff] at hmx
    exact absurd hmx hne
  | some mx =>
    cases hmn : minQ ((both runs).map (·.1)) with
    | none =>
      rw [minQ_none, List.map_eq_nil_iff] at hmn
      exact absurd hmn hne
    | some mn =>
      have hx := (maxQ_iff _ _).mp hmx
      have hn := (minQ_iff _ _).mp hmn
      obtain ⟨rx, hrx, erx⟩ := List.mem_map.mp hx.1
      obtain ⟨rn, hrn, ern⟩ := List.mem_map.mp hn.1
      have pmx : 0 < mx := erx ▸ (hpos rx hrx).1
      have pmn : 0 < mn := ern ▸ (hpos rn hrn).1
      cases hhi : minQ (((both runs).filter fun r => decide (95 / 100 * mx < r.1)).map (·.2)) with
      | none =>
        rw [minQ_none, List.map_eq_nil_iff] at hhi
        have : rx ∈ (both runs).filter fun r => decide (95 / 100 * mx < r.1) :=
          List.mem_filter.mpr ⟨hrx, by simp only [decide_eq_true_eq]; rw [erx]; linarith⟩
        rw [hhi] at this
        cases this
      | some hi =>
        cases hlo : minQ (((both runs).filter fun r => decide (r.1 < 105 / 100 * mn)).map (·.2)) with
        | none =>
          rw [minQ_none, List.map_eq_nil_iff] at hlo
          have : rn ∈ (both runs).filter fun r => decide (r.1 < 105 / 100 * mn) :=
            List.mem_filter.mpr ⟨hrn, by simp only [decide_eq_true_eq]; rw [ern]; linarith⟩
          rw [hlo] at this
          cases this
        | some lo =>
          have h3 := (minQ_iff _ _).mp hhi
          have h4 := (minQ_iff _ _).mp hlo
          obtain ⟨rhi, hrhi, erhi⟩ := List.mem_map.mp h3.1
          obtain ⟨rlo, hrlo, erlo⟩ := List.mem_map.mp h4.1
          obtain ⟨a1, a2⟩ := List.mem_filter.mp hrhi
          obtain ⟨b1, b2⟩ := List.mem_filter.mp hrlo
          refine ⟨mx, mn, hi, lo, rx, rn, rhi, rlo, interpInQ_of _ _ _ _ _ hmx hmn hhi hlo, pmn, erlo ▸ (hpos rlo b1).2,
            ⟨hrx, erx, fun r hr => hx.2 _ (List.mem_map.mpr ⟨r, hr, rfl⟩)⟩, ⟨hrn, ern, fun r hr => hn.2 _ (List.mem_map.mpr ⟨r, hr, rfl⟩)⟩,
            ⟨a1, by simpa using a2, erhi, ?_⟩, ⟨b1, by simpa using b2, erlo, ?_⟩⟩
          · intro r hr hlt
            exact h3.2 _ (List.mem_map.mpr ⟨r, List.mem_filter.mpr ⟨hr, by simpa using hlt⟩, rfl⟩)
          · intro r hr hlt
            exact h4.2 _ (List.mem_map.mpr ⟨r, List.mem_filter.mpr ⟨hr, by simpa using hlt⟩, rfl⟩)

/-- A grid whose secondaries have the same smallest mass for all primaries is not one in mass ratio. -/
theorem C129_rectangular (runs : List (Option ℚ × Option ℚ)) (hpos : ∀ r ∈ both runs, 0 < r.1 ∧ 0 < r.2) (b : ℚ) (hb : ∀ r ∈ both runs, b ≤ r.2)
    (hne : both runs ≠ []) (hall : ∀ r ∈ both runs, (r.1, b) ∈ both runs) : interpInQ runs = .ok false := by
  obtain ⟨mx, mn, hi, lo, rx, rn, rhi, rlo, he, pmn, plo, ⟨x1, x2, x3⟩, ⟨n1, n2, n3⟩, ⟨i1, i2, i3, i4⟩, ⟨l1, l2, l3, l4⟩⟩ := interpInQ_parts runs hne hpos
  have h1 : hi = b := by
    apply le_antisymm
    · exact i4 _ (hall rhi i1) i2
    · rw [← i3]; exact hb _ i1
  have h2 : lo = b := by
    apply le_antisymm
    · exact l4 _ (hall rlo l1) l2
    · rw [← l3]; exact hb _ l1
  rw [he, h1, h2]
  unfold ratioBig
  rw [if_neg (by rw [← h2]; exact ne_of_gt plo), div_self (by rw [← h2]; exact ne_of_gt plo)]
  norm_num

/-- A grid in mass ratio, with the same smallest ratio for all primaries, is one if the primaries span a factor of 2.2. -/
theorem C129_ratio_partial (runs : List (Option ℚ × Option ℚ)) (hpos : ∀ r ∈ both runs, 0 < r.1 ∧ 0 < r.2) (q : ℚ) (hq : 0 < q)
    (hb : ∀ r ∈ both runs, q * r.1 ≤ r.2) (hall : ∀ r ∈ both runs, (r.1, q * r.1) ∈ both runs)
    (hw : ∃ r ∈ both runs, ∃ r' ∈ both runs, 22 / 10 * r.1 ≤ r'.1) : interpInQ runs = .ok true := by
  obtain ⟨r, hr, r', hr', hrr⟩ := hw
  obtain ⟨mx, mn, hi, lo, rx, rn, rhi, rlo, he, pmn, plo, ⟨x1, x2, x3⟩, ⟨n1, n2, n3⟩, ⟨i1, i2, i3, i4⟩, ⟨l1, l2, l3, l4⟩⟩ :=
    interpInQ_parts runs (List.ne_nil_of_mem hr) hpos
  have h1 : q * (95 / 100 * mx) ≤ hi := by
    rw [← i3]
    exact (mul_le_mul_of_nonneg_left i2.le hq.le).trans (hb _ i1)
  have h2 : lo ≤ q * mn := by
    have := l4 _ (hall rn n1) (by rw [n2]; linarith)
    rw [n2] at this
    exact this
  have h3 : 22 / 10 * mn ≤ mx := by
    have a := n3 r hr
    have b := x3 r' hr'
    linarith
  rw [he]
  unfold ratioBig
  rw [if_neg (ne_of_gt plo)]
  congr 1
  rw [decide_eq_true_eq, lt_div_iff₀ plo]
  have : q * (22 / 10 * mn) ≤ q * mx := mul_le_mul_of_nonneg_left h3 hq.le
  have hp : 0 < q * mn := mul_pos hq pmn
  nlinarith

/-- Not so for a narrow range of primaries: such a grid is taken as one in masses. -/
theorem C129_narrow_violated (runs : List (Option ℚ × Option ℚ)) (hpos : ∀ r ∈ both runs, 0 < r.1 ∧ 0 < r.2) (q : ℚ) (hq : 0 < q)
    (hb : ∀ r ∈ both runs, q * r.1 ≤ r.2) (hall : ∀ r ∈ both runs, (r.1, q * r.1) ∈ both runs) (hne : both runs ≠ [])
    (hw : ∀ r ∈ both runs, ∀ r' ∈ both runs, r'.1 ≤ 2 * r.1) : interpInQ runs = .ok false := by
  obtain ⟨mx, mn, hi, lo, rx, rn, rhi, rlo, he, pmn, plo, ⟨x1, x2, x3⟩, ⟨n1, n2, n3⟩, ⟨i1, i2, i3, i4⟩, ⟨l1, l2, l3, l4⟩⟩ :=
    interpInQ_parts runs hne hpos
  have h1 : hi ≤ q * mx := by
    have := i4 _ (hall rx x1) (by rw [x2]; have := hw rn n1 rx x1; have := (hpos rx x1).1; rw [x2] at this; linarith)
    rw [x2] at this
    exact this
  have h2 : q * mn ≤ lo := by
    rw [← l3]
    exact (mul_le_mul_of_nonneg_left (n3 _ l1) hq.le).trans (hb _ l1)
  have h3 : mx ≤ 2 * mn := by
    have := hw rn n1 rx x1
    rw [x2, n2] at this
    exact this
  rw [he]
  unfold ratioBig
  rw [if_neg (ne_of_gt plo)]
  congr 1
  rw [decide_eq_false_iff_not, not_lt, div_le_iff₀ plo]
  have : q * mx ≤ q * (2 * mn) := mul_le_mul_of_nonneg_left h3 hq.le
  linarith

example : (interpInQ [(some 10, some 2), (some 10, some 5), (some 18, some (18 / 5)), (none, some 1), (some 18, some 9)]).toOption = some false ∧
    (interpInQ [(some 10, some 2), (some 10, some 5), (some 30, some 6), (none, some 1), (some 30, some 15)]).toOption = some true ∧
    (interpInQ [(none, some 1)]).toOption = none := by decide +kernel

theorem both_map (f : ℚ → ℚ) (runs : List (Option ℚ × Option ℚ)) :
    both (runs.map fun r => (r.1.map f, r.2.map f)) = (both runs).map fun r => (f r.1, f r.2) := by
  induction runs with
  | nil => rfl
  | cons r l ih =>
    obtain ⟨x, y⟩ := r
    cases x <;> cases y <;> simp [both, ih]

theorem minQ_scale (c : ℚ) (hc : 0 < c) (l : List ℚ) : minQ (l.map (c * ·)) = (minQ l).map (c * ·) := by
  cases h : minQ l with
  | none => rw [minQ_none] at h; subst h; rfl
  | some m =>
    rw [Option.map_some, minQ_iff]
    obtain ⟨h1, h2⟩ := (minQ_iff _ _).mp h
    refine ⟨List.mem_map.mpr ⟨m, h1, rfl⟩, ?_⟩
    intro x hx
    obtain ⟨y, hy, rfl⟩ := List.mem_map.mp hx
    exact mul_le_mul_of_nonneg_left (h2 y hy) hc.le

theorem maxQ_scale (c : ℚ) (hc : 0 < c) (l : List ℚ) : maxQ (l.map (c * ·)) = (maxQ l).map (c * ·) := by
  cases h : maxQ l with
  | none => rw [maxQ_none] at h; subst h; rfl
  | some m =>
    rw [Option.map_some, maxQ_iff]
    obtain ⟨h1, h2⟩ := (maxQ_iff _ _).mp h
    refine ⟨List.mem_map.mpr ⟨m, h1, rfl⟩, ?_⟩
    intro x hx
    obtain ⟨y, hy, rfl⟩ := List.mem_map.mp hx
    exact mul_le_mul_of_nonneg_left (h2 y hy) hc.le

/-- The unit of the masses does not matter. -/
theorem C129_mass_units (c : ℚ) (hc : 0 < c) (runs : List (Option ℚ × Option ℚ)) :
    interpInQ (runs.map fun r => (r.1.map (c * ·), r.2.map (c * ·))) = interpInQ runs := by
  have e1 : ((both runs).map fun r => (c * r.1, c * r.2)).map (·.1) = ((both runs).map (·.1)).map (c * ·) := by
    rw [List.map_map, List.map_map]; rfl
  have e2 : ∀ t : ℚ, (((both runs).map fun r => (c * r.1, c * r.2)).filter fun r => decide (95 / 100 * (c * t) < r.1)).map (·.2) =
      (((both runs).filter fun r => decide (95 / 100 * t < r.1)).map (·.2)).map (c * ·) := by
    intro t
    rw [List.filter_map, List.map_map, List.map_map]
    congr 1
    apply List.filter_congr
    intro r _
    simp only [Function.comp, decide_eq_decide]
    rw [show 95 / 100 * (c * t) = c * (95 / 100 * t) by ring]
    exact mul_lt_mul_iff_right₀ hc
  have e3 : ∀ t : ℚ, (((both runs).map fun r => (c * r.1, c * r.2)).filter fun r => decide (r.1 < 105 / 100 * (c * t))).map (·.2) =
      (((both runs).filter fun r => decide (r.1 < 105 / 100 * t)).map (·.2)).map (c * ·) := by
    intro t
    rw [List.filter_map, List.map_map, List.map_map]
    congr 1
    apply List.filter_congr
    intro r _
    simp only [Function.comp, decide_eq_decide]
    rw [show 105 / 100 * (c * t) = c * (105 / 100 * t) by ring]
    exact mul_lt_mul_iff_right₀ hc
  unfold interpInQ
  rw [both_map, e1, maxQ_scale c hc, minQ_scale c hc]
  cases maxQ ((both runs).map (·.1)) with
  | none => rfl
  | some mx =>
    cases minQ ((both runs).map (·.1)) with
    | none => rfl
    | some mn =>
      dsimp only [Option.map_some]
      rw [e2, e3, minQ_scale c hc, minQ_scale c hc]
      cases minQ (((both runs).filter fun r => decide (95 / 100 * mx < r.1)).map (·.2)) with
      | none => rfl
      | some hi =>
        cases minQ (((both runs).filter fun r => decide (r.1 < 105 / 100 * mn)).map (·.2)) with
        | none => rfl
        | some lo =>
          dsimp only [Option.map_some]
          congr 1
          unfold ratioBig
          by_cases h0 : lo = 0
          · rw [if_pos (by rw [h0, mul_zero]), if_pos h0]
            simp only [decide_eq_decide]
            exact mul_pos_iff_of_pos_left hc
          · rw [if_neg (mul_ne_zero hc.ne' h0), if_neg h0, mul_div_mul_left _ _ hc.ne']

/-! ### Scaling of the inputs -/

section scaling
open Classical

theorem sum_map_mul (c : ℝ) (l : List ℝ) : (l.map (c * ·)).sum = c * l.sum := by
  induction l with
  | nil => simp
  | cons a l ih => simp only [List.map_cons, List.sum_cons, ih]; ring

theorem sum_map_add (c : ℝ) (l : List ℝ) : (l.map (c + ·)).sum = c * l.length + l.sum := by
  induction l with
  | nil => simp
  | cons a l ih => simp only [List.map_cons, List.sum_cons, ih, List.length_cons]; push_cast; ring

theorem mean_scale (c : ℝ) (l : List ℝ) : mean (l.map (c * ·)) = c * mean l := by
  unfold mean
  rw [sum_map_mul, List.length_map, mul_div_assoc]

theorem mean_shift (c : ℝ) (l : List ℝ) (hl : l ≠ []) : mean (l.map (c + ·)) = c + mean l := by
  have : (l.length : ℝ) ≠ 0 := by simpa using hl
  unfold mean
  rw [sum_map_add, List.length_map]
  field_simp

theorem sorted_map (f : ℝ → ℝ) (hf : ∀ a b, a ≤ b ↔ f a ≤ f b) (l : List ℝ) : sorted (l.map f) = (sorted l).map f := by
  unfold sorted
  exact (List.map_insertionSort (r := (· ≤ ·)) (s := (· ≤ ·)) f l fun a _ b _ => hf a b).symm

theorem sorted_map_on (f : ℝ → ℝ) (l : List ℝ) (hf : ∀ a ∈ l, ∀ b ∈ l, a ≤ b ↔ f a ≤ f b) : sorted (l.map f) = (sorted l).map f := by
  unfold sorted
  exact (List.map_insertionSort (r := (· ≤ ·)) (s := (· ≤ ·)) f l hf).symm

theorem length_sorted (l : List ℝ) : (sorted l).length = l.length := by
  unfold sorted
  exact List.length_insertionSort _ _

theorem getD_map (f : ℝ → ℝ) (l : List ℝ) (i : ℕ) (h : i < l.length) : (l.map f).getD i 0 = f (l.getD i 0) := by
  rw [List.getD_eq_getElem?_getD, List.getD_eq_getElem?_getD, List.getElem?_map, List.getElem?_eq_getElem h]
  rfl

theorem median_affine (a c : ℝ) (hc : 0 < c) (l : List ℝ) (hl : l ≠ []) : median (l.map fun x => a + c * x) = a + c * median l := by
  have hpos : 0 < l.length := List.length_pos_iff.mpr hl
  have hs := sorted_map (fun x => a + c * x) (fun x y => by
    constructor
    · intro h; have := mul_le_mul_of_nonneg_left h hc.le; linarith
    · intro h; exact le_of_mul_le_mul_left (by linarith) hc) l
  unfold median
  rw [hs, List.length_map]
  split
  · rw [getD_map _ _ _ (by rw [length_sorted]; omega)]
  · rw [getD_map _ _ _ (by rw [length_sorted]; omega), getD_map _ _ _ (by rw [length_sorted]; omega)]
    ring

theorem std_scale (c : ℝ) (hc : 0 < c) (l : List ℝ) : std (l.map (c * ·)) = c * std l := by
  unfold std
  rw [mean_scale, List.map_map]
  have e : (l.map ((fun x => (x - c * mean l) ^ 2) ∘ (c * ·))) = (l.map fun x => (x - mean l) ^ 2).map (c ^ 2 * ·) := by
    rw [List.map_map]
    apply List.map_congr_left
    intro x _
    simp only [Function.comp]
    ring
  rw [e, mean_scale, Real.sqrt_mul (by positivity), Real.sqrt_sq hc.le]

theorem std_shift (c : ℝ) (l : List ℝ) (hl : l ≠ []) : std (l.map (c + ·)) = std l := by
  unfold std
  rw [mean_shift c l hl, List.map_map]
  congr 2
  apply List.map_congr_left
  intro x _
  simp only [Function.comp]
  ring

theorem skew_scale (c : ℝ) (hc : 0 < c) (l : List ℝ) : skew (l.map (c * ·)) = skew l := by
  by_cases hl : l = []
  · subst hl; rfl
  unfold skew
  have hm : median (l.map (c * ·)) = c * median l := by
    have := median_affine 0 c hc l hl
    simpa using this
  rw [mean_scale, hm, std_scale c hc, ← mul_sub, abs_mul, abs_of_pos hc, mul_div_mul_left _ _ hc.ne']

theorem skew_shift (c : ℝ) (l : List ℝ) : skew (l.map (c + ·)) = skew l := by
  by_cases hl : l = []
  · subst hl; rfl
  unfold skew
  have hm : median (l.map (c + ·)) = c + median l := by
    have := median_affine c 1 one_pos l hl
    simpa using this
  rw [mean_shift c l hl, hm, std_shift c l hl]
  congr 2
  ring

theorem values_map (f : ℝ → ℝ) (l : List (Option ℝ)) : values (l.map (Option.map f)) = (values l).map (List.map f) := by
  induction l with
  | nil => rfl
  | cons a l ih =>
    cases a with
    | none => rfl
    | some x =>
      simp only [List.map_cons, Option.map_some, values, ih]
      cases values l <;> rfl

theorem values_some (x : List ℝ) : values (x.map some) = some x := by
  induction x with
  | nil => rfl
  | cons a l ih => simp [values, ih]

theorem values_none (l : List (Option ℝ)) : values l = none ↔ none ∈ l := by
  induction l with
  | nil => simp [values]
  | cons a l ih =>
    cases a with
    | none => simp [values]
    | some x => simp [values, ih]

theorem values_eq (l : List (Option ℝ)) (x : List ℝ) (h : values l = some x) : l = x.map some := by
  induction l generalizing x with
  | nil => simp [values] at h; subst h; rfl
  | cons a l ih =>
    cases a with
    | none => simp [values] at h
    | some v =>
      simp only [values, Option.map_eq_some_iff] at h
      obtain ⟨y, hy, rfl⟩ := h
      rw [ih y hy]; rfl

/-- What is chosen: the linear scale if all values are positive and their mean is closer to their median, in units of their spread, than for the logarithms. -/
theorem C129_choice (x : List ℝ) : linear (x.map some) = true ↔ (∀ v ∈ x, 0 < v) ∧ skew x < skew (x.map (Real.logb 10)) := by
  unfold linear
  rw [values_some]
  simp

/-- The unit of an input does not matter for the choice of its scale. -/
theorem C129_units (c : ℝ) (hc : 0 < c) (l : List (Option ℝ)) : linear (l.map (Option.map (c * ·))) = linear l := by
  unfold linear
  rw [values_map]
  cases values l with
  | none => rfl
  | some x =>
    dsimp only [Option.map_some]
    rw [skew_scale c hc]
    by_cases hx : ∀ v ∈ x, 0 < v
    · have h1 : ∀ v ∈ x.map (c * ·), 0 < v := by
        intro v hv
        obtain ⟨w, hw, rfl⟩ := List.mem_map.mp hv
        exact mul_pos hc (hx w hw)
      have h2 : (x.map (c * ·)).map (Real.logb 10) = (x.map (Real.logb 10)).map (Real.logb 10 c + ·) := by
        rw [List.map_map, List.map_map]
        apply List.map_congr_left
        intro w hw
        exact Real.logb_mul hc.ne' (hx w hw).ne'
      rw [h2, skew_shift, decide_eq_true h1, decide_eq_true hx]
    · have h1 : ¬∀ v ∈ x.map (c * ·), 0 < v := by
        intro h
        apply hx
        intro v hv
        exact (mul_pos_iff_of_pos_left hc).mp (h _ (List.mem_map.mpr ⟨v, hv, rfl⟩))
      rw [decide_eq_false h1, decide_eq_false hx]
      rfl

theorem sorted_perm (l l' : List ℝ) (h : l.Perm l') : sorted l = sorted l' := by
  unfold sorted
  refine List.Perm.eq_of_pairwise (le := (· ≤ ·)) ?_ (List.pairwise_insertionSort _ _) (List.pairwise_insertionSort _ _)
    (((List.perm_insertionSort _ l).trans h).trans (List.perm_insertionSort _ l').symm)
  intro a b _ _ h1 h2
  exact le_antisymm h1 h2

theorem mean_perm (l l' : List ℝ) (h : l.Perm l') : mean l = mean l' := by
  unfold mean
  rw [h.sum_eq, h.length_eq]

theorem skew_perm (l l' : List ℝ) (h : l.Perm l') : skew l = skew l' := by
  unfold skew median std
  rw [mean_perm l l' h, sorted_perm l l' h, h.length_eq, mean_perm _ _ (h.map _)]

/-- The order of the runs does not matter for the scale of an input. -/
theorem C129_order (l l' : List (Option ℝ)) (h : l.Perm l') : linear l = linear l' := by
  by_cases hn : none ∈ l
  · have h1 := (values_none l).mpr hn
    have h2 := (values_none l').mpr (h.mem_iff.mp hn)
    unfold linear
    rw [h1, h2]
  · have key : ∀ l : List (Option ℝ), none ∉ l → values l = some (l.filterMap id) := by
      intro l hl
      cases hv : values l with
      | none => exact absurd ((values_none l).mp hv) hl
      | some x => rw [values_eq l x hv]; simp
    have hp : (l.filterMap id).Perm (l'.filterMap id) := h.filterMap id
    unfold linear
    rw [key l hn, key l' (fun hh => hn (h.mem_iff.mpr hh))]
    dsimp only
    rw [skew_perm _ _ hp, skew_perm _ _ (hp.map _)]
    congr 2
    apply propext
    exact ⟨fun hh v hv => hh v (hp.mem_iff.mpr hv), fun hh v hv => hh v (hp.mem_iff.mp hv)⟩

/-- Values whose logarithms are symmetric get a logarithmic scale; values that are symmetric get a linear one if their logarithms are not. -/
theorem C129_symmetric (x : List ℝ) (hx : ∀ v ∈ x, 0 < v) :
    (mean (x.map (Real.logb 10)) = median (x.map (Real.logb 10)) → linear (x.map some) = false) ∧
      (mean x = median x → 0 < skew (x.map (Real.logb 10)) → linear (x.map some) = true) := by
  constructor
  · intro h
    rw [Bool.eq_false_iff]
    intro h'
    have h2 := ((C129_choice x).mp h').2
    have h3 : skew (x.map (Real.logb 10)) = 0 := by unfold skew; rw [h, sub_self, abs_zero, zero_div]
    have h4 : 0 ≤ skew x := div_nonneg (abs_nonneg _) (Real.sqrt_nonneg _)
    linarith
  · intro h h2
    refine (C129_choice x).mpr ⟨hx, ?_⟩
    have : skew x = 0 := by unfold skew; rw [h, sub_self, abs_zero, zero_div]
    rw [this]
    exact h2

/-- One run with a missing input, or with one that is not positive, makes the scale logarithmic whatever the other runs are, though such runs are not used and a
logarithmic scale is none for such values. -/
theorem C129_missing_violated (l : List (Option ℝ)) (h : none ∈ l ∨ ∃ v ≤ 0, some v ∈ l) : linear l = false := by
  unfold linear
  rcases h with h | ⟨v, hv, h⟩
  · rw [(values_none l).mpr h]
  · cases hx : values l with
    | none => rfl
    | some x =>
      dsimp only
      have hl := values_eq l x hx
      rw [hl] at h
      have hmem : v ∈ x := by simpa using h
      have : ¬∀ v ∈ x, 0 < v := fun hh => absurd (hh v hmem) (not_lt.mpr hv)
      rw [decide_eq_false this]
      rfl

theorem sorted_three (a b c : ℝ) (h1 : a ≤ b) (h2 : b ≤ c) : sorted [a, b, c] = [a, b, c] := by
  unfold sorted
  apply List.Pairwise.insertionSort_eq
  simp [h1, h2, h1.trans h2]

theorem median_three (a b c : ℝ) (h1 : a ≤ b) (h2 : b ≤ c) : median [a, b, c] = b := by
  unfold median
  rw [sorted_three a b c h1 h2]
  simp

theorem std_pos (l : List ℝ) (a : ℝ) (ha : a ∈ l) (h : a ≠ mean l) : 0 < std l := by
  unfold std
  apply Real.sqrt_pos.mpr
  unfold mean
  have hl : 0 < (l.length : ℝ) := by
    have := List.length_pos_of_mem ha
    exact_mod_cast this
  rw [List.length_map]
  refine div_pos ?_ hl
  have key : ∀ (m : ℝ) (l : List ℝ), a ∈ l → a ≠ m → 0 < (l.map fun x => (x - m) ^ 2).sum := by
    intro m l
    induction l with
    | nil => intro h; cases h
    | cons b l ih =>
      intro hm hne
      rw [List.map_cons, List.sum_cons]
      have hs : 0 ≤ (l.map fun x => (x - m) ^ 2).sum := List.sum_nonneg (by
        intro y hy
        obtain ⟨z, _, rfl⟩ := List.mem_map.mp hy
        positivity)
      by_cases hb : a = b
      · subst hb
        have : 0 < (a - m) ^ 2 := by
          have : a - m ≠ 0 := sub_ne_zero.mpr hne
          positivity
        linarith
      · have := ih (by simpa [hb] using hm) hne
        have : 0 ≤ (b - m) ^ 2 := sq_nonneg _
        linarith
  exact key _ l ha h

/-- The two inputs of three runs: the first grows in equal steps, the second in equal factors. -/
noncomputable def threeRows : List (List (Option ℝ)) := [[some 1, some 1], [some 2, some 10], [some 3, some 100]]

theorem linear_123 : linear [some (1 : ℝ), some 2, some 3] = true := by
  have h := (C129_symmetric [1, 2, 3] (by intro v hv; simp at hv; rcases hv with rfl | rfl | rfl <;> norm_num)).2
  refine h ?_ ?_
  · rw [median_three 1 2 3 (by norm_num) (by norm_num)]
    unfold mean
    norm_num
  · have l0 : Real.logb 10 1 = 0 := Real.logb_one
    have l2 : 0 < Real.logb 10 2 := Real.logb_pos (by norm_num) (by norm_num)
    have l3 : Real.logb 10 3 < 2 * Real.logb 10 2 := by
      have e : (2 : ℝ) * Real.logb 10 2 = Real.logb 10 4 := by
        have : (4 : ℝ) = 2 * 2 := by norm_num
        rw [this, Real.logb_mul (by norm_num) (by norm_num)]
        ring
      rw [e]
      exact Real.logb_lt_logb (by norm_num) (by norm_num) (by norm_num)
    have l23 : Real.logb 10 2 < Real.logb 10 3 := Real.logb_lt_logb (by norm_num) (by norm_num) (by norm_num)
    simp only [List.map_cons, List.map_nil, l0]
    unfold skew
    rw [median_three _ _ _ l2.le l23.le]
    have hm : mean [0, Real.logb 10 2, Real.logb 10 3] = (Real.logb 10 2 + Real.logb 10 3) / 3 := by
      unfold mean
      simp
    refine div_pos ?_ (std_pos _ 0 (by simp) ?_)
    · rw [hm]
      apply abs_pos.mpr
      intro h
      linarith
    · rw [hm]
      intro h
      linarith

theorem linear_1_10_100 : linear [some (1 : ℝ), some 10, some 100] = false := by
  refine (C129_symmetric [1, 10, 100] (by intro v hv; simp at hv; rcases hv with rfl | rfl | rfl <;> norm_num)).1 ?_
  have l0 : Real.logb 10 1 = 0 := Real.logb_one
  have l1 : Real.logb 10 10 = 1 := Real.logb_self_eq_one (by norm_num)
  have l2 : Real.logb 10 100 = 2 := by
    have : (100 : ℝ) = 10 ^ (2 : ℝ) := by norm_num
    rw [this, Real.logb_rpow (by norm_num) (by norm_num)]
  simp only [List.map_cons, List.map_nil, l0, l1, l2]
  rw [median_three 0 1 2 (by norm_num) (by norm_num)]
  unfold mean
  norm_num

/-- All inputs get the same scale within a class, whatever their values are: even for a class that has all runs the scales of the inputs are not those
chosen for all runs. -/
theorem C129_class_violated :
    (∀ n rows c (i j : ℕ), i < n → j < n → (classScaling n rows c)[i]? = (classScaling n rows c)[j]?) ∧
      allScaling 2 threeRows = [true, false] ∧ ∀ c, classScaling 2 (threeRows.map fun r => (r, c)) c ≠ allScaling 2 threeRows := by
  have h1 : ∀ n rows c (i j : ℕ), i < n → j < n → (classScaling n rows c)[i]? = (classScaling n rows c)[j]? := by
    intro n rows c i j hi hj
    unfold classScaling
    simp [hi, hj]
  have h2 : allScaling 2 threeRows = [true, false] := by
    have e : allScaling 2 threeRows = [linear [some (1 : ℝ), some 2, some 3], linear [some (1 : ℝ), some 10, some 100]] := rfl
    rw [e, linear_123, linear_1_10_100]
  refine ⟨h1, h2, ?_⟩
  intro c h
  have := h1 2 (threeRows.map fun r => (r, c)) c 0 1 (by norm_num) (by norm_num)
  rw [h, h2] at this
  simp at this

/-- With one input the scale of a class is that of its runs. -/
theorem C129_class_partial (rows : List (Option ℝ × Name)) (c : Name) :
    classScaling 1 (rows.map fun r => ([r.1], r.2)) c = allScaling 1 ((rows.filter fun r => decide (r.2 = c)).map fun r => [r.1]) := by
  have e : (((rows.map fun r => ([r.1], r.2)).filter fun r => decide (r.2 = c)).map (·.1)).flatten =
      ((rows.filter fun r => decide (r.2 = c)).map fun r => [r.1]).map fun r => r.getD 0 none := by
    induction rows with
    | nil => rfl
    | cons r l ih =>
      by_cases hr : r.2 = c
      · simpa [hr] using ih
      · simpa [hr] using ih
  unfold classScaling allScaling
  rw [e]
  rfl

/-! ### Slices -/

/-- On a logarithmic axis a run is in the slice if its value is within half a step of the axis. -/
theorem C129_ball (x x0 u0 u1 : ℝ) (hx : 0 < x) (h0 : 0 < x0) (hu : 0 < u0) (hu' : 0 < u1) :
    inBall true x x0 u0 u1 ↔ x0 ^ 2 * u0 < x ^ 2 * u1 ∧ x ^ 2 * u0 < x0 ^ 2 * u1 := by
  have key : ∀ a b c d : ℝ, 0 < a → 0 < b → 0 < c → 0 < d → (a ^ 2 * b < c ^ 2 * d ↔ 2 * Real.logb 10 a + Real.logb 10 b < 2 * Real.logb 10 c + Real.logb 10 d) := by
    intro a b c d ha hb hc hd
    have e1 : 2 * Real.logb 10 a + Real.logb 10 b = Real.logb 10 (a ^ 2 * b) := by
      rw [Real.logb_mul (by positivity) hb.ne', Real.logb_pow]; norm_num
    have e2 : 2 * Real.logb 10 c + Real.logb 10 d = Real.logb 10 (c ^ 2 * d) := by
      rw [Real.logb_mul (by positivity) hd.ne', Real.logb_pow]; norm_num
    rw [e1, e2]
    exact (Real.logb_lt_logb_iff (by norm_num) (by positivity) (by positivity)).symm
  unfold inBall
  rw [if_pos rfl, key _ _ _ _ h0 hu hx hu', key _ _ _ _ hx hu h0 hu']
  constructor
  · rintro ⟨h1, h2⟩; constructor <;> linarith
  · rintro ⟨h1, h2⟩; constructor <;> linarith

example : inBall true 2 3 1 4 := by
  rw [C129_ball 2 3 1 4 (by norm_num) (by norm_num) (by norm_num) (by norm_num)]
  norm_num

/-- On a linear axis every run is in every slice. -/
theorem C129_ball_violated (x x0 u0 u1 : ℝ) (h : u0 < u1) : inBall false x x0 u0 u1 := by
  unfold inBall
  rw [if_neg (by simp)]
  constructor <;> linarith

end scaling

/-! ### Reports -/

/-- The numbers that are reported count the tracks with the labels 0 to 3 for which the quantity is missing. -/
theorem C129_report_partial (tracks : List (ℤ × Bool)) (h : ∀ t ∈ tracks, t.2 = true → 0 ≤ t.1 ∧ t.1 ≤ 3) :
    (report tracks).sum = (tracks.filter fun t => t.2).length := by
  induction tracks with
  | nil => rfl
  | cons t l ih =>
    have ih' := ih fun t ht => h t (List.mem_cons_of_mem _ ht)
    obtain ⟨v, b⟩ := t
    cases b with
    | false => simpa [report] using ih'
    | true =>
      have hv := h (v, true) List.mem_cons_self rfl
      have : v = 0 ∨ v = 1 ∨ v = 2 ∨ v = 3 := by omega
      simp only [report, List.map_cons, List.map_nil, List.sum_cons, List.sum_nil] at ih' ⊢
      rcases this with rfl | rfl | rfl | rfl <;> simp <;> omega

/-- With reverse mass transfer in the grid the number given for unstable mass transfer is that of reverse mass transfer, and unstable mass transfer is not counted. -/
theorem C129_report_violated :
    let classes := [(chars! "no_MT"), (chars! "stable_MT"), (chars! "stable_reverse_MT"), (chars! "unstable_MT")]
    labelOf classes (chars! "stable_reverse_MT") = 3 ∧ labelOf classes (chars! "unstable_MT") = 4 ∧
      report [(4, true), (4, true), (3, true)] = [0, 0, 0, 1] := by decide +kernel

/-- Without it the labels are those of the report. -/
theorem C129_labels :
    let classes := [(chars! "no_MT"), (chars! "stable_MT"), (chars! "unstable_MT")]
    labelOf classes (chars! "initial_MT") = 0 ∧ labelOf classes (chars! "no_MT") = 1 ∧ labelOf classes (chars! "stable_MT") = 2 ∧
      labelOf classes (chars! "unstable_MT") = 3 := by decide +kernel

/-- The errors of a class are those of its runs that were predicted to be of the class. -/
theorem C129_errors (rows : List (List ℚ × Name × Name)) (c : Name) (ind : ℕ) (x : ℚ) :
    x ∈ errorsOf (rows.map (·.1)) (rows.map (·.2.1)) (rows.map (·.2.2)) c ind ↔ ∃ r ∈ rows, r.2.1 = c ∧ r.2.2 = c ∧ r.1.getD ind 0 = x := by
  have e : (rows.map (·.1)).zip ((rows.map (·.2.1)).zip (rows.map (·.2.2))) = rows := by
    induction rows with
    | nil => rfl
    | cons r l ih => simp only [List.map_cons, List.zip_cons_cons, ih]
  unfold errorsOf
  rw [e]
  simp only [List.mem_map, List.mem_filter, Bool.and_eq_true, decide_eq_true_eq, and_assoc]

/-- The errors that are reported in total for a quantity are not those of the runs that were predicted well, but those of all quantities of a single run; with
fewer runs than quantities there is an error. -/
theorem C129_total_violated (errs : List (List ℚ)) (gt pred : List Name) (model ind : ℕ) :
    (∀ l, totalOf errs gt pred model ind = .ok l → l = [] ∨ some l = errs[ind]?) ∧ (errs.length ≤ ind → totalOf errs gt pred model ind = .error .index) := by
  unfold totalOf
  constructor
  · intro l h
    cases hb : (right gt pred)[model]? with
    | none => rw [hb] at h; cases h
    | some b =>
      rw [hb] at h
      dsimp only at h
      cases he : errs[ind]? with
      | none => rw [he] at h; cases h
      | some row =>
        rw [he] at h
        cases b with
        | true => right; cases h; rfl
        | false => left; cases h; rfl
  · intro hlen
    rw [List.getElem?_eq_none hlen]
    cases (right gt pred)[model]? <;> rfl

example : totalOf [[1, 2], [3, 4], [5, 6]] [(chars! "no_MT"), (chars! "no_MT"), (chars! "no_MT")] [(chars! "no_MT"), (chars! "initial_MT"), (chars! "no_MT")] 0 1 =
    .ok [3, 4] := rfl

end Verif.InScale
