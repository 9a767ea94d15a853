import Verif.RateStore
/-!
C102: results stored in a population file are those calculated for the transient, the star formation model and the weights they are asked for.
-/
namespace Verif.RateStore

variable {V : Type}

theorem put_self (f : File V) (p : Path) (v : V) : put f p v p = some v := if_pos rfl

theorem put_other (f : File V) {p q : Path} (v : V) (h : ¬ p <+: q) : put f p v q = f q := by
  unfold put rm
  have hne : q ≠ p := fun e => h (e ▸ List.prefix_refl _)
  rw [if_neg hne, if_neg h]

theorem rm_other (f : File V) {p q : Path} (h : ¬ p <+: q) : rm f p q = f q := if_neg h

theorem rm_below (f : File V) {p q : Path} (h : p <+: q) : rm f p q = none := if_pos h

theorem tPath_prefix {t t' : Name} {l : Path} (h : tPath t <+: tPath t' ++ l) : t = t' := by
  unfold tPath at h
  simp only [List.cons_append, List.nil_append, List.cons_prefix_cons] at h
  exact h.2.1

theorem rPath_prefix {t t' s s' x x' : Name} : rPath t s x <+: rPath t' s' x' ↔ t = t' ∧ s = s' ∧ x = x' := by
  unfold rPath tPath
  simp [List.cons_prefix_cons]

theorem rPath_tPath {t t' s x : Name} : ¬ rPath t s x <+: tPath t' := by
  intro h
  have := h.length_le
  simp [rPath, tPath] at this

theorem rPath_wPath {t t' s x i : Name} : ¬ rPath t s x <+: wPath t' i := by
  intro h
  have := h.length_le
  simp [rPath, tPath, wPath] at this

theorem wPath_prefix {t t' i i' : Name} : wPath t i <+: wPath t' i' ↔ t = t' ∧ i = i' := by
  unfold wPath tPath
  simp [List.cons_prefix_cons]

theorem wPath_tPath {t t' i : Name} : ¬ wPath t i <+: tPath t' := by
  intro h
  have := h.length_le
  simp [wPath, tPath] at this

theorem wPath_rPath {t t' i s x : Name} : ¬ wPath t i <+: rPath t' s x := by
  unfold wPath rPath tPath
  simp only [List.cons_append, List.nil_append, List.cons_prefix_cons]
  rintro ⟨_, _, h, _⟩
  exact absurd h (by decide)

/-- What of a file belongs to the rates of a transient and a star formation model. -/
def sameRates (f g : File V) (t s : Name) : Prop := ∀ x, f (rPath t s x) = g (rPath t s x)

theorem clear_other (f : File V) (t s : Name) (q : Path)
    (h : ∀ x ∈ [modelN, weightsN, eventsN, birthN], ¬ rPath t s x <+: q) : clear f t s q = f q := by
  unfold clear
  split_ifs
  · rw [rm_other _ (h _ (by simp)), rm_other _ (h _ (by simp)), rm_other _ (h _ (by simp)), rm_other _ (h _ (by simp))]
  · rfl

theorem cosmic_ok {C : Calc V} {f f' : File V} {t s i : Name} {write : Except Err V} (h : cosmic C f t s i write = (.ok (), f')) :
    ∃ pop w m, f (tPath t) = some pop ∧ f (wPath t i) = some w ∧ write = .ok m ∧ ¬ paramsSuffix <:+ i ∧
      f' = put (put (put (put (clear f t s) (rPath t s modelN) m) (rPath t s birthN) (C.births m)) (rPath t s weightsN) (C.weights pop w m))
        (rPath t s eventsN) (C.events pop m) := by
  unfold cosmic at h
  cases hp : f (tPath t) with
  | none => rw [hp] at h; simp at h
  | some pop =>
    cases hw : f (wPath t i) with
    | none => rw [hp, hw] at h; simp at h
    | some w =>
      rw [hp, hw] at h
      dsimp only at h
      by_cases hx : paramsSuffix <:+ i
      · rw [if_pos hx] at h; simp at h
      · rw [if_neg hx] at h
        cases write with
        | error e => simp at h
        | ok m =>
          simp only [Prod.mk.injEq, true_and] at h
          exact ⟨pop, w, m, rfl, rfl, rfl, hx, h.symm⟩

/-- C102: after the cosmic weights were calculated, the file holds the model of this call, and the weights and redshifts calculated from the
stored transients, the model weights asked for and this model. -/
theorem C102_cosmic {C : Calc V} {f f' : File V} {t s i : Name} {write : Except Err V} (h : cosmic C f t s i write = (.ok (), f')) :
    ∃ pop w m, f (tPath t) = some pop ∧ f (wPath t i) = some w ∧ write = .ok m ∧ openRates f' t s = .ok m ∧
      f' (rPath t s weightsN) = some (C.weights pop w m) ∧ f' (rPath t s eventsN) = some (C.events pop m) ∧
      f' (rPath t s birthN) = some (C.births m) := by
  obtain ⟨pop, w, m, hp, hw, hm, _, rfl⟩ := cosmic_ok h
  have n1 : weightsN ≠ eventsN := by decide
  have n2 : birthN ≠ eventsN := by decide
  have n3 : birthN ≠ weightsN := by decide
  have n4 : modelN ≠ eventsN := by decide
  have n5 : modelN ≠ weightsN := by decide
  have n6 : modelN ≠ birthN := by decide
  have hne : ∀ {x y : Name}, x ≠ y → ¬ rPath t s x <+: rPath t s y := fun hxy hh => hxy (rPath_prefix.mp hh).2.2
  refine ⟨pop, w, m, hp, hw, hm, ?_, ?_, ?_, ?_⟩
  · unfold openRates
    have e1 : (put (put (put (put (clear f t s) (rPath t s modelN) m) (rPath t s birthN) (C.births m)) (rPath t s weightsN)
        (C.weights pop w m)) (rPath t s eventsN) (C.events pop m)) (tPath t) = some pop := by
      rw [put_other _ _ rPath_tPath, put_other _ _ rPath_tPath, put_other _ _ rPath_tPath, put_other _ _ rPath_tPath,
        clear_other _ _ _ _ (fun _ _ => rPath_tPath), hp]
    rw [e1, put_other _ _ (hne n4.symm), put_other _ _ (hne n5.symm), put_other _ _ (hne n6.symm), put_self]
    rfl
  · rw [put_other _ _ (hne n1.symm), put_self]
  · rw [put_self]
  · rw [put_other _ _ (hne n2.symm), put_other _ _ (hne n3.symm), put_self]

/-- C102: cosmic weights, also if they fail, change nothing of other star formation models, of other transients, of transients and of model
weights. -/
theorem C102_cosmic_others (C : Calc V) (f : File V) (t s i : Name) (write : Except Err V) :
    (∀ t' s', (t' ≠ t ∨ s' ≠ s) → sameRates (cosmic C f t s i write).2 f t' s') ∧
    (∀ t', (cosmic C f t s i write).2 (tPath t') = f (tPath t')) ∧
    (∀ t' i', (cosmic C f t s i write).2 (wPath t' i') = f (wPath t' i')) := by
  have key : ∀ q : Path, (∀ x, ¬ rPath t s x <+: q) → (cosmic C f t s i write).2 q = f q := by
    intro q hq
    have hc := clear_other f t s q fun x _ => hq x
    unfold cosmic
    cases f (tPath t) with
    | none => rfl
    | some pop =>
      cases f (wPath t i) with
      | none => rfl
      | some w =>
        dsimp only
        split_ifs
        · rfl
        · cases write with
          | error e => exact hc
          | ok m =>
            dsimp only
            rw [put_other _ _ (hq _), put_other _ _ (hq _), put_other _ _ (hq _), put_other _ _ (hq _), hc]
  refine ⟨fun t' s' h x => key _ fun y hy => ?_, fun t' => key _ fun _ => rPath_tPath, fun t' i' => key _ fun _ => rPath_wPath⟩
  obtain ⟨h1, h2, _⟩ := rPath_prefix.mp hy
  rcases h with h | h
  · exact h h1.symm
  · exact h h2.symm

/-- C102 (in part: until the weights are calculated again): the rate density that is read is the one calculated from the stored weights,
redshifts and model; it belongs to this transient and star formation model only. -/
theorem C102_density_partial (C : Calc V) (f : File V) (t s : Name) (m w z : V) (hw : f (rPath t s weightsN) = some w)
    (hz : f (rPath t s eventsN) = some z) :
    (density C f t s m).1 = .ok (C.density w z m) ∧ readDensity (density C f t s m).2 t s = .ok (C.density w z m) ∧
    (∀ t' s', (t' ≠ t ∨ s' ≠ s) → sameRates (density C f t s m).2 f t' s') := by
  unfold density
  rw [hw, hz]
  refine ⟨rfl, ?_, fun t' s' h x => put_other _ _ fun hy => ?_⟩
  · unfold readDensity
    dsimp only
    rw [put_self]
  · obtain ⟨h1, h2, _⟩ := rPath_prefix.mp hy
    rcases h with h | h
    · exact h h1.symm
    · exact h h2.symm

/-- C102 fails: calculating the cosmic weights again, with whatever other model or model weights, removes the old weights but not the rate
density calculated from them, so that the old density is read beside the new weights. -/
theorem C102_stale_density_violated {C : Calc V} {f f' : File V} {t s i : Name} {write : Except Err V}
    (h : cosmic C f t s i write = (.ok (), f')) : readDensity f' t s = readDensity f t s := by
  obtain ⟨pop, w, m, _, _, _, _, rfl⟩ := cosmic_ok h
  have hne : ∀ {x y : Name}, x ≠ y → ¬ rPath t s x <+: rPath t s y := fun hxy hh => hxy (rPath_prefix.mp hh).2.2
  unfold readDensity
  rw [put_other _ _ (hne (by decide)), put_other _ _ (hne (by decide)), put_other _ _ (hne (by decide)), put_other _ _ (hne (by decide)),
    clear_other]
  intro x hx
  refine hne ?_
  revert x
  decide

/-- C102 fails: the same for model weights: the rates calculated with the old ones stay. -/
theorem C102_stale_rates_violated (f : File V) (t i : Name) (w params : V) (t' s : Name) :
    sameRates (modelWeights f t i w params) f t' s := by
  intro x
  unfold modelWeights
  dsimp only
  rw [put_other _ _ wPath_rPath, put_other _ _ wPath_rPath]
  split_ifs
  · rw [rm_other _ wPath_rPath, rm_other _ wPath_rPath]
  · rw [rm_other _ wPath_rPath]
  · rfl

theorem rPath_oPath {t t' s x o : Name} (h : s ≠ (chars! "observable")) : ¬ rPath t s x <+: oPath t' o := fun hh => h (rPath_prefix.mp hh).2.1

/-- C102 (in part: for one star formation model): an observable population that was calculated is read back. -/
theorem C102_observable_partial (f : File V) (t s o : Name) (g : V → V → V → V) (pop w z : V) (hs : s ≠ (chars! "observable"))
    (hp : f (tPath t) = some pop) (hw : f (rPath t s weightsN) = some w) (hz : f (rPath t s eventsN) = some z) :
    (observable f t s o g).1 = .ok () ∧ readObservable (observable f t s o g).2 t o = .ok (g pop z w) ∧
    ∀ o', o' ≠ o → readObservable (observable f t s o g).2 t o' = readObservable f t o' := by
  have hoT : ¬ oPath t o <+: tPath t := rPath_tPath
  have hoR : ∀ x, ¬ oPath t o <+: rPath t s x := fun x h => hs (rPath_prefix.mp h).2.1.symm
  have hpre : ∀ q, ¬ oPath t o <+: q → (if (f (oPath t o)).isSome = true then rm f (oPath t o) else f) q = f q := by
    intro q hq
    split_ifs
    · exact rm_other _ hq
    · rfl
  unfold observable
  dsimp only
  rw [hpre _ hoT, hpre _ (hoR _), hpre _ (hoR _), hp, hw, hz]
  refine ⟨rfl, ?_, fun o' ho' => ?_⟩
  · unfold readObservable
    dsimp only
    rw [put_self]
  · have hoo : ¬ oPath t o <+: oPath t o' := fun h => ho' (rPath_prefix.mp h).2.2.symm
    unfold readObservable
    dsimp only
    rw [put_other _ _ hoo, hpre _ hoo]

/-- C102 fails: observable populations are stored without the star formation model. Two models that use the same name have one table: after
both are calculated, what the first one reads is that of the second. -/
theorem C102_observable_violated (f : File V) (t s s' o : Name) (g : V → V → V → V) (pop w' z' : V)
    (hs' : s' ≠ (chars! "observable")) (hp : f (tPath t) = some pop)
    (hw' : f (rPath t s' weightsN) = some w') (hz' : f (rPath t s' eventsN) = some z') :
    readObservable (observable (observable f t s o g).2 t s' o g).2 t o = .ok (g pop z' w') := by
  have hframe : ∀ q, ¬ oPath t o <+: q → (observable f t s o g).2 q = f q := by
    intro q hq
    unfold observable
    dsimp only
    have hpre : (if (f (oPath t o)).isSome = true then rm f (oPath t o) else f) q = f q := by
      split_ifs
      · exact rm_other _ hq
      · rfl
    split
    · exact (put_other _ _ hq).trans hpre
    · exact hpre
  have hoR : ∀ s₀ x, s₀ ≠ (chars! "observable") → ¬ oPath t o <+: rPath t s₀ x := fun s₀ x hn h => hn (rPath_prefix.mp h).2.1.symm
  have h1 := (hframe (tPath t) rPath_tPath).trans hp
  have h2 := (hframe _ (hoR s' weightsN hs')).trans hw'
  have h3 := (hframe _ (hoR s' eventsN hs')).trans hz'
  exact (C102_observable_partial _ t s' o g pop w' z' hs' h1 h2 h3).2.1

/-- C102 fails: observable populations are kept when the cosmic weights they come from are calculated again. -/
theorem C102_stale_observable_violated {C : Calc V} {f f' : File V} {t s i : Name} {write : Except Err V} (o : Name) (hs : s ≠ (chars! "observable"))
    (h : cosmic C f t s i write = (.ok (), f')) : readObservable f' t o = readObservable f t o := by
  obtain ⟨pop, w, m, _, _, _, _, rfl⟩ := cosmic_ok h
  unfold readObservable
  rw [put_other _ _ (rPath_oPath hs), put_other _ _ (rPath_oPath hs), put_other _ _ (rPath_oPath hs), put_other _ _ (rPath_oPath hs),
    clear_other _ _ _ _ fun _ _ => rPath_oPath hs]

/-- C102 fails: a star formation model called `observable` shares its place with observable populations: its own tables are read as such. -/
theorem C102_name_violated {C : Calc V} {f f' : File V} {t i : Name} {write : Except Err V}
    (h : cosmic C f t (chars! "observable") i write = (.ok (), f')) : ∃ m, write = .ok m ∧ readObservable f' t modelN = .ok m := by
  obtain ⟨pop, w, m, _, _, hm, ho, _⟩ := C102_cosmic h
  refine ⟨m, hm, ?_⟩
  unfold openRates at ho
  split_ifs at ho
  cases hx : f' (rPath t (chars! "observable") modelN) with
  | none => rw [hx] at ho; cases ho
  | some m' =>
    rw [hx] at ho
    cases ho
    unfold readObservable oPath
    rw [hx]

/-- C102: making the transients of a name again leaves no model weights, rates or observables of the old ones. Other names keep theirs. -/
theorem C102_create (f : File V) (t : Name) (pop : Option V) (h : (f (tPath t)).isSome = true) :
    (∀ q, tPath t <+: q → q ≠ tPath t → create f t pop q = none) ∧ create f t pop (tPath t) = pop ∧
    ∀ q, ¬ tPath t <+: q → create f t pop q = f q := by
  unfold create
  rw [if_pos h]
  cases pop with
  | none => exact ⟨fun q hq _ => rm_below f hq, rm_below f (List.prefix_refl _), fun q hq => rm_other f hq⟩
  | some v =>
    refine ⟨fun q hq hne => ?_, put_self _ _ _, fun q hq => ?_⟩
    · dsimp only
      unfold put
      rw [if_neg hne]
      exact rm_below _ hq
    · exact (put_other _ _ hq).trans (rm_other f hq)

/-- C102 (in part: for identifiers without the reserved ending): model weights that were calculated are found again under their identifier, are
listed, and others are not changed. -/
theorem C102_model_weights_partial (f : File V) (t i : Name) (w params : V) (hi : ¬ paramsSuffix <:+ i) :
    modelWeights f t i w params (wPath t i) = some w ∧ listed (modelWeights f t i w params) t i ∧
    ∀ i', i' ≠ i → ¬ paramsSuffix <:+ i' → modelWeights f t i w params (wPath t i') = f (wPath t i') := by
  have hne : i ++ paramsSuffix ≠ i := by
    intro h
    have := congrArg List.length h
    rw [List.length_append] at this
    have : paramsSuffix.length = 22 := by decide
    omega
  have h1 : modelWeights f t i w params (wPath t i) = some w := by
    unfold modelWeights
    dsimp only
    rw [put_other _ _ (fun h => hne (wPath_prefix.mp h).2), put_self]
  refine ⟨h1, ⟨by rw [h1]; rfl, hi⟩, fun i' hi' hs => ?_⟩
  have g1 : ¬ wPath t i <+: wPath t i' := fun h => hi' (wPath_prefix.mp h).2.symm
  have g2 : ¬ wPath t (i ++ paramsSuffix) <+: wPath t i' := fun h => hs ((wPath_prefix.mp h).2 ▸ List.suffix_append _ _)
  unfold modelWeights
  dsimp only
  rw [put_other _ _ g2, put_other _ _ g1]
  split_ifs
  · rw [rm_other _ g2, rm_other _ g1]
  · rw [rm_other _ g1]
  · rfl

/-- C102 fails: model weights whose identifier has the reserved ending are stored but never listed, so cosmic weights cannot be calculated
from them; and calculating those of the identifier without the ending replaces them by a table of parameters. -/
theorem C102_suffix_violated (C : Calc V) (f : File V) (t i s : Name) (w params w' params' : V) (write : Except Err V) :
    ¬ listed (modelWeights f t (i ++ paramsSuffix) w params) t (i ++ paramsSuffix) ∧
    (∃ e, (cosmic C (modelWeights f t (i ++ paramsSuffix) w params) t s (i ++ paramsSuffix) write).1 = .error e) ∧
    modelWeights (modelWeights f t (i ++ paramsSuffix) w params) t i w' params' (wPath t (i ++ paramsSuffix)) = some params' := by
  refine ⟨fun h => h.2 (List.suffix_append _ _), ?_, ?_⟩
  · unfold cosmic
    cases (modelWeights f t (i ++ paramsSuffix) w params) (tPath t) with
    | none => exact ⟨_, rfl⟩
    | some pop =>
      cases (modelWeights f t (i ++ paramsSuffix) w params) (wPath t (i ++ paramsSuffix)) with
      | none => exact ⟨_, rfl⟩
      | some w =>
        dsimp only
        rw [if_pos (List.suffix_append _ _)]
        exact ⟨_, rfl⟩
  · unfold modelWeights
    dsimp only
    rw [put_self]

/-- C102 fails: when the model cannot be written, the old model, weights and redshifts are already gone: the rates cannot be opened. -/
theorem C102_failed_violated (C : Calc V) (f : File V) (t s i : Name) (pop w m : V) (e : Err) (hp : f (tPath t) = some pop)
    (hw : f (wPath t i) = some w) (hi : ¬ paramsSuffix <:+ i) (hm : f (rPath t s modelN) = some m) :
    (cosmic C f t s i (.error e)).1 = .error e ∧ openRates f t s = .ok m ∧ openRates (cosmic C f t s i (.error e)).2 t s = .error .value := by
  have h0 : (f (rPath t s modelN)).isSome = true := by rw [hm]; rfl
  have hne : ∀ {x y : Name}, x ≠ y → ¬ rPath t s x <+: rPath t s y := fun hxy hh => hxy (rPath_prefix.mp hh).2.2
  have hc : cosmic C f t s i (.error e) = (.error e, clear f t s) := by
    unfold cosmic
    rw [hp, hw]
    dsimp only
    rw [if_neg hi]
  rw [hc]
  refine ⟨rfl, ?_, ?_⟩
  · unfold openRates
    rw [hp, hm]
    rfl
  · have hx : clear f t s (tPath t) = some pop := (clear_other _ _ _ _ (fun _ _ => rPath_tPath)).trans hp
    show openRates (clear f t s) t s = _
    unfold openRates
    rw [hx]
    have : clear f t s (rPath t s modelN) = none := by
      unfold clear
      rw [if_pos h0, rm_other _ (hne (by decide)), rm_other _ (hne (by decide)), rm_other _ (hne (by decide)), rm_below _ (List.prefix_refl _)]
    rw [this]
    rfl

/-! ### The metallicity width -/

/-- C102 (in part: not for lists that are not a range in order, nor for whole numbers): the metallicity width of the model is read as it was
written. -/
theorem C102_width_partial (d : DlogZ) (h : match d with | .none => True | .float _ => True | .int _ => False | .list l => ∃ a b, a ≤ b ∧ l = [a, b]) :
    ∃ t, writeDlogZ d = .ok t ∧ readDlogZ t = .ok d := by
  cases d with
  | none => exact ⟨_, rfl, rfl⟩
  | float q => exact ⟨_, rfl, rfl⟩
  | int q => exact h.elim
  | list l =>
    obtain ⟨a, b, hab, rfl⟩ := h
    refine ⟨_, rfl, ?_⟩
    show Except.ok (DlogZ.list [min a b, max a b]) = _
    rw [min_eq_left hab, max_eq_right hab]

/-- C102 fails: a list of one number comes back as a width, a list in the other order is turned around, longer lists lose what is between,
and a whole number or an empty list fail. -/
theorem C102_width_violated :
    (∀ q, (writeDlogZ (.list [q])).bind readDlogZ = .ok (.float q)) ∧
    (∀ a b, b < a → (writeDlogZ (.list [a, b])).bind readDlogZ = .ok (.list [b, a])) ∧
    (∀ a b c, a ≤ b → b ≤ c → (writeDlogZ (.list [a, b, c])).bind readDlogZ = .ok (.list [a, c])) ∧
    (∀ q, (writeDlogZ (.int q)).bind readDlogZ = .error .value) ∧ (writeDlogZ (.list [])).bind readDlogZ = .error .key := by
  refine ⟨fun q => rfl, fun a b h => ?_, fun a b c h1 h2 => ?_, fun q => rfl, rfl⟩
  · show Except.ok (DlogZ.list [min a b, max a b]) = _
    rw [min_eq_right h.le, max_eq_left h.le]
  · show Except.ok (DlogZ.list [min (min a b) c, max (max a b) c]) = _
    rw [min_eq_left h1, max_eq_right h1, min_eq_left (h1.trans h2), max_eq_right h2]

/-! ### Cases -/

def calc0 : Calc ℕ := ⟨fun p w m => 100 * p + 10 * w + m, fun p m => 1000 + 10 * p + m, fun m => 2000 + m, fun w z m => w + z + m⟩

def f0 : File ℕ := modelWeights (create (fun _ => none) (chars! "BBH") (some 1)) (chars! "BBH") (chars! "w") 2 7
def f1 : File ℕ := (cosmic calc0 f0 (chars! "BBH") (chars! "A") (chars! "w") (.ok 3)).2
def f2 : File ℕ := (density calc0 f1 (chars! "BBH") (chars! "A") 3).2
def f3 : File ℕ := (cosmic calc0 f2 (chars! "BBH") (chars! "A") (chars! "w") (.ok 5)).2

-- weights 123 of model 3, the density from it, and the same density after the model is 5
example : f1 (rPath (chars! "BBH") (chars! "A") weightsN) = some 123 ∧
    (cosmic calc0 f0 (chars! "BBH") (chars! "A") (chars! "w") (.ok 3)).1.toOption = some () ∧
    (readDensity f2 (chars! "BBH") (chars! "A")).toOption = some (123 + 1013 + 3) ∧
    f3 (rPath (chars! "BBH") (chars! "A") weightsN) = some 125 ∧
    (readDensity f3 (chars! "BBH") (chars! "A")).toOption = some (123 + 1013 + 3) ∧
    create f3 (chars! "BBH") (some 9) (rPath (chars! "BBH") (chars! "A") weightsN) = none := by decide +kernel

/-- C102: where the tables are in the file. -/
theorem C102_layout (t s o : Name) :
    rPath t s modelN = ["transients".toList, t, "rates".toList, s, "MODEL".toList] ∧
    rPath t s weightsN = ["transients".toList, t, "rates".toList, s, "weights".toList] ∧
    rPath t s eventsN = ["transients".toList, t, "rates".toList, s, "z_events".toList] ∧
    rPath t s birthN = ["transients".toList, t, "rates".toList, s, "birth".toList] ∧
    rPath t s densityN = ["transients".toList, t, "rates".toList, s, "intrinsic_rate_density".toList] ∧
    oPath t o = ["transients".toList, t, "rates".toList, "observable".toList, o] := by
  refine ⟨?_, ?_, ?_, ?_, ?_, ?_⟩ <;>
    simp only [rPath, oPath, tPath, modelN, weightsN, eventsN, birthN, densityN, List.cons_append, List.nil_append] <;> rfl

/-- C102: what is missing is an error, and nothing is changed. -/
theorem C102_missing (C : Calc V) (f : File V) (t s i o : Name) (write : Except Err V) :
    (f (tPath t) = none → cosmic C f t s i write = (.error .key, f)) ∧
    (f (tPath t) ≠ none → f (wPath t i) = none → cosmic C f t s i write = (.error .value, f)) ∧
    (f (oPath t o) = none → readObservable f t o = .error .value) ∧ (f (rPath t s densityN) = none → readDensity f t s = .error .value) := by
  refine ⟨fun h => ?_, fun h1 h2 => ?_, fun h => ?_, fun h => ?_⟩
  · unfold cosmic; rw [h]
  · unfold cosmic
    rw [h2]
    cases hp : f (tPath t) with
    | none => exact absurd hp h1
    | some p => rfl
  · unfold readObservable; rw [h]
  · unfold readDensity; rw [h]

end Verif.RateStore
