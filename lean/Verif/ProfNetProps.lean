import Verif.ProfNet
/-!
Properties of the training of density profiles (C101, continued).
-/
namespace Verif.ProfNet

open ProfTrain (Name)

theorem normals_none {I : Type} (l : List (Bin I)) : normals l = none ↔ ∃ b ∈ l, b.prof 0 = b.prof 199 := by
  induction l with
  | nil => simp [normals]
  | cons b l ih =>
    rw [normals]
    by_cases hb : b.prof 0 - b.prof 199 = 0
    · rw [normal, if_pos hb]
      exact ⟨fun _ => ⟨b, by simp, sub_eq_zero.mp hb⟩, fun _ => rfl⟩
    · rw [normal, if_neg hb]
      cases h : normals l with
      | none =>
        obtain ⟨c, hc, e⟩ := ih.mp h
        exact ⟨fun _ => ⟨c, List.mem_cons_of_mem _ hc, e⟩, fun _ => rfl⟩
      | some r =>
        refine ⟨fun e => (by simp at e), fun ⟨c, hc, e⟩ => ?_⟩
        rcases List.mem_cons.mp hc with rfl | hc
        · exact absurd (sub_eq_zero.mpr e) hb
        · rw [ih.mpr ⟨c, hc, e⟩] at h
          cases h

/-- Normalised profile of one that is not constant, by itself. -/
def unit (p : ℕ → ℚ) (k : ℕ) : ℚ := (p k - p 199) / (p 0 - p 199)

theorem normals_some {I : Type} (l : List (Bin I)) (h : ∀ b ∈ l, b.prof 0 ≠ b.prof 199) : normals l = some (l.map fun b => unit b.prof) := by
  induction l with
  | nil => rfl
  | cons b l ih =>
    rw [normals, normal, if_neg (sub_ne_zero.mpr (h b (by simp))), ih fun c hc => h c (List.mem_cons_of_mem _ hc)]
    rfl

theorem zip_self {A B : Type} (l : List A) (f : A → B) : l.zip (l.map f) = l.map fun a => (a, f a) := by
  induction l with
  | nil => rfl
  | cons a l ih => rw [List.map_cons, List.zip_cons_cons, ih, List.map_cons]

/-- C101: training succeeds exactly if there are enough binaries, at least one for validation, and no profile, for training or validation, has the same density in the
centre and at the surface. -/
theorem C101_trains {I W : Type} (T : Tools I W) (comps : ℕ) (bins valid : List (Bin I)) :
    (∃ d, train T comps bins valid = .ok d) ↔
      comps ≤ bins.length ∧ comps ≤ 200 ∧ valid ≠ [] ∧ ∀ b ∈ bins ++ valid, b.prof 0 ≠ b.prof 199 := by
  unfold train
  constructor
  · rintro ⟨d, h⟩
    cases h1 : normals bins with
    | none => rw [h1] at h; cases h
    | some ps =>
      cases h2 : normals valid with
      | none => rw [h1, h2] at h; cases h
      | some vs =>
        rw [h1, h2] at h
        dsimp only at h
        split at h
        · cases h
        · rename_i hn
          have hn' := not_or.mp hn
          have hn'' := not_or.mp hn'.2
          refine ⟨not_lt.mp hn'.1, not_lt.mp hn''.1, hn''.2, fun b hb e => ?_⟩
          rcases List.mem_append.mp hb with hb | hb
          · rw [(normals_none bins).mpr ⟨b, hb, e⟩] at h1; cases h1
          · rw [(normals_none valid).mpr ⟨b, hb, e⟩] at h2; cases h2
  · rintro ⟨h1, h2, h3, h4⟩
    rw [normals_some bins fun b hb => h4 b (List.mem_append_left _ hb), normals_some valid fun b hb => h4 b (List.mem_append_right _ hb)]
    dsimp only
    rw [if_neg (not_or.mpr ⟨not_lt.mpr h1, not_or.mpr ⟨not_lt.mpr h2, h3⟩⟩)]
    exact ⟨_, rfl⟩

/-- What a successful training gives. -/
theorem train_ok {I W : Type} (T : Tools I W) (comps : ℕ) (bins valid : List (Bin I)) (d : Dens I W) (h : train T comps bins valid = .ok d) :
    (∀ b ∈ bins, b.prof 0 ≠ b.prof 199) ∧
    d.pca = T.pca (bins.map fun b => unit b.prof) ∧ d.classes = (bins.map (·.cls)).dedup ∧
    (∀ c, d.models c = if c ∈ skipped then T.fresh
      else T.fit ((bins.filter fun b => decide (b.cls = c)).map fun b => (b.x, d.pca.fwd (unit b.prof)))) ∧
    d.surf = T.fitSurf (bins.map fun b => (b.x, b.prof 199)) ∧ d.history = d.classes.filter fun c => decide (c ∉ skipped) := by
  obtain ⟨h1, h2, h3, h4⟩ := (C101_trains T comps bins valid).mp ⟨d, h⟩
  have hb : ∀ b ∈ bins, b.prof 0 ≠ b.prof 199 := fun b hb => h4 b (List.mem_append_left _ hb)
  unfold train at h
  rw [normals_some bins hb, normals_some valid fun b hb => h4 b (List.mem_append_right _ hb)] at h
  dsimp only at h
  rw [if_neg (not_or.mpr ⟨not_lt.mpr h1, not_or.mpr ⟨not_lt.mpr h2, h3⟩⟩)] at h
  injection h with h
  subst h
  refine ⟨hb, rfl, rfl, fun c => ?_, rfl, rfl⟩
  dsimp only
  rw [List.map_map, zip_self, List.filter_map, List.map_map]
  rfl

/-- C101: the network of a class with a profile is trained on the binaries of this class, all and only those, each with its own weights; losses are kept for exactly
the classes with a profile that occur in the training data, and the network for the density of the surface is trained on all binaries. -/
theorem C101_trained {I W : Type} (T : Tools I W) (comps : ℕ) (bins valid : List (Bin I)) (d : Dens I W) (h : train T comps bins valid = .ok d) :
    (∀ c, c ≠ (chars! "not_converged") → c ≠ (chars! "initial_MT") →
      d.models c = T.fit ((bins.filter fun b => decide (b.cls = c)).map fun b => (b.x, d.pca.fwd (unit b.prof)))) ∧
    (∀ c, c ∈ d.history ↔ (∃ b ∈ bins, b.cls = c) ∧ c ≠ (chars! "not_converged") ∧ c ≠ (chars! "initial_MT")) ∧
    d.history.Nodup ∧
    d.surf = T.fitSurf (bins.map fun b => (b.x, b.prof 199)) := by
  obtain ⟨_, _, hc, hm, hs, hh⟩ := train_ok T comps bins valid d h
  refine ⟨fun c h1 h2 => ?_, fun c => ?_, ?_, hs⟩
  · rw [hm, if_neg (by simp only [skipped, List.mem_cons, List.not_mem_nil, or_false, not_or]; exact ⟨h1, h2⟩)]
  · rw [hh, hc]
    simp only [List.mem_filter, List.mem_dedup, List.mem_map, decide_eq_true_eq, skipped, List.mem_cons, List.not_mem_nil, or_false, not_or, ne_eq]
  · rw [hh, hc]
    exact (List.nodup_dedup _).filter _

/-- C101: networks that are not trained are never used: whatever they give, predictions are the same. -/
theorem C101_untrained_unused {I W : Type} (T : Tools I W) (fresh : I → W) (comps : ℕ) (bins valid : List (Bin I)) (d e : Dens I W)
    (hd : train T comps bins valid = .ok d) (he : train { T with fresh := fresh } comps bins valid = .ok e)
    (cls : I → Name) (center : I → ℚ) (inputs : List I) : predict d cls center inputs = predict e cls center inputs := by
  obtain ⟨_, p1, c1, m1, s1, _⟩ := train_ok _ comps bins valid d hd
  obtain ⟨_, p2, c2, m2, s2, _⟩ := train_ok _ comps bins valid e he
  have hp : d.pca = e.pca := p1.trans p2.symm
  unfold predict ProfTrain.density
  rw [c1, c2, s1, s2]
  apply List.map_congr_left
  intro i _
  funext k
  dsimp only
  by_cases hs : cls i = (chars! "not_converged") ∨ cls i = (chars! "initial_MT")
  · rw [if_pos hs, if_pos hs]
  · have hn : cls i ∉ skipped := by
      simp only [skipped, List.mem_cons, List.not_mem_nil, or_false]
      exact hs
    rw [if_neg hs, if_neg hs, m1, m2, if_neg hn, if_neg hn, hp]

/-- C101: a binary of the training data is predicted with its own profile, in every cell, if the tools make no error: the analysis keeps its normalised profile, the
network of its class gives its weights, that of the surface its density there, and the interpolator its class and its central density. -/
theorem C101_exact {I W : Type} (T : Tools I W) (comps : ℕ) (bins valid : List (Bin I)) (d : Dens I W) (h : train T comps bins valid = .ok d)
    (cls : I → Name) (center : I → ℚ) (b : Bin I) (hb : b ∈ bins) (h1 : b.cls ≠ (chars! "not_converged")) (h2 : b.cls ≠ (chars! "initial_MT"))
    (hcls : cls b.x = b.cls) (hcen : center b.x = b.prof 0)
    (hpca : d.pca.inv (d.pca.fwd (unit b.prof)) = unit b.prof)
    (hfit : ∀ data : List (I × W), (b.x, d.pca.fwd (unit b.prof)) ∈ data → T.fit data b.x = d.pca.fwd (unit b.prof))
    (hsurf : ∀ data : List (I × ℚ), (b.x, b.prof 199) ∈ data → T.fitSurf data b.x = b.prof 199) :
    predict d cls center [b.x] = [fun k => some (b.prof k)] := by
  obtain ⟨hne, _, hc, hm, hs, _⟩ := train_ok T comps bins valid d h
  have hn : b.cls ∉ skipped := by
    simp only [skipped, List.mem_cons, List.not_mem_nil, or_false, not_or]
    exact ⟨h1, h2⟩
  have hmem : b.cls ∈ d.classes := by
    rw [hc, List.mem_dedup]
    exact List.mem_map.mpr ⟨b, hb, rfl⟩
  have hsv : d.surf b.x = b.prof 199 := by
    rw [hs]
    exact hsurf _ (List.mem_map.mpr ⟨b, hb, rfl⟩)
  have hmv : d.models b.cls b.x = d.pca.fwd (unit b.prof) := by
    rw [hm, if_neg hn]
    exact hfit _ (List.mem_map.mpr ⟨b, List.mem_filter.mpr ⟨hb, by simp⟩, rfl⟩)
  unfold predict ProfTrain.density
  simp only [List.map_cons, List.map_nil, hcls, if_pos hmem, if_neg (not_or.mpr ⟨h1, h2⟩), hmv, hpca, Option.map_some, hsv, hcen]
  congr
  funext k
  congr 1
  have hd : b.prof 0 - b.prof 199 ≠ 0 := sub_ne_zero.mpr (hne b hb)
  unfold unit
  rw [div_mul_cancel₀ _ hd]
  ring

/-- C101 fails: one binary with a constant profile, even one of a class that has no network or one for validation only, stops the training for all. -/
theorem C101_constant_violated {I W : Type} (T : Tools I W) (comps : ℕ) (bins valid : List (Bin I)) (b : Bin I) (hb : b ∈ bins ++ valid)
    (hc : ∀ k, b.prof k = b.prof 0) : train T comps bins valid = .error .value := by
  cases h : train T comps bins valid with
  | ok d => exact absurd (hc 199).symm (((C101_trains T comps bins valid).mp ⟨d, h⟩).2.2.2 b hb)
  | error e =>
    congr 1
    unfold train at h
    split at h
    · dsimp only at h
      split at h
      · injection h with h; exact h.symm
      · cases h
    · injection h with h; exact h.symm

/-- C101: training gives the histories of exactly what was trained, and prediction the profiles of exactly what was trained; training without histories gives nothing. -/
theorem C101_outputs (comp dens : Bool) (h : (comp || dens) = true) :
    trainOut comp dens true = predictOut comp dens ∧ trainOut comp dens false = .ok .none ∧
    predictOut comp dens = .ok (match comp, dens with | true, true => .both | true, false => .composition | _, _ => .density) := by
  revert comp dens
  intro comp dens
  cases comp <;> cases dens <;> intro h <;> first | exact ⟨rfl, rfl, rfl⟩ | cases h

/-- C101 fails: the warning that nothing was trained stops the program, as its function is not defined. -/
theorem C101_nothing_violated : trainOut false false true = .error .name ∧ predictOut false false = .error .name := ⟨rfl, rfl⟩

/-! A case: two classes, one binary each, and one that did not converge; the analysis keeps the profile, networks look up what they were trained on. -/

def look {A B : Type} [DecidableEq A] (z : B) (data : List (A × B)) (x : A) : B :=
  match data.find? fun p => decide (p.1 = x) with
  | some p => p.2
  | none => z

def tools : Tools ℕ (ℕ → ℚ) := { pca := fun _ => ⟨id, id⟩, fit := look fun _ => 0, fresh := fun _ _ => 7, fitSurf := look 0 }

def line (a b : ℚ) (k : ℕ) : ℚ := a + (b - a) * k / 199

def cases : List (Bin ℕ) := [⟨1, line 5 (-9), (chars! "stable_MT")⟩, ⟨2, line 3 (-7), (chars! "no_MT")⟩, ⟨3, line 1 0, (chars! "not_converged")⟩]

def kind (i : ℕ) : Name := if i = 1 then (chars! "stable_MT") else if i = 2 then (chars! "no_MT") else (chars! "not_converged")

def watch : List (Bin ℕ) := [⟨4, line 2 1, (chars! "no_MT")⟩]

/-- Values in the centre and at the surface predicted for three binaries after training, with the classes that have losses. -/
def ends (T : Tools ℕ (ℕ → ℚ)) (bins : List (Bin ℕ)) : Option (List Name × List (Option ℚ × Option ℚ)) :=
  (train T 2 bins watch).toOption.map fun d =>
    (d.history, (predict d kind (fun i => if i = 1 then 5 else 3) [1, 2, 3]).map fun r => (r 0, r 199))

example : ends tools cases = some ([(chars! "stable_MT"), (chars! "no_MT")], [(some 5, some (-9)), (some 3, some (-7)), (none, none)]) := by
  decide +kernel

/-- An analysis without components, which gives the mean of the profiles it was fitted to. -/
def mean : Tools ℕ (ℕ → ℚ) :=
  { tools with pca := fun ps => ⟨id, fun _ k => (ps.map fun p => p k).sum / ps.length⟩ }

def bend (a b : ℚ) (k : ℕ) : ℚ := if k = 0 then a else b

/-- The binaries of the case with another profile of that which did not converge. -/
def cases' : List (Bin ℕ) := [⟨1, line 5 (-9), (chars! "stable_MT")⟩, ⟨2, line 3 (-7), (chars! "no_MT")⟩, ⟨3, bend 1 0, (chars! "not_converged")⟩]

/-- The value predicted in a cell for the first binary. -/
def cell (T : Tools ℕ (ℕ → ℚ)) (bins : List (Bin ℕ)) (k : ℕ) : Option (Option ℚ) :=
  (train T 2 bins watch).toOption.bind fun d => ((predict d kind (fun i => if i = 1 then 5 else 3) [1]).map fun r => r k).head?

/-- C101 fails: profiles of binaries that did not converge, for which nothing is predicted, take part in the analysis all predictions are made with: another profile
of such a binary changes the prediction for one of another class. -/
theorem C101_analysis_violated : ∃ (T : Tools ℕ (ℕ → ℚ)) (a b : List (Bin ℕ)),
    (a.filter fun x => decide (x.cls ∉ skipped)) = (b.filter fun x => decide (x.cls ∉ skipped)) ∧
    (∃ x y, cell T a 100 = some (some x) ∧ cell T b 100 = some (some y) ∧ x ≠ y) := by
  refine ⟨mean, cases, cases', rfl, (cell mean cases 100).get!.get!, (cell mean cases' 100).get!.get!, ?_, ?_, ?_⟩ <;> decide +kernel

end Verif.ProfNet
