import Verif.Regress
import Verif.ClassifyProps
import Mathlib.Algebra.Order.Field.Basic
import Mathlib.Tactic.Linarith
import Mathlib.Tactic.FieldSimp
import Mathlib.Tactic.Ring
import Mathlib.Tactic.NormNum

/-!
# Regressors of the active learning: properties (C122)
-/

namespace Verif.Regress

open Verif.Classify (Algo lower split argmax)

/-! ### Names -/

/-- Every accepted name leads to its algorithm, the keys are accepted as names themselves, and upper and lower case do not
matter. -/
theorem C122_names (a : Algo) :
    (∀ s ∈ names a, key s = some a) ∧ key (text a) = some a ∧
    ∀ s t, lower s = lower t → key s = key t := by
  refine ⟨?_, ?_, fun s t h => by unfold key; rw [h]⟩
  · cases a <;> decide +kernel
  · cases a <;> decide +kernel

theorem key_text (a : Algo) : key (text a) = some a := (C122_names a).2.1

/-- Training with an unknown name changes nothing, and does not raise if the columns are given. -/
theorem C122_unknown {X F : Type} (lib : Lib X F) (d : Data X) (st : St F) (s : Name) (cs : List Name)
    (ks : Option (List Name)) (di : Option (List ℕ)) (h : key s = none) :
    (train lib d st (some s) cs ks di).1 = st ∧
    (ks.isSome → train lib d st (some s) cs ks di = (st, .ok ())) := by
  unfold train
  dsimp only
  constructor
  · cases h1 : trainCols d cs ks with
    | error e => rfl
    | ok o => cases o <;> simp [h]
  · intro hk
    cases ks with
    | none => cases hk
    | some ks => simp [trainCols, h]

example : key (chars! "spline") = none := by decide +kernel

/-! ### Training -/

/-- The fitted functions in use. -/
def active {F : Type} (st : St F) : Store F := if st.flag then st.cv else st.main

/-- The others. -/
def passive {F : Type} (st : St F) : Store F := if st.flag then st.main else st.cv

theorem storeOne_spec {F : Type} (a : Algo) (st : St F) (p : (Name × Name) × Option F) :
    active (storeOne a st p) = put (active st) a p ∧ passive (storeOne a st p) = passive st ∧
    (storeOne a st p).flag = st.flag ∧ (storeOne a st p).any = true := by
  obtain ⟨m, c, f, y⟩ := st
  cases f <;> simp [storeOne, active, passive]

theorem store_spec {F : Type} (a : Algo) (g : Name × Name → Option F) :
    ∀ (l : List ((Name × Name) × Option F)) (st : St F), (∀ p ∈ l, p.2 = g p.1) →
      (∀ b c k, active (l.foldl (storeOne a) st) b c k =
        if b = a ∧ (c, k) ∈ l.map (·.1) then some (g (c, k)) else active st b c k) ∧
      passive (l.foldl (storeOne a) st) = passive st ∧ (l.foldl (storeOne a) st).flag = st.flag ∧
      (l ≠ [] → (l.foldl (storeOne a) st).any = true) ∧
      (st.any = true → (l.foldl (storeOne a) st).any = true)
  | [], st, _ => by simp
  | p :: r, st, h => by
    obtain ⟨s1, s2, s3, s4⟩ := storeOne_spec a st p
    obtain ⟨i1, i2, i3, i4, i5⟩ := store_spec a g r (storeOne a st p)
      (fun q hq => h q (List.mem_cons_of_mem _ hq))
    rw [List.foldl_cons]
    refine ⟨?_, i2.trans s2, i3.trans s3, fun _ => i5 s4, fun _ => i5 s4⟩
    intro b c k
    rw [i1, s1]
    have hp : p.2 = g p.1 := h p (by simp)
    by_cases h1 : b = a ∧ (c, k) ∈ r.map (·.1)
    · rw [if_pos h1, if_pos ⟨h1.1, by rw [List.map_cons]; exact List.mem_cons_of_mem _ h1.2⟩]
    · rw [if_neg h1]
      unfold put
      by_cases h2 : b = a ∧ c = p.1.1 ∧ k = p.1.2
      · have h3 : (c, k) = p.1 := by rw [h2.2.1, h2.2.2]
        rw [if_pos h2, if_pos ⟨h2.1, by rw [List.map_cons, h3]; exact List.mem_cons_self⟩, hp, h3]
      · rw [if_neg h2, if_neg]
        rintro ⟨h3, h4⟩
        rw [List.map_cons] at h4
        rcases List.mem_cons.mp h4 with h5 | h5
        · exact h2 ⟨h3, by rw [← h5], by rw [← h5]⟩
        · exact h1 ⟨h3, h5⟩

/-- The result of a fit, `None` for errors. -/
def fitted {X F : Type} (lib : Lib X F) (d : Data X) (a : Algo) (di : Option (List ℕ)) (p : Name × Name) :
    Option F :=
  match fitOne lib d a di p.1 p.2 with
  | .ok f => f
  | .error _ => none

theorem fitAll_spec {X F : Type} (lib : Lib X F) (d : Data X) (a : Algo) (di : Option (List ℕ)) :
    ∀ (ps : List (Name × Name)) (l : List ((Name × Name) × Option F)), fitAll lib d a di ps = .ok l →
      l.map (·.1) = ps ∧ ∀ p ∈ l, fitOne lib d a di p.1.1 p.1.2 = .ok p.2
  | [], l, h => by
    cases h
    simp
  | p :: r, l, h => by
    unfold fitAll at h
    cases h1 : fitOne lib d a di p.1 p.2 with
    | error e => rw [h1] at h; cases h
    | ok f =>
      rw [h1] at h
      dsimp only at h
      cases h2 : fitAll lib d a di r with
      | error e => rw [h2] at h; cases h
      | ok m =>
        rw [h2] at h
        cases h
        obtain ⟨i1, i2⟩ := fitAll_spec lib d a di r m h2
        refine ⟨by rw [List.map_cons, i1], ?_⟩
        intro q hq
        rcases List.mem_cons.mp hq with rfl | hq
        · exact h1
        · exact i2 q hq

theorem mem_pairs (cs ks : List Name) (c k : Name) : (c, k) ∈ pairs cs ks ↔ c ∈ cs ∧ k ∈ ks := by
  unfold pairs
  simp only [List.mem_flatMap, List.mem_map, Prod.mk.injEq]
  constructor
  · rintro ⟨x, hx, y, hy, rfl, rfl⟩
    exact ⟨hx, hy⟩
  · rintro ⟨h1, h2⟩
    exact ⟨c, h1, k, h2, rfl, rfl⟩

/-- What training does: if it raises nothing is stored.  Otherwise the fit of every class and column that was asked for is stored,
among the functions in use, and no other entry is changed. -/
theorem C122_train {X F : Type} (lib : Lib X F) (d : Data X) (st : St F) (s : Name) (cs : List Name)
    (ks : List Name) (di : Option (List ℕ)) (a : Algo) (ha : key s = some a) :
    (∀ st' e, train lib d st (some s) cs (some ks) di = (st', .error e) → st' = st) ∧
    ∀ st', train lib d st (some s) cs (some ks) di = (st', .ok ()) →
      (∀ c ∈ cs, ∀ k ∈ ks, ∃ f, fitOne lib d a di c k = .ok f ∧ active st' a c k = some f) ∧
      (∀ b c k, ¬ (b = a ∧ c ∈ cs ∧ k ∈ ks) → active st' b c k = active st b c k) ∧
      passive st' = passive st ∧ st'.flag = st.flag := by
  unfold train
  simp only [trainCols, ha]
  cases h : fitAll lib d a di (pairs cs ks) with
  | error e =>
    exact ⟨fun st' e' h' => (Prod.mk.inj h').1.symm, fun st' h' => absurd (Prod.mk.inj h').2 (by simp)⟩
  | ok l =>
    refine ⟨fun st' e' h' => absurd (Prod.mk.inj h').2 (by simp), fun st' h' => ?_⟩
    cases h'
    obtain ⟨h1, h2⟩ := fitAll_spec lib d a di _ l h
    obtain ⟨s1, s2, s3, -, -⟩ := store_spec a (fitted lib d a di) l st
      (fun p hp => by unfold fitted; rw [h2 p hp])
    refine ⟨?_, ?_, s2, s3⟩
    · intro c hc k hk
      have hm : (c, k) ∈ l.map (·.1) := by rw [h1, mem_pairs]; exact ⟨hc, hk⟩
      obtain ⟨p, hp, hpe⟩ := List.mem_map.mp hm
      have hf := h2 p hp
      rw [hpe] at hf
      refine ⟨p.2, hf, ?_⟩
      rw [s1, if_pos ⟨rfl, hm⟩]
      unfold fitted
      rw [hf]
    · intro b c k hn
      rw [s1, if_neg]
      rw [h1, mem_pairs]
      exact hn

/-- Whatever training is asked for, only the functions in use may change, and the switch does not. -/
theorem C122_train_passive {X F : Type} (lib : Lib X F) (d : Data X) (st : St F) (s : Option Name)
    (cs : List Name) (ks : Option (List Name)) (di : Option (List ℕ)) :
    passive (train lib d st s cs ks di).1 = passive st ∧ (train lib d st s cs ks di).1.flag = st.flag ∧
    (st.any = true → (train lib d st s cs ks di).1.any = true) := by
  unfold train
  cases s with
  | none => exact ⟨rfl, rfl, id⟩
  | some s =>
    dsimp only
    cases h1 : trainCols d cs ks with
    | error e => exact ⟨rfl, rfl, id⟩
    | ok o =>
      cases o with
      | none => exact ⟨rfl, rfl, id⟩
      | some ks =>
        dsimp only
        cases h2 : key s with
        | none => exact ⟨rfl, rfl, id⟩
        | some a =>
          dsimp only
          cases h3 : fitAll lib d a di (pairs cs ks) with
          | error e => exact ⟨rfl, rfl, id⟩
          | ok l =>
            obtain ⟨h4, h5⟩ := fitAll_spec lib d a di _ l h3
            obtain ⟨-, s2, s3, -, s5⟩ := store_spec a (fitted lib d a di) l st
              (fun p hp => by unfold fitted; rw [h5 p hp])
            exact ⟨s2, s3, s5⟩

theorem train_main {X F : Type} (lib : Lib X F) (d : Data X) (st : St F) (s : Option Name)
    (cs : List Name) (ks : Option (List Name)) (di : Option (List ℕ)) (h : st.flag = true) :
    (train lib d st s cs ks di).1.main = st.main ∧ (train lib d st s cs ks di).1.flag = true := by
  obtain ⟨h1, h2, -⟩ := C122_train_passive lib d st s cs ks di
  refine ⟨?_, h2.trans h⟩
  have h3 := h2.trans h
  unfold passive at h1
  rwa [if_pos h3, if_pos h] at h1

theorem trainEach_spec {X F : Type} (lib : Lib X F) (d : Data X) :
    ∀ (ps : List (Name × Name)) (st st' : St F), trainEach lib d ps st = (st', .ok ()) →
      (∀ a c k f, fitOne lib d a none c k = .ok f → active st a c k = some f → active st' a c k = some f) ∧
      st'.flag = st.flag ∧ passive st' = passive st ∧
      ∀ p ∈ ps, ∀ a, key p.1 = some a → ∀ t, d.outputs.lookup p.2 = some (some t) →
        ∀ k ∈ t.map (·.1), ∃ f, fitOne lib d a none p.2 k = .ok f ∧ active st' a p.2 k = some f
  | [], st, st', h => by
    cases h
    exact ⟨fun _ _ _ _ _ h => h, rfl, rfl, by simp⟩
  | p :: r, st, st', h => by
    unfold trainEach at h
    obtain ⟨g1, g2, -⟩ := C122_train_passive lib d st (some p.1) [p.2] none none
    cases h1 : train lib d st (some p.1) [p.2] none none with
    | mk st1 o =>
      rw [h1] at h g1 g2
      cases o with
      | error e => cases h
      | ok u =>
        dsimp only at h
        obtain ⟨i1, i2, i3, i4⟩ := trainEach_spec lib d r st1 st' h
        have key1 : ∀ a, key p.1 = some a → ∀ t, d.outputs.lookup p.2 = some (some t) →
            train lib d st (some p.1) [p.2] (some (t.map (·.1))) none = (st1, .ok ()) := by
          intro a ha t ht
          rw [← h1]
          unfold train
          simp [trainCols, ht]
        refine ⟨?_, i2.trans g2, i3.trans g1, ?_⟩
        · intro a c k f hf hs
          refine i1 a c k f hf ?_
          cases hk : key p.1 with
          | none =>
            have := (C122_unknown lib d st p.1 [p.2] none none hk).1
            rw [h1] at this
            cases this
            exact hs
          | some b =>
            cases ho : d.outputs.lookup p.2 with
            | none =>
              unfold train at h1
              simp [trainCols, ho] at h1
            | some o =>
              cases o with
              | none =>
                unfold train at h1
                simp only [trainCols, ho] at h1
                cases h1
                exact hs
              | some t =>
                obtain ⟨t1, t2, -, -⟩ := (C122_train lib d st p.1 [p.2] (t.map (·.1)) none b hk).2 st1
                  (key1 b hk t ho)
                by_cases hq : a = b ∧ c ∈ [p.2] ∧ k ∈ t.map (·.1)
                · obtain ⟨rfl, hc, hkk⟩ := hq
                  obtain ⟨f', hf', hs'⟩ := t1 c hc k hkk
                  rw [hf] at hf'
                  cases hf'
                  exact hs'
                · rw [t2 a c k hq]
                  exact hs
        · intro q hq a ha t ht k hk
          rcases List.mem_cons.mp hq with rfl | hq
          · obtain ⟨t1, -, -, -⟩ := (C122_train lib d st q.1 [q.2] (t.map (·.1)) none a ha).2 st1
              (key1 a ha t ht)
            obtain ⟨f, hf, hs⟩ := t1 q.2 (by simp) k hk
            exact ⟨f, hf, i1 a q.2 k f hf hs⟩
          · exact i4 q hq a ha t ht k hk

/-- After `train_everything` there is a fit to all points for every known name, every class with data and every column of that
class, and nothing of the cross validation has changed. -/
theorem C122_everything {X F : Type} (lib : Lib X F) (d : Data X) (ns : List Name) (st st' : St F)
    (hf : st.flag = false) (h : trainEverything lib d ns st = (st', .ok ())) :
    st'.flag = false ∧ st'.cv = st.cv ∧
    ∀ s ∈ ns, ∀ a, key s = some a → ∀ c t, d.outputs.lookup c = some (some t) → ∀ k ∈ t.map (·.1),
      ∃ f, fitOne lib d a none c k = .ok f ∧ st'.main a c k = some f := by
  obtain ⟨-, h2, h3, h4⟩ := trainEach_spec lib d _ st st' h
  have hf' := h2.trans hf
  refine ⟨hf', ?_, ?_⟩
  · unfold passive at h3
    simpa [hf, hf'] using h3
  · intro s hs a ha c t ht k hk
    have hm : c ∈ d.outputs.map (·.1) := by
      by_contra hc
      have : d.outputs.lookup c = none := by
        rw [List.lookup_eq_none_iff]
        intro p hp
        simp only [bne_iff_ne, ne_eq]
        rintro rfl
        exact hc (List.mem_map_of_mem hp)
      rw [this] at ht
      cases ht
    obtain ⟨f, h5, h6⟩ := h4 (s, c) ((mem_pairs _ _ _ _).mpr ⟨hs, hm⟩) a ha t ht k hk
    refine ⟨f, h5, ?_⟩
    unfold active at h6
    simpa [hf'] using h6

/-- If all outputs for the training are missing, training with radial basis functions raises an `IndexError`, although the
training with too few points is meant to be skipped, as it is for one point. -/
theorem C122_few_points_violated {X F : Type} (lib : Lib X F) (x : X) (y : Option ℚ) :
    fitPoints lib .rbf ([], []) = .error .index ∧ fitPoints lib .rbf ([x], [y]) = .ok none ∧
    ∀ (d : Data X) (c k : Name) (xs : List X) (ys : Vals), d.inputs.lookup c = some xs →
      column d c k = .ok ys → ys ≠ [] → (∀ v ∈ ys, v = none) → fitOne lib d .rbf none c k = .error .index := by
  refine ⟨rfl, rfl, ?_⟩
  intro d c k xs ys hx hy hne hn
  have ho : ∃ o, d.outputs.lookup c = some o := by
    unfold column at hy
    cases h : d.outputs.lookup c with
    | none => rw [h] at hy; cases hy
    | some o => exact ⟨o, rfl⟩
  obtain ⟨o, ho⟩ := ho
  have hp : points d none c k = .ok ([], []) := by
    unfold points
    rw [ho, hx]
    simp only [sel, hy]
    have : TableData.clean d.undef xs ys = ([], []) := by
      unfold TableData.clean
      have h1 : ys.any (·.isNone) = true := by
        obtain ⟨v, hv⟩ := List.exists_mem_of_ne_nil ys hne
        exact List.any_eq_true.mpr ⟨v, hv, by rw [hn v hv]; rfl⟩
      have h2 : (xs.zip ys).filter (fun p => p.2.isSome) = [] := by
        rw [List.filter_eq_nil_iff]
        intro p hp
        have := hn p.2 (List.of_mem_zip hp).2
        simp [this]
      simp [h1, h2]
    rw [this]
  unfold fitOne
  rw [hp]
  rfl

/-! ### Predictions -/

/-- Predictions are those of the fitted function that is in use for the name, the class and the column, one for each point. -/
theorem C122_predict {X F : Type} (eval : F → X → Option ℚ) (st : St F) (s c k : Name) (pts : List X)
    (a : Algo) (f : F) (hk : key s = some a) (hs : active st a c k = some (some f)) (hy : st.any = true)
    (hp : pts ≠ []) : predict eval st (some s) c k pts = .ok (some (pts.map (eval f))) := by
  unfold predict
  have h1 : ¬ pts.length = 0 := by simpa using hp
  have hs' : (if st.flag then st.cv else st.main) a c k = some (some f) := hs
  rw [if_neg h1, if_neg (by simp [hy])]
  simp only [hk]
  rw [hs']

/-- Before any training, there is an error; and where no function was fitted there is none of the results of an other class, column
or algorithm: the answer is `None` or an error. -/
theorem C122_untrained {X F : Type} (eval : F → X → Option ℚ) (st : St F) (s c k : Name) (pts : List X)
    (hp : pts ≠ []) :
    (st.any = false → predict eval st (some s) c k pts = .error .untrained) ∧
    ∀ a, key s = some a → (∀ f, active st a c k ≠ some (some f)) →
      ∀ v, predict eval st (some s) c k pts ≠ .ok (some v) := by
  have h1 : ¬ pts.length = 0 := by simpa using hp
  constructor
  · intro h
    unfold predict
    rw [if_neg h1, if_pos (by simp [h])]
  · intro a ha hf v
    unfold predict
    rw [if_neg h1]
    by_cases hy : ¬ st.any
    · rw [if_pos hy]
      intro h
      cases h
    · rw [if_neg hy]
      simp only [ha]
      have hg : (if st.flag then st.cv else st.main) a c k = active st a c k := rfl
      rw [hg]
      cases h2 : active st a c k with
      | none => cases a <;> simp
      | some o =>
        cases o with
        | none => cases a <;> simp
        | some f => exact absurd h2 (hf f)

theorem predict_active {X F : Type} (eval : F → X → Option ℚ) (st : St F) (s c k : Name)
    (pts : List X) (v : Vals) (h : predict eval st (some s) c k pts = .ok (some v)) :
    ∃ a f, key s = some a ∧ active st a c k = some (some f) ∧ v = pts.map (eval f) := by
  have hp : pts ≠ [] := by
    rintro rfl
    simp [predict] at h
  have hy : st.any = true := by
    by_contra hy
    rw [(C122_untrained eval st s c k pts hp).1 (by simpa using hy)] at h
    cases h
  cases ha : key s with
  | none =>
    unfold predict at h
    rw [if_neg (by simpa using hp), if_neg (by simp [hy])] at h
    simp [ha] at h
  | some a =>
    by_cases hf : ∀ f, active st a c k ≠ some (some f)
    · exact absurd h ((C122_untrained eval st s c k pts hp).2 a ha hf v)
    · push Not at hf
      obtain ⟨f, hf⟩ := hf
      refine ⟨a, f, rfl, hf, ?_⟩
      rw [C122_predict eval st s c k pts a f ha hf hy hp] at h
      cases h
      rfl

/-- The first values of the predictions by columns. -/
theorem firsts_spec {X F : Type} (eval : F → X → Option ℚ) (st : St F) (s c : Name) (x : X) (r : List X) :
    ∀ (ks : List Name) (l : List (Name × Option Vals)) (v : Vals),
      predictCols eval st (some s) c (x :: r) ks = .ok l → firsts l = .ok v →
      l.map (·.1) = ks ∧ v.length = ks.length ∧ ∀ (i : ℕ) (k : Name) (y : Option ℚ), ks[i]? = some k → v[i]? = some y →
        ∃ a f, key s = some a ∧ active st a c k = some (some f) ∧ y = eval f x
  | [], l, v, h1, h2 => by
    cases h1
    cases h2
    simp
  | k :: ks, l, v, h1, h2 => by
    unfold predictCols at h1
    cases h3 : predict eval st (some s) c k (x :: r) with
    | error e => rw [h3] at h1; cases h1
    | ok o =>
      rw [h3] at h1
      dsimp only at h1
      cases h4 : predictCols eval st (some s) c (x :: r) ks with
      | error e => rw [h4] at h1; cases h1
      | ok m =>
        rw [h4] at h1
        cases h1
        cases o with
        | none => cases h2
        | some w =>
          obtain ⟨a, f, ha, hf, rfl⟩ := predict_active eval st s c k (x :: r) w h3
          rw [List.map_cons, firsts] at h2
          cases h5 : firsts m with
          | error e => rw [h5] at h2; cases h2
          | ok u =>
            rw [h5] at h2
            cases h2
            obtain ⟨i1, i2, i3⟩ := firsts_spec eval st s c x r ks m u h4 h5
            refine ⟨by rw [List.map_cons, i1], by simp [i2], ?_⟩
            intro i k' y hi hy
            cases i with
            | zero =>
              simp only [List.getElem?_cons_zero, Option.some.injEq] at hi hy
              subst hi hy
              exact ⟨a, f, ha, hf, rfl⟩
            | succ i =>
              simp only [List.getElem?_cons_succ] at hi hy
              exact i3 i k' y hi hy

theorem npMax_spec (v : Vals) (hne : v ≠ []) : v[argmax v]? = some (npMax v) ∧
    ∀ m, npMax v = some m → ∀ y ∈ v, ∃ q, y = some q ∧ q ≤ m := by
  unfold npMax Classify.argmax
  by_cases h : none ∈ v
  · rw [if_pos h, if_pos h]
    refine ⟨?_, fun m hm => by cases hm⟩
    have h1 := List.idxOf_lt_length_of_mem h
    rw [List.getElem?_eq_getElem h1]
    simp
  · rw [if_neg h, if_neg h]
    have hv : v = (v.filterMap id).map some := by
      clear hne
      induction v with
      | nil => rfl
      | cons x r ih =>
        cases x with
        | none => simp at h
        | some q =>
          have hr : none ∉ r := fun hr => h (List.mem_cons_of_mem _ hr)
          rw [List.filterMap_cons]
          show some q :: r = some q :: List.map some (List.filterMap id r)
          rw [← ih hr]
    have hn : v.filterMap id ≠ [] := by
      intro h0
      rw [h0] at hv
      exact hne hv
    obtain ⟨m, h1, h2, -⟩ := Classify.argmaxQ_spec _ hn
    have hmax : (v.filterMap id).max? = some m :=
      List.max?_eq_some_iff.mpr ⟨List.mem_of_getElem? h1, h2⟩
    refine ⟨?_, ?_⟩
    · rw [hmax]
      conv_lhs => rw [hv]
      rw [List.getElem?_map]
      have hv' : (List.map some (v.filterMap id)).filterMap id = v.filterMap id := by rw [← hv]
      rw [hv', h1]
      rfl
    · intro m' hm' y hy
      rw [hmax] at hm'
      cases hm'
      rw [hv] at hy
      obtain ⟨q, hq, rfl⟩ := List.mem_map.mp hy
      exact ⟨q, rfl, h2 q hq⟩

/-- The largest average change at the first of the points.  Without columns of changes it is 0, and no column.  Otherwise it belongs to one
of these columns, and is its predicted value there; if it is a number no other column of changes has a larger one. -/
theorem C122_max_apc {X F : Type} (d : Data X) (eval : F → X → Option ℚ) (st : St F) (s c : Name) (x : X)
    (r : List X) (t : List (Name × Vals)) (ht : d.outputs.lookup c = some (some t)) :
    (apcCols t = [] → maxAPC d eval st s c (x :: r) = .ok (some 0, none)) ∧
    ∀ m o, apcCols t ≠ [] → maxAPC d eval st s c (x :: r) = .ok (m, o) →
      ∃ a k f, key s = some a ∧ o = some k ∧ k ∈ t.map (·.1) ∧ Frame.isIn (chars! "APC") k = true ∧
        active st a c k = some (some f) ∧ eval f x = m ∧
        ∀ q, m = some q → ∀ k' ∈ apcCols t, ∃ f' q', active st a c k' = some (some f') ∧
          eval f' x = some q' ∧ q' ≤ q := by
  unfold maxAPC
  rw [ht]
  dsimp only
  refine ⟨fun h => by rw [if_pos h], ?_⟩
  intro m o hne h
  rw [if_neg hne] at h
  cases ha : key s with
  | none => rw [ha] at h; cases h
  | some a =>
    rw [ha] at h
    dsimp only at h
    cases h1 : predictCols eval st (some (text a)) c (x :: r) (apcCols t) with
    | error e => rw [h1] at h; cases h
    | ok l =>
      rw [h1] at h
      dsimp only at h
      cases h2 : firsts l with
      | error e => rw [h2] at h; cases h
      | ok v =>
        rw [h2] at h
        obtain ⟨i1, i2, i3⟩ := firsts_spec eval st (text a) c x r _ l v h1 h2
        have hvn : v ≠ [] := by
          intro h0
          rw [h0] at i2
          exact hne (List.length_eq_zero_iff.mp i2.symm)
        obtain ⟨n1, n2⟩ := npMax_spec v hvn
        simp only [Except.ok.injEq, Prod.mk.injEq] at h
        obtain ⟨rfl, rfl⟩ := h
        have hlt : argmax v < (apcCols t).length := by
          rw [← i2]
          exact (List.getElem?_eq_some_iff.mp n1).1
        obtain ⟨a', f, ha', hf, hv⟩ := i3 (argmax v) _ _ (List.getElem?_eq_getElem hlt) n1
        rw [key_text] at ha'
        cases ha'
        have hmem : (apcCols t)[argmax v] ∈ apcCols t := List.getElem_mem hlt
        obtain ⟨hm1, hm2⟩ := List.mem_filter.mp hmem
        refine ⟨a, (apcCols t)[argmax v], f, rfl, ?_, hm1, hm2, hf, hv.symm, ?_⟩
        · rw [i1, List.getElem?_eq_getElem hlt]
        · intro q hq k' hk'
          obtain ⟨j, hj, rfl⟩ := List.getElem_of_mem hk'
          have hj' : j < v.length := by rw [i2]; exact hj
          obtain ⟨b, f', hb, hf', hv'⟩ := i3 j _ _ (List.getElem?_eq_getElem hj)
            (List.getElem?_eq_getElem hj')
          rw [key_text] at hb
          cases hb
          obtain ⟨q', hq', hle⟩ := n2 q hq v[j] (List.getElem_mem hj')
          exact ⟨f', q', hf', by rw [← hv', hq'], hle⟩

/-! ### Cross validation -/

/-- Points for training and points for tests: together they are all points of the class, each once; the share for the training is at
most `alpha`, and is the largest whole number below if there are enough draws. -/
theorem C122_split {X : Type} (d : Data X) (c k : Name) (alpha : ℚ) (draws : List ℕ) (xs : List X)
    (ys : Vals) (hx : d.inputs.lookup c = some xs) (hy : column d c k = .ok ys) (h0 : 0 < alpha)
    (h1 : alpha ≤ 1) (hd : ∀ i ∈ draws, i < xs.length) :
    ∃ di te, cvData d c k alpha draws =
        .ok (te.filterMap (fun i => xs[i]?), te.filterMap (fun i => ys[i]?), di) ∧
      di.Pairwise (· < ·) ∧ te.Pairwise (· < ·) ∧ List.Perm (di ++ te) (List.range xs.length) ∧
      (di.length : ℚ) ≤ xs.length * alpha ∧
      ((∀ i < xs.length, i ∈ draws) → di.length = ⌊xs.length * alpha⌋.toNat) := by
  set num := ⌊xs.length * alpha⌋.toNat with hnum
  obtain ⟨s1, s2, s3, s4⟩ := Classify.C111_split xs.length num draws hd
  have hpos : (0 : ℚ) ≤ xs.length * alpha := mul_nonneg (Nat.cast_nonneg _) h0.le
  have hnq : (num : ℚ) ≤ xs.length * alpha := by
    have h2 : (0 : ℤ) ≤ ⌊xs.length * alpha⌋ := Int.floor_nonneg.mpr hpos
    have h3 : ((num : ℤ) : ℚ) = (⌊xs.length * alpha⌋ : ℚ) := by
      rw [hnum, Int.toNat_of_nonneg h2]
    have h4 := Int.floor_le (xs.length * alpha)
    calc (num : ℚ) = ((num : ℤ) : ℚ) := by norm_num
      _ = _ := h3
      _ ≤ _ := h4
  have hnn : num ≤ xs.length := by
    have : (num : ℚ) ≤ xs.length := by
      have : (xs.length : ℚ) * alpha ≤ xs.length := mul_le_of_le_one_right (Nat.cast_nonneg _) h1
      linarith
    exact_mod_cast this
  refine ⟨(split xs.length num draws).1, (split xs.length num draws).2, ?_, s1, ?_, s3, ?_, s4 hnn⟩
  · unfold cvData
    rw [hx]
    dsimp only
    rw [if_neg (by push Not; exact ⟨h1, h0⟩), hy]
  · exact (List.pairwise_lt_range).sublist List.filter_sublist
  · have : ((split xs.length num draws).1.length : ℚ) ≤ num := by exact_mod_cast s2
    linarith

/-- A share outside of the allowed range raises, and changes nothing. -/
theorem C122_alpha {X F : Type} (lib : Lib X F) (d : Data X) (eval : F → X → Option ℚ) (st : St F)
    (s c k : Name) (alpha : ℚ) (draws : List ℕ) (xs : List X) (hx : d.inputs.lookup c = some xs)
    (h : 1 < alpha ∨ alpha ≤ 0) :
    crossValidate lib d eval st s c k alpha draws = (st, .error .value) := by
  unfold crossValidate cvData
  rw [hx]
  dsimp only
  rw [if_pos h]

theorem cvPredict_main {X F : Type} (lib : Lib X F) (d : Data X) (eval : F → X → Option ℚ) (st : St F)
    (a : Option Algo) (c k : Name) (di : List ℕ) (tests : List X) :
    (cvPredict lib d eval st a c k di tests).1.main = st.main ∧
    (st.any = true → (cvPredict lib d eval st a c k di tests).1.any = true) := by
  unfold cvPredict
  dsimp only
  by_cases ha : a = some .linear
  · rw [if_pos ha]
    have t1 := train_main lib d { st with flag := true } (some (text .linear)) [c] (some [k]) (some di) rfl
    have t2 := (C122_train_passive lib d { st with flag := true } (some (text .linear)) [c] (some [k])
      (some di)).2.2
    cases h1 : train lib d { st with flag := true } (some (text .linear)) [c] (some [k]) (some di) with
    | mk st2 o =>
      rw [h1] at t1 t2
      cases o with
      | error e => exact ⟨t1.1, t2⟩
      | ok u =>
        dsimp only
        have t3 := train_main lib d st2 (some (chars! "RBF")) [c] (some [k]) (some di) t1.2
        have t4 := (C122_train_passive lib d st2 (some (chars! "RBF")) [c] (some [k]) (some di)).2.2
        cases h2 : train lib d st2 (some (chars! "RBF")) [c] (some [k]) (some di) with
        | mk st3 o =>
          rw [h2] at t3 t4
          have t5 : st3.main = st.main := t3.1.trans t1.1
          have t6 : st.any = true → st3.any = true := fun h => t4 (t2 h)
          cases o with
          | error e => exact ⟨t5, t6⟩
          | ok u =>
            dsimp only
            cases h3 : predict eval st3 (some (text .linear)) c k tests with
            | error e => exact ⟨t5, t6⟩
            | ok l =>
              dsimp only
              cases h4 : predict eval st3 (some (chars! "RBF")) c k tests with
              | error e => exact ⟨t5, t6⟩
              | ok r => exact ⟨t5, t6⟩
  · rw [if_neg ha]
    have t1 := train_main lib d { st with flag := true } (a.map text) [c] (some [k]) (some di) rfl
    have t2 := (C122_train_passive lib d { st with flag := true } (a.map text) [c] (some [k])
      (some di)).2.2
    cases h1 : train lib d { st with flag := true } (a.map text) [c] (some [k]) (some di) with
    | mk st2 o =>
      rw [h1] at t1 t2
      cases o with
      | error e => exact ⟨t1.1, t2⟩
      | ok u => exact ⟨t1.1, t2⟩

/-- Cross validation, whether it succeeds or raises, leaves the fitted functions and the switch as they were. -/
theorem C122_kept {X F : Type} (lib : Lib X F) (d : Data X) (eval : F → X → Option ℚ) (st : St F)
    (s c k : Name) (alpha : ℚ) (draws : List ℕ) (hf : st.flag = false) :
    (crossValidate lib d eval st s c k alpha draws).1.main = st.main ∧
    (crossValidate lib d eval st s c k alpha draws).1.flag = false ∧
    (st.any = true → (crossValidate lib d eval st s c k alpha draws).1.any = true) := by
  unfold crossValidate
  cases h1 : cvData d c k alpha draws with
  | error e => exact ⟨rfl, hf, id⟩
  | ok p =>
    obtain ⟨xs, ys, di⟩ := p
    dsimp only
    have h2 := cvPredict_main lib d eval st (key s) c k di xs
    cases h3 : cvPredict lib d eval st (key s) c k di xs with
    | mk st' o =>
      rw [h3] at h2
      cases o with
      | error e => exact ⟨h2.1, rfl, h2.2⟩
      | ok v => exact ⟨h2.1, rfl, h2.2⟩

/-- So all predictions are the same before and after a cross validation. -/
theorem C122_predictions_kept {X F : Type} (lib : Lib X F) (d : Data X) (eval : F → X → Option ℚ)
    (st : St F) (s c k : Name) (alpha : ℚ) (draws : List ℕ) (hf : st.flag = false) (hy : st.any = true)
    (s' : Option Name) (c' k' : Name) (pts : List X) :
    predict eval (crossValidate lib d eval st s c k alpha draws).1 s' c' k' pts =
      predict eval st s' c' k' pts := by
  obtain ⟨h1, h2, h3⟩ := C122_kept lib d eval st s c k alpha draws hf
  unfold predict
  rw [h1, h2, h3 hy, hf, hy]
  rfl

theorem train_congr {X F : Type} (lib : Lib X F) (d d' : Data X) (c k : Name) (di : Option (List ℕ))
    (h : points d di c k = points d' di c k) (st : St F) (s : Option Name) :
    train lib d st s [c] (some [k]) di = train lib d' st s [c] (some [k]) di := by
  unfold train
  cases s with
  | none => rfl
  | some s =>
    simp only [trainCols]
    cases key s with
    | none => rfl
    | some a =>
      have : fitAll lib d a di (pairs [c] [k]) = fitAll lib d' a di (pairs [c] [k]) := by
        show fitAll lib d a di [(c, k)] = fitAll lib d' a di [(c, k)]
        simp only [fitAll, fitOne, h]
      dsimp only
      rw [this]

/-- The predictions of the cross validation do not depend on the outputs at the points that are kept for the tests. -/
theorem C122_held_out {X F : Type} (lib : Lib X F) (d d' : Data X) (eval : F → X → Option ℚ) (st : St F)
    (a : Option Algo) (c k : Name) (di : List ℕ) (tests : List X) (ys ys' : Vals)
    (hi : d'.inputs = d.inputs) (hu : d'.undef = d.undef) (hy : column d c k = .ok ys)
    (hy' : column d' c k = .ok ys') (hl : ys'.length = ys.length) (he : ∀ i ∈ di, ys'[i]? = ys[i]?) :
    cvPredict lib d' eval st a c k di tests = cvPredict lib d eval st a c k di tests := by
  have ho : ∀ (d : Data X) (ys : Vals), column d c k = .ok ys → ∃ o, d.outputs.lookup c = some o := by
    intro d ys hy
    unfold column at hy
    cases h : d.outputs.lookup c with
    | none => rw [h] at hy; cases hy
    | some o => exact ⟨o, rfl⟩
  obtain ⟨o, ho1⟩ := ho d ys hy
  obtain ⟨o', ho2⟩ := ho d' ys' hy'
  have hsel : sel (some di) ys' = sel (some di) ys := by
    cases di with
    | nil => rfl
    | cons i r =>
      simp only [sel, hl]
      have : (i :: r).filterMap (fun j => ys'[j]?) = (i :: r).filterMap (fun j => ys[j]?) :=
        List.filterMap_congr he
      rw [this]
  have hp : points d' (some di) c k = points d (some di) c k := by
    unfold points
    rw [ho1, ho2, hi]
    cases d.inputs.lookup c with
    | none => rfl
    | some xs =>
      dsimp only
      rw [hy, hy', hu]
      dsimp only
      rw [hsel]
  have ht := fun st s => train_congr lib d' d c k (some di) hp st s
  unfold cvPredict
  simp only [ht]

/-- The linear interpolation is replaced by radial basis functions exactly where it has no value. -/
theorem C122_fill (l r : Vals) (h : r.length = l.length) :
    ∃ v, fill (some l) (some r) = .ok (some v) ∧ v.length = l.length ∧
      ∀ (i : ℕ), v[i]? = match l[i]? with
        | some none => r[i]?
        | o => o := by
  unfold fill
  dsimp only
  by_cases hn : none ∈ l
  · rw [if_pos hn]
    refine ⟨_, rfl, by simp [h], ?_⟩
    intro i
    rw [List.getElem?_zipWith]
    cases h1 : l[i]? with
    | none => cases r[i]? <;> rfl
    | some x =>
      have h2 : i < r.length := by rw [h]; exact (List.getElem?_eq_some_iff.mp h1).1
      rw [List.getElem?_eq_getElem h2]
      cases x <;> rfl
  · rw [if_neg hn]
    refine ⟨l, rfl, rfl, ?_⟩
    intro i
    cases h1 : l[i]? with
    | none => rfl
    | some x =>
      cases x with
      | none => exact absurd (List.mem_of_getElem? h1) hn
      | some q => rfl

/-- With `alpha = 1`, which is in the allowed range, the linear interpolation always raises: `None` is taken for a
missing value. -/
theorem C122_alpha_one_violated {X F : Type} (lib : Lib X F) (d : Data X) (eval : F → X → Option ℚ)
    (st : St F) (s c k : Name) (draws : List ℕ) (xs : List X) (hx : d.inputs.lookup c = some xs)
    (hk : key s = some .linear) (hd : ∀ i ∈ draws, i < xs.length) (hall : ∀ i < xs.length, i ∈ draws) :
    ∃ e, (crossValidate lib d eval st s c k 1 draws).2 = .error e := by
  cases hy : column d c k with
  | error e =>
    refine ⟨e, ?_⟩
    unfold crossValidate cvData
    rw [hx]
    dsimp only
    rw [if_neg (by norm_num), hy]
  | ok ys =>
    obtain ⟨di, te, h1, -, -, h4, -, h6⟩ := C122_split d c k 1 draws xs ys hx hy one_pos le_rfl hd
    have hlen : di.length = xs.length := by
      have := h6 hall
      simpa using this
    have hte : te = [] := by
      have := h4.length_eq
      rw [List.length_append, List.length_range, hlen] at this
      exact List.length_eq_zero_iff.mp (by omega)
    subst hte
    unfold crossValidate
    rw [h1]
    dsimp only [List.filterMap_nil]
    rw [hk]
    unfold cvPredict
    dsimp only
    rw [if_pos rfl]
    cases train lib d { st with flag := true } (some (text .linear)) [c] (some [k]) (some di) with
    | mk st2 o =>
      cases o with
      | error e => exact ⟨e, rfl⟩
      | ok u =>
        dsimp only
        cases train lib d st2 (some (chars! "RBF")) [c] (some [k]) (some di) with
        | mk st3 o =>
          cases o with
          | error e => exact ⟨e, rfl⟩
          | ok u => exact ⟨.type, rfl⟩

/-- If the share is less than one point, the cross validation raises for every regressor. -/
theorem C122_alpha_small_violated {X F : Type} (lib : Lib X F) (d : Data X) (eval : F → X → Option ℚ)
    (st : St F) (s c k : Name) (alpha : ℚ) (draws : List ℕ) (xs : List X)
    (hx : d.inputs.lookup c = some xs) (h0 : 0 < alpha) (h1 : alpha ≤ 1)
    (hs : (xs.length : ℚ) * alpha < 1) (hd : ∀ i ∈ draws, i < xs.length) :
    ∃ e, (crossValidate lib d eval st s c k alpha draws).2 = .error e := by
  cases hy : column d c k with
  | error e =>
    refine ⟨e, ?_⟩
    unfold crossValidate cvData
    rw [hx]
    dsimp only
    rw [if_neg (by push Not; exact ⟨h1, h0⟩), hy]
  | ok ys =>
    obtain ⟨di, te, g1, -, -, -, g5, -⟩ := C122_split d c k alpha draws xs ys hx hy h0 h1 hd
    have hdi : di = [] := by
      have : (di.length : ℚ) < 1 := lt_of_le_of_lt g5 hs
      have : di.length < 1 := by exact_mod_cast this
      exact List.length_eq_zero_iff.mp (by omega)
    subst hdi
    have hp : points d (some []) c k = .error .key ∨ points d (some []) c k = .error .index := by
      unfold points
      rw [hx]
      cases d.outputs.lookup c with
      | none => exact Or.inl rfl
      | some o => exact Or.inr rfl
    have ht : ∀ (st : St F) (a : Algo), ∃ e, train lib d st (some (text a)) [c] (some [k]) (some []) = (st, .error e) := by
      intro st a
      unfold train
      simp only [trainCols, key_text]
      have : ∃ e, fitAll lib d a (some []) (pairs [c] [k]) = .error e := by
        show ∃ e, fitAll lib d a (some []) [(c, k)] = .error e
        simp only [fitAll, fitOne]
        rcases hp with h | h <;> exact ⟨_, by rw [h]⟩
      obtain ⟨e, he⟩ := this
      exact ⟨e, by rw [he]⟩
    unfold crossValidate
    rw [g1]
    dsimp only
    cases hk : key s with
    | none => exact ⟨.attribute, rfl⟩
    | some a =>
      unfold cvPredict
      dsimp only
      by_cases ha : (some a) = some Algo.linear
      · rw [if_pos ha]
        obtain ⟨e, he⟩ := ht { st with flag := true } .linear
        rw [he]
        exact ⟨e, rfl⟩
      · rw [if_neg ha]
        obtain ⟨e, he⟩ := ht { st with flag := true } a
        simp only [Option.map_some]
        rw [he]
        exact ⟨e, rfl⟩

/-- The differences are those of prediction and output at the tests, in their order; those in percent are of the output, for all tests whose
output is not zero. -/
theorem C122_differences (p o : Vals) (h : p.length = o.length) :
    ∃ pc df, differences (some p) o = .ok (pc, df) ∧ df.length = o.length ∧
      (∀ (i : ℕ) x y, p[i]? = some (some x) → o[i]? = some (some y) → df[i]? = some (some (x - y))) ∧
      (∀ (i : ℕ), (p[i]? = some none ∨ o[i]? = some none) → df[i]? = some none) ∧
      pc.length = (o.filter fun y => y ≠ some 0).length ∧
      (∀ q ∈ pc, ∀ r, q = some r → ∃ (i : ℕ) (x y : ℚ), p[i]? = some (some x) ∧ o[i]? = some (some y) ∧ y ≠ 0 ∧
        x - y = y * (r / 100)) ∧
      (some 0 ∉ o → ∀ (i : ℕ) x y, p[i]? = some (some x) → o[i]? = some (some y) →
        pc[i]? = some (some ((x - y) / y * 100))) := by
  refine ⟨_, _, rfl, ?_, ?_, ?_, ?_, ?_, ?_⟩
  · simp [h]
  · intro i x y h1 h2
    rw [List.getElem?_zipWith, h1, h2]
    rfl
  · rintro i (h1 | h1)
    · have h2 : i < o.length := by rw [← h]; exact (List.getElem?_eq_some_iff.mp h1).1
      rw [List.getElem?_zipWith, h1, List.getElem?_eq_getElem h2]
      cases o[i] <;> rfl
    · have h2 : i < p.length := by rw [h]; exact (List.getElem?_eq_some_iff.mp h1).1
      rw [List.getElem?_zipWith, h1, List.getElem?_eq_getElem h2]
      cases p[i] <;> rfl
  · rw [List.length_map]
    have : ∀ (a b : Vals), a.length = b.length →
        ((a.zip b).filter fun x => decide (x.2 ≠ some 0)).length = (b.filter fun y => decide (y ≠ some 0)).length := by
      intro a b hab
      have hb : b = (a.zip b).map (·.2) := by
        rw [List.map_snd_zip]
        omega
      conv_rhs => rw [hb]
      rw [List.filter_map, List.length_map]
      rfl
    exact this _ _ (by simp [h])
  · intro q hq r hr
    obtain ⟨⟨df, y⟩, hm, rfl⟩ := List.mem_map.mp hq
    obtain ⟨h1, h2⟩ := List.mem_filter.mp hm
    obtain ⟨i, hi⟩ := List.mem_iff_getElem?.mp h1
    rw [List.getElem?_zip_eq_some] at hi
    obtain ⟨h3, h4⟩ := hi
    simp only at h3 h4
    rw [List.getElem?_zipWith] at h3
    cases h5 : p[i]? with
    | none => simp [h5] at h3
    | some a =>
      rw [h5, h4] at h3
      simp only [Option.some.injEq] at h3
      cases a with
      | none =>
        cases y <;> (simp only [sub] at h3; subst h3; simp [pct] at hr)
      | some x =>
        cases y with
        | none => simp only [sub] at h3; subst h3; simp [pct] at hr
        | some y =>
          have hy : y ≠ 0 := by
            rintro rfl
            simp at h2
          simp only [sub] at h3
          subst h3
          simp only [pct, Option.some.injEq] at hr
          refine ⟨i, x, y, h5, h4, hy, ?_⟩
          rw [← hr]
          field_simp
  · intro h0 i x y h1 h2
    have hall : (((List.zipWith sub p o).zip o).filter fun z => decide (z.2 ≠ some 0)) =
        (List.zipWith sub p o).zip o := by
      rw [List.filter_eq_self]
      intro z hz
      have := (List.of_mem_zip hz).2
      have hne : z.2 ≠ some 0 := fun he => h0 (he ▸ this)
      simpa using hne
    rw [hall, List.getElem?_map]
    have h3 : ((List.zipWith sub p o).zip o)[i]? = some (some (x - y), some y) := by
      rw [List.getElem?_zip_eq_some]
      refine ⟨?_, h2⟩
      rw [List.getElem?_zipWith, h1, h2]
      rfl
    rw [h3]
    rfl

/-- With an output that is zero the two results do not belong to the same tests any more. -/
theorem C122_aligned_violated :
    differences (some [some 1, some 3]) [some 0, some 2] = .ok ([some 50], [some 1, some 1]) := by
  have h : ∀ x : Except Err (Vals × Vals), x.toOption = some ([some 50], [some 1, some 1]) →
      x = .ok ([some 50], [some 1, some 1]) := by
    intro x hx
    cases x with
    | error e => cases hx
    | ok v => cases hx; rfl
  exact h _ (by decide +kernel)

/-! ### Summaries of columns -/

/-- The percentage outside of the cutoff is the share of the differences, in percent, whose size is at least the
cutoff in percent; it is between 0 and 100. The mean and the square of the standard deviation are those of the differences. -/
theorem C122_summary (cutoff : ℚ) (p : List ℚ) (h : p ≠ []) :
    ∃ q m v, summary cutoff p = (some q, some m, some v) ∧ 0 ≤ q ∧ q ≤ 100 ∧
      q * p.length = 100 * (p.countP fun x => decide (cutoff ≤ |x / 100|)) ∧ m * p.length = p.sum ∧
      v * p.length = (p.map fun x => (x - m) ^ 2).sum ∧ 0 ≤ v := by
  have hl : p.length ≠ 0 := by simpa using h
  have hq : (0 : ℚ) < p.length := by exact_mod_cast Nat.pos_of_ne_zero hl
  have hc : (p.filter fun x => decide (cutoff * 100 ≤ |x|)).length =
      p.countP fun x => decide (cutoff ≤ |x / 100|) := by
    rw [List.countP_eq_length_filter]
    congr 2
    funext x
    have : (cutoff * 100 ≤ |x|) ↔ cutoff ≤ |x / 100| := by
      rw [abs_div, abs_of_pos (by norm_num : (0 : ℚ) < 100), le_div_iff₀ (by norm_num)]
    simp [this]
  refine ⟨((p.filter fun x => decide (cutoff * 100 ≤ |x|)).length : ℚ) / p.length * 100,
    p.sum / p.length, ((p.map fun x => (x - p.sum / p.length) ^ 2).sum) / p.length, ?_, ?_, ?_, ?_, ?_, ?_, ?_⟩
  · simp [summary, over, hl]
  · exact mul_nonneg (div_nonneg (Nat.cast_nonneg _) hq.le) (by norm_num)
  · have h1 : ((p.filter fun x => decide (cutoff * 100 ≤ |x|)).length : ℚ) ≤ p.length := by
      exact_mod_cast List.length_filter_le _ _
    have h2 := (div_le_one hq).mpr h1
    linarith
  · rw [hc]
    field_simp
  · exact div_mul_cancel₀ _ hq.ne'
  · exact div_mul_cancel₀ _ hq.ne'
  · refine div_nonneg (List.sum_nonneg ?_) hq.le
    intro y hy
    obtain ⟨x, -, rfl⟩ := List.mem_map.mp hy
    exact sq_nonneg _

theorem diffsOf_length {X F : Type} (lib : Lib X F) (d : Data X) (eval : F → X → Option ℚ) (s c : Name)
    (alpha : ℚ) : ∀ (ks : List (Name × List ℕ)) (st st' : St F) (l : List (List ℚ)),
      diffsOf lib d eval s c alpha ks st = (st', .ok l) → l.length = ks.length
  | [], st, st', l, h => by
    cases h
    rfl
  | (k, ds) :: r, st, st', l, h => by
    unfold diffsOf at h
    cases h1 : crossValidate lib d eval st s c k alpha ds with
    | mk st1 o =>
      rw [h1] at h
      cases o with
      | error e => cases h
      | ok v =>
        dsimp only at h
        cases h2 : diffsOf lib d eval s c alpha r st1 with
        | mk st2 o =>
          rw [h2] at h
          cases o with
          | error e => cases h
          | ok m =>
            cases h
            simp [diffsOf_length lib d eval s c alpha r st1 _ m h2]

theorem diffsOf_kept {X F : Type} (lib : Lib X F) (d : Data X) (eval : F → X → Option ℚ) (s c : Name)
    (alpha : ℚ) : ∀ (ks : List (Name × List ℕ)) (st : St F), st.flag = false →
      (diffsOf lib d eval s c alpha ks st).1.main = st.main ∧
      (diffsOf lib d eval s c alpha ks st).1.flag = false
  | [], st, hf => ⟨rfl, hf⟩
  | (k, ds) :: r, st, hf => by
    obtain ⟨h1, h2, -⟩ := C122_kept lib d eval st s c k alpha ds hf
    unfold diffsOf
    cases h3 : crossValidate lib d eval st s c k alpha ds with
    | mk st1 o =>
      rw [h3] at h1 h2
      cases o with
      | error e => exact ⟨h1, h2⟩
      | ok v =>
        dsimp only
        obtain ⟨i1, i2⟩ := diffsOf_kept lib d eval s c alpha r st1 h2
        cases h4 : diffsOf lib d eval s c alpha r st1 with
        | mk st2 o =>
          rw [h4] at i1 i2
          cases o with
          | error e => exact ⟨i1.trans h1, i2⟩
          | ok m => exact ⟨i1.trans h1, i2⟩

/-- For several columns: one list of differences and one summary for each, and the fitted functions stay as they were. -/
theorem C122_columns {X F : Type} (lib : Lib X F) (d : Data X) (eval : F → X → Option ℚ) (st : St F)
    (s c : Name) (ks : List (Name × List ℕ)) (alpha cutoff : ℚ) (hf : st.flag = false) :
    (multDiffs lib d eval st s c ks alpha cutoff).1.main = st.main ∧
    (multDiffs lib d eval st s c ks alpha cutoff).1.flag = false ∧
    ∀ l m, (multDiffs lib d eval st s c ks alpha cutoff).2 = .ok (l, m) →
      l.length = ks.length ∧ m = l.map (summary cutoff) := by
  obtain ⟨h1, h2⟩ := diffsOf_kept lib d eval s c alpha ks st hf
  unfold multDiffs
  cases h3 : diffsOf lib d eval s c alpha ks st with
  | mk st' o =>
    rw [h3] at h1 h2
    cases o with
    | error e => exact ⟨h1, h2, fun l m h => by cases h⟩
    | ok v =>
      dsimp only
      by_cases h4 : ∀ a ∈ v, ∀ b ∈ v, a.length = b.length
      · rw [if_pos h4]
        refine ⟨h1, h2, fun l m h => ?_⟩
        cases h
        exact ⟨diffsOf_length lib d eval s c alpha ks st st' v h3, rfl⟩
      · rw [if_neg h4]
        exact ⟨h1, h2, fun l m h => by cases h⟩

/-! ### A case -/

/-- Fits that are constant with the first of the outputs. -/
def firstLib : Lib ℚ ℚ where
  linear _ ys := .ok ((ys.head?.getD none))
  rbf _ ys := .ok ((ys.head?.getD none).getD 0)
  gp _ ys := .ok ((ys.head?.getD none).getD 0)

/-- Four points with three columns; -9 marks an undefined change. -/
def fourData : Data ℚ where
  inputs := [((chars! "A"), [0, 1, 2, 3])]
  outputs := [((chars! "A"), some [((chars! "m"), [some 2, some 2, some 4, some 1]),
      ((chars! "z"), [some 2, some 2, some 0, some 1]), ((chars! "APC0_m"), [some 2, some 2, some (-9), some 1])]),
    ((chars! "B"), none)]
  undef := some (-9)

/-- Nothing is trained. -/
def noFits : St ℚ where
  main _ _ _ := none
  cv _ _ _ := none
  flag := false
  any := false

def constEval (f : ℚ) (_ : ℚ) : Option ℚ := some f

theorem of_toOption {α : Type} {x : Except Err α} {v : α} (h : x.toOption = some v) : x = .ok v := by
  cases x with
  | error e => cases h
  | ok w => cases h; rfl

/-- Half of the points for training, differences for the other half. -/
example : (crossValidate firstLib fourData constEval noFits (chars! "Linear") (chars! "A") (chars! "m") (1 / 2)
    [0, 0, 1, 3]).2 = .ok ([some (-50), some 100], [some (-2), some 1]) :=
  of_toOption (by decide +kernel)

example : ((trainEverything firstLib fourData [(chars! "gp"), (chars! "rbf"), (chars! "xyz")] noFits).1.main .rbf
    (chars! "A") (chars! "APC0_m")) = some (some 2) := by decide +kernel

example : (maxAPC fourData constEval (trainEverything firstLib fourData [(chars! "gp")] noFits).1 (chars! "GP")
    (chars! "A") [5]).toOption = some (some 2, some (chars! "APC0_m")) := by decide +kernel

/-- Undefined changes are left out of the training but not out of the tests: the mark for them is taken for a value. -/
theorem C122_undefined_violated :
    (crossValidate firstLib fourData constEval noFits (chars! "gp") (chars! "A") (chars! "APC0_m") (3 / 4)
      [0, 1, 3]).2 = .ok ([some (11 / (-9) * 100)], [some 11]) :=
  of_toOption (by decide +kernel)

/-- Columns with different numbers of zeros among the tests cannot be summarised together. -/
theorem C122_ragged_violated :
    (multDiffs firstLib fourData constEval noFits (chars! "gp") (chars! "A")
      [((chars! "m"), [0, 1]), ((chars! "z"), [0, 1])] (1 / 2) (1 / 10)).2 = .error .value := by
  have h : ∀ x : Except Err (List (List ℚ) × List (Option ℚ × Option ℚ × Option ℚ)),
      (match x with | .error e => some e | .ok _ => none) = some .value → x = .error .value := by
    intro x hx
    cases x with
    | error e => cases hx; rfl
    | ok v => cases hx
  exact h _ (by decide +kernel)

example : (multDiffs firstLib fourData constEval noFits (chars! "gp") (chars! "A")
      [((chars! "m"), [0, 1]), ((chars! "m"), [0, 2])] (1 / 2) (1 / 10)).2.toOption.map (fun v => v.2.map (·.1)) =
    some [some 100, some 50] := by decide +kernel

/-- The names that are accepted, in any case: these and no others. -/
theorem C122_all_names :
    names .linear = [(chars! "linear"), (chars! "lin"), (chars! "linearndinterpolator"), (chars! "linear nd interpolator")] ∧
      names .rbf = [(chars! "rbf"), (chars! "radialbasisfunction"), (chars! "radial basis function")] ∧
      names .gp = [(chars! "gp"), (chars! "gpr"), (chars! "gaussianprocessregressor")] ∧ ∀ s, key s = none ↔ ∀ a, lower s ∉ names a := by
  refine ⟨rfl, rfl, rfl, ?_⟩
  intro s
  unfold key
  constructor
  · intro h a
    by_cases h1 : lower s ∈ names .linear
    · rw [if_pos h1] at h; cases h
    · rw [if_neg h1] at h
      by_cases h2 : lower s ∈ names .rbf
      · rw [if_pos h2] at h; cases h
      · rw [if_neg h2] at h
        by_cases h3 : lower s ∈ names .gp
        · rw [if_pos h3] at h; cases h
        · cases a <;> assumption
  · intro h
    rw [if_neg (h .linear), if_neg (h .rbf), if_neg (h .gp)]

/-- From two points on the fit is made; for no points there is an error. -/
theorem C122_points {X F : Type} (lib : Lib X F) (p : List X × Vals) :
    (2 ≤ p.1.length → (∀ f, lib.rbf p.1 p.2 = .ok f → fitPoints lib .rbf p = .ok (some f)) ∧ ∀ e, lib.rbf p.1 p.2 = .error e → fitPoints lib .rbf p = .error e) ∧
      (1 ≤ p.1.length → (∀ f, lib.gp p.1 p.2 = .ok f → fitPoints lib .gp p = .ok (some f)) ∧ ∀ e, lib.gp p.1 p.2 = .error e → fitPoints lib .gp p = .error e) ∧
      (p.1.length = 0 → fitPoints lib .rbf p = .error .index ∧ fitPoints lib .gp p = .error .index) ∧
      fitPoints lib .linear p = lib.linear p.1 p.2 := by
  unfold fitPoints
  refine ⟨fun h => ⟨fun f hf => ?_, fun e he => ?_⟩, fun h => ⟨fun f hf => ?_, fun e he => ?_⟩, fun h => ⟨?_, ?_⟩, rfl⟩
  · dsimp only
    rw [if_neg (by omega), if_neg (by omega), hf]
  · dsimp only
    rw [if_neg (by omega), if_neg (by omega), he]
  · dsimp only
    rw [if_neg (by omega), hf]
  · dsimp only
    rw [if_neg (by omega), he]
  · dsimp only
    rw [if_pos h]
  · dsimp only
    rw [if_pos h]

/-- What is reported for a class or column that is not there, and for one whose values are not a table. -/
theorem C122_missing {X F : Type} (d : Data X) (eval : F → X → Option ℚ) (st : St F) (s c k : Name) (pts : List X) :
    (d.outputs.lookup c = none → column d c k = .error .key ∧ maxAPC d eval st s c pts = .error .key) ∧
      (d.outputs.lookup c = some none → column d c k = .error .type ∧ maxAPC d eval st s c pts = .error .attribute) ∧
      ∀ t, d.outputs.lookup c = some (some t) → t.lookup k = none → column d c k = .error .key := by
  unfold column maxAPC
  refine ⟨fun h => ?_, fun h => ?_, fun t h h' => ?_⟩
  · rw [h]; exact ⟨rfl, rfl⟩
  · rw [h]; exact ⟨rfl, rfl⟩
  · rw [h]; dsimp only; rw [h']

/-- Without predictions there are no differences if there is nothing to compare with, and else an error. -/
theorem C122_no_prediction (outs : Vals) : (outs = [] → differences none outs = .ok ([], [])) ∧ (outs ≠ [] → differences none outs = .error .type) := by
  unfold differences
  constructor
  · rintro rfl; rfl
  · intro h
    dsimp only
    rw [if_neg (by simpa using h)]

end Verif.Regress
