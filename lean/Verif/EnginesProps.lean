import Verif.Engines
import Verif.InterpProps
import Mathlib.Data.List.Perm.Subperm
import Mathlib.Algebra.BigOperators.Group.List.Basic
import Mathlib.Algebra.Order.BigOperators.Group.List
import Mathlib.Analysis.Complex.ExponentialBounds
import Mathlib.Tactic.Linarith
import Mathlib.Tactic.NormNum
import Mathlib.Tactic.Positivity

/-!
# Core collapse engines that are trained from tables: properties (C123)
-/

namespace Verif.Engines

open Verif.Interp (Node Interp1d Incr Sorts)
open Verif.StarState (State)
open Verif.SN (Table Look)

noncomputable section
open Classical

/-! ### Searches for neighbours -/

/-- The class is that of a row that is nearest. -/
def IsNear (near : Near) : Prop :=
  ∀ l x, l ≠ [] → ∃ p ∈ l, near l x = p.2 ∧ ∀ q ∈ l, |p.1 - x| ≤ |q.1 - x|

/-- Five rows of which none is farther than a row that is left out. -/
def IsNear5 (near : Near5) : Prop :=
  ∀ l q, 5 ≤ l.length → (near l q).length = 5 ∧ List.Subperm (near l q) l ∧
    ∀ p ∈ l, p ∉ near l q → ∀ n ∈ near l q, dist n.1 q ≤ dist p.1 q

theorem near_exact {near : Near} (h : IsNear near) (l : List (ℝ × ℕ)) (p : ℝ × ℕ) (hp : p ∈ l)
    (hu : ∀ q ∈ l, q.1 = p.1 → q.2 = p.2) : near l p.1 = p.2 := by
  obtain ⟨r, hr, h1, h2⟩ := h l p.1 (List.ne_nil_of_mem hp)
  have h3 := h2 p hp
  rw [sub_self, abs_zero] at h3
  have h4 : r.1 - p.1 = 0 := abs_eq_zero.mp (le_antisymm h3 (abs_nonneg _))
  rw [h1]
  exact hu r hr (by linarith)

/-! ### Interpolation -/

theorem seg_bounds : ∀ (l : List Node), Incr l → ∀ x, (∀ p ∈ l.head?, p.1 ≤ x) → ∀ lo hi : ℝ,
    (∀ n ∈ l, lo ≤ n.2 ∧ n.2 ≤ hi) → l ≠ [] → (∀ p ∈ l.getLast?, x ≤ p.1) → lo ≤ Interp.seg l x ∧ Interp.seg l x ≤ hi
  | [], _, _, _, _, _, _, h, _ => absurd rfl h
  | [p], _, x, _, lo, hi, hb, _, _ => by
    rw [Interp.seg]
    exact hb p (by simp)
  | p :: q :: r, hi', x, h0, lo, hi, hb, _, hl => by
    rw [Interp.seg]
    by_cases hq : q.1 ≤ x
    · rw [if_pos hq]
      refine seg_bounds (q :: r) (List.pairwise_cons.mp hi').2 x (by simpa using hq) lo hi
        (fun n hn => hb n (List.mem_cons_of_mem _ hn)) (by simp) ?_
      intro p' hp'
      exact hl p' (by rw [List.getLast?_cons_cons]; exact hp')
    · rw [if_neg hq]
      have hpx : p.1 ≤ x := h0 p (by simp)
      have hpq : p.1 < q.1 := (List.pairwise_cons.mp hi').1 q (by simp)
      have hp := hb p (by simp)
      have hqb := hb q (by simp)
      set t := (x - p.1) / (q.1 - p.1) with ht
      have hd : 0 < q.1 - p.1 := by linarith
      have t0 : 0 ≤ t := div_nonneg (by linarith) hd.le
      have t1 : t ≤ 1 := (div_le_one hd).mpr (by push Not at hq; linarith)
      have he : p.2 + (q.2 - p.2) / (q.1 - p.1) * (x - p.1) = (1 - t) * p.2 + t * q.2 := by
        rw [ht]
        field_simp
        ring
      rw [he]
      constructor
      · have h1 := mul_le_mul_of_nonneg_left hp.1 (by linarith : 0 ≤ 1 - t)
        have h2 := mul_le_mul_of_nonneg_left hqb.1 t0
        nlinarith
      · have h1 := mul_le_mul_of_nonneg_left hp.2 (by linarith : 0 ≤ 1 - t)
        have h2 := mul_le_mul_of_nonneg_left hqb.2 t0
        nlinarith

theorem call_bounds (o : Interp1d) (h : Incr o.all) (x lo hi : ℝ) (h1 : (tableOf o).lo ≤ x) (h2 : x ≤ (tableOf o).hi)
    (hb : ∀ n ∈ o.all, lo ≤ n.2 ∧ n.2 ≤ hi) : lo ≤ (tableOf o).f x ∧ (tableOf o).f x ≤ hi := by
  have hne : o.all ≠ [] := by simp [Interp1d.all]
  show lo ≤ o.call x ∧ o.call x ≤ hi
  rw [Interp.call_inside o x h1 h2]
  refine seg_bounds o.all h x ?_ lo hi hb hne ?_
  · intro p hp
    simp only [Interp1d.all, List.head?_cons, Option.mem_def, Option.some.injEq] at hp
    subst hp
    exact h1
  · intro p hp
    rw [List.getLast?_eq_some_getLast hne] at hp
    simp only [Option.mem_def, Option.some.injEq] at hp
    subst hp
    exact h2

theorem lo_le_hi (o : Interp1d) (h : Incr o.all) : (tableOf o).lo ≤ (tableOf o).hi :=
  Interp.incr_le_last h (by simp [Interp1d.all]) (n := o.node) (by simp [Interp1d.all])

/-! ### Sukhbold+16 -/

/-- The engine is trained from a table of a known engine in which there are neutron stars and black holes without fallback, each with
different helium cores; the interpolators know exactly these rows. -/
theorem sukhbold_built (argsort : List Node → List Node) (hs : Sorts argsort) (near : Near) (engine : String) (rows : List Row)
    (he : engine ∈ engines) (h13 : ofState rows 13 ≠ []) (h14 : ofState rows 14 ≠ [])
    (n13 : ((ofState rows 13).map (·.he)).Nodup) (n14 : ((ofState rows 14).map (·.he)).Nodup) :
    ∃ e, trainSukhbold argsort near engine rows = .ok e ∧
      e.cls = near ((rowsUsed rows).map fun r => (r.he, r.state)) ∧
      Incr e.ns.all ∧ Incr e.bh.all ∧
      e.ns.all.Perm ((ofState rows 13).map fun r => (r.he, r.rem)) ∧
      e.bh.all.Perm ((ofState rows 14).map fun r => (r.he, r.rem)) := by
  have hz : ∀ l : List Row, (l.map (·.he)).zip (l.map (·.rem)) = l.map fun r => (r.he, r.rem) := by
    intro l
    induction l with
    | nil => rfl
    | cons a l ih => simp [ih]
  obtain ⟨o1, a1, a2, a3⟩ := Interp.C45_built argsort hs _ _ .absent none none
    (by simp : ((ofState rows 13).map (·.he)).length = ((ofState rows 13).map (·.rem)).length) (by simpa using h13) n13 (by simp)
  obtain ⟨o2, b1, b2, b3⟩ := Interp.C45_built argsort hs _ _ .absent none none
    (by simp : ((ofState rows 14).map (·.he)).length = ((ofState rows 14).map (·.rem)).length) (by simpa using h14) n14 (by simp)
  have hu : rowsUsed rows ≠ [] := by
    intro h0
    apply h13
    unfold ofState
    rw [h0]
    rfl
  refine ⟨⟨near ((rowsUsed rows).map fun r => (r.he, r.state)), o1, o2⟩, ?_, rfl, a2, b2, ?_, ?_⟩
  · unfold trainSukhbold
    rw [if_pos he, if_neg hu, a1]
    dsimp only
    rw [b1]
  · rw [← hz]; exact a3
  · rw [← hz]; exact b3

/-- A trained engine has an answer for every star, which is a neutron star without fallback or a black hole with all of it. -/
theorem C123_sukhbold_answers (argsort : List Node → List Node) (near : Near) (hn : IsNear near) (engine : String)
    (rows : List Row) (e : Engine) (h : trainSukhbold argsort near engine rows = .ok e) (consH : Bool) (ms mhe : ℝ) :
    ∃ m, SN.sukhbold e.look consH ms mhe = .ok (m, 0, .NS) ∨ SN.sukhbold e.look consH ms mhe = .ok (m, 1, .BH) := by
  have hc : e.cls = near ((rowsUsed rows).map fun r => (r.he, r.state)) ∧ rowsUsed rows ≠ [] := by
    unfold trainSukhbold at h
    by_cases he : engine ∈ engines
    · rw [if_pos he] at h
      by_cases hu : rowsUsed rows = []
      · rw [if_pos hu] at h
        cases h
      · rw [if_neg hu] at h
        cases h1 : Interp.init argsort true ((ofState rows 13).map (·.he)) ((ofState rows 13).map (·.rem)) .absent none none with
        | error e => rw [h1] at h; cases h
        | ok o1 =>
          rw [h1] at h
          dsimp only at h
          cases h2 : Interp.init argsort true ((ofState rows 14).map (·.he)) ((ofState rows 14).map (·.rem)) .absent none none with
          | error e => rw [h2] at h; cases h
          | ok o2 =>
            rw [h2] at h
            cases h
            exact ⟨rfl, hu⟩
    · rw [if_neg he] at h
      cases h
  obtain ⟨p, hp, h1, -⟩ := hn ((rowsUsed rows).map fun r => (r.he, r.state)) mhe (by simpa using hc.2)
  obtain ⟨r, hr, rfl⟩ := List.mem_map.mp hp
  have hu : used r := by simpa using (List.mem_filter.mp hr).2
  have hcls : e.look.cls mhe = r.state := by
    show e.cls mhe = r.state
    rw [hc.1, h1]
  unfold SN.sukhbold
  rw [hcls]
  rcases hu with h2 | h2
  · exact ⟨_, Or.inl (by rw [if_pos h2])⟩
  · exact ⟨_, Or.inr (by rw [if_neg (by omega), if_pos h2.1])⟩

/-- The engine gives back every row of its table that is used: for a star with this helium core, the remnant has the state and the mass
of the row. -/
theorem C123_sukhbold_rows (argsort : List Node → List Node) (hs : Sorts argsort) (near : Near) (hn : IsNear near) (engine : String)
    (rows : List Row) (he : engine ∈ engines) (h13 : ofState rows 13 ≠ []) (h14 : ofState rows 14 ≠ [])
    (hd : ((rowsUsed rows).map (·.he)).Nodup) (ms : ℝ) :
    ∃ e, trainSukhbold argsort near engine rows = .ok e ∧
      (∀ r ∈ rows, r.state = 13 → ∀ consH, SN.sukhbold e.look consH ms r.he = .ok (r.rem, 0, .NS)) ∧
      ∀ r ∈ rows, r.state = 14 → r.fallback = 0 → SN.sukhbold e.look false ms r.he = .ok (r.rem, 1, .BH) := by
  have hsub : ∀ k, ((ofState rows k).map (·.he)).Nodup := fun k => hd.sublist (List.filter_sublist.map _)
  obtain ⟨e, h1, h2, h3, h4, h5, h6⟩ := sukhbold_built argsort hs near engine rows he h13 h14 (hsub 13) (hsub 14)
  have hcls : ∀ r ∈ rowsUsed rows, e.look.cls r.he = r.state := by
    intro r hr
    show e.cls r.he = r.state
    rw [h2]
    refine near_exact hn _ (r.he, r.state) (List.mem_map.mpr ⟨r, hr, rfl⟩) ?_
    intro q hq heq
    obtain ⟨r', hr', rfl⟩ := List.mem_map.mp hq
    have : r' = r := List.inj_on_of_nodup_map hd hr' hr heq
    rw [this]
  have hval : ∀ (o : Interp1d), Incr o.all → ∀ (l : List Row), o.all.Perm (l.map fun r => (r.he, r.rem)) → ∀ r ∈ l,
      (tableOf o).lo ≤ r.he ∧ r.he ≤ (tableOf o).hi ∧ (tableOf o).f r.he = r.rem := by
    intro o ho l hp r hr
    have hm : (r.he, r.rem) ∈ o.all := hp.symm.subset (List.mem_map.mpr ⟨r, hr, rfl⟩)
    exact ⟨Interp.incr_first_le ho hm, Interp.incr_le_last ho (by simp [Interp1d.all]) hm, Interp.C45_nodes o ho (r.he, r.rem) hm⟩
  refine ⟨e, h1, ?_, ?_⟩
  · intro r hr hst consH
    have hu : r ∈ rowsUsed rows := List.mem_filter.mpr ⟨hr, decide_eq_true (Or.inl hst)⟩
    have ho : r ∈ ofState rows 13 := List.mem_filter.mpr ⟨hu, by simpa using hst⟩
    obtain ⟨v1, v2, v3⟩ := hval e.ns h3 _ h5 r ho
    unfold SN.sukhbold
    rw [hcls r hu, if_pos hst]
    unfold SN.extrapNS
    have : r.he ≥ e.look.ns.lo ∧ r.he ≤ e.look.ns.hi := ⟨v1, v2⟩
    rw [if_pos this]
    have hv : e.look.ns.f r.he = r.rem := v3
    rw [hv]
  · intro r hr hst hf
    have hu : r ∈ rowsUsed rows := List.mem_filter.mpr ⟨hr, decide_eq_true (Or.inr ⟨hst, hf⟩)⟩
    have ho : r ∈ ofState rows 14 := List.mem_filter.mpr ⟨hu, by simpa using hst⟩
    obtain ⟨v1, v2, v3⟩ := hval e.bh h4 _ h6 r ho
    unfold SN.sukhbold
    rw [hcls r hu, if_neg (by omega), if_pos hst]
    unfold SN.extrapBH
    have : r.he ≥ e.look.bh.lo ∧ r.he ≤ e.look.bh.hi := ⟨v1, v2⟩
    simp only [Bool.false_eq_true, if_false]
    rw [if_pos this]
    have hv : e.look.bh.f r.he = r.rem := v3
    rw [hv]

/-- The mass of a neutron star is in the range of those of the table, whatever the star.  The mass of a black hole is in the range of those of
the table, or, beyond the table, that of the core (or of the star if its envelope is kept). -/
theorem C123_sukhbold_masses (argsort : List Node → List Node) (hs : Sorts argsort) (near : Near) (engine : String)
    (rows : List Row) (he : engine ∈ engines) (h13 : ofState rows 13 ≠ []) (h14 : ofState rows 14 ≠ [])
    (n13 : ((ofState rows 13).map (·.he)).Nodup) (n14 : ((ofState rows 14).map (·.he)).Nodup)
    (consH : Bool) (ms mhe lo hi : ℝ) (hb : ∀ r ∈ rows, used r → lo ≤ r.rem ∧ r.rem ≤ hi) :
    ∃ e, trainSukhbold argsort near engine rows = .ok e ∧
      (∀ m f, SN.sukhbold e.look consH ms mhe = .ok (m, f, .NS) → lo ≤ m ∧ m ≤ hi) ∧
      ∀ m f, SN.sukhbold e.look consH ms mhe = .ok (m, f, .BH) →
        (lo ≤ m ∧ m ≤ hi) ∨ m = (if consH then ms else mhe) ∧ ∀ r ∈ ofState rows 14, r.he < m := by
  obtain ⟨e, h1, -, h3, h4, h5, h6⟩ := sukhbold_built argsort hs near engine rows he h13 h14 n13 n14
  have hbo : ∀ k (o : Interp1d), o.all.Perm ((ofState rows k).map fun r => (r.he, r.rem)) →
      ∀ n ∈ o.all, lo ≤ n.2 ∧ n.2 ≤ hi := by
    intro k o hp n hn
    obtain ⟨r, hr, rfl⟩ := List.mem_map.mp (hp.subset hn)
    have hu := (List.mem_filter.mp hr).1
    exact hb r (List.mem_filter.mp hu).1 (by simpa using (List.mem_filter.mp hu).2)
  have hns : ∀ v, lo ≤ SN.extrapNS v (tableOf e.ns) ∧ SN.extrapNS v (tableOf e.ns) ≤ hi := by
    intro v
    unfold SN.extrapNS
    have hll := lo_le_hi e.ns h3
    split_ifs with c1 c2
    · exact call_bounds e.ns h3 v lo hi c1.1 c1.2 (hbo 13 e.ns h5)
    · exact call_bounds e.ns h3 _ lo hi le_rfl hll (hbo 13 e.ns h5)
    · exact call_bounds e.ns h3 _ lo hi hll le_rfl (hbo 13 e.ns h5)
  have hbh : ∀ v, (lo ≤ SN.extrapBH v (tableOf e.bh) ∧ SN.extrapBH v (tableOf e.bh) ≤ hi) ∨
      SN.extrapBH v (tableOf e.bh) = v ∧ ∀ r ∈ ofState rows 14, r.he < SN.extrapBH v (tableOf e.bh) := by
    intro v
    unfold SN.extrapBH
    have hll := lo_le_hi e.bh h4
    split_ifs with c1 c2
    · exact Or.inl (call_bounds e.bh h4 v lo hi c1.1 c1.2 (hbo 14 e.bh h6))
    · exact Or.inl (call_bounds e.bh h4 _ lo hi le_rfl hll (hbo 14 e.bh h6))
    · refine Or.inr ⟨rfl, ?_⟩
      intro r hr
      have hm : (r.he, r.rem) ∈ e.bh.all := h6.symm.subset (List.mem_map.mpr ⟨r, hr, rfl⟩)
      have hle : r.he ≤ (tableOf e.bh).hi := Interp.incr_le_last h4 (by simp [Interp1d.all]) hm
      push Not at c1 c2
      exact lt_of_le_of_lt hle (c1 c2)
  refine ⟨e, h1, ?_, ?_⟩
  · intro m f h
    unfold SN.sukhbold at h
    split_ifs at h with c1 c2 c3
    · cases h
      exact hns mhe
    · simp at h
    · simp at h
  · intro m f h
    unfold SN.sukhbold at h
    split_ifs at h with c1 c2 c3
    · simp at h
    · cases h
      rw [if_pos c3]
      exact hbh ms
    · cases h
      rw [if_neg c3]
      exact hbh mhe

/-- Rows with fallback, or of other states, have no influence at all. -/
theorem C123_sukhbold_unused (argsort : List Node → List Node) (near : Near) (engine : String) (a b : List Row) (r : Row)
    (h : ¬ used r) : trainSukhbold argsort near engine (a ++ r :: b) = trainSukhbold argsort near engine (a ++ b) := by
  have hu : rowsUsed (a ++ r :: b) = rowsUsed (a ++ b) := by
    unfold rowsUsed
    rw [List.filter_append, List.filter_append, List.filter_cons_of_neg (by simpa using h)]
  unfold trainSukhbold ofState
  rw [hu]

/-- Only the five engines are available, and there has to be a row of both kinds. -/
theorem C123_sukhbold_refused (argsort : List Node → List Node) (near : Near) (engine : String) (rows : List Row) :
    (engine ∉ engines → trainSukhbold argsort near engine rows = .error .value) ∧
    ∀ e, trainSukhbold argsort near engine rows = .ok e → (∃ r ∈ rows, r.state = 13) ∧ ∃ r ∈ rows, r.state = 14 ∧ r.fallback = 0 := by
  constructor
  · intro h
    unfold trainSukhbold
    rw [if_neg h]
  · intro e h
    have hnil : Interp.init argsort true [] [] .absent none none = .error .index := by
      unfold Interp.init
      rfl
    have key : ofState rows 13 ≠ [] ∧ ofState rows 14 ≠ [] := by
      unfold trainSukhbold at h
      by_cases he : engine ∈ engines
      · rw [if_pos he] at h
        by_cases hu : rowsUsed rows = []
        · rw [if_pos hu] at h
          cases h
        · rw [if_neg hu] at h
          constructor
          · intro h0
            rw [h0] at h
            simp only [List.map_nil] at h
            rw [hnil] at h
            cases h
          · intro h0
            rw [h0] at h
            simp only [List.map_nil] at h
            rw [hnil] at h
            cases h1 : Interp.init argsort true ((ofState rows 13).map (·.he)) ((ofState rows 13).map (·.rem)) .absent none none with
            | error e => rw [h1] at h; cases h
            | ok o => rw [h1] at h; cases h
      · rw [if_neg he] at h
        cases h
    obtain ⟨k1, k2⟩ := key
    obtain ⟨r1, hr1⟩ := List.exists_mem_of_ne_nil _ k1
    obtain ⟨r2, hr2⟩ := List.exists_mem_of_ne_nil _ k2
    have s1 : r1.state = 13 := by simpa using (List.mem_filter.mp hr1).2
    have s2 : r2.state = 14 := by simpa using (List.mem_filter.mp hr2).2
    have u2 : used r2 := by simpa using (List.mem_filter.mp (List.mem_filter.mp hr2).1).2
    refine ⟨⟨r1, (List.mem_filter.mp (List.mem_filter.mp hr1).1).1, s1⟩, r2, (List.mem_filter.mp (List.mem_filter.mp hr2).1).1, s2, ?_⟩
    rcases u2 with h2 | h2
    · omega
    · exact h2.2

/-! ### Couch+20 -/

/-- For a known strength, the classes are those of the nearest row: every star becomes a neutron star of 1.4 or a black hole with its core (or all of its mass);
a star of the table, with the helium core of its initial mass, explodes exactly if its energy is not zero. -/
theorem C123_couch (argsort : List Node → List Node) (hs : Sorts argsort) (near : Near) (hn : IsNear near)
    (file : List (String × List (ℝ × ℝ))) (mz he : List ℝ) (strength : String) (data : List (ℝ × ℝ))
    (h1 : strength ∈ strengths) (h2 : file.lookup strength = some data) (h3 : data ≠ []) (h4 : mz.length = he.length)
    (h5 : mz ≠ []) (h6 : mz.Nodup) :
    ∃ o cls, Interp.init argsort true mz he .absent none none = .ok o ∧ trainCouch argsort near file mz he strength false = .ok cls ∧
      (∀ ns bh consH ms mhe, SN.couch (look cls ns bh) consH ms mhe = .ok (1.4, 0, .NS) ∨
        SN.couch (look cls ns bh) consH ms mhe = .ok (if consH then ms else mhe, 1, .BH)) ∧
      ∀ p ∈ data, (∀ q ∈ data, o.call q.1 = o.call p.1 → q = p) →
        (cls (o.call p.1) = 13 ↔ p.2 ≠ 0) ∧ (cls (o.call p.1) = 14 ↔ p.2 = 0) := by
  obtain ⟨o, b1, -, -⟩ := Interp.C45_built argsort hs mz he .absent none none h4 h5 h6 (by simp)
  have hst : ∀ x, couchState x = 13 ∨ couchState x = 14 := by
    intro x
    unfold couchState
    split_ifs <;> simp
  refine ⟨o, near (data.map fun p => (o.call p.1, couchState p.2)), b1, ?_, ?_, ?_⟩
  · unfold trainCouch
    rw [if_pos h1, if_neg (by simp), h2]
    dsimp only
    rw [b1]
    dsimp only
    rw [if_neg h3]
  · intro ns bh consH ms mhe
    obtain ⟨p, hp, e1, -⟩ := hn (data.map fun p => (o.call p.1, couchState p.2)) mhe (by simpa using h3)
    obtain ⟨q, hq, rfl⟩ := List.mem_map.mp hp
    have hc : (look (near (data.map fun p => (o.call p.1, couchState p.2))) ns bh).cls mhe = couchState q.2 := e1
    unfold SN.couch
    rcases hst q.2 with h | h
    · exact Or.inl (if_pos (hc.trans h))
    · refine Or.inr ?_
      rw [if_neg (by rw [hc, h]; omega), if_pos (hc.trans h)]
  · intro p hp hu
    have hc := near_exact hn (data.map fun p => (o.call p.1, couchState p.2)) (o.call p.1, couchState p.2)
      (List.mem_map.mpr ⟨p, hp, rfl⟩) (by
        intro q hq heq
        obtain ⟨q', hq', rfl⟩ := List.mem_map.mp hq
        rw [hu q' hq' heq])
    simp only at hc
    rw [hc]
    unfold couchState
    by_cases h : p.2 = 0 <;> simp [h]

/-- Other strengths are refused, and so is any strength, with an error about a missing attribute, if information is to be printed. -/
theorem C123_couch_verbose_violated (argsort : List Node → List Node) (near : Near) (file : List (String × List (ℝ × ℝ))) (mz he : List ℝ)
    (strength : String) :
    (strength ∉ strengths → ∀ v, trainCouch argsort near file mz he strength v = .error .value) ∧
    (strength ∈ strengths → trainCouch argsort near file mz he strength true = .error .attribute) := by
  constructor
  · intro h v
    unfold trainCouch
    rw [if_neg h]
  · intro h
    unfold trainCouch
    rw [if_pos h, if_pos rfl]

/-! ### Patton+20 -/

theorem points_eq (masses : List ℝ) : ∀ (body : List (ℝ × List ℝ)), (∀ b ∈ body, b.2.length = masses.length) →
    points masses body = body.flatMap fun b => (masses.map fun m => (b.1, m)).zip b.2
  | [], _ => rfl
  | b :: r, h => by
    have ih := points_eq masses r (fun b hb => h b (List.mem_cons_of_mem _ hb))
    unfold points params target at ih ⊢
    rw [List.flatMap_cons, List.flatMap_cons, List.flatMap_cons, List.zip_append (by simp [h b (by simp)]), ih]

/-- Each entry of a table is a training point with the abundance of its row and the mass of its column, and there are no others. -/
theorem C123_table (masses : List ℝ) (body : List (ℝ × List ℝ)) (h : ∀ b ∈ body, b.2.length = masses.length) :
    (points masses body).length = body.length * masses.length ∧
    ∀ x m v, ((x, m), v) ∈ points masses body ↔ ∃ vs, (x, vs) ∈ body ∧ ∃ j : ℕ, masses[j]? = some m ∧ vs[j]? = some v := by
  rw [points_eq masses body h]
  constructor
  · rw [List.length_flatMap]
    have : body.map (fun b => ((masses.map fun m => (b.1, m)).zip b.2).length) = body.map fun _ => masses.length := by
      refine List.map_congr_left fun b hb => ?_
      simp [h b hb]
    rw [this]
    simp
  · intro x m v
    rw [List.mem_flatMap]
    constructor
    · rintro ⟨b, hb, hm⟩
      obtain ⟨j, hj⟩ := List.mem_iff_getElem?.mp hm
      rw [List.getElem?_zip_eq_some, List.getElem?_map] at hj
      obtain ⟨h1, h2⟩ := hj
      cases h3 : masses[j]? with
      | none => simp [h3] at h1
      | some m' =>
        simp only [h3, Option.map_some, Option.some.injEq, Prod.mk.injEq] at h1
        obtain ⟨rfl, rfl⟩ := h1
        exact ⟨b.2, hb, j, h3, h2⟩
    · rintro ⟨vs, hb, j, h1, h2⟩
      refine ⟨(x, vs), hb, List.mem_iff_getElem?.mpr ⟨j, ?_⟩⟩
      rw [List.getElem?_zip_eq_some, List.getElem?_map, h1]
      exact ⟨rfl, h2⟩

theorem dist_nonneg (p q : ℝ × ℝ) : 0 ≤ dist p q := Real.sqrt_nonneg _

theorem dist_zero (p q : ℝ × ℝ) : dist p q = 0 ↔ p = q := by
  unfold dist
  rw [Real.sqrt_eq_zero (by positivity)]
  constructor
  · intro h
    have h1 : p.1 - q.1 = 0 := by nlinarith [sq_nonneg (p.1 - q.1), sq_nonneg (p.2 - q.2)]
    have h2 : p.2 - q.2 = 0 := by nlinarith [sq_nonneg (p.1 - q.1), sq_nonneg (p.2 - q.2)]
    exact Prod.ext (by linarith) (by linarith)
  · rintro rfl
    simp

/-- Weighted sums are between the sums of the weights times the bounds. -/
theorem wsum_bounds (lo hi : ℝ) : ∀ (w y : List ℝ), w.length = y.length → (∀ a ∈ w, 0 ≤ a) → (∀ b ∈ y, lo ≤ b ∧ b ≤ hi) →
    lo * w.sum ≤ (List.zipWith (· * ·) w y).sum ∧ (List.zipWith (· * ·) w y).sum ≤ hi * w.sum
  | [], [], _, _, _ => by simp
  | [], _ :: _, h, _, _ => by simp at h
  | _ :: _, [], h, _, _ => by simp at h
  | a :: w, b :: y, h, hw, hy => by
    obtain ⟨i1, i2⟩ := wsum_bounds lo hi w y (by simpa using h) (fun c hc => hw c (List.mem_cons_of_mem _ hc))
      (fun c hc => hy c (List.mem_cons_of_mem _ hc))
    obtain ⟨b1, b2⟩ := hy b (by simp)
    have ha := hw a (by simp)
    simp only [List.zipWith_cons_cons, List.sum_cons]
    constructor
    · have := mul_le_mul_of_nonneg_left b1 ha
      nlinarith
    · have := mul_le_mul_of_nonneg_left b2 ha
      nlinarith

theorem weights_spec (d : List ℝ) (h0 : ∀ x ∈ d, 0 ≤ x) (hne : d ≠ []) :
    (weights d).length = d.length ∧ (∀ a ∈ weights d, 0 ≤ a) ∧ 0 < (weights d).sum := by
  have hpos : ∀ (l : List ℝ), (∀ a ∈ l, 0 ≤ a) → (∃ a ∈ l, 0 < a) → 0 < l.sum := by
    intro l hl ⟨a, ha, hp⟩
    exact lt_of_lt_of_le hp (List.single_le_sum hl a ha)
  unfold weights
  by_cases h : 0 ∈ d
  · rw [if_pos h]
    have hn : ∀ a ∈ d.map (fun x : ℝ => if x = 0 then (1 : ℝ) else 0), 0 ≤ a := by
      intro a ha
      obtain ⟨x, -, rfl⟩ := List.mem_map.mp ha
      split_ifs <;> norm_num
    refine ⟨by simp, hn, hpos _ hn ⟨1, List.mem_map.mpr ⟨0, h, by simp⟩, one_pos⟩⟩
  · rw [if_neg h]
    have hx : ∀ x ∈ d, 0 < x := fun x hx => lt_of_le_of_ne (h0 x hx) (fun he => h (he ▸ hx))
    have hn : ∀ a ∈ d.map (fun x : ℝ => 1 / x), 0 ≤ a := by
      intro a ha
      obtain ⟨x, hx', rfl⟩ := List.mem_map.mp ha
      exact (one_div_pos.mpr (hx x hx')).le
    obtain ⟨x, hxd⟩ := List.exists_mem_of_ne_nil d hne
    exact ⟨by simp, hn, hpos _ hn ⟨1 / x, List.mem_map.mpr ⟨x, hxd, rfl⟩, one_div_pos.mpr (hx x hxd)⟩⟩

/-- A value of the tables is between the smallest and the largest of its neighbours, so never outside of the table. -/
theorem C123_range (near : Near5) (hn : IsNear5 near) (pts : List Pt) (q : ℝ × ℝ) (v lo hi : ℝ)
    (h : predict near pts q = .ok v) (hb : ∀ p ∈ pts, lo ≤ p.2 ∧ p.2 ≤ hi) : lo ≤ v ∧ v ≤ hi := by
  unfold predict at h
  by_cases h5 : pts.length < 5
  · rw [if_pos h5] at h
    cases h
  · rw [if_neg h5] at h
    cases h
    obtain ⟨n1, n2, -⟩ := hn pts q (by omega)
    set ns := near pts q with hns
    have hne : ns.map (fun n => dist n.1 q) ≠ [] := by
      intro h0
      have := congrArg List.length h0
      simp [n1] at this
    obtain ⟨w1, w2, w3⟩ := weights_spec (ns.map fun n => dist n.1 q)
      (fun x hx => by obtain ⟨n, -, rfl⟩ := List.mem_map.mp hx; exact dist_nonneg _ _) hne
    obtain ⟨b1, b2⟩ := wsum_bounds lo hi (weights (ns.map fun n => dist n.1 q)) (ns.map (·.2)) (by rw [w1]; simp) w2
      (fun b hb' => by
        obtain ⟨n, hn', rfl⟩ := List.mem_map.mp hb'
        exact hb n (n2.subset hn'))
    unfold wmean
    dsimp only
    exact ⟨(le_div_iff₀ w3).mpr b1, (div_le_iff₀ w3).mpr b2⟩

theorem mem_near (near : Near5) (hn : IsNear5 near) (pts : List Pt) (h5 : 5 ≤ pts.length) (p : Pt) (hp : p ∈ pts)
    (hu : ∀ r ∈ pts, r.1 = p.1 → r = p) : p ∈ near pts p.1 := by
  by_contra h
  obtain ⟨n1, n2, n3⟩ := hn pts p.1 h5
  obtain ⟨n, hnn⟩ : ∃ n, n ∈ near pts p.1 := List.exists_mem_of_ne_nil _ (by
    intro h0
    rw [h0] at n1
    simp at n1)
  have h1 := n3 p hp h n hnn
  rw [(dist_zero p.1 p.1).mpr rfl] at h1
  have h2 : n.1 = p.1 := (dist_zero _ _).mp (le_antisymm h1 (dist_nonneg _ _))
  have h3 := hu n (n2.subset hnn) h2
  exact h (h3 ▸ hnn)

/-- Where the core is that of an entry of the table, the value is that of the entry. -/
theorem C123_exact (near : Near5) (hn : IsNear5 near) (pts : List Pt) (h5 : 5 ≤ pts.length) (p : Pt) (hp : p ∈ pts)
    (hu : ∀ r ∈ pts, r.1 = p.1 → r = p) : predict near pts p.1 = .ok p.2 := by
  unfold predict
  rw [if_neg (by omega)]
  congr 1
  have hm := mem_near near hn pts h5 p hp hu
  obtain ⟨n1, n2, -⟩ := hn pts p.1 h5
  set ns := near pts p.1 with hns
  have hz : (0 : ℝ) ∈ ns.map fun n => dist n.1 p.1 := List.mem_map.mpr ⟨p, hm, (dist_zero _ _).mpr rfl⟩
  have hw : weights (ns.map fun n => dist n.1 p.1) = ns.map fun n => if n.1 = p.1 then (1 : ℝ) else 0 := by
    unfold weights
    rw [if_pos hz, List.map_map]
    refine List.map_congr_left fun n _ => ?_
    simp [dist_zero]
  have hs : (0 : ℝ) < (weights (ns.map fun n => dist n.1 p.1)).sum :=
    (weights_spec _ (fun x hx => by obtain ⟨n, -, rfl⟩ := List.mem_map.mp hx; exact dist_nonneg _ _)
      (List.ne_nil_of_mem hz)).2.2
  have hsum : ∀ (l : List Pt), (∀ n ∈ l, n.1 = p.1 → n = p) →
      (List.zipWith (· * ·) (l.map fun n => if n.1 = p.1 then (1 : ℝ) else 0) (l.map (·.2))).sum =
        p.2 * (l.map fun n => if n.1 = p.1 then (1 : ℝ) else 0).sum := by
    intro l
    induction l with
    | nil => intro _; simp
    | cons n l ih =>
      intro hl
      simp only [List.map_cons, List.zipWith_cons_cons, List.sum_cons]
      rw [ih (fun m hm' => hl m (List.mem_cons_of_mem _ hm'))]
      by_cases he : n.1 = p.1
      · have := hl n (by simp) he
        subst this
        simp
        ring
      · simp [he]
  unfold wmean
  dsimp only
  rw [hw] at hs ⊢
  rw [hsum ns (fun n hn' => hu n (n2.subset hn'))]
  exact mul_div_cancel_right₀ _ hs.ne'

/-- The order of the values: the first is `M4`, then `mu4`, the compactness and the entropy, each of its own table, for the abundance and the
mass of the core. -/
theorem C123_values (near : Near5) (t : Tables) (co c a b x s : ℝ) (h : explosion near t co c = .ok (a, b, x, s)) :
    predict near t.m4 (c, co) = .ok a ∧ predict near t.mu4 (c, co) = .ok b ∧ predict near t.xi (c, co) = .ok x ∧
    predict near t.sc (c, co) = .ok s := by
  unfold explosion at h
  cases h1 : predict near t.m4 (c, co) with
  | error e => rw [h1] at h; cases h
  | ok a' =>
    rw [h1] at h
    dsimp only at h
    cases h2 : predict near t.mu4 (c, co) with
    | error e => rw [h2] at h; cases h
    | ok b' =>
      rw [h2] at h
      dsimp only at h
      cases h3 : predict near t.xi (c, co) with
      | error e => rw [h3] at h; cases h
      | ok x' =>
        rw [h3] at h
        dsimp only at h
        cases h4 : predict near t.sc (c, co) with
        | error e => rw [h4] at h; cases h
        | ok s' =>
          rw [h4] at h
          cases h
          exact ⟨rfl, rfl, rfl, rfl⟩

/-! ### The core at helium depletion -/

/-- Without the approximation: the stored values if both are there; otherwise those of the first record with depleted helium, of a
hydrogen-rich state if there is one; otherwise an error. -/
theorem C123_core (s : Star) :
    (∀ m c, s.coHe = some m → s.avgHe = some c → coreParams false s = .ok (m, c)) ∧
    (s.coHe = none ∨ s.avgHe = none → ∀ m c, coreParams false s = .ok (m, c) →
      ∃ (h : List State) (i : ℕ) (st : State), s.hist = some h ∧ (st = CEParam.hDep ∨ st = CEParam.sDep ∧ CEParam.hDep ∉ h) ∧ h[i]? = some st ∧
        (∀ j < i, h[j]? ≠ some st) ∧ s.coHist[i]? = some m ∧ s.avgHist[i]? = some c) ∧
    (s.coHe = none ∨ s.avgHe = none → (∀ h, s.hist = some h → CEParam.hDep ∉ h ∧ CEParam.sDep ∉ h) →
      coreParams false s = .error .model) := by
  have hred : (s.coHe = none ∨ s.avgHe = none) → coreParams false s = match CEParam.patton s.hist s.coHist s.avgHist with
      | .error _ => .error .index
      | .ok none => .error .model
      | .ok (some p) => .ok p := by
    intro h
    unfold coreParams
    rw [if_neg (by simp)]
    cases h1 : s.avgHe with
    | none => rfl
    | some c =>
      cases h2 : s.coHe with
      | none => rfl
      | some m => rw [h1, h2] at h; simp at h
  refine ⟨?_, ?_, ?_⟩
  · intro m c h1 h2
    unfold coreParams
    rw [if_neg (by simp), h1, h2]
  · intro hnone m c h
    rw [hred hnone] at h
    cases hh : s.hist with
    | none => rw [hh] at h; cases h
    | some l =>
      rw [hh] at h
      have hidx : ∀ st ∈ l, l[l.findIdx (· = st)]? = some st ∧ ∀ j < l.findIdx (· = st), l[j]? ≠ some st := by
        intro st hst
        have hlt : l.findIdx (· = st) < l.length := List.findIdx_lt_length_of_exists ⟨st, hst, by simp⟩
        refine ⟨?_, ?_⟩
        · rw [List.getElem?_eq_getElem hlt]
          have := List.findIdx_getElem (w := hlt) (p := fun x => decide (x = st))
          simp only [decide_eq_true_eq] at this
          rw [this]
        · intro j hj hjs
          have := List.not_of_lt_findIdx hj
          obtain ⟨hjl, hje⟩ := List.getElem?_eq_some_iff.mp hjs
          simp [hje] at this
      unfold CEParam.patton at h
      dsimp only at h
      by_cases hH : CEParam.hDep ∈ l
      · rw [if_pos hH] at h
        obtain ⟨i1, i2⟩ := hidx _ hH
        refine ⟨l, _, CEParam.hDep, rfl, Or.inl rfl, i1, i2, ?_⟩
        unfold CEParam.at? at h
        cases h1 : s.coHist[l.findIdx (· = CEParam.hDep)]? with
        | none => rw [h1] at h; cases h
        | some a =>
          cases h2 : s.avgHist[l.findIdx (· = CEParam.hDep)]? with
          | none => rw [h1, h2] at h; cases h
          | some b =>
            rw [h1, h2] at h
            cases h
            exact ⟨rfl, rfl⟩
      · rw [if_neg hH] at h
        by_cases hS : CEParam.sDep ∈ l
        · rw [if_pos hS] at h
          obtain ⟨i1, i2⟩ := hidx _ hS
          refine ⟨l, _, CEParam.sDep, rfl, Or.inr ⟨rfl, hH⟩, i1, i2, ?_⟩
          unfold CEParam.at? at h
          cases h1 : s.coHist[l.findIdx (· = CEParam.sDep)]? with
          | none => rw [h1] at h; cases h
          | some a =>
            cases h2 : s.avgHist[l.findIdx (· = CEParam.sDep)]? with
            | none => rw [h1, h2] at h; cases h
            | some b =>
              rw [h1, h2] at h
              cases h
              exact ⟨rfl, rfl⟩
        · rw [if_neg hS] at h
          cases h
  · intro hnone hno
    rw [hred hnone]
    cases hh : s.hist with
    | none => rfl
    | some l =>
      obtain ⟨n1, n2⟩ := hno l hh
      unfold CEParam.patton
      dsimp only
      rw [if_neg n1, if_neg n2]

/-- With the approximation: the present core mass, and the abundance of hydrogen-rich stars if the state or the last record is one, otherwise of
stripped stars if the state or the last record is one; other stars are refused. -/
theorem C123_approximation (s : Star) (h : List State) (l : State) (hh : s.hist = some (h ++ [l])) :
    (hRich s.state = true ∨ hRich l = true → coreParams true s = .ok (s.co, cH s.co)) ∧
    (hRich s.state = false → hRich l = false → (stripped s.state = true ∨ stripped l = true) → coreParams true s = .ok (s.co, cHe s.co)) ∧
    (hRich s.state = false → hRich l = false → stripped s.state = false → stripped l = false → coreParams true s = .error .value) := by
  have he : ∀ f, either f s = .ok (f s.state || f l) := by
    intro f
    unfold either
    rw [hh]
    simp only [List.getLast?_append, List.getLast?_singleton, Option.some_or]
    cases f s.state <;> simp
  unfold coreParams
  rw [if_pos rfl, he, he]
  refine ⟨?_, ?_, ?_⟩
  · intro h1
    have : (hRich s.state || hRich l) = true := by simpa using h1
    rw [this]
  · intro h1 h2 h3
    have : (stripped s.state || stripped l) = true := by simpa using h3
    rw [h1, h2, this]
    rfl
  · intro h1 h2 h3 h4
    rw [h1, h2, h3, h4]
    rfl

/-- A star that has lost its envelope is taken for a hydrogen-rich one if the last record still was. -/
theorem C123_stripped_violated (m : ℝ) : ∃ s : Star, stripped s.state = true ∧ hRich s.state = false ∧ s.co = m ∧
    coreParams true s = .ok (m, cH m) :=
  ⟨⟨.normal .stripped .coreCDep, m, none, none, some [.normal .Hrich .coreHeDep], [], []⟩, rfl, rfl, rfl, rfl⟩

/-- Both abundances decrease with the core mass, and are fractions for core masses between a quarter and a hundred solar masses. -/
theorem C123_abundances :
    (∀ m n, 0 < m → m < n → cH n < cH m ∧ cHe n < cHe m) ∧
    ∀ m, 1 / 4 ≤ m → m ≤ 100 → 0 < cH m ∧ cH m < 1 ∧ 0 < cHe m ∧ cHe m < 1 := by
  constructor
  · intro m n h0 hmn
    have hn : 0 < n := h0.trans hmn
    constructor
    · unfold cH
      have := one_div_lt_one_div_of_lt h0 hmn
      have e1 : (0.20 : ℝ) / n = 0.20 * (1 / n) := by ring
      have e2 : (0.20 : ℝ) / m = 0.20 * (1 / m) := by ring
      rw [e1, e2]
      nlinarith
    · unfold cHe
      have := Real.log_lt_log h0 hmn
      nlinarith
  · intro m h1 h2
    have h0 : 0 < m := by linarith
    have l2 : Real.log 2 < 0.6931471808 := Real.log_two_lt_d9
    have l2' : 0.6931471803 < Real.log 2 := Real.log_two_gt_d9
    have hlow : -(2 * Real.log 2) ≤ Real.log m := by
      have : Real.log (1 / 4) ≤ Real.log m := Real.log_le_log (by norm_num) h1
      have e : Real.log (1 / 4 : ℝ) = -(2 * Real.log 2) := by
        rw [show (1 / 4 : ℝ) = ((2 : ℝ) ^ 2)⁻¹ by norm_num, Real.log_inv, Real.log_pow]
        push_cast
        ring
      linarith
    have hhigh : 3 * Real.log m ≤ 20 * Real.log 2 := by
      have e1 : Real.log (m ^ 3) = 3 * Real.log m := by
        rw [Real.log_pow]; push_cast; ring
      have e2 : Real.log ((2 : ℝ) ^ 20) = 20 * Real.log 2 := by
        rw [Real.log_pow]; push_cast; ring
      have : Real.log (m ^ 3) ≤ Real.log ((2 : ℝ) ^ 20) := by
        refine Real.log_le_log (by positivity) ?_
        have : m ^ 3 ≤ 100 ^ 3 := by gcongr
        linarith [show (100 : ℝ) ^ 3 ≤ 2 ^ 20 by norm_num]
      linarith
    have hd : (0.20 : ℝ) / m ≤ 0.8 := by
      rw [div_le_iff₀ h0]
      linarith
    have hd0 : 0 < (0.20 : ℝ) / m := by positivity
    unfold cH cHe
    refine ⟨by linarith, by linarith, by linarith, by linarith⟩

/-- The remnant of Patton+20 from the tables.  An unknown engine is refused; a core of at most 2.5 becomes a neutron star of 1.25, one of at least 10 a
black hole with all of the helium core (or of the star if the envelope is kept); in between a neutron star has the stored value of `M4`, which is in the
range of its table. -/
theorem C123_patton (near : Near5) (hn : IsNear5 near) (t : Tables) (approx : Bool) (engine : String) (consH : Bool) (s : Star) (ms mhe lo hi : ℝ)
    (hb : ∀ p ∈ t.m4, lo ≤ p.2 ∧ p.2 ≤ hi) :
    (SN.ertlK engine = none → pattonFull near t approx engine consH s ms mhe = .error .value) ∧
    ∀ m f st m4 mu4, pattonFull near t approx engine consH s ms mhe = .ok ((m, f, st), m4, mu4) →
      ∃ co c, coreParams approx s = .ok (co, c) ∧ predict near t.m4 (c, co) = .ok m4 ∧ predict near t.mu4 (c, co) = .ok mu4 ∧
        lo ≤ m4 ∧ m4 ≤ hi ∧
        ((co ≤ 2.5 ∧ m = 1.25 ∧ f = 0 ∧ st = .NS) ∨
         (2.5 < co ∧ m = (if consH then ms else mhe) ∧ f = 1 ∧ st = .BH) ∨
         (2.5 < co ∧ co < 10 ∧ m = m4 ∧ f = 0 ∧ st = .NS)) := by
  constructor
  · intro h
    unfold pattonFull
    rw [h]
  · intro m f st m4 mu4 h
    unfold pattonFull at h
    cases h1 : SN.ertlK engine with
    | none => rw [h1] at h; cases h
    | some k =>
      rw [h1] at h
      dsimp only at h
      cases h2 : coreParams approx s with
      | error e => rw [h2] at h; cases h
      | ok p =>
        obtain ⟨co, c⟩ := p
        rw [h2] at h
        dsimp only at h
        cases h3 : explosion near t co c with
        | error e => rw [h3] at h; cases h
        | ok q =>
          obtain ⟨a, b, x, sc⟩ := q
          rw [h3] at h
          dsimp only at h
          obtain ⟨v1, v2, -, -⟩ := C123_values near t co c a b x sc h3
          obtain ⟨r1, r2⟩ := C123_range near hn t.m4 (c, co) a lo hi v1 hb
          unfold SN.patton at h
          rw [h1] at h
          obtain ⟨k1, k2⟩ := k
          dsimp only at h
          by_cases c1 : co ≤ 2.5
          · rw [if_pos c1] at h
            cases h
            exact ⟨co, c, rfl, v1, v2, r1, r2, Or.inl ⟨c1, rfl, rfl, rfl⟩⟩
          · rw [if_neg c1] at h
            push Not at c1
            by_cases c2 : co ≥ 10
            · rw [if_pos c2] at h
              cases h
              exact ⟨co, c, rfl, v1, v2, r1, r2, Or.inr (Or.inl ⟨c1, rfl, rfl, rfl⟩)⟩
            · rw [if_neg c2] at h
              push Not at c2
              by_cases c3 : k1 * (b * a) + k2 < b
              · rw [if_pos c3] at h
                cases h
                exact ⟨co, c, rfl, v1, v2, r1, r2, Or.inr (Or.inl ⟨c1, rfl, rfl, rfl⟩)⟩
              · rw [if_neg c3] at h
                cases h
                exact ⟨co, c, rfl, v1, v2, r1, r2, Or.inr (Or.inr ⟨c1, c2, rfl, rfl, rfl⟩)⟩

/-- Cores of at least 10 become black holes. -/
theorem C123_patton_massive (near : Near5) (t : Tables) (approx : Bool) (engine : String) (consH : Bool) (s : Star) (ms mhe co c : ℝ)
    (hk : SN.ertlK engine ≠ none) (hc : coreParams approx s = .ok (co, c)) (h10 : 10 ≤ co)
    (hl : 5 ≤ t.m4.length ∧ 5 ≤ t.mu4.length ∧ 5 ≤ t.xi.length ∧ 5 ≤ t.sc.length) :
    ∃ m4 mu4, pattonFull near t approx engine consH s ms mhe = .ok ((if consH then ms else mhe, 1, .BH), m4, mu4) := by
  obtain ⟨l1, l2, l3, l4⟩ := hl
  unfold pattonFull
  cases h1 : SN.ertlK engine with
  | none => exact absurd h1 hk
  | some k =>
    dsimp only
    rw [hc]
    dsimp only
    unfold explosion predict
    rw [if_neg (by omega), if_neg (by omega), if_neg (by omega), if_neg (by omega)]
    dsimp only
    unfold SN.patton
    rw [h1]
    obtain ⟨k1, k2⟩ := k
    dsimp only
    rw [if_neg (by push Not; linarith), if_pos h10]
    exact ⟨_, _, rfl⟩

/-! ### Cases -/

/-- Searches as asked for exist in one dimension. -/
example : ∃ near : Near, IsNear near := by
  have key : ∀ (l : List (ℝ × ℕ)) (x : ℝ), l ≠ [] → ∃ p ∈ l, ∀ q ∈ l, |p.1 - x| ≤ |q.1 - x| := by
    intro l x
    induction l with
    | nil => intro h; exact absurd rfl h
    | cons a l ih =>
      intro _
      by_cases hl : l = []
      · exact ⟨a, by simp, by simp [hl]⟩
      · obtain ⟨p, hp, h⟩ := ih hl
        rcases le_total |a.1 - x| |p.1 - x| with h1 | h1
        · refine ⟨a, by simp, ?_⟩
          intro q hq
          rcases List.mem_cons.mp hq with rfl | hq
          · exact le_rfl
          · exact h1.trans (h q hq)
        · refine ⟨p, List.mem_cons_of_mem _ hp, ?_⟩
          intro q hq
          rcases List.mem_cons.mp hq with rfl | hq
          · exact h1
          · exact h q hq
  refine ⟨fun l x => if h : l ≠ [] then (Classical.choose (key l x h)).2 else 0, ?_⟩
  intro l x h
  obtain ⟨h1, h2⟩ := Classical.choose_spec (key l x h)
  exact ⟨_, h1, dif_pos h, h2⟩

/-- A table with two neutron stars, a black hole, and one with fallback. -/
def someRows : List Row := [⟨13, 2, 1.3, 0⟩, ⟨13, 3, 1.5, 0⟩, ⟨14, 6, 6, 0⟩, ⟨14, 5, 4, 1⟩]

theorem someRows_used : rowsUsed someRows = [⟨13, 2, 1.3, 0⟩, ⟨13, 3, 1.5, 0⟩, ⟨14, 6, 6, 0⟩] := by
  simp [rowsUsed, someRows, used]

example : ofState someRows 13 ≠ [] ∧ ofState someRows 14 ≠ [] ∧ ((rowsUsed someRows).map (·.he)).Nodup := by
  unfold ofState
  rw [someRows_used]
  refine ⟨by simp, by simp, by norm_num⟩

/-- Two abundances and three masses: six training points. -/
example : points [2, 3, 4] [(0.1, [1, 2, 3]), (0.2, [4, 5, 6])] =
    [((0.1, 2), 1), ((0.1, 3), 2), ((0.1, 4), 3), ((0.2, 2), 4), ((0.2, 3), 5), ((0.2, 4), 6)] := rfl

end

/-- With the approximation, a star of another kind needs a record: none raises a type error, an empty one an index error. -/
theorem C123_no_record (s : Star) (hs : hRich s.state = false) : (s.hist = none → coreParams true s = .error .type) ∧
    (s.hist = some [] → coreParams true s = .error .index) := by
  unfold coreParams either
  rw [if_pos rfl, hs]
  constructor
  · intro h
    rw [h]
    rfl
  · intro h
    rw [h]
    rfl

end Verif.Engines
