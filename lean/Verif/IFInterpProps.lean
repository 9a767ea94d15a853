import Verif.IFInterp
import Verif.ScaleProps
import Mathlib.Tactic.NormNum
import Mathlib.Tactic.Common
import Mathlib.Data.List.Sort
/-!
C83: the initial-final interpolator reproduces the tracks it was trained with, class by class.
-/
namespace Verif.IFInterp

noncomputable section
open Classical

open Verif.Scale (Scaler Method)

/-! ### Scaling -/

theorem fit_exists (m : Method) (a : ℝ) (l : List ℝ) (h : m ≠ .other) :
    ∃ s, Scale.fit Scaler.new (a :: l) m (-1) 1 = (s, none) := by
  unfold Scale.fit
  rw [if_neg (by
    intro hc
    rw [Bool.and_eq_true, decide_eq_true_eq] at hc
    exact hc.2 (by norm_num))]
  dsimp only
  cases m <;> first | exact absurd rfl h | exact ⟨_, rfl⟩

theorem minL_maxL {a : ℝ} {l : List ℝ} {x : ℝ} (hx : x ∈ a :: l) : Scale.minL a l ≤ x ∧ x ≤ Scale.maxL a l := by
  rcases List.mem_cons.1 hx with rfl | hx
  · exact ⟨(Scale.minL_le _ l).1, (Scale.le_maxL _ l).1⟩
  · exact ⟨(Scale.minL_le a l).2 x hx, (Scale.le_maxL a l).2 x hx⟩

/-- **C83** Either candidate for the scaling of an output is defined for all the values of the output and does not divide by zero. -/
theorem C83_candidates (a : ℝ) (l : List ℝ) (m : Method) (h : m = (candidates a l).1 ∨ m = (candidates a l).2) :
    m ≠ .other ∧ (∀ x ∈ a :: l, Scale.domain m x) ∧ Scale.spread m (a :: l) := by
  have two : Scale.minL a l ≠ Scale.maxL a l → ∃ x ∈ a :: l, ∃ y ∈ a :: l, x ≠ y := fun hne =>
    ⟨_, Scale.minL_mem a l, _, Scale.maxL_mem a l, hne⟩
  unfold candidates at h
  by_cases h1 : Scale.minL a l = Scale.maxL a l
  · rw [if_pos h1] at h
    have : m = .none := by rcases h with h | h <;> exact h
    subst this
    exact ⟨by simp, fun x _ => by simp [Scale.domain, Scale.kind], trivial⟩
  · rw [if_neg h1] at h
    have hmm : m = .minMax → m ≠ .other ∧ (∀ x ∈ a :: l, Scale.domain m x) ∧ Scale.spread m (a :: l) := by
      rintro rfl
      exact ⟨by simp, fun x _ => by simp [Scale.domain, Scale.kind], two h1⟩
    by_cases h2 : Scale.maxL a l < 0
    · rw [if_pos h2] at h
      rcases h with h | h
      · exact hmm h
      · have : m = .negLogMinMax := h
        subst this
        refine ⟨by simp, fun x hx => ?_, two h1⟩
        simpa [Scale.domain, Scale.kind] using (minL_maxL hx).2.trans_lt h2
    · rw [if_neg h2] at h
      by_cases h3 : Scale.minL a l ≤ 0
      · rw [if_pos h3] at h
        exact hmm (by rcases h with h | h <;> exact h)
      · rw [if_neg h3] at h
        rcases h with h | h
        · exact hmm h
        · have : m = .logMinMax := h
          subst this
          refine ⟨by simp, fun x hx => ?_, two h1⟩
          simpa [Scale.domain, Scale.kind] using (lt_of_not_ge h3).trans_le (minL_maxL hx).1

example : (candidates 1 [10, 100]).2 = .logMinMax := by
  norm_num [candidates, Scale.minL, Scale.maxL]

theorem fitCols_round : ∀ (ms : List Method) (i : ℕ) (rows : List Vec), Chosen ms i rows →
    ∃ ss, fitCols ms i rows = .ok ss ∧ ∀ v : Vec, List.Forall₂ Scale.domain ms v → ∃ z, normM ss v = some z ∧ denormM ss z = some v ∧ z.length = v.length
  | [], i, rows, _ => ⟨[], rfl, fun v hv => by
      cases hv
      exact ⟨[], rfl, rfl, rfl⟩⟩
  | m :: ms, i, rows, h => by
    obtain ⟨⟨a, l, hcol, hm⟩, hrest⟩ := h
    obtain ⟨hno, hdom, hsp⟩ := C83_candidates a l m hm
    obtain ⟨s, hs⟩ := fit_exists m a l hno
    obtain ⟨ss, hss, hround⟩ := fitCols_round ms (i + 1) rows hrest
    refine ⟨s :: ss, ?_, ?_⟩
    · unfold fitCols
      rw [hcol, hs]
      dsimp only
      rw [hss]
    · intro v hv
      cases hv with
      | cons hx hvs =>
        rename_i x xs
        obtain ⟨z, hz, hb, hlen⟩ := hround xs hvs
        have hr := Scale.C71_round_trip hs (by simp) hdom hsp hx
        unfold Scale.roundTrip at hr
        cases ht : Scale.transform s x with
        | error e => rw [ht] at hr; simp at hr
        | ok o =>
          cases o with
          | none => rw [ht] at hr; simp at hr
          | some w =>
            rw [ht] at hr
            dsimp only at hr
            refine ⟨w :: z, ?_, ?_, by simp [hlen]⟩
            · unfold normM at hz ⊢
              unfold app
              rw [ht]
              dsimp only
              rw [hz]
              rfl
            · unfold denormM at hb ⊢
              unfold app
              rw [hr]
              dsimp only
              rw [hb]
              rfl

theorem chosen_domain : ∀ (ms : List Method) (i : ℕ) (rows : List Vec), Chosen ms i rows → ∀ r ∈ rows, (r.drop i).length = ms.length →
    List.Forall₂ Scale.domain ms (r.drop i)
  | [], i, rows, _, r, _, hl => by
    have : r.drop i = [] := List.length_eq_zero_iff.1 hl
    rw [this]
    exact List.Forall₂.nil
  | m :: ms, i, rows, h, r, hr, hl => by
    obtain ⟨⟨a, l, hcol, hm⟩, hrest⟩ := h
    have hi : i < r.length := by
      rw [List.length_drop, List.length_cons] at hl
      omega
    have hd : r.drop i = r.getD i 0 :: r.drop (i + 1) := by
      rw [List.drop_eq_getElem_cons hi]
      simp [List.getD, List.getElem?_eq_getElem hi]
    rw [hd] at hl ⊢
    refine List.Forall₂.cons ?_ (chosen_domain ms (i + 1) rows hrest r hr ?_)
    · apply (C83_candidates a l m hm).2.1
      rw [← hcol]
      exact List.mem_map_of_mem (f := fun r => r.getD i 0) hr
    · simpa using hl

/-- **C83** If every column is scaled with one of its candidates, fitting the scalers works, and every row with which they were fitted
comes back when it is scaled and scaled back. -/
theorem C83_matrix {n : ℕ} {ms : List Method} {rows : List Vec} (hn : ms.length = n) (h : Chosen ms 0 rows) :
    ∃ ss, fitM n ms rows = .ok ss ∧ ∀ r ∈ rows, r.length = n → ∃ z, normM ss r = some z ∧ denormM ss z = some r ∧ z.length = n := by
  obtain ⟨ss, hss, hr⟩ := fitCols_round ms 0 rows h
  refine ⟨ss, ?_, ?_⟩
  · unfold fitM
    rw [if_neg (by simp [hn])]
    exact hss
  · intro r hr' hl
    obtain ⟨z, h1, h2, h3⟩ := hr r (by simpa using chosen_domain ms 0 rows h r hr' (by simp [hl, hn]))
    exact ⟨z, h1, h2, h3.trans hl⟩

/-- The rows of a class are those picked, if rows and classes belong together. -/
theorem pick_aligned (l : List (Vec × Cls)) (c : Cls) :
    pick (l.map (·.1)) (l.map (·.2)) c = (l.filter fun t => t.2 = c).map (·.1) := by
  have key : ∀ (l : List (Vec × Cls)) (pre : List Vec),
      (((l.map (·.2)).zipIdx pre.length).filter fun p => p.1 = c).filterMap (fun p => (pre ++ l.map (·.1))[p.2]?) =
        (l.filter fun t => t.2 = c).map (·.1) := by
    intro l
    induction l with
    | nil => intro pre; rfl
    | cons t l ih =>
      intro pre
      have h := ih (pre ++ [t.1])
      rw [List.length_append, List.length_singleton, List.append_assoc, List.singleton_append] at h
      rw [List.map_cons, List.map_cons, List.zipIdx_cons]
      by_cases hc : t.2 = c
      · rw [List.filter_cons_of_pos (by simpa using hc), List.filter_cons_of_pos (by simpa using hc), List.filterMap_cons]
        simp only [List.getElem?_append_right (le_refl _), Nat.sub_self, List.getElem?_cons_zero, List.map_cons]
        rw [h]
      · rw [List.filter_cons_of_neg (by simpa using hc), List.filter_cons_of_neg (by simpa using hc)]
        exact h
  simpa [pick] using key l []

theorem fitPer_find {n : ℕ} {rows : List Vec} {ic : List Cls} {c : Cls} {m : List Method} : ∀ {d : List (Cls × List Method)} {r},
    fitPer n rows ic d = .ok r → d.find? (fun p => p.1 = c) = some (c, m) →
      ∃ ss, fitM n m (pick rows ic c) = .ok ss ∧ r.find? (fun p => p.1 = some c) = some (some c, ss)
  | [], r, _, h => by simp at h
  | (c', m') :: d, r, hf, h => by
    unfold fitPer at hf
    cases hs : fitM n m' (pick rows ic c') with
    | error e => rw [hs] at hf; simp at hf
    | ok s =>
      rw [hs] at hf
      dsimp only at hf
      cases hr : fitPer n rows ic d with
      | error e => rw [hr] at hf; simp at hf
      | ok r' =>
        rw [hr] at hf
        simp only [Except.ok.injEq] at hf
        subst hf
        by_cases hc : c' = c
        · subst hc
          rw [List.find?_cons_of_pos (by simp)] at h
          simp only [Option.some.injEq, Prod.mk.injEq, true_and] at h
          subst h
          exact ⟨s, hs, by rw [List.find?_cons_of_pos (by simp)]⟩
        · rw [List.find?_cons_of_neg (by simpa using hc)] at h
          obtain ⟨ss, h1, h2⟩ := fitPer_find hr h
          exact ⟨ss, h1, by rw [List.find?_cons_of_neg (by simpa using hc)]; exact h2⟩

/-- **C83** The outputs of the tracks of a class come back when they are scaled with the scalers of the class and scaled back. -/
theorem C83_outputs {n : ℕ} {d : List (Cls × List Method)} {mAll : List Method} {rows : List (ℤ × Vec × Cls)} {ys : List (Option Cls × List Scaler)}
    (h : yScaler n (.per d mAll) rows = .ok ys) {c : Cls} (hc : c ≠ "None") {m : List Method} (hd : d.find? (fun p => p.1 = c) = some (c, m))
    (hm : m.length = n) (hch : Chosen m 0 ((rows.filter fun r => r.1 > 0 ∧ r.2.2 = c).map fun r => r.2.1))
    {v : ℤ} (hv : v > 0) {y : Vec} (hy : (v, y, c) ∈ rows) (hl : y.length = n) :
    ∃ z, normRow ys c y = some z ∧ denormRow ys c z = some y ∧ z.length = n := by
  have hpick : pick ((rows.filter fun r => r.1 > 0).map fun r => r.2.1) ((rows.filter fun r => r.1 > 0).map fun r => r.2.2) c =
      (rows.filter fun r => r.1 > 0 ∧ r.2.2 = c).map fun r => r.2.1 := by
    have := pick_aligned ((rows.filter fun r => r.1 > 0).map (·.2)) c
    rw [List.map_map, List.map_map, List.filter_map, List.map_map, List.filter_filter] at this
    rw [show ((fun r : ℤ × Vec × Cls => r.2.1)) = (fun x : Vec × Cls => x.1) ∘ (fun r : ℤ × Vec × Cls => r.2) from rfl,
      show ((fun r : ℤ × Vec × Cls => r.2.2)) = (fun x : Vec × Cls => x.2) ∘ (fun r : ℤ × Vec × Cls => r.2) from rfl, this]
    congr 1
    apply List.filter_congr
    intro r _
    by_cases h1 : r.1 > 0 <;> by_cases h2 : r.2.2 = c <;> simp [h1, h2]
  unfold yScaler fitScaler at h
  dsimp only at h
  cases hf : fitPer n ((rows.filter fun r => r.1 > 0).map fun r => r.2.1) ((rows.filter fun r => r.1 > 0).map fun r => r.2.2) d with
  | error e => rw [hf] at h; simp at h
  | ok r =>
    rw [hf] at h
    dsimp only at h
    cases hs : fitM n mAll ((rows.filter fun r => r.1 > 0).map fun r => r.2.1) with
    | error e => rw [hs] at h; simp at h
    | ok s =>
      rw [hs] at h
      simp only [Except.ok.injEq] at h
      subst h
      obtain ⟨ss, h1, h2⟩ := fitPer_find hf hd
      rw [hpick] at h1
      obtain ⟨ss', h3, h4⟩ := C83_matrix hm hch
      rw [h1] at h3
      simp only [Except.ok.injEq] at h3
      subst h3
      have hsc : scalerOf (r ++ [(none, s)]) c = some ss := by
        unfold scalerOf
        rw [if_neg hc, List.find?_append, h2]
        rfl
      obtain ⟨z, hz⟩ := h4 y (List.mem_map.2 ⟨(v, y, c), List.mem_filter.2 ⟨hy, by simp [hv]⟩, rfl⟩) hl
      refine ⟨z, ?_⟩
      unfold normRow denormRow
      rw [hsc]
      exact hz

/-! ### Reproduction -/

theorem dist2_nonneg (a b : Vec) : 0 ≤ dist2 a b := by
  unfold dist2
  apply List.sum_nonneg
  intro x hx
  rw [List.mem_iff_getElem] at hx
  obtain ⟨i, hi, rfl⟩ := hx
  rw [List.getElem_zipWith]
  positivity

theorem dist2_eq_zero : ∀ {a b : Vec}, a.length = b.length → (dist2 a b = 0 ↔ a = b)
  | [], [], _ => by simp [dist2]
  | x :: a, y :: b, h => by
    have ih := dist2_eq_zero (a := a) (b := b) (by simpa using h)
    have e : dist2 (x :: a) (y :: b) = (x - y) ^ 2 + dist2 a b := by simp [dist2]
    rw [e]
    constructor
    · intro h0
      have h1 := dist2_nonneg a b
      have h2 : 0 ≤ (x - y) ^ 2 := by positivity
      have h3 : (x - y) ^ 2 = 0 := by linarith
      have h4 : dist2 a b = 0 := by linarith
      have h5 : x - y = 0 := pow_eq_zero_iff (two_ne_zero) |>.1 h3
      rw [ih.1 h4, sub_eq_zero.1 h5]
    · intro h0
      simp only [List.cons.injEq] at h0
      rw [ih.2 h0.2, h0.1]
      simp

theorem nearest_spec : ∀ (data : List (Vec × Vec)) (p : Vec) (d : ℝ) (v : Vec), nearest data p = some (d, v) →
    (∃ q, (q, v) ∈ data ∧ dist2 q p = d) ∧ ∀ t ∈ data, d ≤ dist2 t.1 p
  | [], _, _, _, h => by simp [nearest] at h
  | (q, w) :: l, p, d, v, h => by
    unfold nearest at h
    cases hn : nearest l p with
    | none =>
      rw [hn] at h
      simp only [Option.some.injEq, Prod.mk.injEq] at h
      obtain ⟨rfl, rfl⟩ := h
      have hl : l = [] := by
        cases l with
        | nil => rfl
        | cons t l =>
          unfold nearest at hn
          revert hn
          cases nearest l p with
          | none => simp
          | some e =>
            dsimp only
            split <;> simp
      subst hl
      exact ⟨⟨q, by simp, rfl⟩, by simp⟩
    | some e =>
      obtain ⟨d', w'⟩ := e
      rw [hn] at h
      dsimp only at h
      obtain ⟨⟨q', hq', hd'⟩, hmin⟩ := nearest_spec l p d' w' hn
      by_cases hle : dist2 q p ≤ d'
      · rw [if_pos hle] at h
        simp only [Option.some.injEq, Prod.mk.injEq] at h
        obtain ⟨rfl, rfl⟩ := h
        refine ⟨⟨q, by simp, rfl⟩, fun t ht => ?_⟩
        rcases List.mem_cons.1 ht with rfl | ht
        · exact le_refl _
        · exact hle.trans (hmin t ht)
      · rw [if_neg hle] at h
        simp only [Option.some.injEq, Prod.mk.injEq] at h
        obtain ⟨rfl, rfl⟩ := h
        refine ⟨⟨q', by simp [hq'], hd'⟩, fun t ht => ?_⟩
        rcases List.mem_cons.1 ht with rfl | ht
        · exact (lt_of_not_ge hle).le
        · exact hmin t ht

theorem nearest_some {data : List (Vec × Vec)} (h : data ≠ []) (p : Vec) : ∃ e, nearest data p = some e := by
  cases data with
  | nil => exact absurd rfl h
  | cons t l =>
    unfold nearest
    cases nearest l p with
    | none => exact ⟨_, rfl⟩
    | some e =>
      dsimp only
      split <;> exact ⟨_, rfl⟩

/-- **C83** The nearest neighbour of a track is the track itself, unless another one has the same inputs. -/
theorem C83_nearest {data : List (Vec × Vec)} {p v : Vec} (h : (p, v) ∈ data) (hlen : ∀ t ∈ data, t.1.length = p.length)
    (huniq : ∀ t ∈ data, t.1 = p → t.2 = v) : nearest data p = some (0, v) := by
  obtain ⟨⟨d, w⟩, he⟩ := nearest_some (List.ne_nil_of_mem h) p
  obtain ⟨⟨q, hq, hd⟩, hmin⟩ := nearest_spec data p d w he
  have h0 : d = 0 := by
    apply le_antisymm
    · have := hmin _ h
      rwa [(dist2_eq_zero rfl).2 rfl] at this
    · rw [← hd]
      exact dist2_nonneg _ _
  have hqp : q = p := (dist2_eq_zero (hlen _ hq)).1 (hd.trans h0)
  have hw : w = v := huniq _ hq hqp
  rw [he, h0, hw]

theorem train_mem {xs ys : List (Option Cls × List Scaler)} : ∀ {rows : List (Vec × Vec × Cls)} {ts : List Track}, train xs ys rows = some ts →
    ∀ {x y : Vec} {c : Cls}, (x, y, c) ∈ rows → ∃ xn yn, normRow xs c x = some xn ∧ normRow ys c y = some yn ∧ (⟨xn, yn, c⟩ : Track) ∈ ts
  | [], _, _, _, _, _, hm => by simp at hm
  | (x', y', c') :: l, ts, h, x, y, c, hm => by
    unfold train at h
    cases h1 : normRow xs c' x' with
    | none => rw [h1] at h; simp at h
    | some xn =>
      cases h2 : normRow ys c' y' with
      | none => rw [h1, h2] at h; simp at h
      | some yn =>
        cases h3 : train xs ys l with
        | none => rw [h1, h2, h3] at h; simp at h
        | some ts' =>
          rw [h1, h2, h3] at h
          simp only [Option.some.injEq] at h
          subst h
          rcases List.mem_cons.1 hm with e | hm
          · simp only [Prod.mk.injEq] at e
            obtain ⟨rfl, rfl, rfl⟩ := e
            exact ⟨xn, yn, h1, h2, by simp⟩
          · obtain ⟨a, b, e1, e2, e3⟩ := train_mem h3 hm
            exact ⟨a, b, e1, e2, by simp [e3]⟩

/-- **C83** A track of a class that some group covers is reproduced, if its outputs come back from scaling, the interpolation of SciPy
reproduces its nodes, and no other track of the group has the same scaled inputs. Missing: the sanitization afterwards (C37), rounding. -/
theorem C83_reproduces_partial {hull : List (Vec × Vec) → Vec → Option Vec} {gs : List Group} {xs ys : List (Option Cls × List Scaler)}
    {rows : List (Vec × Vec × Cls)} {ts : List Track} (ht : train xs ys rows = some ts) {x y : Vec} {c : Cls} (hm : (x, y, c) ∈ rows)
    (hg : ∃ g ∈ gs, c ∈ g.classes)
    (hback : ∀ yn, normRow ys c y = some yn → denormRow ys c yn = some y)
    (hull_nodes : ∀ data p v, (p, v) ∈ data → (∀ t ∈ data, t.1 = p → t.2 = v) → hull data p = some v ∨ hull data p = none)
    (hdist : ∀ t ∈ ts, ∀ xn, normRow xs c x = some xn → t.x.length = xn.length ∧ (t.x = xn → normRow ys c y = some t.y)) :
    testMC hull gs ts xs ys c x = some y := by
  obtain ⟨xn, yn, h1, h2, h3⟩ := train_mem ht hm
  unfold testMC
  rw [h1, Option.bind_some]
  have hp : predictMC hull gs ts c xn = some yn := by
    unfold predictMC
    cases hl : (gs.filter fun g => c ∈ g.classes).getLast? with
    | none =>
      obtain ⟨g, hg1, hg2⟩ := hg
      rw [List.getLast?_eq_none_iff] at hl
      have : g ∈ gs.filter fun g => c ∈ g.classes := List.mem_filter.2 ⟨hg1, by simpa using hg2⟩
      rw [hl] at this
      simp at this
    | some g =>
      have hgc : c ∈ g.classes := by
        have := List.mem_of_getLast? hl
        simpa using (List.mem_filter.1 this).2
      have hmem : (xn, yn) ∈ groupData g ts :=
        List.mem_map.2 ⟨⟨xn, yn, c⟩, List.mem_filter.2 ⟨h3, by simpa using hgc⟩, rfl⟩
      have hlen : ∀ t ∈ groupData g ts, t.1.length = xn.length := by
        intro t ht'
        obtain ⟨u, hu, rfl⟩ := List.mem_map.1 ht'
        exact (hdist u (List.mem_filter.1 hu).1 xn h1).1
      have huniq : ∀ t ∈ groupData g ts, t.1 = xn → t.2 = yn := by
        intro t ht' he
        obtain ⟨u, hu, rfl⟩ := List.mem_map.1 ht'
        have := (hdist u (List.mem_filter.1 hu).1 xn h1).2 he
        rw [h2] at this
        simpa using this.symm
      have hn := C83_nearest hmem hlen huniq
      dsimp only
      cases g.how with
      | nn => simp only [hn, Option.map_some]
      | linear =>
        dsimp only
        rcases hull_nodes _ _ _ hmem huniq with h | h <;> rw [h]
        · rfl
        · rw [hn]
          rfl
  rw [hp, Option.bind_some]
  exact hback yn h2

example : ∃ ts, train [(none, [])] [(none, [])] [([1, 2], [5], "stable_MT"), ([2, 2], [7], "stable_MT")] = some ts ∧
    testMC (fun _ _ => none) [⟨["stable_MT"], .linear⟩] ts [(none, [])] [(none, [])] "stable_MT" [2, 2] = some [7] := by
  have e : ∀ v : Vec, normRow [(none, [])] "stable_MT" v = some v := fun v => by simp [normRow, scalerOf]
  have e' : ∀ v : Vec, denormRow [(none, [])] "stable_MT" v = some v := fun v => by simp [denormRow, scalerOf]
  obtain ⟨ts, hts⟩ : ∃ ts, train [(none, [])] [(none, [])] [([1, 2], [5], "stable_MT"), ([2, 2], [7], "stable_MT")] = some ts := by
    simp [train, e]
  refine ⟨ts, hts, ?_⟩
  refine C83_reproduces_partial hts (y := [7]) (by simp) ⟨⟨["stable_MT"], .linear⟩, by simp, by simp⟩ (fun yn h => ?_) (fun _ _ _ _ _ => Or.inr rfl) ?_
  · rw [e] at h
    rw [e', h]
  · simp [train, e] at hts
    subst hts
    intro t ht xn hx
    rw [e] at hx
    simp only [Option.some.injEq] at hx
    subst hx
    simp only [List.mem_cons, List.not_mem_nil, or_false] at ht
    rcases ht with rfl | rfl
    · norm_num
    · simp [e]

/-- **C83** A predicted class that no group covers gives no numbers. -/
theorem C83_no_group (hull : List (Vec × Vec) → Vec → Option Vec) (gs : List Group) (ts : List Track) (xs ys : List (Option Cls × List Scaler))
    (z : Cls) (x : Vec) (h : ∀ g ∈ gs, z ∉ g.classes) : testMC hull gs ts xs ys z x = none := by
  have : (gs.filter fun g => z ∈ g.classes) = [] := by
    rw [List.filter_eq_nil_iff]
    intro g hg
    simpa using h g hg
  unfold testMC
  cases normRow xs z x with
  | none => rfl
  | some xn => simp [predictMC, this]

example : testMC (fun _ _ => none) [⟨["stable_MT"], .nn⟩] [] [] [] "initial_MT" [1] = none :=
  C83_no_group _ _ _ _ _ _ _ (by simp)

/-- **C83** The classifier finds the class of a track with which it was trained, if all tracks with the same scaled inputs have that
class; `vote` is any vote that respects unanimity. -/
theorem C83_class {vote : List (ℝ × Cls) → Cls} (hvote : ∀ l c, l ≠ [] → (∀ d ∈ l, d.2 = c) → vote l = c) {k : ℕ} (hk : 1 ≤ k)
    {data : List (Vec × Cls)} {p : Vec} {c : Cls} (h : (p, c) ∈ data) (hlen : ∀ t ∈ data, t.1.length = p.length)
    (huniq : ∀ t ∈ data, t.1 = p → t.2 = c) : knn vote k data p = c := by
  unfold knn
  obtain ⟨L, hL⟩ : ∃ L, L = (data.map fun d => (dist2 d.1 p, d.2)).mergeSort fun a b => decide (a.1 ≤ b.1) := ⟨_, rfl⟩
  rw [← hL]
  have hperm : L.Perm (data.map fun d => (dist2 d.1 p, d.2)) := by
    rw [hL]
    exact List.mergeSort_perm _ _
  have hsorted : L.Pairwise fun a b => a.1 ≤ b.1 := by
    have := List.pairwise_mergeSort (le := fun (a b : ℝ × Cls) => decide (a.1 ≤ b.1)) (fun a b c h1 h2 => by
      simp only [decide_eq_true_eq] at h1 h2 ⊢
      exact h1.trans h2) (fun a b => by
      simp only [Bool.or_eq_true, decide_eq_true_eq]
      exact le_total _ _) (data.map fun d => (dist2 d.1 p, d.2))
    rw [← hL] at this
    simpa using this
  have hz : ((0 : ℝ), c) ∈ L := by
    rw [hperm.mem_iff]
    exact List.mem_map.2 ⟨(p, c), h, by simp [(dist2_eq_zero rfl).2 rfl]⟩
  have hcls : ∀ d ∈ L, d.1 = 0 → d.2 = c := by
    intro d hd h0
    rw [hperm.mem_iff] at hd
    obtain ⟨t, ht, rfl⟩ := List.mem_map.1 hd
    exact huniq t ht ((dist2_eq_zero (hlen t ht)).1 h0)
  have hpos : ∀ d ∈ L, 0 ≤ d.1 := by
    intro d hd
    rw [hperm.mem_iff] at hd
    obtain ⟨t, -, rfl⟩ := List.mem_map.1 hd
    exact dist2_nonneg _ _
  cases L with
  | nil => simp at hz
  | cons a L =>
    have ha : a.1 = 0 := by
      apply le_antisymm _ (hpos a (by simp))
      rcases List.mem_cons.1 hz with e | e
      · rw [← e]
      · exact (List.pairwise_cons.1 hsorted).1 _ e
    obtain ⟨k, rfl⟩ : ∃ j, k = j + 1 := ⟨k - 1, by omega⟩
    have hne : ((a :: L).take (k + 1)).filter (fun d => d.1 = 0) ≠ [] := by
      rw [List.take_succ_cons, List.filter_cons_of_pos (by simpa using ha)]
      simp
    dsimp only
    rw [if_neg (by simpa using hne)]
    apply hvote _ _ hne
    intro d hd
    obtain ⟨h1, h2⟩ := List.mem_filter.1 hd
    exact hcls d (List.mem_of_mem_take h1) (by simpa using h2)

/-- **C83** From the inputs of a track alone the interpolator finds the class of the track and then its outputs, with scalings chosen by the
code: the class by the scaled inputs of all tracks, the numbers by the tracks of the group. Missing: as in `C83_reproduces_partial`. -/
theorem C83_track_partial {hull : List (Vec × Vec) → Vec → Option Vec} {gs : List Group} {n : ℕ} {d : List (Cls × List Method)} {mAll : List Method}
    {labelled : List (ℤ × Vec × Cls)} {xs ys : List (Option Cls × List Scaler)} (hys : yScaler n (.per d mAll) labelled = .ok ys)
    {rows : List (Vec × Vec × Cls)} {ts : List Track} (ht : train xs ys rows = some ts) {x y : Vec} {c : Cls} (hm : (x, y, c) ∈ rows)
    (hc : c ≠ "None") {m : List Method} (hd : d.find? (fun p => p.1 = c) = some (c, m)) (hml : m.length = n)
    (hch : Chosen m 0 ((labelled.filter fun r => r.1 > 0 ∧ r.2.2 = c).map fun r => r.2.1))
    {v : ℤ} (hv : v > 0) (hy : (v, y, c) ∈ labelled) (hl : y.length = n)
    (hg : ∃ g ∈ gs, c ∈ g.classes)
    (hull_nodes : ∀ data p v, (p, v) ∈ data → (∀ t ∈ data, t.1 = p → t.2 = v) → hull data p = some v ∨ hull data p = none)
    (hdist : ∀ t ∈ ts, ∀ xn, normRow xs c x = some xn → t.x.length = xn.length ∧ (t.x = xn → normRow ys c y = some t.y))
    {vote : List (ℝ × Cls) → Cls} (hvote : ∀ l c, l ≠ [] → (∀ d ∈ l, d.2 = c) → vote l = c) {k : ℕ} (hk : 1 ≤ k)
    {cdata : List (Vec × Cls)} {xg : Vec} (hxg : normRow xs "None" x = some xg) (hcd : (xg, c) ∈ cdata)
    (hcl : ∀ t ∈ cdata, t.1.length = xg.length ∧ (t.1 = xg → t.2 = c)) :
    ((normRow xs "None" x).bind fun p => testMC hull gs ts xs ys (knn vote k cdata p) x) = some y := by
  rw [hxg, Option.bind_some, C83_class hvote hk hcd (fun t ht => (hcl t ht).1) (fun t ht => (hcl t ht).2)]
  refine C83_reproduces_partial ht hm hg (fun yn hyn => ?_) hull_nodes hdist
  obtain ⟨z, h1, h2, -⟩ := C83_outputs hys hc hd hml hch hv hy hl
  rw [h1] at hyn
  simp only [Option.some.injEq] at hyn
  rw [← hyn]
  exact h2

/-- **C83** An interpolator with a single method and scaled outputs returns the scaled number instead of the number: the class is used to
look for the scalers, which exist for no class. -/
theorem C83_single_violated (hull : List (Vec × Vec) → Vec → Option Vec) (data : List (Vec × Vec)) (ss tt : List Scaler) (z : Cls) (hz : z ≠ "None")
    {x xn yn : Vec} (hx : normM ss x = some xn) (h : hull data xn = some yn) :
    testOne hull .linear data [(none, ss)] [(none, tt)] z x = .ok (some yn) := by
  have e1 : normRow [(none, ss)] "None" x = some xn := by
    simp [normRow, scalerOf, hx]
  have e2 : denormRow [(none, tt)] z yn = some yn := by
    simp [denormRow, scalerOf, hz]
  simp [testOne, e1, predict, h, e2]

/-- A track with the output 10, of outputs from 0 to 10, is reported with the output 1. -/
example : ∃ ss, fitM 1 [.minMax] [[0], [10]] = .ok ss ∧ normM ss [10] = some [1] ∧
    testOne (fun _ _ => some [1]) .linear [([5], [1])] [(none, [])] [(none, ss)] "stable_MT" [] = .ok (some [1]) := by
  obtain ⟨s, hs⟩ := fit_exists .minMax 0 [10] (by simp)
  refine ⟨[s], by simp [fitM, fitCols, col, hs], ?_, C83_single_violated _ _ _ _ _ (by simp) (xn := []) rfl rfl⟩
  have : s = ⟨some .minMax, [some 0, some 10], some (-1, 1)⟩ := by
    have h2 : (-1 : ℝ) < 1 := by norm_num
    simp [Scale.fit, Scale.ranged, Scale.fitParams, Scale.minL, Scale.maxL, Scaler.new, h2] at hs
    exact hs.symm
  subst this
  simp [normM, app, Scale.transform, Scale.withRange, Scale.two, Scale.param, Scale.toRange, Scale.quot] <;> norm_num

/-- **C83** With the single method 'linear' a point outside the hull of the tracks ends in an AttributeError instead of the nearest
neighbour. -/
theorem C83_hull_violated (hull : List (Vec × Vec) → Vec → Option Vec) (data : List (Vec × Vec)) (xs ys : List (Option Cls × List Scaler)) (z : Cls)
    {x xn : Vec} (hx : normRow xs "None" x = some xn) (h : hull data xn = none) :
    testOne hull .linear data xs ys z x = .error .attribute := by
  simp [testOne, hx, predict, h]

example : testOne (fun _ _ => none) .linear [([5], [1])] [] [] "stable_MT" [6] = .error .attribute :=
  C83_hull_violated _ _ _ _ _ (xn := [6]) rfl rfl

/-! ### Which tracks are used -/

/-- **C83** A track is used for the interpolation exactly if its class is a valid one and it is not a track of equal masses in a grid over
the mass ratio. -/
theorem C83_label (classes : List Cls) (inQ : Bool) (c : Cls) (x : List (Option ℝ)) :
    label classes inQ c x > 0 ↔ c ∈ classes ∧ ¬ (inQ = true ∧ x[1]? = some (some 1)) := by
  unfold label
  dsimp only
  by_cases h : inQ = true ∧ x[1]? = some (some 1)
  · rw [if_pos h]
    simp [h]
  · rw [if_neg h]
    by_cases hc : c ∈ classes
    · rw [if_pos hc]
      refine ⟨fun _ => ⟨hc, h⟩, fun _ => by positivity⟩
    · rw [if_neg hc]
      refine ⟨fun hp => absurd hp ?_, fun hp => absurd hp.1 hc⟩
      split_ifs <;> simp

/-- **C83** Tracks that did not converge or were ignored for lack of a Roche lobe overflow are used for nothing, those with mass transfer
from the start or without a black hole only for the classification. -/
theorem C83_excluded (ic : List Cls) (inQ : Bool) (x : List (Option ℝ)) :
    label (validClasses ic) inQ "not_converged" x = -1 ∧ label (validClasses ic) inQ "ignored_no_RLO" x = -1 ∧
      label (validClasses ic) inQ "initial_MT" x ≤ 0 ∧ label (validClasses ic) inQ "ignored_no_BH" x ≤ 0 := by
  have h : ∀ c ∈ ["not_converged", "ignored_no_BH", "ignored_no_RLO", "initial_MT"], c ∉ validClasses ic := by
    intro c hc hm
    have := (List.mem_filter.1 hm).2
    simp only [decide_eq_true_eq] at this
    exact this hc
  refine ⟨?_, ?_, ?_, ?_⟩
  · unfold label
    dsimp only
    rw [if_neg (h "not_converged" (by simp)), if_pos (by simp : "not_converged" ∈ ["not_converged", "ignored_no_RLO", "ignored_no_binary_history"])]
    split_ifs <;> rfl
  · unfold label
    dsimp only
    rw [if_neg (h "ignored_no_RLO" (by simp)), if_pos (by simp : "ignored_no_RLO" ∈ ["not_converged", "ignored_no_RLO", "ignored_no_binary_history"])]
    split_ifs <;> rfl
  · exact not_lt.1 fun hp => h "initial_MT" (by simp) ((C83_label _ _ _ _).1 hp).1
  · exact not_lt.1 fun hp => h "ignored_no_BH" (by simp) ((C83_label _ _ _ _).1 hp).1

/-- **C83** Tracks without a history of the binary are reported as discarded but used: their class stays among the valid ones. -/
theorem C83_history_violated (ic : List Cls) (h : "ignored_no_binary_history" ∈ ic) (x : List (Option ℝ)) :
    label (validClasses ic) false "ignored_no_binary_history" x > 0 := by
  rw [C83_label]
  refine ⟨List.mem_filter.2 ⟨List.mem_dedup.2 h, by decide⟩, by simp⟩

/-- **C83** A track of a class that is not interpolated is used for the classification (label 0) exactly if its class is not excluded, all
its inputs are known and its mass ratio is not 1 where mass ratios are used; else it is discarded. -/
theorem C83_label_zero (classes : List Cls) (inQ : Bool) (c : Cls) (x : List (Option ℝ)) (hc : c ∉ classes) :
    (label classes inQ c x = 0 ↔ c ∉ ["not_converged", "ignored_no_RLO", "ignored_no_binary_history"] ∧ none ∉ x ∧ ¬ (inQ = true ∧ x[1]? = some (some 1))) ∧
    (label classes inQ c x = 0 ∨ label classes inQ c x = -1) := by
  unfold label
  dsimp only
  rw [if_neg hc]
  by_cases h : inQ = true ∧ x[1]? = some (some 1)
  · rw [if_pos h]; simp [h]
  · rw [if_neg h]
    by_cases hn : none ∈ x
    · rw [if_pos hn]; simp [hn]
    · rw [if_neg hn]
      by_cases hm : c ∈ ["not_converged", "ignored_no_RLO", "ignored_no_binary_history"]
      · rw [if_pos hm]; exact ⟨⟨fun e => by simp at e, fun e => absurd hm e.1⟩, by simp⟩
      · rw [if_neg hm]; exact ⟨⟨fun _ => ⟨hm, hn, h⟩, fun _ => rfl⟩, by simp⟩

/-- **C83** Tracks with a missing input are reported as discarded but used if their class is a valid one. -/
theorem C83_nan_violated (ic : List Cls) (h : "stable_MT" ∈ ic) : label (validClasses ic) false "stable_MT" [none, some 1, some 2] > 0 := by
  rw [C83_label]
  refine ⟨List.mem_filter.2 ⟨List.mem_dedup.2 h, by decide⟩, by simp⟩

/-- **C83** With tracks used for classification only, the scalers of the inputs of a class are fitted with the wrong tracks: here the
class `a` with the inputs 1 and 2 is scaled with 7 and 7, and both of its inputs become NaN. -/
theorem C83_inputs_violated : ∃ rows : List (ℤ × Vec × Cls), ∃ xs, xScaler 1 (.per [("a", [.minMax])] [.minMax]) rows = .ok xs ∧
    (1, [1], "a") ∈ rows ∧ (1, [2], "a") ∈ rows ∧ normRow xs "a" [1] = none ∧ normRow xs "a" [2] = none := by
  obtain ⟨s, hs⟩ := fit_exists .minMax 7 [7] (by simp)
  obtain ⟨t, ht⟩ := fit_exists .minMax 7 [7, 1, 2] (by simp)
  have he : s = ⟨some .minMax, [some 7, some 7], some (-1, 1)⟩ := by
    have h2 : (-1 : ℝ) < 1 := by norm_num
    simp [Scale.fit, Scale.ranged, Scale.fitParams, Scale.minL, Scale.maxL, Scaler.new, h2] at hs
    exact hs.symm
  refine ⟨[(0, [7], "initial_MT"), (0, [7], "initial_MT"), (1, [1], "a"), (1, [2], "a")], [(some "a", [s]), (none, [t])], ?_, by simp, by simp, ?_, ?_⟩
  · simp [xScaler, fitScaler, fitPer, pick, fitM, fitCols, col, hs, ht]
  · subst he
    simp [normRow, scalerOf, normM, app, Scale.transform, Scale.withRange, Scale.two, Scale.param, Scale.toRange, Scale.quot]
  · subst he
    simp [normRow, scalerOf, normM, app, Scale.transform, Scale.withRange, Scale.two, Scale.param, Scale.toRange, Scale.quot]

/-- **C83** Without such tracks the scalers of the inputs are fitted like those of the outputs, each class with its own tracks. -/
theorem C83_inputs_partial (n : ℕ) (norms : Norms) (rows : List (ℤ × Vec × Cls)) (h : ∀ r ∈ rows, r.1 ≠ 0) :
    xScaler n norms rows = yScaler n norms rows := by
  have : (rows.filter fun r => r.1 ≥ 0) = rows.filter fun r => r.1 > 0 := by
    apply List.filter_congr
    intro r hr
    have := h r hr
    simp only [decide_eq_decide]
    omega
  unfold xScaler yScaler
  rw [this]

/-- **C83** A plain list of names of scalings, which is what the documentation asks for and what is used for the outputs with the
method '1NN', never works. -/
theorem C83_names_violated (n : ℕ) (hn : 0 < n) (l : List String) (rows : List Vec) (ic : List Cls) : ∃ e, fitScaler n (.plain l) rows ic = .error e := by
  unfold fitScaler
  dsimp only
  match l with
  | [] => exact ⟨_, rfl⟩
  | [_] => exact ⟨_, rfl⟩
  | a :: b :: l =>
    dsimp only
    by_cases h : a = b
    · rw [if_pos h]
      obtain ⟨e, he⟩ : ∃ e, fitM n (a.toList.map ofLetter) rows = .error e := by
        unfold fitM
        by_cases hl : (a.toList.map ofLetter).length ≠ n
        · exact ⟨_, if_pos hl⟩
        · rw [if_neg hl]
          cases ha : a.toList with
          | nil =>
            rw [ha] at hl
            exact absurd hn.ne (by simpa using hl)
          | cons ch cs =>
            refine ⟨.value, ?_⟩
            have : ∃ s, Scale.fit Scaler.new (col 0 rows) .other (-1) 1 = (s, some .value) := by
              cases col 0 rows with
              | nil => exact ⟨_, rfl⟩
              | cons a l => exact ⟨_, rfl⟩
            obtain ⟨s, hs⟩ := this
            simp [fitCols, ofLetter, hs]
      rw [he]
      exact ⟨e, rfl⟩
    · rw [if_neg h]
      exact ⟨_, rfl⟩

/-- **C83** An interpolator cannot be loaded from a file without also giving a grid, nor is the documented RuntimeError ever raised. -/
theorem C83_load_violated : (∀ file, construct false file = .error .attribute) ∧ ∀ g f, construct g f ≠ .error .runtime := by
  refine ⟨fun _ => rfl, fun g f => ?_⟩
  cases g <;> cases f <;> simp [construct]

/-! ### What is returned -/

/-- **C83** The numbers of a binary predicted to transfer mass from the start are all missing unless the classes are found with one
neighbour. -/
theorem C83_initial_MT (n1 : Bool) (y : List (Option ℝ)) : ∀ v ∈ evaluate false n1 "initial_MT" y, v = none := by
  unfold evaluate
  cases n1 <;> simp

theorem C83_initial_MT_violated : evaluate true false "initial_MT" [some 3] = [some 3] := by simp [evaluate]

/-- **C83** Other numbers are returned as they are, except -100, which is how a missing number is stored for the method '1NN'. -/
theorem C83_numbers_partial (k1 n1 : Bool) (z : Cls) (hz : z ≠ "initial_MT") (y : List (Option ℝ)) (h : n1 = true → some (-100) ∉ y) :
    evaluate k1 n1 z y = y := by
  unfold evaluate
  have h0 : (if k1 = false ∧ z = "initial_MT" then y.map (fun _ => none) else y) = y := if_neg (by simp [hz])
  dsimp only
  rw [h0]
  cases n1 with
  | false => rfl
  | true =>
    rw [if_pos rfl]
    conv_rhs => rw [← List.map_id y]
    apply List.map_congr_left
    intro v hv
    rw [if_neg (by rintro rfl; exact h rfl hv)]
    rfl

example : evaluate true true "stable_MT" [some 3, none] = [some 3, none] := C83_numbers_partial _ _ _ (by simp) _ (by norm_num; simp)

theorem C83_numbers_violated : evaluate true true "stable_MT" [some (-100)] = [none] := by simp [evaluate]

/-- **C83** With the standard keys the inputs of a binary are those of a track with the same initial values; with any other order of the
keys they are not. -/
theorem C83_inputs_order (inQ : Bool) (m1 m2 p : ℝ) : gridArray inQ [.m1, .m2, .p] m1 m2 p = binaryArray inQ m1 m2 p := rfl

theorem C83_inputs_order_violated : gridArray false [.m2, .m1, .p] 30 20 5 ≠ binaryArray false 30 20 5 := by
  norm_num [gridArray, binaryArray]

/-! ### Missing values -/

/-- **C83** Filling leaves no used track without the number, and changes nothing else. -/
theorem C83_fill (rows : List (ℤ × Vec × Option ℝ)) : (fillCol rows).1.length = rows.length ∧
    ∀ i (h : i < rows.length) (h' : i < (fillCol rows).1.length),
      (rows[i].1 > 0 → (fillCol rows).1[i] ≠ none) ∧ (rows[i].1 ≤ 0 ∨ rows[i].2.2 ≠ none → (fillCol rows).1[i] = rows[i].2.2) := by
  obtain ⟨known, hk⟩ : ∃ known, known = rows.filterMap fun r => if r.1 > 0 then r.2.2.map fun v => (r.2.1, [v]) else none := ⟨_, rfl⟩
  unfold fillCol
  rw [← hk]
  dsimp only
  by_cases ha : (rows.any fun r => decide (r.1 > 0) && r.2.2.isNone) = true
  · simp only [if_pos ha]
    by_cases he : known.isEmpty = true
    · simp only [if_pos he]
      refine ⟨by simp, fun i h h' => ?_⟩
      simp only [List.getElem_map]
      constructor
      · intro hp
        by_cases hn : rows[i].2.2 = none
        · rw [if_pos ⟨hp, hn⟩]; simp
        · rw [if_neg (by simp [hn])]; exact hn
      · intro hp
        rw [if_neg]
        rintro ⟨h1, h2⟩
        rcases hp with hp | hp
        · omega
        · exact hp h2
    · simp only [if_neg he]
      refine ⟨by simp, fun i h h' => ?_⟩
      simp only [List.getElem_map]
      constructor
      · intro hp
        by_cases hn : rows[i].2.2 = none
        · rw [if_pos ⟨hp, hn⟩]
          obtain ⟨⟨d, v⟩, hd⟩ := nearest_some (data := known) (by simpa using he) rows[i].2.1
          obtain ⟨⟨q, hq, -⟩, -⟩ := nearest_spec _ _ _ _ hd
          rw [hk] at hq
          obtain ⟨r, -, hr⟩ := List.mem_filterMap.1 hq
          rw [hd]
          by_cases hr1 : r.1 > 0
          · rw [if_pos hr1, Option.map_eq_some_iff] at hr
            obtain ⟨w, -, hw⟩ := hr
            simp only [Prod.mk.injEq] at hw
            rw [← hw.2]
            simp
          · rw [if_neg hr1] at hr
            simp at hr
        · rw [if_neg (by simp [hn])]; exact hn
      · intro hp
        rw [if_neg]
        rintro ⟨h1, h2⟩
        rcases hp with hp | hp
        · omega
        · exact hp h2
  · simp only [if_neg ha]
    refine ⟨by simp, fun i h h' => ?_⟩
    simp only [List.getElem_map]
    refine ⟨fun hp hn => ha ?_, fun _ => trivial⟩
    rw [List.any_eq_true]
    exact ⟨rows[i], List.getElem_mem h, by simp [hp, hn]⟩

/-- **C83** A number that no used track has becomes zero for all of them, and is noted as missing. -/
theorem C83_fill_none (rows : List (ℤ × Vec × Option ℝ)) (h : ∀ r ∈ rows, r.1 > 0 → r.2.2 = none) (hr : ∃ r ∈ rows, r.1 > 0) :
    (fillCol rows).2 = true ∧ ∀ i (hi : i < rows.length) (h' : i < (fillCol rows).1.length), rows[i].1 > 0 → (fillCol rows).1[i] = some 0 := by
  have hk : (rows.filterMap fun r => if r.1 > 0 then r.2.2.map fun v => (r.2.1, [v]) else none) = [] := by
    rw [List.filterMap_eq_nil_iff]
    intro r hr
    by_cases hp : r.1 > 0
    · rw [if_pos hp, h r hr hp]; rfl
    · rw [if_neg hp]
  have ha : (rows.any fun r => decide (r.1 > 0) && r.2.2.isNone) = true := by
    obtain ⟨r, h1, h2⟩ := hr
    rw [List.any_eq_true]
    exact ⟨r, h1, by simp [h2, h r h1 h2]⟩
  unfold fillCol
  rw [hk]
  simp only [if_pos ha, List.isEmpty_nil, if_true]
  refine ⟨trivial, fun i hi h' hp => ?_⟩
  simp only [List.getElem_map]
  rw [if_pos ⟨hp, h _ (List.getElem_mem hi) hp⟩]

example : (fillCol [(1, [1], some 5), (1, [3], none), (-1, [2], none)]).1 = [some 5, some 5, none] := by
  simp [fillCol, nearest]

/-! ### Several interpolators -/

theorem fold_keys : ∀ (ks seen : List String),
    ks.foldl (fun (a : Option (List String)) k => a.bind fun s => if k ∈ s then none else some (s ++ [k])) (some seen) =
      if ks.Nodup ∧ ∀ k ∈ ks, k ∉ seen then some (seen ++ ks) else none
  | [], seen => by simp
  | k :: ks, seen => by
    rw [List.foldl_cons, Option.bind_some]
    have hnone : ∀ l : List String, l.foldl (fun (a : Option (List String)) k => a.bind fun s => if k ∈ s then none else some (s ++ [k])) none = none := by
      intro l
      induction l with
      | nil => rfl
      | cons _ _ ih => exact ih
    by_cases hk : k ∈ seen
    · rw [if_pos hk, hnone, if_neg]
      rintro ⟨-, h⟩
      exact h k (by simp) hk
    · rw [if_neg hk, fold_keys ks (seen ++ [k])]
      have : (ks.Nodup ∧ ∀ k' ∈ ks, k' ∉ seen ++ [k]) ↔ ((k :: ks).Nodup ∧ ∀ k' ∈ k :: ks, k' ∉ seen) := by
        simp only [List.nodup_cons, List.mem_append, List.mem_singleton, List.mem_cons, not_or]
        constructor
        · rintro ⟨h1, h2⟩
          refine ⟨⟨fun hm => (h2 k hm).2.1 rfl, h1⟩, ?_⟩
          rintro k' (rfl | h)
          · exact hk
          · exact (h2 k' h).1
        · rintro ⟨⟨h1, h2⟩, h3⟩
          exact ⟨h2, fun k' h => ⟨h3 k' (Or.inr h), by rintro rfl; exact h1 h, by simp⟩⟩
      by_cases hc : ks.Nodup ∧ ∀ k' ∈ ks, k' ∉ seen ++ [k]
      · rw [if_pos hc, if_pos (this.1 hc), List.append_assoc, List.singleton_append]
      · rw [if_neg hc, if_neg (fun h => hc (this.2 h))]

theorem checkGo_iff (many : Bool) : ∀ (ps : List (Option (List String))) (seen : List String), seen.Nodup →
    (checkGo many ps seen = none ↔ (many = true → none ∉ ps) ∧ (seen ++ (ps.filterMap id).flatten).Nodup)
  | [], seen, hs => by simp [checkGo, hs]
  | none :: ps, seen, hs => by
    unfold checkGo
    cases many with
    | true => simp
    | false =>
      simp only [Bool.false_eq_true, if_false]
      rw [checkGo_iff false ps seen hs]
      simp
  | some ks :: ps, seen, hs => by
    unfold checkGo
    rw [fold_keys]
    by_cases hc : ks.Nodup ∧ ∀ k ∈ ks, k ∉ seen
    · rw [if_pos hc]
      dsimp only
      rw [checkGo_iff many ps (seen ++ ks)]
      · simp
      · rw [List.nodup_append]
        refine ⟨hs, hc.1, ?_⟩
        rintro a ha b hb rfl
        exact hc.2 a hb ha
    · rw [if_neg hc]
      simp only [reduceCtorEq, false_iff, not_and]
      intro _ hn
      apply hc
      simp only [List.filterMap_cons_some (f := id) (b := ks) rfl, List.flatten_cons, ← List.append_assoc] at hn
      have hn := (List.nodup_append.1 hn).1
      obtain ⟨-, h2, h3⟩ := List.nodup_append.1 hn
      exact ⟨h2, fun k hk hks => h3 k hks k hk rfl⟩

/-- **C83** Several interpolators are accepted exactly if each names its keys and no key is named twice. -/
theorem C83_keys (ps : List (Option (List String))) : check ps = none ↔ Given ps ∧ ((ps.filterMap id).flatten).Nodup := by
  unfold check Given
  rw [checkGo_iff _ _ _ List.nodup_nil, List.nil_append]
  constructor
  · rintro ⟨h1, h2⟩
    refine ⟨?_, h2⟩
    by_cases h : ps.length > 1
    · exact Or.inr (h1 (by simpa using h))
    · exact Or.inl (by omega)
  · rintro ⟨h1, h2⟩
    refine ⟨fun h => ?_, h2⟩
    rcases h1 with h1 | h1
    · simp only [decide_eq_true_eq] at h
      omega
    · exact h1

example : check [some ["a", "b"], some ["b"]] ≠ none := by
  rw [ne_eq, C83_keys]
  simp

theorem evaluateAll_go {α : Type} (k : String) : ∀ (rs : List (String → Option α)) (f : String → Option α),
    (∀ r ∈ rs, r k = none) → rs.foldl merge f k = f k
  | [], _, _ => rfl
  | r :: rs, f, h => by
    rw [List.foldl_cons, evaluateAll_go k rs _ fun r' hr' => h r' (by simp [hr'])]
    unfold merge
    rw [h r (by simp)]
    rfl

/-- **C83** A key that only one interpolator names has the value this one gives; a key that none names has none. -/
theorem C83_own {α : Type} (k : String) (l₁ l₂ : List (String → Option α)) (r : String → Option α) (h1 : ∀ r ∈ l₁, r k = none)
    (h2 : ∀ r ∈ l₂, r k = none) : evaluateAll (l₁ ++ r :: l₂) k = r k ∧ evaluateAll (l₁ ++ l₂) k = none := by
  have h0 := evaluateAll_go k l₁ (fun _ => none) h1
  constructor
  · unfold evaluateAll
    rw [List.foldl_append, List.foldl_cons, evaluateAll_go k l₂ _ h2]
    unfold merge
    change (r k).or (l₁.foldl merge (fun _ => none) k) = r k
    rw [h0]
    simp
  · unfold evaluateAll
    rw [List.foldl_append, evaluateAll_go k l₂ _ h2, h0]

/-! ### Cross-validation -/

/-- **C83** The two parts without labels: every index is in exactly one. -/
theorem C83_folds (n : ℕ) (p : ℚ) (perm : List ℕ) (h : perm.Perm (List.range n)) : ((folds n p perm).1 ++ (folds n p perm).2).Perm (List.range n) := by
  unfold folds
  dsimp only
  rw [List.take_append_drop]
  exact h

theorem strat_mem (p : ℚ) (labels : List Cls) : ∀ us : List Cls, us.Nodup →
    ((strat p labels us).1 ++ (strat p labels us).2).Perm ((labels.zipIdx.filter fun q => q.1 ∈ us).map (·.2))
  | [], _ => by simp [strat]
  | u :: us, hn => by
    have ih := strat_mem p labels us (List.nodup_cons.1 hn).2
    unfold strat
    dsimp only
    obtain ⟨ind, hind⟩ : ∃ ind, ind = (labels.zipIdx.filter fun q => q.1 = u).map (·.2) := ⟨_, rfl⟩
    rw [← hind]
    obtain ⟨k, -⟩ : ∃ k, k = (round ((ind.length : ℚ) * (1 - p))).toNat := ⟨_, rfl⟩
    generalize (round ((ind.length : ℚ) * (1 - p))).toNat = k
    have h1 : (ind.take k ++ (strat p labels us).1 ++ (ind.drop k ++ (strat p labels us).2)).Perm
        (ind ++ ((strat p labels us).1 ++ (strat p labels us).2)) := by
      conv_rhs => rw [← List.take_append_drop k ind]
      simp only [List.append_assoc]
      apply List.Perm.append_left
      rw [← List.append_assoc, ← List.append_assoc]
      exact List.Perm.append_right _ List.perm_append_comm
    refine h1.trans ((List.Perm.append_left _ ih).trans ?_)
    rw [hind, ← List.map_append]
    apply List.Perm.map
    have hp : ∀ l : List (Cls × ℕ), (l.filter (fun q => q.1 = u) ++ l.filter fun q => q.1 ∈ us).Perm (l.filter fun q => q.1 ∈ u :: us) := by
      intro l
      induction l with
      | nil => simp
      | cons q l ihl =>
        by_cases hq : q.1 = u
        · have hq' : q.1 ∉ us := by rw [hq]; exact (List.nodup_cons.1 hn).1
          rw [List.filter_cons_of_pos (by simpa using hq), List.filter_cons_of_neg (by simpa using hq'),
            List.filter_cons_of_pos (by simp [hq])]
          exact ihl.cons q
        · by_cases hq' : q.1 ∈ us
          · rw [List.filter_cons_of_neg (by simpa using hq), List.filter_cons_of_pos (by simpa using hq'),
              List.filter_cons_of_pos (by simp [hq'])]
            exact List.perm_middle.trans (ihl.cons q)
          · rw [List.filter_cons_of_neg (by simpa using hq), List.filter_cons_of_neg (by simpa using hq'),
              List.filter_cons_of_neg (by simp [hq, hq'])]
            exact ihl
    exact hp _

/-- **C83** The two parts with labels: every index is in exactly one. -/
theorem C83_strata (p : ℚ) (labels : List Cls) {s t : List ℕ → List ℕ} (hs : ∀ l, (s l).Perm l) (ht : ∀ l, (t l).Perm l) :
    ((xval p labels labels.dedup s t).1 ++ (xval p labels labels.dedup s t).2).Perm (List.range labels.length) := by
  have h := strat_mem p labels labels.dedup (List.nodup_dedup _)
  have hall : (labels.zipIdx.filter fun q => q.1 ∈ labels.dedup) = labels.zipIdx := by
    rw [List.filter_eq_self]
    intro q hq
    simp only [decide_eq_true_eq, List.mem_dedup]
    have := List.mem_zipIdx hq
    rw [this.2.2]
    exact List.getElem_mem _
  rw [hall, List.zipIdx_map_snd, ← List.range_eq_range'] at h
  exact ((hs _).append (ht _)).trans h

/-- **C83** With labels the parts do not depend on chance: every repetition of the cross-validation tests the same tracks. -/
theorem C83_repetition_violated (p : ℚ) (labels us : List Cls) {s t s' t' : List ℕ → List ℕ} (hs : ∀ l, (s l).Perm l) (ht : ∀ l, (t l).Perm l)
    (hs' : ∀ l, (s' l).Perm l) (ht' : ∀ l, (t' l).Perm l) :
    (xval p labels us s t).1.Perm (xval p labels us s' t').1 ∧ (xval p labels us s t).2.Perm (xval p labels us s' t').2 :=
  ⟨(hs _).trans (hs' _).symm, (ht _).trans (ht' _).symm⟩

/-- **C83** The number of neighbours is from 2 to 20. -/
theorem C83_neighbours (nClasses best : ℕ) (h : best < 20) : 2 ≤ neighbours nClasses best ∧ neighbours nClasses best ≤ 20 ∧
    (nClasses ≤ 5 → 3 ≤ neighbours nClasses best) := by
  unfold neighbours
  split_ifs <;> omega

example : neighbours 4 0 = 3 ∧ neighbours 9 7 = 2 := by decide

end

end Verif.IFInterp
