import Verif.Sfh
import Mathlib.Tactic.NormNum
import Mathlib.Tactic.Positivity
/-!
Property theorems for C26 (star formation per metallicity bin) and C60 (formation times).
-/
namespace Verif.Sfh
open Classical
open Verif.Interp (Interp1d Node Incr)

/-- The edges after the upper limit is applied. -/
noncomputable def hiE (bins : List ℝ) (zmax : Option ℝ) (j : ℕ) : ℝ :=
  if j = bins.length - 1 then zmax.getD (edge bins j) else match zmax with | some b => min (edge bins j) b | none => edge bins j

theorem upper_spec (cdf : ℝ → ℝ) (bins : List ℝ) (zmax : Option ℝ) (hs : bins.Pairwise (· < ·)) (hn : 2 ≤ bins.length)
    (hz : ∀ z, zmax = some z → edge bins 0 < z) :
    ∃ (f : ℕ → ℝ) (last : ℕ), upper cdf bins zmax (fun i => cdf (edge bins (i + 1)) - cdf (edge bins i)) = .ok (f, (last : ℤ)) ∧ last + 1 ≤ bins.length - 1 ∧
      (∀ i < bins.length - 1, f i = cdf (hiE bins zmax (i + 1)) - cdf (hiE bins zmax i)) ∧
      (∀ z, zmax = some z → edge bins last < z ∧ (last + 1 < bins.length - 1 → z ≤ edge bins (last + 1))) := by
  obtain ⟨n, hlen⟩ : ∃ n, bins.length = n + 2 := ⟨bins.length - 2, by omega⟩
  have en : bins.length - 1 = n + 1 := by omega
  rw [en]
  cases zmax with
  | none =>
    refine ⟨fun i => cdf (edge bins (i + 1)) - cdf (edge bins i), n, ?_, le_rfl, fun i hi => ?_, by simp⟩
    · unfold upper
      simp only [en]
      refine congrArg Except.ok (Prod.ext rfl ?_)
      push_cast; simp
    · have h1 : hiE bins none (i + 1) = edge bins (i + 1) := by unfold hiE; split_ifs <;> rfl
      have h2 : hiE bins none i = edge bins i := by unfold hiE; split_ifs <;> rfl
      rw [h1, h2]
  | some z =>
    have hz0 := hz z rfl
    have hlow : ∀ j, j < n + 1 → edge bins j ≤ z → hiE bins (some z) j = edge bins j := by
      intro j hj hle
      unfold hiE
      rw [en, if_neg (by omega)]
      exact min_eq_left hle
    have hhigh : ∀ j, j ≤ n + 1 → z ≤ edge bins j → hiE bins (some z) j = z := by
      intro j hj hle
      unfold hiE
      rw [en]
      split_ifs
      · rfl
      · exact min_eq_right hle
    have hlast : hiE bins (some z) (n + 1) = z := by unfold hiE; rw [en, if_pos rfl]; rfl
    by_cases hge : z ≥ edge bins (n + 1)
    · refine ⟨fun i => if i = n then cdf z - cdf (edge bins n) else cdf (edge bins (i + 1)) - cdf (edge bins i), n, ?_, le_rfl, fun i hi => ?_, ?_⟩
      · unfold upper
        simp only [en]
        rw [if_neg (by omega), if_pos hge]
        simp
      · simp only
        by_cases hin : i = n
        · subst hin
          rw [if_pos rfl, hlast, hlow i (by omega) ((edge_le hs (by omega) (by omega)).trans hge)]
        · rw [if_neg hin, hlow (i + 1) (by omega) ((edge_le hs (by omega) (by omega)).trans hge),
            hlow i (by omega) ((edge_le hs (by omega) (by omega)).trans hge)]
      · intro z' hz'
        injection hz' with hz'
        subst hz'
        exact ⟨(edge_lt hs (by omega) (by omega)).trans_le hge, fun h => by omega⟩
    · have hc0 : 0 < cnt bins z := (cnt_spec hs z (by omega)).1 hz0
      have hcn : cnt bins z ≤ n + 1 := by
        by_contra hh
        exact hge ((cnt_spec hs z (by omega)).2 (by omega : n + 1 < cnt bins z)).le
      obtain ⟨k, hk⟩ : ∃ k, cnt bins z = k + 1 := ⟨cnt bins z - 1, by omega⟩
      have hbk : ∀ j ≤ k, edge bins j < z := fun j hj => (cnt_spec hs z (by omega)).2 (by omega)
      have hak : ∀ j, k < j → j ≤ n + 1 → z ≤ edge bins j := fun j hj hj' => by
        by_contra hh
        have := (cnt_spec hs z (by omega : j < bins.length)).1 (not_le.1 hh)
        omega
      refine ⟨fun i => if (i : ℤ) = k then cdf z - cdf (edge bins k) else if (i : ℤ) > k then 0 else cdf (edge bins (i + 1)) - cdf (edge bins i), k, ?_, by omega, fun i hi => ?_, ?_⟩
      · unfold upper
        simp only [en, hk]
        rw [if_neg (by omega), if_neg hge, if_neg (by push_cast; omega)]
        simp
      · simp only
        by_cases h1 : (i : ℤ) = k
        · have : i = k := by omega
          subst this
          rw [if_pos rfl, hlow i (by omega) (hbk i le_rfl).le]
          by_cases h2 : i + 1 = n + 1
          · rw [h2, hlast]
          · rw [hhigh (i + 1) (by omega) (hak (i + 1) (by omega) (by omega))]
        · rw [if_neg h1]
          by_cases h2 : (i : ℤ) > k
          · rw [if_pos h2, hhigh i (by omega) (hak i (by omega) (by omega))]
            rw [hhigh (i + 1) (by omega) (hak (i + 1) (by omega) (by omega))]; ring
          · rw [if_neg h2, hlow (i + 1) (by omega) (hbk (i + 1) (by omega)).le, hlow i (by omega) (hbk i (by omega)).le]
      · intro z' hz'
        injection hz' with hz'
        subst hz'
        exact ⟨hbk k le_rfl, fun h => hak (k + 1) (by omega) (by omega)⟩

/-- The two limits together with the bins are usable: the upper limit is above the lowest edge, the lower one not above the highest, and in order. -/
structure Usable (bins : List ℝ) (zmin zmax : Option ℝ) : Prop where
  sorted : bins.Pairwise (· < ·)
  two : 2 ≤ bins.length
  hi : ∀ z, zmax = some z → edge bins 0 < z
  lo : ∀ z, zmin = some z → z ≤ edge bins (bins.length - 1)
  order : ∀ a b, zmin = some a → zmax = some b → a < b

/-- C26: for usable limits, each fraction is the difference of the cumulative distribution over the bin, with the outermost edges moved to the limits and
inner edges clipped to them. -/
theorem C26_exact (cdf : ℝ → ℝ) (bins : List ℝ) (zmin zmax : Option ℝ) (h : Usable bins zmin zmax) :
    distribute cdf zmin zmax false bins =
      .ok (some ((List.range (bins.length - 1)).map fun i => cdf (clipped bins zmin zmax (i + 1)) - cdf (clipped bins zmin zmax i))) := by
  obtain ⟨hs, hn2, hzx, hzn, hord⟩ := h
  obtain ⟨f1, last, hu, hlast, hf1, hlz⟩ := upper_spec cdf bins zmax hs hn2 hzx
  obtain ⟨n, hlen⟩ : ∃ n, bins.length = n + 2 := ⟨bins.length - 2, by omega⟩
  have en : bins.length - 1 = n + 1 := by omega
  suffices hfr : ∃ f, fractions cdf zmin zmax bins = .ok f ∧
      ∀ i < bins.length - 1, f i = cdf (clipped bins zmin zmax (i + 1)) - cdf (clipped bins zmin zmax i) by
    obtain ⟨f, h1, h2⟩ := hfr
    unfold distribute
    simp only [h1]
    refine congrArg (fun l => Except.ok (some l)) ?_
    apply List.map_congr_left
    intro i hi
    exact h2 i (List.mem_range.1 hi)
  unfold fractions
  rw [if_neg (not_not.2 hs), hu]
  simp only
  cases zmin with
  | none =>
    refine ⟨f1, ?_, fun i hi => ?_⟩
    · rfl
    · have hcl : ∀ j, clipped bins none zmax j = hiE bins zmax j := by
        intro j
        unfold clipped hiE
        by_cases hj : j = 0
        · subst hj
          rw [if_pos rfl, if_neg (by omega)]
          cases zmax with
          | none => rfl
          | some z => exact (min_eq_left (hzx z rfl).le).symm
        · rw [if_neg hj]; rfl
      rw [hf1 i hi, hcl, hcl]
  | some a =>
    have hza := hzn a rfl
    rw [en] at hza hf1 hlast
    -- the clipped edges in terms of the upper ones
    have hcl0 : clipped bins (some a) zmax 0 = a := by unfold clipped; rw [if_pos rfl]; rfl
    have hcl : ∀ j, 0 < j → clipped bins (some a) zmax j = max (hiE bins zmax j) a := by
      intro j hj
      unfold clipped hiE
      rw [if_neg (by omega), en]
      split_ifs with hjn
      · cases zmax with
        | none => subst hjn; exact (max_eq_left hza).symm
        | some z => exact (max_eq_left (hord a z rfl rfl).le).symm
      · rfl
    have hiE_ge : ∀ j, a ≤ edge bins j → a ≤ hiE bins zmax j := by
      intro j hj
      unfold hiE
      split_ifs
      · cases zmax with
        | none => exact hj
        | some z => exact (hord a z rfl rfl).le
      · cases zmax with
        | none => exact hj
        | some z => exact le_min hj (hord a z rfl rfl).le
    have hiE_le : ∀ j, j < n + 1 → edge bins j ≤ a → hiE bins zmax j ≤ a := by
      intro j hj hle
      unfold hiE
      rw [en, if_neg (by omega)]
      cases zmax with
      | none => exact hle
      | some z => exact (min_le_left _ _).trans hle
    -- if the bin above `j` is not touched by the upper limit its edge is the given one
    have hiE_free : ∀ j, j < last + 1 → hiE bins zmax j = edge bins j := by
      intro j hj
      unfold hiE
      rw [en, if_neg (by omega)]
      cases zmax with
      | none => rfl
      | some z => exact min_eq_left ((edge_le hs (by omega) (by omega)).trans (hlz z rfl).1.le)
    have hiE_none : zmax = none → ∀ j, hiE bins zmax j = edge bins j := by
      rintro rfl j; unfold hiE; split_ifs <;> rfl
    -- the edges above the bin of the upper limit
    have hiE_above : ∀ z, zmax = some z → ∀ j, last < j → j ≤ n + 1 → hiE bins zmax j = z := by
      intro z hz j hj hj'
      unfold hiE
      rw [en]
      split_ifs with h1
      · rw [hz]; rfl
      · rw [hz]
        exact min_eq_right (((hlz z hz).2 (by omega)).trans (edge_le hs (by omega) (by omega)))
    by_cases hlow : a ≤ edge bins 0
    · -- the lower limit extends the first bin
      have hlo : lower cdf bins (some a) f1 = .ok (fun i => if i = 0 then cdf (edge bins 1) - cdf a else f1 i, 0) := by
        unfold lower; simp only [en]; rw [if_neg (by omega), if_pos hlow]
      rw [hlo]
      simp only
      refine ⟨_, rfl, fun i hi => ?_⟩
      rw [en] at hi
      have hclj : ∀ j, 0 < j → j ≤ n + 1 → clipped bins (some a) zmax j = hiE bins zmax j := fun j hj hj' => by
        rw [hcl j hj, max_eq_left (hiE_ge j (hlow.trans (edge_le hs (by omega) (by omega))))]
      have hgen : zmax = none ∨ last ≠ 0 → (if i = 0 then cdf (edge bins 1) - cdf a else f1 i) =
          cdf (clipped bins (some a) zmax (i + 1)) - cdf (clipped bins (some a) zmax i) := by
        intro hcase
        rw [hclj (i + 1) (by omega) (by omega)]
        by_cases hi0 : i = 0
        · subst hi0
          rw [if_pos rfl, hcl0]
          rcases hcase with h | h
          · rw [hiE_none h]
          · rw [hiE_free (0 + 1) (by omega)]
        · rw [if_neg hi0, hf1 i (by omega), hclj i (by omega) (by omega)]
      cases hzm : zmax with
      | none => rw [← hzm]; simp only [same]; rw [hzm] at hgen ⊢; exact hgen (.inl rfl)
      | some z =>
        rw [hzm] at hgen hcl hclj hcl0
        simp only [same]
        by_cases hl0 : (0 : ℤ) = (last : ℤ)
        · rw [if_pos hl0]
          have hl0' : last = 0 := by omega
          rw [hclj (i + 1) (by omega) (by omega), ← hzm, hiE_above z hzm (i + 1) (by omega) (by omega)]
          by_cases hi0 : (i : ℤ) = 0
          · have : i = 0 := by omega
            subst this
            rw [if_pos hi0, hzm, hcl0]
          · rw [if_neg hi0, hzm, hclj i (by omega) (by omega), ← hzm, hiE_above z hzm i (by omega) (by omega)]; ring
        · rw [if_neg hl0]
          exact hgen (.inr (by omega))
    · -- the lower limit cuts a bin
      push Not at hlow
      have hc0 : 0 < cnt bins a := (cnt_spec hs a (by omega)).1 hlow
      have hcn : cnt bins a ≤ n + 1 := by
        by_contra hh
        exact absurd ((cnt_spec hs a (by omega)).2 (by omega : n + 1 < cnt bins a)) (not_lt.2 hza)
      obtain ⟨k, hk⟩ : ∃ k, cnt bins a = k + 1 := ⟨cnt bins a - 1, by omega⟩
      have hbk : ∀ j ≤ k, edge bins j < a := fun j hj => (cnt_spec hs a (by omega)).2 (by omega)
      have hak : ∀ j, k < j → j ≤ n + 1 → a ≤ edge bins j := fun j hj hj' => by
        by_contra hh
        have := (cnt_spec hs a (by omega : j < bins.length)).1 (not_le.1 hh)
        omega
      have hlo : lower cdf bins (some a) f1 =
          .ok (fun i => if i < k then 0 else if i = k then cdf (edge bins (k + 1)) - cdf a else f1 i, (k : ℤ)) := by
        unfold lower
        simp only [en, hk, Nat.add_sub_cancel]
        rw [if_neg (by omega), if_neg (not_le.2 hlow), if_neg (by omega)]
      rw [hlo]
      simp only
      refine ⟨_, rfl, fun i hi => ?_⟩
      rw [en] at hi
      have hclb : ∀ j ≤ k, clipped bins (some a) zmax j = a := by
        intro j hj
        rcases Nat.eq_zero_or_pos j with rfl | hj0
        · exact hcl0
        · rw [hcl j hj0, max_eq_right (hiE_le j (by omega) (hbk j hj).le)]
      have hcla : ∀ j, k < j → j ≤ n + 1 → clipped bins (some a) zmax j = hiE bins zmax j := fun j hj hj' => by
        rw [hcl j (by omega), max_eq_left (hiE_ge j (hak j hj hj'))]
      -- the lower limit is not above the bin of the upper one
      have hkl : ∀ z, zmax = some z → k ≤ last := by
        intro z hz
        by_contra hh
        have h1 := (hlz z hz).2 (by omega)
        have h2 := edge_le hs (by omega : last + 1 ≤ k) (by omega)
        have h3 := hbk k le_rfl
        have h4 := hord a z rfl hz
        linarith
      have hgen : zmax = none ∨ last ≠ k → (if i < k then 0 else if i = k then cdf (edge bins (k + 1)) - cdf a else f1 i) =
          cdf (clipped bins (some a) zmax (i + 1)) - cdf (clipped bins (some a) zmax i) := by
        intro hcase
        by_cases h1 : i < k
        · rw [if_pos h1, hclb (i + 1) (by omega), hclb i (by omega)]; ring
        · rw [if_neg h1]
          by_cases h2 : i = k
          · subst h2
            rw [if_pos rfl, hclb i le_rfl, hcla (i + 1) (by omega) (by omega)]
            rcases hcase with h | h
            · rw [hiE_none h]
            · cases hzm : zmax with
              | none => rw [← hzm, hiE_none hzm]
              | some z =>
                have := hkl z hzm
                rw [← hzm, hiE_free (i + 1) (by omega)]
          · rw [if_neg h2, hf1 i (by omega), hcla (i + 1) (by omega) (by omega), hcla i (by omega) (by omega)]
      cases hzm : zmax with
      | none => rw [← hzm]; simp only [same]; rw [hzm] at hgen ⊢; exact hgen (.inl rfl)
      | some z =>
        rw [hzm] at hgen hclb hcla
        simp only [same]
        by_cases hl0 : (k : ℤ) = (last : ℤ)
        · rw [if_pos hl0]
          have hl0' : last = k := by omega
          by_cases h1 : (i : ℤ) = k
          · have : i = k := by omega
            subst this
            rw [if_pos rfl, hclb i le_rfl, hcla (i + 1) (by omega) (by omega), ← hzm, hiE_above z hzm (i + 1) (by omega) (by omega)]
          · rw [if_neg h1]
            rcases lt_or_gt_of_ne (fun h => h1 (by omega) : i ≠ k) with h2 | h2
            · rw [hclb (i + 1) (by omega), hclb i (by omega)]; ring
            · rw [hcla (i + 1) (by omega) (by omega), hcla i (by omega) (by omega), ← hzm, hiE_above z hzm (i + 1) (by omega) (by omega),
                hiE_above z hzm i (by omega) (by omega)]; ring
        · rw [if_neg hl0]
          exact hgen (.inr (by omega))

theorem tele (g : ℕ → ℝ) (n : ℕ) : ((List.range n).map fun i => g (i + 1) - g i).sum = g n - g 0 := by
  induction n with
  | zero => simp
  | succ n ih => rw [List.range_succ, List.map_append, List.sum_append, ih]; simp

theorem clipped_zero (bins : List ℝ) (zmin zmax : Option ℝ) : clipped bins zmin zmax 0 = zmin.getD (edge bins 0) := by
  unfold clipped; rw [if_pos rfl]

theorem clipped_last (bins : List ℝ) (zmin zmax : Option ℝ) (h : 2 ≤ bins.length) :
    clipped bins zmin zmax (bins.length - 1) = zmax.getD (edge bins (bins.length - 1)) := by
  unfold clipped; rw [if_neg (by omega), if_pos rfl]

/-- C26: the fractions add up to the part of the distribution between the limits; a missing limit is the outermost edge of the bins. -/
theorem C26_total (cdf : ℝ → ℝ) (bins : List ℝ) (zmin zmax : Option ℝ) (h : Usable bins zmin zmax) :
    ∃ fr, distribute cdf zmin zmax false bins = .ok (some fr) ∧ fr.length = bins.length - 1 ∧
      fr.sum = cdf (zmax.getD (edge bins (bins.length - 1))) - cdf (zmin.getD (edge bins 0)) := by
  refine ⟨_, C26_exact cdf bins zmin zmax h, by simp, ?_⟩
  rw [tele (fun i => cdf (clipped bins zmin zmax i)), clipped_zero, clipped_last _ _ _ h.two]

theorem clipped_mono (bins : List ℝ) (zmin zmax : Option ℝ) (h : Usable bins zmin zmax) (i : ℕ) (hi : i + 1 < bins.length) :
    clipped bins zmin zmax i ≤ clipped bins zmin zmax (i + 1) := by
  obtain ⟨hs, hn2, hzx, hzn, hord⟩ := h
  have hle : edge bins i ≤ edge bins (i + 1) := edge_le hs (by omega) hi
  have h0 : edge bins 0 < edge bins (i + 1) := edge_lt hs (by omega) hi
  have hn : edge bins i < edge bins (bins.length - 1) := edge_lt hs (by omega) (by omega)
  unfold clipped
  rw [if_neg (by omega : ¬ i + 1 = 0)]
  by_cases hi0 : i = 0
  · subst hi0
    rw [if_pos rfl]
    by_cases hl : 0 + 1 = bins.length - 1
    · rw [if_pos hl]
      cases zmin with
      | none =>
        cases zmax with
        | none => exact hle
        | some z => exact (hzx z rfl).le
      | some a =>
        cases zmax with
        | none => rw [hl]; exact hzn a rfl
        | some z => exact (hord a z rfl rfl).le
    · rw [if_neg hl]
      cases zmin with
      | none =>
        cases zmax with
        | none => exact hle
        | some z => exact le_min hle (hzx z rfl).le
      | some a => exact le_max_right _ _
  · rw [if_neg hi0, if_neg (by omega : ¬ i = bins.length - 1)]
    by_cases hl : i + 1 = bins.length - 1
    · rw [if_pos hl]
      cases zmin with
      | none =>
        cases zmax with
        | none => exact hle
        | some z => exact min_le_right _ _
      | some a =>
        cases zmax with
        | none => exact max_le hle (by rw [hl]; exact hzn a rfl)
        | some z => exact max_le (min_le_right _ _) (hord a z rfl rfl).le
    · rw [if_neg hl]
      cases zmin with
      | none =>
        cases zmax with
        | none => exact hle
        | some z => exact min_le_min_right _ hle
      | some a =>
        cases zmax with
        | none => exact max_le_max_right _ hle
        | some z => exact max_le_max_right _ (min_le_min_right _ hle)

/-- C26: no fraction is negative when the cumulative distribution never decreases. -/
theorem C26_nonneg (cdf : ℝ → ℝ) (hc : Monotone cdf) (bins : List ℝ) (zmin zmax : Option ℝ) (h : Usable bins zmin zmax) (fr : List ℝ)
    (hfr : distribute cdf zmin zmax false bins = .ok (some fr)) : ∀ x ∈ fr, 0 ≤ x := by
  rw [C26_exact cdf bins zmin zmax h] at hfr
  injection hfr with hfr
  injection hfr with hfr
  subst hfr
  intro x hx
  obtain ⟨i, hi, rfl⟩ := List.mem_map.1 hx
  have := hc (clipped_mono bins zmin zmax h i (by have := List.mem_range.1 hi; omega))
  linarith

/-- C26: a bin outside the limits gets nothing. -/
theorem C26_outside (cdf : ℝ → ℝ) (bins : List ℝ) (zmin zmax : Option ℝ) (h : Usable bins zmin zmax) (fr : List ℝ)
    (hfr : distribute cdf zmin zmax false bins = .ok (some fr)) (i : ℕ) (x : ℝ) (hx : fr[i]? = some x) :
    (∀ z, zmax = some z → z ≤ edge bins i → x = 0) ∧ (∀ z, zmin = some z → edge bins (i + 1) ≤ z → i + 1 < bins.length - 1 → x = 0) := by
  have h' := h
  obtain ⟨hs, hn2, hzx, hzn, hord⟩ := h'
  rw [C26_exact cdf bins zmin zmax h] at hfr
  injection hfr with hfr
  injection hfr with hfr
  subst hfr
  rw [List.getElem?_map, Option.map_eq_some_iff] at hx
  obtain ⟨j, hj, rfl⟩ := hx
  obtain ⟨hj1, hj2⟩ := List.getElem?_eq_some_iff.1 hj
  rw [List.getElem_range] at hj2
  subst hj2
  rw [List.length_range] at hj1
  refine ⟨fun z hz hzi => ?_, fun z hz hzi hi' => ?_⟩
  · have hi0 : i ≠ 0 := by rintro rfl; exact absurd (hzx z hz) (not_lt.2 hzi)
    have hmax : ∀ j, 0 < j → j < bins.length → z ≤ edge bins j → clipped bins zmin zmax j = z := by
      intro j hj hj' hzj
      unfold clipped
      rw [if_neg (by omega), hz]
      split_ifs
      · rfl
      · simp only [min_eq_right hzj]
        cases zmin with
        | none => rfl
        | some a => exact max_eq_left (hord a z rfl hz).le
    rw [hmax i (by omega) (by omega) hzi, hmax (i + 1) (by omega) (by omega) (hzi.trans (edge_le hs (by omega) (by omega)))]; ring
  · have hmin : ∀ j, j < bins.length - 1 → edge bins j ≤ z → clipped bins zmin zmax j = z := by
      intro j hj hzj
      unfold clipped
      by_cases hj0 : j = 0
      · rw [if_pos hj0, hz]; rfl
      · rw [if_neg hj0, if_neg (by omega), hz]
        simp only
        cases zmax with
        | none => exact max_eq_right hzj
        | some b => exact max_eq_right ((min_le_left _ _).trans hzj)
    rw [hmin i (by omega) ((edge_le hs (by omega) (by omega)).trans hzi), hmin (i + 1) (by omega) hzi]; ring

/-- C26: with normalisation the fractions keep their ratios and add up to one, unless there is nothing between the limits. -/
theorem C26_normalised (cdf : ℝ → ℝ) (bins : List ℝ) (zmin zmax : Option ℝ) (fr : List ℝ)
    (hfr : distribute cdf zmin zmax false bins = .ok (some fr)) :
    (fr.sum ≠ 0 → ∃ fn, distribute cdf zmin zmax true bins = .ok (some fn) ∧ fn = fr.map (· / fr.sum) ∧ fn.sum = 1) ∧
    (fr.sum = 0 → distribute cdf zmin zmax true bins = .ok none) := by
  unfold distribute at hfr ⊢
  split at hfr
  · exact absurd hfr (by simp)
  · rename_i f hf
    simp only [hf] at hfr ⊢
    simp only [Bool.false_eq_true, if_false, Except.ok.injEq, Option.some.injEq] at hfr
    simp only [if_true]
    rw [hfr]
    refine ⟨fun h0 => ?_, fun h0 => by rw [if_pos h0]⟩
    rw [if_neg h0]
    refine ⟨_, rfl, rfl, ?_⟩
    have : ∀ (l : List ℝ) (s : ℝ), (l.map (· / s)).sum = l.sum / s := by
      intro l s
      induction l with
      | nil => simp
      | cons a l ih => simp only [List.map_cons, List.sum_cons, ih]; ring
    rw [this, div_self h0]

/-- C26: the star formation rate summed over the bins is the total rate times the total fraction; with normalisation, the total rate. -/
theorem C26_rate (c : ℝ) (fr : List ℝ) : (sfrPerBin c fr).sum = c * fr.sum ∧ (fr.sum = 1 → (sfrPerBin c fr).sum = c) := by
  have : (sfrPerBin c fr).sum = c * fr.sum := by
    unfold sfrPerBin
    induction fr with
    | nil => simp
    | cons a l ih => simp only [List.map_cons, List.sum_cons, ih]; ring
  exact ⟨this, fun h => by rw [this, h, mul_one]⟩

/-- C26: unsorted bins are refused; accepted limits lie in [0, 1] and in order, whatever the bins. -/
theorem C26_refused (cdf : ℝ → ℝ) (zmin zmax : Option ℝ) (nrm : Bool) (bins : List ℝ) :
    (¬ bins.Pairwise (· < ·) → distribute cdf zmin zmax nrm bins = .error .value) ∧
    (checkLimits zmin zmax = .ok () ↔ (∀ z, zmin = some z → 0 ≤ z ∧ z ≤ 1) ∧ (∀ z, zmax = some z → 0 ≤ z ∧ z ≤ 1) ∧
      ∀ a b, zmin = some a → zmax = some b → a < b) := by
  constructor
  · intro h
    unfold distribute fractions
    rw [if_pos h]
  · unfold checkLimits
    cases zmin with
    | none =>
      cases zmax with
      | none => simp
      | some b =>
        simp only [if_false]
        by_cases h : b > 1 ∨ b < 0
        · rw [if_pos h]
          simp only [reduceCtorEq, false_iff]
          intro hh
          have := hh.2.1 b rfl
          rcases h with h | h <;> linarith
        · rw [if_neg h]
          push Not at h
          simp [h.1, h.2]
    | some a =>
      cases zmax with
      | none =>
        simp only [if_false]
        by_cases h : a > 1 ∨ a < 0
        · rw [if_pos h]
          simp only [reduceCtorEq, false_iff]
          intro hh
          have := hh.1 a rfl
          rcases h with h | h <;> linarith
        · rw [if_neg h]
          push Not at h
          simp [h.1, h.2]
      | some b =>
        simp only
        by_cases h : b > 1 ∨ b < 0
        · rw [if_pos h]
          simp only [reduceCtorEq, false_iff]
          intro hh
          have := hh.2.1 b rfl
          rcases h with h | h <;> linarith
        · rw [if_neg h]
          by_cases h' : a > 1 ∨ a < 0
          · rw [if_pos h']
            simp only [reduceCtorEq, false_iff]
            intro hh
            have := hh.1 a rfl
            rcases h' with h' | h' <;> linarith
          · rw [if_neg h']
            push Not at h h'
            by_cases h2 : a ≥ b
            · rw [if_pos h2]
              simp only [reduceCtorEq, false_iff]
              intro hh
              exact absurd (hh.2.2 a b rfl rfl) (not_lt.2 h2)
            · rw [if_neg h2]
              push Not at h2
              simp [h.1, h.2, h'.1, h'.2, h2]

/-- C26 violated: limits below the lowest edge.  The first bin then gets its share up to its own upper edge, although the limit lies below. -/
theorem C26_limits_below_violated (cdf : ℝ → ℝ) (bins : List ℝ) (a b : ℝ) (hs : bins.Pairwise (· < ·)) (hn : 2 ≤ bins.length) (hab : a < b)
    (hb : b ≤ edge bins 0) :
    ∃ fr, distribute cdf (some a) (some b) false bins = .ok (some fr) ∧ fr.sum = cdf (edge bins 1) - cdf a := by
  obtain ⟨n, hlen⟩ : ∃ n, bins.length = n + 2 := ⟨bins.length - 2, by omega⟩
  have en : bins.length - 1 = n + 1 := by omega
  have hc : cnt bins b = 0 := by
    by_contra hh
    have := (cnt_spec hs b (by omega : 0 < bins.length)).2 (by omega)
    linarith
  have hlt : edge bins 0 < edge bins (n + 1) := edge_lt hs (by omega) (by omega)
  have hu : upper cdf bins (some b) (fun i => cdf (edge bins (i + 1)) - cdf (edge bins i)) = .ok (fun _ => 0, -1) := by
    unfold upper
    simp only [en, hc]
    rw [if_neg (by omega), if_neg (not_le.2 (by linarith)), if_pos (by decide)]
    rfl
  have hl : lower cdf bins (some a) (fun _ => 0) = .ok (fun i => if i = 0 then cdf (edge bins 1) - cdf a else 0, 0) := by
    unfold lower
    simp only [en]
    rw [if_neg (by omega), if_pos (by linarith)]
  refine ⟨(List.range (n + 1)).map fun i => if i = 0 then cdf (edge bins 1) - cdf a else 0, ?_, ?_⟩
  · unfold distribute fractions
    rw [if_neg (not_not.2 hs), hu]
    simp only [hl, same]
    rw [if_neg (by decide), en]
    rfl
  · rw [List.range_succ_eq_map, List.map_cons, List.sum_cons, List.map_map, if_pos rfl]
    have : ((fun i => if i = 0 then cdf (edge bins 1) - cdf a else 0) ∘ Nat.succ) = fun _ => 0 := by
      funext i; simp
    rw [this]; simp

/-- C26 violated: a lower limit above the highest edge is an IndexError. -/
theorem C26_limit_above_violated (cdf : ℝ → ℝ) (bins : List ℝ) (a : ℝ) (nrm : Bool) (hs : bins.Pairwise (· < ·)) (hn : 2 ≤ bins.length)
    (ha : edge bins (bins.length - 1) < a) : distribute cdf (some a) none nrm bins = .error .index := by
  obtain ⟨n, hlen⟩ : ∃ n, bins.length = n + 2 := ⟨bins.length - 2, by omega⟩
  have en : bins.length - 1 = n + 1 := by omega
  rw [en] at ha
  have hc : n + 1 < cnt bins a := (cnt_spec hs a (by omega)).1 ha
  have h0 : edge bins 0 < a := (edge_lt hs (by omega) (by omega)).trans ha
  unfold distribute fractions
  rw [if_neg (not_not.2 hs)]
  simp only [upper, lower, en]
  rw [if_neg (by omega), if_neg (not_le.2 h0), if_pos (by omega)]

/-! ### The analytic models -/

/-- C26: the rate is positive at every redshift, for each of the parameter sets. -/
theorem C26_rate_positive (z : ℝ) (hz : 0 ≤ z) : ∀ p ∈ [madauDickinson14, madauFragos17, neijssel19, fujimoto24], 0 < csfrd p z := by
  intro p hp
  have hpos : 0 < p.a ∧ 0 < p.c := by
    simp only [List.mem_cons, List.not_mem_nil, or_false] at hp
    rcases hp with rfl | rfl | rfl | rfl <;> constructor <;> norm_num [madauDickinson14, madauFragos17, neijssel19, fujimoto24]
  unfold csfrd
  have h1 : (0 : ℝ) < 1 + z := by linarith
  have h2 := Real.rpow_pos_of_pos h1 p.b
  have h3 : 0 ≤ ((1 + z) / p.c) ^ p.d := Real.rpow_nonneg (div_nonneg h1.le hpos.2.le) _
  exact div_pos (mul_pos hpos.1 h2) (by linarith)

/-- C26: the centre of the distribution is chosen such that its mean is the mean metallicity: for a normal variable with centre `mu` and width `sigma` in
the decimal (natural) logarithm, the mean is `10^mu exp((sigma log 10)^2/2)` (`exp(mu + sigma^2/2)`). -/
theorem C26_lognormal_mean (mean sigma : ℝ) (hm : 0 < mean) :
    (10 : ℝ) ^ muMadau mean sigma * Real.exp ((sigma * Real.log 10) ^ 2 / 2) = mean ∧
    Real.exp (muNeijssel mean sigma + sigma ^ 2 / 2) = mean := by
  constructor
  · unfold muMadau
    rw [Real.rpow_sub (by norm_num), Real.rpow_logb (by norm_num) (by norm_num) hm]
    rw [Real.rpow_def_of_pos (by norm_num : (0 : ℝ) < 10) (sigma ^ 2 * Real.log 10 / 2)]
    have : Real.log 10 * (sigma ^ 2 * Real.log 10 / 2) = (sigma * Real.log 10) ^ 2 / 2 := by ring
    rw [this, div_mul_cancel₀ _ (Real.exp_ne_zero _)]
  · unfold muNeijssel
    rw [sub_add_cancel, Real.exp_log hm]

/-- C26: the log-normal cumulative distribution never decreases, so the fractions are not negative. -/
theorem C26_lognormal_monotone (Φ : ℝ → ℝ) (hΦ : Monotone Φ) (h0 : ∀ x, 0 ≤ Φ x) (mu sigma : ℝ) (hs : 0 < sigma) :
    Monotone (lognormCdf Φ (Real.logb 10) mu sigma) ∧ Monotone (lognormCdf Φ Real.log mu sigma) := by
  have : ∀ lg : ℝ → ℝ, (∀ x y, 0 < x → x ≤ y → lg x ≤ lg y) → Monotone (lognormCdf Φ lg mu sigma) := by
    intro lg hlg x y hxy
    unfold lognormCdf
    by_cases hx : x ≤ 0
    · rw [if_pos hx]
      split_ifs
      · exact le_rfl
      · exact h0 _
    · rw [if_neg hx, if_neg (by push Not at hx ⊢; linarith)]
      apply hΦ
      have := hlg x y (not_le.1 hx) hxy
      exact div_le_div_of_nonneg_right (by linarith) hs.le
  refine ⟨this _ fun x y hx hxy => ?_, this _ fun x y hx hxy => Real.log_le_log hx hxy⟩
  exact Real.logb_le_logb_of_le (by norm_num) hx hxy

/-- C26: which widths are known. -/
theorem C26_sigma (s : Sigma) : (∃ x, sigmaOf s = .ok x) ↔ s ≠ .name ∧ s ≠ .other := by
  cases s <;> simp [sigmaOf]

/-! ### The tabulated models -/

theorem cumsum_length (s : ℝ) (ms : List ℝ) : (cumsum s ms).length = ms.length := by
  induction ms generalizing s with
  | nil => rfl
  | cons m ms ih => simp [cumsum, ih]

theorem cumsum_bounds (s : ℝ) (ms : List ℝ) (h : ∀ m ∈ ms, 0 ≤ m) : (∀ v ∈ cumsum s ms, s ≤ v ∧ v ≤ s + ms.sum) ∧ (cumsum s ms).Pairwise (· ≤ ·) := by
  induction ms generalizing s with
  | nil => exact ⟨by simp [cumsum], List.Pairwise.nil⟩
  | cons m ms ih =>
    have hm := h m (by simp)
    have hms : 0 ≤ ms.sum := List.sum_nonneg fun x hx => h x (by simp [hx])
    obtain ⟨i1, i2⟩ := ih (s + m) fun x hx => h x (by simp [hx])
    refine ⟨fun v hv => ?_, ?_⟩
    · simp only [cumsum, List.mem_cons] at hv
      rw [List.sum_cons]
      rcases hv with rfl | hv
      · exact ⟨by linarith, by linarith⟩
      · have := i1 v hv
        exact ⟨by linarith, by linarith⟩
    · simp only [cumsum]
      exact List.pairwise_cons.2 ⟨fun v hv => (i1 v hv).1, i2⟩

theorem zip_pairwise {xs : List ℝ} {ys : List ℝ} (hx : xs.Pairwise (· < ·)) (hy : ys.Pairwise (· ≤ ·)) :
    (xs.zip ys).Pairwise (fun a b => a.1 < b.1) ∧ (xs.zip ys).Pairwise (fun a b => a.2 ≤ b.2) := by
  induction xs generalizing ys with
  | nil => simp
  | cons x xs ih =>
    cases ys with
    | nil => simp
    | cons y ys =>
      obtain ⟨h1, h2⟩ := List.pairwise_cons.1 hx
      obtain ⟨h3, h4⟩ := List.pairwise_cons.1 hy
      obtain ⟨i1, i2⟩ := ih h2 h4
      rw [List.zip_cons_cons]
      exact ⟨List.pairwise_cons.2 ⟨fun p hp => h1 _ (List.of_mem_zip hp).1, i1⟩, List.pairwise_cons.2 ⟨fun p hp => h3 _ (List.of_mem_zip hp).2, i2⟩⟩

theorem table_nodes {x m : ℝ} {xs ms : List ℝ} (hx : (x :: xs).Pairwise (· < ·)) (hneg : ∀ v ∈ x :: xs, v < 0) (hm : ∀ v ∈ m :: ms, 0 ≤ v)
    (hpos : 0 < (m :: ms).sum) :
    (tableInterp x m xs ms).all = tableNodes (x :: xs) (m :: ms) ∧ Incr (tableInterp x m xs ms).all ∧
      (tableInterp x m xs ms).all.Pairwise (fun a b => a.2 ≤ b.2) := by
  have e : (tableInterp x m xs ms).all = tableNodes (x :: xs) (m :: ms) := by
    simp [Interp1d.all, tableInterp, tableNodes, cumsum]
  obtain ⟨c1, c2⟩ := cumsum_bounds 0 (m :: ms) hm
  have hy : ((cumsum 0 (m :: ms)).map (· / (m :: ms).sum)).Pairwise (· ≤ ·) := by
    rw [List.pairwise_map]
    exact c2.imp fun h => div_le_div_of_nonneg_right h hpos.le
  obtain ⟨z1, z2⟩ := zip_pairwise hx hy
  refine ⟨e, ?_, ?_⟩
  · rw [e]
    unfold tableNodes Incr
    rw [List.pairwise_append]
    refine ⟨z1, List.pairwise_singleton _ _, fun p hp q hq => ?_⟩
    rw [List.mem_singleton] at hq
    subst hq
    exact hneg _ (List.of_mem_zip hp).1
  · rw [e]
    unfold tableNodes
    rw [List.pairwise_append]
    refine ⟨z2, List.pairwise_singleton _ _, fun p hp q hq => ?_⟩
    rw [List.mem_singleton] at hq
    subst hq
    obtain ⟨v, hv, hv'⟩ := List.mem_map.1 (List.of_mem_zip hp).2
    rw [← hv']
    have := (c1 v hv).2
    rw [zero_add] at this
    rw [div_le_one hpos]
    exact this

/-- C26: the tabulated distributions never decrease either. -/
theorem C26_table_monotone (x m : ℝ) (xs ms : List ℝ) (hx : (x :: xs).Pairwise (· < ·)) (hneg : ∀ v ∈ x :: xs, v < 0)
    (hm : ∀ v ∈ m :: ms, 0 ≤ v) (hpos : 0 < (m :: ms).sum) : Monotone (tableInterp x m xs ms).call := by
  obtain ⟨-, h1, h2⟩ := table_nodes hx hneg hm hpos
  exact fun a b hab => Verif.Interp.C45_monotone _ h1 h2 rfl rfl rfl a b hab

/-- C26 violated: the tabulated distributions start at the first entry instead of zero; whatever the lower limit, the star formation of the
lowest tabulated metallicity is lost: over all metallicities up to one the fractions add up to `1 - m₀/Σm`. -/
theorem C26_table_violated (x m : ℝ) (xs ms : List ℝ) (hx : (x :: xs).Pairwise (· < ·)) (hneg : ∀ v ∈ x :: xs, v < 0) (hm : ∀ v ∈ m :: ms, 0 ≤ v)
    (hpos : 0 < (m :: ms).sum) (bins : List ℝ) (a : ℝ) (h : Usable bins (some a) (some 1)) (ha0 : 0 < a) (ha : Real.logb 10 a ≤ x) :
    ∃ fr, tableFractions (some a) (some 1) false x m xs ms bins = .ok (some fr) ∧ fr.sum = 1 - m / (m :: ms).sum := by
  obtain ⟨e, h1, h2⟩ := table_nodes hx hneg hm hpos
  obtain ⟨fr, hfr, -, hsum⟩ := C26_total (fun v => (tableInterp x m xs ms).call (Real.logb 10 v)) bins (some a) (some 1) h
  refine ⟨fr, ?_, ?_⟩
  · unfold tableFractions; rw [if_neg hpos.ne']; exact hfr
  · rw [hsum]
    simp only [Option.getD_some]
    have hone : (tableInterp x m xs ms).call (Real.logb 10 1) = 1 := by
      rw [Real.logb_one]
      exact Verif.Interp.C45_nodes _ h1 (0, 1) (by rw [e]; simp [tableNodes])
    have hlow : (tableInterp x m xs ms).call (Real.logb 10 a) = m / (m :: ms).sum := by
      have hn : (tableInterp x m xs ms).node = (x, m / (m :: ms).sum) := by simp [tableInterp]
      rcases ha.lt_or_eq with hlt | heq
      · rw [(Verif.Interp.C45_outside _ rfl h1 _).1 (by rw [hn]; exact hlt), hn]; rfl
      · rw [heq]
        have := Verif.Interp.C45_nodes _ h1 (tableInterp x m xs ms).node (by simp [Interp1d.all])
        rw [hn] at this
        exact this
    rw [hone, hlow]

/-- C26: the known models are exactly the seven names. -/
theorem C26_models (s : String) :
    (∃ m, getModel s = .ok m) ↔ s ∈ ["Madau+Fragos17", "Madau+Dickinson14", "Fujimoto+24", "Neijssel+19", "IllustrisTNG", "Chruslinska+21", "Zavala+21"] := by
  unfold getModel
  simp only [List.mem_cons, List.not_mem_nil, or_false]
  split_ifs <;> simp_all

/-! ### Formation times -/

/-- C60: every scenario but the histograms gives one time per binary, between the limits for constant star formation. -/
theorem C60_times_partial (n : ℕ) (s : Scenario) (burst lo hi : ℝ) (uniform sample : ℕ → List ℝ) (hu : ∀ k, (uniform k).length = k)
    (hu1 : ∀ k, ∀ u ∈ uniform k, 0 ≤ u ∧ u < 1) (hsm : ∀ k, (sample k).length = k) (hlh : lo < hi) (hs : s ≠ .histLinear ∧ s ≠ .histLog10 ∧ s ≠ .unknown) :
    ∃ ts, formationTimes n s burst lo hi uniform sample = .ok ts ∧ ts.length = n ∧ (s = .burst → ∀ t ∈ ts, t = burst) ∧
      (s = .constant → ∀ t ∈ ts, lo ≤ t ∧ t < hi) := by
  cases s with
  | burst => exact ⟨_, rfl, by simp, fun _ t ht => List.eq_of_mem_replicate ht, by simp⟩
  | constant =>
    refine ⟨_, rfl, by simp [hu], by simp, fun _ t ht => ?_⟩
    obtain ⟨u, hu', rfl⟩ := List.mem_map.1 ht
    obtain ⟨h0, h1⟩ := hu1 n u hu'
    constructor <;> nlinarith
  | customLinear => exact ⟨_, rfl, by simp [hsm], by simp, by simp⟩
  | customLog10 => exact ⟨_, rfl, by simp [hsm], by simp, by simp⟩
  | histLinear => exact absurd rfl hs.1
  | histLog10 => exact absurd rfl hs.2.1
  | unknown => exact absurd rfl hs.2.2

/-- C60 violated: with a histogram of ages there is one time, however many binaries there are. -/
theorem C60_histogram_violated (n : ℕ) (burst lo hi : ℝ) (uniform sample : ℕ → List ℝ) (hsm : ∀ k, (sample k).length = k) :
    (∃ ts, formationTimes n .histLinear burst lo hi uniform sample = .ok ts ∧ ts.length = 1) ∧
    ∃ ts, formationTimes n .histLog10 burst lo hi uniform sample = .ok ts ∧ ts.length = 1 :=
  ⟨⟨_, rfl, by simp [hsm]⟩, ⟨_, rfl, by simp [hsm]⟩⟩

/-- C60: unknown scenarios are refused. -/
theorem C60_refused (n : ℕ) (burst lo hi : ℝ) (uniform sample : ℕ → List ℝ) :
    formationTimes n .unknown burst lo hi uniform sample = .error .value := rfl

/-! ### Concrete cases -/

example : Usable [0.0001, 0.01, 0.03] (some 0.001) (some 0.5) := by
  refine ⟨by norm_num, by simp, ?_, ?_, ?_⟩
  · rintro z ⟨⟩; norm_num [edge]
  · rintro z ⟨⟩; norm_num [edge]
  · rintro a b ⟨⟩ ⟨⟩; norm_num
example : clipped [0.0001, 0.01, 0.03] (some 0.001) (some 0.5) 0 = 0.001 := clipped_zero _ _ _

end Verif.Sfh
