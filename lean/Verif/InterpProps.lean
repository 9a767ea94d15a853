import Verif.Interp
import Mathlib.Tactic.NormNum
/-!
Property theorems for C45 (one-dimensional interpolation and interpolation of tracks).
-/
namespace Verif.Interp
open Classical

/-- The nodes of an object. -/
def Interp1d.all (o : Interp1d) : List Node := o.node :: o.nodes

/-- What is assumed of `np.argsort`: it rearranges the nodes in the order of the abscissae. -/
def Sorts (argsort : List Node → List Node) : Prop := ∀ l, (argsort l).Perm l ∧ (argsort l).Pairwise (fun a b => a.1 ≤ b.1)

theorem zip_fst {xs ys : List ℝ} (h : xs.length = ys.length) : (xs.zip ys).map Prod.fst = xs := by
  rw [List.map_fst_zip]; omega

theorem arrange_perm {argsort : List Node → List Node} (hs : Sorts argsort) (l : List Node) : (arrange argsort l).Perm l := by
  unfold arrange
  split_ifs
  · exact .refl _
  · exact List.reverse_perm _
  · exact (hs l).1

theorem arrange_incr {argsort : List Node → List Node} (hs : Sorts argsort) (l : List Node) (hn : (l.map Prod.fst).Nodup) : Incr (arrange argsort l) := by
  unfold arrange
  split_ifs with h1 h2
  · exact h1
  · exact List.pairwise_reverse.2 h2
  · obtain ⟨hp, hsr⟩ := hs l
    have hnd : ((argsort l).map Prod.fst).Nodup := (hp.map Prod.fst).nodup_iff.2 hn
    rw [List.Nodup, List.pairwise_map] at hnd
    exact (hsr.and hnd).imp fun h => lt_of_le_of_ne h.1 h.2

theorem last_mem (o : Interp1d) : (o.all).getLast (by simp [Interp1d.all]) ∈ o.all := List.getLast_mem _

theorem incr_first_le {p : Node} {ps : List Node} (h : Incr (p :: ps)) {n : Node} (hn : n ∈ p :: ps) : p.1 ≤ n.1 := by
  rcases List.mem_cons.1 hn with rfl | hm
  · exact le_rfl
  · exact ((List.pairwise_cons.1 h).1 n hm).le

theorem incr_le_last {l : List Node} (h : Incr l) (hne : l ≠ []) {n : Node} (hn : n ∈ l) : n.1 ≤ (l.getLast hne).1 := by
  induction l with
  | nil => exact absurd rfl hne
  | cons p r ih =>
    cases r with
    | nil => simp at hn; subst hn; exact le_rfl
    | cons q r =>
      rw [List.getLast_cons (by simp)]
      have hh := List.pairwise_cons.1 h
      rcases List.mem_cons.1 hn with rfl | hm
      · exact (hh.1 _ (List.getLast_mem _)).le
      · exact ih hh.2 (by simp) hm

/-- Inside the range no fill value matters. -/
theorem call_inside (o : Interp1d) (x : ℝ) (h1 : o.node.1 ≤ x) (h2 : x ≤ (o.all.getLast (by simp [Interp1d.all])).1) : o.call x = seg o.all x := by
  have hy : npInterp o.node o.nodes o.below o.above x = seg o.all x := by
    unfold npInterp
    rw [if_neg (not_lt.2 h1), if_neg]
    · rfl
    · exact not_lt.2 h2
  obtain ⟨p, ps, b, a, e⟩ := o
  unfold Interp1d.call
  simp only [Interp1d.all] at h1 h2 hy ⊢
  rw [hy]
  cases e with
  | false => rfl
  | true =>
    cases ps with
    | nil => rfl
    | cons q r =>
      simp only
      rw [if_neg (not_lt.2 h1), if_neg]
      rw [List.getLast_cons (by simp)] at h2
      exact not_lt.2 h2

/-- C45: at every node the interpolation returns the ordinate of the node, whatever the fill values. -/
theorem C45_nodes (o : Interp1d) (h : Incr o.all) (n : Node) (hn : n ∈ o.all) : o.call n.1 = n.2 := by
  rw [call_inside o n.1 (incr_first_le h hn) (incr_le_last h _ hn)]
  exact seg_mem h hn

/-- C45: nodes with different abscissae, in any order, make an interpolator that knows exactly these nodes in increasing order. -/
theorem C45_built (argsort : List Node → List Node) (hs : Sorts argsort) (xs ys : List ℝ) (f : Fill) (left right : Option ℝ) (hl : xs.length = ys.length)
    (hne : xs ≠ []) (hn : xs.Nodup) (hf : f ≠ .other) :
    ∃ o, init argsort true xs ys f left right = .ok o ∧ Incr o.all ∧ o.all.Perm (xs.zip ys) := by
  obtain ⟨x, xs, rfl⟩ := List.exists_cons_of_ne_nil hne
  cases ys with
  | nil => simp at hl
  | cons y ys =>
    have hz : (((x :: xs).zip (y :: ys)).map Prod.fst).Nodup := by rw [zip_fst hl]; exact hn
    have hi := arrange_incr hs _ hz
    have hp := arrange_perm hs ((x :: xs).zip (y :: ys))
    have hff : ∃ r, fills f left right = some r := by
      cases f
      · exact ⟨_, rfl⟩
      · exact ⟨_, rfl⟩
      · exact ⟨_, rfl⟩
      · exact ⟨_, rfl⟩
      · exact (hf rfl).elim
    obtain ⟨⟨b, a, e⟩, hr⟩ := hff
    cases hA : arrange argsort ((x :: xs).zip (y :: ys)) with
    | nil => rw [hA] at hp; simpa using hp.length_eq
    | cons p ps =>
      rw [hA] at hi hp
      refine ⟨⟨p, ps, b, a, e⟩, ?_, hi, hp⟩
      unfold init
      simp only [Bool.not_true, Bool.false_eq_true, if_false]
      rw [if_neg (not_not.2 hl), hr]
      simp only [hA]
      rw [if_pos]
      exact C45_nodes ⟨p, ps, b, a, e⟩ hi (x, y) (hp.mem_iff.2 (by simp))

/-- C45: the order in which the nodes are given does not matter. -/
theorem C45_order_free (argsort : List Node → List Node) (hs : Sorts argsort) (xs ys xs' ys' : List ℝ) (f : Fill) (left right : Option ℝ)
    (hl : xs.length = ys.length) (hl' : xs'.length = ys'.length) (hn : xs.Nodup) (hp : (xs.zip ys).Perm (xs'.zip ys')) (hne : xs ≠ []) :
    init argsort true xs ys f left right = init argsort true xs' ys' f left right := by
  by_cases hf : ∃ _h : f = .other, True
  · obtain ⟨rfl, -⟩ := hf
    unfold init
    simp only [Bool.not_true, Bool.false_eq_true, if_false, fills, Option.map_none]
    rw [if_neg (not_not.2 hl), if_neg (not_not.2 hl')]
  · have hf' : f ≠ .other := fun h => hf ⟨h, trivial⟩
    have hxp : xs.Perm xs' := by have := hp.map Prod.fst; rwa [zip_fst hl, zip_fst hl'] at this
    have hne' : xs' ≠ [] := by rintro rfl; exact hne (List.perm_nil.1 hxp)
    obtain ⟨o, h1, h2, h3⟩ := C45_built argsort hs xs ys f left right hl hne hn hf'
    obtain ⟨o', h1', h2', h3'⟩ := C45_built argsort hs xs' ys' f left right hl' hne' (hxp.nodup_iff.1 hn) hf'
    rw [h1, h1']
    have hall : o.all = o'.all := incr_unique h2 h2' (h3.trans (hp.trans h3'.symm))
    have hfil : ∀ {xs ys : List ℝ} {o : Interp1d}, init argsort true xs ys f left right = .ok o → fills f left right = some (o.below, o.above, o.extrapolate) := by
      intro xs ys o h
      unfold init at h
      simp only [Bool.not_true, Bool.false_eq_true, if_false] at h
      split_ifs at h with h1
      split at h
      · exact absurd h (by simp)
      · rename_i hr
        split at h
        · split_ifs at h
          injection h with h
          rw [hr, ← h]
        · exact absurd h (by simp)
    have hff := hfil h1
    rw [hfil h1'] at hff
    injection hff with hff
    obtain ⟨p, ps, b, a, e⟩ := o
    obtain ⟨p', ps', b', a', e'⟩ := o'
    simp only [Interp1d.all, List.cons.injEq, Prod.mk.injEq] at hall hff
    obtain ⟨rfl, rfl⟩ := hall
    obtain ⟨rfl, rfl, rfl⟩ := hff
    rfl

/-- C45: between two neighbouring nodes the value is on the straight line through them, and between their ordinates. -/
theorem C45_between (o : Interp1d) (l r : List Node) (p q : Node) (ho : o.all = l ++ p :: q :: r) (h : Incr o.all) (x : ℝ) (h1 : p.1 ≤ x) (h2 : x ≤ q.1) :
    o.call x = p.2 + (q.2 - p.2) / (q.1 - p.1) * (x - p.1) ∧ min p.2 q.2 ≤ o.call x ∧ o.call x ≤ max p.2 q.2 := by
  have hpm : p ∈ o.all := by rw [ho]; simp
  have hqm : q ∈ o.all := by rw [ho]; simp
  have hpq : p.1 < q.1 := by
    rw [ho] at h
    have := (List.pairwise_append.1 h).2.1
    exact (List.pairwise_cons.1 this).1 q (by simp)
  have hc : o.call x = p.2 + (q.2 - p.2) / (q.1 - p.1) * (x - p.1) := by
    rcases h2.lt_or_eq with hlt | rfl
    · rw [call_inside o x ((incr_first_le h hpm).trans h1) (h2.trans (incr_le_last h _ hqm))]
      rw [ho] at h ⊢
      exact seg_between h h1 hlt
    · rw [C45_nodes o h q hqm]
      have : q.1 - p.1 ≠ 0 := by linarith
      field_simp; ring
  rw [hc]
  exact ⟨rfl, line_between hpq h1 h2⟩

/-- C45: outside the range, without extrapolation: the fill value, or else the ordinate of the nearest node. -/
theorem C45_outside (o : Interp1d) (he : o.extrapolate = false) (h : Incr o.all) (x : ℝ) :
    (x < o.node.1 → o.call x = o.below.getD o.node.2) ∧
    ((o.all.getLast (by simp [Interp1d.all])).1 < x → o.call x = o.above.getD (o.all.getLast (by simp [Interp1d.all])).2) := by
  have hc : o.call x = npInterp o.node o.nodes o.below o.above x := by unfold Interp1d.call; rw [he]
  rw [hc]
  unfold npInterp
  refine ⟨fun hx => by rw [if_pos hx], fun hx => ?_⟩
  have : ¬ x < o.node.1 := by
    have := incr_le_last h (by simp [Interp1d.all]) (n := o.node) (by simp [Interp1d.all])
    linarith
  rw [if_neg this, if_pos]
  · rfl
  · exact hx

/-- C45: with extrapolation the first and the last straight line are continued. -/
theorem C45_extrapolate (o : Interp1d) (he : o.extrapolate = true) (h : Incr o.all) (x : ℝ) :
    (∀ p q r, o.all = p :: q :: r → x < p.1 → o.call x = p.2 + (q.2 - p.2) / (q.1 - p.1) * (x - p.1)) ∧
    (∀ l p q, o.all = l ++ [p, q] → q.1 < x → o.call x = q.2 + (q.2 - p.2) / (q.1 - p.1) * (x - q.1)) := by
  obtain ⟨p0, ps, b, a, e⟩ := o
  simp only at he
  subst he
  simp only [Interp1d.all] at h ⊢
  constructor
  · intro p q r hall hx
    rw [List.cons.injEq] at hall
    obtain ⟨rfl, rfl⟩ := hall
    unfold Interp1d.call
    simp only
    rw [if_pos hx]
  · intro l p q hall hx
    cases ps with
    | nil =>
      exfalso
      have := congrArg List.length hall
      simp at this
    | cons q0 r0 =>
      have h1 : (q0 :: r0).getLast (by simp) = q := by
        have : (p0 :: q0 :: r0).getLast (by simp) = q := by
          simp only [hall]
          rw [List.getLast_append_of_ne_nil (by simp) (by simp)]; rfl
        rwa [List.getLast_cons (by simp)] at this
      have h2 : ((p0 :: q0 :: r0).dropLast).getLast (by simp) = p := by
        have e : (p0 :: q0 :: r0).dropLast = l ++ [p] := by
          rw [hall, show l ++ [p, q] = (l ++ [p]) ++ [q] by simp, List.dropLast_concat]
        simp only [e]
        simp
      unfold Interp1d.call
      simp only
      rw [h1, h2, if_neg, if_pos hx]
      have := incr_le_last h (by simp) (n := p0) (by simp)
      rw [List.getLast_cons (by simp), h1] at this
      linarith

/-- C45: which fill values result from the keywords; `left` and `right` win over `fill_value`. -/
theorem C45_fills (left right : Option ℝ) (v a b : ℝ) :
    fills .absent left right = some (left, right, false) ∧ fills .extrapolate left right = some (left, right, true) ∧
    fills (.one v) none none = some (some v, some v, false) ∧ fills (.two a b) none none = some (some a, some b, false) ∧
    (∀ c, fills (.two a b) (some c) none = some (some c, some b, false)) ∧ (∀ c, fills (.two a b) none (some c) = some (some a, some c, false)) ∧
    fills .other left right = none := by
  refine ⟨?_, ?_, rfl, rfl, fun c => rfl, fun c => rfl, rfl⟩ <;> cases left <;> cases right <;> rfl

theorem seg_mono {l : List Node} (h : Incr l) (hm : l.Pairwise (fun a b => a.2 ≤ b.2)) (p : Node) (r : List Node) (hl : l = p :: r) :
    (∀ x, p.1 ≤ x → p.2 ≤ seg l x) ∧ ∀ x y, p.1 ≤ x → x ≤ y → y ≤ (l.getLast (by simp [hl])).1 → seg l x ≤ seg l y := by
  induction l generalizing p r with
  | nil => simp at hl
  | cons a l ih =>
    rw [List.cons.injEq] at hl
    obtain ⟨rfl, rfl⟩ := hl
    cases l with
    | nil => exact ⟨fun x _ => le_rfl, fun x y _ _ _ => le_rfl⟩
    | cons q r =>
      have hh := List.pairwise_cons.1 h
      have hhm := List.pairwise_cons.1 hm
      obtain ⟨i1, i2⟩ := ih hh.2 hhm.2 q r rfl
      have haq : a.1 < q.1 := hh.1 q (by simp)
      have hv : a.2 ≤ q.2 := hhm.1 q (by simp)
      have hsl : 0 ≤ (q.2 - a.2) / (q.1 - a.1) := div_nonneg (by linarith) (by linarith)
      refine ⟨fun x hx => ?_, fun x y hx hxy hy => ?_⟩
      · simp only [seg]
        split_ifs with hq
        · exact hv.trans (i1 x hq)
        · have := mul_nonneg hsl (by linarith : (0 : ℝ) ≤ x - a.1); linarith
      · rw [List.getLast_cons (by simp)] at hy
        simp only [seg]
        by_cases hqx : q.1 ≤ x
        · rw [if_pos hqx, if_pos (hqx.trans hxy)]
          exact i2 x y hqx hxy hy
        · rw [if_neg hqx]
          by_cases hqy : q.1 ≤ y
          · rw [if_pos hqy]
            push Not at hqx
            have := (line_between haq hx hqx.le).2
            rw [max_eq_right hv] at this
            exact this.trans (i1 y hqy)
          · rw [if_neg hqy]
            have := mul_le_mul_of_nonneg_left (by linarith : x - a.1 ≤ y - a.1) hsl
            linarith

/-- C45: if the ordinates never decrease, neither does the interpolation, on the whole line when nothing is filled in outside. -/
theorem C45_monotone (o : Interp1d) (h : Incr o.all) (hm : o.all.Pairwise (fun a b => a.2 ≤ b.2)) (he : o.extrapolate = false) (hb : o.below = none)
    (ha : o.above = none) (x y : ℝ) (hxy : x ≤ y) : o.call x ≤ o.call y := by
  obtain ⟨m1, m2⟩ := seg_mono h hm o.node o.nodes rfl
  set last := o.all.getLast (by simp [Interp1d.all]) with hlast
  have hfl : o.node.1 ≤ last.1 := incr_le_last h _ (by simp [Interp1d.all])
  have hlo : ∀ z, z < o.node.1 → o.call z = o.node.2 := fun z hz => by rw [(C45_outside o he h z).1 hz, hb]; rfl
  have hhi : ∀ z, last.1 < z → o.call z = last.2 := fun z hz => by rw [(C45_outside o he h z).2 hz, ha]; rfl
  have hin : ∀ z, o.node.1 ≤ z → z ≤ last.1 → o.call z = seg o.all z := fun z h1 h2 => call_inside o z h1 h2
  have hlv : seg o.all last.1 = last.2 := seg_mem h (last_mem o)
  rcases lt_or_ge x o.node.1 with hx | hx
  · rw [hlo x hx]
    rcases lt_or_ge y o.node.1 with hy | hy
    · rw [hlo y hy]
    · rcases lt_or_ge last.1 y with hy' | hy'
      · rw [hhi y hy', ← hlv]; exact m1 _ hfl
      · rw [hin y hy hy']; exact m1 _ hy
  · rcases lt_or_ge last.1 x with hx' | hx'
    · rw [hhi x hx', hhi y (hx'.trans_le hxy)]
    · rw [hin x hx hx']
      rcases lt_or_ge last.1 y with hy' | hy'
      · rw [hhi y hy', ← hlv]; exact m2 x last.1 hx hx' le_rfl
      · rw [hin y (hx.trans hxy) hy']; exact m2 x y hx hxy hy'

/-- C45: what is refused: other kinds, lists of different length, unknown fill values, no nodes. -/
theorem C45_refused (argsort : List Node → List Node) (xs ys : List ℝ) (f : Fill) (left right : Option ℝ) :
    init argsort false xs ys f left right = .error .notImplemented ∧
    (xs.length ≠ ys.length → init argsort true xs ys f left right = .error .value) ∧
    (xs.length = ys.length → init argsort true xs ys .other left right = .error .notImplemented) ∧
    (∀ o, init argsort true xs ys f left right = .ok o → ∃ x y xt yt, xs = x :: xt ∧ ys = y :: yt ∧ o.call x = y) := by
  refine ⟨rfl, fun h => ?_, fun h => ?_, fun o h => ?_⟩
  · unfold init; simp only [Bool.not_true, Bool.false_eq_true, if_false]; rw [if_pos h]
  · unfold init; simp only [Bool.not_true, Bool.false_eq_true, if_false]; rw [if_neg (not_not.2 h)]; rfl
  · unfold init at h
    simp only [Bool.not_true, Bool.false_eq_true, if_false] at h
    split_ifs at h with h1
    split at h
    · exact absurd h (by simp)
    · split at h
      · split_ifs at h with hc
        injection h with h
        subst h
        exact ⟨_, _, _, _, rfl, rfl, hc⟩
      · exact absurd h (by simp)

/-- C45: two nodes with the same abscissa and different ordinates are refused if the first is asked for (here with the nodes as given). -/
theorem C45_duplicate_refused (left right : Option ℝ) : init id true [0, 0] [1, 2] .absent left right = .error .assertion := by
  have hA : arrange id ([(0 : ℝ), 0].zip [(1 : ℝ), 2]) = [(0, 1), (0, 2)] := by
    unfold arrange
    rw [if_neg (by simp [Incr]), if_neg (by simp)]; rfl
  unfold init
  simp only [Bool.not_true, Bool.false_eq_true, if_false]
  rw [if_neg (by simp), (C45_fills left right 0 0 0).1]
  simp only [hA]
  rw [if_neg]
  intro hc
  unfold Interp1d.call npInterp at hc
  simp [seg] at hc

/-! ### Tracks -/

theorem mem_groups {D : Type} (cols : List (Column D)) (c : Column D) : c ∈ groups.flatMap (inGroup cols) ↔ c ∈ cols := by
  simp only [groups, inGroup, List.flatMap_cons, List.flatMap_nil, List.append_nil, List.mem_append, List.mem_filter]
  obtain ⟨k, x, p, d⟩ := c
  cases p <;> cases d <;> simp

theorem groups_perm {D : Type} (cols : List (Column D)) : (groups.flatMap (inGroup cols)).Perm cols := by
  induction cols with
  | nil => exact .refl _
  | cons c cs ih =>
    have : (groups.flatMap (inGroup (c :: cs))).Perm (c :: groups.flatMap (inGroup cs)) := by
      obtain ⟨k, x, p, d⟩ := c
      simp only [groups, inGroup, List.flatMap_cons, List.flatMap_nil, List.append_nil, List.filter_cons]
      cases p <;> cases d <;> simp [List.perm_middle, List.append_assoc]
      · simp only [← List.append_assoc]; exact List.perm_middle
      · simp only [← List.append_assoc]
        simp only [List.append_assoc]
        rw [← List.append_assoc]
        refine List.perm_middle.trans ?_
        simp
    exact this.trans (ih.cons c)

/-- C45: the keys of the interpolator are those of the columns, each once. -/
theorem C45_keys {D : Type} (cols : List (Column D)) : (starKeys cols).Perm (cols.map (·.key)) := (groups_perm cols).map _

theorem foldlM_lookup {D : Type} (f : Column D → Except Err Out) (l : List (Column D)) (hn : (l.map (·.key)).Nodup) :
    ∀ (r r' : String → Option Out), l.foldlM (fun r c => (f c).map fun o => insertAll [(c.key, o)] r) r = .ok r' →
      (∀ c ∈ l, ∃ o, f c = .ok o ∧ r' c.key = some o) ∧ ∀ k, (∀ c ∈ l, c.key ≠ k) → r' k = r k := by
  induction l with
  | nil =>
    intro r r' h
    have : r = r' := by simpa [pure, Except.pure] using h
    subst this
    exact ⟨by simp, fun _ _ => rfl⟩
  | cons c l ih =>
    intro r r' h
    rw [List.foldlM_cons] at h
    cases hfc : f c with
    | error e => rw [hfc] at h; simp [Except.map, bind, Except.bind] at h
    | ok o =>
      rw [hfc] at h
      simp only [Except.map, bind, Except.bind] at h
      rw [List.map_cons, List.nodup_cons] at hn
      obtain ⟨h1, h2⟩ := ih hn.2 _ r' h
      have hset : ∀ k, insertAll [(c.key, o)] r k = if k = c.key then some o else r k := fun _ => rfl
      refine ⟨fun d hd => ?_, fun k hk => ?_⟩
      · rcases List.mem_cons.1 hd with rfl | hd
        · refine ⟨o, hfc, ?_⟩
          rw [h2 d.key, hset, if_pos rfl]
          intro c' hc' he
          exact hn.1 (List.mem_map.2 ⟨c', hc', he⟩)
        · exact h1 d hd
      · rw [h2 k (fun c' hc' => hk c' (List.mem_cons_of_mem _ hc')), hset, if_neg]
        exact fun h => hk c List.mem_cons_self h.symm

/-- C45: every column gets its own polynomial (or derivative), at the shifted time, never below zero if flagged positive; nothing else appears. -/
theorem C45_track {D : Type} (poly deriv : D → ℝ → ℝ) (offset : ℝ) (cols : List (Column D)) (hn : (cols.map (·.key)).Nodup) (t : ℝ) :
    ∃ r, starCall poly deriv offset cols (.scalar t) = .ok r ∧
      (∀ c ∈ cols, ∃ v, r c.key = some (.scalar v) ∧
        (c.positive = false → v = (if c.derivative then deriv c.data (t - offset) else poly c.data (t - offset))) ∧
        (c.positive = true → v = max (if c.derivative then deriv c.data (t - offset) else poly c.data (t - offset)) 0 ∧ 0 ≤ v)) ∧
      ∀ k, (∀ c ∈ cols, c.key ≠ k) → r k = none := by
  have hn' : ((groups.flatMap (inGroup cols)).map (·.key)).Nodup := ((groups_perm cols).map _).nodup_iff.2 hn
  have hok : ∀ (l : List (Column D)) (r : String → Option Out), ∃ r',
      l.foldlM (fun r c => (shaped (valueAt poly deriv offset c) (.scalar t)).map fun o => insertAll [(c.key, o)] r) r = .ok r' := by
    intro l
    induction l with
    | nil => intro r; exact ⟨r, rfl⟩
    | cons c l ih =>
      intro r
      rw [List.foldlM_cons]
      exact ih _
  obtain ⟨r, hr⟩ := hok (groups.flatMap (inGroup cols)) fun _ => none
  obtain ⟨h1, h2⟩ := foldlM_lookup _ _ hn' _ _ hr
  refine ⟨r, hr, fun c hc => ?_, fun k hk => h2 k fun c hc => hk c ((mem_groups cols c).1 hc)⟩
  obtain ⟨o, ho, hro⟩ := h1 c ((mem_groups cols c).2 hc)
  simp only [shaped, Except.ok.injEq] at ho
  refine ⟨valueAt poly deriv offset c t, by rw [hro, ho], fun hp => ?_, fun hp => ?_⟩
  · unfold valueAt; simp only [hp]; cases c.derivative <;> rfl
  · have e : valueAt poly deriv offset c t = max (if c.derivative then deriv c.data (t - offset) else poly c.data (t - offset)) 0 := by
      unfold valueAt; simp only [hp]; cases c.derivative <;> rfl
    exact ⟨e, by rw [e]; exact le_max_right _ _⟩

/-- C45: an array of two or more times gives, for every column, the array of the values at these times. -/
theorem C45_track_array {D : Type} (poly deriv : D → ℝ → ℝ) (offset : ℝ) (cols : List (Column D)) (hn : (cols.map (·.key)).Nodup) (ts : List ℝ)
    (hts : 2 ≤ ts.length) (r : String → Option Out) (h : starCall poly deriv offset cols (.array ts) = .ok r) :
    ∀ c ∈ cols, r c.key = some (.array (ts.map (valueAt poly deriv offset c))) := by
  have hn' : ((groups.flatMap (inGroup cols)).map (·.key)).Nodup := ((groups_perm cols).map _).nodup_iff.2 hn
  intro c hc
  obtain ⟨o, ho, hro⟩ := (foldlM_lookup _ _ hn' _ _ h).1 c ((mem_groups cols c).2 hc)
  rw [hro]
  match ts, hts with
  | a :: b :: ts, _ =>
    simp only [shaped, Except.ok.injEq] at ho
    rw [← ho]

/-- C45 violated: an array with one time is answered with a number instead of an array, and an empty array is an error. -/
theorem C45_track_shape_violated {D : Type} (poly deriv : D → ℝ → ℝ) (offset : ℝ) (c : Column D) (t : ℝ) :
    (∃ r, starCall poly deriv offset [c] (.array [t]) = .ok r ∧ r c.key = some (.scalar (valueAt poly deriv offset c t))) ∧
    starCall poly deriv offset [c] (.array []) = .error .index := by
  have hg : groups.flatMap (inGroup [c]) = [c] := List.perm_singleton.1 (groups_perm [c])
  unfold starCall
  rw [hg]
  refine ⟨⟨_, rfl, ?_⟩, rfl⟩
  simp [insertAll]

/-- C45: the flags: missing lists mean "no" for every column; lists that are too short are refused. -/
theorem C45_columns {D : Type} (data : List D) (keys : List String) (hl : keys.length = data.length) (p d : List Bool) :
    columns data keys none none = .ok ((data.zip keys).map fun x => ⟨x.2, x.1, false, false⟩) ∧
    (p.length < data.length → columns data keys (some p) none = .error .index) ∧
    (d.length < data.length → columns data keys none (some d) = .error .index) := by
  refine ⟨?_, fun h => ?_, fun h => ?_⟩
  · unfold columns
    simp only [Option.getD_none, List.length_map]
    rw [if_neg (by omega)]
    refine congrArg Except.ok ?_
    induction data generalizing keys with
    | nil => rfl
    | cons x data ih =>
      cases keys with
      | nil => simp at hl
      | cons k keys =>
        simp only [List.map_cons, List.zip_cons_cons]
        rw [ih keys (by simpa using hl)]
  · unfold columns; rw [if_pos (.inl h)]
  · unfold columns; rw [if_pos (.inr (.inl h))]

/-! ### Concrete cases -/

example : Incr [((0 : ℝ), (5 : ℝ)), (1, 7), (3, 1)] := by unfold Incr; simp
example : (⟨(0, 5), [(1, 7), (3, 1)], none, none, false⟩ : Interp1d).call 2 = 4 := by
  rw [(C45_between ⟨(0, 5), [(1, 7), (3, 1)], none, none, false⟩ [(0, 5)] [] (1, 7) (3, 1) rfl (by simp [Interp1d.all, Incr]) 2 (by norm_num) (by norm_num)).1]
  norm_num

end Verif.Interp
