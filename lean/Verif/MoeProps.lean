import Verif.Moe
import Mathlib.Topology.Order.OrderClosed
import Mathlib.Analysis.SpecialFunctions.Pow.Continuity
import Mathlib.Tactic.NormNum
import Mathlib.Tactic.LinearCombination
/-!
C91: companions drawn from the distribution of Moe and Di Stefano.
-/
namespace Verif.Moe
open Classical

/-! ### Integration -/

/-- **C91** The integration of tables is exact for straight lines, for every number of points. -/
theorem C91_tab_affine (dx a b : ℝ) : ∀ (n k : ℕ), tab dx ((List.range' k (n + 1)).map fun i : ℕ => a * (i * dx) + b) = a * (((k + n : ℕ) * dx) ^ 2 - ((k : ℕ) * dx) ^ 2) / 2 + b * (n * dx)
  | 0, k => by simp [tab]
  | 1, k => by simp [List.range', tab]; push_cast; ring
  | 2, k => by simp [List.range', tab]; push_cast; ring
  | 3, k => by simp [List.range', tab]; push_cast; ring
  | n + 4, k => by
    have ih := C91_tab_affine dx a b n (k + 4)
    rw [show n + 4 + 1 = (n + 1) + 1 + 1 + 1 + 1 by omega]
    simp only [List.range'_succ, List.map_cons, tab] at ih ⊢
    rw [show k + 1 + 1 + 1 + 1 = k + 4 by omega, ih]
    push_cast
    ring

theorem tab_nonneg {dx : ℝ} (hd : 0 ≤ dx) : ∀ l : List ℝ, (∀ x ∈ l, 0 ≤ x) → 0 ≤ tab dx l
  | [], _ => by simp [tab]
  | [_], _ => by simp [tab]
  | [a, b], h => by
    have ha := h a (by simp); have hb := h b (by simp)
    simp only [tab]; positivity
  | [a, b, c], h => by
    have ha := h a (by simp); have hb := h b (by simp); have hc := h c (by simp)
    simp only [tab]; positivity
  | [a, b, c, d], h => by
    have ha := h a (by simp); have hb := h b (by simp); have hc := h c (by simp); have hd' := h d (by simp)
    simp only [tab]; positivity
  | a :: b :: c :: d :: e :: l, h => by
    have ha := h a (by simp); have hb := h b (by simp); have hc := h c (by simp); have hd' := h d (by simp); have he := h e (by simp)
    have := tab_nonneg hd (e :: l) fun x hx => h x (by simp [List.mem_cons.1 hx])
    simp only [tab]; positivity

/-- With at least two points and the last value positive the integral is positive. -/
theorem tab_pos {dx : ℝ} (hd : 0 < dx) : ∀ l : List ℝ, (∀ x ∈ l, 0 ≤ x) → 2 ≤ l.length → 0 < l.getLastD 0 → 0 < tab dx l
  | [], _, h, _ => by simp at h
  | [_], _, h, _ => by simp at h
  | [a, b], h, _, hl => by
    have ha := h a (by simp)
    simp at hl
    simp only [tab]; positivity
  | [a, b, c], h, _, hl => by
    have ha := h a (by simp); have hb := h b (by simp)
    simp at hl
    simp only [tab]; positivity
  | [a, b, c, d], h, _, hl => by
    have ha := h a (by simp); have hb := h b (by simp); have hc := h c (by simp)
    simp at hl
    simp only [tab]; positivity
  | [a, b, c, d, e], h, _, hl => by
    have ha := h a (by simp); have hb := h b (by simp); have hc := h c (by simp); have hd' := h d (by simp)
    simp at hl
    simp only [tab]; positivity
  | a :: b :: c :: d :: e :: f :: l, h, _, hl => by
    have ha := h a (by simp); have hb := h b (by simp); have hc := h c (by simp); have hd' := h d (by simp); have he := h e (by simp)
    have := tab_pos hd (e :: f :: l) (fun x hx => h x (by
      simp only [List.mem_cons] at hx ⊢
      tauto)) (by simp) (by simpa using hl)
    rw [tab]
    positivity

/-! ### Cumulative distributions -/

theorem cumFrom_shift (t : ℝ) : ∀ (l : List ℝ) (s : ℝ), (cumFrom s l).map (· - t) = cumFrom (s - t) l
  | [], _ => rfl
  | a :: l, s => by
    simp only [cumFrom, List.map_cons]
    rw [cumFrom_shift t l (s + a), show s + a - t = s - t + a by ring]

theorem cum_cons (a : ℝ) (l : List ℝ) : cum (a :: l) = 0 :: cumFrom 0 l := by
  unfold cum
  rw [cumFrom_shift]
  simp only [List.headD_cons, cumFrom]
  rw [show (0 : ℝ) - a + a = 0 by ring]

theorem cumFrom_length : ∀ (l : List ℝ) (s : ℝ), (cumFrom s l).length = l.length
  | [], _ => rfl
  | a :: l, s => by simp [cumFrom, cumFrom_length l]

theorem cumFrom_last : ∀ (l : List ℝ) (s : ℝ), (s :: cumFrom s l).getLastD 0 = s + l.sum
  | [], s => by simp [cumFrom]
  | a :: l, s => by
    have := cumFrom_last l (s + a)
    simp only [cumFrom, List.sum_cons]
    rw [← add_assoc, ← this]
    simp

theorem normed_cons (a : ℝ) (l : List ℝ) : normed (a :: l) = (0 :: cumFrom 0 l).map (· / l.sum) := by
  unfold normed
  rw [cum_cons, cumFrom_last, zero_add]

theorem normed_length (f : List ℝ) : (normed f).length = f.length := by
  cases f with
  | nil => rfl
  | cons a l => rw [normed_cons]; simp [cumFrom_length]

theorem normed_head (a : ℝ) (l : List ℝ) : (normed (a :: l)).head? = some 0 := by
  rw [normed_cons]; simp

theorem map_getLastD (g : ℝ → ℝ) (h0 : g 0 = 0) (l : List ℝ) : (l.map g).getLastD 0 = g (l.getLastD 0) := by
  rw [List.getLastD_eq_getLast?, List.getLastD_eq_getLast?, List.getLast?_map]
  cases l.getLast? with
  | none => simp [h0]
  | some x => rfl

theorem normed_last (a : ℝ) (l : List ℝ) (hs : l.sum ≠ 0) : (normed (a :: l)).getLastD 0 = 1 := by
  rw [normed_cons, map_getLastD (· / l.sum) (by simp), cumFrom_last, zero_add]
  exact div_self hs

/-- Neighbouring sums differ by the summand. -/
theorem cumFrom_step : ∀ (l : List ℝ) (s : ℝ) (k : ℕ) (u v : ℝ), (s :: cumFrom s l)[k]? = some u → (s :: cumFrom s l)[k + 1]? = some v → l[k]? = some (v - u)
  | [], s, k, u, v, _, h2 => by simp [cumFrom] at h2
  | a :: l, s, 0, u, v, h1, h2 => by
    simp [cumFrom] at h1 h2 ⊢
    rw [← h1, ← h2]; ring
  | a :: l, s, k + 1, u, v, h1, h2 => by
    simp only [cumFrom, List.getElem?_cons_succ] at h1 h2 ⊢
    refine cumFrom_step l (s + a) k u v ?_ ?_
    · simpa [cumFrom] using h1
    · simpa [cumFrom] using h2

theorem normed_step {a : ℝ} {l : List ℝ} (hs : 0 < l.sum) {k : ℕ} {u v : ℝ} (h1 : (normed (a :: l))[k]? = some u) (h2 : (normed (a :: l))[k + 1]? = some v) :
    (a :: l)[k + 1]? = some ((v - u) * l.sum) := by
  rw [normed_cons, List.getElem?_map, Option.map_eq_some_iff] at h1 h2
  obtain ⟨x, hx, rfl⟩ := h1
  obtain ⟨y, hy, rfl⟩ := h2
  rw [List.getElem?_cons_succ, cumFrom_step l 0 k x y hx hy]
  congr 1
  field_simp

theorem normed_mono {a : ℝ} {l : List ℝ} (hs : 0 < l.sum) (hn : ∀ x ∈ l, 0 ≤ x) : (normed (a :: l)).Pairwise (· ≤ ·) := by
  have gen : ∀ (l : List ℝ) (s : ℝ), (∀ x ∈ l, 0 ≤ x) → (s :: cumFrom s l).Pairwise (· ≤ ·) := by
    intro l
    induction l with
    | nil => intro s _; simp [cumFrom]
    | cons b l ih =>
      intro s h
      have hb := h b (by simp)
      have := ih (s + b) fun x hx => h x (by simp [hx])
      simp only [cumFrom]
      rw [List.pairwise_cons]
      refine ⟨fun x hx => ?_, this⟩
      rcases List.mem_cons.1 hx with rfl | hx
      · linarith
      · exact (show s ≤ s + b by linarith).trans ((List.pairwise_cons.1 this).1 x hx)
  rw [normed_cons, List.pairwise_map]
  exact (gen l 0 hn).imp fun h => div_le_div_of_nonneg_right h hs.le

/-- Every cumulative distribution starts at zero, never decreases and ends at one. -/
theorem C91_cumulative (a : ℝ) (l : List ℝ) (hn : ∀ x ∈ l, 0 ≤ x) (hp : ∃ x ∈ l, 0 < x) :
    (normed (a :: l)).head? = some 0 ∧ (normed (a :: l)).Pairwise (· ≤ ·) ∧ (normed (a :: l)).getLastD 0 = 1 ∧ (normed (a :: l)).length = l.length + 1 := by
  have hs : 0 < l.sum := by
    obtain ⟨x, hx, hx0⟩ := hp
    exact lt_of_lt_of_le hx0 (List.single_le_sum hn x hx)
  exact ⟨normed_head a l, normed_mono hs hn, normed_last a l hs.ne', by rw [normed_length]; simp⟩

/-! ### Sampling -/

theorem seg_bracket : ∀ (l : List Interp.Node) (p : Interp.Node) (r : ℝ), p.1 ≤ r → r < ((p :: l).getLast (by simp)).1 →
    ∃ pre a b post, p :: l = pre ++ a :: b :: post ∧ a.1 ≤ r ∧ r < b.1 ∧ Interp.seg (p :: l) r = a.2 + (b.2 - a.2) / (b.1 - a.1) * (r - a.1)
  | [], p, r, h1, h2 => by simp at h2; linarith
  | q :: l, p, r, h1, h2 => by
    rw [Interp.seg]
    by_cases hq : q.1 ≤ r
    · rw [if_pos hq]
      rw [List.getLast_cons (show q :: l ≠ [] by simp)] at h2
      obtain ⟨pre, a, b, post, e, h⟩ := seg_bracket l q r hq h2
      exact ⟨p :: pre, a, b, post, by rw [e]; rfl, h⟩
    · rw [if_neg hq]
      exact ⟨[], p, q, l, rfl, h1, not_le.1 hq, rfl⟩

/-- Where a random number falls in the cumulative distribution. -/
theorem sample_bracket (c v : List ℝ) (hl : c.length = v.length) (r : ℝ) (h0 : ∃ x, c.head? = some x ∧ x ≤ r) (h1 : r < c.getLastD 0) :
    ∃ (k : ℕ) (a b u w : ℝ), c[k]? = some a ∧ c[k + 1]? = some b ∧ v[k]? = some u ∧ v[k + 1]? = some w ∧ a ≤ r ∧ r < b ∧
      sample c v r = u + (w - u) / (b - a) * (r - a) := by
  obtain ⟨x, hx, hxr⟩ := h0
  cases c with
  | nil => simp at hx
  | cons c0 c =>
    cases v with
    | nil => simp at hl
    | cons v0 v =>
      have e0 : c0 = x := by simpa using hx
      have hlast : (((c0, v0) :: c.zip v).getLast (by simp)).1 = (c0 :: c).getLastD 0 := by
        have e : (((c0, v0) :: c.zip v).map Prod.fst).getLast? = (c0 :: c).getLast? := by
          rw [show ((c0, v0) :: c.zip v) = (c0 :: c).zip (v0 :: v) from rfl, Interp.zip_fst hl]
        rw [List.getLast?_map, List.getLast?_eq_some_getLast (List.cons_ne_nil _ _), List.getLast?_eq_some_getLast (List.cons_ne_nil _ _)] at e
        simp only [Option.map_some, Option.some.injEq] at e
        rw [e, List.getLastD_eq_getLast?, List.getLast?_eq_some_getLast (List.cons_ne_nil _ _)]
        rfl
      have hs : sample (c0 :: c) (v0 :: v) r = Interp.seg ((c0, v0) :: c.zip v) r := by
        unfold sample
        rw [show (c0 :: c).zip (v0 :: v) = (c0, v0) :: c.zip v from rfl]
        dsimp only
        unfold Interp.npInterp
        rw [if_neg (by rw [e0]; exact not_lt.2 hxr), if_neg]
        rw [not_lt, hlast]
        exact h1.le
      obtain ⟨pre, a, b, post, e, ha, hb, hv⟩ := seg_bracket (c.zip v) (c0, v0) r (by rw [e0]; exact hxr) (by rw [hlast]; exact h1)
      have g1 : ((c0 :: c).zip (v0 :: v))[pre.length]? = some a := by
        rw [show (c0 :: c).zip (v0 :: v) = (c0, v0) :: c.zip v from rfl, e]
        simp
      have g2 : ((c0 :: c).zip (v0 :: v))[pre.length + 1]? = some b := by
        rw [show (c0 :: c).zip (v0 :: v) = (c0, v0) :: c.zip v from rfl, e]
        rw [List.getElem?_append_right (by omega)]
        simp
      rw [List.getElem?_zip_eq_some] at g1 g2
      exact ⟨pre.length, a.1, b.1, a.2, b.2, g1.1, g2.1, g1.2, g2.2, ha, hb, by rw [hs, hv]⟩

/-- The value drawn lies between two neighbouring values of the grid, and below the second. -/
theorem sample_between (c v : List ℝ) (hl : c.length = v.length) (hv : v.Pairwise (· < ·)) (r : ℝ) (h0 : ∃ x, c.head? = some x ∧ x ≤ r) (h1 : r < c.getLastD 0) :
    ∃ (k : ℕ) (a b u w : ℝ), c[k]? = some a ∧ c[k + 1]? = some b ∧ v[k]? = some u ∧ v[k + 1]? = some w ∧ a ≤ r ∧ r < b ∧ u ≤ sample c v r ∧ sample c v r < w := by
  obtain ⟨k, a, b, u, w, ha, hb, hu, hw, h2, h3, hs⟩ := sample_bracket c v hl r h0 h1
  have huw : u < w := by
    rw [List.pairwise_iff_getElem] at hv
    obtain ⟨i1, rfl⟩ := List.getElem?_eq_some_iff.1 hu
    obtain ⟨i2, rfl⟩ := List.getElem?_eq_some_iff.1 hw
    exact hv k (k + 1) _ _ (by omega)
  have hd : 0 < b - a := by linarith
  refine ⟨k, a, b, u, w, ha, hb, hu, hw, h2, h3, ?_, ?_⟩
  · rw [hs]
    have := mul_nonneg (div_nonneg (show 0 ≤ w - u by linarith) hd.le) (show 0 ≤ r - a by linarith)
    linarith
  · rw [hs]
    have e : u + (w - u) / (b - a) * (r - a) = w - (w - u) / (b - a) * (b - r) := by
      field_simp; ring
    rw [e]
    have := mul_pos (div_pos (show 0 < w - u by linarith) hd) (show 0 < b - r by linarith)
    linarith

theorem seg_top : ∀ (l : List Interp.Node) (p : Interp.Node) (r : ℝ), (∀ q ∈ l, q.1 ≤ r) → Interp.seg (p :: l) r = ((p :: l).getLast (List.cons_ne_nil _ _)).2
  | [], p, r, _ => by simp [Interp.seg]
  | q :: l, p, r, h => by
    rw [Interp.seg, if_pos (h q (by simp)), seg_top l q r fun x hx => h x (by simp [hx])]
    simp

/-- At or above the top of the cumulative distribution the last value is drawn. -/
theorem sample_top (c v : List ℝ) (hl : c.length = v.length) (hc : ∀ x ∈ c, x ≤ c.getLastD 0) (r : ℝ) (h1 : c.getLastD 0 ≤ r) : sample c v r = v.getLastD 0 := by
  cases c with
  | nil =>
    have : v = [] := by simpa using hl.symm
    subst this
    simp [sample]
  | cons c0 c =>
    cases v with
    | nil => simp at hl
    | cons v0 v =>
      unfold sample
      rw [show (c0 :: c).zip (v0 :: v) = (c0, v0) :: c.zip v from rfl]
      dsimp only
      have hlast : (((c0, v0) :: c.zip v).getLast (List.cons_ne_nil _ _)).2 = (v0 :: v).getLastD 0 := by
        have e : (((c0, v0) :: c.zip v).map Prod.snd).getLast? = (v0 :: v).getLast? := by
          rw [show ((c0, v0) :: c.zip v) = (c0 :: c).zip (v0 :: v) from rfl, List.map_snd_zip (by simp at hl ⊢; omega)]
        rw [List.getLast?_map, List.getLast?_eq_some_getLast (List.cons_ne_nil _ _), List.getLast?_eq_some_getLast (List.cons_ne_nil _ _)] at e
        simp only [Option.map_some, Option.some.injEq] at e
        rw [e, List.getLastD_eq_getLast?, List.getLast?_eq_some_getLast (List.cons_ne_nil _ _)]
        rfl
      unfold Interp.npInterp
      rw [if_neg (not_lt.2 ((hc c0 (by simp)).trans h1))]
      have hseg : Interp.seg ((c0, v0) :: c.zip v) r = (v0 :: v).getLastD 0 := by
        rw [seg_top, hlast]
        intro q hq
        exact (hc q.1 (List.mem_cons_of_mem _ (List.of_mem_zip hq).1)).trans h1
      split_ifs
      · exact hlast
      · exact hseg

/-! ### Grids -/

theorem linspace_length (a b : ℝ) (n : ℕ) : (linspace a b n).length = n := by simp [linspace]

theorem linspace_incr {a b : ℝ} (h : a < b) {n : ℕ} (hn : 2 ≤ n) : (linspace a b n).Pairwise (· < ·) := by
  unfold linspace
  rw [List.pairwise_map]
  refine List.pairwise_lt_range.imp fun {i j} hij => ?_
  have h2 : (2 : ℝ) ≤ n := by exact_mod_cast hn
  have hd : 0 < (b - a) / ((n : ℝ) - 1) := div_pos (by linarith) (by linarith)
  have : (i : ℝ) < j := by exact_mod_cast hij
  have := mul_lt_mul_of_pos_right this hd
  linarith

theorem linspace_mem {a b : ℝ} (h : a ≤ b) {n : ℕ} (hn : 2 ≤ n) {x : ℝ} (hx : x ∈ linspace a b n) : a ≤ x ∧ x ≤ b := by
  simp only [linspace, List.mem_map, List.mem_range] at hx
  obtain ⟨k, hk, rfl⟩ := hx
  have h2 : (2 : ℝ) ≤ n := by exact_mod_cast hn
  have hk' : (k : ℝ) ≤ n - 1 := by
    have : ((k + 1 : ℕ) : ℝ) ≤ n := by exact_mod_cast hk
    push_cast at this; linarith
  have hd : 0 ≤ (b - a) / ((n : ℝ) - 1) := div_nonneg (by linarith) (by linarith)
  have h1 : (k : ℝ) * ((b - a) / ((n : ℝ) - 1)) ≤ ((n : ℝ) - 1) * ((b - a) / ((n : ℝ) - 1)) := mul_le_mul_of_nonneg_right hk' hd
  rw [mul_div_cancel₀ _ (show (n : ℝ) - 1 ≠ 0 by linarith)] at h1
  have h0 := mul_nonneg (Nat.cast_nonneg (α := ℝ) k) hd
  constructor <;> linarith

theorem linspace_cons (a b : ℝ) (n : ℕ) : ∃ l, linspace a b (n + 1) = a :: l := by
  unfold linspace
  rw [List.range_succ_eq_map]
  exact ⟨_, by rw [List.map_cons]; congr 1; simp⟩

theorem linspace_last (a b : ℝ) {n : ℕ} (hn : 2 ≤ n) : ∃ l, linspace a b n = l ++ [b] := by
  obtain ⟨m, rfl⟩ : ∃ m, n = m + 2 := ⟨n - 2, by omega⟩
  unfold linspace
  rw [show m + 2 = (m + 1) + 1 from rfl, List.range_succ, List.map_append]
  refine ⟨_, congrArg _ ?_⟩
  rw [List.map_singleton]
  congr 1
  have : ((m + 1 : ℕ) : ℝ) ≠ 0 := by positivity
  push_cast at this ⊢
  field_simp
  ring

/-- The grid of mass ratios. -/
structure QGrid (qv : List ℝ) : Prop where
  incr : qv.Pairwise (· < ·)
  pos : ∀ q ∈ qv, 0.1 ≤ q ∧ q ≤ 1
  head : qv.head? = some 0.1
  last : ∃ l u, qv = l ++ [u, 1] ∧ 0.3 ≤ u

theorem qgrid {n : ℕ} (hn : 3 ≤ n) : QGrid (linspace 0.1 1 n) := by
  refine ⟨linspace_incr (by norm_num) (by omega), fun q hq => linspace_mem (by norm_num) (by omega) hq, ?_, ?_⟩
  · obtain ⟨l, hl⟩ := linspace_cons 0.1 1 (n - 1)
    rw [show n - 1 + 1 = n by omega] at hl
    rw [hl]; rfl
  · obtain ⟨m, rfl⟩ : ∃ m, n = m + 3 := ⟨n - 3, by omega⟩
    unfold linspace
    rw [show m + 3 = (m + 1) + 1 + 1 from rfl, List.range_succ, List.range_succ, List.map_append, List.map_append, List.append_assoc]
    have hm : (0 : ℝ) ≤ m := Nat.cast_nonneg m
    refine ⟨_, 0.1 + ((m + 1 : ℕ) : ℝ) * ((1 - 0.1) / (((m + 1 + 1 + 1 : ℕ) : ℝ) - 1)), congrArg _ ?_, ?_⟩
    · simp only [List.map_singleton, List.singleton_append]
      congr 2
      have : (m : ℝ) + 2 ≠ 0 := by positivity
      push_cast
      rw [show (m : ℝ) + 1 + 1 + 1 - 1 = m + 2 by ring, mul_div_cancel₀ _ this]
      norm_num
    · push_cast
      rw [show (m : ℝ) + 1 + 1 + 1 - 1 = m + 2 by ring]
      have : (0.2 : ℝ) ≤ (m + 1) * ((1 - 0.1) / (m + 2)) := by
        rw [mul_div_assoc', le_div_iff₀ (by positivity)]
        linarith
      linarith

/-! ### The density of mass ratios -/

theorem filter_tab {dq g : ℝ} (hd : 0 < dq) {qv : List ℝ} (hq : QGrid qv) : 0 < tab dq ((qv.filter fun q => decide (q ≥ 0.3)).map (· ^ g)) := by
  obtain ⟨l, u, e, hu⟩ := hq.last
  have hf : (qv.filter fun q => decide (q ≥ 0.3)) = (l.filter fun q => decide (q ≥ 0.3)) ++ [u, 1] := by
    rw [e, List.filter_append]
    congr 1
    rw [List.filter_cons_of_pos (by simpa using hu), List.filter_cons_of_pos (by norm_num)]
    rfl
  refine tab_pos hd _ ?_ ?_ ?_
  · intro x hx
    obtain ⟨q, hq1, rfl⟩ := List.mem_map.1 hx
    have := (hq.pos q (List.mem_filter.1 hq1).1).1
    exact Real.rpow_nonneg (by norm_num at this; linarith) _
  · rw [hf]; simp
  · rw [hf]
    simp

theorem heaviside_nonneg {dq : ℝ} (hd : 0 < dq) {qv : List ℝ} : ∀ x ∈ heaviside dq qv, 0 ≤ x := by
  intro x hx
  simp only [heaviside, List.mem_map] at hx
  obtain ⟨y, ⟨q, _, rfl⟩, rfl⟩ := hx
  refine div_nonneg (by split_ifs <;> norm_num) (tab_nonneg hd.le _ ?_)
  intro z hz
  obtain ⟨w, _, rfl⟩ := List.mem_map.1 hz
  split_ifs <;> norm_num

theorem heaviside_length (dq : ℝ) (qv : List ℝ) : (heaviside dq qv).length = qv.length := by simp [heaviside]

theorem mem_zipWith {A B C : Type} {f : A → B → C} {x : C} {l : List A} {m : List B} (h : x ∈ List.zipWith f l m) : ∃ a ∈ l, ∃ b ∈ m, x = f a b := by
  rw [List.mem_iff_getElem?] at h
  obtain ⟨k, hk⟩ := h
  rw [List.getElem?_zipWith] at hk
  cases ha : l[k]? with
  | none => simp [ha] at hk
  | some a =>
    cases hb : m[k]? with
    | none => simp [ha, hb] at hk
    | some b =>
      simp [ha, hb] at hk
      exact ⟨a, List.mem_of_getElem? ha, b, List.mem_of_getElem? hb, hk.symm⟩

/-- The density of mass ratios is positive on the whole grid. -/
theorem qDist_pos {dq g s t : ℝ} (hd : 0 < dq) (ht : 0 ≤ t) (ht1 : t < 1) {qv : List ℝ} (hq : QGrid qv) : ∀ x ∈ qDist dq g s t qv, 0 < x := by
  have hf : ∀ x ∈ List.zipWith (fun q h => power dq g qv q * (1 - t) + h * t) qv (heaviside dq qv), 0 < x := by
    intro x hx
    obtain ⟨q, hq1, h, hh, rfl⟩ := mem_zipWith hx
    have q0 := (hq.pos q hq1).1
    have h1 : 0 < power dq g qv q := div_pos (Real.rpow_pos_of_pos (by norm_num at q0; linarith) _) (filter_tab hd hq)
    have h2 := heaviside_nonneg hd h hh
    have := mul_pos h1 (show 0 < 1 - t by linarith)
    have := mul_nonneg h2 ht
    linarith
  intro x hx
  simp only [qDist] at hx
  obtain ⟨q, hq1, y, hy, rfl⟩ := mem_zipWith hx
  have q0 := (hq.pos q hq1).1
  split_ifs with h3
  · refine mul_pos ?_ (Real.rpow_pos_of_pos (div_pos (by norm_num at q0; linarith) (by norm_num)) _)
    obtain ⟨l, u, e, hu⟩ := hq.last
    have h1m : (1 : ℝ) ∈ qv := by rw [e]; simp
    cases hz : (List.zip qv (List.zipWith (fun q h => power dq g qv q * (1 - t) + h * t) qv (heaviside dq qv))).find? fun z => decide (z.1 ≥ 0.3) with
    | none =>
      exfalso
      rw [List.find?_eq_none] at hz
      obtain ⟨k, hk⟩ := List.mem_iff_getElem?.1 h1m
      obtain ⟨hk1, hk2⟩ := List.getElem?_eq_some_iff.1 hk
      have hk3 : k < (List.zip qv (List.zipWith (fun q h => power dq g qv q * (1 - t) + h * t) qv (heaviside dq qv))).length := by
        simp [heaviside_length]; exact hk1
      have := hz _ (List.getElem_mem hk3)
      simp [List.getElem_zip, hk2] at this
      norm_num at this
    | some z =>
      have := List.mem_of_find?_eq_some hz
      exact hf _ (List.of_mem_zip this).2
  · exact hf y hy

theorem qDist_length (dq g s t : ℝ) (qv : List ℝ) : (qDist dq g s t qv).length = qv.length := by
  simp [qDist, heaviside_length]

/-! ### Ranges of the formulas -/

/-- **C91** The excess of twins lies between zero and one third, for primaries of 0.8 to 100 solar masses. -/
theorem C91_twin_range (m x p : ℝ) (h1 : -0.1 ≤ x) (h2 : x ≤ 2) : 0 ≤ fTwin m x p ∧ fTwin m x p ≤ 0.315 := by
  have hf : 0 ≤ 0.3 - 0.15 * x := by norm_num at *; linarith
  have hf2 : 0.3 - 0.15 * x ≤ 0.315 := by norm_num at *; linarith
  have hpt : (1.5 : ℝ) ≤ if m ≥ 6.5 then 1.5 else 8 - m := by
    split_ifs with h
    · exact le_rfl
    · rw [not_le] at h; norm_num at *; linarith
  unfold fTwin
  dsimp only
  generalize (if m ≥ 6.5 then (1.5 : ℝ) else 8 - m) = pt at *
  split_ifs with h3 h4
  · exact ⟨le_rfl, by norm_num⟩
  · exact ⟨hf, hf2⟩
  · rw [not_le] at h3 h4
    have hd : 0 < pt - 1 := by norm_num at hpt; linarith
    have t0 : 0 ≤ 1 - (p - 1) / (pt - 1) := by
      rw [sub_nonneg, div_le_one hd]; linarith
    have t1 : 1 - (p - 1) / (pt - 1) ≤ 1 := by
      have := div_nonneg (show 0 ≤ p - 1 by linarith) hd.le
      linarith
    exact ⟨mul_nonneg hf t0, (mul_le_of_le_one_right hf t1).trans hf2⟩

/-- **C91** The fraction of companions in the inner binary is a fraction. -/
theorem C91_inner_range (m p : ℝ) (hm : 0 ≤ m) : 0 ≤ probBin m p ∧ probBin m p ≤ 1 := by
  unfold probBin
  dsimp only
  by_cases hp : p ≤ 1.5
  · rw [if_pos hp]; norm_num
  · rw [if_neg hp]
    rw [not_le] at hp
    have := mul_nonneg (mul_nonneg (show (0 : ℝ) ≤ 0.11 by norm_num) (Real.rpow_nonneg (show 0 ≤ p - 1.5 by linarith) 1.43)) (Real.rpow_nonneg (show 0 ≤ m / 10 by positivity) 0.56)
    split_ifs with h
    · norm_num
    · exact ⟨(not_le.1 h).le, by linarith⟩

/-- **C91** The frequency of companions is positive at every period, for primaries of 0.8 solar masses and more. -/
theorem C91_frequency_pos (x p : ℝ) (hx : -0.1 ≤ x) : 0 < fLogP x p := by
  have h1 : 0 < fLe1 x := by unfold fLe1; norm_num at *; nlinarith [sq_nonneg (x + 2 / 7)]
  have h2 : 0 < f27 x - 0.0126 := by unfold f27; norm_num at *; nlinarith [sq_nonneg x]
  have h3 : 0 < f55 x := by unfold f55; norm_num at *; nlinarith [sq_nonneg (x - 5 / 8)]
  unfold fLogP
  by_cases a1 : p ≤ 1
  · rw [if_pos a1]; exact h1
  rw [if_neg a1]
  by_cases a2 : p ≤ 2.7 - 0.7
  · rw [if_pos a2]
    have e : fLe1 x + (f27 x - fLe1 x - 0.018 * 0.7) * (p - 1) / (1.7 - 0.7) = fLe1 x * (2 - p) + (f27 x - 0.0126) * (p - 1) := by norm_num; ring
    rw [e]
    rw [not_le] at a1
    have a2' : p ≤ 2 := by norm_num at a2; exact a2
    have := mul_pos h2 (show 0 < p - 1 by linarith)
    have := mul_nonneg h1.le (show 0 ≤ 2 - p by linarith)
    linarith
  rw [if_neg a2]
  by_cases a3 : p ≤ 2.7 + 0.7
  · rw [if_pos a3]
    rw [not_le] at a2
    norm_num at a2 h2 ⊢
    linarith
  rw [if_neg a3]
  by_cases a4 : p ≤ 5.5
  · rw [if_pos a4]
    have e : f27 x + 0.018 * 0.7 + (f55 x - f27 x - 0.018 * 0.7) * (p - 2.7 - 0.7) / (2.8 - 0.7) = (f27 x + 0.0126) * ((5.5 - p) / 2.1) + f55 x * ((p - 3.4) / 2.1) := by norm_num; ring
    rw [e]
    rw [not_le] at a3
    have := mul_pos h3 (show 0 < (p - 3.4) / 2.1 by norm_num at a3 ⊢; linarith)
    have := mul_nonneg (show 0 ≤ f27 x + 0.0126 by norm_num at h2 ⊢; linarith) (show 0 ≤ (5.5 - p) / 2.1 by norm_num at a4 ⊢; linarith)
    linarith
  rw [if_neg a4]
  exact mul_pos h3 (Real.exp_pos _)

/-- **C91** The pieces of the frequency of companions join without jumps. -/
theorem C91_frequency_continuous (x : ℝ) : Continuous (fLogP x) := by
  unfold fLogP
  refine Continuous.if_le (by fun_prop) (Continuous.if_le (by fun_prop) (Continuous.if_le (by fun_prop) (Continuous.if_le (by fun_prop) (by fun_prop) (by fun_prop) (by fun_prop) ?_) (by fun_prop) (by fun_prop) ?_) (by fun_prop) (by fun_prop) ?_) (by fun_prop) (by fun_prop) ?_
  · rintro p rfl; norm_num
  · intro p hp
    rw [if_pos (by rw [hp]; norm_num), hp]; norm_num
  · intro p hp
    rw [if_pos (by rw [hp]; norm_num), hp]; norm_num; ring
  · intro p hp
    rw [if_pos (by rw [hp]; norm_num), hp]; norm_num

/-- **C91** So do the pieces of the excess of twins, of the slopes of the mass ratios and of the fraction of inner binaries. -/
theorem C91_pieces_continuous (m x : ℝ) (hm : 0 ≤ m) : Continuous (fTwin m x) ∧ Continuous gl12 ∧ Continuous gl35 ∧ Continuous gl6 ∧ Continuous gs35 ∧ Continuous gs6 ∧ Continuous (probBin m) := by
  refine ⟨?_, ?_, ?_, ?_, ?_, ?_, ?_⟩
  · unfold fTwin
    dsimp only
    have hpt : (1 : ℝ) < if m ≥ 6.5 then 1.5 else 8 - m := by
      split_ifs with h
      · norm_num
      · rw [not_le] at h; norm_num at *; linarith
    generalize (if m ≥ 6.5 then (1.5 : ℝ) else 8 - m) = pt at *
    have hd : pt - 1 ≠ 0 := by linarith
    refine Continuous.if_le (by fun_prop) (Continuous.if_le (by fun_prop) (by fun_prop) (by fun_prop) (by fun_prop) ?_) (by fun_prop) (by fun_prop) ?_
    · rintro p rfl; simp
    · rintro p rfl
      rw [if_neg (not_le.2 hpt), div_self hd]; simp
  · have e : gl12 = fun p => if p ≤ 5 then -0.5 else -0.5 - 0.3 * (p - 5) := by
      funext p
      unfold gl12
      rcases lt_trichotomy p 5 with h | h | h
      · rw [if_pos h, if_pos h.le]
      · subst h; norm_num
      · rw [if_neg (not_lt.2 h.le), if_neg (not_le.2 h)]
    rw [e]
    exact Continuous.if_le (by fun_prop) (by fun_prop) (by fun_prop) (by fun_prop) (by rintro p rfl; norm_num)
  · unfold gl35
    refine Continuous.if_le (by fun_prop) (Continuous.if_le (by fun_prop) (Continuous.if_le (by fun_prop) (by fun_prop) (by fun_prop) (by fun_prop) ?_) (by fun_prop) (by fun_prop) ?_) (by fun_prop) (by fun_prop) ?_ <;>
    · rintro p rfl; norm_num
  · unfold gl6
    refine Continuous.if_le (by fun_prop) (Continuous.if_le (by fun_prop) (Continuous.if_le (by fun_prop) (by fun_prop) (by fun_prop) (by fun_prop) ?_) (by fun_prop) (by fun_prop) ?_) (by fun_prop) (by fun_prop) ?_ <;>
    · rintro p rfl; norm_num
  · unfold gs35
    refine Continuous.if_le (by fun_prop) (Continuous.if_le (by fun_prop) (by fun_prop) (by fun_prop) (by fun_prop) ?_) (by fun_prop) (by fun_prop) ?_ <;>
    · rintro p rfl; norm_num
  · unfold gs6
    refine Continuous.if_le (by fun_prop) (Continuous.if_le (by fun_prop) (Continuous.if_le (by fun_prop) (by fun_prop) (by fun_prop) (by fun_prop) ?_) (by fun_prop) (by fun_prop) ?_) (by fun_prop) (by fun_prop) ?_ <;>
    · rintro p rfl; norm_num
  · have hc : Continuous fun p : ℝ => (p - 1.5) ^ (1.43 : ℝ) := (continuous_id.sub continuous_const).rpow_const fun _ => Or.inr (by norm_num)
    have hf : Continuous fun p : ℝ => if p ≤ 1.5 then (1 : ℝ) else 1 - 0.11 * (p - 1.5) ^ (1.43 : ℝ) * (m / 10) ^ (0.56 : ℝ) := by
      refine Continuous.if_le (by fun_prop) (by fun_prop) (by fun_prop) (by fun_prop) ?_
      rintro p rfl
      rw [sub_self, Real.zero_rpow (by norm_num)]; simp
    unfold probBin
    dsimp only
    exact Continuous.if_le (by fun_prop) hf hf (by fun_prop) fun p hp => hp.symm

/-! ### Eccentricities -/

theorem lin_nonneg {x a b u : ℝ} (hab : a < b) (hu : 0 ≤ u) : 0 ≤ lin x a b u 0 := by
  unfold lin
  split_ifs with h1 h2
  · exact hu
  · exact le_rfl
  · rw [not_lt] at h1 h2
    have e : u + (0 - u) / (b - a) * (x - a) = u * ((b - x) / (b - a)) := by
      have : b - a ≠ 0 := by linarith
      field_simp; ring
    rw [e]
    exact mul_nonneg hu (div_nonneg (by linarith) (by linarith))

theorem eMax_pos {period : ℝ} (h : 2 < period) : 0 < eMax period := by
  unfold eMax
  have := Real.rpow_lt_one_of_one_lt_of_neg (show 1 < period / 2 by linarith) (show (-2 / 3 : ℝ) < 0 by norm_num)
  linarith

/-- The density of eccentricities: as many as the grid, never negative, zero from the largest one on. -/
theorem eDist_spec {et period : ℝ} {ev f : List ℝ} (h0 : ∀ e ∈ ev, 0 ≤ e) (h : eDist et period ev = .ok f) :
    f.length = ev.length ∧ (∀ x ∈ f, 0 ≤ x) ∧ (2 < period → ∀ (k : ℕ) (e x : ℝ), ev[k]? = some e → f[k]? = some x → 0 < x → e < eMax period) := by
  unfold eDist at h
  by_cases hp : period ≤ 2
  · rw [if_pos hp] at h
    cases h
    refine ⟨by simp, fun x hx => ?_, fun hp2 => absurd hp2 (not_lt.2 hp)⟩
    obtain ⟨e, he, rfl⟩ := List.mem_map.1 hx
    exact Real.rpow_nonneg (h0 e he) _
  rw [if_neg hp] at h
  have hm := eMax_pos (not_le.1 hp)
  dsimp only at h
  by_cases hany : (ev.any fun e => decide (0.8 * eMax period ≤ e ∧ e ≤ 1 * eMax period)) = true
  swap
  · rw [if_neg hany] at h; cases h
  rw [if_pos hany] at h
  have hfe : ∀ x ∈ ev.map fun e => if e ≥ eMax period then (0 : ℝ) else e ^ et, 0 ≤ x := by
    intro x hx
    obtain ⟨e, he, rfl⟩ := List.mem_map.1 hx
    split_ifs
    · exact le_rfl
    · exact Real.rpow_nonneg (h0 e he) _
  generalize hc : (if ev.findIdx (fun e => decide (0.8 * eMax period ≤ e ∧ e ≤ 1 * eMax period)) = 0 then (ev.map fun e => if e ≥ eMax period then (0 : ℝ) else e ^ et).getLastD 0
      else (ev.map fun e => if e ≥ eMax period then (0 : ℝ) else e ^ et).getD (ev.findIdx (fun e => decide (0.8 * eMax period ≤ e ∧ e ≤ 1 * eMax period)) - 1) 0) = c at h
  have hc0 : 0 ≤ c := by
    rw [← hc]
    split_ifs
    · rw [List.getLastD_eq_getLast?]
      cases hl : (ev.map fun e => if e ≥ eMax period then (0 : ℝ) else e ^ et).getLast? with
      | none => simp
      | some y => exact hfe y (List.mem_of_getLast? hl)
    · rw [List.getD_eq_getElem?_getD]
      cases hl : (ev.map fun e => if e ≥ eMax period then (0 : ℝ) else e ^ et)[ev.findIdx (fun e => decide (0.8 * eMax period ≤ e ∧ e ≤ 1 * eMax period)) - 1]? with
      | none => simp
      | some y => exact hfe y (List.mem_of_getElem? hl)
  cases h
  refine ⟨by simp, ?_, ?_⟩
  · intro x hx
    obtain ⟨e, he, y, hy, rfl⟩ := mem_zipWith hx
    split_ifs
    · exact lin_nonneg (by linarith) hc0
    · exact hfe y hy
  · intro _ k e x hk hx hx0
    rw [List.getElem?_zipWith, List.getElem?_map, hk] at hx
    simp only [Option.map_some, Option.some.injEq] at hx
    by_contra hge
    rw [not_lt] at hge
    rw [if_pos hge] at hx
    split_ifs at hx with hin
    · have hin' := of_decide_eq_true hin
      have he : e = 1 * eMax period := le_antisymm hin'.2 (by linarith)
      rw [he] at hx
      unfold lin at hx
      rw [if_neg (by linarith), if_neg (lt_irrefl _), div_mul_cancel₀ _ (by linarith)] at hx
      linarith
    · linarith

theorem eCum_spec {et period : ℝ} {ev c : List ℝ} (hv : ev.Pairwise (· < ·)) (h0 : ∀ e ∈ ev, 0 ≤ e) (h2 : 2 ≤ ev.length) (h : eCum et period ev = .ok c) {r : ℝ} (hr0 : 0 ≤ r) (hr1 : r < 1) :
    ev.headD 0 ≤ sample c ev r ∧ sample c ev r < ev.getLastD 0 ∧ (2 < period → sample c ev r < eMax period) := by
  unfold eCum at h
  cases hd : eDist et period ev with
  | error e => rw [hd] at h; simp at h
  | ok f =>
    rw [hd] at h
    dsimp only at h
    split_ifs at h with hs
    cases h
    obtain ⟨hl, hn, hmax⟩ := eDist_spec h0 hd
    cases f with
    | nil => rw [← hl] at h2; simp at h2
    | cons a l =>
      have hn' : ∀ x ∈ l, 0 ≤ x := fun x hx => hn x (by simp [hx])
      have hs' : 0 < l.sum := by
        refine lt_of_le_of_ne (List.sum_nonneg hn') fun h => hs ?_
        rw [cum_cons, cumFrom_last, ← h]; simp
      obtain ⟨k, x, y, u, w, hx, hy, hu, hw, hxr, hry, hlo, hhi⟩ := sample_between (normed (a :: l)) ev (by rw [normed_length, hl]) hv r
        ⟨0, normed_head a l, hr0⟩ (by rw [normed_last a l hs'.ne']; exact hr1)
      have hstep := normed_step hs' hx hy
      have hpos : 0 < (y - x) * l.sum := mul_pos (by linarith) hs'
      have hu1 : ev.headD 0 ≤ u := by
        cases ev with
        | nil => simp at h2
        | cons e0 ev =>
          rcases List.mem_cons.1 (List.mem_of_getElem? hu) with h | h
          · rw [h]; simp
          · exact ((List.pairwise_cons.1 hv).1 u h).le
      have hw1 : w ≤ ev.getLastD 0 := by
        obtain ⟨l', z, e'⟩ : ∃ l' z, ev = l' ++ [z] := ⟨ev.dropLast, ev.getLast (by rintro rfl; simp at h2), (List.dropLast_append_getLast _).symm⟩
        have hw2 := List.mem_of_getElem? hw
        rw [e'] at hw2 hv ⊢
        rw [List.pairwise_append] at hv
        rcases List.mem_append.1 hw2 with h | h
        · simpa using (hv.2.2 w h z (by simp)).le
        · simp at h; simp [h]
      exact ⟨hu1.trans hlo, hhi.trans_le hw1, fun hp => hhi.trans (hmax hp (k + 1) w _ hw hstep hpos)⟩

/-! ### The generator -/

theorem nearest_spec {v : List ℝ} (hv : v ≠ []) (x : ℝ) : ∃ y, v[nearest v x]? = some y ∧ y ∈ v ∧ ∀ z ∈ v, |x - y| ≤ |x - z| := by
  have hex : ∃ y ∈ v, ∀ z ∈ v, |x - y| ≤ |x - z| := by
    clear * - hv
    induction v with
    | nil => exact absurd rfl hv
    | cons a l ih =>
      by_cases hl : l = []
      · subst hl; exact ⟨a, by simp, by simp⟩
      · obtain ⟨y, hy, hz⟩ := ih hl
        rcases le_total |x - a| |x - y| with h | h
        · refine ⟨a, by simp, fun z hzm => ?_⟩
          rcases List.mem_cons.1 hzm with rfl | hzm
          · exact le_rfl
          · exact h.trans (hz z hzm)
        · refine ⟨y, by simp [hy], fun z hzm => ?_⟩
          rcases List.mem_cons.1 hzm with rfl | hzm
          · exact h
          · exact hz z hzm
  have hlt : nearest v x < v.length := by
    unfold nearest
    rw [List.findIdx_lt_length]
    obtain ⟨y, hy, hz⟩ := hex
    exact ⟨y, hy, by simpa using hz⟩
  refine ⟨v[nearest v x], List.getElem?_eq_getElem hlt, List.getElem_mem hlt, ?_⟩
  exact of_decide_eq_true (List.findIdx_getElem (w := hlt))

/-- The parts of the object. -/
structure Built (nM nP nq ne : ℕ) (pmin pmax : ℝ) (g : Gen) : Prop where
  m1v : g.m1v = (linspace (Real.logb 10 0.8) (Real.logb 10 40) nM).map fun x => (10 : ℝ) ^ x
  logPv : g.logPv = linspace (Real.logb 10 pmin) (Real.logb 10 pmax) nP
  qv : g.qv = linspace 0.1 1 nq
  ev : g.ev = (linspace 0 0.99 ne).map fun x => 0.0001 + x
  cumP : ∀ i m, g.m1v[i]? = some m → g.cumP i = pDist ((Real.logb 10 pmax - Real.logb 10 pmin) / ((nP : ℝ) - 1)) (g.logPv.map (pDensity ((1 - 0.1) / ((nq : ℝ) - 1)) g.qv m))
  sumP : ∀ m ∈ g.m1v, (cum (g.logPv.map (pDensity ((1 - 0.1) / ((nq : ℝ) - 1)) g.qv m))).getLastD 0 ≠ 0
  cumQ : ∀ i m j p, g.m1v[i]? = some m → g.logPv[j]? = some p → g.cumQ j i = normed (qAt ((1 - 0.1) / ((nq : ℝ) - 1)) g.qv m p)
  cumE : ∀ i m j p, g.m1v[i]? = some m → g.logPv[j]? = some p → eCum (eta m p) (10 ^ p) g.ev = .ok (g.cumE j i)

theorem built {nM nP nq ne : ℕ} {pmin pmax : ℝ} {g : Gen} (h : build nM nP nq ne pmin pmax = .ok g) : Built nM nP nq ne pmin pmax g := by
  unfold build at h
  dsimp only at h
  split_ifs at h with hsum hall
  cases h
  refine ⟨rfl, rfl, rfl, rfl, ?_, fun m hm h => hsum ⟨m, hm, h⟩, ?_, ?_⟩
  · intro i m hi
    dsimp only at hi ⊢
    rw [List.getD_eq_getElem?_getD, hi]; rfl
  · intro i m j p hi hj
    dsimp only at hi hj ⊢
    rw [List.getD_eq_getElem?_getD, List.getD_eq_getElem?_getD, hi, hj]; rfl
  · intro i m j p hi hj
    dsimp only at hi hj ⊢
    rw [List.getD_eq_getElem?_getD, List.getD_eq_getElem?_getD, hi, hj]
    obtain ⟨c, hc⟩ := hall m (List.mem_of_getElem? hi) p (List.mem_of_getElem? hj)
    simp only [Option.getD_some]
    rw [hc]; rfl

theorem logb_range {m : ℝ} {nM : ℕ} (hn : 2 ≤ nM) (hm : m ∈ (linspace (Real.logb 10 0.8) (Real.logb 10 40) nM).map fun x => (10 : ℝ) ^ x) :
    0 < m ∧ -0.1 ≤ Real.logb 10 m ∧ Real.logb 10 m ≤ 2 := by
  obtain ⟨x, hx, rfl⟩ := List.mem_map.1 hm
  have hle : Real.logb 10 0.8 ≤ Real.logb 10 40 := (Real.logb_le_logb (by norm_num) (by norm_num) (by norm_num)).2 (by norm_num)
  obtain ⟨h1, h2⟩ := linspace_mem hle hn hx
  have e : Real.logb 10 ((10 : ℝ) ^ x) = x := Real.logb_rpow (by norm_num) (by norm_num)
  rw [e]
  refine ⟨Real.rpow_pos_of_pos (by norm_num) _, ?_, ?_⟩
  · refine le_trans ?_ h1
    rw [Real.le_logb_iff_rpow_le (by norm_num) (by norm_num)]
    have h10 : ((10 : ℝ) ^ (-0.1 : ℝ)) ^ 10 ≤ 0.8 ^ 10 := by
      rw [← Real.rpow_natCast, ← Real.rpow_mul (by norm_num)]
      rw [show (-0.1 : ℝ) * ((10 : ℕ) : ℝ) = -1 by norm_num, Real.rpow_neg_one]
      norm_num
    exact le_of_pow_le_pow_left₀ (by norm_num) (by norm_num) h10
  · refine h2.trans ?_
    rw [Real.logb_le_iff_le_rpow (by norm_num) (by norm_num)]
    norm_num

theorem qAt_pos {dq : ℝ} (hd : 0 < dq) {qv : List ℝ} (hq : QGrid qv) {m p : ℝ} (h1 : -0.1 ≤ Real.logb 10 m) (h2 : Real.logb 10 m ≤ 2) : ∀ x ∈ qAt dq qv m p, 0 < x := by
  have ht := C91_twin_range m _ p h1 h2
  exact qDist_pos hd ht.1 (by have := ht.2; norm_num at this ⊢; linarith) hq

theorem qAt_length (dq : ℝ) (qv : List ℝ) (m p : ℝ) : (qAt dq qv m p).length = qv.length := qDist_length ..

/-- The density of periods is never negative, and positive wherever some companion is in the inner binary. -/
theorem pDensity_nonneg {dq : ℝ} (hd : 0 < dq) {qv : List ℝ} (hq : QGrid qv) {m p : ℝ} (h0 : 0 < m) (h1 : -0.1 ≤ Real.logb 10 m) (h2 : Real.logb 10 m ≤ 2) : 0 ≤ pDensity dq qv m p := by
  unfold pDensity
  refine mul_nonneg (mul_nonneg (C91_frequency_pos _ p h1).le (tab_nonneg hd.le _ fun x hx => (qAt_pos hd hq h1 h2 x hx).le)) (C91_inner_range m p h0.le).1

theorem cum_last_nonneg {f : List ℝ} (hn : ∀ x ∈ f, 0 ≤ x) : ∀ x ∈ normed f, 0 ≤ x ∧ x ≤ (normed f).getLastD 0 := by
  cases f with
  | nil => simp [normed, cum, cumFrom]
  | cons a l =>
    have hn' : ∀ x ∈ l, 0 ≤ x := fun x hx => hn x (by simp [hx])
    rcases (List.sum_nonneg hn').eq_or_lt with hs | hs
    · rw [normed_cons, ← hs]
      intro x hx
      obtain ⟨y, _, rfl⟩ := List.mem_map.1 hx
      rw [map_getLastD (fun x : ℝ => x / 0) (by simp)]
      simp
    · have hm := normed_mono (a := a) hs hn'
      have hh := normed_head a l
      have hl : normed (a :: l) ≠ [] := by intro h; rw [h] at hh; simp at hh
      intro x hx
      constructor
      · cases hc : normed (a :: l) with
        | nil => exact absurd hc hl
        | cons c0 c =>
          rw [hc] at hh hm hx
          simp at hh
          subst hh
          rcases List.mem_cons.1 hx with rfl | hx
          · exact le_rfl
          · exact (List.pairwise_cons.1 hm).1 x hx
      · have e := List.dropLast_append_getLast hl
        have hlast : (normed (a :: l)).getLastD 0 = (normed (a :: l)).getLast hl := by
          rw [List.getLastD_eq_getLast?, List.getLast?_eq_some_getLast hl]; rfl
        rw [hlast]
        rw [← e] at hx hm
        rw [List.pairwise_append] at hm
        rcases List.mem_append.1 hx with h | h
        · exact hm.2.2 x h _ (by simp)
        · simp at h; exact h.le

theorem lin_unit (x a b : ℝ) : 0 ≤ lin x a b 0 1 ∧ lin x a b 0 1 ≤ 1 := by
  unfold lin
  split_ifs with h1 h2
  · norm_num
  · norm_num
  · rw [not_lt] at h1 h2
    rcases (h1.trans h2).eq_or_lt with h | h
    · subst h; simp
    · have hd : 0 < b - a := by linarith
      rw [zero_add, sub_zero, one_div, inv_mul_eq_div]
      exact ⟨div_nonneg (by linarith) hd.le, by rw [div_le_one hd]; linarith⟩

/-- The cumulative distribution of periods of a star: from zero to the fraction of binaries. -/
structure PCum (c : List ℝ) (n : ℕ) : Prop where
  length : c.length = n
  head : c.head? = some 0
  range : ∀ x ∈ c, 0 ≤ x ∧ x ≤ c.getLastD 0

theorem pcum_scale {c : List ℝ} {n : ℕ} (h : PCum c n) {t : ℝ} (ht : 0 ≤ t) : PCum (c.map (· * t)) n := by
  refine ⟨by rw [List.length_map, h.length], by rw [List.head?_map, h.head]; simp, ?_⟩
  intro x hx
  obtain ⟨y, hy, rfl⟩ := List.mem_map.1 hx
  rw [map_getLastD (· * t) (by simp)]
  exact ⟨mul_nonneg (h.range y hy).1 ht, mul_le_mul_of_nonneg_right (h.range y hy).2 ht⟩

theorem pcum_normed {f : List ℝ} (hf : f ≠ []) (hn : ∀ x ∈ f, 0 ≤ x) : PCum (normed f) f.length := by
  refine ⟨normed_length f, ?_, cum_last_nonneg hn⟩
  cases f with
  | nil => exact absurd rfl hf
  | cons a l => exact normed_head a l

/-! ### Small masses -/

theorem normed_strict {a : ℝ} {l : List ℝ} (hs : 0 < l.sum) (hn : ∀ x ∈ l, 0 < x) : (normed (a :: l)).Pairwise (· < ·) := by
  have gen : ∀ (l : List ℝ) (s : ℝ), (∀ x ∈ l, 0 < x) → (s :: cumFrom s l).Pairwise (· < ·) := by
    intro l
    induction l with
    | nil => intro s _; simp [cumFrom]
    | cons b l ih =>
      intro s h
      have hb := h b (by simp)
      have := ih (s + b) fun x hx => h x (by simp [hx])
      simp only [cumFrom]
      rw [List.pairwise_cons]
      refine ⟨fun x hx => ?_, this⟩
      rcases List.mem_cons.1 hx with rfl | hx
      · linarith
      · exact (show s < s + b by linarith).trans ((List.pairwise_cons.1 this).1 x hx)
  rw [normed_cons, List.pairwise_map]
  exact (gen l 0 hn).imp fun h => div_lt_div_of_pos_right h hs

theorem sample_below {c v : List ℝ} {x y r : ℝ} (hc : c.head? = some x) (hv : v.head? = some y) (h : r < x) : sample c v r = y := by
  cases c with
  | nil => simp at hc
  | cons c0 c =>
    cases v with
    | nil => simp at hv
    | cons v0 v =>
      simp at hc hv
      subst hc hv
      unfold sample
      rw [show (c0 :: c).zip (v0 :: v) = (c0, v0) :: c.zip v from rfl]
      dsimp only
      unfold Interp.npInterp
      rw [if_pos h]
      rfl

/-- The cut distribution of mass ratios: entries, ends. -/
theorem lowMass_spec {qv : List ℝ} (hG : QGrid qv) {a : ℝ} {l : List ℝ} (hpos : ∀ x ∈ l, 0 < x) (hs : 0 < l.sum) (hl : l.length + 1 = qv.length) {qm : ℝ} (h1 : qm < 1) :
    (lowMass qv (normed (a :: l)) qm).length = qv.length ∧ (∃ x, (lowMass qv (normed (a :: l)) qm).head? = some x ∧ x ≤ 0) ∧ (lowMass qv (normed (a :: l)) qm).getLastD 0 = 1 ∧
      (∀ (k : ℕ) (q x : ℝ), qv[k]? = some q → (lowMass qv (normed (a :: l)) qm)[k]? = some x → (q ≤ qm → x = 0) ∧ (0.1 ≤ qm → qm < q → 0 < x)) := by
  have hlen : (normed (a :: l)).length = qv.length := by rw [normed_length]; simpa using hl
  obtain ⟨lq, u, hqv, hu⟩ := hG.last
  have hqlast : qv.getLastD 0 = 1 := by rw [hqv]; simp
  have hstrict := normed_strict (a := a) hs hpos
  have hnl := normed_last a l hs.ne'
  have hle1 : ∀ x ∈ normed (a :: l), x ≤ 1 := fun x hx => by
    rw [← hnl]
    have hmono := normed_mono (a := a) hs fun x hx => (hpos x hx).le
    obtain ⟨l', z, e'⟩ : ∃ l' z, normed (a :: l) = l' ++ [z] := ⟨_, _, (List.dropLast_append_getLast (by intro h; rw [h] at hlen; rw [← hl] at hlen; simp at hlen)).symm⟩
    rw [e'] at hx hmono ⊢
    rw [List.pairwise_append] at hmono
    rcases List.mem_append.1 hx with h | h
    · simpa using hmono.2.2 x h z (by simp)
    · simp at h; simp [h]
  have hc0 : sample qv (normed (a :: l)) qm < 1 ∧ (qm < 0.1 → sample qv (normed (a :: l)) qm = 0) ∧
      (0.1 ≤ qm → ∀ (k : ℕ) (q x : ℝ), qv[k]? = some q → (normed (a :: l))[k]? = some x → qm < q → sample qv (normed (a :: l)) qm < x) := by
    rcases lt_or_ge qm 0.1 with h | h
    · have e := sample_below (c := qv) (v := normed (a :: l)) hG.head (normed_head a l) h
      exact ⟨by rw [e]; norm_num, fun _ => e, fun h' => absurd h' (not_le.2 h)⟩
    · obtain ⟨k, A, B, c1, c2, hA, hB, hc1, hc2, hAq, hqB, hlo, hhi⟩ := sample_between qv (normed (a :: l)) hlen.symm hstrict qm ⟨0.1, hG.head, h⟩ (by rw [hqlast]; exact h1)
      refine ⟨hhi.trans_le (hle1 c2 (List.mem_of_getElem? hc2)), fun h' => absurd h (not_le.2 h'), fun _ k' q x hq hx hqm => ?_⟩
      have hinc := hG.incr
      rw [List.pairwise_iff_getElem] at hinc hstrict
      obtain ⟨i1, rfl⟩ := List.getElem?_eq_some_iff.1 hA
      obtain ⟨i2, rfl⟩ := List.getElem?_eq_some_iff.1 hq
      obtain ⟨i3, rfl⟩ := List.getElem?_eq_some_iff.1 hc2
      obtain ⟨i4, rfl⟩ := List.getElem?_eq_some_iff.1 hx
      have hkk : k < k' := by
        by_contra hn
        rw [not_lt] at hn
        rcases hn.eq_or_lt with h | h
        · subst h; linarith
        · have := hinc k' k i2 i1 h; linarith
      rcases (show k + 1 ≤ k' by omega).eq_or_lt with h | h
      · subst h; exact hhi
      · exact hhi.trans (hstrict (k + 1) k' i3 i4 h)
  set c0 := sample qv (normed (a :: l)) qm with hc0def
  have hD : ((normed (a :: l)).map (· - c0)).getLastD 0 = 1 - c0 := by
    have hne : normed (a :: l) ≠ [] := by intro h; rw [h] at hlen; rw [← hl] at hlen; simp at hlen
    rw [List.getLastD_eq_getLast?, List.getLast?_map, List.getLast?_eq_some_getLast hne]
    rw [List.getLastD_eq_getLast?, List.getLast?_eq_some_getLast hne] at hnl
    simp only [Option.getD_some, Option.map_some] at hnl ⊢
    rw [hnl]
  have hDpos : 0 < 1 - c0 := by linarith [hc0.1]
  have hget : ∀ (k : ℕ) (q x : ℝ), qv[k]? = some q → (lowMass qv (normed (a :: l)) qm)[k]? = some x → ∃ y, (normed (a :: l))[k]? = some y ∧ x = if q ≤ qm then 0 else (y - c0) / (1 - c0) := by
    intro k q x hq hx
    simp only [lowMass, ← hc0def, hD] at hx
    rw [List.getElem?_zipWith, hq, List.getElem?_map, List.getElem?_map] at hx
    cases hy : (normed (a :: l))[k]? with
    | none => rw [hy] at hx; simp at hx
    | some y =>
      rw [hy] at hx
      simp only [Option.map_some, Option.some.injEq] at hx
      exact ⟨y, rfl, hx.symm⟩
  have hlen' : (lowMass qv (normed (a :: l)) qm).length = qv.length := by simp [lowMass, hlen]
  refine ⟨hlen', ?_, ?_, ?_⟩
  · have hpos' : 0 < (lowMass qv (normed (a :: l)) qm).length := by rw [hlen', ← hl]; omega
    refine ⟨_, by rw [List.head?_eq_getElem?, List.getElem?_eq_getElem hpos'], ?_⟩
    obtain ⟨y, hy, e⟩ := hget 0 0.1 _ (by rw [← List.head?_eq_getElem?]; exact hG.head) (List.getElem?_eq_getElem hpos')
    rw [e]
    split_ifs with h
    · exact le_rfl
    · rw [← List.head?_eq_getElem?, normed_head a l] at hy
      rw [← Option.some.inj hy, hc0.2.1 (not_le.1 h)]
      simp
  · have hk : qv.length - 1 < (lowMass qv (normed (a :: l)) qm).length := by rw [hlen', ← hl]; omega
    have h2 : (lowMass qv (normed (a :: l)) qm).getLast? = (lowMass qv (normed (a :: l)) qm)[qv.length - 1]? := by
      rw [List.getLast?_eq_getElem?, hlen']
    rw [List.getLastD_eq_getLast?, h2, List.getElem?_eq_getElem hk]
    obtain ⟨y, hy, e⟩ := hget (qv.length - 1) 1 _ (by rw [← List.getLast?_eq_getElem?, hqv]; simp) (List.getElem?_eq_getElem hk)
    have hy1 : y = 1 := by
      rw [List.getLastD_eq_getLast?, List.getLast?_eq_getElem?, hlen, hy] at hnl
      exact hnl
    rw [e, if_neg (not_le.2 h1), hy1, div_self hDpos.ne']
    rfl
  · intro k q x hq hx
    obtain ⟨y, hy, e⟩ := hget k q x hq hx
    refine ⟨fun h => by rw [e, if_pos h], fun h h' => ?_⟩
    rw [e, if_neg (not_le.2 h')]
    exact div_pos (by linarith [hc0.2.2 h k q y hq hy h']) hDpos

section
variable {nM nP nq ne : ℕ} {pmin pmax : ℝ} {g : Gen}

theorem periods_pcum (hB : Built nM nP nq ne pmin pmax g) (hM : 2 ≤ nM) (hP : 2 ≤ nP) (hq : 3 ≤ nq) (h0 : 0 < pmin) (h1 : pmin < pmax) (m mMin : ℝ) : PCum (periods g m mMin) nP := by
  have hne : g.m1v ≠ [] := by
    intro h
    have := congrArg List.length hB.m1v
    rw [h] at this
    simp [linspace_length] at this
    omega
  obtain ⟨y, hy, hym, _⟩ := nearest_spec hne m
  have hr := logb_range hM (by rw [← hB.m1v]; exact hym)
  have hnq : (3 : ℝ) ≤ nq := by exact_mod_cast hq
  have hdq : (0 : ℝ) < (1 - 0.1) / ((nq : ℝ) - 1) := div_pos (by norm_num) (by linarith)
  have hlog : Real.logb 10 pmin < Real.logb 10 pmax := Real.logb_lt_logb (by norm_num) h0 h1
  have hnP : (2 : ℝ) ≤ nP := by exact_mod_cast hP
  have hdp : (0 : ℝ) < (Real.logb 10 pmax - Real.logb 10 pmin) / ((nP : ℝ) - 1) := div_pos (by linarith) (by linarith)
  have hQ : QGrid g.qv := by rw [hB.qv]; exact qgrid hq
  have hlen : g.logPv.length = nP := by rw [hB.logPv, linspace_length]
  have hn : ∀ x ∈ g.logPv.map (pDensity ((1 - 0.1) / ((nq : ℝ) - 1)) g.qv y), 0 ≤ x := by
    intro x hx
    obtain ⟨p, _, rfl⟩ := List.mem_map.1 hx
    exact pDensity_nonneg hdq hQ hr.1 hr.2.1 hr.2.2
  have hc : PCum (g.cumP (nearest g.m1v m)) nP := by
    rw [hB.cumP _ y hy]
    unfold pDist
    refine pcum_scale ?_ (tab_nonneg hdp.le _ hn)
    have := pcum_normed (f := g.logPv.map (pDensity ((1 - 0.1) / ((nq : ℝ) - 1)) g.qv y)) (by
      intro h
      have := congrArg List.length h
      simp [hlen] at this
      omega) hn
    rwa [List.length_map, hlen] at this
  unfold periods
  dsimp only
  split_ifs
  · exact pcum_scale hc (lin_unit _ _ _).1
  · exact hc

theorem last_of {l : List ℝ} {b : ℝ} : (l ++ [b]).getLastD 0 = b := by simp

/-- A value is drawn from the range of an increasing grid, whatever the random number. -/
theorem pcum_sample {c v : List ℝ} {a b : ℝ} (h : PCum c v.length) (hv : v.Pairwise (· < ·)) (hr : ∀ x ∈ v, a ≤ x ∧ x ≤ b) (hne : v ≠ []) {r : ℝ} (h0 : 0 ≤ r) : a ≤ sample c v r ∧ sample c v r ≤ b := by
  rcases lt_or_ge r (c.getLastD 0) with hlt | hge
  · obtain ⟨k, x, y, u, w, _, _, hu, hw, _, _, hlo, hhi⟩ := sample_between c v h.length hv r ⟨0, h.head, h0⟩ hlt
    exact ⟨(hr u (List.mem_of_getElem? hu)).1.trans hlo, hhi.le.trans (hr w (List.mem_of_getElem? hw)).2⟩
  · rw [sample_top c v h.length (fun x hx => (h.range x hx).2) r hge, List.getLastD_eq_getLast?, List.getLast?_eq_some_getLast hne]
    exact hr _ (List.getLast_mem hne)

theorem rpow_range {x p q : ℝ} (h0 : 0 < p) (hq : 0 < q) (h : Real.logb 10 p ≤ x ∧ x ≤ Real.logb 10 q) : p ≤ (10 : ℝ) ^ x ∧ (10 : ℝ) ^ x ≤ q :=
  ⟨(Real.logb_le_iff_le_rpow (by norm_num) h0).1 h.1, (Real.le_logb_iff_rpow_le (by norm_num) hq).1 h.2⟩

/-- The sampled logarithm of the period. -/
noncomputable def drawnP (g : Gen) (m mMin r : ℝ) : ℝ := sample (periods g m mMin) g.logPv r

theorem call_some {m mMin : ℝ} {all : Bool} {r rE rQ rZ m2 P e z : ℝ} (h : call g m mMin all r rE rQ rZ = (some (m2, P, e), z)) :
    (r < if all then 1 else (periods g m mMin).getLastD 0) ∧ P = 10 ^ drawnP g m mMin r ∧
    e = sample (g.cumE (nearest g.logPv (drawnP g m mMin r)) (nearest g.m1v m)) g.ev rE ∧
    m2 = m * sample (if m < 0.8 then lowMass g.qv (g.cumQ (nearest g.logPv (drawnP g m mMin r)) (nearest g.m1v m)) (mMin / m) else g.cumQ (nearest g.logPv (drawnP g m mMin r)) (nearest g.m1v m)) g.qv rQ := by
  unfold call at h
  dsimp only at h
  by_cases hr : r < if all = true then 1 else (periods g m mMin).getLastD 0
  · rw [if_pos hr] at h
    have h' := Option.some.inj (congrArg Prod.fst h)
    exact ⟨hr, (congrArg (fun t => t.2.1) h').symm, (congrArg (fun t => t.2.2) h').symm, (congrArg (fun t => t.1) h').symm⟩
  · rw [if_neg hr] at h
    simp at h

/-- **C91** Whatever the random numbers: the period of a binary lies between the limits the user gave, the eccentricity on its grid and, for periods
above two days, below the one at which the stars would overflow their Roche lobes at periastron, for the period of the grid nearest to the
one drawn. -/
theorem C91_orbit (hb : build nM nP nq ne pmin pmax = .ok g) (hM : 2 ≤ nM) (hP : 2 ≤ nP) (hq : 3 ≤ nq) (he : 2 ≤ ne) (h0 : 0 < pmin) (h1 : pmin < pmax)
    {m mMin : ℝ} {all : Bool} {r rE rQ rZ m2 P e z : ℝ} (hr : 0 ≤ r) (hE : 0 ≤ rE ∧ rE < 1) (h : call g m mMin all r rE rQ rZ = (some (m2, P, e), z)) :
    (pmin ≤ P ∧ P ≤ pmax) ∧ (0.0001 ≤ e ∧ e < 0.9901) ∧
      ∃ p ∈ g.logPv, (∀ p' ∈ g.logPv, |Real.logb 10 P - p| ≤ |Real.logb 10 P - p'|) ∧ ((10 : ℝ) ^ p > 2 → e < 1 - ((10 : ℝ) ^ p / 2) ^ (-2 / 3 : ℝ)) := by
  have hB := built hb
  obtain ⟨-, hPe, hee, -⟩ := call_some h
  have hlog : Real.logb 10 pmin < Real.logb 10 pmax := Real.logb_lt_logb (by norm_num) h0 h1
  have hlen : g.logPv.length = nP := by rw [hB.logPv, linspace_length]
  have hneP : g.logPv ≠ [] := by intro h; rw [h] at hlen; simp at hlen; omega
  have hneM : g.m1v ≠ [] := by
    intro h
    have := congrArg List.length hB.m1v
    rw [h] at this
    simp [linspace_length] at this
    omega
  have hc := periods_pcum hB hM hP hq h0 h1 m mMin
  rw [← hlen] at hc
  have hp := pcum_sample (a := Real.logb 10 pmin) (b := Real.logb 10 pmax) hc (by rw [hB.logPv]; exact linspace_incr hlog hP)
    (by rw [hB.logPv]; exact fun x hx => linspace_mem hlog.le hP hx) hneP hr
  refine ⟨by rw [hPe]; exact rpow_range h0 (h0.trans h1) hp, ?_⟩
  obtain ⟨p, hpj, hpm, hpn⟩ := nearest_spec hneP (drawnP g m mMin r)
  obtain ⟨y, hy, hym, -⟩ := nearest_spec hneM m
  have hcum := hB.cumE _ y _ p hy hpj
  have hevlen : g.ev.length = ne := by rw [hB.ev, List.length_map, linspace_length]
  have hev : g.ev.Pairwise (· < ·) := by
    rw [hB.ev, List.pairwise_map]
    exact (linspace_incr (by norm_num) he).imp fun h => by linarith
  have hev0 : ∀ e ∈ g.ev, 0 ≤ e := by
    rw [hB.ev]
    intro e hem
    obtain ⟨x, hx, rfl⟩ := List.mem_map.1 hem
    have := (linspace_mem (by norm_num) he hx).1
    norm_num at this ⊢
    linarith
  obtain ⟨e1, e2, e3⟩ := eCum_spec hev hev0 (by omega) hcum hE.1 hE.2
  rw [← hee] at e1 e2 e3
  have hhead : g.ev.headD 0 = 0.0001 := by
    obtain ⟨l, hl⟩ := linspace_cons 0 0.99 (ne - 1)
    rw [show ne - 1 + 1 = ne by omega] at hl
    rw [hB.ev, hl]
    simp
  have hlast : g.ev.getLastD 0 = 0.9901 := by
    obtain ⟨l, hl⟩ := linspace_last 0 0.99 he
    rw [hB.ev, hl, List.map_append, List.map_singleton, last_of]
    norm_num
  rw [hhead] at e1
  rw [hlast] at e2
  refine ⟨⟨e1, e2⟩, p, hpm, ?_, fun hp2 => e3 hp2⟩
  have : Real.logb 10 P = drawnP g m mMin r := by rw [hPe]; exact Real.logb_rpow (by norm_num) (by norm_num)
  rw [this]
  exact hpn

theorem qCum (hB : Built nM nP nq ne pmin pmax g) (hM : 2 ≤ nM) (hq : 3 ≤ nq) {i j : ℕ} {y p : ℝ} (hy : g.m1v[i]? = some y) (hp : g.logPv[j]? = some p) :
    ∃ a l, g.cumQ j i = normed (a :: l) ∧ (∀ x ∈ l, 0 < x) ∧ 0 < l.sum ∧ l.length + 1 = g.qv.length := by
  have hr := logb_range hM (by rw [← hB.m1v]; exact List.mem_of_getElem? hy)
  have hnq : (3 : ℝ) ≤ nq := by exact_mod_cast hq
  have hdq : (0 : ℝ) < (1 - 0.1) / ((nq : ℝ) - 1) := div_pos (by norm_num) (by linarith)
  have hQ : QGrid g.qv := by rw [hB.qv]; exact qgrid hq
  have hlen : g.qv.length = nq := by rw [hB.qv, linspace_length]
  have hpos := qAt_pos (p := p) hdq hQ hr.2.1 hr.2.2
  have hl := qAt_length ((1 - 0.1) / ((nq : ℝ) - 1)) g.qv y p
  rw [hB.cumQ _ y _ p hy hp]
  cases hc : qAt ((1 - 0.1) / ((nq : ℝ) - 1)) g.qv y p with
  | nil => rw [hc, hlen] at hl; simp at hl; omega
  | cons a l =>
    rw [hc] at hl hpos
    have hpos' : ∀ x ∈ l, 0 < x := fun x hx => hpos x (by simp [hx])
    refine ⟨a, l, rfl, hpos', ?_, by simpa using hl⟩
    cases l with
    | nil => simp [hlen] at hl; omega
    | cons b l =>
      exact lt_of_lt_of_le (hpos' b (by simp)) (List.single_le_sum (fun x hx => (hpos' x hx).le) b (by simp))

theorem grids_ne (hB : Built nM nP nq ne pmin pmax g) (hM : 2 ≤ nM) (hP : 2 ≤ nP) : g.m1v ≠ [] ∧ g.logPv ≠ [] := by
  constructor
  · intro h
    have := congrArg List.length hB.m1v
    rw [h] at this
    simp [linspace_length] at this
    omega
  · intro h
    have := congrArg List.length hB.logPv
    rw [h, linspace_length] at this
    simp at this
    omega

/-- **C91** The secondary of a primary of 0.8 solar masses or more has between a tenth of its mass and its mass. -/
theorem C91_secondary (hb : build nM nP nq ne pmin pmax = .ok g) (hM : 2 ≤ nM) (hP : 2 ≤ nP) (hq : 3 ≤ nq)
    {m mMin : ℝ} {all : Bool} {r rE rQ rZ m2 P e z : ℝ} (hm : 0.8 ≤ m) (hQ : 0 ≤ rQ ∧ rQ < 1) (h : call g m mMin all r rE rQ rZ = (some (m2, P, e), z)) :
    0.1 * m ≤ m2 ∧ m2 < m := by
  have hB := built hb
  obtain ⟨-, -, -, hm2⟩ := call_some h
  rw [if_neg (not_lt.2 hm)] at hm2
  obtain ⟨hneM, hneP⟩ := grids_ne hB hM hP
  obtain ⟨p, hpj, -, -⟩ := nearest_spec hneP (drawnP g m mMin r)
  obtain ⟨y, hy, -, -⟩ := nearest_spec hneM m
  obtain ⟨a, l, hc, hpos, hs, hl⟩ := qCum hB hM hq hy hpj
  have hG : QGrid g.qv := by rw [hB.qv]; exact qgrid hq
  rw [hc] at hm2
  obtain ⟨k, x, y', u, w, _, _, hu, hw, _, _, hlo, hhi⟩ := sample_between (normed (a :: l)) g.qv (by rw [normed_length]; simpa using hl) hG.incr rQ
    ⟨0, normed_head a l, hQ.1⟩ (by rw [normed_last a l hs.ne']; exact hQ.2)
  have hu' := (hG.pos u (List.mem_of_getElem? hu)).1
  have hw' := (hG.pos w (List.mem_of_getElem? hw)).2
  have hm0 : 0 < m := by norm_num at hm; linarith
  rw [hm2]
  constructor
  · rw [mul_comm]; exact mul_le_mul_of_nonneg_left (hu'.trans hlo) hm0.le
  · have := mul_lt_mul_of_pos_left (hhi.trans_le hw') hm0
    linarith

/-- **C91** Above 0.8 solar masses, when binaries are not asked for, a star has a companion exactly if the random number is below the integral of the density over
the periods. -/
theorem C91_fraction (hb : build nM nP nq ne pmin pmax = .ok g) (hM : 2 ≤ nM) (hP : 2 ≤ nP) (hq : 3 ≤ nq) {m mMin r rE rQ rZ : ℝ} (hm : 0.8 < m) :
    ∃ y ∈ g.m1v, (∀ y' ∈ g.m1v, |m - y| ≤ |m - y'|) ∧
      ((call g m mMin false r rE rQ rZ).1.isSome ↔
        r < tab ((Real.logb 10 pmax - Real.logb 10 pmin) / ((nP : ℝ) - 1)) (g.logPv.map (pDensity ((1 - 0.1) / ((nq : ℝ) - 1)) g.qv y))) := by
  have hB := built hb
  obtain ⟨hneM, hneP⟩ := grids_ne hB hM hP
  obtain ⟨y, hy, hym, hyn⟩ := nearest_spec hneM m
  refine ⟨y, hym, hyn, ?_⟩
  have hlast : (periods g m mMin).getLastD 0 = tab ((Real.logb 10 pmax - Real.logb 10 pmin) / ((nP : ℝ) - 1)) (g.logPv.map (pDensity ((1 - 0.1) / ((nq : ℝ) - 1)) g.qv y)) := by
    unfold periods
    dsimp only
    rw [if_neg (not_le.2 hm), hB.cumP _ y hy]
    unfold pDist
    have hsum := hB.sumP y hym
    generalize g.logPv.map (pDensity ((1 - 0.1) / ((nq : ℝ) - 1)) g.qv y) = f at *
    cases f with
    | nil => simp [cum, cumFrom] at hsum
    | cons a l =>
      rw [cum_cons, cumFrom_last, zero_add] at hsum
      rw [map_getLastD (· * _) (by simp), normed_last a l hsum, one_mul]
  unfold call
  simp only [Bool.false_eq_true, if_false]
  rw [hlast]
  split_ifs with h <;> simp [h]

/-- **C91** The metallicity drawn lies between one two-hundredth and one and a half times that of the Sun. -/
theorem C91_metallicity (g : Gen) (m mMin : ℝ) (all : Bool) (r rE rQ rZ : ℝ) (hZ : 0 ≤ rZ ∧ rZ < 1) :
    0.02 * (10 : ℝ) ^ (-2.3 : ℝ) ≤ (call g m mMin all r rE rQ rZ).2 ∧ (call g m mMin all r rE rQ rZ).2 < 0.02 * (10 : ℝ) ^ (0.176 : ℝ) := by
  have e : (call g m mMin all r rE rQ rZ).2 = 0.02 * (10 : ℝ) ^ (-2.3 + (0.176 - -2.3) * rZ) := by
    unfold call
    dsimp only
    split_ifs <;> rfl
  rw [e]
  constructor
  · refine mul_le_mul_of_nonneg_left ((Real.rpow_le_rpow_left_iff (by norm_num)).2 ?_) (by norm_num)
    have := mul_nonneg (show (0 : ℝ) ≤ 0.176 - -2.3 by norm_num) hZ.1
    linarith
  · refine mul_lt_mul_of_pos_left ((Real.rpow_lt_rpow_left_iff (by norm_num)).2 ?_) (by norm_num)
    have := mul_lt_mul_of_pos_left hZ.2 (show (0 : ℝ) < 0.176 - -2.3 by norm_num)
    norm_num at this ⊢
    linarith

/-! ### What goes wrong -/

/-- **C91** With only binaries asked for, which is the default, every random number above the fraction of binaries of the star gives the longest period. -/
theorem C91_all_binaries (hb : build nM nP nq ne pmin pmax = .ok g) (hM : 2 ≤ nM) (hP : 2 ≤ nP) (hq : 3 ≤ nq) (h0 : 0 < pmin) (h1 : pmin < pmax)
    {m mMin r rE rQ rZ : ℝ} (hr1 : r < 1) (hr : (periods g m mMin).getLastD 0 ≤ r) :
    ∃ m2 e z, call g m mMin true r rE rQ rZ = (some (m2, pmax, e), z) := by
  have hB := built hb
  have hlen : g.logPv.length = nP := by rw [hB.logPv, linspace_length]
  have hc := periods_pcum hB hM hP hq h0 h1 m mMin
  have hp : sample (periods g m mMin) g.logPv r = Real.logb 10 pmax := by
    rw [sample_top _ _ (hc.length.trans hlen.symm) (fun x hx => (hc.range x hx).2) r hr, hB.logPv]
    obtain ⟨l, hl⟩ := linspace_last (Real.logb 10 pmin) (Real.logb 10 pmax) hP
    rw [hl, last_of]
  unfold call
  simp only [if_true]
  rw [if_pos hr1]
  have : (10 : ℝ) ^ sample (periods g m mMin) g.logPv r = pmax := by
    rw [hp]; exact Real.rpow_logb (by norm_num) (by norm_num) (h0.trans h1)
  exact ⟨_, _, _, by rw [this]⟩

/-- **C91** In particular stars of the smallest mass all get the longest period, so the periods are not distributed as the density says. -/
theorem C91_all_binaries_violated (hb : build nM nP nq ne pmin pmax = .ok g) (hM : 2 ≤ nM) (hP : 2 ≤ nP) (hq : 3 ≤ nq) (h0 : 0 < pmin) (h1 : pmin < pmax)
    {m : ℝ} (hm0 : 0 < m) (hm : m < 0.8) : ∀ r rE rQ rZ : ℝ, 0 ≤ r → r < 1 → ∃ m2 e z, call g m m true r rE rQ rZ = (some (m2, pmax, e), z) := by
  intro r rE rQ rZ hr0 hr1
  refine C91_all_binaries hb hM hP hq h0 h1 hr1 ?_
  have hlt : Real.logb 10 m < Real.logb 10 0.8 := Real.logb_lt_logb (by norm_num) hm0 hm
  have : lin (Real.logb 10 m) (Real.logb 10 m) (Real.logb 10 0.8) 0 1 = 0 := by
    unfold lin
    rw [if_neg (lt_irrefl _), if_neg (not_lt.2 hlt.le)]
    simp
  unfold periods
  dsimp only
  rw [if_pos hm.le, this, map_getLastD (· * (0 : ℝ)) (by simp)]
  simpa using hr0

/-- **C91** A shortest period a little above two days makes the construction fail. -/
theorem C91_narrow_violated (hM : 1 ≤ nM) (hP : 1 ≤ nP) (he : 2 ≤ ne) (g : Gen) : build nM nP nq ne 2.0001 pmax ≠ .ok g := by
  intro hb
  have hB := built hb
  obtain ⟨lP, hlP⟩ := linspace_cons (Real.logb 10 2.0001) (Real.logb 10 pmax) (nP - 1)
  rw [show nP - 1 + 1 = nP by omega, ← hB.logPv] at hlP
  obtain ⟨lM, hlM⟩ := linspace_cons (Real.logb 10 0.8) (Real.logb 10 40) (nM - 1)
  rw [show nM - 1 + 1 = nM by omega] at hlM
  have hc := hB.cumE 0 ((10 : ℝ) ^ Real.logb 10 0.8) 0 (Real.logb 10 2.0001) (by rw [hB.m1v, hlM]; rfl) (by rw [hlP]; rfl)
  rw [show (10 : ℝ) ^ Real.logb 10 2.0001 = 2.0001 from Real.rpow_logb (by norm_num) (by norm_num) (by norm_num)] at hc
  have hem : eMax 2.0001 < 0.0001 := by
    unfold eMax
    have h1 : ((2.0001 : ℝ) / 2) ^ (-1 : ℝ) ≤ (2.0001 / 2) ^ (-2 / 3 : ℝ) := Real.rpow_le_rpow_of_exponent_le (by norm_num) (by norm_num)
    rw [Real.rpow_neg_one] at h1
    norm_num at h1 ⊢
    linarith
  have herr : eDist (eta ((10 : ℝ) ^ Real.logb 10 0.8) (Real.logb 10 2.0001)) 2.0001 g.ev = .error .value := by
    unfold eDist
    rw [if_neg (by norm_num)]
    dsimp only
    rw [if_neg]
    simp only [List.any_eq_true, decide_eq_true_eq, not_exists, not_and]
    intro e hem' h8 h9
    rw [hB.ev] at hem'
    obtain ⟨x, hx, rfl⟩ := List.mem_map.1 hem'
    have := (linspace_mem (by norm_num) he hx).1
    linarith
  unfold eCum at hc
  rw [herr] at hc
  simp at hc

/-- **C91** Below 0.8 solar masses the smallest mass is not respected: the random number zero gives a secondary lighter than it, unless the ratio of the masses is on
the grid. -/
theorem C91_smallest_mass_violated (hb : build nM nP nq ne pmin pmax = .ok g) (hM : 2 ≤ nM) (hP : 2 ≤ nP) (hq : 3 ≤ nq)
    {m mMin : ℝ} {all : Bool} {r rE rZ m2 P e z : ℝ} (hm0 : 0 < m) (hm : m < 0.8) (h1 : 0.1 < mMin / m) (h2 : mMin < m) (hng : mMin / m ∉ g.qv)
    (h : call g m mMin all r rE 0 rZ = (some (m2, P, e), z)) : m2 < mMin := by
  have hB := built hb
  obtain ⟨-, -, -, hm2⟩ := call_some h
  rw [if_pos hm] at hm2
  obtain ⟨hneM, hneP⟩ := grids_ne hB hM hP
  obtain ⟨p, hpj, -, -⟩ := nearest_spec hneP (drawnP g m mMin r)
  obtain ⟨y, hy, -, -⟩ := nearest_spec hneM m
  obtain ⟨a, l, hc, hpos, hs, hl⟩ := qCum hB hM hq hy hpj
  have hG : QGrid g.qv := by rw [hB.qv]; exact qgrid hq
  rw [hc] at hm2
  have hq1 : mMin / m < 1 := by rw [div_lt_one hm0]; exact h2
  obtain ⟨hlen, hhead, hlast, hent⟩ := lowMass_spec hG (a := a) hpos hs hl hq1
  obtain ⟨k, x, y', u, w, hx, hy', hu, hw, hxr, hry, hval⟩ := sample_bracket _ g.qv hlen 0 hhead (by rw [hlast]; norm_num)
  have hle : u ≤ mMin / m := by
    by_contra hn
    have := (hent k u x hu hx).2 h1.le (not_le.1 hn)
    linarith
  have hx0 := (hent k u x hu hx).1 hle
  rw [hval, hx0] at hm2
  have hlt : u < mMin / m := lt_of_le_of_ne hle fun h => hng (h ▸ List.mem_of_getElem? hu)
  rw [hm2, sub_self, mul_zero, add_zero]
  rw [lt_div_iff₀ hm0] at hlt
  linarith

/-- **C91** It still has between a tenth of the mass of the primary and its mass. -/
theorem C91_small_secondary (hb : build nM nP nq ne pmin pmax = .ok g) (hM : 2 ≤ nM) (hP : 2 ≤ nP) (hq : 3 ≤ nq)
    {m mMin : ℝ} {all : Bool} {r rE rQ rZ m2 P e z : ℝ} (hm0 : 0 < m) (hm : m < 0.8) (h2 : mMin < m) (hQ : 0 ≤ rQ ∧ rQ < 1)
    (h : call g m mMin all r rE rQ rZ = (some (m2, P, e), z)) : 0.1 * m ≤ m2 ∧ m2 < m := by
  have hB := built hb
  obtain ⟨-, -, -, hm2⟩ := call_some h
  rw [if_pos hm] at hm2
  obtain ⟨hneM, hneP⟩ := grids_ne hB hM hP
  obtain ⟨p, hpj, -, -⟩ := nearest_spec hneP (drawnP g m mMin r)
  obtain ⟨y, hy, -, -⟩ := nearest_spec hneM m
  obtain ⟨a, l, hc, hpos, hs, hl⟩ := qCum hB hM hq hy hpj
  have hG : QGrid g.qv := by rw [hB.qv]; exact qgrid hq
  rw [hc] at hm2
  have hq1 : mMin / m < 1 := by rw [div_lt_one hm0]; exact h2
  obtain ⟨hlen, ⟨x0, hx0, hx00⟩, hlast, hent⟩ := lowMass_spec hG (a := a) hpos hs hl hq1
  obtain ⟨k, x, y', u, w, hx, hy', hu, hw, hxr, hry, hlo, hhi⟩ := sample_between _ g.qv hlen hG.incr rQ ⟨x0, hx0, hx00.trans hQ.1⟩ (by rw [hlast]; exact hQ.2)
  have hu' := (hG.pos u (List.mem_of_getElem? hu)).1
  have hw' := (hG.pos w (List.mem_of_getElem? hw)).2
  rw [hm2]
  constructor
  · rw [mul_comm]; exact mul_le_mul_of_nonneg_left (hu'.trans hlo) hm0.le
  · have := mul_lt_mul_of_pos_left (hhi.trans_le hw') hm0
    linarith

/-! ### Use by the generator of populations -/

/-- **C91** The generator is made once in a process: a second population with other limits of the period gets the generator of the first one. -/
theorem C91_held_violated {P G : Type} (make : P → G) (p p' : P) : (generator make (generator make none p).2 p').1 = make p := rfl

/-- **C91** If the masses of the secondaries or the eccentricities come from this distribution, periods are handed over also where separations are asked for. -/
theorem C91_separation_violated {A : Type} (s : Schemes) (h : s.secondary = true ∨ s.eccentricity = true) (moe seps pers : A) :
    handedOver .separation s moe seps pers = moe := by
  unfold handedOver uses
  rcases h with h | h <;> simp [h]

/-- The generator is used only if some scheme asks for it. -/
theorem C91_not_used {A : Type} (o : Orbit) (moe seps pers : A) : handedOver o ⟨false, false, false⟩ moe seps pers = match o with | .separation => seps | .period => pers := by
  cases o <;> rfl

theorem sum_tail_pos {f : List ℝ} (h : ∀ x ∈ f, 0 < x) (hl : 2 ≤ f.length) : (cum f).getLastD 0 ≠ 0 := by
  match f, hl with
  | a :: b :: l, _ =>
    rw [cum_cons, cumFrom_last, zero_add]
    have : 0 < (b :: l).sum := lt_of_lt_of_le (h b (by simp)) (List.single_le_sum (fun x hx => (h x (by simp [hx])).le) b (by simp))
    exact this.ne'

/-- **C91** For periods up to two days the object is always made: the theorems above speak about something. -/
theorem C91_close_built (hM : 2 ≤ nM) (hP : 2 ≤ nP) (hq : 3 ≤ nq) (he : 2 ≤ ne) (h0 : 0 < pmin) (h1 : pmin < pmax) (h2 : pmax ≤ 2) : ∃ g, build nM nP nq ne pmin pmax = .ok g := by
  have hlog : Real.logb 10 pmin < Real.logb 10 pmax := Real.logb_lt_logb (by norm_num) h0 h1
  have hnq : (3 : ℝ) ≤ nq := by exact_mod_cast hq
  have hdq : (0 : ℝ) < (1 - 0.1) / ((nq : ℝ) - 1) := div_pos (by norm_num) (by linarith)
  unfold build
  dsimp only
  rw [if_neg, if_pos]
  · exact ⟨_, rfl⟩
  · intro m _ p hp
    have hp2 : (10 : ℝ) ^ p ≤ 2 := (rpow_range h0 (h0.trans h1) (linspace_mem hlog.le hP hp)).2.trans h2
    refine ⟨normed (((linspace 0 0.99 ne).map fun x => 0.0001 + x).map (· ^ (-3.2 : ℝ))), ?_⟩
    unfold eCum eDist
    rw [if_pos hp2]
    dsimp only
    rw [if_neg]
    refine sum_tail_pos ?_ (by simp [linspace_length]; exact he)
    intro x hx
    obtain ⟨e, hem, rfl⟩ := List.mem_map.1 hx
    obtain ⟨y, hy, rfl⟩ := List.mem_map.1 hem
    have := (linspace_mem (by norm_num) he hy).1
    exact Real.rpow_pos_of_pos (by norm_num at this ⊢; linarith) _
  · rintro ⟨m, hm, hsum⟩
    refine sum_tail_pos ?_ (by simp [linspace_length]; exact hP) hsum
    intro x hx
    obtain ⟨p, hp, rfl⟩ := List.mem_map.1 hx
    have hr := logb_range hM hm
    have hp1 : p ≤ 1.5 := by
      have h3 : Real.logb 10 pmax ≤ 1 := by
        rw [Real.logb_le_iff_le_rpow (by norm_num) (h0.trans h1)]
        norm_num; linarith
      have := (linspace_mem hlog.le hP hp).2
      norm_num; linarith
    have hpb : probBin m p = 1 := by
      unfold probBin
      dsimp only
      rw [if_pos hp1, if_neg (by norm_num)]
    unfold pDensity
    rw [hpb, mul_one]
    have hpos := qAt_pos (p := p) hdq (qgrid hq) hr.2.1 hr.2.2
    refine mul_pos (C91_frequency_pos _ p hr.2.1) (tab_pos hdq _ (fun x hx => (hpos x hx).le) (by rw [qAt_length, linspace_length]; omega) ?_)
    have hne : qAt ((1 - 0.1) / ((nq : ℝ) - 1)) (linspace 0.1 1 nq) m p ≠ [] := by
      intro h
      have := congrArg List.length h
      rw [qAt_length, linspace_length] at this
      simp at this; omega
    rw [List.getLastD_eq_getLast?, List.getLast?_eq_some_getLast hne]
    exact hpos _ (List.getLast_mem hne)

example : tab 1 [1, 1, 1, 1, 1, 1, 1] = 6 := by simp [tab]; norm_num

example : normed [3, 1, 1, 2] = [0, 1 / 4, 1 / 2, 1] := by simp [normed, cum, cumFrom]; norm_num

example : fTwin 8 0.9 0.5 ≠ 0 ∧ fTwin 8 0.9 2 = 0 := by constructor <;> · unfold fTwin; norm_num

example : sample [0, 1 / 4, 1 / 4, 1] [1, 2, 3, 4] (1 / 4) = 3 := by
  simp [sample, Interp.npInterp, Interp.seg]; norm_num

end

end Verif.Moe
