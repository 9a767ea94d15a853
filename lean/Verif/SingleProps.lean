import Verif.Chars
import Verif.Single
import Mathlib.Tactic.LinearCombination
/-!
C90: tracks, final values and profiles of single stars are interpolated between the neighbours in mass.
-/
namespace Verif.Single
open Classical

/-! ### Neighbours -/

theorem below_some {ms : List ℝ} {m a : ℝ} : below ms m = some a ↔ (a ∈ ms ∧ a < m) ∧ ∀ x ∈ ms, x < m → x ≤ a := by
  unfold below
  rw [List.max?_eq_some_iff]
  simp only [List.mem_filter, decide_eq_true_eq]
  constructor
  · rintro ⟨h1, h2⟩
    exact ⟨h1, fun x hx hm => h2 x ⟨hx, hm⟩⟩
  · rintro ⟨h1, h2⟩
    exact ⟨h1, fun x hx => h2 x hx.1 hx.2⟩

theorem above_some {ms : List ℝ} {m a : ℝ} : above ms m = some a ↔ (a ∈ ms ∧ m < a) ∧ ∀ x ∈ ms, m < x → a ≤ x := by
  unfold above
  rw [List.min?_eq_some_iff]
  simp only [List.mem_filter, decide_eq_true_eq]
  constructor
  · rintro ⟨h1, h2⟩
    exact ⟨h1, fun x hx hm => h2 x ⟨hx, hm⟩⟩
  · rintro ⟨h1, h2⟩
    exact ⟨h1, fun x hx => h2 x hx.1 hx.2⟩

theorem below_none {ms : List ℝ} {m : ℝ} : below ms m = none ↔ ∀ x ∈ ms, m ≤ x := by
  unfold below
  rw [List.max?_eq_none_iff, List.filter_eq_nil_iff]
  simp

theorem above_none {ms : List ℝ} {m : ℝ} : above ms m = none ↔ ∀ x ∈ ms, x ≤ m := by
  unfold above
  rw [List.min?_eq_none_iff, List.filter_eq_nil_iff]
  simp

theorem find_none {g : List Run} {m : ℝ} : find g m = none ↔ m ∉ masses g := by
  unfold find masses
  rw [List.find?_eq_none]
  simp only [decide_eq_true_eq, List.mem_map, not_exists, not_and]

theorem find_mem {g : List Run} {m : ℝ} (h : m ∈ masses g) : ∃ r, find g m = some r ∧ r ∈ g ∧ r.mass = m := by
  cases hf : find g m with
  | none => exact absurd h (find_none.1 hf)
  | some r => exact ⟨r, rfl, List.mem_of_find?_eq_some hf, by simpa using List.find?_some hf⟩

/-- The neighbours of a mass which is not in the grid: the first runs of the next lower and the next higher mass. -/
structure Neighbours (g : List Run) (m : ℝ) (lo hi : Run) : Prop where
  lo_mem : lo ∈ g
  hi_mem : hi ∈ g
  lo_lt : lo.mass < m
  lt_hi : m < hi.mass
  gap : ∀ r ∈ g, r.mass ≤ lo.mass ∨ hi.mass ≤ r.mass
  lo_first : find g lo.mass = some lo
  hi_first : find g hi.mass = some hi

theorem neighbours {g : List Run} {m : ℝ} (hm : m ∉ masses g) (h1 : ∃ r ∈ g, r.mass < m) (h2 : ∃ r ∈ g, m < r.mass) :
    ∃ lo hi, Neighbours g m lo hi ∧ below (masses g) m = some lo.mass ∧ above (masses g) m = some hi.mass := by
  cases hb : below (masses g) m with
  | none =>
    obtain ⟨r, hr, h⟩ := h1
    exact absurd (below_none.1 hb r.mass (List.mem_map_of_mem hr)) (not_le.2 h)
  | some a =>
    cases ha : above (masses g) m with
    | none =>
      obtain ⟨r, hr, h⟩ := h2
      exact absurd (above_none.1 ha r.mass (List.mem_map_of_mem hr)) (not_le.2 h)
    | some b =>
      obtain ⟨⟨a1, a2⟩, a3⟩ := below_some.1 hb
      obtain ⟨⟨b1, b2⟩, b3⟩ := above_some.1 ha
      obtain ⟨lo, l1, l2, l3⟩ := find_mem a1
      obtain ⟨hi, i1, i2, i3⟩ := find_mem b1
      refine ⟨lo, hi, ⟨l2, i2, by rw [l3]; exact a2, by rw [i3]; exact b2, ?_, by rw [l3]; exact l1, by rw [i3]; exact i1⟩, by rw [l3], by rw [i3]⟩
      intro r hr
      have hr' : r.mass ∈ masses g := List.mem_map_of_mem hr
      rcases lt_trichotomy r.mass m with h | h | h
      · left; rw [l3]; exact a3 _ hr' h
      · exact absurd (h ▸ hr') hm
      · right; rw [i3]; exact b3 _ hr' h

/-- **C90** A mass outside the range of the grid is refused by every function, and the value of a track is NaN. -/
theorem C90_outside (tol : ℝ) (g : List Run) (m : ℝ) (h : (∀ r ∈ g, m < r.mass) ∨ ∀ r ∈ g, r.mass < m) :
    (∀ key, get tol g key m = .error .value) ∧ (∀ k, getFinal g k m = .error .value) ∧ (∀ k, getState g k m = .error .value) ∧
    (∀ s key, getProfile s g key m = .error .value) ∧ ∀ key t, trackVal tol g key m t = .ok none := by
  have hf : find g m = none := by
    rw [find_none]
    intro hm
    obtain ⟨r, hr, he⟩ := List.mem_map.1 hm
    rcases h with h | h
    · exact lt_irrefl _ (he ▸ h r hr)
    · exact lt_irrefl _ (he ▸ h r hr)
  have hn : below (masses g) m = none ∨ above (masses g) m = none := by
    rcases h with h | h
    · left
      rw [below_none]
      intro x hx
      obtain ⟨r, hr, rfl⟩ := List.mem_map.1 hx
      exact (h r hr).le
    · right
      rw [above_none]
      intro x hx
      obtain ⟨r, hr, rfl⟩ := List.mem_map.1 hx
      exact (h r hr).le
  have hg : ∀ key, get tol g key m = .error .value := by
    intro key
    unfold get
    rw [hf]
    dsimp only
    rcases hn with hn | hn
    · rw [hn]
    · rw [hn]
      cases below (masses g) m <;> rfl
  refine ⟨hg, ?_, ?_, ?_, ?_⟩
  · intro k
    unfold getFinal
    rw [hf]
    dsimp only
    rcases hn with hn | hn
    · rw [hn]
    · rw [hn]
      cases below (masses g) m <;> rfl
  · intro k
    unfold getState
    rw [hf]
    dsimp only
    rcases hn with hn | hn
    · rw [hn]
    · rw [hn]
      cases below (masses g) m <;> rfl
  · intro s key
    unfold getProfile
    rw [hf]
    dsimp only
    rcases hn with hn | hn
    · rw [hn]
    · rw [hn]
      cases below (masses g) m <;> rfl
  · intro key t
    unfold trackVal
    rw [hg, hg]

/-! ### Tracks -/

/-- **C90** At a mass of the grid the track is that of the first run with this mass, from the main sequence on. -/
theorem C90_own (tol : ℝ) (g : List Run) (r : Run) (hr : find g r.mass = some r) (key c : String) (hc : column key = some c) :
    get tol g key r.mass = .ok (cut key (zams tol (r.rows.map (· "log_L")) (r.rows.map (· "log_LH"))) (r.rows.map (· c))) := by
  unfold get
  rw [hr]
  dsimp only
  rw [hc]

/-- Between two masses of the grid. -/
theorem get_between (tol : ℝ) (g : List Run) (m : ℝ) (hm : m ∉ masses g) (h1 : ∃ r ∈ g, r.mass < m) (h2 : ∃ r ∈ g, m < r.mass) :
    ∃ lo hi, Neighbours g m lo hi ∧ ∀ key c, column key = some c → get tol g key m =
      .ok (cut key (zams tol (blend ((m - lo.mass) / (hi.mass - lo.mass)) "log_L" lo hi) (blend ((m - lo.mass) / (hi.mass - lo.mass)) "log_LH" lo hi))
        (blend ((m - lo.mass) / (hi.mass - lo.mass)) c lo hi)) := by
  obtain ⟨lo, hi, hn, hb, ha⟩ := neighbours hm h1 h2
  refine ⟨lo, hi, hn, fun key c hc => ?_⟩
  unfold get
  rw [find_none.2 hm]
  dsimp only
  rw [hb, ha]
  dsimp only
  rw [hc, hn.lo_first, hn.hi_first]

/-- The weight lies between zero and one. -/
theorem weight_pos {a b m : ℝ} (h1 : a < m) (h2 : m < b) : 0 < (m - a) / (b - a) ∧ (m - a) / (b - a) < 1 := by
  have hp : 0 < b - a := by linarith
  exact ⟨div_pos (by linarith) hp, by rw [div_lt_one hp]; linarith⟩

theorem lerp_between {w : ℝ} (h0 : 0 ≤ w) (h1 : w ≤ 1) (a b : ℝ) : min a b ≤ lerp w a b ∧ lerp w a b ≤ max a b := by
  unfold lerp
  rcases le_total a b with h | h
  · rw [min_eq_left h, max_eq_right h]; constructor <;> nlinarith
  · rw [min_eq_right h, max_eq_left h]; constructor <;> nlinarith

theorem cut_other {key : String} (h : key ≠ "age") (i : ℕ) (v : List ℝ) : cut key i v = v.drop i := by
  unfold cut
  rw [if_neg h]

theorem cut_length (key : String) (i : ℕ) (v : List ℝ) : (cut key i v).length = v.length - i := by
  unfold cut
  by_cases h : key = "age"
  · rw [if_pos h]; simp
  · rw [if_neg h]; simp

theorem blend_get (w : ℝ) (c : String) (lo hi : Run) (j : ℕ) (v : ℝ) : (blend w c lo hi)[j]? = some v ↔ ∃ a b, lo.rows[j]? = some a ∧ hi.rows[j]? = some b ∧ lerp w (a c) (b c) = v := by
  unfold blend
  rw [List.getElem?_zipWith]
  cases lo.rows[j]? with
  | none => simp
  | some a =>
    cases hi.rows[j]? with
    | none => simp
    | some b => simp

/-- **C90** Between two masses of the grid, every value of a track other than the age lies on the line between the values of the two neighbours at the same row, and
so between them. -/
theorem C90_between (tol : ℝ) (g : List Run) (m : ℝ) (hm : m ∉ masses g) (h1 : ∃ r ∈ g, r.mass < m) (h2 : ∃ r ∈ g, m < r.mass) :
    ∃ lo hi i, Neighbours g m lo hi ∧ ∀ key c, column key = some c → key ≠ "age" → ∃ v, get tol g key m = .ok v ∧ ∀ (j : ℕ) (x : ℝ), v[j]? = some x →
      ∃ a b, lo.rows[i + j]? = some a ∧ hi.rows[i + j]? = some b ∧ (x - a c) * (hi.mass - lo.mass) = (b c - a c) * (m - lo.mass) ∧ min (a c) (b c) ≤ x ∧ x ≤ max (a c) (b c) := by
  obtain ⟨lo, hi, hn, hg⟩ := get_between tol g m hm h1 h2
  obtain ⟨w0, w1⟩ := weight_pos hn.lo_lt hn.lt_hi
  have hd : hi.mass - lo.mass ≠ 0 := by have := hn.lo_lt; have := hn.lt_hi; intro h; linarith
  refine ⟨lo, hi, zams tol (blend ((m - lo.mass) / (hi.mass - lo.mass)) "log_L" lo hi) (blend ((m - lo.mass) / (hi.mass - lo.mass)) "log_LH" lo hi), hn,
    fun key c hc hk => ⟨_, hg key c hc, fun j x hx => ?_⟩⟩
  rw [cut_other hk, List.getElem?_drop, blend_get] at hx
  obtain ⟨a, b, ha, hb, rfl⟩ := hx
  refine ⟨a, b, ha, hb, ?_, lerp_between w0.le w1.le _ _⟩
  unfold lerp
  field_simp
  ring

theorem lerp_mono {w a b a' b' : ℝ} (h0 : 0 ≤ w) (h1 : w < 1) (ha : a < a') (hb : b < b') : lerp w a b < lerp w a' b' := by
  unfold lerp
  nlinarith

theorem pair_zip {w : ℝ} (h0 : 0 ≤ w) (h1 : w < 1) (c : String) : ∀ x y : List Row, (x.map (· c)).Pairwise (· < ·) → (y.map (· c)).Pairwise (· < ·) →
    (List.zipWith (fun a b => lerp w (a c) (b c)) x y).Pairwise (· < ·)
  | [], _, _, _ => by simp
  | _ :: _, [], _, _ => by simp
  | a :: x, b :: y, hx, hy => by
    rw [List.map_cons, List.pairwise_cons] at hx hy
    rw [List.zipWith_cons_cons, List.pairwise_cons]
    refine ⟨fun v hv => ?_, pair_zip h0 h1 c x y hx.2 hy.2⟩
    obtain ⟨i, hi, rfl⟩ := List.mem_iff_getElem.1 hv
    rw [List.getElem_zipWith]
    exact lerp_mono h0 h1 (hx.1 _ (List.mem_map_of_mem (List.getElem_mem _))) (hy.1 _ (List.mem_map_of_mem (List.getElem_mem _)))

/-- What `get` returns has one shape: a list of rows not empty, the number of rows left out, and a function for each key. -/
theorem get_shape (tol : ℝ) (g : List Run) (m : ℝ) (hin : ∃ key v, get tol g key m = .ok v) :
    ∃ (i n : ℕ) (f : String → List ℝ), i < n ∧ (∀ c, (f c).length = n) ∧ (∀ key c, column key = some c → get tol g key m = .ok (cut key i (f c))) ∧
      i = zams tol (f "log_L") (f "log_LH") ∧ (f "star_mass").head? = some m ∧ (∀ key v, get tol g key m = .ok v → column key ≠ none) ∧
      ((∀ r ∈ g, (r.rows.map (· "star_age")).Pairwise (· < ·)) → (f "star_age").Pairwise (· < ·)) := by
  have zl : ∀ (l lh : List ℝ), l.length = lh.length → 0 < l.length → zams tol l lh < l.length := by
    intro l lh hl hp
    unfold zams
    dsimp only
    split
    · rename_i h
      have := List.findIdx_lt_length_of_exists (p := id) (xs := (l.zip lh).map fun p => decide (tol + p.1 ≤ p.2)) ⟨true, h, rfl⟩
      simpa [hl] using this
    · exact hp
  by_cases hm : m ∈ masses g
  · obtain ⟨r, hr, hrg, rfl⟩ := find_mem hm
    refine ⟨_, r.rows.length, fun c => r.rows.map (· c), ?_, fun c => by simp, fun key c hc => C90_own tol g r hr key c hc, rfl, ?_, ?_, fun h => h r hrg⟩
    · have := zl (r.rows.map (· "log_L")) (r.rows.map (· "log_LH")) (by simp) (by simp [Run.rows])
      simpa using this
    · simp [Run.rows, Run.mass]
    · intro key v hv hn
      unfold get at hv
      rw [hr] at hv
      dsimp only at hv
      rw [hn] at hv
      simp at hv
  · have h1 : ∃ r ∈ g, r.mass < m := by
      by_contra hn
      push Not at hn
      obtain ⟨key, v, hv⟩ := hin
      rw [(C90_outside tol g m (Or.inl fun r hr => lt_of_le_of_ne (hn r hr) fun e => hm (e ▸ List.mem_map_of_mem hr))).1 key] at hv
      simp at hv
    have h2 : ∃ r ∈ g, m < r.mass := by
      by_contra hn
      push Not at hn
      obtain ⟨key, v, hv⟩ := hin
      rw [(C90_outside tol g m (Or.inr fun r hr => lt_of_le_of_ne (hn r hr) fun e => hm (e ▸ List.mem_map_of_mem hr))).1 key] at hv
      simp at hv
    obtain ⟨lo, hi, hn, hb, ha⟩ := neighbours hm h1 h2
    obtain ⟨w0, w1⟩ := weight_pos hn.lo_lt hn.lt_hi
    have hd : hi.mass - lo.mass ≠ 0 := by have := hn.lo_lt; have := hn.lt_hi; intro h; linarith
    have hget : ∀ key, get tol g key m = match column key with
        | none => .error .key
        | some c => .ok (cut key (zams tol (blend ((m - lo.mass) / (hi.mass - lo.mass)) "log_L" lo hi) (blend ((m - lo.mass) / (hi.mass - lo.mass)) "log_LH" lo hi))
          (blend ((m - lo.mass) / (hi.mass - lo.mass)) c lo hi)) := by
      intro key
      unfold get
      rw [find_none.2 hm]
      dsimp only
      rw [hb, ha]
      dsimp only
      rw [hn.lo_first, hn.hi_first]
      cases column key <;> rfl
    have hlen : ∀ c, (blend ((m - lo.mass) / (hi.mass - lo.mass)) c lo hi).length = min lo.rows.length hi.rows.length := fun c => by simp [blend]
    refine ⟨_, min lo.rows.length hi.rows.length, fun c => blend ((m - lo.mass) / (hi.mass - lo.mass)) c lo hi, ?_, hlen, ?_, rfl, ?_, ?_, ?_⟩
    · have := zl (blend ((m - lo.mass) / (hi.mass - lo.mass)) "log_L" lo hi) (blend ((m - lo.mass) / (hi.mass - lo.mass)) "log_LH" lo hi) (by rw [hlen, hlen]) (by rw [hlen]; simp [Run.rows])
      rw [hlen] at this
      exact this
    · intro key c hc
      rw [hget, hc]
    · simp only [blend, Run.rows, List.zipWith_cons_cons, List.head?_cons, Option.some.injEq]
      change lerp _ lo.mass hi.mass = m
      unfold lerp
      field_simp
      ring
    · intro key v hv hc
      rw [hget, hc] at hv
      simp at hv
    · intro h
      exact pair_zip w0.le w1 _ _ _ (h lo hn.lo_mem) (h hi hn.hi_mem)

/-- **C90** All columns of a star have the same number of rows, and there is at least one. -/
theorem C90_aligned (tol : ℝ) (g : List Run) (m : ℝ) (k k' : String) (v v' : List ℝ) (h : get tol g k m = .ok v) (h' : get tol g k' m = .ok v') :
    v.length = v'.length ∧ 0 < v.length := by
  obtain ⟨i, n, f, hi, hl, hg, -, -, hc, -⟩ := get_shape tol g m ⟨k, v, h⟩
  obtain ⟨c, hc1⟩ := Option.ne_none_iff_exists'.1 (hc k v h)
  obtain ⟨c', hc2⟩ := Option.ne_none_iff_exists'.1 (hc k' v' h')
  have e1 := (hg k c hc1).symm.trans h
  have e2 := (hg k' c' hc2).symm.trans h'
  simp only [Except.ok.injEq] at e1 e2
  rw [← e1, ← e2, cut_length, cut_length, hl, hl]
  exact ⟨rfl, by omega⟩

theorem column_age : column "age" = some "star_age" := by decide +kernel

theorem column_mass : column "mass" = some "star_mass" := by decide +kernel

/-- **C90** Ages are counted from the first row kept, and they increase if they do in the runs of the grid. -/
theorem C90_age (tol : ℝ) (g : List Run) (m : ℝ) (v : List ℝ) (h : get tol g "age" m = .ok v) :
    v.head? = some 0 ∧ ((∀ r ∈ g, (r.rows.map (· "star_age")).Pairwise (· < ·)) → v.Pairwise (· < ·)) := by
  obtain ⟨i, n, f, hi, hl, hg, -, -, hc, hp⟩ := get_shape tol g m ⟨_, v, h⟩
  have e := (hg _ _ column_age).symm.trans h
  simp only [Except.ok.injEq] at e
  have hin : i < (f "star_age").length := by rw [hl]; exact hi
  subst e
  unfold cut
  rw [if_pos rfl]
  constructor
  · rw [List.head?_drop, List.getElem?_map, List.getElem?_eq_getElem hin]
    simp [List.getD, List.getElem?_eq_getElem hin]
  · intro hr
    refine List.Pairwise.sublist (List.drop_sublist _ _) ?_
    rw [List.pairwise_map]
    exact (hp hr).imp fun h => by linarith

/-- **C90** The star begins with the mass asked for: that is the mass in the first row before the rows ahead of the main sequence are left out. -/
theorem C90_initial_mass (tol : ℝ) (g : List Run) (m : ℝ) (v : List ℝ) (h : get tol g "mass" m = .ok v) : ∃ u : List ℝ, (u ++ v).head? = some m := by
  obtain ⟨i, n, f, hi, hl, hg, -, hm, -, -⟩ := get_shape tol g m ⟨_, v, h⟩
  have e := (hg _ _ column_mass).symm.trans h
  simp only [Except.ok.injEq] at e
  rw [cut_other (by decide)] at e
  exact ⟨(f "star_mass").take i, by rw [← e, List.take_append_drop]; exact hm⟩

theorem zams_spec (tol : ℝ) (l lh : List ℝ) (hl : l.length = lh.length) (hp : 0 < l.length) :
    (∃ a b, l[zams tol l lh]? = some a ∧ lh[zams tol l lh]? = some b ∧ tol + a ≤ b ∧
      ∀ (j : ℕ) (a' b' : ℝ), j < zams tol l lh → l[j]? = some a' → lh[j]? = some b' → b' < tol + a') ∨
    (zams tol l lh = 0 ∧ ∀ (j : ℕ) (a' b' : ℝ), l[j]? = some a' → lh[j]? = some b' → b' < tol + a') := by
  unfold zams
  dsimp only
  obtain ⟨ok, hok⟩ : ∃ ok, ok = (l.zip lh).map fun p => decide (tol + p.1 ≤ p.2) := ⟨_, rfl⟩
  have hget : ∀ (j : ℕ) (a b : ℝ), l[j]? = some a → lh[j]? = some b → ok[j]? = some (decide (tol + a ≤ b)) := by
    intro j a b ha hb
    rw [hok, List.getElem?_map, (List.getElem?_zip_eq_some (z := (a, b))).2 ⟨ha, hb⟩]
    rfl
  rw [← hok]
  by_cases ht : true ∈ ok
  · left
    rw [if_pos ht]
    have hlt : ok.findIdx id < ok.length := List.findIdx_lt_length_of_exists ⟨true, ht, rfl⟩
    have hlt' : ok.findIdx id < l.length := by rw [hok] at hlt ⊢; simpa [hl] using hlt
    have h1 : l[ok.findIdx id]? = some l[ok.findIdx id] := List.getElem?_eq_getElem hlt'
    have h2 : lh[ok.findIdx id]? = some (lh[ok.findIdx id]'(by omega)) := List.getElem?_eq_getElem _
    refine ⟨_, _, h1, h2, ?_, ?_⟩
    · have e := hget _ _ _ h1 h2
      have := List.findIdx_getElem (w := hlt)
      rw [List.getElem?_eq_getElem hlt, Option.some.injEq] at e
      rw [e] at this
      simpa using this
    · intro j a' b' hj ha hb
      have e := hget _ _ _ ha hb
      have := List.not_of_lt_findIdx hj
      rw [List.getElem?_eq_getElem (by omega), Option.some.injEq] at e
      rw [e] at this
      simpa using this
  · right
    rw [if_neg ht]
    refine ⟨rfl, fun j a' b' ha hb => ?_⟩
    have e := hget _ _ _ ha hb
    by_contra hn
    rw [not_lt] at hn
    rw [decide_eq_true hn] at e
    exact ht (List.mem_of_getElem? e)

/-- **C90** The first row kept is on the main sequence, hydrogen burning giving 99 per cent of the light, and no row left out is; or no row is, and then
none is left out. -/
theorem C90_zams (tol : ℝ) (g : List Run) (m : ℝ) (l lh ms : List ℝ) (h1 : get tol g "log_L" m = .ok l) (h2 : get tol g "log_LH" m = .ok lh)
    (h3 : get tol g "mass" m = .ok ms) : (∃ a b, l.head? = some a ∧ lh.head? = some b ∧ tol + a ≤ b) ∨
      ((∀ (j : ℕ) (a b : ℝ), l[j]? = some a → lh[j]? = some b → b < tol + a) ∧ ms.head? = some m) := by
  obtain ⟨i, n, f, hi, hl, hg, hz, hm, -, -⟩ := get_shape tol g m ⟨_, l, h1⟩
  have e1 := (hg "log_L" "log_L" (by decide +kernel)).symm.trans h1
  have e2 := (hg "log_LH" "log_LH" (by decide +kernel)).symm.trans h2
  have e3 := (hg _ _ column_mass).symm.trans h3
  simp only [Except.ok.injEq] at e1 e2 e3
  rw [cut_other (by decide)] at e1 e2 e3
  rw [← e1, ← e2, ← e3, List.head?_drop, List.head?_drop]
  rcases zams_spec tol (f "log_L") (f "log_LH") (by rw [hl, hl]) (by rw [hl]; omega) with ⟨a, b, ha, hb, hab, -⟩ | ⟨h0, hn⟩
  · left
    rw [hz]
    exact ⟨a, b, ha, hb, hab⟩
  · right
    rw [← hz] at h0
    rw [h0]
    exact ⟨fun j a b ha hb => hn j a b (by simpa using ha) (by simpa using hb), by simpa using hm⟩

/-- **C90** The value of a track at the age of one of its rows is that of the row; outside the ages of the track it is 1e99. -/
theorem C90_track_value (tol : ℝ) (g : List Run) (hr : ∀ r ∈ g, (r.rows.map (· "star_age")).Pairwise (· < ·)) (key : String) (m : ℝ) (x y : List ℝ)
    (hx : get tol g "age" m = .ok x) (hy : get tol g key m = .ok y) :
    (∀ (j : ℕ) (t v : ℝ), x[j]? = some t → y[j]? = some v → trackVal tol g key m t = .ok (some v)) ∧
    ∀ t, t < 0 ∨ x.getLastD 0 < t → trackVal tol g key m t = .ok (some 1e99) := by
  obtain ⟨hl, hp⟩ := C90_aligned tol g m _ _ _ _ hx hy
  obtain ⟨h0, hinc⟩ := C90_age tol g m x hx
  have hinc := hinc hr
  obtain ⟨a, x, rfl⟩ := List.exists_cons_of_ne_nil (List.length_pos_iff.1 hp)
  obtain ⟨b, y, rfl⟩ := List.exists_cons_of_ne_nil (List.length_pos_iff.1 (hl ▸ hp))
  have hI : Interp.Incr ((a, b) :: x.zip y) := by
    have : ((a :: x).zip (b :: y)).map Prod.fst = a :: x := Interp.zip_fst hl
    unfold Interp.Incr
    rw [← List.pairwise_map (f := Prod.fst) (R := (· < ·))]
    rw [show ((a, b) :: x.zip y) = (a :: x).zip (b :: y) from rfl, this]
    exact hinc
  have hv : ∀ t, trackVal tol g key m t = .ok (some (Interp.npInterp (a, b) (x.zip y) (some 1e99) (some 1e99) t)) := by
    intro t
    unfold trackVal
    rw [hx, hy]
    rfl
  have hlast : (((a, b) :: x.zip y).getLast (by simp)).1 = (a :: x).getLastD 0 := by
    have e : (((a, b) :: x.zip y).map Prod.fst).getLast? = (a :: x).getLast? := by
      rw [show ((a, b) :: x.zip y) = (a :: x).zip (b :: y) from rfl, Interp.zip_fst hl]
    rw [List.getLast?_map, List.getLast?_eq_some_getLast (List.cons_ne_nil _ _), List.getLast?_eq_some_getLast (List.cons_ne_nil _ _)] at e
    simp only [Option.map_some, Option.some.injEq] at e
    rw [e, List.getLastD_eq_getLast?, List.getLast?_eq_some_getLast (List.cons_ne_nil _ _)]
    rfl
  constructor
  · intro j t v ht hv'
    rw [hv]
    have hmem : (t, v) ∈ (a, b) :: x.zip y := by
      refine List.mem_of_getElem? (i := j) ?_
      exact (List.getElem?_zip_eq_some (l₁ := a :: x) (l₂ := b :: y) (z := (t, v))).2 ⟨ht, hv'⟩
    unfold Interp.npInterp
    rw [if_neg (not_lt.2 (Interp.incr_first_le hI hmem)), if_neg (not_lt.2 (Interp.incr_le_last hI _ hmem))]
    exact congrArg _ (congrArg _ (Interp.seg_mem hI hmem))
  · intro t ht
    rw [hv]
    have ha : a = 0 := by simpa using h0
    unfold Interp.npInterp
    by_cases h : t < a
    · rw [if_pos h]
      rfl
    · rw [if_neg h, if_pos]
      · rfl
      · change _ < t
        rw [hlast]
        exact ht.resolve_left (by rw [← ha]; exact h)

/-- **C90** Violated: rows beyond the end of the shorter neighbour are dropped, so that a star between two others can end before either of them. -/
theorem C90_lifetime_violated : ∃ (g : List Run) (lo hi : Run) (v : List ℝ), g = [lo, hi] ∧ Neighbours g 2 lo hi ∧ get (-1) g "age" 2 = .ok v ∧
    v.getLastD 0 < (lo.rows.map (· "star_age")).getLastD 0 ∧ v.getLastD 0 < (hi.rows.map (· "star_age")).getLastD 0 := by
  obtain ⟨row, hrow⟩ : ∃ row : ℝ → ℝ → Row, row = fun m a c => if c = "star_mass" then m else if c = "star_age" then a else 0 := ⟨_, rfl⟩
  have rm : ∀ m a, row m a "star_mass" = m := fun m a => by rw [hrow]; simp
  have ra : ∀ m a, row m a "star_age" = a := fun m a => by rw [hrow]; simp
  have rl : ∀ m a, row m a "log_L" = 0 := fun m a => by rw [hrow]; simp
  have rh : ∀ m a, row m a "log_LH" = 0 := fun m a => by rw [hrow]; simp
  obtain ⟨lo, hlo⟩ : ∃ lo : Run, lo = ⟨row 1 0, [row 1 1, row 1 10], fun _ => .nan, fun _ => none, []⟩ := ⟨_, rfl⟩
  obtain ⟨hi, hhi⟩ : ∃ hi : Run, hi = ⟨row 3 0, [row 3 2], fun _ => .nan, fun _ => none, []⟩ := ⟨_, rfl⟩
  have ml : lo.mass = 1 := by rw [hlo]; exact rm _ _
  have mh : hi.mass = 3 := by rw [hhi]; exact rm _ _
  have hne : (2 : ℝ) ∉ masses [lo, hi] := by simp [masses, ml, mh]
  obtain ⟨lo', hi', hn, hg⟩ := get_between (-1) [lo, hi] 2 hne ⟨lo, by simp, by rw [ml]; norm_num⟩ ⟨hi, by simp, by rw [mh]; norm_num⟩
  have el : lo' = lo := by
    have := hn.lo_mem
    simp only [List.mem_cons, List.not_mem_nil, or_false] at this
    rcases this with h | h
    · exact h
    · have := hn.lo_lt; rw [h, mh] at this; norm_num at this
  have eh : hi' = hi := by
    have := hn.hi_mem
    simp only [List.mem_cons, List.not_mem_nil, or_false] at this
    rcases this with h | h
    · have := hn.lt_hi; rw [h, ml] at this; norm_num at this
    · exact h
  subst el eh
  have hb : ∀ c, blend ((2 - lo'.mass) / (hi'.mass - lo'.mass)) c lo' hi' = [lerp (1 / 2) (row 1 0 c) (row 3 0 c), lerp (1 / 2) (row 1 1 c) (row 3 2 c)] := by
    intro c
    rw [ml, mh, hlo, hhi]
    norm_num [blend, Run.rows]
  refine ⟨_, lo', hi', _, rfl, hn, hg _ _ column_age, ?_⟩
  rw [hb, hb, hb]
  simp only [ra, rl, rh]
  have hz : zams (-1) [lerp (1 / 2) 0 0, lerp (1 / 2) 0 0] [lerp (1 / 2) 0 0, lerp (1 / 2) 0 0] = 0 := by
    norm_num [zams, lerp, List.findIdx_cons]
  rw [hz]
  rw [hlo, hhi]
  simp only [Run.rows, List.map_cons, List.map_nil, ra, cut]
  norm_num [lerp]

/-- **C90** Violated: of two runs with the same initial mass only the first is ever used. -/
theorem C90_duplicate_violated (tol : ℝ) (a b : List Run) (r r0 : Run) (h : r0 ∈ a) (hm : r0.mass = r.mass) (key : String) (m : ℝ) :
    get tol (a ++ r :: b) key m = get tol (a ++ b) key m := by
  have hf : ∀ x, find (a ++ r :: b) x = find (a ++ b) x := by
    intro x
    unfold find
    rw [List.find?_append, List.find?_append, List.find?_cons]
    by_cases hx : r.mass = x
    · have : (a.find? fun r => decide (r.mass = x)).isSome := by
        rw [List.find?_isSome]
        exact ⟨r0, h, by simp [hm, hx]⟩
      obtain ⟨y, hy⟩ := Option.isSome_iff_exists.1 this
      rw [hy]
      rfl
    · simp [hx]
  have hmem : ∀ x, x ∈ masses (a ++ r :: b) ↔ x ∈ masses (a ++ b) := by
    intro x
    simp only [masses, List.map_append, List.map_cons, List.mem_append, List.mem_cons]
    constructor
    · rintro (h' | rfl | h')
      · exact Or.inl h'
      · exact Or.inl (hm ▸ List.mem_map_of_mem h)
      · exact Or.inr h'
    · rintro (h' | h')
      · exact Or.inl h'
      · exact Or.inr (Or.inr h')
  have hb : below (masses (a ++ r :: b)) m = below (masses (a ++ b)) m := by
    ext x
    rw [below_some, below_some]
    simp only [hmem]
  have ha : above (masses (a ++ r :: b)) m = above (masses (a ++ b)) m := by
    ext x
    rw [above_some, above_some]
    simp only [hmem]
  unfold get
  simp only [hf, hb, ha]

/-! ### Final values -/

/-- **C90** Every key of a track has a column, with its own name but for four of them. -/
theorem C90_keys : (∀ k ∈ keys, column k ≠ none) ∧ column "age" = some "star_age" ∧ column "mass" = some "star_mass" ∧ column "mdot" = some "star_mdot" ∧
    column "inertia" = some "total_moment_of_inertia" ∧
    ∀ k ∈ keys, k ≠ "age" → k ≠ "mass" → k ≠ "mdot" → k ≠ "inertia" → column k = some k := by
  decide +kernel

/-- **C90** Every key of a final value is found where it should be: those of a supernova model in the row of this very model, under the name without it. -/
theorem C90_final_keys : (∀ m ∈ models, ∀ k ∈ snKeys, decode ((chars! "S1_") ++ m.toList ++ '_' :: k.toList) = some (.sn m.toList ((chars! "S1_") ++ k.toList))) ∧
    ∀ k ∈ plainKeys, decode k.toList = some (.plain k.toList) := by
  decide +kernel

theorem goLow_spec (g : List Run) (k : FKey) (m : ℝ) (hm : m ∈ masses g) :
    (goLow g k m).1 ≤ m ∧ (goLow g k m).1 ∈ masses g ∧ (goLow g k m).2 = valueAt g k (goLow g k m).1 ∧
    (∀ x ∈ masses g, (goLow g k m).1 < x → x ≤ m → (valueAt g k x).isNan = true) ∧
    ((goLow g k m).2.isNan = true → ∀ x ∈ masses g, x ≤ m → (valueAt g k x).isNan = true) := by
  rw [goLow]
  by_cases hn : (valueAt g k m).isNan = true
  · rw [if_pos hn]
    split
    · rename_i h
      rw [below_none] at h
      refine ⟨le_refl _, hm, rfl, fun x hx h1 h2 => absurd h1 (not_lt.2 h2), fun _ x hx hxm => ?_⟩
      rw [le_antisymm hxm (h x hx)]
      exact hn
    · rename_i a h
      obtain ⟨⟨a1, a2⟩, a3⟩ := below_some.1 h
      have hdec : ((masses g).filter fun x => decide (x < a)).length < ((masses g).filter fun x => decide (x < m)).length := by
        refine filter_lt_length _ _ _ ?_ ⟨a, a1, by simpa using a2, by simp⟩
        intro x _ hx
        simp only [decide_eq_true_eq] at hx ⊢
        linarith
      obtain ⟨i1, i2, i3, i4, i5⟩ := goLow_spec g k a a1
      refine ⟨i1.trans a2.le, i2, i3, fun x hx h1 h2 => ?_, fun hnan x hx hxm => ?_⟩
      · rcases h2.lt_or_eq with h | h
        · exact i4 x hx h1 (a3 x hx h)
        · rw [h]; exact hn
      · rcases hxm.lt_or_eq with h | h
        · exact i5 hnan x hx (a3 x hx h)
        · rw [h]; exact hn
  · rw [if_neg hn]
    exact ⟨le_refl _, hm, rfl, fun x hx h1 h2 => absurd h1 (not_lt.2 h2), fun h => absurd h hn⟩
termination_by ((masses g).filter fun x => decide (x < m)).length
decreasing_by assumption

theorem goHigh_spec (g : List Run) (k : FKey) (m : ℝ) (hm : m ∈ masses g) :
    m ≤ (goHigh g k m).1 ∧ (goHigh g k m).1 ∈ masses g ∧ (goHigh g k m).2 = valueAt g k (goHigh g k m).1 ∧
    (∀ x ∈ masses g, x < (goHigh g k m).1 → m ≤ x → (valueAt g k x).isNan = true) ∧
    ((goHigh g k m).2.isNan = true → ∀ x ∈ masses g, m ≤ x → (valueAt g k x).isNan = true) := by
  rw [goHigh]
  by_cases hn : (valueAt g k m).isNan = true
  · rw [if_pos hn]
    split
    · rename_i h
      rw [above_none] at h
      refine ⟨le_refl _, hm, rfl, fun x hx h1 h2 => absurd h1 (not_lt.2 h2), fun _ x hx hxm => ?_⟩
      rw [le_antisymm (h x hx) hxm]
      exact hn
    · rename_i a h
      obtain ⟨⟨a1, a2⟩, a3⟩ := above_some.1 h
      have hdec : ((masses g).filter fun x => decide (a < x)).length < ((masses g).filter fun x => decide (m < x)).length := by
        refine filter_lt_length _ _ _ ?_ ⟨a, a1, by simpa using a2, by simp⟩
        intro x _ hx
        simp only [decide_eq_true_eq] at hx ⊢
        linarith
      obtain ⟨i1, i2, i3, i4, i5⟩ := goHigh_spec g k a a1
      refine ⟨a2.le.trans i1, i2, i3, fun x hx h1 h2 => ?_, fun hnan x hx hxm => ?_⟩
      · rcases h2.lt_or_eq with h | h
        · exact i4 x hx h1 (a3 x hx h)
        · rw [← h]; exact hn
      · rcases hxm.lt_or_eq with h | h
        · exact i5 hnan x hx (a3 x hx h)
        · rw [← h]; exact hn
  · rw [if_neg hn]
    exact ⟨le_refl _, hm, rfl, fun x hx h1 h2 => absurd h1 (not_lt.2 h2), fun h => absurd h hn⟩
termination_by ((masses g).filter fun x => decide (m < x)).length
decreasing_by assumption

/-- **C90** A final value between two masses of the grid lies on the line between those of the nearest masses on either side at which it is known, and so
between them, if they are numbers. -/
theorem C90_final (g : List Run) (k : FKey) (m : ℝ) (hm : m ∉ masses g) (h1 : ∃ x ∈ masses g, x < m ∧ (valueAt g k x).isNan = false)
    (h2 : ∃ x ∈ masses g, m < x ∧ (valueAt g k x).isNan = false) : ∃ a b, a ∈ masses g ∧ b ∈ masses g ∧ a < m ∧ m < b ∧
      (valueAt g k a).isNan = false ∧ (valueAt g k b).isNan = false ∧ (∀ x ∈ masses g, a < x → x < b → (valueAt g k x).isNan = true) ∧
      (∀ u v, valueAt g k a = .num u → valueAt g k b = .num v → ∃ y, getFinal g k m = .ok (.num y) ∧ (y - u) * (b - a) = (v - u) * (m - a) ∧ min u v ≤ y ∧ y ≤ max u v) ∧
      ((∃ s, valueAt g k a = .text s ∨ valueAt g k b = .text s) → getFinal g k m = .error .type) := by
  obtain ⟨x1, hx1, hx1m, hx1n⟩ := h1
  obtain ⟨x2, hx2, hx2m, hx2n⟩ := h2
  obtain ⟨r1, hr1, rfl⟩ := List.mem_map.1 hx1
  obtain ⟨r2, hr2, rfl⟩ := List.mem_map.1 hx2
  obtain ⟨lo, hi, hn, hb, ha⟩ := neighbours hm ⟨r1, hr1, hx1m⟩ ⟨r2, hr2, hx2m⟩
  obtain ⟨⟨l1, l2⟩, l3⟩ := below_some.1 hb
  obtain ⟨⟨u1, u2⟩, u3⟩ := above_some.1 ha
  obtain ⟨i1, i2, i3, i4, i5⟩ := goLow_spec g k lo.mass l1
  obtain ⟨j1, j2, j3, j4, j5⟩ := goHigh_spec g k hi.mass u1
  have hln : (goLow g k lo.mass).2.isNan = false := by
    rw [Bool.eq_false_iff]
    intro h
    have := i5 h r1.mass hx1 (l3 _ hx1 hx1m)
    rw [hx1n] at this
    cases this
  have hun : (goHigh g k hi.mass).2.isNan = false := by
    rw [Bool.eq_false_iff]
    intro h
    have := j5 h r2.mass hx2 (u3 _ hx2 hx2m)
    rw [hx2n] at this
    cases this
  have hget : getFinal g k m = mix ((m - (goLow g k lo.mass).1) / ((goHigh g k hi.mass).1 - (goLow g k lo.mass).1)) (goLow g k lo.mass).2 (goHigh g k hi.mass).2 := by
    unfold getFinal
    rw [find_none.2 hm]
    dsimp only
    rw [hb, ha]
  have am : (goLow g k lo.mass).1 < m := lt_of_le_of_lt i1 l2
  have bm : m < (goHigh g k hi.mass).1 := lt_of_lt_of_le u2 j1
  obtain ⟨w0, w1⟩ := weight_pos am bm
  refine ⟨(goLow g k lo.mass).1, (goHigh g k hi.mass).1, i2, j2, am, bm, by rw [← i3]; exact hln, by rw [← j3]; exact hun, ?_, ?_, ?_⟩
  · intro x hx ha' hb'
    rcases lt_trichotomy x m with h | h | h
    · exact i4 x hx ha' (l3 x hx h)
    · exact absurd (h ▸ hx) hm
    · exact j4 x hx hb' (u3 x hx h)
  · intro u v hu hv
    rw [← i3] at hu
    rw [← j3] at hv
    rw [hget, hu, hv]
    refine ⟨_, rfl, ?_, lerp_between w0.le w1.le _ _⟩
    have hd : (goHigh g k hi.mass).1 - (goLow g k lo.mass).1 ≠ 0 := by intro h; linarith
    generalize (goHigh g k hi.mass).1 = B at hd ⊢
    generalize (goLow g k lo.mass).1 = A at hd ⊢
    unfold lerp
    field_simp
    ring
  · rintro ⟨s, hs⟩
    rw [← i3, ← j3] at hs
    rw [hget]
    rcases hs with hs | hs
    · rw [hs]; rfl
    · rw [hs]
      cases (goLow g k lo.mass).2 <;> rfl

/-- **C90** Violated: if a value is known at all heavier stars but at no lighter one, there is none at all in between. -/
theorem C90_one_side_violated (g : List Run) (k : FKey) (m : ℝ) (hm : m ∉ masses g) (h1 : ∃ r ∈ g, r.mass < m) (h2 : ∃ r ∈ g, m < r.mass)
    (hn : ∀ x ∈ masses g, x < m → (valueAt g k x).isNan = true) (hk : ∀ x ∈ masses g, m < x → ∃ y, valueAt g k x = .num y) : getFinal g k m = .ok .nan := by
  obtain ⟨lo, hi, hnb, hb, ha⟩ := neighbours hm h1 h2
  obtain ⟨⟨l1, l2⟩, l3⟩ := below_some.1 hb
  obtain ⟨⟨u1, u2⟩, u3⟩ := above_some.1 ha
  obtain ⟨i1, i2, i3, -, -⟩ := goLow_spec g k lo.mass l1
  obtain ⟨j1, j2, j3, -, -⟩ := goHigh_spec g k hi.mass u1
  have e1 := hn _ i2 (lt_of_le_of_lt i1 l2)
  obtain ⟨y, e2⟩ := hk _ j2 (lt_of_lt_of_le u2 j1)
  rw [← i3] at e1
  rw [← j3] at e2
  unfold getFinal
  rw [find_none.2 hm]
  dsimp only
  rw [hb, ha]
  dsimp only
  rw [e2]
  cases hv : (goLow g k lo.mass).2 with
  | nan => rfl
  | num => rw [hv] at e1; cases e1
  | pinf => rw [hv] at e1; cases e1
  | ninf => rw [hv] at e1; cases e1
  | text => rw [hv] at e1; cases e1

/-- **C90** At a mass of the grid the final value and the state are those of the run, known or not. -/
theorem C90_final_own (g : List Run) (k : FKey) (r : Run) (hr : find g r.mass = some r) : getFinal g k r.mass = .ok (r.value k) ∧ getState g k r.mass = .ok (r.value k) := by
  unfold getFinal getState
  rw [hr]
  exact ⟨rfl, rfl⟩

/-- **C90** The value of a supernova model at a mass of the grid is that of the row of this model, and NaN if the run has no such model. -/
theorem C90_final_models (g : List Run) (m k : Name) (r : Run) (hr : find g r.mass = some r) :
    (∀ row, r.sn m = some row → getFinal g (.sn m k) r.mass = .ok (row k)) ∧ (r.sn m = none → getFinal g (.sn m k) r.mass = .ok .nan) := by
  rw [(C90_final_own g (.sn m k) r hr).1]
  exact ⟨fun row h => by simp [Run.value, h], fun h => by simp [Run.value, h]⟩

/-- **C90** A state is that of the nearest mass of the grid; halfway it is that of the heavier star. -/
theorem C90_state (g : List Run) (k : FKey) (m : ℝ) (hm : m ∉ masses g) (h1 : ∃ r ∈ g, r.mass < m) (h2 : ∃ r ∈ g, m < r.mass) :
    ∃ r ∈ g, getState g k m = .ok (r.value k) ∧ ∀ s ∈ g, |m - r.mass| ≤ |m - s.mass| ∧ (|m - r.mass| = |m - s.mass| → s.mass ≤ r.mass) := by
  obtain ⟨lo, hi, hn, hb, ha⟩ := neighbours hm h1 h2
  have hl := hn.lo_lt
  have hh := hn.lt_hi
  have habs : ∀ s ∈ g, (s.mass ≤ lo.mass ∧ |m - s.mass| = m - s.mass) ∨ (hi.mass ≤ s.mass ∧ |m - s.mass| = s.mass - m) := by
    intro s hs
    rcases hn.gap s hs with h | h
    · exact Or.inl ⟨h, abs_of_pos (by linarith)⟩
    · exact Or.inr ⟨h, by rw [abs_of_neg (by linarith)]; ring⟩
  have hlo : |m - lo.mass| = m - lo.mass := abs_of_pos (by linarith)
  have hhi : |m - hi.mass| = hi.mass - m := by rw [abs_of_neg (by linarith)]; ring
  have hget : getState g k m = .ok (if m < lo.mass + (hi.mass - lo.mass) / 2 then lo.value k else hi.value k) := by
    unfold getState
    rw [find_none.2 hm]
    dsimp only
    rw [hb, ha]
    simp only [valueAt, hn.lo_first, hn.hi_first, Option.map_some, Option.getD_some]
  by_cases hc : m < lo.mass + (hi.mass - lo.mass) / 2
  · rw [if_pos hc] at hget
    refine ⟨lo, hn.lo_mem, hget, fun s hs => ?_⟩
    rw [hlo]
    rcases habs s hs with ⟨h, e⟩ | ⟨h, e⟩
    · rw [e]; exact ⟨by linarith, fun _ => h⟩
    · rw [e]; exact ⟨by linarith, fun h' => by linarith⟩
  · rw [if_neg hc] at hget
    rw [not_lt] at hc
    refine ⟨hi, hn.hi_mem, hget, fun s hs => ?_⟩
    rw [hhi]
    rcases habs s hs with ⟨h, e⟩ | ⟨h, e⟩
    · rw [e]; exact ⟨by linarith, fun _ => by linarith⟩
    · rw [e]; exact ⟨by linarith, fun h' => by linarith⟩

/-! ### Profiles -/

theorem seg_linear (c : ℝ) : ∀ (l : List Interp.Node) (p : Interp.Node), Interp.Incr (p :: l) → (∀ n ∈ p :: l, n.2 = c * n.1) → ∀ x, p.1 ≤ x →
    x ≤ ((p :: l).getLast (by simp)).1 → Interp.seg (p :: l) x = c * x
  | [], p, _, hn, x, h1, h2 => by
    simp only [List.getLast_singleton] at h2
    rw [Interp.seg, hn p (by simp), le_antisymm h2 h1]
  | q :: l, p, hi, hn, x, h1, h2 => by
    rw [Interp.Incr, List.pairwise_cons] at hi
    rw [Interp.seg]
    by_cases hq : q.1 ≤ x
    · rw [if_pos hq]
      refine seg_linear c l q hi.2 (fun n hm => hn n (by simp [List.mem_cons.1 hm])) x hq ?_
      rw [List.getLast_cons (show q :: l ≠ [] by simp)] at h2
      exact h2
    · rw [if_neg hq]
      have hpq := hi.1 q (by simp)
      have hd : q.1 - p.1 ≠ 0 := by intro h; linarith
      rw [hn p (by simp), hn q (by simp)]
      field_simp
      ring

/-- Masses decrease inwards, and are positive. -/
def Ordered (p : List Row) : Prop := p ≠ [] ∧ (p.map (· "mass")).Pairwise (· > ·) ∧ ∀ x ∈ p, 0 < x "mass"

/-- The mass at the surface of a profile. -/
noncomputable def surface (p : List Row) : ℝ := (p.head?.map (· "mass")).getD 1

theorem surface_pos {p : List Row} (h : Ordered p) : 0 < surface p := by
  obtain ⟨hne, -, hp⟩ := h
  obtain ⟨a, l, rfl⟩ := List.exists_cons_of_ne_nil hne
  exact hp a (by simp)

theorem coord_dec {p : List Row} (h : Ordered p) : (coord p).Pairwise (· > ·) := by
  have hs := surface_pos h
  obtain ⟨-, h1, -⟩ := h
  unfold coord
  rw [List.pairwise_map] at h1 ⊢
  exact h1.imp fun h => div_lt_div_of_pos_right h hs

theorem coord_mass (p : List Row) (hs : surface p ≠ 0) : p.map (· "mass") = (coord p).map (· * surface p) := by
  unfold coord
  rw [List.map_map]
  refine List.map_congr_left fun x _ => ?_
  change x "mass" = x "mass" / surface p * surface p
  field_simp

theorem coord_range {p : List Row} (h : Ordered p) : ∀ x ∈ coord p, (coord p).getLastD 0 ≤ x ∧ x ≤ 1 := by
  have hd := coord_dec h
  have hs := surface_pos h
  obtain ⟨hne, -, -⟩ := h
  obtain ⟨a, l, rfl⟩ := List.exists_cons_of_ne_nil hne
  have h1 : a "mass" / surface (a :: l) = 1 := div_self hs.ne'
  have hc : coord (a :: l) = 1 :: l.map fun x => x "mass" / surface (a :: l) := by
    unfold coord
    rw [List.map_cons]
    congr 1
  rw [hc] at hd ⊢
  generalize l.map (fun x => x "mass" / surface (a :: l)) = t at hd ⊢
  intro x hx
  constructor
  · have gen : ∀ (t : List ℝ) (a : ℝ), (a :: t).Pairwise (· > ·) → ∀ x ∈ a :: t, (a :: t).getLastD 0 ≤ x := by
      intro t
      induction t with
      | nil => intro a _ x hx; simp at hx; simp [hx]
      | cons b t ih =>
        intro a hp x hx
        rw [List.pairwise_cons] at hp
        have e : (a :: b :: t).getLastD 0 = (b :: t).getLastD 0 := by simp
        rw [e]
        rcases List.mem_cons.1 hx with rfl | hx
        · exact (ih b hp.2 b (by simp)).trans (hp.1 b (by simp)).le
        · exact ih b hp.2 x hx
    exact gen t 1 hd x hx
  · rcases List.mem_cons.1 hx with rfl | hx
    · exact le_refl _
    · exact ((List.pairwise_cons.1 hd).1 x hx).le

/-- The mass of a profile at coordinates within its range. -/
theorem resample_mass (argsort : List Interp.Node → List Interp.Node) (hs : Interp.Sorts argsort) (p q : List Row) (hp : Ordered p) (hq : Ordered q)
    (hle : (coord p).getLastD 0 ≤ (coord q).getLastD 0) :
    resample argsort (coord p) (p.map (· "mass")) (coord q) = .ok ((coord q).map (· * surface p)) := by
  have hsp := surface_pos hp
  have hne : coord p ≠ [] := by
    obtain ⟨h, -, -⟩ := hp
    simpa [coord] using h
  have hnd : (coord p).Nodup := (coord_dec hp).imp fun h => h.ne'
  obtain ⟨o, ho, hi, hperm⟩ := Interp.C45_built argsort hs (coord p) (p.map (· "mass")) .absent none none (by simp [coord]) hne hnd (by simp)
  unfold resample
  rw [ho]
  dsimp only
  congr 1
  refine List.map_congr_left fun x hx => ?_
  have hlin : ∀ n ∈ o.all, n.2 = surface p * n.1 := by
    intro n hn
    have := hperm.mem_iff.1 hn
    rw [coord_mass p hsp.ne', List.zip_map_right] at this
    obtain ⟨y, hy, rfl⟩ := List.mem_map.1 this
    have hyy : y.1 = y.2 := by
      obtain ⟨i, hi, rfl⟩ := List.mem_iff_getElem.1 hy
      simp
    simp only [Prod.map_fst, Prod.map_snd, id]
    rw [hyy]
    ring
  have hmem : ∀ c ∈ coord p, ∃ n ∈ o.all, n.1 = c := by
    intro c hc
    have e : ((coord p).zip (p.map (· "mass"))).map Prod.fst = coord p := Interp.zip_fst (by simp [coord])
    rw [← e] at hc
    obtain ⟨n, hn, rfl⟩ := List.mem_map.1 hc
    exact ⟨n, hperm.mem_iff.2 hn, rfl⟩
  obtain ⟨b1, b2⟩ := coord_range hq x hx
  have hlast : (coord p).getLastD 0 ∈ coord p := by
    rw [List.getLastD_eq_getLast?, List.getLast?_eq_some_getLast hne]
    exact List.getLast_mem hne
  have hone : (1 : ℝ) ∈ coord p := by
    obtain ⟨hpne, -, -⟩ := hp
    obtain ⟨a, l, rfl⟩ := List.exists_cons_of_ne_nil hpne
    refine List.mem_map.2 ⟨a, by simp, ?_⟩
    exact div_self hsp.ne'
  obtain ⟨n1, hn1, e1⟩ := hmem _ hlast
  obtain ⟨n2, hn2, e2⟩ := hmem _ hone
  have r1 : o.node.1 ≤ x := by
    have := Interp.incr_first_le hi hn1
    linarith
  have r2 : x ≤ (o.all.getLast (by simp [Interp.Interp1d.all])).1 := by
    have := Interp.incr_le_last hi (by simp [Interp.Interp1d.all]) hn2
    linarith
  rw [Interp.call_inside o x r1 r2]
  rw [show o.all = o.node :: o.nodes from rfl] at hi hlin ⊢
  rw [seg_linear (surface p) o.nodes o.node hi hlin x r1 r2]
  ring

/-- **C90** The profile of a star between two masses of the grid has a mass at the surface on the line between those of its neighbours, and inside the same
fractions of it as the neighbour whose grid is used. -/
theorem C90_profile_mass (argsort : List Interp.Node → List Interp.Node) (hs : Interp.Sorts argsort) (g : List Run) (m : ℝ) (hm : m ∉ masses g) (h1 : ∃ r ∈ g, r.mass < m)
    (h2 : ∃ r ∈ g, m < r.mass) (hp : ∀ r ∈ g, Ordered r.profile) : ∃ lo hi r, Neighbours g m lo hi ∧ (r = lo ∨ r = hi) ∧
      getProfile argsort g "mass" m =
        .ok ((coord r.profile).map (· * lerp ((m - lo.mass) / (hi.mass - lo.mass)) (surface lo.profile) (surface hi.profile)), r.profile) := by
  obtain ⟨lo, hi, hn, hb, ha⟩ := neighbours hm h1 h2
  have pl := hp lo hn.lo_mem
  have ph := hp hi hn.hi_mem
  have zz : ∀ (w a b : ℝ) (l : List ℝ), List.zipWith (lerp w) (l.map (· * a)) (l.map (· * b)) = l.map (· * lerp w a b) := by
    intro w a b l
    induction l with
    | nil => rfl
    | cons x l ih =>
      simp only [List.map_cons, List.zipWith_cons_cons, ih]
      congr 1
      unfold lerp
      ring
  by_cases hc : (coord lo.profile).getLastD 0 < (coord hi.profile).getLastD 0
  · refine ⟨lo, hi, hi, hn, Or.inr rfl, ?_⟩
    unfold getProfile
    rw [find_none.2 hm]
    dsimp only
    rw [hb, ha]
    dsimp only
    rw [hn.lo_first, hn.hi_first]
    dsimp only
    rw [if_pos hc, resample_mass argsort hs _ _ pl ph hc.le]
    dsimp only
    rw [coord_mass hi.profile (surface_pos ph).ne', zz]
  · refine ⟨lo, hi, lo, hn, Or.inl rfl, ?_⟩
    unfold getProfile
    rw [find_none.2 hm]
    dsimp only
    rw [hb, ha]
    dsimp only
    rw [hn.lo_first, hn.hi_first]
    dsimp only
    rw [if_neg hc, resample_mass argsort hs _ _ ph pl (not_lt.1 hc)]
    dsimp only
    rw [coord_mass lo.profile (surface_pos pl).ne', zz]

/-- **C90** Every column of a profile has as many values as the profile whose columns it replaces, and this profile is the same for all of them. -/
theorem C90_profile_aligned (argsort : List Interp.Node → List Interp.Node) (g : List Run) (m : ℝ) (k k' : String) (v v' : List ℝ) (p p' : List Row)
    (h : getProfile argsort g k m = .ok (v, p)) (h' : getProfile argsort g k' m = .ok (v', p')) : p = p' ∧ v.length = p.length := by
  have rl : ∀ xs ys a w, resample argsort xs ys a = .ok w → w.length = a.length := by
    intro xs ys a w hw
    unfold resample at hw
    cases hi : Interp.init argsort true xs ys .absent none none with
    | error e => rw [hi] at hw; simp at hw
    | ok o =>
      rw [hi] at hw
      simp only [Except.ok.injEq] at hw
      rw [← hw]
      simp
  have cl : ∀ p : List Row, (coord p).length = p.length := fun p => by simp [coord]
  unfold getProfile at h h'
  cases hf : find g m with
  | some r =>
    rw [hf] at h h'
    simp only [Except.ok.injEq, Prod.mk.injEq] at h h'
    exact ⟨h.2.symm.trans h'.2, by rw [← h.1, ← h.2]; simp⟩
  | none =>
    rw [hf] at h h'
    dsimp only at h h'
    cases hb : below (masses g) m with
    | none => rw [hb] at h; simp at h
    | some a =>
      cases ha : above (masses g) m with
      | none => rw [hb, ha] at h; simp at h
      | some b =>
        rw [hb, ha] at h h'
        dsimp only at h h'
        cases h1 : find g a with
        | none => rw [h1] at h; simp at h
        | some lo =>
          cases h2 : find g b with
          | none => rw [h1, h2] at h; simp at h
          | some hi =>
            rw [h1, h2] at h h'
            dsimp only at h h'
            by_cases hc : (coord lo.profile).getLastD 0 < (coord hi.profile).getLastD 0
            · rw [if_pos hc] at h h'
              cases r1 : resample argsort (coord lo.profile) (lo.profile.map (· k)) (coord hi.profile) with
              | error e => rw [r1] at h; simp at h
              | ok w1 =>
                cases r2 : resample argsort (coord lo.profile) (lo.profile.map (· k')) (coord hi.profile) with
                | error e => rw [r2] at h'; simp at h'
                | ok w2 =>
                  rw [r1] at h
                  rw [r2] at h'
                  simp only [Except.ok.injEq, Prod.mk.injEq] at h h'
                  refine ⟨h.2.symm.trans h'.2, ?_⟩
                  rw [← h.1, ← h.2, List.length_zipWith, rl _ _ _ _ r1, cl]
                  simp
            · rw [if_neg hc] at h h'
              cases r1 : resample argsort (coord hi.profile) (hi.profile.map (· k)) (coord lo.profile) with
              | error e => rw [r1] at h; simp at h
              | ok w1 =>
                cases r2 : resample argsort (coord hi.profile) (hi.profile.map (· k')) (coord lo.profile) with
                | error e => rw [r2] at h'; simp at h'
                | ok w2 =>
                  rw [r1] at h
                  rw [r2] at h'
                  simp only [Except.ok.injEq, Prod.mk.injEq] at h h'
                  refine ⟨h.2.symm.trans h'.2, ?_⟩
                  rw [← h.1, ← h.2, List.length_zipWith, rl _ _ _ _ r1, cl]
                  simp

/-! ### The nearest run of a grid of binaries -/

/-- **C90** If some run is usable, a nearest one exists. -/
theorem C90_nearest_exists (q : Bool) (runs : List Binary) (m1 m2 p : ℝ) (h : ∃ r ∈ runs, r.converged = true) : ∃ i, Nearest q runs m1 m2 p i := by
  have gen : ∀ l : List Binary, (∃ r ∈ l, r.converged = true) → ∃ r ∈ l, r.converged = true ∧
      ∀ s ∈ l, s.converged = true → dist2 (point q r.m1 r.m2 r.period) (point q m1 m2 p) ≤ dist2 (point q s.m1 s.m2 s.period) (point q m1 m2 p) := by
    intro l
    induction l with
    | nil => rintro ⟨r, hr, -⟩; simp at hr
    | cons a l ih =>
      intro h
      by_cases hl : ∃ r ∈ l, r.converged = true
      · obtain ⟨r, hr, hc, hmin⟩ := ih hl
        by_cases ha : a.converged = true ∧ dist2 (point q a.m1 a.m2 a.period) (point q m1 m2 p) ≤ dist2 (point q r.m1 r.m2 r.period) (point q m1 m2 p)
        · refine ⟨a, by simp, ha.1, fun s hs hsc => ?_⟩
          rcases List.mem_cons.1 hs with rfl | hs
          · exact le_refl _
          · exact ha.2.trans (hmin s hs hsc)
        · refine ⟨r, by simp [hr], hc, fun s hs hsc => ?_⟩
          rcases List.mem_cons.1 hs with rfl | hs
          · by_contra hn
            exact ha ⟨hsc, (not_le.1 hn).le⟩
          · exact hmin s hs hsc
      · obtain ⟨r, hr, hc⟩ := h
        rcases List.mem_cons.1 hr with rfl | hr
        · refine ⟨r, by simp, hc, fun s hs hsc => ?_⟩
          rcases List.mem_cons.1 hs with rfl | hs
          · exact le_refl _
          · exact absurd ⟨s, hs, hsc⟩ hl
        · exact absurd ⟨r, hr, hc⟩ hl
  obtain ⟨r, hr, hc, hmin⟩ := gen runs h
  obtain ⟨i, hi, rfl⟩ := List.mem_iff_getElem.1 hr
  exact ⟨i, _, List.getElem?_eq_getElem hi, hc, hmin⟩

/-- **C90** A binary which is itself a usable run of the grid gets a run with its own masses and period, and the differences returned are zero. -/
theorem C90_nearest_own (q : Bool) (runs : List Binary) (m1 m2 p : ℝ) (i : ℕ) (h : Nearest q runs m1 m2 p i)
    (hs : ∃ s ∈ runs, s.converged = true ∧ s.m1 = m1 ∧ s.m2 = m2 ∧ s.period = p) (hpos : ∀ s ∈ runs, 0 < s.m1 ∧ 0 < s.m2 ∧ 0 < s.period) :
    ∃ r, runs[i]? = some r ∧ r.converged = true ∧ diffs r m1 m2 p = (0, 0, 0) := by
  obtain ⟨r, hr, hc, hmin⟩ := h
  obtain ⟨s, hs, hsc, rfl, rfl, rfl⟩ := hs
  have hd := hmin s hs hsc
  have hz : dist2 (point q s.m1 s.m2 s.period) (point q s.m1 s.m2 s.period) = 0 := by simp [dist2]
  rw [hz] at hd
  unfold dist2 at hd
  have e1 : (point q r.m1 r.m2 r.period).1 = (point q s.m1 s.m2 s.period).1 := by nlinarith [sq_nonneg ((point q r.m1 r.m2 r.period).1 - (point q s.m1 s.m2 s.period).1), sq_nonneg ((point q r.m1 r.m2 r.period).2.1 - (point q s.m1 s.m2 s.period).2.1), sq_nonneg ((point q r.m1 r.m2 r.period).2.2 - (point q s.m1 s.m2 s.period).2.2)]
  have e2 : (point q r.m1 r.m2 r.period).2.1 = (point q s.m1 s.m2 s.period).2.1 := by nlinarith [sq_nonneg ((point q r.m1 r.m2 r.period).1 - (point q s.m1 s.m2 s.period).1), sq_nonneg ((point q r.m1 r.m2 r.period).2.1 - (point q s.m1 s.m2 s.period).2.1), sq_nonneg ((point q r.m1 r.m2 r.period).2.2 - (point q s.m1 s.m2 s.period).2.2)]
  have e3 : (point q r.m1 r.m2 r.period).2.2 = (point q s.m1 s.m2 s.period).2.2 := by nlinarith [sq_nonneg ((point q r.m1 r.m2 r.period).1 - (point q s.m1 s.m2 s.period).1), sq_nonneg ((point q r.m1 r.m2 r.period).2.1 - (point q s.m1 s.m2 s.period).2.1), sq_nonneg ((point q r.m1 r.m2 r.period).2.2 - (point q s.m1 s.m2 s.period).2.2)]
  obtain ⟨a1, a2, a3⟩ := hpos r (List.mem_of_getElem? hr)
  obtain ⟨b1, b2, b3⟩ := hpos s hs
  have inj : ∀ x y : ℝ, 0 < x → 0 < y → Real.logb 10 x = Real.logb 10 y → x = y := fun x y hx hy h => Real.logb_injOn_pos (by norm_num) hx hy h
  have f1 := inj _ _ a1 b1 e1
  have f3 := inj _ _ a3 b3 e3
  have f2 : r.m2 = s.m2 := by
    unfold point at e2
    cases q with
    | true =>
      simp only [if_true] at e2
      rw [f1] at e2
      field_simp at e2
      exact e2
    | false => exact inj _ _ a2 b2 (by simpa using e2)
  refine ⟨r, hr, hc, ?_⟩
  simp [diffs, f1, f2, f3]

/-- **C90** Scaling to a range and back gives the number again, unless the range is a point. -/
theorem C90_scaling (x lo hi : ℝ) (h : lo ≠ hi) : invScaler (scaler x lo hi) lo hi = x ∧ scaler (invScaler x lo hi) lo hi = x ∧ scaler lo lo hi = 0 ∧ scaler hi lo hi = 1 := by
  have hd : hi - lo ≠ 0 := sub_ne_zero.2 h.symm
  unfold invScaler scaler
  refine ⟨?_, ?_, ?_, ?_⟩ <;> field_simp <;> ring

/-- A concrete grid of two runs: halfway the value of a column is the mean. -/
example : lerp (1 / 2) 1 3 = 2 := by norm_num [lerp]

end Verif.Single
