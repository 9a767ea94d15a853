import Verif.ProfPred
/-!
C100: predicted composition profiles are profiles of mass fractions between the given values at the centre and at the surface.
-/
namespace Verif.ProfPred

theorem between_le {a b x u : ℚ} (h : Between a b x) (ha : a ≤ u) (hb : b ≤ u) : x ≤ u := h.2.trans (max_le ha hb)
theorem le_between {a b x l : ℚ} (h : Between a b x) (ha : l ≤ a) (hb : l ≤ b) : l ≤ x := (le_min ha hb).trans h.1

/-- C100: whatever boundaries the networks give, the hydrogen of a profile is everywhere between the values at the centre and at the
surface, or it is zero for a stripped star; it changes in one direction only. -/
theorem C100_hydrogen {trained : Name → Bool} {net : Name → ℕ → ℚ} {e : Ends} {st : Name} {h : ℕ → ℚ} {he : Prof}
    (hr : predict trained net e st = .ok (some h, he)) :
    ((∀ k, Between e.cH e.sH (h k)) ∧ OneWay e.cH e.sH h) ∨ (h = fun _ => 0) := by
  have hk := predict_kind hr
  dsimp only at hk
  have hstep : OneWay e.cH e.sH fun k => if idx (net st 0) ≤ k then e.sH else e.cH := by
    constructor
    · intro hle j k hjk
      dsimp only
      split_ifs <;> first | omega | linarith
    · intro hle j k hjk
      dsimp only
      split_ifs <;> first | omega | linarith
  cases hk with
  | flatHe _ => right; rfl
  | stripped _ _ => right; rfl
  | flat _ => exact .inl ⟨fun _ => between_right _ _, fun _ _ _ _ => le_rfl, fun _ _ _ _ => le_rfl⟩
  | depleted _ _ =>
    refine .inl ⟨fun k => ?_, hstep⟩
    dsimp only
    split_ifs
    · exact between_right _ _
    · exact between_left _ _
  | burningH hb _ => exact .inl ⟨bevel_between hb, bevel_oneWay hb⟩
  | burning hb _ _ => exact .inl ⟨bevel_between hb, bevel_oneWay hb⟩

/-- C100: hydrogen and helium come together, and together they are everywhere at least nothing and at most the whole mass. -/
theorem C100_sum {trained : Name → Bool} {net : Name → ℕ → ℚ} {e : Ends} {st : Name} {h : ℕ → ℚ} {p : Prof}
    (hr : predict trained net e st = .ok (some h, p)) (ok : e.Ok) :
    ∃ he, p = some he ∧ ∀ k, 0 ≤ h k ∧ h k ≤ 1 ∧ he k ≤ 1 ∧ 0 ≤ h k + he k ∧ h k + he k ≤ 1 := by
  obtain ⟨h1, h2, h3, h4, h5, h6⟩ := ok
  have hk := predict_kind hr
  dsimp only at hk
  cases hk with
  | flatHe _ => exact ⟨_, rfl, fun k => by refine ⟨?_, ?_, ?_, ?_, ?_⟩ <;> linarith⟩
  | @stripped he hb _ =>
    refine ⟨_, rfl, fun k => ?_⟩
    have a := between_le (bevel_between hb k) (show e.cHe ≤ 1 by linarith) (show e.sHe ≤ 1 by linarith)
    have b := le_between (bevel_between hb k) h3 h4
    refine ⟨?_, ?_, ?_, ?_, ?_⟩ <;> linarith
  | flat _ => exact ⟨_, rfl, fun k => by refine ⟨?_, ?_, ?_, ?_, ?_⟩ <;> linarith⟩
  | depleted hb _ =>
    refine ⟨_, rfl, fun k => ?_⟩
    have a := between_le (bevel_between hb k) h5 h6
    have b := le_between (bevel_between hb k) (show 0 ≤ e.cH + e.cHe by linarith) (show 0 ≤ e.sH + e.sHe by linarith)
    dsimp only
    split_ifs <;> (refine ⟨?_, ?_, ?_, ?_, ?_⟩ <;> linarith)
  | burningH hb _ =>
    refine ⟨_, rfl, fun k => ?_⟩
    have a := between_le (bevel_between hb k) (show e.cH ≤ 1 by linarith) (show e.sH ≤ 1 by linarith)
    have b := le_between (bevel_between hb k) h1 h2
    refine ⟨?_, ?_, ?_, ?_, ?_⟩ <;> linarith
  | burning hb hp _ =>
    refine ⟨_, rfl, fun k => ?_⟩
    have a := between_le (bevel_between hb k) (show e.cH ≤ 1 by linarith) (show e.sH ≤ 1 by linarith)
    have b := le_between (bevel_between hb k) h1 h2
    have a' := between_le (bevel_between hp k) h5 h6
    have b' := le_between (bevel_between hp k) (show 0 ≤ e.cH + e.cHe by linarith) (show 0 ≤ e.sH + e.sHe by linarith)
    refine ⟨?_, ?_, ?_, ?_, ?_⟩ <;> linarith

/-- C100: the outermost cell of a star with hydrogen has the given surface abundances, if the boundaries are inside the star; that of a
burning or depleted stripped star has the given helium. -/
theorem C100_surface {trained : Name → Bool} {net : Name → ℕ → ℚ} {e : Ends} {st : Name} {h he : ℕ → ℚ}
    (hr : predict trained net e st = .ok (some h, some he)) (hb : ∀ i, net st i < 1) (hn : st ≠ (chars! "stripped_He_non_burning")) :
    he 199 = e.sHe ∧ (contains (chars! "stripped_He_C") st = false → h 199 = e.sH) := by
  have hk := predict_kind hr
  dsimp only at hk
  cases hk with
  | flatHe h => exact absurd h hn
  | stripped h1 h2 => exact ⟨bevel_surface h1 (hb 1), fun h3 => by rw [h3] at h2; cases h2⟩
  | flat _ => exact ⟨rfl, fun _ => rfl⟩
  | depleted h1 _ =>
    have h2 := bevel_surface h1 (hb 2)
    have h3 : idx (net st 0) ≤ 199 := idx_lt (hb 0)
    refine ⟨?_, fun _ => if_pos h3⟩
    dsimp only
    rw [h2, if_pos h3]
    ring
  | burningH h1 _ =>
    have h2 := bevel_surface h1 (hb 1)
    refine ⟨?_, fun _ => h2⟩
    dsimp only
    rw [h2]
    ring
  | burning h1 hp _ =>
    have h2 := bevel_surface h1 (hb 1)
    have h3 := bevel_surface hp (hb 3)
    refine ⟨?_, fun _ => h2⟩
    dsimp only
    rw [h2, h3]
    ring

/-- States in which the star still burns hydrogen. -/
def burnsH (st : Name) : Prop := st = (chars! "H-rich_Shell_H_burning") ∨ st = (chars! "H-rich_Core_H_burning")

/-- C100 (in part: not for stars burning hydrogen or not burning at all): the innermost cell has the given abundances of the centre, if the
boundaries are outside of it. -/
theorem C100_center_partial {trained : Name → Bool} {net : Name → ℕ → ℚ} {e : Ends} {st : Name} {h he : ℕ → ℚ}
    (hr : predict trained net e st = .ok (some h, some he)) (hb : ∀ i, 1 / 200 ≤ net st i) (hn : st ≠ (chars! "stripped_He_non_burning"))
    (hf : st ∉ [(chars! "H-rich_non_burning"), (chars! "None")]) :
    (contains (chars! "stripped_He_C") st = false → h 0 = e.cH) ∧ (¬ burnsH st → he 0 = e.cHe) := by
  have hk := predict_kind hr
  dsimp only at hk
  cases hk with
  | flatHe h => exact absurd h hn
  | stripped h1 h2 => exact ⟨fun h3 => (by rw [h3] at h2; cases h2), fun _ => bevel_center h1 (hb 0) (hb 1)⟩
  | flat h => exact absurd h hf
  | depleted h1 _ =>
    have h2 := bevel_center h1 (hb 1) (hb 2)
    have h3 : ¬ idx (net st 0) ≤ 0 := by have := idx_pos (hb 0); omega
    refine ⟨fun _ => if_neg h3, fun _ => ?_⟩
    dsimp only
    rw [h2, if_neg h3]
    ring
  | burningH h1 hs =>
    refine ⟨fun _ => bevel_center h1 (hb 0) (hb 1), fun hx => absurd ?_ hx⟩
    simpa [burnsH] using hs
  | burning h1 hp _ =>
    have h2 := bevel_center h1 (hb 0) (hb 1)
    have h3 := bevel_center hp (hb 2) (hb 3)
    refine ⟨fun _ => h2, fun _ => ?_⟩
    dsimp only
    rw [h2, h3]
    ring

theorem share_anti {a b c d : ℚ} (h1 : a ≤ c) (h2 : b ≤ d) (k : ℕ) : share c d k ≤ share a b k := by
  have i1 := idx_mono h1
  have i2 := idx_mono h2
  by_cases hk : idx b ≤ k
  · have : share a b k = 1 := by
      unfold share
      have hn : ¬ (idx a ≤ k ∧ k < idx b) := by omega
      rw [if_neg hn, if_pos hk]
    rw [this]
    exact (share_range c d k).2
  · by_cases hc : idx c ≤ k
    · unfold share
      rw [if_pos ⟨hc, by omega⟩, if_pos ⟨by omega, by omega⟩]
      have hab : a < b := by
        by_contra hx
        push Not at hx
        have := idx_mono hx
        omega
      have hcd : c < d := by
        by_contra hx
        push Not at hx
        have := idx_mono hx
        omega
      generalize (k : ℚ) / 199 = x
      by_cases hx : x ≤ c
      · have : (x - c) / (d - c) ≤ 0 := div_nonpos_of_nonpos_of_nonneg (by linarith) (by linarith)
        rw [min_eq_right (by linarith), max_eq_left this]
        exact le_max_left _ _
      · push Not at hx
        by_cases hxb : b ≤ x
        · have : 1 ≤ (x - a) / (b - a) := by rw [le_div_iff₀ (by linarith)]; linarith
          rw [min_eq_left this]
          exact max_le (by norm_num) ((min_le_left _ _).trans (le_max_right _ _))
        · push Not at hxb
          refine max_le_max le_rfl (min_le_min le_rfl ?_)
          rw [div_le_div_iff₀ (by linarith) (by linarith)]
          nlinarith [mul_nonneg (sub_nonneg.mpr hx.le) (sub_nonneg.mpr h1), mul_nonneg (sub_nonneg.mpr hxb.le) (sub_nonneg.mpr h1),
            mul_nonneg (sub_nonneg.mpr (h1.trans hx.le)) (sub_nonneg.mpr h2), mul_nonneg (sub_nonneg.mpr hx.le) (sub_nonneg.mpr h2)]
    · have : share c d k = 0 := by
        unfold share
        have hn : ¬ (idx c ≤ k ∧ k < idx d) := fun h => hc h.1
        have hn2 : ¬ idx d ≤ k := by omega
        rw [if_neg hn, if_neg hn2]
      rw [this]
      exact (share_range a b k).1

/-- The boundaries of the sum of hydrogen and helium are not outside those of hydrogen. -/
def Ordered (net : Name → ℕ → ℚ) (st : Name) : Prop :=
  (st ∈ [(chars! "H-rich_Core_He_depleted"), (chars! "H-rich_Core_C_depleted")] → net st 2 ≤ net st 0) ∧
  (st ∈ [(chars! "H-rich_Core_He_burning"), (chars! "H-rich_Core_C_burning")] → net st 2 ≤ net st 0 ∧ net st 3 ≤ net st 1)

/-- C100 (in part: only when the networks order the boundaries, and there is not more hydrogen in the centre): the helium is nowhere
negative. -/
theorem C100_helium_partial {trained : Name → Bool} {net : Name → ℕ → ℚ} {e : Ends} {st : Name} {h : Prof} {he : ℕ → ℚ}
    (hr : predict trained net e st = .ok (h, some he)) (ok : e.Ok) (hH : e.cH ≤ e.sH) (ho : Ordered net st) (k : ℕ) : 0 ≤ he k := by
  obtain ⟨h1, h2, h3, h4, h5, h6⟩ := ok
  have hk := predict_kind hr
  dsimp only at hk
  cases hk with
  | flatHe _ => linarith
  | stripped hb _ => exact le_between (bevel_between hb k) h3 h4
  | flat _ => exact h4
  | depleted hb hs =>
    have hp := bevel_ok hb k
    have hi := idx_mono (ho.1 hs)
    have hr := share_range (net st 1) (net st 2) k
    dsimp only
    rw [hp]
    by_cases hk : idx (net st 0) ≤ k
    · have : share (net st 1) (net st 2) k = 1 := by
        unfold share
        have hn : ¬ (idx (net st 1) ≤ k ∧ k < idx (net st 2)) := by omega
        rw [if_neg hn, if_pos (hi.trans hk)]
      rw [if_pos hk, this]
      linarith
    · rw [if_neg hk]
      nlinarith
  | burningH hb _ =>
    have := between_le (bevel_between hb k) hH le_rfl
    dsimp only
    linarith
  | burning hb hp hs =>
    have e1 := bevel_ok hb k
    have e2 := bevel_ok hp k
    have hr := share_range (net st 2) (net st 3) k
    have hle := share_anti (ho.2 hs).1 (ho.2 hs).2 k
    dsimp only
    rw [e1, e2]
    nlinarith [mul_nonneg h3 (sub_nonneg.mpr hr.2), mul_nonneg h4 hr.1, mul_nonneg (sub_nonneg.mpr hH) (sub_nonneg.mpr hle)]

/-- C100: a state without training data and a compact object give no numbers. -/
theorem C100_none (trained : Name → Bool) (net : Name → ℕ → ℚ) (e : Ends) (st : Name) (hs : st ∈ states)
    (h : trained st = false ∨ st ∈ [(chars! "WD"), (chars! "NS"), (chars! "BH")]) : predict trained net e st = .ok (none, none) := by
  unfold predict
  dsimp only
  rw [if_neg (not_not.mpr hs)]
  by_cases ht : trained st = false
  · rw [if_pos ht]
  · rw [if_neg ht]
    have h := h.resolve_left ht
    have key : ∀ s ∈ [(chars! "WD"), (chars! "NS"), (chars! "BH")], s ≠ (chars! "stripped_He_non_burning") ∧
        contains (chars! "stripped_He_C") s ≠ true ∧ s ∉ [(chars! "H-rich_non_burning"), (chars! "None")] := by decide +kernel
    obtain ⟨k1, k2, k3⟩ := key st h
    rw [if_neg k1, if_neg k2, if_neg k3, if_pos h]

theorem bevel_noKey {c s b0 b1 : ℚ} : bevel c s b0 b1 ≠ .error .key := by
  intro h
  unfold bevel at h
  split_ifs at h
  cases h

theorem bevel_distinct (c s : ℚ) {b0 b1 : ℚ} (h : b0 ≠ b1) : ∃ p, bevel c s b0 b1 = .ok p := by
  unfold bevel
  rw [if_neg fun hx => h hx.1]
  exact ⟨_, rfl⟩

/-- One branch with one profile: the failure is that of the profile. -/
theorem one_noKey {α : Type} {c s b0 b1 : ℚ} {f : (ℕ → ℚ) → Except Err α} (hf : ∀ p, f p ≠ .error .key) :
    (match bevel c s b0 b1 with | .error x => Except.error x | .ok p => f p) ≠ Except.error Err.key := by
  cases hb : bevel c s b0 b1 with
  | error x =>
    intro h
    cases x with
    | key => exact bevel_noKey hb
    | assertion => cases h
  | ok p => exact hf p

/-- C100: a prediction fails for an unknown state only, or when two boundaries that must differ are equal. -/
theorem C100_key (trained : Name → Bool) (net : Name → ℕ → ℚ) (e : Ends) (st : Name) :
    (predict trained net e st = .error .key ↔ st ∉ states) ∧
    ((∀ i j, i ≠ j → net st i ≠ net st j) → st ∈ states → ∃ r, predict trained net e st = .ok r) := by
  constructor
  · constructor
    · intro h hs
      revert h
      unfold predict
      dsimp only
      rw [if_neg (not_not.mpr hs)]
      by_cases h1 : trained st = false
      · rw [if_pos h1]; intro h; cases h
      rw [if_neg h1]
      by_cases h2 : st = (chars! "stripped_He_non_burning")
      · rw [if_pos h2]; intro h; cases h
      rw [if_neg h2]
      by_cases h3 : contains (chars! "stripped_He_C") st = true
      · rw [if_pos h3]; refine one_noKey ?_; intro p h; cases h
      rw [if_neg h3]
      by_cases h4 : st ∈ [(chars! "H-rich_non_burning"), (chars! "None")]
      · rw [if_pos h4]; intro h; cases h
      rw [if_neg h4]
      by_cases h5 : st ∈ [(chars! "WD"), (chars! "NS"), (chars! "BH")]
      · rw [if_pos h5]; intro h; cases h
      rw [if_neg h5]
      by_cases h6 : st ∈ [(chars! "H-rich_Core_He_depleted"), (chars! "H-rich_Core_C_depleted")]
      · rw [if_pos h6]; refine one_noKey ?_; intro p h; cases h
      rw [if_neg h6]
      by_cases h7 : st ∈ [(chars! "H-rich_Shell_H_burning"), (chars! "H-rich_Core_H_burning")]
      · rw [if_pos h7]; refine one_noKey ?_; intro p h; cases h
      rw [if_neg h7]
      refine one_noKey fun p => one_noKey ?_; intro q h; cases h
    · intro hs
      unfold predict
      dsimp only
      rw [if_pos hs]
  · intro hd hs
    obtain ⟨p1, e1⟩ := bevel_distinct e.cHe e.sHe (hd 0 1 (by decide))
    obtain ⟨p2, e2⟩ := bevel_distinct (e.cH + e.cHe) (e.sH + e.sHe) (hd 1 2 (by decide))
    obtain ⟨p3, e3⟩ := bevel_distinct e.cH e.sH (hd 0 1 (by decide))
    obtain ⟨p4, e4⟩ := bevel_distinct (e.cH + e.cHe) (e.sH + e.sHe) (hd 2 3 (by decide))
    unfold predict
    dsimp only
    rw [if_neg (not_not.mpr hs), e1, e2, e3]
    dsimp only
    rw [e4]
    dsimp only
    split_ifs <;> exact ⟨_, rfl⟩

/-- A star with a helium core. -/
def giant : Ends := ⟨0, 7 / 10, 98 / 100, 28 / 100⟩

/-- Boundaries that a network may give: 0.3, 0.5, 0.6, 0.7. -/
def disordered : Name → ℕ → ℚ := fun _ i => if i = 0 then 3 / 10 else if i = 1 then 5 / 10 else if i = 2 then 6 / 10 else 7 / 10

def ordered : Name → ℕ → ℚ := fun _ i => if i = 0 then 6 / 10 else if i = 1 then 3 / 10 else if i = 2 then 5 / 10 else 55 / 100

def heAt (r : Except Err (Prof × Prof)) (k : ℕ) : Option ℚ :=
  match r with
  | .ok (_, some he) => some (he k)
  | _ => none

def hAt (r : Except Err (Prof × Prof)) (k : ℕ) : Option ℚ :=
  match r with
  | .ok (some h, _) => some (h k)
  | _ => none

/-- C100 fails: the boundaries come from separate outputs of a network, and nothing puts them in order. A giant after core helium burning
with proper abundances at both ends gets a layer in which the mass fraction of helium is −0.2. -/
theorem C100_negative_violated : ¬ ∀ (trained : Name → Bool) (net : Name → ℕ → ℚ) (e : Ends) (st : Name) (h : Prof) (he : ℕ → ℚ),
    e.Ok → (∀ i, 0 < net st i ∧ net st i < 1) → e.cH ≤ e.sH → predict trained net e st = .ok (h, some he) → ∀ k < 200, 0 ≤ he k := by
  intro hall
  let e : Ends := ⟨0, 7 / 10, 1 / 2, 28 / 100⟩
  have hok : e.Ok := by
    refine ⟨?_, ?_, ?_, ?_, ?_, ?_⟩ <;> simp only [e] <;> norm_num
  have hnet : ∀ i, 0 < disordered (chars! "H-rich_Core_He_depleted") i ∧ disordered (chars! "H-rich_Core_He_depleted") i < 1 := by
    intro i
    unfold disordered
    split_ifs <;> norm_num
  have h1 : heAt (predict (fun _ => true) disordered e (chars! "H-rich_Core_He_depleted")) 80 = some (-1 / 5) := by decide +kernel
  cases hp : predict (fun _ => true) disordered e (chars! "H-rich_Core_He_depleted") with
  | error x => rw [hp] at h1; cases h1
  | ok r =>
    obtain ⟨a, b⟩ := r
    cases b with
    | none => rw [hp] at h1; cases h1
    | some he =>
      have := hall _ _ e _ a he hok hnet (by simp only [e]; norm_num) hp 80 (by norm_num)
      rw [hp] at h1
      simp only [heAt, Option.some.injEq] at h1
      rw [h1] at this
      norm_num at this

/-- C100 fails: for a star that burns hydrogen the given helium of the centre is never used. -/
theorem C100_center_violated (trained : Name → Bool) (net : Name → ℕ → ℚ) (e : Ends) (x : ℚ) (st : Name) (hs : burnsH st) :
    predict trained net { e with cHe := x } st = predict trained net e st := by
  have key : ∀ s, burnsH s → s ≠ (chars! "stripped_He_non_burning") ∧ contains (chars! "stripped_He_C") s ≠ true ∧
      s ∉ [(chars! "H-rich_non_burning"), (chars! "None")] ∧ s ∉ [(chars! "WD"), (chars! "NS"), (chars! "BH")] ∧
      s ∉ [(chars! "H-rich_Core_He_depleted"), (chars! "H-rich_Core_C_depleted")] ∧
      s ∈ [(chars! "H-rich_Shell_H_burning"), (chars! "H-rich_Core_H_burning")] := by
    rintro s (rfl | rfl) <;> decide +kernel
  obtain ⟨k1, k2, k3, k4, k5, k6⟩ := key st hs
  unfold predict
  dsimp only
  by_cases h0 : st ∉ states
  · rw [if_pos h0, if_pos h0]
  by_cases h1 : trained st = false
  · rw [if_neg h0, if_pos h1, if_neg h0, if_pos h1]
  rw [if_neg h0, if_neg h1, if_neg k1, if_neg k2, if_neg k3, if_neg k4, if_neg k5, if_pos k6,
    if_neg h0, if_neg h1, if_neg k1, if_neg k2, if_neg k3, if_neg k4, if_neg k5, if_pos k6]

/-- C100 fails: the states of stars with accreted helium, which the same package gives to stars, are unknown here, and so is the state of
a star that burns helium in a shell. -/
theorem C100_unknown_violated (trained : Name → Bool) (net : Name → ℕ → ℚ) (e : Ends) (st : Name)
    (h : st ∈ [(chars! "accreted_He_Core_H_burning"), (chars! "accreted_He_Core_He_burning"), (chars! "accreted_He_Shell_H_burning"),
      (chars! "accreted_He_non_burning"), (chars! "accreted_He_Core_He_depleted"), (chars! "accreted_He_Core_C_depleted"),
      (chars! "H-rich_Shell_He_burning"), (chars! "stripped_He_Shell_He_burning"), (chars! "massless_remnant")]) :
    predict trained net e st = .error .key := by
  have key : ∀ s ∈ [(chars! "accreted_He_Core_H_burning"), (chars! "accreted_He_Core_He_burning"), (chars! "accreted_He_Shell_H_burning"),
      (chars! "accreted_He_non_burning"), (chars! "accreted_He_Core_He_depleted"), (chars! "accreted_He_Core_C_depleted"),
      (chars! "H-rich_Shell_He_burning"), (chars! "stripped_He_Shell_He_burning"), (chars! "massless_remnant")], s ∉ states := by
    decide +kernel
  exact (C100_key trained net e st).1.mpr (key st h)

/-- C100 fails: when a network gives the same boundary twice (as a saturated output does) the prediction fails instead of giving a step. -/
theorem C100_equal_violated (trained : Name → Bool) (net : Name → ℕ → ℚ) (e : Ends) (st : Name) (hs : burnsH st) (ht : trained st = true)
    (hn : net st 0 = net st 1) (hd : e.cH ≠ e.sH) : predict trained net e st = .error .assertion := by
  have key : ∀ s, burnsH s → s ∈ states ∧ s ≠ (chars! "stripped_He_non_burning") ∧ contains (chars! "stripped_He_C") s ≠ true ∧
      s ∉ [(chars! "H-rich_non_burning"), (chars! "None")] ∧ s ∉ [(chars! "WD"), (chars! "NS"), (chars! "BH")] ∧
      s ∉ [(chars! "H-rich_Core_He_depleted"), (chars! "H-rich_Core_C_depleted")] ∧
      s ∈ [(chars! "H-rich_Shell_H_burning"), (chars! "H-rich_Core_H_burning")] := by
    rintro s (rfl | rfl) <;> decide +kernel
  obtain ⟨k0, k1, k2, k3, k4, k5, k6⟩ := key st hs
  have hb : bevel e.cH e.sH (net st 0) (net st 1) = .error .assertion := by
    unfold bevel
    rw [if_pos ⟨hn, hd⟩]
  unfold predict
  dsimp only
  rw [if_neg (not_not.mpr k0), if_neg (by rw [ht]; decide), if_neg k1, if_neg k2, if_neg k3, if_neg k4, if_neg k5, if_pos k6, hb]

/-! ### Cases -/

-- a giant with ordered boundaries: hydrogen from a step, helium around it
example : giant.Ok ∧ giant.cH ≤ giant.sH ∧ Ordered ordered (chars! "H-rich_Core_He_depleted") ∧
    hAt (predict (fun _ => true) ordered giant (chars! "H-rich_Core_He_depleted")) 119 = some 0 ∧
    hAt (predict (fun _ => true) ordered giant (chars! "H-rich_Core_He_depleted")) 120 = some (7 / 10) ∧
    heAt (predict (fun _ => true) ordered giant (chars! "H-rich_Core_He_depleted")) 0 = some (98 / 100) ∧
    heAt (predict (fun _ => true) ordered giant (chars! "H-rich_Core_He_depleted")) 199 = some (28 / 100) := by
  refine ⟨⟨?_, ?_, ?_, ?_, ?_, ?_⟩, ?_, ⟨?_, ?_⟩, ?_⟩
  · norm_num [giant]
  · norm_num [giant]
  · norm_num [giant]
  · norm_num [giant]
  · norm_num [giant]
  · norm_num [giant]
  · norm_num [giant]
  · intro _; norm_num [ordered]
  · intro h; exact absurd h (by decide +kernel)
  · decide +kernel

-- a main-sequence star: the hydrogen rises between the boundaries, the helium of the centre is what is left of the sum at the surface
example : hAt (predict (fun _ => true) disordered ⟨1 / 10, 7 / 10, 88 / 100, 28 / 100⟩ (chars! "H-rich_Core_H_burning")) 80
      = some (1 / 10 + 6 / 10 / (2 / 10) * (80 / 199 - 3 / 10)) ∧
    heAt (predict (fun _ => true) disordered ⟨1 / 10, 7 / 10, 5 / 10, 28 / 100⟩ (chars! "H-rich_Core_H_burning")) 0 = some (88 / 100) := by
  decide +kernel

end Verif.ProfPred
