import Verif.CEParam
import Mathlib.Tactic.FinCases
/-!
C96: the common-envelope parameters stored for a run describe cores that are nested as their thresholds are, and the values at helium
depletion are those of the first depleted model.
-/
namespace Verif.CEParam
open Verif.Profile
open Verif.FlowChart (Star starHRich starNormal)
open Verif.StarState (State)

noncomputable section
open Classical

/-- For a hydrogen-rich star with complete abundances the core of a higher threshold contains that of a lower one. -/
theorem entry_mono (s : Star) (hs : s ∈ hRich) (f g : ℝ) (hfg : f ≤ g) (hg : g ≤ 0.9) (cells : List Cell) (hin : Inward cells)
    (hXYZ : ∀ c ∈ cells, c.X + c.Y + c.Z = 1) (hm : ∀ c ∈ cells, 0 ≤ c.mass ∧ 0 ≤ c.radius) (a b : P) (ma mb ra rb : ℝ)
    (ha : entry s true false f cells = .ok a) (hb : entry s true false g cells = .ok b)
    (h1 : a.m = some ma) (h2 : b.m = some mb) (h3 : a.r = some ra) (h4 : b.r = some rb) : ma ≤ mb ∧ ra ≤ rb := by
  have hsR : s ∈ starHRich := by fin_cases hs <;> decide
  have hcond : ∀ x : ℝ, x ≤ 0.9 → ∃ p, coreCond s true false x = some p ∧ ∀ c ∈ cells, p c ↔ c.X ≤ x := by
    intro x hx
    unfold coreCond
    rw [if_pos ⟨hsR, rfl⟩]
    refine ⟨_, rfl, fun c hc => ⟨fun h => h.1, fun h => ⟨h, ?_⟩⟩⟩
    have := hXYZ c hc
    norm_num at hx ⊢
    linarith
  have hunf : ∀ (x : ℝ) (q : P) (m r : ℝ), entry s true false x cells = .ok q → q.m = some m → q.r = some r →
      ∃ k l, coreBoundary s true none (some x) false cells = .ok k ∧ lambdaFromProfile s false x 1 0.001 k cells = .ok (some l) ∧
        l.mc = m ∧ l.rc = r := by
    intro x q m r h hm hr
    unfold entry at h
    cases hk : coreBoundary s true none (some x) false cells with
    | error e => rw [hk] at h; cases h
    | ok k =>
      rw [hk] at h
      dsimp only at h
      cases hl : lambdaFromProfile s false x 1 0.001 k cells with
      | error e => rw [hl] at h; cases h
      | ok o =>
        rw [hl] at h
        cases o with
        | none => cases h; cases hm
        | some l =>
          cases h
          exact ⟨k, l, rfl, hl, Option.some.inj hm, Option.some.inj hr⟩
  obtain ⟨k, l, hk, hl, rfl, rfl⟩ := hunf f a ma ra ha h1 h3
  obtain ⟨k', l', hk', hl', rfl, rfl⟩ := hunf g b mb rb hb h2 h4
  obtain ⟨p, hp, hpc⟩ := hcond f (hfg.trans hg)
  obtain ⟨p', hp', hpc'⟩ := hcond g hg
  obtain ⟨_, e, hcase⟩ := C42_first s false none f cells p hp
  rw [hk] at e; cases e
  obtain ⟨_, e, hcase'⟩ := C42_first s false none g cells p' hp'
  rw [hk'] at e; cases e
  cases cells with
  | nil => unfold lambdaFromProfile at hl; cases hl
  | cons c0 cs =>
  have hc0 := hm c0 (by simp)
  -- the outer core is at least empty and at most the star
  have hbetween : ∀ (x : ℝ) (n : ℕ) (q : Lam), x ≤ 0.9 → coreBoundary s true none (some x) false (c0 :: cs) = .ok ((n : ℤ) + 1) →
      lambdaFromProfile s false x 1 0.001 ((n : ℤ) + 1) (c0 :: cs) = .ok (some q) →
      ∃ ct cb, (c0 :: cs)[n + 1]? = some ct ∧ (c0 :: cs)[n]? = some cb ∧ ct.X ≤ x ∧ x < cb.X ∧
        ct.mass ≤ q.mc ∧ q.mc ≤ cb.mass ∧ ct.radius ≤ q.rc ∧ q.rc ≤ cb.radius :=
    fun x n q hx h1 h2 => C59_he_core_between s hs x 1 0.001 hx _ hin hXYZ n h1 q h2
  have horder : ∀ (i j : ℕ) (ci cj : Cell), i ≤ j → (c0 :: cs)[i]? = some ci → (c0 :: cs)[j]? = some cj →
      cj.mass ≤ ci.mass ∧ cj.radius ≤ ci.radius := by
    intro i j ci cj hij hi hj
    rcases Nat.eq_or_lt_of_le hij with rfl | hlt
    · rw [hi] at hj; cases hj; exact ⟨le_rfl, le_rfl⟩
    · obtain ⟨a1, a2⟩ := List.getElem?_eq_some_iff.1 hi
      obtain ⟨b1, b2⟩ := List.getElem?_eq_some_iff.1 hj
      rw [← a2, ← b2]
      exact (List.pairwise_iff_getElem.1 hin) _ _ a1 b1 hlt
  have hnonneg : 0 ≤ l'.mc ∧ 0 ≤ l'.rc := by
    rcases hcase' with ⟨rfl, -⟩ | ⟨n, c, rfl, hc, -, -⟩
    · have := (C59_extremes s false g 1 0.001 c0 cs l').2 hl'
      exact ⟨this.1.ge, this.2.ge⟩
    · cases n with
      | zero =>
        have := (C59_extremes s false g 1 0.001 c0 cs l').1
        rw [Nat.cast_zero, this] at hl'
        cases hl'
        exact hc0
      | succ n =>
        obtain ⟨ct, cb, e1, -, -, -, e2, -, e3, -⟩ := hbetween g n l' hg (by exact_mod_cast hk') (by exact_mod_cast hl')
        have := hm ct (List.mem_of_getElem? e1)
        exact ⟨this.1.trans e2, this.2.trans e3⟩
  rcases hcase with ⟨rfl, -⟩ | ⟨n, c, rfl, hc, hpn, hbef⟩
  · have := (C59_extremes s false f 1 0.001 c0 cs l).2 hl
    rw [this.1, this.2]
    exact hnonneg
  · have hXc : c.X ≤ g := ((hpc c (List.mem_of_getElem? hc)).1 hpn).trans hfg
    obtain ⟨n', c', rfl, hc', hpn', hbef'⟩ : ∃ (n' : ℕ) (c' : Cell), k' = n' ∧ (c0 :: cs)[n']? = some c' ∧ p' c' ∧
        ∀ j < n', ∀ d, (c0 :: cs)[j]? = some d → ¬ p' d := by
      rcases hcase' with ⟨-, h⟩ | h
      · exact absurd ((hpc' c (List.mem_of_getElem? hc)).2 hXc) (h c (List.mem_of_getElem? hc))
      · exact h
    have hle : n' ≤ n := by
      by_contra hlt
      exact hbef' n (by omega) c hc ((hpc' c (List.mem_of_getElem? hc)).2 hXc)
    cases n' with
    | zero =>
      have := (C59_extremes s false g 1 0.001 c0 cs l').1
      rw [Nat.cast_zero, this] at hl'
      cases hl'
      dsimp only
      cases n with
      | zero =>
        have := (C59_extremes s false f 1 0.001 c0 cs l).1
        rw [Nat.cast_zero, this] at hl
        cases hl
        exact ⟨le_rfl, le_rfl⟩
      | succ n =>
        obtain ⟨ct, cb, -, e1, -, -, -, e2, -, e3⟩ := hbetween f n l (hfg.trans hg) (by exact_mod_cast hk) (by exact_mod_cast hl)
        have := inward_head hin rfl (List.mem_of_getElem? e1)
        exact ⟨e2.trans this.1, e3.trans this.2⟩
    | succ n' =>
      cases n with
      | zero => omega
      | succ n =>
        have hl1 : lambdaFromProfile s false f 1 0.001 ((n : ℤ) + 1) (c0 :: cs) = .ok (some l) := by exact_mod_cast hl
        have hl1' : lambdaFromProfile s false g 1 0.001 ((n' : ℤ) + 1) (c0 :: cs) = .ok (some l') := by exact_mod_cast hl'
        obtain ⟨ct, cb, e1, e2, e3, e4, e5, e6, e7, e8⟩ := hbetween f n l (hfg.trans hg) (by exact_mod_cast hk) hl1
        obtain ⟨ct', cb', d1, d2, d3, d4, d5, d6, d7, d8⟩ := hbetween g n' l' hg (by exact_mod_cast hk') hl1'
        rcases Nat.lt_or_ge n' n with hlt | hge
        · have := horder (n' + 1) n ct' cb (by omega) d1 e2
          exact ⟨e6.trans (this.1.trans d5), e8.trans (this.2.trans d7)⟩
        · have : n' = n := by omega
          subst this
          rw [e1] at d1; cases d1
          rw [e2] at d2; cases d2
          have hel : elemOf s false = some Cell.X := by
            unfold elemOf
            exact (if_pos hs).trans rfl
          obtain ⟨q1, q2⟩ := lambda_inner hel e1 e2 hl1
          obtain ⟨w1, w2⟩ := lambda_inner hel e1 e2 hl1'
          have ho := horder n' (n' + 1) cb ct (by omega) e2 e1
          have hden : ct.X - cb.X < 0 := by linarith
          have hw : (g - cb.X) / (ct.X - cb.X) ≤ (f - cb.X) / (ct.X - cb.X) :=
            div_le_div_of_nonpos_of_le hden.le (by linarith)
          rw [q1, q2, w1, w2]
          constructor
          · nlinarith [ho.1, hw]
          · nlinarith [ho.2, hw]

/-- The core of a hydrogen-rich star is inside the star. -/
theorem entry_inside (s : Star) (hs : s ∈ hRich) (f : ℝ) (hf : f ≤ 0.9) (c0 : Cell) (cs : List Cell) (hin : Inward (c0 :: cs))
    (hXYZ : ∀ c ∈ c0 :: cs, c.X + c.Y + c.Z = 1) (hm : ∀ c ∈ c0 :: cs, 0 ≤ c.mass ∧ 0 ≤ c.radius) (a : P) (m r : ℝ)
    (ha : entry s true false f (c0 :: cs) = .ok a) (h1 : a.m = some m) (h2 : a.r = some r) : m ≤ c0.mass ∧ r ≤ c0.radius := by
  have hsR : s ∈ starHRich := by fin_cases hs <;> decide
  have hcc : ∃ p, coreCond s true false f = some p := by
    unfold coreCond; rw [if_pos ⟨hsR, rfl⟩]; exact ⟨_, rfl⟩
  obtain ⟨p, hp⟩ := hcc
  obtain ⟨k, hk, hcase⟩ := C42_first s false none f (c0 :: cs) p hp
  unfold entry at ha
  rw [hk] at ha
  dsimp only at ha
  cases hl : lambdaFromProfile s false f 1 0.001 k (c0 :: cs) with
  | error e => rw [hl] at ha; cases ha
  | ok o =>
    rw [hl] at ha
    cases o with
    | none => cases ha; cases h1
    | some l =>
      cases ha
      cases h1
      cases h2
      have hc0 := hm c0 (by simp)
      rcases hcase with ⟨rfl, -⟩ | ⟨n, c, rfl, -, -, -⟩
      · have := (C59_extremes s false f 1 0.001 c0 cs l).2 hl
        rw [this.1, this.2]
        exact hc0
      · cases n with
        | zero =>
          have := (C59_extremes s false f 1 0.001 c0 cs l).1
          rw [Nat.cast_zero, this] at hl
          cases hl
          exact ⟨le_rfl, le_rfl⟩
        | succ n =>
          obtain ⟨ct, cb, -, e1, -, -, -, e2, -, e3⟩ :=
            C59_he_core_between s hs f 1 0.001 hf _ hin hXYZ n (by exact_mod_cast hk) l (by exact_mod_cast hl)
          have := inward_head hin rfl (List.mem_of_getElem? e1)
          exact ⟨e2.trans this.1, e3.trans this.2⟩

theorem params_hRich {s : Star} (hs : s ∈ hRich) {mass radius : ℝ} {hasX : Bool} {cells : List Cell} {p : Params}
    (h : params (some s) mass radius (some (hasX, cells)) = .ok p) :
    entry s hasX false 0.01 cells = .ok p.one ∧ entry s hasX false 0.1 cells = .ok p.ten ∧
      entry s hasX false 0.3 cells = .ok p.thirty ∧ entry s hasX true 0.1 cells = .ok p.pure := by
  unfold params at h
  dsimp only at h
  rw [if_pos hs] at h
  cases h1 : entry s hasX false 0.01 cells with
  | error e => rw [h1] at h; cases h
  | ok a =>
  rw [h1] at h; dsimp only at h
  cases h2 : entry s hasX false 0.1 cells with
  | error e => rw [h2] at h; cases h
  | ok b =>
  rw [h2] at h; dsimp only at h
  cases h3 : entry s hasX false 0.3 cells with
  | error e => rw [h3] at h; cases h
  | ok c =>
  rw [h3] at h; dsimp only at h
  cases h4 : entry s hasX true 0.1 cells with
  | error e => rw [h4] at h; cases h
  | ok d => rw [h4] at h; cases h; exact ⟨rfl, rfl, rfl, rfl⟩

/-- Each value stored is that of its own threshold; only the last is for the carbon-oxygen core. -/
theorem C96_thresholds (s : Star) (hs : s ∈ hRich) (mass radius : ℝ) (hasX : Bool) (cells : List Cell) (p : Params)
    (h : params (some s) mass radius (some (hasX, cells)) = .ok p) :
    entry s hasX false 0.01 cells = .ok p.one ∧ entry s hasX false 0.1 cells = .ok p.ten ∧
      entry s hasX false 0.3 cells = .ok p.thirty ∧ entry s hasX true 0.1 cells = .ok p.pure := params_hRich hs h

/-- The cores of a hydrogen-rich star are nested, in mass and radius, and inside the star. -/
theorem C96_nested (s : Star) (hs : s ∈ hRich) (mass radius : ℝ) (c0 : Cell) (cs : List Cell) (hin : Inward (c0 :: cs))
    (hXYZ : ∀ c ∈ c0 :: cs, c.X + c.Y + c.Z = 1) (hm : ∀ c ∈ c0 :: cs, 0 ≤ c.mass ∧ 0 ≤ c.radius) (p : Params)
    (h : params (some s) mass radius (some (true, c0 :: cs)) = .ok p) (m1 m2 m3 r1 r2 r3 : ℝ)
    (e1 : p.one.m = some m1) (e2 : p.ten.m = some m2) (e3 : p.thirty.m = some m3)
    (d1 : p.one.r = some r1) (d2 : p.ten.r = some r2) (d3 : p.thirty.r = some r3) :
    m1 ≤ m2 ∧ m2 ≤ m3 ∧ m3 ≤ c0.mass ∧ r1 ≤ r2 ∧ r2 ≤ r3 ∧ r3 ≤ c0.radius := by
  obtain ⟨h1, h2, h3, -⟩ := params_hRich hs h
  have a1 := entry_mono s hs 0.01 0.1 (by norm_num) (by norm_num) _ hin hXYZ hm _ _ m1 m2 r1 r2 h1 h2 e1 e2 d1 d2
  have a2 := entry_mono s hs 0.1 0.3 (by norm_num) (by norm_num) _ hin hXYZ hm _ _ m2 m3 r2 r3 h2 h3 e2 e3 d2 d3
  have a3 := entry_inside s hs 0.3 (by norm_num) c0 cs hin hXYZ hm _ m3 r3 h3 e3 d3
  exact ⟨a1.1, a2.1, a3.1, a1.2, a2.2, a3.2⟩

/-- A stripped helium star is its own helium core; only the carbon-oxygen core is taken from the profile. -/
theorem C96_stripped (s : Star) (hs : s ∈ stripped) (mass radius : ℝ) (hasX : Bool) (cells : List Cell) (p : Params)
    (h : params (some s) mass radius (some (hasX, cells)) = .ok p) :
    entry s hasX false 0.1 cells = .ok p.pure ∧ ∀ q ∈ [p.one, p.ten, p.thirty], q = ⟨some mass, some radius, none⟩ := by
  have hn : s ∉ hRich := by fin_cases hs <;> decide
  unfold params at h
  dsimp only at h
  rw [if_neg hn, if_pos hs] at h
  cases h1 : entry s hasX false 0.1 cells with
  | error e => rw [h1] at h; cases h
  | ok d => rw [h1] at h; cases h; exact ⟨rfl, by simp⟩

/-- Without a profile nothing is known. -/
theorem C96_no_profile (s : Option Star) (mass radius : ℝ) : params s mass radius none = .ok ⟨P.nan, P.nan, P.nan, P.nan⟩ := rfl

/-- No parameters are stored for stars with an accreted helium surface, which are normal stars and can start a common envelope, whatever
their profile. -/
theorem C96_accreted_violated (s : Star) (hs : s ∈ [Star.aCoreH, .aShellH, .aNon, .aCoreHe]) :
    s ∈ starNormal ∧ ∀ mass radius pr, params (some s) mass radius pr = .ok ⟨P.nan, P.nan, P.nan, P.nan⟩ := by
  refine ⟨by fin_cases hs <;> decide, fun mass radius pr => ?_⟩
  have h1 : s ∉ hRich := by fin_cases hs <;> decide
  have h2 : s ∉ stripped := by fin_cases hs <;> decide
  unfold params
  cases pr with
  | none => rfl
  | some q => dsimp only; rw [if_neg h1, if_neg h2]

/-- A star without metal-rich or hydrogen-poor cells has a core of no mass; one that starts hydrogen-poor is all core. -/
theorem C96_extremes (s : Star) (hs : s ∈ hRich) (f : ℝ) (c0 : Cell) (cs : List Cell) (a : P)
    (ha : entry s true false f (c0 :: cs) = .ok a) :
    ((∀ c ∈ c0 :: cs, f < c.X) → a.m ≠ none → a.m = some 0 ∧ a.r = some 0) ∧
    (c0.X ≤ f → 0.1 ≤ c0.Y + c0.Z → a = ⟨some c0.mass, some c0.radius, none⟩) := by
  have hsR : s ∈ starHRich := by fin_cases hs <;> decide
  obtain ⟨p, hp, hpc⟩ : ∃ p, coreCond s true false f = some p ∧ ∀ c, p c ↔ c.X ≤ f ∧ 0.1 ≤ c.Y + c.Z := by
    unfold coreCond; rw [if_pos ⟨hsR, rfl⟩]; exact ⟨_, rfl, fun c => Iff.rfl⟩
  obtain ⟨k, hk, hcase⟩ := C42_first s false none f (c0 :: cs) p hp
  unfold entry at ha
  rw [hk] at ha
  dsimp only at ha
  constructor
  · intro hX hne
    have : k = -1 := by
      rcases hcase with ⟨h, -⟩ | ⟨n, c, -, hc, hpn, -⟩
      · exact h
      · exact absurd ((hpc c).1 hpn).1 (not_le.2 (hX c (List.mem_of_getElem? hc)))
    subst this
    cases hl : lambdaFromProfile s false f 1 0.001 (-1) (c0 :: cs) with
    | error e => rw [hl] at ha; cases ha
    | ok o =>
      rw [hl] at ha
      cases o with
      | none => cases ha; exact absurd rfl hne
      | some l =>
        cases ha
        have := (C59_extremes s false f 1 0.001 c0 cs l).2 hl
        simp [this.1, this.2]
  · intro hX hZ
    have : k = 0 := by
      rcases hcase with ⟨-, h⟩ | ⟨n, c, rfl, hc, hpn, hb⟩
      · exact absurd ((hpc c0).2 ⟨hX, hZ⟩) (h c0 (by simp))
      · cases n with
        | zero => rfl
        | succ n => exact absurd ((hpc c0).2 ⟨hX, hZ⟩) (hb 0 (by omega) c0 rfl)
    subst this
    rw [(C59_extremes s false f 1 0.001 c0 cs ⟨none, 0, 0⟩).1] at ha
    cases ha
    rfl

/-- A hydrogen-rich star with a helium core that meets the hypotheses on profiles. -/
def sample : List Cell := [⟨8, 100, 4, 0, 0.6, 0.39, 0.01⟩, ⟨4, 1, 4, 0, 0, 0.99, 0.01⟩]

example : Inward sample ∧ (∀ c ∈ sample, c.X + c.Y + c.Z = 1) ∧ ∀ c ∈ sample, 0 ≤ c.mass ∧ 0 ≤ c.radius := by
  refine ⟨?_, ?_, ?_⟩
  · unfold Inward sample
    rw [List.pairwise_cons]
    refine ⟨?_, List.pairwise_singleton _ _⟩
    intro b hb
    simp only [List.mem_singleton] at hb
    subst hb
    norm_num
  · intro c hc
    simp only [sample, List.mem_cons, List.not_mem_nil, or_false] at hc
    rcases hc with rfl | rfl <;> norm_num
  · intro c hc
    simp only [sample, List.mem_cons, List.not_mem_nil, or_false] at hc
    rcases hc with rfl | rfl <;> norm_num

end

/-! ### Helium depletion -/

/-- The values are those of the first model of the class used, which is the hydrogen-rich one if the history has it. -/
theorem C96_depletion {A : Type} (l : List State) (co avg : List A) (a b : A) (h : patton (some l) co avg = .ok (some (a, b))) :
    ∃ (s : State) (i : ℕ), (s = hDep ∨ (s = sDep ∧ hDep ∉ l)) ∧ l[i]? = some s ∧ (∀ j < i, l[j]? ≠ some s) ∧
      co[i]? = some a ∧ avg[i]? = some b := by
  have key : ∀ s, s ∈ l → (match at? co (l.findIdx (· = s)), at? avg (l.findIdx (· = s)) with
      | .ok a, .ok b => (.ok (some (a, b)) : Except Err (Option (A × A)))
      | .error e, _ => .error e
      | _, .error e => .error e) = .ok (some (a, b)) →
      ∃ i : ℕ, l[i]? = some s ∧ (∀ j < i, l[j]? ≠ some s) ∧ co[i]? = some a ∧ avg[i]? = some b := by
    intro s hs hq
    have hlt : l.findIdx (· = s) < l.length := List.findIdx_lt_length_of_exists ⟨s, hs, by simp⟩
    refine ⟨l.findIdx (· = s), ?_, fun j hj hj' => ?_, ?_⟩
    · have := List.findIdx_getElem (p := fun x => decide (x = s)) (w := hlt)
      rw [List.getElem?_eq_getElem hlt]
      simpa using this
    · have := List.not_of_lt_findIdx (p := fun x => decide (x = s)) hj
      rw [List.getElem?_eq_getElem (hj.trans hlt)] at hj'
      simp [Option.some.inj hj'] at this
    · unfold at? at hq
      cases h1 : co[l.findIdx (· = s)]? with
      | none => rw [h1] at hq; cases hq
      | some x =>
        cases h2 : avg[l.findIdx (· = s)]? with
        | none => rw [h1, h2] at hq; cases hq
        | some y => rw [h1, h2] at hq; cases hq; exact ⟨rfl, rfl⟩
  unfold patton at h
  dsimp only at h
  by_cases h1 : hDep ∈ l
  · rw [if_pos h1] at h
    obtain ⟨i, hi⟩ := key hDep h1 h
    exact ⟨hDep, i, .inl rfl, hi⟩
  · rw [if_neg h1] at h
    by_cases h2 : sDep ∈ l
    · rw [if_pos h2] at h
      obtain ⟨i, hi⟩ := key sDep h2 h
      exact ⟨sDep, i, .inr ⟨rfl, h1⟩, hi⟩
    · rw [if_neg h2] at h; cases h

/-- There are values exactly if one of the two classes occurs, for histories of equal lengths. -/
theorem C96_depletion_iff {A : Type} (l : List State) (co avg : List A) (h1 : co.length = l.length) (h2 : avg.length = l.length) :
    (∃ r, patton (some l) co avg = .ok r) ∧ ((∃ p, patton (some l) co avg = .ok (some p)) ↔ hDep ∈ l ∨ sDep ∈ l) := by
  have key : ∀ s, s ∈ l → ∃ p, (match at? co (l.findIdx (· = s)), at? avg (l.findIdx (· = s)) with
      | .ok a, .ok b => (.ok (some (a, b)) : Except Err (Option (A × A)))
      | .error e, _ => .error e
      | _, .error e => .error e) = .ok (some p) := by
    intro s hs
    have hlt : l.findIdx (· = s) < l.length := List.findIdx_lt_length_of_exists ⟨s, hs, by simp⟩
    unfold at?
    rw [List.getElem?_eq_getElem (by omega : _ < co.length), List.getElem?_eq_getElem (by omega : _ < avg.length)]
    exact ⟨_, rfl⟩
  unfold patton
  dsimp only
  by_cases c1 : hDep ∈ l
  · rw [if_pos c1]
    obtain ⟨p, hp⟩ := key hDep c1
    exact ⟨⟨_, hp⟩, fun _ => .inl c1, fun _ => ⟨p, hp⟩⟩
  · rw [if_neg c1]
    by_cases c2 : sDep ∈ l
    · rw [if_pos c2]
      obtain ⟨p, hp⟩ := key sDep c2
      exact ⟨⟨_, hp⟩, fun _ => .inr c2, fun _ => ⟨p, hp⟩⟩
    · rw [if_neg c2]
      refine ⟨⟨_, rfl⟩, fun ⟨p, hp⟩ => ?_, fun h => ?_⟩
      · cases hp
      · rcases h with h | h <;> contradiction

/-- If the star is depleted while stripped and only later counted as hydrogen-rich, the later model is used. -/
theorem C96_depletion_first_violated : ∃ (l : List State) (co avg : List ℚ), l.length = co.length ∧ l.length = avg.length ∧
    l.findIdx (fun s => s = hDep ∨ s = sDep) = 1 ∧ co[1]? = some 2 ∧ patton (some l) co avg = .ok (some (3, 3)) :=
  ⟨[.normal .stripped .coreHe, sDep, hDep], [1, 2, 3], [1, 2, 3], by decide +kernel⟩

/-- A model classified as depleted with an accreted helium surface has no values, although it is the depleted model for the tables. -/
theorem C96_depletion_accreted_violated : ∃ (i : Verif.StarState.Inputs),
    Verif.StarState.inferNormal id (-1) i = .normal .accreted .coreHeDep ∧
    Verif.Profile.heDepletion id (-1) [i] = 0 ∧
    patton (some [Verif.StarState.inferNormal id (-1) i]) [(1 : ℚ)] [1] = .ok none :=
  ⟨⟨some 5, some 0, some (1 / 200), some 0, some 1, some (-20), some (-20), some 0⟩, by decide +kernel⟩

example : patton (some [.normal .Hrich .coreHe, hDep, hDep]) [(1 : ℚ), 2, 3] [4, 5, 6] = .ok (some (2, 5)) := by decide +kernel

end Verif.CEParam
