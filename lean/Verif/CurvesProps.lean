import Verif.Curves
import Verif.GridPlot
import Mathlib.Analysis.SpecialFunctions.Log.Base
import Mathlib.Tactic.NormNum

/-!
# C139: curves and diagrams of runs

A plot of runs shows for each run its own columns; limits span what is shown; each point of a diagram has the colour of its state.
-/

namespace Verif.Curves

open Verif.GridPlot (mapE_rel)

/-! ### Runs -/

/-- A list of numbers gives these runs in order, a number the one run, anything else is an error. -/
theorem C139_runs {A : Type} (get : ℕ → Except Err A) (f : ℕ → A) (l : List ℕ) (i : ℕ) (hl : ∀ j ∈ l, get j = .ok (f j)) (hi : get i = .ok (f i)) :
    runs get (.many l) = .ok (l.map f) ∧ runs get (.one i) = .ok [f i] ∧ runs get .other = .error .type := by
  refine ⟨?_, by simp [runs, hi, Except.map], rfl⟩
  simp only [runs]
  induction l with
  | nil => rfl
  | cons j l ih =>
    unfold MesaStop.mapE
    rw [hl j List.mem_cons_self, ih fun k hk => hl k (List.mem_cons_of_mem _ hk)]
    rfl

/-- A run that does not exist is an error. -/
theorem C139_no_run {A : Type} (get : ℕ → Except Err A) (l : List ℕ) (i : ℕ) (e : Err) (hi : get i = .error e) (hm : i ∈ l) :
    ∀ r, runs get (.many l) ≠ .ok r := by
  intro r h
  have h2 := mapE_rel (show MesaStop.mapE get l = .ok r from h)
  obtain ⟨k, hk, e'⟩ := List.getElem_of_mem hm
  have hh := List.forall₂_iff_get.1 h2
  have ha := hh.2 k hk (by rw [← hh.1]; exact hk)
  simp only [List.get_eq_getElem, e', hi] at ha
  cases ha

/-! ### Curves -/

theorem columns_ok {lg : ℚ → ℚ} {log : Bool} {hs : List (Option Hist)} {n : Name} {l : List (List ℚ)} (h : columns lg log hs n = .ok l) :
    List.Forall₂ (fun o c => ∃ h, o = some h ∧ n ∈ h.names ∧ c = scaled lg log (h.rows.map (· n))) hs l := by
  unfold columns at h
  cases hm : MesaStop.mapE (col · n) hs with
  | error e => rw [hm] at h; cases h
  | ok m =>
    rw [hm] at h
    cases h
    have := GridPlot.mapE_rel hm
    clear hm
    induction this with
    | nil => exact .nil
    | @cons o c hs m hoc _ ih =>
      refine .cons ?_ ih
      unfold col at hoc
      cases o with
      | none => cases hoc
      | some h =>
        dsimp only at hoc
        split at hoc
        next hn => cases hoc; exact ⟨h, rfl, hn, rfl⟩
        · cases hoc

/-- A panel shows the columns of each run along both axes. -/
theorem C139_panel {lg : ℚ → ℚ} {o : Opts} {hs : List (Option Hist)} {x z : Option Name} {y : Name} {p : Panel} (h : panel lg o hs x y z = .ok p) :
    ∃ x', x = some x' ∧
    List.Forall₂ (fun o' c => ∃ h, o' = some h ∧ x' ∈ h.names ∧ c = scaled lg o.xlog (h.rows.map (· x'))) hs p.x ∧
    List.Forall₂ (fun o' c => ∃ h, o' = some h ∧ y ∈ h.names ∧ c = scaled lg o.ylog (h.rows.map (· y))) hs p.y ∧
    (z = none → p.z = none) ∧ ∀ z', z = some z' → ∃ zs a b, p.z = some (zs, a, b) ∧ limits o.zmin o.zmax zs = .ok (a, b) ∧
      List.Forall₂ (fun o' c => ∃ h, o' = some h ∧ z' ∈ h.names ∧ c = scaled lg o.zlog (h.rows.map (· z'))) hs zs := by
  unfold panel at h
  cases x with
  | none => cases h
  | some x =>
    dsimp only at h
    cases hx : columns lg o.xlog hs x with
    | error e => rw [hx] at h; cases h
    | ok xs =>
      rw [hx] at h; dsimp only at h
      cases hy : columns lg o.ylog hs y with
      | error e => rw [hy] at h; cases h
      | ok ys =>
        rw [hy] at h; dsimp only at h
        cases z with
        | none => cases h; exact ⟨x, rfl, columns_ok hx, columns_ok hy, fun _ => rfl, fun z' hz' => by cases hz'⟩
        | some z =>
          dsimp only at h
          cases hz : columns lg o.zlog hs z with
          | error e => rw [hz] at h; cases h
          | ok zs =>
            rw [hz] at h; dsimp only at h
            cases hl : limits o.zmin o.zmax zs with
            | error e => rw [hl] at h; cases h
            | ok ab =>
              obtain ⟨a, b⟩ := ab
              rw [hl] at h
              cases h
              refine ⟨x, rfl, columns_ok hx, columns_ok hy, (fun e => by cases e), fun z' hz' => ?_⟩
              cases hz'
              exact ⟨zs, a, b, rfl, hl, columns_ok hz⟩

/-- A run without the history cannot be drawn, although the names are checked with the first run that has one. -/
theorem C139_missing_violated (lg : ℚ → ℚ) (o : Opts) (hs : List (Option Hist)) (x z : Option Name) (y : Name) (h : none ∈ hs) :
    ∀ p, panel lg o hs x y z ≠ .ok p := by
  intro p hp
  obtain ⟨x', _, h1, _⟩ := C139_panel hp
  obtain ⟨k, hk, e⟩ := List.getElem_of_mem h
  have hh := List.forall₂_iff_get.1 h1
  obtain ⟨h', e', _⟩ := hh.2 k hk (by rw [← hh.1]; exact hk)
  simp only [List.get_eq_getElem, e] at e'
  cases e'

/-- The names are those of the first run with a history. -/
theorem C139_names (a b : List (Option Hist)) (h : Hist) (ha : ∀ o ∈ a, o = none) : histNames (a ++ some h :: b) = h.names := by
  induction a with
  | nil => rfl
  | cons o a ih =>
    rw [ha o List.mem_cons_self]
    exact ih fun o' ho' => ha o' (List.mem_cons_of_mem _ ho')

/-- Names that are not columns are refused. -/
theorem C139_refused (hs : List (Option Hist)) (n : Name) (y z : Arg) (h : n ∉ histNames hs) :
    check hs (.text n) y z = .error .value := by
  simp [check, checkX, h]

/-- Several quantities, two or more and without colours, get a panel each, in order. -/
theorem C139_several {lg : ℚ → ℚ} {o : Opts} {hs : List (Option Hist)} {x : Name} {l : List Name} {r : Req} {ps : List Panel}
    (hc : check hs (.text x) (.list l) .none = .ok r) (h : call lg o hs r = .ok ps) :
    2 ≤ l.length ∧ List.Forall₂ (fun y p => panel lg o hs (some x) y none = .ok p) l ps := by
  unfold check at hc
  dsimp only at hc
  cases hx : checkX (histNames hs) (.text x) with
  | error e => rw [hx] at hc; cases hc
  | ok x' =>
    rw [hx] at hc; dsimp only at hc
    have hx' : x' = some x := by
      unfold checkX at hx
      dsimp only at hx
      split at hx
      · cases hx; rfl
      · cases hx
    cases hy : checkY (histNames hs) (decide (Arg.text x = .none)) (.list l) with
    | error e => rw [hy] at hc; cases hc
    | ok c =>
      rw [hy] at hc
      cases hc
      have hcl : c = l.length := by
        unfold checkY at hy
        dsimp only at hy
        split at hy
        · cases hy; rfl
        · cases hy
      subst hx' hcl
      unfold call at h
      dsimp only at h
      split at h
      next h1 => exact ⟨h1, mapE_rel h⟩
      · split at h
        · cases h
        · cases h

/-- A list with one quantity cannot be drawn, nor an empty one. -/
theorem C139_single_list_violated (lg : ℚ → ℚ) (o : Opts) (hs : List (Option Hist)) (x : Name) (l : List Name) (r : Req) (hl : l.length ≤ 1)
    (hc : check hs (.text x) (.list l) .none = .ok r) : ∀ ps, call lg o hs r ≠ .ok ps := by
  intro ps h
  have := (C139_several hc h).1
  omega

/-- Nor can several quantities be drawn with colours. -/
theorem C139_list_colours_violated (lg : ℚ → ℚ) (o : Opts) (hs : List (Option Hist)) (x z : Name) (l : List Name) (r : Req)
    (hc : check hs (.text x) (.list l) (.text z) = .ok r) : call lg o hs r = .error .type := by
  unfold check at hc
  dsimp only at hc
  split at hc
  · cases hc
  split at hc
  · cases hc
  simp only [checkZ] at hc
  split at hc
  · cases hc
  next hz =>
    split at hz
    · cases hz; cases hc; rfl
    · cases hz

/-- One quantity gives one panel. -/
theorem C139_one (lg : ℚ → ℚ) (o : Opts) (hs : List (Option Hist)) (x y : Name) (hx : x ∈ histNames hs) (hy : y ∈ histNames hs) :
    ∃ r, check hs (.text x) (.text y) .none = .ok r ∧ call lg o hs r = (panel lg o hs (some x) y none).map ([·]) := by
  refine ⟨⟨some x, .text y, none, 1⟩, by simp [check, checkX, checkY, checkZ, hx, hy], rfl⟩

/-! ### Limits of the colours -/

theorem least_spec {l : List ℚ} {m : ℚ} (h : least l = .ok m) : m ∈ l ∧ ∀ x ∈ l, m ≤ x := by
  cases l with
  | nil => cases h
  | cons v vs =>
    cases h
    have key : ∀ (l : List ℚ) (a : ℚ), l.foldl min a ≤ a ∧ (∀ x ∈ l, l.foldl min a ≤ x) ∧ (l.foldl min a = a ∨ l.foldl min a ∈ l) := by
      intro l
      induction l with
      | nil => intro a; simp
      | cons b l ih =>
        intro a
        obtain ⟨h1, h2, h3⟩ := ih (min a b)
        rw [List.foldl_cons]
        refine ⟨h1.trans (min_le_left _ _), fun x hx => ?_, ?_⟩
        · rcases List.mem_cons.1 hx with rfl | hx
          · exact h1.trans (min_le_right _ _)
          · exact h2 x hx
        · rcases h3 with h3 | h3
          · rcases min_choice a b with e | e
            · left; rw [h3, e]
            · right; rw [h3, e]; exact List.mem_cons_self
          · right; exact List.mem_cons_of_mem _ h3
    obtain ⟨h1, h2, h3⟩ := key vs v
    refine ⟨?_, fun x hx => ?_⟩
    · rcases h3 with e | e
      · rw [e]; exact List.mem_cons_self
      · exact List.mem_cons_of_mem _ e
    · rcases List.mem_cons.1 hx with rfl | hx
      · exact h1
      · exact h2 x hx

theorem greatest_spec {l : List ℚ} {m : ℚ} (h : greatest l = .ok m) : m ∈ l ∧ ∀ x ∈ l, x ≤ m := by
  cases l with
  | nil => cases h
  | cons v vs =>
    cases h
    have key : ∀ (l : List ℚ) (a : ℚ), a ≤ l.foldl max a ∧ (∀ x ∈ l, x ≤ l.foldl max a) ∧ (l.foldl max a = a ∨ l.foldl max a ∈ l) := by
      intro l
      induction l with
      | nil => intro a; simp
      | cons b l ih =>
        intro a
        obtain ⟨h1, h2, h3⟩ := ih (max a b)
        rw [List.foldl_cons]
        refine ⟨(le_max_left _ _).trans h1, fun x hx => ?_, ?_⟩
        · rcases List.mem_cons.1 hx with rfl | hx
          · exact (le_max_right _ _).trans h1
          · exact h2 x hx
        · rcases h3 with h3 | h3
          · rcases max_choice a b with e | e
            · left; rw [h3, e]
            · right; rw [h3, e]; exact List.mem_cons_self
          · right; exact List.mem_cons_of_mem _ h3
    obtain ⟨h1, h2, h3⟩ := key vs v
    refine ⟨?_, fun x hx => ?_⟩
    · rcases h3 with e | e
      · rw [e]; exact List.mem_cons_self
      · exact List.mem_cons_of_mem _ e
    · rcases List.mem_cons.1 hx with rfl | hx
      · exact h1
      · exact h2 x hx

theorem lower_spec : ∀ (zs : List (List ℚ)) (a m : ℚ), lower a zs = .ok m → m ≤ a ∧ (∀ z ∈ zs, ∀ v ∈ z, m ≤ v) ∧ (m = a ∨ ∃ z ∈ zs, m ∈ z) := by
  intro zs
  induction zs with
  | nil => intro a m h; cases h; simp
  | cons z zs ih =>
    intro a m h
    unfold lower at h
    cases hl : least z with
    | error e => rw [hl] at h; cases h
    | ok v =>
      rw [hl] at h
      dsimp only at h
      obtain ⟨h1, h2, h3⟩ := ih _ _ h
      obtain ⟨l1, l2⟩ := least_spec hl
      have hv : m ≤ v ∧ m ≤ a := by
        split at h1
        · constructor <;> linarith
        · constructor <;> linarith
      refine ⟨hv.2, fun w hw x hx => ?_, ?_⟩
      · rcases List.mem_cons.1 hw with rfl | hw
        · exact hv.1.trans (l2 x hx)
        · exact h2 w hw x hx
      · rcases h3 with h3 | ⟨w, hw, hm⟩
        · split at h3
          · right; exact ⟨z, List.mem_cons_self, h3 ▸ l1⟩
          · left; exact h3
        · right; exact ⟨w, List.mem_cons_of_mem _ hw, hm⟩

theorem upper_spec : ∀ (zs : List (List ℚ)) (a m : ℚ), upper a zs = .ok m → a ≤ m ∧ (∀ z ∈ zs, ∀ v ∈ z, v ≤ m) ∧ (m = a ∨ ∃ z ∈ zs, m ∈ z) := by
  intro zs
  induction zs with
  | nil => intro a m h; cases h; simp
  | cons z zs ih =>
    intro a m h
    unfold upper at h
    cases hl : greatest z with
    | error e => rw [hl] at h; cases h
    | ok v =>
      rw [hl] at h
      dsimp only at h
      obtain ⟨h1, h2, h3⟩ := ih _ _ h
      obtain ⟨l1, l2⟩ := greatest_spec hl
      have hv : v ≤ m ∧ a ≤ m := by
        split at h1
        · constructor <;> linarith
        · constructor <;> linarith
      refine ⟨hv.2, fun w hw x hx => ?_, ?_⟩
      · rcases List.mem_cons.1 hw with rfl | hw
        · exact (l2 x hx).trans hv.1
        · exact h2 w hw x hx
      · rcases h3 with h3 | ⟨w, hw, hm⟩
        · split at h3
          · right; exact ⟨z, List.mem_cons_self, h3 ▸ l1⟩
          · left; exact h3
        · right; exact ⟨w, List.mem_cons_of_mem _ hw, hm⟩

/-- Limits that are not given are the least and the greatest colour of all runs. -/
theorem C139_limits (zs : List (List ℚ)) (a b : ℚ) (h : limits none none zs = .ok (a, b)) :
    (∃ z ∈ zs, a ∈ z) ∧ (∃ z ∈ zs, b ∈ z) ∧ ∀ z ∈ zs, ∀ v ∈ z, a ≤ v ∧ v ≤ b := by
  unfold limits at h
  dsimp only at h
  cases zs with
  | nil => cases h
  | cons z zs =>
    dsimp only at h
    cases hl : least z with
    | error e => rw [hl] at h; cases h
    | ok m =>
      rw [hl] at h; dsimp only at h
      cases hlo : lower m (z :: zs) with
      | error e => rw [hlo] at h; cases h
      | ok a' =>
        rw [hlo] at h; dsimp only at h
        cases hg : greatest z with
        | error e => rw [hg] at h; cases h
        | ok M =>
          rw [hg] at h; dsimp only at h
          cases hhi : upper M (z :: zs) with
          | error e => rw [hhi] at h; cases h
          | ok b' =>
            rw [hhi] at h
            cases h
            obtain ⟨_, l2, l3⟩ := lower_spec _ _ _ hlo
            obtain ⟨_, u2, u3⟩ := upper_spec _ _ _ hhi
            refine ⟨?_, ?_, fun w hw v hv => ⟨l2 w hw v hv, u2 w hw v hv⟩⟩
            · rcases l3 with e | e
              · exact ⟨z, List.mem_cons_self, e ▸ (least_spec hl).1⟩
              · exact e
            · rcases u3 with e | e
              · exact ⟨z, List.mem_cons_self, e ▸ (greatest_spec hg).1⟩
              · exact e

/-- Limits that are given are used. -/
theorem C139_given (zs : List (List ℚ)) (a b : ℚ) : limits (some a) (some b) zs = .ok (a, b) := rfl

/-! ### Limits of diagrams -/

theorem stepLow_some (l : Option ℚ) (m : ℚ) (hm : 0 ≤ m) : ∃ a, stepLow l m = some a ∧ a ≤ m ∧ ∀ b, l = some b → a ≤ b := by
  unfold stepLow
  cases l with
  | none => exact ⟨_, rfl, by linarith, fun b hb => by cases hb⟩
  | some b =>
    dsimp only
    split
    · exact ⟨_, rfl, by linarith, fun c hc => by cases hc; linarith⟩
    · exact ⟨b, rfl, by linarith, fun c hc => by cases hc; exact le_rfl⟩

/-- If no value is negative, all are within the lower limit found. -/
theorem C139_low_partial (ms : List ℚ) (given : Option ℚ) (h : ∀ m ∈ ms, 0 ≤ m) (hn : ms ≠ []) :
    ∃ a, diagramLow given ms = some a ∧ (∀ m ∈ ms, a ≤ m) ∧ ∀ b, given = some b → a ≤ b := by
  induction ms generalizing given with
  | nil => exact absurd rfl hn
  | cons m ms ih =>
    obtain ⟨a, h1, h2, h3⟩ := stepLow_some given m (h m List.mem_cons_self)
    unfold diagramLow
    rw [List.foldl_cons, h1]
    by_cases hms : ms = []
    · subst hms
      exact ⟨a, rfl, by simpa using h2, h3⟩
    · obtain ⟨a', k1, k2, k3⟩ := ih (some a) (fun x hx => h x (List.mem_cons_of_mem _ hx)) hms
      refine ⟨a', k1, fun x hx => ?_, fun b hb => (k3 a rfl).trans (h3 b hb)⟩
      rcases List.mem_cons.1 hx with rfl | hx
      · exact (k3 a rfl).trans h2
      · exact k2 x hx

theorem stepHigh_some (l : Option ℚ) (m : ℚ) (hm : 0 ≤ m) : ∃ a, stepHigh l m = some a ∧ m ≤ a ∧ ∀ b, l = some b → b ≤ a := by
  unfold stepHigh
  cases l with
  | none => exact ⟨_, rfl, by linarith, fun b hb => by cases hb⟩
  | some b =>
    dsimp only
    split
    · exact ⟨_, rfl, by linarith, fun c hc => by cases hc; linarith⟩
    · exact ⟨b, rfl, by linarith, fun c hc => by cases hc; exact le_rfl⟩

/-- And within the upper one. -/
theorem C139_high_partial (ms : List ℚ) (given : Option ℚ) (h : ∀ m ∈ ms, 0 ≤ m) (hn : ms ≠ []) :
    ∃ a, diagramHigh given ms = some a ∧ (∀ m ∈ ms, m ≤ a) ∧ ∀ b, given = some b → b ≤ a := by
  induction ms generalizing given with
  | nil => exact absurd rfl hn
  | cons m ms ih =>
    obtain ⟨a, h1, h2, h3⟩ := stepHigh_some given m (h m List.mem_cons_self)
    unfold diagramHigh
    rw [List.foldl_cons, h1]
    by_cases hms : ms = []
    · subst hms
      exact ⟨a, rfl, by simpa using h2, h3⟩
    · obtain ⟨a', k1, k2, k3⟩ := ih (some a) (fun x hx => h x (List.mem_cons_of_mem _ hx)) hms
      refine ⟨a', k1, fun x hx => ?_, fun b hb => (h3 b hb).trans (k3 a rfl)⟩
      rcases List.mem_cons.1 hx with rfl | hx
      · exact h2.trans (k3 a rfl)
      · exact k2 x hx

/-- A run that becomes fainter than the Sun leaves the diagram: the lower limit for one run is above its least value. -/
theorem C139_negative_violated (m : ℚ) (h : m < 0) : ∃ a, diagramLow none [m] = some a ∧ m < a := ⟨_, rfl, by linarith⟩

/-- A limit given by the user is not kept if a run goes beyond it. -/
theorem C139_limit_given_violated (g m : ℚ) (h : m < g) : diagramLow (some g) [m] = some (m * (98/100)) := by
  simp [diagramLow, stepLow, h]

/-- It is kept if none does. -/
theorem C139_limit_given_partial (g : ℚ) (ms : List ℚ) (h : ∀ m ∈ ms, g ≤ m) : diagramLow (some g) ms = some g := by
  induction ms with
  | nil => rfl
  | cons m ms ih =>
    have hm : ¬m < g := not_lt.2 (h m List.mem_cons_self)
    unfold diagramLow
    rw [List.foldl_cons]
    have : stepLow (some g) m = some g := by simp [stepLow, hm]
    rw [this]
    exact ih fun x hx => h x (List.mem_cons_of_mem _ hx)

/-- Lines of constant radius fail unless all four limits are given. -/
theorem C139_radius_violated (a b c d : Option ℚ) : (radiusLines true a b c d = .ok () ↔ a ≠ none ∧ b ≠ none ∧ c ≠ none ∧ d ≠ none) ∧
    radiusLines false a b c d = .ok () := by
  refine ⟨?_, rfl⟩
  cases a <;> cases b <;> cases c <;> cases d <;> simp [radiusLines]

/-- The luminosity at a temperature and radius, plot1D.py l.473-481; `c` is `4 π σ R☉² / L☉`. -/
noncomputable def luminosity (c T R : ℝ) : ℝ := c * T ^ 4 * R ^ 2

/-- Lines of constant radius are straight in the diagram, four units of luminosity for one of temperature and two for one of radius. -/
theorem C139_lines (c T R : ℝ) (hc : 0 < c) (hT : 0 < T) (hR : 0 < R) :
    Real.logb 10 (luminosity c T R) = Real.logb 10 c + 4 * Real.logb 10 T + 2 * Real.logb 10 R := by
  unfold luminosity
  rw [Real.logb_mul (by positivity) (by positivity), Real.logb_mul (by positivity) (by positivity), Real.logb_pow, Real.logb_pow]
  norm_num

/-! ### Colours of states -/

/-- The states of accreting helium stars other than burning hydrogen in the core have no colour. -/
def noColour : List StarState.State :=
  [.normal .accreted .coreHe, .normal .accreted .shellH, .normal .accreted .nonBurning, .normal .accreted .coreHeDep, .normal .accreted .coreCDep]

/-- All other states of stars that are not compact have one. -/
theorem C139_states_partial (rnd : ℚ → ℚ) (rel : ℚ) (i : StarState.Inputs) (h : StarState.checkState rnd rel false false i ∉ noColour) :
    (colour (stateName (StarState.checkState rnd rel false false i))).isSome = true := by
  have key : ∀ s : StarState.State, s ∉ noColour → s ≠ .massless ∧ s ≠ .WD → (colour (stateName s)).isSome = true := by
    intro s hs hb
    cases s with
    | undetermined => decide
    | massless => exact absurd rfl hb.1
    | WD => exact absurd rfl hb.2
    | NS => decide
    | BH => decide
    | normal r b => revert hs; cases r <;> cases b <;> decide
  refine key _ h ?_
  simp only [StarState.checkState, StarState.inferNormal]
  cases i.surfaceH with
  | none => simp
  | some s => simp

/-- A diagram with a star in one of the five states fails. -/
theorem C139_states_violated (states : List Name) (s : StarState.State) (h : s ∈ noColour) (hm : stateName s ∈ states) :
    ∀ c, colours states ≠ .ok c := by
  intro c hc
  have hn : colour (stateName s) = none := by
    have : ∀ s ∈ noColour, colour (stateName s) = none := by decide
    exact this s h
  have h2 := mapE_rel hc
  obtain ⟨k, hk, e⟩ := List.getElem_of_mem hm
  have hh := List.forall₂_iff_get.1 h2
  have := hh.2 k hk (by rw [← hh.1]; exact hk)
  simp only [List.get_eq_getElem, e, hn] at this
  cases this

/-- The classification gives such a state: a star that has accreted helium and burns helium in its core. -/
theorem C139_states_reached : ∃ i : StarState.Inputs, StarState.checkState id (-2) false false i ∈ noColour := by
  refine ⟨⟨some 10, some 0, some (1/200), some (1/2), some 0, some 2, some 3, some 3⟩, ?_⟩
  decide +kernel

/-- The names are those of the classification. -/
theorem C139_state_names (r : StarState.Rich) (b : StarState.Burning) : (StarState.State.normal r b).name.toList = stateName (.normal r b) := by
  cases r <;> cases b <;> decide

/-- Each point has the colour of its state. -/
theorem C139_colours (states cs : List Name) (h : colours states = .ok cs) : List.Forall₂ (fun s c => colour s = some c) states cs := by
  have := mapE_rel h
  clear h
  induction this with
  | nil => exact .nil
  | @cons s c l m hsc _ ih =>
    refine .cons ?_ ih
    cases hs : colour s with
    | none => simp [hs] at hsc
    | some c' => simp [hs] at hsc; simp [hsc]

/-- States that are drawn may be missing from the legend. -/
theorem C139_legend_violated : ∃ s : StarState.State, (colour (stateName s)).isSome = true ∧ inLegend (stateName s) = false :=
  ⟨.normal .accreted .coreH, by decide, by decide⟩

/-- Different states of the legend may have the same colour: a star with and one without hydrogen burning helium. -/
theorem C139_same_colour_violated : inLegend (stateName (.normal .Hrich .coreHe)) = true ∧ inLegend (stateName (.normal .stripped .coreHe)) = true ∧
    colour (stateName (.normal .Hrich .coreHe)) = colour (stateName (.normal .stripped .coreHe)) := by decide

/-! ### An example -/

def exHist (k : ℚ) : Hist := ⟨[(chars! "age"), (chars! "mass")], [fun _ => k, fun n => if n = (chars! "age") then k + 1 else k - 1]⟩

example : (match check [some (exHist 5), some (exHist 7)] (.text (chars! "age")) (.text (chars! "mass")) (.text (chars! "mass")) with
    | .ok r => (call id {} [some (exHist 5), some (exHist 7)] r).toOption
    | .error _ => none) = some [⟨[[5, 6], [7, 8]], [[5, 4], [7, 6]], some ([[5, 4], [7, 6]], 4, 7)⟩] := by decide +kernel

example : (check [none, some (exHist 5)] (.text (chars! "age")) (.list [(chars! "mass")]) .none).toOption =
    some ⟨some (chars! "age"), .list [(chars! "mass")], none, 1⟩ := by decide +kernel

/-- Arguments of another kind or names which are no columns are refused as wrong values. -/
theorem C139_wrong_value (hs : List (Option Hist)) (x y z : Arg) (e : Err) (h : check hs x y z = .error e) : e = .value := by
  unfold check at h
  dsimp only at h
  cases h1 : checkX (histNames hs) x with
  | error d =>
    rw [h1] at h
    cases h
    unfold checkX at h1
    split at h1
    · cases h1
    · split at h1
      · cases h1
      · cases h1; rfl
    · cases h1; rfl
  | ok a =>
    rw [h1] at h
    dsimp only at h
    cases h2 : checkY (histNames hs) (decide (x = .none)) y with
    | error d =>
      rw [h2] at h
      cases h
      unfold checkY at h2
      repeat' split at h2
      all_goals first | (cases h2; done) | (cases h2; rfl)
    | ok c =>
      rw [h2] at h
      dsimp only at h
      cases h3 : checkZ (histNames hs) c z with
      | error d =>
        rw [h3] at h
        cases h
        unfold checkZ at h3
        repeat' split at h3
        all_goals first | (cases h3; done) | (cases h3; rfl)
      | ok v => rw [h3] at h; cases h

/-- The states in the legend are these thirteen. -/
theorem C139_legend (s : Name) : inLegend s = true ↔ s ∈ [(chars! "H-rich_Core_H_burning"), (chars! "H-rich_Shell_H_burning"),
    (chars! "H-rich_Core_C_burning"), (chars! "H-rich_Core_C_depleted"), (chars! "H-rich_Core_He_burning"), (chars! "H-rich_Near_Core_C_depleted"),
    (chars! "H-rich_Core_He_depleted"), (chars! "stripped_He_Core_He_burning"), (chars! "stripped_He_Core_He_depleted"),
    (chars! "stripped_He_Core_C_burning"), (chars! "stripped_He_Core_C_depleted"), (chars! "stripped_He_Core_H_burning"),
    (chars! "stripped_He_Shell_H_burning")] := by
  constructor
  · intro h
    unfold inLegend at h
    rw [Bool.and_eq_true] at h
    obtain ⟨h1, h2⟩ := h
    unfold colour at h1
    dsimp only at h1
    rw [Option.isSome_map, List.find?_isSome] at h1
    obtain ⟨p, hp, e⟩ := h1
    have e : p.1 = s := by simpa using e
    subst e
    revert p
    decide +kernel
  · intro h
    revert s
    decide +kernel

end Verif.Curves
