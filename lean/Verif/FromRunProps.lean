import Verif.Chars
import Verif.FromRun
/-!
C95: a binary (or a star) made from a run of a grid holds the data of that run: its own columns, its own final values, and states
derived from its own values.
-/
namespace Verif.FromRun
open Verif.Frame (Name isIn binaryProps starProps)
open Verif.MesaStop (mapE)

/-- The properties of a binary that are computed instead of read. -/
def computedB : List Name := [(chars! "state"), (chars! "event"), (chars! "mass_transfer_case"), (chars! "eccentricity")]

/-- The properties of a star that are read from the table of the binary. -/
def four : List Name := [(chars! "mass"), (chars! "lg_mdot"), (chars! "lg_system_mdot"), (chars! "lg_wind_mdot")]

theorem four_eq : fromBinary.map Prod.fst = four := rfl

/-- No property is called like a value at helium depletion. -/
theorem props_plain : (∀ a ∈ binaryProps, isIn depl a = false) ∧ ∀ a ∈ starProps, isIn depl a = false := by
  constructor <;> decide +kernel

theorem stateCols_props : ∀ a ∈ stateCols, a ∈ starProps ∧ a ≠ (chars! "state") := by decide +kernel

theorem path_keep {k : Cls} {r : Run} {t : Tab} {history profiles : Bool} {w : Which} {new o : Obj}
    (h : Path k r t history profiles w new o) :
    ∃ s z s' l e,
      loadStar history (steps history t) (w.track r) r.final w.pre new = .ok s ∧
      look r.initial (chars! "Z") = .ok z ∧
      ofBinary history (steps history t) t r.final z w.pick s = .ok s' ∧
      mapE (checkState k (r.final.foldl (depleteStar w.pre) s') (w.track r).isNone) (List.range (steps history t)) = .ok l ∧
      l.getLast? = some e ∧ Holds o (chars! "state") e l ∧
      (∀ a, a ≠ (chars! "state") → o.hist a = s'.hist a) ∧
      (∀ a, a ≠ (chars! "state") → isIn depl a = false → (profiles = false ∨ a ≠ (chars! "profile")) → o.attr a = s'.attr a) ∧
      (∀ a, a ∉ four → a ≠ (chars! "metallicity") → s'.attr a = s.attr a ∧ s'.hist a = s.hist a) ∧
      Holds s' (chars! "metallicity") z (List.replicate (steps history t) z) := by
  obtain ⟨s, z, s', l, e, h1, h2, h3, h4, h5, h6⟩ := h.ex
  have hf := loadFour_spec history (steps history t) t r.final w.pick fromBinary (by decide) _ _ h3
  refine ⟨s, z, s', l, e, h1, h2, h3, h4, h5, ?_, ?_, ?_, ?_, ?_⟩
  · rw [h6]
    cases profiles
    · exact put_same _ _ _ _
    · exact (put_same _ _ _ _).keep (setAttr_attr _ _ _ _ (by decide)) rfl
  · intro a ha
    rw [h6]
    have := (put_hist (r.final.foldl (depleteStar w.pre) s') (chars! "state") a e l ha).trans (congrFun (depleteStar_hist w.pre _ _) a)
    cases profiles
    · exact this
    · exact this
  · intro a ha hd hp
    rw [h6]
    cases profiles
    · exact (put_attr _ _ _ _ _ ha).trans (depleteStar_attr w _ _ hd _)
    · have hp : a ≠ (chars! "profile") := by simpa using hp
      exact (setAttr_attr _ _ _ _ hp).trans ((put_attr _ _ _ _ _ ha).trans (depleteStar_attr w _ _ hd _))
  · intro a ha hz
    obtain ⟨e1, e2⟩ := hf.2 a ha
    exact ⟨e1.trans (put_attr _ _ _ _ _ hz), e2.trans (put_hist _ _ _ _ _ hz)⟩
  · obtain ⟨e1, e2⟩ := hf.2 (chars! "metallicity") (by decide)
    exact (put_same _ _ _ _).keep e1 e2

section
variable (new : Sys) (k : Cls) (r : Run) (history profiles : Bool) (x : Sys)

/-- Without a table of the binary a new binary is returned. -/
theorem C95_no_history (h : r.binary = none) : fromRun new k r history profiles = .ok new := by
  unfold fromRun; rw [h]

/-- Every property of the binary that is not computed holds its own column and final value, or nothing. -/
theorem C95_binary (t : Tab) (ht : r.binary = some t) (h : fromRun new k r history profiles = .ok x) (a : Name) (ha : a ∈ binaryProps)
    (hc : a ∉ computedB) : Loaded history (steps history t) t r.final [] binarySrc x.b a := by
  obtain ⟨-, b, l, hb, -, hx⟩ := fromRun_ok new k r history profiles t x ht h
  have h1 := ((loadAttrs_spec _ _ _ _ _ _ _ _ _ hb).1 a ha).1
  simp only [computedB, List.mem_cons, List.not_mem_nil, or_false, not_or] at hc
  obtain ⟨c1, c2, c3, c4⟩ := hc
  refine h1.keep ?_ ?_
  · rw [hx, put_attr _ _ _ _ _ c3, put_attr _ _ _ _ _ c2, put_attr _ _ _ _ _ c1, put_attr _ _ _ _ _ c4,
      depleteBin_attr _ _ (props_plain.1 a ha)]
  · rw [hx, put_hist _ _ _ _ _ c3, put_hist _ _ _ _ _ c2, put_hist _ _ _ _ _ c1, put_hist _ _ _ _ _ c4, depleteBin_hist]

/-- The orbit is circular at all times. -/
theorem C95_eccentricity (t : Tab) (ht : r.binary = some t) (h : fromRun new k r history profiles = .ok x) :
    Holds x.b (chars! "eccentricity") (.num 0) (List.replicate (steps history t) (.num 0)) := by
  obtain ⟨-, b, l, hb, -, hx⟩ := fromRun_ok new k r history profiles t x ht h
  rw [hx]
  exact (put_same _ _ _ _).keep
    (by rw [put_attr _ _ _ _ _ (by decide), put_attr _ _ _ _ _ (by decide), put_attr _ _ _ _ _ (by decide)])
    (by rw [put_hist _ _ _ _ _ (by decide), put_hist _ _ _ _ _ (by decide), put_hist _ _ _ _ _ (by decide)])

/-- Every property of a star with a table that is not computed or taken from the binary holds the star's own column and final
value, or nothing. -/
theorem C95_star (t : Tab) (ht : r.binary = some t) (h : fromRun new k r history profiles = .ok x) (w : Which) (tk : Tab)
    (hk : w.track r = some tk) (a : Name) (ha : a ∈ starProps) (hs : a ≠ (chars! "state")) (hz : a ≠ (chars! "metallicity"))
    (h4 : a ∉ four) (hp : profiles = false ∨ a ≠ (chars! "profile")) :
    Loaded history (steps history t) tk r.final w.pre starSrc (w.star x) a := by
  obtain ⟨s, z, s', l, e, h1, -, -, -, -, -, k1, k2, k3, -⟩ := path_keep ((fromRun_ok new k r history profiles t x ht h).1 w)
  rw [hk] at h1
  have hl := ((loadAttrs_spec _ _ _ _ _ _ _ _ _ h1).1 a ha).1
  exact hl.keep ((k2 a hs (props_plain.2 a ha) hp).trans (k3 a h4 hz).1) ((k1 a hs).trans (k3 a h4 hz).2)

/-- Mass and mass-loss rates of each star are its own columns of the table of the binary. -/
theorem C95_from_binary (t : Tab) (ht : r.binary = some t) (h : fromRun new k r history profiles = .ok x) (w : Which)
    (p : Name × Name × Name) (hp : p ∈ fromBinary) :
    ∃ v, look r.final (w.pick p.2) = .ok v ∧ (history = true → w.pick p.2 ∈ t.names) ∧
      Holds (w.star x) p.1 v (if history then t.col (w.pick p.2) else [v]) := by
  obtain ⟨s, z, s', l, e, -, -, h3, -, -, -, k1, k2, -, -⟩ := path_keep ((fromRun_ok new k r history profiles t x ht h).1 w)
  obtain ⟨v, l, hv, hc, hl, -, hh⟩ := (loadFour_spec history (steps history t) t r.final w.pick fromBinary (by decide) _ _ h3).1 p hp
  subst hl
  have q : ∀ p ∈ fromBinary, p.1 ≠ (chars! "state") ∧ isIn depl p.1 = false ∧ p.1 ≠ (chars! "profile") := by decide +kernel
  exact ⟨v, hv, hc, hh.keep (k2 _ (q p hp).1 (q p hp).2.1 (.inr (q p hp).2.2)) (k1 _ (q p hp).1)⟩

/-- Both stars have the initial metallicity at all times. -/
theorem C95_metallicity (t : Tab) (ht : r.binary = some t) (h : fromRun new k r history profiles = .ok x) (w : Which) :
    ∃ z, look r.initial (chars! "Z") = .ok z ∧ Holds (w.star x) (chars! "metallicity") z (List.replicate (steps history t) z) := by
  obtain ⟨s, z, s', l, e, -, hz, -, -, -, -, k1, k2, -, k4⟩ := path_keep ((fromRun_ok new k r history profiles t x ht h).1 w)
  exact ⟨z, hz, k4.keep (k2 _ (by decide) (by decide) (.inr (by decide))) (k1 _ (by decide))⟩

/-- The states of a star with a table: one for each step, from the star's own values at that step; the current state is the last. -/
theorem C95_states (t : Tab) (ht : r.binary = some t) (h : fromRun new k r history profiles = .ok x) (w : Which)
    (hk : (w.track r).isSome) :
    ∃ l e, Holds (w.star x) (chars! "state") e l ∧ l.length = steps history t ∧ l.getLast? = some e ∧
      ∀ i, i < steps history t → ∃ vs, l[i]? = some (k.normal vs) ∧ vs.length = stateCols.length ∧
        ∀ (j : ℕ) (a : Name), stateCols[j]? = some a → ∃ c v, (w.star x).hist a = some c ∧ c[i]? = some v ∧ vs[j]? = some v := by
  obtain ⟨s, z, s', l, e, -, -, -, h4, h5, h6, k1, -, -, -⟩ := path_keep ((fromRun_ok new k r history profiles t x ht h).1 w)
  obtain ⟨m1, m2⟩ := mapE_inv _ _ _ h4
  refine ⟨l, e, h6, by simpa using m1, h5, fun i hi => ?_⟩
  obtain ⟨v, hv, hl⟩ := m2 i i (by simp [hi])
  have hco : (w.track r).isNone = false := by cases hw : w.track r <;> simp_all
  rw [hco, checkState, if_neg (by simp)] at hv
  cases hm : mapE (fun a => getAt (r.final.foldl (depleteStar w.pre) s') a i) stateCols with
  | error e => rw [hm] at hv; cases hv
  | ok vs =>
    rw [hm] at hv
    cases hv
    obtain ⟨n1, n2⟩ := mapE_inv _ _ _ hm
    refine ⟨vs, hl, n1, fun j a ha => ?_⟩
    obtain ⟨v, hv, hj⟩ := n2 j a ha
    have hne := (stateCols_props a (List.mem_of_getElem? ha)).2
    unfold getAt at hv
    cases hh : (r.final.foldl (depleteStar w.pre) s').hist a with
    | none => rw [hh] at hv; cases hv
    | some c =>
      rw [hh] at hv
      dsimp only at hv
      cases hc : c[i]? with
      | none => rw [hc] at hv; cases hv
      | some u =>
        rw [hc] at hv
        cases hv
        refine ⟨c, v, ?_, hc, hj⟩
        rw [k1 a hne, ← hh, depleteStar_hist]

/-- The states of a star without a table: from its mass at that step alone, unless a new star is a white dwarf. -/
theorem C95_states_compact (t : Tab) (ht : r.binary = some t) (h : fromRun new k r history profiles = .ok x) (w : Which)
    (hk : w.track r = none) (hw : (w.star new).attr (chars! "state") ≠ some wd)
    (hw' : ∀ l, (w.star new).hist (chars! "state") = some l → l.getLast? ≠ some wd) :
    ∃ l e c, Holds (w.star x) (chars! "state") e l ∧ l.length = steps history t ∧ l.getLast? = some e ∧
      (w.star x).hist (chars! "mass") = some c ∧
      ∀ i, i < steps history t → ∃ m, c[i]? = some m ∧ l[i]? = some (k.compact m) := by
  obtain ⟨s, z, s', l, e, h1, -, h3, h4, h5, h6, k1, k2, k3, -⟩ := path_keep ((fromRun_ok new k r history profiles t x ht h).1 w)
  rw [hk] at h1
  cases h1
  obtain ⟨m1, m2⟩ := mapE_inv _ _ _ h4
  obtain ⟨v, c, hv, hc, hl, -, hh⟩ := (loadFour_spec history (steps history t) t r.final w.pick fromBinary (by decide) _ _ h3).1
    ((chars! "mass"), (chars! "star_1_mass"), (chars! "star_2_mass")) (by decide)
  refine ⟨l, e, c, h6, by simpa using m1, h5, (k1 _ (by decide)).trans hh.2, fun i hi => ?_⟩
  obtain ⟨v, hv, hl⟩ := m2 i i (by simp [hi])
  have hH : (r.final.foldl (depleteStar w.pre) s').hist = s'.hist := depleteStar_hist _ _ _
  have hA : (r.final.foldl (depleteStar w.pre) s').attr (chars! "state") = (w.star new).attr (chars! "state") :=
    (depleteStar_attr w _ _ (by decide) _).trans (k3 _ (by decide) (by decide)).1
  rw [hk, Option.isNone_none, checkState, if_pos rfl, hH, hA, (k3 _ (by decide) (by decide)).2] at hv
  unfold getAt at hv
  rw [hH, hh.2] at hv
  dsimp only at hv
  cases hm : c[i]? with
  | none => rw [hm] at hv; cases hv
  | some m =>
    rw [hm] at hv
    dsimp only at hv
    refine ⟨m, rfl, ?_⟩
    rw [hl]
    cases h7 : (w.star new).hist (chars! "state") with
    | none => rw [h7] at hv; cases hv
    | some q =>
      cases h8 : (w.star new).attr (chars! "state") with
      | none => rw [h7, h8] at hv; cases hv
      | some u =>
        rw [h7, h8] at hv
        dsimp only at hv
        cases h9 : q.getLast? with
        | none => rw [h9] at hv; cases hv
        | some y =>
          rw [h9] at hv
          dsimp only at hv
          have g1 : y ≠ wd := fun e => hw' q h7 (by rw [h9, e])
          have g2 : u ≠ wd := fun e => hw (by rw [h8, e])
          rw [if_neg (by tauto)] at hv
          cases hv
          rfl

/-- The value of a history at a step, if it is that long. -/
def valueAt (o : Obj) (a : Name) (i : ℕ) : V := (((o.hist a).getD [])[i]?).getD .none

theorem getAt_value {o : Obj} {a : Name} {i : ℕ} {v : V} (h : getAt o a i = .ok v) : valueAt o a i = v := by
  unfold getAt at h
  unfold valueAt
  cases hh : o.hist a with
  | none => rw [hh] at h; cases h
  | some l =>
    rw [hh] at h
    dsimp only at h
    cases hi : l[i]? with
    | none => rw [hi] at h; cases h
    | some u => rw [hi] at h; cases h; simp [hi]

theorem gammaAt_value {o : Obj} {i : ℕ} {v : V} (h : gammaAt o i = .ok v) : valueAt o (chars! "center_gamma") i = v := by
  unfold gammaAt at h
  cases hg : getAt o (chars! "center_gamma") i with
  | ok u => rw [hg] at h; cases h; exact getAt_value hg
  | error e =>
    rw [hg] at h
    cases e with
    | index =>
      cases h
      unfold getAt at hg
      unfold valueAt
      cases hh : o.hist (chars! "center_gamma") with
      | none => rw [hh] at hg; cases hg
      | some l =>
        rw [hh] at hg
        dsimp only at hg
        cases hi : l[i]? with
        | none => simp [hi]
        | some u => rw [hi] at hg; cases hg
    | value => cases h
    | assertion => cases h
    | «attribute» => cases h

/-- State, event and mass-transfer case of the binary at every step, from the values of that step. -/
theorem C95_orbit (t : Tab) (ht : r.binary = some t) (h : fromRun new k r history profiles = .ok x) :
    ∃ l : List (V × V × V), l.length = steps history t ∧
      (∃ z, l.getLast? = some z ∧ Holds x.b (chars! "state") z.1 (l.map (·.1)) ∧ Holds x.b (chars! "event") z.2.1 (l.map (·.2.1)) ∧
        Holds x.b (chars! "mass_transfer_case") z.2.2 (l.map (·.2.2))) ∧
      ∀ i, i < steps history t → l[i]? = some (k.orbit [valueAt x.b (chars! "lg_mtransfer_rate") i,
        valueAt x.b (chars! "rl_relative_overflow_1") i, valueAt x.b (chars! "rl_relative_overflow_2") i,
        valueAt x.s1 (chars! "state") i, valueAt x.s2 (chars! "state") i,
        valueAt x.s1 (chars! "center_gamma") i, valueAt x.s2 (chars! "center_gamma") i]) := by
  obtain ⟨hp, b, l, hb, hl, hx⟩ := fromRun_ok new k r history profiles t x ht h
  obtain ⟨m1, m2⟩ := mapE_inv _ _ _ hl
  rw [List.length_range] at m1
  obtain ⟨s, z, s', l1, e, -, -, -, h4, h5, -, -, -, -, -⟩ := path_keep (hp .one)
  have hpos : 0 < steps history t := by
    have := (mapE_inv _ _ _ h4).1
    rw [List.length_range] at this
    rw [← this]
    cases l1 with
    | nil => cases h5
    | cons _ _ => simp
  obtain ⟨z, hz⟩ : ∃ z, l.getLast? = some z := by
    cases hg : l.getLast? with
    | none => rw [List.getLast?_eq_none_iff] at hg; rw [hg] at m1; simp at m1; omega
    | some z => exact ⟨z, rfl⟩
  refine ⟨l, m1, ⟨z, hz, ?_, ?_, ?_⟩, fun i hi => ?_⟩
  · rw [hx]
    have := put_same ((r.final.foldl depleteBin b).put (chars! "eccentricity") (.num 0) (List.replicate (steps history t) (.num 0)))
      (chars! "state") (((l.map (·.1)).getLast?).getD .none) (l.map (·.1))
    rw [List.getLast?_map, hz] at this
    rw [List.getLast?_map, hz]
    exact this.keep (by rw [put_attr _ _ _ _ _ (by decide), put_attr _ _ _ _ _ (by decide)])
      (by rw [put_hist _ _ _ _ _ (by decide), put_hist _ _ _ _ _ (by decide)])
  · rw [hx]
    have e1 : (l.map (·.2.1)).getLast? = some z.2.1 := by rw [List.getLast?_map, hz]; rfl
    rw [e1]
    constructor
    · rw [put_attr _ _ _ _ _ (by decide)]; exact (put_same _ _ _ _).1
    · rw [put_hist _ _ _ _ _ (by decide)]; exact (put_same _ _ _ _).2
  · rw [hx]
    have e1 : (l.map (·.2.2)).getLast? = some z.2.2 := by rw [List.getLast?_map, hz]; rfl
    rw [e1]
    exact put_same _ _ _ _
  · obtain ⟨v, hv, hi'⟩ := m2 i i (by simp [hi])
    rw [hi']
    unfold orbitAt at hv
    dsimp only at hv
    cases q1 : mapE (fun a => getAt ((r.final.foldl depleteBin b).put (chars! "eccentricity") (.num 0)
        (List.replicate (steps history t) (.num 0))) a i)
      [(chars! "lg_mtransfer_rate"), (chars! "rl_relative_overflow_1"), (chars! "rl_relative_overflow_2")] with
    | error e => rw [q1] at hv; cases hv
    | ok vs =>
    rw [q1] at hv
    cases q2 : getAt x.s1 (chars! "state") i with
    | error e => rw [q2] at hv; cases hv
    | ok a1 =>
    rw [q2] at hv
    cases q3 : getAt x.s2 (chars! "state") i with
    | error e => rw [q3] at hv; cases hv
    | ok a2 =>
    rw [q3] at hv
    cases q4 : gammaAt x.s1 i with
    | error e => rw [q4] at hv; cases hv
    | ok a3 =>
    rw [q4] at hv
    cases q5 : gammaAt x.s2 i with
    | error e => rw [q5] at hv; cases hv
    | ok a4 =>
    rw [q5] at hv
    cases hv
    obtain ⟨n1, n2⟩ := mapE_inv _ _ _ q1
    obtain ⟨b1, c1, d1⟩ := n2 0 _ rfl
    obtain ⟨b2, c2, d2⟩ := n2 1 _ rfl
    obtain ⟨b3, c3, d3⟩ := n2 2 _ rfl
    have hvs : vs = [b1, b2, b3] := by
      match vs, n1, d1, d2, d3 with
      | [u1, u2, u3], _, d1, d2, d3 => simp at d1 d2 d3; simp [d1, d2, d3]
    have keepB : ∀ a, a ∉ computedB → x.b.hist a = ((r.final.foldl depleteBin b).put (chars! "eccentricity") (.num 0)
        (List.replicate (steps history t) (.num 0))).hist a := by
      intro a ha
      simp only [computedB, List.mem_cons, List.not_mem_nil, or_false, not_or] at ha
      rw [hx, put_hist _ _ _ _ _ ha.2.2.1, put_hist _ _ _ _ _ ha.2.1, put_hist _ _ _ _ _ ha.1]
    have vB : ∀ a v, a ∉ computedB → getAt ((r.final.foldl depleteBin b).put (chars! "eccentricity") (.num 0)
        (List.replicate (steps history t) (.num 0))) a i = .ok v → valueAt x.b a i = v := by
      intro a v ha hg
      rw [← getAt_congr _ x.b _ _ (keepB a ha)] at hg
      exact getAt_value hg
    rw [vB _ _ (by decide) c1, vB _ _ (by decide) c2, vB _ _ (by decide) c3, getAt_value q2, getAt_value q3, gammaAt_value q4,
      gammaAt_value q5, hvs]
    rfl

/-- All histories of the binary, and of a star with a table, have one entry for each step. -/
theorem C95_lengths (t : Tab) (ht : r.binary = some t) (h : fromRun new k r history profiles = .ok x) :
    (∀ a ∈ binaryProps, ∃ l, x.b.hist a = some l ∧ l.length = steps history t) ∧
    ∀ w : Which, (w.track r).isSome → ∀ a ∈ starProps, ∃ l, (w.star x).hist a = some l ∧ l.length = steps history t := by
  constructor
  · intro a ha
    by_cases hc : a ∈ computedB
    · obtain ⟨l, hl, ⟨z, -, h1, h2, h3⟩, -⟩ := C95_orbit new k r history profiles x t ht h
      simp only [computedB, List.mem_cons, List.not_mem_nil, or_false] at hc
      rcases hc with rfl | rfl | rfl | rfl
      · exact ⟨_, h1.2, by simpa using hl⟩
      · exact ⟨_, h2.2, by simpa using hl⟩
      · exact ⟨_, h3.2, by simpa using hl⟩
      · exact ⟨_, (C95_eccentricity new k r history profiles x t ht h).2, by simp⟩
    · obtain ⟨-, b, l, hb, -, hx⟩ := fromRun_ok new k r history profiles t x ht h
      obtain ⟨l, hl, hl'⟩ := ((loadAttrs_spec _ _ _ _ _ _ _ _ _ hb).1 a ha).2
      simp only [computedB, List.mem_cons, List.not_mem_nil, or_false, not_or] at hc
      obtain ⟨c1, c2, c3, c4⟩ := hc
      refine ⟨l, ?_, hl'⟩
      rw [hx, put_hist _ _ _ _ _ c3, put_hist _ _ _ _ _ c2, put_hist _ _ _ _ _ c1, put_hist _ _ _ _ _ c4, depleteBin_hist]
      exact hl
  · intro w hk a ha
    obtain ⟨tk, hk⟩ := Option.isSome_iff_exists.1 hk
    by_cases hs : a = (chars! "state")
    · subst hs
      obtain ⟨l, e, h1, h2, -⟩ := C95_states new k r history profiles x t ht h w (by rw [hk]; rfl)
      exact ⟨l, h1.2, h2⟩
    · obtain ⟨s, z, s', l, e, h1, -, h3, -, -, -, k1, -, k3, k4⟩ := path_keep ((fromRun_ok new k r history profiles t x ht h).1 w)
      rw [k1 a hs]
      by_cases hz : a = (chars! "metallicity")
      · subst hz; exact ⟨_, k4.2, by simp⟩
      · by_cases h4 : a ∈ four
        · rw [← four_eq, List.mem_map] at h4
          obtain ⟨p, hp, rfl⟩ := h4
          obtain ⟨v, l, -, -, -, hl, hh⟩ :=
            (loadFour_spec history (steps history t) t r.final w.pick fromBinary (by decide) _ _ h3).1 p hp
          exact ⟨l, hh.2, hl⟩
        · rw [hk] at h1
          obtain ⟨l, hl, hl'⟩ := ((loadAttrs_spec _ _ _ _ _ _ _ _ _ h1).1 a ha).2
          exact ⟨l, (k3 a h4 hz).2.trans hl, hl'⟩

/-- Values at helium depletion go to the star they belong to. -/
theorem C95_depletion (t : Tab) (ht : r.binary = some t) (h : fromRun new k r history profiles = .ok x) (w : Which) (a : Name) (v : V)
    (hd : isIn depl (w.pre ++ a) = true) (hn : (r.final.map Prod.fst).Nodup) (hm : (w.pre ++ a, v) ∈ r.final)
    (ha : a ≠ (chars! "state")) (hp : a ≠ (chars! "profile")) : (w.star x).attr a = some v := by
  obtain ⟨s, z, s', l, e, -, -, -, -, -, h6⟩ := ((fromRun_ok new k r history profiles t x ht h).1 w).ex
  rw [h6]
  have := depleteStar_get w.pre (by cases w <;> rfl) a v hd r.final hn hm s'
  cases profiles
  · exact (put_attr _ _ _ _ _ ha).trans this
  · exact (setAttr_attr _ _ _ _ hp).trans ((put_attr _ _ _ _ _ ha).trans this)

/-- A star is not affected by the other star's table, profile or final values. -/
theorem C95_independent (r' : Run) (x' : Sys) (t : Tab) (ht : r.binary = some t) (ht' : r'.binary = some t) (w : Which)
    (hk : w.track r = w.track r') (hi : r.initial = r'.initial) (hp : w.profile r = w.profile r')
    (hf : ∀ c, ¬ ((if w = .one then Which.two else .one).pre <+: c) → r.final.filter (fun p => p.1 = c) = r'.final.filter (fun p => p.1 = c))
    (hd : r.final.filter (fun p => p.1.take 3 = w.pre) = r'.final.filter (fun p => p.1.take 3 = w.pre))
    (h : fromRun new k r history profiles = .ok x) (h' : fromRun new k r' history profiles = .ok x') : w.star x = w.star x' := by
  have hlook : ∀ c, ¬ ((if w = .one then Which.two else .one).pre <+: c) → look r.final c = look r'.final c := by
    intro c hc
    unfold look
    rw [← List.head?_filter, ← List.head?_filter, hf c hc]
  have hfold : ∀ (l : Vals) (o : Obj), l.foldl (depleteStar w.pre) o =
      (l.filter (fun p => p.1.take 3 = w.pre)).foldl (depleteStar w.pre) o := by
    intro l
    induction l with
    | nil => intro o; rfl
    | cons p l ih =>
      intro o
      by_cases hp : p.1.take 3 = w.pre
      · rw [List.filter_cons_of_pos (by simpa using hp), List.foldl_cons, List.foldl_cons, ih]
      · rw [List.filter_cons_of_neg (by simpa using hp), List.foldl_cons, ih]
        congr 1
        unfold depleteStar
        rw [if_neg hp]
        split_ifs <;> rfl
  have hload : ∀ (tk : Tab) (as : List Name) (o : Obj), loadAttrs history (steps history t) tk r.final w.pre starSrc as o =
      loadAttrs history (steps history t) tk r'.final w.pre starSrc as o := by
    intro tk as
    induction as with
    | nil => intro o; rfl
    | cons a as ih =>
      intro o
      rw [loadAttrs, loadAttrs]
      cases starSrc a with
      | none => exact ih _
      | some c =>
        dsimp only
        rw [hlook (w.pre ++ c) (by cases w <;> simp [Which.pre])]
        cases look r'.final (w.pre ++ c) with
        | error e => dsimp only; rw [ih]
        | ok v => dsimp only; rw [ih, ih]
  have hfour : ∀ (as : List (Name × Name × Name)), (∀ p ∈ as, ¬ ((if w = .one then Which.two else .one).pre <+: w.pick p.2)) → ∀ (o : Obj),
      loadFour history (steps history t) t r.final w.pick as o = loadFour history (steps history t) t r'.final w.pick as o := by
    intro as
    induction as with
    | nil => intro _ o; rfl
    | cons q as ih =>
      obtain ⟨a, cs⟩ := q
      intro ha o
      rw [loadFour, loadFour, hlook _ (ha (a, cs) (by simp))]
      cases look r'.final (w.pick cs) with
      | error e => rfl
      | ok v => dsimp only; rw [ih (fun p hp => ha p (by simp [hp])), ih (fun p hp => ha p (by simp [hp]))]
  obtain ⟨s, z, s', l, e, h1, h2, h3, h4, h5, h6⟩ := ((fromRun_ok new k r history profiles t x ht h).1 w).ex
  obtain ⟨u, y, u', m, d, g1, g2, g3, g4, g5, g6⟩ := ((fromRun_ok new k r' history profiles t x' ht' h').1 w).ex
  have e1 : s = u := by
    rw [← hk] at g1
    cases hw : w.track r with
    | none => rw [hw] at h1 g1; cases h1; cases g1; rfl
    | some tk =>
      rw [hw] at h1 g1
      unfold loadStar at h1 g1
      dsimp only at h1 g1
      rw [hload, g1] at h1
      cases h1
      rfl
  subst e1
  have e2 : z = y := by rw [hi, g2] at h2; cases h2; rfl
  subst e2
  have e3 : s' = u' := by
    unfold ofBinary at h3 g3
    rw [hfour fromBinary (by cases w <;> decide), g3] at h3
    cases h3
    rfl
  subst e3
  have e4 : r.final.foldl (depleteStar w.pre) s' = r'.final.foldl (depleteStar w.pre) s' := by
    rw [hfold, hd, ← hfold]
  rw [e4, hk, g4] at h4
  cases h4
  rw [g5] at h5
  cases h5
  rw [h6, g6, e4, hp]

/-- If the final values are the last row, the current value of each property is the last of its history. -/
theorem C95_current_last (t : Tab) (ht : r.binary = some t) (h : fromRun new k r true profiles = .ok x) (last : Name → V)
    (hl : t.rows.getLast? = some last) (hf : ∀ c ∈ t.names, ∀ v, look r.final c = .ok v → v = last c) (a : Name) (ha : a ∈ binaryProps) :
    ∃ l v, x.b.hist a = some l ∧ x.b.attr a = some v ∧ l.getLast? = some v := by
  have hpos : t.rows ≠ [] := fun e => by rw [e] at hl; cases hl
  have hrep : ∀ v : V, (List.replicate (steps true t) v).getLast? = some v := by
    intro v
    have : steps true t ≠ 0 := by simpa [steps] using hpos
    rw [List.getLast?_replicate, if_neg this]
  by_cases hc : a ∈ computedB
  · obtain ⟨l, hl, ⟨z, hz, h1, h2, h3⟩, -⟩ := C95_orbit new k r true profiles x t ht h
    simp only [computedB, List.mem_cons, List.not_mem_nil, or_false] at hc
    rcases hc with rfl | rfl | rfl | rfl
    · exact ⟨_, _, h1.2, h1.1, by rw [List.getLast?_map, hz]; rfl⟩
    · exact ⟨_, _, h2.2, h2.1, by rw [List.getLast?_map, hz]; rfl⟩
    · exact ⟨_, _, h3.2, h3.1, by rw [List.getLast?_map, hz]; rfl⟩
    · have := C95_eccentricity new k r true profiles x t ht h
      exact ⟨_, _, this.2, this.1, hrep _⟩
  · rcases C95_binary new k r true profiles x t ht h a ha hc with ⟨c, v, hs, hm, hv, hh⟩ | ⟨-, hh⟩
    · refine ⟨_, _, hh.2, hh.1, ?_⟩
      rw [if_pos rfl, Tab.col, List.getLast?_map, hl, hf c hm v (by simpa using hv)]
      rfl
    · exact ⟨_, _, hh.2, hh.1, hrep _⟩

/-- The data a successful call needs. -/
structure Complete (new : Sys) (r : Run) (t : Tab) (history : Bool) : Prop where
  age : history = true → (chars! "age") ∈ t.names
  rows : history = true → t.rows ≠ []
  bin : ∀ a ∈ binaryProps, ∀ c, binarySrc a = some c → c ∈ t.names → ∃ v, look r.final c = .ok v
  z : ∃ v, look r.initial (chars! "Z") = .ok v
  four : ∀ (w : Which), ∀ p ∈ fromBinary, (∃ v, look r.final (w.pick p.2) = .ok v) ∧ (history = true → w.pick p.2 ∈ t.names)
  star : ∀ (w : Which) (tk : Tab), w.track r = some tk → (history = true → tk.rows.length = t.rows.length) ∧
    ∀ a ∈ starProps, ∀ c, starSrc a = some c → c ∈ tk.names → ∃ v, look r.final (w.pre ++ c) = .ok v
  compact : ∀ (w : Which), w.track r = none → (∃ l v, (w.star new).hist (chars! "state") = some l ∧ l ≠ [] ∧
    (w.star new).attr (chars! "state") = some v) ∧ ∃ l, (w.star new).hist (chars! "center_gamma") = some l

theorem getAt_total (o : Obj) (a : Name) (i n : ℕ) (l : List V) (h : o.hist a = some l) (hl : l.length = n) (hi : i < n) :
    ∃ v, getAt o a i = .ok v := by
  unfold getAt
  rw [h]
  exact ⟨l[i]'(by omega), by simp [List.getElem?_eq_getElem (show i < l.length by omega)]⟩

theorem star_total (hnew : Sys) (t : Tab) (hc : Complete hnew r t history) (z : V) (w : Which) :
    ∃ s s' o, loadStar history (steps history t) (w.track r) r.final w.pre (w.star hnew) = .ok s ∧
      ofBinary history (steps history t) t r.final z w.pick s = .ok s' ∧
      setStates k (steps history t) (w.track r).isNone (r.final.foldl (depleteStar w.pre) s') = .ok o ∧
      (∃ l, o.hist (chars! "state") = some l ∧ l.length = steps history t) ∧ ∃ l, o.hist (chars! "center_gamma") = some l := by
  have hpos : 0 < steps history t := by
    unfold steps
    cases history
    · simp
    · simpa using List.length_pos_iff.2 (hc.rows rfl)
  obtain ⟨s, hs⟩ : ∃ s, loadStar history (steps history t) (w.track r) r.final w.pre (w.star hnew) = .ok s := by
    cases hk : w.track r with
    | none => exact ⟨_, rfl⟩
    | some tk =>
      obtain ⟨q1, q2⟩ := hc.star w tk hk
      refine loadAttrs_total history _ tk r.final w.pre starSrc ?_ _ q2 _
      unfold steps
      cases history
      · rfl
      · rw [if_pos rfl, if_pos rfl, q1 rfl]
  obtain ⟨s', hs'⟩ := loadFour_total history (steps history t) t r.final w.pick rfl fromBinary (hc.four w) (setZ (steps history t) z s)
  have hf := loadFour_spec history (steps history t) t r.final w.pick fromBinary (by decide) _ _ hs'
  have hkeep : ∀ a, a ∉ four → a ≠ (chars! "metallicity") → s'.attr a = s.attr a ∧ s'.hist a = s.hist a := by
    intro a ha hz
    obtain ⟨e1, e2⟩ := hf.2 a ha
    exact ⟨e1.trans (put_attr _ _ _ _ _ hz), e2.trans (put_hist _ _ _ _ _ hz)⟩
  have hmass : ∃ l, s'.hist (chars! "mass") = some l ∧ l.length = steps history t := by
    obtain ⟨v, l, -, -, -, hl, hh⟩ := hf.1 ((chars! "mass"), (chars! "star_1_mass"), (chars! "star_2_mass")) (by decide)
    exact ⟨l, hh.2, hl⟩
  have hH : (r.final.foldl (depleteStar w.pre) s').hist = s'.hist := depleteStar_hist _ _ _
  have hall : ∀ i ∈ List.range (steps history t), ∃ v,
      checkState k (r.final.foldl (depleteStar w.pre) s') (w.track r).isNone i = .ok v := by
    intro i hi
    rw [List.mem_range] at hi
    cases hk : w.track r with
    | none =>
      rw [Option.isNone_none, checkState, if_pos rfl]
      obtain ⟨l, hl, hl'⟩ := hmass
      obtain ⟨m, hm⟩ := getAt_total (r.final.foldl (depleteStar w.pre) s') (chars! "mass") i _ l (by rw [hH]; exact hl) hl' hi
      rw [hm]
      dsimp only
      rw [hk] at hs
      cases hs
      obtain ⟨⟨q, v, hq, hq0, hv⟩, -⟩ := hc.compact w hk
      obtain ⟨e1, e2⟩ := hkeep (chars! "state") (by decide) (by decide)
      rw [hH, e2, hq, depleteStar_attr w _ _ (by decide), e1, hv]
      dsimp only
      cases hg : q.getLast? with
      | none => exact absurd (List.getLast?_eq_none_iff.1 hg) hq0
      | some y =>
        dsimp only
        split_ifs
        · exact ⟨_, rfl⟩
        · exact ⟨_, rfl⟩
    | some tk =>
      rw [Option.isNone_some, checkState, if_neg (by simp)]
      rw [hk] at hs
      have hl := (loadAttrs_spec _ _ _ _ _ _ _ _ _ hs).1
      obtain ⟨m, hm, -⟩ := MesaStop.mapE_ok (fun a => getAt (r.final.foldl (depleteStar w.pre) s') a i) stateCols (by
        intro a ha
        by_cases h4 : a ∈ four
        · rw [← four_eq, List.mem_map] at h4
          obtain ⟨p, hp, rfl⟩ := h4
          obtain ⟨v, l, -, -, -, hl, hh⟩ := hf.1 p hp
          exact getAt_total _ _ i _ l (by rw [hH]; exact hh.2) hl hi
        · obtain ⟨l, q1, q2⟩ := (hl a (stateCols_props a ha).1).2
          have hz : a ≠ (chars! "metallicity") := by
            rintro rfl
            exact absurd ha (by decide)
          exact getAt_total _ _ i _ l (by rw [hH, (hkeep a h4 hz).2]; exact q1) q2 hi)
      rw [hm]
      exact ⟨_, rfl⟩
  obtain ⟨l, hl, hlen, -⟩ := MesaStop.mapE_ok _ _ hall
  rw [List.length_range] at hlen
  obtain ⟨e, he⟩ : ∃ e, l.getLast? = some e := by
    cases hg : l.getLast? with
    | none => rw [List.getLast?_eq_none_iff] at hg; rw [hg] at hlen; simp at hlen; omega
    | some e => exact ⟨e, rfl⟩
  refine ⟨s, s', _, hs, hs', by unfold setStates; rw [hl]; dsimp only; rw [he], ⟨l, (put_same _ _ _ _).2, hlen⟩, ?_⟩
  rw [put_hist _ _ _ _ _ (by decide), hH, (hkeep (chars! "center_gamma") (by decide) (by decide)).2]
  cases hk : w.track r with
  | none => rw [hk] at hs; cases hs; exact (hc.compact w hk).2
  | some tk =>
    rw [hk] at hs
    obtain ⟨l, h1, -⟩ := ((loadAttrs_spec _ _ _ _ _ _ _ _ _ hs).1 (chars! "center_gamma") (by decide +kernel)).2
    exact ⟨l, h1⟩

theorem gamma_total (o : Obj) (i : ℕ) (h : ∃ l, o.hist (chars! "center_gamma") = some l) : ∃ v, gammaAt o i = .ok v := by
  obtain ⟨l, hl⟩ := h
  unfold gammaAt getAt
  rw [hl]
  dsimp only
  cases l[i]? with
  | none => exact ⟨_, rfl⟩
  | some v => exact ⟨v, rfl⟩

/-- With complete data the call succeeds. -/
theorem C95_succeeds (t : Tab) (ht : r.binary = some t) (hc : Complete new r t history) :
    ∃ x, fromRun new k r history profiles = .ok x := by
  obtain ⟨z, hz⟩ := hc.z
  obtain ⟨b, hb⟩ := loadAttrs_total history (steps history t) t r.final [] binarySrc rfl binaryProps hc.bin new.b
  obtain ⟨s1, s1', o1, p1, p2, p3, p4, p5⟩ := star_total k r history new t hc z .one
  obtain ⟨s2, s2', o2, q1, q2, q3, q4, q5⟩ := star_total k r history new t hc z .two
  have hbl := (loadAttrs_spec _ _ _ _ _ _ _ _ _ hb).1
  unfold fromRun
  rw [ht]
  dsimp only
  rw [if_neg (by rintro ⟨h1, h2⟩; exact h2 (hc.age h1))]
  have hn : (if history = true then (t.col (chars! "age")).length else 1) = steps history t := by
    simp [steps, Tab.col]
  rw [hn, hb]
  dsimp only
  have p1 : loadStar history (steps history t) r.h1 r.final (chars! "S1_") new.s1 = .ok s1 := p1
  have q1 : loadStar history (steps history t) r.h2 r.final (chars! "S2_") new.s2 = .ok s2 := q1
  have p2 : ofBinary history (steps history t) t r.final z Prod.fst s1 = .ok s1' := p2
  have q2 : ofBinary history (steps history t) t r.final z Prod.snd s2 = .ok s2' := q2
  have p3 : setStates k (steps history t) r.h1.isNone (r.final.foldl (depleteStar (chars! "S1_")) s1') = .ok o1 := p3
  have q3 : setStates k (steps history t) r.h2.isNone (r.final.foldl (depleteStar (chars! "S2_")) s2') = .ok o2 := q3
  rw [p1]; dsimp only
  rw [q1]; dsimp only
  rw [hz]; dsimp only
  rw [p2]; dsimp only
  rw [q2]; dsimp only
  rw [foldl_deplete]
  unfold finish
  dsimp only
  have hN : nHist (setEcc (steps history t) ⟨r.final.foldl depleteBin b, r.final.foldl (depleteStar (chars! "S1_")) s1',
      r.final.foldl (depleteStar (chars! "S2_")) s2'⟩) = steps history t := by
    unfold nHist setEcc
    dsimp only
    rw [put_hist _ _ _ _ _ (by decide), depleteBin_hist]
    obtain ⟨l, hl, hl'⟩ := (hbl (chars! "time") (by decide)).2
    rw [hl]; exact hl'
  rw [hN]
  unfold setEcc
  dsimp only
  rw [p3]; dsimp only
  rw [q3]; dsimp only
  have horb : ∀ i ∈ List.range (steps history t), ∃ v, orbitAt k ⟨(r.final.foldl depleteBin b).put (chars! "eccentricity") (.num 0)
      (List.replicate (steps history t) (.num 0)), o1, o2⟩ i = .ok v := by
    intro i hi
    rw [List.mem_range] at hi
    obtain ⟨vs, hvs, -⟩ := MesaStop.mapE_ok (fun a => getAt ((r.final.foldl depleteBin b).put (chars! "eccentricity") (.num 0)
        (List.replicate (steps history t) (.num 0))) a i)
      [(chars! "lg_mtransfer_rate"), (chars! "rl_relative_overflow_1"), (chars! "rl_relative_overflow_2")] (by
        intro a ha
        have hh : a ∈ binaryProps ∧ a ≠ (chars! "eccentricity") := by
          revert a
          decide +kernel
        obtain ⟨l, h1, h2⟩ := (hbl a hh.1).2
        exact getAt_total _ _ _ _ l (by rw [put_hist _ _ _ _ _ hh.2, depleteBin_hist]; exact h1) h2 hi)
    obtain ⟨l1, u1, u2⟩ := p4
    obtain ⟨l2, w1, w2⟩ := q4
    obtain ⟨v1, hv1⟩ := getAt_total o1 _ i _ l1 u1 u2 hi
    obtain ⟨v2, hv2⟩ := getAt_total o2 _ i _ l2 w1 w2 hi
    obtain ⟨g1, hg1⟩ := gamma_total o1 i p5
    obtain ⟨g2, hg2⟩ := gamma_total o2 i q5
    unfold orbitAt
    dsimp only
    rw [hvs, hv1, hv2, hg1, hg2]
    exact ⟨_, rfl⟩
  obtain ⟨l, hl, -⟩ := MesaStop.mapE_ok _ _ horb
  unfold setOrbit
  dsimp only
  rw [hl]
  exact ⟨_, rfl⟩

/-- A run without a value of `Z` is never turned into a binary: the alternative of no metallicity is not reached. -/
theorem C95_no_metallicity_violated (t : Tab) (ht : r.binary = some t) (hz : ∀ p ∈ r.initial, p.1 ≠ (chars! "Z")) :
    ∀ x, fromRun new k r history profiles ≠ .ok x := by
  intro x h
  obtain ⟨z, h1, -⟩ := C95_metallicity new k r history profiles x t ht h .one
  unfold look at h1
  cases hf : r.initial.find? (fun p => p.1 = (chars! "Z")) with
  | none => rw [hf] at h1; cases h1
  | some p => exact hz p (List.mem_of_find?_eq_some hf) (by simpa using List.find?_some hf)

/-- The histories of a star without a table are those of a new star, whatever the number of steps, but for mass, rates, metallicity
and state. -/
theorem C95_compact_histories_violated (t : Tab) (ht : r.binary = some t) (h : fromRun new k r history profiles = .ok x) (w : Which)
    (hk : w.track r = none) (a : Name) (hs : a ≠ (chars! "state")) (hz : a ≠ (chars! "metallicity")) (h4 : a ∉ four) :
    (w.star x).hist a = (w.star new).hist a := by
  obtain ⟨s, z, s', l, e, h1, -, -, -, -, -, k1, -, k3, -⟩ := path_keep ((fromRun_ok new k r history profiles t x ht h).1 w)
  rw [hk] at h1
  cases h1
  exact (k1 a hs).trans (k3 a h4 hz).2

/-- With profiles, the current profile is that of the run, but it is in no history. -/
theorem C95_profile_history_violated (t : Tab) (ht : r.binary = some t) (h : fromRun new k r history true = .ok x) (w : Which)
    (hk : (w.track r).isSome) : Holds (w.star x) (chars! "profile") (w.profile r) (List.replicate (steps history t) .none) := by
  obtain ⟨tk, hk⟩ := Option.isSome_iff_exists.1 hk
  have hp := (fromRun_ok new k r history true t x ht h).1 w
  obtain ⟨s, z, s', l, e, h1, -, -, -, -, -, k1, k2, k3, -⟩ := path_keep hp
  obtain ⟨_, _, _, _, _, -, -, -, -, -, h6⟩ := hp.ex
  refine ⟨by rw [h6]; exact setAttr_same _ _ _, ?_⟩
  rw [k1 _ (by decide), (k3 _ (by decide) (by decide)).2]
  rw [hk] at h1
  rcases ((loadAttrs_spec _ _ _ _ _ _ _ _ _ h1).1 (chars! "profile") (by decide +kernel)).1 with ⟨c, v, hs, -⟩ | ⟨-, hh⟩
  · exact absurd hs (by rw [show starSrc (chars! "profile") = none from by decide]; simp)
  · exact hh.2

end

/-! ### A single star -/

theorem depleteSingle_eq : depleteSingle = depleteStar Which.one.pre := rfl

section
variable (new : Obj) (k : Cls) (r : Run) (history profile : Bool) (o : Obj)

theorem single_ok (t : Tab) (ht : r.h1 = some t) (h : fromRunSingle new k r history profile = .ok o) :
    ∃ s z l e, loadAttrs history (steps history t) t r.final Which.one.pre singleSrc starProps new = .ok s ∧
      look r.initial (chars! "Z") = .ok z ∧
      mapE (checkState k (r.final.foldl (depleteStar Which.one.pre) (s.setAttr (chars! "metallicity") z)) false)
        (List.range (steps history t)) = .ok l ∧ l.getLast? = some e ∧
      o = singleProfile profile (steps history t) r.profile1
        ((r.final.foldl (depleteStar Which.one.pre) (s.setAttr (chars! "metallicity") z)).put (chars! "state") e l) := by
  unfold fromRunSingle at h
  rw [ht] at h
  dsimp only at h
  by_cases hage : history = true ∧ (chars! "star_age") ∉ t.names
  · rw [if_pos hage] at h; cases h
  rw [if_neg hage] at h
  have hn : (if history = true then (t.col (chars! "star_age")).length else 1) = steps history t := by
    simp [steps, Tab.col]
  rw [hn] at h
  cases hs : loadAttrs history (steps history t) t r.final (chars! "S1_") singleSrc starProps new with
  | error e => rw [hs] at h; cases h
  | ok s =>
  rw [hs] at h; dsimp only at h
  cases hz : look r.initial (chars! "Z") with
  | error e => rw [hz] at h; cases h
  | ok z =>
  rw [hz] at h; dsimp only at h
  rw [depleteSingle_eq] at h
  cases h5 : setStates k (steps history t) false (r.final.foldl (depleteStar Which.one.pre) (s.setAttr (chars! "metallicity") z)) with
  | error e => rw [h5] at h; cases h
  | ok u =>
  rw [h5] at h
  cases h
  obtain ⟨l, e, q1, q2, q3⟩ := setStates_ok _ _ _ _ _ h5
  exact ⟨s, z, l, e, hs, rfl, q1, q2, by rw [q3]⟩

theorem single_hist (t : Tab) (ht : r.h1 = some t) (h : fromRunSingle new k r history profile = .ok o) :
    ∃ s z, loadAttrs history (steps history t) t r.final Which.one.pre singleSrc starProps new = .ok s ∧
      look r.initial (chars! "Z") = .ok z ∧ o.attr (chars! "metallicity") = some z ∧
      (∀ a, a ≠ (chars! "state") → (profile = false ∨ a ≠ (chars! "profile")) → o.hist a = s.hist a) ∧
      ∀ a, a ≠ (chars! "state") → a ≠ (chars! "metallicity") → isIn depl a = false → (profile = false ∨ a ≠ (chars! "profile")) →
        o.attr a = s.attr a := by
  obtain ⟨s, z, l, e, h1, h2, -, -, h5⟩ := single_ok new k r history profile o t ht h
  refine ⟨s, z, h1, h2, ?_, ?_, ?_⟩
  · rw [h5]
    have : ((r.final.foldl (depleteStar Which.one.pre) (s.setAttr (chars! "metallicity") z)).put (chars! "state") e l).attr
        (chars! "metallicity") = some z := by
      rw [put_attr _ _ _ _ _ (by decide), depleteStar_attr .one _ _ (by decide)]; exact setAttr_same _ _ _
    cases profile
    · exact this
    · exact (put_attr _ _ _ _ _ (by decide)).trans this
  · intro a ha hp
    rw [h5]
    have : ((r.final.foldl (depleteStar Which.one.pre) (s.setAttr (chars! "metallicity") z)).put (chars! "state") e l).hist a
        = s.hist a := by
      rw [put_hist _ _ _ _ _ ha, depleteStar_hist]; rfl
    cases profile
    · exact this
    · exact (put_hist _ _ _ _ _ (by simpa using hp)).trans this
  · intro a ha hz hd hp
    rw [h5]
    have : ((r.final.foldl (depleteStar Which.one.pre) (s.setAttr (chars! "metallicity") z)).put (chars! "state") e l).attr a
        = s.attr a := by
      rw [put_attr _ _ _ _ _ ha, depleteStar_attr .one _ _ hd]; exact setAttr_attr _ _ _ _ hz
    cases profile
    · exact this
    · exact (put_attr _ _ _ _ _ (by simpa using hp)).trans this

/-- Every property of a single star that is not computed holds its own column and final value, or nothing. -/
theorem C95_single (t : Tab) (ht : r.h1 = some t) (h : fromRunSingle new k r history profile = .ok o) (a : Name) (ha : a ∈ starProps)
    (hs : a ≠ (chars! "state")) (hz : a ≠ (chars! "metallicity")) (hp : profile = false ∨ a ≠ (chars! "profile")) :
    Loaded history (steps history t) t r.final (chars! "S1_") singleSrc o a := by
  obtain ⟨s, z, h1, -, -, k1, k2⟩ := single_hist new k r history profile o t ht h
  exact ((loadAttrs_spec _ _ _ _ _ _ _ _ _ h1).1 a ha).1.keep (k2 a hs hz (props_plain.2 a ha) hp) (k1 a hs hp)

/-- The profile of a single star is the last entry of its history. -/
theorem C95_single_profile (t : Tab) (ht : r.h1 = some t) (h : fromRunSingle new k r history true = .ok o) :
    Holds o (chars! "profile") r.profile1 (List.replicate (steps history t - 1) .none ++ [r.profile1]) := by
  obtain ⟨s, z, l, e, -, -, -, -, h5⟩ := single_ok new k r history true o t ht h
  rw [h5]
  exact put_same _ _ _ _

/-- The metallicity of a single star is the initial one, but its history is empty. -/
theorem C95_single_metallicity_violated (t : Tab) (ht : r.h1 = some t) (h : fromRunSingle new k r history profile = .ok o) :
    ∃ z, look r.initial (chars! "Z") = .ok z ∧
      Holds o (chars! "metallicity") z (List.replicate (steps history t) .none) := by
  obtain ⟨s, z, h1, h2, h3, k1, -⟩ := single_hist new k r history profile o t ht h
  refine ⟨z, h2, h3, (k1 _ (by decide) (.inr (by decide))).trans ?_⟩
  rcases ((loadAttrs_spec _ _ _ _ _ _ _ _ _ h1).1 (chars! "metallicity") (by decide)).1 with ⟨c, v, hs, -⟩ | ⟨-, hh⟩
  · exact absurd hs (by rw [show singleSrc (chars! "metallicity") = none from by decide]; simp)
  · exact hh.2

end

/-! ### Example: a run with a compact companion -/

namespace Example

def bn : List Name := [(chars! "age"), (chars! "period_days"), (chars! "lg_mtransfer_rate"), (chars! "star_1_mass"), (chars! "star_2_mass"),
  (chars! "lg_mstar_dot_1"), (chars! "lg_mstar_dot_2"), (chars! "lg_system_mdot_1"), (chars! "lg_system_mdot_2"), (chars! "lg_wind_mdot_1"),
  (chars! "lg_wind_mdot_2")]

def bt : Tab := ⟨bn, [fun c => .num c.length, fun c => .num (c.length + 1)]⟩
def st : Tab := ⟨[(chars! "log_R"), (chars! "center_h1")], [fun c => .num (2 * c.length), fun c => .num (2 * c.length + 1)]⟩

def run : Run where
  binary := some bt
  h1 := some st
  h2 := none
  final := bn.map (fun c => (c, V.num (c.length + 1))) ++ [((chars! "S1_log_R"), .num 11), ((chars! "S1_center_h1"), .num 19),
    ((chars! "S1_m_at_He_depletion"), .num 7)]
  initial := [((chars! "Z"), .num (1 / 50))]
  profile1 := .profile 1
  profile2 := .none

def newObj : Obj := ⟨fun _ => some .nan, fun _ => some [.nan]⟩
def newSys : Sys := ⟨newObj, newObj, newObj⟩
def cls : Cls := ⟨fun _ => .txt (chars! "star"), fun _ => .txt (chars! "NS"), fun _ => (.txt (chars! "detached"), .none, .txt (chars! "None"))⟩

def check (p : Sys → Bool) : Bool := match fromRun newSys cls run true true with
  | .ok x => p x
  | .error _ => false

example : check (fun x => x.b.attr (chars! "orbital_period") = some (.num 12) ∧ x.b.hist (chars! "orbital_period") = some [.num 11, .num 12] ∧
    x.s1.hist (chars! "log_R") = some [.num 10, .num 11] ∧ x.s1.attr (chars! "log_R") = some (.num 11) ∧
    x.s1.hist (chars! "mass") = some [.num 11, .num 12] ∧ x.s1.attr (chars! "m_at_He_depletion") = some (.num 7) ∧
    x.s2.attr (chars! "m_at_He_depletion") = some .nan ∧ x.s2.hist (chars! "state") = some [.txt (chars! "NS"), .txt (chars! "NS")] ∧
    x.s2.hist (chars! "log_R") = some [.nan] ∧ x.s1.attr (chars! "profile") = some (.profile 1) ∧
    x.s1.hist (chars! "profile") = some [.none, .none]) = true := by decide +kernel

def found (l : Vals) (c : Name) : Bool := l.any fun p => p.1 = c

theorem found_look (l : Vals) (c : Name) (h : found l c = true) : ∃ v, look l c = .ok v := by
  unfold look
  cases hf : l.find? (fun p => p.1 = c) with
  | some p => exact ⟨_, rfl⟩
  | none =>
    rw [List.find?_eq_none] at hf
    unfold found at h
    rw [List.any_eq_true] at h
    obtain ⟨p, hp, hc⟩ := h
    exact absurd hc (hf p hp)

/-- The run of the example is complete. -/
theorem complete : Complete newSys run bt true where
  age := fun _ => by decide
  rows := fun _ => by simp [bt]
  bin := by
    have : ∀ a ∈ binaryProps, ∀ c ∈ bn, binarySrc a = some c → found run.final c = true := by decide +kernel
    exact fun a ha c hc hm => found_look _ _ (this a ha c hm hc)
  z := ⟨_, rfl⟩
  four := by
    intro w
    have : ∀ p ∈ fromBinary, found run.final (w.pick p.2) = true ∧ w.pick p.2 ∈ bn := by cases w <;> decide +kernel
    exact fun p hp => ⟨found_look _ _ (this p hp).1, fun _ => (this p hp).2⟩
  star := by
    intro w tk hk
    cases w with
    | two => cases hk
    | one =>
      cases hk
      have : ∀ a ∈ starProps, ∀ c ∈ st.names, starSrc a = some c → found run.final (Which.one.pre ++ c) = true := by decide +kernel
      exact ⟨fun _ => rfl, fun a ha c hc hm => found_look _ _ (this a ha c hm hc)⟩
  compact := by
    intro w _
    cases w <;> exact ⟨⟨[.nan], .nan, rfl, by simp, rfl⟩, [.nan], rfl⟩

end Example

/-- The period, the separation and the time are those of the run's table of the binary. -/
theorem C95_orbit_columns : binarySrc (chars! "orbital_period") = some (chars! "period_days") ∧
    binarySrc (chars! "separation") = some (chars! "binary_separation") ∧ binarySrc (chars! "time") = some (chars! "age") ∧
    binarySrc (chars! "state") = none ∧ binarySrc (chars! "event") = none ∧
    ∀ a ∈ binaryProps, a ∉ [(chars! "state"), (chars! "event"), (chars! "time"), (chars! "separation"), (chars! "orbital_period"),
      (chars! "eccentricity"), (chars! "V_sys"), (chars! "mass_transfer_case"), (chars! "nearest_neighbour_distance")] →
      binarySrc a = some a := by
  refine ⟨by decide, by decide, by decide, by decide, by decide, fun a _ h => ?_⟩
  simp only [List.mem_cons, List.not_mem_nil, or_false, not_or] at h
  obtain ⟨h1, h2, h3, h4, h5, h6, h7, h8, h9⟩ := h
  simp only [binarySrc, h1, h2, h3, h4, h5, h6, h7, h8, h9, if_false]

/-- A compact star that is or was last a white dwarf is one; any other gets its state from its mass. -/
theorem C95_compact_state (k : Cls) (o : Obj) (i : ℕ) (m s z : V) (l : List V) (hm : getAt o (chars! "mass") i = .ok m)
    (hl : o.hist (chars! "state") = some l) (hs : o.attr (chars! "state") = some s) (hz : l.getLast? = some z) :
    checkState k o true i = .ok (if z = .txt (chars! "WD") ∨ s = .txt (chars! "WD") then .txt (chars! "WD") else k.compact m) := by
  unfold checkState
  rw [if_pos rfl, hm]
  dsimp only
  rw [hl, hs]
  dsimp only
  rw [hz]
  dsimp only
  change (if z = wd ∨ s = wd then _ else _) = Except.ok (if z = wd ∨ s = wd then wd else _)
  split_ifs <;> rfl

end Verif.FromRun
