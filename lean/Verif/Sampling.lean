import Mathlib.Algebra.Order.Field.Rat
import Mathlib.Tactic.NormNum
import Mathlib.Tactic.Common
import Mathlib.Tactic.Ring
import Mathlib.Tactic.Linarith
import Mathlib.Tactic.FieldSimp
import Mathlib.Tactic.SplitIfs
/-!
Model of `/repo/posydon/popsyn/independent_sample.py` (`generate_independent_samples` l.48-100, `generate_secondary_masses` l.317-376,
`generate_binary_fraction` l.378-423) and of `FlatMassRatio` in `/repo/posydon/popsyn/distributions.py` l.51-56, 133-150.

Simplifications: numbers are rational; the arrays are one list with an entry per binary (`Draw`), which carries the primary mass
that was drawn (Distrib.lean models that draw), the orbital and eccentricity draws, and the two uniform draws in `[0, 1)` used for
the mass ratio and for the choice single / binary. NaN is `none`. The `Moe+17-PsandQs` generator is in `Moe`.
-/
namespace Verif.Sampling

/-- What is drawn for one system. -/
structure Draw where
  m1 : ℚ
  orb : ℚ
  ecc : ℚ
  uq : ℚ
  us : ℚ
  deriving DecidableEq

/-- The four returned arrays, entry by entry. -/
structure Row where
  orb : Option ℚ
  ecc : Option ℚ
  m1 : Option ℚ
  m2 : Option ℚ
  deriving DecidableEq

inductive Err
  | value
  deriving DecidableEq

/-- `FlatMassRatio(q_min, q_max).rvs(1)`, distributions.py l.51-56 and l.133-150 (`rng.uniform`). -/
def flatQ (qmin qmax u : ℚ) : Except Err ℚ :=
  if ¬ (0 ≤ qmin ∧ qmin < 1) then .error .value
  else if ¬ (0 < qmax ∧ qmax ≤ 1) then .error .value
  else if qmax ≤ qmin then .error .value
  else .ok (qmin + (qmax - qmin) * u)

/-- The loop l.361-371 for one system. -/
def flatM2 (smin smax : ℚ) (d : Draw) : Except Err ℚ :=
  match flatQ (max (smin / d.m1) 0) (min (smax / d.m1) 1) d.uq with
  | .error e => .error e
  | .ok q => .ok (d.m1 * q)

/-- `generate_secondary_masses`, l.348-376. The Boolean says that the returned array is the array of primary masses itself (l.374). -/
def secondaries (scheme : String) (smin smax : ℚ) (ds : List Draw) : Except Err (List ℚ × Bool) :=
  if scheme ≠ "flat_mass_ratio" ∧ scheme ≠ "q=1" then .error .value
  else if ds = [] then .error .value
  else if ds.any (fun d => decide (d.m1 < smin)) then .error .value
  else if scheme = "flat_mass_ratio" then
    match ds.mapM (flatM2 smin smax) with
    | .error e => .error e
    | .ok l => .ok (l, false)
  else .ok (ds.map (·.m1), true)

/-- `generate_binary_fraction`, l.398-423. -/
inductive Fraction
  | const (f : ℚ)
  | moe
  | other

/-- The masked assignments l.414-418 for one mass, in order, starting from 0. -/
def moeFraction (m1 : ℚ) : ℚ :=
  let f : ℚ := 0
  let f := if m1 > 16 then 0.94 else f
  let f := if m1 ≤ 16 ∧ m1 > 9 then 0.84 else f
  let f := if m1 ≤ 9 ∧ m1 > 5 then 0.76 else f
  let f := if m1 ≤ 5 ∧ m1 > 2 then 0.59 else f
  let f := if m1 ≤ 2 then 0.4 else f
  f

def fraction (k : Fraction) (m1 : ℚ) : Except Err ℚ :=
  match k with
  | .const f => .ok f
  | .moe => .ok (moeFraction m1)
  | .other => .error .value

/-- l.95-98 for one system: the row after the NaN assignments. If `m2` is the same array as `m1`, the assignment also hits `m1`. -/
def mark (shared : Bool) (f : ℚ) (d : Draw) (m2 : ℚ) : Row :=
  if d.us > f then ⟨none, none, if shared then none else some d.m1, none⟩
  else ⟨some d.orb, some d.ecc, some d.m1, some m2⟩

/-- `generate_independent_samples`, l.72-100. -/
def generate (orbitalScheme scheme : String) (smin smax : ℚ) (k : Fraction) (ds : List Draw) : Except Err (List Row) :=
  match secondaries scheme smin smax ds with
  | .error e => .error e
  | .ok (m2, shared) =>
    if orbitalScheme ≠ "separation" ∧ orbitalScheme ≠ "period" then .error .value
    else
      match ds.mapM (fun d => fraction k d.m1) with
      | .error e => .error e
      | .ok fs => .ok (List.zipWith3 (fun f d m => mark shared f d m) fs ds m2)

/-! ### Specification -/

/-- What C24 promises for one system: `single` says whether the draw made it a single star. -/
def RowOk (smin smax : ℚ) (f : ℚ) (d : Draw) (r : Row) : Prop :=
  r.m1 = some d.m1 ∧
  (if d.us > f then r.m2 = none ∧ r.orb = none ∧ r.ecc = none
   else r.orb = some d.orb ∧ r.ecc = some d.ecc ∧ ∃ m, r.m2 = some m ∧ smin ≤ m ∧ m ≤ smax ∧ m ≤ d.m1)

/-! ### Lemmas -/

theorem mapM_ok_iff {α β : Type} (f : α → Except Err β) :
    ∀ (l : List α) (r : List β), l.mapM f = .ok r ↔ l.map f = r.map .ok := by
  intro l
  induction l with
  | nil =>
    intro r
    rw [List.mapM_nil]
    constructor
    · intro h; cases h; rfl
    · intro h
      cases r with
      | nil => rfl
      | cons => cases h
  | cons a l ih =>
    intro r
    rw [List.mapM_cons]
    cases hf : f a with
    | error e =>
      constructor
      · intro h; cases h
      · intro h
        cases r with
        | nil => cases h
        | cons b r =>
          rw [List.map_cons, List.map_cons, hf] at h
          cases h
    | ok b =>
      cases hl : l.mapM f with
      | error e =>
        constructor
        · intro h; cases h
        · intro h
          cases r with
          | nil => cases h
          | cons b' r =>
            rw [List.map_cons, List.map_cons] at h
            injection h with h1 h2
            rw [(ih r).2 h2] at hl
            cases hl
      | ok bs =>
        have hm := (ih bs).1 hl
        constructor
        · intro h
          have h' : b :: bs = r := by cases h; rfl
          subst h'
          rw [List.map_cons, List.map_cons, hf, hm]
        · intro h
          cases r with
          | nil => cases h
          | cons b' r =>
            rw [List.map_cons, List.map_cons, hf] at h
            injection h with h1 h2
            injection h1 with h1
            rw [(ih r).2 h2] at hl
            injection hl with hl
            subst h1; subst hl
            rfl

theorem flatM2_ok {smin smax : ℚ} {d : Draw} (h0 : 0 < d.m1) (hu0 : 0 ≤ d.uq) (hu1 : d.uq < 1) {m : ℚ}
    (h : flatM2 smin smax d = .ok m) : smin ≤ m ∧ m ≤ smax ∧ m ≤ d.m1 := by
  unfold flatM2 flatQ at h
  split_ifs at h with h1 h2 h3 <;> try cases h
  set a := max (smin / d.m1) 0
  set b := min (smax / d.m1) 1
  have ha : smin / d.m1 ≤ a := le_max_left _ _
  have hb : b ≤ smax / d.m1 := min_le_left _ _
  have hb1 : b ≤ 1 := min_le_right _ _
  rw [div_le_iff₀ h0] at ha
  rw [le_div_iff₀ h0] at hb
  have hab : 0 < b - a := by linarith [not_le.1 h3]
  have hq1 : a ≤ a + (b - a) * d.uq := by nlinarith
  have hq2 : a + (b - a) * d.uq ≤ b := by nlinarith
  refine ⟨?_, ?_, ?_⟩ <;> nlinarith

theorem flatM2_isOk {smin smax : ℚ} {d : Draw} (h0 : 0 < d.m1) :
    (∃ m, flatM2 smin smax d = .ok m) ↔ smin < d.m1 ∧ smin < smax ∧ 0 < smax := by
  have e1 : smin / d.m1 < 1 ↔ smin < d.m1 := by rw [div_lt_iff₀ h0, one_mul]
  have e2 : 0 < smax / d.m1 ↔ 0 < smax := by
    rw [lt_div_iff₀ h0, zero_mul]
  have e3 : smin / d.m1 < smax / d.m1 ↔ smin < smax := by
    rw [div_lt_div_iff_of_pos_right h0]
  have hc : (∃ m, flatM2 smin smax d = .ok m) ↔
      (0 ≤ max (smin / d.m1) 0 ∧ max (smin / d.m1) 0 < 1) ∧ (0 < min (smax / d.m1) 1 ∧ min (smax / d.m1) 1 ≤ 1) ∧
      max (smin / d.m1) 0 < min (smax / d.m1) 1 := by
    unfold flatM2 flatQ
    by_cases h1 : 0 ≤ max (smin / d.m1) 0 ∧ max (smin / d.m1) 0 < 1
    · rw [if_neg (not_not.2 h1)]
      by_cases h2 : 0 < min (smax / d.m1) 1 ∧ min (smax / d.m1) 1 ≤ 1
      · rw [if_neg (not_not.2 h2)]
        by_cases h3 : min (smax / d.m1) 1 ≤ max (smin / d.m1) 0
        · rw [if_pos h3]
          constructor
          · rintro ⟨m, hm⟩; cases hm
          · rintro ⟨_, _, h⟩; exact absurd h (not_lt.2 h3)
        · rw [if_neg h3]
          exact ⟨fun _ => ⟨h1, h2, not_le.1 h3⟩, fun _ => ⟨_, rfl⟩⟩
      · rw [if_pos h2]
        constructor
        · rintro ⟨m, hm⟩; cases hm
        · rintro ⟨_, h, _⟩; exact absurd h h2
    · rw [if_pos h1]
      constructor
      · rintro ⟨m, hm⟩; cases hm
      · rintro ⟨h, _⟩; exact absurd h h1
  rw [hc]
  simp only [le_max_iff, le_refl, or_true, true_and, max_lt_iff, lt_min_iff, min_le_iff, and_true, zero_lt_one, e1, e2, e3]
  tauto

end Verif.Sampling
