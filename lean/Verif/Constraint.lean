import Verif.Orbit
import Mathlib.Analysis.SpecialFunctions.Log.Base
import Mathlib.Tactic.Linarith
import Mathlib.Tactic.FieldSimp
import Mathlib.Tactic.Ring
import Mathlib.Tactic.Common

/-!
Model of the physical constraints imposed on interpolated values: `/repo/posydon/interpolation/constraints.py` (l.58-525), and their use in
`/repo/posydon/interpolation/IF_interpolation.py` l.495 and l.704-709.

Simplifications: floats are real numbers, `none` is any value that is not finite.  The names of columns are an enumeration; a column of a star is the
name with the number of the star, a column of the binary has number 0 (the templates "S{}_log_R" and "star_{}_mass" are `per`).  The test
`vals != sorted(vals, reverse=True)` in front of the loop of `correct_inequality` is left out: when it is false the loop changes nothing.
Exceptions of the linear algebra in `get_thickness_n_radius` (singular matrix, infinite slope, no valid intersection) are one value, `geometry`.
-/
namespace Verif.Constraint

noncomputable section
open Classical

inductive Err
  | key | geometry | assertion
  deriving DecidableEq

/-- The names in the constraints. -/
inductive Name
  | logTeff | logL | logR | binarySeparation | periodDays | mass | logLnuc | logLH | logLHe | logLZ | mdot | mtransfer | xfer
  | heMass | coMass | heRadius | coRadius | mCE1 | mCE10 | mCE30 | mCEpure | rCE1 | rCE10 | rCE30 | rCEpure
  | convMass | convThick | convRadius | directMass | rapidMass | delayedMass | sukhboldMass | pattonMass | totH | totHe
  | cH | cHe | cC | cN | cO | cOther | sH | sHe | sC | sN | sO | sOther
  deriving DecidableEq

/-- A column: name and number of the star (0: the binary). -/
abbrev Key := Name × ℕ

/-- A column template: `per n` has a place for the star, `fixed k` has none. -/
inductive Tmpl
  | per (n : Name)
  | fixed (k : Key)
  deriving DecidableEq

/-- `template.format(star)`. -/
def Tmpl.fmt : Tmpl → ℕ → Key
  | .per n, s => (n, s)
  | .fixed k, _ => k

/-- A value: `none` is not finite. -/
abbrev Val := Option ℝ

/-- A dictionary of values. -/
abbrev Dict := Key → Option Val

def set (d : Dict) (k : Key) (v : Val) : Dict := fun k' => if k' = k then some v else d k'

/-- `d[key]` for all keys of a list. -/
def getAll (d : Dict) (ks : List Key) : Except Err (List Val) :=
  match ks with
  | [] => .ok []
  | k :: ks =>
    match d k, getAll d ks with
    | some v, .ok vs => .ok (v :: vs)
    | some _, .error e => .error e
    | none, _ => .error .key

/-- All values finite? -/
def finite : List Val → Option (List ℝ)
  | [] => some []
  | some x :: vs => (finite vs).map (x :: ·)
  | none :: _ => none

def pow10 (x : ℝ) : ℝ := (10 : ℝ) ^ x
def log10 (x : ℝ) : Val := if 0 < x then some (Real.logb 10 x) else none

/-! ### The functions of the constraints of type 1, l.67-94 -/

inductive Fn
  | boltzmann | kepler | lnuc | mdot | xfer
  deriving DecidableEq

/-- `EPS`, l.64. -/
def eps : ℝ := 1e-9

/-- `const.Lsun / (4 π Rsun^2 σ)` of `stefan_boltzmann_law` (`/repo/posydon/utils/common_functions.py` l.130-134), any positive number. -/
structure Const where
  k : ℝ
  pos : 0 < k

def boltzmann (c : Const) (logL logR : ℝ) : Val := log10 ((pow10 logL * c.k / pow10 logR ^ 2) ^ ((1 : ℝ) / 4))

/-- Kepler's law; a power of a negative number is not finite. -/
def kepler (P m1 m2 : ℝ) : Val := if m1 + m2 < 0 then none else some (Orbit.sepFromPeriod P m1 m2)

def lnuc (a b c : ℝ) : Val := log10 (pow10 a + pow10 b + pow10 c)

def xfer (m r : ℝ) : Except Err Val :=
  if m < -98 ∨ r < -98 then .ok (some 1)
  else if m ≤ r then .ok (some (1 - pow10 (m - r)))
  else .error .assertion

/-- The function applied to finite arguments (the number of arguments is that of the table). -/
def evalFn (c : Const) : Fn → List ℝ → Except Err Val
  | .boltzmann, [l, r] => .ok (boltzmann c l r)
  | .kepler, [p, m1, m2] => .ok (kepler p m1 m2)
  | .lnuc, [a, b, d] => .ok (lnuc a b d)
  | .mdot, [m, r] => .ok (some (min m r))
  | .xfer, [m, r] => xfer m r
  | _, _ => .error .assertion

/-! ### `correct_inequality`, l.123-132, for one set of keys -/

/-- The loop, given the previous value: the keys to be set. -/
def cascade (prev : Val) : List (Key × Val) → List (Key × Val)
  | [] => []
  | (k, v) :: rest =>
    match prev, v with
    | some p, some x => if p < x then (k, some p) :: cascade (some p) rest else (k, v) :: cascade v rest
    | _, _ => (k, v) :: cascade v rest

def setAll (d : Dict) : List (Key × Val) → Dict
  | [] => d
  | (k, v) :: rest => setAll (set d k v) rest

def inequality (log : Bool) (keys : List Key) (d : Dict) : Except Err Dict :=
  match getAll d keys with
  | .error e => .error e
  | .ok vals =>
    match keys, vals with
    | _ :: ks, v :: vs => .ok (setAll d (cascade (if log then v.map pow10 else v) (ks.zip vs)))
    | _, _ => .ok d

/-! ### `get_thickness_n_radius`, l.185-227 -/

/-- The valid region, l.191. -/
def validConv (R t r : ℝ) : Prop := 0 < t ∧ r ≥ t / 2 ∧ r + t / 2 ≤ R

/-- The same up to `EPS`, l.215-217. -/
def nearConv (R t r : ℝ) : Prop := 0 < t ∧ r ≥ t / 2 - eps ∧ r + t / 2 ≤ R + eps

/-- The two intersections (thickness, radius) of a line of the slope through the centroid, l.201-212. -/
def inter1 (R s : ℝ) : ℝ × ℝ := let t := (R / 2 - s * (R / 3)) / (1 / 2 - s); (t, t / 2)
def inter2 (R s : ℝ) : ℝ × ℝ := let t := (R / 2 + s * (R / 3)) / (1 / 2 + s); (t, R - t / 2)

def dist2 (p : ℝ × ℝ) (t r : ℝ) : ℝ := (p.2 - r) ^ 2 + (p.1 - t) ^ 2

/-- The new thickness and radius, l.191-225. -/
def fixConv (R t r : ℝ) : Except Err (ℝ × ℝ) :=
  if validConv R t r then .ok (t, r)
  else if R / 2 = r then .ok (R, R / 2)
  else if t = R / 3 then .error .geometry
  else
    let s := (r - R / 2) / (t - R / 3)
    if s = 1 / 2 ∨ s = -1 / 2 then .error .geometry
    else
      let p := inter1 R s
      let q := inter2 R s
      if nearConv R p.1 p.2 then
        if nearConv R q.1 q.2 then .ok (if dist2 p t r ≤ dist2 q t r then p else q)
        else .ok p
      else if nearConv R q.1 q.2 then .ok q
      else .error .geometry

def conv (kR kt kr : Key) (d : Dict) : Except Err Dict :=
  match getAll d [kr, kt, kR] with
  | .error e => .error e
  | .ok [some r, some t, some lR] =>
    match fixConv (pow10 lR) t r with
    | .error e => .error e
    | .ok (t', r') => .ok (set (set d kt (some t')) kr (some r'))
  | .ok _ => .ok d

/-! ### `correct_sum`, l.156-164 -/

/-- `constraint * (value / keys_sum)`; dividing by zero gives nothing finite. -/
def rescale (target s : ℝ) (v : ℝ) : Val := if s = 0 then none else some (target * (v / s))

def sumTo (target : ℝ) (keys : List Key) (d : Dict) : Except Err Dict :=
  match getAll d keys with
  | .error e => .error e
  | .ok vals =>
    match finite vals with
    | none => .ok d
    | some xs => if |xs.sum - target| > eps then .ok (setAll d (keys.zip (xs.map (rescale target xs.sum)))) else .ok d

/-! ### Constraints, l.230-357 -/

inductive Con
  | func (dep : Tmpl) (indep : List Tmpl) (f : Fn)
  | ineq (fields : List (List Tmpl)) (log : Bool)
  | convective (fields : List (List Tmpl))
  | sum (fields : List Tmpl) (target : ℝ)

open Name Tmpl in
def table : List Con :=
  [ .func (per logTeff) [per logL, per logR] .boltzmann,
    .func (fixed (binarySeparation, 0)) [fixed (periodDays, 0), fixed (mass, 1), fixed (mass, 2)] .kepler,
    .func (per logLnuc) [per logLH, per logLHe, per logLZ] .lnuc,
    .func (per mdot) [per mdot, fixed (mtransfer, 0)] .mdot,
    .func (fixed (Name.xfer, 0)) [fixed (mdot, 2), fixed (mtransfer, 0)] .xfer,
    .ineq [[per mass, per heMass, per coMass]] false,
    .ineq [[per logR, per heRadius, per coRadius]] true,
    .ineq [[per mass, per mCE1], [per mass, per mCE10], [per mass, per mCE30], [per mass, per mCEpure]] false,
    .ineq [[per logR, per rCE1], [per logR, per rCE10], [per logR, per rCE30], [per logR, per rCEpure]] true,
    .ineq [[per mass, per convMass]] false,
    .convective [[per logR, per convThick, per convRadius]],
    .ineq [[per mass, per directMass], [per mass, per rapidMass], [per mass, per delayedMass], [per mass, per sukhboldMass],
      [per mass, per pattonMass]] false,
    .ineq [[fixed (mtransfer, 0), per mdot]] false,
    .ineq [[per mass, per totH], [per mass, per totHe]] false,
    .sum [per cH, per cHe, per cC, per cN, per cO, per cOther] 1,
    .sum [per sH, per sHe, per sC, per sN, per sO, per sOther] 1 ]

/-! ### `sanitize_interpolated_quantities`, l.453-525 -/

/-- One action of one constraint for one star. -/
inductive Act
  /-- l.490-501; `guarded`: only if the dependent column is present (l.488-489, star 2). -/
  | func (guarded : Bool) (dep : Key) (indep : List Key) (f : Fn)
  | ineq (log : Bool) (keys : List Key)
  | conv (kR kt kr : Key)
  | sum (target : ℝ) (keys : List Key)

/-- The actions of a constraint, in order; `stars` is `stars_present` (l.478-479). -/
def acts (stars : List ℕ) : Con → List Act
  | .func (.per n) indep f => [.func false (n, 1) (indep.map (·.fmt 1)) f, .func true (n, 2) (indep.map (·.fmt 2)) f]
  | .func (.fixed k) indep f => [.func false k (indep.map (·.fmt 1)) f]
  | .ineq fields log => stars.flatMap fun s => fields.map fun fs => .ineq log (fs.map (·.fmt s))
  | .convective fields => stars.flatMap fun s => fields.flatMap fun fs =>
      match fs with
      | [a, b, c] => [.conv (a.fmt s) (b.fmt s) (c.fmt s)]
      | _ => []
  | .sum fields target => stars.map fun s => .sum target (fields.map (·.fmt s))

/-- One action. -/
def act (c : Const) (a : Act) (d : Dict) : Except Err Dict :=
  match a with
  | .func guarded dep indep f =>
    if guarded && (d dep).isNone then .ok d
    else
      match getAll d indep with
      | .error e => .error e
      | .ok vals =>
        match finite vals with
        | none => .ok (set d dep none)
        | some xs =>
          match evalFn c f xs with
          | .error e => .error e
          | .ok y => .ok (set d dep y)
  | .ineq log keys => inequality log keys d
  | .conv kR kt kr => conv kR kt kr d
  | .sum target keys => sumTo target keys d

def run (c : Const) : List Act → Dict → Except Err Dict
  | [], d => .ok d
  | a :: as, d =>
    match act c a d with
    | .error e => .error e
    | .ok d' => run c as d'

/-- `stars_present`, l.478-479. -/
def starsPresent (d : Dict) : List ℕ := if (d (.logR, 1)).isSome && (d (.logR, 2)).isSome then [1, 2] else [1]

/-- `sanitize_interpolated_quantities`. -/
def sanitize (c : Const) (cons : List Con) (d : Dict) : Except Err Dict := run c (cons.flatMap (acts (starsPresent d))) d

/-! ### `find_constraints_to_apply`, l.392-450 -/

def inKeys (out : Key → Bool) (fs : List Tmpl) : Bool := fs.all fun f => out (f.fmt 1)

/-- What a constraint of the table becomes for these columns (`none`: not applied). -/
def restrict (out : Key → Bool) : Con → Option Con
  | .func dep indep f => if inKeys out indep then some (.func dep indep f) else none
  | .ineq fields log => let n := fields.filter (inKeys out); if n.isEmpty then none else some (.ineq n log)
  | .convective fields => let n := fields.filter (inKeys out); if n.isEmpty then none else some (.convective n)
  | .sum fields t => if inKeys out fields then some (.sum fields t) else none

/-- The call: the entries of the table are rewritten in place (l.439), and the returned list holds the entries themselves, so it is given by positions. -/
def find (out : Key → Bool) (tbl : List Con) : List ℕ × List Con :=
  ((List.range tbl.length).filter fun i => (tbl[i]?.bind (restrict out)).isSome, tbl.map fun c => (restrict out c).getD c)

/-- The constraints a list of positions denotes in the present table. -/
def entries (tbl : List Con) (l : List ℕ) : List Con := l.filterMap fun i => tbl[i]?

/-! ### Specification -/

/-- A sequence of values that does not increase (values that are not finite are not compared). -/
def Descending : List Val → Prop
  | [] => True
  | [_] => True
  | a :: b :: rest => (∀ x y, a = some x → b = some y → y ≤ x) ∧ Descending (b :: rest)

/-- What an action promises about the dictionary. -/
def holds (c : Const) (a : Act) (d : Dict) : Prop :=
  match a with
  | .func guarded dep indep f =>
    (guarded = true ∧ d dep = none) ∨ ∃ vals, getAll d indep = .ok vals ∧
      match finite vals with
      | none => d dep = some none
      | some xs => ∃ y, evalFn c f xs = .ok y ∧ d dep = some y
  | .ineq log keys => ∃ vals, getAll d keys = .ok vals ∧
      match vals with
      | [] => True
      | v :: vs => Descending ((if log then v.map pow10 else v) :: vs)
  | .conv kR kt kr => ∃ vR vt vr, d kR = some vR ∧ d kt = some vt ∧ d kr = some vr ∧
      ∀ lR t r, vR = some lR → vt = some t → vr = some r → nearConv (pow10 lR) t r
  | .sum target keys => ∃ vals, getAll d keys = .ok vals ∧ ∀ xs, finite vals = some xs → |xs.sum - target| ≤ eps

/-- The columns an action reads or writes, and those it writes. -/
def Act.touches : Act → List Key
  | .func _ dep indep _ => dep :: indep
  | .ineq _ keys => keys
  | .conv a b c => [a, b, c]
  | .sum _ keys => keys

def Act.writes : Act → List Key
  | .func _ dep _ _ => [dep]
  | .ineq _ keys => keys.tail
  | .conv _ b c => [b, c]
  | .sum _ keys => keys

/-- Well formed: no column twice (except for the minimum of `lg_system_mdot` with the transfer rate). -/
def Act.wf : Act → Bool
  | .func _ dep indep f =>
    !(indep.contains dep) ||
      (match f, indep with
        | .mdot, [a, k] => a == dep && k != dep
        | _, _ => false)
  | .ineq _ keys => decide keys.Nodup
  | .conv a b c => a != b && a != c && b != c
  | .sum _ keys => decide keys.Nodup && !keys.isEmpty

/-! ### Lemmas on dictionaries -/

theorem set_self (d : Dict) (k : Key) (v : Val) : set d k v k = some v := by simp [set]

theorem set_ne (d : Dict) {k k' : Key} (v : Val) (h : k' ≠ k) : set d k v k' = d k' := by simp [set, h]

theorem set_eq_self {d : Dict} {k : Key} {v : Val} (h : d k = some v) : set d k v = d := by
  funext k'
  by_cases e : k' = k
  · rw [e, set_self, h]
  · rw [set_ne d v e]

theorem setAll_not_mem {l : List (Key × Val)} {k : Key} (h : k ∉ l.map Prod.fst) (d : Dict) : setAll d l k = d k := by
  induction l generalizing d with
  | nil => rfl
  | cons a l ih =>
    obtain ⟨k', v⟩ := a
    simp only [List.map_cons, List.mem_cons, not_or] at h
    rw [setAll, ih h.2, set_ne d v h.1]

theorem getAll_congr {d e : Dict} {ks : List Key} (h : ∀ k ∈ ks, d k = e k) : getAll d ks = getAll e ks := by
  induction ks with
  | nil => rfl
  | cons k ks ih =>
    rw [getAll, getAll, h k (by simp), ih fun k' hk => h k' (by simp [hk])]

theorem getAll_cons_ok {d : Dict} {k : Key} {ks : List Key} {vals : List Val} (h : getAll d (k :: ks) = .ok vals) :
    ∃ v vs, d k = some v ∧ getAll d ks = .ok vs ∧ vals = v :: vs := by
  rw [getAll] at h
  cases hd : d k with
  | none => simp [hd] at h
  | some v =>
    cases hg : getAll d ks with
    | error e => simp [hd, hg] at h
    | ok vs => simp [hd, hg] at h; exact ⟨v, vs, rfl, rfl, h.symm⟩

theorem getAll_cons {d : Dict} {k : Key} {ks : List Key} {v : Val} {vs : List Val} (h1 : d k = some v) (h2 : getAll d ks = .ok vs) :
    getAll d (k :: ks) = .ok (v :: vs) := by
  rw [getAll, h1, h2]

theorem getAll_length {d : Dict} {ks : List Key} {vs : List Val} (h : getAll d ks = .ok vs) : vs.length = ks.length := by
  induction ks generalizing vs with
  | nil => simp [getAll] at h; subst h; rfl
  | cons k ks ih =>
    obtain ⟨v, ws, -, h2, rfl⟩ := getAll_cons_ok h
    simp [ih h2]

/-- Reading back values that were set. -/
theorem getAll_setAll {ks : List Key} {vs : List Val} (hn : ks.Nodup) (hl : vs.length = ks.length) (d : Dict) :
    getAll (setAll d (ks.zip vs)) ks = .ok vs := by
  induction ks generalizing vs d with
  | nil => cases vs with
    | nil => rfl
    | cons _ _ => simp at hl
  | cons k ks ih =>
    cases vs with
    | nil => simp at hl
    | cons v vs =>
      rw [List.nodup_cons] at hn
      simp only [List.length_cons, Nat.add_right_cancel_iff] at hl
      rw [List.zip_cons_cons, setAll]
      refine getAll_cons ?_ (ih hn.2 hl _)
      rw [setAll_not_mem _ _, set_self]
      rw [List.map_fst_zip (by omega)]
      exact hn.1

/-- Setting the values that are already there changes nothing. -/
theorem setAll_same {ks : List Key} {vs : List Val} {d : Dict} (h : getAll d ks = .ok vs) : setAll d (ks.zip vs) = d := by
  induction ks generalizing vs with
  | nil => simp [setAll]
  | cons k ks ih =>
    obtain ⟨v, ws, h1, h2, rfl⟩ := getAll_cons_ok h
    rw [List.zip_cons_cons, setAll, set_eq_self h1, ih h2]

theorem cascade_keys (p : Val) (l : List (Key × Val)) : (cascade p l).map Prod.fst = l.map Prod.fst := by
  induction l generalizing p with
  | nil => rfl
  | cons a l ih =>
    obtain ⟨k, v⟩ := a
    unfold cascade
    split
    · split_ifs <;> simp [ih]
    · simp [ih]

theorem cascade_descending (p : Val) (l : List (Key × Val)) : Descending (p :: (cascade p l).map Prod.snd) := by
  induction l generalizing p with
  | nil => simp [cascade, Descending]
  | cons a l ih =>
    obtain ⟨k, v⟩ := a
    unfold cascade
    split
    · rename_i q x
      split_ifs with h
      · refine ⟨?_, ih _⟩
        rintro a b ha hb
        simp only [Option.some.injEq] at ha hb
        linarith
      · refine ⟨?_, ih _⟩
        rintro a b ha hb
        simp only [Option.some.injEq] at ha hb
        linarith
    · rename_i h
      refine ⟨?_, ih _⟩
      rintro a b ha hb
      exact (h a b ha hb).elim

theorem cascade_same {p : Val} {l : List (Key × Val)} (h : Descending (p :: l.map Prod.snd)) : cascade p l = l := by
  induction l generalizing p with
  | nil => rfl
  | cons a l ih =>
    obtain ⟨k, v⟩ := a
    obtain ⟨h1, h2⟩ := h
    unfold cascade
    split
    · rename_i q x
      rw [if_neg (not_lt.2 (h1 q x rfl rfl)), ih h2]
    · rw [ih h2]

theorem zip_unzip (l : List (Key × Val)) : (l.map Prod.fst).zip (l.map Prod.snd) = l := by
  induction l with
  | nil => rfl
  | cons a l ih => simp [ih]

theorem zip_cascade {p : Val} {ks : List Key} {vs : List Val} (hl : vs.length = ks.length) :
    cascade p (ks.zip vs) = ks.zip ((cascade p (ks.zip vs)).map Prod.snd) := by
  have h := cascade_keys p (ks.zip vs)
  rw [List.map_fst_zip (by omega)] at h
  have := zip_unzip (cascade p (ks.zip vs))
  rw [h] at this
  exact this.symm

/-! ### The convective region -/

theorem fixConv_near {R t r t' r' : ℝ} (hR : 0 < R) (h : fixConv R t r = .ok (t', r')) : nearConv R t' r' := by
  have he : (0 : ℝ) < eps := by norm_num [eps]
  unfold fixConv at h
  by_cases hv : validConv R t r
  · rw [if_pos hv] at h
    cases h
    exact ⟨hv.1, by have := hv.2.1; linarith, by have := hv.2.2; linarith⟩
  rw [if_neg hv] at h
  by_cases hc : R / 2 = r
  · rw [if_pos hc] at h
    cases h
    exact ⟨hR, by linarith, by linarith⟩
  rw [if_neg hc] at h
  by_cases ht : t = R / 3
  · rw [if_pos ht] at h; cases h
  rw [if_neg ht] at h
  simp only at h
  set s := (r - R / 2) / (t - R / 3)
  by_cases hs : s = 1 / 2 ∨ s = -1 / 2
  · rw [if_pos hs] at h; cases h
  rw [if_neg hs] at h
  by_cases h1 : nearConv R (inter1 R s).1 (inter1 R s).2
  · rw [if_pos h1] at h
    by_cases h2 : nearConv R (inter2 R s).1 (inter2 R s).2
    · rw [if_pos h2] at h
      split_ifs at h
      · simp only [Except.ok.injEq] at h; rw [h] at h1; exact h1
      · simp only [Except.ok.injEq] at h; rw [h] at h2; exact h2
    · rw [if_neg h2] at h
      simp only [Except.ok.injEq] at h; rw [h] at h1; exact h1
  · rw [if_neg h1] at h
    by_cases h2 : nearConv R (inter2 R s).1 (inter2 R s).2
    · rw [if_pos h2] at h
      simp only [Except.ok.injEq] at h; rw [h] at h2; exact h2
    · rw [if_neg h2] at h; cases h

/-- One of the two intersections is always in the region. -/
theorem inter_near {R s : ℝ} (hR : 0 < R) : (0 ≤ s → nearConv R (inter2 R s).1 (inter2 R s).2) ∧ (s ≤ 0 → nearConv R (inter1 R s).1 (inter1 R s).2) := by
  have he : (0 : ℝ) < eps := by norm_num [eps]
  constructor
  · intro hs
    have hd : 0 < 1 / 2 + s := by linarith
    have hn : 0 < R / 2 + s * (R / 3) := by have := mul_nonneg hs hR.le; linarith
    have hle : (R / 2 + s * (R / 3)) / (1 / 2 + s) ≤ R := by
      rw [div_le_iff₀ hd]
      have := mul_nonneg hs hR.le
      linarith
    refine ⟨div_pos hn hd, ?_, ?_⟩ <;> simp only [inter2] <;> linarith
  · intro hs
    have hd : 0 < 1 / 2 - s := by linarith
    have hn : 0 < R / 2 - s * (R / 3) := by have := mul_nonneg (neg_nonneg.2 hs) hR.le; linarith
    have hle : (R / 2 - s * (R / 3)) / (1 / 2 - s) ≤ R := by
      rw [div_le_iff₀ hd]
      have := mul_nonneg (neg_nonneg.2 hs) hR.le
      linarith
    refine ⟨div_pos hn hd, ?_, ?_⟩ <;> simp only [inter1] <;> linarith

/-- The correction fails only on three lines through the centroid. -/
theorem fixConv_total {R t r : ℝ} (hR : 0 < R) (ht : t ≠ R / 3) (h1 : r - R / 2 ≠ (t - R / 3) / 2) (h2 : r - R / 2 ≠ -(t - R / 3) / 2) :
    ∃ p, fixConv R t r = .ok p := by
  unfold fixConv
  by_cases hv : validConv R t r
  · exact ⟨_, if_pos hv⟩
  rw [if_neg hv]
  by_cases hc : R / 2 = r
  · exact ⟨_, if_pos hc⟩
  rw [if_neg hc, if_neg ht]
  have hd : t - R / 3 ≠ 0 := sub_ne_zero.2 ht
  simp only
  have hs : ¬ ((r - R / 2) / (t - R / 3) = 1 / 2 ∨ (r - R / 2) / (t - R / 3) = -1 / 2) := by
    rintro (h | h)
    · rw [div_eq_iff hd] at h
      exact h1 (by rw [h]; ring)
    · rw [div_eq_iff hd] at h
      exact h2 (by rw [h]; ring)
  rw [if_neg hs]
  set s := (r - R / 2) / (t - R / 3)
  by_cases h1 : nearConv R (inter1 R s).1 (inter1 R s).2
  · rw [if_pos h1]
    by_cases h2 : nearConv R (inter2 R s).1 (inter2 R s).2
    · exact ⟨_, if_pos h2⟩
    · exact ⟨_, if_neg h2⟩
  · rw [if_neg h1]
    have h2 : nearConv R (inter2 R s).1 (inter2 R s).2 := by
      rcases le_total 0 s with h | h
      · exact (inter_near hR).1 h
      · exact absurd ((inter_near hR).2 h) h1
    exact ⟨_, if_pos h2⟩

/-! ### Sums -/

theorem finite_some {vals : List Val} {xs : List ℝ} (h : finite vals = some xs) : vals = xs.map some := by
  induction vals generalizing xs with
  | nil => simp [finite] at h; subst h; rfl
  | cons v vs ih =>
    cases v with
    | none => simp [finite] at h
    | some x =>
      simp only [finite, Option.map_eq_some_iff] at h
      obtain ⟨ys, hy, rfl⟩ := h
      rw [ih hy]; rfl

theorem finite_map_some (xs : List ℝ) : finite (xs.map some) = some xs := by
  induction xs with
  | nil => rfl
  | cons x xs ih => simp [finite, ih]

theorem sum_rescale (target s : ℝ) (xs : List ℝ) : (xs.map fun v => target * (v / s)).sum = target * (xs.sum / s) := by
  induction xs with
  | nil => simp
  | cons x xs ih => simp only [List.map_cons, List.sum_cons, ih]; ring

/-! ### The actions -/

/-- An action changes nothing but what it writes. -/
theorem act_frame {c : Const} {a : Act} {d d' : Dict} (h : act c a d = .ok d') {k : Key} (hk : k ∉ a.writes) : d' k = d k := by
  cases a with
  | func g dep indep f =>
    simp only [Act.writes, List.mem_singleton] at hk
    simp only [act] at h
    split_ifs at h
    · cases h; rfl
    · split at h
      · cases h
      · split at h
        · cases h; exact set_ne _ _ hk
        · split at h
          · cases h
          · cases h; exact set_ne _ _ hk
  | ineq log keys =>
    simp only [act, inequality] at h
    split at h
    · cases h
    · rename_i vals hv
      split at h
      · rename_i k0 ks v vs
        cases h
        apply setAll_not_mem
        rw [cascade_keys]
        intro hmem
        obtain ⟨p, hp, rfl⟩ := List.mem_map.1 hmem
        exact hk (List.of_mem_zip hp).1
      · cases h; rfl
  | conv kR kt kr =>
    simp only [Act.writes, List.mem_cons, List.not_mem_nil, or_false, not_or] at hk
    simp only [act, conv] at h
    split at h
    · cases h
    · split at h
      · cases h
      · cases h
        rw [set_ne _ _ hk.2, set_ne _ _ hk.1]
    · cases h; rfl
  | sum target keys =>
    simp only [act, sumTo] at h
    split at h
    · cases h
    · split at h
      · cases h; rfl
      · split_ifs at h
        · cases h
          apply setAll_not_mem
          intro hmem
          obtain ⟨p, hp, rfl⟩ := List.mem_map.1 hmem
          exact hk (List.of_mem_zip hp).1
        · cases h; rfl

/-- The promise of an action depends only on what it touches. -/
theorem holds_congr {c : Const} {a : Act} {d e : Dict} (h : ∀ k ∈ a.touches, d k = e k) (ha : holds c a d) : holds c a e := by
  cases a with
  | func g dep indep f =>
    simp only [Act.touches, List.mem_cons, forall_eq_or_imp] at h
    simp only [holds] at ha ⊢
    rw [← h.1, ← getAll_congr h.2]
    exact ha
  | ineq log keys =>
    simp only [holds] at ha ⊢
    rw [← getAll_congr (ks := keys) h]
    exact ha
  | conv kR kt kr =>
    simp only [Act.touches, List.mem_cons, List.not_mem_nil, or_false, forall_eq_or_imp, forall_eq] at h
    simp only [holds] at ha ⊢
    rw [← h.1, ← h.2.1, ← h.2.2]
    exact ha
  | sum target keys =>
    simp only [holds] at ha ⊢
    rw [← getAll_congr (ks := keys) h]
    exact ha

theorem pow10_pos (x : ℝ) : 0 < pow10 x := Real.rpow_pos_of_pos (by norm_num) _

/-- An action achieves its promise. -/
theorem act_holds {c : Const} {a : Act} (hw : a.wf = true) {d d' : Dict} (h : act c a d = .ok d') : holds c a d' := by
  cases a with
  | func g dep indep f =>
    simp only [act] at h
    by_cases hg : (g && (d dep).isNone) = true
    · rw [if_pos hg] at h
      cases h
      simp only [Bool.and_eq_true, Option.isNone_iff_eq_none] at hg
      exact Or.inl hg
    rw [if_neg hg] at h
    right
    cases hv : getAll d indep with
    | error e => rw [hv] at h; cases h
    | ok vals =>
      rw [hv] at h
      dsimp only at h
      simp only [Act.wf, Bool.or_eq_true, Bool.not_eq_true', List.contains_eq_mem, decide_eq_false_iff_not] at hw
      rcases hw with hw | hw
      · have same : ∀ y, getAll (set d dep y) indep = .ok vals := by
          intro y
          rw [← hv]
          exact getAll_congr fun k hk => set_ne d y fun e => hw (e ▸ hk)
        cases hf : finite vals with
        | none =>
          rw [hf] at h; cases h
          exact ⟨vals, same _, by rw [hf]; exact set_self _ _ _⟩
        | some xs =>
          rw [hf] at h
          simp only at h
          cases he : evalFn c f xs with
          | error e => rw [he] at h; cases h
          | ok y =>
            rw [he] at h; cases h
            exact ⟨vals, same _, by rw [hf]; exact ⟨y, he, set_self _ _ _⟩⟩
      · split at hw
        · rename_i a k
          simp only [Bool.and_eq_true, beq_iff_eq, bne_iff_ne, ne_eq] at hw
          obtain ⟨rfl, hk⟩ := hw
          obtain ⟨v, vs, h1, h2, rfl⟩ := getAll_cons_ok hv
          obtain ⟨w, ws, h3, h4, rfl⟩ := getAll_cons_ok h2
          simp only [getAll, Except.ok.injEq] at h4
          subst h4
          have read : ∀ y, getAll (set d a y) [a, k] = .ok [y, w] := fun y =>
            getAll_cons (set_self _ _ _) (getAll_cons (by rw [set_ne _ _ hk, h3]) rfl)
          cases v with
          | none =>
            simp only [finite] at h; cases h
            exact ⟨_, read _, by simp only [finite]; exact set_self _ _ _⟩
          | some x =>
            cases w with
            | none =>
              simp only [finite, Option.map_none] at h; cases h
              exact ⟨_, read _, by simp only [finite]; exact set_self _ _ _⟩
            | some r =>
              simp only [finite, Option.map_some, evalFn] at h
              cases h
              refine ⟨_, read _, ?_⟩
              simp only [finite, Option.map_some, evalFn]
              exact ⟨_, rfl, by rw [set_self, min_assoc, min_self]⟩
        · cases hw
  | ineq log keys =>
    simp only [Act.wf, decide_eq_true_eq] at hw
    simp only [act, inequality] at h
    cases hv : getAll d keys with
    | error e => rw [hv] at h; cases h
    | ok vals =>
      rw [hv] at h
      cases keys with
      | nil =>
        simp only [getAll, Except.ok.injEq] at hv
        subst hv
        exact ⟨[], rfl, trivial⟩
      | cons k ks =>
        obtain ⟨v, vs, h1, h2, rfl⟩ := getAll_cons_ok hv
        simp only [Except.ok.injEq] at h
        subst h
        have hl := getAll_length h2
        rw [List.nodup_cons] at hw
        set p := if log then v.map pow10 else v with hp
        rw [zip_cascade hl]
        refine ⟨v :: (cascade p (ks.zip vs)).map Prod.snd, getAll_cons ?_ (getAll_setAll hw.2 ?_ d), ?_⟩
        · rw [setAll_not_mem, h1]
          rw [← zip_cascade hl, cascade_keys, List.map_fst_zip (by omega)]
          exact hw.1
        · have := congrArg List.length (cascade_keys p (ks.zip vs))
          simp only [List.length_map, List.length_zip] at this ⊢
          omega
        · simp only
          rw [← hp]
          exact cascade_descending _ _
  | conv kR kt kr =>
    simp only [Act.wf, Bool.and_eq_true, bne_iff_ne, ne_eq] at hw
    obtain ⟨⟨hRt, hRr⟩, htr⟩ := hw
    simp only [act, conv] at h
    cases hv : getAll d [kr, kt, kR] with
    | error e => rw [hv] at h; cases h
    | ok vals =>
      rw [hv] at h
      obtain ⟨vr, l1, h1, h2, rfl⟩ := getAll_cons_ok hv
      obtain ⟨vt, l2, h3, h4, rfl⟩ := getAll_cons_ok h2
      obtain ⟨vR, l3, h5, h6, rfl⟩ := getAll_cons_ok h4
      simp only [getAll, Except.ok.injEq] at h6
      subst h6
      cases vr with
      | none => cases h; exact ⟨_, _, _, h5, h3, h1, fun lR t r _ _ e => by cases e⟩
      | some r =>
      cases vt with
      | none => cases h; exact ⟨_, _, _, h5, h3, h1, fun lR t r _ e _ => by cases e⟩
      | some t =>
      cases vR with
      | none => cases h; exact ⟨_, _, _, h5, h3, h1, fun lR t r e _ _ => by cases e⟩
      | some lR =>
        simp only at h
        cases hf : fixConv (pow10 lR) t r with
        | error e => rw [hf] at h; cases h
        | ok p =>
          obtain ⟨t', r'⟩ := p
          rw [hf] at h
          cases h
          refine ⟨some lR, some t', some r', ?_, ?_, set_self _ _ _, ?_⟩
          · rw [set_ne _ _ hRr, set_ne _ _ hRt, h5]
          · rw [set_ne _ _ htr, set_self]
          · intro lR' t'' r'' e1 e2 e3
            simp only [Option.some.injEq] at e1 e2 e3
            subst e1; subst e2; subst e3
            exact fixConv_near (pow10_pos _) hf
  | sum target keys =>
    simp only [Act.wf, Bool.and_eq_true, decide_eq_true_eq, Bool.not_eq_true', List.isEmpty_eq_false_iff] at hw
    obtain ⟨hw, hne⟩ := hw
    simp only [act, sumTo] at h
    cases hv : getAll d keys with
    | error e => rw [hv] at h; cases h
    | ok vals =>
      rw [hv] at h
      dsimp only at h
      cases hf : finite vals with
      | none =>
        rw [hf] at h; cases h
        exact ⟨vals, hv, fun xs e => by rw [hf] at e; cases e⟩
      | some xs =>
        rw [hf] at h
        simp only at h
        have hx := finite_some hf
        split_ifs at h with hgt
        · cases h
          have hl : (xs.map (rescale target xs.sum)).length = keys.length := by
            have := getAll_length hv
            rw [hx] at this
            simpa using this
          refine ⟨_, getAll_setAll hw hl d, fun ys hy => ?_⟩
          have he : (0 : ℝ) < eps := by norm_num [eps]
          by_cases h0 : xs.sum = 0
          · cases xs with
            | nil =>
              simp only [List.map_nil, finite, Option.some.injEq] at hy
              subst hy
              simp only [List.length_map, List.length_nil] at hl
              exact absurd (List.length_eq_zero_iff.1 hl.symm) hne
            | cons x xs =>
              rw [h0] at hy
              simp [rescale, finite] at hy
          · have : xs.map (rescale target xs.sum) = (xs.map fun v => target * (v / xs.sum)).map some := by
              simp [rescale, h0]
            rw [this, finite_map_some] at hy
            cases hy
            rw [sum_rescale, div_self h0, mul_one, sub_self, abs_zero]
            exact he.le
        · cases h
          refine ⟨vals, hv, fun ys hy => ?_⟩
          rw [hf] at hy
          cases hy
          exact not_lt.1 hgt

end

end Verif.Constraint
