import Verif.Py
/-!
Model of the evolution driver: `/repo/posydon/binary_evol/binarystar.py` (`evolve`, `run_step`,
`append_state`, `restore`), `/repo/posydon/binary_evol/singlestar.py` (`append_state`, `restore`) and the
hook dispatch of `/repo/posydon/binary_evol/simulationproperties.py`.

Simplifications: the steps, hooks and the flow chart are arbitrary parameters; a step may raise, in which
case it still leaves a (possibly half-updated) binary behind.  The alarm signal is one more way for a step
to raise.  Attribute values are the type `Val`; aliasing of mutable values is not modelled.
-/
namespace Verif.Evolve
open Verif.Py

/-- Attribute values (Python `None`, strings, numbers, anything else). -/
inductive Val
  | none | str (s : String) | num (q : Rat) | obj (n : Nat)
  deriving DecidableEq, Repr

/-- `BINARYPROPERTIES`, binarystar.py l.88-118. -/
def binaryProperties : List String :=
  ["state", "event", "time", "separation", "orbital_period", "eccentricity", "V_sys",
   "rl_relative_overflow_1", "rl_relative_overflow_2", "lg_mtransfer_rate", "mass_transfer_case",
   "trap_radius", "acc_radius", "t_sync_rad_1", "t_sync_conv_1", "t_sync_rad_2", "t_sync_conv_2",
   "nearest_neighbour_distance"]

/-- `STARPROPERTIES`, singlestar.py l.40-111. -/
def starProperties : List String :=
  ["state", "metallicity", "mass", "log_R", "log_L", "lg_mdot", "lg_system_mdot", "lg_wind_mdot",
   "he_core_mass", "he_core_radius", "c_core_mass", "c_core_radius", "o_core_mass", "o_core_radius",
   "co_core_mass", "co_core_radius", "center_h1", "center_he4", "center_c12", "center_n14", "center_o16",
   "surface_h1", "surface_he4", "surface_c12", "surface_n14", "surface_o16", "log_LH", "log_LHe", "log_LZ",
   "log_Lnuc", "c12_c12", "center_gamma", "avg_c_in_c_core", "surf_avg_omega",
   "surf_avg_omega_div_omega_crit", "total_moment_of_inertia", "log_total_angular_momentum", "spin",
   "conv_env_top_mass", "conv_env_bot_mass", "conv_env_top_radius", "conv_env_bot_radius",
   "conv_env_turnover_time_g", "conv_env_turnover_time_l_b", "conv_env_turnover_time_l_t",
   "envelope_binding_energy", "mass_conv_reg_fortides", "thickness_conv_reg_fortides",
   "radius_conv_reg_fortides", "lambda_CE_1cent", "lambda_CE_10cent", "lambda_CE_30cent",
   "lambda_CE_pure_He_star_10cent", "profile", "total_mass_h1", "total_mass_he4"]

/-- A `SingleStar`: `attr p` is the attribute `p`, `hist p` the attribute `p + "_history"`. -/
structure Star where
  attr : String → Val
  hist : String → List Val

/-- A `BinaryStar`. -/
structure Binary where
  attr : String → Val
  hist : String → List Val
  s1 : Star
  s2 : Star
  verbose : Bool

/-- The loop `for item in cols: getattr(self, item + '_history').append(getattr(self, item))`. -/
def appendCols (attr : String → Val) : List String → (String → List Val) → (String → List Val)
  | [], h => h
  | c :: cs, h => appendCols attr cs (set h c (h c ++ [attr c]))

/-- `SingleStar.append_state`, singlestar.py l.383-386. -/
def Star.append (s : Star) : Star := { s with hist := appendCols s.attr starProperties s.hist }

/-- The event test `event is not None and "redirect" in event` (l.304-305).  Events are `None` or strings. -/
def isRedirect : Val → Bool
  | .str e => strIn "redirect" e
  | _ => false

/-- `BinaryStar.append_state`, binarystar.py l.300-314. -/
def Binary.append (b : Binary) : Binary :=
  if !b.verbose && isRedirect (b.attr "event") then b
  else { b with hist := appendCols b.attr binaryProperties b.hist, s1 := b.s1.append, s2 := b.s2.append }

/-- Exceptions. -/
inductive Err
  | flowError | undefinedNext | noSuchStep | index | other (n : Nat)
  deriving DecidableEq, Repr

/-- Result of a Python call on the binary: the binary as left behind, and the exception if one was raised. -/
abbrev Res := Binary × Option Err

def Res.andThen (r : Res) (f : Binary → Res) : Res :=
  match r with
  | (b, none) => f b
  | (b, some e) => (b, some e)

abbrev Total := Val × Val × Val × Val

/-- `get_total_state`, l.288-290. -/
def Binary.total (b : Binary) : Total := (b.s1.attr "state", b.s2.attr "state", b.attr "state", b.attr "event")

/-- What `evolve` uses of a `SimulationProperties` object. -/
structure Props where
  flow : Total → Option String
  undefined : Total → Bool
  step : String → Option (Binary → Res)
  preEvolve : Binary → Res
  postEvolve : Binary → Res
  preStep : String → Binary → Res
  postStepHooks : String → Binary → Res
  tooOld : Binary → Option Err
  endEvents : List Val
  endStates : List Val
  maxSteps : Option Nat

/-- `SimulationProperties.post_step`, simulationproperties.py l.779-806. -/
def postStep (P : Props) (name : String) (b : Binary) : Res :=
  if !b.verbose && isRedirect (b.attr "event") then (b, none) else P.postStepHooks name b

/-- `BinaryStar.run_step`, binarystar.py l.267-286. -/
def runStep (P : Props) (b : Binary) : Res :=
  if P.undefined b.total then (b, some .flowError)
  else match P.flow b.total with
    | none => (b, some .undefinedNext)
    | some name => match P.step name with
      | none => (b, some .noSuchStep)
      | some st =>
        ((P.preStep name b).andThen st).andThen fun b' => postStep P name b'.append

/-- Negation of the loop condition, l.250-252. -/
def terminal (P : Props) (b : Binary) : Bool :=
  b.attr "event" == .str "END" || b.attr "event" == .str "FAILED" ||
  P.endEvents.contains (b.attr "event") || P.endStates.contains (b.attr "state")

/-- How the `while` loop of `evolve` is left. -/
inductive Outcome
  | finished (b : Binary) (n : Nat)
  | failed (b : Binary) (n : Nat) (e : Err)
  | limit (b : Binary) (n : Nat)

/-- `max_n_steps is not None and n_steps > max_n_steps`, l.258-259. -/
def over (m : Option Nat) (n : Nat) : Bool :=
  match m with
  | some m => n > m
  | none => false

/-- The `while` loop of `evolve`, l.250-260, with a bound on the number of iterations the model follows
(`none`: the loop is still running). -/
def loop (P : Props) : Nat → Nat → Binary → Option Outcome
  | 0, _, _ => none
  | fuel + 1, n, b =>
    if terminal P b then some (.finished b n)
    else match runStep P b with
      | (b', some e) => some (.failed b' n e)
      | (b', none) => if over P.maxSteps (n + 1) then some (.limit b' (n + 1)) else loop P fuel (n + 1) b'

/-- How `evolve` is left. -/
inductive Result
  | ok (b : Binary) (n : Nat)
  | preEvolveError (b : Binary) (e : Err)
  | bornTooLate (b : Binary) (e : Err)
  | stepError (b : Binary) (n : Nat) (e : Err)
  | limitError (b : Binary) (n : Nat)
  | postEvolveError (b : Binary) (n : Nat) (e : Err)

/-- `BinaryStar.evolve`, l.234-265. -/
def evolve (P : Props) (fuel : Nat) (b : Binary) : Option Result :=
  match P.preEvolve b with
  | (b, some e) => some (.preEvolveError b e)
  | (b, none) => match P.tooOld b with
    | some e => some (.bornTooLate b e)
    | none => match loop P fuel 0 b with
      | none => none
      | some (.failed b n e) => some (.stepError b n e)
      | some (.limit b n) => some (.limitError b n)
      | some (.finished b n) => match P.postEvolve b with
        | (b, some e) => some (.postEvolveError b n e)
        | (b, none) => some (.ok b n)

/-- The loop of `restore` over the columns: value at row `i`, rows `0..i` kept, l.368-372. -/
def restoreCols (i : Int) :
    List String → (String → Val) × (String → List Val) → ((String → Val) × (String → List Val)) × Option Err
  | [], ah => (ah, none)
  | c :: cs, (a, h) =>
    match index (h c) i with
    | none => ((a, h), some .index)
    | some v => restoreCols i cs (set a c v, set h c (sliceTo (h c) (i + 1)))

/-- `SingleStar.restore`, singlestar.py l.388-418 (without extra hook columns). -/
def Star.restore (i : Int) (s : Star) : Star × Option Err :=
  match restoreCols i starProperties (s.attr, s.hist) with
  | ((a, h), e) => (⟨a, h⟩, e)

/-- `BinaryStar.restore`, binarystar.py l.357-384.  `hookCols` are the extra columns of the hooks, l.375-381. -/
def Binary.restore (hookCols : List String) (i : Int) (b : Binary) : Res :=
  match restoreCols i binaryProperties (b.attr, b.hist) with
  | ((a, h), some e) => ({ b with attr := a, hist := h }, some e)
  | ((a, h), none) =>
    -- the hook columns are plain lists; they are stored here under their own name in `hist`
    let h' := hookCols.foldl (fun h c => set h c (sliceTo (h c) (i + 1))) h
    match b.s1.restore i with
    | (s1, some e) => ({ b with attr := a, hist := h', s1 := s1 }, some e)
    | (s1, none) => match b.s2.restore i with
      | (s2, e) => ({ b with attr := a, hist := h', s1 := s1, s2 := s2 }, e)

/-! ### Specification -/

/-- `Trace P b bs`: starting from `b`, the steps run one after the other without error, none of them starts
from a finished binary, and `bs` are the binaries after each step. -/
inductive Trace (P : Props) : Binary → List Binary → Prop
  | nil (b) : Trace P b []
  | cons {b b' bs} : terminal P b = false → runStep P b = (b', none) → Trace P b' bs → Trace P b (b' :: bs)

/-- Last binary of a trace starting at `b`. -/
def lastOf : Binary → List Binary → Binary
  | b, [] => b
  | _, c :: cs => lastOf c cs

/-- All history columns of the binary and of both stars have `n` rows. -/
def Aligned (n : Nat) (b : Binary) : Prop :=
  (∀ c ∈ binaryProperties, (b.hist c).length = n) ∧
  (∀ c ∈ starProperties, (b.s1.hist c).length = n) ∧ (∀ c ∈ starProperties, (b.s2.hist c).length = n)

/-! ### Helper lemmas -/

theorem binaryProperties_nodup : binaryProperties.Nodup := by decide +kernel
theorem starProperties_nodup : starProperties.Nodup := by decide +kernel

theorem appendCols_notMem (attr) (cs : List String) (h : String → List Val) (c : String) (hc : c ∉ cs) :
    appendCols attr cs h c = h c := by
  induction cs generalizing h with
  | nil => rfl
  | cons d ds ih =>
    simp only [List.mem_cons, not_or] at hc
    rw [appendCols, ih _ hc.2, set_other _ _ _ _ hc.1]

theorem appendCols_mem (attr) (cs : List String) (hn : cs.Nodup) (h : String → List Val) (c : String)
    (hc : c ∈ cs) : appendCols attr cs h c = h c ++ [attr c] := by
  induction cs generalizing h with
  | nil => simp at hc
  | cons d ds ih =>
    rw [appendCols]
    rw [List.nodup_cons] at hn
    by_cases hcd : c = d
    · subst hcd
      rw [appendCols_notMem _ _ _ _ hn.1, set_same]
    · have : c ∈ ds := by simpa [hcd] using hc
      rw [ih hn.2 _ this, set_other _ _ _ _ hcd]

theorem restoreCols_notMem (i : Int) (cs : List String) (a : String → Val) (h : String → List Val) (c : String)
    (hc : c ∉ cs) : (restoreCols i cs (a, h)).1.1 c = a c ∧ (restoreCols i cs (a, h)).1.2 c = h c := by
  induction cs generalizing a h with
  | nil => exact ⟨rfl, rfl⟩
  | cons d ds ih =>
    simp only [List.mem_cons, not_or] at hc
    rw [restoreCols]
    split
    · exact ⟨rfl, rfl⟩
    · rename_i v _
      have := ih (set a d v) (set h d (sliceTo (h d) (i + 1))) hc.2
      exact ⟨this.1.trans (set_other _ _ _ _ hc.1), this.2.trans (set_other _ _ _ _ hc.1)⟩

theorem restoreCols_ok (i : Int) (cs : List String) (hn : cs.Nodup) (a : String → Val)
    (h : String → List Val) (v : String → Val) (hv : ∀ c ∈ cs, index (h c) i = some (v c)) :
    (restoreCols i cs (a, h)).2 = none ∧
    (∀ c ∈ cs, (restoreCols i cs (a, h)).1.1 c = v c ∧
      (restoreCols i cs (a, h)).1.2 c = sliceTo (h c) (i + 1)) := by
  induction cs generalizing a h with
  | nil => exact ⟨rfl, by simp⟩
  | cons d ds ih =>
    rw [List.nodup_cons] at hn
    have hd := hv d (by simp)
    have hds : ∀ c ∈ ds, index (set h d (sliceTo (h d) (i + 1)) c) i = some (v c) := by
      intro c hc
      rw [set_other _ _ _ _ (fun e : c = d => hn.1 (e ▸ hc))]
      exact hv c (by simp [hc])
    have := ih hn.2 (set a d (v d)) (set h d (sliceTo (h d) (i + 1))) hds
    simp only [restoreCols, hd]
    refine ⟨this.1, fun c hc => ?_⟩
    by_cases hcd : c = d
    · subst hcd
      have hnm := restoreCols_notMem i ds (set a c (v c)) (set h c (sliceTo (h c) (i + 1))) c hn.1
      exact ⟨hnm.1.trans (set_same _ _ _), hnm.2.trans (set_same _ _ _)⟩
    · have hc' : c ∈ ds := by simpa [hcd] using hc
      have h2 := this.2 c hc'
      rw [set_other h d _ c hcd] at h2
      exact h2

theorem restoreCols_fail (i : Int) (c : String) (cs : List String) (a : String → Val)
    (h : String → List Val) (hv : index (h c) i = none) :
    restoreCols i (c :: cs) (a, h) = ((a, h), some .index) := by
  simp [restoreCols, hv]

end Verif.Evolve
