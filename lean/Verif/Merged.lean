import Verif.StarState
/-!
Model of the merger step of `/repo/posydon/binary_evol/DT/step_merged.py`: `MergedStep.__call__` (l.54-123, up to the call of the
isolated step), `mass_weighted_avg` (l.125-194), `_apply_nan_attributes` (l.196-220), `merged_star_properties` (l.222-723); with
`convert_star_to_massless_remnant` (singlestar.py l.122-133) and `check_state_of_star` (through `Verif.StarState`).

The two stars are objects that the code modifies in place; `merged_star` is the same object as `star_base` or as `comp`.  In the model a
loop over attributes passes the current contents of that object on.

Simplifications: floats are rationals or NaN; an attribute is a number, NaN or `None`; infinities, prints and warnings are left out.  A star
state is a member of STAR_STATES_ALL or (`none`) any other string.  Attributes are read and written by name.
-/
namespace Verif.Merged
open Verif.FlowChart (BState Ev starHRich starHeRich starNotCO removeAll)

abbrev SState := FlowChart.Star

inductive Val
  | none | nan | num (x : ℚ)
  deriving DecidableEq, Repr

inductive Err
  | type | model | value
  deriving DecidableEq, Repr

structure Star where
  state : Option SState
  get : String → Val

/-- `setattr`. -/
def Star.set (s : Star) (k : String) (v : Val) : Star := { s with get := fun x => if x = k then v else s.get x }

/-- `x + y`: `None` raises TypeError. -/
def add : Val → Val → Except Err Val
  | .none, _ => .error .type
  | _, .none => .error .type
  | .num a, .num b => .ok (.num (a + b))
  | _, _ => .ok .nan

/-- `x - y`. -/
def sub : Val → Val → Except Err Val
  | .none, _ => .error .type
  | _, .none => .error .type
  | .num a, .num b => .ok (.num (a - b))
  | _, _ => .ok .nan

/-- `x == 0`. -/
def eq0 : Val → Bool
  | .num a => a == 0
  | _ => false

/-- `x > 0`. -/
def gt0 : Val → Except Err Bool
  | .none => .error .type
  | .nan => .ok false
  | .num a => .ok (decide (0 < a))

/-- The names of weights, l.152-174. -/
inductive Weight
  | mass | hEnv | heEnv | key (k : String)

/-- l.152-162 and l.164-174 (a `None` becomes NaN afterwards, see `mean`). -/
def weight (s : Star) : Weight → Except Err Val
  | .mass => .ok (s.get "mass")
  | .hEnv => sub (s.get "mass") (s.get "he_core_mass")
  | .heEnv => sub (s.get "he_core_mass") (s.get "co_core_mass")
  | .key k => .ok (s.get k)

/-- l.176-182. -/
def mean : Val → Val → Val → Val → Val
  | .num a1, .num a2, .num m1, .num m2 => if m1 + m2 = 0 then .nan else .num ((a1 * m1 + a2 * m2) / (m1 + m2))
  | _, _, _, _ => .nan

/-- `mass_weighted_avg`, l.125-194. -/
def avg (s1 s2 : Star) (n : String) (w1 w2 : Weight) : Except Err Val :=
  match weight s1 w1 with
  | .error e => .error e
  | .ok m1 =>
    match weight s2 w2 with
    | .error e => .error e
    | .ok m2 => .ok (mean (s1.get n) (s2.get n) m1 m2)

/-- `for name in names: setattr(m, name, f(m, name))`. -/
def loop (f : Star → String → Except Err Val) : List String → Star → Except Err Star
  | [], m => .ok m
  | n :: ns, m =>
    match f m n with
    | .error e => .error e
    | .ok v => loop f ns (m.set n v)

/-- STARPROPERTIES without `state`, singlestar.py l.40-111. -/
def starProps : List String :=
  ["metallicity", "mass", "log_R", "log_L", "lg_mdot", "lg_system_mdot", "lg_wind_mdot", "he_core_mass",
   "he_core_radius", "c_core_mass", "c_core_radius", "o_core_mass", "o_core_radius", "co_core_mass", "co_core_radius",
   "center_h1", "center_he4", "center_c12", "center_n14", "center_o16", "surface_h1", "surface_he4", "surface_c12",
   "surface_n14", "surface_o16", "log_LH", "log_LHe", "log_LZ", "log_Lnuc", "c12_c12", "center_gamma", "avg_c_in_c_core",
   "surf_avg_omega", "surf_avg_omega_div_omega_crit", "total_moment_of_inertia", "log_total_angular_momentum", "spin",
   "conv_env_top_mass", "conv_env_bot_mass", "conv_env_top_radius", "conv_env_bot_radius", "conv_env_turnover_time_g",
   "conv_env_turnover_time_l_b", "conv_env_turnover_time_l_t", "envelope_binding_energy", "mass_conv_reg_fortides",
   "thickness_conv_reg_fortides", "radius_conv_reg_fortides", "lambda_CE_1cent", "lambda_CE_10cent", "lambda_CE_30cent",
   "lambda_CE_pure_He_star_10cent", "profile", "total_mass_h1", "total_mass_he4"]

/-- `sub in key` for strings. -/
def contains (key sub : List Char) : Bool :=
  match key with
  | [] => sub.isEmpty
  | c :: cs => sub.isPrefixOf (c :: cs) || contains cs sub

/-- l.215. -/
def nanSubstrings : List String := ["log_", "lg_", "surf_", "conv_", "lambda", "profile"]
/-- l.216. -/
def nanKeys : List String := ["c12_c12", "total_moment_of_inertia", "spin"]

/-- The test in l.219. -/
def erased (extra : List String) (key : String) : Bool :=
  nanSubstrings.any (fun s => contains key.toList s.toList) || extra.contains key || nanKeys.contains key

/-- `_apply_nan_attributes`, l.196-220. -/
def applyNan (extra : List String) (s : Star) : Star :=
  { s with get := fun k => if starProps.contains k && erased extra k then .nan else s.get k }

/-- `convert_star_to_massless_remnant`, singlestar.py l.122-133. -/
def massless (s : Star) : Star :=
  { state := some .massless, get := fun k => if k = "mass" then .num 0 else if starProps.contains k then .nan else s.get k }

/-- The value of the classification as a state of the flow chart. -/
def ofState : StarState.State → Option SState
  | .massless => some .massless
  | .WD => some .WD
  | .NS => some .NS
  | .BH => some .BH
  | .normal .Hrich .coreH => some .hCoreH
  | .normal .Hrich .coreHe => some .hCoreHe
  | .normal .Hrich .shellH => some .hShellH
  | .normal .Hrich .nonBurning => some .hNon
  | .normal .Hrich .coreHeDep => some .hCoreHeDep
  | .normal .Hrich .coreCDep => some .hCoreCDep
  | .normal .accreted .coreH => some .aCoreH
  | .normal .accreted .coreHe => some .aCoreHe
  | .normal .accreted .shellH => some .aShellH
  | .normal .accreted .nonBurning => some .aNon
  | .normal .stripped .coreHe => some .sCoreHe
  | .normal .stripped .nonBurning => some .sNon
  | .normal .stripped .coreHeDep => some .sCoreHeDep
  | .normal .stripped .coreCDep => some .sCoreCDep
  | _ => none

def Val.q : Val → Option ℚ
  | .num a => Option.some a
  | _ => Option.none

/-- The parameters of the step. -/
structure Cfg where
  crit : ℚ         -- merger_critical_rot
  loss : ℚ         -- rel_mass_lost_HMS_HMS
  rnd : ℚ → ℚ      -- rounding to ten digits
  rel : ℚ          -- REL_LOG10_BURNING_THRESHOLD

def inputs (s : Star) : StarState.Inputs :=
  ⟨(s.get "mass").q, (s.get "surface_h1").q, (s.get "center_h1").q, (s.get "center_he4").q, (s.get "center_c12").q,
   (s.get "log_LH").q, (s.get "log_LHe").q, (s.get "log_Lnuc").q⟩

/-- `check_state_of_star(star, star_CO=False)`: with a surface abundance, `None` in a central abundance or luminosity raises TypeError. -/
def classify (cfg : Cfg) (s : Star) : Except Err (Option SState) :=
  if (s.get "surface_h1").q.isSome &&
      ["center_h1", "center_he4", "center_c12", "log_LH", "log_LHe", "log_Lnuc"].any (fun k => decide (s.get k = .none)) then .error .type
  else .ok (ofState (StarState.inferNormal cfg.rnd cfg.rel (inputs s)))

def surfaces : List String := ["surface_h1", "surface_he4", "surface_c12", "surface_n14", "surface_o16"]
def centers5 : List String := ["center_h1", "center_he4", "center_c12", "center_n14", "center_o16"]
def centers : List String := centers5 ++ ["avg_c_in_c_core"]
def massKeys : List String := ["mass", "he_core_mass", "c_core_mass", "o_core_mass", "co_core_mass"]

/-- l.28-35. -/
def listHMS : List SState := [.hCoreH]
def listHeMS : List SState := [.sCoreHe]
def listPostMS : List SState := removeAll starHRich listHMS
def listPostHeMS : List SState := removeAll starHeRich listHeMS

/-- The branches of `merged_star_properties`. -/
inductive Branch
  | hmsHms | postHms | hmsPost | postPost | postHeMS | heMSPost | postPostHe | postHePost | heHe | wd | nsbh
  deriving DecidableEq, Repr

/-- l.245-719: the first condition that holds. -/
def branch (s1 s2 : Option SState) : Option Branch :=
  let m (s : Option SState) (l : List SState) : Bool := match s with
    | some x => l.contains x
    | none => false
  if m s1 listHMS && m s2 listHMS then some .hmsHms
  else if m s1 listPostMS && m s2 listHMS then some .postHms
  else if m s1 listHMS && m s2 listPostMS then some .hmsPost
  else if m s1 listPostMS && m s2 listPostMS then some .postPost
  else if m s1 listPostMS && m s2 listHeMS then some .postHeMS
  else if m s1 listHeMS && m s2 listPostMS then some .heMSPost
  else if m s1 listPostMS && m s2 listPostHeMS then some .postPostHe
  else if m s1 listPostHeMS && m s2 listPostMS then some .postHePost
  else if m s1 starHeRich && m s2 starHeRich then some .heHe
  else if m s1 starNotCO && m s2 [.WD] then some .wd
  else if m s1 starNotCO && m s2 [.NS, .BH] then some .nsbh
  else none

/-- `setattr(m, name, mass_weighted_avg(star_base, comp, ...))` with `m` the same object as `star_base`. -/
def mixB (comp : Star) (w1 w2 : Weight) (m : Star) (n : String) : Except Err Val := avg m comp n w1 w2
/-- The same with `m` the same object as `comp`. -/
def mixC (base : Star) (w1 w2 : Weight) (m : Star) (n : String) : Except Err Val := avg base m n w1 w2
/-- `getattr(star_base, key) + getattr(comp, key)`. -/
def sumB (comp : Star) (m : Star) (n : String) : Except Err Val := add (m.get n) (comp.get n)
def sumC (base : Star) (m : Star) (n : String) : Except Err Val := add (base.get n) (m.get n)
/-- `setattr(m, name, getattr(other, name))`. -/
def copy (other : Star) (_ : Star) (n : String) : Except Err Val := .ok (other.get n)

/-- Python's `and` of a comparison that may raise and another one. -/
def andE (a b : Except Err Bool) : Except Err Bool :=
  match a with
  | .error e => .error e
  | .ok false => .ok false
  | .ok true => b

/-- `if c: x else: y`. -/
def iteE (c : Except Err Bool) (x y : Except Err Star) : Except Err Star :=
  match c with
  | .error e => .error e
  | .ok true => x
  | .ok false => y

def bindE (x : Except Err Star) (f : Star → Except Err Star) : Except Err Star :=
  match x with
  | .error e => .error e
  | .ok m => f m

def gammaNan (m : Star) : Except Err Star := .ok (m.set "center_gamma" .nan)
def gammaOf (other : Star) (m : Star) : Except Err Star := .ok (m.set "center_gamma" (other.get "center_gamma"))

/-- l.337-379, l.489-528 and l.606-643, `merged_star` being `star_base`. -/
def cores4B (comp base : Star) : Except Err Star :=
  let cb := base.get "co_core_mass"
  let cc := comp.get "co_core_mass"
  iteE (.ok (eq0 cb && eq0 cc)) (bindE (loop (mixB comp (.key "he_core_mass") (.key "he_core_mass")) centers base) gammaNan)
    (iteE (andE (gt0 cb) (.ok (eq0 cc))) (.ok base)
      (iteE (andE (gt0 cc) (.ok (eq0 cb))) (bindE (loop (copy comp) centers base) (gammaOf comp))
        (iteE (andE (gt0 cb) (gt0 cc)) (bindE (loop (mixB comp (.key "co_core_mass") (.key "co_core_mass")) centers base) gammaNan)
          (.ok base))))

/-- l.552-585, `merged_star` being `comp`. -/
def cores4C (base comp : Star) : Except Err Star :=
  let cb := base.get "co_core_mass"
  let cc := comp.get "co_core_mass"
  iteE (.ok (eq0 cb && eq0 cc)) (bindE (loop (mixC base (.key "he_core_mass") (.key "he_core_mass")) centers comp) gammaNan)
    (iteE (andE (gt0 cb) (.ok (eq0 cc))) (bindE (loop (copy base) centers comp) (gammaOf base))
      (iteE (andE (gt0 cc) (.ok (eq0 cb))) (.ok comp)
        (iteE (andE (gt0 cb) (gt0 cc)) (bindE (loop (mixC base (.key "co_core_mass") (.key "co_core_mass")) centers comp) gammaNan)
          (.ok comp))))

/-- l.412-429: in both last cases the star stays as it is. -/
def cores2B (comp base : Star) : Except Err Star :=
  let cb := base.get "co_core_mass"
  let cc := comp.get "co_core_mass"
  iteE (.ok (eq0 cb && eq0 cc)) (bindE (loop (mixB comp (.key "he_core_mass") (.key "he_core_mass")) centers base) gammaNan)
    (iteE (andE (gt0 cb) (.ok (eq0 cc))) (.ok base) (.ok base))

/-- l.451-467. -/
def cores2C (base comp : Star) : Except Err Star :=
  let cb := base.get "co_core_mass"
  let cc := comp.get "co_core_mass"
  iteE (.ok (eq0 cb && eq0 cc)) (bindE (loop (mixC base (.key "he_core_mass") (.key "he_core_mass")) centers comp) gammaNan)
    (iteE (andE (.ok (eq0 cb)) (gt0 cc)) (.ok comp) (.ok comp))

/-- l.676-697. -/
def coresWD (comp base : Star) : Except Err Star :=
  let cb := base.get "co_core_mass"
  let known : Bool := decide (comp.get "co_core_mass" ≠ .none)
  iteE (.ok (known && eq0 cb)) (bindE (loop (copy comp) centers base) (gammaOf comp))
    (iteE (andE (.ok known) (gt0 cb)) (bindE (loop (mixB comp (.key "co_core_mass") (.key "co_core_mass")) centers base) gammaNan)
      (.ok base))

/-- `_apply_nan_attributes` followed by the classification. -/
def settle (cfg : Cfg) (m : Star) : Except Err Star :=
  match classify cfg (applyNan [] m) with
  | .error e => .error e
  | .ok st => .ok { applyNan [] m with state := st }

/-- `v * x` for a value that is not `None`. -/
def Val.scale (v : Val) (x : ℚ) : Val :=
  match v with
  | .num y => .num (y * x)
  | w => w

/-- l.249-267. -/
def prodHmsHms (cfg : Cfg) (base comp : Star) : Except Err Star :=
  bindE (loop (mixB comp .mass .mass) (centers5 ++ surfaces) base) fun m =>
    match add (m.get "mass") (comp.get "mass") with
    | .error e => .error e
    | .ok v => .ok (applyNan ["center_gamma", "avg_c_in_c_core", "envelope_binding_energy"]
        (m.set "mass" (v.scale (1 - cfg.loss))))

/-- l.278-297: the luminosities are assigned to themselves. -/
def prodPostHms (cfg : Cfg) (base comp : Star) : Except Err Star :=
  bindE (loop (mixB comp .hEnv .mass) surfaces base) fun m => bindE (loop (sumB comp) ["mass"] m) (settle cfg)

/-- l.305-324, the product is `comp`. -/
def prodHmsPost (cfg : Cfg) (base comp : Star) : Except Err Star :=
  bindE (loop (mixC base .mass .hEnv) surfaces comp) fun m => bindE (loop (sumC base) ["mass"] m) (settle cfg)

/-- l.333-400. -/
def prodPostPost (cfg : Cfg) (base comp : Star) : Except Err Star :=
  bindE (cores4B comp base) fun m =>
    bindE (loop (mixB comp .hEnv .hEnv) surfaces m) fun m' => bindE (loop (sumB comp) massKeys m') (settle cfg)

/-- l.408-440. -/
def prodPostHeMS (cfg : Cfg) (base comp : Star) : Except Err Star :=
  bindE (cores2B comp base) fun m => bindE (loop (sumB comp) massKeys m) (settle cfg)

/-- l.447-478. -/
def prodHeMSPost (cfg : Cfg) (base comp : Star) : Except Err Star :=
  bindE (cores2C base comp) fun m => bindE (loop (sumC base) massKeys m) (settle cfg)

/-- l.485-539. -/
def prodPostPostHe (cfg : Cfg) (base comp : Star) : Except Err Star :=
  bindE (cores4B comp base) fun m => bindE (loop (sumB comp) massKeys m) (settle cfg)

/-- l.546-596. -/
def prodPostHePost (cfg : Cfg) (base comp : Star) : Except Err Star :=
  bindE (cores4C base comp) fun m => bindE (loop (sumC base) massKeys m) (settle cfg)

/-- l.603-663: the surface is mixed after the masses were added. -/
def prodHeHe (cfg : Cfg) (base comp : Star) : Except Err Star :=
  bindE (cores4B comp base) fun m =>
    bindE (loop (sumB comp) massKeys m) fun m' => bindE (loop (mixB comp .heEnv .heEnv) surfaces m') (settle cfg)

/-- l.670-707: the mass of the white dwarf is added to every core mass. -/
def prodWD (cfg : Cfg) (base comp : Star) : Except Err Star :=
  bindE (coresWD comp base) fun m =>
    bindE (loop (fun m n => add (m.get n) (comp.get "mass")) massKeys m) (settle cfg)

/-- The product of a branch and whether it is the object `comp`. -/
def product (cfg : Cfg) (base comp : Star) : Branch → Except Err Star
  | .hmsHms => prodHmsHms cfg base comp
  | .postHms => prodPostHms cfg base comp
  | .hmsPost => prodHmsPost cfg base comp
  | .postPost => prodPostPost cfg base comp
  | .postHeMS => prodPostHeMS cfg base comp
  | .heMSPost => prodHeMSPost cfg base comp
  | .postPostHe => prodPostPostHe cfg base comp
  | .postHePost => prodPostHePost cfg base comp
  | .heHe => prodHeHe cfg base comp
  | .wd => prodWD cfg base comp
  | .nsbh => .ok base

/-- The branches in which the product is the object `comp`. -/
def isComp : Branch → Bool
  | .hmsPost | .heMSPost | .postHePost => true
  | _ => false

/-- `merged_star_properties`, l.222-723. -/
def merge (cfg : Cfg) (base comp : Star) : Except Err (Star × Star) :=
  match branch base.state comp.state with
  | none => .error .model
  | some .nsbh => .ok (massless base, comp)
  | some b =>
    match product cfg base comp b with
    | .error e => .error e
    | .ok m => .ok (m.set "surf_avg_omega_div_omega_crit" (.num cfg.crit), massless (if isComp b then base else comp))

structure Binary where
  star1 : Star
  star2 : Star
  state : BState
  event : Ev

def mergeOne (cfg : Cfg) (b : Binary) : Except Err Binary :=
  match merge cfg b.star1 b.star2 with
  | .error e => .error e
  | .ok v => .ok { b with star1 := v.1, star2 := v.2 }

def mergeTwo (cfg : Cfg) (b : Binary) : Except Err Binary :=
  match merge cfg b.star2 b.star1 with
  | .error e => .error e
  | .ok v => .ok { b with star2 := v.1, star1 := v.2 }

def heRich (s : Star) : Bool := match s.state with
  | some x => starHeRich.contains x
  | none => false

/-- `MergedStep.__call__`, l.77-95. -/
def call (cfg : Cfg) (b : Binary) : Except Err Binary :=
  if b.state = .merged then
    if b.event = .oMerging1 then mergeOne cfg b
    else if b.event = .oMerging2 then mergeTwo cfg b
    else .error .value
  else if heRich b.star1 && heRich b.star2 then
    if b.event = .oRLO1 then mergeOne cfg { b with state := .merged }
    else if b.event = .oRLO2 then mergeTwo cfg { b with state := .merged }
    else .error .value
  else .error .value

/-! ### Specification -/

/-- A number. -/
def IsNum (v : Val) : Prop := ∃ x, v = .num x

/-- All masses of a star are numbers. -/
def Numeric (s : Star) : Prop := ∀ k ∈ massKeys, IsNum (s.get k)

/-- `v` is the mean of `a1` and `a2` with weights `m1` and `m2`. -/
def MeanOf (a1 m1 a2 m2 : ℚ) (v : Val) : Prop := ∃ x, v = .num x ∧ x * (m1 + m2) = a1 * m1 + a2 * m2

/-- Stars exchanged. -/
def Binary.mirror (b : Binary) : Binary := { star1 := b.star2, star2 := b.star1, state := b.state.mirror, event := b.event.mirror }

def mirrorR (r : Except Err Binary) : Except Err Binary :=
  match r with
  | .ok o => .ok o.mirror
  | .error e => .error e

end Verif.Merged
