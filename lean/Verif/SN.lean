import Mathlib.Analysis.SpecialFunctions.Pow.Real
import Mathlib.Tactic.Linarith
import Mathlib.Tactic.NormNum
/-!
Model of the remnant masses of `posydon/binary_evol/SN/step_SN.py`: `check_SN_type` (lines 1124-1246), `PISN_prescription` (977-1122),
`compute_m_rembar` (1248-1456), the engines (2318-2561, 2712-2747, 2863-2906), the gravitational mass (727-729, 863-865) and
`check_SN_CO_match` (2910-2941).

Masses are real numbers; `none` stands for `NaN`. Nearest neighbour predictors and the tables of the engines are parameters. Warnings and verbose
output are left out.
-/
namespace Verif.SN

open Classical in
/-- comparison `x < y` where `x` may be `NaN` -/
noncomputable def ltN (x : Option ℝ) (y : ℝ) : Bool := match x with | some a => decide (a < y) | none => false

open Classical in
/-- comparison `x > y` where `x` may be `NaN` -/
noncomputable def gtN (x : Option ℝ) (y : ℝ) : Bool := match x with | some a => decide (a > y) | none => false

inductive Err
  | value | model | unbound | zeroDiv
  deriving DecidableEq, Repr

/-- the option `ECSN` (step_SN.py lines 1126-1246); `other` is any other value -/
inductive Ecsn
  | tauris15 | podsiadlowski04 | none | other
  deriving DecidableEq, Repr

inductive SNType
  | WD | ECSN | CCSN | PPISN | PISN
  deriving DecidableEq, Repr

inductive CO
  | WD | NS | BH
  deriving DecidableEq, Repr

/-- mass of the white dwarf, step_SN.py lines 1137-1153 = 1178-1194 = 1218-1234 -/
noncomputable def wdMass (mc mhe : Option ℝ) (ms : ℝ) : Except Err (Option ℝ) :=
  if gtN mc 0 then .ok mc
  else if gtN mhe 0 then .ok mhe
  else if ms < 0.5 then .ok (some ms)
  else .error .model

/-- `check_SN_type` (step_SN.py lines 1124-1246): remnant mass and fallback fraction of a white dwarf (or `none`) and the type. -/
noncomputable def checkType (e : Ecsn) (mc mhe : Option ℝ) (ms : ℝ) : Except Err (Option (Option ℝ × ℝ) × SNType) :=
  match e with
  | .tauris15 =>
    if ltN mc 1.37 then
      match wdMass mc mhe ms with
      | .ok m => .ok (some (m, 1), .WD)
      | .error x => .error x
    else if (!ltN mc 1.37 && mc.isSome) && (!gtN mc 1.43 && mc.isSome) then .ok (none, .ECSN)
    else if gtN mc 1.43 then .ok (none, .CCSN)
    else .error .value
  | .podsiadlowski04 =>
    if ltN mhe 1.4 then
      match wdMass mc mhe ms with
      | .ok m => .ok (some (m, 1), .WD)
      | .error x => .error x
    else if (!ltN mhe 1.4 && mhe.isSome) && (!gtN mhe 2.5 && mhe.isSome) then .ok (none, .ECSN)
    else if gtN mhe 2.5 then .ok (none, .CCSN)
    else .error .value
  | .none =>
    if ltN mc 1.37 then
      match wdMass mc mhe ms with
      | .ok m => .ok (some (m, 1), .WD)
      | .error x => .error x
    else .ok (none, .CCSN)
  | .other => .error .value

/-! ### the engines -/

/-- A one-dimensional interpolation table (`interp1d`): range of the abscissa and interpolant. -/
structure Table where
  lo : ℝ
  hi : ℝ
  f : ℝ → ℝ

/-- `extrapolate1d_NS`, step_SN.py lines 2675-2685 -/
noncomputable def extrapNS (v : ℝ) (t : Table) : ℝ :=
  if v ≥ t.lo ∧ v ≤ t.hi then t.f v else if v < t.lo then t.f t.lo else t.f t.hi

/-- `extrapolate1d_BH`, step_SN.py lines 2689-2699 -/
noncomputable def extrapBH (v : ℝ) (t : Table) : ℝ :=
  if v ≥ t.lo ∧ v ≤ t.hi then t.f v else if v < t.lo then t.f t.lo else v

/-- Everything the engines look up for a star: the class predicted from the helium core mass, core mass at helium depletion, the explosion
parameters `M4`, `mu4`, `Xi`, `sc` and the random number of `NS_vs_fallbackBH`. -/
structure Look where
  cls : ℝ → ℕ
  ns : Table
  bh : Table
  coHe : ℝ
  M4 : ℝ
  mu4 : ℝ
  Xi : ℝ
  sc : ℝ
  rand : ℝ

/-- `Sukhbold16_corecollapse.__call__`, step_SN.py lines 2712-2747 -/
noncomputable def sukhbold (k : Look) (consH : Bool) (ms mhe : ℝ) : Except Err (ℝ × ℝ × CO) :=
  if k.cls mhe = 13 then .ok (extrapNS mhe k.ns, 0, .NS)
  else if k.cls mhe = 14 then .ok (if consH then extrapBH ms k.bh else extrapBH mhe k.bh, 1, .BH)
  else .error .value

/-- `Couch20_corecollapse.__call__`, step_SN.py lines 2863-2906 -/
noncomputable def couch (k : Look) (consH : Bool) (ms mhe : ℝ) : Except Err (ℝ × ℝ × CO) :=
  if k.cls mhe = 13 then .ok (1.4, 0, .NS)
  else if k.cls mhe = 14 then .ok (if consH then ms else mhe, 1, .BH)
  else .error .value

/-- `Ertl16_k_parameters`, step_SN.py lines 2345-2352 -/
noncomputable def ertlK : String → Option (ℝ × ℝ)
  | "N20" => some (0.194, 0.0580)
  | "S19.8" => some (0.274, 0.0470)
  | "W15" => some (0.225, 0.0495)
  | "W20" => some (0.284, 0.0393)
  | "W18" => some (0.283, 0.0430)
  | "Ertl2020" => some (0.182, 0.0608)
  | _ => none

/-- `Patton20_corecollapse`, step_SN.py lines 2354-2402 -/
noncomputable def patton (engine : String) (k : Look) (consH : Bool) (ms mhe : ℝ) : Except Err (ℝ × ℝ × CO) :=
  match ertlK engine with
  | none => .error .value
  | some (k1, k2) =>
    if k.coHe ≤ 2.5 then .ok (1.25, 0, .NS)
    else if k.coHe ≥ 10 then .ok (if consH then ms else mhe, 1, .BH)
    else if k1 * (k.mu4 * k.M4) + k2 < k.mu4 then .ok (if consH then ms else mhe, 1, .BH)
    else .ok (k.M4, 0, .NS)

/-- `explod_crit`, step_SN.py lines 2529-2561: does the star explode? -/
noncomputable def explodes (Xi sc mu4M4 mu4 k1 k2 : ℝ) : Bool :=
  if (Xi > 0.544 ∨ sc > 1.169) ∧ (Xi < 0.314 ∨ sc < 0.988) ∨ ¬(Xi > 0.544 ∨ sc > 1.169) ∧ ¬(Xi < 0.314 ∨ sc < 0.988) then
    if mu4M4 > 0.421 then false
    else if mu4M4 < 0.247 then true
    else if k1 + k2 * mu4M4 - mu4 > 0 then false
    else true
  else if Xi < 0.314 ∨ sc < 0.988 then true
  else false

/-- `NS_vs_fallbackBH`, step_SN.py lines 2514-2526: is the remnant of the explosion a neutron star? -/
noncomputable def leavesNS (Xi mco M4 mu4M4 rand : ℝ) : Bool :=
  if Xi ≤ 0.04 ∨ (Xi < 1.75 * mu4M4 + -0.044 ∧ Xi ≤ 0.4) ∨ M4 / mco > 0.6 then true
  else if rand ≤ 0.15 then false
  else true

/-- `Maltsev25_corecollapse`, step_SN.py lines 2437-2512 (the only engine is `M16`) -/
noncomputable def maltsev (engine : String) (k : Look) (consH : Bool) (ms mhe : ℝ) : Except Err (ℝ × ℝ × CO) :=
  if engine = "M16" then
    if k.coHe ≤ 2.5 then .ok (1.25, 0, .NS)
    else if k.coHe ≥ 10 then .ok (if consH then ms else mhe, 1, .BH)
    else if explodes k.Xi k.sc (k.mu4 * k.M4) k.mu4 0.005 0.420 then
      if leavesNS k.Xi k.coHe k.M4 (k.mu4 * k.M4) k.rand then .ok (k.M4, 0, .NS)
      else .ok (if consH then ms else mhe, 0.99, .BH)
    else .ok (if consH then ms else mhe, 1, .BH)
  else .error .value

/-! ### baryonic remnant mass -/

/-- the option `mechanism` (step_SN.py lines 299-319); engines carry their name -/
inductive Mech
  | rapid | delayed | direct | directHeCore | sukhbold | couch
  | patton (engine : String) | maltsev (engine : String)
  deriving DecidableEq, Repr

/-- mass before any cap, fallback fraction, predicted state -/
structure Raw where
  m : ℝ
  f : ℝ
  st : Option CO

/-- quotient `x / y`; a vanishing denominator is an error (a `ZeroDivisionError` for Python floats; numpy scalars give `inf`) -/
noncomputable def quot (x y : ℝ) : Except Err ℝ := if y = 0 then .error .zeroDiv else .ok (x / y)

/-- mass of the proto neutron star of an electron capture supernova: lines 1313-1316 = 1352-1355 = 1386-1389 = … -/
noncomputable def ecsnProto (e : Ecsn) (mc : ℝ) : ℝ := if e = .podsiadlowski04 then 1.38 else mc

/-- Fryer+12 rapid, step_SN.py lines 1308-1337 -/
noncomputable def rapid (e : Ecsn) (ty : SNType) (mc mcoll : ℝ) : Except Err Raw :=
  if ty = .ECSN then .ok ⟨ecsnProto e mc + 0, 0, none⟩
  else if mc < 2.5 then
    match quot 0.2 (mcoll - 1.1) with
    | .ok f => .ok ⟨1.1 + 0.2, f, none⟩
    | .error x => .error x
  else if mc ≥ 2.5 ∧ mc < 6 then
    match quot (0.286 * mc - 0.514) (mcoll - 1.1) with
    | .ok f => .ok ⟨1.1 + (0.286 * mc - 0.514), f, none⟩
    | .error x => .error x
  else if mc ≥ 6 ∧ mc < 7 then .ok ⟨1.1 + 1 * (mcoll - 1.1), 1, none⟩
  else if mc ≥ 7 ∧ mc < 11 then
    match quot 1.275 (mcoll - 1.1) with
    | .ok q => let a := 0.25 - q
               let f := a * mc + (-11 * a + 1)
               .ok ⟨1.1 + f * (mcoll - 1.1), f, none⟩
    | .error x => .error x
  else if mc ≥ 11 then .ok ⟨1.1 + 1 * (mcoll - 1.1), 1, none⟩
  else .error .unbound

/-- mass of the proto neutron star in Fryer+12 delayed, step_SN.py lines 1342-1349 -/
noncomputable def delayedProto (mc : ℝ) : ℝ :=
  if mc < 3.5 then 1.2 else if mc < 6 then 1.3 else if mc < 11 then 1.4 else 1.6

/-- Fryer+12 delayed, step_SN.py lines 1341-1373; if no branch applies `m_fb` is used unassigned (`UnboundLocalError`) -/
noncomputable def delayed (e : Ecsn) (ty : SNType) (mc mcoll : ℝ) : Except Err Raw :=
  let p := delayedProto mc
  if ty = .ECSN then .ok ⟨ecsnProto e mc + 0, 0, none⟩
  else if mc < 2.5 then
    match quot 0.2 (mcoll - p) with
    | .ok f => .ok ⟨p + 0.2, f, none⟩
    | .error x => .error x
  else if mc ≥ 2.5 ∧ mc < 3.5 then
    match quot (0.5 * mc - 1.05) (mcoll - p) with
    | .ok f => .ok ⟨p + (0.5 * mc - 1.05), f, none⟩
    | .error x => .error x
  else if mc ≥ 3.5 ∧ mc < 11 then
    match quot 0.093 (mcoll - p) with
    | .ok q => let a := 0.133 - q
               let f := a * mc + (-11 * a + 1)
               .ok ⟨p + f * (mcoll - p), f, none⟩
    | .error x => .error x
  else if mc > 11 then .ok ⟨p + 1 * (mcoll - p), 1, none⟩
  else .error .unbound

/-- the result of an engine, or a neutron star of an electron capture supernova: step_SN.py lines 1383-1443 -/
noncomputable def engine (e : Ecsn) (ty : SNType) (mc : ℝ) (r : Except Err (ℝ × ℝ × CO)) : Except Err Raw :=
  if ty = .ECSN then .ok ⟨ecsnProto e mc + 0, 0, some .NS⟩
  else match r with
    | .ok (m, f, st) => .ok ⟨m, f, some st⟩
    | .error x => .error x

/-- the dispatch on the mechanism, step_SN.py lines 1308-1445 -/
noncomputable def mechanism (mech : Mech) (e : Ecsn) (k : Look) (consH : Bool) (ty : SNType) (mc mhe ms mcoll : ℝ) : Except Err Raw :=
  match mech with
  | .rapid => rapid e ty mc mcoll
  | .delayed => delayed e ty mc mcoll
  | .direct => .ok ⟨mcoll, 1, none⟩
  | .sukhbold => engine e ty mc (sukhbold k consH ms mhe)
  | .couch => engine e ty mc (couch k consH ms mhe)
  | .patton n => engine e ty mc (patton n k consH ms mhe)
  | .maltsev n => engine e ty mc (maltsev n k consH ms mhe)
  | .directHeCore => .error .value

/-- core masses of the star -/
structure Cores where
  ms : ℝ
  mc : Option ℝ
  mhe : ℝ

/-- baryonic mass (`none` is `NaN`), fallback fraction, predicted state and type -/
structure Rem where
  m : Option ℝ
  f : ℝ
  st : Option CO
  ty : SNType

/-- the cap by pair instability, step_SN.py lines 1448-1456; `cap`: `none` is `None`, `some none` is `NaN` -/
noncomputable def capped (cap : Option (Option ℝ)) (r : Raw) (ty : SNType) : Rem :=
  match cap with
  | none => ⟨some r.m, r.f, r.st, ty⟩
  | some none => ⟨none, r.f, r.st, .PISN⟩
  | some (some p) => if r.m > p then ⟨some p, r.f, r.st, .PPISN⟩ else ⟨some r.m, r.f, r.st, ty⟩

/-- `compute_m_rembar`, step_SN.py lines 1276-1456. `s` are the masses of the star if its present or last recorded state can collapse. The state
of a white dwarf is `some WD`. -/
noncomputable def rembar (mech : Mech) (e : Ecsn) (k : Look) (consH : Bool) (s : Option Cores) (cap : Option (Option ℝ)) : Except Err Rem :=
  match s with
  | none => .error .value
  | some s =>
    match s.mc with
    | none => .error .value
    | some mc =>
      let mcoll := if consH then s.ms else s.mhe
      match checkType e (some mc) (some s.mhe) s.ms with
      | .error x => .error x
      | .ok (some (m, f), ty) => .ok ⟨m, f, some .WD, ty⟩
      | .ok (none, ty) =>
        match mechanism mech e k consH ty mc s.mhe s.ms mcoll with
        | .error x => .error x
        | .ok r => .ok (capped cap r ty)

/-! ### pair instability -/

/-- the option `PISN`; `other` is any other value -/
inductive Pisn
  | none | marchant19 | hendriks23 (shift extra : Option ℝ) | number (m : ℝ) | other

/-- polynomial of Marchant+19, step_SN.py lines 1004-1014 -/
noncomputable def marchantFit (m : ℝ) : ℝ :=
  -6.29429263e5 + 1.15957797e5 * m - 9.28332577e3 * m ^ 2 + 4.21856189e2 * m ^ 3 - 1.19019565e1 * m ^ 4
    + 2.13499267e-1 * m ^ 5 - 2.37814255e-3 * m ^ 6 + 1.50408118e-5 * m ^ 7 - 4.13587235e-8 * m ^ 8

/-- mass lost in pulses in Hendriks+23, step_SN.py lines 1042-1066; `Zs` is the solar metallicity -/
noncomputable def pulseLoss (shift extra Z Zs mc : ℝ) : ℝ :=
  if mc ≥ 38 + shift ∧ mc ≤ 114 + shift then
    let Z := if Z < 1e-4 then 1e-4 else Z
    (0.0006 * (Real.log (Z * Zs) / Real.log 10) + 0.0054) * (mc - shift - 34.8) ^ 3 - 0.0013 * (mc - shift - 34.8) ^ 2 + extra
  else 0

/-- `PISN_prescription`, step_SN.py lines 977-1122 (star with present state able to collapse and a known carbon-oxygen core): `none` is `None`,
`some none` is `NaN`. -/
noncomputable def pisn (mech : Mech) (e : Ecsn) (k : Look) (consH consHPPI : Bool) (Z Zs : ℝ) (p : Pisn) (ms mc mhe : ℝ) :
    Except Err (Option (Option ℝ)) :=
  match p with
  | .none => .ok none
  | .marchant19 =>
    if mhe ≥ 31.99 ∧ mhe ≤ 61.10 then .ok (some (some (marchantFit mhe)))
    else if mhe > 61.10 ∧ mhe < 124.12 then .ok (some none)
    else .ok (some (some (if consH then ms else mhe)))
  | .hendriks23 shift extra =>
    let d := pulseLoss (shift.getD 0) (extra.getD 0) Z Zs mc
    if d ≤ 0 then .ok (some (some (if consH then ms else mhe)))
    else
      let m := if consHPPI then ms - d else mhe - d
      if m < 0 then .ok (some none)
      else
        match rembar mech e k consH (some ⟨m, some (if mc > m then m else mc), if mhe > m then m else mhe⟩) (some (some m)) with
        | .error x => .error x
        | .ok r =>
          match r.m with
          | none => .ok (some none)
          | some b => if b < 10 then .ok (some none) else .ok (some (some b))
  | .number x =>
    if mhe > x then .ok (some (some x))
    else if 0 < mhe ∧ mhe ≤ x then .ok none
    else .error .value
  | .other => .error .value

/-! ### gravitational mass -/

/-- gravitational mass of the remnant, step_SN.py lines 727-729 = 863-865; `L` is the largest loss through neutrinos -/
noncomputable def mGrav (m L : ℝ) : ℝ :=
  let g := (20 / 3) * (Real.sqrt (1 + 0.3 * m) - 1)
  if m - g > L then m - L else g

/-- the state of the remnant where it is decided by mass, step_SN.py lines 738/757, 770/792, 807/810 -/
noncomputable def stateByMass (mNS g : ℝ) : CO := if g ≥ mNS then .BH else .NS

/-! ### agreement of type and remnant -/

/-- `check_SN_CO_match`, step_SN.py lines 2910-2941, on the strings -/
def coMatch (ty state : String) : Bool :=
  let state := if state = "PISN" then "massless_remnant" else state
  if state = "WD" ∧ ty ≠ "WD" then false
  else if state = "NS" ∧ (ty ≠ "ECSN" ∧ ty ≠ "CCSN") then false
  else if state = "BH" ∧ (ty ≠ "CCSN" ∧ ty ≠ "PPISN") then false
  else if state = "massless_remnant" ∧ ty ≠ "PISN" then false
  else true

/-! ### specification -/

/-- The core mass which decides and its two limits. -/
noncomputable def deciding (e : Ecsn) (mc mhe : ℝ) : ℝ := if e = .podsiadlowski04 then mhe else mc

noncomputable def lower (e : Ecsn) : ℝ := if e = .podsiadlowski04 then 1.4 else 1.37

/-- upper limit of electron capture; without it every core above the lower limit collapses -/
noncomputable def upper (e : Ecsn) : Option ℝ :=
  match e with | .tauris15 => some 1.43 | .podsiadlowski04 => some 2.5 | _ => none

/-- Type of a core: below the lower limit a white dwarf, up to the upper limit electron capture, above core collapse. -/
noncomputable def typeSpec (e : Ecsn) (mc mhe : ℝ) : SNType :=
  if deciding e mc mhe < lower e then .WD
  else match upper e with
    | some u => if deciding e mc mhe ≤ u then .ECSN else .CCSN
    | none => .CCSN

/-- a star whose core masses make sense -/
def Physical (s : Cores) : Prop := ∃ mc, s.mc = some mc ∧ 0 < mc ∧ mc ≤ s.mhe ∧ s.mhe ≤ s.ms

end Verif.SN
