import Verif.Chars
import Verif.InterpProps
import Verif.Frame
import Mathlib.Analysis.SpecialFunctions.Log.Base
/-!
Model of `posydon/interpolation/interpolation.py`: the grid of single stars `GRIDInterpolator` (lines 320-767) and the nearest neighbour of
`psyTrackInterp` (lines 106-202), and of the function `get_track_val` in `posydon/binary_evol/track_match.py` (lines 605-650).

Simplifications: floating point numbers are real numbers, and the tracks (`history1`) hold no NaN; the tables of a run are functions of
the name of the column (all columns asked for exist); final values can be NaN, infinite, or a text. All runs are read when the object is made
(lines 517-519), so that reading them again after a `KeyError` (lines 581-583 and the like) finds the same columns. `np.log10(0.99)` is the parameter
`tol`. A run has at least one row.
-/
namespace Verif.Single
open Classical

/-- `ValueError` of numpy for empty arrays, `KeyError`, `TypeError`, `AttributeError`, and the errors of `interp1d`. -/
inductive Err
  | value | key | type | attribute | interp (e : Interp.Err)
deriving DecidableEq, Repr

/-- A row of a table. -/
abbrev Row := String → ℝ

/-- A name of a final value. -/
abbrev Name := List Char

/-- A final value. -/
inductive FV
  | nan | num (x : ℝ) | pinf | ninf | text (s : String)

/-- A run of the grid: the rows of `history1`, the final values, the values of each supernova model if they are in the grid, and the
rows of `final_profile1`, from the surface inwards. -/
structure Run where
  first : Row
  rest : List Row
  final : Name → FV
  sn : Name → Option (Name → FV)
  profile : List Row

def Run.rows (r : Run) : List Row := r.first :: r.rest

/-- Line 343: the initial mass. -/
def Run.mass (r : Run) : ℝ := r.first "star_mass"

/-- Lines 341-345. -/
def masses (g : List Run) : List ℝ := g.map Run.mass

/-- The names of the columns (lines 356-414). -/
def keys : List String :=
  ["age", "mass", "mdot", "conv_mx1_top_r", "conv_mx1_bot_r", "mass_conv_reg_fortides", "thickness_conv_reg_fortides", "radius_conv_reg_fortides",
   "surface_he3", "he_core_mass", "c_core_mass", "o_core_mass", "he_core_radius", "c_core_radius", "o_core_radius", "center_h1", "center_he4",
   "center_c12", "center_n14", "center_o16", "surface_h1", "surface_he4", "surface_c12", "surface_n14", "surface_o16", "c12_c12", "center_gamma",
   "avg_c_in_c_core", "surf_avg_omega", "surf_avg_omega_div_omega_crit", "log_LH", "log_LHe", "log_LZ", "log_Lnuc", "log_Teff", "log_L", "log_R",
   "inertia", "spin_parameter", "log_total_angular_momentum", "conv_env_top_mass", "conv_env_bot_mass", "conv_env_top_radius", "conv_env_bot_radius",
   "conv_env_turnover_time_g", "conv_env_turnover_time_l_b", "conv_env_turnover_time_l_t", "envelope_binding_energy", "mass_conv_reg_fortides",
   "thickness_conv_reg_fortides", "radius_conv_reg_fortides", "lambda_CE_1cent", "lambda_CE_10cent", "lambda_CE_30cent", "co_core_mass",
   "co_core_radius", "lambda_CE_pure_He_star_10cent", "total_mass_h1", "total_mass_he4"]

/-- The dictionary of the names in the tables (lines 416-476). -/
def table : List (String × String) :=
  [("age", "star_age"), ("mass", "star_mass"), ("he_core_mass", "he_core_mass"), ("c_core_mass", "c_core_mass"), ("o_core_mass", "o_core_mass"),
   ("he_core_radius", "he_core_radius"), ("c_core_radius", "c_core_radius"), ("o_core_radius", "o_core_radius"), ("center_h1", "center_h1"),
   ("center_he4", "center_he4"), ("center_c12", "center_c12"), ("center_n14", "center_n14"), ("center_o16", "center_o16"),
   ("surface_h1", "surface_h1"), ("surface_c12", "surface_c12"), ("surface_n14", "surface_n14"), ("surface_o16", "surface_o16"),
   ("surface_he4", "surface_he4"), ("c12_c12", "c12_c12"), ("avg_c_in_c_core", "avg_c_in_c_core"), ("center_gamma", "center_gamma"),
   ("surf_avg_omega", "surf_avg_omega"), ("surf_avg_omega_div_omega_crit", "surf_avg_omega_div_omega_crit"), ("log_LH", "log_LH"),
   ("log_LHe", "log_LHe"), ("log_LZ", "log_LZ"), ("log_Lnuc", "log_Lnuc"), ("log_Teff", "log_Teff"), ("log_L", "log_L"), ("log_R", "log_R"),
   ("inertia", "total_moment_of_inertia"), ("spin_parameter", "spin_parameter"), ("log_total_angular_momentum", "log_total_angular_momentum"),
   ("conv_env_top_mass", "conv_env_top_mass"), ("conv_env_bot_mass", "conv_env_bot_mass"), ("conv_env_top_radius", "conv_env_top_radius"),
   ("conv_env_bot_radius", "conv_env_bot_radius"), ("conv_env_turnover_time_g", "conv_env_turnover_time_g"),
   ("conv_env_turnover_time_l_b", "conv_env_turnover_time_l_b"), ("conv_env_turnover_time_l_t", "conv_env_turnover_time_l_t"),
   ("envelope_binding_energy", "envelope_binding_energy"), ("mass_conv_reg_fortides", "mass_conv_reg_fortides"),
   ("thickness_conv_reg_fortides", "thickness_conv_reg_fortides"), ("radius_conv_reg_fortides", "radius_conv_reg_fortides"),
   ("lambda_CE_1cent", "lambda_CE_1cent"), ("lambda_CE_10cent", "lambda_CE_10cent"), ("lambda_CE_30cent", "lambda_CE_30cent"),
   ("co_core_mass", "co_core_mass"), ("co_core_radius", "co_core_radius"), ("lambda_CE_pure_He_star_10cent", "lambda_CE_pure_He_star_10cent"),
   ("mdot", "star_mdot"), ("conv_mx1_top_r", "conv_mx1_top_r"), ("conv_mx1_bot_r", "conv_mx1_bot_r"), ("surface_he3", "surface_he3"),
   ("total_mass_h1", "total_mass_h1"), ("total_mass_he4", "total_mass_he4")]

/-- `self.translate[key]` for the keys loaded (lines 540-541). -/
def column (key : String) : Option String := if key ∈ keys then table.lookup key else none

/-- Lines 479-490. -/
def plainKeys : List String :=
  ["S1_avg_c_in_c_core_at_He_depletion", "S1_co_core_mass_at_He_depletion", "S1_m_core_CE_1cent", "S1_m_core_CE_10cent", "S1_m_core_CE_30cent",
   "S1_m_core_CE_pure_He_star_10cent", "S1_r_core_CE_1cent", "S1_r_core_CE_10cent", "S1_r_core_CE_30cent", "S1_r_core_CE_pure_He_star_10cent"]

/-- The names of `SN_MODELS` (`posydon/grids/SN_MODELS.py`, lines 43-521). -/
def models : List String :=
  ["SN_MODEL_v2_01", "SN_MODEL_v2_02", "SN_MODEL_v2_03", "SN_MODEL_v2_04", "SN_MODEL_v2_05", "SN_MODEL_v2_06", "SN_MODEL_v2_07", "SN_MODEL_v2_08",
   "SN_MODEL_v2_09", "SN_MODEL_v2_10", "SN_MODEL_v2_11", "SN_MODEL_v2_12", "SN_MODEL_v2_13", "SN_MODEL_v2_14", "SN_MODEL_v2_15", "SN_MODEL_v2_16",
   "SN_MODEL_v2_17", "SN_MODEL_v2_18", "SN_MODEL_v2_19", "SN_MODEL_v2_20", "SN_MODEL_v2_21", "SN_MODEL_v2_22", "SN_MODEL_v2_23", "SN_MODEL_v2_24",
   "SN_MODEL_v2_25", "SN_MODEL_v2_26", "SN_MODEL_v2_27", "SN_MODEL_v2_28"]

/-- Lines 495-497. -/
def snKeys : List String :=
  ["CO_type", "SN_type", "f_fb", "mass", "spin", "m_disk_accreted", "m_disk_radiated", "M4", "mu4", "h1_mass_ej", "he4_mass_ej"]

/-- Lines 501-513. -/
def profileKeys : List String :=
  ["radius", "mass", "logRho", "omega", "energy", "x_mass_fraction_H", "y_mass_fraction_He", "z_mass_fraction_metals", "neutral_fraction_H",
   "neutral_fraction_He", "avg_charge_He"]

/-- `np.max(self.grid_mass[M_new > self.grid_mass])`: `none` for the `ValueError` of an empty array. -/
noncomputable def below (ms : List ℝ) (m : ℝ) : Option ℝ := (ms.filter fun x => decide (x < m)).max?

/-- `np.min(self.grid_mass[M_new < self.grid_mass])`. -/
noncomputable def above (ms : List ℝ) (m : ℝ) : Option ℝ := (ms.filter fun x => decide (m < x)).min?

/-- Line 533: the first run with this mass. -/
noncomputable def find (g : List Run) (m : ℝ) : Option Run := g.find? fun r => decide (r.mass = m)

/-- `a + weight * (b - a)`. -/
def lerp (w a b : ℝ) : ℝ := a + w * (b - a)

/-- Lines 604-606 for one column of two runs: the shorter one decides the length. -/
def blend (w : ℝ) (c : String) (lo hi : Run) : List ℝ := List.zipWith (fun a b => lerp w (a c) (b c)) lo.rows hi.rows

/-- Lines 587 and 617: `np.argmax(np.log10(0.99) + log_L <= log_LH)`, zero if there is no such row. -/
noncomputable def zams (tol : ℝ) (l lh : List ℝ) : ℕ :=
  let ok := (List.zip l lh).map fun p => decide (tol + p.1 ≤ p.2)
  if true ∈ ok then ok.findIdx id else 0

/-- Lines 619-622. -/
def cut (key : String) (i : ℕ) (v : List ℝ) : List ℝ := (if key = "age" then v.map fun x => x - v.getD i 0 else v).drop i

/-- `get` (lines 559-622). -/
noncomputable def get (tol : ℝ) (g : List Run) (key : String) (m : ℝ) : Except Err (List ℝ) :=
  match find g m with
  | some r => match column key with
    | none => .error .key
    | some c => .ok (cut key (zams tol (r.rows.map (· "log_L")) (r.rows.map (· "log_LH"))) (r.rows.map (· c)))
  | none => match below (masses g) m, above (masses g) m with
    | some a, some b => match column key, find g a, find g b with
      | some c, some lo, some hi =>
        let w := (m - a) / (b - a)
        .ok (cut key (zams tol (blend w "log_L" lo hi) (blend w "log_LH" lo hi)) (blend w c lo hi))
      | _, _, _ => .error .key
    | _, _ => .error .value

/-- All keys of final values (lines 479-499). -/
def finalKeys : List Name :=
  plainKeys.map String.toList ++ models.flatMap fun m => snKeys.map fun k => (chars! "S1_") ++ m.toList ++ '_' :: k.toList

/-- Where a final value is found: in the table of final values, or in the row of a supernova model. -/
inductive FKey
  | plain (k : Name) | sn (model key : Name)
deriving DecidableEq

/-- Lines 542-550 with `_extract_model_name` (lines 22-28): where the value of a key is found; `none` for the `StopIteration` if no model fits. -/
def decode (key : Name) : Option FKey :=
  if Frame.isIn (chars! "SN_MODEL") key then
    match models.find? fun m => (m.toList ++ ['_']).isPrefixOf (key.drop 3) with
    | none => none
    | some m => some (.sn m.toList (['_'].intercalate (Frame.split ('_' :: m.toList ++ ['_']) key)))
  else some (.plain key)

/-- Lines 542-550: the value of a run. -/
def Run.value (r : Run) : FKey → FV
  | .plain k => r.final k
  | .sn m k => match r.sn m with
    | some row => row k
    | none => .nan

/-- The final value stored for a mass of the grid. -/
noncomputable def valueAt (g : List Run) (k : FKey) (m : ℝ) : FV := ((find g m).map (·.value k)).getD .nan

/-- `pd.isna`. -/
def FV.isNan : FV → Bool
  | .nan => true
  | _ => false

theorem filter_lt_length (p q : ℝ → Bool) : ∀ l : List ℝ, (∀ x ∈ l, p x = true → q x = true) → (∃ x ∈ l, q x = true ∧ p x = false) → (l.filter p).length < (l.filter q).length
  | [], _, h => by simp at h
  | a :: l, hi, hx => by
    have hle : ∀ l : List ℝ, (∀ x ∈ l, p x = true → q x = true) → (l.filter p).length ≤ (l.filter q).length := by
      intro l
      induction l with
      | nil => simp
      | cons a l ih =>
        intro h
        have := ih fun x hx => h x (by simp [hx])
        cases hp : p a with
        | true => simp [hp, h a (by simp) hp]; omega
        | false =>
          cases hq : q a with
          | true => simp [hp, hq]; omega
          | false => simp [hp, hq]; omega
    obtain ⟨x, hm, h1, h2⟩ := hx
    rcases List.mem_cons.1 hm with rfl | hm
    · have := hle l fun y hy => hi y (by simp [hy])
      simp [h1, h2]
      omega
    · have := filter_lt_length p q l (fun y hy => hi y (by simp [hy])) ⟨x, hm, h1, h2⟩
      cases hp : p a with
      | true => simp [hp, hi a (by simp) hp]; omega
      | false =>
        cases hq : q a with
        | true => simp [hp, hq]; omega
        | false => simp [hp, hq]; omega

theorem below_mem {ms : List ℝ} {m a : ℝ} (h : below ms m = some a) : a ∈ ms ∧ a < m := by
  have := List.max?_mem h
  simpa using this

theorem above_mem {ms : List ℝ} {m a : ℝ} (h : above ms m = some a) : a ∈ ms ∧ m < a := by
  have := List.min?_mem h
  simpa using this

/-- Lines 641-650: the next lower masses while the value is NaN. -/
noncomputable def goLow (g : List Run) (k : FKey) (m : ℝ) : ℝ × FV :=
  if (valueAt g k m).isNan then
    match h : below (masses g) m with
    | none => (m, valueAt g k m)
    | some a => goLow g k a
  else (m, valueAt g k m)
termination_by ((masses g).filter fun x => decide (x < m)).length
decreasing_by
  obtain ⟨h1, h2⟩ := below_mem h
  refine filter_lt_length _ _ _ ?_ ⟨a, h1, by simpa using h2, by simp⟩
  intro x _ hx
  simp only [decide_eq_true_eq] at hx ⊢
  linarith

/-- Lines 658-667: the next higher masses while the value is NaN. -/
noncomputable def goHigh (g : List Run) (k : FKey) (m : ℝ) : ℝ × FV :=
  if (valueAt g k m).isNan then
    match h : above (masses g) m with
    | none => (m, valueAt g k m)
    | some a => goHigh g k a
  else (m, valueAt g k m)
termination_by ((masses g).filter fun x => decide (m < x)).length
decreasing_by
  obtain ⟨h1, h2⟩ := above_mem h
  refine filter_lt_length _ _ _ ?_ ⟨a, h1, by simpa using h2, by simp⟩
  intro x _ hx
  simp only [decide_eq_true_eq] at hx ⊢
  linarith

/-- Lines 671-675: numbers, infinities and NaN; a difference of texts is a `TypeError`. The weight is finite and not zero, since the mass lies strictly
between the masses of the neighbours. -/
def mix (w : ℝ) : FV → FV → Except Err FV
  | .text _, _ => .error .type
  | _, .text _ => .error .type
  | .num a, .num b => .ok (.num (lerp w a b))
  | .nan, _ => .ok .nan
  | _, .nan => .ok .nan
  | .pinf, .pinf => .ok .nan
  | .ninf, .ninf => .ok .nan
  | a, _ => .ok a

/-- `get_final_values` (lines 624-677), for a known key. -/
noncomputable def getFinal (g : List Run) (k : FKey) (m : ℝ) : Except Err FV :=
  match find g m with
  | some r => .ok (r.value k)
  | none => match below (masses g) m, above (masses g) m with
    | some a, some b =>
      let lo := goLow g k a
      let hi := goHigh g k b
      mix ((m - lo.1) / (hi.1 - lo.1)) lo.2 hi.2
    | _, _ => .error .value

/-- `get_final_state` (lines 679-709), for a known key. -/
noncomputable def getState (g : List Run) (k : FKey) (m : ℝ) : Except Err FV :=
  match find g m with
  | some r => .ok (r.value k)
  | none => match below (masses g) m, above (masses g) m with
    | some a, some b => .ok (if m < a + (b - a) / 2 then valueAt g k a else valueAt g k b)
    | _, _ => .error .value

/-- The mass coordinate of a profile (lines 738-741). -/
noncomputable def coord (p : List Row) : List ℝ := p.map fun x => x "mass" / (p.head?.map (· "mass")).getD 1

/-- Lines 746-747 and 752-753: a column at the given coordinates. -/
noncomputable def resample (argsort : List Interp.Node → List Interp.Node) (xs ys at_ : List ℝ) : Except Err (List ℝ) :=
  match Interp.init argsort true xs ys .absent none none with
  | .error e => .error (.interp e)
  | .ok o => .ok (at_.map o.call)

/-- `get_profile` (lines 711-758), for a known key: the column, and the profile whose other columns are to be replaced. Profiles are not empty. -/
noncomputable def getProfile (argsort : List Interp.Node → List Interp.Node) (g : List Run) (key : String) (m : ℝ) : Except Err (List ℝ × List Row) :=
  match find g m with
  | some r => .ok (r.profile.map (· key), r.profile)
  | none => match below (masses g) m, above (masses g) m with
    | some a, some b => match find g a, find g b with
      | some lo, some hi =>
        let w := (m - a) / (b - a)
        if (coord lo.profile).getLastD 0 < (coord hi.profile).getLastD 0 then
          match resample argsort (coord lo.profile) (lo.profile.map (· key)) (coord hi.profile) with
          | .error e => .error e
          | .ok v => .ok (List.zipWith (lerp w) v (hi.profile.map (· key)), hi.profile)
        else
          match resample argsort (coord hi.profile) (hi.profile.map (· key)) (coord lo.profile) with
          | .error e => .error e
          | .ok v => .ok (List.zipWith (lerp w) (lo.profile.map (· key)) v, lo.profile)
      | _, _ => .error .key
    | _, _ => .error .value

/-- `get_track_val` of `track_match.py` (lines 605-650) for one time: `none` is NaN. `np.interp` raises `ValueError` only for arrays which are empty or
of different length, so that lines 643-648 are only reached then; both arrays have the length of the tracks, which have rows. -/
noncomputable def trackVal (tol : ℝ) (g : List Run) (key : String) (m t : ℝ) : Except Err (Option ℝ) :=
  match get tol g "age" m, get tol g key m with
  | .ok x, .ok y => match x.zip y with
    | [] => .ok none
    | p :: ps => .ok (some (Interp.npInterp p ps (some 1e99) (some 1e99) t))
  | .error .value, _ => .ok none
  | .ok _, .error .value => .ok none
  | .error e, _ => .error e
  | .ok _, .error e => .error e

/-! ### The nearest run of a grid of binaries -/

/-- The initial values of a run, whether it is usable (lines 117-119: converged, no NaN), and its number. -/
structure Binary where
  m1 : ℝ
  m2 : ℝ
  period : ℝ
  converged : Bool

/-- Lines 166-202: the three inputs after scaling with logarithms to base ten; with `q` the ratio of the masses is not scaled. -/
noncomputable def point (q : Bool) (m1 m2 p : ℝ) : ℝ × ℝ × ℝ :=
  (Real.logb 10 m1, if q then m2 / m1 else Real.logb 10 m2, Real.logb 10 p)

def dist2 (a b : ℝ × ℝ × ℝ) : ℝ := (a.1 - b.1) ^ 2 + (a.2.1 - b.2.1) ^ 2 + (a.2.2 - b.2.2) ^ 2

/-- Lines 106-139: any usable run of least distance may be found (`kd_tree` of scikit-learn). -/
def Nearest (q : Bool) (runs : List Binary) (m1 m2 p : ℝ) (i : ℕ) : Prop :=
  ∃ r, runs[i]? = some r ∧ r.converged = true ∧
    ∀ s ∈ runs, s.converged = true → dist2 (point q r.m1 r.m2 r.period) (point q m1 m2 p) ≤ dist2 (point q s.m1 s.m2 s.period) (point q m1 m2 p)

/-- Lines 141-146: the differences returned. -/
def diffs (r : Binary) (m1 m2 p : ℝ) : ℝ × ℝ × ℝ := (m1 - r.m1, m2 - r.m2, p - r.period)

/-! ### Scaling -/

/-- `scaler` (lines 248-267) and `inv_scaler` (lines 270-289). -/
noncomputable def scaler (x lo hi : ℝ) : ℝ := (x - lo) / (hi - lo)

def invScaler (x lo hi : ℝ) : ℝ := x * (hi - lo) + lo

end Verif.Single
