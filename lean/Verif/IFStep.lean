import Verif.Evolve
import Verif.Single
/-!
Model of `MesaGridStep.initial_final_interpolation`, `/repo/posydon/binary_evol/MESA/step_mesa.py` l.879-1052, with the table
`POSYDON_TO_MESA` (l.41-117).

Simplifications: values are of any type `V`; the names of the columns of the interpolated values are composed of the number of the star and
a name (`Col`) instead of being text; the classification of the stars and of the binary and the rate of accretion are parameters. Exceptions
are values.
-/
namespace Verif.IFStep

inductive Err
  | key | index | unbound
  deriving DecidableEq, Repr

/-- Columns of the interpolated values: of the binary (`x`), the mass of a star (`star_1_mass`), columns of a star in the history of the binary
(`x_1`), of a star (`S1_x`), of a star and a supernova model (`S1_model_x`). The first star is `false`. -/
inductive Col
  | bin (x : String)
  | mass (k : Bool)
  | rate (x : String) (k : Bool)
  | star (k : Bool) (x : String)
  | sn (k : Bool) (model x : String)
  deriving DecidableEq

/-- Entries of `POSYDON_TO_MESA`: `None`, `True`, or a name. -/
inductive Src
  | null | yes | name (s : String)
  deriving DecidableEq

/-- `POSYDON_TO_MESA['binary']`, l.42-61. -/
def bmap : List (String × Src) :=
  [("state", .yes), ("event", .yes), ("time", .name "age"), ("separation", .name "binary_separation"), ("orbital_period", .name "period_days"),
   ("eccentricity", .yes), ("V_sys", .yes), ("rl_relative_overflow_1", .name "rl_relative_overflow_1"),
   ("rl_relative_overflow_2", .name "rl_relative_overflow_2"), ("lg_mtransfer_rate", .name "lg_mtransfer_rate"), ("trap_radius", .name "trap_radius"),
   ("acc_radius", .name "acc_radius"), ("t_sync_rad_1", .name "t_sync_rad_1"), ("t_sync_conv_1", .name "t_sync_conv_1"),
   ("t_sync_rad_2", .name "t_sync_rad_2"), ("t_sync_conv_2", .name "t_sync_conv_2"), ("mass_transfer_case", .yes), ("nearest_neighbour_distance", .yes)]

/-- `POSYDON_TO_MESA['star']`, l.62-116. -/
def smap : List (String × Src) :=
  [("state", .yes), ("metallicity", .yes), ("mass", .name "mass"), ("log_R", .name "log_R"), ("log_L", .name "log_L"), ("lg_mdot", .name "lg_mstar_dot"),
   ("lg_system_mdot", .name "lg_system_mdot"), ("lg_wind_mdot", .name "lg_wind_mdot"), ("he_core_mass", .name "he_core_mass"),
   ("he_core_radius", .name "he_core_radius"), ("c_core_mass", .name "c_core_mass"), ("c_core_radius", .name "c_core_radius"),
   ("o_core_mass", .name "o_core_mass"), ("o_core_radius", .name "o_core_radius"), ("co_core_mass", .name "co_core_mass"),
   ("co_core_radius", .name "co_core_radius"), ("center_h1", .name "center_h1"), ("center_he4", .name "center_he4"), ("center_c12", .name "center_c12"),
   ("center_n14", .name "center_n14"), ("center_o16", .name "center_o16"), ("surface_h1", .name "surface_h1"), ("surface_he4", .name "surface_he4"),
   ("surface_c12", .name "surface_c12"), ("surface_n14", .name "surface_n14"), ("surface_o16", .name "surface_o16"), ("log_LH", .name "log_LH"),
   ("log_LHe", .name "log_LHe"), ("log_LZ", .name "log_LZ"), ("log_Lnuc", .name "log_Lnuc"), ("c12_c12", .name "c12_c12"),
   ("center_gamma", .name "center_gamma"), ("avg_c_in_c_core", .null), ("surf_avg_omega", .name "surf_avg_omega"),
   ("surf_avg_omega_div_omega_crit", .name "surf_avg_omega_div_omega_crit"), ("total_moment_of_inertia", .name "total_moment_of_inertia"),
   ("log_total_angular_momentum", .name "log_total_angular_momentum"), ("spin", .name "spin_parameter"), ("conv_env_top_mass", .name "conv_env_top_mass"),
   ("conv_env_bot_mass", .name "conv_env_bot_mass"), ("conv_env_top_radius", .name "conv_env_top_radius"),
   ("conv_env_bot_radius", .name "conv_env_bot_radius"), ("conv_env_turnover_time_g", .name "conv_env_turnover_time_g"),
   ("conv_env_turnover_time_l_b", .name "conv_env_turnover_time_l_b"), ("conv_env_turnover_time_l_t", .name "conv_env_turnover_time_l_t"),
   ("envelope_binding_energy", .name "envelope_binding_energy"), ("mass_conv_reg_fortides", .name "mass_conv_reg_fortides"),
   ("thickness_conv_reg_fortides", .name "thickness_conv_reg_fortides"), ("radius_conv_reg_fortides", .name "radius_conv_reg_fortides"),
   ("lambda_CE_1cent", .name "lambda_CE_1cent"), ("lambda_CE_10cent", .name "lambda_CE_10cent"), ("lambda_CE_30cent", .name "lambda_CE_30cent"),
   ("lambda_CE_pure_He_star_10cent", .name "lambda_CE_pure_He_star_10cent"), ("profile", .yes), ("total_mass_h1", .name "total_mass_h1"),
   ("total_mass_he4", .name "total_mass_he4")]

/-- `d[key]` -/
def look (d : List (String × Src)) (key : String) : Option Src := (d.find? fun p => p.1 == key).map (·.2)

/-- `key_post_processed`, l.1004-1013. -/
def post : List String :=
  ["avg_c_in_c_core_at_He_depletion", "co_core_mass_at_He_depletion", "m_core_CE_1cent", "m_core_CE_10cent", "m_core_CE_30cent",
   "m_core_CE_pure_He_star_10cent", "r_core_CE_1cent", "r_core_CE_10cent", "r_core_CE_30cent", "r_core_CE_pure_He_star_10cent"]

/-- Keys of a supernova model besides state and type, l.1033-1035. -/
def snNums : List String := ["f_fb", "mass", "spin", "m_disk_accreted", "m_disk_radiated", "M4", "mu4", "h1_mass_ej", "he4_mass_ej"]

/-- Values the code writes by itself, and the functions it uses. -/
structure Ops (V : Type) where
  none : V
  nan3 : V
  text : String → V
  add : V → V → V
  /-- spin after accretion from spin, mass before, mass after -/
  spin : V → V → V → V
  /-- logarithm of the radius of a compact object of a mass -/
  logR : V → V

structure Star (V : Type) where
  attr : String → V
  /-- the supernova models: `None` or a dictionary -/
  sn : String → Option (List (String × V))

structure Bin (V : Type) where
  attr : String → V
  hist : String → List V
  s1 : Star V
  s2 : Star V
  /-- `interp_class_<grid>` and `mt_history_<grid>` -/
  cls : Option (String × String)

variable {V : Type}

def setv (f : String → V) (k : String) (v : V) : String → V := fun x => if x = k then v else f x

/-- A loop over keys with `setattr`; `none` for `continue`. -/
def loop (val : String → V → Except Err (Option V)) : List String → (String → V) → Except Err (String → V)
  | [], f => .ok f
  | k :: ks, f =>
    match val k (f k) with
    | .error e => .error e
    | .ok none => loop val ks f
    | .ok (some v) => loop val ks (setv f k v)

/-- `fv[key]` -/
def need (fv : Col → Option V) (c : Col) : Except Err V :=
  match fv c with
  | none => .error .key
  | some v => .ok v

/-- The value of a property of the binary, l.888-904. -/
def valB (P : Ops V) (hist : String → List V) (fv : Col → Option V) (key : String) (cur : V) : Except Err (Option V) :=
  match look bmap key with
  | none => .error .key
  | some .null => .ok (some P.none)
  | some s =>
    if key = "time" then
      match s with
      | .name p => (need fv (.bin p)).map fun d => some (P.add cur d)
      | _ => .error .key
    else if key = "nearest_neighbour_distance" then .ok (some P.nan3)
    else if key = "eccentricity" ∨ key = "V_sys" then
      match (hist key).getLast? with
      | none => .error .index
      | some v => .ok (some v)
    else if key = "state" ∨ key = "event" ∨ key = "mass_transfer_case" then .ok none
    else match s with
      | .name p => (need fv (.bin p)).map some
      | _ => .error .key

/-- The value of a property of a star, l.907-925. -/
def valS (P : Ops V) (k : Bool) (fv : Col → Option V) (key : String) (cur : V) : Except Err (Option V) :=
  match look smap key with
  | none => .error .key
  | some .null => .ok (some P.none)
  | some s =>
    if key = "mass" then (need fv (.mass k)).map some
    else if key = "metallicity" then .ok (some cur)
    else if key = "profile" then .ok (some P.none)
    else if key = "lg_mdot" ∨ key = "lg_system_mdot" ∨ key = "lg_wind_mdot" then
      match s with
      | .name p => (need fv (.rate p k)).map some
      | _ => .error .key
    else if key = "state" then .ok none
    else match s with
      | .name p => (need fv (.star k p)).map some
      | _ => .error .key

/-- The value of a property of a compact object, l.926-952. -/
def valC (P : Ops V) (k : Bool) (prevMass : V) (fv : Col → Option V) (key : String) (cur : V) : Except Err (Option V) :=
  match look smap key with
  | none => .error .key
  | some .null => .ok (some P.none)
  | some s =>
    if key = "mass" then (need fv (.mass k)).map some
    else if key = "spin" then (need fv (.mass k)).map fun m => some (P.spin cur prevMass m)
    else if key = "log_R" then (need fv (.mass k)).map fun m => some (P.logR m)
    else if key = "metallicity" then .ok (some cur)
    else if key = "profile" then .ok (some P.none)
    else if key = "lg_mdot" ∨ key = "lg_system_mdot" ∨ key = "lg_wind_mdot" then
      match s with
      | .name p => (need fv (.rate p k)).map some
      | _ => .error .key
    else .ok none

/-- The loop for a star, l.905-952. -/
def star (P : Ops V) (co k : Bool) (fv : Col → Option V) (s : Star V) : Except Err (Star V) :=
  (loop (if co then valC P k (s.attr "mass") fv else valS P k fv) Evolve.starProperties s.attr).map fun a => { s with attr := a }

/-- The post-processed values of a star, l.1018-1024. -/
def postVal (P : Ops V) (k unstable : Bool) (fv : Col → Option V) (key : String) (_ : V) : Except Err (Option V) :=
  if unstable ∧ (key = "avg_c_in_c_core_at_He_depletion" ∨ key = "co_core_mass_at_He_depletion") then .ok (some P.none)
  else (need fv (.star k key)).map some

/-- The numbers of a supernova model, l.1042-1049: `none` if one of them is missing. -/
def snNumbers (k : Bool) (model : String) (fv : Col → Option V) : List String → Option (List (String × V))
  | [] => some []
  | x :: xs =>
    match fv (.sn k model x), snNumbers k model fv xs with
    | some v, some l => some ((x, v) :: l)
    | _, _ => none

/-- A supernova model of a star, l.1030-1052. -/
def snModel (P : Ops V) (co k : Bool) (model : String) (classes : Col → Option String) (fv : Col → Option V) : Except Err (Option (List (String × V))) :=
  if co then .ok none
  else match classes (.sn k model "CO_type") with
    | none => .error .key
    | some st =>
      if st = "None" then .ok none
      else match classes (.sn k model "SN_type") with
        | none => .error .key
        | some ty => .ok ((snNumbers k model fv snNums).map fun l => ("state", P.text st) :: ("SN_type", P.text ty) :: l)

/-- The models of a star. Simplification: the loops over models and stars are exchanged; the entries do not depend on each other. -/
def snAll (P : Ops V) (co k : Bool) (classes : Col → Option String) (fv : Col → Option V) : List String → (String → Option (List (String × V))) →
    Except Err (String → Option (List (String × V)))
  | [], f => .ok f
  | m :: ms, f =>
    match snModel P co k m classes fv with
    | .error e => .error e
    | .ok v => snAll P co k classes fv ms fun x => if x = m then v else f x

/-- The classifications: states of the stars, and state, event and mass-transfer case of the binary for an interpolation class; accretion onto the
compact object from the interpolated rate. -/
structure Classify (V : Type) where
  star : Star V → Bool → V
  binary : Bin V → String → String × String × String
  accrete : Bin V → V → V

/-- The accretion, l.984-1003. -/
def accreted (C : Classify V) (co1 co2 : Bool) (fv : Col → Option V) (b : Bin V) : Except Err (Bin V) :=
  if co1 && co2 then .error .unbound
  else if co1 then (need fv (.rate "lg_mstar_dot" false)).map fun v => { b with s1 := { b.s1 with attr := setv b.s1.attr "lg_mdot" (C.accrete b v) } }
  else if co2 then (need fv (.rate "lg_mstar_dot" true)).map fun v => { b with s2 := { b.s2 with attr := setv b.s2.attr "lg_mdot" (C.accrete b v) } }
  else .ok b

/-- The second part, l.983-1052. -/
def finish (P : Ops V) (C : Classify V) (co1 co2 : Bool) (classes : Col → Option String) (fv : Col → Option V) (ic : String) (b : Bin V) : Except Err (Bin V) :=
  match accreted C co1 co2 fv b with
  | .error e => .error e
  | .ok b =>
    let un := decide (ic = "unstable_MT")
    match (if co1 then .ok b.s1.attr else loop (postVal P false un fv) post b.s1.attr), (if co2 then .ok b.s2.attr else loop (postVal P true un fv) post b.s2.attr) with
    | .ok a1, .ok a2 =>
      if un then .ok { b with s1 := { b.s1 with attr := a1 }, s2 := { b.s2 with attr := a2 } }
      else match snAll P co1 false classes fv Single.models b.s1.sn, snAll P co2 true classes fv Single.models b.s2.sn with
        | .ok n1, .ok n2 => .ok { b with s1 := ⟨a1, n1⟩, s2 := ⟨a2, n2⟩ }
        | .error e, _ => .error e
        | _, .error e => .error e
    | .error e, _ => .error e
    | _, .error e => .error e

/-- `initial_final_interpolation`, l.879-1052. -/
def interpolate (P : Ops V) (C : Classify V) (co1 co2 : Bool) (classes : Col → Option String) (fv : Col → Option V) (b : Bin V) : Except Err (Bin V) :=
  match loop (valB P b.hist fv) Evolve.binaryProperties b.attr with
  | .error e => .error e
  | .ok a =>
    match star P co1 false fv b.s1 with
    | .error e => .error e
    | .ok s1 =>
      match star P co2 true fv b.s2 with
      | .error e => .error e
      | .ok s2 =>
        match classes (.bin "interpolation_class"), classes (.bin "mt_history") with
        | some ic, some mt =>
          let b : Bin V := { b with attr := a, s1 := s1, s2 := s2, cls := some (ic, mt) }
          let x1 := C.star s1 co1
          let x2 := C.star s2 co2
          let b : Bin V := if ic ≠ "initial_MT" then
              { b with s1 := { s1 with attr := setv s1.attr "state" x1 }, s2 := { s2 with attr := setv s2.attr "state" x2 } }
            else b
          let (st, ev, mtc) := C.binary b ic
          let b : Bin V := { b with attr := setv (setv (setv b.attr "state" (P.text st)) "event" (P.text ev)) "mass_transfer_case" (P.text mtc) }
          if st = "initial_RLOF" then .ok b else finish P C co1 co2 classes fv ic b
        | _, _ => .error .key

/-! ### Specification -/

/-- Where the value of a property comes from. -/
inductive Want
  | none | nan3 | plus (c : Col) | last | keep | take (c : Col) | accretedSpin (c : Col) | radius (c : Col)
  deriving DecidableEq

/-- The binary: the time advances by the age of the track, period and separation have other names in the tracks. -/
def wantB (key : String) : Want :=
  if key = "state" ∨ key = "event" ∨ key = "mass_transfer_case" then .keep
  else if key = "eccentricity" ∨ key = "V_sys" then .last
  else if key = "nearest_neighbour_distance" then .nan3
  else if key = "time" then .plus (.bin "age")
  else if key = "separation" then .take (.bin "binary_separation")
  else if key = "orbital_period" then .take (.bin "period_days")
  else .take (.bin key)

/-- A star: masses and rates are columns of the binary, the others have the name of the property, except the spin. -/
def wantS (k : Bool) (key : String) : Want :=
  if key = "state" ∨ key = "metallicity" then .keep
  else if key = "profile" ∨ key = "avg_c_in_c_core" then .none
  else if key = "mass" then .take (.mass k)
  else if key = "lg_mdot" then .take (.rate "lg_mstar_dot" k)
  else if key = "lg_system_mdot" ∨ key = "lg_wind_mdot" then .take (.rate key k)
  else if key = "spin" then .take (.star k "spin_parameter")
  else .take (.star k key)

/-- A compact object: only masses and rates are taken from the tracks. -/
def wantC (k : Bool) (key : String) : Want :=
  if key = "profile" ∨ key = "avg_c_in_c_core" then .none
  else if key = "mass" then .take (.mass k)
  else if key = "lg_mdot" then .take (.rate "lg_mstar_dot" k)
  else if key = "lg_system_mdot" ∨ key = "lg_wind_mdot" then .take (.rate key k)
  else if key = "spin" then .accretedSpin (.mass k)
  else if key = "log_R" then .radius (.mass k)
  else .keep

/-- The value, if the columns are there; `before`: the mass before the step. -/
def Want.eval (P : Ops V) (hist : List V) (before : V) (fv : Col → Option V) (cur : V) : Want → Option V
  | .none => some P.none
  | .nan3 => some P.nan3
  | .plus c => (fv c).map (P.add cur)
  | .last => hist.getLast?
  | .keep => some cur
  | .take c => fv c
  | .accretedSpin c => (fv c).map (P.spin cur before)
  | .radius c => (fv c).map P.logR

/-- The column of a value. -/
def Want.col : Want → Option Col
  | .plus c => some c
  | .take c => some c
  | .accretedSpin c => some c
  | .radius c => some c
  | _ => Option.none

/-- The star a column belongs to. -/
def Col.of : Col → Option Bool
  | .bin _ => none
  | .mass k => some k
  | .rate _ k => some k
  | .star k _ => some k
  | .sn k _ _ => some k

/-! ### Lemmas -/

theorem loop_ok {val : String → V → Except Err (Option V)} : ∀ {l : List String} {f g : String → V}, l.Nodup → loop val l f = .ok g →
    (∀ k, k ∉ l → g k = f k) ∧ ∀ k ∈ l, ∃ o, val k (f k) = .ok o ∧ g k = o.getD (f k) := by
  intro l
  induction l with
  | nil => intro f g _ h; simp only [loop, Except.ok.injEq] at h; subst h; simp
  | cons a l ih =>
    intro f g hn h
    obtain ⟨ha, hn⟩ := List.nodup_cons.1 hn
    simp only [loop] at h
    cases hv : val a (f a) with
    | error e => rw [hv] at h; simp at h
    | ok o =>
      rw [hv] at h
      cases o with
      | none =>
        obtain ⟨i1, i2⟩ := ih hn h
        refine ⟨fun k hk => i1 k fun hm => hk (List.mem_cons_of_mem _ hm), fun k hk => ?_⟩
        rcases List.mem_cons.1 hk with rfl | hm
        · exact ⟨_, hv, i1 _ ha⟩
        · exact i2 k hm
      | some v =>
        obtain ⟨i1, i2⟩ := ih hn h
        refine ⟨fun k hk => ?_, fun k hk => ?_⟩
        · rw [i1 k fun hm => hk (List.mem_cons_of_mem _ hm)]
          have hne : k ≠ a := fun e => hk (e ▸ List.mem_cons_self)
          simp only [setv, if_neg hne]
        · rcases List.mem_cons.1 hk with rfl | hm
          · exact ⟨_, hv, by rw [i1 _ ha]; simp [setv]⟩
          · have hne : k ≠ a := fun e => ha (e ▸ hm)
            have := i2 k hm
            simpa only [setv, if_neg hne] using this

theorem loop_total {val : String → V → Except Err (Option V)} : ∀ {l : List String} {f : String → V}, l.Nodup → (∀ k ∈ l, ∃ o, val k (f k) = .ok o) →
    ∃ g, loop val l f = .ok g := by
  intro l
  induction l with
  | nil => intro f _ _; exact ⟨f, rfl⟩
  | cons a l ih =>
    intro f hn h
    obtain ⟨ha, hn⟩ := List.nodup_cons.1 hn
    obtain ⟨o, ho⟩ := h a List.mem_cons_self
    simp only [loop, ho]
    cases o with
    | none => exact ih hn fun k hk => h k (List.mem_cons_of_mem _ hk)
    | some v =>
      refine ih hn fun k hk => ?_
      have hne : k ≠ a := fun e => ha (e ▸ hk)
      simpa only [setv, if_neg hne] using h k (List.mem_cons_of_mem _ hk)

theorem loop_error {val : String → V → Except Err (Option V)} : ∀ {l : List String} {f : String → V} {e : Err}, l.Nodup → loop val l f = .error e →
    ∃ k ∈ l, val k (f k) = .error e := by
  intro l
  induction l with
  | nil => intro f e _ h; simp [loop] at h
  | cons a l ih =>
    intro f e hn h
    obtain ⟨ha, hn⟩ := List.nodup_cons.1 hn
    simp only [loop] at h
    cases hv : val a (f a) with
    | error e' => rw [hv] at h; simp only [Except.error.injEq] at h; exact ⟨a, List.mem_cons_self, h ▸ hv⟩
    | ok o =>
      rw [hv] at h
      cases o with
      | none => obtain ⟨k, hk, hh⟩ := ih hn h; exact ⟨k, List.mem_cons_of_mem _ hk, hh⟩
      | some v =>
        obtain ⟨k, hk, hh⟩ := ih hn h
        have hne : k ≠ a := fun ee => ha (ee ▸ hk)
        exact ⟨k, List.mem_cons_of_mem _ hk, by simpa only [setv, if_neg hne] using hh⟩

theorem nodupB : Evolve.binaryProperties.Nodup := by decide +kernel
theorem nodupS : Evolve.starProperties.Nodup := by decide +kernel
theorem nodupPost : post.Nodup := by decide +kernel

/-- The table for the stars, whole. -/
theorem smap_table : ∀ key ∈ Evolve.starProperties, look smap key =
    some (if key = "avg_c_in_c_core" then .null else if key = "state" ∨ key = "metallicity" ∨ key = "profile" then .yes
      else if key = "lg_mdot" then .name "lg_mstar_dot" else if key = "spin" then .name "spin_parameter" else .name key) := by decide +kernel

/-- The table for the binary, whole. -/
theorem bmap_table : ∀ key ∈ Evolve.binaryProperties, look bmap key =
    some (if key = "state" ∨ key = "event" ∨ key = "mass_transfer_case" ∨ key = "nearest_neighbour_distance" ∨ key = "eccentricity" ∨ key = "V_sys" then .yes
      else if key = "time" then .name "age" else if key = "separation" then .name "binary_separation" else if key = "orbital_period" then .name "period_days"
      else .name key) := by decide +kernel

theorem valB_eval (P : Ops V) (hist : String → List V) (x : V) (fv : Col → Option V) {key : String} (hk : key ∈ Evolve.binaryProperties) (cur : V) :
    (∀ o, valB P hist fv key cur = .ok o → (wantB key).eval P (hist key) x fv cur = some (o.getD cur)) ∧
      ∀ e, valB P hist fv key cur = .error e → (wantB key).eval P (hist key) x fv cur = none := by
  have ht := bmap_table key hk
  have hcol : ∀ c : Col, (∀ o, (need fv c).map some = .ok o → fv c = some (o.getD cur)) ∧ ∀ e, (need fv c).map some = .error e → fv c = none := by
    intro c
    unfold need
    cases fv c with
    | none => simp [Except.map]
    | some v => constructor <;> (intro o h; simp only [Except.map, Except.ok.injEq, reduceCtorEq] at h) ; subst h; rfl
  by_cases h1 : key = "time"
  · subst h1
    have ht : look bmap "time" = some (.name "age") := ht
    have hw : wantB "time" = .plus (.bin "age") := by decide +kernel
    rw [hw]
    simp only [valB, ht, if_true, Want.eval, need]
    cases fv (.bin "age") with
    | none => simp [Except.map]
    | some v => constructor <;> (intro o h; simp only [Except.map, Except.ok.injEq, reduceCtorEq] at h) ; subst h; rfl
  by_cases h2 : key = "nearest_neighbour_distance"
  · subst h2
    have ht : look bmap "nearest_neighbour_distance" = some .yes := ht
    have hw : wantB "nearest_neighbour_distance" = .nan3 := by decide +kernel
    rw [hw]
    simp only [valB, ht, if_neg h1, if_true, Want.eval]
    constructor <;> (intro o h; simp only [Except.ok.injEq, reduceCtorEq] at h) ; subst h; rfl
  by_cases h3 : key = "eccentricity" ∨ key = "V_sys"
  · have ht : look bmap key = some .yes := by rcases h3 with rfl | rfl <;> exact ht
    have hw : wantB key = .last := by rcases h3 with rfl | rfl <;> decide +kernel
    rw [hw]
    simp only [valB, ht, if_neg h1, if_neg h2, if_pos h3, Want.eval]
    cases (hist key).getLast? with
    | none => simp
    | some v => constructor <;> (intro o h; simp only [Except.ok.injEq, reduceCtorEq] at h) ; subst h; rfl
  by_cases h4 : key = "state" ∨ key = "event" ∨ key = "mass_transfer_case"
  · have ht : look bmap key = some .yes := by rcases h4 with rfl | rfl | rfl <;> exact ht
    have hw : wantB key = .keep := by simp only [wantB, if_pos h4]
    rw [hw]
    simp only [valB, ht, if_neg h1, if_neg h2, if_neg h3, if_pos h4, Want.eval]
    constructor <;> (intro o h; simp only [Except.ok.injEq, reduceCtorEq] at h) ; subst h; rfl
  · rw [if_neg (by tauto), if_neg h1] at ht
    simp only [valB, ht, if_neg h1, if_neg h2, if_neg h3, if_neg h4, wantB]
    by_cases h5 : key = "separation"
    · simp only [if_pos h5]; exact hcol _
    · by_cases h6 : key = "orbital_period"
      · simp only [if_neg h5, if_pos h6]; exact hcol _
      · simp only [if_neg h5, if_neg h6]; exact hcol _

theorem valS_eval (P : Ops V) (k : Bool) (hist : List V) (x : V) (fv : Col → Option V) {key : String} (hk : key ∈ Evolve.starProperties) (cur : V) :
    (∀ o, valS P k fv key cur = .ok o → (wantS k key).eval P hist x fv cur = some (o.getD cur)) ∧
      ∀ e, valS P k fv key cur = .error e → (wantS k key).eval P hist x fv cur = none := by
  have ht := smap_table key hk
  have hcol : ∀ c : Col, (∀ o, (need fv c).map some = .ok o → fv c = some (o.getD cur)) ∧ ∀ e, (need fv c).map some = .error e → fv c = none := by
    intro c
    unfold need
    cases fv c with
    | none => simp [Except.map]
    | some v => constructor <;> (intro o h; simp only [Except.map, Except.ok.injEq, reduceCtorEq] at h) ; subst h; rfl
  have hok : ∀ a v : V, ∀ w : Option V, w.getD cur = a → (∀ o, (.ok w : Except Err (Option V)) = .ok o → some a = some (o.getD cur)) ∧
      ∀ e, (.ok w : Except Err (Option V)) = .error e → some a = none := by
    intro a v w hw
    constructor
    · intro o h; simp only [Except.ok.injEq] at h; rw [← h, hw]
    · intro e h; simp at h
  by_cases h0 : key = "avg_c_in_c_core"
  · subst h0
    have hw : wantS k "avg_c_in_c_core" = .none := by revert k; decide +kernel
    have ht : look smap "avg_c_in_c_core" = some .null := ht
    rw [hw]; simp only [valS, ht, Want.eval]; exact hok _ cur _ rfl
  rw [if_neg h0] at ht
  by_cases h1 : key = "mass"
  · subst h1
    have hw : wantS k "mass" = .take (.mass k) := by revert k; decide +kernel
    have ht : look smap "mass" = some (.name "mass") := ht
    rw [hw]; simp only [valS, ht, if_true, Want.eval]; exact hcol _
  by_cases h2 : key = "metallicity"
  · subst h2
    have hw : wantS k "metallicity" = .keep := by revert k; decide +kernel
    have ht : look smap "metallicity" = some .yes := ht
    rw [hw]; simp only [valS, ht, if_neg h1, if_true, Want.eval]; exact hok _ cur _ rfl
  by_cases h3 : key = "profile"
  · subst h3
    have hw : wantS k "profile" = .none := by revert k; decide +kernel
    have ht : look smap "profile" = some .yes := ht
    rw [hw]; simp only [valS, ht, if_neg h1, if_neg h2, if_true, Want.eval]; exact hok _ cur _ rfl
  by_cases h4 : key = "lg_mdot" ∨ key = "lg_system_mdot" ∨ key = "lg_wind_mdot"
  · rcases h4 with rfl | rfl | rfl
    · have hw : wantS k "lg_mdot" = .take (.rate "lg_mstar_dot" k) := by revert k; decide +kernel
      have ht : look smap "lg_mdot" = some (.name "lg_mstar_dot") := ht
      rw [hw]; simp only [valS, ht, if_neg h1, if_neg h2, if_neg h3, true_or, if_true, Want.eval]; exact hcol _
    · have hw : wantS k "lg_system_mdot" = .take (.rate "lg_system_mdot" k) := by revert k; decide +kernel
      have ht : look smap "lg_system_mdot" = some (.name "lg_system_mdot") := ht
      rw [hw]; simp only [valS, ht, if_neg h1, if_neg h2, if_neg h3, or_true, true_or, if_true, Want.eval]; exact hcol _
    · have hw : wantS k "lg_wind_mdot" = .take (.rate "lg_wind_mdot" k) := by revert k; decide +kernel
      have ht : look smap "lg_wind_mdot" = some (.name "lg_wind_mdot") := ht
      rw [hw]; simp only [valS, ht, if_neg h1, if_neg h2, if_neg h3, or_true, if_true, Want.eval]; exact hcol _
  by_cases h5 : key = "state"
  · subst h5
    have hw : wantS k "state" = .keep := by revert k; decide +kernel
    have ht : look smap "state" = some .yes := ht
    rw [hw]; simp only [valS, ht, if_neg h1, if_neg h2, if_neg h3, if_neg h4, if_true, Want.eval]; exact hok _ cur _ rfl
  · rw [if_neg (by tauto), if_neg (by tauto)] at ht
    have hw : wantS k key = if key = "spin" then .take (.star k "spin_parameter") else .take (.star k key) := by
      unfold wantS
      rw [if_neg (by tauto), if_neg (by tauto), if_neg h1, if_neg (by tauto), if_neg (by tauto)]
    rw [hw]
    by_cases h6 : key = "spin"
    · rw [if_pos h6] at ht
      simp only [valS, ht, if_neg h1, if_neg h2, if_neg h3, if_neg h4, if_neg h5, if_pos h6]; exact hcol _
    · rw [if_neg h6] at ht
      simp only [valS, ht, if_neg h1, if_neg h2, if_neg h3, if_neg h4, if_neg h5, if_neg h6]; exact hcol _

theorem valC_eval (P : Ops V) (k : Bool) (hist : List V) (x : V) (fv : Col → Option V) {key : String} (hk : key ∈ Evolve.starProperties) (cur : V) :
    (∀ o, valC P k x fv key cur = .ok o → (wantC k key).eval P hist x fv cur = some (o.getD cur)) ∧
      ∀ e, valC P k x fv key cur = .error e → (wantC k key).eval P hist x fv cur = none := by
  have ht := smap_table key hk
  have hmap : ∀ (g : V → V) (c : Col), (∀ o, (need fv c).map (fun v => some (g v)) = .ok o → (fv c).map g = some (o.getD cur)) ∧
      ∀ e, (need fv c).map (fun v => some (g v)) = .error e → (fv c).map g = none := by
    intro g c
    unfold need
    cases fv c with
    | none => simp [Except.map]
    | some v => constructor <;> (intro o h; simp only [Except.map, Except.ok.injEq, reduceCtorEq] at h) ; subst h; rfl
  have hcol : ∀ c : Col, (∀ o, (need fv c).map some = .ok o → fv c = some (o.getD cur)) ∧ ∀ e, (need fv c).map some = .error e → fv c = none := by
    intro c
    have := hmap id c
    simpa using this
  have hok : ∀ a : V, ∀ w : Option V, w.getD cur = a → (∀ o, (.ok w : Except Err (Option V)) = .ok o → some a = some (o.getD cur)) ∧
      ∀ e, (.ok w : Except Err (Option V)) = .error e → some a = none := by
    intro a w hw
    constructor
    · intro o h; simp only [Except.ok.injEq] at h; rw [← h, hw]
    · intro e h; simp at h
  by_cases h0 : key = "avg_c_in_c_core"
  · subst h0
    have hw : wantC k "avg_c_in_c_core" = .none := by revert k; decide +kernel
    have ht : look smap "avg_c_in_c_core" = some .null := ht
    rw [hw]; simp only [valC, ht, Want.eval]; exact hok _ _ rfl
  rw [if_neg h0] at ht
  by_cases h1 : key = "mass"
  · subst h1
    have hw : wantC k "mass" = .take (.mass k) := by revert k; decide +kernel
    have ht : look smap "mass" = some (.name "mass") := ht
    rw [hw]; simp only [valC, ht, if_true, Want.eval]; exact hcol _
  by_cases h2 : key = "spin"
  · subst h2
    have hw : wantC k "spin" = .accretedSpin (.mass k) := by revert k; decide +kernel
    have ht : look smap "spin" = some (.name "spin_parameter") := ht
    rw [hw]; simp only [valC, ht, if_neg h1, if_true, Want.eval]; exact hmap _ _
  by_cases h3 : key = "log_R"
  · subst h3
    have hw : wantC k "log_R" = .radius (.mass k) := by revert k; decide +kernel
    have ht : look smap "log_R" = some (.name "log_R") := ht
    rw [hw]; simp only [valC, ht, if_neg h1, if_neg h2, if_true, Want.eval]; exact hmap _ _
  by_cases h4 : key = "metallicity"
  · subst h4
    have hw : wantC k "metallicity" = .keep := by revert k; decide +kernel
    have ht : look smap "metallicity" = some .yes := ht
    rw [hw]; simp only [valC, ht, if_neg h1, if_neg h2, if_neg h3, if_true, Want.eval]; exact hok _ _ rfl
  by_cases h5 : key = "profile"
  · subst h5
    have hw : wantC k "profile" = .none := by revert k; decide +kernel
    have ht : look smap "profile" = some .yes := ht
    rw [hw]; simp only [valC, ht, if_neg h1, if_neg h2, if_neg h3, if_neg h4, if_true, Want.eval]; exact hok _ _ rfl
  by_cases h6 : key = "lg_mdot" ∨ key = "lg_system_mdot" ∨ key = "lg_wind_mdot"
  · rcases h6 with rfl | rfl | rfl
    · have hw : wantC k "lg_mdot" = .take (.rate "lg_mstar_dot" k) := by revert k; decide +kernel
      have ht : look smap "lg_mdot" = some (.name "lg_mstar_dot") := ht
      rw [hw]; simp only [valC, ht, if_neg h1, if_neg h2, if_neg h3, if_neg h4, if_neg h5, true_or, if_true, Want.eval]; exact hcol _
    · have hw : wantC k "lg_system_mdot" = .take (.rate "lg_system_mdot" k) := by revert k; decide +kernel
      have ht : look smap "lg_system_mdot" = some (.name "lg_system_mdot") := ht
      rw [hw]; simp only [valC, ht, if_neg h1, if_neg h2, if_neg h3, if_neg h4, if_neg h5, or_true, true_or, if_true, Want.eval]; exact hcol _
    · have hw : wantC k "lg_wind_mdot" = .take (.rate "lg_wind_mdot" k) := by revert k; decide +kernel
      have ht : look smap "lg_wind_mdot" = some (.name "lg_wind_mdot") := ht
      rw [hw]; simp only [valC, ht, if_neg h1, if_neg h2, if_neg h3, if_neg h4, if_neg h5, or_true, if_true, Want.eval]; exact hcol _
  · have hw : wantC k key = .keep := by
      unfold wantC
      rw [if_neg (by tauto), if_neg h1, if_neg (by tauto), if_neg (by tauto), if_neg h2, if_neg h3]
    have hv : valC P k x fv key cur = .ok none := by
      unfold valC
      rw [ht]
      split
      · rename_i hh; simp at hh
      · rename_i hh
        exfalso
        revert hh
        split_ifs <;> simp
      · simp only [if_neg h1, if_neg h2, if_neg h3, if_neg h4, if_neg h5, if_neg h6]
    rw [hw, hv]; exact hok _ _ rfl

end Verif.IFStep
